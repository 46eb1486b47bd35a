import Verif.Sim.Front
import Verif.Lap.Guess
/-!
# Reading the bounds of a problem variable by variable
-/

namespace Lumos.Sim

open Lumos DecVar DecVar.Layout Bounds Ocp Lumos.Trans NLP

/-- The bounds that the configuration asks for a variable: those of the last boundary condition that mentions it, else those of the
last entry of the bounds that mentions it, else none. -/
noncomputable def limits (L : Layout) (bounds : List (BoundConfig EReal)) (bcs : List (BC EReal)) (v : Var) : Option EReal × Option EReal :=
  match lastMention L (bcs.map BC.req) v with
  | some r => (r.arg.lb.at (r.slot v), r.arg.ub.at (r.slot v))
  | none =>
    match lastMention L (bounds.map BoundConfig.req) v with
    | some r => (r.arg.lb.at (r.slot v), r.arg.ub.at (r.slot v))
    | none => (some ⊥, some ⊤)

/-- A number lies between two bounds. -/
def Inside (l : Option EReal × Option EReal) (a : ℝ) : Prop := ∃ lo hi, l = (some lo, some hi) ∧ lo ≤ (a : EReal) ∧ (a : EReal) ≤ hi

theorem inside_coe {a b c : ℝ} : Inside (some (a : EReal), some (b : EReal)) c ↔ a ≤ c ∧ c ≤ b := by
  constructor
  · rintro ⟨lo, hi, h, h1, h2⟩
    simp only [Prod.mk.injEq, Option.some.injEq] at h
    obtain ⟨rfl, rfl⟩ := h
    exact ⟨EReal.coe_le_coe_iff.mp h1, EReal.coe_le_coe_iff.mp h2⟩
  · rintro ⟨h1, h2⟩
    exact ⟨_, _, rfl, EReal.coe_le_coe_iff.mpr h1, EReal.coe_le_coe_iff.mpr h2⟩

theorem inside_fix {a c : ℝ} : Inside (some (a : EReal), some (a : EReal)) c ↔ c = a := by
  rw [inside_coe]
  constructor
  · rintro ⟨h1, h2⟩; linarith
  · rintro rfl; exact ⟨le_refl _, le_refl _⟩

theorem inside_free {c : ℝ} : Inside (some ⊥, some ⊤) c ↔ True := by
  simp [Inside]

theorem limits_eq {S : Setup} {D : List ℝ → ℝ → Prop} (h : S.Good D) (hcd : S.isCondensed = false) {b : Built} (hb : S.build = .ok b) {v : Var}
    (hv : S.c.o.L.IsVar v) {i : Nat} (hq : S.c.o.L.query v = .ok (.scalar i)) :
    (b.bounds.lb[i]?, b.bounds.ub[i]?) = limits S.c.o.L S.bounds S.bcs v := by
  obtain ⟨h1, h2, h3⟩ := C48_bounds h hb hv hq
  have hc : b.configBounds = S.bounds := by rw [h3, hcd]; simp
  rw [hc] at h1 h2
  rw [h1, h2]
  unfold limits
  cases lastMention S.c.o.L (S.bcs.map BC.req) v with
  | some r => rfl
  | none =>
    cases lastMention S.c.o.L (S.bounds.map BoundConfig.req) v <;> rfl

theorem read_query {S : Setup} {x : List ℝ} (hx : x.length = S.c.o.L.numDec) {s : Nat} {g n : String} {i : Nat} (hi : i < S.c.o.L.numDec)
    (hq : S.c.o.L.query (.stage s g n) = .ok (.scalar i)) : readAt S.c.o.L x g n s = x.getD i 0 := by
  have hq' : S.c.o.L.indexInDec g n (some (s : Int)) = .ok (.scalar i) := hq
  unfold readAt
  simp only [getVar, hq', bind, Except.bind, getIdx, getAt]
  simp [List.getD_eq_getElem?_getD, hx, hi, pure, Except.pure]

theorem read_scale {S : Setup} (hfree : S.c.o.fixedScale = none) {x : List ℝ} (hx : x.length = S.c.o.L.numDec) {i : Nat} (hi : i < S.c.o.L.numDec)
    (hq : S.c.o.L.query (.glob "mesh_scale") = .ok (.scalar i)) : readScale S.c.o x = x.getD i 0 := by
  have hq' : S.c.o.L.indexInDec "global" "mesh_scale" none = .ok (.scalar i) := hq
  unfold readScale
  rw [hfree]
  simp only [getVar, hq', bind, Except.bind, getIdx, getAt]
  simp [List.getD_eq_getElem?_getD, hx, hi, pure, Except.pure]

/-- A point is within the bounds of a problem with a free mesh scale iff every variable, as a user reads it, lies between the bounds
that the configuration asks for it. -/
theorem within_iff {S : Setup} {D : List ℝ → ℝ → Prop} (h : S.Good D) (hcd : S.isCondensed = false) (hfree : S.c.o.fixedScale = none)
    (hg : S.c.o.L.globals = ["mesh_scale"]) {b : Built} (hb : S.build = .ok b) {x : List ℝ} (hx : x.length = S.c.o.L.numDec) :
    Within b.bounds.lb b.bounds.ub x ↔
      (∀ s g n, S.c.o.L.IsVar (.stage s g n) → Inside (limits S.c.o.L S.bounds S.bcs (.stage s g n)) (readAt S.c.o.L x g n s)) ∧
      Inside (limits S.c.o.L S.bounds S.bcs (.glob "mesh_scale")) (readScale S.c.o x) := by
  have hL := h.cond.ocp.made
  obtain ⟨bb, o, s0, k1, _, _, _, _, _, _, _, ks, kb, _⟩ := build_ok h
  rw [hb, Except.ok.injEq] at k1
  subst k1
  have hlen : b.bounds.lb.length = S.c.o.L.numDec ∧ b.bounds.ub.length = S.c.o.L.numDec := by
    have f1 : (Bounds.fresh S.c.o.L : St EReal).lb.length = S.c.o.L.numDec := by simp [Bounds.fresh]
    have f2 : (Bounds.fresh S.c.o.L : St EReal).ub.length = S.c.o.L.numDec := by simp [Bounds.fresh]
    obtain ⟨a1, a2⟩ := LapSim.updateBounds_length f1 f2 ks
    have := run_length S.c.o.L s0 a1 a2 (.updateBCs S.bcs)
    simpa [Call.run, kb] using this
  have key : ∀ (v : Var) (a : ℝ), S.c.o.L.IsVar v → ∀ i, i < S.c.o.L.numDec → S.c.o.L.query v = .ok (.scalar i) → a = x.getD i 0 →
      (Inside (limits S.c.o.L S.bounds S.bcs v) a ↔ (b.bounds.lb.getD i 0 ≤ ((x.getD i 0 : ℝ) : EReal) ∧ ((x.getD i 0 : ℝ) : EReal) ≤ b.bounds.ub.getD i 0)) := by
    intro v a hv i hi hq ha
    have h1 : i < b.bounds.lb.length := by omega
    have h2 : i < b.bounds.ub.length := by omega
    rw [← limits_eq h hcd hb hv hq, ha, List.getElem?_eq_getElem h1, List.getElem?_eq_getElem h2, List.getD_eq_getElem?_getD (l := b.bounds.lb),
      List.getD_eq_getElem?_getD (l := b.bounds.ub), List.getElem?_eq_getElem h1, List.getElem?_eq_getElem h2]
    simp [Inside]
  constructor
  · intro hw
    constructor
    · intro s g n hv
      obtain ⟨i, hq, hi⟩ := C01_index_in_range hL hv
      exact (key _ _ hv i hi hq (read_query hx hi hq)).mpr (hw i (by omega))
    · have hv : S.c.o.L.IsVar (.glob "mesh_scale") := by
        show "mesh_scale" ∈ S.c.o.L.globals
        rw [hg]; simp
      obtain ⟨i, hq, hi⟩ := C01_index_in_range hL hv
      exact (key _ _ hv i hi hq (read_scale hfree hx hi hq)).mpr (hw i (by omega))
  · rintro ⟨w1, w2⟩ i hi
    rw [hx] at hi
    obtain ⟨v, hv, hq⟩ := C01_index_surjective hL i hi
    cases v with
    | stage s g n => exact (key _ _ hv i hi hq (read_query hx hi hq)).mp (w1 s g n hv)
    | glob n =>
      have hn : n ∈ S.c.o.L.globals := hv
      rw [hg, List.mem_singleton] at hn
      subst hn
      exact (key _ _ hv i hi hq (read_scale hfree hx hi hq)).mp w2


/-- `flatten_var` of tables of the right shape: reading the result gives the tables back. -/
theorem flatten_read {S : Setup} (h : S.c.Good) (hfree : S.c.o.fixedScale = none) (hg : S.c.o.L.globals = ["mesh_scale"])
    {A B C E : List (List ℝ)} (T : ℝ) (hA : Np.Rect S.c.o.L.numStages S.c.M.nx A) (hB : Np.Rect S.c.o.L.numStages S.c.M.nu B)
    (hC : Np.Rect S.c.o.L.numStages S.c.M.nx C) (hE : Np.Rect S.c.o.L.numStages S.c.M.ny E) :
    ∃ x, S.c.o.L.flattenVar ⟨[("states", A), ("inputs", B), ("states_dot", C), ("con_outputs", E)], [("mesh_scale", T)]⟩ = .ok x ∧
      x.length = S.c.o.L.numDec ∧ readScale S.c.o x = T ∧
      ∀ p ∈ [("states", A), ("inputs", B), ("states_dot", C), ("con_outputs", E)], ∀ (s : Nat) (hs : s < p.2.length),
        readGroup S.c.o.L x p.1 s = p.2[s] ∧
        ∀ (i : Nat) n a, (S.c.o.L.namesOf p.1)[i]? = some n → p.2[s][i]? = some a → readAt S.c.o.L x p.1 n s = a := by
  have hL := h.ocp.made
  have hF := h.ocp.fields
  obtain ⟨vars, hvars⟩ : ∃ vars : Vars ℝ, vars = ⟨[("states", A), ("inputs", B), ("states_dot", C), ("con_outputs", E)], [("mesh_scale", T)]⟩ :=
    ⟨_, rfl⟩
  have shaped : S.c.o.L.Shaped vars := by
    refine ⟨by rw [hvars, h.groups]; rfl, by rw [hvars, hg]; rfl, ?_⟩
    intro p hp
    rw [hvars] at hp
    simp only [List.mem_cons, List.not_mem_nil, or_false] at hp
    rcases hp with rfl | rfl | rfl | rfl
    · rw [h.sizeX]; exact hA
    · rw [h.sizeU]; exact hB
    · rw [h.sizeD]; exact hC
    · rw [h.sizeY]; exact hE
  obtain ⟨x, hx, hxl, _⟩ := C03_unflatten_flatten hF vars shaped
  rw [← hvars]
  refine ⟨x, hx, hxl, ?_, ?_⟩
  · unfold readScale
    rw [hfree]
    rw [C04_get_var_global hF shaped hx (n := "mesh_scale") (a := T) (by rw [hvars]; rfl) none]
  · intro p hp s hs
    have hgr : p.1 ∈ S.c.o.L.groups := by
      rw [h.groups]
      simp only [List.mem_cons, List.not_mem_nil, or_false] at hp
      rcases hp with rfl | rfl | rfl | rfl <;> simp
    have hlook : vars.stage.lookup p.1 = some p.2 := by
      rw [hvars]
      simp only [List.mem_cons, List.not_mem_nil, or_false] at hp
      rcases hp with rfl | rfl | rfl | rfl <;> rfl
    have hr := shaped.rect p (by rw [hvars]; exact hp)
    have one : ∀ (i : Nat) n a, (S.c.o.L.namesOf p.1)[i]? = some n → p.2[s][i]? = some a → readAt S.c.o.L x p.1 n s = a := by
      intro i n a hi ha
      have := C04_get_var_flatten hL hF shaped hx hlook (LapSim.lookup_names hL hgr) hi (List.getElem?_eq_getElem hs) ha
      unfold readAt
      rw [this]
    refine ⟨?_, one⟩
    unfold readGroup
    have hkl : p.2[s].length = (S.c.o.L.namesOf p.1).length := hr.2 _ (List.getElem_mem hs)
    refine List.ext_getElem (by simpa using hkl.symm) fun i h1 h2 => ?_
    rw [List.getElem_map]
    have h1' : i < (S.c.o.L.namesOf p.1).length := by simpa using h1
    exact one i _ _ (List.getElem?_eq_getElem h1') (List.getElem?_eq_getElem h2)

section
variable {M : ExplicitModel} {u : UnitProblem}
  {t : Transcription} {n : Nat} {pts : Option (List ℝ)} {S : Setup}

theorem Made.stages (h : Made M u t n pts S) : S.c.o.L.numStages = n * (t.stages - 1) + 1 := by rw [h.layout]; rfl

theorem Made.defects (h : Made M u t n pts S) (x : List ℝ) :
    (∀ i l k : Nat, i < S.c.o.L.numIntervals → l < S.c.o.L.nspi - 1 → ∀ m nd, (S.c.o.L.namesOf "states")[k]? = some m →
      (S.c.o.L.namesOf "states_dot")[k]? = some nd →
      ∑ j ∈ Finset.range S.c.o.L.nspi, S.c.o.A l j * readAt S.c.o.L x "states" m (i * (S.c.o.L.nspi - 1) + j)
        = S.c.o.normLen.getD i 0 * readScale S.c.o x *
          ∑ j ∈ Finset.range S.c.o.L.nspi, S.c.o.B l j * readAt S.c.o.L x "states_dot" nd (i * (S.c.o.L.nspi - 1) + j)) ↔
    ∀ i, i < n → ∀ m ∈ M.states, Steps t (fun j => readAt S.c.o.L x "states" m (i * (t.stages - 1) + j))
      (fun j => readAt S.c.o.L x "states_dot" m (i * (t.stages - 1) + j))
      (((pointsOf n pts).getD (i + 1) 0 - (pointsOf n pts).getD i 0) * readScale S.c.o x) := by
  have eN : S.c.o.L.numIntervals = n := by rw [h.layout]; rfl
  have eS : S.c.o.L.namesOf "states" = M.states := by rw [h.layout]; rfl
  have eD : S.c.o.L.namesOf "states_dot" = M.states := by rw [h.layout]; rfl
  rw [eN, eS, eD, h.uses.stages]
  simp only [h.uses.matA, h.uses.matB]
  constructor
  · intro H i hi m hm l hl
    obtain ⟨k, hk, rfl⟩ := List.mem_iff_getElem.mp hm
    rw [← h.len i hi]
    exact H i l k hi hl _ _ (List.getElem?_eq_getElem hk) (List.getElem?_eq_getElem hk)
  · intro H i l k hi hl m nd hm hnd
    rw [hm, Option.some.injEq] at hnd
    subst hnd
    rw [h.len i hi]
    exact H i hi m (List.mem_of_getElem? hm) l hl

end

theorem isVar_iff (M : ExplicitModel) (n k s : Nat) (g m : String) : (layoutOf M n k).IsVar (.stage s g m) ↔
    s < (layoutOf M n k).numStages ∧ ((g = "states" ∧ m ∈ M.states) ∨ (g = "inputs" ∧ m ∈ M.inputs) ∨ (g = "states_dot" ∧ m ∈ M.states) ∨
      (g = "con_outputs" ∧ m ∈ M.conOutputs)) := by
  constructor
  · rintro ⟨h1, h2, ns, h3, h4⟩
    refine ⟨h1, ?_⟩
    simp only [layoutOf, List.mem_cons, List.not_mem_nil, or_false] at h2
    rcases h2 with rfl | rfl | rfl | rfl <;> simp [layoutOf, groupsOf, List.lookup] at h3 <;> subst h3 <;> simp [h4]
  · rintro ⟨h1, (⟨rfl, h⟩ | ⟨rfl, h⟩ | ⟨rfl, h⟩ | ⟨rfl, h⟩)⟩
    · exact isVar_stage M n k (by simp) h h1
    · exact isVar_stage M n k (by simp) h h1
    · exact isVar_stage M n k (by simp) h h1
    · exact isVar_stage M n k (by simp) h h1

theorem abs_inside {a c : ℝ} : Inside (some ((-a : ℝ) : EReal), some (a : EReal)) c ↔ |c| ≤ a := by rw [inside_coe, abs_le]

end Lumos.Sim
