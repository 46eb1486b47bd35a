import Verif.Sim.BrachMore
import Verif.Lts.Front
import Verif.Lts.Coast
/-!
# From a model, a configuration and a mesh scale to the problem of a `FixedMeshOCP` (lumos/optimal_control/fixed_mesh_ocp.py:17-45)
-/

namespace Lumos.Fix

open Lumos DecVar DecVar.Layout Bounds Ocp Lumos.Trans NLP Sim

/-- `FixedMeshOCP.__init__` (fixed_mesh_ocp.py:23-36) with the first half of `ScaledMeshOCP.__init__` (scaled_mesh_ocp.py:78-120) for an acyclic problem
that is not condensed: the mesh scale is a positive number and there are no global variables (fixed_mesh_ocp.py:21). Simplifications: as in `Sim.front`. -/
noncomputable def front (M : ExplicitModel) (u : UnitProblem)
    (transcription : String) (kwargs : List (String × Int)) (numIntervals : Nat) (intervalPoints : Option (List ℝ))
    (bounds : List (BoundConfig EReal)) (bcs : List (BC EReal)) (scales : List ScaleConfig) (meshScale : ℝ) : Py Setup := do
  if ¬ 0 < meshScale then throw .assertionError
  let t ← makeTranscription transcription kwargs
  let L ← Layout.make [("states", M.states), ("inputs", M.inputs), ("states_dot", M.states), ("con_outputs", M.conOutputs)]
    ["states", "inputs", "states_dot", "con_outputs"] [] numIntervals t.stages
  let mesh ← setMesh t.interp numIntervals intervalPoints
  let flat ← flatMesh mesh
  let lens ← intervalLengths mesh
  return { c := { o := { L := L, A := entry t.A, B := entry t.B, normLen := lens, fixedScale := some meshScale }
                  M := M, u := u, mesh := flat }
           builtScale := some meshScale, laptime := false, isCyclic := false, nonCyclic := [], isCondensed := false, sample := []
           bounds := bounds, bcs := bcs, scales := scales }

/-- What the front end made. -/
structure Made (M : ExplicitModel) (u : UnitProblem) (t : Transcription) (n : Nat) (pts : Option (List ℝ)) (ms : ℝ) (S : Setup) : Prop where
  layout : S.c.o.L = Lts.layoutOf M n t.stages
  uses : Uses S.c.o t
  scale : S.c.o.fixedScale = some ms
  positive : 0 < ms
  model : S.c.M = M
  unit : S.c.u = u
  lens : S.c.o.normLen.length = n
  len : ∀ i, i < n → S.c.o.normLen.getD i 0 = (pointsOf n pts).getD (i + 1) 0 - (pointsOf n pts).getD i 0
  pos : ∀ l ∈ S.c.o.normLen, 0 < l
  points : S.c.mesh.length = S.c.o.L.numStages
  plain : S.builtScale = some ms ∧ S.laptime = false ∧ S.isCyclic = false ∧ S.isCondensed = false

section
variable {M : ExplicitModel} {u : UnitProblem} {name : String}
  {kwargs : List (String × Int)} {t : Transcription} {n : Nat} {pts : Option (List ℝ)}
  {bounds : List (BoundConfig EReal)} {bcs : List (BC EReal)} {scales : List ScaleConfig} {ms : ℝ} {S : Setup}

theorem front_ok (hM : M.Good) (ht : makeTranscription name kwargs = .ok t) (hn : 1 ≤ n) {mesh : List (List ℝ)}
    (hm : setMesh t.interp n pts = .ok mesh) (hms : 0 < ms) : ∃ S, front M u name kwargs n pts bounds bcs scales ms = .ok S ∧
      Made M u t n pts ms S ∧ S.bounds = bounds ∧ S.bcs = bcs ∧ S.scales = scales := by
  obtain ⟨h2, _, _, _, hlen, hrel⟩ := C38_shapes ht
  obtain ⟨flat, lens, f1, f2, f3, _, _, _, f7, f8, f9, _⟩ := C23_mesh hrel hn hm
  have hL := (Lts.layoutOf_made hM n (k := t.stages) (by omega)).made
  have hL : Layout.make [("states", M.states), ("inputs", M.inputs), ("states_dot", M.states), ("con_outputs", M.conOutputs)]
    ["states", "inputs", "states_dot", "con_outputs"] [] n t.stages = .ok (Lts.layoutOf M n t.stages) := hL
  refine ⟨{ c := { o := { L := Lts.layoutOf M n t.stages, A := entry t.A, B := entry t.B, normLen := lens, fixedScale := some ms }
                   M := M, u := u, mesh := flat }
            builtScale := some ms, laptime := false, isCyclic := false, nonCyclic := [], isCondensed := false, sample := []
            bounds := bounds, bcs := bcs, scales := scales }, ?_, ?_⟩
  · unfold front
    simp only [hms, not_true_eq_false, if_false, bind, Except.bind, pure, Except.pure, ht, hL, hm, f1, f2]
  · refine ⟨⟨rfl, ⟨rfl, fun _ _ => rfl, fun _ _ => rfl⟩, rfl, hms, rfl, rfl, f7, f8, f9, ?_, rfl, rfl, rfl, rfl⟩, rfl, rfl, rfl⟩
    show flat.length = n * (t.stages - 1) + 1
    rw [f3, hlen]

/-- A mesh scale that is not positive is refused. -/
theorem front_scale (hms : ¬ 0 < ms) : front M u name kwargs n pts bounds bcs scales ms = .error .assertionError := by
  unfold front
  simp [hms, bind, Except.bind, throw, throwThe, MonadExceptOf.throw]

theorem front_inv (hM : M.Good) (hn : 1 ≤ n) (h : front M u name kwargs n pts bounds bcs scales ms = .ok S) :
    ∃ t, makeTranscription name kwargs = .ok t ∧ Made M u t n pts ms S ∧ S.bounds = bounds ∧ S.bcs = bcs ∧ S.scales = scales := by
  have h0 := h
  by_cases hms : 0 < ms
  swap
  · rw [front_scale hms] at h
    cases h
  unfold front at h
  simp only [hms, not_true_eq_false, if_false] at h
  obtain ⟨t, ht, h⟩ := Config.bind_ok h
  obtain ⟨L, hL, h⟩ := Config.bind_ok h
  obtain ⟨mesh, hm, h⟩ := Config.bind_ok h
  obtain ⟨S', h1, h2⟩ := front_ok (u := u) (bounds := bounds) (bcs := bcs) (scales := scales) hM ht hn hm hms
  rw [h0, Except.ok.injEq] at h1
  subst h1
  exact ⟨t, ht, h2⟩

theorem Made.condGood (h : Made M u t n pts ms S) (hu : Fits M u) (hM : M.Good) (ht : makeTranscription name kwargs = .ok t) (hn : 1 ≤ n) : S.c.Good := by
  obtain ⟨h2, _⟩ := C38_shapes ht
  have hpos := hM.pos
  have e := h.layout
  have hlen := h.lens
  have hfree := h.scale
  have hnv : (Lts.layoutOf M n t.stages).numVarStage = M.numVar := by
    rw [ExplicitModel.numVar_eq]
    show (([M.states.length, M.inputs.length, M.states.length, M.conOutputs.length] : List Nat)).sum = _
    simp [ExplicitModel.nx, ExplicitModel.nu, ExplicitModel.ny]; omega
  have hnp : 0 < M.numVar := by rw [ExplicitModel.numVar_eq]; omega
  refine ⟨⟨⟨?_, ?_, ?_, ?_, ?_, ?_, ?_, ?_, ?_, ?_⟩, ?_, h.points⟩, by rw [h.model]; exact hM, by rw [h.unit, h.model, hu.con],
    by rw [h.unit, h.model, hu.numIn], by rw [h.unit, h.model, hu.numCon], by rw [e]; rfl, by rw [e, h.model]; rfl, by rw [e, h.model]; rfl,
    by rw [e, h.model]; rfl⟩
  · rw [e]; exact Lts.layoutOf_made hM n (by omega)
  · rw [e]; exact ⟨by simp [Lts.layoutOf], by rw [hnv]; exact hnp⟩
  · rw [e]; exact h2
  · rw [e]; exact hn
  · rw [e]; simp [Lts.layoutOf]
  · rw [e]; simp [Lts.layoutOf]
  · rw [e]; rfl
  · rw [e]; exact hpos
  · rw [e, hlen]; rfl
  · rw [e, hfree]; simp [Lts.layoutOf]
  · rw [e, h.unit, hnv, hu.numIn]

/-- The assumptions about the configuration under which the problem can be built: besides those of the base class, a state "time" (the objective of
`FixedMeshOCP` reads it). -/
theorem Made.good (h : Made M u t n pts ms S) (hu : Fits M u) (hM : M.Good) (ht : makeTranscription name kwargs = .ok t) (hn : 1 ≤ n)
    {D : List ℝ → ℝ → Prop} (hj : OCP.UnitJac u D) (hh : OCP.UnitHess u Upper D) (htime : "time" ∈ M.states)
    (hk : ∀ c ∈ S.scales, c.Known S.c.o.L) (hz : ∀ c ∈ S.scales, c.value ≠ 0)
    (hb : ∃ s t', Bounds.updateBounds S.c.o.L (Bounds.fresh S.c.o.L) S.bounds = (s, none)
      ∧ Bounds.updateBCs S.c.o.L s S.bcs = (t', none)) : S.Good D where
  cond := h.condGood hu hM ht hn
  jac := (by rw [h.unit]; exact hj)
  hess := (by rw [h.unit]; exact hh)
  meshFree := Or.inl (by simp [h.scale])
  built := (by simp [h.plain.1, h.scale])
  lap := (by simp [h.plain.2.1])
  last := (by simp [h.scale])
  time := fun _ => (by rw [h.layout]; exact htime)
  dotless := (by simp [h.plain.2.2.1])
  excluded := (by simp [h.plain.2.2.1])
  someCyclic := (by simp [h.plain.2.2.1])
  sample := (by simp [h.plain.2.2.2])
  known := hk
  nonzero := hz
  bounds := (by simpa [Setup.allBounds, h.plain.2.2.2] using hb)

theorem Made.stages (h : Made M u t n pts ms S) : S.c.o.L.numStages = n * (t.stages - 1) + 1 := by rw [h.layout]; rfl

theorem Made.readScale (h : Made M u t n pts ms S) (x : List ℝ) : readScale S.c.o x = ms := by
  unfold Ocp.readScale
  rw [h.scale]

theorem Made.defects (h : Made M u t n pts ms S) (x : List ℝ) :
    (∀ i l k : Nat, i < S.c.o.L.numIntervals → l < S.c.o.L.nspi - 1 → ∀ m nd, (S.c.o.L.namesOf "states")[k]? = some m →
      (S.c.o.L.namesOf "states_dot")[k]? = some nd →
      ∑ j ∈ Finset.range S.c.o.L.nspi, S.c.o.A l j * readAt S.c.o.L x "states" m (i * (S.c.o.L.nspi - 1) + j)
        = S.c.o.normLen.getD i 0 * Ocp.readScale S.c.o x *
          ∑ j ∈ Finset.range S.c.o.L.nspi, S.c.o.B l j * readAt S.c.o.L x "states_dot" nd (i * (S.c.o.L.nspi - 1) + j)) ↔
    ∀ i, i < n → ∀ m ∈ M.states, Steps t (fun j => readAt S.c.o.L x "states" m (i * (t.stages - 1) + j))
      (fun j => readAt S.c.o.L x "states_dot" m (i * (t.stages - 1) + j))
      (((pointsOf n pts).getD (i + 1) 0 - (pointsOf n pts).getD i 0) * ms) := by
  have eN : S.c.o.L.numIntervals = n := by rw [h.layout]; rfl
  have eS : S.c.o.L.namesOf "states" = M.states := by rw [h.layout]; rfl
  have eD : S.c.o.L.namesOf "states_dot" = M.states := by rw [h.layout]; rfl
  rw [eN, eS, eD, h.uses.stages, h.readScale]
  simp only [h.uses.matA, h.uses.matB]
  constructor
  · intro H i hi m hm l hl
    obtain ⟨k, hk, rfl⟩ := List.mem_iff_getElem.mp hm
    rw [← h.len i hi]
    exact H i l k hi hl _ _ (List.getElem?_eq_getElem hk) (List.getElem?_eq_getElem hk)
  · intro H i l k hi hl m nd hm hnd
    rw [hm, Option.some.injEq] at hnd
    subst hnd
    rw [h.len i hi]
    exact H i hi m (List.mem_of_getElem? hm) l hl

/-- A point is within the bounds iff every variable, as a user reads it, lies between the bounds that the configuration asks for it. -/
theorem within_iff {D : List ℝ → ℝ → Prop} (h : S.Good D) (hcd : S.isCondensed = false) (hg : S.c.o.L.globals = []) {b : Built} (hb : S.build = .ok b)
    {x : List ℝ} (hx : x.length = S.c.o.L.numDec) :
    Within b.bounds.lb b.bounds.ub x ↔
      ∀ s g n, S.c.o.L.IsVar (.stage s g n) → Inside (limits S.c.o.L S.bounds S.bcs (.stage s g n)) (readAt S.c.o.L x g n s) := by
  have hL := h.cond.ocp.made
  obtain ⟨bb, o, s0, k1, _, _, _, _, _, _, _, ks, kb, _⟩ := build_ok h
  rw [hb, Except.ok.injEq] at k1
  subst k1
  have hlen : b.bounds.lb.length = S.c.o.L.numDec ∧ b.bounds.ub.length = S.c.o.L.numDec := by
    have f1 : (Bounds.fresh S.c.o.L : St EReal).lb.length = S.c.o.L.numDec := by simp [Bounds.fresh]
    have f2 : (Bounds.fresh S.c.o.L : St EReal).ub.length = S.c.o.L.numDec := by simp [Bounds.fresh]
    obtain ⟨a1, a2⟩ := LapSim.updateBounds_length f1 f2 ks
    have := run_length S.c.o.L s0 a1 a2 (.updateBCs S.bcs)
    simpa [Call.run, kb] using this
  have key : ∀ (v : Var) (a : ℝ), S.c.o.L.IsVar v → ∀ i, i < S.c.o.L.numDec → S.c.o.L.query v = .ok (.scalar i) → a = x.getD i 0 →
      (Inside (limits S.c.o.L S.bounds S.bcs v) a ↔ (b.bounds.lb.getD i 0 ≤ ((x.getD i 0 : ℝ) : EReal) ∧ ((x.getD i 0 : ℝ) : EReal) ≤ b.bounds.ub.getD i 0)) := by
    intro v a hv i hi hq ha
    have h1 : i < b.bounds.lb.length := by omega
    have h2 : i < b.bounds.ub.length := by omega
    rw [← limits_eq h hcd hb hv hq, ha, List.getElem?_eq_getElem h1, List.getElem?_eq_getElem h2, List.getD_eq_getElem?_getD (l := b.bounds.lb),
      List.getD_eq_getElem?_getD (l := b.bounds.ub), List.getElem?_eq_getElem h1, List.getElem?_eq_getElem h2]
    simp [Inside]
  constructor
  · intro hw s g n hv
    obtain ⟨i, hq, hi⟩ := C01_index_in_range hL hv
    exact (key _ _ hv i hi hq (read_query hx hi hq)).mpr (hw i (by omega))
  · intro w1 i hi
    rw [hx] at hi
    obtain ⟨v, hv, hq⟩ := C01_index_surjective hL i hi
    cases v with
    | stage s g n => exact (key _ _ hv i hi hq (read_query hx hi hq)).mp (w1 s g n hv)
    | glob n =>
      have hn : n ∈ S.c.o.L.globals := hv
      rw [hg] at hn
      cases hn

end

theorem isVar_iff (M : ExplicitModel) (n k s : Nat) (g m : String) : (Lts.layoutOf M n k).IsVar (.stage s g m) ↔
    s < (Lts.layoutOf M n k).numStages ∧ ((g = "states" ∧ m ∈ M.states) ∨ (g = "inputs" ∧ m ∈ M.inputs) ∨ (g = "states_dot" ∧ m ∈ M.states) ∨
      (g = "con_outputs" ∧ m ∈ M.conOutputs)) := Sim.isVar_iff M n k s g m

end Lumos.Fix
