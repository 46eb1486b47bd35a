import Verif.Lap.Accept
import Verif.Config.Props
import Verif.Ocp.BuildExample
import Verif.Trans.RuleOcp
/-!
# From a model and a configuration to the problem (scaled_mesh_ocp.py:78-120, 472-544)
-/

namespace Lumos.Sim

open Lumos DecVar DecVar.Layout Bounds Ocp Lumos.Trans NLP

/-- The first half of `ScaledMeshOCP.__init__` (scaled_mesh_ocp.py:78-120): transcription, decision variables and mesh of an acyclic
problem that is not condensed, with the mesh scale as the one global variable. `u` is the unit problem that the
backend makes from the model (`make_model_algebra_cons`, base.py:630-660). Simplifications: the groups of names that are not decision variables are left out; logging is not
modelled here (C71). -/
noncomputable def front (M : ExplicitModel) (u : UnitProblem)
    (transcription : String) (kwargs : List (String × Int)) (numIntervals : Nat) (intervalPoints : Option (List ℝ))
    (bounds : List (BoundConfig EReal)) (bcs : List (BC EReal)) (scales : List ScaleConfig) : Py Setup := do
  let t ← makeTranscription transcription kwargs
  let L ← Layout.make [("states", M.states), ("inputs", M.inputs), ("states_dot", M.states), ("con_outputs", M.conOutputs)]
    ["states", "inputs", "states_dot", "con_outputs"] ["mesh_scale"] numIntervals t.stages
  let mesh ← setMesh t.interp numIntervals intervalPoints
  let flat ← flatMesh mesh
  let lens ← intervalLengths mesh
  return { c := { o := { L := L, A := entry t.A, B := entry t.B, normLen := lens, fixedScale := none }
                  M := M, u := u, mesh := flat }
           builtScale := none, laptime := false, isCyclic := false, nonCyclic := [], isCondensed := false, sample := []
           bounds := bounds, bcs := bcs, scales := scales }

/-- A decision variable of such a problem. -/
def groupsOf (M : ExplicitModel) : List (String × List String) :=
  [("states", M.states), ("inputs", M.inputs), ("states_dot", M.states), ("con_outputs", M.conOutputs)]

/-- The layout of such a problem. -/
def layoutOf (M : ExplicitModel) (n k : Nat) : Layout :=
  ⟨groupsOf M, ["states", "inputs", "states_dot", "con_outputs"], ["mesh_scale"], n, k⟩

theorem nodup_fullNames {gs : List String} {names : String → List String} (hg : gs.Nodup) (hd : ∀ g ∈ gs, Dotless g)
    (hn : ∀ g ∈ gs, (names g).Nodup) : (gs.flatMap fun g => (names g).map (fullName g)).Nodup := by
  rw [List.nodup_flatMap]
  refine ⟨fun g h => ?_, ?_⟩
  · refine (List.nodup_map_iff_inj_on (hn g h)).mpr ?_
    intro a _ b _ e
    exact (LapSim.fullName_cancel (hd g h) (hd g h) e).2
  · refine List.Pairwise.imp_of_mem ?_ hg
    intro g g' h h' hne
    rw [Function.onFun, List.disjoint_iff_ne]
    intro a ha b hb e
    obtain ⟨n, _, rfl⟩ := List.mem_map.mp ha
    obtain ⟨n', _, rfl⟩ := List.mem_map.mp hb
    exact hne (LapSim.fullName_cancel (hd g h) (hd g' h') e).1

theorem layoutOf_made {M : ExplicitModel} (hM : M.Good) (n : Nat) {k : Nat} (hk : 1 ≤ k) : (layoutOf M n k).Made := by
  refine ⟨?_, hk, by simp [layoutOf]⟩
  have h1 : (layoutOf M n k).stageVarNames.Nodup := by
    refine nodup_fullNames (names := (layoutOf M n k).namesOf) (by simp [layoutOf]) ?_ ?_
    · intro g hg
      simp only [layoutOf, List.mem_cons, List.not_mem_nil, or_false] at hg
      unfold Dotless
      rcases hg with rfl | rfl | rfl | rfl <;> decide
    · intro g hg
      simp only [layoutOf, List.mem_cons, List.not_mem_nil, or_false] at hg
      rcases hg with rfl | rfl | rfl | rfl
      · exact hM.nodupS
      · exact hM.nodupI
      · exact hM.nodupS
      · exact hM.nodupY
  have h2 : (layoutOf M n k).groups.all (fun g => ((layoutOf M n k).names.lookup g).isSome) = true := rfl
  unfold Layout.make
  dsimp only
  rw [if_pos h2]
  have e : (⟨(layoutOf M n k).names, (layoutOf M n k).groups, (layoutOf M n k).globals, (layoutOf M n k).numIntervals, (layoutOf M n k).nspi⟩ : Layout)
      = layoutOf M n k := rfl
  rw [e, if_pos h1, if_pos (by simp [layoutOf])]

/-- The unit problem is one of the model's equations (the derivatives are another matter). -/
structure Fits (M : ExplicitModel) (u : UnitProblem) : Prop where
  numIn : u.numIn = M.numVar
  numCon : u.numCon = M.numRes
  con : u.con = M.flatImplicit

theorem fits_unitOf (M : ExplicitModel) (D : List ℝ → ℝ → Nat → Nat → ℝ) (D2 : List ℝ → List ℝ → ℝ → Nat → Nat → ℝ) :
    Fits M (M.unitOf D D2) := ⟨rfl, rfl, rfl⟩

/-- What a front end made. -/
structure Made (M : ExplicitModel) (u : UnitProblem) (t : Transcription) (n : Nat) (pts : Option (List ℝ)) (S : Setup) : Prop where
  layout : S.c.o.L = layoutOf M n t.stages
  uses : Uses S.c.o t
  free : S.c.o.fixedScale = none
  model : S.c.M = M
  unit : S.c.u = u
  lens : S.c.o.normLen.length = n
  len : ∀ i, i < n → S.c.o.normLen.getD i 0 = (pointsOf n pts).getD (i + 1) 0 - (pointsOf n pts).getD i 0
  pos : ∀ l ∈ S.c.o.normLen, 0 < l
  points : S.c.mesh.length = S.c.o.L.numStages
  plain : S.builtScale = none ∧ S.laptime = false ∧ S.isCyclic = false ∧ S.isCondensed = false

section
variable {M : ExplicitModel} {u : UnitProblem} {name : String}
  {kwargs : List (String × Int)} {t : Transcription} {n : Nat} {pts : Option (List ℝ)}
  {bounds : List (BoundConfig EReal)} {bcs : List (BC EReal)} {scales : List ScaleConfig} {S : Setup}

theorem meshFree_flat (hf : ∀ x u μ μ', M.f x u μ = M.f x u μ') (hh : ∀ x u μ μ', M.h x u μ = M.h x u μ')
    (hr : ∀ x u μ μ', M.r x u μ = M.r x u μ') (v : List ℝ) (μ μ' : ℝ) : M.flatImplicit v μ = M.flatImplicit v μ' := by
  unfold ExplicitModel.flatImplicit
  dsimp only
  rw [hf _ _ μ μ', hh _ _ μ μ', hr _ _ μ μ']

/-- A problem is made exactly from a transcription that exists, at least one interval and interval points that the mesh accepts. -/
theorem front_ok (hM : M.Good) (ht : makeTranscription name kwargs = .ok t) (hn : 1 ≤ n) {mesh : List (List ℝ)}
    (hm : setMesh t.interp n pts = .ok mesh) : ∃ S, front M u name kwargs n pts bounds bcs scales = .ok S ∧
      Made M u t n pts S ∧ S.bounds = bounds ∧ S.bcs = bcs ∧ S.scales = scales := by
  obtain ⟨h2, _, _, _, hlen, hrel⟩ := C38_shapes ht
  obtain ⟨flat, lens, f1, f2, f3, _, _, _, f7, f8, f9, _⟩ := C23_mesh hrel hn hm
  have hL := (layoutOf_made hM n (k := t.stages) (by omega)).made
  have hL : Layout.make [("states", M.states), ("inputs", M.inputs), ("states_dot", M.states), ("con_outputs", M.conOutputs)]
    ["states", "inputs", "states_dot", "con_outputs"] ["mesh_scale"] n t.stages = .ok (layoutOf M n t.stages) := hL
  refine ⟨{ c := { o := { L := layoutOf M n t.stages, A := entry t.A, B := entry t.B, normLen := lens, fixedScale := none }
                   M := M, u := u, mesh := flat }
            builtScale := none, laptime := false, isCyclic := false, nonCyclic := [], isCondensed := false, sample := []
            bounds := bounds, bcs := bcs, scales := scales }, ?_, ?_⟩
  · unfold front
    simp only [bind, Except.bind, pure, Except.pure, ht, hL, hm, f1, f2]
  · refine ⟨⟨rfl, ⟨rfl, fun _ _ => rfl, fun _ _ => rfl⟩, rfl, rfl, rfl, f7, f8, f9, ?_, rfl, rfl, rfl, rfl⟩, rfl, rfl, rfl⟩
    show flat.length = n * (t.stages - 1) + 1
    rw [f3, hlen]

theorem front_inv (hM : M.Good) (hn : 1 ≤ n) (h : front M u name kwargs n pts bounds bcs scales = .ok S) :
    ∃ t, makeTranscription name kwargs = .ok t ∧ Made M u t n pts S ∧ S.bounds = bounds ∧ S.bcs = bcs ∧ S.scales = scales := by
  have h0 := h
  unfold front at h
  obtain ⟨t, ht, h⟩ := Config.bind_ok h
  obtain ⟨L, hL, h⟩ := Config.bind_ok h
  obtain ⟨mesh, hm, h⟩ := Config.bind_ok h
  obtain ⟨S', h1, h2⟩ := front_ok (u := u) (bounds := bounds) (bcs := bcs) (scales := scales) hM ht hn hm
  rw [h0, Except.ok.injEq] at h1
  subst h1
  exact ⟨t, ht, h2⟩

theorem Made.condGood (h : Made M u t n pts S) (hu : Fits M u) (hM : M.Good) (ht : makeTranscription name kwargs = .ok t) (hn : 1 ≤ n) : S.c.Good := by
  obtain ⟨h2, _⟩ := C38_shapes ht
  have hpos := hM.pos
  have e := h.layout
  have hlen := h.lens
  have hfree := h.free
  have hnv : (layoutOf M n t.stages).numVarStage = M.numVar := by
    rw [ExplicitModel.numVar_eq]
    show (([M.states.length, M.inputs.length, M.states.length, M.conOutputs.length] : List Nat)).sum = _
    simp [ExplicitModel.nx, ExplicitModel.nu, ExplicitModel.ny]; omega
  have hnp : 0 < M.numVar := by rw [ExplicitModel.numVar_eq]; omega
  refine ⟨⟨⟨?_, ?_, ?_, ?_, ?_, ?_, ?_, ?_, ?_, ?_⟩, ?_, h.points⟩, by rw [h.model]; exact hM, by rw [h.unit, h.model, hu.con],
    by rw [h.unit, h.model, hu.numIn], by rw [h.unit, h.model, hu.numCon], by rw [e]; rfl, by rw [e, h.model]; rfl, by rw [e, h.model]; rfl,
    by rw [e, h.model]; rfl⟩
  · rw [e]; exact layoutOf_made hM n (by omega)
  · rw [e]; exact ⟨by simp [layoutOf], by rw [hnv]; exact hnp⟩
  · rw [e]; exact h2
  · rw [e]; exact hn
  · rw [e]; simp [layoutOf]
  · rw [e]; simp [layoutOf]
  · rw [e]; rfl
  · rw [e]; exact hpos
  · rw [e, hlen]; rfl
  · rw [e, hfree]; simp [layoutOf]
  · rw [e, h.unit, hnv, hu.numIn]

/-- The assumptions about the configuration under which the problem can be built. -/
theorem Made.good (h : Made M u t n pts S) (hu : Fits M u) (hM : M.Good) (ht : makeTranscription name kwargs = .ok t) (hn : 1 ≤ n)
    {D : List ℝ → ℝ → Prop} (hj : OCP.UnitJac u D) (hh2 : OCP.UnitHess u Upper D) (hf : ∀ x u μ μ', M.f x u μ = M.f x u μ') (hh : ∀ x u μ μ', M.h x u μ = M.h x u μ')
    (hr : ∀ x u μ μ', M.r x u μ = M.r x u μ') (hk : ∀ c ∈ S.scales, c.Known S.c.o.L) (hz : ∀ c ∈ S.scales, c.value ≠ 0)
    (hb : ∃ s t', Bounds.updateBounds S.c.o.L (Bounds.fresh S.c.o.L) S.bounds = (s, none)
      ∧ Bounds.updateBCs S.c.o.L s S.bcs = (t', none)) : S.Good D where
  cond := h.condGood hu hM ht hn
  jac := (by rw [h.unit]; exact hj)
  hess := (by rw [h.unit]; exact hh2)
  meshFree := Or.inr (by rw [h.unit, hu.con]; exact fun v μ μ' => meshFree_flat hf hh hr v μ μ')
  built := (by simp [h.plain.1, h.free])
  lap := (by simp [h.plain.2.1])
  last := fun _ => (by rw [h.layout]; rfl)
  time := (by simp [h.free])
  dotless := (by simp [h.plain.2.2.1])
  excluded := (by simp [h.plain.2.2.1])
  someCyclic := (by simp [h.plain.2.2.1])
  sample := (by simp [h.plain.2.2.2])
  known := hk
  nonzero := hz
  bounds := (by simpa [Setup.allBounds, h.plain.2.2.2] using hb)

theorem isVar_stage (M : ExplicitModel) (n k : Nat) {g m : String} (hg : g ∈ ["states", "inputs", "states_dot", "con_outputs"])
    (hm : m ∈ (layoutOf M n k).namesOf g) {s : Nat} (hs : s < (layoutOf M n k).numStages) : (layoutOf M n k).IsVar (.stage s g m) :=
  LapSim.isVar_of hg hm hs

theorem setVarBounds_last {L : Layout} (hL : L.Made) {g n : String} (hv : L.IsVar (.stage 0 g n)) (s : St EReal) (a : EReal) :
    (setVarBounds L s g n (some (-1)) (.single (.scalar a))).2 = none := by
  have hN := numStages_pos L
  obtain ⟨i, hi⟩ := (C02_stage_range hL hv (-1)).2 (by omega)
  unfold setVarBounds
  rw [hi]
  simp [sizeOk, BArg.lb, BArg.ub, leAll, assign]

theorem setVarBounds_global {L : Layout} {n : String} (hv : n ∈ L.globals) (s : St EReal) {a b : EReal} (hab : a ≤ b) :
    (setVarBounds L s "global" n none (.pair (.scalar a) (.scalar b))).2 = none := by
  unfold setVarBounds
  have : L.indexInDec "global" n none = .ok (.scalar (L.numAllStageVar + L.globals.idxOf n)) := by
    simp [indexInDec, globalEnum, hv, Except.map]
  rw [this]
  simp [sizeOk, BArg.lb, BArg.ub, leAll, hab, assign]

theorem accepted_of {L : Layout} {bounds : List (BoundConfig EReal)} {bcs : List (BC EReal)}
    (k1 : ∀ s, (setAll L s (bounds.map BoundConfig.req)).2 = none) (k2 : ∀ s, (setAll L s (bcs.map BC.req)).2 = none) :
    ∃ s t, Bounds.updateBounds L (Bounds.fresh L) bounds = (s, none) ∧ Bounds.updateBCs L s bcs = (t, none) := by
  have hb0 := setAll_bcs L (Bounds.fresh L) (bounds.map BoundConfig.req)
  refine ⟨(Bounds.updateBounds L (Bounds.fresh L) bounds).1, _, Prod.ext rfl ?_, Prod.ext rfl ?_⟩
  · unfold Bounds.updateBounds
    have h1 := k1 (Bounds.fresh L)
    rcases hr : setAll L (Bounds.fresh L) (bounds.map BoundConfig.req) with ⟨s', o⟩
    rw [hr] at h1 hb0
    dsimp only at h1 hb0
    subst h1
    dsimp only
    unfold applyBCs
    rw [hb0]
    rfl
  · have hb := LapSim.updateBounds_bcs L (Bounds.fresh L) bounds
    unfold Bounds.updateBCs applyBCs
    dsimp only
    rw [hb]
    exact k2 _

end

end Lumos.Sim
