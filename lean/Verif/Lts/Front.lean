import Verif.Lts.Model
import Verif.Ocp.MeshPoints
/-!
# What the front end of a lap time simulation makes
-/

namespace Lumos.Lts

open Lumos DecVar DecVar.Layout Bounds Ocp Lumos.Trans NLP Io LapSim

/-- The layout of such a problem. -/
def layoutOf (M : ExplicitModel) (n k : Nat) : Layout :=
  ⟨Sim.groupsOf M, ["states", "inputs", "states_dot", "con_outputs"], [], n, k⟩

theorem layoutOf_made {M : ExplicitModel} (hM : M.Good) (n : Nat) {k : Nat} (hk : 1 ≤ k) : (layoutOf M n k).Made := by
  refine ⟨?_, hk, by simp [layoutOf]⟩
  have h1 : (layoutOf M n k).stageVarNames.Nodup := by
    refine Sim.nodup_fullNames (names := (layoutOf M n k).namesOf) (by simp [layoutOf]) ?_ ?_
    · intro g hg
      simp only [layoutOf, List.mem_cons, List.not_mem_nil, or_false] at hg
      unfold Dotless
      rcases hg with rfl | rfl | rfl | rfl <;> decide
    · intro g hg
      simp only [layoutOf, List.mem_cons, List.not_mem_nil, or_false] at hg
      rcases hg with rfl | rfl | rfl | rfl
      · exact hM.nodupS
      · exact hM.nodupI
      · exact hM.nodupS
      · exact hM.nodupY
  have h2 : (layoutOf M n k).groups.all (fun g => ((layoutOf M n k).names.lookup g).isSome) = true := rfl
  unfold Layout.make
  dsimp only
  rw [if_pos h2]
  have e : (⟨(layoutOf M n k).names, (layoutOf M n k).groups, (layoutOf M n k).globals, (layoutOf M n k).numIntervals, (layoutOf M n k).nspi⟩ : Layout)
      = layoutOf M n k := rfl
  rw [e, if_pos h1, if_pos (by simp [layoutOf])]

/-- What a front end made. -/
structure Made (m : Mdl ℝ) (u : UnitProblem) (t : Transcription) (cf : Conf) (S : Setup) : Prop where
  layout : S.c.o.L = layoutOf (m.explicit cf.conOutputs) cf.numIntervals t.stages
  uses : Trans.Uses S.c.o t
  scale : S.c.o.fixedScale = some 1
  model : S.c.M = m.explicit cf.conOutputs
  unit : S.c.u = u
  lens : S.c.o.normLen.length = cf.numIntervals
  len : ∀ i, i < cf.numIntervals → S.c.o.normLen.getD i 0
    = (pointsOf cf.numIntervals cf.intervalPoints).getD (i + 1) 0 - (pointsOf cf.numIntervals cf.intervalPoints).getD i 0
  pos : ∀ l ∈ S.c.o.normLen, 0 < l
  total : S.c.o.normLen.sum = (pointsOf cf.numIntervals cf.intervalPoints).getD cf.numIntervals 0 - (pointsOf cf.numIntervals cf.intervalPoints).getD 0 0
  points : S.c.mesh.length = S.c.o.L.numStages
  ends : S.c.mesh.head? = (pointsOf cf.numIntervals cf.intervalPoints).head?
    ∧ S.c.mesh.getLast? = (pointsOf cf.numIntervals cf.intervalPoints).getLast?
  sorted : S.c.mesh.Pairwise (· < ·)
  stage : ∀ i j, i < cf.numIntervals → j < t.stages → S.c.mesh[i * (t.stages - 1) + j]? = some ((pointsOf cf.numIntervals cf.intervalPoints).getD i 0
    + t.tau j * ((pointsOf cf.numIntervals cf.intervalPoints).getD (i + 1) 0 - (pointsOf cf.numIntervals cf.intervalPoints).getD i 0))
  plain : S.builtScale = some 1 ∧ S.laptime = true ∧ S.isCyclic = cf.isCyclic ∧ S.isCondensed = false ∧ S.nonCyclic = addNonCyclic cf.nonCyclic
  config : S.bounds = cf.bounds ∧ S.bcs = cf.bcs ∧ S.scales = cf.scales

theorem start_made {m : Mdl ℝ} {u : UnitProblem} {t : Transcription} {cf : Conf} {S : Setup} (h : Made m u t cf S) : start S = S := by
  obtain ⟨⟨o, M, u', mesh⟩, b, l, cy, nc, cd, sa, bo, bc, sc⟩ := S
  obtain ⟨L, A, B, nl, fs⟩ := o
  have h1 := h.scale
  obtain ⟨h2, h3, -⟩ := h.plain
  dsimp only at h1 h2 h3
  subst h1 h2 h3
  rfl

section
variable {m : Mdl ℝ} {u : UnitProblem} {t : Transcription} {cf : Conf} {S : Setup}

/-- A problem is made exactly from a transcription that exists, at least one interval and interval points that the mesh accepts. -/
theorem front_ok (hM : (m.explicit cf.conOutputs).Good) (ht : makeTranscription cf.transcription cf.kwargs = .ok t) (hn : 1 ≤ cf.numIntervals)
    {mesh : List (List ℝ)} (hm : setMesh t.interp cf.numIntervals cf.intervalPoints = .ok mesh) :
    ∃ S, front m u cf = .ok S ∧ Made m u t cf S := by
  obtain ⟨h2, _, _, _, hlen, hrel⟩ := C38_shapes ht
  obtain ⟨flat, lens, f1, f2, f3, f4, f5, f6, f7, f8, f9, f10⟩ := C23_mesh hrel hn hm
  have hL := (layoutOf_made hM cf.numIntervals (k := t.stages) (by omega)).made
  have hL : Layout.make [("states", (m.explicit cf.conOutputs).states), ("inputs", (m.explicit cf.conOutputs).inputs),
      ("states_dot", (m.explicit cf.conOutputs).states), ("con_outputs", (m.explicit cf.conOutputs).conOutputs)]
    ["states", "inputs", "states_dot", "con_outputs"] [] cf.numIntervals t.stages = .ok (layoutOf (m.explicit cf.conOutputs) cf.numIntervals t.stages) := hL
  refine ⟨{ c := { o := { L := layoutOf (m.explicit cf.conOutputs) cf.numIntervals t.stages, A := entry t.A, B := entry t.B, normLen := lens, fixedScale := some 1 }
                   M := m.explicit cf.conOutputs, u := u, mesh := flat }
            builtScale := some 1, laptime := true, isCyclic := cf.isCyclic, nonCyclic := addNonCyclic cf.nonCyclic, isCondensed := false
            sample := [], bounds := cf.bounds, bcs := cf.bcs, scales := cf.scales }, ?_, ?_⟩
  · unfold front
    simp only [bind, Except.bind, pure, Except.pure, ht, hL, hm, f1, f2]
  · refine ⟨rfl, ⟨rfl, fun _ _ => rfl, fun _ _ => rfl⟩, rfl, rfl, rfl, f7, f8, f9, f10, ?_, ⟨f5, f6⟩, f4, ?_, ⟨rfl, rfl, rfl, rfl, rfl⟩, rfl, rfl, rfl⟩
    · show flat.length = cf.numIntervals * (t.stages - 1) + 1
      rw [f3, hlen]
    · obtain ⟨flat', g1, g2⟩ := C23_stages hrel hn hm
      rw [f1, Except.ok.injEq] at g1
      subst g1
      rw [hlen] at g2
      exact g2

theorem front_inv (hM : (m.explicit cf.conOutputs).Good) (hn : 1 ≤ cf.numIntervals) (h : front m u cf = .ok S) :
    ∃ t, makeTranscription cf.transcription cf.kwargs = .ok t ∧ Made m u t cf S := by
  have h0 := h
  unfold front at h
  obtain ⟨t, ht, h⟩ := Config.bind_ok h
  obtain ⟨L, hL, h⟩ := Config.bind_ok h
  obtain ⟨mesh, hm, h⟩ := Config.bind_ok h
  obtain ⟨S', h1, h2⟩ := front_ok (m := m) (u := u) hM ht hn hm
  rw [h0, Except.ok.injEq] at h1
  subst h1
  exact ⟨t, ht, h2⟩

theorem Made.condGood (h : Made m u t cf S) (hu : Sim.Fits (m.explicit cf.conOutputs) u) (hM : (m.explicit cf.conOutputs).Good)
    (ht : makeTranscription cf.transcription cf.kwargs = .ok t) (hn : 1 ≤ cf.numIntervals) : S.c.Good := by
  obtain ⟨h2, _⟩ := C38_shapes ht
  have hpos := hM.pos
  have e := h.layout
  have hlen := h.lens
  have hfree := h.scale
  have hnv : (layoutOf (m.explicit cf.conOutputs) cf.numIntervals t.stages).numVarStage = (m.explicit cf.conOutputs).numVar := by
    rw [ExplicitModel.numVar_eq]
    show (([(m.explicit cf.conOutputs).states.length, (m.explicit cf.conOutputs).inputs.length, (m.explicit cf.conOutputs).states.length,
      (m.explicit cf.conOutputs).conOutputs.length] : List Nat)).sum = _
    simp [ExplicitModel.nx, ExplicitModel.nu, ExplicitModel.ny]; omega
  have hnp : 0 < (m.explicit cf.conOutputs).numVar := by rw [ExplicitModel.numVar_eq]; omega
  refine ⟨⟨⟨?_, ?_, ?_, ?_, ?_, ?_, ?_, ?_, ?_, ?_⟩, ?_, h.points⟩, by rw [h.model]; exact hM, by rw [h.unit, h.model, hu.con],
    by rw [h.unit, h.model, hu.numIn], by rw [h.unit, h.model, hu.numCon], by rw [e]; rfl, by rw [e, h.model]; rfl, by rw [e, h.model]; rfl,
    by rw [e, h.model]; rfl⟩
  · rw [e]; exact layoutOf_made hM _ (by omega)
  · rw [e]; exact ⟨by simp [layoutOf], by rw [hnv]; exact hnp⟩
  · rw [e]; exact h2
  · rw [e]; exact hn
  · rw [e]; simp [layoutOf]
  · rw [e]; simp [layoutOf]
  · rw [e]; rfl
  · rw [e]; exact hpos
  · rw [e, hlen]; rfl
  · rw [e, hfree]; simp [layoutOf]
  · rw [e, h.unit, hnv, hu.numIn]

/-- A model that a lap time simulation can use: the names that the class asks for by name, and no dots in names. -/
structure Suits (m : Mdl ℝ) : Prop where
  time : "time" ∈ m.names.states
  lateral : "n" ∈ m.names.states
  steer : "steer" ∈ m.names.inputs
  curvature : "track_curvature" ∈ m.names.inputs
  heading : "track_heading" ∈ m.names.inputs
  dotless : (∀ n ∈ m.names.states, Dotless n) ∧ ∀ n ∈ m.names.inputs, Dotless n

theorem addNonCyclic_eq (ns : List String) : addNonCyclic ns = ns ++ ["states.time", "inputs.track_heading"].filter (· ∉ ns) := by
  unfold addNonCyclic
  by_cases h1 : "states.time" ∈ ns <;> by_cases h2 : "inputs.track_heading" ∈ ns <;> simp [h1, h2]

/-- The assumptions about the configuration under which the problem can be built. -/
theorem Made.good (h : Made m u t cf S) (hu : Sim.Fits (m.explicit cf.conOutputs) u) (hM : (m.explicit cf.conOutputs).Good)
    (ht : makeTranscription cf.transcription cf.kwargs = .ok t) (hn : 1 ≤ cf.numIntervals)
    {D : List ℝ → ℝ → Prop} (hj : OCP.UnitJac u D) (hh : OCP.UnitHess u Upper D) (hs : Suits m)
    (hnd : cf.nonCyclic.Nodup) (hnc : ∀ v ∈ cf.nonCyclic, (∃ n ∈ m.names.states, v = "states." ++ n) ∨ ∃ n ∈ m.names.inputs, v = "inputs." ++ n)
    (hsc : cf.isCyclic = true → "inputs.steer" ∉ cf.nonCyclic)
    (hk : ∀ c ∈ cf.scales, c.Known S.c.o.L) (hz : ∀ c ∈ cf.scales, c.value ≠ 0)
    (hb : ∃ s t', Bounds.updateBounds S.c.o.L (Bounds.fresh S.c.o.L) cf.bounds = (s, none)
      ∧ Bounds.updateBCs S.c.o.L s cf.bcs = (t', none)) : S.Good D := by
  have eS : S.c.o.L.namesOf "states" = m.names.states := by rw [h.layout]; rfl
  have eI : S.c.o.L.namesOf "inputs" = m.names.inputs := by rw [h.layout]; rfl
  obtain ⟨p1, p2, p3, p4, p5⟩ := h.plain
  obtain ⟨q1, q2, q3⟩ := h.config
  exact {
    cond := h.condGood hu hM ht hn
    jac := (by rw [h.unit]; exact hj)
    hess := (by rw [h.unit]; exact hh)
    meshFree := Or.inl (by simp [h.scale])
    built := (by simp [p1, h.scale])
    lap := fun _ => ⟨by simp [h.scale], by rw [eI]; exact hs.steer⟩
    last := (by simp [h.scale])
    time := fun _ => (by rw [eS]; exact hs.time)
    dotless := fun _ => (by rw [eS, eI]; exact hs.dotless)
    excluded := fun _ => (by
      rw [p5, addNonCyclic_eq, eS, eI]
      refine ⟨List.nodup_append.mpr ⟨hnd, List.Nodup.filter _ (by decide), ?_⟩, ?_⟩
      · intro a ha b hb e
        subst e
        simp only [List.mem_filter, decide_eq_true_eq] at hb
        exact hb.2 ha
      · intro v hv
        rcases List.mem_append.mp hv with hv | hv
        · exact hnc v hv
        · simp only [List.mem_filter, List.mem_cons, List.not_mem_nil, or_false] at hv
          rcases hv.1 with rfl | rfl
          · exact Or.inl ⟨"time", hs.time, by decide⟩
          · exact Or.inr ⟨"track_heading", hs.heading, by decide⟩)
    someCyclic := fun hc => Or.inr ⟨"steer", by rw [eI]; exact hs.steer, by
      rw [p3] at hc
      rw [p5, addNonCyclic_eq]
      simp only [List.mem_append, List.mem_filter, not_or]
      exact ⟨hsc hc, by simp⟩⟩
    sample := (by simp [p4])
    known := (by rw [q3]; exact hk)
    nonzero := (by rw [q3]; exact hz)
    bounds := (by rw [q2]; simpa [Setup.allBounds, p4, q1] using hb) }

end

end Lumos.Lts
