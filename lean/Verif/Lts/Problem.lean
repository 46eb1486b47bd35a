import Verif.Lts.Front
import Verif.Lts.Vehicle
import Verif.Lts.Auto
import Verif.Lap.Problem
import Verif.Lap.Accept
import Verif.Lap.Defaults
/-!
# The problem that a lap time simulation solves, by name
-/

namespace Lumos.Lts

open Lumos DecVar DecVar.Layout Bounds Ocp Lumos.Trans NLP Io Io.Mdl LapSim Veh

/-! ## Specification -/

/-- A configuration that suits the vehicle: at least one interval, `non_cyclic_vars` names each of some states and inputs once and not the
steering, `con_outputs` names some outputs once each, the scales are of variables of the problem and not zero, and
`update_bounds` and `update_boundary_conditions` accept the bounds and boundary conditions. -/
structure Usable (v : Mdl ℝ) (cf : Conf) : Prop where
  intervals : 1 ≤ cf.numIntervals
  distinct : cf.nonCyclic.Nodup
  known : ∀ w ∈ cf.nonCyclic, (∃ n ∈ onTrackNames.states, w = "states." ++ n) ∨ ∃ n ∈ onTrackNames.inputs, w = "inputs." ++ n
  steer : cf.isCyclic = true → "inputs.steer" ∉ cf.nonCyclic
  outputs : cf.conOutputs.Nodup ∧ ∀ n ∈ cf.conOutputs, n ∈ (vehicleOnTrack v).names.outputs
  scales : ∀ c ∈ cf.scales, c.value ≠ 0 ∧ ∀ k, 2 ≤ k → c.Known (layoutOf ((vehicleOnTrack v).explicit cf.conOutputs) cf.numIntervals k)
  bounds : ∀ k, 2 ≤ k → ∃ s s', Bounds.updateBounds (layoutOf ((vehicleOnTrack v).explicit cf.conOutputs) cf.numIntervals k)
      (Bounds.fresh (layoutOf ((vehicleOnTrack v).explicit cf.conOutputs) cf.numIntervals k)) cf.bounds = (s, none) ∧
    Bounds.updateBCs (layoutOf ((vehicleOnTrack v).explicit cf.conOutputs) cf.numIntervals k) s cf.bcs = (s', none)

/-- The backend computes the model equations of the vehicle on the track, and its derivatives are right at the points of `D`. -/
structure Backed (v : Mdl ℝ) (cf : Conf) (u : UnitProblem) (D : List ℝ → ℝ → Prop) : Prop where
  fits : Sim.Fits ((vehicleOnTrack v).explicit cf.conOutputs) u
  jac : OCP.UnitJac u D
  hess : OCP.UnitHess u Upper D

/-- The equations of one stage, by name: the vehicle model is asked with the states and the inputs of the stage; the derivatives are
those along the centre line, that is divided by the speed along it; the constrained outputs are those of the vehicle and of the kinematics;
the residuals of the vehicle are zero. -/
def StageHolds (v : Mdl ℝ) (con : List String) (L : Layout) (x : List ℝ) (s : Nat) : Prop :=
  ∃ rv, v.eval ⟨some (vehicleNames.states.map fun n => (n, readAt L x "states" n s)),
      some (vehicleNames.inputs.map fun n => (n, readAt L x "inputs" n s)), none⟩ = .ok rv ∧
    readAt L x "states_dot" "time" s = 1 / sdot (readAt L x "states" · s) (readAt L x "inputs" · s) ∧
    readAt L x "states_dot" "n" s = (readAt L x "states" "vx" s * Real.sin (readAt L x "states" "eta" s)
      + readAt L x "states" "vy" s * Real.cos (readAt L x "states" "eta" s)) / sdot (readAt L x "states" · s) (readAt L x "inputs" · s) ∧
    readAt L x "states_dot" "eta" s = (readAt L x "states" "yaw_rate" s - readAt L x "inputs" "track_curvature" s *
      sdot (readAt L x "states" · s) (readAt L x "inputs" · s)) / sdot (readAt L x "states" · s) (readAt L x "inputs" · s) ∧
    (∀ n ∈ vehicleNames.states, readAt L x "states_dot" n s = val rv.statesDot n / sdot (readAt L x "states" · s) (readAt L x "inputs" · s)) ∧
    (∀ k, ("vehicle" ++ "." ++ k) ∈ con → rv.outputs.lookup k = some (readAt L x "con_outputs" ("vehicle" ++ "." ++ k) s)) ∧
    ("kinematics.yaw_angle" ∈ con → readAt L x "con_outputs" "kinematics.yaw_angle" s
      = readAt L x "states" "eta" s + readAt L x "inputs" "track_heading" s) ∧
    ("kinematics.curvature" ∈ con → readAt L x "con_outputs" "kinematics.curvature" s = readAt L x "inputs" "track_curvature" s) ∧
    ∀ n ∈ v.names.residuals, rv.outputs.lookup n = some 0

/-! ## Proofs -/

theorem holdsAt_stage {v : Mdl ℝ} (hv : Car v) {con : List String} (hcon : ∀ n ∈ con, n ∈ (vehicleOnTrack v).names.outputs) (L : Layout) (x : List ℝ)
    (s : Nat) (μ : ℝ) : HoldsAt (vehicleOnTrack v) con L x s μ ↔ StageHolds v con L x s := by
  obtain ⟨r, rv, er, ev, h1, h2, h3, h4, h5, h6, h7, -⟩ := onTrack_values hv (readAt L x "states" · s) (readAt L x "inputs" · s) (some μ)
  unfold HoldsAt StageHolds
  rw [onTrack_names] at *
  dsimp only at *
  have key : (∀ n ∈ con, r.outputs.lookup n = some (readAt L x "con_outputs" n s)) ↔
      (∀ k, ("vehicle" ++ "." ++ k) ∈ con → rv.outputs.lookup k = some (readAt L x "con_outputs" ("vehicle" ++ "." ++ k) s)) ∧
      ("kinematics.yaw_angle" ∈ con → readAt L x "con_outputs" "kinematics.yaw_angle" s
        = readAt L x "states" "eta" s + readAt L x "inputs" "track_heading" s) ∧
      ("kinematics.curvature" ∈ con → readAt L x "con_outputs" "kinematics.curvature" s = readAt L x "inputs" "track_curvature" s) := by
    constructor
    · intro H
      refine ⟨fun k hk => by rw [← h5 k]; exact H _ hk, fun hk => ?_, fun hk => ?_⟩
      · have := H _ hk
        rw [h6, Option.some.injEq] at this
        exact this.symm
      · have := H _ hk
        rw [h7, Option.some.injEq] at this
        exact this.symm
    · rintro ⟨a, b, c⟩ n hn
      rcases List.mem_append.mp (hcon n hn) with hn' | hn'
      · obtain ⟨k, -, rfl⟩ := List.mem_map.mp hn'
        exact (h5 k).trans (a k hn)
      · simp only [List.mem_cons, List.not_mem_nil, or_false] at hn'
        rcases hn' with rfl | rfl
        · rw [h6, b hn]
        · rw [h7, c hn]
  have keyd : (∀ n ∈ onTrackNames.states, r.statesDot.lookup n = some (readAt L x "states_dot" n s)) ↔
      readAt L x "states_dot" "time" s = 1 / sdot (readAt L x "states" · s) (readAt L x "inputs" · s) ∧
      readAt L x "states_dot" "n" s = (readAt L x "states" "vx" s * Real.sin (readAt L x "states" "eta" s)
        + readAt L x "states" "vy" s * Real.cos (readAt L x "states" "eta" s)) / sdot (readAt L x "states" · s) (readAt L x "inputs" · s) ∧
      readAt L x "states_dot" "eta" s = (readAt L x "states" "yaw_rate" s - readAt L x "inputs" "track_curvature" s *
        sdot (readAt L x "states" · s) (readAt L x "inputs" · s)) / sdot (readAt L x "states" · s) (readAt L x "inputs" · s) ∧
      (∀ n ∈ vehicleNames.states, readAt L x "states_dot" n s = val rv.statesDot n / sdot (readAt L x "states" · s) (readAt L x "inputs" · s)) := by
    have split : (∀ n ∈ onTrackNames.states, r.statesDot.lookup n = some (readAt L x "states_dot" n s)) ↔
        (∀ n ∈ ["time", "n", "eta"], r.statesDot.lookup n = some (readAt L x "states_dot" n s)) ∧
        ∀ n ∈ vehicleNames.states, r.statesDot.lookup n = some (readAt L x "states_dot" n s) := List.forall_mem_append
    rw [split]
    simp only [List.forall_mem_cons, h1, h2, h3, Option.some.injEq]
    constructor
    · rintro ⟨⟨a, b, c, -⟩, d⟩
      refine ⟨a.symm, b.symm, c.symm, fun n hn => ?_⟩
      have := d n hn
      rw [h4 n hn, Option.some.injEq] at this
      rw [← this]; ring
    · rintro ⟨a, b, c, d⟩
      refine ⟨⟨a.symm, b.symm, c.symm, fun n hn => by simp at hn⟩, fun n hn => ?_⟩
      rw [h4 n hn, d n hn]; congr 1; ring
  have keyr : (∀ n ∈ addPrefix "vehicle" v.names.residuals, r.outputs.lookup n = some 0) ↔ ∀ n ∈ v.names.residuals, rv.outputs.lookup n = some 0 := by
    constructor
    · intro H n hn
      rw [← h5 n]
      exact H _ (List.mem_map.mpr ⟨n, hn, rfl⟩)
    · intro H n hn
      obtain ⟨k, hk, rfl⟩ := List.mem_map.mp hn
      exact (h5 k).trans (H k hk)
  constructor
  · rintro ⟨r', e', a, b, c⟩
    rw [er, Except.ok.injEq] at e'
    subst e'
    obtain ⟨a1, a2, a3, a4⟩ := keyd.mp a
    obtain ⟨b1, b2, b3⟩ := key.mp b
    exact ⟨rv, ev, a1, a2, a3, a4, b1, b2, b3, keyr.mp c⟩
  · rintro ⟨rv', e', a1, a2, a3, a4, b1, b2, b3, c⟩
    rw [ev, Except.ok.injEq] at e'
    subst e'
    exact ⟨r, er, keyd.mpr ⟨a1, a2, a3, a4⟩, key.mpr ⟨b1, b2, b3⟩, keyr.mpr c⟩

section
variable {v : Mdl ℝ} {cf : Conf} {u : UnitProblem} {D : List ℝ → ℝ → Prop} {t : Transcription} {S : Setup}

theorem Made.suited (h : Made (vehicleOnTrack v) u t cf S) (hv : Car v) (hc : Usable v cf) (hu : Backed v cf u D)
    (ht : makeTranscription cf.transcription cf.kwargs = .ok t) : S.Good D := by
  obtain ⟨h2, _⟩ := C38_shapes ht
  have hd := onTrack_delivers hv hc.outputs.1 hc.outputs.2
  have hn : (vehicleOnTrack v).names.states = onTrackNames.states ∧ (vehicleOnTrack v).names.inputs = onTrackNames.inputs := by
    rw [onTrack_names]; exact ⟨rfl, rfl⟩
  refine h.good hu.fits (explicit_good hd) ht hc.intervals hu.jac hu.hess (onTrack_suits v) hc.distinct ?_ hc.steer ?_ (fun c h => (hc.scales c h).1) ?_
  · rw [hn.1, hn.2]; exact hc.known
  · rw [h.layout]; exact fun c hcs => (hc.scales c hcs).2 _ h2
  · rw [h.layout]; exact hc.bounds _ h2

theorem Made.names (h : Made (vehicleOnTrack v) u t cf S) : S.c.o.L.namesOf "states" = onTrackNames.states ∧
    S.c.o.L.namesOf "inputs" = onTrackNames.inputs ∧ S.c.o.L.namesOf "states_dot" = onTrackNames.states ∧
    S.c.o.L.namesOf "con_outputs" = cf.conOutputs := by
  have hn : (vehicleOnTrack v).names.states = onTrackNames.states ∧ (vehicleOnTrack v).names.inputs = onTrackNames.inputs := by
    rw [onTrack_names]; exact ⟨rfl, rfl⟩
  rw [h.layout]
  exact ⟨hn.1, hn.2, hn.1, rfl⟩

/-- What `LaptimeSimulation` did when it returned. -/
theorem laptime_inv (hv : Car v) (hc : Usable v cf) (hu : Backed v cf u D) {file : Py (List Row)} {l : Lap} (hl : laptime v u cf file = .ok l) :
    ∃ t S b tr, makeTranscription cf.transcription cf.kwargs = .ok t ∧ Made (vehicleOnTrack v) u t cf S ∧ S.Good D ∧ S.build = .ok b ∧
      Ready ⟨S, b.bounds, none⟩ ∧ Lap.setTrack ⟨S, b.bounds, none⟩ file = (l, none) ∧ fromTumCsv file = .ok tr ∧ l.track = some tr ∧
      l.S = rescale S tr.totalDistance := by
  have hd := onTrack_delivers hv hc.outputs.1 hc.outputs.2
  unfold laptime at hl
  obtain ⟨S, hS, hl⟩ := Config.bind_ok hl
  obtain ⟨t, ht, hm⟩ := front_inv (explicit_good hd) hc.intervals hS
  have hg := hm.suited hv hc hu ht
  obtain ⟨n1, n2, -, -⟩ := hm.names
  have es := start_made hm
  obtain ⟨b, hb, hr, hk⟩ := C69_construct (S := S) (by rw [es]; exact hg) (by rw [n2]; decide) (by rw [n2]; decide) (by rw [n1]; decide) file
  rw [es] at hb hr hk
  rcases hs : Lap.setTrack ⟨S, b.bounds, none⟩ file with ⟨l', o⟩
  obtain ⟨k1, k2⟩ := hk l' o hs
  cases o with
  | some e => rw [k2 e rfl] at hl; cases hl
  | none =>
    rw [k1 rfl, Except.ok.injEq] at hl
    subst hl
    obtain ⟨tr, f1, f2, f3⟩ := setTrack_inv hs
    exact ⟨t, S, b, tr, ht, hm, hg, hb, hr, hs, f1, f2, f3⟩

/-- `LaptimeSimulation` accepts every vehicle, usable configuration, transcription and mesh that exist, and every road. -/
theorem C95_construct (hv : Car v) (hc : Usable v cf) (hu : Backed v cf u D) (ht : makeTranscription cf.transcription cf.kwargs = .ok t)
    {mesh : List (List ℝ)} (hm : setMesh t.interp cf.numIntervals cf.intervalPoints = .ok mesh) {rows : List Row} (hr : Road rows) :
    ∃ l tr, laptime v u cf (.ok rows) = .ok l ∧ fromTumCsv (.ok rows) = .ok tr ∧ l.track = some tr ∧ 0 < tr.totalDistance := by
  have hd := onTrack_delivers hv hc.outputs.1 hc.outputs.2
  obtain ⟨S, hS, hmd⟩ := front_ok (m := vehicleOnTrack v) (u := u) (explicit_good hd) ht hc.intervals hm
  have hg := hmd.suited hv hc hu ht
  obtain ⟨n1, n2, -, -⟩ := hmd.names
  have es := start_made hmd
  obtain ⟨b, hb, hrd, hk⟩ := C69_construct (S := S) (by rw [es]; exact hg) (by rw [n2]; decide) (by rw [n2]; decide) (by rw [n1]; decide) (.ok rows)
  rw [es] at hb hrd hk
  have hok := C69_road_accepted hrd hr
  rcases hs : Lap.setTrack ⟨S, b.bounds, none⟩ (.ok rows) with ⟨l, o⟩
  rw [hs] at hok
  dsimp only at hok
  subst hok
  obtain ⟨tr, f1, f2, f3⟩ := setTrack_inv hs
  obtain ⟨tr', g1, -, g3, -⟩ := road_loads hr
  rw [f1, Except.ok.injEq] at g1
  subst g1
  refine ⟨l, tr, ?_, f1, f2, g3⟩
  unfold laptime
  rw [hS]
  exact (hk l none hs).1 rfl

theorem Made.uses_model (h : Made (vehicleOnTrack v) u t cf S) (ms : ℝ) : Io.Mdl.Uses (rescale S ms) (vehicleOnTrack v) cf.conOutputs := by
  have e := h.names
  have hn : (vehicleOnTrack v).names.states = onTrackNames.states ∧ (vehicleOnTrack v).names.inputs = onTrackNames.inputs := by
    rw [onTrack_names]; exact ⟨rfl, rfl⟩
  refine ⟨fun x w μ _ _ => ?_, ?_, ?_, ?_, ?_⟩
  · show S.c.M.f x w μ = _ ∧ S.c.M.h x w μ = _ ∧ S.c.M.r x w μ = _
    rw [h.model]
    exact ⟨rfl, rfl, rfl⟩
  · rw [hn.1]; exact e.1
  · rw [hn.2]; exact e.2.1
  · rw [hn.1]; exact e.2.2.1
  · exact e.2.2.2

/-- The feasible points of the problem are the points at which, stage by stage, the equations of the vehicle on the track hold, between the stages
the equations of the transcription for the distance between them, and for a cyclic problem the states and inputs that are not
excluded (nor the time, nor the heading of the track) agree at both ends. The objective is the time between the ends plus the mean of
the squared steering. -/
theorem C95_feasible (hv : Car v) (hc : Usable v cf) (hu : Backed v cf u D) {file : Py (List Row)} {l : Lap} (hl : laptime v u cf file = .ok l) :
    ∃ t tr b, makeTranscription cf.transcription cf.kwargs = .ok t ∧ fromTumCsv file = .ok tr ∧ l.track = some tr ∧
      l.problem = .ok b ∧ b.bounds = l.st ∧ l.S.c.o.L.numStages = cf.numIntervals * (t.stages - 1) + 1 ∧
      ∀ x : List ℝ, x.length = l.S.c.o.L.numDec →
        (b.Feasible (vdiv x b.prob.scales) ↔
          (∀ s, s < l.S.c.o.L.numStages → StageHolds v cf.conOutputs l.S.c.o.L x s) ∧
          (∀ i, i < cf.numIntervals → ∀ n ∈ onTrackNames.states, Steps t
            (fun j => readAt l.S.c.o.L x "states" n (i * (t.stages - 1) + j)) (fun j => readAt l.S.c.o.L x "states_dot" n (i * (t.stages - 1) + j))
            (((pointsOf cf.numIntervals cf.intervalPoints).getD (i + 1) 0 - (pointsOf cf.numIntervals cf.intervalPoints).getD i 0)
              * tr.totalDistance)) ∧
          (cf.isCyclic = true →
            (∀ n ∈ onTrackNames.states, n ≠ "time" → ("states." ++ n) ∉ cf.nonCyclic →
              readAt l.S.c.o.L x "states" n 0 = readAt l.S.c.o.L x "states" n (l.S.c.o.L.numStages - 1)) ∧
            ∀ n ∈ onTrackNames.inputs, n ≠ "track_heading" → ("inputs." ++ n) ∉ cf.nonCyclic →
              readAt l.S.c.o.L x "inputs" n 0 = readAt l.S.c.o.L x "inputs" n (l.S.c.o.L.numStages - 1))) ∧
        b.prob.objective (vdiv x b.prob.scales) = .ok (readAt l.S.c.o.L x "states" "time" (l.S.c.o.L.numStages - 1)
          - readAt l.S.c.o.L x "states" "time" 0
          + (∑ s ∈ Finset.range l.S.c.o.L.numStages, readAt l.S.c.o.L x "inputs" "steer" s ^ 2) / (l.S.c.o.L.numStages : ℝ)) := by
  obtain ⟨t, S, b0, tr, ht, hm, hg, hb0, hrd, hs, f1, f2, f3⟩ := laptime_inv hv hc hu hl
  obtain ⟨p1, p2, p3, p4, p5⟩ := hm.plain
  obtain ⟨tr', b, g1, g2, g3, g4, g5⟩ := C69_problem (l := ⟨S, b0.bounds, none⟩) hg p2 p4 hrd hs
  rw [f2, Option.some.injEq] at g1
  subst g1
  have eL : l.S.c.o.L = S.c.o.L := by rw [f3]; rfl
  have eN : S.c.o.L.numIntervals = cf.numIntervals := by rw [hm.layout]; rfl
  have hstages : l.S.c.o.L.numStages = cf.numIntervals * (t.stages - 1) + 1 := by rw [eL, hm.layout]; rfl
  refine ⟨t, tr, b, ht, f1, f2, g2, g3, hstages, fun x hx => ?_⟩
  obtain ⟨a1, a2⟩ := g5 x hx
  refine ⟨?_, a2⟩
  have hU : Io.Mdl.Uses l.S (vehicleOnTrack v) cf.conOutputs := by rw [f3]; exact hm.uses_model _
  rw [a1, C52_solution (onTrack_delivers hv hc.outputs.1 hc.outputs.2) hU x]
  have esc : readScale l.S.c.o x = tr.totalDistance := by unfold readScale; rw [g4]
  have enS : (vehicleOnTrack v).names.states = onTrackNames.states := by rw [onTrack_names]
  have elen : ∀ i, l.S.c.o.normLen.getD i 0 = S.c.o.normLen.getD i 0 := by intro i; rw [f3]; rfl
  have eA : ∀ i j, i < t.stages - 1 → l.S.c.o.A i j = entry t.A i j ∧ l.S.c.o.B i j = entry t.B i j := by
    intro i j hi
    rw [f3]
    refine ⟨?_, ?_⟩
    · show S.c.o.A i j = _
      rw [hm.uses.matA]
    · show S.c.o.B i j = _
      rw [hm.uses.matB]
  have enspi : l.S.c.o.L.nspi = t.stages := by rw [eL]; exact hm.uses.stages
  have e1 : (∀ s, s < l.S.c.o.L.numStages → HoldsAt (vehicleOnTrack v) cf.conOutputs l.S.c.o.L x s (l.S.c.mesh.getD s 0 * readScale l.S.c.o x)) ↔
      ∀ s, s < l.S.c.o.L.numStages → StageHolds v cf.conOutputs l.S.c.o.L x s :=
    forall₂_congr fun s _ => holdsAt_stage hv hc.outputs.2 _ _ _ _
  rw [e1]
  have e2 : (∀ i l' k : Nat, i < l.S.c.o.L.numIntervals → l' < l.S.c.o.L.nspi - 1 → ∀ n, (vehicleOnTrack v).names.states[k]? = some n →
        ∑ j ∈ Finset.range l.S.c.o.L.nspi, l.S.c.o.A l' j * readAt l.S.c.o.L x "states" n (i * (l.S.c.o.L.nspi - 1) + j)
          = l.S.c.o.normLen.getD i 0 * readScale l.S.c.o x *
            ∑ j ∈ Finset.range l.S.c.o.L.nspi, l.S.c.o.B l' j * readAt l.S.c.o.L x "states_dot" n (i * (l.S.c.o.L.nspi - 1) + j)) ↔
      (∀ i, i < cf.numIntervals → ∀ n ∈ onTrackNames.states, Steps t
            (fun j => readAt l.S.c.o.L x "states" n (i * (t.stages - 1) + j)) (fun j => readAt l.S.c.o.L x "states_dot" n (i * (t.stages - 1) + j))
            (((pointsOf cf.numIntervals cf.intervalPoints).getD (i + 1) 0 - (pointsOf cf.numIntervals cf.intervalPoints).getD i 0)
              * tr.totalDistance)) := by
    have hN : l.S.c.o.L.numIntervals = cf.numIntervals := by rw [eL]; exact eN
    rw [enspi, esc, enS, hN]
    constructor
    · intro H i hi n hn q hq
      obtain ⟨k, hk⟩ := List.mem_iff_getElem?.mp hn
      have := H i q k hi hq n hk
      rw [elen, hm.len i hi] at this
      simp only [eA q _ hq] at this
      exact this
    · intro H i q k hi hq n hn
      have := H i hi n (List.mem_of_getElem? hn) q hq
      rw [elen, hm.len i hi]
      simp only [eA q _ hq]
      exact this
  rw [e2]
  have e3 : (l.S.isCyclic = true → ∀ g n, (g = "states" ∨ g = "inputs") → n ∈ l.S.c.o.L.namesOf g → (g ++ "." ++ n) ∉ l.S.nonCyclic →
        readAt l.S.c.o.L x g n 0 = readAt l.S.c.o.L x g n (l.S.c.o.L.numStages - 1)) ↔
      (cf.isCyclic = true →
            (∀ n ∈ onTrackNames.states, n ≠ "time" → ("states." ++ n) ∉ cf.nonCyclic →
              readAt l.S.c.o.L x "states" n 0 = readAt l.S.c.o.L x "states" n (l.S.c.o.L.numStages - 1)) ∧
            ∀ n ∈ onTrackNames.inputs, n ≠ "track_heading" → ("inputs." ++ n) ∉ cf.nonCyclic →
              readAt l.S.c.o.L x "inputs" n 0 = readAt l.S.c.o.L x "inputs" n (l.S.c.o.L.numStages - 1)) := by
    have q1 : l.S.isCyclic = cf.isCyclic := by rw [f3]; exact p3
    have q2 : l.S.nonCyclic = addNonCyclic cf.nonCyclic := by rw [f3]; exact p5
    obtain ⟨n1, n2, -, -⟩ := hm.names
    rw [← eL] at n1 n2
    rw [q1, q2, addNonCyclic_eq]
    have mem : ∀ w, w ∉ cf.nonCyclic ++ ["states.time", "inputs.track_heading"].filter (· ∉ cf.nonCyclic) ↔
        w ∉ cf.nonCyclic ∧ w ≠ "states.time" ∧ w ≠ "inputs.track_heading" := by
      intro w
      by_cases hw : w ∈ cf.nonCyclic
      · simp [hw]
      · simp only [List.mem_append, List.mem_filter, List.mem_cons, List.not_mem_nil, or_false, hw, false_or, not_false_eq_true, true_and, decide_true, and_true]
        tauto
    simp only [mem]
    have ds : ∀ n, "states" ++ "." ++ n = "states." ++ n := fun n => rfl
    have di : ∀ n, "inputs" ++ "." ++ n = "inputs." ++ n := fun n => rfl
    refine imp_congr_right fun _ => ⟨fun H => ⟨fun n hn hne hnc => ?_, fun n hn hne hnc => ?_⟩, fun H g n hgn hn hnc => ?_⟩
    · refine H "states" n (Or.inl rfl) (by rw [n1]; exact hn) ⟨hnc, ?_, ?_⟩
      · intro e
        exact hne (String.append_right_inj "states." |>.mp e)
      · intro e
        have := congrArg String.toList e
        simp [String.toList_append] at this
    · refine H "inputs" n (Or.inr rfl) (by rw [n2]; exact hn) ⟨hnc, ?_, ?_⟩
      · intro e
        have := congrArg String.toList e
        simp [String.toList_append] at this
      · intro e
        exact hne (String.append_right_inj "inputs." |>.mp e)
    · obtain ⟨hnc, h1, h2⟩ := hnc
      rcases hgn with rfl | rfl
      · rw [n1] at hn
        exact H.1 n hn (by rintro rfl; exact h1 rfl) hnc
      · rw [n2] at hn
        exact H.2 n hn (by rintro rfl; exact h2 rfl) hnc
  rw [e3]
  tauto

end

end Lumos.Lts
