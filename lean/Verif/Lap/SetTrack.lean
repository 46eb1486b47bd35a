import Verif.Lap.Track
/-!
# C69: setting and changing the track
-/

namespace Lumos.LapSim

open Lumos DecVar DecVar.Layout Bounds Ocp Track Io

/-! ## Specification -/

/-- The object is in order: the model is a vehicle on a track, and the boundary conditions can be applied. -/
structure Ready (l : Lap) : Prop where
  made : l.S.c.o.L.Made
  points : l.S.c.mesh.length = l.S.c.o.L.numStages
  lb : l.st.lb.length = l.S.c.o.L.numDec
  ub : l.st.ub.length = l.S.c.o.L.numDec
  states : "states" ∈ l.S.c.o.L.groups
  inputs : "inputs" ∈ l.S.c.o.L.groups
  curvature : "track_curvature" ∈ l.S.c.o.L.namesOf "inputs"
  heading : "track_heading" ∈ l.S.c.o.L.namesOf "inputs"
  lateral : "n" ∈ l.S.c.o.L.namesOf "states"
  bcs : (applyBCs l.S.c.o.L l.st).2 = none

/-- The limits that the track `t`, looked up at the distances `mesh` of the stages, sets for a variable. -/
inductive Limits (t : RaceTrack) (mesh : List ℝ) : Var → EReal → EReal → Prop
  | curvature {s : Nat} {d c : ℝ} : mesh[s]? = some d → t.curvatureAt d = .ok c →
      Limits t mesh (.stage s "inputs" "track_curvature") c c
  | heading {s : Nat} {d c : ℝ} : mesh[s]? = some d → t.headingAt d = .ok c →
      Limits t mesh (.stage s "inputs" "track_heading") c c
  | lateral {s : Nat} {d a b : ℝ} : mesh[s]? = some d → t.leftDistanceAt d = .ok a → t.rightDistanceAt d = .ok b →
      Limits t mesh (.stage s "states" "n") ((-b : ℝ) : EReal) a

/-- The variables on which a track sets limits. -/
def IsTrackVar : Var → Prop
  | .stage _ g n => (g = "inputs" ∧ (n = "track_curvature" ∨ n = "track_heading")) ∨ (g = "states" ∧ n = "n")
  | .glob _ => False

/-! ## Which variables the three bounds mention -/

theorem isVar_of {L : Layout} {g n : String} (hg : g ∈ L.groups) (hn : n ∈ L.namesOf g) {s : Nat} (hs : s < L.numStages) :
    L.IsVar (.stage s g n) := by
  unfold namesOf at hn
  cases h : L.names.lookup g with
  | none => simp [h] at hn
  | some ns => exact ⟨hs, hg, ns, h, by simpa [h] using hn⟩

/-- Two variables of the same stage with the same full name are the same. -/
theorem fullName_inj {L : Layout} (hL : L.Made) {s : Nat} {g n g' n' : String} (hv : L.IsVar (.stage s g n))
    (hv' : L.IsVar (.stage s g' n')) (h : fullName g n = fullName g' n') : g = g' ∧ n = n' := by
  obtain ⟨i, hi, _⟩ := C01_index_in_range hL hv
  obtain ⟨j, hj, _⟩ := C01_index_in_range hL hv'
  have e1 := (query_stage_pos hL hv hi).2.2
  have e2 := (query_stage_pos hL hv' hj).2.2
  have := C01_index_injective hL hv hv' (by rw [hi, hj, e1, e2, h])
  simpa using this

theorem query_isVar_stage {L : Layout} {s : Nat} {g n : String} (h : L.IsVar (.stage s g n)) : s < L.numStages := h.1

theorem at_asBound {l : List ℝ} {s : Nat} (hs : s < l.length) : (asBound l).at s = some ((l[s] : ℝ) : EReal) := by
  unfold asBound
  rw [BVal.at_array _ _ (by simpa using hs)]
  simp [hs]

variable {l : Lap}

theorem Ready.zero (_h : Ready l) : 0 < l.S.c.o.L.numStages := numStages_pos _

theorem Ready.var_curvature (h : Ready l) {s : Nat} (hs : s < l.S.c.o.L.numStages) :
    l.S.c.o.L.IsVar (.stage s "inputs" "track_curvature") := isVar_of h.inputs h.curvature hs
theorem Ready.var_heading (h : Ready l) {s : Nat} (hs : s < l.S.c.o.L.numStages) :
    l.S.c.o.L.IsVar (.stage s "inputs" "track_heading") := isVar_of h.inputs h.heading hs
theorem Ready.var_lateral (h : Ready l) {s : Nat} (hs : s < l.S.c.o.L.numStages) :
    l.S.c.o.L.IsVar (.stage s "states" "n") := isVar_of h.states h.lateral hs

theorem mentions_iff {L : Layout} (hL : L.Made) {c : BoundConfig EReal} (hc : ∀ s, s < L.numStages → L.IsVar (.stage s c.group c.name))
    {v : Var} (hv : L.IsVar v) : c.req.Mentions L v ↔ ∃ s, v = .stage s c.group c.name := by
  have hg : c.group ≠ "global" := by
    intro e
    have := (hc 0 (numStages_pos L)).2.1
    rw [e] at this
    exact hL.reserved this
  rcases v with ⟨s, g, n⟩ | n
  · simp only [Req.Mentions, BoundConfig.req, true_or, and_true]
    constructor
    · rintro ⟨_, e⟩
      obtain ⟨e1, e2⟩ := fullName_inj hL (hc s hv.1) hv e
      exact ⟨s, by rw [e1, e2]⟩
    · rintro ⟨s', e⟩
      cases e
      exact ⟨hg, rfl⟩
  · simp [Req.Mentions, BoundConfig.req, hg]

theorem lastMention_three (h : Ready l) {mesh : List ℝ} (hm : mesh.length = l.S.c.o.L.numStages) {t : RaceTrack} (ht : Loaded t) {v : Var}
    (hv : l.S.c.o.L.IsVar v) :
    (IsTrackVar v → ∃ r lo hi, lastMention l.S.c.o.L ((threeBounds mesh t).map BoundConfig.req) v = some r ∧ Limits t mesh v lo hi ∧
      r.arg.lb.at (r.slot v) = some lo ∧ r.arg.ub.at (r.slot v) = some hi) ∧
    (¬IsTrackVar v → lastMention l.S.c.o.L ((threeBounds mesh t).map BoundConfig.req) v = none) := by
  have m1 := mentions_iff h.made (c := ⟨"inputs", "track_curvature", asBound (mesh.map fun d => num (t.curvatureAt d)), asBound (mesh.map fun d => num (t.curvatureAt d))⟩)
    (fun s hs => h.var_curvature hs) hv
  have m2 := mentions_iff h.made (c := ⟨"inputs", "track_heading", asBound (mesh.map fun d => num (t.headingAt d)), asBound (mesh.map fun d => num (t.headingAt d))⟩)
    (fun s hs => h.var_heading hs) hv
  have m3 := mentions_iff h.made (c := ⟨"states", "n", asBound (mesh.map fun d => -num (t.rightDistanceAt d)), asBound (mesh.map fun d => num (t.leftDistanceAt d))⟩)
    (fun s hs => h.var_lateral hs) hv
  unfold threeBounds
  simp only [List.map_cons, List.map_nil, lastMention_cons]
  have nil : lastMention l.S.c.o.L ([] : List (Req EReal)) v = none := rfl
  simp only [nil, Option.none_or]
  constructor
  · intro hT
    rcases v with ⟨s, g, n⟩ | n
    · have hs : s < mesh.length := by rw [hm]; exact hv.1
      rcases hT with ⟨rfl, rfl | rfl⟩ | ⟨rfl, rfl⟩
      · rw [if_neg (mt m3.mp (by simp)), if_neg (mt m2.mp (by simp)), if_pos (m1.mpr ⟨s, rfl⟩)]
        refine ⟨_, _, _, rfl, Limits.curvature (List.getElem?_eq_getElem hs) (ht.curvatureAt _), ?_, ?_⟩
        all_goals
          simp only [Req.slot, BoundConfig.req, if_true, BArg.lb, BArg.ub]
          rw [at_asBound (by simpa using hs)]
          simp
      · rw [if_neg (mt m3.mp (by simp)), if_pos (m2.mpr ⟨s, rfl⟩)]
        refine ⟨_, _, _, rfl, Limits.heading (List.getElem?_eq_getElem hs) (ht.headingAt _), ?_, ?_⟩
        all_goals
          simp only [Req.slot, BoundConfig.req, if_true, BArg.lb, BArg.ub]
          rw [at_asBound (by simpa using hs)]
          simp
      · rw [if_pos (m3.mpr ⟨s, rfl⟩)]
        refine ⟨_, _, _, rfl, Limits.lateral (List.getElem?_eq_getElem hs) (ht.leftAt _) (ht.rightAt _), ?_, ?_⟩
        all_goals
          simp only [Req.slot, BoundConfig.req, if_true, BArg.lb, BArg.ub]
          rw [at_asBound (by simpa using hs)]
          simp
    · exact hT.elim
  · intro hT
    rw [if_neg, if_neg, if_neg]
    · rfl
    · rw [m1]; rintro ⟨s, rfl⟩; exact hT (Or.inl ⟨rfl, Or.inl rfl⟩)
    · rw [m2]; rintro ⟨s, rfl⟩; exact hT (Or.inl ⟨rfl, Or.inr rfl⟩)
    · rw [m3]; rintro ⟨s, rfl⟩; exact hT (Or.inr ⟨rfl, rfl⟩)

theorem Limits.unique {t : RaceTrack} {mesh : List ℝ} {v : Var} {a b a' b' : EReal} (h : Limits t mesh v a b) (h' : Limits t mesh v a' b') :
    a = a' ∧ b = b' := by
  revert h'
  generalize hw : v = w
  intro h'
  cases h <;> cases h' <;> simp_all

theorem Limits.at_curvature {t : RaceTrack} {mesh : List ℝ} {s : Nat} {a b : EReal}
    (h : Limits t mesh (.stage s "inputs" "track_curvature") a b) :
    ∃ d c : ℝ, mesh[s]? = some d ∧ t.curvatureAt d = .ok c ∧ a = c ∧ b = c := by
  generalize hw : Var.stage s "inputs" "track_curvature" = w at h
  cases h <;> simp_all

theorem Limits.at_heading {t : RaceTrack} {mesh : List ℝ} {s : Nat} {a b : EReal}
    (h : Limits t mesh (.stage s "inputs" "track_heading") a b) :
    ∃ d c : ℝ, mesh[s]? = some d ∧ t.headingAt d = .ok c ∧ a = c ∧ b = c := by
  generalize hw : Var.stage s "inputs" "track_heading" = w at h
  cases h <;> simp_all

theorem Limits.at_lateral {t : RaceTrack} {mesh : List ℝ} {s : Nat} {a b : EReal} (h : Limits t mesh (.stage s "states" "n") a b) :
    ∃ d l r : ℝ, mesh[s]? = some d ∧ t.leftDistanceAt d = .ok l ∧ t.rightDistanceAt d = .ok r ∧ a = ((-r : ℝ) : EReal) ∧ b = l := by
  generalize hw : Var.stage s "states" "n" = w at h
  cases h <;> simp_all

/-! ## When a track is accepted -/

theorem three_ok (h : Ready l) {t : RaceTrack} (hw : Wide (distanceMesh l.S t) t) :
    (Bounds.updateBounds l.S.c.o.L l.st (threeBounds (distanceMesh l.S t) t)).2 = none := by
  have hlen : (distanceMesh l.S t).length = l.S.c.o.L.numStages := by simp [distanceMesh, h.points]
  have same : ∀ as : List EReal, ∀ p ∈ as.zip as, p.1 ≤ p.2 := by
    intro as p hp
    rw [List.zip_eq_zipWith, List.zipWith_self] at hp
    obtain ⟨d, _, rfl⟩ := List.mem_map.mp hp
    exact le_rfl
  have e1 : ∀ s : St EReal, (setAll l.S.c.o.L s ((threeBounds (distanceMesh l.S t) t).map BoundConfig.req)).2 = none := by
    intro s
    have n1 : ∀ s : St EReal, (setVarBounds l.S.c.o.L s "inputs" "track_curvature" none (.pair (asBound ((distanceMesh l.S t).map fun d => num (t.curvatureAt d))) (asBound ((distanceMesh l.S t).map fun d => num (t.curvatureAt d))))).2 = none :=
      fun s => setVarBounds_array h.made (h.var_curvature h.zero) s (by simpa using hlen) (by simpa using hlen) (same _)
    have n2 : ∀ s : St EReal, (setVarBounds l.S.c.o.L s "inputs" "track_heading" none (.pair (asBound ((distanceMesh l.S t).map fun d => num (t.headingAt d))) (asBound ((distanceMesh l.S t).map fun d => num (t.headingAt d))))).2 = none :=
      fun s => setVarBounds_array h.made (h.var_heading h.zero) s (by simpa using hlen) (by simpa using hlen) (same _)
    have n3 : ∀ s : St EReal, (setVarBounds l.S.c.o.L s "states" "n" none (.pair (asBound ((distanceMesh l.S t).map fun d => -num (t.rightDistanceAt d))) (asBound ((distanceMesh l.S t).map fun d => num (t.leftDistanceAt d))))).2 = none :=
      fun s => setVarBounds_array h.made (h.var_lateral h.zero) s (by simpa using hlen) (by simpa using hlen) (by
        intro p hp
        rw [List.map_map, List.map_map, List.zip_map_left, List.zip_map_right, List.map_map, List.zip_eq_zipWith, List.zipWith_self,
          List.map_map] at hp
        obtain ⟨d, hd, rfl⟩ := List.mem_map.mp hp
        exact EReal.coe_le_coe_iff.mpr (hw d hd))
    have pair : ∀ r : St EReal × Option PyErr, r.2 = none → r = (r.1, none) := fun r hr => Prod.ext rfl hr
    unfold threeBounds
    simp only [List.map_cons, List.map_nil, setAll, BoundConfig.req]
    rw [pair _ (n1 _)]
    dsimp only
    rw [pair _ (n2 _)]
    dsimp only
    rw [pair _ (n3 _)]
  unfold Bounds.updateBounds
  rcases hr : setAll l.S.c.o.L l.st ((threeBounds (distanceMesh l.S t) t).map BoundConfig.req) with ⟨s', o⟩
  have := e1 l.st
  have hb := setAll_bcs l.S.c.o.L l.st ((threeBounds (distanceMesh l.S t) t).map BoundConfig.req)
  rw [hr] at this hb
  dsimp only at this hb
  subst this
  dsimp only
  unfold applyBCs
  rw [hb, setAll_err _ _ _ l.st]
  exact h.bcs

/-- What `set_track` does. -/
theorem setTrack_eq (h : Ready l) (file : Py (List Row)) :
    (∃ e, fromTumCsv file = .error e ∧ l.setTrack file = (l, some e)) ∨
    (∃ t, fromTumCsv file = .ok t ∧ Loaded t ∧ ¬Wide (distanceMesh l.S t) t ∧
      l.setTrack file = ({ l with S := rescale l.S t.totalDistance, track := some t }, some .assertionError)) ∨
    (∃ t s', fromTumCsv file = .ok t ∧ Loaded t ∧ Wide (distanceMesh l.S t) t ∧
      Bounds.updateBounds l.S.c.o.L l.st (threeBounds (distanceMesh l.S t) t) = (s', none) ∧
      l.setTrack file = (⟨rescale l.S t.totalDistance, s', some t⟩, none)) := by
  cases hf : fromTumCsv file with
  | error e => left; exact ⟨e, rfl, by unfold Lap.setTrack; rw [hf]⟩
  | ok t =>
    obtain ⟨_, _, ht, _⟩ := fromTumCsv_inv hf
    have hd : distanceMesh (rescale l.S t.totalDistance) t = distanceMesh l.S t := rfl
    obtain ⟨k1, k2⟩ := trackBounds_eq (S := rescale l.S t.totalDistance) ht
    rw [hd] at k1 k2
    right
    by_cases hw : Wide (distanceMesh l.S t) t
    · right
      have ok := three_ok h hw
      refine ⟨t, (Bounds.updateBounds l.S.c.o.L l.st (threeBounds (distanceMesh l.S t) t)).1, rfl, ht, hw, Prod.ext rfl ok, ?_⟩
      unfold Lap.setTrack
      rw [hf]
      dsimp only
      rw [k1 hw]
      dsimp only
      exact Prod.ext rfl ok
    · left
      refine ⟨t, rfl, ht, hw, ?_⟩
      unfold Lap.setTrack
      rw [hf]
      dsimp only
      rw [k2 hw]

/-- **C69**: a track is accepted exactly when its file can be read as a track and it is nowhere on the mesh narrower than nothing. -/
theorem C69_accepted_iff (h : Ready l) (file : Py (List Row)) :
    (l.setTrack file).2 = none ↔ ∃ t, fromTumCsv file = .ok t ∧
      ∀ d ∈ l.S.c.mesh, ∃ a b, t.leftDistanceAt (d * t.totalDistance) = .ok a ∧ t.rightDistanceAt (d * t.totalDistance) = .ok b ∧ 0 ≤ a + b := by
  have hwide : ∀ t, Loaded t → (Wide (distanceMesh l.S t) t ↔ ∀ d ∈ l.S.c.mesh, ∃ a b, t.leftDistanceAt (d * t.totalDistance) = .ok a ∧
      t.rightDistanceAt (d * t.totalDistance) = .ok b ∧ 0 ≤ a + b) := by
    intro t ht
    constructor
    · intro hw d hd
      have := hw _ (List.mem_map.mpr ⟨d, hd, rfl⟩)
      exact ⟨_, _, ht.leftAt _, ht.rightAt _, by linarith⟩
    · intro hw d hd
      obtain ⟨e, he, rfl⟩ := List.mem_map.mp hd
      obtain ⟨a, b, h1, h2, h3⟩ := hw e he
      rw [h1, h2]
      simp only [num]
      linarith
  rcases setTrack_eq h file with ⟨e, h1, h2⟩ | ⟨t, h1, h2, h3, h4⟩ | ⟨t, s', h1, h2, h3, _, h4⟩
  · rw [h2, h1]; simp
  · rw [h4, h1]
    simp only [reduceCtorEq, false_iff, Except.ok.injEq]
    rintro ⟨t', rfl, h5⟩
    exact h3 ((hwide _ h2).mpr h5)
  · rw [h4]
    simp only [true_iff]
    exact ⟨t, h1, (hwide _ h2).mp h3⟩

/-- **C69**: a call that raises leaves all bounds as they were. If the file could not be read, nothing has changed. If the track is
too narrow somewhere it is an AssertionError, but the track and the mesh scale are already the new ones. -/
theorem C69_rejected (h : Ready l) {file : Py (List Row)} {l' : Lap} {e : PyErr} (hr : l.setTrack file = (l', some e)) :
    l'.st = l.st ∧ ((fromTumCsv file = .error e ∧ l' = l) ∨
      ∃ t, fromTumCsv file = .ok t ∧ e = .assertionError ∧ l'.track = some t ∧ l'.S = rescale l.S t.totalDistance) := by
  rcases setTrack_eq h file with ⟨e', h1, h2⟩ | ⟨t, h1, h2, h3, h4⟩ | ⟨t, s', h1, h2, h3, _, h4⟩
  · rw [h2] at hr
    simp only [Prod.mk.injEq, Option.some.injEq] at hr
    obtain ⟨rfl, rfl⟩ := hr
    exact ⟨rfl, Or.inl ⟨h1, rfl⟩⟩
  · rw [h4] at hr
    simp only [Prod.mk.injEq, Option.some.injEq] at hr
    obtain ⟨rfl, rfl⟩ := hr
    exact ⟨rfl, Or.inr ⟨t, h1, rfl, rfl, rfl⟩⟩
  · rw [h4] at hr
    simp at hr

/-- **C69**: after a track has been set, the mesh runs over its length; at every stage the track curvature and heading are fixed at
the track's values at the distance of the stage, and the lateral position is limited by the sides, the right one counted negative;
boundary conditions still hold; every other variable keeps its bounds. -/
theorem C69_bounds (h : Ready l) {file : Py (List Row)} {l' : Lap} (hr : l.setTrack file = (l', none)) :
    ∃ t, fromTumCsv file = .ok t ∧ l'.track = some t ∧ l'.S = rescale l.S t.totalDistance ∧ l'.st.bcs = l.st.bcs ∧
    ∀ v i, l.S.c.o.L.IsVar v → l.S.c.o.L.query v = .ok (.scalar i) →
      (∀ r, lastMention l.S.c.o.L (l.st.bcs.map BC.req) v = some r →
        l'.st.lb[i]? = r.arg.lb.at (r.slot v) ∧ l'.st.ub[i]? = r.arg.ub.at (r.slot v)) ∧
      (lastMention l.S.c.o.L (l.st.bcs.map BC.req) v = none →
        (IsTrackVar v → ∃ lo hi, Limits t (l.S.c.mesh.map (· * t.totalDistance)) v lo hi ∧
          l'.st.lb[i]? = some lo ∧ l'.st.ub[i]? = some hi) ∧
        (¬IsTrackVar v → l'.st.lb[i]? = l.st.lb[i]? ∧ l'.st.ub[i]? = l.st.ub[i]?)) := by
  rcases setTrack_eq h file with ⟨e', h1, h2⟩ | ⟨t, h1, h2, h3, h4⟩ | ⟨t, s', h1, h2, h3, hu, h4⟩
  · rw [h2] at hr; simp at hr
  · rw [h4] at hr; simp at hr
  · rw [h4] at hr
    simp only [Prod.mk.injEq, and_true] at hr
    subst hr
    have hb := updateBounds_bcs l.S.c.o.L l.st (threeBounds (distanceMesh l.S t) t)
    rw [hu] at hb
    refine ⟨t, h1, rfl, rfl, hb, ?_⟩
    intro v i hv hq
    have hlen : (distanceMesh l.S t).length = l.S.c.o.L.numStages := by simp [distanceMesh, h.points]
    obtain ⟨k1, k2⟩ := C20_last_bound_wins h.made h.lb h.ub hu hv hq
    obtain ⟨m1, m2⟩ := lastMention_three h hlen h2 hv
    refine ⟨fun r hr => ?_, fun hn => ⟨fun hT => ?_, fun hT => ?_⟩⟩
    · rw [hr] at k1 k2
      exact ⟨k1, k2⟩
    · obtain ⟨r, lo, hi, e1, e2, e3, e4⟩ := m1 hT
      rw [hn, e1] at k1 k2
      exact ⟨lo, hi, e2, k1.trans e3, k2.trans e4⟩
    · rw [hn, m2 hT] at k1 k2
      exact ⟨k1, k2⟩

/-! ## Any history of tracks -/

/-- What all objects reachable from `l` by setting tracks share. -/
structure Like (l m : Lap) : Prop where
  ready : Ready m
  setup : ∃ sc, m.S = { l.S with c := { l.S.c with o := { l.S.c.o with fixedScale := sc } } }
  bcs : m.st.bcs = l.st.bcs
  rest : ∀ v i, l.S.c.o.L.IsVar v → l.S.c.o.L.query v = .ok (.scalar i) → ¬IsTrackVar v →
    lastMention l.S.c.o.L (l.st.bcs.map BC.req) v = none → m.st.lb[i]? = l.st.lb[i]? ∧ m.st.ub[i]? = l.st.ub[i]?

theorem Like.refl (h : Ready l) : Like l l := ⟨h, ⟨_, rfl⟩, rfl, fun _ _ _ _ _ _ => ⟨rfl, rfl⟩⟩

theorem Ready.rescale (h : Ready l) (ms : ℝ) (tr : Option RaceTrack) : Ready { l with S := rescale l.S ms, track := tr } :=
  ⟨h.made, h.points, h.lb, h.ub, h.states, h.inputs, h.curvature, h.heading, h.lateral, h.bcs⟩

theorem updateBounds_length {L : Layout} {s s' : St EReal} (hlb : s.lb.length = L.numDec) (hub : s.ub.length = L.numDec)
    {cs : List (BoundConfig EReal)} {o : Option PyErr} (h : Bounds.updateBounds L s cs = (s', o)) :
    s'.lb.length = L.numDec ∧ s'.ub.length = L.numDec := by
  have := run_length L s hlb hub (.updateBounds cs)
  simpa [Call.run, h] using this

theorem Ready.setTrack (h : Ready l) (file : Py (List Row)) : Ready (l.setTrack file).1 := by
  rcases setTrack_eq h file with ⟨e', h1, h2⟩ | ⟨t, h1, h2, h3, h4⟩ | ⟨t, s', h1, h2, h3, hu, h4⟩
  · rw [h2]; exact h
  · rw [h4]; exact h.rescale _ _
  · rw [h4]
    have hb := updateBounds_bcs l.S.c.o.L l.st (threeBounds (distanceMesh l.S t) t)
    rw [hu] at hb
    dsimp only at hb
    have hl := updateBounds_length h.lb h.ub hu
    refine ⟨h.made, h.points, hl.1, hl.2, h.states, h.inputs, h.curvature, h.heading, h.lateral, ?_⟩
    show (applyBCs l.S.c.o.L s').2 = none
    unfold applyBCs
    rw [hb, setAll_err _ _ _ l.st]
    exact h.bcs

theorem Like.setTrack {m : Lap} (h : Like l m) (file : Py (List Row)) : Like l (m.setTrack file).1 := by
  obtain ⟨hm, ⟨sc, hS⟩, hb, hrest⟩ := h
  have hL : m.S.c.o.L = l.S.c.o.L := by rw [hS]
  refine ⟨hm.setTrack file, ?_, ?_, ?_⟩
  · rcases setTrack_eq hm file with ⟨e', h1, h2⟩ | ⟨t, h1, h2, h3, h4⟩ | ⟨t, s', h1, h2, h3, hu, h4⟩
    · rw [h2]; exact ⟨sc, hS⟩
    · rw [h4]; exact ⟨some t.totalDistance, by dsimp only [rescale]; rw [hS]⟩
    · rw [h4]; exact ⟨some t.totalDistance, by dsimp only [rescale]; rw [hS]⟩
  · cases he : (m.setTrack file).2 with
    | some e =>
      rw [(C69_rejected hm (Prod.ext rfl he : m.setTrack file = ((m.setTrack file).1, some e))).1]; exact hb
    | none =>
      obtain ⟨t, _, _, _, h4, _⟩ := C69_bounds hm (Prod.ext rfl he : m.setTrack file = ((m.setTrack file).1, none))
      rw [h4]; exact hb
  · intro v i hv hq hT hn
    cases he : (m.setTrack file).2 with
    | some e =>
      rw [(C69_rejected hm (Prod.ext rfl he : m.setTrack file = ((m.setTrack file).1, some e))).1]
      exact hrest v i hv hq hT hn
    | none =>
      obtain ⟨t, _, _, _, h4, h5⟩ := C69_bounds hm (Prod.ext rfl he : m.setTrack file = ((m.setTrack file).1, none))
      rw [hL, hb] at h5
      obtain ⟨e1, e2⟩ := ((h5 v i hv hq).2 hn).2 hT
      obtain ⟨e3, e4⟩ := hrest v i hv hq hT hn
      exact ⟨e1.trans e3, e2.trans e4⟩

theorem Like.run (h : Ready l) (files : List (Py (List Row))) : Like l (l.run files) := by
  unfold Lap.run
  suffices ∀ m, Like l m → Like l (files.foldl (fun l f => (l.setTrack f).1) m) from this l (Like.refl h)
  intro m hm
  induction files generalizing m with
  | nil => exact hm
  | cons f fs ih => exact ih _ (hm.setTrack f)

/-- **C69**: only the last track counts: after any history of tracks, accepted or not, setting a track succeeds exactly when it
would have succeeded at once, and leaves the object exactly as if it had been the first. -/
theorem C69_last_track (h : Ready l) (files : List (Py (List Row))) (file : Py (List Row)) :
    ((l.run files).setTrack file).2 = (l.setTrack file).2 ∧
    ((l.setTrack file).2 = none → (l.run (files ++ [file])) = (l.setTrack file).1) := by
  obtain ⟨hm, ⟨sc, hS⟩, hb, hrest⟩ := Like.run h files
  have hr : l.run (files ++ [file]) = ((l.run files).setTrack file).1 := by simp [Lap.run]
  rw [hr]
  obtain ⟨m, hme⟩ : ∃ m, m = l.run files := ⟨_, rfl⟩
  rw [← hme] at hm hS hb hrest ⊢
  clear hme hr
  have hL : m.S.c.o.L = l.S.c.o.L := by rw [hS]
  have hmesh : ∀ t, distanceMesh m.S t = distanceMesh l.S t := fun t => by rw [hS]; rfl
  rcases setTrack_eq h file with ⟨e, h1, h2⟩ | ⟨t, h1, h2, h3, h4⟩ | ⟨t, s', h1, h2, h3, hu, h4⟩
  · rcases setTrack_eq hm file with ⟨e', g1, g2⟩ | ⟨t', g1, g2, g3, g4⟩ | ⟨t', s'', g1, g2, g3, gu, g4⟩
    · rw [h1] at g1; cases g1; rw [h2, g2]; simp
    · rw [h1] at g1; cases g1
    · rw [h1] at g1; cases g1
  · rcases setTrack_eq hm file with ⟨e', g1, g2⟩ | ⟨t', g1, g2, g3, g4⟩ | ⟨t', s'', g1, g2, g3, gu, g4⟩
    · rw [h1] at g1; cases g1
    · rw [h4, g4]; simp
    · rw [h1] at g1; cases g1; rw [hmesh] at g3; exact absurd g3 h3
  · rcases setTrack_eq hm file with ⟨e', g1, g2⟩ | ⟨t', g1, g2, g3, g4⟩ | ⟨t', s'', g1, g2, g3, gu, g4⟩
    · rw [h1] at g1; cases g1
    · rw [h1] at g1; cases g1; rw [hmesh] at g3; exact absurd h3 g3
    · rw [h1, Except.ok.injEq] at g1
      subst g1
      rw [hmesh] at gu
      rw [hL] at gu
      refine ⟨by rw [h4, g4], fun _ => ?_⟩
      have e1 : rescale m.S t.totalDistance = rescale l.S t.totalDistance := by dsimp only [rescale]; rw [hS]
      rw [h4, g4, e1]
      dsimp only
      have hls := updateBounds_length h.lb h.ub hu
      have hms := updateBounds_length (hL ▸ hm.lb) (hL ▸ hm.ub) gu
      have b1 := updateBounds_bcs l.S.c.o.L l.st (threeBounds (distanceMesh l.S t) t)
      have b2 := updateBounds_bcs l.S.c.o.L m.st (threeBounds (distanceMesh l.S t) t)
      rw [hu] at b1
      rw [gu, hb] at b2
      dsimp only at b1 b2
      have hlen : (distanceMesh l.S t).length = l.S.c.o.L.numStages := by simp [distanceMesh, h.points]
      have key : ∀ i, i < l.S.c.o.L.numDec → s''.lb[i]? = s'.lb[i]? ∧ s''.ub[i]? = s'.ub[i]? := by
        intro i hi
        obtain ⟨v, hv, hq⟩ := C01_index_surjective h.made i hi
        obtain ⟨k1, k2⟩ := C20_last_bound_wins h.made h.lb h.ub hu hv hq
        obtain ⟨k3, k4⟩ := C20_last_bound_wins h.made (hL ▸ hm.lb) (hL ▸ hm.ub) gu hv hq
        rw [hb] at k3 k4
        obtain ⟨m1, m2⟩ := lastMention_three h hlen h2 hv
        rw [k1, k2, k3, k4]
        cases hc : lastMention l.S.c.o.L (l.st.bcs.map BC.req) v with
        | some r => exact ⟨rfl, rfl⟩
        | none =>
          by_cases hT : IsTrackVar v
          · obtain ⟨r, lo, hi, e1, _⟩ := m1 hT
            rw [e1]
            exact ⟨rfl, rfl⟩
          · rw [m2 hT]
            exact hrest v i hv hq hT hc
      have hst : s'' = s' := by
        have x1 : s''.lb = s'.lb := List.ext_getElem? fun i => by
          by_cases hi : i < l.S.c.o.L.numDec
          · exact (key i hi).1
          · rw [List.getElem?_eq_none (by omega), List.getElem?_eq_none (by omega)]
        have x2 : s''.ub = s'.ub := List.ext_getElem? fun i => by
          by_cases hi : i < l.S.c.o.L.numDec
          · exact (key i hi).2
          · rw [List.getElem?_eq_none (by omega), List.getElem?_eq_none (by omega)]
        obtain ⟨p, q, r⟩ := s''
        obtain ⟨p', q', r'⟩ := s'
        dsimp only at x1 x2 b1 b2
        rw [x1, x2, b1, b2]
      rw [hst]

end Lumos.LapSim
