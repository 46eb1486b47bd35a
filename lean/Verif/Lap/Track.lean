import Verif.Lap.Model
import Verif.Track.Lookup
import Verif.Bounds.Props
import Verif.Ocp.BuildMore
/-!
# C69: the bounds of a lap time simulation follow the track
-/

namespace Lumos.LapSim

open Lumos DecVar DecVar.Layout Bounds Ocp Track Io

/-! ## Whether a bounds update succeeds does not depend on the current bounds -/

section
variable {V : Type}

theorem assign_err (x y : List V) (idx : Idx) (b : BVal V) :
    (∃ x', assign x idx b = .ok x' ∧ ∃ y', assign y idx b = .ok y') ∨ ∃ e, assign x idx b = .error e ∧ assign y idx b = .error e := by
  rcases idx with i | is <;> rcases b with v | vs
  · left; exact ⟨_, rfl, _, rfl⟩
  · match vs with
    | [] => right; exact ⟨_, rfl, rfl⟩
    | [v] => left; exact ⟨_, rfl, _, rfl⟩
    | v :: w :: vs => right; exact ⟨_, rfl, rfl⟩
  · left; exact ⟨_, rfl, _, rfl⟩
  · unfold assign
    by_cases h : vs.length = is.length
    · left; simp [h]
    · simp only [if_neg h]
      match vs with
      | [] => right; exact ⟨_, rfl, rfl⟩
      | [v] => left; exact ⟨_, rfl, _, rfl⟩
      | v :: w :: vs => right; exact ⟨_, rfl, rfl⟩

variable [LinearOrder V]

theorem setVarBounds_err (L : Layout) (s s' : St V) (g n : String) (st : Option Int) (b : BArg V) :
    (setVarBounds L s g n st b).2 = (setVarBounds L s' g n st b).2 := by
  unfold setVarBounds
  cases L.indexInDec g n st with
  | error e => rfl
  | ok idx =>
    dsimp only
    by_cases hs : sizeOk L idx b.lb
    · simp only [if_pos hs]
      cases leAll b.lb b.ub with
      | error e => rfl
      | ok c =>
        cases c with
        | false => rfl
        | true =>
          dsimp only
          rcases assign_err s.lb s'.lb idx b.lb with ⟨x, h1, y, h2⟩ | ⟨e, h1, h2⟩
          · rw [h1, h2]
            rcases assign_err s.ub s'.ub idx b.ub with ⟨x, h3, y, h4⟩ | ⟨e, h3, h4⟩
            · rw [h3, h4]
            · rw [h3, h4]
          · rw [h1, h2]
    · simp only [if_neg hs]

theorem setAll_err (L : Layout) (rs : List (Req V)) (s s' : St V) : (setAll L s rs).2 = (setAll L s' rs).2 := by
  induction rs generalizing s s' with
  | nil => rfl
  | cons r rs ih =>
    have h := setVarBounds_err L s s' r.group r.name r.stage r.arg
    unfold setAll
    rcases h1 : setVarBounds L s r.group r.name r.stage r.arg with ⟨t, o⟩
    rcases h2 : setVarBounds L s' r.group r.name r.stage r.arg with ⟨t', o'⟩
    rw [h1, h2] at h
    dsimp only at h
    subst h
    cases o with
    | some e => rfl
    | none => exact ih t t'

theorem updateBounds_err (L : Layout) {s s' : St V} (h : s.bcs = s'.bcs) (cs : List (BoundConfig V)) :
    (updateBounds L s cs).2 = (updateBounds L s' cs).2 := by
  have e := setAll_err L (cs.map BoundConfig.req) s s'
  have b1 := setAll_bcs L s (cs.map BoundConfig.req)
  have b2 := setAll_bcs L s' (cs.map BoundConfig.req)
  unfold updateBounds
  rcases h1 : setAll L s (cs.map BoundConfig.req) with ⟨t, o⟩
  rcases h2 : setAll L s' (cs.map BoundConfig.req) with ⟨t', o'⟩
  rw [h1, h2] at e
  rw [h1] at b1
  rw [h2] at b2
  dsimp only at e b1 b2
  subst e
  cases o with
  | some e => rfl
  | none =>
    show (applyBCs L t).2 = (applyBCs L t').2
    unfold applyBCs
    rw [b1, b2, h]
    exact setAll_err L _ _ _

theorem updateBounds_bcs (L : Layout) (s : St V) (cs : List (BoundConfig V)) : (updateBounds L s cs).1.bcs = s.bcs := by
  have b1 := setAll_bcs L s (cs.map BoundConfig.req)
  unfold updateBounds
  rcases h1 : setAll L s (cs.map BoundConfig.req) with ⟨t, o⟩
  rw [h1] at b1
  cases o with
  | some e => exact b1
  | none =>
    show (applyBCs L t).1.bcs = _
    unfold applyBCs
    rw [setAll_bcs]; exact b1

/-- Arrays with one value per stage, in order, are accepted for a known variable. -/
theorem setVarBounds_array {L : Layout} (hL : L.Made) {g n : String} (hv : L.IsVar (.stage 0 g n)) (s : St V) {as bs : List V}
    (ha : as.length = L.numStages) (hb : bs.length = L.numStages) (hle : ∀ p ∈ as.zip bs, p.1 ≤ p.2) :
    (setVarBounds L s g n none (.pair (.array as) (.array bs))).2 = none := by
  obtain ⟨is, h1, h2, _⟩ := C02_all_stages hL hv
  unfold setVarBounds
  rw [h1]
  have e1 : sizeOk L (.array is) (BArg.pair (BVal.array as) (BVal.array bs)).lb = true := by simp [sizeOk, BArg.lb, ha]
  have e2 : leAll (BArg.pair (BVal.array as) (BVal.array bs)).lb (BArg.pair (BVal.array as) (BVal.array bs)).ub = .ok true := by
    simp only [leAll, BArg.lb, BArg.ub, if_pos (ha.trans hb.symm)]
    congr 1
    rw [List.all_eq_true]
    intro p hp
    simpa using hle p hp
  dsimp only
  rw [if_pos e1, e2]
  simp only [assign, BArg.lb, BArg.ub, if_pos (ha.trans h2.symm), if_pos (hb.trans h2.symm)]

end

/-! ## The lookups of a loaded track -/

/-- All data of the track have the length of its distances. -/
structure Loaded (t : RaceTrack) : Prop where
  pos : 0 < t.s.length
  curvature : t.s.length = t.curvature.length
  heading : t.s.length = t.heading.length
  left : t.s.length = t.left_distance.length
  right : t.s.length = t.right_distance.length

theorem interp_total {xp fp : List ℝ} (h0 : 0 < xp.length) (hl : xp.length = fp.length) (v : ℝ) : ∃ a, interp xp fp v = .ok a := by
  unfold interp
  rw [if_neg (by omega)]
  split_ifs
  · exact ⟨_, rfl⟩
  · dsimp only
    split_ifs
    · exact ⟨_, rfl⟩
    · exact ⟨_, rfl⟩

theorem fromTumCsv_inv {file : Py (List Row)} {t : RaceTrack} (h : fromTumCsv file = .ok t) :
    ∃ rows, file = .ok rows ∧ Loaded t ∧
      RaceTrack.fromCartesian (rows.map Row.x) (rows.map Row.y) (some (rows.map Row.left)) (some (rows.map Row.right)) = .ok t := by
  unfold fromTumCsv at h
  cases file with
  | error e => simp [bind, Except.bind] at h
  | ok rows =>
    simp only [bind, Except.bind] at h
    refine ⟨rows, rfl, ?_, h⟩
    obtain ⟨_, h2, h3⟩ := cartesian_inv h
    obtain ⟨h4, rfl⟩ := mk_inv h3
    refine ⟨?_, ?_, ?_, ?_, ?_⟩ <;> simp [length_arr] at h2 ⊢
    omega

/-- The number a lookup returns. -/
noncomputable def num (p : Py ℝ) : ℝ :=
  match p with
  | .ok a => a
  | .error _ => 0

theorem num_ok {p : Py ℝ} (h : ∃ a, p = .ok a) : p = .ok (num p) := by
  obtain ⟨a, rfl⟩ := h
  rfl

theorem Loaded.curvatureAt {t : RaceTrack} (h : Loaded t) (d : ℝ) : t.curvatureAt d = .ok (num (t.curvatureAt d)) :=
  num_ok (interp_total h.pos h.curvature d)
theorem Loaded.headingAt {t : RaceTrack} (h : Loaded t) (d : ℝ) : t.headingAt d = .ok (num (t.headingAt d)) :=
  num_ok (interp_total h.pos h.heading d)
theorem Loaded.leftAt {t : RaceTrack} (h : Loaded t) (d : ℝ) : t.leftDistanceAt d = .ok (num (t.leftDistanceAt d)) :=
  num_ok (interp_total h.pos h.left d)
theorem Loaded.rightAt {t : RaceTrack} (h : Loaded t) (d : ℝ) : t.rightDistanceAt d = .ok (num (t.rightDistanceAt d)) :=
  num_ok (interp_total h.pos h.right d)

/-- The three bounds of an accepted track. -/
noncomputable def threeBounds (mesh : List ℝ) (t : RaceTrack) : List (BoundConfig EReal) :=
  [⟨"inputs", "track_curvature", asBound (mesh.map fun d => num (t.curvatureAt d)), asBound (mesh.map fun d => num (t.curvatureAt d))⟩,
   ⟨"inputs", "track_heading", asBound (mesh.map fun d => num (t.headingAt d)), asBound (mesh.map fun d => num (t.headingAt d))⟩,
   ⟨"states", "n", asBound (mesh.map fun d => -num (t.rightDistanceAt d)), asBound (mesh.map fun d => num (t.leftDistanceAt d))⟩]

/-- The track is nowhere on the mesh narrower than nothing. -/
def Wide (mesh : List ℝ) (t : RaceTrack) : Prop := ∀ d ∈ mesh, -num (t.rightDistanceAt d) ≤ num (t.leftDistanceAt d)

theorem make_asBound (g n : String) (as bs : List ℝ) (hl : as.length = bs.length) :
    BoundConfig.make g n (asBound as) (asBound bs) =
      if ∀ p ∈ as.zip bs, p.1 ≤ p.2 then .ok ⟨g, n, asBound as, asBound bs⟩ else .error .assertionError := by
  classical
  unfold BoundConfig.make asBound
  simp only [List.length_map, hl, if_true]
  have : ((as.map fun a : ℝ => (a : EReal)).zip (bs.map fun a : ℝ => (a : EReal))).all (fun p => decide (p.1 ≤ p.2)) = true ↔
      ∀ p ∈ as.zip bs, p.1 ≤ p.2 := by
    rw [List.all_eq_true]
    rw [List.zip_map]
    constructor
    · intro h p hp
      have := h _ (List.mem_map_of_mem hp)
      simpa using this
    · intro h q hq
      obtain ⟨p, hp, rfl⟩ := List.mem_map.mp hq
      simpa using h p hp
  by_cases h : ∀ p ∈ as.zip bs, p.1 ≤ p.2
  · rw [if_pos h, if_pos (this.mpr h)]
  · rw [if_neg h, if_neg (mt this.mp h)]

theorem trackBounds_eq {S : Setup} {t : RaceTrack} (h : Loaded t) :
    (Wide (distanceMesh S t) t → trackBounds S t = .ok (threeBounds (distanceMesh S t) t)) ∧
    (¬Wide (distanceMesh S t) t → trackBounds S t = .error .assertionError) := by
  classical
  have hw : Wide (distanceMesh S t) t ↔ ∀ p ∈ (List.map (fun a => -a) ((distanceMesh S t).map fun d => num (t.rightDistanceAt d))).zip
      ((distanceMesh S t).map fun d => num (t.leftDistanceAt d)), p.1 ≤ p.2 := by
    unfold Wide
    rw [List.map_map, List.zip_map_left, List.zip_map_right, List.map_map]
    constructor
    · intro h p hp
      obtain ⟨q, hq, rfl⟩ := List.mem_map.mp hp
      have e := List.of_mem_zip hq
      have : q.1 = q.2 := by
        rw [List.zip_eq_zipWith, List.zipWith_self] at hq
        obtain ⟨d, _, rfl⟩ := List.mem_map.mp hq
        rfl
      obtain ⟨a, b⟩ := q
      dsimp only at this
      subst this
      exact h a e.1
    · intro h d hd
      have : ((-num (t.rightDistanceAt d), num (t.leftDistanceAt d)) : ℝ × ℝ) ∈ List.map (Prod.map ((fun a => -a) ∘ fun d => num (t.rightDistanceAt d)) id ∘ Prod.map id fun d => num (t.leftDistanceAt d)) ((distanceMesh S t).zip (distanceMesh S t)) := by
        refine List.mem_map.mpr ⟨(d, d), ?_, rfl⟩
        rw [List.zip_eq_zipWith, List.zipWith_self]
        exact List.mem_map.mpr ⟨d, hd, rfl⟩
      exact h _ this
  have same : ∀ as : List ℝ, ∀ p ∈ as.zip as, p.1 ≤ p.2 := by
    intro as p hp
    rw [List.zip_eq_zipWith, List.zipWith_self] at hp
    obtain ⟨d, _, rfl⟩ := List.mem_map.mp hp
    exact le_rfl
  have key : trackBounds S t = if ∀ p ∈ (List.map (fun a => -a) ((distanceMesh S t).map fun d => num (t.rightDistanceAt d))).zip
      ((distanceMesh S t).map fun d => num (t.leftDistanceAt d)), p.1 ≤ p.2 then .ok (threeBounds (distanceMesh S t) t)
      else .error .assertionError := by
    unfold trackBounds
    simp only [mapM_ok _ _ _ (fun d _ => h.curvatureAt d), mapM_ok _ _ _ (fun d _ => h.headingAt d),
      mapM_ok _ _ _ (fun d _ => h.leftAt d), mapM_ok _ _ _ (fun d _ => h.rightAt d), bind, Except.bind, pure, Except.pure]
    rw [make_asBound _ _ _ _ rfl, make_asBound _ _ _ _ rfl, make_asBound _ _ _ _ (by simp), if_pos (same _), if_pos (same _)]
    dsimp only
    split_ifs
    · simp only [threeBounds, List.map_map, Function.comp_def]
    · rfl
  rw [key]
  exact ⟨fun w => if_pos (hw.mp w), fun w => if_neg (mt hw.mpr w)⟩

end Lumos.LapSim
