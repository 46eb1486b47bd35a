import Verif.Lts.Problem
import Verif.Sim.Read
/-!
# The bounds of a lap time simulation, by name
-/

namespace Lumos.Lts

open Lumos DecVar DecVar.Layout Bounds Ocp Lumos.Trans NLP Io Io.Mdl LapSim Track Veh

/-! ## Specification -/

/-- What the bounds of the problem say about the variable `n` of group `g` at stage `s`: the last boundary condition that mentions it; if there is none, what
the track says at that distance; if it says nothing, the last entry of the bounds that mentions it, if there is one. -/
def Allowed (L : Layout) (cf : Conf) (tr : RaceTrack) (d : ℝ) (s : Nat) (g n : String) (a : ℝ) : Prop :=
  match lastMention L (cf.bcs.map BC.req) (.stage s g n) with
  | some r => Sim.Inside (r.arg.lb.at (r.slot (.stage s g n)), r.arg.ub.at (r.slot (.stage s g n))) a
  | none =>
    if g = "inputs" ∧ n = "track_curvature" then tr.curvatureAt d = .ok a
    else if g = "inputs" ∧ n = "track_heading" then tr.headingAt d = .ok a
    else if g = "states" ∧ n = "n" then ∃ left right, tr.leftDistanceAt d = .ok left ∧ tr.rightDistanceAt d = .ok right ∧ -right ≤ a ∧ a ≤ left
    else Sim.Inside (Sim.limits L cf.bounds [] (.stage s g n)) a

/-- The default bounds and boundary conditions with the track's, written out; `X g n s` is the variable `n` of group `g` at stage `s` and `d s` the
distance there. -/
structure InDefaults (closed : Bool) (tr : RaceTrack) (N : Nat) (d : Nat → ℝ) (X : String → String → Nat → ℝ) : Prop where
  time : ∀ s, s < N → 0 ≤ X "states" "time" s
  eta : ∀ s, s < N → |X "states" "eta" s| ≤ Real.pi / 4
  vx : ∀ s, s < N → 5 ≤ X "states" "vx" s ∧ X "states" "vx" s ≤ 100
  vy : ∀ s, s < N → |X "states" "vy" s| ≤ 10
  yaw : ∀ s, s < N → |X "states" "yaw_rate" s| ≤ Real.pi * 2
  wheels : ∀ s, s < N → ∀ c ∈ LapSim.corners, 0.1 ≤ X "states" ("wheel_speed_" ++ c) s ∧ X "states" ("wheel_speed_" ++ c) s ≤ 300
  throttle : ∀ s, s < N → 0 ≤ X "inputs" "throttle" s ∧ X "inputs" "throttle" s ≤ 1
  brake : ∀ s, s < N → 0 ≤ X "inputs" "brake" s ∧ X "inputs" "brake" s ≤ 1
  steer : ∀ s, s < N → |X "inputs" "steer" s| ≤ 1
  slipRatio : ∀ s, s < N → ∀ c ∈ LapSim.corners, |X "con_outputs" ("vehicle.slip_ratio_" ++ c) s| ≤ 0.05
  slipAngle : ∀ s, s < N → ∀ c ∈ LapSim.corners, |X "con_outputs" ("vehicle.slip_angle_" ++ c) s| ≤ 5 * (Real.pi / 180)
  curvature : ∀ s, s < N → tr.curvatureAt (d s) = .ok (X "inputs" "track_curvature" s)
  heading : ∀ s, s < N → tr.headingAt (d s) = .ok (X "inputs" "track_heading" s)
  lateral : ∀ s, s < N → (closed = false → s ≠ 0) → ∃ left right, tr.leftDistanceAt (d s) = .ok left ∧ tr.rightDistanceAt (d s) = .ok right ∧
    -right ≤ X "states" "n" s ∧ X "states" "n" s ≤ left
  start : X "states" "time" 0 = 0
  rest : closed = false → X "states" "n" 0 = 0 ∧ X "states" "eta" 0 = 0 ∧ X "states" "vx" 0 = 50 ∧ X "states" "vy" 0 = 0 ∧ X "states" "yaw_rate" 0 = 0

/-! ## Proofs -/

section
variable {v : Mdl ℝ} {cf : Conf} {u : UnitProblem} {D : List ℝ → ℝ → Prop} {t : Transcription} {S : Setup}

theorem bcs_of_build {S : Setup} (hS : S.Good D) {b : Built} (hb : S.build = .ok b) : b.bounds.bcs = S.bcs := by
  obtain ⟨b', o, s', g1, _, _, _, _, _, _, _, g2, g3, _⟩ := build_ok hS
  rw [hb, Except.ok.injEq] at g1
  subst g1
  have := run_bcs S.c.o.L s' (.updateBCs S.bcs)
  simp only [Call.run, g3, givenBCs, List.append_nil] at this
  have hs' : s'.bcs = [] := by
    have := updateBounds_bcs S.c.o.L (Bounds.fresh S.c.o.L) (S.allBounds (S.c.o.L.namesOf "states_dot"))
    rw [g2] at this
    exact this
  rw [this, hs']
  rfl

/-- The bounds of the problem, variable by variable. -/
theorem C95_bounds (hv : Car v) (hc : Usable v cf) (hu : Backed v cf u D) {file : Py (List Row)} {l : Lap} (hl : laptime v u cf file = .ok l) :
    ∃ tr, l.track = some tr ∧ ∀ x : List ℝ, x.length = l.S.c.o.L.numDec →
      (Within l.st.lb l.st.ub x ↔ ∀ s g n, l.S.c.o.L.IsVar (.stage s g n) →
        Allowed l.S.c.o.L cf tr (l.S.c.mesh.getD s 0 * tr.totalDistance) s g n (readAt l.S.c.o.L x g n s)) := by
  obtain ⟨t, S, b, tr, ht, hm, hg, hb, hrd, hs, f1, f2, f3⟩ := laptime_inv hv hc hu hl
  obtain ⟨tr', k1, k2, k3, k4, k5⟩ := C69_bounds hrd hs
  rw [f1, Except.ok.injEq] at k1
  subst k1
  obtain ⟨q1, q2, q3⟩ := hm.config
  have hbcs : b.bounds.bcs = cf.bcs := by rw [bcs_of_build hg hb, q2]
  have eL : l.S.c.o.L = S.c.o.L := by rw [f3]; rfl
  have eM : l.S.c.mesh = S.c.mesh := by rw [f3]; rfl
  refine ⟨tr, f2, fun x hx => ?_⟩
  rw [eL, eM]
  rw [eL] at hx
  have hL := hg.cond.ocp.made
  have hlr : Ready l := by
    have := Ready.setTrack hrd file
    rw [hs] at this
    exact this
  have hlen : l.st.lb.length = S.c.o.L.numDec ∧ l.st.ub.length = S.c.o.L.numDec := by
    have h1 := hlr.lb
    have h2 := hlr.ub
    rw [eL] at h1 h2
    exact ⟨h1, h2⟩
  have hpts : S.c.mesh.length = S.c.o.L.numStages := hm.points
  have key : ∀ (s : Nat) (g n : String), S.c.o.L.IsVar (.stage s g n) → ∀ i, i < S.c.o.L.numDec → S.c.o.L.query (.stage s g n) = .ok (.scalar i) →
      (Allowed S.c.o.L cf tr (S.c.mesh.getD s 0 * tr.totalDistance) s g n (readAt S.c.o.L x g n s) ↔
        (l.st.lb.getD i 0 ≤ ((x.getD i 0 : ℝ) : EReal) ∧ ((x.getD i 0 : ℝ) : EReal) ≤ l.st.ub.getD i 0)) := by
    intro s g n hvar i hi hq
    have h1 : i < l.st.lb.length := by omega
    have h2 : i < l.st.ub.length := by omega
    have ein : ∀ a : ℝ, Sim.Inside (l.st.lb[i]?, l.st.ub[i]?) a ↔ (l.st.lb.getD i 0 ≤ (a : EReal) ∧ (a : EReal) ≤ l.st.ub.getD i 0) := by
      intro a
      rw [List.getElem?_eq_getElem h1, List.getElem?_eq_getElem h2, List.getD_eq_getElem?_getD (l := l.st.lb),
        List.getD_eq_getElem?_getD (l := l.st.ub), List.getElem?_eq_getElem h1, List.getElem?_eq_getElem h2]
      simp [Sim.Inside]
    rw [Sim.read_query hx hi hq, ← ein]
    obtain ⟨m1, m2⟩ := k5 (.stage s g n) i hvar hq
    rw [hbcs] at m1 m2
    unfold Allowed
    dsimp only at m1 m2
    have hst : s < S.c.o.L.numStages := hvar.1
    have emesh : (S.c.mesh.map (· * tr.totalDistance))[s]? = some (S.c.mesh.getD s 0 * tr.totalDistance) := by
      have h : s < S.c.mesh.length := by omega
      rw [List.getElem?_map, List.getElem?_eq_getElem h, List.getD_eq_getElem?_getD, List.getElem?_eq_getElem h]
      rfl
    cases hlm : lastMention S.c.o.L (cf.bcs.map BC.req) (.stage s g n) with
    | some r =>
      obtain ⟨e1, e2⟩ := m1 r hlm
      rw [e1, e2]
    | none =>
      obtain ⟨n1, n2⟩ := m2 hlm
      dsimp only
      split
      · rename_i hh
        obtain ⟨rfl, rfl⟩ := hh
        obtain ⟨lo, hi', hlim, e1, e2⟩ := n1 (Or.inl ⟨rfl, Or.inl rfl⟩)
        obtain ⟨d, c, w1, w2, rfl, rfl⟩ := hlim.at_curvature
        have w1 : (S.c.mesh.map (· * tr.totalDistance))[s]? = some d := w1
        rw [emesh, Option.some.injEq] at w1
        subst w1
        rw [e1, e2, Sim.inside_fix, w2, Except.ok.injEq]
        exact eq_comm
      · split
        · rename_i hh
          obtain ⟨rfl, rfl⟩ := hh
          obtain ⟨lo, hi', hlim, e1, e2⟩ := n1 (Or.inl ⟨rfl, Or.inr rfl⟩)
          obtain ⟨d, c, w1, w2, rfl, rfl⟩ := hlim.at_heading
          have w1 : (S.c.mesh.map (· * tr.totalDistance))[s]? = some d := w1
          rw [emesh, Option.some.injEq] at w1
          subst w1
          rw [e1, e2, Sim.inside_fix, w2, Except.ok.injEq]
          exact eq_comm
        · split
          · rename_i hh
            obtain ⟨rfl, rfl⟩ := hh
            obtain ⟨lo, hi', hlim, e1, e2⟩ := n1 (Or.inr ⟨rfl, rfl⟩)
            obtain ⟨d, a, b', w1, w2, w3, rfl, rfl⟩ := hlim.at_lateral
            have w1 : (S.c.mesh.map (· * tr.totalDistance))[s]? = some d := w1
            rw [emesh, Option.some.injEq] at w1
            subst w1
            rw [e1, e2, Sim.inside_coe, w2, w3]
            constructor
            · rintro ⟨a', b'', h1, h2, h3, h4⟩
              cases h1; cases h2
              exact ⟨h3, h4⟩
            · rintro ⟨h3, h4⟩
              exact ⟨_, _, rfl, rfl, h3, h4⟩
          · rename_i h1 h2 h3
            obtain ⟨e1, e2⟩ := n2 (by
              rintro (⟨rfl, rfl | rfl⟩ | ⟨rfl, rfl⟩)
              · exact h1 ⟨rfl, rfl⟩
              · exact h2 ⟨rfl, rfl⟩
              · exact h3 ⟨rfl, rfl⟩)
            have e := Sim.limits_eq hg hm.plain.2.2.2.1 hb hvar hq
            rw [q1, q2] at e
            have e' : Sim.limits S.c.o.L cf.bounds cf.bcs (.stage s g n) = Sim.limits S.c.o.L cf.bounds [] (.stage s g n) := by
              unfold Sim.limits
              rw [hlm]
              rfl
            rw [e1, e2, ← e', ← e]
  constructor
  · intro hw s g n hvar
    obtain ⟨i, hq, hi⟩ := C01_index_in_range hL hvar
    exact (key s g n hvar i hi hq).mpr (hw i (by omega))
  · intro w i hi
    rw [hx] at hi
    obtain ⟨w', hvar, hq⟩ := C01_index_surjective hL i hi
    cases w' with
    | stage s g n => exact (key s g n hvar i hi hq).mp (w s g n hvar)
    | glob n =>
      have hn : n ∈ S.c.o.L.globals := hvar
      rw [hm.layout] at hn
      simp [layoutOf] at hn

end

end Lumos.Lts
