import Verif.Kkt.Exists
import Verif.Sim.DroneMore
/-!
# C111: the drone has a fastest flight
-/

namespace Lumos.Kkt

open Lumos Lumos.NLP Lumos.Ocp Lumos.Ocp.OCP Lumos.DecVar Lumos.DecVar.Layout Lumos.Bounds Lumos.Sim Lumos.Trans


theorem drone_continuous (g : ℝ) : ContinuousModel (droneModel g) Set.univ := by
  have X := fun k => (getD_continuous (n := (droneModel g).nx) k).comp
    (continuous_fst : Continuous fun q : (Fin (droneModel g).nx → ℝ) × (Fin (droneModel g).nu → ℝ) × ℝ => q.1)
  have U := fun k => (getD_continuous (n := (droneModel g).nu) k).comp
    ((continuous_fst.comp continuous_snd) : Continuous fun q : (Fin (droneModel g).nx → ℝ) × (Fin (droneModel g).nu → ℝ) × ℝ => q.2.1)
  refine ⟨fun k => ?_, fun k => ?_, fun k => ?_⟩
  · apply Continuous.continuousOn
    match k with
    | 0 => exact X 1
    | 1 => exact (U 0).mul (Real.continuous_sin.comp (X 4))
    | 2 => exact X 3
    | 3 => exact ((U 0).mul (Real.continuous_cos.comp (X 4))).sub continuous_const
    | 4 => exact U 1
    | k + 5 => exact continuous_const
  · apply Continuous.continuousOn
    match k with
    | 0 => exact Real.continuous_sin.comp (X 4)
    | k + 1 => exact continuous_const
  · exact continuousOn_const

theorem drone_limited {g : ℝ} {name : String} {kwargs : List (String × Int)} {n : Nat} (hn : 1 ≤ n) {pts : Option (List ℝ)} {S : Setup}
    (h : droneSetup g name kwargs n pts = .ok S) {b : Built} (hb : S.build = .ok b) : Limited S b := by
  obtain ⟨t, ht, hm, hbd, hbc, hsc⟩ := drone_made hn h
  have hS := drone_good hn h
  obtain ⟨h2, _⟩ := C38_shapes ht
  have hcd := hm.plain.2.2.2
  have hL := hm.layout
  have hN2 : 2 ≤ S.c.o.L.numStages := by
    rw [hm.stages]
    have : 1 ≤ n * (t.stages - 1) := Nat.mul_pos hn (by omega)
    omega
  intro v i hv hq hne
  have key : ∀ lo hi : ℝ, limits S.c.o.L S.bounds S.bcs v = (some (lo : EReal), some (hi : EReal)) →
      b.bounds.lb.getD i 0 ≠ ⊥ ∧ b.bounds.ub.getD i 0 ≠ ⊤ := by
    intro lo hi e
    have := limits_eq hS hcd hb hv hq
    rw [e, Prod.mk.injEq] at this
    rw [List.getD_eq_getElem?_getD, List.getD_eq_getElem?_getD, this.1, this.2]
    exact ⟨EReal.coe_ne_bot _, EReal.coe_ne_top _⟩
  rw [hbd, hbc] at key
  cases v with
  | stage s gr m =>
    rw [hL, isVar_iff, ← hL] at hv
    obtain ⟨hs, (⟨rfl, hmem⟩ | ⟨rfl, hmem⟩ | ⟨rfl, hmem⟩ | ⟨rfl, hmem⟩)⟩ := hv
    · have hmem : m ∈ ["x", "x_dot", "z", "z_dot", "theta"] := hmem
      by_cases h0 : s = 0
      · subst h0
        exact key 0 0 (by rw [hL, drone_limits_first hmem (by rw [← hL]; exact hN2)])
      · by_cases h1 : s + 1 = S.c.o.L.numStages
        · have e := drone_limits_last (M := droneModel g) (n := n) (k := t.stages) hmem (by rw [← hL]; exact h1)
          rw [← hL] at e
          split_ifs at e
          · exact key _ _ e
          · exact key _ _ e
          · exact key _ _ e
        · have e := drone_limits_mid (M := droneModel g) (n := n) (k := t.stages) hmem h0 (by rw [← hL]; omega)
          rw [← hL] at e
          split_ifs at e
          · exact key _ _ e
          · exact key _ _ e
    · have hmem : m ∈ ["f", "omega"] := hmem
      have e := drone_limits_inputs (M := droneModel g) (n := n) (k := t.stages) (s := s) hmem
      rw [← hL] at e
      split_ifs at e
      · exact key _ _ e
      · exact key _ _ e
    · exact absurd rfl (hne s m).1
    · exact absurd rfl (hne s m).2
  | glob m =>
    have hv' : m ∈ S.c.o.L.globals := hv
    have eG : S.c.o.L.globals = ["mesh_scale"] := by rw [hL]; rfl
    rw [eG, List.mem_singleton] at hv'
    subst hv'
    exact key 0.1 50 (by rw [hL, drone_limits_scale])

/-- **C111** (the drone). Whatever the transcription and mesh: if the problem that `DroneSimulation` poses has a solution at all, there is a fastest
flight, of at least pi/5 s on the default mesh (C77), and the solver's problem has an optimum. -/
theorem C111_drone {g : ℝ} {name : String} {kwargs : List (String × Int)} {n : Nat} (hn : 1 ≤ n) {pts : Option (List ℝ)} {S : Setup}
    (h : droneSetup g name kwargs n pts = .ok S) {t : Transcription} (ht : makeTranscription name kwargs = .ok t)
    (hne : ∃ x : List ℝ, x.length = S.c.o.L.numDec ∧
      Flight g t n (pointsOf n pts) (fun grp m s => readAt S.c.o.L x grp m s) (readScale S.c.o x)) :
    ∃ b f z, S.build = .ok b ∧ (∀ y, b.prob.objective y = .ok (f y)) ∧
      Best S.c.o.L.numDec f (Admitted b.prob b.bounds.lb b.bounds.ub) z ∧
      Best S.c.o.L.numDec (readScale S.c.o)
        (fun x => Flight g t n (pointsOf n pts) (fun grp m s => readAt S.c.o.L x grp m s) (readScale S.c.o x)) (vmul z b.prob.scales) := by
  obtain ⟨t', b, ht', hb, hp⟩ := C77_problem hn h
  rw [ht, Except.ok.injEq] at ht'
  subst ht'
  obtain ⟨t', ht', hm, hbd, hbc, hsc⟩ := drone_made hn h
  have hS := drone_good hn h
  have hcd := hm.plain.2.2.2
  have hTask : ∀ x : List ℝ, x.length = S.c.o.L.numDec → (Task S b x ↔
      Flight g t n (pointsOf n pts) (fun grp m s => readAt S.c.o.L x grp m s) (readScale S.c.o x)) := by
    intro x hx
    rw [← (hp x hx).1, C47_lifted hS hcd hb hx]
    rfl
  have hcost : ∀ x : List ℝ, x.length = S.c.o.L.numDec → taskCost S x = readScale S.c.o x := by
    intro x _
    unfold taskCost
    rw [if_pos hm.free, if_neg (by rw [hm.plain.2.1]; simp), add_zero]
  obtain ⟨x0, e1, e2⟩ := hne
  have hM : ContinuousModel S.c.M Set.univ := by rw [hm.model]; exact drone_continuous g
  obtain ⟨f, z, f1, f2, f3⟩ := C111_solver hS hcd (by rw [hsc]; simp) hb hM (fun _ _ _ _ _ => Set.mem_univ _) (drone_limited hn h hb)
    ⟨x0, e1, (hTask x0 e1).mpr e2⟩
  exact ⟨b, f, z, hb, f1, f2, (best_congr hcost hTask _).1.mp f3⟩

/-- The hypothesis is met: with two to 39 trapezoidal intervals there are flights (C77), so there is a fastest one. -/
theorem C111_drone_trapezoidal {g : ℝ} (hg : 8 ≤ g ∧ g ≤ 12) {n : Nat} (hn : 2 ≤ n) (hn' : n ≤ 39) :
    ∃ S b f z, droneSetup g "Trapezoidal" [] n none = .ok S ∧ S.build = .ok b ∧ (∀ y, b.prob.objective y = .ok (f y)) ∧
      Best S.c.o.L.numDec f (Admitted b.prob b.bounds.lb b.bounds.ub) z ∧
      Best S.c.o.L.numDec (readScale S.c.o)
        (fun x => Flight g .trapezoidal n (pointsOf n none) (fun grp m s => readAt S.c.o.L x grp m s) (readScale S.c.o x)) (vmul z b.prob.scales) := by
  obtain ⟨S, b, x, h1, h2, h3, h4, h5, -⟩ := C77_flip_without_tilting hg hn hn'
  obtain ⟨t, b', ht, hb', hp⟩ := C77_problem (by omega) h1
  rw [h2, Except.ok.injEq] at hb'
  subst hb'
  have ht' := ht
  rw [C38_low_order.2.2.1, Except.ok.injEq] at ht'
  subst ht'
  obtain ⟨b', f, z, k1, k2, k3, k4⟩ := C111_drone (by omega) h1 ht ⟨x, h3, (hp x h3).1.mp ⟨h4, h5⟩⟩
  rw [h2, Except.ok.injEq] at k1
  subst k1
  exact ⟨S, b, f, z, h1, h2, k2, k3, k4⟩

end Lumos.Kkt
