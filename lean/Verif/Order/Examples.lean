import Verif.Order.Problem
import Mathlib.Analysis.SpecialFunctions.ExpDeriv
import Mathlib.Analysis.SpecialFunctions.Trigonometric.Deriv
/-!
# The order is attained, the step limit is needed, and cases that meet the hypotheses (C91)
-/

namespace Lumos.Order

open Lumos DecVar DecVar.Layout Bounds Ocp Lumos.Trans NLP Sim

/-- The mesh of `n` equal steps from 0 to 1. -/
noncomputable def even (n i : Nat) : ℝ := i / n

theorem even_step {n : Nat} (i : Nat) : even n (i + 1) - even n i = 1 / n := by
  unfold even
  push_cast
  rw [← sub_div]
  congr 1
  ring

theorem even_mesh {n : Nat} (hn : 1 ≤ n) : Mesh n (even n) 0 1 (1 / n) := by
  have : (n : ℝ) ≠ 0 := Nat.cast_ne_zero.mpr (by omega)
  refine ⟨by simp [even], by simp [even, this], fun i _ => ⟨?_, (even_step i).le⟩⟩
  have := even_step (n := n) i
  have h0 : (0 : ℝ) ≤ 1 / n := by positivity
  linarith

theorem makes_euler : makeTranscription "ForwardEuler" [] = .ok .forwardEuler := rfl

theorem makes_trapezoidal : makeTranscription "Trapezoidal" [] = .ok .trapezoidal := rfl

/-- Forward Euler has order 1 and no more: for `x' = 2t` the error at the end of `n` equal steps is exactly `1/n`. -/
theorem C91_sharp_euler {n : Nat} (hn : 1 ≤ n) {x xd : Nat → Fin 1 → ℝ} (h : Discrete .forwardEuler n (even n) (fun s _ _ => 2 * s) x xd)
    (h0 : x 0 0 = 0) : Solves (fun s _ _ => 2 * s) (fun s (_ : Fin 1) => s ^ 2) 0 1 ∧ (1 : ℝ) ^ 2 - x n 0 = 1 / n := by
  have hn' : (n : ℝ) ≠ 0 := Nat.cast_ne_zero.mpr (by omega)
  refine ⟨fun s _ => hasDerivAt_pi.mpr fun _ => by simpa using hasDerivAt_pow 2 s, ?_⟩
  have step : ∀ i, i < n → x (i + 1) 0 = x i 0 + 1 / n * (2 * (i / n)) := by
    intro i hi
    have st := (euler_tableau.iff _ _ _).mp (h.steps i hi 0) 1 (by decide)
    have dy := congrFun (h.dyn i hi 0 (by decide)) 0
    have tz : time .forwardEuler (even n) i 0 = even n i := by simp [time, tau_zero makes_euler]
    rw [even_step] at st
    rw [tz] at dy
    simp only [Transcription.stages, eulerTab, Finset.sum_range_succ, Finset.sum_range_zero] at st dy
    norm_num at st dy
    rw [st, dy]
    simp [even]
  have val : ∀ i, i ≤ n → x i 0 = i * (i - 1) / n ^ 2 := by
    intro i
    induction i with
    | zero => intro _; simpa using h0
    | succ i ih =>
      intro hi
      rw [step i (by omega), ih (by omega)]
      push_cast
      field_simp
      ring
  rw [val n le_rfl]
  field_simp
  ring

/-- The trapezoidal rule has order 2 and no more: for `x' = 3t²` the error at the end of `n` equal steps is exactly `1/(2n²)`. -/
theorem C91_sharp_trapezoidal {n : Nat} (hn : 1 ≤ n) {x xd : Nat → Fin 1 → ℝ} (h : Discrete .trapezoidal n (even n) (fun s _ _ => 3 * s ^ 2) x xd)
    (h0 : x 0 0 = 0) : Solves (fun s _ _ => 3 * s ^ 2) (fun s (_ : Fin 1) => s ^ 3) 0 1 ∧ x n 0 - (1 : ℝ) ^ 3 = 1 / (2 * n ^ 2) := by
  have hn' : (n : ℝ) ≠ 0 := Nat.cast_ne_zero.mpr (by omega)
  refine ⟨fun s _ => hasDerivAt_pi.mpr fun _ => by simpa using hasDerivAt_pow 3 s, ?_⟩
  have step : ∀ i, i < n → x (i + 1) 0 = x i 0 + 1 / n * (0.5 * (3 * (i / n) ^ 2 + 3 * ((i + 1) / n) ^ 2)) := by
    intro i hi
    have st := steps_trapezoidal.mp (h.steps i hi 0)
    have d0 := congrFun (h.dyn i hi 0 (by decide)) 0
    have d1 := congrFun (h.dyn i hi 1 (by decide)) 0
    have tz : time .trapezoidal (even n) i 0 = even n i := by simp [time, tau_zero makes_trapezoidal]
    have t1 : time .trapezoidal (even n) i 1 = even n (i + 1) := by simp [time, show Transcription.tau .trapezoidal 1 = 1 from tau_last makes_trapezoidal]
    rw [even_step] at st
    rw [tz] at d0
    rw [t1] at d1
    simp only [Transcription.stages, Nat.mul_one, Nat.add_zero, show 2 - 1 = 1 from rfl] at st d0 d1
    rw [d0, d1] at st
    simp only [even] at st
    push_cast at st
    linarith
  have val : ∀ i, i ≤ n → x i 0 = (i ^ 3 + i / 2) / n ^ 3 := by
    intro i
    induction i with
    | zero => intro _; simpa using h0
    | succ i ih =>
      intro hi
      rw [step i (by omega), ih (by omega)]
      push_cast
      field_simp
      ring
  rw [val n le_rfl]
  field_simp
  ring

/-- The step limit is needed: for `x' = 2x` and a single step of length 1, no point from the start 1 satisfies the constraints of the trapezoidal
rule, although the differential equation has a solution. -/
theorem C91_step_limit : (¬ ∃ x xd, Discrete .trapezoidal 1 (even 1) (fun _ (y : Fin 1 → ℝ) k => 2 * y k) x xd ∧ x 0 0 = 1) ∧
    Solves (fun _ (y : Fin 1 → ℝ) k => 2 * y k) (fun s _ => Real.exp (2 * s)) 0 1 := by
  constructor
  · rintro ⟨x, xd, h, h0⟩
    have st := steps_trapezoidal.mp (h.steps 0 (by norm_num) 0)
    have d0 := congrFun (h.dyn 0 (by norm_num) 0 (by decide)) 0
    have d1 := congrFun (h.dyn 0 (by norm_num) 1 (by decide)) 0
    rw [even_step] at st
    simp only [Transcription.stages, Nat.zero_mul, Nat.zero_add] at st d0 d1
    rw [d0, d1, h0] at st
    norm_num at st
    linarith
  · intro s _
    refine hasDerivAt_pi.mpr fun _ => ?_
    have := (((hasDerivAt_id s).const_mul 2).exp)
    simpa [mul_comm] using this

/-! ### Cases that meet the hypotheses -/

/-- The drone climbing with constant thrust: a trajectory of the dynamics. -/
noncomputable def climb (g s : ℝ) : Fin (droneModel g).nx → ℝ := fun k => if k.val = 2 then s ^ 2 / 2 else if k.val = 3 then s else 0

theorem climb_solves (g a b : ℝ) : Solves (driven (droneModel g) fun _ => [g + 1, 0]) (climb g) a b := by
  intro s _
  refine hasDerivAt_pi.mpr fun k => ?_
  have hk : k.val < 5 := k.isLt
  obtain ⟨k, hk'⟩ := k
  change k < 5 at hk'
  interval_cases k
  · show HasDerivAt (fun _ => (0 : ℝ)) 0 s
    exact hasDerivAt_const s 0
  · show HasDerivAt (fun _ => (0 : ℝ)) ((g + 1) * Real.sin 0) s
    rw [Real.sin_zero, mul_zero]
    exact hasDerivAt_const s 0
  · show HasDerivAt (fun s : ℝ => s ^ 2 / 2) s s
    simpa using (hasDerivAt_pow 2 s).div_const 2
  · show HasDerivAt (fun s : ℝ => s) ((g + 1) * Real.cos 0 - g) s
    rw [Real.cos_zero]
    rw [mul_one, add_sub_cancel_left]
    exact hasDerivAt_id s
  · show HasDerivAt (fun _ => (0 : ℝ)) 0 s
    exact hasDerivAt_const s 0

theorem climb_smooth (g : ℝ) (p : Nat) (k : Fin (droneModel g).nx) : ContDiff ℝ (p + 1 : Nat) fun s => climb g s k := by
  unfold climb
  by_cases h2 : k.val = 2
  · simp only [h2, if_true]
    exact (contDiff_id.pow 2).div_const 2
  by_cases h3 : k.val = 3
  · simp only [h3, if_true]
    exact contDiff_id
  simp only [h2, h3, if_false]
  exact contDiff_const

/-- The climb of the drone is approximated with order 4 by LGR with 5 stages. -/
example (g : ℝ) : ∃ t, makeTranscription "LGR" [("num_stages", 5)] = .ok t ∧ ∃ C δ, 0 ≤ C ∧ 0 < δ ∧
    ∀ (n : Nat) (ts : Nat → ℝ) (h : ℝ), Mesh n ts 0 2 h → 0 ≤ h → h ≤ δ → ∃ x xd,
      Discrete t n ts (driven (droneModel g) fun _ => [g + 1, 0]) x xd ∧ x 0 = climb g 0 ∧ Close t n ts x (climb g) (C * h ^ 4) := by
  obtain ⟨t, ht, h5⟩ := (C38_lgr "LGR" (by simp)).2.1 5 (by norm_num)
  have hL : LipschitzNear (driven (droneModel g) fun _ => [g + 1, 0]) (climb g) 0 2 1 (max 1 |g + 1|) := by
    obtain ⟨k0, k⟩ := drone_lipschitz g (f := fun _ => g + 1) (ω := fun _ => 0) (fun _ => le_refl |g + 1|) 0 2
    exact ⟨k0, fun s hs y z _ _ => k s hs y z⟩
  have hdeg : 4 ≤ exactDegree "LGR" t.stages := by
    have : exactDegree "LGR" t.stages = t.stages - 1 := rfl
    omega
  obtain ⟨C, δ, η, hC, hδ, hη, main⟩ := C91_near ht (climb_solves g 0 2) (p := 4) (by norm_num) hdeg (climb_smooth g 4) one_pos hL
  have z : ‖climb g 0 - climb g 0‖ = 0 := by rw [sub_self, norm_zero]
  refine ⟨t, ht, C, δ, hC, hδ, fun n ts h hm h0 hd => ?_⟩
  obtain ⟨x, xd, k1, k2, _, k4, _⟩ := main n ts h hm h0 hd (climb g 0) (by rw [z]; exact hη.le)
  rw [z, zero_add] at k4
  exact ⟨x, xd, k1, k2, k4⟩

/-- The drone problem is built on every mesh of equal intervals, and simulated there if the intervals are short enough. -/
example (g : ℝ) : ∃ K : ℝ, 0 ≤ K ∧ ∀ n : Nat, 1 ≤ n → ∀ T : ℝ, 0 ≤ T → 2 * (K * max 1 20 * (T / n)) ≤ 1 → ∃ S b x,
    droneSetup g "Trapezoidal" [] n none = .ok S ∧ S.build = .ok b ∧ x.length = S.c.o.L.numDec ∧ b.Feasible (vdiv x b.prob.scales) ∧
    readScale S.c.o x = T ∧ Sampled .trapezoidal n (times n none T) S.c.o.L x fun s => [20 * Real.sin s, s] := by
  obtain ⟨K, hK, main⟩ := C91_drone makes_trapezoidal
  refine ⟨K, hK, fun n hn T hT hs => ?_⟩
  obtain ⟨S, b, hS, hb⟩ := drone_trapezoidal g hn
  have e : ∀ i, i ≤ n → (pointsOf n none).getD i 0 = i / n := fun i hi => getD_linspace01 n i hi
  have hst : ∀ i, i < n → times n none T (i + 1) - times n none T i ≤ T / n := by
    intro i hi
    unfold times
    rw [e _ hi, e _ hi.le]
    push_cast
    rw [← sub_mul, ← sub_div]
    apply le_of_eq
    ring
  obtain ⟨⟨x, h1, h2, h3, _, h5⟩, _⟩ := main g n none S b hn hS hb (fun s => 20 * Real.sin s) (fun s => s) 20 T (T / n)
    (fun s => by rw [abs_mul]; have := Real.abs_sin_le_one s; norm_num; linarith) hT hst hs (fun _ => 1)
  exact ⟨S, b, x, hS, hb, h1, h2, h3, h5⟩

end Lumos.Order
