import Verif.Order.Stable
import Verif.Order.Props
import Verif.Sim.DroneMore
import Mathlib.LinearAlgebra.FiniteDimensional.Basic
/-!
# Stability: linear dynamics, the other transcriptions, examples (C92)
-/

namespace Lumos.Order

open Lumos Lumos.Trans Sim

/-! ### Specification -/

/-- Linear dynamics `x' = A(t) x + b(t)`. -/
def linear {d : Nat} (A : ℝ → Fin d → Fin d → ℝ) (b : ℝ → Fin d → ℝ) (s : ℝ) (y : Fin d → ℝ) (k : Fin d) : ℝ := ∑ l, A s k l * y l + b s k

/-! ### LGR and linear dynamics -/

theorem linear_dissipative {d : Nat} {A : ℝ → Fin d → Fin d → ℝ} {b : ℝ → Fin d → ℝ} {ν : ℝ} (h : Dissipative (linear A b) ν) :
    Dissipative (linear A fun _ _ => 0) ν := by
  refine ⟨h.1, fun s y z => ?_⟩
  have := h.2 s y z
  unfold linear at *
  simpa using this

theorem linear_interval {kwargs : List (String × Int)} {t : Transcription} (ht : makeTranscription "LGR" kwargs = .ok t) {a : Nat → Nat → ℝ}
    (ha : Tableau t a) {d : Nat} {A : ℝ → Fin d → Fin d → ℝ} {b : ℝ → Fin d → ℝ} {ν : ℝ} (hF : Dissipative (linear A b) ν) (hν : 0 < ν)
    {ts : Nat → ℝ} {i : Nat} (hi : ts i < ts (i + 1)) (v : Fin d → ℝ) : ∃ Y : Nat → Fin d → ℝ, Y 0 = v ∧ ∀ j, j < t.stages → ∀ k,
      Y j k = v k + (ts (i + 1) - ts i) * ∑ j' ∈ Finset.range t.stages, a j j' * linear A b (time t ts i j') (Y j') k := by
  have h2 := (C38_shapes ht).1
  let Φ : (Fin t.stages → Fin d → ℝ) →ₗ[ℝ] (Fin t.stages → Fin d → ℝ) :=
    { toFun := fun Y j k => Y j k - (ts (i + 1) - ts i) * ∑ j' : Fin t.stages, a j j' * ∑ l, A (time t ts i j') k l * Y j' l
      map_add' := by
        intro Y Z
        funext j k
        simp only [Pi.add_apply, mul_add, Finset.sum_add_distrib]
        ring
      map_smul' := by
        intro r Y
        funext j k
        simp only [Pi.smul_apply, smul_eq_mul, RingHom.id_apply, mul_sub]
        congr 1
        rw [← mul_assoc, mul_comm r, mul_assoc, Finset.mul_sum (a := r)]
        congr 1
        refine Finset.sum_congr rfl fun j' _ => ?_
        rw [← mul_assoc, mul_comm r, mul_assoc, Finset.mul_sum (a := r)]
        congr 1
        exact Finset.sum_congr rfl fun l _ => by ring }
  have hΦ : ∀ Y j k, Φ Y j k = Y j k - (ts (i + 1) - ts i) * ∑ j' : Fin t.stages, a j j' * ∑ l, A (time t ts i j') k l * Y j' l := fun _ _ _ => rfl
  have inj : Function.Injective Φ := by
    rw [injective_iff_map_eq_zero]
    intro Y hY
    let x : Nat → Fin d → ℝ := fun s => if h : s < t.stages then Y ⟨s, h⟩ else 0
    have hx : ∀ s (h : s < t.stages), x s = Y ⟨s, h⟩ := fun s h => by simp only [x, h, dite_true]
    have hYeq : ∀ j (hj : j < t.stages) k, x j k = (ts (i + 1) - ts i) * ∑ j' ∈ Finset.range t.stages, a j j' * linear A (fun _ _ => 0) (time t ts i j') (x j') k := by
      intro j hj k
      have := congrFun (congrFun hY ⟨j, hj⟩) k
      rw [hΦ] at this
      rw [hx j hj, Finset.sum_range]
      simp only [hx _ (Fin.is_lt _), Fin.eta, linear, add_zero]
      simp only [Pi.zero_apply] at this
      linarith
    have x0 : x 0 = 0 := by
      funext k
      rw [hYeq 0 (by omega) k]
      simp [ha.first]
    have dx : Discrete t 1 (fun r => ts (i + r)) (linear A fun _ _ => 0) x
        (fun s => linear A (fun _ _ => 0) (time t ts i s) (x s)) := by
      constructor
      · intro r hr k
        obtain rfl : r = 0 := by omega
        simp only [Nat.zero_mul, Nat.zero_add, Nat.add_zero]
        refine (ha.iff _ _ _).mpr fun j hj => ?_
        rw [hYeq j hj k, congrFun x0 k]
        simp
      · intro r hr j hj
        obtain rfl : r = 0 := by omega
        simp only [Nat.zero_mul, Nat.zero_add]
        rfl
    have d0 : Discrete t 1 (fun r => ts (i + r)) (linear A fun _ _ => 0) (fun _ => 0) (fun _ => 0) := by
      constructor
      · intro r hr k
        refine (ha.iff _ _ _).mpr fun j hj => ?_
        simp
      · intro r hr j hj
        funext k
        simp [linear]
    have := C92_unique ht (fun r hr => by obtain rfl : r = 0 := by omega
                                          exact hi) (linear_dissipative hF) hν dx d0 x0 0 (by omega)
    funext j
    have := this j.val j.isLt
    rw [Nat.zero_mul, Nat.zero_add, hx _ j.isLt] at this
    exact this
  obtain ⟨Y, hY⟩ := LinearMap.injective_iff_surjective.mp inj
    (fun j k => v k + (ts (i + 1) - ts i) * ∑ j' : Fin t.stages, a j j' * b (time t ts i j') k)
  have val : ∀ j (hj : j < t.stages) k, Y ⟨j, hj⟩ k = v k + (ts (i + 1) - ts i) * ∑ j' : Fin t.stages, a j j' * linear A b (time t ts i j') (Y j') k := by
    intro j hj k
    have := congrFun (congrFun hY ⟨j, hj⟩) k
    rw [hΦ] at this
    simp only [linear, mul_add, Finset.sum_add_distrib] at this ⊢
    linarith
  refine ⟨fun s => if h : s < t.stages then Y ⟨s, h⟩ else 0, ?_, fun j hj k => ?_⟩
  · have h0 : 0 < t.stages := by omega
    simp only [h0, dite_true]
    funext k
    rw [val 0 h0 k]
    simp [ha.first]
  · simp only [hj, dite_true]
    rw [val j hj k, Finset.sum_range]
    simp

/-- **C92 (linear dynamics).** For linear dynamics that contract, the LGR constraints have exactly one solution from every start, on every mesh however
coarse. -/
theorem C92_linear {kwargs : List (String × Int)} {t : Transcription} (ht : makeTranscription "LGR" kwargs = .ok t) {d n : Nat} {ts : Nat → ℝ}
    (hts : Increasing n ts) {A : ℝ → Fin d → Fin d → ℝ} {b : ℝ → Fin d → ℝ} {ν : ℝ} (hF : Dissipative (linear A b) ν) (hν : 0 < ν) (x0 : Fin d → ℝ) :
    (∃ x xd, Discrete t n ts (linear A b) x xd ∧ x 0 = x0) ∧
    ∀ x xd y yd, Discrete t n ts (linear A b) x xd → x 0 = x0 → Discrete t n ts (linear A b) y yd → y 0 = x0 →
      ∀ i, i < n → ∀ j, j < t.stages → x (i * (t.stages - 1) + j) = y (i * (t.stages - 1) + j) := by
  obtain ⟨a, ha⟩ := C91_runge_kutta ht
  exact ⟨exists_of_intervals ht ha (fun i hi v => linear_interval ht ha hF hν (hts i hi) v) x0,
    fun x xd y yd hx ex hy ey => C92_unique ht hts hF hν hx hy (ex.trans ey.symm)⟩

/-! ### Trapezoidal -/

/-- **C92 (Trapezoidal).** For linear dynamics with constant coefficients that do not drive states apart, the trapezoidal constraints do not either, on
every mesh however coarse. -/
theorem C92_trapezoidal {d n : Nat} {ts : Nat → ℝ} (hts : Increasing n ts) {A : Fin d → Fin d → ℝ} {b : Fin d → ℝ}
    (hF : Dissipative (linear (fun _ => A) fun _ => b) 0) {x xd y yd : Nat → Fin d → ℝ} (hx : Discrete .trapezoidal n ts (linear (fun _ => A) fun _ => b) x xd)
    (hy : Discrete .trapezoidal n ts (linear (fun _ => A) fun _ => b) y yd) : ∀ i, i ≤ n → dist2 (x i) (y i) ≤ dist2 (x 0) (y 0) := by
  intro i
  induction i with
  | zero => intro _; exact le_rfl
  | succ i ih =>
    intro hi
    refine le_trans ?_ (ih (by omega))
    have hh := hts i (by omega)
    have step : ∀ (w wd : Nat → Fin d → ℝ), Discrete .trapezoidal n ts (linear (fun _ => A) fun _ => b) w wd → ∀ k,
        w (i + 1) k - w i k = (ts (i + 1) - ts i) / 2 * (linear (fun _ => A) (fun _ => b) 0 (w i) k + linear (fun _ => A) (fun _ => b) 0 (w (i + 1)) k) := by
      intro w wd hw k
      have st := steps_trapezoidal.mp (hw.steps i (by omega) k)
      have d0 := congrFun (hw.dyn i (by omega) 0 (by decide)) k
      have d1 := congrFun (hw.dyn i (by omega) 1 (by decide)) k
      simp only [Transcription.stages, show 2 - 1 = 1 from rfl, Nat.mul_one, Nat.add_zero] at st d0 d1
      rw [d0, d1] at st
      rw [st]
      unfold linear
      ring
    have key := hF.2 0 (fun k => x i k + x (i + 1) k) (fun k => y i k + y (i + 1) k)
    have e : ∀ k, linear (fun _ => A) (fun _ => b) 0 (fun k => x i k + x (i + 1) k) k - linear (fun _ => A) (fun _ => b) 0 (fun k => y i k + y (i + 1) k) k =
        (linear (fun _ => A) (fun _ => b) 0 (x i) k + linear (fun _ => A) (fun _ => b) 0 (x (i + 1)) k) -
          (linear (fun _ => A) (fun _ => b) 0 (y i) k + linear (fun _ => A) (fun _ => b) 0 (y (i + 1)) k) := by
      intro k
      simp only [linear, mul_add, Finset.sum_add_distrib]
      ring
    have term : ∀ k, (x (i + 1) k - y (i + 1) k) ^ 2 - (x i k - y i k) ^ 2 = (ts (i + 1) - ts i) / 2 *
        ((linear (fun _ => A) (fun _ => b) 0 (fun k => x i k + x (i + 1) k) k - linear (fun _ => A) (fun _ => b) 0 (fun k => y i k + y (i + 1) k) k) *
          ((x i k + x (i + 1) k) - (y i k + y (i + 1) k))) := by
      intro k
      have sx := step x xd hx k
      have sy := step y yd hy k
      rw [e k]
      have : (ts (i + 1) - ts i) / 2 * ((linear (fun _ => A) (fun _ => b) 0 (x i) k + linear (fun _ => A) (fun _ => b) 0 (x (i + 1)) k) -
          (linear (fun _ => A) (fun _ => b) 0 (y i) k + linear (fun _ => A) (fun _ => b) 0 (y (i + 1)) k)) = (x (i + 1) k - x i k) - (y (i + 1) k - y i k) := by
        rw [sx, sy]; ring
      rw [← mul_assoc, this]
      ring
    have tot : dist2 (x (i + 1)) (y (i + 1)) - dist2 (x i) (y i) = (ts (i + 1) - ts i) / 2 *
        ∑ k, (linear (fun _ => A) (fun _ => b) 0 (fun k => x i k + x (i + 1) k) k - linear (fun _ => A) (fun _ => b) 0 (fun k => y i k + y (i + 1) k) k) *
          ((x i k + x (i + 1) k) - (y i k + y (i + 1) k)) := by
      unfold dist2
      rw [← Finset.sum_sub_distrib, Finset.mul_sum]
      exact Finset.sum_congr rfl fun k _ => term k
    have h0 : (0 : ℝ) ≤ (ts (i + 1) - ts i) / 2 := by linarith
    rw [neg_zero, zero_mul] at key
    have := mul_nonpos_of_nonneg_of_nonpos h0 key
    linarith

/-- **C92 (finding).** Trapezoidal does not have this property for all dynamics: for `x' = -10 max(x, 0)`, which never drives states apart, one step of
length 2 takes the starts 1 and 0 to -9 and 0. -/
theorem C92_trapezoidal_grows : ∃ x xd y yd : Nat → Fin 1 → ℝ, Dissipative (fun _ (w : Fin 1 → ℝ) k => -10 * max (w k) 0) 0 ∧
    Discrete .trapezoidal 1 (fun i => 2 * (i : ℝ)) (fun _ w k => -10 * max (w k) 0) x xd ∧
    Discrete .trapezoidal 1 (fun i => 2 * (i : ℝ)) (fun _ w k => -10 * max (w k) 0) y yd ∧ dist2 (x 0) (y 0) = 1 ∧ dist2 (x 1) (y 1) = 81 := by
  refine ⟨fun s _ => if s = 0 then 1 else -9, fun s _ => if s = 0 then -10 else 0, fun _ _ => 0, fun _ _ => 0, ⟨le_rfl, fun s y z => ?_⟩, ?_, ?_, ?_, ?_⟩
  · simp only [neg_zero, zero_mul, Finset.univ_unique, Finset.sum_singleton]
    rcases le_total (y default) (z default) with h | h
    · have := max_le_max_right 0 h
      nlinarith
    · have := max_le_max_right 0 h
      nlinarith
  · constructor
    · intro i hi k
      obtain rfl : i = 0 := by omega
      refine steps_trapezoidal.mpr ?_
      norm_num [Transcription.stages]
    · intro i hi j hj
      obtain rfl : i = 0 := by omega
      have hj : j < 2 := hj
      funext k
      interval_cases j <;> norm_num [Transcription.stages]
  · constructor
    · intro i hi k
      refine steps_trapezoidal.mpr ?_
      simp
    · intro i hi j hj
      funext k
      simp
  · simp [dist2]
  · norm_num [dist2]

/-- **C92 (finding).** ForwardEuler is unstable on coarse meshes: for `x' = -3x` with steps of length 1 the distance doubles on every interval. -/
theorem C92_euler_grows {n : Nat} {x xd y yd : Nat → Fin 1 → ℝ} (hx : Discrete .forwardEuler n (fun i => (i : ℝ)) (fun _ w k => -3 * w k) x xd)
    (hy : Discrete .forwardEuler n (fun i => (i : ℝ)) (fun _ w k => -3 * w k) y yd) :
    Dissipative (fun _ (w : Fin 1 → ℝ) k => -3 * w k) 3 ∧ ∀ i, i ≤ n → dist2 (x i) (y i) = 4 ^ i * dist2 (x 0) (y 0) := by
  refine ⟨⟨by norm_num, fun s w z => ?_⟩, ?_⟩
  · simp only [dist2, Finset.univ_unique, Finset.sum_singleton]
    nlinarith [sq_nonneg (w default - z default)]
  · have step : ∀ w wd : Nat → Fin 1 → ℝ, Discrete .forwardEuler n (fun i => (i : ℝ)) (fun _ w k => -3 * w k) w wd → ∀ i, i < n → w (i + 1) 0 = -2 * w i 0 := by
      intro w wd hw i hi
      have st := (euler_tableau.iff _ _ _).mp (hw.steps i hi 0) 1 (by decide)
      have dy := congrFun (hw.dyn i hi 0 (by decide)) 0
      simp only [Transcription.stages, eulerTab, Finset.sum_range_succ, Finset.sum_range_zero, show 2 - 1 = 1 from rfl, Nat.mul_one, Nat.add_zero] at st dy
      norm_num at st
      rw [st, dy]
      ring
    intro i
    induction i with
    | zero => intro _; simp
    | succ i ih =>
      intro hi
      have := ih (by omega)
      simp only [dist2, Finset.univ_unique, Finset.sum_singleton, Fin.default_eq_zero, Fin.isValue] at this ⊢
      rw [step x xd hx i (by omega), step y yd hy i (by omega), pow_succ 4 i, mul_comm (4 ^ i), mul_assoc, ← this]
      ring

/-! ### Cases that meet the hypotheses -/

/-- A damped rotation: dynamics that contract. -/
noncomputable def spiral : ℝ → Fin 2 → Fin 2 → ℝ := fun _ k l => if k = l then -1 else if k < l then 5 else -5

theorem spiral_dissipative : Dissipative (linear spiral fun _ _ => 1) 1 := by
  refine ⟨zero_le_one, fun s y z => ?_⟩
  simp only [linear, spiral, dist2, Fin.sum_univ_two]
  norm_num
  nlinarith

/-- The damped rotation with LGR of 4 stages on a mesh of steps of length 1000: there is exactly one solution, and any two approach each other. -/
example : ∃ t, makeTranscription "LGR" [("num_stages", 4)] = .ok t ∧ ∀ x0 y0 : Fin 2 → ℝ, ∃ x xd y yd,
    Discrete t 10 (fun i => 1000 * (i : ℝ)) (linear spiral fun _ _ => 1) x xd ∧ x 0 = x0 ∧
    Discrete t 10 (fun i => 1000 * (i : ℝ)) (linear spiral fun _ _ => 1) y yd ∧ y 0 = y0 ∧ dist2 (x 30) (y 30) ≤ dist2 x0 y0 := by
  obtain ⟨t, ht, h4⟩ := (C38_lgr "LGR" (by simp)).2.1 4 (by norm_num)
  have hts : Increasing 10 fun i => 1000 * (i : ℝ) := fun i _ => by push_cast; linarith
  refine ⟨t, ht, fun x0 y0 => ?_⟩
  obtain ⟨x, xd, hx, hx0⟩ := (C92_linear ht hts spiral_dissipative one_pos x0).1
  obtain ⟨y, yd, hy, hy0⟩ := (C92_linear ht hts spiral_dissipative one_pos y0).1
  refine ⟨x, xd, y, yd, hx, hx0, hy, hy0, ?_⟩
  have := C92_no_growth ht hts spiral_dissipative hx hy 10 le_rfl
  rw [hx0, hy0, show t.stages - 1 = 3 by omega] at this
  exact this

end Lumos.Order
