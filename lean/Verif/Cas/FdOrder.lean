import Verif.Cas.Fd
import Mathlib.Analysis.Calculus.Taylor
import Mathlib.Analysis.SpecialFunctions.Trigonometric.Deriv
/-!
# C88: the order of accuracy
-/

namespace Lumos.Cas

open Lumos Polynomial Asymptotics Filter
open scoped Topology Nat

theorem iterate_comp_affine (P : ℝ[X]) (a h : ℝ) (M : Nat) :
    derivative^[M] (P.comp (C a + C h * X)) = C (h ^ M) * (derivative^[M] P).comp (C a + C h * X) := by
  induction M with
  | zero => simp
  | succ M ih =>
    rw [Function.iterate_succ_apply', ih, derivative_C_mul, derivative_comp, Function.iterate_succ_apply' derivative M P]
    simp only [derivative_add, derivative_C, derivative_mul, derivative_X, zero_mul, zero_add, mul_one]
    rw [pow_succ, C_mul]
    ring

/-- The weights on a grid that is moved and scaled. -/
theorem Differentiates.scale {x w : List ℝ} {M : Nat} (H : Differentiates x w 0 M) (x0 h : ℝ) (hh : h ≠ 0) :
    Differentiates (x.map fun t => x0 + h * t) (w.map (· / h ^ M)) x0 M := by
  obtain ⟨hl, H⟩ := H
  refine ⟨by simp [hl], fun P hP => ?_⟩
  have hd : (P.comp (C x0 + C h * X)).natDegree < x.length := by
    have e : (C x0 + C h * X : ℝ[X]).natDegree ≤ 1 := by compute_degree
    have := natDegree_comp_le (p := P) (q := C x0 + C h * X)
    rw [List.length_map] at hP
    have h2 : P.natDegree * (C x0 + C h * X : ℝ[X]).natDegree ≤ P.natDegree * 1 := Nat.mul_le_mul_left _ e
    omega
  have h1 := H _ hd
  rw [iterate_comp_affine] at h1
  simp only [eval_mul, eval_comp, eval_add, eval_C, eval_X, mul_zero, add_zero] at h1
  rw [List.zipWith_map]
  have h2 : (List.zipWith (fun a b => a / h ^ M * eval (x0 + h * b) P) w x).sum
      = (List.zipWith (fun a b => a * eval (x0 + h * b) P) w x).sum / h ^ M := by
    clear h1 hd hP hl H
    induction w generalizing x with
    | nil => simp
    | cons a w ih =>
      cases x with
      | nil => simp
      | cons b x => simp only [List.zipWith_cons_cons, List.sum_cons, ih]; ring
  rw [h2, h1]
  field_simp

/-- The Taylor polynomial of `f` at `x0` with `n` terms. -/
noncomputable def taylorPoly (f : ℝ → ℝ) (x0 : ℝ) (n : Nat) : ℝ[X] :=
  ∑ k ∈ Finset.range n, C ((k ! : ℝ)⁻¹ * iteratedDeriv k f x0) * (X - C x0) ^ k

theorem taylorPoly_degree (f : ℝ → ℝ) (x0 : ℝ) (n : Nat) (hn : 0 < n) : (taylorPoly f x0 n).natDegree < n := by
  have : (taylorPoly f x0 n).natDegree ≤ n - 1 := by
    unfold taylorPoly
    refine natDegree_sum_le_of_forall_le _ _ fun k hk => ?_
    rw [Finset.mem_range] at hk
    refine (natDegree_C_mul_le _ _).trans ?_
    rw [natDegree_pow, natDegree_X_sub_C]
    omega
  omega

theorem taylorPoly_deriv (f : ℝ → ℝ) (x0 : ℝ) (n M : Nat) (hM : M < n) :
    (derivative^[M] (taylorPoly f x0 n)).eval x0 = iteratedDeriv M f x0 := by
  unfold taylorPoly
  rw [iterate_derivative_sum, eval_finsetSum, Finset.sum_eq_single M]
  · rw [iterate_derivative_C_mul, iterate_derivative_X_sub_pow_self]
    simp only [eval_mul, eval_C, eval_natCast]
    have : (M ! : ℝ) ≠ 0 := by positivity
    field_simp
  · intro k _ hk
    rw [iterate_derivative_C_mul, iterate_derivative_X_sub_pow]
    simp only [eval_mul, eval_C, eval_smul, eval_pow, eval_sub, eval_X, sub_self]
    rcases lt_or_gt_of_ne hk with h | h
    · rw [Nat.descFactorial_eq_zero_iff_lt.2 h]; simp
    · rw [zero_pow (by omega)]; simp
  · intro h; simp at h; omega

theorem taylorPoly_remainder (f : ℝ → ℝ) (x0 : ℝ) (n : Nat) (hf : ContDiff ℝ n f) :
    (fun x => f x - (taylorPoly f x0 n).eval x) =O[𝓝 x0] fun x => (x - x0) ^ n := by
  have h1 := (taylor_isLittleO_univ (x₀ := x0) hf).isBigO
  have h2 : (fun x => ((n ! : ℝ)⁻¹ * iteratedDeriv n f x0) * (x - x0) ^ n) =O[𝓝 x0] fun x => (x - x0) ^ n :=
    (isBigO_refl _ _).const_mul_left _
  refine (h1.add h2).congr_left fun x => ?_
  rw [taylor_within_apply, Finset.sum_range_succ]
  unfold taylorPoly
  rw [eval_finsetSum]
  simp only [iteratedDerivWithin_univ, smul_eq_mul, eval_mul, eval_C, eval_pow, eval_sub, eval_X]
  have : ∑ k ∈ Finset.range n, (k ! : ℝ)⁻¹ * (x - x0) ^ k * iteratedDeriv k f x0
      = ∑ k ∈ Finset.range n, (k ! : ℝ)⁻¹ * iteratedDeriv k f x0 * (x - x0) ^ k := Finset.sum_congr rfl fun k _ => by ring
  rw [this]; ring

theorem zipWith_bigO (x w : List ℝ) (x0 : ℝ) (n M : Nat) (g : ℝ → ℝ) (hM : M ≤ n) (hg : g =O[𝓝 x0] fun y => (y - x0) ^ n) :
    (fun h => (List.zipWith (fun a b => a / h ^ M * g (x0 + h * b)) w x).sum) =O[𝓝[≠] 0] fun h : ℝ => h ^ (n - M) := by
  induction w generalizing x with
  | nil => simpa using isBigO_zero _ _
  | cons a w ih =>
    cases x with
    | nil => simpa using isBigO_zero _ _
    | cons b x =>
      simp only [List.zipWith_cons_cons, List.sum_cons]
      refine IsBigO.add ?_ (ih x)
      have ht : Tendsto (fun h : ℝ => x0 + h * b) (𝓝[≠] 0) (𝓝 x0) := by
        have : Tendsto (fun h : ℝ => x0 + h * b) (𝓝 0) (𝓝 (x0 + 0 * b)) := (continuous_const.add (continuous_id.mul continuous_const)).tendsto 0
        rw [zero_mul, add_zero] at this
        exact this.mono_left nhdsWithin_le_nhds
      have h1 := hg.comp_tendsto ht
      have h2 : (fun h : ℝ => a / h ^ M * g (x0 + h * b)) =O[𝓝[≠] 0] fun h : ℝ => (a / h ^ M) * (h * b) ^ n := by
        refine (isBigO_refl _ _).mul (h1.congr_right fun h => ?_)
        simp
      refine h2.trans ?_
      have h3 : (fun h : ℝ => (a / h ^ M) * (h * b) ^ n) =ᶠ[𝓝[≠] 0] fun h => (a * b ^ n) * h ^ (n - M) := by
        filter_upwards [self_mem_nhdsWithin] with h hh
        have hh : h ≠ 0 := hh
        have e : h ^ n = h ^ M * h ^ (n - M) := by rw [← pow_add]; congr 1; omega
        rw [mul_pow, e]
        field_simp
      exact h3.isBigO.trans ((isBigO_refl _ _).const_mul_left _)

/-- The weighted sum of the values of `f` at the nodes, with what the function returns. -/
noncomputable def approximation (f : ℝ → ℝ) (x : List ℝ) (x0 : ℝ) (M : Nat) : ℝ :=
  match fdCoefficients x x0 M with
  | .ok (.weights w) => (List.zipWith (fun a b => a * f b) w x).sum
  | _ => 0

/-- Theorem (C88). The order of accuracy is the number of nodes less the order of the derivative: on the grid `x0 + h * t`, for any shape of
distinct numbers `t`, the error for a function with that many continuous derivatives shrinks at least like `h ^ (n - M)`. -/
theorem C88_order (f : ℝ → ℝ) (t : List ℝ) (x0 : ℝ) (M : Nat) (hM : 1 ≤ M) (hn : M < t.length) (ht : t.Nodup)
    (hf : ContDiff ℝ t.length f) :
    (fun h : ℝ => approximation f (t.map fun s => x0 + h * s) x0 M - iteratedDeriv M f x0) =O[𝓝[≠] 0] fun h => h ^ (t.length - M) := by
  obtain ⟨w, -, hw⟩ := C88_exact t 0 M hM hn ht
  have h1 := zipWith_bigO t w x0 t.length M (fun x => f x - (taylorPoly f x0 t.length).eval x) (by omega)
    (taylorPoly_remainder f x0 t.length hf)
  refine h1.congr' ?_ (EventuallyEq.refl _ _)
  filter_upwards [self_mem_nhdsWithin] with h hh
  have hh : h ≠ 0 := hh
  have hnd : (t.map fun s => x0 + h * s).Nodup := ht.map (fun a b hab => by
    have : h * a = h * b := by simpa using hab
    exact mul_left_cancel₀ hh this)
  obtain ⟨w', h2, h3⟩ := C88_exact (t.map fun s => x0 + h * s) x0 M hM (by simpa using hn) hnd
  have h4 := hw.scale x0 h hh
  have e := C88_unique _ _ _ _ _ hnd h3 h4
  have h5 := h4.2 (taylorPoly f x0 t.length) (by simpa using taylorPoly_degree f x0 t.length (by omega))
  rw [taylorPoly_deriv f x0 _ _ hn] at h5
  unfold approximation
  rw [h2, e]
  simp only
  rw [← h5]
  simp only [List.zipWith_map]
  clear h1 h2 h3 h4 h5 e hw hnd hn ht
  generalize hp : taylorPoly f x0 t.length = p
  clear hp hf
  induction w generalizing t with
  | nil => simp
  | cons a w ih =>
    cases t with
    | nil => simp
    | cons b t => simp only [List.zipWith_cons_cons, List.sum_cons, ih]; ring

/-- The sine at three points: the middle difference has an error of at least second order. -/
example (x0 : ℝ) : (fun h : ℝ => approximation Real.sin ([-1, 0, 1].map fun s => x0 + h * s) x0 1 - Real.cos x0) =O[𝓝[≠] 0]
    fun h => h ^ 2 := by
  have := C88_order Real.sin [-1, 0, 1] x0 1 le_rfl (by simp) (by norm_num) Real.contDiff_sin
  rw [iteratedDeriv_one, Real.deriv_sin] at this
  exact this

end Lumos.Cas
