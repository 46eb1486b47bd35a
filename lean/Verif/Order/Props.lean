import Verif.Order.Exist
import Mathlib.Analysis.Calculus.IteratedDeriv.Lemmas
/-!
# Refining the mesh converges to the continuous dynamics (C91)

The continuity constraints and the model constraints of a transcribed problem are a discretisation of `x' = F(t, x)` (for fixed inputs, `F`
also contains them). This file states that for every transcription the user can choose,

* points that satisfy the constraints are within `C h^p` of the continuous trajectory, `p` being the order of the method,
* two such points that start close stay close, and there is at most one from a given start,
* on a mesh that is fine enough there is one.

`time`, `Discrete`, `MeshWithin` and `Solves` are specified in `Chain.lean`.
-/

namespace Lumos.Order

open Lumos Lumos.Trans

/-! ### Specification -/

/-- `F` has the Lipschitz constant `L` between points that are within `ρ` of the trajectory. -/
def LipschitzNear {d : Nat} (F : ℝ → (Fin d → ℝ) → Fin d → ℝ) (X : ℝ → Fin d → ℝ) (a b ρ L : ℝ) : Prop :=
  0 ≤ L ∧ ∀ s ∈ Set.Icc a b, ∀ y z, ‖y - X s‖ ≤ ρ → ‖z - X s‖ ≤ ρ → ‖F s y - F s z‖ ≤ L * ‖y - z‖

/-- `F` has the Lipschitz constant `L` everywhere. -/
def LipschitzAll {d : Nat} (F : ℝ → (Fin d → ℝ) → Fin d → ℝ) (a b L : ℝ) : Prop :=
  0 ≤ L ∧ ∀ s ∈ Set.Icc a b, ∀ y z, ‖F s y - F s z‖ ≤ L * ‖y - z‖

/-- A mesh from `a` to `b` with steps of at most `h`. -/
def Mesh (n : Nat) (ts : Nat → ℝ) (a b h : ℝ) : Prop := ts 0 = a ∧ ts n = b ∧ MeshWithin n ts h

/-- All stages are within `e` of the trajectory. -/
def Close (t : Transcription) {d : Nat} (n : Nat) (ts : Nat → ℝ) (x : Nat → Fin d → ℝ) (X : ℝ → Fin d → ℝ) (e : ℝ) : Prop :=
  ∀ i, i < n → ∀ j, j < t.stages → ‖x (i * (t.stages - 1) + j) - X (time t ts i j)‖ ≤ e

/-! ### Lemmas -/

section

variable {name : String} {kwargs : List (String × Int)} {t : Transcription}

theorem one_le_degree (ht : makeTranscription name kwargs = .ok t) : 1 ≤ exactDegree name t.stages := by
  have := (C38_shapes ht).1
  unfold exactDegree
  split
  · exact le_rfl
  split
  · norm_num
  split <;> omega

/-- The derivatives are bounded on an interval. -/
theorem bounded_deriv {d : Nat} {X : ℝ → Fin d → ℝ} {p : Nat} (hsm : ∀ k, ContDiff ℝ (p + 1 : Nat) fun s => X s k) (a b : ℝ) :
    ∃ M, 0 ≤ M ∧ ∀ k, ∀ s ∈ Set.Icc a b, |iteratedDeriv (p + 1) (fun s => X s k) s| ≤ M := by
  have one : ∀ k, ∃ M, 0 ≤ M ∧ ∀ s ∈ Set.Icc a b, |iteratedDeriv (p + 1) (fun s => X s k) s| ≤ M := by
    intro k
    have hc : Continuous (iteratedDeriv (p + 1) (fun s => X s k)) := (hsm k).continuous_iteratedDeriv (p + 1) le_rfl
    obtain ⟨M, hM⟩ := isCompact_Icc.exists_bound_of_continuousOn (s := Set.Icc a b) hc.continuousOn
    exact ⟨max M 0, le_max_right _ _, fun s hs => (hM s hs).trans (le_max_left _ _)⟩
  choose M hM0 hM using one
  exact ⟨∑ k, M k, Finset.sum_nonneg fun k _ => hM0 k, fun k s hs => (hM k s hs).trans
    (Finset.single_le_sum (f := M) (fun k _ => hM0 k) (Finset.mem_univ k))⟩

/-! ### Theorems -/

/-- The error bound: for every transcription there is a constant such that, on every mesh whose steps are small against the Lipschitz constant of
the dynamics, the stages of every point that satisfies the constraints are close to every solution of the differential equation. The Lipschitz
condition is only needed at the stages. -/
theorem C91_converges (ht : makeTranscription name kwargs = .ok t) :
    ∃ K, 0 ≤ K ∧ ∀ (d n : Nat) (ts : Nat → ℝ) (h : ℝ), MeshWithin n ts h → ∀ (F : ℝ → (Fin d → ℝ) → Fin d → ℝ) (x xd : Nat → Fin d → ℝ),
      Discrete t n ts F x xd → ∀ (X : ℝ → Fin d → ℝ), Solves F X (ts 0) (ts n) →
      ∀ p, p ≤ exactDegree name t.stages → (∀ k, ContDiff ℝ (p + 1 : Nat) fun s => X s k) →
      ∀ M, 0 ≤ M → (∀ k, ∀ s ∈ Set.Icc (ts 0) (ts n), |iteratedDeriv (p + 1) (fun s => X s k) s| ≤ M) →
      ∀ L, 0 ≤ L → (∀ i, i < n → ∀ j, j < t.stages →
        ‖F (time t ts i j) (x (i * (t.stages - 1) + j)) - F (time t ts i j) (X (time t ts i j))‖ ≤ L * ‖x (i * (t.stages - 1) + j) - X (time t ts i j)‖) →
      2 * (K * L * h) ≤ 1 →
      ∀ i, i < n → ∀ j, j < t.stages → ‖x (i * (t.stages - 1) + j) - X (time t ts i j)‖ ≤
        Real.exp (2 * (K * L) * (ts (i + 1) - ts 0)) * (‖x 0 - X (ts 0)‖ + (1 + K) * M * h ^ p * (ts (i + 1) - ts 0)) := by
  obtain ⟨a, ha⟩ := C91_runge_kutta ht
  exact ⟨size t a, size_nonneg t a, fun d n ts h hmesh F x xd hx X hX p hp hsm M hM0 hM L hL0 hL hs =>
    converges ht ha hmesh hx hX hp hsm hM hM0 hL0 hL hs⟩

/-- The order of convergence: along a trajectory with `p + 1` continuous derivatives, `p` at most the order of the method, the error is at most
`C h^p` (plus what the start is off), with a constant that does not depend on the mesh. Points that satisfy the constraints but leave the
neighbourhood in which the dynamics are Lipschitz are not covered. -/
theorem C91_order (ht : makeTranscription name kwargs = .ok t) {d : Nat} {F : ℝ → (Fin d → ℝ) → Fin d → ℝ} {X : ℝ → Fin d → ℝ} {a b : ℝ}
    (hX : Solves F X a b) {p : Nat} (hp : p ≤ exactDegree name t.stages) (hsm : ∀ k, ContDiff ℝ (p + 1 : Nat) fun s => X s k) {ρ L : ℝ}
    (hL : LipschitzNear F X a b ρ L) :
    ∃ C δ, 0 ≤ C ∧ 0 < δ ∧ ∀ (n : Nat) (ts : Nat → ℝ) (h : ℝ), Mesh n ts a b h → h ≤ δ → ∀ x xd, Discrete t n ts F x xd → Close t n ts x X ρ →
      Close t n ts x X (C * (‖x 0 - X a‖ + h ^ p)) := by
  obtain ⟨c, hc⟩ := C91_runge_kutta ht
  obtain ⟨M, hM0, hM⟩ := bounded_deriv hsm a b
  obtain ⟨hL0, hL⟩ := hL
  have hK := size_nonneg t c
  refine ⟨Real.exp (2 * (size t c * L) * |b - a|) * (1 + (1 + size t c) * M * |b - a|), 1 / (2 * (size t c * L) + 1), by positivity, by positivity, ?_⟩
  rintro n ts h ⟨rfl, rfl, hmesh⟩ hδ x xd hx hclose i hi j hj
  have hh : 0 ≤ h := by have := hmesh i hi; linarith
  have hs : 2 * (size t c * L * h) ≤ 1 := by
    rw [le_div_iff₀ (by positivity)] at hδ
    nlinarith
  have h2 := (C38_shapes ht).1
  have hρ : 0 ≤ ρ := (norm_nonneg _).trans (hclose i hi j hj)
  have main := converges ht hc hmesh hx hX hp hsm hM hM0 hL0 (fun i hi j hj => hL _ (time_mem' ht hmesh hi hj) _ _ (hclose i hi j hj) (by simpa using hρ))
    hs i hi j hj
  refine main.trans ?_
  have t1 : 0 ≤ ts (i + 1) - ts 0 := sub_nonneg.mpr (mesh_mono hmesh (Nat.zero_le _) hi)
  have t2 : ts (i + 1) - ts 0 ≤ |ts n - ts 0| := (by have := mesh_mono hmesh hi le_rfl; linarith : ts (i + 1) - ts 0 ≤ ts n - ts 0).trans (le_abs_self _)
  rw [mul_assoc (Real.exp _)]
  have e1 : Real.exp (2 * (size t c * L) * (ts (i + 1) - ts 0)) ≤ Real.exp (2 * (size t c * L) * |ts n - ts 0|) :=
    Real.exp_le_exp.mpr (mul_le_mul_of_nonneg_left t2 (by positivity))
  have hb : (1 + size t c) * M * h ^ p * (ts (i + 1) - ts 0) ≤ (1 + size t c) * M * h ^ p * |ts n - ts 0| := mul_le_mul_of_nonneg_left t2 (by positivity)
  refine mul_le_mul e1 ?_ (by positivity) (Real.exp_pos _).le
  have n0 := norm_nonneg (x 0 - X (ts 0))
  have p1 : 0 ≤ (1 + size t c) * M * |ts n - ts 0| * ‖x 0 - X (ts 0)‖ := by positivity
  have p2 : 0 ≤ h ^ p := by positivity
  nlinarith

/-- The constraints are stable: two points that satisfy them and start close stay close, on every mesh whose steps are small against the Lipschitz
constant. In particular there is at most one from a given start. -/
theorem C91_stable (ht : makeTranscription name kwargs = .ok t) :
    ∃ K, 0 ≤ K ∧ ∀ (d n : Nat) (ts : Nat → ℝ) (h : ℝ), MeshWithin n ts h → ∀ (F : ℝ → (Fin d → ℝ) → Fin d → ℝ) (x xd y yd : Nat → Fin d → ℝ),
      Discrete t n ts F x xd → Discrete t n ts F y yd → ∀ L, 0 ≤ L → (∀ i, i < n → ∀ j, j < t.stages →
        ‖F (time t ts i j) (x (i * (t.stages - 1) + j)) - F (time t ts i j) (y (i * (t.stages - 1) + j))‖ ≤
          L * ‖x (i * (t.stages - 1) + j) - y (i * (t.stages - 1) + j)‖) →
      2 * (K * L * h) ≤ 1 →
      ∀ i, i < n → ∀ j, j < t.stages → ‖x (i * (t.stages - 1) + j) - y (i * (t.stages - 1) + j)‖ ≤
        Real.exp (2 * (K * L) * (ts (i + 1) - ts 0)) * ‖x 0 - y 0‖ := by
  obtain ⟨a, ha⟩ := C91_runge_kutta ht
  exact ⟨size t a, size_nonneg t a, fun d n ts h hmesh F x xd y yd hx hy L hL0 hL hs => stable ht ha hmesh hx hy hL0 hL hs⟩

/-- From every start there is exactly one trajectory that satisfies the constraints, on every mesh whose steps are small against the Lipschitz
constant of the dynamics. -/
theorem C91_exists_unique (ht : makeTranscription name kwargs = .ok t) :
    ∃ K, 0 ≤ K ∧ ∀ (d n : Nat) (ts : Nat → ℝ) (h : ℝ), MeshWithin n ts h → ∀ (F : ℝ → (Fin d → ℝ) → Fin d → ℝ) (L : ℝ),
      LipschitzAll F (ts 0) (ts n) L → 2 * (K * L * h) ≤ 1 → ∀ x0 : Fin d → ℝ,
      (∃ x xd, Discrete t n ts F x xd ∧ x 0 = x0) ∧
      ∀ x xd y yd, Discrete t n ts F x xd → x 0 = x0 → Discrete t n ts F y yd → y 0 = x0 → ∀ s, s < n * (t.stages - 1) + 1 → x s = y s := by
  obtain ⟨a, ha⟩ := C91_runge_kutta ht
  have h2 := (C38_shapes ht).1
  refine ⟨size t a, size_nonneg t a, fun d n ts h hmesh F L hL hs x0 => ⟨exists_solution ht ha hmesh hL.1 hL.2 hs x0, ?_⟩⟩
  intro x xd y yd hx hx0 hy hy0 s hsn
  have main := stable ht ha hmesh hx hy hL.1 (fun i hi j hj => hL.2 _ (time_mem' ht hmesh hi hj) _ _) hs
  rw [hx0, hy0, sub_self, norm_zero] at main
  simp only [mul_zero] at main
  rcases Nat.eq_zero_or_pos n with rfl | hn
  · rw [show s = 0 by omega, hx0, hy0]
  · obtain ⟨i, j, hi, hj, rfl⟩ : ∃ i j, i < n ∧ j < t.stages ∧ s = i * (t.stages - 1) + j := by
      rcases Nat.lt_or_ge s (n * (t.stages - 1)) with hlt | hge
      · refine ⟨s / (t.stages - 1), s % (t.stages - 1), Nat.div_lt_of_lt_mul (by rwa [Nat.mul_comm]), ?_, ?_⟩
        · have := Nat.mod_lt s (show 0 < t.stages - 1 by omega); omega
        · rw [Nat.mul_comm, Nat.div_add_mod]
      · refine ⟨n - 1, t.stages - 1, by omega, by omega, ?_⟩
        have : n * (t.stages - 1) = (n - 1) * (t.stages - 1) + (t.stages - 1) := by
          rw [← Nat.succ_mul, Nat.succ_eq_add_one, Nat.sub_add_cancel hn]
        omega
    exact sub_eq_zero.mp (norm_le_zero_iff.mp (main i hi j hj))

/-- A number moved to the nearest one in `[-ρ, ρ]`. -/
noncomputable def clip (ρ z : ℝ) : ℝ := max (-ρ) (min z ρ)

theorem clip_abs {ρ : ℝ} (hρ : 0 ≤ ρ) (z : ℝ) : |clip ρ z| ≤ ρ := by
  unfold clip
  rw [abs_le]
  exact ⟨le_max_left _ _, max_le (by linarith) (min_le_right _ _)⟩

theorem clip_id {ρ z : ℝ} (h : |z| ≤ ρ) : clip ρ z = z := by
  rw [abs_le] at h
  unfold clip
  rw [min_eq_left h.2, max_eq_right h.1]

theorem clip_lip (ρ y z : ℝ) : |clip ρ y - clip ρ z| ≤ |y - z| := by
  unfold clip
  refine (abs_max_sub_max_le_max _ _ _ _).trans (max_le (by simp) ((abs_min_sub_min_le_max _ _ _ _).trans (max_le le_rfl (by simp))))

/-- On meshes that are fine enough the constraints have exactly one solution near a continuous trajectory, and it converges to it with the order of the
method. The dynamics only need to be Lipschitz near the trajectory. -/
theorem C91_near (ht : makeTranscription name kwargs = .ok t) {d : Nat} {F : ℝ → (Fin d → ℝ) → Fin d → ℝ} {X : ℝ → Fin d → ℝ} {a b : ℝ}
    (hX : Solves F X a b) {p : Nat} (hp1 : 1 ≤ p) (hp : p ≤ exactDegree name t.stages) (hsm : ∀ k, ContDiff ℝ (p + 1 : Nat) fun s => X s k) {ρ L : ℝ}
    (hρ : 0 < ρ) (hL : LipschitzNear F X a b ρ L) :
    ∃ C δ η, 0 ≤ C ∧ 0 < δ ∧ 0 < η ∧ ∀ (n : Nat) (ts : Nat → ℝ) (h : ℝ), Mesh n ts a b h → 0 ≤ h → h ≤ δ → ∀ x0 : Fin d → ℝ, ‖x0 - X a‖ ≤ η →
      ∃ x xd, Discrete t n ts F x xd ∧ x 0 = x0 ∧ Close t n ts x X ρ ∧ Close t n ts x X (C * (‖x0 - X a‖ + h ^ p)) ∧
        ∀ y yd, Discrete t n ts F y yd → y 0 = x0 → Close t n ts y X ρ → ∀ s, s < n * (t.stages - 1) + 1 → y s = x s := by
  -- dynamics that agree near the trajectory and are Lipschitz everywhere
  obtain ⟨G, hG⟩ : ∃ G : ℝ → (Fin d → ℝ) → Fin d → ℝ, ∀ s y, G s y = F s (fun k => X s k + clip ρ (y k - X s k)) := ⟨_, fun _ _ => rfl⟩
  have hGF : ∀ s y, ‖y - X s‖ ≤ ρ → G s y = F s y := by
    intro s y hy
    rw [hG]
    congr 1
    funext k
    rw [clip_id (z := y k - X s k) ((norm_le_pi_norm (y - X s) k).trans hy)]
    ring
  have hGX : Solves G X a b := by
    intro s hs
    rw [hGF s (X s) (by simp [hρ.le])]
    exact hX s hs
  have hGL : LipschitzAll G a b L := by
    refine ⟨hL.1, fun s hs y z => ?_⟩
    rw [hG, hG]
    have near : ∀ y : Fin d → ℝ, ‖(fun k => X s k + clip ρ (y k - X s k)) - X s‖ ≤ ρ := by
      intro y
      refine (pi_norm_le_iff_of_nonneg hρ.le).mpr fun k => ?_
      rw [Pi.sub_apply, add_sub_cancel_left]
      exact clip_abs hρ.le _
    refine (hL.2 s hs _ _ (near y) (near z)).trans (mul_le_mul_of_nonneg_left ?_ hL.1)
    refine (pi_norm_le_iff_of_nonneg (norm_nonneg _)).mpr fun k => ?_
    rw [Pi.sub_apply, add_sub_add_left_eq_sub]
    refine (clip_lip ρ _ _).trans ?_
    rw [sub_sub_sub_cancel_right]
    exact norm_le_pi_norm (y - z) k
  obtain ⟨K, hK, exu⟩ := C91_exists_unique ht
  -- the error bound for a solution of the changed dynamics
  obtain ⟨K', hK', conv⟩ := C91_converges ht
  obtain ⟨M, hM0, hM⟩ := bounded_deriv hsm a b
  set C := Real.exp (2 * (K' * L) * |b - a|) * (1 + (1 + K') * M * |b - a|) with hC
  have hC0 : 0 ≤ C := by positivity
  have hL0 := hL.1
  refine ⟨C, min 1 (min (1 / (2 * (K * L) + 1)) (min (1 / (2 * (K' * L) + 1)) (ρ / (2 * (C + 1))))), ρ / (2 * (C + 1)), hC0, by positivity, by positivity, ?_⟩
  rintro n ts h ⟨rfl, rfl, hmesh⟩ hh hδ x0 hx0
  have d1 : h ≤ 1 := hδ.trans (min_le_left _ _)
  have d2 : h ≤ 1 / (2 * (K * L) + 1) := hδ.trans ((min_le_right _ _).trans (min_le_left _ _))
  have d3 : h ≤ 1 / (2 * (K' * L) + 1) := hδ.trans ((min_le_right _ _).trans ((min_le_right _ _).trans (min_le_left _ _)))
  have d4 : h ≤ ρ / (2 * (C + 1)) := hδ.trans ((min_le_right _ _).trans ((min_le_right _ _).trans (min_le_right _ _)))
  have hs : 2 * (K * L * h) ≤ 1 := by
    rw [le_div_iff₀ (by positivity)] at d2
    nlinarith
  have hs' : 2 * (K' * L * h) ≤ 1 := by
    rw [le_div_iff₀ (by positivity)] at d3
    nlinarith
  obtain ⟨⟨x, xd, hx, hxs⟩, uniq⟩ := exu d n ts h hmesh G L hGL hs x0
  have hclose : Close t n ts x X (C * (‖x0 - X (ts 0)‖ + h ^ p)) := by
    intro i hi j hj
    have main := conv d n ts h hmesh G x xd hx X hGX p hp hsm M hM0 hM L hL0 (fun i hi j hj => hGL.2 _ (time_mem' ht hmesh hi hj) _ _) hs' i hi j hj
    rw [hxs] at main
    refine main.trans ?_
    have t1 : 0 ≤ ts (i + 1) - ts 0 := sub_nonneg.mpr (mesh_mono hmesh (Nat.zero_le _) hi)
    have t2 : ts (i + 1) - ts 0 ≤ |ts n - ts 0| :=
      (by have := mesh_mono hmesh hi le_rfl; linarith : ts (i + 1) - ts 0 ≤ ts n - ts 0).trans (le_abs_self _)
    rw [hC, mul_assoc (Real.exp _)]
    have e1 : Real.exp (2 * (K' * L) * (ts (i + 1) - ts 0)) ≤ Real.exp (2 * (K' * L) * |ts n - ts 0|) :=
      Real.exp_le_exp.mpr (mul_le_mul_of_nonneg_left t2 (by positivity))
    have hb : (1 + K') * M * h ^ p * (ts (i + 1) - ts 0) ≤ (1 + K') * M * h ^ p * |ts n - ts 0| := mul_le_mul_of_nonneg_left t2 (by positivity)
    refine mul_le_mul e1 ?_ (by positivity) (Real.exp_pos _).le
    have p1 : 0 ≤ (1 + K') * M * |ts n - ts 0| * ‖x0 - X (ts 0)‖ := by positivity
    have p2 : 0 ≤ h ^ p := by positivity
    nlinarith
  have hsmall : C * (‖x0 - X (ts 0)‖ + h ^ p) ≤ ρ := by
    have hp' : h ^ p ≤ h := pow_le_of_le_one hh d1 (by omega)
    have : ‖x0 - X (ts 0)‖ + h ^ p ≤ ρ / (C + 1) := by
      have : ρ / (C + 1) = ρ / (2 * (C + 1)) + ρ / (2 * (C + 1)) := by field_simp; ring
      rw [this]
      linarith
    calc C * (‖x0 - X (ts 0)‖ + h ^ p) ≤ C * (ρ / (C + 1)) := mul_le_mul_of_nonneg_left this hC0
      _ = C / (C + 1) * ρ := by ring
      _ ≤ 1 * ρ := mul_le_mul_of_nonneg_right ((div_le_one (by positivity)).mpr (by linarith)) hρ.le
      _ = ρ := one_mul ρ
  have hcl : Close t n ts x X ρ := fun i hi j hj => (hclose i hi j hj).trans hsmall
  refine ⟨x, xd, ⟨hx.steps, fun i hi j hj => ?_⟩, hxs, hcl, hclose, ?_⟩
  · rw [← hGF _ _ (hcl i hi j hj)]
    exact hx.dyn i hi j hj
  · intro y yd hy hy0 hyc s hsn
    exact uniq y yd x xd ⟨hy.steps, fun i hi j hj => by rw [hGF _ _ (hyc i hi j hj)]; exact hy.dyn i hi j hj⟩ hy0 hx hxs s hsn

end

end Lumos.Order
