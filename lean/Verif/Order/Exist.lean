import Verif.Order.Chain
/-!
# Convergence of the discretised dynamics: order, stability, existence and uniqueness (C91)
-/

namespace Lumos.Order

open Lumos Lumos.Trans

section

variable {name : String} {kwargs : List (String × Int)} {t : Transcription}

/-- Stage `j` of interval `i` by its number. -/
theorem at_number (h2 : 2 ≤ t.stages) {α : Type} (f : Nat → Nat → α) (hend : ∀ i, f i (t.stages - 1) = f (i + 1) 0) (i : Nat) {j : Nat}
    (hj : j < t.stages) : f ((i * (t.stages - 1) + j) / (t.stages - 1)) ((i * (t.stages - 1) + j) % (t.stages - 1)) = f i j := by
  rcases Nat.lt_or_ge j (t.stages - 1) with hlt | hge
  · rw [Nat.mul_add_mod_self_right, Nat.mod_eq_of_lt hlt, Nat.add_comm (i * _), Nat.add_mul_div_right _ _ (by omega), Nat.div_eq_of_lt hlt,
      Nat.zero_add]
  · have : j = t.stages - 1 := by omega
    subst this
    rw [hend i, show i * (t.stages - 1) + (t.stages - 1) = (i + 1) * (t.stages - 1) by ring, Nat.mul_mod_left, Nat.mul_div_cancel _ (by omega)]

theorem time_end (ht : makeTranscription name kwargs = .ok t) (ts : Nat → ℝ) (i : Nat) : time t ts i (t.stages - 1) = time t ts (i + 1) 0 := by
  simp only [time, tau_last ht, tau_zero ht]
  ring

/-! ### Two discrete solutions -/

theorem stable (ht : makeTranscription name kwargs = .ok t) {a : Nat → Nat → ℝ} (ha : Tableau t a) {d n : Nat} {ts : Nat → ℝ} {h : ℝ}
    (hmesh : MeshWithin n ts h) {F : ℝ → (Fin d → ℝ) → Fin d → ℝ} {x xd y yd : Nat → Fin d → ℝ} (hx : Discrete t n ts F x xd)
    (hy : Discrete t n ts F y yd) {L : ℝ} (hL0 : 0 ≤ L)
    (hL : ∀ i, i < n → ∀ j, j < t.stages → ‖F (time t ts i j) (x (i * (t.stages - 1) + j)) - F (time t ts i j) (y (i * (t.stages - 1) + j))‖ ≤
      L * ‖x (i * (t.stages - 1) + j) - y (i * (t.stages - 1) + j)‖) (hs : 2 * (size t a * L * h) ≤ 1) :
    ∀ i, i < n → ∀ j, j < t.stages → ‖x (i * (t.stages - 1) + j) - y (i * (t.stages - 1) + j)‖ ≤
      Real.exp (2 * (size t a * L) * (ts (i + 1) - ts 0)) * ‖x 0 - y 0‖ := by
  have h2 := (C38_shapes ht).1
  have hK := size_nonneg t a
  have main := chain (m := t.stages) (n := n) h2 (ts := ts) (h := h) (q := 2 * (size t a * L)) (c := 0) (p := 0) (by positivity) le_rfl hmesh
    (fun s => ‖x s - y s‖) ?_
  · intro i hi j hj
    have := main i hi j hj
    simpa using this
  · intro i hi j hj
    obtain ⟨k0, k1⟩ := hmesh i hi
    have hh : 0 ≤ ts (i + 1) - ts i := by linarith
    have g := grow_step (t := t) (a := a) (by omega) (fun j => x (i * (t.stages - 1) + j) - y (i * (t.stages - 1) + j))
      (fun j => F (time t ts i j) (x (i * (t.stages - 1) + j)) - F (time t ts i j) (y (i * (t.stages - 1) + j)))
      (fun _ _ => 0) (h := ts (i + 1) - ts i) (L := L) (c := 0) hh hL0 le_rfl ?_ (hL i hi) ?_ ?_ j hj
    · rw [zero_mul, show 2 * (size t a * L) * (ts (i + 1) - ts i) = 2 * (size t a * L * (ts (i + 1) - ts i)) by ring]
      exact g
    · intro j hj k
      have e := (ha.iff _ _ _).mp (hx.steps i hi k) j hj
      have e1 := (ha.iff _ _ _).mp (hy.steps i hi k) j hj
      have e' : ∑ j' ∈ Finset.range t.stages, a j j' * xd (i * (t.stages - 1) + j') k =
          ∑ j' ∈ Finset.range t.stages, a j j' * F (time t ts i j') (x (i * (t.stages - 1) + j')) k :=
        Finset.sum_congr rfl fun j' hj' => by rw [hx.dyn i hi j' (Finset.mem_range.mp hj')]
      have e1' : ∑ j' ∈ Finset.range t.stages, a j j' * yd (i * (t.stages - 1) + j') k =
          ∑ j' ∈ Finset.range t.stages, a j j' * F (time t ts i j') (y (i * (t.stages - 1) + j')) k :=
        Finset.sum_congr rfl fun j' hj' => by rw [hy.dyn i hi j' (Finset.mem_range.mp hj')]
      rw [e'] at e
      rw [e1'] at e1
      simp only [Pi.sub_apply, mul_sub, Finset.sum_sub_distrib]
      linarith
    · intro j hj k
      simp
    · have : size t a * L * (ts (i + 1) - ts i) ≤ size t a * L * h := mul_le_mul_of_nonneg_left k1 (by positivity)
      linarith

/-! ### Existence -/

/-- The stages of one interval. -/
theorem one_interval {a : Nat → Nat → ℝ} (ha0 : ∀ j', a 0 j' = 0) {d : Nat} (G : Nat → (Fin d → ℝ) → Fin d → ℝ) {h L : ℝ} (hh : 0 ≤ h) (hL0 : 0 ≤ L)
    (hL : ∀ j, j < t.stages → ∀ y z, ‖G j y - G j z‖ ≤ L * ‖y - z‖) (hs : 2 * (size t a * L * h) ≤ 1) (v : Fin d → ℝ) :
    ∃ Y : Nat → Fin d → ℝ, Y 0 = v ∧ ∀ j, j < t.stages → ∀ k, Y j k = v k + h * ∑ j' ∈ Finset.range t.stages, a j j' * G j' (Y j') k := by
  let Φ : (Fin t.stages → Fin d → ℝ) → Fin t.stages → Fin d → ℝ := fun Y j k => v k + h * ∑ j' : Fin t.stages, a j j' * G j' (Y j') k
  have hK := size_nonneg t a
  have lip : ContractingWith (1 / 2) Φ := by
    refine ⟨by rw [← NNReal.coe_lt_coe]; norm_num, LipschitzWith.of_dist_le_mul fun Y Z => ?_⟩
    rw [dist_eq_norm, dist_eq_norm]
    refine (pi_norm_le_iff_of_nonneg (by positivity)).mpr fun j => (pi_norm_le_iff_of_nonneg (by positivity)).mpr fun k => ?_
    have e : (Φ Y - Φ Z) j k = h * ∑ j' ∈ Finset.range t.stages, a j j' *
        (if hj' : j' < t.stages then G j' (Y ⟨j', hj'⟩) k - G j' (Z ⟨j', hj'⟩) k else 0) := by
      rw [Finset.sum_range]
      simp only [Φ, Pi.sub_apply, Fin.is_lt, dite_true, Fin.eta, mul_sub, Finset.sum_sub_distrib]
      ring
    rw [e, Real.norm_eq_abs, abs_mul, abs_of_nonneg hh]
    have r := row_le t a j.isLt (fun j' => if hj' : j' < t.stages then G j' (Y ⟨j', hj'⟩) k - G j' (Z ⟨j', hj'⟩) k else 0) (c := L * ‖Y - Z‖)
      (by positivity) (fun j' hj' => by
        simp only [hj', dite_true]
        refine (norm_le_pi_norm (G j' (Y ⟨j', hj'⟩) - G j' (Z ⟨j', hj'⟩)) k).trans ((hL j' hj' _ _).trans ?_)
        exact mul_le_mul_of_nonneg_left (norm_le_pi_norm (Y - Z) ⟨j', hj'⟩) hL0)
    refine (mul_le_mul_of_nonneg_left r hh).trans ?_
    have : h * (size t a * (L * ‖Y - Z‖)) = (size t a * L * h) * ‖Y - Z‖ := by ring
    rw [this]
    refine mul_le_mul_of_nonneg_right ?_ (norm_nonneg _)
    push_cast
    linarith
  obtain ⟨Y, hY, -⟩ := lip.exists_fixedPoint (fun _ _ => 0) (edist_ne_top _ _)
  have val : ∀ j (hj : j < t.stages) k, Y ⟨j, hj⟩ k = v k + h * ∑ j' : Fin t.stages, a j j' * G j' (Y j') k := by
    intro j hj k
    conv_lhs => rw [← hY]
  refine ⟨fun j => if hj : j < t.stages then Y ⟨j, hj⟩ else v, ?_, ?_⟩
  · by_cases h0 : 0 < t.stages
    · simp only [h0, dite_true]
      funext k
      rw [val 0 h0 k]
      simp [ha0]
    · simp [h0]
  · intro j hj k
    simp only [hj, dite_true]
    rw [val j hj k, Finset.sum_range]
    simp

/-- Intervals put together. -/
theorem exists_of_intervals (ht : makeTranscription name kwargs = .ok t) {a : Nat → Nat → ℝ} (ha : Tableau t a) {d n : Nat} {ts : Nat → ℝ}
    {F : ℝ → (Fin d → ℝ) → Fin d → ℝ} (hint : ∀ i, i < n → ∀ v : Fin d → ℝ, ∃ Y : Nat → Fin d → ℝ, Y 0 = v ∧ ∀ j, j < t.stages → ∀ k,
      Y j k = v k + (ts (i + 1) - ts i) * ∑ j' ∈ Finset.range t.stages, a j j' * F (time t ts i j') (Y j') k) (x0 : Fin d → ℝ) :
    ∃ x xd, Discrete t n ts F x xd ∧ x 0 = x0 := by
  have h2 := (C38_shapes ht).1
  have ex : ∀ i (v : Fin d → ℝ), ∃ Y : Nat → Fin d → ℝ, Y 0 = v ∧ (i < n → ∀ j, j < t.stages → ∀ k,
      Y j k = v k + (ts (i + 1) - ts i) * ∑ j' ∈ Finset.range t.stages, a j j' * F (time t ts i j') (Y j') k) := by
    intro i v
    by_cases hi : i < n
    · obtain ⟨Y, hY0, hY⟩ := hint i hi v
      exact ⟨Y, hY0, fun _ => hY⟩
    · exact ⟨fun _ => v, rfl, fun h => absurd h hi⟩
  choose Y hY0 hY using ex
  let st : Nat → Fin d → ℝ := fun i => Nat.rec x0 (fun i v => Y i v (t.stages - 1)) i
  have hst : ∀ i, st (i + 1) = Y i (st i) (t.stages - 1) := fun _ => rfl
  have hend : ∀ i, Y i (st i) (t.stages - 1) = Y (i + 1) (st (i + 1)) 0 := fun i => by rw [hY0, hst]
  let x : Nat → Fin d → ℝ := fun s => Y (s / (t.stages - 1)) (st (s / (t.stages - 1))) (s % (t.stages - 1))
  have hx : ∀ i j, j < t.stages → x (i * (t.stages - 1) + j) = Y i (st i) j := fun i j hj => at_number h2 (fun i j => Y i (st i) j) hend i hj
  have ht' : ∀ i j, j < t.stages → time t ts ((i * (t.stages - 1) + j) / (t.stages - 1)) ((i * (t.stages - 1) + j) % (t.stages - 1)) = time t ts i j :=
    fun i j hj => at_number h2 (time t ts) (time_end ht ts) i hj
  refine ⟨x, fun s => F (time t ts (s / (t.stages - 1)) (s % (t.stages - 1))) (x s), ⟨?_, ?_⟩, ?_⟩
  · intro i hi k
    refine (ha.iff _ _ _).mpr fun j hj => ?_
    rw [hx i j hj, hx i 0 (by omega), hY0, hY i (st i) hi j hj k]
    congr 2
    refine Finset.sum_congr rfl fun j' hj' => ?_
    rw [Finset.mem_range] at hj'
    rw [ht' i j' hj', hx i j' hj']
  · intro i hi j hj
    show F (time t ts _ _) _ = _
    rw [ht' i j hj]
  · have := hx 0 0 (by omega)
    rw [Nat.zero_mul, Nat.add_zero, hY0] at this
    exact this

theorem exists_solution (ht : makeTranscription name kwargs = .ok t) {a : Nat → Nat → ℝ} (ha : Tableau t a) {d n : Nat} {ts : Nat → ℝ} {h : ℝ}
    (hmesh : MeshWithin n ts h) {F : ℝ → (Fin d → ℝ) → Fin d → ℝ} {L : ℝ} (hL0 : 0 ≤ L)
    (hL : ∀ s ∈ Set.Icc (ts 0) (ts n), ∀ y z, ‖F s y - F s z‖ ≤ L * ‖y - z‖) (hs : 2 * (size t a * L * h) ≤ 1) (x0 : Fin d → ℝ) :
    ∃ x xd, Discrete t n ts F x xd ∧ x 0 = x0 := by
  have hK := size_nonneg t a
  refine exists_of_intervals ht ha (fun i hi v => ?_) x0
  obtain ⟨k0, k1⟩ := hmesh i hi
  exact one_interval (t := t) ha.first (fun j => F (time t ts i j)) (h := ts (i + 1) - ts i) (by linarith) hL0
    (fun j hj => hL _ (time_mem' ht hmesh hi hj))
    (by have : size t a * L * (ts (i + 1) - ts i) ≤ size t a * L * h := mul_le_mul_of_nonneg_left k1 (by positivity)
        linarith) v

end

end Lumos.Order
