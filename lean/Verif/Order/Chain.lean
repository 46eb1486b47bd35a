import Verif.Order.Converge
import Mathlib.Topology.MetricSpace.Contracting
import Mathlib.Topology.Order.Compact
import Mathlib.Analysis.Calculus.Deriv.Prod
/-!
# Convergence, stability, existence and uniqueness over a whole mesh (C91)
-/

namespace Lumos.Order

open Lumos Lumos.Trans

/-! ### Specification -/

/-- The time of stage `j` of interval `i` of a mesh with the points `ts`. -/
noncomputable def time (t : Transcription) (ts : Nat → ℝ) (i j : Nat) : ℝ := ts i + (ts (i + 1) - ts i) * t.tau j

/-- The stages `x` with derivatives `xd` satisfy the continuity constraints on all `n` intervals of the mesh and the differential equation
`x' = F(t, x)` at all stages. Stage `j` of interval `i` has the number `i * (stages - 1) + j`. -/
structure Discrete (t : Transcription) {d : Nat} (n : Nat) (ts : Nat → ℝ) (F : ℝ → (Fin d → ℝ) → Fin d → ℝ) (x xd : Nat → Fin d → ℝ) : Prop where
  steps : ∀ i, i < n → ∀ k, Steps t (fun j => x (i * (t.stages - 1) + j) k) (fun j => xd (i * (t.stages - 1) + j) k) (ts (i + 1) - ts i)
  dyn : ∀ i, i < n → ∀ j, j < t.stages → xd (i * (t.stages - 1) + j) = F (time t ts i j) (x (i * (t.stages - 1) + j))

/-- The steps of the mesh are at most `h`. -/
def MeshWithin (n : Nat) (ts : Nat → ℝ) (h : ℝ) : Prop := ∀ i, i < n → ts i ≤ ts (i + 1) ∧ ts (i + 1) - ts i ≤ h

/-- `X` is a solution of the differential equation from `a` to `b`. -/
def Solves {d : Nat} (F : ℝ → (Fin d → ℝ) → Fin d → ℝ) (X : ℝ → Fin d → ℝ) (a b : ℝ) : Prop := ∀ s ∈ Set.Icc a b, HasDerivAt X (F s (X s)) s

/-! ### Lemmas -/

theorem mesh_mono {n : Nat} {ts : Nat → ℝ} {h : ℝ} (hm : MeshWithin n ts h) : ∀ {i j : Nat}, i ≤ j → j ≤ n → ts i ≤ ts j := by
  intro i j hij hj
  induction j, hij using Nat.le_induction with
  | base => exact le_rfl
  | succ j hij ih => exact (ih (by omega)).trans (hm j (by omega)).1

theorem time_mem {name : String} {kwargs : List (String × Int)} {t : Transcription} (ht : makeTranscription name kwargs = .ok t) {n : Nat}
    {ts : Nat → ℝ} {h : ℝ} (hm : MeshWithin n ts h) {i j : Nat} (hi : i < n) (hj : j < t.stages) :
    time t ts i j ∈ Set.Icc (ts i) (ts (i + 1)) := by
  obtain ⟨h0, h1⟩ := tau_mem ht hj
  have := (hm i hi).1
  unfold time
  constructor <;> nlinarith

theorem time_mem' {name : String} {kwargs : List (String × Int)} {t : Transcription} (ht : makeTranscription name kwargs = .ok t) {n : Nat}
    {ts : Nat → ℝ} {h : ℝ} (hm : MeshWithin n ts h) {i j : Nat} (hi : i < n) (hj : j < t.stages) : time t ts i j ∈ Set.Icc (ts 0) (ts n) := by
  obtain ⟨h0, h1⟩ := time_mem ht hm hi hj
  exact ⟨(mesh_mono hm (Nat.zero_le _) hi.le).trans h0, h1.trans (mesh_mono hm hi le_rfl)⟩

/-- A bound that is multiplied and added to on every interval. -/
theorem chain {m n : Nat} (hm : 2 ≤ m) {ts : Nat → ℝ} {h q c : ℝ} {p : Nat} (hq : 0 ≤ q) (hc : 0 ≤ c) (hmesh : MeshWithin n ts h) (ε : Nat → ℝ)
    (hstep : ∀ i, i < n → ∀ j, j < m → ε (i * (m - 1) + j) ≤
      Real.exp (q * (ts (i + 1) - ts i)) * (ε (i * (m - 1)) + c * (ts (i + 1) - ts i) ^ (p + 1))) :
    ∀ i, i < n → ∀ j, j < m → ε (i * (m - 1) + j) ≤ Real.exp (q * (ts (i + 1) - ts 0)) * (ε 0 + c * h ^ p * (ts (i + 1) - ts 0)) := by
  have next : ∀ i, i < n → ε (i * (m - 1)) ≤ Real.exp (q * (ts i - ts 0)) * (ε 0 + c * h ^ p * (ts i - ts 0)) → ∀ j, j < m →
      ε (i * (m - 1) + j) ≤ Real.exp (q * (ts (i + 1) - ts 0)) * (ε 0 + c * h ^ p * (ts (i + 1) - ts 0)) := by
    intro i hi hb j hj
    obtain ⟨k0, k1⟩ := hmesh i hi
    have hs0 : 0 ≤ ts (i + 1) - ts i := by linarith
    have hh : 0 ≤ h := hs0.trans k1
    have t0 : 0 ≤ ts i - ts 0 := sub_nonneg.mpr (mesh_mono hmesh (Nat.zero_le _) hi.le)
    have pw : (ts (i + 1) - ts i) ^ (p + 1) ≤ h ^ p * (ts (i + 1) - ts i) := by
      rw [pow_succ]
      exact mul_le_mul_of_nonneg_right (pow_le_pow_left₀ hs0 k1 _) hs0
    have ex1 : 1 ≤ Real.exp (q * (ts i - ts 0)) := Real.one_le_exp (mul_nonneg hq t0)
    refine (hstep i hi j hj).trans ?_
    rw [show q * (ts (i + 1) - ts 0) = q * (ts (i + 1) - ts i) + q * (ts i - ts 0) by ring, Real.exp_add, mul_assoc]
    refine mul_le_mul_of_nonneg_left ?_ (Real.exp_pos _).le
    have w : 0 ≤ c * (h ^ p * (ts (i + 1) - ts i)) := by positivity
    calc ε (i * (m - 1)) + c * (ts (i + 1) - ts i) ^ (p + 1)
        ≤ Real.exp (q * (ts i - ts 0)) * (ε 0 + c * h ^ p * (ts i - ts 0)) + c * (h ^ p * (ts (i + 1) - ts i)) :=
          add_le_add hb (mul_le_mul_of_nonneg_left pw hc)
      _ ≤ Real.exp (q * (ts i - ts 0)) * (ε 0 + c * h ^ p * (ts i - ts 0)) + Real.exp (q * (ts i - ts 0)) * (c * (h ^ p * (ts (i + 1) - ts i))) :=
          add_le_add le_rfl (le_mul_of_one_le_left w ex1)
      _ = _ := by ring
  have first : ∀ i, i ≤ n → ε (i * (m - 1)) ≤ Real.exp (q * (ts i - ts 0)) * (ε 0 + c * h ^ p * (ts i - ts 0)) := by
    intro i
    induction i with
    | zero => intro _; simp
    | succ i ih =>
      intro hi
      have := next i (by omega) (ih (by omega)) (m - 1) (by omega)
      rwa [show i * (m - 1) + (m - 1) = (i + 1) * (m - 1) by ring] at this
  exact fun i hi j hj => next i hi (first i hi.le) j hj

/-! ### Convergence -/

theorem converges {name : String} {kwargs : List (String × Int)} {t : Transcription} (ht : makeTranscription name kwargs = .ok t)
    {a : Nat → Nat → ℝ} (ha : Tableau t a) {d n : Nat} {ts : Nat → ℝ} {h : ℝ} (hmesh : MeshWithin n ts h)
    {F : ℝ → (Fin d → ℝ) → Fin d → ℝ} {x xd : Nat → Fin d → ℝ} (hx : Discrete t n ts F x xd) {X : ℝ → Fin d → ℝ} (hX : Solves F X (ts 0) (ts n))
    {p : Nat} (hp : p ≤ exactDegree name t.stages) (hsm : ∀ k, ContDiff ℝ (p + 1 : Nat) fun s => X s k) {M : ℝ}
    (hM : ∀ k, ∀ s ∈ Set.Icc (ts 0) (ts n), |iteratedDeriv (p + 1) (fun s => X s k) s| ≤ M) (hM0 : 0 ≤ M) {L : ℝ} (hL0 : 0 ≤ L)
    (hL : ∀ i, i < n → ∀ j, j < t.stages → ‖F (time t ts i j) (x (i * (t.stages - 1) + j)) - F (time t ts i j) (X (time t ts i j))‖ ≤
      L * ‖x (i * (t.stages - 1) + j) - X (time t ts i j)‖) (hs : 2 * (size t a * L * h) ≤ 1) :
    ∀ i, i < n → ∀ j, j < t.stages → ‖x (i * (t.stages - 1) + j) - X (time t ts i j)‖ ≤
      Real.exp (2 * (size t a * L) * (ts (i + 1) - ts 0)) * (‖x 0 - X (ts 0)‖ + (1 + size t a) * M * h ^ p * (ts (i + 1) - ts 0)) := by
  have h2 := (C38_shapes ht).1
  have hK := size_nonneg t a
  -- the error at the stage with a given number
  obtain ⟨ε, hε⟩ : ∃ ε : Nat → ℝ, ∀ s, ε s = ‖x s - X (time t ts (s / (t.stages - 1)) (s % (t.stages - 1)))‖ := ⟨_, fun _ => rfl⟩
  have hend : ∀ i, time t ts i (t.stages - 1) = time t ts (i + 1) 0 := by
    intro i
    simp only [time, tau_last ht, tau_zero ht]
    ring
  have hεij : ∀ i j, j < t.stages → ε (i * (t.stages - 1) + j) = ‖x (i * (t.stages - 1) + j) - X (time t ts i j)‖ := by
    intro i j hj
    rw [hε]
    rcases Nat.lt_or_ge j (t.stages - 1) with hlt | hge
    · rw [Nat.mul_add_mod_self_right, Nat.mod_eq_of_lt hlt, Nat.add_comm (i * _), Nat.add_mul_div_right _ _ (by omega), Nat.div_eq_of_lt hlt,
        Nat.zero_add]
    · have : j = t.stages - 1 := by omega
      subst this
      rw [hend i, show i * (t.stages - 1) + (t.stages - 1) = (i + 1) * (t.stages - 1) by ring, Nat.mul_mod_left,
        Nat.mul_div_cancel _ (by omega)]
  have ht0 : ∀ i, time t ts i 0 = ts i := fun i => by simp [time, tau_zero ht]
  have main := chain (m := t.stages) (n := n) h2 (ts := ts) (h := h) (q := 2 * (size t a * L)) (c := (1 + size t a) * M) (p := p)
    (by positivity) (by positivity) hmesh ε ?_
  · intro i hi j hj
    have := main i hi j hj
    rw [hεij i j hj] at this
    have e0 : ε 0 = ‖x 0 - X (ts 0)‖ := by
      have := hεij 0 0 (by omega)
      simpa [ht0] using this
    rwa [e0] at this
  · intro i hi j hj
    obtain ⟨k0, k1⟩ := hmesh i hi
    have hh : 0 ≤ ts (i + 1) - ts i := by linarith
    have hin : ∀ s ∈ Set.Icc (ts i) (ts i + (ts (i + 1) - ts i)), s ∈ Set.Icc (ts 0) (ts n) := by
      intro s hs
      rw [add_sub_cancel] at hs
      exact ⟨(mesh_mono hmesh (Nat.zero_le _) hi.le).trans hs.1, hs.2.trans (mesh_mono hmesh hi le_rfl)⟩
    have hder : ∀ j', j' < t.stages → ∀ k, deriv (fun s => X s k) (time t ts i j') = F (time t ts i j') (X (time t ts i j')) k := by
      intro j' hj' k
      exact ((hasDerivAt_pi.mp (hX _ (time_mem' ht hmesh hi hj'))) k).deriv
    have g := grow_step (t := t) (a := a) (by omega) (fun j => x (i * (t.stages - 1) + j) - X (time t ts i j))
      (fun j => F (time t ts i j) (x (i * (t.stages - 1) + j)) - F (time t ts i j) (X (time t ts i j)))
      (fun j k => -(X (time t ts i j) k - X (ts i) k - (ts (i + 1) - ts i) * ∑ j' ∈ Finset.range t.stages, a j j' * deriv (fun s => X s k) (time t ts i j')))
      (h := ts (i + 1) - ts i) (L := L) (c := (1 + size t a) * M * (ts (i + 1) - ts i) ^ (p + 1)) hh hL0 (by positivity) ?_ (hL i hi) ?_ ?_ j hj
    · rw [hεij i j hj]
      have e0 := hεij i 0 (by omega)
      rw [Nat.add_zero] at e0
      rw [e0]
      rw [show 2 * (size t a * L) * (ts (i + 1) - ts i) = 2 * (size t a * L * (ts (i + 1) - ts i)) by ring]
      exact g
    · intro j hj k
      have e := (ha.iff _ _ _).mp (hx.steps i hi k) j hj
      have e' : ∑ j' ∈ Finset.range t.stages, a j j' * xd (i * (t.stages - 1) + j') k =
          ∑ j' ∈ Finset.range t.stages, a j j' * F (time t ts i j') (x (i * (t.stages - 1) + j')) k :=
        Finset.sum_congr rfl fun j' hj' => by rw [hx.dyn i hi j' (Finset.mem_range.mp hj')]
      have e'' : ∑ j' ∈ Finset.range t.stages, a j j' * deriv (fun s => X s k) (time t ts i j') =
          ∑ j' ∈ Finset.range t.stages, a j j' * F (time t ts i j') (X (time t ts i j')) k :=
        Finset.sum_congr rfl fun j' hj' => by rw [hder j' (Finset.mem_range.mp hj') k]
      rw [e'] at e
      rw [e'']
      simp only [Pi.sub_apply, mul_sub, Finset.sum_sub_distrib, ht0]
      linarith
    · intro j hj k
      rw [abs_neg]
      exact ha.defect ht hp (hsm k) hh (fun s hs => hM k s (hin s hs)) hj
    · have : size t a * L * (ts (i + 1) - ts i) ≤ size t a * L * h := mul_le_mul_of_nonneg_left k1 (by positivity)
      linarith

end Lumos.Order
