import Verif.Trans.Rule
import Verif.Ocp.BuildMore
/-!
# C76 for a whole problem
-/

namespace Lumos.Trans

open Polynomial Lumos Lumos.Ocp DecVar DecVar.Layout

theorem telescope (N k : Nat) (v : Nat → ℝ) : v (N * k) - v 0 = ∑ i ∈ Finset.range N, (v (i * k + k) - v (i * k)) := by
  have := Finset.sum_range_sub (fun i => v (i * k)) N
  rw [zero_mul] at this
  rw [← this]
  refine Finset.sum_congr rfl fun i _ => ?_
  rw [Nat.succ_mul]

/-- **C76 (problem)**: at a solution of the discretised problem every state changes from the first to the last stage by the mesh scale
times the sum over the intervals of the interval length times the weighted mean of its derivatives at the stages. -/
theorem C76_problem {name : String} {kwargs : List (String × Int)} {t : Transcription} (ht : makeTranscription name kwargs = .ok t) :
    ∃ w : Nat → ℝ, IsRule t w (quadDegree name t.stages) ∧
      ∀ (S : Setup), Uses S.c.o t → ∀ x : List ℝ, IsSolution S x → ∀ (k : Nat) (n nd : String),
        (S.c.o.L.namesOf "states")[k]? = some n → (S.c.o.L.namesOf "states_dot")[k]? = some nd →
        readAt S.c.o.L x "states" n (S.c.o.L.numStages - 1) - readAt S.c.o.L x "states" n 0
          = readScale S.c.o x * ∑ i ∈ Finset.range S.c.o.L.numIntervals, S.c.o.normLen.getD i 0 *
            ∑ j ∈ Finset.range t.stages, w j * readAt S.c.o.L x "states_dot" nd (i * (t.stages - 1) + j) := by
  obtain ⟨w, hw, hstep⟩ := rule_exists ht
  refine ⟨w, hw, fun S hu x hx k n nd hn hnd => ?_⟩
  have e : S.c.o.L.numStages - 1 = S.c.o.L.numIntervals * (t.stages - 1) := by
    rw [← hu.stages]; unfold numStages; omega
  rw [e, telescope _ _ fun s => readAt S.c.o.L x "states" n s, Finset.mul_sum]
  refine Finset.sum_congr rfl fun i hi => ?_
  have := hstep (fun j => readAt S.c.o.L x "states" n (i * (t.stages - 1) + j))
    (fun j => readAt S.c.o.L x "states_dot" nd (i * (t.stages - 1) + j)) (S.c.o.normLen.getD i 0 * readScale S.c.o x) (by
      intro l hl
      have := hx.defects i l k (Finset.mem_range.mp hi) (by rw [hu.stages]; exact hl) n nd hn hnd
      simp only [hu.matA, hu.matB, hu.stages] at this
      exact this)
  rw [add_zero] at this
  rw [this]
  ring

/-- **C76 (rates over the problem)**: if the derivative of a state is between `lo` and `hi` at every stage of a solution, its change
from the first to the last stage is between `T lo` and `T hi`, where `T` is the mesh scale times the sum of the interval lengths. -/
theorem C76_problem_rate {name : String} {kwargs : List (String × Int)} {t : Transcription} (ht : makeTranscription name kwargs = .ok t)
    {S : Setup} (hu : Uses S.c.o t) (hlen : S.c.o.normLen.length = S.c.o.L.numIntervals) (hpos : ∀ l ∈ S.c.o.normLen, 0 ≤ l)
    {x : List ℝ} (hx : IsSolution S x) (hms : 0 ≤ readScale S.c.o x) {k : Nat} {n nd : String}
    (hn : (S.c.o.L.namesOf "states")[k]? = some n) (hnd : (S.c.o.L.namesOf "states_dot")[k]? = some nd) {lo hi : ℝ}
    (hb : ∀ s, s < S.c.o.L.numStages → lo ≤ readAt S.c.o.L x "states_dot" nd s ∧ readAt S.c.o.L x "states_dot" nd s ≤ hi) :
    readScale S.c.o x * S.c.o.normLen.sum * lo
      ≤ readAt S.c.o.L x "states" n (S.c.o.L.numStages - 1) - readAt S.c.o.L x "states" n 0 ∧
    readAt S.c.o.L x "states" n (S.c.o.L.numStages - 1) - readAt S.c.o.L x "states" n 0
      ≤ readScale S.c.o x * S.c.o.normLen.sum * hi := by
  obtain ⟨w, hw, h⟩ := C76_problem ht
  obtain ⟨h2, _⟩ := C38_shapes ht
  rw [h S hu x hx k n nd hn hnd]
  have hsum : S.c.o.normLen.sum = ∑ i ∈ Finset.range S.c.o.L.numIntervals, S.c.o.normLen.getD i 0 := by
    rw [← hlen, ← sum_range]
    congr 1
    refine List.ext_getElem (by simp) fun i h1 h2 => ?_
    simp [h1]
  have hl : ∀ i, i < S.c.o.L.numIntervals → 0 ≤ S.c.o.normLen.getD i 0 := by
    intro i hi
    have hi' : i < S.c.o.normLen.length := by omega
    rw [List.getD_eq_getElem?_getD, List.getElem?_eq_getElem hi', Option.getD_some]
    exact hpos _ (List.getElem_mem hi')
  have hst : ∀ i j, i < S.c.o.L.numIntervals → j < t.stages → i * (t.stages - 1) + j < S.c.o.L.numStages := by
    intro i j hi hj
    unfold numStages
    rw [hu.stages]
    have : (i + 1) * (t.stages - 1) ≤ S.c.o.L.numIntervals * (t.stages - 1) := Nat.mul_le_mul_right _ (by omega)
    rw [Nat.succ_mul] at this
    omega
  have mean : ∀ v : ℝ, v = ∑ j ∈ Finset.range t.stages, w j * v := fun v => by rw [← Finset.sum_mul, hw.total, one_mul]
  rw [mul_assoc, mul_assoc, hsum, Finset.sum_mul, Finset.sum_mul]
  constructor
  · refine mul_le_mul_of_nonneg_left (Finset.sum_le_sum fun i hm => mul_le_mul_of_nonneg_left ?_ (hl i (Finset.mem_range.mp hm))) hms
    conv_lhs => rw [mean lo]
    exact Finset.sum_le_sum fun j hj => mul_le_mul_of_nonneg_left
      (hb _ (hst i j (Finset.mem_range.mp hm) (Finset.mem_range.mp hj))).1 (hw.nonneg j (Finset.mem_range.mp hj))
  · refine mul_le_mul_of_nonneg_left (Finset.sum_le_sum fun i hm => mul_le_mul_of_nonneg_left ?_ (hl i (Finset.mem_range.mp hm))) hms
    conv_rhs => rw [mean hi]
    exact Finset.sum_le_sum fun j hj => mul_le_mul_of_nonneg_left
      (hb _ (hst i j (Finset.mem_range.mp hm) (Finset.mem_range.mp hj))).2 (hw.nonneg j (Finset.mem_range.mp hj))

/-- **C76, finding**: the LGR constraint ignores the derivatives at the first stage of the interval, forward Euler those at the last.
So in a problem with LGR the inputs at the very first stage, and with ForwardEuler those at the very last, do not move the states. -/
theorem C76_ignored (name : String) (kwargs : List (String × Int)) (t : Transcription) (ht : makeTranscription name kwargs = .ok t)
    (hn : name = "LGR" ∨ name = "ForwardEuler") (d : Nat) (X Xd Xd' : Nat → Nat → ℝ) (h : ℝ)
    (hsame : ∀ j k, j ≠ (if name = "LGR" then 0 else t.stages - 1) → Xd j k = Xd' j k) :
    t.continuityCon (grid t.stages d X) (grid t.stages d Xd) h = t.continuityCon (grid t.stages d X) (grid t.stages d Xd') h := by
  rw [con_eq ht, con_eq ht]
  congr 1
  refine grid_congr fun l k hl hk => ?_
  congr 2
  refine Finset.sum_congr rfl fun j hj => ?_
  by_cases hj' : j = (if name = "LGR" then 0 else t.stages - 1)
  · have hz : entry t.B l j = 0 := by
      rcases hn with rfl | rfl
      · obtain ⟨m, c, hc, ⟨_, rfl⟩ | ⟨h0, _⟩⟩ := make_lgr (Or.inl rfl) ht
        · obtain ⟨n, h1, h2, _⟩ := mkColloc_radau hc
          rw [if_pos rfl] at hj'
          subst hj'
          simp only [Transcription.stages] at hl
          simp only [Transcription.B, Transcription.numCons, Transcription.stages]
          rw [diags_entry _ _ (by omega) (by omega)]
          simp
        · exact absurd h0 (by decide)
      · have he : t = .forwardEuler := by
          have hk : kwargs = [] := by
            by_contra hne
            rw [C38_low_order.2.2.2.2 "ForwardEuler" (by simp) kwargs hne] at ht
            cases ht
          subst hk
          exact (Except.ok.inj (C38_low_order.1.symm.trans ht)).symm
        subst he
        rw [if_neg (by decide)] at hj'
        have : j = 1 := hj'
        subst this
        have : l = 0 := by simp only [Transcription.stages] at hl; omega
        subst this
        simp only [Transcription.B, Transcription.numCons, Transcription.stages]
        rw [diags_entry _ _ (by omega) (by omega)]
        simp
    rw [hz, zero_mul, zero_mul]
  · rw [hsame j k hj']

/-- Not vacuous: with every transcription, and in particular LGR with 3 stages (exact to degree 2), the samples of a polynomial
trajectory satisfy the hypothesis of the interval theorems. -/
example : ∃ t, makeTranscription "LGR" [] = .ok t ∧ quadDegree "LGR" t.stages = 2 ∧
    t.continuityCon (t.sample 1 (fun _ => X ^ 2) 3 5) (t.sample 1 (fun _ => derivative (X ^ 2)) 3 5) 5
      = .ok (grid (t.stages - 1) 1 fun _ _ => 0) := by
  obtain ⟨⟨t, ht, h3⟩, _⟩ := C38_lgr "LGR" (by simp)
  refine ⟨t, ht, by rw [h3]; rfl, exact_all ht 1 (fun _ => X ^ 2) ?_ 3 5⟩
  intro k _
  rw [h3]
  simp [exactDegree]

end Lumos.Trans
