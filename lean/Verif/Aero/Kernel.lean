import Verif.Aero.Props
/-!
# C87: the kernel for points of any dimension
-/

namespace Lumos.Aero

open Lumos

/-! ## Specification -/

/-- The entry number `k` of a vector after broadcasting: a vector with one entry is repeated. -/
def spread {n : Nat} (v : Fin n → ℝ) (k : Nat) : ℝ := (List.ofFn v).getD (if n = 1 then 0 else k) 0

/-- The common length of two vectors of which one may have one entry. -/
def common (n m : Nat) : Nat := if n = 1 then m else n

/-! ## Proof -/

theorem sum_range_getD (l : List ℝ) (f : ℝ → ℝ) : (l.map f).sum = ∑ k ∈ Finset.range l.length, f (l.getD k 0) := by
  induction l with
  | nil => simp
  | cons a l ih =>
    rw [List.map_cons, List.sum_cons, List.length_cons, Finset.sum_range_succ', ih, add_comm]
    rfl

theorem one_entry {n : Nat} (v : Fin n → ℝ) (h : n = 1) : List.ofFn v = [spread v 0] := by
  subst h
  simp [spread]

theorem rowSub_sum {n m : Nat} (p : Fin n → ℝ) (x : Fin m → ℝ) (h : n = m ∨ n = 1 ∨ m = 1) :
    ((rowSub p (List.ofFn x)).map fun d => d ^ 2).sum = ∑ k ∈ Finset.range (common n m), (spread p k - spread x k) ^ 2 := by
  unfold rowSub
  by_cases e : n = m
  · subst e
    rw [if_pos (List.length_ofFn).symm, sum_range_getD]
    have hl : ((List.ofFn p).zipWith (fun a b : ℝ => a - b) (List.ofFn x)).length = n := by simp
    have hc : common n n = n := by unfold common; split <;> simp_all
    rw [hl, hc]
    refine Finset.sum_congr rfl fun k hk => ?_
    have hk := Finset.mem_range.mp hk
    have hs : ∀ v : Fin n → ℝ, spread v k = v ⟨k, hk⟩ := fun v => by
      unfold spread
      have : (if n = 1 then 0 else k) = k := by split <;> omega
      rw [this]
      simp [List.getD_eq_getElem?_getD, hk]
    rw [hs, hs]
    simp [List.getD_eq_getElem?_getD, hk]
  · have hne : ¬n = (List.ofFn x).length := by simpa using e
    rw [if_neg hne]
    by_cases h1 : n = 1
    · rw [if_pos h1, List.map_map, sum_range_getD, one_entry p h1]
      have hc : common n m = m := if_pos h1
      rw [hc, List.length_ofFn]
      refine Finset.sum_congr rfl fun k _ => ?_
      have hm : ¬m = 1 := by omega
      have : spread p k = spread p 0 := by unfold spread; rw [if_pos h1, if_pos h1]
      rw [this]
      have hx : spread x k = (List.ofFn x).getD k 0 := by unfold spread; rw [if_neg hm]
      rw [hx]
      simp
    · have hm : m = 1 := by omega
      rw [if_neg h1, List.map_map, sum_range_getD, one_entry x hm]
      have hc : common n m = n := if_neg h1
      rw [hc, List.length_ofFn]
      refine Finset.sum_congr rfl fun k _ => ?_
      have : spread x k = spread x 0 := by unfold spread; rw [if_pos hm, if_pos hm]
      rw [this]
      have hx : spread p k = (List.ofFn p).getD k 0 := by unfold spread; rw [if_neg h1]
      rw [hx]
      simp

/-- **C87** (the kernel, any dimension). For points with `n` entries and an input with `m` entries, the Gaussian process multiplies its weights with
`exp (- ‖p - x‖²)` for each point `p` — when `n = m`, and also when one of the two has a single entry, which is then compared with every entry of the
other — and raises ValueError in all other cases. -/
theorem C87_kernel {n m : Nat} (points : List (Fin n → ℝ)) (x : Fin m → ℝ) (alpha : Mat) :
    ((n = m ∨ n = 1 ∨ m = 1) → gp (List.ofFn x) ⟨n, points⟩ alpha =
      alpha.mul (points.map fun p => Real.exp (-∑ k ∈ Finset.range (common n m), (spread p k - spread x k) ^ 2))) ∧
    (¬(n = m ∨ n = 1 ∨ m = 1) → gp (List.ofFn x) ⟨n, points⟩ alpha = .error .valueError) := by
  refine ⟨fun h => ?_, fun h => ?_⟩
  · have e : kernel ⟨n, points⟩ (List.ofFn x) =
        .ok (points.map fun p => Real.exp (-∑ k ∈ Finset.range (common n m), (spread p k - spread x k) ^ 2)) := by
      unfold kernel
      dsimp only
      rw [if_pos (by simpa using h)]
      congr 1
      refine List.map_congr_left fun p _ => ?_
      rw [rowSub_sum p x h]
    unfold gp
    rw [e]
    rfl
  · have e : kernel ⟨n, points⟩ (List.ofFn x) = .error .valueError := by
      unfold kernel
      dsimp only
      rw [if_neg (by simpa using h)]
    unfold gp
    rw [e]
    rfl

/-- One point with two entries, and an input with one entry: the kernel is `exp (-((1 - 3)² + (2 - 3)²))`. -/
example : gp (List.ofFn fun _ : Fin 1 => (3 : ℝ)) ⟨2, [fun i => if i = 0 then 1 else 2]⟩ ⟨1, [fun _ => 1]⟩ =
    Mat.mul ⟨1, [fun _ => 1]⟩ [Real.exp (-5)] := by
  rw [(C87_kernel _ _ _).1 (Or.inr (Or.inr rfl))]
  congr 1
  simp [common, spread, Finset.sum_range_succ]
  norm_num

end Lumos.Aero
