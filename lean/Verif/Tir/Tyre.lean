import Verif.Tir.File
import Verif.Tyre.Forces
/-!
# C86: the tyre model with the parameters of a file
-/

namespace Lumos.Tir

open Lumos Lumos.Tyre

/-- The parameters as real numbers, when all are finite. -/
def Reals (p : Dict Num) (d : Dict ℝ) : Prop := List.Forall₂ (fun (a : String × Num) (b : String × ℝ) => a.1 = b.1 ∧ ∃ q, a.2 = .fin q ∧ b.2 = q) p d

theorem Reals.lookup {p : Dict Num} {d : Dict ℝ} (h : Reals p d) (k : String) :
    (p.lookup k = none ∧ d.lookup k = none) ∨ ∃ q : ℚ, p.lookup k = some (.fin q) ∧ d.lookup k = some (q : ℝ) := by
  induction h with
  | nil => exact Or.inl ⟨rfl, rfl⟩
  | @cons a b l l' hab _ ih =>
    obtain ⟨h1, q, h2, h3⟩ := hab
    rcases a with ⟨a1, a2⟩
    rcases b with ⟨b1, b2⟩
    simp only at h1 h2 h3
    subst h1 h2 h3
    rw [Dict.lookup_cons, Dict.lookup_cons]
    by_cases hk : k = a1
    · rw [if_pos hk, if_pos hk]
      exact Or.inr ⟨q, rfl, rfl⟩
    · rw [if_neg hk, if_neg hk]
      exact ih

/-- **C86** (an incomplete file). A tyre model with the parameters of a file raises KeyError on every evaluation, and not before, when a parameter that it
needs is assigned by no line of the file; otherwise it has all the parameters it reads. -/
theorem C86_incomplete {text : List Char} {p : Dict Num} {d : Dict ℝ} (hp : createParams text = .ok p) (hd : Reals p d) (opt : Bool) :
    (∀ k ∈ forceKeys ++ (if opt then [] else momentKeys), k ∉ ["epsilonv", "epsilonx", "epsilonk", "epsilony"] →
      (∀ l ∈ readlines (translate text), ∀ v, ¬Assigns l k v) → ∀ i, tyre d opt i = .error .keyError) ∧
    ((∀ k ∈ forceKeys ++ (if opt then [] else momentKeys), k ∉ ["epsilonv", "epsilonx", "epsilonk", "epsilony"] →
      ∃ l ∈ readlines (translate text), ∃ v, Assigns l k v) → HasKeys d opt) := by
  obtain ⟨f, p', e1, e2, -, x1, x2, x3, x4, x5⟩ := C86_params text
  obtain ⟨f', e3, -, hf⟩ := C86_read text
  rw [e1] at e3
  cases e3
  rw [hp] at e2
  cases e2
  have hl : ∀ (ls : List (List Char)) (k : String), (∃ l ∈ ls, ∃ v, Assigns l k v) → ∃ v, Last ls k v := by
    intro ls k
    induction ls with
    | nil => rintro ⟨l, hl, -⟩; simp at hl
    | cons x ls ih =>
      rintro ⟨l, hl, v, ha⟩
      by_cases h : ∃ l ∈ ls, ∃ v, Assigns l k v
      · obtain ⟨w, pre, line, post, rfl, a, b⟩ := ih h
        exact ⟨w, x :: pre, line, post, rfl, a, b⟩
      · rcases List.mem_cons.mp hl with rfl | hl
        · exact ⟨v, [], l, ls, rfl, ha, fun y hy w hw => h ⟨y, hy, w, hw⟩⟩
        · exact absurd ⟨l, hl, v, ha⟩ h
  constructor
  · intro k hk hk' hn i
    refine C82_missing d opt i k hk ?_
    rcases hd.lookup k with ⟨-, h⟩ | ⟨q, h, -⟩
    · exact h
    · rw [x5 k hk', hf] at h
      obtain ⟨pre, line, post, e, a, -⟩ := h
      exact absurd a (hn line (by rw [e]; simp) _)
  · intro h k hk
    have hs : (p.lookup k).isSome := by
      by_cases hk' : k ∈ ["epsilonv", "epsilonx", "epsilonk", "epsilony"]
      · simp only [List.mem_cons, List.not_mem_nil, or_false] at hk'
        rcases hk' with rfl | rfl | rfl | rfl
        · rw [x1]; rfl
        · rw [x2]; rfl
        · rw [x3]; rfl
        · rw [x4]; rfl
      · obtain ⟨v, hv⟩ := hl _ _ (h k hk hk')
        rw [x5 k hk', (hf k v).mpr hv]
        rfl
    rcases hd.lookup k with ⟨h', -⟩ | ⟨q, -, h'⟩
    · rw [h'] at hs; cases hs
    · rw [h']; rfl

/-- The empty file gives parameters, with which every evaluation fails. -/
example (i : In) : ∃ p d, createParams [] = .ok p ∧ Reals p d ∧ tyre d true i = .error .keyError := by
  refine ⟨_, [("epsilonv", 1 / 10 ^ 6), ("epsilonx", 1 / 10 ^ 3), ("epsilonk", 1 / 10 ^ 6), ("epsilony", 1 / 10 ^ 3)], rfl, ?_, ?_⟩
  · refine .cons ⟨rfl, _, rfl, by norm_num⟩ (.cons ⟨rfl, _, rfl, by norm_num⟩ (.cons ⟨rfl, _, rfl, by norm_num⟩ (.cons ⟨rfl, _, rfl, by norm_num⟩ .nil)))
  · exact C82_missing _ true i "FNOMIN" (by decide) (by decide +kernel)

end Lumos.Tir
