import Verif.Log.Model
/-!
# Facts about the directory
-/

namespace Lumos.Log

open Lumos

theorem lookup_filter_ne (fs : FS) (n m : FName) (h : m ≠ n) : (fs.filter fun p => p.1 ≠ n).lookup m = fs.lookup m := by
  induction fs with
  | nil => rfl
  | cons p fs ih =>
    obtain ⟨a, f⟩ := p
    rw [List.filter_cons]
    by_cases ha : a = n
    · subst ha
      simp only [ne_eq, not_true_eq_false, decide_false, Bool.false_eq_true, ↓reduceIte]
      rw [ih, List.lookup_cons]
      have : (m == a) = false := by simpa using h
      rw [this]
    · simp only [ne_eq, ha, not_false_eq_true, decide_true, ↓reduceIte]
      rw [List.lookup_cons, List.lookup_cons]
      by_cases hm : m = a
      · simp [hm]
      · have : (m == a) = false := by simpa using hm
        rw [this]
        exact ih

theorem lookup_filter_self (fs : FS) (n : FName) : (fs.filter fun p => p.1 ≠ n).lookup n = none := by
  rw [List.lookup_eq_none_iff]
  intro p hp
  simp only [ne_eq, decide_not, List.mem_filter, Bool.not_eq_eq_eq_not, Bool.not_true, decide_eq_false_iff_not] at hp
  have := hp.2
  simpa using fun h => this h.symm

theorem lookup_write (fs : FS) (n : FName) (f : File) : (write fs n f).lookup n = some f := by
  simp [write]

theorem lookup_write_ne (fs : FS) (n m : FName) (f : File) (h : m ≠ n) : (write fs n f).lookup m = fs.lookup m := by
  unfold write
  rw [List.lookup_cons]
  have : (m == n) = false := by simpa using h
  rw [this]
  exact lookup_filter_ne fs n m h

theorem mem_names_iff (fs : FS) (n : FName) : n ∈ fs.map Prod.fst ↔ fs.lookup n ≠ none := by
  rw [Ne, List.lookup_eq_none_iff]
  constructor
  · intro h h'
    obtain ⟨p, hp, rfl⟩ := List.mem_map.1 h
    have := h' p hp
    simp at this
  · intro h
    by_contra hn
    apply h
    intro p hp
    have : n ≠ p.1 := fun e => hn (e ▸ List.mem_map_of_mem hp)
    simpa using this

/-- No two files have the same name. -/
def Sane (fs : FS) : Prop := (fs.map Prod.fst).Nodup

theorem sane_filter (fs : FS) (n : FName) (h : Sane fs) : Sane (fs.filter fun p => p.1 ≠ n) :=
  h.sublist (List.filter_sublist.map _)

theorem sane_write (fs : FS) (n : FName) (f : File) (h : Sane fs) : Sane (write fs n f) := by
  unfold write Sane
  rw [List.map_cons, List.nodup_cons]
  refine ⟨?_, sane_filter fs n h⟩
  rw [mem_names_iff, lookup_filter_self]
  simp

theorem remove_ok (fs : FS) (n : FName) (h : fs.lookup n ≠ none) : remove fs n = .ok (fs.filter fun p => p.1 ≠ n) := by
  unfold remove
  rw [if_pos ((mem_names_iff fs n).2 h)]

/-- Removing files that exist and are different. -/
theorem remove_all (l : List FName) : ∀ (fs : FS), Sane fs → l.Nodup → (∀ n ∈ l, fs.lookup n ≠ none) →
    ∃ fs', l.foldlM remove fs = .ok fs' ∧ Sane fs' ∧ (∀ n ∈ l, fs'.lookup n = none) ∧
      ∀ n, n ∉ l → fs'.lookup n = fs.lookup n := by
  induction l with
  | nil =>
    intro fs hs _ _
    exact ⟨fs, rfl, hs, by simp, by simp⟩
  | cons a l ih =>
    intro fs hs hn hl
    rw [List.nodup_cons] at hn
    obtain ⟨fs', h1, h2, h3, h4⟩ := ih (fs.filter fun p => p.1 ≠ a) (sane_filter fs a hs) hn.2 (by
      intro n hnl
      rw [lookup_filter_ne _ _ _ (fun e : n = a => hn.1 (e ▸ hnl))]
      exact hl n (List.mem_cons_of_mem _ hnl))
    refine ⟨fs', ?_, h2, ?_, ?_⟩
    · rw [List.foldlM_cons, remove_ok fs a (hl a List.mem_cons_self)]
      exact h1
    · intro n hnl
      rcases List.mem_cons.1 hnl with rfl | hnl
      · rw [h4 n hn.1]
        exact lookup_filter_self fs n
      · exact h3 n hnl
    · intro n hnl
      rw [List.mem_cons, not_or] at hnl
      rw [h4 n hnl.2, lookup_filter_ne _ _ _ hnl.1]

/-- Reading tables that exist. -/
theorem read_all (fs : FS) (l : List FName) (t : FName → List Row) (h : ∀ n ∈ l, fs.lookup n = some (.table (t n))) :
    l.mapM (readTable fs) = .ok (l.map t) := by
  induction l with
  | nil => rfl
  | cons a l ih =>
    rw [List.mapM_cons, ih (fun n hn => h n (List.mem_cons_of_mem _ hn))]
    have : readTable fs a = .ok (t a) := by
      unfold readTable
      rw [h a List.mem_cons_self]
    rw [this]
    rfl

/-- The order of listing does not matter. -/
theorem glob_mem (E : Env) (fs : FS) (n : FName) : n ∈ E.glob fs ↔ n.isIter = true ∧ fs.lookup n ≠ none := by
  rw [(E.glob_perm fs).mem_iff, List.mem_filter, mem_names_iff, and_comm]

theorem glob_nodup (E : Env) (fs : FS) (h : Sane fs) : (E.glob fs).Nodup :=
  (E.glob_perm fs).nodup_iff.2 (h.filter _)

end Lumos.Log
