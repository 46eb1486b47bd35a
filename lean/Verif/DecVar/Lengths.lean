import Verif.DecVar.Props

/-!
# C03: vectors that do not have the length of the problem
-/

namespace Lumos.DecVar

open Lumos Layout

/-- **C03 (finding: too long).** `unflatten_var` ignores whatever a vector has beyond the problem's variables. -/
theorem C03_too_long {α : Type} (L : Layout) (x y : List α) (hx : x.length = L.numDec) :
    L.unflattenVar (x ++ y) = L.unflattenVar x := by
  have h1 : L.numAllStageVar ≤ x.length := by rw [hx, numDec]; omega
  have h2 : (x.drop L.numAllStageVar).length = L.globals.length := by simp [hx, numDec, numGlobal]
  have h3 : L.globals.zip (x.drop L.numAllStageVar ++ y) = L.globals.zip (x.drop L.numAllStageVar) := by
    have e := List.zip_append (l₁ := L.globals) (r₁ := []) (l₂ := x.drop L.numAllStageVar) (r₂ := y) h2.symm
    simpa using e
  simp only [unflattenVar, List.take_append_of_le_length h1, List.drop_append_of_le_length h1, h3]
  have h4 : ¬ ((x.drop L.numAllStageVar ++ y).length < L.globals.length) := by rw [List.length_append, h2]; omega
  have h5 : ¬ ((x.drop L.numAllStageVar).length < L.globals.length) := by omega
  simp only [if_neg h4, if_neg h5]

/-- **C03 (too short).** A problem with global variables accepts no vector that is too short. -/
theorem C03_too_short {α : Type} {L : Layout} (hg : L.globals ≠ []) (x : List α) (hx : x.length < L.numDec) :
    ∃ e, L.unflattenVar x = .error e := by
  have h : (x.drop L.numAllStageVar).length < L.globals.length := by
    have := List.length_pos_iff.mpr hg
    rw [List.length_drop]
    rw [numDec, numGlobal] at hx
    omega
  cases hr : reshapeInfer L.numVarStage (x.take L.numAllStageVar) with
  | error e => exact ⟨e, by simp [unflattenVar, hr, bind, Except.bind]⟩
  | ok rows =>
    by_cases hn : (L.groups ++ L.globals).Nodup
    · exact ⟨.typeError, by simp only [unflattenVar, hr, bind, Except.bind, hn, h, if_true]⟩
    · exact ⟨.valueError, by simp only [unflattenVar, hr, bind, Except.bind, hn, if_false]⟩

/-- **C03 (finding: too short).** A problem without global variables takes a vector that is too short for one with fewer stages, when
its length is a multiple of the number of variables per stage; every group then has this smaller number of rows. Any other
length raises `ValueError`. -/
theorem C03_fewer_stages {α : Type} {L : Layout} (hF : L.Fields) (hg : L.globals = []) (x : List α) (hx : x.length ≤ L.numDec) :
    (∀ k, x.length = k * L.numVarStage → ∃ v, L.unflattenVar x = .ok v ∧ v.stage.map Prod.fst = L.groups ∧
      ∀ a ∈ v.stage, a.2.length = k) ∧
    (¬ L.numVarStage ∣ x.length → L.unflattenVar x = .error .valueError) := by
  have hd : L.numDec = L.numAllStageVar := by simp [numDec, numGlobal, hg]
  have ht : x.take L.numAllStageVar = x := List.take_of_length_le (by omega)
  have hp := hF.pos
  refine ⟨fun k hk => ?_, fun h => ?_⟩
  · have hr : reshapeInfer L.numVarStage (x.take L.numAllStageVar) = .ok (Np.reshapeRows k L.numVarStage x) := by
      rw [ht, reshapeInfer, if_neg (by omega), hk, Nat.mul_mod_left, if_pos rfl, Nat.mul_div_cancel _ hp]
    have hsne : L.sizes ≠ [] := by intro e; apply hF.groups_ne; simpa [sizes] using e
    have hlenI : (Np.cumsum L.sizes.dropLast).length + 1 = L.groups.length := by
      have := List.length_pos_iff.mpr hsne
      simp [sizes] at this ⊢; omega
    refine ⟨⟨L.groups.zip (splitCols (Np.reshapeRows k L.numVarStage x) (Np.cumsum L.sizes.dropLast)), L.globals.zip (x.drop L.numAllStageVar)⟩, ?_, ?_, ?_⟩
    · simp only [unflattenVar, hr, bind, Except.bind, hF.nodup, if_true, pure, Except.pure]
      rw [if_neg (by simp [hg])]
    · exact List.map_fst_zip (by simp only [splitCols, List.length_map, List.length_range]; omega)
    · rintro ⟨g, m⟩ hm
      have := (List.of_mem_zip hm).2
      simp only [splitCols, List.mem_map, List.mem_range] at this
      obtain ⟨j, _, rfl⟩ := this
      simp [Np.reshapeRows]
  · have h' : x.length % L.numVarStage ≠ 0 := fun e => h (Nat.dvd_of_mod_eq_zero e)
    simp [unflattenVar, reshapeInfer, ht, h', bind, Except.bind]

/-- A problem of seven stages with three variables: a vector for two stages is taken, one of length seven is not. -/
example : ({ exLayout with globals := [] } : Layout).unflattenVar (List.range 6) = .ok
      ⟨[("states", [[0, 1], [3, 4]]), ("inputs", [[2], [5]]), ("con_outputs", [[], []])], []⟩
    ∧ ({ exLayout with globals := [] } : Layout).unflattenVar (List.range 7) = .error .valueError := by decide +kernel

/-- With its global variable, only the vectors of the right length or longer are taken. -/
example : exLayout.unflattenVar (List.range 21) = .error .typeError
    ∧ exLayout.unflattenVar (List.range 25) = exLayout.unflattenVar (List.range 22) := by decide +kernel

end Lumos.DecVar
