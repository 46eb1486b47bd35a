import Verif.Trans.Props

/-!
# C38: the listed options are the names that can be made

`get_transcription_options` (lumos/optimal_control/transcription.py:188-194) is what a user prints to find out
which names `make_transcription` (197-220) takes.
-/

namespace Lumos.Trans

open Lumos

/-- **C38 (the listed options).** A name is in the list of options exactly if it can be made without arguments;
a name not in the list is refused with a RuntimeError whatever the arguments, and no name is listed twice. -/
theorem C38_options :
    (∀ name : String, name ∈ options ↔ ∃ t, makeTranscription name [] = .ok t)
    ∧ (∀ name : String, name ∉ options → ∀ kwargs, makeTranscription name kwargs = .error .runtimeError)
    ∧ options.Nodup := by
  refine ⟨fun name => ⟨fun h => ?_, fun ⟨t, ht⟩ => ?_⟩, fun name h kwargs => C38_unknown_name name kwargs h,
    by decide⟩
  · simp only [options, List.mem_cons, List.not_mem_nil, or_false] at h
    rcases h with rfl | rfl | rfl | rfl
    · exact ⟨_, C38_low_order.1⟩
    · exact ⟨_, C38_low_order.2.2.1⟩
    · obtain ⟨t, h, _⟩ := (C38_lgr "LGR" (by simp)).1
      exact ⟨t, h⟩
    · obtain ⟨t, h, _⟩ := (C38_lgr "LGRIntegral" (by simp)).1
      exact ⟨t, h⟩
  · by_contra hn
    rw [C38_unknown_name name [] hn] at ht
    cases ht

/-- A listed and an unlisted name. -/
example : "LGR" ∈ options ∧ "RK4" ∉ options := by decide

end Lumos.Trans
