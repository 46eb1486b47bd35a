import Verif.DecVar.Props

/-!
# C04: the titles of the stage table

`stage_var_names` (lumos/optimal_control/utils.py:172-180) titles the columns of the table of all stages, e.g. in
the logged metrics (lumos/optimal_control/scaled_mesh_ocp.py:964): `states.x`, `inputs.f`, …
-/

namespace Lumos.DecVar

open Lumos Layout

/-- **C04 (titles).** There is one title per column; column `c` is titled with the name of its group, a dot and the
name of the variable found at `c`: the index the operator answers for that variable at stage 0. -/
theorem C04_titles {L : Layout} (h : L.Made) :
    L.stageVarNames.length = L.numVarStage
    ∧ (∀ g n, L.IsVar (.stage 0 g n) → ∃ c : Nat, L.query (.stage 0 g n) = .ok (.scalar c)
        ∧ L.stageVarNames[c]? = some (g ++ "." ++ n))
    ∧ ∀ t ∈ L.stageVarNames, ∃ g n, L.IsVar (.stage 0 g n) ∧ t = g ++ "." ++ n := by
  refine ⟨length_stageVarNames L, fun g n hv => ?_, fun t ht => ?_⟩
  · obtain ⟨k, i, hk, hi, hq⟩ := query_stage h hv
    refine ⟨_, by simpa using hq, stageVarNames_get L k g hk i n hi⟩
  · obtain ⟨g, hg, ht⟩ := List.mem_flatMap.mp ht
    obtain ⟨n, hn, rfl⟩ := List.mem_map.mp ht
    refine ⟨g, n, ?_, rfl⟩
    refine ⟨Nat.succ_pos _, hg, ?_⟩
    cases hl : L.names.lookup g with
    | none => simp [namesOf, hl] at hn
    | some ns => exact ⟨ns, rfl, by rwa [namesOf_of_lookup hl] at hn⟩

/-- The titles of the example layout. -/
example : exLayout.Made ∧ exLayout.stageVarNames = ["states.x", "states.v", "inputs.u"] :=
  ⟨exLayout_made, by decide +kernel⟩

end Lumos.DecVar
