import Verif.Tyre.Forces
/-!
# C82: the parameters that are read
-/

namespace Lumos.Tyre

open Lumos Io Veh

/-- The two sets of parameters agree on the keys. -/
abbrev Agree (keys : List String) (p p' : Pars) : Prop := ∀ k ∈ keys, p k = p' k

theorem calculateBasic_congr {p p' : Pars} (h : Agree forceKeys p p') : calculateBasic p = calculateBasic p' := by
  unfold calculateBasic
  simp only [h "FNOMIN" (by decide),
    h "LFZO" (by decide),
    h "epsilonv" (by decide),
    h "LMUX" (by decide),
    h "LMUY" (by decide)]

theorem calculateFx0_congr {p p' : Pars} (h : Agree forceKeys p p') : calculateFx0 p = calculateFx0 p' := by
  unfold calculateFx0
  simp only [h "PCX1" (by decide),
    h "LCX" (by decide),
    h "PDX1" (by decide),
    h "PDX2" (by decide),
    h "PDX3" (by decide),
    h "PKX1" (by decide),
    h "PKX2" (by decide),
    h "PKX3" (by decide),
    h "LKX" (by decide),
    h "epsilonx" (by decide),
    h "PHX1" (by decide),
    h "PHX2" (by decide),
    h "LHX" (by decide),
    h "PVX1" (by decide),
    h "PVX2" (by decide),
    h "LVX" (by decide),
    h "PEX1" (by decide),
    h "PEX2" (by decide),
    h "PEX3" (by decide),
    h "PEX4" (by decide),
    h "LEX" (by decide)]

theorem calculateFx_congr {p p' : Pars} (h : Agree forceKeys p p') : calculateFx p = calculateFx p' := by
  unfold calculateFx
  simp only [h "RCX1" (by decide),
    h "REX1" (by decide),
    h "REX2" (by decide),
    h "RHX1" (by decide),
    h "RBX1" (by decide),
    h "RBX2" (by decide),
    h "LXAL" (by decide)]

theorem calculateFy0_congr {p p' : Pars} (h : Agree forceKeys p p') : calculateFy0 p = calculateFy0 p' := by
  unfold calculateFy0
  simp only [h "PKY2" (by decide),
    h "PKY1" (by decide),
    h "PKY3" (by decide),
    h "LKY" (by decide),
    h "PVY3" (by decide),
    h "PVY4" (by decide),
    h "PHY1" (by decide),
    h "PHY2" (by decide),
    h "LHY" (by decide),
    h "PHY3" (by decide),
    h "PVY1" (by decide),
    h "PVY2" (by decide),
    h "LVY" (by decide),
    h "PCY1" (by decide),
    h "LCY" (by decide),
    h "PDY1" (by decide),
    h "PDY2" (by decide),
    h "PDY3" (by decide),
    h "PEY1" (by decide),
    h "PEY2" (by decide),
    h "PEY3" (by decide),
    h "PEY4" (by decide),
    h "LEY" (by decide),
    h "epsilony" (by decide)]

theorem calculateFy_congr {p p' : Pars} (h : Agree forceKeys p p') : calculateFy p = calculateFy p' := by
  unfold calculateFy
  simp only [h "RVY1" (by decide),
    h "RVY2" (by decide),
    h "RVY3" (by decide),
    h "RVY4" (by decide),
    h "RVY5" (by decide),
    h "RVY6" (by decide),
    h "LVYKA" (by decide),
    h "RHY1" (by decide),
    h "RHY2" (by decide),
    h "REY1" (by decide),
    h "REY2" (by decide),
    h "RCY1" (by decide),
    h "RBY1" (by decide),
    h "RBY2" (by decide),
    h "RBY3" (by decide),
    h "LYKA" (by decide)]

theorem calculateMz_congr {p p' : Pars} (h : Agree momentKeys p p') : calculateMz p = calculateMz p' := by
  unfold calculateMz
  simp only [h "UNLOADED_RADIUS" (by decide),
    h "QHZ1" (by decide),
    h "QHZ2" (by decide),
    h "QHZ3" (by decide),
    h "QHZ4" (by decide),
    h "epsilonk" (by decide),
    h "QDZ1" (by decide),
    h "QDZ2" (by decide),
    h "QDZ3" (by decide),
    h "QDZ4" (by decide),
    h "LTR" (by decide),
    h "QBZ1" (by decide),
    h "QBZ2" (by decide),
    h "QBZ3" (by decide),
    h "QBZ4" (by decide),
    h "QBZ5" (by decide),
    h "LKY" (by decide),
    h "QCZ1" (by decide),
    h "QEZ1" (by decide),
    h "QEZ2" (by decide),
    h "QEZ3" (by decide),
    h "QEZ4" (by decide),
    h "QEZ5" (by decide),
    h "QDZ6" (by decide),
    h "QDZ7" (by decide),
    h "LRES" (by decide),
    h "QDZ8" (by decide),
    h "QDZ9" (by decide),
    h "QBZ9" (by decide),
    h "QBZ10" (by decide),
    h "FNOMIN" (by decide),
    h "SSZ1" (by decide),
    h "SSZ2" (by decide),
    h "SSZ3" (by decide),
    h "SSZ4" (by decide),
    h "LS" (by decide),
    h "LFZO" (by decide)]

theorem calculateMy_congr {p p' : Pars} (h : Agree momentKeys p p') : calculateMy p = calculateMy p' := by
  unfold calculateMy
  simp only [h "FNOMIN" (by decide),
    h "LONGVL" (by decide),
    h "UNLOADED_RADIUS" (by decide),
    h "LMY" (by decide),
    h "QSY1" (by decide),
    h "QSY2" (by decide),
    h "QSY3" (by decide),
    h "QSY4" (by decide)]

theorem calculateMx_congr {p p' : Pars} (h : Agree momentKeys p p') : calculateMx p = calculateMx p' := by
  unfold calculateMx
  simp only [h "FNOMIN" (by decide),
    h "UNLOADED_RADIUS" (by decide),
    h "LMX" (by decide),
    h "QSX1" (by decide),
    h "LVMX" (by decide),
    h "QSX2" (by decide),
    h "QSX3" (by decide)]

theorem forces_congr {p p' : Pars} {opt : Bool} (h : Agree (forceKeys ++ (if opt then [] else momentKeys)) p p') : forces p opt = forces p' opt := by
  have h1 : Agree forceKeys p p' := fun k hk => h k (List.mem_append_left _ hk)
  funext i
  unfold forces
  rw [calculateBasic_congr h1, calculateFx0_congr h1, calculateFx_congr h1, calculateFy0_congr h1, calculateFy_congr h1]
  cases opt with
  | true => rfl
  | false =>
    have h2 : Agree momentKeys p p' := fun k hk => h k (List.mem_append_right _ hk)
    rw [calculateMx_congr h2, calculateMy_congr h2, calculateMz_congr h2]

/-- **C82** (parameters, no others). The tyre depends on its parameters only through the listed keys: two sets of parameters that agree on the
keys of the forces (and, outside the mode for optimisation, on the keys of the moments) give the same result, be it ten numbers or an error,
for all inputs. -/
theorem C82_reads_only (d d' : Dict ℝ) (opt : Bool) (i : In)
    (h : ∀ k ∈ forceKeys ++ (if opt then [] else momentKeys), d.lookup k = d'.lookup k) : tyre d opt i = tyre d' opt i := by
  have hp : forces (par d) opt = forces (par d') opt := forces_congr fun k hk => by
    show (d.lookup k).getD 0 = (d'.lookup k).getD 0
    rw [h k hk]
  by_cases hk : HasKeys d opt
  · have hk' : HasKeys d' opt := fun k hm => by
      rw [← h k hm]
      exact hk k hm
    rw [tyre_eq d opt i hk, tyre_eq d' opt i hk', hp]
  · have hk' : ¬HasKeys d' opt := fun h' => hk fun k hm => by
      rw [h k hm]
      exact h' k hm
    rw [tyre_key d opt i hk, tyre_key d' opt i hk']

/-- Two different sets of parameters that meet the hypothesis: the second one has a further key in front that the tyre never reads. -/
example (opt : Bool) (i : In) : (("WIDTH", (1 : ℝ)) :: defaults ≠ defaults) ∧ tyre (("WIDTH", 1) :: defaults) opt i = tyre defaults opt i := by
  refine ⟨fun e => absurd (congrArg List.length e) (by simp), C82_reads_only _ _ opt i fun k hk => ?_⟩
  have hne : k ≠ "WIDTH" := by
    rintro rfl
    cases opt <;> revert hk <;> decide
  have : (k == "WIDTH") = false := by simpa using hne
  rw [List.lookup_cons, this]

end Lumos.Tyre
