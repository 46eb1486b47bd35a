import Verif.Config.History
/-!
# C109: lists of bounds that no configuration was made from
-/

namespace Lumos.Config.History

open Lumos DecVar DecVar.Layout Bounds Ocp NLP

/-- The action makes a configuration from the list of bounds at address `a`. -/
def Op.UsesBounds (a : Nat) : Op → Prop
  | .new _ bounds _ _ _ _ => bounds = .list a
  | _ => False

/-- What one action does to the list at `a`, and which configurations use it afterwards. -/
theorem step_bounds {w : World} {op : Op} {a : Nat} (h : ∀ c ∈ w.cfgs, c.bounds ≠ .list a) (ho : ¬op.UsesBounds a) :
    (step w op).1.boundLists a = w.boundLists a ∧ ∀ c ∈ (step w op).1.cfgs, c.bounds ≠ .list a := by
  cases op with
  | new lap bounds inList bcs names cond =>
    obtain ⟨tail, h1, h2, h3⟩ := step_new w lap bounds inList bcs names cond
    refine ⟨by rw [h2], fun c hc => ?_⟩
    rw [h1] at hc
    rcases List.mem_append.mp hc with hc | hc
    · exact h c hc
    · rw [h3 c hc]
      exact ho
  | setCondensed j v =>
    cases hj : w.cfgs[j]? with
    | none => rw [step_set_none hj]; exact ⟨rfl, h⟩
    | some d =>
      rw [step_set hj]
      refine ⟨rfl, fun c hc => ?_⟩
      rcases List.mem_or_eq_of_mem_set hc with hc | rfl
      · exact h c hc
      · exact h d (List.mem_of_getElem? hj)
  | construct j S =>
    cases hj : w.cfgs[j]? with
    | none => rw [step_construct_none hj]; exact ⟨rfl, h⟩
    | some d =>
      have hd := h d (List.mem_of_getElem? hj)
      rw [step_construct hj]
      simp only
      unfold after
      split
      · split_ifs
        · cases hb : d.bounds with
          | tup k =>
            refine ⟨rfl, fun c hc => ?_⟩
            rcases List.mem_or_eq_of_mem_set hc with hc | rfl
            · exact h c hc
            · exact fun e => by cases e
          | list b =>
            have hne : b ≠ a := fun e => hd (by rw [hb, e])
            refine ⟨if_neg hne.symm, fun c hc => ?_⟩
            rcases List.mem_or_eq_of_mem_set hc with hc | rfl
            · exact h c hc
            · exact fun e => hne (by cases e; rfl)
        · exact ⟨rfl, h⟩
      · exact ⟨rfl, h⟩

/-- **C109** (other lists). In every history, a list of bounds from which no configuration is or was made is not touched: constructions from
configurations with other lists, or with tuples, do not extend it. -/
theorem C109_own_list (ops : List Op) {w : World} {a : Nat} (h : ∀ c ∈ w.cfgs, c.bounds ≠ .list a) (ho : ∀ op ∈ ops, ¬op.UsesBounds a) :
    (run w ops).boundLists a = w.boundLists a := by
  induction ops generalizing w with
  | nil => rfl
  | cons op ops ih =>
    obtain ⟨h1, h2⟩ := step_bounds h (ho op List.mem_cons_self)
    exact (ih h2 fun o m => ho o (List.mem_cons_of_mem _ m)).trans h1

/-- A configuration with its bounds in list 3 is condensed and a problem is made from it; list 4 is not touched. -/
example (S : Setup) : (run exWorld [.new false (.list 3) false [] none true, .construct 1 S]).boundLists 4 = exWorld.boundLists 4 :=
  C109_own_list _ (by simp [exWorld]) (by simp [Op.UsesBounds])

end Lumos.Config.History
