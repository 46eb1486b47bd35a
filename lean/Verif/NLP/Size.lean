import Verif.NLP.CompositeProps

/-!
# C16: the number of inputs of an objective
-/

namespace Lumos.NLP

open Lumos

theorem gather_error {a : List ℝ} : ∀ {idx : List Nat}, (∃ i ∈ idx, a.length ≤ i) → gather a idx = .error .indexError := by
  intro idx
  induction idx with
  | nil => rintro ⟨i, hi, _⟩; cases hi
  | cons j idx ih =>
    intro h
    unfold gather at ih ⊢
    rw [List.mapM_cons]
    by_cases hj : j < a.length
    · have h' : ∃ i ∈ idx, a.length ≤ i := by
        obtain ⟨i, hi, hl⟩ := h
        rcases List.mem_cons.mp hi with rfl | hi
        · omega
        · exact ⟨i, hi, hl⟩
      simp only [List.getElem?_eq_getElem hj, bind, Except.bind]
      have e := ih h'
      rw [e]
    · rw [List.getElem?_eq_none (by omega)]
      rfl

/-- **C16 (finding: objectives).** The number of inputs of an objective is not compared with the problem's decision variables, as a
constraint's is (`C16_wrong_num_in`): what decides is the structure of its Hessian. If that stays within the decision variables
the objective is accepted, whatever its number of inputs; if it does not, `IndexError` is raised and the problem is as before. -/
theorem C16_objective_size {p : Prob} (hs : p.scales.length = p.numDec) (name : String) (hn : name ∉ p.objs.map Prod.fst) (o : Obj) :
    ((∀ r ∈ o.hessStruct.1 ++ o.hessStruct.2, r < p.numDec) →
      ∃ o', p.addObjective name o = ({ p with objs := p.objs ++ [(name, o')] }, none) ∧ o'.numIn = o.numIn ∧ o'.inScales = p.scales
        ∧ o'.obj = o.obj ∧ o'.grad = o.grad ∧ o'.hess = o.hess) ∧
    ((∃ r ∈ o.hessStruct.1 ++ o.hessStruct.2, p.numDec ≤ r) → p.addObjective name o = (p, some .indexError)) := by
  have hk : hasKey p.objs name = false := by
    rw [← hasKey_iff] at hn
    simpa using hn
  refine ⟨fun h => ?_, fun ⟨r, hr, hl⟩ => ?_⟩
  · have hr : ∀ r ∈ o.hessStruct.1, r < p.scales.length := fun r hr => hs ▸ h r (List.mem_append_left _ hr)
    have hc : ∀ r ∈ o.hessStruct.2, r < p.scales.length := fun r hr => hs ▸ h r (List.mem_append_right _ hr)
    have := objUpdateHessScales_ok { o with inScales := p.scales } hr hc
    have e : ∃ o', Obj.setInputScales o p.scales = (o', none) ∧ o'.numIn = o.numIn ∧ o'.inScales = p.scales
        ∧ o'.obj = o.obj ∧ o'.grad = o.grad ∧ o'.hess = o.hess := by
      simp only [Obj.setInputScales, this]
      exact ⟨_, rfl, rfl, rfl, rfl, rfl, rfl⟩
    obtain ⟨o', e1, e2⟩ := e
    exact ⟨o', by simp only [Prob.addObjective, hk, Bool.false_eq_true, if_false, e1], e2⟩
  · have : Obj.updateHessScales { o with inScales := p.scales } = .error .indexError := by
      simp only [Obj.updateHessScales]
      by_cases h1 : ∃ i ∈ o.hessStruct.1, p.scales.length ≤ i
      · rw [gather_error h1]; rfl
      · have h2 : ∃ i ∈ o.hessStruct.2, p.scales.length ≤ i := by
          rcases List.mem_append.mp hr with h | h
          · exact absurd ⟨r, h, by omega⟩ h1
          · exact ⟨r, h, by omega⟩
        simp only [not_exists, not_and, not_le] at h1
        rw [gather_ok h1, gather_error h2]; rfl
    simp only [Prob.addObjective, hk, Bool.false_eq_true, if_false, Obj.setInputScales, this]

/-- An objective over two variables is accepted by a problem of three, and refused by a problem of one. -/
example : (∃ o', (Prob.init 3).addObjective "f" exProd = ({ Prob.init 3 with objs := [("f", o')] }, none) ∧ o'.numIn = 2)
    ∧ (Prob.init 1).addObjective "f" exProd = (Prob.init 1, some .indexError) := by
  constructor
  · obtain ⟨o', h1, h2, _⟩ := (C16_objective_size (p := Prob.init 3) (by simp [Prob.init]) "f" (by simp [Prob.init]) exProd).1
      (by simp [exProd, Obj.stateOf, Prob.init])
    exact ⟨o', h1, h2⟩
  · exact (C16_objective_size (p := Prob.init 1) (by simp [Prob.init]) "f" (by simp [Prob.init]) exProd).2
      ⟨1, by simp [exProd, Obj.stateOf], by simp [Prob.init]⟩

end Lumos.NLP
