import Verif.Ocp.AlgModel
import Verif.Ocp.StageProps
import Mathlib.Data.List.ProdSigma
import Mathlib.Tactic.IntervalCases
/-!
# C44: the model algebra of an explicit model and the completeness of its declared sparsity
-/

namespace Lumos.Ocp.ExplicitModel

open Lumos NLP OCP

variable {M : ExplicitModel}

/-- An explicit model as users declare it: at least one state, no repeated name inside a group, and functions that
return arrays of the declared sizes. -/
structure Good (M : ExplicitModel) : Prop where
  pos : 0 < M.nx
  nodupS : M.states.Nodup
  nodupI : M.inputs.Nodup
  nodupY : M.conOutputs.Nodup
  lenF : ∀ x u μ, x.length = M.nx → u.length = M.nu → (M.f x u μ).length = M.nx
  lenH : ∀ x u μ, x.length = M.nx → u.length = M.nu → (M.h x u μ).length = M.ny
  lenR : ∀ x u μ, x.length = M.nx → u.length = M.nu → (M.r x u μ).length = M.nr

theorem numVar_eq (M : ExplicitModel) : M.numVar = M.nx + M.nu + (M.nx + M.ny) := by
  simp only [numVar, groups, List.map_cons, List.map_nil, List.sum_cons, List.sum_nil, nx, nu, ny]
  omega

/-- The states, inputs and remaining variables of a flat stage vector. -/
def xOf (M : ExplicitModel) (v : List ℝ) : List ℝ := v.take M.nx
def uOf (M : ExplicitModel) (v : List ℝ) : List ℝ := (v.take (M.nx + M.nu)).drop M.nx
def wOf (M : ExplicitModel) (v : List ℝ) : List ℝ := v.drop (M.nx + M.nu)

theorem length_xOf {v : List ℝ} (hv : v.length = M.numVar) : (M.xOf v).length = M.nx := by
  rw [numVar_eq] at hv
  simp only [xOf, List.length_take]; omega

theorem length_uOf {v : List ℝ} (hv : v.length = M.numVar) : (M.uOf v).length = M.nu := by
  rw [numVar_eq] at hv
  simp only [uOf, List.length_take, List.length_drop]; omega

theorem length_wOf {v : List ℝ} (hv : v.length = M.numVar) : (M.wOf v).length = M.nx + M.ny := by
  rw [numVar_eq] at hv
  simp only [wOf, List.length_drop]; omega

/-- The right-hand sides stacked. -/
noncomputable def rhs (M : ExplicitModel) (v : List ℝ) (μ : ℝ) : List ℝ :=
  M.f (M.xOf v) (M.uOf v) μ ++ M.h (M.xOf v) (M.uOf v) μ

theorem length_rhs (hM : M.Good) {v : List ℝ} (hv : v.length = M.numVar) (μ : ℝ) :
    (M.rhs v μ).length = M.nx + M.ny := by
  simp only [rhs, List.length_append]
  rw [hM.lenF _ _ _ (length_xOf hv) (length_uOf hv), hM.lenH _ _ _ (length_xOf hv) (length_uOf hv)]

theorem flatImplicit_eq (hM : M.Good) {v : List ℝ} (hv : v.length = M.numVar) (μ : ℝ) :
    M.flatImplicit v μ = List.zipWith (· - ·) (M.rhs v μ) (M.wOf v) ++ M.r (M.xOf v) (M.uOf v) μ := by
  have hv' := hv
  rw [numVar_eq] at hv'
  have hc : (Np.cumsum (M.groups.map fun g => g.2.length)).dropLast
      = [M.nx, M.nx + M.nu, M.nx + M.nu + M.nx] := by
    simp only [groups, List.map_cons, List.map_nil, Np.cumsum, nx, nu, List.dropLast]
    simp [Nat.add_assoc]
  unfold flatImplicit
  rw [hc]
  simp only [Np.split, Np.splitFrom, List.getD_cons_zero, List.getD_cons_succ, List.drop_zero]
  have e1 : v.take M.nx = M.xOf v := rfl
  have e2 : (v.take (M.nx + M.nu)).drop M.nx = M.uOf v := rfl
  rw [e1, e2]
  have e3 : M.wOf v = (v.take (M.nx + M.nu + M.nx)).drop (M.nx + M.nu) ++ v.drop (M.nx + M.nu + M.nx) := by
    unfold wOf
    rw [List.drop_take]
    simp only [Nat.add_sub_cancel_left]
    rw [← List.drop_drop (i := M.nx), List.take_append_drop]
  rw [e3, rhs, List.zipWith_append]
  · rw [List.append_assoc]
  · rw [hM.lenF _ _ _ (length_xOf hv) (length_uOf hv), List.length_drop, List.length_take]
    omega

theorem length_flatImplicit (hM : M.Good) {v : List ℝ} (hv : v.length = M.numVar) (μ : ℝ) :
    (M.flatImplicit v μ).length = M.numRes := by
  rw [flatImplicit_eq hM hv, List.length_append, List.length_zipWith, length_rhs hM hv, length_wOf hv,
    hM.lenR _ _ _ (length_xOf hv) (length_uOf hv)]
  unfold numRes; omega

theorem xOf_set (M : ExplicitModel) (v : List ℝ) {c : Nat} (hc : M.nx + M.nu ≤ c) (t : ℝ) :
    M.xOf (v.set c t) = M.xOf v := by
  unfold xOf
  rw [List.take_set, List.set_eq_of_length_le]
  simp; omega

theorem uOf_set (M : ExplicitModel) (v : List ℝ) {c : Nat} (hc : M.nx + M.nu ≤ c) (t : ℝ) :
    M.uOf (v.set c t) = M.uOf v := by
  unfold uOf
  rw [List.take_set, List.set_eq_of_length_le]
  simp; omega

/-- Changing a `states_dot` or `con_outputs` entry changes its own residual only, linearly. -/
theorem flatImplicit_set (hM : M.Good) {v : List ℝ} (hv : v.length = M.numVar) (μ : ℝ) {c : Nat}
    (hc : M.nx + M.nu ≤ c) (hc' : c < M.numVar) (t : ℝ) (r : Nat) :
    (M.flatImplicit (v.set c t) μ).getD r 0
      = (M.flatImplicit v μ).getD r 0 - if r + (M.nx + M.nu) = c then t - v.getD c 0 else 0 := by
  have hv' := hv
  rw [numVar_eq] at hv' hc'
  have hl := length_rhs hM hv μ
  have hw := length_wOf hv
  rw [flatImplicit_eq hM (by simpa using hv), flatImplicit_eq hM hv]
  unfold rhs
  rw [xOf_set M v hc, uOf_set M v hc]
  change (List.zipWith _ (M.rhs v μ) _ ++ _).getD r 0 = (List.zipWith _ (M.rhs v μ) _ ++ _).getD r 0 - _
  have hwset : M.wOf (v.set c t) = (M.wOf v).set (c - (M.nx + M.nu)) t := by
    unfold wOf
    rw [List.drop_set, if_neg (by omega)]
  rw [hwset]
  by_cases hr : r < M.nx + M.ny
  · have h1 : ∀ w : List ℝ, w.length = M.nx + M.ny →
        (List.zipWith (· - ·) (M.rhs v μ) w ++ M.r (M.xOf v) (M.uOf v) μ).getD r 0
          = (M.rhs v μ).getD r 0 - w.getD r 0 := by
      intro w hw
      rw [List.getD_eq_getElem?_getD, List.getElem?_append_left (by simp [hl, hw, hr])]
      have a1 : r < (M.rhs v μ).length := by omega
      have a2 : r < w.length := by omega
      simp [a1, a2]
    rw [h1 _ (by simp [hw]), h1 _ hw]
    by_cases he : r + (M.nx + M.nu) = c
    · rw [if_pos he]
      have e1 : c - (M.nx + M.nu) = r := by omega
      have a2 : r < (M.wOf v).length := by omega
      have e2 : (M.wOf v).getD r 0 = v.getD c 0 := by
        simp only [wOf, List.getD_eq_getElem?_getD, List.getElem?_drop]
        congr 2; omega
      rw [e1, e2]
      have e3 : ((M.wOf v).set r t).getD r 0 = t := by simp [a2]
      rw [e3]; ring
    · rw [if_neg he, sub_zero]
      congr 1
      simp only [List.getD_eq_getElem?_getD]
      rw [List.getElem?_set_ne (by omega)]
  · rw [if_neg (by omega), sub_zero]
    rw [List.getD_eq_getElem?_getD, List.getD_eq_getElem?_getD, List.getElem?_append_right (by simp [hl, hw]; omega),
      List.getElem?_append_right (by simp [hl, hw]; omega)]
    simp

theorem dot_eq_sum {a b : List ℝ} {m : Nat} (ha : a.length = m) (hb : b.length = m) :
    dot a b = ∑ r ∈ Finset.range m, a.getD r 0 * b.getD r 0 := by
  rw [← sum_range_list]
  unfold dot
  congr 1
  apply List.ext_getElem?
  intro i
  by_cases hi : i < m
  · have h1 : i < a.length := by omega
    have h2 : i < b.length := by omega
    simp [hi, h1, h2]
  · have h1 : a.length ≤ i := by omega
    simp [hi, h1]

/-- The Lagrangian is affine in every `states_dot` and `con_outputs` entry. -/
theorem lagrangian_set (hM : M.Good) {v lam : List ℝ} (hv : v.length = M.numVar) (hl : lam.length = M.numRes) (μ : ℝ)
    {c : Nat} (hc : M.nx + M.nu ≤ c) (hc' : c < M.numVar) (t : ℝ) :
    dot lam (M.flatImplicit (v.set c t) μ)
      = dot lam (M.flatImplicit v μ) - lam.getD (c - (M.nx + M.nu)) 0 * (t - v.getD c 0) := by
  rw [dot_eq_sum hl (length_flatImplicit hM (by simpa using hv) μ), dot_eq_sum hl (length_flatImplicit hM hv μ)]
  simp only [flatImplicit_set hM hv μ hc hc' t, mul_sub, Finset.sum_sub_distrib]
  congr 1
  have hlt : c - (M.nx + M.nu) < M.numRes := by
    rw [numVar_eq] at hc'; unfold numRes; omega
  rw [sum_collapse _ hlt]
  · rw [if_pos (by omega), mul_sub]
  · intro a _ hne
    rw [if_neg (by omega), mul_zero]

/-! ## The declared structures in closed form -/

theorem lookup_groups (M : ExplicitModel) : M.groups.lookup "states" = some M.states ∧
    M.groups.lookup "inputs" = some M.inputs ∧ M.groups.lookup "states_dot" = some M.states ∧
    M.groups.lookup "con_outputs" = some M.conOutputs := by
  refine ⟨?_, ?_, ?_, ?_⟩ <;> rfl

theorem mapM_index {ns : List String} (hnd : ns.Nodup) (off : Nat) (f : String → Py Nat)
    (hf : ∀ n ∈ ns, f n = .ok (ns.idxOf n + off)) :
    ns.mapM f = .ok ((List.range ns.length).map (off + ·)) := by
  have key : ∀ l : List String, (∀ n ∈ l, f n = .ok (ns.idxOf n + off)) →
      l.mapM f = .ok (l.map fun n => ns.idxOf n + off) := by
    intro l
    induction l with
    | nil => intro _; rfl
    | cons a l ih =>
      intro h
      rw [List.mapM_cons, h a (by simp), ih (fun n hn => h n (by simp [hn]))]
      rfl
  rw [key ns hf]
  congr 1
  apply List.ext_getElem?
  intro i
  by_cases hi : i < ns.length
  · simp only [List.getElem?_map, List.getElem?_eq_getElem hi, Option.map_some, List.getElem?_range hi]
    rw [hnd.idxOf_getElem, Nat.add_comm]
  · have : ns.length ≤ i := by omega
    simp [this]

/-- **C44 (flat positions).** The groups occupy consecutive positions of the flat stage vector, in the order states,
inputs, states_dot, con_outputs: the order in which `DecVarOperator` lays out a stage. -/
theorem C44_flat_positions (hM : M.Good) :
    M.groupIndices "states" = .ok (List.range M.nx) ∧
    M.groupIndices "inputs" = .ok ((List.range M.nu).map (M.nx + ·)) ∧
    M.groupIndices "states_dot" = .ok ((List.range M.nx).map (M.nx + M.nu + ·)) ∧
    M.groupIndices "con_outputs" = .ok ((List.range M.ny).map (M.nx + M.nu + M.nx + ·)) := by
  obtain ⟨l1, l2, l3, l4⟩ := lookup_groups M
  have hoff : (0 :: (Np.cumsum (M.groups.map fun g => g.2.length)).dropLast)
      = [0, M.nx, M.nx + M.nu, M.nx + M.nu + M.nx] := by
    simp only [groups, List.map_cons, List.map_nil, Np.cumsum, nx, nu, List.dropLast]
    simp [Nat.add_assoc]
  have hz : (M.groups.map (·.1)).zip [0, M.nx, M.nx + M.nu, M.nx + M.nu + M.nx]
      = [("states", 0), ("inputs", M.nx), ("states_dot", M.nx + M.nu), ("con_outputs", M.nx + M.nu + M.nx)] := rfl
  refine ⟨?_, ?_, ?_, ?_⟩
  · unfold groupIndices
    rw [l1]
    dsimp only
    rw [mapM_index hM.nodupS 0]
    · simp [nx]
    · intro n hn
      unfold varIndexInFlat
      rw [l1]
      dsimp only
      rw [if_pos hn, hoff, hz]
      rfl
  · unfold groupIndices
    rw [l2]
    dsimp only
    rw [mapM_index hM.nodupI M.nx]
    · simp [nu]
    · intro n hn
      unfold varIndexInFlat
      rw [l2]
      dsimp only
      rw [if_pos hn, hoff, hz]
      rfl
  · unfold groupIndices
    rw [l3]
    dsimp only
    rw [mapM_index hM.nodupS (M.nx + M.nu)]
    · simp [nx]
    · intro n hn
      unfold varIndexInFlat
      rw [l3]
      dsimp only
      rw [if_pos hn, hoff, hz]
      rfl
  · unfold groupIndices
    rw [l4]
    dsimp only
    rw [mapM_index hM.nodupY (M.nx + M.nu + M.nx)]
    · simp [ny]
    · intro n hn
      unfold varIndexInFlat
      rw [l4]
      dsimp only
      rw [if_pos hn, hoff, hz]
      rfl

theorem range_append (a b : Nat) : List.range a ++ (List.range b).map (a + ·) = List.range (a + b) := by
  rw [List.range_add]

/-- The Jacobian structure: a dense block over states and inputs, and one diagonal. -/
theorem jacStructure_eq (hM : M.Good) : M.jacStructure = .ok
    ((denseStructure M.numRes (M.nx + M.nu)).1 ++ List.range (M.nx + M.ny),
     (denseStructure M.numRes (M.nx + M.nu)).2 ++ (List.range (M.nx + M.ny)).map (M.nx + M.nu + ·)) := by
  obtain ⟨h1, h2, h3, h4⟩ := C44_flat_positions hM
  unfold jacStructure
  rw [if_neg (by have := hM.pos; unfold numRes; omega), h1, h2, h3, h4]
  simp only [bind, Except.bind, pure, Except.pure, Except.ok.injEq, Prod.mk.injEq, denseStructure]
  constructor
  · rw [List.append_assoc, range_append]
  · rw [range_append, List.append_assoc]
    congr 1
    · rw [List.flatMap, List.map_const']
      simp
    · rw [List.range_add, List.map_append, List.map_map]
      congr 1
      apply List.map_congr_left
      intro a _
      simp only [Function.comp]; omega

theorem zip_dense (m n : Nat) : (denseStructure m n).1.zip (denseStructure m n).2
    = List.product (List.range m) (List.range n) := by
  unfold denseStructure List.product
  dsimp only
  generalize List.range m = l
  induction l with
  | nil => rfl
  | cons a l ih =>
    simp only [List.flatMap_cons]
    rw [List.zip_append (by simp), ih]
    congr 1
    apply List.ext_getElem?
    intro i
    by_cases hi : i < n
    · simp [hi]
    · simp [hi]

theorem mem_zip_dense (m n i j : Nat) : (i, j) ∈ (denseStructure m n).1.zip (denseStructure m n).2 ↔ i < m ∧ j < n := by
  rw [zip_dense]; simp [List.product]

theorem nodup_zip_dense (m n : Nat) : ((denseStructure m n).1.zip (denseStructure m n).2).Nodup := by
  rw [zip_dense]
  exact List.nodup_range.product List.nodup_range

theorem zip_jac (M : ExplicitModel) :
    ((denseStructure M.numRes (M.nx + M.nu)).1 ++ List.range (M.nx + M.ny)).zip
      ((denseStructure M.numRes (M.nx + M.nu)).2 ++ (List.range (M.nx + M.ny)).map (M.nx + M.nu + ·))
    = (denseStructure M.numRes (M.nx + M.nu)).1.zip (denseStructure M.numRes (M.nx + M.nu)).2
      ++ (List.range (M.nx + M.ny)).map (fun k => (k, M.nx + M.nu + k)) := by
  rw [List.zip_append (by rw [(length_dense _ _).1, (length_dense _ _).2])]
  congr 1
  rw [List.zip_eq_zipWith, List.zipWith_map_right, List.zipWith_self]

theorem mem_jac (M : ExplicitModel) (i j : Nat) :
    (i, j) ∈ ((denseStructure M.numRes (M.nx + M.nu)).1 ++ List.range (M.nx + M.ny)).zip
      ((denseStructure M.numRes (M.nx + M.nu)).2 ++ (List.range (M.nx + M.ny)).map (M.nx + M.nu + ·))
    ↔ (i < M.numRes ∧ j < M.nx + M.nu) ∨ (i < M.nx + M.ny ∧ j = M.nx + M.nu + i) := by
  rw [zip_jac, List.mem_append, mem_zip_dense]
  simp only [List.mem_map, List.mem_range, Prod.mk.injEq]
  constructor
  · rintro (h | ⟨k, hk, rfl, rfl⟩)
    · exact Or.inl h
    · exact Or.inr ⟨hk, rfl⟩
  · rintro (h | ⟨h, rfl⟩)
    · exact Or.inl h
    · exact Or.inr ⟨i, h, rfl, rfl⟩

theorem nodup_jac (M : ExplicitModel) :
    (((denseStructure M.numRes (M.nx + M.nu)).1 ++ List.range (M.nx + M.ny)).zip
      ((denseStructure M.numRes (M.nx + M.nu)).2 ++ (List.range (M.nx + M.ny)).map (M.nx + M.nu + ·))).Nodup := by
  rw [zip_jac, List.nodup_append]
  refine ⟨nodup_zip_dense _ _, ?_, ?_⟩
  · refine List.Nodup.map ?_ List.nodup_range
    intro a b h
    simp only [Prod.mk.injEq] at h
    exact h.1
  · rintro ⟨a, b⟩ h1 ⟨c, d⟩ h2 h
    rw [mem_zip_dense] at h1
    obtain ⟨k, _, hk⟩ := List.mem_map.mp h2
    simp only [Prod.mk.injEq] at hk h
    omega

theorem keep_zipWith {α β γ : Type} (f : α → β → γ) (m : List Bool) (a : List α) (b : List β) :
    List.zipWith f (keep m a) (keep m b) = keep m (List.zipWith f a b) := by
  induction m generalizing a b with
  | nil => simp [keep]
  | cons x m ih =>
    cases a with
    | nil => simp [keep]
    | cons p a =>
      cases b with
      | nil => simp [keep]
      | cons q b =>
        simp only [List.zipWith_cons_cons, keep_cons]
        cases x <;> simp [ih]

theorem mem_keep {α : Type} {m : List Bool} {a : List α} {x : α} (h : x ∈ keep m a) : x ∈ a := by
  unfold keep at h
  obtain ⟨p, hp, hx⟩ := List.mem_filterMap.mp h
  have := (List.of_mem_zip hp).2
  split at hx <;> simp_all

theorem length_keep_eq {α β : Type} (m : List Bool) (a : List α) (b : List β) (h : a.length = b.length) :
    (keep m a).length = (keep m b).length := by
  induction m generalizing a b with
  | nil => simp [keep]
  | cons x m ih =>
    cases a with
    | nil => cases b with
      | nil => simp [keep]
      | cons q b => simp at h
    | cons p a =>
      cases b with
      | nil => simp at h
      | cons q b =>
        simp only [keep_cons]
        cases x <;> simp [ih a b (by simpa using h)]

/-! ## Completeness -/

/-- The unit problem in closed form. -/
noncomputable def unitOf (M : ExplicitModel) (D : List ℝ → ℝ → Nat → Nat → ℝ)
    (D2 : List ℝ → List ℝ → ℝ → Nat → Nat → ℝ) : UnitProblem :=
  let js := ((denseStructure M.numRes (M.nx + M.nu)).1 ++ List.range (M.nx + M.ny),
     (denseStructure M.numRes (M.nx + M.nu)).2 ++ (List.range (M.nx + M.ny)).map (M.nx + M.nu + ·))
  let st := denseStructure M.numVar M.numVar
  let remove := (List.range M.nx).map (M.nx + M.nu + ·) ++ (List.range M.ny).map (M.nx + M.nu + M.nx + ·)
  let mask := List.zipWith (fun r c => decide (r ∉ remove) && decide (c ∉ remove)) st.1 st.2
  { numIn := M.numVar, numCon := M.numRes, con := M.flatImplicit
    jac := fun v μ => List.zipWith (D v μ) js.1 js.2
    hess := fun v l μ => List.zipWith (D2 v l μ) (keep mask st.1) (keep mask st.2)
    jacStruct := js, hessStruct := (keep mask st.1, keep mask st.2) }

theorem jaxUnit_eq (hM : M.Good) (D : List ℝ → ℝ → Nat → Nat → ℝ) (D2 : List ℝ → List ℝ → ℝ → Nat → Nat → ℝ) :
    M.jaxUnit D D2 = .ok (M.unitOf D D2) := by
  obtain ⟨h1, h2, h3, h4⟩ := C44_flat_positions hM
  unfold jaxUnit hessStructure
  rw [jacStructure_eq hM, h3, h4]
  rfl


/-- The dense Jacobian is the derivative (what `jax.jacobian` is trusted for), at the points `A` where the model is differentiable. -/
def DenseJac (M : ExplicitModel) (D : List ℝ → ℝ → Nat → Nat → ℝ) (A : List ℝ → ℝ → Prop := fun _ _ => True) : Prop :=
  ∀ v μ, v.length = M.numVar → A v μ → IsJacobianAt M.numVar M.numRes (fun z => M.flatImplicit z μ) v (D v μ)

/-- The dense Hessian is the second derivative of the Lagrangian (what `jax.hessian` is trusted for), at the points `A`. -/
def DenseHess (M : ExplicitModel) (D2 : List ℝ → List ℝ → ℝ → Nat → Nat → ℝ) (A : List ℝ → ℝ → Prop := fun _ _ => True) : Prop :=
  ∀ v lam μ, v.length = M.numVar → lam.length = M.numRes → A v μ →
    IsHessianAt M.numVar (fun z => dot lam (M.flatImplicit z μ)) v (fun _ _ => True) (D2 v lam μ)

/-- The Jacobian half of C44, for any Hessian. -/
theorem unitOf_jac (hM : M.Good) {D : List ℝ → ℝ → Nat → Nat → ℝ} {A : List ℝ → ℝ → Prop} (hD : M.DenseJac D A)
    (D2 : List ℝ → List ℝ → ℝ → Nat → Nat → ℝ) : UnitJac (M.unitOf D D2) A := by
  have hpos := hM.pos
  have hnv := numVar_eq M
  intro μ
  unfold unitOf
  dsimp only
  refine ⟨⟨?_, ?_, ?_⟩, ?_⟩
  · simp only [List.length_append, List.length_map, List.length_range]
    rw [(length_dense _ _).1, (length_dense _ _).2]
  · intro r hr
    simp only [List.mem_append, List.mem_range] at hr
    rcases hr with hr | hr
    · exact (structIn_dense _ _).2.1 r hr
    · unfold numRes; omega
  · intro c hc
    simp only [List.mem_append, List.mem_map, List.mem_range] at hc
    rcases hc with hc | ⟨k, hk, rfl⟩
    · have := (structIn_dense _ _).2.2 c hc
      omega
    · omega
  · intro v hv
    refine ⟨length_flatImplicit hM hv μ, ?_, ?_⟩
    · simp only [List.length_zipWith, List.length_append, List.length_map, List.length_range]
      rw [(length_dense _ _).1, (length_dense _ _).2]; simp
    · intro hA r hr c hc
      dsimp only at hr hc ⊢
      rw [assemble_extract _ _ _ (by
        simp only [List.length_append, List.length_map, List.length_range]
        rw [(length_dense _ _).1, (length_dense _ _).2]) (nodup_jac M)]
      have hd := hD v μ hv hA r hr c hc
      by_cases hmem : (r < M.numRes ∧ c < M.nx + M.nu) ∨ (r < M.nx + M.ny ∧ c = M.nx + M.nu + r)
      · rw [if_pos ((mem_jac M r c).mpr hmem)]
        exact hd
      · rw [if_neg (fun h => hmem ((mem_jac M r c).mp h))]
        have e : (fun t => (M.flatImplicit (v.set c t) μ).getD r 0) = fun _ => (M.flatImplicit v μ).getD r 0 := by
          funext t
          rw [flatImplicit_set hM hv μ (by omega) hc t, if_neg (by omega), sub_zero]
        rw [e]
        exact hasDerivAt_const _ _

/-- **C44 (sparsity is complete).** For every explicit model, the unit problem built from dense derivatives read at the
declared sparse positions has the exact Jacobian and Hessian wherever the dense ones are right: no entry outside the declared structures is ever non-zero
and none is counted twice. -/
theorem C44_sparsity_complete (hM : M.Good) {D : List ℝ → ℝ → Nat → Nat → ℝ}
    {D2 : List ℝ → List ℝ → ℝ → Nat → Nat → ℝ} {A : List ℝ → ℝ → Prop} (hD : M.DenseJac D A)
    (hD2 : M.DenseHess D2 A) :
    ∃ u, M.jaxUnit D D2 = .ok u ∧ u.numIn = M.numVar ∧ u.numCon = M.numRes ∧ u.con = M.flatImplicit ∧
      UnitJac u A ∧ UnitHess u (fun _ _ => True) A := by
  obtain ⟨h1, h2, h3, h4⟩ := C44_flat_positions hM
  have hpos := hM.pos
  have hnv := numVar_eq M
  have hremove : ∀ c, c ∈ (List.range M.nx).map (M.nx + M.nu + ·) ++ (List.range M.ny).map (M.nx + M.nu + M.nx + ·)
      ↔ M.nx + M.nu ≤ c ∧ c < M.numVar := by
    intro c
    simp only [List.mem_append, List.mem_map, List.mem_range]
    constructor
    · rintro (⟨k, hk, rfl⟩ | ⟨k, hk, rfl⟩) <;> omega
    · rintro ⟨ha, hb⟩
      by_cases hc : c < M.nx + M.nu + M.nx
      · exact Or.inl ⟨c - (M.nx + M.nu), by omega, by omega⟩
      · exact Or.inr ⟨c - (M.nx + M.nu + M.nx), by omega, by omega⟩
  refine ⟨M.unitOf D D2, jaxUnit_eq hM D D2, rfl, rfl, rfl, ?_, ?_⟩
  · exact unitOf_jac hM hD D2
  · intro μ
    unfold unitOf
    dsimp only
    refine ⟨⟨?_, ?_, ?_⟩, ?_⟩
    · exact length_keep_eq _ _ _ (by rw [(length_dense _ _).1, (length_dense _ _).2])
    · intro r hr
      exact (structIn_dense _ _).2.1 r (mem_keep hr)
    · intro r hr
      exact (structIn_dense _ _).2.2 r (mem_keep hr)
    · intro v lam hv hlam
      dsimp only at hv hlam ⊢
      refine ⟨?_, ?_⟩
      · rw [List.length_zipWith, length_keep_eq _ (denseStructure M.numVar M.numVar).2 (denseStructure M.numVar M.numVar).1
          (by rw [(length_dense _ _).1, (length_dense _ _).2]), Nat.min_self]
      · intro hA
        obtain ⟨g, hg1, hg2⟩ := hD2 v lam μ hv hlam hA
        refine ⟨g, hg1, ?_⟩
        intro i j hi hj _
        have hd := hg2 i j hi hj trivial
        rw [keep_zipWith, assemble_keep _ _ _ _ (by rw [(length_dense _ _).1, (length_dense _ _).2])
          (by rw [List.length_zipWith, (length_dense _ _).1, (length_dense _ _).2]; simp),
          assemble_extract _ _ _ (by rw [(length_dense _ _).1, (length_dense _ _).2]) (nodup_zip_dense _ _),
          if_pos ((mem_zip_dense _ _ _ _).mpr ⟨hi, hj⟩)]
        by_cases hk : i < M.nx + M.nu ∧ j < M.nx + M.nu
        · rw [if_pos]
          · exact hd
          · simp only [Bool.and_eq_true, decide_eq_true_eq, hremove]
            omega
        · rw [if_neg]
          swap
          · simp only [Bool.and_eq_true, decide_eq_true_eq, hremove]
            omega
          have hset : v.set j (v.getD j 0) = v := by
            apply List.ext_getElem?
            intro k
            rw [List.getElem?_set]
            split
            · next h => subst h; simp [hv, hj]
            · rfl
          have hconst : (fun t => g (v.set j t) i) =ᶠ[nhds (v.getD j 0)] fun _ => g v i := by
            have hnow := (hg1 j hj).self_of_nhds
            rw [hset] at hnow
            filter_upwards [hg1 j hj] with t ht
            by_cases hi' : M.nx + M.nu ≤ i
            · -- the gradient w.r.t. a linear variable is minus its multiplier
              have key : ∀ y : List ℝ, y.length = M.numVar → IsGradientAt M.numVar (fun z => dot lam (M.flatImplicit z μ)) y (g y) →
                  g y i = -lam.getD (i - (M.nx + M.nu)) 0 := by
                intro y hy hgy
                have a1 := hgy i hi
                have e : (fun t => dot lam (M.flatImplicit (y.set i t) μ)) = fun t =>
                    dot lam (M.flatImplicit y μ) - lam.getD (i - (M.nx + M.nu)) 0 * (t - y.getD i 0) := by
                  funext t; exact lagrangian_set hM hy hlam μ hi' hi t
                rw [e] at a1
                have a2 : HasDerivAt (fun t => dot lam (M.flatImplicit y μ)
                    - lam.getD (i - (M.nx + M.nu)) 0 * (t - y.getD i 0)) (0 - lam.getD (i - (M.nx + M.nu)) 0 * 1) (y.getD i 0) := by
                  refine (hasDerivAt_const _ _).sub (HasDerivAt.const_mul _ ?_)
                  exact (hasDerivAt_id _).sub_const _
                rw [a1.unique a2]; ring
              rw [key _ (by simpa using hv) ht, key _ hv hnow]
            · have hj' : M.nx + M.nu ≤ j := by omega
              have hne : i ≠ j := by omega
              have a1 := ht i hi
              have a2 := hnow i hi
              have e : (fun s => dot lam (M.flatImplicit ((v.set j t).set i s) μ)) = fun s =>
                  dot lam (M.flatImplicit (v.set i s) μ) - lam.getD (j - (M.nx + M.nu)) 0 * (t - v.getD j 0) := by
                funext s
                rw [List.set_comm _ _ (Ne.symm hne), lagrangian_set hM (by simpa using hv) hlam μ hj' hj t]
                have : (v.set i s).getD j 0 = v.getD j 0 := by
                  simp only [List.getD_eq_getElem?_getD, List.getElem?_set_ne hne]
                rw [this]
              rw [e] at a1
              have e2 : (v.set j t).getD i 0 = v.getD i 0 := by
                simp only [List.getD_eq_getElem?_getD, List.getElem?_set_ne (Ne.symm hne)]
              rw [e2] at a1
              exact a1.unique (a2.sub_const _)
          exact (hasDerivAt_const _ _).congr_of_eventuallyEq hconst

/-- **C44 (residual order).** The unit constraints are: state derivative minus `states_dot`, constraint output minus
`con_outputs`, residuals, in this order, at the states and inputs found in the flat stage vector. -/
theorem C44_residuals (hM : M.Good) {v : List ℝ} (hv : v.length = M.numVar) (μ : ℝ) :
    ∃ x u xd y, v = x ++ u ++ xd ++ y ∧ x.length = M.nx ∧ u.length = M.nu ∧ xd.length = M.nx ∧ y.length = M.ny ∧
      (∀ k, k < M.nx → (M.flatImplicit v μ).getD k 0 = (M.f x u μ).getD k 0 - xd.getD k 0) ∧
      (∀ k, k < M.ny → (M.flatImplicit v μ).getD (M.nx + k) 0 = (M.h x u μ).getD k 0 - y.getD k 0) ∧
      (∀ k, k < M.nr → (M.flatImplicit v μ).getD (M.nx + M.ny + k) 0 = (M.r x u μ).getD k 0) := by
  have hv' := hv
  rw [numVar_eq] at hv'
  have hF := hM.lenF _ _ μ (length_xOf hv) (length_uOf hv)
  have hH := hM.lenH _ _ μ (length_xOf hv) (length_uOf hv)
  have hR := hM.lenR _ _ μ (length_xOf hv) (length_uOf hv)
  have hw := length_wOf hv
  refine ⟨M.xOf v, M.uOf v, (M.wOf v).take M.nx, (M.wOf v).drop M.nx, ?_, length_xOf hv, length_uOf hv,
    by rw [List.length_take]; omega, by rw [List.length_drop]; omega, ?_, ?_, ?_⟩
  · rw [List.append_assoc (M.xOf v ++ M.uOf v), List.take_append_drop]
    unfold xOf uOf wOf
    have e : v.take M.nx = (v.take (M.nx + M.nu)).take M.nx := by rw [List.take_take]; congr 1; omega
    rw [e, List.take_append_drop, List.take_append_drop]
  · intro k hk
    rw [flatImplicit_eq hM hv, List.getD_eq_getElem?_getD, List.getElem?_append_left (by
      simp only [List.length_zipWith, length_rhs hM hv, hw]; omega)]
    have a1 : k < (M.rhs v μ).length := by rw [length_rhs hM hv]; omega
    have a2 : k < (M.wOf v).length := by omega
    have a3 : k < (M.f (M.xOf v) (M.uOf v) μ).length := by omega
    have e1 : (M.rhs v μ)[k]? = (M.f (M.xOf v) (M.uOf v) μ)[k]? := by
      unfold rhs
      rw [List.getElem?_append_left a3]
    rw [List.getElem?_zipWith, e1]
    simp [hk, a2, a3]
  · intro k hk
    rw [flatImplicit_eq hM hv, List.getD_eq_getElem?_getD, List.getElem?_append_left (by
      simp only [List.length_zipWith, length_rhs hM hv, hw]; omega)]
    have a1 : M.nx + k < (M.rhs v μ).length := by rw [length_rhs hM hv]; omega
    have a2 : M.nx + k < (M.wOf v).length := by omega
    have a3 : (M.f (M.xOf v) (M.uOf v) μ).length ≤ M.nx + k := by omega
    have a4 : k < (M.h (M.xOf v) (M.uOf v) μ).length := by omega
    have e1 : (M.rhs v μ)[M.nx + k]? = (M.h (M.xOf v) (M.uOf v) μ)[k]? := by
      unfold rhs
      rw [List.getElem?_append_right a3]
      congr 1; omega
    rw [List.getElem?_zipWith, e1]
    simp [a2, a4]
  · intro k hk
    have a1 : (List.zipWith (· - ·) (M.rhs v μ) (M.wOf v)).length = M.nx + M.ny := by
      simp [length_rhs hM hv, hw]
    rw [flatImplicit_eq hM hv, List.getD_eq_getElem?_getD, List.getElem?_append_right (by omega), a1]
    have : M.nx + M.ny + k - (M.nx + M.ny) = k := by omega
    rw [this, List.getD_eq_getElem?_getD]

/-! ## A model that meets the hypotheses -/

/-- One state `x`, one input `u`, one constraint output: `x_dot = x * u`, `p = x * x`. -/
noncomputable def exModel : ExplicitModel :=
  { states := ["x"], inputs := ["u"], conOutputs := ["p"], residuals := []
    f := fun x u _ => [x.getD 0 0 * u.getD 0 0]
    h := fun x _ _ => [x.getD 0 0 * x.getD 0 0]
    r := fun _ _ _ => [] }

theorem exModel_good : exModel.Good :=
  ⟨by decide, by simp [exModel], by simp [exModel], by simp [exModel], fun _ _ _ _ _ => rfl, fun _ _ _ _ _ => rfl,
    fun _ _ _ _ _ => rfl⟩

/-- Its dense Jacobian. -/
noncomputable def exD (v : List ℝ) (_ : ℝ) : Nat → Nat → ℝ
  | 0, 0 => v.getD 1 0
  | 0, 1 => v.getD 0 0
  | 0, 2 => -1
  | 1, 0 => 2 * v.getD 0 0
  | 1, 3 => -1
  | _, _ => 0

/-- Its dense Lagrangian Hessian. -/
noncomputable def exD2 (_ lam : List ℝ) (_ : ℝ) : Nat → Nat → ℝ
  | 0, 0 => 2 * lam.getD 1 0
  | 0, 1 => lam.getD 0 0
  | 1, 0 => lam.getD 0 0
  | _, _ => 0

theorem exFlat (a b c d μ : ℝ) : exModel.flatImplicit [a, b, c, d] μ = [a * b - c, a * a - d] := by
  rw [flatImplicit_eq exModel_good rfl]
  simp [exModel, rhs, xOf, uOf, wOf, nx, nu]

theorem four {v : List ℝ} (hv : v.length = exModel.numVar) : ∃ a b c d, v = [a, b, c, d] := by
  have : v.length = 4 := hv
  match v, this with
  | [a, b, c, d], _ => exact ⟨a, b, c, d, rfl⟩

theorem exDense : exModel.DenseJac exD := by
  intro v μ hv _ r hr j hj
  obtain ⟨a, b, c, d, rfl⟩ := four hv
  have hr : r < 2 := hr
  have hj : j < 4 := hj
  interval_cases r <;> interval_cases j <;>
    simp only [List.set_cons_zero, List.set_cons_succ, exFlat, List.getD_cons_zero, List.getD_cons_succ, exD]
  · simpa using ((hasDerivAt_id a).mul_const b).sub_const c
  · simpa using ((hasDerivAt_id b).const_mul a).sub_const c
  · simpa using (hasDerivAt_id c).const_sub (a * b)
  · exact hasDerivAt_const _ _
  · have := ((hasDerivAt_id a).mul (hasDerivAt_id a)).sub_const d
    refine this.congr_deriv ?_
    simp; ring
  · exact hasDerivAt_const _ _
  · exact hasDerivAt_const _ _
  · simpa using (hasDerivAt_id d).const_sub (a * a)

theorem exDense2 : exModel.DenseHess exD2 := by
  intro v lam μ hv hlam _
  have hl2 : lam.length = 2 := hlam
  obtain ⟨p, q, rfl⟩ : ∃ p q, lam = [p, q] := by
    match lam, hl2 with
    | [p, q], _ => exact ⟨p, q, rfl⟩
  refine IsHessianAt.of_global hv ⟨fun y i => match i with
    | 0 => p * y.getD 1 0 + q * (2 * y.getD 0 0)
    | 1 => p * y.getD 0 0
    | 2 => -p
    | _ => -q, ?_, ?_⟩
  · intro y hy j hj
    obtain ⟨a, b, c, d, rfl⟩ := four hy
    have hj : j < 4 := hj
    interval_cases j <;>
      simp only [List.set_cons_zero, List.set_cons_succ, exFlat, List.getD_cons_zero, List.getD_cons_succ, dot,
        List.zipWith_cons_cons, List.zipWith_nil_right, List.sum_cons, List.sum_nil, add_zero]
    · refine HasDerivAt.congr_deriv (((((hasDerivAt_id a).mul_const b).sub_const c).const_mul p).add
        ((((hasDerivAt_id a).mul (hasDerivAt_id a)).sub_const d).const_mul q)) ?_
      simp only [id_eq]; ring
    · refine HasDerivAt.congr_deriv ((((hasDerivAt_id b).const_mul a).sub_const c).const_mul p |>.add_const _) ?_
      simp
    · refine HasDerivAt.congr_deriv (((hasDerivAt_id c).const_sub (a * b)).const_mul p |>.add_const _) ?_
      simp
    · refine HasDerivAt.congr_deriv (((hasDerivAt_id d).const_sub (a * a)).const_mul q |>.const_add _) ?_
      simp
  · intro i j hi hj _
    obtain ⟨a, b, c, d, rfl⟩ := four hv
    have hi : i < 4 := hi
    have hj : j < 4 := hj
    interval_cases i <;> interval_cases j <;>
      simp only [List.set_cons_zero, List.set_cons_succ, List.getD_cons_zero, List.getD_cons_succ, exD2]
    all_goals first
      | exact hasDerivAt_const _ _
      | (refine HasDerivAt.congr_deriv (((hasDerivAt_id _).const_mul (2 : ℝ)).const_mul q |>.const_add _) ?_; simp; ring)
      | (refine HasDerivAt.congr_deriv ((hasDerivAt_id _).const_mul p |>.add_const _) ?_; simp)
      | (refine HasDerivAt.congr_deriv ((hasDerivAt_id _).const_mul p) ?_; simp)

/-- The example unit problem has exact derivatives at every stage vector. -/
example : ∃ u, exModel.jaxUnit exD exD2 = .ok u ∧ u.numIn = 4 ∧ u.numCon = 2 ∧ UnitJac u ∧ UnitHess u (fun _ _ => True) := by
  obtain ⟨u, h1, h2, h3, _, h5, h6⟩ := C44_sparsity_complete exModel_good exDense exDense2
  exact ⟨u, h1, h2, h3, h5, h6⟩

example : exModel.jacStructure = .ok ([0, 0, 1, 1, 0, 1], [0, 1, 0, 1, 2, 3]) := by
  rw [jacStructure_eq exModel_good]; decide

end Lumos.Ocp.ExplicitModel
