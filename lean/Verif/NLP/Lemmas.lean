import Verif.NLP.Model
/-!
# Helper lemmas for the NLP components
-/

namespace Lumos.NLP

open Lumos

theorem gather_ok {a : List ℝ} {idx : List Nat} (h : ∀ i ∈ idx, i < a.length) :
    gather a idx = .ok (idx.map fun i => a.getD i 0) := by
  unfold gather
  induction idx with
  | nil => rfl
  | cons i is ih =>
    have hi := h i (by simp)
    have ih := ih (fun k hk => h k (by simp [hk]))
    simp only [List.mapM_cons, List.getElem?_eq_getElem hi, ih]
    simp [bind, Except.bind, pure, Except.pure, hi]

/-- The structure arrays have equal length and stay inside an `m × n` matrix. -/
def StructIn (st : List Nat × List Nat) (m n : Nat) : Prop :=
  st.1.length = st.2.length ∧ (∀ r ∈ st.1, r < m) ∧ (∀ c ∈ st.2, c < n)

theorem length_dense (m n : Nat) : (denseStructure m n).1.length = m * n
    ∧ (denseStructure m n).2.length = m * n := by
  simp [denseStructure, List.length_flatMap]

theorem structIn_dense (m n : Nat) : StructIn (denseStructure m n) m n := by
  refine ⟨?_, ?_, ?_⟩
  · rw [(length_dense m n).1, (length_dense m n).2]
  · intro r hr
    simp only [denseStructure, List.mem_flatMap, List.mem_range, List.mem_replicate] at hr
    obtain ⟨a, ha, _, rfl⟩ := hr
    exact ha
  · intro r hr
    simp only [denseStructure, List.mem_flatMap, List.mem_range] at hr
    obtain ⟨a, ha, hb⟩ := hr
    exact hb

theorem vdiv_map_map (rows cols : List Nat) (f g : Nat → ℝ) :
    vdiv (rows.map f) (cols.map g) = List.zipWith (fun r c => f r / g c) rows cols := by
  unfold vdiv
  rw [List.zipWith_map]

theorem vmul_map_map (rows cols : List Nat) (f g : Nat → ℝ) :
    vmul (rows.map f) (cols.map g) = List.zipWith (fun r c => f r * g c) rows cols := by
  unfold vmul
  rw [List.zipWith_map]

/-- The scales of the Jacobian as a function of the current scales. -/
theorem updateJacScales_ok (c : Cons) (hr : ∀ r ∈ c.jacStruct.1, r < c.conScales.length)
    (hc : ∀ k ∈ c.jacStruct.2, k < c.inScales.length) :
    c.updateJacScales = .ok { c with jacScales := (List.zipWith (fun r k => c.conScales.getD r 0 / c.inScales.getD k 0) c.jacStruct.1 c.jacStruct.2) } := by
  unfold Cons.updateJacScales
  rw [gather_ok hr, gather_ok hc]
  simp only [bind, Except.bind, pure, Except.pure, vdiv_map_map]

theorem updateHessScales_ok (c : Cons) (hr : ∀ r ∈ c.hessStruct.1, r < c.inScales.length)
    (hc : ∀ k ∈ c.hessStruct.2, k < c.inScales.length) :
    c.updateHessScales = .ok { c with hessScales := (List.zipWith (fun r k => 1 / (c.inScales.getD r 0 * c.inScales.getD k 0)) c.hessStruct.1 c.hessStruct.2) } := by
  unfold Cons.updateHessScales
  rw [gather_ok hr, gather_ok hc]
  simp only [bind, Except.bind, pure, Except.pure, vmul_map_map, List.map_zipWith]

theorem objUpdateHessScales_ok (c : Obj) (hr : ∀ r ∈ c.hessStruct.1, r < c.inScales.length)
    (hc : ∀ k ∈ c.hessStruct.2, k < c.inScales.length) :
    c.updateHessScales = .ok { c with hessScales := (List.zipWith (fun r k => 1 / (c.inScales.getD r 0 * c.inScales.getD k 0)) c.hessStruct.1 c.hessStruct.2) } := by
  unfold Obj.updateHessScales
  rw [gather_ok hr, gather_ok hc]
  simp only [bind, Except.bind, pure, Except.pure, vmul_map_map, List.map_zipWith]

theorem assemble_vdiv (rows cols : List Nat) (vals : List ℝ) (f : Nat → Nat → ℝ) (i j : Nat) :
    assemble rows cols (vdiv vals (List.zipWith f rows cols)) i j = assemble rows cols vals i j / f i j := by
  have h : vdiv vals (List.zipWith f rows cols)
      = List.zipWith (fun v s => v * s) vals (List.zipWith (fun r c => 1 / f r c) rows cols) := by
    unfold vdiv
    rw [← List.map_zipWith (f := fun s => 1 / s), List.zipWith_map_right]
    congr 1
    funext v s
    rw [mul_one_div]
  rw [h, assemble_scale, mul_one_div]

theorem dot_vdiv (lam c k : List ℝ) : dot lam (vdiv c k) = dot (vdiv lam k) c := by
  unfold dot vdiv
  congr 1
  induction lam generalizing c k with
  | nil => simp
  | cons a as ih =>
    cases c with
    | nil => cases k <;> simp
    | cons b bs =>
      cases k with
      | nil => simp
      | cons d ds =>
        simp only [List.zipWith_cons_cons, ih, List.cons.injEq, and_true]
        ring

/-- Chain rule along one coordinate: `t ↦ F((x * s) with entry j set to t * s_j)`. -/
theorem hasDerivAt_scaled {F : List ℝ → ℝ} {x s : List ℝ} (hl : x.length = s.length) {j : Nat} {d : ℝ}
    (h : HasDerivAt (fun t => F ((vmul x s).set j t)) d ((vmul x s).getD j 0)) :
    HasDerivAt (fun t => F (vmul (x.set j t) s)) (d * s.getD j 0) (x.getD j 0) := by
  have e : (fun t => F (vmul (x.set j t) s)) = (fun t => F ((vmul x s).set j t)) ∘ (fun t => t * s.getD j 0) := by
    funext t
    simp only [Function.comp, vmul_set hl]
  rw [e]
  apply HasDerivAt.comp
  · rw [getD_vmul hl] at h
    exact h
  · simpa using (hasDerivAt_id (x.getD j 0)).mul_const (s.getD j 0)

/-- The second-derivative chain rule for a diagonal rescaling of the argument. -/
theorem IsHessianAt.scaled {n : Nat} {f : List ℝ → ℝ} {x s : List ℝ} {P : Nat → Nat → Prop} {H : Nat → Nat → ℝ}
    (hx : x.length = n) (hs : s.length = n) (h : IsHessianAt n f (vmul x s) P H) :
    IsHessianAt n (fun y => f (vmul y s)) x P (fun i j => H i j * (s.getD i 0 * s.getD j 0)) := by
  obtain ⟨g, hg, hgg⟩ := h
  refine ⟨fun y i => g (vmul y s) i * s.getD i 0, ?_, ?_⟩
  · intro j hj
    have ht : Filter.Tendsto (fun t : ℝ => t * s.getD j 0) (nhds (x.getD j 0)) (nhds ((vmul x s).getD j 0)) := by
      rw [getD_vmul (by omega)]
      exact (continuous_id.mul continuous_const).tendsto _
    filter_upwards [ht.eventually (hg j hj)] with t h i hi
    have h := h i hi
    rw [← vmul_set (by omega)] at h
    exact hasDerivAt_scaled (F := f) (x := x.set j t) (by simp; omega) h
  · intro i j hi hj hp
    have h1 := hasDerivAt_scaled (F := fun y => g y i) (by omega) (hgg i j hi hj hp)
    have h2 := h1.mul_const (s.getD i 0)
    have e : H i j * (s.getD i 0 * s.getD j 0) = H i j * s.getD j 0 * s.getD i 0 := by ring
    beta_reduce
    rw [e]
    exact h2

end Lumos.NLP
