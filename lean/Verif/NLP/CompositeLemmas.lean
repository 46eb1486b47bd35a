import Verif.NLP.Props
/-!
# Helper lemmas for `CompositeProblem`
-/

namespace Lumos.NLP

open Lumos

/-! ## Assembling concatenations -/

theorem jacLoop_rows_ge (o : Nat) (cs : List (String × Cons)) : ∀ r ∈ (jacLoop o cs).1.flatten, o ≤ r := by
  induction cs generalizing o with
  | nil => simp [jacLoop]
  | cons c cs ih =>
    intro r hr
    simp only [jacLoop, List.flatten_cons, List.mem_append, List.mem_map] at hr
    rcases hr with ⟨a, _, rfl⟩ | hr
    · omega
    · have := ih _ r hr
      omega

theorem jacLoop_rows_lt (o : Nat) (cs : List (String × Cons))
    (h : ∀ c ∈ cs, ∀ r ∈ c.2.jacStruct.1, r < c.2.numCon) :
    ∀ r ∈ (jacLoop o cs).1.flatten, r < o + (cs.map fun c => c.2.numCon).sum := by
  induction cs generalizing o with
  | nil => simp [jacLoop]
  | cons c cs ih =>
    intro r hr
    simp only [jacLoop, List.flatten_cons, List.mem_append, List.mem_map] at hr
    simp only [List.map_cons, List.sum_cons]
    rcases hr with ⟨a, ha, rfl⟩ | hr
    · have := h c (by simp) a ha
      omega
    · have := ih (o + c.2.numCon) (fun c' hc' => h c' (by simp [hc'])) r hr
      omega

theorem jacLoop_cols_lt (o : Nat) (cs : List (String × Cons)) (n : Nat)
    (h : ∀ c ∈ cs, ∀ r ∈ c.2.jacStruct.2, r < n) : ∀ r ∈ (jacLoop o cs).2.flatten, r < n := by
  induction cs generalizing o with
  | nil => simp [jacLoop]
  | cons c cs ih =>
    intro r hr
    simp only [jacLoop, List.flatten_cons, List.mem_append] at hr
    rcases hr with hr | hr
    · exact h c (by simp) r hr
    · exact ih _ (fun c' hc' => h c' (by simp [hc'])) r hr

theorem jacLoop_lengths (o : Nat) (cs : List (String × Cons)) (x : List ℝ)
    (h : ∀ c ∈ cs, c.2.jacStruct.1.length = c.2.jacStruct.2.length
      ∧ (c.2.jacobian x).length = c.2.jacStruct.1.length) :
    (jacLoop o cs).1.flatten.length = (jacLoop o cs).2.flatten.length
      ∧ (cs.map fun c => c.2.jacobian x).flatten.length = (jacLoop o cs).1.flatten.length := by
  induction cs generalizing o with
  | nil => simp [jacLoop]
  | cons c cs ih =>
    obtain ⟨h1, h2⟩ := ih (o + c.2.numCon) (fun c' hc' => h c' (by simp [hc']))
    obtain ⟨h3, h4⟩ := h c (by simp)
    simp only [jacLoop, List.flatten_cons, List.length_append, List.length_map, List.map_cons]
    omega

theorem getD_append_left' {a b : List ℝ} {r : Nat} (h : r < a.length) : (a ++ b).getD r 0 = a.getD r 0 := by
  simp [List.getElem?_append_left h]

theorem getD_append_right' {a b : List ℝ} {r : Nat} (h : a.length ≤ r) :
    (a ++ b).getD r 0 = b.getD (r - a.length) 0 := by
  simp [List.getElem?_append_right h]

/-- Stacked constraints: the assembled Jacobian is the derivative, block by block. -/
theorem jacLoop_derivative (n o : Nat) (cs : List (String × Cons)) (x : List ℝ) (hx : x.length = n)
    (h : ∀ c ∈ cs, StructIn c.2.jacStruct c.2.numCon n ∧ (c.2.jacobian x).length = c.2.jacStruct.1.length
      ∧ (∀ y : List ℝ, y.length = n → (c.2.constraints y).length = c.2.numCon)
      ∧ IsJacobianAt n c.2.numCon c.2.constraints x
          (assemble c.2.jacStruct.1 c.2.jacStruct.2 (c.2.jacobian x)))
    (r : Nat) (hr : r < (cs.map fun c => c.2.numCon).sum) (j : Nat) (hj : j < n) :
    HasDerivAt (fun t => ((cs.map fun c => c.2.constraints (x.set j t)).flatten).getD r 0)
      (assemble (jacLoop o cs).1.flatten (jacLoop o cs).2.flatten (cs.map fun c => c.2.jacobian x).flatten (r + o) j)
      (x.getD j 0) := by
  induction cs generalizing o r with
  | nil => simp at hr
  | cons c cs ih =>
    obtain ⟨h1, h2, h3, h4⟩ := h c (by simp)
    have ht : ∀ c' ∈ cs, _ := fun c' hc' => h c' (by simp [hc'])
    simp only [List.map_cons, List.sum_cons] at hr
    simp only [jacLoop, List.flatten_cons, List.map_cons]
    rw [assemble_append _ _ _ _ _ _ (by simpa using h1.1) (by simpa using h2.symm), assemble_shift_rows,
      if_pos (by omega)]
    rw [show r + o - o = r by omega]
    by_cases hlt : r < c.2.numCon
    · have e0 : assemble (jacLoop (o + c.2.numCon) cs).1.flatten (jacLoop (o + c.2.numCon) cs).2.flatten
          (cs.map fun c => c.2.jacobian x).flatten (r + o) j = 0 := by
        apply assemble_row_out
        intro hm
        have := jacLoop_rows_ge _ _ _ hm
        omega
      rw [e0, add_zero]
      have hd := h4 r hlt j hj
      refine hd.congr_of_eventuallyEq (Filter.Eventually.of_forall fun t => ?_)
      exact getD_append_left' (by rw [h3 _ (by simp [hx])]; exact hlt)
    · have e0 : assemble c.2.jacStruct.1 c.2.jacStruct.2 (c.2.jacobian x) r j = 0 := by
        apply assemble_row_out
        intro hm
        exact hlt (h1.2.1 _ hm)
      rw [e0, zero_add]
      have hd := ih (o + c.2.numCon) ht (r - c.2.numCon) (by omega)
      rw [show r - c.2.numCon + (o + c.2.numCon) = r + o by omega] at hd
      refine hd.congr_of_eventuallyEq (Filter.Eventually.of_forall fun t => ?_)
      beta_reduce
      rw [getD_append_right' (by rw [h3 _ (by simp [hx])]; omega), h3 _ (by simp [hx])]

/-! ## Second derivatives of sums -/

theorem IsHessianAt.add {n : Nat} {f1 f2 : List ℝ → ℝ} {x : List ℝ} {P : Nat → Nat → Prop}
    {H1 H2 : Nat → Nat → ℝ} (h1 : IsHessianAt n f1 x P H1) (h2 : IsHessianAt n f2 x P H2) :
    IsHessianAt n (fun y => f1 y + f2 y) x P (fun i j => H1 i j + H2 i j) := by
  obtain ⟨g1, a1, b1⟩ := h1
  obtain ⟨g2, a2, b2⟩ := h2
  exact ⟨fun y i => g1 y i + g2 y i, fun j hj => by filter_upwards [a1 j hj, a2 j hj] with t h1 h2 i hi using (h1 i hi).add (h2 i hi),
    fun i j hi hj hp => (b1 i j hi hj hp).add (b2 i j hi hj hp)⟩

theorem IsHessianAt.mul_const {n : Nat} {f : List ℝ → ℝ} {x : List ℝ} {P : Nat → Nat → Prop}
    {H : Nat → Nat → ℝ} (h : IsHessianAt n f x P H) (a : ℝ) :
    IsHessianAt n (fun y => f y * a) x P (fun i j => H i j * a) := by
  obtain ⟨g, b1, b2⟩ := h
  exact ⟨fun y i => g y i * a, fun j hj => by filter_upwards [b1 j hj] with t h i hi using (h i hi).mul_const a,
    fun i j hi hj hp => (b2 i j hi hj hp).mul_const a⟩

theorem IsHessianAt.zero {n : Nat} {x : List ℝ} {P : Nat → Nat → Prop} (v : ℝ) :
    IsHessianAt n (fun _ => v) x P (fun _ _ => 0) :=
  ⟨fun _ _ => 0, fun _ _ => Filter.Eventually.of_forall fun _ _ _ => hasDerivAt_const _ _, fun _ _ _ _ _ => hasDerivAt_const _ _⟩

theorem dot_append (a1 a2 b1 b2 : List ℝ) (h : a1.length = b1.length) :
    dot (a1 ++ a2) (b1 ++ b2) = dot a1 b1 + dot a2 b2 := by
  unfold dot
  rw [List.zipWith_append h, List.sum_append]

/-- Sum over the pieces of a triplet list. -/
theorem assemble_flatten {ι : Type} (ps : List ι) (R C : ι → List Nat) (V : ι → List ℝ)
    (h : ∀ p ∈ ps, (R p).length = (C p).length ∧ (R p).length = (V p).length) (i j : Nat) :
    assemble (ps.map R).flatten (ps.map C).flatten (ps.map V).flatten i j
      = (ps.map fun p => assemble (R p) (C p) (V p) i j).sum := by
  induction ps with
  | nil => simp [assemble]
  | cons p ps ih =>
    obtain ⟨h1, h2⟩ := h p (by simp)
    simp only [List.map_cons, List.flatten_cons, List.sum_cons]
    rw [assemble_append _ _ _ _ _ _ h1 h2, ih (fun q hq => h q (by simp [hq]))]

theorem length_flatten_congr {ι : Type} {α β : Type} (ps : List ι) (R : ι → List α) (C : ι → List β)
    (h : ∀ p ∈ ps, (R p).length = (C p).length) : (ps.map R).flatten.length = (ps.map C).flatten.length := by
  induction ps with
  | nil => simp
  | cons p ps ih =>
    simp only [List.map_cons, List.flatten_cons, List.length_append, h p (by simp),
      ih (fun q hq => h q (by simp [hq]))]

/-- Hessian of a finite sum of functions. -/
theorem IsHessianAt.list_sum {ι : Type} {n : Nat} (ps : List ι) {F : ι → List ℝ → ℝ} {x : List ℝ}
    {P : Nat → Nat → Prop} {H : ι → Nat → Nat → ℝ} (h : ∀ p ∈ ps, IsHessianAt n (F p) x P (H p)) :
    IsHessianAt n (fun y => (ps.map fun p => F p y).sum) x P (fun i j => (ps.map fun p => H p i j).sum) := by
  induction ps with
  | nil => simpa using IsHessianAt.zero (n := n) (x := x) (P := P) 0
  | cons p ps ih =>
    simp only [List.map_cons, List.sum_cons]
    exact IsHessianAt.add (h p (by simp)) (ih (fun q hq => h q (by simp [hq])))

/-! ## Splitting -/

theorem split_parts {α : Type} (sizes : List Nat) (x : List α) (hne : sizes ≠ []) (hx : x.length = sizes.sum) :
    ∃ parts : List (List α), parts.map List.length = sizes ∧ parts.flatten = x
      ∧ Np.split x (Np.cumsum sizes.dropLast) = parts := by
  have : ∃ parts : List (List α), parts.map List.length = sizes ∧ parts.flatten = x := by
    clear hne
    induction sizes generalizing x with
    | nil => exact ⟨[], rfl, by simpa using (List.length_eq_zero_iff.mp (by simpa using hx)).symm⟩
    | cons a as ih =>
      simp only [List.sum_cons] at hx
      obtain ⟨ps, h1, h2⟩ := ih (x.drop a) (by simp; omega)
      refine ⟨x.take a :: ps, ?_, ?_⟩
      · simp [h1]; omega
      · simp [h2]
  obtain ⟨parts, h1, h2⟩ := this
  refine ⟨parts, h1, h2, ?_⟩
  have hp : parts ≠ [] := by
    rintro rfl
    simp at h1
    exact hne h1
  have := Np.split_flatten parts hp
  rw [h2] at this
  rw [← h1]
  exact this

theorem lookupD_zip_cons {α : Type} (k : String) (ks : List String) (v : List α) (vs : List (List α)) :
    lookupD ((k :: ks).zip (v :: vs)) k = v := by
  simp [lookupD]

theorem lookupD_zip_ne {α : Type} (k k' : String) (ks : List String) (v : List α) (vs : List (List α)) (h : k ≠ k') :
    lookupD ((k :: ks).zip (v :: vs)) k' = lookupD (ks.zip vs) k' := by
  simp [lookupD, h]

/-- Looking up each (distinct) name in `dict(zip(names, values))` gives the values in order. -/
theorem map_lookupD_zip {α β γ : Type} (cs : List (String × β)) (vs : List (List α)) (hl : cs.length = vs.length)
    (hn : (cs.map Prod.fst).Nodup) (F : β → List α → γ) :
    (cs.map fun c => F c.2 (lookupD ((cs.map Prod.fst).zip vs) c.1)) = List.zipWith (fun c v => F c.2 v) cs vs := by
  induction cs generalizing vs with
  | nil => simp
  | cons c cs ih =>
    cases vs with
    | nil => simp at hl
    | cons v vs =>
      simp only [List.map_cons, List.nodup_cons] at hn
      simp only [List.map_cons, List.zipWith_cons_cons]
      rw [lookupD_zip_cons]
      congr 1
      rw [← ih vs (by simpa using hl) hn.2]
      apply List.map_congr_left
      intro c' hc'
      rw [lookupD_zip_ne]
      rintro he
      exact hn.1 (by rw [he]; exact List.mem_map_of_mem (f := Prod.fst) hc')

end Lumos.NLP
