import Verif.Cas.NpSpec
/-!
# C90: joining and splitting arrays under casadi
-/

namespace Lumos.Cas

open Lumos Np

/-- The casadi matrices of a list show the numpy arrays of a list. -/
abbrev ShowsAll (l : List Nd) (xs : List Mx) : Prop := List.Forall₂ Shows l xs

theorem shows_join {a b c : Nd} {x y : Mx} (ha : Shows a x) (hb : Shows b y) (h : Np.join a b = .ok c) :
    ∃ z, above x y = .ok z ∧ Shows c z := by
  cases a <;> cases b <;> simp only [Np.join, reduceCtorEq] at h
  · obtain rfl := Except.ok.inj h
    obtain ⟨h1, h2, h3⟩ := ha
    obtain ⟨g1, g2, g3⟩ := hb
    refine ⟨_, if_pos (by rw [h2, g2]), ?_⟩
    refine ⟨by simp [h1, g1], by simp [h2], ?_⟩
    intro i hi
    subst h1
    by_cases hlt : i < x.rows
    · simp only [if_pos hlt]; exact h3 _ hlt
    · simp only [if_neg hlt]; exact g3 _ (by omega)
  · obtain ⟨h1, h2, h3⟩ := ha
    obtain ⟨g1, g2, g3⟩ := hb
    split at h
    · next he =>
      obtain rfl := Except.ok.inj h
      refine ⟨_, if_pos (by rw [h2, g2, he]), ?_⟩
      refine ⟨by simp [h1, g1], by simp [h2], ?_⟩
      intro i hi j hj
      subst h1
      by_cases hlt : i < x.rows
      · simp only [if_pos hlt]; exact h3 _ hlt _ hj
      · simp only [if_neg hlt]; exact g3 _ (by omega) _ (by omega)
    · simp at h

theorem concat0_cons (a b : Nd) (l : List Nd) : Np.concat0 (a :: b :: l) = (Np.concat0 (b :: l)).bind (Np.join a) := by
  cases a <;> rfl

theorem shows_concat0 {l : List Nd} {xs : List Mx} (h : ShowsAll l xs) : Same (Np.concat0 l) (vertcat xs) := by
  induction h with
  | nil => intro y hy; simp [Np.concat0] at hy
  | @cons a x l xs ha hl ih =>
    intro y hy
    cases hl with
    | nil =>
      cases a <;> simp [Np.concat0] at hy
      all_goals (subst hy; exact ⟨x, rfl, ha⟩)
    | @cons b z l xs hb hl =>
      have e : Np.concat0 (a :: b :: l) = (Np.concat0 (b :: l)).bind (Np.join a) := concat0_cons a b l
      rw [e] at hy
      cases hc : Np.concat0 (b :: l) with
      | error e => rw [hc] at hy; simp [Except.bind] at hy
      | ok c =>
        rw [hc] at hy
        obtain ⟨u, hu1, hu2⟩ := ih c hc
        obtain ⟨w, hw1, hw2⟩ := shows_join ha hu2 hy
        refine ⟨w, ?_, hw2⟩
        show (vertcat (z :: xs)).bind (above x) = _
        rw [hu1]; exact hw1

theorem shows_tr {a : Nd} {x : Mx} (h : isMat a = true) (ha : Shows a x) : Shows (tr a) x.T := by
  cases a <;> simp [isMat] at h
  obtain ⟨h1, h2, h3⟩ := ha
  exact ⟨h2, h1, fun i hi j hj => h3 j hj i hi⟩

theorem shows_asRow {a : Nd} {x : Mx} (h : isVec a = true) (ha : Shows a x) : Shows (asRow a) x.T := by
  cases a <;> simp [isVec] at h
  obtain ⟨h1, h2, h3⟩ := ha
  refine ⟨h2, h1, fun i hi j hj => ?_⟩
  obtain rfl : i = 0 := by omega
  exact h3 j hj

theorem shows_asCol {a : Nd} {x : Mx} (h : isVec a = true) (ha : Shows a x) : Shows (asCol a) x := by
  cases a <;> simp [isVec] at h
  obtain ⟨h1, h2, h3⟩ := ha
  refine ⟨h1, h2, fun i hi j hj => ?_⟩
  obtain rfl : j = 0 := by omega
  exact h3 i hi

theorem showsAll_map {p : Nd → Bool} {g : Nd → Nd} {k : Mx → Mx} (hg : ∀ a x, p a = true → Shows a x → Shows (g a) (k x)) {l : List Nd} {xs : List Mx}
    (h : ShowsAll l xs) (hp : l.all p = true) : ShowsAll (l.map g) (xs.map k) := by
  induction h with
  | nil => exact .nil
  | cons ha hl ih =>
    simp only [List.all_cons, Bool.and_eq_true] at hp
    exact .cons (hg _ _ hp.1 ha) (ih hp.2)

theorem isMat_join {a b c : Nd} (ha : isMat a = true) (h : Np.join a b = .ok c) : isMat c = true := by
  cases a <;> simp [isMat] at ha
  cases b <;> simp only [Np.join, reduceCtorEq] at h
  split at h
  · obtain rfl := Except.ok.inj h; rfl
  · simp at h

theorem isMat_concat0 {l : List Nd} (h : l.all isMat = true) {y : Nd} (hy : Np.concat0 l = .ok y) : isMat y = true := by
  cases l with
  | nil => simp [Np.concat0] at hy
  | cons a l =>
    simp only [List.all_cons, Bool.and_eq_true] at h
    cases l with
    | nil =>
      obtain ⟨ha, -⟩ := h
      cases a <;> simp [isMat] at ha
      simp [Np.concat0] at hy; subst hy; rfl
    | cons b l =>
      have e : Np.concat0 (a :: b :: l) = (Np.concat0 (b :: l)).bind (Np.join a) := concat0_cons a b l
      rw [e] at hy
      cases hc : Np.concat0 (b :: l) with
      | error e => rw [hc] at hy; simp [Except.bind] at hy
      | ok c => rw [hc] at hy; exact isMat_join h.1 hy

/-- Theorem (C90). Joining arrays along axis 0 or 1 gives what numpy gives, for any number of vectors or matrices. -/
theorem C90_concatenate {l : List Nd} {xs : List Mx} (h : ShowsAll l xs) (axis : Int) :
    Same (Np.concatenate l axis) (concatenate xs axis) := by
  intro y hy
  unfold Np.concatenate at hy
  unfold concatenate
  split at hy
  · next h0 => rw [if_pos h0]; exact shows_concat0 h y hy
  · next h0 =>
    rw [if_neg h0]
    split at hy
    · next h1 =>
      rw [if_pos h1]
      split at hy
      · next hm =>
        have h2 : ShowsAll (l.map tr) (xs.map Mx.T) := showsAll_map (fun a x => shows_tr) h hm
        cases hc : Np.concat0 (l.map tr) with
        | error e => rw [hc] at hy; simp [Except.bind] at hy
        | ok c =>
          rw [hc] at hy
          obtain rfl := Except.ok.inj hy
          obtain ⟨x, hx1, hx2⟩ := shows_concat0 h2 c hc
          refine ⟨x.T, ?_, shows_tr (isMat_concat0 ?_ hc) hx2⟩
          · unfold horzcat; rw [hx1]; rfl
          · rw [List.all_map]
            rw [List.all_eq_true] at hm ⊢
            intro a ha
            have := hm a ha
            cases a <;> simp_all [isMat, tr]
      · simp at hy
    · simp at hy

theorem T_T (x : Mx) : x.T.T = x := rfl

theorem asRow_isMat {l : List Nd} (h : l.all isVec = true) : (l.map asRow).all isMat = true := by
  rw [List.all_map]; rw [List.all_eq_true] at h ⊢
  intro a ha; have := h a ha; cases a <;> simp_all [isVec, isMat, asRow]

theorem horzcat_T (xs : List Mx) : (horzcat xs).bind (fun x => .ok x.T) = vertcat (xs.map Mx.T) := by
  unfold horzcat
  cases vertcat (xs.map Mx.T) <;> rfl

theorem tr_asCol {l : List Nd} (h : l.all isVec = true) : (l.map asCol).map tr = l.map asRow := by
  rw [List.map_map]
  apply List.map_congr_left
  rw [List.all_eq_true] at h
  intro a ha; have := h a ha; cases a <;> simp_all [isVec, tr, asRow, asCol]

theorem asCol_isMat {l : List Nd} (h : l.all isVec = true) : (l.map asCol).all isMat = true := by
  rw [List.all_map]; rw [List.all_eq_true] at h ⊢
  intro a ha; have := h a ha; cases a <;> simp_all [isVec, isMat, asCol]

theorem cols_one {l : List Nd} {xs : List Mx} (h : ShowsAll l xs) (hv : l.all isVec = true) : ∀ x ∈ xs, x.cols = 1 := by
  induction h with
  | nil => simp
  | @cons a x l xs ha hl ih =>
    simp only [List.all_cons, Bool.and_eq_true] at hv
    have : x.cols = 1 := by
      obtain ⟨hv, -⟩ := hv
      cases a <;> simp [isVec] at hv
      exact ha.2.1
    simp only [List.mem_cons, forall_eq_or_imp]
    exact ⟨this, ih hv.2⟩

/-- Theorem (C90). Stacking vectors as rows (axis 0 or -2) or as columns (axis 1 or -1) gives what numpy gives; so do `column_stack` and
`row_stack`. -/
theorem C90_stack {l : List Nd} {xs : List Mx} (h : ShowsAll l xs) (hv : l.all isVec = true) (axis : Int) :
    Same (Np.stack l axis) (stack xs axis) ∧ Same (Np.columnStack l) (columnStack xs) ∧ Same (Np.vstack l) (rowStack xs) := by
  have hc := cols_one h hv
  have hrow : ShowsAll (l.map asRow) (xs.map Mx.T) := showsAll_map (fun a x => shows_asRow) h hv
  have hcol : ShowsAll (l.map asCol) xs := by simpa using showsAll_map (k := id) (fun a x => shows_asCol) h hv
  have h1 : Same (Np.concatenate (l.map asRow) 0) (vertcat (xs.map Mx.T)) := C90_concatenate hrow 0
  have h2 : Same (Np.concatenate (l.map asCol) 1) (horzcat xs) := C90_concatenate hcol 1
  have hck : check1d xs = true := by
    unfold check1d; rw [List.all_eq_true]; intro x hx; simpa using hc x hx
  refine ⟨?_, ?_, ?_⟩
  · intro y hy
    unfold Np.stack at hy
    unfold stack
    rw [if_pos hv] at hy
    rw [if_pos hc]
    split at hy
    · next h0 => rw [if_pos h0, horzcat_T]; exact h1 y hy
    · next h0 =>
      rw [if_neg h0]
      split at hy
      · next h3 => rw [if_pos h3]; exact h2 y hy
      · simp at hy
  · intro y hy
    unfold columnStack
    rw [if_pos hck]; exact h2 y hy
  · intro y hy
    unfold rowStack
    rw [if_pos hck, horzcat_T]; exact h1 y hy

/-- Theorem (C90). For matrices, `hstack` and `vstack` give what numpy gives; `vector_concat` of vectors gives what `hstack` gives under
numpy. -/
theorem C90_blocks {l : List Nd} {xs : List Mx} (h : ShowsAll l xs) :
    (l.all isMat = true → l ≠ [] → Same (Np.hstack l) (hstack xs) ∧ Same (Np.vstack l) (vstack xs)) ∧
    (l.all isVec = true → Same (Np.hstack l) (vectorConcat xs)) := by
  refine ⟨fun hm hne => ⟨?_, ?_⟩, fun hv => ?_⟩
  · have : l.all isVec = false := by
      cases l with
      | nil => exact absurd rfl hne
      | cons a l =>
        simp only [List.all_cons, Bool.and_eq_true] at hm
        obtain ⟨hm, -⟩ := hm
        cases a <;> simp_all [isMat, isVec]
    unfold Np.hstack
    rw [this]
    exact C90_concatenate h 1
  · have : l.map asRow = l := by
      conv_rhs => rw [← List.map_id l]
      apply List.map_congr_left
      rw [List.all_eq_true] at hm
      intro a ha; have := hm a ha; cases a <;> simp_all [isMat, asRow]
    unfold Np.vstack
    rw [this]
    exact C90_concatenate h 0
  · unfold Np.hstack
    rw [if_pos hv]
    exact C90_concatenate h 0

/-- Theorem (C90, finding). `hstack` of two or more vectors puts them side by side; numpy puts them one after the other. -/
theorem C90_hstack_vectors {l : List Nd} {xs : List Mx} (h : ShowsAll l xs) (hv : l.all isVec = true) (h2 : 2 ≤ l.length) {y : Nd} {x : Mx}
    (hy : Np.hstack l = .ok y) (hx : hstack xs = .ok x) : ¬ Shows y x := by
  have hcols : ∀ (xs : List Mx), (∀ x ∈ xs, x.cols = 1) → ∀ z, vertcat (xs.map Mx.T) = .ok z → z.rows = xs.length := by
    intro xs
    induction xs with
    | nil => intro _ z hz; simp [vertcat] at hz; subst hz; rfl
    | cons a xs ih =>
      intro hc z hz
      cases xs with
      | nil => simp [vertcat] at hz; subst hz; exact hc a (by simp)
      | cons b xs =>
        have e : vertcat ((a :: b :: xs).map Mx.T) = (vertcat ((b :: xs).map Mx.T)).bind (above a.T) := rfl
        rw [e] at hz
        cases hw : vertcat ((b :: xs).map Mx.T) with
        | error e => rw [hw] at hz; simp [Except.bind] at hz
        | ok w =>
          rw [hw] at hz
          have h3 := ih (fun x hx => hc x (by simp [hx])) w hw
          have hz : above a.T w = .ok z := hz
          unfold above at hz
          split at hz
          · obtain rfl := Except.ok.inj hz
            have h4 : a.T.rows = 1 := hc a (by simp)
            simp only [h3, h4, List.length_cons]; omega
          · simp at hz
  have hvec : ∀ l : List Nd, l.all isVec = true → ∀ y, Np.concat0 l = .ok y → isVec y = true := by
    intro l
    induction l with
    | nil => intro _ y hy; simp [Np.concat0] at hy
    | cons a l ih =>
      intro hv y hy
      simp only [List.all_cons, Bool.and_eq_true] at hv
      obtain ⟨ha, hl⟩ := hv
      cases l with
      | nil => cases a <;> simp_all [Np.concat0]
      | cons b l =>
        have e : Np.concat0 (a :: b :: l) = (Np.concat0 (b :: l)).bind (Np.join a) := concat0_cons a b l
        rw [e] at hy
        cases hc : Np.concat0 (b :: l) with
        | error e => rw [hc] at hy; simp [Except.bind] at hy
        | ok c =>
          rw [hc] at hy
          have hy : Np.join a c = .ok y := hy
          have := ih hl c hc
          cases a <;> simp [isVec] at ha
          cases c <;> simp [isVec] at this
          obtain rfl := Except.ok.inj hy; rfl
  have hlen : xs.length = l.length := h.length_eq.symm
  unfold Np.hstack at hy
  rw [if_pos hv] at hy
  have hyv := hvec l hv y hy
  unfold hstack horzcat at hx
  cases hw : vertcat (xs.map Mx.T) with
  | error e => rw [hw] at hx; simp [Except.bind] at hx
  | ok w =>
    rw [hw] at hx
    obtain rfl := Except.ok.inj hx
    have h3 := hcols xs (cols_one h hv) w hw
    intro hs
    cases y <;> simp [isVec] at hyv
    have := hs.2.1
    have e : w.T.cols = w.rows := rfl
    omega

/-- Theorem (C90, finding). `vstack` of two vectors puts one above the other in one column; numpy makes a matrix with two rows. So does
`array` of a list of vectors. -/
theorem C90_vstack_vectors (n : Nat) (f g : Nat → ℝ) (a b : Mx) (ha : Shows (.vec n f) a) (hb : Shows (.vec n g) b) (hn : 2 ≤ n) :
    (∃ x, vstack [a, b] = .ok x ∧ array [.elem a, .elem b] = .ok x ∧ x.rows = n + n ∧ x.cols = 1) ∧
    ∃ y, Np.vstack [.vec n f, .vec n g] = .ok y ∧ ∀ x, vstack [a, b] = .ok x → ¬ Shows y x := by
  obtain ⟨a1, a2, a3⟩ := ha
  obtain ⟨b1, b2, b3⟩ := hb
  have e : vstack [a, b] = above a b := rfl
  have e2 : array [.elem a, .elem b] = above a b := rfl
  have e3 : ∃ x, above a b = .ok x ∧ x.rows = n + n ∧ x.cols = 1 := ⟨_, if_pos (by rw [a2, b2]), by simp [a1, b1], by simp [a2]⟩
  obtain ⟨x, hx1, hx2, hx3⟩ := e3
  refine ⟨⟨x, by rw [e, hx1], by rw [e2, hx1], hx2, hx3⟩, ?_⟩
  refine ⟨.mat (1 + 1) n fun i j => if i < 1 then f j else g j, ?_, ?_⟩
  · simp [Np.vstack, Np.concatenate, Np.concat0, asRow, Np.join, Except.bind]
  intro z hz hs
  rw [e, hx1] at hz
  obtain rfl := Except.ok.inj hz
  have := hs.1
  omega

/-- Theorem (C90, finding). A negative axis in `concatenate` and a missing axis in `split` raise; numpy takes both. -/
theorem C90_axis_raises (xs : List Mx) (x : Mx) (c : Cuts) : concatenate xs (-1) = .error .valueError ∧ split x c none = .error .typeError := by
  constructor <;> rfl

theorem vertcat_scalars : ∀ l : List ℝ, l ≠ [] → ∃ x, vertcat (l.map scalar) = .ok x ∧ Shows (ofNumbers l) x := by
  intro l
  induction l with
  | nil => intro h; exact absurd rfl h
  | cons a l ih =>
    intro _
    cases l with
    | nil => exact ⟨scalar a, rfl, rfl, rfl, fun i hi => by simp [scalar] at hi ⊢; subst hi; simp⟩
    | cons b l =>
      obtain ⟨w, h1, h2, h3, h4⟩ := ih (by simp)
      refine ⟨⟨1 + w.rows, 1, fun i j => if i < 1 then a else w.at' (i - 1) j⟩, ?_, ?_⟩
      · show (vertcat ((b :: l).map scalar)).bind (above (scalar a)) = _
        rw [h1]
        show above (scalar a) w = _
        unfold above
        rw [if_pos (by rw [h3]; rfl)]
        rfl
      · refine ⟨by simp [h2]; omega, rfl, ?_⟩
        intro i hi
        rcases i with _ | i
        · simp
        · simp only [Nat.add_sub_cancel, if_neg (show ¬ i + 1 < 1 by omega)]
          rw [h4 i (by simpa using hi)]; simp

theorem horzcat_scalars (l : List ℝ) (h : l ≠ []) : ∃ x, horzcat (l.map scalar) = .ok x ∧ x.rows = 1 ∧ x.cols = l.length ∧
    ∀ j < l.length, x.at' 0 j = l.getD j 0 := by
  obtain ⟨x, h1, h2, h3, h4⟩ := vertcat_scalars l h
  refine ⟨x.T, ?_, h3, h2, h4⟩
  unfold horzcat
  have : (l.map scalar).map Mx.T = l.map scalar := by rw [List.map_map]; rfl
  rw [this, h1]; rfl

theorem vertcat_rows (c : Nat) : ∀ (l : List (List ℝ)) (xs : List Mx), l ≠ [] →
    List.Forall₂ (fun r (x : Mx) => x.rows = 1 ∧ x.cols = c ∧ ∀ j < c, x.at' 0 j = r.getD j 0) l xs →
    ∃ x, vertcat xs = .ok x ∧ Shows (ofRows c l) x := by
  intro l
  induction l with
  | nil => intro xs h; exact absurd rfl h
  | cons a l ih =>
    intro xs _ hf
    cases hf with
    | @cons _ x _ xs hx hf =>
      obtain ⟨x1, x2, x3⟩ := hx
      cases l with
      | nil =>
        cases hf
        refine ⟨x, rfl, x1, x2, fun i hi j hj => ?_⟩
        simp at hi; subst hi; simpa using x3 j hj
      | cons b l =>
        obtain ⟨w, h1, h2, h3, h4⟩ := ih xs (by simp) hf
        cases hf with
        | @cons _ z _ xs hz hf =>
          refine ⟨⟨x.rows + w.rows, x.cols, fun i j => if i < x.rows then x.at' i j else w.at' (i - x.rows) j⟩, ?_, ?_⟩
          · show (vertcat (z :: xs)).bind (above x) = _
            rw [h1]
            show above x w = _
            unfold above
            rw [if_pos (by rw [x2, h3])]
          · refine ⟨by simp [x1, h2]; omega, x2, ?_⟩
            intro i hi j hj
            simp only [x1]
            rcases i with _ | i
            · simpa using x3 j hj
            · simp only [Nat.add_sub_cancel, if_neg (show ¬ i + 1 < 1 by omega)]
              rw [h4 i (by simpa using hi) j hj]; simp

theorem mapM_elems (xs : List Mx) : (xs.map Item.elem).mapM makeRow = .ok xs := by
  induction xs with
  | nil => rfl
  | cons a xs ih => rw [List.map_cons, List.mapM_cons, ih]; rfl

theorem mapM_rows (c : Nat) (hc : 0 < c) : ∀ l : List (List ℝ), (∀ r ∈ l, r.length = c) → ∃ xs,
    (l.map fun r => Item.row (r.map scalar)).mapM makeRow = .ok xs ∧
    List.Forall₂ (fun r (x : Mx) => x.rows = 1 ∧ x.cols = c ∧ ∀ j < c, x.at' 0 j = r.getD j 0) l xs := by
  intro l
  induction l with
  | nil => intro _; exact ⟨[], rfl, .nil⟩
  | cons a l ih =>
    intro h
    obtain ⟨xs, h1, h2⟩ := ih fun r hr => h r (by simp [hr])
    have ha := h a (by simp)
    obtain ⟨x, g1, g2, g3, g4⟩ := horzcat_scalars a (by intro h0; subst h0; simp at ha; omega)
    refine ⟨x :: xs, ?_, .cons ⟨g2, by omega, by rw [← ha]; exact g4⟩ h2⟩
    rw [List.map_cons, List.mapM_cons, h1]
    have : makeRow (.row (a.map scalar)) = .ok x := g1
    rw [this]; rfl

/-- Theorem (C90). `array` of a list of numbers is the vector, and of a list of rows of numbers the matrix, as under numpy. -/
theorem C90_array (l : List ℝ) (hl : l ≠ []) (rows : List (List ℝ)) (c : Nat) (hc : 0 < c) (hr : rows ≠ []) (hlen : ∀ r ∈ rows, r.length = c) :
    (∃ x, array (l.map fun a => .elem (scalar a)) = .ok x ∧ Shows (ofNumbers l) x) ∧
    ∃ x, array (rows.map fun r => .row (r.map scalar)) = .ok x ∧ Shows (ofRows c rows) x := by
  constructor
  · obtain ⟨x, h1, h2⟩ := vertcat_scalars l hl
    refine ⟨x, ?_, h2⟩
    have : (l.map fun a => Item.elem (scalar a)) = (l.map scalar).map Item.elem := by rw [List.map_map]; rfl
    rw [this, array, mapM_elems]; exact h1
  · obtain ⟨xs, h1, h2⟩ := mapM_rows c hc rows hlen
    obtain ⟨x, h3, h4⟩ := vertcat_rows c rows xs hr h2
    exact ⟨x, by rw [array, h1]; exact h3, h4⟩

/-- Two vectors as columns of a matrix. -/
example : ∃ x, columnStack [⟨2, 1, fun i _ => i⟩, ⟨2, 1, fun _ _ => 7⟩] = .ok x ∧ Shows (.mat 2 2 fun i j => if j = 0 then i else 7) x := by
  have h : ShowsAll [.vec 2 fun i => i, .vec 2 fun _ => 7] [⟨2, 1, fun i _ => i⟩, ⟨2, 1, fun _ _ => 7⟩] :=
    .cons ⟨rfl, rfl, fun _ _ => rfl⟩ (.cons ⟨rfl, rfl, fun _ _ => rfl⟩ .nil)
  obtain ⟨x, hx, hs⟩ := (C90_stack h rfl 0).2.1 _ rfl
  refine ⟨x, hx, hs.1, hs.2.1, fun i hi j hj => (hs.2.2 i hi j hj).trans ?_⟩
  by_cases hj0 : j = 0
  · simp [hj0]
  · simp [show ¬ j < 1 by omega, hj0]

end Lumos.Cas
