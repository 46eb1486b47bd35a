import Verif.NLP.Lemmas
/-!
# C09, C10, C11, C18: scaling of constraints and objectives

The user's callables are assumed correct (that is what C09/C10 take as given): `UserJac`, `UserHess`.
Every history is a list of `set_input_scales` / `set_con_scales` calls.
-/

namespace Lumos.NLP

open Lumos

/-! ## Specification -/

/-- One call of a scale setter. -/
inductive ScaleOp
  | setInput (s : List ℝ)
  | setCon (k : List ℝ)

/-- The array given has one non-zero entry per input / per constraint. -/
def GoodOp (n m : Nat) : ScaleOp → Prop
  | .setInput s => s.length = n ∧ ∀ a ∈ s, a ≠ 0
  | .setCon k => k.length = m ∧ ∀ a ∈ k, a ≠ 0

/-- What a setter call does to the object (state after the call, exception). -/
noncomputable def Cons.run (c : Cons) : ScaleOp → Cons × Option PyErr
  | .setInput s => c.setInputScales s
  | .setCon k => c.setConScales k

/-- The object after a history of setter calls. -/
noncomputable def Cons.runAll (c : Cons) (ops : List ScaleOp) : Cons := ops.foldl (fun c o => (c.run o).1) c

/-- Input scales in force after a history: the last ones given (`d` if none were). -/
def lastInput (d : List ℝ) (ops : List ScaleOp) : List ℝ :=
  ops.foldl (fun acc o => match o with
    | .setInput s => s
    | .setCon _ => acc) d

/-- Constraint scales in force after a history. -/
def lastCon (d : List ℝ) (ops : List ScaleOp) : List ℝ :=
  ops.foldl (fun acc o => match o with
    | .setInput _ => acc
    | .setCon k => k) d

/-- The user's Jacobian callable with the declared structure is the derivative of the user's constraints. -/
def UserJac (n m : Nat) (con jac : List ℝ → List ℝ) (st : List Nat × List Nat) (D : List ℝ → Prop := fun _ => True) : Prop :=
  StructIn st m n ∧ ∀ y : List ℝ, y.length = n →
    (con y).length = m ∧ (jac y).length = st.1.length ∧ (D y → IsJacobianAt n m con y (assemble st.1 st.2 (jac y)))

/-- The user's Hessian callable is the second derivative of `λ · c`, on the index pairs in `P`. -/
def UserHess (n m : Nat) (con : List ℝ → List ℝ) (hess : List ℝ → List ℝ → List ℝ)
    (st : List Nat × List Nat) (P : Nat → Nat → Prop) (D : List ℝ → Prop := fun _ => True) : Prop :=
  StructIn st n n ∧ ∀ y lam : List ℝ, y.length = n → lam.length = m →
    (hess y lam).length = st.1.length
      ∧ (D y → IsHessianAt n (fun z => dot lam (con z)) y P (assemble st.1 st.2 (hess y lam)))

theorem UserJac.mono {n m : Nat} {con jac : List ℝ → List ℝ} {st : List Nat × List Nat} {D D' : List ℝ → Prop}
    (h : UserJac n m con jac st D) (hd : ∀ y, D' y → D y) : UserJac n m con jac st D' :=
  ⟨h.1, fun y hy => ⟨(h.2 y hy).1, (h.2 y hy).2.1, fun hD => (h.2 y hy).2.2 (hd y hD)⟩⟩

theorem UserHess.mono {n m : Nat} {con : List ℝ → List ℝ} {hess : List ℝ → List ℝ → List ℝ} {st : List Nat × List Nat}
    {P : Nat → Nat → Prop} {D D' : List ℝ → Prop} (h : UserHess n m con hess st P D) (hd : ∀ y, D' y → D y) :
    UserHess n m con hess st P D' :=
  ⟨h.1, fun y lam hy hl => ⟨(h.2 y lam hy hl).1, fun hD => (h.2 y lam hy hl).2 (hd y hD)⟩⟩

/-- The structure in force when none is declared is the dense one. -/
def declared (st : Option (List Nat × List Nat)) (m n : Nat) : List Nat × List Nat :=
  st.getD (denseStructure m n)

/-! ## The state after any history -/

/-- The complete state of the object as a function of the last scales given. -/
noncomputable def Cons.stateOf (n m : Nat) (con jac : List ℝ → List ℝ) (hess : List ℝ → List ℝ → List ℝ)
    (js hs : List Nat × List Nat) (s k : List ℝ) : Cons :=
  { numIn := n, numCon := m, con := con, jac := jac, hess := hess, jacStruct := js, hessStruct := hs
    inScales := s, conScales := k
    jacScales := List.zipWith (fun r c => k.getD r 0 / s.getD c 0) js.1 js.2
    hessScales := List.zipWith (fun r c => 1 / (s.getD r 0 * s.getD c 0)) hs.1 hs.2 }

variable {D : List ℝ → Prop} {n m : Nat} {con jac : List ℝ → List ℝ} {hess : List ℝ → List ℝ → List ℝ}
  {js hs : Option (List Nat × List Nat)}

theorem make_eq (hj : StructIn (declared js m n) m n) (hh : StructIn (declared hs n n) n n) :
    Cons.make n m con jac hess js hs = .ok (Cons.stateOf n m con jac hess (declared js m n) (declared hs n n)
      (List.replicate n 1) (List.replicate m 1)) := by
  cases js <;> cases hs <;>
  · unfold Cons.make
    dsimp only
    rw [updateJacScales_ok _ (by simpa [declared] using hj.2.1) (by simpa [declared] using hj.2.2)]
    simp only [bind, Except.bind]
    rw [updateHessScales_ok _ (by simpa [declared] using hh.2.1) (by simpa [declared] using hh.2.2)]
    rfl

theorem run_eq {js hs : List Nat × List Nat} (hj : StructIn js m n) (hh : StructIn hs n n) {s k : List ℝ}
    (hs' : s.length = n) (hk : k.length = m) (o : ScaleOp) (ho : GoodOp n m o) :
    (Cons.stateOf n m con jac hess js hs s k).run o
      = (Cons.stateOf n m con jac hess js hs (lastInput s [o]) (lastCon k [o]), none) := by
  cases o with
  | setInput s' =>
    obtain ⟨hl, _⟩ := ho
    unfold Cons.run Cons.setInputScales
    dsimp only
    rw [updateJacScales_ok _ (by simpa [Cons.stateOf, hk] using hj.2.1) (by simpa [Cons.stateOf, hl] using hj.2.2)]
    dsimp only
    rw [updateHessScales_ok _ (by simpa [Cons.stateOf, hl] using hh.2.1) (by simpa [Cons.stateOf, hl] using hh.2.2)]
    simp [Cons.stateOf, lastInput, lastCon]
  | setCon k' =>
    obtain ⟨hl, _⟩ := ho
    unfold Cons.run Cons.setConScales
    dsimp only
    rw [updateJacScales_ok _ (by simpa [Cons.stateOf, hl] using hj.2.1) (by simpa [Cons.stateOf, hs'] using hj.2.2)]
    simp [Cons.stateOf, lastInput, lastCon]

theorem last_good {s k : List ℝ} (hs' : s.length = n ∧ ∀ a ∈ s, a ≠ 0) (hk : k.length = m ∧ ∀ a ∈ k, a ≠ 0)
    (ops : List ScaleOp) (ho : ∀ o ∈ ops, GoodOp n m o) :
    ((lastInput s ops).length = n ∧ ∀ a ∈ lastInput s ops, a ≠ 0)
      ∧ ((lastCon k ops).length = m ∧ ∀ a ∈ lastCon k ops, a ≠ 0) := by
  induction ops generalizing s k with
  | nil => exact ⟨hs', hk⟩
  | cons o os ih =>
    have h1 := ho o (by simp)
    cases o with
    | setInput s' => exact ih h1 hk (fun o ho' => ho o (by simp [ho']))
    | setCon k' => exact ih hs' h1 (fun o ho' => ho o (by simp [ho']))

theorem runAll_eq {js hs : List Nat × List Nat} (hj : StructIn js m n) (hh : StructIn hs n n) {s k : List ℝ}
    (hs' : s.length = n ∧ ∀ a ∈ s, a ≠ 0) (hk : k.length = m ∧ ∀ a ∈ k, a ≠ 0) (ops : List ScaleOp)
    (ho : ∀ o ∈ ops, GoodOp n m o) :
    (Cons.stateOf n m con jac hess js hs s k).runAll ops
      = Cons.stateOf n m con jac hess js hs (lastInput s ops) (lastCon k ops) := by
  induction ops generalizing s k with
  | nil => rfl
  | cons o os ih =>
    have hg := ho o (by simp)
    have hl := last_good hs' hk [o] (by simpa using hg)
    have h2 := ih hl.1 hl.2 (fun o ho' => ho o (by simp [ho']))
    unfold Cons.runAll at h2 ⊢
    rw [List.foldl_cons, run_eq hj hh hs'.1 hk.1 o hg, h2]
    rfl

theorem ones_good (n : Nat) : (List.replicate n (1 : ℝ)).length = n ∧ ∀ a ∈ List.replicate n (1 : ℝ), a ≠ 0 := by
  refine ⟨by simp, ?_⟩
  intro a ha
  rw [(List.mem_replicate.mp ha).2]
  exact one_ne_zero

/-- The Jacobian of a state in sync with its scales is the derivative of its constraints. -/
theorem stateOf_jacobian {js hs : List Nat × List Nat} {s k : List ℝ} (hu : UserJac n m con jac js D)
    (hs' : s.length = n) (hk : k.length = m) {x : List ℝ} (hx : x.length = n) (hD : D (vmul x s)) :
    IsJacobianAt n m (Cons.stateOf n m con jac hess js hs s k).constraints x
      (assemble js.1 js.2 ((Cons.stateOf n m con jac hess js hs s k).jacobian x)) := by
  intro r hr j hj
  have hy : (vmul x s).length = n := by simp [hx, hs']
  have hU := (hu.2 (vmul x s) hy).2.2 hD r hr j hj
  have h1 := hasDerivAt_scaled (F := fun y => (con y).getD r 0) (by omega) hU
  have h2 := h1.div_const (k.getD r 0)
  have e : (fun t => ((Cons.stateOf n m con jac hess js hs s k).constraints (x.set j t)).getD r 0)
      = fun t => (con (vmul (x.set j t) s)).getD r 0 / k.getD r 0 := by
    funext t
    show (vdiv (con (vmul (x.set j t) s)) k).getD r 0 = _
    rw [getD_vdiv]
    rw [(hu.2 _ (by simp [hx, hs'])).1, hk]
  rw [e]
  have e2 : assemble js.1 js.2 ((Cons.stateOf n m con jac hess js hs s k).jacobian x) r j
      = assemble js.1 js.2 (jac (vmul x s)) r j * s.getD j 0 / k.getD r 0 := by
    show assemble js.1 js.2 (vdiv (jac (vmul x s)) _) r j = _
    simp only [Cons.stateOf]
    rw [assemble_vdiv, div_div_eq_mul_div]
  rw [e2]
  exact h2

theorem stateOf_hessian {js hs : List Nat × List Nat} {s k : List ℝ} {P : Nat → Nat → Prop}
    (hu : UserHess n m con hess hs P D)
    (hs' : s.length = n) (hk : k.length = m) {x lam : List ℝ} (hx : x.length = n) (hlam : lam.length = m) (hD : D (vmul x s)) :
    IsHessianAt n (fun y => dot lam ((Cons.stateOf n m con jac hess js hs s k).constraints y)) x P
      (assemble hs.1 hs.2 ((Cons.stateOf n m con jac hess js hs s k).hessian x lam)) := by
  have hU := (hu.2 (vmul x s) (vdiv lam k) (by simp [hx, hs']) (by simp [hlam, hk])).2 hD
  refine (IsHessianAt.scaled hx hs' hU).congr hx ?_ ?_
  · intro y _
    show dot lam (vdiv (con (vmul y s)) k) = _
    rw [dot_vdiv]
  · intro i j _ _ _
    show assemble hs.1 hs.2 (vdiv (hess (vmul x s) (vdiv lam k)) _) i j = _
    simp only [Cons.stateOf]
    rw [assemble_vdiv, div_div_eq_mul_div, div_one]

/-! ## C09 -/

/-- **C09** (values). After any history of setter calls the scaled constraints are the user's constraints at
the unscaled point, divided by the constraint scales last given. -/
theorem C09_constraints_value {c : Cons} (hc : Cons.make n m con jac hess js hs = .ok c)
    (hj : StructIn (declared js m n) m n) (hh : StructIn (declared hs n n) n n)
    (ops : List ScaleOp) (ho : ∀ o ∈ ops, GoodOp n m o) (x : List ℝ) :
    (c.runAll ops).constraints x
      = vdiv (con (vmul x (lastInput (List.replicate n 1) ops))) (lastCon (List.replicate m 1) ops) := by
  rw [make_eq hj hh] at hc
  cases hc
  rw [runAll_eq hj hh (ones_good n) (ones_good m) ops ho]
  rfl

/-- **C09**. After any history of setter calls, `jacobian` with `jacobianstructure` is the derivative of
`constraints`, at every point where the user's Jacobian is that of the user's constraints; values and structure have the same
length. -/
theorem C09_jacobian_is_derivative {c : Cons} (hc : Cons.make n m con jac hess js hs = .ok c)
    (hu : UserJac n m con jac (declared js m n) D) (hh : StructIn (declared hs n n) n n)
    (ops : List ScaleOp) (ho : ∀ o ∈ ops, GoodOp n m o) (x : List ℝ) (hx : x.length = n)
    (hD : D (vmul x (lastInput (List.replicate n 1) ops))) :
    IsJacobianAt n m (c.runAll ops).constraints x
        (assemble (c.runAll ops).jacStruct.1 (c.runAll ops).jacStruct.2 ((c.runAll ops).jacobian x))
      ∧ ((c.runAll ops).jacobian x).length = (c.runAll ops).jacStruct.1.length
      ∧ (c.runAll ops).jacStruct = declared js m n := by
  rw [make_eq hu.1 hh] at hc
  cases hc
  obtain ⟨g1, g2⟩ := last_good (ones_good n) (ones_good m) ops ho
  rw [runAll_eq hu.1 hh (ones_good n) (ones_good m) ops ho]
  refine ⟨stateOf_jacobian hu g1.1 g2.1 hx hD, ?_, rfl⟩
  show (vdiv (jac (vmul x _)) _).length = _
  rw [length_vdiv, (hu.2 _ (by simp [Cons.stateOf, hx, g1.1])).2.1]
  simp [Cons.stateOf, hu.1.1]

/-- **C09** (setters do not raise). No call of a good history raises, and construction succeeds. -/
theorem C09_no_error (hj : StructIn (declared js m n) m n) (hh : StructIn (declared hs n n) n n)
    (ops : List ScaleOp) (ho : ∀ o ∈ ops, GoodOp n m o) (last : ScaleOp) (hl : GoodOp n m last) :
    ∃ c, Cons.make n m con jac hess js hs = .ok c ∧ ((c.runAll ops).run last).2 = none := by
  refine ⟨_, make_eq hj hh, ?_⟩
  obtain ⟨g1, g2⟩ := last_good (ones_good n) (ones_good m) ops ho
  rw [runAll_eq hj hh (ones_good n) (ones_good m) ops ho, run_eq hj hh g1.1 g2.1 last hl]

/-! ## C10 -/

/-- **C10**. After any history of setter calls, `hessian(x, λ)` is the second derivative of
`λ · constraints(x)`, for every multiplier vector and every point where the user's Hessian is that of the user's constraints. -/
theorem C10_hessian_is_second_derivative {c : Cons} (hc : Cons.make n m con jac hess js hs = .ok c)
    (hj : StructIn (declared js m n) m n) {P : Nat → Nat → Prop}
    (hu : UserHess n m con hess (declared hs n n) P D)
    (ops : List ScaleOp) (ho : ∀ o ∈ ops, GoodOp n m o) (x lam : List ℝ) (hx : x.length = n)
    (hlam : lam.length = m) (hD : D (vmul x (lastInput (List.replicate n 1) ops))) :
    IsHessianAt n (fun y => dot lam ((c.runAll ops).constraints y)) x P
        (assemble (c.runAll ops).hessStruct.1 (c.runAll ops).hessStruct.2 ((c.runAll ops).hessian x lam))
      ∧ ((c.runAll ops).hessian x lam).length = (c.runAll ops).hessStruct.1.length
      ∧ (c.runAll ops).hessStruct = declared hs n n := by
  rw [make_eq hj hu.1] at hc
  cases hc
  obtain ⟨g1, g2⟩ := last_good (ones_good n) (ones_good m) ops ho
  rw [runAll_eq hj hu.1 (ones_good n) (ones_good m) ops ho]
  refine ⟨stateOf_hessian hu g1.1 g2.1 hx hlam hD, ?_, rfl⟩
  show (vdiv (hess (vmul x _) (vdiv lam _)) _).length = _
  rw [length_vdiv, (hu.2 _ _ (by simp [Cons.stateOf, hx, g1.1]) (by simp [Cons.stateOf, hlam, g2.1])).1]
  simp [Cons.stateOf, hu.1.1]

/-! ## C18 -/

/-- The user's constraints are affine with matrix `M` and offset `b` (independent of how the code works). -/
def Affine (n m : Nat) (con : List ℝ → List ℝ) (M : Nat → Nat → ℝ) (b : Nat → ℝ) : Prop :=
  ∀ y : List ℝ, y.length = n → (con y).length = m ∧
    ∀ r, r < m → (con y).getD r 0 = ((List.range n).map fun j => M r j * y.getD j 0).sum + b r

theorem sum_set (n : Nat) (f : Nat → ℝ) (y : List ℝ) (j : Nat) (hj : j < n) (hy : y.length = n) (t : ℝ) :
    ((List.range n).map fun i => f i * (y.set j t).getD i 0).sum
      = ((List.range n).map fun i => f i * y.getD i 0).sum + f j * (t - y.getD j 0) := by
  have key : ∀ k, k ≤ n → ((List.range k).map fun i => f i * (y.set j t).getD i 0).sum
      = ((List.range k).map fun i => f i * y.getD i 0).sum + if j < k then f j * (t - y.getD j 0) else 0 := by
    intro k
    induction k with
    | zero => intro _; simp
    | succ k ih =>
      intro hk
      have ih := ih (by omega)
      rw [List.range_succ, List.map_append, List.map_append, List.sum_append, List.sum_append, ih]
      simp only [List.map_cons, List.map_nil, List.sum_cons, List.sum_nil, add_zero]
      by_cases h1 : j < k
      · have h2 : j ≠ k := by omega
        have h3 : j < k + 1 := by omega
        have e : (y.set j t).getD k 0 = y.getD k 0 := by
          simp [h2]
        rw [e, if_pos h1, if_pos h3]
        ring
      · by_cases h2 : j = k
        · subst h2
          have h3 : j < j + 1 := by omega
          have e : (y.set j t).getD j 0 = t := by
            have : j < y.length := by omega
            simp [this]
          rw [e, if_neg h1, if_pos h3]
          ring
        · have h3 : ¬ j < k + 1 := by omega
          have e : (y.set j t).getD k 0 = y.getD k 0 := by
            simp [h2]
          rw [e, if_neg h1, if_neg h3]
          ring
  have := key n (le_refl n)
  rw [if_pos hj] at this
  exact this

theorem affine_jacobian {M : Nat → Nat → ℝ} {b : Nat → ℝ} (h : Affine n m con M b) {y : List ℝ}
    (hy : y.length = n) : IsJacobianAt n m con y M := by
  intro r hr j hj
  have e : (fun t => (con (y.set j t)).getD r 0)
      = fun t => ((List.range n).map fun i => M r i * y.getD i 0).sum + M r j * (t - y.getD j 0) + b r := by
    funext t
    rw [(h (y.set j t) (by simp [hy])).2 r hr, sum_set n (M r) y j hj hy t]
  rw [e]
  have h1 : HasDerivAt (fun t : ℝ => t - y.getD j 0) 1 (y.getD j 0) := (hasDerivAt_id _).sub_const _
  have h2 := ((h1.const_mul (M r j)).const_add (((List.range n).map fun i => M r i * y.getD i 0).sum)).add_const (b r)
  simpa using h2

/-- **C18** (cached Jacobian). For affine constraints the cached Jacobian is, at every point and after every
scaling history, the derivative of the constraints. -/
theorem C18_cached_jacobian {c : Cons} {M : Nat → Nat → ℝ} {b : Nat → ℝ} {st : List Nat × List Nat}
    (hc : Cons.makeLinear n m con jac st true = .ok c) (hA : Affine n m con M b)
    (hu : UserJac n m con jac st)
    (ops : List ScaleOp) (ho : ∀ o ∈ ops, GoodOp n m o) (x : List ℝ) (hx : x.length = n) :
    IsJacobianAt n m (c.runAll ops).constraints x
        (assemble (c.runAll ops).jacStruct.1 (c.runAll ops).jacStruct.2 ((c.runAll ops).jacobian x))
      ∧ (c.runAll ops).jacStruct = st := by
  have hu' : UserJac n m con (fun _ => jac (List.replicate n 1)) st := by
    refine ⟨hu.1, fun y hy => ?_⟩
    obtain ⟨h1, h2, h3⟩ := hu.2 (List.replicate n 1) (by simp)
    refine ⟨(hu.2 y hy).1, h2, ?_⟩
    intro _ r hr j hj
    have hM := affine_jacobian hA hy r hr j hj
    have h0 := affine_jacobian hA (y := List.replicate n 1) (by simp) r hr j hj
    rw [(h3 trivial r hr j hj).unique h0]
    exact hM
  have hh : StructIn (declared (some ([], [])) n n) n n := by simp [declared, StructIn]
  have hc' : Cons.make n m con (fun _ => jac (List.replicate n 1)) (fun _ _ => []) (some st) (some ([], []))
      = .ok c := by simpa [Cons.makeLinear] using hc
  have := C09_jacobian_is_derivative hc' (by simpa [declared] using hu') hh ops ho x hx trivial
  exact ⟨this.1, by simpa [declared] using this.2.2⟩

/-- **C18** (cache = no cache). The cached object's Jacobian assembles to the same matrix as the uncached
object's, at every point and after every scaling history. -/
theorem C18_cache_transparent {c c' : Cons} {M : Nat → Nat → ℝ} {b : Nat → ℝ} {st : List Nat × List Nat}
    (hc : Cons.makeLinear n m con jac st true = .ok c) (hc' : Cons.makeLinear n m con jac st false = .ok c')
    (hA : Affine n m con M b) (hu : UserJac n m con jac st)
    (ops : List ScaleOp) (ho : ∀ o ∈ ops, GoodOp n m o) (x : List ℝ) (hx : x.length = n)
    (r j : Nat) (hr : r < m) (hj : j < n) :
    assemble st.1 st.2 ((c.runAll ops).jacobian x) r j = assemble st.1 st.2 ((c'.runAll ops).jacobian x) r j := by
  obtain ⟨h1, e1⟩ := C18_cached_jacobian hc hA hu ops ho x hx
  have hh : StructIn (declared (some ([], [])) n n) n n := by simp [declared, StructIn]
  have hc2 : Cons.make n m con jac (fun _ _ => []) (some st) (some ([], [])) = .ok c' := by
    simpa [Cons.makeLinear] using hc'
  obtain ⟨h2, _, e2⟩ := C09_jacobian_is_derivative hc2 (by simpa [declared] using hu) hh ops ho x hx trivial
  rw [e1] at h1
  rw [e2] at h2
  have hv : (c.runAll ops).constraints = (c'.runAll ops).constraints := by
    funext y
    have hc1 : Cons.make n m con (fun _ => jac (List.replicate n 1)) (fun _ _ => []) (some st) (some ([], []))
        = .ok c := by simpa [Cons.makeLinear] using hc
    rw [C09_constraints_value hc1 (by simpa [declared] using hu.1) hh ops ho y,
      C09_constraints_value hc2 (by simpa [declared] using hu.1) hh ops ho y]
  have := h1 r hr j hj
  rw [hv] at this
  exact this.unique (h2 r hr j hj)

theorem affine_hessian {M : Nat → Nat → ℝ} {b : Nat → ℝ} (h : Affine n m con M b) {y lam : List ℝ} (hy : y.length = n)
    (hlam : lam.length = m) :
    IsHessianAt n (fun z => dot lam (con z)) y (fun _ _ => True) (fun _ _ => 0) := by
  -- the gradient of `λ · c` is the constant vector `∑_r λ_r M r j`
  have hdot : ∀ (l v : List ℝ), l.length = m → v.length = m →
      dot l v = ((List.range m).map fun r => l.getD r 0 * v.getD r 0).sum := by
    intro l v hl hv
    unfold dot
    congr 1
    apply List.ext_getElem?
    intro i
    by_cases hi : i < m
    · have h1 : i < l.length := by omega
      have h2 : i < v.length := by omega
      simp [hi, h1, h2]
    · have h1 : l.length ≤ i := by omega
      have h2 : v.length ≤ i := by omega
      simp [h1, hi]
  have hsum : ∀ (k : Nat) (F : Nat → ℝ → ℝ) (D : Nat → ℝ) (t0 : ℝ), (∀ r, r < k → HasDerivAt (F r) (D r) t0) →
      HasDerivAt (fun t => ((List.range k).map fun r => F r t).sum) ((List.range k).map D).sum t0 := by
    intro k F D t0
    induction k with
    | zero => intro _; simpa using hasDerivAt_const t0 (0 : ℝ)
    | succ k ih =>
      intro hF
      have h1 := ih (fun r hr => hF r (by omega))
      have h2 := h1.add (hF k (by omega))
      have e : (fun t => ((List.range (k + 1)).map fun r => F r t).sum)
          = (fun t => ((List.range k).map fun r => F r t).sum) + F k := by
        funext t
        simp [List.range_succ]
      have e2 : ((List.range (k + 1)).map D).sum = ((List.range k).map D).sum + D k := by
        simp [List.range_succ]
      rw [e, e2]
      exact h2
  refine IsHessianAt.of_global hy ⟨fun _ j => ((List.range m).map fun r => lam.getD r 0 * M r j).sum, ?_, ?_⟩
  · intro z hz j hj
    have e : (fun t => dot lam (con (z.set j t)))
        = fun t => ((List.range m).map fun r => lam.getD r 0 * (con (z.set j t)).getD r 0).sum := by
      funext t
      exact hdot _ _ hlam (h _ (by simp [hz])).1
    rw [e]
    refine hsum m (fun r t => lam.getD r 0 * (con (z.set j t)).getD r 0) _ _ ?_
    intro r hr
    exact (affine_jacobian h hz r hr j hj).const_mul _
  · intro i j _ _ _
    exact hasDerivAt_const _ _

/-- **C18** (empty Hessian). The empty Hessian of a linear constraint object is the exact second derivative of
`λ · constraints`, after every scaling history. -/
theorem C18_empty_hessian {c : Cons} {M : Nat → Nat → ℝ} {b : Nat → ℝ} {st : List Nat × List Nat} {cache : Bool}
    (hc : Cons.makeLinear n m con jac st cache = .ok c) (hA : Affine n m con M b) (hj : StructIn st m n)
    (ops : List ScaleOp) (ho : ∀ o ∈ ops, GoodOp n m o) (x lam : List ℝ) (hx : x.length = n)
    (hlam : lam.length = m) :
    (c.runAll ops).hessian x lam = [] ∧ (c.runAll ops).hessStruct = ([], []) ∧
    IsHessianAt n (fun y => dot lam ((c.runAll ops).constraints y)) x (fun _ _ => True)
        (assemble (c.runAll ops).hessStruct.1 (c.runAll ops).hessStruct.2 ((c.runAll ops).hessian x lam)) := by
  obtain ⟨jac', hc'⟩ : ∃ jac', Cons.make n m con jac' (fun _ _ => []) (some st) (some ([], [])) = .ok c :=
    ⟨_, hc⟩
  have hu : UserHess n m con (fun _ _ => []) (declared (some ([], [])) n n) (fun _ _ => True) := by
    refine ⟨by simp [declared, StructIn], ?_⟩
    intro y l hy hl
    refine ⟨rfl, fun _ => ?_⟩
    have := affine_hessian hA hy hl
    refine this.congr hy (fun _ _ => rfl) ?_
    intro i j _ _ _
    simp [declared, assemble]
  obtain ⟨h1, h2, h3⟩ := C10_hessian_is_second_derivative hc' (by simpa [declared] using hj) hu ops ho x lam hx hlam trivial
  refine ⟨?_, by simpa [declared] using h3, h1⟩
  rw [h3] at h2
  simpa [declared] using h2

/-! ## C11 -/

/-- The objective after a history of `set_input_scales` calls. -/
noncomputable def Obj.runAll (o : Obj) (ss : List (List ℝ)) : Obj := ss.foldl (fun o s => (o.setInputScales s).1) o

/-- The user's gradient and Hessian callables are right for the user's objective. -/
def UserObj (n : Nat) (f : List ℝ → ℝ) (g h : List ℝ → List ℝ) (st : List Nat × List Nat)
    (P : Nat → Nat → Prop) (D : List ℝ → Prop := fun _ => True) : Prop :=
  StructIn st n n ∧ ∀ y : List ℝ, y.length = n → (g y).length = n ∧ (D y → IsGradientAt n f y (fun j => (g y).getD j 0))
    ∧ (h y).length = st.1.length ∧ (D y → IsHessianAt n f y P (assemble st.1 st.2 (h y)))

theorem UserObj.mono {n : Nat} {f : List ℝ → ℝ} {g h : List ℝ → List ℝ} {st : List Nat × List Nat} {P : Nat → Nat → Prop}
    {D D' : List ℝ → Prop} (hu : UserObj n f g h st P D) (hd : ∀ y, D' y → D y) : UserObj n f g h st P D' :=
  ⟨hu.1, fun y hy => ⟨(hu.2 y hy).1, fun hD => (hu.2 y hy).2.1 (hd y hD), (hu.2 y hy).2.2.1, fun hD => (hu.2 y hy).2.2.2 (hd y hD)⟩⟩

/-- The state of an objective as a function of the last scales. -/
noncomputable def Obj.stateOf (n : Nat) (f : List ℝ → ℝ) (g h : List ℝ → List ℝ) (st : List Nat × List Nat)
    (s : List ℝ) : Obj :=
  { numIn := n, obj := f, grad := g, hess := h, hessStruct := st, inScales := s
    hessScales := List.zipWith (fun r c => 1 / (s.getD r 0 * s.getD c 0)) st.1 st.2 }

variable {f : List ℝ → ℝ} {g h : List ℝ → List ℝ}

theorem obj_make_eq (hh : StructIn (declared hs n n) n n) :
    Obj.make n f g h hs = .ok (Obj.stateOf n f g h (declared hs n n) (List.replicate n 1)) := by
  cases hs <;>
  · unfold Obj.make
    dsimp only
    rw [objUpdateHessScales_ok _ (by simpa [declared] using hh.2.1) (by simpa [declared] using hh.2.2)]
    rfl

theorem obj_set_eq {st : List Nat × List Nat} (hh : StructIn st n n) {s s' : List ℝ} (hl : s'.length = n) :
    (Obj.stateOf n f g h st s).setInputScales s' = (Obj.stateOf n f g h st s', none) := by
  unfold Obj.setInputScales
  dsimp only
  rw [objUpdateHessScales_ok _ (by simpa [Obj.stateOf, hl] using hh.2.1) (by simpa [Obj.stateOf, hl] using hh.2.2)]
  rfl

theorem obj_runAll_eq {st : List Nat × List Nat} (hh : StructIn st n n) {s : List ℝ} (ss : List (List ℝ))
    (hl : ∀ s ∈ ss, s.length = n) :
    (Obj.stateOf n f g h st s).runAll ss = Obj.stateOf n f g h st (ss.getLastD s) := by
  induction ss generalizing s with
  | nil => rfl
  | cons a as ih =>
    have h2 := ih (s := a) (fun s hs => hl s (by simp [hs]))
    unfold Obj.runAll at h2 ⊢
    rw [List.foldl_cons, obj_set_eq hh (hl a (by simp)), h2]
    cases as <;> rfl

theorem stateOf_obj {st : List Nat × List Nat} {s : List ℝ} {P : Nat → Nat → Prop} (hu : UserObj n f g h st P D)
    (hs' : s.length = n) {x : List ℝ} (hx : x.length = n) :
    (D (vmul x s) → IsGradientAt n (Obj.stateOf n f g h st s).objective x
        (fun j => ((Obj.stateOf n f g h st s).gradient x).getD j 0))
    ∧ ((Obj.stateOf n f g h st s).gradient x).length = n
    ∧ (D (vmul x s) → IsHessianAt n (Obj.stateOf n f g h st s).objective x P
        (assemble st.1 st.2 ((Obj.stateOf n f g h st s).hessian x)))
    ∧ ((Obj.stateOf n f g h st s).hessian x).length = st.1.length := by
  have hy : (vmul x s).length = n := by simp [hx, hs']
  obtain ⟨u1, u2, u3, u4⟩ := hu.2 (vmul x s) hy
  refine ⟨?_, ?_, ?_, ?_⟩
  · intro hD j hj
    have h1 := hasDerivAt_scaled (F := f) (by omega) (u2 hD j hj)
    have e : ((Obj.stateOf n f g h st s).gradient x).getD j 0 = (g (vmul x s)).getD j 0 * s.getD j 0 := by
      show (vmul (g (vmul x s)) s).getD j 0 = _
      rw [getD_vmul (by omega)]
    beta_reduce
    rw [e]
    exact h1
  · show (vmul (g (vmul x s)) s).length = n
    simp [u1, hs']
  · intro hD
    refine (IsHessianAt.scaled hx hs' (u4 hD)).congr hx (fun _ _ => rfl) ?_
    intro i j _ _ _
    show assemble st.1 st.2 (vdiv (h (vmul x s)) _) i j = _
    simp only [Obj.stateOf]
    rw [assemble_vdiv, div_div_eq_mul_div, div_one]
  · show (vdiv (h (vmul x s)) _).length = _
    rw [length_vdiv, u3]
    simp [Obj.stateOf, hu.1.1]

/-- **C11**. After any history of `set_input_scales` calls the objective's value is the user's objective at
the unscaled point, and `gradient` and `hessian` are its first and second derivatives. -/
theorem C11_objective_derivatives {o : Obj} {P : Nat → Nat → Prop} (hc : Obj.make n f g h hs = .ok o)
    (hu : UserObj n f g h (declared hs n n) P D) (ss : List (List ℝ))
    (hl : ∀ s ∈ ss, s.length = n ∧ ∀ a ∈ s, a ≠ 0) (x : List ℝ) (hx : x.length = n)
    (hD : D (vmul x (ss.getLastD (List.replicate n 1)))) :
    (o.runAll ss).objective x = f (vmul x (ss.getLastD (List.replicate n 1)))
    ∧ IsGradientAt n (o.runAll ss).objective x (fun j => ((o.runAll ss).gradient x).getD j 0)
    ∧ ((o.runAll ss).gradient x).length = n
    ∧ (o.runAll ss).hessStruct = declared hs n n
    ∧ IsHessianAt n (o.runAll ss).objective x P
        (assemble (o.runAll ss).hessStruct.1 (o.runAll ss).hessStruct.2 ((o.runAll ss).hessian x))
    ∧ ((o.runAll ss).hessian x).length = (o.runAll ss).hessStruct.1.length := by
  rw [obj_make_eq hu.1] at hc
  cases hc
  rw [obj_runAll_eq hu.1 ss (fun s hs => (hl s hs).1)]
  have hlast : (ss.getLastD (List.replicate n 1)).length = n := by
    cases ss with
    | nil => simp
    | cons a as =>
      have : (a :: as).getLastD (List.replicate n 1) ∈ a :: as := by
        rw [List.getLastD_cons, List.getLastD_eq_getLast?]
        cases hq : as.getLast? with
        | none => simp
        | some v => simp [List.mem_of_getLast? hq]
      exact (hl _ this).1
  obtain ⟨a1, a2, a3, a4⟩ := stateOf_obj hu hlast hx
  exact ⟨rfl, a1 hD, a2, rfl, a3 hD, a4⟩

/-! ## The hypotheses can be met (non-trivial cases) -/

/-- `c(x, y) = (x², x + y)`, Jacobian dense, Hessian of `λ·c` dense. -/
noncomputable def exCon : List ℝ → List ℝ := fun y => [y.getD 0 0 * y.getD 0 0, y.getD 0 0 + y.getD 1 0]
noncomputable def exJac : List ℝ → List ℝ := fun y => [2 * y.getD 0 0, 0, 1, 1]
noncomputable def exHess : List ℝ → List ℝ → List ℝ := fun _ lam => [2 * lam.getD 0 0, 0, 0, 0]

theorem exUserJac : UserJac 2 2 exCon exJac (declared none 2 2) := by
  refine ⟨structIn_dense 2 2, ?_⟩
  intro y hy
  refine ⟨rfl, rfl, fun _ => ?_⟩
  obtain ⟨a, b, rfl⟩ : ∃ a b, y = [a, b] := by
    match y, hy with
    | [a, b], _ => exact ⟨a, b, rfl⟩
  intro r hr j hj
  have hd : denseStructure 2 2 = ([0, 0, 1, 1], [0, 1, 0, 1]) := by decide
  have hr' : r = 0 ∨ r = 1 := by omega
  have hj' : j = 0 ∨ j = 1 := by omega
  rcases hr' with rfl | rfl <;> rcases hj' with rfl | rfl <;>
    simp [declared, hd, assemble, exCon, exJac]
  · have := (hasDerivAt_id a).mul (hasDerivAt_id a)
    simp only [id, one_mul, mul_one] at this
    rw [two_mul]; exact this
  · exact hasDerivAt_const _ _
  · simpa using (hasDerivAt_id a).add_const b
  · simpa using (hasDerivAt_id b).const_add a

theorem exUserHess : UserHess 2 2 exCon exHess (declared none 2 2) (fun _ _ => True) := by
  refine ⟨structIn_dense 2 2, ?_⟩
  intro y lam hy hlam
  refine ⟨rfl, fun _ => ?_⟩
  obtain ⟨a, b, rfl⟩ : ∃ a b, y = [a, b] := by
    match y, hy with
    | [a, b], _ => exact ⟨a, b, rfl⟩
  obtain ⟨l, k, rfl⟩ : ∃ a b, lam = [a, b] := by
    match lam, hlam with
    | [a, b], _ => exact ⟨a, b, rfl⟩
  have hd : denseStructure 2 2 = ([0, 0, 1, 1], [0, 1, 0, 1]) := by decide
  refine IsHessianAt.of_global rfl ⟨fun z j => if j = 0 then l * (2 * z.getD 0 0) + k else k, ?_, ?_⟩
  · intro z hz j hj
    obtain ⟨p, q, rfl⟩ : ∃ a b, z = [a, b] := by
      match z, hz with
      | [a, b], _ => exact ⟨a, b, rfl⟩
    have hj' : j = 0 ∨ j = 1 := by omega
    rcases hj' with rfl | rfl
    · simp [dot, exCon]
      have h1 := ((hasDerivAt_id p).mul (hasDerivAt_id p)).const_mul l
      have h2 := ((hasDerivAt_id p).add_const q).const_mul k
      have h3 := h1.add h2
      simp only [id, one_mul, mul_one] at h3
      rw [two_mul]
      exact h3
    · simp [dot, exCon]
      simpa using (((hasDerivAt_id q).const_add p).const_mul k).const_add (l * (p * p))
  · intro i j hi hj _
    have hi' : i = 0 ∨ i = 1 := by omega
    have hj' : j = 0 ∨ j = 1 := by omega
    rcases hi' with rfl | rfl <;> rcases hj' with rfl | rfl <;>
      simp [declared, hd, assemble, exHess]
    · have := ((hasDerivAt_id a).const_mul 2).const_mul l
      simp only [id, mul_one] at this
      rw [mul_comm 2 l]; exact this
    · exact hasDerivAt_const _ _
    · exact hasDerivAt_const _ _
    · exact hasDerivAt_const _ _

/-- A history of three setter calls meeting the hypotheses of C09/C10. -/
example : ∀ o ∈ [ScaleOp.setInput [2, 3], .setCon [5, 7], .setInput [11, 13]], GoodOp 2 2 o := by
  intro o ho
  simp at ho
  rcases ho with rfl | rfl | rfl <;> simp [GoodOp]

end Lumos.NLP
