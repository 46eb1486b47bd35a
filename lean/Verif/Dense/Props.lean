import Verif.Dense.Model
import Mathlib.Analysis.Calculus.Deriv.Comp
/-!
# C117: dense problems derived from `NLPFunction`
-/

namespace Lumos.Dense

open scoped BigOperators

variable {n m : Nat} {A : Type}

/-- The point reached from `x` along `v`. -/
def along (x v : Fin n → ℝ) (t : ℝ) : Fin n → ℝ := x + t • v

theorem along_zero (x v : Fin n → ℝ) : along x v 0 = x := by simp [along]

theorem along_deriv (x v : Fin n → ℝ) (t : ℝ) : HasDerivAt (along x v) v t := by
  have h : HasDerivAt (fun t : ℝ => x + t • v) ((1 : ℝ) • v) t := ((hasDerivAt_id t).smul_const v).const_add x
  rw [one_smul] at h
  exact h

theorem vec_sum (v : Fin n → ℝ) : v = ∑ i, v i • (Pi.single i (1 : ℝ) : Fin n → ℝ) := by
  funext j
  simp [Finset.sum_apply, Pi.single_apply]

/-- A linear map by its values on the unit vectors. -/
theorem linear_sum (L : (Fin n → ℝ) →L[ℝ] ℝ) (v : Fin n → ℝ) : L v = ∑ i, L (Pi.single i 1) * v i := by
  conv_lhs => rw [vec_sum v]
  rw [map_sum]
  exact Finset.sum_congr rfl fun i _ => by rw [map_smul, smul_eq_mul, mul_comm]

/-- The partial derivatives give the derivative in every direction. -/
theorem partial_along {f : (Fin n → ℝ) → ℝ} {x : Fin n → ℝ} (h : DifferentiableAt ℝ f x) (v : Fin n → ℝ) :
    HasDerivAt (fun t => f (along x v t)) (∑ i, partialD f i x * v i) 0 := by
  have h1 : HasFDerivAt f (fderiv ℝ f x) (along x v 0) := by rw [along_zero]; exact h.hasFDerivAt
  have := h1.comp_hasDerivAt 0 (along_deriv x v 0)
  rw [linear_sum] at this
  exact this

/-! ## Histories without assignments -/

/-- No attribute is assigned. -/
def Op.IsSet : Op n m A → Prop
  | .set _ => True
  | _ => False

/-- All compiled methods were compiled with the attributes that the object has. -/
def Current (o : Obj n A) : Prop :=
  (∀ a ∈ o.gradC, a = o.attrs) ∧ (∀ a ∈ o.jacC, a = o.attrs) ∧ ∀ a ∈ o.hessC, a = o.attrs

theorem getD_current {c : Option A} {a : A} (h : ∀ b ∈ c, b = a) : c.getD a = a := by
  cases c with
  | none => rfl
  | some b => exact h b rfl

theorem step_current (s : Sub n m A) {o : Obj n A} (h : Current o) {op : Op n m A} (ho : ¬op.IsSet) :
    Current (step s o op).1 ∧ (step s o op).1.attrs = o.attrs := by
  obtain ⟨h1, h2, h3⟩ := h
  cases op with
  | set a => exact absurd trivial ho
  | objective x => exact ⟨⟨h1, h2, h3⟩, rfl⟩
  | gradient x =>
    refine ⟨⟨fun a ha => ?_, h2, h3⟩, rfl⟩
    cases ha
    exact getD_current h1
  | constraints x => exact ⟨⟨h1, h2, h3⟩, rfl⟩
  | jacobian x =>
    refine ⟨⟨h1, fun a ha => ?_, h3⟩, rfl⟩
    cases ha
    exact getD_current h2
  | hessian x lam sigma =>
    refine ⟨⟨h1, h2, fun a ha => ?_⟩, rfl⟩
    cases ha
    exact getD_current h3

theorem run_current (s : Sub n m A) (ops : List (Op n m A)) {o : Obj n A} (h : Current o) (ho : ∀ op ∈ ops, ¬op.IsSet) :
    Current (run s o ops) ∧ (run s o ops).attrs = o.attrs := by
  induction ops generalizing o with
  | nil => exact ⟨h, rfl⟩
  | cons op ops ih =>
    obtain ⟨h1, h2⟩ := step_current s h (ho op List.mem_cons_self)
    obtain ⟨h3, h4⟩ := ih h1 fun p hp => ho p (List.mem_cons_of_mem _ hp)
    exact ⟨h3, h4.trans h2⟩

theorem fresh_current (a : A) : Current (n := n) { attrs := a } :=
  ⟨fun _ h => (by cases h), fun _ h => (by cases h), fun _ h => (by cases h)⟩

/-- The object after any calls on a new object whose attributes are not assigned. -/
theorem used (s : Sub n m A) (a : A) {ops : List (Op n m A)} (ho : ∀ op ∈ ops, ¬op.IsSet) :
    (run s { attrs := a } ops).gradC.getD a = a ∧ (run s { attrs := a } ops).jacC.getD a = a ∧ (run s { attrs := a } ops).hessC.getD a = a
      ∧ (run s { attrs := a } ops).attrs = a := by
  obtain ⟨⟨h1, h2, h3⟩, h4⟩ := run_current s ops (fresh_current a) ho
  rw [h4] at h1 h2 h3
  exact ⟨getD_current h1, getD_current h2, getD_current h3, h4⟩

/-- **C117** (gradient). After any calls on an object whose attributes are not assigned, `gradient` at a point where the objective is
differentiable returns the vector that gives the rate of change of the objective in every direction. -/
theorem C117_gradient (s : Sub n m A) (a : A) {ops : List (Op n m A)} (ho : ∀ op ∈ ops, ¬op.IsSet) {x : Fin n → ℝ}
    (h : DifferentiableAt ℝ (s.compute a) x) :
    ∃ g, (step s (run s { attrs := a } ops) (.gradient x)).2 = .vector g
      ∧ ∀ v : Fin n → ℝ, HasDerivAt (fun t : ℝ => s.compute a (x + t • v)) (∑ i, g i * v i) 0 := by
  obtain ⟨h1, -, -, h4⟩ := used s a ho
  refine ⟨_, rfl, fun v => ?_⟩
  rw [h4, h1]
  exact partial_along h v

/-- **C117** (Jacobian). The same for the constraints. -/
theorem C117_jacobian (s : Sub n m A) (a : A) {ops : List (Op n m A)} (ho : ∀ op ∈ ops, ¬op.IsSet) {x : Fin n → ℝ}
    (h : ∀ k, DifferentiableAt ℝ (fun y => s.constraints a y k) x) :
    ∃ J, (step s (run s { attrs := a } ops) (.jacobian x)).2 = .matrix J
      ∧ ∀ (k : Fin m) (v : Fin n → ℝ), HasDerivAt (fun t : ℝ => s.constraints a (x + t • v) k) (∑ i, J k i * v i) 0 := by
  obtain ⟨-, h2, -, h4⟩ := used s a ho
  refine ⟨_, rfl, fun k v => ?_⟩
  rw [h4, h2]
  exact partial_along (h k) v

/-! ## The Hessian -/

/-- **C117** (structure). The structure lists every pair of variables of the upper triangle, each once. -/
theorem C117_structure (n : Nat) : (triu n).Nodup ∧ ∀ i j : Fin n, (i, j) ∈ triu n ↔ i ≤ j := by
  constructor
  · unfold triu
    rw [List.nodup_flatMap]
    refine ⟨fun i _ => ?_, ?_⟩
    · exact ((List.nodup_finRange n).filter _).map fun a b h => by cases h; rfl
    · refine (List.nodup_finRange n).imp fun {i i'} hne => ?_
      intro e h1 h2
      obtain ⟨_, _, rfl⟩ := List.mem_map.mp h1
      obtain ⟨_, _, h⟩ := List.mem_map.mp h2
      exact hne (congrArg Prod.fst h).symm
  · intro i j
    simp [triu]

/-- A sum over the upper triangle, each entry off the diagonal twice, is the sum over all entries of a symmetric matrix. -/
theorem triu_sum (M : Fin n → Fin n → ℝ) (hM : ∀ i j, M i j = M j i) :
    ((triu n).map fun e => (if e.1 = e.2 then 1 else 2) * M e.1 e.2).sum = ∑ i, ∑ j, M i j := by
  have e1 : ((triu n).map fun e => (if e.1 = e.2 then 1 else 2) * M e.1 e.2).sum
      = ∑ i : Fin n, ∑ j : Fin n, if i ≤ j then (if i = j then 1 else 2) * M i j else 0 := by
    obtain ⟨nd, mem⟩ := C117_structure n
    rw [← Fintype.sum_prod_type']
    rw [← Finset.sum_filter]
    rw [← List.sum_toFinset _ nd]
    refine Finset.sum_congr ?_ fun _ _ => rfl
    ext ⟨i, j⟩
    simp [mem]
  rw [e1]
  have lt : ∑ i : Fin n, ∑ j : Fin n, (if i < j then M i j else 0) = ∑ i : Fin n, ∑ j : Fin n, (if j < i then M i j else 0) := by
    rw [Finset.sum_comm]
    exact Finset.sum_congr rfl fun i _ => Finset.sum_congr rfl fun j _ => by rw [hM]
  have key : ∀ i j : Fin n, (if i ≤ j then (if i = j then 1 else 2) * M i j else 0)
      = M i j + (if i < j then M i j else 0) - (if j < i then M i j else 0) := by
    intro i j
    rcases lt_trichotomy i j with h | rfl | h
    · rw [if_pos h.le, if_neg h.ne, if_pos h, if_neg h.not_gt]; ring
    · simp
    · rw [if_neg (not_le.mpr h), if_neg h.not_gt, if_pos h]; ring
  simp only [key, Finset.sum_sub_distrib, Finset.sum_add_distrib, lt]
  ring

/-- The second derivative along a line. -/
theorem second_along {f : (Fin n → ℝ) → ℝ} (h : ContDiff ℝ 2 f) (x v : Fin n → ℝ) :
    deriv (deriv fun t => f (along x v t)) 0 = ∑ i, ∑ j, partialD (fun y => partialD f j y) i x * (v i * v j) := by
  have d1 : Differentiable ℝ f := h.differentiable (by norm_num)
  have d2 : Differentiable ℝ (fderiv ℝ f) := (h.fderiv_right (m := 1) (by norm_num)).differentiable (by norm_num)
  have e1 : (deriv fun t => f (along x v t)) = fun t => fderiv ℝ f (along x v t) v := by
    funext t
    exact ((d1 _).hasFDerivAt.comp_hasDerivAt t (along_deriv x v t)).deriv
  rw [e1]
  have e2 : ∀ w : Fin n → ℝ, HasFDerivAt (fun y => fderiv ℝ f y w) ((fderiv ℝ (fderiv ℝ f) x).flip w) x := fun w => by
    have := (d2 x).hasFDerivAt.clm_apply (hasFDerivAt_const w x)
    simpa using this
  have e3 : HasDerivAt (fun t => fderiv ℝ f (along x v t) v) (fderiv ℝ (fderiv ℝ f) x v v) 0 := by
    have h1 : HasFDerivAt (fun y => fderiv ℝ f y v) ((fderiv ℝ (fderiv ℝ f) x).flip v) (along x v 0) := by rw [along_zero]; exact e2 v
    exact h1.comp_hasDerivAt 0 (along_deriv x v 0)
  rw [e3.deriv]
  have e4 : ∀ i j, partialD (fun y => partialD f j y) i x = fderiv ℝ (fderiv ℝ f) x (Pi.single i 1) (Pi.single j 1) := fun i j => by
    unfold partialD
    rw [(e2 _).fderiv]
    rfl
  simp only [e4]
  have := linear_sum ((fderiv ℝ (fderiv ℝ f) x).flip v) v
  rw [show fderiv ℝ (fderiv ℝ f) x v v = (fderiv ℝ (fderiv ℝ f) x).flip v v from rfl, this]
  refine Finset.sum_congr rfl fun i _ => ?_
  rw [show (fderiv ℝ (fderiv ℝ f) x).flip v (Pi.single i 1) = fderiv ℝ (fderiv ℝ f) x (Pi.single i 1) v from rfl, linear_sum, Finset.sum_mul]
  exact Finset.sum_congr rfl fun j _ => by ring

theorem second_symm {f : (Fin n → ℝ) → ℝ} (h : ContDiff ℝ 2 f) (x : Fin n → ℝ) (i j : Fin n) :
    partialD (fun y => partialD f j y) i x = partialD (fun y => partialD f i y) j x := by
  have d2 : Differentiable ℝ (fderiv ℝ f) := (h.fderiv_right (m := 1) (by norm_num)).differentiable (by norm_num)
  have e2 : ∀ w : Fin n → ℝ, HasFDerivAt (fun y => fderiv ℝ f y w) ((fderiv ℝ (fderiv ℝ f) x).flip w) x := fun w => by
    have := (d2 x).hasFDerivAt.clm_apply (hasFDerivAt_const w x)
    simpa using this
  unfold partialD
  rw [(e2 _).fderiv, (e2 _).fderiv]
  exact (h.contDiffAt.isSymmSndFDerivAt (by simp)) _ _

/-- **C117** (Hessian). After any calls on an object whose attributes are not assigned, for a twice continuously differentiable objective and
constraints, `hessian` returns one number for each pair of the structure, and these numbers, with the entries off the diagonal counted for both
triangles, are the Hessian of `sigma * objective + sum of multipliers * constraints`: they give its second derivative in every direction. -/
theorem C117_hessian (s : Sub n m A) (a : A) {ops : List (Op n m A)} (ho : ∀ op ∈ ops, ¬op.IsSet) (hf : ContDiff ℝ 2 (s.compute a))
    (hg : ∀ k, ContDiff ℝ 2 fun y => s.constraints a y k) (x : Fin n → ℝ) (lam : Fin m → ℝ) (sigma : ℝ) :
    ∃ H, (step s (run s { attrs := a } ops) (.hessian x lam sigma)).2 = .entries H ∧ H.length = (triu n).length
      ∧ ∀ v : Fin n → ℝ,
        deriv (deriv fun t : ℝ => sigma * s.compute a (x + t • v) + ∑ k, lam k * s.constraints a (x + t • v) k) 0
          = (List.zipWith (fun e h => (if e.1 = e.2 then 1 else 2) * (h * (v e.1 * v e.2))) (triu n) H).sum := by
  obtain ⟨-, -, h3, h4⟩ := used s a ho
  refine ⟨_, rfl, by simp, fun v => ?_⟩
  rw [h4, h3]
  have hL : ContDiff ℝ 2 (s.lagrangian a lam sigma) := by
    unfold Sub.lagrangian
    exact (contDiff_const.mul hf).add (ContDiff.sum fun k _ => contDiff_const.mul (hg k))
  rw [List.zipWith_map_right, List.zipWith_self]
  rw [triu_sum (fun i j => partialD (fun y => partialD (s.lagrangian a lam sigma) j y) i x * (v i * v j)) fun i j => by
    rw [second_symm hL x i j, mul_comm (v i)]]
  exact second_along hL x v

/-! ## Findings -/

/-- **C117** (finding: assigned attributes). The gradient of an object is compiled at its first call, for the attributes that the object has then:
if an attribute is assigned afterwards, `gradient` still returns the gradient of the old objective, while `objective` returns the new one. The
same holds for the Jacobian and the Hessian. -/
theorem C117_stale (s : Sub n m A) (a b : A) (x y : Fin n → ℝ) (lam : Fin m → ℝ) (sigma : ℝ) :
    (step s (run s { attrs := a } [.gradient x, .set b]) (.gradient y)).2 = (step s { attrs := a } (.gradient y)).2
    ∧ (step s (run s { attrs := a } [.jacobian x, .set b]) (.jacobian y)).2 = (step s { attrs := a } (.jacobian y)).2
    ∧ (step s (run s { attrs := a } [.hessian x lam sigma, .set b]) (.hessian y lam sigma)).2 = (step s { attrs := a } (.hessian y lam sigma)).2
    ∧ (step s (run s { attrs := a } [.gradient x, .jacobian x, .hessian x lam sigma, .set b]) (.objective y)).2 = .number (s.compute b y)
    ∧ (step s (run s { attrs := a } [.gradient x, .jacobian x, .hessian x lam sigma, .set b]) (.constraints y)).2 = .values (s.constraints b y) :=
  ⟨rfl, rfl, rfl, rfl, rfl⟩

/-- The attributes after a history: the last ones assigned, or those at the start. -/
def assigned (a : A) : List (Op n m A) → A
  | [] => a
  | .set b :: ops => assigned b ops
  | _ :: ops => assigned a ops

/-- **C117** (compiled once). In every history, with assignments or not, `gradient` answers with the objective as it was with the attributes at the
first call of `gradient`, and `objective` with the attributes last assigned. -/
theorem C117_compiled (s : Sub n m A) (a : A) (before after : List (Op n m A)) (x y : Fin n → ℝ) (h : ∀ z, Op.gradient z ∉ before) :
    (step s (run s { attrs := a } (before ++ .gradient x :: after)) (.gradient y)).2 = .vector (fun i => partialD (s.compute (assigned a before)) i y)
    ∧ (step s (run s { attrs := a } (before ++ .gradient x :: after)) (.objective y)).2
        = .number (s.compute (assigned a (before ++ .gradient x :: after)) y) := by
  have app : ∀ (p q : List (Op n m A)) (o : Obj n A), run s o (p ++ q) = run s (run s o p) q := by
    intro p
    induction p with
    | nil => exact fun _ _ => rfl
    | cons op p ih => exact fun q o => ih q _
  have attrs : ∀ (p : List (Op n m A)) (o : Obj n A), (run s o p).attrs = assigned o.attrs p := by
    intro p
    induction p with
    | nil => exact fun _ => rfl
    | cons op p ih =>
      intro o
      cases op <;> exact ih _
  have none : ∀ (p : List (Op n m A)) (o : Obj n A), o.gradC = .none → (∀ z, Op.gradient z ∉ p) → (run s o p).gradC = .none := by
    intro p
    induction p with
    | nil => exact fun _ h _ => h
    | cons op p ih =>
      intro o h1 h2
      have h2' : ∀ z, Op.gradient z ∉ p := fun z hz => h2 z (List.mem_cons_of_mem _ hz)
      cases op with
      | gradient z => exact absurd List.mem_cons_self (h2 z)
      | _ => exact ih _ h1 h2'
  have keep : ∀ (p : List (Op n m A)) (o : Obj n A) (b : A), o.gradC = some b → (run s o p).gradC = some b := by
    intro p
    induction p with
    | nil => exact fun _ _ h => h
    | cons op p ih =>
      intro o b h1
      refine ih _ b ?_
      cases op with
      | gradient z =>
        show some (o.gradC.getD o.attrs) = some b
        rw [h1]
        rfl
      | _ => exact h1
  constructor
  · have e : (run s { attrs := a } (before ++ .gradient x :: after)).gradC = some (assigned a before) := by
      rw [app]
      refine keep after _ _ ?_
      show some ((run s { attrs := a } before).gradC.getD (run s { attrs := a } before).attrs) = _
      rw [none before _ rfl h, attrs]
      rfl
    show Ans.vector _ = _
    rw [e]
    rfl
  · show Ans.number _ = _
    rw [attrs]

/-- **C117** (last decision variables). What the object keeps as the last decision variables is what the last call of `objective` was given, in every
history in which no Hessian is evaluated for the first time after it. -/
theorem C117_last (s : Sub n m A) (o : Obj n A) (before after : List (Op n m A)) (x : Fin n → ℝ) (h : ∀ y, Op.objective y ∉ after)
    (hh : (∃ y lam sigma, Op.hessian y lam sigma ∈ before) ∨ ∀ y lam sigma, Op.hessian y lam sigma ∉ after) :
    (run s o (before ++ .objective x :: after)).last = .numbers x := by
  have app : ∀ (p q : List (Op n m A)) (o : Obj n A), run s o (p ++ q) = run s (run s o p) q := by
    intro p
    induction p with
    | nil => exact fun _ _ => rfl
    | cons op p ih => exact fun q o => ih q _
  have mono : ∀ (op : Op n m A) (o : Obj n A), o.hessC.isSome → (step s o op).1.hessC.isSome := by
    intro op o ho
    cases op <;> first | exact ho | rfl
  have monos : ∀ (p : List (Op n m A)) (o : Obj n A), o.hessC.isSome → (run s o p).hessC.isSome := by
    intro p
    induction p with
    | nil => exact fun _ h => h
    | cons op p ih => exact fun o h => ih _ (mono op o h)
  have comp : ∀ (p : List (Op n m A)) (o : Obj n A), (∃ y lam sigma, Op.hessian y lam sigma ∈ p) → (run s o p).hessC.isSome := by
    intro p
    induction p with
    | nil => rintro o ⟨_, _, _, h⟩; cases h
    | cons op p ih =>
      rintro o ⟨y, lam, sigma, h⟩
      rcases List.mem_cons.mp h with rfl | h
      · exact monos p _ rfl
      · exact ih _ ⟨y, lam, sigma, h⟩
  have keep : ∀ (p : List (Op n m A)) (o : Obj n A), (∀ y, Op.objective y ∉ p) →
      (o.hessC.isSome ∨ ∀ y lam sigma, Op.hessian y lam sigma ∉ p) → (run s o p).last = o.last := by
    intro p
    induction p with
    | nil => exact fun _ _ _ => rfl
    | cons op p ih =>
      intro o h1 h2
      have h1' : ∀ y, Op.objective y ∉ p := fun y hy => h1 y (List.mem_cons_of_mem _ hy)
      have h2' : (step s o op).1.hessC.isSome ∨ ∀ y lam sigma, Op.hessian y lam sigma ∉ p :=
        h2.imp (mono op o) fun h y lam sigma hy => h y lam sigma (List.mem_cons_of_mem _ hy)
      refine (ih _ h1' h2').trans ?_
      cases op with
      | objective y => exact absurd List.mem_cons_self (h1 y)
      | hessian y lam sigma =>
        rcases h2 with h2 | h2
        · exact if_pos h2
        · exact absurd List.mem_cons_self (h2 y lam sigma)
      | _ => rfl
  rw [app]
  refine (keep after _ h ?_).trans rfl
  refine hh.imp (fun hb => ?_) id
  exact mono (.objective x) _ (comp before o hb)

/-- **C117** (finding: a traced value is kept). The first evaluation of the Hessian replaces the last decision variables by an abstract value of the
trace, which is no array of numbers, until the next call of `objective`. -/
theorem C117_tracer (s : Sub n m A) (a : A) (x y : Fin n → ℝ) (lam : Fin m → ℝ) (sigma : ℝ) :
    (run s { attrs := a } [.objective x, .hessian y lam sigma]).last = .tracer
    ∧ (run s { attrs := a } [.objective x, .hessian y lam sigma, .objective x, .hessian y lam sigma]).last = .numbers x := ⟨rfl, rfl⟩

/-! ## Example -/

/-- `a * x0^2 + x0 * x1`, subject to one constraint. -/
noncomputable def ex : Sub 2 1 ℝ where
  compute a x := a * x 0 ^ 2 + x 0 * x 1
  constraints _ x _ := x 0 + x 1

theorem ex_smooth (a : ℝ) : ContDiff ℝ 2 (ex.compute a) := by
  have h0 : ContDiff ℝ 2 fun x : Fin 2 → ℝ => x 0 := contDiff_apply ℝ ℝ 0
  have h1 : ContDiff ℝ 2 fun x : Fin 2 → ℝ => x 1 := contDiff_apply ℝ ℝ 1
  exact (contDiff_const.mul (h0.pow 2)).add (h0.mul h1)

example : ∃ H, (step ex (run ex { attrs := 3 } [.objective 0, .gradient 0]) (.hessian 0 0 1)).2 = .entries H ∧ H.length = 3 := by
  obtain ⟨H, h1, h2, -⟩ := C117_hessian ex 3 (ops := [.objective 0, .gradient 0]) (by simp [Op.IsSet]) (ex_smooth 3)
    (fun _ => (contDiff_apply ℝ ℝ 0).add (contDiff_apply ℝ ℝ 1)) 0 0 1
  exact ⟨H, h1, h2.trans (by decide)⟩

example : ∃ g, (step ex (run ex { attrs := 3 } [.objective 0]) (.gradient fun _ => 1)).2 = .vector g
    ∧ ∀ v : Fin 2 → ℝ, HasDerivAt (fun t : ℝ => ex.compute 3 ((fun _ => 1) + t • v)) (∑ i, g i * v i) 0 :=
  C117_gradient ex 3 (by simp [Op.IsSet]) ((ex_smooth 3).differentiable (by norm_num) _)

/-- The gradient after an assignment is that of the old objective, and the two differ. -/
example : (step ex (run ex { attrs := 3 } ([.objective 0] ++ .gradient 0 :: [.set 4])) (.gradient fun _ => 1)).2
    = .vector fun i => partialD (ex.compute 3) i fun _ => 1 :=
  (C117_compiled ex 3 [.objective 0] [.set 4] 0 (fun _ => 1) (by simp)).1

/-- The old and the new gradient differ. -/
example : partialD (ex.compute 3) 0 (fun _ => 1) ≠ partialD (ex.compute 4) 0 (fun _ => 1) := by
  have key : ∀ a : ℝ, partialD (ex.compute a) 0 (fun _ => 1) = 2 * a + 1 := fun a => by
    have h := partial_along (f := ex.compute a) (x := fun _ => 1) ((ex_smooth a).differentiable (by norm_num) _) (Pi.single 0 1)
    have h' : HasDerivAt (fun t : ℝ => a * (1 + t) ^ 2 + (1 + t) * 1) (2 * a + 1) 0 := by
      have h1 : HasDerivAt (fun t : ℝ => 1 + t) 1 0 := (hasDerivAt_id 0).const_add 1
      have := ((h1.pow 2).const_mul a).add (h1.mul_const 1)
      refine HasDerivAt.congr_deriv (f := fun t : ℝ => a * (1 + t) ^ 2 + (1 + t) * 1) this ?_
      norm_num
      ring
    have e : (fun t : ℝ => ex.compute a (along (fun _ => 1) (Pi.single 0 1) t)) = fun t : ℝ => a * (1 + t) ^ 2 + (1 + t) * 1 := by
      funext t
      simp [ex, along]
    rw [e] at h
    have := h.unique h'
    simpa [Fin.sum_univ_two] using this
  rw [key, key]
  norm_num

end Lumos.Dense
