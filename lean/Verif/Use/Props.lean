import Verif.Use.Step
/-!
# C97: a problem in use means what the calls ask for
-/

namespace Lumos.Use

open Lumos DecVar DecVar.Layout NLP Bounds Ocp OCP

variable {P : Type} {J : Kind P} {V : Option ℝ → P → Prop} {D : P → List ℝ → ℝ → Prop} {p : P} {u : Use P} {cs : List (Call P)}

/-- What is known after a good history. -/
theorem used (hJ : J.Good V D) (hv : V J.S.builtScale p) (hu : construct J p = .ok u) (hcs : GoodCalls J V (Book.init J p) cs) :
    ∃ b0, (J.at J.S.builtScale p J.S.isCyclic).build = .ok b0 ∧ b0.bounds = u.bounds ∧
      Inv J V D b0.bounds (u.run cs) (book J p cs) := by
  obtain ⟨u', b, e, e', h⟩ := construct_inv hJ hv
  rw [hu] at e
  simp only [Except.ok.injEq] at e
  subst e
  exact ⟨b, e', h.bounds.symm, h.run hJ hcs⟩

theorem Inv.now {B0 : St EReal} {b : Book P} (h : Inv J V D B0 u b) : Fits J D b b.scale b.params u.now := by
  unfold Use.now
  rw [h.scale, h.params]
  exact h.fits _ _ h.sane.valid

theorem Inv.feasible {B0 : St EReal} (hJ : J.Good V D) {b : Book P} (h : Inv J V D B0 u b) {x : List ℝ} (hx : x.length = J.S.c.o.L.numDec) :
    u.Feasible (vdiv x u.now.scales) ↔ b.limits = b.rows J ∧ (∀ c ∈ expectedSig (b.setup J), ∀ v ∈ c.2.2 x, v = 0) ∧ b.UserHolds x := by
  have hf := h.now
  have hne := cons_ne hf
  obtain ⟨g, g1, g2⟩ := C32_feasible_set_unchanged hf.reach hne x hx
  have hsl := hf.reach.inv.scales.1
  obtain ⟨v, v1, v2, _⟩ := C12_constraints_and_split hf.reach hne (vdiv x u.now.scales) (by simp [vdiv, hx, hsl])
  rw [g1] at v1
  simp only [Except.ok.injEq] at v1
  subst v1
  have hr := rows_fits hJ h.sane h.sane.valid hf
  have hz : (∀ c ∈ expectedSig (b.setup J), ∀ v ∈ c.2.2 x, v = 0) ∧ b.UserHolds x ↔ ∀ v ∈ g, v = 0 := by
    rw [g2, sig_zero_iff, hf.cons]
    constructor
    · rintro ⟨h1, h2⟩ c hc
      rcases List.mem_append.mp hc with hc | hc
      · exact h1 c hc
      · exact h2 c hc
    · intro h
      exact ⟨fun c hc => h c (List.mem_append_left _ hc), fun c hc => h c (List.mem_append_right _ hc)⟩
  unfold Use.Feasible
  rw [h.cl, h.cu, hz]
  constructor
  · rintro ⟨g', e, k1, k2⟩
    rw [g1] at e
    simp only [Except.ok.injEq] at e
    subst e
    have hl : b.limits = b.rows J := by
      have := k1.length_eq
      rw [List.length_replicate, v2, hr] at this
      exact this
    refine ⟨hl, (forall₂_zero_iff g b.limits ?_).mp ⟨k1, k2⟩⟩
    rw [v2, hr, hl]
  · rintro ⟨hl, hz⟩
    exact ⟨g, g1, (forall₂_zero_iff g b.limits (by rw [v2, hr, hl])).mpr hz⟩

/-- **C97 (the constructor accepts).** -/
theorem C97_construct (hJ : J.Good V D) (hv : V J.S.builtScale p) : ∃ u, construct J p = .ok u := by
  obtain ⟨u, _, h, _⟩ := construct_inv hJ hv
  exact ⟨u, h⟩

/-- **C97 (what the solver enforces, lifted form).** After any history of calls the constraints at the scaled point are within their
limits if and only if the limits are those of the present number of rows, `x` is a solution of the discretised problem with the
mesh scale, the parameters and the cyclic constraints now in force, and the user's own constraints vanish at `x`. -/
theorem C97_meaning (hJ : J.Good V D) (hv : V J.S.builtScale p) (hu : construct J p = .ok u) (hcs : GoodCalls J V (Book.init J p) cs)
    (hcd : J.S.isCondensed = false) {x : List ℝ} (hx : x.length = J.S.c.o.L.numDec) :
    (u.run cs).Feasible (vdiv x (u.run cs).now.scales) ↔
      (book J p cs).limits = (book J p cs).rows J ∧ IsSolution ((book J p cs).setup J) x ∧ (book J p cs).UserHolds x := by
  obtain ⟨_, _, _, h⟩ := used hJ hv hu hcs
  rw [h.feasible hJ hx]
  have hg : ((book J p cs).setup J).Good (D (book J p cs).params) := good_cyc (hJ.good _ _ h.sane.valid) h.sane.cyc
  obtain ⟨b1, e1, _⟩ := C47_build hg
  rw [← C47_lifted hg hcd e1 hx, feasible_iff hg e1 hx]

/-- **C97 (condensed form).** There `x` itself need not satisfy the model equations; a solution that differs from `x` in the state
derivatives only exists. -/
theorem C97_meaning_condensed (hJ : J.Good V D) (hv : V J.S.builtScale p) (hu : construct J p = .ok u)
    (hcs : GoodCalls J V (Book.init J p) cs) (hcd : J.S.isCondensed = true) {x : List ℝ} (hx : x.length = J.S.c.o.L.numDec) :
    (u.run cs).Feasible (vdiv x (u.run cs).now.scales) ↔
      (book J p cs).limits = (book J p cs).rows J ∧
        (∃ y : List ℝ, y.length = J.S.c.o.L.numDec ∧ ((book J p cs).setup J).c.SameButDot x y ∧ IsSolution ((book J p cs).setup J) y) ∧
        (book J p cs).UserHolds x := by
  obtain ⟨_, _, _, h⟩ := used hJ hv hu hcs
  rw [h.feasible hJ hx]
  have hg : ((book J p cs).setup J).Good (D (book J p cs).params) := good_cyc (hJ.good _ _ h.sane.valid) h.sane.cyc
  obtain ⟨b1, e1, _⟩ := C47_build hg
  have := C47_condensed hg hcd e1 hx
  rw [feasible_iff hg e1 hx] at this
  rw [this]
  rfl

/-- **C97 (the number of constraints).** -/
theorem C97_rows (hJ : J.Good V D) (hv : V J.S.builtScale p) (hu : construct J p = .ok u) (hcs : GoodCalls J V (Book.init J p) cs) :
    (u.run cs).now.numCon = (book J p cs).rows J ∧ (u.run cs).cl = List.replicate (book J p cs).limits 0 ∧
      (u.run cs).cu = List.replicate (book J p cs).limits 0 := by
  obtain ⟨_, _, _, h⟩ := used hJ hv hu hcs
  exact ⟨rows_fits hJ h.sane h.sane.valid h.now, h.cl, h.cu⟩

/-- **C97 (scales).** The scales are those of the last `set_scales`, or of the construction. -/
theorem C97_scales (hJ : J.Good V D) (hv : V J.S.builtScale p) (hu : construct J p = .ok u) (hcs : GoodCalls J V (Book.init J p) cs)
    {v : Var} {i : Nat} (hvar : J.S.c.o.L.IsVar v) (hq : J.S.c.o.L.query v = .ok (.scalar i)) :
    (u.run cs).now.scales[i]? = some (askedScale (book J p cs).scales (Var.group v) (Var.name v)) := by
  obtain ⟨_, _, _, h⟩ := used hJ hv hu hcs
  exact h.now.scales v i hvar hq

/-- The calls that concern bounds. -/
def boundsCall : Call P → Option (Bounds.Call EReal)
  | .bounds c => some c
  | _ => none

theorem run_bounds (cs : List (Call P)) : ∀ u : Use P,
    (u.run cs).bounds = Bounds.runAll u.J.S.c.o.L u.bounds (cs.filterMap boundsCall) := by
  induction cs with
  | nil => intro u; rfl
  | cons c cs ih =>
    intro u
    show ((u.step c).1.run cs).bounds = _
    rw [ih]
    cases c with
    | bounds c => rfl
    | setMeshScale ms =>
      have e : (u.step (.setMeshScale ms)).1.bounds = u.bounds ∧ (u.step (.setMeshScale ms)).1.J = u.J := by
        simp only [Use.step]; split <;> exact ⟨rfl, rfl⟩
      rw [e.1, e.2]; rfl
    | setParams r =>
      have e : (u.step (.setParams r)).1.bounds = u.bounds ∧ (u.step (.setParams r)).1.J = u.J := by
        simp only [Use.step]; split <;> exact ⟨rfl, rfl⟩
      rw [e.1, e.2]; rfl
    | setScales _ => rfl
    | addObjective _ _ => rfl
    | deleteObjective _ => rfl
    | addConstraints _ _ => rfl
    | deleteConstraints _ => rfl
    | setCons => rfl
    | hessianstructure => rfl
    | hessian _ _ _ => rfl
    | solve _ => rfl

/-- **C97 (bounds).** Whatever else was called, good or bad, the bounds are those which the bound methods alone leave behind. -/
theorem C97_bounds (hu : construct J p = .ok u) (cs : List (Call P)) :
    (u.run cs).bounds = Bounds.runAll J.S.c.o.L u.bounds (cs.filterMap boundsCall) := by
  rw [run_bounds]
  have : u.J = J := by
    unfold construct at hu
    simp only [bind, Except.bind] at hu
    split at hu
    · cases hu
    · simp only [pure, Except.pure, Except.ok.injEq] at hu
      rw [← hu]
  rw [this]

end Lumos.Use
