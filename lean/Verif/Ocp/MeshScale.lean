import Verif.Ocp.BuildExample
/-!
# C68: changing the mesh scale of a built problem
-/

namespace Lumos.Ocp

open Lumos DecVar DecVar.Layout NLP Bounds OCP

/-- **C68 (lifted problem).** Building a problem with one mesh scale and then calling `set_mesh_scale` gives the problem
that is built with the new mesh scale at once: the same callables, structures, bounds and scales, or the same exception. -/
theorem C68_lifted (S : Setup) (hcd : S.isCondensed = false) (old : Option ℝ) :
    ({ S with builtScale := old } : Setup).build = ({ S with builtScale := S.c.o.fixedScale } : Setup).build := by
  unfold Setup.build Setup.assemble
  simp only [hcd, Bool.false_eq_true, if_false]
  rfl

/-- **C68 (any problem).** Whatever mesh scale was in force during the construction, the solver is given the same problem: the
same feasible points, objective, bounds, scales and limits. (C47 gives the derivatives, whatever the old mesh scale.) -/
theorem C68_same_problem {S : Setup} {D D' : List ℝ → ℝ → Prop} (h : S.Good D) (h' : ({ S with builtScale := S.c.o.fixedScale } : Setup).Good D') {b b' : Built}
    (hb : S.build = .ok b) (hb' : ({ S with builtScale := S.c.o.fixedScale } : Setup).build = .ok b') :
    b.prob.scales = b'.prob.scales ∧ b.bounds = b'.bounds ∧ b.cl = b'.cl ∧ b.cu = b'.cu ∧
    ∀ x : List ℝ, x.length = S.c.o.L.numDec →
      (b.Feasible (vdiv x b.prob.scales) ↔ b'.Feasible (vdiv x b.prob.scales)) ∧
      b.prob.objective (vdiv x b.prob.scales) = b'.prob.objective (vdiv x b.prob.scales) := by
  obtain ⟨_, _, s, e, _, r, sg, _, c1, c2, k, u1, u2, _⟩ := build_ok h
  rw [hb] at e
  simp only [Except.ok.injEq] at e
  subst e
  obtain ⟨_, _, s', e, _, r', sg', _, c1', c2', k', u1', u2', _⟩ := build_ok h'
  rw [hb'] at e
  simp only [Except.ok.injEq] at e
  subst e
  have hsc : b.prob.scales = b'.prob.scales := by
    have l := r.inv.scales.1
    have l' := r'.inv.scales.1
    apply List.ext_getElem?
    intro i
    by_cases hi : i < S.c.o.L.numDec
    · obtain ⟨v, v1, v2⟩ := C01_index_surjective h.cond.ocp.made i hi
      rw [k v i v1 v2]
      exact (k' v i v1 v2).symm
    · rw [List.getElem?_eq_none (by omega), List.getElem?_eq_none (by rw [l']; exact not_lt.mp hi)]
  have hn : b.prob.numCon = b'.prob.numCon := by
    rw [numCon_of_sig, numCon_of_sig, sg, sg']
    rfl
  have hbd : b.bounds = b'.bounds := by
    have e1 : (s, (none : Option PyErr)) = (s', none) := u1.symm.trans u1'
    simp only [Prod.mk.injEq, and_true] at e1
    subst e1
    have e2 : (b.bounds, (none : Option PyErr)) = (b'.bounds, none) := u2.symm.trans u2'
    simp only [Prod.mk.injEq, and_true] at e2
    exact e2
  refine ⟨hsc, hbd, by rw [c1, c1', hn], by rw [c2, c2', hn], fun x hx => ⟨?_, ?_⟩⟩
  · have f1 := feasible_iff h hb hx
    have f2 := feasible_iff h' hb' hx
    rw [← hsc] at f2
    rw [f1, f2]
    rfl
  · have o1 := C47_objective h hb hx
    have o2 := C47_objective h' hb' hx
    rw [← hsc] at o2
    rw [o1, o2]

/-! ## The structure of a condensed problem belongs to the old mesh scale -/

/-- One state, `x_dot = -x`. -/
noncomputable def decayModel : ExplicitModel :=
  { states := ["x"], inputs := [], conOutputs := [], residuals := []
    f := fun x _ _ => [-x.getD 0 0]
    h := fun _ _ _ => []
    r := fun _ _ _ => [] }

theorem decayModel_good : decayModel.Good :=
  ⟨by decide, by simp [decayModel], by simp [decayModel], by simp [decayModel], fun _ _ _ _ _ => rfl, fun _ _ _ _ _ => rfl,
    fun _ _ _ _ _ => rfl⟩

/-- Its dense Jacobian. -/
noncomputable def decayD (_ : List ℝ) (_ : ℝ) : Nat → Nat → ℝ
  | 0, 0 => -1
  | 0, 1 => -1
  | _, _ => 0

theorem decayFlat (a d μ : ℝ) : decayModel.flatImplicit [a, d] μ = [-a - d] := by
  rw [ExplicitModel.flatImplicit_eq decayModel_good rfl]
  simp [decayModel, ExplicitModel.rhs, ExplicitModel.xOf, ExplicitModel.uOf, ExplicitModel.wOf, ExplicitModel.nx,
    ExplicitModel.nu]

theorem decayDense : decayModel.DenseJac decayD := by
  intro v μ hv _ r hr j hj
  obtain ⟨a, d, rfl⟩ : ∃ a d, v = [a, d] := by
    have : v.length = 2 := hv
    match v, this with
    | [a, d], _ => exact ⟨a, d, rfl⟩
  have hr : r < 1 := hr
  have hj : j < 2 := hj
  interval_cases r
  interval_cases j <;>
    simp only [List.set_cons_zero, List.set_cons_succ, decayFlat, List.getD_cons_zero, decayD]
  · exact (hasDerivAt_id a).neg.sub_const d
  · exact (hasDerivAt_id d).const_sub (-a)

/-- Two stages of one state. -/
def decayL : Layout := ⟨[("states", ["x"]), ("inputs", []), ("states_dot", ["x"]), ("con_outputs", [])],
  ["states", "inputs", "states_dot", "con_outputs"], [], 1, 2⟩

/-- One forward Euler step of `x_dot = -x` on a fixed mesh. -/
noncomputable def exDecay (ms : ℝ) : CondOCP :=
  { o :=
      { L := decayL
        A := fun _ j => if j = 0 then -1 else 1
        B := fun _ j => if j = 0 then 1 else 0
        normLen := [1]
        fixedScale := some ms }
    M := decayModel
    u := decayModel.unitOf decayD fun _ _ _ _ _ => 0
    mesh := [0, 1] }

theorem exDecay_good (ms : ℝ) : (exDecay ms).Good where
  stage :=
    { made := (by show decayL.Made; exact ⟨by decide +kernel, by decide, by decide⟩)
      fields := (by show decayL.Fields; exact ⟨by decide, by decide +kernel⟩)
      stages := (by show 2 ≤ 2; decide)
      intervals := (by show 1 ≤ 1; decide)
      states := (by show "states" ∈ decayL.groups; decide)
      statesDot := (by show "states_dot" ∈ decayL.groups; decide)
      same := rfl
      pos := (by show 0 < decayL.size "states"; decide +kernel)
      lens := rfl
      mesh := (by simp [exDecay, decayL])
      width := rfl
      points := rfl }
  model := decayModel_good
  con := rfl
  numIn := rfl
  numCon := rfl
  groups := rfl
  sizeX := rfl
  sizeU := rfl
  sizeY := rfl

theorem exDecay_row (ms a0 d0 a1 d1 : ℝ) : ((exDecay ms).condFun [a0, d0, a1, d1]).getD 0 0 = -a0 + a1 + ms * a0 := by
  have h1 := CondOCP.condFun_cont (exDecay_good ms) [a0, d0, a1, d1] (i := 0) (l := 0) (k := 0) (by show 0 < 1; decide)
    (by show 0 < 1; decide) (by show 0 < 1; decide)
  have e : (exDecay ms).o.rowOf 0 0 0 = 0 := rfl
  rw [e] at h1
  rw [h1]
  have e2 : (exDecay ms).condX [a0, d0, a1, d1] = [a0, -a0, a1, -a1] := rfl
  rw [e2]
  have p0 : (exDecay ms).o.posS 0 0 0 = 0 := rfl
  have p1 : (exDecay ms).o.posS 0 1 0 = 2 := rfl
  have q0 : (exDecay ms).o.posD 0 0 0 = 1 := rfl
  have q1 : (exDecay ms).o.posD 0 1 0 = 3 := rfl
  have hN : (exDecay ms).o.L.nspi = 2 := rfl
  have hs : (exDecay ms).o.scaleOf [a0, -a0, a1, -a1] = ms := rfl
  unfold defect
  rw [hN, Finset.sum_range_succ, Finset.sum_range_succ, Finset.sum_range_zero, Finset.sum_range_succ, Finset.sum_range_succ,
    Finset.sum_range_zero, p0, p1, q0, q1, hs]
  simp [exDecay]
  ring

/-- **C68 (finding).** The structure of a condensed problem is sampled with the mesh scale of the construction (1.0 in a
laptime simulation). A problem is shown in which, whatever sample point is drawn, the structure then lacks an entry that
the Jacobian has everywhere after `set_mesh_scale(2)`, so that the values given to the solver are wrong everywhere. -/
theorem C68_lost_entry : ∃ S : Setup, S.isCondensed = true ∧ S.builtScale = some 1 ∧ S.c.o.fixedScale = some 2 ∧
    S.c.Good ∧ S.constructed.Good ∧ UnitJac S.c.u ∧ MeshFree S.c.o S.c.u ∧
    ∀ x0 x : List ℝ, x0.length = S.c.o.L.numDec → x.length = S.c.o.L.numDec →
      ∃ (F : List ℝ → List ℝ) (st : List Nat × List Nat) (vals : List ℝ),
        (∀ y : List ℝ, y.length = S.c.o.L.numDec → S.c.constraints y = .ok (F y)) ∧
        S.constructed.jacStructureAt x0 = .ok st ∧ S.c.jacobian st x = .ok vals ∧
        ¬ IsJacobianAt S.c.o.L.numDec S.c.numCon F x (assemble st.1 st.2 vals) := by
  have hu : ∀ ms, UnitJac (exDecay ms).u := fun ms => ExplicitModel.unitOf_jac decayModel_good decayDense _
  have hm : ∀ ms, MeshFree (exDecay ms).o (exDecay ms).u := fun ms => Or.inr fun _ _ _ => rfl
  refine ⟨⟨exDecay 2, some 1, false, false, [], true, [], [], [], []⟩, rfl, rfl, rfl, exDecay_good 2, exDecay_good 1, hu 2, hm 2,
    fun x0 x hx0 hx => ?_⟩
  have hx0 : x0.length = 4 := hx0
  have hx : x.length = 4 := hx
  obtain ⟨a0, d0, a1, d1, rfl⟩ : ∃ a b c d, x0 = [a, b, c, d] := by
    match x0, hx0 with
    | [a, b, c, d], _ => exact ⟨a, b, c, d, rfl⟩
  obtain ⟨b0, e0, b1, e1, rfl⟩ : ∃ a b c d, x = [a, b, c, d] := by
    match x, hx with
    | [a, b, c, d], _ => exact ⟨a, b, c, d, rfl⟩
  have l0 : [a0, d0, a1, d1].length = (exDecay 1).o.L.numDec := rfl
  have l1 : [b0, e0, b1, e1].length = (exDecay 2).o.L.numDec := rfl
  obtain ⟨st, h1, h2, h3, h4⟩ := CondOCP.C29_sampled_structure (exDecay_good 1) l0
  have hd : ∀ ms a b : ℝ, HasDerivAt (fun t : ℝ => -t + b + ms * t) (-1 + ms) a := by
    intro ms a b
    refine (((hasDerivAt_id a).fun_neg.add_const b).fun_add ((hasDerivAt_id a).const_mul ms)).congr_deriv ?_
    simp
  refine ⟨(exDecay 2).condFun, st, List.zipWith ((exDecay 2).bigMat [b0, e0, b1, e1]) st.1 st.2,
    fun y hy => CondOCP.constraints_eq (exDecay_good 2) hy, h1, ?_, ?_⟩
  · show (exDecay 2).jacobian st _ = _
    unfold CondOCP.jacobian
    rw [CondOCP.bigJac_eq (exDecay_good 2) l1]
    rfl
  · intro hjac
    have h5 := hjac 0 (by show 0 < 1; decide) 0 (by show 0 < 4; decide)
    have h6 : (exDecay 1).sampled [a0, d0, a1, d1] 0 0 = 0 := by
      have hb := CondOCP.bigMat_isJacobian (exDecay_good 1) (hu 1) (hm 1) l0 (fun _ _ => trivial) 0 (by show 0 < 1; decide) 0 (by show 0 < 4; decide)
      have e : (exDecay 1).bigMat [a0, d0, a1, d1] = (exDecay 1).sampled [a0, d0, a1, d1] := by
        unfold CondOCP.bigMat CondOCP.sampled CondOCP.contArg
        rw [if_neg (by simp [exDecay, decayL])]
      rw [e] at hb
      simp only [List.set_cons_zero, exDecay_row, List.getD_cons_zero] at hb
      rw [hb.unique (hd 1 a0 a1)]
      norm_num
    rw [assemble_extract _ _ _ h2.1 h3, if_neg (fun hc => ((h4 0 0).mp hc).2.2 h6)] at h5
    simp only [List.set_cons_zero, exDecay_row, List.getD_cons_zero] at h5
    have := h5.unique (hd 2 b0 b1)
    norm_num at this

/-- `C68_same_problem` applies: the example of C47 built with the mesh scale 7 and then given the mesh scale 2. -/
example : ({ exSetup false with builtScale := some 7 } : Setup).Good := by
  have h := exSetup_good false
  exact ⟨h.cond, h.jac, h.hess, h.meshFree, by simp [exSetup, linCond], h.lap, h.last, h.time, h.dotless, h.excluded, h.someCyclic,
    (by simp [exSetup]), h.known, h.nonzero, h.bounds⟩

end Lumos.Ocp
