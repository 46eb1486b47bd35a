import Verif.Sim.DroneMore
/-!
# C78: the brachistochrone example (examples/brachistochrone.py): models, hand-written derivatives, the problem
-/

namespace Lumos.Sim

open Lumos DecVar DecVar.Layout Bounds Ocp Lumos.Trans NLP Io Veh

/-! ## Model -/

/-- The decorator of `TimeModel` (brachistochrone.py:52). -/
def timeNames : Names where
  stateSpace := true
  states := ["v", "x", "y"]
  inputs := ["theta"]
  outputs := ["theta"]
  conOutputs := []
  residuals := []

/-- `TimeModel.forward` (brachistochrone.py:61-80). -/
noncomputable def timeCls (gravity : ℝ) : Cls ℝ where
  direct := timeNames
  forward kw := body do
    let states ← arg kw.states
    let inputs ← arg kw.inputs
    let theta ← get inputs "theta"
    let v ← get states "v"
    let v_dot := -gravity * Real.sin theta
    let dx_dt := Real.cos theta * v
    let dy_dt := Real.sin theta * v
    let states_dot ← lift (timeNames.makeDict "states_dot" [("v", v_dot), ("x", dx_dt), ("y", dy_dt)])
    let outputs ← lift (timeNames.makeDict "outputs" [("theta", theta)])
    return { statesDot := states_dot, outputs := outputs }

/-- The decorator of `DistanceModel` (brachistochrone.py:222). -/
def distanceNames : Names where
  stateSpace := true
  states := ["time", "v", "y"]
  inputs := ["theta"]
  outputs := []
  conOutputs := []
  residuals := []

/-- `DistanceModel.forward` (brachistochrone.py:237-261). -/
noncomputable def distanceCls (gravity : ℝ) : Cls ℝ where
  direct := distanceNames
  forward kw := body do
    let states ← arg kw.states
    let inputs ← arg kw.inputs
    let theta ← get inputs "theta"
    let dv_dt := -gravity * Real.sin theta
    let v ← get states "v"
    let vx := v * Real.cos theta
    let v_dot := dv_dt / (vx + 1e-9)
    let time_dot := 1 / (vx + 1e-9)
    let y_dot := Real.tan theta
    let states_dot ← lift (distanceNames.makeDict "states_dot" [("time", time_dot), ("v", v_dot), ("y", y_dot)])
    return { statesDot := states_dot }

/-- `TimeModel` as the flat functions the problem uses; `time_is_model` shows that these are the values of `TimeModel.forward`. The
example declares no constrained outputs (brachistochrone.py:274-292). -/
noncomputable def timeModel (g : ℝ) : ExplicitModel :=
  { states := ["v", "x", "y"], inputs := ["theta"], conOutputs := [], residuals := []
    f := fun x u _ => [-g * Real.sin (u.getD 0 0), Real.cos (u.getD 0 0) * x.getD 0 0, Real.sin (u.getD 0 0) * x.getD 0 0]
    h := fun _ _ _ => []
    r := fun _ _ _ => [] }

/-- `get_var_index` (base.py:292-297). -/
def stateIndex (M : ExplicitModel) (name : String) : Py Nat :=
  if name ∈ M.states then .ok (M.states.idxOf name) else .error .keyError

/-- `get_input(vars["inputs"], "theta")` and `get_state(vars["states"], "v")` of the flat variables (brachistochrone.py:97-101,
base.py:319-323, 505-506, 574-581). -/
noncomputable def timeRead (g : ℝ) (flat : List ℝ) : ℝ × ℝ :=
  let parts := Np.split flat (Np.cumsum ((timeModel g).groups.map fun q => q.2.length)).dropLast
  ((parts.getD 1 []).getD 0 0, (parts.getD 0 []).getD 0 0)

/-- `_implicit_jac` (brachistochrone.py:94-123). -/
noncomputable def customJac (g : ℝ) (flat : List ℝ) (_ : ℝ) : List ℝ :=
  let theta := (timeRead g flat).1
  let v := (timeRead g flat).2
  let dvdot_dtheta := -g * Real.cos theta
  let ddxdt_dtheta := -Real.sin theta * v
  let ddxdt_dv := Real.cos theta
  let ddydt_dtheta := Real.cos theta * v
  let ddydt_dv := Real.sin theta
  [dvdot_dtheta, ddxdt_dtheta, ddxdt_dv, ddydt_dtheta, ddydt_dv] ++ List.replicate (timeModel g).nx (-1)

/-- `_implicit_jacobianstructure` (brachistochrone.py:125-161). -/
noncomputable def customJacStructure (g : ℝ) : Py (List Nat × List Nat) := do
  let M := timeModel g
  let modelRows ← ["v", "x", "x", "y", "y"].mapM (stateIndex M)
  let th ← M.varIndexInFlat "inputs" "theta"
  let v ← M.varIndexInFlat "states" "v"
  let modelCols := [th, th, v, th, v]
  let dots ← M.states.mapM (M.varIndexInFlat "states_dot")
  return (modelRows ++ List.range M.nx, modelCols ++ dots)

/-- `_implicit_hess` (brachistochrone.py:163-202). -/
noncomputable def customHess (g : ℝ) (flat lam : List ℝ) (_ : ℝ) : List ℝ :=
  let theta := (timeRead g flat).1
  let v := (timeRead g flat).2
  let d2vdot_dtheta2 := g * Real.sin theta
  let d2dxdt_dtheta2 := -Real.cos theta * v
  let d2dxdt_dtheta_dv := -Real.sin theta
  let d2dydt_dtheta2 := -Real.sin theta * v
  let d2dydt_dtheta_dv := Real.cos theta
  let mult := fun n : String => lam.getD ((timeModel g).states.idxOf n) 0
  let d2l_dtheta2 := d2vdot_dtheta2 * mult "v" + d2dxdt_dtheta2 * mult "x" + d2dydt_dtheta2 * mult "y"
  let d2l_dtheta_dv := d2dxdt_dtheta_dv * mult "x" + d2dydt_dtheta_dv * mult "y"
  [d2l_dtheta2, d2l_dtheta_dv, d2l_dtheta_dv]

/-- `_implicit_hessianstructure` (brachistochrone.py:204-222). -/
noncomputable def customHessStructure (g : ℝ) : Py (List Nat × List Nat) := do
  let M := timeModel g
  let th ← M.varIndexInFlat "inputs" "theta"
  let v ← M.varIndexInFlat "states" "v"
  return ([th, th, v], [th, v, th])

/-- `make_model_algebra_cons` (base.py:630-660) for the classes of the example: the default backend reads dense derivatives `D`, `D2` at
the model's structure (C44); the backend "custom" uses the methods above if the class has them and those of the base class, which raise
NotImplementedError (base.py:597-619), if not; any other name but "casadi" raises ValueError. The backend "casadi" is not modelled here.
Simplification: the problem calls the Hessian method with its arguments in the order of the method's signature; the order the code uses makes
every call raise AttributeError (`Map.C79_custom_hessian`). -/
noncomputable def timeUnit (g : ℝ) (hasCustom : Bool) (D : List ℝ → ℝ → Nat → Nat → ℝ) (D2 : List ℝ → List ℝ → ℝ → Nat → Nat → ℝ)
    (backend : String) : Py UnitProblem :=
  if backend = "jax" then (timeModel g).jaxUnit D D2
  else if backend = "custom" then
    if hasCustom then do
      let js ← customJacStructure g
      let hs ← customHessStructure g
      return { numIn := (timeModel g).numVar, numCon := (timeModel g).numRes, con := (timeModel g).flatImplicit
               jac := customJac g, hess := customHess g, jacStruct := js, hessStruct := hs }
    else .error .notImplementedError
  else .error .valueError

/-- The boundary conditions of `solve_brachistochrone` (brachistochrone.py:275-281). -/
noncomputable def brachBCs (dx dy : ℝ) : List (BC EReal) :=
  [LapSim.fixAt 0 "states" "x" 0, LapSim.fixAt 0 "states" "y" 0, LapSim.fixAt 0 "states" "v" 0, LapSim.fixAt (-1) "states" "x" dx,
   LapSim.fixAt (-1) "states" "y" dy]

/-- The bounds of `solve_brachistochrone` (brachistochrone.py:282-285). -/
noncomputable def brachBounds : List (BoundConfig EReal) :=
  [LapSim.bound "global" "mesh_scale" 0.01 10, LapSim.bound "inputs" "theta" (-Real.pi / 2) (Real.pi / 2)]

/-- The problem of `solve_brachistochrone` in the time domain (brachistochrone.py:272-292) for any backend, transcription and mesh. -/
noncomputable def brachSetup (g : ℝ) (hasCustom : Bool) (D : List ℝ → ℝ → Nat → Nat → ℝ) (D2 : List ℝ → List ℝ → ℝ → Nat → Nat → ℝ)
    (backend transcription : String) (kwargs : List (String × Int)) (numIntervals : Nat) (intervalPoints : Option (List ℝ)) (dx dy : ℝ) :
    Py Setup := do
  let u ← timeUnit g hasCustom D D2 backend
  front (timeModel g) u transcription kwargs numIntervals intervalPoints brachBounds (brachBCs dx dy) []

/-- `solve_brachistochrone(dx, dy, backend=..., is_condensed=...)` up to the problem (brachistochrone.py:265-294): `backend` and
`is_condensed` are not passed on (the line that would is commented out), so the defaults of `SimConfig` apply: backend "jax", a lifted
problem, the trapezoidal rule (config.py:128-140). -/
noncomputable def solveSetup (D : List ℝ → ℝ → Nat → Nat → ℝ) (D2 : List ℝ → List ℝ → ℝ → Nat → Nat → ℝ) (dx dy : ℝ)
    (_backend : String) (_isCondensed : Bool) : Py Setup :=
  brachSetup 9.81 true D D2 "jax" "Trapezoidal" [] 49 none dx dy

/-! ## The models -/

/-- The flat functions are the state derivatives of `TimeModel.forward`. -/
theorem time_is_model (g a b c θ μ : ℝ) : ∃ r,
    (Mdl.node (timeCls g) []).eval ⟨some [("v", a), ("x", b), ("y", c)], some [("theta", θ)], some μ⟩ = .ok r ∧
      r.statesDot.map Prod.snd = (timeModel g).f [a, b, c] [θ] μ ∧ r.statesDot.map Prod.fst = (timeModel g).states :=
  ⟨_, rfl, rfl, rfl⟩

theorem timeModel_good (g : ℝ) : (timeModel g).Good :=
  ⟨by simp [timeModel, ExplicitModel.nx], by simp [timeModel], by simp [timeModel], by simp [timeModel], fun _ _ _ _ _ => rfl, fun _ _ _ _ _ => rfl,
    fun _ _ _ _ _ => rfl⟩

theorem time_seven {g : ℝ} {v : List ℝ} (hv : v.length = (timeModel g).numVar) :
    ∃ a b c θ a' b' c', v = [a, b, c, θ, a', b', c'] := by
  have : v.length = 7 := hv
  match v, this with
  | [a, b, c, θ, a', b', c'], _ => exact ⟨a, b, c, θ, a', b', c', rfl⟩

theorem time_flat (g a b c θ a' b' c' μ : ℝ) :
    (timeModel g).flatImplicit [a, b, c, θ, a', b', c'] μ = [-g * Real.sin θ - a', Real.cos θ * a - b', Real.sin θ * a - c'] := by
  rw [ExplicitModel.flatImplicit_eq (timeModel_good g) rfl]
  simp [timeModel, ExplicitModel.rhs, ExplicitModel.xOf, ExplicitModel.uOf, ExplicitModel.wOf, ExplicitModel.nx, ExplicitModel.nu]

theorem time_read (g a b c θ a' b' c' : ℝ) : timeRead g [a, b, c, θ, a', b', c'] = (θ, a) := by
  rfl

/-- The hand-written unit problem. -/
noncomputable def customUnit (g : ℝ) : UnitProblem :=
  { numIn := (timeModel g).numVar, numCon := (timeModel g).numRes, con := (timeModel g).flatImplicit
    jac := customJac g, hess := customHess g
    jacStruct := ([0, 1, 1, 2, 2, 0, 1, 2], [3, 3, 0, 3, 0, 4, 5, 6])
    hessStruct := ([3, 3, 0], [3, 0, 3]) }

theorem timeUnit_custom (g : ℝ) (D : List ℝ → ℝ → Nat → Nat → ℝ) (D2 : List ℝ → List ℝ → ℝ → Nat → Nat → ℝ) :
    timeUnit g true D D2 "custom" = .ok (customUnit g) := rfl

theorem timeUnit_jax (g : ℝ) (c : Bool) (D : List ℝ → ℝ → Nat → Nat → ℝ) (D2 : List ℝ → List ℝ → ℝ → Nat → Nat → ℝ) :
    timeUnit g c D D2 "jax" = .ok ((timeModel g).unitOf D D2) := by
  unfold timeUnit
  rw [if_pos rfl, ExplicitModel.jaxUnit_eq (timeModel_good g)]

/-- The first derivatives of the stage equations in the seven variables of a stage. -/
noncomputable def timeJac (g : ℝ) (w : List ℝ) : Nat → Nat → ℝ
  | 0, 3 => -g * Real.cos (w.getD 3 0)
  | 0, 4 => -1
  | 1, 0 => Real.cos (w.getD 3 0)
  | 1, 3 => -Real.sin (w.getD 3 0) * w.getD 0 0
  | 1, 5 => -1
  | 2, 0 => Real.sin (w.getD 3 0)
  | 2, 3 => Real.cos (w.getD 3 0) * w.getD 0 0
  | 2, 6 => -1
  | _, _ => 0

set_option maxHeartbeats 4000000 in
theorem time_dense (g μ : ℝ) {w : List ℝ} (hw : w.length = (timeModel g).numVar) :
    IsJacobianAt (timeModel g).numVar (timeModel g).numRes (fun z => (timeModel g).flatImplicit z μ) w (timeJac g w) := by
  intro r hr j hj
  obtain ⟨a, b, c, θ, a', b', c', rfl⟩ := time_seven hw
  have hr : r < 3 := hr
  have hj : j < 7 := hj
  interval_cases r <;> interval_cases j <;>
    simp only [List.set_cons_zero, List.set_cons_succ, time_flat, List.getD_cons_zero, List.getD_cons_succ, timeJac] <;>
    first
    | exact hasDerivAt_const _ _
    | exact (hasDerivAt_id _).const_sub _
    | exact ((Real.hasDerivAt_sin _).const_mul _).sub_const _
    | exact ((Real.hasDerivAt_cos _).mul_const _).sub_const _
    | exact ((Real.hasDerivAt_sin _).mul_const _).sub_const _
    | (refine (((hasDerivAt_id _).const_mul _).sub_const _).congr_deriv ?_; simp)

theorem timeJac_congr {g : ℝ} {w w' : List ℝ} (h0 : w.getD 0 0 = w'.getD 0 0) (h3 : w.getD 3 0 = w'.getD 3 0) (r i : Nat) :
    timeJac g w r i = timeJac g w' r i := by
  unfold timeJac
  rw [h0, h3]

theorem timeJac_const {g : ℝ} {w w' : List ℝ} {i : Nat} (h : i ≠ 0 ∧ i ≠ 3) (r : Nat) : timeJac g w r i = timeJac g w' r i := by
  unfold timeJac
  split <;> simp_all

/-- The second derivatives of the Lagrangian of the stage equations. -/
noncomputable def timeHess (g : ℝ) (w lam : List ℝ) : Nat → Nat → ℝ
  | 3, 3 => g * Real.sin (w.getD 3 0) * lam.getD 0 0 + -Real.cos (w.getD 3 0) * w.getD 0 0 * lam.getD 1 0
      + -Real.sin (w.getD 3 0) * w.getD 0 0 * lam.getD 2 0
  | 3, 0 => -Real.sin (w.getD 3 0) * lam.getD 1 0 + Real.cos (w.getD 3 0) * lam.getD 2 0
  | 0, 3 => -Real.sin (w.getD 3 0) * lam.getD 1 0 + Real.cos (w.getD 3 0) * lam.getD 2 0
  | _, _ => 0

theorem timeHess_off {g : ℝ} {w lam : List ℝ} {i j : Nat} (h : (i ≠ 0 ∧ i ≠ 3) ∨ (j ≠ 0 ∧ j ≠ 3)) : timeHess g w lam i j = 0 := by
  unfold timeHess
  split <;> simp_all

theorem time_dense2 (g μ : ℝ) {w lam : List ℝ} (hw : w.length = (timeModel g).numVar) (hlam : lam.length = (timeModel g).numRes) :
    IsHessianAt (timeModel g).numVar (fun z => dot lam ((timeModel g).flatImplicit z μ)) w (fun _ _ => True) (timeHess g w lam) := by
  have hl3 : lam.length = 3 := hlam
  refine IsHessianAt.of_global hw ⟨fun y i => ∑ r ∈ Finset.range 3, lam.getD r 0 * timeJac g y r i, ?_, ?_⟩
  · intro y hy j hj
    have e : (fun t => dot lam ((timeModel g).flatImplicit (y.set j t) μ)) = fun t : ℝ =>
        ∑ r ∈ Finset.range 3, lam.getD r 0 * ((timeModel g).flatImplicit (y.set j t) μ).getD r 0 := by
      funext t
      rw [← hl3]
      exact ExplicitModel.dot_eq_sum rfl (by rw [ExplicitModel.length_flatImplicit (timeModel_good g) (by rw [List.length_set]; exact hy), hlam])
    show HasDerivAt (fun t => dot lam ((timeModel g).flatImplicit (y.set j t) μ)) _ _
    rw [e]
    exact HasDerivAt.fun_sum fun r hr => (time_dense g μ hy r (Finset.mem_range.mp hr) j hj).const_mul _
  · intro i j hi hj _
    show HasDerivAt (fun t => ∑ r ∈ Finset.range 3, lam.getD r 0 * timeJac g (w.set j t) r i) _ _
    by_cases h : (i ≠ 0 ∧ i ≠ 3) ∨ (j ≠ 0 ∧ j ≠ 3)
    · rw [timeHess_off h]
      have e : (fun t : ℝ => ∑ r ∈ Finset.range 3, lam.getD r 0 * timeJac g (w.set j t) r i)
          = fun _ => ∑ r ∈ Finset.range 3, lam.getD r 0 * timeJac g w r i := by
        funext t
        refine Finset.sum_congr rfl fun r _ => ?_
        congr 1
        rcases h with h | h
        · exact timeJac_const h r
        · exact timeJac_congr (getD_set_ne' h.1 t) (getD_set_ne' h.2 t) r i
      rw [e]
      exact hasDerivAt_const _ _
    · obtain ⟨a, b, c, θ, a', b', c', rfl⟩ := time_seven hw
      have hi' : i = 0 ∨ i = 3 := by omega
      have hj' : j = 0 ∨ j = 3 := by omega
      rcases hi' with rfl | rfl <;> rcases hj' with rfl | rfl <;>
        simp only [Finset.sum_range_succ, Finset.sum_range_zero, timeJac, timeHess, List.set_cons_zero, List.set_cons_succ,
          List.getD_cons_zero, List.getD_cons_succ, mul_zero, zero_add, add_zero]
      · exact hasDerivAt_const _ _
      · refine (((Real.hasDerivAt_cos θ).const_mul (lam.getD 1 0)).fun_add ((Real.hasDerivAt_sin θ).const_mul (lam.getD 2 0))).congr_deriv ?_
        ring
      · refine (((((hasDerivAt_id' a).const_mul (-Real.sin θ)).const_mul (lam.getD 1 0)).const_add _).fun_add
          (((hasDerivAt_id' a).const_mul (Real.cos θ)).const_mul (lam.getD 2 0))).congr_deriv ?_
        ring
      · refine (((((Real.hasDerivAt_cos θ).const_mul (-g)).const_mul (lam.getD 0 0)).fun_add
          (((Real.hasDerivAt_sin θ).fun_neg.mul_const a).const_mul (lam.getD 1 0))).fun_add
          (((Real.hasDerivAt_cos θ).mul_const a).const_mul (lam.getD 2 0))).congr_deriv ?_
        ring

theorem customUnit_jac (g : ℝ) : OCP.UnitJac (customUnit g) := by
  intro μ
  refine ⟨⟨rfl, ?_, ?_⟩, ?_⟩
  · intro r hr
    have : r < 3 := by simp [customUnit] at hr; omega
    exact this
  · intro c hc
    have : c < 7 := by simp [customUnit] at hc; omega
    exact this
  · intro y hy
    refine ⟨ExplicitModel.length_flatImplicit (timeModel_good g) hy μ, rfl, ?_⟩
    have key : ∀ r, r < 3 → ∀ j, j < 7 → assemble (customUnit g).jacStruct.1 (customUnit g).jacStruct.2 ((customUnit g).jac y μ) r j = timeJac g y r j := by
      obtain ⟨a, b, c, θ, a', b', c', rfl⟩ := time_seven hy
      intro r hr j hj
      simp only [customUnit, customJac, time_read, assemble]
      interval_cases r <;> interval_cases j <;>
        simp [timeJac, timeModel, ExplicitModel.nx]
    intro _ r hr j hj
    rw [key r hr j hj]
    exact time_dense g μ hy r hr j hj

theorem customUnit_hess (g : ℝ) : OCP.UnitHess (customUnit g) (fun _ _ => True) := by
  intro μ
  refine ⟨⟨rfl, ?_, ?_⟩, ?_⟩
  · intro r hr
    have : r < 7 := by simp [customUnit] at hr; omega
    exact this
  · intro c hc
    have : c < 7 := by simp [customUnit] at hc; omega
    exact this
  · intro y lam hy hl
    refine ⟨rfl, ?_⟩
    have key : ∀ r, r < 7 → ∀ j, j < 7 → assemble (customUnit g).hessStruct.1 (customUnit g).hessStruct.2 ((customUnit g).hess y lam μ) r j
        = timeHess g y lam r j := by
      obtain ⟨a, b, c, θ, a', b', c', rfl⟩ := time_seven hy
      intro r hr j hj
      simp only [customUnit, customHess, time_read, assemble]
      interval_cases r <;> interval_cases j <;>
        simp [timeHess, timeModel]
    obtain ⟨G, h1, h2⟩ := time_dense2 g μ hy hl
    refine fun _ => ⟨G, h1, fun i j hi hj _ => ?_⟩
    rw [key i hi j hj]
    exact h2 i j hi hj trivial

/-- **C78** (hand-written derivatives). The backend "custom" makes, for the class that has the methods, a unit problem of the model's own
equations whose eight first and three second derivatives are the true ones, with both triangles of the Hessian; for a class without the
methods it raises NotImplementedError. -/
theorem C78_custom_derivatives (g : ℝ) (D : List ℝ → ℝ → Nat → Nat → ℝ) (D2 : List ℝ → List ℝ → ℝ → Nat → Nat → ℝ) :
    (∃ u, timeUnit g true D D2 "custom" = .ok u ∧ Fits (timeModel g) u ∧ OCP.UnitJac u ∧ OCP.UnitHess u (fun _ _ => True) ∧
      u.jacStruct.1.length = 8 ∧ u.hessStruct.1.length = 3) ∧
    timeUnit g false D D2 "custom" = .error .notImplementedError :=
  ⟨⟨_, timeUnit_custom g D D2, ⟨rfl, rfl, rfl⟩, customUnit_jac g, customUnit_hess g, rfl, rfl⟩, rfl⟩

/-- The dense derivatives that the default backend is trusted with exist. -/
theorem time_DenseJac (g : ℝ) : (timeModel g).DenseJac (fun v _ => timeJac g v) := fun _ μ hv _ => time_dense g μ hv

theorem time_DenseHess (g : ℝ) : (timeModel g).DenseHess (fun v lam _ => timeHess g v lam) := fun _ _ μ hv hl _ => time_dense2 g μ hv hl

end Lumos.Sim
