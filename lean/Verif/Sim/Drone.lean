import Verif.Sim.Front
import Verif.Veh.OnTrack
import Verif.Config.More
import Mathlib.Analysis.SpecialFunctions.Trigonometric.Deriv
/-!
# C77: `DroneSimulation` (simulations/drone_simulation.py, models/drone_model.py): the model, its derivatives, the problem
-/

namespace Lumos.Sim

open Lumos DecVar DecVar.Layout Bounds Ocp Lumos.Trans NLP

/-! ## Model -/

/-- `DroneModel` (drone_model.py:11-47) with the constrained output of `DroneSimulationConfig` (drone_simulation.py:50), as the flat
functions the problem uses; `drone_is_model` shows that these are the values of `DroneModel.forward`. -/
noncomputable def droneModel (g : ℝ) : ExplicitModel :=
  { states := ["x", "x_dot", "z", "z_dot", "theta"], inputs := ["f", "omega"], conOutputs := ["sin_theta"], residuals := []
    f := fun x u _ => [x.getD 1 0, u.getD 0 0 * Real.sin (x.getD 4 0), x.getD 3 0, u.getD 0 0 * Real.cos (x.getD 4 0) - g, u.getD 1 0]
    h := fun x _ _ => [Real.sin (x.getD 4 0)]
    r := fun _ _ _ => [] }

/-- The Jacobian of the drone's stage equations in the 13 variables of a stage (what automatic differentiation returns). -/
noncomputable def droneJac (v : List ℝ) (_ : ℝ) : Nat → Nat → ℝ
  | 0, 1 => 1
  | 0, 7 => -1
  | 1, 4 => v.getD 5 0 * Real.cos (v.getD 4 0)
  | 1, 5 => Real.sin (v.getD 4 0)
  | 1, 8 => -1
  | 2, 3 => 1
  | 2, 9 => -1
  | 3, 4 => -(v.getD 5 0 * Real.sin (v.getD 4 0))
  | 3, 5 => Real.cos (v.getD 4 0)
  | 3, 10 => -1
  | 4, 6 => 1
  | 4, 11 => -1
  | 5, 4 => Real.cos (v.getD 4 0)
  | 5, 12 => -1
  | _, _ => 0

/-- The Hessian of the Lagrangian of the stage equations. -/
noncomputable def droneHess (v lam : List ℝ) (_ : ℝ) : Nat → Nat → ℝ
  | 4, 4 => -(lam.getD 1 0 * (v.getD 5 0 * Real.sin (v.getD 4 0))) - lam.getD 3 0 * (v.getD 5 0 * Real.cos (v.getD 4 0))
      - lam.getD 5 0 * Real.sin (v.getD 4 0)
  | 4, 5 => lam.getD 1 0 * Real.cos (v.getD 4 0) - lam.getD 3 0 * Real.sin (v.getD 4 0)
  | 5, 4 => lam.getD 1 0 * Real.cos (v.getD 4 0) - lam.getD 3 0 * Real.sin (v.getD 4 0)
  | _, _ => 0

/-- The unit problem of the default backend (C44). -/
noncomputable def droneUnit (g : ℝ) : UnitProblem := (droneModel g).unitOf droneJac droneHess

/-- `get_default_boundary_conditions` (drone_simulation.py:16-28). -/
noncomputable def droneBCs : List (BC EReal) :=
  [LapSim.fixAt 0 "states" "x" 0, LapSim.fixAt 0 "states" "x_dot" 0, LapSim.fixAt 0 "states" "z" 0, LapSim.fixAt 0 "states" "z_dot" 0,
   LapSim.fixAt 0 "states" "theta" 0, LapSim.fixAt (-1) "states" "x" 0, LapSim.fixAt (-1) "states" "x_dot" 0,
   LapSim.fixAt (-1) "states" "z" 5, LapSim.fixAt (-1) "states" "z_dot" 0, LapSim.fixAt (-1) "states" "theta" (2 * Real.pi)]

/-- `DroneSimulation(sim_config=...)` up to the construction of the problem, for an acyclic lifted problem with the default bounds
and boundary conditions (drone_simulation.py:43-64). -/
noncomputable def droneSetup (g : ℝ) (transcription : String) (kwargs : List (String × Int)) (numIntervals : Nat)
    (intervalPoints : Option (List ℝ)) : Py Setup :=
  front (droneModel g) (droneUnit g) transcription kwargs numIntervals intervalPoints Config.droneBounds droneBCs []

/-- `get_init_guess` (drone_simulation.py:66-88). `make_const_vector` of the states is a vector of zeros, to which 0.1 is added;
`mesh_scale=1.0`; derivatives and outputs are those of the model. -/
noncomputable def droneGuess (S : Setup) : Py (List ℝ) :=
  let N := S.c.o.L.numStages
  let states := List.replicate N ((List.replicate S.c.M.nx (0 : ℝ)).map (· + 0.1))
  let inputs := List.replicate N [0 + (10 : ℝ), 0 + 0]
  let mesh := S.c.mesh.map (· * (1 : ℝ))
  let rows := (states.zip inputs).zip mesh
  S.c.o.L.flattenVar ⟨[("states", states), ("inputs", inputs),
    ("states_dot", rows.map fun r : (List ℝ × List ℝ) × ℝ => S.c.M.f r.1.1 r.1.2 r.2),
    ("con_outputs", rows.map fun r : (List ℝ × List ℝ) × ℝ => S.c.M.h r.1.1 r.1.2 r.2)], [("mesh_scale", 1)]⟩

/-- `get_total_time` (drone_simulation.py:90-91). -/
noncomputable def droneTime (S : Setup) (x : List ℝ) : Py ℝ := S.c.o.timeObjective x

/-! ## The model is the drone -/

/-- The flat functions are the state derivatives and the output `sin_theta` of `DroneModel.forward`. -/
theorem drone_is_model (g a b c d e p q μ : ℝ) : ∃ r,
    (Io.Mdl.node (Veh.drone g) []).eval ⟨some [("x", a), ("x_dot", b), ("z", c), ("z_dot", d), ("theta", e)], some [("f", p), ("omega", q)], some μ⟩
      = .ok r ∧ r.statesDot.map Prod.snd = (droneModel g).f [a, b, c, d, e] [p, q] μ ∧ r.statesDot.map Prod.fst = (droneModel g).states ∧
      (r.outputs.lookup "sin_theta").toList = (droneModel g).h [a, b, c, d, e] [p, q] μ :=
  ⟨_, rfl, rfl, rfl, rfl⟩

theorem droneModel_good (g : ℝ) : (droneModel g).Good :=
  ⟨by simp [droneModel, ExplicitModel.nx], by simp [droneModel], by simp [droneModel], by simp [droneModel], fun _ _ _ _ _ => rfl, fun _ _ _ _ _ => rfl,
    fun _ _ _ _ _ => rfl⟩

theorem drone_thirteen {g : ℝ} {v : List ℝ} (hv : v.length = (droneModel g).numVar) :
    ∃ a b c d e p q a' b' c' d' e' y, v = [a, b, c, d, e, p, q, a', b', c', d', e', y] := by
  have : v.length = 13 := hv
  match v, this with
  | [a, b, c, d, e, p, q, a', b', c', d', e', y], _ => exact ⟨a, b, c, d, e, p, q, a', b', c', d', e', y, rfl⟩

theorem drone_flat (g a b c d e p q a' b' c' d' e' y μ : ℝ) :
    (droneModel g).flatImplicit [a, b, c, d, e, p, q, a', b', c', d', e', y] μ
      = [b - a', p * Real.sin e - b', d - c', p * Real.cos e - g - d', q - e', Real.sin e - y] := by
  rw [ExplicitModel.flatImplicit_eq (droneModel_good g) rfl]
  simp [droneModel, ExplicitModel.rhs, ExplicitModel.xOf, ExplicitModel.uOf, ExplicitModel.wOf, ExplicitModel.nx, ExplicitModel.nu]

set_option maxHeartbeats 4000000 in
theorem drone_dense (g : ℝ) : (droneModel g).DenseJac droneJac := by
  intro v μ hv _ r hr j hj
  obtain ⟨a, b, c, d, e, p, q, a', b', c', d', e', y, rfl⟩ := drone_thirteen hv
  have hr : r < 6 := hr
  have hj : j < 13 := hj
  interval_cases r <;> interval_cases j <;>
    simp only [List.set_cons_zero, List.set_cons_succ, drone_flat, List.getD_cons_zero, List.getD_cons_succ, droneJac] <;>
    first
    | exact hasDerivAt_const _ _
    | exact (hasDerivAt_id _).sub_const _
    | exact (hasDerivAt_id _).const_sub _
    | exact ((Real.hasDerivAt_sin _).const_mul _).sub_const _
    | exact (Real.hasDerivAt_sin _).sub_const _
    | (refine ((((Real.hasDerivAt_cos _).const_mul _).sub_const _).sub_const _).congr_deriv ?_; ring)
    | (refine (((hasDerivAt_id _).mul_const _).sub_const _).congr_deriv ?_; simp)
    | (refine ((((hasDerivAt_id _).mul_const _).sub_const _).sub_const _).congr_deriv ?_; simp)

theorem droneHess_off {v lam : List ℝ} {μ : ℝ} {i j : Nat} (h : (i ≠ 4 ∧ i ≠ 5) ∨ (j ≠ 4 ∧ j ≠ 5)) : droneHess v lam μ i j = 0 := by
  unfold droneHess
  split <;> simp_all

theorem droneJac_const {v w : List ℝ} {μ : ℝ} {i : Nat} (h : i ≠ 4 ∧ i ≠ 5) (r : Nat) : droneJac v μ r i = droneJac w μ r i := by
  unfold droneJac
  split <;> simp_all

theorem droneJac_congr {v w : List ℝ} {μ : ℝ} (h4 : v.getD 4 0 = w.getD 4 0) (h5 : v.getD 5 0 = w.getD 5 0) (r i : Nat) :
    droneJac v μ r i = droneJac w μ r i := by
  unfold droneJac
  rw [h4, h5]

theorem getD_set_ne' {v : List ℝ} {i j : Nat} (h : j ≠ i) (t : ℝ) : (v.set j t).getD i 0 = v.getD i 0 := by
  rw [List.getD_eq_getElem?_getD, List.getElem?_set_ne h, ← List.getD_eq_getElem?_getD]

theorem drone_dense2 (g : ℝ) : (droneModel g).DenseHess droneHess := by
  intro v lam μ hv hlam _
  have hl6 : lam.length = 6 := hlam
  refine IsHessianAt.of_global hv ⟨fun y i => ∑ r ∈ Finset.range 6, lam.getD r 0 * droneJac y μ r i, ?_, ?_⟩
  · intro y hy j hj
    have e : (fun t => dot lam ((droneModel g).flatImplicit (y.set j t) μ)) = fun t : ℝ =>
        ∑ r ∈ Finset.range 6, lam.getD r 0 * ((droneModel g).flatImplicit (y.set j t) μ).getD r 0 := by
      funext t
      rw [← hl6]
      exact ExplicitModel.dot_eq_sum rfl (by rw [ExplicitModel.length_flatImplicit (droneModel_good g) (by rw [List.length_set]; exact hy), hlam])
    show HasDerivAt (fun t => dot lam ((droneModel g).flatImplicit (y.set j t) μ)) _ _
    rw [e]
    exact HasDerivAt.fun_sum fun r hr => (drone_dense g y μ hy trivial r (Finset.mem_range.mp hr) j hj).const_mul _
  · intro i j hi hj _
    show HasDerivAt (fun t => ∑ r ∈ Finset.range 6, lam.getD r 0 * droneJac (v.set j t) μ r i) _ _
    by_cases h : (i ≠ 4 ∧ i ≠ 5) ∨ (j ≠ 4 ∧ j ≠ 5)
    · rw [droneHess_off h]
      have e : (fun t : ℝ => ∑ r ∈ Finset.range 6, lam.getD r 0 * droneJac (v.set j t) μ r i)
          = fun _ => ∑ r ∈ Finset.range 6, lam.getD r 0 * droneJac v μ r i := by
        funext t
        refine Finset.sum_congr rfl fun r _ => ?_
        congr 1
        rcases h with h | h
        · exact droneJac_const h r
        · exact droneJac_congr (getD_set_ne' h.1 t) (getD_set_ne' h.2 t) r i
      rw [e]
      exact hasDerivAt_const _ _
    · obtain ⟨a, b, c, d, e, p, q, a', b', c', d', e', y, rfl⟩ := drone_thirteen hv
      have hi' : i = 4 ∨ i = 5 := by omega
      have hj' : j = 4 ∨ j = 5 := by omega
      rcases hi' with rfl | rfl <;> rcases hj' with rfl | rfl <;>
        simp only [Finset.sum_range_succ, Finset.sum_range_zero, droneJac, droneHess, List.set_cons_zero, List.set_cons_succ,
          List.getD_cons_zero, List.getD_cons_succ, mul_zero, zero_add, add_zero]
      · refine (((((Real.hasDerivAt_cos e).const_mul p).const_mul (lam.getD 1 0)).fun_add
          (((Real.hasDerivAt_sin e).const_mul p).fun_neg.const_mul (lam.getD 3 0))).fun_add
          ((Real.hasDerivAt_cos e).const_mul (lam.getD 5 0))).congr_deriv ?_
        ring
      · refine (((((hasDerivAt_id' p).mul_const (Real.cos e)).const_mul (lam.getD 1 0)).fun_add
          (((hasDerivAt_id' p).mul_const (Real.sin e)).fun_neg.const_mul (lam.getD 3 0))).add_const _).congr_deriv ?_
        ring
      · refine (((Real.hasDerivAt_sin e).const_mul (lam.getD 1 0)).fun_add ((Real.hasDerivAt_cos e).const_mul (lam.getD 3 0))).congr_deriv ?_
        ring
      · exact hasDerivAt_const _ _

/-! ## The problem is built -/

/-- The default bounds and boundary conditions are accepted on every mesh. -/
theorem drone_bounds_accepted (g : ℝ) (n : Nat) {k : Nat} (hk : 1 ≤ k) :
    ∃ s t, Bounds.updateBounds (layoutOf (droneModel g) n k) (Bounds.fresh (layoutOf (droneModel g) n k)) Config.droneBounds = (s, none) ∧
      Bounds.updateBCs (layoutOf (droneModel g) n k) s droneBCs = (t, none) := by
  have hL := layoutOf_made (droneModel_good g) n hk
  have N := numStages_pos (layoutOf (droneModel g) n k)
  have vs : ∀ m ∈ ["x", "x_dot", "z", "z_dot", "theta"], (layoutOf (droneModel g) n k).IsVar (.stage 0 "states" m) :=
    fun m hm => isVar_stage _ n k (by simp) hm N
  have vi : ∀ m ∈ ["f", "omega"], (layoutOf (droneModel g) n k).IsVar (.stage 0 "inputs" m) :=
    fun m hm => isVar_stage _ n k (by simp) hm N
  have pi := Real.pi_pos
  have k1 : ∀ s, (setAll (layoutOf (droneModel g) n k) s (Config.droneBounds.map BoundConfig.req)).2 = none := by
    refine LapSim.setAll_none ?_
    intro r hr s
    obtain ⟨c, hcm, rfl⟩ := List.mem_map.mp hr
    simp only [Config.droneBounds, List.mem_cons, List.not_mem_nil, or_false] at hcm
    rcases hcm with rfl | rfl | rfl | rfl | rfl | rfl | rfl | rfl
    iterate 5 exact LapSim.setVarBounds_scalar hL (vs _ (by simp [LapSim.bound, BoundConfig.req])) s (EReal.coe_le_coe_iff.mpr (by linarith))
    iterate 2 exact LapSim.setVarBounds_scalar hL (vi _ (by simp [LapSim.bound, BoundConfig.req])) s (EReal.coe_le_coe_iff.mpr (by linarith))
    exact setVarBounds_global (by simp [layoutOf, LapSim.bound, BoundConfig.req]) s (EReal.coe_le_coe_iff.mpr (by norm_num))
  have k2 : ∀ s, (setAll (layoutOf (droneModel g) n k) s (droneBCs.map BC.req)).2 = none := by
    refine LapSim.setAll_none ?_
    intro r hr s
    obtain ⟨c, hcm, rfl⟩ := List.mem_map.mp hr
    simp only [droneBCs, List.mem_cons, List.not_mem_nil, or_false] at hcm
    rcases hcm with rfl | rfl | rfl | rfl | rfl | rfl | rfl | rfl | rfl | rfl
    iterate 5 exact LapSim.setVarBounds_first hL (vs _ (by simp [LapSim.fixAt, BC.req])) s _
    iterate 5 exact setVarBounds_last hL (vs _ (by simp [LapSim.fixAt, BC.req])) s _
  exact accepted_of k1 k2

theorem drone_made {g : ℝ} {name : String} {kwargs : List (String × Int)} {n : Nat} (hn : 1 ≤ n) {pts : Option (List ℝ)} {S : Setup}
    (h : droneSetup g name kwargs n pts = .ok S) : ∃ t, makeTranscription name kwargs = .ok t ∧ Made (droneModel g) (droneUnit g) t n pts S ∧
      S.bounds = Config.droneBounds ∧ S.bcs = droneBCs ∧ S.scales = [] :=
  front_inv (droneModel_good g) hn h

theorem drone_good {g : ℝ} {name : String} {kwargs : List (String × Int)} {n : Nat} (hn : 1 ≤ n) {pts : Option (List ℝ)} {S : Setup}
    (h : droneSetup g name kwargs n pts = .ok S) : S.Good := by
  obtain ⟨t, ht, hm, hb, hbc, hs⟩ := drone_made hn h
  refine hm.good (fits_unitOf _ _ _) (droneModel_good g) ht hn (ExplicitModel.unitOf_jac (droneModel_good g) (drone_dense g) _)
    (unitOf_upper (droneModel_good g) (drone_dense g) (drone_dense2 g)) (fun _ _ _ _ => rfl) (fun _ _ _ _ => rfl) (fun _ _ _ _ => rfl)
    (by rw [hs]; simp) (by rw [hs]; simp) ?_
  rw [hb, hbc, hm.layout]
  exact drone_bounds_accepted g n (by have := (C38_shapes ht).1; omega)

end Lumos.Sim
