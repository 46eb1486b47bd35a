import Verif.Fix.Props
import Verif.Sim.DroneMore
import Verif.Io.Implicit

/-!
# The flat models of the brachistochrone and the drone are the models as the problem uses them (C77, C78, C106)

`Sim/Brach`, `Fix/Dist` and `Sim/Drone` write the three models out as functions of arrays. Here they are shown to be what
`forward_with_arrays` of the class gives: the same names in the same order, and the same arrays.
-/

namespace Lumos.Sim
open Lumos Ocp Io Io.Mdl Veh

/-- The same names in the same order, and the same arrays for all states, inputs and places of the mesh. -/
structure SameModel (M N : ExplicitModel) : Prop where
  states : M.states = N.states
  inputs : M.inputs = N.inputs
  conOutputs : M.conOutputs = N.conOutputs
  residuals : M.residuals = N.residuals
  arrays : ∀ (x u : List ℝ) (μ : ℝ), x.length = N.states.length → u.length = N.inputs.length →
    M.f x u μ = N.f x u μ ∧ M.h x u μ = N.h x u μ ∧ M.r x u μ = N.r x u μ

/-- `TimeModel` gives the problem the functions of `timeModel`. -/
theorem C78_same_model (g : ℝ) : SameModel (explicit (Mdl.node (timeCls g) []) []) (timeModel g) where
  states := rfl
  inputs := rfl
  conOutputs := rfl
  residuals := rfl
  arrays x u μ hx hu := by
    match x, u, hx, hu with
    | [a, b, c], [θ], _, _ => exact ⟨rfl, rfl, rfl⟩

/-- `DistanceModel` gives the problem the functions of `distanceModel`. -/
theorem C106_same_model (g : ℝ) : SameModel (explicit (Mdl.node (distanceCls g) []) []) (Fix.distanceModel g) where
  states := rfl
  inputs := rfl
  conOutputs := rfl
  residuals := rfl
  arrays x u μ hx hu := by
    match x, u, hx, hu with
    | [a, b, c], [θ], _, _ => exact ⟨rfl, rfl, rfl⟩

/-- `DroneModel` gives the problem the functions of `droneModel`. -/
theorem C77_same_model (g : ℝ) : SameModel (explicit (Mdl.node (drone g) []) ["sin_theta"]) (droneModel g) where
  states := rfl
  inputs := rfl
  conOutputs := rfl
  residuals := rfl
  arrays x u μ hx hu := by
    match x, u, hx, hu with
    | [a, b, c, d, e], [p, q], _, _ => exact ⟨rfl, rfl, rfl⟩

end Lumos.Sim
