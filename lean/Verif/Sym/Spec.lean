import Verif.Lts.Coast
/-!
# The laps of a lap time simulation, compared between roads and cars (specification for C99-C101)
-/

namespace Lumos.Sym

open Lumos DecVar DecVar.Layout NLP Bounds Ocp OCP Track LapSim Lts Io Io.Mdl Lumos.Trans Veh

/-- `x` is a lap: the constraints that the solver enforces hold and every variable is within its bounds. -/
def IsLap (l : Lap) (x : List ℝ) : Prop :=
  x.length = l.S.c.o.L.numDec ∧ ∃ b, l.problem = .ok b ∧ b.Feasible (vdiv x b.prob.scales) ∧ Within b.bounds.lb b.bounds.ub x

/-- The value of the objective that the solver minimises. -/
def Costs (l : Lap) (x : List ℝ) (T : ℝ) : Prop := ∃ b, l.problem = .ok b ∧ b.prob.objective (vdiv x b.prob.scales) = .ok T

/-- The costs of all laps. -/
def costs (l : Lap) : Set ℝ := {T | ∃ x, IsLap l x ∧ Costs l x T}

/-- A lap that no other lap beats. -/
def IsBest (l : Lap) (x : List ℝ) : Prop := IsLap l x ∧ ∃ T, Costs l x T ∧ ∀ T' ∈ costs l, T ≤ T'

/-- A road turned by an angle and shifted. -/
noncomputable def Row.turned (φ a b : ℝ) (r : Row) : Row :=
  ⟨Real.cos φ * r.x - Real.sin φ * r.y + a, Real.sin φ * r.x + Real.cos φ * r.y + b, r.left, r.right⟩

/-- A road seen in a mirror along the x axis: left becomes right. -/
def Row.mirrored (r : Row) : Row := ⟨r.x, -r.y, r.right, r.left⟩

/-- The same centre line, not narrower on either side. -/
def Row.NotWider (r r' : Row) : Prop := r'.x = r.x ∧ r'.y = r.y ∧ r.left ≤ r'.left ∧ r.right ≤ r'.right

/-- The two points are equal but for the heading of the track (and the yaw angle, if that is among the outputs), which differ by `c` everywhere. -/
def TurnedBy (c : ℝ) (L : Layout) (x x' : List ℝ) : Prop :=
  ∀ s g n, L.IsVar (.stage s g n) → readAt L x' g n s = readAt L x g n s +
    if (g = "inputs" ∧ n = "track_heading") ∨ (g = "con_outputs" ∧ n = "kinematics.yaw_angle") then c else 0

/-- The corner on the other side. -/
def otherSide (n : String) : String :=
  if n = "wheel_speed_fl" then "wheel_speed_fr" else if n = "wheel_speed_fr" then "wheel_speed_fl"
  else if n = "wheel_speed_rl" then "wheel_speed_rr" else if n = "wheel_speed_rr" then "wheel_speed_rl"
  else if n = "vehicle.slip_ratio_fl" then "vehicle.slip_ratio_fr" else if n = "vehicle.slip_ratio_fr" then "vehicle.slip_ratio_fl"
  else if n = "vehicle.slip_ratio_rl" then "vehicle.slip_ratio_rr" else if n = "vehicle.slip_ratio_rr" then "vehicle.slip_ratio_rl"
  else if n = "vehicle.slip_angle_fl" then "vehicle.slip_angle_fr" else if n = "vehicle.slip_angle_fr" then "vehicle.slip_angle_fl"
  else if n = "vehicle.slip_angle_rl" then "vehicle.slip_angle_rr" else if n = "vehicle.slip_angle_rr" then "vehicle.slip_angle_rl"
  else n

/-- The quantities that change their sign in a mirror. -/
def Odd (n : String) : Prop :=
  n ∈ ["n", "eta", "vy", "yaw_rate", "steer", "ay", "track_curvature", "track_heading", "vehicle.slip_angle_fl", "vehicle.slip_angle_fr",
    "vehicle.slip_angle_rl", "vehicle.slip_angle_rr"]

instance (n : String) : Decidable (Odd n) := by unfold Odd; infer_instance

/-- `x'` is `x` seen in a mirror: left and right exchanged, the odd quantities negated; the heading of the track besides differs by `c`. -/
def MirrorOf (c : ℝ) (L : Layout) (x x' : List ℝ) : Prop :=
  ∀ s g n, L.IsVar (.stage s g n) → readAt L x' g n s = (if Odd n then -1 else 1) * readAt L x g (otherSide n) s +
    if g = "inputs" ∧ n = "track_heading" then c else 0

end Lumos.Sym
