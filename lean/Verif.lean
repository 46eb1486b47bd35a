import Verif.Base.Py
import Verif.Base.Np
import Verif.Base.Sparse
import Verif.Base.Deriv
import Verif.DecVar.Props
import Verif.Conv.Props
import Verif.NLP.Props
import Verif.NLP.CompositeProps
import Verif.NLP.Solve
import Verif.Bounds.Props
import Verif.Bounds.Odd
import Verif.Base.Coord
import Verif.Ocp.Cyclic
import Verif.Ocp.Mesh
import Verif.Ocp.ContProps
import Verif.Ocp.ContHess
import Verif.Ocp.StageProps
import Verif.Ocp.AlgProps
import Verif.Ocp.CondJac
import Verif.Ocp.CondExample
import Verif.Ocp.CondHess
import Verif.Ocp.Scales
import Verif.Trans.OcpLink
import Verif.Tree.Flat
import Verif.Tree.Ravel
import Verif.Tree.Heap
import Verif.Ocp.BuildExample
import Verif.Ocp.DomExample
import Verif.Ocp.PenaltySpec
import Verif.Ocp.MeshScale
import Verif.Io.Implicit
import Verif.Veh.EnergyExample
import Verif.Veh.Drag
import Verif.Veh.Mirror
import Verif.Veh.OnTrack
import Verif.Track.Circle
import Verif.Lap.Example
import Verif.Log.Findings
import Verif.Log.TableMore
import Verif.Config.More
import Verif.Backend.Props
import Verif.Solver.Solve
import Verif.Trans.Quad
import Verif.Trans.Rule
import Verif.Trans.RuleOcp
import Verif.Sim.Front
import Verif.Sim.Drone
import Verif.Sim.Read
import Verif.Sim.DroneProps
import Verif.Sim.DroneMore
import Verif.Sim.Brach
import Verif.Sim.BrachProps
import Verif.Sim.BrachMore
import Verif.Map.Model
import Verif.Map.Props
import Verif.Map.More
import Verif.Cache.Model
import Verif.Cache.Props
import Verif.Params.Model
import Verif.Params.Props
import Verif.Tyre.Model
import Verif.Tyre.Spec
import Verif.Tyre.Moments
import Verif.Tyre.Props
import Verif.Tyre.Forces
import Verif.Tyre.Reads
import Verif.Tyre.DefaultPars
import Verif.Tyre.Default
import Verif.Tyre.Mirror
import Verif.Tyre.Symmetric
import Verif.Tyre.Smooth
import Verif.Tyre.Car
import Verif.Tir.Model
import Verif.Tir.Spec
import Verif.Tir.Props
import Verif.Tir.File
import Verif.Tir.Tyre
import Verif.Tir.Float
import Verif.Aero.Model
import Verif.Aero.Props
import Verif.Aero.Kernel
import Verif.Aero.Car
import Verif.Cas.FdModel
import Verif.Cas.Fd
import Verif.Cas.FdOrder
import Verif.Cas.RotModel
import Verif.Cas.Rot
import Verif.Cas.ArrModel
import Verif.Cas.NpSpec
import Verif.Cas.Join
import Verif.Cas.Split
import Verif.Cas.Num
import Verif.Cas.Shape
import Verif.Order.Taylor
import Verif.Order.Rk
import Verif.Order.Converge
import Verif.Order.Chain
import Verif.Order.Exist
import Verif.Order.Props
import Verif.Order.Problem
import Verif.Order.Examples
import Verif.Order.Stable
import Verif.Order.StableMore
import Verif.Cycloid.Trig
import Verif.Cycloid.Gauge
import Verif.Cycloid.Model
import Verif.Cycloid.Least
import Verif.Cycloid.Curve
import Verif.Cycloid.Lower
import Verif.Cycloid.Upper
import Verif.Cycloid.Examples
import Verif.Kkt.Model
import Verif.Kkt.Lemmas
import Verif.Kkt.Props
import Verif.Kkt.More
import Verif.Kkt.Solve
import Verif.Kkt.Examples
import Verif.Kkt.Ocp
import Verif.Kkt.Cond
import Verif.Ocp.MeshPoints
import Verif.Lts.Auto
import Verif.Lts.Model
import Verif.Lts.Front
import Verif.Lts.Vehicle
import Verif.Lts.Problem
import Verif.Lts.Bounds
import Verif.Lts.Defaults
import Verif.Lts.Time
import Verif.Lts.Coast
import Verif.Lts.Straight
import Verif.Gen.Model
import Verif.Gen.Unravel
import Verif.Gen.Tree
import Verif.Gen.Props
import Verif.Gen.Finding
import Verif.Gen.Aero
import Verif.Lts.AeroCars
import Verif.Use.Example
import Verif.Drive.Model
import Verif.Drive.Spec
import Verif.Drive.Follow
import Verif.Drive.Meaning
import Verif.Drive.Props
import Verif.Drive.Solve
import Verif.Drive.Bounds
import Verif.Drive.Fresh
import Verif.Drive.Sweep
import Verif.Drive.Example
import Verif.Sym.Spec
import Verif.Sym.Core
import Verif.Sym.Road
import Verif.Sym.Turn
import Verif.Sym.Frame
import Verif.Sym.Mirror
import Verif.Sym.MirrorLap
import Verif.Sym.Wider
import Verif.Sym.Props
import Verif.Cas.MixModel
import Verif.Cas.Mix
import Verif.Cas.Angle
import Verif.Backend.Runs
import Verif.Sym.CondModel
import Verif.Sym.Cond
import Verif.Fix.Front
import Verif.Fix.Dist
import Verif.Fix.Radau
import Verif.Fix.Energy
import Verif.Fix.Straight
import Verif.Fix.Props
import Verif.Csv.Model
import Verif.Csv.Props
import Verif.Tree.Share
import Verif.Config.History
import Verif.Config.OwnList
import Verif.Config.Defaults
import Verif.Sim.Same
import Verif.Track.Constant
import Verif.Bounds.Accept
import Verif.Report.Model
import Verif.Report.Props
import Verif.Kkt.Exists
import Verif.Kkt.ExistsDrone
import Verif.Veh.Smooth
import Verif.Lts.SmoothModel
import Verif.Lts.Smooth
import Verif.Lts.SmoothLap
import Verif.Lts.SmoothDefault
import Verif.Lts.BestLap
import Verif.Tyre.Load
import Verif.Tyre.LoadDefault
import Verif.Lts.Mf52Model
import Verif.Lts.SmoothGen
import Verif.Lts.Mf52Smooth
import Verif.Lts.Mf52Default
import Verif.Lts.Mf52Best
import Verif.Lts.BestStraight
import Verif.Trans.Options
import Verif.DecVar.Names
import Verif.Apply.Model
import Verif.Apply.Props
import Verif.Tree.Delimiter
import Verif.Io.Const
import Verif.Veh.Names
import Verif.NLP.Lower
import Verif.Prof.Model
import Verif.Prof.Props
import Verif.DecVar.Lengths
import Verif.NLP.Size
import Verif.LogDir.Model
import Verif.LogDir.Props
import Verif.Dense.Model
import Verif.Dense.Props
import Verif.Shared.Model
import Verif.Shared.Props
import Verif.Shared.Traced
import Verif.Bench.Model
import Verif.Bench.Props
