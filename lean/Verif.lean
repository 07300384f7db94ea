import Verif.Model.Flt
import Verif.Model.SlotMap
import Verif.Model.Util
import Verif.Model.Math
import Verif.Model.Curve
import Verif.Model.Light
import Verif.Model.Types
import Verif.Model.Group
import Verif.Model.Acceleration
import Verif.Model.Pathfinding
import Verif.Model.Vehicle
import Verif.Model.Link
import Verif.Model.Conflict
import Verif.Model.Simulation
import Verif.Lemmas.Acc
import Verif.Lemmas.Approach
import Verif.Lemmas.Binary64
import Verif.Lemmas.Braking
import Verif.Lemmas.Cap
import Verif.Lemmas.Chain
import Verif.Lemmas.Corner
import Verif.Lemmas.Course
import Verif.Lemmas.Crossing
import Verif.Lemmas.CrossingLate
import Verif.Lemmas.Curve
import Verif.Lemmas.Demo
import Verif.Lemmas.Dijkstra
import Verif.Lemmas.Entry
import Verif.Lemmas.Except
import Verif.Lemmas.Frame
import Verif.Lemmas.Group
import Verif.Lemmas.Inv
import Verif.Lemmas.Junction
import Verif.Lemmas.Lane
import Verif.Lemmas.LaneDist
import Verif.Lemmas.Light
import Verif.Lemmas.Line
import Verif.Lemmas.LinkAcc
import Verif.Lemmas.Lone
import Verif.Lemmas.Matrix
import Verif.Lemmas.Member
import Verif.Lemmas.Ops
import Verif.Lemmas.Origin
import Verif.Lemmas.Overlap
import Verif.Lemmas.Path
import Verif.Lemmas.PhaseAcc
import Verif.Lemmas.PhaseAdv
import Verif.Lemmas.PhaseLane
import Verif.Lemmas.PhaseStep
import Verif.Lemmas.Pinwheel
import Verif.Lemmas.Rel
import Verif.Lemmas.Row
import Verif.Lemmas.Run
import Verif.Lemmas.Search
import Verif.Lemmas.Settle
import Verif.Lemmas.SlotMap
import Verif.Lemmas.Town
import Verif.Lemmas.TownRun
import Verif.Lemmas.Traverse
import Verif.Props.Along
import Verif.Props.Arrival
import Verif.Props.ArrivalRoad
import Verif.Props.Beside
import Verif.Props.Binary
import Verif.Props.BinaryFollow
import Verif.Props.Calls
import Verif.Props.Capacity
import Verif.Props.Cause
import Verif.Props.Collide
import Verif.Props.Conflict
import Verif.Props.Converge
import Verif.Props.Denied
import Verif.Props.Driven
import Verif.Props.Dynamics
import Verif.Props.Endless
import Verif.Props.EndsBinary
import Verif.Props.EndsGiveWay
import Verif.Props.EndsRuns
import Verif.Props.Enters
import Verif.Props.Entry
import Verif.Props.Exit
import Verif.Props.Far
import Verif.Props.Flow
import Verif.Props.Follow
import Verif.Props.Free
import Verif.Props.Gap
import Verif.Props.GapExact
import Verif.Props.GapExamples
import Verif.Props.GiveWay
import Verif.Props.GiveWayAlone
import Verif.Props.GiveWayRoad
import Verif.Props.GiveWayStuck
import Verif.Props.Green
import Verif.Props.GreenRoad
import Verif.Props.Gridlock
import Verif.Props.Halt
import Verif.Props.Handles
import Verif.Props.Instances
import Verif.Props.Kinematics
import Verif.Props.LaneDist
import Verif.Props.LaneShift
import Verif.Props.Lanes
import Verif.Props.LetIn
import Verif.Props.Light
import Verif.Props.LightLive
import Verif.Props.Line
import Verif.Props.LinkCurve
import Verif.Props.Math
import Verif.Props.Motion
import Verif.Props.Network
import Verif.Props.NoFail
import Verif.Props.Obstacle
import Verif.Props.Order
import Verif.Props.OrderStuck
import Verif.Props.PathChoice
import Verif.Props.Projection
import Verif.Props.RealRoads
import Verif.Props.Red
import Verif.Props.Region
import Verif.Props.Roads
import Verif.Props.Room
import Verif.Props.Routes
import Verif.Props.Safety
import Verif.Props.SafetyAcross
import Verif.Props.SelfWait
import Verif.Props.Sight
import Verif.Props.Slower
import Verif.Props.SlowerRoad
import Verif.Props.Small
import Verif.Props.Speed
import Verif.Props.SpeedBinary
import Verif.Props.Split
import Verif.Props.SplitRoad
import Verif.Props.Steering
import Verif.Props.Straight
import Verif.Props.Tail
import Verif.Props.Terminate
import Verif.Props.Traffic
import Verif.Props.Trapped
import Verif.Props.TrappedRoad
import Verif.Props.Unchecked
import Verif.Props.Waits
import Verif.Props.Within
import Verif.Props.Yield
