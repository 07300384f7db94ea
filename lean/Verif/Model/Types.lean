import Verif.Model.Curve
import Verif.Model.Light

/-!
# Data types of links, groups, conflicts and vehicles

The Rust modules refer to each other cyclically, so the types come first and the functions follow in
the modules `Group`, `Acceleration`, `Pathfinding`, `Vehicle`, `Link`, `Conflict`, `Simulation`.
-/

namespace TrafficSim

/-- `src/group.rs:38-42` -/
structure ProjectedSample (F : Type) where
  pos : F
  lat : F

/-- `src/group.rs:18-23` -/
structure LinkProjection (F : Type) where
  dst : Key
  invSegmentLen : F
  samples : List (ProjectedSample F)

/-- `src/group.rs:11-16`.  `lcMask` is a `u32`; only its bits 0 to 31 are ever read. -/
structure LinkGroup (F : Type) where
  links : List Key
  projections : List (LinkProjection F)
  lcMask : Nat

/-- `src/group.rs:25-36` -/
structure Obstacle (F : Type) where
  pos : F
  lat : Interval F
  rearCoords : V2 F × V2 F
  vel : F

/-- `src/conflict.rs:24-35` -/
structure LinkConflict (F : Type) where
  linkId : Key
  ownMaxPos : F
  minPos : F
  maxPos : F

/-- `src/conflict.rs:17-22` -/
structure ConflictPointLink (F : Type) where
  linkId : Key
  minPos : F
  maxPos : F

/-- `src/conflict.rs:9-15` -/
structure ConflictPoint (F : Type) where
  link0 : ConflictPointLink F
  link1 : ConflictPointLink F
  sameDir : Bool

/-- `src/link.rs:24-52`.  Simplification: the shared `Rc<LinkGroup>` is a value; groups are never
mutated. -/
structure Link (F : Type) where
  id : Key
  group : Option (LinkGroup F)
  curve : LinkCurve F
  linksIn : List Key
  linksOut : List Key
  laneChanges : List Key
  conflicts : List (LinkConflict F)
  lastConflict : Nat
  speedLimit : F
  cost : Nat
  vehicles : List Key
  control : TrafficControl F
  active : Bool

/-- `src/link.rs:55-60` -/
structure LinkAttributes (F : Type) where
  curve : Curve F
  speedLimit : F

/-- `src/link.rs:108-110` -/
def Link.length {F : Type} (l : Link F) : F := l.curve.length

/-- `src/vehicle/acceleration.rs:10-17` -/
structure AccelerationModel (F : Type) where
  headway : F
  maxAcc : F
  comfDec : F
  velAdj : F
  acc : F

/-- `src/vehicle/pathfinding.rs:181-182`: four `u32` values -/
structure LaneDists where
  d0 : Nat
  d1 : Nat
  d2 : Nat
  d3 : Nat
  deriving DecidableEq, Repr

/-- `src/vehicle/pathfinding.rs:21-27` -/
structure Path where
  links : List Key
  dists : LaneDists
  canExit : Bool
  deriving DecidableEq, Repr

/-- `src/vehicle/pathfinding.rs:9-19`.  Simplification: the `SparseSecondaryMap` is an association
list; links are never removed, so a slot index determines its version. -/
structure PathfindingModel where
  src : Key
  dst : Key
  matrix : List (Key × LaneDists)
  paths : List Path

/-- `src/vehicle.rs:80-87` -/
structure LaneChange (F : Type) where
  endPos : F
  offset : CubicFn F

/-- `src/vehicle.rs:89-95` -/
inductive RouteState
  | notEntered
  | queuedAt (seq : Nat)
  | entered
  deriving DecidableEq, Repr

/-- `src/vehicle.rs:97-100` -/
inductive ObstaclePassResult (F : Type)
  | pass
  | follow (pos vel : F)

/-- `src/vehicle.rs:19-61`.  Simplification: `stop_cnt`, which nothing reads, is an unbounded
natural number, like the other counters. -/
structure Vehicle (F : Type) where
  id : Key
  halfWid : F
  halfLen : F
  wheelBase : F
  acc : AccelerationModel F
  pathfind : PathfindingModel
  pos : F
  vel : F
  stopCnt : Nat
  route : List Key
  entered : Nat
  queued : Option Nat
  willQueueOrEnter : Nat
  canExit : Bool
  laneChange : Option (LaneChange F)
  worldPos : V2 F
  worldDir : V2 F
  rearLats : Interval F
  rearCoords : V2 F × V2 F

/-- `src/vehicle.rs:63-78` -/
structure VehicleAttributes (F : Type) where
  width : F
  length : F
  wheelBase : F
  headway : F
  maxAcc : F
  comfDec : F

/-- `src/lib.rs`: `LinkSet` -/
abbrev LinkSet (F : Type) := SlotMap (Link F)
/-- `src/lib.rs`: `VehicleSet` -/
abbrev VehicleSet (F : Type) := SlotMap (Vehicle F)

/-- `links[id]` -/
def getLink {F : Type} (links : LinkSet F) (k : Key) : M (Link F) :=
  match links.get? k with
  | some l => pure l
  | none => throw .badLink

/-- A mutation of `links[id]` -/
def updLink {F : Type} (links : LinkSet F) (k : Key) (f : Link F → Link F) : M (LinkSet F) :=
  match links.get? k with
  | some _ => pure (links.modify k f)
  | none => throw .badLink

/-- `vehicles[id]` -/
def getVeh {F : Type} (vehicles : VehicleSet F) (k : Key) : M (Vehicle F) :=
  match vehicles.get? k with
  | some v => pure v
  | none => throw .badVehicle

/-- A mutation of `vehicles[id]` -/
def updVeh {F : Type} (vehicles : VehicleSet F) (k : Key) (f : Vehicle F → Vehicle F) :
    M (VehicleSet F) :=
  match vehicles.get? k with
  | some _ => pure (vehicles.modify k f)
  | none => throw .badVehicle

/-- Parameters of the model.  `fuel` bounds the loops and recursions that the code does not bound.
`dijkstra` is `pathfinding::directed::dijkstra::dijkstra` of the external crate `pathfinding`; the
successor function may fail (a panic inside the closure). -/
class Env where
  fuel : Nat
  dijkstra : Key → (Key → M (List (Key × Nat))) → (Key → Bool) → M (Option (List Key × Nat))

end TrafficSim
