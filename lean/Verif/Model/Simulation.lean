import Verif.Model.Conflict

/-! # `src/simulation.rs` -/

namespace TrafficSim

/-- `src/simulation.rs:21-43`.  Not modelled: the `debug` field. -/
structure Sim (F : Type) where
  links : LinkSet F
  lights : SlotMap (TrafficLight F)
  conflicts : List (ConflictPoint F)
  vehicles : VehicleSet F
  frozen : List Key
  frame : Nat
  seq : Nat
  accUpdate : F
  lcUpdate : F

section
variable {F : Type} [Flt F]

/-- `src/simulation.rs:14` -/
def accelerationUpdateSec : F := 0.1
/-- `src/simulation.rs:17` -/
def laneChangeUpdateSec : F := 0.3

namespace Sim

/-- `src/simulation.rs:47-49` -/
def new : Sim F :=
  { links := .empty, lights := .empty, conflicts := [], vehicles := .empty, frozen := [], frame := 0
    seq := 0, accUpdate := 0.0, lcUpdate := 0.0 }

/-- `src/simulation.rs:52-54` -/
def addLink [Env] (s : Sim F) (a : LinkAttributes F) : M (Sim F × Key) := do
  let (links, k) ← s.links.insertWithKey fun id => Link.new id a
  pure ({ s with links }, k)

/-- `src/simulation.rs:62-74` -/
def addLinkGroup [Env] (s : Sim F) (ids : List Key) (lcMask : Nat) : M (Sim F) := do
  let ls ← ids.mapM (getLink s.links)
  let group ← LinkGroup.new ls lcMask
  let links ← ids.foldlM
    (fun links k => updLink links k fun l => { l with group := some group }) s.links
  let lcs ← group.laneChanges
  let links ← lcs.foldlM (fun links p => do
    let l ← getLink links p.1
    -- `lane_changes` is an `ArrayVec<_, 2>` (`src/link.rs:37`, `:180-182`)
    if l.laneChanges.length ≥ 2 then throw .arrayFull
    updLink links p.1 fun l => { l with laneChanges := l.laneChanges ++ [p.2] }) links
  pure { s with links }

/-- `src/simulation.rs:77-86` -/
def addLinkConvergance [Env] (s : Sim F) (a b : Key) : M (Sim F) :=
  if a = b then pure s
  else
    match s.links.get? a, s.links.get? b with
    | some la, some lb => do
      match ← ConflictPoint.new la lb with
      | none => pure s
      | some c => do
        let links ← c.linkConflicts.foldlM
          (fun links p => updLink links p.1 fun l => { l with conflicts := l.conflicts ++ [p.2] })
          s.links
        pure { s with links, conflicts := s.conflicts ++ [c] }
    | _, _ => pure s

/-- `src/simulation.rs:89-92` -/
def addLinkConnection (s : Sim F) (a b : Key) : M (Sim F) := do
  let links ← updLink s.links a fun l => { l with linksOut := l.linksOut ++ [b] }
  let links ← updLink links b fun l => { l with linksIn := l.linksIn ++ [a] }
  pure { s with links }

/-- The links downstream of the lanes `ks` (`src/simulation.rs:104-107`) -/
def lanesOut (links : LinkSet F) : List Key → M (List Key)
  | [] => pure []
  | k :: ks => do
    let l ← getLink links k
    let rest ← lanesOut links ks
    pure (l.linksOut ++ rest)

/-- `pathfinding::directed::dfs::dfs_reach` of the external crate `pathfinding`, collected, with the
closure of `src/simulation.rs:102-108`.  `toSee` is the stack, top first. -/
def dfsReach (links : LinkSet F) : Nat → List Key → List Key → M (List Key)
  | 0, _, _ => throw .diverges
  | _ + 1, [], _ => pure []
  | fuel + 1, k :: toSee, seen =>
    if seen.contains k then dfsReach links fuel toSee seen
    else do
      let seen := k :: seen
      let l ← getLink links k
      let lanes ← l.reachableLanes
      let succs ← lanesOut links lanes
      let rest ← dfsReach links fuel (succs.filter (fun s => !seen.contains s) ++ toSee) seen
      pure (k :: rest)

/-- `filter(|id| self.links[*id].links_out().is_empty())`, `src/simulation.rs:110` -/
def filterSinks (links : LinkSet F) : List Key → M (List Key)
  | [] => pure []
  | k :: ks => do
    let l ← getLink links k
    let rest ← filterSinks links ks
    pure (if l.linksOut.isEmpty then k :: rest else rest)

/-- The body of the `flat_map` of `src/simulation.rs:100-112` -/
def routesFrom [Env] (links : LinkSet F) (src : Key) : M (List (Key × Key)) := do
  let l ← getLink links src
  let f ← l.reachableLanes
  let s ← dfsReach links Env.fuel [src] []
  let sinks ← filterSinks links (f ++ s)
  pure (sinks.map fun dst => (src, dst))

/-- `src/simulation.rs:95-113`, collected -/
def allRoutes [Env] (s : Sim F) : M (List (Key × Key)) := do
  let srcs := s.links.keys.filter fun k =>
    match s.links.get? k with
    | some l => l.linksIn.isEmpty
    | none => false
  let rs ← srcs.mapM (routesFrom s.links)
  pure rs.flatten

/-- `src/simulation.rs:116-118` -/
def addTrafficLight (s : Sim F) (light : TrafficLight F) : M (Sim F × Key) := do
  let (lights, k) ← s.lights.insertWithKey fun _ => pure light
  pure ({ s with lights }, k)

/-- `self.links[link].insert_vehicle(&self.vehicles, id)` -/
def insertOnLink (links : LinkSet F) (vs : VehicleSet F) (link id : Key) : M (LinkSet F) := do
  let l ← getLink links link
  let l ← l.insertVehicle vs id
  updLink links link fun _ => l

/-- `src/simulation.rs:121-130` -/
def addVehicle [Env] (s : Sim F) (a : VehicleAttributes F) (link : Key) : M (Sim F × Key) := do
  let (vehicles, id) ← s.vehicles.insertWithKey fun id => do
    let v := Vehicle.new id a
    let v ← v.setLocation link 0.0 none s.links
    v.updateCoords s.links
  let links ← insertOnLink s.links vehicles link id
  pure ({ s with links, vehicles }, id)

/-- `src/simulation.rs:133-140` -/
def removeVehicle (s : Sim F) (id : Key) : M (Sim F) :=
  match s.vehicles.remove id with
  | (vehicles, some v) =>
    match v.linkId with
    | some k => do
      let links ← updLink s.links k fun l => l.removeVehicle v.id
      pure { s with links, vehicles }
    | none => pure { s with vehicles }
  | (vehicles, none) => pure { s with vehicles }

/-- `f64::clamp(0.75, 1.25)`, `src/simulation.rs:149` -/
def clampAdjust (x : F) : F := if x < 0.75 then 0.75 else if 1.25 < x then 1.25 else x

/-- `src/simulation.rs:145-152`.  The random samples are an arbitrary function of the vehicle.
`Normal::new` fails if the standard deviation is infinite or NaN, that is, if `stddev - stddev` is
NaN. -/
def randomiseVelocityAdjusts (s : Sim F) (stddev : F) (sample : Key → F) : M (Sim F) :=
  if isNan (stddev - stddev) then throw .badStdDev
  else pure { s with
    vehicles := s.vehicles.keys.foldl
      (fun vs k => vs.modify k fun v => v.setVelocityAdjust (clampAdjust (sample k))) s.vehicles }

/-- `src/simulation.rs:157-168` -/
def setVehicleFrozen (s : Sim F) (id : Key) (frozen : Bool) : Sim F :=
  match frozen, s.frozen.contains id with
  | true, false => { s with frozen := s.frozen ++ [id] }
  | false, true => { s with frozen := s.frozen.erase id }
  | _, _ => s

/-- `src/simulation.rs:171-173` -/
def getVehicleFrozen (s : Sim F) (id : Key) : Bool := s.frozen.contains id

/-- `src/simulation.rs:176-178` -/
def setVehicleDestination [Env] (s : Sim F) (id dst : Key) : M (Sim F) := do
  let v ← getVeh s.vehicles id
  let v ← v.setDestination dst s.links
  pure { s with vehicles := s.vehicles.modify id fun _ => v }

/-- `src/simulation.rs:231-233` -/
def setLinkControl (s : Sim F) (k : Key) (control : TrafficControl F) : M (Sim F) := do
  let links ← updLink s.links k fun l => { l with control }
  pure { s with links }

/-- `src/simulation.rs:221-223` -/
def getVehicle (s : Sim F) (k : Key) : M (Vehicle F) := getVeh s.vehicles k

/-- `src/simulation.rs:226-228` -/
def getLinkRef (s : Sim F) (k : Key) : M (Link F) := getLink s.links k

/-- One iteration of the loop of `src/simulation.rs:243-248` -/
def updateLight (dt : F) (s : SlotMap (TrafficLight F) × LinkSet F) (k : Key) :
    M (SlotMap (TrafficLight F) × LinkSet F) :=
  match s.1.get? k with
  | none => pure s
  | some light => do
    let light ← light.step dt
    let states ← light.getStates
    let links ← states.foldlM
      (fun links p => updLink links p.1 fun l => { l with control := p.2 }) s.2
    pure (s.1.modify k (fun _ => light), links)

/-- `src/simulation.rs:242-249` -/
def updateLights (s : Sim F) (dt : F) : M (Sim F) := do
  let (lights, links) ← s.lights.keys.foldlM (updateLight dt) (s.lights, s.links)
  pure { s with lights, links }

/-- `src/simulation.rs:379-403` -/
def doLaneChange [Env] (s : Sim F) (id link : Key) (distance : F) : M (Sim F) := do
  let v ← getVeh s.vehicles id
  let links ← match v.linkId with
    | some k => updLink s.links k fun l => l.removeVehicle id
    | none => pure s.links
  let l ← getLink links link
  match ← l.curve.inverseSample v.worldPos v.worldDir with
  | none => throw .noProjection
  | some (pos, offset, slope) => do
    let endPos := pos + distance
    let laneChange : LaneChange F := { endPos, offset := CubicFn.fit pos offset slope endPos 0.0 0.0 }
    let v ← v.setLocation link pos (some laneChange) links
    let vehicles := s.vehicles.modify id fun _ => v
    let links ← insertOnLink links vehicles link id
    pure { s with links, vehicles }

/-- One iteration of the loop of `src/simulation.rs:261-272` -/
def choosePathOf (links : LinkSet F) (s : VehicleSet F × List (Key × Path)) (k : Key) :
    M (VehicleSet F × List (Key × Path)) := do
  let v ← getVeh s.1 k
  match ← v.choosePath links with
  | none => pure s
  | some p =>
    match v.linkId, p.links.head? with
    | some cur, some new =>
      if cur ≠ new then pure (s.1, s.2 ++ [(v.id, p)])
      else pure (s.1.modify k (fun v => v.setPath p), s.2)
    | _, _ => throw .emptyRoute

/-- One iteration of the loop of `src/simulation.rs:275-278` -/
def performLaneChange [Env] (s : Sim F) (p : Key × Path) : M (Sim F) :=
  match p.2.links with
  | [] => throw .emptyRoute
  | k :: _ => do
    let s ← s.doLaneChange p.1 k 30.0
    let vehicles ← updVeh s.vehicles p.1 fun v => v.setPath p.2
    pure { s with vehicles }

/-- `src/simulation.rs:252-279` -/
def calculateLaneChanges [Env] (s : Sim F) : M (Sim F) :=
  if s.lcUpdate < laneChangeUpdateSec then pure s
  else do
    let s := { s with lcUpdate := 0.0 }
    let (vehicles, lanechanges) ← s.vehicles.keys.foldlM (choosePathOf s.links) (s.vehicles, [])
    lanechanges.foldlM performLaneChange { s with vehicles }

/-- One iteration of the loop of `src/simulation.rs:292-295` -/
def resetVehicle (n : Net F) (k : Key) : M (Net F) := do
  let v ← getVeh n.vehicles k
  let vehicles := n.vehicles.modify k Vehicle.reset
  let links ← v.activateLinks n.links
  pure { links, vehicles }

/-- `src/simulation.rs:320-329`: the frozen vehicles that still exist, with their brakes applied -/
def applyFrozen (vs : VehicleSet F) (frozen : List Key) : VehicleSet F × List Key :=
  (frozen.foldl (fun vs k => vs.modify k Vehicle.emergencyStop) vs,
   frozen.filter fun k => vs.contains k)

/-- `src/simulation.rs:289-295` -/
def prepareNet (s : Sim F) : M (Net F) :=
  let links := s.links.keys.foldl (fun ls k => ls.modify k fun l => { l with active := false }) s.links
  s.vehicles.keys.foldlM resetVehicle ⟨links, s.vehicles⟩

/-- `src/simulation.rs:310-317` -/
def applyLinkAccelerations [Env] (conflicts : List (ConflictPoint F)) (n : Net F) :
    M (VehicleSet F) := do
  let vs ← n.links.keys.foldlM (Link.applyAccelerations n.links) n.vehicles
  conflicts.foldlM (fun vs c => c.applyAccelerations n.links vs) vs

/-- `src/simulation.rs:282-299` -/
def applyAccelerations [Env] (s : Sim F) : M (Sim F) :=
  if s.accUpdate < accelerationUpdateSec then pure s
  else do
    let n ← s.prepareNet
    let n ← n.links.keys.foldlM Link.applyStoplines n
    let vs ← applyLinkAccelerations s.conflicts n
    let (vehicles, frozen) := applyFrozen vs s.frozen
    pure { s with links := n.links, vehicles, frozen, accUpdate := 0.0 }

/-- One iteration of the loop of `src/simulation.rs:334-336` -/
def integrateOne (dt : F) (s : VehicleSet F × Nat) (k : Key) : M (VehicleSet F × Nat) := do
  let v ← getVeh s.1 k
  let (v, seq) ← v.integrate dt s.2
  pure (s.1.modify k (fun _ => v), seq)

/-- `src/simulation.rs:333-337` -/
def integrate (s : Sim F) (dt : F) : M (Sim F) := do
  let (vehicles, seq) ← s.vehicles.keys.foldlM (integrateOne dt) (s.vehicles, s.seq)
  pure { s with vehicles, seq }

/-- The local variables of `advance_vehicles`, `src/simulation.rs:341-343` -/
structure AdvState (F : Type) where
  links : LinkSet F
  vehicles : VehicleSet F
  advanced : List (Key × Key)
  exited : List Key

/-- One iteration of the loop of `src/simulation.rs:345-359` -/
def advanceOne [Env] (s : AdvState F) (k : Key) : M (AdvState F) := do
  let v ← getVeh s.vehicles k
  match v.linkId with
  | none => throw .emptyRoute
  | some link => do
    let (v, did) ← v.advance s.links
    if did then do
      let links ← updLink s.links link fun l => l.removeVehicle k
      let vehicles := s.vehicles.modify k fun _ => v
      match v.linkId with
      | some link' => pure { s with links, vehicles, advanced := s.advanced ++ [(k, link')] }
      | none => pure { s with links, vehicles, exited := s.exited ++ [k] }
    else pure s

/-- `src/simulation.rs:341-368` -/
def advanceVehicles [Env] (s : Sim F) : M (Sim F) := do
  let a ← s.vehicles.keys.foldlM advanceOne ⟨s.links, s.vehicles, [], []⟩
  let links ← a.advanced.foldlM (fun links p => insertOnLink links a.vehicles p.2 p.1) a.links
  let vehicles := a.exited.foldl (fun vs k => (vs.remove k).1) a.vehicles
  pure { s with links, vehicles }

/-- One iteration of the loop of `src/simulation.rs:372-374` -/
def updateCoordsOne (links : LinkSet F) (vs : VehicleSet F) (k : Key) : M (VehicleSet F) := do
  let v ← getVeh vs k
  let v ← v.updateCoords links
  pure (vs.modify k fun _ => v)

/-- `src/simulation.rs:371-375` -/
def updateVehicleCoords (s : Sim F) : M (Sim F) := do
  let vehicles ← s.vehicles.keys.foldlM (updateCoordsOne s.links) s.vehicles
  pure { s with vehicles }

/-- `src/simulation.rs:183-198` -/
def step [Env] (s : Sim F) (dt : F) : M (Sim F) := do
  let s ← s.calculateLaneChanges
  let s ← s.applyAccelerations
  let s ← s.updateLights dt
  let s ← s.integrate dt
  let s ← s.advanceVehicles
  let s ← s.updateVehicleCoords
  pure { s with frame := s.frame + 1, accUpdate := s.accUpdate + dt, lcUpdate := s.lcUpdate + dt }

end Sim

/-- The public operations that change a simulation (`src/simulation.rs`). -/
inductive Op (F : Type)
  | addLink (a : LinkAttributes F)
  | addLinkGroup (ids : List Key) (lcMask : Nat)
  | addLinkConvergance (a b : Key)
  | addLinkConnection (a b : Key)
  | addTrafficLight (light : TrafficLight F)
  | addVehicle (a : VehicleAttributes F) (link : Key)
  | removeVehicle (id : Key)
  | randomiseVelocityAdjusts (stddev : F) (sample : Key → F)
  | setVehicleFrozen (id : Key) (frozen : Bool)
  | setVehicleDestination (id dst : Key)
  | setLinkControl (k : Key) (control : TrafficControl F)
  | doLaneChange (id link : Key) (distance : F)
  | step (dt : F)

/-- Runs one public operation.  An operation that panics yields an error and no state. -/
def Sim.exec [Env] (s : Sim F) : Op F → M (Sim F)
  | .addLink a => do pure (← s.addLink a).1
  | .addLinkGroup ids m => s.addLinkGroup ids m
  | .addLinkConvergance a b => s.addLinkConvergance a b
  | .addLinkConnection a b => s.addLinkConnection a b
  | .addTrafficLight l => do pure (← s.addTrafficLight l).1
  | .addVehicle a k => do pure (← s.addVehicle a k).1
  | .removeVehicle k => s.removeVehicle k
  | .randomiseVelocityAdjusts sd f => s.randomiseVelocityAdjusts sd f
  | .setVehicleFrozen k b => pure (s.setVehicleFrozen k b)
  | .setVehicleDestination k d => s.setVehicleDestination k d
  | .setLinkControl k c => s.setLinkControl k c
  | .doLaneChange k l d => s.doLaneChange k l d
  | .step dt => s.step dt

end

end TrafficSim
