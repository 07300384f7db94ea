import Verif.Model.Acceleration
import Verif.Model.Pathfinding

/-! # `src/vehicle.rs` and `src/vehicle/dynamics.rs` -/

namespace TrafficSim

section
variable {F : Type} [Flt F]

/-- `src/vehicle.rs:16` -/
def lateralClearance : F := 0.5

/-- `src/vehicle/dynamics.rs:4-10` -/
def calcDirection (pos dir newPos : V2 F) (radius : F) : V2 F :=
  let b := pos.sub (V2.smul radius dir)
  let v := pos.sub b
  let h := (v.magnitude2 - sq radius) / (2.0 * (radius + v.dot dir))
  let bp := b.add (V2.smul h dir)
  (newPos.sub bp).normalize

namespace Vehicle

/-- `src/vehicle.rs:104-130` -/
def new (id : Key) (a : VehicleAttributes F) : Vehicle F where
  id
  halfWid := 0.5 * a.width
  halfLen := 0.5 * a.length
  wheelBase := a.wheelBase
  acc := AccelerationModel.new a.headway a.maxAcc a.comfDec
  pathfind := PathfindingModel.default
  pos := 0.0
  vel := 0.0
  stopCnt := 0
  route := []
  entered := 0
  queued := none
  willQueueOrEnter := 0
  canExit := true
  laneChange := none
  worldPos := V2.zero
  worldDir := V2.zero
  rearLats := ⟨0.0, 0.0⟩
  rearCoords := (V2.zero, V2.zero)

/-- `src/vehicle.rs:138-140` -/
def width (v : Vehicle F) : F := 2.0 * v.halfWid
/-- `src/vehicle.rs:143-145` -/
def length (v : Vehicle F) : F := 2.0 * v.halfLen
/-- `src/vehicle.rs:148-150` -/
def linkId (v : Vehicle F) : Option Key := v.route.head?
/-- `src/vehicle.rs:158-160` -/
def posRear (v : Vehicle F) : F := v.pos - v.halfLen
/-- `src/vehicle.rs:163-165` -/
def posFront (v : Vehicle F) : F := v.pos + v.halfLen
/-- `src/vehicle.rs:188-190` -/
def hasStopped (v : Vehicle F) : Bool := decide (v.vel < 0.1)

/-- `src/vehicle.rs:195-197` -/
def setVelocityAdjust (v : Vehicle F) (factor : F) : Vehicle F :=
  { v with acc := v.acc.setVelocityAdjust factor }

/-- `src/vehicle.rs:201-204` -/
def minReachTime (v : Vehicle F) (pos maxVel : F) : F :=
  let dist := fmax (pos - v.pos) 0.0
  v.acc.minReachTime v.vel dist maxVel

/-- `src/vehicle.rs:207-217` -/
def getRoute (v : Vehicle F) (idx : Nat) : Option (Key × RouteState) :=
  (v.route[idx]?).map fun k =>
    let state :=
      if idx < v.entered then RouteState.entered
      else if v.entered = idx then
        match v.queued with
        | some f => RouteState.queuedAt f
        | none => RouteState.notEntered
      else RouteState.notEntered
    (k, state)

/-- `src/vehicle.rs:231-233` -/
def stoppingDistance (v : Vehicle F) : F := v.acc.stoppingDistance v.vel

/-- `src/vehicle.rs:225-228` -/
def canStop (v : Vehicle F) (pos : F) : Bool :=
  let netDist := pos - v.posFront
  decide (v.stoppingDistance ≤ netDist)

/-- `src/vehicle.rs:236-238` -/
def queueLink (v : Vehicle F) : Vehicle F := { v with willQueueOrEnter := 1 }
/-- `src/vehicle.rs:241-243` -/
def enterLink (v : Vehicle F) : Vehicle F := { v with willQueueOrEnter := 2 }

/-- `src/vehicle.rs:246-249` -/
def stopAtLine (v : Vehicle F) (pos : F) : Vehicle F :=
  { v with acc := v.acc.stopAtLine (pos - v.posFront) v.vel }

/-- `src/vehicle.rs:252-255` -/
def followVehicle (v : Vehicle F) (pos vel : F) : Vehicle F :=
  { v with acc := v.acc.followVehicle (pos - v.posFront) v.vel vel }

/-- `src/vehicle.rs:258-265` -/
def followObstacle (v : Vehicle F) (coords : V2 F × V2 F) (vel : F) : Vehicle F :=
  let midDist := fmin (v.worldDir.dot (coords.1.sub v.worldPos)) (v.worldDir.dot (coords.2.sub v.worldPos))
  { v with acc := v.acc.followVehicle (midDist - v.halfLen) v.vel vel }

/-- `src/vehicle.rs:268-270` -/
def applyCurrentSpeedLimit (v : Vehicle F) (speedLimit : F) : Vehicle F :=
  { v with acc := v.acc.applyCurrentSpeedLimit v.vel speedLimit }

/-- `src/vehicle.rs:273-276` -/
def applySpeedLimit (v : Vehicle F) (speedLimit pos : F) : Vehicle F :=
  { v with acc := v.acc.applySpeedLimit v.vel speedLimit (pos - v.pos) }

/-- `src/vehicle.rs:279-281` -/
def emergencyStop (v : Vehicle F) : Vehicle F := { v with acc := v.acc.emergencyStop }

/-- `src/vehicle.rs:284-291` -/
def project (v : Vehicle F) (p : LinkProjection F) : M (Obstacle F) :=
  p.project v.rearCoords (v.pos - v.halfLen) v.rearLats v.vel

/-- `src/vehicle.rs:295-300` -/
def offsetAt (v : Vehicle F) (pos : F) : F :=
  match v.laneChange with
  | some lc => if pos < lc.endPos then lc.offset.y pos else 0.0
  | none => 0.0

/-- `src/vehicle.rs:303-305` -/
def reset (v : Vehicle F) : Vehicle F := { v with acc := v.acc.reset }

/-- `src/vehicle.rs:341-347` -/
def updateStopCount (v : Vehicle F) : Vehicle F :=
  if v.vel < 0.1 then { v with stopCnt := v.stopCnt + 1 } else { v with stopCnt := 0 }

/-- The `match` of `src/vehicle.rs:313-325`; `seq` is the shared sequence number. -/
def integrateQueue (v : Vehicle F) (seq : Nat) : M (Vehicle F × Nat) :=
  match v.willQueueOrEnter with
  | 0 => pure ({ v with willQueueOrEnter := 0 }, seq)
  | 1 =>
    let seq := seq + 1
    pure ({ v with queued := some (v.queued.getD seq), willQueueOrEnter := 0 }, seq)
  | 2 => pure ({ v with entered := v.entered + 1, queued := none, willQueueOrEnter := 0 }, seq)
  | _ => throw .unreachable

/-- `src/vehicle.rs:327-337` -/
def integrateMotion (v : Vehicle F) (dt : F) : Vehicle F :=
  let vel := fmax (v.vel + dt * v.acc.getAcc) 0.0
  let pos := v.pos + 0.5 * (v.vel + vel) * dt
  let laneChange := match v.laneChange with
    | some lc => if pos < lc.endPos then some lc else none
    | none => none
  updateStopCount { v with vel, pos, laneChange }

/-- `src/vehicle.rs:311-338` -/
def integrate (v : Vehicle F) (dt : F) (seq : Nat) : M (Vehicle F × Nat) := do
  let (v, seq) ← v.integrateQueue seq
  pure (v.integrateMotion dt, seq)

/-- `src/vehicle.rs:356-374` -/
def advance [Env] (v : Vehicle F) (links : LinkSet F) : M (Vehicle F × Bool) :=
  match v.route with
  | [] => pure (v, false)
  | k :: rest => do
    let link ← getLink links k
    let length := link.length
    if length < v.pos then do
      let pathfind ← match rest with
        | k' :: _ => v.pathfind.setOrigin k' links
        | [] => pure v.pathfind
      if v.entered = 0 then throw .underflow
      let v := { v with
        route := rest
        pathfind
        entered := max (v.entered - 1) 1
        pos := v.pos - length
        laneChange := v.laneChange.map fun lc =>
          { endPos := lc.endPos - length, offset := lc.offset.translateX length } }
      pure (v, true)
    else pure (v, false)

/-- `src/vehicle.rs:378-391` -/
def setLocation [Env] (v : Vehicle F) (k : Key) (pos : F) (laneChange : Option (LaneChange F))
    (links : LinkSet F) : M (Vehicle F) := do
  let pathfind ← v.pathfind.setOrigin k links
  pure { v with route := [k], pathfind, entered := 1, pos, laneChange, canExit := false }

/-- `src/vehicle.rs:394-397` -/
def setDestination [Env] (v : Vehicle F) (k : Key) (links : LinkSet F) : M (Vehicle F) := do
  let pathfind ← v.pathfind.setDestination k links
  pure { v with pathfind, canExit := false }

/-- `src/vehicle.rs:400-402` -/
def destination (v : Vehicle F) : Key := v.pathfind.dst

/-- `src/vehicle.rs:421-433` -/
def evaluatePath (v : Vehicle F) (path : Path) (links : LinkSet F) : M Nat :=
  match v.route, path.links with
  | cur :: _, new :: _ =>
    if cur = new then pure (toUsize (1000.0 * path.dists.cost v.pos))
    else do
      let link ← getLink links cur
      let pos ← link.projectApprox new v.pos
      pure (toUsize (1000.0 * path.dists.cost pos + 5.0))
  | _, _ => throw .emptyRoute

/-- `min_by_key` of `src/vehicle.rs:415`: the first path of least key. -/
def minPath (v : Vehicle F) (links : LinkSet F) : List Path → Option (Path × Nat) →
    M (Option (Path × Nat))
  | [], best => pure best
  | p :: ps, best => do
    let c ← v.evaluatePath p links
    match best with
    | none => v.minPath links ps (some (p, c))
    | some (b, bc) => v.minPath links ps (if c < bc then some (p, c) else some (b, bc))

/-- `src/vehicle.rs:406-417` -/
def choosePath (v : Vehicle F) (links : LinkSet F) : M (Option Path) :=
  if v.laneChange.isSome then pure none
  else do
    match ← v.minPath links v.pathfind.paths none with
    | none => pure none
    | some (p, _) => if p.links = v.route then pure none else pure (some p)

/-- `src/vehicle.rs:438-443`: the length of the common prefix -/
def matchedPrefix : List Key → List Key → Nat
  | a :: as, b :: bs => if a = b then matchedPrefix as bs + 1 else 0
  | _, _ => 0

/-- `src/vehicle.rs:437-449` -/
def setPath (v : Vehicle F) (p : Path) : Vehicle F :=
  { v with
    route := p.links
    entered := min v.entered (matchedPrefix v.route p.links)
    canExit := p.canExit }

/-- `src/vehicle.rs:452-492` -/
def updateCoords (v : Vehicle F) (links : LinkSet F) : M (Vehicle F) :=
  match v.route with
  | [] => throw .emptyRoute
  | k :: _ => do
    let link ← getLink links k
    let sample ← link.curve.sampleCentre v.pos
    let (pos, offset) := match v.laneChange with
      | some lc =>
        let offset := lc.offset.y v.pos
        (sample.latOffset offset, offset)
      | none => (sample.pos, 0.0)
    let (worldPos, worldDir) :=
      if v.worldDir.beq V2.zero then (pos.sub sample.tan, sample.tan)
      else (v.worldPos, v.worldDir)
    let perp := rot90 sample.tan
    let dir := calcDirection worldPos worldDir pos v.wheelBase
    let expand := -(dir.dot perp) * v.halfLen
    let rearLats : Interval F :=
      ⟨fmin (expand + offset) 0.0 - v.halfWid, fmax (expand + offset) 0.0 + v.halfWid⟩
    let rearMid := sample.longOffset (-v.halfLen)
    pure { v with
      worldPos := pos
      worldDir := dir
      rearLats
      rearCoords := (rearMid.add (V2.smul rearLats.min perp), rearMid.add (V2.smul rearLats.max perp)) }

/-- `src/vehicle.rs:495-499` -/
def activateLinks (v : Vehicle F) (links : LinkSet F) : M (LinkSet F) :=
  (v.route.take v.entered).foldlM
    (fun links k => updLink links k fun l => { l with active := true }) links

/-- The closure of `src/vehicle.rs:503-507` -/
def isClear (v : Vehicle F) (o : Obstacle F) : Bool :=
  let offset := v.offsetAt (o.pos - v.halfLen)
  let distance := o.lat.distance offset
  decide (v.halfWid + lateralClearance < distance)

/-- The loop of `src/vehicle.rs:516-530` -/
def refineObstacle (curve : LinkCurve F) : Nat → Obstacle F → M (Obstacle F)
  | 0, _ => throw .diverges
  | fuel + 1, o => do
    let sample ← curve.sampleCentre o.pos
    let p0 := projectLocal o.rearCoords.1 sample.pos (rot90 sample.tan) sample.tan
    let p1 := projectLocal o.rearCoords.2 sample.pos (rot90 sample.tan) sample.tan
    let deltaPos := fmin p0.y p1.y
    let o := { o with pos := o.pos + deltaPos }
    if deltaPos < 0.1 then pure { o with lat := ⟨p0.x, p1.x⟩ }
    else refineObstacle curve fuel o

/-- `src/vehicle.rs:502-546` -/
def canPass [Env] (v : Vehicle F) (o : Obstacle F) (link : Link F) : M (ObstaclePassResult F) :=
  if v.isClear o then pure .pass
  else do
    let o ← refineObstacle link.curve Env.fuel o
    if v.isClear o then pure .pass
    else pure (.follow o.pos o.vel)

end Vehicle

end

end TrafficSim
