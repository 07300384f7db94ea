import Verif.Model.Vehicle

/-! # `src/link.rs` -/

namespace TrafficSim

/-- The two collections that a step works on. -/
structure Net (F : Type) where
  links : LinkSet F
  vehicles : VehicleSet F

/-- `src/link.rs:566-571`.  The reference to the vehicle is its key together with a snapshot of it:
during a traversal only the `Cell` fields of vehicles and links change (`acc`,
`will_queue_or_enter`, `last_conflict`), and nothing that is read through the reference depends on
them. -/
structure RelVeh (F : Type) where
  key : Key
  vehicle : Vehicle F
  routeIdx : Nat
  pos : F

section
variable {F : Type} [Flt F]

/-- `src/link.rs:18` -/
def maxLookahead : F := 5.0
/-- `src/link.rs:21` -/
def gapBuffer : F := 0.5

namespace RelVeh

/-- `src/link.rs:574-580` -/
def offset (r : RelVeh F) (o : F) : RelVeh F :=
  { r with pos := r.pos + o, routeIdx := r.routeIdx + 1 }
/-- `src/link.rs:582-584` -/
def posFront (r : RelVeh F) : F := r.vehicle.posFront - r.pos
/-- `src/link.rs:586-588` -/
def posRear (r : RelVeh F) : F := r.vehicle.posRear - r.pos
/-- `src/link.rs:590-592` -/
def canStop (r : RelVeh F) (pos : F) : Bool := r.vehicle.canStop (r.pos + pos)
/-- `src/link.rs:606-608` -/
def minReachTime (r : RelVeh F) (pos maxVel : F) : F := r.vehicle.minReachTime (r.pos + pos) maxVel
/-- `src/link.rs:634-636` -/
def getRoute (r : RelVeh F) (idx : Nat) : Option (Key × RouteState) :=
  r.vehicle.getRoute (r.routeIdx + idx)
/-- `src/link.rs:642-644` -/
def linkId (r : RelVeh F) (idx : Nat) : Option Key := (r.getRoute idx).map (·.1)

/-- `src/link.rs:610-612`, as an update of the vehicle -/
def applySpeedLimit (r : RelVeh F) (speedLimit pos : F) (vs : VehicleSet F) : VehicleSet F :=
  vs.modify r.key fun v => v.applySpeedLimit speedLimit (r.pos + pos)
/-- `src/link.rs:614-616`, as an update of the vehicle -/
def followVehicle (r : RelVeh F) (pos vel : F) (vs : VehicleSet F) : VehicleSet F :=
  vs.modify r.key fun v => v.followVehicle (r.pos + pos) vel
/-- `src/link.rs:618-620`, as an update of the vehicle -/
def stopAtLine (r : RelVeh F) (pos : F) (vs : VehicleSet F) : VehicleSet F :=
  vs.modify r.key fun v => v.stopAtLine (r.pos + pos)
/-- `src/link.rs:622-624`, as an update of the vehicle -/
def followObstacle (r : RelVeh F) (coords : V2 F × V2 F) (vel : F) (vs : VehicleSet F) :
    VehicleSet F :=
  vs.modify r.key fun v => v.followObstacle coords vel
/-- `src/link.rs:626-628`, as an update of the vehicle -/
def enterLink (r : RelVeh F) (vs : VehicleSet F) : VehicleSet F :=
  vs.modify r.key fun v => v.enterLink
/-- `src/link.rs:630-632`, as an update of the vehicle -/
def queueLink (r : RelVeh F) (vs : VehicleSet F) : VehicleSet F :=
  vs.modify r.key fun v => v.queueLink

end RelVeh

namespace Link

/-- `src/link.rs:82-100` -/
def new [Env] (id : Key) (a : LinkAttributes F) : M (Link F) := do
  let curve ← LinkCurve.new Env.fuel a.curve
  pure {
    id, curve, group := none, linksIn := [], linksOut := [], laneChanges := [], conflicts := []
    lastConflict := 0, speedLimit := a.speedLimit
    cost := toUsize (10.0 * curve.length / a.speedLimit)
    vehicles := [], control := .open_, active := false }

/-- The position computed in `src/link.rs:214-219`: the number of leading vehicles that are not
ahead of `pos`. -/
def insertIdx (vs : VehicleSet F) (pos : F) : List Key → M Nat
  | [] => pure 0
  | k :: ks => do
    let v ← getVeh vs k
    if pos < v.pos then pure 0
    else do
      let i ← insertIdx vs pos ks
      pure (i + 1)

/-- `src/link.rs:212-221` -/
def insertVehicle (l : Link F) (vs : VehicleSet F) (id : Key) : M (Link F) := do
  let v ← getVeh vs id
  let idx ← insertIdx vs v.pos l.vehicles
  pure { l with vehicles := l.vehicles.insertIdx idx id }

/-- `src/link.rs:224-228`: removes the last occurrence -/
def removeVehicle (l : Link F) (id : Key) : Link F :=
  { l with vehicles := (l.vehicles.reverse.erase id).reverse }

/-- The loop of `src/link.rs:514-542` over the vehicles in the order visited.  The result is the
callback's state and whether to go on to the preceding links (`true`). -/
def processList {σ : Type} (vs : VehicleSet F) (f : RelVeh F → σ → M (σ × Bool))
    (route : Nat × Key) (pos minPos length : F) : List Key → σ → M (σ × Bool)
  | [], s => pure (s, true)
  | k :: ks, s => do
    let v ← getVeh vs k
    if v.posFront < minPos then pure (s, false)
    else
      match v.getRoute route.1 with
      | none => processList vs f route pos minPos length ks s
      | some (k', st) =>
        if k' ≠ route.2 then processList vs f route pos minPos length ks s
        else if st ≠ .entered ∧ length < pos then pure (s, false)
        else do
          let (s, brk) ← f { key := k, vehicle := v, routeIdx := route.1, pos } s
          if brk then pure (s, false)
          else processList vs f route pos minPos length ks s

/-- `src/link.rs:497-555`.  The callback returns its new state and `true` for
`ControlFlow::Break`. -/
def processVehicles {σ : Type} (net : Net F) (f : RelVeh F → σ → M (σ × Bool)) :
    Nat → Link F → Nat × Key → F → Nat → σ → M σ
  | 0, _, _, _, _, _ => throw .diverges
  | fuel + 1, l, route, pos, skip, s =>
    if ¬ l.active then pure s
    else do
      let minPos := pos - maxLookahead * l.speedLimit
      let (s, cont) ←
        processList net.vehicles f route pos minPos l.length (l.vehicles.reverse.drop skip) s
      if ¬ cont then pure s
      else if 0.0 ≤ minPos then pure s
      else
        l.linksIn.foldlM (fun s k => do
          let link ← getLink net.links k
          processVehicles net f fuel link (route.1 + 1, route.2) (pos + link.length) 0 s) s

/-- The loop of `src/link.rs:360-379` over the vehicles left after `skip_while`.  `none` means that
no vehicle decided the question. -/
def checkGapList (vs : VehicleSet F) (pos0 time : F) (queuedAt : Option Nat) (route : Nat × Key)
    (maxVel : F) : List Key → M (Option Bool)
  | [] => pure none
  | k :: ks => do
    let v ← getVeh vs k
    match v.getRoute route.1, queuedAt with
    | none, _ => checkGapList vs pos0 time queuedAt route maxVel ks
    | some (k', st), q =>
      if k' ≠ route.2 then checkGapList vs pos0 time queuedAt route maxVel ks
      else
        match st, q with
        | .notEntered, some _ => pure (some true)
        | .queuedAt a, some b =>
          if b < a then pure (some true)
          else pure (some (decide (time < v.minReachTime pos0 maxVel)))
        | _, _ => pure (some (decide (time < v.minReachTime pos0 maxVel)))

/-- The `skip_while` of `src/link.rs:365` -/
def skipAhead (vs : VehicleSet F) (pos1 : F) : List Key → M (List Key)
  | [] => pure []
  | k :: ks => do
    let v ← getVeh vs k
    if pos1 < v.posRear then skipAhead vs pos1 ks else pure (k :: ks)

/-- `Iterator::all` with a predicate that may fail; stops at the first `false`. -/
def allM {α : Type} (f : α → M Bool) : List α → M Bool
  | [] => pure true
  | a :: as => do if ← f a then allM f as else pure false

/-- `src/link.rs:348-391` -/
def checkGap (net : Net F) (time : F) (queuedAt : Option Nat) :
    Nat → Link F → F × F → Nat × Key → F → M Bool
  | 0, _, _, _, _ => throw .diverges
  | fuel + 1, l, pos, route, maxVel => do
    let maxVel := fmax maxVel l.speedLimit
    let vehs ← skipAhead net.vehicles pos.2 l.vehicles.reverse
    match ← checkGapList net.vehicles pos.1 time queuedAt route maxVel vehs with
    | some b => pure b
    | none =>
      if time < pos.1 / maxVel then pure true
      else
        allM (fun k => do
          let link ← getLink net.links k
          checkGap net time queuedAt fuel link (pos.1 + link.length, pos.2 + link.length)
            (route.1 + 1, route.2) maxVel) l.linksIn

/-- The `match` of `src/link.rs:319-327` -/
def gapPriority (control : TrafficControl F) (queuedAt : Nat) (priority : Int) : Option Nat :=
  match control with
  | .open_ => none
  | .yield_ _ _ p2 =>
    if priority < p2 then none else if priority = p2 then some queuedAt else some 0
  | .closed => some 0

/-- The loop of `src/link.rs:316-342`.  `some idx` is the conflict without a sufficient gap. -/
def canEnterLoop [Env] (net : Net F) (l : Link F) (veh : RelVeh F) (queuedAt : Nat)
    (priority : Int) : List Nat → M (Option Nat)
  | [] => pure none
  | idx :: rest =>
    match l.conflicts[idx]? with
    | none => throw .outOfBounds
    | some conflict => do
      let link ← getLink net.links conflict.linkId
      let q := gapPriority link.control queuedAt priority
      let hasGap ← checkGap net (veh.minReachTime conflict.ownMaxPos l.speedLimit + gapBuffer) q
        Env.fuel link (conflict.minPos, conflict.maxPos) (0, conflict.linkId) 0.0
      if hasGap then canEnterLoop net l veh queuedAt priority rest else pure (some idx)

/-- `src/link.rs:308-344`; `last` is the value of `last_conflict`. The result is whether the vehicle
can enter and the new value of `last_conflict`. -/
def canEnter [Env] (net : Net F) (l : Link F) (last : Nat) (veh : RelVeh F) (queuedAt : Nat)
    (priority : Int) : M (Bool × Nat) := do
  match ← canEnterLoop net l veh queuedAt priority (rotatedRange l.conflicts.length last) with
  | none => pure (true, last)
  | some idx => pure (false, idx)

/-- The closure of `src/link.rs:240-300`.  `net` is the state before the traversal, from which only
fields that the traversal does not change are read, except that `last_conflict` is read from the
current state. -/
def stoplineFn [Env] (net : Net F) (self : Link F) (veh : RelVeh F) (s : Net F) :
    M (Net F × Bool) :=
  match veh.getRoute 1 with
  | some (_, .entered) => pure (s, false)
  | some (k, state) => do
    let next ← getLink net.links k
    match next.control with
    | .open_ =>
      if ¬ veh.canStop (-5.0) then pure ({ s with vehicles := veh.enterLink s.vehicles }, false)
      else pure (s, true)
    | .yield_ distance mustStop priority =>
      match state with
      | .notEntered =>
        let closeEnough : Bool := decide (-distance < veh.posFront)
        let stopped := !mustStop || veh.vehicle.hasStopped
        let vs := if closeEnough && stopped then veh.queueLink s.vehicles else s.vehicles
        pure ({ s with vehicles := veh.stopAtLine 0.0 vs }, true)
      | .queuedAt frame => do
        let cur ← getLink s.links k
        let (ok, last) ← canEnter net next cur.lastConflict (veh.offset self.length) frame priority
        let links := s.links.modify k fun l => { l with lastConflict := last }
        if ok then pure ({ links, vehicles := veh.enterLink s.vehicles }, false)
        else pure ({ links, vehicles := veh.stopAtLine 0.0 s.vehicles }, true)
      | .entered => throw .unreachable
    | .closed => pure ({ s with vehicles := veh.stopAtLine 0.0 s.vehicles }, true)
  | none =>
    if veh.vehicle.canExit then pure (s, false)
    else pure ({ s with vehicles := veh.stopAtLine 0.0 s.vehicles }, true)

/-- `src/link.rs:236-305` for the link with key `k` -/
def applyStoplines [Env] (net : Net F) (k : Key) : M (Net F) := do
  let l ← getLink net.links k
  processVehicles net (stoplineFn net l) Env.fuel l (0, l.id) l.length 0 net

/-- The loop of `src/link.rs:396-403`: `windows(2)` and the last vehicle -/
def followWindows (speedLimit : F) : List Key → VehicleSet F → M (VehicleSet F)
  | [], vs => pure vs
  | [k], vs => updVeh vs k fun v => v.applyCurrentSpeedLimit speedLimit
  | follower :: leader :: rest, vs => do
    let ld ← getVeh vs leader
    let vs ← updVeh vs follower fun v =>
      (v.followVehicle ld.posRear ld.vel).applyCurrentSpeedLimit speedLimit
    followWindows speedLimit (leader :: rest) vs

/-- The closure of `src/link.rs:409-415` -/
def enteringFn (l : Link F) (veh : RelVeh F) (vs : VehicleSet F) : M (VehicleSet F × Bool) := do
  let vs := veh.applySpeedLimit l.speedLimit 0.0 vs
  match l.vehicles with
  | [] => pure (vs, true)
  | k :: _ => do
    let leader ← getVeh vs k
    pure (veh.followVehicle leader.posRear leader.vel vs, true)

/-- `position` of `src/link.rs:454`: the index of the first vehicle behind `pos` -/
def firstBehind (vs : VehicleSet F) (pos : F) : List Key → M (Option Nat)
  | [] => pure none
  | k :: ks => do
    let v ← getVeh vs k
    if v.pos < pos then pure (some 0)
    else do
      match ← firstBehind vs pos ks with
      | some i => pure (some (i + 1))
      | none => pure none

/-- The closure of `src/link.rs:462-468` -/
def obstacleFn [Env] (l : Link F) (o : Obstacle F) (veh : RelVeh F) (vs : VehicleSet F) :
    M (VehicleSet F × Bool) := do
  match ← veh.vehicle.canPass o l with
  | .pass => pure (vs, false)
  | .follow pos vel => pure (veh.followVehicle (pos - o.pos) vel vs, true)

/-- One iteration of the loop of `src/link.rs:447-473`.  `links` does not change. -/
def followObstacle [Env] (links : LinkSet F) (l : Link F) (o : Obstacle F)
    (s : VehicleSet F × Nat) : M (VehicleSet F × Nat) := do
  let skip ← match ← firstBehind s.1 o.pos (l.vehicles.reverse.drop s.2) with
    | some cnt => pure (s.2 + cnt)
    | none => pure l.vehicles.length
  let vs ← processVehicles ⟨links, s.1⟩ (obstacleFn l o) Env.fuel l (0, l.id) o.pos skip s.1
  pure (vs, skip)

/-- `src/link.rs:437-474` together with the iterator of `src/link.rs:424-428`: the obstacles are the
projections of the vehicles `ks`, computed one by one. -/
def followObstacles [Env] (links : LinkSet F) (proj : LinkProjection F) (l : Link F) :
    List Key → VehicleSet F × Nat → M (VehicleSet F × Nat)
  | [], s => pure s
  | k :: ks, s => do
    let v ← getVeh s.1 k
    let o ← v.project proj
    let s ← followObstacle links l o s
    followObstacles links proj l ks s

/-- One iteration of the loop of `src/link.rs:423-430` -/
def applyProjection [Env] (links : LinkSet F) (l : Link F) (vs : VehicleSet F)
    (proj : LinkProjection F) : M (VehicleSet F) := do
  let other ← getLink links proj.dst
  let (vs, _) ← followObstacles links proj other l.vehicles.reverse (vs, 0)
  pure vs

/-- `src/link.rs:394-432` for the link with key `k`; only vehicles change. -/
def applyAccelerations [Env] (links : LinkSet F) (vs : VehicleSet F) (k : Key) :
    M (VehicleSet F) := do
  let l ← getLink links k
  let vs ← followWindows l.speedLimit l.vehicles vs
  let vs ← processVehicles ⟨links, vs⟩ (enteringFn l) Env.fuel l (0, l.id) 0.0 l.vehicles.length vs
  match l.group with
  | none => pure vs
  | some g => do
    let projs ← g.projectionsFromLink l.id
    projs.foldlM (applyProjection links l) vs

/-- `src/link.rs:196-209` (not used by the crate) -/
def canInsertVehicle (vs : VehicleSet F) (pos len : F) : List Key → M Bool
  | [] => pure true
  | k :: ks => do
    let other ← getVeh vs k
    let gap := other.pos - pos
    let needed := 0.5 * (len + other.length)
    if fabs gap < needed then pure false
    else if 0.0 < gap then pure true
    else canInsertVehicle vs pos len ks

end Link

end

end TrafficSim
