import Verif.Model.Link

/-! # `src/conflict.rs` -/

namespace TrafficSim

section
variable {F : Type} [Flt F]

/-- `src/conflict.rs:7` -/
def linkRadius : F := 1.8

namespace ConflictPointLink

/-- The loop of `src/conflict.rs:98-116`.  The range is `min_pos` and `max_pos`, which are always
set together. -/
def scan (own other : LinkCurve F) : Nat → F → Option F → Option (F × F) → M (Option (F × F))
  | 0, _, _, _ => throw .diverges
  | fuel + 1, ownPos, otherPos, range =>
    if ownPos < own.length then do
      let ownS ← own.sampleCentre ownPos
      let otherPos ← projectPointOntoCurve other.toCurve ownS.pos 0.1 otherPos
      let range ← match otherPos with
        | none => pure range
        | some p => do
          let otherS ← other.sampleCentre p
          let dist := ownS.pos.distance otherS.pos
          let dist := dist - linkRadius * fabs (ownS.tan.dot otherS.tan)
          if dist < linkRadius then
            pure (some (match range with
              | none => (ownPos - 0.25, ownPos + 0.25)
              | some (mn, _) => (mn, ownPos + 0.25)))
          else pure range
      scan own other fuel (ownPos + 0.25) otherPos range
    else pure range

/-- `src/conflict.rs:95-127` -/
def new [Env] (link other : Link F) : M (Option (ConflictPointLink F)) := do
  match ← scan link.curve other.curve Env.fuel 0.0 none none with
  | none => pure none
  | some (minPos, maxPos) => pure (some { linkId := link.id, minPos, maxPos })

/-- The closure of `src/conflict.rs:138-143`; the state is the buffer. -/
def findFn (c : ConflictPointLink F) (veh : RelVeh F) (out : List (RelVeh F)) :
    M (List (RelVeh F) × Bool) :=
  if veh.posRear < c.maxPos - c.minPos then pure (out ++ [veh], false) else pure (out, false)

/-- `src/conflict.rs:129-148` -/
def findVehicles [Env] (c : ConflictPointLink F) (net : Net F) (out : List (RelVeh F)) :
    M (List (RelVeh F)) := do
  let l ← getLink net.links c.linkId
  Link.processVehicles net c.findFn Env.fuel l (0, c.linkId) c.minPos 0 out

end ConflictPointLink

/-- Stable insertion in order of descending front position, used for `src/conflict.rs:78`. -/
def insertDesc (a : RelVeh F) : List (RelVeh F) → List (RelVeh F)
  | [] => [a]
  | b :: bs => if b.posFront ≤ a.posFront then a :: b :: bs else b :: insertDesc a bs

/-- Stable sort in order of descending front position (`src/conflict.rs:78`). -/
def sortDesc : List (RelVeh F) → List (RelVeh F)
  | [] => []
  | a :: as => insertDesc a (sortDesc as)

/-- `src/conflict.rs:78`.  Sorting at least two elements compares every element, so a NaN makes
`partial_cmp(..).unwrap()` panic. -/
def sortBuffer (buf : List (RelVeh F)) : M (List (RelVeh F)) :=
  if buf.length ≥ 2 ∧ buf.any (fun v => isNan v.posFront) then throw .nanCompare
  else pure (sortDesc buf)

namespace ConflictPoint

/-- The closure of `src/conflict.rs:42-46` -/
def tangentOf (l : Link F) (c : ConflictPointLink F) : M (V2 F) := do
  let p0 := (← l.curve.sampleCentre c.minPos).pos
  let p1 := (← l.curve.sampleCentre c.maxPos).pos
  pure (p1.sub p0).normalize

/-- `src/conflict.rs:38-53` -/
def new [Env] (a b : Link F) : M (Option (ConflictPoint F)) := do
  match ← ConflictPointLink.new a b with
  | none => pure none
  | some ca =>
    match ← ConflictPointLink.new b a with
    | none => pure none
    | some cb => do
      let ta ← tangentOf a ca
      let tb ← tangentOf b cb
      pure (some { link0 := ca, link1 := cb, sameDir := decide (0.25 < ta.dot tb) })

/-- `src/conflict.rs:55-67`, collected -/
def linkConflicts (c : ConflictPoint F) : List (Key × LinkConflict F) :=
  [(c.link0.linkId,
    { linkId := c.link1.linkId, ownMaxPos := c.link0.maxPos, minPos := c.link1.minPos,
      maxPos := c.link1.maxPos }),
   (c.link1.linkId,
    { linkId := c.link0.linkId, ownMaxPos := c.link1.maxPos, minPos := c.link0.minPos,
      maxPos := c.link0.maxPos })]

/-- The closure of `src/conflict.rs:80-90` on `windows(2)` -/
def applyWindows (sameDir : Bool) : List (RelVeh F) → VehicleSet F → VehicleSet F
  | leader :: follower :: rest, vs =>
    let vs :=
      if leader.linkId 0 ≠ follower.linkId 0 then
        if sameDir && decide (0.0 < leader.posRear) then
          follower.followObstacle leader.vehicle.rearCoords leader.vehicle.vel vs
        else follower.stopAtLine 0.0 vs
      else vs
    applyWindows sameDir (follower :: rest) vs
  | _, vs => vs

/-- `src/conflict.rs:69-91` -/
def applyAccelerations [Env] (c : ConflictPoint F) (links : LinkSet F) (vs : VehicleSet F) :
    M (VehicleSet F) := do
  let buf0 ← c.link0.findVehicles ⟨links, vs⟩ []
  if buf0.length = 0 then pure vs
  else do
    let buf1 ← c.link1.findVehicles ⟨links, vs⟩ buf0
    if buf1.length = buf0.length then pure vs
    else do
      let buf ← sortBuffer buf1
      pure (applyWindows c.sameDir buf vs)

end ConflictPoint

end

end TrafficSim
