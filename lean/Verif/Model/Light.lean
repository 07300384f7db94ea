import Verif.Model.Util

/-! # `src/light.rs` and the type `TrafficControl` of `src/link.rs` -/

namespace TrafficSim

/-- `src/link.rs:64-78` -/
inductive TrafficControl (F : Type)
  | open_
  | yield_ (distance : F) (mustStop : Bool) (priority : Int)
  | closed

/-- `src/light.rs:39-46` -/
inductive LightState
  | red
  | amber
  | green
  deriving DecidableEq, Repr

/-- `src/light.rs:19-35`.  `conflict` is a `u64`; only its bits 0 to 63 are ever read. -/
structure Movement (F : Type) where
  state : LightState
  nextState : LightState
  active : Bool
  since : F
  amberTime : F
  redTime : F
  conflict : Nat

/-- `src/light.rs:50-55`.  `mask` is a `u64`; only its bits 0 to 63 are ever read. -/
structure Phase (F : Type) where
  mask : Nat
  duration : F

/-- `src/light.rs:6-15` -/
structure TrafficLight (F : Type) where
  movements : List (Movement F)
  links : List (Nat × Key)
  phases : List (Phase F)
  phase : Nat

section
variable {F : Type} [Flt F]

/-- `mask & (1 << idx) != 0` and `(mask >> idx) & 1 != 0` on `u64`
(`src/light.rs:135`, `:147`, `:165-168`) -/
def maskBit (mask idx : Nat) : M Bool :=
  if idx ≥ 64 then throw .shiftOverflow else pure (mask.testBit idx)

namespace TrafficLight

/-- `src/light.rs:59-61` -/
def new : TrafficLight F := ⟨[], [], [], 0⟩

/-- `src/light.rs:70-88`; the index is truncated to `u8`. -/
def addMovement (tl : TrafficLight F) (conflict : Nat) (amberTime redTime : F) (links : List Key) :
    TrafficLight F :=
  let idx := tl.movements.length % 256
  { tl with
    movements := tl.movements ++
      [{ state := .red, nextState := .red, active := false, since := 0.0, amberTime, redTime,
         conflict }]
    links := tl.links ++ links.map fun l => (idx, l) }

/-- `src/light.rs:91-93` -/
def addPhase (tl : TrafficLight F) (mask : Nat) (duration : F) : TrafficLight F :=
  { tl with phases := tl.phases ++ [⟨mask, duration⟩] }

/-- `src/light.rs:96-98` -/
def state (tl : TrafficLight F) : List (Nat × LightState) :=
  (tl.movements.map (·.state)).zipIdx.map fun p => (p.2, p.1)

/-- The iterator chain of `src/light.rs:131-136`, from movement index `i`; short-circuits. -/
def phaseComplete (mask : Nat) (duration : F) : Nat → List (Movement F) → M Bool
  | _, [] => pure true
  | i, m :: ms => do
    if ← maskBit mask i then
      if m.state = .green ∧ duration ≤ m.since then phaseComplete mask duration (i + 1) ms
      else pure false
    else phaseComplete mask duration (i + 1) ms

/-- `src/light.rs:125-141` -/
def updatePhase (tl : TrafficLight F) : M (TrafficLight F) :=
  if tl.phases.isEmpty then pure tl
  else
    match tl.phases[tl.phase]? with
    | none => throw .noPhase
    | some ph => do
      if ← phaseComplete ph.mask ph.duration 0 tl.movements then
        pure { tl with phase := (tl.phase + 1) % tl.phases.length }
      else pure tl

/-- The loop of `src/light.rs:146-148`, from movement index `i` -/
def applyMask (mask : Nat) : Nat → List (Movement F) → M (List (Movement F))
  | _, [] => pure []
  | i, m :: ms => do
    let b ← maskBit mask i
    let rest ← applyMask mask (i + 1) ms
    pure ({ m with active := b } :: rest)

/-- `src/light.rs:144-149` -/
def applyPhase (tl : TrafficLight F) : M (TrafficLight F) :=
  match tl.phases[tl.phase]? with
  | none => throw .noPhase
  | some ph => do
    let ms ← applyMask ph.mask 0 tl.movements
    pure { tl with movements := ms }

/-- `src/light.rs:164-170` -/
def canTurnGreen (movements : List (Movement F)) (i : Nat) : M Bool :=
  if i ≥ 64 then throw .shiftOverflow
  else pure <| (movements.filter fun other => other.conflict.testBit i).all fun other =>
    decide (other.state = .red) && decide (other.redTime < other.since)

/-- The `match` of `src/light.rs:108-114` for movement `m` at index `i` -/
def nextOf (movements : List (Movement F)) (i : Nat) (m : Movement F) : M LightState :=
  match m.active, m.state with
  | false, .green => pure .amber
  | false, .amber => if m.amberTime ≤ m.since then pure .red else pure .amber
  | true, .amber => pure .green
  | true, .red => do if ← canTurnGreen movements i then pure .green else pure .red
  | _, s => pure s

/-- The loop of `src/light.rs:106-116`, from movement index `i`; `all` is the whole list. -/
def computeNext (all : List (Movement F)) : Nat → List (Movement F) → M (List (Movement F))
  | _, [] => pure []
  | i, m :: ms => do
    let s ← nextOf all i m
    let rest ← computeNext all (i + 1) ms
    pure ({ m with nextState := s } :: rest)

/-- `Movement::step`, `src/light.rs:174-181` -/
def stepMovement (dt : F) (m : Movement F) : Movement F :=
  if m.nextState ≠ m.state then { m with state := m.nextState, since := dt }
  else { m with since := m.since + dt }

/-- `src/light.rs:101-122` -/
def step (tl : TrafficLight F) (dt : F) : M (TrafficLight F) := do
  let tl ← tl.updatePhase
  let tl ← tl.applyPhase
  let ms ← computeNext tl.movements 0 tl.movements
  pure { tl with movements := ms.map (stepMovement dt) }

/-- The `match` of `src/light.rs:154-158` -/
def controlOf : LightState → TrafficControl F
  | .red => .closed
  | .amber => .closed
  | .green => .open_

/-- The iterator of `src/light.rs:152-161`, collected -/
def getStates (tl : TrafficLight F) : M (List (Key × TrafficControl F)) :=
  tl.links.mapM fun (idx, link) =>
    match tl.movements[idx]? with
    | some m => pure (link, controlOf m.state)
    | none => throw .outOfBounds

end TrafficLight

end

end TrafficSim
