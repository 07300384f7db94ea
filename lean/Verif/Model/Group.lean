import Verif.Model.Types

/-! # `src/group.rs` -/

namespace TrafficSim

section
variable {F : Type} [Flt F]

/-- The sampling pipeline of `src/group.rs:57-70`, from sample index `i`; `prev` is the state of the
`scan`. -/
def projectionSamples (src dst : LinkCurve F) : Nat → Nat → F → M (List (ProjectedSample F))
  | 0, _, _ => throw .diverges
  | fuel + 1, i, prev =>
    let pos := 2.0 * Flt.ofNat i
    if pos < src.length then do
      let point := (← src.sampleCentre pos).pos
      match ← projectPointOntoCurve dst.toCurve point 0.1 (some prev) with
      | none => pure []
      | some pos => do
        let s ← dst.sampleCentre pos
        let lat := (point.sub s.pos).dot (rot90 s.tan)
        let rest ← projectionSamples src dst fuel (i + 1) pos
        pure (⟨pos, lat⟩ :: rest)
    else pure []

/-- One element of `src/group.rs:54-71` -/
def mkProjection [Env] (src dst : Link F) : M (LinkProjection F) := do
  let samples ← projectionSamples src.curve dst.curve Env.fuel 0 0.0
  pure { dst := dst.id, invSegmentLen := 1.0 / 2.0, samples }

/-- The pairs of `src/group.rs:52-53` -/
def projectionPairs (links : List (Link F)) : List (Link F × Link F) :=
  (links.flatMap fun src => links.map fun dst => (src, dst)).filter fun p =>
    decide (p.1.id ≠ p.2.id)

namespace LinkGroup

/-- `src/group.rs:45-79` -/
def new [Env] (links : List (Link F)) (lcMask : Nat) : M (LinkGroup F) :=
  if links.length < 2 then throw .groupTooSmall
  else do
    let projections ← (projectionPairs links).mapM fun p => mkProjection p.1 p.2
    pure { links := links.map (·.id), projections, lcMask }

/-- `src/group.rs:99-101` -/
def findLink (g : LinkGroup F) (k : Key) : Option Nat := g.links.findIdx? (fun id => id == k)

/-- `src/group.rs:85-89` -/
def projectionsFromLink (g : LinkGroup F) (src : Key) : M (List (LinkProjection F)) :=
  match g.findLink src with
  | none => throw .notInGroup
  | some idx =>
    if g.links.length = 0 then throw .underflow
    else
      let n := g.links.length - 1
      if n * (idx + 1) ≤ g.projections.length then
        pure ((g.projections.take (n * (idx + 1))).drop (n * idx))
      else throw .outOfBounds

/-- `src/group.rs:91-96` -/
def projection (g : LinkGroup F) (src dst : Key) : M (LinkProjection F) :=
  match g.findLink src with
  | none => throw .notInGroup
  | some srcIdx =>
    match g.findLink dst with
    | none => throw .notInGroup
    | some dstIdx =>
      if g.links.length = 0 then throw .underflow
      else
        let n := g.links.length - 1
        match g.projections[n * srcIdx + dstIdx]? with
        | some p => pure p
        | none => throw .outOfBounds

/-- `src/group.rs:145-152` -/
def lcBit (g : LinkGroup F) (idx : Nat) (dir : Direction) : M Bool :=
  let bit := 2 * idx + match dir with
    | .left => 0
    | .right => 1
  if bit ≥ 32 then throw .shiftOverflow else pure (g.lcMask.testBit bit)

/-- The loop of `src/group.rs:107-109` -/
def goLeft (g : LinkGroup F) : Nat → M Nat
  | 0 => pure 0
  | left + 1 => do if ← g.lcBit (left + 1) .left then g.goLeft left else pure (left + 1)

/-- The loop of `src/group.rs:111-113`; `n` is the number of lanes to the right of `right`. -/
def goRight (g : LinkGroup F) : Nat → Nat → M Nat
  | 0, right => pure right
  | n + 1, right => do if ← g.lcBit right .right then g.goRight n (right + 1) else pure right

/-- The loop of `src/group.rs:121-123` -/
def fromLeft (g : LinkGroup F) : Nat → M Nat
  | 0 => pure 0
  | left + 1 => do if ← g.lcBit left .right then g.fromLeft left else pure (left + 1)

/-- The loop of `src/group.rs:125-127`; `n` is the number of lanes to the right of `right`. -/
def fromRight (g : LinkGroup F) : Nat → Nat → M Nat
  | 0, right => pure right
  | n + 1, right => do if ← g.lcBit (right + 1) .left then g.fromRight n (right + 1) else pure right

/-- `&self.links[left..=right]` -/
def slice (g : LinkGroup F) (left right : Nat) : M (List Key) :=
  if left ≤ right + 1 ∧ right + 1 ≤ g.links.length then
    pure ((g.links.take (right + 1)).drop left)
  else throw .outOfBounds

/-- `src/group.rs:105-115` -/
def reachableLanes (g : LinkGroup F) (src : Nat) : M (List Key) := do
  let left ← g.goLeft src
  if g.links.length = 0 then throw .underflow
  let right ← g.goRight (g.links.length - 1 - src) src
  g.slice left right

/-- `src/group.rs:119-129` -/
def reachableFromLanes (g : LinkGroup F) (dst : Nat) : M (List Key) := do
  let left ← g.fromLeft dst
  if g.links.length = 0 then throw .underflow
  let right ← g.fromRight (g.links.length - 1 - dst) dst
  g.slice left right

/-- Filter-map over lane indices: the pairs `(links[idx], links[f idx])` for the `idx` whose lane
change bit is set (`src/group.rs:133-139`). -/
def lanePairs (g : LinkGroup F) (dir : Direction) (target : Nat → Nat) :
    List Nat → M (List (Key × Key))
  | [] => pure []
  | idx :: rest => do
    if ← g.lcBit idx dir then
      match g.links[idx]?, g.links[target idx]? with
      | some a, some b => do
        let ps ← g.lanePairs dir target rest
        pure ((a, b) :: ps)
      | _, _ => throw .outOfBounds
    else g.lanePairs dir target rest

/-- `src/group.rs:132-141`, collected -/
def laneChanges (g : LinkGroup F) : M (List (Key × Key)) :=
  if g.links.length = 0 then throw .underflow
  else do
    let right ← g.lanePairs .right (· + 1) (List.range (g.links.length - 1)).reverse
    let left ← g.lanePairs .left (· - 1) ((List.range (g.links.length - 1)).map (· + 1))
    pure (right ++ left)

end LinkGroup

namespace LinkProjection

/-- `src/group.rs:182-191`.  The `get_unchecked` is modelled as a checked access. -/
def sample (p : LinkProjection F) (pos : F) : M (ProjectedSample F) :=
  if p.samples.length = 0 then throw .emptySamples
  else
    let idx := min (toUsize (pos * p.invSegmentLen)) (p.samples.length - 1)
    match p.samples[idx]? with
    | some s => pure s
    | none => throw .outOfBounds

/-- `src/group.rs:160-176` -/
def project (p : LinkProjection F) (rearCoords : V2 F × V2 F) (pos : F) (lat : Interval F) (vel : F) :
    M (Obstacle F) := do
  let sample ← p.sample pos
  let behind := fmin pos 0.0
  pure { rearCoords, pos := sample.pos + behind, lat := lat.add sample.lat, vel }

/-- `src/group.rs:178-180` -/
def projectApprox (p : LinkProjection F) (pos : F) : M F := do
  let s ← p.sample pos
  pure s.pos

end LinkProjection

namespace Link

/-- `src/link.rs:143-151` -/
def reachableLanes (l : Link F) : M (List Key) :=
  match l.group with
  | some g =>
    match g.findLink l.id with
    | some src => g.reachableLanes src
    | none => throw .notInGroup
  | none => pure [l.id]

/-- `src/link.rs:154-162` -/
def reachableFromLanes (l : Link F) : M (List Key) :=
  match l.group with
  | some g =>
    match g.findLink l.id with
    | some src => g.reachableFromLanes src
    | none => throw .notInGroup
  | none => pure [l.id]

/-- `src/link.rs:557-563` -/
def projectApprox (l : Link F) (dst : Key) (pos : F) : M F :=
  match l.group with
  | some g => do
    let p ← g.projection l.id dst
    p.projectApprox pos
  | none => throw .noGroup

end Link

end

end TrafficSim
