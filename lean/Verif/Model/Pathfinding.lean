import Verif.Model.Group

/-! # `src/vehicle/pathfinding.rs` -/

namespace TrafficSim

/-- `u32::saturating_add` -/
def satAdd (a b : Nat) : Nat := min (a + b) u32Max

namespace LaneDists

/-- `Self(self.0.map(f))` -/
def map (f : Nat → Nat) (d : LaneDists) : LaneDists := ⟨f d.d0, f d.d1, f d.d2, f d.d3⟩

/-- `src/vehicle/pathfinding.rs:189-191` -/
def exit : LaneDists := ⟨u32Max, u32Max, u32Max, u32Max⟩

/-- `src/vehicle/pathfinding.rs:199-201` -/
def shift (d : LaneDists) : LaneDists := ⟨0, d.d0, d.d1, d.d2⟩

/-- `src/vehicle/pathfinding.rs:204-206` -/
def combine (a b : LaneDists) : LaneDists :=
  ⟨max a.d0 b.d0, max a.d1 b.d1, max a.d2 b.d2, max a.d3 b.d3⟩

section
variable {F : Type} [Flt F]

/-- `src/vehicle/pathfinding.rs:219-221` -/
def makeDist (dist : F) : Nat := toU32 (10.0 * dist)

/-- `src/vehicle/pathfinding.rs:185-187` -/
def dead (dist : F) : LaneDists :=
  let d := makeDist dist
  ⟨d, d, d, d⟩

/-- `src/vehicle/pathfinding.rs:194-196` -/
def offset (d : LaneDists) (distance : F) : LaneDists := d.map fun x => satAdd x (makeDist distance)

/-- One term of `src/vehicle/pathfinding.rs:212-214`: `(idx + 1) / (0.1 * dist - pos)` -/
def costTerm (idx dist : Nat) (pos : F) : F := Flt.ofNat (idx + 1) / ((0.1 * Flt.ofNat dist) - pos)

/-- `src/vehicle/pathfinding.rs:209-217` -/
def cost (d : LaneDists) (pos : F) : F :=
  fmax (fmax (fmax (costTerm 0 d.d0 pos) (costTerm 1 d.d1 pos)) (costTerm 2 d.d2 pos))
    (costTerm 3 d.d3 pos)

end

end LaneDists

/-- `SparseSecondaryMap::get` -/
def mget (m : List (Key × LaneDists)) (k : Key) : Option LaneDists := m.lookup k

/-- `SparseSecondaryMap::insert` -/
def minsert (m : List (Key × LaneDists)) (k : Key) (d : LaneDists) : List (Key × LaneDists) :=
  match m with
  | [] => [(k, d)]
  | (k', d') :: m => if k' = k then (k, d) :: m else (k', d') :: minsert m k d

section
variable {F : Type} [Flt F]

/-- The inner iterator of `src/vehicle/pathfinding.rs:175-178` -/
def laneSuccessors (links : LinkSet F) : List Key → M (List (Key × Nat))
  | [] => pure []
  | k :: ks => do
    let link ← getLink links k
    let rest ← laneSuccessors links ks
    pure (link.linksOut.map (fun id => (id, link.cost)) ++ rest)

/-- `src/vehicle/pathfinding.rs:173-179`, collected -/
def successors (links : LinkSet F) (k : Key) : M (List (Key × Nat)) := do
  let link ← getLink links k
  let lanes ← link.reachableLanes
  laneSuccessors links lanes

/-- One iteration of the loop of `src/vehicle/pathfinding.rs:87-99` -/
def propagateBack (links : LinkSet F) (matrix : List (Key × LaneDists)) (k : Key) :
    M (List (Key × LaneDists)) := do
  let link ← getLink links k
  match link.linksOut.filterMap (mget matrix) with
  | [] => pure matrix
  | d :: ds => pure (minsert matrix k ((ds.foldl LaneDists.combine d).offset link.length))

/-- One iteration of the loop of `src/vehicle/pathfinding.rs:103-112` -/
def propagateAcross (links : LinkSet F) (matrix : List (Key × LaneDists)) (p : Key × Key) :
    M (List (Key × LaneDists)) :=
  match mget matrix p.2 with
  | none => pure matrix
  | some toD => do
    let link ← getLink links p.1
    let from_ := (mget matrix p.1).getD (LaneDists.dead link.length)
    pure (minsert matrix p.1 (from_.combine toD.shift))

/-- One iteration of the loop of `src/vehicle/pathfinding.rs:80-114` -/
def matrixStep (links : LinkSet F) (matrix : List (Key × LaneDists)) (k : Key) :
    M (List (Key × LaneDists)) := do
  let link ← getLink links k
  match link.group with
  | some g => do
    let matrix ← g.links.foldlM (propagateBack links) matrix
    let lcs ← g.laneChanges
    lcs.foldlM (propagateAcross links) matrix
  | none => propagateBack links matrix k

/-- `src/vehicle/pathfinding.rs:76-117` -/
def calcLaneMatrix (links : LinkSet F) (dst : Key) (route : List Key) :
    M (List (Key × LaneDists)) :=
  route.reverse.foldlM (matrixStep links) (minsert [] dst LaneDists.exit)

/-- `src/vehicle/pathfinding.rs:132-170`.  The path is `pre ++ [k]`; `n` is the remaining capacity of
the `ArrayVec<_, 8>`.  `none` stands for `false`, and `some paths` for `true` together with the
paths pushed, in order. -/
def makePathsInner (links : LinkSet F) (matrix : List (Key × LaneDists)) (dst : Key) :
    Nat → List Key → Key → F → M (Option (List Path))
  | n, pre, k, dist =>
    match mget matrix k with
    | none => pure none
    | some d => do
      let dists := d.offset dist
      let path := pre ++ [k]
      let children ← match n with
        | 0 => pure []
        | n + 1 =>
          if dist < 200.0 then do
            let link ← getLink links k
            let dist := dist + link.length
            let rs ← link.linksOut.mapM fun succ => makePathsInner links matrix dst n path succ dist
            pure (rs.filterMap id)
          else pure []
      if children.isEmpty then
        pure (some [{ links := path, dists, canExit := decide (k = dst) }])
      else pure (some children.flatten)

namespace PathfindingModel

/-- `#[derive(Default)]`, `src/vehicle/pathfinding.rs:9` -/
def default : PathfindingModel := ⟨Key.null, Key.null, [], []⟩

/-- `src/vehicle/pathfinding.rs:58-73` -/
def reroute [Env] (p : PathfindingModel) (links : LinkSet F) : M PathfindingModel :=
  if p.src.isNull || p.dst.isNull then pure { p with matrix := [] }
  else do
    let dlink ← getLink links p.dst
    let dsts ← dlink.reachableFromLanes
    match ← Env.dijkstra p.src (successors links) (fun id => dsts.contains id) with
    | some (route, _) => do
      let matrix ← calcLaneMatrix links p.dst route
      pure { p with matrix }
    | none => pure p

/-- `src/vehicle/pathfinding.rs:119-130` -/
def makePaths (p : PathfindingModel) (links : LinkSet F) : M PathfindingModel := do
  let own ← makePathsInner links p.matrix p.dst 7 [] p.src (0.0 : F)
  let link ← getLink links p.src
  let others ← link.laneChanges.mapM fun k => makePathsInner links p.matrix p.dst 7 [] k (0.0 : F)
  pure { p with paths := ((own :: others).filterMap id).flatten }

/-- `src/vehicle/pathfinding.rs:31-37` -/
def setOrigin [Env] (p : PathfindingModel) (k : Key) (links : LinkSet F) : M PathfindingModel := do
  let p := { p with src := k }
  let p ← if (mget p.matrix k).isNone then p.reroute links else pure p
  p.makePaths links

/-- `src/vehicle/pathfinding.rs:40-44` -/
def setDestination [Env] (p : PathfindingModel) (k : Key) (links : LinkSet F) :
    M PathfindingModel := do
  let p := { p with dst := k }
  let p ← p.reroute links
  p.makePaths links

end PathfindingModel

end

end TrafficSim
