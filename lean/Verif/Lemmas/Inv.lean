import Verif.Lemmas.Rel
import Verif.Props.Light

/-! # The invariant of a simulation

`Reach strict s`: the simulation `s` can be reached through the public interface.  With
`strict = True` every link group consists of at most 16 different links that were in no group, and
every light has a phase and at most 64 movements; with `strict = False` there is no such condition. -/

namespace TrafficSim

/-- The errors that a step may end with; `div` is whether it may run out of fuel, `geo` whether lane projections
may fail. -/
def StepErr (strict : Prop) (div : Prop := True) (geo : Prop := True) : Err → Prop
  | .emptySamples => geo
  | .nanCompare => geo
  | .noProjection => geo
  | .diverges => div
  | .outOfBounds => ¬ strict
  | .notInGroup => ¬ strict
  | .shiftOverflow => ¬ strict
  | .noPhase => ¬ strict
  | _ => False

section
variable {F : Type}

/-- The properties of a group `g` of the link `l` with key `k`. -/
structure GroupInv (strict : Prop) (links : LinkSet F) (k : Key) (l : Link F) (g : LinkGroup F) : Prop where
  mem : k ∈ g.links
  valid : ∀ j ∈ g.links, links.contains j = true
  proj : ∀ p ∈ g.projections, links.contains p.dst = true
  nodup : strict → g.links.Nodup
  small : strict → g.links.length ≤ 16
  count : strict → g.projections.length = g.links.length * (g.links.length - 1)
  lc : strict → ∀ j, j ∈ l.laneChanges ↔ ∃ a b, g.links[a]? = some k ∧ g.links[b]? = some j ∧
    ((b = a + 1 ∧ g.lcMask.testBit (2 * a + 1) = true) ∨ (a = b + 1 ∧ g.lcMask.testBit (2 * a) = true))
  same : strict → ∀ j ∈ g.links, ∀ l', links.get? j = some l' → l'.group = some g

/-- The properties of a link `l` with key `k`. -/
structure LinkInv (strict : Prop) (links : LinkSet F) (k : Key) (l : Link F) : Prop where
  id : l.id = k
  linksIn : ∀ j ∈ l.linksIn, links.contains j = true
  linksOut : ∀ j ∈ l.linksOut, links.contains j = true
  laneChanges : ∀ j ∈ l.laneChanges, links.contains j = true
  conflicts : ∀ c ∈ l.conflicts, links.contains c.linkId = true
  last : l.lastConflict ≤ l.conflicts.length
  segs : l.curve.segments ≠ []
  group : ∀ g, l.group = some g → GroupInv strict links k l g
  lc : l.laneChanges ≠ [] → l.group.isSome = true

/-- The properties of a set of links. -/
structure NetInv (strict : Prop) (links : LinkSet F) : Prop where
  wf : links.WF
  link : ∀ k l, links.get? k = some l → LinkInv strict links k l

/-- `b` is directly downstream of `a`. -/
def Conn (links : LinkSet F) (a b : Key) : Prop := ∃ l, links.get? a = some l ∧ b ∈ l.linksOut

/-- Changing from lane `a` to lane `b` is permitted. -/
def LaneTo (links : LinkSet F) (a b : Key) : Prop := ∃ l, links.get? a = some l ∧ b ∈ l.laneChanges

/-- A list of links that can be driven. -/
structure Drivable (links : LinkSet F) (ks : List Key) : Prop where
  valid : ∀ k ∈ ks, links.contains k = true
  chain : ks.IsChain (Conn links)

/-- A planned path of a vehicle on `src` with destination `dst`. -/
structure PathOK (links : LinkSet F) (src dst : Key) (p : Path) : Prop where
  drivable : Drivable links p.links
  start : ∃ k, p.links.head? = some k ∧ (k = src ∨ LaneTo links src k)
  size : p.links.length ≤ 8
  exit : p.canExit = true ↔ p.links.getLast? = some dst

/-- The properties of a vehicle `v` with key `k` between two operations. -/
structure VehInv (links : LinkSet F) (k : Key) (v : Vehicle F) : Prop where
  id : v.id = k
  drivable : Drivable links v.route
  src : v.route.head? = some v.pathfind.src
  dst : v.pathfind.dst.isNull = true ∨ links.contains v.pathfind.dst = true
  entered : 1 ≤ v.entered
  enteredLe : v.entered ≤ v.route.length
  will : v.willQueueOrEnter = 0
  paths : ∀ p ∈ v.pathfind.paths, PathOK links v.pathfind.src v.pathfind.dst p

/-- Every link lists exactly the vehicles that are on it, each once. -/
def Member (links : LinkSet F) (vs : VehicleSet F) : Prop :=
  ∀ lk l, links.get? lk = some l → l.vehicles.Nodup ∧
    ∀ k, k ∈ l.vehicles ↔ ∃ v, vs.get? k = some v ∧ v.linkId = some lk

variable [Flt F]

/-- The properties of a light. -/
structure LightOK (strict : Prop) (links : LinkSet F) (tl : TrafficLight F) : Prop where
  run : ∃ h, LightRun tl h
  valid : ∀ p ∈ tl.links, links.contains p.2 = true
  phases : strict → tl.phases ≠ []
  small : strict → tl.movements.length ≤ 64

/-- The properties of a simulation between two operations. -/
structure SimInv (strict : Prop) (s : Sim F) : Prop where
  net : NetInv strict s.links
  vwf : s.vehicles.WF
  veh : ∀ k v, s.vehicles.get? k = some v → VehInv s.links k v
  mem : Member s.links s.vehicles
  lwf : s.lights.WF
  lights : ∀ k tl, s.lights.get? k = some tl → LightOK strict s.links tl
  conflicts : ∀ c ∈ s.conflicts, s.links.contains c.link0.linkId = true ∧ s.links.contains c.link1.linkId = true

/-- The arguments of a call are acceptable: a light is built through its public interface and names
existing links; in strict mode groups and lights are as described above. -/
def Allowed (strict : Prop) (s : Sim F) : Op F → Prop
  | .addLinkGroup ids _ => strict → ids.Nodup ∧ ids.length ≤ 16 ∧
      ∀ k ∈ ids, ∀ l, s.links.get? k = some l → l.group = none
  | .addTrafficLight tl => LightOK strict s.links tl
  | _ => True

/-- The simulations that can be reached through the public interface. -/
inductive Reach [Env] (strict : Prop) : Sim F → Prop
  | new : Reach strict .new
  | exec {s s' : Sim F} (op : Op F) : Reach strict s → Allowed strict s op → s.exec op = .ok s' →
      Reach strict s'

end

/-! ## The external search -/

/-- `b` can be reached from `a` by a search with the given successor function. -/
def SuccReach (succ : Key → M (List (Key × Nat))) : Key → Key → Prop :=
  Relation.ReflTransGen fun a b => ∃ l w, succ a = .ok l ∧ (b, w) ∈ l

/-- What is assumed of `pathfinding::directed::dijkstra::dijkstra`: it fails only if the successor
function does (or it runs out of memory or time), a returned route leads from the start along
successors to a goal, and if it returns nothing then there is no such route. -/
class LawfulDijkstra [Env] : Prop where
  err : ∀ src succ goal e, Env.dijkstra src succ goal = .error e →
    e = .diverges ∨ ∃ k, SuccReach succ src k ∧ succ k = .error e
  found : ∀ src succ goal route c, Env.dijkstra src succ goal = .ok (some (route, c)) →
    route.head? = some src ∧ (route.IsChain fun a b => ∃ l w, succ a = .ok l ∧ (b, w) ∈ l) ∧
      ∃ k, route.getLast? = some k ∧ goal k = true
  notFound : ∀ src succ goal, Env.dijkstra src succ goal = .ok none →
    ∀ k, SuccReach succ src k → goal k = false

/-- The search for a shortest path ends on every finite graph whose successor function ends. -/
def SearchEnds [Env] : Prop := ∀ src succ goal,
  (∃ ks : List Key, ∀ k, SuccReach succ src k → k ∈ ks ∧ succ k ≠ .error .diverges) →
  Env.dijkstra src succ goal ≠ .error .diverges

end TrafficSim
