import Verif.Lemmas.Overlap
import Verif.Lemmas.Town

/-! # Trial runs: roads that each cross the next -/

namespace TrafficSim

namespace Pinwheel

attribute [local instance] Town.env
open Town (street)

def car : VehicleAttributes Float := ⟨1.5, 2.0, 2.0, 2.0, 2.0, 2.0⟩

/-- Four roads that each start on the one before and end on the next.  A car on each wants to go on, past the crossing. -/
def ops : List (Op Float) :=
  [.addLink ⟨street 0.0 0.0 1.0 0.0 3.0, 10.0⟩, .addLink ⟨street 3.0 0.0 0.0 1.0 3.0, 10.0⟩,
   .addLink ⟨street 3.0 3.0 (-1.0) 0.0 3.0, 10.0⟩, .addLink ⟨street 0.0 3.0 0.0 (-1.0) 3.0, 10.0⟩,
   .addLink ⟨street 3.0 0.0 1.0 0.0 2.0, 10.0⟩, .addLink ⟨street 3.0 3.0 0.0 1.0 2.0, 10.0⟩,
   .addLink ⟨street 0.0 3.0 (-1.0) 0.0 2.0, 10.0⟩, .addLink ⟨street 0.0 0.0 0.0 (-1.0) 2.0, 10.0⟩,
   .addLinkConnection ⟨0, 1⟩ ⟨4, 1⟩, .addLinkConnection ⟨1, 1⟩ ⟨5, 1⟩, .addLinkConnection ⟨2, 1⟩ ⟨6, 1⟩, .addLinkConnection ⟨3, 1⟩ ⟨7, 1⟩,
   .addLinkConvergance ⟨1, 1⟩ ⟨0, 1⟩, .addLinkConvergance ⟨2, 1⟩ ⟨1, 1⟩, .addLinkConvergance ⟨3, 1⟩ ⟨2, 1⟩, .addLinkConvergance ⟨0, 1⟩ ⟨3, 1⟩,
   .addVehicle car ⟨0, 1⟩, .addVehicle car ⟨1, 1⟩, .addVehicle car ⟨2, 1⟩, .addVehicle car ⟨3, 1⟩,
   .setVehicleDestination ⟨0, 1⟩ ⟨4, 1⟩, .setVehicleDestination ⟨1, 1⟩ ⟨5, 1⟩, .setVehicleDestination ⟨2, 1⟩ ⟨6, 1⟩,
   .setVehicleDestination ⟨3, 1⟩ ⟨7, 1⟩, .step 0.3]

/-- The crossing of one road with the next, where the next one starts. -/
def crossing (a b : LinkCurve Float) : Overlap Float := ⟨b, a, (-0.25, 2.0), (1.0, 3.0), false⟩

def road0 : LinkCurve Float := ⟨1.0, 3.0, [⟨⟨0.0, 0.0⟩, ⟨0.5, 0.0⟩, ⟨1.0, 0.0⟩⟩, ⟨⟨1.0, 0.0⟩, ⟨1.5, 0.0⟩, ⟨2.0, 0.0⟩⟩, ⟨⟨2.0, 0.0⟩, ⟨2.5, 0.0⟩, ⟨3.0, 0.0⟩⟩]⟩
def road1 : LinkCurve Float := ⟨1.0, 3.0, [⟨⟨3.0, 0.0⟩, ⟨3.0, 0.5⟩, ⟨3.0, 1.0⟩⟩, ⟨⟨3.0, 1.0⟩, ⟨3.0, 1.5⟩, ⟨3.0, 2.0⟩⟩, ⟨⟨3.0, 2.0⟩, ⟨3.0, 2.5⟩, ⟨3.0, 3.0⟩⟩]⟩
def road2 : LinkCurve Float := ⟨1.0, 3.0, [⟨⟨3.0, 3.0⟩, ⟨2.5, 3.0⟩, ⟨2.0, 3.0⟩⟩, ⟨⟨2.0, 3.0⟩, ⟨1.5, 3.0⟩, ⟨1.0, 3.0⟩⟩, ⟨⟨1.0, 3.0⟩, ⟨0.5, 3.0⟩, ⟨0.0, 3.0⟩⟩]⟩
def road3 : LinkCurve Float := ⟨1.0, 3.0, [⟨⟨0.0, 3.0⟩, ⟨0.0, 2.5⟩, ⟨0.0, 2.0⟩⟩, ⟨⟨0.0, 2.0⟩, ⟨0.0, 1.5⟩, ⟨0.0, 1.0⟩⟩, ⟨⟨0.0, 1.0⟩, ⟨0.0, 0.5⟩, ⟨0.0, 0.0⟩⟩]⟩

theorem right0 : (crossing road0 road1).Right := Overlap.right (by decide +kernel) (by decide +kernel) (by decide +kernel)
theorem right1 : (crossing road1 road2).Right := Overlap.right (by decide +kernel) (by decide +kernel) (by decide +kernel)
theorem right2 : (crossing road2 road3).Right := Overlap.right (by decide +kernel) (by decide +kernel) (by decide +kernel)
theorem right3 : (crossing road3 road0).Right := Overlap.right (by decide +kernel) (by decide +kernel) (by decide +kernel)

def crossings : List (Overlap Float) := [crossing road0 road1, crossing road1 road2, crossing road2 road3, crossing road3 road0]

def testLink (l : Link Float) : Bool := decide (l.vehicles.length ≤ 1) && match l.control with
  | .open_ => true
  | _ => false

def testPoint (n : Net Float) (k : Key) (v : Vehicle Float) (c : ConflictPoint Float) : Bool :=
  c.link0.linkId != c.link1.linkId && !c.sameDir && match c.link0.findVehicles n [], c.link1.findVehicles n [] with
  | .ok [x], .ok [y] => y.key == k && decide (x.posFront ≤ x.posFront) && decide (y.posFront ≤ y.posFront) &&
    decide (y.posFront ≤ x.posFront) && decide (¬ x.posFront ≤ y.posFront) && decide (y.pos + 0.0 - v.posFront ≤ 2.0)
  | _, _ => false

def testVehicle (s : Sim Float) (n : Net Float) (k : Key) (v : Vehicle Float) : Bool :=
  decide (v.vel = 0.0) && v.pathfind.paths.all (fun p => decide (p.links = v.route)) && decide (v.entered = v.route.length) &&
  (match v.route with
   | a :: _ => match s.links.get? a with
    | some l => decide (¬ l.length < v.pos)
    | none => false
   | [] => false) &&
  s.conflicts.any (testPoint n k v) && decide (-10.0 * v.acc.maxAcc ≤ 0.0) && decide (v.pos + 0.0 = v.pos ∧ v.pos + -0.0 = v.pos) &&
  decide (v.pos < 1.0) && decide (v.route.length = 2) && decide (v.canExit = true)

def test (count : Nat) (_ s : Sim Float) : Bool :=
  decide (s.vehicles.keys.length = count) && decide (¬ s.accUpdate < 0.1) && s.frozen.isEmpty &&
  s.links.keys.all (fun k => match s.links.get? k with
    | some l => testLink l
    | none => false) &&
  match s.prepareNet with
  | .ok n => s.vehicles.keys.all fun k => match s.vehicles.get? k with
    | some v => testVehicle s n k v
    | none => false
  | .error _ => false

theorem stands : ∃ s s' : Sim Float, Reach True s ∧ Allowed True s (.step 0.3) ∧ s.exec (.step 0.3) = .ok s' ∧
    Reach True s' ∧ test 4 s s' = true :=
  trialWith_reach (js := crossings) (ops := ops)
    (by simp only [crossings, List.mem_cons, List.not_mem_nil, or_false, forall_eq_or_imp, forall_eq]; exact ⟨right0, right1, right2, right3⟩)
    (by decide +kernel)

/-- A road around a corner, where the link before and the link behind the corner are declared as converging, and one car. -/
def corner : List (Op Float) :=
  [.addLink ⟨street 0.0 0.0 1.0 0.0 3.0, 10.0⟩, .addLink ⟨street 3.0 0.0 0.0 1.0 3.0, 10.0⟩, .addLinkConnection ⟨0, 1⟩ ⟨1, 1⟩,
   .addLinkConvergance ⟨0, 1⟩ ⟨1, 1⟩, .addVehicle car ⟨0, 1⟩, .setVehicleDestination ⟨0, 1⟩ ⟨1, 1⟩, .step 0.3, .step 0.3]

theorem right4 : (crossing road0 road1).swap.Right := Overlap.right' right0 (by decide +kernel)

theorem alone : ∃ s s' : Sim Float, Reach True s ∧ Allowed True s (.step 0.3) ∧ s.exec (.step 0.3) = .ok s' ∧
    Reach True s' ∧ test 1 s s' = true :=
  trialWith_reach (js := [(crossing road0 road1).swap]) (ops := corner) (by simp only [List.mem_cons, List.not_mem_nil, or_false, forall_eq]; exact right4)
    (by decide +kernel)

end Pinwheel

end TrafficSim
