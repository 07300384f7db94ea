import Verif.Lemmas.Demo
import Verif.Lemmas.Search

/-! # A small town, for examples

Two parallel lanes (links 0 and 1) in a group, a link 2 behind lane 0 that a link 3 crosses; link 2
gives way.  A car starts on lane 1 and wants to get to link 2, so it has to change lanes; another car
is on link 3. -/

namespace TrafficSim

namespace Town

@[instance_reducible] def env : Env := Search.env 400

attribute [local instance] env

/-- The straight curve from `(x, y)` in the direction `(dx, dy)`. -/
def street (x y dx dy len : Float) : Curve Float := (⟨⟨x, y⟩, ⟨dx, dy⟩, len⟩ : LineSegment2d Float).toCurve

def car : VehicleAttributes Float := ⟨2.0, 4.0, 3.0, 2.0, 2.0, 2.0⟩

def ops : List (Op Float) :=
  [.addLink ⟨street 0.0 0.0 1.0 0.0 2.0, 10.0⟩, .addLink ⟨street 0.0 3.0 1.0 0.0 2.0, 10.0⟩,
   .addLink ⟨street 2.0 0.0 1.0 0.0 3.0, 10.0⟩, .addLink ⟨street 3.0 (-1.0) 0.0 1.0 2.0, 10.0⟩,
   .addLinkGroup [⟨0, 1⟩, ⟨1, 1⟩] 6, .addLinkConnection ⟨0, 1⟩ ⟨2, 1⟩, .addLinkConvergance ⟨2, 1⟩ ⟨3, 1⟩,
   .setLinkControl ⟨2, 1⟩ (.yield_ 5.0 false 0),
   .addVehicle car ⟨1, 1⟩, .setVehicleDestination ⟨0, 1⟩ ⟨2, 1⟩,
   .addVehicle car ⟨3, 1⟩, .setVehicleDestination ⟨1, 1⟩ ⟨3, 1⟩, .setVehicleFrozen ⟨1, 1⟩ true]

def run (n : Nat) : List (Op Float) := ops ++ List.replicate n (.step 0.2)

/-- The route of a vehicle, as indices of links. -/
def route (s : Sim Float) (k : Nat) : List Nat :=
  match s.vehicles.get? ⟨k, 1⟩ with
  | some v => v.route.map (·.idx)
  | none => []

/-- In the third step the car changes lanes. -/
def test (s s' : Sim Float) : Bool :=
  route s 0 == [1] && route s' 0 == [0, 2] && route s' 1 == [3] && s'.getVehicleFrozen ⟨1, 1⟩ && s'.frame == 3

end Town

end TrafficSim
