import Verif.Lemmas.Corner

/-! # Trial runs: two roads that cross -/

namespace TrafficSim

namespace Crossing

attribute [local instance] Town.env

open Town (street car)

/-- A road from link 0 to link 1, where one must give way, and a road from link 3 of length `d` to link 2 with
the speed limit `lim`, that crosses link 1, and a car on each road. -/
def ops (d lim : Float) : List (Op Float) :=
  [.addLink ⟨street 0.0 (-8.0) 0.0 1.0 8.0, 10.0⟩, .addLink ⟨street 0.0 0.0 0.0 1.0 2.0, 10.0⟩,
   .addLink ⟨street (-3.0) 1.0 1.0 0.0 3.0, lim⟩, .addLink ⟨street (-3.0 - d) 1.0 1.0 0.0 d, 10.0⟩,
   .addLinkConnection ⟨0, 1⟩ ⟨1, 1⟩, .addLinkConnection ⟨3, 1⟩ ⟨2, 1⟩, .addLinkConvergance ⟨1, 1⟩ ⟨2, 1⟩,
   .setLinkControl ⟨1, 1⟩ (.yield_ 100.0 false 0),
   .addVehicle car ⟨0, 1⟩, .setVehicleDestination ⟨0, 1⟩ ⟨1, 1⟩, .step 0.3,
   .addVehicle car ⟨3, 1⟩, .setVehicleDestination ⟨1, 1⟩ ⟨2, 1⟩, .step 0.3]

/-- The first car is admitted to link 1, and the other one was on the way to link 2; `early` tells whether
that one may get to the conflict before the first car is past it. -/
def admitTest (early : Bool) (s s' : Sim Float) : Bool :=
  shortNet s.links &&
  match s.vehicles.get? ⟨0, 1⟩, s'.vehicles.get? ⟨0, 1⟩, s.vehicles.get? ⟨1, 1⟩, s.links.get? ⟨0, 1⟩, s.links.get? ⟨1, 1⟩,
    s.links.get? ⟨2, 1⟩, s.links.get? ⟨3, 1⟩ with
  | some v, some v', some w, some la, some l, some lc, some lu =>
    v.route == [⟨0, 1⟩, ⟨1, 1⟩] && v.entered == 1 && v.queued == some 1 && v'.route == [⟨0, 1⟩, ⟨1, 1⟩] && v'.entered == 2 &&
    w.route == [⟨3, 1⟩, ⟨2, 1⟩] && lc.vehicles == [] && lc.linksIn == [⟨3, 1⟩] && lu.vehicles == [⟨1, 1⟩] &&
    (match l.control with
      | .yield_ _ false _ => true
      | _ => false) &&
    (match lc.control with
      | .open_ => true
      | _ => false) &&
    (match l.conflicts with
      | [c] => c.linkId == ⟨2, 1⟩ &&
        if early then decide (w.minReachTime (c.minPos + lu.length) lu.speedLimit <
          v.minReachTime (la.length + c.ownMaxPos) l.speedLimit)
        else decide (v.minReachTime (la.length + c.ownMaxPos) l.speedLimit + 0.5 <
          w.minReachTime (c.minPos + lu.length) lu.speedLimit)
      | _ => false)
  | _, _, _, _, _, _, _ => false

theorem early : ∃ s s' : Sim Float, Reach True s ∧ Allowed True s (.step 0.3) ∧ s.exec (.step 0.3) = .ok s' ∧
    Reach True s' ∧ admitTest true s s' = true :=
  trial_reach (ops := ops 4.0 0.2) (by decide +kernel)

end Crossing

end TrafficSim
