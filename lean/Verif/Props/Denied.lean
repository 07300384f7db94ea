import Verif.Props.Tail
import Verif.Lemmas.Pinwheel

/-! # C94: a vehicle that waits for one that may not come -/

namespace TrafficSim

namespace Denied

attribute [local instance] Town.env
open Town (street)

/-- A road to the east, of two links, and a road to the north, of two links; the second links cross, near the start of the first road's.
A car stands at the far end of the first road, past the crossing.  The second link of that road is closed, and a second car waits before
it.  A third car is on the other road, before the crossing. -/
def ops : List (Op Float) :=
  [.addLink ⟨street 0.0 0.0 1.0 0.0 8.0, 10.0⟩, .addLink ⟨street 1.5 (-2.25) 0.0 1.0 4.0, 10.0⟩,
   .addLink ⟨street (-2.0) 0.0 1.0 0.0 2.0, 10.0⟩, .addLink ⟨street 1.5 (-4.25) 0.0 1.0 2.0, 10.0⟩,
   .addLinkConnection ⟨2, 1⟩ ⟨0, 1⟩, .addLinkConnection ⟨3, 1⟩ ⟨1, 1⟩, .addLinkConvergance ⟨0, 1⟩ ⟨1, 1⟩,
   .addVehicle Pinwheel.car ⟨0, 1⟩, .step 2.2, .setVehicleFrozen ⟨0, 1⟩ true, .setLinkControl ⟨0, 1⟩ .closed, .step 0.8,
   .addVehicle Pinwheel.car ⟨2, 1⟩, .setVehicleDestination ⟨1, 1⟩ ⟨0, 1⟩, .addVehicle Pinwheel.car ⟨3, 1⟩,
   .setVehicleDestination ⟨2, 1⟩ ⟨1, 1⟩, .step 0.1, .step 0.5]

def test (s s' : Sim Float) : Bool :=
  match s.vehicles.get? ⟨0, 1⟩, s.vehicles.get? ⟨1, 1⟩, s.vehicles.get? ⟨2, 1⟩, s'.vehicles.get? ⟨2, 1⟩, s.links.get? ⟨0, 1⟩,
    s.links.get? ⟨1, 1⟩, s.links.get? ⟨3, 1⟩ with
  | some u, some w, some v, some v', some l0, some l1, some l3 => match s.conflicts with
    | [c] =>
      decide (s.vehicles.keys.length = 3) &&
      decide (c.link0.linkId = ⟨0, 1⟩ ∧ c.link1.linkId = ⟨1, 1⟩ ∧ c.link0.maxPos < u.posRear ∧ u.route = [⟨0, 1⟩] ∧ u.vel = 0.0) &&
      decide (w.route = [⟨2, 1⟩, ⟨0, 1⟩] ∧ w.entered = 1 ∧ w.vel = 0.0 ∧ w.posFront < 1.1) &&
      (match l0.control with
        | .closed => true
        | _ => false) &&
      (match l1.control with
        | .open_ => true
        | _ => false) &&
      decide (l1.vehicles = [] ∧ l3.vehicles = [⟨2, 1⟩] ∧ ⟨2, 1⟩ ∉ s.frozen ∧ v.route = [⟨3, 1⟩, ⟨1, 1⟩] ∧ v.canExit = true) &&
      decide (¬ s.accUpdate < 0.1 ∧ v.vel = 0.0 ∧ v'.vel = 0.0 ∧ v'.acc.acc < -10.0)
    | _ => false
  | _, _, _, _, _, _, _ => false

def road0 : LinkCurve Float :=
  ⟨1.0, 8.0, [⟨⟨0.0, 0.0⟩, ⟨0.5, 0.0⟩, ⟨1.0, 0.0⟩⟩, ⟨⟨1.0, 0.0⟩, ⟨1.5, 0.0⟩, ⟨2.0, 0.0⟩⟩, ⟨⟨2.0, 0.0⟩, ⟨2.5, 0.0⟩, ⟨3.0, 0.0⟩⟩,
    ⟨⟨3.0, 0.0⟩, ⟨3.5, 0.0⟩, ⟨4.0, 0.0⟩⟩, ⟨⟨4.0, 0.0⟩, ⟨4.5, 0.0⟩, ⟨5.0, 0.0⟩⟩, ⟨⟨5.0, 0.0⟩, ⟨5.5, 0.0⟩, ⟨6.0, 0.0⟩⟩,
    ⟨⟨6.0, 0.0⟩, ⟨6.5, 0.0⟩, ⟨7.0, 0.0⟩⟩, ⟨⟨7.0, 0.0⟩, ⟨7.5, 0.0⟩, ⟨8.0, 0.0⟩⟩]⟩
def road1 : LinkCurve Float :=
  ⟨1.0, 4.0, [⟨⟨1.5, -2.25⟩, ⟨1.5, -1.75⟩, ⟨1.5, -1.25⟩⟩, ⟨⟨1.5, -1.25⟩, ⟨1.5, -0.75⟩, ⟨1.5, -0.25⟩⟩, ⟨⟨1.5, -0.25⟩, ⟨1.5, 0.25⟩, ⟨1.5, 0.75⟩⟩,
    ⟨⟨1.5, 0.75⟩, ⟨1.5, 1.25⟩, ⟨1.5, 1.75⟩⟩]⟩

def crossing : Overlap Float := ⟨road0, road1, (-0.25, 3.5), (0.25, 4.0), false⟩

theorem right : crossing.Right := Overlap.right (by decide +kernel) (by decide +kernel) (by decide +kernel)

end Denied

open Denied in
attribute [local instance] Town.env in
/-- **C94** (witness) There are three vehicles, `u`, `w` and `v`.  The first stands past the crossing, the second waits before the link on
which the crossing is, which is closed and to which it has not been let in.  The third one's way is open, and there is nobody on it; it
stands before the crossing, and it still stands after a step in which its acceleration is computed anew: it is braked with more than
10 m/s². -/
theorem C94_blocked : ∃ (s s' : Sim Float) (u w v v' : Vehicle Float) (l0 l1 l3 : Link Float) (c : ConflictPoint Float), Reach True s ∧
    s.step 0.5 = .ok s' ∧ ¬ s.accUpdate < 0.1 ∧ s.conflicts = [c] ∧ s.vehicles.keys.length = 3 ∧
    s.getVehicle ⟨0, 1⟩ = .ok u ∧ s.getVehicle ⟨1, 1⟩ = .ok w ∧ s.getVehicle ⟨2, 1⟩ = .ok v ∧ s'.getVehicle ⟨2, 1⟩ = .ok v' ∧
    s.getLinkRef c.link0.linkId = .ok l0 ∧ s.getLinkRef c.link1.linkId = .ok l1 ∧ s.getLinkRef ⟨3, 1⟩ = .ok l3 ∧
    (u.route = [c.link0.linkId] ∧ c.link0.maxPos < u.posRear) ∧
    (w.route = [⟨2, 1⟩, c.link0.linkId] ∧ w.entered = 1 ∧ w.vel = 0.0 ∧ l0.control = .closed) ∧
    (v.route = [⟨3, 1⟩, c.link1.linkId] ∧ v.canExit = true ∧ ⟨2, 1⟩ ∉ s.frozen ∧ l1.control = .open_ ∧ l1.vehicles = [] ∧
      l3.vehicles = [⟨2, 1⟩]) ∧ v.vel = 0.0 ∧ v'.vel = 0.0 ∧ v'.acc.acc < -10.0 := by
  obtain ⟨s, s', h1, -, h2, -, h4⟩ := trialWith_reach (js := [crossing]) (ops := ops) (op := .step 0.5) (test := test)
    (by simpa using right) (by decide +kernel)
  unfold test at h4
  split at h4
  · rename_i u w v v' l0 l1 l3 g1 g2 g3 g4 g5 g6 g7
    split at h4
    · rename_i c hc
      simp only [Bool.and_eq_true, decide_eq_true_eq] at h4
      obtain ⟨⟨⟨⟨⟨⟨a0, a1, a2, a3, a4, a5⟩, b1, b2, b3, b4⟩, c1⟩, c2⟩, d1, d2, d3, d4, d5⟩, e1, e2, e3, e4⟩ := h4
      have f1 : l0.control = .closed := by
        split at c1
        · assumption
        · cases c1
      have f2 : l1.control = .open_ := by
        split at c2
        · assumption
        · cases c2
      rw [← a1] at a4 b1 g5
      rw [← a2] at d4 g6
      exact ⟨s, s', u, w, v, v', l0, l1, l3, c, h1, h2, e1, hc, a0, getVeh_ok.2 g1, getVeh_ok.2 g2, getVeh_ok.2 g3, getVeh_ok.2 g4,
        getLink_ok.2 g5, getLink_ok.2 g6, getLink_ok.2 g7, ⟨a4, a3⟩, ⟨b1, b2, b3, f1⟩, ⟨d4, d5, d3, f2, d1, d2⟩, e2, e3, e4⟩
    · cases h4
  · cases h4

end TrafficSim
