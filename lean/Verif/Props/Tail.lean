import Verif.Props.Sight
import Verif.Lemmas.Overlap

/-! # C92: vehicles that are still in a crossing -/

namespace TrafficSim

section
variable {F : Type} [Flt F] [DecidableEq F]

/-- Like `drive`, with the overlaps of the list. -/
def driveWith [Env] (js : List (Overlap F)) (ops : List (Op F)) (n : Nat) (dt : F) (test : Sim F → Sim F → Sim F → Bool) : Bool :=
  match runWith js ops Sim.new with
  | some s0 =>
    match runChecked (List.replicate n (.step dt)) s0 with
    | some s =>
      match s.step dt with
      | .ok s' => test s0 s s'
      | .error _ => false
    | none => false
  | none => false

theorem driveWith_reach [Env] {js : List (Overlap F)} {ops : List (Op F)} {n : Nat} {dt : F} {test : Sim F → Sim F → Sim F → Bool}
    (hj : ∀ j ∈ js, j.Right) (h : driveWith js ops n dt test = true) :
    ∃ s0 s s' : Sim F, Reach True s0 ∧ Relation.ReflTransGen (fun a b : Sim F => a.step dt = .ok b) s0 s ∧ s.step dt = .ok s' ∧
      test s0 s s' = true := by
  refine drive_reach (ops := ops) (n := n) ?_
  unfold driveWith at h
  rw [runWith_eq hj] at h
  exact h

end

/-- In the plane the vehicle is on the line `x = x0`, drives in the direction of `y`, and its front is not past `y1`. -/
def Below (v : Vehicle Float) (x0 y1 : Float) : Prop :=
  Float.abs (v.worldPos.x - x0) < 0.01 ∧ 0.99 < v.worldDir.y ∧ v.worldPos.y + v.halfLen < y1

instance (v : Vehicle Float) (x0 y1 : Float) : Decidable (Below v x0 y1) := inferInstanceAs (Decidable (_ ∧ _))

namespace Tail

attribute [local instance] Town.env
open Town (street)

/-- A road to the east, of two links, and a road to the north, of two links; the first link of the one crosses the second link of the other.
A truck stops on the second link of its road, with its rear still on the crossing.  A car comes on the other road. -/
def ops : List (Op Float) :=
  [.addLink ⟨street 0.0 0.0 1.0 0.0 4.5, 10.0⟩, .addLink ⟨street 2.5 (-2.0) 0.0 1.0 4.0, 10.0⟩,
   .addLink ⟨street 4.5 0.0 1.0 0.0 10.0, 10.0⟩, .addLink ⟨street 2.5 (-24.0) 0.0 1.0 22.0, 10.0⟩,
   .addLinkConnection ⟨0, 1⟩ ⟨2, 1⟩, .addLinkConnection ⟨3, 1⟩ ⟨1, 1⟩, .addLinkConvergance ⟨0, 1⟩ ⟨1, 1⟩,
   .addVehicle Room.truck ⟨0, 1⟩, .setVehicleDestination ⟨0, 1⟩ ⟨2, 1⟩, .step 1.0, .step 1.3, .setVehicleFrozen ⟨0, 1⟩ true, .step 1.0,
   .addVehicle Blind.car ⟨3, 1⟩, .setVehicleDestination ⟨1, 1⟩ ⟨1, 1⟩, .step 0.3, .step 2.2]

def test (s0 s s' : Sim Float) : Bool :=
  match s0.vehicles.get? ⟨1, 1⟩, s0.vehicles.get? ⟨0, 1⟩, s.vehicles.get? ⟨1, 1⟩, s'.vehicles.get? ⟨1, 1⟩,
    s'.vehicles.get? ⟨0, 1⟩ with
  | some v0, some u0, some v, some v', some u' =>
    decide (v0.acc.headway = 3.0 ∧ v0.acc.maxAcc = 2.0 ∧ v0.acc.comfDec = 4.5) && decide (v0.vel < 5.1 ∧ u0.vel = 0.0) &&
    s0.conflicts.any (fun c => decide (c.link0.linkId = ⟨0, 1⟩ ∧ c.link1.linkId = ⟨1, 1⟩)) && decide (u0.route[0]? = some ⟨2, 1⟩) &&
    decide (Below v0 2.5 (-14.0)) && decide (Covers u0 ⟨2.5, 0.0⟩) && decide (Below v 2.5 (-1.25)) &&
    decide (Covers u' v'.worldPos ∧ 0.0 < v'.acc.acc)
  | _, _, _, _, _ => false

def road0 : LinkCurve Float :=
  ⟨1.0, 4.5, [⟨⟨0.0, 0.0⟩, ⟨0.5, 0.0⟩, ⟨1.0, 0.0⟩⟩, ⟨⟨1.0, 0.0⟩, ⟨1.5, 0.0⟩, ⟨2.0, 0.0⟩⟩, ⟨⟨2.0, 0.0⟩, ⟨2.5, 0.0⟩, ⟨3.0, 0.0⟩⟩,
    ⟨⟨3.0, 0.0⟩, ⟨3.5, 0.0⟩, ⟨4.0, 0.0⟩⟩, ⟨⟨4.0, 0.0⟩, ⟨4.5, 0.0⟩, ⟨5.0, 0.0⟩⟩]⟩
def road1 : LinkCurve Float :=
  ⟨1.0, 4.0, [⟨⟨2.5, -2.0⟩, ⟨2.5, -1.5⟩, ⟨2.5, -1.0⟩⟩, ⟨⟨2.5, -1.0⟩, ⟨2.5, -0.5⟩, ⟨2.5, 0.0⟩⟩, ⟨⟨2.5, 0.0⟩, ⟨2.5, 0.5⟩, ⟨2.5, 1.0⟩⟩,
    ⟨⟨2.5, 1.0⟩, ⟨2.5, 1.5⟩, ⟨2.5, 2.0⟩⟩]⟩

def crossing : Overlap Float := ⟨road0, road1, (0.5, 4.5), (0.0, 4.0), false⟩

theorem right : crossing.Right := Overlap.right (by decide +kernel) (by decide +kernel) (by decide +kernel)

end Tail

open Tail in
attribute [local instance] Town.env in
/-- **C92** (witness, tail) A car, less than 5.1 m/s fast, drives towards a crossing, 14 m away, on which the rear part of a truck stands:
the middle of the truck is on the next link.  The crossing is declared.  The car could stop (its parameters meet the conditions of C76,
`Blind.cautious`), and it is still before the truck when four steps are done.  It does not see the truck: after the fifth step its middle is
inside the truck, and it still accelerates. -/
theorem C92_through : ∃ (s0 s s' : Sim Float) (v0 u0 v v' u' : Vehicle Float), Reach True s0 ∧
    Relation.ReflTransGen (fun a b => a.step 0.5 = .ok b) s0 s ∧ s.step 0.5 = .ok s' ∧
    s0.getVehicle ⟨1, 1⟩ = .ok v0 ∧ s0.getVehicle ⟨0, 1⟩ = .ok u0 ∧ s.getVehicle ⟨1, 1⟩ = .ok v ∧ s'.getVehicle ⟨1, 1⟩ = .ok v' ∧
    s'.getVehicle ⟨0, 1⟩ = .ok u' ∧ (v0.acc.headway = 3.0 ∧ v0.acc.maxAcc = 2.0 ∧ v0.acc.comfDec = 4.5) ∧ (v0.vel < 5.1 ∧ u0.vel = 0.0) ∧
    (∃ c ∈ s0.conflicts, c.link0.linkId = ⟨0, 1⟩ ∧ c.link1.linkId = ⟨1, 1⟩) ∧ u0.route[0]? = some ⟨2, 1⟩ ∧
    Below v0 2.5 (-14.0) ∧ Covers u0 ⟨2.5, 0.0⟩ ∧ Below v 2.5 (-1.25) ∧ Covers u' v'.worldPos ∧ 0.0 < v'.acc.acc := by
  obtain ⟨s0, s, s', h1, h2, h3, h4⟩ := driveWith_reach (js := [crossing]) (ops := ops) (n := 4) (dt := 0.5) (test := test)
    (by simpa using right) (by decide +kernel)
  unfold test at h4
  split at h4
  · rename_i v0 u0 v v' u' g1 g2 g3 g4 g5
    simp only [Bool.and_eq_true, decide_eq_true_eq, List.any_eq_true] at h4
    exact ⟨s0, s, s', v0, u0, v, v', u', h1, h2, h3, getVeh_ok.2 g1, getVeh_ok.2 g2, getVeh_ok.2 g3, getVeh_ok.2 g4, getVeh_ok.2 g5,
      h4.1.1.1.1.1.1.1, h4.1.1.1.1.1.1.2, h4.1.1.1.1.1.2, h4.1.1.1.1.2, h4.1.1.1.2, h4.1.1.2, h4.1.2, h4.2⟩
  · cases h4

end TrafficSim
