import Verif.Props.Room

/-! # C84: vehicles that are not seen in time -/

namespace TrafficSim

section
variable {F : Type} [Flt F]

theorem runChecked_steps [Env] {dt : F} : ∀ (n : Nat) {s s' : Sim F}, runChecked (List.replicate n (.step dt)) s = some s' →
    Relation.ReflTransGen (fun a b : Sim F => a.step dt = .ok b) s s'
  | 0, s, s', h => by
    simp only [List.replicate, runChecked, Option.some.injEq] at h
    subst h; exact .refl
  | n + 1, s, s', h => by
    rw [List.replicate_succ] at h
    unfold runChecked at h
    split at h
    · split at h
      · rename_i s1 h1
        exact .head h1 (runChecked_steps n h)
      · cases h
    · cases h

/-- Runs a list of operations, then steps, then one more step, and tests the states before the steps and before and after the last one. -/
def drive [Env] (ops : List (Op F)) (n : Nat) (dt : F) (test : Sim F → Sim F → Sim F → Bool) : Bool :=
  match runChecked ops Sim.new with
  | some s0 =>
    match runChecked (List.replicate n (.step dt)) s0 with
    | some s =>
      match s.step dt with
      | .ok s' => test s0 s s'
      | .error _ => false
    | none => false
  | none => false

theorem drive_reach [Env] {ops : List (Op F)} {n : Nat} {dt : F} {test : Sim F → Sim F → Sim F → Bool} (h : drive ops n dt test = true) :
    ∃ s0 s s' : Sim F, Reach True s0 ∧ Relation.ReflTransGen (fun a b : Sim F => a.step dt = .ok b) s0 s ∧ s.step dt = .ok s' ∧
      test s0 s s' = true := by
  unfold drive at h
  split at h
  · rename_i s0 h0
    split at h
    · rename_i s hs
      split at h
      · rename_i s' hs'
        exact ⟨s0, s, s', runChecked_reach _ _ _ .new h0, runChecked_steps n hs, hs', h⟩
      · cases h
    · cases h
  · cases h

end

namespace Blind

attribute [local instance] Town.env

/-- 4 m long, headway 3 s, maximum acceleration 2 m/s², comfortable deceleration 4.5 m/s² -/
def car : VehicleAttributes Float := ⟨2.0, 4.0, 3.0, 3.0, 2.0, 4.5⟩

/-- A straight road: a link of 60 m, then six of 3 m.  A car stands on the last one, another comes from the first one. -/
def road : List (Op Float) :=
  [.addLink ⟨Town.street 0.0 0.0 1.0 0.0 60.0, 40.0⟩, .addLink ⟨Town.street 60.0 0.0 1.0 0.0 3.0, 40.0⟩,
   .addLink ⟨Town.street 63.0 0.0 1.0 0.0 3.0, 40.0⟩, .addLink ⟨Town.street 66.0 0.0 1.0 0.0 3.0, 40.0⟩,
   .addLink ⟨Town.street 69.0 0.0 1.0 0.0 3.0, 40.0⟩, .addLink ⟨Town.street 72.0 0.0 1.0 0.0 3.0, 40.0⟩,
   .addLink ⟨Town.street 75.0 0.0 1.0 0.0 3.0, 40.0⟩,
   .addLinkConnection ⟨0, 1⟩ ⟨1, 1⟩, .addLinkConnection ⟨1, 1⟩ ⟨2, 1⟩, .addLinkConnection ⟨2, 1⟩ ⟨3, 1⟩,
   .addLinkConnection ⟨3, 1⟩ ⟨4, 1⟩, .addLinkConnection ⟨4, 1⟩ ⟨5, 1⟩, .addLinkConnection ⟨5, 1⟩ ⟨6, 1⟩,
   .addVehicle car ⟨6, 1⟩, .setVehicleFrozen ⟨0, 1⟩ true,
   .addVehicle car ⟨0, 1⟩, .setVehicleDestination ⟨1, 1⟩ ⟨6, 1⟩, .step 0.3, .step 6.5]

/-- A straight road that branches after 47 m.  A truck stands at the branch, its rear before it.  A car behind it takes the other way. -/
def branch : List (Op Float) :=
  [.addLink ⟨Town.street 0.0 0.0 1.0 0.0 47.0, 40.0⟩, .addLink ⟨Town.street 47.0 0.0 1.0 0.0 10.0, 40.0⟩,
   .addLink ⟨Town.street 47.0 0.0 0.8 0.6 10.0, 40.0⟩, .addLinkConnection ⟨0, 1⟩ ⟨1, 1⟩, .addLinkConnection ⟨0, 1⟩ ⟨2, 1⟩,
   .addVehicle Room.truck ⟨1, 1⟩, .setVehicleFrozen ⟨0, 1⟩ true,
   .addVehicle car ⟨0, 1⟩, .setVehicleDestination ⟨1, 1⟩ ⟨2, 1⟩, .step 0.3, .step 5.0]

end Blind

/-- In the plane the vehicle is on the line `y = 0`, drives in the direction of `x`, its rear is past `x0` and its front is not past `x1`. -/
def Between (v : Vehicle Float) (x0 x1 : Float) : Prop :=
  Float.abs v.worldPos.y < 0.01 ∧ 0.99 < v.worldDir.x ∧ x0 < v.worldPos.x - v.halfLen ∧ v.worldPos.x + v.halfLen < x1

instance (v : Vehicle Float) (x0 x1 : Float) : Decidable (Between v x0 x1) := inferInstanceAs (Decidable (_ ∧ _))

namespace Blind

attribute [local instance] Town.env

def test (x0 x1 y0 y1 z : Float) (s0 s s' : Sim Float) : Bool :=
  match s0.vehicles.get? ⟨1, 1⟩, s0.vehicles.get? ⟨0, 1⟩, s.vehicles.get? ⟨1, 1⟩, s.vehicles.get? ⟨0, 1⟩, s'.vehicles.get? ⟨1, 1⟩,
    s'.vehicles.get? ⟨0, 1⟩ with
  | some v0, some u0, some v, some u, some v', some u' =>
    decide (v0.acc.headway = 3.0 ∧ v0.acc.maxAcc = 2.0 ∧ v0.acc.comfDec = 4.5) && decide (v0.vel < z ∧ u0.vel = 0.0) &&
    decide (Between v0 x0 x1 ∧ Between u0 y0 y1) && decide (Between v x1 y0 ∧ Between u y0 y1) &&
    decide (Covers u' v'.worldPos ∧ 0.0 < v'.acc.acc)
  | _, _, _, _, _, _ => false

theorem test_spec {x0 x1 y0 y1 z : Float} {s0 s s' : Sim Float} (h : test x0 x1 y0 y1 z s0 s s' = true) :
    ∃ v0 u0 v u v' u', s0.getVehicle ⟨1, 1⟩ = .ok v0 ∧ s0.getVehicle ⟨0, 1⟩ = .ok u0 ∧ s.getVehicle ⟨1, 1⟩ = .ok v ∧
      s.getVehicle ⟨0, 1⟩ = .ok u ∧ s'.getVehicle ⟨1, 1⟩ = .ok v' ∧ s'.getVehicle ⟨0, 1⟩ = .ok u' ∧
      (v0.acc.headway = 3.0 ∧ v0.acc.maxAcc = 2.0 ∧ v0.acc.comfDec = 4.5) ∧ (v0.vel < z ∧ u0.vel = 0.0) ∧
      (Between v0 x0 x1 ∧ Between u0 y0 y1) ∧ (Between v x1 y0 ∧ Between u y0 y1) ∧ Covers u' v'.worldPos ∧ 0.0 < v'.acc.acc := by
  unfold test at h
  split at h
  · rename_i v0 u0 v u v' u' h1 h2 h3 h4 h5 h6
    simp only [Bool.and_eq_true, decide_eq_true_eq] at h
    exact ⟨v0, u0, v, u, v', u', getVeh_ok.2 h1, getVeh_ok.2 h2, getVeh_ok.2 h3, getVeh_ok.2 h4, getVeh_ok.2 h5, getVeh_ok.2 h6,
      h.1.1.1.1, h.1.1.1.2, h.1.1.2, h.1.2, h.2⟩
  · cases h

end Blind

open Blind in
attribute [local instance] Town.env in
/-- **C84** (witness, short links) A vehicle, less than 13.7 m/s fast, drives towards another that stands on the same lane, 26 m away.  It
could stop before it with steps of 0.5 s, and its parameters meet the conditions of C76 (`Blind.cautious`).  It does not see the other,
which is several short links ahead: after four steps it is inside the other, and it still accelerates. -/
theorem C84_short_links : ∃ (s0 s s' : Sim Float) (v0 u0 v u v' u' : Vehicle Float), Reach True s0 ∧
    Relation.ReflTransGen (fun a b => a.step 0.5 = .ok b) s0 s ∧ s.step 0.5 = .ok s' ∧
    s0.getVehicle ⟨1, 1⟩ = .ok v0 ∧ s0.getVehicle ⟨0, 1⟩ = .ok u0 ∧ s.getVehicle ⟨1, 1⟩ = .ok v ∧ s.getVehicle ⟨0, 1⟩ = .ok u ∧
    s'.getVehicle ⟨1, 1⟩ = .ok v' ∧ s'.getVehicle ⟨0, 1⟩ = .ok u' ∧ (v0.acc.headway = 3.0 ∧ v0.acc.maxAcc = 2.0 ∧ v0.acc.comfDec = 4.5) ∧
    (v0.vel < 13.7 ∧ u0.vel = 0.0) ∧ (Between v0 44.0 49.0 ∧ Between u0 75.0 80.0) ∧ (Between v 49.0 75.0 ∧ Between u 75.0 80.0) ∧
    Covers u' v'.worldPos ∧ 0.0 < v'.acc.acc := by
  obtain ⟨s0, s, s', h1, h2, h3, h4⟩ := drive_reach (ops := road) (n := 3) (dt := 0.5) (test := test 44.0 49.0 75.0 80.0 13.7) (by decide +kernel)
  obtain ⟨v0, u0, v, u, v', u', h⟩ := test_spec h4
  exact ⟨s0, s, s', v0, u0, v, u, v', u', h1, h2, h3, h⟩

open Blind in
attribute [local instance] Town.env in
/-- **C84** (witness, branch) The same, less than 10.7 m/s fast and 11 m away from another whose rear is on its link and whose middle is
on the next link, which is not on its route. -/
theorem C84_branch : ∃ (s0 s s' : Sim Float) (v0 u0 v u v' u' : Vehicle Float), Reach True s0 ∧
    Relation.ReflTransGen (fun a b => a.step 0.5 = .ok b) s0 s ∧ s.step 0.5 = .ok s' ∧
    s0.getVehicle ⟨1, 1⟩ = .ok v0 ∧ s0.getVehicle ⟨0, 1⟩ = .ok u0 ∧ s.getVehicle ⟨1, 1⟩ = .ok v ∧ s.getVehicle ⟨0, 1⟩ = .ok u ∧
    s'.getVehicle ⟨1, 1⟩ = .ok v' ∧ s'.getVehicle ⟨0, 1⟩ = .ok u' ∧ (v0.acc.headway = 3.0 ∧ v0.acc.maxAcc = 2.0 ∧ v0.acc.comfDec = 4.5) ∧
    (v0.vel < 10.7 ∧ u0.vel = 0.0) ∧ (Between v0 26.0 31.0 ∧ Between u0 42.0 55.0) ∧ (Between v 31.0 42.0 ∧ Between u 42.0 55.0) ∧
    Covers u' v'.worldPos ∧ 0.0 < v'.acc.acc := by
  obtain ⟨s0, s, s', h1, h2, h3, h4⟩ := drive_reach (ops := branch) (n := 2) (dt := 0.5) (test := test 26.0 31.0 42.0 55.0 10.7) (by decide +kernel)
  obtain ⟨v0, u0, v, u, v', u', h⟩ := test_spec h4
  exact ⟨s0, s, s', v0, u0, v, u, v', u', h1, h2, h3, h⟩

/-- The parameters of these vehicles meet the conditions of C76 for steps of 0.5 s and speeds up to 30 m/s. -/
theorem Blind.cautious (x y : ℝ) : Cautious ⟨3, 2, 4.5, x, y⟩ (0.5 + 0.1) 30 := by
  have hs : √((2 : ℝ) / (2 + 6)) = 1 / 2 := by
    rw [show (2 : ℝ) / (2 + 6) = (1 / 2) ^ 2 by norm_num]
    exact Real.sqrt_sq (by norm_num)
  have hs' : √((4.5 : ℝ) * (2 + 6)) = 6 := by
    rw [show (4.5 : ℝ) * (2 + 6) = 6 ^ 2 by norm_num]
    exact Real.sqrt_sq (by norm_num)
  constructor <;> dsimp only
  · norm_num
  · norm_num
  · rw [hs]; norm_num
  · rw [hs, hs']; norm_num

end TrafficSim
