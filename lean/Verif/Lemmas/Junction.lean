import Verif.Lemmas.Town

/-! # A signalled junction and a dead end, for examples -/

namespace TrafficSim

section
variable {F : Type} [Flt F]

/-- Runs some operations, adds a light, runs more operations and one further operation, and tests the
states before and after the latter. -/
def lightTrial [Env] (ops : List (Op F)) (tl : TrafficLight F) (ops' : List (Op F)) (op : Op F)
    (test : Sim F → Sim F → Bool) : Bool :=
  match runChecked ops Sim.new with
  | none => false
  | some s0 =>
    (tl.links.all fun p => s0.links.contains p.2) && !tl.phases.isEmpty && decide (tl.movements.length ≤ 64) &&
      match s0.exec (.addTrafficLight tl) with
      | .error _ => false
      | .ok s1 =>
        match runChecked ops' s1 with
        | none => false
        | some s => opChecked s op &&
          match s.exec op with
          | .ok s' => test s s'
          | .error _ => false

theorem lightTrial_reach [Env] {ops ops' : List (Op F)} {tl : TrafficLight F} {op : Op F}
    {test : Sim F → Sim F → Bool} (hl : ∃ h, LightRun tl h) (h : lightTrial ops tl ops' op test = true) :
    ∃ s s' : Sim F, Reach True s ∧ Allowed True s op ∧ s.exec op = .ok s' ∧ Reach True s' ∧ test s s' = true := by
  unfold lightTrial at h
  split at h
  · cases h
  · rename_i s0 hs0
    simp only [Bool.and_eq_true, List.all_eq_true, Bool.not_eq_true', decide_eq_true_eq] at h
    obtain ⟨⟨⟨h1, h2⟩, h3⟩, h4⟩ := h
    split at h4
    · cases h4
    · rename_i s1 hs1
      have hr0 := runChecked_reach _ _ _ .new hs0
      have hr1 : Reach True s1 := .exec (.addTrafficLight tl) hr0
        ⟨hl, h1, fun _ hn => (by rw [hn] at h2; cases h2), fun _ => h3⟩ hs1
      split at h4
      · cases h4
      · rename_i s hs
        rw [Bool.and_eq_true] at h4
        obtain ⟨h5, h6⟩ := h4
        split at h6
        · rename_i s' hs'
          have hr := runChecked_reach _ _ _ hr1 hs
          exact ⟨s, s', hr, opChecked_allowed h5, hs', .exec op hr (opChecked_allowed h5) hs', h6⟩
        · cases h6

end

namespace Junction

attribute [local instance] Town.env

open Town (street car)

/-- Two links controlled by a light and a third that is not. -/
def ops : List (Op Float) :=
  [.addLink ⟨street 0.0 0.0 1.0 0.0 2.0, 10.0⟩, .addLink ⟨street 0.0 3.0 1.0 0.0 2.0, 10.0⟩,
   .addLink ⟨street 2.0 6.0 1.0 0.0 2.0, 10.0⟩, .setLinkControl ⟨2, 1⟩ (.yield_ 5.0 false 0)]

def control (s : Sim Float) (k : Nat) : Nat :=
  match s.links.get? ⟨k, 1⟩ with
  | some l => match l.control with
    | .open_ => 0
    | .yield_ .. => 1
    | .closed => 2
  | none => 3

/-- In the third step the light of the first link turns green. -/
def test (s s' : Sim Float) : Bool :=
  control s 0 == 2 && control s 1 == 2 && control s 2 == 1 && control s' 0 == 0 && control s' 1 == 2 &&
    control s' 2 == 1 && (match s'.lights.get? ⟨0, 1⟩ with
      | some tl => tl.links == [(0, ⟨0, 1⟩), (1, ⟨1, 1⟩)]
      | none => false) && s'.lights.keys == [⟨0, 1⟩]

theorem third : ∃ s s' : Sim Float, Reach True s ∧ Allowed True s (.step 1.0) ∧ s.exec (.step 1.0) = .ok s' ∧
    Reach True s' ∧ test s s' = true :=
  lightTrial_reach (ops := ops) (tl := demoLight) (ops' := List.replicate 2 (.step 1.0)) ⟨_, demoLight_run⟩
    (by decide +kernel)

end Junction

namespace DeadEnd

attribute [local instance] Town.env

open Town (street car)

/-- A car on a short link that wants to get to another link, to which no road leads. -/
def ops : List (Op Float) :=
  [.addLink ⟨street 0.0 0.0 1.0 0.0 2.0, 10.0⟩, .addLink ⟨street 0.0 3.0 1.0 0.0 2.0, 10.0⟩,
   .addVehicle car ⟨0, 1⟩, .setVehicleDestination ⟨0, 1⟩ ⟨1, 1⟩]

/-- The car has gone, though it was not at its destination. -/
def test (s s' : Sim Float) : Bool :=
  (match s.vehicles.get? ⟨0, 1⟩ with
    | some v => v.route == [⟨0, 1⟩] && v.pathfind.dst == ⟨1, 1⟩ && !v.canExit
    | none => false) &&
  (s'.vehicles.get? ⟨0, 1⟩).isNone

theorem first : ∃ s s' : Sim Float, Reach True s ∧ Allowed True s (.step 2.0) ∧ s.exec (.step 2.0) = .ok s' ∧
    Reach True s' ∧ test s s' = true :=
  trial_reach (ops := ops) (by decide +kernel)

/-- The car is frozen and moves. -/
def brakeTest (s s' : Sim Float) : Bool :=
  s.getVehicleFrozen ⟨0, 1⟩ && !decide (s.accUpdate < 0.1) &&
    match s.vehicles.get? ⟨0, 1⟩, s'.vehicles.get? ⟨0, 1⟩ with
    | some v, some v' => decide (0.3 < v.vel) && decide (0.0 < v'.vel)
    | _, _ => false

theorem brake : ∃ s s' : Sim Float, Reach True s ∧ Allowed True s (.step 0.05) ∧ s.exec (.step 0.05) = .ok s' ∧
    Reach True s' ∧ brakeTest s s' = true :=
  trial_reach (ops := ops ++ [.setVehicleFrozen ⟨0, 1⟩ true, .step 0.2]) (by decide +kernel)

/-- The car moves on without a recomputation of its acceleration. -/
def coastTest (s s' : Sim Float) : Bool :=
  decide (s.accUpdate < 0.1) && decide (s.lcUpdate < 0.3) && decide (s'.accUpdate < 0.1) && s'.frame == 2 &&
    match s.vehicles.get? ⟨0, 1⟩, s'.vehicles.get? ⟨0, 1⟩ with
    | some v, some v' => decide (0.0 < v.vel) && decide (v.vel < v'.vel)
    | _, _ => false

theorem coast : ∃ s s' : Sim Float, Reach True s ∧ Allowed True s (.step 0.03) ∧ s.exec (.step 0.03) = .ok s' ∧
    Reach True s' ∧ coastTest s s' = true :=
  trial_reach (ops := ops ++ [.step 0.03]) (by decide +kernel)

end DeadEnd

namespace Way

attribute [local instance] Town.env

open Town (street car)

/-- A car on a link that wants to get to the next link. -/
def ops : List (Op Float) :=
  [.addLink ⟨street 0.0 0.0 1.0 0.0 2.0, 10.0⟩, .addLink ⟨street 2.0 0.0 1.0 0.0 2.0, 10.0⟩,
   .addLinkConnection ⟨0, 1⟩ ⟨1, 1⟩, .addVehicle car ⟨0, 1⟩, .setVehicleDestination ⟨0, 1⟩ ⟨1, 1⟩]

/-- The car takes the path to the next link. -/
def test (s s' : Sim Float) : Bool :=
  match s.vehicles.get? ⟨0, 1⟩, s'.vehicles.get? ⟨0, 1⟩ with
    | some v, some v' => v.pathfind.paths.map (fun p => (p.links, p.canExit)) == [([⟨0, 1⟩, ⟨1, 1⟩], true)] &&
      v.route == [⟨0, 1⟩] && v'.canExit && v'.route == [⟨0, 1⟩, ⟨1, 1⟩]
    | _, _ => false

theorem third : ∃ s s' : Sim Float, Reach True s ∧ Allowed True s (.step 0.2) ∧ s.exec (.step 0.2) = .ok s' ∧
    Reach True s' ∧ test s s' = true :=
  trial_reach (ops := ops ++ [.step 0.2, .step 0.2]) (by decide +kernel)

/-- The car leaves. -/
def leaveTest (s s' : Sim Float) : Bool :=
  (match s.vehicles.get? ⟨0, 1⟩ with
    | some v => v.route == [⟨1, 1⟩] && v.canExit
    | none => false) && (s'.vehicles.get? ⟨0, 1⟩).isNone

theorem leave : ∃ s s' : Sim Float, Reach True s ∧ Allowed True s (.step 1.0) ∧ s.exec (.step 1.0) = .ok s' ∧
    Reach True s' ∧ leaveTest s s' = true :=
  trial_reach (ops := ops ++ [.step 0.2, .step 0.2, .step 1.0, .step 1.0]) (by decide +kernel)

end Way

end TrafficSim
