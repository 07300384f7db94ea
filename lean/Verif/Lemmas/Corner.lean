import Verif.Lemmas.Entry
import Verif.Lemmas.Town

/-! # A link with two ways to go on, for examples -/

namespace TrafficSim

section
variable {F : Type} [Flt F]

/-- `LongLinks` for a network without ways of more than two links. -/
theorem longLinks_short {links : LinkSet F} (h : ∀ k l, links.get? k = some l → ∀ j ∈ l.linksIn, ∀ lj, links.get? j = some lj →
    lj.linksIn = [] ∧ lj.length < l.length + lj.length) : LongLinks links := by
  intro k0 l0 i a p la h0 hu ha
  cases hu with
  | @up i k _ pos l l' hu hl hj hl' =>
    rw [ha] at hl'; cases hl'
    cases hu with
    | here =>
      rw [h0] at hl; cases hl
      exact (h k0 l0 h0 a hj la ha).2
    | @up i k' _ pos l1 l2 hu hl1 hj1 hl1' =>
      rw [hl] at hl1'; cases hl1'
      rw [(h k' l1 hl1 k hj1 l hl).1] at hj
      cases hj

/-- A test for the condition of `longLinks_short`. -/
def shortNet (links : LinkSet F) : Bool :=
  links.keys.all fun k => match links.get? k with
    | none => true
    | some l => l.linksIn.all fun j => match links.get? j with
      | none => true
      | some lj => lj.linksIn.isEmpty && decide (lj.length < l.length + lj.length)

theorem shortNet_long {links : LinkSet F} (h : shortNet links = true) : LongLinks links := by
  refine longLinks_short fun k l hk j hj lj hlj => ?_
  unfold shortNet at h
  rw [List.all_eq_true] at h
  have h1 := h k (SlotMap.mem_keys.2 ⟨l, hk⟩)
  rw [hk] at h1
  dsimp only at h1
  rw [List.all_eq_true] at h1
  have h2 := h1 j hj
  rw [hlj] at h2
  simpa using h2

end

namespace Corner

attribute [local instance] Town.env

open Town (street car)

/-- A link from which one may go on to either of two others, with the given controls, and a car. -/
def ops (c1 c2 : TrafficControl Float) : List (Op Float) :=
  [.addLink ⟨street (-6.0) 0.0 1.0 0.0 8.0, 10.0⟩, .addLink ⟨street 2.0 0.0 1.0 0.0 2.0, 10.0⟩,
   .addLink ⟨street 2.0 0.0 0.0 1.0 2.0, 10.0⟩,
   .addLinkConnection ⟨0, 1⟩ ⟨1, 1⟩, .addLinkConnection ⟨0, 1⟩ ⟨2, 1⟩, .setLinkControl ⟨1, 1⟩ c1, .setLinkControl ⟨2, 1⟩ c2,
   .addVehicle car ⟨0, 1⟩, .setVehicleDestination ⟨0, 1⟩ ⟨1, 1⟩, .step 0.3]

/-- The number of the control of a link: 0 open, 1 give way, 2 stop, 3 closed. -/
def control (s : Sim Float) (k : Key) : Nat :=
  match s.links.get? k with
  | some l => match l.control with
    | .open_ => 0
    | .yield_ _ m _ => if m then 2 else 1
    | .closed => 3
  | none => 4

def isAt (s : Sim Float) (route : List Key) (entered : Nat) (queued : Option Nat) : Bool :=
  match s.vehicles.get? ⟨0, 1⟩ with
  | some v => v.route == route && v.entered == entered && v.queued == queued && decide (0.1 ≤ v.vel)
  | none => false

/-- The car queues. -/
def queueTest (s s' : Sim Float) : Bool :=
  shortNet s.links && isAt s [⟨0, 1⟩] 1 none && isAt s' [⟨0, 1⟩, ⟨1, 1⟩] 1 (some 1)

/-- The car is admitted to the link for which it queued. -/
def yieldTest (s s' : Sim Float) : Bool :=
  shortNet s.links && control s ⟨1, 1⟩ == 1 && isAt s [⟨0, 1⟩, ⟨1, 1⟩] 1 (some 1) &&
    isAt s' [⟨0, 1⟩, ⟨1, 1⟩] 2 none

/-- The car is admitted to an open link. -/
def openTest (s s' : Sim Float) : Bool :=
  shortNet s.links && control s ⟨1, 1⟩ == 0 && isAt s [⟨0, 1⟩] 1 none &&
    isAt s' [⟨0, 1⟩, ⟨1, 1⟩] 2 none

theorem open_ : ∃ s s' : Sim Float, Reach True s ∧ Allowed True s (.step 0.3) ∧ s.exec (.step 0.3) = .ok s' ∧
    Reach True s' ∧ openTest s s' = true :=
  trial_reach (ops := ops .open_ .closed) (by decide +kernel)

/-- The car drives on to a closed link. -/
def closedTest (s s' : Sim Float) : Bool :=
  shortNet s.links && control s ⟨1, 1⟩ == 3 && isAt s [⟨0, 1⟩] 1 none &&
    (match s'.vehicles.get? ⟨0, 1⟩ with
      | some v => v.route == [⟨1, 1⟩] && v.entered == 1
      | none => false)

theorem overrun : ∃ s s' : Sim Float, Reach True s ∧ Allowed True s (.step 3.3) ∧ s.exec (.step 3.3) = .ok s' ∧
    Reach True s' ∧ closedTest s s' = true :=
  trial_reach (ops := ops .closed .closed) (by decide +kernel)

/-- The car queues for one link, changes its destination, and is admitted to the other. -/
def staleTest (s s' : Sim Float) : Bool :=
  isAt s [⟨0, 1⟩] 1 none && isAt s' [⟨0, 1⟩, ⟨1, 1⟩] 1 (some 1) &&
    match s'.exec (.setVehicleDestination ⟨0, 1⟩ ⟨2, 1⟩) with
    | .ok s2 => isAt s2 [⟨0, 1⟩, ⟨1, 1⟩] 1 (some 1) && control s2 ⟨2, 1⟩ == 2 &&
      match s2.exec (.step 0.3) with
      | .ok s3 => isAt s3 [⟨0, 1⟩, ⟨2, 1⟩] 2 none
      | .error _ => false
    | .error _ => false

/-- The tests of three theorems about one run. -/
def manyTest (s s' : Sim Float) : Bool :=
  queueTest s s' && staleTest s s' && match s'.exec (.step 0.3) with
  | .ok s2 => yieldTest s' s2
  | .error _ => false

theorem many : ∃ s s' : Sim Float, Reach True s ∧ Allowed True s (.step 0.3) ∧ s.exec (.step 0.3) = .ok s' ∧
    Reach True s' ∧ manyTest s s' = true :=
  trial_reach (ops := ops (.yield_ 100.0 false 0) (.yield_ 100.0 true 0)) (by decide +kernel)

theorem queue : ∃ s s' : Sim Float, Reach True s ∧ Allowed True s (.step 0.3) ∧ s.exec (.step 0.3) = .ok s' ∧
    Reach True s' ∧ queueTest s s' = true := by
  obtain ⟨s, s', h1, h2, h3, h4, h⟩ := many
  rw [manyTest, Bool.and_eq_true, Bool.and_eq_true] at h
  exact ⟨s, s', h1, h2, h3, h4, h.1.1⟩

theorem yields : ∃ s s' : Sim Float, Reach True s ∧ Allowed True s (.step 0.3) ∧ s.exec (.step 0.3) = .ok s' ∧
    Reach True s' ∧ yieldTest s s' = true := by
  obtain ⟨s, s', h1, h2, h3, h4, h⟩ := many
  rw [manyTest, Bool.and_eq_true] at h
  have h5 := h.2
  split at h5
  · next s2 hs => exact ⟨s', s2, h4, trivial, hs, h4.exec (op := .step 0.3) trivial hs, h5⟩
  · cases h5

theorem stale : ∃ s s' : Sim Float, Reach True s ∧ Allowed True s (.step 0.3) ∧ s.exec (.step 0.3) = .ok s' ∧
    Reach True s' ∧ staleTest s s' = true := by
  obtain ⟨s, s', h1, h2, h3, h4, h⟩ := many
  rw [manyTest, Bool.and_eq_true, Bool.and_eq_true] at h
  exact ⟨s, s', h1, h2, h3, h4, h.1.2⟩

/-- Two links that lead to a third, with a car on each of the two. -/
def merge : List (Op Float) :=
  [.addLink ⟨street (-6.0) 0.0 1.0 0.0 8.0, 10.0⟩, .addLink ⟨street 2.0 (-8.0) 0.0 1.0 8.0, 10.0⟩,
   .addLink ⟨street 2.0 0.0 1.0 0.0 2.0, 10.0⟩,
   .addLinkConnection ⟨0, 1⟩ ⟨2, 1⟩, .addLinkConnection ⟨1, 1⟩ ⟨2, 1⟩, .setLinkControl ⟨2, 1⟩ (.yield_ 100.0 false 0),
   .addVehicle car ⟨0, 1⟩, .setVehicleDestination ⟨0, 1⟩ ⟨2, 1⟩, .step 0.3,
   .addVehicle car ⟨1, 1⟩, .setVehicleDestination ⟨1, 1⟩ ⟨2, 1⟩]

def queuedAt (s : Sim Float) (k : Key) : Option (Option Nat) := (s.vehicles.get? k).map (·.queued)

/-- The first car is queued before the second. -/
def mergeTest (s s' : Sim Float) : Bool :=
  queuedAt s ⟨0, 1⟩ == some none && queuedAt s ⟨1, 1⟩ == some none && queuedAt s' ⟨0, 1⟩ == some (some 1) &&
    queuedAt s' ⟨1, 1⟩ == some (some 2)

theorem merge_queues : ∃ s s' : Sim Float, Reach True s ∧ Allowed True s (.step 0.3) ∧ s.exec (.step 0.3) = .ok s' ∧
    Reach True s' ∧ mergeTest s s' = true :=
  trial_reach (ops := merge) (by decide +kernel)

end Corner

end TrafficSim
