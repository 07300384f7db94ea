import Verif.Lemmas.Light
import Mathlib.Tactic.IntervalCases

/-! # C01 - C05, C07: traffic lights

The specification below talks about a light only through the calls that built it, the steps made,
the masks and times the user supplied, and the states reported by `TrafficLight::state`.
All theorems hold for every number type `[Flt F]`. -/

namespace TrafficSim

section
variable {F : Type} [Flt F]

/-- The light reports state `s` for movement `i`. -/
def Shows (tl : TrafficLight F) (i : Nat) (s : LightState) : Prop := (i, s) ∈ tl.state

/-- The conflict mask the user gave for movement `i` names movement `j`. -/
def Names (tl : TrafficLight F) (i j : Nat) : Prop :=
  ∃ m, tl.movements[i]? = some m ∧ m.conflict.testBit j = true

/-- All that can happen to a light through its public interface, with the history of what was
observed: `h i` lists, newest first, each time step made since movement `i` exists together with
the state reported for movement `i` after that step. -/
inductive LightRun : TrafficLight F → (Nat → List (F × LightState)) → Prop
  | new : LightRun .new (fun _ => [])
  | addMovement {tl h} (conflict : Nat) (amberTime redTime : F) (links : List Key) :
      LightRun tl h → LightRun (tl.addMovement conflict amberTime redTime links) h
  | addPhase {tl h} (mask : Nat) (duration : F) : LightRun tl h → LightRun (tl.addPhase mask duration) h
  | step {tl h tl'} (dt : F) : LightRun tl h → tl.step dt = .ok tl' →
      LightRun tl' (fun i => match tl'.movements[i]? with
        | some m => (dt, m.state) :: h i
        | none => h i)

/-- The state shown last; a movement shows red before the first step. -/
def lastShown : List (F × LightState) → LightState
  | [] => .red
  | (_, s) :: _ => s

/-- For how long the state shown last has been shown, counted in whole steps. -/
def heldFor : List (F × LightState) → F
  | [] => 0.0
  | (dt, s) :: rest => if s = lastShown rest then heldFor rest + dt else dt

/-- The user's configuration is sensible: conflict is symmetric and no phase activates two
different conflicting movements. -/
structure WellPosed (tl : TrafficLight F) : Prop where
  symm : ∀ i j, i < tl.movements.length → j < tl.movements.length → Names tl i j → Names tl j i
  phases : ∀ ph ∈ tl.phases, ∀ i j, i < tl.movements.length → j < tl.movements.length → i ≠ j →
    Names tl i j → ¬ (ph.mask.testBit i = true ∧ ph.mask.testBit j = true)

/-! ### Supporting facts -/

omit [Flt F] in
theorem shows_iff {tl : TrafficLight F} {i : Nat} {s : LightState} :
    Shows tl i s ↔ ∃ m, tl.movements[i]? = some m ∧ m.state = s := by
  simp only [Shows, TrafficLight.state, List.mem_map, Prod.exists, Prod.mk.injEq,
    List.mem_zipIdx_iff_getElem?, List.getElem?_map, Option.map_eq_some_iff]
  constructor
  · rintro ⟨a, b, ⟨m, hm, rfl⟩, rfl, rfl⟩; exact ⟨m, hm, rfl⟩
  · rintro ⟨m, hm, rfl⟩; exact ⟨m.state, i, ⟨m, hm, rfl⟩, rfl, rfl⟩

open TrafficLight in
/-- What one step does to one movement. -/
theorem step_movement {tl tl' : TrafficLight F} {dt : F} (h : tl.step dt = .ok tl')
    (hp : tl.phase < tl.phases.length) :
    tl'.movements.length = tl.movements.length ∧ tl'.phases = tl.phases ∧
    ∃ ph, NextPhase tl tl'.phase ∧ tl.phases[tl'.phase]? = some ph ∧
      ∀ i m, tl.movements[i]? = some m → ∃ m', tl'.movements[i]? = some m' ∧
        m'.conflict = m.conflict ∧ m'.amberTime = m.amberTime ∧ m'.redTime = m.redTime ∧
        m'.active = ph.mask.testBit i ∧
        m'.state = nextSpec (activated ph.mask tl.movements) i { m with active := ph.mask.testBit i } ∧
        m'.since = if m'.state = m.state then m.since + dt else dt := by
  obtain ⟨-, ph, h1, h2, h3, -, h5⟩ := step_spec h hp
  refine ⟨by rw [h5]; simp [activated], h3, ph, h1, h2, ?_⟩
  intro i m hm
  have hg : tl'.movements[i]? = some (stepTo dt { m with active := ph.mask.testBit i }
      (nextSpec (activated ph.mask tl.movements) i { m with active := ph.mask.testBit i })) := by
    rw [h5, List.getElem?_mapIdx, activated_get hm]; rfl
  refine ⟨_, hg, rfl, rfl, rfl, rfl, rfl, ?_⟩
  simp only [stepTo, ite_not, ne_eq]

theorem Names_of_step {tl tl' : TrafficLight F} {dt : F} (h : tl.step dt = .ok tl')
    (hp : tl.phase < tl.phases.length) {i j : Nat} : Names tl i j ↔ Names tl' i j := by
  obtain ⟨hl, -, ph, -, -, hm⟩ := step_movement h hp
  constructor
  · rintro ⟨m, h1, h2⟩
    obtain ⟨m', h3, h4, -⟩ := hm i m h1
    exact ⟨m', h3, by rw [h4]; exact h2⟩
  · rintro ⟨m', h1, h2⟩
    obtain ⟨hlt, -⟩ := List.getElem?_eq_some_iff.1 h1
    obtain ⟨m'', h3, h4, -⟩ := hm i _ (List.getElem?_eq_getElem (hl ▸ hlt))
    rw [h1] at h3; cases h3
    exact ⟨_, List.getElem?_eq_getElem (hl ▸ hlt), by rw [← h4]; exact h2⟩

/-- In every reachable light the phase index is in range and the timers measure what was shown. -/
theorem LightRun.inv {tl : TrafficLight F} {h : Nat → List (F × LightState)} (hr : LightRun tl h) :
    (tl.phases = [] ∧ tl.phase = 0 ∨ tl.phase < tl.phases.length) ∧
    ∀ i, (∀ m, tl.movements[i]? = some m → m.state = lastShown (h i) ∧ m.since = heldFor (h i)) ∧
      (tl.movements[i]? = none → h i = []) := by
  induction hr with
  | new => simp [TrafficLight.new]
  | @addMovement tl h conflict amberTime redTime links _ ih =>
    refine ⟨ih.1, fun i => ⟨fun m hm => ?_, fun hn => ?_⟩⟩
    · simp only [TrafficLight.addMovement] at hm
      rw [List.getElem?_append] at hm
      split at hm
      · exact (ih.2 i).1 m hm
      · rename_i hlt
        have h0 := (ih.2 i).2 (by simp; omega)
        rw [h0]
        cases hi : i - tl.movements.length with
        | zero => simp [hi] at hm; subst hm; exact ⟨rfl, rfl⟩
        | succ n => simp [hi] at hm
    · simp [TrafficLight.addMovement] at hn
      exact (ih.2 i).2 (by simp; omega)
  | addPhase mask duration _ ih =>
    refine ⟨.inr ?_, ih.2⟩
    rcases ih.1 with h | h <;> simp [TrafficLight.addPhase] <;> omega
  | @step tl h tl' dt _ hs ih =>
    have hp : tl.phase < tl.phases.length := by
      rcases ih.1 with h | h
      · obtain ⟨e, he⟩ := TrafficLight.step_err (.inl h.1) dt
        rw [hs] at he; simp at he
      · exact h
    obtain ⟨hl, hph, ph, -, h2, hm⟩ := step_movement hs hp
    refine ⟨.inr ?_, fun i => ⟨fun m' hm' => ?_, fun hn => ?_⟩⟩
    · rw [hph]; obtain ⟨hlt, -⟩ := List.getElem?_eq_some_iff.1 h2; exact hlt
    · obtain ⟨hlt, -⟩ := List.getElem?_eq_some_iff.1 hm'
      have hget := List.getElem?_eq_getElem (hl ▸ hlt)
      obtain ⟨m'', h3, -, -, -, -, -, h8⟩ := hm i _ hget
      rw [hm'] at h3; cases h3
      obtain ⟨g1, g2⟩ := (ih.2 i).1 _ hget
      simp only [hm', heldFor]
      exact ⟨rfl, by rw [h8, g1, g2]⟩
    · simp only [hn]
      apply (ih.2 i).2
      simp at hn ⊢; omega

theorem LightRun.phase_lt {tl : TrafficLight F} {h : Nat → List (F × LightState)} (hr : LightRun tl h)
    (hne : tl.phases ≠ []) : tl.phase < tl.phases.length := by
  rcases hr.inv.1 with h | h
  · exact absurd h.1 hne
  · exact h

theorem LightRun.phase_lt_of_step {tl tl' : TrafficLight F} {h : Nat → List (F × LightState)} {dt : F}
    (hr : LightRun tl h) (hs : tl.step dt = .ok tl') : tl.phase < tl.phases.length := by
  refine hr.phase_lt fun h0 => ?_
  obtain ⟨e, he⟩ := TrafficLight.step_err (.inl h0) dt
  rw [hs] at he; simp at he

/-! ### C03 -/

/-- The legal changes of a signal in one step. -/
def LegalChange : LightState → LightState → Prop
  | .red, s => s = .red ∨ s = .green
  | .green, s => s = .green ∨ s = .amber
  | .amber, s => s = .amber ∨ s = .red ∨ s = .green

/-- **C03** Signals change in the legal order. -/
theorem C03_legal_order {tl tl' : TrafficLight F} {h : Nat → List (F × LightState)} {dt : F}
    (hr : LightRun tl h) (hs : tl.step dt = .ok tl') {i : Nat} {s s' : LightState}
    (h1 : Shows tl i s) (h2 : Shows tl' i s') : LegalChange s s' := by
  obtain ⟨-, -, ph, -, -, hm⟩ := step_movement hs (hr.phase_lt_of_step hs)
  obtain ⟨m, hm1, rfl⟩ := shows_iff.1 h1
  obtain ⟨m', hm2, rfl⟩ := shows_iff.1 h2
  obtain ⟨m'', h3, -, -, -, -, h7, -⟩ := hm i m hm1
  rw [hm2] at h3; cases h3
  rw [h7]
  unfold TrafficLight.nextSpec LegalChange
  cases h : m.state <;> cases hb : ph.mask.testBit i <;> simp <;>
    first
    | exact (Classical.em _).symm
    | (split <;> simp [Classical.or_iff_not_imp_left])

/-! ### C01 -/

theorem WellPosed.of_step {tl tl' : TrafficLight F} {dt : F} (h : tl.step dt = .ok tl')
    (hp : tl.phase < tl.phases.length) (hw : WellPosed tl') : WellPosed tl := by
  obtain ⟨hl, hph, -⟩ := step_movement h hp
  constructor
  · intro i j hi hj hn
    rw [Names_of_step h hp] at hn ⊢
    exact hw.symm i j (hl ▸ hi) (hl ▸ hj) hn
  · intro ph hp' i j hi hj hij hn
    rw [Names_of_step h hp] at hn
    exact hw.phases ph (hph ▸ hp') i j (hl ▸ hi) (hl ▸ hj) hij hn

omit [Flt F] in
theorem Names.lt {tl : TrafficLight F} {i j : Nat} (h : Names tl i j) : i < tl.movements.length := by
  obtain ⟨m, hm, -⟩ := h
  exact (List.getElem?_eq_some_iff.1 hm).1

theorem Names_addMovement {tl : TrafficLight F} {c : Nat} {a r : F} {l : List Key} {i j : Nat}
    (hi : i < tl.movements.length) : Names (tl.addMovement c a r l) i j ↔ Names tl i j := by
  simp [Names, TrafficLight.addMovement, List.getElem?_append, hi]

theorem WellPosed.of_addMovement {tl : TrafficLight F} {c : Nat} {a r : F} {l : List Key}
    (hw : WellPosed (tl.addMovement c a r l)) : WellPosed tl := by
  have hlen : (tl.addMovement c a r l).movements.length = tl.movements.length + 1 := by
    simp [TrafficLight.addMovement]
  constructor
  · intro i j hi hj hn
    rw [← Names_addMovement (c := c) (a := a) (r := r) (l := l) (by assumption)] at hn ⊢
    exact hw.symm i j (by omega) (by omega) hn
  · intro ph hp' i j hi hj hij hn
    rw [← Names_addMovement (c := c) (a := a) (r := r) (l := l) (by assumption)] at hn
    exact hw.phases ph hp' i j (by omega) (by omega) hij hn

omit [Flt F] in
theorem WellPosed.of_addPhase {tl : TrafficLight F} {k : Nat} {d : F}
    (hw : WellPosed (tl.addPhase k d)) : WellPosed tl :=
  ⟨hw.symm, fun ph hp => hw.phases ph (by simp [TrafficLight.addPhase, hp])⟩

/-- If a step turns movement `i` from red to something else, it is active and everything that
conflicts with it was red, and had been for longer than its red time. -/
theorem step_red_green {tl tl' : TrafficLight F} {dt : F} (hs : tl.step dt = .ok tl')
    (hp : tl.phase < tl.phases.length) {i : Nat} {m m' : Movement F}
    (hm : tl.movements[i]? = some m) (hm' : tl'.movements[i]? = some m')
    (hr : m.state = .red) (hn : m'.state ≠ .red) :
    (∃ ph, tl.phases[tl'.phase]? = some ph ∧ ph.mask.testBit i = true) ∧
    ∀ (j : Nat) (mj : Movement F), tl.movements[j]? = some mj → mj.conflict.testBit i = true →
      mj.state = .red ∧ mj.redTime < mj.since := by
  obtain ⟨-, -, ph, -, hph, hmv⟩ := step_movement hs hp
  obtain ⟨m'', h3, -, -, -, -, h7, -⟩ := hmv i m hm
  rw [hm'] at h3; cases h3
  unfold TrafficLight.nextSpec at h7
  rw [hr] at h7
  cases hb : ph.mask.testBit i with
  | false => rw [hb] at h7; exact absurd h7 hn
  | true =>
    simp only [hb] at h7
    split at h7
    · rename_i hc
      refine ⟨⟨ph, hph, hb⟩, fun j mj hmj hcj => ?_⟩
      have := hc { mj with active := ph.mask.testBit j }
        (List.mem_of_getElem? (TrafficLight.activated_get hmj)) hcj
      exact this
    · exact absurd h7 hn

/-- **C01** Two different movements, one of which the user declared to conflict with the other,
never both show amber or green. -/
theorem C01_conflicting_never_both {tl : TrafficLight F} {h : Nat → List (F × LightState)}
    (hr : LightRun tl h) (hw : WellPosed tl) {i j : Nat} {si sj : LightState} (hij : i ≠ j)
    (hn : Names tl i j) (hi : Shows tl i si) (hj : Shows tl j sj) : si = .red ∨ sj = .red := by
  induction hr generalizing i j si sj with
  | new => simp [shows_iff, TrafficLight.new] at hi
  | @addMovement tl h c a r l _ ih =>
    obtain ⟨mi, hmi, rfl⟩ := shows_iff.1 hi
    obtain ⟨mj, hmj, rfl⟩ := shows_iff.1 hj
    have hlast : ∀ (k : Nat) (m : Movement F), (tl.addMovement c a r l).movements[k]? = some m →
        tl.movements[k]? = some m ∨ m.state = .red := by
      intro k m hk
      simp only [TrafficLight.addMovement, List.getElem?_append] at hk
      split at hk
      · exact .inl hk
      · right
        cases hx : k - tl.movements.length with
        | zero => simp [hx] at hk; subst hk; rfl
        | succ n => simp [hx] at hk
    rcases hlast i mi hmi with h1 | h1
    · rcases hlast j mj hmj with h2 | h2
      · refine ih hw.of_addMovement hij ?_ (shows_iff.2 ⟨mi, h1, rfl⟩) (shows_iff.2 ⟨mj, h2, rfl⟩)
        exact (Names_addMovement (List.getElem?_eq_some_iff.1 h1).1).1 hn
      · exact .inr h2
    · exact .inl h1
  | addPhase k d _ ih => exact ih hw.of_addPhase hij hn hi hj
  | @step tl h tl' dt hr hs ih =>
    have hp := hr.phase_lt_of_step hs
    obtain ⟨hl, hph, -⟩ := step_movement hs hp
    obtain ⟨mi', hmi', rfl⟩ := shows_iff.1 hi
    obtain ⟨mj', hmj', rfl⟩ := shows_iff.1 hj
    have hi' := (List.getElem?_eq_some_iff.1 hmi').1
    have hj' := (List.getElem?_eq_some_iff.1 hmj').1
    have hmi := List.getElem?_eq_getElem (hl ▸ hi')
    have hmj := List.getElem?_eq_getElem (hl ▸ hj')
    generalize tl.movements[i]'(hl ▸ hi') = mi at hmi
    generalize tl.movements[j]'(hl ▸ hj') = mj at hmj
    have hn' : Names tl' j i := hw.symm i j hi' hj' hn
    by_contra hcon
    rw [not_or] at hcon
    -- what a movement that was red must have satisfied
    have both : mi.state = .red → mj.state = .red → False := by
      intro h1 h2
      obtain ⟨⟨ph, hp1, hb1⟩, -⟩ := step_red_green hs hp hmi hmi' h1 hcon.1
      obtain ⟨⟨ph', hp2, hb2⟩, -⟩ := step_red_green hs hp hmj hmj' h2 hcon.2
      rw [hp1] at hp2; cases hp2
      exact hw.phases ph (hph ▸ List.mem_of_getElem? hp1) i j hi' hj' hij hn ⟨hb1, hb2⟩
    have hold := ih (hw.of_step hs hp) hij ((Names_of_step hs hp).2 hn) (shows_iff.2 ⟨mi, hmi, rfl⟩)
      (shows_iff.2 ⟨mj, hmj, rfl⟩)
    rcases hold with h1 | h1
    · obtain ⟨m, hm, hc⟩ := (Names_of_step hs hp).2 hn'
      rw [hmj] at hm; cases hm
      exact both h1 ((step_red_green hs hp hmi hmi' h1 hcon.1).2 j mj hmj hc).1
    · obtain ⟨m, hm, hc⟩ := (Names_of_step hs hp).2 hn
      rw [hmi] at hm; cases hm
      exact both ((step_red_green hs hp hmj hmj' h1 hcon.2).2 i mi hmi hc).1 h1

/-! ### C02, C04, C05 -/

/-- **C02** When a movement changes from red to green, every movement that names it has been showing
red for strictly longer than its own red time. -/
theorem C02_red_clearance {tl tl' : TrafficLight F} {h : Nat → List (F × LightState)} {dt : F}
    (hr : LightRun tl h) (hs : tl.step dt = .ok tl') {i j : Nat} {mj : Movement F}
    (h1 : Shows tl i .red) (h2 : Shows tl' i .green)
    (hj : tl.movements[j]? = some mj) (hn : Names tl j i) :
    Shows tl j .red ∧ lastShown (h j) = .red ∧ mj.redTime < heldFor (h j) := by
  obtain ⟨mi, hmi, hri⟩ := shows_iff.1 h1
  obtain ⟨mi', hmi', hgi⟩ := shows_iff.1 h2
  obtain ⟨m, hm, hc⟩ := hn
  rw [hj] at hm; cases hm
  obtain ⟨g1, g2⟩ :=
    (step_red_green hs (hr.phase_lt_of_step hs) hmi hmi' hri (by rw [hgi]; simp)).2 j mj hj hc
  obtain ⟨e1, e2⟩ := (hr.inv.2 j).1 mj hj
  exact ⟨shows_iff.2 ⟨mj, hj, g1⟩, e1 ▸ g1, e2 ▸ g2⟩

/-- **C04** A movement changes from amber to red only after it has shown amber for at least the amber
time. -/
theorem C04_amber_held {tl tl' : TrafficLight F} {h : Nat → List (F × LightState)} {dt : F}
    (hr : LightRun tl h) (hs : tl.step dt = .ok tl') {i : Nat} {m : Movement F}
    (hm : tl.movements[i]? = some m) (h1 : Shows tl i .amber) (h2 : Shows tl' i .red) :
    lastShown (h i) = .amber ∧ m.amberTime ≤ heldFor (h i) := by
  obtain ⟨-, -, ph, -, -, hmv⟩ := step_movement hs (hr.phase_lt_of_step hs)
  obtain ⟨m1, hm1, hs1⟩ := shows_iff.1 h1
  rw [hm] at hm1; cases hm1
  obtain ⟨m', hm2, hs2⟩ := shows_iff.1 h2
  obtain ⟨m'', h3, -, -, -, -, h7, -⟩ := hmv i m hm
  rw [hm2] at h3; cases h3
  obtain ⟨e1, e2⟩ := (hr.inv.2 i).1 m hm
  refine ⟨e1 ▸ hs1, ?_⟩
  rw [← e2]
  unfold TrafficLight.nextSpec at h7
  rw [hs2, hs1] at h7
  cases hb : ph.mask.testBit i <;> simp [hb] at h7
  by_contra hc
  simp [hc] at h7

/-- Every movement that phase `ph` activates shows green and has done so for the phase's duration. -/
def GreenTimeOver (tl : TrafficLight F) (h : Nat → List (F × LightState)) (ph : Phase F) : Prop :=
  ∀ i, i < tl.movements.length → ph.mask.testBit i = true →
    Shows tl i .green ∧ ph.duration ≤ heldFor (h i)

theorem greenTimeOver_iff {tl : TrafficLight F} {h : Nat → List (F × LightState)}
    (hr : LightRun tl h) (ph : Phase F) :
    GreenTimeOver tl h ph ↔ TrafficLight.Complete ph.mask ph.duration 0 tl.movements := by
  constructor
  · intro hg j m hm hb
    rw [Nat.zero_add] at hb
    obtain ⟨h1, h2⟩ := hg j (List.getElem?_eq_some_iff.1 hm).1 hb
    obtain ⟨m', hm', hs⟩ := shows_iff.1 h1
    rw [hm] at hm'; cases hm'
    exact ⟨hs, by rw [((hr.inv.2 j).1 m hm).2]; exact h2⟩
  · intro hc i hi hb
    have hm := List.getElem?_eq_getElem hi
    obtain ⟨h1, h2⟩ := hc i _ hm (by rw [Nat.zero_add]; exact hb)
    exact ⟨shows_iff.2 ⟨_, hm, h1⟩, by rw [← ((hr.inv.2 i).1 _ hm).2]; exact h2⟩

/-- **C05** A step moves on to the cyclically next phase exactly if the green time of the current
phase is over, and otherwise stays in it. -/
theorem C05_phase_order {tl tl' : TrafficLight F} {h : Nat → List (F × LightState)} {dt : F}
    (hr : LightRun tl h) (hs : tl.step dt = .ok tl') :
    ∃ ph, tl.phases[tl.phase]? = some ph ∧ tl'.phases = tl.phases ∧
      (GreenTimeOver tl h ph → tl'.phase = (tl.phase + 1) % tl.phases.length) ∧
      (¬ GreenTimeOver tl h ph → tl'.phase = tl.phase) := by
  obtain ⟨-, hph, _, ⟨ph, h1, h2, h3⟩, -, -⟩ := step_movement hs (hr.phase_lt_of_step hs)
  exact ⟨ph, h1, hph, by rw [greenTimeOver_iff hr]; exact h2, by rw [greenTimeOver_iff hr]; exact h3⟩

/-! ### C07 -/

/-- **C07** Stepping a light succeeds exactly if it has a phase and at most 64 movements. -/
theorem C07_step_ok_iff {tl : TrafficLight F} {h : Nat → List (F × LightState)} (hr : LightRun tl h)
    (dt : F) :
    (∃ tl', tl.step dt = .ok tl') ↔ tl.phases ≠ [] ∧ tl.movements.length ≤ 64 := by
  constructor
  · rintro ⟨tl', hs⟩
    have hp := hr.phase_lt_of_step hs
    exact ⟨by intro h0; simp [h0] at hp, (TrafficLight.step_spec hs hp).1⟩
  · rintro ⟨h1, h2⟩
    obtain ⟨p, ph, -, -, hok⟩ := TrafficLight.step_ok (hr.phase_lt h1) h2 dt
    exact ⟨_, hok⟩

/-! ### Non-vacuity: a light with two conflicting movements and two phases -/

/-- Two movements that conflict, each with amber time 3 and red time 1; two phases of 5. -/
def demoLight : TrafficLight F :=
  (((TrafficLight.new.addMovement 2 3.0 1.0 [⟨0, 1⟩]).addMovement 1 3.0 1.0 [⟨1, 1⟩]).addPhase 1 5.0).addPhase
    2 5.0

theorem demoLight_run : LightRun (demoLight (F := F)) (fun _ => []) :=
  .addPhase _ _ (.addPhase _ _ (.addMovement _ _ _ _ (.addMovement _ _ _ _ .new)))

theorem demoLight_wellPosed : WellPosed (demoLight (F := F)) := by
  have hlen : (demoLight (F := F)).movements.length = 2 := rfl
  constructor
  · intro i j hi hj
    rw [hlen] at hi hj
    interval_cases i <;> interval_cases j <;> simp [Names, demoLight, TrafficLight.addMovement,
      TrafficLight.addPhase, TrafficLight.new, Nat.testBit]
  · intro ph hp i j hi hj hij
    rw [hlen] at hi hj
    have hp : ph = ⟨1, 5.0⟩ ∨ ph = ⟨2, 5.0⟩ := by
      simpa [demoLight, TrafficLight.addMovement, TrafficLight.addPhase, TrafficLight.new] using hp
    interval_cases i <;> interval_cases j <;> rcases hp with rfl | rfl <;>
      simp [Nat.testBit] at hij ⊢

/-- C01 and C07 apply to the demo light: the movements conflict and the light can be stepped. -/
example : LightRun (demoLight (F := F)) (fun _ => []) ∧ WellPosed (demoLight (F := F)) ∧
    Names (demoLight (F := F)) 0 1 ∧ ∃ tl', (demoLight (F := F)).step 1.0 = .ok tl' :=
  ⟨demoLight_run, demoLight_wellPosed, ⟨_, rfl, show Nat.testBit 2 1 = true by decide⟩,
    (C07_step_ok_iff demoLight_run _).2 ⟨by simp [demoLight, TrafficLight.addPhase], by
      simp [demoLight, TrafficLight.addPhase, TrafficLight.addMovement, TrafficLight.new]⟩⟩

/-- The states shown after `n` steps of length `dt`. -/
def demoShown (dt : Float) (n : Nat) : M (List LightState × Nat) := do
  let tl ← (List.replicate n dt).foldlM TrafficLight.step (demoLight (F := Float))
  pure (tl.movements.map (·.state), tl.phase)

/-- C02 - C05 are about changes that do happen: in binary64 with a step of one second the demo light
shows red-red, then red changes to green (C02), green to amber (C05), amber to red (C04), and the
other movement turns green. -/
example : (demoShown 1.0 1 = .ok ([.red, .red], 0)) ∧ (demoShown 1.0 3 = .ok ([.green, .red], 0)) ∧
    (demoShown 1.0 8 = .ok ([.amber, .red], 1)) ∧ (demoShown 1.0 10 = .ok ([.amber, .red], 1)) ∧
    (demoShown 1.0 11 = .ok ([.red, .red], 1)) ∧ (demoShown 1.0 13 = .ok ([.red, .green], 1)) := by
  decide +kernel

end

end TrafficSim
