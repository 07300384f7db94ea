import Verif.Model.Light
import Verif.Lemmas.Except

/-! # Facts about `TrafficLight::step` -/

namespace TrafficSim
namespace TrafficLight

section
variable {F : Type} [Flt F]

theorem maskBit_lt {mask i : Nat} (h : i < 64) : maskBit mask i = .ok (mask.testBit i) := by
  simp [maskBit, Nat.not_le.2 h, pure, Except.pure]

theorem maskBit_ge {mask i : Nat} (h : 64 ≤ i) : maskBit mask i = .error .shiftOverflow := by
  simp [maskBit, h, throw, throwThe, MonadExceptOf.throw]

/-- Every movement that the mask activates is green and has been for `duration`. -/
def Complete (mask : Nat) (duration : F) (i : Nat) (ms : List (Movement F)) : Prop :=
  ∀ j m, ms[j]? = some m → mask.testBit (i + j) = true → m.state = .green ∧ duration ≤ m.since

theorem Complete_cons {mask : Nat} {duration : F} {i : Nat} {m : Movement F} {ms : List (Movement F)} :
    Complete mask duration i (m :: ms) ↔
      (mask.testBit i = true → m.state = .green ∧ duration ≤ m.since) ∧
      Complete mask duration (i + 1) ms := by
  constructor
  · intro h
    refine ⟨fun hb => h 0 m (by simp) (by simpa using hb), fun j m' hm hb => h (j + 1) m' (by simpa using hm) ?_⟩
    rw [show i + (j + 1) = i + 1 + j by omega]; exact hb
  · rintro ⟨h0, h⟩ j m' hm hb
    cases j with
    | zero => simp at hm; subst hm; exact h0 (by simpa using hb)
    | succ j =>
      exact h j m' (by simpa using hm) (by rw [show i + 1 + j = i + (j + 1) by omega]; exact hb)

theorem phaseComplete_ok {mask : Nat} {duration : F} {i : Nat} {ms : List (Movement F)}
    (h : i + ms.length ≤ 64) :
    ∃ b, phaseComplete mask duration i ms = .ok b ∧ (b = true ↔ Complete mask duration i ms) := by
  induction ms generalizing i with
  | nil => exact ⟨true, rfl, by simp [Complete]⟩
  | cons m ms ih =>
    simp only [List.length_cons] at h
    obtain ⟨b, hb, hbc⟩ := ih (i := i + 1) (by omega)
    simp only [phaseComplete, maskBit_lt (show i < 64 by omega), bind, Except.bind, Complete_cons]
    by_cases hm : mask.testBit i = true
    · by_cases hg : m.state = .green ∧ duration ≤ m.since
      · exact ⟨b, by simp [hm, hg, hb], by simp [hbc, hg]⟩
      · refine ⟨false, by simp [hm, hg], ?_⟩
        simp only [Bool.false_eq_true, false_iff]
        exact fun hc => hg (hc.1 hm)
    · exact ⟨b, by simp [hm, hb], by simp [hm, hbc]⟩

omit [Flt F] in
theorem applyMask_ok {mask i : Nat} {ms : List (Movement F)} (h : i + ms.length ≤ 64) :
    applyMask mask i ms =
      .ok (ms.mapIdx fun j m => { m with active := mask.testBit (i + j) }) := by
  induction ms generalizing i with
  | nil => rfl
  | cons m ms ih =>
    simp only [List.length_cons] at h
    simp only [applyMask, maskBit_lt (show i < 64 by omega), ih (i := i + 1) (by omega), bind,
      Except.bind, pure, Except.pure, List.mapIdx_cons, Nat.add_zero]
    congr 3
    funext j m
    congr 2
    omega

omit [Flt F] in
theorem applyMask_err {mask i : Nat} {ms : List (Movement F)} (h : 64 < i + ms.length) (hi : i ≤ 64) :
    applyMask mask i ms = .error .shiftOverflow := by
  induction ms generalizing i with
  | nil => simp at h; omega
  | cons m ms ih =>
    simp only [List.length_cons] at h
    by_cases hi' : i = 64
    · simp [applyMask, maskBit_ge (show 64 ≤ i by omega), bind, Except.bind]
    · simp [applyMask, maskBit_lt (show i < 64 by omega), ih (i := i + 1) (by omega) (by omega), bind,
        Except.bind]

/-- A movement whose mask names `i` is clear: red for longer than its red time. -/
def Clear (ms : List (Movement F)) (i : Nat) : Prop :=
  ∀ m ∈ ms, m.conflict.testBit i = true → m.state = .red ∧ m.redTime < m.since

open Classical in
/-- The next shown state of a movement. -/
noncomputable def nextSpec (ms : List (Movement F)) (i : Nat) (m : Movement F) : LightState :=
  match m.active, m.state with
  | false, .green => .amber
  | false, .amber => if m.amberTime ≤ m.since then .red else .amber
  | true, .amber => .green
  | true, .red => if Clear ms i then .green else .red
  | _, s => s

theorem canTurnGreen_ok {ms : List (Movement F)} {i : Nat} (h : i < 64) :
    ∃ b, canTurnGreen ms i = .ok b ∧ (b = true ↔ Clear ms i) := by
  refine ⟨_, by simp only [canTurnGreen, ge_iff_le, Nat.not_le.2 h, if_false]; rfl, ?_⟩
  simp only [List.all_eq_true, List.mem_filter, Bool.and_eq_true, decide_eq_true_eq, and_imp, Clear]

theorem nextOf_ok {ms : List (Movement F)} {i : Nat} {m : Movement F} (h : i < 64) :
    nextOf ms i m = .ok (nextSpec ms i m) := by
  obtain ⟨b, hb, hbc⟩ := canTurnGreen_ok (ms := ms) h
  unfold nextOf nextSpec
  split <;> simp_all [pure, Except.pure]
  · split <;> rfl
  · by_cases hc : Clear ms i
    · simp [hc, hbc.2 hc]
    · have : b = false := by cases b <;> simp_all
      simp [hc, this]

theorem computeNext_ok {all : List (Movement F)} {i : Nat} {ms : List (Movement F)}
    (h : i + ms.length ≤ 64) :
    computeNext all i ms =
      .ok (ms.mapIdx fun j m => { m with nextState := nextSpec all (i + j) m }) := by
  induction ms generalizing i with
  | nil => rfl
  | cons m ms ih =>
    simp only [List.length_cons] at h
    simp only [computeNext, nextOf_ok (show i < 64 by omega), ih (i := i + 1) (by omega), bind,
      Except.bind, pure, Except.pure, List.mapIdx_cons, Nat.add_zero]
    congr 3
    funext j m
    congr 2
    omega

/-- The phase after one step. -/
def NextPhase (tl : TrafficLight F) (p : Nat) : Prop :=
  ∃ ph, tl.phases[tl.phase]? = some ph ∧
    (Complete ph.mask ph.duration 0 tl.movements → p = (tl.phase + 1) % tl.phases.length) ∧
    (¬ Complete ph.mask ph.duration 0 tl.movements → p = tl.phase)

/-- The movements after the phase mask has been applied. -/
def activated (mask : Nat) (ms : List (Movement F)) : List (Movement F) :=
  ms.mapIdx fun j m => { m with active := mask.testBit j }

/-- The new record of a movement whose next shown state is `st`. -/
def stepTo (dt : F) (m : Movement F) (st : LightState) : Movement F :=
  { m with state := st, nextState := st, since := if st ≠ m.state then dt else m.since + dt }

omit [Flt F] in
theorem activated_length (mask : Nat) (ms : List (Movement F)) :
    (activated mask ms).length = ms.length := by simp [activated]

theorem step_ok {tl : TrafficLight F} (hp : tl.phase < tl.phases.length)
    (hm : tl.movements.length ≤ 64) (dt : F) :
    ∃ p ph, NextPhase tl p ∧ tl.phases[p]? = some ph ∧
      tl.step dt = .ok { tl with
        phase := p
        movements := (activated ph.mask tl.movements).mapIdx fun i m =>
          stepTo dt m (nextSpec (activated ph.mask tl.movements) i m) } := by
  obtain ⟨b, hb, hbc⟩ := phaseComplete_ok (mask := (tl.phases[tl.phase]).mask)
    (duration := (tl.phases[tl.phase]).duration) (i := 0) (ms := tl.movements) (by omega)
  have hph : tl.phases[tl.phase]? = some tl.phases[tl.phase] := by simp [hp]
  have hne : tl.phases.isEmpty = false := by
    cases h : tl.phases with
    | nil => simp [h] at hp
    | cons _ _ => rfl
  have key : ∀ (tl1 : TrafficLight F) (h1 : tl1.phase < tl1.phases.length),
      tl1.movements.length ≤ 64 →
      (do
        let tl ← tl1.applyPhase
        let ms ← computeNext tl.movements 0 tl.movements
        pure { tl with movements := ms.map (stepMovement dt) } : M (TrafficLight F)) =
      .ok { tl1 with
        movements := (activated (tl1.phases[tl1.phase]).mask tl1.movements).mapIdx fun i m =>
          stepTo dt m (nextSpec (activated (tl1.phases[tl1.phase]).mask tl1.movements) i m) } := by
    intro tl1 h1 hm1
    have h2 : tl1.phases[tl1.phase]? = some tl1.phases[tl1.phase] := by simp [h1]
    simp only [applyPhase, h2, applyMask_ok (i := 0) (ms := tl1.movements) (by omega), bind,
      Except.bind, pure, Except.pure, Nat.zero_add]
    rw [computeNext_ok (by simp; omega)]
    simp only [Nat.zero_add]
    congr 2
    apply List.ext_getElem
    · simp [activated]
    · intro i _ _
      simp only [List.getElem_map, List.getElem_mapIdx, activated, stepMovement, stepTo]
      split <;> rename_i h <;> simp at h <;> simp [h]
  cases b with
  | true =>
    have hc := hbc.1 rfl
    have hlt : (tl.phase + 1) % tl.phases.length < tl.phases.length := Nat.mod_lt _ (by omega)
    refine ⟨(tl.phase + 1) % tl.phases.length, tl.phases[(tl.phase + 1) % tl.phases.length], ?_, ?_, ?_⟩
    · exact ⟨_, hph, fun _ => rfl, fun h => absurd hc h⟩
    · simp [hlt]
    · simp only [step, updatePhase, hne, hph, hb, bind, Except.bind, Bool.false_eq_true, if_false]
      exact key { tl with phase := (tl.phase + 1) % tl.phases.length } hlt hm
  | false =>
    have hc : ¬ Complete (tl.phases[tl.phase]).mask (tl.phases[tl.phase]).duration 0 tl.movements := by
      rw [← hbc]; simp
    refine ⟨tl.phase, tl.phases[tl.phase], ?_, hph, ?_⟩
    · exact ⟨_, hph, fun h => absurd h hc, fun _ => rfl⟩
    · simp only [step, updatePhase, hne, hph, hb, bind, Except.bind, Bool.false_eq_true, if_false]
      exact key tl hp hm

theorem updatePhase_fields {tl tl' : TrafficLight F} (h : tl.updatePhase = .ok tl') :
    tl'.movements = tl.movements ∧ tl'.phases = tl.phases ∧ tl'.links = tl.links ∧
      (tl.phase < tl.phases.length → tl'.phase < tl'.phases.length) := by
  unfold updatePhase at h
  split at h
  · simp at h; subst h; simp
  · split at h
    · simp at h
    · rename_i ph hph
      simp only [M_bind_ok] at h
      obtain ⟨b, hb, h⟩ := h
      split at h
      · simp at h; subst h
        simp
        intro h; exact Nat.mod_lt _ (by omega)
      · simp at h; subst h; simp

/-- A light without phases, or with more than 64 movements, cannot be stepped. -/
theorem step_err {tl : TrafficLight F} (h : tl.phases = [] ∨ 64 < tl.movements.length) (dt : F) :
    ∃ e, tl.step dt = .error e := by
  cases hs : tl.step dt with
  | error e => exact ⟨e, rfl⟩
  | ok tl' =>
    exfalso
    unfold step at hs
    simp only [M_bind_ok] at hs
    obtain ⟨t1, h1, t2, h2, -⟩ := hs
    obtain ⟨hm, hp, -, -⟩ := updatePhase_fields h1
    unfold applyPhase at h2
    rcases h with h | h
    · rw [hp, h] at h2
      simp at h2
    · split at h2
      · simp at h2
      · rw [applyMask_err (by rw [hm]; omega) (by omega)] at h2
        simp at h2

/-- The result of a successful step, movement by movement. -/
theorem step_spec {tl tl' : TrafficLight F} {dt : F} (h : tl.step dt = .ok tl')
    (hp : tl.phase < tl.phases.length) :
    tl.movements.length ≤ 64 ∧ ∃ ph, NextPhase tl tl'.phase ∧ tl.phases[tl'.phase]? = some ph ∧
      tl'.phases = tl.phases ∧ tl'.links = tl.links ∧
      tl'.movements = (activated ph.mask tl.movements).mapIdx fun i m =>
        stepTo dt m (nextSpec (activated ph.mask tl.movements) i m) := by
  have hm : tl.movements.length ≤ 64 := by
    by_contra hc
    obtain ⟨e, he⟩ := step_err (tl := tl) (.inr (by omega)) dt
    rw [he] at h; simp at h
  obtain ⟨p, ph, h1, h2, h3⟩ := step_ok hp hm dt
  rw [h3] at h
  simp only [Except.ok.injEq] at h
  subst h
  exact ⟨hm, ph, h1, h2, rfl, rfl, rfl⟩

omit [Flt F] in
/-- Reading one movement of the activated list. -/
theorem activated_get {mask : Nat} {ms : List (Movement F)} {i : Nat} {m : Movement F}
    (h : ms[i]? = some m) :
    (activated mask ms)[i]? = some { m with active := mask.testBit i } := by
  simp [activated, h]

end

end TrafficLight
end TrafficSim
