import Verif.Props.Light
import Mathlib.Tactic.Linarith
import Mathlib.Algebra.Order.Archimedean.Basic

/-! # C06: traffic lights are live

Stated over the reals: in binary64 a timer that is much larger than the time step stops growing, so
the claim is about exact arithmetic. -/

namespace TrafficSim

/-- `n` steps of length `dt`. -/
def lightSteps {F : Type} [Flt F] (dt : F) : Nat → TrafficLight F → M (TrafficLight F)
  | 0, tl => pure tl
  | n + 1, tl => do
    let tl ← lightSteps dt n tl
    tl.step dt

/-- The light is in phase `p` and all movements of that phase show green. -/
def PhaseGreen {F : Type} (tl : TrafficLight F) (p : Nat) : Prop :=
  tl.phase = p ∧ ∃ ph, tl.phases[p]? = some ph ∧
    ∀ i, i < tl.movements.length → ph.mask.testBit i = true → Shows tl i .green

namespace LightLive

theorem lightSteps_add {F : Type} [Flt F] {dt : F} {a b : Nat} {tl tl1 tl2 : TrafficLight F}
    (h1 : lightSteps dt a tl = .ok tl1) (h2 : lightSteps dt b tl1 = .ok tl2) :
    lightSteps dt (a + b) tl = .ok tl2 := by
  induction b generalizing tl2 with
  | zero =>
    simp only [lightSteps, M_pure_ok] at h2
    subst h2; exact h1
  | succ b ih =>
    simp only [lightSteps, M_bind_ok] at h2
    obtain ⟨t, ht, h2⟩ := h2
    rw [← Nat.add_assoc]
    simp only [lightSteps, M_bind_ok]
    exact ⟨t, ih ht, h2⟩

/-- What the liveness argument uses about a light; kept by every step. -/
structure Live (tl : TrafficLight ℝ) : Prop where
  phase : tl.phase < tl.phases.length
  len : tl.movements.length ≤ 64
  posed : WellPosed tl

theorem Live.step {tl : TrafficLight ℝ} (hl : Live tl) (dt : ℝ) :
    ∃ tl', tl.step dt = .ok tl' ∧ Live tl' := by
  obtain ⟨p, ph, -, hph, hs⟩ := TrafficLight.step_ok hl.phase hl.len dt
  refine ⟨_, hs, ?_⟩
  obtain ⟨h1, h2, -⟩ := step_movement hs hl.phase
  refine ⟨?_, by rw [h1]; exact hl.len, ?_⟩
  · exact (List.getElem?_eq_some_iff.1 hph).1
  · constructor
    · intro i j hi hj hn
      rw [← Names_of_step hs hl.phase] at hn ⊢
      exact hl.posed.symm i j (h1 ▸ hi) (h1 ▸ hj) hn
    · intro ph hp' i j hi hj hij hn
      rw [← Names_of_step hs hl.phase] at hn
      exact hl.posed.phases ph hp' i j (h1 ▸ hi) (h1 ▸ hj) hij hn

theorem Live.steps {tl : TrafficLight ℝ} (hl : Live tl) (dt : ℝ) (n : Nat) :
    ∃ tl', lightSteps dt n tl = .ok tl' ∧ Live tl' := by
  induction n with
  | zero => exact ⟨tl, rfl, hl⟩
  | succ n ih =>
    obtain ⟨t, ht, hlt⟩ := ih
    obtain ⟨t', ht', hlt'⟩ := hlt.step dt
    exact ⟨t', by simp only [lightSteps, M_bind_ok]; exact ⟨t, ht, ht'⟩, hlt'⟩

/-- A real number above `f` on a finite list. -/
theorem exists_bound {α : Type} (l : List α) (f : α → ℝ) : ∃ b, ∀ a ∈ l, f a ≤ b := by
  induction l with
  | nil => exact ⟨0, by simp⟩
  | cons a l ih =>
    obtain ⟨b, hb⟩ := ih
    refine ⟨max (f a) b, fun x hx => ?_⟩
    rcases List.mem_cons.1 hx with rfl | h
    · exact le_max_left _ _
    · exact (hb x h).trans (le_max_right _ _)

/-- A natural multiple of `dt` above `x`. -/
theorem exists_mul {dt : ℝ} (h : 0 < dt) (x : ℝ) : ∃ n : Nat, x ≤ n * dt := by
  obtain ⟨n, hn⟩ := exists_nat_ge (x / dt)
  exact ⟨n, by rwa [div_le_iff₀ h] at hn⟩

/-- Bounds on the configured times of a light (which steps do not change) and on its timers. -/
structure Bounds (tl : TrafficLight ℝ) (A : ℝ) : Prop where
  amber : ∀ m ∈ tl.movements, m.amberTime ≤ A
  red : ∀ m ∈ tl.movements, m.redTime ≤ A

theorem Bounds.step {tl tl' : TrafficLight ℝ} {A dt : ℝ} (hb : Bounds tl A)
    (hp : tl.phase < tl.phases.length) (hs : tl.step dt = .ok tl') : Bounds tl' A := by
  obtain ⟨h1, -, ph, -, -, h3⟩ := step_movement hs hp
  have key : ∀ m' ∈ tl'.movements, ∃ m ∈ tl.movements,
      m'.amberTime = m.amberTime ∧ m'.redTime = m.redTime := by
    intro m' hm'
    obtain ⟨i, hi, rfl⟩ := List.mem_iff_getElem.1 hm'
    obtain ⟨m'', h4, -, h5, h6, -⟩ := h3 i _ (List.getElem?_eq_getElem (h1 ▸ hi))
    rw [List.getElem?_eq_getElem hi] at h4; cases h4
    exact ⟨_, List.getElem_mem _, h5, h6⟩
  constructor <;> intro m' hm' <;> obtain ⟨m, hm, e1, e2⟩ := key m' hm'
  · rw [e1]; exact hb.amber m hm
  · rw [e2]; exact hb.red m hm

/-- The movements activated by `ph` show green. -/
def AllGreen (tl : TrafficLight ℝ) (ph : Phase ℝ) : Prop :=
  ∀ (i : Nat) (m : Movement ℝ), tl.movements[i]? = some m → ph.mask.testBit i = true → m.state = .green

/-- Progress made after `k` steps inside one phase: `B ≤ 0` bounds the timers at the start from
below, amber is over after `c` steps. -/
def Progress (tl : TrafficLight ℝ) (ph : Phase ℝ) (B dt : ℝ) (c k : Nat) : Prop :=
  ∀ (i : Nat) (m : Movement ℝ), tl.movements[i]? = some m →
    (ph.mask.testBit i = false →
      (m.state = .amber ∧ k ≤ c ∧ B + k * dt ≤ m.since) ∨
      (m.state = .red ∧ B + ((k : ℝ) - c) * dt ≤ m.since)) ∧
    (ph.mask.testBit i = true → m.state = .green ∨
      (m.state = .red ∧ B + k * dt ≤ m.since))

open TrafficLight in
/-- One step inside a phase whose movements are not all green. -/
theorem step_inside {tl : TrafficLight ℝ} (hl : Live tl) {ph : Phase ℝ}
    (hph : tl.phases[tl.phase]? = some ph) (hng : ¬ AllGreen tl ph) (dt : ℝ) :
    ∃ tl', tl.step dt = .ok tl' ∧ Live tl' ∧ tl'.phases = tl.phases ∧ tl'.phase = tl.phase ∧
      tl'.movements.length = tl.movements.length ∧
      ∀ i m, tl.movements[i]? = some m → ∃ m', tl'.movements[i]? = some m' ∧
        m'.state = nextSpec (activated ph.mask tl.movements) i { m with active := ph.mask.testBit i } ∧
        m'.since = if m'.state = m.state then m.since + dt else dt := by
  obtain ⟨tl', hs, hl'⟩ := hl.step dt
  obtain ⟨h1, h2, ph', ⟨ph0, h3, h4, h5⟩, h6, h7⟩ := step_movement hs hl.phase
  rw [hph] at h3; cases h3
  have hnp : tl'.phase = tl.phase := by
    apply h5
    intro hc
    exact hng fun i m hm hb => (hc i m hm (by rw [Nat.zero_add]; exact hb)).1
  rw [hnp, hph] at h6; cases h6
  refine ⟨tl', hs, hl', h2, hnp, h1, fun i m hm => ?_⟩
  obtain ⟨m', g1, -, -, -, -, g5, g6⟩ := h7 i m hm
  exact ⟨m', g1, g5, g6⟩

open TrafficLight in
theorem progress_start {tl tl' : TrafficLight ℝ} {ph : Phase ℝ} {B dt : ℝ} {c : Nat} (hdt : 0 < dt)
    (hB0 : B ≤ 0) (hB : ∀ m ∈ tl.movements, B ≤ m.since) (hc1 : 1 ≤ c)
    (hlen : tl'.movements.length = tl.movements.length)
    (hmv : ∀ (i : Nat) (m : Movement ℝ), tl.movements[i]? = some m →
        ∃ m' : Movement ℝ, tl'.movements[i]? = some m' ∧
        m'.state = nextSpec (activated ph.mask tl.movements) i { m with active := ph.mask.testBit i } ∧
        m'.since = if m'.state = m.state then m.since + dt else dt) :
    Progress tl' ph B dt c 1 := by
  intro i m' hm'
  have hi := (List.getElem?_eq_some_iff.1 hm').1
  have hget := List.getElem?_eq_getElem (hlen ▸ hi)
  obtain ⟨m'', h1, h2, h3⟩ := hmv i _ hget
  rw [hm'] at h1; cases h1
  have hsin := hB _ (List.mem_of_getElem? hget)
  generalize tl.movements[i]'(hlen ▸ hi) = m at hget h2 h3 hsin
  unfold nextSpec at h2
  have hc1' : (1 : ℝ) ≤ c := by exact_mod_cast hc1
  have hcd : (1 - (c : ℝ)) * dt ≤ 0 := mul_nonpos_of_nonpos_of_nonneg (by linarith) hdt.le
  push_cast
  constructor
  · intro hbit
    cases hst : m.state <;> simp [hst, hbit] at h2
    · right; refine ⟨h2, ?_⟩
      rw [h3, h2, hst, if_pos rfl]; linarith
    · split at h2
      · right; refine ⟨h2, ?_⟩
        rw [h3, h2, hst, if_neg (by simp)]; linarith
      · left; refine ⟨h2, hc1, ?_⟩
        rw [h3, h2, hst, if_pos rfl]; linarith
    · left; refine ⟨h2, hc1, ?_⟩
      rw [h3, h2, hst, if_neg (by simp)]; linarith
  · intro hbit
    cases hst : m.state <;> simp [hst, hbit] at h2
    · split at h2
      · left; exact h2
      · right; refine ⟨h2, ?_⟩
        rw [h3, h2, hst, if_pos rfl]; linarith
    · left; exact h2
    · left; exact h2

open TrafficLight in
theorem progress_next {tl tl' : TrafficLight ℝ} {ph : Phase ℝ} {A B dt : ℝ} {c k : Nat} (hdt : 0 < dt)
    (hB0 : B ≤ 0) (hbd : Bounds tl A) (hc : A - B ≤ c * dt)
    (hlen : tl'.movements.length = tl.movements.length)
    (hmv : ∀ (i : Nat) (m : Movement ℝ), tl.movements[i]? = some m →
        ∃ m' : Movement ℝ, tl'.movements[i]? = some m' ∧
        m'.state = nextSpec (activated ph.mask tl.movements) i { m with active := ph.mask.testBit i } ∧
        m'.since = if m'.state = m.state then m.since + dt else dt)
    (hpr : Progress tl ph B dt c k) : Progress tl' ph B dt c (k + 1) := by
  intro i m' hm'
  have hi := (List.getElem?_eq_some_iff.1 hm').1
  have hget := List.getElem?_eq_getElem (hlen ▸ hi)
  obtain ⟨m'', h1, h2, h3⟩ := hmv i _ hget
  rw [hm'] at h1; cases h1
  have ham := hbd.amber _ (List.mem_of_getElem? hget)
  have hpm := hpr i _ hget
  generalize tl.movements[i]'(hlen ▸ hi) = m at hget h2 h3 hpm ham
  unfold nextSpec at h2
  push_cast
  constructor
  · intro hbit
    rcases hpm.1 hbit with ⟨hst, hk, hsin⟩ | ⟨hst, hsin⟩
    · simp [hst, hbit] at h2
      split at h2
      · right; refine ⟨h2, ?_⟩
        rw [h3, h2, hst, if_neg (by simp)]
        have : (k : ℝ) ≤ c := by exact_mod_cast hk
        nlinarith
      · rename_i hlt
        have hkc : k < c := by
          by_contra hcc
          have : (c : ℝ) ≤ k := by exact_mod_cast Nat.le_of_not_lt hcc
          apply hlt
          nlinarith
        left; refine ⟨h2, hkc, ?_⟩
        rw [h3, h2, hst, if_pos rfl]; linarith
    · simp [hst, hbit] at h2
      right; refine ⟨h2, ?_⟩
      rw [h3, h2, hst, if_pos rfl]; linarith
  · intro hbit
    rcases hpm.2 hbit with hst | ⟨hst, hsin⟩
    · simp [hst, hbit] at h2
      exact .inl h2
    · simp [hst, hbit] at h2
      split at h2
      · exact .inl h2
      · right; refine ⟨h2, ?_⟩
        rw [h3, h2, hst, if_pos rfl]; linarith

open TrafficLight in
theorem reach_green {tl : TrafficLight ℝ} (hl : Live tl) {dt : ℝ} (hdt : 0 < dt) {ph : Phase ℝ}
    (hph : tl.phases[tl.phase]? = some ph) :
    ∃ n tl', lightSteps dt n tl = .ok tl' ∧ Live tl' ∧ tl'.phases = tl.phases ∧
      tl'.phase = tl.phase ∧ AllGreen tl' ph := by
  obtain ⟨a1, ha1⟩ := exists_bound tl.movements (·.amberTime)
  obtain ⟨a2, ha2⟩ := exists_bound tl.movements (·.redTime)
  obtain ⟨b, hb⟩ := exists_bound tl.movements (fun m => - m.since)
  set A := max a1 a2
  set B := min (-b) 0
  have hbd : Bounds tl A :=
    ⟨fun m hm => (ha1 m hm).trans (le_max_left _ _), fun m hm => (ha2 m hm).trans (le_max_right _ _)⟩
  have hB0 : B ≤ 0 := min_le_right _ _
  have hB : ∀ m ∈ tl.movements, B ≤ m.since := by
    intro m hm
    have := hb m hm
    have h2 : B ≤ -b := min_le_left _ _
    linarith
  obtain ⟨c, hc1, hc⟩ : ∃ c : Nat, 1 ≤ c ∧ A - B ≤ c * dt := by
    obtain ⟨c, hc⟩ := exists_mul hdt (A - B)
    exact ⟨c + 1, by omega, by push_cast; linarith⟩
  obtain ⟨d, hd⟩ := exists_mul hdt (A - B)
  -- after `k + 1` steps either the goal was met or progress holds
  have main : ∀ k : Nat,
      (∃ n tl', lightSteps dt n tl = .ok tl' ∧ Live tl' ∧ tl'.phases = tl.phases ∧
        tl'.phase = tl.phase ∧ AllGreen tl' ph) ∨
      (∃ tl', lightSteps dt (k + 1) tl = .ok tl' ∧ Live tl' ∧ tl'.phases = tl.phases ∧
        tl'.phase = tl.phase ∧ Bounds tl' A ∧ Progress tl' ph B dt c (k + 1)) := by
    intro k
    induction k with
    | zero =>
      by_cases hg : AllGreen tl ph
      · exact .inl ⟨0, tl, rfl, hl, rfl, rfl, hg⟩
      right
      obtain ⟨tl', hs, hl', hp', hq', hlen, hmv⟩ := step_inside hl hph hg dt
      exact ⟨tl', by simp [lightSteps, hs, pure, Except.pure, bind, Except.bind], hl', hp', hq',
        hbd.step hl.phase hs, progress_start hdt hB0 hB hc1 hlen hmv⟩
    | succ k ih =>
      rcases ih with h | ⟨t, ht, htl, htp, htq, htb, hpr⟩
      · exact .inl h
      by_cases hg : AllGreen t ph
      · exact .inl ⟨k + 1, t, ht, htl, htp, htq, hg⟩
      right
      obtain ⟨tl', hs, hl', hp', hq', hlen, hmv⟩ :=
        step_inside htl (by rw [htp, htq]; exact hph) hg dt
      exact ⟨tl', by rw [lightSteps, M_bind_ok]; exact ⟨t, ht, hs⟩, hl', by rw [hp', htp],
        by rw [hq', htq], htb.step htl.phase hs, progress_next hdt hB0 htb hc hlen hmv hpr⟩
  rcases main (c + d) with h | ⟨t, ht, htl, htp, htq, htb, hpr⟩
  · exact h
  by_cases hg : AllGreen t ph
  · exact ⟨_, t, ht, htl, htp, htq, hg⟩
  obtain ⟨tl', hs, hl', hp', hq', hlen, hmv⟩ :=
    step_inside htl (by rw [htp, htq]; exact hph) hg dt
  refine ⟨c + d + 1 + 1, tl', by rw [lightSteps, M_bind_ok]; exact ⟨t, ht, hs⟩, hl',
    by rw [hp', htp], by rw [hq', htq], ?_⟩
  intro i m' hm' hbit
  have hi := (List.getElem?_eq_some_iff.1 hm').1
  have hget := List.getElem?_eq_getElem (hlen ▸ hi)
  obtain ⟨m'', h1, h2, -⟩ := hmv i _ hget
  rw [hm'] at h1; cases h1
  have hpm := (hpr i _ hget).2 hbit
  generalize tl'.movements[i]'(by omega) = x at *
  unfold nextSpec at h2
  rcases hpm with hst | ⟨hst, hsin⟩
  · simp [hst, hbit] at h2; exact h2
  · simp only [hst, hbit] at h2
    have hclear : Clear (activated ph.mask t.movements) i := by
      intro mj hmj hcj
      obtain ⟨j, hj, rfl⟩ := List.mem_iff_getElem.1 hmj
      have hj' : j < t.movements.length := by simpa [activated] using hj
      have hgj := List.getElem?_eq_getElem hj'
      have hact : (activated ph.mask t.movements)[j] =
          { t.movements[j] with active := ph.mask.testBit j } := by
        simp [activated]
      rw [hact] at hcj ⊢
      have hred := htb.red _ (List.mem_of_getElem? hgj)
      by_cases hij : j = i
      · subst hij
        refine ⟨hst, ?_⟩
        show t.movements[j].redTime < t.movements[j].since
        push_cast at hsin
        nlinarith [Nat.cast_nonneg (α := ℝ) c]
      · have hbj : ph.mask.testBit j = false := by
          by_contra hbj
          have hbj : ph.mask.testBit j = true := by simpa using hbj
          refine htl.posed.phases ph ?_ j i hj' (hlen ▸ hi) hij ⟨_, hgj, hcj⟩ ⟨hbj, hbit⟩
          rw [htp]; exact List.mem_of_getElem? hph
        rcases (hpr j _ hgj).1 hbj with ⟨-, hk, -⟩ | ⟨hr, hsj⟩
        · omega
        · refine ⟨hr, ?_⟩
          show t.movements[j].redTime < t.movements[j].since
          push_cast at hsj
          nlinarith
    simpa [hclear] using h2

open TrafficLight in
/-- From a state in which the current phase is all green, the next phase is reached. -/
theorem reach_next {tl : TrafficLight ℝ} (hl : Live tl) {dt : ℝ} (hdt : 0 < dt) {ph : Phase ℝ}
    (hph : tl.phases[tl.phase]? = some ph) (hg : AllGreen tl ph) :
    ∃ n tl', lightSteps dt n tl = .ok tl' ∧ Live tl' ∧ tl'.phases = tl.phases ∧ 1 ≤ n ∧
      tl'.phase = (tl.phase + 1) % tl.phases.length := by
  obtain ⟨b, hb⟩ := exists_bound tl.movements (fun m => - m.since)
  obtain ⟨d, hd⟩ := exists_mul hdt (ph.duration + b)
  have main : ∀ k : Nat,
      (∃ n tl', lightSteps dt n tl = .ok tl' ∧ Live tl' ∧ tl'.phases = tl.phases ∧ 1 ≤ n ∧
        tl'.phase = (tl.phase + 1) % tl.phases.length) ∨
      (∃ tl', lightSteps dt k tl = .ok tl' ∧ Live tl' ∧ tl'.phases = tl.phases ∧
        tl'.phase = tl.phase ∧ ∀ (i : Nat) (m : Movement ℝ), tl'.movements[i]? = some m →
          ph.mask.testBit i = true → m.state = .green ∧ k * dt - b ≤ m.since) := by
    intro k
    induction k with
    | zero =>
      right
      refine ⟨tl, rfl, hl, rfl, rfl, fun i m hm hbit => ⟨hg i m hm hbit, ?_⟩⟩
      have := hb m (List.mem_of_getElem? hm)
      simp; linarith
    | succ k ih =>
      rcases ih with h | ⟨t, ht, htl, htp, htq, hgr⟩
      · exact .inl h
      obtain ⟨tl', hs, hl'⟩ := htl.step dt
      obtain ⟨h1, h2, ph', ⟨ph0, h3, h4, h5⟩, h6, h7⟩ := step_movement hs htl.phase
      have hstep : lightSteps dt (k + 1) tl = .ok tl' := by
        rw [lightSteps, M_bind_ok]; exact ⟨t, ht, hs⟩
      by_cases hcp : Complete ph0.mask ph0.duration 0 t.movements
      · exact .inl ⟨k + 1, tl', hstep, hl', by rw [h2, htp], by omega, by rw [h4 hcp, htq, htp]⟩
      · right
        have hq := h5 hcp
        rw [hq, htp, htq, hph] at h6; cases h6
        refine ⟨tl', hstep, hl', by rw [h2, htp], by rw [hq, htq], fun i m' hm' hbit => ?_⟩
        have hi := (List.getElem?_eq_some_iff.1 hm').1
        have hget := List.getElem?_eq_getElem (h1 ▸ hi)
        obtain ⟨m'', g1, -, -, -, -, g2, g3⟩ := h7 i _ hget
        rw [hm'] at g1; cases g1
        obtain ⟨q1, q2⟩ := hgr i _ hget hbit
        unfold nextSpec at g2
        simp [q1, hbit] at g2
        refine ⟨g2, ?_⟩
        rw [g3, g2, q1, if_pos rfl]
        push_cast; linarith
  rcases main d with h | ⟨t, ht, htl, htp, htq, hgr⟩
  · exact h
  obtain ⟨tl', hs, hl'⟩ := htl.step dt
  obtain ⟨h1, h2, ph', ⟨ph0, h3, h4, h5⟩, h6, h7⟩ := step_movement hs htl.phase
  rw [htp, htq, hph] at h3; cases h3
  refine ⟨d + 1, tl', by rw [lightSteps, M_bind_ok]; exact ⟨t, ht, hs⟩, hl', by rw [h2, htp], by omega, ?_⟩
  rw [h4, htq, htp]
  intro j m hm hbit
  rw [Nat.zero_add] at hbit
  obtain ⟨q1, q2⟩ := hgr j m hm hbit
  exact ⟨q1, by linarith⟩

/-- One phase further on, with at least one step made, and green again. -/
theorem reach_next_green {tl : TrafficLight ℝ} (hl : Live tl) {dt : ℝ} (hdt : 0 < dt) :
    ∃ n tl', lightSteps dt n tl = .ok tl' ∧ Live tl' ∧ tl'.phases = tl.phases ∧
      tl'.phase = (tl.phase + 1) % tl.phases.length ∧
      ∃ ph, tl'.phases[tl'.phase]? = some ph ∧ AllGreen tl' ph := by
  have hph : tl.phases[tl.phase]? = some (tl.phases[tl.phase]'hl.phase) :=
    List.getElem?_eq_getElem hl.phase
  obtain ⟨n1, t1, e1, l1, p1, q1, g1⟩ := reach_green hl hdt hph
  obtain ⟨n2, t2, e2, l2, p2, -, q2⟩ := reach_next l1 hdt (by rw [p1, q1]; exact hph) g1
  have hph2 : t2.phases[t2.phase]? = some (t2.phases[t2.phase]'l2.phase) :=
    List.getElem?_eq_getElem l2.phase
  obtain ⟨n3, t3, e3, l3, p3, q3, g3⟩ := reach_green l2 hdt hph2
  refine ⟨n1 + n2 + n3, t3, lightSteps_add (lightSteps_add e1 e2) e3, l3, by rw [p3, p2, p1],
    by rw [q3, q2, q1, p1], _, by rw [p3, q3]; exact hph2, g3⟩

theorem reach_phase {tl : TrafficLight ℝ} (hl : Live tl) {dt : ℝ} (hdt : 0 < dt) (k : Nat) :
    ∃ n tl', lightSteps dt n tl = .ok tl' ∧ Live tl' ∧ tl'.phases = tl.phases ∧
      tl'.phase = (tl.phase + (k + 1)) % tl.phases.length ∧
      ∃ ph, tl'.phases[tl'.phase]? = some ph ∧ AllGreen tl' ph := by
  induction k with
  | zero => exact reach_next_green hl hdt
  | succ k ih =>
    obtain ⟨n, t, e, l, p, q, -⟩ := ih
    obtain ⟨n', t', e', l', p', q', g'⟩ := reach_next_green l hdt
    refine ⟨n + n', t', lightSteps_add e e', l', by rw [p', p], ?_, g'⟩
    rw [q', q, p, Nat.mod_add_mod, Nat.add_assoc]

end LightLive

open LightLive in
/-- **C06** From every reachable state of a well-posed light, with any positive time step, every
phase comes up with all its movements green, after any number of steps already made - so infinitely
often. -/
theorem C06_live {tl : TrafficLight ℝ} {h : Nat → List (ℝ × LightState)} (hr : LightRun tl h)
    (hw : WellPosed tl) (hne : tl.phases ≠ []) (hlen : tl.movements.length ≤ 64) {dt : ℝ}
    (hdt : 0 < dt) (p : Nat) (hp : p < tl.phases.length) (N : Nat) :
    ∃ n tl', N ≤ n ∧ lightSteps dt n tl = .ok tl' ∧ PhaseGreen tl' p := by
  obtain ⟨t, e, l⟩ := Live.steps ⟨hr.phase_lt hne, hlen, hw⟩ dt N
  have hphases : ∀ n t, lightSteps dt n tl = .ok t → t.phases = tl.phases ∧ Live t := by
    intro n
    induction n with
    | zero =>
      intro t ht
      simp only [lightSteps, M_pure_ok] at ht
      subst ht; exact ⟨rfl, hr.phase_lt hne, hlen, hw⟩
    | succ n ih =>
      intro t ht
      simp only [lightSteps, M_bind_ok] at ht
      obtain ⟨t0, h0, h1⟩ := ht
      obtain ⟨g1, g2⟩ := ih t0 h0
      obtain ⟨t1, k1, k2⟩ := g2.step dt
      rw [h1] at k1; cases k1
      exact ⟨by rw [(step_movement h1 g2.phase).2.1, g1], k2⟩
  have hpt := (hphases N t e).1
  have hlt : t.phase < tl.phases.length := hpt ▸ l.phase
  obtain ⟨n, t', e', l', p', q', ph, hph, hg⟩ :=
    reach_phase l hdt (p + tl.phases.length - t.phase + tl.phases.length - 1)
  have hpp : t'.phase = p := by
    rw [q', hpt]
    have : t.phase + (p + tl.phases.length - t.phase + tl.phases.length - 1 + 1) =
        p + tl.phases.length * 2 := by omega
    rw [this, Nat.add_mul_mod_self_left, Nat.mod_eq_of_lt hp]
  refine ⟨N + n, t', by omega, lightSteps_add e e', hpp, ph, by rw [← hpp]; exact hph, ?_⟩
  intro i hi hb
  exact shows_iff.2 ⟨_, List.getElem?_eq_getElem hi, hg i _ (List.getElem?_eq_getElem hi) hb⟩

/-- The hypotheses are met by the light of `demoLight`. -/
example (N : Nat) : ∃ n tl', N ≤ n ∧ lightSteps (1 : ℝ) n demoLight = .ok tl' ∧ PhaseGreen tl' 1 :=
  C06_live demoLight_run demoLight_wellPosed (by simp [demoLight, TrafficLight.addPhase])
    (by simp [demoLight, TrafficLight.addPhase, TrafficLight.addMovement, TrafficLight.new])
    one_pos 1 (by simp [demoLight, TrafficLight.addPhase, TrafficLight.addMovement, TrafficLight.new]) N

end TrafficSim
