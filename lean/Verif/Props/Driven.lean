import Verif.Props.Safety
import Verif.Lemmas.Pinwheel
import Mathlib.Analysis.SpecialFunctions.Integrals.Basic

/-! # C95: how far a vehicle drives in a step -/

namespace TrafficSim

section
variable {strict : Prop} {s s' s1 : Sim ℝ} {dt : ℝ} {k : Key} {v v1 v' : Vehicle ℝ}

/-- The way of something that moves with the speed `v` and the acceleration `a`, for the time `t`, and that stands once its speed is 0. -/
noncomputable def driven (v a t : ℝ) : ℝ := ∫ x in (0 : ℝ)..t, max (v + a * x) 0

theorem driven_moving {v a t : ℝ} (hv : 0 ≤ v) (ht : 0 ≤ t) (h : 0 ≤ v + a * t) : driven v a t = (v + (v + a * t)) / 2 * t := by
  have : driven v a t = ∫ x in (0 : ℝ)..t, (v + a * x) := by
    refine intervalIntegral.integral_congr fun x hx => ?_
    rw [Set.uIcc_of_le ht] at hx
    refine max_eq_left ?_
    by_cases ha : 0 ≤ a
    · have := mul_nonneg ha hx.1
      linarith
    · have := mul_le_mul_of_nonpos_left hx.2 (not_le.1 ha).le
      linarith
  have hc : Continuous fun x : ℝ => a * x := by fun_prop
  rw [this, intervalIntegral.integral_add (by simp) (hc.intervalIntegrable _ _), intervalIntegral.integral_const, intervalIntegral.integral_const_mul, integral_id]
  simp only [sub_zero, smul_eq_mul]
  ring

theorem driven_stopping {v a t : ℝ} (hv : 0 ≤ v) (ht : 0 ≤ t) (h : v + a * t < 0) : driven v a t = v ^ 2 / (2 * -a) := by
  have ha : a < 0 := by
    by_contra hn
    have := mul_nonneg (not_lt.1 hn) ht
    linarith
  have h0 : 0 ≤ v / -a := div_nonneg hv (by linarith)
  have h1 : v / -a ≤ t := by
    rw [div_le_iff₀ (by linarith)]
    linarith
  have hz : v + a * (v / -a) = 0 := by
    have := ha.ne
    field_simp
    ring
  have hc : Continuous fun x : ℝ => max (v + a * x) 0 := by fun_prop
  have hm := driven_moving hv h0 (a := a) hz.ge
  have hr : ∫ x in (v / -a)..t, max (v + a * x) 0 = 0 := by
    have : ∫ x in (v / -a)..t, max (v + a * x) 0 = ∫ x in (v / -a)..t, (0 : ℝ) := by
      refine intervalIntegral.integral_congr fun x hx => ?_
      rw [Set.uIcc_of_le h1] at hx
      refine max_eq_right ?_
      have := mul_le_mul_of_nonpos_left hx.1 ha.le
      linarith
    rw [this]; simp
  have hs : driven v a t = driven v a (v / -a) + ∫ x in (v / -a)..t, max (v + a * x) 0 :=
    (intervalIntegral.integral_add_adjacent_intervals (hc.intervalIntegrable _ _) (hc.intervalIntegrable _ _)).symm
  rw [hs, hr, hm, hz]
  field_simp
  ring

/-- **C95** (partial) Let `a` be the acceleration with which a vehicle drives in a step, and `d` the way that it is moved.  If it does not
come to a stand before the end of the step then `d` is the way of something that moves with that acceleration.  If it does then `d` is
half of what it would drive at its speed in the whole step, however hard it brakes, which is not less than that way, and more if it was not
standing already.
Missing: that the ways agree in that case too.  `C95_overshoots` shows that it is false. -/
theorem C95_exact_partial [Env] [LawfulDijkstra] (h : Reach strict s) (hst : s.step dt = .ok s') (hdt : 0 ≤ dt)
    (hv : s.getVehicle k = .ok v) (hv' : s'.getVehicle k = .ok v')
    (hlanes : s.calculateLaneChanges = .ok s1) (hv1 : s1.getVehicle k = .ok v1) (hlane : v1.linkId = v.linkId) :
    ∃ d, ((v'.linkId = v.linkId ∧ v'.pos = v.pos + d) ∨
      ∃ a l, v.linkId = some a ∧ s.getLinkRef a = .ok l ∧ l.length < v.pos + d ∧ v'.pos = v.pos + d - l.length) ∧
    (0 ≤ v.vel + v'.acc.getAcc * dt → d = driven v.vel v'.acc.getAcc dt) ∧
    (v.vel + v'.acc.getAcc * dt < 0 → d = v.vel * dt / 2 ∧ driven v.vel v'.acc.getAcc dt = v.vel ^ 2 / (2 * -v'.acc.getAcc) ∧
      driven v.vel v'.acc.getAcc dt ≤ d ∧ (0 < v.vel → driven v.vel v'.acc.getAcc dt < d)) := by
  have n0 := C20_speed h hv
  obtain ⟨hs, -⟩ := step_speed h hst hv hv'
  obtain ⟨d, hd, -, hp⟩ := C20_forward h hst hdt hv hv' hlanes hv1 hlane
  refine ⟨d, hp, fun hm => ?_, fun hm => ?_⟩
  · rw [driven_moving n0 hdt hm, hd, hs, max_eq_left (by linarith)]
    ring
  · have ha : v'.acc.getAcc < 0 := by
      by_contra hn
      have := mul_nonneg (not_lt.1 hn) hdt
      linarith
    have e : d = v.vel * dt / 2 := by
      rw [hd, hs, max_eq_right (by linarith)]
      ring
    have e' := driven_stopping n0 hdt hm
    refine ⟨e, e', ?_, fun hp => ?_⟩
    · rw [e', e, div_le_div_iff₀ (by linarith) (by norm_num)]
      nlinarith
    · rw [e', e, div_lt_div_iff₀ (by linarith) (by norm_num)]
      nlinarith

example : ∃ (_ : Env) (_ : LawfulDijkstra) (s s' s1 : Sim ℝ) (v v' : Vehicle ℝ), Reach True s ∧ s.step 0.2 = .ok s' ∧
    s.getVehicle ⟨0, 1⟩ = .ok v ∧ s'.getVehicle ⟨0, 1⟩ = .ok v' ∧ s.calculateLaneChanges = .ok s1 ∧
    s1.getVehicle ⟨0, 1⟩ = .ok v := by
  obtain ⟨n, s0, s1, s2, v0, v1, v2, h1, h2, h3, h4, h5, h6, h7, -, -, -, -, -, -, -, -, -, -, -, ⟨t, h8, h9⟩, -⟩ := Lone.run false 0.2 (by norm_num) (by norm_num)
  exact ⟨Lone.env n, Lone.lawful n, s0, s1, t, v0, v1, h1, h2, h5, h6, h8, h9⟩

end

namespace Driven

attribute [local instance] Town.env

/-- A car on a straight road, that is frozen while it drives. -/
def ops : List (Op Float) :=
  [.addLink ⟨Town.street 0.0 0.0 1.0 0.0 16.0, 10.0⟩, .addVehicle Pinwheel.car ⟨0, 1⟩, .step 2.2, .setVehicleFrozen ⟨0, 1⟩ true]

def test (s s' : Sim Float) : Bool :=
  match s.vehicles.get? ⟨0, 1⟩, s'.vehicles.get? ⟨0, 1⟩ with
  | some v, some v' => decide (v.linkId = some ⟨0, 1⟩ ∧ v'.linkId = some ⟨0, 1⟩ ∧ v'.vel = 0.0 ∧ v'.acc.getAcc = -6.0) &&
      decide (v.vel * v.vel / (2.0 * 6.0) < 1.7 ∧ v.pos + 4.3 < v'.pos)
  | _, _ => false

end Driven

open Driven in
attribute [local instance] Town.env in
/-- **C95** (witness) A vehicle brakes with 6 m/s² and stands after a step of 2 s.  Its speed before was such that it needs less than 1.7 m
to stop.  It is moved by more than 4.3 m. -/
theorem C95_overshoots : ∃ (s s' : Sim Float) (v v' : Vehicle Float), Reach True s ∧ s.step 2.0 = .ok s' ∧ s.getVehicle ⟨0, 1⟩ = .ok v ∧
    s'.getVehicle ⟨0, 1⟩ = .ok v' ∧ v.linkId = some ⟨0, 1⟩ ∧ v'.linkId = some ⟨0, 1⟩ ∧ v'.vel = 0.0 ∧ v'.acc.getAcc = -6.0 ∧
    v.vel * v.vel / (2.0 * 6.0) < 1.7 ∧ v.pos + 4.3 < v'.pos := by
  obtain ⟨s, s', h1, -, h2, -, h4⟩ := trial_reach (ops := ops) (op := .step 2.0) (test := test) (by decide +kernel)
  unfold test at h4
  split at h4
  · rename_i v v' g1 g2
    simp only [Bool.and_eq_true, decide_eq_true_eq] at h4
    obtain ⟨⟨a1, a2, a3, a4⟩, b1, b2⟩ := h4
    exact ⟨s, s', v, v', h1, h2, getVeh_ok.2 g1, getVeh_ok.2 g2, a1, a2, a3, a4, b1, b2⟩
  · cases h4

end TrafficSim
