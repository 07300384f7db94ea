import Verif.Props.BinaryFollow
import Verif.Lemmas.Corner

/-! # When vehicles do collide (C76)

`src/vehicle.rs:76` asks for the comfortable deceleration as a negative number.  The car-following model takes the square root of its
product with the maximum acceleration (`src/vehicle/acceleration.rs:142`).  For a negative number this is NaN, and the acceleration
that the model yields is then ignored, as `f64::min` ignores NaN. -/

namespace TrafficSim

open B64

theorem sqrt_neg_nan {x : Float} (h : x < 0.0) : x.sqrt.isNaN = true := by
  obtain ⟨hn, hv⟩ := lt_zero_iff.1 h
  have hs : x.sqrt = Float.ofModel (Float.Model.pack (Float.Model.UnpackedFloat.sqrt .binary64 x.toModel.unpack)) := rfl
  have hu : Float.Model.UnpackedFloat.sqrt .binary64 x.toModel.unpack = .notANumber := by
    unfold val at hv
    rw [isNaN_iff] at hn
    generalize x.toModel.unpack = w at hv hn
    rcases w with (_ | _) | _ | (_ | _) | ⟨(_ | _), m, e, h⟩
    · rfl
    · exact absurd hv (by simp [uval])
    · rfl
    · exact absurd hv (by simp [uval])
    · exact absurd hv (by simp [uval])
    · rfl
    · rw [uval_finite] at hv
      have := mval_pos e h
      simp only [signed] at hv
      exact absurd (EReal.coe_lt_coe_iff.1 hv) (by linarith)
  rw [hs, hu]
  exact nan_unpack

/-- **C76** (negative deceleration, binary64) A vehicle whose comfortable deceleration is negative, as the documentation asks for, pays
no attention to the vehicle ahead nor to the line ahead as long as it is more than 2 m away, whatever the speeds are: the acceleration
found before stands. -/
theorem C76_negative_deceleration_float (m : AccelerationModel Float) (hneg : m.maxAcc * m.comfDec < 0.0) {gap : Float}
    (hgap : ¬ gap ≤ 2.0) (v u : Float) (hacc : m.acc.isNaN = false) :
    (m.followVehicle gap v u).acc = m.acc ∧ (m.stopAtLine gap v).acc = m.acc := by
  have hnan : ∀ u, (m.idm gap v u).isNaN = true := by
    intro u
    rw [idm_far_float m hgap]
    by_contra hc
    rw [Bool.not_eq_true] at hc
    have h1 := brake_num hc
    have h2 := (div_num h1).1
    have h3 := (add_num h2).2.1
    have h4 := (mul_num h3).2.1
    have h5 := (div_num h4).2.1
    have h6 := (mul_num h5).2.1
    rw [sqrt_neg_nan hneg] at h6
    cases h6
  have hmin : ∀ u, fmin m.acc (m.idm gap v u) = m.acc := by
    intro u
    rcases fmin_cases m.acc (m.idm gap v u) with ⟨-, h | h⟩ | ⟨h, -⟩
    · have := (lt_iff.1 h).1
      rw [hnan] at this; cases this
    · rw [hacc] at h; cases h
    · exact h
  exact ⟨hmin u, hmin _⟩

/-- The hypotheses, for an acceleration that a positive deceleration would have lowered. -/
example : (⟨1.5, 2.0, -2.0, 1.0, 2.0⟩ : AccelerationModel Float).maxAcc * -2.0 < 0.0 ∧ ¬ (10.0 : Float) ≤ 2.0 ∧ (2.0 : Float).isNaN = false ∧
    ((⟨1.5, 2.0, 2.0, 1.0, 2.0⟩ : AccelerationModel Float).followVehicle 10.0 5.0 0.0).acc < -2.0 := by
  decide +kernel

namespace Bump
attribute [local instance] Town.env

/-- A vehicle that has come to a stand, and another 8 m behind it, with the given comfortable deceleration. -/
def ops (b : Float) : List (Op Float) :=
  [.addLink ⟨Town.street 0.0 0.0 1.0 0.0 12.0, 50.0⟩, .addVehicle ⟨0.2, 0.4, 0.1, 1.5, 2.0, 2.0⟩ ⟨0, 1⟩, .step 2.45,
   .setVehicleFrozen ⟨0, 1⟩ true, .step 1.0, .addVehicle ⟨0.2, 0.4, 0.1, 1.5, 2.0, b⟩ ⟨0, 1⟩]

def test (s s' : Sim Float) : Bool :=
  match s.vehicles.get? ⟨1, 1⟩, s.vehicles.get? ⟨0, 1⟩, s'.vehicles.get? ⟨1, 1⟩, s'.vehicles.get? ⟨0, 1⟩ with
  | some v, some u, some v', some u' => v.linkId == some ⟨0, 1⟩ && u.linkId == some ⟨0, 1⟩ && v'.linkId == some ⟨0, 1⟩ &&
    u'.linkId == some ⟨0, 1⟩ && decide (v.posFront < u.posRear) && decide (u'.posRear < v'.posFront) &&
    decide (v'.posRear < u'.posFront)
  | _, _, _, _ => false

set_option maxRecDepth 100000 in
theorem runs : ∃ s s' : Sim Float, Reach True s ∧ Allowed True s (.step 0.3) ∧ s.exec (.step 0.3) = .ok s' ∧ Reach True s' ∧
    test s s' = true :=
  trial_reach (ops := ops (-2.0) ++ List.replicate 9 (.step 0.3)) (by decide +kernel)

end Bump

section
attribute [local instance] Town.env

/-- **C76** (negation for the parameters the documentation asks for, binary64) Two vehicles were apart on their link, with the first
at a stand; after a step of 0.3 s the second overlaps it. -/
theorem C76_collision : ∃ (s s' : Sim Float) (v u v' u' : Vehicle Float) (k j lk : Key), Reach True s ∧ s.step 0.3 = .ok s' ∧
    s.getVehicle k = .ok v ∧ s.getVehicle j = .ok u ∧ s'.getVehicle k = .ok v' ∧ s'.getVehicle j = .ok u' ∧ v.linkId = some lk ∧
    u.linkId = some lk ∧ v'.linkId = some lk ∧ u'.linkId = some lk ∧ v.posFront < u.posRear ∧ u'.posRear < v'.posFront ∧
    v'.posRear < u'.posFront := by
  obtain ⟨s, s', h1, -, h2, -, h3⟩ := Bump.runs
  unfold Bump.test at h3
  split at h3
  · rename_i v u v' u' hv hu hv' hu'
    simp only [Bool.and_eq_true, decide_eq_true_eq, beq_iff_eq] at h3
    obtain ⟨⟨⟨⟨⟨⟨a1, a2⟩, a3⟩, a4⟩, a5⟩, a6⟩, a7⟩ := h3
    exact ⟨s, s', v, u, v', u', ⟨1, 1⟩, ⟨0, 1⟩, ⟨0, 1⟩, h1, h2, getVeh_ok.2 hv, getVeh_ok.2 hu, getVeh_ok.2 hv', getVeh_ok.2 hu',
      a1, a2, a3, a4, a5, a6, a7⟩
  · cases h3

end

end TrafficSim
