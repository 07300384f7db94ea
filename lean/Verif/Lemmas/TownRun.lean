import Verif.Lemmas.Town

/-! # The third step of the town, evaluated by the kernel -/

namespace TrafficSim

namespace Town

attribute [local instance] env

theorem third : ∃ s s' : Sim Float, Reach True s ∧ Allowed True s (.step 0.2) ∧ s.exec (.step 0.2) = .ok s' ∧
    Reach True s' ∧ test s s' = true :=
  trial_reach (ops := run 2) (by decide +kernel)

/-- The car that changes lanes is frozen and stopped. -/
def frozenTest (s s' : Sim Float) : Bool :=
  s.getVehicleFrozen ⟨0, 1⟩ && route s 0 == [1] && route s' 0 == [0, 2] &&
    (match s.vehicles.get? ⟨0, 1⟩ with
      | some v => decide (v.vel = 0.0)
      | none => false) && !decide (s.accUpdate < 0.1)

/-- A frozen car changes lanes, too. -/
theorem frozen : ∃ s s' : Sim Float, Reach True s ∧ Allowed True s (.step 0.2) ∧ s.exec (.step 0.2) = .ok s' ∧
    Reach True s' ∧ frozenTest s s' = true :=
  trial_reach (ops := ops ++ [.setVehicleFrozen ⟨0, 1⟩ true, .step 0.2, .step 0.2]) (by decide +kernel)

end Town

end TrafficSim
