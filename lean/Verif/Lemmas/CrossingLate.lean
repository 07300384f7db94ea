import Verif.Lemmas.Crossing

/-! # A trial run: two roads that cross, with a gap -/

namespace TrafficSim

namespace Crossing

attribute [local instance] Town.env

theorem late : ∃ s s' : Sim Float, Reach True s ∧ Allowed True s (.step 0.3) ∧ s.exec (.step 0.3) = .ok s' ∧
    Reach True s' ∧ admitTest false s s' = true :=
  trial_reach (ops := ops 22.0 10.0) (by decide +kernel)

end Crossing

end TrafficSim
