import Verif.Props.Dynamics
import Verif.Props.Math
import Verif.Props.Unchecked
import Verif.Lemmas.Town

/-! # Instances of theorems on single functions: C24, C36, C48 -/

namespace TrafficSim

/-- An instance of `C24_speeding_overestimates`: an ordinary car at 30 m/s is said to need more than 2 s for 60 m where the limit is 15 m/s. -/
example : 2 < demoCar.minReachTime 30 60 15 := by
  have h := C24_speeding_overestimates demoCar (vel := 30) (dist := 60) (maxVel := 15) (by norm_num [demoCar, AccelerationModel.new]) (by norm_num)
    (by norm_num) (by norm_num)
  norm_num at h
  exact h

/-- An instance of `C48_outside`: the range 0 to 10 with step 3. -/
example : (LookupTable.fromSamples ⟨0, 10⟩ 3 (fun x : ℝ => x)).sample 25 = (LookupTable.fromSamples ⟨0, 10⟩ 3 (fun x : ℝ => x)).sample 10 :=
  (C48_outside ⟨0, 10⟩ 3 (fun x : ℝ => x) (by norm_num) (by norm_num) (by norm_num) 25).2 (by norm_num)

attribute [local instance] Town.env in
/-- An instance of `C36_curve_partial`: the link of a street of 20 m. -/
example : ∃ l : Link Float, Link.new ⟨0, 1⟩ ⟨(LineSegment2d.fromEnds ⟨0.0, 0.0⟩ ⟨20.0, 0.0⟩).toCurve, 10.0⟩ = .ok l := by
  have h : (match Link.new (F := Float) ⟨0, 1⟩ ⟨(LineSegment2d.fromEnds ⟨0.0, 0.0⟩ ⟨20.0, 0.0⟩).toCurve, 10.0⟩ with
    | .ok _ => true
    | .error _ => false) = true := by decide +kernel
  split at h
  · rename_i l hl
    exact ⟨l, hl⟩
  · cases h

/-- An instance of `C36_projection_iff`: a projection with two samples. -/
example (a b : ProjectedSample Float) : ∃ s ∈ [a, b], (⟨⟨0, 1⟩, 0.2, [a, b]⟩ : LinkProjection Float).sample 7.5 = .ok s :=
  (C36_projection_iff ⟨⟨0, 1⟩, 0.2, [a, b]⟩ 7.5).2 (by simp)

end TrafficSim
