import Verif.Lemmas.Curve
import Verif.Lemmas.Demo
import Verif.Lemmas.Search

/-! # Unchecked memory accesses: C36

The code has two `get_unchecked` accesses: `LinkCurve::sample_internal` and `LinkProjection::sample`.
The model checks them: an access out of bounds is the error `outOfBounds`, and computing the index
`len - 1` of an empty vector is the error `emptySamples` (in a release build the subtraction wraps and
the access that follows is out of bounds, which is undefined behaviour). -/

namespace TrafficSim

section
variable {F : Type} [Flt F]

/-- **C36, link curves.**  For every curve that a link can be built on and every position (any `f64`:
negative, infinite, NaN), sampling the link stays within bounds: it returns normally, and finding the
position of a point fails at most because of a comparison with NaN.
The full property also claims this of lane projections, which is false: see
`C36_projection_empty_reachable`. -/
theorem C36_curve_partial [Env] (id : Key) (a : LinkAttributes F) (l : Link F) (h : Link.new id a = .ok l)
    (pos offset : F) :
    (∃ s, l.curve.sampleCentre pos = .ok s) ∧ (∃ s, l.curve.sample pos offset = .ok s) ∧
    ∀ point tangent, ∀ e, l.curve.inverseSample point tangent = .error e → e = .nanCompare := by
  have hs := (Link.new_ok h).2.2.2.2.2.2.2.2.2.2.1
  exact ⟨l.curve.sampleCentre_ok hs pos, l.curve.sample_ok hs pos offset, fun point tangent e he =>
    (LinkCurve.inverseSample_spec (E := fun e => e = .nanCompare) (.inr rfl) l.curve hs point tangent).err he⟩

/-- **C36, lane projections.**  Sampling a projection stays within bounds for every position exactly if
the projection has a sample. -/
theorem C36_projection_iff (p : LinkProjection F) (pos : F) :
    (∃ s ∈ p.samples, p.sample pos = .ok s) ↔ p.samples ≠ [] := by
  constructor
  · rintro ⟨s, hs, -⟩ h
    simp [h] at hs
  · intro h
    have hl := List.length_pos_iff.2 h
    have hi : min (toUsize (pos * p.invSegmentLen)) (p.samples.length - 1) < p.samples.length := by omega
    refine ⟨_, List.getElem_mem hi, ?_⟩
    unfold LinkProjection.sample
    rw [if_neg (by omega)]
    simp only [List.getElem?_eq_getElem hi]
    rfl

/-- An empty projection is never sampled within bounds. -/
theorem C36_projection_empty (p : LinkProjection F) (h : p.samples = []) (pos : F) :
    p.sample pos = .error .emptySamples := by
  unfold LinkProjection.sample
  rw [if_pos (by simp [h])]
  rfl

end

/-! ## A reachable state in which a step accesses memory out of bounds -/

namespace EmptyProjection

/-- A lawful search. -/
@[instance_reducible] def env : Env := Search.env 400

/-- A link that goes 2 m to the east and then 2 m to the north. -/
def bend : Curve Float where
  sample t := if t < 2.0 then ⟨t, 0.0⟩ else ⟨2.0, t - 2.0⟩
  bounds := ⟨0.0, 4.0⟩
  sampleDt t := if t < 2.0 then ⟨1.0, 0.0⟩ else ⟨0.0, 1.0⟩
  sampleDt2 _ := ⟨0.0, 0.0⟩

/-- A link that starts at the outer side of the corner. -/
def outer : Curve Float := (⟨⟨3.0, -1.0⟩, ⟨0.0, 1.0⟩, 1.0⟩ : LineSegment2d Float).toCurve

/-- The calls: two links in a group, a vehicle on the outer link, one step. -/
def ops : List (Op Float) :=
  [.addLink ⟨bend, 10.0⟩, .addLink ⟨outer, 10.0⟩, .addLinkGroup [⟨0, 1⟩, ⟨1, 1⟩] 0,
   .addVehicle ⟨2.0, 4.0, 3.0, 2.0, 2.0, 2.0⟩ ⟨1, 1⟩, .step 0.1]

end EmptyProjection

/-- **C36 is false for lane projections.**  There is a simulation, reachable with valid calls (two
different ungrouped links in a group, one vehicle), in which the next step samples an empty projection:
an unchecked access out of bounds. -/
theorem C36_projection_empty_reachable : ∃ (env : Env) (s : Sim Float), @LawfulDijkstra env ∧ @Reach Float _ env True s ∧
    @Sim.step Float _ env s 0.1 = .error .emptySamples := by
  let _ := EmptyProjection.env
  have h : (match runChecked EmptyProjection.ops Sim.new with
    | some s => (match s.step 0.1 with
      | .error e => e == .emptySamples
      | .ok _ => false)
    | none => false) = true := by decide +kernel
  split at h
  · rename_i s hs
    split at h
    · rename_i e he
      refine ⟨EmptyProjection.env, s, Search.lawful 400, runChecked_reach _ _ _ .new hs, ?_⟩
      have : e = .emptySamples := by simpa using h
      rw [he, this]
    · simp at h
  · simp at h

end TrafficSim
