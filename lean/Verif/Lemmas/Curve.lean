import Verif.Lemmas.Inv
import Verif.Props.LinkCurve

/-! # Failures of curve operations -/

namespace TrafficSim

section
variable {F : Type} [Flt F] {E : Err → Prop}

namespace LinkCurve

theorem sampleInternal_ok (c : LinkCurve F) (h : c.segments ≠ []) (pos : F) :
    ∃ seg t, c.sampleInternal pos = .ok (seg, t) ∧ seg ∈ c.segments := by
  have hl := List.length_pos_iff.2 h
  have hi : min (toU32 (pos * c.scale)) (c.segments.length - 1) < c.segments.length := by omega
  refine ⟨c.segments[min (toU32 (pos * c.scale)) (c.segments.length - 1)],
    pos * c.scale - Flt.ofNat (min (toU32 (pos * c.scale)) (c.segments.length - 1)), ?_, List.getElem_mem hi⟩
  unfold LinkCurve.sampleInternal LinkCurve.segmentIndex
  rw [if_neg (by omega)]
  simp only [M_bind_ok, M_pure_ok]
  refine ⟨_, rfl, ?_⟩
  rw [List.getElem?_eq_getElem hi]
  rfl

theorem sampleCentre_ok (c : LinkCurve F) (h : c.segments ≠ []) (pos : F) :
    ∃ s, c.sampleCentre pos = .ok s := by
  obtain ⟨seg, t, ht, -⟩ := c.sampleInternal_ok h pos
  exact ⟨_, M_bind_ok.2 ⟨_, ht, rfl⟩⟩

theorem sample_ok (c : LinkCurve F) (h : c.segments ≠ []) (pos offset : F) :
    ∃ s, c.sample pos offset = .ok s := by
  obtain ⟨seg, t, ht, -⟩ := c.sampleInternal_ok h pos
  exact ⟨_, M_bind_ok.2 ⟨_, ht, rfl⟩⟩

theorem sampleCentre_spec (c : LinkCurve F) (h : c.segments ≠ []) (pos : F) :
    Spec (c.sampleCentre pos) E (fun s => c.sampleCentre pos = .ok s) := by
  obtain ⟨s, hs⟩ := c.sampleCentre_ok h pos
  rw [hs]
  exact Spec.pure rfl

end LinkCurve

/-- Every two numbers are comparable. -/
def NoNan (F : Type) [Flt F] : Prop := (∀ a b : F, a < b ∨ b ≤ a) ∧ ∀ a : F, isNan a = false

theorem minByDist_spec (hE : NoNan F ∨ E .nanCompare) : ∀ (l : List (F × F)) (b : F × F),
    Spec (minByDist b l) E (fun _ => True)
  | [], _ => Spec.pure trivial
  | c :: cs, b => by
    unfold minByDist
    refine Spec.ite (fun _ => minByDist_spec hE cs c) fun h1 => Spec.ite (fun _ => minByDist_spec hE cs b)
      fun h2 => Spec.throw (hE.resolve_left fun h => (h.1 _ _).elim h1 h2)

theorem projectPointOntoCurve_spec (hE : NoNan F ∨ E .nanCompare) (curve : Curve F) (point : V2 F) (maxError : F)
    (t0 : Option F) : Spec (projectPointOntoCurve curve point maxError t0) E (fun _ => True) := by
  unfold projectPointOntoCurve
  cases t0 with
  | some t => exact Spec.pure trivial
  | none =>
    refine Spec.bind (P := fun _ => True) ?_ fun t _ => Spec.pure trivial
    unfold projectInit
    simp only [show List.range 9 = [0, 1, 2, 3, 4, 5, 6, 7, 8] from rfl, List.map_cons]
    exact (minByDist_spec hE _ _).bind fun _ _ => Spec.pure trivial

theorem LinkCurve.inverseSample_spec (hE : NoNan F ∨ E .nanCompare) (c : LinkCurve F) (h : c.segments ≠ [])
    (point tangent : V2 F) : Spec (c.inverseSample point tangent) E (fun _ => True) := by
  unfold LinkCurve.inverseSample
  refine (projectPointOntoCurve_spec hE _ _ _ _).bind fun r _ => ?_
  cases r with
  | none => exact Spec.pure trivial
  | some p =>
    obtain ⟨seg, t, ht, -⟩ := c.sampleInternal_ok h p
    simp only [ht]
    exact Spec.pure trivial

theorem Link.new_ok [Env] {id : Key} {a : LinkAttributes F} {l : Link F} (h : Link.new id a = .ok l) :
    l.id = id ∧ l.group = none ∧ l.linksIn = [] ∧ l.linksOut = [] ∧ l.laneChanges = [] ∧ l.conflicts = [] ∧
    l.lastConflict = 0 ∧ l.speedLimit = a.speedLimit ∧ l.vehicles = [] ∧ l.control = .open_ ∧
    l.curve.segments ≠ [] ∧ LinkCurve.new Env.fuel a.curve = .ok l.curve := by
  unfold Link.new at h
  simp only [M_bind_ok, M_pure_ok] at h
  obtain ⟨c, hc, rfl⟩ := h
  refine ⟨rfl, rfl, rfl, rfl, rfl, rfl, rfl, rfl, rfl, rfl, ?_, hc⟩
  unfold LinkCurve.new LinkCurve.withStep at hc
  simp only [M_bind_ok] at hc
  obtain ⟨_, _, pts, _, hc⟩ := hc
  rcases ite_ok.1 hc with ⟨_, hc⟩ | ⟨hne, hc⟩
  · simp at hc
  · simp only [M_pure_ok] at hc
    subst hc
    simpa using hne

/-- The links of groups can be projected onto each other, as far as that is needed, and numbers are comparable. -/
structure GoodNet (links : LinkSet F) : Prop where
  noNan : NoNan F
  proj : ∀ k l, links.get? k = some l → ∀ g, l.group = some g → ∀ p ∈ g.projections, p.samples ≠ []
  back : ∀ k l, links.get? k = some l → ∀ a b, l.curve.inverseSample a b ≠ .ok none

/-- The errors that come from failing projections. -/
def GeoErr (E : Err → Prop) : Prop := E .emptySamples ∧ E .nanCompare ∧ E .noProjection

omit [Flt F] in
theorem GeoErr.step {strict div geo : Prop} : GeoErr (StepErr strict div geo) ↔ geo := by
  simp [GeoErr, StepErr]

theorem GoodNet.of_rel {links links' : LinkSet F} (hg : GoodNet links)
    (h : SRel (fun _ l l' => l'.group = l.group ∧ l'.curve = l.curve) links links') : GoodNet links' := by
  refine ⟨hg.noNan, fun k l' hl' => ?_, fun k l' hl' => ?_⟩
  · obtain ⟨l, hl, h1, -⟩ := h.bwd hl'
    rw [h1]; exact hg.proj k l hl
  · obtain ⟨l, hl, -, h1⟩ := h.bwd hl'
    rw [h1]; exact hg.back k l hl

end
end TrafficSim
