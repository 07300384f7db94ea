import Verif.Lemmas.SlotMap
import Verif.Model.Simulation

/-! # Relating slot maps before and after an operation -/

namespace TrafficSim

/-- The two maps have the same keys, and the values of each key are related. -/
structure SRel {V : Type} (R : Key → V → V → Prop) (m m' : SlotMap V) : Prop where
  keys : m'.keys = m.keys
  wf : m.WF → m'.WF
  issued : ∀ k, m.Issued k → m'.Issued k
  fwd : ∀ k v, m.get? k = some v → ∃ v', m'.get? k = some v' ∧ R k v v'

namespace SRel
variable {V : Type} {R S T : Key → V → V → Prop} {m m' m'' : SlotMap V}

theorem refl (hR : ∀ k v, m.get? k = some v → R k v v) : SRel R m m :=
  ⟨rfl, id, fun _ => id, fun k v h => ⟨v, h, hR k v h⟩⟩

theorem bwd (h : SRel R m m') {k : Key} {v' : V} (hk : m'.get? k = some v') :
    ∃ v, m.get? k = some v ∧ R k v v' := by
  have : k ∈ m.keys := by rw [← h.keys]; exact SlotMap.mem_keys.2 ⟨v', hk⟩
  obtain ⟨v, hv⟩ := SlotMap.mem_keys.1 this
  obtain ⟨v'', h1, h2⟩ := h.fwd k v hv
  rw [hk] at h1; cases h1
  exact ⟨v, hv, h2⟩

theorem trans (h1 : SRel R m m') (h2 : SRel S m' m'')
    (hT : ∀ k v v' v'', R k v v' → S k v' v'' → T k v v'') : SRel T m m'' :=
  ⟨h2.keys.trans h1.keys, fun h => h2.wf (h1.wf h), fun k h => h2.issued k (h1.issued k h), fun k v hk => by
    obtain ⟨v', hv', hr⟩ := h1.fwd k v hk
    obtain ⟨v'', hv'', hs⟩ := h2.fwd k v' hv'
    exact ⟨v'', hv'', hT k v v' v'' hr hs⟩⟩

theorem mono (h : SRel R m m') (hRS : ∀ k v v', R k v v' → S k v v') : SRel S m m' :=
  ⟨h.keys, h.wf, h.issued, fun k v hk => by
    obtain ⟨v', hv', hr⟩ := h.fwd k v hk
    exact ⟨v', hv', hRS k v v' hr⟩⟩

theorem contains (h : SRel R m m') (k : Key) : m'.contains k = m.contains k := by
  simp only [SlotMap.contains]
  cases hk : m.get? k with
  | none =>
    cases hk' : m'.get? k with
    | none => rfl
    | some v' => obtain ⟨v, hv, -⟩ := h.bwd hk'; rw [hk] at hv; cases hv
  | some v => obtain ⟨v', hv', -⟩ := h.fwd k v hk; simp [hv']

/-- One more value is modified. -/
theorem modify (h : SRel R m m') (k : Key) (f : V → V)
    (hf : ∀ v v', m.get? k = some v → m'.get? k = some v' → R k v v' → R k v (f v')) :
    SRel R m (m'.modify k f) := by
  refine ⟨by rw [SlotMap.keys_modify, h.keys], fun hw => (h.wf hw).modify k f,
    fun k' hk' => (h.issued k' hk').modify k f, fun k' v hk' => ?_⟩
  obtain ⟨v', hv', hr⟩ := h.fwd k' v hk'
  by_cases e : k' = k
  · subst e
    exact ⟨f v', by rw [SlotMap.get?_modify_self, hv']; rfl, hf v v' hk' hv' hr⟩
  · exact ⟨v', by rw [SlotMap.get?_modify_ne _ _ e, hv'], hr⟩

theorem modify_one (m : SlotMap V) (k : Key) (f : V → V) (hR : ∀ k' v, k' ≠ k → R k' v v)
    (hf : ∀ v, m.get? k = some v → R k v (f v)) : SRel R m (m.modify k f) := by
  refine ⟨SlotMap.keys_modify m k f, fun hw => hw.modify k f, fun k' hk' => hk'.modify k f,
    fun k' v hk' => ?_⟩
  by_cases e : k' = k
  · subst e
    exact ⟨f v, by rw [SlotMap.get?_modify_self, hk']; rfl, hf v hk'⟩
  · exact ⟨v, by rw [SlotMap.get?_modify_ne _ _ e, hk'], hR k' v e⟩

theorem foldl_modify_keys (m : SlotMap V) (f : Key → V → V) :
    SRel (fun k v v' => v' = f k v) m (m.keys.foldl (fun m k => m.modify k (f k)) m) := by
  refine ⟨SlotMap.keys_foldl_modify m.keys id f m, fun h => SlotMap.WF.foldl_modify m.keys id f h, ?_, ?_⟩
  · intro k hk
    have : ∀ (l : List Key) (m : SlotMap V), m.Issued k → (l.foldl (fun m k => m.modify k (f k)) m).Issued k := by
      intro l
      induction l with
      | nil => exact fun m h => h
      | cons a l ih => exact fun m h => ih _ (h.modify a _)
    exact this _ m hk
  · intro k v hk
    exact ⟨f k v, by rw [SlotMap.get?_foldl_modify_keys, hk]; rfl, rfl⟩

end SRel

section
variable {F : Type} {E : Err → Prop}

theorem getLink_spec {links : LinkSet F} {k : Key} (h : links.contains k) :
    Spec (getLink links k) E (fun l => links.get? k = some l) := by
  unfold getLink
  simp only [SlotMap.contains, Option.isSome_iff_exists] at h
  obtain ⟨l, hl⟩ := h
  simp only [hl]
  exact Spec.pure rfl

theorem getVeh_spec {vs : VehicleSet F} {k : Key} (h : vs.contains k) :
    Spec (getVeh vs k) E (fun v => vs.get? k = some v) := by
  unfold getVeh
  simp only [SlotMap.contains, Option.isSome_iff_exists] at h
  obtain ⟨l, hl⟩ := h
  simp only [hl]
  exact Spec.pure rfl

theorem updLink_spec {links : LinkSet F} {k : Key} {f : Link F → Link F} (h : links.contains k) :
    Spec (updLink links k f) E (fun ls => ls = links.modify k f) := by
  unfold updLink
  simp only [SlotMap.contains, Option.isSome_iff_exists] at h
  obtain ⟨l, hl⟩ := h
  simp only [hl]
  exact Spec.pure rfl

theorem updVeh_spec {vs : VehicleSet F} {k : Key} {f : Vehicle F → Vehicle F} (h : vs.contains k) :
    Spec (updVeh vs k f) E (fun ls => ls = vs.modify k f) := by
  unfold updVeh
  simp only [SlotMap.contains, Option.isSome_iff_exists] at h
  obtain ⟨l, hl⟩ := h
  simp only [hl]
  exact Spec.pure rfl

theorem getLink_ok {links : LinkSet F} {k : Key} {l : Link F} :
    getLink links k = .ok l ↔ links.get? k = some l := by
  unfold getLink; cases links.get? k <;> simp

theorem getVeh_ok {vs : VehicleSet F} {k : Key} {v : Vehicle F} :
    getVeh vs k = .ok v ↔ vs.get? k = some v := by
  unfold getVeh; cases vs.get? k <;> simp

theorem updLink_ok {links links' : LinkSet F} {k : Key} {f : Link F → Link F} :
    updLink links k f = .ok links' ↔ (∃ l, links.get? k = some l) ∧ links' = links.modify k f := by
  unfold updLink
  cases links.get? k with
  | none => simp
  | some l => simp only [M_pure_ok, Option.some.injEq, exists_eq', true_and]; exact eq_comm

theorem updVeh_ok {links links' : VehicleSet F} {k : Key} {f : Vehicle F → Vehicle F} :
    updVeh links k f = .ok links' ↔ (∃ l, links.get? k = some l) ∧ links' = links.modify k f := by
  unfold updVeh
  cases links.get? k with
  | none => simp
  | some l => simp only [M_pure_ok, Option.some.injEq, exists_eq', true_and]; exact eq_comm

theorem contains_of_get {V : Type} {m : SlotMap V} {k : Key} {v : V} (h : m.get? k = some v) :
    m.contains k = true := by simp [SlotMap.contains, h]

theorem get_of_contains {V : Type} {m : SlotMap V} {k : Key} (h : m.contains k = true) :
    ∃ v, m.get? k = some v := by simpa [SlotMap.contains, Option.isSome_iff_exists] using h

theorem Spec.of_ok {α : Type} {x : M α} {Q : α → Prop} (h : ∀ a, x = .ok a → Q a) :
    Spec x (fun _ => True) Q := ⟨h, fun _ _ => trivial⟩

end

end TrafficSim
