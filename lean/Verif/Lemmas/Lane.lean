import Verif.Lemmas.Path
import Verif.Props.Lanes

/-! # Ways through a network -/

namespace TrafficSim

section
variable {F : Type} {links : LinkSet F}

/-- Zero or more permitted lane changes. -/
def LaneStar (links : LinkSet F) : Key → Key → Prop := Relation.ReflTransGen (LaneTo links)

/-- Zero or more permitted lane changes and then a connection. -/
def Hop (links : LinkSet F) (a b : Key) : Prop := ∃ c, LaneStar links a c ∧ Conn links c b

/-- A way along connections and permitted lane changes, in any order. -/
def Leads (links : LinkSet F) : Key → Key → Prop :=
  Relation.ReflTransGen fun a b => Conn links a b ∨ LaneTo links a b

theorem LaneStar.leads {a b : Key} (h : LaneStar links a b) : Leads links a b := by
  induction h with
  | refl => exact .refl
  | tail _ h ih => exact ih.tail (.inr h)

theorem Hop.leads {a b : Key} (h : Hop links a b) : Leads links a b := by
  obtain ⟨c, h1, h2⟩ := h
  exact h1.leads.tail (.inl h2)

theorem hops_leads {a b : Key} (h : Relation.ReflTransGen (Hop links) a b) : Leads links a b := by
  induction h with
  | refl => exact .refl
  | tail _ h ih => exact ih.trans h.leads

/-- A way consists of hops, and lane changes at the end. -/
theorem leads_iff {a b : Key} : Leads links a b ↔ ∃ c, Relation.ReflTransGen (Hop links) a c ∧ LaneStar links c b := by
  constructor
  · intro h
    induction h with
    | refl => exact ⟨a, .refl, .refl⟩
    | tail _ h ih =>
      obtain ⟨c, h1, h2⟩ := ih
      rcases h with h | h
      · exact ⟨_, h1.tail ⟨_, h2, h⟩, .refl⟩
      · exact ⟨c, h1, h2.tail h⟩
  · rintro ⟨c, h1, h2⟩
    exact (hops_leads h1).trans h2.leads

theorem mem_lanesWhere {ks : List Key} {P : Nat → Prop} {j : Key} : j ∈ lanesWhere ks P ↔ ∃ i, ks[i]? = some j ∧ P i := by
  classical
  unfold lanesWhere
  simp only [List.mem_filterMap, List.mem_filter, List.mem_range, decide_eq_true_eq]
  constructor
  · rintro ⟨i, ⟨-, h1⟩, h2⟩; exact ⟨i, h2, h1⟩
  · rintro ⟨i, h2, h1⟩; exact ⟨i, ⟨(List.getElem?_eq_some_iff.1 h2).1, h1⟩, h2⟩

section
variable (hN : NetInv True links)
include hN

theorem laneTo_iff {k j : Key} {l : Link F} {g : LinkGroup F} (hl : links.get? k = some l) (hg : l.group = some g) {i : Nat}
    (hi : g.links[i]? = some k) :
    LaneTo links k j ↔ ∃ b, g.links[b]? = some j ∧ Permitted g.links.length g.lcMask i b := by
  have hgi := (hN.link k l hl).group g hg
  have hnd := hgi.nodup trivial
  have hi' := (List.getElem?_eq_some_iff.1 hi).1
  constructor
  · rintro ⟨l', hl', hj⟩
    rw [hl] at hl'; cases hl'
    obtain ⟨a, b, h1, h2, h3⟩ := (hgi.lc trivial j).1 hj
    have : a = i := (List.getElem?_inj (List.getElem?_eq_some_iff.1 h1).1 hnd).1 (by rw [h1, hi])
    subst this
    exact ⟨b, h2, hi', (List.getElem?_eq_some_iff.1 h2).1, h3.symm⟩
  · rintro ⟨b, h2, -, -, h3⟩
    exact ⟨l, hl, (hgi.lc trivial j).2 ⟨i, b, hi, h2, h3.symm⟩⟩

theorem laneStar_iff {k j : Key} {l : Link F} {g : LinkGroup F} (hl : links.get? k = some l) (hg : l.group = some g) {i : Nat}
    (hi : g.links[i]? = some k) :
    LaneStar links k j ↔ ∃ b, g.links[b]? = some j ∧ LaneReach g.links.length g.lcMask i b := by
  have hgi := (hN.link k l hl).group g hg
  have mem : ∀ {b : Nat} {a : Key}, g.links[b]? = some a → ∃ la, links.get? a = some la ∧ la.group = some g := by
    intro b a h
    obtain ⟨la, hla⟩ := get_of_contains (hgi.valid a (List.mem_of_getElem? h))
    exact ⟨la, hla, hgi.same trivial a (List.mem_of_getElem? h) la hla⟩
  constructor
  · intro h
    induction h with
    | refl => exact ⟨i, hi, .refl⟩
    | tail _ h ih =>
      obtain ⟨b, h1, h2⟩ := ih
      obtain ⟨la, h3, h4⟩ := mem h1
      obtain ⟨c, h5, h6⟩ := (laneTo_iff hN h3 h4 h1).1 h
      exact ⟨c, h5, h2.tail h6⟩
  · rintro ⟨b, h1, h2⟩
    induction h2 generalizing j with
    | refl => rw [hi] at h1; cases h1; exact .refl
    | @tail b c _ h ih =>
      obtain ⟨a, ha⟩ : ∃ a, g.links[b]? = some a := ⟨_, List.getElem?_eq_getElem h.1⟩
      obtain ⟨la, h3, h4⟩ := mem ha
      exact (ih ha).tail ((laneTo_iff hN h3 h4 ha).2 ⟨c, h1, h⟩)

theorem laneTo_none {k j : Key} {l : Link F} (hl : links.get? k = some l) (hg : l.group = none) : ¬ LaneTo links k j := by
  rintro ⟨l', hl', hj⟩
  rw [hl] at hl'; cases hl'
  have := (hN.link k l hl).lc (List.ne_nil_of_mem hj)
  rw [hg] at this; cases this

theorem laneStar_none {k j : Key} {l : Link F} (hl : links.get? k = some l) (hg : l.group = none) : LaneStar links k j ↔ j = k := by
  constructor
  · intro h
    cases Relation.ReflTransGen.cases_head h with
    | inl h => exact h.symm
    | inr h =>
      obtain ⟨c, h, -⟩ := h
      exact absurd h (laneTo_none hN hl hg)
  · rintro rfl; exact .refl

/-- Lane changes stay within the group, so a link without group cannot be changed to. -/
theorem laneStar_to_none {k j : Key} {l : Link F} (hl : links.get? k = some l) (hg : l.group = none) : LaneStar links j k ↔ j = k := by
  constructor
  · intro h
    cases Relation.ReflTransGen.cases_tail h with
    | inl h => exact h.symm
    | inr h =>
      exfalso
      obtain ⟨c, -, lc, hlc, hm⟩ := h
      have hs := (hN.link c lc hlc).lc (List.ne_nil_of_mem hm)
      obtain ⟨g, hgc⟩ := Option.isSome_iff_exists.1 hs
      have hgi := (hN.link c lc hlc).group g hgc
      obtain ⟨a, b, -, h2, -⟩ := (hgi.lc trivial k).1 hm
      rw [hgi.same trivial k (List.mem_of_getElem? h2) l hl] at hg
      cases hg
  · rintro rfl; exact .refl

theorem LaneStar.group {k j : Key} {l l' : Link F} {g : LinkGroup F} (h : LaneStar links j k) (hl : links.get? k = some l)
    (hg : l.group = some g) (hl' : links.get? j = some l') : l'.group = some g ∧ j ∈ g.links := by
  have hgi := (hN.link k l hl).group g hg
  cases hg' : l'.group with
  | none =>
    have := (laneStar_none hN hl' hg').1 h
    subst this
    rw [hl] at hl'; cases hl'
    rw [hg] at hg'; cases hg'
  | some g' =>
    have hgi' := (hN.link j l' hl').group g' hg'
    obtain ⟨i, hi⟩ := List.getElem?_of_mem hgi'.mem
    obtain ⟨b, hb, -⟩ := (laneStar_iff hN hl' hg' hi).1 h
    have := hgi'.same trivial k (List.mem_of_getElem? hb) l hl
    rw [hg] at this; cases this
    exact ⟨rfl, hgi'.mem⟩

theorem reachableLanes_iff {k : Key} {l : Link F} (hl : links.get? k = some l) :
    ∃ ks, l.reachableLanes = .ok ks ∧ ∀ j, j ∈ ks ↔ LaneStar links k j := by
  have hid := (hN.link k l hl).id
  cases hg : l.group with
  | none =>
    refine ⟨_, (C33_ungrouped l hg).1, fun j => ?_⟩
    rw [laneStar_none hN hl hg, hid]; simp
  | some g =>
    have hgi := (hN.link k l hl).group g hg
    obtain ⟨i, hi⟩ := List.getElem?_of_mem hgi.mem
    refine ⟨_, (C33_reachable l g i hg (by rw [hid]; exact hi) (hgi.nodup trivial) (hgi.small trivial)).1, fun j => ?_⟩
    rw [mem_lanesWhere, laneStar_iff hN hl hg hi]

theorem reachableFromLanes_iff {k : Key} {l : Link F} (hl : links.get? k = some l) :
    ∃ ks, l.reachableFromLanes = .ok ks ∧ ∀ j, links.contains j = true → (j ∈ ks ↔ LaneStar links j k) := by
  have hid := (hN.link k l hl).id
  cases hg : l.group with
  | none =>
    refine ⟨_, (C33_ungrouped l hg).2, fun j _ => ?_⟩
    rw [laneStar_to_none hN hl hg, hid]; simp
  | some g =>
    have hgi := (hN.link k l hl).group g hg
    obtain ⟨i, hi⟩ := List.getElem?_of_mem hgi.mem
    refine ⟨_, (C33_reachable l g i hg (by rw [hid]; exact hi) (hgi.nodup trivial) (hgi.small trivial)).2, fun j hj => ?_⟩
    obtain ⟨lj, hlj⟩ := get_of_contains hj
    rw [mem_lanesWhere]
    constructor
    · rintro ⟨b, h1, h2⟩
      have hgj := hgi.same trivial j (List.mem_of_getElem? h1) lj hlj
      exact (laneStar_iff hN hlj hgj h1).2 ⟨i, hi, h2⟩
    · intro h
      obtain ⟨hgj, hm⟩ := h.group hN hl hg hlj
      obtain ⟨b, hb⟩ := List.getElem?_of_mem hm
      obtain ⟨c, hc, h2⟩ := (laneStar_iff hN hlj hgj hb).1 h
      have : c = i := (List.getElem?_inj (List.getElem?_eq_some_iff.1 hc).1 (hgi.nodup trivial)).1 (by rw [hc, hi])
      subst this
      exact ⟨b, hb, h2⟩

theorem LaneStar.valid {a b : Key} (h : LaneStar links a b) (ha : links.contains a = true) : links.contains b = true := by
  induction h with
  | refl => exact ha
  | tail _ h _ => exact hN.lane h

theorem Leads.valid {a b : Key} (h : Leads links a b) (ha : links.contains a = true) : links.contains b = true := by
  induction h with
  | refl => exact ha
  | tail _ h _ => exact h.elim hN.out hN.lane

variable [Flt F]

/-- The successors of a link are the links a hop away. -/
theorem successors_iff {k : Key} (hk : links.contains k = true) :
    ∃ r, successors links k = .ok r ∧ ∀ b, (∃ w, (b, w) ∈ r) ↔ Hop links k b := by
  obtain ⟨l, hl⟩ := get_of_contains hk
  obtain ⟨ks, h1, h2⟩ := reachableLanes_iff hN hl
  have hs := laneSuccessors_spec (E := fun _ => False) (links := links) ks fun j hj => ((h2 j).1 hj).valid hN hk
  cases h3 : laneSuccessors links ks with
  | error e => exact (hs.err h3).elim
  | ok r =>
    refine ⟨r, ?_, fun b => ?_⟩
    · unfold successors
      rw [M_bind_ok]
      refine ⟨l, getLink_ok.2 hl, ?_⟩
      rw [M_bind_ok]
      exact ⟨ks, h1, h3⟩
    · constructor
      · rintro ⟨w, h⟩
        obtain ⟨a, ha, la, hla, hb, -⟩ := (hs.ok h3 b w).1 h
        exact ⟨a, (h2 a).1 ha, la, hla, hb⟩
      · rintro ⟨a, ha, la, hla, hb⟩
        exact ⟨la.cost, (hs.ok h3 b la.cost).2 ⟨a, (h2 a).2 ha, la, hla, hb, rfl⟩⟩

theorem succReach_iff {a b : Key} (ha : links.contains a = true) :
    SuccReach (successors links) a b ↔ Relation.ReflTransGen (Hop links) a b := by
  constructor
  · intro h
    induction h with
    | refl => exact .refl
    | @tail b c _ h ih =>
      have hb := (hops_leads ih).valid hN ha
      obtain ⟨r, h1, h2⟩ := successors_iff hN hb
      obtain ⟨r', w, h3, h4⟩ := h
      rw [h1] at h3; cases h3
      exact ih.tail ((h2 c).1 ⟨w, h4⟩)
  · intro h
    induction h with
    | refl => exact .refl
    | @tail b c h0 h ih =>
      have hb := (hops_leads h0).valid hN ha
      obtain ⟨r, h1, h2⟩ := successors_iff hN hb
      obtain ⟨w, h4⟩ := (h2 c).2 h
      exact ih.tail ⟨r, w, h1, h4⟩

end

end

end TrafficSim
