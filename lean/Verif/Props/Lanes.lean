import Verif.Lemmas.Group

/-! # Lanes of a link group: C33, C35 -/

namespace TrafficSim

section
variable {F : Type}

/-! ## C33

The specification: the lane change mask has two bits per lane, counted from the left; bit `2 i`
permits changing from lane `i` to the lane on its left and bit `2 i + 1` to the lane on its right. -/

/-- The mask permits a single lane change from lane `a` to lane `b` of `n` lanes. -/
def Permitted (n mask a b : Nat) : Prop :=
  a < n ∧ b < n ∧ ((a = b + 1 ∧ mask.testBit (2 * a) = true) ∨ (b = a + 1 ∧ mask.testBit (2 * a + 1) = true))

/-- Zero or more single permitted lane changes lead from lane `a` to lane `b`. -/
def LaneReach (n mask : Nat) : Nat → Nat → Prop := Relation.ReflTransGen (Permitted n mask)

theorem LaneReach.lt {n mask a b : Nat} (h : LaneReach n mask a b) (ha : a < n) : b < n := by
  induction h with
  | refl => exact ha
  | tail _ h _ => exact h.2.1

/-- Crossing every boundary to the left is necessary. -/
theorem LaneReach.left {n mask a b : Nat} (h : LaneReach n mask a b) :
    ∀ i, b < i → i ≤ a → mask.testBit (2 * i) = true := by
  induction h with
  | refl => intro i h1 h2; omega
  | @tail c d _ h ih =>
    intro i h1 h2
    rcases h.2.2 with ⟨h3, h4⟩ | ⟨h3, h4⟩
    · by_cases e : i = c
      · subst e; exact h4
      · exact ih i (by omega) h2
    · exact ih i (by omega) h2

/-- Crossing every boundary to the right is necessary. -/
theorem LaneReach.right {n mask a b : Nat} (h : LaneReach n mask a b) :
    ∀ i, a ≤ i → i < b → mask.testBit (2 * i + 1) = true := by
  induction h with
  | refl => intro i h1 h2; omega
  | @tail c d _ h ih =>
    intro i h1 h2
    rcases h.2.2 with ⟨h3, h4⟩ | ⟨h3, h4⟩
    · exact ih i h1 (by omega)
    · by_cases e : i = c
      · subst e; exact h4
      · exact ih i h1 (by omega)

theorem LaneReach.of_left {n mask a : Nat} (ha : a < n) : ∀ (d b : Nat), b + d = a →
    (∀ i, b < i → i ≤ a → mask.testBit (2 * i) = true) → LaneReach n mask a b
  | 0, b, h, _ => by rw [show b = a by omega]; exact .refl
  | d + 1, b, h, hb => by
    refine (LaneReach.of_left ha d (b + 1) (by omega) fun i h1 h2 => hb i (by omega) h2).tail ?_
    exact ⟨by omega, by omega, .inl ⟨rfl, hb (b + 1) (by omega) (by omega)⟩⟩

theorem LaneReach.of_right {n mask a : Nat} : ∀ (d b : Nat), a + d = b → b < n →
    (∀ i, a ≤ i → i < b → mask.testBit (2 * i + 1) = true) → LaneReach n mask a b
  | 0, b, h, _, _ => by rw [show b = a by omega]; exact .refl
  | d + 1, b, h, hlt, hb => by
    refine (LaneReach.of_right d (b - 1) (by omega) (by omega) fun i h1 h2 => hb i h1 (by omega)).tail ?_
    have := hb (b - 1) (by omega) (by omega)
    exact ⟨by omega, by omega, .inr ⟨by omega, this⟩⟩

/-- The members of a group that satisfy `P`, from left to right. -/
noncomputable def lanesWhere (ks : List Key) (P : Nat → Prop) : List Key :=
  open Classical in ((List.range ks.length).filter (fun i => decide (P i))).filterMap fun i => ks[i]?

theorem lanesWhere_interval (ks : List Key) {P : Nat → Prop} {lo hi : Nat} (h1 : hi < ks.length)
    (hP : ∀ i, i < ks.length → (P i ↔ lo ≤ i ∧ i ≤ hi)) :
    lanesWhere ks P = (ks.take (hi + 1)).drop lo := by
  classical
  unfold lanesWhere
  have e1 : (List.range ks.length).filter (fun i => decide (P i)) =
      (List.range ks.length).filter (fun i => decide (lo ≤ i ∧ i ≤ hi)) := by
    refine List.filter_congr fun i hi' => ?_
    rw [decide_eq_decide]
    exact hP i (List.mem_range.1 hi')
  have e2 : (List.range ks.length).filter (fun i => decide (lo ≤ i ∧ i ≤ hi)) =
      (List.range (hi + 1)).drop lo := by
    refine List.Perm.eq_of_pairwise (le := fun a b : ℕ => a ≤ b) (fun a b _ _ h h' => le_antisymm h h') ?_ ?_ ?_
    · exact (List.pairwise_le_range).filter _
    · exact (List.pairwise_le_range).drop
    · refine (List.perm_ext_iff_of_nodup (List.nodup_range.filter _) (List.nodup_range.drop)).2 fun a => ?_
      simp only [List.mem_filter, List.mem_range, decide_eq_true_eq, List.mem_drop_iff_getElem]
      constructor
      · rintro ⟨h, h', h''⟩
        exact ⟨a - lo, by simp; omega, by simp; omega⟩
      · rintro ⟨i, h, rfl⟩
        simp at h ⊢
        omega
  rw [e1, e2]
  refine List.ext_getElem? fun i => ?_
  have e3 : ∀ (l : List Nat), (∀ i ∈ l, i < ks.length) →
      l.filterMap (fun i => ks[i]?) = l.map (fun i => ks.getD i default) := by
    intro l hl
    induction l with
    | nil => rfl
    | cons a l ih =>
      have := hl a (by simp)
      rw [List.filterMap_cons, List.getElem?_eq_getElem this, List.map_cons,
        ih fun i hi => hl i (by simp [hi])]
      simp [this]
  rw [e3 _ (fun i hi => by have := List.mem_of_mem_drop hi; simp at this; omega)]
  rw [List.getElem?_map, List.getElem?_drop, List.getElem?_drop, List.getElem?_take]
  by_cases hlt : lo + i < hi + 1
  · have : lo + i < ks.length := by omega
    simp [hlt, this]
  · rw [if_neg hlt, List.getElem?_eq_none (by simp; omega)]; rfl

/-- **C33.**  For a lane of a group of at most 16 lanes, `reachable_lanes` succeeds and yields, from
left to right, exactly the lanes that zero or more single permitted lane changes lead to, and
`reachable_from_lanes` exactly the lanes from which they lead to the lane. -/
theorem C33_reachable (l : Link F) (g : LinkGroup F) (i : Nat) (hg : l.group = some g)
    (hi : g.links[i]? = some l.id) (hnd : g.links.Nodup) (h16 : g.links.length ≤ 16) :
    l.reachableLanes = .ok (lanesWhere g.links fun j => LaneReach g.links.length g.lcMask i j) ∧
    l.reachableFromLanes = .ok (lanesWhere g.links fun j => LaneReach g.links.length g.lcMask j i) := by
  have hf := LinkGroup.findLink_nodup hnd hi
  have hlt := LinkGroup.findLink_lt hf
  constructor
  · have hs := LinkGroup.reachableLanes_spec (E := fun _ => False) g hlt (.inl h16)
    simp only [Link.reachableLanes, hg, hf]
    cases h : g.reachableLanes i with
    | error e => exact (hs.err h).elim
    | ok ks =>
      obtain ⟨lo, hi', h1, h2, h3, h4, h5, h6, h7, h8⟩ := hs.ok h
      rw [lanesWhere_interval g.links (lo := lo) (hi := hi') h3, h4]
      intro j hj
      constructor
      · intro hr
        constructor
        · by_contra hc
          rcases h6 with h6 | h6
          · omega
          · have := hr.left lo (by omega) h1
            simp [LinkGroup.bitL, this] at h6
        · by_contra hc
          rcases h8 with h8 | h8
          · omega
          · have := hr.right hi' h2 (by omega)
            simp [LinkGroup.bitR, this] at h8
      · rintro ⟨hl, hr⟩
        rcases Nat.le_total j i with hji | hji
        · exact .of_left hlt (i - j) j (by omega) fun x hx hx' => h5 x (by omega) hx'
        · exact .of_right (j - i) j (by omega) hj fun x hx hx' => h7 x hx (by omega)
  · have hs := LinkGroup.reachableFromLanes_spec (E := fun _ => False) g hlt (.inl h16)
    simp only [Link.reachableFromLanes, hg, hf]
    cases h : g.reachableFromLanes i with
    | error e => exact (hs.err h).elim
    | ok ks =>
      obtain ⟨lo, hi', h1, h2, h3, h4, h5, h6, h7, h8⟩ := hs.ok h
      rw [lanesWhere_interval g.links (lo := lo) (hi := hi') h3, h4]
      intro j hj
      constructor
      · intro hr
        constructor
        · by_contra hc
          rcases h6 with h6 | h6
          · omega
          · have := hr.right (lo - 1) (by omega) (by omega)
            simp [LinkGroup.bitR, this] at h6
        · by_contra hc
          rcases h8 with h8 | h8
          · omega
          · have := hr.left (hi' + 1) (by omega) (by omega)
            simp [LinkGroup.bitL, this] at h8
      · rintro ⟨hl, hr⟩
        rcases Nat.le_total i j with hji | hji
        · exact .of_left hj (j - i) i (by omega) fun x hx hx' => h7 x hx (by omega)
        · exact .of_right (i - j) i (by omega) hlt fun x hx hx' => h5 x (by omega) hx'

/-- A group of three lanes: 0 may go right, 1 may go right, 2 may not change. -/
def demoGroup : LinkGroup Float := ⟨[⟨0, 1⟩, ⟨1, 1⟩, ⟨2, 1⟩], [], 0b001010⟩

example : demoGroup.links[1]? = some ⟨1, 1⟩ ∧ demoGroup.links.Nodup ∧ demoGroup.links.length ≤ 16 ∧
    demoGroup.reachableLanes 1 = .ok [⟨1, 1⟩, ⟨2, 1⟩] ∧
    demoGroup.reachableFromLanes 1 = .ok [⟨0, 1⟩, ⟨1, 1⟩] := by decide

/-- A link that is in no group reaches itself only. -/
theorem C33_ungrouped (l : Link F) (hg : l.group = none) :
    l.reachableLanes = .ok [l.id] ∧ l.reachableFromLanes = .ok [l.id] := by
  simp only [Link.reachableLanes, Link.reachableFromLanes, hg]
  exact ⟨rfl, rfl⟩

/-! ## C35 -/

theorem getElem?_flatMap_rows {α β : Type} {f : α → List β} {n : Nat} : ∀ {l : List α},
    (∀ a ∈ l, (f a).length = n) → ∀ {i : Nat} {a : α}, l[i]? = some a → ∀ {r : Nat}, r < n →
    (l.flatMap f)[n * i + r]? = (f a)[r]?
  | [], _, i, a, h, _, _ => by simp at h
  | b :: l, hl, 0, a, h, r, hr => by
    simp at h
    subst h
    rw [List.flatMap_cons, Nat.mul_zero, Nat.zero_add, List.getElem?_append_left (by rw [hl b (by simp)]; exact hr)]
  | b :: l, hl, i + 1, a, h, r, hr => by
    simp at h
    rw [List.flatMap_cons, List.getElem?_append_right (by rw [hl b (by simp)]; nlinarith), hl b (by simp)]
    rw [show n * (i + 1) + r - n = n * i + r by rw [Nat.mul_succ]; omega]
    exact getElem?_flatMap_rows (fun c hc => hl c (by simp [hc])) h hr

theorem filter_ne_eraseIdx : ∀ {ls : List (Link F)} {i : Nat} {a : Link F}, (ls.map (·.id)).Nodup →
    ls[i]? = some a → ls.filter (fun l => decide (a.id ≠ l.id)) = ls.eraseIdx i
  | [], i, a, _, h => by simp at h
  | b :: ls, 0, a, hn, h => by
    simp only [List.length_cons, Nat.zero_lt_succ, List.getElem?_eq_getElem, List.getElem_cons_zero,
      Option.some.injEq] at h
    subst h
    simp only [List.map_cons, List.nodup_cons, List.mem_map, not_exists, not_and] at hn
    rw [List.filter_cons_of_neg (by simp), List.eraseIdx_cons_zero, List.filter_eq_self.2]
    intro c hc
    simpa using Ne.symm (hn.1 c hc)
  | b :: ls, i + 1, a, hn, h => by
    simp only [List.getElem?_cons_succ] at h
    simp only [List.map_cons, List.nodup_cons, List.mem_map, not_exists, not_and] at hn
    rw [List.filter_cons_of_pos (by simpa using hn.1 a (List.mem_of_getElem? h)), List.eraseIdx_cons_succ,
      filter_ne_eraseIdx hn.2 h]

theorem projectionPairs_eq (ls : List (Link F)) : projectionPairs ls =
    ls.flatMap fun src => (ls.filter (fun l => decide (src.id ≠ l.id))).map fun dst => (src, dst) := by
  unfold projectionPairs
  rw [List.filter_flatMap]
  congr 1
  funext src
  rw [List.filter_map]
  rfl

/-- The pair stored in row `i`, column `r`. -/
theorem projectionPairs_getElem {ls : List (Link F)} (hn : (ls.map (·.id)).Nodup) {i r : Nat} {a : Link F}
    (hi : ls[i]? = some a) (hr : r < ls.length - 1) :
    (projectionPairs ls)[(ls.length - 1) * i + r]? =
      (ls[if r < i then r else r + 1]?).map fun b => (a, b) := by
  rw [projectionPairs_eq, getElem?_flatMap_rows (a := a) ?_ hi hr]
  · rw [filter_ne_eraseIdx hn hi, List.getElem?_map, List.getElem?_eraseIdx]
    split <;> rfl
  · intro b hb
    obtain ⟨j, hj⟩ := List.getElem?_of_mem hb
    have := (List.getElem?_eq_some_iff.1 hj).1
    rw [List.length_map, filter_ne_eraseIdx hn hj, List.length_eraseIdx_of_lt this]

theorem length_projectionPairs {ls : List (Link F)} (hn : (ls.map (·.id)).Nodup) :
    (projectionPairs ls).length = ls.length * (ls.length - 1) := by
  rw [projectionPairs_eq, List.length_flatMap]
  have : ls.map (fun src => ((ls.filter (fun l => decide (src.id ≠ l.id))).map fun dst => (src, dst)).length)
      = List.replicate ls.length (ls.length - 1) := by
    rw [List.eq_replicate_iff]
    refine ⟨by simp, fun x hx => ?_⟩
    obtain ⟨b, hb, rfl⟩ := List.mem_map.1 hx
    obtain ⟨j, hj⟩ := List.getElem?_of_mem hb
    have := (List.getElem?_eq_some_iff.1 hj).1
    rw [List.length_map, filter_ne_eraseIdx hn hj, List.length_eraseIdx_of_lt this]
  rw [this]; simp

theorem mapM_getElem? {α β : Type} {f : α → M β} : ∀ {l : List α} {bs : List β}, l.mapM f = .ok bs →
    bs.length = l.length ∧ ∀ (i : Nat) (a : α), l[i]? = some a → ∃ b, bs[i]? = some b ∧ f a = .ok b
  | [], bs, h => by
    rw [List.mapM_nil] at h
    simp at h
    subst h
    simp
  | a :: l, bs, h => by
    rw [List.mapM_cons] at h
    simp only [M_bind_ok, M_pure_ok] at h
    obtain ⟨b, hb, bs', hbs, rfl⟩ := h
    obtain ⟨h1, h2⟩ := mapM_getElem? hbs
    refine ⟨by simp [h1], fun i c hc => ?_⟩
    cases i with
    | zero => simp at hc; subst hc; exact ⟨b, by simp, hb⟩
    | succ i => simp at hc; simpa using h2 i c hc

variable [Flt F] [Env]

/-- What is stored in a new group. -/
theorem LinkGroup.new_ok {ls : List (Link F)} {mask : Nat} {g : LinkGroup F}
    (h : LinkGroup.new ls mask = .ok g) : 2 ≤ ls.length ∧ g.links = ls.map (·.id) ∧ g.lcMask = mask ∧
      (projectionPairs ls).mapM (fun p => mkProjection p.1 p.2) = .ok g.projections := by
  unfold LinkGroup.new at h
  rcases ite_ok.1 h with ⟨_, h⟩ | ⟨h2, h⟩
  · simp at h
  · simp only [M_bind_ok, M_pure_ok] at h
    obtain ⟨ps, hps, rfl⟩ := h
    exact ⟨by omega, rfl, rfl, hps⟩

/-- The projection that is looked up for lanes `i` and `j`. -/
theorem projection_lookup {ls : List (Link F)} {mask : Nat} {g : LinkGroup F}
    (h : LinkGroup.new ls mask = .ok g) (hn : (ls.map (·.id)).Nodup) {i j : Nat} {a b : Link F}
    (hi : ls[i]? = some a) (hj : ls[j]? = some b) {a' b' : Link F}
    (hp : (projectionPairs ls)[(ls.length - 1) * i + j]? = some (a', b')) :
    ∃ p, g.projection a.id b.id = .ok p ∧ mkProjection a' b' = .ok p := by
  obtain ⟨h2, hl, -, hps⟩ := LinkGroup.new_ok h
  have hi' : g.links[i]? = some a.id := by rw [hl, List.getElem?_map, hi]; rfl
  have hj' : g.links[j]? = some b.id := by rw [hl, List.getElem?_map, hj]; rfl
  rw [← hl] at hn
  obtain ⟨p, hp1, hp2⟩ := (mapM_getElem? hps).2 _ _ hp
  refine ⟨p, ?_, hp2⟩
  simp only [LinkGroup.projection, LinkGroup.findLink_nodup hn hi', LinkGroup.findLink_nodup hn hj']
  rw [show g.links.length = ls.length by rw [hl, List.length_map], if_neg (by omega), hp1]
  rfl

/-- **C35, the part that holds.**  In a group of different links, the mapping that is used for a change
from lane `i` to a lane `j` further left is the one from `i` to `j`.  Missing: changes to the right, for
which the claim is false, see `C35_right_wrong`. -/
theorem C35_left_partial {ls : List (Link F)} {mask : Nat} {g : LinkGroup F}
    (h : LinkGroup.new ls mask = .ok g) (hn : (ls.map (·.id)).Nodup) {i j : Nat} {a b : Link F}
    (hi : ls[i]? = some a) (hj : ls[j]? = some b) (hji : j < i) :
    ∃ p, g.projection a.id b.id = .ok p ∧ mkProjection a b = .ok p ∧ p.dst = b.id := by
  have hil := (List.getElem?_eq_some_iff.1 hi).1
  obtain ⟨p, h1, h2⟩ := projection_lookup h hn hi hj (a' := a) (b' := b) (by
    rw [projectionPairs_getElem hn hi (by omega), if_pos hji, hj]; rfl)
  refine ⟨p, h1, h2, ?_⟩
  unfold mkProjection at h2
  simp only [M_bind_ok, M_pure_ok] at h2
  obtain ⟨_, _, rfl⟩ := h2
  rfl

/-- **C35 is false for changes to the right.**  For every group of different links and every change from
a lane to a lane further right, the mapping that is used leads to another lane: the lane right of the
target, or, if the target is the rightmost lane, it is the mapping from the next lane to the leftmost
lane. -/
theorem C35_right_wrong {ls : List (Link F)} {mask : Nat} {g : LinkGroup F}
    (h : LinkGroup.new ls mask = .ok g) (hn : (ls.map (·.id)).Nodup) {i j : Nat} {a b : Link F}
    (hi : ls[i]? = some a) (hj : ls[j]? = some b) (hij : i < j) :
    ∃ p, g.projection a.id b.id = .ok p ∧ p.dst ≠ b.id ∧
      ((∃ c, ls[j + 1]? = some c ∧ mkProjection a c = .ok p) ∨
       (j + 1 = ls.length ∧ ∃ a' c, ls[i + 1]? = some a' ∧ ls[0]? = some c ∧ mkProjection a' c = .ok p)) := by
  have hjl := (List.getElem?_eq_some_iff.1 hj).1
  have key : ∀ (x y : Link F) (p : LinkProjection F), mkProjection x y = .ok p → p.dst = y.id := by
    intro x y p hp
    unfold mkProjection at hp
    simp only [M_bind_ok, M_pure_ok] at hp
    obtain ⟨_, _, rfl⟩ := hp
    rfl
  have hne : ∀ (m : Nat) (c : Link F), ls[m]? = some c → m ≠ j → c.id ≠ b.id := by
    intro m c hc hm he
    refine hm ?_
    have h1 : (ls.map (·.id))[m]? = some c.id := by rw [List.getElem?_map, hc]; rfl
    have h2 : (ls.map (·.id))[j]? = some b.id := by rw [List.getElem?_map, hj]; rfl
    refine (List.getElem?_inj (by simpa using (List.getElem?_eq_some_iff.1 hc).1) hn).1 ?_
    rw [h1, h2, he]
  by_cases hlast : j + 1 < ls.length
  · have hc := List.getElem?_eq_getElem hlast
    obtain ⟨p, h1, h2⟩ := projection_lookup h hn hi hj (a' := a) (b' := ls[j + 1]) (by
      rw [projectionPairs_getElem hn hi (by omega), if_neg (by omega), hc]; rfl)
    refine ⟨p, h1, ?_, .inl ⟨_, hc, h2⟩⟩
    rw [key _ _ _ h2]
    exact hne _ _ hc (by omega)
  · have hil : i + 1 < ls.length := by omega
    have h0 : 0 < ls.length := by omega
    have ha' := List.getElem?_eq_getElem hil
    have hc := List.getElem?_eq_getElem h0
    obtain ⟨p, h1, h2⟩ := projection_lookup h hn hi hj (a' := ls[i + 1]) (b' := ls[0]) (by
      rw [show (ls.length - 1) * i + j = (ls.length - 1) * (i + 1) + 0 by rw [Nat.mul_succ]; omega,
        projectionPairs_getElem hn ha' (by omega), if_pos (by omega), hc]; rfl)
    refine ⟨p, h1, ?_, .inr ⟨by omega, _, _, ha', hc, h2⟩⟩
    rw [key _ _ _ h2]
    exact hne _ _ hc (by omega)

end

/-- Three parallel links, 2 m long, in a group: the hypotheses of the theorems above are met. -/
def demoLanes : M (List (Link Float) × LinkGroup Float) :=
  let _ : Env := ⟨100, fun _ _ _ => .ok none⟩
  let attr (y : Float) : LinkAttributes Float :=
    ⟨(⟨⟨0.0, y⟩, ⟨1.0, 0.0⟩, 2.0⟩ : LineSegment2d Float).toCurve, 10.0⟩
  do
    let a ← Link.new ⟨0, 1⟩ (attr 0.0)
    let b ← Link.new ⟨1, 1⟩ (attr 4.0)
    let c ← Link.new ⟨2, 1⟩ (attr 8.0)
    let g ← LinkGroup.new [a, b, c] 0b011110
    pure ([a, b, c], g)

/-- Asked for the mapping from lane 0 to lane 1, the code returns the one to lane 2; asked for the one
from lane 1 to lane 0 it returns the right one. -/
example : (match demoLanes with
    | .ok (ls, g) => decide ((ls.map (·.id)).Nodup) && decide (ls.length = 3) &&
      (match g.projection ⟨0, 1⟩ ⟨1, 1⟩, g.projection ⟨1, 1⟩ ⟨0, 1⟩ with
        | .ok p, .ok q => p.dst == ⟨2, 1⟩ && q.dst == ⟨0, 1⟩
        | _, _ => false)
    | .error _ => false) = true := by decide +kernel

end TrafficSim
