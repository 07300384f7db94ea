import Verif.Lemmas.Lane

/-! # The links in the lane matrix of a route -/

namespace TrafficSim

/-- The links that have an entry. -/
def mkeys (m : List (Key × LaneDists)) : Set Key := {j | (mget m j).isSome}

theorem mget_minsert (m : List (Key × LaneDists)) (k j : Key) (d : LaneDists) :
    mget (minsert m k d) j = if j = k then some d else mget m j := by
  unfold mget
  induction m with
  | nil =>
    unfold minsert
    by_cases h : j = k
    · subst h; simp
    · rw [if_neg h, List.lookup_cons]; simp [beq_false_of_ne h]
  | cons p m ih =>
    obtain ⟨k', d'⟩ := p
    unfold minsert
    by_cases h1 : k' = k
    · subst h1
      rw [if_pos rfl]
      by_cases h : j = k'
      · subst h; simp
      · rw [if_neg h, List.lookup_cons, List.lookup_cons]; simp [beq_false_of_ne h]
    · rw [if_neg h1, List.lookup_cons, List.lookup_cons]
      by_cases h : j = k'
      · subst h; simp [h1]
      · simp [beq_false_of_ne h, ih]

theorem mkeys_minsert (m : List (Key × LaneDists)) (k : Key) (d : LaneDists) : mkeys (minsert m k d) = insert k (mkeys m) := by
  ext j
  simp only [mkeys, Set.mem_ofPred_eq, Set.mem_insert_iff, mget_minsert]
  split
  · rename_i h; simp [h]
  · rename_i h; simp [h]

section
variable {F : Type} {links : LinkSet F}

/-- Propagating back to `k`. -/
def addBack (links : LinkSet F) (S : Set Key) (k : Key) : Set Key := S ∪ {j | j = k ∧ ∃ b ∈ S, Conn links k b}

/-- Propagating across a lane change. -/
def addAcross (S : Set Key) (p : Key × Key) : Set Key := S ∪ {j | j = p.1 ∧ p.2 ∈ S}

variable [Flt F]

theorem propagateBack_keys {m m' : List (Key × LaneDists)} {k : Key} (h : propagateBack links m k = .ok m') :
    mkeys m' = addBack links (mkeys m) k := by
  unfold propagateBack at h
  rw [M_bind_ok] at h
  obtain ⟨l, hl, h⟩ := h
  rw [getLink_ok] at hl
  have hc : (∃ b ∈ mkeys m, Conn links k b) ↔ l.linksOut.filterMap (mget m) ≠ [] := by
    constructor
    · rintro ⟨b, hb, l', hl', hm⟩
      rw [hl] at hl'; cases hl'
      obtain ⟨d, hd⟩ := Option.isSome_iff_exists.1 hb
      exact List.ne_nil_of_mem (List.mem_filterMap.2 ⟨b, hm, hd⟩)
    · intro hne
      obtain ⟨d, hd⟩ := List.exists_mem_of_ne_nil _ hne
      obtain ⟨b, hm, hd⟩ := List.mem_filterMap.1 hd
      exact ⟨b, by simp [mkeys, hd], l, hl, hm⟩
  unfold addBack
  split at h
  · rename_i e
    rw [M_pure_ok] at h; subst h
    ext j
    simp [hc, e]
  · rename_i d ds e
    rw [M_pure_ok] at h; subst h
    rw [mkeys_minsert]
    ext j
    simp only [hc, e, Set.mem_insert_iff, Set.mem_union, Set.mem_ofPred_eq, ne_eq, reduceCtorEq, not_false_eq_true, and_true]
    tauto

theorem propagateAcross_keys {m m' : List (Key × LaneDists)} {p : Key × Key} (h : propagateAcross links m p = .ok m') :
    mkeys m' = addAcross (mkeys m) p := by
  unfold propagateAcross at h
  unfold addAcross
  split at h
  · rename_i e
    rw [M_pure_ok] at h; subst h
    ext j
    simp [mkeys, e]
  · rename_i d e
    rw [M_bind_ok] at h
    obtain ⟨l, hl, h⟩ := h
    rw [M_pure_ok] at h; subst h
    rw [mkeys_minsert]
    ext j
    simp only [mkeys, Set.mem_insert_iff, Set.mem_union, Set.mem_ofPred_eq, e, Option.isSome_some, and_true]
    tauto

omit [Flt F] in
theorem foldlM_mkeys {α : Type} {f : List (Key × LaneDists) → α → M (List (Key × LaneDists))} {g : Set Key → α → Set Key}
    (hf : ∀ m m' a, f m a = .ok m' → mkeys m' = g (mkeys m) a) : ∀ {as : List α} {m m' : List (Key × LaneDists)},
    as.foldlM f m = .ok m' → mkeys m' = as.foldl g (mkeys m)
  | [], m, m', h => by
    rw [List.foldlM_nil, M_pure_ok] at h
    rw [h]; rfl
  | a :: as, m, m', h => by
    rw [List.foldlM_cons, M_bind_ok] at h
    obtain ⟨m1, h1, h⟩ := h
    rw [List.foldl_cons, ← hf m m1 a h1]
    exact foldlM_mkeys hf h

omit [Flt F] in
theorem foldl_mono {α : Type} {g : Set Key → α → Set Key} (hg : ∀ S a, S ⊆ g S a) : ∀ (as : List α) (S : Set Key), S ⊆ as.foldl g S
  | [], _ => Set.Subset.rfl
  | a :: as, S => (hg S a).trans (foldl_mono hg as _)

omit [Flt F] in
theorem addBack_mono (S : Set Key) (k : Key) : S ⊆ addBack links S k := Set.subset_union_left
theorem addAcross_mono (S : Set Key) (p : Key × Key) : S ⊆ addAcross S p := Set.subset_union_left

omit [Flt F] in
theorem foldl_inv {α : Type} {g : Set Key → α → Set Key} {P : Set Key → Prop} : ∀ {as : List α} {S : Set Key},
    (∀ S, ∀ a ∈ as, P S → P (g S a)) → P S → P (as.foldl g S)
  | [], S, _, h => h
  | a :: as, S, hg, h => foldl_inv (as := as) (S := g S a) (fun S b hb => hg S b (by simp [hb])) (hg S a (by simp) h)

namespace LinkGroup

/-- The mask permits changing from lane `i` in the given direction. -/
def bitD (g : LinkGroup F) : Direction → Nat → Bool
  | .left => g.bitL
  | .right => g.bitR

omit [Flt F] in
theorem lanePairs_eq {g : LinkGroup F} {dir : Direction} {target : Nat → Nat} : ∀ {idxs : List Nat} {ps : List (Key × Key)},
    (∀ i ∈ idxs, i < 16) → g.lanePairs dir target idxs = .ok ps →
    ps = (idxs.filter (g.bitD dir)).filterMap fun i =>
      match g.links[i]?, g.links[target i]? with
      | some a, some b => some (a, b)
      | _, _ => none
  | [], ps, _, h => by
    unfold lanePairs at h
    rw [M_pure_ok] at h; subst h; rfl
  | i :: idxs, ps, hi, h => by
    unfold lanePairs at h
    rw [M_bind_ok] at h
    obtain ⟨b, hb, h⟩ := h
    have hbit : b = g.bitD dir i := by
      have := hi i (by simp)
      cases dir
      · rw [lcBit_left, if_neg (by omega)] at hb; cases hb; rfl
      · rw [lcBit_right, if_neg (by omega)] at hb; cases hb; rfl
    rw [List.filter_cons]
    split at h
    · rename_i ht
      rw [← hbit, if_pos ht, List.filterMap_cons]
      split at h
      · rename_i a c ha hc
        rw [M_bind_ok] at h
        obtain ⟨ps', h1, h⟩ := h
        rw [M_pure_ok] at h; subst h
        rw [ha, hc]
        rw [lanePairs_eq (fun j hj => hi j (by simp [hj])) h1]
      · cases h
    · rename_i ht
      rw [← hbit, if_neg ht]
      exact lanePairs_eq (fun j hj => hi j (by simp [hj])) h

/-- The pair of a lane and its neighbour, if the change is permitted. -/
def pairR (g : LinkGroup F) (i : Nat) : Option (Key × Key) :=
  if g.bitR i then match g.links[i]?, g.links[i + 1]? with
    | some a, some b => some (a, b)
    | _, _ => none
  else none

/-- The pair of a lane and its left neighbour, if the change is permitted. -/
def pairL (g : LinkGroup F) (i : Nat) : Option (Key × Key) :=
  if g.bitL (i + 1) then match g.links[i + 1]?, g.links[i]? with
    | some a, some b => some (a, b)
    | _, _ => none
  else none

omit [Flt F] in
theorem laneChanges_eq {g : LinkGroup F} (h16 : g.links.length ≤ 16) {ps : List (Key × Key)} (h : g.laneChanges = .ok ps) :
    ps = (List.range (g.links.length - 1)).reverse.filterMap g.pairR ++ (List.range (g.links.length - 1)).filterMap g.pairL := by
  unfold laneChanges at h
  split at h
  · cases h
  · rw [M_bind_ok] at h
    obtain ⟨r, h1, h⟩ := h
    rw [M_bind_ok] at h
    obtain ⟨l, h2, h⟩ := h
    rw [M_pure_ok] at h; subst h
    rw [lanePairs_eq (fun i hi => by simp at hi; omega) h1, lanePairs_eq (fun i hi => by simp at hi; omega) h2]
    have key : ∀ (xs : List Nat) (p : Nat → Bool) (f : Nat → Option (Key × Key)),
        (xs.filter p).filterMap f = xs.filterMap fun i => if p i then f i else none := by
      intro xs p f
      induction xs with
      | nil => rfl
      | cons x xs ih =>
        rw [List.filter_cons, List.filterMap_cons]
        by_cases h : p x
        · simp [h, ih, List.filterMap_cons]
        · simp [h, ih]
    rw [key, key, List.filterMap_map]
    rfl

omit [Flt F] in
theorem across_right {g : LinkGroup F} : ∀ (m : Nat) (S : Set Key) {i b : Nat} {a c : Key}, i ≤ b → b ≤ m → g.links[i]? = some a →
    g.links[b]? = some c → c ∈ S → (∀ x, i ≤ x → x < b → g.bitR x = true) →
    a ∈ ((List.range m).reverse.filterMap g.pairR).foldl addAcross S
  | 0, S, i, b, a, c, h1, h2, ha, hc, hS, _ => by
    have : i = b := by omega
    subst this
    rw [ha] at hc; cases hc
    exact hS
  | m + 1, S, i, b, a, c, h1, h2, ha, hc, hS, hbit => by
    rw [List.range_succ, List.reverse_append, List.reverse_singleton, List.singleton_append, List.filterMap_cons]
    by_cases hb : b ≤ m
    · split
      · exact across_right m S h1 hb ha hc hS hbit
      · exact across_right m _ h1 hb ha hc (addAcross_mono _ _ hS) hbit
    · have hb : b = m + 1 := by omega
      subst hb
      by_cases hi : i = m + 1
      · subst hi
        rw [ha] at hc; cases hc
        split
        · exact foldl_mono addAcross_mono _ _ hS
        · exact foldl_mono addAcross_mono _ _ hS
      · have hlt := (List.getElem?_eq_some_iff.1 hc).1
        have hm : g.links[m]? = some (g.links[m]'(by omega)) := List.getElem?_eq_getElem (by omega)
        have hp : g.pairR m = some (g.links[m]'(by omega), c) := by
          unfold pairR
          rw [if_pos (hbit m (by omega) (by omega)), hm, hc]
        rw [hp]
        exact across_right m _ (by omega) le_rfl ha hm (.inr ⟨rfl, hS⟩) fun x hx hx' => hbit x hx (by omega)

omit [Flt F] in
theorem across_left {g : LinkGroup F} : ∀ (m : Nat) (S : Set Key) {i b : Nat} {a c : Key}, b ≤ i → i ≤ m → g.links[i]? = some a →
    g.links[b]? = some c → c ∈ S → (∀ x, b < x → x ≤ i → g.bitL x = true) →
    a ∈ ((List.range m).filterMap g.pairL).foldl addAcross S
  | 0, S, i, b, a, c, h1, h2, ha, hc, hS, _ => by
    have : i = b := by omega
    subst this
    rw [ha] at hc; cases hc
    exact hS
  | m + 1, S, i, b, a, c, h1, h2, ha, hc, hS, hbit => by
    rw [List.range_succ, List.filterMap_append, List.foldl_append]
    by_cases hi : i ≤ m
    · exact foldl_mono addAcross_mono _ _ (across_left m S h1 hi ha hc hS hbit)
    · have hi : i = m + 1 := by omega
      subst hi
      by_cases hb : b = m + 1
      · subst hb
        rw [ha] at hc; cases hc
        exact foldl_mono addAcross_mono _ _ (foldl_mono addAcross_mono _ _ hS)
      · have hlt := (List.getElem?_eq_some_iff.1 ha).1
        have hm : g.links[m]? = some (g.links[m]'(by omega)) := List.getElem?_eq_getElem (by omega)
        have hp : g.pairL m = some (a, g.links[m]'(by omega)) := by
          unfold pairL
          rw [if_pos (hbit (m + 1) (by omega) (by omega)), hm, ha]
        have ih := across_left m S (i := m) (by omega) le_rfl hm hc hS fun x hx hx' => hbit x hx (by omega)
        rw [List.filterMap_cons, hp]
        exact .inr ⟨rfl, ih⟩

omit [Flt F] in
/-- The order in which the lane changes of a group are gone through makes a single pass complete. -/
theorem across_complete {g : LinkGroup F} (h16 : g.links.length ≤ 16) {ps : List (Key × Key)} (h : g.laneChanges = .ok ps)
    (S : Set Key) {i b : Nat} {a c : Key} (ha : g.links[i]? = some a) (hc : g.links[b]? = some c) (hS : c ∈ S)
    (hr : LaneReach g.links.length g.lcMask i b) : a ∈ ps.foldl addAcross S := by
  rw [laneChanges_eq h16 h, List.foldl_append]
  have h1 := (List.getElem?_eq_some_iff.1 ha).1
  have h2 := (List.getElem?_eq_some_iff.1 hc).1
  rcases Nat.le_total i b with h | h
  · exact foldl_mono addAcross_mono _ _ (across_right _ S h (by omega) ha hc hS hr.right)
  · exact across_left _ _ h (by omega) ha hc (foldl_mono addAcross_mono _ _ hS) hr.left

end LinkGroup

theorem matrixStep_keys (hN : NetInv True links) {m m' : List (Key × LaneDists)} {k : Key} (h : matrixStep links m k = .ok m') :
    mkeys m ⊆ mkeys m' ∧ (∀ j ∈ mkeys m', ∃ i ∈ mkeys m, Leads links j i) ∧
      (∀ j ∈ mkeys m, LaneStar links k j → k ∈ mkeys m') ∧ (∀ j ∈ mkeys m, Hop links k j → k ∈ mkeys m') := by
  unfold matrixStep at h
  rw [M_bind_ok] at h
  obtain ⟨l, hl, h⟩ := h
  rw [getLink_ok] at hl
  have back : ∀ S k, (∀ j ∈ S, ∃ i ∈ mkeys m, Leads links j i) → ∀ j ∈ addBack links S k, ∃ i ∈ mkeys m, Leads links j i := by
    rintro S k hS j (hj | ⟨rfl, b, hb, hc⟩)
    · exact hS j hj
    · obtain ⟨i, hi, hl⟩ := hS b hb
      exact ⟨i, hi, .head (.inl hc) hl⟩
  have base : ∀ j ∈ mkeys m, ∃ i ∈ mkeys m, Leads links j i := fun j hj => ⟨j, hj, .refl⟩
  split at h
  · rename_i g hg
    rw [M_bind_ok] at h
    obtain ⟨m1, h1, h⟩ := h
    rw [M_bind_ok] at h
    obtain ⟨ps, hps, h⟩ := h
    have hgi := (hN.link k l hl).group g hg
    have h16 := hgi.small trivial
    have e1 := foldlM_mkeys (g := addBack links) (fun _ _ _ => propagateBack_keys) h1
    have e2 := foldlM_mkeys (g := addAcross) (fun _ _ _ => propagateAcross_keys) h
    have sub1 : mkeys m ⊆ mkeys m1 := by rw [e1]; exact foldl_mono addBack_mono _ _
    have sub2 : mkeys m1 ⊆ mkeys m' := by rw [e2]; exact foldl_mono addAcross_mono _ _
    have lead1 : ∀ j ∈ mkeys m1, ∃ i ∈ mkeys m, Leads links j i := by
      rw [e1]; exact foldl_inv (fun S a _ hS => back S a hS) base
    obtain ⟨i, hi⟩ := List.getElem?_of_mem hgi.mem
    have star : ∀ j ∈ mkeys m1, LaneStar links k j → k ∈ mkeys m' := by
      intro j hj hs
      obtain ⟨b, hb, hr⟩ := (laneStar_iff hN hl hg hi).1 hs
      rw [e2]
      exact LinkGroup.across_complete h16 hps _ hi hb hj hr
    refine ⟨sub1.trans sub2, ?_, fun j hj => star j (sub1 hj), ?_⟩
    · rw [e2]
      refine foldl_inv (P := fun S => ∀ j ∈ S, ∃ i ∈ mkeys m, Leads links j i) (fun S p hp hS => ?_) lead1
      rintro j (hj | ⟨rfl, hb⟩)
      · exact hS j hj
      · obtain ⟨i', hi', hld⟩ := hS _ hb
        have hspec := g.laneChanges_spec (E := fun _ => True) (List.ne_nil_of_mem hgi.mem) (.inl h16)
        obtain ⟨x, y, hx, hy, hxy⟩ := (hspec.ok hps p.1 p.2).1 hp
        obtain ⟨lx, hlx⟩ := get_of_contains (hgi.valid _ (List.mem_of_getElem? hx))
        have hgx := hgi.same trivial _ (List.mem_of_getElem? hx) lx hlx
        have : LaneTo links p.1 p.2 := (laneTo_iff hN hlx hgx hx).2
          ⟨y, hy, (List.getElem?_eq_some_iff.1 hx).1, (List.getElem?_eq_some_iff.1 hy).1, hxy.symm⟩
        exact ⟨i', hi', .head (.inr this) hld⟩
    · rintro j hj ⟨c, hs, hc⟩
      refine star c ?_ hs
      obtain ⟨b, hb, -⟩ := (laneStar_iff hN hl hg hi).1 hs
      obtain ⟨as, bs, hsplit⟩ := List.append_of_mem (List.mem_of_getElem? hb)
      rw [e1, hsplit, List.foldl_append, List.foldl_cons]
      refine foldl_mono addBack_mono _ _ (.inr ⟨rfl, j, foldl_mono addBack_mono _ _ hj, hc⟩)
  · rename_i hg
    have e := propagateBack_keys h
    refine ⟨by rw [e]; exact addBack_mono _ _, by rw [e]; exact back _ _ base, fun j hj hs => ?_, ?_⟩
    · rw [laneStar_none hN hl hg] at hs
      subst hs; rw [e]; exact addBack_mono _ _ hj
    · rintro j hj ⟨c, hs, hc⟩
      rw [laneStar_none hN hl hg] at hs
      subst hs
      rw [e]
      exact .inr ⟨rfl, j, hj, hc⟩

/-- The matrix of a route contains the route, and the destination can be reached from every link in it. -/
theorem calcLaneMatrix_keys (hN : NetInv True links) {dst : Key} {route : List Key} {m : List (Key × LaneDists)}
    (h : calcLaneMatrix links dst route = .ok m) (hchain : route.IsChain (Hop links)) {k : Key} (hlast : route.getLast? = some k)
    (hk : LaneStar links k dst) : (∀ j ∈ mkeys m, Leads links j dst) ∧ ∀ j ∈ route, j ∈ mkeys m := by
  unfold calcLaneMatrix at h
  have base : mkeys (minsert [] dst LaneDists.exit) = {dst} := by
    rw [mkeys_minsert]; ext j; simp [mkeys, mget]
  have key : ∀ (rs : List Key) (m : List (Key × LaneDists)), rs.reverse.IsChain (Hop links) → (∀ k, rs.head? = some k → LaneStar links k dst) →
      rs.foldlM (matrixStep links) (minsert [] dst LaneDists.exit) = .ok m →
      dst ∈ mkeys m ∧ (∀ j ∈ mkeys m, Leads links j dst) ∧ ∀ j ∈ rs, j ∈ mkeys m := by
    intro rs
    induction rs using List.reverseRecOn with
    | nil =>
      intro m _ _ h
      rw [List.foldlM_nil, M_pure_ok] at h; subst h
      rw [base]
      exact ⟨rfl, fun j hj => by cases hj; exact .refl, nofun⟩
    | append_singleton rs a ih =>
      intro m hc hh h
      rw [List.foldlM_append, M_bind_ok] at h
      obtain ⟨m1, h1, h⟩ := h
      rw [List.foldlM_cons, M_bind_ok] at h
      obtain ⟨m2, h2, h⟩ := h
      rw [List.foldlM_nil, M_pure_ok] at h; subst h
      rw [List.reverse_append, List.reverse_singleton, List.singleton_append] at hc
      have hc' : rs.reverse.IsChain (Hop links) := hc.tail
      obtain ⟨g1, g2, g3⟩ := ih m1 hc' (fun k hk => hh k (by rw [List.head?_append, hk]; rfl)) h1
      obtain ⟨f1, f2, f3, f4⟩ := matrixStep_keys hN h2
      refine ⟨f1 g1, fun j hj => ?_, fun j hj => ?_⟩
      · obtain ⟨i, hi, hl⟩ := f2 j hj
        exact hl.trans (g2 i hi)
      · rcases List.mem_append.1 hj with hj | hj
        · exact f1 (g3 j hj)
        · simp only [List.mem_singleton] at hj; subst hj
          cases rs using List.reverseRecOn with
          | nil => exact f3 dst g1 (hh j rfl)
          | append_singleton rs' b =>
            rw [List.reverse_append, List.reverse_singleton, List.singleton_append, List.isChain_cons_cons] at hc
            exact f4 b (g3 b (by simp)) hc.1
  obtain ⟨-, h2, h3⟩ := key route.reverse m (by rw [List.reverse_reverse]; exact hchain)
    (fun k' hk' => by rw [List.head?_reverse, hlast] at hk'; cases hk'; exact hk) h
  exact ⟨h2, fun j hj => h3 j (by simpa using hj)⟩

end

end TrafficSim
