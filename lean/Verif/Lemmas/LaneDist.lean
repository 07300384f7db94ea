import Verif.Lemmas.Matrix

/-! # The distances in the lane matrix of a route -/

namespace TrafficSim

/-- What is kept of the distance that can be driven with at most `n` lane changes. -/
def LaneDists.nth (d : LaneDists) : Nat → Nat
  | 0 => d.d0
  | 1 => d.d1
  | 2 => d.d2
  | _ => d.d3

namespace LaneDists

theorem nth_exit (n : Nat) : exit.nth n = u32Max := by
  unfold nth; split <;> rfl

theorem nth_combine (a b : LaneDists) (n : Nat) : (a.combine b).nth n = max (a.nth n) (b.nth n) := by
  unfold nth; split <;> rfl

theorem nth_map (d : LaneDists) (f : Nat → Nat) (n : Nat) : (d.map f).nth n = f (d.nth n) := by
  unfold nth; split <;> rfl

theorem nth_shift_zero (d : LaneDists) : d.shift.nth 0 = 0 := rfl

theorem nth_shift_succ (d : LaneDists) {n : Nat} (h : n < 3) : d.shift.nth (n + 1) = d.nth n := by
  interval_cases n <;> rfl

end LaneDists

section
variable {F : Type} (links : LinkSet F)

/-- One can get from the start of a link to `dst` with at most `n` lane changes. -/
inductive Gets (dst : Key) : Nat → Key → Prop
  | there (n : Nat) : Gets dst n dst
  | on {n : Nat} {a b : Key} : Conn links a b → Gets dst n b → Gets dst n a
  | across {n : Nat} {a b : Key} : LaneTo links a b → Gets dst n b → Gets dst (n + 1) a

variable [Flt F]

/-- A length in tenths of a metre. -/
def tenths (x : F) : Nat := toU32 (10.0 * x)

/-- One can drive from the start of a link to the end of some link with at most `n` lane changes, for `D` tenths of a metre.
Every length is rounded to a 32-bit number, and so are the sums. -/
inductive Ends : Nat → Key → Nat → Prop
  | here (n : Nat) {a : Key} {l : Link F} : links.get? a = some l → Ends n a (tenths l.length)
  | on {n D : Nat} {a b : Key} {l : Link F} : links.get? a = some l → b ∈ l.linksOut → Ends n b D →
      Ends n a (min (D + tenths l.length) u32Max)
  | across {n D : Nat} {a b : Key} : LaneTo links a b → Ends n b D → Ends (n + 1) a D

/-- The distances `d` from the start of the link `a` are right: for up to three lane changes, the distance is unbounded,
and one can get to the destination, or else one can drive so far. -/
def DistsOK (dst a : Key) (d : LaneDists) : Prop :=
  ∀ n ≤ 3, (Gets links dst n a ∧ d.nth n = u32Max) ∨ Ends links n a (d.nth n)

variable {links} {dst : Key}

theorem DistsOK.exit : DistsOK links dst dst .exit := fun n _ => .inl ⟨.there n, LaneDists.nth_exit n⟩

theorem DistsOK.dead {a : Key} {l : Link F} (hl : links.get? a = some l) : DistsOK links dst a (.dead l.length) := by
  intro n _
  have : (LaneDists.dead l.length).nth n = tenths l.length := by
    unfold LaneDists.dead LaneDists.nth; split <;> rfl
  rw [this]
  exact .inr (.here n hl)

theorem DistsOK.combine {a : Key} {d e : LaneDists} (h1 : DistsOK links dst a d) (h2 : DistsOK links dst a e) :
    DistsOK links dst a (d.combine e) := by
  intro n hn
  rw [LaneDists.nth_combine]
  rcases max_choice (d.nth n) (e.nth n) with h | h
  · rw [h]; exact h1 n hn
  · rw [h]; exact h2 n hn

theorem DistsOK.offset {a b : Key} {l : Link F} {d : LaneDists} (hl : links.get? a = some l) (hb : b ∈ l.linksOut)
    (h : DistsOK links dst b d) : DistsOK links dst a (d.offset l.length) := by
  intro n hn
  unfold LaneDists.offset
  rw [LaneDists.nth_map]
  rcases h n hn with ⟨h1, h2⟩ | h1
  · exact .inl ⟨.on ⟨l, hl, hb⟩ h1, by rw [h2]; simp [satAdd]⟩
  · exact .inr (.on hl hb h1)

theorem DistsOK.across {a b : Key} {d e : LaneDists} (hab : LaneTo links a b) (h1 : DistsOK links dst a d)
    (h2 : DistsOK links dst b e) : DistsOK links dst a (d.combine e.shift) := by
  intro n hn
  rw [LaneDists.nth_combine]
  cases n with
  | zero => rw [LaneDists.nth_shift_zero, Nat.max_zero]; exact h1 0 hn
  | succ n =>
    rw [LaneDists.nth_shift_succ _ (by omega)]
    rcases max_choice (d.nth (n + 1)) (e.nth n) with h | h
    · rw [h]; exact h1 _ hn
    · rw [h]
      rcases h2 n (by omega) with ⟨h3, h4⟩ | h3
      · exact .inl ⟨.across hab h3, h4⟩
      · exact .inr (.across hab h3)

/-- All the entries of a matrix are right. -/
def MatrixOK (links : LinkSet F) (dst : Key) (m : List (Key × LaneDists)) : Prop :=
  ∀ a d, mget m a = some d → DistsOK links dst a d

theorem MatrixOK.minsert {m : List (Key × LaneDists)} {k : Key} {d : LaneDists} (h : MatrixOK links dst m)
    (hd : DistsOK links dst k d) : MatrixOK links dst (minsert m k d) := by
  intro a e he
  rw [mget_minsert] at he
  split at he
  · rename_i e'; cases he; rw [e']; exact hd
  · exact h a e he

theorem MatrixOK.back {m m' : List (Key × LaneDists)} {k : Key} (h : MatrixOK links dst m)
    (hr : propagateBack links m k = .ok m') : MatrixOK links dst m' := by
  unfold propagateBack at hr
  rw [M_bind_ok] at hr
  obtain ⟨l, hl, hr⟩ := hr
  rw [getLink_ok] at hl
  have ok : ∀ e ∈ l.linksOut.filterMap (mget m), DistsOK links dst k (e.offset l.length) := by
    intro e he
    obtain ⟨b, hb, hbe⟩ := List.mem_filterMap.1 he
    exact (h b e hbe).offset hl hb
  split at hr
  · rw [M_pure_ok] at hr; subst hr; exact h
  · rename_i d ds he
    rw [M_pure_ok] at hr; subst hr
    rw [he] at ok
    refine h.minsert ?_
    have key : ∀ (ds : List LaneDists) (d : LaneDists), (∀ e ∈ d :: ds, DistsOK links dst k (e.offset l.length)) →
        DistsOK links dst k ((ds.foldl LaneDists.combine d).offset l.length) := by
      intro ds
      induction ds with
      | nil => intro d hd; exact hd d (by simp)
      | cons e ds ih =>
        intro d hd
        refine ih _ fun x hx => ?_
        rcases List.mem_cons.1 hx with rfl | hx
        · have e1 : (d.combine e).offset l.length = (d.offset l.length).combine (e.offset l.length) := by
            simp [LaneDists.offset, LaneDists.combine, LaneDists.map, satAdd]
            omega
          rw [e1]
          exact (hd d (by simp)).combine (hd e (by simp))
        · exact hd x (by simp [hx])
    exact key ds d ok

theorem MatrixOK.propagateAcross {m m' : List (Key × LaneDists)} {p : Key × Key} (h : MatrixOK links dst m)
    (hp : LaneTo links p.1 p.2) (hr : propagateAcross links m p = .ok m') : MatrixOK links dst m' := by
  unfold TrafficSim.propagateAcross at hr
  split at hr
  · rw [M_pure_ok] at hr; subst hr; exact h
  · rename_i toD ht
    rw [M_bind_ok] at hr
    obtain ⟨l, hl, hr⟩ := hr
    rw [getLink_ok] at hl
    rw [M_pure_ok] at hr; subst hr
    refine h.minsert (.across hp ?_ (h _ _ ht))
    cases hg : mget m p.1 with
    | none => exact .dead hl
    | some d => exact h _ _ hg

omit [Flt F] in
theorem laneChanges_laneTo (hN : NetInv True links) {k : Key} {l : Link F} {g : LinkGroup F} (hl : links.get? k = some l)
    (hg : l.group = some g) {ps : List (Key × Key)} (hps : g.laneChanges = .ok ps) : ∀ p ∈ ps, LaneTo links p.1 p.2 := by
  intro p hp
  have hgi := (hN.link k l hl).group g hg
  have hspec := g.laneChanges_spec (E := fun _ => True) (List.ne_nil_of_mem hgi.mem) (.inl (hgi.small trivial))
  obtain ⟨x, y, hx, hy, hxy⟩ := (hspec.ok hps p.1 p.2).1 hp
  obtain ⟨lx, hlx⟩ := get_of_contains (hgi.valid _ (List.mem_of_getElem? hx))
  have hgx := hgi.same trivial _ (List.mem_of_getElem? hx) lx hlx
  exact (laneTo_iff hN hlx hgx hx).2
    ⟨y, hy, (List.getElem?_eq_some_iff.1 hx).1, (List.getElem?_eq_some_iff.1 hy).1, hxy.symm⟩

theorem foldlM_inv {α β : Type} {f : β → α → M β} {P : β → Prop} : ∀ {as : List α} {b b' : β},
    (∀ b a b', a ∈ as → P b → f b a = .ok b' → P b') → P b → as.foldlM f b = .ok b' → P b'
  | [], b, b', _, hb, h => by rw [List.foldlM_nil, M_pure_ok] at h; subst h; exact hb
  | a :: as, b, b', hf, hb, h => by
    rw [List.foldlM_cons, M_bind_ok] at h
    obtain ⟨c, h1, h⟩ := h
    exact foldlM_inv (fun b a b' ha => hf b a b' (by simp [ha])) (hf b a c (by simp) hb h1) h

theorem MatrixOK.step (hN : NetInv True links) {m m' : List (Key × LaneDists)} {k : Key} (h : MatrixOK links dst m)
    (hr : matrixStep links m k = .ok m') : MatrixOK links dst m' := by
  unfold matrixStep at hr
  rw [M_bind_ok] at hr
  obtain ⟨l, hl, hr⟩ := hr
  rw [getLink_ok] at hl
  split at hr
  · rename_i g hg
    rw [M_bind_ok] at hr
    obtain ⟨m1, h1, hr⟩ := hr
    rw [M_bind_ok] at hr
    obtain ⟨ps, hps, hr⟩ := hr
    have hm1 : MatrixOK links dst m1 := foldlM_inv (fun _ _ _ _ => MatrixOK.back) h h1
    exact foldlM_inv (fun b p b' hp hb => hb.propagateAcross (laneChanges_laneTo hN hl hg hps p hp)) hm1 hr
  · exact h.back hr

theorem calcLaneMatrix_ok (hN : NetInv True links) {route : List Key} {m : List (Key × LaneDists)}
    (h : calcLaneMatrix links dst route = .ok m) : MatrixOK links dst m := by
  unfold calcLaneMatrix at h
  refine foldlM_inv (fun _ _ _ _ hb => hb.step hN) (MatrixOK.minsert ?_ .exit) h
  intro a d hd
  cases hd

/-! ## Every way along the route is taken into account -/

/-- `b` is the link `a` or in the same group. -/
def SameRoad (links : LinkSet F) (a b : Key) : Prop :=
  ∃ l, links.get? a = some l ∧ match l.group with
    | some g => b ∈ g.links
    | none => b = a

/-- One can get from `a` to `dst` along the roads of the given links, in their order, with at most `n` lane changes. -/
inductive Follows (links : LinkSet F) (dst : Key) : List Key → Nat → Key → Prop
  | there {r : Key} {rs : List Key} (n : Nat) : SameRoad links r dst → Follows links dst (r :: rs) n dst
  | on {n : Nat} {a b r r' : Key} {pre rs : List Key} : SameRoad links r a → Conn links a b →
      Follows links dst (r' :: rs) n b → SameRoad links r' b → Follows links dst (r :: pre ++ r' :: rs) n a
  | across {n : Nat} {a b r : Key} {rs : List Key} : SameRoad links r a → LaneTo links a b →
      Follows links dst (r :: rs) n b → Follows links dst (r :: rs) (n + 1) a

/-- The pairs of `n` and a link for which the distance is unbounded. -/
def Unlimited (m : List (Key × LaneDists)) : Set (Nat × Key) :=
  {q | q.1 ≤ 3 ∧ ∃ d, mget m q.2 = some d ∧ u32Max ≤ d.nth q.1}

/-- What propagating across a lane change adds at least. -/
def addChange (S : Set (Nat × Key)) (p : Key × Key) : Set (Nat × Key) :=
  S ∪ {q | q.2 = p.1 ∧ ∃ n, q.1 = n + 1 ∧ q.1 ≤ 3 ∧ (n, p.2) ∈ S}

omit [Flt F] in
theorem addChange_mono {S T : Set (Nat × Key)} (h : S ⊆ T) (p : Key × Key) : addChange S p ⊆ addChange T p := by
  rintro q (hq | ⟨h1, n, h2, h3, h4⟩)
  · exact .inl (h hq)
  · exact .inr ⟨h1, n, h2, h3, h h4⟩

omit [Flt F] in
theorem foldl_addChange_sub : ∀ (ps : List (Key × Key)) (S : Set (Nat × Key)), S ⊆ ps.foldl addChange S
  | [], _ => subset_rfl
  | p :: ps, S => (Set.subset_union_left : S ⊆ addChange S p).trans (foldl_addChange_sub ps (addChange S p))

omit [Flt F] in
theorem foldl_addChange_mono : ∀ (ps : List (Key × Key)) {S T : Set (Nat × Key)}, S ⊆ T →
    ps.foldl addChange S ⊆ ps.foldl addChange T
  | [], _, _, h => h
  | p :: ps, _, _, h => foldl_addChange_mono ps (addChange_mono h p)

theorem propagateAcross_unbounded {m m' : List (Key × LaneDists)} {p : Key × Key} (h : propagateAcross links m p = .ok m') :
    addChange (Unlimited m) p ⊆ Unlimited m' ∧ ∀ j, j ≠ p.1 → mget m' j = mget m j := by
  unfold TrafficSim.propagateAcross at h
  split at h
  · rename_i hn
    rw [M_pure_ok] at h; subst h
    refine ⟨?_, fun _ _ => rfl⟩
    rintro q (hq | ⟨-, n, -, -, -, d, hd, -⟩)
    · exact hq
    · rw [hn] at hd; cases hd
  · rename_i toD ht
    rw [M_bind_ok] at h
    obtain ⟨l, hl, h⟩ := h
    rw [M_pure_ok] at h; subst h
    refine ⟨?_, fun j hj => by rw [mget_minsert, if_neg hj]⟩
    rintro ⟨n, j⟩ (⟨h1, d, h2, h3⟩ | ⟨h1, n', h2, h3, h4, d, h5, h6⟩)
    · refine ⟨h1, ?_⟩
      dsimp only at h2 h3 ⊢
      rw [mget_minsert]
      by_cases hj : j = p.1
      · subst hj
        rw [if_pos rfl]
        refine ⟨_, rfl, ?_⟩
        rw [h2, LaneDists.nth_combine]
        exact le_max_of_le_left h3
      · rw [if_neg hj]; exact ⟨d, h2, h3⟩
    · dsimp only at h1 h2 h3 h5 h6
      subst h1 h2
      refine ⟨h3, ?_⟩
      dsimp only
      rw [mget_minsert, if_pos rfl]
      refine ⟨_, rfl, ?_⟩
      rw [ht] at h5; cases h5
      rw [LaneDists.nth_combine, LaneDists.nth_shift_succ _ (by omega)]
      exact le_max_of_le_right h6

theorem across_unbounded : ∀ {ps : List (Key × Key)} {m m' : List (Key × LaneDists)},
    ps.foldlM (propagateAcross links) m = .ok m' → ps.foldl addChange (Unlimited m) ⊆ Unlimited m' ∧
      ∀ j, (∀ p ∈ ps, j ≠ p.1) → mget m' j = mget m j
  | [], m, m', h => by rw [List.foldlM_nil, M_pure_ok] at h; subst h; exact ⟨subset_rfl, fun _ _ => rfl⟩
  | p :: ps, m, m', h => by
    rw [List.foldlM_cons, M_bind_ok] at h
    obtain ⟨m1, h1, h⟩ := h
    obtain ⟨g1, g2⟩ := propagateAcross_unbounded h1
    obtain ⟨g3, g4⟩ := across_unbounded h
    refine ⟨(foldl_addChange_mono ps g1).trans g3, fun j hj => ?_⟩
    rw [g4 j fun p' hp' => hj p' (by simp [hp']), g2 j (hj p (by simp))]

namespace LinkGroup

omit [Flt F] in
theorem change_right {g : LinkGroup F} : ∀ (m : Nat) (S : Set (Nat × Key)) {i b n : Nat} {a c : Key}, i ≤ b → b ≤ m →
    g.links[i]? = some a → g.links[b]? = some c → (n, c) ∈ S → n + (b - i) ≤ 3 → (∀ x, i ≤ x → x < b → g.bitR x = true) →
    (n + (b - i), a) ∈ ((List.range m).reverse.filterMap g.pairR).foldl addChange S
  | 0, S, i, b, n, a, c, h1, h2, ha, hc, hS, _, _ => by
    have : i = b := by omega
    subst this
    rw [ha] at hc; cases hc
    simpa using hS
  | m + 1, S, i, b, n, a, c, h1, h2, ha, hc, hS, h3, hbit => by
    rw [List.range_succ, List.reverse_append, List.reverse_singleton, List.singleton_append, List.filterMap_cons]
    by_cases hb : b ≤ m
    · split
      · exact change_right m S h1 hb ha hc hS h3 hbit
      · exact change_right m _ h1 hb ha hc (.inl hS) h3 hbit
    · have hb : b = m + 1 := by omega
      subst hb
      by_cases hi : i = m + 1
      · subst hi
        rw [ha] at hc; cases hc
        rw [Nat.sub_self, Nat.add_zero]
        split
        · exact foldl_addChange_sub _ _ hS
        · exact foldl_addChange_sub (_ :: _) _ hS
      · have hlt := (List.getElem?_eq_some_iff.1 hc).1
        have hm : g.links[m]? = some (g.links[m]'(by omega)) := List.getElem?_eq_getElem (by omega)
        have hp : g.pairR m = some (g.links[m]'(by omega), c) := by
          unfold pairR
          rw [if_pos (hbit m (by omega) (by omega)), hm, hc]
        rw [hp]
        have := change_right m (addChange S (g.links[m]'(by omega), c)) (i := i) (b := m) (n := n + 1) (by omega) le_rfl ha hm
          (.inr ⟨rfl, n, rfl, by show n + 1 ≤ 3; omega, hS⟩) (by omega) fun x hx hx' => hbit x hx (by omega)
        rw [show n + 1 + (m - i) = n + (m + 1 - i) by omega] at this
        exact this

omit [Flt F] in
theorem change_left {g : LinkGroup F} : ∀ (m : Nat) (S : Set (Nat × Key)) {i b n : Nat} {a c : Key}, b ≤ i → i ≤ m →
    g.links[i]? = some a → g.links[b]? = some c → (n, c) ∈ S → n + (i - b) ≤ 3 → (∀ x, b < x → x ≤ i → g.bitL x = true) →
    (n + (i - b), a) ∈ ((List.range m).filterMap g.pairL).foldl addChange S
  | 0, S, i, b, n, a, c, h1, h2, ha, hc, hS, _, _ => by
    have : i = b := by omega
    subst this
    rw [ha] at hc; cases hc
    simpa using hS
  | m + 1, S, i, b, n, a, c, h1, h2, ha, hc, hS, h3, hbit => by
    rw [List.range_succ, List.filterMap_append, List.foldl_append]
    by_cases hi : i ≤ m
    · exact foldl_addChange_sub _ _ (change_left m S h1 hi ha hc hS h3 hbit)
    · have hi : i = m + 1 := by omega
      subst hi
      by_cases hb : b = m + 1
      · subst hb
        rw [ha] at hc; cases hc
        rw [Nat.sub_self, Nat.add_zero]
        exact foldl_addChange_sub _ _ (foldl_addChange_sub _ _ hS)
      · have hlt := (List.getElem?_eq_some_iff.1 ha).1
        have hm : g.links[m]? = some (g.links[m]'(by omega)) := List.getElem?_eq_getElem (by omega)
        have hp : g.pairL m = some (a, g.links[m]'(by omega)) := by
          unfold pairL
          rw [if_pos (hbit (m + 1) (by omega) (by omega)), hm, ha]
        have ih := change_left m S (i := m) (by omega) le_rfl hm hc hS (by omega) fun x hx hx' => hbit x hx (by omega)
        rw [List.filterMap_cons, hp]
        exact .inr ⟨rfl, n + (m - b), by show n + (m + 1 - b) = _; omega, h3, ih⟩

omit [Flt F] in
theorem change_complete {g : LinkGroup F} (h16 : g.links.length ≤ 16) {ps : List (Key × Key)} (h : g.laneChanges = .ok ps)
    (S : Set (Nat × Key)) {i b n k : Nat} {a c : Key} (ha : g.links[i]? = some a) (hc : g.links[b]? = some c) (hS : (n, c) ∈ S)
    (hr : LaneReach g.links.length g.lcMask i b) (hk : k = (i - b) + (b - i)) (h3 : n + k ≤ 3) :
    (n + k, a) ∈ ps.foldl addChange S := by
  rw [laneChanges_eq h16 h, List.foldl_append]
  have h1 := (List.getElem?_eq_some_iff.1 ha).1
  have h2 := (List.getElem?_eq_some_iff.1 hc).1
  rcases Nat.le_total i b with h | h
  · have e : k = b - i := by omega
    rw [e] at h3 ⊢
    exact foldl_addChange_sub _ _ (change_right _ S h (by omega) ha hc hS h3 hr.right)
  · have e : k = i - b := by omega
    rw [e] at h3 ⊢
    exact change_left _ _ h (by omega) ha hc (foldl_addChange_sub _ _ hS) h3 hr.left

end LinkGroup

/-- The distances grow with the number of lane changes. -/
def LaneDists.Mono (d : LaneDists) : Prop := d.d0 ≤ d.d1 ∧ d.d1 ≤ d.d2 ∧ d.d2 ≤ d.d3

omit [Flt F] in
theorem LaneDists.Mono.nth {d : LaneDists} (h : d.Mono) {n n' : Nat} (hn : n ≤ n') (h3 : n' ≤ 3) : d.nth n ≤ d.nth n' := by
  obtain ⟨h1, h2, h4⟩ := h
  interval_cases n' <;> interval_cases n <;> simp only [LaneDists.nth] <;> omega

/-- All the distances of a matrix grow with the number of lane changes. -/
def MatrixMono (m : List (Key × LaneDists)) : Prop := ∀ a d, mget m a = some d → d.Mono

omit [Flt F] in
theorem MatrixMono.minsert {m : List (Key × LaneDists)} {k : Key} {d : LaneDists} (h : MatrixMono m) (hd : d.Mono) :
    MatrixMono (minsert m k d) := by
  intro a e he
  rw [mget_minsert] at he
  split at he
  · cases he; exact hd
  · exact h a e he

omit [Flt F] in
theorem LaneDists.Mono.combine {a b : LaneDists} (h1 : a.Mono) (h2 : b.Mono) : (a.combine b).Mono := by
  simp only [LaneDists.Mono, LaneDists.combine] at *
  omega

omit [Flt F] in
theorem LaneDists.Mono.shift {a : LaneDists} (h1 : a.Mono) : a.shift.Mono := by
  simp only [LaneDists.Mono, LaneDists.shift] at *
  omega

theorem LaneDists.Mono.offset {a : LaneDists} (h1 : a.Mono) (x : F) : (a.offset x).Mono := by
  simp only [LaneDists.Mono, LaneDists.offset, LaneDists.map, satAdd] at *
  omega

theorem MatrixMono.back {m m' : List (Key × LaneDists)} {k : Key} (h : MatrixMono m)
    (hr : propagateBack links m k = .ok m') : MatrixMono m' := by
  unfold propagateBack at hr
  rw [M_bind_ok] at hr
  obtain ⟨l, hl, hr⟩ := hr
  have ok : ∀ e ∈ l.linksOut.filterMap (mget m), e.Mono := by
    intro e he
    obtain ⟨b, hb, hbe⟩ := List.mem_filterMap.1 he
    exact h b e hbe
  split at hr
  · rw [M_pure_ok] at hr; subst hr; exact h
  · rename_i d ds he
    rw [M_pure_ok] at hr; subst hr
    rw [he] at ok
    refine h.minsert (LaneDists.Mono.offset ?_ _)
    have key : ∀ (ds : List LaneDists) (d : LaneDists), d.Mono → (∀ e ∈ ds, e.Mono) → (ds.foldl LaneDists.combine d).Mono := by
      intro ds
      induction ds with
      | nil => intro d hd _; exact hd
      | cons e ds ih => intro d hd he; exact ih _ (hd.combine (he e (by simp))) fun x hx => he x (by simp [hx])
    exact key ds d (ok d (by simp)) fun e he => ok e (by simp [he])

theorem MatrixMono.across {m m' : List (Key × LaneDists)} {p : Key × Key} (h : MatrixMono m)
    (hr : propagateAcross links m p = .ok m') : MatrixMono m' := by
  unfold TrafficSim.propagateAcross at hr
  split at hr
  · rw [M_pure_ok] at hr; subst hr; exact h
  · rename_i toD ht
    rw [M_bind_ok] at hr
    obtain ⟨l, hl, hr⟩ := hr
    rw [M_pure_ok] at hr; subst hr
    refine h.minsert (LaneDists.Mono.combine ?_ (h _ _ ht).shift)
    cases hg : mget m p.1 with
    | none => exact ⟨le_rfl, le_rfl, le_rfl⟩
    | some d => exact h _ _ hg

theorem MatrixMono.step {m m' : List (Key × LaneDists)} {k : Key} (h : MatrixMono m)
    (hr : matrixStep links m k = .ok m') : MatrixMono m' := by
  unfold matrixStep at hr
  rw [M_bind_ok] at hr
  obtain ⟨l, hl, hr⟩ := hr
  split at hr
  · rw [M_bind_ok] at hr
    obtain ⟨m1, h1, hr⟩ := hr
    rw [M_bind_ok] at hr
    obtain ⟨ps, hps, hr⟩ := hr
    have hm1 : MatrixMono m1 := foldlM_inv (fun _ _ _ _ => MatrixMono.back) h h1
    exact foldlM_inv (fun _ _ _ _ => MatrixMono.across) hm1 hr
  · exact h.back hr

omit [Flt F] in
theorem unlimited_mono {m : List (Key × LaneDists)} (hm : MatrixMono m) {n n' : Nat} {a : Key} (h : (n, a) ∈ Unlimited m)
    (hn : n ≤ n') (h3 : n' ≤ 3) : (n', a) ∈ Unlimited m := by
  obtain ⟨-, d, hd, hu⟩ := h
  exact ⟨h3, d, hd, hu.trans ((hm a d hd).nth hn h3)⟩

omit [Flt F] in
theorem unlimited_congr {m m' : List (Key × LaneDists)} {n : Nat} {a : Key} (h : (n, a) ∈ Unlimited m)
    (e : mget m' a = mget m a) : (n, a) ∈ Unlimited m' := by
  obtain ⟨h1, d, hd, hu⟩ := h
  exact ⟨h1, d, e.trans hd, hu⟩

theorem propagateBack_unbounded {m m' : List (Key × LaneDists)} {k : Key} (h : propagateBack links m k = .ok m') :
    (∀ j, j ≠ k → mget m' j = mget m j) ∧ ((∀ b, Conn links k b → mget m b = none) → mget m' k = mget m k) ∧
      ∀ n b, Conn links k b → (n, b) ∈ Unlimited m → (n, k) ∈ Unlimited m' := by
  unfold propagateBack at h
  rw [M_bind_ok] at h
  obtain ⟨l, hl, h⟩ := h
  rw [getLink_ok] at hl
  have mem : ∀ b d, Conn links k b → mget m b = some d → d ∈ l.linksOut.filterMap (mget m) := by
    rintro b d ⟨l', hl', hb⟩ hd
    rw [hl] at hl'; cases hl'
    exact List.mem_filterMap.2 ⟨b, hb, hd⟩
  split at h
  · rename_i he
    rw [M_pure_ok] at h; subst h
    refine ⟨fun _ _ => rfl, fun _ => rfl, ?_⟩
    rintro n b hb ⟨-, d, hd, -⟩
    have := mem b d hb hd
    rw [he] at this; cases this
  · rename_i d ds he
    rw [M_pure_ok] at h; subst h
    refine ⟨fun j hj => by rw [mget_minsert, if_neg hj], fun hn => ?_, ?_⟩
    · exfalso
      have : d ∈ l.linksOut.filterMap (mget m) := by rw [he]; simp
      obtain ⟨b, hb, hd⟩ := List.mem_filterMap.1 this
      rw [hn b ⟨l, hl, hb⟩] at hd; cases hd
    · rintro n b hb ⟨h1, e, hd, hu⟩
      refine ⟨h1, ?_⟩
      dsimp only at hd hu h1 ⊢
      rw [mget_minsert, if_pos rfl]
      refine ⟨_, rfl, ?_⟩
      have he' := mem b e hb hd
      rw [he] at he'
      have start : ∀ (ds : List LaneDists) (d : LaneDists), d.nth n ≤ (ds.foldl LaneDists.combine d).nth n := by
        intro ds
        induction ds with
        | nil => intro d; exact le_rfl
        | cons x ds ih =>
          intro d
          refine le_trans ?_ (ih (d.combine x))
          rw [LaneDists.nth_combine]
          exact le_max_left _ _
      have key : ∀ (ds : List LaneDists) (d : LaneDists), e ∈ d :: ds → e.nth n ≤ (ds.foldl LaneDists.combine d).nth n := by
        intro ds
        induction ds with
        | nil => intro d hd; simp at hd; rw [hd]; exact le_rfl
        | cons x ds ih =>
          intro d hd
          rcases List.mem_cons.1 hd with rfl | hd
          · exact start _ _
          · rcases List.mem_cons.1 hd with rfl | hd
            · refine le_trans ?_ (start ds (d.combine e))
              rw [LaneDists.nth_combine]
              exact le_max_right _ _
            · exact ih _ (by simp [hd])
      unfold LaneDists.offset
      rw [LaneDists.nth_map]
      have := key ds d he'
      unfold satAdd
      omega

theorem backs_unbounded {R : List Key} (hR : ∀ a ∈ R, ∀ b, Conn links a b → b ∉ R) :
    ∀ {as : List Key} {m m' : List (Key × LaneDists)}, (∀ a ∈ as, a ∈ R) → as.foldlM (propagateBack links) m = .ok m' →
    (∀ j, j ∉ as → mget m' j = mget m j) ∧
    (∀ a ∈ R, (∀ b, Conn links a b → mget m b = none) → mget m' a = mget m a) ∧
    ∀ a ∈ as, ∀ n b, Conn links a b → (n, b) ∈ Unlimited m → (n, a) ∈ Unlimited m'
  | [], m, m', _, h => by
    rw [List.foldlM_nil, M_pure_ok] at h; subst h
    exact ⟨fun _ _ => rfl, fun _ _ _ => rfl, nofun⟩
  | k :: as, m, m', hs, h => by
    rw [List.foldlM_cons, M_bind_ok] at h
    obtain ⟨m1, h1, h⟩ := h
    obtain ⟨f1, f2, f3⟩ := propagateBack_unbounded h1
    obtain ⟨g1, g2, g3⟩ := backs_unbounded hR (fun a ha => hs a (by simp [ha])) h
    have hk := hs k (by simp)
    have out : ∀ a ∈ R, ∀ b, Conn links a b → mget m1 b = mget m b := by
      intro a ha b hb
      exact f1 b fun e => hR a ha b hb (e ▸ hk)
    refine ⟨fun j hj => ?_, fun a ha hn => ?_, fun a ha n b hb hu => ?_⟩
    · simp only [List.mem_cons, not_or] at hj
      rw [g1 j hj.2, f1 j hj.1]
    · rw [g2 a ha fun b hb => by rw [out a ha b hb, hn b hb]]
      by_cases e : a = k
      · subst e; exact f2 hn
      · exact f1 a e
    · by_cases hm : a ∈ as
      · exact g3 a hm n b hb (unlimited_congr hu (out a (hs a ha) b hb))
      · rcases List.mem_cons.1 ha with rfl | ha
        · exact unlimited_congr (f3 n b hb hu) (g1 a hm)
        · exact absurd ha hm

omit [Flt F] in
/-- The links of the road of a link. -/
theorem sameRoad_iff {r : Key} {l : Link F} (hl : links.get? r = some l) {b : Key} :
    SameRoad links r b ↔ b ∈ (match l.group with
      | some g => g.links
      | none => [r]) := by
  constructor
  · rintro ⟨l', hl', h⟩
    rw [hl] at hl'; cases hl'
    split at h
    · rename_i g hg; simpa [hg] using h
    · rename_i hg; simpa [hg] using h
  · intro h
    refine ⟨l, hl, ?_⟩
    split
    · rename_i g hg; simpa [hg] using h
    · rename_i hg; simpa [hg] using h

omit [Flt F] in
theorem Follows.road {rs : List Key} {n : Nat} {a : Key} (h : Follows links dst rs n a) :
    ∃ r rest, rs = r :: rest ∧ SameRoad links r a := by
  cases h with
  | there n h => exact ⟨_, _, rfl, h⟩
  | on h => exact ⟨_, _, rfl, h⟩
  | across h => exact ⟨_, _, rfl, h⟩

/-- One road: if the distances are unbounded on the links further on, they are on the links of the road. -/
theorem matrixStep_unbounded (hN : NetInv True links) {m m' : List (Key × LaneDists)} {r : Key} {rest : List Key}
    (hm : MatrixMono m) (h : matrixStep links m r = .ok m')
    (hloop : ∀ a b, SameRoad links r a → Conn links a b → ¬ SameRoad links r b)
    (hdst : SameRoad links r dst → (∀ b, Conn links dst b → mget m b = none) ∧ ∀ n ≤ 3, (n, dst) ∈ Unlimited m)
    (hrest : ∀ pre r' rs n b, rest = pre ++ r' :: rs → n ≤ 3 → Follows links dst (r' :: rs) n b → (n, b) ∈ Unlimited m) :
    (∀ j, ¬ SameRoad links r j → mget m' j = mget m j) ∧
      ∀ n a, n ≤ 3 → Follows links dst (r :: rest) n a → (n, a) ∈ Unlimited m' := by
  have hm' := hm.step h
  unfold matrixStep at h
  rw [M_bind_ok] at h
  obtain ⟨l, hl, h⟩ := h
  rw [getLink_ok] at hl
  split at h
  · rename_i g hg
    rw [M_bind_ok] at h
    obtain ⟨m1, h1, h⟩ := h
    rw [M_bind_ok] at h
    obtain ⟨ps, hps, h⟩ := h
    have road : ∀ {b}, SameRoad links r b ↔ b ∈ g.links := by
      intro b
      rw [sameRoad_iff hl, hg]
    have hgi := (hN.link r l hl).group g hg
    have h16 := hgi.small trivial
    obtain ⟨g1, g2, g3⟩ := backs_unbounded (R := g.links)
      (fun a ha b hb hb' => hloop a b (road.2 ha) hb (road.2 hb')) (fun a ha => ha) h1
    obtain ⟨f1, f2⟩ := across_unbounded h
    have hpsL := laneChanges_laneTo hN hl hg hps
    refine ⟨fun j hj => ?_, fun n a hn hf => ?_⟩
    · rw [f2 j ?_, g1 j fun hm => hj (road.2 hm)]
      rintro p hp rfl
      have hspec := g.laneChanges_spec (E := fun _ => True) (List.ne_nil_of_mem hgi.mem) (.inl h16)
      obtain ⟨x, y, hx, -⟩ := (hspec.ok hps p.1 p.2).1 hp
      exact hj (road.2 (List.mem_of_getElem? hx))
    · have key : ∀ rs n a, Follows links dst rs n a → rs = r :: rest → n ≤ 3 → ∃ i b c n0, g.links[i]? = some a ∧
          g.links[b]? = some c ∧ (n0, c) ∈ Unlimited m1 ∧ LaneReach g.links.length g.lcMask i b ∧
          n0 + ((i - b) + (b - i)) ≤ n := by
        intro rs n a hf
        induction hf with
        | there n hr =>
          rintro e hn
          cases e
          obtain ⟨i, hi⟩ := List.getElem?_of_mem (road.1 hr)
          obtain ⟨d1, d2⟩ := hdst hr
          exact ⟨i, i, dst, n, hi, hi, unlimited_congr (d2 n hn) (g2 dst (road.1 hr) d1), .refl, by omega⟩
        | @on n a b r0 r' pre rs hr hc hf' hr' =>
          rintro e hn
          simp only [List.cons_append, List.cons.injEq] at e
          obtain ⟨rfl, e⟩ := e
          obtain ⟨i, hi⟩ := List.getElem?_of_mem (road.1 hr)
          exact ⟨i, i, a, n, hi, hi, g3 a (road.1 hr) n b hc (hrest pre r' rs n b e.symm hn hf'), .refl, by omega⟩
        | @across n a b r0 rs hr hlt hf ih =>
          rintro e hn
          cases e
          obtain ⟨j, b', c, n0, h1, h2, h3, h4, h5⟩ := ih rfl (by omega)
          obtain ⟨i, hi⟩ := List.getElem?_of_mem (road.1 hr)
          obtain ⟨la, hla⟩ := get_of_contains (hgi.valid a (road.1 hr))
          have hga := hgi.same trivial a (road.1 hr) la hla
          obtain ⟨j', hj', hp⟩ := (laneTo_iff hN hla hga hi).1 hlt
          have : j' = j := (List.getElem?_inj (List.getElem?_eq_some_iff.1 hj').1 (hgi.nodup trivial)).1 (by rw [h1, hj'])
          subst this
          refine ⟨i, b', c, n0, hi, h2, h3, .head hp h4, ?_⟩
          rcases hp.2.2 with ⟨e, -⟩ | ⟨e, -⟩ <;> omega
      obtain ⟨i, b, c, n0, h1, h2, h3, h4, h5⟩ := key _ n a hf rfl hn
      have := LinkGroup.change_complete h16 hps (Unlimited m1) h1 h2 h3 h4 rfl (by omega)
      exact unlimited_mono hm' (f1 this) h5 hn
  · rename_i hg
    have road : ∀ {b}, SameRoad links r b ↔ b = r := by
      intro b
      rw [sameRoad_iff hl, hg]; simp
    obtain ⟨g1, g2, g3⟩ := propagateBack_unbounded h
    refine ⟨fun j hj => g1 j fun e => hj (road.2 e), fun n a hn hf => ?_⟩
    generalize hrs : r :: rest = rs at hf
    cases hf with
    | there n hr =>
      cases hrs
      obtain ⟨d1, d2⟩ := hdst hr
      have e := road.1 hr
      subst e
      exact unlimited_congr (d2 n hn) (g2 d1)
    | @on n a b r0 r' pre rs hr hc hf hr' =>
      simp only [List.cons_append, List.cons.injEq] at hrs
      obtain ⟨rfl, e⟩ := hrs
      have e' := road.1 hr
      subst e'
      exact g3 n b hc (hrest pre r' rs n b e hn hf)
    | @across n a b r0 rs hr hlt hf =>
      cases hrs
      have e' := road.1 hr
      subst e'
      exact absurd hlt (laneTo_none hN hl hg)

/-- The route passes no road twice, no link on it leads back to its own road, and it ends on the road of the destination. -/
structure PlainRoute (links : LinkSet F) (dst : Key) (route : List Key) : Prop where
  apart : route.Pairwise fun a b => ∀ c, SameRoad links a c → ¬ SameRoad links b c
  loop : ∀ r ∈ route, ∀ a b, SameRoad links r a → Conn links a b → ¬ SameRoad links r b
  last : ∃ r, route.getLast? = some r ∧ SameRoad links r dst

theorem calcLaneMatrix_unlimited (hN : NetInv True links) {route : List Key} {m : List (Key × LaneDists)}
    (h : calcLaneMatrix links dst route = .ok m) (hp : PlainRoute links dst route) {n : Nat} {a : Key} (hn : n ≤ 3)
    {pre rs : List Key} (hrs : route = pre ++ rs) (hf : Follows links dst rs n a) : (n, a) ∈ Unlimited m := by
  have base : ∀ j, mget (minsert [] dst LaneDists.exit) j = if j = dst then some .exit else none := by
    intro j
    rw [mget_minsert]; rfl
  have key : ∀ (route : List Key) (m : List (Key × LaneDists)), PlainRoute links dst route →
      route.reverse.foldlM (matrixStep links) (minsert [] dst LaneDists.exit) = .ok m →
      MatrixMono m ∧ ∀ pre rs n a, route = pre ++ rs → n ≤ 3 → Follows links dst rs n a → (n, a) ∈ Unlimited m := by
    intro route
    induction route with
    | nil =>
      rintro m ⟨-, -, r, e, -⟩
      cases e
    | cons r rest ih =>
      intro m hp h
      rw [List.reverse_cons, List.foldlM_append, M_bind_ok] at h
      obtain ⟨m1, h1, h⟩ := h
      rw [List.foldlM_cons, M_bind_ok] at h
      obtain ⟨m2, h2, h⟩ := h
      rw [List.foldlM_nil, M_pure_ok] at h; subst h
      have hap := List.pairwise_cons.1 hp.apart
      have hm1 : MatrixMono m1 ∧ (rest = [] ∨ PlainRoute links dst rest) ∧
          ∀ pre rs n a, rest = pre ++ rs → n ≤ 3 → Follows links dst rs n a → (n, a) ∈ Unlimited m1 := by
        cases rest with
        | nil =>
          rw [List.reverse_nil, List.foldlM_nil, M_pure_ok] at h1; subst h1
          refine ⟨?_, .inl rfl, ?_⟩
          · intro j d hd
            rw [base] at hd
            split at hd
            · cases hd; exact ⟨le_rfl, le_rfl, le_rfl⟩
            · cases hd
          · intro pre rs n a e _ hf
            obtain ⟨r', rest', e', -⟩ := hf.road
            rw [e'] at e; simp at e
        | cons r' rest' =>
          have hp' : PlainRoute links dst (r' :: rest') := by
            refine ⟨hap.2, fun x hx => hp.loop x (by simp [hx]), ?_⟩
            obtain ⟨x, hx, hxd⟩ := hp.last
            exact ⟨x, by rw [List.getLast?_cons_cons] at hx; exact hx, hxd⟩
          obtain ⟨q1, q2⟩ := ih m1 hp' h1
          exact ⟨q1, .inr hp', q2⟩
      obtain ⟨hmono, hcase, hfol⟩ := hm1
      have hdst : SameRoad links r dst → (∀ b, Conn links dst b → mget m1 b = none) ∧ ∀ n ≤ 3, (n, dst) ∈ Unlimited m1 := by
        intro hr
        rcases hcase with rfl | hp'
        · rw [List.reverse_nil, List.foldlM_nil, M_pure_ok] at h1; subst h1
          refine ⟨fun b hb => ?_, fun n hn => ⟨hn, .exit, by rw [base, if_pos rfl], by rw [LaneDists.nth_exit]⟩⟩
          rw [base, if_neg]
          rintro rfl
          exact hp.loop r (by simp) _ _ hr hb hr
        · obtain ⟨x, hx, hxd⟩ := hp'.last
          exact absurd hxd (hap.1 x (List.mem_of_getLast? hx) dst hr)
      obtain ⟨s1, s2⟩ := matrixStep_unbounded hN hmono h2 (hp.loop r (by simp)) hdst
        (fun pre r' rs n b e hn hf => hfol pre (r' :: rs) n b e hn hf)
      refine ⟨hmono.step h2, fun pre rs n a e hn hf => ?_⟩
      cases pre with
      | nil => rw [List.nil_append] at e; subst e; exact s2 n a hn hf
      | cons x pre =>
        simp only [List.cons_append, List.cons.injEq] at e
        obtain ⟨rfl, e⟩ := e
        refine unlimited_congr (hfol pre rs n a e hn hf) (s1 a fun hr => ?_)
        obtain ⟨r', rest', e', hr'⟩ := hf.road
        exact hap.1 r' (by rw [e, e']; simp) a hr hr'
  exact (key route m hp h).2 pre rs n a hrs hn hf

end

end TrafficSim
