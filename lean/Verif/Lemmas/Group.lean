import Verif.Lemmas.Inv

/-! # Facts about link groups -/

namespace TrafficSim
namespace LinkGroup

variable {F : Type} {E : Err → Prop}

/-- The mask permits changing left from lane `i`. -/
def bitL (g : LinkGroup F) (i : Nat) : Bool := g.lcMask.testBit (2 * i)
/-- The mask permits changing right from lane `i`. -/
def bitR (g : LinkGroup F) (i : Nat) : Bool := g.lcMask.testBit (2 * i + 1)

theorem lcBit_left (g : LinkGroup F) (i : Nat) :
    g.lcBit i .left = if 16 ≤ i then .error .shiftOverflow else .ok (g.bitL i) := by
  simp only [lcBit, Nat.add_zero, ge_iff_le]
  by_cases h : 16 ≤ i
  · rw [if_pos (by omega), if_pos h]; rfl
  · rw [if_neg (by omega), if_neg h]; rfl

theorem lcBit_right (g : LinkGroup F) (i : Nat) :
    g.lcBit i .right = if 16 ≤ i then .error .shiftOverflow else .ok (g.bitR i) := by
  simp only [lcBit, ge_iff_le]
  by_cases h : 16 ≤ i
  · rw [if_pos (by omega), if_pos h]; rfl
  · rw [if_neg (by omega), if_neg h]; rfl

theorem lcBit_left_spec (g : LinkGroup F) (i : Nat) (hE : i < 16 ∨ E .shiftOverflow) :
    Spec (g.lcBit i .left) E (fun b => b = g.bitL i) := by
  rw [lcBit_left]
  split
  · rename_i h; exact Spec.throw (hE.resolve_left (by omega))
  · exact Spec.pure rfl

theorem lcBit_right_spec (g : LinkGroup F) (i : Nat) (hE : i < 16 ∨ E .shiftOverflow) :
    Spec (g.lcBit i .right) E (fun b => b = g.bitR i) := by
  rw [lcBit_right]
  split
  · rename_i h; exact Spec.throw (hE.resolve_left (by omega))
  · exact Spec.pure rfl

theorem goLeft_spec (g : LinkGroup F) : ∀ (src : Nat), (src < 16 ∨ E .shiftOverflow) →
    Spec (g.goLeft src) E fun lo => lo ≤ src ∧ (∀ i, lo < i → i ≤ src → g.bitL i = true) ∧
      (lo = 0 ∨ g.bitL lo = false)
  | 0, _ => Spec.pure ⟨le_rfl, fun i h1 h2 => by omega, .inl rfl⟩
  | left + 1, hE => by
    unfold goLeft
    refine (lcBit_left_spec g (left + 1) hE).bind fun b hb => ?_
    subst hb
    refine Spec.ite (fun h => ?_) (fun h => ?_)
    · refine (goLeft_spec g left (hE.imp (by omega) id)).mono (fun lo ⟨h1, h2, h3⟩ => ?_) (fun _ => id)
      refine ⟨by omega, fun i hi hi' => ?_, h3⟩
      rcases Nat.lt_or_ge i (left + 1) with h' | h'
      · exact h2 i hi (by omega)
      · rw [show i = left + 1 by omega]; exact h
    · exact Spec.pure ⟨le_rfl, fun i h1 h2 => by omega, .inr (by simpa using h)⟩

theorem goRight_spec (g : LinkGroup F) : ∀ (n src : Nat), (src + n ≤ 16 ∨ E .shiftOverflow) →
    Spec (g.goRight n src) E fun hi => src ≤ hi ∧ hi ≤ src + n ∧ (∀ i, src ≤ i → i < hi → g.bitR i = true) ∧
      (hi = src + n ∨ g.bitR hi = false)
  | 0, src, _ => Spec.pure ⟨le_rfl, le_rfl, fun i h1 h2 => by omega, .inl rfl⟩
  | n + 1, src, hE => by
    unfold goRight
    refine (lcBit_right_spec g src (hE.imp (by omega) id)).bind fun b hb => ?_
    subst hb
    refine Spec.ite (fun h => ?_) (fun h => ?_)
    · refine (goRight_spec g n (src + 1) (hE.imp (by omega) id)).mono (fun hi ⟨h1, h2, h3, h4⟩ => ?_)
        (fun _ => id)
      refine ⟨by omega, by omega, fun i hi' hi'' => ?_, h4.imp (by omega) id⟩
      rcases Nat.lt_or_ge src i with h' | h'
      · exact h3 i (by omega) hi''
      · rw [show i = src by omega]; exact h
    · exact Spec.pure ⟨le_rfl, by omega, fun i h1 h2 => by omega, .inr (by simpa using h)⟩

theorem fromLeft_spec (g : LinkGroup F) : ∀ (dst : Nat), (dst ≤ 16 ∨ E .shiftOverflow) →
    Spec (g.fromLeft dst) E fun lo => lo ≤ dst ∧ (∀ i, lo ≤ i → i < dst → g.bitR i = true) ∧
      (lo = 0 ∨ g.bitR (lo - 1) = false)
  | 0, _ => Spec.pure ⟨le_rfl, fun i h1 h2 => by omega, .inl rfl⟩
  | left + 1, hE => by
    unfold fromLeft
    refine (lcBit_right_spec g left (hE.imp (by omega) id)).bind fun b hb => ?_
    subst hb
    refine Spec.ite (fun h => ?_) (fun h => ?_)
    · refine (fromLeft_spec g left (hE.imp (by omega) id)).mono (fun lo ⟨h1, h2, h3⟩ => ?_) (fun _ => id)
      refine ⟨by omega, fun i hi hi' => ?_, h3⟩
      rcases Nat.lt_or_ge i left with h' | h'
      · exact h2 i hi (by omega)
      · rw [show i = left by omega]; exact h
    · exact Spec.pure ⟨le_rfl, fun i h1 h2 => by omega, .inr (by simpa using h)⟩

theorem fromRight_spec (g : LinkGroup F) : ∀ (n dst : Nat), (dst + n < 16 ∨ E .shiftOverflow) →
    Spec (g.fromRight n dst) E fun hi => dst ≤ hi ∧ hi ≤ dst + n ∧
      (∀ i, dst < i → i ≤ hi → g.bitL i = true) ∧ (hi = dst + n ∨ g.bitL (hi + 1) = false)
  | 0, dst, _ => Spec.pure ⟨le_rfl, le_rfl, fun i h1 h2 => by omega, .inl rfl⟩
  | n + 1, dst, hE => by
    unfold fromRight
    refine (lcBit_left_spec g (dst + 1) (hE.imp (by omega) id)).bind fun b hb => ?_
    subst hb
    refine Spec.ite (fun h => ?_) (fun h => ?_)
    · refine (fromRight_spec g n (dst + 1) (hE.imp (by omega) id)).mono (fun hi ⟨h1, h2, h3, h4⟩ => ?_)
        (fun _ => id)
      refine ⟨by omega, by omega, fun i hi' hi'' => ?_, h4.imp (by omega) id⟩
      rcases Nat.lt_or_ge (dst + 1) i with h' | h'
      · exact h3 i (by omega) hi''
      · rw [show i = dst + 1 by omega]; exact h
    · exact Spec.pure ⟨le_rfl, by omega, fun i h1 h2 => by omega, .inr (by simpa using h)⟩

theorem slice_ok {g : LinkGroup F} {lo hi : Nat} (h1 : lo ≤ hi) (h2 : hi < g.links.length) :
    g.slice lo hi = .ok ((g.links.take (hi + 1)).drop lo) := by
  unfold slice
  rw [if_pos ⟨by omega, by omega⟩]; rfl

theorem reachableLanes_spec (g : LinkGroup F) {src : Nat} (hs : src < g.links.length)
    (hE : g.links.length ≤ 16 ∨ E .shiftOverflow) :
    Spec (g.reachableLanes src) E fun ks => ∃ lo hi, lo ≤ src ∧ src ≤ hi ∧ hi < g.links.length ∧
      ks = (g.links.take (hi + 1)).drop lo ∧
      (∀ i, lo < i → i ≤ src → g.bitL i = true) ∧ (lo = 0 ∨ g.bitL lo = false) ∧
      (∀ i, src ≤ i → i < hi → g.bitR i = true) ∧ (hi + 1 = g.links.length ∨ g.bitR hi = false) := by
  unfold reachableLanes
  refine (goLeft_spec g src (hE.imp (by omega) id)).bind fun lo ⟨h1, h2, h3⟩ => ?_
  rw [if_neg (by omega)]
  refine (goRight_spec g (g.links.length - 1 - src) src (hE.imp (by omega) id)).bind
    fun hi ⟨h4, h5, h6, h7⟩ => ?_
  rw [slice_ok (by omega) (by omega)]
  exact Spec.pure ⟨lo, hi, h1, h4, by omega, rfl, h2, h3, h6, h7.imp (by omega) id⟩

theorem reachableFromLanes_spec (g : LinkGroup F) {dst : Nat} (hs : dst < g.links.length)
    (hE : g.links.length ≤ 16 ∨ E .shiftOverflow) :
    Spec (g.reachableFromLanes dst) E fun ks => ∃ lo hi, lo ≤ dst ∧ dst ≤ hi ∧ hi < g.links.length ∧
      ks = (g.links.take (hi + 1)).drop lo ∧
      (∀ i, lo ≤ i → i < dst → g.bitR i = true) ∧ (lo = 0 ∨ g.bitR (lo - 1) = false) ∧
      (∀ i, dst < i → i ≤ hi → g.bitL i = true) ∧ (hi + 1 = g.links.length ∨ g.bitL (hi + 1) = false) := by
  unfold reachableFromLanes
  refine (fromLeft_spec g dst (hE.imp (by omega) id)).bind fun lo ⟨h1, h2, h3⟩ => ?_
  rw [if_neg (by omega)]
  refine (fromRight_spec g (g.links.length - 1 - dst) dst (hE.imp (by omega) id)).bind
    fun hi ⟨h4, h5, h6, h7⟩ => ?_
  rw [slice_ok (by omega) (by omega)]
  exact Spec.pure ⟨lo, hi, h1, h4, by omega, rfl, h2, h3, h6, h7.imp (by omega) id⟩

theorem findLink_some {g : LinkGroup F} {k : Key} {i : Nat} (h : g.findLink k = some i) :
    g.links[i]? = some k ∧ ∀ j, j < i → g.links[j]? ≠ some k := by
  unfold findLink at h
  rw [List.findIdx?_eq_some_iff_getElem] at h
  obtain ⟨h1, h2, h3⟩ := h
  refine ⟨by simp at h2; simp [h1, h2], fun j hj => ?_⟩
  have := h3 j hj
  simp at this
  rw [List.getElem?_eq_getElem (by omega)]
  simpa using this

theorem findLink_mem {g : LinkGroup F} {k : Key} (h : k ∈ g.links) : ∃ i, g.findLink k = some i := by
  unfold findLink
  rw [← Option.isSome_iff_exists, List.findIdx?_isSome]
  simpa using h

theorem findLink_lt {g : LinkGroup F} {k : Key} {i : Nat} (h : g.findLink k = some i) :
    i < g.links.length := by
  obtain ⟨h1, -⟩ := findLink_some h
  exact (List.getElem?_eq_some_iff.1 h1).1

theorem findLink_nodup {g : LinkGroup F} (hn : g.links.Nodup) {k : Key} {i : Nat}
    (h : g.links[i]? = some k) : g.findLink k = some i := by
  obtain ⟨j, hj⟩ := findLink_mem (List.mem_of_getElem? h)
  obtain ⟨h1, -⟩ := findLink_some hj
  have hi := (List.getElem?_eq_some_iff.1 h).1
  have : j = i := by
    refine (List.getElem?_inj (findLink_lt hj) hn).1 ?_
    rw [h1, h]
  rw [hj, this]

theorem lanePairs_spec (g : LinkGroup F) (dir : Direction) (target : Nat → Nat) :
    ∀ (idxs : List Nat), (∀ i ∈ idxs, i < g.links.length ∧ target i < g.links.length) →
    (g.links.length ≤ 16 ∨ E .shiftOverflow) →
    Spec (g.lanePairs dir target idxs) E fun ps => ∀ a b, (a, b) ∈ ps ↔
      ∃ i ∈ idxs, (match dir with | .left => g.bitL i | .right => g.bitR i) = true ∧
        g.links[i]? = some a ∧ g.links[target i]? = some b
  | [], _, _ => Spec.pure (by simp)
  | i :: idxs, hi, hE => by
    obtain ⟨h1, h2⟩ := hi i (by simp)
    have hbit : Spec (g.lcBit i dir) E (fun b => b = match dir with | .left => g.bitL i | .right => g.bitR i) := by
      cases dir
      · exact lcBit_left_spec g i (hE.imp (by omega) id)
      · exact lcBit_right_spec g i (hE.imp (by omega) id)
    have ih := lanePairs_spec g dir target idxs (fun j hj => hi j (by simp [hj])) hE
    unfold lanePairs
    refine hbit.bind fun b hb => Spec.ite (fun h => ?_) (fun h => ?_)
    · rw [List.getElem?_eq_getElem h1, List.getElem?_eq_getElem h2]
      refine ih.bind fun ps hps => Spec.pure fun a b' => ?_
      rw [List.mem_cons, hps]
      subst hb
      constructor
      · rintro (h' | ⟨j, hj, h'⟩)
        · cases h'
          exact ⟨i, by simp, h, by simp [h1], by simp [h2]⟩
        · exact ⟨j, by simp [hj], h'⟩
      · rintro ⟨j, hj, hb, ha, hb'⟩
        rcases List.mem_cons.1 hj with rfl | hj
        · left
          rw [List.getElem?_eq_getElem h1] at ha
          rw [List.getElem?_eq_getElem h2] at hb'
          cases ha; cases hb'; rfl
        · exact .inr ⟨j, hj, hb, ha, hb'⟩
    · refine ih.mono (fun ps hps a b' => ?_) (fun _ => id)
      rw [hps]
      subst hb
      constructor
      · rintro ⟨j, hj, h'⟩; exact ⟨j, by simp [hj], h'⟩
      · rintro ⟨j, hj, hb, h'⟩
        rcases List.mem_cons.1 hj with rfl | hj
        · exact absurd hb h
        · exact ⟨j, hj, hb, h'⟩

/-- The lane changes of a group: exactly those that the mask permits. -/
theorem laneChanges_spec (g : LinkGroup F) (h0 : g.links ≠ []) (hE : g.links.length ≤ 16 ∨ E .shiftOverflow) :
    Spec g.laneChanges E fun ps => ∀ a b, (a, b) ∈ ps ↔
      ∃ i j, g.links[i]? = some a ∧ g.links[j]? = some b ∧
        ((j = i + 1 ∧ g.bitR i = true) ∨ (i = j + 1 ∧ g.bitL i = true)) := by
  have hpos := List.length_pos_iff.2 h0
  unfold laneChanges
  rw [if_neg (by omega)]
  refine (lanePairs_spec g .right (· + 1) _ (fun i hi => by simp at hi; omega) hE).bind fun r hr => ?_
  refine (lanePairs_spec g .left (· - 1) _ (fun i hi => by simp at hi; omega) hE).bind fun l hl => ?_
  refine Spec.pure fun a b => ?_
  rw [List.mem_append, hr, hl]
  constructor
  · rintro (⟨i, hi, h1, h2, h3⟩ | ⟨i, hi, h1, h2, h3⟩)
    · exact ⟨i, i + 1, h2, h3, .inl ⟨rfl, h1⟩⟩
    · simp at hi
      exact ⟨i, i - 1, h2, h3, .inr ⟨by omega, h1⟩⟩
  · rintro ⟨i, j, h2, h3, (⟨rfl, h1⟩ | ⟨rfl, h1⟩)⟩
    · left
      have := (List.getElem?_eq_some_iff.1 h3).1
      exact ⟨i, by simp; omega, h1, h2, h3⟩
    · right
      have := (List.getElem?_eq_some_iff.1 h2).1
      exact ⟨j + 1, by simp; omega, h1, h2, by simpa using h3⟩

end LinkGroup
end TrafficSim
