import Verif.Lemmas.Run

/-! # Order of vehicles on a road, before and after they move -/

namespace TrafficSim.Row

section
variable {x : Key → ℝ} {L : List Key} {k j w : Key}

theorem adjacent (hp : L.Pairwise fun a b => x a < x b) (hk : k ∈ L) (hj : j ∈ L) (hlt : x k < x j)
    (hno : ∀ w ∈ L, x k < x w → ¬ x w < x j) : [k, j] <:+: L := by
  obtain ⟨pre, post, rfl⟩ := List.append_of_mem hk
  rw [List.pairwise_append, List.pairwise_cons] at hp
  obtain ⟨-, ⟨h1, h2⟩, h3⟩ := hp
  rcases List.mem_append.1 hj with hj | hj
  · exact absurd (h3 j hj k (by simp)) (not_lt_of_gt hlt)
  rcases List.mem_cons.1 hj with rfl | hj
  · exact absurd hlt (lt_irrefl _)
  cases post with
  | nil => cases hj
  | cons w post =>
    rcases List.mem_cons.1 hj with rfl | hj
    · exact ⟨pre, post, by simp⟩
    · exact absurd ((List.pairwise_cons.1 h2).1 j hj) (hno w (by simp) (h1 w (by simp)))

theorem last (hp : L.Pairwise fun a b => x a < x b) (hk : k ∈ L) (hno : ∀ w ∈ L, ¬ x k < x w) : L.getLast? = some k := by
  obtain ⟨pre, post, rfl⟩ := List.append_of_mem hk
  rw [List.pairwise_append, List.pairwise_cons] at hp
  cases post with
  | nil => simp
  | cons w post => exact absurd (hp.2.1.1 w (by simp)) (hno w (by simp))

theorem head (hp : L.Pairwise fun a b => x a < x b) (hk : k ∈ L) (hno : ∀ w ∈ L, ¬ x w < x k) : L.head? = some k := by
  cases L with
  | nil => cases hk
  | cons w L =>
    rcases List.mem_cons.1 hk with rfl | hk
    · rfl
    · exact absurd ((List.pairwise_cons.1 hp).1 k hk) (hno w (by simp))

theorem between (hp : L.Pairwise fun a b => x a ≤ x b) (hkj : [k, j] <:+: L) (hw : w ∈ L) (h1 : x k < x w) : ¬ x w < x j := by
  obtain ⟨pre, post, rfl⟩ := hkj
  rw [List.append_assoc, List.pairwise_append] at hp
  obtain ⟨-, h2, h3⟩ := hp
  rw [List.cons_append, List.cons_append, List.pairwise_cons, List.nil_append, List.pairwise_cons] at h2
  simp only [List.mem_append, List.mem_cons, List.not_mem_nil, or_false] at hw
  rcases hw with (hw | rfl | rfl) | hw
  · exact absurd (h3 w hw k (by simp)) (not_le_of_gt h1)
  · exact absurd h1 (lt_irrefl _)
  · exact lt_irrefl _
  · exact not_lt_of_ge (h2.2.1 w hw)

theorem le_last (hp : L.Pairwise fun a b => x a ≤ x b) (hk : L.getLast? = some k) (hw : w ∈ L) : x w ≤ x k := by
  obtain ⟨pre, rfl⟩ := List.getLast?_eq_some_iff.1 hk
  rcases List.mem_append.1 hw with hw | hw
  · exact (List.pairwise_append.1 hp).2.2 w hw k (by simp)
  · rw [List.mem_singleton.1 hw]

theorem head_le (hp : L.Pairwise fun a b => x a ≤ x b) (hk : L.head? = some k) (hw : w ∈ L) : x k ≤ x w := by
  cases L with
  | nil => cases hk
  | cons a L =>
    cases hk
    rcases List.mem_cons.1 hw with rfl | hw
    · exact le_rfl
    · exact (List.pairwise_cons.1 hp).1 w hw

end

/-- Vehicles at positions `x`, on links with the lists `L`, go on to the next link where they passed the end; then they are at positions
`y`, and the lists are `L'`. -/
structure Moves (C : Key → Key → Prop) (len : Key → ℝ) (L L' : Key → List Key) (x y : Key → ℝ) : Prop where
  out1 : ∀ {a b c}, C a b → C a c → b = c
  in1 : ∀ {a b c}, C a c → C b c → a = b
  fwd : ∀ a k, k ∈ L a → (k ∈ L' a ∧ y k = x k ∧ x k ≤ len a) ∨ (len a < x k ∧ ∀ b, C a b → k ∈ L' b ∧ y k = x k - len a)
  bwd : ∀ a k, k ∈ L' a → (k ∈ L a ∧ y k = x k ∧ x k ≤ len a) ∨ ∃ p, C p a ∧ k ∈ L p ∧ y k = x k - len p ∧ len p < x k
  order : ∀ a, (L a).Pairwise fun k j => x k < x j
  across : ∀ a b k j, C a b → k ∈ L a → j ∈ L b → x k < len a + x j
  order' : ∀ a, (L' a).Pairwise fun k j => y k ≤ y j

section
variable {C : Key → Key → Prop} {len : Key → ℝ} {L L' : Key → List Key} {x y : Key → ℝ} {a b k j : Key}

/-- Where two neighbours on a link come from. -/
theorem Moves.same (h : Moves C len L L' x y) (hkj : [k, j] <:+: L' a) (hne : k ≠ j) :
    ([k, j] <:+: L a ∧ y k = x k ∧ y j = x j) ∨
    (∃ p, C p a ∧ (L p).getLast? = some k ∧ (L a).head? = some j ∧ y k = x k - len p ∧ y j = x j) ∨
    ∃ p, C p a ∧ [k, j] <:+: L p ∧ y k = x k - len p ∧ y j = x j - len p := by
  have hle : y k ≤ y j := by
    obtain ⟨pre, post, e⟩ := hkj
    have := h.order' a
    rw [← e, List.append_assoc, List.pairwise_append] at this
    have := this.2.1
    rw [List.cons_append, List.pairwise_cons] at this
    exact this.1 j (by simp)
  have hno : ∀ w ∈ L' a, y k < y w → ¬ y w < y j := fun w hw => between (h.order' a) hkj hw
  have hk' : k ∈ L' a := hkj.subset (by simp)
  have hj' : j ∈ L' a := hkj.subset (by simp)
  have strict : ∀ q, k ∈ L q → j ∈ L q → x k ≤ x j → x k < x j := by
    intro q hk hj hxy
    obtain ⟨pre, post, e⟩ := List.append_of_mem hk
    have hp := h.order q
    rw [e, List.pairwise_append, List.pairwise_cons] at hp
    rw [e] at hj
    rcases List.mem_append.1 hj with hj | hj
    · exact absurd (hp.2.2 j hj k (by simp)) (not_lt_of_ge hxy)
    · rcases List.mem_cons.1 hj with e | hj
      · exact absurd e.symm hne
      · exact hp.2.1.1 j hj
  rcases h.bwd a k hk' with ⟨hk, ek, ck⟩ | ⟨p, hp, hk, ek, ck⟩ <;> rcases h.bwd a j hj' with ⟨hj, ej, cj⟩ | ⟨q, hq, hj, ej, cj⟩
  · refine .inl ⟨adjacent (h.order a) hk hj (strict a hk hj (by linarith)) fun w hw h1 h2 => ?_, ek, ej⟩
    rcases h.fwd a w hw with ⟨hw', ew, -⟩ | ⟨hlt, -⟩
    · exact hno w hw' (by linarith) (by linarith)
    · linarith
  · have := h.across q a j k hq hj hk
    linarith
  · refine .inr (.inl ⟨p, hp, last (h.order p) hk fun w hw h1 => ?_, head (h.order a) hj fun w hw h1 => ?_, ek, ej⟩)
    · rcases h.fwd p w hw with ⟨-, -, hle⟩ | ⟨-, hpass⟩
      · linarith
      · obtain ⟨hw', ew⟩ := hpass a hp
        have := h.across p a w j hp hw hj
        exact hno w hw' (by linarith) (by linarith)
    · rcases h.fwd a w hw with ⟨hw', ew, -⟩ | ⟨hlt, -⟩
      · have := h.across p a k w hp hk hw
        exact hno w hw' (by linarith) (by linarith)
      · linarith
  · obtain rfl := h.in1 hp hq
    refine .inr (.inr ⟨p, hp, adjacent (h.order p) hk hj (strict p hk hj (by linarith)) fun w hw h1 h2 => ?_, ek, ej⟩)
    rcases h.fwd p w hw with ⟨-, -, hle⟩ | ⟨-, hpass⟩
    · linarith
    · obtain ⟨hw', ew⟩ := hpass a hp
      exact hno w hw' (by linarith) (by linarith)

/-- Where the last vehicle on a link and the first on the next one come from. -/
theorem Moves.next (h : Moves C len L L' x y) (hab : C a b) (hk : (L' a).getLast? = some k) (hj : (L' b).head? = some j) :
    ((L a).getLast? = some k ∧ (L b).head? = some j ∧ y k = x k ∧ y j = x j) ∨
    ([k, j] <:+: L a ∧ y k = x k ∧ y j = x j - len a) ∨
    (∃ p, C p a ∧ (L p).getLast? = some k ∧ (L a).head? = some j ∧ y k = x k - len p ∧ y j = x j - len a) ∨
    ∃ p, C p a ∧ k ∈ L p ∧ j ∈ L b ∧ y k = x k - len p ∧ y j = x j := by
  have hk' : k ∈ L' a := List.mem_of_getLast? hk
  have hj' : j ∈ L' b := List.mem_of_mem_head? hj
  have hlast : ∀ w ∈ L' a, y w ≤ y k := fun w hw => le_last (h.order' a) hk hw
  have hhead : ∀ w ∈ L' b, y j ≤ y w := fun w hw => head_le (h.order' b) hj hw
  rcases h.bwd a k hk' with ⟨hk, ek, ck⟩ | ⟨p, hp, hk, ek, ck⟩ <;> rcases h.bwd b j hj' with ⟨hj, ej, cj⟩ | ⟨q, hq, hj, ej, cj⟩
  · refine .inl ⟨last (h.order a) hk fun w hw h1 => ?_, head (h.order b) hj fun w hw h1 => ?_, ek, ej⟩
    · rcases h.fwd a w hw with ⟨hw', ew, -⟩ | ⟨-, hpass⟩
      · have := hlast w hw'; linarith
      · obtain ⟨hw', ew⟩ := hpass b hab
        have := hhead w hw'
        have := h.across a b w j hab hw hj
        linarith
    · rcases h.fwd b w hw with ⟨hw', ew, -⟩ | ⟨hlt, -⟩
      · have := hhead w hw'; linarith
      · linarith
  · obtain rfl := h.in1 hab hq
    refine .inr (.inl ⟨adjacent (h.order a) hk hj (by linarith) fun w hw h1 h2 => ?_, ek, ej⟩)
    rcases h.fwd a w hw with ⟨hw', ew, -⟩ | ⟨-, hpass⟩
    · have := hlast w hw'; linarith
    · obtain ⟨hw', ew⟩ := hpass b hab
      have := hhead w hw'; linarith
  · exact .inr (.inr (.inr ⟨p, hp, hk, hj, ek, ej⟩))
  · obtain rfl := h.in1 hab hq
    refine .inr (.inr (.inl ⟨p, hp, last (h.order p) hk fun w hw h1 => ?_, head (h.order a) hj fun w hw h1 => ?_, ek, ej⟩))
    · rcases h.fwd p w hw with ⟨-, -, hle⟩ | ⟨-, hpass⟩
      · linarith
      · obtain ⟨hw', ew⟩ := hpass a hp
        have := hlast w hw'; linarith
    · rcases h.fwd a w hw with ⟨hw', ew, -⟩ | ⟨-, hpass⟩
      · have := hlast w hw'
        have := h.across p a k w hp hk hw
        linarith
      · obtain ⟨hw', ew⟩ := hpass b hab
        have := hhead w hw'; linarith

end

end TrafficSim.Row
