import Verif.Model.SlotMap
import Verif.Lemmas.Except

/-! # Facts about slot maps -/

namespace TrafficSim
namespace SlotMap
variable {V : Type}

/-- Well-formedness: a slot is occupied iff its version is odd, and free slots are distinct vacant
slots. -/
structure WF (m : SlotMap V) : Prop where
  odd : ∀ (i : Nat) (s : Slot V), m.slots[i]? = some s → (s.val.isSome ↔ s.ver % 2 = 1)
  free : ∀ i ∈ m.free, ∃ s, m.slots[i]? = some s ∧ s.val = none
  nodup : m.free.Nodup
  bound : m.slots.length < u32Max

/-- `k` has been returned by an insertion at some time. -/
def Issued (m : SlotMap V) (k : Key) : Prop := ∃ s, m.slots[k.idx]? = some s ∧ k.ver ≤ s.ver

theorem WF_empty : (empty : SlotMap V).WF := by
  constructor <;> simp [empty, u32Max]

theorem get?_eq_some {m : SlotMap V} {k : Key} {v : V} :
    m.get? k = some v ↔ m.slots[k.idx]? = some ⟨k.ver, some v⟩ := by
  unfold get?
  split
  · rename_i s hs
    rw [hs]
    constructor
    · split
      · rename_i h; intro hv; cases s; simp_all
      · simp
    · intro h; cases s; simp_all
  · simp_all

theorem get?_issued {m : SlotMap V} {k : Key} {v : V} (h : m.get? k = some v) : m.Issued k :=
  ⟨_, get?_eq_some.1 h, le_refl _⟩

theorem key_ext {k k' : Key} (h : k.idx = k'.idx) (h' : k.ver = k'.ver) : k = k' := by
  cases k; cases k'; simp_all

/-- Two live keys with the same index are equal. -/
theorem get?_idx_inj {m : SlotMap V} {k k' : Key} {v v' : V} (h : m.get? k = some v)
    (h' : m.get? k' = some v') (hi : k.idx = k'.idx) : k = k' := by
  rw [get?_eq_some] at h h'
  rw [hi, h'] at h
  simp only [Option.some.injEq, Slot.mk.injEq] at h
  exact key_ext hi h.1.symm

theorem get?_modify (m : SlotMap V) (k k' : Key) (f : V → V) :
    (m.modify k f).get? k' = if k' = k then (m.get? k).map f else m.get? k' := by
  unfold modify
  cases h : m.get? k with
  | none =>
    by_cases e : k' = k
    · subst e; simp [h]
    · simp [e]
  | some v =>
    have hs := get?_eq_some.1 h
    have hlt : k.idx < m.slots.length := by
      rw [List.getElem?_eq_some_iff] at hs; exact hs.1
    by_cases e : k' = k
    · subst e; simp [get?, hlt]
    · simp only [e, if_false]
      simp only [get?]
      by_cases hi : k.idx = k'.idx
      · have hv : k.ver ≠ k'.ver := fun hv => e (key_ext hi hv).symm
        rw [← hi]
        rw [List.getElem?_set_self hlt, hs]
        simp [hv]
      · simp [List.getElem?_set_ne hi]

theorem get?_modify_self (m : SlotMap V) (k : Key) (f : V → V) :
    (m.modify k f).get? k = (m.get? k).map f := by simp [get?_modify]

theorem get?_modify_ne (m : SlotMap V) {k k' : Key} (f : V → V) (h : k' ≠ k) :
    (m.modify k f).get? k' = m.get? k' := by simp [get?_modify, h]

theorem isSome_get?_modify (m : SlotMap V) (k k' : Key) (f : V → V) :
    ((m.modify k f).get? k').isSome = (m.get? k').isSome := by
  rw [get?_modify]; split
  · rename_i h; subst h; simp
  · rfl

theorem get?_remove (m : SlotMap V) (k k' : Key) :
    (m.remove k).1.get? k' = if k' = k then none else m.get? k' := by
  unfold remove
  cases h : m.get? k with
  | none => split <;> simp_all
  | some v =>
    have hs := get?_eq_some.1 h
    have hlt : k.idx < m.slots.length := by
      rw [List.getElem?_eq_some_iff] at hs; exact hs.1
    by_cases e : k' = k
    · subst e; simp [get?, hlt]
    · simp only [e, if_false]
      simp only [get?]
      by_cases hi : k.idx = k'.idx
      · have hv : k.ver ≠ k'.ver := fun hv => e (key_ext hi hv).symm
        rw [← hi]
        rw [List.getElem?_set_self hlt, hs]
        simp [hv]
      · simp [List.getElem?_set_ne hi]

theorem remove_snd (m : SlotMap V) (k : Key) : (m.remove k).2 = m.get? k := by
  unfold remove; cases h : m.get? k <;> simp

theorem WF.modify {m : SlotMap V} (h : m.WF) (k : Key) (f : V → V) : (m.modify k f).WF := by
  unfold SlotMap.modify
  cases hk : m.get? k with
  | none => exact h
  | some v =>
    have hs := get?_eq_some.1 hk
    have hlt : k.idx < m.slots.length := by
      rw [List.getElem?_eq_some_iff] at hs; exact hs.1
    refine ⟨?_, ?_, h.nodup, by simpa using h.bound⟩
    · intro i s hi
      simp only at hi
      by_cases e : k.idx = i
      · subst e
        simp only [List.getElem?_set_self hlt, Option.some.injEq] at hi
        subst hi
        have := h.odd _ _ hs
        simpa using this
      · rw [List.getElem?_set_ne e] at hi
        exact h.odd i s hi
    · intro i hi
      obtain ⟨s, hs', hv⟩ := h.free i hi
      refine ⟨s, ?_, hv⟩
      have : k.idx ≠ i := by
        rintro rfl
        rw [hs] at hs'
        simp only [Option.some.injEq] at hs'
        subst hs'; simp at hv
      simp [List.getElem?_set_ne this, hs']

theorem WF.remove {m : SlotMap V} (h : m.WF) (k : Key) : (m.remove k).1.WF := by
  unfold SlotMap.remove
  cases hk : m.get? k with
  | none => exact h
  | some v =>
    have hs := get?_eq_some.1 hk
    have hlt : k.idx < m.slots.length := by
      rw [List.getElem?_eq_some_iff] at hs; exact hs.1
    refine ⟨?_, ?_, ?_, by simpa using h.bound⟩
    · intro i s hi
      simp only at hi
      by_cases e : k.idx = i
      · subst e
        simp only [List.getElem?_set_self hlt, Option.some.injEq] at hi
        subst hi
        have := h.odd _ _ hs
        simp at this ⊢
        omega
      · rw [List.getElem?_set_ne e] at hi
        exact h.odd i s hi
    · intro i hi
      simp only [List.mem_cons] at hi
      by_cases e : k.idx = i
      · subst e; exact ⟨_, by simp [hlt]; rfl, rfl⟩
      · obtain ⟨s, hs', hv⟩ := h.free i (by rcases hi with rfl | hi; exact absurd rfl e; exact hi)
        exact ⟨s, by simp [List.getElem?_set_ne e, hs'], hv⟩
    · simp only [List.nodup_cons]
      refine ⟨?_, h.nodup⟩
      intro hf
      obtain ⟨s, hs', hv⟩ := h.free _ hf
      rw [hs] at hs'
      simp only [Option.some.injEq] at hs'
      subst hs'; simp at hv

theorem insertWithKey_spec {m m' : SlotMap V} (hwf : m.WF) {f : Key → M V} {k : Key}
    (h : m.insertWithKey f = .ok (m', k)) :
    m'.WF ∧ ¬ m.Issued k ∧ (∃ v, f k = .ok v ∧ ∀ k', m'.get? k' = if k' = k then some v else m.get? k')
      ∧ (∀ k', m.Issued k' → m'.Issued k') ∧ m'.Issued k := by
  unfold insertWithKey at h
  split at h
  · rename_i i rest hfree
    obtain ⟨s, hs, hv⟩ := hwf.free i (by simp [hfree])
    have hlt : i < m.slots.length := by rw [List.getElem?_eq_some_iff] at hs; exact hs.1
    rw [hs] at h
    simp only [M_bind_ok, M_pure_ok, Prod.mk.injEq] at h
    obtain ⟨v, hfv, rfl, rfl⟩ := h
    have heven : s.ver % 2 = 0 := by
      have := hwf.odd i s hs
      rw [hv] at this
      simp at this
      omega
    have hocc : occupy s.ver = s.ver + 1 := by simp [occupy, heven]
    have hnd := hwf.nodup
    rw [hfree] at hnd
    refine ⟨⟨?_, ?_, ?_, by simpa using hwf.bound⟩, ?_, ⟨v, hfv, ?_⟩, ?_, ?_⟩
    · intro j t hj
      simp only at hj
      by_cases e : i = j
      · subst e
        simp only [List.getElem?_set_self hlt, Option.some.injEq] at hj
        subst hj; simp [hocc]; omega
      · rw [List.getElem?_set_ne e] at hj
        exact hwf.odd j t hj
    · intro j hj
      simp only at hj
      have e : i ≠ j := by rintro rfl; exact (List.nodup_cons.1 hnd).1 hj
      obtain ⟨t, ht, hv⟩ := hwf.free j (by simp [hfree, hj])
      exact ⟨t, by simp [List.getElem?_set_ne e, ht], hv⟩
    · exact (List.nodup_cons.1 hnd).2
    · rintro ⟨t, ht, hle⟩
      simp only at ht hle
      rw [hs] at ht
      simp only [Option.some.injEq] at ht
      subst ht
      omega
    · intro k'
      by_cases e : k' = ⟨i, occupy s.ver⟩
      · subst e; simp [get?, hlt]
      · simp only [e, if_false, get?]
        by_cases hi : i = k'.idx
        · have hver : occupy s.ver ≠ k'.ver := by
            intro hv; exact e (key_ext hi.symm hv.symm)
          rw [← hi]
          rw [List.getElem?_set_self hlt, hs]
          simp [hver, hv]
        · simp [List.getElem?_set_ne hi]
    · rintro k' ⟨t, ht, hle⟩
      by_cases hi : i = k'.idx
      · rw [← hi, hs] at ht
        simp only [Option.some.injEq] at ht
        subst ht
        exact ⟨⟨occupy s.ver, some v⟩, by rw [← hi]; simp [hlt], by simp; omega⟩
      · exact ⟨t, by simp [List.getElem?_set_ne hi, ht], hle⟩
    · exact ⟨⟨occupy s.ver, some v⟩, by simp [hlt], le_refl _⟩
  · rename_i hfree
    split at h
    · simp at h
    rename_i hfull
    simp only [M_bind_ok, M_pure_ok, Prod.mk.injEq] at h
    obtain ⟨v, hfv, rfl, rfl⟩ := h
    refine ⟨⟨?_, by simp, by simp, by simp; omega⟩, ?_, ⟨v, hfv, ?_⟩, ?_, ?_⟩
    · intro j t hj
      simp only at hj
      rcases Nat.lt_trichotomy j m.slots.length with hl | hl | hl
      · rw [List.getElem?_append_left hl] at hj
        exact hwf.odd j t hj
      · subst hl
        simp at hj; subst hj; simp
      · rw [List.getElem?_append_right (by omega), List.getElem?_eq_none (by simp; omega)] at hj
        simp at hj
    · rintro ⟨t, ht, -⟩
      simp at ht
    · intro k'
      by_cases e : k' = ⟨m.slots.length, 1⟩
      · subst e; simp [get?]
      · simp only [e, if_false, get?]
        rcases Nat.lt_trichotomy k'.idx m.slots.length with hl | hl | hl
        · rw [List.getElem?_append_left hl]
        · have : (1 : Nat) ≠ k'.ver := fun hv => e (key_ext hl hv.symm)
          simp [hl, this]
        · rw [List.getElem?_append_right (by omega), List.getElem?_eq_none (by simp; omega),
            List.getElem?_eq_none (by omega)]
    · rintro k' ⟨t, ht, hle⟩
      have hl : k'.idx < m.slots.length := by rw [List.getElem?_eq_some_iff] at ht; exact ht.1
      exact ⟨t, by simp [List.getElem?_append_left hl, ht], hle⟩
    · exact ⟨⟨1, some v⟩, by simp, le_refl _⟩

/-- The errors of an insertion: those of the closure, or the map is full. -/
theorem insertWithKey_err {m : SlotMap V} (hwf : m.WF) {f : Key → M V} {e : Err}
    (h : m.insertWithKey f = .error e) : e = .slotMapFull ∨ ∃ k, f k = .error e := by
  unfold insertWithKey at h
  split at h
  · rename_i i rest hfree
    obtain ⟨s, hs, hv⟩ := hwf.free i (by simp [hfree])
    rw [hs] at h
    simp at h
    exact .inr ⟨_, h⟩
  · split at h
    · simp at h; exact .inl h.symm
    · simp at h; exact .inr ⟨_, h⟩

theorem Issued.modify {m : SlotMap V} {k' : Key} (h : m.Issued k') (k : Key) (f : V → V) :
    (m.modify k f).Issued k' := by
  unfold SlotMap.modify
  cases hk : m.get? k with
  | none => exact h
  | some v =>
    have hs := get?_eq_some.1 hk
    have hlt : k.idx < m.slots.length := by rw [List.getElem?_eq_some_iff] at hs; exact hs.1
    obtain ⟨t, ht, hle⟩ := h
    by_cases hi : k.idx = k'.idx
    · rw [← hi, hs] at ht
      simp only [Option.some.injEq] at ht
      subst ht
      exact ⟨⟨k.ver, some (f v)⟩, by rw [← hi]; simp [hlt], hle⟩
    · exact ⟨t, by simp [List.getElem?_set_ne hi, ht], hle⟩

theorem Issued.remove {m : SlotMap V} {k' : Key} (h : m.Issued k') (k : Key) :
    (m.remove k).1.Issued k' := by
  unfold SlotMap.remove
  cases hk : m.get? k with
  | none => exact h
  | some v =>
    have hs := get?_eq_some.1 hk
    have hlt : k.idx < m.slots.length := by rw [List.getElem?_eq_some_iff] at hs; exact hs.1
    obtain ⟨t, ht, hle⟩ := h
    by_cases hi : k.idx = k'.idx
    · rw [← hi, hs] at ht
      simp only [Option.some.injEq] at ht
      subst ht
      simp only at hle
      exact ⟨⟨k.ver + 1, none⟩, by rw [← hi]; simp [hlt], by simp; omega⟩
    · exact ⟨t, by simp [List.getElem?_set_ne hi, ht], hle⟩

theorem not_isNull {m : SlotMap V} (h : m.WF) {k : Key} {v : V} (hk : m.get? k = some v) :
    k.isNull = false := by
  have hs := get?_eq_some.1 hk
  have hlt : k.idx < m.slots.length := by rw [List.getElem?_eq_some_iff] at hs; exact hs.1
  have := h.bound
  simp only [Key.isNull, beq_eq_false_iff_ne]
  omega

/-! ## Keys -/

theorem mem_keysFrom {l : List (Slot V)} {n : Nat} {k : Key} :
    k ∈ keysFrom n l ↔ ∃ v, n ≤ k.idx ∧ l[k.idx - n]? = some ⟨k.ver, some v⟩ := by
  induction l generalizing n with
  | nil => simp [keysFrom]
  | cons s ss ih =>
    have key : ∀ k : Key, (∃ v, n ≤ k.idx ∧ (s :: ss)[k.idx - n]? = some ⟨k.ver, some v⟩) ↔
        (k.idx = n ∧ ∃ v, s = ⟨k.ver, some v⟩) ∨
        (∃ v, n + 1 ≤ k.idx ∧ ss[k.idx - (n + 1)]? = some ⟨k.ver, some v⟩) := by
      intro k
      constructor
      · rintro ⟨v, hn, hv⟩
        rcases Nat.eq_or_lt_of_le hn with h | h
        · left; rw [← h] at hv; simp at hv; exact ⟨h.symm, v, hv⟩
        · right
          refine ⟨v, h, ?_⟩
          rw [show k.idx - n = (k.idx - (n + 1)) + 1 by omega] at hv
          simpa using hv
      · rintro (⟨h, v, hv⟩ | ⟨v, hn, hv⟩)
        · exact ⟨v, by omega, by simp [h, hv]⟩
        · refine ⟨v, by omega, ?_⟩
          rw [show k.idx - n = (k.idx - (n + 1)) + 1 by omega]
          simpa using hv
    rw [key k, keysFrom]
    split
    · rename_i hs
      rw [List.mem_cons, ih]
      constructor
      · rintro (rfl | h)
        · left
          obtain ⟨v, hv⟩ := Option.isSome_iff_exists.1 hs
          exact ⟨rfl, v, by cases s; simp_all⟩
        · exact .inr h
      · rintro (⟨h, v, rfl⟩ | h)
        · left; exact key_ext h rfl
        · exact .inr h
    · rename_i hs
      rw [ih]
      constructor
      · exact .inr
      · rintro (⟨h, v, rfl⟩ | h)
        · simp at hs
        · exact h

theorem mem_keys {m : SlotMap V} {k : Key} : k ∈ m.keys ↔ ∃ v, m.get? k = some v := by
  simp [keys, mem_keysFrom, get?_eq_some]

theorem nodup_keysFrom (l : List (Slot V)) (n : Nat) : (keysFrom n l).Nodup := by
  induction l generalizing n with
  | nil => simp [keysFrom]
  | cons s ss ih =>
    rw [keysFrom]
    split
    · rw [List.nodup_cons]
      refine ⟨?_, ih _⟩
      rw [mem_keysFrom]
      rintro ⟨v, h, -⟩
      simp at h
    · exact ih _

theorem nodup_keys (m : SlotMap V) : m.keys.Nodup := nodup_keysFrom _ _

theorem keysFrom_set {l : List (Slot V)} {n i : Nat} {s s' : Slot V} (h : l[i]? = some s)
    (hv : s.ver = s'.ver) (ho : s.val.isSome = s'.val.isSome) :
    keysFrom n (l.set i s') = keysFrom n l := by
  induction l generalizing n i with
  | nil => simp
  | cons a l ih =>
    cases i with
    | zero => simp at h; subst h; simp [keysFrom, hv, ho]
    | succ i => simp at h; simp [keysFrom, ih h]

@[simp] theorem keys_modify (m : SlotMap V) (k : Key) (f : V → V) : (m.modify k f).keys = m.keys := by
  unfold modify
  cases hk : m.get? k with
  | none => rfl
  | some v =>
    exact keysFrom_set (get?_eq_some.1 hk) rfl rfl

/-- Modifying every key of a list. -/
theorem get?_foldl_modify {α : Type} (ks : List α) (key : α → Key) (f : α → V → V) (m : SlotMap V)
    (hnd : (ks.map key).Nodup) (k : Key) :
    (ks.foldl (fun m a => m.modify (key a) (f a)) m).get? k =
      match ks.find? (fun a => key a == k) with
      | some a => (m.get? k).map (f a)
      | none => m.get? k := by
  induction ks generalizing m with
  | nil => rfl
  | cons a ks ih =>
    simp only [List.map_cons, List.nodup_cons] at hnd
    rw [List.foldl_cons, ih _ hnd.2, List.find?_cons]
    by_cases e : key a = k
    · have hf : ks.find? (fun a => key a == k) = none := by
        rw [List.find?_eq_none]
        intro b hb hbk
        simp at hbk
        exact hnd.1 (by rw [e, ← hbk]; exact List.mem_map_of_mem hb)
      simp [hf, e, get?_modify_self]
    · have : (key a == k) = false := by simpa using e
      simp only [this]
      rw [get?_modify_ne _ _ (Ne.symm e)]

/-- Modifying every key of the map. -/
theorem get?_foldl_modify_keys (m : SlotMap V) (f : Key → V → V) (k : Key) :
    (m.keys.foldl (fun m k => m.modify k (f k)) m).get? k = (m.get? k).map (f k) := by
  have := get?_foldl_modify m.keys id f m (by simpa using m.nodup_keys) k
  simp only [id] at this
  rw [this]
  split
  · rename_i a ha
    have := List.find?_some ha
    simp at this
    subst this; rfl
  · rename_i h
    cases hk : m.get? k with
    | none => rfl
    | some v =>
      exfalso
      have := List.find?_eq_none.1 h k (mem_keys.2 ⟨v, hk⟩)
      simp at this

theorem keys_foldl_modify {α : Type} (ks : List α) (key : α → Key) (f : α → V → V) (m : SlotMap V) :
    (ks.foldl (fun m a => m.modify (key a) (f a)) m).keys = m.keys := by
  induction ks generalizing m with
  | nil => rfl
  | cons a ks ih => rw [List.foldl_cons, ih, keys_modify]

theorem WF.foldl_modify {α : Type} (ks : List α) (key : α → Key) (f : α → V → V) {m : SlotMap V}
    (h : m.WF) : (ks.foldl (fun m a => m.modify (key a) (f a)) m).WF := by
  induction ks generalizing m with
  | nil => exact h
  | cons a ks ih => rw [List.foldl_cons]; exact ih (h.modify _ _)

end SlotMap
end TrafficSim
