import Verif.Model.Flt

/-! # Reasoning about `M` -/

namespace TrafficSim

section
variable {α β : Type}

@[simp] theorem M_pure_ok {a b : α} : (pure a : M α) = .ok b ↔ a = b := by
  simp [pure, Except.pure]

@[simp] theorem M_pure_err {a : α} {e : Err} : (pure a : M α) = .error e ↔ False := by
  simp [pure, Except.pure]

@[simp] theorem M_throw_ok {b : α} {e : Err} : (throw e : M α) = .ok b ↔ False := by
  simp [throw, throwThe, MonadExceptOf.throw]

@[simp] theorem M_throw_err {e e' : Err} : (throw e : M α) = .error e' ↔ e = e' := by
  simp [throw, throwThe, MonadExceptOf.throw]

@[simp] theorem M_bind_ok {x : M α} {f : α → M β} {b : β} :
    (x >>= f) = .ok b ↔ ∃ a, x = .ok a ∧ f a = .ok b := by
  cases x <;> simp [bind, Except.bind]

@[simp] theorem M_bind_err {x : M α} {f : α → M β} {e : Err} :
    (x >>= f) = .error e ↔ x = .error e ∨ ∃ a, x = .ok a ∧ f a = .error e := by
  cases x <;> simp [bind, Except.bind]

@[simp] theorem M_map_ok {x : M α} {f : α → β} {b : β} :
    (f <$> x) = .ok b ↔ ∃ a, x = .ok a ∧ f a = b := by
  cases x <;> simp [Functor.map, Except.map]

@[simp] theorem M_map_err {x : M α} {f : α → β} {e : Err} :
    (f <$> x) = .error e ↔ x = .error e := by
  cases x <;> simp [Functor.map, Except.map]

theorem ite_ok {c : Prop} [Decidable c] {x y : M α} {b : α} :
    (if c then x else y) = .ok b ↔ (c ∧ x = .ok b) ∨ (¬ c ∧ y = .ok b) := by
  split <;> simp [*]

/-- `Spec x E Q`: if `x` returns `a` then `Q a`, and if it fails with `e` then `E e`. -/
def Spec (x : M α) (E : Err → Prop) (Q : α → Prop) : Prop :=
  (∀ a, x = .ok a → Q a) ∧ ∀ e, x = .error e → E e

namespace Spec

variable {E : Err → Prop} {Q : α → Prop}

theorem ok {x : M α} (h : Spec x E Q) {a : α} (ha : x = .ok a) : Q a := h.1 a ha

theorem err {x : M α} (h : Spec x E Q) {e : Err} (he : x = .error e) : E e := h.2 e he

theorem pure {a : α} (h : Q a) : Spec (pure a : M α) E Q := by
  constructor <;> simp_all

theorem throw {e : Err} (h : E e) : Spec (throw e : M α) E Q := by
  constructor <;> simp_all

theorem bind {x : M α} {f : α → M β} {P : α → Prop} {Q : β → Prop} (hx : Spec x E P)
    (hf : ∀ a, P a → Spec (f a) E Q) : Spec (x >>= f) E Q := by
  constructor
  · intro b hb
    obtain ⟨a, ha, hb⟩ := M_bind_ok.1 hb
    exact (hf a (hx.1 a ha)).1 b hb
  · intro e he
    rcases M_bind_err.1 he with he | ⟨a, ha, he⟩
    · exact hx.2 e he
    · exact (hf a (hx.1 a ha)).2 e he

theorem mono {x : M α} {E' : Err → Prop} {Q' : α → Prop} (h : Spec x E Q) (hQ : ∀ a, Q a → Q' a)
    (hE : ∀ e, E e → E' e) : Spec x E' Q' := ⟨fun a ha => hQ a (h.1 a ha), fun e he => hE e (h.2 e he)⟩

theorem and {x : M α} {Q' : α → Prop} {E' : Err → Prop} (h : Spec x E Q) (h' : Spec x E' Q') :
    Spec x (fun e => E e ∧ E' e) (fun a => Q a ∧ Q' a) :=
  ⟨fun a ha => ⟨h.1 a ha, h'.1 a ha⟩, fun e he => ⟨h.2 e he, h'.2 e he⟩⟩

theorem post {x : M α} {Q' : α → Prop} (h : Spec x E Q) (hQ : ∀ a, x = .ok a → Q a → Q' a) :
    Spec x E Q' := ⟨fun a ha => hQ a ha (h.1 a ha), h.2⟩

theorem ite {c : Prop} [Decidable c] {x y : M α} (hx : c → Spec x E Q) (hy : ¬ c → Spec y E Q) :
    Spec (if c then x else y) E Q := by split <;> simp_all

theorem foldlM {σ : Type} {f : σ → α → M σ} {I : σ → Prop} {l : List α}
    (hf : ∀ s, I s → ∀ a ∈ l, Spec (f s a) E I) {s : σ} (hs : I s) : Spec (l.foldlM f s) E I := by
  induction l generalizing s with
  | nil => exact Spec.pure hs
  | cons a l ih =>
    rw [List.foldlM_cons]
    exact (hf s hs a (by simp)).bind fun s' hs' => ih (fun s hs a ha => hf s hs a (by simp [ha])) hs'

/-- A fold whose invariant also depends on the part of the list that is left. -/
theorem foldlM' {σ : Type} {f : σ → α → M σ} {I : List α → σ → Prop} :
    ∀ {l : List α}, (∀ s a l', (a :: l') <:+ l → I (a :: l') s → Spec (f s a) E (I l')) →
    ∀ {s : σ}, I l s → Spec (l.foldlM f s) E (I [])
  | [], _, _, hs => Spec.pure hs
  | a :: l, hf, s, hs => by
    rw [List.foldlM_cons]
    exact (hf s a l List.suffix_rfl hs).bind fun s' hs' =>
      foldlM' (fun s b l' hl' => hf s b l' (hl'.trans (List.suffix_cons a l))) hs'

theorem mapM {f : α → M β} {P : α → β → Prop} {l : List α} (hf : ∀ a ∈ l, Spec (f a) E (P a)) :
    Spec (l.mapM f) E (fun bs => List.Forall₂ P l bs) := by
  induction l with
  | nil => rw [List.mapM_nil]; exact Spec.pure List.Forall₂.nil
  | cons a l ih =>
    rw [List.mapM_cons]
    exact (hf a (by simp)).bind fun b hb => (ih fun a ha => hf a (by simp [ha])).bind fun bs hbs =>
      Spec.pure (List.Forall₂.cons hb hbs)

end Spec

end

end TrafficSim
