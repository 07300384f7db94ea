import Verif.Lemmas.Rel
import Verif.Model.Conflict
import Verif.Model.Simulation

/-! # Computations that need only finitely much fuel -/

namespace TrafficSim

section
variable {α β : Type}

/-- The results settle: from some amount of fuel on, they are all the same, which is not the one for
running out of fuel and meets `Q` if it is a value. -/
def Settles (x : Nat → M α) (Q : α → Prop) : Prop :=
  ∃ N r, r ≠ .error .diverges ∧ (∀ a, r = .ok a → Q a) ∧ ∀ n, N ≤ n → x n = r

namespace Settles
variable {Q : α → Prop} {P : β → Prop}

theorem const {x : M α} (h : x ≠ .error .diverges) (hq : ∀ a, x = .ok a → Q a) : Settles (fun _ => x) Q :=
  ⟨0, x, h, hq, fun _ _ => rfl⟩

theorem pure {a : α} (h : Q a) : Settles (fun _ => (pure a : M α)) Q :=
  const (by simp [Pure.pure, Except.pure]) fun b hb => by
    rw [M_pure_ok] at hb; subst hb; exact h

theorem throw {e : Err} (h : e ≠ .diverges) : Settles (fun _ => (throw e : M α)) Q :=
  const (by simpa [MonadExcept.throw, throwThe, MonadExceptOf.throw] using h) fun b hb => by
    rw [M_throw_ok] at hb; exact hb.elim

theorem congr {x y : Nat → M α} (h : ∃ N, ∀ n, N ≤ n → x n = y n) (hy : Settles y Q) : Settles x Q := by
  obtain ⟨N, h⟩ := h
  obtain ⟨N', r, h1, h2, h3⟩ := hy
  exact ⟨max N N', r, h1, h2, fun n hn => by rw [h n (by omega), h3 n (by omega)]⟩

theorem of_spec {x : M α} (h : Spec x (· ≠ .diverges) Q) : Settles (fun _ => x) Q :=
  const (fun e => h.err e rfl) fun _ ha => h.ok ha

theorem and_of_ok {x : Nat → M α} {P : α → Prop} (h : Settles x Q) (hp : ∀ n a, x n = .ok a → P a) :
    Settles x fun a => Q a ∧ P a := by
  obtain ⟨N, r, h1, h2, h3⟩ := h
  exact ⟨N, r, h1, fun a ha => ⟨h2 a ha, hp N a ((h3 N le_rfl).trans ha)⟩, h3⟩

theorem mono {x : Nat → M α} {Q' : α → Prop} (h : Settles x Q) (hq : ∀ a, Q a → Q' a) : Settles x Q' := by
  obtain ⟨N, r, h1, h2, h3⟩ := h
  exact ⟨N, r, h1, fun a ha => hq a (h2 a ha), h3⟩

theorem bind {x : Nat → M β} {f : Nat → β → M α} (hx : Settles x P)
    (hf : ∀ b, P b → Settles (fun n => f n b) Q) : Settles (fun n => x n >>= f n) Q := by
  obtain ⟨N, r, h1, h2, h3⟩ := hx
  cases r with
  | error e =>
    refine congr ⟨N, fun n hn => ?_⟩ (const (x := .error e) (by simpa using h1) (by simp))
    rw [h3 n hn]; rfl
  | ok b =>
    refine congr ⟨N, fun n hn => ?_⟩ (hf b (h2 b rfl))
    rw [h3 n hn]; rfl

theorem ite {c : Prop} [Decidable c] {x y : Nat → M α} (hx : c → Settles x Q) (hy : ¬ c → Settles y Q) :
    Settles (fun n => if c then x n else y n) Q := by
  by_cases h : c
  · simpa [h] using hx h
  · simpa [h] using hy h

theorem foldlM {f : Nat → α → β → M α} : ∀ {l : List β} {a : α},
    (∀ a, Q a → ∀ b ∈ l, Settles (fun n => f n a b) Q) → Q a → Settles (fun n => l.foldlM (f n) a) Q
  | [], a, _, h => by simpa using pure h
  | b :: l, a, hf, h => by
    simp only [List.foldlM_cons]
    exact bind (hf a h b (by simp)) fun a' ha' => foldlM (fun a ha b hb => hf a ha b (by simp [hb])) ha'

end Settles

/-- An amount of fuel that grows without bound. -/
def Unbounded (φ : Nat → Nat) : Prop := ∀ m, ∃ N, ∀ n, N ≤ n → m ≤ φ n

theorem Unbounded.id : Unbounded fun n => n := fun m => ⟨m, fun _ h => h⟩

theorem Unbounded.pred {φ : Nat → Nat} (h : Unbounded φ) : Unbounded fun n => φ n - 1 := fun m => by
  obtain ⟨N, hN⟩ := h (m + 1)
  exact ⟨N, fun n hn => by have := hN n hn; show m ≤ φ n - 1; omega⟩

theorem Unbounded.succ {φ : Nat → Nat} (h : Unbounded φ) : ∃ N, ∀ n, N ≤ n → φ n = φ n - 1 + 1 := by
  obtain ⟨N, hN⟩ := h 1
  exact ⟨N, fun n hn => by have := hN n hn; omega⟩

end

section
variable {F : Type} [Flt F]

omit [Flt F] in
theorem getVeh_settles {vs : VehicleSet F} {k : Key} : Settles (fun _ => getVeh vs k) fun v => vs.get? k = some v := by
  refine .const ?_ fun v hv => getVeh_ok.1 hv
  unfold getVeh
  split <;> simp [Pure.pure, Except.pure, throw, throwThe, MonadExceptOf.throw]

omit [Flt F] in
theorem getLink_settles {links : LinkSet F} {k : Key} :
    Settles (fun _ => getLink links k) fun l => links.get? k = some l := by
  refine .const ?_ fun v hv => getLink_ok.1 hv
  unfold getLink
  split <;> simp [Pure.pure, Except.pure, throw, throwThe, MonadExceptOf.throw]

theorem processList_settles {σ : Type} {Q : σ → Prop} {vs : VehicleSet F} {g : Nat → RelVeh F → σ → M (σ × Bool)}
    {route : Nat × Key} {pos minPos length : F} (hg : ∀ r s, Q s → Settles (fun n => g n r s) fun p => Q p.1) :
    ∀ {ks : List Key} {s : σ}, Q s →
    Settles (fun n => Link.processList vs (g n) route pos minPos length ks s) fun p => Q p.1
  | [], s, hs => by
    unfold Link.processList
    exact .pure hs
  | k :: ks, s, hs => by
    unfold Link.processList
    refine .bind getVeh_settles fun v _ => .ite (fun _ => .pure hs) fun _ => ?_
    cases v.getRoute route.1 with
    | none => exact processList_settles hg hs
    | some p =>
      obtain ⟨k', st⟩ := p
      refine .ite (fun _ => processList_settles hg hs) fun _ => .ite (fun _ => .pure hs) fun _ => ?_
      refine .bind (hg _ s hs) fun p hp => ?_
      obtain ⟨s', b⟩ := p
      exact .ite (fun _ => .pure hp) fun _ => processList_settles hg hp

end

/-! ## In exact arithmetic -/

section

/-- All links have positive lengths and speed limits. -/
structure PosNet (links : LinkSet ℝ) : Prop where
  length : ∀ k l, links.get? k = some l → 0 < l.length
  limit : ∀ k l, links.get? k = some l → 0 < l.speedLimit

theorem least_length {links : LinkSet ℝ} (h : PosNet links) : ∃ δ, 0 < δ ∧ ∀ k l, links.get? k = some l → δ ≤ l.length := by
  have : ∀ ks : List Key, ∃ δ : ℝ, 0 < δ ∧ ∀ k ∈ ks, ∀ l, links.get? k = some l → δ ≤ l.length := by
    intro ks
    induction ks with
    | nil => exact ⟨1, one_pos, by simp⟩
    | cons k ks ih =>
      obtain ⟨δ, h0, h1⟩ := ih
      cases hk : links.get? k with
      | none => exact ⟨δ, h0, by
          intro j hj l hl
          rcases List.mem_cons.1 hj with rfl | hj
          · rw [hk] at hl; cases hl
          · exact h1 j hj l hl⟩
      | some l0 => exact ⟨min δ l0.length, lt_min h0 (h.length k l0 hk), by
          intro j hj l hl
          rcases List.mem_cons.1 hj with rfl | hj
          · rw [hk] at hl; cases hl; exact min_le_right _ _
          · exact (min_le_left _ _).trans (h1 j hj l hl)⟩
  obtain ⟨δ, h0, h1⟩ := this links.keys
  exact ⟨δ, h0, fun k l hl => h1 k (SlotMap.mem_keys.2 ⟨l, hl⟩) l hl⟩

theorem greatest_limit (links : LinkSet ℝ) :
    ∃ V, 0 < V ∧ ∀ k l, links.get? k = some l → l.speedLimit ≤ V := by
  have : ∀ ks : List Key, ∃ V : ℝ, 0 < V ∧ ∀ k ∈ ks, ∀ l, links.get? k = some l → l.speedLimit ≤ V := by
    intro ks
    induction ks with
    | nil => exact ⟨1, one_pos, by simp⟩
    | cons k ks ih =>
      obtain ⟨V, h0, h1⟩ := ih
      cases hk : links.get? k with
      | none => exact ⟨V, h0, by
          intro j hj l hl
          rcases List.mem_cons.1 hj with rfl | hj
          · rw [hk] at hl; cases hl
          · exact h1 j hj l hl⟩
      | some l0 => exact ⟨max V l0.speedLimit, lt_max_of_lt_left h0, by
          intro j hj l hl
          rcases List.mem_cons.1 hj with rfl | hj
          · rw [hk] at hl; cases hl; exact le_max_right _ _
          · exact (h1 j hj l hl).trans (le_max_left _ _)⟩
  obtain ⟨V, h0, h1⟩ := this links.keys
  exact ⟨V, h0, fun k l hl => h1 k (SlotMap.mem_keys.2 ⟨l, hl⟩) l hl⟩

theorem processVehicles_levels {σ : Type} {Q : σ → Prop} {net : Net ℝ} {g : Nat → RelVeh ℝ → σ → M (σ × Bool)}
    (hg : ∀ r s, Q s → Settles (fun n => g n r s) fun p => Q p.1) {δ V : ℝ}
    (hδ : ∀ k l, net.links.get? k = some l → δ ≤ l.length) (hV : ∀ k l, net.links.get? k = some l → l.speedLimit ≤ V) :
    ∀ (m : Nat) {φ : Nat → Nat} (_ : Unbounded φ) {k : Key} {l : Link ℝ} (_ : net.links.get? k = some l) {route : Nat × Key} {pos : ℝ}
      (_ : 5 * V ≤ pos + m * δ) {skip : Nat} {s : σ} (_ : Q s),
    Settles (fun n => Link.processVehicles net (g n) (φ n) l route pos skip s) Q := by
  intro m
  induction m with
  | zero =>
    intro φ hφ k l hl route pos hp skip s hs
    obtain ⟨N, hN⟩ := hφ.succ
    refine .congr ⟨N, fun n hn => by rw [hN n hn]⟩ ?_
    simp only [Link.processVehicles]
    refine .ite (fun _ => .pure hs) fun _ => .bind (processList_settles hg hs) fun p hp' => ?_
    obtain ⟨s', b⟩ := p
    refine .ite (fun _ => .pure hp') fun _ => .ite (fun _ => .pure hp') fun h => absurd ?_ h
    have := hV k l hl
    have e : (0.0 : ℝ) = 0 := by norm_num
    have e' : (maxLookahead : ℝ) = 5 := by unfold maxLookahead; norm_num
    rw [e, e']
    push_cast at hp
    linarith
  | succ m ih =>
    intro φ hφ k l hl route pos hp skip s hs
    obtain ⟨N, hN⟩ := hφ.succ
    refine .congr ⟨N, fun n hn => by rw [hN n hn]⟩ ?_
    simp only [Link.processVehicles]
    refine .ite (fun _ => .pure hs) fun _ => .bind (processList_settles hg hs) fun p hp' => ?_
    obtain ⟨s', b⟩ := p
    refine .ite (fun _ => .pure hp') fun _ => .ite (fun _ => .pure hp') fun _ => ?_
    refine .foldlM (fun s hs j hj => ?_) hp'
    refine .bind getLink_settles fun l' hl' => ih hφ.pred hl' ?_ hs
    have := hδ j l' hl'
    push_cast at hp
    linarith

/-- The search over the vehicles on upstream links ends. -/
theorem processVehicles_settles {σ : Type} {Q : σ → Prop} {net : Net ℝ} (hnet : PosNet net.links)
    {g : Nat → RelVeh ℝ → σ → M (σ × Bool)} (hg : ∀ r s, Q s → Settles (fun n => g n r s) fun p => Q p.1) {k : Key}
    {l : Link ℝ} (hl : net.links.get? k = some l) {route : Nat × Key} {pos : ℝ} {skip : Nat} {s : σ} (hs : Q s) :
    Settles (fun n => Link.processVehicles net (g n) n l route pos skip s) Q := by
  obtain ⟨δ, h0, hδ⟩ := least_length hnet
  obtain ⟨V, -, hV⟩ := greatest_limit net.links
  obtain ⟨m, hm⟩ := exists_nat_ge ((5 * V - pos) / δ)
  rw [div_le_iff₀ h0] at hm
  exact processVehicles_levels hg hδ hV m .id hl (by linarith) hs

theorem checkGapList_settles {vs : VehicleSet ℝ} {pos0 time : ℝ} {q : Option Nat} {route : Nat × Key} {mv : ℝ} :
    ∀ {ks : List Key}, Settles (fun _ => Link.checkGapList vs pos0 time q route mv ks) fun _ => True
  | [] => by
    unfold Link.checkGapList
    exact .pure trivial
  | k :: ks => by
    have ih := checkGapList_settles (vs := vs) (pos0 := pos0) (time := time) (q := q) (route := route) (mv := mv) (ks := ks)
    unfold Link.checkGapList
    refine .bind getVeh_settles fun v _ => ?_
    cases v.getRoute route.1 with
    | none => exact ih
    | some p =>
      obtain ⟨k', st⟩ := p
      refine .ite (fun _ => ih) fun _ => ?_
      cases st <;> cases q <;> first | exact .pure trivial | exact .ite (fun _ => .pure trivial) fun _ => .pure trivial

theorem skipAhead_settles {vs : VehicleSet ℝ} {pos : ℝ} : ∀ {ks : List Key},
    Settles (fun _ => Link.skipAhead vs pos ks) fun _ => True
  | [] => by
    unfold Link.skipAhead
    exact .pure trivial
  | k :: ks => by
    unfold Link.skipAhead
    exact .bind getVeh_settles fun v _ => .ite (fun _ => skipAhead_settles) fun _ => .pure trivial

theorem allM_settles {α : Type} {f : Nat → α → M Bool} : ∀ {l : List α}, (∀ a ∈ l, Settles (fun n => f n a) fun _ => True) →
    Settles (fun n => Link.allM (f n) l) fun _ => True
  | [], _ => by
    unfold Link.allM
    exact .pure trivial
  | a :: l, h => by
    unfold Link.allM
    refine .bind (h a (by simp)) fun b _ => .ite (fun _ => ?_) fun _ => .pure trivial
    exact allM_settles fun a ha => h a (by simp [ha])

theorem checkGap_levels {net : Net ℝ} {time : ℝ} {q : Option Nat} {δ V : ℝ} (hnet : PosNet net.links)
    (hδ : ∀ k l, net.links.get? k = some l → δ ≤ l.length) (hV : ∀ k l, net.links.get? k = some l → l.speedLimit ≤ V) :
    ∀ (m : Nat) {φ : Nat → Nat} (_ : Unbounded φ) {k : Key} {l : Link ℝ} (_ : net.links.get? k = some l) {route : Nat × Key}
      {pos : ℝ × ℝ} (_ : V * time < pos.1 + m * δ) (_ : 0 ≤ pos.1 + m * δ) {mv : ℝ} (_ : mv ≤ V),
    Settles (fun n => Link.checkGap net time q (φ n) l pos route mv) fun _ => True := by
  intro m
  induction m with
  | zero =>
    intro φ hφ k l hl route pos hp hp0 mv hmv
    obtain ⟨N, hN⟩ := hφ.succ
    refine .congr ⟨N, fun n hn => by rw [hN n hn]⟩ ?_
    simp only [Link.checkGap]
    refine .bind skipAhead_settles fun ks _ => .bind checkGapList_settles fun b _ => ?_
    cases b with
    | some b => exact .pure trivial
    | none =>
      refine .ite (fun _ => .pure trivial) fun h => absurd ?_ h
      have h1 : fmax mv l.speedLimit ≤ V := max_le hmv (hV k l hl)
      have h2 : 0 < fmax mv l.speedLimit := lt_max_of_lt_right (hnet.limit k l hl)
      push_cast at hp hp0
      rw [lt_div_iff₀ h2]
      by_cases ht : 0 ≤ time
      · have : time * fmax mv l.speedLimit ≤ time * V := mul_le_mul_of_nonneg_left h1 ht
        linarith
      · have : time * fmax mv l.speedLimit < 0 := mul_neg_of_neg_of_pos (by linarith) h2
        linarith
  | succ m ih =>
    intro φ hφ k l hl route pos hp hp0 mv hmv
    obtain ⟨N, hN⟩ := hφ.succ
    refine .congr ⟨N, fun n hn => by rw [hN n hn]⟩ ?_
    simp only [Link.checkGap]
    refine .bind skipAhead_settles fun ks _ => .bind checkGapList_settles fun b _ => ?_
    cases b with
    | some b => exact .pure trivial
    | none =>
      refine .ite (fun _ => .pure trivial) fun _ => allM_settles fun j hj => ?_
      refine .bind getLink_settles fun l' hl' => ih hφ.pred hl' ?_ ?_ (max_le hmv (hV k l hl))
      all_goals
        have := hδ j l' hl'
        push_cast at hp hp0
        simp only
        linarith

/-- The search for a gap ends. -/
theorem checkGap_settles {net : Net ℝ} (hnet : PosNet net.links) {time : ℝ} {q : Option Nat} {k : Key} {l : Link ℝ}
    (hl : net.links.get? k = some l) {route : Nat × Key} {pos : ℝ × ℝ} {mv : ℝ} :
    Settles (fun n => Link.checkGap net time q n l pos route mv) fun _ => True := by
  obtain ⟨δ, h0, hδ⟩ := least_length hnet
  obtain ⟨V, -, hV⟩ := greatest_limit net.links
  obtain ⟨m, hm⟩ := exists_nat_gt (max ((max V mv * time - pos.1) / δ) (-pos.1 / δ))
  have h1 := (le_max_left _ _).trans_lt hm
  have h2 := (le_max_right _ _).trans_lt hm
  rw [div_lt_iff₀ h0] at h1 h2
  exact checkGap_levels hnet hδ (fun k l hl => (hV k l hl).trans (le_max_left V mv)) m .id hl (by linarith) (by linarith)
    (le_max_right _ _)

end

end TrafficSim
