import Verif.Lemmas.Approach
import Verif.Props.Traffic
import Verif.Props.Dynamics
import Verif.Props.Motion
import Verif.Props.Kinematics
import Verif.Lemmas.Town
import Mathlib.Data.List.Chain

/-! # C55: conflict points -/

namespace TrafficSim

section
variable {F : Type} [Flt F]

theorem insertDesc_mem {a r : RelVeh F} : ∀ {bs : List (RelVeh F)}, r ∈ insertDesc a bs ↔ r = a ∨ r ∈ bs
  | [] => by simp [insertDesc]
  | b :: bs => by
    unfold insertDesc
    split
    · simp
    · rw [List.mem_cons, insertDesc_mem, List.mem_cons]; tauto

theorem sortDesc_mem {r : RelVeh F} : ∀ {bs : List (RelVeh F)}, r ∈ sortDesc bs ↔ r ∈ bs
  | [] => by simp [sortDesc]
  | b :: bs => by rw [sortDesc, insertDesc_mem, sortDesc_mem, List.mem_cons]

/-- What sorting puts next to each other. -/
def Ahead (a b : RelVeh F) : Prop := b.posFront ≤ a.posFront ∨ ¬ a.posFront ≤ b.posFront

theorem insertDesc_chain {a : RelVeh F} : ∀ {bs : List (RelVeh F)}, bs.IsChain Ahead → (insertDesc a bs).IsChain Ahead ∧
    ∀ c, (insertDesc a bs).head? = some c → c = a ∨ bs.head? = some c
  | [], _ => by simp [insertDesc]
  | b :: bs, h => by
    unfold insertDesc
    split
    · rename_i hle
      exact ⟨List.isChain_cons_cons.2 ⟨.inl hle, h⟩, fun c hc => .inl (by simpa using hc.symm)⟩
    · rename_i hle
      obtain ⟨ih, ih'⟩ := insertDesc_chain (a := a) (List.IsChain.of_cons h)
      refine ⟨?_, fun c hc => .inr (by simpa using hc)⟩
      rw [List.isChain_cons]
      refine ⟨fun c hc => ?_, ih⟩
      rcases ih' c hc with rfl | hc
      · exact .inr hle
      · exact (List.isChain_cons.1 h).1 c hc

theorem sortDesc_chain : ∀ {bs : List (RelVeh F)}, (sortDesc bs).IsChain Ahead
  | [] => by simp [sortDesc]
  | b :: bs => (insertDesc_chain sortDesc_chain).1

/-- A window changes only the vehicle behind. -/
theorem applyWindows_keeps {sameDir : Bool} {k : Key} : ∀ {buf : List (RelVeh F)} {vs : VehicleSet F},
    (ConflictPoint.applyWindows sameDir buf vs).get? k = vs.get? k ∨
    ∃ a b pre post, buf = pre ++ a :: b :: post ∧ b.key = k ∧ a.linkId 0 ≠ b.linkId 0
  | [], vs => .inl rfl
  | [_], vs => .inl rfl
  | a :: b :: rest, vs => by
    unfold ConflictPoint.applyWindows
    dsimp only
    by_cases hk : b.key = k ∧ a.linkId 0 ≠ b.linkId 0
    · exact .inr ⟨a, b, [], rest, rfl, hk⟩
    · rcases applyWindows_keeps (sameDir := sameDir) (k := k) (buf := b :: rest) (vs := if a.linkId 0 ≠ b.linkId 0 then
            if (sameDir && decide (0.0 < a.posRear)) = true then b.followObstacle a.vehicle.rearCoords a.vehicle.vel vs
            else b.stopAtLine 0.0 vs
          else vs) with h | ⟨a', b', pre, post, e, h⟩
      · left
        rw [h]
        split
        · rename_i hl
          have hne : k ≠ b.key := fun e => hk ⟨e.symm, hl⟩
          split
          · exact SlotMap.get?_modify_ne _ _ hne
          · exact SlotMap.get?_modify_ne _ _ hne
        · rfl
      · exact .inr ⟨a', b', a :: pre, post, by rw [e]; rfl, h⟩

variable {links : LinkSet F} {vs vs' : VehicleSet F} {c : ConflictPoint F}

theorem Nears.link {act : Key → Prop} {d : ConflictPointLink F} {r : RelVeh F} (h : Nears act links vs d r) : r.linkId 0 = some d.linkId := by
  obtain ⟨⟨lk, -, hf⟩, -⟩ := h
  have := hf.route
  unfold RelVeh.linkId RelVeh.getRoute Vehicle.getRoute
  rw [Nat.add_zero, this]; rfl

/-- What a conflict point does: nothing, if there are no vehicles near it on one of the links, and otherwise it handles
those on both links in order. -/
theorem ConflictPoint.applyAccelerations_eq [Env] (h : c.applyAccelerations links vs = .ok vs') :
    (vs' = vs ∧ ((∀ r, ¬ Nears (Active links) links vs c.link0 r) ∨ ∀ r, ¬ Nears (Active links) links vs c.link1 r)) ∨
    ∃ buf, (∀ r, r ∈ buf ↔ Nears (Active links) links vs c.link0 r ∨ Nears (Active links) links vs c.link1 r) ∧
      vs' = applyWindows c.sameDir (sortDesc buf) vs := by
  unfold ConflictPoint.applyAccelerations at h
  rw [M_bind_ok] at h
  obtain ⟨b0, h0, h⟩ := h
  obtain ⟨n0, e0, f0⟩ := findVehicles_iff h0
  rw [List.nil_append] at e0; subst e0
  split at h
  · rename_i hz
    rw [M_pure_ok] at h
    refine .inl ⟨h.symm, .inl fun r hr => ?_⟩
    have := (f0 r).2 hr
    rw [List.length_eq_zero_iff] at hz
    rw [hz] at this; cases this
  · rw [M_bind_ok] at h
    obtain ⟨b1, h1, h⟩ := h
    obtain ⟨n1, rfl, f1⟩ := findVehicles_iff h1
    split at h
    · rename_i hz
      rw [M_pure_ok] at h
      refine .inl ⟨h.symm, .inr fun r hr => ?_⟩
      have := (f1 r).2 hr
      rw [List.length_append] at hz
      rw [List.length_eq_zero_iff.1 (by omega : n1.length = 0)] at this; cases this
    · rw [M_bind_ok] at h
      obtain ⟨b, hb, h⟩ := h
      rw [M_pure_ok] at h
      unfold sortBuffer at hb
      split at hb
      · cases hb
      · rw [M_pure_ok] at hb; subst hb
        exact .inr ⟨b0 ++ n1, fun r => by rw [List.mem_append, f0, f1], h.symm⟩

/-- **C55** (any numbers) A conflict point changes a vehicle only if that vehicle is near the conflict region on one
link and another entry, not behind it, is near the region on the other link. -/
theorem C55_behind [Env] (h : c.applyAccelerations links vs = .ok vs') (k : Key) :
    vs'.get? k = vs.get? k ∨ ∃ a b : RelVeh F, b.key = k ∧
      (Nears (Active links) links vs c.link0 a ∧ Nears (Active links) links vs c.link1 b ∨ Nears (Active links) links vs c.link1 a ∧ Nears (Active links) links vs c.link0 b) ∧
      (b.posFront ≤ a.posFront ∨ ¬ a.posFront ≤ b.posFront) := by
  rcases ConflictPoint.applyAccelerations_eq h with ⟨rfl, -⟩ | ⟨buf, hb, rfl⟩
  · exact .inl rfl
  · rcases applyWindows_keeps (sameDir := c.sameDir) (k := k) (buf := sortDesc buf) (vs := vs) with h | ⟨a, b, pre, post, e, hk, hl⟩
    · exact .inl h
    · right
      have hch := sortDesc_chain (bs := buf)
      rw [e] at hch
      have hab : Ahead a b := by
        have := (List.isChain_append.1 hch).2.1
        exact (List.isChain_cons_cons.1 this).1
      have ha := (hb a).1 (sortDesc_mem.1 (by rw [e]; simp))
      have hb' := (hb b).1 (sortDesc_mem.1 (by rw [e]; simp))
      refine ⟨a, b, hk, ?_, hab⟩
      rcases ha with ha | ha <;> rcases hb' with hb' | hb'
      · rw [ha.link, hb'.link] at hl; exact absurd rfl hl
      · exact .inl ⟨ha, hb'⟩
      · exact .inr ⟨ha, hb'⟩
      · rw [ha.link, hb'.link] at hl; exact absurd rfl hl

/-- The acceleration that a conflict point gives to the vehicle `b` that is right behind the vehicle `a` from the other
link: if the links run in the same direction and `a` is past the start of the region, the one for following `a`,
and otherwise the one for stopping at the start of the region. -/
def conflictAcc (c : ConflictPoint F) (a b : RelVeh F) : F :=
  if (c.sameDir && decide (0.0 < a.posRear)) = true then
    b.vehicle.acc.idm (fmin (b.vehicle.worldDir.dot (a.vehicle.rearCoords.1.sub b.vehicle.worldPos))
      (b.vehicle.worldDir.dot (a.vehicle.rearCoords.2.sub b.vehicle.worldPos)) - b.vehicle.halfLen) b.vehicle.vel a.vehicle.vel
  else b.vehicle.acc.idm (b.pos + 0.0 - b.vehicle.posFront) b.vehicle.vel 0.0

theorem applyWindows_cons (sameDir : Bool) (a b : RelVeh F) (vs : VehicleSet F) : ∃ vs1, VSlow vs vs1 ∧ ∀ rest,
    ConflictPoint.applyWindows sameDir (a :: b :: rest) vs = ConflictPoint.applyWindows sameDir (b :: rest) vs1 := by
  refine ⟨if a.linkId 0 ≠ b.linkId 0 then
      if (sameDir && decide (0.0 < a.posRear)) = true then b.followObstacle a.vehicle.rearCoords a.vehicle.vel vs
      else b.stopAtLine 0.0 vs
    else vs, ?_, fun rest => by rw [ConflictPoint.applyWindows]⟩
  split
  · split
    · exact VSlow.rfl'.modify _ _ fun v v' hv => hv.followObstacle _ _
    · exact VSlow.rfl'.modify _ _ fun v v' hv => hv.stopAtLine _
  · exact VSlow.rfl'

/-- A window slows the vehicle behind. -/
theorem applyWindows_capped {c : ConflictPoint F} {a b : RelVeh F} (hl : a.linkId 0 ≠ b.linkId 0) {vs0 : VehicleSet F}
    (hv : vs0.get? b.key = some b.vehicle) : ∀ {pre post : List (RelVeh F)} {vs : VehicleSet F}, VSlow vs0 vs →
    Capped b.key (conflictAcc c a b) vs (ConflictPoint.applyWindows c.sameDir (pre ++ a :: b :: post) vs)
  | [], post, vs, hs => by
    rw [List.nil_append]
    unfold ConflictPoint.applyWindows
    refine Capped.before ?_ (applyWindows_slow c.sameDir (b :: post) _).slower
    rw [if_pos hl]
    intro u hu
    obtain ⟨u', hu', hs'⟩ := hs.fwd _ _ hv
    rw [hu] at hu'; cases hu'
    obtain ⟨x, w, rfl⟩ := hs'.same
    unfold conflictAcc
    split
    · refine ⟨_, [_], by rw [RelVeh.followObstacle, SlotMap.get?_modify_self, hu]; rfl, List.mem_singleton.2 rfl, _, rfl⟩
    · refine ⟨_, [_], by rw [RelVeh.stopAtLine, SlotMap.get?_modify_self, hu]; rfl, List.mem_singleton.2 rfl, _, rfl⟩
  | [x], post, vs, hs => by
    obtain ⟨vs1, h1, h2⟩ := applyWindows_cons c.sameDir x a vs
    rw [List.cons_append, List.nil_append, h2]
    exact (applyWindows_capped hl hv (pre := []) (hs.trans h1)).after h1.slower
  | x :: y :: pre, post, vs, hs => by
    obtain ⟨vs1, h1, h2⟩ := applyWindows_cons c.sameDir x y vs
    rw [List.cons_append, List.cons_append, h2]
    exact (applyWindows_capped hl hv (pre := y :: pre) (hs.trans h1)).after h1.slower

/-- The vehicles near the conflict point. -/
def NearPoint (act : Key → Prop) (links : LinkSet F) (vs : VehicleSet F) (c : ConflictPoint F) (r : RelVeh F) : Prop :=
  Nears act links vs c.link0 r ∨ Nears act links vs c.link1 r

/-- The fronts of the vehicles near the conflict point can be ordered, which is so if none of them is NaN. -/
structure FrontsOrdered (act : Key → Prop) (links : LinkSet F) (vs : VehicleSet F) (c : ConflictPoint F) : Prop where
  total : ∀ x y, NearPoint act links vs c x → NearPoint act links vs c y → x.posFront ≤ y.posFront ∨ y.posFront ≤ x.posFront
  trans : ∀ x y z, NearPoint act links vs c x → NearPoint act links vs c y → NearPoint act links vs c z →
    x.posFront ≤ y.posFront → y.posFront ≤ z.posFront → x.posFront ≤ z.posFront

/-- The vehicle `b` is right behind the vehicle `a` from the other link. -/
structure RightBehind (act : Key → Prop) (links : LinkSet F) (vs : VehicleSet F) (c : ConflictPoint F) (a b : RelVeh F) : Prop where
  sides : Nears act links vs c.link0 a ∧ Nears act links vs c.link1 b ∨ Nears act links vs c.link1 a ∧ Nears act links vs c.link0 b
  ahead : ¬ a.posFront ≤ b.posFront
  next : ∀ r, NearPoint act links vs c r → r = a ∨ r = b ∨ ¬ b.posFront ≤ r.posFront ∨ ¬ r.posFront ≤ a.posFront

theorem RightBehind.left {act : Key → Prop} {a b : RelVeh F} (h : RightBehind act links vs c a b) : NearPoint act links vs c a :=
  h.sides.elim (fun h => .inl h.1) fun h => .inr h.1

theorem RightBehind.right {act : Key → Prop} {a b : RelVeh F} (h : RightBehind act links vs c a b) : NearPoint act links vs c b :=
  h.sides.elim (fun h => .inr h.2) fun h => .inl h.2

theorem pairwise_of_chain {α : Type} {R : α → α → Prop} : ∀ {l : List α}, l.IsChain R →
    (∀ x ∈ l, ∀ y ∈ l, ∀ z ∈ l, R x y → R y z → R x z) → l.Pairwise R
  | [], _, _ => .nil
  | [_], _, _ => List.pairwise_singleton ..
  | a :: b :: l, h, ht => by
    rw [List.isChain_cons_cons] at h
    have ih := pairwise_of_chain h.2 fun x hx y hy z hz => ht x (by simp [hx]) y (by simp [hy]) z (by simp [hz])
    rw [List.pairwise_cons]
    refine ⟨fun z hz => ?_, ih⟩
    rcases List.mem_cons.1 hz with rfl | hz'
    · exact h.1
    · exact ht a (by simp) b (by simp) z (by simp [hz']) h.1 ((List.pairwise_cons.1 ih).1 z hz')

theorem window_of_sorted {a b : RelVeh F} (hab : ¬ a.posFront ≤ b.posFront) : ∀ {l : List (RelVeh F)},
    l.Pairwise (fun x y => y.posFront ≤ x.posFront) → (∀ x ∈ l, x.posFront ≤ x.posFront) →
    (∀ r ∈ l, r = a ∨ r = b ∨ ¬ b.posFront ≤ r.posFront ∨ ¬ r.posFront ≤ a.posFront) → a ∈ l → b ∈ l →
    ∃ pre post, l = pre ++ a :: b :: post
  | [], _, _, _, ha, _ => by cases ha
  | x :: l, hp, hr, hn, ha, hb => by
    obtain ⟨h1, h2⟩ := List.pairwise_cons.1 hp
    by_cases ha' : a ∈ l
    · by_cases hb' : b ∈ l
      · obtain ⟨pre, post, e⟩ := window_of_sorted hab h2 (fun x hx => hr x (by simp [hx])) (fun r hr => hn r (by simp [hr])) ha' hb'
        exact ⟨x :: pre, post, by rw [e]; rfl⟩
      · rcases List.mem_cons.1 hb with rfl | hb
        · exact absurd (h1 a ha') hab
        · exact absurd hb hb'
    · rcases List.mem_cons.1 ha with rfl | ha
      · rcases List.mem_cons.1 hb with rfl | hb
        · exact absurd (hr b (by simp)) hab
        · cases l with
          | nil => cases hb
          | cons y l =>
            refine ⟨[], l, ?_⟩
            rcases hn y (by simp) with rfl | rfl | h | h
            · simp at ha'
            · rfl
            · exfalso
              rcases List.mem_cons.1 hb with rfl | hb
              · exact h (hr b (by simp))
              · exact h ((List.pairwise_cons.1 h2).1 b hb)
            · exact absurd (h1 y (by simp)) h
      · exact absurd ha ha'

/-- The conflict point slows the vehicle that is right behind one from the other link. -/
theorem ConflictPoint.applyAccelerations_capped [Env] (h : c.applyAccelerations links vs = .ok vs')
    (hne : c.link0.linkId ≠ c.link1.linkId) (ho : FrontsOrdered (Active links) links vs c) {a b : RelVeh F}
    (hb : RightBehind (Active links) links vs c a b) : Capped b.key (conflictAcc c a b) vs vs' := by
  rcases ConflictPoint.applyAccelerations_eq h with ⟨-, h0⟩ | ⟨buf, hbuf, rfl⟩
  · exfalso
    rcases h0 with h0 | h0 <;> rcases hb.sides with ⟨h1, h2⟩ | ⟨h1, h2⟩
    · exact h0 _ h1
    · exact h0 _ h2
    · exact h0 _ h2
    · exact h0 _ h1
  · have hmem : ∀ r, r ∈ sortDesc buf ↔ NearPoint (Active links) links vs c r := fun r => by rw [sortDesc_mem, hbuf]; rfl
    have hch : (sortDesc buf).IsChain fun x y => y.posFront ≤ x.posFront := by
      have := sortDesc_chain (bs := buf)
      refine List.IsChain.imp_of_mem_imp ?_ this
      intro x y hx hy hxy
      rcases hxy with h | h
      · exact h
      · exact (ho.total x y ((hmem x).1 hx) ((hmem y).1 hy)).resolve_left h
    have hp := pairwise_of_chain hch fun x hx y hy z hz h1 h2 =>
      ho.trans z y x ((hmem z).1 hz) ((hmem y).1 hy) ((hmem x).1 hx) h2 h1
    obtain ⟨pre, post, e⟩ := window_of_sorted hb.ahead hp (fun x hx => (ho.total x x ((hmem x).1 hx) ((hmem x).1 hx)).elim id id)
      (fun r hr => hb.next r ((hmem r).1 hr)) ((hmem a).2 hb.left) ((hmem b).2 hb.right)
    rw [e]
    refine applyWindows_capped ?_ ?_ VSlow.rfl'
    · rcases hb.sides with ⟨h1, h2⟩ | ⟨h1, h2⟩
      · rw [h1.link, h2.link]; simpa using hne
      · rw [h1.link, h2.link]; simpa using hne.symm
    · rcases hb.right with h1 | h1
      · exact h1.1.choose_spec.2.veh
      · exact h1.1.choose_spec.2.veh

/-! ## The order does not depend on accelerations -/

section
variable {act act' : Key → Prop} {links' : LinkSet F} (ha : ∀ k, act k ↔ act' k) (hl : SRel (fun _ => LinkSees) links links')
  {R : Vehicle F → Vehicle F → Prop} (hR : ∀ v v', R v v' → VehSees v v') (hv : Alike R vs vs')
include ha hl hR hv

theorem NearPoint.same' {r : RelVeh F} (h : NearPoint act' links' vs' c r) :
    ∃ v, vs.get? r.key = some v ∧ R v r.vehicle ∧ NearPoint act links vs c { r with vehicle := v } := by
  rcases h with h | h
  · obtain ⟨v, h1, h2, h3⟩ := h.same' hR (fun k => (ha k).2) hl hv
    exact ⟨v, h1, h2, .inl h3⟩
  · obtain ⟨v, h1, h2, h3⟩ := h.same' hR (fun k => (ha k).2) hl hv
    exact ⟨v, h1, h2, .inr h3⟩

theorem FrontsOrdered.same (h : FrontsOrdered act links vs c) : FrontsOrdered act' links' vs' c := by
  have front : ∀ {r : RelVeh F}, NearPoint act' links' vs' c r → ∃ r', NearPoint act links vs c r' ∧ r'.posFront = r.posFront := by
    intro r hr
    obtain ⟨v, -, e, h3⟩ := hr.same' ha hl hR hv
    exact ⟨_, h3, by simp only [RelVeh.posFront, (hR _ _ e).front]⟩
  refine ⟨fun x y hx hy => ?_, fun x y z hx hy hz => ?_⟩
  · obtain ⟨x', hx', ex⟩ := front hx
    obtain ⟨y', hy', ey⟩ := front hy
    rw [← ex, ← ey]; exact h.total x' y' hx' hy'
  · obtain ⟨x', hx', ex⟩ := front hx
    obtain ⟨y', hy', ey⟩ := front hy
    obtain ⟨z', hz', ez⟩ := front hz
    rw [← ex, ← ey, ← ez]; exact h.trans x' y' z' hx' hy' hz'

theorem RightBehind.same {a b : RelVeh F} (h : RightBehind act links vs c a b) : ∃ va vb, R a.vehicle va ∧
    R b.vehicle vb ∧ RightBehind act' links' vs' c { a with vehicle := va } { b with vehicle := vb } := by
  have key : ∀ {a b : RelVeh F} {d e : ConflictPointLink F}, Nears act links vs d a → Nears act links vs e b → ∃ va vb,
      vs'.get? a.key = some va ∧ vs'.get? b.key = some vb ∧ R a.vehicle va ∧ R b.vehicle vb ∧
      Nears act' links' vs' d { a with vehicle := va } ∧ Nears act' links' vs' e { b with vehicle := vb } := by
    intro a b d e h1 h2
    obtain ⟨va, g1, g2, g3⟩ := h1.same hR (fun k => (ha k).1) hl hv
    obtain ⟨vb, g4, g5, g6⟩ := h2.same hR (fun k => (ha k).1) hl hv
    exact ⟨va, vb, g1, g4, g2, g5, g3, g6⟩
  obtain ⟨va, vb, ga, gb, sa, sb, hs⟩ : ∃ va vb, vs'.get? a.key = some va ∧ vs'.get? b.key = some vb ∧ R a.vehicle va ∧
      R b.vehicle vb ∧ (Nears act' links' vs' c.link0 { a with vehicle := va } ∧ Nears act' links' vs' c.link1 { b with vehicle := vb } ∨
        Nears act' links' vs' c.link1 { a with vehicle := va } ∧ Nears act' links' vs' c.link0 { b with vehicle := vb }) := by
    rcases h.sides with ⟨h1, h2⟩ | ⟨h1, h2⟩
    · obtain ⟨va, vb, g1, g2, g3, g4, g5⟩ := key h1 h2
      exact ⟨va, vb, g1, g2, g3, g4, .inl g5⟩
    · obtain ⟨va, vb, g1, g2, g3, g4, g5⟩ := key h1 h2
      exact ⟨va, vb, g1, g2, g3, g4, .inr g5⟩
  have fa : RelVeh.posFront { a with vehicle := va } = a.posFront := by
    simp only [RelVeh.posFront, (hR _ _ sa).front]
  have fb : RelVeh.posFront { b with vehicle := vb } = b.posFront := by
    simp only [RelVeh.posFront, (hR _ _ sb).front]
  refine ⟨va, vb, sa, sb, hs, by rw [fa, fb]; exact h.ahead, fun r hr => ?_⟩
  rw [fa, fb]
  obtain ⟨v, h1, e, h3⟩ := hr.same' ha hl hR hv
  have hrv : vs'.get? r.key = some r.vehicle := hr.elim (fun h => h.1.choose_spec.2.veh) fun h => h.1.choose_spec.2.veh
  have fr : RelVeh.posFront { r with vehicle := v } = r.posFront := by
    simp only [RelVeh.posFront, (hR _ _ e).front]
  rcases h.next _ h3 with h4 | h4 | h4
  · left
    obtain ⟨rk, rv, ri, rp⟩ := r
    subst h4
    rw [hrv] at ga; cases ga; rfl
  · right; left
    obtain ⟨rk, rv, ri, rp⟩ := r
    subst h4
    rw [hrv] at gb; cases gb; rfl
  · rw [fr] at h4; exact .inr (.inr h4)

end

/-- A vehicle that is not frozen and right behind one from the other link is slowed. -/
theorem AccRun.conflict [Env] {strict : Prop} {s s' : Sim F} (hs : SimMid strict s) {n0 n1 : Net F} {vs : VehicleSet F}
    (hr : AccRun s n0 n1 vs s') (hc : c ∈ s.conflicts) (hne : c.link0.linkId ≠ c.link1.linkId)
    (ho : FrontsOrdered (EnteredBy s.vehicles) s.links s.vehicles c) {a b : RelVeh F}
    (hb : RightBehind (EnteredBy s.vehicles) s.links s.vehicles c a b) (hf : b.key ∉ s.frozen) :
    ∃ v', ∃ as : List F, ∃ w, s'.vehicles.get? b.key = some v' ∧ conflictAcc c a b ∈ as ∧
      v' = { b.vehicle with
        acc := { b.vehicle.acc with acc := as.foldl fmin b.vehicle.acc.maxAcc }, willQueueOrEnter := w } := by
  have hbv : s.vehicles.get? b.key = some b.vehicle :=
    hb.right.elim (fun h => h.1.choose_spec.2.veh) fun h => h.1.choose_spec.2.veh
  refine hr.capped hbv hf (Capped.after (vs := n1.vehicles) ⟨_, hr.stop.vehicles⟩ ?_)
  have hok0 := hr.prep.netOK hs
  have hN0 : NetInv strict n0.links := hs.net.frame hr.prep.frame
  have hok1 := hok0.same hr.stop.same
  have hN1 : NetInv strict n1.links := hN0.frame (SRel.mono hr.stop.links fun _ _ _ => LinkSame.frame)
  have hcs : ∀ c ∈ s.conflicts, n1.links.contains c.link0.linkId = true ∧ n1.links.contains c.link1.linkId = true := by
    intro c hc
    rw [hr.stop.links.contains, hr.stop.links.contains, hr.prep.links.contains, hr.prep.links.contains]
    exact hs.conflicts c hc
  have hrun := hr.runAcc
  simp only [Sim.applyLinkAccelerations, M_bind_ok] at hrun
  obtain ⟨vs1, h1, h2⟩ := hrun
  have hs1 : VSlow n1.vehicles vs1 := by
    refine (Spec.foldlM (E := fun _ => True) (I := fun vs' => VSlow n1.vehicles vs') (fun vs' h' k hk => ?_) VSlow.rfl').ok h1
    obtain ⟨l, hl⟩ := SlotMap.mem_keys.1 hk
    exact (applyAccelerations_spec trivial (.inr trivial) (.inr ⟨trivial, trivial, trivial⟩) hN1 (NetOK.same hok1 (VSlow.same h')) (contains_of_get hl)).mono
      (fun vs'' h'' => VSlow.trans h' h'') (fun _ h => h)
  have fold : ∀ (cs : List (ConflictPoint F)) (va vb : VehicleSet F), cs ⊆ s.conflicts → VSlow n1.vehicles va →
      cs.foldlM (fun vs c => c.applyAccelerations n1.links vs) va = .ok vb → VSlow va vb := by
    intro cs va vb hsub hva h
    refine (Spec.foldlM (E := fun _ => True) (I := fun vs' => VSlow va vs') (fun vs' h' c hc => ?_) VSlow.rfl').ok h
    exact (c.applyAccelerations_spec trivial (.inr trivial) ((NetOK.same hok1 (VSlow.same hva)).same (VSlow.same h'))
        (hcs c (hsub hc)).1 (hcs c (hsub hc)).2).mono (fun vs'' h'' => VSlow.trans h' h'') (fun _ h => h)
  obtain ⟨as, bs, e⟩ := List.append_of_mem hc
  rw [e, List.foldlM_append, M_bind_ok] at h2
  obtain ⟨va, ha, h2⟩ := h2
  rw [List.foldlM_cons, M_bind_ok] at h2
  obtain ⟨vb, hb', h2⟩ := h2
  have t1 := fold as vs1 va (fun x hx => by rw [e]; simp [hx]) hs1 ha
  have t2 := fold [c] va vb (fun x hx => by rw [e]; simp at hx; simp [hx]) (hs1.trans t1) (by
    rw [List.foldlM_cons, M_bind_ok]; exact ⟨vb, hb', rfl⟩)
  have t3 := fold bs vb vs (fun x hx => by rw [e]; simp [hx]) ((hs1.trans t1).trans t2) h2
  refine Capped.after (hs1.trans t1).slower (Capped.before ?_ t3.slower)
  have hact : ∀ k, EnteredBy s.vehicles k ↔ Active n1.links k := by
    intro k
    constructor
    · rintro ⟨j, v, hv, hk⟩
      obtain ⟨l, hl⟩ := get_of_contains ((hs.veh j v hv).drivable.valid k (List.mem_of_mem_take hk))
      obtain ⟨l0, hl0, x, rfl, hx⟩ := hr.prep.links.fwd k l hl
      obtain ⟨l1, hl1, y, rfl, -⟩ := hr.stop.links.fwd k _ hl0
      exact ⟨_, hl1, hx.2 ⟨j, v, hv, hk⟩⟩
    · rintro ⟨l1, hl1, hact⟩
      obtain ⟨l0, hl0, y, rfl, -⟩ := hr.stop.links.bwd hl1
      obtain ⟨l, hl, x, rfl, hx⟩ := hr.prep.links.bwd hl0
      exact hx.1 hact
  have hlinks : SRel (fun _ => LinkSees) s.links n1.links := by
    refine hr.prep.links.trans hr.stop.links ?_
    rintro j l l' l'' ⟨x, rfl, -⟩ ⟨y, rfl, -⟩
    exact ⟨rfl, rfl, rfl, rfl⟩
  have hvehs : SRel (fun _ => VehSame) s.vehicles va := by
    refine hr.prep.vehicles.trans ((hr.stop.vehicles.trans (hs1.trans t1) fun k v v' v'' a b => a.same.trans b.same)) ?_
    rintro j v v' v'' rfl ⟨x, y, rfl⟩
    exact ⟨x, y, rfl⟩
  obtain ⟨ua, ub, ⟨xa, ya, rfl⟩, ⟨xb, yb, rfl⟩, hrb⟩ := hb.same hact hlinks (fun _ _ => VehSame.sees) hvehs.alike
  have := ConflictPoint.applyAccelerations_capped hb' hne (ho.same hact hlinks (fun _ _ => VehSame.sees) hvehs.alike) hrb
  exact this

section
variable {strict : Prop} {s s' s1 : Sim F} {dt : F} {a b : RelVeh F} {v' : Vehicle F}

/-- **C55** (any numbers) Accelerations are recomputed.  After lane changes the vehicle of `b` is near a conflict point,
right behind the vehicle of `a` on the other link.  Then its acceleration is -6 m/s², if it is frozen, or the least of
several values, among them the one for following `a` or stopping before the conflict region. -/
theorem C55_slowed [Env] [LawfulDijkstra] (h : Reach strict s) (hst : s.step dt = .ok s') (hre : ¬ s.accUpdate < 0.1)
    (hlanes : s.calculateLaneChanges = .ok s1) (hc : c ∈ s.conflicts) (hne : c.link0.linkId ≠ c.link1.linkId)
    (ho : FrontsOrdered (EnteredBy s1.vehicles) s1.links s1.vehicles c)
    (hb : RightBehind (EnteredBy s1.vehicles) s1.links s1.vehicles c a b) (hv' : s'.getVehicle b.key = .ok v') :
    v'.acc.acc = -6.0 ∨ ∃ as : List F, conflictAcc c a b ∈ as ∧ v'.acc.acc = as.foldl fmin b.vehicle.acc.maxAcc := by
  obtain ⟨s1', s2, s3, s4, s5, s6, hr⟩ := (step_spec h.inv dt).ok hst
  rw [hr.run1] at hlanes; cases hlanes
  have hbv : s1.vehicles.get? b.key = some b.vehicle :=
    hb.right.elim (fun h => h.1.choose_spec.2.veh) fun h => h.1.choose_spec.2.veh
  obtain ⟨v, hv⟩ := hr.back (getVeh_ok.1 hv')
  obtain ⟨v1', v2, v4, ht⟩ := hr.trace hv
  have g1 := ht.get1
  rw [hbv] at g1; cases g1
  obtain ⟨-, ea, -⟩ := ht.vel (getVeh_ok.1 hv')
  rw [ea]
  have hc1 : c ∈ s1.conflicts := by
    rcases hr.lanes with ⟨-, e⟩ | ⟨-, vs, lcs, hl⟩
    · rw [e]; exact hc
    · rw [show s1.conflicts = s.conflicts by rw [hl.eq]]; exact hc
  rcases ht.acc with ⟨hlt, -⟩ | ⟨-, n0, n1, vs, har, ha⟩
  · rw [hr.clocks.1] at hlt; exact absurd hlt hre
  by_cases hf : b.key ∈ s1.frozen
  · left
    obtain ⟨x, w, ev2, -, hz, -⟩ := ha.eq
    rw [ev2]
    exact hz hf
  · right
    obtain ⟨w, as, x, hw, hx, ew⟩ := har.conflict hr.inv1.mid hc1 hne ho hb hf
    have g2 := ht.get2
    rw [hr.vehicles3, hw] at g2; cases g2
    exact ⟨as, hx, by rw [ew]⟩

end

/-! ## An example -/

/-- One vehicle on each link, found by the searches. -/
theorem rightBehind_of_found [Env] {strict : Prop} {s : Sim F} (hs : SimMid strict s) {n : Net F} (hp : Prepared s n) {x y : RelVeh F}
    (hx : c.link0.findVehicles n [] = .ok [x]) (hy : c.link1.findVehicles n [] = .ok [y])
    (h1 : x.posFront ≤ x.posFront) (h2 : y.posFront ≤ y.posFront) (h3 : y.posFront ≤ x.posFront) (h4 : ¬ x.posFront ≤ y.posFront) :
    FrontsOrdered (EnteredBy s.vehicles) s.links s.vehicles c ∧ ∃ a b, b.key = y.key ∧ b.pos = y.pos ∧
      RightBehind (EnteredBy s.vehicles) s.links s.vehicles c a b := by
  obtain ⟨nx, ex, fx⟩ := findVehicles_iff hx
  obtain ⟨ny, ey, fy⟩ := findVehicles_iff hy
  rw [List.nil_append] at ex ey
  subst ex; subst ey
  have hact : ∀ k, EnteredBy s.vehicles k ↔ Active n.links k := by
    intro k
    constructor
    · rintro ⟨j, v, hv, hk⟩
      obtain ⟨l, hl⟩ := get_of_contains ((hs.veh j v hv).drivable.valid k (List.mem_of_mem_take hk))
      obtain ⟨l0, hl0, x, rfl, hx⟩ := hp.links.fwd k l hl
      exact ⟨_, hl0, hx.2 ⟨j, v, hv, hk⟩⟩
    · rintro ⟨l0, hl0, hact⟩
      obtain ⟨l, hl, x, rfl, hx⟩ := hp.links.bwd hl0
      exact hx.1 hact
  have hlinks : SRel (fun _ => LinkSees) s.links n.links :=
    SRel.mono hp.links fun j l l' ⟨b, h, _⟩ => by rw [h]; exact ⟨rfl, rfl, rfl, rfl⟩
  have hvehs : SRel (fun _ => VehSame) s.vehicles n.vehicles :=
    SRel.mono hp.vehicles fun j v v' h => ⟨v.acc.maxAcc, v.willQueueOrEnter, h⟩
  obtain ⟨va, ga, ⟨xa, ya, ea⟩, na⟩ := ((fx x).1 (by simp)).same' (fun _ _ => VehSame.sees) (fun k => (hact k).2) hlinks hvehs.alike
  obtain ⟨vb, gb, ⟨xb, yb, eb⟩, nb⟩ := ((fy y).1 (by simp)).same' (fun _ _ => VehSame.sees) (fun k => (hact k).2) hlinks hvehs.alike
  have fa : RelVeh.posFront { x with vehicle := va } = x.posFront := by simp only [RelVeh.posFront, ea]; rfl
  have fb : RelVeh.posFront { y with vehicle := vb } = y.posFront := by simp only [RelVeh.posFront, eb]; rfl
  have hall : ∀ r, NearPoint (EnteredBy s.vehicles) s.links s.vehicles c r →
      r = { x with vehicle := va } ∨ r = { y with vehicle := vb } := by
    rintro ⟨rk, rv, ri, rp⟩ (hr | hr)
    · have hrv := hr.1.choose_spec.2.veh
      obtain ⟨v', -, -, hr'⟩ := hr.same (fun _ _ => VehSame.sees) (fun k => (hact k).1) hlinks hvehs.alike
      have := (fx _).2 hr'
      rw [List.mem_singleton] at this
      subst this
      left
      dsimp only at hrv ga ⊢
      rw [hrv] at ga; cases ga; rfl
    · have hrv := hr.1.choose_spec.2.veh
      obtain ⟨v', -, -, hr'⟩ := hr.same (fun _ _ => VehSame.sees) (fun k => (hact k).1) hlinks hvehs.alike
      have := (fy _).2 hr'
      rw [List.mem_singleton] at this
      subst this
      right
      dsimp only at hrv gb ⊢
      rw [hrv] at gb; cases gb; rfl
  refine ⟨⟨fun p q hp hq => ?_, fun p q r hp hq hr => ?_⟩, { x with vehicle := va }, { y with vehicle := vb }, rfl, rfl, ⟨.inl ⟨na, nb⟩, by rw [fa, fb]; exact h4,
    fun r hr => (hall r hr).imp id .inl⟩⟩
  · rcases hall p hp with rfl | rfl <;> rcases hall q hq with rfl | rfl <;> simp only [fa, fb]
    · exact .inl h1
    · exact .inr h3
    · exact .inl h3
    · exact .inl h2
  · rcases hall p hp with rfl | rfl <;> rcases hall q hq with rfl | rfl <;> rcases hall r hr with rfl | rfl <;>
      simp only [fa, fb] <;> tauto

end

section
attribute [local instance] Town.env

namespace Meeting

open Town (street car)

/-- Two roads that cross, and a car on each. -/
def ops : List (Op Float) :=
  [.addLink ⟨street (-3.0) 0.0 1.0 0.0 5.0, 10.0⟩, .addLink ⟨street 0.0 (-4.0) 0.0 1.0 6.0, 10.0⟩,
   .addLinkConvergance ⟨0, 1⟩ ⟨1, 1⟩, .addVehicle car ⟨0, 1⟩, .addVehicle car ⟨1, 1⟩, .step 0.3]

def test (s s' : Sim Float) : Bool :=
  decide (¬ s.accUpdate < 0.1) && (s'.vehicles.get? ⟨1, 1⟩).isSome && match s.calculateLaneChanges with
  | .ok s1 => match s1.prepareNet, s.conflicts with
    | .ok n, [c] => c.link0.linkId != c.link1.linkId && match c.link0.findVehicles n [], c.link1.findVehicles n [] with
      | .ok [x], .ok [y] => y.key == ⟨1, 1⟩ && decide (x.posFront ≤ x.posFront) && decide (y.posFront ≤ y.posFront) &&
        decide (y.posFront ≤ x.posFront) && decide (¬ x.posFront ≤ y.posFront)
      | _, _ => false
    | _, _ => false
  | .error _ => false

theorem meet : ∃ s s' : Sim Float, Reach True s ∧ Allowed True s (.step 0.3) ∧ s.exec (.step 0.3) = .ok s' ∧
    Reach True s' ∧ test s s' = true :=
  trial_reach (ops := ops) (by decide +kernel)

end Meeting

/-- A car right behind one on the other road. -/
example : ∃ (s s' s1 : Sim Float) (c : ConflictPoint Float) (a b : RelVeh Float) (v' : Vehicle Float), Reach True s ∧
    s.step 0.3 = .ok s' ∧ ¬ s.accUpdate < 0.1 ∧ s.calculateLaneChanges = .ok s1 ∧ c ∈ s.conflicts ∧
    c.link0.linkId ≠ c.link1.linkId ∧ FrontsOrdered (EnteredBy s1.vehicles) s1.links s1.vehicles c ∧
    RightBehind (EnteredBy s1.vehicles) s1.links s1.vehicles c a b ∧ s'.getVehicle b.key = .ok v' := by
  obtain ⟨s, s', h1, -, h2, -, h3⟩ := Meeting.meet
  have := Search.lawful 400
  have hst : s.step 0.3 = .ok s' := h2
  obtain ⟨s1', s2, s3, s4, s5, s6, hr⟩ := (step_spec h1.inv 0.3).ok hst
  unfold Meeting.test at h3
  rw [hr.run1] at h3
  simp only [Bool.and_eq_true, decide_eq_true_eq, and_assoc] at h3
  obtain ⟨h3, h4, h5⟩ := h3
  obtain ⟨v', hv'⟩ := Option.isSome_iff_exists.1 h4
  split at h5
  · rename_i n c hn hc
    rw [Bool.and_eq_true] at h5
    obtain ⟨h5, h6⟩ := h5
    split at h6
    · rename_i x y hx hy
      simp only [Bool.and_eq_true, decide_eq_true_eq, beq_iff_eq, and_assoc] at h6
      obtain ⟨e, g1, g2, g3, g4⟩ := h6
      have hp : Prepared s1' n := (prepareNet_spec (E := fun _ => True) fun k v hv => (hr.inv1.veh k v hv).drivable.valid).ok hn
      obtain ⟨ho, a, b, eb, -, hb⟩ := rightBehind_of_found hr.inv1.mid hp hx hy g1 g2 g3 g4
      exact ⟨s, s', s1', c, a, b, v', h1, hst, h3, hr.run1, by rw [hc]; simp, by simpa using h5, ho, hb, by
        rw [eb, e]; exact getVeh_ok.2 hv'⟩
    · cases h6
  · cases h5

end

section
variable {strict : Prop} {s s' s1 : Sim ℝ} {dt : ℝ} {c : ConflictPoint ℝ} {a b : RelVeh ℝ} {v' : Vehicle ℝ}

theorem frontsOrdered_real (act : Key → Prop) (links : LinkSet ℝ) (vs : VehicleSet ℝ) (c : ConflictPoint ℝ) :
    FrontsOrdered act links vs c :=
  ⟨fun _ _ _ _ => le_total _ _, fun _ _ _ _ _ _ => le_trans⟩

/-- **C55** (exact arithmetic) The vehicle of `b` is near a conflict point, right behind that of `a` on the other link.
If the links run in different directions, or `a` is not past the start of the conflict region with its rear, then `b`
accelerates no more than it would with nothing but a stationary obstacle at the start of the region ahead of it;
otherwise no more than it would with nothing but `a` ahead of it. -/
theorem C55_slowed_exact [Env] [LawfulDijkstra] (h : Reach strict s) (hst : s.step dt = .ok s') (hre : ¬ s.accUpdate < 0.1)
    (hlanes : s.calculateLaneChanges = .ok s1) (hc : c ∈ s.conflicts) (hne : c.link0.linkId ≠ c.link1.linkId)
    (hb : RightBehind (EnteredBy s1.vehicles) s1.links s1.vehicles c a b) (hv' : s'.getVehicle b.key = .ok v') :
    (¬ (c.sameDir = true ∧ 0 < a.posRear) → v'.acc.getAcc ≤ followAcc b.vehicle.acc (- b.posFront) b.vehicle.vel 0) ∧
    (c.sameDir = true ∧ 0 < a.posRear → v'.acc.getAcc ≤ followAcc b.vehicle.acc
      (min (b.vehicle.worldDir.dot (a.vehicle.rearCoords.1.sub b.vehicle.worldPos))
        (b.vehicle.worldDir.dot (a.vehicle.rearCoords.2.sub b.vehicle.worldPos)) - b.vehicle.halfLen)
      b.vehicle.vel a.vehicle.vel) := by
  have key : v'.acc.getAcc ≤ max (min b.vehicle.acc.maxAcc (conflictAcc c a b)) (-6) := by
    have : v'.acc.acc ≤ max (min b.vehicle.acc.maxAcc (conflictAcc c a b)) (-6) := by
      rcases C55_slowed h hst hre hlanes hc hne (frontsOrdered_real ..) hb hv' with e | ⟨as, hx, e⟩
      · rw [e]; exact le_trans (by norm_num) (le_max_right _ _)
      · rw [e]
        exact le_trans (le_min (foldl_min_le as _).1 ((foldl_min_le as _).2 _ hx)) (le_max_left _ _)
    refine max_le this (le_trans ?_ (le_max_right _ _))
    simp only [maxDecel]; norm_num
  rw [followAcc_eq, followAcc_eq]
  unfold conflictAcc at key
  constructor
  · intro hn
    rw [if_neg (by norm_num; intro h; by_contra h'; exact hn ⟨h, by simpa using h'⟩)] at key
    have e : (b.pos + 0.0 - b.vehicle.posFront : ℝ) = - b.posFront := by rw [RelVeh.posFront]; norm_num
    rw [e] at key
    norm_num at key ⊢
    exact key
  · rintro ⟨h1, h2⟩
    rw [if_pos (by rw [h1]; norm_num; exact h2)] at key
    exact key

/-- **C55** (exact arithmetic) If every entry of a vehicle near a conflict point is ahead of every entry near it on the
other link, the conflict point does nothing to the vehicle. -/
theorem C55_first [Env] {links : LinkSet ℝ} {vs vs' : VehicleSet ℝ} (h : c.applyAccelerations links vs = .ok vs') {k : Key}
    (hk : ∀ a b : RelVeh ℝ, b.key = k →
      (Nears (Active links) links vs c.link0 a ∧ Nears (Active links) links vs c.link1 b ∨
        Nears (Active links) links vs c.link1 a ∧ Nears (Active links) links vs c.link0 b) → a.posFront < b.posFront) :
    vs'.get? k = vs.get? k := by
  rcases C55_behind h k with h | ⟨a, b, e, hn, ho⟩
  · exact h
  · have := hk a b e hn
    rcases ho with ho | ho
    · exact absurd this (not_lt.2 ho)
    · exact absurd this.le ho

end

end TrafficSim
