import Verif.Props.Line
import Verif.Props.Gap
import Verif.Props.Small
import Verif.Lemmas.CrossingLate

/-! # C87: vehicles that may go on do so -/

namespace TrafficSim

section
variable {F : Type} [Flt F] {strict : Prop}

/-! ## The search for gaps -/

/-- `kv` is the vehicle on the link by which the search for a gap is decided: the first one on the way to the link `k0`, `i` links ahead, not
counting those ahead of the first one that is not past the position `far`. -/
structure Decisive (vs : VehicleSet F) (l : Link F) (i : Nat) (k0 : Key) (far : F) (kv : Key) (v : Vehicle F) : Prop where
  ex : ∃ pre₁ pre₂ post, l.vehicles.reverse = pre₁ ++ (pre₂ ++ kv :: post) ∧
    (∀ j ∈ pre₁, ∀ w, vs.get? j = some w → far < w.posRear) ∧
    (∀ j ∈ pre₂, ∀ w, vs.get? j = some w → w.route[i]? ≠ some k0) ∧
    ∀ j, (pre₂ ++ [kv]).head? = some j → ∀ w, vs.get? j = some w → ¬ far < w.posRear
  veh : vs.get? kv = some v
  route : v.route[i]? = some k0

theorem skipAhead_ok {vs : VehicleSet F} {far : F} : ∀ {ks ks' : List Key}, Link.skipAhead vs far ks = .ok ks' →
    ∃ pre, ks = pre ++ ks' ∧ (∀ j ∈ pre, ∀ w, vs.get? j = some w → far < w.posRear) ∧
      ∀ j, ks'.head? = some j → ∀ w, vs.get? j = some w → ¬ far < w.posRear
  | [], ks', h => by
    simp only [Link.skipAhead, M_pure_ok] at h
    subst h
    exact ⟨[], rfl, nofun, nofun⟩
  | k :: ks, ks', h => by
    unfold Link.skipAhead at h
    simp only [M_bind_ok, getVeh_ok] at h
    obtain ⟨v, hv, h⟩ := h
    split at h
    · rename_i hlt
      obtain ⟨pre, rfl, h1, h2⟩ := skipAhead_ok h
      refine ⟨k :: pre, rfl, fun j hj w hw => ?_, h2⟩
      rcases List.mem_cons.1 hj with rfl | hj
      · rw [hv] at hw; cases hw; exact hlt
      · exact h1 j hj w hw
    · rename_i hlt
      rw [M_pure_ok] at h
      subst h
      refine ⟨[], rfl, nofun, fun j hj w hw => ?_⟩
      cases hj
      rw [hv] at hw; cases hw; exact hlt

/-- How the search on a link is decided. -/
def GapOutcome (vs : VehicleSet F) (pos time mv : F) (q : Option Nat) (i : Nat) (k0 : Key) (ks : List Key) : Option Bool → Prop
    | none => ∀ j ∈ ks, ∀ w, vs.get? j = some w → w.route[i]? ≠ some k0
    | some true => True
    | some false => ∃ pre kv post v st, ks = pre ++ kv :: post ∧ (∀ j ∈ pre, ∀ w, vs.get? j = some w → w.route[i]? ≠ some k0) ∧
        vs.get? kv = some v ∧ v.getRoute i = some (k0, st) ∧ ¬ (st = .notEntered ∧ ∃ f, q = some f) ∧
        (∀ a f, st = .queuedAt a → q = some f → a ≤ f) ∧ ¬ time < v.minReachTime pos mv

theorem checkGapList_ok {vs : VehicleSet F} {pos time mv : F} {q : Option Nat} {i : Nat} {k0 : Key} : ∀ {ks : List Key} {b : Option Bool},
    Link.checkGapList vs pos time q (i, k0) mv ks = .ok b → GapOutcome vs pos time mv q i k0 ks b
  | [], b, h => by
    simp only [Link.checkGapList, M_pure_ok] at h
    subst h
    exact nofun
  | k :: ks, b, h => by
    have skip : (∀ w, vs.get? k = some w → w.route[i]? ≠ some k0) →
        Link.checkGapList vs pos time q (i, k0) mv ks = .ok b → GapOutcome vs pos time mv q i k0 (k :: ks) b := fun hn h => by
      have ih := checkGapList_ok h
      cases b with
      | none =>
        intro j hj w hw
        rcases List.mem_cons.1 hj with rfl | hj
        · exact hn w hw
        · exact ih j hj w hw
      | some b =>
        cases b with
        | true => trivial
        | false =>
          obtain ⟨pre, kv, post, v, st, rfl, h1, h2⟩ := ih
          refine ⟨k :: pre, kv, post, v, st, rfl, fun j hj w hw => ?_, h2⟩
          rcases List.mem_cons.1 hj with rfl | hj
          · exact hn w hw
          · exact h1 j hj w hw
    unfold Link.checkGapList at h
    simp only [M_bind_ok, getVeh_ok] at h
    obtain ⟨v, hv, h⟩ := h
    have none_ : v.route[i]? ≠ some k0 → ∀ w, vs.get? k = some w → w.route[i]? ≠ some k0 := by
      intro hn w hw
      rw [hv] at hw; cases hw; exact hn
    cases hg : v.getRoute i with
    | none =>
      rw [hg] at h
      refine skip (none_ fun e => ?_) h
      obtain ⟨st, e'⟩ := getRoute_iff.2 e
      rw [hg] at e'; cases e'
    | some x =>
      obtain ⟨k', st⟩ := x
      rw [hg] at h
      dsimp only at h
      split at h
      · rename_i hne
        refine skip (none_ fun e => ?_) h
        rw [(getRoute_link hg).1] at e
        exact hne (Option.some.inj e)
      · rename_i hk
        have hk : k' = k0 := not_not.1 hk
        subst hk
        split at h
        · rw [M_pure_ok] at h; subst h; trivial
        · split at h
          · rw [M_pure_ok] at h; subst h; trivial
          · rename_i a f hlt
            rw [M_pure_ok] at h; subst h
            by_cases hm : time < v.minReachTime pos mv
            · rw [decide_eq_true hm]; trivial
            · rw [decide_eq_false hm]
              exact ⟨[], k, ks, v, _, rfl, nofun, hv, hg, fun h => (by cases h.1), fun a' f' h1 h2 => by cases h1; cases h2; omega, hm⟩
        · rename_i h1 h2
          rw [M_pure_ok] at h; subst h
          by_cases hm : time < v.minReachTime pos mv
          · rw [decide_eq_true hm]; trivial
          · rw [decide_eq_false hm]
            refine ⟨[], k, ks, v, _, rfl, nofun, hv, hg, ?_, fun a f e1 e2 => absurd e2 (h2 a f e1), hm⟩
            rintro ⟨rfl, f, rfl⟩
            exact h1 f rfl rfl

theorem allM_false {α : Type} {f : α → M Bool} : ∀ {l : List α}, Link.allM f l = .ok false → ∃ a ∈ l, f a = .ok false
  | [], h => by simp [Link.allM] at h
  | a :: l, h => by
    unfold Link.allM at h
    rw [M_bind_ok] at h
    obtain ⟨x, hx, h⟩ := h
    cases x with
    | false => exact ⟨a, by simp, hx⟩
    | true =>
      rw [if_pos rfl] at h
      obtain ⟨b, hb, h⟩ := allM_false h
      exact ⟨b, by simp [hb], h⟩

/-- The answer that there is no gap is due to a vehicle that arrives too early. -/
theorem checkGap_false {n : Net F} {time : F} {q : Option Nat} {k0 : Key} : ∀ {fuel : Nat} {i : Nat} {k : Key} {pos far : F} {l : Link F}
    {mv0 : F}, n.links.get? k = some l → Link.checkGap n time q fuel l (pos, far) (i, k0) mv0 = .ok false →
    ∃ i' k' pos' far' mv' l' kv v st, Approach n.links n.vehicles time k0 i k pos far (fmax mv0 l.speedLimit) i' k' pos' far' mv' ∧
      n.links.get? k' = some l' ∧ Decisive n.vehicles l' i' k0 far' kv v ∧ v.getRoute i' = some (k0, st) ∧
      ¬ (st = .notEntered ∧ ∃ f, q = some f) ∧ (∀ a f, st = .queuedAt a → q = some f → a ≤ f) ∧ ¬ time < v.minReachTime pos' mv' := by
  intro fuel
  induction fuel with
  | zero => intro i k pos far l mv0 _ h; simp [Link.checkGap] at h
  | succ fuel ih =>
    intro i k pos far l mv0 hl h
    unfold Link.checkGap at h
    dsimp only at h
    rw [M_bind_ok] at h
    obtain ⟨ks, hks, h⟩ := h
    rw [M_bind_ok] at h
    obtain ⟨b, hb, h⟩ := h
    obtain ⟨pre₁, e, h1, h2⟩ := skipAhead_ok hks
    have hb' := checkGapList_ok hb
    cases b with
    | some b =>
      simp only [M_pure_ok] at h
      subst h
      obtain ⟨pre₂, kv, post, v, st, rfl, h3, h4, h5, h6⟩ := hb'
      refine ⟨i, k, pos, far, _, l, kv, v, st, .here, hl, ⟨⟨pre₁, pre₂, post, e, h1, h3, fun j hj => h2 j ?_⟩, h4, (getRoute_link h5).1⟩, h5, h6⟩
      rw [← hj]
      cases pre₂ <;> rfl
    | none =>
      dsimp only at h
      split at h
      · simp at h
      · rename_i hcut
        obtain ⟨j, hj, h⟩ := allM_false h
        simp only [M_bind_ok, getLink_ok] at h
        obtain ⟨lj, hlj, h⟩ := h
        obtain ⟨i', k', pos', far', mv', l', kv, v, st, ha, h'⟩ := ih hlj h
        exact ⟨i', k', pos', far', mv', l', kv, v, st, .up hl ⟨pre₁, ks, e, h1, hb'⟩ hcut hj hlj ha, h'⟩

/-- The same with the order of precedence, where no vehicle has queue number 0. -/
theorem checkGap_blocked {n : Net F} {time : F} {f : Nat} {pr : Int} {k0 : Key} {fuel : Nat} {l : Link F} {pos far : F}
    (hq : ∀ k v, n.vehicles.get? k = some v → v.queued ≠ some 0) (hl : n.links.get? k0 = some l)
    (h : Link.checkGap n time (Link.gapPriority l.control f pr) fuel l (pos, far) (0, k0) 0.0 = .ok false) :
    ∃ i' k' pos' far' mv' l' kv v, Approach n.links n.vehicles time k0 0 k0 pos far (fmax 0.0 l.speedLimit) i' k' pos' far' mv' ∧
      n.links.get? k' = some l' ∧ Decisive n.vehicles l' i' k0 far' kv v ∧ Precedes l.control f pr v i' ∧
      ¬ time < v.minReachTime pos' mv' := by
  obtain ⟨i', k', pos', far', mv', l', kv, v, st, h1, h2, h3, h4, h5, h6, h7⟩ := checkGap_false hl h
  refine ⟨i', k', pos', far', mv', l', kv, v, h1, h2, h3, ?_, h7⟩
  have hst : st = .entered → i' < v.entered := (getRoute_link h4).2.1
  have hqa : ∀ a, st = .queuedAt a → v.entered = i' ∧ v.queued = some a := by
    rintro a rfl
    unfold Vehicle.getRoute at h4
    rw [h3.route] at h4
    simp only [Option.map_some, Option.some.injEq, Prod.mk.injEq, true_and] at h4
    split at h4
    · cases h4
    · split at h4
      · rename_i he
        split at h4
        · rename_i g hg; cases h4; exact ⟨he, hg⟩
        · cases h4
      · cases h4
  unfold Precedes
  cases st with
  | entered => exact .inl (hst rfl)
  | notEntered =>
    right
    cases hc : l.control with
    | open_ => trivial
    | yield_ d m p2 =>
      left
      by_contra hn
      refine h5 ⟨rfl, ?_⟩
      unfold Link.gapPriority
      rw [hc]
      dsimp only
      rw [if_neg hn]
      split <;> exact ⟨_, rfl⟩
    | closed =>
      refine h5 ⟨rfl, 0, ?_⟩
      unfold Link.gapPriority
      rw [hc]
  | queuedAt a =>
    right
    obtain ⟨he, ha⟩ := hqa a rfl
    have hne : a ≠ 0 := by
      rintro rfl
      exact hq kv v h3.veh ha
    unfold Link.gapPriority at h6
    cases hc : l.control with
    | open_ => trivial
    | yield_ d m p2 =>
      rw [hc] at h6
      dsimp only at h6 ⊢
      by_cases hlt : pr < p2
      · exact .inl hlt
      · rw [if_neg hlt] at h6
        by_cases e : pr = p2
        · rw [if_pos e] at h6
          exact .inr ⟨e, he, a, ha, h6 a f rfl rfl⟩
        · rw [if_neg e] at h6
          have := h6 a 0 rfl rfl
          omega
    | closed =>
      rw [hc] at h6
      have := h6 a 0 rfl rfl
      omega

/-! ## Decisions -/

/-- What the stop lines do, if the state differs from `n` only in irrelevant fields: vehicles are slowed down or given a decision. -/
def Firm (n s s' : Net F) : Prop := NetSame n s → NetAcc (fun _ w => w ≠ 0) s s'

/-- The same, and the vehicle `k` is given a decision. -/
def Decides (n : Net F) (k : Key) (s s' : Net F) : Prop :=
  NetSame n s → NetSame n s' ∧ ∀ u, s'.vehicles.get? k = some u → u.willQueueOrEnter ≠ 0

theorem Firm.rfl' (n s : Net F) : Firm n s s := fun _ => NetAcc.rfl'

theorem Firm.trans (n s s' s'' : Net F) (h : Firm n s s') (h' : Firm n s' s'') : Firm n s s'' := fun hs =>
  (h hs).trans (h' (hs.trans (h hs).same))

theorem Firm.decides (n : Net F) (k : Key) (s s' s'' : Net F) (h : Firm n s s') (h' : Decides n k s' s'') : Decides n k s s'' := fun hs =>
  h' (hs.trans (h hs).same)

theorem NetAcc.decided {k : Key} {s s' : Net F} (h : NetAcc (fun _ w => w ≠ 0) s s')
    (h0 : ∀ u, s.vehicles.get? k = some u → u.willQueueOrEnter ≠ 0) : ∀ u, s'.vehicles.get? k = some u → u.willQueueOrEnter ≠ 0 := by
  intro u hu
  obtain ⟨u0, hu0, as, w, rfl, hw⟩ := h.vehicles.bwd hu
  rcases hw with hw | hw
  · dsimp only; rw [hw]; exact h0 u0 hu0
  · exact hw

theorem Decides.firm (n : Net F) (k : Key) (s s' s'' : Net F) (h : Decides n k s s') (h' : Firm n s' s'') : Decides n k s s'' := fun hs =>
  ⟨(h hs).1.trans (h' (h hs).1).same, (h' (h hs).1).decided (h hs).2⟩

theorem stoplineFn_firm [Env] {n : Net F} (hlast : ∀ k l, n.links.get? k = some l → l.lastConflict ≤ l.conflicts.length) {l : Link F}
    (r : RelVeh F) (s : Net F) (p : Net F × Bool) (h : Link.stoplineFn n l r s = .ok p) : Firm n s p.1 := by
  intro hs
  have slow : ∀ {s' : Net F} (f : Vehicle F → Vehicle F), NetAcc (fun _ w => w ≠ 0) s s' →
      (∀ v v', VehAcc (fun _ w => w ≠ 0) r.key v v' → VehAcc (fun _ w => w ≠ 0) r.key v (f v')) →
      NetAcc (fun _ w => w ≠ 0) s ⟨s'.links, s'.vehicles.modify r.key f⟩ := fun f h hf =>
    ⟨h.links, SRel.modify h.vehicles r.key f fun _ _ _ _ hr => hf _ _ hr⟩
  unfold Link.stoplineFn at h
  split at h
  · rw [M_pure_ok] at h; subst h; exact NetAcc.rfl'
  · rw [M_bind_ok] at h
    obtain ⟨next, hnext, h⟩ := h
    rw [getLink_ok] at hnext
    split at h
    · split at h
      · rw [M_pure_ok] at h; subst h
        exact slow _ NetAcc.rfl' fun v v' hv => hv.decide (by decide)
      · rw [M_pure_ok] at h; subst h; exact NetAcc.rfl'
    · split at h
      · rw [M_pure_ok] at h; subst h
        have hq : ∀ b : Bool, NetAcc (fun _ w => w ≠ 0) s ⟨s.links, if b = true then r.queueLink s.vehicles else s.vehicles⟩ := fun b => by
          split
          · exact slow _ NetAcc.rfl' fun v v' hv => hv.decide (by decide)
          · exact NetAcc.rfl'
        exact slow _ (hq _) fun v v' hv => hv.stopAtLine _
      · rw [M_bind_ok] at h
        obtain ⟨cur, hcur, h⟩ := h
        rw [getLink_ok] at hcur
        obtain ⟨next', hnext', c, rfl, hc⟩ := hs.links.bwd hcur
        rw [hnext] at hnext'; cases hnext'
        rw [M_bind_ok] at h
        obtain ⟨⟨ok, last⟩, hce, h⟩ := h
        obtain ⟨hle, -⟩ := canEnter_ok (hc (hlast _ _ hnext)) hce
        have hl : NetAcc (fun _ w => w ≠ 0) s ⟨s.links.modify _ fun l => { l with lastConflict := last }, s.vehicles⟩ :=
          ⟨SRel.modify (SRel.refl fun _ _ _ => LinkSame.rfl') _ _ fun l l' h1 h2 h3 => by
            rw [hcur] at h1 h2; cases h1; cases h2
            exact ⟨last, rfl, fun _ => hle⟩, SRel.refl fun _ _ _ => VehAcc.rfl'⟩
        dsimp only at h
        split at h
        · rw [M_pure_ok] at h; subst h
          exact slow _ hl fun v v' hv => hv.decide (by decide)
        · rw [M_pure_ok] at h; subst h
          exact slow _ hl fun v v' hv => hv.stopAtLine _
      · cases h
    · rw [M_pure_ok] at h; subst h
      exact slow _ NetAcc.rfl' fun v v' hv => hv.stopAtLine _
  · split at h
    · rw [M_pure_ok] at h; subst h; exact NetAcc.rfl'
    · rw [M_pure_ok] at h; subst h
      exact slow _ NetAcc.rfl' fun v v' hv => hv.stopAtLine _

/-- The vehicle `v` may go on to the link `next` after the last one that it has entered, whose end is at position `pos`: the next
link is open and it cannot stop comfortably five metres before the line; or it must give way there and may queue, being near enough and
having stopped if it must; or it has queued, and at each conflict, on each way upstream, the vehicle that matters does not go first or arrives
after it has passed and 0.5 s more.  `length` is the length of the last link that it has entered. -/
inductive MayGo (s : Sim F) (v : Vehicle F) (pos length : F) (next : Link F) : Prop
  | rolls : next.control = .open_ → v.canStop (pos + -5.0) = false → MayGo s v pos length next
  | queues {d : F} {m : Bool} {pr : Int} : next.control = .yield_ d m pr → v.queued = none → -d < v.posFront - pos → (m = true → v.vel < 0.1) →
      MayGo s v pos length next
  | enters {d : F} {m : Bool} {pr : Int} {f : Nat} : next.control = .yield_ d m pr → v.queued = some f →
      (∀ c ∈ next.conflicts, ∀ lc, s.links.get? c.linkId = some lc → ∀ i' k' pos' far mv l' kw w,
        Approach s.links s.vehicles (v.minReachTime (pos + length + c.ownMaxPos) next.speedLimit + 0.5) c.linkId
          0 c.linkId c.minPos c.maxPos (fmax 0.0 lc.speedLimit) i' k' pos' far mv →
        s.links.get? k' = some l' → Decisive s.vehicles l' i' c.linkId far kw w → Precedes lc.control f pr w i' →
        v.minReachTime (pos + length + c.ownMaxPos) next.speedLimit + 0.5 < w.minReachTime pos' mv) → MayGo s v pos length next

theorem Approach.unsame {links links' : LinkSet F} {vs vs' : VehicleSet F} (hL : SameLinks links links') (hV : SameVehs vs vs')
    {time : F} {k0 : Key} {i i' : Nat} {k k' : Key} {pos far mv pos' far' mv' : F}
    (h : Approach links' vs' time k0 i k pos far mv i' k' pos' far' mv') :
    Approach links vs time k0 i k pos far mv i' k' pos' far' mv' := by
  induction h with
  | here => exact .here
  | @up i i' k k' j pos far mv pos' far' mv' l lj hl hnn hcut hj hlj _ ih =>
    obtain ⟨l', hl', b, c, e⟩ := hL.bwd hl
    obtain ⟨lj', hlj', b', c', e'⟩ := hL.bwd hlj
    have hl : lj.length = lj'.length := by rw [e']; rfl
    have hs : lj.speedLimit = lj'.speedLimit := by rw [e']
    rw [hl, hs] at ih
    refine .up (lj := lj') hl' ?_ hcut (by rw [e] at hj; exact hj) hlj' ih
    obtain ⟨p1, p2, h1, h2, h3⟩ := hnn
    refine ⟨p1, p2, by rw [← h1, e], fun a ha w hw => ?_, fun a ha w hw => ?_⟩
    · obtain ⟨w', hw', x, y, rfl⟩ := hV.fwd a w hw
      have := h2 a ha _ hw'; exact this
    · obtain ⟨w', hw', x, y, rfl⟩ := hV.fwd a w hw
      have := h3 a ha _ hw'; exact this

theorem Decisive.unsame {vs vs' : VehicleSet F} (hV : SameVehs vs vs') {l l' : Link F} (hl : l'.vehicles = l.vehicles) {i : Nat} {k0 : Key}
    {far : F} {kv : Key} {v' : Vehicle F} (h : Decisive vs' l' i k0 far kv v') :
    ∃ v, VehSame v.reset v' ∧ Decisive vs l i k0 far kv v := by
  obtain ⟨v, hv, hs⟩ := hV.bwd h.veh
  refine ⟨v, hs, ?_, hv, ?_⟩
  · obtain ⟨p1, p2, post, h1, h2, h3, h4⟩ := h.ex
    refine ⟨p1, p2, post, by rw [← h1, hl], fun a ha w hw => ?_, fun a ha w hw => ?_, fun a ha w hw => ?_⟩
    · obtain ⟨w', hw', x, y, rfl⟩ := hV.fwd a w hw
      have := h2 a ha _ hw'; exact this
    · obtain ⟨w', hw', x, y, rfl⟩ := hV.fwd a w hw
      have := h3 a ha _ hw'; exact this
    · obtain ⟨w', hw', x, y, rfl⟩ := hV.fwd a w hw
      have := h4 a ha _ hw'; exact this
  · obtain ⟨x, y, rfl⟩ := hs
    exact h.route

/-- Where the vehicle may go on, this is decided when it is looked at. -/
theorem MayGo.decides [Env] {s : Sim F} {n : Net F} (hb : Before s n) (hq : ∀ k v, s.vehicles.get? k = some v → v.queued ≠ some 0)
    (hlast : ∀ k l, n.links.get? k = some l → l.lastConflict ≤ l.conflicts.length) {k j : Key} {v v1 : Vehicle F} {i : Nat} {pos : F}
    {l0 next : Link F} (hent : v.entered = i + 1) (hj : v.route[i + 1]? = some j) (hnext : s.links.get? j = some next)
    (h : MayGo s v pos l0.length next) (hv : VehSame v.reset v1) (m : Net F) (p : Net F × Bool)
    (hp : Link.stoplineFn n l0 ⟨k, v1, i, pos⟩ m = .ok p) : Decides n k m p.1 := by
  intro hm
  refine ⟨hm.trans (stoplineFn_firm hlast _ _ _ hp hm).same, fun u hu => ?_⟩
  obtain ⟨x, y, rfl⟩ := hv
  obtain ⟨next', hn', b, c, en, -⟩ := hb.links.fwd j next hnext
  have ec : next'.control = next.control := by rw [en]
  have decided : ∀ (vs : VehicleSet F) (w : Nat), w ≠ 0 → (vs.modify k fun v => { v with willQueueOrEnter := w }).get? k = some u →
      u.willQueueOrEnter ≠ 0 := by
    intro vs w hw hu
    rw [SlotMap.get?_modify_self, Option.map_eq_some_iff] at hu
    obtain ⟨u0, -, rfl⟩ := hu
    exact hw
  have e : v.getRoute (i + 1) = some (j, match v.queued with | some f => .queuedAt f | none => .notEntered) := by
    unfold Vehicle.getRoute
    rw [hj, Option.map_some, if_neg (by omega), if_pos hent]
    cases v.queued <;> rfl
  have e : RelVeh.getRoute ⟨k, { v.reset with acc := { v.reset.acc with acc := x }, willQueueOrEnter := y }, i, pos⟩ 1 =
    some (j, match v.queued with | some f => .queuedAt f | none => .notEntered) := e
  unfold Link.stoplineFn at hp
  rw [e] at hp
  cases h with
  | rolls hc hs =>
    have hs' : RelVeh.canStop ⟨k, { v.reset with acc := { v.reset.acc with acc := x }, willQueueOrEnter := y }, i, pos⟩ (-5.0) = false := hs
    cases hqv : v.queued with
    | none =>
      rw [hqv] at hp
      dsimp only at hp
      rw [M_bind_ok] at hp
      obtain ⟨nx, hnx, hp⟩ := hp
      rw [getLink_ok, hn'] at hnx; cases hnx
      simp only [ec, hc, hs', Bool.false_eq_true, not_false_eq_true, if_true, M_pure_ok] at hp
      subst hp
      exact decided _ _ (by decide) hu
    | some f =>
      rw [hqv] at hp
      dsimp only at hp
      rw [M_bind_ok] at hp
      obtain ⟨nx, hnx, hp⟩ := hp
      rw [getLink_ok, hn'] at hnx; cases hnx
      simp only [ec, hc, hs', Bool.false_eq_true, not_false_eq_true, if_true, M_pure_ok] at hp
      subst hp
      exact decided _ _ (by decide) hu
  | @queues d ms pr hc hqv hd hms =>
    rw [hqv] at hp
    dsimp only at hp
    rw [M_bind_ok] at hp
    obtain ⟨nx, hnx, hp⟩ := hp
    rw [getLink_ok, hn'] at hnx; cases hnx
    simp only [ec, hc, M_pure_ok] at hp
    have h1 : decide (-d < RelVeh.posFront ⟨k, { v.reset with acc := { v.reset.acc with acc := x }, willQueueOrEnter := y }, i, pos⟩) = true :=
      decide_eq_true hd
    have h2 : (!ms || Vehicle.hasStopped { v.reset with acc := { v.reset.acc with acc := x }, willQueueOrEnter := y }) = true := by
      cases ms
      · rfl
      · exact decide_eq_true (hms rfl)
    rw [h1, h2] at hp
    rw [← hp] at hu
    dsimp only [RelVeh.stopAtLine, RelVeh.queueLink] at hu
    rw [if_pos (by rfl), SlotMap.get?_modify_self, Option.map_eq_some_iff] at hu
    obtain ⟨u0, hu, rfl⟩ := hu
    rw [SlotMap.get?_modify_self, Option.map_eq_some_iff] at hu
    obtain ⟨u1, -, rfl⟩ := hu
    exact one_ne_zero
  | @enters d ms pr f hc hqv hgap =>
    rw [hqv] at hp
    dsimp only at hp
    rw [M_bind_ok] at hp
    obtain ⟨nx, hnx, hp⟩ := hp
    rw [getLink_ok, hn'] at hnx; cases hnx
    simp only [ec, hc] at hp
    rw [M_bind_ok] at hp
    obtain ⟨cur, hcur, hp⟩ := hp
    rw [getLink_ok] at hcur
    obtain ⟨cur', hcur', c', rfl, hcl⟩ := hm.links.bwd hcur
    rw [hn'] at hcur'; cases hcur'
    rw [M_bind_ok] at hp
    obtain ⟨⟨ok, last⟩, hce, hp⟩ := hp
    cases ok with
    | true =>
      simp only [if_true, M_pure_ok] at hp
      subst hp
      exact decided _ _ (by decide) hu
    | false =>
      exfalso
      have hle : c' ≤ next.conflicts.length := by rw [en] at hn' hcl; exact hcl (hlast _ _ hn')
      rw [en, canEnter_same] at hce
      obtain ⟨-, -, hbad⟩ := canEnter_ok hle hce
      obtain ⟨hlt, cf, lc, h1, h2, h3⟩ := hbad rfl
      have hL : SameLinks s.links n.links := SRel.mono hb.links fun _ l l' ⟨b, c, e, _⟩ => ⟨b, c, e⟩
      have hq' : ∀ k v, n.vehicles.get? k = some v → v.queued ≠ some 0 := by
        intro k w hw
        obtain ⟨w0, hw0, x, y, rfl⟩ := hb.vehicles.bwd hw
        exact hq k w0 hw0
      obtain ⟨i', k', pos', far', mv', l', kw, w, g1, g2, g3, g4, g5⟩ := checkGap_blocked hq' h2 h3
      obtain ⟨lc0, hlc0, b1, c1, e1, -⟩ := hb.links.bwd h2
      obtain ⟨l'0, hl'0, b2, c2, e2, -⟩ := hb.links.bwd g2
      obtain ⟨w0, hw0, g3'⟩ := g3.unsame (l := l'0) hb.vehicles (by rw [e2])
      have g1' := g1.unsame hL hb.vehicles
      refine g5 ?_
      have := hgap cf (List.mem_of_getElem? h1) lc0 hlc0 i' k' pos' far' mv' l'0 kw w0
        (by rw [e1] at g1'; exact g1') hl'0 g3' (by obtain ⟨x, y, rfl⟩ := hw0; rw [e1] at g4; exact g4)
      obtain ⟨x, y, rfl⟩ := hw0
      exact this

theorem AccRun.decides [Env] {s s' : Sim F} (hs : SimInv strict s)
    (hsym : ∀ a b la lb, s.links.get? a = some la → s.links.get? b = some lb → b ∈ la.linksOut → a ∈ lb.linksIn)
    (hq : ∀ k v, s.vehicles.get? k = some v → v.queued ≠ some 0)
    {n0 n1 : Net F} {vs : VehicleSet F} (hr : AccRun s n0 n1 vs s') {k k0 lk j : Key} {i : Nat} {pos : F} {l l0 next : Link F} {v : Vehicle F}
    (hv : s.vehicles.get? k = some v) (hent : v.entered = i + 1) (hfree : FreeTo s v i k0 i lk pos)
    (hl : s.links.get? lk = some l) {pre post : List Key} (hvs : l.vehicles = pre ++ k :: post)
    (hpost : ∀ a ∈ post, ∀ w, s.vehicles.get? a = some w → Passes s.links k0 i pos l w)
    (hnear : ¬ v.posFront < pos - maxLookahead * l.speedLimit) (hl0 : s.links.get? k0 = some l0) (hj : v.route[i + 1]? = some j)
    (hnext : s.links.get? j = some next) (hgo : MayGo s v pos l0.length next) :
    ∀ v', s'.vehicles.get? k = some v' → v'.willQueueOrEnter ≠ 0 := by
  have hN0 : NetInv strict n0.links := hs.net.frame hr.prep.frame
  have hok0 := hr.prep.netOK hs.mid
  obtain ⟨hk0, -, -, hlk, -⟩ := hfree.start
  obtain ⟨l00, hl00, -⟩ := hr.prep.links.fwd k0 l0 hl0
  obtain ⟨as, bs, hks⟩ := List.append_of_mem (SlotMap.mem_keys.2 ⟨l00, hl00⟩)
  have hrun := hr.runStop
  rw [hks, List.foldlM_append, M_bind_ok] at hrun
  obtain ⟨n, hn, hrun⟩ := hrun
  rw [List.foldlM_cons, M_bind_ok] at hrun
  obtain ⟨n', hn', hrun⟩ := hrun
  have hlast : ∀ m, NetAcc (Decided n0) n0 m → ∀ k l, m.links.get? k = some l → l.lastConflict ≤ l.conflicts.length := by
    intro m hm k l' hl'
    obtain ⟨l, hl, c, rfl, hc⟩ := (NetAcc.links hm).bwd hl'
    exact hc ((hN0.link k l hl).last)
  have fold : ∀ (ks : List Key) (n n' : Net F), ks ⊆ n0.links.keys → NetAcc (Decided n0) n0 n →
      ks.foldlM Link.applyStoplines n = .ok n' → NetAcc (Decided n0) n n' := by
    intro ks n n' hsub h0 h
    refine (Spec.foldlM (E := fun _ => True) (I := fun n' => NetAcc (Decided n0) n n') (fun n1 h1 k hk => ?_) NetAcc.rfl').ok h
    have h01 := NetAcc.trans h0 h1
    obtain ⟨l, hl⟩ := SlotMap.mem_keys.1 (hsub hk)
    refine (applyStoplines_spec (hok0.same (NetAcc.same h01)) (NetAcc.same h01) (hlast _ h01) trivial ?_).mono
      (fun n' h' => NetAcc.trans h1 h') (fun _ h => h)
    rw [(NetAcc.links h01).contains]; exact contains_of_get hl
  have s1 := fold as n0 n (fun a ha => by rw [hks]; simp [ha]) NetAcc.rfl' hn
  have s2 : NetAcc (Decided n0) n n' := fold [k0] n n' (fun a ha => by rw [hks]; simp at ha; simp [ha]) s1 (by
    rw [List.foldlM_cons, M_bind_ok]; exact ⟨n', hn', rfl⟩)
  have s3 := fold bs n' n1 (fun a ha => by rw [hks]; simp [ha]) (s1.trans s2) hrun
  have hdec : ∀ w, Decided n0 k w → w ≠ 0 := by
    rintro w ⟨m, -, hd⟩
    cases hd <;> decide
  have later : ∀ {D : Key → Nat → Prop} {vs vs' : VehicleSet F}, (∀ w, D k w → w ≠ 0) → SRel (VehAcc D) vs vs' →
      (∀ u, vs.get? k = some u → u.willQueueOrEnter ≠ 0) → ∀ u, vs'.get? k = some u → u.willQueueOrEnter ≠ 0 := by
    intro D vs vs' hD h h0 u hu
    obtain ⟨u0, hu0, as, w, rfl, hw⟩ := h.bwd hu
    rcases hw with hw | hw
    · dsimp only; rw [hw]; exact h0 u0 hu0
    · exact hD _ hw
  have hb : Before s n := by
    refine ⟨hr.prep.links.trans s1.links ?_, hr.prep.vehicles.trans s1.vehicles ?_⟩
    · rintro j l l' l'' ⟨b, rfl, hb⟩ ⟨c, rfl, -⟩
      exact ⟨b, c, rfl, hb⟩
    · rintro j v v' v'' rfl h
      exact h.same
  have main : ∀ u, n'.vehicles.get? k = some u → u.willQueueOrEnter ≠ 0 := by
    obtain ⟨c0, hn0⟩ := hb.active hv (by omega) hk0 hl0
    obtain ⟨c1, hn1⟩ := hb.active hv (by omega) hlk hl
    obtain ⟨v1, hv1, hsame⟩ := hb.vehicles.fwd k v hv
    unfold Link.applyStoplines at hn'
    rw [M_bind_ok] at hn'
    obtain ⟨lq, hlq, hn'⟩ := hn'
    rw [getLink_ok, hn0] at hlq; cases hlq
    have hid : l0.id = k0 := (hs.net.link k0 l0 hl0).id
    have hrt : v1.getRoute i = some (k0, .entered) := by
      obtain ⟨x, y, rfl⟩ := hsame
      change v.getRoute i = _
      unfold Vehicle.getRoute
      rw [hk0, Option.map_some, if_pos (by omega)]
    have hnear1 : ¬ v1.posFront < pos - maxLookahead * l.speedLimit := by
      obtain ⟨x, y, rfl⟩ := hsame
      exact hnear
    subst hid
    refine (processVehicles_finds (R := Firm n) (Q := Decides n k) (Firm.rfl' n) (Firm.trans n) (Firm.decides n k) (Decides.firm n k)
      (stoplineFn_firm (hlast _ s1)) hn1 rfl hvs (fun a ha => ?_) hv1 hnear1 hrt (.inl rfl)
      (fun m p hp => MayGo.decides (l0 := { l0 with active := true, lastConflict := c0 }) hb hq (hlast _ s1) hent hj hnext hgo hsame m p hp)
      (hfree.way hs hb hsym hv hent hl0 _) hn0 hn' NetSame.rfl').2
    obtain ⟨w, hw, -⟩ := ((hs.mem lk l hl).2 a).1 (by rw [hvs]; simp [ha])
    exact (hpost a ha w hw).goesOn hb (hs.veh a w hw).enteredLe hw l.length
  intro v' hv'
  have e : s'.vehicles = s.frozen.foldl (fun vs k => vs.modify k Vehicle.emergencyStop) vs := by rw [hr.eq]; rfl
  rw [e] at hv'
  obtain ⟨u, hu, rfl⟩ := (emergency_foldl vs s.frozen).bwd hv'
  have := later (fun _ h => h.elim) hr.slow (later hdec s3.vehicles main) u hu
  split
  · exact this
  · exact this

/-- No vehicle has queue number 0. -/
theorem Reach.queue_pos [Env] [LawfulDijkstra] {s : Sim F} (h : Reach strict s) : ∀ k v, s.vehicles.get? k = some v → v.queued ≠ some 0 := by
  induction h with
  | new => exact nofun
  | @exec s s' op hr ha he ih =>
    intro k v' hv' hq
    cases exec_origin hr.inv he hv' with
    | added a link pf _ _ _ _ hp =>
      obtain ⟨p, d, r, c, rfl⟩ := hp
      cases hq
    | same h _ => exact ih k v' h hq
    | adjusted v x h e _ => subst e; exact ih k v h hq
    | destined v pf dst h _ _ _ e => subst e; exact ih k v h hq
    | shifted v link d pos lc pf h _ _ _ e => subst e; exact ih k v h hq
    | stepped dt s1 s2 s3 s4 s5 s6 v v1 v2 v4 e hr' hv ht =>
      rw [ht.queued hv'] at hq
      have e1 : v2.queued = v.queued := ht.acc.fields.2.2.trans ht.steer.same.2.2.1
      rcases ht.move.cases.2 with ⟨-, -, h1⟩ | ⟨-, -, sq, hsq, h1⟩ | ⟨-, -, h1⟩
      · exact ih k v hv (by rw [← e1, ← h1]; exact hq)
      · rw [h1, e1] at hq
        cases hvq : v.queued with
        | some f =>
          rw [hvq] at hq
          exact ih k v hv (hvq.trans hq)
        | none =>
          rw [hvq] at hq
          have : sq = 0 := Option.some.inj hq
          omega
      · rw [h1] at hq; cases hq

/-! ## In a step -/

section
variable {s s' s1 : Sim F} {dt : F} {i : Nat} {k k0 lk j : Key} {pos : F} {l0 l1 next : Link F} {v1 v' : Vehicle F} {pre post : List Key}

/-- What becomes of a vehicle that may go on. -/
theorem StepRun.goes [Env] [LawfulDijkstra] {s2 s3 s4 s5 s6 : Sim F} {v v2 v4 : Vehicle F} (h : Reach strict s) (hL : LongLinks s.links)
    (hr : StepRun strict s dt s1 s2 s3 s4 s5 s6 s') (ht : Trace s dt s1 s2 s3 s4 s' k v v1 v2 v4) (hre : ¬ s.accUpdate < 0.1)
    (hent : v1.entered = i + 1) (hfree : FreeTo s1 v1 i k0 i lk pos) (hl : s1.links.get? lk = some l1)
    (hvs : l1.vehicles = pre ++ k :: post)
    (hpost : ∀ a ∈ post, ∀ w, s1.vehicles.get? a = some w → Passes s1.links k0 i pos l1 w)
    (hnear : ¬ v1.posFront < pos - maxLookahead * l1.speedLimit) (hl0 : s1.links.get? k0 = some l0) (hj : v1.route[i + 1]? = some j)
    (hnext : s1.links.get? j = some next) (hgo : MayGo s1 v1 pos l0.length next) :
    (next.control = .open_ ∨ v1.queued ≠ none → v4.entered = i + 2 ∧ v4.queued = none) ∧
      (next.control ≠ .open_ → v1.queued = none → v4.entered = i + 1 ∧ ∃ q, v4.queued = some q ∧ s.seq < q) := by
  have hsym : ∀ a b la lb, s1.links.get? a = some la → s1.links.get? b = some lb → b ∈ la.linksOut → a ∈ lb.linksIn := by
    intro a b la lb h1 h2 h3
    obtain ⟨la0, g1, e1⟩ := hr.frame1.frame.bwd h1
    obtain ⟨lb0, g2, e2⟩ := hr.frame1.frame.bwd h2
    have := C60_symmetric h (getLink_ok.2 g1) (getLink_ok.2 g2)
    rw [e2.linksIn]
    rw [e1.linksOut] at h3
    refine List.count_pos_iff.1 ?_
    rw [← this]
    exact List.count_pos_iff.2 h3
  have hq : ∀ k v, s1.vehicles.get? k = some v → v.queued ≠ some 0 := by
    intro a u hu
    obtain ⟨u0, hu0, r1⟩ := hr.vehs1.bwd hu
    rw [r1.same.2.2.1]
    exact h.queue_pos a u0 hu0
  rcases ht.acc with ⟨hlt, -⟩ | ⟨-, n0, n1, vs, har, ha⟩
  · rw [hr.clocks.1] at hlt; exact absurd hlt hre
  have g2 := ht.get2
  rw [hr.vehicles3] at g2
  have hne := har.decides hr.inv1 hsym hq ht.get1 hent hfree hl hvs hpost hnear hl0 hj hnext hgo v2 g2
  obtain ⟨a, w, ev2, hw, -⟩ := ha.eq
  have hw2 : v2.willQueueOrEnter = w := by rw [ev2]
  rcases hw with hw | hw
  · rw [hw2, hw, (hr.inv1.veh k v1 ht.get1).will] at hne
    exact absurd rfl hne
  have had := hw.admission hr.inv1 har.prep (hL.frame hr.frame1.frame) ht.get1
  have line : ∀ {lk' p j' next'}, NextLine s1.links v1 lk' p j' next' → next' = next := by
    intro lk' p j' next' hx
    have := hx.route
    rw [hent, hj] at this; cases this
    have := hx.link
    rw [hnext] at this; cases this
    rfl
  have hm := ht.move.cases.2
  have ee : v2.entered = i + 1 ∧ v2.queued = v1.queued := by rw [ev2]; exact ⟨hent, rfl⟩
  rw [hw2, ee.1, ee.2] at hm
  cases had with
  | open_ hx hc _ =>
    cases line hx
    refine ⟨fun _ => ?_, fun h => absurd hc h⟩
    rcases hm with ⟨e, -⟩ | ⟨e, -⟩ | ⟨-, e1, e2⟩
    · cases e
    · cases e
    · exact ⟨e1, e2⟩
  | yield_ hx hc hqv =>
    cases line hx
    refine ⟨fun _ => ?_, fun _ h => by rw [hqv] at h; cases h⟩
    rcases hm with ⟨e, -⟩ | ⟨e, -⟩ | ⟨-, e1, e2⟩
    · cases e
    · cases e
    · exact ⟨e1, e2⟩
  | queue hx hc hqv =>
    cases line hx
    refine ⟨fun h => h.elim (fun h => by rw [hc] at h; cases h) (fun h => absurd hqv h), fun _ _ => ?_⟩
    rcases hm with ⟨e, -⟩ | ⟨-, e1, sq, h1, e2⟩ | ⟨e, -⟩
    · cases e
    · rw [hqv] at e2
      rw [hr.seq.2.1] at h1
      exact ⟨e1, sq, e2, h1⟩
    · cases e

/-- The link `j` is the last one that the vehicle has entered. -/
theorem Trace.lastEntered [Env] {s2 s3 s4 : Sim F} {v v2 v4 : Vehicle F} (ht : Trace s dt s1 s2 s3 s4 s' k v v1 v2 v4)
    (hv' : s'.vehicles.get? k = some v') (hj : v1.route[i + 1]? = some j) (he : v4.entered = i + 2) :
    v'.route[v'.entered - 1]? = some j := by
  have hroute : v4.route = v1.route := ht.move.cases.1.trans ht.acc.fields.1
  rw [← hroute] at hj
  cases ht.out with
  | stays w hw hp _ =>
    rw [hv'] at hw; cases hw
    obtain ⟨p, d, r, c, rfl⟩ := hp
    dsimp only
    rw [he]; exact hj
  | passes v5 w hp _ hw hpl =>
    rw [hv'] at hw; cases hw
    obtain ⟨p, d, r, c, rfl⟩ := hpl
    obtain ⟨a, rest, l, pf, hr, -, -, rfl, -⟩ := hp.ex
    dsimp only
    rw [hr] at hj
    rw [he]
    have e : max (i + 2 - 1) 1 - 1 = i := by omega
    rw [e]
    simpa using hj
  | leaves v5 _ _ hn => rw [hv'] at hn; cases hn

/-- **C87** (open links, any numbers) Accelerations are recomputed.  After lane changes the vehicle `k` is the first one that the search from
the end of the last link it has entered comes to, apart from those that pass.  The next link is open, and the vehicle can no longer stop
comfortably five metres before the line.  Then it is admitted to the link. -/
theorem C87_rolls [Env] [LawfulDijkstra] (h : Reach strict s) (hL : LongLinks s.links) (hst : s.step dt = .ok s') (hre : ¬ s.accUpdate < 0.1)
    (hlanes : s.calculateLaneChanges = .ok s1) (hv1 : s1.getVehicle k = .ok v1) (hv' : s'.getVehicle k = .ok v')
    (hent : v1.entered = i + 1) (hfree : FreeTo s1 v1 i k0 i lk pos) (hl : s1.getLinkRef lk = .ok l1)
    (hvs : l1.vehicles = pre ++ k :: post)
    (hpost : ∀ a ∈ post, ∀ w, s1.getVehicle a = .ok w → Passes s1.links k0 i pos l1 w)
    (hnear : ¬ v1.posFront < pos - 5.0 * l1.speedLimit) (hj : v1.route[i + 1]? = some j) (hnext : s1.getLinkRef j = .ok next)
    (hopen : next.control = .open_) (hstop : ¬ (0.5 * v1.vel * (v1.vel / v1.acc.comfDec) + 2.5 ≤ pos + -5.0 - v1.posFront)) :
    v'.route[v'.entered - 1]? = some j ∧ v'.queued = none := by
  obtain ⟨s1', s2, s3, s4, s5, s6, hr⟩ := (step_spec h.inv dt).ok hst
  rw [hr.run1] at hlanes; cases hlanes
  obtain ⟨v, hv⟩ := hr.back (getVeh_ok.1 hv')
  obtain ⟨v1', v2, v4, ht⟩ := hr.trace hv
  have g1 := ht.get1
  rw [getVeh_ok.1 hv1] at g1; cases g1
  obtain ⟨-, l0, hl0, -⟩ := hfree.start
  obtain ⟨e1, e2⟩ := (hr.goes h hL ht hre hent hfree (getLink_ok.1 hl) hvs (fun a ha w hw => hpost a ha w (getVeh_ok.2 hw)) hnear hl0 hj
    (getLink_ok.1 hnext) (.rolls hopen (decide_eq_false hstop))).1 (.inl hopen)
  exact ⟨ht.lastEntered (getVeh_ok.1 hv') hj e1, by rw [ht.queued (getVeh_ok.1 hv')]; exact e2⟩

/-- **C87** (queueing, any numbers) In the same situation, but with a link where the vehicle must give way: if it is near enough, and has
stopped if that is demanded, it gets a queue number, larger than all that were given before. -/
theorem C87_queues [Env] [LawfulDijkstra] (h : Reach strict s) (hL : LongLinks s.links) (hst : s.step dt = .ok s') (hre : ¬ s.accUpdate < 0.1)
    (hlanes : s.calculateLaneChanges = .ok s1) (hv1 : s1.getVehicle k = .ok v1) (hv' : s'.getVehicle k = .ok v')
    (hent : v1.entered = i + 1) (hfree : FreeTo s1 v1 i k0 i lk pos) (hl : s1.getLinkRef lk = .ok l1)
    (hvs : l1.vehicles = pre ++ k :: post)
    (hpost : ∀ a ∈ post, ∀ w, s1.getVehicle a = .ok w → Passes s1.links k0 i pos l1 w)
    (hnear : ¬ v1.posFront < pos - 5.0 * l1.speedLimit) (hj : v1.route[i + 1]? = some j) (hnext : s1.getLinkRef j = .ok next)
    {d : F} {m : Bool} {pr : Int} (hyield : next.control = .yield_ d m pr) (hq : v1.queued = none) (hd : -d < v1.posFront - pos)
    (hm : m = true → v1.vel < 0.1) : ∃ q, v'.queued = some q ∧ s.seq < q := by
  obtain ⟨s1', s2, s3, s4, s5, s6, hr⟩ := (step_spec h.inv dt).ok hst
  rw [hr.run1] at hlanes; cases hlanes
  obtain ⟨v, hv⟩ := hr.back (getVeh_ok.1 hv')
  obtain ⟨v1', v2, v4, ht⟩ := hr.trace hv
  have g1 := ht.get1
  rw [getVeh_ok.1 hv1] at g1; cases g1
  obtain ⟨-, l0, hl0, -⟩ := hfree.start
  have := (hr.goes h hL ht hre hent hfree (getLink_ok.1 hl) hvs (fun a ha w hw => hpost a ha w (getVeh_ok.2 hw)) hnear hl0 hj
    (getLink_ok.1 hnext) (.queues hyield hq hd hm)).2 (by rw [hyield]; nofun) hq
  rw [ht.queued (getVeh_ok.1 hv')]
  exact this.2

/-- **C87** (gaps, any numbers) In the same situation the vehicle has a queue number for a link where it must give way.  At each conflict of
that link, on each way upstream from the conflict, the vehicle by which the search is decided does not go first or needs more time to get to
the conflict than `k` needs to get past it, and 0.5 s.  Then `k` is admitted to the link. -/
theorem C87_enters [Env] [LawfulDijkstra] (h : Reach strict s) (hL : LongLinks s.links) (hst : s.step dt = .ok s') (hre : ¬ s.accUpdate < 0.1)
    (hlanes : s.calculateLaneChanges = .ok s1) (hv1 : s1.getVehicle k = .ok v1) (hv' : s'.getVehicle k = .ok v')
    (hent : v1.entered = i + 1) (hfree : FreeTo s1 v1 i k0 i lk pos) (hl : s1.getLinkRef lk = .ok l1)
    (hvs : l1.vehicles = pre ++ k :: post)
    (hpost : ∀ a ∈ post, ∀ w, s1.getVehicle a = .ok w → Passes s1.links k0 i pos l1 w)
    (hnear : ¬ v1.posFront < pos - 5.0 * l1.speedLimit) (hl0 : s1.getLinkRef k0 = .ok l0) (hj : v1.route[i + 1]? = some j)
    (hnext : s1.getLinkRef j = .ok next) {d : F} {m : Bool} {pr : Int} {f : Nat} (hyield : next.control = .yield_ d m pr)
    (hq : v1.queued = some f)
    (hgap : ∀ c ∈ next.conflicts, ∀ lc, s1.getLinkRef c.linkId = .ok lc → ∀ i' k' pos' far mv l' kw w,
      Approach s1.links s1.vehicles (v1.minReachTime (pos + l0.length + c.ownMaxPos) next.speedLimit + 0.5) c.linkId
        0 c.linkId c.minPos c.maxPos (fmax 0.0 lc.speedLimit) i' k' pos' far mv →
      s1.getLinkRef k' = .ok l' → Decisive s1.vehicles l' i' c.linkId far kw w → Precedes lc.control f pr w i' →
      v1.minReachTime (pos + l0.length + c.ownMaxPos) next.speedLimit + 0.5 < w.minReachTime pos' mv) :
    v'.route[v'.entered - 1]? = some j ∧ v'.queued = none := by
  obtain ⟨s1', s2, s3, s4, s5, s6, hr⟩ := (step_spec h.inv dt).ok hst
  rw [hr.run1] at hlanes; cases hlanes
  obtain ⟨v, hv⟩ := hr.back (getVeh_ok.1 hv')
  obtain ⟨v1', v2, v4, ht⟩ := hr.trace hv
  have g1 := ht.get1
  rw [getVeh_ok.1 hv1] at g1; cases g1
  obtain ⟨e1, e2⟩ := (hr.goes h hL ht hre hent hfree (getLink_ok.1 hl) hvs (fun a ha w hw => hpost a ha w (getVeh_ok.2 hw)) hnear
    (getLink_ok.1 hl0) hj (getLink_ok.1 hnext) (.enters hyield hq fun c hc lc hlc i' k' pos' far mv l' kw w h1 h2 h3 h4 =>
      hgap c hc lc (getLink_ok.2 hlc) i' k' pos' far mv l' kw w h1 (getLink_ok.2 h2) h3 h4)).1 (.inr (by rw [hq]; nofun))
  exact ⟨ht.lastEntered (getVeh_ok.1 hv') hj e1, by rw [ht.queued (getVeh_ok.1 hv')]; exact e2⟩

end

end

/-! ## Examples -/

section
attribute [local instance] Town.env

/-- The car is before the end of link 0 and about to go on to link 1, with the control of the given number; it has the given queue number. -/
def Corner.goesTest (c : Nat) (q : Option Nat) (s s' : Sim Float) : Bool :=
  shortNet s.links && decide (¬ s.accUpdate < 0.1) && (s'.vehicles.get? ⟨0, 1⟩).isSome && match s.calculateLaneChanges with
  | .ok s1 => Corner.control s1 ⟨1, 1⟩ == c && match s1.vehicles.get? ⟨0, 1⟩, s1.links.get? ⟨0, 1⟩ with
    | some v, some l => v.route == [⟨0, 1⟩, ⟨1, 1⟩] && v.entered == 1 && l.vehicles == [⟨0, 1⟩] && v.queued == q &&
      decide (¬ v.posFront < l.length - 5.0 * l.speedLimit) && decide (0.5 * v.vel * (v.vel / v.acc.comfDec) + 2.5 ≤ l.length + -5.0 - v.posFront) == false &&
      (c == 0 || match s1.links.get? ⟨1, 1⟩ with
        | some next => match next.control with
          | .yield_ d _ _ => decide (-d < v.posFront - l.length)
          | _ => false
        | none => false)
    | _, _ => false
  | .error _ => false

theorem Corner.goes_ok {c : Nat} {q : Option Nat} {s s' : Sim Float} (hc4 : c < 4) (h : Corner.goesTest c q s s' = true) :
    ∃ (s1 : Sim Float) (v1 v' : Vehicle Float) (l1 next : Link Float), LongLinks s.links ∧ ¬ s.accUpdate < 0.1 ∧
      s.calculateLaneChanges = .ok s1 ∧ s1.getVehicle ⟨0, 1⟩ = .ok v1 ∧ s'.getVehicle ⟨0, 1⟩ = .ok v' ∧ v1.entered = 0 + 1 ∧
      FreeTo s1 v1 0 ⟨0, 1⟩ 0 ⟨0, 1⟩ l1.length ∧ s1.getLinkRef ⟨0, 1⟩ = .ok l1 ∧ l1.vehicles = [] ++ ⟨0, 1⟩ :: [] ∧
      ¬ v1.posFront < l1.length - 5.0 * l1.speedLimit ∧ v1.route[0 + 1]? = some ⟨1, 1⟩ ∧ s1.getLinkRef ⟨1, 1⟩ = .ok next ∧ v1.queued = q ∧
      (c = 0 → next.control = .open_ ∧ ¬ (0.5 * v1.vel * (v1.vel / v1.acc.comfDec) + 2.5 ≤ l1.length + -5.0 - v1.posFront)) ∧
      (c = 1 → ∃ d pr, next.control = .yield_ d false pr ∧ -d < v1.posFront - l1.length) := by
  unfold Corner.goesTest at h
  simp only [Bool.and_eq_true, decide_eq_true_eq, Option.isSome_iff_exists] at h
  obtain ⟨⟨⟨h0, h6⟩, v', hv'⟩, h5⟩ := h
  split at h5
  · rename_i s1 hs1
    rw [Bool.and_eq_true] at h5
    obtain ⟨hc, h5⟩ := h5
    obtain ⟨next, hn, ho, hy, -, -⟩ := Corner.control_ok (beq_iff_eq.1 hc) hc4
    split at h5
    · rename_i v l hv hl
      simp only [Bool.and_eq_true, decide_eq_true_eq, beq_iff_eq, decide_eq_false_iff_not] at h5
      obtain ⟨⟨⟨⟨⟨⟨a1, a2⟩, a3⟩, a4⟩, a5⟩, a6⟩, a7⟩ := h5
      refine ⟨s1, v, v', l, next, shortNet_long h0, h6, hs1, getVeh_ok.2 hv, getVeh_ok.2 hv', a2,
        .here (by rw [a1]; rfl) hl, getLink_ok.2 hl, a3, a5, by rw [a1]; rfl, hn, a4, fun e => ⟨ho e, a6⟩, fun e => ?_⟩
      obtain ⟨d, p, e1⟩ := hy e
      rw [getLink_ok.1 hn] at a7
      dsimp only at a7
      rw [e1, e] at a7
      exact ⟨d, p, e1, by simpa using a7⟩
    · cases h5
  · simp at h5

theorem Corner.goes_open : ∃ s s' : Sim Float, Reach True s ∧ Allowed True s (.step 0.3) ∧ s.exec (.step 0.3) = .ok s' ∧
    Reach True s' ∧ Corner.goesTest 0 none s s' = true :=
  trial_reach (ops := Corner.ops .open_ .closed) (by decide +kernel)

theorem Corner.goes_queue : ∃ s s' : Sim Float, Reach True s ∧ Allowed True s (.step 0.3) ∧ s.exec (.step 0.3) = .ok s' ∧
    Reach True s' ∧ Corner.goesTest 1 none s s' = true :=
  trial_reach (ops := Corner.ops (.yield_ 100.0 false 0) (.yield_ 100.0 true 0)) (by decide +kernel)

/-- `C87_rolls` applies to a car before an open link. -/
example : ∃ (s s' s1 : Sim Float) (v1 v' : Vehicle Float) (l1 next : Link Float) (k lk j : Key), Reach True s ∧ s.step 0.3 = .ok s' ∧
    LongLinks s.links ∧ ¬ s.accUpdate < 0.1 ∧ s.calculateLaneChanges = .ok s1 ∧ s1.getVehicle k = .ok v1 ∧ s'.getVehicle k = .ok v' ∧
    v1.entered = 0 + 1 ∧ FreeTo s1 v1 0 lk 0 lk l1.length ∧ s1.getLinkRef lk = .ok l1 ∧ l1.vehicles = [] ++ k :: [] ∧
    ¬ v1.posFront < l1.length - 5.0 * l1.speedLimit ∧ v1.route[0 + 1]? = some j ∧ s1.getLinkRef j = .ok next ∧
    next.control = .open_ ∧ ¬ (0.5 * v1.vel * (v1.vel / v1.acc.comfDec) + 2.5 ≤ l1.length + -5.0 - v1.posFront) := by
  obtain ⟨s, s', h1, -, h3, -, h5⟩ := Corner.goes_open
  obtain ⟨s1, v1, v', l1, next, a1, a2, a3, a4, a5, a6, a7, a8, a9, a10, a11, a12, a13, a14, a15⟩ := Corner.goes_ok (by decide) h5
  exact ⟨s, s', s1, v1, v', l1, next, ⟨0, 1⟩, ⟨0, 1⟩, ⟨1, 1⟩, h1, h3, a1, a2, a3, a4, a5, a6, a7, a8, a9, a10, a11, a12, a14 rfl⟩

/-- `C87_queues` applies to a car before a link where it must give way. -/
example : ∃ (s s' s1 : Sim Float) (v1 v' : Vehicle Float) (l1 next : Link Float) (k lk j : Key) (d : Float) (pr : Int), Reach True s ∧
    s.step 0.3 = .ok s' ∧
    LongLinks s.links ∧ ¬ s.accUpdate < 0.1 ∧ s.calculateLaneChanges = .ok s1 ∧ s1.getVehicle k = .ok v1 ∧ s'.getVehicle k = .ok v' ∧
    v1.entered = 0 + 1 ∧ FreeTo s1 v1 0 lk 0 lk l1.length ∧ s1.getLinkRef lk = .ok l1 ∧ l1.vehicles = [] ++ k :: [] ∧
    ¬ v1.posFront < l1.length - 5.0 * l1.speedLimit ∧ v1.route[0 + 1]? = some j ∧ s1.getLinkRef j = .ok next ∧ v1.queued = none ∧
    next.control = .yield_ d false pr ∧ -d < v1.posFront - l1.length := by
  obtain ⟨s, s', h1, -, h3, -, h5⟩ := Corner.goes_queue
  obtain ⟨s1, v1, v', l1, next, a1, a2, a3, a4, a5, a6, a7, a8, a9, a10, a11, a12, a13, a14, a15⟩ := Corner.goes_ok (by decide) h5
  obtain ⟨d, pr, b⟩ := a15 rfl
  exact ⟨s, s', s1, v1, v', l1, next, ⟨0, 1⟩, ⟨0, 1⟩, ⟨1, 1⟩, d, pr, h1, h3, a1, a2, a3, a4, a5, a6, a7, a8, a9, a10, a11, a12, a13, b⟩

/-- The first car of `Crossing` waits before link 1 with a queue number.  The other one is the only one on the way to link 2, and it gets to the
conflict after the first car is past it. -/
def Crossing.gapTest (s s' : Sim Float) : Bool :=
  shortNet s.links && decide (¬ s.accUpdate < 0.1) && (s'.vehicles.get? ⟨0, 1⟩).isSome && match s.calculateLaneChanges with
  | .ok s1 => match s1.vehicles.get? ⟨0, 1⟩, s1.vehicles.get? ⟨1, 1⟩, s1.links.get? ⟨0, 1⟩, s1.links.get? ⟨1, 1⟩, s1.links.get? ⟨2, 1⟩,
      s1.links.get? ⟨3, 1⟩ with
    | some v, some w, some la, some l, some lc, some lu =>
      v.route == [⟨0, 1⟩, ⟨1, 1⟩] && v.entered == 1 && v.queued == some 1 && la.vehicles == [⟨0, 1⟩] &&
      decide (¬ v.posFront < la.length - 5.0 * la.speedLimit) && w.route == [⟨3, 1⟩, ⟨2, 1⟩] && lc.vehicles == [] &&
      lc.linksIn == [⟨3, 1⟩] && lu.vehicles == [⟨1, 1⟩] && lu.linksIn == [] &&
      (match l.control with
        | .yield_ _ false _ => true
        | _ => false) &&
      (match lc.control with
        | .open_ => true
        | _ => false) &&
      (match l.conflicts with
        | [c] => c.linkId == ⟨2, 1⟩ && decide (v.minReachTime (la.length + la.length + c.ownMaxPos) l.speedLimit + 0.5 <
            w.minReachTime (c.minPos + lu.length) (fmax (fmax 0.0 lc.speedLimit) lu.speedLimit))
        | _ => false)
    | _, _, _, _, _, _ => false
  | .error _ => false

theorem Crossing.gap : ∃ s s' : Sim Float, Reach True s ∧ Allowed True s (.step 0.3) ∧ s.exec (.step 0.3) = .ok s' ∧
    Reach True s' ∧ Crossing.gapTest s s' = true :=
  trial_reach (ops := Crossing.ops 22.0 10.0) (by decide +kernel)

/-- `C87_enters` applies to a car that waits before a link where it must give way, while another car is on the way to the conflict. -/
example : ∃ (s s' s1 : Sim Float) (v1 v' w : Vehicle Float) (l1 next lc : Link Float) (k lk j kw : Key) (d : Float) (m : Bool) (pr : Int)
    (f : Nat) (c : LinkConflict Float), Reach True s ∧ s.step 0.3 = .ok s' ∧
    LongLinks s.links ∧ ¬ s.accUpdate < 0.1 ∧ s.calculateLaneChanges = .ok s1 ∧ s1.getVehicle k = .ok v1 ∧ s'.getVehicle k = .ok v' ∧
    v1.entered = 0 + 1 ∧ FreeTo s1 v1 0 lk 0 lk l1.length ∧ s1.getLinkRef lk = .ok l1 ∧ l1.vehicles = [] ++ k :: [] ∧
    ¬ v1.posFront < l1.length - 5.0 * l1.speedLimit ∧ v1.route[0 + 1]? = some j ∧ s1.getLinkRef j = .ok next ∧
    next.control = .yield_ d m pr ∧ v1.queued = some f ∧ next.conflicts = [c] ∧ s1.getLinkRef c.linkId = .ok lc ∧
    s1.getVehicle kw = .ok w ∧ w.route[1]? = some c.linkId ∧ Precedes lc.control f pr w 1 ∧
    ∀ c ∈ next.conflicts, ∀ lc, s1.getLinkRef c.linkId = .ok lc → ∀ i' k' pos' far mv l' kw w,
      Approach s1.links s1.vehicles (v1.minReachTime (l1.length + l1.length + c.ownMaxPos) next.speedLimit + 0.5) c.linkId
        0 c.linkId c.minPos c.maxPos (fmax 0.0 lc.speedLimit) i' k' pos' far mv →
      s1.getLinkRef k' = .ok l' → Decisive s1.vehicles l' i' c.linkId far kw w → Precedes lc.control f pr w i' →
      v1.minReachTime (l1.length + l1.length + c.ownMaxPos) next.speedLimit + 0.5 < w.minReachTime pos' mv := by
  obtain ⟨s, s', h1, -, h3, -, h⟩ := Crossing.gap
  unfold Crossing.gapTest at h
  simp only [Bool.and_eq_true, decide_eq_true_eq, Option.isSome_iff_exists] at h
  obtain ⟨⟨⟨h0, h6⟩, v', hv'⟩, h5⟩ := h
  split at h5
  · rename_i s1 hs1
    split at h5
    · rename_i v w la l lc lu g1 g2 g3 g4 g5 g6
      simp only [Bool.and_eq_true, beq_iff_eq, decide_eq_true_eq] at h5
      obtain ⟨⟨⟨⟨⟨⟨⟨⟨⟨⟨⟨⟨a1, a2⟩, a3⟩, a4⟩, a5⟩, a6⟩, a7⟩, a8⟩, a9⟩, a10⟩, a11⟩, a12⟩, a13⟩ := h5
      split at a11
      · rename_i d pr e11
        split at a12
        · rename_i e12
          split at a13
          · rename_i c e13
            simp only [Bool.and_eq_true, beq_iff_eq, decide_eq_true_eq] at a13
            obtain ⟨b1, b2⟩ := a13
            refine ⟨s, s', s1, v, v', w, la, l, lc, ⟨0, 1⟩, ⟨0, 1⟩, ⟨1, 1⟩, ⟨1, 1⟩, d, false, pr, 1, c, h1, h3, shortNet_long h0, h6, hs1,
              getVeh_ok.2 g1, getVeh_ok.2 hv', a2, .here (by rw [a1]; rfl) g3, getLink_ok.2 g3, a4, a5, by rw [a1]; rfl, getLink_ok.2 g4,
              e11, a3, e13, by rw [b1]; exact getLink_ok.2 g5, getVeh_ok.2 g2, by rw [a6, b1]; rfl, .inr (by rw [e12]; trivial), ?_⟩
            intro c' hc' lc' hlc' i' k' pos' far mv l' kw w' hap hl' hdec hpre
            rw [e13, List.mem_singleton] at hc'
            subst hc'
            rw [b1] at hlc'
            have hlc' := getLink_ok.1 hlc'
            rw [g5] at hlc'; cases hlc'
            rw [b1] at hap hdec
            have hl' := getLink_ok.1 hl'
            have hdec' := hdec.ex
            obtain ⟨p1, p2, post, e, -⟩ := hdec'
            cases hap with
            | here =>
              rw [g5] at hl'; cases hl'
              rw [a7] at e
              simp at e
            | up q1 _ _ q2 q3 hap =>
              rw [g5] at q1; cases q1
              rw [a8, List.mem_singleton] at q2
              subst q2
              rw [g6] at q3; cases q3
              cases hap with
              | here =>
                rw [g6] at hl'; cases hl'
                rw [a9] at e
                have : kw ∈ [(⟨1, 1⟩ : Key)].reverse := by rw [e]; simp
                have : kw = ⟨1, 1⟩ := by simpa using this
                subst this
                have := hdec.veh
                rw [g2] at this; cases this
                exact b2
              | up q1 _ _ q2 _ _ =>
                rw [g6] at q1; cases q1
                rw [a10] at q2; cases q2
          · cases a13
        · cases a12
      · cases a11
    · cases h5
  · cases h5

end

end TrafficSim
