import Verif.Props.Entry

/-! # Gap acceptance -/

namespace TrafficSim

section
variable {F : Type} [Flt F] {strict : Prop} {s s' : Sim F}

/-- `kv` is the first vehicle on the link, seen from position `far`, that is on the way to the link `k0`,
`i` links ahead: those ahead of it are past the position or, behind the former, on another way. -/
structure Nearest (vs : VehicleSet F) (l : Link F) (i : Nat) (k0 : Key) (far : F) (kv : Key) (v : Vehicle F) : Prop where
  ex : ∃ pre₁ pre₂ post, l.vehicles.reverse = pre₁ ++ (pre₂ ++ kv :: post) ∧
    (∀ j ∈ pre₁, ∀ w, vs.get? j = some w → far < w.posRear) ∧
    (∀ j ∈ pre₂, ∀ w, vs.get? j = some w → w.route[i]? ≠ some k0)
  veh : vs.get? kv = some v
  here : ¬ far < v.posRear
  route : v.route[i]? = some k0

/-- No vehicle on the link is on the way to the link `k0`, except those past the position `far`. -/
def NoneNear (vs : VehicleSet F) (l : Link F) (i : Nat) (k0 : Key) (far : F) : Prop :=
  ∃ pre₁ pre₂, l.vehicles.reverse = pre₁ ++ pre₂ ∧ (∀ j ∈ pre₁, ∀ w, vs.get? j = some w → far < w.posRear) ∧
    (∀ j ∈ pre₂, ∀ w, vs.get? j = some w → w.route[i]? ≠ some k0)

/-- A way upstream from link `k` to link `k'` without vehicles on the way to `k0`, except possibly on
`k'`.  `i` is the number of links up to `k0`, `pos` and `far` are the positions of the beginning and the
end of the region of conflict seen from the link, and `mv` is the greatest speed limit up to there.  The way
ends where the region of conflict cannot be reached in time from the start of the link at speed `mv`. -/
inductive Approach (links : LinkSet F) (vs : VehicleSet F) (time : F) (k0 : Key) :
    Nat → Key → F → F → F → Nat → Key → F → F → F → Prop
  | here {i : Nat} {k : Key} {pos far mv : F} : Approach links vs time k0 i k pos far mv i k pos far mv
  | up {i i' : Nat} {k k' j : Key} {pos far mv pos' far' mv' : F} {l lj : Link F} : links.get? k = some l →
      NoneNear vs l i k0 far → ¬ time < pos / mv → j ∈ l.linksIn → links.get? j = some lj →
      Approach links vs time k0 (i + 1) j (pos + lj.length) (far + lj.length) (fmax mv lj.speedLimit) i' k' pos' far' mv' →
      Approach links vs time k0 i k pos far mv i' k' pos' far' mv'

/-- Whether the vehicle `v`, for which the link with the given control is `i` links ahead, goes before a
vehicle with queue number `f` that waits in front of a link of priority `pr`. -/
def Precedes (control : TrafficControl F) (f : Nat) (pr : Int) (v : Vehicle F) (i : Nat) : Prop :=
  i < v.entered ∨ match control with
    | .open_ => True
    | .yield_ _ _ pr' => pr < pr' ∨ (pr = pr' ∧ v.entered = i ∧ ∃ a, v.queued = some a ∧ a ≤ f)
    | .closed => False

omit [Flt F] in
theorem getRoute_iff {v : Vehicle F} {i : Nat} {k0 : Key} : (∃ st, v.getRoute i = some (k0, st)) ↔ v.route[i]? = some k0 := by
  constructor
  · rintro ⟨st, h⟩
    exact (getRoute_link h).1
  · intro h
    unfold Vehicle.getRoute
    rw [h]
    exact ⟨_, rfl⟩

theorem skipAhead_pre {vs : VehicleSet F} {far : F} : ∀ {pre rest ks : List Key},
    (∀ j ∈ pre, ∀ w, vs.get? j = some w → far < w.posRear) → Link.skipAhead vs far (pre ++ rest) = .ok ks →
    Link.skipAhead vs far rest = .ok ks
  | [], _, _, _, h => h
  | j :: pre, rest, ks, hp, h => by
    rw [List.cons_append] at h
    unfold Link.skipAhead at h
    simp only [M_bind_ok, getVeh_ok] at h
    obtain ⟨w, hw, h⟩ := h
    rw [if_pos (hp j (by simp) w hw)] at h
    exact skipAhead_pre (fun j hj => hp j (by simp [hj])) h

theorem skipAhead_suffix {vs : VehicleSet F} {far : F} : ∀ {ks ks' : List Key}, Link.skipAhead vs far ks = .ok ks' →
    ks' <:+ ks
  | [], ks', h => by
    simp only [Link.skipAhead, M_pure_ok] at h
    subst h
    exact List.suffix_rfl
  | k :: ks, ks', h => by
    unfold Link.skipAhead at h
    simp only [M_bind_ok, getVeh_ok] at h
    obtain ⟨w, hw, h⟩ := h
    split at h
    · exact (skipAhead_suffix h).trans (List.suffix_cons k ks)
    · simp only [M_pure_ok] at h
      subst h
      exact List.suffix_rfl

theorem skipAhead_stop {vs : VehicleSet F} {far : F} {kv : Key} {v : Vehicle F} (hv : vs.get? kv = some v)
    (hn : ¬ far < v.posRear) {post : List Key} : ∀ {pre ks : List Key},
    Link.skipAhead vs far (pre ++ kv :: post) = .ok ks → ∃ pre', pre' <:+ pre ∧ ks = pre' ++ kv :: post
  | [], ks, h => by
    rw [List.nil_append] at h
    unfold Link.skipAhead at h
    simp only [M_bind_ok, getVeh_ok] at h
    obtain ⟨w, hw, h⟩ := h
    rw [hv] at hw; cases hw
    rw [if_neg hn, M_pure_ok] at h
    exact ⟨[], List.suffix_rfl, h.symm⟩
  | j :: pre, ks, h => by
    rw [List.cons_append] at h
    unfold Link.skipAhead at h
    simp only [M_bind_ok, getVeh_ok] at h
    obtain ⟨w, hw, h⟩ := h
    split at h
    · obtain ⟨pre', h1, h2⟩ := skipAhead_stop hv hn h
      exact ⟨pre', h1.trans (List.suffix_cons j pre), h2⟩
    · rw [M_pure_ok] at h
      exact ⟨j :: pre, List.suffix_rfl, h.symm⟩

theorem checkGapList_pre {vs : VehicleSet F} {pos time mv : F} {q : Option Nat} {route : Nat × Key} {rest : List Key} :
    ∀ {pre : List Key} {b : Option Bool}, (∀ j ∈ pre, ∀ w, vs.get? j = some w → w.route[route.1]? ≠ some route.2) →
    Link.checkGapList vs pos time q route mv (pre ++ rest) = .ok b →
    Link.checkGapList vs pos time q route mv rest = .ok b
  | [], _, _, h => h
  | j :: pre, b, hp, h => by
    have ih := checkGapList_pre (vs := vs) (pos := pos) (time := time) (mv := mv) (q := q) (route := route) (rest := rest)
      (pre := pre) (b := b) fun j hj => hp j (by simp [hj])
    rw [List.cons_append] at h
    unfold Link.checkGapList at h
    simp only [M_bind_ok, getVeh_ok] at h
    obtain ⟨w, hw, h⟩ := h
    split at h
    · exact ih h
    · rename_i _ k' st hg
      split at h
      · exact ih h
      · rename_i hk
        have : k' = route.2 := by simpa using hk
        subst this
        exact absurd (getRoute_link hg).1 (hp j (by simp) w hw)

/-- What the answer that there is a gap means for the first vehicle that matters. -/
theorem checkGapList_first {vs : VehicleSet F} {pos time mv : F} {q : Option Nat} {i : Nat} {k0 kv : Key} {v : Vehicle F}
    {post : List Key} {b : Option Bool} (hv : vs.get? kv = some v) (hr : v.route[i]? = some k0)
    (h : Link.checkGapList vs pos time q (i, k0) mv (kv :: post) = .ok b) :
    ∃ st, v.getRoute i = some (k0, st) ∧ b ≠ none ∧ (b = some true → ((∃ f, q = some f) ∧ st = .notEntered) ∨
      (∃ a f, q = some f ∧ st = .queuedAt a ∧ f < a) ∨ time < v.minReachTime pos mv) := by
  unfold Link.checkGapList at h
  simp only [M_bind_ok, getVeh_ok] at h
  obtain ⟨w, hw, h⟩ := h
  rw [hv] at hw; cases hw
  obtain ⟨st, hst⟩ := getRoute_iff.2 hr
  refine ⟨st, hst, ?_⟩
  rw [hst] at h
  dsimp only at h
  rw [if_neg (by simp)] at h
  split at h
  · simp only [M_pure_ok] at h
    subst h
    exact ⟨nofun, fun _ => .inl ⟨⟨_, rfl⟩, rfl⟩⟩
  · split at h
    · simp only [M_pure_ok] at h
      subst h
      rename_i hlt
      exact ⟨nofun, fun _ => .inr (.inl ⟨_, _, rfl, rfl, hlt⟩)⟩
    · simp only [M_pure_ok] at h
      subst h
      exact ⟨nofun, fun h => .inr (.inr (of_decide_eq_true (Option.some.inj h)))⟩
  · simp only [M_pure_ok] at h
    subst h
    exact ⟨nofun, fun h => .inr (.inr (of_decide_eq_true (Option.some.inj h)))⟩

theorem allM_true {α : Type} {f : α → M Bool} : ∀ {l : List α}, Link.allM f l = .ok true → ∀ a ∈ l, f a = .ok true
  | [], _, _, h => by cases h
  | a :: l, h, b, hb => by
    unfold Link.allM at h
    rw [M_bind_ok] at h
    obtain ⟨x, hx, h⟩ := h
    cases x with
    | false => simp at h
    | true =>
      rw [if_pos rfl] at h
      rcases List.mem_cons.1 hb with rfl | hb
      · exact hx
      · exact allM_true h b hb

/-- What the answer that there is a gap means along a way upstream. -/
theorem checkGap_true {n : Net F} {time : F} {q : Option Nat} {k0 : Key} {i i' : Nat} {k k' : Key}
    {pos far mv pos' far' mv' : F} (ha : Approach n.links n.vehicles time k0 i k pos far mv i' k' pos' far' mv') :
    ∀ {fuel : Nat} {l l' : Link F} {mv0 : F}, n.links.get? k = some l → mv = fmax mv0 l.speedLimit →
    Link.checkGap n time q fuel l (pos, far) (i, k0) mv0 = .ok true → n.links.get? k' = some l' →
    ∀ {kv : Key} {v : Vehicle F}, Nearest n.vehicles l' i' k0 far' kv v →
    ∃ st, v.getRoute i' = some (k0, st) ∧ (((∃ f, q = some f) ∧ st = .notEntered) ∨
      (∃ a f, q = some f ∧ st = .queuedAt a ∧ f < a) ∨ time < v.minReachTime pos' mv') := by
  induction ha with
  | @here i k pos far mv =>
    intro fuel l l' mv0 hl hmv h hl' kv v hv
    rw [hl] at hl'; cases hl'
    cases fuel with
    | zero => simp [Link.checkGap] at h
    | succ fuel =>
      unfold Link.checkGap at h
      dsimp only at h
      rw [M_bind_ok] at h
      obtain ⟨ks, hks, h⟩ := h
      rw [M_bind_ok] at h
      obtain ⟨b, hb, h⟩ := h
      obtain ⟨pre₁, pre₂, post, e, h1, h2⟩ := hv.ex
      rw [e] at hks
      obtain ⟨pre', h3, rfl⟩ := skipAhead_stop hv.veh hv.here (skipAhead_pre h1 hks)
      rw [← hmv] at hb
      have hb' := checkGapList_pre (fun j hj => h2 j (h3.subset hj)) hb
      obtain ⟨st, hst, hne, hx⟩ := checkGapList_first hv.veh hv.route hb'
      refine ⟨st, hst, hx ?_⟩
      cases b with
      | none => exact absurd rfl hne
      | some b =>
        simp only [M_pure_ok] at h
        rw [h]
  | @up i i' k k' j pos far mv pos' far' mv' l0 lj hl0 hnn hcut hj hlj _ ih =>
    intro fuel l l' mv0 hl hmv h hl' kv v hv
    rw [hl0] at hl; cases hl
    cases fuel with
    | zero => simp [Link.checkGap] at h
    | succ fuel =>
      unfold Link.checkGap at h
      dsimp only at h
      rw [M_bind_ok] at h
      obtain ⟨ks, hks, h⟩ := h
      rw [M_bind_ok] at h
      obtain ⟨b, hb, h⟩ := h
      obtain ⟨pre₁, pre₂, e, h1, h2⟩ := hnn
      rw [e] at hks
      have h3 := skipAhead_suffix (skipAhead_pre h1 hks)
      rw [← hmv] at hb
      rw [← List.append_nil ks] at hb
      have hb' := checkGapList_pre (fun j hj => h2 j (h3.subset hj)) hb
      simp only [Link.checkGapList, M_pure_ok] at hb'
      subst hb'
      dsimp only at h
      rw [← hmv, if_neg hcut] at h
      have h4 := allM_true h j hj
      simp only [M_bind_ok, getLink_ok] at h4
      obtain ⟨lj', hlj', h4⟩ := h4
      rw [hlj] at hlj'; cases hlj'
      exact ih hlj rfl h4 hl' hv

/-- A vehicle that goes first is far enough away, if there is said to be a gap. -/
theorem checkGap_first {n : Net F} {time : F} {f : Nat} {pr : Int} {k0 : Key} {i' : Nat} {k' : Key}
    {pos far pos' far' mv' : F} {fuel : Nat} {l l' : Link F}
    (hl : n.links.get? k0 = some l) (ha : Approach n.links n.vehicles time k0 0 k0 pos far (fmax 0.0 l.speedLimit) i' k' pos' far' mv')
    (h : Link.checkGap n time (Link.gapPriority l.control f pr) fuel l (pos, far) (0, k0) 0.0 = .ok true)
    (hl' : n.links.get? k' = some l') {kv : Key} {v : Vehicle F} (hv : Nearest n.vehicles l' i' k0 far' kv v)
    (hf : Precedes l.control f pr v i') : time < v.minReachTime pos' mv' := by
  obtain ⟨st, hst, h⟩ := checkGap_true ha hl rfl h hl' hv
  have hent : i' < v.entered → st = .entered := by
    intro hlt
    unfold Vehicle.getRoute at hst
    rw [hv.route] at hst
    simp only [Option.map_some, hlt, if_true] at hst
    exact (Prod.mk.inj (Option.some.inj hst)).2.symm
  have hqa : ∀ a, st = .queuedAt a → v.queued = some a := by
    intro a ha
    subst ha
    unfold Vehicle.getRoute at hst
    rw [hv.route] at hst
    simp only [Option.map_some, Option.some.injEq, Prod.mk.injEq, true_and] at hst
    split at hst
    · cases hst
    · split at hst
      · split at hst
        · rename_i g hg; cases hst; exact hg
        · cases hst
      · cases hst
  have hne : ∀ a, v.entered = i' → v.queued = some a → st = .queuedAt a := by
    intro a he ha
    have := (getRoute_link hst).2.2 he
    rw [ha] at this
    exact this
  rcases hf with hf | hf
  · rw [hent hf] at h
    rcases h with ⟨-, h⟩ | ⟨_, _, _, h, _⟩ | h
    · cases h
    · cases h
    · exact h
  · unfold Link.gapPriority at h
    split at hf
    · rename_i hc
      rw [hc] at h
      rcases h with ⟨⟨_, h⟩, _⟩ | ⟨_, _, h, _⟩ | h
      · cases h
      · cases h
      · exact h
    · rename_i d m pr' hc
      rw [hc] at h
      dsimp only at h
      rcases hf with hlt | ⟨rfl, he, a, ha, hle⟩
      · rw [if_pos hlt] at h
        rcases h with ⟨⟨_, h⟩, _⟩ | ⟨_, _, h, _⟩ | h
        · cases h
        · cases h
        · exact h
      · rw [if_neg (by omega), if_pos rfl] at h
        rw [hne a he ha] at h
        rcases h with ⟨_, h⟩ | ⟨a', f', h1, h2, h3⟩ | h
        · cases h
        · cases h1; cases h2; omega
        · exact h
    · exact hf.elim

theorem canEnterLoop_none [Env] {n : Net F} {l : Link F} {r : RelVeh F} {q : Nat} {pr : Int} : ∀ {is : List Nat},
    Link.canEnterLoop n l r q pr is = .ok none → ∀ i ∈ is, ∃ c lc, l.conflicts[i]? = some c ∧ n.links.get? c.linkId = some lc ∧
      Link.checkGap n (r.minReachTime c.ownMaxPos l.speedLimit + gapBuffer) (Link.gapPriority lc.control q pr) Env.fuel lc
        (c.minPos, c.maxPos) (0, c.linkId) 0.0 = .ok true
  | [], _, _, h => by cases h
  | j :: is, h, i, hi => by
    unfold Link.canEnterLoop at h
    split at h
    · simp at h
    · rename_i c hc
      simp only [M_bind_ok, getLink_ok] at h
      obtain ⟨lc, hlc, b, hb, h⟩ := h
      cases b with
      | false => simp at h
      | true =>
        rw [if_pos rfl] at h
        rcases List.mem_cons.1 hi with rfl | hi
        · exact ⟨c, lc, hc, hlc, hb⟩
        · exact canEnterLoop_none h i hi

theorem canEnter_true [Env] {n : Net F} {l : Link F} {last last' : Nat} {r : RelVeh F} {q : Nat} {pr : Int}
    (hlast : last ≤ l.conflicts.length) (h : Link.canEnter n l last r q pr = .ok (true, last')) :
    ∀ c ∈ l.conflicts, ∃ lc, n.links.get? c.linkId = some lc ∧
      Link.checkGap n (r.minReachTime c.ownMaxPos l.speedLimit + gapBuffer) (Link.gapPriority lc.control q pr) Env.fuel lc
        (c.minPos, c.maxPos) (0, c.linkId) 0.0 = .ok true := by
  intro c hc
  unfold Link.canEnter at h
  rw [M_bind_ok] at h
  obtain ⟨o, ho, h⟩ := h
  cases o with
  | some i => simp at h
  | none =>
    obtain ⟨i, hi, rfl⟩ := List.getElem_of_mem hc
    have hm := ((C59_rotatedRange l.conflicts.length last hlast).2.1 i).2 hi
    obtain ⟨c', lc, h1, h2, h3⟩ := canEnterLoop_none ho i hm
    rw [List.getElem?_eq_getElem hi] at h1
    cases h1
    exact ⟨lc, h2, h3⟩

/-! ## In a step -/

/-- Links that differ at most in `active` and `lastConflict`. -/
def SameLinks (links links' : LinkSet F) : Prop :=
  SRel (fun _ l l' => ∃ b c, l' = { l with active := b, lastConflict := c }) links links'

/-- Vehicles that differ at most in the present acceleration and the decision about the next link. -/
def SameVehs (vs vs' : VehicleSet F) : Prop := SRel (fun _ v v' => VehSame v.reset v') vs vs'

theorem NoneNear.same {vs vs' : VehicleSet F} (h : SameVehs vs vs') {l l' : Link F} (hl : l'.vehicles = l.vehicles) {i : Nat}
    {k0 : Key} {far : F} (hn : NoneNear vs l i k0 far) : NoneNear vs' l' i k0 far := by
  obtain ⟨p, q, h1, h2, h3⟩ := hn
  refine ⟨p, q, by rw [hl]; exact h1, fun j hj w hw => ?_, fun j hj w hw => ?_⟩
  · obtain ⟨w0, hw0, a, b, rfl⟩ := h.bwd hw
    exact h2 j hj w0 hw0
  · obtain ⟨w0, hw0, a, b, rfl⟩ := h.bwd hw
    exact h3 j hj w0 hw0

theorem Nearest.same {vs vs' : VehicleSet F} (h : SameVehs vs vs') {l l' : Link F} (hl : l'.vehicles = l.vehicles) {i : Nat}
    {k0 : Key} {far : F} {kv : Key} {v : Vehicle F} (hn : Nearest vs l i k0 far kv v) :
    ∃ v', VehSame v.reset v' ∧ Nearest vs' l' i k0 far kv v' := by
  obtain ⟨⟨p, q, r, h1, h2, h3⟩, h4, h5, h6⟩ := hn
  obtain ⟨v', hv', e⟩ := h.fwd kv v h4
  refine ⟨v', e, ⟨⟨p, q, r, by rw [hl]; exact h1, fun j hj w hw => ?_, fun j hj w hw => ?_⟩, hv', ?_, ?_⟩⟩
  · obtain ⟨w0, hw0, a, b, rfl⟩ := h.bwd hw
    exact h2 j hj w0 hw0
  · obtain ⟨w0, hw0, a, b, rfl⟩ := h.bwd hw
    exact h3 j hj w0 hw0
  · obtain ⟨a, b, rfl⟩ := e; exact h5
  · obtain ⟨a, b, rfl⟩ := e; exact h6

theorem Approach.same {links links' : LinkSet F} {vs vs' : VehicleSet F} (hL : SameLinks links links') (hV : SameVehs vs vs')
    {time : F} {k0 : Key} {i i' : Nat} {k k' : Key} {pos far mv pos' far' mv' : F}
    (h : Approach links vs time k0 i k pos far mv i' k' pos' far' mv') :
    Approach links' vs' time k0 i k pos far mv i' k' pos' far' mv' := by
  induction h with
  | here => exact .here
  | @up i i' k k' j pos far mv pos' far' mv' l lj hl hnn hcut hj hlj _ ih =>
    obtain ⟨l', hl', b, c, e⟩ := hL.fwd k l hl
    obtain ⟨lj', hlj', b', c', e'⟩ := hL.fwd j lj hlj
    refine .up (lj := lj') hl' (hnn.same hV (by rw [e])) hcut (by rw [e]; exact hj) hlj' ?_
    rw [e']
    exact ih

/-- **C30 (partly).** If a step admits a vehicle to a link where it must give way, then at each conflict of
that link, on each way upstream from the conflict, the nearest vehicle that goes first needs more time to
get to the conflict than the admitted vehicle needs to get past it, and 0.5 s.  The time that the admitted
vehicle needs is that to a point at least as far away as the end of the region of conflict, see
`C30_clearing`.  Full statement: the same for all ways upstream.  What is missing is that the search ends
(in `Approach`) when the conflict cannot be reached in time at the greatest speed limit seen so far, though links
further upstream may be faster; `C30_uniform` is the full statement if they are not.  -/
theorem C30_partial [Env] [LawfulDijkstra] {dt : F} (h : Reach strict s) (hL : LongLinks s.links)
    (he : s.step dt = .ok s') {k : Key} {v v' : Vehicle F} (hv : s.getVehicle k = .ok v) (hv' : s'.getVehicle k = .ok v')
    {i : Nat} {j : Key} (h0 : 0 < i) (hi : i < v'.entered) (hj : v'.route[i]? = some j)
    (hnew : ∀ i0, 0 < i0 → i0 < v.entered → v.route[i0]? ≠ some j) {l : Link F} (hl : s.getLinkRef j = .ok l) {d : F}
    {m : Bool} {pr : Int} (hc : l.control = .yield_ d m pr) :
    ∃ s1 v1 f, s.calculateLaneChanges = .ok s1 ∧ s1.getVehicle k = .ok v1 ∧ v1.route[v1.entered]? = some j ∧
      v1.queued = some f ∧
      ∃ i a lk llk p, i + 1 = v1.entered ∧ v1.linkId = some a ∧ v1.route[i]? = some lk ∧ s.getLinkRef lk = .ok llk ∧
        Upstream s.links lk llk.length i a p ∧
        ∀ c ∈ l.conflicts, ∃ lc, s.getLinkRef c.linkId = .ok lc ∧
          ∀ i' k' pos far mv l' kw w,
            Approach s1.links s1.vehicles (v1.minReachTime (p + llk.length + c.ownMaxPos) l.speedLimit + 0.5) c.linkId
              0 c.linkId c.minPos c.maxPos (fmax 0.0 lc.speedLimit) i' k' pos far mv →
            s1.getLinkRef k' = .ok l' → Nearest s1.vehicles l' i' c.linkId far kw w → Precedes lc.control f pr w i' →
            v1.minReachTime (p + llk.length + c.ownMaxPos) l.speedLimit + 0.5 < w.minReachTime pos mv := by
  have hs := h.inv
  obtain ⟨s1, s2, s3, s4, s5, s6, hr⟩ := (step_spec hs dt).ok he
  obtain ⟨v1, v2, v4, ht⟩ := hr.trace (getVeh_ok.1 hv)
  have hcl : v'.Claims j := ⟨i, h0, hi, hj⟩
  have hn : ¬ v.Claims j := fun ⟨i0, a, b, c⟩ => hnew i0 a b c
  obtain ⟨e, ha⟩ := ht.admitted hr hL (getVeh_ok.1 hv') hcl hn
  obtain ⟨l1, hl1, el1⟩ := hr.frame1.fwd j l (getLink_ok.1 hl)
  cases ha with
  | open_ hx hctl =>
    have := hx.route
    rw [e] at this; cases this
    have := hx.link
    rw [hl1] at this; cases this
    rw [el1] at hctl
    dsimp only at hctl
    rw [hc] at hctl; cases hctl
  | @yield_ lk p j' next d' m' pr' f n llk r last last' hx hctl hq hnl hnv hlk hrk hrv hri hrp hlast hce =>
    have := hx.route
    rw [e] at this; cases this
    have := hx.link
    rw [hl1] at this; cases this
    have hpr : pr' = pr := by
      rw [el1] at hctl
      dsimp only at hctl
      rw [hc] at hctl; cases hctl; rfl
    subst hpr
    obtain ⟨i, llk', a, hi, hlk', hu, hri', hh⟩ := hx.ex
    rw [hlk] at hlk'; cases hlk'
    obtain ⟨llk0, hlk0, elk⟩ := hr.frame1.bwd hlk
    have hlen : llk.length = llk0.length := by rw [elk]; rfl
    have hu' := hu.back hr.frame1.frame
    refine ⟨s1, v1, f, hr.run1, getVeh_ok.2 ht.get1, e, hq, i, a, lk, llk0, p, hi, hh, hri', getLink_ok.2 hlk0,
      by rw [hlen] at hu'; exact hu', fun c hcc => ?_⟩
    have hcc1 : c ∈ l1.conflicts := by rw [el1]; exact hcc
    obtain ⟨lc, hlc, hg⟩ := canEnter_true hlast hce c hcc1
    obtain ⟨lc1, hlc1, b, cc, elc⟩ := hnl.bwd hlc
    obtain ⟨lc0, hlc0, elc0⟩ := hr.frame1.bwd hlc1
    have hctl0 : lc.control = lc0.control := by rw [elc]; dsimp only; rw [elc0]
    have hsp0 : lc.speedLimit = lc0.speedLimit := by rw [elc]; dsimp only; rw [elc0]
    have htime : (r.offset llk.length).minReachTime c.ownMaxPos l1.speedLimit + gapBuffer =
        v1.minReachTime (p + llk0.length + c.ownMaxPos) l.speedLimit + 0.5 := by
      obtain ⟨a, w, er⟩ := (hnv.fwd k v1 ht.get1).elim fun u hu => by
        rw [hrv] at hu
        obtain ⟨hu1, hu2⟩ := hu
        cases hu1
        exact hu2
      have hv1 : ∀ x y, r.vehicle.minReachTime x y = v1.minReachTime x y := by
        intro x y
        rw [er]; rfl
      unfold RelVeh.minReachTime RelVeh.offset
      dsimp only
      rw [hv1, hrp, hlen, el1]
      rfl
    rw [htime] at hg
    refine ⟨lc0, getLink_ok.2 hlc0, fun i' k' pos far mv l' kw w hap hl' hnear hgf => ?_⟩
    obtain ⟨l'', hl'', b', c', e''⟩ := hnl.fwd k' l' (getLink_ok.1 hl')
    obtain ⟨w', ew, hnear'⟩ := hnear.same (l' := l'') hnv (by rw [e''])
    have hap' := hap.same hnl hnv
    rw [← hsp0] at hap'
    have hgf' : Precedes lc.control f pr' w' i' := by
      obtain ⟨a, b, rfl⟩ := ew
      rw [hctl0]; exact hgf
    have := checkGap_first hlc hap' hg hl'' hnear' hgf'
    obtain ⟨a, b, rfl⟩ := ew
    exact this

end

end TrafficSim
