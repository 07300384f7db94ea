import Verif.Lemmas.Course

/-! # Roads without a choice, of any length, and vehicles on them -/

namespace TrafficSim

section
variable {F : Type} [Flt F] {strict : Prop} {links links' : LinkSet F}

/-- From the first of these links one can only drive along them: each is connected just to the next, the last to none, and none is
in a group. -/
inductive Chain (links : LinkSet F) : List Key → Prop
  | last {a : Key} {l : Link F} : links.get? a = some l → l.group = none → l.linksOut = [] → Chain links [a]
  | cons {a b : Key} {ks : List Key} {l : Link F} : links.get? a = some l → l.group = none → l.linksOut = [b] →
      Chain links (b :: ks) → Chain links (a :: b :: ks)

omit [Flt F] in
theorem Chain.frame (hf : Frame links links') {ks : List Key} (h : Chain links ks) : Chain links' ks := by
  induction h with
  | last hl hg ho =>
    obtain ⟨l', hl', e⟩ := hf.fwd _ _ hl
    exact .last hl' (by rw [e.group, hg]) (by rw [e.linksOut, ho])
  | cons hl hg ho _ ih =>
    obtain ⟨l', hl', e⟩ := hf.fwd _ _ hl
    exact .cons hl' (by rw [e.group, hg]) (by rw [e.linksOut, ho]) ih

omit [Flt F] in
theorem Chain.unique {ks : List Key} (h : Chain links ks) {ks' : List Key} (h' : Chain links ks') (e : ks'.head? = ks.head?) :
    ks' = ks := by
  induction h generalizing ks' with
  | last hl _ ho =>
    cases h' with
    | last => cases e; rfl
    | cons hl' _ ho' _ =>
      cases e
      rw [hl] at hl'; cases hl'
      rw [ho] at ho'; cases ho'
  | cons hl _ ho _ ih =>
    cases h' with
    | last hl' _ ho' =>
      cases e
      rw [hl] at hl'; cases hl'
      rw [ho] at ho'; cases ho'
    | cons hl' _ ho' h' =>
      cases e
      rw [hl] at hl'; cases hl'
      rw [ho] at ho'; cases ho'
      rw [ih h' rfl]

omit [Flt F] in
theorem Chain.suffix {pre : List Key} {a : Key} {ks : List Key} (h : Chain links (pre ++ a :: ks)) : Chain links (a :: ks) := by
  induction pre with
  | nil => exact h
  | cons b pre ih =>
    refine ih ?_
    generalize e : pre ++ a :: ks = t at h
    have : b :: pre ++ a :: ks = b :: t := by rw [← e]; rfl
    rw [this] at h
    cases h with
    | last => simp at e
    | cons _ _ _ h => exact h

omit [Flt F] in
theorem Chain.get {ks : List Key} (h : Chain links ks) {j : Key} (hj : j ∈ ks) : ∃ l, links.get? j = some l ∧ l.group = none := by
  obtain ⟨pre, post, rfl⟩ := List.append_of_mem hj
  cases h.suffix with
  | last hl hg _ => exact ⟨_, hl, hg⟩
  | cons hl hg _ _ => exact ⟨_, hl, hg⟩

omit [Flt F] in
theorem Chain.tail {a b : Key} {ks : List Key} (h : Chain links (a :: b :: ks)) : Chain links (b :: ks) := by
  cases h with
  | cons _ _ _ h => exact h

omit [Flt F] in
/-- A road without a choice does not come back. -/
theorem Chain.nodup {ks : List Key} (h : Chain links ks) : ks.Nodup := by
  induction h with
  | last => simp
  | @cons a b ks l hl hg ho h ih =>
    rw [List.nodup_cons]
    refine ⟨fun ha => ?_, ih⟩
    obtain ⟨pre, post, e⟩ := List.append_of_mem ha
    have h1 : Chain links (a :: post) := by rw [e] at h; exact h.suffix
    have := (Chain.cons hl hg ho h).unique h1 rfl
    have hlen := congrArg List.length e
    have hlen' := congrArg List.length this
    simp at hlen hlen'
    omega

/-- The first part of such a road that is planned at once. -/
theorem Chain.reaching {K : Set Key} {ks : List Key} (h : Chain links ks) : ∀ (n : Nat) (x : F), (∀ j ∈ ks, j ∈ K) →
    ∃ q, Reaching links K n x q ∧ q.head? = ks.head? ∧ q <+: ks ∧ (q = ks ∨ n = 0 ∨ ¬ x < 200.0 ∨ 2 ≤ q.length) := by
  induction h with
  | @last a l hl _ ho =>
    intro n x hK
    refine ⟨[a], .stop (hK _ (by simp)) (.inr (.inr ?_)), rfl, List.prefix_refl _, .inl rfl⟩
    rintro b ⟨l', hl', hb⟩
    rw [hl] at hl'; cases hl'
    rw [ho] at hb; cases hb
  | @cons a b ks l hl _ ho _ ih =>
    intro n x hK
    by_cases hx : x < 200.0
    · cases n with
      | zero => exact ⟨[a], .stop (hK _ (by simp)) (.inl rfl), rfl, ⟨b :: ks, rfl⟩, .inr (.inl rfl)⟩
      | succ n =>
        obtain ⟨q, q1, q2, q3, -⟩ := ih n (x + l.length) fun j hj => hK j (by simp [hj])
        cases q with
        | nil => cases q2
        | cons b' q =>
          cases q2
          refine ⟨a :: b :: q, .go (hK _ (by simp)) hx hl (by rw [ho]; simp) q1, rfl, ?_, .inr (.inr (.inr (by simp)))⟩
          obtain ⟨t, ht⟩ := q3
          exact ⟨t, by rw [List.cons_append, ht]⟩
    · exact ⟨[a], .stop (hK _ (by simp)) (.inr (.inl hx)), rfl, ⟨b :: ks, rfl⟩, .inr (.inr (.inl hx))⟩

theorem Chain.reached {K : Set Key} {ks : List Key} (h : Chain links ks) : ∀ {n : Nat} {x : F} {q q' : List Key},
    (∀ j ∈ ks, j ∈ K) → Reaching links K n x q → q.head? = ks.head? → Reaching links K n x q' → q'.head? = ks.head? → q' = q := by
  induction h with
  | @last a l hl _ ho =>
    intro n x q q' _ hq e hq' e'
    have one : ∀ {q}, Reaching links K n x q → q.head? = some a → q = [a] := by
      intro q hq e
      cases hq with
      | stop => cases e; rfl
      | go _ _ hl' hj _ =>
        cases e
        rw [hl] at hl'; cases hl'
        rw [ho] at hj; cases hj
    rw [one hq e, one hq' e']
  | @cons a b ks l hl _ ho _ ih =>
    intro n x q q' hK hq e hq' e'
    have hb : b ∈ K := hK b (by simp)
    cases hq with
    | stop _ hs =>
      cases e
      cases hq' with
      | stop => cases e'; rfl
      | go _ hx hl' hj _ =>
        cases e'
        rcases hs with hs | hs | hs
        · omega
        · exact absurd hx hs
        · exact absurd hb (hs b ⟨l, hl, by rw [ho]; simp⟩)
    | go _ hx hl' hj hq =>
      cases e
      rw [hl] at hl'; cases hl'
      rw [ho, List.mem_singleton] at hj; subst hj
      cases hq' with
      | stop _ hs =>
        cases e'
        rcases hs with hs | hs | hs
        · omega
        · exact absurd hx hs
        · exact absurd hb (hs _ ⟨l, hl, by rw [ho]; simp⟩)
      | go _ _ hl' hj hq' =>
        cases e'
        rw [hl] at hl'; cases hl'
        rw [ho, List.mem_singleton] at hj; subst hj
        rw [ih (fun j hj => hK j (by simp [hj])) hq rfl hq' rfl]

omit [Flt F] in
theorem Chain.noLane (hN : NetInv strict links) {ks : List Key} (h : Chain links ks) {a b : Key} (ha : a ∈ ks) : ¬ LaneTo links a b := by
  rintro ⟨l, hl, hb⟩
  obtain ⟨l', hl', hg⟩ := h.get ha
  rw [hl] at hl'; cases hl'
  have := (hN.link a l hl).lc (List.ne_nil_of_mem hb)
  rw [hg] at this; cases this

/-- On a road without a choice, the vehicle plans a first part of it only. -/
theorem Chain.plan (hN : NetInv strict links) {a : Key} {ks : List Key} (h : Chain links (a :: ks)) {p p' : PathfindingModel}
    (hp : p.makePaths links = .ok p') (ha : p.src = a) (hK : ∀ j ∈ a :: ks, j ∈ mkeys p.matrix) :
    p'.matrix = p.matrix ∧ p'.paths ≠ [] ∧ ∃ q, (∀ p ∈ p'.paths, p.links = q) ∧ q <+: a :: ks ∧
      (q = a :: ks ∨ ¬ (0.0 : F) < 200.0 ∨ 2 ≤ q.length) := by
  subst ha
  obtain ⟨h1, h2, h3⟩ := makePaths_exact hp
  obtain ⟨q, q1, q2, q3, q4⟩ := h.reaching 7 0.0 hK
  refine ⟨h1, ?_, q, ?_, q3, ?_⟩
  · cases q with
    | nil => cases q2
    | cons a' q =>
      cases q2
      obtain ⟨p, hp, -⟩ := h3 _ _ (.inl rfl) q1
      exact List.ne_nil_of_mem hp
  · intro p hp
    obtain ⟨k, t, -, -, -, e, hk, hr, -⟩ := h2 p hp
    rcases hk with rfl | hk
    · exact h.reached hK q1 q2 hr (by rw [e]; rfl)
    · exact absurd hk (h.noLane hN (by simp))
  · rcases q4 with q4 | q4 | q4 | q4
    · exact .inl q4
    · omega
    · exact .inr (.inl q4)
    · exact .inr (.inr q4)

omit [Flt F] in
/-- A first part of the road that ends where the road ends is all of it. -/
theorem Chain.whole {ks q : List Key} {d : Key} (h : Chain links ks) (hd : ks.getLast? = some d) (hq : q <+: ks) : q.getLast? = some d ↔ q = ks := by
  constructor
  · intro e
    obtain ⟨t, rfl⟩ := hq
    cases ht : t with
    | nil => simp
    | cons x xs =>
      exfalso
      subst ht
      have hn := h.nodup
      rw [List.nodup_append] at hn
      have h1 := List.mem_of_getLast? e
      have h2 : d ∈ x :: xs := by
        rw [List.getLast?_append_of_ne_nil _ (by simp)] at hd
        exact List.mem_of_getLast? hd
      exact hn.2.2 d h1 d h2 rfl
  · rintro rfl; exact hd

/-- The vehicle is on a road without a choice, along `ks` to its destination, of which its planned paths follow the first part `q`. -/
structure Journey (links : LinkSet F) (v : Vehicle F) (ks q : List Key) : Prop where
  chain : Chain links ks
  here : ks.head? = v.linkId
  dst : ks.getLast? = some v.pathfind.dst
  lane : v.laneChange = none
  keys : ∀ j ∈ ks, j ∈ mkeys v.pathfind.matrix
  any : v.pathfind.paths ≠ []
  paths : ∀ p ∈ v.pathfind.paths, p.links = q ∧ (p.canExit = true ↔ q = ks)
  pre : q <+: ks
  long : q = ks ∨ ¬ (0.0 : F) < 200.0 ∨ 2 ≤ q.length
  route : v.route <+: ks
  exit : v.canExit = true ↔ v.route = ks

/-- When paths are chosen, the vehicle takes the planned one. -/
theorem Journey.choice {v v' : Vehicle F} {ks q : List Key} (h : Journey links v ks q) (hc : Chooses links v v') :
    Journey links v' ks q ∧ v'.route = q ∧ v'.pos = v.pos ∧ v'.halfLen = v.halfLen ∧ v'.acc = v.acc ∧ v'.vel = v.vel ∧ v'.pathfind = v.pathfind := by
  cases hc with
  | carriesOn hno _ =>
    rcases hno with hno | hno
    · rw [h.lane] at hno; cases hno
    · exact absurd hno h.any
  | keeps p _ hq e ev =>
    obtain ⟨pre, post, _, e', -⟩ := hq
    have := (h.paths p (by rw [e']; simp)).1
    subst ev
    exact ⟨h, e.symm.trans this, rfl, rfl, rfl, rfl, rfl⟩
  | takes p n _ hq _ hh _ ev =>
    obtain ⟨pre, post, _, e, -⟩ := hq
    obtain ⟨h1, h2⟩ := h.paths p (by rw [e]; simp)
    subst ev
    refine ⟨⟨h.chain, ?_, h.dst, h.lane, h.keys, h.any, h.paths, h.pre, h.long, by dsimp only; rw [h1]; exact h.pre, ?_⟩, h1, rfl, rfl, rfl, rfl, rfl⟩
    · rw [h.here]; exact hh.symm
    · dsimp only
      rw [h2, h1]
  | changes p link l x off sl pf _ hq hl hne' _ _ _ _ _ =>
    exfalso
    obtain ⟨pre, post, _, e, -⟩ := hq
    rw [(h.paths p (by rw [e]; simp)).1] at hl
    refine hne' ?_
    have hh := h.here
    rw [Vehicle.linkId] at hh
    rw [← hh]
    obtain ⟨t, ht⟩ := h.pre
    cases q with
    | nil => cases hl
    | cons b q => cases hl; rw [← ht]; rfl

variable {s s' s1 s2 s3 s4 s5 s6 : Sim F} {dt : F} {k : Key} {v v1 v2 v4 v' : Vehicle F}

/-- After its choice, a step keeps a vehicle on its journey. -/
theorem Journey.rest [Env] {ks q : List Key} (hr : StepRun strict s dt s1 s2 s3 s4 s5 s6 s')
    (ht : Trace s dt s1 s2 s3 s4 s' k v v1 v2 v4) (hc : Journey s.links v1 ks q) (hv' : s'.vehicles.get? k = some v') :
    (v'.route = v1.route ∧ Journey s'.links v' ks q ∨
      ∃ a ks' q', v1.route = a :: v'.route ∧ ks = a :: ks' ∧ Journey s'.links v' ks' q') ∧ v'.canExit = v1.canExit ∧ v'.pathfind.dst = v1.pathfind.dst := by
  obtain ⟨a, w, e2⟩ : ∃ a w, v2 = { v1 with acc := a, willQueueOrEnter := w } := by
    rcases ht.acc with ⟨-, -, e⟩ | ⟨-, n0, n1, vs, -, ha⟩
    · exact ⟨v1.acc, v1.willQueueOrEnter, e⟩
    · obtain ⟨a, w, e, -⟩ := ha.eq
      exact ⟨_, w, e⟩
  obtain ⟨sq, sq', hm, -⟩ := ht.move
  obtain ⟨-, m1, m2, m3, m4, m5, -⟩ := integrate_motion hm
  rw [e2] at m1 m2 m3 m4 m5
  dsimp only at m1 m2 m3 m4 m5
  rw [hc.lane, Option.filter_none] at m5
  cases ht.out with
  | stays u hu hp hstay =>
    rw [hv'] at hu; cases hu
    obtain ⟨p, d, r, c, rfl⟩ := hp
    dsimp only
    refine ⟨.inl ⟨m2, ⟨hc.chain.frame hr.frame, ?_, ?_, m5, ?_, ?_, ?_, hc.pre, hc.long, ?_, ?_⟩⟩, m4, by rw [m3]⟩
    · rw [hc.here]; show v1.route.head? = v4.route.head?; rw [m2]
    · dsimp only; rw [m3]; exact hc.dst
    · dsimp only; rw [m3]; exact hc.keys
    · dsimp only; rw [m3]; exact hc.any
    · dsimp only; rw [m3]; exact hc.paths
    · dsimp only; rw [m2]; exact hc.route
    · dsimp only; rw [m2, m4]; exact hc.exit
  | passes v5 u hp hne hu hpl =>
    rw [hv'] at hu; cases hu
    obtain ⟨b, rest, l, pf, hroute, hl, hlt, e5, -, hpf⟩ := hp.ex
    obtain ⟨p, d, r, c, rfl⟩ := hpl
    have hplan := hp.plan
    subst e5
    dsimp only at hne hplan ⊢
    obtain ⟨k', rest, rfl⟩ := List.exists_cons_of_ne_nil hne
    rw [m2] at hroute
    obtain ⟨t, eks⟩ := hc.route
    rw [hroute] at eks
    have hway := hc.chain
    have hdst := hc.dst
    have hkeys := hc.keys
    have hexit := hc.exit
    rw [← eks] at hway hdst hkeys hexit
    rw [List.cons_append, List.cons_append] at hway hdst hkeys hexit eks
    obtain ⟨hsrc, hd, hok⟩ := hpf k' rfl
    have hk' : ∀ j ∈ k' :: (rest ++ t), j ∈ mkeys v1.pathfind.matrix := fun j hj => hkeys j (List.mem_cons_of_mem _ hj)
    obtain ⟨links', hf, hmk⟩ := hplan k' rfl (by rw [m3]; exact hk' k' (by simp))
    rw [m3] at hmk
    have hf' : Frame s.links links' := hr.frame4.trans hf
    obtain ⟨g1, g2, q', g3, g4, g5⟩ := (hway.tail.frame hf').plan (hr.inv0.net.frame hf') hmk rfl (by simpa using hk')
    have hlast : (k' :: (rest ++ t)).getLast? = some v1.pathfind.dst := by rw [← hdst]; rfl
    refine ⟨.inr ⟨b, k' :: (rest ++ t), q', hroute, eks.symm, ⟨hway.tail.frame hr.frame, rfl, ?_, ?_, ?_, g2, fun p hp => ⟨g3 p hp, ?_⟩, g4, g5, ⟨t, rfl⟩, ?_⟩⟩,
      m4, by rw [hd, m3]⟩
    · dsimp only; rw [hd, m3, hlast]
    · dsimp only; rw [m5]; rfl
    · dsimp only; rw [g1]; exact hk'
    · rw [(hok p hp).exit, g3 p hp, m3]
      exact hway.tail.whole hlast g4
    · dsimp only
      rw [m4, hexit, hroute]
      constructor
      · intro e; injection e
      · intro e; rw [e]
  | leaves v5 _ _ hn => rw [hn] at hv'; cases hv'

/-! ### Setting the destination -/

omit [Flt F] in
theorem Chain.leads {a dst : Key} {ks : List Key} (h : Chain links ks) (ha : ks.head? = some a) (hd : ks.getLast? = some dst) :
    Leads links a dst := by
  induction h generalizing a with
  | last => cases ha; cases hd; exact .refl
  | @cons a b ks l hl _ ho _ ih =>
    cases ha
    exact (ih rfl (by rw [← hd]; rfl)).head (.inl ⟨l, hl, by rw [ho]; simp⟩)

omit [Flt F] in
theorem Chain.along (hN : NetInv strict links) {dst : Key} {ks : List Key} (h : Chain links ks)
    (hd : ks.getLast? = some dst) {route : List Key} {r : Key} (hh : route.head? = ks.head?) (hc : route.IsChain (Hop links))
    (hl : route.getLast? = some r) (hr : LaneStar links r dst) : ∀ j ∈ ks, j ∈ route := by
  have still : ∀ {ks}, Chain links ks → ∀ {a b}, a ∈ ks → LaneStar links a b → b = a := by
    intro ks hw a b ha hs
    rcases Relation.ReflTransGen.cases_head hs with e | ⟨c, hc, -⟩
    · exact e.symm
    · exact absurd hc (hw.noLane hN ha)
  induction h generalizing route with
  | last =>
    intro j hj
    rw [List.mem_singleton] at hj; subst hj
    exact List.mem_of_head? hh
  | @cons a b ks l ha hg ho hw ih =>
    have hw' := Chain.cons ha hg ho hw
    cases route with
    | nil => cases hh
    | cons a' rs =>
      cases hh
      cases rs with
      | nil =>
        cases hl
        have e := still hw' (by simp) hr
        subst e
        exfalso
        have h1 := hw'.nodup
        rw [List.nodup_cons] at h1
        exact h1.1 (List.mem_of_getLast? (by rw [← hd]; rfl))
      | cons b' rs =>
        obtain ⟨⟨c, hac, lc, hlc, hb⟩, hch⟩ := List.isChain_cons_cons.1 hc
        have e := still hw' (by simp) hac
        subst e
        rw [ha] at hlc; cases hlc
        rw [ho, List.mem_singleton] at hb; subst hb
        intro j hj
        rcases List.mem_cons.1 hj with rfl | hj
        · simp
        · exact List.mem_cons_of_mem _ (ih (by rw [← hd]; rfl) (route := b' :: rs) rfl hch (by rw [← hl]; rfl) j hj)

omit [Flt F] in
/-- A route along the network from the first link of a road without a choice is a first part of it. -/
theorem Chain.prefix {ks : List Key} (h : Chain links ks) {route : List Key} (hh : route.head? = ks.head?) (hc : route.IsChain (Conn links)) :
    route <+: ks := by
  induction h generalizing route with
  | @last a l hl _ ho =>
    cases route with
    | nil => exact List.nil_prefix
    | cons a' rs =>
      cases hh
      cases rs with
      | nil => exact List.prefix_refl _
      | cons b rs =>
        obtain ⟨⟨l', hl', hb⟩, -⟩ := List.isChain_cons_cons.1 hc
        rw [hl] at hl'; cases hl'
        rw [ho] at hb; cases hb
  | @cons a b ks l hl _ ho hw ih =>
    cases route with
    | nil => exact List.nil_prefix
    | cons a' rs =>
      cases hh
      cases rs with
      | nil => exact ⟨b :: ks, rfl⟩
      | cons b' rs =>
        obtain ⟨⟨l', hl', hb⟩, hch⟩ := List.isChain_cons_cons.1 hc
        rw [hl] at hl'; cases hl'
        rw [ho, List.mem_singleton] at hb; subst hb
        obtain ⟨t, ht⟩ := ih (route := b' :: rs) rfl hch
        exact ⟨t, by rw [← ht]; rfl⟩

/-- A vehicle sent to the end of the road it is on, and not yet following all of it, is on its journey. -/
theorem Chain.sent [Env] [LawfulDijkstra] {dst : Key} {ks : List Key} (h : Reach True s) (he : s.setVehicleDestination k dst = .ok s')
    (hv : s.getVehicle k = .ok v) (hv' : s'.getVehicle k = .ok v') (hlane : v.laneChange = none) (hw : Chain s.links ks)
    (ha : ks.head? = v.linkId) (hd : ks.getLast? = some dst) (hroute : v.route <+: ks) (hne : v.route ≠ ks) :
    (∃ q, Journey s'.links v' ks q) ∧ ∃ pf, pf.dst = dst ∧ v' = { v with pathfind := pf, canExit := false } := by
  obtain ⟨c1, c2, c3, p', e1, e2⟩ := setVehicleDestination_cases h he hv hv'
  obtain ⟨a, ks, rfl⟩ := List.exists_cons_of_ne_nil (l := ks) (by rintro rfl; cases hd)
  have ea : a = v.pathfind.src := by
    have : some a = some v.pathfind.src := ha.trans c1
    injection this
  have hl := hw.leads (a := v.pathfind.src) (by rw [← ea]; rfl) hd
  have hdv := hl.valid h.inv.net c2
  obtain ⟨g1, g2, us, route, c, -, -, r1, r2, ⟨r, r3, r4⟩, hm⟩ := reroute_route h.inv.net (p := { v.pathfind with dst }) c2 hdv hl e1
  have hin := hw.along h.inv.net hd (route := route) (by rw [r1, ea]; rfl) r2 r3 r4
  obtain ⟨-, k2⟩ := calcLaneMatrix_keys h.inv.net hm r2 r3 r4
  have hK : ∀ j ∈ a :: ks, j ∈ mkeys p'.matrix := fun j hj => k2 j (hin j hj)
  obtain ⟨q1, q2, q, q3, q4, q5⟩ := hw.plan h.inv.net e2 (by rw [g1, ea]) hK
  have hs' := (setVehicleDestination_spec (E := fun _ => True) h.inv (.inr trivial) (.inr trivial) (contains_of_get (getVeh_ok.1 hv))
    (.inr (.inr trivial))).ok he
  obtain ⟨u, pf, hu, x1, x2, x3, x4⟩ := hs'.veh
  rw [getVeh_ok.1 hv] at hu; cases hu
  have hg := getVeh_ok.1 hv'
  rw [x4, SlotMap.get?_modify_self, getVeh_ok.1 hv] at hg
  cases hg
  have hlk : s'.links = s.links := by rw [hs'.eq]
  rw [hlk]
  refine ⟨⟨q, hw, ha, ?_, hlane, ?_, q2, fun p hp => ⟨q3 p hp, ?_⟩, q4, q5, hroute, ⟨nofun, fun e => absurd e hne⟩⟩, pf, x2, rfl⟩
  · dsimp only; rw [x2]; exact hd
  · dsimp only at q1 ⊢; rw [q1]; exact hK
  · rw [(x3 p hp).exit, q3 p hp]
    exact hw.whole hd q4

end

end TrafficSim
