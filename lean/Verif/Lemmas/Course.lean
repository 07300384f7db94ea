import Verif.Props.LaneDist
import Verif.Props.PathChoice

/-! # Ways without a choice, and vehicles on them -/

namespace TrafficSim

section
variable {F : Type} [Flt F] {strict : Prop} {links links' : LinkSet F}

/-- A list of at most `n + 1` links, of which only the last may start 200 m or more from the start, where the first starts at `x`. -/
inductive Near (links : LinkSet F) : Nat → F → List Key → Prop
  | last {n : Nat} {x : F} {a : Key} : Near links n x [a]
  | cons {n : Nat} {x : F} {a b : Key} {ks : List Key} {l : Link F} : x < 200.0 → links.get? a = some l →
      Near links n (x + l.length) (b :: ks) → Near links (n + 1) x (a :: b :: ks)

/-- From the first of these links one can only drive along them: each is connected just to the next, the last to none, and none is
in a group.  From each of them, the rest is near enough to be planned. -/
inductive OnlyWay (links : LinkSet F) : List Key → Prop
  | last {a : Key} {l : Link F} : links.get? a = some l → l.group = none → l.linksOut = [] → OnlyWay links [a]
  | cons {a b : Key} {ks : List Key} {l : Link F} : links.get? a = some l → l.group = none → l.linksOut = [b] →
      Near links 7 0.0 (a :: b :: ks) → OnlyWay links (b :: ks) → OnlyWay links (a :: b :: ks)

theorem Near.frame (hf : Frame links links') {n : Nat} {x : F} {ks : List Key} (h : Near links n x ks) : Near links' n x ks := by
  induction h with
  | last => exact .last
  | cons hx hl _ ih =>
    obtain ⟨l', hl', e⟩ := hf.fwd _ _ hl
    refine .cons hx hl' ?_
    unfold Link.length at ih ⊢
    rw [e.curve]; exact ih

theorem OnlyWay.frame (hf : Frame links links') {ks : List Key} (h : OnlyWay links ks) : OnlyWay links' ks := by
  induction h with
  | last hl hg ho =>
    obtain ⟨l', hl', e⟩ := hf.fwd _ _ hl
    exact .last hl' (by rw [e.group, hg]) (by rw [e.linksOut, ho])
  | cons hl hg ho hn _ ih =>
    obtain ⟨l', hl', e⟩ := hf.fwd _ _ hl
    exact .cons hl' (by rw [e.group, hg]) (by rw [e.linksOut, ho]) (hn.frame hf) ih

theorem OnlyWay.near {ks : List Key} (h : OnlyWay links ks) : Near links 7 0.0 ks := by
  cases h with
  | last => exact .last
  | cons _ _ _ hn _ => exact hn

theorem OnlyWay.unique {ks : List Key} (h : OnlyWay links ks) {ks' : List Key} (h' : OnlyWay links ks') (e : ks'.head? = ks.head?) :
    ks' = ks := by
  induction h generalizing ks' with
  | last hl _ ho =>
    cases h' with
    | last => cases e; rfl
    | cons hl' _ ho' _ _ =>
      cases e
      rw [hl] at hl'; cases hl'
      rw [ho] at ho'; cases ho'
  | cons hl _ ho _ _ ih =>
    cases h' with
    | last hl' _ ho' =>
      cases e
      rw [hl] at hl'; cases hl'
      rw [ho] at ho'; cases ho'
    | cons hl' _ ho' _ h' =>
      cases e
      rw [hl] at hl'; cases hl'
      rw [ho] at ho'; cases ho'
      rw [ih h' rfl]

theorem OnlyWay.suffix {pre : List Key} {a : Key} {ks : List Key} (h : OnlyWay links (pre ++ a :: ks)) : OnlyWay links (a :: ks) := by
  induction pre with
  | nil => exact h
  | cons b pre ih =>
    refine ih ?_
    generalize e : pre ++ a :: ks = t at h
    have : b :: pre ++ a :: ks = b :: t := by rw [← e]; rfl
    rw [this] at h
    cases h with
    | last => simp at e
    | cons _ _ _ _ h => exact h

theorem OnlyWay.get {ks : List Key} (h : OnlyWay links ks) {j : Key} (hj : j ∈ ks) : ∃ l, links.get? j = some l ∧ l.group = none := by
  obtain ⟨pre, post, rfl⟩ := List.append_of_mem hj
  cases h.suffix with
  | last hl hg _ => exact ⟨_, hl, hg⟩
  | cons hl hg _ _ _ => exact ⟨_, hl, hg⟩

theorem OnlyWay.tail {a b : Key} {ks : List Key} (h : OnlyWay links (a :: b :: ks)) : OnlyWay links (b :: ks) := by
  cases h with
  | cons _ _ _ _ h => exact h

/-- A way without a choice does not come back. -/
theorem OnlyWay.nodup {ks : List Key} (h : OnlyWay links ks) : ks.Nodup := by
  induction h with
  | last => simp
  | @cons a b ks l hl hg ho hn h ih =>
    rw [List.nodup_cons]
    refine ⟨fun ha => ?_, ih⟩
    obtain ⟨pre, post, e⟩ := List.append_of_mem ha
    have h1 : OnlyWay links (a :: post) := by rw [e] at h; exact h.suffix
    have := (OnlyWay.cons hl hg ho hn h).unique h1 rfl
    have hlen := congrArg List.length e
    have hlen' := congrArg List.length this
    simp at hlen hlen'
    omega

theorem OnlyWay.reaching {K : Set Key} {ks : List Key} (h : OnlyWay links ks) : ∀ {n : Nat} {x : F}, Near links n x ks →
    (∀ j ∈ ks, j ∈ K) → Reaching links K n x ks := by
  induction h with
  | last hl _ ho =>
    intro n x _ hK
    refine .stop (hK _ (by simp)) (.inr (.inr ?_))
    rintro b ⟨l', hl', hb⟩
    rw [hl] at hl'; cases hl'
    rw [ho] at hb; cases hb
  | cons hl _ ho _ _ ih =>
    intro n x hn hK
    cases hn with
    | cons hx hl' hn =>
      exact .go (hK _ (by simp)) hx hl' (by rw [hl] at hl'; cases hl'; rw [ho]; simp) (ih hn fun j hj => hK j (by simp [hj]))

theorem OnlyWay.reached {K : Set Key} {ks : List Key} (h : OnlyWay links ks) : ∀ {n : Nat} {x : F} {ks' : List Key}, Near links n x ks →
    (∀ j ∈ ks, j ∈ K) → Reaching links K n x ks' → ks'.head? = ks.head? → ks' = ks := by
  induction h with
  | last hl _ ho =>
    intro n x ks' _ _ hr e
    cases hr with
    | stop => cases e; rfl
    | go _ _ hl' hj _ =>
      cases e
      rw [hl] at hl'; cases hl'
      rw [ho] at hj; cases hj
  | @cons a b ks l hl _ ho _ _ ih =>
    intro n x ks' hn hK hr e
    cases hn with
    | cons hx hl' hn =>
      rw [hl] at hl'; cases hl'
      cases hr with
      | stop _ hs =>
        cases e
        rcases hs with hs | hs | hs
        · omega
        · exact absurd hx hs
        · exact absurd (hK b (by simp)) (hs b ⟨l, hl, by rw [ho]; simp⟩)
      | go _ _ hl' hj hr =>
        cases e
        rw [hl] at hl'; cases hl'
        rw [ho, List.mem_singleton] at hj; subst hj
        rw [ih hn (fun j hj => hK j (by simp [hj])) hr rfl]

theorem OnlyWay.noLane (hN : NetInv strict links) {ks : List Key} (h : OnlyWay links ks) {a b : Key} (ha : a ∈ ks) : ¬ LaneTo links a b := by
  rintro ⟨l, hl, hb⟩
  obtain ⟨l', hl', hg⟩ := h.get ha
  rw [hl] at hl'; cases hl'
  have := (hN.link a l hl).lc (List.ne_nil_of_mem hb)
  rw [hg] at this; cases this

/-- Over a way without a choice, the vehicle plans this way only. -/
theorem OnlyWay.plan (hN : NetInv strict links) {a : Key} {ks : List Key} (h : OnlyWay links (a :: ks)) {p p' : PathfindingModel}
    (hp : p.makePaths links = .ok p') (ha : p.src = a) (hK : ∀ j ∈ a :: ks, j ∈ mkeys p.matrix) :
    p'.matrix = p.matrix ∧ p'.paths ≠ [] ∧ ∀ q ∈ p'.paths, q.links = a :: ks := by
  subst ha
  obtain ⟨h1, h2, h3⟩ := makePaths_exact hp
  refine ⟨h1, ?_, ?_⟩
  · obtain ⟨q, hq, -⟩ := h3 _ _ (.inl rfl) (h.reaching h.near hK)
    exact List.ne_nil_of_mem hq
  · intro q hq
    obtain ⟨k, t, -, -, -, e, hk, hr, -⟩ := h2 q hq
    rcases hk with rfl | hk
    · exact h.reached h.near hK hr (by rw [e]; rfl)
    · exact absurd hk (h.noLane hN (by simp))

/-- The only way to the destination of a vehicle is along `ks`, which all its planned paths follow. -/
structure Course (links : LinkSet F) (v : Vehicle F) (ks : List Key) : Prop where
  way : OnlyWay links ks
  here : ks.head? = v.linkId
  dst : ks.getLast? = some v.pathfind.dst
  lane : v.laneChange = none
  keys : ∀ j ∈ ks, j ∈ mkeys v.pathfind.matrix
  any : v.pathfind.paths ≠ []
  paths : ∀ p ∈ v.pathfind.paths, p.links = ks ∧ p.canExit = true

/-- A vehicle that follows its only way keeps to it. -/
theorem Course.keeps {v v' : Vehicle F} (h : Course links v v.route) (hc : Chooses links v v') : v' = v := by
  cases hc with
  | carriesOn _ e => exact e
  | keeps p _ _ _ e => exact e
  | takes p n _ hq hne _ _ _ =>
    obtain ⟨pre, post, _, e, -⟩ := hq
    exact absurd (h.paths p (by rw [e]; simp)).1 hne
  | changes p link l x off sl pf _ hq hl hne _ _ _ _ _ =>
    obtain ⟨pre, post, _, e, -⟩ := hq
    rw [(h.paths p (by rw [e]; simp)).1] at hl
    exact absurd hl hne

/-- A vehicle that does not yet follow its only way takes it. -/
theorem Course.takes {v v' : Vehicle F} {ks : List Key} (h : Course links v ks) (hne : v.route ≠ ks) (hc : Chooses links v v') :
    Course links v' ks ∧ v'.route = ks ∧ v'.canExit = true := by
  cases hc with
  | carriesOn hno _ =>
    rcases hno with hno | hno
    · rw [h.lane] at hno; cases hno
    · exact absurd hno h.any
  | keeps p _ hq e _ =>
    obtain ⟨pre, post, _, e', -⟩ := hq
    exact absurd (e.symm.trans (h.paths p (by rw [e']; simp)).1) hne
  | takes p n _ hq _ _ _ ev =>
    obtain ⟨pre, post, _, e, -⟩ := hq
    obtain ⟨h1, h2⟩ := h.paths p (by rw [e]; simp)
    subst ev
    exact ⟨⟨h.way, by rw [Vehicle.linkId, h1], h.dst, h.lane, h.keys, h.any, h.paths⟩, h1, h2⟩
  | changes p link l x off sl pf _ hq hl hne' _ _ _ _ _ =>
    obtain ⟨pre, post, _, e, -⟩ := hq
    rw [(h.paths p (by rw [e]; simp)).1, h.here] at hl
    exact absurd hl hne'

variable {s s' s1 s2 s3 s4 s5 s6 : Sim F} {dt : F} {k : Key} {v v1 v2 v4 v' : Vehicle F}

theorem Course.first [Env] (h : Course s.links v v.route) (hr : StepRun strict s dt s1 s2 s3 s4 s5 s6 s') (hv : s.vehicles.get? k = some v)
    (hv1 : s1.vehicles.get? k = some v1) : v1 = v := by
  rcases hr.chooses hv hv1 with ⟨-, e⟩ | ⟨-, hc⟩
  · exact e
  · exact h.keeps hc

/-- After its choice, a step keeps a vehicle on its course and does not change its permission to leave. -/
theorem Course.rest [Env] (hr : StepRun strict s dt s1 s2 s3 s4 s5 s6 s')
    (ht : Trace s dt s1 s2 s3 s4 s' k v v1 v2 v4) (hc : Course s.links v1 v1.route) (hv' : s'.vehicles.get? k = some v') :
    Course s'.links v' v'.route ∧ v'.canExit = v1.canExit ∧ v'.pathfind.dst = v1.pathfind.dst ∧
      (v'.route = v1.route ∨ ∃ a, v1.route = a :: v'.route) := by
  obtain ⟨a, w, e2⟩ : ∃ a w, v2 = { v1 with acc := a, willQueueOrEnter := w } := by
    rcases ht.acc with ⟨-, -, e⟩ | ⟨-, n0, n1, vs, -, ha⟩
    · exact ⟨v1.acc, v1.willQueueOrEnter, e⟩
    · obtain ⟨a, w, e, -⟩ := ha.eq
      exact ⟨_, w, e⟩
  obtain ⟨sq, sq', hm, -⟩ := ht.move
  obtain ⟨-, m1, m2, m3, m4, m5, -⟩ := integrate_motion hm
  rw [e2] at m1 m2 m3 m4 m5
  dsimp only at m1 m2 m3 m4 m5
  rw [hc.lane, Option.filter_none] at m5
  cases ht.out with
  | stays u hu hp hstay =>
    rw [hv'] at hu; cases hu
    obtain ⟨p, d, r, c, rfl⟩ := hp
    dsimp only
    refine ⟨⟨?_, rfl, ?_, m5, ?_, ?_, ?_⟩, m4, by rw [m3], .inl m2⟩
    · rw [m2]; exact hc.way.frame hr.frame
    · dsimp only; rw [m2, m3]; exact hc.dst
    · dsimp only; rw [m2, m3]; exact hc.keys
    · dsimp only; rw [m3]; exact hc.any
    · dsimp only; rw [m2, m3]; exact hc.paths
  | passes v5 u hp hne hu hpl =>
    rw [hv'] at hu; cases hu
    obtain ⟨b, rest, l, pf, hroute, hl, hlt, e5, -, hpf⟩ := hp.ex
    obtain ⟨p, d, r, c, rfl⟩ := hpl
    have hplan := hp.plan
    subst e5
    dsimp only at hne hplan ⊢
    obtain ⟨k', rest, rfl⟩ := List.exists_cons_of_ne_nil hne
    rw [m2] at hroute
    have hway := hc.way
    have hdst := hc.dst
    have hkeys := hc.keys
    rw [hroute] at hway hdst hkeys
    obtain ⟨hsrc, hd, hok⟩ := hpf k' rfl
    have hk' : ∀ j ∈ k' :: rest, j ∈ mkeys v1.pathfind.matrix := fun j hj => hkeys j (List.mem_cons_of_mem _ hj)
    obtain ⟨links', hf, hmk⟩ := hplan k' rfl (by rw [m3]; exact hk' k' (by simp))
    rw [m3] at hmk
    have hf' : Frame s.links links' := hr.frame4.trans hf
    obtain ⟨g1, g2, g3⟩ := (hway.tail.frame hf').plan (hr.inv0.net.frame hf') hmk rfl (by simpa using hk')
    have hlast : (k' :: rest).getLast? = some v1.pathfind.dst := by rw [← hdst]; rfl
    refine ⟨⟨hway.tail.frame hr.frame, rfl, ?_, ?_, ?_, g2, fun p hp => ⟨g3 p hp, ?_⟩⟩, m4, by rw [hd, m3], .inr ⟨b, hroute⟩⟩
    · dsimp only; rw [hd, m3, hlast]
    · dsimp only; rw [m5]; rfl
    · dsimp only; rw [g1]; exact hk'
    · rw [(hok p hp).exit, g3 p hp, m3, hlast]
  | leaves v5 _ _ hn => rw [hn] at hv'; cases hv'

/-- A step keeps a vehicle on its course and does not change its permission to leave. -/
theorem Course.step [Env] [LawfulDijkstra] (hc : Course s.links v v.route) (h : Reach strict s) (hst : s.step dt = .ok s')
    (hv : s.vehicles.get? k = some v) (hv' : s'.vehicles.get? k = some v') :
    Course s'.links v' v'.route ∧ v'.canExit = v.canExit ∧ v'.pathfind.dst = v.pathfind.dst ∧
      (v'.route = v.route ∨ ∃ a, v.route = a :: v'.route) := by
  obtain ⟨s1, s2, s3, s4, s5, s6, hr⟩ := (step_spec h.inv dt).ok hst
  obtain ⟨v1, v2, v4, ht⟩ := hr.trace hv
  have e1 := hc.first hr hv ht.get1
  subst e1
  exact Course.rest hr ht hc hv'

/-! ### Setting the destination -/

theorem OnlyWay.leads {a dst : Key} {ks : List Key} (h : OnlyWay links ks) (ha : ks.head? = some a) (hd : ks.getLast? = some dst) :
    Leads links a dst := by
  induction h generalizing a with
  | last => cases ha; cases hd; exact .refl
  | @cons a b ks l hl _ ho _ _ ih =>
    cases ha
    exact (ih rfl (by rw [← hd]; rfl)).head (.inl ⟨l, hl, by rw [ho]; simp⟩)

theorem OnlyWay.route (hN : NetInv strict links) {dst : Key} {ks : List Key} (h : OnlyWay links ks)
    (hd : ks.getLast? = some dst) {route : List Key} {r : Key} (hh : route.head? = ks.head?) (hc : route.IsChain (Hop links))
    (hl : route.getLast? = some r) (hr : LaneStar links r dst) : ∀ j ∈ ks, j ∈ route := by
  have still : ∀ {ks}, OnlyWay links ks → ∀ {a b}, a ∈ ks → LaneStar links a b → b = a := by
    intro ks hw a b ha hs
    rcases Relation.ReflTransGen.cases_head hs with e | ⟨c, hc, -⟩
    · exact e.symm
    · exact absurd hc (hw.noLane hN ha)
  induction h generalizing route with
  | last =>
    intro j hj
    rw [List.mem_singleton] at hj; subst hj
    exact List.mem_of_head? hh
  | @cons a b ks l ha hg ho hn hw ih =>
    have hw' := OnlyWay.cons ha hg ho hn hw
    cases route with
    | nil => cases hh
    | cons a' rs =>
      cases hh
      cases rs with
      | nil =>
        cases hl
        have e := still hw' (by simp) hr
        subst e
        exfalso
        have h1 := hw'.nodup
        rw [List.nodup_cons] at h1
        exact h1.1 (List.mem_of_getLast? (by rw [← hd]; rfl))
      | cons b' rs =>
        obtain ⟨⟨c, hac, lc, hlc, hb⟩, hch⟩ := List.isChain_cons_cons.1 hc
        have e := still hw' (by simp) hac
        subst e
        rw [ha] at hlc; cases hlc
        rw [ho, List.mem_singleton] at hb; subst hb
        intro j hj
        rcases List.mem_cons.1 hj with rfl | hj
        · simp
        · exact List.mem_cons_of_mem _ (ih (by rw [← hd]; rfl) (route := b' :: rs) rfl hch (by rw [← hl]; rfl) j hj)

/-- A vehicle sent to the end of its only way has this course, and no permission to leave at first. -/
theorem OnlyWay.sent [Env] [LawfulDijkstra] {dst : Key} {ks : List Key} (h : Reach True s) (he : s.setVehicleDestination k dst = .ok s')
    (hv : s.getVehicle k = .ok v) (hv' : s'.getVehicle k = .ok v') (hlane : v.laneChange = none) (hw : OnlyWay s.links ks)
    (ha : ks.head? = v.linkId) (hd : ks.getLast? = some dst) :
    Course s'.links v' ks ∧ v'.canExit = false ∧ v'.route = v.route ∧ v'.pathfind.dst = dst := by
  obtain ⟨c1, c2, c3, p', e1, e2⟩ := setVehicleDestination_cases h he hv hv'
  obtain ⟨a, ks, rfl⟩ := List.exists_cons_of_ne_nil (l := ks) (by rintro rfl; cases hd)
  have ea : a = v.pathfind.src := by
    have : some a = some v.pathfind.src := ha.trans c1
    injection this
  have hl := hw.leads (a := v.pathfind.src) (by rw [← ea]; rfl) hd
  have hdv := hl.valid h.inv.net c2
  obtain ⟨g1, g2, us, route, c, -, -, r1, r2, ⟨r, r3, r4⟩, hm⟩ := reroute_route h.inv.net (p := { v.pathfind with dst }) c2 hdv hl e1
  have hin := hw.route h.inv.net hd (route := route) (by rw [r1, ea]; rfl) r2 r3 r4
  obtain ⟨-, k2⟩ := calcLaneMatrix_keys h.inv.net hm r2 r3 r4
  have hK : ∀ j ∈ a :: ks, j ∈ mkeys p'.matrix := fun j hj => k2 j (hin j hj)
  obtain ⟨q1, q2, q3⟩ := hw.plan h.inv.net e2 (by rw [g1, ea]) hK
  have hs' := (setVehicleDestination_spec (E := fun _ => True) h.inv (.inr trivial) (.inr trivial) (contains_of_get (getVeh_ok.1 hv))
    (.inr (.inr trivial))).ok he
  obtain ⟨u, pf, hu, x1, x2, x3, x4⟩ := hs'.veh
  rw [getVeh_ok.1 hv] at hu; cases hu
  have hg := getVeh_ok.1 hv'
  rw [x4, SlotMap.get?_modify_self, getVeh_ok.1 hv] at hg
  cases hg
  have hlk : s'.links = s.links := by rw [hs'.eq]
  rw [hlk]
  refine ⟨⟨hw, ha, ?_, hlane, ?_, q2, fun p hp => ⟨q3 p hp, ?_⟩⟩, c3, rfl, ?_⟩
  · dsimp only; rw [x2]; exact hd
  · dsimp only at q1 ⊢; rw [q1]; exact hK
  · rw [(x3 p hp).exit, q3 p hp]; exact hd
  · exact x2

end

end TrafficSim
