import Verif.Lemmas.Dijkstra
import Verif.Lemmas.LaneDist
import Verif.Props.Network
import Verif.Props.Routes

/-! # C73, C74: what the planned paths and their distances mean, and which route they follow -/

namespace TrafficSim

section
variable {F : Type} [Flt F] {strict : Prop}

/-- `y` is `x` and the lengths of all the links of the path but the last. -/
inductive Lengths (links : LinkSet F) : F → List Key → F → Prop
  | last (x : F) (k : Key) : Lengths links x [k] x
  | next {x y : F} {k j : Key} {ks : List Key} {l : Link F} : links.get? k = some l →
      Lengths links (x + l.length) (j :: ks) y → Lengths links x (k :: j :: ks) y

/-- A way along connections over the links in `K`, for at most `n` more links than the first, continued as long as less than
200 m (starting from `x`) are planned and one of the following links is in `K`. -/
inductive Reaching (links : LinkSet F) (K : Set Key) : Nat → F → List Key → Prop
  | stop {n : Nat} {x : F} {k : Key} : k ∈ K → (n = 0 ∨ ¬ x < 200.0 ∨ ∀ b, Conn links k b → b ∉ K) →
      Reaching links K n x [k]
  | go {n : Nat} {x : F} {k j : Key} {ks : List Key} {l : Link F} : k ∈ K → x < 200.0 → links.get? k = some l →
      j ∈ l.linksOut → Reaching links K n (x + l.length) (j :: ks) → Reaching links K (n + 1) x (k :: j :: ks)

omit [Flt F] in
theorem mapM_ok_mem {α β : Type} {f : α → M β} : ∀ {xs : List α} {ys : List β}, xs.mapM f = .ok ys →
    (∀ x ∈ xs, ∃ y ∈ ys, f x = .ok y) ∧ ∀ y ∈ ys, ∃ x ∈ xs, f x = .ok y := by
  intro xs
  induction xs with
  | nil => intro ys h; rw [List.mapM_nil, M_pure_ok] at h; subst h; exact ⟨nofun, nofun⟩
  | cons x xs ih =>
    intro ys h
    rw [List.mapM_cons, M_bind_ok] at h
    obtain ⟨y, h1, h⟩ := h
    rw [M_bind_ok] at h
    obtain ⟨ys', h2, h⟩ := h
    rw [M_pure_ok] at h; subst h
    obtain ⟨i1, i2⟩ := ih h2
    simp only [List.mem_cons, exists_eq_or_imp, forall_eq_or_imp]
    exact ⟨⟨.inl h1, fun a ha => .inr (i1 a ha)⟩, .inl h1, fun b hb => .inr (i2 b hb)⟩

theorem makePathsInner_exact {links : LinkSet F} {m : List (Key × LaneDists)} {dst : Key} :
    ∀ (n : Nat) (pre : List Key) (k : Key) (x : F) (r : Option (List Path)), makePathsInner links m dst n pre k x = .ok r →
    (r = none ↔ k ∉ mkeys m) ∧ (∀ ps, r = some ps → ps ≠ []) ∧
    (∀ ps, r = some ps → ∀ p ∈ ps, ∃ ks last d y, p.links = pre ++ k :: ks ∧ Reaching links (mkeys m) n x (k :: ks) ∧
      Lengths links x (k :: ks) y ∧ (k :: ks).getLast? = some last ∧ mget m last = some d ∧ p.dists = d.offset y) ∧
    ∀ ks, Reaching links (mkeys m) n x (k :: ks) → ∃ ps, r = some ps ∧ ∃ p ∈ ps, p.links = pre ++ k :: ks := by
  intro n
  induction n with
  | zero =>
    intro pre k x r h
    unfold makePathsInner at h
    cases hm : mget m k with
    | none =>
      rw [hm] at h
      rw [M_pure_ok] at h; subst h
      have hk : k ∉ mkeys m := by simp [mkeys, hm]
      exact ⟨by simp [hk], nofun, nofun, fun ks hr => absurd (by cases hr; assumption) hk⟩
    | some d =>
      rw [hm] at h
      have hk : k ∈ mkeys m := by simp [mkeys, hm]
      cases h
      refine ⟨by simp [hk], by rintro _ ⟨⟩; simp, ?_, ?_⟩
      · rintro _ ⟨⟩ p hp
        rw [List.mem_singleton] at hp; subst hp
        exact ⟨[], k, d, x, rfl, .stop hk (.inl rfl), .last x k, rfl, hm, rfl⟩
      · intro ks hr
        cases hr
        exact ⟨_, rfl, _, List.mem_singleton.2 rfl, rfl⟩
  | succ n ih =>
    intro pre k x r h
    unfold makePathsInner at h
    cases hm : mget m k with
    | none =>
      rw [hm] at h
      rw [M_pure_ok] at h; subst h
      have hk : k ∉ mkeys m := by simp [mkeys, hm]
      exact ⟨by simp [hk], nofun, nofun, fun ks hr => absurd (by cases hr <;> assumption) hk⟩
    | some d =>
      rw [hm] at h
      have hk : k ∈ mkeys m := by simp [mkeys, hm]
      dsimp only at h
      have stop : ∀ r : Option (List Path), (n + 1 = 0 ∨ ¬ x < 200.0 ∨ ∀ b, Conn links k b → b ∉ mkeys m) →
          r = some [{ links := pre ++ [k], dists := d.offset x, canExit := decide (k = dst) }] →
          (r = none ↔ k ∉ mkeys m) ∧ (∀ ps, r = some ps → ps ≠ []) ∧
          (∀ ps, r = some ps → ∀ p ∈ ps, ∃ ks last d y, p.links = pre ++ k :: ks ∧ Reaching links (mkeys m) (n + 1) x (k :: ks) ∧
            Lengths links x (k :: ks) y ∧ (k :: ks).getLast? = some last ∧ mget m last = some d ∧ p.dists = d.offset y) ∧
          ∀ ks, Reaching links (mkeys m) (n + 1) x (k :: ks) → ∃ ps, r = some ps ∧ ∃ p ∈ ps, p.links = pre ++ k :: ks := by
        rintro r hs rfl
        refine ⟨by simp [hk], by rintro _ ⟨⟩; simp, ?_, ?_⟩
        · rintro _ ⟨⟩ p hp
          rw [List.mem_singleton] at hp; subst hp
          exact ⟨[], k, d, x, rfl, .stop hk hs, .last x k, rfl, hm, rfl⟩
        · intro ks hr
          cases hr with
          | stop => exact ⟨_, rfl, _, List.mem_singleton.2 rfl, rfl⟩
          | @go _ _ _ j ks l _ hx hl hj hr' =>
            exfalso
            rcases hs with hs | hs | hs
            · omega
            · exact hs hx
            · refine hs j ⟨l, hl, hj⟩ ?_
              cases hr' <;> assumption
      split at h
      · rename_i hx
        rw [M_bind_ok] at h
        obtain ⟨l, hl, h⟩ := h
        rw [getLink_ok] at hl
        rw [M_bind_ok] at h
        obtain ⟨rs, hrs, h⟩ := h
        rw [pure_bind] at h
        obtain ⟨left, right⟩ := mapM_ok_mem hrs
        split at h
        · rename_i hemp
          refine stop r (.inr (.inr ?_)) ?_
          · rintro b ⟨l', hl', hb⟩ hbm
            rw [hl] at hl'; cases hl'
            obtain ⟨r', hr', e⟩ := left b hb
            obtain ⟨i1, -⟩ := ih _ _ _ _ e
            cases hr'' : r' with
            | none => exact i1.1 hr'' hbm
            | some ps =>
              have : ps ∈ rs.filterMap id := List.mem_filterMap.2 ⟨r', hr', hr''⟩
              rw [List.isEmpty_iff.1 hemp] at this; cases this
          · cases h; rfl
        · rename_i hne
          cases h
          have nonempty : ∀ ps ∈ rs.filterMap id, ps ≠ [] := by
            intro ps hps
            obtain ⟨r', hr', e⟩ := List.mem_filterMap.1 hps
            obtain ⟨j, hj, e'⟩ := right r' hr'
            exact (ih _ _ _ _ e').2.1 ps e
          refine ⟨by simp [hk], ?_, ?_, ?_⟩
          · rintro _ ⟨⟩
            cases hc : rs.filterMap id with
            | nil => rw [hc] at hne; exact absurd rfl hne
            | cons a cs =>
              intro e
              have := nonempty a (by rw [hc]; simp)
              simp at e
              exact this e.1
          · rintro _ ⟨⟩ p hp
            obtain ⟨ps, hps, hp⟩ := List.mem_flatten.1 hp
            obtain ⟨r', hr', e⟩ := List.mem_filterMap.1 hps
            obtain ⟨j, hj, e'⟩ := right r' hr'
            obtain ⟨ks, last, d', y, h1, h2, h3, h4, h5, h6⟩ := (ih _ _ _ _ e').2.2.1 ps e p hp
            exact ⟨j :: ks, last, d', y, by rw [h1]; simp, .go hk hx hl hj h2, .next hl h3,
              by rw [List.getLast?_cons_cons]; exact h4, h5, h6⟩
          · intro ks hr
            refine ⟨_, rfl, ?_⟩
            cases hr with
            | stop _ hs =>
              exfalso
              rcases hs with hs | hs | hs
              · omega
              · exact hs hx
              · cases hc : rs.filterMap id with
                | nil => rw [hc] at hne; exact absurd rfl hne
                | cons a cs =>
                  have : a ∈ rs.filterMap id := by rw [hc]; simp
                  obtain ⟨r', hr', e⟩ := List.mem_filterMap.1 this
                  obtain ⟨j, hj, e'⟩ := right r' hr'
                  refine hs j ⟨l, hl, hj⟩ ?_
                  by_contra hn
                  rw [(ih _ _ _ _ e').1.2 hn] at e
                  cases e
            | @go _ _ _ j ks l' _ _ hl' hj hr' =>
              rw [hl] at hl'; cases hl'
              obtain ⟨r', hr'', e⟩ := left j hj
              obtain ⟨ps, e1, p, hp, e2⟩ := (ih _ _ _ _ e).2.2.2 ks hr'
              exact ⟨p, List.mem_flatten.2 ⟨ps, List.mem_filterMap.2 ⟨r', hr'', e1⟩, hp⟩, by rw [e2]; simp⟩
      · rename_i hx
        refine stop r (.inr (.inl hx)) ?_
        cases h; rfl

/-- The planned paths are exactly the ways from the link of the vehicle and from the lanes it may change to. -/
theorem makePaths_exact {links : LinkSet F} {p p' : PathfindingModel} (h : p.makePaths links = .ok p') :
    p'.matrix = p.matrix ∧ (∀ q ∈ p'.paths, ∃ k ks last d y, q.links = k :: ks ∧ (k = p.src ∨ LaneTo links p.src k) ∧
      Reaching links (mkeys p.matrix) 7 0.0 q.links ∧ Lengths links 0.0 q.links y ∧ q.links.getLast? = some last ∧
      mget p.matrix last = some d ∧ q.dists = d.offset y) ∧
    ∀ k ks, (k = p.src ∨ LaneTo links p.src k) → Reaching links (mkeys p.matrix) 7 (0.0 : F) (k :: ks) → ∃ q ∈ p'.paths, q.links = k :: ks := by
  unfold PathfindingModel.makePaths at h
  rw [M_bind_ok] at h
  obtain ⟨own, hown, h⟩ := h
  rw [M_bind_ok] at h
  obtain ⟨l, hl, h⟩ := h
  rw [getLink_ok] at hl
  rw [M_bind_ok] at h
  obtain ⟨others, hoth, h⟩ := h
  rw [M_pure_ok] at h; subst h
  obtain ⟨left, right⟩ := mapM_ok_mem hoth
  have start : ∀ k ∈ p.src :: l.laneChanges, k = p.src ∨ LaneTo links p.src k := by
    intro k hk
    rcases List.mem_cons.1 hk with e | hk
    · exact .inl e
    · exact .inr ⟨l, hl, hk⟩
  refine ⟨rfl, ?_, ?_⟩
  · intro q hq
    obtain ⟨ps, hps, hq⟩ := List.mem_flatten.1 hq
    obtain ⟨r, hr, e⟩ := List.mem_filterMap.1 hps
    have : ∃ k ∈ p.src :: l.laneChanges, makePathsInner links p.matrix p.dst 7 [] k (0.0 : F) = .ok r := by
      rcases List.mem_cons.1 hr with rfl | hr
      · exact ⟨p.src, by simp, hown⟩
      · obtain ⟨k, hk, h⟩ := right r hr
        exact ⟨k, by simp [hk], h⟩
    obtain ⟨k, hk, hkr⟩ := this
    obtain ⟨ks, last, d, y, h1, h2, h3, h4, h5, h6⟩ := (makePathsInner_exact _ _ _ _ _ hkr).2.2.1 ps e q hq
    rw [List.nil_append] at h1
    exact ⟨k, ks, last, d, y, h1, start k hk, by rw [h1]; exact h2, by rw [h1]; exact h3, by rw [h1]; exact h4, h5, h6⟩
  · intro k ks hk hr
    have : ∃ r ∈ own :: others, makePathsInner links p.matrix p.dst 7 [] k (0.0 : F) = .ok r := by
      rcases hk with rfl | ⟨l', hl', hk⟩
      · exact ⟨own, by simp, hown⟩
      · rw [hl] at hl'; cases hl'
        obtain ⟨r, hr, h⟩ := left k hk
        exact ⟨r, by simp [hr], h⟩
    obtain ⟨r, hr', hkr⟩ := this
    obtain ⟨ps, e, q, hq, e'⟩ := (makePathsInner_exact _ _ _ _ _ hkr).2.2.2 ks hr
    exact ⟨q, List.mem_flatten.2 ⟨ps, List.mem_filterMap.2 ⟨r, hr', e⟩, hq⟩, e'⟩

/-- What calculating a route does if there is one. -/
theorem reroute_route [Env] [LawfulDijkstra] {links : LinkSet F} (hN : NetInv True links) {p p' : PathfindingModel}
    (hs : links.contains p.src = true) (hd : links.contains p.dst = true) (hl : Leads links p.src p.dst)
    (h : p.reroute links = .ok p') : p'.src = p.src ∧ p'.dst = p.dst ∧ ∃ (ks : List Key) (route : List Key) (c : Nat), (∀ k, links.contains k = true → (k ∈ ks ↔ LaneStar links k p.dst)) ∧
      Env.dijkstra p.src (successors links) (fun id => ks.contains id) = .ok (some (route, c)) ∧
      route.head? = some p.src ∧ route.IsChain (Hop links) ∧ (∃ r, route.getLast? = some r ∧ LaneStar links r p.dst) ∧
      calcLaneMatrix links p.dst route = .ok p'.matrix := by
  obtain ⟨ls, hls⟩ := get_of_contains hs
  obtain ⟨ld, hld⟩ := get_of_contains hd
  have n1 : p.src.isNull = false := by simpa using SlotMap.not_isNull hN.wf hls
  have n2 : p.dst.isNull = false := by simpa using SlotMap.not_isNull hN.wf hld
  unfold PathfindingModel.reroute at h
  rw [n1, n2] at h
  simp only [Bool.or_self, Bool.false_eq_true, if_false] at h
  rw [M_bind_ok] at h
  obtain ⟨ld', hld', h⟩ := h
  rw [getLink_ok, hld] at hld'; cases hld'
  obtain ⟨ks, hks, hmem⟩ := reachableFromLanes_iff hN hld
  rw [hks] at h
  rw [M_bind_ok] at h
  obtain ⟨_, e, h⟩ := h
  cases e
  rw [M_bind_ok] at h
  obtain ⟨r, hr, h⟩ := h
  cases r with
  | none =>
    exfalso
    obtain ⟨c, h1, h2⟩ := leads_iff.1 hl
    have hc := (hops_leads h1).valid hN hs
    have := LawfulDijkstra.notFound _ _ _ hr c ((succReach_iff hN hs).2 h1)
    simp [(hmem c hc).2 h2] at this
  | some r =>
    obtain ⟨route, cost⟩ := r
    dsimp only at h
    rw [M_bind_ok] at h
    obtain ⟨m, hm, h⟩ := h
    rw [M_pure_ok] at h; subst h
    obtain ⟨h1, h2, k, h3, h4⟩ := LawfulDijkstra.found _ _ _ _ _ hr
    have hval : ∀ j ∈ route, links.contains j = true := fun j hj => SuccReach.valid hN hs (SuccReach.of_chain h1 h2 j hj)
    have hchain : route.IsChain (Hop links) := by
      rw [List.isChain_iff_getElem] at h2 ⊢
      intro i hi
      obtain ⟨l, w, e1, e2⟩ := h2 i hi
      obtain ⟨r', e3, e4⟩ := successors_iff hN (hval route[i] (List.getElem_mem _))
      rw [e1] at e3; cases e3
      exact (e4 _).1 ⟨w, e2⟩
    have hk : LaneStar links k p.dst := (hmem k (hval k (List.mem_of_getLast? h3))).1 (by simpa using h4)
    exact ⟨rfl, rfl, ks, route, cost, hmem, hr, h1, hchain, ⟨k, h3, hk⟩, hm⟩

/-- A way along connections and lane changes to the road of a link. -/
structure RouteTo (links : LinkSet F) (a dst : Key) (route : List Key) : Prop where
  start : route.head? = some a
  chain : route.IsChain (Hop links)
  last : ∃ r, route.getLast? = some r ∧ LaneStar links r dst

variable {s s' : Sim F} {k dst : Key} {v v' : Vehicle F}

/-- The plan of a vehicle on the link `a` that leads along the route to `dst`. -/
structure PlanAlong (links : LinkSet F) (a dst : Key) (route : List Key) (paths : List Path) : Prop where
  /-- Every planned path comes with distances for up to three lane changes.  Such a distance, from the start of the path, is the
  rounded sum of the lengths of the links of the path but the last and of a distance from the start of the last link.  The latter
  is unbounded, and one can get to the destination from there with so many lane changes, or else one can drive that far with so
  many lane changes.  It is unbounded if one can get to the destination with so many lane changes along the roads of the route,
  provided the route passes no road twice. -/
  dists : ∀ p ∈ paths, ∃ last y, p.links.getLast? = some last ∧ Lengths links 0.0 p.links y ∧ ∃ D : Nat → Nat, ∀ n ≤ 3,
    p.dists.nth n = min (D n + tenths y) u32Max ∧ ((Gets links dst n last ∧ D n = u32Max) ∨ Ends links n last (D n)) ∧
    (PlainRoute links dst route → ∀ pre rs, route = pre ++ rs → Follows links dst rs n last → u32Max ≤ D n)
  /-- The planned paths are exactly the ways along connections from the link of the vehicle and from the lanes it may change to
  that cannot be continued, over a set of links that contains the route and from all of which one can get to the destination.
  They have at most eight links, and only their last link may start 200 m or more from the start of the path. -/
  paths : ∃ K : Set Key, (∀ j ∈ route, j ∈ K) ∧ (∀ j ∈ K, Leads links j dst) ∧
    (PlainRoute links dst route → ∀ pre rs n j, n ≤ 3 → route = pre ++ rs → Follows links dst rs n j → j ∈ K) ∧
    ∀ b ks, (∃ p ∈ paths, p.links = b :: ks) ↔ (b = a ∨ LaneTo links a b) ∧ Reaching links K 7 0.0 (b :: ks)

theorem plan_along [Env] [LawfulDijkstra] (h : Reach True s) (he : s.setVehicleDestination k dst = .ok s')
    (hv : s.getVehicle k = .ok v) (hv' : s'.getVehicle k = .ok v') {a : Key} (ha : v.linkId = some a)
    (hl : Leads s.links a dst) : s.links.contains a = true ∧ ∃ (ks : List Key) (route : List Key) (c : Nat),
      (∀ k, s.links.contains k = true → (k ∈ ks ↔ LaneStar s.links k dst)) ∧
      Env.dijkstra a (successors s.links) (fun id => ks.contains id) = .ok (some (route, c)) ∧
      RouteTo s.links a dst route ∧ PlanAlong s.links a dst route v'.pathfind.paths := by
  have hi := h.inv.veh k v (getVeh_ok.1 hv)
  obtain ⟨c1, c2, -, p', e1, e2⟩ := setVehicleDestination_cases h he hv hv'
  rw [ha] at c1; cases c1
  have hd := hl.valid h.inv.net c2
  obtain ⟨g1, g2, ks, route, c, hks, hdij, r1, r2, ⟨r, r3, r4⟩, hm⟩ := reroute_route h.inv.net (p := { v.pathfind with dst }) c2 hd hl e1
  obtain ⟨k1, k2⟩ := calcLaneMatrix_keys h.inv.net hm r2 r3 r4
  obtain ⟨-, f1, f2⟩ := makePaths_exact e2
  rw [g1] at f1 f2
  refine ⟨c2, ks, route, c, hks, hdij, ⟨r1, r2, r, r3, r4⟩, ⟨fun p hp => ?_, mkeys p'.matrix, k2, k1, ?_, ?_⟩⟩
  · obtain ⟨_, _, last, d, y, -, -, -, h4, h5, h6, h7⟩ := f1 p hp
    refine ⟨last, y, h5, h4, d.nth, fun n hn => ⟨?_, calcLaneMatrix_ok h.inv.net hm last d h6 n hn, ?_⟩⟩
    · rw [h7]
      unfold LaneDists.offset LaneDists.map LaneDists.nth
      split <;> rfl
    · intro hp pre rs hrs hf
      obtain ⟨-, d', hd', h'⟩ := calcLaneMatrix_unlimited h.inv.net hm hp hn hrs hf
      rw [h6] at hd'; cases hd'
      exact h'
  · intro hp pre rs n j hn hrs hf
    obtain ⟨-, d', hd', -⟩ := calcLaneMatrix_unlimited h.inv.net hm hp hn hrs hf
    exact Option.isSome_iff_exists.2 ⟨d', hd'⟩
  · intro b ks
    constructor
    · rintro ⟨p, hp, e⟩
      obtain ⟨_, _, _, _, _, h1, h2, h3, -⟩ := f1 p hp
      rw [h1] at e; cases e
      rw [h1] at h3
      exact ⟨h2, h3⟩
    · rintro ⟨h1, h2⟩
      exact f2 b ks h1 h2

/-- **C73** Setting a destination that can be reached, a vehicle plans exactly the ways along a route to it, with the distances
it can drive on them with up to three lane changes. -/
theorem C73_plan [Env] [LawfulDijkstra] (h : Reach True s) (he : s.setVehicleDestination k dst = .ok s')
    (hv : s.getVehicle k = .ok v) (hv' : s'.getVehicle k = .ok v') {a : Key} (ha : v.linkId = some a)
    (hl : Leads s.links a dst) :
    ∃ route, RouteTo s.links a dst route ∧ PlanAlong s.links a dst route v'.pathfind.paths := by
  obtain ⟨-, ks, route, c, -, -, h1, h2⟩ := plan_along h he hv hv' ha hl
  exact ⟨route, h1, h2⟩

/-! ### The route is a quickest one -/

/-- The cost of a link is ten times its length over its speed limit, rounded down. -/
theorem reach_cost [Env] [LawfulDijkstra] {strict : Prop} (h : Reach strict s) : ∀ {k : Key} {l : Link F}, s.links.get? k = some l →
    l.cost = toUsize (10.0 * l.length / l.speedLimit) := by
  induction h with
  | new =>
    intro k l hl
    have : (Sim.new : Sim F).links.get? k = none := rfl
    rw [this] at hl; cases hl
  | @exec s s' op hr _ he ih =>
    intro k l' hl'
    cases exec_network hr.inv he with
    | frame hf =>
      obtain ⟨l, hl, e⟩ := hf.bwd hl'
      have := ih hl
      unfold Link.length at this ⊢
      rw [e.cost, e.curve, e.speedLimit]; exact this
    | added att j _ hk =>
      obtain ⟨l0, hl0, hget⟩ := hk.link
      rw [hget] at hl'
      split at hl'
      · cases hl'
        unfold Link.new at hl0
        rw [M_bind_ok] at hl0
        obtain ⟨c, -, hl0⟩ := hl0
        rw [M_pure_ok] at hl0; subst hl0
        rfl
      · exact ih hl'
    | grouped ids mask g' lcs _ hgr =>
      obtain ⟨l, hl, rfl, -⟩ := hgr.rel.bwd hl'
      have := ih hl
      exact this
    | converging x y cs _ hc =>
      obtain ⟨l, hl, rfl⟩ := hc.bwd hl'
      have := ih hl
      exact this
    | connected x y _ _ _ hc =>
      obtain ⟨l, hl, rfl⟩ := hc.bwd hl'
      have := ih hl
      exact this

/-- `t` is the time it takes to follow a route to the start of its last link at the speed limits, in tenths of a second.  The time
on every link is rounded down, and lane changes take none. -/
inductive TravelTime (links : LinkSet F) : List Key → Nat → Prop
  | one (k : Key) : TravelTime links [k] 0
  | cons {a b c : Key} {l : Link F} {ks : List Key} {t : Nat} : LaneStar links a b → links.get? b = some l → c ∈ l.linksOut →
      TravelTime links (c :: ks) t → TravelTime links (a :: c :: ks) (toUsize (10.0 * l.length / l.speedLimit) + t)

theorem successors_cost {links : LinkSet F} (hN : NetInv True links) {k : Key} (hk : links.contains k = true) :
    ∃ r, successors links k = .ok r ∧ ∀ b w, (b, w) ∈ r ↔ ∃ a l, LaneStar links k a ∧ links.get? a = some l ∧ b ∈ l.linksOut ∧ w = l.cost := by
  obtain ⟨l, hl⟩ := get_of_contains hk
  obtain ⟨ks, h1, h2⟩ := reachableLanes_iff hN hl
  have hs := laneSuccessors_spec (E := fun _ => False) (links := links) ks fun j hj => ((h2 j).1 hj).valid hN hk
  cases h3 : laneSuccessors links ks with
  | error e => exact (hs.err h3).elim
  | ok r =>
    refine ⟨r, ?_, fun b w => ?_⟩
    · unfold successors
      rw [M_bind_ok]
      refine ⟨l, getLink_ok.2 hl, ?_⟩
      rw [M_bind_ok]
      exact ⟨ks, h1, h3⟩
    · rw [hs.ok h3 b w]
      constructor
      · rintro ⟨a, ha, la, hla, hb, e⟩
        exact ⟨a, la, (h2 a).1 ha, hla, hb, e⟩
      · rintro ⟨a, la, ha, hla, hb, e⟩
        exact ⟨a, (h2 a).2 ha, la, hla, hb, e⟩

theorem travelTime_iff {links : LinkSet F} (hN : NetInv True links)
    (hc : ∀ k l, links.get? k = some l → l.cost = toUsize (10.0 * l.length / l.speedLimit)) : ∀ {ks : List Key} {t : Nat},
    (∀ k, ks.head? = some k → links.contains k = true) → (RouteCost (successors links) ks t ↔ TravelTime links ks t) := by
  intro ks
  induction ks with
  | nil => intro t _; constructor <;> (intro h; cases h)
  | cons a ks ih =>
    intro t hv
    obtain ⟨r, h1, h2⟩ := successors_cost hN (hv a rfl)
    have hnext : ∀ b l c, LaneStar links a b → links.get? b = some l → c ∈ l.linksOut → links.contains c = true := by
      intro b l c hb hl hc
      exact (hN.link b l hl).linksOut c hc
    constructor
    · intro h
      cases h with
      | one => exact .one a
      | @cons _ b w c ks l e1 e2 e3 =>
        rw [h1] at e1; cases e1
        obtain ⟨x, lx, f1, f2, f3, rfl⟩ := (h2 b w).1 e2
        rw [hc x lx f2]
        exact .cons f1 f2 f3 ((ih fun k hk => by cases hk; exact hnext x lx _ f1 f2 f3).1 e3)
    · intro h
      cases h with
      | one => exact .one a
      | @cons _ b c l ks t e1 e2 e3 e4 =>
        refine .cons h1 ((h2 c _).2 ⟨b, l, e1, e2, e3, rfl⟩ |> (hc b l e2 ▸ ·)) ((ih fun k hk => by cases hk; exact hnext b l _ e1 e2 e3).2 e4)

/-- **C74** The route along which the vehicle plans is a quickest one to the road of the destination: no way to a lane from which the
destination can be reached by lane changes takes less time at the speed limits. -/
theorem C74_quickest [Env] [LawfulDijkstra] [BestDijkstra] (h : Reach True s) (he : s.setVehicleDestination k dst = .ok s')
    (hv : s.getVehicle k = .ok v) (hv' : s'.getVehicle k = .ok v') {a : Key} (ha : v.linkId = some a)
    (hl : Leads s.links a dst) :
    ∃ route t, RouteTo s.links a dst route ∧ PlanAlong s.links a dst route v'.pathfind.paths ∧ TravelTime s.links route t ∧
      ∀ route' t', RouteTo s.links a dst route' → TravelTime s.links route' t' → t ≤ t' := by
  obtain ⟨c2, ks, route, c, hks, hf, hto, hpl⟩ := plan_along h he hv hv' ha hl
  have hc : ∀ k l, s.links.get? k = some l → l.cost = toUsize (10.0 * l.length / l.speedLimit) := fun k l hl => reach_cost h hl
  have hcost := fun {ks t} (h0 : ks.head? = some a) => travelTime_iff h.inv.net hc (ks := ks) (t := t)
    fun k hk => by rw [h0] at hk; cases hk; exact c2
  refine ⟨route, c, hto, hpl, (hcost hto.start).1 (BestDijkstra.cost _ _ _ _ _ hf), fun route' t' hr ht => ?_⟩
  obtain ⟨r, h1, h2⟩ := hr.last
  have hval : s.links.contains r = true := by
    have : ∀ (ks : List Key) (x : Key), ks.head? = some x → s.links.contains x = true → ks.IsChain (Hop s.links) →
        ∀ y ∈ ks, s.links.contains y = true := by
      intro ks
      induction ks with
      | nil => intro x hx; cases hx
      | cons z ks ih =>
        intro x hx hc hch y hy
        cases hx
        rcases List.mem_cons.1 hy with rfl | hy
        · exact hc
        · cases ks with
          | nil => cases hy
          | cons w ks =>
            rw [List.isChain_cons_cons] at hch
            refine ih w rfl ?_ hch.2 y hy
            exact (hops_leads (.single hch.1)).valid h.inv.net hc
    exact this route' _ hr.start c2 hr.chain r (List.mem_of_getLast? h1)
  exact BestDijkstra.best _ _ _ _ _ hf route' t' r ((hcost hr.start).2 ht) hr.start h1 (by simpa using (hks r hval).2 h2)

end

section
attribute [local instance] Town.env

namespace Fork

def road (s : Sim Float) (k : Nat) : Option (Option (List Key)) := (s.links.get? ⟨k, 1⟩).map fun l => l.group.map (·.links)

def dists (s : Sim Float) : Option (List (List Nat)) :=
  (s.vehicles.get? ⟨0, 1⟩).map fun v => v.pathfind.paths.map fun p => [p.dists.d0, p.dists.d1, p.dists.d2, p.dists.d3]

def plan (s s' : Sim Float) : Bool :=
  net s && road s 0 == some none && road s 1 == some (some [⟨1, 1⟩, ⟨2, 1⟩]) && paths s' == some [[⟨0, 1⟩, ⟨1, 1⟩]] &&
    dists s' == some [[40, u32Max, u32Max, u32Max]]

theorem planned : ∃ s s' : Sim Float, Reach True s ∧ Allowed True s (.setVehicleDestination ⟨0, 1⟩ ⟨2, 1⟩) ∧
    s.exec (.setVehicleDestination ⟨0, 1⟩ ⟨2, 1⟩) = .ok s' ∧ Reach True s' ∧ plan s s' = true :=
  trial_reach (ops := ops) (by decide +kernel)

end Fork

/-- The hypotheses of C73 and C74 are met.  Link 0 leads to link 1, from where one may change to the destination, link 2.  The route
by links 0 and 1 passes no road twice, and one can get to the destination along it with one lane change.  The planned path
has a distance of 4 m without lane changes, and unbounded distances with one or more. -/
example : LawfulDijkstra ∧ BestDijkstra ∧ ∃ (s s' : Sim Float) (v v' : Vehicle Float), Reach True s ∧
    s.setVehicleDestination ⟨0, 1⟩ ⟨2, 1⟩ = .ok s' ∧ s.getVehicle ⟨0, 1⟩ = .ok v ∧ s'.getVehicle ⟨0, 1⟩ = .ok v' ∧
    v.linkId = some ⟨0, 1⟩ ∧ Leads s.links ⟨0, 1⟩ ⟨2, 1⟩ ∧ RouteTo s.links ⟨0, 1⟩ ⟨2, 1⟩ [⟨0, 1⟩, ⟨1, 1⟩] ∧
    PlainRoute s.links ⟨2, 1⟩ [⟨0, 1⟩, ⟨1, 1⟩] ∧ Follows s.links ⟨2, 1⟩ [⟨1, 1⟩] 1 ⟨1, 1⟩ ∧
    v'.pathfind.paths.map (·.links) = [[⟨0, 1⟩, ⟨1, 1⟩]] := by
  refine ⟨Search.lawful _, Search.best _, ?_⟩
  obtain ⟨s, s', h1, -, h2, -, h3⟩ := Fork.planned
  simp only [Fork.plan, Fork.road, Bool.and_eq_true, beq_iff_eq, and_assoc, Option.map_eq_some_iff] at h3
  obtain ⟨h3, ⟨l0, g0, r0⟩, ⟨l1, g1, r1⟩, h5, -⟩ := h3
  have hn := Fork.net_iff h3
  obtain ⟨v, hv, hl⟩ := hn.veh
  obtain ⟨v', hv', e'⟩ := Fork.paths_eq h5
  obtain ⟨l0', g0', -, e0, -⟩ := hn.link0
  obtain ⟨l1', g1', -, e1, f1⟩ := hn.link1
  obtain ⟨l2, g2, -, e2, -⟩ := hn.link2
  rw [g0] at g0'; cases g0'
  rw [g1] at g1'; cases g1'
  rw [Option.map_eq_none_iff] at r0
  obtain ⟨gr, hgr, egr⟩ := r1
  have s0 : ∀ c, SameRoad s.links ⟨0, 1⟩ c ↔ c = ⟨0, 1⟩ := by
    intro c
    constructor
    · rintro ⟨l, hl, h⟩
      rw [g0] at hl; cases hl
      rw [r0] at h; exact h
    · rintro rfl
      exact ⟨l0, g0, by rw [r0]⟩
  have s1 : ∀ c, SameRoad s.links ⟨1, 1⟩ c ↔ c = ⟨1, 1⟩ ∨ c = ⟨2, 1⟩ := by
    intro c
    constructor
    · rintro ⟨l, hl, h⟩
      rw [g1] at hl; cases hl
      rw [hgr] at h
      simpa [egr] using h
    · intro h
      exact ⟨l1, g1, by rw [hgr]; simpa [egr] using h⟩
  have hlane : LaneTo s.links ⟨1, 1⟩ ⟨2, 1⟩ := ⟨l1, g1, by simp [f1]⟩
  refine ⟨s, s', v, v', h1, h2, hv, hv', hl, hn.leads, ⟨rfl, ?_, ⟨1, 1⟩, rfl, .single hlane⟩, ⟨?_, ?_, ⟨1, 1⟩, rfl, (s1 _).2 (.inr rfl)⟩,
    .across ((s1 _).2 (.inl rfl)) hlane (.there 0 ((s1 _).2 (.inr rfl))), e'⟩
  · rw [List.isChain_cons_cons]
    exact ⟨⟨⟨0, 1⟩, .refl, l0, g0, by simp [e0]⟩, by simp⟩
  · simp only [List.pairwise_cons, List.mem_singleton, forall_eq, s0, s1]
    simp
  · intro r hr a b ha hab hb
    simp only [List.mem_cons, List.not_mem_nil, or_false] at hr
    obtain ⟨l, hl', hb'⟩ := hab
    rcases hr with rfl | rfl
    · rw [s0] at ha hb
      subst ha hb
      rw [g0] at hl'; cases hl'
      simp [e0] at hb'
    · rw [s1] at ha
      rcases ha with rfl | rfl
      · rw [g1] at hl'; cases hl'
        simp [e1] at hb'
      · rw [g2] at hl'; cases hl'
        simp [e2] at hb'

end

end TrafficSim
