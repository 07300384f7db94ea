import Verif.Lemmas.Demo
import Verif.Lemmas.Matrix
import Verif.Lemmas.Ops
import Verif.Lemmas.Town

/-! # Routing: C51, C52, C53

`Leads links a b`: one can get from `a` to `b` by following connections and permitted lane changes. -/

namespace TrafficSim

section
variable {F : Type} [Flt F]

theorem reroute_keys [Env] [LawfulDijkstra] {links : LinkSet F} (hN : NetInv True links) {p p' : PathfindingModel}
    (hs : links.contains p.src = true) (hd : links.contains p.dst = true) (h : p.reroute links = .ok p') :
    p'.src = p.src ∧ p'.dst = p.dst ∧
      (Leads links p.src p.dst → p.src ∈ mkeys p'.matrix ∧ ∀ j ∈ mkeys p'.matrix, Leads links j p.dst) ∧
      (¬ Leads links p.src p.dst → p'.matrix = p.matrix) := by
  obtain ⟨ls, hls⟩ := get_of_contains hs
  obtain ⟨ld, hld⟩ := get_of_contains hd
  have n1 : p.src.isNull = false := by simpa using SlotMap.not_isNull hN.wf hls
  have n2 : p.dst.isNull = false := by simpa using SlotMap.not_isNull hN.wf hld
  unfold PathfindingModel.reroute at h
  rw [n1, n2] at h
  simp only [Bool.or_self, Bool.false_eq_true, if_false] at h
  rw [M_bind_ok] at h
  obtain ⟨ld', hld', h⟩ := h
  rw [getLink_ok, hld] at hld'; cases hld'
  obtain ⟨ks, hks, hmem⟩ := reachableFromLanes_iff hN hld
  rw [hks] at h
  rw [M_bind_ok] at h
  obtain ⟨_, e, h⟩ := h
  cases e
  rw [M_bind_ok] at h
  obtain ⟨r, hr, h⟩ := h
  cases r with
  | none =>
    rw [M_pure_ok] at h; subst h
    refine ⟨rfl, rfl, fun hl => ?_, fun _ => rfl⟩
    exfalso
    obtain ⟨c, h1, h2⟩ := leads_iff.1 hl
    have hc := (hops_leads h1).valid hN hs
    have := LawfulDijkstra.notFound _ _ _ hr c ((succReach_iff hN hs).2 h1)
    simp [(hmem c hc).2 h2] at this
  | some r =>
    obtain ⟨route, cost⟩ := r
    dsimp only at h
    rw [M_bind_ok] at h
    obtain ⟨m, hm, h⟩ := h
    rw [M_pure_ok] at h; subst h
    obtain ⟨h1, h2, k, h3, h4⟩ := LawfulDijkstra.found _ _ _ _ _ hr
    have hval : ∀ j ∈ route, links.contains j = true := fun j hj => SuccReach.valid hN hs (SuccReach.of_chain h1 h2 j hj)
    have hchain : route.IsChain (Hop links) := by
      rw [List.isChain_iff_getElem] at h2 ⊢
      intro i hi
      obtain ⟨l, w, e1, e2⟩ := h2 i hi
      obtain ⟨r', e3, e4⟩ := successors_iff hN (hval route[i] (List.getElem_mem _))
      rw [e1] at e3; cases e3
      exact (e4 _).1 ⟨w, e2⟩
    have hk : LaneStar links k p.dst := (hmem k (hval k (List.mem_of_getLast? h3))).1 (by simpa using h4)
    obtain ⟨g1, g2⟩ := calcLaneMatrix_keys hN hm hchain h3 hk
    have hsrc : p.src ∈ mkeys m := g2 _ (List.mem_of_head? h1)
    exact ⟨rfl, rfl, fun _ => ⟨hsrc, g1⟩, fun hn => absurd (g1 _ hsrc) hn⟩

variable {s s' : Sim F} {k dst : Key} {v v' : Vehicle F}

theorem setVehicleDestination_cases [Env] [LawfulDijkstra] (h : Reach True s) (he : s.setVehicleDestination k dst = .ok s')
    (hv : s.getVehicle k = .ok v) (hv' : s'.getVehicle k = .ok v') :
    v.linkId = some v.pathfind.src ∧ s.links.contains v.pathfind.src = true ∧ v'.canExit = false ∧
    ∃ p', ({ v.pathfind with dst } : PathfindingModel).reroute s.links = .ok p' ∧ p'.makePaths s.links = .ok v'.pathfind := by
  have hi := h.inv.veh k v (getVeh_ok.1 hv)
  unfold Sim.setVehicleDestination at he
  rw [M_bind_ok] at he
  obtain ⟨v0, e0, he⟩ := he
  rw [getVeh_ok, getVeh_ok.1 hv] at e0; cases e0
  rw [M_bind_ok] at he
  obtain ⟨v1, e1, he⟩ := he
  rw [M_pure_ok] at he; subst he
  have g' : (s.vehicles.modify k fun _ => v1).get? k = some v' := getVeh_ok.1 hv'
  rw [SlotMap.get?_modify_self, getVeh_ok.1 hv] at g'
  cases g'
  unfold Vehicle.setDestination at e1
  rw [M_bind_ok] at e1
  obtain ⟨pf, e1, e2⟩ := e1
  rw [M_pure_ok] at e2; subst e2
  unfold PathfindingModel.setDestination at e1
  rw [M_bind_ok] at e1
  obtain ⟨p', e1, e2⟩ := e1
  exact ⟨hi.src, hi.drivable.valid _ (List.mem_of_head? hi.src), rfl, p', e1, e2⟩

/-- **C51.** If one can get from the link of a vehicle to a link by following connections and permitted lane
changes, then after setting that link as destination the vehicle has a planned path, and one can get to the
destination from every link of every planned path.  The link groups are proper (at most 16 different links, none in
two groups). -/
theorem C51_finds [Env] [LawfulDijkstra] (h : Reach True s) (he : s.setVehicleDestination k dst = .ok s')
    (hv : s.getVehicle k = .ok v) (hv' : s'.getVehicle k = .ok v') {a : Key} (ha : v.linkId = some a)
    (hl : Leads s.links a dst) :
    v'.pathfind.paths ≠ [] ∧ ∀ p ∈ v'.pathfind.paths, ∀ j ∈ p.links, Leads s.links j dst := by
  have hi := h.inv.veh k v (getVeh_ok.1 hv)
  have hsrc : a = v.pathfind.src := by
    have := hi.src
    rw [show v.route.head? = v.linkId from rfl, ha] at this
    exact Option.some.inj this
  subst hsrc
  have hs := hi.drivable.valid _ (List.mem_of_head? hi.src)
  have hd := hl.valid h.inv.net hs
  obtain ⟨-, -, -, p', e1, e2⟩ := setVehicleDestination_cases h he hv hv'
  obtain ⟨g1, g2, g3, -⟩ := reroute_keys h.inv.net (p := { v.pathfind with dst }) hs hd e1
  obtain ⟨g4, g5⟩ := g3 hl
  obtain ⟨-, -, -, f1, f2⟩ := (PathfindingModel.makePaths_spec (E := fun _ => True) h.inv.net p' (by rw [g1]; exact hs)).ok e2
  exact ⟨f2 (by rw [g1]; exact g4), fun p hp j hj => g5 j ((f1 p hp).2 j hj)⟩

/-- **C52** (partial) After setting a destination that cannot be reached, the vehicle may not leave, and no planned path
contains the destination or permits leaving.  Full statement: the vehicle has no planned paths.  That is false, see
`C52_stale`: the paths to the former destination remain. -/
theorem C52_partial [Env] [LawfulDijkstra] (h : Reach True s) (he : s.setVehicleDestination k dst = .ok s')
    (hv : s.getVehicle k = .ok v) (hv' : s'.getVehicle k = .ok v') {a : Key} (ha : v.linkId = some a)
    (hd : s.links.contains dst = true) (hl : ¬ Leads s.links a dst) :
    v'.canExit = false ∧ ∀ p ∈ v'.pathfind.paths, dst ∉ p.links ∧ p.canExit = false := by
  obtain ⟨c1, c2, c3, p', e1, e2⟩ := setVehicleDestination_cases h he hv hv'
  rw [ha] at c1; cases c1
  obtain ⟨g1, g2, -, g4⟩ := reroute_keys h.inv.net (p := { v.pathfind with dst }) c2 hd e1
  obtain ⟨-, -, -, f1, -⟩ := (PathfindingModel.makePaths_spec (E := fun _ => True) h.inv.net p' (by rw [g1]; exact c2)).ok e2
  refine ⟨c3, fun p hp => ?_⟩
  obtain ⟨hok, -⟩ := f1 p hp
  rw [g1, g2] at hok
  have key : dst ∉ p.links := by
    intro hm
    obtain ⟨b, hb, hs⟩ := hok.start
    have hch : ∀ (ks : List Key) (b : Key), ks.head? = some b → ks.IsChain (Conn s.links) → ∀ j ∈ ks, Leads s.links b j := by
      intro ks
      induction ks with
      | nil => intro b hb; cases hb
      | cons c ks ih =>
        intro b hb hc j hj
        cases hb
        rcases List.mem_cons.1 hj with rfl | hj
        · exact .refl
        · cases ks with
          | nil => cases hj
          | cons d ks =>
            rw [List.isChain_cons_cons] at hc
            exact .head (.inl hc.1) (ih d rfl hc.2 j hj)
    have hb' : Leads s.links b dst := hch p.links b hb hok.drivable.chain dst hm
    rcases hs with rfl | hs
    · exact hl hb'
    · exact hl (.head (.inr hs) hb')
  refine ⟨key, ?_⟩
  cases hx : p.canExit with
  | false => rfl
  | true => exact absurd (List.mem_of_getLast? (hok.exit.1 hx)) key

/-- **C52** (first destination) If the vehicle never had a destination, so that nothing is known about any link, then it
has no planned paths. -/
theorem C52_first_partial [Env] [LawfulDijkstra] (h : Reach True s) (he : s.setVehicleDestination k dst = .ok s')
    (hv : s.getVehicle k = .ok v) (hv' : s'.getVehicle k = .ok v') {a : Key} (ha : v.linkId = some a)
    (hd : s.links.contains dst = true) (hl : ¬ Leads s.links a dst) (hm : v.pathfind.matrix = []) :
    v'.pathfind.paths = [] := by
  obtain ⟨c1, c2, c3, p', e1, e2⟩ := setVehicleDestination_cases h he hv hv'
  rw [ha] at c1; cases c1
  obtain ⟨g1, g2, -, g4⟩ := reroute_keys h.inv.net (p := { v.pathfind with dst }) c2 hd e1
  obtain ⟨-, -, -, f1, -⟩ := (PathfindingModel.makePaths_spec (E := fun _ => True) h.inv.net p' (by rw [g1]; exact c2)).ok e2
  rw [List.eq_nil_iff_forall_not_mem]
  intro p hp
  obtain ⟨hok, hk⟩ := f1 p hp
  obtain ⟨b, hb, -⟩ := hok.start
  have := hk b (List.mem_of_head? hb)
  rw [g4 hl] at this
  simp only [hm] at this
  cases this

/-! ## C53 -/

omit [Flt F] in
theorem lanesOut_mem {links : LinkSet F} : ∀ {ks r : List Key}, Sim.lanesOut links ks = .ok r →
    ∀ b, b ∈ r ↔ ∃ a ∈ ks, Conn links a b
  | [], r, h, b => by
    unfold Sim.lanesOut at h
    rw [M_pure_ok] at h; subst h; simp
  | k :: ks, r, h, b => by
    unfold Sim.lanesOut at h
    rw [M_bind_ok] at h
    obtain ⟨l, hl, h⟩ := h
    rw [M_bind_ok] at h
    obtain ⟨r', hr', h⟩ := h
    rw [M_pure_ok] at h; subst h
    rw [getLink_ok] at hl
    rw [List.mem_append, lanesOut_mem hr' b]
    constructor
    · rintro (h | ⟨a, ha, h⟩)
      · exact ⟨k, by simp, l, hl, h⟩
      · exact ⟨a, by simp [ha], h⟩
    · rintro ⟨a, ha, h⟩
      rcases List.mem_cons.1 ha with rfl | ha
      · obtain ⟨l', hl', h⟩ := h
        rw [hl] at hl'; cases hl'
        exact .inl h
      · exact .inr ⟨a, ha, h⟩

omit [Flt F] in
theorem filterSinks_mem {links : LinkSet F} : ∀ {ks r : List Key}, Sim.filterSinks links ks = .ok r →
    ∀ b, b ∈ r ↔ b ∈ ks ∧ ∃ l, links.get? b = some l ∧ l.linksOut = []
  | [], r, h, b => by
    unfold Sim.filterSinks at h
    rw [M_pure_ok] at h; subst h; simp
  | k :: ks, r, h, b => by
    unfold Sim.filterSinks at h
    rw [M_bind_ok] at h
    obtain ⟨l, hl, h⟩ := h
    rw [M_bind_ok] at h
    obtain ⟨r', hr', h⟩ := h
    rw [M_pure_ok] at h; subst h
    rw [getLink_ok] at hl
    have ih := filterSinks_mem hr' b
    split
    · rename_i he
      rw [List.mem_cons, List.mem_cons, ih]
      constructor
      · rintro (rfl | ⟨h1, h2⟩)
        · exact ⟨.inl rfl, l, hl, by simpa using he⟩
        · exact ⟨.inr h1, h2⟩
      · rintro ⟨rfl | h1, h2⟩
        · exact .inl rfl
        · exact .inr ⟨h1, h2⟩
    · rename_i he
      rw [List.mem_cons, ih]
      constructor
      · rintro ⟨h1, h2⟩; exact ⟨.inr h1, h2⟩
      · rintro ⟨rfl | h1, h2⟩
        · obtain ⟨l', hl', h2⟩ := h2
          rw [hl] at hl'; cases hl'
          simp [h2] at he
        · exact ⟨h1, h2⟩

omit [Flt F] in
theorem dfsReach_mem {links : LinkSet F} (hN : NetInv True links) : ∀ {fuel : Nat} {toSee seen r : List Key},
    Sim.dfsReach links fuel toSee seen = .ok r → (∀ a ∈ toSee, links.contains a = true) →
    (∀ a ∈ seen, ∀ b, Hop links a b → b ∈ seen ∨ b ∈ toSee) →
    (∀ j ∈ r, ∃ t ∈ toSee, Relation.ReflTransGen (Hop links) t j) ∧ (∀ t ∈ toSee, t ∈ seen ∨ t ∈ r) ∧
      ∀ a, a ∈ seen ∨ a ∈ r → ∀ b, Hop links a b → b ∈ seen ∨ b ∈ r
  | 0, toSee, seen, r, h, _, _ => by
    unfold Sim.dfsReach at h; cases h
  | fuel + 1, [], seen, r, h, _, hcl => by
    unfold Sim.dfsReach at h
    rw [M_pure_ok] at h; subst h
    refine ⟨nofun, nofun, ?_⟩
    rintro a (ha | ha) b hb
    · rcases hcl a ha b hb with h | h
      · exact .inl h
      · cases h
    · cases ha
  | fuel + 1, k :: toSee, seen, r, h, hv, hcl => by
    unfold Sim.dfsReach at h
    split at h
    · rename_i hk
      have hk : k ∈ seen := by simpa using hk
      obtain ⟨h1, h2, h3⟩ := dfsReach_mem hN h (fun a ha => hv a (by simp [ha])) (fun a ha b hb => by
        rcases hcl a ha b hb with h | h
        · exact .inl h
        · rcases List.mem_cons.1 h with rfl | h
          · exact .inl hk
          · exact .inr h)
      refine ⟨fun j hj => ?_, fun t ht => ?_, h3⟩
      · obtain ⟨t, ht, h⟩ := h1 j hj
        exact ⟨t, by simp [ht], h⟩
      · rcases List.mem_cons.1 ht with rfl | ht
        · exact .inl hk
        · exact h2 t ht
    · rename_i hk
      dsimp only at h
      rw [M_bind_ok] at h
      obtain ⟨l, hl, h⟩ := h
      rw [M_bind_ok] at h
      obtain ⟨lanes, hlanes, h⟩ := h
      rw [M_bind_ok] at h
      obtain ⟨succs, hsuccs, h⟩ := h
      rw [M_bind_ok] at h
      obtain ⟨rest, hrest, h⟩ := h
      rw [M_pure_ok] at h; subst h
      rw [getLink_ok] at hl
      obtain ⟨ks, e1, e2⟩ := reachableLanes_iff hN hl
      rw [hlanes] at e1; cases e1
      have hsucc : ∀ b, b ∈ succs ↔ Hop links k b := by
        intro b
        rw [lanesOut_mem hsuccs b]
        constructor
        · rintro ⟨a, ha, h⟩; exact ⟨a, (e2 a).1 ha, h⟩
        · rintro ⟨a, ha, h⟩; exact ⟨a, (e2 a).2 ha, h⟩
      obtain ⟨h1, h2, h3⟩ := dfsReach_mem hN hrest (fun a ha => by
          rcases List.mem_append.1 ha with ha | ha
          · obtain ⟨c, -, hc⟩ := (hsucc a).1 (List.mem_of_mem_filter ha)
            exact hN.out hc
          · exact hv a (by simp [ha]))
        (fun a ha b hb => by
          rcases List.mem_cons.1 ha with rfl | ha
          · by_cases hs : b ∈ a :: seen
            · exact .inl hs
            · refine .inr (List.mem_append.2 (.inl (List.mem_filter.2 ⟨(hsucc b).2 hb, ?_⟩)))
              simpa using hs
          · rcases hcl a ha b hb with h | h
            · exact .inl (by simp [h])
            · rcases List.mem_cons.1 h with rfl | h
              · exact .inl (by simp)
              · exact .inr (by simp [h]))
      refine ⟨fun j hj => ?_, fun t ht => ?_, ?_⟩
      · rcases List.mem_cons.1 hj with rfl | hj
        · exact ⟨j, by simp, .refl⟩
        · obtain ⟨t, ht, h⟩ := h1 j hj
          rcases List.mem_append.1 ht with ht | ht
          · exact ⟨k, by simp, .head ((hsucc t).1 (List.mem_of_mem_filter ht)) h⟩
          · exact ⟨t, by simp [ht], h⟩
      · rcases List.mem_cons.1 ht with rfl | ht
        · exact .inr (by simp)
        · rcases h2 t (by simp [ht]) with h | h
          · rcases List.mem_cons.1 h with rfl | h
            · exact .inr (by simp)
            · exact .inl h
          · exact .inr (by simp [h])
      · intro a ha b hb
        have ha' : a ∈ k :: seen ∨ a ∈ rest := by
          rcases ha with ha | ha
          · exact .inl (by simp [ha])
          · rcases List.mem_cons.1 ha with rfl | ha
            · exact .inl (by simp)
            · exact .inr ha
        rcases h3 a ha' b hb with h | h
        · rcases List.mem_cons.1 h with rfl | h
          · exact .inr (by simp)
          · exact .inl h
        · exact .inr (by simp [h])

omit [Flt F] in
theorem hops_iff {links : LinkSet F} {a b : Key} : Relation.ReflTransGen (Hop links) a b ↔
    a = b ∨ ∃ c, Leads links a c ∧ Conn links c b := by
  constructor
  · intro h
    cases Relation.ReflTransGen.cases_tail h with
    | inl h => exact .inl h.symm
    | inr h =>
      obtain ⟨c, h1, d, h2, h3⟩ := h
      exact .inr ⟨d, (hops_leads h1).trans h2.leads, h3⟩
  · rintro (rfl | ⟨c, h1, h2⟩)
    · exact .refl
    · obtain ⟨d, h3, h4⟩ := leads_iff.1 h1
      exact h3.tail ⟨c, h4, h2⟩

/-- **C53** (partial) A pair is in the list of all routes exactly if the first link has no incoming connection, the
second has no outgoing connection, and one can get from the first to the second by lane changes only, or in a way
that ends with a connection.  Full statement: that ends with either.  That is false, see `C53_missed`. -/
theorem C53_partial [Env] [LawfulDijkstra] (h : Reach True s) {rs : List (Key × Key)} (hr : s.allRoutes = .ok rs) (a b : Key) :
    (a, b) ∈ rs ↔ (∃ l, s.getLinkRef a = .ok l ∧ l.linksIn = []) ∧ (∃ l, s.getLinkRef b = .ok l ∧ l.linksOut = []) ∧
      (LaneStar s.links a b ∨ ∃ c, Leads s.links a c ∧ Conn s.links c b) := by
  have hN := h.inv.net
  unfold Sim.allRoutes at hr
  rw [M_bind_ok] at hr
  obtain ⟨rss, hrss, hr⟩ := hr
  rw [M_pure_ok] at hr; subst hr
  have key : ∀ (src : Key) (ps : List (Key × Key)), Sim.routesFrom s.links src = .ok ps →
      ∀ x y, (x, y) ∈ ps ↔ x = src ∧ (∃ l, s.links.get? y = some l ∧ l.linksOut = []) ∧
        (LaneStar s.links src y ∨ Relation.ReflTransGen (Hop s.links) src y) := by
    intro src ps hps x y
    unfold Sim.routesFrom at hps
    rw [M_bind_ok] at hps
    obtain ⟨l, hl, hps⟩ := hps
    rw [M_bind_ok] at hps
    obtain ⟨f, hf, hps⟩ := hps
    rw [M_bind_ok] at hps
    obtain ⟨d, hd, hps⟩ := hps
    rw [M_bind_ok] at hps
    obtain ⟨sinks, hsinks, hps⟩ := hps
    rw [M_pure_ok] at hps; subst hps
    rw [getLink_ok] at hl
    obtain ⟨ks, e1, e2⟩ := reachableLanes_iff hN hl
    rw [hf] at e1; cases e1
    obtain ⟨d1, d2, d3⟩ := dfsReach_mem hN hd (fun a ha => by simp at ha; rw [ha]; exact contains_of_get hl) nofun
    have hdm : ∀ j, j ∈ d ↔ Relation.ReflTransGen (Hop s.links) src j := by
      intro j
      constructor
      · intro hj
        obtain ⟨t, ht, h⟩ := d1 j hj
        simp at ht; subst ht; exact h
      · intro hj
        induction hj with
        | refl => simpa using d2 src (by simp)
        | tail _ hb ih => simpa using d3 _ (.inr ih) _ hb
    simp only [List.mem_map, Prod.mk.injEq, filterSinks_mem hsinks, List.mem_append, hdm, e2]
    constructor
    · rintro ⟨z, ⟨h1, h2⟩, rfl, rfl⟩; exact ⟨rfl, h2, h1⟩
    · rintro ⟨rfl, h2, h1⟩; exact ⟨y, ⟨h1, h2⟩, rfl, rfl⟩
  have hmap : ∀ {srcs : List Key} {rss : List (List (Key × Key))}, srcs.mapM (Sim.routesFrom s.links) = .ok rss →
      ∀ x y, (x, y) ∈ rss.flatten ↔ x ∈ srcs ∧ (∃ l, s.links.get? y = some l ∧ l.linksOut = []) ∧
        (LaneStar s.links x y ∨ Relation.ReflTransGen (Hop s.links) x y) := by
    intro srcs
    induction srcs with
    | nil =>
      intro rss h x y
      rw [List.mapM_nil, M_pure_ok] at h; subst h; simp
    | cons c srcs ih =>
      intro rss h x y
      rw [List.mapM_cons, M_bind_ok] at h
      obtain ⟨ps, hps, h⟩ := h
      rw [M_bind_ok] at h
      obtain ⟨rest, hrest, h⟩ := h
      rw [M_pure_ok] at h; subst h
      rw [List.flatten_cons, List.mem_append, key c ps hps, ih hrest, List.mem_cons]
      constructor
      · rintro (⟨rfl, h⟩ | ⟨h1, h2⟩)
        · exact ⟨.inl rfl, h⟩
        · exact ⟨.inr h1, h2⟩
      · rintro ⟨rfl | h1, h2⟩
        · exact .inl ⟨rfl, h2⟩
        · exact .inr ⟨h1, h2⟩
  rw [hmap hrss]
  have hsrc : a ∈ (s.links.keys.filter fun k => match s.links.get? k with
      | some l => l.linksIn.isEmpty
      | none => false) ↔ ∃ l, s.getLinkRef a = .ok l ∧ l.linksIn = [] := by
    rw [List.mem_filter]
    constructor
    · rintro ⟨-, h⟩
      split at h
      · rename_i l hl; exact ⟨l, getLink_ok.2 hl, by simpa using h⟩
      · cases h
    · rintro ⟨l, hl, h⟩
      have hl := getLink_ok.1 hl
      refine ⟨SlotMap.mem_keys.2 ⟨l, hl⟩, ?_⟩
      rw [hl]; simp [h]
  rw [hops_iff]
  refine and_congr hsrc (and_congr ?_ ?_)
  · constructor
    · rintro ⟨l, h1, h2⟩; exact ⟨l, getLink_ok.2 h1, h2⟩
    · rintro ⟨l, h1, h2⟩; exact ⟨l, getLink_ok.1 h1, h2⟩
  · constructor
    · rintro (h | rfl | h)
      · exact .inl h
      · exact .inl .refl
      · exact .inr h
    · rintro (h | h)
      · exact .inl h
      · exact .inr (.inr h)

/-- **C53** (only routes) Every listed pair is a route. -/
theorem C53_sound [Env] [LawfulDijkstra] (h : Reach True s) {rs : List (Key × Key)} (hr : s.allRoutes = .ok rs) {a b : Key}
    (hm : (a, b) ∈ rs) : (∃ l, s.getLinkRef a = .ok l ∧ l.linksIn = []) ∧ (∃ l, s.getLinkRef b = .ok l ∧ l.linksOut = []) ∧
      Leads s.links a b := by
  obtain ⟨h1, h2, h3⟩ := (C53_partial h hr a b).1 hm
  refine ⟨h1, h2, ?_⟩
  rcases h3 with h3 | ⟨c, h3, h4⟩
  · exact h3.leads
  · exact h3.tail (.inl h4)

end

section
attribute [local instance] Town.env

namespace Fork

open Town (street car)

/-- Link 0 leads to link 1, beside which is link 2; changing from 1 to 2 is permitted.  Link 3 is on its own. -/
def ops : List (Op Float) :=
  [.addLink ⟨street (-6.0) 0.0 1.0 0.0 2.0, 10.0⟩, .addLink ⟨street 0.0 0.0 1.0 0.0 2.0, 10.0⟩,
   .addLink ⟨street 0.0 3.0 1.0 0.0 2.0, 10.0⟩, .addLink ⟨street 0.0 10.0 1.0 0.0 2.0, 10.0⟩,
   .addLinkGroup [⟨1, 1⟩, ⟨2, 1⟩] 2, .addLinkConnection ⟨0, 1⟩ ⟨1, 1⟩, .addVehicle car ⟨0, 1⟩]

def paths (s : Sim Float) : Option (List (List Key)) := (s.vehicles.get? ⟨0, 1⟩).map fun v => v.pathfind.paths.map (·.links)

def outs (s : Sim Float) (k : Nat) : Option (List Key × List Key × List Key) :=
  (s.links.get? ⟨k, 1⟩).map fun l => (l.linksIn, l.linksOut, l.laneChanges)

def routes (s : Sim Float) : Option (List (Key × Key)) := match s.allRoutes with
  | .ok rs => some rs
  | .error _ => none

/-- The network. -/
def net (s : Sim Float) : Bool :=
  s.links.keys == [⟨0, 1⟩, ⟨1, 1⟩, ⟨2, 1⟩, ⟨3, 1⟩] &&
  outs s 0 == some ([], [⟨1, 1⟩], []) && outs s 1 == some ([⟨0, 1⟩], [], [⟨2, 1⟩]) && outs s 2 == some ([], [], []) &&
    outs s 3 == some ([], [], []) && (s.vehicles.get? ⟨0, 1⟩).map (·.linkId) == some (some ⟨0, 1⟩)

def test (s s' : Sim Float) : Bool :=
  net s && routes s == some [(⟨0, 1⟩, ⟨1, 1⟩), (⟨2, 1⟩, ⟨2, 1⟩), (⟨2, 1⟩, ⟨2, 1⟩), (⟨3, 1⟩, ⟨3, 1⟩), (⟨3, 1⟩, ⟨3, 1⟩)] &&
    paths s == some [] && paths s' == some [[⟨0, 1⟩, ⟨1, 1⟩]]

theorem first : ∃ s s' : Sim Float, Reach True s ∧ Allowed True s (.setVehicleDestination ⟨0, 1⟩ ⟨2, 1⟩) ∧
    s.exec (.setVehicleDestination ⟨0, 1⟩ ⟨2, 1⟩) = .ok s' ∧ Reach True s' ∧ test s s' = true :=
  trial_reach (ops := ops) (by decide +kernel)

def staleTest (s s' : Sim Float) : Bool :=
  net s && paths s == some [[⟨0, 1⟩, ⟨1, 1⟩]] && paths s' == some [[⟨0, 1⟩, ⟨1, 1⟩]]

theorem stale : ∃ s s' : Sim Float, Reach True s ∧ Allowed True s (.setVehicleDestination ⟨0, 1⟩ ⟨3, 1⟩) ∧
    s.exec (.setVehicleDestination ⟨0, 1⟩ ⟨3, 1⟩) = .ok s' ∧ Reach True s' ∧ staleTest s s' = true :=
  trial_reach (ops := ops ++ [.setVehicleDestination ⟨0, 1⟩ ⟨1, 1⟩]) (by decide +kernel)

def fresh (s s' : Sim Float) : Bool :=
  net s && (s.vehicles.get? ⟨0, 1⟩).map (·.pathfind.matrix) == some [] && (s'.vehicles.get? ⟨0, 1⟩).isSome

theorem unreachable : ∃ s s' : Sim Float, Reach True s ∧ Allowed True s (.setVehicleDestination ⟨0, 1⟩ ⟨3, 1⟩) ∧
    s.exec (.setVehicleDestination ⟨0, 1⟩ ⟨3, 1⟩) = .ok s' ∧ Reach True s' ∧ fresh s s' = true :=
  trial_reach (ops := ops) (by decide +kernel)

theorem outs_eq {s : Sim Float} {k : Nat} {x : List Key × List Key × List Key} (h : outs s k = some x) :
    ∃ l, s.links.get? ⟨k, 1⟩ = some l ∧ l.linksIn = x.1 ∧ l.linksOut = x.2.1 ∧ l.laneChanges = x.2.2 := by
  unfold outs at h
  rw [Option.map_eq_some_iff] at h
  obtain ⟨l, hl, rfl⟩ := h
  exact ⟨l, hl, rfl, rfl, rfl⟩

structure Net (s : Sim Float) : Prop where
  link0 : ∃ l, s.links.get? ⟨0, 1⟩ = some l ∧ l.linksIn = [] ∧ l.linksOut = [⟨1, 1⟩] ∧ l.laneChanges = []
  link1 : ∃ l, s.links.get? ⟨1, 1⟩ = some l ∧ l.linksIn = [⟨0, 1⟩] ∧ l.linksOut = [] ∧ l.laneChanges = [⟨2, 1⟩]
  link2 : ∃ l, s.links.get? ⟨2, 1⟩ = some l ∧ l.linksIn = [] ∧ l.linksOut = [] ∧ l.laneChanges = []
  link3 : ∃ l, s.links.get? ⟨3, 1⟩ = some l ∧ l.linksIn = [] ∧ l.linksOut = [] ∧ l.laneChanges = []
  veh : ∃ v, s.getVehicle ⟨0, 1⟩ = .ok v ∧ v.linkId = some ⟨0, 1⟩

theorem net_iff {s : Sim Float} (h : net s = true) : Net s := by
  simp only [net, Bool.and_eq_true, beq_iff_eq, and_assoc] at h
  obtain ⟨-, h0, h1, h2, h3, h4⟩ := h
  rw [Option.map_eq_some_iff] at h4
  obtain ⟨v, hv, e⟩ := h4
  exact ⟨outs_eq h0, outs_eq h1, outs_eq h2, outs_eq h3, v, getVeh_ok.2 hv, e⟩

theorem Net.leads {s : Sim Float} (h : Net s) : Leads s.links ⟨0, 1⟩ ⟨2, 1⟩ := by
  obtain ⟨l0, h0, -, e0, -⟩ := h.link0
  obtain ⟨l1, h1, -, -, e1⟩ := h.link1
  exact .head (.inl ⟨l0, h0, by simp [e0]⟩) (.single (.inr ⟨l1, h1, by simp [e1]⟩))

theorem Net.not_leads {s : Sim Float} (h : Net s) : ¬ Leads s.links ⟨0, 1⟩ ⟨3, 1⟩ := by
  obtain ⟨l0, h0, -, e0, f0⟩ := h.link0
  obtain ⟨l1, h1, -, e1, f1⟩ := h.link1
  obtain ⟨l2, h2, -, e2, f2⟩ := h.link2
  have key : ∀ j, Leads s.links ⟨0, 1⟩ j → j = ⟨0, 1⟩ ∨ j = ⟨1, 1⟩ ∨ j = ⟨2, 1⟩ := by
    intro j hj
    induction hj with
    | refl => exact .inl rfl
    | @tail b c _ hb ih =>
      rcases ih with rfl | rfl | rfl <;> rcases hb with ⟨l, hl, hm⟩ | ⟨l, hl, hm⟩
      · rw [h0] at hl; cases hl; simp_all
      · rw [h0] at hl; cases hl; simp_all
      · rw [h1] at hl; cases hl; simp_all
      · rw [h1] at hl; cases hl; simp_all
      · rw [h2] at hl; cases hl; simp_all
      · rw [h2] at hl; cases hl; simp_all
  intro hj
  have := key _ hj
  revert this; decide

theorem paths_eq {s : Sim Float} {ps : List (List Key)} (h : paths s = some ps) :
    ∃ v, s.getVehicle ⟨0, 1⟩ = .ok v ∧ v.pathfind.paths.map (·.links) = ps := by
  unfold paths at h
  rw [Option.map_eq_some_iff] at h
  obtain ⟨v, hv, e⟩ := h
  exact ⟨v, getVeh_ok.2 hv, e⟩

theorem routes_eq {s : Sim Float} {rs : List (Key × Key)} (h : routes s = some rs) : s.allRoutes = .ok rs := by
  unfold routes at h
  split at h
  · rename_i e; cases h; exact e
  · cases h

end Fork

/-- C51: the hypotheses are met; the way to link 2 is by a connection and then a lane change. -/
example : ∃ (s s' : Sim Float) (v v' : Vehicle Float), Reach True s ∧ s.setVehicleDestination ⟨0, 1⟩ ⟨2, 1⟩ = .ok s' ∧
    s.getVehicle ⟨0, 1⟩ = .ok v ∧ s'.getVehicle ⟨0, 1⟩ = .ok v' ∧ v.linkId = some ⟨0, 1⟩ ∧ Leads s.links ⟨0, 1⟩ ⟨2, 1⟩ ∧
    v.pathfind.paths = [] ∧ v'.pathfind.paths.map (·.links) = [[⟨0, 1⟩, ⟨1, 1⟩]] := by
  obtain ⟨s, s', h1, -, h2, -, h3⟩ := Fork.first
  simp only [Fork.test, Bool.and_eq_true, beq_iff_eq, and_assoc] at h3
  obtain ⟨h3, -, h4, h5⟩ := h3
  have hn := Fork.net_iff h3
  obtain ⟨v, hv, hl⟩ := hn.veh
  obtain ⟨w, hw, e⟩ := Fork.paths_eq h4
  rw [hv] at hw; cases hw
  obtain ⟨v', hv', e'⟩ := Fork.paths_eq h5
  exact ⟨s, s', v, v', h1, h2, hv, hv', hl, hn.leads, by simpa using e, e'⟩

/-- **C52** fails: a vehicle is given the destination 3, which cannot be reached, and keeps the planned path to its
former destination. -/
theorem C52_stale : ∃ (s s' : Sim Float) (v v' : Vehicle Float), Reach True s ∧
    s.setVehicleDestination ⟨0, 1⟩ ⟨3, 1⟩ = .ok s' ∧ s.getVehicle ⟨0, 1⟩ = .ok v ∧ s'.getVehicle ⟨0, 1⟩ = .ok v' ∧
    v.linkId = some ⟨0, 1⟩ ∧ s.links.contains ⟨3, 1⟩ = true ∧ ¬ Leads s.links ⟨0, 1⟩ ⟨3, 1⟩ ∧
    v'.pathfind.paths.map (·.links) = [[⟨0, 1⟩, ⟨1, 1⟩]] := by
  obtain ⟨s, s', h1, -, h2, -, h3⟩ := Fork.stale
  simp only [Fork.staleTest, Bool.and_eq_true, beq_iff_eq, and_assoc] at h3
  obtain ⟨h3, -, h5⟩ := h3
  have hn := Fork.net_iff h3
  obtain ⟨v, hv, hl⟩ := hn.veh
  obtain ⟨v', hv', e'⟩ := Fork.paths_eq h5
  obtain ⟨l, hl3, -⟩ := hn.link3
  exact ⟨s, s', v, v', h1, h2, hv, hv', hl, contains_of_get hl3, hn.not_leads, e'⟩

/-- C52: the hypotheses of the theorem about the first destination are met. -/
example : ∃ (s s' : Sim Float) (v v' : Vehicle Float), Reach True s ∧
    s.setVehicleDestination ⟨0, 1⟩ ⟨3, 1⟩ = .ok s' ∧ s.getVehicle ⟨0, 1⟩ = .ok v ∧ s'.getVehicle ⟨0, 1⟩ = .ok v' ∧
    v.linkId = some ⟨0, 1⟩ ∧ s.links.contains ⟨3, 1⟩ = true ∧ ¬ Leads s.links ⟨0, 1⟩ ⟨3, 1⟩ ∧ v.pathfind.matrix = [] := by
  obtain ⟨s, s', h1, -, h2, -, h3⟩ := Fork.unreachable
  simp only [Fork.fresh, Bool.and_eq_true, beq_iff_eq, and_assoc] at h3
  obtain ⟨h3, h4, h5⟩ := h3
  have hn := Fork.net_iff h3
  obtain ⟨v, hv, hl⟩ := hn.veh
  rw [getVeh_ok.1 hv] at h4
  obtain ⟨v', hv'⟩ := Option.isSome_iff_exists.1 h5
  obtain ⟨l, hl3, -⟩ := hn.link3
  exact ⟨s, s', v, v', h1, h2, hv, getVeh_ok.2 hv', hl, contains_of_get hl3, hn.not_leads, by simpa using h4⟩

/-- **C53** fails: link 0 has no incoming and link 2 no outgoing connection, and one can get from 0 to 2 by a
connection and a lane change, but the pair is not listed. -/
theorem C53_missed : ∃ (s : Sim Float) (rs : List (Key × Key)), Reach True s ∧ s.allRoutes = .ok rs ∧
    (⟨0, 1⟩, ⟨1, 1⟩) ∈ rs ∧ (∃ l, s.getLinkRef ⟨0, 1⟩ = .ok l ∧ l.linksIn = []) ∧
    (∃ l, s.getLinkRef ⟨2, 1⟩ = .ok l ∧ l.linksOut = []) ∧ Leads s.links ⟨0, 1⟩ ⟨2, 1⟩ ∧ (⟨0, 1⟩, ⟨2, 1⟩) ∉ rs := by
  obtain ⟨s, s', h1, -, -, -, h3⟩ := Fork.first
  simp only [Fork.test, Bool.and_eq_true, beq_iff_eq, and_assoc] at h3
  obtain ⟨h3, h4, -⟩ := h3
  have hn := Fork.net_iff h3
  obtain ⟨l0, g0, e0, -⟩ := hn.link0
  obtain ⟨l2, g2, -, e2, -⟩ := hn.link2
  exact ⟨s, _, h1, Fork.routes_eq h4, by decide, ⟨l0, getLink_ok.2 g0, e0⟩, ⟨l2, getLink_ok.2 g2, e2⟩, hn.leads, by decide⟩

end

end TrafficSim
