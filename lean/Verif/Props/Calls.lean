import Verif.Props.NoFail

/-! # C69: calls with valid arguments succeed -/

namespace TrafficSim

theorem Spec.total {α : Type} {x : M α} {Q : α → Prop} (h : Spec x (fun _ => False) Q) : ∃ a, x = .ok a ∧ Q a := by
  cases hx : x with
  | error e => exact (h.err hx).elim
  | ok a => exact ⟨a, rfl, h.ok hx⟩

/-- Another element fits into the map. -/
def SlotMap.HasRoom {V : Type} (m : SlotMap V) : Prop := m.free ≠ [] ∨ m.slots.length + 1 < u32Max

theorem SlotMap.insertWithKey_total {V : Type} {m : SlotMap V} (hw : m.WF) (hr : m.HasRoom) {f : Key → M V}
    (hf : ∀ k, ∃ v, f k = .ok v) : ∃ r, m.insertWithKey f = .ok r := by
  unfold SlotMap.insertWithKey
  split
  · rename_i i rest hfree
    obtain ⟨s, hs, -⟩ := hw.free i (by simp [hfree])
    rw [hs]
    obtain ⟨v, hv⟩ := hf ⟨i, occupy s.ver⟩
    exact ⟨_, M_bind_ok.2 ⟨v, hv, rfl⟩⟩
  · rename_i hfree
    have := hr.resolve_left fun h => h hfree
    rw [if_neg (by omega)]
    obtain ⟨v, hv⟩ := hf ⟨m.slots.length, 1⟩
    exact ⟨_, M_bind_ok.2 ⟨v, hv, rfl⟩⟩

theorem SlotMap.insertWithKey_room {V : Type} {m : SlotMap V} {f : Key → M V} {r : SlotMap V × Key}
    (h : m.insertWithKey f = .ok r) : m.HasRoom := by
  unfold SlotMap.insertWithKey at h
  split at h
  · rename_i i rest hfree
    exact .inl (by rw [hfree]; simp)
  · split at h
    · cases h
    · exact .inr (by omega)

section
variable {F : Type} [Flt F] {s s' : Sim F}

/-! ## Calls that do not depend on the number type -/

omit [Flt F] in
theorem updLink_total {links : LinkSet F} {k : Key} (h : links.contains k = true) (f : Link F → Link F) :
    updLink links k f = .ok (links.modify k f) := by
  obtain ⟨l, hl⟩ := get_of_contains h
  exact updLink_ok.2 ⟨⟨l, hl⟩, rfl⟩

omit [Flt F] in
/-- **C69** Connecting two links succeeds exactly when both exist. -/
theorem C69_connection (s : Sim F) (a b : Key) :
    (∃ s', s.addLinkConnection a b = .ok s') ↔ s.links.contains a = true ∧ s.links.contains b = true := by
  constructor
  · rintro ⟨s', h⟩
    obtain ⟨h1, h2, -⟩ := addLinkConnection_ok h
    exact ⟨h1, h2⟩
  · rintro ⟨ha, hb⟩
    unfold Sim.addLinkConnection
    rw [updLink_total ha]
    refine ⟨_, M_bind_ok.2 ⟨_, rfl, M_bind_ok.2 ⟨_, updLink_total ?_ _, rfl⟩⟩⟩
    have := SRel.modify_one (R := fun _ _ _ => True) s.links a (fun l => { l with linksOut := l.linksOut ++ [b] })
      (fun _ _ _ => trivial) (fun _ _ => trivial)
    rw [this.contains]; exact hb

omit [Flt F] in
/-- **C69** Setting the control of a link succeeds exactly when it exists. -/
theorem C69_control (s : Sim F) (k : Key) (c : TrafficControl F) :
    (∃ s', s.setLinkControl k c = .ok s') ↔ s.links.contains k = true := by
  constructor
  · rintro ⟨s', h⟩
    exact (setLinkControl_ok h).1
  · intro h
    exact ⟨_, M_bind_ok.2 ⟨_, updLink_total h _, rfl⟩⟩

/-- **C69** Removing a vehicle always succeeds. -/
theorem C69_remove [Env] [LawfulDijkstra] {strict : Prop} (h : Reach strict s) (k : Key) : ∃ s', s.removeVehicle k = .ok s' := by
  obtain ⟨s', h, -⟩ := (removeVehicle_spec (E := fun _ => False) h.inv k).total
  exact ⟨s', h⟩

/-- **C69** Adding a traffic light succeeds exactly when there is room for it. -/
theorem C69_light [Env] [LawfulDijkstra] {strict : Prop} (h : Reach strict s) (tl : TrafficLight F) :
    (∃ r, s.addTrafficLight tl = .ok r) ↔ s.lights.HasRoom := by
  constructor
  · rintro ⟨r, hr⟩
    obtain ⟨_, h1, -⟩ := M_bind_ok.1 hr
    exact SlotMap.insertWithKey_room h1
  · intro hr
    obtain ⟨r, h1⟩ := SlotMap.insertWithKey_total (f := fun _ => pure tl) h.inv.lwf hr fun _ => ⟨tl, rfl⟩
    exact ⟨_, M_bind_ok.2 ⟨r, h1, rfl⟩⟩

theorem addVehicle_total [Env] [LawfulDijkstra] (hs : SimInv True s) (hd : SearchEnds) {a : VehicleAttributes F} {link : Key}
    (hl : s.links.contains link = true) (hr : s.vehicles.HasRoom) : ∃ r, s.addVehicle a link = .ok r := by
  have hnull : (PathfindingModel.default.dst).isNull = true := by decide
  obtain ⟨l, hgl⟩ := get_of_contains hl
  have hf : ∀ k, Spec ((Vehicle.new k a).setLocation link 0.0 none s.links >>= fun v => v.updateCoords s.links) (fun _ => False)
      fun v => v.linkId = some link := by
    intro k
    refine Spec.bind (P := fun v => v.linkId = some link) ?_ fun v hv => ?_
    · unfold Vehicle.setLocation
      exact (PathfindingModel.setOrigin_spec hs.net (.inl trivial) (.inl hd) _ hl (.inl hnull)).bind fun pf _ => Spec.pure rfl
    · refine (updateCoords_spec ⟨link, l, hv, hgl, (hs.net.link _ l hgl).segs⟩).mono ?_ fun _ => id
      rintro v' ⟨_, _, _, _, e⟩
      rw [e]; exact hv
  obtain ⟨⟨vs, k⟩, h1⟩ := SlotMap.insertWithKey_total (f := fun k => (Vehicle.new k a).setLocation link 0.0 none s.links >>=
    fun v => v.updateCoords s.links) hs.vwf hr fun k => by
      obtain ⟨v, hv, -⟩ := (hf k).total
      exact ⟨v, hv⟩
  obtain ⟨-, h2, ⟨v, hv, h3⟩, -, -⟩ := SlotMap.insertWithKey_spec hs.vwf h1
  have hkv : vs.get? k = some v := by rw [h3, if_pos rfl]
  have hM : MemberBut (fun j => j = k) s.links vs := by
    intro lk l' hl'
    obtain ⟨m1, m2⟩ := hs.mem lk l' hl'
    refine ⟨m1, fun j => ?_⟩
    rw [m2, h3]
    by_cases e : j = k
    · subst e
      simp only [not_true_eq_false, false_and, iff_false, not_exists, not_and]
      intro u hu
      exact absurd (SlotMap.get?_issued hu) h2
    · simp [e]
  obtain ⟨links', h4, -⟩ := (insertOnLink_spec (E := fun _ => False) hM rfl hkv ((hf k).ok hv) hl).total
  exact ⟨_, M_bind_ok.2 ⟨_, h1, M_bind_ok.2 ⟨_, h4, rfl⟩⟩⟩

/-- **C69** Adding a vehicle succeeds exactly when the link exists and there is room for the vehicle. -/
theorem C69_vehicle [Env] [LawfulDijkstra] (h : Reach True s) (hd : SearchEnds) (a : VehicleAttributes F) (link : Key) :
    (∃ r, s.addVehicle a link = .ok r) ↔ s.links.contains link = true ∧ s.vehicles.HasRoom := by
  constructor
  · rintro ⟨⟨s', k⟩, hr⟩
    refine ⟨(addVehicle_ok h.inv hr).valid, ?_⟩
    obtain ⟨_, h1, -⟩ := M_bind_ok.1 hr
    exact SlotMap.insertWithKey_room h1
  · rintro ⟨h1, h2⟩
    exact addVehicle_total h.inv hd h1 h2

/-- **C69** Setting the destination of a vehicle succeeds exactly when the vehicle exists and the destination does, or is
none. -/
theorem C69_destination [Env] [LawfulDijkstra] (h : Reach True s) (hd : SearchEnds) (k dst : Key) :
    (∃ s', s.setVehicleDestination k dst = .ok s') ↔
      s.vehicles.contains k = true ∧ (dst.isNull = true ∨ s.links.contains dst = true) := by
  constructor
  · rintro ⟨s', h1⟩
    have hk : s.vehicles.contains k = true := by
      have := h1
      unfold Sim.setVehicleDestination at this
      simp only [M_bind_ok, getVeh_ok] at this
      obtain ⟨v, hv, -⟩ := this
      exact contains_of_get hv
    exact ⟨hk, ((setVehicleDestination_spec (E := fun _ => True) h.inv (.inl trivial) (.inl hd) hk (.inr (.inr trivial))).ok h1).valid⟩
  · rintro ⟨hk, h1⟩
    obtain ⟨s', h2, -⟩ := (setVehicleDestination_spec (E := fun _ => False) (k := k) (dst := dst) h.inv (.inl trivial) (.inl hd) hk
      (h1.imp id .inl)).total
    exact ⟨s', h2⟩

end

/-! ## Calls in exact arithmetic -/

/-- **C69** Changing lanes succeeds when the vehicle and the link exist. -/
theorem C69_laneChange [Env] [LawfulDijkstra] {s : Sim ℝ} (h : Reach True s) (hd : SearchEnds) (hg : GoodNet s.links) {k link : Key}
    (hk : s.vehicles.contains k = true) (hl : s.links.contains link = true) (d : ℝ) : ∃ s', s.doLaneChange k link d = .ok s' := by
  obtain ⟨s', h, -⟩ := (doLaneChange_spec (E := fun _ => False) (.inl trivial) (.inl hd) (.inl hg) h.inv hk hl d).total
  exact ⟨s', h⟩

theorem projectInit_total (c : Curve ℝ) (P : V2 ℝ) (tol : ℝ) (t0 : Option ℝ) : ∃ r, projectPointOntoCurve c P tol t0 = .ok r := by
  obtain ⟨r, h, -⟩ := (projectPointOntoCurve_spec (E := fun _ => False) (.inl noNan_real) c P tol t0).total
  exact ⟨r, h⟩

theorem projectionSamples_total {src dst : LinkCurve ℝ} (h1 : src.segments ≠ []) (h2 : dst.segments ≠ []) : ∀ (m i : Nat) (prev : ℝ),
    src.length ≤ 2 * (i + m : ℕ) → ∃ r, ∀ n, m + 1 ≤ n → projectionSamples src dst n i prev = .ok r
  | m, i, prev, hm => by
    by_cases hpos : (2.0 : ℝ) * Flt.ofNat i < src.length
    · obtain ⟨m', rfl⟩ : ∃ m', m = m' + 1 := by
        cases m with
        | succ m' => exact ⟨m', rfl⟩
        | zero =>
          exfalso
          have : (2.0 : ℝ) * (i : ℝ) < src.length := hpos
          norm_num at this hm
          linarith
      obtain ⟨sp, hsp⟩ := src.sampleCentre_ok h1 ((2.0 : ℝ) * Flt.ofNat i)
      obtain ⟨r, hr⟩ := projectInit_total dst.toCurve sp.pos 0.1 (some prev)
      cases r with
      | none =>
        refine ⟨[], fun n hn => ?_⟩
        obtain ⟨n', rfl⟩ : ∃ n', n = n' + 1 := ⟨n - 1, by omega⟩
        unfold projectionSamples
        simp only [if_pos hpos, hsp, hr, bind, Except.bind]
        rfl
      | some p =>
        obtain ⟨dp, hdp⟩ := dst.sampleCentre_ok h2 p
        obtain ⟨rest, hrest⟩ := projectionSamples_total h1 h2 m' (i + 1) p (by
          rw [show i + 1 + m' = i + (m' + 1) by omega]; exact hm)
        refine ⟨⟨p, (sp.pos.sub dp.pos).dot (rot90 dp.tan)⟩ :: rest, fun n hn => ?_⟩
        · obtain ⟨n', rfl⟩ : ∃ n', n = n' + 1 := ⟨n - 1, by omega⟩
          unfold projectionSamples
          simp only [if_pos hpos, hsp, hr, hdp, hrest n' (by omega), bind, Except.bind]
          rfl
    · refine ⟨[], fun n hn => ?_⟩
      obtain ⟨n', rfl⟩ : ∃ n', n = n' + 1 := ⟨n - 1, by omega⟩
      unfold projectionSamples
      simp only [if_neg hpos]
      rfl

/-- With enough fuel, the computation returns a value for which `Q` holds, always the same one. -/
def Returns {α : Type} (x : Nat → M α) (Q : α → Prop) : Prop := ∃ N a, Q a ∧ ∀ n, N ≤ n → x n = .ok a

namespace Returns
variable {α β : Type} {Q : α → Prop}

theorem of_spec {x : M α} (h : Spec x (fun _ => False) Q) : Returns (fun _ => x) Q := by
  obtain ⟨a, h1, h2⟩ := h.total
  exact ⟨0, a, h2, fun _ _ => h1⟩

theorem pure {a : α} (h : Q a) : Returns (fun _ => (pure a : M α)) Q := ⟨0, a, h, fun _ _ => rfl⟩

theorem mono {x : Nat → M α} {Q' : α → Prop} (h : Returns x Q) (hq : ∀ a, Q a → Q' a) : Returns x Q' := by
  obtain ⟨N, a, h1, h2⟩ := h
  exact ⟨N, a, hq a h1, h2⟩

theorem bind {P : β → Prop} {x : Nat → M β} {f : Nat → β → M α} (hx : Returns x P)
    (hf : ∀ b, P b → Returns (fun n => f n b) Q) : Returns (fun n => x n >>= f n) Q := by
  obtain ⟨N, b, h1, h2⟩ := hx
  obtain ⟨N', a, h3, h4⟩ := hf b h1
  exact ⟨max N N', a, h3, fun n hn => M_bind_ok.2 ⟨b, h2 n (le_of_max_le_left hn), h4 n (le_of_max_le_right hn)⟩⟩

theorem mapM {f : Nat → α → M β} : ∀ {l : List α}, (∀ a ∈ l, Returns (fun n => f n a) fun _ => True) →
    Returns (fun n => l.mapM (f n)) fun _ => True
  | [], _ => ⟨0, [], trivial, fun _ _ => rfl⟩
  | a :: l, h => by
    simp only [List.mapM_cons]
    exact (h a (by simp)).bind fun b _ => (mapM fun c hc => h c (by simp [hc])).bind fun bs _ => .pure trivial

end Returns

/-! ### Groups -/

section
variable {F : Type} [Flt F]

omit [Flt F] in
theorem LinkGroup.lanePairs_fst (g : LinkGroup F) (dir : Direction) (target : Nat → Nat) : ∀ (idxs : List Nat) {ps : List (Key × Key)},
    g.lanePairs dir target idxs = .ok ps → (ps.map (·.1)).Sublist (idxs.filterMap fun i => g.links[i]?)
  | [], ps, h => by
    unfold LinkGroup.lanePairs at h
    rw [M_pure_ok] at h
    subst h
    exact List.nil_sublist _
  | i :: idxs, ps, h => by
    unfold LinkGroup.lanePairs at h
    simp only [M_bind_ok] at h
    obtain ⟨b, -, h⟩ := h
    have hsub : (idxs.filterMap fun i => g.links[i]?).Sublist ((i :: idxs).filterMap fun i => g.links[i]?) :=
      (List.sublist_cons_self i idxs).filterMap _
    split at h
    · split at h
      · rename_i a b ha hb
        simp only [M_bind_ok, M_pure_ok] at h
        obtain ⟨ps', hps, rfl⟩ := h
        rw [List.filterMap_cons_some ha]
        exact (LinkGroup.lanePairs_fst g dir target idxs hps).cons_cons a
      · cases h
    · exact (LinkGroup.lanePairs_fst g dir target idxs h).trans hsub

omit [Flt F] in
/-- A lane has at most two neighbours. -/
theorem LinkGroup.laneChanges_count {g : LinkGroup F} (hn : g.links.Nodup) {ps : List (Key × Key)} (h : g.laneChanges = .ok ps)
    (k : Key) : ps.countP (fun p => p.1 == k) ≤ 2 := by
  unfold LinkGroup.laneChanges at h
  split at h
  · cases h
  · simp only [M_bind_ok, M_pure_ok] at h
    obtain ⟨r, hr, l, hl, rfl⟩ := h
    have key : ∀ (dir : Direction) (target : Nat → Nat) (idxs : List Nat) (ps : List (Key × Key)), idxs.Nodup →
        g.lanePairs dir target idxs = .ok ps → ps.countP (fun p => p.1 == k) ≤ 1 := by
      intro dir target idxs ps hi hp
      have h1 := LinkGroup.lanePairs_fst g dir target idxs hp
      have h2 : (idxs.filterMap fun i => g.links[i]?).Nodup := by
        refine hi.filterMap fun a b c ha hb => ?_
        rw [Option.mem_def] at ha hb
        exact (List.getElem?_inj (List.getElem?_eq_some_iff.1 ha).1 hn).1 (ha.trans hb.symm)
      have h3 := List.nodup_iff_count_le_one.1 (h2.sublist h1) k
      rw [List.count_eq_countP, List.countP_map] at h3
      exact h3
    rw [List.countP_append]
    have h1 := key _ _ _ _ (List.nodup_reverse.2 List.nodup_range) hr
    have h2 := key _ _ _ _ (List.nodup_range.map fun a b h => by simpa using h) hl
    omega

omit [Flt F] in
theorem addLanes_total : ∀ {lcs : List (Key × Key)} {links : LinkSet F}, (∀ p ∈ lcs, links.contains p.1 = true) →
    (∀ k l, links.get? k = some l → lcs.countP (fun p => p.1 == k) ≠ 0 →
      l.laneChanges.length + lcs.countP (fun p => p.1 == k) ≤ 2) →
    ∃ links', lcs.foldlM (fun links p => do
      let l ← getLink links p.1
      if l.laneChanges.length ≥ 2 then throw Err.arrayFull
      updLink links p.1 fun l => { l with laneChanges := l.laneChanges ++ [p.2] }) links = .ok links'
  | [], links, _, _ => ⟨links, rfl⟩
  | p :: lcs, links, hc, hcnt => by
    obtain ⟨l, hl⟩ := get_of_contains (hc p (by simp))
    have h1 := hcnt p.1 l hl (by rw [List.countP_cons]; simp)
    rw [List.countP_cons, if_pos (by simp)] at h1
    have hrel : SRel (fun k l l' => l'.laneChanges.length = l.laneChanges.length + if p.1 == k then 1 else 0) links
        (links.modify p.1 fun l => { l with laneChanges := l.laneChanges ++ [p.2] }) :=
      SRel.modify_one _ _ _ (fun k l hk => by simp [Ne.symm hk]) fun l _ => by simp
    obtain ⟨links', h⟩ := addLanes_total (lcs := lcs) (links := links.modify p.1 fun l => { l with laneChanges := l.laneChanges ++ [p.2] })
      (fun q hq => by rw [hrel.contains]; exact hc q (by simp [hq])) fun k l' hl' hne => by
        obtain ⟨l0, hl0, e⟩ := hrel.bwd hl'
        have := hcnt k l0 hl0 (by rw [List.countP_cons]; omega)
        rw [List.countP_cons] at this
        rw [e]; omega
    refine ⟨links', ?_⟩
    rw [List.foldlM_cons]
    refine M_bind_ok.2 ⟨_, M_bind_ok.2 ⟨l, getLink_ok.2 hl, ?_⟩, h⟩
    rw [if_neg (by omega)]
    exact updLink_total (hc p (by simp)) _

end

theorem mkProjection_returns [Env] {a b : Link ℝ} (h1 : a.curve.segments ≠ []) (h2 : b.curve.segments ≠ []) :
    Returns (fun n => @mkProjection ℝ _ (Env.withFuel n) a b) fun _ => True := by
  obtain ⟨m, hm⟩ := exists_nat_ge (a.curve.length / 2)
  obtain ⟨r, hr⟩ := projectionSamples_total h1 h2 m 0 0.0 (by rw [zero_add]; linarith [(div_le_iff₀ (by norm_num : (0:ℝ) < 2)).1 hm])
  exact ⟨m + 1, _, trivial, fun n hn => M_bind_ok.2 ⟨r, hr n hn, rfl⟩⟩

theorem mapM_getLink {F : Type} {links : LinkSet F} : ∀ {ids : List Key}, (∀ k ∈ ids, links.contains k = true) →
    ∃ ls, ids.mapM (getLink links) = .ok ls ∧ List.Forall₂ (fun k l => links.get? k = some l) ids ls
  | [], _ => ⟨[], rfl, .nil⟩
  | k :: ids, h => by
    obtain ⟨l, hl⟩ := get_of_contains (h k (by simp))
    obtain ⟨ls, h1, h2⟩ := mapM_getLink fun j hj => h j (List.mem_cons_of_mem k hj)
    refine ⟨l :: ls, ?_, .cons hl h2⟩
    rw [List.mapM_cons]
    exact M_bind_ok.2 ⟨l, getLink_ok.2 hl, M_bind_ok.2 ⟨ls, h1, rfl⟩⟩

theorem addLinkGroup_returns [Env] {s : Sim ℝ} (hs : SimInv True s) {ids : List Key} (mask : Nat) (hn : ids.Nodup)
    (h2 : 2 ≤ ids.length) (h16 : ids.length ≤ 16) (hc : ∀ k ∈ ids, s.links.contains k = true)
    (hg : ∀ k ∈ ids, ∀ l, s.links.get? k = some l → l.group = none) :
    Returns (fun n => @Sim.addLinkGroup ℝ _ (Env.withFuel n) s ids mask) fun _ => True := by
  obtain ⟨ls, hls, hF⟩ := mapM_getLink hc
  have hmem : ∀ l ∈ ls, ∃ k ∈ ids, s.links.get? k = some l := by
    intro l hl
    obtain ⟨k, hk, h⟩ := forall₂_right hF l hl
    exact ⟨k, hk, h⟩
  have hid : ls.map (·.id) = ids := by
    clear hls hmem hn h2 h16 hc hg
    induction hF with
    | nil => rfl
    | cons h _ ih => rw [List.map_cons, ih, (hs.net.link _ _ h).id]
  have hlen : ls.length = ids.length := by rw [← hid, List.length_map]
  unfold Sim.addLinkGroup
  refine Returns.bind (P := fun x => x = ls) ⟨0, ls, rfl, fun _ _ => hls⟩ fun ls' e => ?_
  subst ls'
  refine Returns.bind (P := fun g : LinkGroup ℝ => g.links = ids) ?_ fun g hgl => ?_
  · unfold LinkGroup.new
    have h3 : ¬ ls.length < 2 := by omega
    simp only [if_neg h3]
    refine Returns.bind (P := fun _ => True) (Returns.mapM fun p hp => ?_) fun ps _ => .pure hid
    unfold projectionPairs at hp
    rw [List.mem_filter, List.mem_flatMap] at hp
    obtain ⟨⟨x, hx, hxy⟩, -⟩ := hp
    obtain ⟨y, hy, rfl⟩ := List.mem_map.1 hxy
    obtain ⟨kx, -, hx⟩ := hmem x hx
    obtain ⟨ky, -, hy⟩ := hmem y hy
    exact mkProjection_returns (hs.net.link _ _ hx).segs (hs.net.link _ _ hy).segs
  refine Returns.bind (P := fun links => SRel (fun k l l' => l' = { l with group := if k ∈ ids then some g else l.group }) s.links links)
    (.of_spec ?_) fun links hl => ?_
  · refine (Spec.foldlM (I := fun links : LinkSet ℝ => ∀ k ∈ ids, links.contains k = true) (fun links hl k hk => ?_) hc).post fun _ h _ => setGroups_ok h
    refine (updLink_spec (hl k hk)).mono ?_ fun _ => id
    rintro _ rfl j hj
    have := SRel.modify_one (R := fun _ _ _ => True) links k (fun l => { l with group := some g })
      (fun _ _ _ => trivial) (fun _ _ => trivial)
    rw [this.contains]; exact hl j hj
  refine Returns.bind (P := fun lcs => g.laneChanges = .ok lcs ∧ ∀ p ∈ lcs, p.1 ∈ ids) (.of_spec ?_) fun lcs ⟨h3, h4⟩ => ?_
  · refine (g.laneChanges_spec (by rw [hgl]; intro e; rw [e] at h2; simp at h2) (.inl (by rw [hgl]; exact h16))).post fun lcs h h' => ⟨h, ?_⟩
    rintro ⟨a, b⟩ hp
    obtain ⟨i, j, hi, -⟩ := (h' a b).1 hp
    rw [hgl] at hi
    exact List.mem_of_getElem? hi
  obtain ⟨links', h5⟩ := addLanes_total (lcs := lcs) (links := links) (fun p hp => by
    rw [hl.contains]; exact hc _ (h4 p hp)) fun k l' hl' hne => by
      obtain ⟨l, hkl, rfl⟩ := hl.bwd hl'
      have hk : k ∈ ids := by
        by_contra hk
        refine hne (List.countP_eq_zero.2 fun p hp => ?_)
        intro e
        rw [beq_iff_eq] at e
        exact hk (e ▸ h4 p hp)
      have h6 : l.laneChanges = [] := by
        by_contra h6
        have := (hs.net.link k l hkl).lc h6
        rw [hg k hk l hkl] at this
        cases this
      dsimp only
      rw [h6, List.length_nil, Nat.zero_add]
      exact LinkGroup.laneChanges_count (by rw [hgl]; exact hn) h3 k
  exact ⟨0, _, trivial, fun _ _ => M_bind_ok.2 ⟨links', h5, rfl⟩⟩

/-! ### Convergences -/

theorem scan_returns {own other : LinkCurve ℝ} (h1 : own.segments ≠ []) (h2 : other.segments ≠ []) : ∀ (m : Nat) (pos : ℝ)
    (op : Option ℝ) (r : Option (ℝ × ℝ)), own.length ≤ pos + 0.25 * m →
    ∃ r', ∀ n, m + 1 ≤ n → ConflictPointLink.scan own other n pos op r = .ok r'
  | m, pos, op, r, hm => by
    by_cases hpos : pos < own.length
    · obtain ⟨m', rfl⟩ : ∃ m', m = m' + 1 := by
        cases m with
        | succ m' => exact ⟨m', rfl⟩
        | zero => exfalso; norm_num at hm; linarith
      obtain ⟨sp, hsp⟩ := own.sampleCentre_ok h1 pos
      obtain ⟨q, hq⟩ := projectInit_total other.toCurve sp.pos 0.1 op
      have hr : ∃ r1, ∀ n, ConflictPointLink.scan own other (n + 1) pos op r = ConflictPointLink.scan own other n (pos + 0.25) q r1 := by
        cases q with
        | none =>
          refine ⟨r, fun n => ?_⟩
          conv_lhs => unfold ConflictPointLink.scan
          simp only [if_pos hpos, hsp, hq, bind, Except.bind, pure, Except.pure]
        | some p =>
          obtain ⟨dp, hdp⟩ := other.sampleCentre_ok h2 p
          by_cases hd : sp.pos.distance dp.pos - linkRadius * fabs (sp.tan.dot dp.tan) < linkRadius
          · refine ⟨some (match r with
              | none => (pos - 0.25, pos + 0.25)
              | some (mn, _) => (mn, pos + 0.25)), fun n => ?_⟩
            conv_lhs => unfold ConflictPointLink.scan
            simp only [if_pos hpos, hsp, hq, hdp, if_pos hd, bind, Except.bind, pure, Except.pure]
            cases r <;> rfl
          · refine ⟨r, fun n => ?_⟩
            conv_lhs => unfold ConflictPointLink.scan
            simp only [if_pos hpos, hsp, hq, hdp, if_neg hd, bind, Except.bind, pure, Except.pure]
      obtain ⟨r1, hr1⟩ := hr
      obtain ⟨r', hr'⟩ := scan_returns h1 h2 m' (pos + 0.25) q r1 (by push_cast at hm; linarith)
      refine ⟨r', fun n hn => ?_⟩
      obtain ⟨n', rfl⟩ : ∃ n', n = n' + 1 := ⟨n - 1, by omega⟩
      rw [hr1]; exact hr' n' (by omega)
    · refine ⟨r, fun n hn => ?_⟩
      obtain ⟨n', rfl⟩ : ∃ n', n = n' + 1 := ⟨n - 1, by omega⟩
      unfold ConflictPointLink.scan
      rw [if_neg hpos]; rfl

theorem conflictLink_returns [Env] {a b : Link ℝ} (h1 : a.curve.segments ≠ []) (h2 : b.curve.segments ≠ []) :
    Returns (fun n => @ConflictPointLink.new ℝ _ (Env.withFuel n) a b) fun r => ∀ c, r = some c → c.linkId = a.id := by
  obtain ⟨m, hm⟩ := exists_nat_ge (a.curve.length / 0.25)
  obtain ⟨r, hr⟩ := scan_returns h1 h2 m 0.0 none none (by
    have := (div_le_iff₀ (by norm_num : (0:ℝ) < 0.25)).1 hm
    norm_num at this ⊢; linarith)
  unfold ConflictPointLink.new
  refine Returns.bind (P := fun x => x = r) ⟨m + 1, r, rfl, fun n hn => hr n hn⟩ fun r' e => ?_
  subst r'
  cases r with
  | none => exact .pure (by simp)
  | some p => exact .pure (by rintro c ⟨⟩; rfl)

theorem addLinkConvergance_returns [Env] {s : Sim ℝ} (hs : SimInv True s) (a b : Key) :
    Returns (fun n => @Sim.addLinkConvergance ℝ _ (Env.withFuel n) s a b) fun _ => True := by
  unfold Sim.addLinkConvergance
  by_cases hab : a = b
  · simp only [if_pos hab]; exact .pure trivial
  simp only [if_neg hab]
  cases ha : s.links.get? a with
  | none => exact .pure trivial
  | some la =>
    cases hb : s.links.get? b with
    | none => exact .pure trivial
    | some lb =>
      have sa := (hs.net.link _ _ ha).segs
      have sb := (hs.net.link _ _ hb).segs
      refine Returns.bind (P := fun r => ∀ c, r = some c → c.link0.linkId = a ∧ c.link1.linkId = b) ?_ fun r hr => ?_
      · unfold ConflictPoint.new
        refine (conflictLink_returns sa sb).bind fun r1 hr1 => ?_
        cases r1 with
        | none => exact .pure (by simp)
        | some ca =>
          refine (conflictLink_returns sb sa).bind fun r2 hr2 => ?_
          cases r2 with
          | none => exact .pure (by simp)
          | some cb =>
            have ht : ∀ (l : Link ℝ) (c : ConflictPointLink ℝ), l.curve.segments ≠ [] →
                Returns (fun _ => ConflictPoint.tangentOf l c) fun _ => True := by
              intro l c hl
              obtain ⟨x, hx⟩ := l.curve.sampleCentre_ok hl c.minPos
              obtain ⟨y, hy⟩ := l.curve.sampleCentre_ok hl c.maxPos
              exact ⟨0, _, trivial, fun _ _ => M_bind_ok.2 ⟨x, hx, M_bind_ok.2 ⟨y, hy, rfl⟩⟩⟩
            refine (ht la ca sa).bind fun ta _ => (ht lb cb sb).bind fun tb _ => .pure ?_
            rintro c ⟨⟩
            exact ⟨(hr1 ca rfl).trans (hs.net.link _ _ ha).id, (hr2 cb rfl).trans (hs.net.link _ _ hb).id⟩
      · cases r with
        | none => exact .pure trivial
        | some c =>
          obtain ⟨e1, e2⟩ := hr c rfl
          refine Returns.bind (P := fun _ => True) (.of_spec ?_) fun links _ => .pure trivial
          refine (Spec.foldlM (I := fun links : LinkSet ℝ => links.contains a = true ∧ links.contains b = true)
            (fun links hl p hp => ?_) ⟨contains_of_get ha, contains_of_get hb⟩).mono (fun _ _ => trivial) fun _ => id
          have hp1 : p.1 = a ∨ p.1 = b := by
            simp only [ConflictPoint.linkConflicts, List.mem_cons, List.not_mem_nil, or_false] at hp
            rcases hp with rfl | rfl
            · exact .inl e1
            · exact .inr e2
          refine (updLink_spec (by rcases hp1 with e | e <;> rw [e]; exacts [hl.1, hl.2])).mono ?_ fun _ => id
          rintro _ rfl
          have := SRel.modify_one (R := fun _ _ _ => True) links p.1 (fun l => { l with conflicts := l.conflicts ++ [p.2] })
            (fun _ _ _ => trivial) (fun _ _ => trivial)
          rw [this.contains, this.contains]; exact hl

/-! ### Links -/

theorem addLink_returns [Env] {s : Sim ℝ} (hw : s.links.WF) (hr : s.links.HasRoom) {p q : V2 ℝ} (hpq : 0.5 < V2.distance p q) (v : ℝ) :
    Returns (fun n => @Sim.addLink ℝ _ (Env.withFuel n) s ⟨(LineSegment2d.fromEnds p q).toCurve, v⟩) fun _ => True := by
  obtain ⟨N, c, hc⟩ := C38_builds (by norm_num) hpq
  have h0 : ∀ k, ∃ l, ∀ n, N ≤ n → @Link.new ℝ _ (Env.withFuel n) k ⟨(LineSegment2d.fromEnds p q).toCurve, v⟩ = .ok l := by
    intro k
    exact ⟨_, fun n hn => M_bind_ok.2 ⟨c, hc n hn, rfl⟩⟩
  choose f hf using h0
  obtain ⟨r, h1⟩ := SlotMap.insertWithKey_total (f := fun k => (pure (f k) : M (Link ℝ))) hw hr fun k => ⟨f k, rfl⟩
  refine ⟨N, ({ s with links := r.1 }, r.2), trivial, fun n hn => ?_⟩
  unfold Sim.addLink
  refine M_bind_ok.2 ⟨r, ?_, rfl⟩
  rw [← h1]
  congr 1
  funext k
  exact hf k n hn

theorem stepEnds_straight {links : LinkSet ℝ} (hn : PosNet links) (hs : StraightNet links) : StepEnds links :=
  ⟨hn, fun _ _ _ _ _ p _ l' hl' => by
    obtain ⟨a, u, hu, h1⟩ := hs p.dst l' hl'
    exact refineEnds_straight hu h1⟩

/-! ## C69 -/

/-- The arguments of a call name things that exist, there is room for what is added, groups have at least two links, and
links are straight, longer than half a metre and at most two million kilometres long, with a positive speed limit. -/
def ValidArgs (s : Sim ℝ) : Op ℝ → Prop
  | .addLink a => s.links.HasRoom ∧ 0 < a.speedLimit ∧ ∃ p q, 0.5 < V2.distance p q ∧ V2.distance p q ≤ 2000000000 ∧
      a.curve = (LineSegment2d.fromEnds p q).toCurve
  | .addLinkGroup ids _ => 2 ≤ ids.length ∧ ∀ k ∈ ids, s.links.contains k = true
  | .addLinkConvergance _ _ => True
  | .addLinkConnection a b => s.links.contains a = true ∧ s.links.contains b = true
  | .addTrafficLight _ => s.lights.HasRoom
  | .addVehicle _ l => s.links.contains l = true ∧ s.vehicles.HasRoom
  | .removeVehicle _ => True
  | .randomiseVelocityAdjusts _ _ => True
  | .setVehicleFrozen _ _ => True
  | .setVehicleDestination k d => s.vehicles.contains k = true ∧ (d.isNull = true ∨ s.links.contains d = true)
  | .setLinkControl k _ => s.links.contains k = true
  | .doLaneChange k l _ => s.vehicles.contains k = true ∧ s.links.contains l = true
  | .step _ => True

/-- **C69** In exact arithmetic, on straight links with positive lengths and speed limits, every public call with valid
arguments succeeds. -/
theorem C69_calls [Env] [LawfulDijkstra] {s : Sim ℝ} (h : Reach True s) (hd : SearchEnds) (hn : PosNet s.links)
    (hs : StraightNet s.links) {op : Op ℝ} (ha : Allowed True s op) (hv : ValidArgs s op) :
    ∃ N s', ∀ n, N ≤ n → @Sim.exec ℝ _ (Env.withFuel n) s op = .ok s' := by
  suffices Returns (fun n => @Sim.exec ℝ _ (Env.withFuel n) s op) fun _ => True by
    obtain ⟨N, s', -, h⟩ := this
    exact ⟨N, s', h⟩
  have hi := h.inv
  cases op with
  | addLink a =>
    obtain ⟨hr, -, p, q, hpq, -, e⟩ := hv
    obtain ⟨c, v⟩ := a
    dsimp only at e
    subst e
    exact (addLink_returns hi.net.wf hr hpq v).bind fun _ _ => .pure trivial
  | addLinkGroup ids m =>
    obtain ⟨h1, h2, h3⟩ := ha trivial
    exact addLinkGroup_returns hi m h1 hv.1 h2 hv.2 h3
  | addLinkConvergance a b => exact addLinkConvergance_returns hi a b
  | addLinkConnection a b =>
    obtain ⟨s', h1⟩ := (C69_connection s a b).2 hv
    exact ⟨0, s', trivial, fun _ _ => h1⟩
  | addTrafficLight tl =>
    obtain ⟨r, h1⟩ := (C69_light h tl).2 hv
    exact ⟨0, r.1, trivial, fun _ _ => M_bind_ok.2 ⟨r, h1, rfl⟩⟩
  | addVehicle a l =>
    obtain ⟨r, h1⟩ := addVehicle_total (a := a) hi hd hv.1 hv.2
    exact ⟨0, r.1, trivial, fun _ _ => M_bind_ok.2 ⟨r, h1, rfl⟩⟩
  | removeVehicle k =>
    obtain ⟨s', h1⟩ := C69_remove h k
    exact ⟨0, s', trivial, fun _ _ => h1⟩
  | randomiseVelocityAdjusts sd f => exact ⟨0, _, trivial, fun _ _ => rfl⟩
  | setVehicleFrozen k b => exact ⟨0, _, trivial, fun _ _ => rfl⟩
  | setVehicleDestination k d =>
    obtain ⟨s', h1⟩ := (C69_destination h hd k d).2 hv
    exact ⟨0, s', trivial, fun _ _ => h1⟩
  | setLinkControl k c =>
    obtain ⟨s', h1⟩ := (C69_control s k c).2 hv
    exact ⟨0, s', trivial, fun _ _ => h1⟩
  | doLaneChange k l d =>
    obtain ⟨s', h1⟩ := C69_laneChange h hd (goodNet_straight h hn hs) hv.1 hv.2 d
    exact ⟨0, s', trivial, fun _ _ => h1⟩
  | step dt =>
    obtain ⟨N, s', h1⟩ := C68_step h hd (stepEnds_straight hn hs) (goodNet_straight h hn hs) dt
    exact ⟨N, s', trivial, h1⟩

/-- Straight links stay straight, and those added are. -/
theorem exec_straight [Env] [LawfulDijkstra] {s s' : Sim ℝ} {op : Op ℝ} (h : Reach True s) (hn : PosNet s.links)
    (hs : StraightNet s.links) (hv : ValidArgs s op) (h1 : s.exec op = .ok s') : PosNet s'.links ∧ StraightNet s'.links := by
  have key : (∀ k l', s'.links.get? k = some l' → (∃ l, s.links.get? k = some l ∧ l'.curve = l.curve ∧ l'.speedLimit = l.speedLimit) ∨
      0 < l'.length ∧ 0 < l'.speedLimit ∧ ∃ a u : V2 ℝ, u.x * u.x + u.y * u.y = 1 ∧
        ∀ t, l'.curve.sampleCentre t = .ok ⟨a.add (V2.smul t u), u⟩) → PosNet s'.links ∧ StraightNet s'.links := by
    intro hk
    refine ⟨⟨fun k l' hl' => ?_, fun k l' hl' => ?_⟩, fun k l' hl' => ?_⟩
    · rcases hk k l' hl' with ⟨l, hl, e, -⟩ | ⟨h, -, -⟩
      · have := hn.length k l hl
        unfold Link.length at this ⊢
        rw [e]; exact this
      · exact h
    · rcases hk k l' hl' with ⟨l, hl, -, e⟩ | ⟨-, h, -⟩
      · rw [e]; exact hn.limit k l hl
      · exact h
    · rcases hk k l' hl' with ⟨l, hl, e, -⟩ | ⟨-, -, h⟩
      · rw [e]; exact hs k l hl
      · exact h
  refine key fun k l' hl' => ?_
  cases exec_network h.inv h1 with
  | frame hf =>
    obtain ⟨l, hl, e⟩ := hf.bwd hl'
    exact .inl ⟨l, hl, e.curve, e.speedLimit⟩
  | added a j e ha =>
    subst e
    obtain ⟨l, hl, hget⟩ := ha.link
    rw [hget] at hl'
    split at hl'
    · cases hl'
      right
      obtain ⟨-, hlim, p, q, hpq, hmax, e⟩ := hv
      unfold Link.new at hl
      rw [M_bind_ok] at hl
      obtain ⟨c, hc, hl⟩ := hl
      rw [M_pure_ok] at hl
      subst hl
      rw [e] at hc
      have hu := C38_straight (by norm_num) hpq hc (by norm_num; linarith)
      refine ⟨?_, hlim, p, V2.sdiv (q.sub p) (V2.distance p q), ?_, fun t => (hu t 0).2.1⟩
      · have := (hu 0 0).1
        rw [abs_le] at this
        show 0 < c.length
        norm_num at this hpq ⊢
        linarith [this.1]
      · have hab : p ≠ q := by
          rintro rfl
          have : V2.distance p p = 0 := by
            simp [V2.distance, V2.magnitude, V2.magnitude2, V2.dot, V2.sub, fsqrt]
          rw [this] at hpq; norm_num at hpq
        obtain ⟨-, -, -, hmag, -⟩ := C41_segment p q hab 0
        exact Real.sqrt_eq_one.1 hmag
    · exact .inl ⟨l', hl', rfl, rfl⟩
  | grouped ids m g lcs _ hg =>
    obtain ⟨l, hl, e, -⟩ := hg.rel.bwd hl'
    unfold Grouped at e
    exact .inl ⟨l, hl, by rw [e], by rw [e]⟩
  | converging x y cs _ hc =>
    obtain ⟨l, hl, rfl⟩ := hc.bwd hl'
    exact .inl ⟨l, hl, rfl, rfl⟩
  | connected x y _ _ _ hc =>
    obtain ⟨l, hl, rfl⟩ := hc.bwd hl'
    exact .inl ⟨l, hl, rfl, rfl⟩

/-- Every call of the program is allowed and has valid arguments in the simulation in which it is made. -/
def ValidProgram [Env] : Sim ℝ → List (Op ℝ) → Prop
  | _, [] => True
  | s, op :: ops => Allowed True s op ∧ ValidArgs s op ∧ ∀ n s', @Reach ℝ _ (Env.withFuel n) True s' →
      @Sim.exec ℝ _ (Env.withFuel n) s op = .ok s' → ValidProgram s' ops

/-- As `ValidProgram`, and what holds at the end. -/
def ProgLeads [Env] (Q : Sim ℝ → Prop) : Sim ℝ → List (Op ℝ) → Prop
  | s, [] => Q s
  | s, op :: ops => Allowed True s op ∧ ValidArgs s op ∧ ∀ n s', @Reach ℝ _ (Env.withFuel n) True s' →
      @Sim.exec ℝ _ (Env.withFuel n) s op = .ok s' → ProgLeads Q s' ops

theorem ValidProgram.leads [Env] : ∀ {ops : List (Op ℝ)} {s : Sim ℝ}, ValidProgram s ops → ProgLeads (fun _ => True) s ops
  | [], _, _ => trivial
  | _ :: _, _, h => ⟨h.1, h.2.1, fun n s' hr h1 => (h.2.2 n s' hr h1).leads⟩

theorem ProgLeads.app [Env] {Q : Sim ℝ → Prop} {ops' : List (Op ℝ)} : ∀ {ops : List (Op ℝ)} {s : Sim ℝ}, ProgLeads Q s ops →
    (∀ s, Q s → ValidProgram s ops') → ValidProgram s (ops ++ ops')
  | [], _, h, h' => h' _ h
  | _ :: _, _, h, h' => ⟨h.1, h.2.1, fun n s' hr h1 => (h.2.2 n s' hr h1).app h'⟩

theorem program_returns [Env] [LawfulDijkstra] {Q : Sim ℝ → Prop} (hd : SearchEnds) : ∀ {ops : List (Op ℝ)} {s : Sim ℝ} {N : Nat},
    (∀ n, N ≤ n → @Reach ℝ _ (Env.withFuel n) True s) → PosNet s.links → StraightNet s.links → ProgLeads Q s ops →
    ∃ N s', Q s' ∧ PosNet s'.links ∧ StraightNet s'.links ∧ ∀ n, N ≤ n → @Reach ℝ _ (Env.withFuel n) True s' ∧
      ops.foldlM (@Sim.exec ℝ _ (Env.withFuel n)) s = .ok s'
  | [], s, N, hr, hp, hs, hq => ⟨N, s, hq, hp, hs, fun n hn => ⟨hr n hn, rfl⟩⟩
  | op :: ops, s, N, hr, hp, hs, hv => by
    obtain ⟨ha, hv, hops⟩ := hv
    obtain ⟨N1, s1, h1⟩ := @C69_calls (Env.withFuel N) (LawfulDijkstra.withFuel N) s (hr N le_rfl) hd hp hs op ha hv
    have h1 : ∀ n, N1 ≤ n → @Sim.exec ℝ _ (Env.withFuel n) s op = .ok s1 := h1
    have hr1 : ∀ n, max N N1 ≤ n → @Reach ℝ _ (Env.withFuel n) True s1 := fun n hn =>
      @Reach.exec ℝ _ (Env.withFuel n) True s s1 op (hr n (le_of_max_le_left hn)) ha (h1 n (le_of_max_le_right hn))
    have h2 := @exec_straight (Env.withFuel (max N N1)) (LawfulDijkstra.withFuel _) s s1 op (hr _ (le_max_left _ _)) hp hs hv
      (h1 _ (le_max_right _ _))
    obtain ⟨N2, s2, hq2, hp2, hs2, h3⟩ := program_returns hd hr1 h2.1 h2.2 (hops _ _ (hr1 _ le_rfl) (h1 _ (le_max_right _ _)))
    refine ⟨max N1 N2, s2, hq2, hp2, hs2, fun n hn => ⟨(h3 n (le_of_max_le_right hn)).1, ?_⟩⟩
    rw [List.foldlM_cons]
    exact M_bind_ok.2 ⟨s1, h1 n (le_of_max_le_left hn), (h3 n (le_of_max_le_right hn)).2⟩

theorem program_runs [Env] [LawfulDijkstra] {Q : Sim ℝ → Prop} (hd : SearchEnds) {ops : List (Op ℝ)} (h : ProgLeads Q .new ops) :
    ∃ N s', Q s' ∧ PosNet s'.links ∧ StraightNet s'.links ∧ ∀ n, N ≤ n → @Reach ℝ _ (Env.withFuel n) True s' ∧
      ops.foldlM (@Sim.exec ℝ _ (Env.withFuel n)) .new = .ok s' := by
  have h0 : ∀ k, (Sim.new : Sim ℝ).links.get? k = none := fun k => rfl
  exact program_returns (N := 0) hd (fun n _ => @Reach.new ℝ _ (Env.withFuel n) True)
    ⟨fun k l h => (nomatch (h0 k).symm.trans h), fun k l h => (nomatch (h0 k).symm.trans h)⟩
    (fun k l h => (nomatch (h0 k).symm.trans h)) h

/-- **C69** In exact arithmetic, a program that builds a network of straight links and drives vehicles on it, with valid
arguments throughout, never fails, and its result does not depend on the bound on the loops of the model. -/
theorem C69_program [Env] [LawfulDijkstra] (hd : SearchEnds) {ops : List (Op ℝ)} (h : ValidProgram .new ops) :
    ∃ N s', ∀ n, N ≤ n → ops.foldlM (@Sim.exec ℝ _ (Env.withFuel n)) .new = .ok s' := by
  obtain ⟨N, s', -, -, -, h1⟩ := program_runs hd h.leads
  exact ⟨N, s', fun n hn => (h1 n hn).2⟩

/-! ### Example: two lanes and a vehicle that changes lanes -/

namespace TwoLanes

theorem addLink_slots [Env] {s s' : Sim ℝ} {a : LinkAttributes ℝ} (hfree : s.links.free = [])
    (h : s.exec (.addLink a) = .ok s') : ∃ l, l.group = none ∧
    s' = { s with links := ⟨s.links.slots ++ [⟨1, some l⟩], []⟩ } := by
  simp only [Sim.exec, Sim.addLink, SlotMap.insertWithKey, hfree] at h
  split at h
  · cases h
  · simp only [M_bind_ok, M_pure_ok] at h
    obtain ⟨_, ⟨_, ⟨l, hl, rfl⟩, rfl⟩, rfl⟩ := h
    refine ⟨l, ?_, rfl⟩
    unfold Link.new at hl
    rw [M_bind_ok] at hl
    obtain ⟨c, -, hl⟩ := hl
    rw [M_pure_ok] at hl
    rw [← hl]

theorem addVehicle_slots [Env] [LawfulDijkstra] {s s' : Sim ℝ} {a : VehicleAttributes ℝ} {k : Key} (hs : SimInv True s) (hv : s.vehicles = .empty)
    (h : s.exec (.addVehicle a k) = .ok s') : s'.vehicles.contains ⟨0, 1⟩ = true ∧ SRel (fun _ _ _ => True) s.links s'.links ∧
      s'.lights = s.lights := by
  simp only [Sim.exec, M_bind_ok, M_pure_ok] at h
  obtain ⟨⟨s1, j⟩, h, rfl⟩ := h
  have h2 := addVehicle_ok hs h
  have hj : j = ⟨0, 1⟩ := by
    unfold Sim.addVehicle at h
    rw [M_bind_ok] at h
    obtain ⟨⟨vs, k'⟩, hm, h⟩ := h
    rw [M_bind_ok] at h
    obtain ⟨links', -, h⟩ := h
    rw [M_pure_ok] at h
    simp only [SlotMap.insertWithKey, hv, SlotMap.empty] at hm
    split at hm
    · cases hm
    · simp only [M_bind_ok, M_pure_ok] at hm
      obtain ⟨_, -, hm⟩ := hm
      cases hm
      cases h
      rfl
  subst hj
  obtain ⟨v, pf, -, -, -, -, hget⟩ := h2.veh
  refine ⟨contains_of_get (v := v) (by rw [hget]; simp), h2.links.mono fun _ _ _ _ => trivial, by rw [h2.eq]⟩

noncomputable def lane (x y : ℝ) : LinkAttributes ℝ := ⟨(LineSegment2d.fromEnds ⟨x, y⟩ ⟨x + 100, y⟩).toCurve, 10⟩

noncomputable def car : VehicleAttributes ℝ := ⟨2, 4, 2, 1, 2, 1.5⟩

theorem lane_fits (x y : ℝ) {s : Sim ℝ} (h : s.links.HasRoom) : ValidArgs s (.addLink (lane x y)) := by
  have hd : V2.distance (⟨x, y⟩ : V2 ℝ) ⟨x + 100, y⟩ = 100 := by
    simp only [V2.distance, V2.magnitude, V2.magnitude2, V2.dot, V2.sub, fsqrt]
    show Real.sqrt _ = 100
    rw [show ((x + 100 - x) * (x + 100 - x) + (y - y) * (y - y) : ℝ) = 100 * 100 by ring]
    exact Real.sqrt_mul_self (by norm_num)
  exact ⟨h, by norm_num [lane], _, _, by rw [hd]; norm_num, by rw [hd]; norm_num, rfl⟩

/-- Two lanes, joined to a group, the second leading to a third link; a vehicle on the first that is sent to the third link. -/
noncomputable def build : List (Op ℝ) :=
  [.addLink (lane 0 0), .addLink (lane 0 3), .addLink (lane 100 3), .addLinkGroup [⟨0, 1⟩, ⟨1, 1⟩] 3,
    .addLinkConnection ⟨1, 1⟩ ⟨2, 1⟩, .addLinkConvergance ⟨1, 1⟩ ⟨2, 1⟩, .addVehicle car ⟨0, 1⟩,
    .setVehicleDestination ⟨0, 1⟩ ⟨2, 1⟩]

/-- Then the vehicle changes lanes, and drives for a while. -/
noncomputable def program (dts : List ℝ) : List (Op ℝ) := build ++ (.doLaneChange ⟨0, 1⟩ ⟨1, 1⟩ 20 :: dts.map .step)

theorem steps_valid [Env] : ∀ (dts : List ℝ) (s : Sim ℝ), ValidProgram s (dts.map .step)
  | [], _ => trivial
  | _ :: dts, _ => ⟨trivial, trivial, fun _ _ _ _ => steps_valid dts _⟩

theorem links_stay [Env] [LawfulDijkstra] {s s' : Sim ℝ} {op : Op ℝ} {k : Key} (hs : SimInv True s) (h : s.exec op = .ok s')
    (hk : s.links.contains k = true) : s'.links.contains k = true := by
  cases exec_network hs h with
  | frame hf => rw [hf.contains]; exact hk
  | added a j _ ha =>
    obtain ⟨l, -, hget⟩ := ha.link
    obtain ⟨l0, hl0⟩ := get_of_contains hk
    by_cases e : k = j
    · exact contains_of_get (v := l) (by rw [hget, if_pos e])
    · exact contains_of_get (v := l0) (by rw [hget, if_neg e]; exact hl0)
  | grouped ids m g lcs _ hg => rw [hg.rel.contains]; exact hk
  | converging x y cs _ hc => rw [hc.contains]; exact hk
  | connected x y _ _ _ hc => rw [hc.contains]; exact hk

theorem vehicles_same [Env] {s s' : Sim ℝ} {op : Op ℝ} (h : s.exec op = .ok s') :
    (∀ ids m, op = .addLinkGroup ids m → s'.vehicles = s.vehicles) ∧ (∀ a b, op = .addLinkConnection a b → s'.vehicles = s.vehicles) ∧
    ∀ a b, op = .addLinkConvergance a b → s'.vehicles = s.vehicles := by
  refine ⟨?_, ?_, ?_⟩
  · rintro ids m rfl
    simp only [Sim.exec, Sim.addLinkGroup, M_bind_ok, M_pure_ok] at h
    obtain ⟨_, -, _, -, _, -, _, -, _, -, rfl⟩ := h
    rfl
  · rintro a b rfl
    simp only [Sim.exec, Sim.addLinkConnection, M_bind_ok, M_pure_ok] at h
    obtain ⟨_, -, _, -, rfl⟩ := h
    rfl
  · rintro a b rfl
    simp only [Sim.exec, Sim.addLinkConvergance] at h
    split at h
    · cases h; rfl
    · split at h
      · rw [M_bind_ok] at h
        obtain ⟨c, -, h⟩ := h
        cases c with
        | none => cases h; rfl
        | some c =>
          simp only [M_bind_ok, M_pure_ok] at h
          obtain ⟨_, -, rfl⟩ := h
          rfl
      · cases h; rfl

theorem leads [Env] [LawfulDijkstra] : ProgLeads (fun s => s.links.contains ⟨1, 1⟩ = true ∧ s.links.contains ⟨2, 1⟩ = true ∧
    s.vehicles.contains ⟨0, 1⟩ = true) .new build := by
  have inv : ∀ {n s}, @Reach ℝ _ (Env.withFuel n) True s → SimInv True s := fun {n s} h =>
    @Reach.inv ℝ _ True s (Env.withFuel n) (LawfulDijkstra.withFuel n) h
  have keep : ∀ {n s s' op}, SimInv True s → @Sim.exec ℝ _ (Env.withFuel n) s op = .ok s' →
      ∀ {k}, s.links.contains k = true → s'.links.contains k = true := fun {n s s' op} hi h {k} =>
    @links_stay (Env.withFuel n) (LawfulDijkstra.withFuel n) s s' op k hi h
  refine ⟨trivial, lane_fits _ _ (.inr (by simp [Sim.new, SlotMap.empty, u32Max])), fun n1 s1 r1 h1 => ?_⟩
  obtain ⟨l1, g1, rfl⟩ := @addLink_slots (Env.withFuel n1) _ _ _ rfl h1
  refine ⟨trivial, lane_fits _ _ (.inr (by simp [Sim.new, SlotMap.empty, u32Max])), fun n2 s2 r2 h2 => ?_⟩
  obtain ⟨l2, g2, rfl⟩ := @addLink_slots (Env.withFuel n2) _ _ _ rfl h2
  refine ⟨trivial, lane_fits _ _ (.inr (by simp [Sim.new, SlotMap.empty, u32Max])), fun n3 s3 r3 h3 => ?_⟩
  obtain ⟨l3, g3, rfl⟩ := @addLink_slots (Env.withFuel n3) _ _ _ rfl h3
  refine ⟨fun _ => ⟨by decide, by decide, ?_⟩, ⟨le_rfl, ?_⟩, fun n4 s4 r4 h4 => ?_⟩
  · intro k hk l hl
    simp only [List.mem_cons, List.not_mem_nil, or_false] at hk
    rcases hk with rfl | rfl
    · cases hl; exact g1
    · cases hl; exact g2
  · intro k hk
    simp only [List.mem_cons, List.not_mem_nil, or_false] at hk
    rcases hk with rfl | rfl <;> rfl
  have a4 : s4.links.contains ⟨0, 1⟩ = true ∧ s4.links.contains ⟨1, 1⟩ = true ∧ s4.links.contains ⟨2, 1⟩ = true :=
    ⟨keep (inv r3) h4 rfl, keep (inv r3) h4 rfl, keep (inv r3) h4 rfl⟩
  have v4 : s4.vehicles = .empty := ((@vehicles_same (Env.withFuel n4) _ _ _ h4).1 _ _ rfl).trans rfl
  refine ⟨trivial, a4.2, fun n5 s5 r5 h5 => ?_⟩
  have a5 : s5.links.contains ⟨0, 1⟩ = true ∧ s5.links.contains ⟨1, 1⟩ = true ∧ s5.links.contains ⟨2, 1⟩ = true :=
    ⟨keep (inv r4) h5 a4.1, keep (inv r4) h5 a4.2.1, keep (inv r4) h5 a4.2.2⟩
  have v5 : s5.vehicles = .empty := ((@vehicles_same (Env.withFuel n5) _ _ _ h5).2.1 _ _ rfl).trans v4
  refine ⟨trivial, trivial, fun n6 s6 r6 h6 => ?_⟩
  have a6 : s6.links.contains ⟨0, 1⟩ = true ∧ s6.links.contains ⟨1, 1⟩ = true ∧ s6.links.contains ⟨2, 1⟩ = true :=
    ⟨keep (inv r5) h6 a5.1, keep (inv r5) h6 a5.2.1, keep (inv r5) h6 a5.2.2⟩
  have v6 : s6.vehicles = .empty := ((@vehicles_same (Env.withFuel n6) _ _ _ h6).2.2 _ _ rfl).trans v5
  refine ⟨trivial, ⟨a6.1, by rw [v6]; exact .inr (by decide)⟩, fun n7 s7 r7 h7 => ?_⟩
  have a7 : s7.links.contains ⟨1, 1⟩ = true ∧ s7.links.contains ⟨2, 1⟩ = true := ⟨keep (inv r6) h7 a6.2.1, keep (inv r6) h7 a6.2.2⟩
  have v7 := (@addVehicle_slots (Env.withFuel n7) (LawfulDijkstra.withFuel n7) _ _ _ _ (inv r6) v6 h7).1
  refine ⟨trivial, ⟨v7, .inr a7.2⟩, fun n8 s8 r8 h8 => ?_⟩
  have v8 : s8.vehicles.contains ⟨0, 1⟩ = true := by
    obtain ⟨v, pf, -, -, -, -, e⟩ := ((@setVehicleDestination_spec ℝ _ _ _ (Env.withFuel n8) (LawfulDijkstra.withFuel n8) (fun _ => True) (inv r7) (.inr trivial)
      (.inr trivial) _ _ v7 (.inr (.inr trivial))).ok h8).veh
    have := SRel.modify_one (R := fun _ _ _ => True) s7.vehicles ⟨0, 1⟩ (fun _ => { v with pathfind := pf, canExit := false })
      (fun _ _ _ => trivial) (fun _ _ => trivial)
    rw [e, this.contains]; exact v7
  exact ⟨keep (inv r7) h8 a7.1, keep (inv r7) h8 a7.2, v8⟩

theorem valid [Env] [LawfulDijkstra] (dts : List ℝ) : ValidProgram .new (program dts) :=
  leads.app fun _ h => ⟨trivial, ⟨h.2.2, h.1⟩, fun _ s9 _ _ => steps_valid dts s9⟩

end TwoLanes

/-- The hypotheses of C69_program hold for a program that builds two lanes and an exit, sends a vehicle to it, starts a lane change and
makes any number of steps of any length. -/
example (dts : List ℝ) : ∃ N s', ∀ n, N ≤ n →
    (TwoLanes.program dts).foldlM (@Sim.exec ℝ _ (@Env.withFuel (Lone.env 0) n)) .new = .ok s' :=
  @C69_program (Lone.env 0) (Lone.lawful 0) (Search.full_ends _) _ (@TwoLanes.valid (Lone.env 0) (Lone.lawful 0) dts)

/-- There is a simulation with these lanes and this vehicle, so the hypotheses of C68_step, C68_steps, C68_straight, C69_vehicle,
C69_destination, C69_laneChange and C69_calls can be met. -/
example : ∃ n s, @Reach ℝ _ (Lone.env n) True s ∧ @SearchEnds (Lone.env n) ∧ PosNet s.links ∧ StraightNet s.links ∧
    GoodNet s.links ∧ StepEnds s.links ∧ s.links.contains ⟨1, 1⟩ = true ∧ s.vehicles.contains ⟨0, 1⟩ = true := by
  obtain ⟨N, s, hq, hp, hs, h⟩ := @program_runs (Lone.env 0) (Lone.lawful 0) _ (Search.full_ends _) _
    (@TwoLanes.leads (Lone.env 0) (Lone.lawful 0))
  have hr : @Reach ℝ _ (Lone.env N) True s := (h (N + 1) (by omega)).1
  exact ⟨N, s, hr, Search.full_ends _, hp, hs, @goodNet_straight (Lone.env N) (Lone.lawful N) _ _ hr hp hs,
    stepEnds_straight hp hs, hq.1, hq.2.2⟩

end TrafficSim
