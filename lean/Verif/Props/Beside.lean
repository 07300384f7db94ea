import Verif.Props.Calls

/-! # C75: where a vehicle is in terms of the other lanes -/

namespace TrafficSim

section
variable {F : Type} [Flt F] {s s' : Sim F}

/-- The projections of a group are in order: first those from the first link to the others, then those from the second link,
and so on. -/
def InOrder [Env] (links : LinkSet F) (g : LinkGroup F) : Prop :=
  ∀ i a, g.links[i]? = some a → ∀ m, m < g.links.length - 1 → ∃ b p, g.links[if m < i then m else m + 1]? = some b ∧
    g.projections[(g.links.length - 1) * i + m]? = some p ∧ Made links a b p

theorem InOrder.rel [Env] {links links' : LinkSet F} {g : LinkGroup F} (h : InOrder links g)
    (hr : ∀ k l, links.get? k = some l → ∃ l', links'.get? k = some l' ∧ l'.curve = l.curve) : InOrder links' g := by
  intro i a hi m hm
  obtain ⟨b, p, h1, h2, h3⟩ := h i a hi m hm
  exact ⟨b, p, h1, h2, h3.rel hr⟩

theorem addLinkGroup_inOrder [Env] {ids : List Key} {mask : Nat} (hs : NetInv True s.links) (hnd : ids.Nodup)
    (h : s.addLinkGroup ids mask = .ok s') {k : Key} {l' : Link F} {g : LinkGroup F} (hk : k ∈ ids)
    (hl' : s'.links.get? k = some l') (hg' : l'.group = some g) : InOrder s.links g := by
  obtain ⟨g0, lcs, hga⟩ := addLinkGroup_ok hs h
  have hg0 : g = g0 := by
    obtain ⟨l, -, rfl, -⟩ := hga.rel.bwd hl'
    dsimp only at hg'
    rw [if_pos hk] at hg'
    exact (Option.some.inj hg').symm
  subst hg0
  unfold Sim.addLinkGroup at h
  simp only [M_bind_ok, M_pure_ok] at h
  obtain ⟨ls, hls, g1, hg, m1, hm1, lcs1, hlcs, m2, hm2, rfl⟩ := h
  have hg1 : g = g1 := by
    have := (setGroups_ok hm1).trans (addLanes_ok hm2) (T := fun k _ l'' => k ∈ ids → l''.group = some g1) (by
      rintro k l l' l'' rfl ⟨rfl, -⟩ hk
      exact if_pos hk)
    obtain ⟨_, -, e⟩ := this.bwd hl'
    rw [e hk] at hg'
    exact (Option.some.inj hg').symm
  subst hg1
  obtain ⟨hlen, hget⟩ := mapM_getElem? hls
  obtain ⟨h2, hgl, hgm, hgp⟩ := LinkGroup.new_ok hg
  obtain ⟨hplen, hpget⟩ := mapM_getElem? hgp
  have hids : ls.map (·.id) = ids := by rw [← hgl, hga.links]
  have hlk : ∀ (i : Nat) (k : Key), ids[i]? = some k → ∃ l, ls[i]? = some l ∧ s.links.get? k = some l ∧ l.id = k := by
    intro i k hi
    obtain ⟨l, h1, h2⟩ := hget i k hi
    rw [getLink_ok] at h2
    exact ⟨l, h1, h2, (hs.link k l h2).id⟩
  rw [InOrder, hga.links]
  intro i a hi m hm
  obtain ⟨la, hla, ha, -⟩ := hlk i a hi
  have hlt : (if m < i then m else m + 1) < ids.length := by split <;> omega
  obtain ⟨lb, hlb, hb, -⟩ := hlk _ _ (List.getElem?_eq_getElem hlt)
  have hp := projectionPairs_getElem (by rw [hids]; exact hnd) hla (r := m) (by omega)
  rw [hlb, hlen] at hp
  obtain ⟨p, hp1, hp2⟩ := hpget _ _ hp
  unfold mkProjection at hp2
  simp only [M_bind_ok, M_pure_ok] at hp2
  obtain ⟨sm, hsm, rfl⟩ := hp2
  refine ⟨_, _, List.getElem?_eq_getElem hlt, hp1, la, lb, ha, hb, ?_, (hs.link _ lb hb).id, rfl, hsm⟩
  intro e
  have h1 := (List.getElem?_eq_some_iff.1 hi)
  obtain ⟨h1, h3⟩ := h1
  have := (List.Nodup.getElem_inj_iff hnd).1 (h3.trans e)
  split at this <;> omega

theorem reach_inOrder [Env] [LawfulDijkstra] (h : Reach True s) : ∀ {k : Key} {l : Link F}, s.links.get? k = some l →
    ∀ g, l.group = some g → InOrder s.links g := by
  induction h with
  | new =>
    intro k l hl
    have : (Sim.new : Sim F).links.get? k = none := rfl
    rw [this] at hl; cases hl
  | @exec s s' op hr hal he ih =>
    intro k l' hl' g hg
    cases exec_network hr.inv he with
    | frame hf =>
      obtain ⟨l, hl, e⟩ := hf.bwd hl'
      exact (ih hl g (e.group.symm.trans hg)).rel fun k l hl => by
        obtain ⟨l', hl', e⟩ := hf.fwd _ _ hl
        exact ⟨l', hl', e.curve⟩
    | added att j _ hk =>
      obtain ⟨l0, hl0, hget⟩ := hk.link
      have hfwd : ∀ k l, s.links.get? k = some l → ∃ l', s'.links.get? k = some l' ∧ l'.curve = l.curve := by
        intro k l hl
        refine ⟨l, ?_, rfl⟩
        rw [hget, if_neg]
        · exact hl
        · intro e; subst e; exact not_contains_of_not_issued hk.fresh _ hl
      rw [hget] at hl'
      split at hl'
      · cases hl'
        rw [(Link.new_ok hl0).2.1] at hg; cases hg
      · exact (ih hl' g hg).rel hfwd
    | grouped ids mask g' lcs e hgr =>
      have hfwd : ∀ k l, s.links.get? k = some l → ∃ l', s'.links.get? k = some l' ∧ l'.curve = l.curve := by
        intro k l hl
        obtain ⟨l', hl', rfl, -⟩ := hgr.rel.fwd _ _ hl
        exact ⟨_, hl', rfl⟩
      subst e
      by_cases hk : k ∈ ids
      · exact (addLinkGroup_inOrder hr.inv.net (hal trivial).1 he hk hl' hg).rel hfwd
      · obtain ⟨l, hl, rfl, -⟩ := hgr.rel.bwd hl'
        dsimp only at hg
        rw [if_neg hk] at hg
        exact (ih hl g hg).rel hfwd
    | converging x y cs _ hc =>
      obtain ⟨l, hl, rfl⟩ := hc.bwd hl'
      exact (ih hl g hg).rel fun k l hl => by
        obtain ⟨l', hl', rfl⟩ := hc.fwd _ _ hl
        exact ⟨_, hl', rfl⟩
    | connected x y _ _ _ hc =>
      obtain ⟨l, hl, rfl⟩ := hc.bwd hl'
      exact (ih hl g hg).rel fun k l hl => by
        obtain ⟨l', hl', rfl⟩ := hc.fwd _ _ hl
        exact ⟨_, hl', rfl⟩

/-- The projections from a link of a group are those to the other links of the group, in their order. -/
theorem from_link [Env] [LawfulDijkstra] (h : Reach True s) {k : Key} {l : Link F} (hl : s.links.get? k = some l) {g : LinkGroup F}
    (hg : l.group = some g) : ∃ ps, g.projectionsFromLink k = .ok ps ∧ ps.map (·.dst) = g.links.filter (fun j => j != k) ∧
      ∀ p ∈ ps, Made s.links k p.dst p := by
  have hgi := (h.inv.net.link k l hl).group g hg
  have hnd := hgi.nodup trivial
  have hcount := hgi.count trivial
  have hord := reach_inOrder h hl g hg
  obtain ⟨i, hi⟩ := List.getElem?_of_mem hgi.mem
  have hlt := (List.getElem?_eq_some_iff.1 hi).1
  have hle : (g.links.length - 1) * (i + 1) ≤ g.projections.length := by
    rw [hcount, Nat.mul_comm g.links.length]
    exact Nat.mul_le_mul_left _ hlt
  refine ⟨(g.projections.take ((g.links.length - 1) * (i + 1))).drop ((g.links.length - 1) * i), ?_, ?_, ?_⟩
  · unfold LinkGroup.projectionsFromLink
    rw [LinkGroup.findLink_nodup hnd hi]
    dsimp only
    rw [if_neg (by omega), if_pos hle]
    rfl
  · rw [← List.Nodup.erase_eq_filter hnd]
    have he : g.links.erase k = g.links.eraseIdx i := by
      have hk : g.links[i] = k := (List.getElem?_eq_some_iff.1 hi).2
      rw [List.erase_eq_eraseIdx_of_idxOf]
      rw [← hk]
      exact List.Nodup.idxOf_getElem hnd i hlt
    rw [he]
    apply List.ext_getElem?
    intro m
    rw [List.getElem?_map, List.getElem?_drop, List.getElem?_take, List.getElem?_eraseIdx]
    by_cases hm : m < g.links.length - 1
    · obtain ⟨b, p, h1, h2, h3⟩ := hord i k hi m hm
      rw [if_pos (by rw [Nat.mul_add]; omega), h2]
      obtain ⟨_, _, _, _, _, e, _⟩ := h3
      split at h1 <;> rename_i hmi <;> simp only [hmi, if_true, if_false] <;> rw [h1, ← e] <;> rfl
    · rw [if_neg (by rw [Nat.mul_add]; omega)]
      split
      · omega
      · rw [List.getElem?_eq_none (by omega)]; rfl
  · intro p hp
    obtain ⟨m, hm⟩ := List.getElem?_of_mem hp
    rw [List.getElem?_drop, List.getElem?_take] at hm
    split at hm
    · rename_i hlt'
      rw [Nat.mul_add] at hlt'
      obtain ⟨b, p', h1, h2, h3⟩ := hord i k hi m (by omega)
      rw [hm] at h2; cases h2
      have e : p.dst = b := by obtain ⟨_, _, _, _, _, e, _⟩ := h3; exact e
      rw [e]; exact h3
    · cases hm

end

/-- The samples of a projection between straight links. -/
theorem samples_straight {ca cb : LinkCurve ℝ} {o u o' u' : V2 ℝ} (hu' : u'.x * u'.x + u'.y * u'.y = 1)
    (h : ∀ t, ca.sampleCentre t = .ok ⟨o.add (V2.smul t u), u⟩) (h' : ∀ t, cb.sampleCentre t = .ok ⟨o'.add (V2.smul t u'), u'⟩) :
    ∀ (fuel i : Nat) (prev : ℝ) (ss : List (ProjectedSample ℝ)), projectionSamples ca cb fuel i prev = .ok ss →
    ∀ q : Nat, ss[q]? = if 2 * ((i + q : Nat) : ℝ) < ca.length then
      some ⟨V2.dot ((o.add (V2.smul (2 * ((i + q : Nat) : ℝ)) u)).sub o') u', V2.dot ((o.add (V2.smul (2 * ((i + q : Nat) : ℝ)) u)).sub o') (rot90 u')⟩
      else none := by
  intro fuel
  induction fuel with
  | zero => intro i prev ss h; cases h
  | succ n ih =>
    intro i prev ss hss q
    have h2 : (2.0 : ℝ) = 2 := by norm_num
    unfold projectionSamples at hss
    dsimp only at hss
    change (if (2.0 : ℝ) * ((i : ℕ) : ℝ) < ca.length then _ else _) = _ at hss
    rw [h2] at hss
    split at hss
    · rename_i hi
      rw [h] at hss
      simp only [M_bind_ok] at hss
      obtain ⟨_, e1, hss⟩ := hss
      cases e1
      rw [project_straight hu' h' _ (by norm_num)] at hss
      obtain ⟨_, e1, hss⟩ := hss
      cases e1
      simp only [M_bind_ok, M_pure_ok] at hss
      obtain ⟨c, hc, rest, hrest, rfl⟩ := hss
      rw [h'] at hc; cases hc
      cases q with
      | zero =>
        rw [Nat.add_zero, if_pos hi]
        rw [List.getElem?_cons_zero]
        congr 2
        simp only [V2.dot, V2.sub, V2.add, V2.smul, rot90, Flt.ofNat]
        ring
      | succ q =>
        rw [List.getElem?_cons_succ, ih (i + 1) _ rest hrest q, show i + 1 + q = i + (q + 1) by omega]
    · rename_i hi
      rw [M_pure_ok] at hss; subst hss
      rw [if_neg]
      · rfl
      · intro hlt
        apply hi
        push_cast at hlt
        nlinarith [Nat.cast_nonneg (α := ℝ) q]

/-- A vehicle, seen from a link beside its own: the point of its own link at the position of its rear, rounded down to a multiple of
2 m (0 if it is negative, the last one on the link if it is beyond), is `y` to the side of the point at `x` of the other link. -/
structure SeenFrom (la lb : Link ℝ) (v : Vehicle ℝ) (t x y : ℝ) : Prop where
  place : ∃ ca cb, la.curve.sampleCentre t = .ok ca ∧ lb.curve.sampleCentre x = .ok cb ∧
    ca.pos = cb.pos.add (V2.smul y (rot90 cb.tan))
  even : ∃ i : ℕ, t = 2 * i
  within : 0 ≤ v.pos - v.halfLen → v.pos - v.halfLen < la.length → t ≤ v.pos - v.halfLen ∧ v.pos - v.halfLen < t + 2
  before : v.pos - v.halfLen < 0 → t = 0
  beyond : la.length ≤ v.pos - v.halfLen → t < la.length ∧ la.length ≤ t + 2

/-- **C75** In exact arithmetic, on straight links: a group has, for each of its links, the projections to the others, in order.  What
the projection yields for a vehicle is where the vehicle is in terms of the other link: at `x` along it (or behind its start by as much as
the vehicle is behind the start of its own), and `y` further to the side than on its own link. -/
theorem C75_beside [Env] [LawfulDijkstra] {s : Sim ℝ} (h : Reach True s) (hn : PosNet s.links) (hs : StraightNet s.links)
    {k : Key} {l : Link ℝ} (hl : s.getLinkRef k = .ok l) {g : LinkGroup ℝ} (hg : l.group = some g) :
    ∃ ps, g.projectionsFromLink k = .ok ps ∧ ps.map (·.dst) = g.links.filter (fun j => j != k) ∧ ∀ p ∈ ps,
      ∃ lb, s.getLinkRef p.dst = .ok lb ∧ ∀ v : Vehicle ℝ, v.pos - v.halfLen ≤ usizeMax → ∃ t x y, SeenFrom l lb v t x y ∧
        v.project p = .ok { rearCoords := v.rearCoords, pos := x + min (v.pos - v.halfLen) 0,
                            lat := ⟨v.rearLats.min + y, v.rearLats.max + y⟩, vel := v.vel } := by
  have hl := getLink_ok.1 hl
  obtain ⟨ps, h1, h2, h3⟩ := from_link h hl hg
  refine ⟨ps, h1, h2, fun p hp => ?_⟩
  obtain ⟨la, lb, ha, hb, -, -, hinv, hsm⟩ := h3 p hp
  rw [hl] at ha; cases ha
  obtain ⟨o, u, hu, ho⟩ := hs k l hl
  obtain ⟨o', u', hu', ho'⟩ := hs _ lb hb
  have hlen : 0 < l.length := hn.length k l hl
  have hss := samples_straight hu' ho ho' _ _ _ _ hsm
  simp only [Nat.zero_add] at hss
  refine ⟨lb, getLink_ok.2 hb, fun v hv => ?_⟩
  have hl2 : l.curve.length = l.length := rfl
  rw [hl2] at hss
  -- the number of samples
  have hcnt : ∀ q : Nat, q < p.samples.length ↔ 2 * (q : ℝ) < l.length := by
    intro q
    have := hss q
    constructor
    · intro hq
      rw [List.getElem?_eq_getElem hq] at this
      by_contra hc
      rw [if_neg hc] at this; cases this
    · intro hq
      rw [if_pos hq] at this
      exact (List.getElem?_eq_some_iff.1 this).1
  have hpos : 0 < p.samples.length := (hcnt 0).2 (by simpa using hlen)
  set r := v.pos - v.halfLen with hr
  have hidx : toUsize (r * p.invSegmentLen) = ⌊r / 2⌋₊ := by
    rw [hinv]
    show min ⌊r * (1.0 / 2.0)⌋₊ usizeMax = _
    rw [show r * (1.0 / 2.0) = r / 2 by norm_num; ring, min_eq_left]
    apply Nat.floor_le_of_le
    have : (0 : ℝ) ≤ usizeMax := Nat.cast_nonneg _
    linarith
  set i := min ⌊r / 2⌋₊ (p.samples.length - 1) with hi
  have hilt : i < p.samples.length := by omega
  have hget := hss i
  rw [if_pos ((hcnt i).1 hilt)] at hget
  have hlast : l.length ≤ 2 * ((p.samples.length - 1 : ℕ) : ℝ) + 2 := by
    by_contra hc
    push Not at hc
    have := (hcnt p.samples.length).2 (by
      rw [show (p.samples.length : ℝ) = ((p.samples.length - 1 : ℕ) : ℝ) + 1 by
        rw [Nat.cast_sub (by omega)]; push_cast; ring]
      linarith)
    omega
  refine ⟨2 * i, ((o.add (V2.smul (2 * (i : ℝ)) u)).sub o').dot u', ((o.add (V2.smul (2 * (i : ℝ)) u)).sub o').dot (rot90 u'),
    ⟨⟨_, _, ho _, ho' _, ?_⟩, ⟨i, rfl⟩, ?_, ?_, ?_⟩, ?_⟩
  · generalize o.add (V2.smul (2 * (i : ℝ)) u) = P
    obtain ⟨px, py⟩ := P
    simp only [V2.dot, V2.sub, V2.add, V2.smul, rot90, V2.mk.injEq]
    constructor
    · linear_combination (o'.x - px) * hu'
    · linear_combination (o'.y - py) * hu'
  · intro h0 hlt
    have hf : (⌊r / 2⌋₊ : ℝ) ≤ r / 2 := Nat.floor_le (by linarith)
    have hf' : r / 2 < ⌊r / 2⌋₊ + 1 := Nat.lt_floor_add_one _
    have : ⌊r / 2⌋₊ < p.samples.length := (hcnt _).2 (by linarith)
    have e : i = ⌊r / 2⌋₊ := by omega
    rw [e]
    constructor <;> linarith
  · intro h0
    have : ⌊r / 2⌋₊ = 0 := Nat.floor_of_nonpos (by linarith)
    rw [show i = 0 by omega]; simp
  · intro hge
    refine ⟨(hcnt i).1 hilt, ?_⟩
    have : p.samples.length - 1 ≤ ⌊r / 2⌋₊ := by
      apply Nat.le_floor
      have := (hcnt (p.samples.length - 1)).1 (by omega)
      linarith
    rw [show i = p.samples.length - 1 by omega]
    exact hlast
  · unfold Vehicle.project LinkProjection.project LinkProjection.sample
    rw [if_neg (by omega)]
    dsimp only
    rw [← hr, hidx, ← hi, hget]
    have h00 : (0.0 : ℝ) = 0 := by norm_num
    show Except.ok _ = Except.ok _
    congr 2
    show _ + min r 0.0 = _ + min r 0
    rw [h00]

/-- The component of a vector shorter than 2 in a direction is less than 2. -/
theorem abs_dot_lt {d : ℝ} (h0 : 0 ≤ d) (h2 : d < 2) {u w : V2 ℝ} (hu : u.x * u.x + u.y * u.y = 1) (hw : w.x * w.x + w.y * w.y = 1) :
    |d * (u.x * w.x + u.y * w.y)| < 2 := by
  have h1 : |u.x * w.x + u.y * w.y| ≤ 1 := by
    rw [abs_le]
    constructor <;> nlinarith [sq_nonneg (u.x - w.x), sq_nonneg (u.y - w.y), sq_nonneg (u.x + w.x), sq_nonneg (u.y + w.y)]
  rw [abs_mul, abs_of_nonneg h0]
  nlinarith [abs_nonneg (u.x * w.x + u.y * w.y)]

/-- **C75** In exact arithmetic, on straight links: while the rear of a vehicle is on its link, where the vehicle is seen from a link
beside it is off by less than 2 m along that link and less than 2 m to the side.  (`x` and `y` are the coordinates of the middle of
the vehicle's link at its rear, along and across the other link.) -/
theorem C75_error [Env] [LawfulDijkstra] {s : Sim ℝ} (h : Reach True s) (hn : PosNet s.links) (hs : StraightNet s.links)
    {k : Key} {l : Link ℝ} (hl : s.getLinkRef k = .ok l) {g : LinkGroup ℝ} (hg : l.group = some g) {ps : List (LinkProjection ℝ)}
    (hps : g.projectionsFromLink k = .ok ps) {p : LinkProjection ℝ} (hp : p ∈ ps) {lb : Link ℝ} (hlb : s.getLinkRef p.dst = .ok lb)
    {v : Vehicle ℝ} (hu : v.pos - v.halfLen ≤ usizeMax) (h0 : 0 ≤ v.pos - v.halfLen) (hlt : v.pos - v.halfLen < l.length)
    {x y : ℝ} {ca cb : LinkSample ℝ} (hca : l.curve.sampleCentre (v.pos - v.halfLen) = .ok ca)
    (hcb : lb.curve.sampleCentre x = .ok cb) (hxy : ca.pos = cb.pos.add (V2.smul y (rot90 cb.tan))) :
    ∃ o, v.project p = .ok o ∧ |o.pos - x| < 2 ∧ |o.lat.min - (v.rearLats.min + y)| < 2 ∧
      |o.lat.max - (v.rearLats.max + y)| < 2 := by
  obtain ⟨ps', hps', -, hall⟩ := C75_beside h hn hs hl hg
  rw [hps] at hps'; cases hps'
  obtain ⟨lb', hlb', hv⟩ := hall p hp
  rw [hlb] at hlb'; cases hlb'
  obtain ⟨t, x', y', hseen, hproj⟩ := hv v hu
  obtain ⟨da, db, hda, hdb, hd⟩ := hseen.place
  obtain ⟨ht1, ht2⟩ := hseen.within h0 hlt
  obtain ⟨o, u, huu, ho⟩ := hs k l (getLink_ok.1 hl)
  obtain ⟨o', u', huu', ho'⟩ := hs _ lb (getLink_ok.1 hlb)
  rw [ho] at hca hda
  rw [ho'] at hcb hdb
  cases hca; cases hda; cases hcb; cases hdb
  generalize v.pos - v.halfLen = r at *
  simp only [V2.add, V2.smul, rot90, V2.mk.injEq] at hxy hd
  obtain ⟨e1, e2⟩ := hxy
  obtain ⟨e3, e4⟩ := hd
  have hx : x - x' = (r - t) * (u.x * u'.x + u.y * u'.y) := by
    linear_combination u'.x * (e3 - e1) + u'.y * (e4 - e2) - (x - x') * huu'
  have hy : y - y' = (r - t) * (u.x * (-u'.y) + u.y * u'.x) := by
    linear_combination u'.y * (e1 - e3) + u'.x * (e4 - e2) - (y - y') * huu'
  have hbx : |x - x'| < 2 := by
    rw [hx]; exact abs_dot_lt (by linarith) (by linarith) huu huu'
  have hby : |y - y'| < 2 := by
    rw [hy]; exact abs_dot_lt (w := ⟨-u'.y, u'.x⟩) (by linarith) (by linarith) huu (by simp only; linarith)
  refine ⟨_, hproj, ?_, ?_, ?_⟩
  · rw [min_eq_right h0, abs_sub_comm]; simpa using hbx
  · rw [abs_sub_comm] at hby
    simpa using hby
  · rw [abs_sub_comm] at hby
    simpa using hby

namespace Beside

/-- Two lanes, joined to a group. -/
noncomputable def build : List (Op ℝ) := [.addLink (TwoLanes.lane 0 0), .addLink (TwoLanes.lane 0 3), .addLinkGroup [⟨0, 1⟩, ⟨1, 1⟩] 3]

theorem leads [Env] [LawfulDijkstra] : ProgLeads (fun s => ∃ l g, s.links.get? ⟨0, 1⟩ = some l ∧ l.group = some g ∧
    g.links = [⟨0, 1⟩, ⟨1, 1⟩]) .new build := by
  have inv : ∀ {n s}, @Reach ℝ _ (Env.withFuel n) True s → SimInv True s := fun {n s} h =>
    @Reach.inv ℝ _ True s (Env.withFuel n) (LawfulDijkstra.withFuel n) h
  refine ⟨trivial, TwoLanes.lane_fits _ _ (.inr (by simp [Sim.new, SlotMap.empty, u32Max])), fun n1 s1 r1 h1 => ?_⟩
  obtain ⟨l1, g1, rfl⟩ := @TwoLanes.addLink_slots (Env.withFuel n1) _ _ _ rfl h1
  refine ⟨trivial, TwoLanes.lane_fits _ _ (.inr (by simp [Sim.new, SlotMap.empty, u32Max])), fun n2 s2 r2 h2 => ?_⟩
  obtain ⟨l2, g2, rfl⟩ := @TwoLanes.addLink_slots (Env.withFuel n2) _ _ _ rfl h2
  refine ⟨fun _ => ⟨by decide, by decide, ?_⟩, ⟨le_rfl, ?_⟩, fun n3 s3 r3 h3 => ?_⟩
  · intro k hk l hl
    simp only [List.mem_cons, List.not_mem_nil, or_false] at hk
    rcases hk with rfl | rfl
    · cases hl; exact g1
    · cases hl; exact g2
  · intro k hk
    simp only [List.mem_cons, List.not_mem_nil, or_false] at hk
    rcases hk with rfl | rfl <;> rfl
  let : Env := Env.withFuel n3
  obtain ⟨g, lcs, hga⟩ := addLinkGroup_ok (inv r2).net h3
  obtain ⟨l', hl', e, -⟩ := hga.rel.fwd ⟨0, 1⟩ l1 rfl
  refine ⟨l', g, hl', ?_, hga.links⟩
  rw [e]
  simp only [if_pos (show (⟨0, 1⟩ : Key) ∈ [(⟨0, 1⟩ : Key), ⟨1, 1⟩] by decide)]

end Beside

/-- The hypotheses of C75_beside and C75_error can be met: two lanes of a group, 100 m long and 3 m apart. -/
example : ∃ n s l g ps p lb, @Reach ℝ _ (Lone.env n) True s ∧ PosNet s.links ∧ StraightNet s.links ∧ s.getLinkRef ⟨0, 1⟩ = .ok l ∧
    l.group = some g ∧ g.projectionsFromLink ⟨0, 1⟩ = .ok ps ∧ p ∈ ps ∧ p.dst = ⟨1, 1⟩ ∧ s.getLinkRef p.dst = .ok lb := by
  obtain ⟨N, s, ⟨l, g, hl, hg, hgl⟩, hp, hs, h⟩ := @program_runs (Lone.env 0) (Lone.lawful 0) _ (Search.full_ends _) _
    (@Beside.leads (Lone.env 0) (Lone.lawful 0))
  have hr : @Reach ℝ _ (Lone.env N) True s := (h (N + 1) (by omega)).1
  obtain ⟨ps, h1, h2, h3⟩ := @C75_beside (Lone.env N) (Lone.lawful N) _ hr hp hs _ _ (getLink_ok.2 hl) _ hg
  rw [hgl] at h2
  cases ps with
  | nil => simp at h2
  | cons p ps =>
    obtain ⟨lb, hlb, -⟩ := h3 p (by simp)
    have : p.dst = ⟨1, 1⟩ := by
      have h2 : p.dst :: ps.map (·.dst) = [(⟨1, 1⟩ : Key)] := h2
      exact (List.cons.inj h2).1
    exact ⟨N, s, l, g, _, p, lb, hr, hp, hs, getLink_ok.2 hl, hg, h1, by simp, this, hlb⟩

end TrafficSim
