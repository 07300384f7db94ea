import Verif.Lemmas.PhaseLane
import Verif.Props.Lanes

/-! # The public operations other than a step -/

namespace TrafficSim

section
variable {F : Type} [Flt F] {strict : Prop} {s s' : Sim F}

/-! ## Adding a link -/

/-- The effect of adding a link. -/
structure LinkAdded [Env] (s : Sim F) (a : LinkAttributes F) (s' : Sim F) (k : Key) : Prop where
  fresh : ¬ s.links.Issued k
  link : ∃ l, Link.new k a = .ok l ∧ ∀ j, s'.links.get? j = if j = k then some l else s.links.get? j
  wf : s'.links.WF
  mono : ∀ j, s.links.Issued j → s'.links.Issued j
  issued : s'.links.Issued k
  eq : s' = { s with links := s'.links }

theorem addLink_ok [Env] {a : LinkAttributes F} {k : Key} (hw : s.links.WF) (h : s.addLink a = .ok (s', k)) :
    LinkAdded s a s' k := by
  unfold Sim.addLink at h
  simp only [M_bind_ok] at h
  obtain ⟨⟨m, k'⟩, hm, h⟩ := h
  rw [M_pure_ok] at h
  cases h
  obtain ⟨h1, h2, h3, h4, h5⟩ := SlotMap.insertWithKey_spec hw hm
  exact ⟨h2, h3, h1, h4, h5, rfl⟩

omit [Flt F] in
theorem not_contains_of_not_issued {V : Type} {m : SlotMap V} {k : Key} (h : ¬ m.Issued k) : ∀ v, m.get? k ≠ some v :=
  fun _ hv => h (SlotMap.get?_issued hv)

theorem LinkAdded.old [Env] {a : LinkAttributes F} {k : Key} (h : LinkAdded s a s' k) {j : Key} {l : Link F}
    (hj : s.links.get? j = some l) : s'.links.get? j = some l := by
  obtain ⟨l', -, h'⟩ := h.link
  have : j ≠ k := by rintro rfl; exact h.fresh (SlotMap.get?_issued hj)
  rw [h', if_neg this, hj]

theorem LinkAdded.le [Env] {a : LinkAttributes F} {k : Key} (h : LinkAdded s a s' k) : NetLE s.links s'.links := by
  refine ⟨fun j hj => ?_, ?_, ?_⟩
  · obtain ⟨l, hl⟩ := get_of_contains hj
    exact contains_of_get (h.old hl)
  · rintro x y ⟨l, hl, hy⟩; exact ⟨l, h.old hl, hy⟩
  · rintro x y ⟨l, hl, hy⟩; exact ⟨l, h.old hl, hy⟩

theorem LinkAdded.inv [Env] {a : LinkAttributes F} {k : Key} (h : LinkAdded s a s' k) (hs : SimInv strict s) :
    SimInv strict s' := by
  obtain ⟨l, hl, hget⟩ := h.link
  obtain ⟨e1, e2, e3, e4, e5, e6, e7, -, e9, -, e11, -⟩ := Link.new_ok hl
  have hle := h.le
  have ev : s'.vehicles = s.vehicles := by rw [h.eq]
  have et : s'.lights = s.lights := by rw [h.eq]
  have ec : s'.conflicts = s.conflicts := by rw [h.eq]
  refine ⟨⟨h.wf, ?_⟩, by rw [ev]; exact hs.vwf, ?_, ?_, by rw [et]; exact hs.lwf, ?_, ?_⟩
  · intro j l' hl'
    rw [hget] at hl'
    split at hl'
    · rename_i e
      subst e
      cases hl'
      refine ⟨e1, ?_, ?_, ?_, ?_, ?_, e11, ?_, ?_⟩
      · rw [e3]; simp
      · rw [e4]; simp
      · rw [e5]; simp
      · rw [e6]; simp
      · rw [e7]; simp
      · rw [e2]; simp
      · rw [e5]; simp
    · have hi := hs.net.link j l' hl'
      refine ⟨hi.id, fun x hx => hle.contains x (hi.linksIn x hx), fun x hx => hle.contains x (hi.linksOut x hx),
        fun x hx => hle.contains x (hi.laneChanges x hx), fun x hx => hle.contains _ (hi.conflicts x hx), hi.last,
        hi.segs, fun g hg => ?_, hi.lc⟩
      obtain ⟨h1, h2, h3, h4, h5, h6, h7, h8⟩ := hi.group g hg
      refine ⟨h1, fun x hx => hle.contains x (h2 x hx), fun x hx => hle.contains _ (h3 x hx), h4, h5, h6, h7, ?_⟩
      intro hst x hx lx hlx
      obtain ⟨lx', hlx'⟩ := get_of_contains (h2 x hx)
      rw [h.old hlx'] at hlx; cases hlx
      exact h8 hst x hx _ hlx'
  · rw [ev]; exact fun j v hv => (hs.veh j v hv).mono hle
  · rw [ev]
    intro lk l' hl'
    rw [hget] at hl'
    split at hl'
    · rename_i e
      subst e
      cases hl'
      rw [e9]
      refine ⟨by simp, fun j => ⟨by simp, ?_⟩⟩
      rintro ⟨v, hv, hlk⟩
      obtain ⟨lx, hlx⟩ := get_of_contains ((hs.veh j v hv).drivable.valid _ (List.mem_of_mem_head? hlk))
      exact absurd (SlotMap.get?_issued hlx) h.fresh
    · exact hs.mem lk l' hl'
  · rw [et]; exact fun j tl htl => (hs.lights j tl htl).mono hle.contains
  · rw [ec]; exact fun c hc => ⟨hle.contains _ (hs.conflicts c hc).1, hle.contains _ (hs.conflicts c hc).2⟩

/-! ## Connections -/

/-- The effect of connecting `a` to `b` on the link with key `k`. -/
def Connected (a b k : Key) (l l' : Link F) : Prop :=
  l' = { l with
    linksOut := l.linksOut ++ if k = a then [b] else []
    linksIn := l.linksIn ++ if k = b then [a] else [] }

omit [Flt F] in
theorem addLinkConnection_ok {a b : Key} (h : s.addLinkConnection a b = .ok s') :
    s.links.contains a = true ∧ s.links.contains b = true ∧ SRel (Connected a b) s.links s'.links ∧
      s' = { s with links := s'.links } := by
  unfold Sim.addLinkConnection at h
  simp only [M_bind_ok, updLink_ok, M_pure_ok] at h
  obtain ⟨m, ⟨⟨la, hla⟩, rfl⟩, m', ⟨⟨lb, hlb⟩, rfl⟩, rfl⟩ := h
  have h1 : SRel (fun k (l l' : Link F) => l' = { l with linksOut := l.linksOut ++ if k = a then [b] else [] }) s.links
      (s.links.modify a fun l => { l with linksOut := l.linksOut ++ [b] }) :=
    SRel.modify_one _ _ _ (fun k l hk => by simp [hk]) fun l _ => by simp
  refine ⟨contains_of_get hla, ?_, ?_, rfl⟩
  · rw [← h1.contains]; exact contains_of_get hlb
  · refine h1.trans (SRel.modify_one (R := fun k (l l' : Link F) => l' = { l with linksIn := l.linksIn ++ if k = b then [a] else [] })
      _ b _ (fun k l hk => by simp [hk]) fun l _ => by simp) ?_
    rintro k l l' l'' rfl rfl
    rfl

theorem connection_inv {a b : Key} (hs : SimInv strict s) (h : s.addLinkConnection a b = .ok s') : SimInv strict s' := by
  obtain ⟨ha, hb, hr, he⟩ := addLinkConnection_ok h
  have ev : s'.vehicles = s.vehicles := by rw [he]
  have et : s'.lights = s.lights := by rw [he]
  have ec : s'.conflicts = s.conflicts := by rw [he]
  have hle : NetLE s.links s'.links := by
    refine ⟨fun j hj => by rw [hr.contains]; exact hj, ?_, ?_⟩
    · rintro x y ⟨l, hl, hy⟩
      obtain ⟨l', hl', rfl⟩ := hr.fwd x l hl
      exact ⟨_, hl', by simp [hy]⟩
    · rintro x y ⟨l, hl, hy⟩
      obtain ⟨l', hl', rfl⟩ := hr.fwd x l hl
      exact ⟨_, hl', hy⟩
  refine ⟨⟨hr.wf hs.net.wf, ?_⟩, by rw [ev]; exact hs.vwf, ?_, ?_, by rw [et]; exact hs.lwf, ?_, ?_⟩
  · intro k l' hl'
    obtain ⟨l, hl, rfl⟩ := hr.bwd hl'
    have hi := hs.net.link k l hl
    refine ⟨hi.id, ?_, ?_, fun x hx => hle.contains x (hi.laneChanges x hx),
      fun x hx => hle.contains _ (hi.conflicts x hx), hi.last, hi.segs, fun g hg => ?_, hi.lc⟩
    · intro x hx
      dsimp only at hx
      rcases List.mem_append.1 hx with hx | hx
      · exact hle.contains x (hi.linksIn x hx)
      · split at hx
        · simp at hx; rw [hx]; exact hle.contains _ ha
        · simp at hx
    · intro x hx
      dsimp only at hx
      rcases List.mem_append.1 hx with hx | hx
      · exact hle.contains x (hi.linksOut x hx)
      · split at hx
        · simp at hx; rw [hx]; exact hle.contains _ hb
        · simp at hx
    · obtain ⟨h1, h2, h3, h4, h5, h6, h7, h8⟩ := hi.group g hg
      refine ⟨h1, fun x hx => hle.contains x (h2 x hx), fun x hx => hle.contains _ (h3 x hx), h4, h5, h6, h7, ?_⟩
      intro hst x hx lx hlx
      obtain ⟨l0, hl0, rfl⟩ := hr.bwd hlx
      exact h8 hst x hx l0 hl0
  · rw [ev]; exact fun j v hv => (hs.veh j v hv).mono hle
  · rw [ev, member_iff]
    refine (member_iff.1 hs.mem).onLinks (hr.mono ?_)
    rintro k l l' rfl; rfl
  · rw [et]; exact fun j tl htl => (hs.lights j tl htl).mono hle.contains
  · rw [ec]; exact fun c hc => ⟨hle.contains _ (hs.conflicts c hc).1, hle.contains _ (hs.conflicts c hc).2⟩

/-! ## Conflicts -/

theorem conflictNew_ids [Env] {la lb : Link F} {c : ConflictPoint F} (h : ConflictPoint.new la lb = .ok (some c)) :
    c.link0.linkId = la.id ∧ c.link1.linkId = lb.id := by
  have key : ∀ {l o : Link F} {c : ConflictPointLink F}, ConflictPointLink.new l o = .ok (some c) → c.linkId = l.id := by
    intro l o c h
    unfold ConflictPointLink.new at h
    simp only [M_bind_ok] at h
    obtain ⟨r, -, h⟩ := h
    cases r with
    | none => simp at h
    | some p => obtain ⟨p, q⟩ := p; simp at h; rw [← h]
  unfold ConflictPoint.new at h
  simp only [M_bind_ok] at h
  obtain ⟨r, hr, h⟩ := h
  cases r with
  | none => simp at h
  | some ca =>
    simp only [M_bind_ok] at h
    obtain ⟨r, hr', h⟩ := h
    cases r with
    | none => simp at h
    | some cb =>
      simp only [M_bind_ok, M_pure_ok] at h
      obtain ⟨ta, -, tb, -, h⟩ := h
      cases h
      exact ⟨key hr, key hr'⟩

/-- The effect of adding the conflicts `cs` on a link. -/
def Conflicting (cs : List (Key × LinkConflict F)) (k : Key) (l l' : Link F) : Prop :=
  l' = { l with conflicts := l.conflicts ++ (cs.filter (fun p => p.1 == k)).map (·.2) }

omit [Flt F] in
theorem addConflicts_ok : ∀ {cs : List (Key × LinkConflict F)} {links links' : LinkSet F},
    cs.foldlM (fun links p => updLink links p.1 fun l => { l with conflicts := l.conflicts ++ [p.2] }) links
      = .ok links' → SRel (Conflicting cs) links links'
  | [], links, links', h => by
    simp at h; subst h
    exact SRel.refl fun k l _ => by simp [Conflicting]
  | p :: cs, links, links', h => by
    rw [List.foldlM_cons] at h
    simp only [M_bind_ok, updLink_ok] at h
    obtain ⟨m, ⟨_, rfl⟩, h⟩ := h
    have h1 : SRel (Conflicting [p]) links (links.modify p.1 fun l => { l with conflicts := l.conflicts ++ [p.2] }) :=
      SRel.modify_one _ _ _ (fun k l hk => by simp [Conflicting, Ne.symm hk]) fun l _ => by simp [Conflicting]
    refine h1.trans (addConflicts_ok h) ?_
    rintro k l l' l'' rfl rfl
    unfold Conflicting
    dsimp only
    by_cases e : p.1 == k <;> simp [e]

theorem addLinkConvergance_ok [Env] {a b : Key} (hs : NetInv strict s.links) (h : s.addLinkConvergance a b = .ok s') :
    s' = s ∨ ∃ c la lb, a ≠ b ∧ s.links.get? a = some la ∧ s.links.get? b = some lb ∧
      ConflictPoint.new la lb = .ok (some c) ∧ c.link0.linkId = a ∧ c.link1.linkId = b ∧
      SRel (Conflicting c.linkConflicts) s.links s'.links ∧
      s' = { s with links := s'.links, conflicts := s.conflicts ++ [c] } := by
  unfold Sim.addLinkConvergance at h
  split at h
  · simp at h; exact .inl h.symm
  · rename_i hab
    split at h
    · rename_i la lb hla hlb
      simp only [M_bind_ok] at h
      obtain ⟨r, hr, h⟩ := h
      cases r with
      | none => simp at h; exact .inl h.symm
      | some c =>
        simp only [M_bind_ok, M_pure_ok] at h
        obtain ⟨links', hl', rfl⟩ := h
        obtain ⟨h1, h2⟩ := conflictNew_ids hr
        rw [(hs.link a la hla).id] at h1
        rw [(hs.link b lb hlb).id] at h2
        exact .inr ⟨c, la, lb, hab, hla, hlb, hr, h1, h2, addConflicts_ok hl', rfl⟩
    · simp at h; exact .inl h.symm

theorem convergance_inv [Env] {a b : Key} (hs : SimInv strict s) (h : s.addLinkConvergance a b = .ok s') :
    SimInv strict s' := by
  rcases addLinkConvergance_ok hs.net h with rfl | ⟨c, la, lb, hab, hla, hlb, -, e1, e2, hr, he⟩
  · exact hs
  have ev : s'.vehicles = s.vehicles := by rw [he]
  have et : s'.lights = s.lights := by rw [he]
  have ec : s'.conflicts = s.conflicts ++ [c] := by rw [he]
  have hle : NetLE s.links s'.links := by
    refine ⟨fun j hj => by rw [hr.contains]; exact hj, ?_, ?_⟩
    · rintro x y ⟨l, hl, hy⟩
      obtain ⟨l', hl', rfl⟩ := hr.fwd x l hl
      exact ⟨_, hl', hy⟩
    · rintro x y ⟨l, hl, hy⟩
      obtain ⟨l', hl', rfl⟩ := hr.fwd x l hl
      exact ⟨_, hl', hy⟩
  refine ⟨⟨hr.wf hs.net.wf, ?_⟩, by rw [ev]; exact hs.vwf, ?_, ?_, by rw [et]; exact hs.lwf, ?_, ?_⟩
  · intro k l' hl'
    obtain ⟨l, hl, rfl⟩ := hr.bwd hl'
    have hi := hs.net.link k l hl
    refine ⟨hi.id, fun x hx => hle.contains x (hi.linksIn x hx), fun x hx => hle.contains x (hi.linksOut x hx),
      fun x hx => hle.contains x (hi.laneChanges x hx), ?_, ?_, hi.segs, fun g hg => ?_, hi.lc⟩
    · intro x hx
      dsimp only at hx
      rcases List.mem_append.1 hx with hx | hx
      · exact hle.contains _ (hi.conflicts x hx)
      · obtain ⟨p, hp, rfl⟩ := List.mem_map.1 hx
        have := List.mem_of_mem_filter hp
        simp only [ConflictPoint.linkConflicts, List.mem_cons, List.not_mem_nil, or_false] at this
        rcases this with rfl | rfl
        · dsimp only; rw [e2]; exact hle.contains _ (contains_of_get hlb)
        · dsimp only; rw [e1]; exact hle.contains _ (contains_of_get hla)
    · have := hi.last
      dsimp only
      rw [List.length_append]; omega
    · obtain ⟨h1, h2, h3, h4, h5, h6, h7, h8⟩ := hi.group g hg
      refine ⟨h1, fun x hx => hle.contains x (h2 x hx), fun x hx => hle.contains _ (h3 x hx), h4, h5, h6, h7, ?_⟩
      intro hst x hx lx hlx
      obtain ⟨l0, hl0, rfl⟩ := hr.bwd hlx
      exact h8 hst x hx l0 hl0
  · rw [ev]; exact fun j v hv => (hs.veh j v hv).mono hle
  · rw [ev, member_iff]
    refine (member_iff.1 hs.mem).onLinks (hr.mono ?_)
    rintro k l l' rfl; rfl
  · rw [et]; exact fun j tl htl => (hs.lights j tl htl).mono hle.contains
  · rw [ec]
    intro d hd
    rcases List.mem_append.1 hd with hd | hd
    · exact ⟨hle.contains _ (hs.conflicts d hd).1, hle.contains _ (hs.conflicts d hd).2⟩
    · simp at hd; subst hd
      rw [e1, e2]
      exact ⟨hle.contains _ (contains_of_get hla), hle.contains _ (contains_of_get hlb)⟩

/-! ## Groups -/

/-- The effect of grouping the links `ids`, with the permitted lane changes `lcs`, on a link. -/
def Grouped (ids : List Key) (g : LinkGroup F) (lcs : List (Key × Key)) (k : Key) (l l' : Link F) : Prop :=
  l' = { l with
    group := if k ∈ ids then some g else l.group
    laneChanges := l.laneChanges ++ (lcs.filter (fun p => p.1 == k)).map (·.2) }

omit [Flt F] in
theorem setGroups_ok {g : LinkGroup F} : ∀ {ids : List Key} {links links' : LinkSet F},
    ids.foldlM (fun links k => updLink links k fun l => { l with group := some g }) links = .ok links' →
    SRel (fun k l l' => l' = { l with group := if k ∈ ids then some g else l.group }) links links'
  | [], links, links', h => by
    simp at h; subst h
    exact SRel.refl fun k l _ => by simp
  | a :: ids, links, links', h => by
    rw [List.foldlM_cons] at h
    simp only [M_bind_ok, updLink_ok] at h
    obtain ⟨m, ⟨_, rfl⟩, h⟩ := h
    have h1 : SRel (fun k l l' => l' = { l with group := if k = a then some g else l.group }) links
        (links.modify a fun l => { l with group := some g }) :=
      SRel.modify_one _ _ _ (fun k l hk => by simp [hk]) fun l _ => by simp
    refine h1.trans (setGroups_ok h) ?_
    rintro k l l' l'' rfl rfl
    by_cases e : k = a <;> by_cases e' : k ∈ ids <;> simp [e, e']

omit [Flt F] in
theorem addLanes_ok : ∀ {lcs : List (Key × Key)} {links links' : LinkSet F},
    lcs.foldlM (fun links p => do
      let l ← getLink links p.1
      if l.laneChanges.length ≥ 2 then throw Err.arrayFull
      updLink links p.1 fun l => { l with laneChanges := l.laneChanges ++ [p.2] }) links = .ok links' →
    SRel (fun k l l' => l' = { l with laneChanges := l.laneChanges ++ (lcs.filter (fun p => p.1 == k)).map (·.2) } ∧
      (l.laneChanges.length ≤ 2 → l'.laneChanges.length ≤ 2)) links links'
  | [], links, links', h => by
    simp at h; subst h
    exact SRel.refl fun k l _ => by simp
  | p :: lcs, links, links', h => by
    rw [List.foldlM_cons] at h
    simp only [M_bind_ok, getLink_ok] at h
    obtain ⟨m, ⟨l0, hl0, h'⟩, h⟩ := h
    by_cases hlen : l0.laneChanges.length ≥ 2
    · rw [if_pos hlen] at h'; simp at h'
    rw [if_neg hlen] at h'
    simp only [updLink_ok] at h'
    obtain ⟨_, rfl⟩ := h'
    have h1 : SRel (fun k l l' => l' = { l with laneChanges := l.laneChanges ++ ([p].filter (fun p => p.1 == k)).map (·.2) } ∧
        (l.laneChanges.length ≤ 2 → l'.laneChanges.length ≤ 2)) links
        (links.modify p.1 fun l => { l with laneChanges := l.laneChanges ++ [p.2] }) := by
      refine SRel.modify_one _ _ _ (fun k l hk => by simp [Ne.symm hk]) fun l hl => ⟨by simp, fun _ => ?_⟩
      rw [hl0] at hl; cases hl
      simp; omega
    refine h1.trans (addLanes_ok h) ?_
    rintro k l l' l'' ⟨rfl, h2⟩ ⟨rfl, h3⟩
    refine ⟨?_, fun h => h3 (h2 h)⟩
    by_cases e : p.1 == k <;> simp [e]

/-- The projection `p` was made from the links `a` and `b`. -/
def Made [Env] (links : LinkSet F) (a b : Key) (p : LinkProjection F) : Prop :=
  ∃ la lb, links.get? a = some la ∧ links.get? b = some lb ∧ a ≠ b ∧ p.dst = b ∧ p.invSegmentLen = 1.0 / 2.0 ∧
    projectionSamples la.curve lb.curve Env.fuel 0 0.0 = .ok p.samples

/-- The effect of adding a group. -/
structure GroupAdded [Env] (s : Sim F) (ids : List Key) (mask : Nat) (g : LinkGroup F) (lcs : List (Key × Key))
    (s' : Sim F) : Prop where
  valid : ∀ k ∈ ids, s.links.contains k = true
  links : g.links = ids
  mask : g.lcMask = mask
  size : 2 ≤ ids.length
  changes : g.laneChanges = .ok lcs
  proj : ∀ p ∈ g.projections, p.dst ∈ ids
  count : ids.Nodup → g.projections.length = ids.length * (ids.length - 1)
  rel : SRel (fun k l l' => Grouped ids g lcs k l l' ∧ (l.laneChanges.length ≤ 2 → l'.laneChanges.length ≤ 2))
    s.links s'.links
  eq : s' = { s with links := s'.links }
  made : ∀ p ∈ g.projections, ∃ a b, Made s.links a b p

theorem addLinkGroup_ok [Env] {ids : List Key} {mask : Nat} (hs : NetInv strict s.links)
    (h : s.addLinkGroup ids mask = .ok s') : ∃ g lcs, GroupAdded s ids mask g lcs s' := by
  unfold Sim.addLinkGroup at h
  simp only [M_bind_ok, M_pure_ok] at h
  obtain ⟨ls, hls, g, hg, m1, hm1, lcs, hlcs, m2, hm2, rfl⟩ := h
  obtain ⟨hlen, hget⟩ := mapM_getElem? hls
  have hids : ls.map (·.id) = ids := by
    apply List.ext_getElem?
    intro i
    rw [List.getElem?_map]
    cases hi : ids[i]? with
    | none =>
      have : ids.length ≤ i := by simpa using hi
      rw [List.getElem?_eq_none (by omega)]; rfl
    | some k =>
      obtain ⟨l, hl, hk⟩ := hget i k hi
      rw [hl]
      rw [getLink_ok] at hk
      simp [(hs.link k l hk).id]
  have hval : ∀ k ∈ ids, s.links.contains k = true := by
    intro k hk
    obtain ⟨i, hi⟩ := List.getElem?_of_mem hk
    obtain ⟨l, -, hk'⟩ := hget i k hi
    exact contains_of_get (getLink_ok.1 hk')
  obtain ⟨h2, hgl, hgm, hgp⟩ := LinkGroup.new_ok hg
  obtain ⟨hplen, hpget⟩ := mapM_getElem? hgp
  have hlk : ∀ l ∈ ls, s.links.get? l.id = some l := by
    intro l hl
    obtain ⟨i, hi⟩ := List.getElem?_of_mem hl
    have hlt : i < ids.length := by have := (List.getElem?_eq_some_iff.1 hi).1; omega
    obtain ⟨l', hl', hk⟩ := hget i _ (List.getElem?_eq_getElem hlt)
    rw [hi] at hl'; cases hl'
    rw [getLink_ok] at hk
    rw [(hs.link _ l hk).id]; exact hk
  refine ⟨g, lcs, hval, by rw [hgl, hids], hgm, by omega, hlcs, ?_, ?_, ?_, rfl, ?_⟩
  · intro p hp
    obtain ⟨i, hi⟩ := List.getElem?_of_mem hp
    have hlt := (List.getElem?_eq_some_iff.1 hi).1
    have hlt' : i < (projectionPairs ls).length := by omega
    obtain ⟨q, hq, hmk⟩ := hpget i _ (List.getElem?_eq_getElem hlt')
    rw [hi] at hq; cases hq
    unfold mkProjection at hmk
    simp only [M_bind_ok, M_pure_ok] at hmk
    obtain ⟨sm, -, rfl⟩ := hmk
    dsimp only
    rw [← hids]
    have hmem : (projectionPairs ls)[i] ∈ projectionPairs ls := List.getElem_mem hlt'
    unfold projectionPairs at hmem
    have := List.mem_of_mem_filter hmem
    rw [List.mem_flatMap] at this
    obtain ⟨a, -, ha⟩ := this
    obtain ⟨b, hb, e⟩ := List.mem_map.1 ha
    have e2 : (projectionPairs ls)[i].2 = b := by
      have := congrArg Prod.snd e
      exact this.symm
    rw [e2]
    exact List.mem_map.2 ⟨b, hb, rfl⟩
  · intro hnd
    rw [hplen, length_projectionPairs (by rw [hids]; exact hnd), hlen]
  · refine (setGroups_ok hm1).trans (addLanes_ok hm2) ?_
    rintro k l l' l'' rfl ⟨rfl, h3⟩
    exact ⟨rfl, h3⟩
  · intro p hp
    obtain ⟨i, hi⟩ := List.getElem?_of_mem hp
    have hlt := (List.getElem?_eq_some_iff.1 hi).1
    have hlt' : i < (projectionPairs ls).length := by omega
    obtain ⟨q, hq, hmk⟩ := hpget i _ (List.getElem?_eq_getElem hlt')
    rw [hi] at hq; cases hq
    have hmem : (projectionPairs ls)[i] ∈ projectionPairs ls := List.getElem_mem hlt'
    generalize (projectionPairs ls)[i] = ab at hmk hmem
    obtain ⟨la, lb⟩ := ab
    unfold mkProjection at hmk
    simp only [M_bind_ok, M_pure_ok] at hmk
    obtain ⟨sm, hsm, rfl⟩ := hmk
    unfold projectionPairs at hmem
    rw [List.mem_filter, List.mem_flatMap] at hmem
    obtain ⟨⟨x, hx, hxy⟩, hne⟩ := hmem
    obtain ⟨y, hy, e⟩ := List.mem_map.1 hxy
    cases e
    exact ⟨la.id, lb.id, la, lb, hlk la hx, hlk lb hy, by simpa using hne, rfl, rfl, hsm⟩

theorem GroupAdded.pairs [Env] {ids : List Key} {mask : Nat} {g : LinkGroup F} {lcs : List (Key × Key)}
    (h : GroupAdded s ids mask g lcs s') (a b : Key) : (a, b) ∈ lcs ↔
      ∃ i j, ids[i]? = some a ∧ ids[j]? = some b ∧
        ((j = i + 1 ∧ mask.testBit (2 * i + 1) = true) ∨ (i = j + 1 ∧ mask.testBit (2 * i) = true)) := by
  have := (LinkGroup.laneChanges_spec (E := fun _ => True) g
    (by rw [h.links]; intro e; have := h.size; rw [e] at this; simp at this) (.inr trivial)).ok h.changes a b
  rw [this, h.links]
  simp only [LinkGroup.bitL, LinkGroup.bitR, h.mask]

theorem GroupAdded.inv [Env] {ids : List Key} {mask : Nat} {g : LinkGroup F} {lcs : List (Key × Key)}
    (h : GroupAdded s ids mask g lcs s') (hs : SimInv strict s)
    (ha : strict → ids.Nodup ∧ ids.length ≤ 16 ∧ ∀ k ∈ ids, ∀ l, s.links.get? k = some l → l.group = none) :
    SimInv strict s' := by
  have hr := h.rel
  have ev : s'.vehicles = s.vehicles := by rw [h.eq]
  have et : s'.lights = s.lights := by rw [h.eq]
  have ec : s'.conflicts = s.conflicts := by rw [h.eq]
  have hle : NetLE s.links s'.links := by
    refine ⟨fun j hj => by rw [hr.contains]; exact hj, ?_, ?_⟩
    · rintro x y ⟨l, hl, hy⟩
      obtain ⟨l', hl', rfl, -⟩ := hr.fwd x l hl
      exact ⟨_, hl', hy⟩
    · rintro x y ⟨l, hl, hy⟩
      obtain ⟨l', hl', rfl, -⟩ := hr.fwd x l hl
      exact ⟨_, hl', by simp [hy]⟩
  have hsub : ∀ a b, (a, b) ∈ lcs → a ∈ ids ∧ b ∈ ids := by
    intro a b hab
    obtain ⟨i, j, hi, hj, -⟩ := (h.pairs a b).1 hab
    exact ⟨List.mem_of_getElem? hi, List.mem_of_getElem? hj⟩
  have hmem : ∀ k x, x ∈ (lcs.filter (fun p => p.1 == k)).map (·.2) ↔ (k, x) ∈ lcs := by
    intro k x
    rw [List.mem_map]
    constructor
    · rintro ⟨⟨y, z⟩, hp, rfl⟩
      obtain ⟨h1, h2⟩ := List.mem_filter.1 hp
      have : y = k := by simpa using h2
      rw [← this]; exact h1
    · intro hp
      exact ⟨(k, x), List.mem_filter.2 ⟨hp, by simp⟩, rfl⟩
  refine ⟨⟨hr.wf hs.net.wf, ?_⟩, by rw [ev]; exact hs.vwf, ?_, ?_, by rw [et]; exact hs.lwf, ?_, ?_⟩
  · intro k l' hl'
    obtain ⟨l, hl, he, -⟩ := hr.bwd hl'
    have hi := hs.net.link k l hl
    subst he
    refine ⟨hi.id, fun x hx => hle.contains x (hi.linksIn x hx), fun x hx => hle.contains x (hi.linksOut x hx),
      ?_, fun x hx => hle.contains _ (hi.conflicts x hx), hi.last, hi.segs, ?_, ?_⟩
    · intro x hx
      dsimp only at hx
      rcases List.mem_append.1 hx with hx | hx
      · exact hle.contains x (hi.laneChanges x hx)
      · exact hle.contains x (h.valid x (hsub k x ((hmem k x).1 hx)).2)
    · intro g' hg'
      dsimp only at hg'
      by_cases hk : k ∈ ids
      · rw [if_pos hk] at hg'
        cases hg'
        refine ⟨by rw [h.links]; exact hk, fun j hj => hle.contains j (h.valid j (by rw [← h.links]; exact hj)),
          fun p hp => hle.contains _ (h.valid _ (h.proj p hp)), fun hst => by rw [h.links]; exact (ha hst).1,
          fun hst => by rw [h.links]; exact (ha hst).2.1, fun hst => by rw [h.links]; exact h.count (ha hst).1, ?_, ?_⟩
        · intro hst j
          dsimp only
          have hl0 : l.laneChanges = [] := by
            by_contra hne
            have := hi.lc hne
            rw [(ha hst).2.2 k hk l hl] at this
            cases this
          rw [hl0, List.nil_append, hmem, h.pairs, h.links, h.mask]
        · intro hst j hj lj hlj
          obtain ⟨l0, hl0, rfl, -⟩ := hr.bwd hlj
          dsimp only
          rw [if_pos (by rw [← h.links]; exact hj)]
      · rw [if_neg hk] at hg'
        obtain ⟨h1, h2, h3, h4, h5, h6, h7, h8⟩ := hi.group g' hg'
        refine ⟨h1, fun x hx => hle.contains x (h2 x hx), fun x hx => hle.contains _ (h3 x hx), h4, h5, h6, ?_, ?_⟩
        · intro hst j
          have : (lcs.filter (fun p => p.1 == k)).map (·.2) = [] := by
            rw [List.eq_nil_iff_forall_not_mem]
            intro x hx
            exact hk (hsub k x ((hmem k x).1 hx)).1
          dsimp only
          rw [this, List.append_nil]
          exact h7 hst j
        · intro hst j hj lj hlj
          obtain ⟨l0, hl0, rfl, -⟩ := hr.bwd hlj
          have e := h8 hst j hj l0 hl0
          have hj' : j ∉ ids := by
            intro hj'
            rw [(ha hst).2.2 j hj' l0 hl0] at e
            cases e
          dsimp only
          rw [if_neg hj']; exact e
    · intro hne
      dsimp only at hne ⊢
      by_cases hk : k ∈ ids
      · rw [if_pos hk]; rfl
      · rw [if_neg hk]
        refine hi.lc fun h0 => hne ?_
        rw [h0, List.nil_append, List.eq_nil_iff_forall_not_mem]
        intro x hx
        exact hk (hsub k x ((hmem k x).1 hx)).1
  · rw [ev]; exact fun j v hv => (hs.veh j v hv).mono hle
  · rw [ev, member_iff]
    refine (member_iff.1 hs.mem).onLinks (hr.mono ?_)
    rintro k l l' ⟨rfl, -⟩; rfl
  · rw [et]; exact fun j tl htl => (hs.lights j tl htl).mono hle.contains
  · rw [ec]; exact fun c hc => ⟨hle.contains _ (hs.conflicts c hc).1, hle.contains _ (hs.conflicts c hc).2⟩

/-! ## Lights, controls and frozen vehicles -/

/-- The effect of adding a light. -/
structure LightAdded (s : Sim F) (tl : TrafficLight F) (s' : Sim F) (k : Key) : Prop where
  fresh : ¬ s.lights.Issued k
  light : ∀ j, s'.lights.get? j = if j = k then some tl else s.lights.get? j
  wf : s'.lights.WF
  mono : ∀ j, s.lights.Issued j → s'.lights.Issued j
  issued : s'.lights.Issued k
  eq : s' = { s with lights := s'.lights }

omit [Flt F] in
theorem addTrafficLight_ok {tl : TrafficLight F} {k : Key} (hw : s.lights.WF) (h : s.addTrafficLight tl = .ok (s', k)) :
    LightAdded s tl s' k := by
  unfold Sim.addTrafficLight at h
  simp only [M_bind_ok] at h
  obtain ⟨⟨m, k'⟩, hm, h⟩ := h
  rw [M_pure_ok] at h
  cases h
  obtain ⟨h1, h2, ⟨v, hv, h3⟩, h4, h5⟩ := SlotMap.insertWithKey_spec hw hm
  rw [M_pure_ok] at hv; subst hv
  exact ⟨h2, h3, h1, h4, h5, rfl⟩

theorem LightAdded.inv {tl : TrafficLight F} {k : Key} (h : LightAdded s tl s' k) (hs : SimInv strict s)
    (ha : LightOK strict s.links tl) : SimInv strict s' := by
  have el : s'.links = s.links := by rw [h.eq]
  have ev : s'.vehicles = s.vehicles := by rw [h.eq]
  have ec : s'.conflicts = s.conflicts := by rw [h.eq]
  refine ⟨by rw [el]; exact hs.net, by rw [ev]; exact hs.vwf, by rw [ev, el]; exact hs.veh, by rw [ev, el]; exact hs.mem,
    h.wf, ?_, by rw [el, ec]; exact hs.conflicts⟩
  rw [el]
  intro j tl' htl'
  rw [h.light] at htl'
  split at htl'
  · cases htl'; exact ha
  · exact hs.lights j tl' htl'

omit [Flt F] in
/-- The effect of setting the control of the link `k`. -/
theorem setLinkControl_ok {k : Key} {c : TrafficControl F} (h : s.setLinkControl k c = .ok s') :
    s.links.contains k = true ∧ s'.links = writeControls s.links [(k, c)] ∧ s' = { s with links := s'.links } := by
  unfold Sim.setLinkControl at h
  simp only [M_bind_ok, updLink_ok, M_pure_ok] at h
  obtain ⟨m, ⟨⟨l, hl⟩, rfl⟩, rfl⟩ := h
  exact ⟨contains_of_get hl, rfl, rfl⟩

/-- A simulation that differs in ways that do not affect the invariant. -/
theorem SimInv.frame {s s' : Sim F} (hs : SimInv strict s) (hf : Frame s.links s'.links)
    (hv : SRel (fun _ l l' => l'.vehicles = l.vehicles) s.links s'.links)
    (hveh : SRel (fun _ v v' => ∃ a, v' = { v with acc := a }) s.vehicles s'.vehicles) (hl : s'.lights = s.lights)
    (hc : s'.conflicts = s.conflicts) : SimInv strict s' := by
  refine ⟨hs.net.frame hf, hveh.wf hs.vwf, ?_, ?_, by rw [hl]; exact hs.lwf, ?_, ?_⟩
  · intro k v' hv'
    obtain ⟨v, hkv, a, rfl⟩ := hveh.bwd hv'
    have := (hs.veh k v hkv).mono hf.le
    exact ⟨this.id, this.drivable, this.src, this.dst, this.entered, this.enteredLe, this.will, this.paths⟩
  · rw [member_iff]
    refine ((member_iff.1 hs.mem).onLinks hv).onVehs (hveh.mono ?_)
    rintro k v v' ⟨a, rfl⟩; rfl
  · rw [hl]; exact fun k tl htl => (hs.lights k tl htl).mono hf.le.contains
  · rw [hc]; exact fun c hc => ⟨hf.le.contains _ (hs.conflicts c hc).1, hf.le.contains _ (hs.conflicts c hc).2⟩

omit [Flt F] in
theorem frame_refl (links : LinkSet F) : Frame links links := SRel.refl fun _ _ _ => LinkFrame.rfl'

omit [Flt F] in
theorem setVehicleFrozen_eq (s : Sim F) (k : Key) (b : Bool) : ∃ f, s.setVehicleFrozen k b = { s with frozen := f } := by
  unfold Sim.setVehicleFrozen
  split <;> exact ⟨_, rfl⟩

theorem randomise_ok {sd : F} {f : Key → F} (h : s.randomiseVelocityAdjusts sd f = .ok s') :
    SRel (fun k v v' => v' = v.setVelocityAdjust (Sim.clampAdjust (f k))) s.vehicles s'.vehicles ∧
      s' = { s with vehicles := s'.vehicles } := by
  unfold Sim.randomiseVelocityAdjusts at h
  split at h
  · simp at h
  · rw [M_pure_ok] at h
    subst h
    exact ⟨SRel.foldl_modify_keys s.vehicles fun k v => v.setVelocityAdjust (Sim.clampAdjust (f k)), rfl⟩

/-! ## Vehicles -/

/-- The effect of adding a vehicle. -/
structure VehicleAdded (s : Sim F) (a : VehicleAttributes F) (link : Key) (s' : Sim F) (k : Key) : Prop where
  fresh : ¬ s.vehicles.Issued k
  valid : s.links.contains link = true
  veh : ∃ v pf, Placed { Vehicle.new k a with pathfind := pf, route := [link], entered := 1, canExit := false } v ∧
    pf.src = link ∧ pf.dst = Key.null ∧ (∀ q ∈ pf.paths, PathOK s.links link Key.null q) ∧
    ∀ j, s'.vehicles.get? j = if j = k then some v else s.vehicles.get? j
  wf : s'.vehicles.WF
  mono : ∀ j, s.vehicles.Issued j → s'.vehicles.Issued j
  issued : s'.vehicles.Issued k
  links : OnlyVehs s.links s'.links
  mem : Member s'.links s'.vehicles
  eq : s' = { s with links := s'.links, vehicles := s'.vehicles }

theorem addVehicle_ok [Env] [LawfulDijkstra] {a : VehicleAttributes F} {link k : Key} (hs : SimInv strict s)
    (h : s.addVehicle a link = .ok (s', k)) : VehicleAdded s a link s' k := by
  unfold Sim.addVehicle at h
  simp only [M_bind_ok] at h
  obtain ⟨⟨vs, k'⟩, hm, links', hl', h⟩ := h
  rw [M_pure_ok] at h
  obtain ⟨rfl, rfl⟩ := Prod.mk.inj h
  dsimp only at hl'
  rename Key => k
  obtain ⟨h1, h2, ⟨v, hv, h3⟩, h4, h5⟩ := SlotMap.insertWithKey_spec hs.vwf hm
  simp only [M_bind_ok] at hv
  obtain ⟨v0, hv0, hv⟩ := hv
  unfold Vehicle.setLocation at hv0
  simp only [M_bind_ok, M_pure_ok] at hv0
  obtain ⟨pf, hpf, rfl⟩ := hv0
  have hc : ∃ l, s.links.get? link = some l := by
    have := hv
    unfold Vehicle.updateCoords at this
    simp only [M_bind_ok, getLink_ok] at this
    obtain ⟨l, hl, -⟩ := this
    exact ⟨l, hl⟩
  obtain ⟨l, hl⟩ := hc
  have hnull : (PathfindingModel.default.dst).isNull = true := by decide
  obtain ⟨g1, g2, g3⟩ := (PathfindingModel.setOrigin_spec (E := fun _ => True) hs.net (.inr trivial) (.inr trivial) _
    (contains_of_get hl) (.inl hnull)).ok hpf
  have hp := (updateCoords_spec (E := fun _ => True) ⟨link, l, rfl, hl, (hs.net.link _ l hl).segs⟩).ok hv
  have hvl : v.linkId = some link := by
    obtain ⟨_, _, _, _, e⟩ := hp; rw [e]; rfl
  have hkv : vs.get? k = some v := by rw [h3, if_pos rfl]
  have hM : MemberBut (fun j => j = k) s.links vs := by
    intro lk l' hl'
    obtain ⟨m1, m2⟩ := hs.mem lk l' hl'
    refine ⟨m1, fun j => ?_⟩
    rw [m2, h3]
    by_cases e : j = k
    · subst e
      simp only [not_true_eq_false, false_and, iff_false, not_exists, not_and]
      intro u hu
      exact absurd (SlotMap.get?_issued hu) h2
    · simp [e]
  obtain ⟨r1, r2⟩ := (insertOnLink_spec (E := fun _ => True) hM rfl hkv hvl (contains_of_get hl)).ok hl'
  refine ⟨h2, contains_of_get hl, ⟨v, pf, hp, g1, g2, g3, h3⟩, h1, h4, h5, ?_, ?_, rfl⟩
  · refine r1.mono fun j l l' h => ?_
    by_cases e : j = link
    · obtain ⟨i, -, h⟩ := h.2 e; rw [h]
    · rw [h.1 e]
  · exact member_iff.2 (r2.congr fun j => by tauto)

theorem VehicleAdded.inv {a : VehicleAttributes F} {link k : Key} (h : VehicleAdded s a link s' k) (hs : SimInv strict s) :
    SimInv strict s' := by
  have et : s'.lights = s.lights := by rw [h.eq]
  have ec : s'.conflicts = s.conflicts := by rw [h.eq]
  have hf := h.links.frame
  refine ⟨hs.net.frame hf, h.wf, ?_, h.mem, by rw [et]; exact hs.lwf, ?_, ?_⟩
  · obtain ⟨v, pf, hp, g1, g2, g3, h3⟩ := h.veh
    intro j u hu
    rw [h3] at hu
    split at hu
    · rename_i e
      subst e
      cases hu
      refine VehInv.placed ?_ hp
      have hnull : Key.null.isNull = true := by decide
      refine ⟨rfl, ⟨by simp [hf.le.contains _ h.valid], by simp⟩, ?_, ?_, le_rfl, by simp, rfl, ?_⟩
      · dsimp only; rw [g1]; rfl
      · dsimp only; rw [g2]; exact .inl hnull
      · dsimp only; rw [g1, g2]; exact fun q hq => (g3 q hq).mono hf.le
    · exact (hs.veh j u hu).mono hf.le
  · rw [et]; exact fun k tl htl => (hs.lights k tl htl).frame hf
  · rw [ec]; exact fun c hc => ⟨hf.le.contains _ (hs.conflicts c hc).1, hf.le.contains _ (hs.conflicts c hc).2⟩

/-- The effect of removing a vehicle. -/
structure VehicleRemoved (s : Sim F) (k : Key) (s' : Sim F) : Prop where
  vehicles : s'.vehicles = (s.vehicles.remove k).1
  links : OnlyVehs s.links s'.links
  mem : Member s'.links s'.vehicles
  eq : s' = { s with links := s'.links, vehicles := s'.vehicles }

theorem removeVehicle_spec {E : Err → Prop} (hs : SimInv strict s) (k : Key) :
    Spec (s.removeVehicle k) E (VehicleRemoved s k) := by
  unfold Sim.removeVehicle
  have hsnd := SlotMap.remove_snd s.vehicles k
  generalize hr : s.vehicles.remove k = r at hsnd
  obtain ⟨vs, ov⟩ := r
  dsimp only at hsnd
  have hr1 : (s.vehicles.remove k).1 = vs := by rw [hr]
  cases ov with
  | none =>
    refine Spec.pure ⟨by rw [hr], SRel.refl fun _ _ _ => rfl, ?_, rfl⟩
    intro lk l hl
    obtain ⟨m1, m2⟩ := hs.mem lk l hl
    refine ⟨m1, fun j => ?_⟩
    dsimp only
    rw [m2, ← hr1, SlotMap.get?_remove]
    by_cases e : j = k
    · subst e; rw [if_pos rfl, ← hsnd]
    · rw [if_neg e]
  | some v =>
    have hv := hsnd.symm
    have hi := hs.veh k v hv
    have hlk : v.linkId = some v.pathfind.src := hi.src
    dsimp only
    rw [hlk]
    dsimp only
    have hsrc : s.links.contains v.pathfind.src = true := hi.drivable.valid _ (List.mem_of_mem_head? hi.src)
    refine (updLink_spec hsrc).bind fun links' hl' => ?_
    subst hl'
    rw [hi.id]
    have hM := ((member_iff.1 hs.mem).remove hv hlk).delete (k := k) (.inr rfl)
    rw [hr1] at hM
    exact Spec.pure ⟨by rw [hr], SRel.modify_one _ _ _ (fun _ _ _ => rfl) fun l _ => rfl,
      member_iff.2 (hM.congr fun j => by tauto), rfl⟩

theorem VehicleRemoved.inv {k : Key} (h : VehicleRemoved s k s') (hs : SimInv strict s) : SimInv strict s' := by
  have et : s'.lights = s.lights := by rw [h.eq]
  have ec : s'.conflicts = s.conflicts := by rw [h.eq]
  have hf := h.links.frame
  refine ⟨hs.net.frame hf, by rw [h.vehicles]; exact hs.vwf.remove k, ?_, h.mem, by rw [et]; exact hs.lwf, ?_, ?_⟩
  · rw [h.vehicles]
    intro j u hu
    rw [SlotMap.get?_remove] at hu
    split at hu
    · cases hu
    · exact (hs.veh j u hu).mono hf.le
  · rw [et]; exact fun k tl htl => (hs.lights k tl htl).frame hf
  · rw [ec]; exact fun c hc => ⟨hf.le.contains _ (hs.conflicts c hc).1, hf.le.contains _ (hs.conflicts c hc).2⟩

/-- The effect of setting the destination of a vehicle. -/
structure DestinationSet (s : Sim F) (k dst : Key) (s' : Sim F) : Prop where
  valid : dst.isNull = true ∨ s.links.contains dst = true
  veh : ∃ v pf, s.vehicles.get? k = some v ∧ pf.src = v.pathfind.src ∧ pf.dst = dst ∧
    (∀ q ∈ pf.paths, PathOK s.links v.pathfind.src dst q) ∧
    s'.vehicles = s.vehicles.modify k fun _ => { v with pathfind := pf, canExit := false }
  eq : s' = { s with vehicles := s'.vehicles }

theorem setVehicleDestination_spec [Env] [LawfulDijkstra] {E : Err → Prop} (hs : SimInv strict s)
    (hE : strict ∨ E .shiftOverflow) (hE' : SearchEnds ∨ E .diverges) {k dst : Key} (hk : s.vehicles.contains k = true)
    (hd : dst.isNull = true ∨ s.links.contains dst = true ∨ E .badLink) :
    Spec (s.setVehicleDestination k dst) E (DestinationSet s k dst) := by
  unfold Sim.setVehicleDestination Vehicle.setDestination
  refine (getVeh_spec hk).bind fun v hv => ?_
  have hi := hs.veh k v hv
  refine Spec.bind (P := fun v' => ∃ pf : PathfindingModel, v' = { v with pathfind := pf, canExit := false } ∧
    pf.src = v.pathfind.src ∧ pf.dst = dst ∧ (dst.isNull = true ∨ s.links.contains dst = true) ∧
    ∀ q ∈ pf.paths, PathOK s.links v.pathfind.src dst q) ?_ ?_
  · refine (PathfindingModel.setDestination_spec hs.net hE hE' v.pathfind dst
      (hi.drivable.valid _ (List.mem_of_mem_head? hi.src)) hd).bind ?_
    rintro pf ⟨h1, h2, h3, h4⟩
    exact Spec.pure ⟨pf, rfl, h1, h2, h3, h4⟩
  · rintro v' ⟨pf, rfl, h1, h2, h3, h4⟩
    exact Spec.pure ⟨h3, ⟨v, pf, hv, h1, h2, h4, rfl⟩, rfl⟩

theorem DestinationSet.inv {k dst : Key} (h : DestinationSet s k dst s') (hs : SimInv strict s) : SimInv strict s' := by
  have el : s'.links = s.links := by rw [h.eq]
  have et : s'.lights = s.lights := by rw [h.eq]
  have ec : s'.conflicts = s.conflicts := by rw [h.eq]
  obtain ⟨v, pf, hv, h1, h2, h3, he⟩ := h.veh
  refine ⟨by rw [el]; exact hs.net, by rw [he]; exact hs.vwf.modify _ _, ?_, ?_, by rw [et]; exact hs.lwf,
    by rw [et, el]; exact hs.lights, by rw [el, ec]; exact hs.conflicts⟩
  · rw [el, he]
    intro j u hu
    rw [SlotMap.get?_modify] at hu
    split at hu
    · rename_i e
      subst e
      rw [hv] at hu
      cases hu
      have hi := hs.veh _ v hv
      refine ⟨hi.id, hi.drivable, ?_, ?_, hi.entered, hi.enteredLe, hi.will, ?_⟩
      · dsimp only; rw [h1]; exact hi.src
      · dsimp only; rw [h2]; exact h.valid
      · dsimp only; rw [h1, h2]; exact h3
    · exact hs.veh j u hu
  · rw [el, he, member_iff]
    refine (member_iff.1 hs.mem).onVehs (SRel.modify_one _ _ _ (fun _ _ _ => rfl) ?_)
    intro u hu
    rw [hv] at hu; cases hu; rfl

/-! ## A step -/

/-- The six phases of a step. -/
structure StepRun [Env] (strict : Prop) (s : Sim F) (dt : F) (s1 s2 s3 s4 s5 s6 s' : Sim F) : Prop where
  inv0 : SimInv strict s
  lanes : (s.lcUpdate < laneChangeUpdateSec ∧ s1 = s) ∨
    (¬ s.lcUpdate < laneChangeUpdateSec ∧ ∃ vs lcs, LaneRunAll (strict := strict) s vs lcs s1)
  inv1 : SimInv strict s1
  acc : (s1.accUpdate < accelerationUpdateSec ∧ s2 = s1) ∨
    (¬ s1.accUpdate < accelerationUpdateSec ∧ ∃ n0 n1 vs, AccRun s1 n0 n1 vs s2)
  mid2 : SimMid strict s2
  lights : ∃ wss, LightRunAll s2 dt wss s3
  mid3 : SimMid strict s3
  move : MoveRun s3 dt s4
  inv4 : SimInv strict s4
  adv : AdvRun s4 s5
  inv5 : SimInv strict s5
  place : PlaceRun s5 s6
  inv6 : SimInv strict s6
  run1 : s.calculateLaneChanges = .ok s1
  run2 : s1.applyAccelerations = .ok s2
  run3 : s2.updateLights dt = .ok s3
  run4 : s3.integrate dt = .ok s4
  run5 : s4.advanceVehicles = .ok s5
  run6 : s5.updateVehicleCoords = .ok s6
  eq : s' = { s6 with frame := s6.frame + 1, accUpdate := s6.accUpdate + dt, lcUpdate := s6.lcUpdate + dt }

theorem step_spec_geo [Env] [LawfulDijkstra] {geo : Prop} (hG : GoodNet s.links ∨ geo) (hs : SimInv strict s) (dt : F) :
    Spec (s.step dt) (StepErr strict True geo) fun s' => ∃ s1 s2 s3 s4 s5 s6, StepRun strict s dt s1 s2 s3 s4 s5 s6 s' := by
  unfold Sim.step
  refine ((calculateLaneChanges_phase (.inr trivial) hG hs).post fun _ e h => And.intro e h).bind fun s1 ⟨e1, h1⟩ => ?_
  have i1 : SimInv strict s1 := by
    rcases h1 with ⟨-, rfl⟩ | ⟨-, vs, lcs, h⟩
    · exact hs
    · exact h.inv
  have g1 : GoodNet s1.links ∨ geo := by
    rcases h1 with ⟨-, rfl⟩ | ⟨-, vs, lcs, h⟩
    · exact hG
    · exact hG.imp_left fun hg => hg.of_rel (SRel.mono h.ctrl.frame fun _ _ _ h => ⟨h.group, h.curve⟩)
  refine ((applyAccelerations_phase trivial ?_ (g1.imp_right GeoErr.step.2) i1.mid).post fun _ e h => And.intro e h).bind
    fun s2 ⟨e2, h2⟩ => ?_
  · by_cases h : strict
    · exact .inl h
    · exact .inr h
  have i2 : SimMid strict s2 := by
    rcases h2 with ⟨-, rfl⟩ | ⟨-, n0, n1, vs, h⟩
    · exact i1.mid
    · exact h.mid i1
  refine ((updateLights_phase i2 dt).post fun _ e h => And.intro e h).bind fun s3 ⟨e3, h3⟩ => ?_
  have i3 : SimMid strict s3 := by obtain ⟨wss, h⟩ := h3; exact h.mid i2
  refine ((integrate_phase i3 dt).post fun _ e h => And.intro e h).bind fun s4 ⟨e4, h4⟩ => ?_
  have i4 := h4.inv i3
  refine ((advanceVehicles_phase StepErr.shift (.inr trivial) i4).post fun _ e h => And.intro e h).bind fun s5 ⟨e5, h5⟩ => ?_
  have i5 := h5.inv i4
  refine ((updateVehicleCoords_phase i5).post fun _ e h => And.intro e h).bind fun s6 ⟨e6, h6⟩ => ?_
  exact Spec.pure ⟨s1, s2, s3, s4, s5, s6, hs, h1, i1, h2, i2, h3, i3, h4, i4, h5, i5, h6, h6.inv i5,
    e1, e2, e3, e4, e5, e6, rfl⟩

theorem step_spec [Env] [LawfulDijkstra] (hs : SimInv strict s) (dt : F) :
    Spec (s.step dt) (StepErr strict) fun s' => ∃ s1 s2 s3 s4 s5 s6, StepRun strict s dt s1 s2 s3 s4 s5 s6 s' :=
  step_spec_geo (.inr trivial) hs dt

theorem StepRun.inv [Env] {dt : F} {s1 s2 s3 s4 s5 s6 : Sim F} (h : StepRun strict s dt s1 s2 s3 s4 s5 s6 s') :
    SimInv strict s' := by
  rw [h.eq]
  exact { h.inv6 with }

/-! ## Reachable simulations -/

theorem SimInv.new : SimInv strict (Sim.new : Sim F) := by
  have hg : ∀ {V : Type} (k : Key) (v : V), SlotMap.get? (SlotMap.empty : SlotMap V) k ≠ some v := by
    intro V k v
    simp [SlotMap.get?, SlotMap.empty]
  refine ⟨⟨SlotMap.WF_empty, fun k l h => absurd h (hg k l)⟩, SlotMap.WF_empty, fun k l h => absurd h (hg k l),
    fun k l h => absurd h (hg k l), SlotMap.WF_empty, fun k l h => absurd h (hg k l), ?_⟩
  simp [Sim.new]

theorem exec_inv [Env] [LawfulDijkstra] (hs : SimInv strict s) {op : Op F} (ha : Allowed strict s op)
    (h : s.exec op = .ok s') : SimInv strict s' := by
  cases op with
  | addLink a =>
    simp only [Sim.exec, M_bind_ok, M_pure_ok] at h
    obtain ⟨⟨s1, k⟩, h, rfl⟩ := h
    exact (addLink_ok hs.net.wf h).inv hs
  | addLinkGroup ids m =>
    obtain ⟨g, lcs, h⟩ := addLinkGroup_ok hs.net h
    exact h.inv hs ha
  | addLinkConvergance a b => exact convergance_inv hs h
  | addLinkConnection a b => exact connection_inv hs h
  | addTrafficLight tl =>
    simp only [Sim.exec, M_bind_ok, M_pure_ok] at h
    obtain ⟨⟨s1, k⟩, h, rfl⟩ := h
    exact (addTrafficLight_ok hs.lwf h).inv hs ha
  | addVehicle a l =>
    simp only [Sim.exec, M_bind_ok, M_pure_ok] at h
    obtain ⟨⟨s1, k⟩, h, rfl⟩ := h
    exact (addVehicle_ok hs h).inv hs
  | removeVehicle k => exact ((removeVehicle_spec (E := fun _ => True) hs k).ok h).inv hs
  | randomiseVelocityAdjusts sd f =>
    obtain ⟨h1, h2⟩ := randomise_ok h
    have el : s'.links = s.links := by rw [h2]
    refine hs.frame (by rw [el]; exact frame_refl _) (by rw [el]; exact SRel.refl fun _ _ _ => rfl)
      (h1.mono fun k v v' e => ⟨_, e⟩) (by rw [h2]) (by rw [h2])
  | setVehicleFrozen k b =>
    simp only [Sim.exec, M_pure_ok] at h
    subst h
    obtain ⟨f, e⟩ := setVehicleFrozen_eq s k b
    rw [e]
    exact { hs with }
  | setVehicleDestination k d =>
    have hk : s.vehicles.contains k = true := by
      simp only [Sim.exec, Sim.setVehicleDestination, M_bind_ok, getVeh_ok] at h
      obtain ⟨v, hv, -⟩ := h
      exact contains_of_get hv
    exact ((setVehicleDestination_spec (E := fun _ => True) hs (.inr trivial) (.inr trivial) hk (.inr (.inr trivial))).ok h).inv hs
  | setLinkControl k c =>
    obtain ⟨-, h1, h2⟩ := setLinkControl_ok h
    refine hs.frame (by rw [h1]; exact writeControls_frame _ _) ?_ ?_ (by rw [h2]) (by rw [h2])
    · rw [h1]; refine (writeControls_rel _ _).mono ?_; rintro k l l' ⟨c, rfl, -⟩; rfl
    · have ev : s'.vehicles = s.vehicles := by rw [h2]
      rw [ev]; exact SRel.refl fun _ v _ => ⟨v.acc, rfl⟩
  | doLaneChange k l d =>
    have hk : s.vehicles.contains k = true := by
      simp only [Sim.exec, Sim.doLaneChange, M_bind_ok, getVeh_ok] at h
      obtain ⟨v, hv, -⟩ := h
      exact contains_of_get hv
    have hl : s.links.contains l = true := by
      simp only [Sim.exec, Sim.doLaneChange, M_bind_ok, getVeh_ok] at h
      obtain ⟨v, hv, h⟩ := h
      split at h
      · simp only [M_bind_ok, getLink_ok] at h
        obtain ⟨links', hl', l', hl, -⟩ := h
        rw [updLink_ok] at hl'
        rw [hl'.2] at hl
        rw [← (SRel.modify_one (R := fun _ _ _ => True) s.links _ _ (fun _ _ _ => trivial) fun _ _ => trivial).contains l]
        exact contains_of_get hl
      · simp only [M_bind_ok, getLink_ok, M_pure_ok] at h
        obtain ⟨links', rfl, l', hl, -⟩ := h
        exact contains_of_get hl
    exact ((doLaneChange_spec (E := fun _ => True) (.inr trivial) (.inr trivial) (.inr ⟨trivial, trivial, trivial⟩) hs hk hl d).ok h).inv hs
  | step dt =>
    obtain ⟨s1, s2, s3, s4, s5, s6, h⟩ := (step_spec hs dt).ok h
    exact h.inv

/-- Every simulation that can be reached satisfies the invariant. -/
theorem Reach.inv [Env] [LawfulDijkstra] (h : Reach strict s) : SimInv strict s := by
  induction h with
  | new => exact SimInv.new
  | exec op _ ha he ih => exact exec_inv ih ha he

end

end TrafficSim
