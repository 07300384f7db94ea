import Verif.Lemmas.Path

/-! # What a step leaves unchanged about the links -/

namespace TrafficSim

section
variable {F : Type} {strict : Prop} {links links' links'' : LinkSet F}

/-- Nothing is lost between the two sets of links. -/
structure NetLE (links links' : LinkSet F) : Prop where
  contains : ∀ k, links.contains k = true → links'.contains k = true
  conn : ∀ a b, Conn links a b → Conn links' a b
  lane : ∀ a b, LaneTo links a b → LaneTo links' a b

theorem NetLE.rfl' : NetLE links links := ⟨fun _ => id, fun _ _ => id, fun _ _ => id⟩

theorem Drivable.mono (h : NetLE links links') {ks : List Key} (hd : Drivable links ks) :
    Drivable links' ks :=
  ⟨fun k hk => h.contains k (hd.valid k hk), hd.chain.imp fun a b => h.conn a b⟩

theorem PathOK.mono (h : NetLE links links') {src dst : Key} {p : Path} (hp : PathOK links src dst p) :
    PathOK links' src dst p :=
  ⟨hp.drivable.mono h, by
    obtain ⟨k, h1, h2⟩ := hp.start
    exact ⟨k, h1, h2.imp id (h.lane _ _)⟩, hp.size, hp.exit⟩

theorem VehInv.mono (h : NetLE links links') {k : Key} {v : Vehicle F} (hv : VehInv links k v) :
    VehInv links' k v :=
  { hv with
    drivable := hv.drivable.mono h
    dst := hv.dst.imp (fun h => h) (h.contains _)
    paths := fun p hp => (hv.paths p hp).mono h }

/-- What a step leaves unchanged about a link: everything except `active`, `control`, `vehicles` and
`lastConflict`, of which the last stays in range. -/
structure LinkFrame (l l' : Link F) : Prop where
  id : l'.id = l.id
  group : l'.group = l.group
  curve : l'.curve = l.curve
  linksIn : l'.linksIn = l.linksIn
  linksOut : l'.linksOut = l.linksOut
  laneChanges : l'.laneChanges = l.laneChanges
  conflicts : l'.conflicts = l.conflicts
  speedLimit : l'.speedLimit = l.speedLimit
  cost : l'.cost = l.cost
  last : l.lastConflict ≤ l.conflicts.length → l'.lastConflict ≤ l.conflicts.length

theorem LinkFrame.rfl' {l : Link F} : LinkFrame l l :=
  ⟨rfl, rfl, rfl, rfl, rfl, rfl, rfl, rfl, rfl, fun h => h⟩

theorem LinkFrame.trans {l l' l'' : Link F} (h : LinkFrame l l') (h' : LinkFrame l' l'') :
    LinkFrame l l'' :=
  ⟨h'.id.trans h.id, h'.group.trans h.group, h'.curve.trans h.curve, h'.linksIn.trans h.linksIn,
   h'.linksOut.trans h.linksOut, h'.laneChanges.trans h.laneChanges, h'.conflicts.trans h.conflicts,
   h'.speedLimit.trans h.speedLimit, h'.cost.trans h.cost, fun hl => by
    have := h'.last (by rw [h.conflicts]; exact h.last hl)
    rwa [h.conflicts] at this⟩

/-- What a step leaves unchanged about the links. -/
abbrev Frame (links links' : LinkSet F) : Prop := SRel (fun _ l l' => LinkFrame l l') links links'

theorem Frame.rfl' : Frame links links := SRel.refl fun _ _ _ => LinkFrame.rfl'

theorem Frame.trans (h : Frame links links') (h' : Frame links' links'') : Frame links links'' :=
  SRel.trans h h' fun _ _ _ _ => LinkFrame.trans

theorem Frame.modify (h : Frame links links') (k : Key) (f : Link F → Link F)
    (hf : ∀ l, LinkFrame l (f l)) : Frame links (links'.modify k f) :=
  SRel.modify h k f fun _ _ _ _ hr => hr.trans (hf _)

theorem Frame.le (h : Frame links links') : NetLE links links' := by
  refine ⟨fun k hk => by rw [h.contains]; exact hk, ?_, ?_⟩
  · rintro a b ⟨l, hl, hb⟩
    obtain ⟨l', hl', hf⟩ := h.fwd a l hl
    exact ⟨l', hl', by rw [hf.linksOut]; exact hb⟩
  · rintro a b ⟨l, hl, hb⟩
    obtain ⟨l', hl', hf⟩ := h.fwd a l hl
    exact ⟨l', hl', by rw [hf.laneChanges]; exact hb⟩

theorem Frame.ge (h : Frame links links') : NetLE links' links := by
  refine ⟨fun k hk => by rw [h.contains] at hk; exact hk, ?_, ?_⟩
  · rintro a b ⟨l', hl', hb⟩
    obtain ⟨l, hl, hf⟩ := h.bwd hl'
    exact ⟨l, hl, by rw [← hf.linksOut]; exact hb⟩
  · rintro a b ⟨l', hl', hb⟩
    obtain ⟨l, hl, hf⟩ := h.bwd hl'
    exact ⟨l, hl, by rw [← hf.laneChanges]; exact hb⟩

theorem NetInv.frame (hN : NetInv strict links) (h : Frame links links') : NetInv strict links' := by
  refine ⟨h.wf hN.wf, fun k l' hl' => ?_⟩
  obtain ⟨l, hl, hf⟩ := h.bwd hl'
  have hi := hN.link k l hl
  refine ⟨hf.id.trans hi.id, ?_, ?_, ?_, ?_, ?_, ?_, ?_, ?_⟩
  · intro j hj; rw [hf.linksIn] at hj; rw [h.contains]; exact hi.linksIn j hj
  · intro j hj; rw [hf.linksOut] at hj; rw [h.contains]; exact hi.linksOut j hj
  · intro j hj; rw [hf.laneChanges] at hj; rw [h.contains]; exact hi.laneChanges j hj
  · intro j hj; rw [hf.conflicts] at hj; rw [h.contains]; exact hi.conflicts j hj
  · rw [hf.conflicts]; exact hf.last hi.last
  · rw [hf.curve]; exact hi.segs
  · intro g hg
    rw [hf.group] at hg
    obtain ⟨h1, h2, h3, h4, h5, h6, h7, h8⟩ := hi.group g hg
    refine ⟨h1, fun j hj => by rw [h.contains]; exact h2 j hj, fun p hp => by rw [h.contains]; exact h3 p hp,
      h4, h5, h6, ?_, ?_⟩
    · rw [hf.laneChanges]; exact h7
    · intro hs j hj m hm
      obtain ⟨m0, hm0, hmf⟩ := h.bwd hm
      rw [hmf.group]
      exact h8 hs j hj m0 hm0
  · rw [hf.laneChanges, hf.group]; exact hi.lc

theorem LinkFrame.removeVehicle [Flt F] (l : Link F) (k : Key) : LinkFrame l (l.removeVehicle k) :=
  ⟨rfl, rfl, rfl, rfl, rfl, rfl, rfl, rfl, rfl, fun h => h⟩

end

end TrafficSim
