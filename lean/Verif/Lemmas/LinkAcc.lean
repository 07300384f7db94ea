import Verif.Props.Line

/-! # The parts of the accelerations of a link -/

namespace TrafficSim

section
variable {F : Type} [Flt F] {strict : Prop}

/-- The three parts of the accelerations of a link. -/
structure LinkAccRun [Env] (links : LinkSet F) (vs : VehicleSet F) (l : Link F) (vs1 vs2 vs' : VehicleSet F) : Prop where
  windows : Link.followWindows l.speedLimit l.vehicles vs = .ok vs1
  entering : Link.processVehicles ⟨links, vs1⟩ (Link.enteringFn l) Env.fuel l (0, l.id) 0.0 l.vehicles.length vs1 = .ok vs2
  projs : l.group = none ∧ vs' = vs2 ∨ ∃ g ps, l.group = some g ∧ g.projectionsFromLink l.id = .ok ps ∧
    (∀ p ∈ ps, links.contains p.dst = true) ∧ ps.foldlM (Link.applyProjection links l) vs2 = .ok vs'
  slow1 : VSlow vs vs1
  slow2 : VSlow vs1 vs2
  slow3 : VSlow vs2 vs'

theorem applyProjections_slow [Env] {links : LinkSet F} (hN : NetInv strict links) {vs vs' : VehicleSet F}
    (hn : NetOK ⟨links, vs⟩) {lk : Key} {l : Link F} (hl : links.get? lk = some l) {ps : List (LinkProjection F)}
    (hmem : ∀ p ∈ ps, links.contains p.dst = true) (h : ps.foldlM (Link.applyProjection links l) vs = .ok vs') :
    VSlow vs vs' := by
  refine (Spec.foldlM (E := fun _ => True) (I := fun vs' => VSlow vs vs') (fun vs' h' p hp => ?_) VSlow.rfl').ok h
  refine (applyProjection_spec trivial (fun k l hl => (hN.link k l hl).segs) (hn.same h'.same) ?_ (.inr trivial)
    (hmem p hp)).mono (fun vs'' h'' => VSlow.trans h' h'') (fun _ => fun h => h)
  intro j hj
  rw [SRel.contains h']; exact hn.vehs lk l hl j hj

theorem linkAccRun [Env] {links : LinkSet F} (hN : NetInv strict links) {vs vs' : VehicleSet F}
    (hn : NetOK ⟨links, vs⟩) {lk : Key} {l : Link F} (hl : links.get? lk = some l)
    (h : Link.applyAccelerations links vs lk = .ok vs') : ∃ vs1 vs2, LinkAccRun links vs l vs1 vs2 vs' := by
  have hi := hN.link lk l hl
  simp only [Link.applyAccelerations, M_bind_ok, getLink_ok] at h
  obtain ⟨l', hl', vs1, h1, vs2, h2, h3⟩ := h
  rw [hl] at hl'; cases hl'
  have hs1 := followWindows_slow h1
  have hn1 : NetOK ⟨links, vs1⟩ := hn.same hs1.same
  have hv1 : ∀ j ∈ l.vehicles, vs1.contains j = true := hn1.vehs lk l hl
  have hs2 : VSlow vs1 vs2 := (processVehicles_spec (E := fun _ => True) (I := fun vs' => VSlow vs1 vs') hn1 trivial
    (fun r s _ hs => enteringFn_spec hv1 r hs) _ l 0 lk _ _ vs1 hl .here VSlow.rfl').ok (by rw [← hi.id]; exact h2)
  cases hg : l.group with
  | none =>
    rw [hg] at h3; simp only [M_pure_ok] at h3; subst h3
    exact ⟨vs1, vs2, h1, h2, .inl ⟨hg, rfl⟩, hs1, hs2, VSlow.rfl'⟩
  | some g =>
    rw [hg] at h3
    simp only [M_bind_ok] at h3
    obtain ⟨ps, hps, h3⟩ := h3
    have hmem : ∀ p ∈ ps, links.contains p.dst = true := by
      have hgi := hi.group g hg
      have hps' := hps
      unfold LinkGroup.projectionsFromLink at hps'
      split at hps'
      · simp at hps'
      · split at hps'
        · simp at hps'
        · dsimp only at hps'
          split at hps'
          · simp only [M_pure_ok] at hps'
            subst hps'
            exact fun p hp => hgi.proj p (List.mem_of_mem_take (List.mem_of_mem_drop hp))
          · simp at hps'
    exact ⟨vs1, vs2, h1, h2, .inr ⟨g, ps, hg, hps, hmem, h3⟩, hs1, hs2,
      applyProjections_slow hN (hn1.same hs2.same) hl hmem h3⟩

/-- If the accelerations of a link cap a vehicle whatever the accelerations were before, so does the phase. -/
theorem linkAccs_capped_of [Env] {n : Net F} (hN : NetInv strict n.links) (hn : NetOK n) {cs : List (ConflictPoint F)}
    (hcs : ∀ c ∈ cs, n.links.contains c.link0.linkId = true ∧ n.links.contains c.link1.linkId = true)
    {lk : Key} {l : Link F} (hl : n.links.get? lk = some l) {k : Key} {x : F}
    (hcap : ∀ vs vs1 vs2 vs', VSlow n.vehicles vs → LinkAccRun n.links vs l vs1 vs2 vs' → Capped k x vs vs')
    {vs' : VehicleSet F} (h : Sim.applyLinkAccelerations cs n = .ok vs') : Capped k x n.vehicles vs' := by
  simp only [Sim.applyLinkAccelerations, M_bind_ok] at h
  obtain ⟨vs1, h1, h2⟩ := h
  have hs2 : VSlow n.vehicles vs1 → VSlow vs1 vs' := fun hs1 =>
    (Spec.foldlM (E := fun _ => True) (I := fun vs' => VSlow vs1 vs') (fun vs' h' c hc =>
      (c.applyAccelerations_spec trivial (.inr trivial) ((NetOK.same hn (VSlow.same hs1)).same (VSlow.same h'))
        (hcs c hc).1 (hcs c hc).2).mono (fun vs'' h'' => VSlow.trans h' h'') (fun _ h => h)) VSlow.rfl').ok h2
  have key : ∀ (ks : List Key), ks ⊆ n.links.keys → ∀ vs, VSlow n.vehicles vs →
      ks.foldlM (Link.applyAccelerations n.links) vs = .ok vs1 →
      VSlow vs vs1 ∧ (lk ∈ ks → Capped k x vs vs1) := by
    intro ks
    induction ks with
    | nil =>
      intro _ vs _ h
      simp only [List.foldlM_nil, M_pure_ok] at h
      subst h
      exact ⟨VSlow.rfl', nofun⟩
    | cons a ks ih =>
      intro hsub vs hs h
      rw [List.foldlM_cons, M_bind_ok] at h
      obtain ⟨vs2, h1, h2⟩ := h
      have hn' : NetOK ⟨n.links, vs⟩ := NetOK.same hn (VSlow.same hs)
      obtain ⟨la, hla⟩ := SlotMap.mem_keys.1 (hsub (List.mem_cons_self ..))
      obtain ⟨va, vb, hw⟩ := linkAccRun hN hn' hla h1
      have hs02 : VSlow vs vs2 := (hw.slow1.trans hw.slow2).trans hw.slow3
      obtain ⟨i1, i2⟩ := ih (fun j hj => hsub (List.mem_cons_of_mem _ hj)) vs2 (hs.trans hs02) h2
      refine ⟨hs02.trans i1, fun hmem => ?_⟩
      by_cases e : lk = a
      · subst e
        rw [hl] at hla; cases hla
        exact (hcap vs va vb vs2 hs hw).before i1.slower
      · exact (i2 (by simpa [e] using hmem)).after hs02.slower
  obtain ⟨k1, k2⟩ := key _ (fun _ h => h) _ VSlow.rfl' h1
  exact (k2 (SlotMap.mem_keys.2 ⟨l, hl⟩)).before (hs2 k1).slower

/-- The same for the recomputation of accelerations. -/
theorem AccRun.linkCapped [Env] {s s' : Sim F} (hs : SimMid strict s) {n0 n1 : Net F} {vs : VehicleSet F}
    (hr : AccRun s n0 n1 vs s') {lk : Key} {l : Link F} (hl : s.links.get? lk = some l) {k : Key} {x : F}
    (hcap : ∀ (links : LinkSet F) vs vs1 vs2 vs' b c, Before s ⟨links, vs⟩ →
      links.get? lk = some { l with active := b, lastConflict := c } →
      LinkAccRun links vs { l with active := b, lastConflict := c } vs1 vs2 vs' →
      Capped k x vs vs') : Capped k x n0.vehicles vs := by
  have hok0 := hr.prep.netOK hs
  have hN0 : NetInv strict n0.links := hs.net.frame hr.prep.frame
  have hok1 := hok0.same hr.stop.same
  have hf1 : Frame n0.links n1.links := SRel.mono hr.stop.links fun _ _ _ => LinkSame.frame
  obtain ⟨l0, hl0, b, rfl, -⟩ := hr.prep.links.fwd lk l hl
  obtain ⟨l1, hl1, c, rfl, -⟩ := hr.stop.links.fwd lk _ hl0
  refine Capped.after (vs := n1.vehicles) ⟨_, hr.stop.vehicles⟩ ?_
  refine linkAccs_capped_of (hN0.frame hf1) hok1 (fun c hc => ?_) hl1 (fun vs2 va vb vs3 h2 h3 => ?_) hr.runAcc
  · rw [hr.stop.links.contains, hr.stop.links.contains, hr.prep.links.contains, hr.prep.links.contains]
    exact hs.conflicts c hc
  · refine hcap n1.links vs2 va vb vs3 b c ⟨hr.prep.links.trans hr.stop.links ?_, ?_⟩ hl1 h3
    · rintro j l l' l'' ⟨b, rfl, hb⟩ ⟨c, rfl, -⟩
      exact ⟨b, c, rfl, hb⟩
    · refine (hr.prep.vehicles.trans (hr.stop.vehicles.trans h2 fun k v v' v'' a b => a.same.trans b.same) ?_)
      rintro k v v' v'' rfl h
      exact h

theorem Before.slow {s : Sim F} {links : LinkSet F} {vs vs' : VehicleSet F} (h : Before s ⟨links, vs⟩) (h' : VSlow vs vs') :
    Before s ⟨links, vs'⟩ :=
  ⟨h.links, h.vehicles.trans h' fun _ _ _ _ a b => a.trans b.same⟩

/-- From the capping of the accelerations to the vehicle after a step. -/
theorem capped_step [Env] [LawfulDijkstra] {s s' s1 : Sim F} {dt : F} (h : Reach strict s) (hst : s.step dt = .ok s')
    (hre : ¬ s.accUpdate < 0.1) (hlanes : s.calculateLaneChanges = .ok s1) {k : Key} {v1 v' : Vehicle F}
    (hv1 : s1.getVehicle k = .ok v1) (hv' : s'.getVehicle k = .ok v') {x : F}
    (hcap : SimInv strict s1 → (∀ a b la lb, s1.links.get? a = some la → s1.links.get? b = some lb → b ∈ la.linksOut →
        a ∈ lb.linksIn) → ∀ n0 n1 vs s2, AccRun s1 n0 n1 vs s2 → Capped k x n0.vehicles vs) :
    v'.acc.acc = -6.0 ∨ ∃ as : List F, x ∈ as ∧ v'.acc.acc = as.foldl fmin v1.acc.maxAcc := by
  obtain ⟨s1', s2, s3, s4, s5, s6, hr⟩ := (step_spec h.inv dt).ok hst
  rw [hr.run1] at hlanes; cases hlanes
  obtain ⟨v, hv⟩ := hr.back (getVeh_ok.1 hv')
  obtain ⟨v1', v2, v4, ht⟩ := hr.trace hv
  have g1 := ht.get1
  rw [getVeh_ok.1 hv1] at g1; cases g1
  obtain ⟨-, ea, -⟩ := ht.vel (getVeh_ok.1 hv')
  rw [ea]
  rcases ht.acc with ⟨hlt, -⟩ | ⟨-, n0, n1, vs, har, ha⟩
  · rw [hr.clocks.1] at hlt; exact absurd hlt hre
  by_cases hf : k ∈ s1.frozen
  · left
    obtain ⟨a, w, ev2, -, hz, -⟩ := ha.eq
    rw [ev2]
    exact hz hf
  · right
    have hsym : ∀ a b la lb, s1.links.get? a = some la → s1.links.get? b = some lb → b ∈ la.linksOut → a ∈ lb.linksIn := by
      intro a b la lb h1 h2 h3
      obtain ⟨la0, g1, e1⟩ := hr.frame1.frame.bwd h1
      obtain ⟨lb0, g2, e2⟩ := hr.frame1.frame.bwd h2
      have := C60_symmetric h (getLink_ok.2 g1) (getLink_ok.2 g2)
      rw [e2.linksIn]
      rw [e1.linksOut] at h3
      refine List.count_pos_iff.1 ?_
      rw [← this]
      exact List.count_pos_iff.2 h3
    obtain ⟨w, as, x, hw, hx, ew⟩ := har.capped (getVeh_ok.1 hv1) hf (hcap hr.inv1 hsym n0 n1 vs s2 har)
    have g2 := ht.get2
    rw [hr.vehicles3, hw] at g2; cases g2
    exact ⟨as, hx, by rw [ew]⟩

end

end TrafficSim
