import Verif.Lemmas.Run
import Verif.Lemmas.TownRun
import Verif.Lemmas.Junction

/-! # C08, C13, C14, C16, C20, C21, C57: what a step does to lights, links and vehicles -/

namespace TrafficSim

section
variable {F : Type} [Flt F] {strict : Prop} {s s' : Sim F} {dt : F}

/-! ## C08 -/

omit [Flt F] in
theorem forall₂_left {α β : Type} {R : α → β → Prop} {l : List α} {r : List β} (h : List.Forall₂ R l r) :
    ∀ x ∈ l, ∃ y ∈ r, R x y := by
  induction h with
  | nil => simp
  | cons h1 _ ih =>
    intro x hx
    rcases List.mem_cons.1 hx with rfl | hx
    · exact ⟨_, by simp, h1⟩
    · obtain ⟨y, hy, hr⟩ := ih x hx
      exact ⟨y, by simp [hy], hr⟩

omit [Flt F] in
theorem writeControls_hit (ws : List (Key × TrafficControl F)) (links : LinkSet F) (k : Key) (l' : Link F)
    (h : (writeControls links ws).get? k = some l') (hw : ∃ c, (k, c) ∈ ws) : (k, l'.control) ∈ ws := by
  induction ws generalizing links with
  | nil => simp at hw
  | cons p ws ih =>
    have e : writeControls links (p :: ws) = writeControls (links.modify p.1 fun l => { l with control := p.2 }) ws := rfl
    rw [e] at h
    by_cases hw' : ∃ c, (k, c) ∈ ws
    · exact List.mem_cons_of_mem _ (ih _ h hw')
    · obtain ⟨c, hc⟩ := hw
      rcases List.mem_cons.1 hc with rfl | hc
      · obtain ⟨l1, hl1, c', rfl, hc'⟩ := (writeControls_rel _ ws).bwd h
        rcases hc' with rfl | hc'
        · rw [SlotMap.get?_modify_self, Option.map_eq_some_iff] at hl1
          obtain ⟨l0, -, rfl⟩ := hl1
          simp
        · exact absurd ⟨c', hc'⟩ hw'
      · exact absurd ⟨c, hc⟩ hw'

theorem StepRun.control [Env] {s1 s2 s3 s4 s5 s6 : Sim F} (h : StepRun strict s dt s1 s2 s3 s4 s5 s6 s') :
    SRel (fun _ l l' => l'.control = l.control) s.links s2.links ∧
      SRel (fun _ l l' => l'.control = l.control) s3.links s'.links := by
  constructor
  · have h1 : SRel (fun _ l l' => l'.control = l.control) s.links s1.links :=
      h.frame1.mono fun _ l l' e => by rw [e]
    refine h1.trans (S := fun _ l l' => l'.control = l.control) ?_ fun _ _ _ _ e e' => e'.trans e
    rcases h.acc with ⟨-, rfl⟩ | ⟨-, n0, n1, vs, hr⟩
    · exact SRel.refl fun _ _ _ => rfl
    · have : s2.links = n1.links := by rw [hr.eq]
      rw [this]
      refine hr.prep.links.trans hr.stop.links ?_
      rintro k l l' l'' ⟨b, rfl, -⟩ ⟨c, rfl, -⟩
      rfl
  · rw [h.links']
    have := h.adv.ctrl
    rw [h.links4] at this
    exact this.mono fun _ l l' e => by rw [e]

/-- The pairs of movement and link that the lights of a simulation control. -/
def Sim.Controls (s : Sim F) (light : Key) (movement : Nat) (link : Key) : Prop :=
  ∃ tl, s.lights.get? light = some tl ∧ (movement, link) ∈ tl.links

/-- **C08.** After a step a link controlled by one movement of one light is open if that movement is
green and closed otherwise. -/
theorem C08_obeys [Env] [LawfulDijkstra] (h : Reach strict s) (hst : s.step dt = .ok s') {light link : Key} {i : Nat}
    (hc : s'.Controls light i link) (hone : ∀ light' i', s'.Controls light' i' link → light' = light ∧ i' = i) :
    ∃ tl m l, s'.lights.get? light = some tl ∧ tl.movements[i]? = some m ∧ s'.getLinkRef link = .ok l ∧
      l.control = if m.state = .green then .open_ else .closed := by
  obtain ⟨s1, s2, s3, s4, s5, s6, hr⟩ := (step_spec h.inv dt).ok hst
  obtain ⟨wss, hl⟩ := hr.lights
  have el : s'.lights = s3.lights := by
    rw [hr.eq]; dsimp only; rw [hr.place.eq]; dsimp only; rw [hr.adv.eq]; dsimp only; rw [hr.move.eq]
  obtain ⟨tl, htl, hp⟩ := hc
  rw [el] at htl
  have hok := hr.mid3.lights light tl htl
  have hval : s3.links.contains link = true := hok.valid _ hp
  have states : ∀ lk ws, (∃ tl', s3.lights.get? lk = some tl' ∧ tl'.getStates = .ok ws) → ∀ k c, (k, c) ∈ ws →
      ∃ tl' i' m, s3.lights.get? lk = some tl' ∧ (i', k) ∈ tl'.links ∧ tl'.movements[i']? = some m ∧
        c = TrafficLight.controlOf m.state := by
    rintro lk ws ⟨tl', htl', hg⟩ k c hkc
    obtain ⟨-, -, hf⟩ := ((hr.mid3.lights lk tl' htl').getStates_spec (E := fun _ => True)).ok hg
    obtain ⟨⟨i', k'⟩, he, h1, m, h2, h3⟩ := forall₂_right hf _ hkc
    dsimp only at h1 h2 h3
    subst h1
    exact ⟨tl', i', m, htl', he, h2, h3⟩
  obtain ⟨l3, hl3⟩ := get_of_contains hval
  have hex : ∃ c, (link, c) ∈ wss.flatten := by
    obtain ⟨tl0, h0, -⟩ := hl.lights.bwd htl
    obtain ⟨ws, hws, tl', htl', hg⟩ := forall₂_left hl.writes light (SlotMap.mem_keys.2 ⟨tl0, h0⟩)
    rw [htl] at htl'; cases htl'
    obtain ⟨-, -, hf⟩ := (hok.getStates_spec (E := fun _ => True)).ok hg
    obtain ⟨⟨k', c⟩, hw, h1, -⟩ := forall₂_left hf _ hp
    dsimp only at h1; subst h1
    exact ⟨c, List.mem_flatten.2 ⟨ws, hws, hw⟩⟩
  have hl3' := hl3
  rw [hl.links] at hl3'
  have hhit := writeControls_hit _ _ _ _ hl3' hex
  obtain ⟨ws, hws, hw⟩ := List.mem_flatten.1 hhit
  obtain ⟨lk, hlk, hx⟩ := forall₂_right hl.writes ws hws
  obtain ⟨tl', i', m, htl', hp', hm, hcm⟩ := states lk ws hx _ _ hw
  obtain ⟨rfl, rfl⟩ := hone lk i' ⟨tl', by rw [el]; exact htl', hp'⟩
  rw [htl] at htl'; cases htl'
  obtain ⟨l', hl', e⟩ := hr.control.2.fwd link l3 hl3
  refine ⟨tl, m, l', by rw [el]; exact htl, hm, getLink_ok.2 hl', ?_⟩
  rw [e, hcm]
  cases m.state <;> rfl

/-- **C08.** A link that no light controls keeps its control. -/
theorem C08_uncontrolled [Env] [LawfulDijkstra] (h : Reach strict s) (hst : s.step dt = .ok s') {link : Key} {l : Link F}
    (hl : s.getLinkRef link = .ok l) (hno : ∀ light i, ¬ s'.Controls light i link) :
    ∃ l', s'.getLinkRef link = .ok l' ∧ l'.control = l.control := by
  obtain ⟨s1, s2, s3, s4, s5, s6, hr⟩ := (step_spec h.inv dt).ok hst
  obtain ⟨wss, hL⟩ := hr.lights
  have el : s'.lights = s3.lights := by
    rw [hr.eq]; dsimp only; rw [hr.place.eq]; dsimp only; rw [hr.adv.eq]; dsimp only; rw [hr.move.eq]
  obtain ⟨l2, hl2, e2⟩ := hr.control.1.fwd link l (getLink_ok.1 hl)
  obtain ⟨l3, hl3, c, e3, hc⟩ := (writeControls_rel s2.links wss.flatten).fwd link l2 hl2
  rw [← hL.links] at hl3
  obtain ⟨l', hl', e'⟩ := hr.control.2.fwd link l3 hl3
  refine ⟨l', getLink_ok.2 hl', ?_⟩
  rw [e', e3, ← e2]
  rcases hc with hc | hc
  · exact hc
  · exfalso
    obtain ⟨ws, hws, hw⟩ := List.mem_flatten.1 hc
    obtain ⟨lk, hlk, tl', htl', hg⟩ := forall₂_right hL.writes ws hws
    obtain ⟨-, -, hf⟩ := ((hr.mid3.lights lk tl' htl').getStates_spec (E := fun _ => True)).ok hg
    obtain ⟨⟨i', k'⟩, he, h1, -⟩ := forall₂_right hf _ hw
    dsimp only at h1; subst h1
    exact hno lk i' ⟨tl', by rw [el]; exact htl', he⟩

/-- **C08.** The lights after a step are the lights before it, each stepped once; so the control of a link
follows from the light as described by C01-C06. -/
theorem C08_lights [Env] [LawfulDijkstra] (h : Reach strict s) (hst : s.step dt = .ok s') :
    SRel (fun _ tl tl' => tl.step dt = .ok tl') s.lights s'.lights := by
  obtain ⟨s1, s2, s3, s4, s5, s6, hr⟩ := (step_spec h.inv dt).ok hst
  obtain ⟨wss, hL⟩ := hr.lights
  have el : s'.lights = s3.lights := by
    rw [hr.eq]; dsimp only; rw [hr.place.eq]; dsimp only; rw [hr.adv.eq]; dsimp only; rw [hr.move.eq]
  have e1 : s1.lights = s.lights := by
    rcases hr.lanes with ⟨-, e⟩ | ⟨-, vs, lcs, e⟩
    · rw [e]
    · rw [e.eq]
  have e2 : s2.lights = s1.lights := by
    rcases hr.acc with ⟨-, e⟩ | ⟨-, n0, n1, vs, e⟩
    · rw [e]
    · rw [e.eq]
  rw [el, ← e1, ← e2]
  exact hL.lights

/-! ## Motion of a vehicle in a step -/

theorem Steered.same {links : LinkSet F} {v v1 : Vehicle F} (h : Steered links v v1) :
    v1.vel = v.vel ∧ v1.acc = v.acc ∧ v1.queued = v.queued ∧ v1.willQueueOrEnter = v.willQueueOrEnter ∧
      v1.pathfind.dst = v.pathfind.dst := by
  rcases h with (rfl | ⟨p, -, -, rfl⟩) | ⟨p, -, -, hs⟩
  · exact ⟨rfl, rfl, rfl, rfl, rfl⟩
  · exact ⟨rfl, rfl, rfl, rfl, rfl⟩
  · obtain ⟨link, pos, lc, pf, -, rfl, -, h4, -⟩ := hs.ex
    exact ⟨rfl, rfl, rfl, rfl, h4⟩

/-- A vehicle that is on the same link after the first phase did not change lanes. -/
theorem Steered.stay {links : LinkSet F} {v v1 : Vehicle F} (h : Steered links v v1) (hl : v1.linkId = v.linkId) :
    v1.pos = v.pos ∧ v1.laneChange = v.laneChange := by
  rcases h with (rfl | ⟨p, -, -, rfl⟩) | ⟨p, -, hne, hs⟩
  · exact ⟨rfl, rfl⟩
  · exact ⟨rfl, rfl⟩
  · obtain ⟨link, pos, lc, pf, -, rfl, -⟩ := hs.ex
    exact absurd hl hne

/-- The acceleration of a vehicle that results from the second phase. -/
theorem Accelerated.same [Env] {s1 s2 : Sim F} {k : Key} {v1 v2 : Vehicle F} (h : Accelerated s1 s2 k v1 v2) :
    ∃ a w, v2 = { v1 with acc := { v1.acc with acc := a }, willQueueOrEnter := w } := by
  rcases h with ⟨-, -, rfl⟩ | ⟨-, n0, n1, vs, -, h⟩
  · exact ⟨_, _, rfl⟩
  · obtain ⟨a, w, e, -⟩ := h.eq
    exact ⟨a, w, e⟩

theorem integrateMotion_eq (v : Vehicle F) (dt : F) : ∃ lc cnt, v.integrateMotion dt =
    { v with vel := fmax (v.vel + dt * v.acc.getAcc) 0.0
             pos := v.pos + 0.5 * (v.vel + fmax (v.vel + dt * v.acc.getAcc) 0.0) * dt, laneChange := lc, stopCnt := cnt } := by
  unfold Vehicle.integrateMotion Vehicle.updateStopCount
  dsimp only
  split <;> exact ⟨_, _, rfl⟩

omit [Flt F] in
theorem integrateQueue_eq {v : Vehicle F} {sq : Nat} {p : Vehicle F × Nat} (h : v.integrateQueue sq = .ok p) :
    ∃ q e, p.1 = { v with queued := q, entered := e, willQueueOrEnter := 0 } ∧
      (v.willQueueOrEnter = 0 → q = v.queued ∧ e = v.entered) := by
  unfold Vehicle.integrateQueue at h
  split at h
  · simp only [M_pure_ok] at h; subst h; exact ⟨_, _, rfl, fun _ => ⟨rfl, rfl⟩⟩
  · rename_i e; simp only [M_pure_ok] at h; subst h; exact ⟨_, _, rfl, fun h => by rw [h] at e; cases e⟩
  · rename_i e; simp only [M_pure_ok] at h; subst h; exact ⟨_, _, rfl, fun h => by rw [h] at e; cases e⟩
  · simp at h

/-- The motion of a vehicle. -/
theorem Moved.eq {lo : Nat} {k : Key} {v v' : Vehicle F} (h : Moved dt lo k v v') : ∃ q e lc cnt, v' =
    { v with queued := q, entered := e, willQueueOrEnter := 0, vel := fmax (v.vel + dt * v.acc.getAcc) 0.0
             pos := v.pos + 0.5 * (v.vel + fmax (v.vel + dt * v.acc.getAcc) 0.0) * dt, laneChange := lc, stopCnt := cnt } ∧
      (v.willQueueOrEnter = 0 → q = v.queued ∧ e = v.entered) := by
  obtain ⟨sq, sq', hi, -⟩ := h
  unfold Vehicle.integrate at hi
  rw [M_bind_ok] at hi
  obtain ⟨p, hp, hi⟩ := hi
  rw [M_pure_ok] at hi
  cases hi
  obtain ⟨q, e, he, hq⟩ := integrateQueue_eq hp
  obtain ⟨lc, cnt, hm⟩ := integrateMotion_eq p.1 dt
  rw [hm, he]
  exact ⟨q, e, lc, cnt, rfl, hq⟩

/-- The speed and the acceleration of a vehicle that is still there after the step. -/
theorem Trace.vel [Env] {s1 s2 s3 s4 : Sim F} {k : Key} {v v1 v2 v4 v' : Vehicle F}
    (h : Trace s dt s1 s2 s3 s4 s' k v v1 v2 v4) (hv' : s'.vehicles.get? k = some v') :
    v'.vel = fmax (v.vel + dt * v2.acc.getAcc) 0.0 ∧ v'.acc = v2.acc ∧ v'.vel = v4.vel := by
  obtain ⟨e1, e2, -⟩ := h.steer.same
  obtain ⟨a, w, ev2⟩ := h.acc.same
  obtain ⟨q, e, lc, cnt, ev4, -⟩ := h.move.eq
  have h4 : v4.vel = fmax (v.vel + dt * v2.acc.getAcc) 0.0 ∧ v4.acc = v2.acc := by
    have : v2.vel = v.vel := by rw [ev2]; exact e1
    rw [ev4]; dsimp only; rw [this]; exact ⟨rfl, rfl⟩
  have h5 : v'.vel = v4.vel ∧ v'.acc = v4.acc := by
    cases h.out with
    | stays u hu hp _ =>
      rw [hv'] at hu; cases hu
      obtain ⟨p, d, r, c, rfl⟩ := hp
      exact ⟨rfl, rfl⟩
    | passes v5 u hp _ hu hpl =>
      rw [hv'] at hu; cases hu
      obtain ⟨p, d, r, c, rfl⟩ := hpl
      obtain ⟨k', rest, l, pf, -, -, -, rfl, -⟩ := hp.ex
      exact ⟨rfl, rfl⟩
    | leaves _ _ _ hn => rw [hv'] at hn; cases hn
  exact ⟨h5.1.trans h4.1, h5.2.trans h4.2, h5.1⟩

/-! ## C13 -/

/-- **C13.** When accelerations are recomputed (C57), the speed of a frozen vehicle after the step is
what full braking gives, whatever the surrounding traffic. -/
theorem C13_brakes [Env] [LawfulDijkstra] (h : Reach strict s) (hst : s.step dt = .ok s') (hre : ¬ s.accUpdate < 0.1)
    {k : Key} {v v' : Vehicle F} (hf : s.getVehicleFrozen k = true) (hv : s.getVehicle k = .ok v)
    (hv' : s'.getVehicle k = .ok v') : v'.vel = fmax (v.vel + dt * fmax (-6.0) (-6.0)) 0.0 := by
  obtain ⟨s1, s2, s3, s4, s5, s6, hr⟩ := (step_spec h.inv dt).ok hst
  obtain ⟨v1, v2, v4, ht⟩ := hr.trace (getVeh_ok.1 hv)
  obtain ⟨e, -, -⟩ := ht.vel (getVeh_ok.1 hv')
  have e1 : s1.frozen = s.frozen ∧ s1.accUpdate = s.accUpdate := by
    rcases hr.lanes with ⟨-, e⟩ | ⟨-, vs, lcs, e⟩
    · rw [e]; exact ⟨rfl, rfl⟩
    · rw [e.eq]; exact ⟨rfl, rfl⟩
  rw [e]
  rcases ht.acc with ⟨hlt, -⟩ | ⟨-, n0, n1, vs, -, ha⟩
  · rw [e1.2] at hlt; exact absurd hlt hre
  · obtain ⟨a, w, ev2, -, hz, -⟩ := ha.eq
    have : a = maxDecel := hz (by rw [e1.1]; simpa [Sim.getVehicleFrozen] using hf)
    rw [ev2, this]
    rfl

/-! ## C14 -/

/-- **C14.** A vehicle that is still there is on its link, directly downstream of it, on a lane-change
target of it, or directly downstream of such a target. -/
theorem C14_moves_along [Env] [LawfulDijkstra] (h : Reach strict s) (hst : s.step dt = .ok s') {k : Key}
    {v v' : Vehicle F} (hv : s.getVehicle k = .ok v) (hv' : s'.getVehicle k = .ok v') :
    ∃ a b, v.linkId = some a ∧ v'.linkId = some b ∧ (b = a ∨ Conn s.links a b ∨ LaneTo s.links a b ∨
      ∃ c, LaneTo s.links a c ∧ Conn s.links c b) := by
  obtain ⟨s1, s2, s3, s4, s5, s6, hr⟩ := (step_spec h.inv dt).ok hst
  obtain ⟨v1, v2, v4, ht⟩ := hr.trace (getVeh_ok.1 hv)
  have hi := h.inv.veh k v (getVeh_ok.1 hv)
  have hi1 := hr.inv1.veh k v1 ht.get1
  -- the link after the first phase
  have step1 : ∃ c, v1.linkId = some c ∧ (c = v.pathfind.src ∨ LaneTo s.links v.pathfind.src c) := by
    rcases ht.steer with (rfl | ⟨p, hc, hh, rfl⟩) | ⟨p, hc, hne, hs⟩
    · exact ⟨_, hi.src, .inl rfl⟩
    · refine ⟨v.pathfind.src, ?_, .inl rfl⟩
      exact hh.trans hi.src
    · obtain ⟨link, pos, lc, pf, hl, e, -⟩ := hs.ex
      obtain ⟨j, hj, hjj⟩ := (hi.paths p hc.mem).start
      rw [hl] at hj; cases hj
      refine ⟨link, ?_, hjj⟩
      rw [e]; exact hl
  obtain ⟨c, hc, hcc⟩ := step1
  -- the route before the vehicles advance
  have hr4 : v4.route = v1.route := by
    obtain ⟨a, w, ev2⟩ := ht.acc.same
    obtain ⟨q, e, lc, cnt, ev4, -⟩ := ht.move.eq
    rw [ev4, ev2]
  have hconn : ∀ a b, Conn s1.links a b → Conn s.links a b := fun a b => (hr.frame1.frame.ge).conn a b
  have key : ∃ b, v'.linkId = some b ∧ (b = c ∨ Conn s.links c b) := by
    have hc1 : v1.route.head? = some c := hc
    cases ht.out with
    | stays u hu hp _ =>
      rw [getVeh_ok.1 hv'] at hu; cases hu
      obtain ⟨p, d, r, cc, rfl⟩ := hp
      exact ⟨c, by show v4.route.head? = _; rw [hr4]; exact hc, .inl rfl⟩
    | passes v5 u hp hne hu hpl =>
      rw [getVeh_ok.1 hv'] at hu; cases hu
      obtain ⟨p, d, r, cc, rfl⟩ := hpl
      obtain ⟨k', rest, l, pf, h1, -, -, rfl, -⟩ := hp.ex
      dsimp only at hne
      obtain ⟨b, rest', rfl⟩ := List.exists_cons_of_ne_nil hne
      refine ⟨b, rfl, .inr ?_⟩
      rw [hr4] at h1
      have hd := hi1.drivable.chain
      rw [h1] at hd hc1
      cases hc1
      exact hconn _ _ (List.isChain_cons_cons.1 hd).1
    | leaves _ _ _ hn => rw [getVeh_ok.1 hv'] at hn; cases hn
  obtain ⟨b, hb, hbb⟩ := key
  refine ⟨v.pathfind.src, b, hi.src, hb, ?_⟩
  rcases hcc with rfl | hcc <;> rcases hbb with rfl | hbb
  · exact .inl rfl
  · exact .inr (.inl hbb)
  · exact .inr (.inr (.inl hcc))
  · exact .inr (.inr (.inr ⟨c, hcc, hbb⟩))

/-! ## C16 -/

/-- **C16.** A vehicle disappears in a step exactly if, after all vehicles have moved (`s4`), it is on
the last link of its route and past its end. -/
theorem C16_leaves [Env] [LawfulDijkstra] (h : Reach strict s) (hst : s.step dt = .ok s') {k : Key} {v : Vehicle F}
    (hv : s.getVehicle k = .ok v) :
    ∃ s1 s2 s3 s4 v4, s.calculateLaneChanges = .ok s1 ∧ s1.applyAccelerations = .ok s2 ∧
      s2.updateLights dt = .ok s3 ∧ s3.integrate dt = .ok s4 ∧ s4.getVehicle k = .ok v4 ∧
      ((∀ v', s'.getVehicle k ≠ .ok v') ↔
        ∃ lk l, v4.route = [lk] ∧ s.getLinkRef lk = .ok l ∧ l.length < v4.pos) := by
  obtain ⟨s1, s2, s3, s4, s5, s6, hr⟩ := (step_spec h.inv dt).ok hst
  obtain ⟨v1, v2, v4, ht⟩ := hr.trace (getVeh_ok.1 hv)
  refine ⟨s1, s2, s3, s4, v4, hr.run1, hr.run2, hr.run3, hr.run4, getVeh_ok.2 ht.get4, ?_⟩
  have hlen : ∀ lk l, s4.links.get? lk = some l → ∃ l0, s.getLinkRef lk = .ok l0 ∧ l0.length = l.length := by
    intro lk l hl
    obtain ⟨l0, h0, hf⟩ := hr.frame4.bwd hl
    exact ⟨l0, getLink_ok.2 h0, by unfold Link.length; rw [hf.curve]⟩
  constructor
  · intro hno
    cases ht.out with
    | stays u hu => exact absurd (getVeh_ok.2 hu) (hno u)
    | passes v5 u _ _ hu => exact absurd (getVeh_ok.2 hu) (hno u)
    | leaves v5 hp hnil _ =>
      obtain ⟨k', rest, l, pf, h1, h2, h3, rfl, -⟩ := hp.ex
      dsimp only at hnil; subst hnil
      obtain ⟨l0, h0, e⟩ := hlen k' l h2
      exact ⟨k', l0, h1, h0, by rw [e]; exact h3⟩
  · rintro ⟨lk, l, h1, h2, h3⟩ u hu
    have hl4 : ∀ l', s4.links.get? lk = some l' → l'.length = l.length := by
      intro l' hl'
      obtain ⟨l0, h0, e⟩ := hlen lk l' hl'
      rw [h2] at h0; cases h0; exact e.symm
    cases ht.out with
    | stays u hu hp hx =>
      obtain ⟨a, l', ha, hl', hlt⟩ := hx
      rw [h1] at ha; cases ha
      rw [hl4 l' hl'] at hlt
      exact hlt h3
    | passes v5 u hp hne hu =>
      obtain ⟨k', rest, l', pf, h4, -, -, rfl, -⟩ := hp.ex
      rw [h1] at h4
      cases h4
      exact hne rfl
    | leaves v5 _ _ hn => rw [getVeh_ok.1 hu] at hn; cases hn

end

/-! ## Witnesses and examples -/

section
attribute [local instance] Town.env

/-- `C08_obeys` and `C08_uncontrolled` apply to the junction: one link turns green, one stays closed, and
the control of the third link is the one that was set. -/
example : ∃ s s' : Sim Float, Reach True s ∧ s.step 1.0 = .ok s' ∧
    (∀ i < 2, s'.Controls ⟨0, 1⟩ i ⟨i, 1⟩ ∧ ∀ light i', s'.Controls light i' ⟨i, 1⟩ → light = ⟨0, 1⟩ ∧ i' = i) ∧
    (∀ light i, ¬ s'.Controls light i ⟨2, 1⟩) ∧ Junction.control s 0 = 2 ∧ Junction.control s' 0 = 0 ∧
    Junction.control s' 1 = 2 ∧ Junction.control s 2 = 1 ∧ Junction.control s' 2 = 1 := by
  obtain ⟨s, s', h1, -, h2, -, h4⟩ := Junction.third
  simp only [Junction.test, Bool.and_eq_true, beq_iff_eq] at h4
  obtain ⟨⟨⟨⟨⟨⟨⟨a1, a2⟩, a3⟩, a4⟩, a5⟩, a6⟩, a7⟩, a8⟩ := h4
  split at a7
  · rename_i tl htl
    have hlinks : tl.links = [(0, ⟨0, 1⟩), (1, ⟨1, 1⟩)] := by simpa using a7
    have key : ∀ light i link, s'.Controls light i link ↔
        light = ⟨0, 1⟩ ∧ ((i = 0 ∧ link = ⟨0, 1⟩) ∨ (i = 1 ∧ link = ⟨1, 1⟩)) := by
      intro light i link
      constructor
      · rintro ⟨tl', h, hm⟩
        have hk : light ∈ s'.lights.keys := SlotMap.mem_keys.2 ⟨tl', h⟩
        rw [a8, List.mem_singleton] at hk
        subst hk
        rw [htl] at h; cases h
        rw [hlinks] at hm
        simpa using hm
      · rintro ⟨rfl, h⟩
        exact ⟨tl, htl, by rw [hlinks]; simpa using h⟩
    refine ⟨s, s', h1, h2, ?_, ?_, a1, a4, a5, a3, a6⟩
    · intro i hi
      simp only [key]
      interval_cases i <;> simp
    · intro light i
      simp [key]
  · cases a7

/-- `C13_brakes` applies to a frozen car that is still moving after the step. -/
example : ∃ (s s' : Sim Float) (v v' : Vehicle Float), Reach True s ∧ s.step 0.05 = .ok s' ∧ ¬ s.accUpdate < 0.1 ∧
    s.getVehicleFrozen ⟨0, 1⟩ = true ∧ s.getVehicle ⟨0, 1⟩ = .ok v ∧ s'.getVehicle ⟨0, 1⟩ = .ok v' ∧ 0.3 < v.vel ∧
    0.0 < v'.vel := by
  obtain ⟨s, s', h1, -, h2, -, h4⟩ := DeadEnd.brake
  simp only [DeadEnd.brakeTest, Bool.and_eq_true, Bool.not_eq_true', decide_eq_false_iff_not] at h4
  obtain ⟨⟨a1, a2⟩, a3⟩ := h4
  split at a3
  · rename_i v v' hv hv'
    simp only [Bool.and_eq_true, decide_eq_true_eq] at a3
    exact ⟨s, s', v, v', h1, h2, a2, a1, getVeh_ok.2 hv, getVeh_ok.2 hv', a3⟩
  · cases a3

/-- **C13 (the last clause is false).** A frozen vehicle that is stopped may be moved to another lane. -/
theorem C13_can_shift : ∃ (env : Env) (s s' : Sim Float) (k a b : Key) (v v' : Vehicle Float), @LawfulDijkstra env ∧
    @Reach Float _ env True s ∧ @Sim.step Float _ env s 0.2 = .ok s' ∧ ¬ s.accUpdate < 0.1 ∧
    s.getVehicleFrozen k = true ∧ s.getVehicle k = .ok v ∧ v.vel = 0.0 ∧ s'.getVehicle k = .ok v' ∧
    v.linkId = some a ∧ v'.linkId = some b ∧ a ≠ b := by
  obtain ⟨s, s', h1, -, h2, -, h4⟩ := Town.frozen
  simp only [Town.frozenTest, Bool.and_eq_true, beq_iff_eq, Bool.not_eq_true', decide_eq_false_iff_not] at h4
  obtain ⟨⟨⟨⟨a1, a2⟩, a3⟩, a4⟩, a5⟩ := h4
  split at a4
  · rename_i v hv
    simp only [decide_eq_true_eq] at a4
    simp only [Town.route, hv] at a2
    unfold Town.route at a3
    split at a3
    · rename_i v' hv'
      obtain ⟨a, e, ha⟩ := List.map_eq_singleton_iff.1 a2
      cases hr : v'.route with
      | nil => rw [hr] at a3; cases a3
      | cons b rest =>
        rw [hr, List.map_cons, List.cons.injEq] at a3
        refine ⟨Town.env, s, s', ⟨0, 1⟩, a, b, v, v', Search.lawful _, h1, h2, a5, a1, getVeh_ok.2 hv, a4, getVeh_ok.2 hv',
          ?_, ?_, ?_⟩
        · unfold Vehicle.linkId; rw [e]; rfl
        · unfold Vehicle.linkId; rw [hr]; rfl
        · rintro rfl
          rw [ha] at a3
          cases a3.1
    · cases a3
  · cases a4

/-- `C14_moves_along` applies to the town, where one vehicle changes lanes and another stays on its link. -/
example : ∃ (s s' : Sim Float), Reach True s ∧ s.step 0.2 = .ok s' ∧ Town.route s 0 = [1] ∧ Town.route s' 0 = [0, 2] ∧
    Town.route s' 1 = [3] := by
  obtain ⟨s, s', h1, -, h2, -, h4⟩ := Town.third
  simp only [Town.test, Bool.and_eq_true, beq_iff_eq] at h4
  exact ⟨s, s', h1, h2, h4.1.1.1.1, h4.1.1.1.2, h4.1.1.2⟩

/-- **C15 (false).** A vehicle may leave the simulation on a link that is not its destination: when its
speed takes it past the end of its last link, no check is made whether it may leave there. -/
theorem C15_leaves_elsewhere : ∃ (env : Env) (s s' : Sim Float) (k a b : Key) (v : Vehicle Float),
    @LawfulDijkstra env ∧ @Reach Float _ env True s ∧ @Sim.step Float _ env s 2.0 = .ok s' ∧ s.getVehicle k = .ok v ∧
    v.linkId = some a ∧ v.destination = b ∧ s.links.contains b = true ∧ a ≠ b ∧ v.canExit = false ∧
    ∀ v', s'.getVehicle k ≠ .ok v' := by
  obtain ⟨s, s', h1, -, h2, -, h4⟩ := DeadEnd.first
  simp only [DeadEnd.test, Bool.and_eq_true, Option.isNone_iff_eq_none] at h4
  obtain ⟨a1, a2⟩ := h4
  split at a1
  · rename_i v hv
    simp only [Bool.and_eq_true, beq_iff_eq, Bool.not_eq_true'] at a1
    obtain ⟨⟨b1, b2⟩, b3⟩ := a1
    have := Search.lawful 400
    refine ⟨Town.env, s, s', ⟨0, 1⟩, ⟨0, 1⟩, ⟨1, 1⟩, v, Search.lawful _, h1, h2, getVeh_ok.2 hv, ?_, b2, ?_, by decide, b3,
      fun v' hv' => ?_⟩
    · unfold Vehicle.linkId; rw [b1]; rfl
    · rcases (h1.inv.veh _ _ hv).dst with h | h
      · rw [b2] at h; cases h
      · rwa [b2] at h
    · rw [getVeh_ok.1 hv'] at a2; cases a2
  · cases a1

/-- `C16_leaves` applies to the vehicle of this simulation, which leaves. -/
example : ∃ (s s' : Sim Float) (v : Vehicle Float), Reach True s ∧ s.step 2.0 = .ok s' ∧
    s.getVehicle ⟨0, 1⟩ = .ok v ∧ ∀ v', s'.getVehicle ⟨0, 1⟩ ≠ .ok v' := by
  obtain ⟨s, s', h1, -, h2, -, h4⟩ := DeadEnd.first
  simp only [DeadEnd.test, Bool.and_eq_true, Option.isNone_iff_eq_none] at h4
  obtain ⟨a1, a2⟩ := h4
  split at a1
  · rename_i v hv
    refine ⟨s, s', v, h1, h2, getVeh_ok.2 hv, fun v' hv' => ?_⟩
    rw [getVeh_ok.1 hv'] at a2; cases a2
  · cases a1

end

end TrafficSim
