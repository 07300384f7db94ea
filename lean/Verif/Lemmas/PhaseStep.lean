import Verif.Lemmas.PhaseAcc

/-! # Phases of a step: entry decisions, lights, motion, coordinates -/

namespace TrafficSim

section
variable {F : Type} [Flt F] {strict div geo : Prop}

/-! ## Entry decisions -/

omit [Flt F] in
theorem getRoute_some {v : Vehicle F} {i : Nat} {k : Key} {st : RouteState} (h : v.getRoute i = some (k, st)) :
    i < v.route.length ∧ (st ≠ .entered → v.entered ≤ i) := by
  unfold Vehicle.getRoute at h
  rw [Option.map_eq_some_iff] at h
  obtain ⟨k', hk, he⟩ := h
  refine ⟨(List.getElem?_eq_some_iff.1 hk).1, fun hst => ?_⟩
  by_contra hlt
  rw [if_pos (by omega)] at he
  cases he
  exact hst rfl

theorem Decision.wants [Env] {n : Net F} {k : Key} {w : Nat} (h : Decision n k w) :
    w ≤ 2 ∧ ∃ lk l r j st next, Wants n lk l r j st next ∧ r.key = k := by
  cases h with
  | enterOpen h1 h2 => exact ⟨by omega, _, _, _, _, _, _, h1, h2⟩
  | enterYield _ _ h1 h2 => exact ⟨by omega, _, _, _, _, _, _, h1, h2⟩
  | queue h1 h2 => exact ⟨by omega, _, _, _, _, _, _, h1, h2⟩

theorem Decided.room [Env] {n0 : Net F} {k : Key} {w : Nat} (h : Decided n0 k w) {v : Vehicle F}
    (hv : n0.vehicles.get? k = some v) : w ≤ 2 ∧ v.entered + 1 ≤ v.route.length := by
  obtain ⟨n, hs, hd⟩ := h
  obtain ⟨hw, lk, l, r, j, st, next, h1, rfl⟩ := hd.wants
  refine ⟨hw, ?_⟩
  obtain ⟨v', hv', a, w', rfl⟩ := hs.vehicles.fwd _ v hv
  rw [h1.seen.veh] at hv'
  have e := Option.some.inj hv'
  have hr := h1.route
  unfold RelVeh.getRoute at hr
  obtain ⟨h2, h3⟩ := getRoute_some hr
  have h4 := h3 h1.out
  rw [e] at h2 h4
  dsimp only at h2 h4
  omega

theorem AccRun.frame [Env] {s s' : Sim F} {n0 n1 : Net F} {vs : VehicleSet F} (h : AccRun s n0 n1 vs s') :
    Frame s.links s'.links := by
  have : s'.links = n1.links := by rw [h.eq]
  rw [this]
  exact h.prep.frame.trans (SRel.mono h.stop.links fun _ _ _ => LinkSame.frame)

theorem AccRun.onLinks [Env] {s s' : Sim F} {n0 n1 : Net F} {vs : VehicleSet F} (h : AccRun s n0 n1 vs s') :
    SRel (fun _ l l' => l'.vehicles = l.vehicles) s.links s'.links := by
  have : s'.links = n1.links := by rw [h.eq]
  rw [this]
  refine h.prep.links.trans h.stop.links ?_
  rintro k l l' l'' ⟨b, rfl, -⟩ ⟨c, rfl, -⟩
  rfl

omit [Flt F] in
theorem LightOK.frame [Flt F] {links links' : LinkSet F} (h : Frame links links') {tl : TrafficLight F}
    (ht : LightOK strict links tl) : LightOK strict links' tl := ht.mono h.le.contains

theorem VehAccRun.mid [Env] {frozen : List Key} {n0 : Net F} {links : LinkSet F} {k : Key} {v v' : Vehicle F}
    (h : VehAccRun frozen n0 k v v') (hv : VehInv links k v) (h0 : n0.vehicles.get? k = some v.reset) :
    VehMid links k v' := by
  obtain ⟨a, w, rfl, hw, -⟩ := h.eq
  have : w ≤ 2 ∧ (w = 2 → v.entered + 1 ≤ v.route.length) := by
    rcases hw with rfl | hw
    · rw [hv.will]; omega
    · exact ⟨(hw.room h0).1, fun _ => (hw.room h0).2⟩
  exact ⟨hv.id, hv.drivable, hv.src, hv.dst, hv.entered, hv.enteredLe, this.1, this.2, hv.paths⟩

theorem AccRun.mid [Env] {s s' : Sim F} {n0 n1 : Net F} {vs : VehicleSet F} (h : AccRun s n0 n1 vs s')
    (hs : SimInv strict s) : SimMid strict s' := by
  have hv := h.vehicles
  have hl := h.frame
  refine ⟨hs.net.frame hl, hv.wf hs.vwf, ?_, ?_, ?_, ?_, ?_⟩
  · intro k v' hv'
    obtain ⟨v, hkv, hr⟩ := hv.bwd hv'
    obtain ⟨v0, hv0, rfl⟩ := h.prep.vehicles.fwd k v hkv
    exact (hr.mid (hs.veh k v hkv) hv0).mono hl.le
  · rw [member_iff]
    refine ((member_iff.1 hs.mem).onVehs (hv.mono ?_)).onLinks h.onLinks
    intro k v v' hr
    obtain ⟨a, w, rfl, -⟩ := hr.eq
    rfl
  · rw [h.eq]; exact hs.lwf
  · intro k tl htl
    rw [h.eq] at htl
    exact (hs.lights k tl htl).frame hl
  · intro c hc
    rw [h.eq] at hc
    rw [hl.contains, hl.contains]
    exact hs.conflicts c hc

/-! ## Lights -/

/-- The errors of a light. -/
def LightErr (e : Err) : Prop := e = .noPhase ∨ e = .shiftOverflow

namespace TrafficLight

omit [Flt F] in
theorem maskBit_spec (mask i : Nat) : Spec (maskBit mask i) LightErr fun _ => True := by
  unfold maskBit
  exact Spec.ite (fun _ => Spec.throw (.inr rfl)) fun _ => Spec.pure trivial

theorem phaseComplete_spec (mask : Nat) (d : F) : ∀ (i : Nat) (ms : List (Movement F)),
    Spec (phaseComplete mask d i ms) LightErr fun _ => True
  | _, [] => Spec.pure trivial
  | i, m :: ms => by
    unfold phaseComplete
    refine (maskBit_spec _ _).bind fun b _ => Spec.ite (fun _ => Spec.ite (fun _ => ?_) fun _ => Spec.pure trivial)
      fun _ => ?_
    all_goals exact phaseComplete_spec mask d (i + 1) ms

omit [Flt F] in
theorem applyMask_spec (mask : Nat) : ∀ (i : Nat) (ms : List (Movement F)),
    Spec (applyMask mask i ms) LightErr fun _ => True
  | _, [] => Spec.pure trivial
  | i, m :: ms => by
    unfold applyMask
    exact (maskBit_spec _ _).bind fun b _ => (applyMask_spec mask (i + 1) ms).bind fun _ _ => Spec.pure trivial

theorem computeNext_spec (all : List (Movement F)) : ∀ (i : Nat) (ms : List (Movement F)),
    Spec (computeNext all i ms) LightErr fun _ => True
  | _, [] => Spec.pure trivial
  | i, m :: ms => by
    unfold computeNext
    refine Spec.bind (P := fun _ => True) ?_ fun b _ =>
      (computeNext_spec all (i + 1) ms).bind fun _ _ => Spec.pure trivial
    unfold nextOf
    split
    · exact Spec.pure trivial
    · exact Spec.ite (fun _ => Spec.pure trivial) fun _ => Spec.pure trivial
    · exact Spec.pure trivial
    · refine Spec.bind (P := fun _ => True) ?_ fun b _ =>
        Spec.ite (fun _ => Spec.pure trivial) fun _ => Spec.pure trivial
      unfold canTurnGreen
      exact Spec.ite (fun _ => Spec.throw (.inr rfl)) fun _ => Spec.pure trivial
    · exact Spec.pure trivial

theorem step_errs (tl : TrafficLight F) (dt : F) : Spec (tl.step dt) LightErr fun _ => True := by
  unfold step
  refine Spec.bind (P := fun _ => True) ?_ fun tl _ => Spec.bind (P := fun _ => True) ?_ fun tl _ =>
    (computeNext_spec _ _ _).bind fun _ _ => Spec.pure trivial
  · unfold updatePhase
    refine Spec.ite (fun _ => Spec.pure trivial) fun _ => ?_
    split
    · exact Spec.throw (.inl rfl)
    · exact (phaseComplete_spec _ _ _ _).bind fun _ _ =>
        Spec.ite (fun _ => Spec.pure trivial) fun _ => Spec.pure trivial
  · unfold applyPhase
    split
    · exact Spec.throw (.inl rfl)
    · exact (applyMask_spec _ _ _).bind fun _ _ => Spec.pure trivial

end TrafficLight

/-- The movements that the links of a light are assigned to exist. -/
theorem LightRun.links_lt {tl : TrafficLight F} {h : Nat → List (F × LightState)} (hr : LightRun tl h) :
    ∀ p ∈ tl.links, p.1 < tl.movements.length := by
  induction hr with
  | new => simp [TrafficLight.new]
  | @addMovement tl h conflict amberTime redTime links _ ih =>
    intro p hp
    simp only [TrafficLight.addMovement, List.mem_append, List.mem_map, List.length_append, List.length_cons,
      List.length_nil] at hp ⊢
    rcases hp with hp | ⟨k, -, rfl⟩
    · have := ih p hp; omega
    · have := Nat.mod_le tl.movements.length 256
      dsimp only; omega
  | addPhase mask duration _ ih => exact ih
  | step dt hr hs ih =>
    obtain ⟨-, ph, -, -, -, hl, hm⟩ := TrafficLight.step_spec hs (hr.phase_lt_of_step hs)
    intro p hp
    rw [hl] at hp
    rw [hm]
    simpa [TrafficLight.activated_length] using ih p hp

theorem LightOK.step_spec {links : LinkSet F} {tl : TrafficLight F} (h : LightOK strict links tl) (dt : F) :
    Spec (tl.step dt) (StepErr strict div geo) fun tl' => tl.step dt = .ok tl' ∧ LightOK strict links tl' ∧
      tl'.links = tl.links ∧ tl'.movements.length = tl.movements.length := by
  obtain ⟨hist, hr⟩ := h.run
  constructor
  · intro tl' ht
    obtain ⟨-, ph, -, -, h3, hl, hm⟩ := TrafficLight.step_spec ht (hr.phase_lt_of_step ht)
    have hlen : tl'.movements.length = tl.movements.length := by
      rw [hm]; simp [TrafficLight.activated_length]
    exact ⟨ht, ⟨⟨_, hr.step dt ht⟩, by rw [hl]; exact h.valid, by rw [h3]; exact h.phases,
      by rw [hlen]; exact h.small⟩, hl, hlen⟩
  · intro e he
    by_cases hst : strict
    · obtain ⟨tl', h'⟩ := (C07_step_ok_iff hr dt).2 ⟨h.phases hst, h.small hst⟩
      rw [h'] at he; cases he
    · rcases (TrafficLight.step_errs tl dt).err he with rfl | rfl
      · exact hst
      · exact hst

theorem LightOK.getStates_spec {E : Err → Prop} {links : LinkSet F} {tl : TrafficLight F}
    (h : LightOK strict links tl) : Spec tl.getStates E fun ws => tl.getStates = .ok ws ∧
      (∀ p ∈ ws, links.contains p.1 = true) ∧
      List.Forall₂ (fun e w => w.1 = e.2 ∧ ∃ m, tl.movements[e.1]? = some m ∧ w.2 = TrafficLight.controlOf m.state)
        tl.links ws := by
  obtain ⟨hist, hr⟩ := h.run
  have : Spec tl.getStates E fun ws =>
      List.Forall₂ (fun e w => w.1 = e.2 ∧ ∃ m, tl.movements[e.1]? = some m ∧ w.2 = TrafficLight.controlOf m.state)
        tl.links ws := by
    unfold TrafficLight.getStates
    refine Spec.mapM (P := fun (e : Nat × Key) (w : Key × TrafficControl F) => w.1 = e.2 ∧ ∃ m, tl.movements[e.1]? = some m ∧
      w.2 = TrafficLight.controlOf m.state) fun p hp => ?_
    have hlt := hr.links_lt p hp
    obtain ⟨i, lk⟩ := p
    dsimp only at hlt ⊢
    rw [List.getElem?_eq_getElem hlt]
    exact Spec.pure ⟨rfl, _, rfl, rfl⟩
  refine this.post fun ws hws hf => And.intro hws (And.intro ?_ hf)
  intro p hp
  obtain ⟨e, he, h1, -⟩ := forall₂_right hf p hp
  rw [h1]; exact h.valid e he

/-- The effect of the lights on the links. -/
def writeControls (links : LinkSet F) (ws : List (Key × TrafficControl F)) : LinkSet F :=
  ws.foldl (fun links p => links.modify p.1 fun l => { l with control := p.2 }) links

omit [Flt F] in
theorem writeControls_spec {E : Err → Prop} {links : LinkSet F} : ∀ (ws : List (Key × TrafficControl F)),
    (∀ p ∈ ws, links.contains p.1 = true) →
    Spec (ws.foldlM (fun links p => updLink links p.1 fun l => { l with control := p.2 }) links) E fun links' =>
      links' = writeControls links ws
  | ws, h => by
    induction ws generalizing links with
    | nil => exact Spec.pure rfl
    | cons p ws ih =>
      rw [List.foldlM_cons]
      refine (updLink_spec (h p (by simp))).bind fun links' hl => ?_
      subst hl
      refine (ih fun q hq => ?_).mono (fun links' h' => h') (fun _ h => h)
      have := SRel.modify_one (R := fun _ _ _ => True) links p.1 (fun l => { l with control := p.2 })
        (fun _ _ _ => trivial) (fun _ _ => trivial)
      rw [this.contains]; exact h q (by simp [hq])

omit [Flt F] in
theorem writeControls_rel (links : LinkSet F) (ws : List (Key × TrafficControl F)) :
    SRel (fun k l l' => ∃ c, l' = { l with control := c } ∧ (c = l.control ∨ (k, c) ∈ ws)) links
      (writeControls links ws) := by
  induction ws generalizing links with
  | nil => exact SRel.refl fun k l _ => ⟨l.control, rfl, .inl rfl⟩
  | cons p ws ih =>
    have h1 : SRel (fun k l l' => ∃ c, l' = { l with control := c } ∧ (c = l.control ∨ (k, c) ∈ [p])) links
        (links.modify p.1 fun l => { l with control := p.2 }) :=
      SRel.modify_one _ _ _ (fun k l _ => ⟨l.control, rfl, .inl rfl⟩) fun l _ => ⟨p.2, rfl, .inr (by simp)⟩
    refine h1.trans (ih _) ?_
    rintro k l l' l'' ⟨c, rfl, hc⟩ ⟨c', rfl, hc'⟩
    refine ⟨c', rfl, ?_⟩
    rcases hc' with rfl | hc'
    · rcases hc with hc | hc
      · exact .inl hc
      · exact .inr (by simp at hc; simp [hc])
    · exact .inr (by simp [hc'])

omit [Flt F] in
theorem writeControls_append (links : LinkSet F) (a b : List (Key × TrafficControl F)) :
    writeControls links (a ++ b) = writeControls (writeControls links a) b := by
  simp [writeControls, List.foldl_append]

omit [Flt F] in
theorem writeControls_frame (links : LinkSet F) (ws : List (Key × TrafficControl F)) :
    Frame links (writeControls links ws) :=
  (writeControls_rel links ws).mono fun k l l' ⟨c, e, _⟩ => by
    subst e; exact ⟨rfl, rfl, rfl, rfl, rfl, rfl, rfl, rfl, rfl, fun h => h⟩

/-- The effect of the phase on lights and links: the lights have stepped, and the states of each light
in turn were written to its links. -/
structure LightRunAll (s : Sim F) (dt : F) (wss : List (List (Key × TrafficControl F))) (s' : Sim F) : Prop where
  lights : SRel (fun _ tl tl' => tl.step dt = .ok tl') s.lights s'.lights
  writes : List.Forall₂ (fun k ws => ∃ tl', s'.lights.get? k = some tl' ∧ tl'.getStates = .ok ws) s.lights.keys wss
  links : s'.links = writeControls s.links wss.flatten
  eq : s' = { s with links := s'.links, lights := s'.lights }

theorem updateLights_phase {s : Sim F} (hs : SimMid strict s) (dt : F) :
    Spec (s.updateLights dt) (StepErr strict div geo) fun s' => ∃ wss, LightRunAll s dt wss s' := by
  unfold Sim.updateLights
  refine Spec.bind (P := fun (p : SlotMap (TrafficLight F) × LinkSet F) => ∃ done wss,
    s.lights.keys = done ++ [] ∧
    SRel (fun k tl tl' => (k ∈ ([] : List Key) → tl' = tl) ∧ (k ∉ ([] : List Key) → tl.step dt = .ok tl')) s.lights p.1 ∧
    List.Forall₂ (fun k ws => ∃ tl tl', s.lights.get? k = some tl ∧ tl.step dt = .ok tl' ∧ tl'.getStates = .ok ws)
      done wss ∧ p.2 = writeControls s.links wss.flatten) ?_ ?_
  · refine Spec.foldlM' (I := fun rest (p : SlotMap (TrafficLight F) × LinkSet F) => ∃ done wss,
      s.lights.keys = done ++ rest ∧
      SRel (fun k tl tl' => (k ∈ rest → tl' = tl) ∧ (k ∉ rest → tl.step dt = .ok tl')) s.lights p.1 ∧
      List.Forall₂ (fun k ws => ∃ tl tl', s.lights.get? k = some tl ∧ tl.step dt = .ok tl' ∧ tl'.getStates = .ok ws)
        done wss ∧ p.2 = writeControls s.links wss.flatten) ?_ ?_
    · rintro ⟨lights, links⟩ k rest hsuf ⟨done, wss, hk, hr, hf, rfl⟩
      have hnd : (k :: rest).Nodup := s.lights.nodup_keys.sublist hsuf.sublist
      rw [List.nodup_cons] at hnd
      obtain ⟨tl, htl⟩ := SlotMap.mem_keys.1 (hsuf.subset (by simp) : k ∈ s.lights.keys)
      obtain ⟨tl', htl', h1, -⟩ := hr.fwd k tl htl
      obtain rfl := h1 (by simp)
      unfold Sim.updateLight
      dsimp only at htl' ⊢
      rw [htl']
      have hok := hs.lights k tl' htl
      refine (hok.step_spec dt).bind fun t2 ⟨hstep, hok2, _, _⟩ => ?_
      refine hok2.getStates_spec.bind fun ws ⟨hws, hval, _⟩ => ?_
      refine (writeControls_spec ws fun p hp => ?_).bind fun links' hl' => Spec.pure ?_
      · rw [(writeControls_rel s.links wss.flatten).contains]; exact hval p hp
      · subst hl'
        refine ⟨done ++ [k], wss ++ [ws], by simp [hk], ?_, ?_, ?_⟩
        · refine ⟨by rw [SlotMap.keys_modify, hr.keys], fun hw => (hr.wf hw).modify k _,
            fun k' hk' => (hr.issued k' hk').modify k _, fun j u hj => ?_⟩
          by_cases e : j = k
          · subst e
            rw [htl] at hj; cases hj
            exact ⟨t2, by rw [SlotMap.get?_modify_self, htl']; rfl, fun h => absurd h hnd.1, fun _ => hstep⟩
          · obtain ⟨u', hu', h3, h4⟩ := hr.fwd j u hj
            exact ⟨u', by rw [SlotMap.get?_modify_ne _ _ e]; exact hu', fun h => h3 (by simp [h]),
              fun h => h4 (by simp [e, h])⟩
        · exact List.rel_append hf (List.Forall₂.cons ⟨tl', t2, htl, hstep, hws⟩ .nil)
        · simp [writeControls_append]
    · exact ⟨[], [], rfl, SRel.refl fun k v hk => ⟨fun _ => rfl, fun h => absurd (SlotMap.mem_keys.2 ⟨v, hk⟩) h⟩,
        .nil, rfl⟩
  · rintro ⟨lights, links⟩ ⟨done, wss, hd, hr, hf, hl⟩
    rw [List.append_nil] at hd
    subst hd
    have hr' := hr.mono (S := fun _ tl tl' => tl.step dt = .ok tl') fun k a b h => h.2 (by simp)
    refine Spec.pure ⟨wss, hr', ?_, hl, rfl⟩
    refine hf.imp ?_
    rintro k ws ⟨tl, tl', h1, h2, h3⟩
    obtain ⟨t2, ht2, e⟩ := hr'.fwd k tl h1
    rw [h2] at e; cases e
    exact ⟨tl', ht2, h3⟩

theorem LightRunAll.mid {s s' : Sim F} {dt : F} {wss : List (List (Key × TrafficControl F))}
    (h : LightRunAll s dt wss s') (hs : SimMid strict s) : SimMid strict s' := by
  have hf : Frame s.links s'.links := by rw [h.links]; exact writeControls_frame _ _
  have ev : s'.vehicles = s.vehicles := by rw [h.eq]
  have ec : s'.conflicts = s.conflicts := by rw [h.eq]
  refine ⟨hs.net.frame hf, by rw [ev]; exact hs.vwf, ?_, ?_, h.lights.wf hs.lwf, ?_, ?_⟩
  · rw [ev]; exact fun k v hv => (hs.veh k v hv).mono hf.le
  · rw [ev, member_iff]
    refine (member_iff.1 hs.mem).onLinks ?_
    rw [h.links]
    refine (writeControls_rel _ _).mono ?_
    rintro k l l' ⟨c, rfl, -⟩; rfl
  · intro k tl' htl'
    obtain ⟨tl, htl, hst⟩ := h.lights.bwd htl'
    exact (((hs.lights k tl htl).step_spec (div := True) (geo := True) dt).ok hst).2.1.frame hf
  · rw [ec]; intro c hc
    rw [hf.contains, hf.contains]; exact hs.conflicts c hc

/-! ## Motion -/

/-- The effect of the motion on a vehicle; the sequence number is at least `lo`. -/
def Moved (dt : F) (lo : Nat) (_ : Key) (v v' : Vehicle F) : Prop :=
  ∃ sq sq', v.integrate dt sq = .ok (v', sq') ∧ lo ≤ sq

omit [Flt F] in
theorem integrateQueue_spec {E : Err → Prop} {v : Vehicle F} (h : v.willQueueOrEnter ≤ 2) (sq : Nat) :
    Spec (v.integrateQueue sq) E fun p => sq ≤ p.2 ∧ p.2 ≤ sq + 1 ∧ ∃ q e,
      p.1 = { v with queued := q, entered := e, willQueueOrEnter := 0 } ∧ (e = v.entered ∧ v.willQueueOrEnter ≠ 2 ∨ e = v.entered + 1 ∧ v.willQueueOrEnter = 2) := by
  unfold Vehicle.integrateQueue
  have h3 : v.willQueueOrEnter = 0 ∨ v.willQueueOrEnter = 1 ∨ v.willQueueOrEnter = 2 := by omega
  rcases h3 with h0 | h0 | h0 <;> rw [h0]
  · exact Spec.pure ⟨le_rfl, by simp, _, _, rfl, .inl ⟨rfl, by omega⟩⟩
  · exact Spec.pure ⟨by simp, le_rfl, _, _, rfl, .inl ⟨rfl, by omega⟩⟩
  · exact Spec.pure ⟨le_rfl, by simp, _, _, rfl, .inr ⟨rfl, by omega⟩⟩

theorem integrateMotion_fields (v : Vehicle F) (dt : F) : ∃ pos vel lc cnt,
    v.integrateMotion dt = { v with pos := pos, vel := vel, laneChange := lc, stopCnt := cnt } := by
  unfold Vehicle.integrateMotion Vehicle.updateStopCount
  dsimp only
  split <;> exact ⟨_, _, _, _, rfl⟩

theorem integrate_spec {E : Err → Prop} {v : Vehicle F} (h : v.willQueueOrEnter ≤ 2) (dt : F) (sq : Nat) :
    Spec (v.integrate dt sq) E fun p => v.integrate dt sq = .ok p ∧ sq ≤ p.2 := by
  have : Spec (v.integrate dt sq) E fun p => sq ≤ p.2 := by
    unfold Vehicle.integrate
    exact (integrateQueue_spec h sq).bind fun p hp => Spec.pure hp.1
  exact this.post fun p hp h => ⟨hp, h⟩

theorem VehMid.moved {links : LinkSet F} {k : Key} {v v' : Vehicle F} {dt : F} {lo : Nat}
    (h : VehMid links k v) (hm : Moved dt lo k v v') : VehInv links k v' := by
  obtain ⟨sq, sq', hi, -⟩ := hm
  unfold Vehicle.integrate at hi
  rw [M_bind_ok] at hi
  obtain ⟨p, hp, hi⟩ := hi
  rw [M_pure_ok] at hi
  cases hi
  obtain ⟨-, -, q, e, he, hw⟩ := (integrateQueue_spec (E := fun _ => True) h.will sq).ok hp
  obtain ⟨pos, vel, lc, cnt, hf⟩ := integrateMotion_fields p.1 dt
  rw [hf, he]
  have h1 := h.entered
  have h2 := h.enteredLe
  have h3 := h.willEnter
  refine ⟨h.id, h.drivable, h.src, h.dst, ?_, ?_, rfl, h.paths⟩
  · dsimp only; omega
  · dsimp only; omega

theorem Moved.linkId {k : Key} {v v' : Vehicle F} {dt : F} {lo : Nat} (hw : v.willQueueOrEnter ≤ 2)
    (hm : Moved dt lo k v v') : v'.route = v.route := by
  obtain ⟨sq, sq', hi, -⟩ := hm
  unfold Vehicle.integrate at hi
  rw [M_bind_ok] at hi
  obtain ⟨p, hp, hi⟩ := hi
  rw [M_pure_ok] at hi
  cases hi
  obtain ⟨-, -, q, e, he, -⟩ := (integrateQueue_spec (E := fun _ => True) hw sq).ok hp
  obtain ⟨pos, vel, lc, cnt, hf⟩ := integrateMotion_fields p.1 dt
  rw [hf, he]

/-- The effect of the phase. -/
structure MoveRun (s : Sim F) (dt : F) (s' : Sim F) : Prop where
  vehicles : SRel (Moved dt s.seq) s.vehicles s'.vehicles
  run : s.vehicles.keys.foldlM (Sim.integrateOne dt) (s.vehicles, s.seq) = .ok (s'.vehicles, s'.seq)
  seq : s.seq ≤ s'.seq
  eq : s' = { s with vehicles := s'.vehicles, seq := s'.seq }

theorem integrate_phase {E : Err → Prop} {s : Sim F} (hs : SimMid strict s) (dt : F) :
    Spec (s.integrate dt) E (MoveRun s dt) := by
  unfold Sim.integrate
  have : Spec (s.vehicles.keys.foldlM (Sim.integrateOne dt) (s.vehicles, s.seq)) E fun p =>
      s.seq ≤ p.2 ∧ SRel (Moved dt s.seq) s.vehicles p.1 := by
    refine foldlM_keys (fun p : VehicleSet F × Nat => p.1) (J := fun p => s.seq ≤ p.2) ?_ rfl le_rfl
    intro p k v hle _ hv hv'
    unfold Sim.integrateOne
    refine (getVeh_spec (contains_of_get hv')).bind fun v2 hv2 => ?_
    rw [hv'] at hv2; cases hv2
    refine (integrate_spec (hs.veh k v hv).will dt p.2).bind fun q hq => Spec.pure ⟨?_, q.1, rfl, p.2, q.2, hq.1, hle⟩
    exact le_trans hle hq.2
  refine (this.post fun p hp h => And.intro hp h).bind ?_
  rintro ⟨vs, seq⟩ ⟨hrun, hle, hr⟩
  exact Spec.pure ⟨hr, hrun, hle, rfl⟩

theorem MoveRun.inv {s s' : Sim F} {dt : F} (h : MoveRun s dt s') (hs : SimMid strict s) : SimInv strict s' := by
  have el : s'.links = s.links := by rw [h.eq]
  have et : s'.lights = s.lights := by rw [h.eq]
  have ec : s'.conflicts = s.conflicts := by rw [h.eq]
  refine ⟨by rw [el]; exact hs.net, h.vehicles.wf hs.vwf, ?_, ?_, by rw [et]; exact hs.lwf, by rw [et, el]; exact hs.lights,
    by rw [el, ec]; exact hs.conflicts⟩
  · intro k v' hv'
    obtain ⟨v, hv, hr⟩ := h.vehicles.bwd hv'
    rw [el]
    exact (hs.veh k v hv).moved hr
  · rw [el, member_iff]
    have : SRel (fun k v v' => Moved dt s.seq k v v' ∧ s.vehicles.get? k = some v) s.vehicles s'.vehicles :=
      ⟨h.vehicles.keys, h.vehicles.wf, h.vehicles.issued, fun k v hv => by
        obtain ⟨v', h1, h2⟩ := h.vehicles.fwd k v hv; exact ⟨v', h1, h2, hv⟩⟩
    refine (member_iff.1 hs.mem).onVehs (this.mono fun k v v' hr => ?_)
    unfold Vehicle.linkId
    rw [hr.1.linkId (hs.veh k v hr.2).will]

/-! ## Coordinates -/

/-- Only the world coordinates of the vehicle changed. -/
def Placed (v v' : Vehicle F) : Prop :=
  ∃ p d r c, v' = { v with worldPos := p, worldDir := d, rearLats := r, rearCoords := c }

theorem updateCoords_spec {E : Err → Prop} {links : LinkSet F} {v : Vehicle F}
    (hv : ∃ k l, v.route.head? = some k ∧ links.get? k = some l ∧ l.curve.segments ≠ []) :
    Spec (v.updateCoords links) E (Placed v) := by
  obtain ⟨k, l, hk, hl, hseg⟩ := hv
  unfold Vehicle.updateCoords
  obtain ⟨_, _, _, _, _, _, pos, _, _, route⟩ := v
  cases route with
  | nil => cases hk
  | cons k' rest =>
    cases hk
    refine (getLink_spec (contains_of_get hl)).bind fun l' hl' => ?_
    rw [hl] at hl'; cases hl'
    exact (l.curve.sampleCentre_spec hseg pos).bind fun smp _ => Spec.pure ⟨_, _, _, _, rfl⟩

/-- The effect of the phase. -/
structure PlaceRun (s s' : Sim F) : Prop where
  vehicles : SRel (fun _ v v' => v.updateCoords s.links = .ok v' ∧ Placed v v') s.vehicles s'.vehicles
  eq : s' = { s with vehicles := s'.vehicles }

omit [Flt F] in
theorem VehInv.head {links : LinkSet F} {k : Key} {v : Vehicle F} (hN : NetInv strict links) (h : VehInv links k v) :
    ∃ k l, v.route.head? = some k ∧ links.get? k = some l ∧ l.curve.segments ≠ [] := by
  have h1 := h.src
  have h2 : v.pathfind.src ∈ v.route := List.mem_of_mem_head? h1
  obtain ⟨l, hl⟩ := get_of_contains (h.drivable.valid _ h2)
  exact ⟨_, l, h1, hl, (hN.link _ l hl).segs⟩

theorem updateVehicleCoords_phase {E : Err → Prop} {s : Sim F} (hs : SimInv strict s) :
    Spec s.updateVehicleCoords E (PlaceRun s) := by
  unfold Sim.updateVehicleCoords
  refine Spec.bind (P := fun vs => SRel (fun _ v v' => v.updateCoords s.links = .ok v' ∧ Placed v v') s.vehicles vs) ?_ ?_
  · refine (foldlM_keys (fun vs : VehicleSet F => vs) (J := fun _ => True) ?_ rfl trivial).mono (fun _ h => h.2)
      (fun _ h => h)
    intro vs k v _ _ hv hv'
    unfold Sim.updateCoordsOne
    refine (getVeh_spec (contains_of_get hv')).bind fun v2 hv2 => ?_
    rw [hv'] at hv2; cases hv2
    refine ((updateCoords_spec ((hs.veh k v hv).head hs.net)).post fun w hw h => And.intro hw h).bind fun w hw =>
      Spec.pure ⟨trivial, w, rfl, hw⟩
  · intro vs hvs
    exact Spec.pure ⟨hvs, rfl⟩

omit [Flt F] in
theorem VehInv.placed {links : LinkSet F} {k : Key} {v v' : Vehicle F} (h : VehInv links k v) (hp : Placed v v') :
    VehInv links k v' := by
  obtain ⟨p, d, r, c, rfl⟩ := hp
  exact ⟨h.id, h.drivable, h.src, h.dst, h.entered, h.enteredLe, h.will, h.paths⟩

theorem PlaceRun.inv {s s' : Sim F} (h : PlaceRun s s') (hs : SimInv strict s) : SimInv strict s' := by
  have el : s'.links = s.links := by rw [h.eq]
  have et : s'.lights = s.lights := by rw [h.eq]
  have ec : s'.conflicts = s.conflicts := by rw [h.eq]
  refine ⟨by rw [el]; exact hs.net, h.vehicles.wf hs.vwf, ?_, ?_, by rw [et]; exact hs.lwf, by rw [et, el]; exact hs.lights,
    by rw [el, ec]; exact hs.conflicts⟩
  · intro k v' hv'
    obtain ⟨v, hv, hr⟩ := h.vehicles.bwd hv'
    rw [el]
    exact (hs.veh k v hv).placed hr.2
  · rw [el, member_iff]
    refine (member_iff.1 hs.mem).onVehs (h.vehicles.mono fun k v v' hr => ?_)
    obtain ⟨p, d, r, c, rfl⟩ := hr.2
    rfl

end

end TrafficSim
