import Verif.Lemmas.Traverse
import Verif.Lemmas.Curve

/-! # The acceleration phase of a step -/

namespace TrafficSim

section
variable {F : Type} [Flt F]

/-- The vehicles differ at most in acceleration and entry decision. -/
def VehSame (v v' : Vehicle F) : Prop :=
  ∃ a w, v' = { v with acc := { v.acc with acc := a }, willQueueOrEnter := w }

/-- The links differ at most in the cached conflict. -/
def LinkSame (l l' : Link F) : Prop :=
  ∃ c, l' = { l with lastConflict := c } ∧ (l.lastConflict ≤ l.conflicts.length → c ≤ l.conflicts.length)

/-- The networks differ at most in cached conflicts, accelerations and entry decisions. -/
structure NetSame (n n' : Net F) : Prop where
  links : SRel (fun _ l l' => LinkSame l l') n.links n'.links
  vehicles : SRel (fun _ v v' => VehSame v v') n.vehicles n'.vehicles

/-- At the end of link `lk` the vehicle `r` wants to go on to the link `j`, into which it has not been
admitted yet. -/
structure Wants (n : Net F) (lk : Key) (l : Link F) (r : RelVeh F) (j : Key) (st : RouteState)
    (next : Link F) : Prop where
  here : n.links.get? lk = some l
  seen : Visited n lk l.length r
  route : r.getRoute 1 = some (j, st)
  out : st ≠ .entered
  next : n.links.get? j = some next

/-- The reasons for letting vehicle `k` enter (2) or queue (1). -/
inductive Decision [Env] (n : Net F) (k : Key) : Nat → Prop
  | enterOpen {lk l r j st next} : Wants n lk l r j st next → r.key = k → next.control = .open_ →
      r.canStop (-5.0) = false → Decision n k 2
  | enterYield {lk l r j st next d m p f} (last last' : Nat) : Wants n lk l r j st next → r.key = k →
      next.control = .yield_ d m p → st = .queuedAt f → last ≤ next.conflicts.length →
      Link.canEnter n next last (r.offset l.length) f p = .ok (true, last') → Decision n k 2
  | queue {lk l r j st next d m p} : Wants n lk l r j st next → r.key = k →
      next.control = .yield_ d m p → st = .notEntered → -d < r.posFront →
      (m = true → r.vehicle.hasStopped = true) → Decision n k 1

/-- A decision that is justified in a network that differs only in irrelevant fields. -/
def Decided [Env] (n0 : Net F) (k : Key) (w : Nat) : Prop := ∃ n, NetSame n0 n ∧ Decision n k w

/-- The vehicle was slowed down by the accelerations `as` and possibly given a decision. -/
def VehAcc (D : Key → Nat → Prop) (k : Key) (v v' : Vehicle F) : Prop :=
  ∃ (as : List F) (w : Nat),
    v' = { v with acc := { v.acc with acc := as.foldl fmin v.acc.acc }, willQueueOrEnter := w } ∧
    (w = v.willQueueOrEnter ∨ D k w)

/-- The effect of the stop lines. -/
structure NetAcc (D : Key → Nat → Prop) (n n' : Net F) : Prop where
  links : SRel (fun _ l l' => LinkSame l l') n.links n'.links
  vehicles : SRel (VehAcc D) n.vehicles n'.vehicles

/-- The vehicles were slowed down. -/
abbrev VSlow (vs vs' : VehicleSet F) : Prop := SRel (VehAcc fun _ _ => False) vs vs'

variable {D : Key → Nat → Prop}

theorem VehAcc.rfl' {k : Key} {v : Vehicle F} : VehAcc D k v v := ⟨[], _, rfl, .inl rfl⟩

theorem VehAcc.trans {k : Key} {v v' v'' : Vehicle F} (h : VehAcc D k v v') (h' : VehAcc D k v' v'') :
    VehAcc D k v v'' := by
  obtain ⟨as, w, rfl, hw⟩ := h
  obtain ⟨as', w', rfl, hw'⟩ := h'
  refine ⟨as ++ as', w', by rw [List.foldl_append], ?_⟩
  rcases hw' with rfl | hw'
  · exact hw
  · exact .inr hw'

theorem VehAcc.mono {D' : Key → Nat → Prop} (hD : ∀ k w, D k w → D' k w) {k : Key} {v v' : Vehicle F}
    (h : VehAcc D k v v') : VehAcc D' k v v' := by
  obtain ⟨as, w, h1, h2⟩ := h
  exact ⟨as, w, h1, h2.imp id (hD k w)⟩

theorem VehAcc.same {k : Key} {v v' : Vehicle F} (h : VehAcc D k v v') : VehSame v v' := by
  obtain ⟨as, w, h, -⟩ := h; exact ⟨_, w, h⟩

theorem VehAcc.fmin {k : Key} {v v' : Vehicle F} (h : VehAcc D k v v') (a : F) :
    VehAcc D k v { v' with acc := { v'.acc with acc := TrafficSim.fmin v'.acc.acc a } } :=
  h.trans ⟨[a], v'.willQueueOrEnter, rfl, .inl rfl⟩

theorem VehAcc.stopAtLine {k : Key} {v v' : Vehicle F} (h : VehAcc D k v v') (p : F) :
    VehAcc D k v (v'.stopAtLine p) := h.fmin _

theorem VehAcc.followVehicle {k : Key} {v v' : Vehicle F} (h : VehAcc D k v v') (p u : F) :
    VehAcc D k v (v'.followVehicle p u) := h.fmin _

theorem VehAcc.followObstacle {k : Key} {v v' : Vehicle F} (h : VehAcc D k v v') (c : V2 F × V2 F) (u : F) :
    VehAcc D k v (v'.followObstacle c u) := h.fmin _

theorem VehAcc.applyCurrentSpeedLimit {k : Key} {v v' : Vehicle F} (h : VehAcc D k v v') (s : F) :
    VehAcc D k v (v'.applyCurrentSpeedLimit s) := h.fmin _

theorem VehAcc.applySpeedLimit {k : Key} {v v' : Vehicle F} (h : VehAcc D k v v') (s p : F) :
    VehAcc D k v (v'.applySpeedLimit s p) := by
  unfold Vehicle.applySpeedLimit AccelerationModel.applySpeedLimit
  split
  · exact h.fmin _
  · dsimp only
    split
    · exact h.fmin _
    · exact h

theorem VehAcc.decide {k : Key} {v v' : Vehicle F} (h : VehAcc D k v v') {w : Nat} (hw : D k w) :
    VehAcc D k v { v' with willQueueOrEnter := w } :=
  h.trans ⟨[], w, rfl, .inr hw⟩

theorem VSlow.rfl' {vs : VehicleSet F} : VSlow vs vs := SRel.refl fun _ _ _ => VehAcc.rfl'

theorem VSlow.trans {vs vs' vs'' : VehicleSet F} (h : VSlow vs vs') (h' : VSlow vs' vs'') : VSlow vs vs'' :=
  SRel.trans h h' fun _ _ _ _ => VehAcc.trans

theorem VSlow.modify {vs vs' : VehicleSet F} (h : VSlow vs vs') (k : Key) (f : Vehicle F → Vehicle F)
    (hf : ∀ v v', VehAcc (fun _ _ => False) k v v' → VehAcc (fun _ _ => False) k v (f v')) :
    VSlow vs (vs'.modify k f) :=
  SRel.modify h k f fun _ _ _ _ hr => hf _ _ hr

omit [Flt F] in
theorem LinkSame.rfl' {l : Link F} : LinkSame l l := ⟨_, rfl, id⟩

omit [Flt F] in
theorem LinkSame.trans {l l' l'' : Link F} (h : LinkSame l l') (h' : LinkSame l' l'') : LinkSame l l'' := by
  obtain ⟨c, rfl, h1⟩ := h
  obtain ⟨c', rfl, h2⟩ := h'
  exact ⟨c', rfl, fun h => h2 (h1 h)⟩

omit [Flt F] in
theorem VehSame.trans {v v' v'' : Vehicle F} (h : VehSame v v') (h' : VehSame v' v'') : VehSame v v'' := by
  obtain ⟨a, w, rfl⟩ := h
  obtain ⟨a', w', rfl⟩ := h'
  exact ⟨a', w', rfl⟩

omit [Flt F] in
theorem NetSame.rfl' {n : Net F} : NetSame n n :=
  ⟨SRel.refl fun _ _ _ => LinkSame.rfl', SRel.refl fun _ _ _ => ⟨_, _, rfl⟩⟩

omit [Flt F] in
theorem NetSame.trans {n n' n'' : Net F} (h : NetSame n n') (h' : NetSame n' n'') : NetSame n n'' :=
  ⟨SRel.trans h.links h'.links fun _ _ _ _ => LinkSame.trans,
   SRel.trans h.vehicles h'.vehicles fun _ _ _ _ => VehSame.trans⟩

theorem NetAcc.rfl' {n : Net F} : NetAcc D n n :=
  ⟨SRel.refl fun _ _ _ => LinkSame.rfl', SRel.refl fun _ _ _ => VehAcc.rfl'⟩

theorem NetAcc.trans {n n' n'' : Net F} (h : NetAcc D n n') (h' : NetAcc D n' n'') : NetAcc D n n'' :=
  ⟨SRel.trans h.links h'.links fun _ _ _ _ => LinkSame.trans,
   SRel.trans h.vehicles h'.vehicles fun _ _ _ _ => VehAcc.trans⟩

theorem NetAcc.same {n n' : Net F} (h : NetAcc D n n') : NetSame n n' :=
  ⟨h.links, SRel.mono h.vehicles fun _ _ _ => VehAcc.same⟩

theorem VSlow.same {links : LinkSet F} {vs vs' : VehicleSet F} (h : VSlow vs vs') :
    NetSame ⟨links, vs⟩ ⟨links, vs'⟩ :=
  ⟨SRel.refl fun _ _ _ => LinkSame.rfl', SRel.mono h fun _ _ _ => VehAcc.same⟩

omit [Flt F] in
theorem NetOK.same {n n' : Net F} (hn : NetOK n) (h : NetSame n n') : NetOK n' := by
  refine ⟨?_, ?_, ?_, ?_, ?_⟩
  · intro k l' hl'
    obtain ⟨l, hl, c, rfl, -⟩ := h.links.bwd hl'
    exact hn.ids k l hl
  · intro k l' hl' j hj
    obtain ⟨l, hl, c, rfl, -⟩ := h.links.bwd hl'
    rw [h.links.contains]; exact hn.ins k l hl j hj
  · intro k l' hl' j hj
    obtain ⟨l, hl, c, rfl, -⟩ := h.links.bwd hl'
    rw [h.vehicles.contains]; exact hn.vehs k l hl j hj
  · intro k l' hl' j hj
    obtain ⟨l, hl, c, rfl, -⟩ := h.links.bwd hl'
    rw [h.links.contains]; exact hn.confs k l hl j hj
  · intro k v' hv' j hj
    obtain ⟨v, hv, a, w, rfl⟩ := h.vehicles.bwd hv'
    rw [h.links.contains]; exact hn.routes k v hv j hj

omit [Flt F] in
theorem getRoute_mem {v : Vehicle F} {i : Nat} {k : Key} {st : RouteState}
    (h : v.getRoute i = some (k, st)) : k ∈ v.route := by
  unfold Vehicle.getRoute at h
  cases hr : v.route[i]? with
  | none => simp [hr] at h
  | some k' =>
    simp [hr] at h
    rw [← h.1]
    exact List.mem_of_getElem? hr

omit [Flt F] in
theorem LinkSame.frame {l l' : Link F} (h : LinkSame l l') : LinkFrame l l' := by
  obtain ⟨c, rfl, hc⟩ := h
  exact ⟨rfl, rfl, rfl, rfl, rfl, rfl, rfl, rfl, rfl, hc⟩

/-! ## Stop lines -/

theorem stoplineFn_spec [Env] {E : Err → Prop} {n0 n s : Net F} (hn : NetOK n) (h0 : NetSame n0 n)
    (hlast : ∀ k l, n.links.get? k = some l → l.lastConflict ≤ l.conflicts.length)
    (hE : E .diverges) {lk : Key} {l : Link F} (hl : n.links.get? lk = some l) (r : RelVeh F)
    (hr : Visited n lk l.length r) (hs : NetAcc (Decided n0) n s) :
    Spec (Link.stoplineFn n l r s) E fun p => NetAcc (Decided n0) n p.1 := by
  have slow : ∀ {s : Net F} (f : Vehicle F → Vehicle F), NetAcc (Decided n0) n s →
      (∀ v v', VehAcc (Decided n0) r.key v v' → VehAcc (Decided n0) r.key v (f v')) →
      NetAcc (Decided n0) n { s with vehicles := s.vehicles.modify r.key f } := fun f h hf =>
    ⟨h.links, SRel.modify h.vehicles r.key f fun _ _ _ _ hr => hf _ _ hr⟩
  unfold Link.stoplineFn
  split
  · exact Spec.pure hs
  · rename_i k state hne hst
    have hout : state ≠ .entered := by rintro rfl; exact hne rfl
    have hk : n.links.contains k = true := hn.routes _ _ hr.veh k (getRoute_mem hst)
    refine (getLink_spec hk).bind fun next hnext => ?_
    have W : Wants n lk l r k state next := ⟨hl, hr, hst, hout, hnext⟩
    cases hc : next.control with
    | open_ =>
      refine Spec.ite (fun h => Spec.pure ?_) (fun _ => Spec.pure hs)
      exact slow _ hs fun v v' hv => hv.decide ⟨n, h0, .enterOpen W rfl hc (by simpa using h)⟩
    | yield_ d m p =>
      cases state with
      | notEntered =>
        have hq : NetAcc (Decided n0) n ⟨s.links, if (decide (-d < r.posFront) &&
            (!m || r.vehicle.hasStopped)) = true then r.queueLink s.vehicles else s.vehicles⟩ := by
          split
          · rename_i h
            simp only [Bool.and_eq_true, decide_eq_true_eq, Bool.or_eq_true, Bool.not_eq_true'] at h
            exact slow _ hs fun v v' hv => hv.decide ⟨n, h0, .queue W rfl hc rfl h.1 (by
              intro hm; simpa [hm] using h.2)⟩
          · exact hs
        exact Spec.pure (slow (s := ⟨s.links, if (decide (-d < r.posFront) &&
            (!m || r.vehicle.hasStopped)) = true then r.queueLink s.vehicles else s.vehicles⟩) _ hq
          fun v v' hv => hv.stopAtLine _)
      | queuedAt f =>
        have hk' : s.links.contains k = true := by rw [hs.links.contains]; exact hk
        refine (getLink_spec hk').bind fun cur hcur => ?_
        obtain ⟨next', hnext', c, rfl, hcl⟩ := hs.links.bwd hcur
        rw [hnext] at hnext'; cases hnext'
        have hc' := hcl (hlast k next hnext)
        refine ((canEnter_spec hn hE hnext c hc' (r.offset l.length) f p).post
          (Q' := fun x => x.2 ≤ next.conflicts.length ∧
            Link.canEnter n next c (r.offset l.length) f p = .ok x) fun a ha hq => ⟨hq, ha⟩).bind ?_
        rintro ⟨ok, last⟩ ⟨hle, hce⟩
        have hlinks : NetAcc (Decided n0) n
            { s with links := s.links.modify k fun l => { l with lastConflict := last } } :=
          ⟨SRel.modify hs.links k _ fun l l' hl1 hl' hr' => by
            rw [hnext] at hl1; cases hl1
            obtain ⟨c, rfl, hc⟩ := hr'
            exact ⟨last, rfl, fun _ => hle⟩, hs.vehicles⟩
        refine Spec.ite (fun h => Spec.pure ?_) (fun _ => Spec.pure ?_)
        · refine slow (s := ⟨s.links.modify k fun l => { l with lastConflict := last }, s.vehicles⟩) _ hlinks
            fun v v' hv => hv.decide ⟨n, h0, .enterYield c last W rfl hc rfl hc' ?_⟩
          rw [hce, h]
        · exact slow (s := ⟨s.links.modify k fun l => { l with lastConflict := last }, s.vehicles⟩) _ hlinks
            fun v v' hv => hv.stopAtLine _
      | entered => exact absurd rfl hout
    | closed => exact Spec.pure (slow _ hs fun v v' hv => hv.stopAtLine _)
  · refine Spec.ite (fun _ => Spec.pure hs) (fun _ => Spec.pure ?_)
    exact slow _ hs fun v v' hv => hv.stopAtLine _

theorem applyStoplines_spec [Env] {E : Err → Prop} {n0 n : Net F} (hn : NetOK n) (h0 : NetSame n0 n)
    (hlast : ∀ k l, n.links.get? k = some l → l.lastConflict ≤ l.conflicts.length)
    (hE : E .diverges) {k : Key} (hk : n.links.contains k = true) :
    Spec (Link.applyStoplines n k) E fun n' => NetAcc (Decided n0) n n' := by
  unfold Link.applyStoplines
  refine (getLink_spec hk).bind fun l hl => ?_
  rw [hn.ids k l hl]
  exact processVehicles_spec hn hE (fun r s hr hs => stoplineFn_spec hn h0 hlast hE hl r hr hs) _ l 0 k
    l.length 0 n hl .here NetAcc.rfl'

/-! ## Other accelerations -/

theorem followWindows_spec {E : Err → Prop} (limit : F) : ∀ (ks : List Key) (vs : VehicleSet F),
    (∀ k ∈ ks, vs.contains k = true) → Spec (Link.followWindows limit ks vs) E fun vs' => VSlow vs vs'
  | [], vs, _ => Spec.pure VSlow.rfl'
  | [k], vs, h => by
    unfold Link.followWindows
    refine (updVeh_spec (h k (by simp))).mono (fun vs' hvs' => ?_) (fun _ => id)
    rw [hvs']
    exact VSlow.rfl'.modify k _ fun v v' hv => hv.applyCurrentSpeedLimit _
  | k :: k' :: ks, vs, h => by
    unfold Link.followWindows
    refine (getVeh_spec (h k' (by simp))).bind fun ld hld => ?_
    refine (updVeh_spec (h k (by simp))).bind fun vs' hvs' => ?_
    have h1 : VSlow vs vs' := by
      rw [hvs']
      exact VSlow.rfl'.modify k _ fun v v' hv => (hv.followVehicle _ _).applyCurrentSpeedLimit _
    refine (followWindows_spec limit (k' :: ks) vs' fun j hj => ?_).mono (fun vs'' h2 => h1.trans h2) (fun _ => id)
    rw [h1.contains]; exact h j (List.mem_cons_of_mem k hj)

theorem enteringFn_spec {E : Err → Prop} {vs0 vs : VehicleSet F} {l : Link F}
    (hl : ∀ k ∈ l.vehicles, vs0.contains k = true) (r : RelVeh F) (h : VSlow vs0 vs) :
    Spec (Link.enteringFn l r vs) E fun p => VSlow vs0 p.1 := by
  have h1 : VSlow vs0 (r.applySpeedLimit l.speedLimit 0.0 vs) :=
    h.modify _ _ fun v v' hv => hv.applySpeedLimit _ _
  unfold Link.enteringFn
  dsimp only
  cases hv : l.vehicles with
  | nil => exact Spec.pure h1
  | cons k ks =>
    refine (getVeh_spec (by rw [h1.contains]; exact hl k (by simp [hv]))).bind fun ld _ => Spec.pure ?_
    exact h1.modify _ _ fun v v' hv => hv.followVehicle _ _

theorem firstBehind_spec {E : Err → Prop} {vs : VehicleSet F} (pos : F) : ∀ (ks : List Key),
    (∀ k ∈ ks, vs.contains k = true) → Spec (Link.firstBehind vs pos ks) E fun _ => True
  | [], _ => Spec.pure trivial
  | k :: ks, h => by
    unfold Link.firstBehind
    refine (getVeh_spec (h k (by simp))).bind fun v _ => Spec.ite (fun _ => Spec.pure trivial) (fun _ => ?_)
    refine (firstBehind_spec pos ks fun k hk => h k (by simp [hk])).bind fun r _ => ?_
    cases r <;> exact Spec.pure trivial

theorem refineObstacle_spec {E : Err → Prop} (hE : E .diverges) {c : LinkCurve F} (hc : c.segments ≠ []) :
    ∀ (fuel : Nat) (o : Obstacle F), Spec (Vehicle.refineObstacle c fuel o) E fun _ => True
  | 0, _ => Spec.throw hE
  | fuel + 1, o => by
    unfold Vehicle.refineObstacle
    refine (c.sampleCentre_spec hc o.pos).bind fun s _ => ?_
    exact Spec.ite (fun _ => Spec.pure trivial) (fun _ => refineObstacle_spec hE hc fuel _)

theorem canPass_spec [Env] {E : Err → Prop} (hE : E .diverges) (v : Vehicle F) (o : Obstacle F)
    {l : Link F} (hc : l.curve.segments ≠ []) : Spec (v.canPass o l) E fun _ => True := by
  unfold Vehicle.canPass
  refine Spec.ite (fun _ => Spec.pure trivial) (fun _ => ?_)
  refine (refineObstacle_spec hE hc _ o).bind fun o' _ => ?_
  exact Spec.ite (fun _ => Spec.pure trivial) (fun _ => Spec.pure trivial)

theorem obstacleFn_spec [Env] {E : Err → Prop} (hE : E .diverges) {vs0 vs : VehicleSet F} {l : Link F}
    (hc : l.curve.segments ≠ []) (o : Obstacle F) (r : RelVeh F) (h : VSlow vs0 vs) :
    Spec (Link.obstacleFn l o r vs) E fun p => VSlow vs0 p.1 := by
  unfold Link.obstacleFn
  refine (canPass_spec hE r.vehicle o hc).bind fun res _ => ?_
  cases res with
  | pass => exact Spec.pure h
  | follow p u => exact Spec.pure (h.modify _ _ fun v v' hv => hv.followVehicle _ _)

theorem followObstacle_spec [Env] {E : Err → Prop} (hE : E .diverges) {links : LinkSet F}
    {vs : VehicleSet F} (hn : NetOK ⟨links, vs⟩) {k : Key} {l : Link F} (hl : links.get? k = some l)
    (hc : l.curve.segments ≠ []) (o : Obstacle F) (skip : Nat) :
    Spec (Link.followObstacle links l o (vs, skip)) E fun p => VSlow vs p.1 := by
  unfold Link.followObstacle
  have fin : ∀ skip : Nat, Spec (do
      let vs' ← Link.processVehicles ⟨links, vs⟩ (Link.obstacleFn l o) Env.fuel l (0, l.id) o.pos skip vs
      pure (vs', skip) : M (VehicleSet F × Nat)) E fun p => VSlow vs p.1 := by
    intro skip
    rw [hn.ids k l hl]
    refine (processVehicles_spec (I := fun vs' => VSlow vs vs') hn hE
      (fun r s _ hs => obstacleFn_spec hE hc o r hs) _ l 0 k o.pos skip vs hl .here VSlow.rfl').bind
      fun vs' h => Spec.pure h
  refine (firstBehind_spec _ _ fun j hj => ?_).bind fun r _ => ?_
  · exact hn.vehs k l hl j (List.mem_reverse.1 (List.mem_of_mem_drop hj))
  · cases r <;> exact fin _

omit [Flt F] in
theorem LinkProjection.sample_spec [Flt F] {E : Err → Prop} {p : LinkProjection F} (hE : p.samples ≠ [] ∨ E .emptySamples) (pos : F) :
    Spec (p.sample pos) E fun _ => True := by
  unfold LinkProjection.sample
  refine Spec.ite (fun h => Spec.throw (hE.resolve_left fun hne => hne (List.length_eq_zero_iff.1 h))) (fun h => ?_)
  dsimp only
  split
  · exact Spec.pure trivial
  · rename_i h'
    rw [List.getElem?_eq_none_iff] at h'
    omega

theorem followObstacles_spec [Env] {E : Err → Prop} (hE : E .diverges) {links : LinkSet F} {k : Key} {l : Link F} (hl : links.get? k = some l)
    (hc : l.curve.segments ≠ []) {proj : LinkProjection F} (hE' : proj.samples ≠ [] ∨ E .emptySamples) : ∀ (ks : List Key) (vs : VehicleSet F) (skip : Nat),
    NetOK ⟨links, vs⟩ → (∀ k ∈ ks, vs.contains k = true) →
    Spec (Link.followObstacles links proj l ks (vs, skip)) E fun p => VSlow vs p.1
  | [], vs, skip, _, _ => Spec.pure VSlow.rfl'
  | j :: ks, vs, skip, hn, hks => by
    unfold Link.followObstacles
    refine (getVeh_spec (hks j (by simp))).bind fun v _ => ?_
    unfold Vehicle.project LinkProjection.project
    refine Spec.bind (P := fun _ => True) ((LinkProjection.sample_spec hE' _).bind fun _ _ => Spec.pure trivial)
      fun o _ => ?_
    refine (followObstacle_spec hE hn hl hc o skip).bind fun p hp => ?_
    refine (followObstacles_spec hE hl hc hE' ks p.1 p.2 (hn.same hp.same) ?_).mono
      (fun q hq => hp.trans hq) (fun _ => id)
    intro k hk
    rw [hp.contains]; exact hks k (by simp [hk])

theorem applyProjection_spec [Env] {E : Err → Prop} (hE : E .diverges) {links : LinkSet F} (hseg : ∀ k l, links.get? k = some l → l.curve.segments ≠ [])
    {l : Link F} {vs : VehicleSet F} (hn : NetOK ⟨links, vs⟩) (hlv : ∀ k ∈ l.vehicles, vs.contains k = true)
    {proj : LinkProjection F} (hE' : proj.samples ≠ [] ∨ E .emptySamples) (hp : links.contains proj.dst = true) :
    Spec (Link.applyProjection links l vs proj) E fun vs' => VSlow vs vs' := by
  unfold Link.applyProjection
  refine (getLink_spec hp).bind fun other hother => ?_
  refine (followObstacles_spec hE hother (hseg _ _ hother) hE' l.vehicles.reverse vs 0 hn
    fun k hk => hlv k (List.mem_reverse.1 hk)).bind fun p hp => Spec.pure hp

theorem applyAccelerations_spec [Env] {E : Err → Prop} {strict : Prop} (hE : E .diverges)
    (hE2 : strict ∨ E .outOfBounds) {links : LinkSet F} (hG : GoodNet links ∨ GeoErr E) (hN : NetInv strict links)
    {vs : VehicleSet F} (hn : NetOK ⟨links, vs⟩) {k : Key} (hk : links.contains k = true) :
    Spec (Link.applyAccelerations links vs k) E fun vs' => VSlow vs vs' := by
  unfold Link.applyAccelerations
  refine (getLink_spec hk).bind fun l hl => ?_
  have hi := hN.link k l hl
  refine (followWindows_spec _ l.vehicles vs (hn.vehs k l hl)).bind fun vs1 h1 => ?_
  have hn1 : NetOK ⟨links, vs1⟩ := hn.same h1.same
  have hv1 : ∀ j ∈ l.vehicles, vs1.contains j = true := hn1.vehs k l hl
  rw [hi.id]
  refine (processVehicles_spec (I := fun vs' => VSlow vs1 vs') hn1 hE
    (fun r s _ hs => enteringFn_spec hv1 r hs) _ l 0 k _ _ vs1 hl .here VSlow.rfl').bind fun vs2 h2 => ?_
  have hn2 : NetOK ⟨links, vs2⟩ := hn1.same h2.same
  have h12 := h1.trans h2
  cases hg : l.group with
  | none => exact Spec.pure h12
  | some g =>
    have hgi := hi.group g hg
    refine Spec.bind (P := fun ps => ∀ p ∈ ps, links.contains p.dst = true ∧ p ∈ g.projections) ?_ fun ps hps => ?_
    · unfold LinkGroup.projectionsFromLink
      obtain ⟨i, hfi⟩ := LinkGroup.findLink_mem hgi.mem
      simp only [hfi]
      have hlt := LinkGroup.findLink_lt hfi
      refine Spec.ite (fun h => by omega) (fun _ => ?_)
      refine Spec.ite (fun _ => Spec.pure fun p hp => ⟨hgi.proj p (List.mem_of_mem_take (List.mem_of_mem_drop hp)),
          List.mem_of_mem_take (List.mem_of_mem_drop hp)⟩)
        (fun h => ?_)
      refine Spec.throw (hE2.resolve_left fun hs => h ?_)
      rw [hgi.count hs, Nat.mul_comm]
      exact Nat.mul_le_mul_right _ hlt
    · refine Spec.foldlM (I := fun vs' => VSlow vs vs') (fun vs' h' p hp => ?_) h12
      refine (applyProjection_spec hE (fun k l hl => (hN.link k l hl).segs) (hn.same h'.same) ?_
        (hG.imp (fun h => h.proj k l hl g hg p (hps p hp).2) And.left) (hps p hp).1).mono (fun vs'' h'' => VSlow.trans h' h'') (fun _ => fun h => h)
      intro j hj
      rw [SRel.contains h']; exact hn.vehs k l hl j hj

/-! ## Conflict points -/

theorem findVehicles_spec [Env] {E : Err → Prop} (hE : E .diverges) {n : Net F} (hn : NetOK n)
    (c : ConflictPointLink F) (hc : n.links.contains c.linkId = true) (out : List (RelVeh F)) :
    Spec (c.findVehicles n out) E fun out' => ∃ new, out' = out ++ new ∧
      ∀ r ∈ new, Visited n c.linkId c.minPos r ∧ r.posRear < c.maxPos - c.minPos := by
  unfold ConflictPointLink.findVehicles
  refine (getLink_spec hc).bind fun l hl => ?_
  refine processVehicles_spec (I := fun (out' : List (RelVeh F)) => ∃ new, out' = out ++ new ∧
      ∀ r ∈ new, Visited n c.linkId c.minPos r ∧ r.posRear < c.maxPos - c.minPos) hn hE ?_ _ l 0 c.linkId
    c.minPos 0 out hl .here ⟨[], by simp, by simp⟩
  rintro r s hr ⟨new, rfl, hnew⟩
  unfold ConflictPointLink.findFn
  refine Spec.ite (fun h => Spec.pure ⟨new ++ [r], by simp, ?_⟩) (fun _ => Spec.pure ⟨new, rfl, hnew⟩)
  intro r' hr'
  rcases List.mem_append.1 hr' with hr' | hr'
  · exact hnew r' hr'
  · simp at hr'; subst hr'; exact ⟨hr, h⟩

theorem applyWindows_slow (sameDir : Bool) : ∀ (buf : List (RelVeh F)) (vs : VehicleSet F),
    VSlow vs (ConflictPoint.applyWindows sameDir buf vs)
  | [], vs => VSlow.rfl'
  | [_], vs => VSlow.rfl'
  | a :: b :: rest, vs => by
    unfold ConflictPoint.applyWindows
    refine VSlow.trans ?_ (applyWindows_slow sameDir (b :: rest) _)
    split
    · split
      · exact VSlow.rfl'.modify _ _ fun v v' hv => hv.followObstacle _ _
      · exact VSlow.rfl'.modify _ _ fun v v' hv => hv.stopAtLine _
    · exact VSlow.rfl'

theorem ConflictPoint.applyAccelerations_spec [Env] {E : Err → Prop} (hE : E .diverges)
    (hE' : NoNan F ∨ E .nanCompare) {links : LinkSet F} {vs : VehicleSet F} (hn : NetOK ⟨links, vs⟩) (c : ConflictPoint F)
    (h0 : links.contains c.link0.linkId = true) (h1 : links.contains c.link1.linkId = true) :
    Spec (c.applyAccelerations links vs) E fun vs' => VSlow vs vs' := by
  unfold ConflictPoint.applyAccelerations
  refine (findVehicles_spec hE hn c.link0 h0 []).bind fun b0 _ => ?_
  refine Spec.ite (fun _ => Spec.pure VSlow.rfl') (fun _ => ?_)
  refine (findVehicles_spec hE hn c.link1 h1 b0).bind fun b1 _ => ?_
  refine Spec.ite (fun _ => Spec.pure VSlow.rfl') (fun _ => ?_)
  unfold sortBuffer
  refine Spec.bind (P := fun _ => True) (Spec.ite
    (fun h => Spec.throw (hE'.resolve_left fun hn => by simp [hn.2] at h)) (fun _ => Spec.pure trivial))
    fun b _ => Spec.pure (applyWindows_slow _ b vs)

theorem applyLinkAccelerations_spec [Env] {E : Err → Prop} {strict : Prop} (hE : E .diverges)
    (hE2 : strict ∨ E .outOfBounds) {n : Net F} (hG : GoodNet n.links ∨ GeoErr E)
    (hN : NetInv strict n.links) (hn : NetOK n) {cs : List (ConflictPoint F)}
    (hcs : ∀ c ∈ cs, n.links.contains c.link0.linkId = true ∧ n.links.contains c.link1.linkId = true) :
    Spec (Sim.applyLinkAccelerations cs n) E fun vs' => VSlow n.vehicles vs' := by
  unfold Sim.applyLinkAccelerations
  refine (Spec.foldlM (I := fun vs' => VSlow n.vehicles vs') (fun vs' h' k hk => ?_) VSlow.rfl').bind
    fun vs1 h1 => ?_
  · obtain ⟨l, hl⟩ := SlotMap.mem_keys.1 hk
    exact (applyAccelerations_spec hE hE2 hG hN (NetOK.same hn (VSlow.same h')) (contains_of_get hl)).mono
      (fun vs'' h'' => VSlow.trans h' h'') (fun _ h => h)
  · refine Spec.foldlM (I := fun vs' => VSlow n.vehicles vs') (fun vs' h' c hc => ?_) h1
    exact (c.applyAccelerations_spec hE (hG.imp (·.noNan) (·.2.1)) (NetOK.same hn (VSlow.same h')) (hcs c hc).1 (hcs c hc).2).mono
      (fun vs'' h'' => VSlow.trans h' h'') (fun _ h => h)

end

end TrafficSim
