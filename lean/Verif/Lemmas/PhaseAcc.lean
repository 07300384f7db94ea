import Verif.Lemmas.Member

/-! # Phases of a step: accelerations, lights, motion, coordinates -/

namespace TrafficSim

/-- Rule for a loop over the keys of a map that updates each value once; the invariant may depend on the
keys that are left. -/
theorem foldlM_keys' {σ V : Type} {E : Err → Prop} (get : σ → SlotMap V) {J : List Key → σ → Prop} {m0 : SlotMap V}
    {R : Key → V → V → Prop} {f : σ → Key → M σ}
    (hf : ∀ s k rest v, (k :: rest).Nodup → J (k :: rest) s → SRel (fun k v v' => v' = v ∨ R k v v') m0 (get s) →
      m0.get? k = some v → (get s).get? k = some v →
      Spec (f s k) E fun s' => J rest s' ∧ ∃ v', get s' = (get s).modify k (fun _ => v') ∧ R k v v')
    {s : σ} (hs : get s = m0) (hJ : J m0.keys s) :
    Spec (m0.keys.foldlM f s) E fun s' => J [] s' ∧ SRel R m0 (get s') := by
  have key : Spec (m0.keys.foldlM f s) E fun s' => J [] s' ∧
      SRel (fun k v v' => (k ∈ ([] : List Key) → v' = v) ∧ (k ∉ ([] : List Key) → R k v v')) m0 (get s') := by
    refine Spec.foldlM' (I := fun rest s' => J rest s' ∧
      SRel (fun k v v' => (k ∈ rest → v' = v) ∧ (k ∉ rest → R k v v')) m0 (get s')) ?_ ?_
    · rintro s' k rest hsuf ⟨hJ', hr⟩
      have hnd : (k :: rest).Nodup := m0.nodup_keys.sublist hsuf.sublist
      obtain ⟨v, hv⟩ := SlotMap.mem_keys.1 (hsuf.subset (by simp) : k ∈ m0.keys)
      obtain ⟨v', hv', h1, -⟩ := hr.fwd k v hv
      obtain rfl := h1 (by simp)
      refine (hf s' k rest v' hnd hJ' (hr.mono fun j v w h => ?_) hv hv').mono ?_ (fun _ h => h)
      · by_cases hj : j ∈ k :: rest
        · exact .inl (h.1 hj)
        · exact .inr (h.2 hj)
      · rintro s'' ⟨hJ'', w, hw, hR⟩
        rw [List.nodup_cons] at hnd
        refine ⟨hJ'', ?_⟩
        rw [hw]
        have h2 : SRel (fun j v v' => (j ∈ rest → v' = v) ∧ (j ∉ rest → j ≠ k → R j v v')) m0 (get s') :=
          hr.mono fun j v v' h => ⟨fun hj => h.1 (by simp [hj]), fun hj hjk => h.2 (by simp [hj, hjk])⟩
        refine ⟨by rw [SlotMap.keys_modify, h2.keys], fun hw => (h2.wf hw).modify k _,
          fun k' hk' => (h2.issued k' hk').modify k _, fun j u hj => ?_⟩
        by_cases e : j = k
        · subst e
          rw [hv] at hj; cases hj
          exact ⟨w, by rw [SlotMap.get?_modify_self, hv']; rfl, fun h => absurd h hnd.1, fun _ => hR⟩
        · obtain ⟨u', hu', h3, h4⟩ := h2.fwd j u hj
          exact ⟨u', by rw [SlotMap.get?_modify_ne _ _ e]; exact hu', h3, fun h => h4 h e⟩
    · refine ⟨hJ, ?_⟩
      rw [hs]
      exact SRel.refl fun k v hk => ⟨fun _ => rfl, fun h => absurd (SlotMap.mem_keys.2 ⟨v, hk⟩) h⟩
  exact key.mono (fun s' h => ⟨h.1, h.2.mono fun k v v' h => h.2 (by simp)⟩) (fun _ h => h)

/-- Rule for a loop over the keys of a map that updates each value once. -/
theorem foldlM_keys {σ V : Type} {E : Err → Prop} (get : σ → SlotMap V) {J : σ → Prop} {m0 : SlotMap V}
    {R : Key → V → V → Prop} {f : σ → Key → M σ}
    (hf : ∀ s k v, J s → SRel (fun k v v' => v' = v ∨ R k v v') m0 (get s) → m0.get? k = some v →
      (get s).get? k = some v →
      Spec (f s k) E fun s' => J s' ∧ ∃ v', get s' = (get s).modify k (fun _ => v') ∧ R k v v')
    {s : σ} (hs : get s = m0) (hJ : J s) :
    Spec (m0.keys.foldlM f s) E fun s' => J s' ∧ SRel R m0 (get s') :=
  foldlM_keys' get (J := fun _ => J) (fun s k _ v _ => hf s k v) hs hJ

section
variable {F : Type}

/-- The properties of a vehicle inside a step, after entries have been decided. -/
structure VehMid (links : LinkSet F) (k : Key) (v : Vehicle F) : Prop where
  id : v.id = k
  drivable : Drivable links v.route
  src : v.route.head? = some v.pathfind.src
  dst : v.pathfind.dst.isNull = true ∨ links.contains v.pathfind.dst = true
  entered : 1 ≤ v.entered
  enteredLe : v.entered ≤ v.route.length
  will : v.willQueueOrEnter ≤ 2
  willEnter : v.willQueueOrEnter = 2 → v.entered + 1 ≤ v.route.length
  paths : ∀ p ∈ v.pathfind.paths, PathOK links v.pathfind.src v.pathfind.dst p

theorem VehInv.mid {links : LinkSet F} {k : Key} {v : Vehicle F} (h : VehInv links k v) : VehMid links k v :=
  { h with will := by rw [h.will]; omega, willEnter := by rw [h.will]; omega }

theorem VehMid.mono {links links' : LinkSet F} (h : NetLE links links') {k : Key} {v : Vehicle F}
    (hv : VehMid links k v) : VehMid links' k v :=
  { hv with
    drivable := hv.drivable.mono h
    dst := hv.dst.imp (fun h => h) (h.contains _)
    paths := fun p hp => (hv.paths p hp).mono h }

variable [Flt F]

/-- The properties of a simulation inside a step. -/
structure SimMid (strict : Prop) (s : Sim F) : Prop where
  net : NetInv strict s.links
  vwf : s.vehicles.WF
  veh : ∀ k v, s.vehicles.get? k = some v → VehMid s.links k v
  mem : Member s.links s.vehicles
  lwf : s.lights.WF
  lights : ∀ k tl, s.lights.get? k = some tl → LightOK strict s.links tl
  conflicts : ∀ c ∈ s.conflicts, s.links.contains c.link0.linkId = true ∧ s.links.contains c.link1.linkId = true

theorem SimInv.mid {strict : Prop} {s : Sim F} (h : SimInv strict s) : SimMid strict s :=
  { h with veh := fun k v hv => (h.veh k v hv).mid }

variable {strict : Prop}

theorem SimMid.netOK {s : Sim F} (h : SimMid strict s) : NetOK ⟨s.links, s.vehicles⟩ :=
  ⟨fun k l hl => (h.net.link k l hl).id, fun k l hl => (h.net.link k l hl).linksIn,
   fun _ _ hl => (member_iff.1 h.mem).valid hl,
   fun k l hl => (h.net.link k l hl).conflicts, fun k v hv => (h.veh k v hv).drivable.valid⟩

theorem LightOK.mono {links links' : LinkSet F} (h : ∀ k, links.contains k = true → links'.contains k = true)
    {tl : TrafficLight F} (ht : LightOK strict links tl) : LightOK strict links' tl :=
  { ht with valid := fun p hp => h _ (ht.valid p hp) }

/-! ## Preparation -/

/-- The link is active exactly if some vehicle has entered it. -/
def Activated (vs : VehicleSet F) (done : List Key) (j : Key) (l l' : Link F) : Prop :=
  ∃ b, l' = { l with active := b } ∧
    (b = true ↔ ∃ k ∈ done, ∃ v, vs.get? k = some v ∧ j ∈ v.route.take v.entered)

omit [Flt F] in
theorem activateLinks_spec {E : Err → Prop} {links : LinkSet F} : ∀ (ks : List Key),
    (∀ k ∈ ks, links.contains k = true) →
    Spec (ks.foldlM (fun links k => updLink links k fun l => { l with active := true }) links) E fun links' =>
      SRel (fun j l l' => ∃ b, l' = { l with active := b } ∧ (b = true ↔ l.active = true ∨ j ∈ ks)) links links'
  | ks, h => by
    induction ks generalizing links with
    | nil => exact Spec.pure (SRel.refl fun k l _ => ⟨l.active, rfl, by simp⟩)
    | cons k ks ih =>
      rw [List.foldlM_cons]
      refine (updLink_spec (h k (by simp))).bind fun links' hl => ?_
      subst hl
      have h1 : SRel (fun j l l' => ∃ b, l' = { l with active := b } ∧ (b = true ↔ l.active = true ∨ j = k))
          links (links.modify k fun l => { l with active := true }) :=
        SRel.modify_one _ _ _ (fun j l hj => ⟨l.active, rfl, by simp [hj]⟩) fun l _ => ⟨true, rfl, by simp⟩
      refine (ih fun j hj => ?_).mono (fun links' h2 => ?_) (fun _ h => h)
      · rw [h1.contains]; exact h j (by simp [hj])
      · refine h1.trans h2 ?_
        rintro j l l' l'' ⟨b, rfl, hb⟩ ⟨b', rfl, hb'⟩
        exact ⟨b', rfl, by rw [hb']; simp only [hb, List.mem_cons]; tauto⟩

/-- The effect of the preparation: vehicles are reset and the links that some vehicle has entered are
active. -/
structure Prepared (s : Sim F) (n : Net F) : Prop where
  links : SRel (fun j l l' => ∃ b, l' = { l with active := b } ∧
    (b = true ↔ ∃ k v, s.vehicles.get? k = some v ∧ j ∈ v.route.take v.entered)) s.links n.links
  vehicles : SRel (fun _ v v' => v' = v.reset) s.vehicles n.vehicles

omit [Flt F] in
theorem prepareNet_spec {E : Err → Prop} {s : Sim F} (hr : ∀ k v, s.vehicles.get? k = some v →
    ∀ j ∈ v.route, s.links.contains j = true) : Spec s.prepareNet E (Prepared s) := by
  unfold Sim.prepareNet
  have h0 : SRel (Activated s.vehicles []) s.links
      (s.links.keys.foldl (fun ls k => ls.modify k fun l => { l with active := false }) s.links) :=
    (SRel.foldl_modify_keys s.links fun _ l => { l with active := false }).mono
      fun k v v' h => ⟨false, h, by simp⟩
  refine (Spec.foldlM' (I := fun rest (n : Net F) => ∃ done, s.vehicles.keys = done ++ rest ∧
    SRel (Activated s.vehicles done) s.links n.links ∧
    SRel (fun k v v' => (k ∈ rest → v' = v) ∧ (k ∉ rest → v' = v.reset)) s.vehicles n.vehicles) ?_ ?_).mono ?_
    (fun _ h => h)
  · rintro n k rest hsuf ⟨done, hd, hl, hv⟩
    unfold Sim.resetVehicle
    have hk : k ∈ s.vehicles.keys := hsuf.subset (by simp)
    have hnd : (k :: rest).Nodup := s.vehicles.nodup_keys.sublist hsuf.sublist
    rw [List.nodup_cons] at hnd
    obtain ⟨v, hkv⟩ := SlotMap.mem_keys.1 hk
    obtain ⟨v', hv', h1, -⟩ := hv.fwd k v hkv
    obtain rfl := h1 (by simp)
    refine (getVeh_spec (contains_of_get hv')).bind fun v hv'' => ?_
    rw [hv'] at hv''; cases hv''
    unfold Vehicle.activateLinks
    refine (activateLinks_spec _ fun j hj => ?_).bind fun links' h2 => Spec.pure ⟨done ++ [k], by simp [hd], ?_, ?_⟩
    · rw [hl.contains]; exact hr k v' hkv j (List.mem_of_mem_take hj)
    · refine hl.trans h2 ?_
      rintro j l l' l'' ⟨b, rfl, hb⟩ ⟨b', rfl, hb'⟩
      refine ⟨b', rfl, ?_⟩
      rw [hb']
      simp only [hb, List.mem_append, List.mem_singleton]
      constructor
      · rintro (⟨k', hk', w⟩ | h)
        · exact ⟨k', .inl hk', w⟩
        · exact ⟨k, .inr rfl, v', hkv, h⟩
      · rintro ⟨k', hk' | rfl, w, hw, hj⟩
        · exact .inl ⟨k', hk', w, hw, hj⟩
        · rw [hkv] at hw; cases hw; exact .inr hj
    · refine ⟨by rw [SlotMap.keys_modify, hv.keys], fun hw => (hv.wf hw).modify k _,
          fun k' hk' => (hv.issued k' hk').modify k _, fun j u hj => ?_⟩
      by_cases e : j = k
      · subst e
        rw [hkv] at hj; cases hj
        exact ⟨v'.reset, by rw [SlotMap.get?_modify_self, hv']; rfl, fun h => absurd h hnd.1, fun _ => rfl⟩
      · obtain ⟨u', hu', h3, h4⟩ := hv.fwd j u hj
        exact ⟨u', by rw [SlotMap.get?_modify_ne _ _ e]; exact hu', fun h => h3 (by simp [h]),
          fun h => h4 (by simp [e, h])⟩
  · exact ⟨[], rfl, h0, SRel.refl fun k v hk => ⟨fun _ => rfl, fun h => absurd (SlotMap.mem_keys.2 ⟨v, hk⟩) h⟩⟩
  · rintro n ⟨done, hd, hl, hv⟩
    rw [List.append_nil] at hd
    subst hd
    refine ⟨hl.mono ?_, hv.mono fun k v v' h => h.2 (by simp)⟩
    rintro k l l' ⟨b, h1, h2⟩
    refine ⟨b, h1, ?_⟩
    rw [h2]
    constructor
    · rintro ⟨k', -, v, hv, h⟩; exact ⟨k', v, hv, h⟩
    · rintro ⟨k', v, hv, h⟩; exact ⟨k', SlotMap.mem_keys.2 ⟨v, hv⟩, v, hv, h⟩

/-! ## Accelerations -/

/-- The effect of recomputing the accelerations. -/
structure AccRun [Env] (s : Sim F) (n0 n1 : Net F) (vs : VehicleSet F) (s' : Sim F) : Prop where
  prep : Prepared s n0
  stop : NetAcc (Decided n0) n0 n1
  slow : VSlow n1.vehicles vs
  eq : s' = Sim.mk n1.links s.lights s.conflicts (Sim.applyFrozen vs s.frozen).1
    (Sim.applyFrozen vs s.frozen).2 s.frame s.seq 0.0 s.lcUpdate
  runStop : n0.links.keys.foldlM Link.applyStoplines n0 = .ok n1
  runAcc : Sim.applyLinkAccelerations s.conflicts n1 = .ok vs

theorem Prepared.netOK {s : Sim F} {n : Net F} (h : Prepared s n) (hs : SimMid strict s) : NetOK n := by
  have hn := hs.netOK
  refine ⟨?_, ?_, ?_, ?_, ?_⟩
  · intro k l' hl'
    obtain ⟨l, hl, b, rfl, -⟩ := h.links.bwd hl'
    exact hn.ids k l hl
  · intro k l' hl' j hj
    obtain ⟨l, hl, b, rfl, -⟩ := h.links.bwd hl'
    rw [h.links.contains]; exact hn.ins k l hl j hj
  · intro k l' hl' j hj
    obtain ⟨l, hl, b, rfl, -⟩ := h.links.bwd hl'
    rw [h.vehicles.contains]; exact hn.vehs k l hl j hj
  · intro k l' hl' j hj
    obtain ⟨l, hl, b, rfl, -⟩ := h.links.bwd hl'
    rw [h.links.contains]; exact hn.confs k l hl j hj
  · intro k v' hv' j hj
    obtain ⟨v, hv, rfl⟩ := h.vehicles.bwd hv'
    rw [h.links.contains]; exact hn.routes k v hv j hj

omit [Flt F] in
theorem Prepared.frame {s : Sim F} {n : Net F} (h : Prepared s n) : Frame s.links n.links :=
  SRel.mono h.links fun k l l' ⟨b, e, _⟩ => by
    subst e; exact ⟨rfl, rfl, rfl, rfl, rfl, rfl, rfl, rfl, rfl, fun h => h⟩

theorem stoplines_spec [Env] {E : Err → Prop} (hE : E .diverges) {n0 : Net F} (hn : NetOK n0)
    (hlast : ∀ k l, n0.links.get? k = some l → l.lastConflict ≤ l.conflicts.length) :
    Spec (n0.links.keys.foldlM Link.applyStoplines n0) E fun n1 => NetAcc (Decided n0) n0 n1 := by
  refine Spec.foldlM (I := fun n => NetAcc (Decided n0) n0 n) (fun n h k hk => ?_) NetAcc.rfl'
  obtain ⟨l, hl⟩ := SlotMap.mem_keys.1 hk
  refine (applyStoplines_spec (hn.same (NetAcc.same h)) (NetAcc.same h) ?_ hE ?_).mono
    (fun n' h' => NetAcc.trans h h') (fun _ h => h)
  · intro k l' hl'
    obtain ⟨l, hl, c, rfl, hc⟩ := (NetAcc.links h).bwd hl'
    exact hc (hlast k l hl)
  · rw [(NetAcc.links h).contains]; exact contains_of_get hl

theorem applyAccelerations_phase [Env] {E : Err → Prop} (hE : E .diverges)
    (hE2 : strict ∨ E .outOfBounds) {s : Sim F} (hG : GoodNet s.links ∨ GeoErr E) (hs : SimMid strict s) :
    Spec s.applyAccelerations E fun s' => (s.accUpdate < accelerationUpdateSec ∧ s' = s) ∨
      (¬ s.accUpdate < accelerationUpdateSec ∧ ∃ n0 n1 vs, AccRun s n0 n1 vs s') := by
  unfold Sim.applyAccelerations
  refine Spec.ite (fun h => Spec.pure (.inl ⟨h, rfl⟩)) (fun h => ?_)
  refine (prepareNet_spec fun k v hv => (hs.veh k v hv).drivable.valid).bind fun n0 hn0 => ?_
  have hok0 := hn0.netOK hs
  have hN0 : NetInv strict n0.links := hs.net.frame hn0.frame
  refine ((stoplines_spec hE hok0 fun k l hl => (hN0.link k l hl).last).post
    (Q' := fun n1 => NetAcc (Decided n0) n0 n1 ∧ n0.links.keys.foldlM Link.applyStoplines n0 = .ok n1)
    fun a ha h => ⟨h, ha⟩).bind ?_
  rintro n1 ⟨hn1, hrun⟩
  have hok1 := hok0.same hn1.same
  have hf1 : Frame n0.links n1.links := SRel.mono hn1.links fun _ _ _ => LinkSame.frame
  refine ((applyLinkAccelerations_spec hE hE2
    (hG.imp_left fun h => h.of_rel (SRel.mono (hn0.frame.trans hf1) fun _ _ _ h => ⟨h.group, h.curve⟩)) (hN0.frame hf1) hok1 (cs := s.conflicts) ?_).post
    (Q' := fun vs => VSlow n1.vehicles vs ∧ Sim.applyLinkAccelerations s.conflicts n1 = .ok vs)
    fun a ha h => ⟨h, ha⟩).bind ?_
  · intro c hc
    rw [hn1.links.contains, hn1.links.contains, hn0.links.contains, hn0.links.contains]
    exact hs.conflicts c hc
  · rintro vs ⟨hvs, hrun'⟩
    exact Spec.pure (.inr ⟨h, n0, n1, vs, hn0, hn1, hvs, rfl, hrun, hrun'⟩)

/-! ### What the phase does to a vehicle -/

theorem emergency_foldl (vs : VehicleSet F) : ∀ (frozen : List Key),
    SRel (fun k v v' => v' = if k ∈ frozen then v.emergencyStop else v) vs
      (frozen.foldl (fun vs k => vs.modify k Vehicle.emergencyStop) vs) := by
  intro frozen
  induction frozen generalizing vs with
  | nil => exact SRel.refl fun k v _ => by simp
  | cons a frozen ih =>
    rw [List.foldl_cons]
    have h1 : SRel (fun k v v' => v' = if k = a then v.emergencyStop else v) vs
        (vs.modify a Vehicle.emergencyStop) :=
      SRel.modify_one _ _ _ (fun k v hk => by simp [hk]) fun v _ => by simp
    refine h1.trans (ih _) ?_
    rintro k v v' v'' rfl rfl
    by_cases h1 : k = a <;> by_cases h2 : k ∈ frozen <;> simp [h1, h2, Vehicle.emergencyStop, AccelerationModel.emergencyStop]

/-- The vehicle after the phase. -/
structure VehAccRun [Env] (frozen : List Key) (n0 : Net F) (k : Key) (v v' : Vehicle F) : Prop where
  eq : ∃ a w, v' = { v with acc := { v.acc with acc := a }, willQueueOrEnter := w } ∧
    (w = v.willQueueOrEnter ∨ Decided n0 k w) ∧
    (k ∈ frozen → a = maxDecel) ∧
    (k ∉ frozen → ∃ as : List F, a = as.foldl fmin v.acc.maxAcc)

theorem AccRun.vehicles [Env] {s s' : Sim F} {n0 n1 : Net F} {vs : VehicleSet F} (h : AccRun s n0 n1 vs s') :
    SRel (VehAccRun s.frozen n0) s.vehicles s'.vehicles := by
  have e : s'.vehicles = s.frozen.foldl (fun vs k => vs.modify k Vehicle.emergencyStop) vs := by rw [h.eq]; rfl
  rw [e]
  have h1 : SRel (VehAcc (Decided n0)) n0.vehicles vs :=
    h.stop.vehicles.trans h.slow fun k v v' v'' hv hv' => hv.trans (hv'.mono fun _ _ h => h.elim)
  have h2 := h1.trans (emergency_foldl vs s.frozen) (T := fun k v v'' => ∃ v', VehAcc (Decided n0) k v v' ∧
    v'' = if k ∈ s.frozen then v'.emergencyStop else v') (fun k v v' v'' a b => ⟨v', a, b⟩)
  refine h.prep.vehicles.trans h2 ?_
  rintro k v v' v'' rfl ⟨w, ⟨as, d, rfl, hd⟩, rfl⟩
  refine ⟨?_⟩
  by_cases hk : k ∈ s.frozen
  · refine ⟨maxDecel, d, ?_, hd, fun _ => rfl, fun h => absurd hk h⟩
    simp [hk, Vehicle.reset, Vehicle.emergencyStop, AccelerationModel.emergencyStop, AccelerationModel.reset]
  · refine ⟨as.foldl fmin v.acc.maxAcc, d, ?_, hd, fun h => absurd h hk, fun _ => ⟨as, rfl⟩⟩
    simp [hk, Vehicle.reset, AccelerationModel.reset]

end

end TrafficSim
