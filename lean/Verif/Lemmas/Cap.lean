import Verif.Lemmas.Run

/-! # Accelerations that vehicles are certainly given -/

namespace TrafficSim

section
variable {F : Type} [Flt F] {strict : Prop}

/-- The vehicle `k` was slowed down by accelerations among which is `x`. -/
def Capped (k : Key) (x : F) (vs vs' : VehicleSet F) : Prop :=
  ∀ v, vs.get? k = some v → ∃ v', ∃ as : List F, vs'.get? k = some v' ∧ x ∈ as ∧
    ∃ w, v' = { v with acc := { v.acc with acc := as.foldl fmin v.acc.acc }, willQueueOrEnter := w }

/-- Vehicles are at most slowed down. -/
def Slower (vs vs' : VehicleSet F) : Prop := ∃ D : Key → Nat → Prop, SRel (VehAcc D) vs vs'

theorem VSlow.slower {vs vs' : VehicleSet F} (h : VSlow vs vs') : Slower vs vs' := ⟨_, h⟩

theorem Capped.after {k : Key} {x : F} {vs0 vs vs' : VehicleSet F} (h : Slower vs0 vs) (h' : Capped k x vs vs') :
    Capped k x vs0 vs' := by
  intro v hv
  obtain ⟨D, h⟩ := h
  obtain ⟨u, hu, as, w, rfl, -⟩ := h.fwd k v hv
  obtain ⟨v', as', hv', hx, w', rfl⟩ := h' _ hu
  exact ⟨_, as ++ as', hv', by simp [hx], w', by rw [List.foldl_append]⟩

theorem Capped.before {k : Key} {x : F} {vs vs' vs'' : VehicleSet F} (h' : Capped k x vs vs') (h : Slower vs' vs'') :
    Capped k x vs vs'' := by
  intro v hv
  obtain ⟨u, as, hu, hx, w, rfl⟩ := h' v hv
  obtain ⟨D, h⟩ := h
  obtain ⟨v', hv', as', w', rfl, -⟩ := h.fwd k _ hu
  exact ⟨_, as ++ as', hv', by simp [hx], w', by rw [List.foldl_append]⟩

/-- The acceleration that keeps a vehicle at its speed limit. -/
def Vehicle.limitAcc (v : Vehicle F) (limit : F) : F :=
  v.acc.maxAcc * (1.0 - pow4 (v.vel / (v.acc.velAdj * limit)))

/-- The acceleration that keeps a vehicle behind a point moving with speed `vel`. -/
def Vehicle.gapAcc (v : Vehicle F) (pos vel : F) : F := v.acc.idm (pos - v.posFront) v.vel vel

theorem followWindows_slow {limit : F} {ks : List Key} {vs vs' : VehicleSet F} (h : Link.followWindows limit ks vs = .ok vs') :
    VSlow vs vs' := by
  induction ks generalizing vs with
  | nil => simp only [Link.followWindows, M_pure_ok] at h; subst h; exact VSlow.rfl'
  | cons k ks ih =>
    cases ks with
    | nil =>
      simp only [Link.followWindows, updVeh_ok] at h
      obtain ⟨-, rfl⟩ := h
      exact VSlow.rfl'.modify k _ fun v v' hv => hv.applyCurrentSpeedLimit _
    | cons j ks =>
      simp only [Link.followWindows, M_bind_ok, updVeh_ok] at h
      obtain ⟨ld, hld, vs1, ⟨-, rfl⟩, h⟩ := h
      exact VSlow.trans (VSlow.rfl'.modify k _ fun v v' hv => (hv.followVehicle _ _).applyCurrentSpeedLimit _) (ih h)

theorem followWindows_capped {limit : F} {k : Key} : ∀ {ks : List Key} {vs vs' : VehicleSet F} {v : Vehicle F},
    Link.followWindows limit ks vs = .ok vs' → k ∈ ks → vs.get? k = some v → Capped k (v.limitAcc limit) vs vs' := by
  intro ks
  induction ks with
  | nil => intro vs vs' v _ hk; cases hk
  | cons a ks ih =>
    intro vs vs' v h hk hv
    have one : ∀ (f : Vehicle F → Vehicle F) (as : List F), v.limitAcc limit ∈ as →
        f v = { v with acc := { v.acc with acc := as.foldl fmin v.acc.acc } } → Capped k (v.limitAcc limit) vs (vs.modify k f) := by
      intro f as hx hf u hu
      rw [hv] at hu; cases hu
      exact ⟨f v, as, by rw [SlotMap.get?_modify_self, hv]; rfl, hx, v.willQueueOrEnter, hf⟩
    cases ks with
    | nil =>
      simp only [Link.followWindows, updVeh_ok] at h
      obtain ⟨-, rfl⟩ := h
      simp only [List.mem_singleton] at hk
      subst hk
      exact one _ [v.limitAcc limit] (by simp) rfl
    | cons j ks =>
      simp only [Link.followWindows, M_bind_ok, updVeh_ok] at h
      obtain ⟨ld, hld, vs1, ⟨-, rfl⟩, h⟩ := h
      have hs1 : VSlow vs (vs.modify a fun v => (v.followVehicle ld.posRear ld.vel).applyCurrentSpeedLimit limit) :=
        VSlow.rfl'.modify a _ fun v v' hv => (hv.followVehicle _ _).applyCurrentSpeedLimit _
      by_cases hka : k = a
      · subst hka
        refine (one _ [v.gapAcc ld.posRear ld.vel, v.limitAcc limit] (by simp) rfl).before (followWindows_slow h).slower
      · have hk' : k ∈ j :: ks := by simpa [hka] using hk
        refine (ih (v := v) h hk' ?_).after hs1.slower
        rw [SlotMap.get?_modify_ne _ _ hka]; exact hv

/-- A vehicle follows the next vehicle on its link. -/
theorem followWindows_follows {limit : F} {k j : Key} : ∀ {ks : List Key} {vs vs' : VehicleSet F} {v ld : Vehicle F},
    Link.followWindows limit ks vs = .ok vs' → [k, j] <:+: ks → ks.Nodup → vs.get? k = some v → vs.get? j = some ld →
    Capped k (v.gapAcc ld.posRear ld.vel) vs vs' := by
  intro ks
  induction ks with
  | nil => intro vs vs' v ld _ hk; simp at hk
  | cons a ks ih =>
    intro vs vs' v ld h hk hnd hv hld
    cases ks with
    | nil => have := hk.length_le; simp at this
    | cons b ks =>
      simp only [Link.followWindows, M_bind_ok, updVeh_ok] at h
      obtain ⟨ld', hld', vs1, ⟨-, rfl⟩, h⟩ := h
      have hs1 : VSlow vs (vs.modify a fun v => (v.followVehicle ld'.posRear ld'.vel).applyCurrentSpeedLimit limit) :=
        VSlow.rfl'.modify a _ fun v v' hv => (hv.followVehicle _ _).applyCurrentSpeedLimit _
      rw [List.nodup_cons] at hnd
      rw [List.infix_cons_iff] at hk
      rcases hk with hk | hk
      · rw [List.cons_prefix_cons, List.cons_prefix_cons] at hk
        obtain ⟨rfl, rfl, -⟩ := hk
        rw [getVeh_ok, hld] at hld'; cases hld'
        have : Capped k (v.gapAcc ld.posRear ld.vel) vs
            (vs.modify k fun v => (v.followVehicle ld.posRear ld.vel).applyCurrentSpeedLimit limit) := by
          intro u hu
          rw [hv] at hu; cases hu
          exact ⟨_, [v.gapAcc ld.posRear ld.vel, v.limitAcc limit],
            by rw [SlotMap.get?_modify_self, hv]; rfl, by simp, v.willQueueOrEnter, rfl⟩
        exact this.before (followWindows_slow h).slower
      · have hka : k ≠ a := by
          rintro rfl; exact hnd.1 (hk.subset (by simp))
        have hja : j ≠ a := by
          rintro rfl; exact hnd.1 (hk.subset (by simp))
        refine (ih (v := v) (ld := ld) h hk hnd.2 ?_ ?_).after hs1.slower
        · rw [SlotMap.get?_modify_ne _ _ hka]; exact hv
        · rw [SlotMap.get?_modify_ne _ _ hja]; exact hld

/-! ## The phase -/

theorem linkAcc_follow [Env] {links : LinkSet F} (hN : NetInv strict links) {vs vs' : VehicleSet F}
    (hn : NetOK ⟨links, vs⟩) {lk : Key} {l : Link F} (hl : links.get? lk = some l)
    (h : Link.applyAccelerations links vs lk = .ok vs') :
    ∃ vs1, Link.followWindows l.speedLimit l.vehicles vs = .ok vs1 ∧ VSlow vs1 vs' := by
  have hi := hN.link lk l hl
  simp only [Link.applyAccelerations, M_bind_ok, getLink_ok] at h
  obtain ⟨l', hl', vs1, h1, vs2, h2, h3⟩ := h
  rw [hl] at hl'; cases hl'
  refine ⟨vs1, h1, ?_⟩
  have hs1 := followWindows_slow h1
  have hn1 : NetOK ⟨links, vs1⟩ := hn.same hs1.same
  have hv1 : ∀ j ∈ l.vehicles, vs1.contains j = true := hn1.vehs lk l hl
  rw [hi.id] at h2
  have hs2 : VSlow vs1 vs2 := (processVehicles_spec (E := fun _ => True) (I := fun vs' => VSlow vs1 vs') hn1 trivial
    (fun r s _ hs => enteringFn_spec hv1 r hs) _ l 0 lk _ _ vs1 hl .here VSlow.rfl').ok h2
  cases hg : l.group with
  | none => rw [hg] at h3; simp only [M_pure_ok] at h3; subst h3; exact hs2
  | some g =>
    rw [hg] at h3
    simp only [M_bind_ok] at h3
    obtain ⟨ps, hps, h3⟩ := h3
    have hmem : ∀ p ∈ ps, links.contains p.dst = true := by
      have hgi := hi.group g hg
      unfold LinkGroup.projectionsFromLink at hps
      split at hps
      · simp at hps
      · split at hps
        · simp at hps
        · dsimp only at hps
          split at hps
          · simp only [M_pure_ok] at hps
            subst hps
            exact fun p hp => hgi.proj p (List.mem_of_mem_take (List.mem_of_mem_drop hp))
          · simp at hps
    refine (Spec.foldlM (E := fun _ => True) (I := fun vs' => VSlow vs1 vs') (fun vs' h' p hp => ?_) hs2).ok h3
    refine (applyProjection_spec trivial (fun k l hl => (hN.link k l hl).segs) (hn1.same h'.same) ?_ (.inr trivial)
      (hmem p hp)).mono (fun vs'' h'' => VSlow.trans h' h'') (fun _ => fun h => h)
    intro j hj
    rw [SRel.contains h']; exact hn1.vehs lk l hl j hj

/-- If the windows of a link cap a vehicle whatever the accelerations are, the phase caps it. -/
theorem linkAccs_capped [Env] {n : Net F} (hN : NetInv strict n.links) (hn : NetOK n) {cs : List (ConflictPoint F)}
    (hcs : ∀ c ∈ cs, n.links.contains c.link0.linkId = true ∧ n.links.contains c.link1.linkId = true)
    {lk : Key} {l : Link F} (hl : n.links.get? lk = some l) {k : Key} {x : F}
    (hcap : ∀ vs vs', VSlow n.vehicles vs → Link.followWindows l.speedLimit l.vehicles vs = .ok vs' → Capped k x vs vs')
    {vs' : VehicleSet F} (h : Sim.applyLinkAccelerations cs n = .ok vs') : Capped k x n.vehicles vs' := by
  simp only [Sim.applyLinkAccelerations, M_bind_ok] at h
  obtain ⟨vs1, h1, h2⟩ := h
  have hs2 : VSlow n.vehicles vs1 → VSlow vs1 vs' := fun hs1 =>
    (Spec.foldlM (E := fun _ => True) (I := fun vs' => VSlow vs1 vs') (fun vs' h' c hc =>
      (c.applyAccelerations_spec trivial (.inr trivial) ((NetOK.same hn (VSlow.same hs1)).same (VSlow.same h'))
        (hcs c hc).1 (hcs c hc).2).mono (fun vs'' h'' => VSlow.trans h' h'') (fun _ h => h)) VSlow.rfl').ok h2
  have key : ∀ (ks : List Key), ks ⊆ n.links.keys → ∀ vs, VSlow n.vehicles vs →
      ks.foldlM (Link.applyAccelerations n.links) vs = .ok vs1 →
      VSlow vs vs1 ∧ (lk ∈ ks → Capped k x vs vs1) := by
    intro ks
    induction ks with
    | nil =>
      intro _ vs _ h
      simp only [List.foldlM_nil, M_pure_ok] at h
      subst h
      exact ⟨VSlow.rfl', nofun⟩
    | cons a ks ih =>
      intro hsub vs hs h
      rw [List.foldlM_cons, M_bind_ok] at h
      obtain ⟨vs2, h1, h2⟩ := h
      have hn' : NetOK ⟨n.links, vs⟩ := NetOK.same hn (VSlow.same hs)
      obtain ⟨la, hla⟩ := SlotMap.mem_keys.1 (hsub (List.mem_cons_self ..))
      obtain ⟨vs3, hw, hs3⟩ := linkAcc_follow hN hn' hla h1
      have hs02 : VSlow vs vs2 := (followWindows_slow hw).trans hs3
      obtain ⟨i1, i2⟩ := ih (fun j hj => hsub (List.mem_cons_of_mem _ hj)) vs2 (hs.trans hs02) h2
      refine ⟨hs02.trans i1, fun hmem => ?_⟩
      by_cases e : lk = a
      · subst e
        rw [hl] at hla; cases hla
        exact ((hcap vs vs3 hs hw).before hs3.slower).before i1.slower
      · exact (i2 (by simpa [e] using hmem)).after hs02.slower
  obtain ⟨k1, k2⟩ := key _ (fun _ h => h) _ VSlow.rfl' h1
  exact (k2 (SlotMap.mem_keys.2 ⟨l, hl⟩)).before (hs2 k1).slower

/-- What the recomputation gives to a vehicle that is not frozen and is capped on its link. -/
theorem AccRun.capped [Env] {s s' : Sim F} {n0 n1 : Net F} {vs : VehicleSet F} (hr : AccRun s n0 n1 vs s')
    {k : Key} {x : F} {v : Vehicle F} (hv : s.vehicles.get? k = some v) (hf : k ∉ s.frozen)
    (hcap : Capped k x n0.vehicles vs) : ∃ v', ∃ as : List F, ∃ w, s'.vehicles.get? k = some v' ∧ x ∈ as ∧
      v' = { v with acc := { v.acc with acc := as.foldl fmin v.acc.maxAcc }, willQueueOrEnter := w } := by
  have e : s'.vehicles = s.frozen.foldl (fun vs k => vs.modify k Vehicle.emergencyStop) vs := by rw [hr.eq]; rfl
  obtain ⟨v0, hv0, rfl⟩ := hr.prep.vehicles.fwd k v hv
  obtain ⟨v1, as, hv1, hx, w, rfl⟩ := hcap _ hv0
  obtain ⟨v2, hv2, e2⟩ := (emergency_foldl vs s.frozen).fwd k _ hv1
  rw [if_neg hf] at e2
  subst e2
  exact ⟨_, as, w, by rw [e]; exact hv2, hx, rfl⟩

theorem AccRun.windows [Env] {s s' : Sim F} (hs : SimMid strict s) {n0 n1 : Net F} {vs : VehicleSet F}
    (hr : AccRun s n0 n1 vs s') {lk : Key} {l : Link F} (hl : s.links.get? lk = some l) {k : Key} {x : F}
    (hcap : ∀ vs vs', SRel (fun _ v v' => VehSame v.reset v') s.vehicles vs →
      Link.followWindows l.speedLimit l.vehicles vs = .ok vs' → Capped k x vs vs') : Capped k x n0.vehicles vs := by
  have hok0 := hr.prep.netOK hs
  have hN0 : NetInv strict n0.links := hs.net.frame hr.prep.frame
  have hok1 := hok0.same hr.stop.same
  have hf1 : Frame n0.links n1.links := SRel.mono hr.stop.links fun _ _ _ => LinkSame.frame
  obtain ⟨l0, hl0, b, rfl, -⟩ := hr.prep.links.fwd lk l hl
  obtain ⟨l1, hl1, c, rfl, -⟩ := hr.stop.links.fwd lk _ hl0
  refine Capped.after (vs := n1.vehicles) ⟨_, hr.stop.vehicles⟩ ?_
  refine linkAccs_capped (hN0.frame hf1) hok1 (fun c hc => ?_) hl1 (fun vs2 vs3 h2 h3 => ?_) hr.runAcc
  · rw [hr.stop.links.contains, hr.stop.links.contains, hr.prep.links.contains, hr.prep.links.contains]
    exact hs.conflicts c hc
  · refine hcap vs2 vs3 ?_ h3
    refine (hr.prep.vehicles.trans (hr.stop.vehicles.trans h2 fun k v v' v'' a b => a.same.trans b.same) ?_)
    rintro k v v' v'' rfl h
    exact h

/-- A vehicle that is not frozen is given at most the acceleration for the speed limit of its link. -/
theorem AccRun.limit [Env] {s s' : Sim F} (hs : SimMid strict s) {n0 n1 : Net F} {vs : VehicleSet F}
    (hr : AccRun s n0 n1 vs s') {lk : Key} {l : Link F} (hl : s.links.get? lk = some l) {k : Key} {v : Vehicle F}
    (hv : s.vehicles.get? k = some v) (hk : k ∈ l.vehicles) (hf : k ∉ s.frozen) :
    ∃ v', ∃ as : List F, ∃ w, s'.vehicles.get? k = some v' ∧ v.limitAcc l.speedLimit ∈ as ∧
      v' = { v with acc := { v.acc with acc := as.foldl fmin v.acc.maxAcc }, willQueueOrEnter := w } := by
  refine hr.capped hv hf (hr.windows hs hl fun vs2 vs3 h2 h3 => ?_)
  obtain ⟨v2, hv2, a, w, rfl⟩ := h2.fwd k v hv
  have := followWindows_capped h3 hk hv2
  exact this

/-- A vehicle that is not frozen is given at most the acceleration for following the next vehicle. -/
theorem AccRun.follows [Env] {s s' : Sim F} (hs : SimMid strict s) {n0 n1 : Net F} {vs : VehicleSet F}
    (hr : AccRun s n0 n1 vs s') {lk : Key} {l : Link F} (hl : s.links.get? lk = some l) {k j : Key} {v u : Vehicle F}
    (hv : s.vehicles.get? k = some v) (hu : s.vehicles.get? j = some u) (hk : [k, j] <:+: l.vehicles) (hf : k ∉ s.frozen) :
    ∃ v', ∃ as : List F, ∃ w, s'.vehicles.get? k = some v' ∧ v.gapAcc u.posRear u.vel ∈ as ∧
      v' = { v with acc := { v.acc with acc := as.foldl fmin v.acc.maxAcc }, willQueueOrEnter := w } := by
  refine hr.capped hv hf (hr.windows hs hl fun vs2 vs3 h2 h3 => ?_)
  obtain ⟨v2, hv2, a, w, rfl⟩ := h2.fwd k v hv
  obtain ⟨u2, hu2, a', w', rfl⟩ := h2.fwd j u hu
  have := followWindows_follows h3 hk (hs.mem lk l hl).1 hv2 hu2
  exact this

end

end TrafficSim
