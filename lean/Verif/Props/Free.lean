import Verif.Lemmas.LinkAcc

/-! # C78: a vehicle that is alone is slowed down by speed limits only -/

namespace TrafficSim

section
variable {F : Type} [Flt F] {strict : Prop}

/-- `a` is an acceleration that the speed limit `limit` asks of a vehicle at the speed `vel`: where the limit already holds, it
lets the vehicle approach the limit; at a distance `d` ahead it slows the vehicle down to the limit, if this takes at least the
comfortable deceleration, and by no more than twice that. -/
inductive LimitAcc (m : AccelerationModel F) (vel limit : F) : F → Prop
  | now : LimitAcc m vel limit (m.maxAcc * (1.0 - pow4 (vel / (m.velAdj * limit))))
  | ahead (d : F) : ¬ d ≤ 0.0 → (sq (m.velAdj * limit) - sq vel) / (2.0 * d) ≤ -m.comfDec →
      LimitAcc m vel limit (fmax (2.0 * -m.comfDec) ((sq (m.velAdj * limit) - sq vel) / (2.0 * d)))

/-- `k` is the only vehicle; it is not frozen, may leave at the end of its route, and does not come back to its link, which is in no
group.  The links ahead on its route are open, and no two links of the route have a common point of conflict. -/
structure Alone (s : Sim F) (k : Key) (v : Vehicle F) : Prop where
  only : ∀ j w, s.vehicles.get? j = some w → j = k
  frozen : k ∉ s.frozen
  exit : v.canExit = true
  once : ∀ lk, v.route.head? = some lk → lk ∉ v.route.tail
  group : ∀ lk l, v.route.head? = some lk → s.links.get? lk = some l → l.group = none
  opened : ∀ j ∈ v.route.tail, ∀ l, s.links.get? j = some l → l.control = .open_
  conflicts : ∀ c ∈ s.conflicts, c.link0.linkId ∈ v.route → c.link1.linkId ∉ v.route

/-- The vehicle `k` is `v`, slowed down from its greatest acceleration by accelerations with the property `P`. -/
def Tuned (k : Key) (v : Vehicle F) (P : F → Prop) (vs : VehicleSet F) : Prop :=
  ∃ (as : List F) (w : Nat), vs.get? k = some { v with acc := { v.acc with acc := as.foldl fmin v.acc.maxAcc }, willQueueOrEnter := w } ∧
    ∀ a ∈ as, P a

variable {k : Key} {v : Vehicle F} {P : F → Prop} {vs : VehicleSet F}

theorem Tuned.limit (h : Tuned k v P vs) {limit : F} (hP : ∀ a, LimitAcc v.acc v.vel limit a → P a) :
    Tuned k v P (vs.modify k fun v => v.applyCurrentSpeedLimit limit) := by
  obtain ⟨as, w, h1, h2⟩ := h
  refine ⟨as ++ [v.acc.maxAcc * (1.0 - pow4 (v.vel / (v.acc.velAdj * limit)))], w, ?_, ?_⟩
  · rw [SlotMap.get?_modify_self, h1, List.foldl_append]; rfl
  · intro a ha
    rcases List.mem_append.1 ha with ha | ha
    · exact h2 a ha
    · rw [List.mem_singleton] at ha
      subst ha; exact hP _ .now

theorem Tuned.limitAhead (h : Tuned k v P vs) {limit p : F} (hP : ∀ a, LimitAcc v.acc v.vel limit a → P a) :
    Tuned k v P (vs.modify k fun v => v.applySpeedLimit limit p) := by
  obtain ⟨as, w, h1, h2⟩ := h
  by_cases hd : p - v.pos ≤ 0.0
  · have := Tuned.limit ⟨as, w, h1, h2⟩ hP
    obtain ⟨as', w', h1', h2'⟩ := this
    refine ⟨as', w', ?_, h2'⟩
    rw [← h1', SlotMap.get?_modify_self, SlotMap.get?_modify_self, h1]
    simp only [Option.map_some, Vehicle.applySpeedLimit, AccelerationModel.applySpeedLimit, Vehicle.applyCurrentSpeedLimit, if_pos hd]
  · by_cases ht : (sq (v.acc.velAdj * limit) - sq v.vel) / (2.0 * (p - v.pos)) ≤ -v.acc.comfDec
    · refine ⟨as ++ [fmax (2.0 * -v.acc.comfDec) ((sq (v.acc.velAdj * limit) - sq v.vel) / (2.0 * (p - v.pos)))], w, ?_, ?_⟩
      · rw [SlotMap.get?_modify_self, h1, List.foldl_append]
        simp only [Option.map_some, Vehicle.applySpeedLimit, AccelerationModel.applySpeedLimit, if_neg hd, if_pos ht]
        rfl
      · intro a ha
        rcases List.mem_append.1 ha with ha | ha
        · exact h2 a ha
        · rw [List.mem_singleton] at ha
          subst ha; exact hP _ (.ahead _ hd ht)
    · refine ⟨as, w, ?_, h2⟩
      rw [SlotMap.get?_modify_self, h1]
      simp only [Option.map_some, Vehicle.applySpeedLimit, AccelerationModel.applySpeedLimit, if_neg hd, if_neg ht]

theorem Tuned.enter (h : Tuned k v P vs) : Tuned k v P (vs.modify k fun v => v.enterLink) := by
  obtain ⟨as, w, h1, h2⟩ := h
  exact ⟨as, 2, by rw [SlotMap.get?_modify_self, h1]; rfl, h2⟩

/-- What the network of the simulation `s` looks like while accelerations are computed. -/
structure Meanwhile (s : Sim F) (n : Net F) : Prop where
  ok : NetOK n
  links : SRel (fun _ l l' => ∃ b c, l' = { l with active := b, lastConflict := c }) s.links n.links
  vehicles : SRel (fun _ v v' => VehSame v.reset v') s.vehicles n.vehicles

omit [Flt F] in
theorem VehSame.route {u u' : Vehicle F} (h : VehSame u.reset u') :
    u'.route = u.route ∧ u'.canExit = u.canExit ∧ u'.entered = u.entered ∧ u'.queued = u.queued := by
  obtain ⟨a, w, rfl⟩ := h; exact ⟨rfl, rfl, rfl, rfl⟩

omit [Flt F] in
theorem getRoute_get {u : Vehicle F} {i : Nat} {j : Key} {st : RouteState} (h : u.getRoute i = some (j, st)) : u.route[i]? = some j := by
  unfold Vehicle.getRoute at h
  cases hr : u.route[i]? with
  | none => simp [hr] at h
  | some k' => simp [hr] at h; rw [← h.1]

theorem mem_tail_of_get {l : List Key} {i : Nat} {j : Key} (h : l[i + 1]? = some j) : j ∈ l.tail := by
  cases l with
  | nil => simp at h
  | cons a l => rw [List.getElem?_cons_succ] at h; exact List.mem_of_getElem? h

/-- A vehicle that a search visits is `k`. -/
theorem Alone.visited {s : Sim F} (ha : Alone s k v) (hv : s.vehicles.get? k = some v) {n : Net F} (hm : Meanwhile s n) {k0 : Key} {p : F}
    {r : RelVeh F} (hr : Visited n k0 p r) : r.key = k ∧ r.vehicle.route = v.route ∧ r.vehicle.canExit = v.canExit ∧
      r.vehicle.route[r.routeIdx]? = some k0 := by
  obtain ⟨u, hu, hs⟩ := hm.vehicles.bwd hr.veh
  have e := ha.only _ _ hu
  rw [e, hv] at hu; cases hu
  obtain ⟨-, -, -, -, -, st, h, -⟩ := hr.place
  exact ⟨e, hs.route.1, hs.route.2.1, getRoute_get h⟩

theorem Alone.stopline [Env] {s : Sim F} (ha : Alone s k v) (hv : s.vehicles.get? k = some v) {n m : Net F} (hm : Meanwhile s n)
    {lk : Key} {l : Link F} {p : F} {r : RelVeh F} (hr : Visited n lk p r) (hT : Tuned k v P m.vehicles) :
    Spec (Link.stoplineFn n l r m) (fun _ => True) fun p => Tuned k v P p.1.vehicles := by
  obtain ⟨e1, e2, e3, -⟩ := ha.visited hv hm hr
  unfold Link.stoplineFn
  split
  · exact Spec.pure hT
  · rename_i j state hne hst
    have hj : j ∈ v.route.tail := by rw [← e2]; exact mem_tail_of_get (getRoute_get hst)
    have hk : n.links.contains j = true := hm.ok.routes _ _ hr.veh j (getRoute_mem hst)
    refine (getLink_spec hk).bind fun next hnext => ?_
    obtain ⟨l0, hl0, b, c, rfl⟩ := hm.links.bwd hnext
    have := ha.opened j hj l0 hl0
    dsimp only
    rw [this]
    refine Spec.ite (fun h => Spec.pure ?_) (fun _ => Spec.pure hT)
    have := hT.enter
    rw [← e1] at this ⊢
    exact this
  · rw [e3, ha.exit]
    exact Spec.pure hT

theorem Alone.entering {s : Sim F} (ha : Alone s k v) (hv : s.vehicles.get? k = some v) (hs : SimInv strict s) {links : LinkSet F} (hm : Meanwhile s ⟨links, vs⟩)
    {lk : Key} {l : Link F} (hl : links.get? lk = some l) {r : RelVeh F} (hr : Visited ⟨links, vs⟩ lk 0.0 r) (hi : r.routeIdx ≠ 0)
    {vs' : VehicleSet F} (hP : ∀ a, LimitAcc v.acc v.vel l.speedLimit a → lk ∈ v.route → P a) (hT : Tuned k v P vs') :
    Spec (Link.enteringFn l r vs') (fun _ => True) fun p => Tuned k v P p.1 := by
  obtain ⟨e1, e2, -, e4⟩ := ha.visited hv hm hr
  have hmem : lk ∈ v.route.tail := by
    obtain ⟨i, hi⟩ : ∃ i, r.routeIdx = i + 1 := ⟨r.routeIdx - 1, by omega⟩
    rw [← e2]; rw [hi] at e4; exact mem_tail_of_get e4
  have hl0 : l.vehicles = [] := by
    obtain ⟨l0, hl0, b, c, rfl⟩ := hm.links.bwd hl
    dsimp only
    cases hvs : l0.vehicles with
    | nil => rfl
    | cons j _ =>
      obtain ⟨w, hw, hwl⟩ := ((hs.mem lk l0 hl0).2 j).1 (by simp [hvs])
      have := ha.only j w hw
      rw [this, hv] at hw; cases hw
      exact absurd hmem (ha.once lk hwl)
  unfold Link.enteringFn
  dsimp only
  rw [hl0]
  refine Spec.pure ?_
  have := Tuned.limitAhead hT (p := r.pos + 0.0) (limit := l.speedLimit) fun a h => hP a h (List.mem_of_mem_tail hmem)
  rw [← e1] at this ⊢
  exact this

/-- The rule for searches, for vehicles on links from the `i`th of their route. -/
theorem processVehicles_from {σ : Type} {E : Err → Prop} {I : σ → Prop} {n : Net F} (hn : NetOK n)
    {f : RelVeh F → σ → M (σ × Bool)} {k0 : Key} {pos0 : F} (hE : E .diverges) {i0 : Nat}
    (hf : ∀ r s, Visited n k0 pos0 r → i0 ≤ r.routeIdx → I s → Spec (f r s) E fun p => I p.1) :
    ∀ (fuel : Nat) (l : Link F) (i : Nat) (k : Key) (pos : F) (skip : Nat) (s : σ), i0 ≤ i →
    n.links.get? k = some l → Upstream n.links k0 pos0 i k pos → I s →
    Spec (Link.processVehicles n f fuel l (i, k0) pos skip s) E I := by
  intro fuel
  induction fuel with
  | zero => intro l i k pos skip s _ _ _ _; unfold Link.processVehicles; exact Spec.throw hE
  | succ fuel ih =>
    intro l i k pos skip s hi hl hu hs
    unfold Link.processVehicles
    refine Spec.ite (fun _ => Spec.pure hs) (fun _ => ?_)
    refine (processList_spec (P := fun r => Visited n k0 pos0 r ∧ i0 ≤ r.routeIdx) (fun r s h hs => hf r s h.1 h.2 hs)
      (l.vehicles.reverse.drop skip) (fun j hj => hn.vehs k l hl j ?_) (fun j hj v st hv hr hst => ?_) s hs).bind fun p hp => ?_
    · exact List.mem_reverse.1 (List.mem_of_mem_drop hj)
    · exact ⟨⟨hv, k, l, hu, hl, List.mem_reverse.1 (List.mem_of_mem_drop hj), st, hr, hst⟩, hi⟩
    · refine Spec.ite (fun _ => Spec.pure hp) (fun _ => Spec.ite (fun _ => Spec.pure hp) (fun _ => ?_))
      refine Spec.foldlM (fun s hs j hj => ?_) hp
      refine (getLink_spec (hn.ins k l hl j hj)).bind fun l' hl' => ?_
      exact ih l' (i + 1) j (pos + l'.length) 0 s (by omega) hl' (hu.up hl hj hl') hs

/-- A search that skips the vehicles of the link it starts from. -/
theorem processVehicles_skip {σ : Type} {E : Err → Prop} {I : σ → Prop} {n : Net F} (hn : NetOK n)
    {f : RelVeh F → σ → M (σ × Bool)} {k0 : Key} {pos0 : F} (hE : E .diverges)
    (hf : ∀ r s, Visited n k0 pos0 r → 1 ≤ r.routeIdx → I s → Spec (f r s) E fun p => I p.1)
    (fuel : Nat) {l : Link F} {s : σ} (hl : n.links.get? k0 = some l) (hs : I s) :
    Spec (Link.processVehicles n f fuel l (0, k0) pos0 l.vehicles.length s) E I := by
  cases fuel with
  | zero => unfold Link.processVehicles; exact Spec.throw hE
  | succ fuel =>
    unfold Link.processVehicles
    refine Spec.ite (fun _ => Spec.pure hs) (fun _ => ?_)
    have : l.vehicles.reverse.drop l.vehicles.length = [] := by rw [List.drop_eq_nil_iff]; simp
    rw [this]
    refine Spec.bind (P := fun p => I p.1) (by unfold Link.processList; exact Spec.pure hs) fun p hp => ?_
    refine Spec.ite (fun _ => Spec.pure hp) (fun _ => Spec.ite (fun _ => Spec.pure hp) (fun _ => ?_))
    refine Spec.foldlM (fun s hs j hj => ?_) hp
    refine (getLink_spec (hn.ins k0 l hl j hj)).bind fun l' hl' => ?_
    exact processVehicles_from hn hE hf fuel l' 1 j _ 0 s le_rfl hl' (.up .here hl hj hl') hs

/-- The speed limits of the links of the route. -/
def RouteLimit (s : Sim F) (v : Vehicle F) (a : F) : Prop :=
  ∃ j l, j ∈ v.route ∧ s.links.get? j = some l ∧ LimitAcc v.acc v.vel l.speedLimit a

theorem Meanwhile.slow {s : Sim F} {n : Net F} (h : Meanwhile s n) {vs' : VehicleSet F} (hs : VSlow n.vehicles vs') :
    Meanwhile s ⟨n.links, vs'⟩ :=
  ⟨h.ok.same (VSlow.same hs), h.links, h.vehicles.trans hs fun _ _ _ _ a b => a.trans b.same⟩

theorem Alone.linkAcc [Env] {s : Sim F} (ha : Alone s k v) (hv : s.vehicles.get? k = some v) (hs : SimInv strict s) {links : LinkSet F}
    (hN : NetInv strict links) (hm : Meanwhile s ⟨links, vs⟩) {lk : Key} (hlk : links.contains lk = true) {vs' : VehicleSet F}
    (hT : Tuned k v (RouteLimit s v) vs) (h : Link.applyAccelerations links vs lk = .ok vs') :
    VSlow vs vs' ∧ Tuned k v (RouteLimit s v) vs' := by
  obtain ⟨l, hl⟩ := get_of_contains hlk
  obtain ⟨vs1, vs2, hw⟩ := linkAccRun hN hm.ok hl h
  obtain ⟨l0, hl0, b, c, rfl⟩ := hm.links.bwd hl
  refine ⟨(hw.slow1.trans hw.slow2).trans hw.slow3, ?_⟩
  have hall : ∀ j ∈ l0.vehicles, j = k ∧ v.route.head? = some lk := by
    intro j hj
    obtain ⟨w, hw, hwl⟩ := ((hs.mem lk l0 hl0).2 j).1 hj
    obtain rfl := ha.only j w hw
    rw [hv] at hw; cases hw
    exact ⟨rfl, hwl⟩
  have h1 : Tuned k v (RouteLimit s v) vs1 := by
    have hwin := hw.windows
    dsimp only at hwin
    have hnd := (hs.mem lk l0 hl0).1
    cases hvs : l0.vehicles with
    | nil =>
      rw [hvs] at hwin
      unfold Link.followWindows at hwin
      rw [M_pure_ok] at hwin; subst hwin; exact hT
    | cons j js =>
      have hj := hall j (by simp [hvs])
      obtain rfl := hj.1
      cases js with
      | nil =>
        rw [hvs] at hwin
        unfold Link.followWindows at hwin
        rw [updVeh_ok] at hwin
        rw [hwin.2]
        exact hT.limit fun a h => ⟨lk, l0, List.mem_of_head? hj.2, hl0, h⟩
      | cons i js =>
        have := (hall i (by simp [hvs])).1
        rw [hvs] at hnd
        simp [this] at hnd
  have hm1 := hm.slow hw.slow1
  have h2 : Tuned k v (RouteLimit s v) vs2 := by
    have hid : l0.id = lk := (hN.link lk _ hl).id
    subst hid
    refine (processVehicles_skip (E := fun _ => True) hm1.ok trivial (fun r u hr hi hu => ?_) Env.fuel hl h1).ok hw.entering
    exact ha.entering hv hs hm1 hl hr (by omega) (fun a h1 h2 => ⟨l0.id, l0, h2, hl0, h1⟩) hu
  rcases hw.projs with ⟨-, rfl⟩ | ⟨g, ps, hg, -, -, hp⟩
  · exact h2
  · have hno : l0.vehicles = [] := by
      cases hvs : l0.vehicles with
      | nil => rfl
      | cons j js =>
        have := ha.group lk l0 (hall j (by simp [hvs])).2 hl0
        rw [show l0.group = some g from hg] at this; cases this
    have : ∀ (ps : List (LinkProjection F)) (u u' : VehicleSet F),
        ps.foldlM (Link.applyProjection links { l0 with active := b, lastConflict := c }) u = .ok u' → u' = u := by
      intro ps
      induction ps with
      | nil => intro u u' h; rw [List.foldlM_nil, M_pure_ok] at h; exact h.symm
      | cons p ps ih =>
        intro u u' h
        rw [List.foldlM_cons, M_bind_ok] at h
        obtain ⟨u1, h1, h2⟩ := h
        rw [ih _ _ h2]
        simp only [Link.applyProjection, hno, List.reverse_nil, Link.followObstacles, M_bind_ok, M_pure_ok] at h1
        obtain ⟨_, -, _, rfl, rfl⟩ := h1
        rfl
    rw [this _ _ _ hp]; exact h2

theorem Alone.conflict [Env] {s : Sim F} (ha : Alone s k v) (hv : s.vehicles.get? k = some v) {links : LinkSet F}
    (hm : Meanwhile s ⟨links, vs⟩) {c : ConflictPoint F} (hc : c ∈ s.conflicts) (h0 : links.contains c.link0.linkId = true)
    (h1 : links.contains c.link1.linkId = true) {vs' : VehicleSet F} (h : c.applyAccelerations links vs = .ok vs') : vs' = vs := by
  have hmem : ∀ {j : Key} {p : F} {r : RelVeh F}, Visited ⟨links, vs⟩ j p r → j ∈ v.route := by
    intro j p r hr
    obtain ⟨-, e2, -, e4⟩ := ha.visited hv hm hr
    rw [← e2]; exact List.mem_of_getElem? e4
  unfold ConflictPoint.applyAccelerations at h
  rw [M_bind_ok] at h
  obtain ⟨b0, hb0, h⟩ := h
  obtain ⟨n0, e0, hn0⟩ := (findVehicles_spec (E := fun _ => True) trivial hm.ok c.link0 h0 []).ok hb0
  rw [List.nil_append] at e0
  subst e0
  split at h
  · rw [M_pure_ok] at h; exact h.symm
  · rename_i hne
    have hin : c.link0.linkId ∈ v.route := by
      cases b0 with
      | nil => simp at hne
      | cons r _ => exact hmem (hn0 r (by simp)).1
    rw [M_bind_ok] at h
    obtain ⟨b1, hb1, h⟩ := h
    obtain ⟨n1, rfl, hn1⟩ := (findVehicles_spec (E := fun _ => True) trivial hm.ok c.link1 h1 _).ok hb1
    have : n1 = [] := by
      cases n1 with
      | nil => rfl
      | cons r _ => exact absurd (hmem (hn1 r (by simp)).1) (ha.conflicts c hc hin)
    subst this
    rw [if_pos (by simp), M_pure_ok] at h
    exact h.symm

/-- The recomputation of accelerations, for a vehicle that is alone. -/
theorem AccRun.alone [Env] {s s' : Sim F} (hs : SimInv strict s) {n0 n1 : Net F} {vs : VehicleSet F} (hr : AccRun s n0 n1 vs s')
    (hv : s.vehicles.get? k = some v) (ha : Alone s k v) : Tuned k v (RouteLimit s v) s'.vehicles := by
  have hok0 := hr.prep.netOK hs.mid
  have hN0 : NetInv strict n0.links := hs.net.frame hr.prep.frame
  have hf1 : Frame n0.links n1.links := SRel.mono hr.stop.links fun _ _ _ => LinkSame.frame
  have hm0 : Meanwhile s n0 := by
    refine ⟨hok0, hr.prep.links.mono ?_, hr.prep.vehicles.mono ?_⟩
    · rintro k l l' ⟨b, rfl, -⟩; exact ⟨b, _, rfl⟩
    · rintro k v v' rfl; exact ⟨_, _, rfl⟩
  have hmid : ∀ n, NetAcc (Decided n0) n0 n → Meanwhile s n := by
    intro n hn
    refine ⟨hok0.same hn.same, hm0.links.trans hn.links ?_, hm0.vehicles.trans hn.vehicles fun _ _ _ _ a b => a.trans b.same⟩
    rintro k l l' l'' ⟨b, c, rfl⟩ ⟨c', rfl, -⟩
    exact ⟨b, c', rfl⟩
  have hT0 : Tuned k v (RouteLimit s v) n0.vehicles := by
    obtain ⟨u, hu, rfl⟩ := hr.prep.vehicles.fwd k v hv
    exact ⟨[], v.willQueueOrEnter, hu, by simp⟩
  have hT1 : Tuned k v (RouteLimit s v) n1.vehicles := by
    refine ((Spec.foldlM (E := fun _ => True) (I := fun n => NetAcc (Decided n0) n0 n ∧ Tuned k v (RouteLimit s v) n.vehicles)
      (fun n hn j hj => ?_) ⟨NetAcc.rfl', hT0⟩).ok hr.runStop).2
    obtain ⟨hn, hT⟩ := hn
    obtain ⟨l, hl⟩ := SlotMap.mem_keys.1 hj
    have hj' : n.links.contains j = true := by rw [hn.links.contains]; exact contains_of_get hl
    have hm := hmid n hn
    have h1 := applyStoplines_spec (E := fun _ => True) hm.ok hn.same (fun k l' hl' => by
      obtain ⟨l, hl, c, rfl, hc⟩ := hn.links.bwd hl'
      exact hc (hN0.link k l hl).last) trivial hj'
    have h2 : Spec (Link.applyStoplines n j) (fun _ => True) fun n' => Tuned k v (RouteLimit s v) n'.vehicles := by
      unfold Link.applyStoplines
      refine (getLink_spec hj').bind fun l hl => ?_
      rw [hm.ok.ids j l hl]
      exact processVehicles_spec (I := fun n' : Net F => Tuned k v (RouteLimit s v) n'.vehicles) hm.ok trivial
        (fun r u hr hu => ha.stopline hv hm hr hu) _ l 0 j l.length 0 n hl .here hT
    exact (h1.and h2).mono (fun n' h => ⟨hn.trans h.1, h.2⟩) fun _ _ => trivial
  have hm1 := hmid n1 hr.stop
  have hN1 := hN0.frame hf1
  have hrun := hr.runAcc
  simp only [Sim.applyLinkAccelerations, M_bind_ok] at hrun
  obtain ⟨vs1, hrun1, hrun2⟩ := hrun
  have h1 : VSlow n1.vehicles vs1 ∧ Tuned k v (RouteLimit s v) vs1 := by
    refine (Spec.foldlM (E := fun _ => True) (I := fun u => VSlow n1.vehicles u ∧ Tuned k v (RouteLimit s v) u)
      (fun u hu j hj => Spec.of_ok fun u' hu' => ?_) ⟨VSlow.rfl', hT1⟩).ok hrun1
    obtain ⟨l, hl⟩ := SlotMap.mem_keys.1 hj
    obtain ⟨g1, g2⟩ := ha.linkAcc hv hs hN1 (hm1.slow hu.1) (contains_of_get hl) hu.2 hu'
    exact ⟨hu.1.trans g1, g2⟩
  have h2 : vs = vs1 := by
    refine (Spec.foldlM (E := fun _ => True) (I := fun u => u = vs1) (fun u hu c hc => Spec.of_ok fun u' hu' => ?_) rfl).ok hrun2
    subst hu
    have := hs.conflicts c hc
    rw [← hm1.links.contains, ← hm1.links.contains] at this
    exact ha.conflict hv (hm1.slow h1.1) hc this.1 this.2 hu'
  subst h2
  obtain ⟨as, w, g1, g2⟩ := h1.2
  obtain ⟨u, hu, eu⟩ := (emergency_foldl vs s.frozen).fwd k _ g1
  rw [if_neg ha.frozen] at eu
  subst eu
  refine ⟨as, w, ?_, g2⟩
  rw [hr.eq]; exact hu

/-- **C78** When accelerations are due, a vehicle that is alone, and on whose route all links ahead are open, is slowed down only by
the speed limits of the links of its route: its acceleration is its greatest acceleration or the least of some that these ask for. -/
theorem C78_free [Env] [LawfulDijkstra] {s s' s1 : Sim F} {dt : F} (h : Reach strict s) (hst : s.step dt = .ok s')
    (hre : ¬ s.accUpdate < 0.1) (hlanes : s.calculateLaneChanges = .ok s1) {v1 v' : Vehicle F}
    (hv1 : s1.getVehicle k = .ok v1) (hv' : s'.getVehicle k = .ok v') (ha : Alone s1 k v1) :
    ∃ as : List F, v'.acc.acc = as.foldl fmin v1.acc.maxAcc ∧
      ∀ a ∈ as, ∃ j l, j ∈ v1.route ∧ s1.getLinkRef j = .ok l ∧ LimitAcc v1.acc v1.vel l.speedLimit a := by
  obtain ⟨s1', s2, s3, s4, s5, s6, hr⟩ := (step_spec h.inv dt).ok hst
  rw [hr.run1] at hlanes; cases hlanes
  obtain ⟨v, hv⟩ := hr.back (getVeh_ok.1 hv')
  obtain ⟨v1', v2, v4, ht⟩ := hr.trace hv
  have g1 := ht.get1
  rw [getVeh_ok.1 hv1] at g1; cases g1
  obtain ⟨-, ea, -⟩ := ht.vel (getVeh_ok.1 hv')
  rw [ea]
  rcases ht.acc with ⟨hlt, -⟩ | ⟨-, n0, n1, vs, har, -⟩
  · rw [hr.clocks.1] at hlt; exact absurd hlt hre
  obtain ⟨as, w, e1, e2⟩ := har.alone hr.inv1 (getVeh_ok.1 hv1) ha
  have g2 := ht.get2
  rw [hr.vehicles3, e1] at g2; cases g2
  refine ⟨as, rfl, fun a h => ?_⟩
  obtain ⟨j, l, h1, h2, h3⟩ := e2 a h
  exact ⟨j, l, h1, getLink_ok.2 h2, h3⟩

end

end TrafficSim
