import Verif.Lemmas.LinkAcc
import Verif.Props.Dynamics

/-! # C64, C65, C66: following, and speed limits ahead -/

namespace TrafficSim

section
variable {F : Type} [Flt F] {strict : Prop} {s s' s1 : Sim F} {dt : F} {k j : Key} {v1 v' u : Vehicle F}

theorem getAcc_le {v1 v' : Vehicle ℝ} {x : ℝ}
    (h : v'.acc.acc = -6.0 ∨ ∃ as : List ℝ, x ∈ as ∧ v'.acc.acc = as.foldl fmin v1.acc.maxAcc) :
    v'.acc.getAcc ≤ max (min v1.acc.maxAcc x) (-6) := by
  refine max_le ?_ (le_trans ?_ (le_max_right _ _))
  · rcases h with e | ⟨as, hx, e⟩
    · rw [e]; exact le_trans (by norm_num) (le_max_right _ _)
    · rw [e]
      exact le_trans (le_min (foldl_min_le as _).1 ((foldl_min_le as _).2 _ hx)) (le_max_left _ _)
  · simp only [maxDecel]; norm_num

/-! ## C64 -/

/-- **C64** (any numbers) If accelerations are recomputed and `j` is the next vehicle after `k` on a link after lane
changes, the acceleration of `k` is -6 m/s², if it is frozen, or the least of several values, among them the
car-following acceleration for the rear of `j`. -/
theorem C64_follow [Env] [LawfulDijkstra] (h : Reach strict s) (hst : s.step dt = .ok s') (hre : ¬ s.accUpdate < 0.1)
    (hlanes : s.calculateLaneChanges = .ok s1) (hv1 : s1.getVehicle k = .ok v1) (hv' : s'.getVehicle k = .ok v')
    (hu : s1.getVehicle j = .ok u) {lk : Key} {l : Link F} (hl : s1.getLinkRef lk = .ok l) (hkj : [k, j] <:+: l.vehicles) :
    v'.acc.acc = -6.0 ∨ ∃ as : List F, v1.acc.idm (u.posRear - v1.posFront) v1.vel u.vel ∈ as ∧
      v'.acc.acc = as.foldl fmin v1.acc.maxAcc := by
  refine capped_step h hst hre hlanes hv1 hv' fun hi _ n0 n1 vs s2 hr =>
    hr.windows hi.mid (getLink_ok.1 hl) fun vs2 vs3 h2 h3 => ?_
  obtain ⟨v2, hv2, a, w, rfl⟩ := h2.fwd k v1 (getVeh_ok.1 hv1)
  obtain ⟨u2, hu2, a', w', rfl⟩ := h2.fwd j u (getVeh_ok.1 hu)
  have := followWindows_follows h3 hkj (hi.mem lk l (getLink_ok.1 hl)).1 hv2 hu2
  exact this

/-! ## C65, C66 -/

/-- The first vehicle that comes to the link `k0`, which is number `i` in the route of `v`, may be sought on the link
with number `i - d`, from which the start of `k0` is at position `pos`: the links between them are in use, and no
vehicle on them drives to `k0` or is so far away that the search ends there. -/
inductive ClearTo (s : Sim F) (v : Vehicle F) (i : Nat) (k0 : Key) : Nat → Key → F → Prop
  | first {j : Key} {l l' : Link F} : v.route[i]? = some k0 → s.links.get? k0 = some l →
      (∃ a w, s.vehicles.get? a = some w ∧ k0 ∈ w.route.take w.entered) →
      ¬ 0.0 ≤ 0.0 - maxLookahead * l.speedLimit → 1 ≤ i → v.route[i - 1]? = some j → s.links.get? j = some l' →
      ClearTo s v i k0 1 j (0.0 + l'.length)
  | back {d : Nat} {k j : Key} {pos : F} {l l' : Link F} : ClearTo s v i k0 d k pos → s.links.get? k = some l →
      (∃ a w, s.vehicles.get? a = some w ∧ k ∈ w.route.take w.entered) →
      (∀ a ∈ l.vehicles, ∀ w, s.vehicles.get? a = some w →
        ¬ w.posFront < pos - maxLookahead * l.speedLimit ∧ w.route[d]? ≠ some k0) →
      ¬ 0.0 ≤ pos - maxLookahead * l.speedLimit → d + 1 ≤ i → v.route[i - (d + 1)]? = some j → s.links.get? j = some l' →
      ClearTo s v i k0 (d + 1) j (pos + l'.length)

/-- Vehicles are at most slowed down or given a decision. -/
def VehsSlower (vs vs' : VehicleSet F) : Prop := SRel (VehAcc fun _ _ => True) vs vs'

theorem enteringFn_slower {l : Link F} (r : RelVeh F) (vs : VehicleSet F) (p : VehicleSet F × Bool)
    (h : Link.enteringFn l r vs = .ok p) : VehsSlower vs p.1 := by
  have h0 : VehsSlower vs (r.applySpeedLimit l.speedLimit 0.0 vs) :=
    SRel.modify (SRel.refl fun _ _ _ => VehAcc.rfl') r.key _ fun _ _ _ _ hr => hr.applySpeedLimit _ _
  unfold Link.enteringFn at h
  dsimp only at h
  split at h
  · rw [M_pure_ok] at h; subst h; exact h0
  · rw [M_bind_ok] at h
    obtain ⟨ld, -, h⟩ := h
    rw [M_pure_ok] at h; subst h
    exact SRel.modify h0 r.key _ fun _ _ _ _ hr => hr.followVehicle _ _

theorem enteringFn_brk {l : Link F} (r : RelVeh F) (vs : VehicleSet F) (p : VehicleSet F × Bool)
    (h : Link.enteringFn l r vs = .ok p) : p.2 = true := by
  unfold Link.enteringFn at h
  dsimp only at h
  split at h
  · rw [M_pure_ok] at h; subst h; rfl
  · rw [M_bind_ok] at h
    obtain ⟨ld, -, h⟩ := h
    rw [M_pure_ok] at h; subst h; rfl

omit [Flt F] in
theorem Before.used {s : Sim F} {n : Net F} (hb : Before s n) {j : Key} {l : Link F} (hl : s.links.get? j = some l)
    (hu : ∃ a w, s.vehicles.get? a = some w ∧ j ∈ w.route.take w.entered) :
    ∃ c, n.links.get? j = some { l with active := true, lastConflict := c } := by
  obtain ⟨l', hl', b, c, rfl, hact⟩ := hb.links.fwd j l hl
  have : b = true := hact.2 hu
  subst this
  exact ⟨c, hl'⟩

theorem ClearTo.start {s : Sim F} {v : Vehicle F} {i d : Nat} {k0 k : Key} {pos : F} (h : ClearTo s v i k0 d k pos) :
    ∃ l j l', v.route[i]? = some k0 ∧ s.links.get? k0 = some l ∧ (∃ a w, s.vehicles.get? a = some w ∧ k0 ∈ w.route.take w.entered) ∧
      ¬ 0.0 ≤ 0.0 - maxLookahead * l.speedLimit ∧ 1 ≤ i ∧ v.route[i - 1]? = some j ∧ s.links.get? j = some l' ∧
      v.route[i - d]? = some k ∧ (∃ lk, s.links.get? k = some lk) ∧ d ≤ i := by
  induction h with
  | first h1 h2 h3 h4 h5 h6 h7 => exact ⟨_, _, _, h1, h2, h3, h4, h5, h6, h7, h6, ⟨_, h7⟩, h5⟩
  | back _ _ _ _ _ h1 h2 h3 ih =>
    obtain ⟨l, j, l', a1, a2, a3, a4, a5, a6, a7, -, -, -⟩ := ih
    exact ⟨l, j, l', a1, a2, a3, a4, a5, a6, a7, h2, ⟨_, h3⟩, h1⟩

theorem ClearTo.way [Env] {s : Sim F} (hs : SimInv strict s) {n : Net F} (hb : Before s n)
    (hsym : ∀ a b la lb, s.links.get? a = some la → s.links.get? b = some lb → b ∈ la.linksOut → a ∈ lb.linksIn)
    {k : Key} {v : Vehicle F} (hv : s.vehicles.get? k = some v) {i d : Nat} {k0 k1 : Key} {pos : F}
    (lc : Link F) (h : ClearTo s v i k0 d k1 pos) : ∀ {j : Key} {l' : Link F}, v.route[i - 1]? = some j →
    s.links.get? j = some l' → Way n (Link.enteringFn lc) k0 1 j (0.0 + l'.length) d k1 pos := by
  induction h with
  | first h1 h2 h3 h4 h5 h6 h7 =>
    intro j l' hj hl'
    rw [h6] at hj; cases hj
    rw [h7] at hl'; cases hl'
    exact .here
  | @back d k2 j' pos l l'' h1 h2 h3 h4 h5 h6 h7 h8 ih =>
    intro j l' hj hl'
    obtain ⟨-, -, -, -, -, -, -, -, -, -, hr, -, hd⟩ := h1.start
    obtain ⟨c, g⟩ := hb.used h2 h3
    obtain ⟨l8, g', b, c', rfl, -⟩ := hb.links.fwd j' l'' h8
    have key := fun A B => (ih hj hl').snoc g rfl A h5 B g'
    refine key (fun a ha => ?_) ?_
    · obtain ⟨w, hw, -⟩ := ((hs.mem k2 l h2).2 a).1 ha
      obtain ⟨w', hw', x, y, rfl⟩ := hb.vehicles.fwd a w hw
      obtain ⟨n1, n2⟩ := h4 a ha w hw
      refine ⟨_, hw', n1, fun st hst => absurd ?_ n2⟩
      exact (getRoute_link (v := { w.reset with acc := { w.reset.acc with acc := x }, willQueueOrEnter := y }) hst).1
    · refine hsym j' k2 l'' l h8 h2 ?_
      have hch := (hs.veh k v hv).drivable.chain
      rw [List.isChain_iff_getElem] at hch
      obtain ⟨hlt, e⟩ := List.getElem?_eq_some_iff.1 hr
      obtain ⟨hlt', e'⟩ := List.getElem?_eq_some_iff.1 h7
      obtain ⟨la, hla, hm⟩ := hch (i - (d + 1)) (by omega)
      rw [e', h8] at hla; cases hla
      have e3 : v.route[i - (d + 1) + 1]'(by omega) = k2 := by
        rw [← e]
        congr 1
        omega
      rw [e3] at hm; exact hm

/-- The search from the start of a link does its work on the first vehicle that comes to it. -/
theorem AccRun.entering [Env] {s s' : Sim F} (hs : SimInv strict s)
    (hsym : ∀ a b la lb, s.links.get? a = some la → s.links.get? b = some lb → b ∈ la.linksOut → a ∈ lb.linksIn)
    {n0 n1 : Net F} {vs : VehicleSet F} (hr : AccRun s n0 n1 vs s') {k k0 lk : Key} {i : Nat} {pos x : F} {l l0 : Link F} {v : Vehicle F}
    (hv : s.vehicles.get? k = some v) (hclear : ClearTo s v i k0 i lk pos) (hl0 : s.links.get? k0 = some l0)
    (hl : s.links.get? lk = some l) {pre post : List Key} (hvs : l.vehicles = pre ++ k :: post)
    (hpost : ∀ a ∈ post, ∀ w, s.vehicles.get? a = some w →
        ¬ w.posFront < pos - maxLookahead * l.speedLimit ∧ w.route[i]? ≠ some k0)
    (hnear : ¬ v.posFront < pos - maxLookahead * l.speedLimit) (hent : i < v.entered ∨ ¬ l.length < pos)
    (hq : ∀ (vs : VehicleSet F) b c r p, SRel (fun _ v v' => VehSame v.reset v') s.vehicles vs → r.key = k →
      r.pos = pos → Link.enteringFn { l0 with active := b, lastConflict := c } r vs = .ok p → Capped k x vs p.1) :
    Capped k x n0.vehicles vs := by
  obtain ⟨l0', j, l', hk0, hl0', hu0, hneg, hi1, hj, hl', hroute, -, -⟩ := hclear.start
  rw [hl0] at hl0'; cases hl0'
  refine hr.linkCapped hs.mid hl0 fun links va vb vc vd b c hb hlb hrun => ?_
  obtain ⟨c', hlb'⟩ := hb.used hl0 hu0
  rw [hlb] at hlb'
  injection hlb' with hlb'
  have eb : b = true := congrArg Link.active hlb'
  subst eb
  refine Capped.after hrun.slow1.slower (Capped.before ?_ hrun.slow3.slower)
  have hb1 := hb.slow hrun.slow1
  have h := hrun.entering
  have hid : l0.id = k0 := (hs.net.link k0 l0 hl0).id
  cases hfuel : (Env.fuel : Nat) with
  | zero => rw [hfuel] at h; simp [Link.processVehicles] at h
  | succ fuel =>
  rw [hfuel] at h
  unfold Link.processVehicles at h
  rw [if_neg (by simp)] at h
  dsimp only at h
  rw [List.drop_eq_nil_of_le (by simp)] at h
  simp only [Link.processList, M_bind_ok, M_pure_ok] at h
  obtain ⟨p, hp, h⟩ := h
  subst hp
  dsimp only at h
  rw [if_neg (by simp), if_neg hneg] at h
  have hjin : j ∈ l0.linksIn := by
    refine hsym j k0 l' l0 hl' hl0 ?_
    have hch := (hs.veh k v hv).drivable.chain
    rw [List.isChain_iff_getElem] at hch
    obtain ⟨hlt, e⟩ := List.getElem?_eq_some_iff.1 hk0
    obtain ⟨hlt', e'⟩ := List.getElem?_eq_some_iff.1 hj
    obtain ⟨la, hla, hm⟩ := hch (i - 1) (by omega)
    rw [e', hl'] at hla; cases hla
    have e3 : v.route[i - 1 + 1]'(by omega) = k0 := by
      rw [← e]
      congr 1
      omega
    rw [e3] at hm; exact hm
  set f := Link.enteringFn { l0 with active := true, lastConflict := c } with hf
  set n : Net F := ⟨links, vb⟩ with hn
  have hRR : ∀ a b c : VehicleSet F, VehsSlower a b → VehsSlower b c → VehsSlower a c :=
    fun _ _ _ h h' => SRel.trans h h' fun _ _ _ _ => VehAcc.trans
  have hR : ∀ a : VehicleSet F, VehsSlower a a := fun _ => SRel.refl fun _ _ _ => VehAcc.rfl'
  have step : ∀ (ks : List Key) (sa sb : VehicleSet F), ks.foldlM (fun s k => do
      let link ← getLink links k
      Link.processVehicles n f fuel link (0 + 1, l0.id) (0.0 + link.length) 0 s) sa = .ok sb → VehsSlower sa sb := by
    intro ks sa sb h
    refine (Spec.foldlM (E := fun _ => True) (I := fun s' => VehsSlower sa s') (fun s1 h1 k _ => ⟨?_, fun _ _ => trivial⟩) (hR sa)).ok h
    intro s2 h2
    rw [M_bind_ok] at h2
    obtain ⟨lk, -, h2⟩ := h2
    exact hRR _ _ _ h1 (processVehicles_rel hR hRR enteringFn_slower h2)
  obtain ⟨as, bs, e⟩ := List.append_of_mem hjin
  rw [e, List.foldlM_append, M_bind_ok] at h
  obtain ⟨sa, ha', h⟩ := h
  rw [List.foldlM_cons, M_bind_ok] at h
  obtain ⟨sb, hb', h⟩ := h
  have sa' := step _ _ _ ha'
  refine Capped.after ⟨_, sa'⟩ (Capped.before ?_ ⟨_, step _ _ _ h⟩)
  rw [M_bind_ok] at hb'
  obtain ⟨lj', hlj', hb'⟩ := hb'
  obtain ⟨l8, g8, b8, c8, rfl, -⟩ := hb1.links.fwd j l' hl'
  rw [getLink_ok, g8] at hlj'; cases hlj'
  obtain ⟨c9, g9⟩ := hb1.used hl ⟨k, v, hv, mem_take_of_getElem? (m := 0) (by
    have := (hs.veh k v hv).entered
    omega) (by rw [Nat.sub_self] at hroute; exact hroute)⟩
  obtain ⟨v9, hv9, x9, y9, rfl⟩ := hb1.vehicles.fwd k v hv
  obtain ⟨st, hst, hst'⟩ : ∃ st, v.getRoute i = some (k0, st) ∧ (i < v.entered → st = .entered) := by
    unfold Vehicle.getRoute
    rw [hk0, Option.map_some]
    exact ⟨_, rfl, fun h => by rw [if_pos h]⟩
  rw [hid] at hb'
  refine processVehicles_finds (n := n) (R := VehsSlower)
    (Q := fun s s' => SRel (fun _ v v' => VehSame v v') n.vehicles s → Capped k x s s')
    hR hRR
    (fun _ _ _ h h' hm => Capped.after ⟨_, h⟩ (h' (hm.trans h fun _ _ _ _ a b => a.trans b.same)))
    (fun _ _ _ h h' hm => Capped.before (h hm) ⟨_, h'⟩)
    enteringFn_slower g9 rfl hvs (fun a ha => ?_) hv9 hnear (st := st) hst
    (hent.imp (fun h => hst' h) id) (fun m p hp hm => ?_)
    (hclear.way hs hb1 hsym hv _ hj hl') g8 hb' ?_
  · obtain ⟨w, hw, -⟩ := ((hs.mem lk l hl).2 a).1 (by rw [hvs]; simp [ha])
    obtain ⟨w', hw', x, y, rfl⟩ := hb1.vehicles.fwd a w hw
    obtain ⟨n1, n2⟩ := hpost a ha w hw
    refine ⟨_, hw', n1, fun st hst => absurd ?_ n2⟩
    exact (getRoute_link (v := { w.reset with acc := { w.reset.acc with acc := x }, willQueueOrEnter := y }) hst).1
  · exact hq m true c _ p (hb1.vehicles.trans hm fun _ _ _ _ a b => a.trans b) rfl rfl hp
  · exact SRel.mono sa' fun _ _ _ h => h.same

variable {i : Nat} {k0 lk : Key} {pos : F} {l l0 : Link F} {pre post : List Key}

/-- **C65** (any numbers) Accelerations are recomputed.  After lane changes the vehicle `k` is the first one that comes
to the link `k0` on its route, on which `j` is the last vehicle; it has entered `k0` or is on the link before it.
Then its acceleration is -6 m/s², if it is frozen, or the least of several values, among them the car-following
acceleration for the rear of `j`. -/
theorem C65_entering [Env] [LawfulDijkstra] (h : Reach strict s) (hst : s.step dt = .ok s') (hre : ¬ s.accUpdate < 0.1)
    (hlanes : s.calculateLaneChanges = .ok s1) (hv1 : s1.getVehicle k = .ok v1) (hv' : s'.getVehicle k = .ok v')
    (hclear : ClearTo s1 v1 i k0 i lk pos) (hl0 : s1.getLinkRef k0 = .ok l0) {rest : List Key} (hj : l0.vehicles = j :: rest)
    (hu : s1.getVehicle j = .ok u) (hl : s1.getLinkRef lk = .ok l) (hvs : l.vehicles = pre ++ k :: post)
    (hpost : ∀ a ∈ post, ∀ w, s1.getVehicle a = .ok w → ¬ w.posFront < pos - 5.0 * l.speedLimit ∧ w.route[i]? ≠ some k0)
    (hnear : ¬ v1.posFront < pos - 5.0 * l.speedLimit) (hent : i < v1.entered ∨ ¬ l.length < pos) :
    v'.acc.acc = -6.0 ∨ ∃ as : List F, v1.acc.idm (pos + u.posRear - v1.posFront) v1.vel u.vel ∈ as ∧
      v'.acc.acc = as.foldl fmin v1.acc.maxAcc := by
  refine capped_step h hst hre hlanes hv1 hv' fun hi hsym n0 n1 vs s2 hr =>
    hr.entering hi hsym (getVeh_ok.1 hv1) hclear (getLink_ok.1 hl0) (getLink_ok.1 hl) hvs
      (fun a ha w hw => hpost a ha w (getVeh_ok.2 hw)) hnear hent ?_
  intro vs b c r p hm rk rp hp
  unfold Link.enteringFn at hp
  dsimp only at hp
  rw [hj] at hp
  simp only [M_bind_ok, M_pure_ok, getVeh_ok] at hp
  obtain ⟨ld, hld, rfl⟩ := hp
  have h1 : VehsSlower vs (r.applySpeedLimit l0.speedLimit 0.0 vs) :=
    SRel.modify (SRel.refl fun _ _ _ => VehAcc.rfl') r.key _ fun _ _ _ _ hr => hr.applySpeedLimit _ _
  refine Capped.after ⟨_, h1⟩ ?_
  intro v hv
  have hm1 := hm.trans h1 fun _ _ _ _ a b => a.trans b.same
  obtain ⟨v2, hv2, x2, y2, rfl⟩ := hm1.fwd k v1 (getVeh_ok.1 hv1)
  rw [hv2] at hv; cases hv
  obtain ⟨u2, hu2, x3, y3, rfl⟩ := hm1.fwd j u (getVeh_ok.1 hu)
  rw [hu2] at hld; cases hld
  refine ⟨_, [v1.gapAcc (pos + u.posRear) u.vel], ?_, by simp [Vehicle.gapAcc], y2, rfl⟩
  rw [RelVeh.followVehicle, rk, rp, SlotMap.get?_modify_self, hv2]
  rfl

theorem applySpeedLimit_slows {m : AccelerationModel F} {vel limit dist : F} (hd : ¬ dist ≤ 0.0)
    (h : (sq (m.velAdj * limit) - sq vel) / (2.0 * dist) ≤ -m.comfDec) : m.applySpeedLimit vel limit dist =
    { m with acc := fmin m.acc (fmax (2.0 * -m.comfDec) ((sq (m.velAdj * limit) - sq vel) / (2.0 * dist))) } := by
  unfold AccelerationModel.applySpeedLimit
  rw [if_neg hd]
  dsimp only
  rw [if_pos h]

/-- **C66** (any numbers) Accelerations are recomputed.  After lane changes the vehicle `k` is the first one that comes
to the link `k0` on its route, and it has entered `k0` or is on the link before it.  If its middle is before the start
of `k0`, and it would have to brake at least comfortably from there to have slowed down to the speed limit of `k0` at
its start, then its acceleration is -6 m/s², if it is frozen, or the least of several values, among them the
acceleration that slows it down so, or twice its comfortable deceleration if that is not enough. -/
theorem C66_limit [Env] [LawfulDijkstra] (h : Reach strict s) (hst : s.step dt = .ok s') (hre : ¬ s.accUpdate < 0.1)
    (hlanes : s.calculateLaneChanges = .ok s1) (hv1 : s1.getVehicle k = .ok v1) (hv' : s'.getVehicle k = .ok v')
    (hclear : ClearTo s1 v1 i k0 i lk pos) (hl0 : s1.getLinkRef k0 = .ok l0)
    (hl : s1.getLinkRef lk = .ok l) (hvs : l.vehicles = pre ++ k :: post)
    (hpost : ∀ a ∈ post, ∀ w, s1.getVehicle a = .ok w → ¬ w.posFront < pos - 5.0 * l.speedLimit ∧ w.route[i]? ≠ some k0)
    (hnear : ¬ v1.posFront < pos - 5.0 * l.speedLimit) (hent : i < v1.entered ∨ ¬ l.length < pos)
    (hdist : ¬ pos + 0.0 - v1.pos ≤ 0.0)
    (hneed : (sq (v1.acc.velAdj * l0.speedLimit) - sq v1.vel) / (2.0 * (pos + 0.0 - v1.pos)) ≤ -v1.acc.comfDec) :
    v'.acc.acc = -6.0 ∨ ∃ as : List F,
      fmax (2.0 * -v1.acc.comfDec)
        ((sq (v1.acc.velAdj * l0.speedLimit) - sq v1.vel) / (2.0 * (pos + 0.0 - v1.pos))) ∈ as ∧
      v'.acc.acc = as.foldl fmin v1.acc.maxAcc := by
  refine capped_step h hst hre hlanes hv1 hv' fun hi hsym n0 n1 vs s2 hr =>
    hr.entering hi hsym (getVeh_ok.1 hv1) hclear (getLink_ok.1 hl0) (getLink_ok.1 hl) hvs
      (fun a ha w hw => hpost a ha w (getVeh_ok.2 hw)) hnear hent ?_
  intro vs b c r p hm rk rp hp
  have hcap : Capped k (fmax (2.0 * -v1.acc.comfDec)
        ((sq (v1.acc.velAdj * l0.speedLimit) - sq v1.vel) / (2.0 * (pos + 0.0 - v1.pos)))) vs
        (r.applySpeedLimit l0.speedLimit 0.0 vs) := by
    intro v hv
    obtain ⟨v2, hv2, x2, y2, rfl⟩ := hm.fwd k v1 (getVeh_ok.1 hv1)
    rw [hv2] at hv; cases hv
    refine ⟨_, [fmax (2.0 * -v1.acc.comfDec)
        ((sq (v1.acc.velAdj * l0.speedLimit) - sq v1.vel) / (2.0 * (pos + 0.0 - v1.pos)))], ?_, by simp, y2, rfl⟩
    rw [RelVeh.applySpeedLimit, rk, rp, SlotMap.get?_modify_self, hv2, Option.map_some, Option.some_inj]
    exact congrArg (fun m => ({ v1.reset with acc := m, willQueueOrEnter := y2 } : Vehicle F))
      (applySpeedLimit_slows (m := { v1.reset.acc with acc := x2 }) hdist hneed)
  unfold Link.enteringFn at hp
  dsimp only at hp
  split at hp
  · rw [M_pure_ok] at hp; subst hp; exact hcap
  · rw [M_bind_ok] at hp
    obtain ⟨ld, -, hp⟩ := hp
    rw [M_pure_ok] at hp; subst hp
    exact hcap.before ⟨fun _ _ => True, SRel.modify (SRel.refl fun _ _ _ => VehAcc.rfl') r.key _
      fun _ _ _ _ hr => hr.followVehicle _ _⟩

end

section
variable {strict : Prop} {s s' s1 : Sim ℝ} {dt : ℝ} {k j : Key} {v1 v' u : Vehicle ℝ}

/-- **C64** (real numbers) If accelerations are recomputed and `j` is the next vehicle after `k` on a link after lane
changes, `k` accelerates no more than it would with `j` alone ahead of it. -/
theorem C64_follows [Env] [LawfulDijkstra] (h : Reach strict s) (hst : s.step dt = .ok s') (hre : ¬ s.accUpdate < 0.1)
    (hlanes : s.calculateLaneChanges = .ok s1) (hv1 : s1.getVehicle k = .ok v1) (hv' : s'.getVehicle k = .ok v')
    (hu : s1.getVehicle j = .ok u) {lk : Key} {l : Link ℝ} (hl : s1.getLinkRef lk = .ok l) (hkj : [k, j] <:+: l.vehicles) :
    v'.acc.getAcc ≤ followAcc v1.acc (u.posRear - v1.posFront) v1.vel u.vel := by
  rw [followAcc_eq]
  exact getAcc_le (C64_follow h hst hre hlanes hv1 hv' hu hl hkj)

variable {i : Nat} {k0 lk : Key} {pos : ℝ} {l l0 : Link ℝ} {pre post : List Key}

/-- **C65** (real numbers) In the situation of C65, `k` accelerates no more than it would with `j` alone ahead of it. -/
theorem C65_follows [Env] [LawfulDijkstra] (h : Reach strict s) (hst : s.step dt = .ok s') (hre : ¬ s.accUpdate < 0.1)
    (hlanes : s.calculateLaneChanges = .ok s1) (hv1 : s1.getVehicle k = .ok v1) (hv' : s'.getVehicle k = .ok v')
    (hclear : ClearTo s1 v1 i k0 i lk pos) (hl0 : s1.getLinkRef k0 = .ok l0) {rest : List Key} (hj : l0.vehicles = j :: rest)
    (hu : s1.getVehicle j = .ok u) (hl : s1.getLinkRef lk = .ok l) (hvs : l.vehicles = pre ++ k :: post)
    (hpost : ∀ a ∈ post, ∀ w, s1.getVehicle a = .ok w → pos - 5 * l.speedLimit ≤ w.posFront ∧ w.route[i]? ≠ some k0)
    (hnear : pos - 5 * l.speedLimit ≤ v1.posFront) (hent : i < v1.entered ∨ pos ≤ l.length) :
    v'.acc.getAcc ≤ followAcc v1.acc (pos + u.posRear - v1.posFront) v1.vel u.vel := by
  rw [followAcc_eq]
  refine getAcc_le (C65_entering h hst hre hlanes hv1 hv' hclear hl0 hj hu hl hvs (fun a ha w hw => ?_) ?_
    (hent.imp id not_lt_of_ge))
  · obtain ⟨n1, n2⟩ := hpost a ha w hw
    exact ⟨by norm_num; linarith, n2⟩
  · norm_num; linarith

/-- **C66** (real numbers) In the situation of C66, a vehicle that would need the deceleration `need` to be as slow at
the start of `k0` as the speed limit there demands brakes with `need`, or with twice its comfortable deceleration or
6 m/s² if these are less, if `need` is at least comfortable. -/
theorem C66_slows [Env] [LawfulDijkstra] (h : Reach strict s) (hst : s.step dt = .ok s') (hre : ¬ s.accUpdate < 0.1)
    (hlanes : s.calculateLaneChanges = .ok s1) (hv1 : s1.getVehicle k = .ok v1) (hv' : s'.getVehicle k = .ok v')
    (hclear : ClearTo s1 v1 i k0 i lk pos) (hl0 : s1.getLinkRef k0 = .ok l0)
    (hl : s1.getLinkRef lk = .ok l) (hvs : l.vehicles = pre ++ k :: post)
    (hpost : ∀ a ∈ post, ∀ w, s1.getVehicle a = .ok w → pos - 5 * l.speedLimit ≤ w.posFront ∧ w.route[i]? ≠ some k0)
    (hnear : pos - 5 * l.speedLimit ≤ v1.posFront) (hent : i < v1.entered ∨ pos ≤ l.length) (hdist : v1.pos < pos)
    {need : ℝ} (hneed : v1.vel ^ 2 - 2 * need * (pos - v1.pos) = (v1.acc.velAdj * l0.speedLimit) ^ 2)
    (hcomf : v1.acc.comfDec ≤ need) : v'.acc.getAcc ≤ -min (min need (2 * v1.acc.comfDec)) 6 := by
  have e : (sq (v1.acc.velAdj * l0.speedLimit) - sq v1.vel) / (2.0 * (pos + 0.0 - v1.pos)) = -need := by
    have e1 : (2.0 * (pos + 0.0 - v1.pos) : ℝ) = 2 * (pos - v1.pos) := by norm_num
    rw [e1, div_eq_iff (by linarith), sq, sq, ← pow_two, ← pow_two, ← hneed]
    ring
  have := getAcc_le (C66_limit h hst hre hlanes hv1 hv' hclear hl0 hl hvs (fun a ha w hw => ?_) ?_
    (hent.imp id not_lt_of_ge) (by norm_num; exact hdist) (by rw [e]; linarith))
  · refine this.trans ?_
    rw [e]
    refine max_le (min_le_right _ _ |>.trans (max_le ?_ ?_)) ?_
    · norm_num
    · simp
    · simp
  · obtain ⟨n1, n2⟩ := hpost a ha w hw
    exact ⟨by norm_num; linarith, n2⟩
  · norm_num; linarith

end

/-! ## Examples -/

namespace Tailback
open Town
attribute [local instance] Town.env

/-- A car on a slow link, and two on the link before it. -/
def ops : List (Op Float) :=
  [.addLink ⟨street 0.0 0.0 1.0 0.0 2.0, 10.0⟩, .addLink ⟨street 2.0 0.0 1.0 0.0 4.0, 0.1⟩, .addLinkConnection ⟨0, 1⟩ ⟨1, 1⟩,
   .addVehicle ⟨2.0, 1.0, 0.5, 2.0, 2.0, 0.05⟩ ⟨1, 1⟩, .setVehicleDestination ⟨0, 1⟩ ⟨1, 1⟩,
   .addVehicle ⟨2.0, 1.0, 0.5, 2.0, 2.0, 0.05⟩ ⟨0, 1⟩, .setVehicleDestination ⟨1, 1⟩ ⟨1, 1⟩, .step 0.3,
   .addVehicle ⟨2.0, 1.0, 0.5, 2.0, 2.0, 0.05⟩ ⟨0, 1⟩]

def test (s s' : Sim Float) : Bool :=
  decide (¬ s.accUpdate < 0.1) && (s'.vehicles.get? ⟨1, 1⟩).isSome && (s'.vehicles.get? ⟨2, 1⟩).isSome &&
  match s.calculateLaneChanges with
  | .ok s1 => match s1.vehicles.get? ⟨0, 1⟩, s1.vehicles.get? ⟨1, 1⟩, s1.vehicles.get? ⟨2, 1⟩, s1.links.get? ⟨0, 1⟩,
      s1.links.get? ⟨1, 1⟩ with
    | some u, some v, some _, some l, some l0 => u.route == [⟨1, 1⟩] && u.entered == 1 && v.route == [⟨0, 1⟩, ⟨1, 1⟩] &&
      l.vehicles == [⟨2, 1⟩, ⟨1, 1⟩] && l0.vehicles == [⟨0, 1⟩] && decide (¬ 0.0 ≤ 0.0 - maxLookahead * l0.speedLimit) &&
      decide (¬ v.posFront < 0.0 + l.length - 5.0 * l.speedLimit) && decide (¬ l.length < 0.0 + l.length) &&
      decide (¬ 0.0 + l.length + 0.0 - v.pos ≤ 0.0) &&
      decide ((sq (v.acc.velAdj * l0.speedLimit) - sq v.vel) / (2.0 * (0.0 + l.length + 0.0 - v.pos)) ≤ -v.acc.comfDec)
    | _, _, _, _, _ => false
  | .error _ => false

theorem slows : ∃ s s' : Sim Float, Reach True s ∧ Allowed True s (.step 0.3) ∧ s.exec (.step 0.3) = .ok s' ∧
    Reach True s' ∧ test s s' = true :=
  trial_reach (ops := ops) (by decide +kernel)

/-- The hypotheses of C64 for the last car, and those of C65 and C66 for the one before it. -/
theorem facts : ∃ (s s' s1 : Sim Float) (u v v' w w' : Vehicle Float) (l l0 : Link Float), Reach True s ∧
    s.step 0.3 = .ok s' ∧ ¬ s.accUpdate < 0.1 ∧ s.calculateLaneChanges = .ok s1 ∧ s1.getVehicle ⟨0, 1⟩ = .ok u ∧
    s1.getVehicle ⟨1, 1⟩ = .ok v ∧ s'.getVehicle ⟨1, 1⟩ = .ok v' ∧ s1.getVehicle ⟨2, 1⟩ = .ok w ∧
    s'.getVehicle ⟨2, 1⟩ = .ok w' ∧ s1.getLinkRef ⟨0, 1⟩ = .ok l ∧ s1.getLinkRef ⟨1, 1⟩ = .ok l0 ∧
    l.vehicles = [⟨2, 1⟩, ⟨1, 1⟩] ∧ l0.vehicles = [⟨0, 1⟩] ∧ ClearTo s1 v 1 ⟨1, 1⟩ 1 ⟨0, 1⟩ (0.0 + l.length) ∧
    ¬ v.posFront < 0.0 + l.length - 5.0 * l.speedLimit ∧ ¬ l.length < 0.0 + l.length ∧
    ¬ 0.0 + l.length + 0.0 - v.pos ≤ 0.0 ∧
    (sq (v.acc.velAdj * l0.speedLimit) - sq v.vel) / (2.0 * (0.0 + l.length + 0.0 - v.pos)) ≤ -v.acc.comfDec := by
  obtain ⟨s, s', h1, -, h3, -, h5⟩ := slows
  unfold test at h5
  simp only [Bool.and_eq_true, decide_eq_true_eq, Option.isSome_iff_exists] at h5
  obtain ⟨⟨⟨h6, v', hv'⟩, w', hw'⟩, h5⟩ := h5
  split at h5
  · rename_i s1 hs1
    split at h5
    · rename_i u v w l l0 hu hv hw hl hl0
      simp only [Bool.and_eq_true, decide_eq_true_eq, beq_iff_eq] at h5
      obtain ⟨⟨⟨⟨⟨⟨⟨⟨⟨a1, a2⟩, a3⟩, a4⟩, a5⟩, a6⟩, a7⟩, a8⟩, a9⟩, a10⟩ := h5
      refine ⟨s, s', s1, u, v, v', w, w', l, l0, h1, h3, h6, hs1, getVeh_ok.2 hu, getVeh_ok.2 hv, getVeh_ok.2 hv',
        getVeh_ok.2 hw, getVeh_ok.2 hw', getLink_ok.2 hl, getLink_ok.2 hl0, a4, a5, ?_, a7, a8, a9, a10⟩
      exact .first (by rw [a3]; rfl) hl0 ⟨_, u, hu, by rw [a1, a2]; simp⟩ a6 (le_refl _) (by rw [a3]; rfl) hl
    · cases h5
  · simp at h5

/-- C64 -/
example : ∃ (s s' s1 : Sim Float) (v1 v' u : Vehicle Float) (l : Link Float) (k j lk : Key), Reach True s ∧
    s.step 0.3 = .ok s' ∧ ¬ s.accUpdate < 0.1 ∧ s.calculateLaneChanges = .ok s1 ∧ s1.getVehicle k = .ok v1 ∧
    s'.getVehicle k = .ok v' ∧ s1.getVehicle j = .ok u ∧ s1.getLinkRef lk = .ok l ∧ [k, j] <:+: l.vehicles := by
  obtain ⟨s, s', s1, u, v, v', w, w', l, l0, h1, h2, h3, h4, h5, h6, h7, h8, h9, h10, h11, h12, -⟩ := facts
  exact ⟨s, s', s1, w, w', v, l, _, _, _, h1, h2, h3, h4, h8, h9, h6, h10, by rw [h12]⟩

/-- C65, C66 -/
example : ∃ (s s' s1 : Sim Float) (v1 v' u : Vehicle Float) (l l0 : Link Float) (k j k0 lk : Key) (i : Nat) (pos : Float)
    (pre post rest : List Key), Reach True s ∧
    s.step 0.3 = .ok s' ∧ ¬ s.accUpdate < 0.1 ∧ s.calculateLaneChanges = .ok s1 ∧ s1.getVehicle k = .ok v1 ∧
    s'.getVehicle k = .ok v' ∧ ClearTo s1 v1 i k0 i lk pos ∧ s1.getLinkRef k0 = .ok l0 ∧ l0.vehicles = j :: rest ∧
    s1.getVehicle j = .ok u ∧ s1.getLinkRef lk = .ok l ∧ l.vehicles = pre ++ k :: post ∧
    (∀ a ∈ post, ∀ w, s1.getVehicle a = .ok w → ¬ w.posFront < pos - 5.0 * l.speedLimit ∧ w.route[i]? ≠ some k0) ∧
    ¬ v1.posFront < pos - 5.0 * l.speedLimit ∧ (i < v1.entered ∨ ¬ l.length < pos) ∧ ¬ pos + 0.0 - v1.pos ≤ 0.0 ∧
    (sq (v1.acc.velAdj * l0.speedLimit) - sq v1.vel) / (2.0 * (pos + 0.0 - v1.pos)) ≤ -v1.acc.comfDec := by
  obtain ⟨s, s', s1, u, v, v', w, w', l, l0, h1, h2, h3, h4, h5, h6, h7, h8, h9, h10, h11, h12, h13, h14, h15, h16, h17, h18⟩ := facts
  exact ⟨s, s', s1, v, v', u, l, l0, _, _, _, _, 1, _, [⟨2, 1⟩], [], [], h1, h2, h3, h4, h6, h7, h14, h11, h13, h5, h10, h12,
    nofun, h15, .inr h16, h17, h18⟩

end Tailback

end TrafficSim
