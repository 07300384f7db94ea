import Verif.Props.Motion
import Verif.Props.Straight
import Verif.Lemmas.Search

/-! # A lone vehicle on a straight link, in exact arithmetic, for examples -/

namespace TrafficSim

namespace Lone

@[instance_reducible] noncomputable def env (n : Nat) : Env := Search.full (n + 1)

theorem lawful (n : Nat) : @LawfulDijkstra (env n) := Search.full_lawful (n + 1)

/-- The simulation with one link and one vehicle. -/
noncomputable def sim (l : Link ℝ) (v : Vehicle ℝ) (fr : List Key) (n : Nat) (sq : Nat) (t u : ℝ) : Sim ℝ :=
  ⟨⟨[⟨1, some l⟩], []⟩, .empty, [], ⟨[⟨1, some v⟩], []⟩, fr, n, sq, t, u⟩

/-- A link with one vehicle. -/
structure IsLink (l : Link ℝ) : Prop where
  id : l.id = ⟨0, 1⟩
  group : l.group = none
  segs : l.curve.segments ≠ []
  ins : l.linksIn = []
  vehs : l.vehicles = [⟨0, 1⟩]
  speed : l.speedLimit = 10
  outs : l.linksOut = []
  lcs : l.laneChanges = []

/-- A vehicle without a destination. -/
structure IsVeh (v : Vehicle ℝ) : Prop where
  id : v.id = ⟨0, 1⟩
  route : v.route = [⟨0, 1⟩]
  entered : v.entered = 1
  will : v.willQueueOrEnter = 0
  paths : v.pathfind.paths = []
  lc : v.laneChange = none
  maxAcc : v.acc.maxAcc = 2
  acc : v.acc.acc ≤ 2
  vel : 0 ≤ v.vel
  adj : v.acc.velAdj = 1
  exit : v.canExit = false
  half : v.halfLen = 2
  dec : v.acc.comfDec = 2
  head : v.acc.headway = 2

section
variable {n : Nat} {l : Link ℝ} {v : Vehicle ℝ} {fr : List Key} {m sq : Nat} {t u dt : ℝ}

theorem lanes (hv : IsVeh v) : ∃ u', @Sim.calculateLaneChanges ℝ _ (env n) (sim l v fr m sq t u) = .ok (sim l v fr m sq t u') := by
  unfold Sim.calculateLaneChanges
  split
  · exact ⟨u, rfl⟩
  · refine ⟨0.0, ?_⟩
    have : v.choosePath (sim l v fr m sq t u).links = .ok none := by
      simp [Vehicle.choosePath, hv.lc, hv.paths, Vehicle.minPath, bind, Except.bind, pure, Except.pure]
    simp [sim, SlotMap.keys, SlotMap.keysFrom, Sim.choosePathOf, getVeh, SlotMap.get?, bind, Except.bind, pure, Except.pure] at this ⊢
    simp [this]

abbrev one {α : Type} (a : α) : SlotMap α := ⟨[⟨1, some a⟩], []⟩

theorem get_one {α : Type} (a : α) : (one a).get? ⟨0, 1⟩ = some a := rfl
theorem modify_one {α : Type} (a : α) (f : α → α) : (one a).modify ⟨0, 1⟩ f = one (f a) := rfl
theorem keys_one {α : Type} (a : α) : (one a).keys = [⟨0, 1⟩] := rfl

theorem prep (hv : IsVeh v) : (sim l v fr m sq t u).prepareNet = .ok ⟨one { l with active := true }, one v.reset⟩ := by
  have : v.route.take v.entered = [⟨0, 1⟩] := by rw [hv.route, hv.entered]; rfl
  simp only [Sim.prepareNet, sim, keys_one, List.foldl, modify_one, Sim.resetVehicle, getVeh, get_one,
    Vehicle.activateLinks, this, List.foldlM, updLink, bind, Except.bind, pure, Except.pure]

theorem stop (hl : IsLink l) (hact : l.active = true) (hv : IsVeh v) : ∃ a ≤ v.acc.acc, @Link.applyStoplines ℝ _ (env n) ⟨one l, one v⟩ ⟨0, 1⟩ =
    .ok ⟨one l, one { v with acc := { v.acc with acc := a } }⟩ := by
  unfold Link.applyStoplines
  have hr0 : v.getRoute 0 = some (⟨0, 1⟩, .entered) := by simp [Vehicle.getRoute, hv.route, hv.entered]
  have hr1 : v.getRoute 1 = none := by simp [Vehicle.getRoute, hv.route]
  simp only [getLink, get_one, bind, Except.bind, pure, Except.pure, Env.fuel, Link.processVehicles, hact, not_true, if_false,
    hl.vehs, hl.ins, hl.id, List.reverse_singleton, List.drop_zero, Link.processList, getVeh, hr0, ne_eq]
  by_cases h1 : v.posFront < l.length - maxLookahead * l.speedLimit
  · rw [if_pos h1]; exact ⟨v.acc.acc, le_refl _, by simp⟩
  · rw [if_neg h1]
    by_cases h2 : v.canExit = true
    · refine ⟨v.acc.acc, le_refl _, ?_⟩
      simp [Link.stoplineFn, RelVeh.getRoute, hr1, h2, pure, Except.pure]
      rw [← h2]
    · refine ⟨fmin v.acc.acc (v.acc.idm (l.length + 0.0 - v.posFront) v.vel 0.0), min_le_left _ _, ?_⟩
      simp [Link.stoplineFn, RelVeh.getRoute, hr1, h2, pure, Except.pure, RelVeh.stopAtLine, modify_one,
        Vehicle.stopAtLine, AccelerationModel.stopAtLine]

theorem slow (hl : IsLink l) : ∃ a ≤ v.acc.acc, @Link.applyAccelerations ℝ _ (env n) (one l) (one v) ⟨0, 1⟩ =
    .ok (one { v with acc := { v.acc with acc := a } }) := by
  simp only [Link.applyAccelerations, getLink, get_one, bind, Except.bind, pure, Except.pure, Env.fuel, hl.vehs,
    Link.followWindows, updVeh, modify_one, hl.group, Link.processVehicles, hl.ins, List.reverse_singleton, List.length_singleton,
    List.drop_one, List.tail_cons, Link.processList]
  refine ⟨(v.applyCurrentSpeedLimit l.speedLimit).acc.acc, min_le_left _ _, ?_⟩
  simp
  split_ifs <;> rfl

theorem accs (hl : IsLink l) (hv : IsVeh v) : ∃ l' fr' t' a, a ≤ 2 ∧ @Sim.applyAccelerations ℝ _ (env n) (sim l v fr m sq t u) =
    .ok (sim l' { v with acc := { v.acc with acc := a } } fr' m sq t' u) ∧ IsLink l' ∧ l'.curve = l.curve ∧
      (t < 0.1 → fr' = fr ∧ t' = t ∧ a = v.acc.acc) := by
  unfold Sim.applyAccelerations
  split
  · exact ⟨l, fr, t, v.acc.acc, hv.acc, rfl, hl, rfl, fun _ => ⟨rfl, rfl, rfl⟩⟩
  · rename_i hge
    have hl1 : IsLink { l with active := true } := ⟨hl.id, hl.group, hl.segs, hl.ins, hl.vehs, hl.speed, hl.outs, hl.lcs⟩
    have hv1 : IsVeh v.reset :=
      ⟨hv.id, hv.route, hv.entered, hv.will, hv.paths, hv.lc, hv.maxAcc, le_of_eq hv.maxAcc, hv.vel, hv.adj, hv.exit, hv.half, hv.dec, hv.head⟩
    obtain ⟨a, ha, h1⟩ := stop (n := n) hl1 rfl hv1
    obtain ⟨b, hb, h2⟩ := slow (n := n) (v := { v.reset with acc := { v.reset.acc with acc := a } }) hl1
    have h3 : @Sim.applyLinkAccelerations ℝ _ (env n) (sim l v fr m sq t u).conflicts
        ⟨one { l with active := true }, one { v.reset with acc := { v.reset.acc with acc := a } }⟩ =
        .ok (one { v.reset with acc := { v.reset.acc with acc := b } }) := by
      simp only [Sim.applyLinkAccelerations, sim, keys_one, List.foldlM, bind, Except.bind, pure, Except.pure, h2]
    simp only [prep hv, keys_one, List.foldlM, bind, Except.bind, pure, Except.pure, h1, h3]
    have h4 : ∃ c ≤ 2, (Sim.applyFrozen (one { v.reset with acc := { v.reset.acc with acc := b } }) (sim l v fr m sq t u).frozen).1 =
        one { v with acc := { v.acc with acc := c } } := by
      unfold Sim.applyFrozen
      dsimp only
      generalize (sim l v fr m sq t u).frozen = fz
      have key : ∀ (fz : List Key) (c : ℝ), c ≤ 2 → ∃ d ≤ 2, fz.foldl (fun vs k => vs.modify k Vehicle.emergencyStop)
          (one { v with acc := { v.acc with acc := c } }) = one { v with acc := { v.acc with acc := d } } := by
        intro fz
        induction fz with
        | nil => intro c hc; exact ⟨c, hc, rfl⟩
        | cons k fz ih =>
          intro c hc
          rw [List.foldl_cons]
          by_cases hk : k = ⟨0, 1⟩
          · subst hk; exact ih maxDecel (by simp only [maxDecel]; norm_num)
          · have : (one { v with acc := { v.acc with acc := c } }).modify k Vehicle.emergencyStop =
              one { v with acc := { v.acc with acc := c } } := by
              refine SlotMap.modify_none ?_ _
              cases k with
              | mk i w =>
                cases i with
                | zero =>
                  have hw : 1 ≠ w := fun e => hk (by rw [e])
                  simp [SlotMap.get?, hw]
                | succ i => simp [SlotMap.get?]
            rw [this]; exact ih c hc
      exact key fz b (hb.trans (ha.trans hv1.acc))
    obtain ⟨c, hc, h4⟩ := h4
    rw [h4]
    exact ⟨_, _, _, c, hc, rfl, hl1, rfl, fun h => absurd h hge⟩

/-- A step of a lone vehicle that does not reach the end of the link succeeds. -/
theorem step (hl : IsLink l) (hv : IsVeh v) (hdt : 0 ≤ dt) (hend : v.pos + (v.vel + 2 * dt) * dt ≤ l.length) :
    ∃ l' v' fr' t' u', @Sim.step ℝ _ (env n) (sim l v fr m sq t u) dt = .ok (sim l' v' fr' (m + 1) sq t' u') ∧
      IsLink l' ∧ IsVeh v' ∧ l'.curve = l.curve ∧ v'.vel ≤ v.vel + 2 * dt ∧ v'.pos ≤ v.pos + (v.vel + 2 * dt) * dt ∧
      v'.pos = v.pos + 0.5 * (v.vel + v'.vel) * dt ∧
      (t < 0.1 → fr' = fr ∧ t' = t + dt ∧ v'.vel = max (v.vel + dt * max v.acc.acc (-6.0)) 0.0) := by
  obtain ⟨u1, h1⟩ := lanes (n := n) (l := l) (fr := fr) (m := m) (sq := sq) (t := t) (u := u) hv
  obtain ⟨l2, fr2, t2, a, ha, h2, hl2, hc2, hsk⟩ := accs (n := n) (fr := fr) (m := m) (sq := sq) (t := t) (u := u1) hl hv
  have h3 : (sim l2 { v with acc := { v.acc with acc := a } } fr2 m sq t2 u1).updateLights dt =
      .ok (sim l2 { v with acc := { v.acc with acc := a } } fr2 m sq t2 u1) := rfl
  generalize hv3 : { v with acc := { v.acc with acc := a } } = v3 at h2 h3
  have hw : v3.integrateQueue sq = .ok (v3, sq) := by
    subst hv3
    simp only [Vehicle.integrateQueue, hv.will, pure, Except.pure]
  obtain ⟨lc, cnt, e4⟩ := integrateMotion_eq v3 dt
  have hlc : lc = none := by
    have : (v3.integrateMotion dt).laneChange = none := by
      unfold Vehicle.integrateMotion Vehicle.updateStopCount
      have : v3.laneChange = none := by subst hv3; exact hv.lc
      rw [this]; dsimp only; split <;> rfl
    rw [e4] at this; exact this
  generalize hv4 : v3.integrateMotion dt = v4 at e4
  have h4 : (sim l2 v3 fr2 m sq t2 u1).integrate dt = .ok (sim l2 v4 fr2 m sq t2 u1) := by
    simp only [Sim.integrate, sim, keys_one, List.foldlM, Sim.integrateOne, getVeh, get_one, bind, Except.bind, pure,
      Except.pure, Vehicle.integrate, hw, modify_one, hv4]
  have hr4 : v4.route = [⟨0, 1⟩] := by rw [e4]; subst hv3; exact hv.route
  have hvel4 : v4.vel = max (v.vel + dt * max a (-6.0)) 0.0 := by rw [e4]; subst hv3; rfl
  have hvel : 0 ≤ v4.vel ∧ v4.vel ≤ v.vel + 2 * dt := by
    rw [hvel4]
    have h0 := hv.vel
    have hm : max a (-6.0) ≤ 2 := max_le ha (by norm_num)
    have : dt * max a (-6.0) ≤ dt * 2 := mul_le_mul_of_nonneg_left hm hdt
    refine ⟨le_trans (by norm_num) (le_max_right _ _), max_le (by linarith) ?_⟩
    norm_num
    linarith
  have hpos' : v4.pos = v.pos + 0.5 * (v.vel + v4.vel) * dt := by
    rw [e4]; subst hv3; rfl
  have hpos : v4.pos ≤ v.pos + (v.vel + 2 * dt) * dt := by
    rw [hpos']
    have h2 : 0.5 * (v.vel + v4.vel) ≤ v.vel + 2 * dt := by norm_num; linarith [hvel.1, hvel.2, hv.vel]
    have := mul_le_mul_of_nonneg_right h2 hdt
    linarith
  have hp4 : ¬ l2.length < v4.pos := by
    rw [not_lt]
    unfold Link.length at hend ⊢
    rw [hc2]
    exact hpos.trans hend
  have h5 : @Sim.advanceVehicles ℝ _ (env n) (sim l2 v4 fr2 m sq t2 u1) = .ok (sim l2 v4 fr2 m sq t2 u1) := by
    simp only [Sim.advanceVehicles, sim, keys_one, List.foldlM, Sim.advanceOne, getVeh, get_one, bind, Except.bind, pure,
      Except.pure, Vehicle.linkId, hr4, List.head?_cons, Vehicle.advance, getLink, hp4, if_false]
    rfl
  obtain ⟨smp, hsmp⟩ := l2.curve.sampleCentre_ok hl2.segs v4.pos
  have h6 : ∃ v6, v4.updateCoords (one l2) = .ok v6 ∧ Placed v4 v6 := by
    unfold Vehicle.updateCoords
    split
    · rename_i h; rw [hr4] at h; cases h
    · rename_i h; rw [hr4] at h; cases h
      simp only [getLink, get_one, bind, Except.bind, pure, Except.pure, hsmp]
      exact ⟨_, rfl, _, _, _, _, rfl⟩
  obtain ⟨v6, h6, p, d, r, c, hv6⟩ := h6
  have h7 : (sim l2 v4 fr2 m sq t2 u1).updateVehicleCoords = .ok (sim l2 v6 fr2 m sq t2 u1) := by
    simp only [Sim.updateVehicleCoords, sim, keys_one, List.foldlM, Sim.updateCoordsOne, getVeh, get_one, bind, Except.bind,
      pure, Except.pure, h6, modify_one]
  refine ⟨l2, v6, fr2, t2 + dt, u1 + dt, ?_, hl2, ?_, hc2, ?_, ?_, ?_, fun h => ?_⟩
  · simp only [Sim.step, h1, h2, h3, h4, h5, h7, bind, Except.bind, pure, Except.pure]
    rfl
  · have h0 := hvel.1
    rw [hv6]
    rw [e4] at h0 ⊢
    subst hv3
    exact ⟨hv.id, hv.route, hv.entered, hv.will, hv.paths, hlc, hv.maxAcc, ha, h0, hv.adj, hv.exit, hv.half, hv.dec, hv.head⟩
  · rw [hv6]; exact hvel.2
  · rw [hv6]; exact hpos
  · rw [hv6]; exact hpos'
  · obtain ⟨a1, a2, a3⟩ := hsk h
    refine ⟨a1, by rw [a2], ?_⟩
    rw [hv6, ← a3]; exact hvel4

def car : VehicleAttributes ℝ := ⟨2, 4, 3, 2, 2, 2⟩

/-- A simulation with a straight link of 100 m and a vehicle at its start can be built. -/
theorem start : ∃ n l v, @Reach ℝ _ (env n) True (sim l v [] 0 0 0.0 0.0) ∧ IsLink l ∧ IsVeh v ∧ (99 ≤ l.length ∧ l.length ≤ 101) ∧
    v.pos = 0 ∧ v.vel = 0 ∧ v.acc.acc = 2 := by
  have hd : V2.distance (⟨0, 0⟩ : V2 ℝ) ⟨100, 0⟩ = 100 := by
    simp only [V2.distance, V2.magnitude, V2.magnitude2, V2.dot, V2.sub, fsqrt]
    show Real.sqrt _ = 100
    rw [show ((100 - 0) * (100 - 0) + (0 - 0) * (0 - 0) : ℝ) = 100 * 100 by norm_num]
    exact Real.sqrt_mul_self (by norm_num)
  have hlt : (0.5 : ℝ) < V2.distance (⟨0, 0⟩ : V2 ℝ) ⟨100, 0⟩ := by rw [hd]; norm_num
  obtain ⟨fuel, c, hc⟩ := C38_builds (a := ⟨0, 0⟩) (b := ⟨100, 0⟩) (step := 0.5) (by norm_num) hlt
  replace hc := hc fuel le_rfl
  obtain ⟨n, rfl⟩ : ∃ n, fuel = n + 1 := by
    cases fuel with
    | zero => simp [LinkCurve.withStep, equidistantPointsAlongCurve, equiOuter] at hc
    | succ n => exact ⟨n, rfl⟩
  obtain ⟨hlen, hsegs⟩ := C38_length (by norm_num) hlt hc
  rw [hd] at hlen
  have hlen' : (99 : ℝ) ≤ c.length ∧ c.length ≤ 101 := by
    have h1 := (abs_le.1 hlen).1
    have h2 := (abs_le.1 hlen).2
    norm_num at h1 h2 ⊢
    constructor <;> linarith
  -- the link
  let l0 : Link ℝ :=
    { id := ⟨0, 1⟩, curve := c, group := none, linksIn := [], linksOut := [], laneChanges := [], conflicts := [],
      lastConflict := 0, speedLimit := 10, cost := toUsize (10.0 * c.length / 10), vehicles := [], control := .open_,
      active := false }
  have h1 : @Sim.exec ℝ _ (env n) .new (.addLink ⟨(LineSegment2d.fromEnds ⟨0, 0⟩ ⟨100, 0⟩).toCurve, 10⟩) =
      .ok ⟨one l0, .empty, [], .empty, [], 0, 0, 0.0, 0.0⟩ := by
    simp only [Sim.exec, Sim.addLink, Sim.new, SlotMap.insertWithKey, SlotMap.empty, Link.new, LinkCurve.new, Env.fuel, hc,
      bind, Except.bind, pure, Except.pure, List.length_nil, u32Max, l0]
    norm_num
  obtain ⟨smp, hsmp⟩ := c.sampleCentre_ok hsegs 0.0
  -- the vehicle
  have h2 : ∃ v, @Sim.exec ℝ _ (env n) ⟨one l0, .empty, [], .empty, [], 0, 0, 0.0, 0.0⟩ (.addVehicle car ⟨0, 1⟩) =
      .ok (sim { l0 with vehicles := [⟨0, 1⟩] } v [] 0 0 0.0 0.0) ∧ IsVeh v ∧ v.pos = 0 ∧ v.vel = 0 ∧ v.acc.acc = 2 := by
    have hsl : ∃ v0, @Vehicle.setLocation ℝ _ (env n) (Vehicle.new ⟨0, 1⟩ car) ⟨0, 1⟩ 0.0 none (one l0) = .ok v0 ∧ IsVeh v0 ∧
        v0.pos = 0.0 ∧ v0.vel = 0.0 ∧ v0.acc.acc = 2 := by
      simp only [Vehicle.setLocation, Vehicle.new, PathfindingModel.setOrigin, PathfindingModel.default, mget,
        if_true, PathfindingModel.reroute, Key.isNull, Key.null, beq_self_eq_true,
        Bool.or_true, PathfindingModel.makePaths, makePathsInner, getLink, get_one, bind, Except.bind, pure, Except.pure,
        List.mapM_nil, l0]
      exact ⟨_, rfl, ⟨rfl, rfl, rfl, rfl, rfl, rfl, rfl, le_refl _, by norm_num, by norm_num [AccelerationModel.new], rfl, by norm_num [car], rfl, rfl⟩, rfl, rfl, rfl⟩
    obtain ⟨v0, hsl, hv0, hp0, hu0, ha0⟩ := hsl
    have h6 : ∃ v6, v0.updateCoords (one l0) = .ok v6 ∧ Placed v0 v6 := by
      unfold Vehicle.updateCoords
      split
      · rename_i h; rw [hv0.route] at h; cases h
      · rename_i h; rw [hv0.route] at h; cases h
        rw [← hp0] at hsmp
        simp only [getLink, get_one, bind, Except.bind, pure, Except.pure, l0, hsmp]
        exact ⟨_, rfl, _, _, _, _, rfl⟩
    obtain ⟨v6, h6, p, d, r, c, hv6⟩ := h6
    refine ⟨v6, ?_, ?_, ?_, ?_, ?_⟩
    · simp only [Sim.exec, Sim.addVehicle, SlotMap.insertWithKey, SlotMap.empty, List.length_nil, u32Max, hsl, h6, bind, Except.bind,
        pure, Except.pure]
      norm_num
      simp only [Sim.insertOnLink, getLink, get_one, bind, Except.bind, pure, Except.pure, Link.insertVehicle, getVeh,
        Link.insertIdx, l0, updLink, modify_one]
      rfl
    · rw [hv6]; exact ⟨hv0.id, hv0.route, hv0.entered, hv0.will, hv0.paths, hv0.lc, hv0.maxAcc, hv0.acc, hv0.vel, hv0.adj, hv0.exit, hv0.half, hv0.dec, hv0.head⟩
    · rw [hv6]; show v0.pos = 0; rw [hp0]; norm_num
    · rw [hv6]; show v0.vel = 0; rw [hu0]; norm_num
    · rw [hv6]; exact ha0
  obtain ⟨v, h2, hv⟩ := h2
  let := env n
  have r1 := Reach.exec (strict := True) (.addLink _) .new trivial h1
  refine ⟨n, { l0 with vehicles := [⟨0, 1⟩] }, v, .exec (.addVehicle _ _) r1 trivial h2, ?_, hv.1, hlen', hv.2⟩
  exact ⟨rfl, rfl, hsegs, rfl, rfl, rfl, rfl, rfl⟩

/-- The vehicle is frozen or not and drives for a time `d`; then accelerations are recomputed. -/
theorem run (b : Bool) (d : ℝ) (hd : 0.1 ≤ d) (hd' : d ≤ 7) : ∃ n, ∃ s0 s1 s2 : Sim ℝ, ∃ v0 v1 v2, @Reach ℝ _ (env n) True s0 ∧ @Sim.step ℝ _ (env n) s0 d = .ok s1 ∧
    @Reach ℝ _ (env n) True s1 ∧ @Sim.step ℝ _ (env n) s1 0.05 = .ok s2 ∧
    s0.getVehicle ⟨0, 1⟩ = .ok v0 ∧ s1.getVehicle ⟨0, 1⟩ = .ok v1 ∧ s2.getVehicle ⟨0, 1⟩ = .ok v2 ∧
    s0.accUpdate = 0 ∧ s1.accUpdate = d ∧ s1.getVehicleFrozen ⟨0, 1⟩ = b ∧ v0.linkId = some ⟨0, 1⟩ ∧ v1.linkId = some ⟨0, 1⟩ ∧
    v0.acc.maxAcc = 2 ∧ v1.acc.maxAcc = 2 ∧ v1.acc.velAdj = 1 ∧ v1.vel = 2 * d ∧ v1.pos = d * d ∧
    (∃ l, s1.getLinkRef ⟨0, 1⟩ = .ok l ∧ l.speedLimit = 10 ∧ 99 ≤ l.length ∧ l.length ≤ 101) ∧
    (∃ s0', @Sim.calculateLaneChanges ℝ _ (env n) s0 = .ok s0' ∧ s0'.getVehicle ⟨0, 1⟩ = .ok v0) ∧
    ∃ s1', @Sim.calculateLaneChanges ℝ _ (env n) s1 = .ok s1' ∧ s1'.getVehicle ⟨0, 1⟩ = .ok v1 ∧
      IsVeh v1 ∧ ∃ l, s1'.getLinkRef ⟨0, 1⟩ = .ok l ∧ s1.getLinkRef ⟨0, 1⟩ = .ok l ∧ IsLink l := by
  obtain ⟨n, l, v, r0, hl, hv, hlen, hp, hu, ha⟩ := start
  let := env n
  have r1 := Reach.exec (strict := True) (.setVehicleFrozen ⟨0, 1⟩ b) r0 trivial rfl
  have e1 : (sim l v [] 0 0 0.0 0.0).setVehicleFrozen ⟨0, 1⟩ b = sim l v (if b then [⟨0, 1⟩] else []) 0 0 0.0 0.0 := by
    cases b <;> rfl
  rw [e1] at r1
  obtain ⟨l1, v1, fr1, t1, u1, h1, hl1, hv1, hc1, b1, c1, p1, d1⟩ := step (n := n) (fr := if b then [⟨0, 1⟩] else []) (m := 0) (sq := 0) (t := 0.0) (u := 0.0)
    (dt := d) hl hv (by norm_num at hd; linarith) (by rw [hp, hu]; norm_num at hd ⊢; nlinarith [hlen.1])
  obtain ⟨f1, g1, i1⟩ := d1 (by norm_num)
  rw [hu, ha] at i1
  have hvel : v1.vel = 2 * d := by
    norm_num at hd
    rw [i1]; norm_num; rw [max_eq_left (by linarith)]; ring
  have r2 := Reach.exec (strict := True) (.step d) r1 trivial h1
  obtain ⟨l2, v2, fr2, t2, u2, h2, -⟩ := step (n := n) (fr := fr1) (m := 0 + 1) (sq := 0) (t := t1) (u := u1)
    (dt := 0.05) hl1 hv1 (by norm_num) (by
      have : l1.length = l.length := by unfold Link.length; rw [hc1]
      rw [hp, hu] at c1
      rw [this, hvel]; rw [p1, hp, hu, hvel]; norm_num at c1 hd ⊢; nlinarith [hlen.1])
  refine ⟨n, _, _, _, v, v1, v2, r1, h1, r2, h2, rfl, rfl, rfl, ?_, ?_, ?_, ?_, ?_, hv.maxAcc, hv1.maxAcc, hv1.adj, hvel, by rw [p1, hp, hu, hvel]; ring, ⟨l1, rfl, hl1.speed, by unfold Link.length at hlen ⊢; rw [hc1]; exact hlen⟩, ?_, ?_⟩
  · show (0.0 : ℝ) = 0; norm_num
  · show t1 = d; rw [g1]; norm_num
  · show List.contains fr1 _ = b; rw [f1]; cases b <;> rfl
  · show v.route.head? = _; rw [hv.route]; rfl
  · show v1.route.head? = _; rw [hv1.route]; rfl
  · obtain ⟨u', h⟩ := lanes (n := n) (l := l) (fr := if b then [⟨0, 1⟩] else []) (m := 0) (sq := 0) (t := 0.0) (u := 0.0) hv
    exact ⟨_, h, rfl⟩
  · obtain ⟨u', h⟩ := lanes (n := n) (l := l1) (fr := fr1) (m := 0 + 1) (sq := 0) (t := t1) (u := u1) hv1
    exact ⟨_, h, rfl, hv1, l1, rfl, rfl, hl1⟩

end

end Lone

end TrafficSim
