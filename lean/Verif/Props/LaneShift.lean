import Verif.Props.PathChoice
import Verif.Props.Calls
import Verif.Props.Steering
import Verif.Props.Kinematics

/-! # C72: on straight links, a lane change starts where the vehicle is -/

namespace TrafficSim

variable {strict : Prop}

/-- The curve of the link is the straight line through `a` with the unit direction `u`. -/
structure StraightLink (l : Link ℝ) (a u : V2 ℝ) : Prop where
  unit : u.x * u.x + u.y * u.y = 1
  sample : ∀ t, l.curve.sampleCentre t = .ok ⟨a.add (V2.smul t u), u⟩

/-- The point at the distance `x` along the line, and `y` to the left of it. -/
def linePoint (a u : V2 ℝ) (x y : ℝ) : V2 ℝ := ⟨a.x + x * u.x - y * u.y, a.y + x * u.y + y * u.x⟩

/-- The lateral offset `f` leads back to the middle of the lane: it and its derivative are zero at `x`. -/
def LevelsOut (f : CubicFn ℝ) (x : ℝ) : Prop := f.y x = 0 ∧ HasDerivAt f.y 0 x

theorem fit_levels {x off sl d : ℝ} (hd : d ≠ 0) : (CubicFn.fit x off sl (x + d) 0.0 0.0).y x = off ∧
    LevelsOut (CubicFn.fit x off sl (x + d) 0.0 0.0) (x + d) := by
  have hne : x ≠ x + d := fun e => hd (by linarith)
  obtain ⟨f1, f2, f3, f4⟩ := C44_fit x off sl (x + d) 0.0 0.0 hne
  refine ⟨f1, by rw [f3]; norm_num, ?_⟩
  have := C42_cubicFn (CubicFn.fit x off sl (x + d) 0.0 0.0) (x + d)
  rw [f4] at this
  norm_num at this ⊢
  exact this

/-- What `inverse_sample` finds on a straight link: the position and the offset of the point. -/
theorem inverseSample_straight {l : Link ℝ} {a u P T : V2 ℝ} {x off sl : ℝ} (hl : StraightLink l a u)
    (h : l.curve.inverseSample P T = .ok (some (x, off, sl))) : linePoint a u x off = P := by
  unfold LinkCurve.inverseSample at h
  rw [project_straight hl.unit hl.sample P (by norm_num) none, M_bind_ok] at h
  obtain ⟨q, hq, h⟩ := h
  cases hq
  dsimp only at h
  rw [M_bind_ok] at h
  obtain ⟨⟨seg, t⟩, hseg, h⟩ := h
  have hs := hl.sample (V2.dot (P.sub a) u)
  unfold LinkCurve.sampleCentre at hs
  rw [hseg] at hs
  have hs : (⟨seg.sample t, (seg.sampleDt t).normalize⟩ : LinkSample ℝ) = ⟨a.add (V2.smul (V2.dot (P.sub a) u) u), u⟩ :=
    Except.ok.inj hs
  rw [LinkSample.mk.injEq] at hs
  simp only [M_pure_ok, Option.some.injEq, Prod.mk.injEq] at h
  obtain ⟨hx, hoff, -⟩ := h
  have hn : (normalizeWithDerivative (seg.sampleDt t) (seg.sampleDt2 t)).1 = u := by
    rw [← hs.2, normalize_real]
    simp only [normalizeWithDerivative, V2.sdiv, unit, V2.magnitude, V2.magnitude2, V2.dot, fsqrt]
  rw [hs.1, hn] at hoff
  rw [← hx, ← hoff]
  have hu := hl.unit
  obtain ⟨px, py⟩ := P
  obtain ⟨ax, ay⟩ := a
  obtain ⟨ux, uy⟩ := u
  simp only [linePoint, V2.dot, V2.sub, V2.add, V2.smul, rot90, V2.mk.injEq] at hu ⊢
  constructor
  · linear_combination (px - ax) * hu
  · linear_combination (py - ay) * hu

/-- **C72** (a lane change asked for) On a straight link, a lane change over the distance `d` starts exactly where the
vehicle is, and has led to the middle of the lane, in its direction, `d` further on. -/
theorem C72_asked [Env] {s s' : Sim ℝ} {id link : Key} {d : ℝ} {v : Vehicle ℝ} {l : Link ℝ} {a u : V2 ℝ}
    (h : s.doLaneChange id link d = .ok s') (hv : s.vehicles.get? id = some v) (hl : s.links.get? link = some l)
    (hs : StraightLink l a u) (hd : d ≠ 0) :
    ∃ v' lc, s'.vehicles.get? id = some v' ∧ v'.laneChange = some lc ∧ v'.linkId = some link ∧
      linePoint a u v'.pos (lc.offset.y v'.pos) = v.worldPos ∧ lc.endPos = v'.pos + d ∧ LevelsOut lc.offset lc.endPos ∧
      v'.vel = v.vel ∧ v'.acc = v.acc := by
  obtain ⟨links, pos, offset, slope, l1, pf, links', hlinks, hl1, hr, rfl⟩ := doLaneChange_ok h hv
  have hcurve : l1.curve = l.curve := by
    rcases hlinks with rfl | ⟨k, -, rfl⟩
    · rw [hl] at hl1; cases hl1; rfl
    · rw [SlotMap.get?_modify] at hl1
      split at hl1
      · rename_i e
        subst e
        rw [hl] at hl1
        simp only [Option.map_some, Option.some.injEq] at hl1
        rw [← hl1]; rfl
      · rw [hl] at hl1; cases hl1; rfl
  rw [hcurve] at hr
  obtain ⟨f1, f2⟩ := fit_levels (x := pos) (off := offset) (sl := slope) hd
  refine ⟨_, _, by rw [SlotMap.get?_modify_self, hv]; rfl, rfl, rfl, ?_, rfl, f2, ?_, ?_⟩
  rotate_left
  · rfl
  · rfl
  dsimp only
  rw [f1]
  exact inverseSample_straight hs hr

/-- **C72** (a lane change chosen) When a vehicle chooses a path on another lane (C70) and that lane is straight, it starts to change lanes
exactly where it is, and is led to the middle of the lane over thirty metres. -/
theorem C72_chosen [Env] [LawfulDijkstra] {s s' : Sim ℝ} (h : Reach strict s) (hr : s.calculateLaneChanges = .ok s')
    {k link : Key} {v v' : Vehicle ℝ} {l : Link ℝ} {a u : V2 ℝ} (hv : s.vehicles.get? k = some v)
    (hv' : s'.vehicles.get? k = some v') (hlink : v'.linkId = some link) (hne : v.linkId ≠ some link)
    (hl : s.links.get? link = some l) (hs : StraightLink l a u) :
    v.laneChange = none ∧ ∃ lc, v'.laneChange = some lc ∧ linePoint a u v'.pos (lc.offset.y v'.pos) = v.worldPos ∧
      lc.endPos = v'.pos + 30 ∧ LevelsOut lc.offset lc.endPos := by
  have h30 : (30.0 : ℝ) = 30 := by norm_num
  rcases (calculateLaneChanges_phase (.inr trivial) (.inr trivial) h.inv : Spec _ (StepErr strict True True) _).ok hr with
    ⟨-, rfl⟩ | ⟨-, vs, lcs, hrun⟩
  · rw [hv] at hv'; cases hv'
    exact absurd hlink hne
  · obtain ⟨w, hw, hc⟩ := hrun.chooses hv
    rw [hv'] at hw; cases hw
    cases hc with
    | carriesOn _ e => subst e; exact absurd hlink hne
    | keeps p _ _ _ e => subst e; exact absurd hlink hne
    | takes p n _ _ _ hh _ e =>
      rw [e] at hlink
      exact absurd (hh.symm.trans hlink) hne
    | changes p link' l' x off sl pf hlc _ hp _ hl' hi _ _ e =>
      have hlink' : some link' = some link := by
        rw [← hp, ← hlink, e]; rfl
      cases hlink'
      rw [hl] at hl'; cases hl'
      obtain ⟨f1, f2⟩ := fit_levels (x := x) (off := off) (sl := sl) (d := 30) (by norm_num)
      rw [h30] at e
      rw [e]
      refine ⟨hlc, _, rfl, ?_, rfl, f2⟩
      dsimp only
      rw [f1]
      exact inverseSample_straight hs hi

theorem updateCoords_straight {v v' : Vehicle ℝ} {links : LinkSet ℝ} {link : Key} {l : Link ℝ} {a u : V2 ℝ}
    (h : v.updateCoords links = .ok v') (hlink : v.linkId = some link) (hl : links.get? link = some l)
    (hs : StraightLink l a u) : v'.worldPos = linePoint a u v.pos (match v.laneChange with
      | some lc => lc.offset.y v.pos
      | none => 0) := by
  unfold Vehicle.updateCoords at h
  have hroute : v.route.head? = some link := hlink
  split at h
  · cases h
  · rename_i k' rest hk'
    rw [hk'] at hroute
    cases hroute
    rw [M_bind_ok] at h
    obtain ⟨l', hl', h⟩ := h
    rw [getLink_ok, hl] at hl'
    cases hl'
    rw [M_bind_ok] at h
    obtain ⟨sm, hsm, h⟩ := h
    rw [hs.sample] at hsm
    cases hsm
    dsimp only at h
    rw [M_pure_ok] at h
    rw [← h]
    dsimp only
    cases v.laneChange with
    | none => simp [linePoint, V2.add, V2.smul]
    | some lc =>
      simp only [LinkSample.latOffset, linePoint, V2.add, V2.smul, rot90, V2.mk.injEq]
      exact ⟨by ring, trivial⟩

theorem added_straight [Env] {s s' : Sim ℝ} (h : SimInv strict s) {at' : VehicleAttributes ℝ} {link k : Key}
    {l : Link ℝ} {a u : V2 ℝ} (hadd : s.addVehicle at' link = .ok (s', k)) (hl : s.links.get? link = some l)
    (hs : StraightLink l a u) :
    ∃ v, s'.vehicles.get? k = some v ∧ v.linkId = some link ∧ v.pos = 0 ∧ v.vel = 0 ∧ v.laneChange = none ∧
      v.worldPos = a ∧ v.acc = AccelerationModel.new at'.headway at'.maxAcc at'.comfDec := by
  unfold Sim.addVehicle at hadd
  simp only [M_bind_ok] at hadd
  obtain ⟨⟨vs, k'⟩, hm, links', hl', hadd⟩ := hadd
  rw [M_pure_ok] at hadd
  obtain ⟨rfl, rfl⟩ := Prod.mk.inj hadd
  dsimp only at hl' ⊢
  obtain ⟨-, -, ⟨v, hv, h3⟩, -, -⟩ := SlotMap.insertWithKey_spec h.vwf hm
  simp only [M_bind_ok] at hv
  obtain ⟨v0, hv0, hv⟩ := hv
  unfold Vehicle.setLocation at hv0
  simp only [M_bind_ok, M_pure_ok] at hv0
  obtain ⟨pf, hpf, rfl⟩ := hv0
  have hp := updateCoords_straight hv rfl hl hs
  obtain ⟨p, d, r, c, e⟩ := (updateCoords_spec (E := fun _ => True)
    ⟨_, l, rfl, hl, (h.net.link _ l hl).segs⟩).ok hv
  refine ⟨v, by rw [h3, if_pos rfl], ?_⟩
  refine ⟨by rw [e]; rfl, by rw [e]; norm_num, by rw [e]; norm_num [Vehicle.new], by rw [e], ?_, by rw [e]; rfl⟩
  rw [hp]
  norm_num [linePoint]

/-- **C72** (new vehicles) A vehicle that is added on a straight link starts, at rest, in the middle of its first end. -/
theorem C72_added [Env] [LawfulDijkstra] {s s' : Sim ℝ} (h : Reach strict s) {at' : VehicleAttributes ℝ} {link k : Key}
    {l : Link ℝ} {a u : V2 ℝ} (hadd : s.addVehicle at' link = .ok (s', k)) (hl : s.links.get? link = some l)
    (hs : StraightLink l a u) :
    ∃ v, s'.vehicles.get? k = some v ∧ v.linkId = some link ∧ v.pos = 0 ∧ v.vel = 0 ∧ v.laneChange = none ∧
      v.worldPos = a ∧ v.acc = AccelerationModel.new at'.headway at'.maxAcc at'.comfDec := added_straight h.inv hadd hl hs

/-- **C72** (while changing lanes) After every step, a vehicle on a straight link is at its position along the link, as far
beside the middle of the lane as its lane change says, or in the middle if it is not changing lanes. -/
theorem C72_place [Env] [LawfulDijkstra] {s s' : Sim ℝ} {dt : ℝ} (h : Reach strict s) (hst : s.step dt = .ok s')
    {k link : Key} {v' : Vehicle ℝ} {l : Link ℝ} {a u : V2 ℝ} (hv' : s'.vehicles.get? k = some v')
    (hlink : v'.linkId = some link) (hl : s.links.get? link = some l) (hs : StraightLink l a u) :
    v'.worldPos = linePoint a u v'.pos (match v'.laneChange with
      | some lc => lc.offset.y v'.pos
      | none => 0) := by
  obtain ⟨s1, s2, s3, s4, s5, s6, hr⟩ := (step_spec h.inv dt).ok hst
  rw [hr.vehicles'] at hv'
  obtain ⟨v5, h5, hup, p, d, r, c, e⟩ := hr.place.vehicles.bwd hv'
  obtain ⟨l5, hl5, hf⟩ := hr.frame.fwd link l hl
  rw [hr.links'] at hl5
  have := updateCoords_straight hup (by rw [e] at hlink; exact hlink) hl5
    ⟨hs.unit, fun t => by rw [hf.curve]; exact hs.sample t⟩
  rw [this, e]

namespace Solo

/-- A straight link with a vehicle on it. -/
noncomputable def build : List (Op ℝ) := [.addLink (TwoLanes.lane 0 0), .addVehicle TwoLanes.car ⟨0, 1⟩]

theorem leads [Env] [LawfulDijkstra] : ProgLeads (fun s => s.links.contains ⟨0, 1⟩ = true ∧ ∃ n s0 k, SimInv True s0 ∧
    @Sim.addVehicle ℝ _ (Env.withFuel n) s0 TwoLanes.car ⟨0, 1⟩ = .ok (s, k) ∧ OnlyVehs s0.links s.links) .new build := by
  refine ⟨trivial, TwoLanes.lane_fits _ _ (.inr (by simp [Sim.new, SlotMap.empty, u32Max])), fun n1 s1 r1 h1 => ?_⟩
  obtain ⟨l1, g1, rfl⟩ := @TwoLanes.addLink_slots (Env.withFuel n1) _ _ _ rfl h1
  refine ⟨trivial, ⟨rfl, .inr (by simp [Sim.new, SlotMap.empty, u32Max])⟩, fun n2 s2 r2 h2 => ?_⟩
  have i1 := @Reach.inv ℝ _ True _ (Env.withFuel n1) (LawfulDijkstra.withFuel n1) r1
  simp only [Sim.exec, M_bind_ok, M_pure_ok] at h2
  obtain ⟨⟨s3, j⟩, h2, rfl⟩ := h2
  have ha := @addVehicle_ok ℝ _ _ _ _ (Env.withFuel n2) (LawfulDijkstra.withFuel n2) _ _ _ i1 h2
  exact ⟨ha.links.frame.le.contains _ ha.valid, n2, _, j, i1, h2, ha.links⟩

/-- A vehicle at rest at the first end of a straight link. -/
theorem start : ∃ N s k v l a u, (∀ n, N ≤ n → @Reach ℝ _ (Lone.env n) True s) ∧ PosNet s.links ∧ StraightNet s.links ∧
    s.vehicles.get? k = some v ∧ s.links.get? ⟨0, 1⟩ = some l ∧ StraightLink l a u ∧ v.linkId = some ⟨0, 1⟩ ∧ v.vel = 0 ∧
    v.worldPos = a ∧ v.acc.maxAcc = 2 ∧ v.acc.acc = 2 := by
  obtain ⟨N, s, ⟨hc, n, s0, k, hi, hadd, hv⟩, hp, hs, h⟩ := @program_runs (Lone.env 0) (Lone.lawful 0) _ (Search.full_ends _) _
    (@leads (Lone.env 0) (Lone.lawful 0))
  obtain ⟨l, hl⟩ := get_of_contains hc
  obtain ⟨a, u, hu, h1⟩ := hs _ l hl
  obtain ⟨l0, hl0, e⟩ := hv.bwd hl
  obtain ⟨v, g1, g2, -, g3, -, g4, g5⟩ := @added_straight _ (@Env.withFuel (Lone.env 0) n) s0 s hi _ _ k l0 a u hadd hl0
    ⟨hu, fun t => by rw [e] at h1; exact h1 t⟩
  exact ⟨N, s, k, v, l, a, u, fun n hn => (h (n + 1) (by omega)).1, hp, hs, g1, hl, ⟨hu, h1⟩, g2, g3, g4,
    by rw [g5]; norm_num [TwoLanes.car, AccelerationModel.new], by rw [g5]; norm_num [TwoLanes.car, AccelerationModel.new]⟩

/-- A lane change of this vehicle, and a step during it. -/
theorem run : ∃ n s s1 s2 k v v1 v2 l l1 a u dt lc, @Reach ℝ _ (Lone.env n) True s ∧ @Sim.doLaneChange ℝ _ (Lone.env n) s k ⟨0, 1⟩ 20 = .ok s1 ∧
    @Reach ℝ _ (Lone.env n) True s1 ∧ 0 < dt ∧ @Sim.step ℝ _ (Lone.env n) s1 dt = .ok s2 ∧
    s.vehicles.get? k = some v ∧ s1.vehicles.get? k = some v1 ∧ s2.vehicles.get? k = some v2 ∧
    s.links.get? ⟨0, 1⟩ = some l ∧ s1.links.get? ⟨0, 1⟩ = some l1 ∧ StraightLink l a u ∧ StraightLink l1 a u ∧
    v1.laneChange = some lc ∧ v2.linkId = some ⟨0, 1⟩ := by
  obtain ⟨N, s, k, v, l, a, u, hr, hp, hs, hv, hl, hlu, hlink, hvel, hpos, hmax, hacc⟩ := start
  obtain ⟨N1, s1, h1⟩ := @C69_calls (Lone.env N) (Lone.lawful N) s (hr N le_rfl) (Search.full_ends _) hp hs
    (.doLaneChange k ⟨0, 1⟩ 20) trivial ⟨contains_of_get hv, contains_of_get hl⟩
  have h1 : ∀ n, N1 ≤ n + 1 → @Sim.exec ℝ _ (Lone.env n) s (.doLaneChange k ⟨0, 1⟩ 20) = .ok s1 := fun n hn => h1 (n + 1) hn
  have r1 : ∀ n, N ≤ n → N1 ≤ n + 1 → @Reach ℝ _ (Lone.env n) True s1 := fun n hn hn' =>
    @Reach.exec ℝ _ (Lone.env n) True s s1 (.doLaneChange k ⟨0, 1⟩ 20) (hr n hn) trivial (h1 n hn')
  obtain ⟨hp1, hs1⟩ := @exec_straight (Lone.env (max N N1)) (Lone.lawful _) s s1 (.doLaneChange k ⟨0, 1⟩ 20) (hr _ (le_max_left _ _)) hp hs
    ⟨contains_of_get hv, contains_of_get hl⟩ (h1 (max N N1) (by omega))
  have hd1 : @Sim.doLaneChange ℝ _ (Lone.env (max N N1)) s k ⟨0, 1⟩ 20 = .ok s1 := h1 (max N N1) (by omega)
  obtain ⟨v1, lc, hv1, hlc, hlink1, hpt, hend, hlev, hvel1, hacc1⟩ := @C72_asked (Lone.env (max N N1)) s s1 k ⟨0, 1⟩ 20 v l a u hd1
    hv hl hlu (by norm_num)
  have hx : v1.pos = 0 := by
    rw [hpos] at hpt
    have e1 := congrArg V2.x hpt
    have e2 := congrArg V2.y hpt
    simp only [linePoint] at e1 e2
    linear_combination u.x * e1 + u.y * e2 - v1.pos * hlu.unit
  have hf1 := @doLaneChange_ok ℝ _ (Lone.env (max N N1)) s s1 k ⟨0, 1⟩ 20 v hd1 hv
  have hl1 : ∃ l1, s1.links.get? ⟨0, 1⟩ = some l1 ∧ l1.curve = l.curve := by
    cases @exec_network ℝ _ True s s1 (Lone.env (max N N1)) (Lone.lawful _)
      (@Reach.inv ℝ _ True s (Lone.env (max N N1)) (Lone.lawful _) (hr (max N N1) (le_max_left _ _)))
      (.doLaneChange k ⟨0, 1⟩ 20) (h1 (max N N1) (by omega)) with
    | frame hf =>
      obtain ⟨l1, g, e⟩ := hf.fwd _ l hl
      exact ⟨l1, g, e.curve⟩
    | added _ _ e => cases e
    | grouped _ _ _ _ e => cases e
    | converging _ _ _ e => cases e
    | connected _ _ e => cases e
  obtain ⟨l1, hl1, hcurve⟩ := hl1
  have hpos1 := hp1.length _ l1 hl1
  obtain ⟨N2, s2, h2⟩ := @C69_calls (Lone.env (max N N1)) (Lone.lawful _) s1 (r1 _ (le_max_left _ _) (by omega)) (Search.full_ends _) hp1 hs1
    (.step (min 1 l1.length)) trivial trivial
  have h2 : ∀ n, N2 ≤ n + 1 → @Sim.step ℝ _ (Lone.env n) s1 (min 1 l1.length) = .ok s2 := fun n hn => h2 (n + 1) hn
  obtain ⟨m, hm⟩ : ∃ m, m = max (max N N1) N2 := ⟨_, rfl⟩
  have hst := h2 m (by omega)
  have hrm := r1 m (by omega) (by omega)
  let _ := Lone.env m
  have := Lone.lawful m
  obtain ⟨t1, t2, t3, t4, t5, t6, hrun⟩ := (step_spec hrm.inv (min 1 l1.length)).ok hst
  obtain ⟨w1, w2, w4, ht⟩ := hrun.trace hv1
  have e1 : w1 = v1 := by
    rcases hrun.chooses hv1 ht.get1 with ⟨-, e⟩ | ⟨-, hc⟩
    · exact e
    · cases hc with
      | carriesOn _ e => exact e
      | keeps p e => rw [hlc] at e; cases e
      | takes p n e => rw [hlc] at e; cases e
      | changes p link l x off sl pf e => rw [hlc] at e; cases e
  have e2 : w2.vel = v1.vel ∧ w2.pos = v1.pos ∧ w2.route = v1.route ∧ w2.acc.acc ≤ 2 := by
    rcases ht.acc with ⟨-, -, e⟩ | ⟨-, n0, n1, vs, -, ha⟩
    · rw [e, e1]; exact ⟨rfl, rfl, rfl, by rw [hacc1, hacc]⟩
    · obtain ⟨b, w, e, -, hfr, hnf⟩ := ha.eq
      rw [e, e1]
      refine ⟨rfl, rfl, rfl, ?_⟩
      dsimp only
      by_cases hk : k ∈ t1.frozen
      · rw [hfr hk]; simp only [maxDecel]; norm_num
      · obtain ⟨as, has⟩ := hnf hk
        rw [has, e1, hacc1, hmax]
        exact (foldl_min_le as 2).1
  obtain ⟨sq, sq', hmv, -⟩ := ht.move
  obtain ⟨m0, m1, m2, -⟩ := integrate_motion hmv
  have hdt : 0 < min 1 l1.length := lt_min one_pos hpos1
  have hv4 : w4.vel ≤ 2 * min 1 l1.length := by
    rw [m0, e2.1, hvel1, hvel]
    refine max_le ?_ (by norm_num; linarith)
    have hg : w2.acc.getAcc ≤ 2 := max_le e2.2.2.2 (by norm_num [maxDecel])
    nlinarith
  have hx4 : w4.pos ≤ l1.length := by
    rw [m1, e2.1, e2.2.1, hx, hvel1, hvel]
    have h5 : (0.5 : ℝ) = 1 / 2 := by norm_num
    rw [h5]
    have h6 : min 1 l1.length ≤ 1 := min_le_left _ _
    have h7 : min 1 l1.length ≤ l1.length := min_le_right _ _
    nlinarith
  have hroute : w4.linkId = some ⟨0, 1⟩ := by
    show w4.route.head? = _
    rw [m2, e2.2.2.1]; exact hlink1
  have hstays : ∃ v2, s2.vehicles.get? k = some v2 ∧ v2.linkId = some ⟨0, 1⟩ := by
    have hno : ∀ v5, ¬ Passed t4.links w4 v5 := by
      intro v5 hp
      obtain ⟨b, rest, l4, pf, hb, hl4, hlt, -⟩ := hp.ex
      have : w4.linkId = some b := by show w4.route.head? = _; rw [hb]; rfl
      rw [hroute] at this; cases this
      obtain ⟨l1', g, e⟩ := hrun.frame4.bwd hl4
      rw [hl1] at g; cases g
      have : l4.length = l1.length := by unfold Link.length; rw [e.curve]
      linarith
    cases ht.out with
    | stays v2 g hp _ =>
      obtain ⟨_, _, _, _, e⟩ := hp
      exact ⟨v2, g, by rw [e]; exact hroute⟩
    | passes v5 v2 hp => exact absurd hp (hno v5)
    | leaves v5 hp => exact absurd hp (hno v5)
  obtain ⟨v2, hv2, hlink2⟩ := hstays
  exact ⟨m, s, s1, s2, k, v, v1, v2, l, l1, a, u, _, lc, hr m (by omega), h1 m (by omega), hrm, hdt, hst, hv, hv1, hv2, hl, hl1, hlu,
    ⟨hlu.unit, fun t => by rw [hcurve]; exact hlu.sample t⟩, hlc, hlink2⟩

/-- The hypotheses of C70_changing, C72_asked and C72_place can be met. -/
example : ∃ n s s1 s2 k v v1 v2 l l1 a u dt lc, @Reach ℝ _ (Lone.env n) True s ∧ @Sim.doLaneChange ℝ _ (Lone.env n) s k ⟨0, 1⟩ 20 = .ok s1 ∧
    @Reach ℝ _ (Lone.env n) True s1 ∧ 0 < dt ∧ @Sim.step ℝ _ (Lone.env n) s1 dt = .ok s2 ∧
    s.vehicles.get? k = some v ∧ s1.vehicles.get? k = some v1 ∧ s2.vehicles.get? k = some v2 ∧
    s.links.get? ⟨0, 1⟩ = some l ∧ s1.links.get? ⟨0, 1⟩ = some l1 ∧ StraightLink l a u ∧ StraightLink l1 a u ∧
    v1.laneChange = some lc ∧ v2.linkId = some ⟨0, 1⟩ := run

end Solo

end TrafficSim
