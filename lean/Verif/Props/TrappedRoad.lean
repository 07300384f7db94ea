import Verif.Props.ArrivalRoad
import Verif.Props.Trapped

/-! # C89: a vehicle that never gets past a short link -/

namespace TrafficSim

namespace Pit
open Relay

/-- A straight link of length `d`. -/
noncomputable def lane (x d : ℝ) : LinkAttributes ℝ := ⟨(LineSegment2d.fromEnds ⟨x, 0⟩ ⟨x + d, 0⟩).toCurve, 10⟩

theorem dist {x d : ℝ} (h : 0 ≤ d) : V2.distance (⟨x, 0⟩ : V2 ℝ) ⟨x + d, 0⟩ = d := by
  simp only [V2.distance, V2.magnitude, V2.magnitude2, V2.dot, V2.sub, fsqrt]
  show Real.sqrt _ = d
  rw [show ((x + d - x) * (x + d - x) + (0 - 0) * (0 - 0) : ℝ) = d * d by ring]
  exact Real.sqrt_mul_self h

theorem lane_fits (x : ℝ) {d : ℝ} (h1 : 0.5 < d) (h2 : d ≤ 1000) {s : Sim ℝ} (h : s.links.HasRoom) : ValidArgs s (.addLink (lane x d)) := by
  norm_num at h1
  have hd := dist (x := x) (d := d) (by linarith)
  exact ⟨h, by norm_num [lane], _, _, by rw [hd]; norm_num; exact h1, by rw [hd]; linarith, rfl⟩

/-- What is known of a new link. -/
structure Plain (d : ℝ) (l : Link ℝ) : Prop where
  outs : l.linksOut = []
  lcs : l.laneChanges = []
  vehs : l.vehicles = []
  segs : l.curve.segments ≠ []
  limit : l.speedLimit = 10
  len : d - 0.1 ≤ l.length
  short : l.length ≤ d + 0.1
  control : l.control = .open_
  group : l.group = none

theorem link_clear [Env] {s s' : Sim ℝ} {x d : ℝ} (h1 : 0.5 < d) (hfree : s.links.free = []) (h : s.exec (.addLink (lane x d)) = .ok s') :
    ∃ l, Plain d l ∧ l.conflicts = [] ∧ s' = { s with links := ⟨s.links.slots ++ [⟨1, some l⟩], []⟩ } := by
  have hd := dist (x := x) (d := d) (by norm_num at h1; linarith)
  simp only [Sim.exec, Sim.addLink, SlotMap.insertWithKey, hfree] at h
  split at h
  · cases h
  simp only [M_bind_ok, M_pure_ok] at h
  obtain ⟨_, ⟨_, ⟨l, hl, rfl⟩, rfl⟩, rfl⟩ := h
  simp only [Link.new, M_bind_ok, M_pure_ok] at hl
  obtain ⟨c, hc, rfl⟩ := hl
  refine ⟨_, ?_, rfl, rfl⟩
  obtain ⟨hlen, hsegs⟩ := C38_length (by norm_num) (by rw [hd]; exact h1) hc
  rw [hd] at hlen
  obtain ⟨h1, h2⟩ := abs_le.1 hlen
  norm_num at h1 h2
  refine ⟨rfl, rfl, rfl, hsegs, rfl, ?_, ?_, rfl, rfl⟩
  · show _ ≤ c.length
    norm_num; linarith
  · show c.length ≤ _
    norm_num; linarith

theorem link [Env] {s s' : Sim ℝ} {x d : ℝ} (h1 : 0.5 < d) (hfree : s.links.free = []) (h : s.exec (.addLink (lane x d)) = .ok s') :
    ∃ l, Plain d l ∧ s' = { s with links := ⟨s.links.slots ++ [⟨1, some l⟩], []⟩ } := by
  obtain ⟨l, hl, -, e⟩ := link_clear h1 hfree h
  exact ⟨l, hl, e⟩

/-- What is known of each of the three links. -/
structure Lane (s : Sim ℝ) (c : Key) (d : ℝ) (outs : List Key) : Prop where
  ex : ∃ l, s.links.get? c = some l ∧ l.linksOut = outs ∧ l.laneChanges = [] ∧ l.speedLimit = 10 ∧ d - 0.1 ≤ l.length ∧ l.length ≤ d + 0.1 ∧
    l.control = .open_

/-- One vehicle on the first of three links, of 210 m, `m` and 20 m, without a destination. -/
structure Road (m : ℝ) (s : Sim ℝ) (v : Vehicle ℝ) : Prop where
  la : Lane s ⟨0, 1⟩ 210 [⟨1, 1⟩]
  lb : Lane s ⟨1, 1⟩ m [⟨2, 1⟩]
  lc : Lane s ⟨2, 1⟩ 20 []
  gv : s.getVehicle ⟨0, 1⟩ = .ok v
  only : ∀ c w, s.vehicles.get? c = some w → c = ⟨0, 1⟩
  route : v.route = [⟨0, 1⟩]
  paths : v.pathfind.paths = []
  change : v.laneChange = none
  half : v.halfLen = 2
  acc : ∃ x, v.acc = ⟨2, 2, 2, 1, x⟩
  lights : ∀ light i j, ¬ s.Controls light i j
  all : ∀ c l, s.links.get? c = some l → c = ⟨0, 1⟩ ∨ c = ⟨1, 1⟩ ∨ c = ⟨2, 1⟩

noncomputable def build (m : ℝ) : List (Op ℝ) :=
  [.addLink (lane 0 210), .addLink (lane 210 m), .addLink (lane (210 + m) 20), .addLinkConnection ⟨0, 1⟩ ⟨1, 1⟩, .addLinkConnection ⟨1, 1⟩ ⟨2, 1⟩,
    .addVehicle Lone.car ⟨0, 1⟩]

noncomputable def road (la lb lc : Link ℝ) (vs : List (Slot (Vehicle ℝ))) : Sim ℝ :=
  ⟨⟨[⟨1, some la⟩, ⟨1, some lb⟩, ⟨1, some lc⟩], []⟩, .empty, [], ⟨vs, []⟩, [], 0, 0, 0.0, 0.0⟩

theorem leads {m : ℝ} (hm : 0.5 < m) (hm' : m ≤ 1000) : @ProgLeads (Lone.env 0) (fun s => s.accUpdate = 0 ∧ s.lcUpdate = 0 ∧ s.frozen = [] ∧
    s.conflicts = [] ∧ (∀ c l, s.links.get? c = some l → l.group = none) ∧ ∃ v, Road m s v ∧ v.pos = 0 ∧ v.vel = 0) .new (build m) := by
  refine ⟨trivial, lane_fits _ (by norm_num) (by norm_num) (.inr (by simp [Sim.new, SlotMap.empty, u32Max])), fun n1 s1 r1 h1 => ?_⟩
  obtain ⟨la, pa, rfl⟩ := @link (_) _ _ _ _ (by norm_num) rfl h1
  refine ⟨trivial, lane_fits _ hm hm' (.inr (by simp [Sim.new, SlotMap.empty, u32Max])), fun n2 s2 r2 h2 => ?_⟩
  obtain ⟨lb, pb, rfl⟩ := @link (_) _ _ _ _ hm rfl h2
  refine ⟨trivial, lane_fits _ (by norm_num) (by norm_num) (.inr (by simp [Sim.new, SlotMap.empty, u32Max])), fun n3 s3 r3 h3 => ?_⟩
  obtain ⟨lc, pc, rfl⟩ := @link (_) _ _ _ _ (by norm_num) rfl h3
  refine ⟨trivial, ⟨rfl, rfl⟩, fun n4 s4 r4 h4 => ?_⟩
  obtain ⟨pa', ea⟩ : ∃ l : Link ℝ, l = { la with linksOut := la.linksOut ++ [⟨1, 1⟩] } := ⟨_, rfl⟩
  obtain ⟨pb', eb⟩ : ∃ l : Link ℝ, l = { lb with linksIn := lb.linksIn ++ [⟨0, 1⟩] } := ⟨_, rfl⟩
  replace h4 : s4 = road pa' pb' lc [] := by rw [ea, eb]; cases h4; rfl
  subst h4
  refine ⟨trivial, ⟨rfl, rfl⟩, fun n5 s5 r5 h5 => ?_⟩
  obtain ⟨pb'', eb'⟩ : ∃ l : Link ℝ, l = { pb' with linksOut := pb'.linksOut ++ [⟨2, 1⟩] } := ⟨_, rfl⟩
  obtain ⟨pc', ec⟩ : ∃ l : Link ℝ, l = { lc with linksIn := lc.linksIn ++ [⟨1, 1⟩] } := ⟨_, rfl⟩
  replace h5 : s5 = road pa' pb'' pc' [] := by rw [eb', ec]; cases h5; rfl
  subst h5
  refine ⟨trivial, ⟨rfl, .inr (by simp [road, u32Max])⟩, fun n6 s6 r6 h6 => ?_⟩
  obtain ⟨v, fv, h6'⟩ := @added (@Env.withFuel (Lone.env 0) n6) (road pa' pb'' pc' []) pa' ⟨0, 1⟩ [] rfl (by rw [ea]; exact pa.lcs)
    (by rw [ea]; exact pa.segs) (by rw [ea]; exact pa.vehs) rfl (by decide)
  replace h6 : s6 = road { pa' with vehicles := [⟨0, 1⟩] } pb'' pc' [⟨1, some v⟩] := by rw [h6'] at h6; cases h6; rfl
  subst h6
  refine ⟨by show (0.0 : ℝ) = 0; norm_num, by show (0.0 : ℝ) = 0; norm_num, rfl, rfl, ?_, v, ?_, fv.pos, fv.vel⟩
  · rintro ⟨i, w⟩ u hu
    match i with
    | 0 => simp [road, SlotMap.get?] at hu; rw [← hu.2, ea]; exact pa.group
    | 1 => simp [road, SlotMap.get?] at hu; rw [← hu.2, eb', eb]; exact pb.group
    | 2 => simp [road, SlotMap.get?] at hu; rw [← hu.2, ec]; exact pc.group
    | n + 3 => simp [road, SlotMap.get?] at hu
  refine ⟨⟨_, rfl, ?_, ?_, ?_, ?_, ?_, ?_⟩, ⟨_, rfl, ?_, ?_, ?_, ?_, ?_, ?_⟩, ⟨_, rfl, ?_, ?_, ?_, ?_, ?_, ?_⟩, rfl, ?_, fv.route, fv.paths, fv.lc, fv.half,
    ⟨2, fv.acc⟩, ?_, ?_⟩
  · rw [ea]; show la.linksOut ++ _ = _; rw [pa.outs]; rfl
  · rw [ea]; exact pa.lcs
  · rw [ea]; exact pa.limit
  · rw [ea]; exact pa.len
  · rw [ea]; exact pa.short
  · rw [ea]; exact pa.control
  · rw [eb', eb]; show lb.linksOut ++ _ = _; rw [pb.outs]; rfl
  · rw [eb', eb]; exact pb.lcs
  · rw [eb', eb]; exact pb.limit
  · rw [eb', eb]; exact pb.len
  · rw [eb', eb]; exact pb.short
  · rw [eb', eb]; exact pb.control
  · rw [ec]; exact pc.outs
  · rw [ec]; exact pc.lcs
  · rw [ec]; exact pc.limit
  · rw [ec]; exact pc.len
  · rw [ec]; exact pc.short
  · rw [ec]; exact pc.control
  · rintro ⟨i, w⟩ u hu
    match i with
    | 0 => simp [road, SlotMap.get?] at hu; rw [← hu.1]
    | n + 1 => simp [road, SlotMap.get?] at hu
  · rintro light i j ⟨tl, htl, -⟩
    simp [road, SlotMap.get?, SlotMap.empty] at htl
  · rintro ⟨i, w⟩ u hu
    match i with
    | 0 => simp [road, SlotMap.get?] at hu; rw [← hu.1]; exact .inl rfl
    | 1 => simp [road, SlotMap.get?] at hu; rw [← hu.1]; exact .inr (.inl rfl)
    | 2 => simp [road, SlotMap.get?] at hu; rw [← hu.1]; exact .inr (.inr rfl)
    | n + 3 => simp [road, SlotMap.get?] at hu

theorem Lane.frame {s s' : Sim ℝ} {c : Key} {d : ℝ} {outs : List Key} (h : Lane s c d outs) (hf : Frame s.links s'.links)
    (hc : ∀ l l', s.links.get? c = some l → s'.links.get? c = some l' → l'.control = l.control) : Lane s' c d outs := by
  obtain ⟨l, hl, h1, h2, h3, h4, h5, h7⟩ := h.ex
  obtain ⟨l', hl', e⟩ := hf.fwd _ _ hl
  have hlen : l'.length = l.length := by unfold Link.length; rw [e.curve]
  exact ⟨l', hl', e.linksOut.trans h1, e.laneChanges.trans h2, e.speedLimit.trans h3, by rw [hlen]; exact h4, by rw [hlen]; exact h5,
    (hc _ _ hl hl').trans h7⟩

theorem Road.step [Env] [LawfulDijkstra] {s s' : Sim ℝ} {v : Vehicle ℝ} {m dt : ℝ} (h : Road m s v) (hs : Reach True s) (hst : s.step dt = .ok s')
    (hdt : 0 ≤ dt) (hv : v.pos + (v.vel + 2 * dt) * dt ≤ 200) :
    ∃ v', Road m s' v' ∧ v'.vel ≤ v.vel + 2 * dt ∧ v.pos ≤ v'.pos ∧ v'.pos ≤ v.pos + (v.vel + 2 * dt) * dt := by
  obtain ⟨x, ex⟩ := h.acc
  obtain ⟨l, hl, -, -, -, hlen, -⟩ := h.la.ex
  norm_num at hlen
  obtain ⟨-, v', c1, c2, c3, c4, c5, ⟨ca, c6⟩, c7, c8, c9, c10⟩ := veh hs hst hdt h.gv (by rw [Vehicle.linkId, h.route]; rfl) (getLink_ok.2 hl) h.change
    (fun p hp => by rw [h.paths] at hp; cases hp) (by rw [ex]; norm_num) (by rw [ex]; dsimp only; linarith)
  rw [ex] at c6 c7 c9
  obtain ⟨s1, s2, s3, s4, s5, s6, hr⟩ := (step_spec hs.inv dt).ok hst
  have hlights : ∀ light i j, ¬ s'.Controls light i j := by
    rintro light i j ⟨tl', htl', hm⟩
    obtain ⟨tl, htl, e⟩ := (C08_lights hs hst).bwd htl'
    rw [light_links e] at hm
    exact h.lights light i j ⟨tl, htl, hm⟩
  have hctl : ∀ {c : Key} (l l' : Link ℝ), s.links.get? c = some l → s'.links.get? c = some l' → l'.control = l.control := by
    intro c l l' hl hl'
    obtain ⟨l'', hl'', e⟩ := C08_uncontrolled hs hst (getLink_ok.2 hl) fun light i => hlights light i c
    rw [getLink_ok.1 hl''] at hl'; cases hl'
    exact e
  refine ⟨v', ⟨h.la.frame hr.frame hctl, h.lb.frame hr.frame hctl, h.lc.frame hr.frame hctl, c1, fun c w hw => ?_, ?_, by rw [c3]; exact h.paths, c4,
    c5.trans h.half, ⟨ca, c6⟩, hlights, fun c l' hl' => ?_⟩, c7, c8, c9⟩
  · obtain ⟨u, hu⟩ := hr.back hw
    exact h.only c u hu
  · rcases c10 with ⟨e, -⟩ | ⟨-, p, hp, -⟩
    · rw [e]; exact h.route
    · rw [h.paths] at hp; cases hp
  · obtain ⟨l0, hl0, -⟩ := hr.frame.bwd hl'
    exact h.all c l0 hl0

/-- The hypotheses of `C89_trapped` hold half a second after the vehicle is added. -/
theorem ready : ∃ (N : ℕ) (s : Sim ℝ) (v : Vehicle ℝ) (l lj : Link ℝ), PosNet s.links ∧ StraightNet s.links ∧
    (∀ n, N ≤ n → @Reach ℝ _ (@Env.withFuel (Lone.env 0) n) True s) ∧ Road 1 s v ∧
    ¬ s.accUpdate < 0.1 ∧ ¬ s.lcUpdate < 0.3 ∧ s.getLinkRef ⟨0, 1⟩ = .ok l ∧ 200 ≤ l.length ∧ l.linksOut = [⟨1, 1⟩] ∧ l.laneChanges = [] ∧
    s.getLinkRef ⟨1, 1⟩ = .ok lj ∧ lj.control = .open_ ∧ lj.length < v.halfLen ∧ Leads s.links ⟨0, 1⟩ ⟨2, 1⟩ ∧
    (∀ k l, s.getLinkRef k = .ok l → 0 < l.length) ∧ 0 < v.acc.velAdj ∧
    (∀ k l, s.getLinkRef k = .ok l → 0 < l.speedLimit ∧ l.speedLimit ≤ 10 ∧ 4 * v.acc.maxAcc * (0.1 + 0.1) ≤ v.acc.velAdj * l.speedLimit) ∧
    lj.length < 5 * lj.speedLimit ∧ Stopping v.acc (0.1 + 0.1) ∧ v.acc.comfDec ≤ 3 ∧
    (13 + 6 * v.acc.maxAcc + v.acc.maxAcc ^ 2) * (0.1 + 0.1) ^ 2 ≤ 7 ∧ v.vel ≤ v.acc.velAdj * 10 ∧
    (v.acc.velAdj * 10) ^ 2 + 2 * (v.acc.maxAcc + 6) * (0.1 + 0.1) * (v.acc.velAdj * 10) + (v.acc.maxAcc + 3) ^ 2 * (0.1 + 0.1) ^ 2 ≤ 60 * l.speedLimit ∧
    (v.acc.velAdj * 10) ^ 2 / (2 * v.acc.comfDec) + 7.5 ≤ 5 * l.speedLimit ∧
    v.posFront + v.vel ^ 2 / (2 * v.acc.comfDec) + 7.5 ≤ l.length := by
  obtain ⟨N, s, ⟨z1, z2, -, -, -, v, hb, p0, q0⟩, hp, hn, h⟩ := @program_runs (Lone.env 0) (Lone.lawful 0) _ (Search.full_ends _) _
    (leads (m := 1) (by norm_num) (by norm_num))
  obtain ⟨N1, s1, hN1, h1, hp1, hn1⟩ := @Trip.call (Lone.env 0) (Lone.lawful 0) (Search.full_ends _) s N (fun n hn => (h n hn).1) hp hn (.step 0.5)
    trivial trivial
  have law : ∀ n, @LawfulDijkstra (@Env.withFuel (Lone.env 0) n) := fun n => @LawfulDijkstra.withFuel (Lone.env 0) (Lone.lawful 0) n
  obtain ⟨v1, hb1, a1, a2, a3⟩ := @Road.step (@Env.withFuel (Lone.env 0) N1) (law N1) _ _ _ _ _ hb (h N1 hN1).1 (h1 N1 le_rfl).1
    (by norm_num) (by rw [p0, q0]; norm_num)
  rw [p0] at a2; rw [p0, q0] at a3; rw [q0] at a1
  norm_num at a1 a2 a3
  obtain ⟨hclk1, hclk2⟩ := @Trip.clocks (@Env.withFuel (Lone.env 0) N1) (law N1) _ _ _ (h N1 hN1).1 (h1 N1 le_rfl).1
  have v0 := @C20_speed _ _ (@Env.withFuel (Lone.env 0) N1) (law N1) (h1 N1 le_rfl).2 _ _ hb1.gv
  have hsq : v1.vel ^ 2 ≤ 1 := by nlinarith
  obtain ⟨x, ex⟩ := hb1.acc
  obtain ⟨l, hl, o1, o2, o3, o4, o5, o6⟩ := hb1.la.ex
  obtain ⟨lj, hlj, j1, j2, j3, j4, j5, j6⟩ := hb1.lb.ex
  obtain ⟨lc, hlc, i1, i2, i3, i4, i5, i6⟩ := hb1.lc.ex
  norm_num at o4 o5 j4 j5 i4 i5
  refine ⟨N1, s1, v1, l, lj, hp1, hn1, fun n hn => (h1 n hn).2, hb1, ?_, ?_, getLink_ok.2 hl, by linarith, o1, o2, getLink_ok.2 hlj, j6, ?_, ?_, ?_, ?_, ?_,
    ?_, ?_, ?_, ?_, ?_, ?_, ?_, ?_⟩
  · rw [hclk1, z1]; norm_num
  · rw [hclk2, z2]; norm_num
  · rw [hb1.half]; linarith
  · exact .head (.inl ⟨l, hl, by rw [o1]; simp⟩) (.single (.inl ⟨lj, hlj, by rw [j1]; simp⟩))
  · intro c l' hl'
    have hl' := getLink_ok.1 hl'
    rcases hb1.all c l' hl' with rfl | rfl | rfl
    · rw [hl] at hl'; cases hl'; linarith
    · rw [hlj] at hl'; cases hl'; linarith
    · rw [hlc] at hl'; cases hl'; linarith
  · rw [ex]; norm_num
  · intro c l' hl'
    have hl' := getLink_ok.1 hl'
    have : l'.speedLimit = 10 := by
      rcases hb1.all c l' hl' with rfl | rfl | rfl
      · rw [hl] at hl'; cases hl'; exact o3
      · rw [hlj] at hl'; cases hl'; exact j3
      · rw [hlc] at hl'; cases hl'; exact i3
    rw [this, ex]; norm_num
  · rw [j3]; linarith
  · rw [ex]; exact Trip.stopping rfl x
  · rw [ex]; norm_num
  · rw [ex]; norm_num
  · rw [ex]; dsimp only; linarith
  · rw [ex, o3]; norm_num
  · rw [ex, o3]; norm_num
  · rw [Vehicle.posFront, hb1.half, ex]; dsimp only
    norm_num
    linarith

end Pit

/-- **C89 (false).** There is a vehicle, alone on a road of three open links, that is sent to the third link and never gets there: whatever
steps of at most 0.1 seconds follow, they succeed, and the vehicle is still on the first link. -/
theorem C89_never_arrives : ∃ (s : Sim ℝ) (k a b c : Key) (v : Vehicle ℝ), s.getVehicle k = .ok v ∧ v.linkId = some a ∧
    (∀ j w, s.getVehicle j = .ok w → j = k) ∧ Conn s.links a b ∧ Conn s.links b c ∧ (∀ j l, s.getLinkRef j = .ok l → l.control = .open_) ∧
    ∀ dts : List ℝ, (∀ dt ∈ dts, 0 ≤ dt ∧ dt ≤ 0.1) → ∃ (_ : Env) (_ : LawfulDijkstra), Reach True s ∧
      ∃ s' s'' v'', s.setVehicleDestination k c = .ok s' ∧ dts.foldlM Sim.step s' = .ok s'' ∧ s''.getVehicle k = .ok v'' ∧
        v''.linkId = some a ∧ v''.destination = c := by
  obtain ⟨N, s, v, l, lj, hp, hn, h, hb, f1, f2, f3, f4, f5, f6, f7, f8, f9, f10, f11, f12, f13, f14, f15, f16, f17, f18, f19, f20, f21⟩ := Pit.ready
  obtain ⟨lc, hlc, i1, i2, i3, i4, i5, i6⟩ := hb.lc.ex
  obtain ⟨la, hla, o1, o2, o3, o4, o5, o6⟩ := hb.la.ex
  obtain ⟨lb, hlb, j1, j2, j3, j4, j5, j6⟩ := hb.lb.ex
  refine ⟨s, ⟨0, 1⟩, ⟨0, 1⟩, ⟨1, 1⟩, ⟨2, 1⟩, v, hb.gv, by rw [Vehicle.linkId, hb.route]; rfl, fun j w hw => hb.only j w (getVeh_ok.1 hw),
    ⟨la, hla, by rw [o1]; simp⟩, ⟨lb, hlb, by rw [j1]; simp⟩, fun c l' hl' => ?_, fun dts hd => ?_⟩
  · have hl' := getLink_ok.1 hl'
    rcases hb.all c l' hl' with rfl | rfl | rfl
    · rw [hla] at hl'; cases hl'; exact o6
    · rw [hlb] at hl'; cases hl'; exact j6
    · rw [hlc] at hl'; cases hl'; exact i6
  obtain ⟨N1, s1, hN1, h1, hp1, hn1⟩ := @Trip.call (Lone.env 0) (Lone.lawful 0) (Search.full_ends _) s N h hp hn
    (.setVehicleDestination ⟨0, 1⟩ ⟨2, 1⟩) trivial ⟨by rw [SlotMap.contains, getVeh_ok.1 hb.gv]; rfl, .inr (by rw [SlotMap.contains, hlc]; rfl)⟩
  obtain ⟨N', s'', hN, hs⟩ := @Relay.calls (Lone.env 0) (Lone.lawful 0) (Search.full_ends _) dts s1 N1 (fun n hn => (h1 n hn).2) hp1 hn1
  let env : Env := @Env.withFuel (Lone.env 0) N'
  have hlaw : LawfulDijkstra := @LawfulDijkstra.withFuel (Lone.env 0) (Lone.lawful 0) N'
  have hR : Reach True s := h N' (hN1.trans hN)
  have hset : s.setVehicleDestination ⟨0, 1⟩ ⟨2, 1⟩ = .ok s1 := (h1 N' hN).1
  have hrun := hs N' le_rfl
  obtain ⟨v'', g1, g2, -, g4⟩ := C89_trapped hR hb.gv hb.route hb.change (fun a w hw => hb.only a w (getVeh_ok.1 hw)) f1 f2 f3 f4 f5 f6 f7 (by decide) f8
    (fun light i => hb.lights light i _) f9 f10 (by decide) (by decide) f11 f12 f13 f14 f15 f16 f17 f18 f19 f20 f21 (by norm_num) hset hd hrun
  exact ⟨env, hlaw, hR, s1, s'', v'', hset, hrun, g1, g2, g4⟩

end TrafficSim
