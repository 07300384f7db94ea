import Verif.Props.Arrival
import Verif.Props.SafetyAcross

/-! # C78 and C79: examples, and a vehicle that never leaves -/

namespace TrafficSim

namespace Trip
open Relay

/-- What is known of each of the two links. -/
structure Lane (s : Sim ℝ) (c : Key) (outs : List Key) : Prop where
  ex : ∃ l, s.links.get? c = some l ∧ l.linksOut = outs ∧ l.laneChanges = [] ∧ l.speedLimit = 10 ∧ 99 ≤ l.length ∧ l.length ≤ 101 ∧
    l.group = none ∧ l.control = .open_

/-- One vehicle on the link `lk` of two straight links, without a destination. -/
structure Road (s : Sim ℝ) (lk : Key) (v : Vehicle ℝ) : Prop where
  la : Lane s ⟨0, 1⟩ [⟨1, 1⟩]
  lb : Lane s ⟨1, 1⟩ []
  gv : s.getVehicle ⟨0, 1⟩ = .ok v
  only : ∀ c w, s.vehicles.get? c = some w → c = ⟨0, 1⟩
  route : v.route = [lk]
  paths : v.pathfind.paths = []
  lc : v.laneChange = none
  half : v.halfLen = 2
  acc : ∃ x, v.acc = ⟨2, 2, 2, 1, x⟩
  frozen : s.frozen = []
  conflicts : s.conflicts = []
  lights : ∀ light i j, ¬ s.Controls light i j
  all : ∀ c l, s.links.get? c = some l → c = ⟨0, 1⟩ ∨ c = ⟨1, 1⟩

noncomputable def build (lk : Key) : List (Op ℝ) :=
  [.addLink (TwoLanes.lane 0 0), .addLink (TwoLanes.lane 100 0), .addLinkConnection ⟨0, 1⟩ ⟨1, 1⟩, .addVehicle Lone.car lk]

theorem leads {lk : Key} (hlk : lk = ⟨0, 1⟩ ∨ lk = ⟨1, 1⟩) : @ProgLeads (Lone.env 0)
    (fun s => s.accUpdate = 0 ∧ s.lcUpdate = 0 ∧ s.lights = .empty ∧ ∃ v, Road s lk v ∧ v.pos = 0 ∧ v.vel = 0) .new (build lk) := by
  refine ⟨trivial, TwoLanes.lane_fits _ _ (.inr (by simp [Sim.new, SlotMap.empty, u32Max])), fun n1 s1 r1 h1 => ?_⟩
  obtain ⟨la, pa, rfl⟩ := @link (_) _ _ _ rfl h1
  refine ⟨trivial, TwoLanes.lane_fits _ _ (.inr (by simp [Sim.new, SlotMap.empty, u32Max])), fun n2 s2 r2 h2 => ?_⟩
  obtain ⟨lb, pb, rfl⟩ := @link (_) _ _ _ rfl h2
  refine ⟨trivial, ⟨rfl, rfl⟩, fun n3 s3 r3 h3 => ?_⟩
  obtain ⟨pa', ea⟩ : ∃ l : Link ℝ, l = { la with linksOut := la.linksOut ++ [⟨1, 1⟩] } := ⟨_, rfl⟩
  obtain ⟨pb', eb⟩ : ∃ l : Link ℝ, l = { lb with linksIn := lb.linksIn ++ [⟨0, 1⟩] } := ⟨_, rfl⟩
  replace h3 : s3 = road pa' pb' [] := by rw [ea, eb]; cases h3; rfl
  subst h3
  have done : ∀ (vsa vsb : List Key) (v : Vehicle ℝ), Fresh lk v → ∀ s4, s4 = road { pa' with vehicles := vsa } { pb' with vehicles := vsb } [⟨1, some v⟩] →
      s4.accUpdate = 0 ∧ s4.lcUpdate = 0 ∧ s4.lights = .empty ∧ ∃ v, Road s4 lk v ∧ v.pos = 0 ∧ v.vel = 0 := by
    rintro vsa vsb v fv s4 rfl
    refine ⟨by show (0.0 : ℝ) = 0; norm_num, by show (0.0 : ℝ) = 0; norm_num, rfl, v, ?_, fv.pos, fv.vel⟩
    refine ⟨⟨_, rfl, ?_, ?_, ?_, ?_, ?_, ?_, ?_⟩, ⟨_, rfl, ?_, ?_, ?_, ?_, ?_, ?_, ?_⟩, rfl, ?_, fv.route, fv.paths, fv.lc, fv.half, ⟨2, fv.acc⟩,
      rfl, rfl, ?_, ?_⟩
    · rw [ea]; show la.linksOut ++ _ = _; rw [pa.outs]; rfl
    · rw [ea]; exact pa.lcs
    · rw [ea]; exact pa.limit
    · rw [ea]; exact pa.len
    · rw [ea]; exact pa.short
    · rw [ea]; exact pa.group
    · rw [ea]; exact pa.control
    · rw [eb]; exact pb.outs
    · rw [eb]; exact pb.lcs
    · rw [eb]; exact pb.limit
    · rw [eb]; exact pb.len
    · rw [eb]; exact pb.short
    · rw [eb]; exact pb.group
    · rw [eb]; exact pb.control
    · rintro ⟨i, w⟩ u hu
      match i with
      | 0 => simp [road, SlotMap.get?] at hu; rw [← hu.1]
      | n + 1 => simp [road, SlotMap.get?] at hu
    · rintro light i j ⟨tl, htl, -⟩
      simp [road, SlotMap.get?, SlotMap.empty] at htl
    · rintro ⟨i, w⟩ u hu
      match i with
      | 0 => simp [road, SlotMap.get?] at hu; rw [← hu.1]; exact .inl rfl
      | 1 => simp [road, SlotMap.get?] at hu; rw [← hu.1]; exact .inr rfl
      | n + 2 => simp [road, SlotMap.get?] at hu
  rcases hlk with rfl | rfl
  · refine ⟨trivial, ⟨rfl, .inr (by simp [road, u32Max])⟩, fun n4 s4 r4 h4 => ?_⟩
    obtain ⟨v, fv, h4'⟩ := @added (@Env.withFuel (Lone.env 0) n4) (road pa' pb' []) pa' ⟨0, 1⟩ [] rfl (by rw [ea]; exact pa.lcs)
      (by rw [ea]; exact pa.segs) (by rw [ea]; exact pa.vehs) rfl (by decide)
    exact done [⟨0, 1⟩] pb'.vehicles v fv s4 (by rw [h4'] at h4; cases h4; rfl)
  · refine ⟨trivial, ⟨rfl, .inr (by simp [road, u32Max])⟩, fun n4 s4 r4 h4 => ?_⟩
    obtain ⟨v, fv, h4'⟩ := @added (@Env.withFuel (Lone.env 0) n4) (road pa' pb' []) pb' ⟨1, 1⟩ [] rfl (by rw [eb]; exact pb.lcs)
      (by rw [eb]; exact pb.segs) (by rw [eb]; exact pb.vehs) rfl (by decide)
    exact done pa'.vehicles [⟨0, 1⟩] v fv s4 (by rw [h4'] at h4; cases h4; rfl)

theorem Lane.frame {s s' : Sim ℝ} {c : Key} {outs : List Key} (h : Lane s c outs) (hf : Frame s.links s'.links)
    (hc : ∀ l l', s.links.get? c = some l → s'.links.get? c = some l' → l'.control = l.control) : Lane s' c outs := by
  obtain ⟨l, hl, h1, h2, h3, h4, h5, h6, h7⟩ := h.ex
  obtain ⟨l', hl', e⟩ := hf.fwd _ _ hl
  have hlen : l'.length = l.length := by unfold Link.length; rw [e.curve]
  exact ⟨l', hl', e.linksOut.trans h1, e.laneChanges.trans h2, e.speedLimit.trans h3, by rw [hlen]; exact h4, by rw [hlen]; exact h5,
    e.group.trans h6, (hc _ _ hl hl').trans h7⟩

/-- What a step keeps of the two links and of the rest of the simulation. -/
theorem around [Env] [LawfulDijkstra] {s s' : Sim ℝ} {dt : ℝ} (hs : Reach True s) (hst : s.step dt = .ok s') (h1 : Lane s ⟨0, 1⟩ [⟨1, 1⟩])
    (h2 : Lane s ⟨1, 1⟩ []) (h3 : ∀ c w, s.vehicles.get? c = some w → c = ⟨0, 1⟩) (h4 : s.frozen = []) (h5 : s.conflicts = [])
    (h6 : ∀ light i j, ¬ s.Controls light i j) : Lane s' ⟨0, 1⟩ [⟨1, 1⟩] ∧ Lane s' ⟨1, 1⟩ [] ∧
      (∀ c w, s'.vehicles.get? c = some w → c = ⟨0, 1⟩) ∧ s'.frozen = [] ∧ s'.conflicts = [] ∧ ∀ light i j, ¬ s'.Controls light i j := by
  obtain ⟨s1, s2, s3, s4, s5, s6, hr⟩ := (step_spec hs.inv dt).ok hst
  have hlights : ∀ light i j, ¬ s'.Controls light i j := by
    rintro light i j ⟨tl', htl', hm⟩
    obtain ⟨tl, htl, e⟩ := (C08_lights hs hst).bwd htl'
    rw [light_links e] at hm
    exact h6 light i j ⟨tl, htl, hm⟩
  have hctl : ∀ {c : Key} (l l' : Link ℝ), s.links.get? c = some l → s'.links.get? c = some l' → l'.control = l.control := by
    intro c l l' hl hl'
    obtain ⟨l'', hl'', e⟩ := C08_uncontrolled hs hst (getLink_ok.2 hl) fun light i => hlights light i c
    rw [getLink_ok.1 hl''] at hl'; cases hl'
    exact e
  refine ⟨h1.frame hr.frame hctl, h2.frame hr.frame hctl, fun c w hw => ?_, ?_, hr.others.2.trans h5, hlights⟩
  · obtain ⟨u, hu⟩ := hr.back hw
    exact h3 c u hu
  · refine List.eq_nil_iff_forall_not_mem.2 fun j hj => ?_
    have := hr.others.1 j hj
    rw [h4] at this; cases this

theorem Road.step [Env] [LawfulDijkstra] {s s' : Sim ℝ} {lk : Key} {v : Vehicle ℝ} {dt : ℝ} (h : Road s lk v) (hlk : lk = ⟨0, 1⟩ ∨ lk = ⟨1, 1⟩)
    (hs : Reach True s) (hst : s.step dt = .ok s') (hdt : 0 ≤ dt) (hv : v.pos + (v.vel + 2 * dt) * dt ≤ 99) :
    ∃ v', Road s' lk v' ∧ v'.vel ≤ v.vel + 2 * dt ∧ v.pos ≤ v'.pos ∧ v'.pos ≤ v.pos + (v.vel + 2 * dt) * dt := by
  obtain ⟨x, ex⟩ := h.acc
  have hl : ∃ l, s.getLinkRef lk = .ok l ∧ 99 ≤ l.length := by
    rcases hlk with rfl | rfl
    · obtain ⟨l, hl, -, -, -, h4, -⟩ := h.la.ex
      exact ⟨l, getLink_ok.2 hl, h4⟩
    · obtain ⟨l, hl, -, -, -, h4, -⟩ := h.lb.ex
      exact ⟨l, getLink_ok.2 hl, h4⟩
  obtain ⟨l, hl, hlen⟩ := hl
  obtain ⟨-, v', c1, c2, c3, c4, c5, ⟨ca, c6⟩, c7, c8, c9, c10⟩ := veh hs hst hdt h.gv (by rw [Vehicle.linkId, h.route]; rfl) hl h.lc
    (fun p hp => by rw [h.paths] at hp; cases hp) (by rw [ex]; norm_num) (by rw [ex]; exact hv.trans hlen)
  rw [ex] at c6 c7 c9
  obtain ⟨a1, a2, a3, a4, a5, a6⟩ := around hs hst h.la h.lb h.only h.frozen h.conflicts h.lights
  refine ⟨v', ⟨a1, a2, c1, a3, ?_, by rw [c3]; exact h.paths, c4, c5.trans h.half, ⟨ca, c6⟩, a4, a5, a6, fun c l' hl' => ?_⟩, c7, c8, c9⟩
  · rcases c10 with ⟨e, -⟩ | ⟨-, p, hp, -⟩
    · rw [e]; exact h.route
    · rw [h.paths] at hp; cases hp
  · obtain ⟨s1, s2, s3, s4, s5, s6, hr⟩ := (step_spec hs.inv dt).ok hst
    obtain ⟨l0, hl0, -⟩ := hr.frame.bwd hl'
    exact h.all c l0 hl0

theorem Road.way {s : Sim ℝ} {lk : Key} {v : Vehicle ℝ} (h : Road s lk v) : OnlyWay s.links [⟨0, 1⟩, ⟨1, 1⟩] ∧ OnlyWay s.links [⟨1, 1⟩] := by
  obtain ⟨la, ha, a1, a2, a3, a4, a5, a6, a7⟩ := h.la.ex
  obtain ⟨lb, hb, b1, b2, b3, b4, b5, b6, b7⟩ := h.lb.ex
  exact ⟨.cons ha a6 a1 (.cons (by norm_num) ha .last) (.last hb b6 b1), .last hb b6 b1⟩

/-- A call, with every large enough bound on loops. -/
theorem call [Env] [LawfulDijkstra] (hd : SearchEnds) {s : Sim ℝ} {N : Nat} (hr : ∀ n, N ≤ n → @Reach ℝ _ (Env.withFuel n) True s)
    (hp : PosNet s.links) (hs : StraightNet s.links) {op : Op ℝ} (ha : Allowed True s op) (hv : ValidArgs s op) :
    ∃ N' s', N ≤ N' ∧ (∀ n, N' ≤ n → @Sim.exec ℝ _ (Env.withFuel n) s op = .ok s' ∧ @Reach ℝ _ (Env.withFuel n) True s') ∧
      PosNet s'.links ∧ StraightNet s'.links := by
  obtain ⟨N1, s1, h1⟩ := @C69_calls (Env.withFuel N) (LawfulDijkstra.withFuel N) s (hr N le_rfl) hd hp hs op ha hv
  have h1 : ∀ n, N1 ≤ n → @Sim.exec ℝ _ (Env.withFuel n) s op = .ok s1 := h1
  exact ⟨max N N1, s1, le_max_left _ _, fun n hn => ⟨h1 n (le_of_max_le_right hn),
    @Reach.exec ℝ _ (Env.withFuel n) True s s1 op (hr n (le_of_max_le_left hn)) ha (h1 n (le_of_max_le_right hn))⟩,
    @exec_straight (Env.withFuel (max N N1)) (LawfulDijkstra.withFuel _) s s1 op (hr _ (le_max_left _ _)) hp hs hv (h1 _ (le_max_right _ _))⟩

theorem clocks [Env] [LawfulDijkstra] {s s' : Sim ℝ} {dt : ℝ} (hs : Reach True s) (hst : s.step dt = .ok s') :
    s'.accUpdate = (if s.accUpdate < 0.1 then s.accUpdate + dt else 0.0 + dt) ∧
      s'.lcUpdate = if s.lcUpdate < 0.3 then s.lcUpdate + dt else 0.0 + dt := by
  obtain ⟨_, _, _, _, _, _, hr⟩ := (step_spec hs.inv dt).ok hst
  exact ⟨hr.clocks.2.1, hr.clocks.2.2⟩

/-- The simulation after the vehicle is sent to `dst`. -/
structure Sent (s s' : Sim ℝ) (v : Vehicle ℝ) (pf : PathfindingModel) : Prop where
  gv : s'.getVehicle ⟨0, 1⟩ = .ok { v with pathfind := pf, canExit := false }
  only : ∀ c w, s'.vehicles.get? c = some w → c = ⟨0, 1⟩
  eq : s' = { s with vehicles := s'.vehicles }

theorem Road.sent [Env] [LawfulDijkstra] {s s' : Sim ℝ} {lk dst : Key} {v : Vehicle ℝ} (h : Road s lk v) (hs : Reach True s)
    (he : s.setVehicleDestination ⟨0, 1⟩ dst = .ok s') : ∃ pf, Sent s s' v pf := by
  have hk := getVeh_ok.1 h.gv
  have hd := (setVehicleDestination_spec (E := fun _ => True) (k := ⟨0, 1⟩) (dst := dst) hs.inv (.inr trivial) (.inr trivial)
    (by rw [SlotMap.contains, hk]; rfl) (.inr (.inr trivial))).ok he
  obtain ⟨w, pf, hw, -, -, -, hvs⟩ := hd.veh
  rw [hk] at hw; cases hw
  refine ⟨pf, getVeh_ok.2 ?_, fun c u hu => ?_, hd.eq⟩
  · rw [hvs, SlotMap.get?_modify_self, hk]; rfl
  · have : (s'.vehicles.get? c).isSome := by rw [hu]; rfl
    rw [hvs, SlotMap.isSome_get?_modify] at this
    obtain ⟨u', hu'⟩ := Option.isSome_iff_exists.1 this
    exact h.only c u' hu'

theorem stopping {h : ℝ} (hh : h = 0.1 + 0.1) (x : ℝ) : Stopping ⟨2, 2, 2, 1, x⟩ h := by
  have hsq : √((2 : ℝ) / (2 + 6)) = 1 / 2 := by
    rw [show (2 : ℝ) / (2 + 6) = (1 / 2) ^ 2 by norm_num]
    exact Real.sqrt_sq (by norm_num)
  subst hh
  constructor <;> dsimp only
  · norm_num
  · norm_num
  · norm_num
  · rw [hsq]; norm_num
  · rw [hsq]; norm_num

/-- A vehicle starts on the second link, and after a step is sent to the link it is on. -/
theorem stranded : ∃ (N : ℕ) (s s' : Sim ℝ) (v v' : Vehicle ℝ) (l : Link ℝ), PosNet s'.links ∧ StraightNet s'.links ∧
    (∀ n, N ≤ n → @Reach ℝ _ (@Env.withFuel (Lone.env 0) n) True s ∧ @Reach ℝ _ (@Env.withFuel (Lone.env 0) n) True s' ∧
      @Sim.setVehicleDestination ℝ _ (@Env.withFuel (Lone.env 0) n) s ⟨0, 1⟩ ⟨1, 1⟩ = .ok s') ∧
    s.getVehicle ⟨0, 1⟩ = .ok v ∧ v.route = [⟨1, 1⟩] ∧ v.laneChange = none ∧ OnlyWay s.links v.route ∧
    ¬ s'.accUpdate < 0.1 ∧ s'.getVehicle ⟨0, 1⟩ = .ok v' ∧ v'.route = [⟨1, 1⟩] ∧ s'.getLinkRef ⟨1, 1⟩ = .ok l ∧
    Course s'.links v' v'.route ∧ v'.canExit = false ∧ v'.destination = ⟨1, 1⟩ ∧ (∀ j w, s'.vehicles.get? j = some w → j = ⟨0, 1⟩) ∧ 0 ≤ v'.halfLen ∧
    Stopping v'.acc (0.1 + 0.1) ∧ v'.vel ^ 2 + 2 * v'.acc.maxAcc * (l.length - v'.pos) ≤ 20.5 ^ 2 ∧
    20.5 ^ 2 + 2 * (v'.acc.maxAcc + 6) * (0.1 + 0.1) * 20.5 + (v'.acc.maxAcc + 3) ^ 2 * (0.1 + 0.1) ^ 2 ≤ 60 * l.speedLimit ∧
    v'.posFront ≤ l.length ∧ v'.posFront + v'.vel ^ 2 / 12 + 3 / 4 * (0.1 + 0.1) ^ 2 ≤ l.length := by
  obtain ⟨N, s, ⟨z1, z2, -, v, hb, p0, q0⟩, hp, hn, h⟩ :=
    @program_runs (Lone.env 0) (Lone.lawful 0) _ (Search.full_ends _) _ (leads (.inr rfl))
  obtain ⟨N1, s1, hN1, h1, hp1, hn1⟩ := @call (Lone.env 0) (Lone.lawful 0) (Search.full_ends _) s N (fun n hn => (h n hn).1) hp hn (.step 0.1)
    trivial trivial
  have law : ∀ n, @LawfulDijkstra (@Env.withFuel (Lone.env 0) n) := fun n => @LawfulDijkstra.withFuel (Lone.env 0) (Lone.lawful 0) n
  obtain ⟨v1, hb1, a1, a2, a3⟩ := @Road.step (@Env.withFuel (Lone.env 0) N1) (law N1) _ _ _ _ _ hb (.inr rfl) (h N1 hN1).1 (h1 N1 le_rfl).1
    (by norm_num) (by rw [p0, q0]; norm_num)
  rw [p0] at a2; rw [p0, q0] at a3; rw [q0] at a1
  norm_num at a1 a2 a3
  have hl1 : s1.links.contains ⟨1, 1⟩ = true := by
    obtain ⟨l, hl, -⟩ := hb1.lb.ex
    rw [SlotMap.contains, hl]; rfl
  obtain ⟨N2, s2, hN2, h2, hp2, hn2⟩ := @call (Lone.env 0) (Lone.lawful 0) (Search.full_ends _) s1 N1 (fun n hn => (h1 n hn).2) hp1 hn1
    (.setVehicleDestination ⟨0, 1⟩ ⟨1, 1⟩) trivial ⟨by rw [SlotMap.contains, getVeh_ok.1 hb1.gv]; rfl, .inr hl1⟩
  obtain ⟨pf, hsent⟩ := @Road.sent (@Env.withFuel (Lone.env 0) N2) (law N2) _ _ _ _ _ hb1 (h1 N2 hN2).2 (h2 N2 le_rfl).1
  obtain ⟨x, ex⟩ := hb1.acc
  obtain ⟨l, hl, -, -, l3, l4, l5, -⟩ := hb1.lb.ex
  have hl2 : s2.links.get? ⟨1, 1⟩ = some l := by rw [hsent.eq]; exact hl
  obtain ⟨c1, -, -, c4⟩ := @OnlyWay.sent ℝ _ _ _ _ _ _ (@Env.withFuel (Lone.env 0) N2) (law N2) _ _ (h1 N2 hN2).2 (h2 N2 le_rfl).1 hb1.gv hsent.gv hb1.lc hb1.way.2
    (by rw [Vehicle.linkId, hb1.route]) rfl
  rw [← hb1.route] at c1
  have hclk := (@clocks (@Env.withFuel (Lone.env 0) N1) (law N1) _ _ _ (h N1 hN1).1 (h1 N1 le_rfl).1).1
  have v0 := @C20_speed _ _ (@Env.withFuel (Lone.env 0) N1) (law N1) (h1 N1 le_rfl).2 _ _ hb1.gv
  have hsq : v1.vel ^ 2 ≤ (1 / 5) ^ 2 := pow_le_pow_left₀ v0 (by linarith) 2
  refine ⟨N2, s1, s2, v1, { v1 with pathfind := pf, canExit := false }, l, hp2, hn2,
    fun n hn => ⟨(h1 n (hN2.trans hn)).2, (h2 n hn).2, (h2 n hn).1⟩, hb1.gv, hb1.route, hb1.lc,
    by rw [hb1.route]; exact hb1.way.2, ?_, hsent.gv, hb1.route, getLink_ok.2 hl2, c1,
    rfl, c4, hsent.only, by show 0 ≤ v1.halfLen; rw [hb1.half]; norm_num, ?_, ?_, ?_, ?_, ?_⟩
  · rw [hsent.eq]; show ¬ s1.accUpdate < 0.1
    rw [hclk, z1]; norm_num
  · show Stopping v1.acc _
    rw [ex]; exact stopping rfl x
  · show v1.vel ^ 2 + 2 * v1.acc.maxAcc * (l.length - v1.pos) ≤ _
    rw [ex]; dsimp only
    norm_num at hsq ⊢
    linarith
  · show _ + 2 * (v1.acc.maxAcc + 6) * _ * _ + (v1.acc.maxAcc + 3) ^ 2 * _ ≤ _
    rw [ex, l3]; norm_num
  · show v1.pos + v1.halfLen ≤ _
    rw [hb1.half]; linarith
  · show v1.pos + v1.halfLen + v1.vel ^ 2 / 12 + _ ≤ _
    rw [hb1.half]; norm_num at hsq ⊢; linarith

end Trip

/-- **C79 (false).** There is a vehicle, alone on its link, that is sent to this link and never leaves it: whatever steps of at most
0.1 seconds follow, they succeed, and the vehicle is still there. -/
theorem C79_never_leaves : ∃ (s s' : Sim ℝ) (k lk : Key) (v : Vehicle ℝ), s.getVehicle k = .ok v ∧ v.linkId = some lk ∧
    (∀ j w, s'.vehicles.get? j = some w → j = k) ∧
    ∀ dts : List ℝ, (∀ dt ∈ dts, 0 ≤ dt ∧ dt ≤ 0.1) → ∃ (_ : Env) (_ : LawfulDijkstra), Reach True s ∧ s.setVehicleDestination k lk = .ok s' ∧
      ∃ s'' v'', dts.foldlM Sim.step s' = .ok s'' ∧ s''.getVehicle k = .ok v'' ∧ v''.linkId = some lk ∧ v''.destination = lk := by
  obtain ⟨N, s, s', v, v', l, hp, hn, h, hv, e1, e2, e3, f1, f2, f3, f4, f5, f6, f7, f8, f9, f10, f11, f12, f13, f14⟩ := Trip.stranded
  refine ⟨s, s', ⟨0, 1⟩, ⟨1, 1⟩, v, hv, by rw [Vehicle.linkId, e1]; rfl, f8, fun dts hd => ?_⟩
  obtain ⟨N', s'', hN, hs⟩ := @Relay.calls (Lone.env 0) (Lone.lawful 0) (Search.full_ends _) dts s' N (fun n hn => (h n hn).2.1) hp hn
  let env : Env := @Env.withFuel (Lone.env 0) N'
  have hlaw : LawfulDijkstra := @LawfulDijkstra.withFuel (Lone.env 0) (Lone.lawful 0) N'
  obtain ⟨h1, h2, h3⟩ := h N' hN
  have hrun := hs N' le_rfl
  obtain ⟨v'', g1, g2, -⟩ := C79_stranded h2 f1 f2 f3 f4 f5 f6 f8 f9 f10 (by norm_num) f11 f12 f13 (.inr f14) hd hrun
  exact ⟨env, hlaw, h1, h3, s'', v'', hrun, g1, g2, (C79_no_permission h1 hv e2 e3 (by rw [e1]; rfl) h3 hrun g1).2⟩

/-- Instances of `C79_no_permission` and `C79_stranded`: a vehicle on the link it is sent to. -/
example : ∃ (_ : Env) (_ : LawfulDijkstra) (s s' s'' : Sim ℝ) (k lk : Key) (v v' v'' : Vehicle ℝ) (l : Link ℝ), Reach True s ∧ s.getVehicle k = .ok v ∧
    v.laneChange = none ∧ OnlyWay s.links v.route ∧ v.route.getLast? = some lk ∧ s.setVehicleDestination k lk = .ok s' ∧
    ([0.1, 0.05] : List ℝ).foldlM Sim.step s' = .ok s'' ∧ s''.getVehicle k = .ok v'' ∧
    Reach True s' ∧ ¬ s'.accUpdate < 0.1 ∧ s'.getVehicle k = .ok v' ∧ v'.route = [lk] ∧ s'.getLinkRef lk = .ok l ∧
    Course s'.links v' v'.route ∧ v'.canExit = false ∧ (∀ j w, s'.vehicles.get? j = some w → j = k) ∧ 0 ≤ v'.halfLen ∧
    Stopping v'.acc (0.1 + 0.1) ∧ v'.vel ^ 2 + 2 * v'.acc.maxAcc * (l.length - v'.pos) ≤ 20.5 ^ 2 ∧
    20.5 ^ 2 + 2 * (v'.acc.maxAcc + 6) * (0.1 + 0.1) * 20.5 + (v'.acc.maxAcc + 3) ^ 2 * (0.1 + 0.1) ^ 2 ≤ 60 * l.speedLimit ∧
    v'.posFront ≤ l.length ∧ v'.posFront + v'.vel ^ 2 / 12 + 3 / 4 * (0.1 + 0.1) ^ 2 ≤ l.length := by
  obtain ⟨N, s, s', v, v', l, hp, hn, h, hv, e1, e2, e3, f1, f2, f3, f4, f5, f6, f7, f8, f9, f10, f11, f12, f13, f14⟩ := Trip.stranded
  obtain ⟨N', s'', hN, hs⟩ := @Relay.calls (Lone.env 0) (Lone.lawful 0) (Search.full_ends _) [0.1, 0.05] s' N (fun n hn => (h n hn).2.1) hp hn
  let env : Env := @Env.withFuel (Lone.env 0) N'
  have hlaw : LawfulDijkstra := @LawfulDijkstra.withFuel (Lone.env 0) (Lone.lawful 0) N'
  obtain ⟨h1, h2, h3⟩ := h N' hN
  have hrun := hs N' le_rfl
  obtain ⟨v'', g1, g2, -⟩ := C79_stranded h2 f1 f2 f3 f4 f5 f6 f8 f9 f10 (by norm_num) f11 f12 f13 (.inr f14)
    (by intro dt hd; simp at hd; rcases hd with rfl | rfl <;> norm_num) hrun
  exact ⟨env, hlaw, s, s', s'', ⟨0, 1⟩, ⟨1, 1⟩, v, v', v'', l, h1, hv, e2, e3, by rw [e1]; rfl, h3, hrun, g1, h2, f1, f2, f3, f4, f5, f6, f8, f9, f10, f11,
    f12, f13, f14⟩

open Trip in
/-- Instances of `C78_free`, `C79_permission` and `C79_arrives_partial`: a vehicle is sent from the first to the second link, gets permission
to leave there, and any number of steps follow. -/
example (dts : List ℝ) : ∃ (_ : Env) (_ : LawfulDijkstra) (s s' s'' t tl : Sim ℝ) (k a b : Key) (v v'' w : Vehicle ℝ), Reach True s ∧ s.getVehicle k = .ok v ∧
    v.laneChange = none ∧ OnlyWay s.links [a, b] ∧ v.linkId = some a ∧ v.route ≠ [a, b] ∧ s.setVehicleDestination k b = .ok s' ∧ ¬ s'.lcUpdate < 0.3 ∧
    s'.step 0.1 = .ok s'' ∧ s''.getVehicle k = .ok v'' ∧
    Reach True s'' ∧ s''.step 0.1 = .ok t ∧ ¬ s''.accUpdate < 0.1 ∧ s''.calculateLaneChanges = .ok tl ∧ tl.getVehicle k = .ok v'' ∧
    t.getVehicle k = .ok w ∧ Alone tl k v'' ∧
    Clear s'' k v'' ∧ 0 < v''.acc.maxAcc ∧ 0 ≤ v''.acc.comfDec ∧
    (∀ j ∈ v''.route, ∀ l, s''.getLinkRef j = .ok l → 0 < v''.acc.velAdj * l.speedLimit ∧ 0 ≤ l.length) ∧
    ∃ t', dts.foldlM Sim.step s'' = .ok t' := by
  obtain ⟨N, s0, ⟨z1, z2, -, v0, hb, p0, q0⟩, hp, hn, h⟩ :=
    @program_runs (Lone.env 0) (Lone.lawful 0) _ (Search.full_ends _) _ (leads (.inl rfl))
  obtain ⟨N1, s1, hN1, h1, hp1, hn1⟩ := @call (Lone.env 0) (Lone.lawful 0) (Search.full_ends _) s0 N (fun n hn => (h n hn).1) hp hn (.step 0.5)
    trivial trivial
  have law : ∀ n, @LawfulDijkstra (@Env.withFuel (Lone.env 0) n) := fun n => @LawfulDijkstra.withFuel (Lone.env 0) (Lone.lawful 0) n
  obtain ⟨v1, hb1, a1, a2, a3⟩ := @Road.step (@Env.withFuel (Lone.env 0) N1) (law N1) _ _ _ _ _ hb (.inl rfl) (h N1 hN1).1 (h1 N1 le_rfl).1
    (by norm_num) (by rw [p0, q0]; norm_num)
  rw [p0] at a2; rw [p0, q0] at a3; rw [q0] at a1
  norm_num at a1 a2 a3
  have hl1 : s1.links.contains ⟨1, 1⟩ = true := by
    obtain ⟨l, hl, -⟩ := hb1.lb.ex
    rw [SlotMap.contains, hl]; rfl
  obtain ⟨N2, s2, hN2, h2, hp2, hn2⟩ := @call (Lone.env 0) (Lone.lawful 0) (Search.full_ends _) s1 N1 (fun n hn => (h1 n hn).2) hp1 hn1
    (.setVehicleDestination ⟨0, 1⟩ ⟨1, 1⟩) trivial ⟨by rw [SlotMap.contains, getVeh_ok.1 hb1.gv]; rfl, .inr hl1⟩
  obtain ⟨N3, s3, hN3, h3, hp3, hn3⟩ := @call (Lone.env 0) (Lone.lawful 0) (Search.full_ends _) s2 N2 (fun n hn => (h2 n hn).2) hp2 hn2
    (.step 0.1) trivial trivial
  obtain ⟨N4, s4, hN4, h4, -, -⟩ := @call (Lone.env 0) (Lone.lawful 0) (Search.full_ends _) s3 N3 (fun n hn => (h3 n hn).2) hp3 hn3
    (.step 0.1) trivial trivial
  obtain ⟨N5, s5, hN5, h5⟩ := @Relay.calls (Lone.env 0) (Lone.lawful 0) (Search.full_ends _) dts s3 N4 (fun n hn => (h3 n (hN4.trans hn)).2) hp3 hn3
  let env : Env := @Env.withFuel (Lone.env 0) N5
  have hlaw : LawfulDijkstra := law N5
  have r0 : Reach True s0 := (h N5 (by omega)).1
  obtain ⟨k1, r1⟩ : s0.step 0.5 = .ok s1 ∧ Reach True s1 := h1 N5 (by omega)
  obtain ⟨k2, r2⟩ : s1.setVehicleDestination ⟨0, 1⟩ ⟨1, 1⟩ = .ok s2 ∧ Reach True s2 := h2 N5 (by omega)
  obtain ⟨k3, r3⟩ : s2.step 0.1 = .ok s3 ∧ Reach True s3 := h3 N5 (by omega)
  obtain ⟨k4, r4⟩ : s3.step 0.1 = .ok s4 ∧ Reach True s4 := h4 N5 (by omega)
  have k5 : dts.foldlM Sim.step s3 = .ok s5 := h5 N5 le_rfl
  obtain ⟨pf, hsent⟩ := hb1.sent r1 k2
  obtain ⟨x, ex⟩ := hb1.acc
  have hlink : v1.linkId = some ⟨0, 1⟩ := by rw [Vehicle.linkId, hb1.route]; rfl
  obtain ⟨c1, -, -, c4⟩ := hb1.way.1.sent r1 k2 hb1.gv hsent.gv hb1.lc (by rw [hlink]; rfl) rfl
  have same : s2.links = s1.links ∧ s2.frozen = s1.frozen ∧ s2.conflicts = s1.conflicts ∧ s2.lights = s1.lights ∧ s2.accUpdate = s1.accUpdate ∧
      s2.lcUpdate = s1.lcUpdate := by
    rw [hsent.eq]; exact ⟨rfl, rfl, rfl, rfl, rfl, rfl⟩
  obtain ⟨m1, m2, m3, m4, m5, m6⟩ := same
  obtain ⟨cl1, cl2⟩ := clocks r0 k1
  rw [z1] at cl1; rw [z2] at cl2
  norm_num at cl1 cl2
  have hlc : ¬ s2.lcUpdate < 0.3 := by rw [m6, cl2]; norm_num
  have A2 : Lane s2 ⟨0, 1⟩ [⟨1, 1⟩] ∧ Lane s2 ⟨1, 1⟩ [] ∧ ∀ light i j, ¬ s2.Controls light i j := by
    refine ⟨⟨by rw [m1]; exact hb1.la.ex⟩, ⟨by rw [m1]; exact hb1.lb.ex⟩, fun light i j => ?_⟩
    have := hb1.lights light i j
    unfold Sim.Controls at this ⊢
    rw [m4]; exact this
  obtain ⟨B1, B2, B3, B4, B5, B6⟩ := around r2 k3 A2.1 A2.2.1 hsent.only (m2.trans hb1.frozen) (m3.trans hb1.conflicts) A2.2.2
  obtain ⟨la, hla, o1, -, -, o4, -⟩ := A2.1.ex
  obtain ⟨-, v3, d1, d2, d3, d4, d5, ⟨y, d6⟩, d7, d8, d9, d10⟩ := Relay.veh r2 k3 (by norm_num) hsent.gv hlink (getLink_ok.2 hla) hb1.lc
    (fun p hp => by rw [(c1.paths p hp).1]; rfl) (by show 0 ≤ v1.acc.maxAcc; rw [ex]; norm_num)
    (by show v1.pos + (v1.vel + v1.acc.maxAcc * 0.1) * 0.1 ≤ _; rw [ex]; norm_num; linarith)
  obtain ⟨e1, e2, e3⟩ := C79_permission r1 hb1.gv hb1.lc hb1.way.1 (by rw [hlink]; rfl) rfl (by rw [hb1.route]; decide) k2 hlc k3 d1
  have hclear : Clear s3 ⟨0, 1⟩ v3 := by
    refine ⟨e3, e1, B3, by rw [B4]; simp, fun j hj l hl => ?_, fun j _ light i => B6 light i j, by rw [B5]; simp⟩
    have hroute : v3.route = [⟨0, 1⟩, ⟨1, 1⟩] := by
      have w3 : OnlyWay s3.links [⟨0, 1⟩, ⟨1, 1⟩] := by
        obtain ⟨l, g1, g2, -, -, -, -, g7, -⟩ := B1.ex
        obtain ⟨l', g1', g2', -, -, -, -, g7', -⟩ := B2.ex
        exact .cons g1 g7 g2 (.cons (by norm_num) g1 .last) (.last g1' g7' g2')
      exact w3.unique e3.way (by rw [show v3.route.head? = _ from d2]; rfl)
    rw [hroute] at hj
    simp at hj
    subst hj
    obtain ⟨l', g, -, -, -, -, -, -, g8⟩ := B2.ex
    rw [hl] at g; cases g
    exact g8
  have hacc : v3.acc = ⟨2, 2, 2, 1, y⟩ := by
    rw [d6]; show ({ v1.acc with acc := y } : AccelerationModel ℝ) = _; rw [ex]
  obtain ⟨t1, t2, t3, t4, t5, t6, hr3⟩ := (step_spec r3.inv 0.1).ok k4
  obtain ⟨u1, u2, u4, htr⟩ := hr3.trace (getVeh_ok.1 d1)
  have eu := hclear.course.first hr3 (getVeh_ok.1 d1) htr.get1
  subst eu
  obtain ⟨la3, hla3, -, -, -, q4, -⟩ := B1.ex
  have hvel : u1.vel ≤ 2 := by
    refine d7.trans ?_
    show v1.vel + v1.acc.maxAcc * 0.1 ≤ 2
    rw [ex]; norm_num; linarith
  have hpos : u1.pos ≤ 2 := by
    refine d9.trans ?_
    show v1.pos + (v1.vel + v1.acc.maxAcc * 0.1) * 0.1 ≤ 2
    rw [ex]; norm_num; linarith
  obtain ⟨-, v4, f1, -⟩ := Relay.veh r3 k4 (by norm_num) d1 d2 (getLink_ok.2 hla3) d4
    (fun p hp => by rw [(e3.paths p hp).1]; exact d2) (by rw [hacc]; norm_num) (by rw [hacc]; norm_num; linarith)
  obtain ⟨_, _, _, _, _, _, hr2⟩ := (step_spec r2.inv 0.1).ok k3
  have cl3 := (clocks r2 k3).1
  rw [m5, cl1] at cl3
  norm_num at cl3
  refine ⟨env, hlaw, s1, s2, s3, s4, t1, ⟨0, 1⟩, ⟨0, 1⟩, ⟨1, 1⟩, v1, u1, v4, r1, hb1.gv, hb1.lc, hb1.way.1, hlink, by rw [hb1.route]; decide, k2, hlc, k3, d1,
    r3, k4, by rw [cl3]; norm_num, hr3.run1, getVeh_ok.2 htr.get1, f1, hclear.alone hr3, hclear, by rw [hacc]; norm_num, by rw [hacc]; norm_num,
    fun j hj l hl => ?_, s5, k5⟩
  rw [hacc]
  have hj' : j = ⟨0, 1⟩ ∨ j = ⟨1, 1⟩ := by
    have w3 : OnlyWay s3.links [⟨0, 1⟩, ⟨1, 1⟩] := hb1.way.1.frame (by rw [← m1]; exact hr2.frame)
    rw [w3.unique e3.way (by rw [show u1.route.head? = _ from d2]; rfl)] at hj
    simpa using hj
  rcases hj' with rfl | rfl
  · obtain ⟨l', g, -, -, g3, g4, -⟩ := B1.ex
    rw [getLink_ok.1 hl] at g; cases g
    rw [g3]; exact ⟨by norm_num, by linarith⟩
  · obtain ⟨l', g, -, -, g3, g4, -⟩ := B2.ex
    rw [getLink_ok.1 hl] at g; cases g
    rw [g3]; exact ⟨by norm_num, by linarith⟩

end TrafficSim
