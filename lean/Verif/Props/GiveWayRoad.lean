import Verif.Props.GiveWay
import Verif.Props.GreenRoad

/-! # C99: an example -/

namespace TrafficSim

namespace Gap
open Relay

/-- The two links, where the second has the control `c` and no conflict points.  There are no lights. -/
structure Slip (c : TrafficControl ℝ) (s : Sim ℝ) : Prop where
  net : Gate.Net s
  ctl : ∃ l, s.links.get? ⟨1, 1⟩ = some l ∧ l.control = c ∧ l.conflicts = []
  dark : ∀ j, s.lights.get? j = none

theorem Slip.step [Env] [LawfulDijkstra] {c : TrafficControl ℝ} {s s' : Sim ℝ} {dt : ℝ} (h : Slip c s) (hs : Reach True s) (hst : s.step dt = .ok s') :
    Slip c s' := by
  obtain ⟨_, _, _, _, _, _, hr⟩ := (step_spec hs.inv dt).ok hst
  have dark : ∀ j, s'.lights.get? j = none := fun j => by
    by_contra hne
    obtain ⟨tl, htl⟩ := Option.ne_none_iff_exists'.1 hne
    obtain ⟨tl0, h0, -⟩ := (C08_lights hs hst).bwd htl
    rw [h.dark j] at h0; cases h0
  obtain ⟨l, hl, h1, h2⟩ := h.ctl
  obtain ⟨l', hl', e⟩ := C08_uncontrolled hs hst (getLink_ok.2 hl) (fun light i => by rintro ⟨tl, htl, -⟩; rw [dark light] at htl; cases htl)
  obtain ⟨l'', hl'', ef⟩ := hr.frame.fwd _ _ hl
  rw [getLink_ok.1 hl'] at hl''; cases hl''
  exact ⟨h.net.frame hr.frame, ⟨l', getLink_ok.1 hl', e.trans h1, ef.conflicts.trans h2⟩, dark⟩

theorem Slip.set {c c' : TrafficControl ℝ} {s s' : Sim ℝ} (h : Slip c s) (hst : s.setLinkControl ⟨1, 1⟩ c' = .ok s') : Slip c' s' := by
  obtain ⟨-, h1, h2⟩ := setLinkControl_ok hst
  obtain ⟨l, hl, e1, e2⟩ := h.ctl
  have hf : Frame s.links s'.links := by rw [h1]; exact writeControls_frame _ _
  refine ⟨h.net.frame hf, ⟨{ l with control := c' }, ?_, rfl, e2⟩, by rw [h2]; exact h.dark⟩
  rw [h1]
  show (s.links.modify ⟨1, 1⟩ _).get? _ = _
  rw [SlotMap.get?_modify_self, hl]; rfl

theorem Slip.shut {s : Sim ℝ} (h : Slip .closed s) : Shut ⟨0, 1⟩ s := by
  intro l j lj hl hj hlj
  obtain ⟨l', h1, -, h2, -⟩ := h.net.la
  rw [getLink_ok.1 hl] at h1; cases h1
  rw [h2, List.mem_singleton] at hj
  subst hj
  obtain ⟨l', h1, h2, -⟩ := h.ctl
  rw [getLink_ok.1 hlj] at h1; cases h1
  exact h2

theorem Slip.gives {s : Sim ℝ} {D : ℝ} {m : Bool} {p : Int} (h : Slip (.yield_ D m p) s) : GiveWay D ⟨0, 1⟩ s := by
  intro l j lj hl hj hlj
  obtain ⟨l', h1, -, h2, -⟩ := h.net.la
  rw [getLink_ok.1 hl] at h1; cases h1
  rw [h2, List.mem_singleton] at hj
  subst hj
  obtain ⟨l', h1, h2, -⟩ := h.ctl
  rw [getLink_ok.1 hlj] at h1; cases h1
  exact ⟨D, m, p, h2, le_rfl⟩

theorem Slip.quiet [Env] [LawfulDijkstra] {c : TrafficControl ℝ} {s s' : Sim ℝ} {dt : ℝ} (h : Slip c s) (hs : Reach True s) (hst : s.step dt = .ok s') :
    Quiet ⟨0, 1⟩ s := by
  intro s1 l j lj cp a w hlanes hl hj hlj hc
  obtain ⟨t1, _, _, _, _, _, hr⟩ := (step_spec hs.inv dt).ok hst
  have := hr.run1
  rw [hlanes] at this; cases this
  obtain ⟨l', h1, -, h2, -⟩ := h.net.la
  obtain ⟨l1, h1', e⟩ := hr.frame1.fwd _ _ h1
  rw [getLink_ok.1 hl] at h1'; cases h1'
  rw [e] at hj
  replace hj : j ∈ l'.linksOut := hj
  rw [h2, List.mem_singleton] at hj
  subst hj
  obtain ⟨l', h1, -, h2⟩ := h.ctl
  obtain ⟨l1, h1', e⟩ := hr.frame1.fwd _ _ h1
  rw [getLink_ok.1 hlj] at h1'; cases h1'
  rw [e] at hc
  replace hc : cp ∈ l'.conflicts := hc
  rw [h2] at hc
  cases hc

/-- A vehicle comes to a link where it must give way, and may queue within `D` metres of the line.  The first link is 8 m long. -/
theorem comes (D : ℝ) : ∀ N, ∃ (_ : Env) (_ : LawfulDijkstra) (s0 : Sim ℝ) (v0 : Vehicle ℝ) (l : Link ℝ) (y : ℝ) (σ : Nat → Sim ℝ),
      (Reach True s0 ∧ ¬ s0.accUpdate < 0.1 ∧ s0.getVehicle ⟨0, 1⟩ = .ok v0 ∧ (∀ j w, s0.getVehicle j = .ok w → j = ⟨0, 1⟩) ∧ s0.frozen = [] ∧
        Heading ⟨0, 1⟩ v0 ∧ Onward v0 ∧ s0.getLinkRef ⟨0, 1⟩ = .ok l ∧ l.laneChanges = [] ∧ l.group = none ∧ l.linksOut = [⟨1, 1⟩] ∧
        (∀ k l, s0.getLinkRef k = .ok l → 0 < l.length) ∧ v0.halfLen = 2 ∧ v0.acc = ⟨2, 2, 2, 1, y⟩ ∧ (∀ k l, s0.getLinkRef k = .ok l → l.speedLimit = 10) ∧
        0 ≤ v0.vel ∧ v0.vel ≤ 1.2 ∧ 0 ≤ v0.pos ∧ v0.pos ≤ 0.62 ∧ 7.9 ≤ l.length ∧ l.length ≤ 8.1) ∧
      σ 0 = s0 ∧ (∀ n < N, (σ n).step 0.1 = .ok (σ (n + 1))) ∧ (∀ n < N, GiveWay D ⟨0, 1⟩ (σ n)) ∧
      (∀ n < N, ∀ j lj d m p, j ∈ l.linksOut → (σ n).getLinkRef j = .ok lj → lj.control = .yield_ d m p → d ≤ D) ∧
      (∀ n < N, Quiet ⟨0, 1⟩ (σ n)) ∧ (∀ n ≤ N, (σ n).conflicts = []) ∧ ∀ n ≤ N, Reach True (σ n) ∧
        ((∃ v, (σ n).getVehicle ⟨0, 1⟩ = .ok v ∧ v.linkId = some ⟨0, 1⟩) → n < N → First ⟨0, 1⟩ ⟨0, 1⟩ (σ n)) := by
  obtain ⟨N0, s0, ⟨z1, z2, z3, net, clear, ⟨y1, y2⟩, v0, fv, gv, only⟩, hp, hn, h⟩ :=
    @program_runs (Lone.env 0) (Lone.lawful 0) _ (Search.full_ends _) _ Gate.leads
  have law : ∀ n, @LawfulDijkstra (@Env.withFuel (Lone.env 0) n) := fun n => @LawfulDijkstra.withFuel (Lone.env 0) (Lone.lawful 0) n
  obtain ⟨la, hla, a1, a2, a3, a4, a5, a6⟩ := net.la
  obtain ⟨lb, hlb, b1, b2, b3⟩ := net.lb
  have hl0 : s0.links.contains ⟨1, 1⟩ = true := by rw [SlotMap.contains, hlb]; rfl
  obtain ⟨N1, s1, hN1, h1, hp1, hn1⟩ := @Trip.call (Lone.env 0) (Lone.lawful 0) (Search.full_ends _) s0 N0 (fun n hn => (h n hn).1) hp hn
    (.setVehicleDestination ⟨0, 1⟩ ⟨1, 1⟩) trivial ⟨by rw [SlotMap.contains, getVeh_ok.1 gv]; rfl, .inr hl0⟩
  obtain ⟨pf, hsent⟩ := @Gate.sent (@Env.withFuel (Lone.env 0) N1) (law N1) _ _ _ _ gv only (h N1 hN1).1 (h1 N1 le_rfl).1
  obtain ⟨m1, m2, m3, m4, m5, m6⟩ : s1.links = s0.links ∧ s1.lights = s0.lights ∧ s1.accUpdate = s0.accUpdate ∧ s1.lcUpdate = s0.lcUpdate ∧
      s1.frozen = s0.frozen ∧ s1.conflicts = s0.conflicts := by
    rw [hsent.eq]; exact ⟨rfl, rfl, rfl, rfl, rfl, rfl⟩
  obtain ⟨c, way1⟩ : ∃ c, Slip c s1 := by
    refine ⟨lb.control, ?_, ⟨lb, by rw [m1]; exact hlb, rfl, clear lb hlb⟩, fun j => by rw [m2, z3]; rfl⟩
    obtain ⟨x1, x2, x3⟩ := net
    rw [← m1] at x1 x2 x3
    exact ⟨x1, x2, x3⟩
  obtain ⟨N2, s2, hN2, h2, hp2, hn2⟩ := @Trip.call (Lone.env 0) (Lone.lawful 0) (Search.full_ends _) s1 N1 (fun n hn => (h1 n hn).2) hp1 hn1
    (.setLinkControl ⟨1, 1⟩ .closed) trivial (by show s1.links.contains _ = true; rw [m1]; exact hl0)
  have k2 : s1.setLinkControl ⟨1, 1⟩ .closed = .ok s2 := (h2 N2 le_rfl).1
  have way2 := way1.set k2
  obtain ⟨-, w1, w2⟩ := setLinkControl_ok k2
  obtain ⟨N3, s3, hN3, h3, hp3, hn3⟩ := @Trip.call (Lone.env 0) (Lone.lawful 0) (Search.full_ends _) s2 N2 (fun n hn => (h2 n hn).2) hp2 hn2
    (.step 0.5) trivial trivial
  obtain ⟨N4, s4, hN4, h4, hp4, hn4⟩ := @Trip.call (Lone.env 0) (Lone.lawful 0) (Search.full_ends _) s3 N3 (fun n hn => (h3 n hn).2) hp3 hn3
    (.step 0.1) trivial trivial
  have hpos : ∀ {t : Sim ℝ}, PosNet t.links → ∀ k l, t.getLinkRef k = .ok l → 0 < l.length := fun hp k l hl => hp.1 k l (getLink_ok.1 hl)
  -- the state after the steps
  have state : ∃ v4, Slip .closed s4 ∧ s4.getVehicle ⟨0, 1⟩ = .ok v4 ∧ Heading ⟨0, 1⟩ v4 ∧ Onward v4 ∧ v4.halfLen = 2 ∧
      (∃ y, v4.acc = ⟨2, 2, 2, 1, y⟩) ∧ 0 ≤ v4.vel ∧ v4.vel ≤ 1.2 ∧ 0 ≤ v4.pos ∧ v4.pos ≤ 0.62 ∧ s4.accUpdate = 0.1 ∧
      (∀ c w, s4.vehicles.get? c = some w → c = ⟨0, 1⟩) ∧ s4.frozen = [] ∧ s4.conflicts = [] := by
    let env : Env := @Env.withFuel (Lone.env 0) N4
    have hlaw : LawfulDijkstra := law N4
    obtain ⟨r0, k0⟩ : Reach True s0 ∧ Gate.build.foldlM Sim.exec .new = .ok s0 := h N4 (by omega)
    obtain ⟨k1, r1⟩ : s0.setVehicleDestination ⟨0, 1⟩ ⟨1, 1⟩ = .ok s1 ∧ Reach True s1 := h1 N4 (by omega)
    have r2 : Reach True s2 := (h2 N4 (by omega)).2
    obtain ⟨k3, r3⟩ : s2.step 0.5 = .ok s3 ∧ Reach True s3 := h3 N4 (by omega)
    obtain ⟨k4, r4⟩ : s3.step 0.1 = .ok s4 ∧ Reach True s4 := h4 N4 (by omega)
    obtain ⟨n2, n3, n4⟩ : s2.vehicles = s1.vehicles ∧ s2.accUpdate = s1.accUpdate ∧ s2.lcUpdate = s1.lcUpdate := by
      rw [w2]; exact ⟨rfl, rfl, rfl⟩
    have gv2 : s2.getVehicle ⟨0, 1⟩ = .ok { v0 with pathfind := pf, canExit := false } := by
      rw [← hsent.gv]; unfold Sim.getVehicle; rw [n2]
    have hlink : v0.linkId = some ⟨0, 1⟩ := by rw [Vehicle.linkId, fv.route]; rfl
    obtain ⟨c1, -, -, c4⟩ := OnlyWay.sent (ks := [⟨0, 1⟩, ⟨1, 1⟩]) r0 k1 gv hsent.gv fv.lc
      (.cons hla a1 a2 (.cons (by norm_num) hla .last) (.last hlb b1 b2)) hlink.symm rfl
    obtain ⟨la2, hla2, -, -, -, -, a5', -⟩ := way2.net.la
    obtain ⟨-, v3, d1, d2, d3, d4, d5, ⟨y, d6⟩, d7, d8, d9, d10⟩ := Relay.veh r2 k3 (by norm_num) gv2 hlink (getLink_ok.2 hla2) fv.lc
      (fun p hp => by rw [(c1.paths p hp).1]; rfl) (by show 0 ≤ v0.acc.maxAcc; rw [fv.acc]; norm_num)
      (by show v0.pos + (v0.vel + v0.acc.maxAcc * 0.5) * 0.5 ≤ _; rw [fv.acc, fv.pos, fv.vel]; norm_num at a5' ⊢; linarith)
    replace d3 : v3.pathfind = pf := d3
    replace d5 : v3.halfLen = v0.halfLen := d5
    replace d6 : v3.acc = { v0.acc with acc := y } := d6
    replace d7 : v3.vel ≤ v0.vel + v0.acc.maxAcc * 0.5 := d7
    replace d8 : v0.pos ≤ v3.pos := d8
    replace d9 : v3.pos ≤ v0.pos + (v0.vel + v0.acc.maxAcc * 0.5) * 0.5 := d9
    rw [fv.acc, fv.vel] at d7; rw [fv.acc, fv.pos, fv.vel] at d9; rw [fv.acc] at d6; rw [fv.pos] at d8
    norm_num at d7 d9
    have hclk2 := Trip.clocks r2 k3
    rw [n3, m3, z1, n4, m4, z2] at hclk2
    obtain ⟨t1, t2⟩ := hclk2
    norm_num at t1 t2
    have hroute3 : v3.route = [⟨0, 1⟩] := by
      rcases d10 with ⟨e, -⟩ | ⟨e, -⟩
      · rw [e]; exact fv.route
      · exact absurd (by rw [n4, m4, z2]; norm_num) e
    have hdst : ∀ {v : Vehicle ℝ}, v.pathfind = pf → v.destination ≠ ⟨0, 1⟩ := by
      intro v e
      have : v.destination = ⟨1, 1⟩ := by
        unfold Vehicle.destination; rw [e]; exact c4
      rw [this]; decide
    have hhead3 : Heading ⟨0, 1⟩ v3 := by
      have hi := r3.inv.veh _ _ (getVeh_ok.1 d1)
      exact ⟨d2, le_antisymm (by have := hi.enteredLe; rw [hroute3] at this; exact this) hi.entered, hdst d3⟩
    have way3 := way2.step r2 k3
    have way4 := way3.step r3 k4
    obtain ⟨l3, hl3, -, -, -, -, g5, -⟩ := way3.net.la
    obtain ⟨-, v4, f1, f2, f3, f4, f5, ⟨y', f6⟩, f7, f8, f9, f10⟩ := Relay.veh r3 k4 (by norm_num) d1 d2 (getLink_ok.2 hl3) d4
      (fun p hp => by rw [d3] at hp; rw [(c1.paths p hp).1]; rfl) (by rw [d6]; norm_num) (by rw [d6]; norm_num at g5 ⊢; linarith)
    rw [d6] at f6 f7 f9
    norm_num at f6 f7 f9
    have hroute4 : v4.route = [⟨0, 1⟩, ⟨1, 1⟩] := by
      rcases f10 with ⟨e, h | h⟩ | ⟨-, p, hp, e⟩
      · exact absurd h (by rw [t2]; norm_num)
      · rw [d3] at h; exact absurd h c1.any
      · rw [e]; rw [d3] at hp; exact (c1.paths p hp).1
    have hhead4 := hhead3.step r3 k4 d1 f1 f2 way3.shut (hpos hp3)
    have hclk3 := (Trip.clocks r3 k4).1
    rw [t1] at hclk3
    norm_num at hclk3
    refine ⟨v4, way4, f1, hhead4, ⟨by rw [hroute4]; simp, fun p hp => ?_⟩, by rw [f5, d5, fv.half], ⟨y', f6⟩,
      C20_speed r4 f1, by norm_num; linarith, by linarith, by norm_num; linarith, by rw [hclk3]; norm_num, fun c w hw => ?_, ?_⟩
    · rw [f3, d3] at hp
      rw [(c1.paths p hp).1]; simp
    · obtain ⟨_, _, _, _, _, _, hr2⟩ := (step_spec r2.inv 0.5).ok k3
      obtain ⟨_, _, _, _, _, _, hr3⟩ := (step_spec r3.inv 0.1).ok k4
      obtain ⟨u, hu⟩ := hr3.back hw
      obtain ⟨u', hu'⟩ := hr2.back hu
      rw [n2] at hu'
      exact hsent.only c u' hu'
    · obtain ⟨_, _, _, _, _, _, hr2⟩ := (step_spec r2.inv 0.5).ok k3
      obtain ⟨_, _, _, _, _, _, hr3⟩ := (step_spec r3.inv 0.1).ok k4
      have q1 : s2.frozen = [] := by rw [w2]; exact m5.trans y1
      have q2 : s2.conflicts = [] := by rw [w2]; exact m6.trans y2
      refine ⟨List.eq_nil_iff_forall_not_mem.2 fun j hj => ?_, hr3.others.2.trans (hr2.others.2.trans q2)⟩
      have := hr2.others.1 j (hr3.others.1 j hj)
      rw [q1] at this; cases this
  obtain ⟨v4, way4, gv4, hhead, hon, half, ⟨y, hacc⟩, w1, w2, w3, w4, w5, only4, w6, w7⟩ := state
  obtain ⟨N5, s5, hN5, h5, hp5, hn5⟩ := @Trip.call (Lone.env 0) (Lone.lawful 0) (Search.full_ends _) s4 N4 (fun n hn => (h4 n hn).2) hp4 hn4
    (.setLinkControl ⟨1, 1⟩ (.yield_ D false 0)) trivial
    (by obtain ⟨l, hl, -⟩ := way4.ctl; show s4.links.contains _ = true; rw [SlotMap.contains, hl]; rfl)
  have k5 : s4.setLinkControl ⟨1, 1⟩ (.yield_ D false 0) = .ok s5 := (h5 N5 le_rfl).1
  have way5 := way4.set k5
  obtain ⟨-, -, e5⟩ := setLinkControl_ok k5
  obtain ⟨l5, hl5, i1, i2, i3, i4, i5, i6⟩ := way5.net.la
  norm_num at w2 w4 i5 i6
  intro N
  obtain ⟨N', sf, hN, hsteps⟩ := @Relay.calls (Lone.env 0) (Lone.lawful 0) (Search.full_ends _) (List.replicate N 0.1) s5 N5 (fun n hn => (h5 n hn).2) hp5 hn5
  let env : Env := @Env.withFuel (Lone.env 0) N'
  have hlaw : LawfulDijkstra := law N'
  have r5 : Reach True s5 := (h5 N' (by omega)).2
  have hrun : (List.replicate N (0.1 : ℝ)).foldlM Sim.step s5 = .ok sf := hsteps N' le_rfl
  obtain ⟨σ, e0, hσ⟩ := Gate.sequence hrun
  have at_n : ∀ m ≤ N, Reach True (σ m) ∧ Slip (.yield_ D false 0) (σ m) ∧ (∀ c w, (σ m).vehicles.get? c = some w → c = ⟨0, 1⟩) ∧ (σ m).conflicts = [] := by
    intro m
    induction m with
    | zero => intro _; rw [e0]; exact ⟨r5, way5, fun c w hw => only4 c w (by rw [e5] at hw; exact hw), by rw [e5]; exact w7⟩
    | succ m ih =>
      intro hm
      obtain ⟨x1, x2, x3, x4⟩ := ih (by omega)
      obtain ⟨_, _, _, _, _, _, hr⟩ := (step_spec x1.inv 0.1).ok (hσ m (by omega))
      refine ⟨.exec (.step 0.1) x1 trivial (hσ m (by omega)), x2.step x1 (hσ m (by omega)), fun c w hw => ?_, hr.others.2.trans x4⟩
      obtain ⟨u, hu⟩ := hr.back hw
      exact x3 c u hu
  refine ⟨env, hlaw, s5, v4, l5, y, σ, ⟨r5, by rw [e5]; show ¬ s4.accUpdate < _; rw [w5]; norm_num, by rw [e5]; exact gv4,
    fun j w hw => only4 j w (by have := getVeh_ok.1 hw; rw [e5] at this; exact this), by rw [e5]; exact w6, hhead, hon, getLink_ok.2 hl5, i3, i1, i2, hpos hp5, half, hacc,
    fun c l hl => ?_, w1, by norm_num; linarith, w3, by norm_num; linarith, by norm_num; linarith, by norm_num; linarith⟩, e0, hσ, fun n hn => (at_n n (by omega)).2.1.gives,
    fun n hn j lj d m p hj hlj hc => ?_, fun n hn => (at_n n (by omega)).2.1.quiet (at_n n (by omega)).1 (hσ n hn), fun n hn => (at_n n hn).2.2.2, fun n hn => ⟨(at_n n hn).1, ?_⟩⟩
  · have hl := getLink_ok.1 hl
    obtain ⟨lb4, hlb4, -, -, h⟩ := way5.net.lb
    rcases way5.net.all c l hl with rfl | rfl
    · rw [hl5] at hl; cases hl; exact i4
    · rw [hlb4] at hl; cases hl; exact h
  · rw [i2, List.mem_singleton] at hj
    subst hj
    obtain ⟨l', h1, h2, -⟩ := (at_n n (by omega)).2.1.ctl
    rw [getLink_ok.1 hlj] at h1; cases h1
    rw [hc] at h2; cases h2
    exact le_rfl
  · rintro ⟨v, hv, hlk⟩ hn
    obtain ⟨x1, x2, x3, -⟩ := at_n n (by omega)
    obtain ⟨l, hl, -, -, hlc, -⟩ := x2.net.la
    exact Gate.alone x1 (hσ n hn) hv hlk (getLink_ok.2 hl) hlc x3

end Gap

open Gap in
/-- Instances of `C99_let_in`, for any number of steps: a vehicle comes to a link where it must give way. -/
example : ∀ N, ∃ (_ : Env) (_ : LawfulDijkstra) (s0 : Sim ℝ) (k lk : Key) (v0 : Vehicle ℝ) (l : Link ℝ) (σ : Nat → Sim ℝ),
      Reach True s0 ∧ ¬ s0.accUpdate < 0.1 ∧ s0.getVehicle k = .ok v0 ∧ Heading lk v0 ∧ Onward v0 ∧ s0.getLinkRef lk = .ok l ∧
      l.laneChanges = [] ∧ lk ∉ l.linksOut ∧ (∀ k l, s0.getLinkRef k = .ok l → 0 < l.length) ∧ 0 ≤ v0.halfLen ∧ Stopping v0.acc (0.1 + 0.1) ∧
      0 < v0.acc.velAdj ∧
      (∀ k l, s0.getLinkRef k = .ok l → 0 < l.speedLimit ∧ l.speedLimit ≤ 10 ∧ 4 * v0.acc.maxAcc * (0.1 + 0.1) ≤ v0.acc.velAdj * l.speedLimit) ∧
      v0.vel ≤ v0.acc.velAdj * 10 ∧
      (v0.acc.velAdj * 10) ^ 2 + 2 * (v0.acc.maxAcc + 6) * (0.1 + 0.1) * (v0.acc.velAdj * 10) + (v0.acc.maxAcc + 3) ^ 2 * (0.1 + 0.1) ^ 2 ≤
        60 * l.speedLimit ∧
      v0.posFront ≤ l.length ∧ v0.posFront + v0.vel ^ 2 / 12 + 3 / 4 * (0.1 + 0.1) ^ 2 ≤ l.length ∧ l.length - v0.posFront < 10 ∧
      10 ≤ 5 * l.speedLimit ∧ σ 0 = s0 ∧ (∀ n < N, (σ n).step 0.1 = .ok (σ (n + 1))) ∧ (∀ n < N, GiveWay 10 lk (σ n)) ∧ (∀ n < N, Quiet lk (σ n)) ∧
      ∀ n < N, (∃ v, (σ n).getVehicle k = .ok v ∧ v.linkId = some lk) → First k lk (σ n) := by
  intro N
  obtain ⟨env, hlaw, s0, v0, l, y, σ, ⟨h1, h2, h3, -, -, h6, h7, h8, h9, -, h11, h12, h13, h14, h15, h16, h17, h18, h19, h20, h21⟩, k1, k2, k3, -, k5, -, k7⟩ := comes 10 N
  have hsq : v0.vel ^ 2 ≤ 1.2 ^ 2 := pow_le_pow_left₀ h16 h17 2
  have hl := h15 _ _ h8
  norm_num at h17 h19 h20 h21
  refine ⟨env, hlaw, s0, ⟨0, 1⟩, ⟨0, 1⟩, v0, l, σ, h1, h2, h3, h6, h7, h8, h9, by rw [h11]; decide, h12, by rw [h13]; norm_num,
    by rw [h14]; exact Trip.stopping rfl y, by rw [h14]; norm_num, fun c l hl => ?_, by rw [h14]; norm_num; linarith, by rw [h14, hl]; norm_num, ?_, ?_, ?_,
    by rw [hl]; norm_num, k1, k2, k3, k5, fun n hn h => (k7 n hn.le).2 h hn⟩
  · rw [h15 c l hl, h14]; norm_num
  · rw [Vehicle.posFront, h13]; linarith
  · rw [Vehicle.posFront, h13]; norm_num at hsq ⊢; linarith
  · rw [Vehicle.posFront, h13]; linarith

end TrafficSim
