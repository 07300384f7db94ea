import Verif.Props.Follow
import Verif.Props.GapExact
import Verif.Props.GiveWayRoad

/-! # Examples in exact arithmetic for C25, C30, C64, C65 and C66 -/

namespace TrafficSim

/-- An instance of `C64_follows`: a vehicle starts 21 m behind another that drives at 10 m/s. -/
example : ∃ (_ : Env) (_ : LawfulDijkstra) (s s' s1 : Sim ℝ) (v1 v' u : Vehicle ℝ) (l : Link ℝ) (k j lk : Key), Reach True s ∧ s.step 0.1 = .ok s' ∧
    ¬ s.accUpdate < 0.1 ∧ s.calculateLaneChanges = .ok s1 ∧ s1.getVehicle k = .ok v1 ∧ s'.getVehicle k = .ok v' ∧ s1.getVehicle j = .ok u ∧
    s1.getLinkRef lk = .ok l ∧ [k, j] <:+: l.vehicles ∧ u.posRear - v1.posFront = 21 ∧ v1.vel = 0 ∧ u.vel = 10 := by
  obtain ⟨N, s, ⟨l, v, w, hb⟩, hp, hn, h⟩ := @program_runs (Lone.env 0) (Lone.lawful 0) _ (Search.full_ends _) _ (Pair.leads (d := 5) (by norm_num) le_rfl)
  have hr : @Reach ℝ _ (@Env.withFuel (Lone.env 0) N) True s := (h N le_rfl).1
  obtain ⟨N1, s', h1⟩ := @C69_calls (@Env.withFuel (Lone.env 0) N) (@LawfulDijkstra.withFuel (Lone.env 0) (Lone.lawful 0) N) s hr
    (Search.full_ends _) hp hn (.step 0.1) trivial trivial
  let env : Env := @Env.withFuel (Lone.env 0) (max N N1)
  have hlaw : LawfulDijkstra := @LawfulDijkstra.withFuel (Lone.env 0) (Lone.lawful 0) (max N N1)
  replace hr : Reach True s := (h _ (le_max_left _ _)).1
  replace h1 : s.step 0.1 = .ok s' := h1 _ (le_max_right _ _)
  obtain ⟨fr, n, sq, u, es⟩ := hb.eq
  have gl : s.getLinkRef ⟨0, 1⟩ = .ok l := by rw [es]; rfl
  have gv : s.getVehicle ⟨0, 1⟩ = .ok v := by rw [es]; rfl
  have gw : s.getVehicle ⟨1, 1⟩ = .ok w := by rw [es]; rfl
  have hc : ¬ s.accUpdate < 0.1 := by
    rw [es]; show ¬ (5 : ℝ) < 0.1; norm_num
  have lw : w.linkId = some ⟨0, 1⟩ := by rw [Vehicle.linkId, hb.routes.2]; rfl
  obtain ⟨s1, hs1, e1, e2⟩ := Pair.lanes hb
  have gv1 : s1.getVehicle ⟨0, 1⟩ = .ok v := by rw [← gv]; unfold Sim.getVehicle; rw [e2]
  have gw1 : s1.getVehicle ⟨1, 1⟩ = .ok w := by rw [← gw]; unfold Sim.getVehicle; rw [e2]
  have gl1 : s1.getLinkRef ⟨0, 1⟩ = .ok l := by rw [← gl]; unfold Sim.getLinkRef; rw [e1]
  obtain ⟨w', gw', -⟩ := step_stays hr h1 hc hs1 gw gw1 lw lw gl (by norm_num) (by rw [hb.acc.2]; norm_num)
    (by rw [hb.acc.2, hb.pos.2, hb.vel.2]; have := hb.len; norm_num; linarith)
  refine ⟨env, hlaw, s, s', s1, w, w', v, l, ⟨1, 1⟩, ⟨0, 1⟩, ⟨0, 1⟩, hr, h1, hc, hs1, gw1, gw', gv1, gl1, ⟨[], [], by rw [hb.vehs]; rfl⟩, ?_, hb.vel.2,
    by rw [hb.vel.1]; norm_num⟩
  rw [Vehicle.posFront, Vehicle.posRear, hb.pos.1, hb.pos.2, hb.half.1, hb.half.2]; norm_num

namespace Relay

/-- Where vehicles are on consecutive links, the first on the next link may be sought on the first link. -/
theorem clear {s : Sim ℝ} {v w : Vehicle ℝ} {a b c : Key} {la lb : Link ℝ} {rest : List Key} (hroute : v.route = a :: b :: rest) (ha : s.links.get? a = some la)
    (hb : s.links.get? b = some lb) (hlim : 0 < lb.speedLimit) (hw : s.vehicles.get? c = some w) (hent : b ∈ w.route.take w.entered) :
    ClearTo s v 1 b 1 a (0.0 + la.length) := by
  refine .first (by rw [hroute]; rfl) hb ⟨c, w, hw, hent⟩ ?_ le_rfl (by rw [hroute]; rfl) ha
  simp only [maxLookahead]
  norm_num
  exact hlim

theorem on_taken {w : Vehicle ℝ} {b : Key} (h : w.linkId = some b) (he : 1 ≤ w.entered) : b ∈ w.route.take w.entered := by
  obtain ⟨n, hn⟩ := Nat.exists_eq_add_of_le he
  rw [Vehicle.linkId] at h
  rcases e : w.route with _ | ⟨x, r⟩
  · rw [e] at h; cases h
  · rw [e] at h; cases h
    rw [hn, Nat.add_comm]
    simp

/-- A vehicle in a step that computes nothing anew, if it does not get to the end of its link. -/
theorem coasts [Env] [LawfulDijkstra] {s s' : Sim ℝ} {k c : Key} {v : Vehicle ℝ} {l : Link ℝ} {dt : ℝ} (hs : Reach True s) (hst : s.step dt = .ok s')
    (hv : s.getVehicle k = .ok v) (hacc : s.accUpdate < 0.1) (hch : s.lcUpdate < 0.3) (hc : v.linkId = some c) (hl : s.getLinkRef c = .ok l)
    (hlc : v.laneChange = none) (hend : v.pos + (v.vel + max (v.vel + dt * v.acc.getAcc) 0) / 2 * dt ≤ l.length) :
    ∃ v', s'.getVehicle k = .ok v' ∧ v'.linkId = some c ∧ v'.route = v.route ∧ v'.pathfind = v.pathfind ∧ v'.laneChange = none ∧ v'.halfLen = v.halfLen ∧
      (∃ a, v'.acc = { v.acc with acc := a }) ∧ v'.vel = max (v.vel + dt * v.acc.getAcc) 0 ∧ v'.pos = v.pos + (v.vel + max (v.vel + dt * v.acc.getAcc) 0) / 2 * dt := by
  obtain ⟨s1, s2, s3, s4, s5, s6, hr⟩ := (step_spec hs.inv dt).ok hst
  obtain ⟨v1, v2, v4, ht⟩ := hr.trace (getVeh_ok.1 hv)
  have e1 : v1 = v := by
    rcases hr.chooses (getVeh_ok.1 hv) ht.get1 with ⟨-, e⟩ | ⟨h, -⟩
    · exact e
    · exact absurd hch h
  subst e1
  have hsame : v2.acc = v1.acc := by
    rcases ht.acc with ⟨-, -, e3⟩ | ⟨hge, -⟩
    · rw [e3]
    · rw [hr.clocks.1] at hge; exact absurd hacc hge
  obtain ⟨a, w, ev2⟩ := ht.acc.same
  obtain ⟨q, e, lc, cnt, ev4, -⟩ := ht.move.eq
  have e5 : v4.vel = max (v1.vel + dt * v1.acc.getAcc) 0 := by
    rw [← hsame, ev4]; dsimp only; rw [ev2]; simp only [fmax]; norm_num
  have e6 : v4.pos = v1.pos + (v1.vel + v4.vel) / 2 * dt := by
    have : v4.pos = v2.pos + 0.5 * (v2.vel + v4.vel) * dt := by rw [ev4]
    rw [this, ev2]; dsimp only
    have h5 : (0.5 : ℝ) = 1 / 2 := by norm_num
    rw [h5]; ring
  have er : v4.route = v1.route := by rw [ev4]; dsimp only; rw [ev2]
  obtain ⟨v', hv', hc'⟩ := hr.stays ht hc hl (by rw [e6, e5]; exact hend) er
  obtain ⟨-, -, -, ea, eh⟩ := step_speed hs hst hv hv'
  obtain ⟨w1, hw, f1, -, hd⟩ := C70_drive hs hst (getVeh_ok.1 hv) (getVeh_ok.1 hv')
  have e1 : w1 = v1 := by
    rcases hw with ⟨-, e⟩ | ⟨h, -⟩
    · exact e
    · exact absurd hch h
  subst e1
  obtain ⟨-, -, ev⟩ := ht.vel (getVeh_ok.1 hv')
  have ex : w1.pos + 0.5 * (w1.vel + v'.vel) * dt = v4.pos := by
    have h5 : (0.5 : ℝ) = 1 / 2 := by norm_num
    rw [e6, ev, h5]; ring
  rw [ex] at hd
  cases hd with
  | stays a' l' _ _ _ g1 g2 g3 g4 =>
    refine ⟨v', hv', hc', g1, g2, ?_, eh, ea, ev.trans e5, ?_⟩
    · rw [g4, hlc]; rfl
    · rw [g3, e6, e5]
  | passes a' l' h1 h2 h3 _ _ _ _ _ =>
    exfalso
    have : w1.route.head? = some a' := by rw [h1]; rfl
    have : some a' = some c := this.symm.trans hc
    cases this
    rw [getLink_ok.1 hl] at h2; cases h2
    rw [e6, e5] at h3
    linarith

/-- Two vehicles on consecutive links have driven 81 m, each on its own, in a step of 9 s; then there is a step with decisions. -/
theorem fast : ∃ (_ : Env) (_ : LawfulDijkstra) (s s' s1 : Sim ℝ) (v1 v' u : Vehicle ℝ) (l l0 : Link ℝ) (rest : List Key),
    Reach True s ∧ s.step 0.1 = .ok s' ∧ ¬ s.accUpdate < 0.1 ∧ s.calculateLaneChanges = .ok s1 ∧ s1.getVehicle ⟨1, 1⟩ = .ok v1 ∧ s'.getVehicle ⟨1, 1⟩ = .ok v' ∧
    v1.route = ⟨0, 1⟩ :: ⟨1, 1⟩ :: rest ∧ s1.getLinkRef ⟨1, 1⟩ = .ok l0 ∧ l0.vehicles = [⟨0, 1⟩] ∧ s1.getVehicle ⟨0, 1⟩ = .ok u ∧ u.linkId = some ⟨1, 1⟩ ∧ 1 ≤ u.entered ∧
    s1.getLinkRef ⟨0, 1⟩ = .ok l ∧ l.vehicles = [⟨1, 1⟩] ∧ l.speedLimit = 10 ∧ l0.speedLimit = 10 ∧ 99 ≤ l.length ∧ l.length ≤ 101 ∧
    v1.pos = 81 ∧ v1.vel = 18 ∧ v1.halfLen = 2 ∧ ∃ x, v1.acc = ⟨2, 2, 2, 1, x⟩ := by
  obtain ⟨N, s, ⟨z1, z2, v, u, hb, p0, q0, p1, q1, av, au, hshort⟩, hp, hn, h⟩ :=
    @program_runs (Lone.env 0) (Lone.lawful 0) _ (Search.full_ends _) _ leads
  obtain ⟨N', sf, hN, hsteps⟩ := @calls (Lone.env 0) (Lone.lawful 0) (Search.full_ends _) [9, 0.1] s N (fun n hn => (h n hn).1) hp hn
  let env : Env := @Env.withFuel (Lone.env 0) N'
  have hlaw : LawfulDijkstra := @LawfulDijkstra.withFuel (Lone.env 0) (Lone.lawful 0) N'
  have hr : Reach True s := (h _ hN).1
  have hst : [9, 0.1].foldlM (Sim.step (F := ℝ)) s = .ok sf := hsteps N' le_rfl
  simp only [List.foldlM_cons, List.foldlM_nil, M_bind_ok, M_pure_ok] at hst
  obtain ⟨sa, ha, sb, hbs, rfl⟩ := hst
  have ra : Reach True sa := hr.exec (op := .step 9) trivial ha
  obtain ⟨la, gla, la1, la2, la3, la4⟩ := hb.la
  obtain ⟨lb, glb, lb1, lb2, lb3, lb4⟩ := hb.lb
  have hg : (⟨2, 2, 2, 1, 2⟩ : AccelerationModel ℝ).getAcc = 2 := by
    simp only [AccelerationModel.getAcc, fmax, maxDecel]; norm_num
  have hm : max ((0 : ℝ) + 9 * 2) 0 = 18 := by norm_num
  obtain ⟨va, a1, a2, a3, a4, a5, a6, ⟨xa, a7⟩, a8, a9⟩ := coasts hr ha hb.gv (by rw [z1]; norm_num) (by rw [z2]; norm_num) hb.lv (getLink_ok.2 gla) hb.lc.1
    (by rw [p0, q0, av, hg, hm]; norm_num; linarith)
  obtain ⟨ua, b1, b2, b3, b4, b5, b6, ⟨xb, b7⟩, b8, b9⟩ := coasts hr ha hb.gu (by rw [z1]; norm_num) (by rw [z2]; norm_num) hb.lu (getLink_ok.2 glb) hb.lc.2
    (by rw [p1, q1, au, hg, hm]; norm_num; linarith)
  rw [q0, av, hg, hm] at a8
  rw [p0, q0, av, hg, hm] at a9
  norm_num at a8 a9
  obtain ⟨s1, s2, s3, s4, s5, s6, hr0⟩ := (step_spec hr.inv 9).ok ha
  obtain ⟨t1, t2, t3, t4, t5, t6, hr1⟩ := (step_spec ra.inv 0.1).ok hbs
  obtain ⟨-, ka1, ka2⟩ := hr0.clocks
  simp only [accelerationUpdateSec, laneChangeUpdateSec] at ka1 ka2
  rw [z1] at ka1; rw [z2] at ka2
  norm_num at ka1 ka2
  obtain ⟨v1, v2, v4, ht⟩ := hr1.trace (getVeh_ok.1 a1)
  obtain ⟨u1, u2, u4, hu⟩ := hr1.trace (getVeh_ok.1 b1)
  have hch := (hr1.chooses (getVeh_ok.1 a1) ht.get1).resolve_left (fun h => absurd h.1 (by rw [ka2]; show ¬ (9 : ℝ) < 0.3; norm_num))
  have hv1 : ∃ rest, v1.route = ⟨0, 1⟩ :: ⟨1, 1⟩ :: rest ∧ v1.pos = va.pos ∧ v1.vel = va.vel ∧ v1.halfLen = va.halfLen ∧ v1.acc = va.acc := by
    have hp := hb.paths.2
    rw [← a4] at hp
    cases hch.2 with
    | carriesOn h e => exact absurd (h.resolve_left (by rw [a5]; simp)) (by rw [a4]; exact hb.paths.1)
    | keeps p _ hq e e' =>
      subst e'
      obtain ⟨rest, er⟩ := hp p (mem_of_cheapest hq)
      exact ⟨rest, e.symm.trans er, rfl, rfl, rfl, rfl⟩
    | takes p n _ hq _ _ _ e =>
      subst e
      obtain ⟨rest, er⟩ := hp p (mem_of_cheapest hq)
      exact ⟨rest, er, rfl, rfl, rfl, rfl⟩
    | changes p link l x off sl pf _ hq h1 h2 _ _ _ _ e =>
      obtain ⟨rest, er⟩ := hp p (mem_of_cheapest hq)
      rw [er] at h1; cases h1
      exact absurd a2 h2
  obtain ⟨rest, er, c1, c2, c3, c4⟩ := hv1
  have hch' := (hr1.chooses (getVeh_ok.1 b1) hu.get1).resolve_left (fun h => absurd h.1 (by rw [ka2]; show ¬ (9 : ℝ) < 0.3; norm_num))
  have hu1 : u1 = ua := by
    have hp : ua.pathfind.paths = [] := by rw [b4]; exact hb.nopath
    cases hch'.2 with
    | carriesOn h e => exact e
    | keeps p _ hq e e' => have := mem_of_cheapest hq; rw [hp] at this; cases this
    | takes p n _ hq _ _ _ e => have := mem_of_cheapest hq; rw [hp] at this; cases this
    | changes p link l x off sl pf _ hq h1 h2 _ _ _ _ e => have := mem_of_cheapest hq; rw [hp] at this; cases this
  subst hu1
  have lv1 : v1.linkId = some ⟨0, 1⟩ := by rw [Vehicle.linkId, er]; rfl
  have honly : ∀ c w, t1.vehicles.get? c = some w → c = ⟨0, 1⟩ ∨ c = ⟨1, 1⟩ := by
    intro c w hw
    obtain ⟨w', hw', -⟩ := hr1.vehs1.bwd hw
    obtain ⟨w0, hw0⟩ := hr0.back hw'
    exact hb.vonly c w0 hw0
  have one : ∀ (xs : List Key) (x : Key), xs.Nodup → (∀ y, y ∈ xs ↔ y = x) → xs = [x] := by
    intro xs x hn hx
    exact List.perm_singleton.1 ((List.perm_ext_iff_of_nodup hn (List.nodup_singleton x)).2 fun y => by rw [hx, List.mem_singleton])
  obtain ⟨ma, hma, fma⟩ := hr0.frame.fwd _ _ gla
  obtain ⟨mb, hmb, fmb⟩ := hr0.frame.fwd _ _ glb
  obtain ⟨na, hna, fna⟩ := hr1.frame1.fwd _ _ hma
  obtain ⟨nb, hnb, fnb⟩ := hr1.frame1.fwd _ _ hmb
  have elen : na.length = la.length := by rw [fna]; unfold Link.length; dsimp only; rw [fma.curve]
  have hva : na.vehicles = [⟨1, 1⟩] := by
    obtain ⟨hn, hm⟩ := hr1.inv1.mem _ _ hna
    refine one _ _ hn fun y => (hm y).trans ⟨?_, ?_⟩
    · rintro ⟨w, hw, hw'⟩
      rcases honly y w hw with rfl | rfl
      · rw [hu.get1] at hw; cases hw
        rw [b2] at hw'; cases hw'
      · rfl
    · rintro rfl
      exact ⟨v1, ht.get1, lv1⟩
  have hvb : nb.vehicles = [⟨0, 1⟩] := by
    obtain ⟨hn, hm⟩ := hr1.inv1.mem _ _ hnb
    refine one _ _ hn fun y => (hm y).trans ⟨?_, ?_⟩
    · rintro ⟨w, hw, hw'⟩
      rcases honly y w hw with rfl | rfl
      · rfl
      · rw [ht.get1] at hw; cases hw
        rw [lv1] at hw'; cases hw'
    · rintro rfl
      exact ⟨u1, hu.get1, b2⟩
  obtain ⟨-, v', g1, -⟩ := veh ra hbs (by norm_num) a1 a2 (getLink_ok.2 hma) a5
    (fun p hp => by obtain ⟨r, e⟩ := hb.paths.2 p (by rw [← a4]; exact hp); rw [e]; rfl) (by rw [a7, av]; norm_num)
    (by
      have : ma.length = la.length := by unfold Link.length; rw [fma.curve]
      rw [a7, av, a8, a9, this]; norm_num; linarith)
  exact ⟨env, hlaw, sa, sb, t1, v1, v', u1, na, nb, rest, ra, hbs, by rw [ka1]; norm_num, hr1.run1, getVeh_ok.2 ht.get1, g1, er, getLink_ok.2 hnb, hvb,
    getVeh_ok.2 hu.get1, b2, (ra.inv.veh _ _ (getVeh_ok.1 b1)).entered, getLink_ok.2 hna, hva, by rw [fna]; exact fma.speedLimit.trans la3,
    by rw [fnb]; exact fmb.speedLimit.trans lb3, by rw [elen]; exact la4, by rw [elen]; exact hshort la gla, c1.trans a9, c2.trans a8, by rw [c3, a6, hb.half.1],
    xa, by rw [c4, a7, av]⟩

end Relay

open Relay in
/-- An instance of `C65_follows`: a vehicle at 18 m/s comes to the end of a link while another is on the next. -/
example : ∃ (_ : Env) (_ : LawfulDijkstra) (s s' s1 : Sim ℝ) (v1 v' u : Vehicle ℝ) (l l0 : Link ℝ) (k j lk k0 : Key) (i : Nat) (pos : ℝ) (pre post rest : List Key),
    Reach True s ∧ s.step 0.1 = .ok s' ∧
    ¬ s.accUpdate < 0.1 ∧ s.calculateLaneChanges = .ok s1 ∧ s1.getVehicle k = .ok v1 ∧ s'.getVehicle k = .ok v' ∧ ClearTo s1 v1 i k0 i lk pos ∧
    s1.getLinkRef k0 = .ok l0 ∧ l0.vehicles = j :: rest ∧ s1.getVehicle j = .ok u ∧ s1.getLinkRef lk = .ok l ∧ l.vehicles = pre ++ k :: post ∧
    (∀ a ∈ post, ∀ w, s1.getVehicle a = .ok w → pos - 5 * l.speedLimit ≤ w.posFront ∧ w.route[i]? ≠ some k0) ∧
    pos - 5 * l.speedLimit ≤ v1.posFront ∧ (i < v1.entered ∨ pos ≤ l.length) ∧ k0 ≠ lk ∧ v1.vel = 18 := by
  obtain ⟨env, hlaw, s, s', s1, v1, v', u, l, l0, rest, hs, hst, hre, hlanes, hv1, hv', hroute, hl0, hvs0, hu, lu, eu, hl, hvs, x1, x2, x3, x4, p1, p2, p3, -⟩ := fast
  exact ⟨env, hlaw, s, s', s1, v1, v', u, l, l0, ⟨1, 1⟩, ⟨0, 1⟩, ⟨0, 1⟩, ⟨1, 1⟩, 1, _, [], [], [], hs, hst, hre, hlanes, hv1, hv',
    clear hroute (getLink_ok.1 hl) (getLink_ok.1 hl0) (by rw [x2]; norm_num) (getVeh_ok.1 hu) (on_taken lu eu), hl0, hvs0, hu, hl, hvs, nofun,
    by rw [Vehicle.posFront, p1, p3, x1]; norm_num; linarith, .inr (by norm_num), by decide, p2⟩

open Relay in
/-- An instance of `C66_slows`: a vehicle at 18 m/s, 19 m or so before a link with a speed limit of 10 m/s. -/
example : ∃ (_ : Env) (_ : LawfulDijkstra) (s s' s1 : Sim ℝ) (v1 v' : Vehicle ℝ) (l l0 : Link ℝ) (k lk k0 : Key) (i : Nat) (pos need : ℝ) (pre post : List Key),
    Reach True s ∧ s.step 0.1 = .ok s' ∧
    ¬ s.accUpdate < 0.1 ∧ s.calculateLaneChanges = .ok s1 ∧ s1.getVehicle k = .ok v1 ∧ s'.getVehicle k = .ok v' ∧ ClearTo s1 v1 i k0 i lk pos ∧
    s1.getLinkRef k0 = .ok l0 ∧ s1.getLinkRef lk = .ok l ∧ l.vehicles = pre ++ k :: post ∧
    (∀ a ∈ post, ∀ w, s1.getVehicle a = .ok w → pos - 5 * l.speedLimit ≤ w.posFront ∧ w.route[i]? ≠ some k0) ∧
    pos - 5 * l.speedLimit ≤ v1.posFront ∧ (i < v1.entered ∨ pos ≤ l.length) ∧ v1.pos < pos ∧
    v1.vel ^ 2 - 2 * need * (pos - v1.pos) = (v1.acc.velAdj * l0.speedLimit) ^ 2 ∧ v1.acc.comfDec ≤ need ∧ v1.vel = 18 := by
  obtain ⟨env, hlaw, s, s', s1, v1, v', u, l, l0, rest, hs, hst, hre, hlanes, hv1, hv', hroute, hl0, hvs0, hu, lu, eu, hl, hvs, x1, x2, x3, x4, p1, p2, p3, x, p4⟩ := fast
  have hz : (0.0 + l.length : ℝ) = l.length := by norm_num
  have hpos : 0 < l.length - 81 := by linarith
  refine ⟨env, hlaw, s, s', s1, v1, v', l, l0, ⟨1, 1⟩, ⟨0, 1⟩, ⟨1, 1⟩, 1, l.length, 112 / (l.length - 81), [], [], hs, hst, hre, hlanes, hv1, hv',
    hz ▸ clear hroute (getLink_ok.1 hl) (getLink_ok.1 hl0) (by rw [x2]; norm_num) (getVeh_ok.1 hu) (on_taken lu eu), hl0, hl, hvs, nofun,
    by rw [Vehicle.posFront, p1, p3, x1]; norm_num; linarith, .inr le_rfl, by rw [p1]; linarith, ?_, ?_, p2⟩
  · rw [p1, p2, p4, x2]
    dsimp only
    field_simp
    norm_num
  · rw [p4]
    dsimp only
    rw [le_div_iff₀ hpos]
    linarith

open Gap in
/-- An instance of `C25_exact_partial`, `C30_exact_partial` and `C30_uniform`: a vehicle is let in where it must give way. -/
example : ∃ (_ : Env) (_ : LawfulDijkstra) (s s' : Sim ℝ) (v v' : Vehicle ℝ) (l : Link ℝ) (k j : Key) (i : Nat) (d : ℝ) (m : Bool) (pr : Int),
    Reach True s ∧ (∀ k l, s.getLinkRef k = .ok l → 0 < l.length) ∧ s.step 0.1 = .ok s' ∧ s.getVehicle k = .ok v ∧ s'.getVehicle k = .ok v' ∧
    0 ≤ v.vel ∧ 0 < v.acc.maxAcc ∧ 0 < i ∧ i < v'.entered ∧ v'.route[i]? = some j ∧ (∀ i0, 0 < i0 → i0 < v.entered → v.route[i0]? ≠ some j) ∧
    s.getLinkRef j = .ok l ∧ 0 < l.speedLimit ∧ l.control = .yield_ d m pr := by
  obtain ⟨N, hN⟩ := C99_let_in (strict := True) (k := ⟨0, 1⟩) (lk := ⟨0, 1⟩) (D := 10) (dt := 0.1) (by norm_num)
  obtain ⟨env, hlaw, s0, v0, l, y, σ, ⟨h1, h2, h3, -, -, h6, h7, h8, h9, -, h11, h12, h13, h14, h15, h16, h17, h18, h19, h20, h21⟩, k1, k2, k3, -, k5, -, k7⟩ := comes 10 N
  have hsq : v0.vel ^ 2 ≤ 1.2 ^ 2 := pow_le_pow_left₀ h16 h17 2
  have hl := h15 _ _ h8
  norm_num at h17 h19 h20 h21
  obtain ⟨n, hn, v, v', j, gv, hon, hent, hfront, hvel, gv', hj, hroute⟩ := hN (M := 10) h1 h2 h3 h6 h7 h8 h9 (by rw [h11]; decide) h12 (by rw [h13]; norm_num)
    (by rw [h14]; exact Trip.stopping rfl y) (by rw [h14]; norm_num) (fun c l hl => by rw [h15 c l hl, h14]; norm_num) (by rw [h14]; norm_num; linarith)
    (by rw [h14, hl]; norm_num) (by rw [Vehicle.posFront, h13]; linarith) (.inr (by rw [Vehicle.posFront, h13]; norm_num at hsq ⊢; linarith))
    (by rw [Vehicle.posFront, h13]; linarith) (by rw [hl]; norm_num) k1 k2 k3 k5 (fun n hn h => (k7 n hn.le).2 h hn)
  rw [h11, List.mem_singleton] at hj
  subst hj
  have along : ∀ i ≤ n, Frame s0.links (σ i).links ∧ ∀ w, (σ i).getVehicle ⟨0, 1⟩ = .ok w → w.acc.maxAcc = 2 ∧ w.halfLen = 2 := by
    intro i
    induction i with
    | zero =>
      intro _
      rw [k1]
      refine ⟨frame_refl _, fun w hw => ?_⟩
      rw [h3] at hw; cases hw
      rw [h14, h13]; exact ⟨rfl, rfl⟩
    | succ i ih =>
      intro hi
      obtain ⟨a1, a2⟩ := ih (by omega)
      have hr := (k7 i (by omega)).1
      obtain ⟨_, _, _, _, _, _, hrun⟩ := (step_spec hr.inv 0.1).ok (k2 i (by omega))
      refine ⟨a1.trans hrun.frame, fun w hw => ?_⟩
      obtain ⟨u, hu⟩ := hrun.back (getVeh_ok.1 hw)
      obtain ⟨-, -, -, ⟨a, ea⟩, eh⟩ := step_speed hr (k2 i (by omega)) (getVeh_ok.2 hu) hw
      obtain ⟨b1, b2⟩ := a2 u (getVeh_ok.2 hu)
      rw [ea, eh]
      exact ⟨b1, b2⟩
  obtain ⟨hfr, hpar⟩ := along n le_rfl
  obtain ⟨hA, hH⟩ := hpar v gv
  have hr := (k7 n hn.le).1
  obtain ⟨la, hla, ea⟩ := hfr.fwd _ _ (getLink_ok.1 h8)
  have elen : la.length = l.length := by unfold Link.length; rw [ea.curve]
  have hv0 := C20_speed hr gv
  rw [h14] at hvel
  norm_num at hvel
  obtain ⟨t1, t2, t3, t4, t5, t6, hrun⟩ := (step_spec hr.inv 0.1).ok (k2 n hn)
  obtain ⟨v1, v2, v4, ht⟩ := hrun.trace (getVeh_ok.1 gv)
  have hi := hr.inv.veh _ v (getVeh_ok.1 gv)
  have hi' := (k7 (n + 1) (by omega)).1.inv.veh _ _ (getVeh_ok.1 gv')
  have b1 : v1.linkId = some ⟨0, 1⟩ := by
    have hsrc : v.pathfind.src = ⟨0, 1⟩ := by
      have h1 : v.route.head? = some ⟨0, 1⟩ := hon
      rw [hi.src] at h1; exact Option.some.inj h1
    rcases ht.steer with (e | ⟨p, hc, e, e1⟩) | ⟨p, hc, hne, -⟩
    · rw [e]; exact hon
    · rw [e1]; exact e.trans hon
    · exfalso
      obtain ⟨a, ha, h | ⟨l', hl', hm⟩⟩ := (hi.paths p hc.mem).start
      · rw [ha, h, hsrc] at hne; exact hne hon.symm
      · rw [hsrc, hla] at hl'; cases hl'
        rw [ea.laneChanges, h9] at hm; cases hm
  obtain ⟨e1, e2, -⟩ := ht.steer.same
  obtain ⟨e3, -⟩ := ht.steer.stay (b1.trans hon.symm)
  obtain ⟨a, w, ev2⟩ := ht.acc.same
  obtain ⟨q, e, lc, cnt, ev4, -⟩ := ht.move.eq
  obtain ⟨f1, f2, f3⟩ := ht.vel (getVeh_ok.1 gv')
  obtain ⟨m1, -, -, ⟨aa, m4⟩, -⟩ := step_speed hr (k2 n hn) gv gv'
  have hmax : v'.acc.getAcc ≤ 2 := by
    have := (k7 (n + 1) (by omega)).1.acc_le gv'
    have hm : v'.acc.maxAcc = 2 := by rw [m4]; exact hA
    rw [hm] at this
    simp only [AccelerationModel.getAcc, fmax, maxDecel]
    rw [max_eq_left (by norm_num)] at this
    exact max_le this (by norm_num)
  have hvel' : v4.vel ≤ 10.2 := by
    rw [← f3, m1]
    refine max_le ?_ (by norm_num)
    norm_num
    linarith
  have e6 : v4.pos = v.pos + (v.vel + v4.vel) / 2 * 0.1 := by
    have : v4.pos = v2.pos + 0.5 * (v2.vel + v4.vel) * 0.1 := by rw [ev4]
    rw [this, ev2]; dsimp only; rw [e1, e3]
    have h5 : (0.5 : ℝ) = 1 / 2 := by norm_num
    rw [h5]; ring
  have er : v4.route = v1.route := by rw [ev4]; dsimp only; rw [ev2]
  obtain ⟨w', gw', hon'⟩ := hrun.stays ht b1 (getLink_ok.2 hla) (by
    rw [Vehicle.posFront, hH] at hfront
    rw [elen, e6]; norm_num at hvel' ⊢; linarith) er
  rw [gv'] at gw'; cases gw'
  have hent' : 0 < v'.entered - 1 := by
    by_contra hn
    obtain h0 : v'.entered - 1 = 0 := by omega
    rw [h0] at hroute
    rw [Vehicle.linkId, List.head?_eq_getElem?, hroute] at hon'
    cases hon'
  obtain ⟨lb, hlb⟩ : ∃ lb, (σ n).links.get? ⟨1, 1⟩ = some lb := by
    obtain ⟨lb', hlb'⟩ := Option.isSome_iff_exists.1 (hi'.drivable.valid _ (List.mem_of_getElem? hroute))
    obtain ⟨lb, hlb, -⟩ := hrun.frame.bwd hlb'
    exact ⟨lb, hlb⟩
  obtain ⟨lb0, hlb0, eb⟩ := hfr.bwd hlb
  obtain ⟨d, m, p, hc, -⟩ := k3 n hn la ⟨1, 1⟩ lb (getLink_ok.2 hla) (by rw [ea.linksOut, h11]; simp) (getLink_ok.2 hlb)
  refine ⟨env, hlaw, σ n, σ (n + 1), v, v', lb, ⟨0, 1⟩, ⟨1, 1⟩, v'.entered - 1, d, m, p, hr, fun c lc hlc => ?_, k2 n hn, gv, gv', hv0, by rw [hA]; norm_num, hent',
    by have := hi'.entered; omega, hroute, fun i0 h0 h1 => by omega, getLink_ok.2 hlb, ?_, hc⟩
  · obtain ⟨l0, hl0, e0⟩ := hfr.bwd (getLink_ok.1 hlc)
    have : lc.length = l0.length := by unfold Link.length; rw [e0.curve]
    rw [this]; exact h12 c l0 (getLink_ok.2 hl0)
  · rw [eb.speedLimit, h15 _ lb0 (getLink_ok.2 hlb0)]; norm_num

end TrafficSim
