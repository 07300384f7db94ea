import Verif.Props.Green

/-! # C99: vehicles that give way are let in -/

namespace TrafficSim

section
variable {strict : Prop} {s s' : Sim ℝ} {dt : ℝ} {k lk : Key} {v v' : Vehicle ℝ}

/-- At all links that follow `lk` vehicles must give way, and may queue within `D` metres of the line. -/
def GiveWay (D : ℝ) (lk : Key) (s : Sim ℝ) : Prop :=
  ∀ l j lj, s.getLinkRef lk = .ok l → j ∈ l.linksOut → s.getLinkRef j = .ok lj → ∃ d m p, lj.control = .yield_ d m p ∧ D ≤ d

/-- After lane changes no vehicle is on its way to a link that crosses, or merges with, one that follows `lk`. -/
def Quiet [Env] (lk : Key) (s : Sim ℝ) : Prop :=
  ∀ s1 l j lj c a w, s.calculateLaneChanges = .ok s1 → s1.getLinkRef lk = .ok l → j ∈ l.linksOut → s1.getLinkRef j = .ok lj → c ∈ lj.conflicts →
    s1.getVehicle a = .ok w → c.linkId ∉ w.route

/-- A step without decisions leaves the queue number. -/
theorem Heading.number [Env] [LawfulDijkstra] (hs : Reach strict s) (hst : s.step dt = .ok s') (hpos : ∀ k l, s.getLinkRef k = .ok l → 0 < l.length)
    (hv : s.getVehicle k = .ok v) (hv' : s'.getVehicle k = .ok v') (hlt : s.accUpdate < 0.1) : v'.queued = v.queued := by
  obtain ⟨s1, s2, s3, s4, s5, s6, hr⟩ := (step_spec hs.inv dt).ok hst
  obtain ⟨v1, v2, v4, ht⟩ := hr.trace (getVeh_ok.1 hv)
  obtain ⟨-, he⟩ := ht.entry hr (longLinks_real fun k l hl => hpos k l (getLink_ok.2 hl))
  rw [ht.queued (getVeh_ok.1 hv')]
  have hlt1 : s1.accUpdate < accelerationUpdateSec := by rw [hr.clocks.1]; exact hlt
  cases he with
  | keeps _ h4 => exact h4.trans ht.steer.same.2.2.1
  | queues sq hn => exact absurd hlt1 hn
  | enters hn => exact absurd hlt1 hn

/-- A decision before links where the vehicle must give way and has not queued. -/
theorem Heading.waits [Env] [LawfulDijkstra] {h V D : ℝ} {l : Link ℝ} (hh : Heading lk v) (ho : Onward v) (hs : Reach strict s)
    (hst : s.step dt = .ok s') (hv : s.getVehicle k = .ok v) (hl : s.getLinkRef lk = .ok l) (hlc : l.laneChanges = []) (hself : lk ∉ l.linksOut)
    (hpos : ∀ k l, s.getLinkRef k = .ok l → 0 < l.length) (hgw : GiveWay D lk s) (hq : v.queued = none) (hf : First k lk s) (hdt : 0 ≤ dt)
    (hd : dt + 0.1 ≤ h) (hlen : 0 ≤ v.halfLen) (hc : Stopping v.acc h) (hV : v.vel ≤ V)
    (hwide : V ^ 2 + 2 * (v.acc.maxAcc + 6) * h * V + (v.acc.maxAcc + 3) ^ 2 * h ^ 2 ≤ 60 * l.speedLimit)
    (hk : Keeps h s.accUpdate (l.length - v.posFront) v.vel v.acc.getAcc 0) :
    ∃ v', s'.getVehicle k = .ok v' ∧ Heading lk v' ∧ Onward v' ∧ v'.halfLen = v.halfLen ∧ (∃ a, v'.acc = { v.acc with acc := a }) ∧
      v.pos + v.vel / 2 * dt ≤ v'.pos ∧ Keeps h s'.accUpdate (l.length - v'.posFront) v'.vel v'.acc.getAcc 0 ∧
      (v'.queued ≠ none → ∃ j lj d m p, j ∈ l.linksOut ∧ s.getLinkRef j = .ok lj ∧ lj.control = .yield_ d m p ∧ l.length - v'.posFront < d) := by
  obtain ⟨v', hv', hlk', eh, ea, hk'⟩ := (atLine hs hst hv hh hl hlc (fun _ j hj lj hlj => by
    obtain ⟨d, m, p, e, -⟩ := hgw l j lj hl hj hlj
    exact .inr ⟨hq, d, m, p, e⟩) hf).keeps hs hst hl hdt hd hv hh.on hlen hc hV hwide hk
  obtain ⟨s1, s2, s3, s4, s5, s6, hr⟩ := (step_spec hs.inv dt).ok hst
  obtain ⟨v1, v2, v4, ht⟩ := hr.trace (getVeh_ok.1 hv)
  obtain ⟨b1, b2, b3, b4, b5, b6⟩ := hh.steer ho hs hv hl hlc hr ht
  obtain ⟨e1, -, eq1, -⟩ := ht.steer.same
  obtain ⟨e3, -⟩ := ht.steer.stay (b1.trans hh.on.symm)
  obtain ⟨a, w, ev2⟩ := ht.acc.same
  obtain ⟨-, he⟩ := ht.entry hr (longLinks_real fun k l hl => hpos k l (getLink_ok.2 hl))
  obtain ⟨q, e, lc, cnt, ev4, -⟩ := ht.move.eq
  have m1 : v4.route = v1.route ∧ v4.pathfind = v1.pathfind := by
    rw [ev4]; dsimp only; rw [ev2]; exact ⟨rfl, rfl⟩
  have hi1 := hr.inv1.veh k v1 ht.get1
  have m3 : v4.queued ≠ none → ∃ j lj d m p, j ∈ l.linksOut ∧ s.getLinkRef j = .ok lj ∧ lj.control = .yield_ d m p ∧ l.length - v.posFront < d := by
    intro hne
    cases he with
    | keeps _ h4 => exact absurd (h4.trans (eq1.trans hq)) hne
    | queues sq _ ha _ _ _ _ =>
      cases ha with
      | @queue _ _ _ _ d m p hx hctl _ hd' _ =>
        have hj := hx.route
        rw [b2] at hj
        obtain ⟨l1, hl1, hm⟩ := hi1.next b1 hj
        obtain ⟨l0, hl0, e0⟩ := hr.frame1.bwd hl1
        rw [getLink_ok.1 hl] at hl0; cases hl0
        obtain ⟨lj, hlj, ej⟩ := hr.frame1.bwd hx.link
        obtain ⟨i, llk, a, hi, hlk, hu, hri, hh'⟩ := hx.ex
        rw [b2] at hi
        obtain rfl : i = 0 := by omega
        cases hu
        have : v1.route.head? = some lk := b1
        rw [this] at hh'; cases hh'
        rw [hl1] at hlk; cases hlk
        refine ⟨_, lj, d, m, p, by rw [e0] at hm; exact hm, getLink_ok.2 hlj, by rw [ej] at hctl; exact hctl, ?_⟩
        have e : l1.length = l.length := by rw [e0]; rfl
        rw [Vehicle.posFront, e3, b6, e] at hd'
        rw [Vehicle.posFront]; linarith
    | enters _ _ _ h4 => exact absurd h4 hne
  have m2 : v4.entered = 1 := by
    cases he with
    | keeps h3 _ => exact h3.trans b2
    | queues sq _ _ h3 _ _ _ => exact h3.trans b2
    | enters _ ha _ _ =>
      exfalso
      cases ha with
      | open_ hx hctl =>
        have hj := hx.route
        rw [b2] at hj
        obtain ⟨l1, hl1, hm⟩ := hi1.next b1 hj
        obtain ⟨l0, hl0, e0⟩ := hr.frame1.bwd hl1
        rw [getLink_ok.1 hl] at hl0; cases hl0
        obtain ⟨lj, hlj, ej⟩ := hr.frame1.bwd hx.link
        obtain ⟨d, m, p, e, -⟩ := hgw l _ lj hl (by rw [e0] at hm; exact hm) (getLink_ok.2 hlj)
        rw [ej] at hctl
        dsimp only at hctl
        rw [e] at hctl; cases hctl
      | yield_ _ _ hqq => rw [eq1, hq] at hqq; cases hqq
  cases ht.out with
  | stays u hu hp _ =>
    rw [getVeh_ok.1 hv'] at hu; cases hu
    obtain ⟨p, d, r, c, rfl⟩ := hp
    have hgo : v.pos + v.vel / 2 * dt ≤ v4.pos := by
      have h4 := C20_speed (.exec (.step dt) hs trivial hst) hv'
      replace h4 : 0 ≤ v4.vel := h4
      have : v4.pos = v2.pos + 0.5 * (v2.vel + v4.vel) * dt := by rw [ev4]
      rw [this, ev2]; dsimp only; rw [e1, e3]
      have h5 : (0.5 : ℝ) = 1 / 2 := by norm_num
      have : 0 ≤ v4.vel * dt := by positivity
      rw [h5]; linarith
    refine ⟨_, hv', ⟨hlk', m2, ?_⟩, ⟨?_, ?_⟩, eh, ea, hgo, hk', fun hne => ?_⟩
    · show v4.pathfind.dst ≠ _; rw [m1.2, b4]; exact hh.dst
    · show 2 ≤ v4.route.length; rw [m1.1]; exact b3
    · show ∀ p ∈ v4.pathfind.paths, _; rw [m1.2, b4]; exact ho.paths
    · obtain ⟨j, lj, d', m, p', c1, c2, c3, c4⟩ := m3 hne
      refine ⟨j, lj, d', m, p', c1, c2, c3, ?_⟩
      have h0 := C20_speed hs hv
      have : 0 ≤ v.vel / 2 * dt := by positivity
      replace eh : v4.halfLen = v.halfLen := eh
      show l.length - (v4.pos + v4.halfLen) < d'
      rw [Vehicle.posFront] at c4
      rw [eh]; linarith
  | passes v5 u hp hne hu hpl =>
    exfalso
    rw [getVeh_ok.1 hv'] at hu; cases hu
    obtain ⟨p, d, r, c, rfl⟩ := hpl
    obtain ⟨i, rest, l', pf, h1, -, -, rfl, -⟩ := hp.ex
    rw [m1.1] at h1
    have : rest.head? = some lk := hlk'
    have h2 : v1.route[1]? = some lk := by rw [h1, List.getElem?_cons_succ, ← List.head?_eq_getElem?]; exact this
    obtain ⟨l1, hl1, hm⟩ := hi1.next b1 h2
    obtain ⟨l0, hl0, e0⟩ := hr.frame1.bwd hl1
    rw [getLink_ok.1 hl] at hl0; cases hl0
    rw [e0] at hm
    exact hself hm
  | leaves v5 _ _ hn => rw [getVeh_ok.1 hv'] at hn; cases hn

/-- A decision near the line: a vehicle that has not queued queues, unless it is too fast, and a vehicle that has queued is let in. -/
theorem Heading.asks [Env] [LawfulDijkstra] {D : ℝ} {l : Link ℝ} (hh : Heading lk v) (ho : Onward v) (hs : Reach strict s)
    (hst : s.step dt = .ok s') (hv : s.getVehicle k = .ok v) (hl : s.getLinkRef lk = .ok l) (hlc : l.laneChanges = [])
    (hpos : ∀ k l, s.getLinkRef k = .ok l → 0 < l.length) (hgw : GiveWay D lk s) (hquiet : Quiet lk s) (hf : First k lk s)
    (hre : ¬ s.accUpdate < 0.1) (hlim : D ≤ 5 * l.speedLimit) :
    ∃ v', s'.getVehicle k = .ok v' ∧ (l.length - v.posFront < D → v.queued = none → v'.queued ≠ none ∨ 0.1 ≤ v.vel) ∧
      (l.length - v.posFront ≤ 5 * l.speedLimit → v.queued ≠ none → ∃ j ∈ l.linksOut, v'.route[v'.entered - 1]? = some j) := by
  obtain ⟨s1', l1, hlanes, hl1, hlast⟩ := hf
  obtain ⟨s1, s2, s3, s4, s5, s6, hr⟩ := (step_spec hs.inv dt).ok hst
  rw [hr.run1] at hlanes; cases hlanes
  obtain ⟨v1, v2, v4, ht⟩ := hr.trace (getVeh_ok.1 hv)
  obtain ⟨b1, b2, b3, b4, b5, b6⟩ := hh.steer ho hs hv hl hlc hr ht
  obtain ⟨e1, e2, eq1, -⟩ := ht.steer.same
  obtain ⟨e3, -⟩ := ht.steer.stay (b1.trans hh.on.symm)
  obtain ⟨a, w, ev2⟩ := ht.acc.same
  obtain ⟨q, e, lc, cnt, ev4, -⟩ := ht.move.eq
  have m1 : v4.route = v1.route := by
    rw [ev4]; dsimp only; rw [ev2]
  have hi1 := hr.inv1.veh k v1 ht.get1
  obtain ⟨j, hj⟩ : ∃ j, v1.route[1]? = some j := ⟨_, List.getElem?_eq_getElem (by omega)⟩
  obtain ⟨l1', hl1', hm⟩ := hi1.next b1 hj
  rw [getLink_ok.1 hl1] at hl1'; cases hl1'
  obtain ⟨l0, hl0, e0⟩ := hr.frame1.bwd (getLink_ok.1 hl1)
  rw [getLink_ok.1 hl] at hl0; cases hl0
  have hlen : l1.length = l.length := by rw [e0]; rfl
  have hlimit : l1.speedLimit = l.speedLimit := by rw [e0]
  have hm1 := hm
  rw [e0] at hm
  have hjn := hi1.drivable.valid j (List.mem_of_getElem? hj)
  obtain ⟨lj1, hlj1⟩ := Option.isSome_iff_exists.1 hjn
  obtain ⟨lj, hlj, ej⟩ := hr.frame1.bwd hlj1
  obtain ⟨d, m, p, hctl, hD⟩ := hgw l j lj hl hm (getLink_ok.2 hlj)
  have hctl1 : lj1.control = .yield_ d m p := by rw [ej]; exact hctl
  have hfront : v1.posFront = v.posFront := by rw [Vehicle.posFront, e3, b6, Vehicle.posFront]
  obtain ⟨v', hv'⟩ : ∃ v', s'.getVehicle k = .ok v' := by
    cases ht.out with
    | stays u hu _ _ => exact ⟨u, getVeh_ok.2 hu⟩
    | passes _ u _ _ hu _ => exact ⟨u, getVeh_ok.2 hu⟩
    | leaves v5 hp hnil _ =>
      exfalso
      obtain ⟨i, rest, l', pf, h1, -, -, rfl, -⟩ := hp.ex
      rw [m1] at h1
      dsimp only at hnil
      rw [h1, hnil] at b3
      exact absurd b3 (by simp)
  obtain ⟨pre, hpre⟩ : ∃ pre, l1.vehicles = pre ++ [k] := by
    rw [List.getLast?_eq_some_iff] at hlast
    exact hlast
  have hL := longLinks_real fun k l hl => hpos k l (getLink_ok.2 hl)
  have hfree : FreeTo s1' v1 0 lk 0 lk l1.length :=
    .here (by have : v1.route.head? = some lk := b1; rw [← List.head?_eq_getElem?]; exact this) (getLink_ok.1 hl1)
  have hn : l.length - v.posFront ≤ 5 * l.speedLimit → ¬ v1.posFront < l1.length - 5.0 * l1.speedLimit := by
    intro h
    rw [hfront, hlen, hlimit]; norm_num; linarith
  refine ⟨v', hv', fun hnear hq => ?_, fun hin hq => ?_⟩
  · by_cases hslow : 0.1 ≤ v.vel
    · exact .inr hslow
    · left
      obtain ⟨x, hx, -⟩ := C87_queues hs hL hst hre hr.run1 (getVeh_ok.2 ht.get1) hv' (i := 0) b2 hfree hl1 hpre (by simp) (hn (by linarith)) hj
        (getLink_ok.2 hlj1) hctl1 (eq1.trans hq) (by rw [hfront, hlen]; linarith) (fun _ => by rw [e1]; exact not_le.1 hslow)
      rw [hx]; nofun
  · obtain ⟨f, hqf⟩ := Option.ne_none_iff_exists'.1 hq
    refine ⟨j, hm, (C87_enters hs hL hst hre hr.run1 (getVeh_ok.2 ht.get1) hv' (i := 0) b2 hfree hl1 hpre (by simp) (hn hin) hl1 hj
      (getLink_ok.2 hlj1) hctl1 (eq1.trans hqf) ?_).1⟩
    intro c hc lc _ i' k' pos' far mv l' kw w _ _ hdec _
    exact absurd (List.mem_of_getElem? hdec.route) (hquiet s1' l1 j lj1 c kw w hr.run1 hl1 hm1 (getLink_ok.2 hlj1) hc (getVeh_ok.2 hdec.veh))

/-- A vehicle before lines where it must give way, which gains at least `δ` at decisions while it is at least `D` away from the line, is let in. -/
theorem Heading.let_in {D L δ : ℝ} (hdt : 0 < dt) (hδ : 0 < δ) (hδ' : δ ≤ 0.05 * dt) :
    ∃ N, ∀ [Env] [LawfulDijkstra] {M : ℝ} {l : Link ℝ} {s0 : Sim ℝ} {v0 : Vehicle ℝ} {σ : Nat → Sim ℝ},
      Reach strict s0 → ¬ s0.accUpdate < 0.1 → s0.getVehicle k = .ok v0 →
      Heading lk v0 → Onward v0 → s0.getLinkRef lk = .ok l → l.laneChanges = [] → lk ∉ l.linksOut →
      (∀ k l, s0.getLinkRef k = .ok l → 0 < l.length) →
      0 ≤ v0.halfLen → Stopping v0.acc (dt + 0.1) → 0 < v0.acc.velAdj →
      (∀ k l, s0.getLinkRef k = .ok l → 0 < l.speedLimit ∧ l.speedLimit ≤ M ∧ 4 * v0.acc.maxAcc * (dt + 0.1) ≤ v0.acc.velAdj * l.speedLimit) →
      v0.vel ≤ v0.acc.velAdj * M →
      (v0.acc.velAdj * M) ^ 2 + 2 * (v0.acc.maxAcc + 6) * (dt + 0.1) * (v0.acc.velAdj * M) + (v0.acc.maxAcc + 3) ^ 2 * (dt + 0.1) ^ 2 ≤
        60 * l.speedLimit →
      v0.posFront ≤ l.length → (v0.vel = 0 ∨ v0.posFront + v0.vel ^ 2 / 12 + 3 / 4 * (dt + 0.1) ^ 2 ≤ l.length) →
      l.length - v0.posFront < L → D ≤ 5 * l.speedLimit →
      σ 0 = s0 → (∀ n < N, (σ n).step dt = .ok (σ (n + 1))) →
      (∀ n < N, GiveWay D lk (σ n)) → (∀ n < N, Quiet lk (σ n)) →
      (l.length - v0.posFront ≤ 5 * l.speedLimit ∨ (v0.queued ≠ none → l.length - v0.posFront ≤ 5 * l.speedLimit) ∧
        ∀ n < N, ∀ j lj d m p, j ∈ l.linksOut → (σ n).getLinkRef j = .ok lj → lj.control = .yield_ d m p → d ≤ 5 * l.speedLimit) →
      (∀ n < N, (∃ v, (σ n).getVehicle k = .ok v ∧ v.linkId = some lk) → First k lk (σ n)) →
      (∀ n < N, ∀ v v', (σ n).getVehicle k = .ok v → (σ (n + 1)).getVehicle k = .ok v' → Reach strict (σ n) → Frame s0.links (σ n).links →
        ¬ (σ n).accUpdate < 0.1 → Heading lk v → Onward v → Heading lk v' → v.halfLen = v0.halfLen → (∃ a, v.acc = { v0.acc with acc := a }) →
        v0.pos ≤ v.pos → v.queued = none → D ≤ l.length - v.posFront → v.pos + δ ≤ v'.pos) →
      ∃ n < N, ∃ v v' j, (σ n).getVehicle k = .ok v ∧ v.linkId = some lk ∧ v.entered = 1 ∧ v.posFront ≤ l.length ∧ v.vel ≤ v0.acc.velAdj * M ∧
        (σ (n + 1)).getVehicle k = .ok v' ∧ j ∈ l.linksOut ∧ v'.route[v'.entered - 1]? = some j := by
  obtain ⟨R, hR⟩ := exists_nat_gt (0.1 / dt)
  obtain ⟨K, hK⟩ := exists_nat_gt (L / δ)
  rw [div_lt_iff₀ hdt] at hR
  rw [div_lt_iff₀ hδ] at hK
  refine ⟨K * (R + 1) + R + 2, ?_⟩
  generalize hN : K * (R + 1) + R + 2 = N
  intro _ _ M l s0 v0 σ hs0 hre hv0 hh ho hl hlc hself hpos hlen hc hadj hlim hvel hwide hgap hstop hnear hmin h0 hst hgw hquiet hrange hfirst hfar
  have hmax : 0 ≤ v0.acc.maxAcc := by have := hc.acc; norm_num at this; linarith
  by_contra hno
  have base : ∀ m ≤ N, Reach strict (σ m) ∧ Frame s0.links (σ m).links ∧ 0 ≤ (σ m).accUpdate := by
    intro m
    induction m with
    | zero =>
      intro _
      rw [h0]
      refine ⟨hs0, frame_refl _, ?_⟩
      norm_num at hre; linarith
    | succ m ih =>
      intro hm
      obtain ⟨a2, a3, a4⟩ := ih (by omega)
      have hst := hst m (by omega)
      obtain ⟨s1, s2, s3, s4, s5, s6, hr⟩ := (step_spec a2.inv dt).ok hst
      refine ⟨.exec (.step dt) a2 trivial hst, a3.trans hr.frame, ?_⟩
      have : (σ (m + 1)).accUpdate = if (σ m).accUpdate < 0.1 then (σ m).accUpdate + dt else 0.0 + dt := hr.clocks.2.1
      rw [this]
      split
      · linarith
      · norm_num; exact hdt.le
  have lk_at : ∀ m ≤ N, ∃ l', (σ m).getLinkRef lk = .ok l' ∧ l'.length = l.length ∧ l'.speedLimit = l.speedLimit ∧ l'.linksOut = l.linksOut ∧
      l'.laneChanges = l.laneChanges := by
    intro m hm
    obtain ⟨-, a3, -⟩ := base m hm
    obtain ⟨l', hl', e⟩ := a3.fwd lk l (getLink_ok.1 hl)
    exact ⟨l', getLink_ok.2 hl', by unfold Link.length; rw [e.curve], e.speedLimit, e.linksOut, e.laneChanges⟩
  have pos_at : ∀ m ≤ N, ∀ k l, (σ m).getLinkRef k = .ok l → 0 < l.length := by
    intro m hm k' l' hl'
    obtain ⟨-, a3, -⟩ := base m hm
    obtain ⟨l0, hl0, e⟩ := a3.bwd (getLink_ok.1 hl')
    have e : l'.length = l0.length := by unfold Link.length; rw [e.curve]
    rw [e]; exact hpos k' l0 (getLink_ok.2 hl0)
  -- at decisions the vehicle has not queued
  have none_at : ∀ m < N, ∀ v, (σ m).getVehicle k = .ok v → Heading lk v → Onward v →
      (v.queued ≠ none → l.length - v.posFront ≤ 5 * l.speedLimit) → ¬ (σ m).accUpdate < 0.1 → v.vel ≤ v0.acc.velAdj * M → 0 ≤ l.length - v.posFront →
      v.queued = none ∧ ∀ v', (σ (m + 1)).getVehicle k = .ok v' → l.length - v.posFront < D → v'.queued ≠ none ∨ 0.1 ≤ v.vel := by
    intro m hm v hv hhv hov hin hdue hmv hmp
    obtain ⟨a2, -⟩ := base m hm.le
    obtain ⟨l', hl', c1, c2, c3, c4⟩ := lk_at m hm.le
    obtain ⟨v', hv', k1, k2⟩ := hhv.asks hov a2 (hst m hm) hv hl' (c4.trans hlc) (pos_at m hm.le) (hgw m hm) (hquiet m hm) (hfirst m hm ⟨v, hv, hhv.on⟩) hdue
      (by rw [c2]; exact hmin)
    by_cases hq : v.queued = none
    · refine ⟨hq, fun w hw hn => ?_⟩
      rw [hv'] at hw; cases hw
      exact k1 (by rw [c1]; exact hn) hq
    · obtain ⟨j, hj, e⟩ := k2 (by rw [c1, c2]; exact hin hq) hq
      exact absurd ⟨m, hm, v, v', j, hv, hhv.on, hhv.ent, by linarith, hmv, hv', by rw [← c3]; exact hj, e⟩ hno
  -- the vehicle before the line
  have waits : ∀ m ≤ N, ∃ v, (σ m).getVehicle k = .ok v ∧ Heading lk v ∧ Onward v ∧ v.halfLen = v0.halfLen ∧ (∃ a, v.acc = { v0.acc with acc := a }) ∧
      v0.pos ≤ v.pos ∧ (v.queued ≠ none → l.length - v.posFront ≤ 5 * l.speedLimit) ∧ Moderate (dt + 0.1) (v0.acc.velAdj * M) (σ m) v ∧
      Keeps (dt + 0.1) (σ m).accUpdate (l.length - v.posFront) v.vel v.acc.getAcc 0 := by
    intro m
    induction m with
    | zero =>
      intro _
      rw [h0]
      refine ⟨v0, hv0, hh, ho, rfl, ⟨_, rfl⟩, le_rfl, fun h => hrange.elim id fun h' => h'.1 h, ⟨hvel, fun h => absurd h hre⟩,
        ⟨by linarith, hstop.imp (fun h => ⟨h, fun h => absurd h hre⟩) fun h => ?_⟩⟩
      intro t h0 h1 _
      rw [if_neg hre] at h1
      obtain rfl := le_antisymm h1 h0
      linarith
    | succ m ih =>
      intro hm
      obtain ⟨v, hv, hhv, hov, eh, ⟨a, ea⟩, hle, hin, hmod, hk⟩ := ih (by omega)
      obtain ⟨a2, a3, -⟩ := base m (by omega)
      have hst := hst m (by omega)
      obtain ⟨l', hl', c1, c2, c3, c4⟩ := lk_at m (by omega)
      have hstep : ∃ v', (σ (m + 1)).getVehicle k = .ok v' ∧ Heading lk v' ∧ Onward v' ∧ v'.halfLen = v.halfLen ∧ (∃ a, v'.acc = { v.acc with acc := a }) ∧
          v.pos ≤ v'.pos ∧ (v'.queued ≠ none → l.length - v'.posFront ≤ 5 * l.speedLimit) ∧ Keeps (dt + 0.1) (σ (m + 1)).accUpdate (l'.length - v'.posFront) v'.vel v'.acc.getAcc 0 := by
        by_cases hlt : (σ m).accUpdate < 0.1
        · obtain ⟨v', d1, d2, d3, d4, d5, d6, d7⟩ := hhv.drifts hov a2 hst hv hl' (c4.trans hlc) hlt hdt.le le_rfl (by rw [eh]; exact hlen) (by rw [c1]; exact hk)
          refine ⟨v', d1, d2, d3, d4, ⟨_, d5⟩, d6, fun hq => ?_, d7⟩
          rw [Heading.number a2 hst (pos_at m (by omega)) hv d1 hlt] at hq
          have := hin hq
          rw [Vehicle.posFront] at this ⊢
          rw [d4]; linarith
        · obtain ⟨hq, -⟩ := none_at m (by omega) v hv hhv hov hin hlt hmod.1 hk.1
          obtain ⟨v', d1, d2, d3, d4, d5, d6, d7, d8⟩ := hhv.waits hov a2 hst hv hl' (c4.trans hlc) (by rw [c3]; exact hself) (pos_at m (by omega)) (hgw m (by omega)) hq
            (hfirst m (by omega) ⟨v, hv, hhv.on⟩) hdt.le le_rfl (by rw [eh]; exact hlen)
            (by rw [ea]; exact ⟨hc.acc, hc.dec, hc.strong, hc.near, hc.far⟩) hmod.1 (by rw [ea, c2]; exact hwide) (by rw [c1]; exact hk)
          have h0 := C20_speed a2 hv
          have : 0 ≤ v.vel / 2 * dt := by positivity
          refine ⟨v', d1, d2, d3, d4, d5, by linarith, fun hq => ?_, d7⟩
          rcases hrange with hr | ⟨-, hr⟩
          · rw [Vehicle.posFront] at hr ⊢
            rw [d4, eh]; linarith
          · obtain ⟨j, lj, d, mm, p, x1, x2, x3, x4⟩ := d8 hq
            have := hr m (by omega) j lj d mm p (by rw [← c3]; exact x1) x2 x3
            rw [c1] at x4
            linarith
      obtain ⟨v', d1, d2, d3, d4, ⟨a', d5⟩, d6, d8, d7⟩ := hstep
      refine ⟨v', d1, d2, d3, d4.trans eh, ⟨a', by rw [d5, ea]⟩, hle.trans d6, d8, ?_, by rw [c1] at d7; exact d7⟩
      refine hmod.step a2 hst hdt.le le_rfl hv d1 ⟨by rw [ea]; exact hmax, fun k' l' hl' => ?_⟩
      obtain ⟨l0, hl0, e0⟩ := a3.bwd hl'
      obtain ⟨h1, h2, h3⟩ := hlim k' l0 (getLink_ok.2 hl0)
      rw [ea, e0.speedLimit]
      exact ⟨mul_pos hadj h1, mul_le_mul_of_nonneg_left h2 hadj.le, h3⟩
  have ahead : ∀ m < N, ∀ v v', (σ m).getVehicle k = .ok v → (σ (m + 1)).getVehicle k = .ok v' → v.pos ≤ v'.pos ∧
      (¬ (σ m).accUpdate < 0.1 → v.pos + v.vel / 2 * dt ≤ v'.pos) := by
    intro m hm v v' hv hv'
    obtain ⟨w, hw, hhv, hov, eh, ⟨a, ea⟩, hle, hin, hmod, hk⟩ := waits m hm.le
    rw [hv] at hw; cases hw
    obtain ⟨a2, -⟩ := base m hm.le
    have hst := hst m hm
    obtain ⟨l', hl', c1, c2, c3, c4⟩ := lk_at m hm.le
    have h3 : ¬ (σ m).accUpdate < 0.1 → v.pos + v.vel / 2 * dt ≤ v'.pos := by
      intro hlt
      obtain ⟨hq, -⟩ := none_at m hm v hv hhv hov hin hlt hmod.1 hk.1
      obtain ⟨u, d1, -, -, -, -, d6, -, -⟩ := hhv.waits hov a2 hst hv hl' (c4.trans hlc) (by rw [c3]; exact hself) (pos_at m hm.le) (hgw m hm) hq
        (hfirst m hm ⟨v, hv, hhv.on⟩) hdt.le le_rfl (by rw [eh]; exact hlen)
        (by rw [ea]; exact ⟨hc.acc, hc.dec, hc.strong, hc.near, hc.far⟩) hmod.1 (by rw [ea, c2]; exact hwide) (by rw [c1]; exact hk)
      rw [hv'] at d1; cases d1
      exact d6
    refine ⟨?_, h3⟩
    by_cases hlt : (σ m).accUpdate < 0.1
    · obtain ⟨u, d1, -, -, -, -, d6, -⟩ := hhv.drifts hov a2 hst hv hl' (c4.trans hlc) hlt hdt.le le_rfl (by rw [eh]; exact hlen) (by rw [c1]; exact hk)
      rw [hv'] at d1; cases d1
      exact d6
    · have := C20_speed a2 hv
      have : 0 ≤ v.vel / 2 * dt := by positivity
      linarith [h3 hlt]
  have further : ∀ m n, m ≤ n → n ≤ N → ∀ v v', (σ m).getVehicle k = .ok v → (σ n).getVehicle k = .ok v' → v.pos ≤ v'.pos := by
    intro m n hmn
    induction n, hmn using Nat.le_induction with
    | base => intro _ v v' hv hv'; rw [hv] at hv'; cases hv'; exact le_rfl
    | succ n hmn ih =>
      intro hn v v' hv hv'
      obtain ⟨w, hw, -⟩ := waits n (by omega)
      exact (ih (by omega) v w hv hw).trans (ahead n (by omega) w v' hw hv').1
  -- decisions are not rare
  have often : ∀ a, a + R < N → ∃ b, a ≤ b ∧ b ≤ a + R ∧ ¬ (σ b).accUpdate < 0.1 ∧ ∀ c, a ≤ c → c < b → (σ c).accUpdate < 0.1 := by
    intro a ha
    have clock : ∀ r ≤ R, (∃ b, a ≤ b ∧ b < a + r ∧ ¬ (σ b).accUpdate < 0.1 ∧ ∀ c, a ≤ c → c < b → (σ c).accUpdate < 0.1) ∨
        r * dt ≤ (σ (a + r)).accUpdate ∧ ∀ c, a ≤ c → c < a + r → (σ c).accUpdate < 0.1 := by
      intro r
      induction r with
      | zero =>
        intro _
        obtain ⟨-, -, a4⟩ := base a (by omega)
        exact .inr ⟨by simpa using a4, fun c h1 h2 => by omega⟩
      | succ r ih =>
        intro hr
        rcases ih (by omega) with ⟨b, h1, h2, h3⟩ | ⟨h1, h2⟩
        · exact .inl ⟨b, h1, by omega, h3⟩
        by_cases hlt : (σ (a + r)).accUpdate < 0.1
        · right
          obtain ⟨a2, -⟩ := base (a + r) (by omega)
          obtain ⟨s1, s2, s3, s4, s5, s6, hr⟩ := (step_spec a2.inv dt).ok (hst (a + r) (by omega))
          have : (σ (a + r + 1)).accUpdate = (σ (a + r)).accUpdate + dt := hr.clocks.2.1.trans (if_pos hlt)
          refine ⟨by rw [← Nat.add_assoc, this]; push_cast; linarith, fun c h3 h4 => ?_⟩
          rcases Nat.lt_or_ge c (a + r) with h | h
          · exact h2 c h3 h
          · obtain rfl : c = a + r := by omega
            exact hlt
        · exact .inl ⟨a + r, by omega, by omega, hlt, h2⟩
    rcases clock R le_rfl with ⟨b, h1, h2, h3, h4⟩ | ⟨h1, h2⟩
    · exact ⟨b, h1, by omega, h3, h4⟩
    · exact ⟨a + R, by omega, le_rfl, by linarith, h2⟩
  -- at each decision the vehicle gains
  have gain : ∀ b, b + 1 + R < N → ¬ (σ b).accUpdate < 0.1 → ∀ v v', (σ b).getVehicle k = .ok v → (σ (b + 1)).getVehicle k = .ok v' → v.pos + δ ≤ v'.pos := by
    intro b hb hdue v v' hv hv'
    obtain ⟨w, hw, hhv, hov, eh, ea, hle, hin, hmod, hk⟩ := waits b (by omega)
    rw [hv] at hw; cases hw
    obtain ⟨w', hw', hhv', -⟩ := waits (b + 1) (by omega)
    rw [hv'] at hw'; cases hw'
    obtain ⟨hqn, hnext⟩ := none_at b (by omega) v hv hhv hov hin hdue hmod.1 hk.1
    by_cases hD : D ≤ l.length - v.posFront
    · obtain ⟨a2, a3, -⟩ := base b (by omega)
      exact hfar b (by omega) v v' hv hv' a2 a3 hdue hhv hov hhv' eh ea hle hqn hD
    rcases hnext v' hv' (not_le.1 hD) with hq | hq
    · exfalso
      obtain ⟨b', h1, h2, h3, h4⟩ := often (b + 1) hb
      have stays : ∀ c, b + 1 ≤ c → c ≤ b' → ∀ u, (σ c).getVehicle k = .ok u → u.queued ≠ none := by
        intro c hc
        induction c, hc using Nat.le_induction with
        | base => intro _ u hu; rw [hv'] at hu; cases hu; exact hq
        | succ c hc ih =>
          intro hcb u hu
          obtain ⟨w, hw, -⟩ := waits c (by omega)
          obtain ⟨a2, -⟩ := base c (by omega)
          rw [Heading.number a2 (hst c (by omega)) (pos_at c (by omega)) hw hu (h4 c hc (by omega))]
          exact ih (by omega) w hw
      obtain ⟨u, hu, g1, g2, -, -, -, g3, g4, g5⟩ := waits b' (by omega)
      exact stays b' h1 le_rfl u hu (none_at b' (by omega) u hu g1 g2 g3 h3 g4.1 g5.1).1
    · have g3 := (ahead b (by omega) v v' hv hv').2 hdue
      norm_num at hq hδ'
      have g6 : 1 / 10 / 2 * dt ≤ v.vel / 2 * dt := by gcongr
      linarith
  have progress : ∀ i ≤ K, ∀ v, (σ (i * (R + 1))).getVehicle k = .ok v → v0.pos + i * δ ≤ v.pos := by
    intro i
    induction i with
    | zero =>
      intro _ v hv
      rw [Nat.zero_mul, h0, hv0] at hv; cases hv
      simp
    | succ i ih =>
      intro hi v hv
      have e : (i + 1) * (R + 1) = i * (R + 1) + R + 1 := by ring
      have hiK : (i + 1) * (R + 1) ≤ K * (R + 1) := Nat.mul_le_mul_right _ hi
      obtain ⟨b, h1, h2, h3, -⟩ := often (i * (R + 1)) (by omega)
      obtain ⟨w, hw, -⟩ := waits (i * (R + 1)) (by omega)
      obtain ⟨u, hu, -⟩ := waits b (by omega)
      obtain ⟨u', hu', -⟩ := waits (b + 1) (by omega)
      have g1 := ih (by omega) w hw
      have g2 := further _ _ h1 (by omega) w u hw hu
      have g3 := gain b (by omega) h3 u u' hu hu'
      have g4 := further (b + 1) _ (by omega) (by omega) u' v hu' hv
      push_cast
      linarith
  obtain ⟨v, hv, -, -, eh, -, -, -, -, hk⟩ := waits (K * (R + 1)) (by omega)
  have g1 := progress K le_rfl v hv
  have g2 := hk.1
  rw [Vehicle.posFront, eh] at g2
  rw [Vehicle.posFront] at hnear
  linarith

/-- **C99** In exact arithmetic: when accelerations are due, a vehicle whose plans go beyond its link stands, or can stop at least `3/4 h²`
metres before the end of its link if it brakes fully, and is less than `D` metres away from the end.  At all links that follow vehicles must
give way, and may queue within `D` metres of the line.  Then there is a number of steps, which depends on `D` and `dt` only, and one of them
lets the vehicle in to one of these links while its front is before the line, if there is no other vehicle before it on its link and none on its
way to a conflicting link.  Here `h = dt + 0.1`. -/
theorem C99_let_in {D : ℝ} (hdt : 0 < dt) :
    ∃ N, ∀ [Env] [LawfulDijkstra] {M : ℝ} {l : Link ℝ} {s0 : Sim ℝ} {v0 : Vehicle ℝ} {σ : Nat → Sim ℝ},
      Reach strict s0 → ¬ s0.accUpdate < 0.1 → s0.getVehicle k = .ok v0 →
      Heading lk v0 → Onward v0 → s0.getLinkRef lk = .ok l → l.laneChanges = [] → lk ∉ l.linksOut →
      (∀ k l, s0.getLinkRef k = .ok l → 0 < l.length) →
      0 ≤ v0.halfLen → Stopping v0.acc (dt + 0.1) → 0 < v0.acc.velAdj →
      (∀ k l, s0.getLinkRef k = .ok l → 0 < l.speedLimit ∧ l.speedLimit ≤ M ∧ 4 * v0.acc.maxAcc * (dt + 0.1) ≤ v0.acc.velAdj * l.speedLimit) →
      v0.vel ≤ v0.acc.velAdj * M →
      (v0.acc.velAdj * M) ^ 2 + 2 * (v0.acc.maxAcc + 6) * (dt + 0.1) * (v0.acc.velAdj * M) + (v0.acc.maxAcc + 3) ^ 2 * (dt + 0.1) ^ 2 ≤
        60 * l.speedLimit →
      v0.posFront ≤ l.length → (v0.vel = 0 ∨ v0.posFront + v0.vel ^ 2 / 12 + 3 / 4 * (dt + 0.1) ^ 2 ≤ l.length) →
      l.length - v0.posFront < D → D ≤ 5 * l.speedLimit →
      σ 0 = s0 → (∀ n < N, (σ n).step dt = .ok (σ (n + 1))) →
      (∀ n < N, GiveWay D lk (σ n)) → (∀ n < N, Quiet lk (σ n)) →
      (∀ n < N, (∃ v, (σ n).getVehicle k = .ok v ∧ v.linkId = some lk) → First k lk (σ n)) →
      ∃ n < N, ∃ v v' j, (σ n).getVehicle k = .ok v ∧ v.linkId = some lk ∧ v.entered = 1 ∧ v.posFront ≤ l.length ∧ v.vel ≤ v0.acc.velAdj * M ∧
        (σ (n + 1)).getVehicle k = .ok v' ∧ j ∈ l.linksOut ∧ v'.route[v'.entered - 1]? = some j := by
  obtain ⟨N, hN⟩ := Heading.let_in (strict := strict) (k := k) (lk := lk) (D := D) (L := D) hdt (by positivity : 0 < 0.05 * dt) le_rfl
  refine ⟨N, ?_⟩
  intro _ _ M l s0 v0 σ hs0 hre hv0 hh ho hl hlc hself hpos hlen hc hadj hlim hvel hwide hgap hstop hnear hmin h0 hst hgw hquiet hfirst
  refine hN hs0 hre hv0 hh ho hl hlc hself hpos hlen hc hadj hlim hvel hwide hgap hstop hnear hmin h0 hst hgw hquiet
    (.inl (by linarith)) hfirst ?_
  intro n _ v v' _ _ _ _ _ _ _ _ eh _ hle _ hD
  exfalso
  rw [Vehicle.posFront] at hD hnear
  rw [eh] at hD
  linarith

end

end TrafficSim
