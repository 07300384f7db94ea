import Verif.Props.Red
import Verif.Props.Enters
import Verif.Props.LightLive

/-! # C98: vehicles that wait at a light get a green light -/

namespace TrafficSim

namespace LightLive

theorem keep_phases {tl t : TrafficLight ℝ} {dt : ℝ} (hl : Live tl) : ∀ {n : Nat}, lightSteps dt n tl = .ok t → t.phases = tl.phases ∧ Live t := by
  intro n
  induction n generalizing t with
  | zero =>
    intro ht
    simp only [lightSteps, M_pure_ok] at ht
    subst ht; exact ⟨rfl, hl⟩
  | succ n ih =>
    intro ht
    simp only [lightSteps, M_bind_ok] at ht
    obtain ⟨t0, h0, h1⟩ := ht
    obtain ⟨g1, g2⟩ := ih h0
    obtain ⟨t1, k1, k2⟩ := g2.step dt
    rw [h1] at k1; cases k1
    exact ⟨by rw [(step_movement h1 g2.phase).2.1, g1], k2⟩

open TrafficLight in
/-- Once all movements of a phase are green they stay so until each of them has been green for the time of the phase. -/
theorem reach_complete {tl : TrafficLight ℝ} (hl : Live tl) {dt : ℝ} (hdt : 0 < dt) {ph : Phase ℝ}
    (hph : tl.phases[tl.phase]? = some ph) (hg : AllGreen tl ph) :
    ∃ n tl', lightSteps dt n tl = .ok tl' ∧ tl'.movements.length = tl.movements.length ∧ Complete ph.mask ph.duration 0 tl'.movements := by
  obtain ⟨b, hb⟩ := exists_bound tl.movements (fun m => - m.since)
  obtain ⟨d, hd⟩ := exists_mul hdt (ph.duration + b)
  have main : ∀ k : Nat,
      (∃ n tl', lightSteps dt n tl = .ok tl' ∧ tl'.movements.length = tl.movements.length ∧ Complete ph.mask ph.duration 0 tl'.movements) ∨
      (∃ tl', lightSteps dt k tl = .ok tl' ∧ Live tl' ∧ tl'.phases = tl.phases ∧ tl'.movements.length = tl.movements.length ∧
        tl'.phase = tl.phase ∧ ∀ (i : Nat) (m : Movement ℝ), tl'.movements[i]? = some m →
          ph.mask.testBit i = true → m.state = .green ∧ k * dt - b ≤ m.since) := by
    intro k
    induction k with
    | zero =>
      right
      refine ⟨tl, rfl, hl, rfl, rfl, rfl, fun i m hm hbit => ⟨hg i m hm hbit, ?_⟩⟩
      have := hb m (List.mem_of_getElem? hm)
      simp; linarith
    | succ k ih =>
      rcases ih with h | ⟨t, ht, htl, htp, htn, htq, hgr⟩
      · exact .inl h
      obtain ⟨tl', hs, hl'⟩ := htl.step dt
      obtain ⟨h1, h2, ph', ⟨ph0, h3, h4, h5⟩, h6, h7⟩ := step_movement hs htl.phase
      have hstep : lightSteps dt (k + 1) tl = .ok tl' := by
        rw [lightSteps, M_bind_ok]; exact ⟨t, ht, hs⟩
      rw [htp, htq, hph] at h3; cases h3
      by_cases hcp : Complete ph.mask ph.duration 0 t.movements
      · exact .inl ⟨k, t, ht, htn, hcp⟩
      · right
        have hq := h5 hcp
        rw [hq, htp, htq, hph] at h6; cases h6
        refine ⟨tl', hstep, hl', by rw [h2, htp], by rw [h1, htn], by rw [hq, htq], fun i m' hm' hbit => ?_⟩
        have hi := (List.getElem?_eq_some_iff.1 hm').1
        have hget := List.getElem?_eq_getElem (h1 ▸ hi)
        obtain ⟨m'', g1, -, -, -, -, g2, g3⟩ := h7 i _ hget
        rw [hm'] at g1; cases g1
        obtain ⟨q1, q2⟩ := hgr i _ hget hbit
        unfold nextSpec at g2
        simp [q1, hbit] at g2
        refine ⟨g2, ?_⟩
        rw [g3, g2, q1, if_pos rfl]
        push_cast; linarith
  rcases main d with h | ⟨t, ht, htl, htp, htn, htq, hgr⟩
  · exact h
  refine ⟨d, t, ht, htn, fun j m hm hbit => ?_⟩
  rw [Nat.zero_add] at hbit
  obtain ⟨q1, q2⟩ := hgr j m hm hbit
  exact ⟨q1, by linarith⟩

/-- A movement that has been green for more than the time of the last step was green before it. -/
theorem green_before {tl tl' : TrafficLight ℝ} {dt x : ℝ} {i : Nat} {m' : Movement ℝ} (hl : Live tl) (hs : tl.step dt = .ok tl')
    (hm : tl'.movements[i]? = some m') (hg : m'.state = .green) (hx : x ≤ m'.since) (hd : dt < x) :
    ∃ m, tl.movements[i]? = some m ∧ m.state = .green ∧ x - dt ≤ m.since := by
  obtain ⟨h1, -, ph', -, -, h7⟩ := step_movement hs hl.phase
  have hi := (List.getElem?_eq_some_iff.1 hm).1
  have hget := List.getElem?_eq_getElem (h1 ▸ hi)
  obtain ⟨m'', g1, -, -, -, -, g2, g3⟩ := h7 i _ hget
  rw [hm] at g1; cases g1
  split at g3
  · rename_i e
    exact ⟨_, hget, by rw [← e]; exact hg, by linarith⟩
  · linarith

/-- Later than after `N` steps a movement of a phase is green for at least 0.1 s in a row, if the phase is longer than 0.1 s and a step. -/
theorem green_window {tl : TrafficLight ℝ} (hl : Live tl) {dt : ℝ} (hdt : 0 < dt) {p i : Nat} {ph : Phase ℝ} (hph : tl.phases[p]? = some ph)
    (hbit : ph.mask.testBit i = true) (hi : i < tl.movements.length) (hdur : 0.1 + dt < ph.duration) (N : Nat) :
    ∃ n q : Nat, 0.1 ≤ q * dt ∧ N + q ≤ n ∧ ∀ r ≤ q, ∃ t m, lightSteps dt (n - r) tl = .ok t ∧ t.movements[i]? = some m ∧ m.state = .green := by
  obtain ⟨q, hq1, hq2⟩ : ∃ q : Nat, 0.1 ≤ q * dt ∧ q * dt < ph.duration := by
    refine ⟨⌈0.1 / dt⌉₊, ?_, ?_⟩
    · have := Nat.le_ceil (0.1 / dt)
      rwa [div_le_iff₀ hdt] at this
    · have h1 := Nat.ceil_lt_add_one (show 0 ≤ 0.1 / dt by positivity)
      have h2 : (⌈0.1 / dt⌉₊ : ℝ) * dt < (0.1 / dt + 1) * dt := mul_lt_mul_of_pos_right h1 hdt
      have h3 : (0.1 / dt + 1) * dt = 0.1 + dt := by field_simp
      linarith
  obtain ⟨t, e, l⟩ := Live.steps hl dt (N + q)
  have hpt := (keep_phases hl e).1
  have hlt : t.phase < tl.phases.length := hpt ▸ l.phase
  have hp : p < tl.phases.length := (List.getElem?_eq_some_iff.1 hph).1
  obtain ⟨n1, t1, e1, l1, p1, q1, ph1, hph1, hg⟩ :=
    reach_phase l hdt (p + tl.phases.length - t.phase + tl.phases.length - 1)
  have hpp : t1.phase = p := by
    rw [q1, hpt]
    have : t.phase + (p + tl.phases.length - t.phase + tl.phases.length - 1 + 1) =
        p + tl.phases.length * 2 := by omega
    rw [this, Nat.add_mul_mod_self_left, Nat.mod_eq_of_lt hp]
  have : ph1 = ph := by
    rw [p1, hpt, hpp, hph] at hph1; cases hph1; rfl
  subst this
  obtain ⟨n2, t2, e2, hlen2, hc⟩ := reach_complete l1 hdt hph1 hg
  have e12 := lightSteps_add (lightSteps_add e e1) e2
  have hlen : ∀ {n t}, lightSteps dt n tl = .ok t → t.movements.length = tl.movements.length := by
    intro n
    induction n with
    | zero =>
      intro t ht
      simp only [lightSteps, M_pure_ok] at ht
      rw [ht]
    | succ n ih =>
      intro t ht
      simp only [lightSteps, M_bind_ok] at ht
      obtain ⟨t0, h0, h1⟩ := ht
      rw [(step_movement h1 (keep_phases hl h0).2.phase).1, ih h0]
  refine ⟨N + q + n1 + n2, q, hq1, by omega, ?_⟩
  have key : ∀ r ≤ q, ∃ t m, lightSteps dt (N + q + n1 + n2 - r) tl = .ok t ∧ t.movements[i]? = some m ∧ m.state = .green ∧
      ph1.duration - r * dt ≤ m.since := by
    intro r
    induction r with
    | zero =>
      intro _
      have hi2 : i < t2.movements.length := by rw [hlen e12]; exact hi
      obtain ⟨c1, c2⟩ := hc i _ (List.getElem?_eq_getElem hi2) (by rw [Nat.zero_add]; exact hbit)
      exact ⟨t2, _, e12, List.getElem?_eq_getElem hi2, c1, by simpa using c2⟩
    | succ r ih =>
      intro hr
      obtain ⟨t', m', g1, g2, g3, g4⟩ := ih (by omega)
      rw [show N + q + n1 + n2 - r = N + q + n1 + n2 - (r + 1) + 1 by omega] at g1
      simp only [lightSteps, M_bind_ok] at g1
      obtain ⟨t0, h0, h1⟩ := g1
      have hcast : ((r + 1 : Nat) : ℝ) ≤ q := by exact_mod_cast hr
      have hmul : ((r + 1 : Nat) : ℝ) * dt ≤ q * dt := mul_le_mul_of_nonneg_right hcast hdt.le
      push_cast at hmul
      obtain ⟨m, k1, k2, k3⟩ := green_before (keep_phases hl h0).2 h1 g2 g3 g4 (by linarith)
      exact ⟨t0, m, h0, k1, k2, by push_cast; linarith⟩
  intro r hr
  obtain ⟨t, m, h1, h2, h3, -⟩ := key r hr
  exact ⟨t, m, h1, h2, h3⟩

end LightLive

section
variable {strict : Prop} {s s' : Sim ℝ} {dt : ℝ} {k lk : Key} {v v' : Vehicle ℝ}

/-- The plans of the vehicle go beyond the link on which it is. -/
structure Onward (v : Vehicle ℝ) : Prop where
  route : 2 ≤ v.route.length
  paths : ∀ p ∈ v.pathfind.paths, 2 ≤ p.links.length

/-- Lane changes leave a vehicle on a link without neighbours. -/
theorem Heading.steer [Env] [LawfulDijkstra] {s1 s2 s3 s4 s5 s6 : Sim ℝ} {v1 v2 v4 : Vehicle ℝ} {l : Link ℝ} (hh : Heading lk v) (ho : Onward v)
    (hs : Reach strict s) (hv : s.getVehicle k = .ok v) (hl : s.getLinkRef lk = .ok l) (hlc : l.laneChanges = [])
    (hr : StepRun strict s dt s1 s2 s3 s4 s5 s6 s') (ht : Trace s dt s1 s2 s3 s4 s' k v v1 v2 v4) :
    v1.linkId = some lk ∧ v1.entered = 1 ∧ 2 ≤ v1.route.length ∧ v1.pathfind = v.pathfind ∧ v1.willQueueOrEnter = 0 ∧ v1.halfLen = v.halfLen := by
  have hi := hs.inv.veh k v (getVeh_ok.1 hv)
  have hi1 := hr.inv1.veh k v1 ht.get1
  have hsrc : v.pathfind.src = lk := by
    have h1 : v.route.head? = some lk := hh.on
    rw [hi.src] at h1; cases h1; rfl
  have hent : v1.entered = 1 := by
    refine le_antisymm (not_lt.1 fun hlt => ?_) hi1.entered
    have hlen := hi1.enteredLe
    obtain ⟨i, h0, h1, -⟩ := ht.steer.claims (j := v1.route[1]'(by omega)) ⟨1, by omega, hlt, List.getElem?_eq_getElem _⟩
    rw [hh.ent] at h1
    omega
  rcases ht.steer with (e | ⟨p, hc, e, e1⟩) | ⟨p, hc, hne, -⟩
  · rw [e] at hent ⊢; exact ⟨hh.on, hent, ho.route, rfl, hi.will, rfl⟩
  · rw [e1] at hent ⊢; exact ⟨e.trans hh.on, hent, ho.paths p hc.mem, rfl, hi.will, rfl⟩
  · exfalso
    obtain ⟨a, ha, h | ⟨l', hl', hm⟩⟩ := (hi.paths p hc.mem).start
    · rw [ha, h, hsrc] at hne; exact hne hh.on.symm
    · rw [hsrc, getLink_ok.1 hl] at hl'; cases hl'
      rw [hlc] at hm; cases hm

/-- A step without decisions, of a vehicle that can stop at the end of its link. -/
theorem Heading.drifts [Env] [LawfulDijkstra] {h : ℝ} {l : Link ℝ} (hh : Heading lk v) (ho : Onward v) (hs : Reach strict s) (hst : s.step dt = .ok s')
    (hv : s.getVehicle k = .ok v) (hl : s.getLinkRef lk = .ok l) (hlc : l.laneChanges = []) (hlt : s.accUpdate < 0.1) (hdt : 0 ≤ dt) (hd : dt + 0.1 ≤ h)
    (hlen : 0 ≤ v.halfLen) (hk : Keeps h s.accUpdate (l.length - v.posFront) v.vel v.acc.getAcc 0) :
    ∃ v', s'.getVehicle k = .ok v' ∧ Heading lk v' ∧ Onward v' ∧ v'.halfLen = v.halfLen ∧ v'.acc = v.acc ∧ v.pos ≤ v'.pos ∧
      Keeps h s'.accUpdate (l.length - v'.posFront) v'.vel v'.acc.getAcc 0 := by
  obtain ⟨s1, s2, s3, s4, s5, s6, hr⟩ := (step_spec hs.inv dt).ok hst
  obtain ⟨v1, v2, v4, ht⟩ := hr.trace (getVeh_ok.1 hv)
  obtain ⟨b1, b2, b3, b4, b5, b6⟩ := hh.steer ho hs hv hl hlc hr ht
  obtain ⟨e1, e2, -, -, ed⟩ := ht.steer.same
  obtain ⟨e3, -⟩ := ht.steer.stay (b1.trans hh.on.symm)
  have ev2 : v2 = v1 := by
    rcases ht.acc with ⟨-, -, e⟩ | ⟨hn, -⟩
    · exact e
    · rw [hr.clocks.1] at hn; exact absurd hlt hn
  subst ev2
  obtain ⟨q, e, lc, cnt, ev4, hq⟩ := ht.move.eq
  have v0 := C20_speed hs hv
  norm_num at hd
  have m1 : v4.route = v2.route ∧ v4.pathfind = v2.pathfind ∧ v4.acc = v2.acc ∧ v4.halfLen = v2.halfLen := by
    rw [ev4]; exact ⟨rfl, rfl, rfl, rfl⟩
  have m2 : v4.vel = max (v.vel + dt * v.acc.getAcc) 0 := by
    rw [ev4]; dsimp only; rw [e1, e2]; simp only [fmax]; norm_num
  have m3 : v4.pos = v.pos + (v.vel + v4.vel) / 2 * dt := by
    have : v4.pos = v2.pos + 0.5 * (v2.vel + v4.vel) * dt := by rw [ev4]
    rw [this, e1, e3]
    have h5 : (0.5 : ℝ) = 1 / 2 := by norm_num
    rw [h5]; ring
  have m4 : v4.entered = 1 := by rw [ev4]; exact (hq b5).2.trans b2
  have hge : -6 ≤ v.acc.getAcc := by
    simp only [AccelerationModel.getAcc, fmax, maxDecel]
    exact le_max_of_le_right (by norm_num)
  have hclk := hr.clocks.2.1.trans (if_pos hlt)
  obtain ⟨hg0, hk⟩ := hk
  rw [if_pos hlt] at hk
  have hlt' := hlt
  norm_num at hlt'
  obtain ⟨k1, k2⟩ := keeps_move hg0 le_rfl v0 hge (b := 0) (by norm_num) hdt (r := h - s.accUpdate) (h := h) (by linarith) (by linarith)
    (hk.imp (fun x => ⟨x.1, x.2 hlt⟩) id) m2 (show (0 : ℝ) = max (0 + dt * 0) 0 by simp)
    (show l.length - (v4.pos + v4.halfLen) = l.length - v.posFront + (0 + 0) / 2 * dt - (v.vel + v4.vel) / 2 * dt by
      rw [m3, m1.2.2.2, b6, Vehicle.posFront]; ring)
  have hv4 : 0 ≤ v4.vel := by rw [m2]; exact le_max_right _ _
  have hle : v.pos ≤ v4.pos := by
    rw [m3]
    have : 0 ≤ (v.vel + v4.vel) / 2 * dt := by positivity
    linarith
  have no : ¬ ∃ v5, Passed s4.links v4 v5 := by
    rintro ⟨v5, hv5⟩
    obtain ⟨i, rest, l', pf, h1, h2, h3, -⟩ := hv5.ex
    rw [m1.1] at h1
    have : v2.linkId = some i := by rw [Vehicle.linkId, h1]; rfl
    rw [b1] at this; cases this
    obtain ⟨l0, h0, e0⟩ := hr.frame4.bwd h2
    rw [getLink_ok.1 hl] at h0; cases h0
    have : l'.length = l.length := by unfold Link.length; rw [e0.curve]
    rw [this] at h3
    rw [m1.2.2.2, b6] at k1
    linarith
  cases ht.out with
  | passes v5 _ hp _ _ _ => exact absurd ⟨v5, hp⟩ no
  | leaves v5 hp _ _ => exact absurd ⟨v5, hp⟩ no
  | stays u hu hp _ =>
    obtain ⟨p, d, r, c, rfl⟩ := hp
    refine ⟨_, getVeh_ok.2 hu, ⟨?_, m4, ?_⟩, ⟨?_, ?_⟩, m1.2.2.2.trans b6, m1.2.2.1.trans e2, hle, ?_⟩
    · show v4.route.head? = _; rw [m1.1]; exact b1
    · show v4.pathfind.dst ≠ _; rw [m1.2.1, b4]; exact hh.dst
    · show 2 ≤ v4.route.length; rw [m1.1]; exact b3
    · show ∀ p ∈ v4.pathfind.paths, _; rw [m1.2.1, b4]; exact ho.paths
    · show Keeps h _ (l.length - (v4.pos + v4.halfLen)) v4.vel v4.acc.getAcc 0
      rw [m1.2.2.1, e2]
      refine ⟨k1, k2.imp (fun x => ⟨x.1, fun _ => x.2⟩) fun x => x.mono le_rfl le_rfl ?_⟩
      rw [hclk]
      split <;> linarith

/-- A decision while the links that follow are closed. -/
theorem Heading.holds [Env] [LawfulDijkstra] {h V : ℝ} {l : Link ℝ} (hh : Heading lk v) (ho : Onward v) (hs : Reach strict s) (hst : s.step dt = .ok s')
    (hv : s.getVehicle k = .ok v) (hl : s.getLinkRef lk = .ok l) (hlc : l.laneChanges = []) (hself : lk ∉ l.linksOut)
    (hpos : ∀ k l, s.getLinkRef k = .ok l → 0 < l.length) (hshut : Shut lk s) (hf : First k lk s) (hdt : 0 ≤ dt) (hd : dt + 0.1 ≤ h)
    (hlen : 0 ≤ v.halfLen) (hc : Stopping v.acc h) (hV : v.vel ≤ V)
    (hwide : V ^ 2 + 2 * (v.acc.maxAcc + 6) * h * V + (v.acc.maxAcc + 3) ^ 2 * h ^ 2 ≤ 60 * l.speedLimit)
    (hk : Keeps h s.accUpdate (l.length - v.posFront) v.vel v.acc.getAcc 0) :
    ∃ v', s'.getVehicle k = .ok v' ∧ Heading lk v' ∧ Onward v' ∧ v'.halfLen = v.halfLen ∧ (∃ a, v'.acc = { v.acc with acc := a }) ∧ v.pos ≤ v'.pos ∧
      Keeps h s'.accUpdate (l.length - v'.posFront) v'.vel v'.acc.getAcc 0 := by
  obtain ⟨v', hv', hlk', eh, ea, hk'⟩ := (atLine hs hst hv hh hl hlc (fun _ j hj lj hlj => .inl (hshut l j lj hl hj hlj)) hf).keeps hs hst hl hdt hd hv hh.on hlen hc hV hwide hk
  have hh' := hh.step hs hst hv hv' hlk' hshut hpos
  obtain ⟨s1, s2, s3, s4, s5, s6, hr⟩ := (step_spec hs.inv dt).ok hst
  obtain ⟨v1, v2, v4, ht⟩ := hr.trace (getVeh_ok.1 hv)
  obtain ⟨b1, b2, b3, b4, b5, b6⟩ := hh.steer ho hs hv hl hlc hr ht
  obtain ⟨e1, -⟩ := ht.steer.same
  obtain ⟨e3, -⟩ := ht.steer.stay (b1.trans hh.on.symm)
  obtain ⟨a, w, ev2⟩ := ht.acc.same
  obtain ⟨q, e, lc, cnt, ev4, -⟩ := ht.move.eq
  have m1 : v4.route = v1.route ∧ v4.pathfind = v1.pathfind := by
    rw [ev4]; dsimp only; rw [ev2]; exact ⟨rfl, rfl⟩
  have hi1 := hr.inv1.veh k v1 ht.get1
  cases ht.out with
  | stays u hu hp _ =>
    rw [getVeh_ok.1 hv'] at hu; cases hu
    obtain ⟨p, d, r, c, rfl⟩ := hp
    refine ⟨_, hv', hh', ⟨?_, ?_⟩, eh, ea, ?_, hk'⟩
    · show 2 ≤ v4.route.length; rw [m1.1]; exact b3
    · show ∀ p ∈ v4.pathfind.paths, _; rw [m1.2, b4]; exact ho.paths
    · show v.pos ≤ v4.pos
      have v0 := C20_speed hs hv
      have h4 := C20_speed (.exec (.step dt) hs trivial hst) hv'
      replace h4 : 0 ≤ v4.vel := h4
      have : v4.pos = v2.pos + 0.5 * (v2.vel + v4.vel) * dt := by rw [ev4]
      rw [this, ev2]; dsimp only; rw [e1, e3]
      have : 0 ≤ 0.5 * (v.vel + v4.vel) * dt := by positivity
      linarith
  | passes v5 u hp hne hu hpl =>
    exfalso
    rw [getVeh_ok.1 hv'] at hu; cases hu
    obtain ⟨p, d, r, c, rfl⟩ := hpl
    obtain ⟨i, rest, l', pf, h1, -, -, rfl, -⟩ := hp.ex
    rw [m1.1] at h1
    have : rest.head? = some lk := hlk'
    have h2 : v1.route[1]? = some lk := by rw [h1, List.getElem?_cons_succ, ← List.head?_eq_getElem?]; exact this
    obtain ⟨l1, hl1, hm⟩ := hi1.next b1 h2
    obtain ⟨l0, hl0, e0⟩ := hr.frame1.bwd hl1
    rw [getLink_ok.1 hl] at hl0; cases hl0
    rw [e0] at hm
    exact hself hm
  | leaves v5 _ _ hn => rw [getVeh_ok.1 hv'] at hn; cases hn

/-- A decision while the links that follow are open. -/
theorem Heading.goes [Env] [LawfulDijkstra] {l : Link ℝ} (hh : Heading lk v) (ho : Onward v) (hs : Reach strict s) (hst : s.step dt = .ok s')
    (hv : s.getVehicle k = .ok v) (hl : s.getLinkRef lk = .ok l) (hlc : l.laneChanges = [])
    (hpos : ∀ k l, s.getLinkRef k = .ok l → 0 < l.length) (hopen : ∀ j ∈ l.linksOut, ∀ lj, s.getLinkRef j = .ok lj → lj.control = .open_)
    (hf : First k lk s) (hre : ¬ s.accUpdate < 0.1) (hdec : 0 ≤ v.acc.comfDec) (hnear : l.length - 7.5 < v.posFront) (hlim : 1.5 ≤ l.speedLimit) :
    ∃ v' j, s'.getVehicle k = .ok v' ∧ j ∈ l.linksOut ∧ v'.route[v'.entered - 1]? = some j := by
  obtain ⟨s1', l1, hlanes, hl1, hlast⟩ := hf
  obtain ⟨s1, s2, s3, s4, s5, s6, hr⟩ := (step_spec hs.inv dt).ok hst
  rw [hr.run1] at hlanes; cases hlanes
  obtain ⟨v1, v2, v4, ht⟩ := hr.trace (getVeh_ok.1 hv)
  obtain ⟨b1, b2, b3, b4, b5, b6⟩ := hh.steer ho hs hv hl hlc hr ht
  obtain ⟨e1, e2, -⟩ := ht.steer.same
  obtain ⟨e3, -⟩ := ht.steer.stay (b1.trans hh.on.symm)
  obtain ⟨a, w, ev2⟩ := ht.acc.same
  obtain ⟨q, e, lc, cnt, ev4, -⟩ := ht.move.eq
  have m1 : v4.route = v1.route := by
    rw [ev4]; dsimp only; rw [ev2]
  have hi1 := hr.inv1.veh k v1 ht.get1
  obtain ⟨j, hj⟩ : ∃ j, v1.route[1]? = some j := ⟨_, List.getElem?_eq_getElem (by omega)⟩
  obtain ⟨l1', hl1', hm⟩ := hi1.next b1 hj
  rw [getLink_ok.1 hl1] at hl1'; cases hl1'
  obtain ⟨l0, hl0, e0⟩ := hr.frame1.bwd (getLink_ok.1 hl1)
  rw [getLink_ok.1 hl] at hl0; cases hl0
  have hlen : l1.length = l.length := by rw [e0]; rfl
  have hlimit : l1.speedLimit = l.speedLimit := by rw [e0]
  rw [e0] at hm
  have hjn := hi1.drivable.valid j (List.mem_of_getElem? hj)
  obtain ⟨lj1, hlj1⟩ := Option.isSome_iff_exists.1 hjn
  obtain ⟨lj, hlj, ej⟩ := hr.frame1.bwd hlj1
  have hctl : lj1.control = .open_ := by rw [ej]; exact hopen j hm lj (getLink_ok.2 hlj)
  have hfront : v1.posFront = v.posFront := by rw [Vehicle.posFront, e3, b6, Vehicle.posFront]
  obtain ⟨v', hv'⟩ : ∃ v', s'.getVehicle k = .ok v' := by
    cases ht.out with
    | stays u hu _ _ => exact ⟨u, getVeh_ok.2 hu⟩
    | passes _ u _ _ hu _ => exact ⟨u, getVeh_ok.2 hu⟩
    | leaves v5 hp hnil _ =>
      exfalso
      obtain ⟨i, rest, l', pf, h1, -, -, rfl, -⟩ := hp.ex
      rw [m1] at h1
      dsimp only at hnil
      rw [h1, hnil] at b3
      exact absurd b3 (by simp)
  obtain ⟨pre, hpre⟩ : ∃ pre, l1.vehicles = pre ++ [k] := by
    rw [List.getLast?_eq_some_iff] at hlast
    exact hlast
  have v0 := C20_speed hs hv
  have hrolls := C87_rolls hs (longLinks_real fun k l hl => hpos k l (getLink_ok.2 hl)) hst hre hr.run1 (getVeh_ok.2 ht.get1) hv' (i := 0) b2
    (.here (k0 := lk) (by have : v1.route.head? = some lk := b1; rw [← List.head?_eq_getElem?]; exact this) (getLink_ok.1 hl1)) hl1 hpre (by simp)
    (by rw [hfront, hlen, hlimit]; norm_num at hnear hlim ⊢; linarith) hj (getLink_ok.2 hlj1) hctl
    (by
      rw [hfront, hlen, e1, e2]
      have : 0 ≤ 0.5 * v.vel * (v.vel / v.acc.comfDec) := by positivity
      norm_num at hnear this ⊢; linarith)
  exact ⟨v', j, hv', hm, hrolls.1⟩

/-- **C98** In exact arithmetic: when accelerations are due, a vehicle whose plans go beyond its link stands, or can stop at least `3/4 h²`
metres before the end of its link if it brakes fully, and is at most 7.5 m away from the end.  All links that follow are controlled by one
movement of one light, which is green in a phase that is longer than 0.1 s and a step.  Then there is a number of steps, which
depends on the light and `dt` only, after which the vehicle has been let in to one of these links, if there is no other vehicle before it on
its link.  Here `h = dt + 0.1`. -/
theorem C98_green {tl : TrafficLight ℝ} {i p : Nat} {ph : Phase ℝ} (hcur : tl.phase < tl.phases.length) (hwp : WellPosed tl)
    (hsmall : tl.movements.length ≤ 64) (hi : i < tl.movements.length) (hph : tl.phases[p]? = some ph) (hbit : ph.mask.testBit i = true)
    (hdt : 0 < dt) (hdur : 0.1 + dt < ph.duration) :
    ∃ N, ∀ [Env] [LawfulDijkstra] {M d : ℝ} {l : Link ℝ} {sp s0 : Sim ℝ} {v0 : Vehicle ℝ} {light : Key} {σ : Nat → Sim ℝ},
      Reach strict sp → sp.step d = .ok s0 → ¬ s0.accUpdate < 0.1 → s0.getVehicle k = .ok v0 →
      Heading lk v0 → Onward v0 → s0.getLinkRef lk = .ok l → l.laneChanges = [] → lk ∉ l.linksOut →
      (∀ k l, s0.getLinkRef k = .ok l → 0 < l.length) →
      0 ≤ v0.halfLen → Stopping v0.acc (dt + 0.1) → 0 < v0.acc.velAdj →
      (∀ k l, s0.getLinkRef k = .ok l → 0 < l.speedLimit ∧ l.speedLimit ≤ M ∧ 4 * v0.acc.maxAcc * (dt + 0.1) ≤ v0.acc.velAdj * l.speedLimit) →
      v0.vel ≤ v0.acc.velAdj * M →
      (v0.acc.velAdj * M) ^ 2 + 2 * (v0.acc.maxAcc + 6) * (dt + 0.1) * (v0.acc.velAdj * M) + (v0.acc.maxAcc + 3) ^ 2 * (dt + 0.1) ^ 2 ≤
        60 * l.speedLimit →
      v0.posFront ≤ l.length → (v0.vel = 0 ∨ v0.posFront + v0.vel ^ 2 / 12 + 3 / 4 * (dt + 0.1) ^ 2 ≤ l.length) →
      l.length - 7.5 < v0.posFront → 1.5 ≤ l.speedLimit →
      (∀ j ∈ l.linksOut, s0.Controls light i j ∧ ∀ light' i', s0.Controls light' i' j → light' = light ∧ i' = i) →
      s0.lights.get? light = some tl →
      σ 0 = s0 → (∀ n < N, (σ n).step dt = .ok (σ (n + 1))) →
      (∀ n < N, (∃ v, (σ n).getVehicle k = .ok v ∧ v.linkId = some lk) → First k lk (σ n)) →
      ∃ n ≤ N, ∃ v j, (σ n).getVehicle k = .ok v ∧ j ∈ l.linksOut ∧ v.route[v.entered - 1]? = some j := by
  obtain ⟨n, q, hq, hn, hgreen⟩ := LightLive.green_window ⟨hcur, hsmall, hwp⟩ hdt hph hbit hi hdur 1
  refine ⟨n + 1, ?_⟩
  intro _ _ M d l sp s0 v0 light σ hs hsp hre hv0 hh ho hl hlc hself hpos hlen hc hadj hlim hvel hwide hgap hstop hnear hmin hctl htl h0 hst hfirst
  have hs0 : Reach strict s0 := .exec (.step d) hs trivial hsp
  have hi0 := hs0.inv.veh k v0 (getVeh_ok.1 hv0)
  have hmax : 0 ≤ v0.acc.maxAcc := by have := hc.acc; norm_num at this; linarith
  have hdec : 0 ≤ v0.acc.comfDec := by have := hc.dec; linarith
  obtain ⟨j0, hj0⟩ : ∃ j, v0.route[1]? = some j := ⟨_, List.getElem?_eq_getElem (by have := ho.route; omega)⟩
  have hm0 : j0 ∈ l.linksOut := by
    obtain ⟨l', hl', hm⟩ := hi0.next hh.on hj0
    rw [getLink_ok.1 hl] at hl'; cases hl'
    exact hm
  by_contra hno
  -- what does not depend on the vehicle
  have base : ∀ m ≤ n + 1, (∃ sp d, Reach strict sp ∧ sp.step d = .ok (σ m)) ∧ Reach strict (σ m) ∧ Frame s0.links (σ m).links ∧
      0 ≤ (σ m).accUpdate ∧ (∃ t, (σ m).lights.get? light = some t ∧ lightSteps dt m tl = .ok t) ∧
      ∀ a b c, (σ m).Controls a b c ↔ s0.Controls a b c := by
    intro m
    induction m with
    | zero =>
      intro _
      rw [h0]
      refine ⟨⟨sp, d, hs, hsp⟩, hs0, frame_refl _, ?_, ⟨tl, htl, rfl⟩, fun _ _ _ => Iff.rfl⟩
      norm_num at hre; linarith
    | succ m ih =>
      intro hm
      obtain ⟨-, a2, a3, a4, ⟨t, a5, a6⟩, a7⟩ := ih (by omega)
      have hst := hst m (by omega)
      obtain ⟨s1, s2, s3, s4, s5, s6, hr⟩ := (step_spec a2.inv dt).ok hst
      obtain ⟨t', a5', a6'⟩ := (C08_lights a2 hst).fwd light t a5
      refine ⟨⟨_, _, a2, hst⟩, .exec (.step dt) a2 trivial hst, a3.trans hr.frame, ?_, ⟨t', a5', ?_⟩, fun a b c => ?_⟩
      · have : (σ (m + 1)).accUpdate = if (σ m).accUpdate < 0.1 then (σ m).accUpdate + dt else 0.0 + dt := hr.clocks.2.1
        rw [this]
        split
        · linarith
        · norm_num; exact hdt.le
      · rw [lightSteps, M_bind_ok]; exact ⟨t, a6, a6'⟩
      · rw [← a7]
        constructor
        · rintro ⟨u', hu', hm'⟩
          obtain ⟨u, hu, e⟩ := (C08_lights a2 hst).bwd hu'
          rw [light_links e] at hm'
          exact ⟨u, hu, hm'⟩
        · rintro ⟨u, hu, hm'⟩
          obtain ⟨u', hu', e⟩ := (C08_lights a2 hst).fwd a u hu
          rw [← light_links e] at hm'
          exact ⟨u', hu', hm'⟩
  have lk_at : ∀ m ≤ n + 1, ∃ l', (σ m).getLinkRef lk = .ok l' ∧ l'.length = l.length ∧ l'.speedLimit = l.speedLimit ∧ l'.linksOut = l.linksOut ∧
      l'.laneChanges = l.laneChanges := by
    intro m hm
    obtain ⟨-, -, a3, -⟩ := base m hm
    obtain ⟨l', hl', e⟩ := a3.fwd lk l (getLink_ok.1 hl)
    exact ⟨l', getLink_ok.2 hl', by unfold Link.length; rw [e.curve], e.speedLimit, e.linksOut, e.laneChanges⟩
  have pos_at : ∀ m ≤ n + 1, ∀ k l, (σ m).getLinkRef k = .ok l → 0 < l.length := by
    intro m hm k' l' hl'
    obtain ⟨-, -, a3, -⟩ := base m hm
    obtain ⟨l0, hl0, e⟩ := a3.bwd (getLink_ok.1 hl')
    have e : l'.length = l0.length := by unfold Link.length; rw [e.curve]
    rw [e]; exact hpos k' l0 (getLink_ok.2 hl0)
  -- the links are as the light says
  have signal : ∀ m ≤ n + 1, ∀ t mv, lightSteps dt m tl = .ok t → t.movements[i]? = some mv → ∀ j ∈ l.linksOut, ∀ lj, (σ m).getLinkRef j = .ok lj →
      lj.control = if mv.state = .green then .open_ else .closed := by
    intro m hm t mv ht hmv j hj lj hlj
    obtain ⟨⟨sp, d, b1, b2⟩, -, -, -, ⟨t', a5, a6⟩, a7⟩ := base m hm
    rw [ht] at a6; cases a6
    obtain ⟨tl', m', l', g1, g2, g3, g4⟩ := C08_obeys b1 b2 ((a7 _ _ _).2 (hctl j hj).1) fun a b hab => (hctl j hj).2 a b ((a7 _ _ _).1 hab)
    rw [a5] at g1; cases g1
    rw [hmv] at g2; cases g2
    rw [hlj] at g3; cases g3
    exact g4
  have waits : ∀ m ≤ n + 1, ∃ v, (σ m).getVehicle k = .ok v ∧ Heading lk v ∧ Onward v ∧ v.halfLen = v0.halfLen ∧ (∃ a, v.acc = { v0.acc with acc := a }) ∧
      v0.pos ≤ v.pos ∧ Moderate (dt + 0.1) (v0.acc.velAdj * M) (σ m) v ∧
      Keeps (dt + 0.1) (σ m).accUpdate (l.length - v.posFront) v.vel v.acc.getAcc 0 ∧
      (m < n + 1 → ¬ (σ m).accUpdate < 0.1 → ∀ t mv, lightSteps dt m tl = .ok t → t.movements[i]? = some mv → mv.state ≠ .green) := by
    have notgreen : ∀ m v, m < n + 1 → (σ m).getVehicle k = .ok v → Heading lk v → Onward v → v.halfLen = v0.halfLen → (∃ a, v.acc = { v0.acc with acc := a }) →
        v0.pos ≤ v.pos → ¬ (σ m).accUpdate < 0.1 → ∀ t mv, lightSteps dt m tl = .ok t → t.movements[i]? = some mv → mv.state ≠ .green := by
      rintro m v hm hv hhv hov eh ⟨a, ea⟩ hle hdue t mv ht hmv hgr
      obtain ⟨-, a2, -⟩ := base m (by omega)
      obtain ⟨l', hl', c1, c2, c3, c4⟩ := lk_at m (by omega)
      obtain ⟨v', j, k1, k2, k3⟩ := hhv.goes hov a2 (hst m hm) hv hl' (c4.trans hlc) (pos_at m (by omega))
        (fun j hj lj hlj => by rw [signal m (by omega) t mv ht hmv j (by rw [← c3]; exact hj) lj hlj, if_pos hgr])
        (hfirst m hm ⟨v, hv, hhv.on⟩) hdue (by rw [ea]; exact hdec)
        (by rw [c1, Vehicle.posFront, eh]; rw [Vehicle.posFront] at hnear; linarith) (by rw [c2]; exact hmin)
      exact hno ⟨m + 1, by omega, v', j, k1, by rw [← c3]; exact k2, k3⟩
    intro m
    induction m with
    | zero =>
      intro _
      rw [h0]
      refine ⟨v0, hv0, hh, ho, rfl, ⟨_, rfl⟩, le_rfl, ⟨hvel, fun h => absurd h hre⟩,
        ⟨by linarith, hstop.imp (fun h => ⟨h, fun h => absurd h hre⟩) fun h => ?_⟩, ?_⟩
      · intro t h0 h1 _
        rw [if_neg hre] at h1
        obtain rfl := le_antisymm h1 h0
        linarith
      · intro hlt hdue
        exact notgreen 0 v0 hlt (by rw [h0]; exact hv0) hh ho rfl ⟨_, rfl⟩ le_rfl (by rw [h0]; exact hdue)
    | succ m ih =>
      intro hm
      obtain ⟨v, hv, hhv, hov, eh, ⟨a, ea⟩, hle, hmod, hk, hng⟩ := ih (by omega)
      obtain ⟨-, a2, a3, -, ⟨t, a5, a6⟩, -⟩ := base m (by omega)
      obtain ⟨l', hl', c1, c2, c3, c4⟩ := lk_at m (by omega)
      have hst := hst m (by omega)
      have next : ∃ v', (σ (m + 1)).getVehicle k = .ok v' ∧ Heading lk v' ∧ Onward v' ∧ v'.halfLen = v.halfLen ∧ (∃ a, v'.acc = { v.acc with acc := a }) ∧
          v.pos ≤ v'.pos ∧ Keeps (dt + 0.1) (σ (m + 1)).accUpdate (l.length - v'.posFront) v'.vel v'.acc.getAcc 0 := by
        by_cases hdue : (σ m).accUpdate < 0.1
        · obtain ⟨v', d1, d2, d3, d4, d5, d6, d7⟩ := hhv.drifts hov a2 hst hv hl' (c4.trans hlc) hdue hdt.le le_rfl (by rw [eh]; exact hlen)
            (by rw [c1]; exact hk)
          exact ⟨v', d1, d2, d3, d4, ⟨v.acc.acc, by rw [d5]⟩, d6, by rw [← c1]; exact d7⟩
        · obtain ⟨m', hm'⟩ : ∃ m', t.movements[i]? = some m' := by
            obtain ⟨⟨sp, d, b1, b2⟩, -, -, -, -, a7⟩ := base m (by omega)
            obtain ⟨tl', m', -, g1, g2, -⟩ := C08_obeys b1 b2 ((a7 _ _ _).2 (hctl j0 hm0).1) fun a b hab => (hctl j0 hm0).2 a b ((a7 _ _ _).1 hab)
            rw [a5] at g1; cases g1
            exact ⟨m', g2⟩
          have hred := hng (by omega) hdue t m' a6 hm'
          have hshut : Shut lk (σ m) := by
            intro l2 j lj hl2 hj hlj
            rw [hl'] at hl2; cases hl2
            rw [signal m (by omega) t m' a6 hm' j (by rw [← c3]; exact hj) lj hlj, if_neg hred]
          obtain ⟨v', d1, d2, d3, d4, d5, d6, d7⟩ := hhv.holds hov a2 hst hv hl' (c4.trans hlc) (by rw [c3]; exact hself) (pos_at m (by omega)) hshut
            (hfirst m (by omega) ⟨v, hv, hhv.on⟩) hdt.le le_rfl (by rw [eh]; exact hlen)
            (by rw [ea]; exact ⟨hc.acc, hc.dec, hc.strong, hc.near, hc.far⟩) hmod.1 (by rw [ea, c2]; exact hwide) (by rw [c1]; exact hk)
          exact ⟨v', d1, d2, d3, d4, d5, d6, by rw [← c1]; exact d7⟩
      obtain ⟨v', d1, d2, d3, d4, ⟨a', d5⟩, d6, d7⟩ := next
      refine ⟨v', d1, d2, d3, d4.trans eh, ⟨a', by rw [d5, ea]⟩, hle.trans d6, ?_, d7, fun hlt hdue => notgreen (m + 1) v' hlt d1 d2 d3 (d4.trans eh)
        ⟨a', by rw [d5, ea]⟩ (hle.trans d6) hdue⟩
      refine hmod.step a2 hst hdt.le le_rfl hv d1 ⟨by rw [ea]; exact hmax, fun k' l' hl' => ?_⟩
      obtain ⟨l0, hl0, e0⟩ := a3.bwd hl'
      obtain ⟨h1, h2, h3⟩ := hlim k' l0 (getLink_ok.2 hl0)
      rw [ea, e0.speedLimit]
      exact ⟨mul_pos hadj h1, mul_le_mul_of_nonneg_left h2 hadj.le, h3⟩
  -- decisions are made while the light is green
  have clock : ∀ r ≤ q, r * dt ≤ (σ (n - q + r)).accUpdate := by
    intro r
    induction r with
    | zero =>
      intro _
      obtain ⟨-, -, -, a4, -⟩ := base (n - q) (by omega)
      simpa using a4
    | succ r ih =>
      intro hr
      have ih := ih (by omega)
      obtain ⟨v, -, -, -, -, -, -, -, -, hng⟩ := waits (n - q + r) (by omega)
      obtain ⟨t, m, g1, g2, g3⟩ := hgreen (q - r) (by omega)
      rw [show n - (q - r) = n - q + r by omega] at g1
      have hlt : (σ (n - q + r)).accUpdate < 0.1 := by
        by_contra hdue
        exact hng (by omega) hdue t m g1 g2 g3
      obtain ⟨-, a2, -⟩ := base (n - q + r) (by omega)
      obtain ⟨s1, s2, s3, s4, s5, s6, hr⟩ := (step_spec a2.inv dt).ok (hst (n - q + r) (by omega))
      have : (σ (n - q + r + 1)).accUpdate = (σ (n - q + r)).accUpdate + dt := hr.clocks.2.1.trans (if_pos hlt)
      rw [← Nat.add_assoc, this]
      push_cast; linarith
  have hend := clock q le_rfl
  rw [show n - q + q = n by omega] at hend
  obtain ⟨v, -, -, -, -, -, -, -, -, hng⟩ := waits n (by omega)
  obtain ⟨t, m, g1, g2, g3⟩ := hgreen 0 (by omega)
  exact hng (by omega) (by linarith) t m g1 g2 g3

end

end TrafficSim
