import Verif.Props.Exit
import Verif.Props.Speed

/-! # C81: red lights -/

namespace TrafficSim

section
variable {strict : Prop} {s s' : Sim ℝ} {dt : ℝ} {k lk : Key} {v v' : Vehicle ℝ}

/-- No link that follows `lk` may be entered. -/
def Shut (lk : Key) (s : Sim ℝ) : Prop :=
  ∀ l j lj, s.getLinkRef lk = .ok l → j ∈ l.linksOut → s.getLinkRef j = .ok lj → lj.control = .closed

/-- The vehicle is on the link `lk`, has entered no other link, and has its destination elsewhere. -/
structure Heading (lk : Key) (v : Vehicle ℝ) : Prop where
  on : v.linkId = some lk
  ent : v.entered = 1
  dst : v.destination ≠ lk

/-- After lane changes, `k` is the vehicle nearest to the end of `lk`. -/
def First [Env] (k lk : Key) (s : Sim ℝ) : Prop :=
  ∃ s1 l1, s.calculateLaneChanges = .ok s1 ∧ s1.getLinkRef lk = .ok l1 ∧ l1.vehicles.getLast? = some k

theorem VehInv.next {links : LinkSet ℝ} (hi : VehInv links k v) (hlk : v.linkId = some lk) {j : Key} (hj : v.route[1]? = some j) : Conn links lk j := by
  have h1 : v.route.head? = some lk := hlk
  have hc := hi.drivable.chain
  cases hr : v.route with
  | nil => rw [hr] at h1; cases h1
  | cons a t =>
    rw [hr] at h1 hj hc
    cases h1
    cases t with
    | nil => cases hj
    | cons b t =>
      cases hj
      exact (List.isChain_cons_cons.1 hc).1

theorem atLine [Env] [LawfulDijkstra] {l : Link ℝ} (hs : Reach strict s) (hst : s.step dt = .ok s') (hv : s.getVehicle k = .ok v) (hh : Heading lk v)
    (hl : s.getLinkRef lk = .ok l) (hlc : l.laneChanges = [])
    (hshut : ¬ s.accUpdate < 0.1 → ∀ j ∈ l.linksOut, ∀ lj, s.getLinkRef j = .ok lj →
      lj.control = .closed ∨ v.queued = none ∧ ∃ d m p, lj.control = .yield_ d m p)
    (hf : First k lk s) : AtLine k lk s := by
  obtain ⟨s1, l1, hlanes, hl1, hlast⟩ := hf
  obtain ⟨s1', s2, s3, s4, s5, s6, hr⟩ := (step_spec hs.inv dt).ok hst
  rw [hr.run1] at hlanes; cases hlanes
  obtain ⟨v1, v2, v4, ht⟩ := hr.trace (getVeh_ok.1 hv)
  have hi := hs.inv.veh k v (getVeh_ok.1 hv)
  have hi1 := hr.inv1.veh k v1 ht.get1
  have hsrc : v.pathfind.src = lk := by
    have h1 : v.route.head? = some lk := hh.on
    rw [hi.src] at h1; cases h1; rfl
  have hon : v1.linkId = some lk := by
    rcases ht.steer with (rfl | ⟨p, -, e, rfl⟩) | ⟨p, hc, hne, -⟩
    · exact hh.on
    · exact e.trans hh.on
    · exfalso
      obtain ⟨a, ha, h | ⟨l', hl', hm⟩⟩ := (hi.paths p hc.mem).start
      · rw [ha, h, hsrc] at hne; exact hne hh.on.symm
      · rw [hsrc, getLink_ok.1 hl] at hl'; cases hl'
        rw [hlc] at hm; cases hm
  have hent : v1.entered = 1 := by
    refine le_antisymm (not_lt.1 fun hlt => ?_) hi1.entered
    have hlen := hi1.enteredLe
    obtain ⟨i, h0, h1, -⟩ := ht.steer.claims (j := v1.route[1]'(by omega)) ⟨1, by omega, hlt, List.getElem?_eq_getElem _⟩
    rw [hh.ent] at h1
    omega
  obtain ⟨pre, hpre⟩ : ∃ pre, l1.vehicles = pre ++ [k] := by
    refine ⟨l1.vehicles.dropLast, ?_⟩
    rw [List.getLast?_eq_some_iff] at hlast
    obtain ⟨ys, e⟩ := hlast
    rw [e]; simp
  refine ⟨s1, v1, l1, pre, [], hr.run1, getVeh_ok.2 ht.get1, hl1, hon, hent, hpre, nofun, fun hre => ?_⟩
  cases hj : v1.route[1]? with
  | some j =>
    obtain ⟨l1', hl1', hm⟩ := hi1.next hon hj
    obtain ⟨l0, hl0, e0⟩ := hr.frame1.bwd hl1'
    rw [getLink_ok.1 hl] at hl0; cases hl0
    have hm0 : j ∈ l.linksOut := by rw [e0] at hm; exact hm
    have hjn : s1.links.contains j = true := hi1.drivable.valid j (List.mem_of_getElem? hj)
    obtain ⟨lj1, hlj1⟩ := Option.isSome_iff_exists.1 hjn
    obtain ⟨lj, hlj, ej⟩ := hr.frame1.bwd hlj1
    rcases hshut hre j hm0 lj (getLink_ok.2 hlj) with hc | ⟨hq, d, m, p, hc⟩
    · exact .inl ⟨j, lj1, hj, hlj1, by rw [ej]; exact hc⟩
    · exact .inr (.inr ⟨j, lj1, d, m, p, hj, hlj1, by rw [ej]; exact hc, by rw [ht.steer.same.2.2.1]; exact hq⟩)
  | none =>
    refine .inr (.inl ⟨hj, ?_⟩)
    by_contra hx
    have hx' := ht.steer.exitOK hi (fun hx => C61_can_exit hs hv hx) (by simpa using hx)
    have hd : v1.destination = v.destination := ht.steer.same.2.2.2.2
    have h1 : v1.route.head? = some lk := hon
    cases hr1 : v1.route with
    | nil => rw [hr1] at h1; cases h1
    | cons a t =>
      cases t with
      | nil =>
        rw [hr1] at h1 hx'
        cases h1
        simp only [List.getLast?_singleton, Option.some.injEq] at hx'
        exact hh.dst (hd.symm.trans hx'.symm)
      | cons b t => rw [hr1] at hj; cases hj

theorem Heading.step [Env] [LawfulDijkstra] (hr : Reach strict s) (hst : s.step dt = .ok s') (hv : s.getVehicle k = .ok v)
    (hv' : s'.getVehicle k = .ok v') (hh : Heading lk v) (hon : v'.linkId = some lk) (hshut : Shut lk s)
    (hpos : ∀ k l, s.getLinkRef k = .ok l → 0 < l.length) : Heading lk v' := by
  have hr' := Reach.exec (.step dt) hr trivial hst
  have hi' := hr'.inv.veh k v' (getVeh_ok.1 hv')
  obtain ⟨s1, s2, s3, s4, s5, s6, hsr⟩ := (step_spec hr.inv dt).ok hst
  obtain ⟨v1, v2, v4, ht⟩ := hsr.trace (getVeh_ok.1 hv)
  refine ⟨hon, ?_, ?_⟩
  · refine le_antisymm (not_lt.1 fun hlt => ?_) hi'.entered
    have hle := hi'.enteredLe
    have hj : v'.route[1]? = some (v'.route[1]'(by omega)) := List.getElem?_eq_getElem _
    rcases C25_exact_partial hr hpos (show s.exec (.step dt) = .ok s' from hst) hv' (i := 1) (by omega) hlt hj with
      ⟨w, i0, hw, h1, h2, -⟩ | ⟨lj, hlj, hne⟩
    · rw [hv] at hw; cases hw
      rw [hh.ent] at h2; omega
    · obtain ⟨l', hl', hm'⟩ := hi'.next hon hj
      obtain ⟨l0, hl0, e0⟩ := hsr.frame.bwd hl'
      exact hne (hshut l0 _ lj (getLink_ok.2 hl0) (by rw [← e0.linksOut]; exact hm') hlj)
  · have : v'.destination = v.destination := by
      have hd1 : v1.pathfind.dst = v.pathfind.dst := ht.steer.same.2.2.2.2
      have hd4 : v4.pathfind.dst = v1.pathfind.dst := by
        obtain ⟨a, w, ev2⟩ := ht.acc.same
        obtain ⟨q, e, lc, cnt, ev4, -⟩ := ht.move.eq
        rw [ev4, ev2]
      cases ht.out with
      | stays u hu hp _ =>
        rw [getVeh_ok.1 hv'] at hu; cases hu
        obtain ⟨p, d, r, c, rfl⟩ := hp
        exact hd4.trans hd1
      | passes v5 u hp hne hu hpl =>
        rw [getVeh_ok.1 hv'] at hu; cases hu
        obtain ⟨p, d, r, c, rfl⟩ := hpl
        obtain ⟨k', rest, l, pf, h1, -, -, rfl, -, hd⟩ := hp.ex
        dsimp only at hne
        obtain ⟨b, rest', rfl⟩ := List.exists_cons_of_ne_nil hne
        exact (hd b rfl).2.1.trans (hd4.trans hd1)
      | leaves _ _ _ hn => rw [getVeh_ok.1 hv'] at hn; cases hn
    rw [this]; exact hh.dst

/-- A step of at most `D` seconds while the links that follow `lk` are closed and `k` is the first vehicle before them. -/
def RedStep [Env] (k lk : Key) (D : ℝ) (s s' : Sim ℝ) : Prop :=
  ∃ dt, 0 ≤ dt ∧ dt ≤ D ∧ s.step dt = .ok s' ∧ Shut lk s ∧ First k lk s

theorem red_key [Env] [LawfulDijkstra] {D M : ℝ} {l : Link ℝ} {s0 : Sim ℝ} {v0 : Vehicle ℝ} (hs : Reach strict s0)
    (hre : ¬ s0.accUpdate < 0.1) (hv0 : s0.getVehicle k = .ok v0) (hh : Heading lk v0) (hl : s0.getLinkRef lk = .ok l) (hlc : l.laneChanges = [])
    (hpos : ∀ k l, s0.getLinkRef k = .ok l → 0 < l.length)
    (hlen : 0 ≤ v0.halfLen) (hc : Stopping v0.acc (D + 0.1)) (hadj : 0 < v0.acc.velAdj)
    (hlim : ∀ k l, s0.getLinkRef k = .ok l → 0 < l.speedLimit ∧ l.speedLimit ≤ M ∧ 4 * v0.acc.maxAcc * (D + 0.1) ≤ v0.acc.velAdj * l.speedLimit)
    (hvel : v0.vel ≤ v0.acc.velAdj * M)
    (hwide : (v0.acc.velAdj * M) ^ 2 + 2 * (v0.acc.maxAcc + 6) * (D + 0.1) * (v0.acc.velAdj * M) + (v0.acc.maxAcc + 3) ^ 2 * (D + 0.1) ^ 2 ≤
      60 * l.speedLimit)
    (hgap : v0.posFront ≤ l.length) (hstop : v0.vel = 0 ∨ v0.posFront + v0.vel ^ 2 / 12 + 3 / 4 * (D + 0.1) ^ 2 ≤ l.length)
    (hrun : Relation.ReflTransGen (RedStep k lk D) s0 s) :
    Reach strict s ∧ Frame s0.links s.links ∧ ∃ v, s.getVehicle k = .ok v ∧ v.posFront ≤ l.length ∧ Heading lk v ∧
      (∃ a, v.acc = { v0.acc with acc := a }) ∧ Moderate (D + 0.1) (v0.acc.velAdj * M) s v ∧
      Relation.ReflTransGen (LineStep k lk D (v0.acc.velAdj * M)) s0 s := by
  have hmax : 0 ≤ v0.acc.maxAcc := by have := hc.acc; norm_num at this; linarith
  induction hrun with
  | refl =>
    exact ⟨hs, frame_refl _, v0, hv0, hgap, hh, ⟨_, rfl⟩, ⟨hvel, fun h => absurd h hre⟩, .refl⟩
  | @tail s s' _ hst ih =>
    obtain ⟨hr, hfr, v, hv, -, hhv, ⟨a, ea⟩, hm, hlines⟩ := ih
    obtain ⟨dt, d0, d1, hst, hshut, hfirst⟩ := hst
    obtain ⟨s1, s2, s3, s4, s5, s6, hsr⟩ := (step_spec hr.inv dt).ok hst
    obtain ⟨ls, hls, els⟩ := hfr.fwd lk l (getLink_ok.1 hl)
    have hline := atLine hr hst hv hhv (getLink_ok.2 hls) (els.laneChanges.trans hlc)
      (fun _ j hj lj hlj => .inl (hshut _ j lj (getLink_ok.2 hls) hj hlj)) hfirst
    have hlines' := hlines.tail ⟨dt, d0, d1, hst, hline, fun w hw => by rw [hv] at hw; cases hw; exact hm.1⟩
    obtain ⟨v', hv', hon', hfront⟩ := C77_stops hs hre hv0 hh.on hl hlen hc hwide hgap hstop hlines'
    have hr' := Reach.exec (.step dt) hr trivial hst
    have hfr' : Frame s0.links s'.links := hfr.trans hsr.frame
    obtain ⟨-, -, -, ⟨a', p4⟩, -⟩ := step_speed hr hst hv hv'
    have hpos' : ∀ k' l', s.getLinkRef k' = .ok l' → 0 < l'.length := by
      intro k' l' hl'
      obtain ⟨l0, hl0, e0⟩ := hfr.bwd (getLink_ok.1 hl')
      have e : l'.length = l0.length := by unfold Link.length; rw [e0.curve]
      rw [e]; exact hpos k' l0 (getLink_ok.2 hl0)
    refine ⟨hr', hfr', v', hv', hfront, hhv.step hr hst hv hv' hon' hshut hpos', ⟨a', by rw [p4, ea]⟩, ?_, hlines'⟩
    · refine hm.step hr hst d0 (by linarith) hv hv' ⟨by rw [ea]; exact hmax, fun k' l' hl' => ?_⟩
      obtain ⟨l0, hl0, e0⟩ := hfr.bwd hl'
      obtain ⟨h1, h2, h3⟩ := hlim k' l0 (getLink_ok.2 hl0)
      rw [ea, e0.speedLimit]
      exact ⟨mul_pos hadj h1, mul_le_mul_of_nonneg_left h2 hadj.le, h3⟩

/-- **C81** In exact arithmetic: when accelerations are due, a vehicle that has its destination elsewhere stands, or would stop at least
`3/4 h²` metres before the end of its link if it braked fully.  Then it stays on this link, and its front does not pass the end, in all
following steps of at most `D` seconds in which all links that follow are closed and it is the first vehicle before them.
Here `h = D + 0.1`. -/
theorem C81_closed [Env] [LawfulDijkstra] {D M : ℝ} {l : Link ℝ} {s0 : Sim ℝ} {v0 : Vehicle ℝ} (hs : Reach strict s0)
    (hre : ¬ s0.accUpdate < 0.1) (hv0 : s0.getVehicle k = .ok v0) (hh : Heading lk v0) (hl : s0.getLinkRef lk = .ok l) (hlc : l.laneChanges = [])
    (hpos : ∀ k l, s0.getLinkRef k = .ok l → 0 < l.length)
    (hlen : 0 ≤ v0.halfLen) (hc : Stopping v0.acc (D + 0.1)) (hadj : 0 < v0.acc.velAdj)
    (hlim : ∀ k l, s0.getLinkRef k = .ok l → 0 < l.speedLimit ∧ l.speedLimit ≤ M ∧ 4 * v0.acc.maxAcc * (D + 0.1) ≤ v0.acc.velAdj * l.speedLimit)
    (hvel : v0.vel ≤ v0.acc.velAdj * M)
    (hwide : (v0.acc.velAdj * M) ^ 2 + 2 * (v0.acc.maxAcc + 6) * (D + 0.1) * (v0.acc.velAdj * M) + (v0.acc.maxAcc + 3) ^ 2 * (D + 0.1) ^ 2 ≤
      60 * l.speedLimit)
    (hgap : v0.posFront ≤ l.length) (hstop : v0.vel = 0 ∨ v0.posFront + v0.vel ^ 2 / 12 + 3 / 4 * (D + 0.1) ^ 2 ≤ l.length)
    (hrun : Relation.ReflTransGen (RedStep k lk D) s0 s) :
    ∃ v, s.getVehicle k = .ok v ∧ v.linkId = some lk ∧ v.posFront ≤ l.length ∧ v.entered = 1 := by
  obtain ⟨-, -, v, h1, h2, h3, -⟩ := red_key hs hre hv0 hh hl hlc hpos hlen hc hadj hlim hvel hwide hgap hstop hrun
  exact ⟨v, h1, h3.on, h2, h3.ent⟩

/-- Each link that follows `lk` is controlled by one movement of one light, which is not green. -/
def Red (lk : Key) (s : Sim ℝ) : Prop :=
  ∀ l j, s.getLinkRef lk = .ok l → j ∈ l.linksOut → ∃ light i tl m, s.Controls light i j ∧
    (∀ light' i', s.Controls light' i' j → light' = light ∧ i' = i) ∧ s.lights.get? light = some tl ∧ tl.movements[i]? = some m ∧ m.state ≠ .green

/-- After a step the links behind red lights are closed. -/
theorem Red.shut [Env] [LawfulDijkstra] (h : Reach strict s) (hst : s.step dt = .ok s') (hr : Red lk s') : Shut lk s' := by
  intro l j lj hl hj hlj
  obtain ⟨light, i, tl, m, h1, h2, h3, h4, h5⟩ := hr l j hl hj
  obtain ⟨tl', m', lj', g1, g2, g3, g4⟩ := C08_obeys h hst h1 h2
  rw [h3] at g1; cases g1
  rw [h4] at g2; cases g2
  rw [hlj] at g3; cases g3
  rw [g4, if_neg h5]

/-- A step of at most `D` seconds while the lights after `lk` are not green and `k` is the first vehicle before them. -/
def LightStep [Env] (k lk : Key) (D : ℝ) (s s' : Sim ℝ) : Prop :=
  ∃ dt, 0 ≤ dt ∧ dt ≤ D ∧ s.step dt = .ok s' ∧ Red lk s ∧ First k lk s

/-- **C81** In exact arithmetic, after any step, such a vehicle does not pass a light that is amber or red, however long this lasts. -/
theorem C81_red [Env] [LawfulDijkstra] {D M dt : ℝ} {l : Link ℝ} {sp s0 : Sim ℝ} {v0 : Vehicle ℝ} (hs : Reach strict sp) (hst : sp.step dt = .ok s0)
    (hre : ¬ s0.accUpdate < 0.1) (hv0 : s0.getVehicle k = .ok v0) (hh : Heading lk v0) (hl : s0.getLinkRef lk = .ok l) (hlc : l.laneChanges = [])
    (hpos : ∀ k l, s0.getLinkRef k = .ok l → 0 < l.length)
    (hlen : 0 ≤ v0.halfLen) (hc : Stopping v0.acc (D + 0.1)) (hadj : 0 < v0.acc.velAdj)
    (hlim : ∀ k l, s0.getLinkRef k = .ok l → 0 < l.speedLimit ∧ l.speedLimit ≤ M ∧ 4 * v0.acc.maxAcc * (D + 0.1) ≤ v0.acc.velAdj * l.speedLimit)
    (hvel : v0.vel ≤ v0.acc.velAdj * M)
    (hwide : (v0.acc.velAdj * M) ^ 2 + 2 * (v0.acc.maxAcc + 6) * (D + 0.1) * (v0.acc.velAdj * M) + (v0.acc.maxAcc + 3) ^ 2 * (D + 0.1) ^ 2 ≤
      60 * l.speedLimit)
    (hgap : v0.posFront ≤ l.length) (hstop : v0.vel = 0 ∨ v0.posFront + v0.vel ^ 2 / 12 + 3 / 4 * (D + 0.1) ^ 2 ≤ l.length)
    (hrun : Relation.ReflTransGen (LightStep k lk D) s0 s) :
    ∃ v, s.getVehicle k = .ok v ∧ v.linkId = some lk ∧ v.posFront ≤ l.length ∧ v.entered = 1 := by
  refine C81_closed (.exec (.step dt) hs trivial hst) hre hv0 hh hl hlc hpos hlen hc hadj hlim hvel hwide hgap hstop (s := s) (k := k) (lk := lk) ?_
  have key : Relation.ReflTransGen (RedStep k lk D) s0 s ∧ ∃ sp dt, Reach strict sp ∧ sp.step dt = .ok s := by
    induction hrun with
    | refl => exact ⟨.refl, sp, dt, hs, hst⟩
    | tail _ h ih =>
      obtain ⟨h1, sp', dt', hs', hst'⟩ := ih
      obtain ⟨d, d0, d1, hd, hred, hf⟩ := h
      exact ⟨h1.tail ⟨d, d0, d1, hd, hred.shut hs' hst', hf⟩, _, d, .exec (.step dt') hs' trivial hst', hd⟩
  exact key.1

end

namespace Trip

/-- The only light, which controls the second link, stays red. -/
structure Lit (s : Sim ℝ) (j : Key) : Prop where
  ex : ∃ tl m, s.lights.get? j = some tl ∧ tl.links = [(0, ⟨1, 1⟩)] ∧ tl.phases = [⟨0, 10⟩] ∧ tl.phase = 0 ∧ tl.movements = [m] ∧ m.state = .red
  only : ∀ c tl, s.lights.get? c = some tl → c = j

theorem Lit.step [Env] [LawfulDijkstra] {s s' : Sim ℝ} {j : Key} {dt : ℝ} (h : Lit s j) (hs : Reach True s) (hst : s.step dt = .ok s') : Lit s' j := by
  obtain ⟨tl, m, h1, h2, h3, h4, h5, h6⟩ := h.ex
  obtain ⟨tl', h1', hstep⟩ := (C08_lights hs hst).fwd j tl h1
  obtain ⟨ms, lk, ph, p⟩ := tl
  dsimp only at h2 h3 h4 h5
  subst h2 h3 h4 h5
  refine ⟨?_, fun c tl hc => ?_⟩
  · simp [TrafficLight.step, TrafficLight.updatePhase, TrafficLight.phaseComplete, TrafficLight.applyPhase, TrafficLight.applyMask, maskBit,
      TrafficLight.computeNext, TrafficLight.nextOf, TrafficLight.stepMovement, h6, bind, Except.bind, pure, Except.pure] at hstep
    subst hstep
    exact ⟨_, _, h1', rfl, rfl, rfl, rfl, rfl⟩
  · obtain ⟨tl0, h0, -⟩ := (C08_lights hs hst).bwd hc
    exact h.only c tl0 h0

theorem Lit.red {s : Sim ℝ} {j : Key} (h : Lit s j) (hl : Lane s ⟨0, 1⟩ [⟨1, 1⟩]) : Red ⟨0, 1⟩ s := by
  obtain ⟨tl, m, h1, h2, h3, h4, h5, h6⟩ := h.ex
  obtain ⟨l, g1, g2, -⟩ := hl.ex
  intro l' c hl' hc
  rw [getLink_ok.1 hl'] at g1; cases g1
  rw [g2, List.mem_singleton] at hc
  subst hc
  refine ⟨j, 0, tl, m, ⟨tl, h1, by rw [h2]; simp⟩, ?_, h1, by rw [h5]; rfl, by rw [h6]; decide⟩
  rintro light i ⟨tl', h', hm⟩
  have := h.only light tl' h'
  subst this
  rw [h1] at h'; cases h'
  rw [h2] at hm
  simp at hm
  exact ⟨rfl, hm⟩

/-- The first vehicle is the only one. -/
theorem first [Env] [LawfulDijkstra] {strict : Prop} {s s' : Sim ℝ} {k lk : Key} {v : Vehicle ℝ} {dt : ℝ} (hs : Reach strict s) (hst : s.step dt = .ok s') (hv : s.getVehicle k = .ok v)
    (only : ∀ c w, s.vehicles.get? c = some w → c = k) (hlk : s.links.contains lk = true)
    (hon : ∀ s1 v1, s.calculateLaneChanges = .ok s1 → s1.getVehicle k = .ok v1 → v1.linkId = some lk) : First k lk s := by
  obtain ⟨s1, s2, s3, s4, s5, s6, hr⟩ := (step_spec hs.inv dt).ok hst
  obtain ⟨v1, v2, v4, ht⟩ := hr.trace (getVeh_ok.1 hv)
  obtain ⟨l, hl⟩ := Option.isSome_iff_exists.1 hlk
  obtain ⟨l1, hl1, -⟩ := hr.frame1.fwd lk l hl
  refine ⟨s1, l1, hr.run1, getLink_ok.2 hl1, ?_⟩
  obtain ⟨h1, h2⟩ := hr.inv1.mem lk l1 hl1
  have hk : k ∈ l1.vehicles := (h2 k).2 ⟨v1, ht.get1, hon s1 v1 hr.run1 (getVeh_ok.2 ht.get1)⟩
  obtain ⟨ys, a, e⟩ : ∃ ys a, l1.vehicles = ys ++ [a] := by
    rcases List.eq_nil_or_concat l1.vehicles with e | ⟨ys, a, e⟩
    · rw [e] at hk; cases hk
    · exact ⟨ys, a, by simpa using e⟩
  obtain ⟨w, hw, -⟩ := (h2 a).1 (by rw [e]; simp)
  obtain ⟨u, hu, -⟩ := hr.vehs1.bwd hw
  rw [e, List.getLast?_concat, only a u hu]

end Trip

open Trip in
/-- Instances of `C81_closed` and `C81_red`: a vehicle is sent from the first to the second link, before which a light is red. -/
example : ∃ (_ : Env) (_ : LawfulDijkstra) (sp s0 s : Sim ℝ) (k lk : Key) (v0 : Vehicle ℝ) (l : Link ℝ), Reach True sp ∧ sp.step 0.1 = .ok s0 ∧
    ¬ s0.accUpdate < 0.1 ∧ s0.getVehicle k = .ok v0 ∧ Heading lk v0 ∧ v0.route = [lk, ⟨1, 1⟩] ∧ s0.getLinkRef lk = .ok l ∧ l.laneChanges = [] ∧
    (∀ k l, s0.getLinkRef k = .ok l → 0 < l.length) ∧ 0 ≤ v0.halfLen ∧ Stopping v0.acc (0.1 + 0.1) ∧ 0 < v0.acc.velAdj ∧
    (∀ k l, s0.getLinkRef k = .ok l → 0 < l.speedLimit ∧ l.speedLimit ≤ 10 ∧ 4 * v0.acc.maxAcc * (0.1 + 0.1) ≤ v0.acc.velAdj * l.speedLimit) ∧
    v0.vel ≤ v0.acc.velAdj * 10 ∧
    (v0.acc.velAdj * 10) ^ 2 + 2 * (v0.acc.maxAcc + 6) * (0.1 + 0.1) * (v0.acc.velAdj * 10) + (v0.acc.maxAcc + 3) ^ 2 * (0.1 + 0.1) ^ 2 ≤ 60 * l.speedLimit ∧
    v0.posFront ≤ l.length ∧ v0.posFront + v0.vel ^ 2 / 12 + 3 / 4 * (0.1 + 0.1) ^ 2 ≤ l.length ∧ LightStep k lk 0.1 s0 s ∧ RedStep k lk 0.1 s0 s := by
  obtain ⟨N, s0, ⟨z1, z2, z3, v0, hb, p0, q0⟩, hp, hn, h⟩ :=
    @program_runs (Lone.env 0) (Lone.lawful 0) _ (Search.full_ends _) _ (leads (.inl rfl))
  have law : ∀ n, @LawfulDijkstra (@Env.withFuel (Lone.env 0) n) := fun n => @LawfulDijkstra.withFuel (Lone.env 0) (Lone.lawful 0) n
  have hl0 : s0.links.contains ⟨1, 1⟩ = true := by
    obtain ⟨l, hl, -⟩ := hb.lb.ex
    rw [SlotMap.contains, hl]; rfl
  obtain ⟨N1, s1, hN1, h1, hp1, hn1⟩ := @call (Lone.env 0) (Lone.lawful 0) (Search.full_ends _) s0 N (fun n hn => (h n hn).1) hp hn
    (.setVehicleDestination ⟨0, 1⟩ ⟨1, 1⟩) trivial ⟨by rw [SlotMap.contains, getVeh_ok.1 hb.gv]; rfl, .inr hl0⟩
  obtain ⟨pf, hsent⟩ := @Road.sent (@Env.withFuel (Lone.env 0) N1) (law N1) _ _ _ _ _ hb (h N1 hN1).1 (h1 N1 le_rfl).1
  obtain ⟨m1, m2, m3, m4⟩ : s1.links = s0.links ∧ s1.lights = s0.lights ∧ s1.accUpdate = s0.accUpdate ∧ s1.lcUpdate = s0.lcUpdate := by
    rw [hsent.eq]; exact ⟨rfl, rfl, rfl, rfl⟩
  obtain ⟨tl, etl⟩ : ∃ tl : TrafficLight ℝ, tl = (TrafficLight.new.addMovement 0 3 2 [⟨1, 1⟩]).addPhase 0 10 := ⟨_, rfl⟩
  have htl : LightOK True s1.links tl := by
    refine ⟨⟨_, by rw [etl]; exact .addPhase 0 10 (.addMovement 0 3 2 [⟨1, 1⟩] .new)⟩, ?_, fun _ => by rw [etl]; simp [TrafficLight.addPhase], fun _ => ?_⟩
    · rw [etl, m1]
      intro p hp
      simp [TrafficLight.addPhase, TrafficLight.addMovement, TrafficLight.new] at hp
      subst hp; exact hl0
    · rw [etl]; simp [TrafficLight.addPhase, TrafficLight.addMovement, TrafficLight.new]
  obtain ⟨N2, s2, hN2, h2, hp2, hn2⟩ := @call (Lone.env 0) (Lone.lawful 0) (Search.full_ends _) s1 N1 (fun n hn => (h1 n hn).2) hp1 hn1
    (.addTrafficLight tl) htl (by show s1.lights.HasRoom; rw [m2, z3]; exact .inr (by simp [SlotMap.empty, u32Max]))
  obtain ⟨N3, s3, hN3, h3, hp3, hn3⟩ := @call (Lone.env 0) (Lone.lawful 0) (Search.full_ends _) s2 N2 (fun n hn => (h2 n hn).2) hp2 hn2
    (.step 0.5) trivial trivial
  obtain ⟨N4, s4, hN4, h4, hp4, hn4⟩ := @call (Lone.env 0) (Lone.lawful 0) (Search.full_ends _) s3 N3 (fun n hn => (h3 n hn).2) hp3 hn3
    (.step 0.1) trivial trivial
  obtain ⟨N5, s5, hN5, h5, -, -⟩ := @call (Lone.env 0) (Lone.lawful 0) (Search.full_ends _) s4 N4 (fun n hn => (h4 n hn).2) hp4 hn4
    (.step 0.1) trivial trivial
  let env : Env := @Env.withFuel (Lone.env 0) N5
  have hlaw : LawfulDijkstra := law N5
  obtain ⟨r0, k0⟩ : Reach True s0 ∧ (build ⟨0, 1⟩).foldlM Sim.exec .new = .ok s0 := h N5 (by omega)
  obtain ⟨k1, r1⟩ : s0.setVehicleDestination ⟨0, 1⟩ ⟨1, 1⟩ = .ok s1 ∧ Reach True s1 := h1 N5 (by omega)
  obtain ⟨k2, r2⟩ : s1.exec (.addTrafficLight tl) = .ok s2 ∧ Reach True s2 := h2 N5 (by omega)
  obtain ⟨k3, r3⟩ : s2.step 0.5 = .ok s3 ∧ Reach True s3 := h3 N5 (by omega)
  obtain ⟨k4, r4⟩ : s3.step 0.1 = .ok s4 ∧ Reach True s4 := h4 N5 (by omega)
  obtain ⟨k5, r5⟩ : s4.step 0.1 = .ok s5 ∧ Reach True s5 := h5 N5 (by omega)
  have by4 : ReachBy True (Within 0.5 2 10 10 1 1) s4 :=
    .exec (.step 0.1) (.exec (.step 0.5) (.exec (.addTrafficLight tl) (.exec (.setVehicleDestination ⟨0, 1⟩ ⟨1, 1⟩) (within k0) trivial trivial k1)
      htl trivial k2) trivial ⟨by norm_num, le_rfl⟩ k3) trivial ⟨by norm_num, by norm_num⟩ k4
  simp only [Sim.exec, M_bind_ok, M_pure_ok] at k2
  obtain ⟨⟨s2', j⟩, k2, e2⟩ := k2
  dsimp only at e2; subst e2
  have hadd := addTrafficLight_ok r1.inv.lwf k2
  have lit2 : Lit s2' j := by
    refine ⟨?_, fun c tl' hc => ?_⟩
    · have := hadd.light j
      rw [if_pos rfl, etl] at this
      exact ⟨_, _, this, rfl, rfl, rfl, rfl, rfl⟩
    · rw [hadd.light] at hc
      split at hc
      · assumption
      · rw [m2, z3] at hc; cases hc
  obtain ⟨n1, n2, n3, n4⟩ : s2'.links = s1.links ∧ s2'.vehicles = s1.vehicles ∧ s2'.accUpdate = s1.accUpdate ∧ s2'.lcUpdate = s1.lcUpdate := by
    rw [hadd.eq]; exact ⟨rfl, rfl, rfl, rfl⟩
  have gv2 : s2'.getVehicle ⟨0, 1⟩ = .ok { v0 with pathfind := pf, canExit := false } := by
    rw [← hsent.gv]; unfold Sim.getVehicle; rw [n2]
  have hlink : v0.linkId = some ⟨0, 1⟩ := by rw [Vehicle.linkId, hb.route]; rfl
  obtain ⟨c1, -, -, c4⟩ := hb.way.1.sent r0 k1 hb.gv hsent.gv hb.lc (by rw [hlink]; rfl) rfl
  obtain ⟨x, ex⟩ := hb.acc
  have A2 : Lane s2' ⟨0, 1⟩ [⟨1, 1⟩] := ⟨by rw [n1, m1]; exact hb.la.ex⟩
  obtain ⟨la, hla, -, a2, a3, a4, -⟩ := A2.ex
  obtain ⟨-, v3, d1, d2, d3, d4, d5, ⟨y, d6⟩, d7, d8, d9, d10⟩ := Relay.veh r2 k3 (by norm_num) gv2 hlink (getLink_ok.2 hla) hb.lc
    (fun p hp => by rw [(c1.paths p hp).1]; rfl) (by show 0 ≤ v0.acc.maxAcc; rw [ex]; norm_num)
    (by show v0.pos + (v0.vel + v0.acc.maxAcc * 0.5) * 0.5 ≤ _; rw [ex, p0, q0]; norm_num; linarith)
  replace d3 : v3.pathfind = pf := d3
  replace d5 : v3.halfLen = v0.halfLen := d5
  replace d6 : v3.acc = { v0.acc with acc := y } := d6
  replace d7 : v3.vel ≤ v0.vel + v0.acc.maxAcc * 0.5 := d7
  replace d8 : v0.pos ≤ v3.pos := d8
  replace d9 : v3.pos ≤ v0.pos + (v0.vel + v0.acc.maxAcc * 0.5) * 0.5 := d9
  rw [ex, q0] at d7; rw [ex, p0, q0] at d9; rw [ex] at d6
  norm_num at d7 d9
  have hclk2 := clocks r2 k3
  rw [n3, m3, z1, n4, m4, z2] at hclk2
  obtain ⟨t1, t2⟩ := hclk2
  norm_num at t1 t2
  have hroute3 : v3.route = [⟨0, 1⟩] := by
    rcases d10 with ⟨e, -⟩ | ⟨e, -⟩
    · rw [e]; exact hb.route
    · exact absurd (by rw [n4, m4, z2]; norm_num) e
  have hhead3 : Heading ⟨0, 1⟩ v3 := by
    have hi := r3.inv.veh _ _ (getVeh_ok.1 d1)
    refine ⟨d2, le_antisymm (by have := hi.enteredLe; rw [hroute3] at this; exact this) hi.entered, ?_⟩
    have : v3.destination = ⟨1, 1⟩ := by
      unfold Vehicle.destination; rw [d3]; exact c4
    rw [this]; decide
  have lit3 := lit2.step r2 k3
  have lit4 := lit3.step r3 k4
  obtain ⟨_, _, _, _, _, _, hr2⟩ := (step_spec r2.inv 0.5).ok k3
  obtain ⟨_, _, _, _, _, _, hr3⟩ := (step_spec r3.inv 0.1).ok k4
  have lanes : ∀ {t : Sim ℝ}, Frame s2'.links t.links → ∀ light, Lit t light → Red ⟨0, 1⟩ t := by
    intro t hf light hlit l c hl hc
    obtain ⟨l0, hl0, e0⟩ := hf.bwd (getLink_ok.1 hl)
    have hred : Red ⟨0, 1⟩ { t with links := s2'.links } := Lit.red (j := light) ⟨hlit.ex, hlit.only⟩ ⟨A2.ex⟩
    exact hred l0 c (getLink_ok.2 hl0) (by rw [← e0.linksOut]; exact hc)
  have red3 := lanes hr2.frame j lit3
  have red4 := lanes (hr2.frame.trans hr3.frame) j lit4
  obtain ⟨l3, hl3, e3⟩ := hr2.frame.fwd _ _ hla
  obtain ⟨l4, hl4, e4⟩ := hr3.frame.fwd _ _ hl3
  have len3 : l3.length = la.length := by unfold Link.length; rw [e3.curve]
  have len4 : l4.length = l3.length := by unfold Link.length; rw [e4.curve]
  obtain ⟨-, v4, f1, f2, f3, f4, f5, ⟨y', f6⟩, f7, f8, f9, f10⟩ := Relay.veh r3 k4 (by norm_num) d1 d2 (getLink_ok.2 hl3) d4
    (fun p hp => by rw [d3] at hp; rw [(c1.paths p hp).1]; rfl) (by rw [d6]; norm_num) (by rw [d6, len3]; norm_num; linarith)
  rw [d6] at f6 f7 f9
  norm_num at f6 f7 f9
  have hroute4 : v4.route = [⟨0, 1⟩, ⟨1, 1⟩] := by
    rcases f10 with ⟨e, h | h⟩ | ⟨-, p, hp, e⟩
    · exact absurd h (by rw [t2]; norm_num)
    · rw [d3] at h; exact absurd h c1.any
    · rw [e]; rw [d3] at hp; exact (c1.paths p hp).1
  have hpos : ∀ {t : Sim ℝ}, PosNet t.links → ∀ k l, t.getLinkRef k = .ok l → 0 < l.length := fun hp k l hl => hp.1 k l (getLink_ok.1 hl)
  have hhead4 := hhead3.step r3 k4 d1 f1 f2 (red3.shut r2 k3) (hpos hp3)
  have only4 : ∀ c w, s4.vehicles.get? c = some w → c = ⟨0, 1⟩ := by
    intro c w hw
    obtain ⟨u, hu⟩ := hr3.back hw
    obtain ⟨u', hu'⟩ := hr2.back hu
    rw [n2] at hu'
    exact hsent.only c u' hu'
  obtain ⟨g1, -⟩ := Relay.veh r4 k5 (by norm_num) f1 f2 (getLink_ok.2 hl4) f4
    (fun p hp => by rw [f3, d3] at hp; rw [(c1.paths p hp).1]; rfl) (by rw [f6]; norm_num) (by rw [f6, len4, len3]; norm_num; linarith)
  have hfirst : First ⟨0, 1⟩ ⟨0, 1⟩ s4 := first r4 k5 f1 only4 (by rw [SlotMap.contains, hl4]; rfl) g1
  have hclk3 := (clocks r3 k4).1
  rw [t1] at hclk3
  norm_num at hclk3
  have v40 := C20_speed r4 f1
  have hsq : v4.vel ^ 2 ≤ 2 ^ 2 := pow_le_pow_left₀ v40 (by linarith) 2
  refine ⟨env, hlaw, s3, s4, s5, ⟨0, 1⟩, ⟨0, 1⟩, v4, l4, r3, k4, by rw [hclk3]; norm_num, f1, hhead4, hroute4, getLink_ok.2 hl4,
    by rw [e4.laneChanges, e3.laneChanges]; exact a2, hpos hp4, by rw [f5, d5, hb.half]; norm_num, by rw [f6]; exact stopping rfl y', by rw [f6]; norm_num,
    fun c l hl => ?_, by rw [f6]; norm_num; linarith, by rw [f6, e4.speedLimit, e3.speedLimit, a3]; norm_num, ?_, ?_,
    ⟨0.1, by norm_num, le_rfl, k5, red4, hfirst⟩, ⟨0.1, by norm_num, le_rfl, k5, red4.shut r3 k4, hfirst⟩⟩
  · obtain ⟨l1, l2⟩ := by4.limits c l (getLink_ok.1 hl)
    rw [f6]
    refine ⟨by linarith, l2, ?_⟩
    norm_num; linarith
  · rw [Vehicle.posFront, f5, d5, hb.half, len4, len3]; linarith
  · rw [Vehicle.posFront, f5, d5, hb.half, len4, len3]; norm_num at hsq ⊢; linarith

end TrafficSim
