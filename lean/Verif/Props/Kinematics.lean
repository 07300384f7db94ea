import Verif.Lemmas.Cap
import Verif.Lemmas.Lone
import Verif.Props.Dynamics
import Verif.Props.Handles

/-! # C13, C20, C21, C22, C61: speeds and accelerations in reachable simulations, in exact arithmetic -/

namespace TrafficSim

section
variable {strict : Prop} {s s' : Sim ℝ} {dt : ℝ}

/-! ## C13 -/

/-- **C13** (speed) When accelerations are recomputed (C57), a frozen vehicle loses 6 m/s per second, until
its speed is zero, whatever the surrounding traffic. -/
theorem C13_speed [Env] [LawfulDijkstra] (h : Reach strict s) (hst : s.step dt = .ok s') (hre : ¬ s.accUpdate < 0.1)
    {k : Key} {v v' : Vehicle ℝ} (hf : s.getVehicleFrozen k = true) (hv : s.getVehicle k = .ok v)
    (hv' : s'.getVehicle k = .ok v') : v'.vel = max (v.vel - 6 * dt) 0 := by
  have e := C13_brakes h hst hre hf hv hv'
  rw [e]
  simp only [fmax]
  norm_num
  ring_nf

example : ∃ (_ : Env) (_ : LawfulDijkstra) (s s' : Sim ℝ) (v v' : Vehicle ℝ), Reach True s ∧ s.step 0.05 = .ok s' ∧
    ¬ s.accUpdate < 0.1 ∧ s.getVehicleFrozen ⟨0, 1⟩ = true ∧ s.getVehicle ⟨0, 1⟩ = .ok v ∧ s'.getVehicle ⟨0, 1⟩ = .ok v' ∧
    v.vel = 0.4 := by
  obtain ⟨n, s0, s1, s2, v0, v1, v2, h1, h2, h3, h4, h5, h6, h7, -, h8, h9, -, -, -, -, -, h10, -⟩ := Lone.run true 0.2 (by norm_num) (by norm_num)
  exact ⟨Lone.env n, Lone.lawful n, s1, s2, v1, v2, h3, h4, by rw [h8]; norm_num, h9, h6, h7, by rw [h10]; norm_num⟩

/-- **C13** (rest) When accelerations are recomputed, a frozen vehicle that is stopped before the end of
its link and is not moved to another lane keeps its link, position and speed. -/
theorem C13_stays [Env] [LawfulDijkstra] (h : Reach strict s) (hst : s.step dt = .ok s') (hdt : 0 ≤ dt)
    (hre : ¬ s.accUpdate < 0.1) {k lk : Key} {l : Link ℝ} {v v1 : Vehicle ℝ} {s1 : Sim ℝ}
    (hf : s.getVehicleFrozen k = true) (hv : s.getVehicle k = .ok v)
    (hlanes : s.calculateLaneChanges = .ok s1) (hv1 : s1.getVehicle k = .ok v1) (hlane : v1.linkId = v.linkId)
    (hlk : v.linkId = some lk) (hl : s.getLinkRef lk = .ok l) (hpos : v.pos ≤ l.length) (hvel : v.vel = 0) :
    ∃ v', s'.getVehicle k = .ok v' ∧ v'.linkId = some lk ∧ v'.pos = v.pos ∧ v'.vel = 0 := by
  obtain ⟨s1', s2, s3, s4, s5, s6, hr⟩ := (step_spec h.inv dt).ok hst
  rw [hr.run1] at hlanes; cases hlanes
  obtain ⟨v1', v2, v4, ht⟩ := hr.trace (getVeh_ok.1 hv)
  have g1 := ht.get1
  rw [getVeh_ok.1 hv1] at g1; cases g1
  obtain ⟨e1, e2, -⟩ := ht.steer.same
  obtain ⟨e3, -⟩ := ht.steer.stay hlane
  have ef : s1.frozen = s.frozen ∧ s1.accUpdate = s.accUpdate := by
    rcases hr.lanes with ⟨-, e⟩ | ⟨-, vs, lcs, e⟩
    · rw [e]; exact ⟨rfl, rfl⟩
    · rw [e.eq]; exact ⟨rfl, rfl⟩
  obtain ⟨a, w, ev2, ha⟩ : ∃ a w, v2 = { v1 with acc := { v1.acc with acc := a }, willQueueOrEnter := w } ∧ a = -6 := by
    rcases ht.acc with ⟨hlt, -⟩ | ⟨-, n0, n1, vs, -, ha⟩
    · rw [ef.2] at hlt; exact absurd hlt hre
    · obtain ⟨a, w, ev2, -, hz, -⟩ := ha.eq
      have : a = maxDecel := hz (by rw [ef.1]; simpa [Sim.getVehicleFrozen] using hf)
      exact ⟨a, w, ev2, by rw [this]; simp only [maxDecel]; norm_num⟩
  obtain ⟨q, e, lc, cnt, ev4, -⟩ := ht.move.eq
  have hv4 : v4.vel = 0 ∧ v4.pos = v.pos ∧ v4.route = v1.route := by
    have hvel2 : fmax (v2.vel + dt * v2.acc.getAcc) (0.0 : ℝ) = 0 := by
      have : v2.vel = 0 := by rw [ev2]; dsimp only; rw [e1, hvel]
      rw [this, ev2]
      simp only [AccelerationModel.getAcc, fmax, maxDecel, ha]
      norm_num
      linarith
    rw [hvel2] at ev4
    rw [ev4]
    refine ⟨rfl, ?_, by rw [ev2]⟩
    show v2.pos + 0.5 * (v2.vel + 0) * dt = v.pos
    rw [ev2]; dsimp only; rw [e1, hvel, e3]; ring
  have hl4 : ∀ a l', v4.route.head? = some a → s4.links.get? a = some l' → ¬ l'.length < v4.pos := by
    intro a l' ha hl'
    rw [hv4.2.2] at ha
    have : v1.linkId = some a := ha
    rw [hlane, hlk] at this; cases this
    obtain ⟨l0, h0, hfr⟩ := hr.frame4.bwd hl'
    rw [getLink_ok.1 hl] at h0; cases h0
    have : l'.length = l.length := by unfold Link.length; rw [hfr.curve]
    rw [this, hv4.2.1]; exact not_lt.2 hpos
  cases ht.out with
  | stays u hu hp _ =>
    obtain ⟨p, d, r, c, rfl⟩ := hp
    exact ⟨_, getVeh_ok.2 hu, by show v4.route.head? = _; rw [hv4.2.2]; exact hlane.trans hlk, hv4.2.1, hv4.1⟩
  | passes v5 u hp _ _ _ =>
    obtain ⟨a, rest, l', pf, ha, hl', hlt, -⟩ := hp.ex
    exact absurd hlt (hl4 a l' (by rw [ha]; rfl) hl')
  | leaves v5 hp _ _ =>
    obtain ⟨a, rest, l', pf, ha, hl', hlt, -⟩ := hp.ex
    exact absurd hlt (hl4 a l' (by rw [ha]; rfl) hl')

/-- A frozen vehicle can come to rest. -/
theorem Lone.rest_alone : ∃ n, ∃ s s' s1 : Sim ℝ, ∃ v l, @Reach ℝ _ (env n) True s ∧ @Sim.step ℝ _ (env n) s 0.05 = .ok s' ∧
    ¬ s.accUpdate < 0.1 ∧ s.getVehicleFrozen ⟨0, 1⟩ = true ∧ s.getVehicle ⟨0, 1⟩ = .ok v ∧
    @Sim.calculateLaneChanges ℝ _ (env n) s = .ok s1 ∧ s1.getVehicle ⟨0, 1⟩ = .ok v ∧ v.linkId = some ⟨0, 1⟩ ∧
    s.getLinkRef ⟨0, 1⟩ = .ok l ∧ v.pos ≤ l.length ∧ v.vel = 0 ∧ IsVeh v ∧
    (∀ k w, s1.getVehicle k = .ok w → k = ⟨0, 1⟩ ∧ w = v) ∧
    ∃ fr m sq t u, s = sim l v fr m sq t u ∧ IsLink l ∧ v.pos + 1 ≤ l.length := by
  obtain ⟨n, l, v, r0, hl, hv, ⟨hlen, -⟩, hp, hu, ha⟩ := start
  let := env n
  have := lawful n
  have r1 := Reach.exec (strict := True) (.setVehicleFrozen ⟨0, 1⟩ true) r0 trivial rfl
  have e1 : (sim l v [] 0 0 0.0 0.0).setVehicleFrozen ⟨0, 1⟩ true = sim l v [⟨0, 1⟩] 0 0 0.0 0.0 := rfl
  rw [e1] at r1
  obtain ⟨l1, v1, fr1, t1, u1, h1, hl1, hv1, hc1, b1, c1, -, d1⟩ := step (n := n) (fr := [⟨0, 1⟩]) (m := 0) (sq := 0) (t := 0.0) (u := 0.0)
    (dt := 0.2) hl hv (by norm_num) (by rw [hp, hu]; norm_num; linarith)
  obtain ⟨f1, g1, i1⟩ := d1 (by norm_num)
  rw [hu, ha] at i1
  have hvel : v1.vel = 0.4 := by rw [i1]; norm_num
  have r2 := Reach.exec (strict := True) (.step 0.2) r1 trivial h1
  have elen1 : l1.length = l.length := by unfold Link.length; rw [hc1]
  rw [hp, hu] at c1
  obtain ⟨l2, v2, fr2, t2, u2, h2, hl2, hv2, hc2, b2, c2, -⟩ := step (n := n) (fr := fr1) (m := 0 + 1) (sq := 0) (t := t1) (u := u1)
    (dt := 0.1) hl1 hv1 (by norm_num) (by rw [elen1, hvel]; norm_num at c1 ⊢; linarith)
  have r3 := Reach.exec (strict := True) (.step 0.1) r2 trivial h2
  have hfr : (sim l1 v1 fr1 (0 + 1) 0 t1 u1).getVehicleFrozen ⟨0, 1⟩ = true := by
    show List.contains fr1 _ = true; rw [f1]; rfl
  have hacc : (sim l1 v1 fr1 (0 + 1) 0 t1 u1).accUpdate = 0.2 := by show t1 = 0.2; rw [g1]; norm_num
  have hv20 : v2.vel = 0 := by
    rw [C13_speed r2 h2 (by rw [hacc]; norm_num) hfr (v := v1) (v' := v2) rfl rfl, hvel]; norm_num
  have elen2 : l2.length = l1.length := by unfold Link.length; rw [hc2]
  rw [hvel] at c2
  obtain ⟨l3, v3, fr3, t3, u3, h3, -⟩ := step (n := n) (fr := fr2) (m := 0 + 1 + 1) (sq := 0) (t := t2) (u := u2)
    (dt := 0.05) hl2 hv2 (by norm_num) (by rw [elen2, elen1, hv20]; norm_num at c1 c2 ⊢; linarith)
  obtain ⟨s1, s2, s3, s4, s5, s6, hr⟩ := (step_spec r2.inv 0.1).ok h2
  have hclk := hr.clocks.2.1
  rw [hacc, if_neg (by simp only [accelerationUpdateSec]; norm_num)] at hclk
  obtain ⟨u', hlanes⟩ := lanes (n := n) (l := l2) (fr := fr2) (m := 0 + 1 + 1) (sq := 0) (t := t2) (u := u2) hv2
  refine ⟨n, _, _, _, v2, l2, r3, h3, by rw [hclk]; norm_num, ?_, rfl, hlanes, rfl, ?_, rfl, ?_, hv20, hv2, fun k w hw => ?_, _, _, _, _, _, rfl, hl2, ?_⟩
  · rw [C12_step r2 h2 (k := ⟨0, 1⟩) (v := v2) rfl]; exact hfr
  · show v2.route.head? = _; rw [hv2.route]; rfl
  · rw [elen2, elen1]; norm_num at c1 c2; linarith
  · have hk : k ∈ (one v2).keys := SlotMap.mem_keys.2 ⟨w, getVeh_ok.1 hw⟩
    rw [keys_one, List.mem_singleton] at hk
    subst hk
    have : (one v2).get? ⟨0, 1⟩ = some w := getVeh_ok.1 hw
    rw [get_one] at this
    exact ⟨rfl, (Option.some.inj this).symm⟩
  · rw [elen2, elen1]; norm_num at c1 c2; linarith

/-- A frozen vehicle can come to rest. -/
theorem Lone.rest : ∃ n, ∃ s s' s1 : Sim ℝ, ∃ v l, @Reach ℝ _ (env n) True s ∧ @Sim.step ℝ _ (env n) s 0.05 = .ok s' ∧
    ¬ s.accUpdate < 0.1 ∧ s.getVehicleFrozen ⟨0, 1⟩ = true ∧ s.getVehicle ⟨0, 1⟩ = .ok v ∧
    @Sim.calculateLaneChanges ℝ _ (env n) s = .ok s1 ∧ s1.getVehicle ⟨0, 1⟩ = .ok v ∧ v.linkId = some ⟨0, 1⟩ ∧
    s.getLinkRef ⟨0, 1⟩ = .ok l ∧ v.pos ≤ l.length ∧ v.vel = 0 := by
  obtain ⟨n, s, s', s1, v, l, h1, h2, h3, h4, h5, h6, h7, h8, h9, h10, h11, -⟩ := rest_alone
  exact ⟨n, s, s', s1, v, l, h1, h2, h3, h4, h5, h6, h7, h8, h9, h10, h11⟩

example : ∃ (_ : Env) (_ : LawfulDijkstra) (s s' s1 : Sim ℝ) (v : Vehicle ℝ) (l : Link ℝ), Reach True s ∧
    s.step 0.05 = .ok s' ∧ ¬ s.accUpdate < 0.1 ∧ s.getVehicleFrozen ⟨0, 1⟩ = true ∧ s.getVehicle ⟨0, 1⟩ = .ok v ∧
    s.calculateLaneChanges = .ok s1 ∧ s1.getVehicle ⟨0, 1⟩ = .ok v ∧ v.linkId = some ⟨0, 1⟩ ∧
    s.getLinkRef ⟨0, 1⟩ = .ok l ∧ v.pos ≤ l.length ∧ v.vel = 0 := by
  obtain ⟨n, s, s', s1, v, l, h⟩ := Lone.rest
  exact ⟨Lone.env n, Lone.lawful n, s, s', s1, v, l, h⟩

/-! ## C20 -/

/-- **C20** (speed) In every reachable simulation no vehicle has a negative speed. -/
theorem C20_speed [Env] [LawfulDijkstra] (h : Reach strict s) {k : Key} {v : Vehicle ℝ} (hv : s.getVehicle k = .ok v) :
    0 ≤ v.vel := by
  refine Reach.kinematics (fun vel _ => 0 ≤ vel) ?_ ?_ ?_ h k v (getVeh_ok.1 hv)
  · intro _; norm_num
  · intro _ _ _ h; exact h
  · intro vel m a dt _ _
    simp only [fmax]
    exact le_max_of_le_right (by norm_num)

/-- **C20** (speed, binary64) In floating point arithmetic, too, no speed is ever below zero. -/
theorem C20_speed_float [Env] [LawfulDijkstra] {s : Sim Float} (h : Reach strict s) {k : Key} {v : Vehicle Float}
    (hv : s.getVehicle k = .ok v) : ¬ v.vel < 0.0 := by
  refine Reach.kinematics (fun vel _ => ¬ vel < 0.0) ?_ ?_ ?_ h k v (getVeh_ok.1 hv)
  · intro _; decide +kernel
  · intro _ _ _ h; exact h
  · intro vel m a dt _ _
    have key : ∀ x : Float, ¬ fmax x 0.0 < 0.0 := by
      intro x
      simp only [fmax]
      split
      · decide +kernel
      · rename_i hn
        exact fun h => hn (.inl h)
    exact key _

/-- **C20** (motion) The speed changes by the acceleration, but not below zero. -/
theorem C20_motion [Env] [LawfulDijkstra] (h : Reach strict s) (hst : s.step dt = .ok s') {k : Key} {v v' : Vehicle ℝ}
    (hv : s.getVehicle k = .ok v) (hv' : s'.getVehicle k = .ok v') : v'.vel = max (v.vel + dt * v'.acc.getAcc) 0 := by
  obtain ⟨s1, s2, s3, s4, s5, s6, hr⟩ := (step_spec h.inv dt).ok hst
  obtain ⟨v1, v2, v4, ht⟩ := hr.trace (getVeh_ok.1 hv)
  obtain ⟨e, ea, -⟩ := ht.vel (getVeh_ok.1 hv')
  rw [e, ea]
  simp only [fmax]
  norm_num

/-- **C20** (no reversing) With a non-negative time step a vehicle that does not change lanes goes forward by the average of its speeds
before and after the step, times the time step.  It stays on its link or passes the end of its link. -/
theorem C20_forward [Env] [LawfulDijkstra] (h : Reach strict s) (hst : s.step dt = .ok s') (hdt : 0 ≤ dt)
    {k : Key} {v v1 v' : Vehicle ℝ} {s1 : Sim ℝ} (hv : s.getVehicle k = .ok v) (hv' : s'.getVehicle k = .ok v')
    (hlanes : s.calculateLaneChanges = .ok s1) (hv1 : s1.getVehicle k = .ok v1) (hlane : v1.linkId = v.linkId) :
    ∃ d, d = (v.vel + v'.vel) / 2 * dt ∧ 0 ≤ d ∧ ((v'.linkId = v.linkId ∧ v'.pos = v.pos + d) ∨
    ∃ a l, v.linkId = some a ∧ s.getLinkRef a = .ok l ∧ l.length < v.pos + d ∧ v'.pos = v.pos + d - l.length) := by
  have n0 := C20_speed h hv
  have n1 := C20_speed (.exec (.step dt) h trivial hst) hv'
  obtain ⟨s1', s2, s3, s4, s5, s6, hr⟩ := (step_spec h.inv dt).ok hst
  rw [hr.run1] at hlanes; cases hlanes
  obtain ⟨v1', v2, v4, ht⟩ := hr.trace (getVeh_ok.1 hv)
  have g1 := ht.get1
  rw [getVeh_ok.1 hv1] at g1; cases g1
  have hd : 0.5 * (v.vel + v'.vel) * dt = (v.vel + v'.vel) / 2 * dt := by
    rw [show (0.5 : ℝ) = 1 / 2 by norm_num]; ring
  refine ⟨_, rfl, by positivity, ?_⟩
  have := ht.pos (getVeh_ok.1 hv') hlane
  rw [hd] at this
  rcases this with ⟨e1, e2, -⟩ | ⟨a, b, l, ea, eb, hl, hlt, e⟩
  · exact .inl ⟨e1, e2⟩
  · obtain ⟨l0, h0, hfr⟩ := hr.frame4.bwd hl
    have : l.length = l0.length := by unfold Link.length; rw [hfr.curve]
    rw [this] at hlt e
    exact .inr ⟨a, l0, ea, getLink_ok.2 h0, hlt, e⟩

example : ∃ (_ : Env) (_ : LawfulDijkstra) (s s' s1 : Sim ℝ) (v v' : Vehicle ℝ), Reach True s ∧ s.step 0.2 = .ok s' ∧
    s.getVehicle ⟨0, 1⟩ = .ok v ∧ s'.getVehicle ⟨0, 1⟩ = .ok v' ∧ s.calculateLaneChanges = .ok s1 ∧
    s1.getVehicle ⟨0, 1⟩ = .ok v := by
  obtain ⟨n, s0, s1, s2, v0, v1, v2, h1, h2, h3, h4, h5, h6, h7, -, -, -, -, -, -, -, -, -, -, -, ⟨t, h8, h9⟩, -⟩ := Lone.run false 0.2 (by norm_num) (by norm_num)
  exact ⟨Lone.env n, Lone.lawful n, s0, s1, t, v0, v1, h1, h2, h5, h6, h8, h9⟩

/-! ## C21 -/

theorem foldl_min_le (as : List ℝ) (x : ℝ) : as.foldl fmin x ≤ x ∧ ∀ a ∈ as, as.foldl fmin x ≤ a := by
  induction as generalizing x with
  | nil => exact ⟨le_refl _, nofun⟩
  | cons a as ih =>
    obtain ⟨h1, h2⟩ := ih (fmin x a)
    rw [List.foldl_cons]
    simp only [fmin] at h1 h2 ⊢
    refine ⟨h1.trans (min_le_left _ _), fun b hb => ?_⟩
    rcases List.mem_cons.1 hb with rfl | hb
    · exact h1.trans (min_le_right _ _)
    · exact h2 b hb

/-- The acceleration of a vehicle never exceeds its maximum acceleration. -/
theorem Reach.acc_le [Env] [LawfulDijkstra] (h : Reach strict s) {k : Key} {v : Vehicle ℝ}
    (hv : s.getVehicle k = .ok v) : v.acc.acc ≤ max v.acc.maxAcc (-6) := by
  refine Reach.kinematics (fun _ m => m.acc ≤ max m.maxAcc (-6)) ?_ ?_ ?_ h k v (getVeh_ok.1 hv)
  · intro a; exact le_max_left _ _
  · intro _ _ _ h; exact h
  · rintro vel m a dt h (rfl | rfl | ⟨as, rfl⟩)
    · exact h
    · refine le_max_of_le_right ?_
      simp only [maxDecel]; norm_num
    · exact le_max_of_le_left (foldl_min_le as _).1

/-- **C21.** In every step of a reachable simulation with a non-negative time step the change of the speed
of a vehicle with non-negative maximum acceleration is between −6 m/s² and its maximum acceleration,
times the time step. -/
theorem C21_limits [Env] [LawfulDijkstra] (h : Reach strict s) (hst : s.step dt = .ok s') (hdt : 0 ≤ dt) {k : Key}
    {v v' : Vehicle ℝ} (hv : s.getVehicle k = .ok v) (hv' : s'.getVehicle k = .ok v') (hmax : 0 ≤ v.acc.maxAcc) :
    -6 * dt ≤ v'.vel - v.vel ∧ v'.vel - v.vel ≤ v.acc.maxAcc * dt := by
  have n0 := C20_speed h hv
  have hacc := Reach.acc_le (.exec (.step dt) h trivial hst) hv'
  obtain ⟨s1, s2, s3, s4, s5, s6, hr⟩ := (step_spec h.inv dt).ok hst
  obtain ⟨v1, v2, v4, ht⟩ := hr.trace (getVeh_ok.1 hv)
  obtain ⟨e, ea, -⟩ := ht.vel (getVeh_ok.1 hv')
  obtain ⟨a, w, ev2⟩ := ht.acc.same
  obtain ⟨-, e2, -⟩ := ht.steer.same
  have em : v2.acc.maxAcc = v.acc.maxAcc := by rw [ev2]; dsimp only; rw [e2]
  rw [ea, em, max_eq_left (by linarith)] at hacc
  have g1 : -6 ≤ v2.acc.getAcc := by
    simp only [AccelerationModel.getAcc, fmax, maxDecel]
    exact le_max_of_le_right (by norm_num)
  have g2 : v2.acc.getAcc ≤ v.acc.maxAcc := by
    simp only [AccelerationModel.getAcc, fmax, maxDecel]
    exact max_le hacc (by norm_num; linarith)
  have h1 : dt * -6 ≤ dt * v2.acc.getAcc := mul_le_mul_of_nonneg_left g1 hdt
  have h2 : dt * v2.acc.getAcc ≤ dt * v.acc.maxAcc := mul_le_mul_of_nonneg_left g2 hdt
  have h3 : 0 ≤ dt * v.acc.maxAcc := mul_nonneg hdt hmax
  rw [e]
  simp only [fmax]
  constructor
  · have := le_max_left (v.vel + dt * v2.acc.getAcc) (0.0 : ℝ)
    linarith
  · have : max (v.vel + dt * v2.acc.getAcc) (0.0 : ℝ) ≤ v.vel + dt * v.acc.maxAcc :=
      max_le (by linarith) (by norm_num; linarith)
    linarith

example : ∃ (_ : Env) (_ : LawfulDijkstra) (s s' : Sim ℝ) (v v' : Vehicle ℝ), Reach True s ∧ s.step 0.05 = .ok s' ∧
    s.getVehicle ⟨0, 1⟩ = .ok v ∧ s'.getVehicle ⟨0, 1⟩ = .ok v' ∧ v.acc.maxAcc = 2 ∧ v.vel = 0.4 := by
  obtain ⟨n, s0, s1, s2, v0, v1, v2, h1, h2, h3, h4, h5, h6, h7, -, -, -, -, -, -, h8, -, h9, -⟩ := Lone.run false 0.2 (by norm_num) (by norm_num)
  exact ⟨Lone.env n, Lone.lawful n, s1, s2, v1, v2, h3, h4, h6, h7, h8, by rw [h9]; norm_num⟩

/-! ## C22 -/

/-- When accelerations are recomputed, every vehicle is given at most the acceleration for its speed limit
and, if another vehicle is next on its link, for following it; or it brakes. -/
theorem recomputed [Env] [LawfulDijkstra] (h : Reach strict s) (hst : s.step dt = .ok s') (hre : ¬ s.accUpdate < 0.1)
    {k lk : Key} {l1 : Link ℝ} {v v1 v' : Vehicle ℝ} {s1 : Sim ℝ} (hv : s.getVehicle k = .ok v)
    (hv' : s'.getVehicle k = .ok v') (hlanes : s.calculateLaneChanges = .ok s1) (hv1 : s1.getVehicle k = .ok v1)
    (hlk : v1.linkId = some lk) (hl : s1.getLinkRef lk = .ok l1) :
    v1.vel = v.vel ∧ v1.acc = v.acc ∧ v'.vel = max (v.vel + dt * max v'.acc.acc (-6)) 0 ∧
      (v'.acc.acc = -6 ∨ (v'.acc.acc ≤ v.limitAcc l1.speedLimit ∧ ∀ j u, [k, j] <:+: l1.vehicles →
        s1.getVehicle j = .ok u → v'.acc.acc ≤ v1.gapAcc u.posRear u.vel)) := by
  obtain ⟨s1', s2, s3, s4, s5, s6, hr⟩ := (step_spec h.inv dt).ok hst
  rw [hr.run1] at hlanes; cases hlanes
  obtain ⟨v1', v2, v4, ht⟩ := hr.trace (getVeh_ok.1 hv)
  have g1 := ht.get1
  rw [getVeh_ok.1 hv1] at g1; cases g1
  obtain ⟨e, ea, -⟩ := ht.vel (getVeh_ok.1 hv')
  obtain ⟨e1, e2, -⟩ := ht.steer.same
  have ef : s1.accUpdate = s.accUpdate := hr.clocks.1
  refine ⟨e1, e2, ?_, ?_⟩
  · rw [e, ea]; simp only [fmax, AccelerationModel.getAcc, maxDecel]; norm_num
  · rw [ea]
    rcases ht.acc with ⟨hlt, -⟩ | ⟨-, n0, n1, vs, har, ha⟩
    · rw [ef] at hlt; exact absurd hlt hre
    by_cases hf : k ∈ s1.frozen
    · left
      obtain ⟨a, w, ev2, -, hz, -⟩ := ha.eq
      rw [ev2, hz hf]; simp only [maxDecel]; norm_num
    · right
      have hk : k ∈ l1.vehicles := ((hr.inv1.mem lk l1 (getLink_ok.1 hl)).2 k).2 ⟨v1, getVeh_ok.1 hv1, hlk⟩
      have g2 := ht.get2
      rw [hr.vehicles3] at g2
      constructor
      · obtain ⟨w, as, x, hw, hx, ew⟩ := har.limit hr.inv1.mid (getLink_ok.1 hl) (getVeh_ok.1 hv1) hk hf
        rw [g2] at hw; cases hw
        have : v1.limitAcc l1.speedLimit = v.limitAcc l1.speedLimit := by unfold Vehicle.limitAcc; rw [e1, e2]
        rw [← this, ew]
        exact (foldl_min_le as _).2 _ hx
      · intro j u hju hu
        obtain ⟨w, as, x, hw, hx, ew⟩ := har.follows hr.inv1.mid (getLink_ok.1 hl) (getVeh_ok.1 hv1) (getVeh_ok.1 hu) hju hf
        rw [g2] at hw; cases hw
        rw [ew]
        exact (foldl_min_le as _).2 _ hx

/-- **C22** (kept) If accelerations are recomputed, a vehicle at or below the speed limit of its link, times
its adjustment factor, is still at or below it after the step, for time steps up to a quarter of the
limit divided by its maximum acceleration.  Its link is the one it is on after lane changes. -/
theorem C22_kept [Env] [LawfulDijkstra] (h : Reach strict s) (hst : s.step dt = .ok s') (hre : ¬ s.accUpdate < 0.1)
    {k lk : Key} {l1 : Link ℝ} {v v1 v' : Vehicle ℝ} {s1 : Sim ℝ} (hv : s.getVehicle k = .ok v)
    (hv' : s'.getVehicle k = .ok v') (hlanes : s.calculateLaneChanges = .ok s1) (hv1 : s1.getVehicle k = .ok v1)
    (hlk : v1.linkId = some lk) (hl : s1.getLinkRef lk = .ok l1) (hdt : 0 ≤ dt) (hmax : 0 ≤ v.acc.maxAcc)
    (hlim : 0 < v.acc.velAdj * l1.speedLimit) (hstep : 4 * v.acc.maxAcc * dt ≤ v.acc.velAdj * l1.speedLimit)
    (hvel : v.vel ≤ v.acc.velAdj * l1.speedLimit) : v'.vel ≤ v.acc.velAdj * l1.speedLimit := by
  have n0 := C20_speed h hv
  obtain ⟨-, -, e, hb⟩ := recomputed h hst hre hv hv' hlanes hv1 hlk hl
  rw [e]
  refine max_le ?_ hlim.le
  rw [mul_max_of_nonneg _ _ hdt, ← max_add_add_left]
  refine max_le ?_ (by linarith)
  rcases hb with hb | ⟨hb, -⟩
  · rw [hb]; linarith
  · set lim := v.acc.velAdj * l1.speedLimit
    set x := v.vel / lim with hx
    have hx0 : 0 ≤ x := div_nonneg n0 hlim.le
    have hx1 : x ≤ 1 := (div_le_one hlim).2 hvel
    have hxl : v.vel = x * lim := by rw [hx]; field_simp
    have h4 : 1 - x ^ 4 ≤ 4 * (1 - x) := by nlinarith [sq_nonneg (x - 1), sq_nonneg (x + 1), sq_nonneg (x ^ 2 - 1)]
    have h5 : v.limitAcc l1.speedLimit = v.acc.maxAcc * (1 - x ^ 4) := by
      simp only [Vehicle.limitAcc, pow4]; norm_num; left; ring
    have h6 : dt * v'.acc.acc ≤ dt * (v.acc.maxAcc * (4 * (1 - x))) := by
      refine mul_le_mul_of_nonneg_left (hb.trans ?_) hdt
      rw [h5]; exact mul_le_mul_of_nonneg_left h4 hmax
    have h7 : (4 * v.acc.maxAcc * dt) * (1 - x) ≤ lim * (1 - x) := mul_le_mul_of_nonneg_right hstep (by linarith)
    rw [hxl]
    nlinarith

/-- **C22** (above) If accelerations are recomputed, a vehicle that is faster slows down. -/
theorem C22_above [Env] [LawfulDijkstra] (h : Reach strict s) (hst : s.step dt = .ok s') (hre : ¬ s.accUpdate < 0.1)
    {k lk : Key} {l1 : Link ℝ} {v v1 v' : Vehicle ℝ} {s1 : Sim ℝ} (hv : s.getVehicle k = .ok v)
    (hv' : s'.getVehicle k = .ok v') (hlanes : s.calculateLaneChanges = .ok s1) (hv1 : s1.getVehicle k = .ok v1)
    (hlk : v1.linkId = some lk) (hl : s1.getLinkRef lk = .ok l1) (hdt : 0 < dt) (hmax : 0 < v.acc.maxAcc)
    (hlim : 0 < v.acc.velAdj * l1.speedLimit) (hvel : v.acc.velAdj * l1.speedLimit < v.vel) : v'.vel < v.vel := by
  obtain ⟨-, -, e, hb⟩ := recomputed h hst hre hv hv' hlanes hv1 hlk hl
  rw [e]
  refine max_lt ?_ (hlim.trans hvel)
  have : max v'.acc.acc (-6) < 0 := by
    refine max_lt ?_ (by norm_num)
    rcases hb with hb | ⟨hb, -⟩
    · rw [hb]; norm_num
    · refine hb.trans_lt ?_
      set lim := v.acc.velAdj * l1.speedLimit
      set x := v.vel / lim with hx
      have hx1 : 1 < x := (one_lt_div hlim).2 hvel
      have h5 : v.limitAcc l1.speedLimit = v.acc.maxAcc * (1 - x ^ 4) := by
        simp only [Vehicle.limitAcc, pow4]; norm_num; left; ring
      have : 1 < x ^ 4 := one_lt_pow₀ hx1 (by norm_num)
      rw [h5]
      exact mul_neg_of_pos_of_neg hmax (by linarith)
  have := mul_neg_of_pos_of_neg hdt this
  linarith

example : ∃ (_ : Env) (_ : LawfulDijkstra) (s s' s1 : Sim ℝ) (v v' : Vehicle ℝ) (l : Link ℝ), Reach True s ∧
    s.step 0.05 = .ok s' ∧ ¬ s.accUpdate < 0.1 ∧ s.getVehicle ⟨0, 1⟩ = .ok v ∧ s'.getVehicle ⟨0, 1⟩ = .ok v' ∧
    s.calculateLaneChanges = .ok s1 ∧ s1.getVehicle ⟨0, 1⟩ = .ok v ∧ v.linkId = some ⟨0, 1⟩ ∧
    s1.getLinkRef ⟨0, 1⟩ = .ok l ∧ 4 * v.acc.maxAcc * 0.05 ≤ v.acc.velAdj * l.speedLimit ∧
    v.vel ≤ v.acc.velAdj * l.speedLimit := by
  obtain ⟨n, s0, s1, s2, v0, v1, v2, h1, h2, h3, h4, h5, h6, h7, -, h8, -, -, h9, -, h10, h11, h12, -, -, -, t, h15, h16, -, l, h13, -, hl⟩ :=
    Lone.run false 0.2 (by norm_num) (by norm_num)
  have h14 := hl.speed
  exact ⟨Lone.env n, Lone.lawful n, s1, s2, t, v1, v2, l, h3, h4, by rw [h8]; norm_num, h6, h7, h15, h16, h9, h13,
    by rw [h10, h11, h14]; norm_num, by rw [h11, h12, h14]; norm_num⟩

example : ∃ (_ : Env) (_ : LawfulDijkstra) (s s' s1 : Sim ℝ) (v v' : Vehicle ℝ) (l : Link ℝ), Reach True s ∧
    s.step 0.05 = .ok s' ∧ ¬ s.accUpdate < 0.1 ∧ s.getVehicle ⟨0, 1⟩ = .ok v ∧ s'.getVehicle ⟨0, 1⟩ = .ok v' ∧
    s.calculateLaneChanges = .ok s1 ∧ s1.getVehicle ⟨0, 1⟩ = .ok v ∧ v.linkId = some ⟨0, 1⟩ ∧
    s1.getLinkRef ⟨0, 1⟩ = .ok l ∧ 0 < v.acc.maxAcc ∧ 0 < v.acc.velAdj * l.speedLimit ∧
    v.acc.velAdj * l.speedLimit < v.vel := by
  obtain ⟨n, s0, s1, s2, v0, v1, v2, h1, h2, h3, h4, h5, h6, h7, -, h8, -, -, h9, -, h10, h11, h12, -, -, -, t, h15, h16, -, l, h13, -, hl⟩ :=
    Lone.run false 6 (by norm_num) (by norm_num)
  have h14 := hl.speed
  exact ⟨Lone.env n, Lone.lawful n, s1, s2, t, v1, v2, l, h3, h4, by rw [h8]; norm_num, h6, h7, h15, h16, h9, h13,
    by rw [h10]; norm_num, by rw [h11, h14]; norm_num, by rw [h11, h12, h14]; norm_num⟩

end

end TrafficSim
