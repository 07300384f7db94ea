import Verif.Props.Kinematics

/-! # C102: a frozen vehicle comes to a stand and stays where it is

From when a vehicle is frozen it drives on as before until accelerations are recomputed, and brakes with 6 m/s² from then on.  So it stands
after some time, and in some distance, whatever else happens in the simulation. -/

namespace TrafficSim

section
variable {F : Type} [Flt F] {strict : Prop} {s s' : Sim F}

/-- No call other than a step, and than the one that is for that, makes a vehicle move again. -/
theorem exec_frozen [Env] [LawfulDijkstra] (hr : Reach strict s) {op : Op F} (he : s.exec op = .ok s') (hne : ∀ dt, op ≠ .step dt) {k : Key}
    (hk : op ≠ .setVehicleFrozen k false) (hf : s.getVehicleFrozen k = true) : s'.getVehicleFrozen k = true := by
  have hi := hr.inv
  have same : s'.frozen = s.frozen → s'.getVehicleFrozen k = true := fun e => by
    unfold Sim.getVehicleFrozen at hf ⊢
    rw [e]; exact hf
  cases op with
  | addLink a =>
    simp only [Sim.exec, M_bind_ok, M_pure_ok] at he
    obtain ⟨⟨s1, j⟩, h, rfl⟩ := he
    exact same (by dsimp only; rw [(addLink_ok hi.net.wf h).eq])
  | addLinkGroup ids m =>
    obtain ⟨g, lcs, h⟩ := addLinkGroup_ok hi.net he
    exact same (by rw [h.eq])
  | addLinkConvergance a b =>
    rcases addLinkConvergance_ok hi.net he with rfl | ⟨c, la, lb, -, -, -, -, -, -, h, e⟩
    · exact hf
    · exact same (by rw [e])
  | addLinkConnection a b =>
    obtain ⟨-, -, h, e⟩ := addLinkConnection_ok he
    exact same (by rw [e])
  | addTrafficLight tl =>
    simp only [Sim.exec, M_bind_ok, M_pure_ok] at he
    obtain ⟨⟨s1, j⟩, h, rfl⟩ := he
    exact same (by dsimp only; rw [(addTrafficLight_ok hi.lwf h).eq])
  | addVehicle a l =>
    simp only [Sim.exec, M_bind_ok, M_pure_ok] at he
    obtain ⟨⟨s1, j⟩, h, rfl⟩ := he
    exact same (by dsimp only; rw [(addVehicle_ok hi h).eq])
  | removeVehicle j => exact same (by rw [((removeVehicle_spec (E := fun _ => True) hi j).ok he).eq])
  | randomiseVelocityAdjusts sd f => exact same (by rw [(randomise_ok he).2])
  | setVehicleFrozen j b =>
    simp only [Sim.exec, M_pure_ok] at he
    subst he
    obtain ⟨h1, h2, -⟩ := C12_set_frozen hr j b
    by_cases e : k = j
    · subst e
      rw [h1]
      cases b with
      | true => rfl
      | false => exact absurd rfl hk
    · rw [h2 k e]; exact hf
  | setVehicleDestination j d =>
    simp only [Sim.exec, Sim.setVehicleDestination, M_bind_ok, M_pure_ok] at he
    obtain ⟨_, _, _, _, rfl⟩ := he
    exact hf
  | setLinkControl j c => exact same (by rw [(setLinkControl_ok he).2.2])
  | doLaneChange j l d =>
    simp only [Sim.exec, Sim.doLaneChange, M_bind_ok] at he
    obtain ⟨v, hv, he⟩ := he
    split at he <;>
    · simp only [M_bind_ok] at he
      obtain ⟨_, _, _, _, r, _, he⟩ := he
      cases r with
      | none => simp at he
      | some r =>
        obtain ⟨pos, off, sl⟩ := r
        simp only [M_bind_ok, M_pure_ok] at he
        obtain ⟨_, _, _, _, rfl⟩ := he
        exact hf
  | step dt => exact absurd rfl (hne dt)

end

section
variable {strict : Prop} {s s' s1 s2 : Sim ℝ} {k : Key} {D t x : ℝ} {v v' : Vehicle ℝ}

/-- The simulation `s'` results from `s` by calls that are allowed, among which are steps of at most `D` seconds with a total time of `t`, but
none by which the vehicle `k` may move again; it is still there in each of the steps, and drives `x` metres in all of them (by C20 it goes
forward by the average of its speeds before and after a step, times the time step). -/
inductive Held [Env] (strict : Prop) (k : Key) (D : ℝ) (s : Sim ℝ) : ℝ → ℝ → Sim ℝ → Prop
  | start : Held strict k D s 0 0 s
  | call {t x : ℝ} {s1 s2 : Sim ℝ} (op : Op ℝ) : Held strict k D s t x s1 → Allowed strict s1 op → (∀ dt, op ≠ .step dt) →
      op ≠ .setVehicleFrozen k false → s1.exec op = .ok s2 → Held strict k D s t x s2
  | step {t x dt : ℝ} {s1 s2 : Sim ℝ} {v v' : Vehicle ℝ} : Held strict k D s t x s1 → 0 ≤ dt → dt ≤ D → s1.step dt = .ok s2 →
      s1.getVehicle k = .ok v → s2.getVehicle k = .ok v' → Held strict k D s (t + dt) (x + (v.vel + v'.vel) / 2 * dt) s2

theorem Held.reach [Env] [LawfulDijkstra] (h : Held strict k D s t x s') (hs : Reach strict s) : Reach strict s' := by
  induction h with
  | start => exact hs
  | call op _ ha _ _ he ih => exact .exec op ih ha he
  | @step t x dt s1 s2 v v' _ _ _ he _ _ ih => exact .exec (.step dt) ih trivial he

theorem Held.trans [Env] {t' x' : ℝ} (h : Held strict k D s t x s1) (h' : Held strict k D s1 t' x' s2) :
    Held strict k D s (t + t') (x + x') s2 := by
  induction h' with
  | start => rw [add_zero, add_zero]; exact h
  | call op _ ha hne hk he ih => exact .call op ih ha hne hk he
  | step _ h0 h1 he hv hv' ih => rw [← add_assoc, ← add_assoc]; exact .step ih h0 h1 he hv hv'

theorem Held.frozen [Env] [LawfulDijkstra] (h : Held strict k D s t x s') (hs : Reach strict s) (hf : s.getVehicleFrozen k = true) :
    s'.getVehicleFrozen k = true := by
  induction h with
  | start => exact hf
  | call op h ha hne hk he ih => exact exec_frozen (h.reach hs) he hne hk ih
  | step h _ _ he _ hv' ih => rw [C12_step (h.reach hs) he hv']; exact ih

/-- When accelerations are recomputed, that of a frozen vehicle is that of full braking; until then it stays. -/
theorem frozen_acc [Env] [LawfulDijkstra] {dt : ℝ} (h : Reach strict s) (hst : s.step dt = .ok s') (hf : s.getVehicleFrozen k = true)
    (hv : s.getVehicle k = .ok v) (hv' : s'.getVehicle k = .ok v') : v'.acc.maxAcc = v.acc.maxAcc ∧
    (s.accUpdate < 0.1 → v'.acc = v.acc) ∧ (¬ s.accUpdate < 0.1 → v'.acc.getAcc = -6) := by
  obtain ⟨s1, s2, s3, s4, s5, s6, hr⟩ := (step_spec h.inv dt).ok hst
  obtain ⟨v1, v2, v4, ht⟩ := hr.trace (getVeh_ok.1 hv)
  obtain ⟨-, e, -⟩ := ht.vel (getVeh_ok.1 hv')
  obtain ⟨-, e2, -⟩ := ht.steer.same
  have e1 : s1.frozen = s.frozen ∧ s1.accUpdate = s.accUpdate := by
    rcases hr.lanes with ⟨-, e⟩ | ⟨-, vs, lcs, e⟩
    · rw [e]; exact ⟨rfl, rfl⟩
    · rw [e.eq]; exact ⟨rfl, rfl⟩
  rw [e]
  rcases ht.acc with ⟨hlt, -, ea⟩ | ⟨hge, n0, n1, vs, -, ha⟩
  · rw [e1.2] at hlt
    exact ⟨by rw [ea, e2], fun _ => by rw [ea, e2], fun h => absurd hlt h⟩
  · rw [e1.2] at hge
    obtain ⟨a, w, ev2, -, hz, -⟩ := ha.eq
    have : a = maxDecel := hz (by rw [e1.1]; simpa [Sim.getVehicleFrozen] using hf)
    refine ⟨by rw [ev2, ← e2], fun h => absurd h hge, fun _ => ?_⟩
    rw [ev2, this]
    simp only [AccelerationModel.getAcc, fmax, maxDecel]
    norm_num

/-- What happens to a frozen vehicle until it stands. -/
theorem Held.slows [Env] [LawfulDijkstra] (hs : Reach strict s) (hf : s.getVehicleFrozen k = true) (hv : s.getVehicle k = .ok v)
    (hA : 0 ≤ v.acc.maxAcc) (hD : 0 ≤ D) {τ V : ℝ} (hτ : τ = max 0 (0.1 + D - s.accUpdate)) (hV : V = v.vel + v.acc.maxAcc * τ)
    (h : Held strict k D s t x s') : ∀ v', s'.getVehicle k = .ok v' → v'.acc.maxAcc = v.acc.maxAcc ∧
    (t ≤ τ ∧ v'.vel ≤ v.vel + v.acc.maxAcc * t ∧ x ≤ V * t ∧ s'.accUpdate = s.accUpdate + t ∨
     v'.acc.getAcc = -6 ∧ v'.vel ≤ max 0 (V - 6 * (t - τ)) ∧ x + v'.vel ^ 2 / 12 + D * v'.vel / 2 ≤ V * τ + V ^ 2 / 12 + D * V / 2) := by
  have hτ0 : 0 ≤ τ := by rw [hτ]; exact le_max_left _ _
  have hv0 := C20_speed hs hv
  have hV0 : 0 ≤ V := by rw [hV]; positivity
  induction h with
  | start =>
    intro v' hv'
    rw [hv] at hv'; cases hv'
    exact ⟨rfl, .inl ⟨hτ0, by linarith, by linarith, by linarith⟩⟩
  | @call t x s1 s2 op h ha hne hk he ih =>
    intro v' hv'
    have r1 := h.reach hs
    rw [(exec_clocks r1.inv he hne).1]
    cases exec_origin r1.inv he (getVeh_ok.1 hv') with
    | added a link pf hop hni _ _ _ =>
      exfalso
      refine hni ?_
      have := SlotMap.get?_issued (getVeh_ok.1 hv)
      clear hni ih hv' he ha hk hne
      induction h with
      | start => exact this
      | call op h ha _ _ he ih => exact (exec_evolves (h.reach hs).inv he).vehIssued k (ih (h.reach hs))
      | @step t x dt s1 s2 v v' h _ _ he _ _ ih => exact (exec_evolves (op := .step dt) (h.reach hs).inv he).vehIssued k (ih (h.reach hs))
    | same hv1 _ => exact ih v' (getVeh_ok.2 hv1)
    | adjusted u y hu e _ => subst e; exact ih u (getVeh_ok.2 hu)
    | destined u pf dst hu _ _ _ e => subst e; exact ih u (getVeh_ok.2 hu)
    | shifted u link d pos lc pf hu _ _ _ e => subst e; exact ih u (getVeh_ok.2 hu)
    | stepped dt _ _ _ _ _ _ _ _ _ _ hop => exact absurd hop (hne dt)
  | @step t x dt s1 s2 u w h h0 h1 he hu hw ih =>
    intro v' hv'
    rw [hw] at hv'; cases hv'
    have r1 := h.reach hs
    have f1 := h.frozen hs hf
    obtain ⟨em, hi⟩ := ih u hu
    obtain ⟨a1, a2, a3⟩ := frozen_acc r1 he f1 hu hw
    have hmot := C20_motion r1 he hu hw
    have hu0 := C20_speed r1 hu
    have hw0 := C20_speed (.exec (.step dt) r1 trivial he) hw
    have hclk : s2.accUpdate = if s1.accUpdate < 0.1 then s1.accUpdate + dt else 0.0 + dt := by
      obtain ⟨_, _, _, _, _, _, hr⟩ := (step_spec r1.inv dt).ok he
      exact hr.clocks.2.1
    refine ⟨a1.trans em, ?_⟩
    -- braking
    have brake : w.acc.getAcc = -6 → u.vel ≤ max 0 (V - 6 * (t - τ)) →
        x + u.vel ^ 2 / 12 + D * u.vel / 2 ≤ V * τ + V ^ 2 / 12 + D * V / 2 →
        w.vel ≤ max 0 (V - 6 * (t + dt - τ)) ∧
        x + (u.vel + w.vel) / 2 * dt + w.vel ^ 2 / 12 + D * w.vel / 2 ≤ V * τ + V ^ 2 / 12 + D * V / 2 := by
      intro ea b1 b2
      rw [ea] at hmot
      rcases le_total 0 (u.vel + dt * -6) with hle | hle
      · rw [max_eq_left hle] at hmot
        refine ⟨?_, ?_⟩
        · rcases le_max_iff.1 b1 with b | b
          · exact le_max_of_le_left (by linarith)
          · exact le_max_of_le_right (by linarith)
        · have e : (u.vel + w.vel) / 2 * dt = (u.vel ^ 2 - w.vel ^ 2) / 12 := by rw [hmot]; ring
          have : D * w.vel ≤ D * u.vel := mul_le_mul_of_nonneg_left (by linarith) hD
          rw [e]; linarith
      · rw [max_eq_right hle] at hmot
        rw [hmot]
        refine ⟨le_max_left _ _, ?_⟩
        have : u.vel * dt ≤ u.vel * D := mul_le_mul_of_nonneg_left h1 hu0
        nlinarith [sq_nonneg u.vel]
    rcases hi with ⟨b1, b2, b3, b4⟩ | ⟨b1, b2, b3⟩
    · have hAt : v.acc.maxAcc * t ≤ v.acc.maxAcc * τ := mul_le_mul_of_nonneg_left b1 hA
      by_cases hre : s1.accUpdate < 0.1
      · rw [if_pos hre] at hclk
        have hle : t + dt ≤ τ := by
          rw [hτ]; refine le_max_of_le_right ?_
          linarith
        have hAt' : v.acc.maxAcc * (t + dt) ≤ v.acc.maxAcc * τ := mul_le_mul_of_nonneg_left hle hA
        have hlim := (C21_limits r1 he h0 hu hw (by rw [em]; exact hA)).2
        rw [em] at hlim
        refine .inl ⟨hle, by linarith, ?_, by rw [hclk, b4]; ring⟩
        have : (u.vel + w.vel) / 2 * dt ≤ V * dt := mul_le_mul_of_nonneg_right (by linarith) h0
        linarith
      · refine .inr ⟨a3 hre, brake (a3 hre) (le_max_of_le_right (by linarith)) ?_⟩
        have huV : u.vel ≤ V := by linarith
        have g1 : u.vel ^ 2 ≤ V ^ 2 := pow_le_pow_left₀ hu0 huV 2
        have g2 : D * u.vel ≤ D * V := mul_le_mul_of_nonneg_left huV hD
        have g3 : V * t ≤ V * τ := mul_le_mul_of_nonneg_left b1 hV0
        linarith
    · have ea : w.acc.getAcc = -6 := by
        by_cases hre : s1.accUpdate < 0.1
        · rw [a2 hre]; exact b1
        · exact a3 hre
      exact .inr ⟨ea, brake ea b2 b3⟩

/-- **C102** (exact arithmetic).  A vehicle that is frozen stands when it has had the time to brake: what is left until accelerations are
recomputed, at most `τ = 0.1 + D` seconds, and a sixth of the speed that it may have by then. It goes no further until it stands than with
this speed for `τ`, with the way that full braking takes, and half of a step. -/
theorem C102_stops [Env] [LawfulDijkstra] (hs : Reach strict s) (hf : s.getVehicleFrozen k = true) (hv : s.getVehicle k = .ok v)
    (hA : 0 ≤ v.acc.maxAcc) (hD : 0 ≤ D) {τ V : ℝ} (hτ : τ = max 0 (0.1 + D - s.accUpdate)) (hV : V = v.vel + v.acc.maxAcc * τ)
    (h : Held strict k D s t x s') (hv' : s'.getVehicle k = .ok v') :
    v'.vel ≤ max 0 (V - 6 * (t - τ)) ∧ (τ + V / 6 ≤ t → v'.vel = 0) ∧ x ≤ V * τ + V ^ 2 / 12 + V * D / 2 := by
  have hτ0 : 0 ≤ τ := by rw [hτ]; exact le_max_left _ _
  have hv0 := C20_speed hs hv
  have hV0 : 0 ≤ V := by rw [hV]; positivity
  have h0 := C20_speed (h.reach hs) hv'
  obtain ⟨-, ⟨b1, b2, b3, -⟩ | ⟨-, b2, b3⟩⟩ := h.slows hs hf hv hA hD hτ hV v' hv'
  · have hAt : v.acc.maxAcc * t ≤ v.acc.maxAcc * τ := mul_le_mul_of_nonneg_left b1 hA
    have g3 : V * t ≤ V * τ := mul_le_mul_of_nonneg_left b1 hV0
    have hb : v'.vel ≤ max 0 (V - 6 * (t - τ)) := le_max_of_le_right (by linarith)
    refine ⟨hb, fun ht => ?_, ?_⟩
    · rw [max_eq_left (by linarith)] at hb
      linarith
    · have := sq_nonneg V
      have := mul_nonneg hV0 hD
      linarith
  · refine ⟨b2, fun ht => ?_, ?_⟩
    · rw [max_eq_left (by linarith)] at b2
      linarith
    · have := sq_nonneg v'.vel
      have := mul_nonneg hD h0
      linarith

/-- **C102** (exact arithmetic).  From when it stands, a frozen vehicle does not drive at all. -/
theorem C102_rests [Env] [LawfulDijkstra] (hs : Reach strict s) (hf : s.getVehicleFrozen k = true) (hv : s.getVehicle k = .ok v)
    (hA : 0 ≤ v.acc.maxAcc) (hD : 0 ≤ D) {τ V t' x' : ℝ} (hτ : τ = max 0 (0.1 + D - s.accUpdate)) (hV : V = v.vel + v.acc.maxAcc * τ)
    (h : Held strict k D s t x s1) (ht : τ + V / 6 ≤ t) (h' : Held strict k D s1 t' x' s2) : x' = 0 := by
  have ht' : ∀ {t' x' s2}, Held strict k D s1 t' x' s2 → 0 ≤ t' := by
    intro t' x' s2 h'
    induction h' with
    | start => exact le_rfl
    | call _ _ _ _ _ _ ih => exact ih
    | step _ h0 _ _ _ _ ih => linarith
  induction h' with
  | start => rfl
  | call _ _ _ _ _ _ ih => exact ih
  | step h' h0 h1 he hu hw ih =>
    have e1 := (C102_stops hs hf hv hA hD hτ hV (h.trans h') hu).2.1 (by linarith [ht' h'])
    have e2 := (C102_stops hs hf hv hA hD hτ hV (h.trans (.step h' h0 h1 he hu hw)) hw).2.1 (by linarith [ht' h'])
    rw [ih, e1, e2]; ring

end

/-- A vehicle is frozen at a speed of 0.3 m/s; it takes one step of 0.05 s to brake. -/
example : ∃ (_ : Env) (_ : LawfulDijkstra) (s s' : Sim ℝ) (v v' : Vehicle ℝ) (t x : ℝ), Reach True s ∧ s.getVehicleFrozen ⟨0, 1⟩ = true ∧
    s.getVehicle ⟨0, 1⟩ = .ok v ∧ 0 ≤ v.acc.maxAcc ∧ v.vel = 0.3 ∧ Held True ⟨0, 1⟩ 0.05 s t x s' ∧ s'.getVehicle ⟨0, 1⟩ = .ok v' ∧
    max 0 (0.1 + 0.05 - s.accUpdate) = 0 ∧ 0 + (v.vel + v.acc.maxAcc * 0) / 6 ≤ t ∧ 0 < x := by
  obtain ⟨n, s0, s1, s2, v0, v1, v2, h1, h2, h3, h4, h5, h6, h7, -, h8, h9, -, -, -, hm, -, h10, -⟩ := Lone.run true 0.15 (by norm_num) (by norm_num)
  let := Lone.env n
  have := Lone.lawful n
  have h20 := C20_speed (.exec (.step 0.05) h3 trivial h4) h7
  refine ⟨Lone.env n, Lone.lawful n, s1, s2, v1, v2, _, _, h3, h9, h6, by rw [hm]; norm_num, by rw [h10]; norm_num,
    .step .start (by norm_num) le_rfl h4 h6 h7, h7, by rw [h8]; norm_num, by rw [h10]; norm_num, ?_⟩
  rw [h10]
  have : 0 < (2 * 0.15 + v2.vel) / 2 * 0.05 := by norm_num; linarith
  linarith

end TrafficSim
