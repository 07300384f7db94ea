import Verif.Props.ArrivalRoad

/-! # C80: vehicles keep to the speed limit -/

namespace TrafficSim

section
variable {strict : Prop} {s s' : Sim ℝ} {dt : ℝ} {k : Key} {v v' : Vehicle ℝ}

/-- The speed is at most `L`, and stays so until accelerations are recomputed, which is the case at latest when the clock is at `h`. -/
def Moderate (h L : ℝ) (s : Sim ℝ) (v : Vehicle ℝ) : Prop :=
  v.vel ≤ L ∧ (s.accUpdate < 0.1 → v.vel + (h - s.accUpdate) * v.acc.getAcc ≤ L)

theorem moderate_move {L v v' a r t : ℝ} (h0 : 0 ≤ v) (hv : v ≤ L) (hr : v + r * a ≤ L) (ht : 0 ≤ t) (htr : t ≤ r)
    (e : v' = max (v + t * a) 0) : v' ≤ L ∧ v' + (r - t) * a ≤ L := by
  have h1 : v + t * a ≤ L := by
    by_cases ha : 0 ≤ a
    · linarith [mul_le_mul_of_nonneg_right htr ha]
    · linarith [mul_nonpos_of_nonneg_of_nonpos ht (not_le.1 ha).le]
  rcases max_cases (v + t * a) 0 with ⟨e', h2⟩ | ⟨e', h2⟩
  · rw [e, e']
    refine ⟨h1, ?_⟩
    linarith [sub_mul r t a]
  · rw [e, e']
    have ha : a ≤ 0 := by
      by_contra hn
      have := mul_nonneg ht (not_le.1 hn).le
      linarith
    refine ⟨by linarith, ?_⟩
    have := mul_nonpos_of_nonneg_of_nonpos (sub_nonneg.2 htr) ha
    linarith

/-- The parameters of a vehicle and the speed limits fit: the vehicle needs at least four times `h` seconds to get from rest to the
speed it aims for, which on no link is greater than `L`. -/
def Fits (m : AccelerationModel ℝ) (h L : ℝ) (links : LinkSet ℝ) : Prop :=
  0 ≤ m.maxAcc ∧ ∀ lk l, links.get? lk = some l → 0 < m.velAdj * l.speedLimit ∧ m.velAdj * l.speedLimit ≤ L ∧
    4 * m.maxAcc * h ≤ m.velAdj * l.speedLimit

theorem Moderate.step [Env] [LawfulDijkstra] {h L : ℝ} (hm : Moderate h L s v) (hs : Reach strict s) (hst : s.step dt = .ok s')
    (hdt : 0 ≤ dt) (hh : dt + 0.1 ≤ h) (hv : s.getVehicle k = .ok v) (hv' : s'.getVehicle k = .ok v') (hf : Fits v.acc h L s.links) :
    Moderate h L s' v' := by
  obtain ⟨p1, p2, p3, ⟨a, p4⟩, -⟩ := step_speed hs hst hv hv'
  obtain ⟨s1, s2, s3, s4, s5, s6, hr⟩ := (step_spec hs.inv dt).ok hst
  have hclk : s'.accUpdate = if s.accUpdate < 0.1 then s.accUpdate + dt else 0.0 + dt := hr.clocks.2.1
  have v0 := C20_speed hs hv
  obtain ⟨m1, m2⟩ := hm
  norm_num at hh
  by_cases hlt : s.accUpdate < 0.1
  · rw [if_pos hlt] at hclk
    have hlt' := hlt
    norm_num at hlt'
    rw [p3 hlt] at p1
    obtain ⟨g1, g2⟩ := moderate_move v0 m1 (m2 hlt) hdt (by linarith) p1
    refine ⟨g1, fun _ => ?_⟩
    rw [hclk, p3 hlt]
    linarith
  · rw [if_neg hlt] at hclk
    obtain ⟨v1, v2, v4, ht⟩ := hr.trace (getVeh_ok.1 hv)
    have hi := hr.inv1.veh k v1 ht.get1
    have hlink : v1.linkId = some v1.pathfind.src := hi.src
    obtain ⟨l1, hl1⟩ : ∃ l1, s1.links.get? v1.pathfind.src = some l1 := by
      have := hi.drivable.1 v1.pathfind.src (List.mem_of_head? hi.src)
      exact Option.isSome_iff_exists.1 this
    obtain ⟨-, -, -, hb⟩ := recomputed hs hst hlt hv hv' hr.run1 (getVeh_ok.2 ht.get1) hlink (getLink_ok.2 hl1)
    obtain ⟨l0, hl0, el⟩ := hr.frame1.bwd hl1
    obtain ⟨f1, f2, f3⟩ := hf.2 _ _ hl0
    have es : l1.speedLimit = l0.speedLimit := by rw [el]
    have h0 : 0 ≤ h := by linarith
    have key : v.vel + h * v'.acc.getAcc ≤ L := by
      have e6 : v'.acc.getAcc = max v'.acc.acc (-6) := by
        simp only [AccelerationModel.getAcc, fmax, maxDecel]; norm_num
      rw [e6, mul_max_of_nonneg _ _ h0, ← max_add_add_left]
      refine max_le ?_ (by linarith)
      rcases hb with hb | ⟨hb, -⟩
      · rw [hb]; linarith
      rw [es] at hb
      set lim := v.acc.velAdj * l0.speedLimit with hlim
      set x := v.vel / lim with hx
      have hx0 : 0 ≤ x := div_nonneg v0 f1.le
      have hxl : v.vel = x * lim := by rw [hx]; field_simp
      have h5 : v.limitAcc l0.speedLimit = v.acc.maxAcc * (1 - x ^ 4) := by
        simp only [Vehicle.limitAcc, pow4]; norm_num; left; ring
      rw [h5] at hb
      by_cases hx1 : x ≤ 1
      · have h4 : 1 - x ^ 4 ≤ 4 * (1 - x) := by nlinarith [sq_nonneg (x - 1), sq_nonneg (x + 1), sq_nonneg (x ^ 2 - 1)]
        have h6 : h * v'.acc.acc ≤ h * (v.acc.maxAcc * (4 * (1 - x))) :=
          mul_le_mul_of_nonneg_left (hb.trans (mul_le_mul_of_nonneg_left h4 hf.1)) h0
        have h7 : (4 * v.acc.maxAcc * h) * (1 - x) ≤ lim * (1 - x) := mul_le_mul_of_nonneg_right f3 (by linarith)
        nlinarith
      · have h1 : 1 ≤ x ^ 4 := one_le_pow₀ (not_le.1 hx1).le
        have h2 : v.acc.maxAcc * (1 - x ^ 4) ≤ 0 := mul_nonpos_of_nonneg_of_nonpos hf.1 (by linarith)
        have h3 : h * v'.acc.acc ≤ 0 := mul_nonpos_of_nonneg_of_nonpos h0 (by linarith)
        linarith
    obtain ⟨g1, g2⟩ := moderate_move v0 m1 key hdt (by linarith) p1
    refine ⟨g1, fun _ => ?_⟩
    rw [hclk]; norm_num
    exact g2

theorem Fits.frame {m m' : AccelerationModel ℝ} {h L : ℝ} {links links' : LinkSet ℝ} (hf : Fits m h L links) (hfr : Frame links links')
    (e1 : m'.maxAcc = m.maxAcc) (e2 : m'.velAdj = m.velAdj) : Fits m' h L links' := by
  rw [Fits, e1, e2]
  refine ⟨hf.1, fun lk l' hl' => ?_⟩
  obtain ⟨l, hl, e⟩ := hfr.bwd hl'
  rw [e.speedLimit]
  exact hf.2 lk l hl

theorem Moderate.steps [Env] [LawfulDijkstra] {D L : ℝ} : ∀ {dts : List ℝ} {s : Sim ℝ} {v : Vehicle ℝ}, Moderate (D + 0.1) L s v → Reach strict s →
    (∀ dt ∈ dts, 0 ≤ dt ∧ dt ≤ D) → s.getVehicle k = .ok v → Fits v.acc (D + 0.1) L s.links → dts.foldlM Sim.step s = .ok s' →
    s'.getVehicle k = .ok v' → Moderate (D + 0.1) L s' v' := by
  intro dts
  induction dts with
  | nil =>
    rintro s v hm - - hv - ⟨⟩ hv'
    rw [hv] at hv'; cases hv'
    exact hm
  | cons dt dts ih =>
    intro s v hm hs hd hv hf hrun hv'
    rw [List.foldlM_cons, M_bind_ok] at hrun
    obtain ⟨s1, h1, hrun⟩ := hrun
    obtain ⟨d0, d1⟩ := hd dt (by simp)
    have hs1 := Reach.exec (.step dt) hs trivial h1
    obtain ⟨v1, hv1⟩ := steps_back hs1 hrun (getVeh_ok.1 hv')
    obtain ⟨_, _, _, _, _, _, hr⟩ := (step_spec hs.inv dt).ok h1
    obtain ⟨-, -, -, ⟨a, p4⟩, -⟩ := step_speed hs h1 hv (getVeh_ok.2 hv1)
    exact ih (hm.step hs h1 d0 (by linarith) hv (getVeh_ok.2 hv1) hf) hs1 (fun d hd' => hd d (by simp [hd'])) (getVeh_ok.2 hv1)
      (hf.frame hr.frame (by rw [p4]) (by rw [p4])) hrun hv'

/-- **C80** In exact arithmetic: a vehicle that is not faster than the greatest speed limit of the network, times its adjustment
factor, when accelerations are due, is never faster, whatever steps of at most `D` seconds follow, and wherever it drives.  It needs at
least four times `D + 0.1` seconds to get from rest to the speed it aims for. -/
theorem C80_limit [Env] [LawfulDijkstra] {D M : ℝ} {dts : List ℝ} (h : Reach strict s) (hre : ¬ s.accUpdate < 0.1) (hv : s.getVehicle k = .ok v)
    (hmax : 0 ≤ v.acc.maxAcc) (hadj : 0 < v.acc.velAdj)
    (hlim : ∀ lk l, s.getLinkRef lk = .ok l → 0 < l.speedLimit ∧ l.speedLimit ≤ M ∧ 4 * v.acc.maxAcc * (D + 0.1) ≤ v.acc.velAdj * l.speedLimit)
    (hvel : v.vel ≤ v.acc.velAdj * M) (hd : ∀ dt ∈ dts, 0 ≤ dt ∧ dt ≤ D) (hrun : dts.foldlM Sim.step s = .ok s')
    (hv' : s'.getVehicle k = .ok v') : v'.vel ≤ v.acc.velAdj * M := by
  refine (Moderate.steps (k := k) (D := D) ⟨hvel, fun h => absurd h hre⟩ h hd hv ⟨hmax, fun lk l hl => ?_⟩ hrun hv').1
  obtain ⟨h1, h2, h3⟩ := hlim lk l (getLink_ok.2 hl)
  exact ⟨mul_pos hadj h1, mul_le_mul_of_nonneg_left h2 hadj.le, h3⟩

/-- **C80** A vehicle that stands when accelerations are not due, or was just added, is never faster, either. -/
theorem C80_from_rest [Env] [LawfulDijkstra] {D M : ℝ} {dts : List ℝ} (h : Reach strict s) (hclk : 0 ≤ s.accUpdate) (hv : s.getVehicle k = .ok v)
    (hmax : 0 ≤ v.acc.maxAcc) (hadj : 0 < v.acc.velAdj) (hany : ∃ lk l, s.getLinkRef lk = .ok l)
    (hlim : ∀ lk l, s.getLinkRef lk = .ok l → 0 < l.speedLimit ∧ l.speedLimit ≤ M ∧ 4 * v.acc.maxAcc * (D + 0.1) ≤ v.acc.velAdj * l.speedLimit)
    (hvel : v.vel = 0) (hD : 0 ≤ D) (hd : ∀ dt ∈ dts, 0 ≤ dt ∧ dt ≤ D) (hrun : dts.foldlM Sim.step s = .ok s')
    (hv' : s'.getVehicle k = .ok v') : v'.vel ≤ v.acc.velAdj * M := by
  have hf : Fits v.acc (D + 0.1) (v.acc.velAdj * M) s.links := by
    refine ⟨hmax, fun lk l hl => ?_⟩
    obtain ⟨h1, h2, h3⟩ := hlim lk l (getLink_ok.2 hl)
    exact ⟨mul_pos hadj h1, mul_le_mul_of_nonneg_left h2 hadj.le, h3⟩
  obtain ⟨lk, l, hl⟩ := hany
  obtain ⟨f1, f2, f3⟩ := hf.2 lk l (getLink_ok.1 hl)
  refine (Moderate.steps (k := k) (D := D) ⟨by rw [hvel]; linarith, fun hlt => ?_⟩ h hd hv hf hrun hv').1
  rw [hvel]
  norm_num at hlt f3 ⊢
  have hle : v.acc.getAcc ≤ v.acc.maxAcc := by
    have := h.acc_le hv
    simp only [AccelerationModel.getAcc, fmax, maxDecel]
    refine max_le (this.trans (max_le le_rfl (by linarith))) ?_
    norm_num; linarith
  have h1 : (D + 1 / 10 - s.accUpdate) * v.acc.getAcc ≤ (D + 1 / 10 - s.accUpdate) * v.acc.maxAcc :=
    mul_le_mul_of_nonneg_left hle (by linarith)
  have h2 : (D + 1 / 10 - s.accUpdate) * v.acc.maxAcc ≤ (D + 1 / 10) * v.acc.maxAcc := mul_le_mul_of_nonneg_right (by linarith) hmax
  have h3 : 0 ≤ (D + 1 / 10) * v.acc.maxAcc := mul_nonneg (by linarith) hmax
  linarith

/-! ### Whole executions -/

/-- Bounds on the arguments of operations: on the length of steps, on speed limits, on the greatest acceleration of vehicles, and on the
adjustment factor of their speed. -/
def Within (D A lo hi jlo jhi : ℝ) : Op ℝ → Prop
  | .step dt => 0 ≤ dt ∧ dt ≤ D
  | .addLink a => lo ≤ a.speedLimit ∧ a.speedLimit ≤ hi
  | .addVehicle a _ => 0 ≤ a.maxAcc ∧ a.maxAcc ≤ A
  | .randomiseVelocityAdjusts _ f => ∀ k, jlo ≤ Sim.clampAdjust (f k) ∧ Sim.clampAdjust (f k) ≤ jhi
  | _ => True

/-- The simulations that can be reached by operations of which `P` holds. -/
inductive ReachBy [Env] (strict : Prop) (P : Op ℝ → Prop) : Sim ℝ → Prop
  | new : ReachBy strict P .new
  | exec {s s' : Sim ℝ} (op : Op ℝ) : ReachBy strict P s → Allowed strict s op → P op → s.exec op = .ok s' → ReachBy strict P s'

theorem ReachBy.reach [Env] {P : Op ℝ → Prop} (h : ReachBy strict P s) : Reach strict s := by
  induction h with
  | new => exact .new
  | exec op _ ha _ he ih => exact .exec op ih ha he

theorem ReachBy.limits [Env] [LawfulDijkstra] {D A lo hi jlo jhi : ℝ} (h : ReachBy strict (Within D A lo hi jlo jhi) s) :
    ∀ lk l, s.links.get? lk = some l → lo ≤ l.speedLimit ∧ l.speedLimit ≤ hi := by
  induction h with
  | new => intro lk l hl; cases hl
  | @exec s s' op hr ha hp he ih =>
    intro lk l' hl'
    cases exec_network hr.reach.inv he with
    | frame hf =>
      obtain ⟨l, hl, e⟩ := hf.bwd hl'
      rw [e.speedLimit]; exact ih lk l hl
    | added a k hop hk =>
      subst hop
      obtain ⟨l, hn, hget⟩ := hk.link
      rw [hget] at hl'
      split at hl'
      · cases hl'
        have : l'.speedLimit = a.speedLimit := by
          simp only [Link.new, M_bind_ok, M_pure_ok] at hn
          obtain ⟨_, _, rfl⟩ := hn
          rfl
        rw [this]; exact hp
      · exact ih lk l' hl'
    | grouped ids mask g lcs _ hg =>
      obtain ⟨l, hl, rfl, -⟩ := hg.rel.bwd hl'
      exact ih lk l hl
    | converging a b cs _ hc =>
      obtain ⟨l, hl, rfl⟩ := hc.bwd hl'
      exact ih lk l hl
    | connected a b _ _ _ hc =>
      obtain ⟨l, hl, rfl⟩ := hc.bwd hl'
      exact ih lk l hl

/-- What is known of each vehicle. -/
structure Tame (D A jlo jhi L : ℝ) (s : Sim ℝ) (v : Vehicle ℝ) : Prop where
  speed : Moderate (D + 0.1) L s v
  acc0 : 0 ≤ v.acc.maxAcc
  acc : v.acc.maxAcc ≤ A
  adj0 : jlo ≤ v.acc.velAdj
  adj : v.acc.velAdj ≤ jhi

theorem ReachBy.clock [Env] [LawfulDijkstra] {D A lo hi jlo jhi : ℝ} (h : ReachBy strict (Within D A lo hi jlo jhi) s) : 0 ≤ s.accUpdate := by
  induction h with
  | new => show (0 : ℝ) ≤ 0.0; norm_num
  | @exec s s' op hr ha hp he ih =>
    by_cases hop : ∃ dt, op = .step dt
    · obtain ⟨dt, rfl⟩ := hop
      have he : s.step dt = .ok s' := he
      obtain ⟨s1, s2, s3, s4, s5, s6, hr⟩ := (step_spec hr.reach.inv dt).ok he
      have hclk : s'.accUpdate = if s.accUpdate < 0.1 then s.accUpdate + dt else 0.0 + dt := hr.clocks.2.1
      have hd := hp.1
      rw [hclk]
      split
      · linarith
      · norm_num; exact hd
    · rw [(exec_clocks hr.reach.inv he fun dt e => hop ⟨dt, e⟩).1]
      exact ih

theorem ReachBy.tame [Env] [LawfulDijkstra] {D A lo hi jlo jhi : ℝ} (h : ReachBy strict (Within D A lo hi jlo jhi) s) (hlo : 0 < lo) (hj : 0 < jlo)
    (hj1 : jlo ≤ 1) (hj2 : 1 ≤ jhi) (hD : 0 ≤ D) (hA : 4 * A * (D + 0.1) ≤ jlo * lo) :
    ∀ k v, s.vehicles.get? k = some v → Tame D A jlo jhi (jhi * hi) s v := by
  induction h with
  | new => intro k v hv; cases hv
  | @exec s s' op hr ha hp he ih =>
    intro k v' hv'
    have hcl : (∀ dt, op ≠ .step dt) → s'.accUpdate = s.accUpdate := fun hne => (exec_clocks hr.reach.inv he hne).1
    cases exec_origin hr.reach.inv he hv' with
    | added a link pf hop hni hsrc hdst hpl =>
      subst hop
      obtain ⟨p, d, r, c, rfl⟩ := hpl
      obtain ⟨a0, a1⟩ := hp
      have hc0 := hr.clock
      have hc := hcl nofun
      have hsv := exec_inv hr.reach.inv ha he
      have hhi : lo ≤ hi := by
        have hi' := hsv.veh k _ hv'
        obtain ⟨l, hl⟩ := Option.isSome_iff_exists.1 (hi'.drivable.1 _ (List.mem_of_head? hi'.src))
        obtain ⟨h1, h2⟩ := (ReachBy.exec (.addVehicle a link) hr ha ⟨a0, a1⟩ he).limits _ l hl
        linarith
      have hL : jlo * lo ≤ jhi * hi := mul_le_mul (hj1.trans hj2) hhi hlo.le (by linarith)
      have hm : 4 * a.maxAcc * (D + 0.1) ≤ jlo * lo := by
        refine le_trans ?_ hA
        norm_num
        refine mul_le_mul_of_nonneg_right (by linarith) (by linarith)
      have hpos : 0 ≤ a.maxAcc * (D + 0.1) := mul_nonneg a0 (by norm_num; linarith)
      refine ⟨⟨?_, fun hlt => ?_⟩, a0, a1, ?_, ?_⟩
      · show (0.0 : ℝ) ≤ _
        norm_num at hm hpos ⊢; linarith
      · show (0.0 : ℝ) + (D + 0.1 - s'.accUpdate) * max a.maxAcc (-6.0) ≤ _
        rw [max_eq_left (by norm_num; linarith), hc]
        have : (D + 0.1 - s.accUpdate) * a.maxAcc ≤ (D + 0.1) * a.maxAcc := mul_le_mul_of_nonneg_right (by linarith) a0
        norm_num at hm hpos this ⊢; linarith
      · show jlo ≤ (1.0 : ℝ); norm_num; exact hj1
      · show (1.0 : ℝ) ≤ jhi; norm_num; exact hj2
    | same hv hne =>
      obtain ⟨h1, h2, h3, h4, h5⟩ := ih k v' hv
      refine ⟨?_, h2, h3, h4, h5⟩
      unfold Moderate; rw [hcl hne]; exact h1
    | adjusted v x hv e hop =>
      obtain ⟨sd, f, rfl, rfl⟩ := hop
      subst e
      obtain ⟨h1, h2, h3, h4, h5⟩ := ih k v hv
      refine ⟨?_, h2, h3, (hp k).1, (hp k).2⟩
      unfold Moderate; rw [hcl nofun]; exact h1
    | destined v pf dst hv hop _ _ e =>
      subst hop e
      obtain ⟨h1, h2, h3, h4, h5⟩ := ih k v hv
      refine ⟨?_, h2, h3, h4, h5⟩
      unfold Moderate; rw [hcl nofun]; exact h1
    | shifted v link d pos lc pf hv hop _ _ e =>
      subst hop e
      obtain ⟨h1, h2, h3, h4, h5⟩ := ih k v hv
      refine ⟨?_, h2, h3, h4, h5⟩
      unfold Moderate; rw [hcl nofun]; exact h1
    | stepped dt s1 s2 s3 s4 s5 s6 v v1 v2 v4 hop hsr hv ht =>
      subst hop
      have he : s.step dt = .ok s' := he
      obtain ⟨h1, h2, h3, h4, h5⟩ := ih k v hv
      obtain ⟨d0, d1⟩ := hp
      have hfit : Fits v.acc (D + 0.1) (jhi * hi) s.links := by
        refine ⟨h2, fun lk l hl => ?_⟩
        obtain ⟨l1, l2⟩ := hr.limits lk l hl
        have hv0 : 0 < v.acc.velAdj := by linarith
        refine ⟨mul_pos hv0 (by linarith), mul_le_mul h5 l2 (by linarith) (by linarith), ?_⟩
        refine le_trans ?_ (hA.trans (mul_le_mul h4 l1 hlo.le hv0.le))
        refine mul_le_mul_of_nonneg_right (by linarith) (by norm_num; linarith)
      obtain ⟨-, -, -, ⟨a, p4⟩, -⟩ := step_speed hr.reach he (getVeh_ok.2 hv) (getVeh_ok.2 hv')
      refine ⟨h1.step hr.reach he d0 (by linarith) (getVeh_ok.2 hv) (getVeh_ok.2 hv') hfit, ?_, ?_, ?_, ?_⟩ <;> rw [p4]
      exacts [h2, h3, h4, h5]

/-- **C80** In exact arithmetic no vehicle is ever faster than the greatest speed limit of the network, times the greatest adjustment
factor, whatever is built, added, removed, sent elsewhere or moved to other lanes between steps of at most `D` seconds.  This needs
that all vehicles take at least four times `D + 0.1` seconds to get from rest to the speed they aim for. -/
theorem C80_always [Env] [LawfulDijkstra] {D A lo hi jlo jhi : ℝ} (h : ReachBy strict (Within D A lo hi jlo jhi) s) (hlo : 0 < lo) (hj : 0 < jlo)
    (hj1 : jlo ≤ 1) (hj2 : 1 ≤ jhi) (hD : 0 ≤ D) (hA : 4 * A * (D + 0.1) ≤ jlo * lo) (hv : s.getVehicle k = .ok v) : v.vel ≤ jhi * hi :=
  (h.tame hlo hj hj1 hj2 hD hA k v (getVeh_ok.1 hv)).speed.1

theorem ReachBy.run [Env] {P : Op ℝ → Prop} : ∀ {ops : List (Op ℝ)} {s : Sim ℝ}, ReachBy strict P s → (∀ op ∈ ops, P op ∧ ∀ t, Allowed strict t op) →
    ops.foldlM Sim.exec s = .ok s' → ReachBy strict P s' := by
  intro ops
  induction ops with
  | nil => rintro s h - ⟨⟩; exact h
  | cons op ops ih =>
    intro s h ho hrun
    rw [List.foldlM_cons, M_bind_ok] at hrun
    obtain ⟨s1, h1, hrun⟩ := hrun
    obtain ⟨g1, g2⟩ := ho op (by simp)
    exact ih (.exec op h (g2 s) g1 h1) (fun o h => ho o (by simp [h])) hrun

theorem ReachBy.steps [Env] {P : Op ℝ → Prop} {dts : List ℝ} (h : ReachBy strict P s) (hd : ∀ dt ∈ dts, P (.step dt))
    (hrun : dts.foldlM Sim.step s = .ok s') : ReachBy strict P s' := by
  refine h.run (ops := dts.map .step) (fun op ho => ?_) (by rw [List.foldlM_map]; exact hrun)
  obtain ⟨dt, hdt, rfl⟩ := List.mem_map.1 ho
  exact ⟨hd dt hdt, fun _ => trivial⟩

end

namespace Trip

theorem within [Env] {s : Sim ℝ} {lk : Key} {D : ℝ} (h : (build lk).foldlM Sim.exec .new = .ok s) : ReachBy True (Within D 2 10 10 1 1) s := by
  refine ReachBy.new.run (fun op ho => ?_) h
  simp only [build, List.mem_cons, List.not_mem_nil, or_false] at ho
  rcases ho with rfl | rfl | rfl | rfl
  · exact ⟨⟨le_rfl, le_rfl⟩, fun _ => trivial⟩
  · exact ⟨⟨le_rfl, le_rfl⟩, fun _ => trivial⟩
  · exact ⟨trivial, fun _ => trivial⟩
  · exact ⟨⟨by simp [Lone.car], by simp [Lone.car]⟩, fun _ => trivial⟩

theorem Road.limits [Env] [LawfulDijkstra] {s : Sim ℝ} {lk : Key} {v : Vehicle ℝ} (h : Road s lk v) (hb : ReachBy True (Within 0.5 2 10 10 1 1) s) :
    0 ≤ v.acc.maxAcc ∧ 0 < v.acc.velAdj ∧ (∃ lk l, s.getLinkRef lk = .ok l) ∧
    ∀ lk l, s.getLinkRef lk = .ok l → 0 < l.speedLimit ∧ l.speedLimit ≤ 10 ∧ 4 * v.acc.maxAcc * (0.5 + 0.1) ≤ v.acc.velAdj * l.speedLimit := by
  obtain ⟨x, ex⟩ := h.acc
  rw [ex]
  obtain ⟨l, hl, -⟩ := h.la.ex
  refine ⟨by norm_num, by norm_num, ⟨_, l, getLink_ok.2 hl⟩, fun lk l hl => ?_⟩
  obtain ⟨l1, l2⟩ := hb.limits lk l (getLink_ok.1 hl)
  refine ⟨by linarith, l2, ?_⟩
  norm_num
  linarith

end Trip

open Trip in
/-- Instances of C80: a vehicle starts on the first of two links with a limit of 10 m/s; the simulation half a second later; and any steps
after that. -/
example (dts : List ℝ) (hd : ∀ dt ∈ dts, 0 ≤ dt ∧ dt ≤ 0.5) : ∃ (_ : Env) (_ : LawfulDijkstra) (s0 s s' : Sim ℝ) (k : Key) (v0 v : Vehicle ℝ),
    ReachBy True (Within 0.5 2 10 10 1 1) s ∧ (4 : ℝ) * 2 * (0.5 + 0.1) ≤ 1 * 10 ∧ s.getVehicle k = .ok v ∧ ¬ s.accUpdate < 0.1 ∧
    0 ≤ v.acc.maxAcc ∧ 0 < v.acc.velAdj ∧
    (∀ lk l, s.getLinkRef lk = .ok l → 0 < l.speedLimit ∧ l.speedLimit ≤ 10 ∧ 4 * v.acc.maxAcc * (0.5 + 0.1) ≤ v.acc.velAdj * l.speedLimit) ∧
    v.vel ≤ v.acc.velAdj * 10 ∧ dts.foldlM Sim.step s = .ok s' ∧ ReachBy True (Within 0.5 2 10 10 1 1) s' ∧
    Reach True s0 ∧ 0 ≤ s0.accUpdate ∧ s0.getVehicle k = .ok v0 ∧ 0 ≤ v0.acc.maxAcc ∧ 0 < v0.acc.velAdj ∧ (∃ lk l, s0.getLinkRef lk = .ok l) ∧
    (∀ lk l, s0.getLinkRef lk = .ok l → 0 < l.speedLimit ∧ l.speedLimit ≤ 10 ∧ 4 * v0.acc.maxAcc * (0.5 + 0.1) ≤ v0.acc.velAdj * l.speedLimit) ∧
    v0.vel = 0 ∧ (0.5 :: dts).foldlM Sim.step s0 = .ok s' := by
  obtain ⟨N, s0, ⟨z1, -, -, v0, hb, p0, q0⟩, hp, hn, h⟩ :=
    @program_runs (Lone.env 0) (Lone.lawful 0) _ (Search.full_ends _) _ (leads (.inl rfl))
  obtain ⟨N1, s1, hN1, h1, hp1, hn1⟩ := @call (Lone.env 0) (Lone.lawful 0) (Search.full_ends _) s0 N (fun n hn => (h n hn).1) hp hn (.step 0.5)
    trivial trivial
  obtain ⟨N2, s2, hN2, h2⟩ := @Relay.calls (Lone.env 0) (Lone.lawful 0) (Search.full_ends _) dts s1 N1 (fun n hn => (h1 n hn).2) hp1 hn1
  let env : Env := @Env.withFuel (Lone.env 0) N2
  have hlaw : LawfulDijkstra := @LawfulDijkstra.withFuel (Lone.env 0) (Lone.lawful 0) N2
  obtain ⟨r0, k0⟩ : Reach True s0 ∧ (build ⟨0, 1⟩).foldlM Sim.exec .new = .ok s0 := h N2 (by omega)
  obtain ⟨k1, r1⟩ : s0.step 0.5 = .ok s1 ∧ Reach True s1 := h1 N2 (by omega)
  have k2 : dts.foldlM Sim.step s1 = .ok s2 := h2 N2 le_rfl
  obtain ⟨v1, hb1, a1, a2, a3⟩ := hb.step (.inl rfl) r0 k1 (by norm_num) (by rw [p0, q0]; norm_num)
  have by0 : ReachBy True (Within 0.5 2 10 10 1 1) s0 := within k0
  have by1 : ReachBy True (Within 0.5 2 10 10 1 1) s1 := .exec (.step 0.5) by0 trivial ⟨by norm_num, le_rfl⟩ k1
  have hclk := (clocks r0 k1).1
  obtain ⟨x, ex⟩ := hb1.acc
  obtain ⟨l1, l2, -, l4⟩ := hb1.limits by1
  obtain ⟨m1, m2, m3, m4⟩ := hb.limits by0
  exact ⟨env, hlaw, s0, s1, s2, ⟨0, 1⟩, v0, v1, by1, by norm_num, hb1.gv, by rw [hclk, z1]; norm_num, l1, l2, l4,
    by rw [ex]; rw [q0] at a1; norm_num at a1 ⊢; linarith, k2, by1.steps hd k2, r0, by rw [z1], hb.gv, m1, m2, m3, m4, q0,
    by rw [List.foldlM_cons, k1]; exact k2⟩

end TrafficSim
