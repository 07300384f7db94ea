import Verif.Props.Binary
import Verif.Props.Dynamics

/-! # C22, C23: speed limits and car following in binary64 -/

namespace TrafficSim

open B64

section
variable {strict : Prop} {s s' : Sim Float} {dt : Float}

theorem val_one : val 1.0 = 1 := by
  have : (1.0 : Float).toModel.unpack = .finite .positive (2 ^ 52) (-52) (by norm_num) := by rfl
  unfold val
  rw [this]
  show ((mval (2 ^ 52) (-52) : ℝ) : EReal) = 1
  unfold mval
  norm_num

/-- The least of some numbers is at most each of them. -/
theorem foldl_fmin_mem {as : List Float} {x a : Float} (h : x ∈ as) (hx : x.isNaN = false) : as.foldl fmin a ≤ x := by
  induction as generalizing a with
  | nil => cases h
  | cons b as ih =>
    rcases List.mem_cons.1 h with rfl | h
    · refine foldl_fmin_le as ?_
      simp only [fmin]
      split
      · exact le_iff.2 ⟨hx, hx, le_rfl⟩
      · next hc =>
        rw [not_or, Bool.not_eq_true] at hc
        exact le_of_not_lt_float hc.2 hx hc.1
    · exact ih h

/-- The square of a number is a number, not negative. -/
theorem square_num {t : Float} (h : t.isNaN = false) : Rounding (val t * val t) (t * t) := by
  by_cases h0 : val t = 0
  · exact mul_rounding h h (.inl (by rw [h0]; exact ⟨EReal.zero_ne_top, EReal.zero_ne_bot⟩))
      (.inl (by rw [h0]; exact ⟨EReal.zero_ne_top, EReal.zero_ne_bot⟩))
  · exact mul_rounding h h (.inr h0) (.inr h0)

theorem mul_self_mono {x y : EReal} (h : (0 ≤ x ∧ x ≤ y) ∨ (y ≤ x ∧ x ≤ 0)) : x * x ≤ y * y := by
  rcases h with ⟨h0, h1⟩ | ⟨h0, h1⟩
  · exact mul_le_mul h1 h1 h0 (h0.trans h1)
  · have a : 0 ≤ -x := by rw [EReal.le_neg]; simpa using h1
    have b : -x ≤ -y := EReal.neg_le_neg_iff.2 h0
    have := mul_le_mul b b a (a.trans b)
    simpa using this

theorem mul_self_nonneg' (x : EReal) : 0 ≤ x * x := by
  have := mul_self_mono (x := 0) (y := x) ((le_total 0 x).imp (fun h => ⟨le_rfl, h⟩) fun h => ⟨h, le_rfl⟩)
  simpa using this

/-- `1 - t²`. -/
theorem one_sub_square {t : Float} (h : t.isNaN = false) : 0 ≤ val (t * t) ∧ Rounding (1 - val (t * t)) (1.0 - t * t) := by
  have hr := square_num h
  have h0 : 0 ≤ val (t * t) := by
    have := hr.below 0.0 (by decide +kernel) (by rw [val_zero]; exact mul_self_nonneg' _)
    rwa [val_zero] at this
  refine ⟨h0, ?_⟩
  have := sub_rounding (x := 1.0) (by decide +kernel) hr.num (.inl (by rw [val_one]; exact EReal.coe_ne_top 1))
    (.inl (by rw [val_one]; exact EReal.coe_ne_bot 1))
  rwa [val_one] at this

/-- `a (1 - t²)` for a finite `a > 0`. -/
theorem brake_rounding {a t : Float} (ha : 0.0 < a) (hfin : a.isFinite = true) (h : t.isNaN = false) :
    Rounding (val a * val (1.0 - t * t)) (a * (1.0 - t * t)) := by
  obtain ⟨an, at', ab⟩ := finite_iff.1 hfin
  have := (lt_iff.1 ha).2.2
  rw [val_zero] at this
  exact mul_rounding an (one_sub_square h).2.num (.inl ⟨at', ab⟩) (.inr this.ne')

theorem brake_mono {a t t' : Float} (ha : 0.0 < a) (hfin : a.isFinite = true) (h : t.isNaN = false) (h' : t'.isNaN = false)
    (hle : (0 ≤ val t' ∧ val t' ≤ val t) ∨ (val t ≤ val t' ∧ val t' ≤ 0)) :
    val (a * (1.0 - t * t)) ≤ val (a * (1.0 - t' * t')) := by
  have h0 := (lt_iff.1 ha).2.2
  rw [val_zero] at h0
  refine (brake_rounding ha hfin h).le (brake_rounding ha hfin h') (mul_le_mul_of_nonneg_left ?_ h0.le)
  refine (one_sub_square h).2.le (one_sub_square h').2 (EReal.sub_le_sub le_rfl ?_)
  exact (square_num h').le (square_num h) (mul_self_mono hle)

/-! ## C22 -/

theorem limit_brakes {a u lim : Float} (ha : 0.0 < a) (hafin : a.isFinite = true) (hu : u.isFinite = true) (hl : 0.0 < lim)
    (hlt : lim ≤ u) : a * (1.0 - pow4 (u / lim)) ≤ 0.0 := by
  obtain ⟨un, ut, ub⟩ := finite_iff.1 hu
  obtain ⟨-, ln, hl⟩ := lt_iff.1 hl
  rw [val_zero] at hl
  have hlt := (le_iff.1 hlt).2.2
  have one_le : ∀ {w : Float} {z : EReal}, Rounding z w → 1 ≤ z → 1 ≤ val w := by
    intro w z hr hz
    have := hr.below 1.0 (by decide +kernel) (by rw [val_one]; exact hz)
    rwa [val_one] at this
  have hq := div_rounding un ln (.inl ⟨ut, ub⟩) hl.ne'
  have hq1 : 1 ≤ val (u / lim) := by
    refine one_le hq ?_
    rw [EReal.le_div_iff_mul_le hl (fun h => ut (top_le_iff.1 (h ▸ hlt))), one_mul]
    exact hlt
  have hs := square_num hq.num
  have hs1 : 1 ≤ val (u / lim * (u / lim)) := one_le hs (one_le_mul_of_one_le_of_one_le hq1 hq1)
  have h4 := one_sub_square hs.num
  have h41 : 1 ≤ val (u / lim * (u / lim) * (u / lim * (u / lim))) :=
    one_le (square_num hs.num) (one_le_mul_of_one_le_of_one_le hs1 hs1)
  have hneg : val (1.0 - u / lim * (u / lim) * (u / lim * (u / lim))) ≤ 0 := by
    have := h4.2.above 0.0 (by decide +kernel) (by
      rw [val_zero]
      have := EReal.sub_le_sub (le_refl (1 : EReal)) h41
      exact this.trans (EReal.sub_self (EReal.coe_ne_top 1) (EReal.coe_ne_bot 1)).le)
    rwa [val_zero] at this
  have hb := brake_rounding ha hafin hs.num
  refine le_iff.2 ⟨hb.num, by decide +kernel, ?_⟩
  refine hb.above 0.0 (by decide +kernel) ?_
  rw [val_zero]
  have h0 := (lt_iff.1 ha).2.2
  rw [val_zero] at h0
  have := mul_le_mul_of_nonneg_left hneg h0.le
  rwa [mul_zero] at this

/-- **C22** (above, binary64) In floating point arithmetic, if accelerations are recomputed, a vehicle at or above the speed limit
of its link, times its adjustment factor, does not get faster.  Its link is the one it is on after lane changes. -/
theorem C22_above_float [Env] [LawfulDijkstra] (h : Reach strict s) (hst : s.step dt = .ok s') (hre : ¬ s.accUpdate < 0.1)
    {k lk : Key} {l1 : Link Float} {v v1 v' : Vehicle Float} {s1 : Sim Float} (hv : s.getVehicle k = .ok v)
    (hv' : s'.getVehicle k = .ok v') (hlanes : s.calculateLaneChanges = .ok s1) (hv1 : s1.getVehicle k = .ok v1)
    (hlk : v1.linkId = some lk) (hl : s1.getLinkRef lk = .ok l1) (hdt : (0.0 : Float) ≤ dt) (hfin : dt.isFinite = true)
    (hmax : 0.0 < v.acc.maxAcc) (hmfin : v.acc.maxAcc.isFinite = true) (hlim : 0.0 < v.acc.velAdj * l1.speedLimit)
    (hvel : v.acc.velAdj * l1.speedLimit ≤ v.vel) : v'.vel ≤ v.vel := by
  have n0 := C20_number_float h hv
  have n1 := C20_number_float (.exec (.step dt) h trivial hst) hv'
  obtain ⟨vn, v0⟩ := nonneg_iff.1 n0
  by_cases hvt : val v.vel = ⊤
  · exact le_iff.2 ⟨(nonneg_iff.1 n1).1, vn, by rw [hvt]; exact le_top⟩
  have hvfin : v.vel.isFinite = true := finite_iff.2 ⟨vn, hvt, ne_bot_of_nonneg v0⟩
  obtain ⟨s1', s2, s3, s4, s5, s6, hr⟩ := (step_spec h.inv dt).ok hst
  rw [hr.run1] at hlanes; cases hlanes
  obtain ⟨v1', v2, v4, ht⟩ := hr.trace (getVeh_ok.1 hv)
  have g1 := ht.get1
  rw [getVeh_ok.1 hv1] at g1; cases g1
  obtain ⟨e, ea, -⟩ := ht.vel (getVeh_ok.1 hv')
  obtain ⟨e1, e2, -⟩ := ht.steer.same
  have ef : s1.accUpdate = s.accUpdate := hr.clocks.1
  have hacc : v2.acc.acc ≤ 0.0 := by
    rcases ht.acc with ⟨hlt, -⟩ | ⟨-, n0, n1, vs, har, ha⟩
    · rw [ef] at hlt; exact absurd hlt hre
    by_cases hf : k ∈ s1.frozen
    · obtain ⟨a, w, ev2, -, hz, -⟩ := ha.eq
      rw [ev2, hz hf]
      show (-6.0 : Float) ≤ 0.0
      decide +kernel
    · have hk : k ∈ l1.vehicles := ((hr.inv1.mem lk l1 (getLink_ok.1 hl)).2 k).2 ⟨v1, getVeh_ok.1 hv1, hlk⟩
      have g2 := ht.get2
      rw [hr.vehicles3] at g2
      obtain ⟨w, as, x, hw, hx, ew⟩ := har.limit hr.inv1.mid (getLink_ok.1 hl) (getVeh_ok.1 hv1) hk hf
      rw [g2] at hw; cases hw
      have hb : v1.limitAcc l1.speedLimit ≤ 0.0 := by
        unfold Vehicle.limitAcc
        rw [e1, e2]
        exact limit_brakes hmax hmfin hvfin hlim hvel
      obtain ⟨bn, b0, ble⟩ := le_iff.1 hb
      rw [ew]
      obtain ⟨cn, -, cle⟩ := le_iff.1 (foldl_fmin_mem hx bn)
      exact le_iff.2 ⟨cn, b0, cle.trans ble⟩
  obtain ⟨g, hg⟩ : ∃ g, g = v2.acc.getAcc := ⟨_, rfl⟩
  rw [← hg] at e
  have hgle : g ≤ 0.0 := by
    rw [hg]
    unfold AccelerationModel.getAcc
    rcases fmax_cases v2.acc.acc maxDecel with ⟨hf, -⟩ | ⟨hf, -⟩ <;> rw [hf]
    · show (-6.0 : Float) ≤ 0.0
      decide +kernel
    · exact hacc
  have hgge : (-6.0 : Float) ≤ g := by
    rw [hg]
    unfold AccelerationModel.getAcc
    rcases fmax_cases v2.acc.acc maxDecel with ⟨hf, -⟩ | ⟨hf, hc, hn⟩ <;> rw [hf]
    · show (-6.0 : Float) ≤ -6.0
      decide +kernel
    · exact le_of_not_lt_float (by decide +kernel) hn hc
  obtain ⟨gn, -, gle⟩ := le_iff.1 hgle
  rw [val_zero] at gle
  have gfin : g.isFinite = true := finite_iff.2 ⟨gn, fun ht => by rw [ht] at gle; exact absurd gle (not_le_of_gt EReal.zero_lt_top), fun hb => by
    have := (le_iff.1 hgge).2.2
    rw [hb] at this
    have h6 : (-6.0 : Float).isFinite = true := by decide +kernel
    exact (finite_iff.1 h6).2.2 (le_bot_iff.1 this)⟩
  obtain ⟨dn, d0⟩ := nonneg_iff.1 hdt
  have hp := mul_rounding dn gn (.inl (finite_iff.1 hfin).2) (.inl (finite_iff.1 gfin).2)
  have hp0 : val (dt * g) ≤ 0 := by
    have := hp.above 0.0 (by decide +kernel) (by
      rw [val_zero]
      have := mul_le_mul_of_nonneg_left gle d0
      rwa [mul_zero] at this)
    rwa [val_zero] at this
  have hs := add_rounding vn hp.num (.inl hvt) (.inl (ne_bot_of_nonneg v0))
  have hsle : val (v.vel + dt * g) ≤ val v.vel := hs.above v.vel vn (by
    have := add_le_add_right hp0 (val v.vel)
    rwa [add_zero] at this)
  refine le_iff.2 ⟨(nonneg_iff.1 n1).1, vn, ?_⟩
  rw [e]
  rcases fmax_cases (v.vel + dt * g) 0.0 with ⟨hf, -⟩ | ⟨hf, -⟩ <;> rw [hf]
  · rw [val_zero]; exact v0
  · exact hsle

/-! ## C23 -/

theorem fmin_cases (x y : Float) : (fmin x y = y ∧ (y < x ∨ x.isNaN = true)) ∨ (fmin x y = x ∧ ¬ y < x ∧ x.isNaN = false) := by
  simp only [fmin]
  split
  · next h => exact .inl ⟨rfl, h⟩
  · next h =>
    rw [not_or, Bool.not_eq_true] at h
    exact .inr ⟨rfl, h⟩

theorem refl_float {x : Float} (h : x.isNaN = false) : x ≤ x := le_iff.2 ⟨h, h, le_rfl⟩

theorem fmax_mono {x y z : Float} (h : x ≤ y) (hz : z.isNaN = false) : fmax x z ≤ fmax y z := by
  obtain ⟨xn, yn, hle⟩ := le_iff.1 h
  rcases fmax_cases x z with ⟨hx, -⟩ | ⟨hx, hx', -⟩ <;> rcases fmax_cases y z with ⟨hy, hy'⟩ | ⟨hy, hy', -⟩ <;> rw [hx, hy]
  · exact refl_float hz
  · exact le_of_not_lt_float hz yn hy'
  · rcases hy' with hlt | hn
    · exact absurd (lt_iff.2 ⟨xn, hz, hle.trans_lt (lt_iff.1 hlt).2.2⟩) hx'
    · rw [yn] at hn; cases hn
  · exact h

theorem followAcc_float (m : AccelerationModel Float) (gap v u : Float) :
    followAcc m gap v u = fmax (fmin m.maxAcc (m.idm gap v u)) maxDecel := rfl

/-- Comparing accelerations: it is enough to compare those that are numbers. -/
theorem follow_le {m : AccelerationModel Float} (hm : m.maxAcc.isNaN = false) {gap v u gap' v' u' : Float}
    (h : (m.idm gap' v' u').isNaN = false → m.idm gap v u ≤ m.idm gap' v' u') : followAcc m gap v u ≤ followAcc m gap' v' u' := by
  rw [followAcc_float, followAcc_float]
  refine fmax_mono ?_ (show (-6.0 : Float).isNaN = false by decide +kernel)
  rcases fmin_cases m.maxAcc (m.idm gap' v' u') with ⟨hf, hc⟩ | ⟨hf, -⟩
  · rw [hf]
    have hlt : m.idm gap' v' u' < m.maxAcc := by
      rcases hc with hc | hc
      · exact hc
      · rw [hm] at hc; cases hc
    have hle := h (lt_iff.1 hlt).1
    obtain ⟨an, bn, hab⟩ := le_iff.1 hle
    rcases fmin_cases m.maxAcc (m.idm gap v u) with ⟨hf', -⟩ | ⟨hf', hc', -⟩
    · rw [hf']; exact hle
    · exact absurd (lt_iff.2 ⟨an, hm, hab.trans_lt (lt_iff.1 hlt).2.2⟩) hc'
  · rw [hf]; exact fmin_le (refl_float hm)

/-- **C23** (range, binary64) The acceleration is between full braking and the maximum acceleration, whatever the arguments are,
NaN included. -/
theorem C23_range_float (m : AccelerationModel Float) (h : 0.0 ≤ m.maxAcc) (gap v u : Float) :
    -6.0 ≤ followAcc m gap v u ∧ followAcc m gap v u ≤ m.maxAcc := by
  have hm := (nonneg_iff.1 h).1
  exact getAcc_bounds (m := m.reset.followVehicle gap v u) h (.inl (fmin_le (refl_float hm)))

/-- **C23** (full braking, binary64) At or below a gap of 2 m a vehicle whose maximum acceleration is at least 0.6 m/s² brakes at
full strength. -/
theorem C23_full_braking_float (m : AccelerationModel Float) (h : 0.6 ≤ m.maxAcc) {gap : Float} (hg : gap ≤ 2.0) (v u : Float) :
    -6.0 ≤ followAcc m gap v u ∧ followAcc m gap v u ≤ -6.0 := by
  obtain ⟨-, hmn, hm⟩ := le_iff.1 h
  have h6 : (0.6 : Float).isNaN = false := by decide +kernel
  have h60 : 0 < val (0.6 : Float) := by
    have := (lt_iff.1 (show (0.0 : Float) < 0.6 by decide +kernel)).2.2
    rwa [val_zero] at this
  have h0 : 0 < val m.maxAcc := h60.trans_le hm
  refine ⟨(C23_range_float m (nonneg_iff.2 ⟨hmn, h0.le⟩) _ _ _).1, ?_⟩
  have hidm : m.idm gap v u = -10.0 * m.maxAcc := by
    unfold AccelerationModel.idm
    exact if_pos hg
  have h10 : (-10.0 : Float).isFinite = true := by decide +kernel
  have hneg : val (-10.0 : Float) < 0 := (lt_zero_iff.1 (show (-10.0 : Float) < 0.0 by decide +kernel)).2
  have hr := mul_rounding (finite_iff.1 h10).1 hmn (.inl (finite_iff.1 h10).2) (.inr hneg.ne)
  have hr6 := mul_rounding (finite_iff.1 h10).1 h6 (.inl (finite_iff.1 h10).2) (.inr hneg.ne)
  have hle : val (-10.0 * m.maxAcc) ≤ val (-6.0 : Float) := by
    have e : val (-10.0 * 0.6 : Float) = val (-6.0 : Float) := by
      have : (-10.0 * 0.6 : Float) ≤ -6.0 ∧ (-6.0 : Float) ≤ -10.0 * 0.6 := by decide +kernel
      exact le_antisymm (le_iff.1 this.1).2.2 (le_iff.1 this.2).2.2
    rw [← e]
    refine hr.le hr6 ?_
    have := mul_le_mul_of_nonneg_left hm (show 0 ≤ -val (-10.0 : Float) by rw [EReal.le_neg]; simpa using hneg.le)
    rw [neg_mul, neg_mul] at this
    exact EReal.neg_le_neg_iff.1 this
  have h6n : (-6.0 : Float).isNaN = false := by decide +kernel
  have hm6 : val (-6.0 : Float) < val m.maxAcc := (lt_zero_iff.1 (show (-6.0 : Float) < 0.0 by decide +kernel)).2.trans h0
  rw [followAcc_float, hidm]
  rcases fmin_cases m.maxAcc (-10.0 * m.maxAcc) with ⟨hf, -⟩ | ⟨hf, hc, -⟩
  · rw [hf]
    rcases fmax_cases (-10.0 * m.maxAcc) maxDecel with ⟨hf, -⟩ | ⟨hf, -⟩ <;> rw [hf]
    · exact refl_float h6n
    · exact le_iff.2 ⟨hr.num, h6n, hle⟩
  · exact absurd (lt_iff.2 ⟨hr.num, hmn, hle.trans_lt hm6⟩) hc

theorem lt_of_not_le_float {x y : Float} (hx : x.isNaN = false) (hy : y.isNaN = false) (h : ¬ y ≤ x) : val x < val y :=
  lt_of_not_ge fun hle => h (le_iff.2 ⟨hy, hx, hle⟩)

/-- The gap that the model wants to keep. -/
def wantedGap (m : AccelerationModel Float) (v u : Float) : Float :=
  2.0 + v * m.headway + v * (v - u) * (1.0 / (2.0 * (m.maxAcc * m.comfDec).sqrt))

theorem idm_far_float (m : AccelerationModel Float) {gap : Float} (h : ¬ gap ≤ 2.0) (v u : Float) :
    m.idm gap v u = m.maxAcc * (1.0 - wantedGap m v u / gap * (wantedGap m v u / gap)) := by
  unfold AccelerationModel.idm
  exact if_neg h

theorem pos_two : 0 < val (2.0 : Float) := by
  have := (lt_iff.1 (show (0.0 : Float) < 2.0 by decide +kernel)).2.2
  rwa [val_zero] at this

/-- A larger divisor gives a lesser quotient. -/
theorem div_antitone {x y z : EReal} (hy : 0 < y) (hyz : y ≤ z) (hx : 0 ≤ x) : 0 ≤ x / z ∧ x / z ≤ x / y := by
  have hz : 0 < z := hy.trans_le hyz
  have h0 : 0 ≤ x / z := EReal.div_nonneg hx hz.le
  refine ⟨h0, ?_⟩
  induction z with
  | bot => exact absurd hz (not_lt_of_ge bot_le)
  | top =>
    rw [EReal.div_top]
    exact EReal.div_nonneg hx hy.le
  | coe z =>
    induction y with
    | bot => exact absurd hy (not_lt_of_ge bot_le)
    | top => exact absurd hyz (not_le_of_gt (EReal.coe_lt_top z))
    | coe y =>
      have hy : 0 < y := EReal.coe_pos.1 hy
      have hz : 0 < z := EReal.coe_pos.1 hz
      induction x with
      | bot => exact absurd hx (not_le_of_gt EReal.bot_lt_zero)
      | top => rw [EReal.top_div_of_pos_ne_top (EReal.coe_pos.2 hy) (EReal.coe_ne_top y)]; exact le_top
      | coe x =>
        rw [← EReal.coe_div, ← EReal.coe_div, EReal.coe_le_coe_iff]
        exact div_le_div_of_nonneg_left (EReal.coe_nonneg.1 hx) hy (EReal.coe_le_coe_iff.1 hyz)

/-- What an acceleration that is a number was computed from. -/
theorem brake_num {a w g : Float} (h : (a * (1.0 - w / g * (w / g))).isNaN = false) : (w / g).isNaN = false :=
  (mul_num (sub_num (mul_num h).2.1).2.1).1

/-- **C23** (gap, binary64) In floating point arithmetic, too, the acceleration never increases when the gap shrinks. -/
theorem C23_gap_monotone_float (m : AccelerationModel Float) (h : 0.6 ≤ m.maxAcc) (hfin : m.maxAcc.isFinite = true)
    {gap gap' : Float} (hg : gap ≤ gap') (v u : Float) : followAcc m gap v u ≤ followAcc m gap' v u := by
  obtain ⟨-, hmn, hm⟩ := le_iff.1 h
  have h60 : 0 < val (0.6 : Float) := by
    have := (lt_iff.1 (show (0.0 : Float) < 0.6 by decide +kernel)).2.2
    rwa [val_zero] at this
  have hM : 0.0 < m.maxAcc := lt_iff.2 ⟨by decide +kernel, hmn, by rw [val_zero]; exact h60.trans_le hm⟩
  obtain ⟨gn, gn', gle⟩ := le_iff.1 hg
  by_cases h2 : gap ≤ 2.0
  · have a := (C23_full_braking_float m h h2 v u).2
    have b := (C23_range_float m (nonneg_iff.2 ⟨hmn, (h60.trans_le hm).le⟩) gap' v u).1
    obtain ⟨a1, -, a3⟩ := le_iff.1 a
    obtain ⟨-, b2, b3⟩ := le_iff.1 b
    exact le_iff.2 ⟨a1, b2, a3.trans b3⟩
  · have hlt := lt_of_not_le_float (by decide +kernel) gn h2
    have g0 : 0 < val gap := pos_two.trans hlt
    have g0' : 0 < val gap' := g0.trans_le gle
    have h2' : ¬ gap' ≤ 2.0 := fun h => absurd (le_iff.1 h).2.2 (not_le_of_gt (hlt.trans_le gle))
    refine follow_le hmn fun hnum => ?_
    rw [idm_far_float m h2, idm_far_float m h2']
    rw [idm_far_float m h2'] at hnum
    generalize wantedGap m v u = w at hnum ⊢
    have tn' := brake_num hnum
    obtain ⟨wn, -, hinf, hr'⟩ := div_num tn'
    have hr' := hr' g0'.ne'
    have hr := div_rounding wn gn (hinf.imp id fun hi => ⟨fun ht => hi.1 (top_le_iff.1 (ht ▸ gle)), ne_bot_of_nonneg g0.le⟩) g0.ne'
    refine le_iff.2 ⟨(brake_rounding hM hfin hr.num).num, hnum, brake_mono hM hfin hr.num tn' ?_⟩
    have z1 : ∀ {z : EReal} {t : Float}, Rounding z t → 0 ≤ z → 0 ≤ val t := by
      intro z t hr hz
      have := hr.below 0.0 (by decide +kernel) (by rw [val_zero]; exact hz)
      rwa [val_zero] at this
    have z2 : ∀ {z : EReal} {t : Float}, Rounding z t → z ≤ 0 → val t ≤ 0 := by
      intro z t hr hz
      have := hr.above 0.0 (by decide +kernel) (by rw [val_zero]; exact hz)
      rwa [val_zero] at this
    rcases le_total 0 (val w) with hw | hw
    · obtain ⟨d0, d1⟩ := div_antitone g0 gle hw
      exact .inl ⟨z1 hr' d0, hr'.le hr d1⟩
    · have hw' : 0 ≤ -val w := by rw [EReal.le_neg]; simpa using hw
      obtain ⟨d0, d1⟩ := div_antitone g0 gle hw'
      have hneg : ∀ z, -val w / z = -(val w / z) := fun z => by rw [EReal.div_eq_inv_mul, EReal.div_eq_inv_mul, mul_neg]
      rw [hneg] at d0 d1
      rw [hneg, EReal.neg_le_neg_iff] at d1
      rw [EReal.le_neg, neg_zero] at d0
      exact .inr ⟨hr.le hr' d1, z2 hr' d0⟩

/-- The factor of the approaching speed is not negative. -/
theorem factor_nonneg {p : Float} (hp : 0.0 < p) : 0 ≤ val (1.0 / (2.0 * p.sqrt)) ∧ (1.0 / (2.0 * p.sqrt)).isNaN = false := by
  obtain ⟨-, pn, p0⟩ := lt_iff.1 hp
  rw [val_zero] at p0
  have hs : p.sqrt.isNaN = false ∧ 0 < val p.sqrt := by
    obtain ⟨z, hz⟩ : ∃ z, z = val p := ⟨_, rfl⟩
    rw [← hz] at p0
    induction z with
    | bot => exact absurd p0 (not_lt_of_ge bot_le)
    | top =>
      have hu : p.toModel.unpack = .infinity .positive := by
        unfold val at hz
        generalize p.toModel.unpack = w at hz
        rcases w with (_ | _) | _ | (_ | _) | ⟨(_ | _), m, e, h⟩
        · exact absurd hz (by simp [uval])
        · rfl
        all_goals exact absurd hz.symm (EReal.coe_ne_top _)
      have hp : p.sqrt.toModel.unpack = .infinity .positive := by
        have : p.sqrt.toModel.unpack = settle (Float.Model.UnpackedFloat.sqrt .binary64 p.toModel.unpack) := by
          refine unpack_pack _ ?_
          rw [hu]
          exact fun _ _ _ _ h => Float.Model.UnpackedFloat.noConfusion h
        rw [this, hu]
        rfl
      refine ⟨?_, ?_⟩
      · rw [← Bool.not_eq_true, isNaN_iff, hp]
        decide
      · unfold val
        rw [hp]
        exact EReal.zero_lt_top
    | coe r =>
      have r0 : 0 < r := EReal.coe_pos.1 p0
      have hr := sqrt_rounding pn hz.symm r0.le
      refine ⟨hr.num, ?_⟩
      rcases le_total r 1 with h1 | h1
      · refine p0.trans_le ?_
        rw [hz]
        refine hr.below p pn ?_
        rw [← hz, EReal.coe_le_coe_iff]
        exact Real.le_sqrt_of_sq_le (by nlinarith)
      · refine lt_of_lt_of_le zero_lt_one ?_
        rw [← val_one]
        refine hr.below 1.0 (by decide +kernel) ?_
        rw [val_one, ← EReal.coe_one, EReal.coe_le_coe_iff]
        exact Real.le_sqrt_of_sq_le (by nlinarith)
  have h2 := mul_rounding (x := 2.0) (by decide +kernel) hs.1 (.inr hs.2.ne') (.inr pos_two.ne')
  have h20 : 0 < val (2.0 * p.sqrt) := by
    refine hs.2.trans_le (h2.below _ hs.1 ?_)
    have h12 : 1 ≤ val (2.0 : Float) := by
      have := (le_iff.1 (show (1.0 : Float) ≤ 2.0 by decide +kernel)).2.2
      rwa [val_one] at this
    have := mul_le_mul_of_nonneg_right h12 hs.2.le
    rwa [one_mul] at this
  have hq := div_rounding (x := 1.0) (by decide +kernel) h2.num (.inl (by rw [val_one]; exact ⟨EReal.coe_ne_top 1, EReal.coe_ne_bot 1⟩)) h20.ne'
  refine ⟨?_, hq.num⟩
  have := hq.below 0.0 (by decide +kernel) (by
    rw [val_zero, val_one]
    exact EReal.div_nonneg zero_le_one h20.le)
  rwa [val_zero] at this

/-- The wanted gap shrinks with the speed of the leader. -/
theorem wantedGap_mono {m : AccelerationModel Float} (hf : 0.0 < m.maxAcc * m.comfDec) {v u u' : Float} (hv : 0.0 ≤ v)
    (hu : u ≤ u') (hn : (wantedGap m v u).isNaN = false) (hn' : (wantedGap m v u').isNaN = false) :
    val (wantedGap m v u') ≤ val (wantedGap m v u) := by
  unfold wantedGap at hn hn' ⊢
  obtain ⟨h0, -⟩ := factor_nonneg hf
  generalize 1.0 / (2.0 * (m.maxAcc * m.comfDec).sqrt) = f at hn hn' h0 ⊢
  obtain ⟨-, p, r⟩ := add_num hn
  obtain ⟨-, p', r'⟩ := add_num hn'
  obtain ⟨q, -, rq⟩ := mul_num p
  obtain ⟨q', -, rq'⟩ := mul_num p'
  obtain ⟨-, a, ra⟩ := mul_num q
  obtain ⟨-, a', ra'⟩ := mul_num q'
  obtain ⟨-, -, rd⟩ := sub_num a
  obtain ⟨-, -, rd'⟩ := sub_num a'
  refine r'.le r (add_le_add_right ?_ _)
  refine rq'.le rq (mul_le_mul_of_nonneg_right ?_ h0)
  refine ra'.le ra (mul_le_mul_of_nonneg_left ?_ (nonneg_iff.1 hv).2)
  exact rd'.le rd (EReal.sub_le_sub le_rfl (le_iff.1 hu).2.2)

/-- **C23** (leader, binary64), partial: in floating point arithmetic, too, the acceleration never increases when the leader slows
down, as long as the wanted gap, as the code computes it, does not get negative or NaN.  What is missing: without this hypothesis
the claim is false, see `C23_leader_not_monotone`. -/
theorem C23_leader_monotone_float_partial (m : AccelerationModel Float) (hM : 0.0 < m.maxAcc) (hfin : m.maxAcc.isFinite = true)
    (hf : 0.0 < m.maxAcc * m.comfDec) {v u u' : Float} (hv : 0.0 ≤ v) (hu : u ≤ u') {gap : Float} (hg : gap.isFinite = true)
    (hn : (wantedGap m v u).isNaN = false) (hss : 0.0 ≤ wantedGap m v u') :
    followAcc m gap v u ≤ followAcc m gap v u' := by
  obtain ⟨hmn, -⟩ := finite_iff.1 hfin
  obtain ⟨gn, gt, gb⟩ := finite_iff.1 hg
  obtain ⟨sn, s0⟩ := nonneg_iff.1 hss
  refine follow_le hmn fun hnum => ?_
  by_cases h2 : gap ≤ 2.0
  · have : ∀ u, m.idm gap v u = -10.0 * m.maxAcc := fun u => by
      unfold AccelerationModel.idm
      exact if_pos h2
    rw [this u, ← this u']
    exact refl_float hnum
  · have hlt := lt_of_not_le_float (by decide +kernel) gn h2
    have g0 : 0 < val gap := pos_two.trans hlt
    have hw := wantedGap_mono hf hv hu hn sn
    rw [idm_far_float m h2] at hnum
    rw [idm_far_float m h2, idm_far_float m h2]
    have hr := div_rounding hn gn (.inr ⟨gt, gb⟩) g0.ne'
    have hr' := div_rounding sn gn (.inr ⟨gt, gb⟩) g0.ne'
    refine le_iff.2 ⟨(brake_rounding hM hfin hr.num).num, hnum, brake_mono hM hfin hr.num hr'.num (.inl ⟨?_, ?_⟩)⟩
    · have := hr'.below 0.0 (by decide +kernel) (by rw [val_zero]; exact EReal.div_nonneg s0 g0.le)
      rwa [val_zero] at this
    · exact hr'.le hr (EReal.div_le_div_right_of_nonneg g0.le hw)

end

/-! ## Examples -/

namespace Drive
attribute [local instance] Town.env

/-- A road on which a car is too fast after the first step. -/
def slowOps : List (Op Float) :=
  [.addLink ⟨Town.street 0.0 0.0 1.0 0.0 50.0, 0.3⟩, .addVehicle Town.car ⟨0, 1⟩, .setVehicleDestination ⟨0, 1⟩ ⟨0, 1⟩, .step 0.2]

def slowTest (s s' : Sim Float) : Bool :=
  decide (¬ s.accUpdate < 0.1) &&
  match s.calculateLaneChanges with
  | .ok s1 => match s.vehicles.get? ⟨0, 1⟩, s1.vehicles.get? ⟨0, 1⟩, s'.vehicles.get? ⟨0, 1⟩, s1.links.get? ⟨0, 1⟩ with
    | some v, some v1, some v', some l =>
      v1.route.head? == some ⟨0, 1⟩ && decide ((0.0 : Float) < v.acc.maxAcc) && v.acc.maxAcc.isFinite &&
      decide ((0.0 : Float) < v.acc.velAdj * l.speedLimit) && decide (v.acc.velAdj * l.speedLimit ≤ v.vel) && decide (v'.vel < v.vel)
    | _, _, _, _ => false
  | .error _ => false

theorem slows : ∃ s s' : Sim Float, Reach True s ∧ Allowed True s (.step 0.2) ∧ s.exec (.step 0.2) = .ok s' ∧
    Reach True s' ∧ slowTest s s' = true :=
  trial_reach (ops := slowOps) (by decide +kernel)

/-- The hypotheses of C22_above_float. -/
example : ∃ (s s1 s' : Sim Float) (v v1 v' : Vehicle Float) (l : Link Float), Reach True s ∧ s.step 0.2 = .ok s' ∧
    (0.0 : Float) ≤ 0.2 ∧ (0.2 : Float).isFinite = true ∧ ¬ s.accUpdate < 0.1 ∧ s.calculateLaneChanges = .ok s1 ∧
    s.getVehicle ⟨0, 1⟩ = .ok v ∧ s1.getVehicle ⟨0, 1⟩ = .ok v1 ∧ s'.getVehicle ⟨0, 1⟩ = .ok v' ∧ v1.linkId = some ⟨0, 1⟩ ∧
    s1.getLinkRef ⟨0, 1⟩ = .ok l ∧ 0.0 < v.acc.maxAcc ∧ v.acc.maxAcc.isFinite = true ∧ 0.0 < v.acc.velAdj * l.speedLimit ∧
    v.acc.velAdj * l.speedLimit ≤ v.vel ∧ v'.vel < v.vel := by
  obtain ⟨s, s', h1, -, h2, -, h4⟩ := slows
  unfold slowTest at h4
  simp only [Bool.and_eq_true, decide_eq_true_eq] at h4
  obtain ⟨a1, h4⟩ := h4
  split at h4
  · rename_i s1 hs1
    split at h4
    · rename_i v v1 v' l hv hv1 hv' hl
      simp only [Bool.and_eq_true, decide_eq_true_eq, beq_iff_eq] at h4
      obtain ⟨⟨⟨⟨⟨b1, b2⟩, b3⟩, b4⟩, b5⟩, b6⟩ := h4
      exact ⟨s, s1, s', v, v1, v', l, h1, h2, by decide +kernel, by decide +kernel, a1, hs1, getVeh_ok.2 hv,
        getVeh_ok.2 hv1, getVeh_ok.2 hv', b1, getLink_ok.2 hl, b2, b3, b4, b5, b6⟩
    · cases h4
  · simp at h4

/-- A car that follows another one. -/
def car : AccelerationModel Float := AccelerationModel.new 2.0 2.0 2.0

/-- The hypotheses of the C23 theorems, for which the accelerations differ. -/
example : 0.6 ≤ car.maxAcc ∧ car.maxAcc.isFinite = true ∧ (20.0 : Float) ≤ 30.0 ∧
    followAcc car 20.0 10.0 9.0 < followAcc car 30.0 10.0 9.0 ∧
    0.0 < car.maxAcc * car.comfDec ∧ (8.0 : Float) ≤ 9.0 ∧ (wantedGap car 10.0 8.0).isNaN = false ∧
    0.0 ≤ wantedGap car 10.0 9.0 ∧ followAcc car 30.0 10.0 8.0 < followAcc car 30.0 10.0 9.0 := by
  decide +kernel

end Drive

end TrafficSim
