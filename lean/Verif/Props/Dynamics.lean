import Verif.Model.Vehicle
import Mathlib.Analysis.Calculus.Deriv.MeanValue
import Mathlib.Analysis.Calculus.Deriv.Pow
import Mathlib.Analysis.Calculus.Deriv.Add
import Mathlib.Analysis.Calculus.Deriv.Mul
import Mathlib.Analysis.Calculus.Deriv.Comp
import Mathlib.Tactic.Linarith
import Mathlib.Tactic.FieldSimp
import Mathlib.Tactic.NormNum

/-! # C23, C24: car following and reach times -/

namespace TrafficSim

/-! ### C23: car following -/

/-- The acceleration of a vehicle that has only a leader to react to: `gap` metres ahead, with speed
`u`, while its own speed is `v`. -/
def followAcc {F : Type} [Flt F] (m : AccelerationModel F) (gap v u : F) : F :=
  (m.reset.followVehicle gap v u).getAcc

theorem followAcc_eq (m : AccelerationModel ℝ) (gap v u : ℝ) :
    followAcc m gap v u = max (min m.maxAcc (m.idm gap v u)) (-6) := by
  simp only [followAcc, AccelerationModel.getAcc, AccelerationModel.followVehicle,
    AccelerationModel.reset, maxDecel, fmax, fmin]
  norm_num
  rfl

theorem idm_far (m : AccelerationModel ℝ) {gap : ℝ} (h : 2 < gap) (v u : ℝ) :
    m.idm gap v u = m.maxAcc * (1 - ((2 + v * m.headway +
      v * (v - u) * (1 / (2 * Real.sqrt (m.maxAcc * m.comfDec)))) / gap) ^ 2) := by
  have h2 : ¬ gap ≤ (minGap : ℝ) := by simp only [minGap]; norm_num; exact h
  simp only [AccelerationModel.idm]
  rw [if_neg h2]
  simp only [minGap, fsqrt]
  norm_num
  left
  ring

theorem idm_near (m : AccelerationModel ℝ) {gap : ℝ} (h : gap ≤ 2) (v u : ℝ) :
    m.idm gap v u = -10 * m.maxAcc := by
  have h2 : gap ≤ (minGap : ℝ) := by simp only [minGap]; norm_num; exact h
  simp only [AccelerationModel.idm, if_pos h2]
  norm_num

/-- **C23** (range) The acceleration is between full braking and the maximum acceleration. -/
theorem C23_range (m : AccelerationModel ℝ) (h : 0 ≤ m.maxAcc) (gap v u : ℝ) :
    -6 ≤ followAcc m gap v u ∧ followAcc m gap v u ≤ m.maxAcc := by
  rw [followAcc_eq]
  exact ⟨le_max_right _ _, max_le (min_le_left _ _) (by linarith)⟩

/-- **C23** (full braking) At or below a gap of 2 m a vehicle whose maximum acceleration is at least
0.6 m/s² brakes at full strength. -/
theorem C23_full_braking (m : AccelerationModel ℝ) (h : 0.6 ≤ m.maxAcc) {gap : ℝ} (hg : gap ≤ 2)
    (v u : ℝ) : followAcc m gap v u = -6 := by
  norm_num at h
  rw [followAcc_eq, idm_near m hg, min_eq_right (by linarith), max_eq_right (by linarith)]

/-- **C23** (weak vehicles) Without that condition the claim is false: a vehicle with a smaller
maximum acceleration never brakes at full strength at a gap of 2 m or less, whatever the speeds. -/
theorem C23_weak_vehicle_brakes_less (m : AccelerationModel ℝ) (h0 : 0 ≤ m.maxAcc) (h : m.maxAcc < 0.6)
    {gap : ℝ} (hg : gap ≤ 2) (v u : ℝ) : -6 < followAcc m gap v u := by
  norm_num at h
  rw [followAcc_eq, idm_near m hg]
  refine lt_max_of_lt_left (lt_min ?_ ?_) <;> linarith

/-- **C23** (gap) The acceleration never increases when the gap shrinks. -/
theorem C23_gap_monotone (m : AccelerationModel ℝ) (h : 0.6 ≤ m.maxAcc) {gap gap' : ℝ} (hg : gap ≤ gap')
    (v u : ℝ) : followAcc m gap v u ≤ followAcc m gap' v u := by
  rcases le_or_gt gap 2 with h2 | h2
  · rw [C23_full_braking m h h2]
    exact (C23_range m (by norm_num at h; linarith) _ _ _).1
  · norm_num at h
    rw [followAcc_eq, followAcc_eq, idm_far m h2, idm_far m (by linarith)]
    set ss := 2 + v * m.headway + v * (v - u) * (1 / (2 * Real.sqrt (m.maxAcc * m.comfDec)))
    have h3 : (ss / gap') ^ 2 ≤ (ss / gap) ^ 2 := by
      rw [div_pow, div_pow]
      apply div_le_div_of_nonneg_left (sq_nonneg ss) (by positivity)
      exact pow_le_pow_left₀ (by linarith) hg 2
    have h4 : m.maxAcc * (1 - (ss / gap) ^ 2) ≤ m.maxAcc * (1 - (ss / gap') ^ 2) :=
      mul_le_mul_of_nonneg_left (by linarith) (by linarith)
    exact max_le_max (min_le_min le_rfl h4) le_rfl

/-- **C23** (leader), partial: the acceleration never increases when the leader slows down, as long
as the leader is not so much faster that the desired gap `2 + v T + v (v - u) / (2 √(a b))` is
negative.  What is missing: without this hypothesis the claim is false, see
`C23_leader_not_monotone`. -/
theorem C23_leader_monotone_partial (m : AccelerationModel ℝ) (h : 0 ≤ m.maxAcc) {v : ℝ} (hv : 0 ≤ v)
    {u u' : ℝ} (hu : u ≤ u') (gap : ℝ)
    (hss : 0 ≤ 2 + v * m.headway + v * (v - u') / (2 * Real.sqrt (m.maxAcc * m.comfDec))) :
    followAcc m gap v u ≤ followAcc m gap v u' := by
  rcases le_or_gt gap 2 with h2 | h2
  · rw [followAcc_eq, followAcc_eq, idm_near m h2, idm_near m h2]
  · rw [followAcc_eq, followAcc_eq, idm_far m h2, idm_far m h2]
    rw [div_eq_mul_one_div] at hss
    set k := 1 / (2 * Real.sqrt (m.maxAcc * m.comfDec)) with hk
    have hk0 : 0 ≤ k := by rw [hk]; positivity
    have h1 : v * (v - u') * k ≤ v * (v - u) * k :=
      mul_le_mul_of_nonneg_right (mul_le_mul_of_nonneg_left (by linarith) hv) hk0
    have h3 : ((2 + v * m.headway + v * (v - u') * k) / gap) ^ 2 ≤
        ((2 + v * m.headway + v * (v - u) * k) / gap) ^ 2 := by
      apply pow_le_pow_left₀ (div_nonneg hss (by linarith))
      exact div_le_div_of_nonneg_right (by linarith) (by linarith)
    exact max_le_max (min_le_min le_rfl (mul_le_mul_of_nonneg_left (by linarith) h)) le_rfl

/-- The ordinary car of the crate's examples. -/
noncomputable def demoCar : AccelerationModel ℝ := .new 1.5 2.0 2.0

/-- `C23_leader_monotone_partial` applies to an ordinary car behind a slower, equally fast or slightly
faster leader. -/
example : followAcc demoCar 20 15 10 ≤ followAcc demoCar 20 15 20 := by
  apply C23_leader_monotone_partial
  · norm_num [demoCar, AccelerationModel.new]
  · norm_num
  · norm_num
  · simp only [demoCar, AccelerationModel.new]
    rw [show ((2.0 : ℝ) * 2.0) = 2 ^ 2 by norm_num, Real.sqrt_sq (by norm_num)]
    norm_num

/-- **C23** (negation) With a much faster leader the car does react in the wrong direction: it
accelerates harder when the leader, 5 m ahead, is slower. -/
theorem C23_leader_not_monotone : followAcc demoCar 5 10 50 < followAcc demoCar 5 10 20 := by
  rw [followAcc_eq, followAcc_eq, idm_far _ (by norm_num), idm_far _ (by norm_num)]
  simp only [demoCar, AccelerationModel.new]
  rw [show ((2.0 : ℝ) * 2.0) = 2 ^ 2 by norm_num, Real.sqrt_sq (by norm_num)]
  norm_num [min_def, max_def]

example : (0.6 : ℝ) ≤ demoCar.maxAcc := by norm_num [demoCar, AccelerationModel.new]

/-! ### C24: minimum reach time -/

/-- A motion over the time `[0, T]` from speed `vel`, with acceleration at most `a` and speed at most
`maxVel`: `x` is the distance covered and `w` the speed. -/
structure Motion (vel a maxVel T : ℝ) (x w : ℝ → ℝ) : Prop where
  start : x 0 = 0
  speed : ∀ t ∈ Set.Icc 0 T, HasDerivAt x (w t) t
  init : w 0 = vel
  acc : ∀ s t, 0 ≤ s → s ≤ t → t ≤ T → w t - w s ≤ a * (t - s)
  lim : ∀ t ∈ Set.Icc 0 T, w t ≤ maxVel

/-- The times at which a vehicle can have covered `dist`. -/
def ReachTimes (vel a maxVel dist : ℝ) : Set ℝ :=
  {T | 0 ≤ T ∧ ∃ x w, Motion vel a maxVel T x w ∧ dist ≤ x T}

theorem Motion.le_of_deriv {vel a maxVel T : ℝ} {x w : ℝ → ℝ} (h : Motion vel a maxVel T x w)
    {f f' : ℝ → ℝ} (hf : ∀ t, HasDerivAt f (f' t) t) {s t : ℝ} (hs : 0 ≤ s) (hst : s ≤ t) (ht : t ≤ T)
    (hle : ∀ r ∈ Set.Icc s t, w r ≤ f' r) : x t - x s ≤ f t - f s := by
  have hsub : ∀ r ∈ Set.Icc s t, r ∈ Set.Icc 0 T := fun r hr => ⟨hs.trans hr.1, hr.2.trans ht⟩
  have hmono : MonotoneOn (fun r => f r - x r) (Set.Icc s t) := by
    apply monotoneOn_of_deriv_nonneg (convex_Icc s t)
    · intro r hr
      exact ((hf r).sub (h.speed r (hsub r hr))).continuousAt.continuousWithinAt
    · intro r hr
      rw [interior_Icc] at hr
      exact ((hf r).sub (h.speed r (hsub r ⟨hr.1.le, hr.2.le⟩))).differentiableAt.differentiableWithinAt
    · intro r hr
      rw [interior_Icc] at hr
      have hr' : r ∈ Set.Icc s t := ⟨hr.1.le, hr.2.le⟩
      have : deriv (fun r => f r - x r) r = f' r - w r := ((hf r).sub (h.speed r (hsub r hr'))).deriv
      rw [this]
      linarith [hle r hr']
  have := hmono ⟨le_rfl, hst⟩ ⟨hst, le_rfl⟩ hst
  simp only at this
  linarith

theorem Motion.bound_acc {vel a maxVel T : ℝ} {x w : ℝ → ℝ} (h : Motion vel a maxVel T x w) {t : ℝ}
    (h0 : 0 ≤ t) (ht : t ≤ T) : x t ≤ vel * t + a * t ^ 2 / 2 := by
  have := h.le_of_deriv (f := fun t => vel * t + a * t ^ 2 / 2) (f' := fun t => vel + a * t) (s := 0) (t := t)
    (fun r => by
      have h1 := ((hasDerivAt_id r).const_mul vel).add (((hasDerivAt_pow 2 r).const_mul a).div_const 2)
      exact h1.congr_deriv (by push_cast; ring)) le_rfl h0 ht (fun r hr => by
      have := h.acc 0 r le_rfl hr.1 (hr.2.trans ht)
      rw [h.init] at this
      show w r ≤ vel + a * r
      linarith)
  simp [h.start] at this
  linarith

theorem Motion.bound_lim {vel a maxVel T : ℝ} {x w : ℝ → ℝ} (h : Motion vel a maxVel T x w) {s t : ℝ}
    (hs : 0 ≤ s) (hst : s ≤ t) (ht : t ≤ T) : x t ≤ x s + maxVel * (t - s) := by
  have := h.le_of_deriv (f := fun t => maxVel * t) (f' := fun _ => maxVel) (s := s) (t := t)
    (fun r => by simpa using (hasDerivAt_id r).const_mul maxVel) hs hst ht
    (fun r hr => h.lim r ⟨hs.trans hr.1, hr.2.trans ht⟩)
  linarith

theorem minReachTime_eq (m : AccelerationModel ℝ) (vel dist maxVel : ℝ) :
    m.minReachTime vel dist maxVel =
      if 2 * m.maxAcc * dist + vel ^ 2 < maxVel ^ 2 then
        (Real.sqrt (2 * m.maxAcc * dist + vel ^ 2) - vel) / m.maxAcc
      else (maxVel - vel) / m.maxAcc +
        (dist - (vel + maxVel) / 2 * ((maxVel - vel) / m.maxAcc)) / maxVel := by
  simp only [AccelerationModel.minReachTime, sq, fsqrt]
  norm_num
  simp only [← pow_two]
  congr 3
  ring

theorem hasDerivAt_maxSq (t : ℝ) : HasDerivAt (fun t : ℝ => (max t 0) ^ 2) (2 * max t 0) t := by
  rcases lt_trichotomy t 0 with h | h | h
  · rw [max_eq_right h.le, mul_zero]
    apply (hasDerivAt_const t (0 : ℝ)).congr_of_eventuallyEq
    filter_upwards [Iio_mem_nhds h] with r hr
    have hr' : r < 0 := hr
    simp [max_eq_right hr'.le]
  · subst h
    rw [max_self, mul_zero, hasDerivAt_iff_isLittleO]
    simp only [max_self, sub_zero, smul_zero, ne_eq, OfNat.ofNat_ne_zero, not_false_eq_true, zero_pow]
    have h1 : (fun t : ℝ => (max t 0) ^ 2) =O[nhds 0] fun t => t ^ 2 := by
      apply Asymptotics.IsBigO.of_bound 1
      filter_upwards with t
      rw [one_mul, Real.norm_eq_abs, Real.norm_eq_abs, abs_of_nonneg (sq_nonneg _),
        abs_of_nonneg (sq_nonneg _)]
      rcases le_total t 0 with h | h
      · rw [max_eq_right h]; simp [sq_nonneg]
      · rw [max_eq_left h]
    exact h1.trans_isLittleO (by simpa using Asymptotics.isLittleO_pow_id (𝕜 := ℝ) (one_lt_two))
  · rw [max_eq_left h.le]
    have := hasDerivAt_pow 2 t
    simp at this
    apply this.congr_of_eventuallyEq
    filter_upwards [Ioi_mem_nhds h] with r hr
    have hr' : 0 < r := hr
    simp only [max_eq_left hr'.le]

/-- The motion that accelerates as hard as possible up to the maximum speed. -/
theorem best_motion {vel a maxVel : ℝ} (ha : 0 < a) (hv : vel ≤ maxVel) (T : ℝ) :
    Motion vel a maxVel T
      (fun t => vel * t + a * t ^ 2 / 2 - a / 2 * (max (t - (maxVel - vel) / a) 0) ^ 2)
      (fun t => vel + a * t - a * max (t - (maxVel - vel) / a) 0) := by
  have ht1 : 0 ≤ (maxVel - vel) / a := div_nonneg (by linarith) ha.le
  have hmul : a * ((maxVel - vel) / a) = maxVel - vel := by field_simp
  refine ⟨?_, ?_, ?_, ?_, ?_⟩
  · simp [max_eq_right (show -((maxVel - vel) / a) ≤ 0 by linarith)]
  · intro t _
    have h1 := ((hasDerivAt_id t).const_mul vel).add (((hasDerivAt_pow 2 t).const_mul a).div_const 2)
    have h2 := (((hasDerivAt_maxSq (t - (maxVel - vel) / a)).comp t
      ((hasDerivAt_id t).sub_const ((maxVel - vel) / a))).const_mul (a / 2))
    exact (h1.sub h2).congr_deriv (by push_cast; ring)
  · simp [max_eq_right (show -((maxVel - vel) / a) ≤ 0 by linarith)]
  · intro s t _ hst _
    have : max (s - (maxVel - vel) / a) 0 ≤ max (t - (maxVel - vel) / a) 0 :=
      max_le_max (by linarith) le_rfl
    nlinarith
  · intro t _
    show vel + a * t - a * max (t - (maxVel - vel) / a) 0 ≤ maxVel
    have := le_max_left (t - (maxVel - vel) / a) 0
    nlinarith

/-- **C24** The time reported for covering a distance is the least time in which a vehicle that
starts at its current speed can cover it, with acceleration at most its maximum and speed at most the
given maximum. -/
theorem C24_least (m : AccelerationModel ℝ) {vel dist maxVel : ℝ} (ha : 0 < m.maxAcc) (hv : 0 ≤ vel)
    (hvm : vel ≤ maxVel) (hm : 0 < maxVel) (hd : 0 ≤ dist) :
    IsLeast (ReachTimes vel m.maxAcc maxVel dist) (m.minReachTime vel dist maxVel) := by
  rw [minReachTime_eq]
  set a := m.maxAcc
  have hmul : a * ((maxVel - vel) / a) = maxVel - vel := by field_simp
  have ht1 : 0 ≤ (maxVel - vel) / a := div_nonneg (by linarith) ha.le
  set t1 := (maxVel - vel) / a
  split
  · rename_i hlt
    set r := Real.sqrt (2 * a * dist + vel ^ 2) with hr
    have hr2 : r ^ 2 = 2 * a * dist + vel ^ 2 := Real.sq_sqrt (by positivity)
    have hr0 : 0 ≤ r := Real.sqrt_nonneg _
    have hvr : vel ≤ r := by
      apply Real.le_sqrt_of_sq_le
      have := mul_nonneg ha.le hd
      linarith
    have hrm : r < maxVel := by
      by_contra hc
      have : maxVel ^ 2 ≤ r ^ 2 := pow_le_pow_left₀ hm.le (not_lt.1 hc) 2
      linarith
    have hT : a * ((r - vel) / a) = r - vel := by field_simp
    set T := (r - vel) / a
    have hT0 : 0 ≤ T := div_nonneg (by linarith) ha.le
    constructor
    · refine ⟨hT0, _, _, best_motion ha hvm T, ?_⟩
      have hle : T - t1 ≤ 0 := by
        by_contra hc
        nlinarith
      show dist ≤ vel * T + a * T ^ 2 / 2 - a / 2 * (max (T - t1) 0) ^ 2
      rw [max_eq_right hle]
      have : 2 * a * (vel * T + a * T ^ 2 / 2) = 2 * a * dist := by
        have : r = vel + a * T := by linarith
        rw [this] at hr2
        linear_combination hr2
      have : vel * T + a * T ^ 2 / 2 = dist := mul_left_cancel₀ (by positivity) this
      linarith
    · rintro S ⟨hS, x, w, hx, hxd⟩
      have hb := hx.bound_acc hS le_rfl
      by_contra hc
      have hST : S < T := not_le.1 hc
      have h1 : r ^ 2 ≤ (vel + a * S) ^ 2 := by rw [hr2]; nlinarith
      have h2 : vel + a * S < r := by nlinarith
      have h3 : 0 ≤ vel + a * S := by positivity
      nlinarith
  · rename_i hge
    have hge' : maxVel ^ 2 ≤ 2 * a * dist + vel ^ 2 := not_lt.1 hge
    have hD : vel * t1 + a * t1 ^ 2 / 2 = (vel + maxVel) / 2 * t1 := by
      linear_combination (t1 / 2) * hmul
    have hDd : (vel + maxVel) / 2 * t1 ≤ dist := by
      have : 2 * a * ((vel + maxVel) / 2 * t1) ≤ 2 * a * dist := by
        have : 2 * a * ((vel + maxVel) / 2 * t1) = (vel + maxVel) * (a * t1) := by ring
        rw [this, hmul]; linarith
      exact le_of_mul_le_mul_left this (by positivity)
    have hq : 0 ≤ (dist - (vel + maxVel) / 2 * t1) / maxVel := div_nonneg (by linarith) hm.le
    have hqm : maxVel * ((dist - (vel + maxVel) / 2 * t1) / maxVel) = dist - (vel + maxVel) / 2 * t1 := by
      field_simp
    set q := (dist - (vel + maxVel) / 2 * t1) / maxVel
    constructor
    · refine ⟨by linarith, _, _, best_motion ha hvm (t1 + q), ?_⟩
      show dist ≤ vel * (t1 + q) + a * (t1 + q) ^ 2 / 2 - a / 2 * (max (t1 + q - t1) 0) ^ 2
      rw [add_sub_cancel_left, max_eq_left hq]
      have : vel * (t1 + q) + a * (t1 + q) ^ 2 / 2 - a / 2 * q ^ 2 = dist := by
        linear_combination hD + q * hmul + hqm
      linarith
    · rintro S ⟨hS, x, w, hx, hxd⟩
      rcases lt_or_ge S t1 with h | h
      · exfalso
        have hb := hx.bound_acc hS le_rfl
        have h1 : vel * S + a * S ^ 2 / 2 < vel * t1 + a * t1 ^ 2 / 2 := by
          have h2 : S ^ 2 < t1 ^ 2 := pow_lt_pow_left₀ h hS two_ne_zero
          nlinarith
        linarith
      · have h1 := hx.bound_lim ht1 h le_rfl
        have h2 := hx.bound_acc ht1 h
        have h3 : maxVel * q ≤ maxVel * (S - t1) := by linarith
        have := le_of_mul_le_mul_left h3 hm
        linarith

/-- Non-vacuity of `C24_least`: an ordinary car at 5 m/s needs at least 5 s for 50 m. -/
example : IsLeast (ReachTimes 5 demoCar.maxAcc 50 50) 5 := by
  have h := C24_least demoCar (vel := 5) (dist := 50) (maxVel := 50)
    (by norm_num [demoCar, AccelerationModel.new]) (by norm_num) (by norm_num) (by norm_num) (by norm_num)
  rw [minReachTime_eq] at h
  have ha : demoCar.maxAcc = 2 := by norm_num [demoCar, AccelerationModel.new]
  rw [ha] at h ⊢
  rw [show (2 * 2 * 50 + 5 ^ 2 : ℝ) = 15 ^ 2 by norm_num, if_pos (by norm_num),
    Real.sqrt_sq (by norm_num)] at h
  norm_num at h
  exact h

/-- **C24** (speeding vehicles) For a vehicle faster than the given maximum speed the reported time is
too long: even without accelerating it arrives earlier. -/
theorem C24_speeding_overestimates (m : AccelerationModel ℝ) {vel dist maxVel : ℝ} (ha : 0 < m.maxAcc)
    (hm : 0 < maxVel) (hvm : maxVel < vel) (hd : 0 < dist) :
    dist / vel < m.minReachTime vel dist maxVel := by
  rw [minReachTime_eq]
  have hv : 0 < vel := hm.trans hvm
  have hsq : maxVel ^ 2 ≤ vel ^ 2 := pow_le_pow_left₀ hm.le hvm.le 2
  have hda := mul_pos ha hd
  rw [if_neg (by linarith)]
  have : (maxVel - vel) / m.maxAcc + (dist - (vel + maxVel) / 2 * ((maxVel - vel) / m.maxAcc)) / maxVel =
      dist / maxVel + (maxVel - vel) ^ 2 / (2 * maxVel * m.maxAcc) := by
    field_simp; ring
  rw [this]
  have h1 : dist / vel < dist / maxVel := div_lt_div_of_pos_left hd hm hvm
  have h2 : 0 ≤ (maxVel - vel) ^ 2 / (2 * maxVel * m.maxAcc) := by positivity
  linarith

end TrafficSim
