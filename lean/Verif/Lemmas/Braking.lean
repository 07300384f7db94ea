import Verif.Props.Dynamics
import Mathlib.Tactic.Positivity
import Mathlib.Tactic.NormNum

/-! # Stopping behind a leader

The motion of two vehicles, one behind the other, in exact arithmetic. -/

namespace TrafficSim

/-- The model parameters for which a vehicle that can stop behind its leader always does, if its acceleration is chosen anew at
least every `h` seconds and its speed is at most `V`.  With `a` the maximum acceleration, `b` the comfortable deceleration and `T`
the headway. -/
structure Cautious (m : AccelerationModel ℝ) (h V : ℝ) : Prop where
  acc : 0.6 ≤ m.maxAcc
  dec : 0 < m.comfDec
  near : (m.maxAcc + 3) ^ 2 * h ^ 2 ≤ 24 * √(m.maxAcc / (m.maxAcc + 6))
  far : 2 * (m.maxAcc + 6) * h + (2 - 6 / √(m.comfDec * (m.maxAcc + 6))) ^ 2 / 4 * V ≤
    12 * m.headway * √(m.maxAcc / (m.maxAcc + 6))

/-- The same for a leader that stands still, at any speed. -/
structure Stopping (m : AccelerationModel ℝ) (h : ℝ) : Prop where
  acc : 0.6 ≤ m.maxAcc
  dec : 0 < m.comfDec
  strong : m.comfDec * (m.maxAcc + 6) ≤ 36
  near : (m.maxAcc + 3) ^ 2 * h ^ 2 ≤ 24 * √(m.maxAcc / (m.maxAcc + 6))
  far : 2 * (m.maxAcc + 6) * h ≤ 12 * m.headway * √(m.maxAcc / (m.maxAcc + 6))

/-- A vehicle with speed `v` and acceleration `a` for the next `r` seconds could brake at any time within them and stop before
the point `G` ahead of it, with `m` to spare. -/
def CanStop (m G v a r : ℝ) : Prop :=
  ∀ t, 0 ≤ t → t ≤ r → 0 ≤ v + a * t → m ≤ G - (v * t + a * t ^ 2 / 2) - (v + a * t) ^ 2 / 12

/-- The point where a vehicle stops when it brakes fully never moves back. -/
theorem stop_point {u a t : ℝ} (hu : 0 ≤ u) (ht : 0 ≤ t) (ha : -6 ≤ a) :
    u ^ 2 / 12 ≤ (u + max (u + t * a) 0) / 2 * t + max (u + t * a) 0 ^ 2 / 12 := by
  rcases le_total 0 (u + t * a) with h | h
  · rw [max_eq_left h]
    have : (u + (u + t * a)) / 2 * t + (u + t * a) ^ 2 / 12 - u ^ 2 / 12 = (u + (u + t * a)) * t / 12 * (6 + a) := by ring
    have : 0 ≤ (u + (u + t * a)) * t / 12 * (6 + a) := mul_nonneg (by positivity) (by linarith)
    linarith
  · rw [max_eq_right h]
    have : -(6 * t) ≤ t * a := by nlinarith
    nlinarith

theorem CanStop.mono {m m' G G' v a r r' : ℝ} (h : CanStop m G v a r) (hm : m' ≤ m) (hG : G ≤ G') (hr : r' ≤ r) :
    CanStop m' G' v a r' := by
  intro t h0 h1 h2
  have := h t h0 (h1.trans hr) h2
  linarith

theorem CanStop.slower {m G v a a' r : ℝ} (h : CanStop m G v a r) (ha : a' ≤ a) : CanStop m G v a' r := by
  intro t h0 h1 h2
  have : a' * t ≤ a * t := mul_le_mul_of_nonneg_right ha h0
  have := h t h0 h1 (by linarith)
  have : (v + a' * t) ^ 2 ≤ (v + a * t) ^ 2 := pow_le_pow_left₀ h2 (by linarith) 2
  nlinarith

/-- Full braking. -/
theorem canStop_brake {m G v r : ℝ} (h : m ≤ G - v ^ 2 / 12) : CanStop m G v (-6) r := by
  intro t _ _ _
  nlinarith

/-- Later. -/
theorem CanStop.later {m G v a r t : ℝ} (h : CanStop m G v a r) (ht : 0 ≤ t) (hv : 0 ≤ v + t * a) :
    CanStop m (G - (v + max (v + t * a) 0) / 2 * t) (max (v + t * a) 0) a (r - t) := by
  rw [max_eq_left hv]
  intro x h0 h1 h2
  have := h (t + x) (by linarith) (by linarith) (by nlinarith)
  nlinarith

/-- A vehicle that is as fast as its leader before the time `t`. -/
theorem meet {h g u v a b r t : ℝ} (hc : CanStop (3 / 4 * h ^ 2) (g + u ^ 2 / 12) v a r) (hu : 0 ≤ u) (hb : -6 ≤ b) (h1 : 0 ≤ v + t * a)
    (h5 : u < v) (h4 : v + t * a < u + t * b) (htr : t ≤ r) (h8 : 0 < b - a) :
    0 ≤ g + (u + (u + t * b)) / 2 * t - (v + (v + t * a)) / 2 * t := by
  obtain ⟨x, ex⟩ : ∃ x, x * (b - a) = v - u := ⟨(v - u) / (b - a), by field_simp⟩
  have hx0 : 0 ≤ x := by
    by_contra h
    nlinarith
  have hxt : x ≤ t := by
    by_contra h
    nlinarith
  have hw : 0 ≤ v + a * x := by
    rcases le_total a 0 with ha0 | ha0
    · nlinarith [mul_le_mul_of_nonpos_right hxt ha0]
    · nlinarith [mul_nonneg ha0 hx0]
  have h9 := hc x hx0 (hxt.trans htr) hw
  have e : u + x * b = v + a * x := by linarith
  have h10 := stop_point hu hx0 hb
  rw [max_eq_left (by rw [e]; exact hw), e] at h10
  have h11 : 0 ≤ g + (u + (v + a * x)) / 2 * x - (v + (v + a * x)) / 2 * x := by
    have : (v + (v + a * x)) / 2 * x = v * x + a * x ^ 2 / 2 := by ring
    linarith [sq_nonneg h]
  have h12 : g + (u + (u + t * b)) / 2 * t - (v + (v + t * a)) / 2 * t =
      g + (u + (v + a * x)) / 2 * x - (v + (v + a * x)) / 2 * x + (b - a) * (t - x) ^ 2 / 2 := by
    have : v = u + x * (b - a) := by linarith
    rw [this]; ring
  rw [h12]
  have : 0 ≤ (b - a) * (t - x) ^ 2 / 2 := by positivity
  linarith

/-- The vehicle `v` does not reach the rear of the leader. -/
theorem CanStop.gap {h g u v a b r t : ℝ} (hc : CanStop (3 / 4 * h ^ 2) (g + u ^ 2 / 12) v a r) (hg : 0 ≤ g) (hu : 0 ≤ u) (hv : 0 ≤ v)
    (ha : -6 ≤ a) (hb : -6 ≤ b) (ht : 0 ≤ t) (htr : t ≤ r) (hth : t ≤ h) :
    0 ≤ g + (u + max (u + t * b) 0) / 2 * t - (v + max (v + t * a) 0) / 2 * t := by
  have hh : t ^ 2 ≤ h ^ 2 := pow_le_pow_left₀ ht hth 2
  rcases lt_or_ge (v + t * a) 0 with h1 | h1
  · rw [max_eq_right h1.le]
    have hx : 0 ≤ max (u + t * b) 0 := le_max_right _ _
    rcases le_total v u with h2 | h2
    · have : 0 ≤ (u - v + max (u + t * b) 0) / 2 * t := by
        have : 0 ≤ u - v := by linarith
        positivity
      nlinarith
    · have h3 := hc 0 le_rfl (ht.trans htr) (by linarith)
      have h4 : v ≤ 6 * t := by nlinarith
      have : 0 ≤ max (u + t * b) 0 / 2 * t := by positivity
      nlinarith [sq_nonneg (v - 3 * t), sq_nonneg u, mul_nonneg hu ht, mul_nonneg hu (sub_nonneg.2 h4)]
  · rw [max_eq_left h1]
    have h2 := hc t ht htr (by linarith)
    have h3 := stop_point hu ht hb
    set u' := max (u + t * b) 0 with hu'
    have hu0 : 0 ≤ u' := le_max_right _ _
    rcases le_total u' (v + t * a) with h4 | h4
    · have : u' ^ 2 ≤ (v + t * a) ^ 2 := pow_le_pow_left₀ hu0 h4 2
      nlinarith
    · rcases le_total v u with h5 | h5
      · have : 0 ≤ (u - v + (u' - (v + t * a))) / 2 * t := by
          have := add_nonneg (sub_nonneg.2 h5) (sub_nonneg.2 h4)
          positivity
        nlinarith
      · rcases eq_or_lt_of_le h5 with h5 | h5
        · subst h5
          have : 0 ≤ (u' - (u + t * a)) / 2 * t := by
            have := sub_nonneg.2 h4
            positivity
          nlinarith
        rcases eq_or_lt_of_le h4 with h4 | h4
        · have : u' ^ 2 = (v + t * a) ^ 2 := by rw [h4]
          nlinarith
        have h6 : u' = u + t * b := max_eq_left (by
          by_contra h6
          rw [hu', max_eq_right (not_le.1 h6).le] at h4
          linarith)
        rw [h6] at h4 ⊢
        have h7 : 0 < t * (b - a) := by linarith
        have ht0 : 0 < t := lt_of_le_of_ne ht fun h => by rw [← h] at h7; linarith
        have h8 : 0 < b - a := by
          by_contra h
          nlinarith
        exact meet hc hu hb h1 h5 h4 htr h8

/-- There is so much room that the vehicle may accelerate. -/
theorem canStop_wide {h g u v a : ℝ} (hv : 0 ≤ v) (ha : 0 ≤ a)
    (hw : 2 * (a + 6) * h * v + (a + 3) ^ 2 * h ^ 2 ≤ 12 * g + u ^ 2 - v ^ 2) : CanStop (3 / 4 * h ^ 2) (g + u ^ 2 / 12) v a h := by
  intro t h0 h1 _
  have h2 : t ^ 2 ≤ h ^ 2 := pow_le_pow_left₀ h0 h1 2
  have h3 : (6 * a + a ^ 2) * t ^ 2 ≤ (6 * a + a ^ 2) * h ^ 2 := mul_le_mul_of_nonneg_left h2 (by positivity)
  have h4 : 2 * (a + 6) * v * t ≤ 2 * (a + 6) * v * h := mul_le_mul_of_nonneg_left h1 (by positivity)
  nlinarith

/-- If the vehicle does not brake fully, the gap is wide. -/
theorem gap_wide {m : AccelerationModel ℝ} (ha : 0.6 ≤ m.maxAcc) (hb : 0 < m.comfDec) {g v u : ℝ} (h : -6 < followAcc m g v u) :
    24 * √(m.maxAcc / (m.maxAcc + 6)) + 12 * m.headway * √(m.maxAcc / (m.maxAcc + 6)) * v +
      6 / √(m.comfDec * (m.maxAcc + 6)) * (v * (v - u)) ≤ 12 * g := by
  have ha0 : 0 < m.maxAcc := by norm_num at ha; linarith
  have hg : 2 < g := by
    by_contra hg
    rw [C23_full_braking m ha (not_lt.1 hg)] at h
    exact lt_irrefl _ h
  rw [followAcc_eq, idm_far m hg] at h
  have h1 := (lt_max_iff.1 h).resolve_right (lt_irrefl _)
  have h2 := (lt_min_iff.1 h1).2
  set q := √(m.maxAcc * m.comfDec) with hq
  set r := √(m.maxAcc / (m.maxAcc + 6)) with hr
  set K := √(m.comfDec * (m.maxAcc + 6)) with hK
  have hq0 : 0 < q := Real.sqrt_pos.2 (by positivity)
  have hr0 : 0 < r := Real.sqrt_pos.2 (by positivity)
  have hK0 : 0 < K := Real.sqrt_pos.2 (by positivity)
  have er : r ^ 2 = m.maxAcc / (m.maxAcc + 6) := Real.sq_sqrt (by positivity)
  have e : r * K = q := by
    rw [hr, hK, hq, ← Real.sqrt_mul (by positivity)]
    congr 1
    field_simp
  set ss := 2 + v * m.headway + v * (v - u) * (1 / (2 * q)) with hss
  have h3 : (ss * r) ^ 2 < g ^ 2 := by
    have : m.maxAcc * (ss / g) ^ 2 < m.maxAcc + 6 := by nlinarith
    rw [div_pow] at this
    have hg2 : 0 < g ^ 2 := by positivity
    rw [← mul_div_assoc, div_lt_iff₀ hg2] at this
    rw [mul_pow, er, ← mul_div_assoc, div_lt_iff₀ (by linarith)]
    linarith
  have h4 : ss * r < g := lt_of_pow_lt_pow_left₀ 2 (by linarith) h3
  have h5 : ss * r = 2 * r + m.headway * r * v + v * (v - u) / (2 * K) := by
    rw [hss, ← e]
    field_simp
  have h6 : 6 / K * (v * (v - u)) = 12 * (v * (v - u) / (2 * K)) := by field_simp; ring
  rw [h6]
  linarith

/-- A vehicle that can stop behind its leader still can if it follows. -/
theorem Cautious.canStop {m : AccelerationModel ℝ} {h V g v u acc : ℝ} (hm : Cautious m h V) (hv : 0 ≤ v) (hV : v ≤ V)
    (hacc : acc ≤ followAcc m g v u) (ha : -6 ≤ acc) (hs : v = 0 ∨ 3 / 4 * h ^ 2 ≤ g + u ^ 2 / 12 - v ^ 2 / 12) :
    v = 0 ∧ acc ≤ 0 ∨ CanStop (3 / 4 * h ^ 2) (g + u ^ 2 / 12) v acc h := by
  have h0 : 0 ≤ m.maxAcc := by have := hm.acc; norm_num at this; linarith
  have hr := C23_range m h0 g v u
  rcases eq_or_lt_of_le hr.1 with hf | hf
  · obtain rfl : acc = -6 := le_antisymm (by rw [hf]; exact hacc) ha
    rcases hs with hs | hs
    · exact .inl ⟨hs, by norm_num⟩
    · exact .inr (canStop_brake hs)
  · right
    refine (canStop_wide hv h0 ?_).slower (hacc.trans hr.2)
    have h1 := gap_wide hm.acc hm.dec hf
    have h2 := hm.near
    have h3 := mul_le_mul_of_nonneg_right hm.far hv
    set r := √(m.maxAcc / (m.maxAcc + 6))
    set c := 6 / √(m.comfDec * (m.maxAcc + 6))
    have h4 : (2 - c) ^ 2 / 4 * (v * v) ≤ (2 - c) ^ 2 / 4 * (V * v) :=
      mul_le_mul_of_nonneg_left (mul_le_mul_of_nonneg_right hV hv) (by positivity)
    nlinarith [sq_nonneg (v - u - (2 - c) / 2 * v)]

theorem Stopping.canStop {m : AccelerationModel ℝ} {h g v acc : ℝ} (hm : Stopping m h) (hv : 0 ≤ v)
    (hacc : acc ≤ followAcc m g v 0) (ha : -6 ≤ acc) (hs : v = 0 ∨ 3 / 4 * h ^ 2 ≤ g - v ^ 2 / 12) :
    v = 0 ∧ acc ≤ 0 ∨ CanStop (3 / 4 * h ^ 2) g v acc h := by
  have h0 : 0 ≤ m.maxAcc := by have := hm.acc; norm_num at this; linarith
  have hr := C23_range m h0 g v 0
  rcases eq_or_lt_of_le hr.1 with hf | hf
  · obtain rfl : acc = -6 := le_antisymm (by rw [hf]; exact hacc) ha
    rcases hs with hs | hs
    · exact .inl ⟨hs, by norm_num⟩
    · exact .inr (canStop_brake hs)
  · right
    have h1 := gap_wide hm.acc hm.dec hf
    have h2 := hm.near
    have h3 := mul_le_mul_of_nonneg_right hm.far hv
    have hK : √(m.comfDec * (m.maxAcc + 6)) ≤ 6 := Real.sqrt_le_iff.2 ⟨by norm_num, by linarith [hm.strong]⟩
    have hK0 : 0 < √(m.comfDec * (m.maxAcc + 6)) := Real.sqrt_pos.2 (mul_pos hm.dec (by linarith))
    have hc : 1 ≤ 6 / √(m.comfDec * (m.maxAcc + 6)) := (one_le_div hK0).2 hK
    have h4 : v * v ≤ 6 / √(m.comfDec * (m.maxAcc + 6)) * (v * (v - 0)) := by
      rw [sub_zero]
      exact le_mul_of_one_le_left (mul_nonneg hv hv) hc
    have := (canStop_wide (h := h) (u := 0) (g := g) hv h0 (by nlinarith)).slower (hacc.trans hr.2)
    simpa using this

/-- A vehicle with speed `v` and acceleration `a`, `g` metres behind one with speed `u`: it can stop behind it, whenever it may
brake.  That is in `h - c` seconds, if accelerations were chosen `c` seconds ago, or at once, if that is more than 0.1. -/
def Keeps (h c g v a u : ℝ) : Prop :=
  0 ≤ g ∧ (v = 0 ∧ (c < 0.1 → a ≤ 0) ∨ CanStop (3 / 4 * h ^ 2) (g + u ^ 2 / 12) v a (if c < 0.1 then h - c else 0))

/-- The motion of two vehicles in a step. -/
theorem keeps_move {h g u v a b r t : ℝ} (hg : 0 ≤ g) (hu : 0 ≤ u) (hv : 0 ≤ v) (ha : -6 ≤ a) (hb : -6 ≤ b) (ht : 0 ≤ t) (htr : t ≤ r)
    (hth : t ≤ h) (hs : v = 0 ∧ a ≤ 0 ∨ CanStop (3 / 4 * h ^ 2) (g + u ^ 2 / 12) v a r) {v' u' g' : ℝ} (hv' : v' = max (v + t * a) 0)
    (hu' : u' = max (u + t * b) 0) (hg' : g' = g + (u + u') / 2 * t - (v + v') / 2 * t) :
    0 ≤ g' ∧ (v' = 0 ∧ a ≤ 0 ∨ CanStop (3 / 4 * h ^ 2) (g' + u' ^ 2 / 12) v' a (r - t)) := by
  have hsp := stop_point hu ht hb
  rw [← hu'] at hsp
  have hu0 : 0 ≤ u' := by rw [hu']; exact le_max_right _ _
  rcases hs with ⟨h1, h2⟩ | hc
  · have e : v' = 0 := by rw [hv', h1, zero_add]; exact max_eq_right (mul_nonpos_of_nonneg_of_nonpos ht h2)
    refine ⟨?_, .inl ⟨e, h2⟩⟩
    rw [hg', e, h1]
    have : 0 ≤ (u + u') / 2 * t := by positivity
    linarith
  · refine ⟨by rw [hg', hu', hv']; exact hc.gap hg hu hv ha hb ht htr hth, ?_⟩
    rcases lt_or_ge (v + t * a) 0 with h1 | h1
    · exact .inl ⟨by rw [hv', max_eq_right h1.le], by by_contra h; nlinarith⟩
    · right
      have := hc.later ht h1
      rw [← hv'] at this
      exact this.mono le_rfl (by rw [hg']; linarith) le_rfl

end TrafficSim
