import Mathlib.Data.EReal.Inv
import Mathlib.Analysis.Real.Sqrt
import Mathlib.Data.Nat.Cast.Order.Field
import Mathlib.Data.Int.Log
import Mathlib.Tactic.Linarith
import Mathlib.Tactic.Ring
import Mathlib.Tactic.NormNum
import Mathlib.Tactic.Positivity
import Verif.Model.Flt

/-! # Rounding in binary64

Lean defines the operations on `Float` logically, by unpacking, exact arithmetic, rounding and packing.  This file proves that
sums, differences, products, quotients and square roots are the exact ones rounded to the nearest number of the format, ties to
even.  Hence rounding is monotone, and exact for numbers of the format. -/

namespace TrafficSim.B64

open Float.Model Float.Model.UnpackedFloat

/-- The value of a mantissa and an exponent. -/
noncomputable def mval (m : Nat) (e : Int) : ℝ := m * (2 : ℝ) ^ e

/-- The nearest integer, and the even one of two that are equally near. -/
noncomputable def rhe (x : ℝ) : ℕ :=
  if x < ⌊x⌋₊ + 1 / 2 then ⌊x⌋₊ else if x = ⌊x⌋₊ + 1 / 2 then ⌊x⌋₊ + ⌊x⌋₊ % 2 else ⌊x⌋₊ + 1

/-- A number that is not negative, rounded to 53 digits, or fewer for subnormal numbers. -/
noncomputable def rne (x : ℝ) : ℝ := rhe (x / 2 ^ max (Int.log 2 x - 52) (-1074)) * 2 ^ max (Int.log 2 x - 52) (-1074)

/-- `y` is `x` rounded.  It is as near to `x` as any number of the format that is not negative, without regard to the largest
exponent. -/
structure RoundsTo (x y : ℝ) : Prop where
  near : ∀ (m : Nat) (e : Int), m < 2 ^ 53 → -1074 ≤ e → |y - x| ≤ |mval m e - x|
  det : y = rne x

/-- Numbers in the form in which the format has them, without regard to the largest exponent. -/
structure Canon (m : Nat) (e : Int) : Prop where
  lt : m < 2 ^ 53
  ge : -1074 ≤ e
  normal : 2 ^ 52 ≤ m ∨ e = -1074

theorem target_eq (t : Int) : Format.binary64.targetExponent t = max (t - 53) (-1074) := by
  simp only [Format.targetExponent, Format.mantissaBits, Format.minExponent]
  norm_num

theorem mval_shift (m k : Nat) (e : Int) : mval (m <<< k) (e - k) = mval m e := by
  unfold mval
  rw [Nat.shiftLeft_eq, zpow_sub₀ (by norm_num)]
  push_cast
  rw [zpow_natCast]
  field_simp

/-- A nearest number is on the right side of every number. -/
theorem RoundsTo.faithful {x y : ℝ} (h : RoundsTo x y) {m : Nat} {e : Int} (hm : m < 2 ^ 53) (he : -1074 ≤ e) :
    (mval m e ≤ x → mval m e ≤ y) ∧ (x ≤ mval m e → y ≤ mval m e) := by
  have h := h.near m e hm he
  constructor
  · intro hx
    by_contra hlt
    rw [abs_of_nonpos (by linarith), abs_of_nonpos (by linarith)] at h
    linarith
  · intro hx
    by_contra hlt
    rw [abs_of_nonneg (by linarith), abs_of_nonneg (by linarith)] at h
    linarith

/-- What a mantissa with two more bits says about a number. -/
structure Holds (x : ℝ) (em : ExtendedMantissa) : Prop where
  ge : (em.mantissa : ℝ) ≤ x
  lt : x < em.mantissa + 1
  bit : em.roundBit = true ↔ (em.mantissa : ℝ) + 1 / 2 ≤ x
  sticky : em.stickyBit = false ↔ x = em.mantissa ∨ x = em.mantissa + 1 / 2

theorem Holds.exact (m : Nat) : Holds m ⟨m, false, false⟩ := by
  refine ⟨le_rfl, by simp, ?_, fun _ => .inl rfl, fun _ => rfl⟩
  norm_num

theorem Holds.low {x : ℝ} {q : Nat} (h1 : (q : ℝ) < x) (h2 : x < q + 1 / 2) :
    Holds x (ExtendedMantissa.ofMantissaAndAccuracy q (.inexact .lt)) := by
  refine ⟨h1.le, ?_, iff_of_false Bool.false_ne_true (not_le_of_gt h2), iff_of_false Bool.noConfusion ?_⟩
  · show x < q + 1
    linarith
  · rintro (h | h)
    · exact h1.ne' h
    · exact h2.ne h

theorem Holds.half {x : ℝ} {q : Nat} (h : x = q + 1 / 2) :
    Holds x (ExtendedMantissa.ofMantissaAndAccuracy q (.inexact .eq)) := by
  refine ⟨?_, ?_, iff_of_true rfl h.ge, iff_of_true rfl (.inr h)⟩
  · show (q : ℝ) ≤ x
    linarith
  · show x < q + 1
    linarith

theorem Holds.high {x : ℝ} {q : Nat} (h1 : (q : ℝ) + 1 / 2 < x) (h2 : x < q + 1) :
    Holds x (ExtendedMantissa.ofMantissaAndAccuracy q (.inexact .gt)) := by
  refine ⟨?_, h2, iff_of_true rfl h1.le, iff_of_false Bool.noConfusion ?_⟩
  · show (q : ℝ) ≤ x
    linarith
  · rintro (h | h)
    · have : x = q := h
      linarith
    · exact h1.ne' h

/-- Dropping a bit. -/
theorem Holds.shift {x : ℝ} {em : ExtendedMantissa} (h : Holds x em) : Holds (x / 2) em.shiftRightOne := by
  obtain ⟨m, rb, sb⟩ := em
  obtain ⟨h1, h2, h3, h4⟩ := h
  dsimp only at h1 h2 h3 h4
  have hm : (m : ℝ) = 2 * ((m / 2 : ℕ) : ℝ) + ((m % 2 : ℕ) : ℝ) := by exact_mod_cast (Nat.div_add_mod m 2).symm
  have hs : (rb || sb) = false ↔ x = m := by
    rw [Bool.or_eq_false_iff]
    constructor
    · rintro ⟨rfl, rfl⟩
      have h3 : ¬ (m : ℝ) + 1 / 2 ≤ x := fun h => Bool.noConfusion (h3.2 h)
      rcases h4.1 rfl with h4 | h4
      · exact h4
      · exact absurd h4.ge h3
    · intro hx
      refine ⟨?_, h4.2 (.inl hx)⟩
      cases rb
      · rfl
      · have := h3.1 rfl
        linarith
  unfold ExtendedMantissa.shiftRightOne
  rcases Nat.mod_two_eq_zero_or_one m with h | h <;> rw [h] at hm <;> push_cast at hm <;>
    refine ⟨?_, ?_, ?_, ?_⟩ <;> dsimp only at *
  · linarith
  · linarith
  · rw [h]
    refine iff_of_false (by decide) ?_
    intro hle
    linarith
  · rw [hs]
    constructor
    · intro hx
      left; linarith
    · rintro (hx | hx) <;> linarith
  · linarith
  · linarith
  · rw [h]
    refine iff_of_true (by decide) ?_
    linarith
  · rw [hs]
    constructor
    · intro hx
      right; linarith
    · rintro (hx | hx) <;> linarith

theorem Holds.shifts {x : ℝ} {em : ExtendedMantissa} (h : Holds x em) (n : Nat) :
    Holds (x / 2 ^ n) (n.repeat ExtendedMantissa.shiftRightOne em) ∧
      (n.repeat ExtendedMantissa.shiftRightOne em).mantissa = em.mantissa / 2 ^ n := by
  induction n with
  | zero => exact ⟨by simpa [Nat.repeat] using h, by simp [Nat.repeat]⟩
  | succ n ih =>
    refine ⟨?_, ?_⟩
    · have := ih.1.shift
      rw [div_div, ← pow_succ] at this
      exact this
    · show (n.repeat ExtendedMantissa.shiftRightOne em).mantissa / 2 = _
      rw [ih.2, Nat.div_div_eq_div_mul, ← pow_succ]

/-- The mantissa is rounded to a nearest one. -/
theorem Holds.rounded {x : ℝ} {em : ExtendedMantissa} (h : Holds x em) :
    ∃ r, em.roundedMantissa = r ∧ em.mantissa ≤ r ∧ r ≤ em.mantissa + 1 ∧ |(r : ℝ) - x| ≤ 1 / 2 ∧ r = rhe x := by
  obtain ⟨m, rb, sb⟩ := em
  obtain ⟨h1, h2, h3, h4⟩ := h
  dsimp only at h1 h2 h3 h4
  have hfl : ⌊x⌋₊ = m := (Nat.floor_eq_iff ((Nat.cast_nonneg m).trans h1)).2 ⟨h1, h2⟩
  unfold rhe
  rw [hfl]
  have low : rb = false → |(m : ℝ) - x| ≤ 1 / 2 := by
    rintro rfl
    have h3 : ¬ (m : ℝ) + 1 / 2 ≤ x := fun h => Bool.noConfusion (h3.2 h)
    rw [abs_of_nonpos (by linarith)]
    linarith
  have high : rb = true → |((m + 1 : ℕ) : ℝ) - x| ≤ 1 / 2 := by
    rintro rfl
    have h3 := h3.1 rfl
    push_cast
    rw [abs_of_nonneg (by linarith)]
    linarith
  cases rb
  · have hlt : x < m + 1 / 2 := lt_of_not_ge fun h => Bool.noConfusion (h3.2 h)
    rw [if_pos hlt]
    cases sb <;> exact ⟨m, rfl, le_rfl, Nat.le_succ _, low rfl, rfl⟩
  · rw [if_neg (not_lt_of_ge (h3.1 rfl))]
    cases sb
    · have hx : x = m + 1 / 2 := by
        rcases h4.1 rfl with h | h
        · have := h3.1 rfl
          linarith
        · exact h
      rcases Nat.mod_two_eq_zero_or_one m with h | h
      · refine ⟨m, by simp [ExtendedMantissa.roundedMantissa, ExtendedMantissa.accuracy, Accuracy.roundToNearestEven, h],
          le_rfl, Nat.le_succ _, ?_, by rw [if_pos hx, h, Nat.add_zero]⟩
        rw [hx, abs_of_nonpos (by linarith)]
        linarith
      · exact ⟨m + 1, by simp [ExtendedMantissa.roundedMantissa, ExtendedMantissa.accuracy, Accuracy.roundToNearestEven, h],
          Nat.le_succ _, le_rfl, high rfl, by rw [if_pos hx, h]⟩
    · refine ⟨m + 1, rfl, Nat.le_succ _, le_rfl, high rfl, ?_⟩
      rw [if_neg fun hx => Bool.noConfusion (h4.2 (.inr hx))]

/-- The number `x`, of which the mantissa and the accuracy tell, is rounded to a nearest one. -/
theorem roundWithAccuracy_real (s : Sign) {x : ℝ} {m : Nat} {e : Int} {a : Accuracy}
    (hx : Holds x (ExtendedMantissa.ofMantissaAndAccuracy m a)) (he : e ≤ max (m.log2 + 1 + e - 53) (-1074)) :
    ∃ y : ℝ, RoundsTo (x * 2 ^ e) y ∧ ((roundWithAccuracy .binary64 s m e a = .zero s ∧ y = 0) ∨
      ∃ m' e' h, roundWithAccuracy .binary64 s m e a = .finite s m' e' h ∧ Canon m' e' ∧ y = mval m' e') := by
  obtain ⟨t, ht⟩ : ∃ t, t = max ((m.log2 : Int) + 1 + e - 53) (-1074) := ⟨_, rfl⟩
  obtain ⟨k, hk⟩ := Int.eq_ofNat_of_zero_le (show 0 ≤ t - e by omega)
  have hm1 : m < 2 ^ (m.log2 + 1) := Nat.lt_log2_self
  -- the first shift
  have hmant : (ExtendedMantissa.ofMantissaAndAccuracy m a).mantissa = m := by
    rcases a with _ | (_ | _ | _) <;> rfl
  set em := k.repeat ExtendedMantissa.shiftRightOne (ExtendedMantissa.ofMantissaAndAccuracy m a) with hem
  have h1 : shiftToTargetExponent .binary64 m e a = (em, t) := by
    unfold shiftToTargetExponent shiftToExponent
    dsimp only
    rw [target_eq]
    have : max (totalExponent m e - 53) (-1074) = t := by rw [ht]; rfl
    rw [this, hk]
    simp only [Int.toNat_natCast]
    refine Prod.ext rfl ?_
    dsimp only
    omega
  obtain ⟨hh, hmk⟩ := hx.shifts k
  rw [hmant] at hmk
  rw [← hem] at hh hmk
  obtain ⟨r, hr, r1, r2, hhalf, hrhe⟩ := hh.rounded
  rw [hmk] at r1 r2
  replace hr := hr.symm
  -- the exact value in units of the last place
  have hval : x * 2 ^ e = x / 2 ^ k * 2 ^ t := by
    rw [show e = t - k by omega, zpow_sub₀ (by norm_num), zpow_natCast]
    ring
  have hpt : (0 : ℝ) < 2 ^ t := zpow_pos (by norm_num) _
  have hq1 : ((m / 2 ^ k : ℕ) : ℝ) ≤ x / 2 ^ k := by
    have := hh.ge
    rwa [hmk] at this
  have hqlt : m / 2 ^ k < 2 ^ 53 := by
    rw [Nat.div_lt_iff_lt_mul (by positivity), ← pow_add]
    refine hm1.trans_le (Nat.pow_le_pow_right (by norm_num) ?_)
    omega
  have hqge : t ≠ -1074 → 2 ^ 52 ≤ m / 2 ^ k := by
    intro h
    have hm : m ≠ 0 := by
      rintro rfl
      simp only [Nat.log2_zero] at ht he
      omega
    rw [Nat.le_div_iff_mul_le (by positivity), ← pow_add]
    refine (Nat.pow_le_pow_right (by norm_num) ?_).trans (Nat.log2_self_le hm)
    omega
  have htm : -1074 ≤ t := by omega
  -- multiples of the last place are no nearer
  have hmult : ∀ N : ℕ, |(r : ℝ) * 2 ^ t - x * 2 ^ e| ≤ |(N : ℝ) * 2 ^ t - x * 2 ^ e| := by
    intro N
    rw [hval, ← sub_mul, ← sub_mul, abs_mul, abs_mul]
    refine mul_le_mul_of_nonneg_right ?_ (abs_nonneg _)
    by_cases hN : N = r
    · rw [hN]
    · have h1 : (1 : ℝ) ≤ |(N : ℝ) - r| := by
        rcases Nat.lt_or_gt_of_ne hN with h | h
        · have : (N : ℝ) + 1 ≤ r := by exact_mod_cast h
          rw [abs_of_nonpos (by linarith)]; linarith
        · have : (r : ℝ) + 1 ≤ N := by exact_mod_cast h
          rw [abs_of_nonneg (by linarith)]; linarith
      have h2 := abs_sub_le (N : ℝ) (x / 2 ^ k) r
      rw [abs_sub_comm (x / 2 ^ k) (r : ℝ)] at h2
      linarith
  have hround : RoundsTo (x * 2 ^ e) (r * 2 ^ t) := by
    refine ⟨fun n f hn hf => ?_, ?_⟩
    swap
    · have hx0 : 0 ≤ x := by
        have := hx.ge
        rw [hmant] at this
        exact (Nat.cast_nonneg m).trans this
      have hxlt : x < m + 1 := by
        have := hx.lt
        rwa [hmant] at this
      have hpe : (0 : ℝ) < 2 ^ e := zpow_pos (by norm_num) _
      rcases hx0.eq_or_lt with h0 | h0
      · rw [hrhe, ← h0]
        simp [rne, rhe]
      · have hmax : max (Int.log 2 (x * 2 ^ e) - 52) (-1074) = t := by
          by_cases hm0 : m = 0
          · subst hm0
            have : Int.log 2 (x * 2 ^ e) < e := by
              rw [← Int.lt_zpow_iff_log_lt (by norm_num) (mul_pos h0 hpe)]
              calc x * 2 ^ e < 1 * 2 ^ e := mul_lt_mul_of_pos_right (by simpa using hxlt) hpe
                _ = _ := by rw [one_mul]; norm_num
            simp only [Nat.log2_zero] at ht he
            omega
          · have hge := hx.ge
            rw [hmant] at hge
            have h1 : 2 ^ m.log2 ≤ m := Nat.log2_self_le hm0
            have : Int.log 2 (x * 2 ^ e) = m.log2 + e := by
              refine le_antisymm ?_ ?_
              · rw [← Int.lt_add_one_iff, ← Int.lt_zpow_iff_log_lt (by norm_num) (mul_pos h0 hpe)]
                have h2 : ((m : ℝ) + 1) ≤ 2 ^ (m.log2 + 1) := by exact_mod_cast hm1
                calc x * 2 ^ e < 2 ^ (m.log2 + 1) * 2 ^ e := mul_lt_mul_of_pos_right (hxlt.trans_le h2) hpe
                  _ = _ := by
                    rw [show (m.log2 + e + 1 : Int) = ((m.log2 + 1 : ℕ) : Int) + e by push_cast; ring, zpow_add₀ (by norm_num),
                      zpow_natCast]
                    norm_num
              · rw [← Int.zpow_le_iff_le_log (by norm_num) (mul_pos h0 hpe)]
                have h2 : ((2 : ℝ) ^ m.log2) ≤ m := by exact_mod_cast h1
                calc ((2 : ℕ) : ℝ) ^ ((m.log2 : Int) + e) = 2 ^ m.log2 * 2 ^ e := by
                      push_cast
                      rw [zpow_add₀ (by norm_num), zpow_natCast]
                  _ ≤ x * 2 ^ e := mul_le_mul_of_nonneg_right (h2.trans hge) hpe.le
            rw [this, ht]
            congr 1
            ring
        unfold rne
        rw [hmax, hval, mul_div_cancel_right₀ _ hpt.ne', hrhe]
    by_cases hft : t ≤ f
    · obtain ⟨c, hc⟩ := Int.eq_ofNat_of_zero_le (show 0 ≤ f - t by omega)
      have hnv : mval n f = ((n * 2 ^ c : ℕ) : ℝ) * 2 ^ t := by
        unfold mval
        rw [show f = t + c by omega, zpow_add₀ (by norm_num), zpow_natCast]
        push_cast
        ring
      rw [hnv]
      exact hmult _
    · have h52 := hqge (by omega)
      have hlt : mval n f < (m / 2 ^ k : ℕ) * 2 ^ t := by
        unfold mval
        calc (n : ℝ) * 2 ^ f < 2 ^ (53 : ℕ) * 2 ^ f := by
              refine mul_lt_mul_of_pos_right ?_ (zpow_pos (by norm_num) _)
              exact_mod_cast hn
          _ = 2 ^ (52 : ℕ) * 2 ^ (f + 1) := by rw [zpow_add₀ (by norm_num)]; ring
          _ ≤ 2 ^ (52 : ℕ) * 2 ^ t := by
              refine mul_le_mul_of_nonneg_left ?_ (by positivity)
              exact zpow_le_zpow_right₀ (by norm_num) (by omega)
          _ ≤ (m / 2 ^ k : ℕ) * 2 ^ t := by
              refine mul_le_mul_of_nonneg_right ?_ hpt.le
              exact_mod_cast h52
      have h2 : ((m / 2 ^ k : ℕ) : ℝ) * 2 ^ t ≤ x * 2 ^ e := by
        rw [hval]; exact mul_le_mul_of_nonneg_right hq1 hpt.le
      refine (hmult (m / 2 ^ k)).trans ?_
      rw [abs_of_nonpos (by linarith), abs_of_nonpos (by linarith)]
      linarith
  refine ⟨r * 2 ^ t, hround, ?_⟩
  unfold roundWithAccuracy
  rw [h1]
  dsimp only
  rw [← hr]
  have h2 : r < 2 ^ 53 → shiftToTargetExponent .binary64 r t .exact = (⟨r, false, false⟩, t) := by
    intro hr53
    have hlr : r.log2 ≤ 52 := by
      by_cases h0 : r = 0
      · subst h0; decide
      · exact Nat.lt_succ_iff.1 ((Nat.log2_lt h0).2 hr53)
    unfold shiftToTargetExponent shiftToExponent
    dsimp only
    rw [target_eq]
    have : (max (totalExponent r t - 53) (-1074) - t).toNat = 0 := by
      unfold totalExponent
      omega
    rw [this]
    exact Prod.ext rfl (by simp)
  by_cases hr53 : r < 2 ^ 53
  · rw [h2 hr53]
    dsimp only
    by_cases h0 : r = 0
    · left
      subst h0
      simp
    · right
      rw [dif_neg h0]
      refine ⟨r, t, _, rfl, ⟨hr53, htm, ?_⟩, rfl⟩
      by_cases ht0 : t = -1074
      · exact .inr ht0
      · exact .inl ((hqge ht0).trans r1)
  · right
    have hr' : r = 2 ^ 53 := by omega
    have h3 : shiftToTargetExponent .binary64 r t .exact = (⟨2 ^ 52, false, false⟩, t + 1) := by
      rw [hr']
      unfold shiftToTargetExponent shiftToExponent
      dsimp only
      rw [target_eq]
      have : (max (totalExponent (2 ^ 53) t - 53) (-1074) - t).toNat = 1 := by
        unfold totalExponent
        rw [Nat.log2_two_pow]
        omega
      rw [this]
      exact Prod.ext rfl (by simp)
    rw [h3]
    dsimp only
    rw [dif_neg (by norm_num)]
    refine ⟨2 ^ 52, t + 1, _, rfl, ⟨by norm_num, by omega, .inl le_rfl⟩, ?_⟩
    rw [hr']
    unfold mval
    rw [zpow_add₀ (by norm_num)]
    push_cast
    ring

theorem roundWithAccuracy_spec (s : Sign) {m : Nat} {e : Int} (he : e ≤ max (m.log2 + 1 + e - 53) (-1074)) :
    ∃ y : ℝ, RoundsTo (mval m e) y ∧ ((roundWithAccuracy .binary64 s m e .exact = .zero s ∧ y = 0) ∨
      ∃ m' e' h, roundWithAccuracy .binary64 s m e .exact = .finite s m' e' h ∧ Canon m' e' ∧ y = mval m' e') :=
  roundWithAccuracy_real s (Holds.exact m) he

theorem round_spec (s : Sign) {m : Nat} (e : Int) (hm : 0 < m) :
    ∃ y : ℝ, RoundsTo (mval m e) y ∧ ((UnpackedFloat.round .binary64 s m e = .zero s ∧ y = 0) ∨
      ∃ m' e' h, UnpackedFloat.round .binary64 s m e = .finite s m' e' h ∧ Canon m' e' ∧ y = mval m' e') := by
  unfold UnpackedFloat.round decreaseExponent
  dsimp only
  rw [target_eq]
  obtain ⟨k, hk⟩ : ∃ k, k = (e - max (totalExponent m e - 53) (-1074)).toNat := ⟨_, rfl⟩
  rw [← hk, ← mval_shift m k e]
  have hlog : (m <<< k).log2 = m.log2 + k := by
    rw [Nat.shiftLeft_eq]
    refine le_antisymm (Nat.lt_succ_iff.1 ((Nat.log2_lt (by positivity)).2 ?_)) ((Nat.le_log2 (by positivity)).2 ?_)
    · have := (Nat.log2_lt (n := m) (k := m.log2 + 1) (by omega)).1 (by omega)
      rw [show (m.log2 + k).succ = m.log2 + 1 + k by omega, pow_add]
      exact Nat.mul_lt_mul_of_pos_right this (by positivity)
    · rw [pow_add]
      exact Nat.mul_le_mul_right _ (Nat.log2_self_le (by omega))
  refine roundWithAccuracy_spec s ?_
  rw [hlog]
  unfold totalExponent at hk
  push_cast
  omega

/-! ## Packing -/

theorem unpackSign_packComponents {spec : Format} {sign : Sign} {exponent : BitVec spec.exponentBits}
    {mantissa : BitVec spec.mantissaBitsWithoutImplicit} :
    unpackSign (packComponents spec sign exponent mantissa) = sign.toBitVec := by
  ext i hi
  have : i = 0 := by omega
  subst this
  simp [unpackSign, packComponents, BitVec.getLsbD_eq_getElem, BitVec.getLsbD_append, BitVec.getElem_append]

theorem ofBitVec_toBitVec (s : Sign) : Sign.ofBitVec s.toBitVec = s := by
  cases s <;> rfl

theorem unpack_components (spec : Format) (s : Sign) (x : BitVec spec.exponentBits)
    (y : BitVec spec.mantissaBitsWithoutImplicit) :
    UnpackedFloat.unpack spec (packComponents spec s x y) =
      if x = -1#_ then (if y = 0#_ then .infinity s else .notANumber)
      else if x = 0#_ then
        if h : y = 0#_ then .zero s
        else .finite s y.toNat ((x.toNat : Int) - (spec.exponentBias + spec.mantissaBitsWithoutImplicit) + 1)
          (by simpa [BitVec.toNat_pos, BitVec.pos_iff_ne_zero])
      else .finite s (1#1 ++ y).toNat ((x.toNat : Int) - (spec.exponentBias + spec.mantissaBitsWithoutImplicit)) (by simp) := by
  unfold UnpackedFloat.unpack
  simp only [unpackMantissa_packComponents, unpackExponent_packComponents, unpackSign_packComponents, ofBitVec_toBitVec]

/-- The numbers that can be unpacked, as the format has them. -/
def Legal : UnpackedFloat → Prop
  | .finite _ m e _ => Canon m e ∧ e ≤ 971
  | _ => True

theorem unpack_legal (b : BitVec Format.binary64.numBits) : Legal (UnpackedFloat.unpack .binary64 b) := by
  unfold UnpackedFloat.unpack
  dsimp only
  have hm := (unpackMantissa b).isLt
  have he := (unpackExponent b).isLt
  simp only [Format.binary64] at hm he
  split
  · split <;> trivial
  · split
    · split
      · trivial
      · next h0 _ =>
        refine ⟨⟨by omega, ?_, .inr ?_⟩, ?_⟩ <;> rw [h0] <;> simp [Format.exponentBias]
    · next h1 h0 =>
      have h1' : (unpackExponent b).toNat ≠ 2047 := fun h => h1 (BitVec.eq_of_toNat_eq (by rw [h]; rfl))
      have h0' : (unpackExponent b).toNat ≠ 0 := fun h => h0 (BitVec.eq_of_toNat_eq (by rw [h]; rfl))
      have hb : ((1#1 ++ unpackMantissa b).toNat) = 2 ^ 52 + (unpackMantissa b).toNat := by
        rw [BitVec.toNat_append, ← Nat.shiftLeft_add_eq_or_of_lt (by exact hm)]
        rfl
      have hbias : ((Format.binary64.exponentBias : ℕ) : Int) + (Format.binary64.mantissaBitsWithoutImplicit : ℕ) = 1075 := by
        simp [Format.exponentBias]
      refine ⟨⟨?_, ?_, .inl ?_⟩, ?_⟩
      · rw [hb]; omega
      · rw [hbias]; omega
      · rw [hb]; omega
      · rw [hbias]; omega

/-- Packing keeps everything but numbers that are too large, which become infinite. -/
def settle : UnpackedFloat → UnpackedFloat
  | .finite s m e h => if e ≤ 971 then .finite s m e h else .infinity s
  | u => u

theorem unpack_pack (u : UnpackedFloat) (hu : ∀ s m e h, u = .finite s m e h → Canon m e) :
    UnpackedFloat.unpack .binary64 (UnpackedFloat.pack .binary64 u) = settle u := by
  cases u with
  | notANumber => rfl
  | infinity s => cases s <;> rfl
  | zero s => cases s <;> rfl
  | finite s m e h =>
    obtain ⟨hlt, hge, hn⟩ := hu s m e h rfl
    have hbias : ((Format.binary64.exponentBias : ℕ) : Int) = 1023 := by simp [Format.exponentBias]
    unfold UnpackedFloat.pack settle
    dsimp only
    rw [hbias]
    by_cases hbig : e ≤ 971
    · have hsmall : ¬ 2 ^ 11 ≤ (e + 1023 + (52 : ℕ)).toNat + 1 := by norm_num; omega
      rw [if_neg hsmall, if_pos hbig]
      by_cases h52 : 2 ^ 52 ≤ m
      · have hlog : m.log2 = 52 := by
          refine le_antisymm (Nat.lt_succ_iff.1 ((Nat.log2_lt (by omega)).2 hlt)) ?_
          exact (Nat.le_log2 (by omega)).2 h52
        have hnorm : m.log2 + 1 = Format.binary64.mantissaBits := by
          rw [hlog]; simp only [Format.mantissaBits]
        rw [if_pos hnorm]
        rw [unpack_components, hbias]
        obtain ⟨n, hnn⟩ : ∃ n : Nat, n = (e + 1023 + (52 : ℕ)).toNat := ⟨_, rfl⟩
        rw [← hnn]
        have hx : (BitVec.ofNat 11 n).toNat = n := by
          rw [BitVec.toNat_ofNat]; exact Nat.mod_eq_of_lt (by omega)
        rw [if_neg, if_neg]
        · have h1 : (1#1 ++ BitVec.ofNat 52 m).toNat = m := by
            rw [BitVec.toNat_append, ← Nat.shiftLeft_add_eq_or_of_lt (BitVec.isLt _), BitVec.toNat_ofNat]
            simp only [Nat.shiftLeft_eq, BitVec.toNat_ofNat]
            omega
          have h2 : ((BitVec.ofNat 11 n).toNat : Int) - (1023 + (52 : ℕ)) = e := by
            rw [hx]; push_cast; omega
          simp only [h1, h2]
        · intro h
          have := congrArg BitVec.toNat h
          rw [hx] at this
          simp at this
          omega
        · intro h
          have := congrArg BitVec.toNat h
          rw [hx] at this
          simp at this
          omega
      · have he : e = -1074 := by omega
        have hlog : m.log2 < 52 := (Nat.log2_lt (by omega)).2 (by omega)
        have hsub : ¬ m.log2 + 1 = Format.binary64.mantissaBits := by
          simp only [Format.mantissaBits]; omega
        rw [if_neg hsub]
        rw [unpack_components, hbias]
        have h1 : (BitVec.ofNat 52 m).toNat = m := by
          rw [BitVec.toNat_ofNat]; exact Nat.mod_eq_of_lt (by omega)
        rw [if_neg (by decide), if_pos rfl, dif_neg]
        · simp only [h1, he]
          norm_num
        · intro hz
          have := congrArg BitVec.toNat hz
          rw [h1] at this
          simp at this
          omega
    · have hlarge : 2 ^ 11 ≤ (e + 1023 + (52 : ℕ)).toNat + 1 := by norm_num; omega
      rw [if_pos hlarge, if_neg hbig]
      cases s <;> rfl

/-! ## Values and comparisons -/

/-- The value of an unpacked number; what is not a number is given the value `0`. -/
noncomputable def uval : UnpackedFloat → EReal
  | .notANumber => 0
  | .infinity .positive => ⊤
  | .infinity .negative => ⊥
  | .zero _ => 0
  | .finite .positive m e _ => ((mval m e : ℝ) : EReal)
  | .finite .negative m e _ => ((-mval m e : ℝ) : EReal)

theorem mval_pos {m : Nat} (e : Int) (h : 0 < m) : 0 < mval m e :=
  mul_pos (by exact_mod_cast h) (zpow_pos (by norm_num) _)

theorem mval_lt_of_exp {m m' : Nat} {e e' : Int} (h : m < 2 ^ 53) (h' : 2 ^ 52 ≤ m') (he : e < e') : mval m e < mval m' e' := by
  unfold mval
  calc (m : ℝ) * 2 ^ e < 2 ^ (53 : ℕ) * 2 ^ e :=
        mul_lt_mul_of_pos_right (by exact_mod_cast h) (zpow_pos (by norm_num) _)
    _ = 2 ^ (52 : ℕ) * 2 ^ (e + 1) := by rw [zpow_add₀ (by norm_num)]; ring
    _ ≤ 2 ^ (52 : ℕ) * 2 ^ e' :=
        mul_le_mul_of_nonneg_left (zpow_le_zpow_right₀ (by norm_num) (by omega)) (by positivity)
    _ ≤ m' * 2 ^ e' := mul_le_mul_of_nonneg_right (by exact_mod_cast h') (zpow_pos (by norm_num) _).le

theorem mval_lt {m m' : Nat} {e e' : Int} (h : Canon m e) (h' : Canon m' e') (hlt : e < e' ∨ e = e' ∧ m < m') :
    mval m e < mval m' e' := by
  rcases hlt with hlt | ⟨rfl, hlt⟩
  · refine mval_lt_of_exp h.lt ?_ hlt
    have := h.ge
    rcases h'.normal with h | h
    · exact h
    · omega
  · exact mul_lt_mul_of_pos_right (by exact_mod_cast hlt) (zpow_pos (by norm_num) _)

/-- The ordering that a comparison found holds of the values. -/
def Says (a b : EReal) : Ordering → Prop
  | .lt => a < b
  | .eq => a = b
  | .gt => b < a

theorem says_mval {m m' : Nat} {e e' : Int} (h : Canon m e) (h' : Canon m' e') :
    Says ((mval m e : ℝ) : EReal) ((mval m' e' : ℝ) : EReal) ((compare e e').then (compare m m')) := by
  rcases lt_trichotomy e e' with he | he | he
  · rw [compare_lt_iff_lt.2 he]
    exact EReal.coe_lt_coe_iff.2 (mval_lt h h' (.inl he))
  · rw [compare_eq_iff_eq.2 he]
    rcases lt_trichotomy m m' with hm | hm | hm
    · rw [compare_lt_iff_lt.2 hm]
      exact EReal.coe_lt_coe_iff.2 (mval_lt h h' (.inr ⟨he, hm⟩))
    · rw [compare_eq_iff_eq.2 hm, he, hm]
      exact rfl
    · rw [compare_gt_iff_gt.2 hm]
      exact EReal.coe_lt_coe_iff.2 (mval_lt h' h (.inr ⟨he.symm, hm⟩))
  · rw [compare_gt_iff_gt.2 he]
    exact EReal.coe_lt_coe_iff.2 (mval_lt h' h (.inl he))

theorem says_neg {a b : ℝ} {o : Ordering} (h : Says (a : EReal) (b : EReal) o) : Says ((-a : ℝ) : EReal) ((-b : ℝ) : EReal) o.swap := by
  cases o <;> simp only [Says, Ordering.swap, EReal.coe_lt_coe_iff, EReal.coe_eq_coe_iff] at h ⊢ <;> linarith

theorem compare_spec {u v : UnpackedFloat} (hu : Legal u) (hv : Legal v) (hun : u.isNaN = false) (hvn : v.isNaN = false) :
    ∃ o, u.compare v = some o ∧ Says (uval u) (uval v) o := by
  have hpos : ∀ (m : Nat) (e : Int), 0 < m → (0 : EReal) < ((mval m e : ℝ) : EReal) := fun m e h => by
    exact_mod_cast mval_pos e h
  have hneg : ∀ (m : Nat) (e : Int), 0 < m → ((-mval m e : ℝ) : EReal) < 0 := fun m e h => by
    have := mval_pos e h
    rw [show (0 : EReal) = ((0 : ℝ) : EReal) from rfl, EReal.coe_lt_coe_iff]
    linarith
  have hnp : ∀ (m : Nat) (e : Int) (m' : Nat) (e' : Int), 0 < m → 0 < m' → ((-mval m e : ℝ) : EReal) < ((mval m' e' : ℝ) : EReal) :=
    fun m e m' e' h h' => (hneg m e h).trans (hpos m' e' h')
  rcases u with (_ | _) | _ | (_ | _) | ⟨(_ | _), m, e, h⟩ <;> rcases v with (_ | _) | _ | (_ | _) | ⟨(_ | _), m', e', h'⟩ <;>
    first
    | exact absurd hun (by decide)
    | exact absurd hvn (by decide)
    | exact ⟨_, rfl, rfl⟩
    | exact ⟨_, rfl, (bot_lt_top : (⊥ : EReal) < ⊤)⟩
    | exact ⟨_, rfl, EReal.bot_lt_zero⟩
    | exact ⟨_, rfl, EReal.zero_lt_top⟩
    | exact ⟨_, rfl, EReal.bot_lt_coe _⟩
    | exact ⟨_, rfl, EReal.coe_lt_top _⟩
    | exact ⟨_, rfl, hpos _ _ h⟩
    | exact ⟨_, rfl, hpos _ _ h'⟩
    | exact ⟨_, rfl, hneg _ _ h⟩
    | exact ⟨_, rfl, hneg _ _ h'⟩
    | exact ⟨_, rfl, hnp _ _ _ _ h h'⟩
    | exact ⟨_, rfl, hnp _ _ _ _ h' h⟩
    | exact ⟨_, rfl, says_mval (And.left hu) (And.left hv)⟩
    | exact ⟨_, rfl, says_neg (says_mval (And.left hu) (And.left hv))⟩

/-- The value of a `Float`; what is not a number is given the value `0`. -/
noncomputable def val (x : Float) : EReal := uval x.toModel.unpack

theorem legal (x : Float) : Legal x.toModel.unpack := unpack_legal _

theorem isNaN_iff (x : Float) : x.isNaN = x.toModel.unpack.isNaN := rfl

theorem compare_nan {u v : UnpackedFloat} (h : u.isNaN = true ∨ v.isNaN = true) : u.compare v = none := by
  rcases u with (_ | _) | _ | _ | ⟨(_ | _), m, e, h⟩ <;> rcases v with (_ | _) | _ | _ | ⟨(_ | _), m', e', h'⟩ <;>
    first
    | rfl
    | (rcases h with h | h <;> cases h)

theorem lt_iff {x y : Float} : x < y ↔ x.isNaN = false ∧ y.isNaN = false ∧ val x < val y := by
  have hdef : x < y ↔ (x.toModel.unpack.compare y.toModel.unpack == some .lt) = true :=
    decide_eq_true_iff (p := x.toModel < y.toModel)
  rw [hdef, isNaN_iff, isNaN_iff]
  by_cases hx : x.toModel.unpack.isNaN = false
  · by_cases hy : y.toModel.unpack.isNaN = false
    · obtain ⟨o, ho, hs⟩ := compare_spec (legal x) (legal y) hx hy
      rw [ho]
      simp only [hx, hy, true_and]
      cases o
      · exact iff_of_true rfl hs
      · exact iff_of_false (by decide) (by rw [show val x = val y from hs]; exact lt_irrefl _)
      · exact iff_of_false (by decide) (lt_asymm hs)
    · rw [compare_nan (.inr (by simpa using hy))]
      exact iff_of_false (by decide) fun h => hy h.2.1
  · rw [compare_nan (.inl (by simpa using hx))]
    exact iff_of_false (by decide) fun h => hx h.1

theorem le_iff {x y : Float} : x ≤ y ↔ x.isNaN = false ∧ y.isNaN = false ∧ val x ≤ val y := by
  have hdef : x ≤ y ↔ ((x.toModel.unpack.compare y.toModel.unpack).any (·.isLE)) = true :=
    decide_eq_true_iff (p := x.toModel ≤ y.toModel)
  rw [hdef, isNaN_iff, isNaN_iff]
  by_cases hx : x.toModel.unpack.isNaN = false
  · by_cases hy : y.toModel.unpack.isNaN = false
    · obtain ⟨o, ho, hs⟩ := compare_spec (legal x) (legal y) hx hy
      rw [ho]
      simp only [hx, hy, true_and]
      cases o
      · exact iff_of_true rfl (le_of_lt hs)
      · exact iff_of_true rfl (le_of_eq hs)
      · exact iff_of_false (by decide) (not_le_of_gt hs)
    · rw [compare_nan (.inr (by simpa using hy))]
      exact iff_of_false (by decide) fun h => hy h.2.1
  · rw [compare_nan (.inl (by simpa using hx))]
    exact iff_of_false (by decide) fun h => hx h.1

/-! ## Faithful results -/

/-- The value with a sign. -/
def signed : Sign → ℝ → ℝ
  | .positive, x => x
  | .negative, x => -x

/-- Numbers of the format, without regard to the largest exponent. -/
def IsRep (y : ℝ) : Prop := ∃ s m e, m < 2 ^ 53 ∧ -1074 ≤ e ∧ y = signed s (mval m e)

/-- A number rounded, without regard to the largest exponent. -/
noncomputable def srne (z : ℝ) : ℝ := if 0 ≤ z then rne z else -rne (-z)

theorem rne_zero : rne 0 = 0 := by
  simp [rne, rhe]

theorem srne_neg (z : ℝ) : srne (-z) = -srne z := by
  unfold srne
  rcases lt_trichotomy z 0 with h | h | h
  · rw [if_pos (by linarith), if_neg (by linarith), neg_neg]
  · subst h
    simp [rne_zero]
  · rw [if_neg (by linarith), if_pos h.le, neg_neg]

theorem rne_self {m : Nat} {e : Int} (h : Canon m e) : rne (mval m e) = mval m e := by
  have he : e ≤ max (m.log2 + 1 + e - 53 : Int) (-1074) := by
    rcases h.normal with hn | hn
    · have := (Nat.le_log2 (n := m) (by omega)).2 hn
      omega
    · omega
  obtain ⟨y, hy, -⟩ := roundWithAccuracy_spec .positive he
  have := hy.near m e h.lt h.ge
  rw [sub_self, abs_zero] at this
  rw [← hy.det]
  linarith [abs_eq_zero.1 (le_antisymm this (abs_nonneg _))]

theorem srne_self (s : Sign) {m : Nat} {e : Int} (h : Canon m e) : srne (signed s (mval m e)) = signed s (mval m e) := by
  have h0 : 0 ≤ mval m e := mul_nonneg (Nat.cast_nonneg _) (zpow_pos (by norm_num) _).le
  have hp : srne (mval m e) = mval m e := by rw [srne, if_pos h0, rne_self h]
  cases s
  · show srne (-mval m e) = -mval m e
    rw [srne_neg, hp]
  · exact hp

/-- The least power of two that is too large for the format, 2^1024. -/
noncomputable def huge : ℝ := mval (2 ^ 52) 972

theorem huge_pos : 0 < huge := mval_pos _ (by norm_num)

/-- Numbers that are too large become infinite. -/
def Clip (y : ℝ) (w : EReal) : Prop :=
  (w = (y : EReal) ∧ |y| < huge) ∨ (w = ⊤ ∧ huge ≤ y) ∨ (w = ⊥ ∧ y ≤ -huge)

/-- `u` is nearest to `z`. -/
def Near (z : ℝ) (u : UnpackedFloat) : Prop := ∃ y, IsRep y ∧ (∀ c, IsRep c → |y - z| ≤ |c - z|) ∧ Clip y (uval u) ∧ y = srne z

theorem IsRep.neg {y : ℝ} (h : IsRep y) : IsRep (-y) := by
  obtain ⟨s, m, e, hm, he, rfl⟩ := h
  refine ⟨-s, m, e, hm, he, ?_⟩
  cases s
  · exact neg_neg _
  · rfl

theorem Clip.neg {y : ℝ} {w : EReal} (h : Clip y w) : Clip (-y) (-w) := by
  rcases h with ⟨rfl, h⟩ | ⟨rfl, h⟩ | ⟨rfl, h⟩
  · exact .inl ⟨(EReal.coe_neg y).symm, by rwa [abs_neg]⟩
  · exact .inr (.inr ⟨EReal.neg_top, by linarith⟩)
  · exact .inr (.inl ⟨EReal.neg_bot, by linarith⟩)

theorem Clip.mono {y y' : ℝ} {w w' : EReal} (h : Clip y w) (h' : Clip y' w') (hy : y ≤ y') : w ≤ w' := by
  have hp := huge_pos
  rcases h' with ⟨rfl, h'⟩ | ⟨rfl, h'⟩ | ⟨rfl, h'⟩
  · rcases h with ⟨rfl, h⟩ | ⟨rfl, h⟩ | ⟨rfl, h⟩
    · exact EReal.coe_le_coe_iff.2 hy
    · have := (abs_lt.1 h').2
      linarith
    · exact bot_le
  · exact le_top
  · rcases h with ⟨rfl, h⟩ | ⟨rfl, h⟩ | ⟨rfl, h⟩
    · have := (abs_lt.1 h).1
      linarith
    · linarith
    · exact le_rfl

theorem Near.mono {z z' : ℝ} {u u' : UnpackedFloat} (h : Near z u) (h' : Near z' u') (hz : z < z') : uval u ≤ uval u' := by
  obtain ⟨y, hr, hn, hc, -⟩ := h
  obtain ⟨y', hr', hn', hc', -⟩ := h'
  refine hc.mono hc' ?_
  by_contra hlt
  have h1 := hn y' hr'
  have h2 := hn' y hr
  have e1 := sq_le_sq.2 h1
  have e2 := sq_le_sq.2 h2
  nlinarith

theorem Near.det {z : ℝ} {u u' : UnpackedFloat} (h : Near z u) (h' : Near z u') : uval u = uval u' := by
  obtain ⟨y, -, -, hc, hy⟩ := h
  obtain ⟨y', -, -, hc', hy'⟩ := h'
  have : y = y' := hy.trans hy'.symm
  exact le_antisymm (hc.mono hc' this.le) (hc'.mono hc this.ge)

/-- `u` is a faithful rounding of `z`, and nearest to it. -/
structure Faith (z : EReal) (u : UnpackedFloat) : Prop where
  num : u.isNaN = false
  near : ∀ r : ℝ, z = (r : EReal) → Near r u
  below : ∀ c, Legal c → c.isNaN = false → uval c ≤ z → uval c ≤ uval u
  above : ∀ c, Legal c → c.isNaN = false → z ≤ uval c → uval u ≤ uval c

theorem uval_neg (u : UnpackedFloat) : uval u.neg = -uval u := by
  rcases u with (_ | _) | _ | (_ | _) | ⟨(_ | _), m, e, h⟩
  · exact EReal.neg_bot.symm
  · exact EReal.neg_top.symm
  · exact (neg_zero (G := EReal)).symm
  · exact (neg_zero (G := EReal)).symm
  · exact (neg_zero (G := EReal)).symm
  · show ((mval m e : ℝ) : EReal) = -((-mval m e : ℝ) : EReal)
    rw [← EReal.coe_neg, neg_neg]
  · exact EReal.coe_neg _

theorem neg_legal {u : UnpackedFloat} (h : Legal u) : Legal u.neg := by
  cases u <;> exact h

theorem neg_isNaN (u : UnpackedFloat) : u.neg.isNaN = u.isNaN := by
  cases u <;> rfl

theorem neg_neg' (u : UnpackedFloat) : u.neg.neg = u := by
  rcases u with (_ | _) | _ | (_ | _) | ⟨(_ | _), m, e, h⟩ <;> rfl

theorem Faith.neg {z : EReal} {u : UnpackedFloat} (h : Faith z u) : Faith (-z) u.neg where
  num := by rw [neg_isNaN]; exact h.num
  near r hr := by
    obtain ⟨y, h1, h2, h3, h4⟩ := h.near (-r) (by rw [EReal.coe_neg, ← hr, neg_neg])
    refine ⟨-y, h1.neg, fun c hc => ?_, by rw [uval_neg]; exact h3.neg, by rw [h4, srne_neg, neg_neg]⟩
    have := h2 (-c) hc.neg
    rw [show -y - r = -(y - -r) by ring, abs_neg]
    rwa [show -c - -r = -(c - r) by ring, abs_neg] at this
  below c hc hn hz := by
    rw [uval_neg, EReal.le_neg]
    rw [EReal.le_neg] at hz
    have := h.above c.neg (neg_legal hc) (by rw [neg_isNaN]; exact hn) (by rw [uval_neg]; exact hz)
    rwa [uval_neg] at this
  above c hc hn hz := by
    rw [uval_neg, EReal.neg_le]
    rw [EReal.neg_le] at hz
    have := h.below c.neg (neg_legal hc) (by rw [neg_isNaN]; exact hn) (by rw [uval_neg]; exact hz)
    rwa [uval_neg] at this

theorem settle_neg (u : UnpackedFloat) : settle u.neg = (settle u).neg := by
  rcases u with s | _ | s | ⟨s, m, e, h⟩
  · rfl
  · rfl
  · rfl
  · simp only [UnpackedFloat.neg, settle]
    split <;> rfl

theorem uval_finite (s : Sign) (m : Nat) (e : Int) (h : 0 < m) : uval (.finite s m e h) = ((signed s (mval m e) : ℝ) : EReal) := by
  cases s <;> rfl

theorem abs_signed (s : Sign) {x : ℝ} (h : 0 ≤ x) : |signed s x| = x := by
  cases s
  · exact (abs_neg x).trans (abs_of_nonneg h)
  · exact abs_of_nonneg h

theorem mval_small {m : Nat} {e : Int} (hm : m < 2 ^ 53) (he : e ≤ 971) : mval m e < huge :=
  mval_lt_of_exp hm le_rfl (by omega)

theorem mval_large {m : Nat} {e : Int} (hm : 2 ^ 52 ≤ m) (he : 971 < e) : huge ≤ mval m e := by
  unfold huge mval
  refine mul_le_mul ?_ (zpow_le_zpow_right₀ (by norm_num) (by omega)) (zpow_pos (by norm_num) _).le (Nat.cast_nonneg _)
  exact_mod_cast hm

theorem near_self {u : UnpackedFloat} (hu : Legal u) (h : u.isNaN = false) : ∀ r : ℝ, uval u = (r : EReal) → Near r u := by
  intro r hr
  refine ⟨r, ?_, fun c _ => by rw [sub_self, abs_zero]; exact abs_nonneg _, ?_, ?_⟩
  · rcases u with (_ | _) | _ | s | ⟨s, m, e, hm⟩
    · exact absurd hr (EReal.bot_ne_coe r)
    · exact absurd hr (EReal.top_ne_coe r)
    · cases h
    · have : r = 0 := (EReal.coe_eq_coe_iff.1 hr).symm
      exact ⟨.positive, 0, 0, by norm_num, by norm_num, by rw [this]; simp [signed, mval]⟩
    · rw [uval_finite] at hr
      exact ⟨s, m, e, hu.1.lt, hu.1.ge, (EReal.coe_eq_coe_iff.1 hr).symm⟩
  · refine .inl ⟨hr, ?_⟩
    rcases u with (_ | _) | _ | s | ⟨s, m, e, hm⟩
    · exact absurd hr (EReal.bot_ne_coe r)
    · exact absurd hr (EReal.top_ne_coe r)
    · cases h
    · have : r = 0 := (EReal.coe_eq_coe_iff.1 hr).symm
      rw [this, abs_zero]
      exact huge_pos
    · rw [uval_finite] at hr
      rw [← EReal.coe_eq_coe_iff.1 hr, abs_signed s (mval_pos e hm).le]
      exact mval_small hu.1.lt hu.2
  · rcases u with (_ | _) | _ | s | ⟨s, m, e, hm⟩
    · exact absurd hr (EReal.bot_ne_coe r)
    · exact absurd hr (EReal.top_ne_coe r)
    · cases h
    · have : r = 0 := (EReal.coe_eq_coe_iff.1 hr).symm
      rw [this, srne, if_pos le_rfl, rne_zero]
    · rw [uval_finite] at hr
      rw [← EReal.coe_eq_coe_iff.1 hr, srne_self s hu.1]

/-- A number of the format is its own rounding. -/
theorem Faith.self {u : UnpackedFloat} (hu : Legal u) (h : u.isNaN = false) : Faith (uval u) u :=
  ⟨h, near_self hu h, fun _ _ _ h => h, fun _ _ _ h => h⟩

theorem faith_pos {x y : ℝ} (hx : 0 ≤ x) (h : RoundsTo x y) {u : UnpackedFloat}
    (hu : (u = .zero .positive ∧ y = 0) ∨ ∃ m e h, u = .finite .positive m e h ∧ Canon m e ∧ y = mval m e) :
    Faith (x : EReal) (settle u) := by
  have hy : 0 ≤ y := by
    rcases hu with ⟨_, rfl⟩ | ⟨m, e, hm, _, _, rfl⟩
    · exact le_rfl
    · exact (mval_pos e hm).le
  have h0 := h.faithful (m := 0) (e := 0) (by norm_num) (by norm_num)
  rw [show mval 0 0 = 0 by simp [mval]] at h0
  -- either the value is `y`, or it is infinite and `y` larger than every number of the format
  have key : (settle u).isNaN = false ∧ (uval (settle u) = (y : EReal) ∨
      (uval (settle u) = ⊤ ∧ ∀ m e, m < 2 ^ 53 → e ≤ 971 → mval m e < y)) := by
    rcases hu with ⟨rfl, rfl⟩ | ⟨m, e, h, rfl, hc, rfl⟩
    · exact ⟨rfl, .inl rfl⟩
    · unfold settle
      dsimp only
      split
      · exact ⟨rfl, .inl rfl⟩
      · next hbig =>
        refine ⟨rfl, .inr ⟨rfl, fun n f hn hf => mval_lt_of_exp hn ?_ (by omega)⟩⟩
        rcases hc.normal with h | h
        · exact h
        · omega
  obtain ⟨hnum, key⟩ := key
  have hge : (0 : EReal) ≤ uval (settle u) := by
    rcases key with k | ⟨k, _⟩ <;> rw [k]
    · exact_mod_cast hy
    · exact le_top
  refine ⟨hnum, fun r hr => ?_, fun c hc hn hz => ?_, fun c hc hn hz => ?_⟩
  · have hr : x = r := EReal.coe_eq_coe_iff.1 hr
    subst hr
    refine ⟨y, ?_, fun c hc => ?_, ?_, by rw [srne, if_pos hx, h.det]⟩
    · rcases hu with ⟨_, rfl⟩ | ⟨m, e, hm, _, hc, rfl⟩
      · exact ⟨.positive, 0, 0, by norm_num, by norm_num, by simp [signed, mval]⟩
      · exact ⟨.positive, m, e, hc.lt, hc.ge, rfl⟩
    · obtain ⟨s, m, e, hm, he, rfl⟩ := hc
      cases s
      · refine (h.near 0 0 (by norm_num) (by norm_num)).trans ?_
        have hmv : 0 ≤ mval m e := mul_nonneg (Nat.cast_nonneg _) (zpow_pos (by norm_num) _).le
        rw [show mval 0 0 = 0 by simp [mval]]
        show |0 - x| ≤ |-mval m e - x|
        rw [abs_of_nonpos (by linarith), abs_of_nonpos (by linarith)]
        linarith
      · exact h.near m e hm he
    · rcases hu with ⟨rfl, rfl⟩ | ⟨m, e, hm, rfl, hc, rfl⟩
      · exact .inl ⟨rfl, by rw [abs_zero]; exact huge_pos⟩
      · unfold settle
        dsimp only
        split
        · next he =>
          exact .inl ⟨rfl, by rw [abs_of_pos (mval_pos e hm)]; exact mval_small hc.lt he⟩
        · next he =>
          refine .inr (.inl ⟨rfl, mval_large ?_ (by omega)⟩)
          rcases hc.normal with h | h
          · exact h
          · omega
  · rcases c with (_ | _) | _ | s | ⟨(_ | _), m, e, hm⟩
    · exact bot_le
    · exact absurd hz (not_le_of_gt (EReal.coe_lt_top _))
    · cases hn
    · exact hge
    · refine le_trans ?_ hge
      have := mval_pos e hm
      show ((-mval m e : ℝ) : EReal) ≤ ((0 : ℝ) : EReal)
      rw [EReal.coe_le_coe_iff]
      linarith
    · rcases key with k | ⟨k, _⟩ <;> rw [k]
      · exact EReal.coe_le_coe_iff.2 ((h.faithful hc.1.lt hc.1.ge).1 (EReal.coe_le_coe_iff.1 hz))
      · exact le_top
  · rcases c with (_ | _) | _ | s | ⟨(_ | _), m, e, hm⟩
    · exact absurd hz (not_le_of_gt (EReal.bot_lt_coe _))
    · exact le_top
    · cases hn
    · have hx0 : x ≤ 0 := EReal.coe_le_coe_iff.1 hz
      have hy0 := h0.2 hx0
      rcases key with k | ⟨k, k'⟩
      · rw [k]; exact EReal.coe_le_coe_iff.2 hy0
      · have := k' 0 0 (by norm_num) (by norm_num)
        rw [show mval 0 0 = 0 by simp [mval]] at this
        linarith
    · have hz' : x ≤ -mval m e := EReal.coe_le_coe_iff.1 hz
      have := mval_pos e hm
      linarith
    · have := (h.faithful hc.1.lt hc.1.ge).2 (EReal.coe_le_coe_iff.1 hz)
      rcases key with k | ⟨k, k'⟩
      · rw [k]; exact EReal.coe_le_coe_iff.2 this
      · have := k' m e hc.1.lt hc.2
        linarith

theorem faith_signed {x y : ℝ} (hx : 0 ≤ x) (h : RoundsTo x y) {s : Sign} {u : UnpackedFloat}
    (hu : (u = .zero s ∧ y = 0) ∨ ∃ m e h, u = .finite s m e h ∧ Canon m e ∧ y = mval m e) :
    Faith ((signed s x : ℝ) : EReal) (settle u) := by
  cases s with
  | positive => exact faith_pos hx h hu
  | negative =>
    have := (faith_pos (u := u.neg) hx h (by
      rcases hu with ⟨rfl, hy⟩ | ⟨m, e, h, rfl, hc, hy⟩
      · exact .inl ⟨rfl, hy⟩
      · exact .inr ⟨m, e, h, rfl, hc, hy⟩)).neg
    rw [settle_neg, neg_neg', ← EReal.coe_neg] at this
    exact this

/-- What is packed and read back. -/
def Fine (u : UnpackedFloat) : Prop := ∀ s m e h, u = .finite s m e h → Canon m e

theorem fine_of {y : ℝ} {s : Sign} {u : UnpackedFloat}
    (hu : (u = .zero s ∧ y = 0) ∨ ∃ m e h, u = .finite s m e h ∧ Canon m e ∧ y = mval m e) : Fine u := by
  rintro s' m' e' h' rfl
  rcases hu with ⟨h, _⟩ | ⟨m, e, h, hf, hc, _⟩
  · cases h
  · cases hf; exact hc

theorem Legal.fine {u : UnpackedFloat} (h : Legal u) : Fine u := by
  rintro s m e h' rfl
  exact h.1

theorem Legal.settle {u : UnpackedFloat} (h : Legal u) : settle u = u := by
  rcases u with s | _ | s | ⟨s, m, e, hm⟩
  · rfl
  · rfl
  · rfl
  · exact if_pos h.2

theorem normalize_spec (m : Int) (e : Int) (z : Sign) :
    Fine (normalize .binary64 m e z) ∧ Faith (((m : ℝ) * 2 ^ e : ℝ) : EReal) (settle (normalize .binary64 m e z)) := by
  unfold normalize
  rcases lt_trichotomy m 0 with h | h | h
  · rw [compare_lt_iff_lt.2 h]
    obtain ⟨y, hy, hu⟩ := round_spec .negative e (m := (-m).toNat) (by omega)
    refine ⟨fine_of hu, ?_⟩
    have := faith_signed (mval_pos e (m := (-m).toNat) (by omega)).le hy hu
    convert this using 2
    show (m : ℝ) * 2 ^ e = -(((-m).toNat : ℝ) * 2 ^ e)
    have : (((-m).toNat : ℤ) : ℝ) = ((-m : ℤ) : ℝ) := by rw [Int.toNat_of_nonneg (by omega)]
    rw [Int.cast_natCast] at this
    rw [this]
    push_cast
    ring
  · rw [compare_eq_iff_eq.2 h, h]
    refine ⟨fun _ _ _ _ hf => UnpackedFloat.noConfusion hf, ?_⟩
    have := Faith.self (u := .zero z) trivial rfl
    refine (?_ : ((((0 : ℤ) : ℝ) * 2 ^ e : ℝ) : EReal) = uval (.zero z)) ▸ this
    show ((((0 : ℤ) : ℝ) * 2 ^ e : ℝ) : EReal) = ((0 : ℝ) : EReal)
    rw [Int.cast_zero, zero_mul]
  · rw [compare_gt_iff_gt.2 h]
    obtain ⟨y, hy, hu⟩ := round_spec .positive e (m := m.toNat) (by omega)
    refine ⟨fine_of hu, ?_⟩
    have := faith_signed (mval_pos e (m := m.toNat) (by omega)).le hy hu
    convert this using 2
    show (m : ℝ) * 2 ^ e = (m.toNat : ℝ) * 2 ^ e
    have : ((m.toNat : ℤ) : ℝ) = (m : ℝ) := by rw [Int.toNat_of_nonneg (by omega)]
    rw [Int.cast_natCast] at this
    rw [this]

theorem apply_cast (s : Sign) (n : Int) : ((s.apply n : ℤ) : ℝ) = signed s n := by
  cases s
  · exact Int.cast_neg n
  · rfl

theorem signed_mul (s : Sign) (x c : ℝ) : signed s x * c = signed s (x * c) := by
  cases s
  · exact neg_mul x c
  · rfl

/-- Sums are rounded faithfully. -/
theorem add_faith {u v : UnpackedFloat} (hu : Legal u) (hv : Legal v) (hun : u.isNaN = false) (hvn : v.isNaN = false)
    (h1 : uval u ≠ ⊤ ∨ uval v ≠ ⊥) (h2 : uval u ≠ ⊥ ∨ uval v ≠ ⊤) :
    Fine (UnpackedFloat.add .binary64 u v) ∧ Faith (uval u + uval v) (settle (UnpackedFloat.add .binary64 u v)) := by
  have self : ∀ {w : UnpackedFloat} {z : EReal}, Legal w → w.isNaN = false → uval w = z → Fine w ∧ Faith z (settle w) := by
    rintro w _ hw hn rfl
    exact ⟨hw.fine, by rw [hw.settle]; exact .self hw hn⟩
  rcases u with s | _ | s | ⟨s, m, e, h⟩
  · rcases v with s' | _ | s' | ⟨s', m', e', h'⟩
    · cases s <;> cases s'
      · exact self trivial rfl rfl
      · exact absurd h2 (by simp [uval])
      · exact absurd h1 (by simp [uval])
      · exact self trivial rfl rfl
    · cases hvn
    · cases s
      · exact self (w := .infinity .negative) trivial rfl rfl
      · exact self (w := .infinity .positive) trivial rfl (EReal.top_add_coe 0).symm
    · cases s
      · exact self (w := .infinity .negative) trivial rfl (by rw [uval_finite]; exact (EReal.bot_add _).symm)
      · exact self (w := .infinity .positive) trivial rfl (by rw [uval_finite]; exact (EReal.top_add_coe _).symm)
  · cases hun
  · rcases v with s' | _ | s' | ⟨s', m', e', h'⟩
    · cases s'
      · exact self (w := .infinity .negative) trivial rfl (EReal.add_bot _).symm
      · exact self (w := .infinity .positive) trivial rfl (EReal.coe_add_top 0).symm
    · cases hvn
    · have : uval (.zero s) + uval (.zero s') = 0 := add_zero (0 : EReal)
      rw [this]
      cases s <;> cases s' <;> exact self trivial rfl rfl
    · have : uval (.zero s) + uval (.finite s' m' e' h') = uval (.finite s' m' e' h') := zero_add _
      rw [this]
      exact self (w := .finite s' m' e' h') hv rfl rfl
  · rcases v with s' | _ | s' | ⟨s', m', e', h'⟩
    · cases s'
      · exact self (w := .infinity .negative) trivial rfl (EReal.add_bot _).symm
      · exact self (w := .infinity .positive) trivial rfl (by rw [uval_finite]; exact (EReal.coe_add_top _).symm)
    · cases hvn
    · have : uval (.finite s m e h) + uval (.zero s') = uval (.finite s m e h) := add_zero _
      rw [this]
      exact self (w := .finite s m e h) hu rfl rfl
    · obtain ⟨d, hd⟩ : ∃ d, d = min e e' := ⟨_, rfl⟩
      have key : ∀ (s : Sign) (m : Nat) (e : Int), d ≤ e →
          ((s.apply ((m <<< (e - d).toNat : ℕ) : ℤ) : ℤ) : ℝ) * 2 ^ d = signed s (mval m e) := by
        intro s m e hde
        rw [apply_cast, signed_mul]
        have := mval_shift m (e - d).toNat e
        rw [show e - ((e - d).toNat : ℤ) = d by omega] at this
        rw [← this]
        unfold mval
        rw [Int.cast_natCast]
      have hadd : UnpackedFloat.add .binary64 (.finite s m e h) (.finite s' m' e' h') =
          normalize .binary64 (s.apply ((m <<< (e - d).toNat : ℕ) : ℤ) + s'.apply ((m' <<< (e' - d).toNat : ℕ) : ℤ)) d .positive := by
        rw [hd]; rfl
      rw [hadd, uval_finite, uval_finite, ← key s m e (by omega), ← key s' m' e' (by omega), ← EReal.coe_add, ← add_mul, ← Int.cast_add]
      exact normalize_spec _ _ _

theorem signed_signed (s s' : Sign) (x y : ℝ) : signed s x * signed s' y = signed (s * s') (x * y) := by
  cases s <;> cases s'
  · exact neg_mul_neg x y
  · exact neg_mul x y
  · exact mul_neg x y
  · rfl

/-- The value of an infinity with a sign. -/
theorem uval_infinity (s s' : Sign) {x : ℝ} (hx : 0 < x) :
    uval (.infinity (s * s')) = uval (.infinity s) * ((signed s' x : ℝ) : EReal) ∧
      uval (.infinity (s * s')) = ((signed s x : ℝ) : EReal) * uval (.infinity s') := by
  have hn : -x < 0 := by linarith
  cases s <;> cases s' <;> simp only [uval, signed]
  · exact ⟨(EReal.bot_mul_coe_of_neg hn).symm, (EReal.coe_mul_bot_of_neg hn).symm⟩
  · exact ⟨(EReal.bot_mul_coe_of_pos hx).symm, (EReal.coe_mul_top_of_neg hn).symm⟩
  · exact ⟨(EReal.top_mul_coe_of_neg hn).symm, (EReal.coe_mul_bot_of_pos hx).symm⟩
  · exact ⟨(EReal.top_mul_coe_of_pos hx).symm, (EReal.coe_mul_top_of_pos hx).symm⟩

/-- Products are rounded faithfully. -/
theorem mul_faith {u v : UnpackedFloat} (hu : Legal u) (hv : Legal v) (hun : u.isNaN = false) (hvn : v.isNaN = false)
    (h1 : u.isInf = false ∨ uval v ≠ 0) (h2 : v.isInf = false ∨ uval u ≠ 0) :
    Fine (UnpackedFloat.mul .binary64 u v) ∧ Faith (uval u * uval v) (settle (UnpackedFloat.mul .binary64 u v)) := by
  have self : ∀ {w : UnpackedFloat} {z : EReal}, Legal w → w.isNaN = false → uval w = z → Fine w ∧ Faith z (settle w) := by
    rintro w _ hw hn rfl
    exact ⟨hw.fine, by rw [hw.settle]; exact .self hw hn⟩
  rcases u with s | _ | s | ⟨s, m, e, h⟩
  · rcases v with s' | _ | s' | ⟨s', m', e', h'⟩
    · refine self (w := .infinity (s * s')) trivial rfl ?_
      cases s <;> cases s'
      · exact EReal.bot_mul_bot.symm
      · exact EReal.bot_mul_top.symm
      · exact EReal.top_mul_bot.symm
      · exact EReal.top_mul_top.symm
    · cases hvn
    · rcases h1 with h | h
      · cases h
      · exact absurd rfl h
    · exact self (w := .infinity (s * s')) trivial rfl (by rw [uval_finite]; exact (uval_infinity s s' (mval_pos e' h')).1)
  · cases hun
  · rcases v with s' | _ | s' | ⟨s', m', e', h'⟩
    · rcases h2 with h | h
      · cases h
      · exact absurd rfl h
    · cases hvn
    · exact self (w := .zero (s * s')) trivial rfl (zero_mul (0 : EReal)).symm
    · exact self (w := .zero (s * s')) trivial rfl (zero_mul _).symm
  · rcases v with s' | _ | s' | ⟨s', m', e', h'⟩
    · exact self (w := .infinity (s * s')) trivial rfl (by rw [uval_finite]; exact (uval_infinity s s' (mval_pos e h)).2)
    · cases hvn
    · exact self (w := .zero (s * s')) trivial rfl (mul_zero _).symm
    · have hmm : 0 < m * m' := Nat.mul_pos h h'
      have hle : e + e' ≤ max (((m * m').log2 : ℕ) + 1 + (e + e') - 53) (-1074) := by
        by_cases hbig : 2 ^ 52 ≤ m * m'
        · have := (Nat.le_log2 (by omega)).2 hbig
          omega
        · have h52 : ∀ {a b : Nat}, 0 < b → 2 ^ 52 ≤ a → 2 ^ 52 ≤ a * b := fun hb ha => ha.trans (Nat.le_mul_of_pos_right _ hb)
          rcases hu.1.normal with hn | hn
          · exact absurd (h52 h' hn) hbig
          rcases hv.1.normal with hn' | hn'
          · exact absurd (by rw [Nat.mul_comm]; exact h52 h hn') hbig
          omega
      obtain ⟨y, hy, hr⟩ := roundWithAccuracy_spec (s * s') hle
      refine ⟨fine_of hr, ?_⟩
      have hval : mval (m * m') (e + e') = mval m e * mval m' e' := by
        unfold mval
        rw [zpow_add₀ (by norm_num)]
        push_cast
        ring
      rw [uval_finite, uval_finite, ← EReal.coe_mul, signed_signed, ← hval]
      exact faith_signed (mval_pos _ hmm).le hy hr

theorem sign_div (s s' : Sign) : s / s' = s * s' := by
  cases s <;> cases s' <;> rfl

theorem signed_inv (s : Sign) (x : ℝ) : (signed s x)⁻¹ = signed s x⁻¹ := by
  cases s
  · exact inv_neg
  · rfl

theorem fraction_holds {n d : Nat} (hd : 0 < d) :
    Holds ((n : ℝ) / d) (ExtendedMantissa.ofMantissaAndAccuracy (n / d) (accuracyOfFraction (n % d) d)) := by
  have hd' : (0 : ℝ) < d := by exact_mod_cast hd
  have hn : (n : ℝ) = d * ((n / d : ℕ) : ℝ) + ((n % d : ℕ) : ℝ) := by exact_mod_cast (Nat.div_add_mod n d).symm
  have hlt : ((n % d : ℕ) : ℝ) < d := by exact_mod_cast Nat.mod_lt n hd
  have hx : (n : ℝ) / d = ((n / d : ℕ) : ℝ) + ((n % d : ℕ) : ℝ) / d := by
    rw [div_eq_iff hd'.ne', add_mul, div_mul_cancel₀ _ hd'.ne', hn]
    rw [← hn]
    linarith
  rw [hx]
  generalize n / d = q
  generalize n % d = r at hlt
  have h1 : (r : ℝ) / d < 1 := by rwa [div_lt_one hd']
  unfold accuracyOfFraction
  split
  · next h =>
    subst h
    rw [Nat.cast_zero, zero_div, add_zero]
    exact Holds.exact q
  · next h =>
    have hr : (0 : ℝ) < r := by exact_mod_cast Nat.pos_of_ne_zero h
    have hp : 0 < (r : ℝ) / d := div_pos hr hd'
    rcases lt_trichotomy (2 * r) d with hc | hc | hc
    · rw [compare_lt_iff_lt.2 hc]
      have hc : 2 * (r : ℝ) < d := by exact_mod_cast hc
      have : (r : ℝ) / d < 1 / 2 := by rw [div_lt_iff₀ hd']; linarith
      exact Holds.low (by linarith) (by linarith)
    · rw [compare_eq_iff_eq.2 hc]
      have hc : 2 * (r : ℝ) = d := by exact_mod_cast hc
      refine Holds.half ?_
      rw [← hc]
      field_simp
    · rw [compare_gt_iff_gt.2 hc]
      have hc : (d : ℝ) < 2 * r := by exact_mod_cast hc
      have : 1 / 2 < (r : ℝ) / d := by rw [lt_div_iff₀ hd']; linarith
      exact Holds.high (by linarith) (by linarith)

/-- Quotients are rounded faithfully. -/
theorem div_faith {u v : UnpackedFloat} (hu : Legal u) (hv : Legal v) (hun : u.isNaN = false) (hvn : v.isNaN = false)
    (h1 : u.isInf = false ∨ v.isInf = false) (h2 : uval v ≠ 0) :
    Fine (UnpackedFloat.div .binary64 u v) ∧ Faith (uval u / uval v) (settle (UnpackedFloat.div .binary64 u v)) := by
  have self : ∀ {w : UnpackedFloat} {z : EReal}, Legal w → w.isNaN = false → uval w = z → Fine w ∧ Faith z (settle w) := by
    rintro w _ hw hn rfl
    exact ⟨hw.fine, by rw [hw.settle]; exact .self hw hn⟩
  have hinf : ∀ (s' : Sign) (z : EReal), z / uval (.infinity s') = 0 := by
    intro s' z
    cases s' <;> simp [uval, EReal.div_eq_inv_mul]
  rcases v with s' | _ | s' | ⟨s', m', e', h'⟩
  · rw [hinf]
    rcases u with s | _ | s | ⟨s, m, e, h⟩
    · rcases h1 with h | h <;> cases h
    · cases hun
    · exact self (w := .zero (s / s')) trivial rfl rfl
    · exact self (w := .zero (s / s')) trivial rfl rfl
  · cases hvn
  · exact absurd rfl h2
  · have hq : ∀ z : EReal, z / uval (.finite s' m' e' h') = z * ((signed s' (mval m' e')⁻¹ : ℝ) : EReal) := by
      intro z
      rw [uval_finite, EReal.div_eq_inv_mul, mul_comm, ← EReal.coe_inv, signed_inv]
    rw [hq]
    rcases u with s | _ | s | ⟨s, m, e, h⟩
    · refine self (w := .infinity (s / s')) trivial rfl ?_
      rw [sign_div]
      exact (uval_infinity s s' (inv_pos.2 (mval_pos e' h'))).1
    · cases hun
    · exact self (w := .zero (s / s')) trivial rfl (zero_mul _).symm
    · simp only [UnpackedFloat.div, divCore]
      rw [target_eq]
      have hlt : m < 2 ^ 53 := hu.1.lt
      have hl1 : m.log2 < 53 := (Nat.log2_lt (by omega)).2 hlt
      obtain ⟨t, ht⟩ : ∃ t, t = min (e - e') (max (totalExponent m e - totalExponent m' e' - 53) (-1074)) := ⟨_, rfl⟩
      rw [← ht]
      obtain ⟨k, hk⟩ := Int.eq_ofNat_of_zero_le (show 0 ≤ e - e' - t by omega)
      rw [hk]
      simp only [Int.toNat_natCast]
      unfold totalExponent at ht
      have hle : t ≤ max ((m <<< k / m').log2 + 1 + t - 53 : Int) (-1074) := by
        by_cases h74 : t ≤ -1074
        · omega
        · have hk' : k + m.log2 = 53 + m'.log2 := by omega
          have hge : 2 ^ 52 ≤ m <<< k / m' := by
            rw [Nat.le_div_iff_mul_le h', Nat.shiftLeft_eq]
            have a1 : m' < 2 ^ (m'.log2 + 1) := Nat.lt_log2_self
            have a2 : 2 ^ m.log2 ≤ m := Nat.log2_self_le (by omega)
            calc 2 ^ 52 * m' ≤ 2 ^ 52 * 2 ^ (m'.log2 + 1) := Nat.mul_le_mul_left _ a1.le
              _ = 2 ^ m.log2 * 2 ^ k := by
                rw [← pow_add, ← pow_add]
                congr 1
                omega
              _ ≤ m * 2 ^ k := Nat.mul_le_mul_right _ a2
          have : 52 ≤ (m <<< k / m').log2 := (Nat.le_log2 (by omega)).2 hge
          omega
      obtain ⟨y, hy, hr⟩ := roundWithAccuracy_real (s / s') (fraction_holds (n := m <<< k) h') hle
      refine ⟨fine_of hr, ?_⟩
      have hval : ((m <<< k : ℕ) : ℝ) / m' * 2 ^ t = mval m e * (mval m' e')⁻¹ := by
        unfold mval
        rw [Nat.shiftLeft_eq, show t = e - e' - k by omega, zpow_sub₀ (by norm_num), zpow_sub₀ (by norm_num), zpow_natCast]
        have : (m' : ℝ) ≠ 0 := by exact_mod_cast h'.ne'
        push_cast
        field_simp
      rw [uval_finite, ← EReal.coe_mul, signed_signed, ← hval, ← sign_div]
      exact faith_signed (mul_nonneg (div_nonneg (Nat.cast_nonneg _) (Nat.cast_nonneg _)) (zpow_pos (by norm_num) _).le) hy hr

theorem root_holds (n : Nat) : Holds (Real.sqrt n) (ExtendedMantissa.ofMantissaAndAccuracy (Nat.sqrt n)
    (if n - Nat.sqrt n * Nat.sqrt n = 0 then .exact
      else .inexact (if n - Nat.sqrt n * Nat.sqrt n ≤ Nat.sqrt n then .lt else .gt))) := by
  have h1 : Nat.sqrt n * Nat.sqrt n ≤ n := Nat.sqrt_le n
  have h2 : n < (Nat.sqrt n + 1) * (Nat.sqrt n + 1) := Nat.lt_succ_sqrt n
  generalize Nat.sqrt n = q at h1 h2
  have h1' : (q : ℝ) * q ≤ n := by exact_mod_cast h1
  have h2' : (n : ℝ) < (q + 1) * (q + 1) := by exact_mod_cast h2
  have hq : (0 : ℝ) ≤ q := Nat.cast_nonneg q
  split
  · next h =>
    have : n = q * q := by omega
    rw [this, Nat.cast_mul, Real.sqrt_mul_self hq]
    exact Holds.exact q
  · next h =>
    have hlt : (q : ℝ) * q < n := by
      have : q * q < n := by omega
      exact_mod_cast this
    split
    · next hle =>
      have hle : (n : ℝ) ≤ q * q + q := by
        have : n ≤ q * q + q := by omega
        exact_mod_cast this
      refine Holds.low ?_ ?_
      · rw [Real.lt_sqrt hq]; nlinarith
      · rw [Real.sqrt_lt' (by linarith)]; nlinarith
    · next hle =>
      have hge : (q : ℝ) * q + q + 1 ≤ n := by
        have : q * q + q + 1 ≤ n := by omega
        exact_mod_cast this
      refine Holds.high ?_ ?_
      · rw [Real.lt_sqrt (by linarith)]; nlinarith
      · rw [Real.sqrt_lt' (by linarith)]; nlinarith

/-- Roots are rounded faithfully. -/
theorem sqrt_faith {u : UnpackedFloat} {r : ℝ} (hu : uval u = (r : EReal)) (hun : u.isNaN = false) (hr0 : 0 ≤ r) :
    Fine (UnpackedFloat.sqrt .binary64 u) ∧ Faith ((Real.sqrt r : ℝ) : EReal) (settle (UnpackedFloat.sqrt .binary64 u)) := by
  rcases u with (_ | _) | _ | s | ⟨(_ | _), m, e, h⟩
  · exact absurd hu (EReal.bot_ne_coe r)
  · exact absurd hu (EReal.top_ne_coe r)
  · cases hun
  · have : r = 0 := (EReal.coe_eq_coe_iff.1 hu).symm
    subst this
    rw [Real.sqrt_zero]
    exact ⟨Legal.fine (u := .zero s) trivial, Faith.self (u := .zero s) trivial rfl⟩
  · have hr : -mval m e = r := EReal.coe_eq_coe_iff.1 hu
    have := mval_pos e h
    linarith
  · have hr : mval m e = r := EReal.coe_eq_coe_iff.1 hu
    subst hr
    simp only [UnpackedFloat.sqrt, sqrtCore]
    rw [target_eq]
    obtain ⟨t, ht⟩ : ∃ t, t = min (e.ediv 2) (max ((totalExponent m e + 1).ediv 2 - 53) (-1074)) := ⟨_, rfl⟩
    rw [← ht]
    have hdiv : ∀ z : Int, 2 * z.ediv 2 ≤ z := fun z => Int.mul_ediv_self_le (x := z) (k := 2) (by decide)
    have hd1 := hdiv e
    have hd2 := hdiv (totalExponent m e + 1)
    obtain ⟨k, hk⟩ := Int.eq_ofNat_of_zero_le (show 0 ≤ e - 2 * t by omega)
    rw [hk]
    simp only [Int.toNat_natCast]
    unfold totalExponent at ht hd2
    have hle : t ≤ max ((Nat.sqrt (m <<< k)).log2 + 1 + t - 53 : Int) (-1074) := by
      by_cases h74 : t ≤ -1074
      · omega
      · have hk' : 104 ≤ k + m.log2 := by omega
        have hge : 2 ^ 52 ≤ Nat.sqrt (m <<< k) := by
          rw [Nat.le_sqrt, Nat.shiftLeft_eq]
          have a2 : 2 ^ m.log2 ≤ m := Nat.log2_self_le (by omega)
          calc 2 ^ 52 * 2 ^ 52 = 2 ^ 104 := by norm_num
            _ ≤ 2 ^ (k + m.log2) := Nat.pow_le_pow_right (by norm_num) hk'
            _ = 2 ^ m.log2 * 2 ^ k := by rw [pow_add, Nat.mul_comm]
            _ ≤ m * 2 ^ k := Nat.mul_le_mul_right _ a2
        have : 52 ≤ (Nat.sqrt (m <<< k)).log2 := (Nat.le_log2 (by omega)).2 hge
        omega
    obtain ⟨y, hy, hr⟩ := roundWithAccuracy_real .positive (root_holds (m <<< k)) hle
    refine ⟨fine_of hr, ?_⟩
    have hp : (0 : ℝ) < 2 ^ t := zpow_pos (by norm_num) _
    have hval : Real.sqrt ((m <<< k : ℕ) : ℝ) * 2 ^ t = Real.sqrt (mval m e) := by
      have : mval m e = ((m <<< k : ℕ) : ℝ) * (2 ^ t * 2 ^ t) := by
        unfold mval
        rw [Nat.shiftLeft_eq, ← zpow_add₀ (by norm_num), show e = k + (t + t) by omega, zpow_add₀ (by norm_num), zpow_natCast]
        push_cast
        ring
      rw [this, Real.sqrt_mul (Nat.cast_nonneg _), Real.sqrt_mul_self hp.le]
    rw [← hval]
    exact faith_pos (mul_nonneg (Real.sqrt_nonneg _) hp.le) hy hr

theorem sub_eq (u v : UnpackedFloat) : UnpackedFloat.sub .binary64 u v = UnpackedFloat.add .binary64 u v.neg := by
  rcases u with s | _ | s | ⟨s, m, e, h⟩ <;> rcases v with s' | _ | s' | ⟨s', m', e', h'⟩ <;> try rfl
  have : ∀ (s : Sign) (n : Int), (-s).apply n = -s.apply n := by
    intro s n
    cases s
    · exact (neg_neg n).symm
    · rfl
  simp only [UnpackedFloat.sub, UnpackedFloat.add, UnpackedFloat.neg, this, Int.sub_eq_add_neg]

/-! ## Sums, differences and products of `Float` -/

/-- `w` is a faithful rounding of `z`, and nearest to it. -/
structure Rounding (z : EReal) (w : Float) : Prop where
  num : w.isNaN = false
  near : ∀ r : ℝ, z = (r : EReal) → Near r w.toModel.unpack
  below : ∀ c : Float, c.isNaN = false → val c ≤ z → val c ≤ val w
  above : ∀ c : Float, c.isNaN = false → z ≤ val c → val w ≤ val c

theorem rounding_of {z : EReal} {u : UnpackedFloat} (h : Fine u ∧ Faith z (settle u)) :
    Rounding z (.ofModel (Float.Model.pack u)) := by
  have hu : (Float.ofModel (Float.Model.pack u)).toModel.unpack = settle u := unpack_pack u h.1
  refine ⟨?_, fun r hr => ?_, fun c hn hz => ?_, fun c hn hz => ?_⟩
  · rw [isNaN_iff, hu]; exact h.2.num
  · rw [hu]; exact h.2.near r hr
  · unfold val; rw [hu]; exact h.2.below _ (legal c) hn hz
  · unfold val; rw [hu]; exact h.2.above _ (legal c) hn hz

theorem add_rounding {x y : Float} (hx : x.isNaN = false) (hy : y.isNaN = false) (h1 : val x ≠ ⊤ ∨ val y ≠ ⊥)
    (h2 : val x ≠ ⊥ ∨ val y ≠ ⊤) : Rounding (val x + val y) (x + y) :=
  rounding_of (add_faith (legal x) (legal y) hx hy h1 h2)

theorem isInf_iff {u : UnpackedFloat} : u.isInf = true ↔ uval u = ⊤ ∨ uval u = ⊥ := by
  rcases u with (_ | _) | _ | s | ⟨s, m, e, hm⟩
  · exact iff_of_true rfl (.inr rfl)
  · exact iff_of_true rfl (.inl rfl)
  · exact iff_of_false (by decide) (by simp [uval])
  · exact iff_of_false Bool.noConfusion (by simp [uval])
  · exact iff_of_false Bool.noConfusion (by simp [uval_finite])

theorem mul_rounding {x y : Float} (hx : x.isNaN = false) (hy : y.isNaN = false)
    (h1 : (val x ≠ ⊤ ∧ val x ≠ ⊥) ∨ val y ≠ 0) (h2 : (val y ≠ ⊤ ∧ val y ≠ ⊥) ∨ val x ≠ 0) : Rounding (val x * val y) (x * y) := by
  have key : ∀ {u : UnpackedFloat}, uval u ≠ ⊤ ∧ uval u ≠ ⊥ → u.isInf = false := by
    intro u h
    rw [← Bool.not_eq_true, isInf_iff]
    exact not_or.2 h
  exact rounding_of (mul_faith (legal x) (legal y) hx hy (h1.imp key id) (h2.imp key id))

theorem sub_rounding {x y : Float} (hx : x.isNaN = false) (hy : y.isNaN = false) (h1 : val x ≠ ⊤ ∨ val y ≠ ⊤)
    (h2 : val x ≠ ⊥ ∨ val y ≠ ⊥) : Rounding (val x - val y) (x - y) := by
  have hn : uval y.toModel.unpack.neg = -val y := uval_neg _
  have h := add_faith (legal x) (neg_legal (legal y)) hx (by rw [neg_isNaN]; exact hy)
    (by rw [hn]; exact h1.imp id fun h h' => h (by rw [← neg_neg (val y), h', EReal.neg_bot]))
    (by rw [hn]; exact h2.imp id fun h h' => h (by rw [← neg_neg (val y), h', EReal.neg_top]))
  rw [← sub_eq, hn] at h
  exact rounding_of h

theorem div_rounding {x y : Float} (hx : x.isNaN = false) (hy : y.isNaN = false)
    (h1 : (val x ≠ ⊤ ∧ val x ≠ ⊥) ∨ (val y ≠ ⊤ ∧ val y ≠ ⊥)) (h2 : val y ≠ 0) : Rounding (val x / val y) (x / y) := by
  have key : ∀ {u : UnpackedFloat}, uval u ≠ ⊤ ∧ uval u ≠ ⊥ → u.isInf = false := by
    intro u h
    rw [← Bool.not_eq_true, isInf_iff]
    exact not_or.2 h
  exact rounding_of (div_faith (legal x) (legal y) hx hy (h1.imp key key) h2)

theorem sqrt_rounding {x : Float} {r : ℝ} (hx : x.isNaN = false) (hr : val x = (r : EReal)) (h0 : 0 ≤ r) :
    Rounding ((Real.sqrt r : ℝ) : EReal) x.sqrt :=
  rounding_of (sqrt_faith hr hx h0)

theorem nan_unpack : (Float.ofModel (Float.Model.pack .notANumber)).isNaN = true := by
  rw [isNaN_iff]
  have : (Float.ofModel (Float.Model.pack .notANumber)).toModel.unpack = .notANumber :=
    unpack_pack .notANumber (fun _ _ _ _ h => UnpackedFloat.noConfusion h)
  rw [this]
  rfl

/-- A sum that is a number has numbers as summands, and not opposite infinities. -/
theorem add_defined {x y : Float} (h : (x + y).isNaN = false) :
    x.isNaN = false ∧ y.isNaN = false ∧ (val x ≠ ⊤ ∨ val y ≠ ⊥) ∧ (val x ≠ ⊥ ∨ val y ≠ ⊤) := by
  have nan : UnpackedFloat.add .binary64 x.toModel.unpack y.toModel.unpack ≠ .notANumber := by
    intro hn
    have : (x + y).isNaN = true := by
      show (Float.ofModel (Float.Model.pack (UnpackedFloat.add .binary64 x.toModel.unpack y.toModel.unpack))).isNaN = true
      rw [hn]; exact nan_unpack
    rw [this] at h
    cases h
  have hx : x.isNaN = false := by
    rw [← Bool.not_eq_true, isNaN_iff]
    intro hx
    refine nan ?_
    generalize x.toModel.unpack = u at hx ⊢
    cases u <;> first | rfl | cases hx
  have hy : y.isNaN = false := by
    rw [← Bool.not_eq_true, isNaN_iff]
    intro hy
    refine nan ?_
    generalize x.toModel.unpack = u
    generalize y.toModel.unpack = v at hy ⊢
    cases v <;> first | (cases hy; done) | (cases u <;> rfl)
  refine ⟨hx, hy, ?_, ?_⟩
  · by_contra hc
    simp only [ne_eq, not_or, not_not] at hc
    refine nan ?_
    unfold val at hc
    generalize x.toModel.unpack = u at hc ⊢
    generalize y.toModel.unpack = v at hc ⊢
    rcases u with (_ | _) | _ | s | ⟨(_ | _), m, e, hm⟩ <;> rcases v with (_ | _) | _ | s' | ⟨(_ | _), m', e', hm'⟩ <;>
      first
      | rfl
      | simp [uval] at hc
  · by_contra hc
    simp only [ne_eq, not_or, not_not] at hc
    refine nan ?_
    unfold val at hc
    generalize x.toModel.unpack = u at hc ⊢
    generalize y.toModel.unpack = v at hc ⊢
    rcases u with (_ | _) | _ | s | ⟨(_ | _), m, e, hm⟩ <;> rcases v with (_ | _) | _ | s' | ⟨(_ | _), m', e', hm'⟩ <;>
      first
      | rfl
      | simp [uval] at hc

/-- A sum that is a number is the rounded sum. -/
theorem add_num {x y : Float} (h : (x + y).isNaN = false) :
    x.isNaN = false ∧ y.isNaN = false ∧ Rounding (val x + val y) (x + y) := by
  obtain ⟨h1, h2, h3, h4⟩ := add_defined h
  exact ⟨h1, h2, add_rounding h1 h2 h3 h4⟩

/-- A product is a number only if the factors are, and are not zero and an infinity. -/
theorem mul_num {x y : Float} (h : (x * y).isNaN = false) :
    x.isNaN = false ∧ y.isNaN = false ∧ Rounding (val x * val y) (x * y) := by
  have nan : UnpackedFloat.mul .binary64 x.toModel.unpack y.toModel.unpack ≠ .notANumber := by
    intro hn
    have : (x * y).isNaN = true := by
      show (Float.ofModel (Float.Model.pack (UnpackedFloat.mul .binary64 x.toModel.unpack y.toModel.unpack))).isNaN = true
      rw [hn]; exact nan_unpack
    rw [this] at h
    cases h
  have hx : x.isNaN = false := by
    rw [← Bool.not_eq_true, isNaN_iff]
    intro hx
    refine nan ?_
    generalize x.toModel.unpack = u at hx ⊢
    cases u <;> first | rfl | cases hx
  have hy : y.isNaN = false := by
    rw [← Bool.not_eq_true, isNaN_iff]
    intro hy
    refine nan ?_
    generalize x.toModel.unpack = u
    generalize y.toModel.unpack = v at hy ⊢
    cases v <;> first | (cases hy; done) | (cases u <;> rfl)
  have inf : ∀ {u : UnpackedFloat}, ¬ (uval u ≠ ⊤ ∧ uval u ≠ ⊥) → u.isInf = true := by
    intro u h
    rw [isInf_iff]
    by_contra hc
    exact h (not_or.1 hc)
  have zero : ∀ {u : UnpackedFloat}, u.isNaN = false → uval u = 0 → ∃ s, u = .zero s := by
    intro u hn h
    rcases u with (_ | _) | _ | s | ⟨s, m, e, hm⟩
    · simp [uval] at h
    · simp [uval] at h
    · cases hn
    · exact ⟨s, rfl⟩
    · rw [uval_finite] at h
      have h : signed s (mval m e) = 0 := EReal.coe_eq_coe_iff.1 h
      have := abs_signed s (mval_pos e hm).le
      rw [h, abs_zero] at this
      exact absurd this (mval_pos e hm).ne
  refine ⟨hx, hy, mul_rounding hx hy ?_ ?_⟩
  · by_contra hc
    rw [not_or, not_not] at hc
    obtain ⟨s, hs⟩ := zero hy hc.2
    have hi := inf hc.1
    refine nan ?_
    rw [hs]
    generalize x.toModel.unpack = u at hi ⊢
    cases u <;> first | rfl | cases hi
  · by_contra hc
    rw [not_or, not_not] at hc
    obtain ⟨s, hs⟩ := zero hx hc.2
    have hi := inf hc.1
    refine nan ?_
    rw [hs]
    generalize y.toModel.unpack = u at hi ⊢
    cases u <;> first | rfl | cases hi

theorem unpack_neg (y : Float) : (-y).toModel.unpack = y.toModel.unpack.neg := by
  have : (-y).toModel.unpack = settle y.toModel.unpack.neg := unpack_pack _ (neg_legal (legal y)).fine
  rw [this, (neg_legal (legal y)).settle]

theorem val_neg (y : Float) : val (-y) = -val y := by
  unfold val
  rw [unpack_neg, uval_neg]

theorem sub_eq_add_neg' (x y : Float) : x - y = x + -y := by
  show Float.ofModel (Float.Model.pack (UnpackedFloat.sub .binary64 x.toModel.unpack y.toModel.unpack)) =
    .ofModel (Float.Model.pack (UnpackedFloat.add .binary64 x.toModel.unpack (-y).toModel.unpack))
  rw [unpack_neg, sub_eq]

/-- A difference that is a number is rounded. -/
theorem sub_num {x y : Float} (h : (x - y).isNaN = false) :
    x.isNaN = false ∧ y.isNaN = false ∧ Rounding (val x - val y) (x - y) := by
  rw [sub_eq_add_neg'] at h ⊢
  obtain ⟨h1, h2, h3⟩ := add_num h
  rw [val_neg] at h3
  refine ⟨h1, ?_, h3⟩
  rw [← Bool.not_eq_true, isNaN_iff, unpack_neg, neg_isNaN] at h2
  rwa [← Bool.not_eq_true, isNaN_iff]

/-- A quotient that is a number is rounded, unless the divisor is zero. -/
theorem div_num {x y : Float} (h : (x / y).isNaN = false) :
    x.isNaN = false ∧ y.isNaN = false ∧ ((val x ≠ ⊤ ∧ val x ≠ ⊥) ∨ (val y ≠ ⊤ ∧ val y ≠ ⊥)) ∧
      (val y ≠ 0 → Rounding (val x / val y) (x / y)) := by
  have nan : UnpackedFloat.div .binary64 x.toModel.unpack y.toModel.unpack ≠ .notANumber := by
    intro hn
    have : (x / y).isNaN = true := by
      show (Float.ofModel (Float.Model.pack (UnpackedFloat.div .binary64 x.toModel.unpack y.toModel.unpack))).isNaN = true
      rw [hn]; exact nan_unpack
    rw [this] at h
    cases h
  have hx : x.isNaN = false := by
    rw [← Bool.not_eq_true, isNaN_iff]
    intro hx
    refine nan ?_
    generalize x.toModel.unpack = u at hx ⊢
    cases u <;> first | rfl | cases hx
  have hy : y.isNaN = false := by
    rw [← Bool.not_eq_true, isNaN_iff]
    intro hy
    refine nan ?_
    generalize x.toModel.unpack = u
    generalize y.toModel.unpack = v at hy ⊢
    cases v <;> first | (cases hy; done) | (cases u <;> rfl)
  have inf : ∀ {u : UnpackedFloat}, ¬ (uval u ≠ ⊤ ∧ uval u ≠ ⊥) → ∃ s, u = .infinity s := by
    intro u h
    have : u.isInf = true := by
      rw [isInf_iff]
      by_contra hc
      exact h (not_or.1 hc)
    cases u
    · exact ⟨_, rfl⟩
    all_goals cases this
  have hc : (val x ≠ ⊤ ∧ val x ≠ ⊥) ∨ (val y ≠ ⊤ ∧ val y ≠ ⊥) := by
    by_contra hc
    rw [not_or] at hc
    obtain ⟨s, hs⟩ := inf hc.1
    obtain ⟨s', hs'⟩ := inf hc.2
    refine nan ?_
    rw [hs, hs']
    rfl
  exact ⟨hx, hy, hc, fun h0 => div_rounding hx hy hc h0⟩

/-- A value of the format is rounded to itself. -/
theorem Rounding.eq {z : EReal} {w : Float} (h : Rounding z w) {c : Float} (hn : c.isNaN = false) (hc : val c = z) : val w = z :=
  hc ▸ le_antisymm (h.above c hn hc.ge) (h.below c hn hc.le)

theorem Rounding.top {w : Float} (h : Rounding ⊤ w) : val w = ⊤ :=
  h.eq (c := .ofModel (Float.Model.pack (.infinity .positive))) (by decide +kernel)
    (congrArg uval (unpack_pack (.infinity .positive) (fun _ _ _ _ h => UnpackedFloat.noConfusion h)))

theorem Rounding.bot {w : Float} (h : Rounding ⊥ w) : val w = ⊥ :=
  h.eq (c := .ofModel (Float.Model.pack (.infinity .negative))) (by decide +kernel)
    (congrArg uval (unpack_pack (.infinity .negative) (fun _ _ _ _ h => UnpackedFloat.noConfusion h)))

/-- Rounding keeps the order. -/
theorem Rounding.mono {z z' : EReal} {w w' : Float} (h : Rounding z w) (h' : Rounding z' w') (hz : z < z') : val w ≤ val w' := by
  induction z with
  | bot => rw [h.bot]; exact bot_le
  | top => exact absurd hz (not_lt_of_ge le_top)
  | coe r =>
    induction z' with
    | bot => exact absurd hz (not_lt_of_ge bot_le)
    | top => rw [h'.top]; exact le_top
    | coe r' => exact (h.near r rfl).mono (h'.near r' rfl) (EReal.coe_lt_coe_iff.1 hz)

/-- Rounding is a function of the exact result. -/
theorem Rounding.det {z : EReal} {w w' : Float} (h : Rounding z w) (h' : Rounding z w') : val w = val w' := by
  induction z with
  | bot => rw [h.bot, h'.bot]
  | top => rw [h.top, h'.top]
  | coe r => exact (h.near r rfl).det (h'.near r rfl)

/-- Rounding keeps the order. -/
theorem Rounding.le {z z' : EReal} {w w' : Float} (h : Rounding z w) (h' : Rounding z' w') (hz : z ≤ z') : val w ≤ val w' := by
  rcases hz.lt_or_eq with hz | rfl
  · exact h.mono h' hz
  · exact (h.det h').le

theorem val_zero : val 0.0 = 0 := by
  have : (0.0 : Float).toModel.unpack = .zero .positive := by rfl
  unfold val
  rw [this]
  rfl

theorem nonneg_iff {x : Float} : 0.0 ≤ x ↔ x.isNaN = false ∧ 0 ≤ val x := by
  rw [le_iff, val_zero]
  exact ⟨fun h => h.2, fun h => ⟨by decide +kernel, h⟩⟩

theorem lt_zero_iff {x : Float} : x < 0.0 ↔ x.isNaN = false ∧ val x < 0 := by
  rw [lt_iff, val_zero]
  exact ⟨fun h => ⟨h.1, h.2.2⟩, fun h => ⟨h.1, by decide +kernel, h.2⟩⟩

theorem ne_bot_of_nonneg {z : EReal} (h : 0 ≤ z) : z ≠ ⊥ := fun hb => by
  rw [hb] at h
  exact absurd h (not_le_of_gt EReal.bot_lt_zero)

/-- Sums of numbers that are not negative are not negative. -/
theorem add_nonneg {x y : Float} (hx : 0.0 ≤ x) (hy : 0.0 ≤ y) : 0.0 ≤ x + y := by
  rw [nonneg_iff] at hx hy
  have h := add_rounding hx.1 hy.1 (.inr (ne_bot_of_nonneg hy.2)) (.inl (ne_bot_of_nonneg hx.2))
  refine nonneg_iff.2 ⟨h.num, ?_⟩
  rw [← val_zero]
  exact h.below 0.0 (by decide +kernel) (by rw [val_zero]; exact _root_.add_nonneg hx.2 hy.2)

/-- Products of numbers that are not negative are not negative. -/
theorem mul_nonneg {x y : Float} (hx : ¬ x < 0.0) (hy : ¬ y < 0.0) : ¬ x * y < 0.0 := by
  intro h
  obtain ⟨hn, h⟩ := lt_zero_iff.1 h
  obtain ⟨hxn, hyn, hr⟩ := mul_num hn
  have hx : 0 ≤ val x := le_of_not_gt fun h => hx (lt_zero_iff.2 ⟨hxn, h⟩)
  have hy : 0 ≤ val y := le_of_not_gt fun h => hy (lt_zero_iff.2 ⟨hyn, h⟩)
  have := hr.below 0.0 (by decide +kernel) (by rw [val_zero]; exact EReal.mul_nonneg hx hy)
  rw [val_zero] at this
  exact absurd h (not_lt_of_ge this)

/-- Adding a number that is not negative does not decrease. -/
theorem not_add_lt {p d : Float} (hd : ¬ d < 0.0) : ¬ p + d < p := by
  intro h
  obtain ⟨hn, hp, h⟩ := lt_iff.1 h
  obtain ⟨-, hdn, hr⟩ := add_num hn
  have hd : 0 ≤ val d := le_of_not_gt fun h => hd (lt_zero_iff.2 ⟨hdn, h⟩)
  exact absurd h (not_lt_of_ge (hr.below p hp (le_add_of_nonneg_right hd)))

/-- Numbers with the same value are the same, but for the sign of zero. -/
theorem uval_inj {u v : UnpackedFloat} (hu : Legal u) (hv : Legal v) (hun : u.isNaN = false) (hvn : v.isNaN = false)
    (h : uval u = uval v) : u = v ∨ ∃ s s', u = .zero s ∧ v = .zero s' := by
  obtain ⟨o, ho, hs⟩ := compare_spec hu hv hun hvn
  have : o = .eq := by
    cases o
    · exact absurd h (ne_of_lt hs)
    · rfl
    · exact absurd h.symm (ne_of_lt hs)
  subst this
  rcases u with (_ | _) | _ | s | ⟨(_ | _), m, e, hm⟩ <;> rcases v with (_ | _) | _ | s' | ⟨(_ | _), m', e', hm'⟩ <;>
    first
    | exact .inl rfl
    | exact .inr ⟨_, _, rfl, rfl⟩
    | (cases hun; done)
    | (cases hvn; done)
    | cases ho
    | skip
  · have ho : ((compare e e').then (compare m m')).swap = .eq := Option.some.inj ho
    rw [Ordering.swap_eq_eq, Ordering.then_eq_eq, compare_eq_iff_eq, compare_eq_iff_eq] at ho
    obtain ⟨rfl, rfl⟩ := ho
    exact .inl rfl
  · have ho : (compare e e').then (compare m m') = .eq := Option.some.inj ho
    rw [Ordering.then_eq_eq, compare_eq_iff_eq, compare_eq_iff_eq] at ho
    obtain ⟨rfl, rfl⟩ := ho
    exact .inl rfl

/-- Sums are monotone. -/
theorem add_mono {v a b : Float} (h : a ≤ b) : ¬ v + b < v + a := by
  intro hlt
  obtain ⟨hbn, han, hlt⟩ := lt_iff.1 hlt
  obtain ⟨-, -, hle⟩ := le_iff.1 h
  obtain ⟨-, -, hra⟩ := add_num han
  obtain ⟨-, -, hrb⟩ := add_num hbn
  exact absurd hlt (not_lt_of_ge (hra.le hrb (add_le_add_right hle _)))

/-- Products with a number that is not negative are monotone. -/
theorem mul_mono {d a b : Float} (hd : 0.0 ≤ d) (h : a ≤ b) : ¬ d * b < d * a := by
  intro hlt
  obtain ⟨hbn, han, hlt⟩ := lt_iff.1 hlt
  obtain ⟨-, -, hle⟩ := le_iff.1 h
  obtain ⟨-, hd⟩ := nonneg_iff.1 hd
  obtain ⟨-, -, hra⟩ := mul_num han
  obtain ⟨-, -, hrb⟩ := mul_num hbn
  exact absurd hlt (not_lt_of_ge (hra.le hrb (mul_le_mul_of_nonneg_left hle hd)))

end TrafficSim.B64
