import Verif.Model.Curve
import Verif.Lemmas.Except
import Mathlib.Tactic.Ring
import Mathlib.Tactic.Linarith
import Mathlib.Tactic.FieldSimp
import Mathlib.Analysis.Calculus.Deriv.Pow
import Mathlib.Analysis.Calculus.Deriv.Mul
import Mathlib.Analysis.Calculus.Deriv.Add

/-! # C41, C42, C44, C47, C48, C59: intervals, cubic functions, Bezier curves, lookup tables

Exact arithmetic unless a theorem says otherwise. -/

namespace TrafficSim

/-! ### C47: intervals -/

theorem contains_iff (i : Interval ℝ) (v : ℝ) : i.contains v = true ↔ i.min ≤ v ∧ v ≤ i.max := by
  simp [Interval.contains]

/-- **C47** (interpolation) `lerp` maps 0 and 1 to the ends and is inverse to `inv_lerp`. -/
theorem C47_lerp_inverse (i : Interval ℝ) (h : i.min ≠ i.max) (t v : ℝ) :
    i.invLerp (i.lerp t) = t ∧ i.lerp (i.invLerp v) = v ∧ i.lerp 0 = i.min ∧ i.lerp 1 = i.max ∧
      i.invLerp i.min = 0 ∧ i.invLerp i.max = 1 := by
  have h' : i.max - i.min ≠ 0 := sub_ne_zero.2 h.symm
  simp only [Interval.invLerp, Interval.lerp]
  refine ⟨?_, ?_, by ring, by ring, by simp, by field_simp⟩ <;> field_simp <;> ring

example : (⟨2, 5⟩ : Interval ℝ).min ≠ (⟨2, 5⟩ : Interval ℝ).max := by norm_num

/-- **C47** (containment) The distance to a point is negative exactly if the point lies strictly
inside, at most zero exactly if `contains` says so, and otherwise it is the gap to the nearer end. -/
theorem C47_distance (i : Interval ℝ) (v : ℝ) :
    (i.distance v < 0 ↔ i.min < v ∧ v < i.max) ∧ (i.distance v ≤ 0 ↔ i.contains v = true) ∧
    (i.min ≤ i.max → i.max ≤ v → i.distance v = v - i.max) ∧
    (i.min ≤ i.max → v ≤ i.min → i.distance v = i.min - v) := by
  simp only [Interval.distance, Interval.contains, fmax]
  refine ⟨?_, ?_, fun h1 h2 => ?_, fun h1 h2 => ?_⟩
  · rw [max_lt_iff]; constructor <;> rintro ⟨h1, h2⟩ <;> constructor <;> linarith
  · simp only [max_le_iff, Bool.and_eq_true, decide_eq_true_eq]
    constructor <;> rintro ⟨h1, h2⟩ <;> constructor <;> linarith
  · exact max_eq_left (by linarith)
  · exact max_eq_right (by linarith)

/-- Two intervals overlap if they have a common inner point. -/
def CommonInner (a b : Interval ℝ) : Prop := ∃ x, a.min < x ∧ x < a.max ∧ b.min < x ∧ x < b.max

/-- **C47** (overlap) For non-degenerate intervals `overlaps` is exactly having a common inner point,
and is equivalent to a negative clearance. Both are symmetric. -/
theorem C47_overlap (a b : Interval ℝ) (ha : a.min < a.max) (hb : b.min < b.max) :
    (a.overlaps b = true ↔ CommonInner a b) ∧ (a.clearanceWith b < 0 ↔ a.overlaps b = true) ∧
      a.overlaps b = b.overlaps a ∧ a.clearanceWith b = b.clearanceWith a := by
  have h1 : a.overlaps b = true ↔ b.min < a.max ∧ a.min < b.max := by
    simp [Interval.overlaps]
  refine ⟨?_, ?_, ?_, ?_⟩
  · rw [h1]
    constructor
    · rintro ⟨h2, h3⟩
      refine ⟨(max a.min b.min + min a.max b.max) / 2, ?_⟩
      have h4 : max a.min b.min < min a.max b.max := by
        simp only [max_lt_iff, lt_min_iff]; exact ⟨⟨ha, h2⟩, h3, hb⟩
      have := le_max_left a.min b.min
      have := le_max_right a.min b.min
      have := min_le_left a.max b.max
      have := min_le_right a.max b.max
      refine ⟨?_, ?_, ?_, ?_⟩ <;> linarith
    · rintro ⟨x, h2, h3, h4, h5⟩
      exact ⟨h4.trans h3, h2.trans h5⟩
  · rw [h1]
    simp only [Interval.clearanceWith, fmax, max_lt_iff]
    constructor <;> rintro ⟨h2, h3⟩ <;> constructor <;> linarith
  · simp [Interval.overlaps, Bool.and_comm]
  · simp only [Interval.clearanceWith, fmax]; exact max_comm _ _

example : CommonInner ⟨0, 2⟩ ⟨1, 3⟩ := ⟨3 / 2, by norm_num⟩

/-- **C47** (disc, shift) A disc has its centre as midpoint, twice the radius as length, and contains
exactly the points within the radius; shifting moves the contained points and keeps the length. -/
theorem C47_disc_shift (c r : ℝ) (i : Interval ℝ) (d v : ℝ) :
    (Interval.disc c r).midpoint = c ∧ (Interval.disc c r).length = 2 * r ∧
    ((Interval.disc c r).contains v = true ↔ |v - c| ≤ r) ∧
    (i.add d).length = i.length ∧ (i.sub d).length = i.length ∧
    (i.add d).contains (v + d) = i.contains v ∧ (i.sub d).contains (v - d) = i.contains v ∧
    (i.add d).sub d = i := by
  refine ⟨?_, ?_, ?_, ?_, ?_, ?_, ?_, ?_⟩
  · simp only [Interval.disc, Interval.midpoint]; norm_num; ring
  · simp only [Interval.disc, Interval.length]; ring
  · rw [contains_iff, abs_le]
    simp only [Interval.disc]
    constructor <;> rintro ⟨h1, h2⟩ <;> constructor <;> linarith
  · simp only [Interval.add, Interval.length]; ring
  · simp only [Interval.sub, Interval.length]; ring
  · simp [Interval.add, Interval.contains]
  · simp [Interval.sub, Interval.contains]
  · simp [Interval.sub, Interval.add]

/-! ### C44: fitting a cubic -/

/-- **C44** The fitted cubic takes the given values and slopes at the two ends. -/
theorem C44_fit (x1 y1 m1 x2 y2 m2 : ℝ) (h : x1 ≠ x2) :
    (CubicFn.fit x1 y1 m1 x2 y2 m2).y x1 = y1 ∧ (CubicFn.fit x1 y1 m1 x2 y2 m2).dy x1 = m1 ∧
    (CubicFn.fit x1 y1 m1 x2 y2 m2).y x2 = y2 ∧ (CubicFn.fit x1 y1 m1 x2 y2 m2).dy x2 = m2 := by
  have h' : x2 - x1 ≠ 0 := sub_ne_zero.2 h.symm
  simp only [CubicFn.fit, CubicFn.y, CubicFn.dy, CubicFn.yAndDy, powNeg1, powNeg2, powNeg3]
  have e : x2 + -x1 = x2 - x1 := by ring
  simp only [e]
  generalize x2 - x1 = w at *
  norm_num
  refine ⟨?_, ?_, ?_⟩ <;> field_simp <;> ring

/-- **C44** (translation) Translating shifts the argument; a constant function is constant. -/
theorem C44_translate (f : CubicFn ℝ) (d x c : ℝ) :
    (f.translateX d).y x = f.y (x + d) ∧ (f.translateX d).dy x = f.dy (x + d) ∧
      (CubicFn.constant c).y x = c ∧ (CubicFn.constant c).dy x = 0 := by
  refine ⟨?_, ?_, ?_, ?_⟩ <;>
    simp only [CubicFn.translateX, CubicFn.y, CubicFn.dy, CubicFn.yAndDy, CubicFn.constant]
  · ring
  · norm_num; ring
  · norm_num
  · norm_num

example : (CubicFn.fit (1 : ℝ) 2 0 3 4 0).y 2 = 3 := by
  simp only [CubicFn.fit, CubicFn.y, CubicFn.yAndDy, powNeg1, powNeg2, powNeg3]; norm_num

/-! ### C41: Bezier algebra -/

/-- **C41** (ends) Curves start and end at their end points. -/
theorem C41_ends (b : CubicBezier2d ℝ) (q : QuadraticBezier2d ℝ) :
    b.sample b.bounds.min = b.p0 ∧ b.sample b.bounds.max = b.p3 ∧
    q.sample q.bounds.min = q.p0 ∧ q.sample q.bounds.max = q.p2 := by
  simp only [CubicBezier2d.sample, QuadraticBezier2d.sample, CubicBezier2d.bounds,
    QuadraticBezier2d.bounds, V2.add, V2.smul]
  norm_num

/-- **C41** (subdivision) The two parts trace exactly the two pieces of the curve. -/
theorem C41_subdivide (b : CubicBezier2d ℝ) (t u : ℝ) :
    (b.subdivide t).1.sample u = b.sample (t * u) ∧
    (b.subdivide t).2.sample u = b.sample (t + (1 - t) * u) := by
  simp only [CubicBezier2d.subdivide, CubicBezier2d.sample, V2.lerp, V2.add, V2.smul, V2.sub,
    V2.mk.injEq]
  norm_num
  refine ⟨⟨?_, ?_⟩, ?_, ?_⟩ <;> ring

/-- **C41** (reversal) The reversed curve traces the curve backwards. -/
theorem C41_reverse (b : CubicBezier2d ℝ) (t : ℝ) : b.reverse.sample t = b.sample (1 - t) := by
  simp only [CubicBezier2d.reverse, CubicBezier2d.sample, V2.add, V2.smul, V2.mk.injEq]
  norm_num
  constructor <;> ring

/-- **C41** (conversion) A line or quadratic curve converted to a cubic traces the same curve. -/
theorem C41_convert (p q r : V2 ℝ) (t : ℝ) :
    (CubicBezier2d.line p q).sample t = p.lerp q t ∧
    (CubicBezier2d.quadratic p q r).sample t = (QuadraticBezier2d.mk p q r).sample t := by
  simp only [CubicBezier2d.line, CubicBezier2d.quadratic, CubicBezier2d.sample,
    QuadraticBezier2d.sample, V2.add, V2.smul, V2.lerp, V2.sub, V2.mk.injEq]
  norm_num
  refine ⟨⟨?_, ?_⟩, ?_, ?_⟩ <;> ring

/-- **C41** (segments) A line segment between two different points starts and ends there, and its
parameter is the distance from the start. -/
theorem C41_segment (p q : V2 ℝ) (h : p ≠ q) (t : ℝ) :
    let l := LineSegment2d.fromEnds p q
    l.sample l.bounds.min = p ∧ l.sample l.bounds.max = q ∧ l.end_ = q ∧
      V2.magnitude l.tangent = 1 ∧ V2.distance p (l.sample t) = |t| := by
  have hpos : 0 < (q.x - p.x) * (q.x - p.x) + (q.y - p.y) * (q.y - p.y) := by
    have hxy : q.x - p.x ≠ 0 ∨ q.y - p.y ≠ 0 := by
      by_contra hc
      rw [not_or, not_ne_iff, not_ne_iff, sub_eq_zero, sub_eq_zero] at hc
      apply h; cases p; cases q; simp_all
    rcases hxy with h | h <;> [have := mul_self_pos.2 h; have := mul_self_pos.2 h] <;>
      nlinarith [mul_self_nonneg (q.x - p.x), mul_self_nonneg (q.y - p.y)]
  have hsq := Real.sqrt_pos.2 hpos
  have hss := Real.mul_self_sqrt hpos.le
  set s := Real.sqrt ((q.x - p.x) * (q.x - p.x) + (q.y - p.y) * (q.y - p.y)) with hs
  have hsne : s ≠ 0 := hsq.ne'
  have htan : (q.x - p.x) / s * ((q.x - p.x) / s) + (q.y - p.y) / s * ((q.y - p.y) / s) = 1 := by
    field_simp; linarith [hss]
  simp only [LineSegment2d.fromEnds, LineSegment2d.sample, LineSegment2d.bounds, LineSegment2d.end_,
    V2.add, V2.smul, V2.sub, V2.sdiv, V2.magnitude, V2.magnitude2, V2.dot, V2.distance, fsqrt, isNan,
    Bool.false_eq_true, if_false, ← hs, htan]
  refine ⟨?_, ?_, ?_, by simp, ?_⟩
  · cases p; norm_num
  · cases q; simp only [V2.mk.injEq]; constructor <;> field_simp <;> ring
  · cases q; simp only [V2.mk.injEq]; constructor <;> field_simp <;> ring
  · rw [show (p.x + t * ((q.x - p.x) / s) - p.x) * (p.x + t * ((q.x - p.x) / s) - p.x) +
        (p.y + t * ((q.y - p.y) / s) - p.y) * (p.y + t * ((q.y - p.y) / s) - p.y) = t * t by
      linear_combination (t * t) * htan]
    exact Real.sqrt_mul_self_eq_abs t

example : (⟨0, 0⟩ : V2 ℝ) ≠ ⟨3, 4⟩ := by simp

/-! ### C42: derivatives -/

/-- `d` is the derivative of the planar curve `f` at `t`. -/
def HasDeriv2 (f : ℝ → V2 ℝ) (d : V2 ℝ) (t : ℝ) : Prop :=
  HasDerivAt (fun t => (f t).x) d.x t ∧ HasDerivAt (fun t => (f t).y) d.y t

/-- The derivative of a cubic polynomial. -/
theorem hasDerivAt_cubic (a b c d t : ℝ) :
    HasDerivAt (fun t => a + b * t + c * t ^ 2 + d * t ^ 3) (b + 2 * c * t + 3 * d * t ^ 2) t := by
  have h1 := (hasDerivAt_id t).const_mul b
  have h2 := (hasDerivAt_pow 2 t).const_mul c
  have h3 := (hasDerivAt_pow 3 t).const_mul d
  have := ((h1.const_add a).add h2).add h3
  refine (this.congr_deriv ?_).congr_of_eventuallyEq (Filter.Eventually.of_forall fun x => ?_)
  · push_cast; ring
  · simp [id]

/-- A function that equals a cubic polynomial has that polynomial's derivative. -/
theorem hasDerivAt_of_cubic {f : ℝ → ℝ} {t d' : ℝ} (a b c d : ℝ)
    (hf : ∀ t, f t = a + b * t + c * t ^ 2 + d * t ^ 3) (hd : d' = b + 2 * c * t + 3 * d * t ^ 2) :
    HasDerivAt f d' t := by
  rw [hd, show f = fun t => a + b * t + c * t ^ 2 + d * t ^ 3 from funext hf]
  exact hasDerivAt_cubic a b c d t

/-- **C42** (segments) -/
theorem C42_segment (l : LineSegment2d ℝ) (t : ℝ) : HasDeriv2 l.sample (l.toCurve.sampleDt t) t := by
  constructor
  · refine hasDerivAt_of_cubic l.start.x l.tangent.x 0 0 (fun t => ?_) ?_ <;>
      simp [LineSegment2d.sample, LineSegment2d.toCurve, V2.add, V2.smul]
    ring
  · refine hasDerivAt_of_cubic l.start.y l.tangent.y 0 0 (fun t => ?_) ?_ <;>
      simp [LineSegment2d.sample, LineSegment2d.toCurve, V2.add, V2.smul]
    ring

/-- **C42** (quadratic curves) The first and second derivatives. -/
theorem C42_quadratic (b : QuadraticBezier2d ℝ) (t : ℝ) :
    HasDeriv2 b.sample (b.sampleDt t) t ∧ HasDeriv2 b.sampleDt (b.sampleDt2 t) t := by
  refine ⟨⟨?_, ?_⟩, ?_, ?_⟩
  · refine hasDerivAt_of_cubic b.p0.x (2 * (b.p1.x - b.p0.x)) (b.p0.x - 2 * b.p1.x + b.p2.x) 0
      (fun t => ?_) ?_ <;>
      simp only [QuadraticBezier2d.sample, QuadraticBezier2d.sampleDt, V2.add, V2.smul] <;>
      norm_num <;> ring
  · refine hasDerivAt_of_cubic b.p0.y (2 * (b.p1.y - b.p0.y)) (b.p0.y - 2 * b.p1.y + b.p2.y) 0
      (fun t => ?_) ?_ <;>
      simp only [QuadraticBezier2d.sample, QuadraticBezier2d.sampleDt, V2.add, V2.smul] <;>
      norm_num <;> ring
  · refine hasDerivAt_of_cubic (2 * (b.p1.x - b.p0.x)) (2 * (b.p0.x - 2 * b.p1.x + b.p2.x)) 0 0
      (fun t => ?_) ?_ <;>
      simp only [QuadraticBezier2d.sampleDt2, QuadraticBezier2d.sampleDt, V2.add, V2.smul, V2.sub] <;>
      norm_num <;> ring
  · refine hasDerivAt_of_cubic (2 * (b.p1.y - b.p0.y)) (2 * (b.p0.y - 2 * b.p1.y + b.p2.y)) 0 0
      (fun t => ?_) ?_ <;>
      simp only [QuadraticBezier2d.sampleDt2, QuadraticBezier2d.sampleDt, V2.add, V2.smul, V2.sub] <;>
      norm_num <;> ring

/-- **C42** (cubic curves) -/
theorem C42_cubic (b : CubicBezier2d ℝ) (t : ℝ) : HasDeriv2 b.sample (b.sampleDt t) t := by
  constructor
  · refine hasDerivAt_of_cubic b.p0.x (3 * (b.p1.x - b.p0.x)) (3 * (b.p0.x - 2 * b.p1.x + b.p2.x))
      (b.p3.x - 3 * b.p2.x + 3 * b.p1.x - b.p0.x) (fun t => ?_) ?_ <;>
      simp only [CubicBezier2d.sample, CubicBezier2d.sampleDt, V2.add, V2.smul] <;>
      norm_num <;> ring
  · refine hasDerivAt_of_cubic b.p0.y (3 * (b.p1.y - b.p0.y)) (3 * (b.p0.y - 2 * b.p1.y + b.p2.y))
      (b.p3.y - 3 * b.p2.y + 3 * b.p1.y - b.p0.y) (fun t => ?_) ?_ <;>
      simp only [CubicBezier2d.sample, CubicBezier2d.sampleDt, V2.add, V2.smul] <;>
      norm_num <;> ring

/-- **C42** (cubic functions) -/
theorem C42_cubicFn (f : CubicFn ℝ) (x : ℝ) : HasDerivAt f.y (f.dy x) x := by
  refine hasDerivAt_of_cubic (f.c0 * f.offset ^ 3 + f.c1 * f.offset ^ 2 + f.c2 * f.offset + f.c3)
    (3 * f.c0 * f.offset ^ 2 + 2 * f.c1 * f.offset + f.c2) (3 * f.c0 * f.offset + f.c1) f.c0
    (fun t => ?_) ?_
  · simp only [CubicFn.y, CubicFn.yAndDy]; ring
  · simp only [CubicFn.dy, CubicFn.yAndDy]; norm_num; ring

/-! ### C59: the rotated range -/

/-- **C59** With a start not above the count the rotated range yields every index below the count
exactly once, beginning with the start (or with 0 if the start equals the count). -/
theorem C59_rotatedRange (count start : Nat) (h : start ≤ count) :
    (rotatedRange count start).Nodup ∧ (∀ i, i ∈ rotatedRange count start ↔ i < count) ∧
      (rotatedRange count start).length = count ∧
      (start < count → (rotatedRange count start).head? = some start) := by
  refine ⟨?_, fun i => ?_, by simp [rotatedRange], fun hlt => ?_⟩
  · refine List.Nodup.map_on ?_ List.nodup_range
    intro a ha b hb
    simp only [List.mem_range] at ha hb
    dsimp only
    split <;> split <;> omega
  · simp only [rotatedRange, List.mem_map, List.mem_range]
    constructor
    · rintro ⟨a, ha, rfl⟩
      split <;> omega
    · intro hi
      by_cases hs : start ≤ i
      · exact ⟨i - start, by omega, by rw [if_neg (by omega)]; omega⟩
      · exact ⟨i + count - start, by omega, by rw [if_pos (by omega)]; omega⟩
  · have h0 : 0 < count := by omega
    simp only [rotatedRange, List.head?_map]
    rw [List.head?_range, if_neg (by omega)]
    simp [Nat.not_le.2 hlt]

example : rotatedRange 4 1 = [1, 2, 3, 0] := by decide

/-! ### C48: lookup tables -/

/-- **C48** The value read at `x` is the function sampled at a point within half a step of the point
of the range nearest to `x`. `hn` says that the table has at most 2^32 entries, which the index type
of the code requires. -/
theorem C48_lookup {T : Type} (r : Interval ℝ) (step : ℝ) (f : ℝ → T) (hr : r.min < r.max)
    (hs : 0 < step) (hn : (r.max - r.min) / step ≤ 4294967295) (x : ℝ) :
    ∃ y, (LookupTable.fromSamples r step f).sample x = .ok (f y) ∧
      |y - max r.min (min x r.max)| ≤ step / 2 := by
  set L := (r.max - r.min) / step with hL
  have hLpos : 0 < L := div_pos (by linarith) hs
  have hLs : L * step = r.max - r.min := by rw [hL]; field_simp
  have hceil : (0 : ℤ) < ⌈L⌉ := Int.ceil_pos.2 hLpos
  have hceil2 : ⌈L⌉ ≤ (4294967295 : ℤ) := Int.ceil_le.2 (by exact_mod_cast hn)
  obtain ⟨n, hnn⟩ : ∃ n : Nat, ⌈L⌉ = (n : ℤ) := ⟨⌈L⌉.toNat, by omega⟩
  have hn0 : 0 < n := by omega
  have hnle : n ≤ 4294967295 := by omega
  have hLn : L ≤ n := by have := Int.le_ceil L; rw [hnn] at this; exact_mod_cast this
  have hnL : (n : ℝ) < L + 1 := by have := Int.ceil_lt_add_one L; rw [hnn] at this; exact_mod_cast this
  have hcount : (LookupTable.fromSamples r step f).values =
      (List.range n).map fun i : Nat => f (r.min + ((i : ℝ) + 0.5) * step) := by
    simp only [LookupTable.fromSamples, fceil, toUsize, Interval.length, List.map_map, Flt.ofNat]
    rw [show ((r.max - r.min) / step : ℝ) = L from rfl, hnn]
    rw [show min ⌊((n : ℤ) : ℝ)⌋₊ usizeMax = n by
      rw [Int.cast_natCast, Nat.floor_natCast]; unfold usizeMax; omega]
    rfl
  set v := (x - r.min) / step with hv
  have hvs : v * step = x - r.min := by rw [hv]; field_simp
  set k := min (min ⌊v⌋₊ u32Max) (n - 1) with hk
  have hkn : k < n := by omega
  refine ⟨r.min + ((k : ℝ) + 0.5) * step, ?_, ?_⟩
  · have hlen : (LookupTable.fromSamples r step f).values.length = n := by rw [hcount]; simp
    unfold LookupTable.sample
    rw [hlen]
    simp only [Nat.pos_iff_ne_zero.1 hn0, if_false]
    have : min (toU32 ((x - (LookupTable.fromSamples r step f).offset) /
        (LookupTable.fromSamples r step f).step)) (n - 1) = k := rfl
    rw [this, hcount, List.getElem?_map, List.getElem?_range hkn]
    rfl
  · have hkcase : k = min ⌊v⌋₊ (n - 1) := by rw [hk]; unfold u32Max; omega
    have h05 : ((k : ℝ) + 0.5) * step = k * step + step / 2 := by ring_nf
    rw [h05]
    rcases le_total x r.min with hx | hx
    · -- left of the range
      have hv0 : v ≤ 0 := div_nonpos_of_nonpos_of_nonneg (by linarith) hs.le
      have hk0 : k = 0 := by rw [hkcase, Nat.floor_of_nonpos hv0]; simp
      rw [max_eq_left (by rw [min_eq_left (by linarith)]; exact hx), hk0]
      simp only [Nat.cast_zero, zero_mul, zero_add]
      rw [show r.min + step / 2 - r.min = step / 2 by ring, abs_of_pos (by linarith)]
    · have hv0 : 0 ≤ v := div_nonneg (by linarith) hs.le
      rw [max_eq_right (by simp [hx, hr.le])]
      rcases le_total x r.max with hx2 | hx2
      · rw [min_eq_left hx2]
        have hvL : v ≤ L := div_le_div_of_nonneg_right (by linarith) hs.le
        have hfl := Nat.floor_le hv0
        have hfl2 := Nat.lt_floor_add_one v
        by_cases hc : ⌊v⌋₊ ≤ n - 1
        · have : k = ⌊v⌋₊ := by rw [hkcase]; omega
          rw [this, abs_le]
          constructor <;> nlinarith
        · have hkk : k = n - 1 := by rw [hkcase]; omega
          have hge : (n : ℝ) ≤ ⌊v⌋₊ := by exact_mod_cast (by omega : n ≤ ⌊v⌋₊)
          have hvn : v = n := le_antisymm (hvL.trans hLn) (hge.trans hfl)
          have : (k : ℝ) = n - 1 := by rw [hkk, Nat.cast_sub hn0]; simp
          rw [this, abs_le]
          constructor <;> nlinarith
      · rw [min_eq_right hx2]
        have hvL : L ≤ v := div_le_div_of_nonneg_right (by linarith) hs.le
        have hkk : k = n - 1 := by
          rw [hkcase, min_eq_right]
          apply Nat.le_floor
          have : ((n - 1 : ℕ) : ℝ) = n - 1 := by rw [Nat.cast_sub hn0]; simp
          rw [this]; linarith
        have : (k : ℝ) = n - 1 := by rw [hkk, Nat.cast_sub hn0]; simp
        rw [this, abs_le]
        constructor <;> nlinarith

/-- The hypotheses of `C48_lookup` hold for the range 0 to 10 with step 3 (four samples). -/
example : ∃ y, (LookupTable.fromSamples ⟨0, 10⟩ 3 (fun x : ℝ => x)).sample 7 = .ok y ∧ |y - 7| ≤ 3 / 2 := by
  obtain ⟨y, h1, h2⟩ := C48_lookup ⟨0, 10⟩ 3 (fun x : ℝ => x) (by norm_num) (by norm_num)
    (by norm_num) 7
  exact ⟨y, h1, by norm_num at h2 ⊢; exact h2⟩

/-- **C48** (outside) Outside the range the table is constant: it returns the end samples. -/
theorem C48_outside {T : Type} (r : Interval ℝ) (step : ℝ) (f : ℝ → T) (hr : r.min < r.max)
    (hs : 0 < step) (hn : (r.max - r.min) / step ≤ 4294967295) (x : ℝ) :
    (x ≤ r.min → (LookupTable.fromSamples r step f).sample x =
      (LookupTable.fromSamples r step f).sample r.min) ∧
    (r.max ≤ x → (LookupTable.fromSamples r step f).sample x =
      (LookupTable.fromSamples r step f).sample r.max) := by
  have hceil2 : ⌈(r.max - r.min) / step⌉ ≤ (4294967295 : ℤ) := Int.ceil_le.2 (by exact_mod_cast hn)
  have hLpos : 0 < (r.max - r.min) / step := div_pos (by linarith) hs
  have hlen : (LookupTable.fromSamples r step f).values.length =
      min ⌊(⌈(r.max - r.min) / step⌉ : ℝ)⌋₊ usizeMax := by
    simp [LookupTable.fromSamples, fceil, toUsize, Interval.length]
  have key : ∀ a b : ℝ, min (toU32 ((a - r.min) / step)) ((LookupTable.fromSamples r step f).values.length - 1) =
      min (toU32 ((b - r.min) / step)) ((LookupTable.fromSamples r step f).values.length - 1) →
      (LookupTable.fromSamples r step f).sample a = (LookupTable.fromSamples r step f).sample b := by
    intro a b h
    unfold LookupTable.sample
    have h' : min (toU32 ((a - (LookupTable.fromSamples r step f).offset) /
        (LookupTable.fromSamples r step f).step)) ((LookupTable.fromSamples r step f).values.length - 1) =
        min (toU32 ((b - (LookupTable.fromSamples r step f).offset) /
        (LookupTable.fromSamples r step f).step)) ((LookupTable.fromSamples r step f).values.length - 1) := h
    simp only [h']
  constructor
  · intro hx
    apply key
    simp only [toU32]
    rw [Nat.floor_of_nonpos (div_nonpos_of_nonpos_of_nonneg (by linarith) hs.le)]
    simp
  · intro hx
    apply key
    rw [hlen]
    simp only [toU32]
    obtain ⟨n, hnn⟩ : ∃ n : Nat, ⌈(r.max - r.min) / step⌉ = (n : ℤ) :=
      ⟨⌈(r.max - r.min) / step⌉.toNat, by have := Int.ceil_pos.2 hLpos; omega⟩
    have hn0 : 0 < n := by have := Int.ceil_pos.2 hLpos; omega
    rw [hnn, Int.cast_natCast, Nat.floor_natCast]
    have hnL : (n : ℝ) < (r.max - r.min) / step + 1 := by
      have := Int.ceil_lt_add_one ((r.max - r.min) / step); rw [hnn] at this; exact_mod_cast this
    have hn1 : ((n - 1 : ℕ) : ℝ) = n - 1 := by rw [Nat.cast_sub hn0]; simp
    have h1 : n - 1 ≤ ⌊(x - r.min) / step⌋₊ := by
      apply Nat.le_floor
      have : (r.max - r.min) / step ≤ (x - r.min) / step :=
        div_le_div_of_nonneg_right (by linarith) hs.le
      rw [hn1]; linarith
    have h2 : n - 1 ≤ ⌊(r.max - r.min) / step⌋₊ := by
      apply Nat.le_floor; rw [hn1]; linarith
    unfold u32Max usizeMax
    omega

end TrafficSim
