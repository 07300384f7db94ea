import Verif.Props.LinkCurve

/-! # C38: straight links -/

namespace TrafficSim

/-! ### C38: straight links are exact -/

section
variable (l : LineSegment2d ℝ) (d : ℝ)

/-- The walk along a straight line after `k` steps. -/
noncomputable def lineState (k : Nat) : EquiState ℝ where
  ts := ⟨k * d, l.length⟩
  ps0 := l.sample (k * d)
  ps1 := l.sample l.length
  dists := ⟨0, l.length - k * d⟩
  points := ((List.range (k + 1)).map fun i : ℕ => l.sample (i * d)).reverse
  lastP := l.sample (k * d)

variable {l d} (hl : l.tangent.x * l.tangent.x + l.tangent.y * l.tangent.y = 1)

include hl in
theorem line_dist (s t : ℝ) : ((l.sample s).sub (l.sample t)).magnitude = |s - t| := by
  simp only [LineSegment2d.sample, V2.magnitude, V2.magnitude2, V2.dot, V2.sub, V2.add, V2.smul, fsqrt]
  rw [← Real.sqrt_mul_self_eq_abs]
  congr 1
  linear_combination (s - t) ^ 2 * hl

include hl in
theorem line_inner (hd : 0 < d) (k j : Nat) (hk : d < l.length - k * d) :
    equiInner l.toCurve d (j + 1) (lineState l d k) = lineState l d (k + 1) := by
  have hne : l.length - k * d ≠ 0 := by linarith
  have hT : (lineState l d k).ts.lerp ((lineState l d k).dists.invLerp d) = ((k + 1 : ℕ) : ℝ) * d := by
    simp only [lineState, Interval.lerp, Interval.invLerp]
    push_cast
    field_simp
    ring
  have hD : ((l.toCurve.sample (((k + 1 : ℕ) : ℝ) * d)).sub (lineState l d k).lastP).magnitude = d := by
    show ((l.sample _).sub (l.sample _)).magnitude = d
    rw [line_dist hl, show ((k + 1 : ℕ) : ℝ) * d - k * d = d by push_cast; ring, abs_of_pos hd]
  have hend : ((l.toCurve.sample l.toCurve.bounds.max).sub
      (l.toCurve.sample (((k + 1 : ℕ) : ℝ) * d))).magnitude = l.length - ((k + 1 : ℕ) : ℝ) * d := by
    show ((l.sample l.length).sub (l.sample _)).magnitude = _
    rw [line_dist hl, abs_of_pos]
    push_cast; linarith
  rw [equiInner]
  simp only [hT, hD, div_self hd.ne', hend]
  rw [if_neg (by norm_num), if_neg (by norm_num)]
  simp only [lineState]
  rw [List.range_succ (n := k + 1), List.map_append, List.reverse_append]
  norm_num [LineSegment2d.toCurve, LineSegment2d.bounds]

include hl in
theorem line_outer (hd : 0 < d) : ∀ (fuel k : Nat) (s : EquiState ℝ), 0 < l.length - k * d →
    equiOuter l.toCurve d fuel (lineState l d k) = .ok s →
    ∃ n, k ≤ n ∧ s = lineState l d n ∧ 0 < l.length - n * d ∧ l.length - n * d ≤ d := by
  intro fuel
  induction fuel with
  | zero => intro k s _ h; simp [equiOuter] at h
  | succ fuel ih =>
    intro k s hk h
    simp only [equiOuter] at h
    split at h
    · rename_i hlt
      rw [line_inner hl hd k 99 hlt] at h
      obtain ⟨n, h1, h2⟩ := ih (k + 1) s (by
        have : d < l.length - k * d := hlt
        push_cast; linarith) h
      exact ⟨n, by omega, h2⟩
    · rename_i hlt
      simp only [M_pure_ok] at h
      exact ⟨k, le_rfl, h.symm, hk, not_lt.1 hlt⟩

include hl in
theorem line_outer_ends (hd : 0 < d) : ∀ (fuel k : Nat), l.length - k * d < fuel * d →
    ∃ s, equiOuter l.toCurve d (fuel + 1) (lineState l d k) = .ok s := by
  intro fuel
  induction fuel with
  | zero =>
    intro k hk
    refine ⟨lineState l d k, ?_⟩
    simp only [equiOuter]
    rw [if_neg]
    · rfl
    · show ¬ (d < l.length - k * d)
      simp at hk; linarith
  | succ fuel ih =>
    intro k hk
    rw [equiOuter]
    split
    · rename_i hlt
      rw [line_inner hl hd k 99 hlt]
      exact ih (k + 1) (by push_cast at hk ⊢; linarith)
    · exact ⟨_, rfl⟩

theorem equiOuter_mono {c : Curve ℝ} : ∀ {fuel : Nat} {s r : EquiState ℝ}, equiOuter c d fuel s = .ok r →
    ∀ {fuel'}, fuel ≤ fuel' → equiOuter c d fuel' s = .ok r
  | 0, _, _, h, _, _ => by cases h
  | fuel + 1, s, r, h, 0, hf => by omega
  | fuel + 1, s, r, h, fuel' + 1, hf => by
    simp only [equiOuter] at h ⊢
    split
    · rw [if_pos ‹_›] at h
      exact equiOuter_mono h (by omega)
    · rw [if_neg ‹_›] at h
      exact h

include hl in
theorem line_init_eq (h0 : 0 ≤ l.length) : equiInit l.toCurve = lineState l d 0 := by
  have h00 : (0.0 : ℝ) = 0 := by norm_num
  have hmag : ((l.sample l.length).sub (l.sample 0)).magnitude = l.length := by
    rw [line_dist hl, sub_zero, abs_of_nonneg h0]
  simp only [equiInit, LineSegment2d.toCurve, LineSegment2d.bounds, lineState]
  rw [show (@OfScientific.ofScientific ℝ (@Flt.toOfScientific ℝ instFltReal) 0 true 1) = (0.0 : ℝ) from rfl, h00]
  simp [hmag]

include hl in
/-- The points along a straight line lie exactly at multiples of the step. -/
theorem line_points (hd : 0 < d) (hlen : d < l.length) {fuel : Nat} {pts : List (V2 ℝ)} {len : ℝ}
    (h : equidistantPointsAlongCurve fuel l.toCurve d = .ok (pts, len)) :
    ∃ m, 2 ≤ m ∧ pts = (List.range m).map (fun i : ℕ => l.sample (i * d)) ∧
      |len - l.length| ≤ 0.001 * d ∧ ((m : ℝ) - 2) * d < l.length := by
  simp only [equidistantPointsAlongCurve, M_bind_ok, M_pure_ok] at h
  obtain ⟨s, hs, hfin⟩ := h
  rw [line_init_eq (d := d) hl (by linarith)] at hs
  obtain ⟨n, -, rfl, hn1, hn2⟩ := line_outer hl hd fuel 0 s (by simp; linarith) hs
  have hmag : ((lineState l d n).ps1.sub (lineState l d n).lastP).magnitude = l.length - n * d := by
    show ((l.sample l.length).sub (l.sample _)).magnitude = _
    rw [line_dist hl, abs_of_pos hn1]
  have hlast : (lineState l d n).lastP = l.sample (n * d) := rfl
  have hcount : (Flt.ofNat (F := ℝ) ((lineState l d n).points.length - 1)) = (n : ℝ) := by
    show (((lineState l d n).points.length - 1 : ℕ) : ℝ) = _
    simp [lineState]
  have hn0 : 1 ≤ n := by
    rcases Nat.eq_zero_or_pos n with h | h
    · subst h; simp at hn2; linarith
    · exact h
  simp only [equiFinish, hmag, hcount] at hfin
  split at hfin
  · rename_i hr
    simp only [Prod.mk.injEq] at hfin
    obtain ⟨h1, h2⟩ := hfin
    refine ⟨n + 2, by omega, ?_, ?_, by push_cast; linarith⟩
    · rw [← h1, List.range_succ (n := n + 1), List.map_append]
      simp only [lineState, List.reverse_cons, List.reverse_reverse, List.map_cons, List.map_nil]
      congr 2
      have hq : ((l.sample l.length).sub (l.sample (n * d))).normalizeTo d = V2.smul d l.tangent := by
        unfold V2.normalizeTo
        rw [line_dist hl, abs_of_pos hn1]
        simp only [LineSegment2d.sample, V2.sub, V2.add, V2.smul, V2.mk.injEq]
        have : l.length - n * d ≠ 0 := hn1.ne'
        constructor <;> rw [← mul_right_inj' this] <;> field_simp <;> ring
      rw [hq]
      simp only [LineSegment2d.sample, V2.add, V2.smul, V2.mk.injEq]
      push_cast
      constructor <;> ring
    · rw [← h2]
      rw [show (n : ℝ) * d + (l.length - n * d) - l.length = 0 by ring, abs_zero]
      norm_num; exact hd.le
  · rename_i hr
    simp only [Prod.mk.injEq] at hfin
    obtain ⟨h1, h2⟩ := hfin
    refine ⟨n + 1, by omega, ?_, ?_, by push_cast; linarith⟩
    · rw [← h1]; simp [lineState]
    · rw [← h2, abs_le]
      have := not_lt.1 hr
      constructor
      · linarith
      · linarith [mul_pos (show (0 : ℝ) < 0.001 by norm_num) hd]

theorem line_makeOdd {m : Nat} (hm : 2 ≤ m) {pts : List (V2 ℝ)}
    (h : makeOdd ((List.range m).map fun i : ℕ => l.sample (i * d)) = .ok pts) :
    ∃ m', 3 ≤ m' ∧ m' ≤ m + 1 ∧ pts = (List.range m').map fun i : ℕ => l.sample (i * d) := by
  unfold makeOdd at h
  split at h
  · obtain ⟨k, rfl⟩ : ∃ k, m = k + 2 := ⟨m - 2, by omega⟩
    rw [List.range_succ, List.range_succ] at h
    simp only [List.map_append, List.map_cons, List.map_nil, List.reverse_append, List.reverse_cons,
      List.reverse_nil, List.nil_append, List.cons_append, M_pure_ok] at h
    refine ⟨k + 3, by omega, by omega, ?_⟩
    rw [← h, List.range_succ, List.range_succ, List.range_succ]
    simp only [List.map_append, List.map_cons, List.map_nil]
    congr 2
    simp only [LineSegment2d.sample, V2.lerp, V2.add, V2.smul, V2.sub, V2.mk.injEq]
    push_cast
    norm_num
    constructor <;> ring
  · rename_i hev
    simp only [M_pure_ok] at h
    simp at hev
    exact ⟨m, by omega, by omega, h.symm⟩

end

/-- **C38** A link built with any step on the straight segment from `a` to `b`, which is longer than
the step and not longer than four billion steps: its length is right to 0.1 % of the step, and at every distance `s` its centre line is the
point at distance `s` along the segment with the direction of the segment; with a lateral offset the
point moves by exactly that much to the left. -/
theorem C38_straight {a b : V2 ℝ} {step : ℝ} {fuel : Nat} {c : LinkCurve ℝ} (hstep : 0 < step)
    (hlen : step < V2.distance a b)
    (h : LinkCurve.withStep fuel (LineSegment2d.fromEnds a b).toCurve step = .ok c)
    (hmax : V2.distance a b ≤ 4294967296 * step) (s off : ℝ) :
    let u := V2.sdiv (b.sub a) (V2.distance a b)
    |c.length - V2.distance a b| ≤ 0.001 * step ∧
    c.sampleCentre s = .ok ⟨a.add (V2.smul s u), u⟩ ∧
    c.sample s off = .ok ⟨(a.add (V2.smul s u)).add (V2.smul off (rot90 u)), u⟩ := by
  intro u
  have hab : a ≠ b := by
    rintro rfl
    have : V2.distance a a = 0 := by
      simp [V2.distance, V2.magnitude, V2.magnitude2, V2.dot, V2.sub, fsqrt]
    linarith
  obtain ⟨-, -, -, hmag, -⟩ := C41_segment a b hab 0
  set l := LineSegment2d.fromEnds a b with hldef
  have hll : l.length = V2.distance a b := rfl
  have htan : l.tangent = u := by simp [hldef, LineSegment2d.fromEnds, isNan]; rfl
  have hls : l.start = a := rfl
  have hu1 : l.tangent.x * l.tangent.x + l.tangent.y * l.tangent.y = 1 := by
    have : Real.sqrt (l.tangent.x * l.tangent.x + l.tangent.y * l.tangent.y) = 1 := hmag
    exact Real.sqrt_eq_one.1 this
  obtain ⟨pts, pts', len, h1, h2, h3, h4⟩ := withStep_spec h
  obtain ⟨m, hm, hpts, hle, hm2⟩ := line_points hu1 hstep (by rw [hll]; exact hlen) h1
  rw [hpts] at h2
  obtain ⟨m', hm', hm3, hpts'⟩ := line_makeOdd hm h2
  obtain ⟨-, modd, -, -⟩ := makeOdd_spec h2
  have hcl : c.length = len := by rw [h4]
  have hcs : c.segments = segmentsOf pts' := by rw [h4]
  have hcsc : c.scale = 0.5 / step := by rw [h4]
  have hlen' : pts'.length = m' := by rw [hpts']; simp
  have hslen := segmentsOf_length pts'
  have hspos := List.length_pos_iff.2 h3
  have hm4 : m ≤ 4294967298 := by
    by_contra hc
    have : (4294967298 : ℝ) + 1 ≤ m := by exact_mod_cast Nat.lt_of_not_le hc
    rw [hll] at hm2
    have : (4294967296 : ℝ) * step ≤ ((m : ℝ) - 2) * step := mul_le_mul_of_nonneg_right (by linarith) hstep.le
    linarith
  have hsegs : c.segments.length ≤ 4294967296 := by rw [hcs]; omega
  refine ⟨by rw [hcl, ← hll]; exact hle, ?_⟩
  set i := min ⌊s * c.scale⌋₊ (c.segments.length - 1) with hi
  have hidx : min (min ⌊s * c.scale⌋₊ u32Max) (c.segments.length - 1) = i := by unfold u32Max; omega
  have hib : 2 * i + 2 < pts'.length := by rw [hcs] at hi; omega
  have hget := segmentsOf_get pts' i hib
  rw [← hcs] at hget
  have hp : ∀ k (hk : k < pts'.length), pts'[k] = l.sample (k * step) := by
    intro k hk; simp [hpts']
  rw [hp, hp, hp] at hget
  set seg := segmentOf (l.sample ((2 * i : ℕ) * step)) (l.sample ((2 * i + 1 : ℕ) * step))
    (l.sample ((2 * i + 2 : ℕ) * step)) with hseg
  have hne : c.segments.length ≠ 0 := by rw [hcs]; omega
  have hsi : c.sampleInternal s = .ok (seg, s * c.scale - (i : ℕ)) := by
    simp only [LinkCurve.sampleInternal, LinkCurve.segmentIndex, toU32, hidx, hne, if_false, pure_bind,
      hget]
    rfl
  have hpos : seg.sample (s * c.scale - (i : ℕ)) = a.add (V2.smul s u) := by
    rw [hseg, hcsc, ← htan, ← hls]
    simp only [segmentOf, QuadraticBezier2d.sample, LineSegment2d.sample, V2.lerp, V2.add, V2.smul, V2.sub,
      V2.mk.injEq]
    push_cast
    norm_num
    constructor <;> field_simp <;> ring
  have hdt : seg.sampleDt (s * c.scale - (i : ℕ)) = V2.smul (2 * step) u := by
    rw [hseg, hcsc, ← htan]
    simp only [segmentOf, QuadraticBezier2d.sampleDt, LineSegment2d.sample, V2.lerp, V2.add, V2.smul, V2.sub,
      V2.mk.injEq]
    push_cast
    norm_num
    constructor <;> field_simp <;> ring
  have hnorm : (V2.smul (2 * step) u).normalize = u := by
    rw [← htan]
    simp only [V2.normalize, V2.normalizeTo, V2.smul, V2.magnitude, V2.magnitude2, V2.dot, fsqrt]
    rw [show 2 * step * l.tangent.x * (2 * step * l.tangent.x) +
        2 * step * l.tangent.y * (2 * step * l.tangent.y) = (2 * step) * (2 * step) by
      linear_combination (2 * step) ^ 2 * hu1, Real.sqrt_mul_self (by linarith)]
    cases l.tangent
    simp only [V2.mk.injEq]
    norm_num
    constructor <;> field_simp
  constructor
  · simp only [LinkCurve.sampleCentre, hsi, bind, Except.bind, pure, Except.pure, hpos, hdt, hnorm]
  · simp only [LinkCurve.sample, hsi, bind, Except.bind, pure, Except.pure, hpos, hdt, hnorm]

/-- **C38** (length) The length is right however many segments the link has. -/
theorem C38_length {a b : V2 ℝ} {step : ℝ} {fuel : Nat} {c : LinkCurve ℝ} (hstep : 0 < step)
    (hlen : step < V2.distance a b)
    (h : LinkCurve.withStep fuel (LineSegment2d.fromEnds a b).toCurve step = .ok c) :
    |c.length - V2.distance a b| ≤ 0.001 * step ∧ c.segments ≠ [] := by
  have hab : a ≠ b := by
    rintro rfl
    have : V2.distance a a = 0 := by
      simp [V2.distance, V2.magnitude, V2.magnitude2, V2.dot, V2.sub, fsqrt]
    linarith
  obtain ⟨-, -, -, hmag, -⟩ := C41_segment a b hab 0
  set l := LineSegment2d.fromEnds a b with hldef
  have hll : l.length = V2.distance a b := rfl
  have hu1 : l.tangent.x * l.tangent.x + l.tangent.y * l.tangent.y = 1 := by
    have : Real.sqrt (l.tangent.x * l.tangent.x + l.tangent.y * l.tangent.y) = 1 := hmag
    exact Real.sqrt_eq_one.1 this
  obtain ⟨pts, pts', len, h1, h2, h3, h4⟩ := withStep_spec h
  obtain ⟨m, hm, hpts, hle, -⟩ := line_points hu1 hstep (by rw [hll]; exact hlen) h1
  have hcl : c.length = len := by rw [h4]
  have hcs : c.segments = segmentsOf pts' := by rw [h4]
  exact ⟨by rw [hcl, ← hll]; exact hle, by rw [hcs]; exact h3⟩

/-- **C38** (existence) Building such a link succeeds, with enough fuel. -/
theorem C38_builds {a b : V2 ℝ} {step : ℝ} (hstep : 0 < step) (hlen : step < V2.distance a b) :
    ∃ N c, ∀ fuel, N ≤ fuel → LinkCurve.withStep fuel (LineSegment2d.fromEnds a b).toCurve step = .ok c := by
  have hab : a ≠ b := by
    rintro rfl
    have : V2.distance a a = 0 := by
      simp [V2.distance, V2.magnitude, V2.magnitude2, V2.dot, V2.sub, fsqrt]
    linarith
  obtain ⟨-, -, -, hmag, -⟩ := C41_segment a b hab 0
  set l := LineSegment2d.fromEnds a b with hldef
  have hll : l.length = V2.distance a b := rfl
  have hu1 : l.tangent.x * l.tangent.x + l.tangent.y * l.tangent.y = 1 := by
    have : Real.sqrt (l.tangent.x * l.tangent.x + l.tangent.y * l.tangent.y) = 1 := hmag
    exact Real.sqrt_eq_one.1 this
  obtain ⟨n, hn⟩ := exists_nat_gt (l.length / step)
  rw [div_lt_iff₀ hstep] at hn
  obtain ⟨s, hs⟩ := line_outer_ends hu1 hstep n 0 (by simpa using hn)
  rw [← line_init_eq (d := step) hu1 (by linarith)] at hs
  have heq : ∀ fuel, n + 1 ≤ fuel → equidistantPointsAlongCurve fuel l.toCurve step = .ok (equiFinish step s) := by
    intro fuel hf
    simp [equidistantPointsAlongCurve, equiOuter_mono hs hf, bind, Except.bind, pure, Except.pure]
  obtain ⟨m, hm, hpts, -, -⟩ := line_points hu1 hstep (by rw [hll]; exact hlen)
    (pts := (equiFinish step s).1) (len := (equiFinish step s).2) (heq _ le_rfl)
  have hodd : ∃ pts', makeOdd (equiFinish step s).1 = .ok pts' := by
    unfold makeOdd
    split
    · split
      · exact ⟨_, rfl⟩
      · rename_i hno
        exfalso
        have hl2 : 2 ≤ (equiFinish step s).1.reverse.length := by rw [hpts]; simpa using hm
        match hrev : (equiFinish step s).1.reverse, hl2 with
        | p :: q :: rest, _ => exact hno p q rest hrev
    · exact ⟨_, rfl⟩
  obtain ⟨pts', hp'⟩ := hodd
  have hp2 := hp'
  rw [hpts] at hp2
  obtain ⟨m', hm', -, hpts'⟩ := line_makeOdd hm hp2
  have hne : segmentsOf pts' ≠ [] := by
    intro h0
    have := segmentsOf_length pts'
    rw [h0, hpts'] at this
    simp at this; omega
  refine ⟨n + 1, { scale := 0.5 / step, length := (equiFinish step s).2, segments := segmentsOf pts' },
    fun fuel hf => ?_⟩
  simp only [LinkCurve.withStep, heq fuel hf, hp', bind, Except.bind]
  rw [if_neg (by simpa [List.isEmpty_iff] using hne)]
  rfl

/-- A link of 50 m with a step of 1 m: it can be built, and its point at 20 m, half a metre to the
left, is where it should be. This also shows a curve to which `C37_through_points` and
`C39_equidistant` apply. -/
example : ∃ fuel c, LinkCurve.withStep fuel (LineSegment2d.fromEnds ⟨0, 0⟩ ⟨30, 40⟩ : LineSegment2d ℝ).toCurve 1 = .ok c ∧
    c.sample 20 0.5 = .ok ⟨⟨11.6, 16.3⟩, ⟨0.6, 0.8⟩⟩ := by
  have hd : V2.distance (⟨0, 0⟩ : V2 ℝ) ⟨30, 40⟩ = 50 := by
    simp only [V2.distance, V2.magnitude, V2.magnitude2, V2.dot, V2.sub, fsqrt]
    show Real.sqrt _ = 50
    rw [show ((30 - 0) * (30 - 0) + (40 - 0) * (40 - 0) : ℝ) = 50 * 50 by norm_num]
    exact Real.sqrt_mul_self (by norm_num)
  obtain ⟨fuel, c, h⟩ := C38_builds (a := ⟨0, 0⟩) (b := ⟨30, 40⟩) (step := 1) one_pos (by rw [hd]; norm_num)
  refine ⟨fuel, c, h fuel le_rfl, ?_⟩
  have := (C38_straight one_pos (by rw [hd]; norm_num) (h fuel le_rfl) (by rw [hd]; norm_num) 20 0.5).2.2
  rw [this, hd]
  simp only [V2.sub, V2.add, V2.smul, V2.sdiv, rot90]
  norm_num

end TrafficSim
