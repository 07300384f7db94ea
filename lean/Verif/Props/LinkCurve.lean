import Verif.Props.Math
import Mathlib.Topology.Order.Basic

/-! # C37, C38, C39: the curve of a link -/

namespace TrafficSim

/-! ### C39: equidistant points -/

/-- Consecutive points are `d` apart to within one percent. -/
def NearStep (d : ℝ) (p q : V2 ℝ) : Prop := 0.99 * d ≤ V2.distance p q ∧ V2.distance p q ≤ 1.01 * d

/-- The state of the walk after some full steps; `ts` are the parameters of the points so far, most
recent first. -/
structure Walk (c : Curve ℝ) (d : ℝ) (ts : List ℝ) (s : EquiState ℝ) : Prop where
  pts : s.points = ts.map c.sample
  ne : ts ≠ []
  lastP : s.points.head? = some s.lastP
  start : ts.getLast? = some c.bounds.min
  chain : ts.IsChain fun a b => b < a ∧ NearStep d (c.sample b) (c.sample a)
  lo : ∀ t ∈ ts.head?, t ≤ s.ts.min
  lt : s.ts.min < s.ts.max
  hi : s.ts.max ≤ c.bounds.max
  dmin : s.dists.min < d
  stop : d < s.dists.max ∨ (s.ps1 = c.sample c.bounds.max ∧ s.dists.max = V2.distance s.lastP s.ps1)

theorem Walk.inner {c : Curve ℝ} {d : ℝ} (hd : 0 < d) :
    ∀ (n : Nat) {ts : List ℝ} {s : EquiState ℝ}, Walk c d ts s → d < s.dists.max →
      ∃ ts', Walk c d ts' (equiInner c d n s) := by
  intro n
  induction n with
  | zero => intro ts s h _; exact ⟨ts, h⟩
  | succ n ih =>
    intro ts s h hmax
    have h1 := h.dmin
    have h2 := h.lt
    set t := s.ts.lerp (s.dists.invLerp d) with ht
    have hfrac : 0 < s.dists.invLerp d ∧ s.dists.invLerp d < 1 := by
      simp only [Interval.invLerp]
      exact ⟨div_pos (by linarith) (by linarith), (div_lt_one (by linarith)).2 (by linarith)⟩
    have ht1 : s.ts.min < t := by
      rw [ht]; simp only [Interval.lerp]; nlinarith
    have ht2 : t < s.ts.max := by
      rw [ht]; simp only [Interval.lerp]; nlinarith
    have h99 : (0.99 : ℝ) < 1 := by norm_num
    have h101 : (1 : ℝ) < 1.01 := by norm_num
    have hst : equiInner c d (n + 1) s =
        if ((c.sample t).sub s.lastP).magnitude / d < 0.99 then
          equiInner c d n { s with ts := { s.ts with min := t }, ps0 := c.sample t, dists := { s.dists with min := ((c.sample t).sub s.lastP).magnitude } }
        else if 1.01 < ((c.sample t).sub s.lastP).magnitude / d then
          equiInner c d n { s with ts := { s.ts with max := t }, ps1 := c.sample t, dists := { s.dists with max := ((c.sample t).sub s.lastP).magnitude } }
        else
          { ts := ⟨t, c.bounds.max⟩, ps0 := c.sample t, ps1 := c.sample c.bounds.max,
            dists := ⟨0.0, ((c.sample c.bounds.max).sub (c.sample t)).magnitude⟩,
            points := c.sample t :: s.points, lastP := c.sample t } := rfl
    rw [hst]
    split
    · rename_i hf
      rw [div_lt_iff₀ hd] at hf
      refine ih ⟨h.pts, h.ne, h.lastP, h.start, h.chain, fun x hx => (h.lo x hx).trans ht1.le, ht2, h.hi,
        ?_, .inl hmax⟩ hmax
      show ((c.sample t).sub s.lastP).magnitude < d
      nlinarith
    · split
      · rename_i hf
        rw [lt_div_iff₀ hd] at hf
        have hgt : d < ((c.sample t).sub s.lastP).magnitude := by nlinarith
        exact ih ⟨h.pts, h.ne, h.lastP, h.start, h.chain, h.lo, ht1, ht2.le.trans h.hi, h.dmin, .inl hgt⟩ hgt
      · rename_i hf1 hf2
        rw [div_lt_iff₀ hd, not_lt] at hf1
        rw [lt_div_iff₀ hd, not_lt] at hf2
        refine ⟨t :: ts, ?_, by simp, by simp, ?_, ?_, by simp, ?_, le_rfl, ?_, .inr ⟨rfl, rfl⟩⟩
        · simp [h.pts]
        · cases hts : ts with
          | nil => exact absurd hts h.ne
          | cons a l => rw [List.getLast?_cons_cons, ← hts]; exact h.start
        · cases hts : ts with
          | nil => exact absurd hts h.ne
          | cons a l =>
            have hch := h.chain
            rw [hts] at hch
            refine List.isChain_cons_cons.2 ⟨⟨?_, ?_⟩, hch⟩
            · have := h.lo a (by simp [hts]); linarith
            · have hlp : s.lastP = c.sample a := by
                have := h.lastP
                rw [h.pts, hts] at this
                simpa [eq_comm] using this
              rw [hlp] at hf1 hf2
              exact ⟨hf1, hf2⟩
        · show t < c.bounds.max; linarith [h.hi]
        · show (0.0 : ℝ) < d; norm_num; exact hd

/-- **C39** The points along a curve: they are the curve at increasing parameters from the start of
its range, consecutive ones `d` apart to within one percent, until the end of the curve is at most
`d` away; the reported length counts the full steps plus that remaining distance, and one more point
at distance `d` in the direction of the end is added (unless the rest is below 0.1 % of `d`). -/
theorem C39_equidistant {c : Curve ℝ} {d : ℝ} {fuel : Nat} {pts : List (V2 ℝ)} {len : ℝ} (hd : 0 < d)
    (hb : c.bounds.min < c.bounds.max) (h : equidistantPointsAlongCurve fuel c d = .ok (pts, len)) :
    ∃ (ts : List ℝ) (last : V2 ℝ) (rest : ℝ), ts.head? = some c.bounds.min ∧ (∀ t ∈ ts, t < c.bounds.max) ∧
      ts.IsChain (fun a b => a < b ∧ NearStep d (c.sample a) (c.sample b)) ∧
      (ts.map c.sample).getLast? = some last ∧
      rest = V2.distance last (c.sample c.bounds.max) ∧ rest ≤ d ∧
      (0.001 * d < rest → len = (ts.length - 1) * d + rest ∧ ∃ extra, pts = ts.map c.sample ++ [extra] ∧
        V2.distance last extra = d ∧ extra.sub last = V2.smul (d / rest) ((c.sample c.bounds.max).sub last)) ∧
      (rest ≤ 0.001 * d → len = (ts.length - 1) * d ∧ pts = ts.map c.sample) := by
  simp only [equidistantPointsAlongCurve, M_bind_ok, M_pure_ok] at h
  obtain ⟨s, hs, hfin⟩ := h
  have outer : ∀ (n : Nat) (s0 s : EquiState ℝ) (ts : List ℝ), Walk c d ts s0 → equiOuter c d n s0 = .ok s →
      ∃ ts', Walk c d ts' s ∧ ¬ (d < s.dists.max) := by
    intro n
    induction n with
    | zero => intro s0 s ts _ h; simp [equiOuter] at h
    | succ n ih =>
      intro s0 s ts hw h
      simp only [equiOuter] at h
      split at h
      · rename_i hlt
        obtain ⟨ts', hw'⟩ := hw.inner hd 100 hlt
        exact ih _ s ts' hw' h
      · rename_i hlt
        simp only [M_pure_ok] at h
        subst h
        exact ⟨ts, hw, hlt⟩
  have hinit : Walk c d [c.bounds.min] (equiInit c) := by
    refine ⟨by simp [equiInit], by simp, by simp [equiInit], by simp, by simp, ?_, hb, le_rfl, ?_, .inr ⟨rfl, rfl⟩⟩
    · simp [equiInit]
    · show (0.0 : ℝ) < d; norm_num; exact hd
  obtain ⟨ts, hw, hstop⟩ := outer fuel _ s _ hinit hs
  have hend : s.ps1 = c.sample c.bounds.max ∧ s.dists.max = V2.distance s.lastP s.ps1 := by
    rcases hw.stop with h | h
    · exact absurd h hstop
    · exact h
  have hlp : (ts.map c.sample).head? = some s.lastP := by rw [← hw.pts]; exact hw.lastP
  refine ⟨ts.reverse, s.lastP, V2.distance s.lastP (c.sample c.bounds.max), ?_, ?_, ?_, ?_, rfl, ?_, ?_, ?_⟩
  · rw [List.head?_reverse]; exact hw.start
  · have hle : ∀ t ∈ ts, t ≤ s.ts.min := by
      have hch := hw.chain
      have hlo := hw.lo
      generalize s.ts.min = m at hlo
      clear hlp hend hw hs hfin
      induction ts with
      | nil => simp
      | cons a l ih =>
        intro t ht
        have ha : a ≤ m := hlo a (by simp)
        rcases List.mem_cons.1 ht with rfl | ht
        · exact ha
        · cases l with
          | nil => simp at ht
          | cons b l =>
            have := List.isChain_cons_cons.1 hch
            refine ih this.2 (fun x hx => ?_) t ht
            simp at hx; subst hx
            exact this.1.1.le.trans ha
    intro t ht
    exact (hle t (List.mem_reverse.1 ht)).trans_lt (hw.lt.trans_le hw.hi)
  · rw [List.isChain_reverse]; exact hw.chain
  · rw [List.map_reverse, List.getLast?_reverse]; exact hlp
  · rw [← hend.1, ← hend.2]; exact not_lt.1 hstop
  all_goals
    intro hrest
    simp only [equiFinish, hend.1] at hfin
    have hlen : s.points.length - 1 = ts.length - 1 := by rw [hw.pts, List.length_map]
    have hpos : 1 ≤ ts.length := List.length_pos_iff.2 hw.ne
    have hcast : (Flt.ofNat (F := ℝ) (s.points.length - 1)) = (ts.length : ℝ) - 1 := by
      show ((s.points.length - 1 : ℕ) : ℝ) = _
      rw [hlen, Nat.cast_sub hpos]; simp
    have hmag : ((c.sample c.bounds.max).sub s.lastP).magnitude =
        V2.distance s.lastP (c.sample c.bounds.max) := rfl
    rw [hmag] at hfin
  · rw [if_pos hrest] at hfin
    simp only [Prod.mk.injEq] at hfin
    obtain ⟨h1, h2⟩ := hfin
    have hrpos : 0 < V2.distance s.lastP (c.sample c.bounds.max) := by
      have : (0 : ℝ) < 0.001 * d := by norm_num; exact hd
      linarith
    refine ⟨by rw [← h2, hcast]; simp, s.lastP.add (((c.sample c.bounds.max).sub s.lastP).normalizeTo d), ?_, ?_, ?_⟩
    · rw [← h1, hw.pts]; simp
    · set w := (c.sample c.bounds.max).sub s.lastP with hwdef
      have hww : V2.distance s.lastP (c.sample c.bounds.max) = Real.sqrt (w.x * w.x + w.y * w.y) := rfl
      rw [hww] at hrpos
      have hss := Real.mul_self_sqrt (Real.sqrt_pos.1 hrpos).le
      simp only [V2.distance, V2.magnitude, V2.magnitude2, V2.dot, V2.sub, V2.add, V2.normalizeTo, V2.smul,
        fsqrt]
      set r := Real.sqrt (w.x * w.x + w.y * w.y)
      rw [show (s.lastP.x + d / r * w.x - s.lastP.x) * (s.lastP.x + d / r * w.x - s.lastP.x) +
          (s.lastP.y + d / r * w.y - s.lastP.y) * (s.lastP.y + d / r * w.y - s.lastP.y) = d * d by
        have hr : r ≠ 0 := hrpos.ne'
        have : w.x * w.x + w.y * w.y = r * r := hss.symm
        field_simp
        linear_combination (d ^ 2) * this]
      exact Real.sqrt_mul_self hd.le
    · rw [V2.normalizeTo, hmag]
      generalize V2.distance s.lastP (c.sample c.bounds.max) = r
      simp only [V2.sub, V2.add, V2.smul, V2.mk.injEq]
      constructor <;> ring
  · rw [if_neg (not_lt.2 hrest)] at hfin
    simp only [Prod.mk.injEq] at hfin
    obtain ⟨h1, h2⟩ := hfin
    exact ⟨by rw [← h2, hcast]; simp, by rw [← h1, hw.pts]; simp⟩

/-! ### C37: the centre line goes through the points -/

section
variable {F : Type} [Flt F]

theorem segmentsOf_length : ∀ pts : List (V2 F), (segmentsOf pts).length = (pts.length - 1) / 2
  | [] => by simp [segmentsOf]
  | [_] => by simp [segmentsOf]
  | [_, _] => by simp [segmentsOf]
  | p1 :: p2 :: p3 :: rest => by
    simp only [segmentsOf, List.length_cons, segmentsOf_length (p3 :: rest)]
    omega

theorem segmentsOf_get : ∀ (pts : List (V2 F)) (i : Nat) (h : 2 * i + 2 < pts.length),
    (segmentsOf pts)[i]? = some (segmentOf pts[2 * i] pts[2 * i + 1] pts[2 * i + 2])
  | [], _, h => by simp at h
  | [_], _, h => by simp at h
  | [_, _], _, h => by simp at h
  | p1 :: p2 :: p3 :: rest, 0, _ => by simp [segmentsOf]
  | p1 :: p2 :: p3 :: rest, i + 1, h => by
    have := segmentsOf_get (p3 :: rest) i (by simp at h ⊢; omega)
    simp only [segmentsOf, List.getElem?_cons_succ, this]
    congr 2

theorem makeOdd_spec {pts pts' : List (V2 F)} (h : makeOdd pts = .ok pts') :
    (∀ (k : Nat) (p : V2 F), pts[k]? = some p → pts'[k]? = some p) ∧ pts'.length % 2 = 1 ∧
      pts.length ≤ pts'.length ∧ pts'.length ≤ pts.length + 1 := by
  unfold makeOdd at h
  split at h
  · rename_i hev
    split at h
    · simp only [M_pure_ok] at h
      subst h
      refine ⟨fun k p hk => ?_, ?_, ?_, ?_⟩
      · rw [List.getElem?_append_left (List.getElem?_eq_some_iff.1 hk).1]; exact hk
      · simp; omega
      · simp
      · simp
    · simp at h
  · simp only [M_pure_ok] at h
    subst h
    exact ⟨fun _ _ h => h, by omega, le_rfl, by omega⟩

theorem withStep_spec {fuel : Nat} {curve : Curve F} {step : F} {c : LinkCurve F}
    (h : LinkCurve.withStep fuel curve step = .ok c) :
    ∃ pts pts' len, equidistantPointsAlongCurve fuel curve step = .ok (pts, len) ∧
      makeOdd pts = .ok pts' ∧ segmentsOf pts' ≠ [] ∧
      c = { scale := 0.5 / step, length := len, segments := segmentsOf pts' } := by
  simp only [LinkCurve.withStep, M_bind_ok] at h
  obtain ⟨⟨pts, len⟩, h1, pts', h2, h3⟩ := h
  split at h3
  · simp at h3
  · rename_i hne
    simp only [M_pure_ok] at h3
    exact ⟨pts, pts', len, h1, h2, by simpa [List.isEmpty_iff] using hne, h3.symm⟩

end

/-- The segment through three consecutive points starts at the first, is at the second in the middle
and ends at the third. -/
theorem segmentOf_sample (p1 p2 p3 : V2 ℝ) :
    (segmentOf p1 p2 p3).sample 0 = p1 ∧ (segmentOf p1 p2 p3).sample (1 / 2) = p2 ∧
      (segmentOf p1 p2 p3).sample 1 = p3 := by
  obtain ⟨x1, y1⟩ := p1
  obtain ⟨x2, y2⟩ := p2
  obtain ⟨x3, y3⟩ := p3
  simp only [segmentOf, QuadraticBezier2d.sample, V2.lerp, V2.add, V2.smul, V2.sub, V2.mk.injEq]
  norm_num
  refine ⟨?_, ?_⟩ <;> ring

/-- The centre line as a function of the scaled position: the segment is chosen by the integer part. -/
noncomputable def centreAt : List (QuadraticBezier2d ℝ) → ℝ → V2 ℝ
  | [], _ => V2.zero
  | [s], u => s.sample u
  | s :: r :: rest, u => if u < 1 then s.sample u else centreAt (r :: rest) (u - 1)

theorem centreAt_eq : ∀ (segs : List (QuadraticBezier2d ℝ)) (u : ℝ) (s : QuadraticBezier2d ℝ),
    segs[min ⌊u⌋₊ (segs.length - 1)]? = some s →
    centreAt segs u = s.sample (u - (min ⌊u⌋₊ (segs.length - 1) : ℕ))
  | [], _, _, h => by simp at h
  | [s0], u, s, h => by simp at h; subst h; simp [centreAt]
  | s0 :: r :: rest, u, s, h => by
    simp only [centreAt]
    split
    · rename_i hu
      have h0 : ⌊u⌋₊ = 0 := Nat.floor_eq_zero.2 hu
      simp [h0] at h ⊢
      rw [h]
    · rename_i hu
      rw [not_lt] at hu
      have hf : ⌊u⌋₊ = ⌊u - 1⌋₊ + 1 := by
        have := Nat.floor_add_one (a := u - 1) (by linarith)
        rw [← this]; congr 1; ring
      have hidx : min ⌊u⌋₊ ((s0 :: r :: rest).length - 1) =
          min ⌊u - 1⌋₊ ((r :: rest).length - 1) + 1 := by
        rw [hf]; simp only [List.length_cons]; omega
      rw [hidx] at h ⊢
      rw [List.getElem?_cons_succ] at h
      rw [centreAt_eq (r :: rest) (u - 1) s h]
      congr 1
      push_cast
      ring

theorem sampleCentre_eq {c : LinkCurve ℝ} (hne : c.segments ≠ []) (hlen : c.segments.length ≤ 4294967296)
    (pos : ℝ) : ∃ tan, c.sampleCentre pos = .ok ⟨centreAt c.segments (pos * c.scale), tan⟩ := by
  have hl : 0 < c.segments.length := List.length_pos_iff.2 hne
  have hidx : min (min ⌊pos * c.scale⌋₊ u32Max) (c.segments.length - 1) =
      min ⌊pos * c.scale⌋₊ (c.segments.length - 1) := by unfold u32Max; omega
  have hget : c.segments[min ⌊pos * c.scale⌋₊ (c.segments.length - 1)]? =
      some (c.segments[min ⌊pos * c.scale⌋₊ (c.segments.length - 1)]'(by omega)) :=
    List.getElem?_eq_getElem (by omega)
  generalize c.segments[min ⌊pos * c.scale⌋₊ (c.segments.length - 1)]'(by omega) = seg at hget
  refine ⟨(seg.sampleDt (pos * c.scale - (min ⌊pos * c.scale⌋₊ (c.segments.length - 1) : ℕ))).normalize, ?_⟩
  simp only [LinkCurve.sampleCentre, LinkCurve.sampleInternal, LinkCurve.segmentIndex, toU32, hidx,
    hl.ne', if_false, pure_bind, hget]
  rw [centreAt_eq _ _ _ hget]
  rfl

/-- The segments join up. -/
def Joined (segs : List (QuadraticBezier2d ℝ)) : Prop := segs.IsChain fun a b => a.p2 = b.p0

theorem segmentsOf_joined : ∀ pts : List (V2 ℝ), Joined (segmentsOf pts)
  | [] => by simp [segmentsOf, Joined]
  | [_] => by simp [segmentsOf, Joined]
  | [_, _] => by simp [segmentsOf, Joined]
  | [p1, p2, p3] => by simp [segmentsOf, Joined]
  | [p1, p2, p3, p4] => by simp [segmentsOf, Joined]
  | p1 :: p2 :: p3 :: p4 :: p5 :: rest => by
    have := segmentsOf_joined (p3 :: p4 :: p5 :: rest)
    simp only [segmentsOf, Joined] at this ⊢
    exact List.isChain_cons_cons.2 ⟨rfl, this⟩

theorem quadratic_continuous (s : QuadraticBezier2d ℝ) :
    Continuous (fun u => (s.sample u).x) ∧ Continuous (fun u => (s.sample u).y) :=
  ⟨continuous_iff_continuousAt.2 fun t => (C42_quadratic s t).1.1.continuousAt,
    continuous_iff_continuousAt.2 fun t => (C42_quadratic s t).1.2.continuousAt⟩

theorem centreAt_zero_aux (s : QuadraticBezier2d ℝ) (rest : List (QuadraticBezier2d ℝ)) :
    centreAt (s :: rest) 0 = s.p0 := by
  have h : s.sample 0 = s.p0 := by
    have := (C41_ends ⟨s.p0, s.p0, s.p0, s.p0⟩ s).2.2.1
    simp only [QuadraticBezier2d.bounds] at this
    norm_num at this
    exact this
  cases rest with
  | nil => exact h
  | cons r rest => simp [centreAt, h]

theorem centreAt_continuous : ∀ segs : List (QuadraticBezier2d ℝ), Joined segs →
    Continuous (fun u => (centreAt segs u).x) ∧ Continuous (fun u => (centreAt segs u).y)
  | [], _ => ⟨continuous_const, continuous_const⟩
  | [s], _ => quadratic_continuous s
  | s :: r :: rest, h => by
    have hj := List.isChain_cons_cons.1 h
    obtain ⟨ih1, ih2⟩ := centreAt_continuous (r :: rest) hj.2
    obtain ⟨c1, c2⟩ := quadratic_continuous s
    have hend : s.sample 1 = s.p2 := by
      have := (C41_ends ⟨s.p0, s.p0, s.p0, s.p0⟩ s).2.2.2
      simp only [QuadraticBezier2d.bounds] at this
      norm_num at this
      exact this
    have hjoin : ∀ u : ℝ, u = 1 → s.sample u = centreAt (r :: rest) (u - 1) := by
      rintro u rfl
      rw [sub_self, centreAt_zero_aux, hend, hj.1]
    have e : ∀ u, centreAt (s :: r :: rest) u =
        if 1 ≤ u then centreAt (r :: rest) (u - 1) else s.sample u := by
      intro u
      simp only [centreAt]
      by_cases hu : u < 1
      · rw [if_pos hu, if_neg (not_le.2 hu)]
      · rw [if_neg hu, if_pos (not_lt.1 hu)]
    constructor
    · have : (fun u => (centreAt (s :: r :: rest) u).x) =
          fun u => if 1 ≤ u then (centreAt (r :: rest) (u - 1)).x else (s.sample u).x := by
        funext u; rw [e]; split <;> rfl
      rw [this]
      refine Continuous.if_le (ih1.comp (continuous_id.sub continuous_const)) c1 continuous_const
        continuous_id fun u hu => ?_
      rw [hjoin u hu.symm]
    · have : (fun u => (centreAt (s :: r :: rest) u).y) =
          fun u => if 1 ≤ u then (centreAt (r :: rest) (u - 1)).y else (s.sample u).y := by
        funext u; rw [e]; split <;> rfl
      rw [this]
      refine Continuous.if_le (ih2.comp (continuous_id.sub continuous_const)) c2 continuous_const
        continuous_id fun u hu => ?_
      rw [hjoin u hu.symm]

/-- At a multiple of one half the centre line is at the corresponding point. -/
theorem centreAt_point {pts : List (V2 ℝ)} (hodd : pts.length % 2 = 1) (h3 : 3 ≤ pts.length) {k : Nat}
    {p : V2 ℝ} (hk : pts[k]? = some p) : centreAt (segmentsOf pts) ((k : ℝ) / 2) = p := by
  obtain ⟨hlt, hpk⟩ := List.getElem?_eq_some_iff.1 hk
  have hsl := segmentsOf_length pts
  have hfl : ⌊(k : ℝ) / 2⌋₊ = k / 2 := by
    rw [Nat.floor_eq_iff (by positivity)]
    have h1 : k = 2 * (k / 2) + k % 2 := (Nat.div_add_mod k 2).symm
    have h2 : k % 2 < 2 := Nat.mod_lt _ (by omega)
    have h3 : (k : ℝ) = 2 * (k / 2 : ℕ) + (k % 2 : ℕ) := by exact_mod_cast h1
    have h4 : ((k % 2 : ℕ) : ℝ) < 2 := by exact_mod_cast h2
    have h5 : (0 : ℝ) ≤ ((k % 2 : ℕ) : ℝ) := Nat.cast_nonneg _
    constructor <;> linarith
  set i := min (k / 2) ((segmentsOf pts).length - 1) with hi
  have hib : 2 * i + 2 < pts.length := by omega
  have hget := segmentsOf_get pts i hib
  have := centreAt_eq (segmentsOf pts) ((k : ℝ) / 2) _ (by rw [hfl, ← hi]; exact hget)
  rw [this, hfl, ← hi]
  obtain ⟨e0, e1, e2⟩ := segmentOf_sample pts[2 * i] pts[2 * i + 1] pts[2 * i + 2]
  have hcases : k = 2 * i ∨ k = 2 * i + 1 ∨ k = 2 * i + 2 := by omega
  rcases hcases with h | h | h
  · rw [show ((k : ℝ) / 2 - (i : ℕ)) = 0 by rw [h]; push_cast; ring, e0]
    simp only [← h]; exact hpk
  · rw [show ((k : ℝ) / 2 - (i : ℕ)) = 1 / 2 by rw [h]; push_cast; ring, e1]
    simp only [← h]; exact hpk
  · rw [show ((k : ℝ) / 2 - (i : ℕ)) = 1 by rw [h]; push_cast; ring, e2]
    simp only [← h]; exact hpk

/-- **C37** The centre line of a link built with step `step` from any curve: at distance `k * step` it
is exactly the `k`-th point of the walk along the curve (the first of which is the start of the
curve), and its position depends continuously on the distance, for all real distances. -/
theorem C37_through_points {fuel : Nat} {curve : Curve ℝ} {step : ℝ} {c : LinkCurve ℝ} (hstep : 0 < step)
    (hb : curve.bounds.min < curve.bounds.max) (h : LinkCurve.withStep fuel curve step = .ok c)
    (hlen : c.segments.length ≤ 4294967296) :
    ∃ pts len, equidistantPointsAlongCurve fuel curve step = .ok (pts, len) ∧ c.length = len ∧
      pts.head? = some (curve.sample curve.bounds.min) ∧
      (∀ (k : Nat) (p : V2 ℝ), pts[k]? = some p → ∃ tan, c.sampleCentre (k * step) = .ok ⟨p, tan⟩) ∧
      ∃ f g : ℝ → ℝ, Continuous f ∧ Continuous g ∧
        ∀ pos, ∃ tan, c.sampleCentre pos = .ok ⟨⟨f pos, g pos⟩, tan⟩ := by
  obtain ⟨pts, pts', len, h1, h2, h3, h4⟩ := withStep_spec h
  obtain ⟨m1, m2, m3, m4⟩ := makeOdd_spec h2
  have hsegs : c.segments = segmentsOf pts' := by rw [h4]
  have hscale : c.scale = 0.5 / step := by rw [h4]
  have hne : c.segments ≠ [] := by rw [hsegs]; exact h3
  have h3len : 3 ≤ pts'.length := by
    have := segmentsOf_length pts'
    have := List.length_pos_iff.2 h3
    omega
  refine ⟨pts, len, h1, by rw [h4], ?_, ?_, ?_⟩
  · obtain ⟨ts, last, rest, e1, -, -, -, -, -, e2, e3⟩ := C39_equidistant hstep hb h1
    have hmap : (ts.map curve.sample).head? = some (curve.sample curve.bounds.min) := by
      rw [List.head?_map, e1]; rfl
    rcases lt_or_ge (0.001 * step) rest with hr | hr
    · obtain ⟨-, extra, hp, -⟩ := e2 hr
      rw [hp, List.head?_append, hmap]; rfl
    · rw [(e3 hr).2]; exact hmap
  · intro k p hk
    obtain ⟨tan, ht⟩ := sampleCentre_eq hne hlen (k * step)
    refine ⟨tan, ?_⟩
    rw [ht, hsegs, hscale, show (k : ℝ) * step * (0.5 / step) = (k : ℝ) / 2 by
      field_simp; norm_num; ring, centreAt_point m2 h3len (m1 k p hk)]
  · obtain ⟨c1, c2⟩ := centreAt_continuous c.segments (by rw [hsegs]; exact segmentsOf_joined pts')
    exact ⟨fun pos => (centreAt c.segments (pos * c.scale)).x, fun pos => (centreAt c.segments (pos * c.scale)).y,
      c1.comp (continuous_id.mul continuous_const), c2.comp (continuous_id.mul continuous_const),
      fun pos => sampleCentre_eq hne hlen pos⟩

end TrafficSim
