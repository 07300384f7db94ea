import Verif.Props.Converge
import Verif.Props.Straight
import Verif.Props.TrappedRoad

/-! # C93: where a conflict region lies -/

namespace TrafficSim

section

/-- The centre line goes from `a` straight in the direction `u`. -/
structure Straight (c : LinkCurve ℝ) (a u : V2 ℝ) : Prop where
  unit : u.x * u.x + u.y * u.y = 1
  centre : ∀ s, c.sampleCentre s = .ok ⟨a.add (V2.smul s u), u⟩

/-- The distance of the point `p` from the whole line through `b` in the direction `w`. -/
noncomputable def lineDist (b w p : V2 ℝ) : ℝ := |w.x * (p.y - b.y) - w.y * (p.x - b.x)|

variable {c own other : LinkCurve ℝ} {a u b w : V2 ℝ}

theorem Straight.toCurve (h : Straight c a u) (t : ℝ) :
    c.toCurve.sample t = a.add (V2.smul t u) ∧ (c.toCurve.sampleDt t).normalize = u := by
  have := h.centre t
  unfold LinkCurve.sampleCentre at this
  rw [M_bind_ok] at this
  obtain ⟨⟨seg, t'⟩, h1, h2⟩ := this
  rw [M_pure_ok] at h2
  injection h2 with h2 h3
  unfold LinkCurve.sampleInternal LinkCurve.segmentIndex at h1
  rw [M_bind_ok] at h1
  obtain ⟨idx, hi, h1⟩ := h1
  split at hi
  · cases hi
  rw [M_pure_ok] at hi
  subst hi
  split at h1
  · rename_i hg
    rw [M_pure_ok] at h1
    cases h1
    unfold LinkCurve.toCurve LinkCurve.segAt
    simp only [hg, Option.getD_some]
    exact ⟨h2, h3⟩
  · cases h1

theorem dot_normalize (d x : V2 ℝ) : d.dot x / d.magnitude = d.normalize.dot x := by
  rw [normalize_real]
  simp only [V2.dot, unit, V2.magnitude, V2.magnitude2, fsqrt]
  show _ / Real.sqrt _ = _ / Real.sqrt _ * _ + _ / Real.sqrt _ * _
  ring

/-- The nearest point of a straight line. -/
theorem Straight.project (h : Straight c b w) (P : V2 ℝ) {tol : ℝ} (htol : 0 < tol) (t0 : Option ℝ) :
    projectPointOntoCurve c.toCurve P tol t0 = .ok (some ((P.sub b).dot w)) := by
  set q := (P.sub b).dot w with hq
  have hstep : ∀ n t, projectLoop c.toCurve P tol (n + 1) t (c.toCurve.sample t) (c.toCurve.sampleDt t) =
      if |q - t| < tol ∨ ¬ (c.toCurve.bounds.contains q = true) then some q
      else projectLoop c.toCurve P tol n q (c.toCurve.sample q) (c.toCurve.sampleDt q) := by
    intro n t
    have e : (c.toCurve.sampleDt t).dot (P.sub (c.toCurve.sample t)) / (c.toCurve.sampleDt t).magnitude = q - t := by
      rw [dot_normalize, (h.toCurve t).2, (h.toCurve t).1, hq]
      simp only [V2.dot, V2.sub, V2.add, V2.smul]
      linear_combination -t * h.unit
    rw [projectLoop]
    simp only [e, add_sub_cancel]
    rfl
  have hsome : ∀ t, projectPointOntoCurve c.toCurve P tol (some t) = .ok (some q) := by
    intro t
    simp only [projectPointOntoCurve, bind, Except.bind, pure, Except.pure]
    rw [hstep 63, hstep 62]
    split
    · rfl
    · rw [if_pos]
      left; simpa using htol
  cases t0 with
  | some t => exact hsome t
  | none =>
    obtain ⟨i, -, -, h⟩ := C43_initial c.toCurve P tol
    rw [h, hsome]

theorem Straight.foot (hw : w.x * w.x + w.y * w.y = 1) (P : V2 ℝ) :
    V2.distance P (b.add (V2.smul ((P.sub b).dot w) w)) = lineDist b w P := by
  simp only [V2.distance, V2.magnitude, V2.magnitude2, V2.dot, V2.sub, V2.add, V2.smul, fsqrt, lineDist]
  show Real.sqrt _ = _
  rw [← Real.sqrt_sq_eq_abs]
  congr 1
  set x := P.x - b.x with hx
  set y := P.y - b.y with hy
  have e1 : b.x + (x * w.x + y * w.y) * w.x - P.x = (x * w.x + y * w.y) * w.x - x := by rw [hx]; ring
  have e2 : b.y + (x * w.x + y * w.y) * w.y - P.y = (x * w.x + y * w.y) * w.y - y := by rw [hy]; ring
  rw [e1, e2]
  linear_combination ((x * w.x + y * w.y) ^ 2 - x ^ 2 - y ^ 2) * hw

/-- The point `x` metres along the line from `a` in the direction `u` is so close to the line through `b` in the direction `w` that
they count as meeting: closer than 1.8 m where they cross at right angles, and than 3.6 m where they are parallel. -/
def Meets (a u b w : V2 ℝ) (x : ℝ) : Prop :=
  lineDist b w (a.add (V2.smul x u)) < 1.8 * (1 + |u.x * w.x + u.y * w.y|)

/-- The range `r` is that of the first `n` samples, a quarter of a metre apart, at which `P` holds. -/
def Covering (P : ℝ → Prop) (n : ℕ) : Option (ℝ × ℝ) → Prop
  | none => ∀ j < n, ¬ P (j / 4)
  | some (mn, mx) => (∃ j < n, P (j / 4) ∧ mn = j / 4 - 1 / 4) ∧ (∃ j < n, P (j / 4) ∧ mx = j / 4 + 1 / 4) ∧
    ∀ j < n, P (j / 4) → mn < j / 4 ∧ (j / 4 : ℝ) < mx

theorem scan_straight (ho : Straight own a u) (hb : Straight other b w) : ∀ {fuel k : ℕ} {x : ℝ} {op : Option ℝ} {r r' : Option (ℝ × ℝ)},
    ConflictPointLink.scan own other fuel x op r = .ok r' → x = k / 4 → (∀ j < k, (j / 4 : ℝ) < own.length) → Covering (Meets a u b w) k r →
    ∃ n : ℕ, (∀ j : ℕ, j < n ↔ (j / 4 : ℝ) < own.length) ∧ Covering (Meets a u b w) n r'
  | 0, _, _, _, _, _, h, _, _, _ => by simp [ConflictPointLink.scan] at h
  | fuel + 1, k, x, op, r, r', h, hx, hk, hr => by
    unfold ConflictPointLink.scan at h
    rcases ite_ok.1 h with ⟨hlt, h⟩ | ⟨hlt, h⟩
    · simp only [ho.centre, hb.project _ (show (0 : ℝ) < 0.1 by norm_num), hb.centre, bind, Except.bind, Straight.foot hb.unit] at h
      have hk' : ∀ j < k + 1, (j / 4 : ℝ) < own.length := by
        intro j hj
        rcases Nat.lt_succ_iff_lt_or_eq.1 hj with hj | rfl
        · exact hk j hj
        · rw [← hx]; exact hlt
      have hx' : x + 0.25 = ((k + 1 : ℕ) : ℝ) / 4 := by rw [hx]; push_cast; norm_num; ring
      have hm : lineDist b w (a.add (V2.smul x u)) - linkRadius * fabs (u.dot w) < linkRadius ↔ Meets a u b w (k / 4) := by
        rw [← hx, Meets, V2.dot]
        show _ - linkRadius * |_| < _ ↔ _
        simp only [linkRadius]
        constructor <;> intro h <;> linarith
      split at h
      · rename_i hc
        rw [hm] at hc
        refine scan_straight ho hb h hx' hk' ?_
        cases r with
        | none =>
          have hr : ∀ j < k, ¬ Meets a u b w (j / 4) := hr
          refine ⟨⟨k, by omega, hc, by rw [hx]; norm_num⟩, ⟨k, by omega, hc, by rw [hx]; norm_num⟩, fun j hj hP => ?_⟩
          rcases Nat.lt_succ_iff_lt_or_eq.1 hj with hj | rfl
          · exact absurd hP (hr j hj)
          · rw [hx]; constructor <;> norm_num
        | some p =>
          obtain ⟨mn, mx⟩ := p
          obtain ⟨⟨j1, h1, g1, e1⟩, ⟨j2, h2, g2, e2⟩, h3⟩ := hr
          have h4 : ∀ j < k, (j : ℝ) / 4 < k / 4 := fun j hj => by
            have : (j : ℝ) < k := by exact_mod_cast hj
            linarith
          refine ⟨⟨j1, by omega, g1, e1⟩, ⟨k, by omega, hc, by rw [hx]; norm_num⟩, fun j hj hP => ?_⟩
          rcases Nat.lt_succ_iff_lt_or_eq.1 hj with hj | rfl
          · refine ⟨(h3 j hj hP).1, ?_⟩
            have := h4 j hj
            rw [hx]; norm_num; linarith
          · have := h4 j1 h1
            constructor
            · rw [e1]; linarith
            · rw [hx]; norm_num
      · rename_i hc
        rw [hm] at hc
        refine scan_straight ho hb h hx' hk' ?_
        have old : ∀ j < k + 1, Meets a u b w (j / 4) → j < k := by
          intro j hj hP
          rcases Nat.lt_succ_iff_lt_or_eq.1 hj with hj | rfl
          · exact hj
          · exact absurd hP hc
        cases r with
        | none => exact fun j hj hP => hr j (old j hj hP) hP
        | some p =>
          obtain ⟨mn, mx⟩ := p
          obtain ⟨⟨j1, h1, g1, e1⟩, ⟨j2, h2, g2, e2⟩, h3⟩ := hr
          exact ⟨⟨j1, by omega, g1, e1⟩, ⟨j2, by omega, g2, e2⟩, fun j hj hP => h3 j (old j hj hP) hP⟩
    · rw [M_pure_ok] at h
      subst h
      refine ⟨k, fun j => ⟨hk j, fun hj => ?_⟩, hr⟩
      by_contra hc
      have : (k : ℝ) ≤ j := by exact_mod_cast not_lt.1 hc
      rw [hx] at hlt
      exact hlt (lt_of_le_of_lt (by linarith) hj)

/-- The stretch from `mn` to `mx` of a link of the given length is where `P` holds: it begins a quarter of a metre before the first, and
ends a quarter of a metre after the last of the positions 0, 1/4, 1/2, ... of the link at which `P` holds, and `P` holds between them. -/
structure Region (P : ℝ → Prop) (length mn mx : ℝ) : Prop where
  first : ∃ i : ℕ, (i / 4 : ℝ) < length ∧ P (i / 4) ∧ mn = i / 4 - 1 / 4
  last : ∃ i : ℕ, (i / 4 : ℝ) < length ∧ P (i / 4) ∧ mx = i / 4 + 1 / 4
  all : ∀ i : ℕ, (i / 4 : ℝ) < length → P (i / 4) → mn < i / 4 ∧ (i / 4 : ℝ) < mx
  between : ∀ x, mn + 1 / 4 ≤ x → x ≤ mx - 1 / 4 → P x

theorem Meets.between {x y z : ℝ} (h1 : Meets a u b w x) (h2 : Meets a u b w z) (hx : x ≤ y) (hz : y ≤ z) : Meets a u b w y := by
  unfold Meets lineDist at *
  simp only [V2.add, V2.smul] at *
  rw [abs_lt] at *
  set m := 1.8 * (1 + |u.x * w.x + u.y * w.y|)
  have e : ∀ t, w.x * (a.y + t * u.y - b.y) - w.y * (a.x + t * u.x - b.x) =
      (w.x * (a.y - b.y) - w.y * (a.x - b.x)) + t * (w.x * u.y - w.y * u.x) := fun t => by ring
  rw [e] at h1 h2 ⊢
  rcases le_total 0 (w.x * u.y - w.y * u.x) with hs | hs
  · have g1 := mul_le_mul_of_nonneg_right hx hs
    have g2 := mul_le_mul_of_nonneg_right hz hs
    constructor <;> linarith
  · have g1 := mul_le_mul_of_nonpos_right hx hs
    have g2 := mul_le_mul_of_nonpos_right hz hs
    constructor <;> linarith

theorem ConflictPointLink.new_straight [Env] {la lb : Link ℝ} (ha : Straight la.curve a u) (hb : Straight lb.curve b w)
    {r : Option (ConflictPointLink ℝ)} (h : ConflictPointLink.new la lb = .ok r) :
    r = none ∧ (∀ i : ℕ, (i / 4 : ℝ) < la.length → ¬ Meets a u b w (i / 4)) ∨
    ∃ c, r = some c ∧ c.linkId = la.id ∧ Region (Meets a u b w) la.length c.minPos c.maxPos := by
  unfold ConflictPointLink.new at h
  rw [M_bind_ok] at h
  obtain ⟨o, ho, h⟩ := h
  obtain ⟨n, hn, hc⟩ := scan_straight ha hb ho (k := 0) (by norm_num) (by simp) (by intro j hj; omega)
  cases o with
  | none =>
    rw [M_pure_ok] at h
    exact .inl ⟨h.symm, fun i hi => hc i ((hn i).2 hi)⟩
  | some p =>
    obtain ⟨mn, mx⟩ := p
    rw [M_pure_ok] at h
    obtain ⟨⟨j1, h1, g1, e1⟩, ⟨j2, h2, g2, e2⟩, h3⟩ := hc
    refine .inr ⟨_, h.symm, rfl, ⟨j1, (hn j1).1 h1, g1, e1⟩, ⟨j2, (hn j2).1 h2, g2, e2⟩, fun i hi => h3 i ((hn i).2 hi), fun x hx1 hx2 => ?_⟩
    refine g1.between g2 ?_ ?_
    · have : mn + 1 / 4 ≤ x := hx1
      linarith
    · have : x ≤ mx - 1 / 4 := hx2
      linarith

theorem Region.lt {P : ℝ → Prop} {len mn mx : ℝ} (h : Region P len mn mx) : mn < mx := by
  obtain ⟨i, h1, h2, -⟩ := h.first
  exact (h.all i h1 h2).1.trans (h.all i h1 h2).2

theorem Region.exact {P : ℝ → Prop} {len mn mx : ℝ} (h : Region P len mn mx) {m M : ℕ} (hP : ∀ i : ℕ, P (i / 4) ↔ m ≤ i ∧ i ≤ M) (hm : m ≤ M)
    (hM : (M / 4 : ℝ) < len) : mn = m / 4 - 1 / 4 ∧ mx = M / 4 + 1 / 4 := by
  have hm' : (m : ℝ) ≤ M := by exact_mod_cast hm
  obtain ⟨i, -, h1, e1⟩ := h.first
  obtain ⟨j, -, h2, e2⟩ := h.last
  have h3 := (h.all m (by linarith) ((hP m).2 ⟨le_rfl, hm⟩)).1
  have h4 := (h.all M hM ((hP M).2 ⟨hm, le_rfl⟩)).2
  obtain ⟨h1, -⟩ := (hP i).1 h1
  obtain ⟨-, h2⟩ := (hP j).1 h2
  have g1 : i = m := by
    refine le_antisymm ?_ h1
    by_contra hc
    have : (m : ℝ) + 1 ≤ i := by exact_mod_cast not_le.1 hc
    rw [e1] at h3
    linarith
  have g2 : j = M := by
    refine le_antisymm h2 ?_
    by_contra hc
    have : (j : ℝ) + 1 ≤ M := by exact_mod_cast not_le.1 hc
    rw [e2] at h4
    linarith
  exact ⟨by rw [e1, g1], by rw [e2, g2]⟩

theorem ConflictPoint.tangentOf_straight {la : Link ℝ} (ha : Straight la.curve a u) {d : ConflictPointLink ℝ} (hd : d.minPos < d.maxPos) :
    ConflictPoint.tangentOf la d = .ok u := by
  unfold ConflictPoint.tangentOf
  simp only [ha.centre, bind, Except.bind, pure, Except.pure]
  congr 1
  rw [normalize_real]
  have hp : 0 < d.maxPos - d.minPos := by linarith
  have e : (a.add (V2.smul d.maxPos u)).sub (a.add (V2.smul d.minPos u)) = V2.smul (d.maxPos - d.minPos) u := by
    simp only [V2.add, V2.sub, V2.smul, V2.mk.injEq]
    constructor <;> ring
  rw [e]
  have hs : Real.sqrt ((d.maxPos - d.minPos) * u.x * ((d.maxPos - d.minPos) * u.x) + (d.maxPos - d.minPos) * u.y * ((d.maxPos - d.minPos) * u.y)) =
      d.maxPos - d.minPos := by
    rw [show (d.maxPos - d.minPos) * u.x * ((d.maxPos - d.minPos) * u.x) + (d.maxPos - d.minPos) * u.y * ((d.maxPos - d.minPos) * u.y) =
      (d.maxPos - d.minPos) * (d.maxPos - d.minPos) by linear_combination (d.maxPos - d.minPos) ^ 2 * ha.unit]
    exact Real.sqrt_mul_self hp.le
  obtain ⟨ux, uy⟩ := u
  simp only [unit, V2.smul, V2.mk.injEq] at hs ⊢
  constructor <;> rw [hs] <;> field_simp

theorem convergance_straight [Env] {s s' : Sim ℝ} {k j : Key} {la lb : Link ℝ} (h : s.addLinkConvergance k j = .ok s') (hkj : k ≠ j)
    (hk : s.links.get? k = some la) (hj : s.links.get? j = some lb) (hka : la.id = k) (hjb : lb.id = j) (ha : Straight la.curve a u)
    (hb : Straight lb.curve b w) :
    (s' = s ∧ ((∀ i : ℕ, (i / 4 : ℝ) < la.length → ¬ Meets a u b w (i / 4)) ∨ ∀ i : ℕ, (i / 4 : ℝ) < lb.length → ¬ Meets b w a u (i / 4))) ∨
    ∃ c x y, s'.links = (s.links.modify k fun l => { l with conflicts := l.conflicts ++ [x] }).modify j
        (fun l => { l with conflicts := l.conflicts ++ [y] }) ∧
      s' = { s with links := s'.links, conflicts := s.conflicts ++ [c] } ∧
      c.link0.linkId = k ∧ c.link1.linkId = j ∧
      Region (Meets a u b w) la.length c.link0.minPos c.link0.maxPos ∧ Region (Meets b w a u) lb.length c.link1.minPos c.link1.maxPos ∧
      (c.sameDir = true ↔ 1 / 4 < u.x * w.x + u.y * w.y) := by
  unfold Sim.addLinkConvergance at h
  rw [if_neg hkj, hk, hj] at h
  dsimp only at h
  rw [M_bind_ok] at h
  obtain ⟨o, ho, h⟩ := h
  unfold ConflictPoint.new at ho
  rw [M_bind_ok] at ho
  obtain ⟨r, hr, ho⟩ := ho
  rcases ConflictPointLink.new_straight ha hb hr with ⟨rfl, hn⟩ | ⟨c0, rfl, i0, r0⟩
  · cases ho
    cases h
    exact .inl ⟨rfl, .inl hn⟩
  dsimp only at ho
  rw [M_bind_ok] at ho
  obtain ⟨r', hr', ho⟩ := ho
  rcases ConflictPointLink.new_straight hb ha hr' with ⟨rfl, hn⟩ | ⟨c1, rfl, i1, r1⟩
  · cases ho
    cases h
    exact .inl ⟨rfl, .inr hn⟩
  dsimp only at ho
  rw [ConflictPoint.tangentOf_straight ha r0.lt, ConflictPoint.tangentOf_straight hb r1.lt] at ho
  cases ho
  dsimp only at h
  rw [M_bind_ok] at h
  obtain ⟨links, hl, h⟩ := h
  cases h
  rw [hka] at i0
  rw [hjb] at i1
  simp only [ConflictPoint.linkConflicts, List.foldlM_cons, List.foldlM_nil, M_bind_ok, M_pure_ok, i0, i1] at hl
  obtain ⟨l1, h1, l2, h2, rfl⟩ := hl
  obtain ⟨-, rfl⟩ := updLink_ok.1 h1
  obtain ⟨-, rfl⟩ := updLink_ok.1 h2
  refine .inr ⟨_, _, _, rfl, rfl, i0, i1, r0, r1, ?_⟩
  simp only [V2.dot]
  norm_num

/-- **C93** In exact arithmetic, for two straight links: declaring that they converge does nothing if none of the positions 0, 1/4,
1/2, ... of one of them meets the line of the other.  Otherwise it adds one conflict; on each of the links its region begins a quarter
of a metre before the first, and ends a quarter of a metre after the last of these positions that meets the line of the other link,
and all between them do so too; and the links count as running in the same direction exactly if the cosine of the angle between
them is greater than 1/4.

What is missing: curved links; and that the line ends where the other link ends, which is false, see `C93_beyond`. -/
theorem C93_region_partial [Env] {s s' : Sim ℝ} {k j : Key} {la lb : Link ℝ} (h : s.addLinkConvergance k j = .ok s') (hkj : k ≠ j)
    (hk : s.links.get? k = some la) (hj : s.links.get? j = some lb) (hka : la.id = k) (hjb : lb.id = j) (ha : Straight la.curve a u)
    (hb : Straight lb.curve b w) :
    (s' = s ∧ ((∀ i : ℕ, (i / 4 : ℝ) < la.length → ¬ Meets a u b w (i / 4)) ∨ ∀ i : ℕ, (i / 4 : ℝ) < lb.length → ¬ Meets b w a u (i / 4))) ∨
    ∃ c, s'.conflicts = s.conflicts ++ [c] ∧ c.link0.linkId = k ∧ c.link1.linkId = j ∧
      Region (Meets a u b w) la.length c.link0.minPos c.link0.maxPos ∧ Region (Meets b w a u) lb.length c.link1.minPos c.link1.maxPos ∧
      (c.sameDir = true ↔ 1 / 4 < u.x * w.x + u.y * w.y) := by
  refine (convergance_straight h hkj hk hj hka hjb ha hb).imp id ?_
  rintro ⟨c, x, y, -, e, h⟩
  exact ⟨c, by rw [e], h⟩

/-! ### Two straight links -/

namespace Cross

/-- A straight link of 100 m from `p` in the direction `u`. -/
noncomputable def lane (p u : V2 ℝ) : LinkAttributes ℝ := ⟨(LineSegment2d.fromEnds p (p.add (V2.smul 100 u))).toCurve, 10⟩

theorem dist (p : V2 ℝ) (hu : u.x * u.x + u.y * u.y = 1) : V2.distance p (p.add (V2.smul 100 u)) = 100 := by
  simp only [V2.distance, V2.magnitude, V2.magnitude2, V2.dot, V2.sub, V2.add, V2.smul, fsqrt]
  show Real.sqrt _ = 100
  rw [show ((p.x + 100 * u.x - p.x) * (p.x + 100 * u.x - p.x) + (p.y + 100 * u.y - p.y) * (p.y + 100 * u.y - p.y) : ℝ) = 100 * 100 by
    linear_combination 10000 * hu]
  exact Real.sqrt_mul_self (by norm_num)

theorem lane_fits (p : V2 ℝ) (hu : u.x * u.x + u.y * u.y = 1) {s : Sim ℝ} (h : s.links.HasRoom) : ValidArgs s (.addLink (lane p u)) := by
  have hd := dist p hu
  exact ⟨h, by norm_num [lane], _, _, by rw [hd]; norm_num, by rw [hd]; norm_num, rfl⟩

theorem link [Env] {s s' : Sim ℝ} {p : V2 ℝ} (hu : u.x * u.x + u.y * u.y = 1) (hfree : s.links.free = [])
    (h : s.exec (.addLink (lane p u)) = .ok s') :
    ∃ l, Pit.Plain 100 l ∧ l.id = ⟨s.links.slots.length, 1⟩ ∧ l.linksIn = [] ∧ Straight l.curve p u ∧
      s' = { s with links := ⟨s.links.slots ++ [⟨1, some l⟩], []⟩ } := by
  have hd := dist p hu
  simp only [Sim.exec, Sim.addLink, SlotMap.insertWithKey, hfree] at h
  split at h
  · cases h
  simp only [M_bind_ok, M_pure_ok] at h
  obtain ⟨_, ⟨_, ⟨l, hl, rfl⟩, rfl⟩, rfl⟩ := h
  simp only [Link.new, M_bind_ok, M_pure_ok] at hl
  obtain ⟨c, hc, rfl⟩ := hl
  obtain ⟨hlen, hsegs⟩ := C38_length (by norm_num) (by rw [hd]; norm_num) hc
  refine ⟨_, ⟨rfl, rfl, rfl, hsegs, rfl, ?_, ?_, rfl, rfl⟩, rfl, rfl, ⟨hu, fun x => ?_⟩, rfl⟩
  · rw [hd] at hlen
    have := (abs_le.1 hlen).1
    show _ ≤ c.length
    norm_num at this ⊢; linarith
  · rw [hd] at hlen
    have := (abs_le.1 hlen).2
    show c.length ≤ _
    norm_num at this ⊢; linarith
  · obtain ⟨-, h1, -⟩ := C38_straight (by norm_num) (by rw [hd]; norm_num) hc (by rw [hd]; norm_num) x 0
    rw [h1, hd]
    have : V2.sdiv ((p.add (V2.smul 100 u)).sub p) 100 = u := by
      obtain ⟨ux, uy⟩ := u
      simp only [V2.sdiv, V2.sub, V2.add, V2.smul, V2.mk.injEq]
      constructor <;> ring
    rw [this]

/-- Two links, and that they converge. -/
noncomputable def ops (p u q w : V2 ℝ) : List (Op ℝ) := [.addLink (lane p u), .addLink (lane q w), .addLinkConvergance ⟨0, 1⟩ ⟨1, 1⟩]

/-- The simulation with the two links. -/
noncomputable def two (la lb : Link ℝ) (cs : List (ConflictPoint ℝ)) (vs : List (Slot (Vehicle ℝ))) (fr : List Key) : Sim ℝ :=
  ⟨⟨[⟨1, some la⟩, ⟨1, some lb⟩], []⟩, .empty, cs, ⟨vs, []⟩, fr, 0, 0, 0.0, 0.0⟩

/-- What is known of the links, and of their conflict. -/
structure Built (p u q w : V2 ℝ) (la lb : Link ℝ) (c : ConflictPoint ℝ) : Prop where
  pa : Pit.Plain 100 la
  pb : Pit.Plain 100 lb
  ia : la.linksIn = []
  ib : lb.linksIn = []
  ha : Straight la.curve p u
  hb : Straight lb.curve q w
  k0 : c.link0.linkId = ⟨0, 1⟩
  k1 : c.link1.linkId = ⟨1, 1⟩
  r0 : Region (Meets p u q w) la.length c.link0.minPos c.link0.maxPos
  r1 : Region (Meets q w p u) lb.length c.link1.minPos c.link1.maxPos
  dir : c.sameDir = true ↔ 1 / 4 < u.x * w.x + u.y * w.y

/-- A road from `(0, 0)` to the right, and one that crosses it at 50 m, after `-y` metres. -/
theorem right_angle (y : ℝ) (i : ℕ) : Meets ⟨0, 0⟩ ⟨1, 0⟩ ⟨50, y⟩ ⟨0, 1⟩ (i / 4) ↔ 193 ≤ i ∧ i ≤ 207 := by
  simp only [Meets, lineDist, V2.add, V2.smul]
  norm_num
  rw [abs_lt]
  constructor
  · rintro ⟨h1, h2⟩
    constructor
    · by_contra hc
      have : (i : ℝ) ≤ 192 := by exact_mod_cast (by omega : i ≤ 192)
      linarith
    · by_contra hc
      have : (208 : ℝ) ≤ i := by exact_mod_cast (by omega : 208 ≤ i)
      linarith
  · rintro ⟨h1, h2⟩
    have g1 : (193 : ℝ) ≤ i := by exact_mod_cast h1
    have g2 : (i : ℝ) ≤ 207 := by exact_mod_cast h2
    constructor <;> linarith

theorem leads {p u q w : V2 ℝ} (hu : u.x * u.x + u.y * u.y = 1) (hw : w.x * w.x + w.y * w.y = 1) {Q : Sim ℝ → Prop} {rest : List (Op ℝ)}
    (h1 : ∃ i : ℕ, (i / 4 : ℝ) < 99 ∧ Meets p u q w (i / 4)) (h2 : ∃ i : ℕ, (i / 4 : ℝ) < 99 ∧ Meets q w p u (i / 4))
    (hQ : ∀ la lb c, Built p u q w la lb c → @ProgLeads (Lone.env 0) Q (two la lb [c] [] []) rest) :
    @ProgLeads (Lone.env 0) Q .new (ops p u q w ++ rest) := by
  refine ⟨trivial, lane_fits _ hu (.inr (by simp [Sim.new, SlotMap.empty, u32Max])), fun n1 s1 r1 e1 => ?_⟩
  obtain ⟨la, pa, ida, ia, sa, rfl⟩ := @link _ (_) _ _ _ hu rfl e1
  refine ⟨trivial, lane_fits _ hw (.inr (by simp [Sim.new, SlotMap.empty, u32Max])), fun n2 s2 r2 e2 => ?_⟩
  obtain ⟨lb, pb, idb, ib, sb, rfl⟩ := @link _ (_) _ _ _ hw rfl e2
  refine ⟨trivial, trivial, fun n3 s3 r3 e3 => ?_⟩
  have ida : la.id = ⟨0, 1⟩ := ida
  have idb : lb.id = ⟨1, 1⟩ := idb
  have h99 : ∀ {l : Link ℝ}, Pit.Plain 100 l → 99 ≤ l.length := fun h => by have := h.len; norm_num at this; linarith
  rcases @convergance_straight p u q w (_) _ s3 ⟨0, 1⟩ ⟨1, 1⟩ la lb e3 (by decide) rfl rfl ida idb sa sb with
    ⟨-, hn | hn⟩ | ⟨c, x, y, e, e', k0, k1, r0, r1, dir⟩
  · obtain ⟨i, hi, hm⟩ := h1
    exact absurd hm (hn i (hi.trans_le (h99 pa)))
  · obtain ⟨i, hi, hm⟩ := h2
    exact absurd hm (hn i (hi.trans_le (h99 pb)))
  rw [e', e]
  exact hQ { la with conflicts := la.conflicts ++ [x] } { lb with conflicts := lb.conflicts ++ [y] } c
    ⟨⟨pa.outs, pa.lcs, pa.vehs, pa.segs, pa.limit, pa.len, pa.short, pa.control, pa.group⟩,
      ⟨pb.outs, pb.lcs, pb.vehs, pb.segs, pb.limit, pb.len, pb.short, pb.control, pb.group⟩, ia, ib, sa, sb, k0, k1, r0, r1, dir⟩

end Cross

/-- **C93** The region of a conflict need not be near the other link: of two straight links of about 100 m in a line, the second of which
begins 900 m after the end of the first, every point of one is 800 m and more from every point of the other, but the region on the first
link is about all of it. -/
theorem C93_beyond : ∃ (_ : Env) (_ : LawfulDijkstra) (s : Sim ℝ) (c : ConflictPoint ℝ) (l l' : Link ℝ), Reach True s ∧ c ∈ s.conflicts ∧
    s.getLinkRef c.link0.linkId = .ok l ∧ s.getLinkRef c.link1.linkId = .ok l' ∧ l.length ≤ 101 ∧ c.link0.minPos < 0 ∧ 99 < c.link0.maxPos ∧
    ∀ x y p q, 0 ≤ x → x ≤ l.length → 0 ≤ y → y ≤ l'.length → l.curve.sampleCentre x = .ok p → l'.curve.sampleCentre y = .ok q →
      800 ≤ V2.distance p.pos q.pos := by
  have hm : ∀ {t r x : ℝ}, Meets ⟨t, 0⟩ ⟨1, 0⟩ ⟨r, 0⟩ ⟨1, 0⟩ x := by
    intro t r x
    simp only [Meets, lineDist, V2.add, V2.smul]
    norm_num
  obtain ⟨n, s, ⟨la, lb, c, rfl, hb⟩, -, -, hs⟩ := @program_runs (Lone.env 0) (Lone.lawful 0)
    (fun s => ∃ la lb c, s = Cross.two la lb [c] [] [] ∧ Cross.Built ⟨0, 0⟩ ⟨1, 0⟩ ⟨1000, 0⟩ ⟨1, 0⟩ la lb c) (Search.full_ends _) _
    (Cross.leads (rest := []) (by norm_num) (by norm_num) ⟨0, by norm_num, hm⟩ ⟨0, by norm_num, hm⟩
      fun la lb c hb => ⟨la, lb, c, rfl, hb⟩)
  have la1 := hb.pa.len
  have la2 := hb.pa.short
  have lb2 := hb.pb.short
  norm_num at la1 la2 lb2
  refine ⟨@Env.withFuel (Lone.env 0) n, @LawfulDijkstra.withFuel (Lone.env 0) (Lone.lawful 0) n, Cross.two la lb [c] [] [], c, la, lb, (hs n le_rfl).1, List.mem_singleton.2 rfl, by rw [hb.k0]; rfl, by rw [hb.k1]; rfl, by linarith,
    ?_, ?_, ?_⟩
  · have := (hb.r0.all 0 (by norm_num; linarith) hm).1
    norm_num at this; exact this
  · have := (hb.r0.all 396 (by norm_num; linarith) hm).2
    norm_num at this; exact this
  · intro x y p q hx1 hx2 hy1 hy2 hp hq
    rw [hb.ha.centre] at hp
    rw [hb.hb.centre] at hq
    cases hp; cases hq
    simp only [V2.distance, V2.magnitude, V2.magnitude2, V2.dot, V2.sub, V2.add, V2.smul]
    show _ ≤ Real.sqrt _
    refine Real.le_sqrt_of_sq_le ?_
    nlinarith

/-- `C93_region_partial` applies to two roads that cross at right angles: the regions are 4 m long. -/
example : ∃ (_ : Env) (_ : LawfulDijkstra) (s s' : Sim ℝ) (la lb : Link ℝ) (c : ConflictPoint ℝ), Reach True s ∧
    s.addLinkConvergance ⟨0, 1⟩ ⟨1, 1⟩ = .ok s' ∧ s.links.get? ⟨0, 1⟩ = some la ∧ s.links.get? ⟨1, 1⟩ = some lb ∧ la.id = ⟨0, 1⟩ ∧
    lb.id = ⟨1, 1⟩ ∧ Straight la.curve ⟨0, 0⟩ ⟨1, 0⟩ ∧ Straight lb.curve ⟨50, -20⟩ ⟨0, 1⟩ ∧ s'.conflicts = [c] ∧ c.link0.minPos = 48 ∧
    c.link0.maxPos = 52 ∧ c.link1.minPos = 18 ∧ c.link1.maxPos = 22 ∧ c.sameDir = false := by
  obtain ⟨n, s, ⟨la, lb, rfl, ida, idb, pa, pb, sa, sb⟩, hp, hn, hs⟩ := @program_runs (Lone.env 0) (Lone.lawful 0)
    (fun s => ∃ la lb, s = Cross.two la lb [] [] [] ∧ la.id = ⟨0, 1⟩ ∧ lb.id = ⟨1, 1⟩ ∧ Pit.Plain 100 la ∧ Pit.Plain 100 lb ∧
      Straight la.curve ⟨0, 0⟩ ⟨1, 0⟩ ∧ Straight lb.curve ⟨50, -20⟩ ⟨0, 1⟩) (Search.full_ends _)
    [.addLink (Cross.lane ⟨0, 0⟩ ⟨1, 0⟩), .addLink (Cross.lane ⟨50, -20⟩ ⟨0, 1⟩)]
    ⟨trivial, Cross.lane_fits _ (by norm_num) (.inr (by simp [Sim.new, SlotMap.empty, u32Max])), fun n1 s1 r1 e1 => by
      obtain ⟨la, pa, ida, ia, sa, rfl⟩ := @Cross.link _ (_) _ _ _ (by norm_num) rfl e1
      refine ⟨trivial, Cross.lane_fits _ (by norm_num) (.inr (by simp [Sim.new, SlotMap.empty, u32Max])), fun n2 s2 r2 e2 => ?_⟩
      obtain ⟨lb, pb, idb, ib, sb, rfl⟩ := @Cross.link _ (_) _ _ _ (by norm_num) rfl e2
      exact ⟨la, lb, rfl, ida, idb, pa, pb, sa, sb⟩⟩
  obtain ⟨m, s', hm⟩ := @C69_calls (@Env.withFuel (Lone.env 0) n) (@LawfulDijkstra.withFuel (Lone.env 0) (Lone.lawful 0) n) _ (hs n le_rfl).1 (Search.full_ends _) hp hn
    (.addLinkConvergance ⟨0, 1⟩ ⟨1, 1⟩) trivial trivial
  have hc : @Sim.addLinkConvergance ℝ _ (@Env.withFuel (Lone.env 0) (max n m)) (Cross.two la lb [] [] []) ⟨0, 1⟩ ⟨1, 1⟩ = .ok s' := hm _ (le_max_right _ _)
  have la1 := pa.len
  have lb1 := pb.len
  norm_num at la1 lb1
  have m0 := Cross.right_angle (-20)
  have m1 : ∀ i : ℕ, Meets ⟨50, -20⟩ ⟨0, 1⟩ ⟨0, 0⟩ ⟨1, 0⟩ (i / 4) ↔ 73 ≤ i ∧ i ≤ 87 := by
    intro i
    simp only [Meets, lineDist, V2.add, V2.smul]
    norm_num
    rw [abs_lt]
    constructor
    · rintro ⟨h1, h2⟩
      constructor
      · by_contra hc
        have : (i : ℝ) ≤ 72 := by exact_mod_cast (by omega : i ≤ 72)
        linarith
      · by_contra hc
        have : (88 : ℝ) ≤ i := by exact_mod_cast (by omega : 88 ≤ i)
        linarith
    · rintro ⟨h1, h2⟩
      have g1 : (73 : ℝ) ≤ i := by exact_mod_cast h1
      have g2 : (i : ℝ) ≤ 87 := by exact_mod_cast h2
      constructor <;> linarith
  rcases @C93_region_partial _ _ _ _ (_) _ s' ⟨0, 1⟩ ⟨1, 1⟩ la lb hc (by decide) rfl rfl ida idb sa sb with
    ⟨-, hn | hn⟩ | ⟨c, e, k0, k1, r0, r1, dir⟩
  · exact absurd ((m0 200).2 (by norm_num)) (hn 200 (by norm_num; linarith))
  · exact absurd ((m1 80).2 (by norm_num)) (hn 80 (by norm_num; linarith))
  obtain ⟨a1, a2⟩ := r0.exact m0 (by norm_num) (by norm_num; linarith)
  obtain ⟨b1, b2⟩ := r1.exact m1 (by norm_num) (by norm_num; linarith)
  refine ⟨@Env.withFuel (Lone.env 0) (max n m), @LawfulDijkstra.withFuel (Lone.env 0) (Lone.lawful 0) _, _, s', la, lb, c, (hs _ (le_max_left _ _)).1, hc, rfl, rfl, ida, idb, sa, sb, e, ?_, ?_, ?_, ?_, ?_⟩
  · rw [a1]; norm_num
  · rw [a2]; norm_num
  · rw [b1]; norm_num
  · rw [b2]; norm_num
  · by_contra hc
    rw [Bool.not_eq_false, dir] at hc
    norm_num at hc

end

end TrafficSim
