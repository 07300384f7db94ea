import Verif.Props.Math

/-! # C40, C43: projecting onto a curve, adaptive sampling -/

namespace TrafficSim

/-! ### C43 -/

section
variable {F : Type} [Flt F]

/-- The correction made at parameter `t`: the offset to the point measured along the unit tangent. -/
def correction (c : Curve F) (P : V2 F) (t : F) : F :=
  (c.sampleDt t).dot (P.sub (c.sample t)) / (c.sampleDt t).magnitude

/-- `Corrections c P tol n t r`: starting at `t`, after `n + 1` corrections the search stopped at `r`;
all but the last stayed in the range and were not below the tolerance, and the last one was below the
tolerance or left the range. -/
inductive Corrections (c : Curve F) (P : V2 F) (tol : F) : Nat → F → F → Prop
  | last (t : F) :
      (fabs (correction c P t) < tol ∨ ¬ (c.bounds.contains (t + correction c P t) = true)) →
      Corrections c P tol 0 t (t + correction c P t)
  | more {n : Nat} {t r : F} : ¬ (fabs (correction c P t) < tol) →
      c.bounds.contains (t + correction c P t) = true →
      Corrections c P tol n (t + correction c P t) r → Corrections c P tol (n + 1) t r

/-- **C43** What projecting a point returns, for every number type: the end of a chain of at most 64
corrections from the given start. -/
theorem C43_chain {c : Curve F} {P : V2 F} {tol t0 r : F}
    (h : projectPointOntoCurve c P tol (some t0) = .ok (some r)) :
    ∃ n < 64, Corrections c P tol n t0 r := by
  simp only [projectPointOntoCurve, M_pure_ok, pure_bind] at h
  have key : ∀ n t, projectLoop c P tol n t (c.sample t) (c.sampleDt t) = some r →
      ∃ m < n, Corrections c P tol m t r := by
    intro n
    induction n with
    | zero => intro t h; simp [projectLoop] at h
    | succ n ih =>
      intro t h
      simp only [projectLoop] at h
      split at h
      · rename_i hc
        simp only [Option.some.injEq] at h
        subst h
        exact ⟨0, by omega, .last t hc⟩
      · rename_i hc
        rw [not_or, not_not] at hc
        obtain ⟨m, hm, hcor⟩ := ih _ h
        exact ⟨m + 1, by omega, .more hc.1 hc.2 hcor⟩
  exact key 64 t0 h

/-- **C43** A parameter returned inside the range was obtained by a correction below the tolerance. -/
theorem C43_residual {c : Curve F} {P : V2 F} {tol t0 r : F}
    (h : projectPointOntoCurve c P tol (some t0) = .ok (some r)) (hr : c.bounds.contains r = true) :
    ∃ t, r = t + correction c P t ∧ fabs (correction c P t) < tol := by
  obtain ⟨n, -, hc⟩ := C43_chain h
  clear h
  induction hc with
  | last t hc =>
    rcases hc with hc | hc
    · exact ⟨t, rfl, hc⟩
    · exact absurd hr hc
  | more h1 h2 h3 ih => exact ih hr

end

/-- **C43** (initial guess) Without a given start, the search starts at one of nine equally spaced
parameters, one whose point is nearest; in exact arithmetic choosing it never fails. -/
theorem C43_initial (c : Curve ℝ) (P : V2 ℝ) (tol : ℝ) :
    ∃ i ≤ 8, (∀ j ≤ 8, (P.sub (c.sample (c.bounds.lerp ((i : ℕ) / 8)))).magnitude ≤
        (P.sub (c.sample (c.bounds.lerp ((j : ℕ) / 8)))).magnitude) ∧
      projectPointOntoCurve c P tol none =
        projectPointOntoCurve c P tol (some (c.bounds.lerp ((i : ℕ) / 8))) := by
  have key : ∀ (cs : List (ℝ × ℝ)) (best : ℝ × ℝ), ∃ r, minByDist best cs = .ok r ∧
      r ∈ best :: cs ∧ ∀ x ∈ best :: cs, r.2 ≤ x.2 := by
    intro cs
    induction cs with
    | nil => intro best; exact ⟨best, rfl, by simp, by simp⟩
    | cons d cs ih =>
      intro best
      by_cases h : d.2 < best.2
      · obtain ⟨r, h1, h2, h3⟩ := ih d
        refine ⟨r, by simp only [minByDist, h, if_true]; exact h1, List.mem_cons_of_mem _ h2, ?_⟩
        intro x hx
        rcases List.mem_cons.1 hx with rfl | hx
        · exact (h3 d (by simp)).trans h.le
        · exact h3 x hx
      · obtain ⟨r, h1, h2, h3⟩ := ih best
        refine ⟨r, by simp only [minByDist, h, if_false, not_lt.1 h, if_true]; exact h1, ?_, ?_⟩
        · rcases List.mem_cons.1 h2 with rfl | h2 <;> simp [*]
        · intro x hx
          rcases List.mem_cons.1 hx with rfl | hx
          · exact h3 x (by simp)
          · rcases List.mem_cons.1 hx with rfl | hx
            · exact (h3 best (by simp)).trans (not_lt.1 h)
            · exact h3 x (by simp [hx])
  let g : ℕ → ℝ × ℝ := fun i =>
    (c.bounds.lerp ((i : ℕ) / 8), (P.sub (c.sample (c.bounds.lerp ((i : ℕ) / 8)))).magnitude)
  have h80 : (8.0 : ℝ) = 8 := by norm_num
  have hlist : (((List.range 9).map fun i => c.bounds.lerp (Flt.ofNat i / 8.0)).map
      fun t => (t, (P.sub (c.sample t)).magnitude)) = (List.range 9).map g := by
    rw [List.map_map]
    apply List.map_congr_left
    intro i _
    show (c.bounds.lerp (((i : ℕ) : ℝ) / (8.0 : ℝ)), _) = _
    simp only [h80]
    rfl
  have hcons : (List.range 9).map g = g 0 :: [g 1, g 2, g 3, g 4, g 5, g 6, g 7, g 8] := rfl
  obtain ⟨r, h1, h2, h3⟩ := key [g 1, g 2, g 3, g 4, g 5, g 6, g 7, g 8] (g 0)
  rw [← hcons] at h2 h3
  obtain ⟨i, hi, rfl⟩ := List.mem_map.1 h2
  refine ⟨i, by simp at hi; omega, fun j hj => ?_, ?_⟩
  · exact h3 (g j) (List.mem_map.2 ⟨j, by simp; omega, rfl⟩)
  · have : projectInit c P = .ok (c.bounds.lerp ((i : ℕ) / 8)) := by
      unfold projectInit
      simp only [hlist, hcons, h1, bind, Except.bind, pure, Except.pure]
      rfl
    simp [projectPointOntoCurve, this, bind, Except.bind, pure, Except.pure]

/-- **C43** (straight lines) Projecting onto a straight line with unit direction returns the exact
orthogonal projection, from any start. -/
theorem C43_line (l : LineSegment2d ℝ) (hl : l.tangent.x * l.tangent.x + l.tangent.y * l.tangent.y = 1)
    (P : V2 ℝ) (tol : ℝ) (ht : 0 < tol) (t0 : Option ℝ) :
    projectPointOntoCurve l.toCurve P tol t0 =
      .ok (some (V2.dot (P.sub l.start) l.tangent)) := by
  have hmag : l.tangent.magnitude = 1 := by
    simp [V2.magnitude, V2.magnitude2, V2.dot, fsqrt, hl]
  have hcor : ∀ t, correction l.toCurve P t = V2.dot (P.sub l.start) l.tangent - t := by
    intro t
    simp only [correction, LineSegment2d.toCurve, LineSegment2d.sample, hmag, V2.dot, V2.sub, V2.add,
      V2.smul]
    linear_combination (-t) * hl
  have hstart : ∀ t, projectLoop l.toCurve P tol 64 t (l.toCurve.sample t) (l.toCurve.sampleDt t) =
      some (V2.dot (P.sub l.start) l.tangent) := by
    intro t
    have hstep : ∀ n t, projectLoop l.toCurve P tol (n + 1) t (l.toCurve.sample t) (l.toCurve.sampleDt t) =
        if |correction l.toCurve P t| < tol ∨ ¬ (l.toCurve.bounds.contains (t + correction l.toCurve P t) = true)
        then some (t + correction l.toCurve P t)
        else projectLoop l.toCurve P tol n (t + correction l.toCurve P t)
          (l.toCurve.sample (t + correction l.toCurve P t))
          (l.toCurve.sampleDt (t + correction l.toCurve P t)) := by
      intro n t; rfl
    rw [hstep 63 t, hstep 62]
    simp only [hcor]
    split
    · congr 1; ring
    · rw [if_pos]
      · congr 1; ring
      · left
        rw [show V2.dot (P.sub l.start) l.tangent - (t + (V2.dot (P.sub l.start) l.tangent - t)) = 0 by ring]
        simpa using ht
  cases t0 with
  | some t => simp [projectPointOntoCurve, hstart, bind, Except.bind, pure, Except.pure]
  | none =>
    obtain ⟨i, -, -, h⟩ := C43_initial l.toCurve P tol
    rw [h]
    simp [projectPointOntoCurve, hstart, bind, Except.bind, pure, Except.pure]

/-- The unit direction (3/5, 4/5) meets the hypothesis of `C43_line`. -/
example : projectPointOntoCurve (LineSegment2d.mk ⟨0, 0⟩ ⟨3 / 5, 4 / 5⟩ 10 : LineSegment2d ℝ).toCurve
    ⟨4, 3⟩ 0.01 none = .ok (some (24 / 5)) := by
  rw [C43_line _ (by norm_num) _ _ (by norm_num)]
  simp [V2.dot, V2.sub]; norm_num

/-! ### C40 -/

/-- Consecutive samples: the parameter grows and the points are at most `len` apart. -/
def SampleStep (len : ℝ) (a b : ℝ × V2 ℝ) : Prop := a.1 < b.1 ∧ V2.distance a.2 b.2 ≤ len

section
variable {c : Curve ℝ} {len : ℝ}

theorem distance_le_of_sq (hlen : 0 ≤ len) {p q : V2 ℝ} (h : ¬ (sq len < (q.sub p).magnitude2)) :
    V2.distance p q ≤ len := by
  have h := not_lt.1 h
  show Real.sqrt (q.sub p).magnitude2 ≤ len
  refine Real.sqrt_le_iff.2 ⟨hlen, ?_⟩
  rw [pow_two]; exact h

/-- A stack of samples on the curve with growing parameter, ending with the sample `z`. -/
def StackOk (c : Curve ℝ) (z : ℝ × V2 ℝ) (st : List (ℝ × V2 ℝ)) : Prop :=
  (∀ a ∈ st, a.2 = c.sample a.1) ∧ st.IsChain (fun a b => a.1 < b.1) ∧ st.getLast? = some z

theorem subdivPush_spec (hlen : 0 ≤ len) {z : ℝ × V2 ℝ} {t1 : ℝ} {p1 : V2 ℝ} :
    ∀ {fuel : Nat} {top : ℝ × V2 ℝ} {below st : List (ℝ × V2 ℝ)}, t1 < top.1 →
      StackOk c z (top :: below) → subdivPush c (sq len) t1 p1 fuel top below = .ok st →
      StackOk c z st ∧ ∃ b rest, st = b :: rest ∧ SampleStep len (t1, p1) b := by
  intro fuel
  induction fuel with
  | zero => intro top below st _ _ h; simp [subdivPush] at h
  | succ fuel ih =>
    rintro ⟨t2, p2⟩ below st ht hst h
    simp only [subdivPush] at h
    split at h
    · have hm : (0.5 : ℝ) * (t1 + t2) = (t1 + t2) / 2 := by norm_num; ring
      dsimp only at ht
      refine ih ?_ ?_ h
      · show t1 < (0.5 : ℝ) * (t1 + t2); rw [hm]; linarith
      · obtain ⟨h1, h2, h3⟩ := hst
        refine ⟨?_, ?_, ?_⟩
        · intro a ha
          rcases List.mem_cons.1 ha with rfl | ha
          · rfl
          · exact h1 a ha
        · refine List.isChain_cons_cons.2 ⟨?_, h2⟩
          show (0.5 : ℝ) * (t1 + t2) < t2; rw [hm]; linarith
        · rw [List.getLast?_cons_cons]; exact h3
    · rename_i hd
      simp only [M_pure_ok] at h
      subst h
      exact ⟨hst, _, _, rfl, ht, distance_le_of_sq hlen hd⟩

theorem subdivCollect_spec (hlen : 0 ≤ len) {z : ℝ × V2 ℝ} {fuel : Nat} :
    ∀ {n : Nat} {st out : List (ℝ × V2 ℝ)}, StackOk c z st → subdivCollect fuel c (sq len) n st = .ok out →
      out.head? = st.head? ∧ out.getLast? = some z ∧ out.IsChain (SampleStep len) ∧
        ∀ a ∈ out, a.2 = c.sample a.1 := by
  intro n
  induction n with
  | zero => intro st out _ h; simp [subdivCollect] at h
  | succ n ih =>
    intro st out hst h
    obtain ⟨h1, h2, h3⟩ := hst
    have hempty : ∀ {n out}, subdivCollect fuel c (sq len) n [] = .ok out → out = [] := by
      intro n out h
      cases n with
      | zero => simp [subdivCollect] at h
      | succ n => simp only [subdivCollect, subdivNext, pure_bind, M_pure_ok] at h; exact h.symm
    match st, h1, h2, h3, h with
    | [], _, _, h3, _ => simp at h3
    | [(t1, p1)], h1, _, h3, h =>
      simp only [subdivCollect, subdivNext, pure_bind, M_bind_ok, M_pure_ok] at h
      obtain ⟨rest, h4, rfl⟩ := h
      rw [hempty h4]
      exact ⟨rfl, h3, by simp, h1⟩
    | (t1, p1) :: top :: below, h1, h2, h3, h =>
      simp only [subdivCollect, subdivNext, M_bind_ok, M_pure_ok] at h
      obtain ⟨x, ⟨st', hp, rfl⟩, h⟩ := h
      simp only [M_bind_ok, M_pure_ok] at h
      obtain ⟨rest, h4, rfl⟩ := h
      have hchain := List.isChain_cons_cons.1 h2
      obtain ⟨hst', b, r, rfl, hstep⟩ := subdivPush_spec hlen (z := z) hchain.1
        ⟨fun a ha => h1 a (List.mem_cons_of_mem _ ha), hchain.2, by
          rw [← List.getLast?_cons_cons]; exact h3⟩ hp
      obtain ⟨g1, g2, g3, g4⟩ := ih hst' h4
      cases rest with
      | nil => simp at g1
      | cons b' rest =>
        simp only [List.head?_cons, Option.some.injEq] at g1
        subst g1
        refine ⟨rfl, by rw [List.getLast?_cons_cons]; exact g2,
          List.isChain_cons_cons.2 ⟨hstep, g3⟩, ?_⟩
        intro a ha
        rcases List.mem_cons.1 ha with rfl | ha
        · exact h1 _ (by simp)
        · exact g4 a ha

end

/-- **C40** Adaptive sampling yields samples of the curve with strictly increasing parameter from the
start of the range to its end, consecutive ones no farther apart than the requested length. -/
theorem C40_samples {c : Curve ℝ} {len : ℝ} {fuel : Nat} {out : List (ℝ × V2 ℝ)} (hlen : 0 ≤ len)
    (hb : c.bounds.min < c.bounds.max) (h : subdividedSamplesAlongCurve fuel c len = .ok out) :
    out.head? = some (c.bounds.min, c.sample c.bounds.min) ∧
    out.getLast? = some (c.bounds.max, c.sample c.bounds.max) ∧
    out.IsChain (SampleStep len) ∧ ∀ a ∈ out, a.2 = c.sample a.1 := by
  simp only [subdividedSamplesAlongCurve] at h
  have hm : (0.5 : ℝ) * (c.bounds.min + c.bounds.max) = (c.bounds.min + c.bounds.max) / 2 := by
    norm_num; ring
  refine subdivCollect_spec hlen (z := (c.bounds.max, c.sample c.bounds.max)) ⟨?_, ?_, by simp⟩ h
  · simp
  · simp only [List.isChain_cons_cons, List.isChain_singleton, and_true]
    constructor
    · show c.bounds.min < (0.5 : ℝ) * (c.bounds.min + c.bounds.max)
      rw [hm]; linarith
    · show (0.5 : ℝ) * (c.bounds.min + c.bounds.max) < c.bounds.max
      rw [hm]; linarith

/-! Termination: the sampling ends for every curve of bounded speed. -/

section
variable {c : Curve ℝ} {len K η : ℝ}

/-- Consecutive parameters on the stack are at least `η` apart. -/
def Gaps (η : ℝ) (st : List (ℝ × V2 ℝ)) : Prop := st.IsChain fun a b => a.1 + η ≤ b.1

theorem subdivPush_ends (hK : 0 < K)
    (hlip : ∀ s t, s ≤ t → V2.distance (c.sample s) (c.sample t) ≤ K * (t - s))
    (hη : η ≤ len / K / 2) {t1 : ℝ} :
    ∀ (n fuel : Nat) (t2 : ℝ) (below : List (ℝ × V2 ℝ)), n < fuel → t1 < t2 →
      t2 - t1 ≤ len / K * 2 ^ n → t1 + η ≤ t2 → Gaps η ((t2, c.sample t2) :: below) →
      ∃ b below', subdivPush c (sq len) t1 (c.sample t1) fuel (t2, c.sample t2) below =
        .ok ((b, c.sample b) :: below') ∧ t1 + η ≤ b ∧ Gaps η ((b, c.sample b) :: below') ∧
        ((b, c.sample b) :: below').getLast? = ((t2, c.sample t2) :: below).getLast? ∧
        (∀ a ∈ below', a ∈ (t2, c.sample t2) :: below ∨ a.2 = c.sample a.1) := by
  intro n
  induction n with
  | zero =>
    intro fuel t2 below hf ht hn hgap hg
    obtain ⟨fuel, rfl⟩ : ∃ f, fuel = f + 1 := ⟨fuel - 1, by omega⟩
    have hd := hlip t1 t2 ht.le
    have : K * (t2 - t1) ≤ len := by
      have := mul_le_mul_of_nonneg_left hn hK.le
      rw [pow_zero, mul_one, mul_div_cancel₀ _ hK.ne'] at this
      exact this
    have hnot : ¬ (sq len < ((c.sample t2).sub (c.sample t1)).magnitude2) := by
      intro hc
      have h1 : Real.sqrt ((c.sample t2).sub (c.sample t1)).magnitude2 ≤ len := hd.trans this
      have h2 := (Real.sqrt_le_iff.1 h1).2
      rw [pow_two] at h2
      exact absurd hc (not_lt.2 h2)
    refine ⟨t2, below, ?_, hgap, hg, rfl, fun a ha => .inl (List.mem_cons_of_mem _ ha)⟩
    simp only [subdivPush, if_neg hnot]
    rfl
  | succ n ih =>
    intro fuel t2 below hf ht hn hgap hg
    obtain ⟨fuel, rfl⟩ : ∃ f, fuel = f + 1 := ⟨fuel - 1, by omega⟩
    by_cases hc : sq len < ((c.sample t2).sub (c.sample t1)).magnitude2
    · have hm : (0.5 : ℝ) * (t1 + t2) = (t1 + t2) / 2 := by norm_num; ring
      have hbig : len / K < t2 - t1 := by
        rw [div_lt_iff₀ hK, mul_comm]
        refine lt_of_lt_of_le ?_ (hlip t1 t2 ht.le)
        show len < Real.sqrt _
        refine Real.lt_sqrt_of_sq_lt ?_
        rw [pow_two]; exact hc
      obtain ⟨b, below', e1, e2, e3, e4, e5⟩ := ih fuel ((t1 + t2) / 2) ((t2, c.sample t2) :: below)
        (by omega) (by linarith) (by rw [pow_succ] at hn; linarith) (by linarith)
        (List.isChain_cons_cons.2 ⟨by show (t1 + t2) / 2 + η ≤ t2; linarith, hg⟩)
      refine ⟨b, below', ?_, e2, e3, by rw [e4, List.getLast?_cons_cons], fun a ha => ?_⟩
      · simp only [subdivPush, if_pos hc]
        rw [← e1]
        show subdivPush c (sq len) t1 (c.sample t1) fuel ((0.5 : ℝ) * (t1 + t2), c.sample ((0.5 : ℝ) * (t1 + t2))) _ = _
        rw [hm]
      · rcases e5 a ha with h | h
        · rcases List.mem_cons.1 h with rfl | h
          · exact .inr rfl
          · exact .inl h
        · exact .inr h
    · refine ⟨t2, below, ?_, hgap, hg, rfl, fun a ha => .inl (List.mem_cons_of_mem _ ha)⟩
      simp only [subdivPush, if_neg hc]
      rfl

theorem Gaps.le_last (hη : 0 ≤ η) : ∀ {a z : ℝ × V2 ℝ} {l : List (ℝ × V2 ℝ)}, Gaps η (a :: l) →
    (a :: l).getLast? = some z → a.1 ≤ z.1 := by
  intro a z l
  induction l generalizing a with
  | nil => intro _ h; simp at h; rw [h]
  | cons b l ih =>
    intro hg h
    rw [List.getLast?_cons_cons] at h
    have := List.isChain_cons_cons.1 hg
    have h2 := ih this.2 h
    linarith [this.1]

theorem subdivCollect_ends (hK : 0 < K) (hη0 : 0 < η)
    (hlip : ∀ s t, s ≤ t → V2.distance (c.sample s) (c.sample t) ≤ K * (t - s))
    (hη : η ≤ len / K / 2) {z : ℝ × V2 ℝ} {W : ℝ} {N fuel : Nat} (hN : W ≤ len / K * 2 ^ N)
    (hfuel : N < fuel) :
    ∀ (m n : Nat) (a : ℝ × V2 ℝ) (l : List (ℝ × V2 ℝ)), m + 1 < n → StackOk c z (a :: l) →
      Gaps η (a :: l) → z.1 - a.1 ≤ W → z.1 - a.1 < (m + 1) * η →
      ∃ out, subdivCollect fuel c (sq len) n (a :: l) = .ok out := by
  have hempty : ∀ n, 0 < n → subdivCollect fuel c (sq len) n [] = .ok [] := by
    intro n hn
    obtain ⟨n, rfl⟩ : ∃ f, n = f + 1 := ⟨n - 1, by omega⟩
    rfl
  intro m
  induction m with
  | zero =>
    intro n a l hn hst hg hW hm
    obtain ⟨n, rfl⟩ : ∃ f, n = f + 1 := ⟨n - 1, by omega⟩
    cases l with
    | nil =>
      refine ⟨[a], ?_⟩
      simp only [subdivCollect, subdivNext, bind, Except.bind, pure, Except.pure, hempty n (by omega)]
    | cons b l =>
      exfalso
      have h1 := List.isChain_cons_cons.1 hg
      have h2 := Gaps.le_last hη0.le h1.2 (by rw [← List.getLast?_cons_cons]; exact hst.2.2)
      have := h1.1
      push_cast at hm
      linarith
  | succ m ih =>
    intro n a l hn hst hg hW hm
    obtain ⟨n, rfl⟩ : ∃ f, n = f + 1 := ⟨n - 1, by omega⟩
    cases l with
    | nil =>
      refine ⟨[a], ?_⟩
      simp only [subdivCollect, subdivNext, bind, Except.bind, pure, Except.pure, hempty n (by omega)]
    | cons b l =>
      have h1 := List.isChain_cons_cons.1 hg
      have hlast : (b :: l).getLast? = some z := by rw [← List.getLast?_cons_cons]; exact hst.2.2
      have h2 := Gaps.le_last hη0.le h1.2 hlast
      obtain ⟨ta, pa⟩ := a
      obtain ⟨tb, pb⟩ := b
      have ha : pa = c.sample ta := hst.1 (ta, pa) (by simp)
      have hb : pb = c.sample tb := hst.1 (tb, pb) (by simp)
      subst ha hb
      dsimp only at h1 h2 hW hm
      obtain ⟨t', below', e1, e2, e3, e4, e5⟩ := subdivPush_ends hK hlip hη N fuel tb l hfuel
        (by linarith [h1.1]) (by linarith) h1.1 h1.2
      have hcurve : ∀ x ∈ (t', c.sample t') :: below', x.2 = c.sample x.1 := by
        intro x hx
        rcases List.mem_cons.1 hx with rfl | hx
        · rfl
        · rcases e5 x hx with h | h
          · exact hst.1 x (List.mem_cons_of_mem _ h)
          · exact h
      obtain ⟨out, ho⟩ := ih n (t', c.sample t') below' (by omega)
        ⟨hcurve, e3.imp fun x y hxy => by linarith, by rw [e4]; exact hlast⟩ e3
        (by show z.1 - t' ≤ W; linarith) (by show z.1 - t' < _; push_cast at hm; linarith)
      refine ⟨(ta, c.sample ta) :: out, ?_⟩
      simp only [subdivCollect, subdivNext, e1, bind, Except.bind, pure, Except.pure, ho]

end

/-- **C40** (termination) Adaptive sampling ends for every curve of bounded speed and every positive
length. -/
theorem C40_terminates {c : Curve ℝ} {len K : ℝ} (hlen : 0 < len)
    (hb : c.bounds.min < c.bounds.max)
    (hlip : ∀ s t, s ≤ t → V2.distance (c.sample s) (c.sample t) ≤ K * (t - s)) :
    ∃ fuel, ∀ fuel' ≥ fuel, ∃ out, subdividedSamplesAlongCurve fuel' c len = .ok out := by
  have hK : 0 < max K 1 := lt_max_of_lt_right one_pos
  have hlip' : ∀ s t, s ≤ t → V2.distance (c.sample s) (c.sample t) ≤ max K 1 * (t - s) :=
    fun s t h => (hlip s t h).trans (mul_le_mul_of_nonneg_right (le_max_left _ _) (by linarith))
  generalize max K 1 = K at hK hlip'
  set W := c.bounds.max - c.bounds.min with hW
  have hWpos : 0 < W := by rw [hW]; linarith
  have hγ : 0 < len / K := div_pos hlen hK
  set η := min (len / K / 2) (W / 2) with hηd
  have hη0 : 0 < η := lt_min (by linarith) (by linarith)
  obtain ⟨N, hN⟩ := pow_unbounded_of_one_lt (W / (len / K)) (one_lt_two (α := ℝ))
  obtain ⟨m, hm⟩ := exists_nat_gt (W / η)
  have hmid : (0.5 : ℝ) * (c.bounds.min + c.bounds.max) = (c.bounds.min + c.bounds.max) / 2 := by
    norm_num; ring
  refine ⟨N + m + 2, fun fuel hf => ?_⟩
  have hη2 : η ≤ W / 2 := min_le_right _ _
  have := subdivCollect_ends hK hη0 hlip' (min_le_left _ _)
    (z := (c.bounds.max, c.sample c.bounds.max)) (W := W) (N := N) (fuel := fuel)
    (by rw [div_lt_iff₀ hγ] at hN; linarith) (by omega) m fuel
    (c.bounds.min, c.sample c.bounds.min)
    [((c.bounds.min + c.bounds.max) / 2, c.sample ((c.bounds.min + c.bounds.max) / 2)),
      (c.bounds.max, c.sample c.bounds.max)] (by omega) ⟨by simp, ?_, by simp⟩ ?_ le_rfl ?_
  · obtain ⟨out, ho⟩ := this
    refine ⟨out, ?_⟩
    rw [← hmid] at ho
    exact ho
  · simp only [List.isChain_cons_cons, List.isChain_singleton, and_true]
    constructor <;> linarith
  · simp only [Gaps, List.isChain_cons_cons, List.isChain_singleton, and_true]
    constructor <;> linarith
  · rw [div_lt_iff₀ hη0] at hm
    show W < _
    nlinarith

/-- The hypotheses of `C40_terminates` (and so those of `C40_samples`) hold for the segment from the
origin to (3, 4) and length 1. -/
example : ∃ fuel out, subdividedSamplesAlongCurve fuel (LineSegment2d.fromEnds ⟨0, 0⟩ ⟨3, 4⟩).toCurve
    (1 : ℝ) = .ok out := by
  obtain ⟨f, hf⟩ := C40_terminates (c := (LineSegment2d.mk ⟨0, 0⟩ ⟨3 / 5, 4 / 5⟩ 5 : LineSegment2d ℝ).toCurve)
    (len := 1) (K := 1) one_pos (by simp [LineSegment2d.toCurve, LineSegment2d.bounds]; norm_num) (by
      intro s t hst
      simp only [LineSegment2d.toCurve, LineSegment2d.sample, V2.distance, V2.magnitude, V2.magnitude2,
        V2.dot, V2.sub, V2.add, V2.smul, fsqrt]
      rw [show (0 + t * (3 / 5) - (0 + s * (3 / 5))) * (0 + t * (3 / 5) - (0 + s * (3 / 5))) +
        (0 + t * (4 / 5) - (0 + s * (4 / 5))) * (0 + t * (4 / 5) - (0 + s * (4 / 5))) =
        (t - s) * (t - s) by ring, Real.sqrt_mul_self (by linarith)]
      linarith)
  have hsq : Real.sqrt (3 * 3 + 4 * 4 : ℝ) = 5 := by
    rw [show (3 * 3 + 4 * 4 : ℝ) = 5 * 5 by norm_num]; exact Real.sqrt_mul_self (by norm_num)
  have : LineSegment2d.fromEnds (⟨0, 0⟩ : V2 ℝ) ⟨3, 4⟩ = ⟨⟨0, 0⟩, ⟨3 / 5, 4 / 5⟩, 5⟩ := by
    simp [LineSegment2d.fromEnds, V2.sub, V2.magnitude, V2.magnitude2, V2.dot, V2.sdiv, fsqrt, isNan, hsq]
  rw [this]
  exact ⟨f, hf f le_rfl⟩

end TrafficSim
