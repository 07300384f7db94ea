import Verif.Props.Terminate
import Verif.Props.Network
import Verif.Props.Projection
import Verif.Props.Straight

/-! # C68: a step does not fail -/

namespace TrafficSim

section
variable {F : Type} [Flt F] {strict : Prop} {s s' : Sim F}

theorem Made.rel [Env] {links links' : LinkSet F} {a b : Key} {p : LinkProjection F} (h : Made links a b p)
    (hr : ∀ k l, links.get? k = some l → ∃ l', links'.get? k = some l' ∧ l'.curve = l.curve) : Made links' a b p := by
  obtain ⟨la, lb, ha, hb, h1, h2, h3, h4⟩ := h
  obtain ⟨la', ha', ea⟩ := hr a la ha
  obtain ⟨lb', hb', eb⟩ := hr b lb hb
  exact ⟨la', lb', ha', hb', h1, h2, h3, by rw [ea, eb]; exact h4⟩

/-- The projections of a group are those of links that exist. -/
theorem reach_made [Env] [LawfulDijkstra] (h : Reach strict s) : ∀ {k : Key} {l : Link F}, s.links.get? k = some l →
    ∀ g, l.group = some g → ∀ p ∈ g.projections, ∃ a b, Made s.links a b p := by
  induction h with
  | new =>
    intro k l hl
    have : (Sim.new : Sim F).links.get? k = none := rfl
    rw [this] at hl; cases hl
  | @exec s s' op hr _ he ih =>
    intro k l' hl' g hg p hp
    cases exec_network hr.inv he with
    | frame hf =>
      obtain ⟨l, hl, e⟩ := hf.bwd hl'
      obtain ⟨a, b, h⟩ := ih hl g (e.group.symm.trans hg) p hp
      exact ⟨a, b, h.rel fun k l hl => by
        obtain ⟨l', hl', e⟩ := hf.fwd _ _ hl
        exact ⟨l', hl', e.curve⟩⟩
    | added att j _ hk =>
      obtain ⟨l0, hl0, hget⟩ := hk.link
      have hfwd : ∀ k l, s.links.get? k = some l → ∃ l', s'.links.get? k = some l' ∧ l'.curve = l.curve := by
        intro k l hl
        refine ⟨l, ?_, rfl⟩
        rw [hget, if_neg]
        · exact hl
        · intro e; subst e; exact not_contains_of_not_issued hk.fresh _ hl
      rw [hget] at hl'
      split at hl'
      · cases hl'
        rw [(Link.new_ok hl0).2.1] at hg; cases hg
      · obtain ⟨a, b, h⟩ := ih hl' g hg p hp
        exact ⟨a, b, h.rel hfwd⟩
    | grouped ids mask g' lcs _ hgr =>
      have hfwd : ∀ k l, s.links.get? k = some l → ∃ l', s'.links.get? k = some l' ∧ l'.curve = l.curve := by
        intro k l hl
        obtain ⟨l', hl', rfl, -⟩ := hgr.rel.fwd _ _ hl
        exact ⟨_, hl', rfl⟩
      obtain ⟨l, hl, rfl, -⟩ := hgr.rel.bwd hl'
      dsimp only at hg
      split at hg
      · cases hg
        obtain ⟨a, b, h⟩ := hgr.made p hp
        exact ⟨a, b, h.rel hfwd⟩
      · obtain ⟨a, b, h⟩ := ih hl g hg p hp
        exact ⟨a, b, h.rel hfwd⟩
    | converging x y cs _ hc =>
      obtain ⟨l, hl, rfl⟩ := hc.bwd hl'
      obtain ⟨a, b, h⟩ := ih hl g hg p hp
      exact ⟨a, b, h.rel fun k l hl => by
        obtain ⟨l', hl', rfl⟩ := hc.fwd _ _ hl
        exact ⟨_, hl', rfl⟩⟩
    | connected x y _ _ _ hc =>
      obtain ⟨l, hl, rfl⟩ := hc.bwd hl'
      obtain ⟨a, b, h⟩ := ih hl g hg p hp
      exact ⟨a, b, h.rel fun k l hl => by
        obtain ⟨l', hl', rfl⟩ := hc.fwd _ _ hl
        exact ⟨_, hl', rfl⟩⟩

end

/-! ## Straight links -/

theorem noNan_real : NoNan ℝ := ⟨fun a b => lt_or_ge a b, fun _ => rfl⟩

/-- Points can be projected onto a straight link. -/
theorem project_straight {c : LinkCurve ℝ} {a u : V2 ℝ} (hu : u.x * u.x + u.y * u.y = 1)
    (hs : ∀ s, c.sampleCentre s = .ok ⟨a.add (V2.smul s u), u⟩) (P : V2 ℝ) {tol : ℝ} (ht : 0 < tol) (t0 : Option ℝ) :
    projectPointOntoCurve c.toCurve P tol t0 = .ok (some (V2.dot (P.sub a) u)) := by
  have hseg : ∀ t, c.toCurve.sample t = a.add (V2.smul t u) ∧ (c.toCurve.sampleDt t).normalize = u := by
    intro t
    have h := hs t
    simp only [LinkCurve.sampleCentre, LinkCurve.sampleInternal, LinkCurve.segmentIndex] at h
    split at h
    · cases h
    · simp only [M_bind_ok, M_pure_ok] at h
      obtain ⟨⟨seg, r⟩, ⟨_, rfl, h1⟩, h2⟩ := h
      split at h1
      · rename_i sg hsg
        cases h1
        rw [LinkSample.mk.injEq] at h2
        simp only [LinkCurve.toCurve, LinkCurve.segAt, hsg, Option.getD_some]
        exact h2
      · cases h1
  have hcor : ∀ t, correction c.toCurve P t = V2.dot (P.sub a) u - t := by
    intro t
    obtain ⟨h1, h2⟩ := hseg t
    have h3 : correction c.toCurve P t = V2.dot (c.toCurve.sampleDt t).normalize (P.sub (c.toCurve.sample t)) := by
      have h1 : (1.0 : ℝ) = 1 := by norm_num
      unfold correction V2.normalize V2.normalizeTo
      generalize (c.toCurve.sampleDt t).magnitude = m
      generalize c.toCurve.sampleDt t = v
      generalize P.sub (c.toCurve.sample t) = w
      show (v.x * w.x + v.y * w.y) / m = (1.0 / m * v.x) * w.x + (1.0 / m * v.y) * w.y
      rw [h1]
      ring
    rw [h3, h1, h2]
    simp only [V2.dot, V2.sub, V2.add, V2.smul]
    linear_combination (-t) * hu
  have hstart : ∀ t, projectLoop c.toCurve P tol 64 t (c.toCurve.sample t) (c.toCurve.sampleDt t) =
      some (V2.dot (P.sub a) u) := by
    intro t
    have hstep : ∀ n t, projectLoop c.toCurve P tol (n + 1) t (c.toCurve.sample t) (c.toCurve.sampleDt t) =
        if |correction c.toCurve P t| < tol ∨ ¬ (c.toCurve.bounds.contains (t + correction c.toCurve P t) = true)
        then some (t + correction c.toCurve P t)
        else projectLoop c.toCurve P tol n (t + correction c.toCurve P t)
          (c.toCurve.sample (t + correction c.toCurve P t))
          (c.toCurve.sampleDt (t + correction c.toCurve P t)) := by
      intro n t; rfl
    rw [hstep 63 t, hstep 62]
    simp only [hcor]
    split
    · congr 1; ring
    · rw [if_pos]
      · congr 1; ring
      · left
        rw [show V2.dot (P.sub a) u - (t + (V2.dot (P.sub a) u - t)) = 0 by ring]
        simpa using ht
  cases t0 with
  | some t => simp [projectPointOntoCurve, hstart, bind, Except.bind, pure, Except.pure]
  | none =>
    obtain ⟨i, -, -, h⟩ := C43_initial c.toCurve P tol
    rw [h]
    simp [projectPointOntoCurve, hstart, bind, Except.bind, pure, Except.pure]

/-- On a reachable network of straight links, everything can be projected. -/
theorem goodNet_straight [Env] [LawfulDijkstra] {strict : Prop} {s : Sim ℝ} (h : Reach strict s) (hn : PosNet s.links)
    (hs : StraightNet s.links) : GoodNet s.links := by
  refine ⟨noNan_real, fun k l hl g hg p hp => ?_, fun k l hl P T => ?_⟩
  · obtain ⟨a, b, la, lb, ha, hb, -, -, -, hm⟩ := reach_made h hl g hg p hp
    obtain ⟨o, u, hu, h1⟩ := hs a la ha
    obtain ⟨o', u', hu', h1'⟩ := hs b lb hb
    intro e
    rw [e] at hm
    have hlen := hn.length a la ha
    cases hf : (Env.fuel : Nat) with
    | zero => rw [hf] at hm; cases hm
    | succ n =>
      rw [hf] at hm
      unfold projectionSamples at hm
      dsimp only at hm
      rw [if_pos (by
        show (2.0 : ℝ) * ((0 : ℕ) : ℝ) < la.curve.length
        rw [Nat.cast_zero, mul_zero]; exact hlen)] at hm
      rw [h1] at hm
      simp only [M_bind_ok] at hm
      obtain ⟨_, e1, hm⟩ := hm
      cases e1
      rw [project_straight hu' h1' _ (by norm_num)] at hm
      obtain ⟨_, e1, hm⟩ := hm
      cases e1
      simp only [M_bind_ok, M_pure_ok] at hm
      obtain ⟨_, -, _, -, hm⟩ := hm
      cases hm
  · obtain ⟨o, u, hu, h1⟩ := hs k l hl
    unfold LinkCurve.inverseSample
    rw [project_straight hu h1 _ (by norm_num)]
    intro e
    simp only [M_bind_ok] at e
    obtain ⟨_, e1, e⟩ := e
    cases e1
    simp only [M_bind_ok, M_pure_ok] at e
    obtain ⟨_, -, e⟩ := e
    cases e

/-! ## C68 -/

theorem step_safe [Env] [LawfulDijkstra] {s : Sim ℝ} (hs : SimInv True s) (hg : GoodNet s.links) (dt : ℝ) :
    Spec (s.step dt) (· = .diverges) fun s' => SimInv True s' ∧ Frame s.links s'.links := by
  refine (step_spec_geo (strict := True) (geo := False) (.inl hg) hs dt).mono ?_ ?_
  · rintro s' ⟨s1, s2, s3, s4, s5, s6, h⟩
    exact ⟨h.inv, h.frame⟩
  · intro e he
    cases e <;> first | rfl | exact absurd he id | exact absurd trivial he

theorem step_total [Env] [LawfulDijkstra] {s : Sim ℝ} (hs : SimInv True s) (hd : SearchEnds) (hn : StepEnds s.links)
    (hg : GoodNet s.links) (dt : ℝ) : ∃ N s', (∀ n, N ≤ n → @Sim.step ℝ _ (Env.withFuel n) s dt = .ok s') ∧
      SimInv True s' ∧ Frame s.links s'.links := by
  obtain ⟨N, r, hr, h⟩ := step_settles hs hd hn dt
  have hsp := @step_safe (Env.withFuel N) (LawfulDijkstra.withFuel N) s hs hg dt
  have h' := h N le_rfl
  cases hx : r with
  | error e =>
    subst hx
    exact absurd (congrArg Except.error (hsp.err h')) hr
  | ok s' =>
    subst hx
    exact ⟨N, s', h, hsp.ok h'⟩

/-- **C68** A step of a reachable simulation does not fail, in exact arithmetic, when links have positive lengths and speed
limits and everything that has to be projected onto a link can be: with enough fuel it returns, whatever the step length,
always the same state. -/
theorem C68_step [Env] [LawfulDijkstra] {s : Sim ℝ} (h : Reach True s) (hd : SearchEnds) (hn : StepEnds s.links)
    (hg : GoodNet s.links) (dt : ℝ) : ∃ N s', ∀ n, N ≤ n → @Sim.step ℝ _ (Env.withFuel n) s dt = .ok s' := by
  obtain ⟨N, s', h, -⟩ := step_total h.inv hd hn hg dt
  exact ⟨N, s', h⟩

/-- **C68**, any number of steps. -/
theorem C68_steps [Env] [LawfulDijkstra] {s : Sim ℝ} (h : Reach True s) (hd : SearchEnds) (hn : StepEnds s.links)
    (hg : GoodNet s.links) (dts : List ℝ) :
    ∃ N s', ∀ n, N ≤ n → dts.foldlM (fun s dt => @Sim.step ℝ _ (Env.withFuel n) s dt) s = .ok s' := by
  have hs := h.inv
  clear h
  induction dts generalizing s with
  | nil => exact ⟨0, s, fun _ _ => rfl⟩
  | cons dt dts ih =>
    obtain ⟨N, s1, h1, i1, f1⟩ := step_total hs hd hn hg dt
    obtain ⟨N', s2, h2⟩ := ih (hn.frame f1) (hg.of_rel (SRel.mono f1 fun _ _ _ h => ⟨h.group, h.curve⟩)) i1
    refine ⟨max N N', s2, fun n hn => ?_⟩
    simp only [List.foldlM_cons, h1 n (le_of_max_le_left hn), bind, Except.bind]
    exact h2 n (le_of_max_le_right hn)

/-- **C68**, on straight links: any number of steps of a reachable simulation succeed. -/
theorem C68_straight [Env] [LawfulDijkstra] {s : Sim ℝ} (h : Reach True s) (hd : SearchEnds) (hn : PosNet s.links)
    (hs : StraightNet s.links) (dts : List ℝ) :
    ∃ N s', ∀ n, N ≤ n → dts.foldlM (fun s dt => @Sim.step ℝ _ (Env.withFuel n) s dt) s = .ok s' := by
  refine C68_steps h hd ⟨hn, fun k l hl g hg p hp l' hl' => ?_⟩ (goodNet_straight h hn hs) dts
  obtain ⟨a, u, hu, h1⟩ := hs p.dst l' hl'
  exact refineEnds_straight hu h1

end TrafficSim
