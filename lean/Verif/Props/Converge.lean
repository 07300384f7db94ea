import Verif.Lemmas.Curve
import Verif.Lemmas.Rel
import Verif.Props.Steering
import Mathlib.Tactic.Linarith
import Mathlib.Tactic.NormNum

/-! # Converging links: C54 -/

namespace TrafficSim

theorem scan_range {own other : LinkCurve ℝ} : ∀ {fuel : Nat} {pos : ℝ} {op : Option ℝ} {r r' : Option (ℝ × ℝ)},
    ConflictPointLink.scan own other fuel pos op r = .ok r' → 0 ≤ pos →
    (∀ p, r = some p → -0.25 ≤ p.1 ∧ p.1 < p.2 ∧ p.2 ≤ pos ∧ p.2 < own.length + 0.25) →
    ∀ p, r' = some p → -0.25 ≤ p.1 ∧ p.1 < p.2 ∧ p.2 < own.length + 0.25
  | 0, _, _, _, _, h, _, _ => by simp [ConflictPointLink.scan] at h
  | fuel + 1, pos, op, r, r', h, hpos, hr => by
    unfold ConflictPointLink.scan at h
    rcases ite_ok.1 h with ⟨hlt, h⟩ | ⟨-, h⟩
    · simp only [M_bind_ok] at h
      obtain ⟨os, -, op', -, h⟩ := h
      have key : ∀ r1, ConflictPointLink.scan own other fuel (pos + 0.25) op' r1 = .ok r' →
          (∀ p, r1 = some p → -0.25 ≤ p.1 ∧ p.1 < p.2 ∧ p.2 ≤ pos + 0.25 ∧ p.2 < own.length + 0.25) →
          ∀ p, r' = some p → -0.25 ≤ p.1 ∧ p.1 < p.2 ∧ p.2 < own.length + 0.25 :=
        fun r1 h1 h2 => scan_range h1 (by norm_num; linarith) h2
      have hold : ∀ p, r = some p → -0.25 ≤ p.1 ∧ p.1 < p.2 ∧ p.2 ≤ pos + 0.25 ∧ p.2 < own.length + 0.25 := by
        intro p hp
        obtain ⟨a, b, c, d⟩ := hr p hp
        exact ⟨a, b, by norm_num; linarith, d⟩
      cases op' with
      | none =>
        exact key r (by simpa using h) hold
      | some q =>
        simp only [M_bind_ok] at h
        obtain ⟨ot, -, h⟩ := h
        split at h
        · simp only [pure_bind] at h
          refine key _ h ?_
          intro p hp
          cases r with
          | none =>
            simp only [Option.some.injEq] at hp
            subst hp
            have hlt' : pos < own.length := hlt
            refine ⟨?_, ?_, le_refl _, ?_⟩
            · show -0.25 ≤ pos - 0.25
              linarith
            · show pos - 0.25 < pos + 0.25
              norm_num; linarith
            · show pos + 0.25 < own.length + 0.25
              linarith
          | some q =>
            simp only [Option.some.injEq] at hp
            subst hp
            have hlt' : pos < own.length := hlt
            obtain ⟨a, b, c, d⟩ := hr q rfl
            refine ⟨a, ?_, le_refl _, ?_⟩
            · show q.1 < pos + 0.25
              norm_num; linarith
            · show pos + 0.25 < own.length + 0.25
              linarith
        · simp only [pure_bind] at h
          exact key r h hold
    · simp only [M_pure_ok] at h
      subst h
      intro p hp
      obtain ⟨a, b, c, d⟩ := hr p hp
      exact ⟨a, b, d⟩

/-- The part of a link of the given length that a conflict region may cover. -/
structure InRange (length mn mx : ℝ) : Prop where
  lo : -0.25 ≤ mn
  lt : mn < mx
  hi : mx < length + 0.25

theorem ConflictPointLink.new_ok [Env] {l o : Link ℝ} {c : ConflictPointLink ℝ}
    (h : ConflictPointLink.new l o = .ok (some c)) : c.linkId = l.id ∧ InRange l.length c.minPos c.maxPos := by
  unfold ConflictPointLink.new at h
  simp only [M_bind_ok] at h
  obtain ⟨r, hr, h⟩ := h
  cases r with
  | none => simp at h
  | some p =>
    simp only [M_pure_ok, Option.some.injEq] at h
    subst h
    obtain ⟨h1, h2, h3⟩ := scan_range hr (by norm_num) (by simp) p rfl
    exact ⟨rfl, h1, h2, h3⟩

/-- **C54.**  Declaring that two links converge either changes nothing, or it adds one conflict to each of
the two links and to no other.  Each names the other link; there are one range on each link such that the
conflict of `a` refers to the range of `b` and ends at the end of its own range, and vice versa; and the
ranges lie on the links up to 0.25 m.  (The links know their own keys: `SimInv`.) -/
theorem C54_convergence [Env] {s s' : Sim ℝ} {a b : Key} (h : s.addLinkConvergance a b = .ok s')
    (hid : ∀ k l, s.links.get? k = some l → l.id = k) :
    s' = s ∨
    ∃ (la lb : Link ℝ) (aMin aMax bMin bMax : ℝ) (same : Bool), a ≠ b ∧ s.links.get? a = some la ∧ s.links.get? b = some lb ∧
      InRange la.length aMin aMax ∧ InRange lb.length bMin bMax ∧
      s'.links.get? a = some { la with conflicts := la.conflicts ++ [⟨b, aMax, bMin, bMax⟩] } ∧
      s'.links.get? b = some { lb with conflicts := lb.conflicts ++ [⟨a, bMax, aMin, aMax⟩] } ∧
      (∀ k, k ≠ a → k ≠ b → s'.links.get? k = s.links.get? k) ∧
      s' = { s with links := s'.links, conflicts := s.conflicts ++ [⟨⟨a, aMin, aMax⟩, ⟨b, bMin, bMax⟩, same⟩] } := by
  unfold Sim.addLinkConvergance at h
  rcases ite_ok.1 h with ⟨-, h⟩ | ⟨hab, h⟩
  · simp only [M_pure_ok] at h
    exact .inl h.symm
  split at h
  · rename_i la lb ha hb
    simp only [M_bind_ok] at h
    obtain ⟨c, hc, h⟩ := h
    cases c with
    | none =>
      simp only [M_pure_ok] at h
      exact .inl h.symm
    | some c =>
      right
      simp only [M_bind_ok, M_pure_ok] at h
      obtain ⟨links, hlk, rfl⟩ := h
      unfold ConflictPoint.new at hc
      simp only [M_bind_ok] at hc
      obtain ⟨ca, hca, hc⟩ := hc
      cases ca with
      | none => simp at hc
      | some ca =>
        simp only [M_bind_ok] at hc
        obtain ⟨cb, hcb, hc⟩ := hc
        cases cb with
        | none => simp at hc
        | some cb =>
          simp only [M_bind_ok, M_pure_ok, Option.some.injEq] at hc
          obtain ⟨ta, -, tb, -, rfl⟩ := hc
          obtain ⟨i1, r1⟩ := ConflictPointLink.new_ok hca
          obtain ⟨i2, r2⟩ := ConflictPointLink.new_ok hcb
          rw [hid a la ha] at i1
          rw [hid b lb hb] at i2
          obtain ⟨ka, mna, mxa⟩ := ca
          obtain ⟨kb, mnb, mxb⟩ := cb
          simp only at i1 i2 r1 r2
          subst i1 i2
          simp only [ConflictPoint.linkConflicts, List.foldlM_cons, List.foldlM_nil, M_bind_ok, M_pure_ok] at hlk
          obtain ⟨l1, h1, l2, h2, rfl⟩ := hlk
          obtain ⟨-, rfl⟩ := updLink_ok.1 h1
          obtain ⟨-, rfl⟩ := updLink_ok.1 h2
          refine ⟨la, lb, mna, mxa, mnb, mxb, _, hab, ha, hb, r1, r2, ?_, ?_, ?_, rfl⟩
          · rw [SlotMap.get?_modify_ne _ _ hab, SlotMap.get?_modify_self, ha]; rfl
          · rw [SlotMap.get?_modify_self, SlotMap.get?_modify_ne _ _ (Ne.symm hab), hb]; rfl
          · intro k h1 h2
            rw [SlotMap.get?_modify_ne _ _ h2, SlotMap.get?_modify_ne _ _ h1]
  · simp only [M_pure_ok] at h
    exact .inl h.symm

/-! ### Two roads that converge -/

namespace ConvergeDemo
open SteeringDemo

@[instance_reducible] def env : Env := ⟨5, fun _ _ _ => .ok none⟩
attribute [local instance] env

/-- Two links with the same straight centre line. -/
noncomputable def sim : Sim ℝ :=
  { Sim.new with links := ⟨[⟨1, some road⟩, ⟨1, some { road with id := ⟨1, 1⟩ }⟩], []⟩ }

theorem sampleCentre (x : ℝ) : curve.sampleCentre x = .ok ⟨⟨x, 0⟩, ⟨1, 0⟩⟩ := by
  unfold LinkCurve.sampleCentre
  simp only [sampleInternal, bind, Except.bind, pure, Except.pure, seg_sample, seg_sampleDt, normalize_real, unit]
  simp

theorem close (x : ℝ) : V2.distance (⟨x, 0⟩ : V2 ℝ) ⟨x, 0⟩ - linkRadius * fabs (V2.dot (⟨1, 0⟩ : V2 ℝ) ⟨1, 0⟩) < linkRadius := by
  have : V2.distance (⟨x, 0⟩ : V2 ℝ) ⟨x, 0⟩ = 0 := by
    simp [V2.distance, V2.magnitude, V2.magnitude2, V2.dot, V2.sub, fsqrt]
  rw [this]
  simp only [linkRadius, V2.dot, fabs]
  norm_num

theorem scan_step {n : Nat} {x : ℝ} {op : Option ℝ} {r : Option (ℝ × ℝ)} (hx : x < 1) :
    ConflictPointLink.scan curve curve (n + 1) x op r =
      ConflictPointLink.scan curve curve n (x + 0.25) (some x)
        (some (match r with
          | none => (x - 0.25, x + 0.25)
          | some (mn, _) => (mn, x + 0.25))) := by
  conv_lhs => unfold ConflictPointLink.scan
  have hlen : x < curve.length := hx
  rw [if_pos hlen]
  simp only [sampleCentre, bind, Except.bind, project _ (show (0 : ℝ) < 0.1 by norm_num)]
  rw [if_pos (close x)]
  cases r <;> rfl

theorem scan_end {n : Nat} {x : ℝ} {op : Option ℝ} {r : Option (ℝ × ℝ)} (hx : ¬ x < 1) :
    ConflictPointLink.scan curve curve (n + 1) x op r = .ok r := by
  unfold ConflictPointLink.scan
  have hlen : ¬ x < curve.length := hx
  rw [if_neg hlen]; rfl

theorem new_ok (i j : Key) : ∃ c : ConflictPointLink ℝ,
    ConflictPointLink.new { road with id := i } { road with id := j } = .ok (some c) ∧ c.linkId = i := by
  have h : ∃ p, ConflictPointLink.scan curve curve 5 0.0 none none = .ok (some p) := by
    rw [scan_step (by norm_num), scan_step (by norm_num), scan_step (by norm_num), scan_step (by norm_num),
      scan_end (by norm_num)]
    exact ⟨_, rfl⟩
  obtain ⟨p, hp⟩ := h
  unfold ConflictPointLink.new
  have : ConflictPointLink.scan road.curve road.curve Env.fuel 0.0 none none = .ok (some p) := hp
  simp only [this, bind, Except.bind]
  exact ⟨_, rfl, rfl⟩

/-- The hypotheses of `C54_convergence` hold, with a conflict added. -/
example : ∃ s', sim.addLinkConvergance ⟨0, 1⟩ ⟨1, 1⟩ = .ok s' ∧ s'.conflicts.length = 1 := by
  obtain ⟨c1, h1, i1⟩ := new_ok ⟨0, 1⟩ ⟨1, 1⟩
  obtain ⟨c2, h2, i2⟩ := new_ok ⟨1, 1⟩ ⟨0, 1⟩
  have e : road = { road with id := ⟨0, 1⟩ } := rfl
  have ht : ∀ i c, ∃ t, ConflictPoint.tangentOf { road with id := i } c = .ok t := by
    intro i c
    unfold ConflictPoint.tangentOf
    have : ∀ x, ({ road with id := i } : Link ℝ).curve.sampleCentre x = .ok ⟨⟨x, 0⟩, ⟨1, 0⟩⟩ := sampleCentre
    simp only [this, bind, Except.bind]
    exact ⟨_, rfl⟩
  obtain ⟨t1, ht1⟩ := ht ⟨0, 1⟩ c1
  obtain ⟨t2, ht2⟩ := ht ⟨1, 1⟩ c2
  have hc : ∃ c, ConflictPoint.new { road with id := ⟨0, 1⟩ } { road with id := ⟨1, 1⟩ } = .ok (some c) ∧
      c.link0.linkId = ⟨0, 1⟩ ∧ c.link1.linkId = ⟨1, 1⟩ := by
    unfold ConflictPoint.new
    simp only [h1, h2, ht1, ht2, bind, Except.bind]
    exact ⟨_, rfl, i1, i2⟩
  obtain ⟨c, hc, j1, j2⟩ := hc
  unfold Sim.addLinkConvergance
  rw [if_neg (by decide)]
  have g1 : sim.links.get? ⟨0, 1⟩ = some { road with id := ⟨0, 1⟩ } := rfl
  have g2 : sim.links.get? ⟨1, 1⟩ = some { road with id := ⟨1, 1⟩ } := rfl
  simp only [g1, g2, hc, bind, Except.bind, ConflictPoint.linkConflicts, j1, j2, List.foldlM_cons, List.foldlM_nil]
  exact ⟨_, rfl, rfl⟩

end ConvergeDemo

end TrafficSim
