import Verif.Lemmas.Rel
import Verif.Props.Math
import Verif.Props.Projection
import Verif.Model.Simulation
import Mathlib.Analysis.SpecialFunctions.Sqrt
import Mathlib.Tactic.LinearCombination
import Mathlib.Analysis.Calculus.Deriv.Inv

/-! # Lane changes and headings: C45, C46 -/

namespace TrafficSim

/-! ## C45 -/

/-- The unit vector in the direction of `v`. -/
noncomputable def unit (v : V2 ℝ) : V2 ℝ :=
  ⟨v.x / Real.sqrt (v.x * v.x + v.y * v.y), v.y / Real.sqrt (v.x * v.x + v.y * v.y)⟩

theorem normSq_pos {v : V2 ℝ} (h : v ≠ ⟨0, 0⟩) : 0 < v.x * v.x + v.y * v.y := by
  rcases lt_or_eq_of_le (add_nonneg (mul_self_nonneg v.x) (mul_self_nonneg v.y)) with h' | h'
  · exact h'
  · exfalso
    apply h
    have h1 : v.x * v.x = 0 := by nlinarith [mul_self_nonneg v.x, mul_self_nonneg v.y]
    have h2 : v.y * v.y = 0 := by nlinarith [mul_self_nonneg v.x, mul_self_nonneg v.y]
    rw [mul_self_eq_zero] at h1 h2
    cases v
    simp only at h1 h2
    rw [h1, h2]

/-- The reported derivative of a normalised vector is its derivative. -/
theorem unit_hasDeriv {v : ℝ → V2 ℝ} {dv : V2 ℝ} {t : ℝ} (h : HasDeriv2 v dv t) (h0 : v t ≠ ⟨0, 0⟩) :
    (normalizeWithDerivative (v t) dv).1 = unit (v t) ∧
    HasDeriv2 (fun t => unit (v t)) (normalizeWithDerivative (v t) dv).2 t := by
  have hp := normSq_pos h0
  refine ⟨rfl, ?_⟩
  have hm : HasDerivAt (fun t => (v t).x * (v t).x + (v t).y * (v t).y)
      (dv.x * (v t).x + (v t).x * dv.x + (dv.y * (v t).y + (v t).y * dv.y)) t :=
    (h.1.mul h.1).add (h.2.mul h.2)
  have hs := hm.sqrt hp.ne'
  have hs0 : Real.sqrt ((v t).x * (v t).x + (v t).y * (v t).y) ≠ 0 := (Real.sqrt_pos.2 hp).ne'
  have hsq := Real.mul_self_sqrt hp.le
  constructor
  · refine (h.1.div hs hs0).congr_deriv ?_
    simp only [normalizeWithDerivative, V2.sdiv, V2.sub, V2.smul, V2.dot, V2.magnitude, V2.magnitude2, fsqrt]
    generalize Real.sqrt ((v t).x * (v t).x + (v t).y * (v t).y) = m at *
    field_simp
    rw [show m ^ 2 = (v t).x * (v t).x + (v t).y * (v t).y by rw [← hsq]; ring]
    ring
  · refine (h.2.div hs hs0).congr_deriv ?_
    simp only [normalizeWithDerivative, V2.sdiv, V2.sub, V2.smul, V2.dot, V2.magnitude, V2.magnitude2, fsqrt]
    generalize Real.sqrt ((v t).x * (v t).x + (v t).y * (v t).y) = m at *
    field_simp
    rw [show m ^ 2 = (v t).x * (v t).x + (v t).y * (v t).y by rw [← hsq]; ring]
    ring

/-- The path of a vehicle with lateral offset `f` from a segment that starts at position `x0`. -/
noncomputable def offsetPath (seg : QuadraticBezier2d ℝ) (x0 : ℝ) (f : ℝ → ℝ) (x : ℝ) : V2 ℝ :=
  (seg.sample (x - x0)).add (V2.smul (f x) (rot90 (unit (seg.sampleDt (x - x0)))))

/-- What a successful `doLaneChange` does. -/
theorem doLaneChange_ok {F} [Flt F] [Env] {s s' : Sim F} {id link : Key} {distance : F} {v : Vehicle F}
    (h : s.doLaneChange id link distance = .ok s') (hv : s.vehicles.get? id = some v) :
    ∃ (links : LinkSet F) (pos offset slope : F) (l : Link F) (pf : PathfindingModel) (links' : LinkSet F),
      (links = s.links ∨ ∃ k, v.linkId = some k ∧ links = s.links.modify k fun l => l.removeVehicle id) ∧
      links.get? link = some l ∧
      l.curve.inverseSample v.worldPos v.worldDir = .ok (some (pos, offset, slope)) ∧
      s' = { s with
        links := links'
        vehicles := s.vehicles.modify id fun _ =>
          { v with route := [link], pathfind := pf, entered := 1, pos,
                   laneChange := some { endPos := pos + distance,
                                        offset := CubicFn.fit pos offset slope (pos + distance) 0.0 0.0 },
                   canExit := false } } := by
  unfold Sim.doLaneChange at h
  simp only [M_bind_ok, getVeh_ok] at h
  obtain ⟨v1, hv1, h⟩ := h
  rw [hv] at hv1; cases hv1
  cases hk : v.linkId with
  | none =>
    rw [hk] at h
    simp only [M_bind_ok, getLink_ok, M_pure_ok] at h
    obtain ⟨links, rfl, l1, hl1, r, hr, h⟩ := h
    cases r with
    | none => simp at h
    | some r =>
      obtain ⟨pos, offset, slope⟩ := r
      simp only [M_bind_ok, M_pure_ok] at h
      obtain ⟨v', hv', links', -, rfl⟩ := h
      unfold Vehicle.setLocation at hv'
      simp only [M_bind_ok, M_pure_ok] at hv'
      obtain ⟨pf, -, rfl⟩ := hv'
      exact ⟨_, pos, offset, slope, l1, pf, links', .inl rfl, hl1, hr, rfl⟩
  | some k =>
    rw [hk] at h
    simp only [M_bind_ok, getLink_ok] at h
    obtain ⟨links, hlk, l1, hl1, r, hr, h⟩ := h
    obtain ⟨-, rfl⟩ := updLink_ok.1 hlk
    cases r with
    | none => simp at h
    | some r =>
      obtain ⟨pos, offset, slope⟩ := r
      simp only [M_bind_ok, M_pure_ok] at h
      obtain ⟨v', hv', links', -, rfl⟩ := h
      unfold Vehicle.setLocation at hv'
      simp only [M_bind_ok, M_pure_ok] at hv'
      obtain ⟨pf, -, rfl⟩ := hv'
      exact ⟨_, pos, offset, slope, l1, pf, links', .inr ⟨k, rfl, rfl⟩, hl1, hr, rfl⟩

/-- **C45 (start).**  Starting a lane change of a vehicle onto a link yields a lateral offset `f` as a
function of the position with the following properties.  The offset at the vehicle's new position is the
signed distance of the vehicle from the centre line, measured at right angles to it.  The path that
results has the vehicle's heading at that position.  After the requested distance offset and slope are
zero, and the change ends there.  (The link's curve has one segment per metre, as `Link::new` builds it;
its tangent there is not zero and not at right angles to the heading.) -/
theorem C45_start [Env] {s s' : Sim ℝ} {id link : Key} {distance : ℝ} {v : Vehicle ℝ} {l : Link ℝ}
    (h : s.doLaneChange id link distance = .ok s') (hv : s.vehicles.get? id = some v)
    (hl : s.links.get? link = some l) (hd : distance ≠ 0) (hscale : l.curve.scale = 1) :
    ∃ v' lc, s'.vehicles.get? id = some v' ∧ v'.laneChange = some lc ∧ v'.linkId = some link ∧
      lc.endPos = v'.pos + distance ∧ lc.offset.y lc.endPos = 0 ∧ lc.offset.dy lc.endPos = 0 ∧
      ∃ seg ∈ l.curve.segments, ∃ x0 : ℝ, l.curve.sampleInternal v'.pos = .ok (seg, v'.pos - x0) ∧
        lc.offset.y v'.pos =
          (v.worldPos.sub (seg.sample (v'.pos - x0))).dot (rot90 (unit (seg.sampleDt (v'.pos - x0)))) ∧
        (seg.sampleDt (v'.pos - x0) ≠ ⟨0, 0⟩ → (unit (seg.sampleDt (v'.pos - x0))).dot v.worldDir ≠ 0 →
          ∃ D, HasDeriv2 (offsetPath seg x0 lc.offset.y) D v'.pos ∧ D.perpDot v.worldDir = 0) := by
  obtain ⟨links, pos, offset, slope, l1, pf, links', hlinks, hl1, hr, rfl⟩ := doLaneChange_ok h hv
  have hcurve : l1.curve = l.curve := by
    rcases hlinks with rfl | ⟨k, -, rfl⟩
    · rw [hl] at hl1; cases hl1; rfl
    · rw [SlotMap.get?_modify] at hl1
      split at hl1
      · rename_i e
        subst e
        rw [hl] at hl1
        simp only [Option.map_some, Option.some.injEq] at hl1
        rw [← hl1]; rfl
      · rw [hl] at hl1; cases hl1; rfl
  rw [hcurve] at hr
  · have hne : pos ≠ pos + distance := fun e => hd (by linarith)
    obtain ⟨f1, f2, f3, f4⟩ := C44_fit pos offset slope (pos + distance) 0.0 0.0 hne
    refine ⟨_, _, by rw [SlotMap.get?_modify_self, hv]; rfl, rfl, rfl, rfl, ?_, ?_, ?_⟩
    · rw [f3]; norm_num
    · rw [f4]; norm_num
    · unfold LinkCurve.inverseSample at hr
      simp only [M_bind_ok] at hr
      obtain ⟨q, hq, hr⟩ := hr
      cases q with
      | none => simp at hr
      | some q =>
        simp only [M_bind_ok] at hr
        obtain ⟨⟨seg, t⟩, hseg, hr⟩ := hr
        simp only [M_pure_ok, Option.some.injEq, Prod.mk.injEq] at hr
        obtain ⟨rfl, hoff, hslope⟩ := hr
        have hmem : seg ∈ l.curve.segments ∧ ∃ i : ℕ, t = q - i := by
          unfold LinkCurve.sampleInternal at hseg
          simp only [M_bind_ok] at hseg
          obtain ⟨i, -, hseg⟩ := hseg
          split at hseg
          · rename_i sg hsg
            simp only [M_pure_ok, Prod.mk.injEq] at hseg
            obtain ⟨rfl, rfl⟩ := hseg
            refine ⟨List.mem_of_getElem? hsg, i, ?_⟩
            rw [hscale, mul_one]; rfl
          · simp at hseg
        obtain ⟨hmem, i, rfl⟩ := hmem
        refine ⟨seg, hmem, (i : ℝ), hseg, ?_, fun h0 hdot => ?_⟩
        · rw [f1, ← hoff]; rfl
        · have hq := C42_quadratic seg (q - i)
          obtain ⟨hu, hud⟩ := unit_hasDeriv hq.2 h0
          have hsub : HasDerivAt (fun x : ℝ => x - (i : ℝ)) 1 q := (hasDerivAt_id q).sub_const _
          have hc := C42_cubicFn (CubicFn.fit q offset slope (q + distance) 0.0 0.0) q
          rw [f2] at hc
          have comp : ∀ (f : ℝ → ℝ) (d : ℝ), HasDerivAt f d (q - i) → HasDerivAt (fun x => f (x - i)) d q := by
            intro f d hf
            have := HasDerivAt.comp q hf hsub
            rw [mul_one] at this
            exact this
          have sx := comp _ _ hq.1.1
          have sy := comp _ _ hq.1.2
          have ux := comp _ _ hud.1
          have uy := comp _ _ hud.2
          refine ⟨⟨_, _⟩, ⟨sx.add (hc.mul uy.neg), sy.add (hc.mul ux)⟩, ?_⟩
          set n := normalizeWithDerivative (seg.sampleDt (q - i)) (seg.sampleDt2 (q - i)) with hn
          simp only [f1]
          have hoff' : (v.worldPos.sub (seg.sample (q - i))).dot (rot90 n.1) = offset := hoff
          have hslope' : -(((seg.sampleDt (q - i)).add (V2.smul offset (rot90 n.2))).perpDot v.worldDir) /
              (rot90 n.1).perpDot v.worldDir = slope := by rw [← hoff']; exact hslope
          clear hslope
          rename' hslope' => hslope
          rw [show (unit (seg.sampleDt (q - ↑i))) = n.1 from hu.symm] at hdot ⊢
          simp only [V2.perpDot, V2.add, V2.smul, rot90, V2.dot] at hslope hdot ⊢
          have hd' : -n.1.y * v.worldDir.y - n.1.x * v.worldDir.x ≠ 0 := by
            intro e; apply hdot; linarith
          rw [div_eq_iff hd'] at hslope
          linear_combination -hslope

/-- The lateral offset of a vehicle from the centre of its link at position `x`. -/
noncomputable def lateralOffset (v : Vehicle ℝ) (x : ℝ) : ℝ :=
  match v.laneChange with
  | some lc => if x < lc.endPos then lc.offset.y x else 0
  | none => 0

/-- **C45 (passing from link to link).**  When a vehicle advances to the next link its position is
reduced by the length of the link it leaves, and its lateral offset at every point of the road is what
it was. -/
theorem C45_advance [Env] {v v' : Vehicle ℝ} {links : LinkSet ℝ} (h : v.advance links = .ok (v', true)) :
    ∃ k rest l, v.route = k :: rest ∧ links.get? k = some l ∧ v'.route = rest ∧
      v'.pos = v.pos - l.length ∧ ∀ x, lateralOffset v' (x - l.length) = lateralOffset v x := by
  unfold Vehicle.advance at h
  split at h
  · simp at h
  · rename_i k rest hr
    simp only [M_bind_ok, getLink_ok] at h
    obtain ⟨l, hl, h⟩ := h
    rcases ite_ok.1 h with ⟨-, h⟩ | ⟨-, h⟩
    · refine ⟨k, rest, l, hr, hl, ?_⟩
      have : ∃ pf, v' = { v with
          route := rest, pathfind := pf, entered := max (v.entered - 1) 1, pos := v.pos - l.length
          laneChange := v.laneChange.map fun lc =>
            { endPos := lc.endPos - l.length, offset := lc.offset.translateX l.length } } := by
        have h2 : ∀ pf : PathfindingModel, (do
            if v.entered = 0 then throw .underflow
            let v := { v with
              route := rest, pathfind := pf, entered := max (v.entered - 1) 1, pos := v.pos - l.length
              laneChange := v.laneChange.map fun lc =>
                { endPos := lc.endPos - l.length, offset := lc.offset.translateX l.length } }
            pure (v, true) : M (Vehicle ℝ × Bool)) = .ok (v', true) → v' = { v with
              route := rest, pathfind := pf, entered := max (v.entered - 1) 1, pos := v.pos - l.length
              laneChange := v.laneChange.map fun lc =>
                { endPos := lc.endPos - l.length, offset := lc.offset.translateX l.length } } := by
          intro pf h
          by_cases he : v.entered = 0
          · simp [he] at h
          · rw [if_neg he] at h
            simp only [M_pure_ok, Prod.mk.injEq] at h
            exact h.1.symm
        cases rest with
        | nil => exact ⟨_, h2 _ h⟩
        | cons k' r =>
          simp only [M_bind_ok] at h
          obtain ⟨pf, -, h⟩ := h
          exact ⟨pf, h2 _ (by simpa only [M_bind_ok] using h)⟩
      obtain ⟨pf, rfl⟩ := this
      refine ⟨rfl, rfl, fun x => ?_⟩
      unfold lateralOffset
      cases v.laneChange with
      | none => rfl
      | some lc =>
        simp only [Option.map_some]
        by_cases hx : x < lc.endPos
        · rw [if_pos hx, if_pos (by linarith), (C44_translate _ _ _ 0).1]
          congr 1; ring
        · rw [if_neg hx, if_neg (by linarith)]
    · simp at h

/-! ## C46 -/

theorem normalize_real (a : V2 ℝ) : a.normalize = unit a := by
  simp only [V2.normalize, V2.normalizeTo, V2.smul, unit, V2.magnitude, V2.magnitude2, V2.dot, fsqrt]
  norm_num
  constructor <;> ring

theorem unit_length {a : V2 ℝ} (h : a ≠ ⟨0, 0⟩) :
    (unit a).x * (unit a).x + (unit a).y * (unit a).y = 1 := by
  have hp := normSq_pos h
  have hs := Real.mul_self_sqrt hp.le
  have h0 : Real.sqrt (a.x * a.x + a.y * a.y) ≠ 0 := (Real.sqrt_pos.2 hp).ne'
  simp only [unit]
  rw [div_mul_div_comm, div_mul_div_comm, ← add_div, hs, div_self hp.ne']

theorem unit_zero : unit ⟨0, 0⟩ = ⟨0, 0⟩ := by simp [unit]

/-- Length one, or the zero vector that marks a vehicle whose coordinates have not been set. -/
def UnitOrZero (d : V2 ℝ) : Prop := d.x * d.x + d.y * d.y = 1 ∨ d = ⟨0, 0⟩

theorem unit_unitOrZero (a : V2 ℝ) : UnitOrZero (unit a) := by
  by_cases h : a = ⟨0, 0⟩
  · right; rw [h, unit_zero]
  · left; exact unit_length h

/-- The reference point at the rear of a vehicle: `wheelBase` behind its position. -/
noncomputable def rearPoint (pos dir : V2 ℝ) (wheelBase : ℝ) : V2 ℝ :=
  ⟨pos.x - wheelBase * dir.x, pos.y - wheelBase * dir.y⟩

theorem calcDirection_real {pos dir newPos : V2 ℝ} {r : ℝ} (hd : UnitOrZero dir) :
    calcDirection pos dir newPos r = unit (newPos.sub (rearPoint pos dir r)) := by
  have e : ∀ h : ℝ, (pos.sub (V2.smul r dir)).add (V2.smul h dir) = rearPoint pos dir r ∨ ¬ (h = 0 ∨ dir = ⟨0, 0⟩) := by
    intro h
    by_cases hh : h = 0 ∨ dir = ⟨0, 0⟩
    · left
      rcases hh with rfl | rfl
      · simp [rearPoint, V2.sub, V2.smul, V2.add]
      · simp [rearPoint, V2.sub, V2.smul, V2.add]
    · exact .inr hh
  unfold calcDirection
  simp only
  rw [normalize_real]
  congr 2
  refine (e _).resolve_right (not_not.2 ?_)
  rcases hd with hd | hd
  · left
    have : (pos.sub (pos.sub (V2.smul r dir))).magnitude2 = r * r := by
      simp only [V2.magnitude2, V2.dot, V2.sub, V2.smul]
      linear_combination (r * r) * hd
    rw [this]
    simp [sq]
  · exact .inr hd

/-- **C46.**  Updating the coordinates of a vehicle whose heading is of length one (or not set yet)
yields a heading that points from the rear reference point, `wheelBase` behind the previous position
(for a new vehicle: behind its position along the link), to the new position; it has length one whenever
the two differ, and in any case the heading is again of length one or zero. -/
theorem C46_heading {v v' : Vehicle ℝ} {links : LinkSet ℝ} (h : v.updateCoords links = .ok v')
    (hd : UnitOrZero v.worldDir) :
    UnitOrZero v'.worldDir ∧
    (v.worldDir ≠ ⟨0, 0⟩ →
      v'.worldDir = unit (v'.worldPos.sub (rearPoint v.worldPos v.worldDir v.wheelBase)) ∧
      (v'.worldPos ≠ rearPoint v.worldPos v.worldDir v.wheelBase →
        v'.worldDir.x * v'.worldDir.x + v'.worldDir.y * v'.worldDir.y = 1)) ∧
    (v.worldDir = ⟨0, 0⟩ → ∃ k l smp, v.linkId = some k ∧ links.get? k = some l ∧
      l.curve.sampleCentre v.pos = .ok smp ∧ (0 ≤ v.wheelBase → smp.tan ≠ ⟨0, 0⟩ → v'.worldDir = smp.tan ∧
        v'.worldDir.x * v'.worldDir.x + v'.worldDir.y * v'.worldDir.y = 1)) := by
  unfold Vehicle.updateCoords at h
  split at h
  · simp at h
  rename_i k rest hr
  simp only [M_bind_ok, getLink_ok] at h
  obtain ⟨l, hl, smp, hs, h⟩ := h
  simp only [M_pure_ok] at h
  have htan : smp.tan = unit smp.tan ∧ UnitOrZero smp.tan := by
    unfold LinkCurve.sampleCentre at hs
    simp only [M_bind_ok, M_pure_ok] at hs
    obtain ⟨⟨seg, t⟩, -, hs⟩ := hs
    rw [← hs]
    simp only [normalize_real]
    refine ⟨?_, unit_unitOrZero _⟩
    by_cases h0 : seg.sampleDt t = ⟨0, 0⟩
    · rw [h0, unit_zero, unit_zero]
    · have := unit_length h0
      generalize unit (seg.sampleDt t) = u at *
      simp only [unit, this, Real.sqrt_one, div_one]
  have hbeq : v.worldDir.beq V2.zero = true ↔ v.worldDir = ⟨0, 0⟩ := by
    have e1 : ((0.0 : ℝ)) = 0 := by norm_num
    simp only [V2.beq, V2.zero, Bool.and_eq_true]
    show (decide (v.worldDir.x = 0.0) = true ∧ decide (v.worldDir.y = 0.0) = true) ↔ _
    rw [e1, decide_eq_true_eq, decide_eq_true_eq]
    cases v.worldDir
    simp
  subst h
  by_cases h0 : v.worldDir = ⟨0, 0⟩
  · simp only [hbeq.2 h0, if_true]
    rw [calcDirection_real htan.2]
    refine ⟨unit_unitOrZero _, fun hne => absurd h0 hne, fun _ =>
      ⟨k, l, smp, by simp [Vehicle.linkId, hr], hl, hs, fun hw ht => ?_⟩⟩
    have key : ∀ p : V2 ℝ, unit (p.sub (rearPoint (p.sub smp.tan) smp.tan v.wheelBase)) = smp.tan := by
      intro p
      have e : p.sub (rearPoint (p.sub smp.tan) smp.tan v.wheelBase) = V2.smul (1 + v.wheelBase) smp.tan := by
        simp only [rearPoint, V2.sub, V2.smul, V2.mk.injEq]
        constructor <;> ring
      rw [e]
      have hu := unit_length ht
      rw [← htan.1] at hu
      have hpos : (0:ℝ) < 1 + v.wheelBase := by linarith
      have hq : (V2.smul (1 + v.wheelBase) smp.tan).x * (V2.smul (1 + v.wheelBase) smp.tan).x +
          (V2.smul (1 + v.wheelBase) smp.tan).y * (V2.smul (1 + v.wheelBase) smp.tan).y
          = (1 + v.wheelBase) * (1 + v.wheelBase) := by
        simp only [V2.smul]; linear_combination ((1 + v.wheelBase) * (1 + v.wheelBase)) * hu
      simp only [unit]
      rw [hq, Real.sqrt_mul_self hpos.le]
      simp only [V2.smul]
      rw [mul_div_cancel_left₀ _ hpos.ne', mul_div_cancel_left₀ _ hpos.ne']
    rw [key]
    refine ⟨rfl, ?_⟩
    have := unit_length ht
    rw [← htan.1] at this
    exact this
  · have hf : v.worldDir.beq V2.zero = false := by
      rw [← Bool.not_eq_true]; exact fun e => h0 (hbeq.1 e)
    simp only [hf, Bool.false_eq_true, if_false]
    rw [calcDirection_real hd]
    refine ⟨unit_unitOrZero _, fun _ => ⟨rfl, fun hne => unit_length fun e => hne ?_⟩, fun e => absurd e h0⟩
    simp only [V2.sub, V2.mk.injEq] at e
    have e1 := sub_eq_zero.1 e.1
    have e2 := sub_eq_zero.1 e.2
    rw [show ∀ p q : V2 ℝ, p = q ↔ p.x = q.x ∧ p.y = q.y from fun p q => by cases p; cases q; simp]
    exact ⟨e1, e2⟩

/-! ## A concrete road and vehicle for which the hypotheses of C45 and C46 hold -/

namespace SteeringDemo

/-- One metre straight ahead. -/
noncomputable def seg : QuadraticBezier2d ℝ := ⟨⟨0, 0⟩, ⟨1 / 2, 0⟩, ⟨1, 0⟩⟩

noncomputable def curve : LinkCurve ℝ := ⟨1, 1, [seg]⟩

noncomputable def road : Link ℝ :=
  { id := ⟨0, 1⟩, group := none, curve, linksIn := [], linksOut := [], laneChanges := [], conflicts := [],
    lastConflict := 0, speedLimit := 10, cost := 0, vehicles := [], control := .open_, active := false }

noncomputable def roads : LinkSet ℝ := ⟨[⟨1, some road⟩], []⟩

/-- Three metres to the left of the road, heading along it and slightly towards it. -/
noncomputable def car : Vehicle ℝ :=
  { Vehicle.new (F := ℝ) ⟨0, 1⟩ ⟨2, 5, 2, 2, 2, 2⟩ with
    pos := 2, route := [⟨0, 1⟩], entered := 1, worldPos := ⟨1 / 2, 3⟩, worldDir := ⟨4 / 5, -3 / 5⟩ }

noncomputable def sim : Sim ℝ :=
  { Sim.new with links := roads, vehicles := ⟨[⟨1, some car⟩], []⟩ }

theorem seg_sample (t : ℝ) : seg.sample t = ⟨t, 0⟩ := by
  simp only [seg, QuadraticBezier2d.sample, V2.add, V2.smul, V2.mk.injEq]
  norm_num
  ring

theorem seg_sampleDt (t : ℝ) : seg.sampleDt t = ⟨1, 0⟩ := by
  simp only [seg, QuadraticBezier2d.sampleDt, V2.add, V2.smul, V2.mk.injEq]
  norm_num
  ring

theorem sampleInternal (x : ℝ) : curve.sampleInternal x = .ok (seg, x) := by
  simp [LinkCurve.sampleInternal, LinkCurve.segmentIndex, curve, bind, Except.bind, pure, Except.pure]
  exact Nat.cast_zero

theorem project (P : V2 ℝ) {tol : ℝ} (htol : 0 < tol) (t0 : Option ℝ) :
    projectPointOntoCurve curve.toCurve P tol t0 = .ok (some P.x) := by
  have hsamp : ∀ t, curve.toCurve.sample t = ⟨t, 0⟩ := by
    intro t
    have : curve.toCurve.sample t = seg.sample (t * 1 - ((0 : ℕ) : ℝ)) := by
      simp [LinkCurve.toCurve, LinkCurve.segAt, curve]; congr 1; rw [show (Flt.ofNat 0 : ℝ) = 0 from Nat.cast_zero, sub_zero]
    rw [this, seg_sample]; simp
  have hdt : ∀ t, curve.toCurve.sampleDt t = ⟨1, 0⟩ := by
    intro t
    have : curve.toCurve.sampleDt t = seg.sampleDt (t * 1 - ((0 : ℕ) : ℝ)) := by
      simp [LinkCurve.toCurve, LinkCurve.segAt, curve]; congr 1; rw [show (Flt.ofNat 0 : ℝ) = 0 from Nat.cast_zero, sub_zero]
    rw [this, seg_sampleDt]
  have hstep : ∀ n t, projectLoop curve.toCurve P tol (n + 1) t (curve.toCurve.sample t) (curve.toCurve.sampleDt t) =
      if |P.x - t| < tol ∨ ¬ (curve.toCurve.bounds.contains P.x = true) then some P.x
      else projectLoop curve.toCurve P tol n P.x (curve.toCurve.sample P.x) (curve.toCurve.sampleDt P.x) := by
    intro n t
    have e : (curve.toCurve.sampleDt t).dot (P.sub (curve.toCurve.sample t)) / (curve.toCurve.sampleDt t).magnitude
        = P.x - t := by
      rw [hsamp, hdt]
      simp [V2.dot, V2.sub, V2.magnitude, V2.magnitude2, fsqrt]
    rw [projectLoop]
    simp only [e, add_sub_cancel]
    rfl
  have hsome : ∀ t, projectPointOntoCurve curve.toCurve P tol (some t) = .ok (some P.x) := by
    intro t
    simp only [projectPointOntoCurve, bind, Except.bind, pure, Except.pure]
    rw [hstep 63, hstep 62]
    split
    · rfl
    · rw [if_pos]
      left; simpa using htol
  cases t0 with
  | some t => exact hsome t
  | none =>
    obtain ⟨i, -, -, h⟩ := C43_initial curve.toCurve P tol
    rw [h, hsome]

/-- The lane change of `C45_start` succeeds for this road and car. -/
example [Env] : ∃ s', sim.doLaneChange ⟨0, 1⟩ ⟨0, 1⟩ 10 = .ok s' := by
  have h : ∃ r, curve.inverseSample car.worldPos car.worldDir = .ok (some r) := by
    unfold LinkCurve.inverseSample
    simp only [project _ (show (0 : ℝ) < 0.001 by norm_num), sampleInternal, bind, Except.bind, pure, Except.pure]
    exact ⟨_, rfl⟩
  obtain ⟨⟨pos, offset, slope⟩, h⟩ := h
  have h1 : getVeh sim.vehicles ⟨0, 1⟩ = .ok car := rfl
  have h2 : updLink sim.links ⟨0, 1⟩ (fun l => l.removeVehicle ⟨0, 1⟩) = .ok roads := rfl
  have h3 : getLink roads ⟨0, 1⟩ = .ok road := rfl
  have h4 : ∀ lc, car.setLocation ⟨0, 1⟩ pos lc roads = .ok { car with
      pathfind := ⟨⟨0, 1⟩, Key.null, [], []⟩, pos, laneChange := lc, canExit := false } := by
    intro lc
    have hp : car.pathfind.setOrigin ⟨0, 1⟩ roads = .ok ⟨⟨0, 1⟩, Key.null, [], []⟩ := by
      have : ∀ (k : Key) (d : ℝ), makePathsInner roads [] Key.null 7 [] k d = .ok none := by
        intro k d
        unfold makePathsInner
        rfl
      simp only [PathfindingModel.setOrigin, PathfindingModel.makePaths, car, Vehicle.new, mget,
        PathfindingModel.default, PathfindingModel.reroute, bind, Except.bind, pure, Except.pure]
      simp [Key.isNull, Key.null, h3] at this ⊢
      simp [this, road]
      rfl
    unfold Vehicle.setLocation
    rw [hp]
    rfl
  have h5 : car.linkId = some ⟨0, 1⟩ := rfl
  have h6 : road.curve.inverseSample car.worldPos car.worldDir = .ok (some (pos, offset, slope)) := h
  unfold Sim.doLaneChange
  simp only [h1, h5, h2, h3, h4, h6, bind, Except.bind]
  exact ⟨_, rfl⟩

/-- `C46_heading` applies to this road and car. -/
example : (∃ v', car.updateCoords roads = .ok v') ∧ UnitOrZero car.worldDir ∧ car.worldDir ≠ ⟨0, 0⟩ := by
  refine ⟨?_, .inl (by norm_num [car]), by simp [car]⟩
  have h3 : getLink roads ⟨0, 1⟩ = .ok road := rfl
  have h4 : ∀ x, road.curve.sampleInternal x = .ok (seg, x) := sampleInternal
  unfold Vehicle.updateCoords
  simp only [car, h3, h4, LinkCurve.sampleCentre, bind, Except.bind, pure, Except.pure]
  exact ⟨_, rfl⟩

theorem advance_last {F} [Flt F] [Env] {v : Vehicle F} {links : LinkSet F} {k : Key} {l : Link F}
    (hr : v.route = [k]) (hl : getLink links k = .ok l) (he : v.entered ≠ 0) (hp : l.length < v.pos) :
    ∃ v', v.advance links = .ok (v', true) := by
  unfold Vehicle.advance
  simp only [hr, hl, bind, Except.bind, pure, Except.pure, if_pos hp, if_neg he]
  exact ⟨_, rfl⟩

/-- `C45_advance` applies: the car is past the end of the road. -/
example [Env] : ∃ v', car.advance roads = .ok (v', true) :=
  advance_last (l := road) rfl rfl (by simp [car])
    (show road.length < (2 : ℝ) by norm_num [road, Link.length, curve])

end SteeringDemo

end TrafficSim
