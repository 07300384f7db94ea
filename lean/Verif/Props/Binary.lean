import Verif.Lemmas.Binary64
import Verif.Lemmas.Town
import Verif.Props.Kinematics

/-! # C13, C20, C21: speeds and positions in reachable simulations, in binary64

The theorems of `Verif.Props.Kinematics` about exact arithmetic, with the rounding, the infinities and the NaN of `f64`. -/

namespace TrafficSim

open B64

section
variable {strict : Prop} {s s' : Sim Float} {dt : Float}

theorem fmax_cases (x y : Float) : (fmax x y = y ∧ (x < y ∨ x.isNaN = true)) ∨ (fmax x y = x ∧ ¬ x < y ∧ x.isNaN = false) := by
  simp only [fmax]
  split
  · next h => exact .inl ⟨rfl, h⟩
  · next h =>
    rw [not_or, Bool.not_eq_true] at h
    exact .inr ⟨rfl, h⟩

/-- `f64::max` with zero gives a number that is not negative. -/
theorem fmax_zero (x : Float) : (0.0 : Float) ≤ fmax x 0.0 := by
  simp only [fmax]
  split
  · decide +kernel
  · next h =>
    rw [not_or, Bool.not_eq_true] at h
    exact nonneg_iff.2 ⟨h.2, le_of_not_gt fun hlt => h.1 (lt_zero_iff.2 ⟨h.2, hlt⟩)⟩

/-- **C20** (speed, binary64) Every speed in a reachable simulation is a number, not below zero. -/
theorem C20_number_float [Env] [LawfulDijkstra] (h : Reach strict s) {k : Key} {v : Vehicle Float}
    (hv : s.getVehicle k = .ok v) : (0.0 : Float) ≤ v.vel := by
  refine Reach.kinematics (fun vel _ => (0.0 : Float) ≤ vel) ?_ ?_ ?_ h k v (getVeh_ok.1 hv)
  · intro _; decide +kernel
  · intro _ _ _ h; exact h
  · intro vel m a dt _ _
    exact fmax_zero _

theorem not_neg {x : Float} (h : (0.0 : Float) ≤ x) : ¬ x < 0.0 := by
  intro hlt
  exact absurd (lt_zero_iff.1 hlt).2 (not_lt_of_ge (nonneg_iff.1 h).2)

/-- The distance that a vehicle covers in a step is not negative. -/
theorem dist_not_neg {u u' : Float} (h : (0.0 : Float) ≤ u) (h' : (0.0 : Float) ≤ u') (hdt : ¬ dt < 0.0) :
    ¬ 0.5 * (u + u') * dt < 0.0 :=
  B64.mul_nonneg (B64.mul_nonneg (by decide +kernel) (not_neg (B64.add_nonneg h h'))) hdt

/-- A difference of numbers in order is not negative. -/
theorem sub_pos_float {x y : Float} (h : y < x) : (0.0 : Float) ≤ x - y := by
  obtain ⟨hy, hx, hlt⟩ := lt_iff.1 h
  have hr := sub_rounding hx hy (.inr (ne_top_of_lt hlt)) (.inl (ne_bot_of_gt hlt))
  refine nonneg_iff.2 ⟨hr.num, ?_⟩
  rw [← val_zero]
  exact hr.below 0.0 (by decide +kernel) (by rw [val_zero]; exact EReal.sub_nonneg (.inr (ne_top_of_lt hlt)) (.inl (ne_bot_of_gt hlt)) |>.2 hlt.le)

/-- **C20** (no reversing, binary64) In floating point arithmetic, too, a vehicle that does not change lanes either stays on its
link and does not move backwards, or passes the end of its link, to a position on the next link that is not negative.  The time
step may be any number that is not negative, and NaN. -/
theorem C20_forward_float [Env] [LawfulDijkstra] (h : Reach strict s) (hst : s.step dt = .ok s') (hdt : ¬ dt < 0.0)
    {k : Key} {v v1 v' : Vehicle Float} {s1 : Sim Float} (hv : s.getVehicle k = .ok v) (hv' : s'.getVehicle k = .ok v')
    (hlanes : s.calculateLaneChanges = .ok s1) (hv1 : s1.getVehicle k = .ok v1) (hlane : v1.linkId = v.linkId) :
    (v'.linkId = v.linkId ∧ ¬ v'.pos < v.pos) ∨
    ∃ a l d, v.linkId = some a ∧ s.getLinkRef a = .ok l ∧ ¬ d < 0.0 ∧ l.length < v.pos + d ∧ v'.pos = v.pos + d - l.length ∧
      (0.0 : Float) ≤ v'.pos := by
  have n0 := C20_number_float h hv
  have n1 := C20_number_float (.exec (.step dt) h trivial hst) hv'
  obtain ⟨s1', s2, s3, s4, s5, s6, hr⟩ := (step_spec h.inv dt).ok hst
  rw [hr.run1] at hlanes; cases hlanes
  obtain ⟨v1', v2, v4, ht⟩ := hr.trace (getVeh_ok.1 hv)
  have g1 := ht.get1
  rw [getVeh_ok.1 hv1] at g1; cases g1
  have hd : ¬ 0.5 * (v.vel + v'.vel) * dt < 0.0 := dist_not_neg n0 n1 hdt
  rcases ht.pos (getVeh_ok.1 hv') hlane with ⟨e1, e2, -⟩ | ⟨a, b, l, ea, eb, hl, hlt, e⟩
  · exact .inl ⟨e1, by rw [e2]; exact not_add_lt hd⟩
  · obtain ⟨l0, h0, hfr⟩ := hr.frame4.bwd hl
    have : l.length = l0.length := by unfold Link.length; rw [hfr.curve]
    rw [this] at hlt e
    exact .inr ⟨a, l0, _, ea, getLink_ok.2 h0, hd, hlt, e, by rw [e]; exact sub_pos_float hlt⟩

/-! ## C21 -/

theorem finite_iff {x : Float} : x.isFinite = true ↔ x.isNaN = false ∧ val x ≠ ⊤ ∧ val x ≠ ⊥ := by
  have h : x.isFinite = x.toModel.unpack.isFinite := rfl
  rw [h, isNaN_iff]
  unfold val
  generalize x.toModel.unpack = u
  rcases u with (_ | _) | _ | s | ⟨(_ | _), m, e, hm⟩ <;>
    simp [Float.Model.UnpackedFloat.isFinite, Float.Model.UnpackedFloat.isNaN, uval]

/-- The lesser of two numbers. -/
theorem fmin_le {x y : Float} {M : Float} (h : x ≤ M) : fmin x y ≤ M := by
  obtain ⟨hx, hM, hle⟩ := le_iff.1 h
  simp only [fmin]
  split
  · next hc =>
    rcases hc with hc | hc
    · obtain ⟨hy, -, hlt⟩ := lt_iff.1 hc
      exact le_iff.2 ⟨hy, hM, hlt.le.trans hle⟩
    · rw [hx] at hc; cases hc
  · exact h

theorem foldl_fmin_le (as : List Float) {x M : Float} (h : x ≤ M) : as.foldl fmin x ≤ M := by
  induction as generalizing x with
  | nil => exact h
  | cons a as ih => exact ih (fmin_le h)

/-- The acceleration of a vehicle whose maximum acceleration is a number is at most that maximum, or full braking. -/
theorem Reach.acc_le_float [Env] [LawfulDijkstra] (h : Reach strict s) {k : Key} {v : Vehicle Float}
    (hv : s.getVehicle k = .ok v) (hm : v.acc.maxAcc.isNaN = false) : v.acc.acc ≤ v.acc.maxAcc ∨ v.acc.acc = maxDecel := by
  refine Reach.kinematics (fun _ m => m.maxAcc.isNaN = false → m.acc ≤ m.maxAcc ∨ m.acc = maxDecel) ?_ ?_ ?_ h k v (getVeh_ok.1 hv) hm
  · intro a h; exact .inl (le_iff.2 ⟨h, h, le_rfl⟩)
  · intro _ _ _ h; exact h
  · rintro vel m a dt h (rfl | rfl | ⟨as, rfl⟩) hm
    · exact h hm
    · exact .inr rfl
    · exact .inl (foldl_fmin_le as (le_iff.2 ⟨hm, hm, le_rfl⟩))

/-- The acceleration that is used is between full braking and the maximum. -/
theorem getAcc_bounds {m : AccelerationModel Float} (hM : (0.0 : Float) ≤ m.maxAcc) (h : m.acc ≤ m.maxAcc ∨ m.acc = maxDecel) :
    (-6.0 : Float) ≤ m.getAcc ∧ m.getAcc ≤ m.maxAcc := by
  have h6 : (-6.0 : Float) ≤ m.maxAcc := by
    obtain ⟨a, b⟩ := nonneg_iff.1 hM
    have : (-6.0 : Float) < 0.0 := by decide +kernel
    exact le_iff.2 ⟨by decide +kernel, a, (lt_zero_iff.1 this).2.le.trans b⟩
  obtain ⟨y, hy⟩ : ∃ y, y = m.getAcc := ⟨_, rfl⟩
  rw [← hy]
  rcases fmax_cases m.acc maxDecel with ⟨hf, hc⟩ | ⟨hf, hc⟩
  · rw [hy]
    unfold AccelerationModel.getAcc
    rw [hf]
    exact ⟨by decide +kernel, h6⟩
  · rw [hy]
    unfold AccelerationModel.getAcc
    rw [hf]
    refine ⟨le_iff.2 ⟨by decide +kernel, hc.2, le_of_not_gt fun hlt => hc.1 (lt_iff.2 ⟨hc.2, by decide +kernel, hlt⟩)⟩, ?_⟩
    rcases h with h | h
    · exact h
    · rw [h]; exact h6

/-- A product of finite numbers is a number. -/
theorem mul_num_of_finite {x y : Float} (hx : x.isFinite = true) (hy : y.isFinite = true) : (x * y).isNaN = false := by
  obtain ⟨x1, x2⟩ := finite_iff.1 hx
  obtain ⟨y1, y2⟩ := finite_iff.1 hy
  exact (mul_rounding x1 y1 (.inl x2) (.inl y2)).num

theorem le_of_not_lt_float {x y : Float} (hx : x.isNaN = false) (hy : y.isNaN = false) (h : ¬ y < x) : x ≤ y :=
  le_iff.2 ⟨hx, hy, le_of_not_gt fun hlt => h (lt_iff.2 ⟨hy, hx, hlt⟩)⟩

/-- **C21** (binary64) In floating point arithmetic, too, the speed after a step of finite length is between what full braking
and what the maximum acceleration give, both rounded as the code rounds: it is not above the speed plus the time step times the
maximum acceleration, and not below the speed minus six times the time step. -/
theorem C21_limits_float [Env] [LawfulDijkstra] (h : Reach strict s) (hst : s.step dt = .ok s') (hdt : (0.0 : Float) ≤ dt)
    (hfin : dt.isFinite = true) {k : Key} {v v' : Vehicle Float} (hv : s.getVehicle k = .ok v) (hv' : s'.getVehicle k = .ok v')
    (hmax : (0.0 : Float) ≤ v.acc.maxAcc) (hmfin : v.acc.maxAcc.isFinite = true) :
    ¬ v'.vel < v.vel + dt * -6.0 ∧ ¬ v.vel + dt * v.acc.maxAcc < v'.vel := by
  have n0 := C20_number_float h hv
  have n1 := C20_number_float (.exec (.step dt) h trivial hst) hv'
  obtain ⟨s1, s2, s3, s4, s5, s6, hr⟩ := (step_spec h.inv dt).ok hst
  obtain ⟨v1, v2, v4, ht⟩ := hr.trace (getVeh_ok.1 hv)
  obtain ⟨e, ea, -⟩ := ht.vel (getVeh_ok.1 hv')
  obtain ⟨a, w, ev2⟩ := ht.acc.same
  obtain ⟨-, e2, -⟩ := ht.steer.same
  have em : v2.acc.maxAcc = v.acc.maxAcc := by rw [ev2]; dsimp only; rw [e2]
  have hacc := Reach.acc_le_float (.exec (.step dt) h trivial hst) hv' (by rw [ea, em]; exact (finite_iff.1 hmfin).1)
  rw [ea] at hacc
  obtain ⟨g1, g2⟩ := getAcc_bounds (m := v2.acc) (by rw [em]; exact hmax) hacc
  rw [em] at g2
  obtain ⟨g, hg⟩ : ∃ g, g = v2.acc.getAcc := ⟨_, rfl⟩
  rw [← hg] at g1 g2 e
  obtain ⟨-, hgn, hg6⟩ := le_iff.1 g1
  obtain ⟨-, -, hgM⟩ := le_iff.1 g2
  obtain ⟨hmn, hmt, hmb⟩ := finite_iff.1 hmfin
  have hgfin : g.isFinite = true := finite_iff.2 ⟨hgn, fun ht => hmt (top_le_iff.1 (ht ▸ hgM)), fun hb => by
    rw [hb] at hg6
    have : (-6.0 : Float).isFinite = true := by decide +kernel
    exact (finite_iff.1 this).2.2 (le_bot_iff.1 hg6)⟩
  have hpn := mul_num_of_finite hfin hgfin
  have hqn := mul_num_of_finite hfin (show (-6.0 : Float).isFinite = true by decide +kernel)
  have hrn := mul_num_of_finite hfin hmfin
  have hqp : dt * -6.0 ≤ dt * g := le_of_not_lt_float hqn hpn (mul_mono hdt g1)
  have hpr : dt * g ≤ dt * v.acc.maxAcc := le_of_not_lt_float hpn hrn (mul_mono hdt g2)
  simp only [fmax] at e
  split at e
  · next hc =>
    rw [e]
    constructor
    · intro hlt
      rcases hc with hc | hc
      · -- the bound is below the exact value of the sum, which is negative
        obtain ⟨hxn, -⟩ := lt_zero_iff.1 hc
        have hz := lt_iff.1 hlt
        have := add_mono (v := v.vel) hqp
        refine this (lt_iff.2 ⟨hxn, hz.2.1, ?_⟩)
        have h0 := hz.2.2
        rw [val_zero] at h0
        exact (lt_zero_iff.1 hc).2.trans h0
      · obtain ⟨-, hyn, -⟩ := lt_iff.1 hlt
        obtain ⟨hvn, -, -⟩ := add_num hyn
        -- the sum is not a number only if the speed and the product are opposite infinities
        have hinf : ¬ ((val v.vel ≠ ⊤ ∨ val (dt * g) ≠ ⊥) ∧ (val v.vel ≠ ⊥ ∨ val (dt * g) ≠ ⊤)) := by
          rintro ⟨i1, i2⟩
          have := (add_rounding hvn hpn i1 i2).num
          rw [this] at hc; cases hc
        have hvb : val v.vel ≠ ⊥ := ne_bot_of_nonneg (nonneg_iff.1 n0).2
        have hi : val v.vel = ⊤ ∧ val (dt * g) = ⊥ := by
          by_contra hcon
          refine hinf ⟨?_, .inl hvb⟩
          by_contra h2
          rw [not_or, not_not, not_not] at h2
          exact hcon h2
        have hq : val (dt * -6.0) = ⊥ := le_bot_iff.1 (hi.2 ▸ (le_iff.1 hqp).2.2)
        rcases (add_defined hyn).2.2.1 with h | h
        · exact h hi.1
        · exact h hq
    · exact not_neg (B64.add_nonneg n0 (le_of_not_lt_float (by decide +kernel) hrn
        (B64.mul_nonneg (not_neg hdt) (not_neg hmax))))
  · rw [e]
    exact ⟨add_mono hqp, add_mono hpr⟩

/-! ## C13 -/

/-- A number is its own value rounded, so zero adds nothing. -/
theorem val_add_zero {x y : Float} (hx : x.isNaN = false) (hy : y.isNaN = false) (h0 : val y = 0) :
    (x + y).isNaN = false ∧ val (x + y) = val x := by
  have hr := add_rounding hx hy (.inr (by rw [h0]; exact EReal.zero_ne_bot)) (.inr (by rw [h0]; exact EReal.zero_ne_top))
  refine ⟨hr.num, ?_⟩
  rw [h0, add_zero] at hr
  exact hr.eq hx rfl

theorem val_zero_mul {x y : Float} (hx : x.isNaN = false) (h0 : val x = 0) (hy : y.isFinite = true) :
    (x * y).isNaN = false ∧ val (x * y) = 0 := by
  obtain ⟨hyn, hy⟩ := finite_iff.1 hy
  have hr := mul_rounding hx hyn (.inl (by rw [h0]; exact ⟨EReal.zero_ne_top, EReal.zero_ne_bot⟩)) (.inl hy)
  refine ⟨hr.num, ?_⟩
  rw [h0, zero_mul] at hr
  exact hr.eq (c := 0.0) (by decide +kernel) val_zero

/-- Braking fully does not move a stopped vehicle. -/
theorem brake_stopped {u : Float} (hu : u.isNaN = false) (h0 : val u = 0) (hdt : (0.0 : Float) ≤ dt) (hfin : dt.isFinite = true) :
    val (fmax (u + dt * -6.0) 0.0) = 0 := by
  have h6 : (-6.0 : Float).isFinite = true := by decide +kernel
  obtain ⟨hdn, hd0⟩ := nonneg_iff.1 hdt
  obtain ⟨-, hdt', hdb⟩ := finite_iff.1 hfin
  obtain ⟨h6n, h6t, h6b⟩ := finite_iff.1 h6
  have hr := mul_rounding hdn h6n (.inl ⟨hdt', hdb⟩) (.inl ⟨h6t, h6b⟩)
  have hneg : val (-6.0 : Float) < 0 := (lt_zero_iff.1 (show (-6.0 : Float) < 0.0 by decide +kernel)).2
  have hp : val (dt * -6.0) ≤ 0 := by
    rw [← val_zero]
    refine hr.above 0.0 (by decide +kernel) ?_
    rw [val_zero]
    have := mul_le_mul_of_nonneg_left hneg.le hd0
    rwa [mul_zero] at this
  have hs := add_rounding hu hr.num (.inl (by rw [h0]; exact EReal.zero_ne_top)) (.inl (by rw [h0]; exact EReal.zero_ne_bot))
  have hs0 : val (u + dt * -6.0) ≤ 0 := by
    rw [h0, zero_add] at hs
    rw [hs.eq hr.num rfl]
    exact hp
  rcases fmax_cases (u + dt * -6.0) 0.0 with ⟨e, -⟩ | ⟨e, hlt, hn⟩
  · rw [e]; exact val_zero
  · rw [e]
    exact le_antisymm hs0 (le_of_not_gt fun h => hlt (lt_zero_iff.2 ⟨hn, h⟩))

/-- **C13** (rest, binary64) In floating point arithmetic, too, a frozen vehicle that is stopped before the end of its link and is
not moved to another lane keeps its link and its position, and stays stopped, when accelerations are recomputed. -/
theorem C13_stays_float [Env] [LawfulDijkstra] (h : Reach strict s) (hst : s.step dt = .ok s') (hdt : (0.0 : Float) ≤ dt)
    (hfin : dt.isFinite = true) (hre : ¬ s.accUpdate < 0.1) {k lk : Key} {l : Link Float} {v v1 : Vehicle Float} {s1 : Sim Float}
    (hf : s.getVehicleFrozen k = true) (hv : s.getVehicle k = .ok v)
    (hlanes : s.calculateLaneChanges = .ok s1) (hv1 : s1.getVehicle k = .ok v1) (hlane : v1.linkId = v.linkId)
    (hlk : v.linkId = some lk) (hl : s.getLinkRef lk = .ok l) (hpos : v.pos ≤ l.length) (hvel : ¬ 0.0 < v.vel) :
    ∃ v', s'.getVehicle k = .ok v' ∧ v'.linkId = some lk ∧ v'.pos ≤ v.pos ∧ v.pos ≤ v'.pos ∧ ¬ 0.0 < v'.vel := by
  have n0 := C20_number_float h hv
  obtain ⟨hvn, hv0⟩ := nonneg_iff.1 n0
  have hvz : val v.vel = 0 := by
    refine le_antisymm (le_of_not_gt fun hlt => hvel (lt_iff.2 ⟨by decide +kernel, hvn, ?_⟩)) hv0
    rwa [val_zero]
  obtain ⟨hpn, hln, hple⟩ := le_iff.1 hpos
  obtain ⟨s1', s2, s3, s4, s5, s6, hr⟩ := (step_spec h.inv dt).ok hst
  rw [hr.run1] at hlanes; cases hlanes
  obtain ⟨v1', v2, v4, ht⟩ := hr.trace (getVeh_ok.1 hv)
  have g1 := ht.get1
  rw [getVeh_ok.1 hv1] at g1; cases g1
  obtain ⟨e1, e2, -⟩ := ht.steer.same
  obtain ⟨e3, -⟩ := ht.steer.stay hlane
  have ef : s1.frozen = s.frozen ∧ s1.accUpdate = s.accUpdate := by
    rcases hr.lanes with ⟨-, e⟩ | ⟨-, vs, lcs, e⟩
    · rw [e]; exact ⟨rfl, rfl⟩
    · rw [e.eq]; exact ⟨rfl, rfl⟩
  obtain ⟨a, w, ev2, ha⟩ : ∃ a w, v2 = { v1 with acc := { v1.acc with acc := a }, willQueueOrEnter := w } ∧ a = maxDecel := by
    rcases ht.acc with ⟨hlt, -⟩ | ⟨-, n0, n1, vs, -, ha⟩
    · rw [ef.2] at hlt; exact absurd hlt hre
    · obtain ⟨a, w, ev2, -, hz, -⟩ := ha.eq
      exact ⟨a, w, ev2, hz (by rw [ef.1]; simpa [Sim.getVehicleFrozen] using hf)⟩
  obtain ⟨q, e, lc, cnt, ev4, -⟩ := ht.move.eq
  have hacc : v2.acc.getAcc = -6.0 := by
    rw [ev2, ha]
    show fmax (maxDecel : Float) maxDecel = -6.0
    rcases fmax_cases (maxDecel : Float) maxDecel with ⟨e, -⟩ | ⟨e, -⟩ <;> rw [e] <;> rfl
  have hv2 : v2.vel = v.vel := by rw [ev2]; exact e1
  have hp2 : v2.pos = v.pos := by rw [ev2]; exact e3
  have hvel4 : v4.vel = fmax (v.vel + dt * -6.0) 0.0 := by
    rw [ev4]; dsimp only; rw [hacc, hv2]
  have h4n : (0.0 : Float) ≤ v4.vel := by rw [hvel4]; exact fmax_zero _
  have h40 : val v4.vel = 0 := by rw [hvel4]; exact brake_stopped hvn hvz hdt hfin
  have hp4 : v4.pos.isNaN = false ∧ val v4.pos = val v.pos := by
    have : v4.pos = v.pos + 0.5 * (v.vel + v4.vel) * dt := by
      have : v4.pos = v2.pos + 0.5 * (v2.vel + v4.vel) * dt := by rw [ev4]
      rw [this, hp2, hv2]
    rw [this]
    obtain ⟨b1, b2⟩ := val_add_zero hvn (nonneg_iff.1 h4n).1 h40
    rw [hvz] at b2
    have hr5 := mul_rounding (x := 0.5) (by decide +kernel) b1 (.inl (finite_iff.1 (by decide +kernel)).2)
      (.inl (by rw [b2]; exact ⟨EReal.zero_ne_top, EReal.zero_ne_bot⟩))
    have b3 : val (0.5 * (v.vel + v4.vel)) = 0 := by
      rw [b2, mul_zero] at hr5
      exact hr5.eq (c := 0.0) (by decide +kernel) val_zero
    obtain ⟨b4, b5⟩ := val_zero_mul hr5.num b3 hfin
    exact val_add_zero hpn b4 b5
  have hr4 : v4.route = v1.route := by rw [ev4, ev2]
  have hl4 : ∀ a l', v4.route.head? = some a → s4.links.get? a = some l' → ¬ l'.length < v4.pos := by
    intro a l' ha hl'
    rw [hr4] at ha
    have : v1.linkId = some a := ha
    rw [hlane, hlk] at this; cases this
    obtain ⟨l0, h0, hfr⟩ := hr.frame4.bwd hl'
    rw [getLink_ok.1 hl] at h0; cases h0
    have : l'.length = l.length := by unfold Link.length; rw [hfr.curve]
    rw [this]
    intro hlt
    have := (lt_iff.1 hlt).2.2
    rw [hp4.2] at this
    exact absurd this (not_lt_of_ge hple)
  cases ht.out with
  | stays u hu hp _ =>
    obtain ⟨p, d, r, c, rfl⟩ := hp
    refine ⟨_, getVeh_ok.2 hu, by show v4.route.head? = _; rw [hr4]; exact hlane.trans hlk,
      le_iff.2 ⟨hp4.1, hpn, hp4.2.le⟩, le_iff.2 ⟨hpn, hp4.1, hp4.2.ge⟩, fun hlt => ?_⟩
    have := (lt_iff.1 hlt).2.2
    rw [val_zero] at this
    exact absurd h40 this.ne'
  | passes v5 u hp _ _ _ =>
    obtain ⟨a, rest, l', pf, ha, hl', hlt, -⟩ := hp.ex
    exact absurd hlt (hl4 a l' (by rw [ha]; rfl) hl')
  | leaves v5 hp _ _ =>
    obtain ⟨a, rest, l', pf, ha, hl', hlt, -⟩ := hp.ex
    exact absurd hlt (hl4 a l' (by rw [ha]; rfl) hl')

end

/-! ## Examples -/

namespace Drive
attribute [local instance] Town.env

def ops : List (Op Float) :=
  [.addLink ⟨Town.street 0.0 0.0 1.0 0.0 50.0, 10.0⟩, .addLink ⟨Town.street 0.0 9.0 1.0 0.0 50.0, 10.0⟩,
   .addVehicle Town.car ⟨0, 1⟩, .setVehicleDestination ⟨0, 1⟩ ⟨0, 1⟩, .addVehicle Town.car ⟨1, 1⟩,
   .setVehicleDestination ⟨1, 1⟩ ⟨1, 1⟩, .setVehicleFrozen ⟨1, 1⟩ true, .step 0.2, .step 0.2]

/-- A car drives on, and another one is frozen and stands still. -/
def driveTest (s s' : Sim Float) : Bool :=
  decide (¬ s.accUpdate < 0.1) && s.getVehicleFrozen ⟨1, 1⟩ &&
  match s.calculateLaneChanges with
  | .ok s1 => match s.vehicles.get? ⟨0, 1⟩, s1.vehicles.get? ⟨0, 1⟩, s'.vehicles.get? ⟨0, 1⟩, s.vehicles.get? ⟨1, 1⟩,
      s1.vehicles.get? ⟨1, 1⟩, s.links.get? ⟨1, 1⟩ with
    | some v, some v1, some v', some w, some w1, some l =>
      v.route.head? == some ⟨0, 1⟩ && v1.route.head? == some ⟨0, 1⟩ && decide (v.pos < v'.pos) && decide (v.vel < v'.vel) &&
      decide ((0.0 : Float) ≤ v.acc.maxAcc) && v.acc.maxAcc.isFinite && w.route.head? == some ⟨1, 1⟩ &&
      w1.route.head? == some ⟨1, 1⟩ && decide (w.pos ≤ l.length) && decide (¬ (0.0 : Float) < w.vel)
    | _, _, _, _, _, _ => false
  | .error _ => false

theorem drives : ∃ s s' : Sim Float, Reach True s ∧ Allowed True s (.step 0.2) ∧ s.exec (.step 0.2) = .ok s' ∧
    Reach True s' ∧ driveTest s s' = true :=
  trial_reach (ops := ops) (by decide +kernel)

/-- The hypotheses of C20_number_float, C20_forward_float, C21_limits_float for a car that gets faster, and those of
C13_stays_float for another one. -/
example : ∃ (s s1 s' : Sim Float) (v v1 v' w w1 : Vehicle Float) (l : Link Float), Reach True s ∧ s.step 0.2 = .ok s' ∧
    (0.0 : Float) ≤ 0.2 ∧ (0.2 : Float).isFinite = true ∧ ¬ s.accUpdate < 0.1 ∧ s.calculateLaneChanges = .ok s1 ∧
    s.getVehicle ⟨0, 1⟩ = .ok v ∧ s1.getVehicle ⟨0, 1⟩ = .ok v1 ∧ s'.getVehicle ⟨0, 1⟩ = .ok v' ∧ v1.linkId = v.linkId ∧
    v.pos < v'.pos ∧ v.vel < v'.vel ∧ (0.0 : Float) ≤ v.acc.maxAcc ∧ v.acc.maxAcc.isFinite = true ∧
    s.getVehicleFrozen ⟨1, 1⟩ = true ∧ s.getVehicle ⟨1, 1⟩ = .ok w ∧ s1.getVehicle ⟨1, 1⟩ = .ok w1 ∧ w1.linkId = w.linkId ∧
    w.linkId = some ⟨1, 1⟩ ∧ s.getLinkRef ⟨1, 1⟩ = .ok l ∧ w.pos ≤ l.length ∧ ¬ 0.0 < w.vel := by
  obtain ⟨s, s', h1, -, h2, -, h4⟩ := drives
  unfold driveTest at h4
  simp only [Bool.and_eq_true, decide_eq_true_eq] at h4
  obtain ⟨⟨a1, a2⟩, h4⟩ := h4
  split at h4
  · rename_i s1 hs1
    split at h4
    · rename_i v v1 v' w w1 l hv hv1 hv' hw hw1 hl
      simp only [Bool.and_eq_true, decide_eq_true_eq, beq_iff_eq] at h4
      obtain ⟨⟨⟨⟨⟨⟨⟨⟨⟨b1, b2⟩, b3⟩, b4⟩, b5⟩, b6⟩, b7⟩, b8⟩, b9⟩, b10⟩ := h4
      exact ⟨s, s1, s', v, v1, v', w, w1, l, h1, h2, by decide +kernel, by decide +kernel, a1, hs1, getVeh_ok.2 hv,
        getVeh_ok.2 hv1, getVeh_ok.2 hv', b2.trans b1.symm, b3, b4, b5, b6, a2, getVeh_ok.2 hw, getVeh_ok.2 hw1,
        b8.trans b7.symm, b7, getLink_ok.2 hl, b9, b10⟩
    · cases h4
  · simp at h4

end Drive

end TrafficSim
