import Verif.Props.EndsGiveWay
import Verif.Props.BinaryFollow
import Verif.Props.Arrival

/-! # C104: runs in binary64 -/

namespace TrafficSim

open B64

variable {strict : Prop} {s s' : Sim Float} {dt : Float}

namespace B64

/-- The result of an operation is not far from the exact one. -/
theorem Rounding.close {r : ℝ} {w : Float} (h : Rounding (r : EReal) w) (h1 : -1000000 ≤ r) (h2 : r ≤ 1000000) :
    ∃ y : ℝ, val w = y ∧ r - 1 / 2048 ≤ y ∧ y ≤ r + 1 / 2048 := by
  obtain ⟨y, -, hn, hcl, -⟩ := h.near r rfl
  have hround := abs_sub_round (r * 1024)
  have hj : |round (r * 1024)| < 2 ^ 53 := by
    rw [abs_le] at hround
    have h3 : (-(2 ^ 53 : ℤ) : ℝ) < round (r * 1024) := by push_cast; linarith
    have h4 : (round (r * 1024) : ℝ) < ((2 ^ 53 : ℤ) : ℝ) := by push_cast; linarith
    rw [abs_lt]
    exact ⟨by exact_mod_cast h3, by exact_mod_cast h4⟩
  have := hn _ (grid_rep hj)
  have hle : |y - r| ≤ 1 / 2048 := by
    have e : (round (r * 1024) : ℝ) / 1024 - r = -((r * 1024 - round (r * 1024)) / 1024) := by ring
    rw [e, abs_neg, abs_div, abs_of_pos (by norm_num : (0 : ℝ) < 1024)] at this
    refine this.trans ?_
    rw [div_le_iff₀ (by norm_num)]
    linarith
  rw [abs_le] at hle
  have hb := (int_rep (j := 1000001) (by norm_num)).2.2
  push_cast at hb
  rcases hcl with ⟨e, -⟩ | ⟨-, h'⟩ | ⟨-, h'⟩
  · exact ⟨y, e, by linarith, by linarith⟩
  · linarith
  · linarith

theorem val_eight : val 8.0 = ((8 : ℝ) : EReal) := by
  rw [val_finite (m := 2 ^ 52) (e := -49) (h := by norm_num) (by rfl), EReal.coe_eq_coe_iff, mval, zpow_neg]
  norm_num

theorem val_135 : val 135.0 = ((135 : ℝ) : EReal) := by
  rw [val_finite (m := 135 * 2 ^ 45) (e := -45) (h := by norm_num) (by rfl), EReal.coe_eq_coe_iff, mval, zpow_neg]
  norm_num

theorem val_three_quarters : val 0.75 = ((3 / 4 : ℝ) : EReal) := by
  rw [val_finite (m := 3 * 2 ^ 51) (e := -53) (h := by norm_num) (by rfl), EReal.coe_eq_coe_iff, mval, zpow_neg]
  norm_num

theorem val_five_quarters : val 1.25 = ((5 / 4 : ℝ) : EReal) := by
  rw [val_finite (m := 5 * 2 ^ 50) (e := -52) (h := by norm_num) (by rfl), EReal.coe_eq_coe_iff, mval, zpow_neg]
  norm_num

theorem val_104 : val 0.1015625 = ((104 / 1024 : ℝ) : EReal) := by
  rw [val_finite (m := 13 * 2 ^ 49) (e := -56) (h := by norm_num) (by rfl), EReal.coe_eq_coe_iff, mval, zpow_neg]
  norm_num

end B64

/-- How fast a vehicle is when the time since accelerations were recomputed is `c`. -/
def Pacing (c : Float) (v : Vehicle Float) : Prop :=
  v.vel ≤ 135.0 ∧ (¬ c < 0.1 ∨ v.acc.acc ≤ 0.0 ∨
    ∃ (j : ℕ) (cv u : ℝ), val c = cv ∧ val v.vel = u ∧ (j : ℝ) / 1024 ≤ cv ∧ u ≤ 125 + 8 * cv + j / 100)

/-- A car that aims for 0.75 to 1.25 times the speed limit, and can accelerate by 0.125 to 8 m/s². -/
structure Driver (v : Vehicle Float) : Prop where
  pos : (0.0 : Float) ≤ v.pos
  acc : (0.125 : Float) ≤ v.acc.maxAcc ∧ v.acc.maxAcc ≤ (8.0 : Float)
  adj : (0.75 : Float) ≤ v.acc.velAdj ∧ v.acc.velAdj ≤ (1.25 : Float)

/-- A network of streets with such cars. -/
structure Drivers (s : Sim Float) : Prop where
  links : ∀ k l, s.links.get? k = some l → Street l
  crossings : Crossings s
  vehicles : ∀ k v, s.vehicles.get? k = some v → Driver v
  pace : ∀ k v, s.vehicles.get? k = some v → Pacing s.accUpdate v

theorem Driver.acc_within {v : Vehicle Float} (h : Driver v) : Within (1 / 8) 8 v.acc.maxAcc := within_of val_eighth val_eight h.acc.1 h.acc.2
theorem Driver.adj_within {v : Vehicle Float} (h : Driver v) : Within (3 / 4) (5 / 4) v.acc.velAdj := within_of val_three_quarters val_five_quarters h.adj.1 h.adj.2

theorem B64.Within.finite {a b : ℝ} {x : Float} (h : Within a b x) : x.isFinite = true := by
  obtain ⟨n, r, e, -, -⟩ := h.real
  exact finite_iff.2 ⟨n, by rw [e]; exact EReal.coe_ne_top _, by rw [e]; exact EReal.coe_ne_bot _⟩

theorem le_nat {x y : Float} {b : ℝ} (h : x ≤ y) (hy : val y = b) : val x ≤ (b : EReal) := hy ▸ (le_iff.1 h).2.2

theorem below_zero {x : Float} (h : (0.0 : Float) ≤ x) : (-20000.0 : Float) ≤ x := by
  obtain ⟨n, h⟩ := nonneg_iff.1 h
  refine le_iff.2 ⟨by decide +kernel, n, le_trans ?_ h⟩
  rw [val_neg_real val_twenty_thousand]
  exact EReal.coe_nonpos.2 (by norm_num)

theorem Drivers.streets [Env] [LawfulDijkstra] (h : Drivers s) (hs : Reach strict s) : Streets ⟨s.links, s.vehicles⟩ := by
  refine ⟨h.links, fun k v hv => ⟨(below_zero (h.vehicles k v hv).pos), ⟨C20_number_float hs (getVeh_ok.2 hv), ?_⟩, (h.vehicles k v hv).acc.1, ?_⟩⟩
  · have := (h.pace k v hv).1
    refine le_iff.2 ⟨(le_iff.1 this).1, by decide +kernel, (le_nat this val_135).trans ?_⟩
    rw [val_two_thousand]
    exact EReal.coe_le_coe_iff.2 (by norm_num)
  · have := (h.vehicles k v hv).acc_within
    refine le_iff.2 ⟨this.1, by decide +kernel, this.2.2.trans ?_⟩
    rw [val_hundred]
    exact EReal.coe_le_coe_iff.2 (by norm_num)

/-- There are no lane changes where streets are not next to each other. -/
theorem Steered.lane [Env] (hs : SimInv strict s) (hg : ∀ k l, s.links.get? k = some l → l.group = none) {k : Key} {v v1 : Vehicle Float}
    (hv : s.vehicles.get? k = some v) (h : Steered s.links v v1) : v1.linkId = v.linkId := by
  rcases h with (rfl | ⟨p, -, e, rfl⟩) | ⟨p, hc, hne, -⟩
  · rfl
  · exact e
  · have hi := hs.veh _ v hv
    obtain ⟨a, ha, h | ⟨l', hl', hm⟩⟩ := (hi.paths p hc.mem).start
    · rw [ha, h] at hne; exact absurd hi.src.symm hne
    · have := (hs.net.link _ l' hl').lc (List.ne_nil_of_mem hm)
      rw [hg _ l' hl'] at this
      cases this

/-- A vehicle at or above the speed it aims for gets an acceleration of at most zero when accelerations are recomputed. -/
theorem limit_acc [Env] {s1 s2 s3 s4 s5 s6 : Sim Float} (hr : StepRun strict s dt s1 s2 s3 s4 s5 s6 s') (hre : ¬ s.accUpdate < 0.1)
    {k lk : Key} {l1 : Link Float} {v v1 v2 v4 : Vehicle Float} (ht : Trace s dt s1 s2 s3 s4 s' k v v1 v2 v4)
    (hlk : v1.linkId = some lk) (hl : s1.links.get? lk = some l1) (hvfin : v.vel.isFinite = true) (hmax : 0.0 < v.acc.maxAcc)
    (hmfin : v.acc.maxAcc.isFinite = true) (hlim : 0.0 < v.acc.velAdj * l1.speedLimit) (hvel : v.acc.velAdj * l1.speedLimit ≤ v.vel) :
    v2.acc.acc ≤ 0.0 := by
  obtain ⟨e1, e2, -⟩ := ht.steer.same
  have ef : s1.accUpdate = s.accUpdate := hr.clocks.1
  rcases ht.acc with ⟨hlt, -⟩ | ⟨-, n0, n1, vs, har, ha⟩
  · rw [ef] at hlt; exact absurd hlt hre
  by_cases hf : k ∈ s1.frozen
  · obtain ⟨a, w, ev2, -, hz, -⟩ := ha.eq
    rw [ev2, hz hf]
    show (-6.0 : Float) ≤ 0.0
    decide +kernel
  · have hk : k ∈ l1.vehicles := ((hr.inv1.mem lk l1 hl).2 k).2 ⟨v1, ht.get1, hlk⟩
    have g2 := ht.get2
    rw [hr.vehicles3] at g2
    obtain ⟨w, as, x, hw, hx, ew⟩ := har.limit hr.inv1.mid hl ht.get1 hk hf
    rw [g2] at hw; cases hw
    have hb : v1.limitAcc l1.speedLimit ≤ 0.0 := by
      unfold Vehicle.limitAcc
      rw [e1, e2]
      exact limit_brakes hmax hmfin hvfin hlim hvel
    obtain ⟨bn, b0, ble⟩ := le_iff.1 hb
    rw [ew]
    obtain ⟨cn, -, cle⟩ := le_iff.1 (foldl_fmin_mem hx bn)
    exact le_iff.2 ⟨cn, b0, cle.trans ble⟩

/-- A vehicle whose acceleration is at most zero does not get faster. -/
theorem not_faster {u g : Float} (hu : Within 0 135 u) (hdt : Within (1 / 1024) 1 dt) (hg : Within (-6) 0 g) :
    val (fmax (u + dt * g) 0.0) ≤ val u := by
  obtain ⟨un, ur, eu, u1, u2⟩ := hu.real
  have hp : Within (-6) 0 (dt * g) := by
    have := hdt.mul hg (-6) 0 (by norm_num) (by norm_num) fun r s h1 h2 h3 h4 => ⟨by push_cast; nlinarith, by push_cast; nlinarith⟩
    exact_mod_cast this
  obtain ⟨pn, p, ep, p1, p2⟩ := hp.real
  have hs := add_rounding un pn (.inl (by rw [eu]; exact EReal.coe_ne_top _)) (.inl (by rw [eu]; exact EReal.coe_ne_bot _))
  have hsle : val (u + dt * g) ≤ val u := hs.above u un (by
    rw [eu, ep, ← EReal.coe_add]
    exact EReal.coe_le_coe_iff.2 (by linarith))
  rcases fmax_cases (u + dt * g) 0.0 with ⟨hf, -⟩ | ⟨hf, -⟩ <;> rw [hf]
  · rw [val_zero, eu]; exact_mod_cast u1
  · exact hsle

/-- A vehicle does not get much faster than its acceleration would make it. -/
theorem little_faster {u g : Float} {ur d : ℝ} (hu : Within 0 135 u) (eu : val u = ur) (hdt : Within (1 / 1024) 1 dt) (ed : val dt = d) (hg : Within (-6) 8 g) :
    ∃ y : ℝ, val (fmax (u + dt * g) 0.0) = y ∧ y ≤ ur + 8 * d + 1 / 1024 := by
  obtain ⟨un, ur', eu', u1, u2⟩ := hu.real
  rw [eu, EReal.coe_eq_coe_iff] at eu'; subst eu'
  obtain ⟨dn, d', ed', d1, d2⟩ := hdt.real
  rw [ed, EReal.coe_eq_coe_iff] at ed'; subst ed'
  obtain ⟨gn, gr, eg, g1, g2⟩ := hg.real
  have hp := mul_rounding dn gn (.inl ⟨by rw [ed]; exact EReal.coe_ne_top _, by rw [ed]; exact EReal.coe_ne_bot _⟩)
    (.inl ⟨by rw [eg]; exact EReal.coe_ne_top _, by rw [eg]; exact EReal.coe_ne_bot _⟩)
  rw [ed, eg, ← EReal.coe_mul] at hp
  obtain ⟨p, ep, p1, p2⟩ := hp.close (by nlinarith) (by nlinarith)
  have hs := add_rounding un hp.num (.inl (by rw [eu]; exact EReal.coe_ne_top _)) (.inl (by rw [eu]; exact EReal.coe_ne_bot _))
  rw [eu, ep, ← EReal.coe_add] at hs
  have hdg : d * gr ≤ 8 * d := by nlinarith
  obtain ⟨y, ey, y1, y2⟩ := hs.close (by nlinarith) (by nlinarith)
  rcases fmax_cases (u + dt * g) 0.0 with ⟨hf, -⟩ | ⟨hf, -⟩ <;> rw [hf]
  · exact ⟨0, by rw [val_zero]; rfl, by linarith⟩
  · exact ⟨y, ey, by linarith⟩

theorem StepRun.crossings [Env] {s1 s2 s3 s4 s5 s6 : Sim Float} (hr : StepRun strict s dt s1 s2 s3 s4 s5 s6 s') : s'.conflicts = s.conflicts := by
  obtain ⟨wss, hl⟩ := hr.lights
  rw [hr.eq]; dsimp only
  rw [hr.place.eq]; dsimp only
  rw [hr.adv.eq]; dsimp only
  rw [hr.move.eq]; dsimp only
  rw [hl.eq]; dsimp only
  have e2 : s2.conflicts = s1.conflicts := by
    rcases hr.acc with ⟨-, e⟩ | ⟨-, n0, n1, vs, e⟩
    · rw [e]
    · rw [e.eq]
  rw [e2]
  rcases hr.lanes with ⟨-, e⟩ | ⟨-, vs, lcs, e⟩
  · rw [e]
  · rw [e.eq]

/-- A vehicle keeps its pace in a step, on networks of all kinds. -/
theorem pace_step [Env] [LawfulDijkstra] (hs : Reach strict s) (hst : s.step dt = .ok s') (hdt : (0.0009765625 : Float) ≤ dt ∧ dt ≤ (1.0 : Float))
    (hlims : ∀ k l, s.links.get? k = some l → (1.0 : Float) ≤ l.speedLimit ∧ l.speedLimit ≤ (100.0 : Float)) {k : Key} {v v' : Vehicle Float}
    (hv : s.vehicles.get? k = some v) (hv' : s'.vehicles.get? k = some v') (hA : (0.125 : Float) ≤ v.acc.maxAcc ∧ v.acc.maxAcc ≤ (8.0 : Float))
    (hJ : (0.75 : Float) ≤ v.acc.velAdj ∧ v.acc.velAdj ≤ (1.25 : Float)) (hpace : Pacing s.accUpdate v) :
    Pacing s'.accUpdate v' ∧ v'.acc.maxAcc = v.acc.maxAcc ∧ v'.acc.velAdj = v.acc.velAdj := by
  obtain ⟨s1, s2, s3, s4, s5, s6, hr⟩ := (step_spec hs.inv dt).ok hst
  have hd := within_of val_tick val_one_real hdt.1 hdt.2
  have hs' : Reach strict s' := .exec (.step dt) hs trivial hst
  have hclk := hr.clocks.2.1
  obtain ⟨v1, v2, v4, ht⟩ := hr.trace hv
  obtain ⟨e, ea, -⟩ := ht.vel hv'
  obtain ⟨e1, e2, -⟩ := ht.steer.same
  obtain ⟨a, w, ev2⟩ := ht.acc.same
  obtain ⟨hp0, hp⟩ := hpace
  have em : v2.acc.maxAcc = v.acc.maxAcc := by rw [ev2]; dsimp only; rw [e2]
  have ej : v2.acc.velAdj = v.acc.velAdj := by rw [ev2]; dsimp only; rw [e2]
  have n0 := C20_number_float hs (getVeh_ok.2 hv)
  have n1 := C20_number_float hs' (getVeh_ok.2 hv')
  have hu : Within 0 135 v.vel := within_of (ra := 0) (by rw [val_zero]; rfl) val_135 n0 hp0
  obtain ⟨un, u, eu, u1, u2⟩ := hu.real
  have hacc := within_of val_eighth val_eight hA.1 hA.2
  have hadj := within_of val_three_quarters val_five_quarters hJ.1 hJ.2
  obtain ⟨dn, d, ed, d1, d2⟩ := hd.real
  -- accelerations
  have hb := Reach.acc_le_float hs' (getVeh_ok.2 hv') (by rw [ea, em]; exact hacc.1)
  rw [ea] at hb
  obtain ⟨g1, g2⟩ := getAcc_bounds (m := v2.acc) (nonneg_iff.2 ⟨by rw [em]; exact hacc.1, by
    rw [em]; exact le_trans (by exact_mod_cast (by norm_num : (0 : ℝ) ≤ 1 / 8)) hacc.2.1⟩) hb
  have val_six : val (-6.0) = ((-6 : ℝ) : EReal) := by
    refine val_neg_real ?_
    rw [val_finite (m := 3 * 2 ^ 51) (e := -50) (h := by norm_num) (by rfl), EReal.coe_eq_coe_iff, mval, zpow_neg]
    norm_num
  have hg : Within (-6) 8 v2.acc.getAcc := by
    obtain ⟨-, gn, gl⟩ := le_iff.1 g1
    rw [val_six] at gl
    refine ⟨gn, gl, (le_iff.1 g2).2.2.trans ?_⟩
    rw [em]; exact hacc.2.2
  have slow : v2.acc.acc ≤ 0.0 → val v'.vel ≤ val v.vel := by
    intro h0
    rw [e]
    refine not_faster hu hd ⟨hg.1, hg.2.1, ?_⟩
    unfold AccelerationModel.getAcc
    rcases fmax_cases v2.acc.acc maxDecel with ⟨hf, -⟩ | ⟨hf, -⟩ <;> rw [hf]
    · show val (-6.0) ≤ _
      rw [val_six]; exact EReal.coe_le_coe_iff.2 (by norm_num)
    · have := (le_iff.1 h0).2.2
      rwa [val_zero] at this
  obtain ⟨y, ey, hy⟩ := little_faster hu eu hd ed hg
  rw [← e] at ey
  -- the pace
  have pace : Pacing s'.accUpdate v' := by
    have steady : v2.acc.acc ≤ 0.0 → Pacing s'.accUpdate v' := fun h0 =>
      ⟨le_iff.2 ⟨(nonneg_iff.1 n1).1, by decide +kernel, (slow h0).trans (hu.2.2.trans val_135.ge)⟩, .inr (.inl (by rw [ea]; exact h0))⟩
    have upto : y ≤ 135 → v'.vel ≤ 135.0 := fun h0 =>
      le_iff.2 ⟨(nonneg_iff.1 n1).1, by decide +kernel, by rw [ey, val_135]; exact EReal.coe_le_coe_iff.2 h0⟩
    by_cases hlt : s.accUpdate < 0.1
    · have same : v2.acc = v.acc := by
        rcases ht.acc with ⟨-, e3⟩ | ⟨hnlt, -⟩
        · rw [e3.2, e2]
        · rw [hr.clocks.1] at hnlt; exact absurd hlt hnlt
      rw [show (accelerationUpdateSec : Float) = 0.1 from rfl, if_pos hlt] at hclk
      rcases hp with hp | hp | ⟨j, cv, u', ec, eu', hj, hle⟩
      · exact absurd hlt hp
      · exact steady (by rw [same]; exact hp)
      · rw [eu, EReal.coe_eq_coe_iff] at eu'; subst eu'
        obtain ⟨cn, -, clt⟩ := lt_iff.1 hlt
        have ctop : cv < 104 / 1024 := by
          have h1 : (0.1 : Float) < 0.1015625 := by decide +kernel
          have := clt.trans (lt_iff.1 h1).2.2
          rw [val_104, ec] at this
          exact EReal.coe_lt_coe_iff.1 this
        have hj' : j ≤ 103 := by
          by_contra hlt
          have : (104 : ℝ) ≤ j := by exact_mod_cast (by omega : 104 ≤ j)
          linarith
        have hj'' : (j : ℝ) ≤ 103 := by exact_mod_cast hj'
        have hc0 : 0 ≤ cv := le_trans (by positivity) hj
        obtain ⟨-, hgrid⟩ := add_grid cn dn (j := j) (by rw [abs_lt]; omega) (by rw [ec]; exact EReal.coe_le_coe_iff.2 (by push_cast; exact hj)) (by rw [ed]; exact EReal.coe_le_coe_iff.2 d1)
        have hsum := add_rounding cn dn (.inl (by rw [ec]; exact EReal.coe_ne_top _)) (.inl (by rw [ec]; exact EReal.coe_ne_bot _))
        rw [ec, ed, ← EReal.coe_add] at hsum
        obtain ⟨c', ec', c1, c2⟩ := hsum.close (by linarith) (by linarith)
        rw [ec', EReal.coe_le_coe_iff] at hgrid
        refine ⟨upto (by linarith), .inr (.inr ⟨j + 1, c', y, by rw [hclk, ec'], ey, by push_cast at hgrid ⊢; exact hgrid, by push_cast; linarith⟩)⟩
    · rw [show (accelerationUpdateSec : Float) = 0.1 from rfl, if_neg hlt] at hclk
      have hi := hr.inv1.veh k v1 ht.get1
      obtain ⟨lk, hlk⟩ : ∃ lk, v1.linkId = some lk := ⟨_, hi.src⟩
      obtain ⟨l1, hl1⟩ : ∃ l1, s1.links.get? lk = some l1 := get_of_contains (hi.drivable.valid lk (List.mem_of_mem_head? hlk))
      obtain ⟨l, hl, e3⟩ := hr.frame1.bwd hl1
      have hlim : Within 1 100 l1.speedLimit := by rw [e3]; exact within_of val_one_real val_hundred (hlims lk l hl).1 (hlims lk l hl).2
      have hprod : Within 0 125 (v.acc.velAdj * l1.speedLimit) := by
        have := hadj.mul hlim 0 125 (by norm_num) (by norm_num) fun r s h1 h2 h3 h4 => ⟨by push_cast; nlinarith, by push_cast; nlinarith⟩
        exact_mod_cast this
      have hpos : 0.0 < v.acc.velAdj * l1.speedLimit := by
        obtain ⟨an, ar, ear, a1, a2⟩ := hadj.real
        obtain ⟨ln, lr, elr, l1', l2'⟩ := hlim.real
        have hm := mul_rounding an ln (.inl ⟨by rw [ear]; exact EReal.coe_ne_top _, by rw [ear]; exact EReal.coe_ne_bot _⟩)
          (.inl ⟨by rw [elr]; exact EReal.coe_ne_top _, by rw [elr]; exact EReal.coe_ne_bot _⟩)
        rw [ear, elr, ← EReal.coe_mul] at hm
        refine lt_iff.2 ⟨by decide +kernel, hm.num, ?_⟩
        refine lt_of_lt_of_le ?_ (hm.ge_rep (grid_rep (j := 512) (by norm_num)) (grid_gt (by norm_num)) (EReal.coe_le_coe_iff.2 ?_))
        · rw [val_zero]; exact EReal.coe_pos.2 (by norm_num)
        · push_cast; nlinarith
      by_cases hfast : v.acc.velAdj * l1.speedLimit ≤ v.vel
      · refine steady (limit_acc hr hlt ht hlk hl1 hu.finite (lt_iff.2 ⟨by decide +kernel, hacc.1, lt_of_lt_of_le ?_ hacc.2.1⟩) hacc.finite hpos hfast)
        rw [val_zero]; exact_mod_cast (by norm_num : (0 : ℝ) < 1 / 8)
      · have hu125 : u ≤ 125 := by
          have : val v.vel ≤ ((125 : ℝ) : EReal) := by
            refine le_trans (le_of_not_ge fun hge => hfast (le_iff.2 ⟨hprod.1, un, hge⟩)) hprod.2.2
          rw [eu] at this
          exact EReal.coe_le_coe_iff.1 this
        have zn : (0.0 : Float).isNaN = false := by decide +kernel
        obtain ⟨-, hgrid⟩ := add_grid zn dn (j := 0) (by norm_num) (by rw [val_zero]; exact EReal.coe_nonpos.2 (by norm_num)) (by rw [ed]; exact EReal.coe_le_coe_iff.2 d1)
        have hsum := add_rounding zn dn (.inl (by rw [val_zero]; exact EReal.zero_ne_top)) (.inl (by rw [val_zero]; exact EReal.zero_ne_bot))
        rw [val_zero, ed, zero_add] at hsum
        obtain ⟨c', ec', c1, c2⟩ := hsum.close (by linarith) (by linarith)
        rw [ec', EReal.coe_le_coe_iff] at hgrid
        refine ⟨upto (by linarith), .inr (.inr ⟨1, c', y, by rw [hclk, ec'], ey, by push_cast at hgrid ⊢; linarith, by push_cast; linarith⟩)⟩
  exact ⟨pace, by rw [ea, em], by rw [ea, ej]⟩

/-- Vehicles keep their pace in a step. -/
theorem Drivers.step [Env] [LawfulDijkstra] (h : Drivers s) (hs : Reach strict s) (hst : s.step dt = .ok s')
    (hdt : (0.0009765625 : Float) ≤ dt ∧ dt ≤ (1.0 : Float)) : Drivers s' := by
  obtain ⟨s1, s2, s3, s4, s5, s6, hr⟩ := (step_spec hs.inv dt).ok hst
  have hd := within_of val_tick val_one_real hdt.1 hdt.2
  have hs' : Reach strict s' := .exec (.step dt) hs trivial hst
  have key : ∀ k v', s'.vehicles.get? k = some v' → Driver v' ∧ Pacing s'.accUpdate v' := by
    intro k v' hv'
    obtain ⟨v, hv⟩ := hr.back hv'
    obtain ⟨v1, v2, v4, ht⟩ := hr.trace hv
    have hdr := h.vehicles k v hv
    have hlane := ht.steer.lane hs.inv (fun k l hl => (h.links k l hl).group) hv
    obtain ⟨pace, em, ej⟩ := pace_step hs hst hdt (fun k l hl => (h.links k l hl).limit) hv hv' hdr.acc hdr.adj (h.pace k v hv)
    have n0 := C20_number_float hs (getVeh_ok.2 hv)
    have n1 := C20_number_float hs' (getVeh_ok.2 hv')
    have hu : Within 0 135 v.vel := within_of (ra := 0) (by rw [val_zero]; rfl) val_135 n0 (h.pace k v hv).1
    refine ⟨⟨?_, by rw [em]; exact hdr.acc, by rw [ej]; exact hdr.adj⟩, pace⟩
    -- the position
    have hu' : Within 0 135 v'.vel := within_of (ra := 0) (by rw [val_zero]; rfl) val_135 n1 pace.1
    have w1 : Within 0 420 (v.vel + v'.vel) := by
      have := hu.add hu' 0 420 (by norm_num) (by norm_num) (by norm_num) (by norm_num)
      exact_mod_cast this
    have w2 : Within 0 210 (0.5 * (v.vel + v'.vel)) := by
      have := within_half.mul w1 0 210 (by norm_num) (by norm_num) fun r s h1 h2 h3 h4 => ⟨by push_cast; nlinarith, by push_cast; nlinarith⟩
      exact_mod_cast this
    have w3 : Within 0 210 (0.5 * (v.vel + v'.vel) * dt) := by
      have := w2.mul hd 0 210 (by norm_num) (by norm_num) fun r s h1 h2 h3 h4 => ⟨by push_cast; nlinarith, by push_cast; nlinarith⟩
      exact_mod_cast this
    rcases ht.pos hv' hlane with ⟨-, ep, -⟩ | ⟨a, b, l, -, -, hl, hlt, ep⟩
    · rw [ep]
      obtain ⟨q, hq⟩ : ∃ q, q = 0.5 * (v.vel + v'.vel) * dt := ⟨_, rfl⟩
      rw [← hq] at w3 ⊢
      obtain ⟨-, pn, pl⟩ := le_iff.1 hdr.pos
      obtain ⟨qn, qr, eq, q1, -⟩ := w3.real
      have hsum := add_rounding pn qn (.inr (by rw [eq]; exact EReal.coe_ne_bot _)) (.inr (by rw [eq]; exact EReal.coe_ne_top _))
      refine le_iff.2 ⟨by decide +kernel, hsum.num, hsum.below _ (by decide +kernel) (pl.trans ?_)⟩
      have := add_le_add_right (show (0 : EReal) ≤ val q by rw [eq]; exact_mod_cast q1) (val v.pos)
      rwa [add_zero] at this
    · rw [ep]
      obtain ⟨ln, pn, hlt⟩ := lt_iff.1 hlt
      obtain ⟨l0, hl0, hf⟩ := hr.frame4.bwd hl
      have hlen : Within 0 10000 l.length := by
        have := (h.links _ l0 hl0).length_within
        unfold Link.length at this ⊢
        rwa [hf.curve]
      obtain ⟨-, lr, el, -, -⟩ := hlen.real
      have hsub := sub_rounding pn ln (.inr (by rw [el]; exact EReal.coe_ne_top _)) (.inr (by rw [el]; exact EReal.coe_ne_bot _))
      refine le_iff.2 ⟨by decide +kernel, hsub.num, hsub.below 0.0 (by decide +kernel) ?_⟩
      · rw [val_zero]
        exact (EReal.sub_nonneg (.inr (by rw [el]; exact EReal.coe_ne_top _)) (.inr (by rw [el]; exact EReal.coe_ne_bot _))).2 hlt.le
  refine ⟨fun k l' hl' => ?_, ?_, fun k v hv => (key k v hv).1, fun k v hv => (key k v hv).2⟩
  · obtain ⟨l, hl, hf⟩ := hr.frame.bwd hl'
    have := h.links k l hl
    refine ⟨?_, by rw [hf.speedLimit]; exact this.limit, by rw [hf.group]; exact this.group, by rw [hf.conflicts]; exact this.conflicts⟩
    have := this.length
    unfold Link.length at this ⊢
    rwa [hf.curve]
  · unfold Crossings
    rw [hr.crossings]
    exact h.crossings

/-! ## Histories -/

/-- The operations that are considered: steps take 2⁻¹⁰ to 1 s, vehicles can accelerate by 0.125 to 8 m/s², random factors are numbers.
Links are not grouped into lanes, and vehicles are not moved between links. -/
def Calm : Op Float → Prop
  | .step dt => (0.0009765625 : Float) ≤ dt ∧ dt ≤ (1.0 : Float)
  | .addVehicle a _ => (0.125 : Float) ≤ a.maxAcc ∧ a.maxAcc ≤ (8.0 : Float)
  | .randomiseVelocityAdjusts _ sample => ∀ k, (sample k).isNaN = false
  | .addLinkGroup _ _ => False
  | .doLaneChange _ _ _ => False
  | _ => True

/-- The simulations that can be reached by such operations. -/
inductive CalmReach [Env] (strict : Prop) : Sim Float → Prop
  | new : CalmReach strict .new
  | exec {s s' : Sim Float} (op : Op Float) : CalmReach strict s → Allowed strict s op → Calm op → s.exec op = .ok s' → CalmReach strict s'

theorem CalmReach.reach [Env] (h : CalmReach strict s) : Reach strict s := by
  induction h with
  | new => exact .new
  | exec op _ ha _ he ih => exact .exec op ih ha he

/-- Networks only grow. -/
theorem calm_links [Env] [LawfulDijkstra] {op : Op Float} (hs : SimInv strict s) (hc : Calm op) (he : s.exec op = .ok s') {k : Key} {l : Link Float}
    (hl : s.links.get? k = some l) : ∃ l', s'.links.get? k = some l' ∧ l'.curve = l.curve ∧ l'.speedLimit = l.speedLimit ∧ l'.group = l.group ∧
      ∀ c ∈ l.conflicts, c ∈ l'.conflicts := by
  cases exec_network hs he with
  | frame hf =>
    obtain ⟨l', hl', e⟩ := hf.fwd k l hl
    exact ⟨l', hl', e.curve, e.speedLimit, e.group, by rw [e.conflicts]; exact fun _ h => h⟩
  | added a j hop hk => exact ⟨l, hk.old hl, rfl, rfl, rfl, fun _ h => h⟩
  | grouped ids mask g lcs hop hg => subst hop; exact hc.elim
  | converging a b cs _ hc =>
    obtain ⟨l', hl', rfl⟩ := hc.fwd k l hl
    exact ⟨_, hl', rfl, rfl, rfl, fun c hc => List.mem_append_left _ hc⟩
  | connected a b _ _ _ hc =>
    obtain ⟨l', hl', rfl⟩ := hc.fwd k l hl
    exact ⟨_, hl', rfl, rfl, rfl, fun _ h => h⟩

theorem calm_crossings [Env] [LawfulDijkstra] {op : Op Float} (hs : SimInv strict s) (hc : Calm op) (he : s.exec op = .ok s') : ∀ c ∈ s.conflicts, c ∈ s'.conflicts := by
  cases op with
  | addLink a =>
    simp only [Sim.exec, M_bind_ok, M_pure_ok] at he
    obtain ⟨⟨s1, k⟩, h, rfl⟩ := he
    dsimp only
    rw [(addLink_ok hs.net.wf h).eq]
    exact fun _ h => h
  | addLinkGroup ids m =>
    obtain ⟨g, lcs, h⟩ := addLinkGroup_ok hs.net he
    rw [h.eq]
    exact fun _ h => h
  | addLinkConvergance a b =>
    rcases addLinkConvergance_ok hs.net he with rfl | ⟨c, la, lb, -, -, -, -, -, -, -, e⟩
    · exact fun _ h => h
    · rw [e]
      exact fun _ h => List.mem_append_left _ h
  | addLinkConnection a b =>
    rw [(addLinkConnection_ok he).2.2.2]
    exact fun _ h => h
  | addTrafficLight tl =>
    simp only [Sim.exec, M_bind_ok, M_pure_ok] at he
    obtain ⟨⟨s1, k⟩, h, rfl⟩ := he
    dsimp only
    rw [(addTrafficLight_ok hs.lwf h).eq]
    exact fun _ h => h
  | addVehicle a link =>
    simp only [Sim.exec, M_bind_ok, M_pure_ok] at he
    obtain ⟨⟨s1, k⟩, h, rfl⟩ := he
    dsimp only
    rw [(addVehicle_ok hs h).eq]
    exact fun _ h => h
  | removeVehicle k =>
    rw [((removeVehicle_spec (E := fun _ => True) hs k).ok he).eq]
    exact fun _ h => h
  | randomiseVelocityAdjusts sd f =>
    rw [(randomise_ok he).2]
    exact fun _ h => h
  | setVehicleFrozen k b =>
    simp only [Sim.exec, M_pure_ok] at he
    obtain ⟨f, e⟩ := setVehicleFrozen_eq s k b
    rw [← he, e]
    exact fun _ h => h
  | setVehicleDestination k d =>
    simp only [Sim.exec, Sim.setVehicleDestination, M_bind_ok, M_pure_ok] at he
    obtain ⟨v, -, v', -, rfl⟩ := he
    exact fun _ h => h
  | setLinkControl k c =>
    rw [(setLinkControl_ok he).2.2]
    exact fun _ h => h
  | doLaneChange k l d => exact hc.elim
  | step dt =>
    have he : s.step dt = .ok s' := he
    obtain ⟨s1, s2, s3, s4, s5, s6, hr⟩ := (step_spec hs dt).ok he
    rw [hr.crossings]
    exact fun _ h => h

theorem clock_step [Env] [LawfulDijkstra] (hs : Reach strict s) (he : s.exec (.step dt) = .ok s') (hdt : (0.0009765625 : Float) ≤ dt ∧ dt ≤ (1.0 : Float))
    (h : (0.0 : Float) ≤ s.accUpdate) : (0.0 : Float) ≤ s'.accUpdate := by
  have he : s.step dt = .ok s' := he
  obtain ⟨s1, s2, s3, s4, s5, s6, hr⟩ := (step_spec hs.inv dt).ok he
  have hclk : s'.accUpdate = if s.accUpdate < 0.1 then s.accUpdate + dt else 0.0 + dt := hr.clocks.2.1
  obtain ⟨dn, d, ed, d1, d2⟩ := (within_of val_tick val_one_real hdt.1 hdt.2).real
  have add : ∀ {x : Float}, (0.0 : Float) ≤ x → (0.0 : Float) ≤ x + dt := by
    intro x hx
    obtain ⟨xn, x0⟩ := nonneg_iff.1 hx
    have hsum := add_rounding xn dn (.inr (by rw [ed]; exact EReal.coe_ne_bot _)) (.inr (by rw [ed]; exact EReal.coe_ne_top _))
    refine le_iff.2 ⟨by decide +kernel, hsum.num, hsum.below _ (by decide +kernel) ?_⟩
    rw [val_zero, ed]
    exact add_nonneg x0 (EReal.coe_nonneg.2 (by linarith))
  rw [hclk]
  split
  · exact add h
  · exact add (nonneg_iff.2 ⟨by decide +kernel, by rw [val_zero]⟩)

theorem CalmReach.clock [Env] [LawfulDijkstra] (h : CalmReach strict s) : (0.0 : Float) ≤ s.accUpdate := by
  induction h with
  | new => exact nonneg_iff.2 ⟨by decide +kernel, by show 0 ≤ val 0.0; rw [val_zero]⟩
  | @exec s s' op hr ha hp he ih =>
    by_cases hop : ∃ dt, op = .step dt
    · obtain ⟨dt, rfl⟩ := hop
      exact clock_step hr.reach he hp ih
    · rw [(exec_clocks hr.reach.inv he fun dt e => hop ⟨dt, e⟩).1]
      exact ih

/-- A vehicle that stands does not get too fast. -/
theorem pacing_new {c : Float} {v : Vehicle Float} (h : (0.0 : Float) ≤ c) (hv : v.vel = 0.0) : Pacing c v := by
  refine ⟨by rw [hv]; exact (by decide +kernel : (0.0 : Float) ≤ 135.0), ?_⟩
  by_cases hlt : c < 0.1
  · obtain ⟨cn, -, clt⟩ := lt_iff.1 hlt
    obtain ⟨-, c0⟩ := nonneg_iff.1 h
    induction ec : val c with
    | bot => rw [ec] at c0; exact absurd c0 (not_le_of_gt EReal.bot_lt_zero)
    | top => rw [ec] at clt; exact absurd clt (not_lt_of_ge le_top)
    | coe cv =>
      rw [ec] at c0
      have c0 : 0 ≤ cv := EReal.coe_nonneg.1 c0
      exact .inr (.inr ⟨0, cv, 0, rfl, by rw [hv, val_zero]; rfl, by simpa using c0, by push_cast; linarith⟩)
  · exact .inl hlt

theorem clamp_within {x : Float} (h : x.isNaN = false) : (0.75 : Float) ≤ Sim.clampAdjust x ∧ Sim.clampAdjust x ≤ (1.25 : Float) := by
  unfold Sim.clampAdjust
  have n1 : (0.75 : Float).isNaN = false := by decide +kernel
  have n2 : (1.25 : Float).isNaN = false := by decide +kernel
  have h12 : val 0.75 ≤ val 1.25 := by rw [val_three_quarters, val_five_quarters]; exact EReal.coe_le_coe_iff.2 (by norm_num)
  split
  · exact ⟨le_iff.2 ⟨n1, n1, le_rfl⟩, le_iff.2 ⟨n1, n2, h12⟩⟩
  · next hlo =>
    split
    · exact ⟨le_iff.2 ⟨n1, n2, h12⟩, le_iff.2 ⟨n2, n2, le_rfl⟩⟩
    · next hhi => exact ⟨le_of_not_lt_float n1 h hlo, le_of_not_lt_float h n2 hhi⟩

theorem CalmReach.drivers [Env] [LawfulDijkstra] (h : CalmReach strict s) (hl : ∀ k l, s.links.get? k = some l → Street l) (hc : Crossings s) : Drivers s := by
  induction h with
  | new =>
    have none : ∀ k v, (Sim.new : Sim Float).vehicles.get? k ≠ some v := fun k v hv => by cases hv
    exact ⟨hl, hc, fun k v hv => absurd hv (none k v), fun k v hv => absurd hv (none k v)⟩
  | @exec s s' op hr ha hp he ih =>
    have hinv := hr.reach.inv
    have h0 : Drivers s := by
      refine ih (fun k l hk => ?_) fun c hcs => hc c (calm_crossings hinv hp he c hcs)
      obtain ⟨l', hl', e1, e2, e3, e4⟩ := calm_links hinv hp he hk
      have := hl k l' hl'
      refine ⟨?_, by rw [← e2]; exact this.limit, by rw [← e3]; exact this.group, fun c hc => this.conflicts c (e4 c hc)⟩
      have := this.length
      unfold Link.length at this ⊢
      rwa [← e1]
    by_cases hop : ∃ dt, op = .step dt
    · obtain ⟨dt, rfl⟩ := hop
      exact h0.step hr.reach he hp
    have hne : ∀ dt, op ≠ .step dt := fun dt e => hop ⟨dt, e⟩
    have hcl := (exec_clocks hinv he hne).1
    have key : ∀ k v, s'.vehicles.get? k = some v → Driver v ∧ Pacing s'.accUpdate v := by
      intro k v' hv'
      rw [hcl]
      cases exec_origin hinv he hv' with
      | added a link pf hop _ _ _ hpl =>
        subst hop
        obtain ⟨p, d, r, c, rfl⟩ := hpl
        exact ⟨⟨(by decide +kernel : (0.0 : Float) ≤ 0.0), hp, (by decide +kernel : (0.75 : Float) ≤ 1.0), (by decide +kernel : (1.0 : Float) ≤ 1.25)⟩,
          pacing_new hr.clock rfl⟩
      | same hv _ => exact ⟨h0.vehicles k v' hv, h0.pace k v' hv⟩
      | adjusted v x hv e hop =>
        obtain ⟨sd, f, rfl, rfl⟩ := hop
        subst e
        have := h0.vehicles k v hv
        exact ⟨⟨this.pos, this.acc, clamp_within (hp k)⟩, h0.pace k v hv⟩
      | destined v pf dst hv _ _ _ e =>
        subst e
        have := h0.vehicles k v hv
        exact ⟨⟨this.pos, this.acc, this.adj⟩, h0.pace k v hv⟩
      | shifted v link d pos lc pf hv hop => subst hop; exact hp.elim
      | stepped dt s1 s2 s3 s4 s5 s6 v v1 v2 v4 hop => exact absurd hop (hne dt)
    exact ⟨hl, hc, fun k v hv => (key k v hv).1, fun k v hv => (key k v hv).2⟩

/-- **C104** In binary64, nothing gets out of hand, however long the simulation is used: speeds are numbers from 0 to 135 m/s, positions are not
negative, and the next step ends if the search for shortest paths does.  Steps may take 2⁻¹⁰ to 1 s, vehicles may be able to accelerate by
0.125 to 8 m/s², and speed limits may be up to 100 m/s.  See `Calm` for the operations and `Street` for the network. -/
theorem C104_runs [Env] [LawfulDijkstra] (h : CalmReach strict s) (hl : ∀ k l, s.links.get? k = some l → Street l) (hc : Crossings s) :
    (∀ k v, s.vehicles.get? k = some v → (0.0 : Float) ≤ v.vel ∧ v.vel ≤ (135.0 : Float) ∧ (0.0 : Float) ≤ v.pos) ∧
      (SearchEnds → ∀ dt, ∃ N r, r ≠ .error .diverges ∧ ∀ n, N ≤ n → @Sim.step Float _ (Env.withFuel n) s dt = r) := by
  have h1 := h.drivers hl hc
  exact ⟨fun k v hk => ⟨C20_number_float h.reach (getVeh_ok.2 hk), (h1.pace k v hk).1, (h1.vehicles k v hk).pos⟩,
    fun hends dt => C103_streets_partial h.reach hends (h1.streets h.reach) hc dt⟩

/-! ## An example -/

theorem calm_run [Env] : ∀ (ops : List (Op Float)) (s s' : Sim Float), CalmReach True s → (∀ op ∈ ops, Calm op) → runChecked ops s = some s' →
    CalmReach True s'
  | [], s, s', hr, _, h => by
    simp only [runChecked, Option.some.injEq] at h
    exact h ▸ hr
  | op :: ops, s, s', hr, hc, h => by
    unfold runChecked at h
    split at h
    · rename_i hg
      split at h
      · rename_i s1 h1
        exact calm_run ops s1 s' (.exec op hr (opChecked_allowed hg) (hc op (by simp)) h1) (fun o ho => hc o (by simp [ho])) h
      · simp at h
    · simp at h

namespace Ringed

/-- A car on a street that leads into a triangle of streets, and two steps. -/
def drive : List (Op Float) := ways ++ [.addVehicle Town.car ⟨0, 1⟩, .step 0.125, .step 0.0625]

def test104 [Env] : Bool := match runChecked drive Sim.new with
  | none => false
  | some s =>
    (s.conflicts.all fun c => decide ((-1000000.0 : Float) ≤ c.link0.minPos) && decide ((-1000000.0 : Float) ≤ c.link1.minPos)) &&
    (s.links.keys.all fun k => (s.links.get? k).all street) && (s.vehicles.get? ⟨0, 1⟩).any (fun v => decide ((0.25 : Float) < v.vel)) &&
    (s.links.get? ⟨1, 1⟩).any gives

/-- A test for `Calm`. -/
def calm : Op Float → Bool
  | .step dt => decide ((0.0009765625 : Float) ≤ dt) && decide (dt ≤ (1.0 : Float))
  | .addVehicle a _ => decide ((0.125 : Float) ≤ a.maxAcc) && decide (a.maxAcc ≤ (8.0 : Float))
  | .randomiseVelocityAdjusts _ _ | .addLinkGroup _ _ | .doLaneChange _ _ _ => false
  | _ => true

theorem drive_calm : ∀ op ∈ drive, Calm op := by
  have h : drive.all calm = true := by decide +kernel
  intro op hop
  have := List.all_eq_true.1 h op hop
  cases op <;> simp_all [calm, Calm]

end Ringed

example : ∃ (_ : Env) (_ : LawfulDijkstra) (s : Sim Float) (v : Vehicle Float), CalmReach True s ∧ (∀ k l, s.links.get? k = some l → Street l) ∧ Crossings s ∧
    SearchEnds ∧ s.vehicles.get? ⟨0, 1⟩ = some v ∧ (0.25 : Float) < v.vel := by
  have h : @Ringed.test104 Ringed.env = true := by decide +kernel
  let _ := Ringed.env
  unfold Ringed.test104 at h
  split at h
  · cases h
  · next s hs =>
    simp only [Bool.and_eq_true, List.all_eq_true, decide_eq_true_eq, Option.all_eq_true, Option.any_eq_true] at h
    obtain ⟨⟨⟨h2, h3⟩, v, hv, h4⟩, -⟩ := h
    refine ⟨Ringed.env, Search.full_lawful 400, s, v, calm_run _ _ _ .new Ringed.drive_calm hs, fun k l hl => ?_, h2, Search.full_ends 400, hv, h4⟩
    have := h3 k (SlotMap.mem_keys.2 ⟨l, hl⟩) l hl
    unfold Ringed.street at this
    simp only [Bool.and_eq_true, decide_eq_true_eq, List.all_eq_true, Option.isNone_iff_eq_none] at this
    obtain ⟨⟨⟨⟨⟨a, b⟩, c⟩, d⟩, e⟩, f⟩ := this
    exact ⟨⟨a, b⟩, ⟨c, d⟩, e, fun c hc => ⟨(f c hc).1.1, (f c hc).1.2, (f c hc).2⟩⟩

end TrafficSim
