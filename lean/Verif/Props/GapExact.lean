import Verif.Props.Gap
import Verif.Props.Dynamics

/-! # Gap acceptance in exact arithmetic -/

namespace TrafficSim

/-- The minimum reach time is at least the distance divided by the maximum speed. -/
theorem minReachTime_ge (m : AccelerationModel ℝ) {vel dist maxVel : ℝ} (ha : 0 < m.maxAcc) (hm : 0 < maxVel) (hd : 0 ≤ dist) :
    dist / maxVel ≤ m.minReachTime vel dist maxVel := by
  rw [minReachTime_eq]
  split
  · rename_i hlt
    set r := Real.sqrt (2 * m.maxAcc * dist + vel ^ 2) with hr
    have hda := mul_nonneg ha.le hd
    have hr2 : r ^ 2 = 2 * m.maxAcc * dist + vel ^ 2 := Real.sq_sqrt (by nlinarith [sq_nonneg vel])
    have hr0 : 0 ≤ r := Real.sqrt_nonneg _
    have hrm : r < maxVel := by nlinarith
    have hvr : vel ≤ r := by
      rcases le_or_gt vel 0 with h | h
      · linarith
      · nlinarith
    rw [div_le_div_iff₀ hm ha]
    have h1 : dist * (2 * m.maxAcc) = (r - vel) * (r + vel) := by nlinarith
    nlinarith
  · have : (maxVel - vel) / m.maxAcc + (dist - (vel + maxVel) / 2 * ((maxVel - vel) / m.maxAcc)) / maxVel =
        dist / maxVel + (maxVel - vel) ^ 2 / (2 * maxVel * m.maxAcc) := by
      field_simp; ring
    rw [this]
    have h2 : 0 ≤ (maxVel - vel) ^ 2 / (2 * maxVel * m.maxAcc) := by positivity
    linarith

/-- The minimum reach time does not decrease with the distance. -/
theorem minReachTime_mono (m : AccelerationModel ℝ) {vel dist dist' maxVel : ℝ} (ha : 0 < m.maxAcc) (hv : 0 ≤ vel)
    (hm : 0 < maxVel) (hd : 0 ≤ dist) (hdd : dist ≤ dist') :
    m.minReachTime vel dist maxVel ≤ m.minReachTime vel dist' maxVel := by
  rcases le_or_gt vel maxVel with hvm | hvm
  · have h1 := C24_least m ha hv hvm hm hd
    have h2 := C24_least m ha hv hvm hm (hd.trans hdd)
    apply h1.2
    obtain ⟨h0, x, v, hx, hle⟩ := h2.1
    exact ⟨h0, x, v, hx, hdd.trans hle⟩
  · have key : ∀ x, 0 ≤ x → m.minReachTime vel x maxVel =
        x / maxVel + (maxVel - vel) ^ 2 / (2 * maxVel * m.maxAcc) := by
      intro x hx
      rw [minReachTime_eq, if_neg (by nlinarith [mul_nonneg ha.le hx])]
      field_simp; ring
    rw [key _ hd, key _ (hd.trans hdd)]
    have := div_le_div_of_nonneg_right hdd hm.le
    linarith

theorem Vehicle.minReachTime_mono {v : Vehicle ℝ} {p p' maxVel : ℝ} (ha : 0 < v.acc.maxAcc) (hv : 0 ≤ v.vel)
    (hm : 0 < maxVel) (hp : p ≤ p') : v.minReachTime p maxVel ≤ v.minReachTime p' maxVel := by
  unfold Vehicle.minReachTime
  refine TrafficSim.minReachTime_mono _ ha hv hm ?_ ?_
  · show (0 : ℝ) ≤ max (p - v.pos) 0.0
    rw [show (0.0 : ℝ) = 0 by norm_num]
    exact le_max_right _ _
  · show max (p - v.pos) 0.0 ≤ max (p' - v.pos) 0.0
    exact max_le_max (by linarith) le_rfl

theorem Vehicle.minReachTime_ge {v : Vehicle ℝ} {p maxVel : ℝ} (ha : 0 < v.acc.maxAcc) (hm : 0 < maxVel) :
    (p - v.pos) / maxVel ≤ v.minReachTime p maxVel := by
  unfold Vehicle.minReachTime
  have h0 : (0 : ℝ) ≤ max (p - v.pos) 0.0 := by
    rw [show (0.0 : ℝ) = 0 by norm_num]
    exact le_max_right _ _
  refine le_trans ?_ (TrafficSim.minReachTime_ge _ (dist := max (p - v.pos) 0.0) ha hm h0)
  exact div_le_div_of_nonneg_right (le_max_left _ _) hm.le

/-- A way upstream from link `k` to link `k'` as in `Approach`, but regardless of the time. -/
inductive OpenWay (links : LinkSet ℝ) (vs : VehicleSet ℝ) (k0 : Key) : Nat → Key → ℝ → ℝ → ℝ → Nat → Key → ℝ → ℝ → ℝ → Prop
  | here {i : Nat} {k : Key} {pos far mv : ℝ} : OpenWay links vs k0 i k pos far mv i k pos far mv
  | up {i i' : Nat} {k k' j : Key} {pos far mv pos' far' mv' : ℝ} {l lj : Link ℝ} : links.get? k = some l →
      NoneNear vs l i k0 far → j ∈ l.linksIn → links.get? j = some lj →
      OpenWay links vs k0 (i + 1) j (pos + lj.length) (far + lj.length) (max mv lj.speedLimit) i' k' pos' far' mv' →
      OpenWay links vs k0 i k pos far mv i' k' pos' far' mv'

theorem OpenWay.pos {links : LinkSet ℝ} {vs : VehicleSet ℝ} (hpos : ∀ k l, links.get? k = some l → 0 < l.length) {k0 : Key}
    {i i' : Nat} {k k' : Key} {pos far mv pos' far' mv' : ℝ} (h : OpenWay links vs k0 i k pos far mv i' k' pos' far' mv') :
    pos ≤ pos' ∧ mv ≤ mv' ∧ ∀ l, k ≠ k' ∨ i ≠ i' → links.get? k' = some l → pos + l.length ≤ pos' := by
  induction h with
  | here => exact ⟨le_rfl, le_rfl, fun l h => by simp at h⟩
  | @up i i' k k' j pos far mv pos' far' mv' l lj hl hnn hj hlj _ ih =>
    obtain ⟨h1, h2, h3⟩ := ih
    have := hpos j lj hlj
    refine ⟨by linarith, (le_max_left _ _).trans h2, fun l' _ hl' => ?_⟩
    by_cases e : j = k'
    · subst e
      rw [hlj] at hl'; cases hl'
      exact h1
    · have := h3 l' (.inl e) hl'
      linarith

/-- The time from which a way is not searched further. -/
theorem OpenWay.cases {links : LinkSet ℝ} {vs : VehicleSet ℝ} (hpos : ∀ k l, links.get? k = some l → 0 < l.length) (time : ℝ)
    {k0 : Key} {i i' : Nat} {k k' : Key} {pos far mv pos' far' mv' : ℝ}
    (h : OpenWay links vs k0 i k pos far mv i' k' pos' far' mv') :
    Approach links vs time k0 i k pos far mv i' k' pos' far' mv' ∨
      ∃ p m, time < p / m ∧ mv ≤ m ∧ m ≤ mv' ∧ ∀ l, links.get? k' = some l → p + l.length ≤ pos' := by
  induction h with
  | here => exact .inl .here
  | @up i i' k k' j pos far mv pos' far' mv' l lj hl hnn hj hlj hw ih =>
    by_cases hcut : time < pos / mv
    · refine .inr ⟨pos, mv, hcut, le_rfl, (le_max_left _ _).trans (hw.pos hpos).2.1, fun l' hl' => ?_⟩
      obtain ⟨h1, -, h3⟩ := hw.pos hpos
      have := hpos j lj hlj
      by_cases e : j = k'
      · subst e
        rw [hlj] at hl'; cases hl'
        exact h1
      · have := h3 l' (.inl e) hl'
        linarith
    · rcases ih with ih | ⟨p, m, h1, h2, h3, h4⟩
      · exact .inl (.up hl hnn hcut hj hlj ih)
      · exact .inr ⟨p, m, h1, (le_max_left _ _).trans h2, h3, h4⟩

theorem OpenWay.mv_le {links : LinkSet ℝ} {vs : VehicleSet ℝ} {V : ℝ} (hV : ∀ k l, links.get? k = some l → l.speedLimit ≤ V)
    {k0 : Key} {i i' : Nat} {k k' : Key} {pos far mv pos' far' mv' : ℝ}
    (h : OpenWay links vs k0 i k pos far mv i' k' pos' far' mv') (hm : mv ≤ V) : mv' ≤ V := by
  induction h with
  | here => exact hm
  | up hl hnn hj hlj _ ih => exact ih (max_le hm (hV _ _ hlj))

section
variable {strict : Prop} {s s' : Sim ℝ} {dt : ℝ}

/-- **C30 (partly)** in exact arithmetic, with the time that the admitted vehicle needs to get to the end of
the region of conflict.  It is missing that the same holds where the search ended before, see
`C30_partial`. -/
theorem C30_exact_partial [Env] [LawfulDijkstra] (h : Reach strict s)
    (hpos : ∀ k l, s.getLinkRef k = .ok l → 0 < l.length) (he : s.step dt = .ok s') {k : Key} {v v' : Vehicle ℝ}
    (hv : s.getVehicle k = .ok v) (hv' : s'.getVehicle k = .ok v') (hvel : 0 ≤ v.vel) (hacc : 0 < v.acc.maxAcc)
    {i : Nat} {j : Key} (h0 : 0 < i) (hi : i < v'.entered) (hj : v'.route[i]? = some j)
    (hnew : ∀ i0, 0 < i0 → i0 < v.entered → v.route[i0]? ≠ some j) {l : Link ℝ} (hl : s.getLinkRef j = .ok l)
    (hlim : 0 < l.speedLimit) {d : ℝ} {m : Bool} {pr : Int} (hc : l.control = .yield_ d m pr) :
    ∃ s1 v1 f, s.calculateLaneChanges = .ok s1 ∧ s1.getVehicle k = .ok v1 ∧ v1.route[v1.entered]? = some j ∧
      v1.queued = some f ∧
      ∃ i a lk llk p, i + 1 = v1.entered ∧ v1.linkId = some a ∧ v1.route[i]? = some lk ∧ s.getLinkRef lk = .ok llk ∧
        Upstream s.links lk llk.length i a p ∧
        ∀ c ∈ l.conflicts, ∃ lc time, s.getLinkRef c.linkId = .ok lc ∧
          v1.minReachTime (p + c.ownMaxPos) l.speedLimit + 0.5 ≤ time ∧
          ∀ i' k' pos far mv l' kw w,
            Approach s1.links s1.vehicles time c.linkId 0 c.linkId c.minPos c.maxPos (max 0 lc.speedLimit) i' k' pos far mv →
            s1.getLinkRef k' = .ok l' → Nearest s1.vehicles l' i' c.linkId far kw w → Precedes lc.control f pr w i' →
            time < w.minReachTime pos mv := by
  obtain ⟨s1, v1, f, h1, h2, h3, h4, i, a, lk, llk, p, h5, h6, h7, h8, h9, h10⟩ :=
    C30_partial h (longLinks_real fun k l hl => hpos k l (getLink_ok.2 hl)) he hv hv' h0 hi hj hnew hl hc
  refine ⟨s1, v1, f, h1, h2, h3, h4, i, a, lk, llk, p, h5, h6, h7, h8, h9, fun c hc => ?_⟩
  obtain ⟨lc, h11, h12⟩ := h10 c hc
  obtain ⟨t1, s2, s3, s4, s5, s6, hr⟩ := (step_spec h.inv dt).ok he
  obtain ⟨u1, v2, v4, ht⟩ := hr.trace (getVeh_ok.1 hv)
  have e1 : t1 = s1 := Except.ok.inj (hr.run1.symm.trans h1)
  subst e1
  have e2 : u1 = v1 := by
    have := getVeh_ok.2 ht.get1
    exact Except.ok.inj (this.symm.trans h2)
  subst e2
  obtain ⟨e3, e4, -⟩ := ht.steer.same
  refine ⟨lc, u1.minReachTime (p + llk.length + c.ownMaxPos) l.speedLimit + 0.5, h11, ?_,
    fun i' k' pos far mv l' kw w ha => ?_⟩
  rotate_left
  · refine h12 i' k' pos far mv l' kw w ?_
    have : (fmax 0.0 lc.speedLimit : ℝ) = max 0 lc.speedLimit := by
      show max (0.0 : ℝ) lc.speedLimit = max 0 lc.speedLimit
      rw [show (0.0 : ℝ) = 0 by norm_num]
    rw [this]
    exact ha
  · have := Vehicle.minReachTime_mono (v := u1) (p := p + c.ownMaxPos) (p' := p + llk.length + c.ownMaxPos)
      (maxVel := l.speedLimit) (by rw [e4]; exact hacc) (by rw [e3]; exact hvel) hlim (by linarith [hpos lk llk h8])
    linarith

/-- **C30** where no link is faster than the conflicting link: if a step admits a vehicle to a link where it
must give way, then at each conflict of that link, on every way upstream from the conflict, the nearest vehicle
that goes first needs more time to get to the conflict than the admitted vehicle needs to get past it, and
0.5 s. -/
theorem C30_uniform [Env] [LawfulDijkstra] (h : Reach strict s)
    (hpos : ∀ k l, s.getLinkRef k = .ok l → 0 < l.length) (he : s.step dt = .ok s') {k : Key} {v v' : Vehicle ℝ}
    (hv : s.getVehicle k = .ok v) (hv' : s'.getVehicle k = .ok v') (hvel : 0 ≤ v.vel) (hacc : 0 < v.acc.maxAcc)
    {i : Nat} {j : Key} (h0 : 0 < i) (hi : i < v'.entered) (hj : v'.route[i]? = some j)
    (hnew : ∀ i0, 0 < i0 → i0 < v.entered → v.route[i0]? ≠ some j) {l : Link ℝ} (hl : s.getLinkRef j = .ok l)
    (hlim : 0 < l.speedLimit) {d : ℝ} {m : Bool} {pr : Int} (hc : l.control = .yield_ d m pr) :
    ∃ s1 v1 f, s.calculateLaneChanges = .ok s1 ∧ s1.getVehicle k = .ok v1 ∧ v1.route[v1.entered]? = some j ∧
      v1.queued = some f ∧
      ∃ i a lk llk p, i + 1 = v1.entered ∧ v1.linkId = some a ∧ v1.route[i]? = some lk ∧ s.getLinkRef lk = .ok llk ∧
        Upstream s.links lk llk.length i a p ∧
        ∀ c ∈ l.conflicts, ∀ lc, s.getLinkRef c.linkId = .ok lc → 0 < lc.speedLimit →
          (∀ k l, s.getLinkRef k = .ok l → l.speedLimit ≤ lc.speedLimit) →
          ∀ i' k' pos far mv l' kw w,
            OpenWay s1.links s1.vehicles c.linkId 0 c.linkId c.minPos c.maxPos lc.speedLimit i' k' pos far mv →
            s1.getLinkRef k' = .ok l' → Nearest s1.vehicles l' i' c.linkId far kw w → Precedes lc.control f pr w i' →
            0 < w.acc.maxAcc → w.pos ≤ l'.length →
            v1.minReachTime (p + c.ownMaxPos) l.speedLimit + 0.5 < w.minReachTime pos mv := by
  obtain ⟨s1, v1, f, h1, h2, h3, h4, i, a, lk, llk, p, h5, h6, h7, h8, h9, h10⟩ :=
    C30_exact_partial h hpos he hv hv' hvel hacc h0 hi hj hnew hl hlim hc
  refine ⟨s1, v1, f, h1, h2, h3, h4, i, a, lk, llk, p, h5, h6, h7, h8, h9, fun c hc lc hlc hlc0 hmax => ?_⟩
  obtain ⟨lc', time, h11, h12, h13⟩ := h10 c hc
  have := Except.ok.inj (h11.symm.trans hlc)
  subst this
  intro i' k' pos far mv l' kw w hw hl' hnear hgf hwa hwp
  obtain ⟨t1, s2, s3, s4, s5, s6, hr⟩ := (step_spec h.inv dt).ok he
  have e1 : t1 = s1 := Except.ok.inj (hr.run1.symm.trans h1)
  subst e1
  have hpos1 : ∀ k l, t1.links.get? k = some l → 0 < l.length := by
    intro k l hk
    obtain ⟨l0, hl0, e⟩ := hr.frame1.bwd hk
    have := hpos k l0 (getLink_ok.2 hl0)
    rw [e]; exact this
  have hmax1 : ∀ k l, t1.links.get? k = some l → l.speedLimit ≤ lc'.speedLimit := by
    intro k l hk
    obtain ⟨l0, hl0, e⟩ := hr.frame1.bwd hk
    have := hmax k l0 (getLink_ok.2 hl0)
    rw [e]; exact this
  refine lt_of_le_of_lt h12 ?_
  rcases hw.cases hpos1 time with ha | ⟨p', m', g1, g2, g3, g4⟩
  · refine h13 i' k' pos far mv l' kw w ?_ hl' hnear hgf
    rw [max_eq_right hlc0.le]
    exact ha
  · have hmv := hw.mv_le hmax1 le_rfl
    have em : m' = mv := le_antisymm g3 (hmv.trans g2)
    have hm0 : 0 < mv := by linarith
    rw [em] at g1
    refine lt_of_lt_of_le g1 (le_trans ?_ (Vehicle.minReachTime_ge hwa hm0))
    refine div_le_div_of_nonneg_right ?_ hm0.le
    have := g4 l' (getLink_ok.1 hl')
    linarith

end

end TrafficSim
