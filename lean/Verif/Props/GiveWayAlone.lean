import Verif.Props.GiveWayRoad
import Verif.Props.SelfWait

/-! # C99: a vehicle that is alone reaches a give-way line and is let in -/

namespace TrafficSim

section
variable {strict : Prop} {s s' : Sim ℝ} {dt : ℝ} {k lk : Key} {v v' : Vehicle ℝ}

/-- A way of at least one link back from a point of a link is at least as long as the link it leads to. -/
theorem Upstream.length_le {links : LinkSet ℝ} {k0 a : Key} {p d : ℝ} {i : Nat} (h : Upstream links k0 p (i + 1) a d) (hp : 0 ≤ p)
    (hpos : ∀ a l, links.get? a = some l → 0 < l.length) : ∃ l, links.get? a = some l ∧ l.length + p ≤ d ∧ (0 < i → l.length < d) := by
  induction i generalizing a d with
  | zero =>
    cases h with
    | up h hl hj hl' =>
      cases h
      exact ⟨_, hl', by linarith, fun h => absurd h (lt_irrefl _)⟩
  | succ i ih =>
    cases h with
    | up h hl hj hl' =>
      obtain ⟨l, hl, h1, -⟩ := ih h
      have := hpos _ _ hl
      exact ⟨_, hl', by linarith, fun _ => by linarith⟩

/-- A vehicle that is let in to no link but its own sees points of that link, or the start of the next one. -/
theorem Sees.within {k0 : Key} {p d : ℝ} {i : Nat} {l : Link ℝ} (h : Sees s k0 p k v i d) (hp : 0 ≤ p) (hpos : ∀ a l, s.links.get? a = some l → 0 < l.length)
    (hlk : v.linkId = some lk) (hl : s.links.get? lk = some l) (hent : v.entered = 1) : i = 0 ∧ k0 = lk ∧ d = p ∨ i = 1 ∧ p = 0 := by
  obtain ⟨a, ha, hu⟩ := h.way
  have : v.route.head? = some lk := hlk
  rw [this] at ha; cases ha
  have hin := h.letIn lk l this hl
  cases i with
  | zero => cases hu; exact .inl ⟨rfl, rfl, rfl⟩
  | succ i =>
    right
    obtain ⟨l', hl', h1, h2⟩ := hu.length_le hp hpos
    rw [hl] at hl'; cases hl'
    have hle : d ≤ l.length := by
      by_contra hlt
      have := hin (not_le.1 hlt)
      omega
    refine ⟨?_, by linarith⟩
    by_contra hne
    have := h2 (by omega)
    linarith

/-- Links of the vehicle's route are not in conflict. -/
def Simple [Env] (k : Key) (s : Sim ℝ) : Prop :=
  ∀ s1 v1, s.calculateLaneChanges = .ok s1 → s1.getVehicle k = .ok v1 → ∀ c ∈ s1.conflicts, c.link0.linkId ∈ v1.route → c.link1.linkId ∉ v1.route

/-- What a vehicle that is alone, and is let in to no link but its own, has to follow is the end of the link. -/
theorem Hindrance.line [Env] {s1 : Sim ℝ} {v1 : Vehicle ℝ} {l : Link ℝ} {gap vel : ℝ} (hi : SimInv strict s1) (h : Hindrance s1 k v1 gap vel)
    (hv1 : s1.vehicles.get? k = some v1) (only : ∀ j w, s1.vehicles.get? j = some w → j = k) (hpos : ∀ a l, s1.links.get? a = some l → 0 < l.length)
    (hlk : v1.linkId = some lk) (hl : s1.links.get? lk = some l) (hent : v1.entered = 1) (hself : lk ∉ l.linksOut) (hgroup : l.group = none)
    (hroute : 2 ≤ v1.route.length) (hconf : ∀ c ∈ s1.conflicts, c.link0.linkId ∈ v1.route → c.link1.linkId ∉ v1.route) :
    gap = l.length - v1.posFront ∧ vel = 0 := by
  cases h with
  | @next lk' j l' u a1 a2 a3 =>
    exfalso
    have := only j u a3
    subst this
    have hn := (hi.mem lk' l' a1).1
    obtain ⟨pre, post, e⟩ := a2
    rw [← e, List.append_assoc, List.nodup_append] at hn
    have := hn.2.1
    simp at this
  | @last k0 j l' i d js u a1 a2 a3 a4 =>
    exfalso
    have := only j u a4
    subst this
    obtain ⟨w, hw, e⟩ := ((hi.mem k0 l' a2).2 j).1 (by rw [a3]; simp)
    rw [hv1] at hw; cases hw
    rw [hlk] at e; cases e
    rcases a1.within (by norm_num) hpos hlk hl hent with ⟨h, -⟩ | ⟨h, -⟩
    · cases h
    · obtain rfl : i = 0 := by omega
      obtain ⟨l1, hl1, hm⟩ := (hi.veh j v1 hv1).next hlk a1.route
      rw [hl] at hl1; cases hl1
      exact hself hm
  | @exit k0 l' i d a1 a2 a3 a4 =>
    exfalso
    rcases a2.within (hpos _ _ a1).le hpos hlk hl hent with ⟨rfl, -⟩ | ⟨-, h⟩
    · rw [List.getElem?_eq_none_iff] at a3; omega
    · exact absurd h (hpos _ _ a1).ne'
  | @entry k0 j l' l'' i d a1 a2 a3 a4 a5 a6 =>
    rcases a2.within (hpos _ _ a1).le hpos hlk hl hent with ⟨rfl, rfl, rfl⟩ | ⟨-, h⟩
    · rw [hl] at a1; cases a1
      norm_num
    · exact absurd h (hpos _ _ a1).ne'
  | @lane lk' j l' l0 u gr ps p o i d pos vel a1 a2 a3 a4 =>
    exfalso
    have := only j u a3
    subst this
    obtain ⟨w, hw, e⟩ := ((hi.mem lk' l' a1).2 j).1 a2
    rw [hv1] at hw; cases hw
    rw [hlk] at e; cases e
    rw [hl] at a1; cases a1
    rw [hgroup] at a4; cases a4
  | @region c a b j u d d' a1 a2 a3 a4 =>
    exfalso
    obtain ⟨i, s1', -⟩ := a3
    obtain ⟨i', s2', -⟩ := a4
    have := only j u s1'.veh
    subst this
    have := s1'.veh
    rw [hv1] at this; cases this
    have m1 := List.mem_of_getElem? s1'.route
    have m2 := List.mem_of_getElem? s2'.route
    rcases a2 with ⟨rfl, rfl⟩ | ⟨rfl, rfl⟩
    · exact absurd m2 (hconf c a1 m1)
    · exact absurd m1 (hconf c a1 m2)
  | @merge c a b j u d d' a1 a2 a3 a4 =>
    exfalso
    obtain ⟨i, s1', -⟩ := a3
    obtain ⟨i', s2', -⟩ := a4
    have := only j u s1'.veh
    subst this
    have := s1'.veh
    rw [hv1] at this; cases this
    have m1 := List.mem_of_getElem? s1'.route
    have m2 := List.mem_of_getElem? s2'.route
    rcases a2 with ⟨rfl, rfl⟩ | ⟨rfl, rfl⟩
    · exact absurd m2 (hconf c a1 m1)
    · exact absurd m1 (hconf c a1 m2)

/-- A decision of a vehicle that is alone and at least `D` metres away from the line: if it is slow, it speeds up. -/
theorem Heading.gains [Env] [LawfulDijkstra] {D x ε : ℝ} {l : Link ℝ} (hh : Heading lk v) (ho : Onward v) (hs : Reach strict s)
    (hst : s.step dt = .ok s') (hv : s.getVehicle k = .ok v) (hv' : s'.getVehicle k = .ok v') (hh' : Heading lk v') (hl : s.getLinkRef lk = .ok l)
    (hlc : l.laneChanges = []) (hself : lk ∉ l.linksOut) (hgroup : l.group = none) (hpos : ∀ k l, s.getLinkRef k = .ok l → 0 < l.length)
    (only : ∀ j w, s.vehicles.get? j = some w → j = k) (hconf : Simple k s) (hfree : k ∉ s.frozen) (hre : ¬ s.accUpdate < 0.1) (hdt : 0 < dt)
    (hA : 0 < v.acc.maxAcc) (hB : 0 < v.acc.comfDec) (hT : 0 ≤ v.acc.headway) (hx : 0 < x)
    (hlim : ∀ k l, s.getLinkRef k = .ok l → x ≤ v.acc.velAdj * l.speedLimit) (hD : 2 < D) (hfar : D ≤ l.length - v.posFront)
    (hε : 0 < ε) (hεx : ε ≤ x / 2)
    (hεD : 2 + ε * v.acc.headway + ε * ε * (1 / (2 * Real.sqrt (v.acc.maxAcc * v.acc.comfDec))) ≤ (D + 2) / 2) :
    v.pos + min (ε / 2 * dt) (min (15 / 16 * v.acc.maxAcc) (v.acc.maxAcc * (1 - ((D + 2) / (2 * D)) ^ 2)) / 2 * dt ^ 2) ≤ v'.pos := by
  obtain ⟨s1, s2, s3, s4, s5, s6, hr⟩ := (step_spec hs.inv dt).ok hst
  obtain ⟨v1, v2, v4, ht⟩ := hr.trace (getVeh_ok.1 hv)
  obtain ⟨b1, b2, b3, b4, b5, b6⟩ := hh.steer ho hs hv hl hlc hr ht
  obtain ⟨e1, e2, -, -⟩ := ht.steer.same
  obtain ⟨e3, -⟩ := ht.steer.stay (b1.trans hh.on.symm)
  obtain ⟨a, w, ev2⟩ := ht.acc.same
  obtain ⟨q, e, lc, cnt, ev4, -⟩ := ht.move.eq
  have m1 : v4.route = v1.route := by
    rw [ev4]; dsimp only; rw [ev2]
  have hi1 := hr.inv1.veh k v1 ht.get1
  obtain ⟨l1, hl1, e0⟩ := hr.frame1.fwd lk l (getLink_ok.1 hl)
  have hlen1 : l1.length = l.length := by rw [e0]; rfl
  have hfront : v1.posFront = v.posFront := by rw [Vehicle.posFront, e3, b6, Vehicle.posFront]
  have h0 := C20_speed hs hv
  obtain ⟨t1, t2, t3⟩ := ht.vel (getVeh_ok.1 hv')
  have hp' : v'.pos = v.pos + 1 / 2 * (v.vel + v'.vel) * dt := by
    have hp4 : v4.pos = v.pos + 1 / 2 * (v.vel + v4.vel) * dt := by
      have : v4.pos = v2.pos + 0.5 * (v2.vel + v4.vel) * dt := by rw [ev4]
      rw [this, ev2]; dsimp only; rw [e1, e3]; norm_num
    rw [t3]
    cases ht.out with
    | stays u hu hp _ =>
      rw [getVeh_ok.1 hv'] at hu; cases hu
      obtain ⟨p, d, r, c, rfl⟩ := hp
      exact hp4
    | passes v5 u hp hne hu hpl =>
      exfalso
      rw [getVeh_ok.1 hv'] at hu; cases hu
      obtain ⟨p, d, r, c, rfl⟩ := hpl
      obtain ⟨i, rest, l', pf, h1, -, -, rfl, -⟩ := hp.ex
      rw [m1] at h1
      have : rest.head? = some lk := hh'.on
      have h2 : v1.route[1]? = some lk := by rw [h1, List.getElem?_cons_succ, ← List.head?_eq_getElem?]; exact this
      obtain ⟨l1', hl1', hm⟩ := hi1.next b1 h2
      rw [hl1] at hl1'; cases hl1'
      rw [e0] at hm
      exact hself hm
    | leaves v5 _ _ hn => rw [getVeh_ok.1 hv'] at hn; cases hn
  have h0' := C20_speed (.exec (.step dt) hs trivial hst) hv'
  by_cases hslow : v.vel ≤ ε
  swap
  · refine le_trans (add_le_add_right (min_le_left _ _) _) ?_
    rw [hp']
    have : ε / 2 * dt ≤ v.vel / 2 * dt := by
      have := (not_le.1 hslow).le
      gcongr
    have : 0 ≤ v'.vel * dt := by positivity
    linarith
  refine le_trans (add_le_add_right (min_le_right _ _) _) ?_
  rcases C83_causes hs hst hre hr.run1 (getVeh_ok.2 ht.get1) hv' with ⟨hf, -⟩ | ⟨-, as, ea, hc⟩
  · exact absurd hf hfree
  generalize ha2 : min (15 / 16 * v.acc.maxAcc) (v.acc.maxAcc * (1 - ((D + 2) / (2 * D)) ^ 2)) = a2
  have ha2' : 0 ≤ a2 := by
    rw [← ha2]
    refine le_min (by positivity) (mul_nonneg hA.le ?_)
    have : (D + 2) / (2 * D) ≤ 1 := by rw [div_le_one (by linarith)]; linarith
    have : 0 ≤ (D + 2) / (2 * D) := by apply div_nonneg <;> linarith
    nlinarith
  have hacc : a2 ≤ v'.acc.acc := by
    rw [ea]
    refine le_foldl_fmin ?_ fun y hy => ?_
    · rw [e2, ← ha2]
      exact (min_le_left _ _).trans (by linarith)
    · rw [← ha2]
      cases hc y hy with
      | @limit j lj _ hj hlj hla =>
        obtain ⟨lj0, hlj0, ej⟩ := hr.frame1.bwd hlj
        rw [e2, e1] at hla
        refine (min_le_left _ _).trans (hla.half h0 hx ?_ (by linarith) hA.le hB.le)
        rw [ej]
        exact hlim j lj0 (getLink_ok.2 hlj0)
      | @follow gap vel hhin =>
        obtain ⟨hg, rfl⟩ := hhin.line hr.inv1 ht.get1 (fun j w hw => by obtain ⟨u, hu, -⟩ := hr.vehs1.bwd hw; exact only j u hu)
          (fun a l hl => by
            obtain ⟨l0, hl0, e⟩ := hr.frame1.bwd hl
            have e : l.length = l0.length := by rw [e]; rfl
            rw [e]; exact hpos a l0 (getLink_ok.2 hl0))
          b1 hl1 b2 (by rw [e0]; exact hself) (by rw [e0]; exact hgroup) b3 (hconf s1 v1 hr.run1 (getVeh_ok.2 ht.get1))
        rw [hlen1, hfront] at hg
        have hgD : D ≤ gap := by rw [hg]; exact hfar
        refine (min_le_right _ _).trans ?_
        rw [idm_far _ (by linarith), e2, e1, sub_zero]
        refine mul_le_mul_of_nonneg_left ?_ hA.le
        have hf0 : 0 ≤ 1 / (2 * Real.sqrt (v.acc.maxAcc * v.acc.comfDec)) := by positivity
        have n1 : 2 + v.vel * v.acc.headway + v.vel * v.vel * (1 / (2 * Real.sqrt (v.acc.maxAcc * v.acc.comfDec))) ≤ (D + 2) / 2 := by
          refine le_trans ?_ hεD
          gcongr
        have n0 : 0 ≤ 2 + v.vel * v.acc.headway + v.vel * v.vel * (1 / (2 * Real.sqrt (v.acc.maxAcc * v.acc.comfDec))) := by positivity
        have n2 : (2 + v.vel * v.acc.headway + v.vel * v.vel * (1 / (2 * Real.sqrt (v.acc.maxAcc * v.acc.comfDec)))) / gap ≤ (D + 2) / (2 * D) := by
          rw [show (D + 2) / (2 * D) = (D + 2) / 2 / D by rw [div_div]]
          exact div_le_div₀ (by linarith) n1 (by linarith) hgD
        have n3 := pow_le_pow_left₀ (div_nonneg n0 (by linarith)) n2 2
        linarith
  have hvel : v.vel + dt * a2 ≤ v'.vel := by
    rw [t1, ← t2]
    refine le_trans ?_ (le_max_left _ _)
    have : a2 ≤ v'.acc.getAcc := hacc.trans (le_max_left _ _)
    gcongr
  rw [hp']
  have h1 : 0 ≤ v.vel * dt := by positivity
  have h2 : (v.vel + dt * a2) * dt ≤ v'.vel * dt := by gcongr
  nlinarith

/-- **C99** In exact arithmetic: when accelerations are due, a vehicle that is alone and not frozen is less than `L` metres away from the end of its link, and its plans
go beyond this link.  If it has queued, then where a line affects vehicles.  It stands, or can stop at least `3/4 h²` metres before the end if it brakes
fully.  At all links that follow vehicles must give way, and may queue within `D` metres of the line, for some `D` greater than 2, but not
further away than where a line affects vehicles.  Then there is a number of steps, which depends on `D`, `L`, `dt` and on the way in which the
vehicle accelerates, and one of them lets it in to one of these links while its front is before the line, if its way does not cross itself.  Here `h = dt + 0.1`. -/
theorem C99_alone {D L : ℝ} {acc : AccelerationModel ℝ} (hdt : 0 < dt) (hD : 2 < D) (hc : Stopping acc (dt + 0.1)) :
    ∃ N, ∀ [Env] [LawfulDijkstra] {M : ℝ} {l : Link ℝ} {s0 : Sim ℝ} {v0 : Vehicle ℝ} {σ : Nat → Sim ℝ},
      Reach strict s0 → ¬ s0.accUpdate < 0.1 → s0.getVehicle k = .ok v0 → (∀ j w, s0.getVehicle j = .ok w → j = k) → k ∉ s0.frozen →
      Heading lk v0 → Onward v0 → s0.getLinkRef lk = .ok l → l.laneChanges = [] → l.group = none → lk ∉ l.linksOut →
      (∀ k l, s0.getLinkRef k = .ok l → 0 < l.length) →
      0 ≤ v0.halfLen → v0.acc = acc → 0 < acc.velAdj →
      (∀ k l, s0.getLinkRef k = .ok l → 0 < l.speedLimit ∧ l.speedLimit ≤ M ∧ 4 * acc.maxAcc * (dt + 0.1) ≤ acc.velAdj * l.speedLimit) →
      v0.vel ≤ acc.velAdj * M →
      (acc.velAdj * M) ^ 2 + 2 * (acc.maxAcc + 6) * (dt + 0.1) * (acc.velAdj * M) + (acc.maxAcc + 3) ^ 2 * (dt + 0.1) ^ 2 ≤ 60 * l.speedLimit →
      v0.posFront ≤ l.length → (v0.vel = 0 ∨ v0.posFront + v0.vel ^ 2 / 12 + 3 / 4 * (dt + 0.1) ^ 2 ≤ l.length) →
      l.length - v0.posFront < L → (v0.queued ≠ none → l.length - v0.posFront ≤ 5 * l.speedLimit) → D ≤ 5 * l.speedLimit →
      σ 0 = s0 → (∀ n < N, (σ n).step dt = .ok (σ (n + 1))) →
      (∀ n < N, GiveWay D lk (σ n)) →
      (∀ n < N, ∀ j lj d m p, j ∈ l.linksOut → (σ n).getLinkRef j = .ok lj → lj.control = .yield_ d m p → d ≤ 5 * l.speedLimit) →
      (∀ n < N, Quiet lk (σ n)) → (∀ n < N, Simple k (σ n)) →
      ∃ n < N, ∃ v v' j, (σ n).getVehicle k = .ok v ∧ v.linkId = some lk ∧ v.entered = 1 ∧ v.posFront ≤ l.length ∧ v.vel ≤ acc.velAdj * M ∧
        (σ (n + 1)).getVehicle k = .ok v' ∧ j ∈ l.linksOut ∧ v'.route[v'.entered - 1]? = some j := by
  have hA : 0 < acc.maxAcc := by have := hc.acc; norm_num at this; linarith
  have hB := hc.dec
  have hT : 0 ≤ acc.headway := by
    by_contra hn
    have h1 := hc.far
    have h2 : 0 < √(acc.maxAcc / (acc.maxAcc + 6)) := Real.sqrt_pos.2 (by positivity)
    have h3 : 0 < 2 * (acc.maxAcc + 6) * (dt + 0.1) := by positivity
    have h4 : 12 * acc.headway * √(acc.maxAcc / (acc.maxAcc + 6)) ≤ 0 := mul_nonpos_of_nonpos_of_nonneg (by linarith) h2.le
    linarith
  obtain ⟨f, hf⟩ : ∃ f, f = 1 / (2 * Real.sqrt (acc.maxAcc * acc.comfDec)) := ⟨_, rfl⟩
  have hf0 : 0 ≤ f := by rw [hf]; positivity
  obtain ⟨x, hx⟩ : ∃ x, x = 4 * acc.maxAcc * (dt + 0.1) := ⟨_, rfl⟩
  have hx0 : 0 < x := by rw [hx]; positivity
  obtain ⟨ε, hε, hε1, hεx, hεD⟩ : ∃ ε, 0 < ε ∧ ε ≤ 1 ∧ ε ≤ x / 2 ∧ ε * (acc.headway + f + 1) ≤ (D - 2) / 2 := by
    have hp : 0 < acc.headway + f + 1 := by positivity
    refine ⟨min 1 (min (x / 2) ((D - 2) / 2 / (acc.headway + f + 1))), lt_min one_pos (lt_min (by positivity) (div_pos (by linarith) hp)),
      min_le_left _ _, (min_le_right _ _).trans (min_le_left _ _), ?_⟩
    rw [← le_div_iff₀ hp]
    exact (min_le_right _ _).trans (min_le_right _ _)
  have hsq : ((D + 2) / (2 * D)) ^ 2 < 1 := by
    have h1 : (D + 2) / (2 * D) < 1 := by rw [div_lt_one (by linarith)]; linarith
    have h2 : 0 ≤ (D + 2) / (2 * D) := by apply div_nonneg <;> linarith
    nlinarith
  obtain ⟨a2, ha2⟩ : ∃ a, a = min (15 / 16 * acc.maxAcc) (acc.maxAcc * (1 - ((D + 2) / (2 * D)) ^ 2)) := ⟨_, rfl⟩
  have ha0 : 0 < a2 := by rw [ha2]; exact lt_min (by positivity) (mul_pos hA (by linarith))
  obtain ⟨N, hN⟩ := Heading.let_in (strict := strict) (k := k) (lk := lk) (D := D) (L := L) (δ := min (0.05 * dt) (min (ε / 2 * dt) (a2 / 2 * dt ^ 2))) hdt
    (lt_min (by positivity) (lt_min (by positivity) (by positivity))) (min_le_left _ _)
  refine ⟨N, ?_⟩
  intro _ _ M l s0 v0 σ hs0 hre hv0 only hfree hh ho hl hlc hgroup hself hpos hlen hacc hadj hlim hvel hwide hgap hstop hnear hq hmin h0 hst hgw hrange
    hquiet hsimple
  subst hacc
  have along : ∀ n ≤ N, Reach strict (σ n) ∧ (∀ j w, (σ n).vehicles.get? j = some w → j = k) ∧ k ∉ (σ n).frozen ∧ Frame s0.links (σ n).links := by
    intro n
    induction n with
    | zero =>
      intro _
      rw [h0]
      exact ⟨hs0, fun j w hw => only j w (getVeh_ok.2 hw), hfree, frame_refl _⟩
    | succ n ih =>
      intro hn
      obtain ⟨a1, a2, a3, a4⟩ := ih (by omega)
      obtain ⟨s1, s2, s3, s4, s5, s6, hr⟩ := (step_spec a1.inv dt).ok (hst n (by omega))
      refine ⟨.exec (.step dt) a1 trivial (hst n (by omega)), fun j w hw => ?_, fun h => a3 (hr.others.1 k h), a4.trans hr.frame⟩
      obtain ⟨u, hu⟩ := hr.back hw
      exact a2 j u hu
  have lk_at : ∀ m ≤ N, ∃ l', (σ m).getLinkRef lk = .ok l' ∧ l'.length = l.length ∧ l'.linksOut = l.linksOut ∧ l'.laneChanges = l.laneChanges ∧
      l'.group = l.group := by
    intro m hm
    obtain ⟨-, -, -, a3⟩ := along m hm
    obtain ⟨l', hl', e⟩ := a3.fwd lk l (getLink_ok.1 hl)
    exact ⟨l', getLink_ok.2 hl', by unfold Link.length; rw [e.curve], e.linksOut, e.laneChanges, e.group⟩
  refine hN hs0 hre hv0 hh ho hl hlc hself hpos hlen hc hadj hlim hvel hwide hgap hstop hnear hmin h0 hst hgw hquiet (.inr ⟨hq, hrange⟩) ?_ ?_
  · rintro n hn ⟨v, hv, hon⟩
    obtain ⟨a1, a2, -⟩ := along n hn.le
    obtain ⟨l', hl', -, -, c3, -⟩ := lk_at n hn.le
    exact Gate.alone a1 (hst n hn) hv hon hl' (c3.trans hlc) a2
  · intro n hn v v' hv hv' hs hfr hdue hhv hov hhv' eh ea hle hqn hfar
    obtain ⟨-, a2', a3, -⟩ := along n hn.le
    obtain ⟨l', hl', c1, c2, c3, c4⟩ := lk_at n hn.le
    obtain ⟨a, ea⟩ := ea
    refine le_trans (add_le_add_right (min_le_right _ _) _) ?_
    have := hhv.gains (D := D) (x := x) (ε := ε) hov hs (hst n hn) hv hv' hhv' hl' (c3.trans hlc) (by rw [c2]; exact hself) (c4.trans hgroup)
      (fun a l ha => by
        obtain ⟨l0, hl0, e⟩ := hfr.bwd (getLink_ok.1 ha)
        have e : l.length = l0.length := by unfold Link.length; rw [e.curve]
        rw [e]; exact hpos a l0 (getLink_ok.2 hl0))
      a2' (hsimple n hn) a3 hdue hdt (by rw [ea]; exact hA) (by rw [ea]; exact hB) (by rw [ea]; exact hT) hx0
      (fun a l ha => by
        obtain ⟨l0, hl0, e⟩ := hfr.bwd (getLink_ok.1 ha)
        rw [ea, e.speedLimit, hx]; exact (hlim a l0 (getLink_ok.2 hl0)).2.2)
      hD (by rw [c1]; exact hfar) hε hεx
      (by
        rw [ea]
        show 2 + ε * v0.acc.headway + ε * ε * (1 / (2 * Real.sqrt (v0.acc.maxAcc * v0.acc.comfDec))) ≤ _
        rw [← hf]
        have : ε * ε * f ≤ ε * 1 * f := by gcongr
        nlinarith)
    rw [ea] at this
    rw [ha2]
    exact this

end

open Gap in
/-- Instances of `C99_alone`, for any number of steps: a vehicle on a link of 8 m comes to one where it must give way and may queue within 3 m of
the line. -/
example : ∀ N, ∃ (_ : Env) (_ : LawfulDijkstra) (s0 : Sim ℝ) (k lk : Key) (v0 : Vehicle ℝ) (l : Link ℝ) (acc : AccelerationModel ℝ) (σ : Nat → Sim ℝ),
      Stopping acc (0.1 + 0.1) ∧
      Reach True s0 ∧ ¬ s0.accUpdate < 0.1 ∧ s0.getVehicle k = .ok v0 ∧ (∀ j w, s0.getVehicle j = .ok w → j = k) ∧ k ∉ s0.frozen ∧
      Heading lk v0 ∧ Onward v0 ∧ s0.getLinkRef lk = .ok l ∧ l.laneChanges = [] ∧ l.group = none ∧ lk ∉ l.linksOut ∧
      (∀ k l, s0.getLinkRef k = .ok l → 0 < l.length) ∧
      0 ≤ v0.halfLen ∧ v0.acc = acc ∧ 0 < acc.velAdj ∧
      (∀ k l, s0.getLinkRef k = .ok l → 0 < l.speedLimit ∧ l.speedLimit ≤ 10 ∧ 4 * acc.maxAcc * (0.1 + 0.1) ≤ acc.velAdj * l.speedLimit) ∧
      v0.vel ≤ acc.velAdj * 10 ∧
      (acc.velAdj * 10) ^ 2 + 2 * (acc.maxAcc + 6) * (0.1 + 0.1) * (acc.velAdj * 10) + (acc.maxAcc + 3) ^ 2 * (0.1 + 0.1) ^ 2 ≤ 60 * l.speedLimit ∧
      v0.posFront ≤ l.length ∧ v0.posFront + v0.vel ^ 2 / 12 + 3 / 4 * (0.1 + 0.1) ^ 2 ≤ l.length ∧ 3 < l.length - v0.posFront ∧
      l.length - v0.posFront < 7 ∧ (v0.queued ≠ none → l.length - v0.posFront ≤ 5 * l.speedLimit) ∧ 3 ≤ 5 * l.speedLimit ∧
      σ 0 = s0 ∧ (∀ n < N, (σ n).step 0.1 = .ok (σ (n + 1))) ∧
      (∀ n < N, GiveWay 3 lk (σ n)) ∧
      (∀ n < N, ∀ j lj d m p, j ∈ l.linksOut → (σ n).getLinkRef j = .ok lj → lj.control = .yield_ d m p → d ≤ 5 * l.speedLimit) ∧
      (∀ n < N, Quiet lk (σ n)) ∧ ∀ n < N, Simple k (σ n) := by
  intro N
  obtain ⟨env, hlaw, s0, v0, l, y, σ, ⟨h1, h2, h3, h4, h5, h6, h7, h8, h9, h10, h11, h12, h13, h14, h15, h16, h17, h18, h19, h20, h21⟩, k1, k2, k3, k4, k5, k6, k7⟩ :=
    comes 3 N
  have hsq : v0.vel ^ 2 ≤ 1.2 ^ 2 := pow_le_pow_left₀ h16 h17 2
  have hl := h15 _ _ h8
  norm_num at h17 h19 h20 h21
  refine ⟨env, hlaw, s0, ⟨0, 1⟩, ⟨0, 1⟩, v0, l, _, σ, Trip.stopping rfl y, h1, h2, h3, h4, by rw [h5]; simp, h6, h7, h8, h9, h10, by rw [h11]; decide, h12,
    by rw [h13]; norm_num, h14, by norm_num, fun c l hl => ?_, by norm_num; linarith, by rw [hl]; norm_num, ?_, ?_, ?_, ?_, fun _ => ?_,
    by rw [hl]; norm_num, k1, k2, k3, fun n hn j lj d m p a1 a2 a3 => (k4 n hn j lj d m p a1 a2 a3).trans (by rw [hl]; norm_num), k5, fun n hn s1 v1 e1 _ c hc => ?_⟩
  · rw [h15 c l hl]; norm_num
  · rw [Vehicle.posFront, h13]; linarith
  · rw [Vehicle.posFront, h13]; norm_num at hsq ⊢; linarith
  · rw [Vehicle.posFront, h13]; linarith
  · rw [Vehicle.posFront, h13]; linarith
  · rw [Vehicle.posFront, h13, hl]; linarith
  · exfalso
    obtain ⟨t1, s2, s3, s4, s5, s6, hr⟩ := (step_spec (k7 n hn.le).1.inv 0.1).ok (k2 n hn)
    have := hr.run1
    rw [e1] at this; cases this
    have e : s1.conflicts = (σ n).conflicts := by
      rcases hr.lanes with ⟨-, e⟩ | ⟨-, vs, lcs, e⟩
      · rw [e]
      · rw [e.eq]
    rw [e, k6 n hn.le] at hc
    cases hc

end TrafficSim
