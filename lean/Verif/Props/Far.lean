import Verif.Props.TrappedRoad
import Verif.Lemmas.Chain
import Verif.Props.Along

/-! # C89: getting to the end of a long road

What is true of the claim of C89 (`Props/Trapped.lean`): where the links are a few metres longer than half of the vehicle, plans that end
before the destination do no harm. -/

namespace TrafficSim

section
variable {strict : Prop} {s s' : Sim ℝ} {dt : ℝ} {k : Key} {v v' : Vehicle ℝ}

theorem lengthOf_append (links : LinkSet ℝ) (xs ys : List Key) : lengthOf links (xs ++ ys) = lengthOf links xs + lengthOf links ys := by
  unfold lengthOf
  rw [List.map_append, List.sum_append]

/-- The distance to a place on a road without a choice. -/
theorem Chain.distance [Env] [LawfulDijkstra] (h : Reach strict s) {k0 a : Key} {p d : ℝ} {i : Nat} (hup : Upstream s.links k0 p i a d) :
    ∀ {ks : List Key}, Chain s.links ks → ks.head? = some a → d = p + lengthOf s.links (ks.take i) := by
  induction hup with
  | here => intro ks _ _; simp [lengthOf]
  | @up i k j pos l l' _ hl hj hl' ih =>
    intro ks hc hh
    have hmem : k ∈ l'.linksOut := by
      rw [← List.count_pos_iff, C60_symmetric h (getLink_ok.2 hl') (getLink_ok.2 hl)]
      exact List.count_pos_iff.2 hj
    cases hc with
    | last hl0 _ ho =>
      cases hh
      rw [hl0] at hl'; cases hl'
      rw [ho] at hmem; cases hmem
    | cons hl0 _ ho hc =>
      cases hh
      rw [hl0] at hl'; cases hl'
      rw [ho, List.mem_singleton] at hmem
      subst hmem
      have := ih hc rfl
      rw [this, List.take_succ_cons, lengthOf_cons hl0]
      ring

theorem Upstream.frame1 {links links' : LinkSet ℝ} (hf : ∀ c l', links'.get? c = some l' → ∃ l, links.get? c = some l ∧ l' = { l with vehicles := l'.vehicles })
    {k0 a : Key} {p d : ℝ} {i : Nat} (hup : Upstream links' k0 p i a d) : Upstream links k0 p i a d := by
  induction hup with
  | here => exact .here
  | up _ hl hj hl' ih =>
    obtain ⟨l0, g0, e0⟩ := hf _ _ hl
    obtain ⟨l1, g1, e1⟩ := hf _ _ hl'
    rw [e0] at hj
    have := Upstream.up ih g0 hj g1
    rw [e1]
    exact this

/-- At low speeds, with 3 m or more to a line, a vehicle speeds up. -/
theorem idm_slow {m : AccelerationModel ℝ} {gap vel x : ℝ} (hA : 0 ≤ m.maxAcc) (hgap : 3 ≤ gap) (h0 : 0 ≤ vel) (hv : vel ≤ x) (hx1 : x ≤ 1)
    (hx : x * (|m.headway| + 1 / (2 * Real.sqrt (m.maxAcc * m.comfDec))) ≤ 1 / 2) : 3 / 10 * m.maxAcc ≤ m.idm gap vel 0.0 := by
  have z : (0.0 : ℝ) = 0 := by norm_num
  rw [idm_far _ (by linarith), z, sub_zero]
  set f := 1 / (2 * Real.sqrt (m.maxAcc * m.comfDec)) with hf
  have f0 : 0 ≤ f := by positivity
  have h1 : |vel * m.headway + vel * vel * f| ≤ 1 / 2 := by
    have e : vel * m.headway + vel * vel * f = vel * (m.headway + vel * f) := by ring
    rw [e, abs_mul, abs_of_nonneg h0]
    have h2 : |m.headway + vel * f| ≤ |m.headway| + f := by
      refine (abs_add_le _ _).trans ?_
      rw [abs_of_nonneg (mul_nonneg h0 f0)]
      have : vel * f ≤ 1 * f := mul_le_mul_of_nonneg_right (by linarith) f0
      linarith
    have h3 : 0 ≤ |m.headway| + f := by positivity
    exact (mul_le_mul hv h2 (abs_nonneg _) (h0.trans hv)).trans hx
  obtain ⟨h2, h3⟩ := abs_le.1 h1
  set g := 2 + vel * m.headway + vel * vel * f with hg
  have g0 : 0 ≤ g / gap := div_nonneg (by linarith) (by linarith)
  have g1 : g / gap ≤ 5 / 6 := by
    rw [div_le_iff₀ (by linarith)]
    linarith
  have g2 : (g / gap) ^ 2 ≤ (5 / 6) ^ 2 := pow_le_pow_left₀ g0 g1 2
  have := mul_le_mul_of_nonneg_left (show 3 / 10 ≤ 1 - (g / gap) ^ 2 by linarith) hA
  linarith

/-- The vehicle `k` is alone, not frozen, on a road without a choice to its destination.  The links ahead are open, no light controls them, and
no two of them have a common point of conflict.  They are long enough, and the vehicle is not too fast.  `q` is the part of the road that is
planned. -/
structure Travel (D V : ℝ) (s : Sim ℝ) (k : Key) (v : Vehicle ℝ) (ks q : List Key) : Prop where
  journey : Journey s.links v ks q
  only : ∀ j w, s.vehicles.get? j = some w → j = k
  frozen : k ∉ s.frozen
  opened : ∀ j ∈ ks.tail, ∀ l, s.links.get? j = some l → l.control = .open_
  lights : ∀ j ∈ ks.tail, ∀ light i, ¬ s.Controls light i j
  conflicts : ∀ c ∈ s.conflicts, c.link0.linkId ∈ ks → c.link1.linkId ∉ ks
  speed : Moderate (D + 0.1) V s v
  fits : Fits v.acc (D + 0.1) V s.links
  long : ∀ j ∈ ks, ∀ l, s.links.get? j = some l → v.halfLen + V * (0.3 + 3 * D) + 3 ≤ l.length
  half : 0 ≤ v.halfLen
  inside : ∀ a l, ks.head? = some a → s.links.get? a = some l → v.pos ≤ l.length
  clock : 0 ≤ s.lcUpdate
  /-- the vehicle follows its plan, or will do so before it gets near to the end of its route -/
  room : v.route = ks ∨ v.route = q ∨ v.posFront + V * (0.3 - s.lcUpdate + 2 * D) + 3 ≤ lengthOf s.links v.route

variable {D V : ℝ} {ks q : List Key}

/-- When it has chosen its path, the vehicle may leave at the end of its route, or has some way to go to it. -/
theorem Travel.first (h : Travel D V s k v ks q) (hD : 0 ≤ D) (hV : 0 ≤ V) {v1 : Vehicle ℝ}
    (hc : (s.lcUpdate < 0.3 ∧ v1 = v) ∨ (¬ s.lcUpdate < 0.3 ∧ Chooses s.links v v1)) :
    Journey s.links v1 ks q ∧ v1.pos = v.pos ∧ v1.halfLen = v.halfLen ∧ v1.acc = v.acc ∧ v1.vel = v.vel ∧ v1.pathfind = v.pathfind ∧
      v1.route = (if s.lcUpdate < 0.3 then v.route else q) ∧
      (v1.route = ks ∨ v1.posFront + 3 ≤ lengthOf s.links v1.route ∧
        (2 ≤ v1.route.length ∨ v1.posFront + V * (2 * D) + 3 ≤ lengthOf s.links v1.route)) := by
  have planned : ∀ {u : Vehicle ℝ}, Journey s.links u ks q → u.pos = v.pos → u.halfLen = v.halfLen → u.route = q →
      (u.route = ks ∨ u.posFront + 3 ≤ lengthOf s.links u.route ∧ (2 ≤ u.route.length ∨ u.posFront + V * (2 * D) + 3 ≤ lengthOf s.links u.route)) := by
    intro u hu e1 e2 e3
    rw [e3]
    rcases hu.long with e | e | e
    · exact .inl e
    · exact absurd (by norm_num) e
    · refine .inr ⟨?_, .inl e⟩
      obtain ⟨t, ht⟩ := hu.pre
      match q, e with
      | a :: b :: r, _ =>
        have ha : a ∈ ks := by rw [← ht]; simp
        have hb : b ∈ ks := by rw [← ht]; simp
        obtain ⟨la, hla, -⟩ := hu.chain.get ha
        obtain ⟨lb, hlb, -⟩ := hu.chain.get hb
        rw [lengthOf_cons hla, lengthOf_cons hlb]
        have h1 := h.inside a la (by rw [← ht]; rfl) hla
        have h2 := h.long b hb lb hlb
        have h3 : 0 ≤ V * (0.3 + 3 * D) := mul_nonneg hV (by norm_num; linarith)
        have h4 : 0 ≤ lengthOf s.links r := by
          refine lengthOf_nonneg fun j hj l hl => ?_
          have := h.long j (by rw [← ht]; simp [hj]) l hl
          linarith [h.half]
        rw [Vehicle.posFront, e1, e2]
        linarith
  rcases hc with ⟨hlt, rfl⟩ | ⟨hlt, hc⟩
  · refine ⟨h.journey, rfl, rfl, rfl, rfl, rfl, by rw [if_pos hlt], ?_⟩
    rcases h.room with e | e | e
    · exact .inl e
    · exact planned h.journey rfl rfl e
    · have h1 : V * (2 * D) ≤ V * (0.3 - s.lcUpdate + 2 * D) := mul_le_mul_of_nonneg_left (by linarith) hV
      have h2 : 0 ≤ V * (2 * D) := mul_nonneg hV (by linarith)
      exact .inr ⟨by linarith, .inr (by linarith)⟩
  · obtain ⟨g1, g2, g3, g4, g5, g6, g7⟩ := h.journey.choice hc
    exact ⟨g1, g3, g4, g5, g6, g7, by rw [if_neg hlt]; exact g2, planned g1 g3 g4 g2⟩

/-- What slows a vehicle on its journey down: speed limits, and a line 3 m ahead or further. -/
theorem Travel.cause [Env] [LawfulDijkstra] (h : Travel D V s k v ks q) (hs : Reach strict s) {s1 s2 s3 s4 s5 s6 : Sim ℝ}
    (hr : StepRun strict s dt s1 s2 s3 s4 s5 s6 s') {v1 : Vehicle ℝ} (hv1 : s1.vehicles.get? k = some v1) (hj : Journey s.links v1 ks q)
    (hgap : v1.route = ks ∨ v1.posFront + 3 ≤ lengthOf s.links v1.route) {a : ℝ} (hc : Cause s1 k v1 a) :
    RouteLimit s1 v1 a ∨ ∃ gap, 3 ≤ gap ∧ a = v1.acc.idm gap v1.vel 0.0 := by
  have hback : ∀ c l', s1.links.get? c = some l' → ∃ l, s.links.get? c = some l ∧ l' = { l with vehicles := l'.vehicles } := by
    intro c l' hl'
    obtain ⟨l, hl, e⟩ := hr.frame1.bwd hl'
    exact ⟨l, hl, e⟩
  have honly : ∀ j w, s1.vehicles.get? j = some w → j = k := by
    intro j w hw
    obtain ⟨u, hu, -⟩ := hr.vehs1.bwd hw
    exact h.only j u hu
  have hnd : v1.route.Nodup := hj.chain.nodup.sublist hj.route.sublist
  have hsub : ∀ j ∈ v1.route, j ∈ ks := fun j hj' => hj.route.sublist.subset hj'
  have htail : ∀ j ∈ v1.route.tail, j ∈ ks.tail := by
    intro j hj'
    obtain ⟨t, ht⟩ := hj.route
    cases hrt : v1.route with
    | nil => rw [hrt] at hj'; cases hj'
    | cons b r =>
      rw [hrt] at hj' ht
      rw [← ht]
      exact List.mem_append_left _ hj'
  have hconf : s1.conflicts = s.conflicts := by
    rcases hr.lanes with ⟨-, e⟩ | ⟨-, vs, lcs, e⟩
    · rw [e]
    · rw [e.eq]
  have hon : ∀ {lk : Key} {l : Link ℝ} {j : Key}, s1.links.get? lk = some l → j ∈ l.vehicles → j = k ∧ v1.route.head? = some lk := by
    intro lk l j hl hjm
    obtain ⟨w, hw, hwl⟩ := ((hr.inv1.mem lk l hl).2 j).1 hjm
    obtain rfl := honly j w hw
    rw [hv1] at hw; cases hw
    exact ⟨rfl, hwl⟩
  cases hc with
  | limit hj hl ha => exact .inl ⟨_, _, hj, hl, ha⟩
  | follow hh =>
    cases hh with
    | next hl hin hu =>
      exfalso
      obtain ⟨x, y, e⟩ := hin
      have n1 := (hr.inv1.mem _ _ hl).1
      rw [← e, List.append_assoc, List.nodup_append, honly _ _ hu] at n1
      have := n1.2.1
      simp at this
    | last hsees hl hvs hu =>
      exfalso
      have h1 := hon hl (hvs ▸ List.mem_cons_self)
      have h2 := hsees.route
      cases hrt : v1.route with
      | nil => rw [hrt] at h2; cases h2
      | cons b r =>
        rw [hrt] at h1 h2 hnd
        obtain ⟨-, h1⟩ := h1
        cases h1
        rw [List.getElem?_cons_succ] at h2
        exact (List.nodup_cons.1 hnd).1 (List.mem_of_getElem? h2)
    | @exit k0 l i d hl hsees hend hex =>
      right
      have hne : v1.route ≠ ks := fun e => by rw [hj.exit.2 e] at hex; cases hex
      have hgap := hgap.resolve_left hne
      obtain ⟨l0, hl0, e0⟩ := hback _ _ hl
      obtain ⟨lk, hlk, hup⟩ := hsees.way
      have hd := Chain.distance hs (hup.frame1 hback) hj.chain (by rw [hj.here]; exact hlk)
      refine ⟨d + 0.0 - v1.posFront, ?_, rfl⟩
      have hroute : v1.route = ks.take i ++ [k0] := by
        obtain ⟨t, ht⟩ := hj.route
        have hlen : v1.route.length = i + 1 := by
          have h1 := (List.getElem?_eq_some_iff.1 hsees.route).1
          have h2 := List.getElem?_eq_none_iff.1 hend
          omega
        have h3 : v1.route = ks.take (i + 1) := by rw [← ht, ← hlen, List.take_left]
        have hk0 : ks[i]? = some k0 := by
          rw [← ht, List.getElem?_append_left (by omega)]; exact hsees.route
        obtain ⟨hlt, hk0⟩ := List.getElem?_eq_some_iff.1 hk0
        rw [h3, List.take_succ_eq_append_getElem hlt, hk0]
      rw [hroute, lengthOf_append, lengthOf_cons hl0] at hgap
      have hlen : l.length = l0.length := by rw [e0]; rfl
      rw [hd, hlen]
      have z : (0.0 : ℝ) = 0 := by norm_num
      have hnil : lengthOf s.links [] = 0 := rfl
      rw [hnil] at hgap
      rw [z]
      linarith
    | @entry k0 j l l' i d hl hsees hnext hent hl' hctl =>
      exfalso
      obtain ⟨l0, hl0, e0⟩ := hback _ _ hl'
      refine hctl ?_
      rw [e0]
      exact h.opened j (htail j (mem_tail_of_get hnext)) l0 hl0
    | lane hl hjm hu hg _ _ _ _ _ _ =>
      exfalso
      obtain ⟨l0, hl0, e0⟩ := hback _ _ hl
      obtain ⟨-, h1⟩ := hon hl hjm
      obtain ⟨l1, hl1, hg1⟩ := hj.chain.get (hsub _ (List.mem_of_head? h1))
      rw [hl0] at hl1; cases hl1
      rw [e0] at hg
      have hg : l0.group = _ := hg
      rw [hg1] at hg; cases hg
    | region hcc hab hu hv _ _ =>
      exfalso
      obtain ⟨i, hu, -⟩ := hu
      obtain ⟨i', hv, -⟩ := hv
      obtain rfl := honly _ _ hu.veh
      have e1 := hu.veh
      rw [hv1] at e1; cases e1
      have m1 := hsub _ (List.mem_of_getElem? hu.route)
      have m2 := hsub _ (List.mem_of_getElem? hv.route)
      rw [hconf] at hcc
      rcases hab with ⟨rfl, rfl⟩ | ⟨rfl, rfl⟩
      · exact h.conflicts _ hcc m1 m2
      · exact h.conflicts _ hcc m2 m1
    | merge hcc hab hu hv _ _ _ =>
      exfalso
      obtain ⟨i, hu, -⟩ := hu
      obtain ⟨i', hv, -⟩ := hv
      obtain rfl := honly _ _ hu.veh
      have e1 := hu.veh
      rw [hv1] at e1; cases e1
      have m1 := hsub _ (List.mem_of_getElem? hu.route)
      have m2 := hsub _ (List.mem_of_getElem? hv.route)
      rw [hconf] at hcc
      rcases hab with ⟨rfl, rfl⟩ | ⟨rfl, rfl⟩
      · exact h.conflicts _ hcc m1 m2
      · exact h.conflicts _ hcc m2 m1

/-- At speeds up to `x`, vehicles with these parameters speed up with 3/10 of their greatest acceleration or more. -/
structure Paced (D x : ℝ) (m : AccelerationModel ℝ) : Prop where
  acc : 0 < m.maxAcc
  dec : 0 ≤ m.comfDec
  pos : 0 < x
  one : x ≤ 1
  low : x ≤ 2 * m.maxAcc * (D + 0.1)
  brake : x * (|m.headway| + 1 / (2 * Real.sqrt (m.maxAcc * m.comfDec))) ≤ 1 / 2

theorem Paced.ex {m : AccelerationModel ℝ} (hA : 0 < m.maxAcc) (hd : 0 ≤ m.comfDec) (hD : 0 ≤ D) : ∃ x, Paced D x m := by
  set B := |m.headway| + 1 / (2 * Real.sqrt (m.maxAcc * m.comfDec)) with hB
  have hB0 : 0 ≤ B := by positivity
  have h1 : 0 < 2 * m.maxAcc * (D + 0.1) := by
    refine mul_pos (by linarith) ?_
    norm_num; linarith
  refine ⟨min (min 1 (2 * m.maxAcc * (D + 0.1))) (1 / (2 * (B + 1))), hA, hd, ?_, ?_, ?_, ?_⟩
  · exact lt_min (lt_min one_pos h1) (by positivity)
  · exact (min_le_left _ _).trans (min_le_left _ _)
  · exact (min_le_left _ _).trans (min_le_right _ _)
  · refine (mul_le_mul_of_nonneg_right (min_le_right _ _) hB0).trans ?_
    rw [div_mul_eq_mul_div, div_le_iff₀ (by linarith)]
    linarith

variable {δ x : ℝ}

/-- When accelerations are due, the vehicle gets on. -/
theorem Travel.due [Env] [LawfulDijkstra] (h : Travel D V s k v ks q) (hs : Reach strict s) (hst : s.step dt = .ok s') (hre : ¬ s.accUpdate < 0.1)
    (hv : s.vehicles.get? k = some v) (hv' : s'.vehicles.get? k = some v') (hδ : 0 < δ) (hdt : δ ≤ dt) (hD : 0 ≤ D) (hV : 0 ≤ V)
    (hp : Paced D x v.acc) : min (3 / 20 * v.acc.maxAcc * δ ^ 2) (x * δ / 2) ≤ (v.vel + v'.vel) / 2 * dt := by
  obtain ⟨s1, s2, s3, s4, s5, s6, hr⟩ := (step_spec hs.inv dt).ok hst
  obtain ⟨v1, v2, v4, ht⟩ := hr.trace hv
  obtain ⟨g1, g2, g3, g4, g5, g6, g7, g8⟩ := h.first hD hV (hr.chooses hv ht.get1)
  obtain ⟨p1, p2, -, ⟨a, p4⟩, -⟩ := step_speed hs hst (getVeh_ok.2 hv) (getVeh_ok.2 hv')
  have v0 := C20_speed hs (getVeh_ok.2 hv)
  have v0' : 0 ≤ v'.vel := by rw [p1]; exact le_max_right _ _
  have hdt0 : 0 < dt := by linarith
  have hA := hp.acc
  rcases C83_causes hs hst hre hr.run1 (getVeh_ok.2 ht.get1) (getVeh_ok.2 hv') with ⟨hf, -⟩ | ⟨-, as, q1, q2⟩
  · exact absurd hf h.frozen
  by_cases hx : v.vel ≤ x
  · refine (min_le_left _ _).trans ?_
    have hacc : 3 / 10 * v.acc.maxAcc ≤ v'.acc.acc := by
      rw [q1, g4]
      refine le_foldl_fmin (by linarith) fun b hb => ?_
      rcases h.cause hs hr ht.get1 g1 (g8.imp_right And.left) (q2 b hb) with ⟨j, l, hj, hl, hla⟩ | ⟨gap, hg, e⟩
      · obtain ⟨l0, hl0, e⟩ := hr.frame1.bwd hl
        rw [g4, g5] at hla
        have := hla.half (x := 2 * x) v0 (by linarith [hp.pos]) (by
          have h1 := (h.fits.2 j l0 hl0).2.2
          have h2 := hp.low
          rw [e]
          dsimp only
          linarith) (by linarith) hA.le hp.dec
        linarith
      · rw [e, g4, g5]
        exact idm_slow hA.le hg v0 hx hp.one hp.brake
    have hget : 3 / 10 * v.acc.maxAcc ≤ v'.acc.getAcc := by
      simp only [AccelerationModel.getAcc, fmax]
      exact le_max_of_le_left hacc
    have hv1 : 3 / 10 * v.acc.maxAcc * δ ≤ v'.vel := by
      rw [p1]
      refine le_max_of_le_left ?_
      have : δ * (3 / 10 * v.acc.maxAcc) ≤ dt * v'.acc.getAcc := mul_le_mul hdt hget (by positivity) hdt0.le
      linarith
    have : 3 / 20 * v.acc.maxAcc * δ * δ ≤ (v.vel + v'.vel) / 2 * dt := mul_le_mul (by linarith) hdt hδ.le (by linarith)
    linarith
  · refine (min_le_right _ _).trans ?_
    rw [not_le] at hx
    have : x / 2 * δ ≤ (v.vel + v'.vel) / 2 * dt := mul_le_mul (by linarith) hdt hδ.le (by linarith)
    linarith

/-- A step on the journey. -/
theorem Travel.step [Env] [LawfulDijkstra] (h : Travel D V s k v ks q) (hs : Reach strict s) (hst : s.step dt = .ok s')
    (hv : s.vehicles.get? k = some v) (hv' : s'.vehicles.get? k = some v') (h0 : 0 ≤ dt) (hdt : dt ≤ D) (hV : 0 ≤ V) :
    v'.destination = v.destination ∧ ∃ ks' q', Travel D V s' k v' ks' q' ∧
      lengthOf s'.links ks' - v'.pos = lengthOf s.links ks - v.pos - (v.vel + v'.vel) / 2 * dt := by
  have hD : 0 ≤ D := h0.trans hdt
  obtain ⟨s1, s2, s3, s4, s5, s6, hr⟩ := (step_spec hs.inv dt).ok hst
  obtain ⟨v1, v2, v4, ht⟩ := hr.trace hv
  obtain ⟨g1, g2, g3, g4, g5, g6, g7, g8⟩ := h.first hD hV (hr.chooses hv ht.get1)
  obtain ⟨w1, hw, -, -, hdr⟩ := C70_drive hs hst hv hv'
  obtain ⟨-, f2, -, -, -, -, f7, -⟩ := h.first hD hV hw
  rw [f2] at hdr
  have er : w1.route = v1.route := f7.trans g7.symm
  obtain ⟨r1, r2, r3⟩ := g1.rest hr ht hv'
  obtain ⟨p1, -, -, ⟨a, p4⟩, p5⟩ := step_speed hs hst (getVeh_ok.2 hv) (getVeh_ok.2 hv')
  have hmod := h.speed.step hs hst h0 (by linarith) (getVeh_ok.2 hv) (getVeh_ok.2 hv') h.fits
  have hclk : s'.lcUpdate = if s.lcUpdate < 0.3 then s.lcUpdate + dt else 0.0 + dt := hr.clocks.2.2
  have hclk0 : 0 ≤ s'.lcUpdate := by
    rw [hclk]
    split
    · linarith [h.clock]
    · norm_num; exact h0
  have v0 := C20_speed hs (getVeh_ok.2 hv)
  have v0' : 0 ≤ v'.vel := by rw [p1]; exact le_max_right _ _
  have ed : 0.5 * (v.vel + v'.vel) * dt = (v.vel + v'.vel) / 2 * dt := by rw [show (0.5 : ℝ) = 1 / 2 by norm_num]; ring
  rw [ed] at hdr
  set d := (v.vel + v'.vel) / 2 * dt with hd
  have d0 : 0 ≤ d := mul_nonneg (by linarith) h0
  have d1 : d ≤ V * dt := mul_le_mul_of_nonneg_right (by linarith [h.speed.1, hmod.1]) h0
  have d2 : V * dt ≤ V * D := mul_le_mul_of_nonneg_left hdt hV
  have hlen := fun ks => lengthOf_frame hr.frame ks
  have hoth := hr.others
  have hdst : v'.destination = v.destination := by
    show v'.pathfind.dst = v.pathfind.dst
    rw [r3, g6]
  refine ⟨hdst, ?_⟩
  -- all but the path
  have rest : ∀ ks' q', Journey s'.links v' ks' q' → (∀ j ∈ ks', j ∈ ks) → (∀ j ∈ ks'.tail, j ∈ ks.tail) →
      (∀ a l, ks'.head? = some a → s'.links.get? a = some l → v'.pos ≤ l.length) →
      (v'.route = ks' ∨ v'.route = q' ∨ v'.posFront + V * (0.3 - s'.lcUpdate + 2 * D) + 3 ≤ lengthOf s'.links v'.route) →
      Travel D V s' k v' ks' q' := by
    intro ks' q' hj hsub htail hin hroom
    have hlights : ∀ j ∈ ks'.tail, ∀ light i, ¬ s'.Controls light i j := by
      rintro j hj light i ⟨tl', htl', hm⟩
      obtain ⟨tl, htl, hs⟩ := (C08_lights hs hst).bwd htl'
      rw [light_links hs] at hm
      exact h.lights j (htail j hj) light i ⟨tl, htl, hm⟩
    refine ⟨hj, fun j w hw => ?_, fun hf => h.frozen (hoth.1 k hf), fun j hj l' hl' => ?_, hlights, ?_, hmod, ?_, ?_, ?_, hin, hclk0, hroom⟩
    · obtain ⟨u, hu⟩ := hr.back hw
      exact h.only j u hu
    · obtain ⟨l, hl, -⟩ := hr.frame.bwd hl'
      obtain ⟨l'', hl'', e⟩ := C08_uncontrolled hs hst (getLink_ok.2 hl) (hlights j hj)
      rw [getLink_ok.1 hl''] at hl'; cases hl'
      rw [e]; exact h.opened j (htail j hj) l hl
    · rw [hoth.2]
      exact fun c hcc h0 h1 => h.conflicts c hcc (hsub _ h0) (hsub _ h1)
    · exact h.fits.frame hr.frame (by rw [p4]) (by rw [p4])
    · intro j hj l' hl'
      obtain ⟨l, hl, hf⟩ := hr.frame.bwd hl'
      have := h.long j (hsub j hj) l hl
      unfold Link.length at this ⊢
      rw [p5, hf.curve]; exact this
    · rw [p5]; exact h.half
  have hlong : 0 ≤ V * (0.3 + 3 * D) := mul_nonneg hV (by norm_num; linarith)
  cases hdr with
  | stays a l ha hl hlt er' ep epos elc =>
    obtain ⟨e1, hj⟩ : v'.route = v1.route ∧ Journey s'.links v' ks q := by
      rcases r1 with r1 | ⟨b, ks', q', e, -⟩
      · exact r1
      · rw [← er, ← er'] at e
        exact absurd (congrArg List.length e) (by simp)
    refine ⟨ks, q, rest ks q hj (fun _ h => h) (fun _ h => h) ?_ ?_, by rw [hlen, epos]; ring⟩
    · intro b l' hb hl'
      rw [g1.here] at hb
      rw [er] at ha
      have : some b = some a := hb.symm.trans ha
      cases this
      obtain ⟨l0, hl0, hf⟩ := hr.frame.bwd hl'
      rw [hl] at hl0; cases hl0
      rw [epos]
      unfold Link.length at hlt ⊢
      rw [hf.curve]
      exact not_lt.1 hlt
    · rw [e1, g7]
      split
      · rename_i hlt
        rcases h.room with e | e | e
        · exact .inl e
        · exact .inr (.inl e)
        · refine .inr (.inr ?_)
          rw [hlen, hclk, if_pos hlt, Vehicle.posFront, epos, p5]
          unfold Vehicle.posFront at e
          have : V * (0.3 - (s.lcUpdate + dt) + 2 * D) = V * (0.3 - s.lcUpdate + 2 * D) - V * dt := by ring
          linarith
      · exact .inr (.inl rfl)
  | passes a l er' hl hlt hne _ _ epos _ =>
    obtain ⟨ks', q', ek, hj⟩ : ∃ ks' q', ks = a :: ks' ∧ Journey s'.links v' ks' q' := by
      rcases r1 with ⟨e, -⟩ | ⟨b, ks', q', e, ek, hj⟩
      · rw [er, ← e] at er'
        exact absurd (congrArg List.length er') (by simp)
      · rw [er, e] at er'
        cases er'
        exact ⟨ks', q', ek, hj⟩
    have hpos : v'.pos ≤ V * dt := by
      have := h.inside a l (by rw [ek]; rfl) hl
      rw [epos]; linarith
    have hsub : ∀ j ∈ ks', j ∈ ks := fun j hj => by rw [ek]; exact List.mem_cons_of_mem _ hj
    have hlong' : ∀ j ∈ ks', ∀ l, s'.links.get? j = some l → v.halfLen + V * (0.3 + 3 * D) + 3 ≤ l.length := by
      intro j hj l' hl'
      obtain ⟨l, hl, hf⟩ := hr.frame.bwd hl'
      have := h.long j (hsub j hj) l hl
      unfold Link.length at this ⊢
      rw [hf.curve]; exact this
    have e3 : V * (0.3 + 3 * D) = V * 0.3 + 3 * (V * D) := by ring
    have hV3 : 0 ≤ V * 0.3 := mul_nonneg hV (by norm_num)
    refine ⟨ks', q', rest ks' q' hj hsub ?_ ?_ ?_, by rw [hlen, epos, ek, lengthOf_cons hl]; ring⟩
    · intro j hj
      rw [ek]; exact List.mem_of_mem_tail hj
    · intro b l' hb hl'
      have := hlong' b (List.mem_of_head? hb) l' hl'
      linarith [h.half]
    · refine .inr (.inr ?_)
      obtain ⟨b, r, eb⟩ := List.exists_cons_of_ne_nil hne
      have hin : ∀ j ∈ v'.route, j ∈ ks' := fun j hj' => hj.route.sublist.subset hj'
      obtain ⟨lb, hlb, -⟩ := hj.chain.get (hin b (by rw [eb]; simp))
      have h1 := hlong' b (hin b (by rw [eb]; simp)) lb hlb
      have h2 : 0 ≤ lengthOf s'.links r := by
        refine lengthOf_nonneg fun j hj l hl => ?_
        have := hlong' j (hin j (by rw [eb]; simp [hj])) l hl
        linarith [h.half]
      have h3 : V * (0.3 - s'.lcUpdate + 2 * D) ≤ V * 0.3 + 2 * (V * D) := by
        have := mul_nonneg hV hclk0
        have e : V * (0.3 - s'.lcUpdate + 2 * D) = V * 0.3 + 2 * (V * D) - V * s'.lcUpdate := by ring
        linarith
      rw [eb, lengthOf_cons hlb, Vehicle.posFront, p5]
      linarith

/-- If the vehicle leaves, it does so at its destination. -/
theorem Travel.last [Env] [LawfulDijkstra] (h : Travel D V s k v ks q) (hs : Reach strict s) (hst : s.step dt = .ok s')
    (hv : s.vehicles.get? k = some v) (hn : s'.vehicles.get? k = none) (h0 : 0 ≤ dt) (hdt : dt ≤ D) (hV : 0 ≤ V) (dts : List ℝ) :
    LeavesAt k v.destination s (dt :: dts) := by
  have hD : 0 ≤ D := h0.trans hdt
  refine ⟨[], dt, dts, s, s', v, rfl, rfl, hst, getVeh_ok.2 hv, ?_, fun w hw => by have := getVeh_ok.1 hw; rw [hn] at this; cases this⟩
  obtain ⟨s1, s2, s3, s4, s5, s6, hr⟩ := (step_spec hs.inv dt).ok hst
  obtain ⟨v1, v2, v4, ht⟩ := hr.trace hv
  obtain ⟨g1, g2, g3, g4, g5, g6, g7, g8⟩ := h.first hD hV (hr.chooses hv ht.get1)
  obtain ⟨sq, sq', hm, -⟩ := ht.move
  obtain ⟨m1, m2, m3, -⟩ := integrate_motion hm
  obtain ⟨a, w, e2⟩ := ht.acc.same
  have v0 := C20_speed hs (getVeh_ok.2 hv)
  -- the speed
  have hacc : v2.acc.acc ≤ max v.acc.maxAcc (-6) := by
    rcases ht.acc with ⟨-, -, e⟩ | ⟨-, n0, n1, vs, -, ha⟩
    · rw [e, g4]; exact hs.acc_le (getVeh_ok.2 hv)
    · obtain ⟨b, w', e, -, hb1, hb2⟩ := ha.eq
      rw [e]
      dsimp only
      by_cases hf : k ∈ s1.frozen
      · rw [hb1 hf]; exact le_max_of_le_right (by simp only [maxDecel]; norm_num)
      · obtain ⟨as, e'⟩ := hb2 hf
        rw [e', g4]; exact le_max_of_le_left (foldl_min_le as _).1
  have hA := h.fits.1
  have hget : v2.acc.getAcc ≤ v.acc.maxAcc := by
    rw [max_eq_left (by linarith)] at hacc
    simp only [AccelerationModel.getAcc, fmax, maxDecel]
    exact max_le hacc (by norm_num; linarith)
  have hvel2 : v2.vel = v.vel := by rw [e2]; exact g5
  have hhead : ks.head? = v.linkId := h.journey.here
  obtain ⟨l0, hl0⟩ : ∃ a l, ks.head? = some a ∧ s.links.get? a = some l := by
    obtain ⟨b, t, rfl⟩ := List.exists_cons_of_ne_nil (l := ks) (by rintro rfl; exact nomatch h.journey.dst)
    obtain ⟨l, hl, -⟩ := h.journey.chain.get (List.mem_cons_self (a := b) (l := t))
    exact ⟨b, l, rfl, hl⟩
  obtain ⟨l, -, hl⟩ := hl0
  obtain ⟨f1, f2, f3⟩ := h.fits.2 _ _ hl
  have hquart : dt * v.acc.maxAcc ≤ V := by
    have h1 : dt * v.acc.maxAcc ≤ (D + 0.1) * v.acc.maxAcc := mul_le_mul_of_nonneg_right (by norm_num; linarith) hA
    have h2 : 0 ≤ (D + 0.1) * v.acc.maxAcc := mul_nonneg (by norm_num; linarith) hA
    linarith
  have hv4 : v4.vel ≤ 2 * V := by
    rw [m1, hvel2]
    simp only [fmax]
    refine max_le ?_ (by norm_num; linarith)
    have : dt * v2.acc.getAcc ≤ dt * v.acc.maxAcc := mul_le_mul_of_nonneg_left hget h0
    linarith [h.speed.1]
  have hv0 : v.vel ≤ V := h.speed.1
  have hpos : v4.pos ≤ v.pos + V * (2 * D) := by
    have h1 : v2.pos = v.pos := by rw [e2]; exact g2
    have ed : 0.5 * (v2.vel + v4.vel) * dt = (v2.vel + v4.vel) / 2 * dt := by rw [show (0.5 : ℝ) = 1 / 2 by norm_num]; ring
    rw [m2, h1, ed, hvel2]
    have h2 : (v.vel + v4.vel) / 2 * dt ≤ 2 * V * dt := mul_le_mul_of_nonneg_right (by linarith) h0
    have h3 : 2 * V * dt ≤ 2 * V * D := mul_le_mul_of_nonneg_left hdt (by linarith)
    linarith
  have e4 : v4.route = v1.route := by rw [m3, e2]
  cases ht.out with
  | stays u hu _ _ => rw [hn] at hu; cases hu
  | passes v5 u _ _ hu _ => rw [hn] at hu; cases hu
  | leaves v5 hp h5 _ =>
    obtain ⟨b, rest, lb, pf, hroute, hlb, hlt, e5, -⟩ := hp.ex
    rw [e5] at h5
    dsimp only at h5
    subst h5
    obtain ⟨lb0, hlb0, hf⟩ := hr.frame4.bwd hlb
    have hlen : lb.length = lb0.length := by unfold Link.length; rw [hf.curve]
    rw [e4] at hroute
    have hks : v1.route = ks := by
      rcases g8 with e | ⟨-, e | e⟩
      · exact e
      · rw [hroute] at e; simp at e
      · exfalso
        rw [hroute, lengthOf_cons hlb0, Vehicle.posFront, g2, g3] at e
        have hnil : lengthOf s.links [] = 0 := rfl
        linarith [h.half]
    rw [← hhead, ← hks, hroute]
    have hd := h.journey.dst
    rw [← hks, hroute] at hd
    exact hd

/-- A vehicle on its journey leaves at its destination within a number of steps. -/
theorem Travel.leaves [Env] [LawfulDijkstra] (hδ : 0 < δ) (hD : 0 ≤ D) (hV : 0 ≤ V) {A c : ℝ} (hA : 0 < A) (hx : 0 < x)
    (hc0 : c = min (3 / 20 * A * δ ^ 2) (x * δ / 2)) :
    ∀ (n : ℕ) {dts : List ℝ} {s s' : Sim ℝ} {v : Vehicle ℝ} {ks q : List Key},
    Travel D V s k v ks q → Reach strict s → s.vehicles.get? k = some v → Paced D x v.acc → v.acc.maxAcc = A →
    (0.1 / δ + 2) * ((lengthOf s.links ks - v.pos) / c) + untilDue δ s < n →
    (∀ dt ∈ dts, δ ≤ dt ∧ dt ≤ D) → n ≤ dts.length → dts.foldlM Sim.step s = .ok s' → LeavesAt k v.destination s dts := by
  have hc : 0 < c := by rw [hc0]; refine lt_min ?_ ?_ <;> positivity
  have hN : 0 < 0.1 / δ + 2 := by positivity
  have hw : ∀ s : Sim ℝ, 0 ≤ untilDue δ s := by
    intro s
    unfold untilDue
    split
    · rename_i h
      have : 0 ≤ (0.1 - s.accUpdate) / δ := div_nonneg (by linarith) hδ.le
      linarith
    · exact le_rfl
  intro n
  induction n with
  | zero =>
    intro dts s s' v ks q hcl h hv hp hA' hpot hd hlen hrun
    exfalso
    have h1 : (0.1 / δ + 2) * ((lengthOf s.links ks - v.pos) / c) < 0 := by
      have := hw s
      push_cast at hpot
      linarith
    have hX : 0 ≤ lengthOf s.links ks - v.pos := by
      obtain ⟨b, t, rfl⟩ := List.exists_cons_of_ne_nil (l := ks) (by rintro rfl; exact nomatch hcl.journey.dst)
      obtain ⟨l, hl, -⟩ := hcl.journey.chain.get (List.mem_cons_self (a := b) (l := t))
      rw [lengthOf_cons hl]
      have h1 := hcl.inside b l rfl hl
      have h2 : 0 ≤ lengthOf s.links t := by
        refine lengthOf_nonneg fun j hj l hl => ?_
        have := hcl.long j (by simp [hj]) l hl
        have h3 : 0 ≤ V * (0.3 + 3 * D) := mul_nonneg hV (by norm_num; linarith)
        linarith [hcl.half]
      linarith
    have := mul_nonneg hN.le (div_nonneg hX hc.le)
    linarith
  | succ n ih =>
    intro dts s s' v ks q hcl h hv hp hA' hpot hd hlen hrun
    cases dts with
    | nil => simp at hlen
    | cons dt dts =>
      rw [List.foldlM_cons, M_bind_ok] at hrun
      obtain ⟨s1, h1, hrun⟩ := hrun
      obtain ⟨hdt, hdt'⟩ := hd dt (by simp)
      cases hv1 : s1.vehicles.get? k with
      | none => exact hcl.last h h1 hv hv1 (by linarith) hdt' hV dts
      | some v1 =>
        obtain ⟨hdst, ks', q', hcl', hX⟩ := hcl.step h h1 hv hv1 (by linarith) hdt' hV
        obtain ⟨p1, -, -, ⟨a, p4⟩, -⟩ := step_speed h h1 (getVeh_ok.2 hv) (getVeh_ok.2 hv1)
        have v0 := C20_speed h (getVeh_ok.2 hv)
        have v0' : 0 ≤ v1.vel := by rw [p1]; exact le_max_right _ _
        have hmv : 0 ≤ (v.vel + v1.vel) / 2 * dt := mul_nonneg (by linarith) (by linarith)
        refine LeavesAt.cons ?_ h1
        rw [← hdst]
        refine ih hcl' (.exec (.step dt) h trivial h1) hv1 ?_ (by rw [p4]; exact hA') ?_ (fun d hd' => hd d (by simp [hd'])) ?_ hrun
        · rw [p4]; exact ⟨hp.acc, hp.dec, hp.pos, hp.one, hp.low, hp.brake⟩
        · obtain ⟨_, _, _, _, _, _, hr⟩ := (step_spec h.inv dt).ok h1
          have hclk : s1.accUpdate = if s.accUpdate < 0.1 then s.accUpdate + dt else 0.0 + dt := hr.clocks.2.1
          push_cast at hpot
          by_cases hdue : s.accUpdate < 0.1
          · rw [if_pos hdue] at hclk
            have hr1 : (lengthOf s1.links ks' - v1.pos) / c ≤ (lengthOf s.links ks - v.pos) / c :=
              div_le_div_of_nonneg_right (by linarith) hc.le
            have hr2 := mul_le_mul_of_nonneg_left hr1 hN.le
            have hw1 : untilDue δ s1 ≤ untilDue δ s - 1 := by
              unfold untilDue
              rw [if_pos hdue, hclk]
              split
              · have : (0.1 - (s.accUpdate + dt)) / δ ≤ (0.1 - s.accUpdate) / δ - 1 := by
                  rw [← sub_nonneg]
                  have : (0.1 - s.accUpdate) / δ - 1 - (0.1 - (s.accUpdate + dt)) / δ = (dt - δ) / δ := by field_simp; ring
                  rw [this]; exact div_nonneg (by linarith) hδ.le
                linarith
              · have : 0 ≤ (0.1 - s.accUpdate) / δ := div_nonneg (by linarith) hδ.le
                linarith
            linarith
          · rw [if_neg hdue] at hclk
            have hr1 : (lengthOf s1.links ks' - v1.pos) / c ≤ (lengthOf s.links ks - v.pos) / c - 1 := by
              have := hcl.due h h1 hdue hv hv1 hδ hdt hD hV hp
              rw [hA', ← hc0] at this
              rw [div_sub_one hc.ne']
              exact div_le_div_of_nonneg_right (by linarith) hc.le
            have hr2 := mul_le_mul_of_nonneg_left hr1 hN.le
            have hw1 : untilDue δ s1 ≤ 0.1 / δ + 1 := by
              unfold untilDue
              split
              · have : (0.1 - s1.accUpdate) / δ ≤ 0.1 / δ := by
                  refine div_le_div_of_nonneg_right ?_ hδ.le
                  rw [hclk]; norm_num; linarith
                linarith
              · positivity
            have hw0 := hw s
            linarith
        · simp at hlen; omega

/-- **C89** In exact arithmetic: a vehicle that is sent to the end of a road without a choice gets there and leaves there, even if the road is
longer than vehicles plan ahead, if all links of the road are longer than half the vehicle and the way it makes in about a third of a second, by
some metres, and it is not too close to the end of the path that it follows when it is sent.  The vehicle is alone, not faster than the limits,
and steps are neither too long nor arbitrarily short. -/
theorem C89_arrives_partial [Env] [LawfulDijkstra] {M : ℝ} {dst : Key} {s0 : Sim ℝ} (h : Reach True s) (hv : s.getVehicle k = .ok v)
    (hlane : v.laneChange = none) (hroad : Chain s.links ks) (hhere : ks.head? = v.linkId) (hdst : ks.getLast? = some dst) (hnew : v.route ≠ ks)
    (honly : ∀ j w, s.getVehicle j = .ok w → j = k) (hfrozen : k ∉ s.frozen)
    (hopen : ∀ j ∈ ks.tail, ∀ l, s.getLinkRef j = .ok l → l.control = .open_) (hlights : ∀ j ∈ ks.tail, ∀ light i, ¬ s.Controls light i j)
    (hconf : ∀ c ∈ s.conflicts, c.link0.linkId ∈ ks → c.link1.linkId ∉ ks) (hlc : 0 ≤ s.lcUpdate)
    (hacc : 0 < v.acc.maxAcc) (hdec : 0 ≤ v.acc.comfDec) (hadj : 0 < v.acc.velAdj)
    (hlim : ∀ lk l, s.getLinkRef lk = .ok l → 0 < l.speedLimit ∧ l.speedLimit ≤ M ∧ 4 * v.acc.maxAcc * (D + 0.1) ≤ v.acc.velAdj * l.speedLimit)
    (hvel : v.vel ≤ v.acc.velAdj * M) (hnext : s.accUpdate < 0.1 → v.vel + (D + 0.1 - s.accUpdate) * v.acc.getAcc ≤ v.acc.velAdj * M) (hhalf : 0 ≤ v.halfLen)
    (hlong : ∀ j ∈ ks, ∀ l, s.getLinkRef j = .ok l → v.halfLen + v.acc.velAdj * M * (0.3 + 3 * D) + 3 ≤ l.length)
    (hin : ∀ a l, v.linkId = some a → s.getLinkRef a = .ok l → v.pos ≤ l.length)
    (hroom : v.posFront + v.acc.velAdj * M * (0.3 + 2 * D) + 3 ≤ lengthOf s.links v.route) (hD : 0 ≤ D) (hδ : 0 < δ)
    (hsend : s.setVehicleDestination k dst = .ok s0) :
    ∃ n, ∀ (dts : List ℝ) (s' : Sim ℝ), n ≤ dts.length → (∀ dt ∈ dts, δ ≤ dt ∧ dt ≤ D) → dts.foldlM Sim.step s0 = .ok s' →
      LeavesAt k dst s0 dts ∧ ∀ v', s'.getVehicle k ≠ .ok v' := by
  have hi := h.inv.veh k v (getVeh_ok.1 hv)
  have hpre : v.route <+: ks := hroad.prefix hhere.symm hi.drivable.2
  have hs' := (setVehicleDestination_spec (E := fun _ => True) h.inv (.inr trivial) (.inr trivial) (contains_of_get (getVeh_ok.1 hv))
    (.inr (.inr trivial))).ok hsend
  obtain ⟨v0, hv0, -⟩ : ∃ v0, s0.vehicles.get? k = some v0 ∧ True := by
    obtain ⟨u, pf, hu, -, -, -, x4⟩ := hs'.veh
    rw [getVeh_ok.1 hv] at hu; cases hu
    exact ⟨_, by rw [x4, SlotMap.get?_modify_self, getVeh_ok.1 hv]; rfl, trivial⟩
  obtain ⟨⟨q, hj⟩, pf, hpd, ev⟩ := Chain.sent h hsend hv (getVeh_ok.2 hv0) hlane hroad hhere hdst hpre hnew
  have hlk : s0.links = s.links := by rw [hs'.eq]
  have hvs : ∀ j w, s0.vehicles.get? j = some w → j = k := by
    intro j w hw
    obtain ⟨u, pf, hu, -, -, -, x4⟩ := hs'.veh
    rw [x4, SlotMap.get?_modify] at hw
    split at hw
    · rename_i e; exact e
    · exact honly j w (getVeh_ok.2 hw)
  obtain ⟨b, t, ek⟩ := List.exists_cons_of_ne_nil (l := ks) (by rintro rfl; exact nomatch hdst)
  obtain ⟨lb, hlb, -⟩ := hroad.get (show b ∈ ks by rw [ek]; simp)
  have hV : 0 ≤ v.acc.velAdj * M := by
    obtain ⟨h1, h2, -⟩ := hlim b lb (getLink_ok.2 hlb)
    exact mul_nonneg hadj.le (by linarith)
  have hR : Reach True s0 := .exec (.setVehicleDestination k dst) h trivial hsend
  have htr : Travel D (v.acc.velAdj * M) s0 k v0 ks q := by
    refine ⟨hj, hvs, by rw [hs'.eq]; exact hfrozen, fun j hj l hl => hopen j hj l (getLink_ok.2 (by rw [← hlk]; exact hl)), fun j hj light i hc => ?_,
      by rw [hs'.eq]; exact hconf, ?_, ?_, ?_, by rw [ev]; exact hhalf, ?_, by rw [hs'.eq]; exact hlc, .inr (.inr ?_)⟩
    · obtain ⟨tl, htl, hm⟩ := hc
      rw [hs'.eq] at htl
      exact hlights j hj light i ⟨tl, htl, hm⟩
    · rw [ev]
      refine ⟨hvel, fun hlt => ?_⟩
      rw [hs'.eq] at hlt ⊢
      exact hnext hlt
    · rw [ev, hlk]
      refine ⟨hacc.le, fun lk l hl => ?_⟩
      obtain ⟨h1, h2, h3⟩ := hlim lk l (getLink_ok.2 hl)
      exact ⟨mul_pos hadj h1, mul_le_mul_of_nonneg_left h2 hadj.le, h3⟩
    · rw [ev, hlk]
      exact fun j hj l hl => hlong j hj l (getLink_ok.2 hl)
    · rw [ev, hlk]
      exact fun a l ha hl => hin a l (hhere.symm.trans ha) (getLink_ok.2 hl)
    · rw [ev, hlk]
      have : s0.lcUpdate = s.lcUpdate := by rw [hs'.eq]
      rw [this]
      have h1 : v.acc.velAdj * M * (0.3 - s.lcUpdate + 2 * D) ≤ v.acc.velAdj * M * (0.3 + 2 * D) := mul_le_mul_of_nonneg_left (by linarith) hV
      show v.posFront + _ + 3 ≤ _
      linarith
  have hacc0 : v0.acc = v.acc := by rw [ev]
  obtain ⟨x, hp⟩ := Paced.ex (D := D) (m := v0.acc) (by rw [hacc0]; exact hacc) (by rw [hacc0]; exact hdec) hD
  have hdest : v0.destination = dst := by rw [ev]; exact hpd
  obtain ⟨n, hn⟩ := exists_nat_gt ((0.1 / δ + 2) * ((lengthOf s0.links ks - v0.pos) / min (3 / 20 * v0.acc.maxAcc * δ ^ 2) (x * δ / 2)) + untilDue δ s0)
  refine ⟨n, fun dts s' hlen hd hrun => ?_⟩
  have hleft := Travel.leaves hδ hD hV (A := v0.acc.maxAcc) hp.acc hp.pos rfl n htr hR hv0 hp rfl hn hd hlen hrun
  rw [hdest] at hleft
  refine ⟨hleft, fun v' hv' => ?_⟩
  obtain ⟨pre, dt, post, t, t', w, e, h1, h2, -, -, h3⟩ := hleft
  rw [e, List.foldlM_append, M_bind_ok] at hrun
  obtain ⟨t0, e1, hrun⟩ := hrun
  rw [h1] at e1; cases e1
  rw [List.foldlM_cons, M_bind_ok] at hrun
  obtain ⟨t1, e1, hrun⟩ := hrun
  rw [h2] at e1; cases e1
  obtain ⟨u, hu⟩ := steps_back (.exec (.step dt) (hR.steps h1) trivial h2) hrun (getVeh_ok.1 hv')
  exact h3 u (getVeh_ok.2 hu)

/-- Instances of `C89_arrives_partial`: a vehicle that was just added is sent along links of 210 m, 20 m and 20 m, and any number of steps follow. -/
example (dts : List ℝ) : ∃ (_ : Env) (_ : LawfulDijkstra) (s s0 s' : Sim ℝ) (k dst : Key) (ks : List Key) (v : Vehicle ℝ), Reach True s ∧
    s.getVehicle k = .ok v ∧ v.laneChange = none ∧ Chain s.links ks ∧ ks.head? = v.linkId ∧ ks.getLast? = some dst ∧ v.route ≠ ks ∧
    (∀ j w, s.getVehicle j = .ok w → j = k) ∧ k ∉ s.frozen ∧ (∀ j ∈ ks.tail, ∀ l, s.getLinkRef j = .ok l → l.control = .open_) ∧
    (∀ j ∈ ks.tail, ∀ light i, ¬ s.Controls light i j) ∧ (∀ c ∈ s.conflicts, c.link0.linkId ∈ ks → c.link1.linkId ∉ ks) ∧ 0 ≤ s.lcUpdate ∧
    0 < v.acc.maxAcc ∧ 0 ≤ v.acc.comfDec ∧ 0 < v.acc.velAdj ∧
    (∀ lk l, s.getLinkRef lk = .ok l → 0 < l.speedLimit ∧ l.speedLimit ≤ 10 ∧ 4 * v.acc.maxAcc * (0.1 + 0.1) ≤ v.acc.velAdj * l.speedLimit) ∧
    v.vel ≤ v.acc.velAdj * 10 ∧ (s.accUpdate < 0.1 → v.vel + (0.1 + 0.1 - s.accUpdate) * v.acc.getAcc ≤ v.acc.velAdj * 10) ∧ 0 ≤ v.halfLen ∧
    (∀ j ∈ ks, ∀ l, s.getLinkRef j = .ok l → v.halfLen + v.acc.velAdj * 10 * (0.3 + 3 * 0.1) + 3 ≤ l.length) ∧
    (∀ a l, v.linkId = some a → s.getLinkRef a = .ok l → v.pos ≤ l.length) ∧
    v.posFront + v.acc.velAdj * 10 * (0.3 + 2 * 0.1) + 3 ≤ lengthOf s.links v.route ∧
    s.setVehicleDestination k dst = .ok s0 ∧ dts.foldlM Sim.step s0 = .ok s' := by
  obtain ⟨N, s, ⟨z1, z2, z3, z4, z5, v, hb, p0, q0⟩, hp, hn, h⟩ := @program_runs (Lone.env 0) (Lone.lawful 0) _ (Search.full_ends _) _
    (Pit.leads (m := 20) (by norm_num) (by norm_num))
  obtain ⟨x, ex⟩ := hb.acc
  obtain ⟨la, hla, o1, o2, o3, o4, o5, o6⟩ := hb.la.ex
  obtain ⟨lb, hlb, j1, j2, j3, j4, j5, j6⟩ := hb.lb.ex
  obtain ⟨lc, hlc, i1, i2, i3, i4, i5, i6⟩ := hb.lc.ex
  norm_num at o4 o5 j4 j5 i4 i5
  obtain ⟨N1, s1, hN1, h1, hp1, hn1⟩ := @Trip.call (Lone.env 0) (Lone.lawful 0) (Search.full_ends _) s N (fun n hn => (h n hn).1) hp hn
    (.setVehicleDestination ⟨0, 1⟩ ⟨2, 1⟩) trivial ⟨by rw [SlotMap.contains, getVeh_ok.1 hb.gv]; rfl, .inr (by rw [SlotMap.contains, hlc]; rfl)⟩
  obtain ⟨N', s', hN, hs⟩ := @Relay.calls (Lone.env 0) (Lone.lawful 0) (Search.full_ends _) dts s1 N1 (fun n hn => (h1 n hn).2) hp1 hn1
  let env : Env := @Env.withFuel (Lone.env 0) N'
  have hlaw : LawfulDijkstra := @LawfulDijkstra.withFuel (Lone.env 0) (Lone.lawful 0) N'
  have hR : Reach True s := (h N' (hN1.trans hN)).1
  have hle := hR.acc_le hb.gv
  have each : ∀ {c l}, s.getLinkRef c = .ok l → l.speedLimit = 10 ∧ 19.5 ≤ l.length ∧ l.control = .open_ := by
    intro c l hl
    have hl := getLink_ok.1 hl
    rcases hb.all c l hl with rfl | rfl | rfl
    · rw [hla] at hl; cases hl; exact ⟨o3, by norm_num; linarith, o6⟩
    · rw [hlb] at hl; cases hl; exact ⟨j3, by norm_num; linarith, j6⟩
    · rw [hlc] at hl; cases hl; exact ⟨i3, by norm_num; linarith, i6⟩
  refine ⟨env, hlaw, s, s1, s', ⟨0, 1⟩, ⟨2, 1⟩, [⟨0, 1⟩, ⟨1, 1⟩, ⟨2, 1⟩], v, hR, hb.gv, hb.change,
    .cons hla (z5 _ _ hla) o1 (.cons hlb (z5 _ _ hlb) j1 (.last hlc (z5 _ _ hlc) i1)), by rw [Vehicle.linkId, hb.route]; rfl, rfl,
    by rw [hb.route]; simp, fun j w hw => hb.only j w (getVeh_ok.1 hw), by rw [z3]; simp, fun j _ l hl => (each hl).2.2,
    fun j _ light i => hb.lights light i j, by rw [z4]; nofun, z2.ge, by rw [ex]; norm_num, by rw [ex]; norm_num, by rw [ex]; norm_num, ?_, ?_, ?_, ?_, ?_, ?_, ?_,
    (h1 N' hN).1, hs N' le_rfl⟩
  · intro c l hl
    rw [(each hl).1, ex]; norm_num
  · rw [q0, ex]; norm_num
  · intro _
    rw [q0, z1]
    rw [ex] at hle ⊢
    simp only [AccelerationModel.getAcc, fmax, maxDecel] at hle ⊢
    norm_num at hle ⊢
    rcases le_total x (-6) with h6 | h6
    · rw [max_eq_right h6]; norm_num
    · rw [max_eq_left h6]; linarith
  · rw [hb.half]; norm_num
  · intro j _ l hl
    have := (each hl).2.1
    rw [hb.half, ex]; norm_num at this ⊢; linarith
  · intro a l _ hl
    have := (each hl).2.1
    rw [p0]; norm_num at this; linarith
  · rw [Vehicle.posFront, p0, hb.half, hb.route, lengthOf_cons hla, ex]
    have hnil : lengthOf s.links [] = 0 := rfl
    rw [hnil]; norm_num; linarith

end

end TrafficSim
