import Verif.Lemmas.Braking
import Verif.Props.Follow
import Verif.Props.Line
import Verif.Props.Calls

/-! # C76, C77: vehicles stop behind their leaders and before lines they may not cross -/

namespace TrafficSim

section
variable {strict : Prop} {s s' s1 : Sim ℝ} {dt : ℝ} {k j lk : Key} {v v1 v' u u1 u' : Vehicle ℝ}

/-- The speed of a vehicle in a step, and its acceleration if it is not recomputed. -/
theorem step_speed [Env] [LawfulDijkstra] (h : Reach strict s) (hst : s.step dt = .ok s') (hv : s.getVehicle k = .ok v)
    (hv' : s'.getVehicle k = .ok v') : v'.vel = max (v.vel + dt * v'.acc.getAcc) 0 ∧ -6 ≤ v'.acc.getAcc ∧
      (s.accUpdate < 0.1 → v'.acc = v.acc) ∧ (∃ a, v'.acc = { v.acc with acc := a }) ∧ v'.halfLen = v.halfLen := by
  obtain ⟨s1, s2, s3, s4, s5, s6, hr⟩ := (step_spec h.inv dt).ok hst
  obtain ⟨v1, v2, v4, ht⟩ := hr.trace (getVeh_ok.1 hv)
  obtain ⟨e, ea, -⟩ := ht.vel (getVeh_ok.1 hv')
  obtain ⟨-, e2, -⟩ := ht.steer.same
  obtain ⟨a, w, ev2⟩ := ht.acc.same
  refine ⟨?_, ?_, ?_, ⟨a, ?_⟩, ?_⟩
  · rw [e, ea]; simp only [fmax]; norm_num
  · simp only [AccelerationModel.getAcc, fmax, maxDecel]
    exact le_max_of_le_right (by norm_num)
  · intro hlt
    rcases ht.acc with ⟨-, -, e3⟩ | ⟨hge, -⟩
    · rw [ea, e3, e2]
    · rw [hr.clocks.1] at hge; exact absurd hlt hge
  · rw [ea, ev2]; dsimp only; rw [e2]
  · have h1 : v1.halfLen = v.halfLen := by
      rcases ht.steer with (rfl | ⟨p, -, -, rfl⟩) | ⟨p, -, -, hs⟩
      · rfl
      · rfl
      · obtain ⟨link, pos, lc, pf, -, rfl, -⟩ := hs.ex
        rfl
    obtain ⟨q, e, lc, cnt, ev4, -⟩ := ht.move.eq
    have h4 : v4.halfLen = v1.halfLen := by rw [ev4, ev2]
    rw [← h1, ← h4]
    cases ht.out with
    | stays u hu hp _ =>
      rw [getVeh_ok.1 hv'] at hu; cases hu
      obtain ⟨p, d, r, c, rfl⟩ := hp
      rfl
    | passes v5 u hp _ hu hpl =>
      rw [getVeh_ok.1 hv'] at hu; cases hu
      obtain ⟨p, d, r, c, rfl⟩ := hpl
      obtain ⟨k', rest, l, pf, -, -, -, rfl, -⟩ := hp.ex
      rfl
    | leaves _ _ _ hn => rw [getVeh_ok.1 hv'] at hn; cases hn

/-- The place of a vehicle that stays on its link. -/
theorem step_place [Env] [LawfulDijkstra] (h : Reach strict s) (hst : s.step dt = .ok s') (hlanes : s.calculateLaneChanges = .ok s1)
    (hv : s.getVehicle k = .ok v) (hv1 : s1.getVehicle k = .ok v1) (hv' : s'.getVehicle k = .ok v') {l : Link ℝ}
    (hl : s.getLinkRef lk = .ok l) (hloop : lk ∉ l.linksOut) (h0 : v.linkId = some lk) (h1 : v1.linkId = some lk)
    (h2 : v'.linkId = some lk) : v1.vel = v.vel ∧ v1.acc = v.acc ∧ v1.pos = v.pos ∧ v1.halfLen = v.halfLen ∧
      v'.pos = v.pos + (v.vel + v'.vel) / 2 * dt := by
  obtain ⟨s1', s2, s3, s4, s5, s6, hr⟩ := (step_spec h.inv dt).ok hst
  rw [hr.run1] at hlanes; cases hlanes
  obtain ⟨v1', v2, v4, ht⟩ := hr.trace (getVeh_ok.1 hv)
  have g1 := ht.get1
  rw [getVeh_ok.1 hv1] at g1; cases g1
  obtain ⟨e1, e2, -⟩ := ht.steer.same
  obtain ⟨e3, -⟩ := ht.steer.stay (h1.trans h0.symm)
  have e4 : v1.halfLen = v.halfLen := by
    rcases ht.steer with (rfl | ⟨p, -, -, rfl⟩) | ⟨p, -, -, hs⟩
    · rfl
    · rfl
    · obtain ⟨link, pos, lc, pf, -, rfl, -⟩ := hs.ex
      rfl
  refine ⟨e1, e2, e3, e4, ?_⟩
  rcases ht.pos (getVeh_ok.1 hv') (h1.trans h0.symm) with ⟨-, e, -⟩ | ⟨a, b, l', ea, eb, hl', hlt, e⟩
  · have h5 : (0.5 : ℝ) = 1 / 2 := by norm_num
    rw [e, h5]; ring
  · exfalso
    have hr4 : v4.route = v1.route := by
      obtain ⟨a, w, ev2⟩ := ht.acc.same
      obtain ⟨q, e, lc, cnt, ev4, -⟩ := ht.move.eq
      rw [ev4, ev2]
    have hd := (hr.inv1.veh k v1 ht.get1).drivable.chain
    cases ht.out with
    | stays u hu hp hx =>
      rw [getVeh_ok.1 hv'] at hu; cases hu
      obtain ⟨p, d, r, c, rfl⟩ := hp
      obtain ⟨a', l'', ha', hl'', hlt'⟩ := hx
      have : some a' = some a := by rw [← ha', hr4, ← ea]; exact h1.trans h0.symm
      cases this
      rw [hl'] at hl''; cases hl''
      obtain ⟨-, -, e5⟩ := ht.vel (getVeh_ok.1 hv')
      obtain ⟨a, w, ev2⟩ := ht.acc.same
      obtain ⟨q, e, lc, cnt, ev4, -⟩ := ht.move.eq
      have : v4.pos = v2.pos + 0.5 * (v2.vel + v4.vel) * dt := by rw [ev4]
      refine hlt' ?_
      rw [this, ← e5, ev2]
      dsimp only
      rw [e1, e3]
      exact hlt
    | passes v5 u hp hne hu hpl =>
      rw [getVeh_ok.1 hv'] at hu; cases hu
      obtain ⟨p, d, r, cc, rfl⟩ := hpl
      obtain ⟨k', rest, l, pf, h3, -, -, rfl, -⟩ := hp.ex
      have h4 : rest.head? = some lk := h2
      rw [hr4] at h3
      have h5 : v1.route.head? = some lk := h1
      rw [h3] at h5 hd
      cases h5
      obtain ⟨rest', rfl⟩ : ∃ rest', rest = lk :: rest' := by
        cases rest with
        | nil => cases h4
        | cons a as => cases h4; exact ⟨as, rfl⟩
      obtain ⟨l1, g1, g2⟩ := (hr.frame1.frame.ge).conn _ _ (List.isChain_cons_cons.1 hd).1
      rw [getLink_ok.1 hl] at g1; cases g1
      exact hloop g2
    | leaves _ _ _ hn => rw [getVeh_ok.1 hv'] at hn; cases hn

/-! ## C76: no rear-end collisions -/

theorem Keeps.mono {h c g g' v a u : ℝ} (hk : Keeps h c g v a u) (hg : g ≤ g') : Keeps h c g' v a u :=
  ⟨hk.1.trans hg, hk.2.imp id fun x => x.mono le_rfl (by linarith) le_rfl⟩

/-- A vehicle that can stop behind its leader can still do so after the step, if that holds for the acceleration it chooses. -/
theorem keeps_step [Env] [LawfulDijkstra] {h g g' : ℝ} (hs : Reach strict s) (hst : s.step dt = .ok s') (hv : s.getVehicle k = .ok v)
    (hv' : s'.getVehicle k = .ok v') (hu : s.getVehicle j = .ok u) (hu' : s'.getVehicle j = .ok u') (hdt : 0 ≤ dt) (hh : dt + 0.1 ≤ h)
    (hcan : ¬ s.accUpdate < 0.1 → 0 ≤ v.vel → -6 ≤ v'.acc.getAcc → v.vel = 0 ∨ 3 / 4 * h ^ 2 ≤ g + u.vel ^ 2 / 12 - v.vel ^ 2 / 12 →
      v.vel = 0 ∧ v'.acc.getAcc ≤ 0 ∨ CanStop (3 / 4 * h ^ 2) (g + u.vel ^ 2 / 12) v.vel v'.acc.getAcc h)
    (hk : Keeps h s.accUpdate g v.vel v.acc.getAcc u.vel)
    (hg : g + (u.vel + u'.vel) / 2 * dt - (v.vel + v'.vel) / 2 * dt ≤ g') :
    Keeps h s'.accUpdate g' v'.vel v'.acc.getAcc u'.vel := by
  refine Keeps.mono ?_ hg
  obtain ⟨e1, e2, e3, -⟩ := step_speed hs hst hv hv'
  obtain ⟨f1, f2, -⟩ := step_speed hs hst hu hu'
  have v0 := C20_speed hs hv
  have u0 := C20_speed hs hu
  norm_num at hh
  obtain ⟨s1, s2, s3, s4, s5, s6, hr⟩ := (step_spec hs.inv dt).ok hst
  have hclk := hr.clocks.2.1
  obtain ⟨hg0, hk⟩ := hk
  by_cases hlt : s.accUpdate < 0.1
  · replace hclk := hclk.trans (if_pos hlt)
    rw [if_pos hlt] at hk
    rw [e3 hlt] at e1 e2 ⊢
    have hlt' := hlt
    norm_num at hlt'
    obtain ⟨k1, k2⟩ := keeps_move hg0 u0 v0 e2 f2 hdt (r := h - s.accUpdate) (h := h) (by linarith) (by linarith)
      (hk.imp (fun x => ⟨x.1, x.2 hlt⟩) id) e1 f1 rfl
    refine ⟨k1, k2.imp (fun x => ⟨x.1, fun _ => x.2⟩) fun x => x.mono le_rfl le_rfl ?_⟩
    rw [hclk]
    split <;> linarith
  · replace hclk := hclk.trans (if_neg hlt)
    rw [if_neg hlt] at hk
    have hk' : v.vel = 0 ∨ 3 / 4 * h ^ 2 ≤ g + u.vel ^ 2 / 12 - v.vel ^ 2 / 12 := by
      refine hk.imp And.left fun x => ?_
      have := x 0 le_rfl le_rfl (by linarith)
      simpa using this
    obtain ⟨k1, k2⟩ := keeps_move hg0 u0 v0 e2 f2 hdt (r := h) (h := h) (by linarith) (by linarith)
      (hcan hlt v0 e2 hk') e1 f1 rfl
    refine ⟨k1, k2.imp (fun x => ⟨x.1, fun _ => x.2⟩) fun x => x.mono le_rfl le_rfl ?_⟩
    rw [hclk]
    split
    · norm_num
    · linarith

/-- In the step from `s` to `s'`, the vehicle `k` is right behind `j` on the link `lk`, and both stay on it. -/
structure Behind [Env] (k j lk : Key) (s s' : Sim ℝ) : Prop where
  lanes : ∃ s1 l, s.calculateLaneChanges = .ok s1 ∧ s1.getLinkRef lk = .ok l ∧ [k, j] <:+: l.vehicles
  before : (∃ v, s.getVehicle k = .ok v ∧ v.linkId = some lk) ∧ ∃ u, s.getVehicle j = .ok u ∧ u.linkId = some lk
  after : (∃ v, s'.getVehicle k = .ok v ∧ v.linkId = some lk) ∧ ∃ u, s'.getVehicle j = .ok u ∧ u.linkId = some lk

theorem Behind.keeps [Env] [LawfulDijkstra] {h V : ℝ} (hs : Reach strict s) (hst : s.step dt = .ok s') (hb : Behind k j lk s s')
    {l : Link ℝ} (hl : s.getLinkRef lk = .ok l) (hloop : lk ∉ l.linksOut) (hdt : 0 ≤ dt) (hh : dt + 0.1 ≤ h)
    (hv : s.getVehicle k = .ok v) (hu : s.getVehicle j = .ok u) (hv' : s'.getVehicle k = .ok v') (hu' : s'.getVehicle j = .ok u')
    (hc : Cautious v.acc h V) (hV : v.vel ≤ V) (hk : Keeps h s.accUpdate (u.posRear - v.posFront) v.vel v.acc.getAcc u.vel) :
    Keeps h s'.accUpdate (u'.posRear - v'.posFront) v'.vel v'.acc.getAcc u'.vel := by
  obtain ⟨⟨s1, l1, hlanes, hl1, hkj⟩, ⟨⟨x, hx, a1⟩, ⟨y, hy, a2⟩⟩, ⟨⟨x', hx', a3⟩, ⟨y', hy', a4⟩⟩⟩ := hb
  rw [hv] at hx; cases hx
  rw [hu] at hy; cases hy
  rw [hv'] at hx'; cases hx'
  rw [hu'] at hy'; cases hy'
  obtain ⟨s1', s2, s3, s4, s5, s6, hr⟩ := (step_spec hs.inv dt).ok hst
  have hmem := hr.inv1.mem lk l1 (by rw [hr.run1] at hlanes; cases hlanes; exact getLink_ok.1 hl1)
  rw [hr.run1] at hlanes; cases hlanes
  obtain ⟨v1, hv1, b1⟩ := (hmem.2 k).1 (hkj.subset (by simp))
  obtain ⟨u1, hu1, b2⟩ := (hmem.2 j).1 (hkj.subset (by simp))
  obtain ⟨c1, c2, c3, c4, c5⟩ := step_place hs hst hr.run1 hv (getVeh_ok.2 hv1) hv' hl hloop a1 b1 a3
  obtain ⟨d1, d2, d3, d4, d5⟩ := step_place hs hst hr.run1 hu (getVeh_ok.2 hu1) hu' hl hloop a2 b2 a4
  obtain ⟨-, -, -, -, c6⟩ := step_speed hs hst hv hv'
  obtain ⟨-, -, -, -, d6⟩ := step_speed hs hst hu hu'
  refine keeps_step hs hst hv hv' hu hu' hdt hh (fun hre v0 e2 hk' => hc.canStop v0 hV ?_ e2 hk') hk (le_of_eq ?_)
  · have := C64_follows hs hst hre hr.run1 (getVeh_ok.2 hv1) hv' (getVeh_ok.2 hu1) hl1 hkj
    simp only [Vehicle.posRear, Vehicle.posFront] at this ⊢
    rw [c1, c2, c3, c4, d1, d3, d4] at this
    exact this
  · simp only [Vehicle.posRear, Vehicle.posFront]
    rw [c5, c6, d5, d6]; ring

/-- A step of at most `D` seconds in which `k`, not faster than `V`, is right behind `j` on `lk`. -/
def FollowStep [Env] (k j lk : Key) (D V : ℝ) (s s' : Sim ℝ) : Prop :=
  ∃ dt, 0 ≤ dt ∧ dt ≤ D ∧ s.step dt = .ok s' ∧ Behind k j lk s s' ∧ ∀ v, s.getVehicle k = .ok v → v.vel ≤ V

/-- **C76** In exact arithmetic: when accelerations are due, the vehicle `k` stands, or would stop at least `3/4 h²` metres behind the
vehicle `j` if both braked fully.  Then in all following steps of at most `D` seconds in which `k` is right behind `j` on a
link, is not faster than `V`, and both stay on it, the front of `k` does not pass the rear of `j`.  Here `h = D + 0.1`. -/
theorem C76_no_collision [Env] [LawfulDijkstra] {D V : ℝ} {l : Link ℝ} {s0 : Sim ℝ} {v0 u0 : Vehicle ℝ} (hs : Reach strict s0)
    (hre : ¬ s0.accUpdate < 0.1) (hv0 : s0.getVehicle k = .ok v0) (hu0 : s0.getVehicle j = .ok u0)
    (hl : s0.getLinkRef lk = .ok l) (hloop : lk ∉ l.linksOut) (hc : Cautious v0.acc (D + 0.1) V) (hgap : v0.posFront ≤ u0.posRear)
    (hstop : v0.vel = 0 ∨ v0.posFront + v0.vel ^ 2 / 12 + 3 / 4 * (D + 0.1) ^ 2 ≤ u0.posRear + u0.vel ^ 2 / 12)
    (hrun : Relation.ReflTransGen (FollowStep k j lk D V) s0 s) (hv : s.getVehicle k = .ok v) (hu : s.getVehicle j = .ok u) :
    v.posFront ≤ u.posRear := by
  have key : Reach strict s ∧ ∃ l v u, s.getLinkRef lk = .ok l ∧ lk ∉ l.linksOut ∧ s.getVehicle k = .ok v ∧ s.getVehicle j = .ok u ∧
      Cautious v.acc (D + 0.1) V ∧ Keeps (D + 0.1) s.accUpdate (u.posRear - v.posFront) v.vel v.acc.getAcc u.vel := by
    clear hv hu
    induction hrun with
    | refl =>
      refine ⟨hs, l, v0, u0, hl, hloop, hv0, hu0, hc, by linarith, hstop.imp (fun h => ⟨h, fun h => absurd h hre⟩) fun h => ?_⟩
      intro t h0 h1 _
      rw [if_neg hre] at h1
      obtain rfl := le_antisymm h1 h0
      linarith
    | tail _ hst ih =>
      obtain ⟨hs, l, v, u, hl, hloop, hv, hu, hc, hk⟩ := ih
      obtain ⟨dt, h0, h1, hst, hb, hV⟩ := hst
      obtain ⟨s1, s2, s3, s4, s5, s6, hr⟩ := (step_spec hs.inv dt).ok hst
      obtain ⟨l', hl', hfr⟩ := hr.frame.fwd lk l (getLink_ok.1 hl)
      obtain ⟨⟨v', hv', -⟩, u', hu', -⟩ := hb.after
      have hc' := hc
      obtain ⟨-, -, -, ⟨a, ea⟩, -⟩ := step_speed hs hst hv hv'
      refine ⟨.exec (.step dt) hs trivial hst, l', v', u', getLink_ok.2 hl', by rw [hfr.linksOut]; exact hloop, hv', hu', ?_,
        hb.keeps hs hst hl hloop h0 (by linarith) hv hu hv' hu' hc (hV v hv) hk⟩
      rw [ea]
      exact ⟨hc.acc, hc.dec, hc.near, hc.far⟩
  obtain ⟨-, l', v', u', -, -, hv', hu', -, hk⟩ := key
  rw [hv] at hv'; cases hv'
  rw [hu] at hu'; cases hu'
  linarith [hk.1]

/-- A vehicle that is not beyond the end of its link after it has moved stays on it. -/
theorem StepRun.stays [Env] {s1 s2 s3 s4 s5 s6 : Sim ℝ} {v1 v2 v4 : Vehicle ℝ} {l : Link ℝ} (hr : StepRun strict s dt s1 s2 s3 s4 s5 s6 s')
    (ht : Trace s dt s1 s2 s3 s4 s' k v v1 v2 v4) (b1 : v1.linkId = some lk) (hl : s.getLinkRef lk = .ok l) (hpos : v4.pos ≤ l.length)
    (he : v4.route = v1.route) : ∃ v', s'.getVehicle k = .ok v' ∧ v'.linkId = some lk := by
  have hl4 : ∀ a l', v4.route.head? = some a → s4.links.get? a = some l' → ¬ l'.length < v4.pos := by
    intro a l' ha hl'
    rw [he] at ha
    have : some a = some lk := ha.symm.trans b1
    cases this
    obtain ⟨l0, h0, hfr⟩ := hr.frame4.bwd hl'
    rw [getLink_ok.1 hl] at h0; cases h0
    have : l'.length = l.length := by unfold Link.length; rw [hfr.curve]
    rw [this]; exact not_lt.2 hpos
  cases ht.out with
  | stays u hu hp _ =>
    obtain ⟨p, d, r, c, rfl⟩ := hp
    exact ⟨_, getVeh_ok.2 hu, by show v4.route.head? = _; rw [he]; exact b1⟩
  | passes v5 u hp _ _ _ =>
    obtain ⟨a, rest, l', pf, ha, hl', hlt, -⟩ := hp.ex
    exact absurd hlt (hl4 a l' (by rw [ha]; rfl) hl')
  | leaves v5 hp _ _ =>
    obtain ⟨a, rest, l', pf, ha, hl', hlt, -⟩ := hp.ex
    exact absurd hlt (hl4 a l' (by rw [ha]; rfl) hl')

theorem StepRun.acc_le [Env] {s1 s2 s3 s4 s5 s6 : Sim ℝ} {v1 v2 v4 : Vehicle ℝ} (hr : StepRun strict s dt s1 s2 s3 s4 s5 s6 s')
    (ht : Trace s dt s1 s2 s3 s4 s' k v v1 v2 v4) (hlt : ¬ s.accUpdate < 0.1) (hmax : 0 ≤ v.acc.maxAcc) : v2.acc.getAcc ≤ v.acc.maxAcc := by
  rw [AccelerationModel.getAcc]
  simp only [fmax, maxDecel]
  refine max_le ?_ (by norm_num; linarith)
  rcases ht.acc with ⟨hlt', -⟩ | ⟨-, n0, n1, vs, -, hx⟩
  · rw [hr.clocks.1] at hlt'; exact absurd hlt' hlt
  · obtain ⟨a', w', ev2', -, hz, hnz⟩ := hx.eq
    rw [ev2']
    by_cases hf : k ∈ s1.frozen
    · show a' ≤ _
      rw [hz hf]; simp only [maxDecel]; norm_num; linarith
    · obtain ⟨as, e⟩ := hnz hf
      show a' ≤ _
      rw [e, ht.steer.same.2.1]
      exact (foldl_min_le as _).1

/-- A vehicle that does not get to the end of its link stays on it. -/
theorem step_stays [Env] [LawfulDijkstra] {s1 : Sim ℝ} {v1 : Vehicle ℝ} {l : Link ℝ} (hs : Reach strict s) (hst : s.step dt = .ok s')
    (hlt : ¬ s.accUpdate < 0.1) (hlanes : s.calculateLaneChanges = .ok s1) (hv : s.getVehicle k = .ok v) (hv1 : s1.getVehicle k = .ok v1)
    (hlk : v.linkId = some lk) (b1 : v1.linkId = some lk) (hl : s.getLinkRef lk = .ok l) (hdt : 0 ≤ dt) (hmax : 0 ≤ v.acc.maxAcc)
    (hend : v.pos + (v.vel + v.acc.maxAcc * dt) * dt ≤ l.length) : ∃ v', s'.getVehicle k = .ok v' ∧ v'.linkId = some lk := by
  obtain ⟨s1', s2, s3, s4, s5, s6, hr⟩ := (step_spec hs.inv dt).ok hst
  rw [hr.run1] at hlanes; cases hlanes
  obtain ⟨v1', v2, v4, ht⟩ := hr.trace (getVeh_ok.1 hv)
  have g1 := ht.get1
  rw [getVeh_ok.1 hv1] at g1; cases g1
  obtain ⟨e1, e2, -⟩ := ht.steer.same
  obtain ⟨e3, -⟩ := ht.steer.stay (b1.trans hlk.symm)
  have hacc := hr.acc_le ht hlt hmax
  have v0 := C20_speed hs hv
  obtain ⟨a, w, ev2⟩ := ht.acc.same
  obtain ⟨q, e, lc, cnt, ev4, -⟩ := ht.move.eq
  have e5 : v4.vel = max (v.vel + dt * v2.acc.getAcc) 0 := by
    rw [ev4]; dsimp only; rw [ev2]; dsimp only; rw [e1]; simp only [fmax]; norm_num
  have e6 : v4.pos = v.pos + (v.vel + v4.vel) / 2 * dt := by
    have : v4.pos = v2.pos + 0.5 * (v2.vel + v4.vel) * dt := by rw [ev4]
    rw [this, ev2]; dsimp only; rw [e1, e3]
    have h5 : (0.5 : ℝ) = 1 / 2 := by norm_num
    rw [h5]; ring
  have e7 : v4.route = v1.route := by rw [ev4]; dsimp only; rw [ev2]
  have hvel : v4.vel ≤ v.vel + v.acc.maxAcc * dt := by
    have := mul_le_mul_of_nonneg_left hacc hdt
    have h0 := mul_nonneg hmax hdt
    rw [e5]
    exact max_le (by linarith) (by linarith)
  have hpos : v4.pos ≤ l.length := by
    have : (v.vel + v4.vel) / 2 ≤ v.vel + v.acc.maxAcc * dt := by linarith [mul_nonneg hmax hdt]
    rw [e6]
    linarith [mul_le_mul_of_nonneg_right this hdt]
  exact hr.stays ht b1 hl hpos e7

namespace Pair
open Lone

/-- A new vehicle on a link that leads nowhere. -/
theorem placed [Env] {l : Link ℝ} {links : LinkSet ℝ} {k lk : Key} (hl : links.get? lk = some l) (ho : l.laneChanges = []) 
    (hsegs : l.curve.segments ≠ []) : ∃ v0 v, (Vehicle.new k Lone.car).setLocation lk 0.0 none links = .ok v0 ∧ v0.updateCoords links = .ok v ∧
      v.id = k ∧ v.route = [lk] ∧ v.entered = 1 ∧ v.willQueueOrEnter = 0 ∧ v.pathfind.paths = [] ∧ v.laneChange = none ∧
      v.canExit = false ∧ v.halfLen = 2 ∧ v.pos = 0 ∧ v.vel = 0 ∧ v.acc = ⟨2, 2, 2, 1, 2⟩ := by
  obtain ⟨smp, hsmp⟩ := l.curve.sampleCentre_ok hsegs 0.0
  have h : ∃ v0, (Vehicle.new k Lone.car).setLocation lk 0.0 none links = .ok v0 ∧ 
      v0.id = k ∧ v0.route = [lk] ∧ v0.entered = 1 ∧ v0.willQueueOrEnter = 0 ∧ v0.pathfind.paths = [] ∧ v0.laneChange = none ∧
      v0.canExit = false ∧ v0.halfLen = 2 ∧ v0.pos = 0.0 ∧ v0.vel = 0.0 ∧ v0.acc = ⟨2, 2, 2, 1, 2⟩ := by
    simp only [Vehicle.setLocation, Vehicle.new, PathfindingModel.setOrigin, PathfindingModel.default, mget,
      if_true, PathfindingModel.reroute, Key.isNull, Key.null, beq_self_eq_true,
      Bool.or_true, PathfindingModel.makePaths, makePathsInner, getLink, hl, ho, bind, Except.bind, pure, Except.pure,
      List.mapM_nil]
    refine ⟨_, rfl, ?_⟩
    refine ⟨rfl, rfl, rfl, rfl, rfl, rfl, rfl, ?_, rfl, rfl, ?_⟩
    · norm_num [Lone.car]
    · norm_num [AccelerationModel.new, Lone.car]
  obtain ⟨v0, h, a1, a2, a3, a4, a5, a6, a7, a8, a9, a10, a11⟩ := h
  have h6 : ∃ v6, v0.updateCoords links = .ok v6 ∧ Placed v0 v6 := by
    unfold Vehicle.updateCoords
    split
    · rename_i h; rw [a2] at h; cases h
    · rename_i h; rw [a2] at h; cases h
      rw [← a9] at hsmp
      simp only [getLink, hl, bind, Except.bind, pure, Except.pure, hsmp]
      exact ⟨_, rfl, _, _, _, _, rfl⟩
  obtain ⟨v6, h6, p, d, r, c, hv6⟩ := h6
  refine ⟨v0, v6, h, h6, ?_⟩
  rw [hv6]
  refine ⟨a1, a2, a3, a4, a5, a6, a7, a8, a9.trans (by norm_num), a10.trans (by norm_num), a11⟩

/-- The simulation with one link and no vehicle. -/
noncomputable def empty (l : Link ℝ) : Sim ℝ := ⟨one l, .empty, [], .empty, [], 0, 0, 0.0, 0.0⟩

/-- The simulation with one link and two vehicles. -/
noncomputable def both (l : Link ℝ) (v w : Vehicle ℝ) (fr : List Key) (n sq : Nat) (t u : ℝ) : Sim ℝ :=
  ⟨one l, .empty, [], ⟨[⟨1, some v⟩, ⟨1, some w⟩], []⟩, fr, n, sq, t, u⟩

theorem link [Env] {s : Sim ℝ} (h : Sim.exec .new (.addLink (TwoLanes.lane 0 0)) = .ok s) : ∃ l, s = empty l ∧
    IsLink { l with vehicles := [⟨0, 1⟩] } ∧ l.vehicles = [] ∧ 99 ≤ l.length := by
  have hd : V2.distance (⟨0, 0⟩ : V2 ℝ) ⟨0 + 100, 0⟩ = 100 := by
    simp only [V2.distance, V2.magnitude, V2.magnitude2, V2.dot, V2.sub, fsqrt]
    show Real.sqrt _ = 100
    rw [show ((0 + 100 - 0) * (0 + 100 - 0) + (0 - 0) * (0 - 0) : ℝ) = 100 * 100 by norm_num]
    exact Real.sqrt_mul_self (by norm_num)
  simp only [Sim.exec, M_bind_ok] at h
  obtain ⟨⟨s1, k⟩, h, h'⟩ := h
  cases h'
  unfold Sim.addLink at h
  rw [M_bind_ok] at h
  obtain ⟨⟨links, k'⟩, h, h2⟩ := h
  cases h2
  unfold SlotMap.insertWithKey at h
  split at h
  · rename_i e; cases e
  rw [if_neg (by decide)] at h
  simp only [Link.new, M_bind_ok, M_pure_ok] at h
  obtain ⟨_, ⟨c, hc, rfl⟩, h⟩ := h
  cases h
  obtain ⟨hlen, hsegs⟩ := C38_length (by norm_num) (by rw [hd]; norm_num) hc
  refine ⟨_, rfl, ⟨rfl, rfl, hsegs, rfl, rfl, rfl, rfl, rfl⟩, rfl, ?_⟩
  rw [hd] at hlen
  have h1 := (abs_le.1 hlen).1
  norm_num at h1
  show 99 ≤ c.length
  linarith

theorem first [Env] {l : Link ℝ} (hl : IsLink { l with vehicles := [⟨0, 1⟩] }) (hv : l.vehicles = []) : ∃ v,
    Sim.exec (empty l) (.addVehicle Lone.car ⟨0, 1⟩) = .ok (sim { l with vehicles := [⟨0, 1⟩] } v [] 0 0 0.0 0.0) ∧ IsVeh v ∧ v.pos = 0 ∧
      v.vel = 0 ∧ v.acc.acc = 2 := by
  obtain ⟨v0, v, h1, h2, a1, a2, a3, a4, a5, a6, a7, a8, a9, a10, a11⟩ := placed (k := ⟨0, 1⟩) (lk := ⟨0, 1⟩) (links := one l) rfl
    (l := l) hl.lcs hl.segs
  refine ⟨v, ?_, ⟨a1, a2, a3, a4, a5, a6, by rw [a11], by rw [a11], a10.ge, by rw [a11], a7, a8, by rw [a11], by rw [a11]⟩, a9, a10, by rw [a11]⟩
  simp only [Sim.exec, Sim.addVehicle, empty, SlotMap.insertWithKey, SlotMap.empty, List.length_nil, u32Max, h1, h2, bind, Except.bind,
    pure, Except.pure]
  norm_num
  simp only [Sim.insertOnLink, getLink, get_one, bind, Except.bind, pure, Except.pure, Link.insertVehicle, getVeh,
    Link.insertIdx, updLink, modify_one, hv]
  rfl

theorem second [Env] {l : Link ℝ} {v : Vehicle ℝ} {fr : List Key} {n sq : Nat} {t u : ℝ} (hl : IsLink l) (hv : 0 < v.pos) : ∃ w,
    Sim.exec (sim l v fr n sq t u) (.addVehicle Lone.car ⟨0, 1⟩) = .ok (both { l with vehicles := [⟨1, 1⟩, ⟨0, 1⟩] } v w fr n sq t u) ∧
      w.route = [⟨0, 1⟩] ∧ w.pathfind.paths = [] ∧ w.laneChange = none ∧ w.halfLen = 2 ∧ w.pos = 0 ∧ w.vel = 0 ∧
      w.acc = ⟨2, 2, 2, 1, 2⟩ := by
  obtain ⟨v0, w, h1, h2, a1, a2, a3, a4, a5, a6, a7, a8, a9, a10, a11⟩ := placed (k := ⟨1, 1⟩) (lk := ⟨0, 1⟩) (links := one l) rfl
    (l := l) hl.lcs hl.segs
  refine ⟨w, ?_, a2, a5, a6, a8, a9, a10, a11⟩
  simp only [Sim.exec, Sim.addVehicle, sim, SlotMap.insertWithKey, List.length_singleton, u32Max, h1, h2, bind, Except.bind,
    pure, Except.pure]
  norm_num
  have hw : w.pos < v.pos := by rw [a9]; exact hv
  simp [Sim.insertOnLink, getLink, bind, Except.bind, pure, Except.pure, Link.insertVehicle, getVeh, SlotMap.get?,
    Link.insertIdx, updLink, modify_one, hl.vehs, both]
  rw [if_pos hw]
  rfl


theorem fuel_irrel {l : Link ℝ} {v : Vehicle ℝ} {fr : List Key} {m sq : Nat} {t u dt : ℝ} (hv : IsVeh v) (ht : t < 0.1) : 
   @Sim.step ℝ _ (Search.full 0) (sim l v fr m sq t u) dt = @Sim.step ℝ _ (Search.full 1) (sim l v fr m sq t u) dt := by
  obtain ⟨u', h⟩ := lanes (n := 0) (l := l) (fr := fr) (m := m) (sq := sq) (t := t) (u := u) hv
  have h0 : @Sim.calculateLaneChanges ℝ _ (Search.full 0) (sim l v fr m sq t u) = .ok (sim l v fr m sq t u') := h
  have h1 : ∀ n, @Sim.applyAccelerations ℝ _ (Search.full n) (sim l v fr m sq t u') = .ok (sim l v fr m sq t u') := by
    intro n
    unfold Sim.applyAccelerations
    exact if_pos ht
  unfold Sim.step
  have h : @Sim.calculateLaneChanges ℝ _ (Search.full 1) (sim l v fr m sq t u) = .ok (sim l v fr m sq t u') := h
  rw [h, h0]
  simp only [bind, Except.bind, h1]
  rfl

/-- A vehicle has driven for `d` s, hence d² m, when another one is added. -/
noncomputable def build (d : ℝ) : List (Op ℝ) :=
  [.addLink (TwoLanes.lane 0 0), .addVehicle Lone.car ⟨0, 1⟩, .step d, .addVehicle Lone.car ⟨0, 1⟩]

structure Built (d : ℝ) (s : Sim ℝ) (l : Link ℝ) (v w : Vehicle ℝ) : Prop where
  eq : ∃ fr n sq u, s = both l v w fr n sq d u
  vehs : l.vehicles = [⟨1, 1⟩, ⟨0, 1⟩]
  outs : l.linksOut = []
  len : 99 ≤ l.length
  routes : v.route = [⟨0, 1⟩] ∧ w.route = [⟨0, 1⟩]
  paths : v.pathfind.paths = [] ∧ w.pathfind.paths = []
  lcs : v.laneChange = none ∧ w.laneChange = none
  half : v.halfLen = 2 ∧ w.halfLen = 2
  pos : v.pos = d ^ 2 ∧ w.pos = 0
  vel : v.vel = 2 * d ∧ w.vel = 0
  acc : v.acc.maxAcc = 2 ∧ w.acc = ⟨2, 2, 2, 1, 2⟩

theorem leads {d : ℝ} (hd : 0 < d) (hd5 : d ≤ 5) : @ProgLeads (Lone.env 0) (fun s => ∃ l v w, Built d s l v w) .new (build d) := by
  refine ⟨trivial, TwoLanes.lane_fits _ _ (.inr (by simp [Sim.new, SlotMap.empty, u32Max])), fun n1 s1 r1 h1 => ?_⟩
  obtain ⟨l, rfl, hl, hvs, hlen⟩ := @link (_) _ h1
  refine ⟨trivial, ⟨rfl, .inr (by simp [empty, SlotMap.empty, u32Max])⟩, fun n2 s2 r2 h2 => ?_⟩
  obtain ⟨v, h2', hv, hp, hu, ha⟩ := @first (@Env.withFuel (Lone.env 0) n2) l hl hvs
  rw [h2'] at h2; cases h2
  refine ⟨trivial, trivial, fun n3 s3 r3 h3 => ?_⟩
  have h3' : ∃ n, @Sim.step ℝ _ (Lone.env n) (sim { l with vehicles := [⟨0, 1⟩] } v [] 0 0 0.0 0.0) d = .ok s3 := by
    cases n3 with
    | zero => exact ⟨0, (fuel_irrel hv (by norm_num)).symm.trans h3⟩
    | succ n => exact ⟨n, h3⟩
  obtain ⟨n, h3'⟩ := h3'
  obtain ⟨l', v', fr', t', u', h4, hl', hv', hc, b1, c1, p1, d1⟩ := step (n := n) (fr := []) (m := 0) (sq := 0) (t := 0.0) (u := 0.0)
    (dt := d) hl hv hd.le (by rw [hp, hu]; norm_num; exact le_trans (by nlinarith) hlen)
  rw [h4] at h3'; cases h3'
  obtain ⟨-, g1, i1⟩ := d1 (by norm_num)
  rw [hu, ha] at i1
  norm_num at i1
  rw [hp, hu, i1] at p1
  norm_num at p1 g1
  subst t'
  have hm : max (d * 2) 0 = 2 * d := by rw [max_eq_left (by positivity)]; ring
  rw [hm] at i1 p1
  replace p1 : v'.pos = d ^ 2 := by rw [p1]; ring
  refine ⟨trivial, ⟨rfl, .inr (by simp [sim, u32Max])⟩, fun n4 s4 r4 h6 => ?_⟩
  obtain ⟨w, h5, a1, a2, a3, a4, a5, a6, a7⟩ := @second (@Env.withFuel (Lone.env 0) n4) l' v' fr' 1 0 d u' hl' (by rw [p1]; positivity)
  rw [h5] at h6; cases h6
  exact ⟨_, v', w, ⟨_, _, _, _, rfl⟩, rfl, hl'.outs, by unfold Link.length at hlen ⊢; dsimp only; rw [hc]; exact hlen, ⟨hv'.route, a1⟩, ⟨hv'.paths, a2⟩,
    ⟨hv'.lc, a3⟩, ⟨hv'.half, a4⟩, ⟨p1, a5⟩, ⟨i1, a6⟩, hv'.maxAcc, a7⟩

theorem lanes [Env] {s : Sim ℝ} {l : Link ℝ} {v w : Vehicle ℝ} {d : ℝ} (h : Built d s l v w) :
    ∃ s1, s.calculateLaneChanges = .ok s1 ∧ s1.links = s.links ∧ s1.vehicles = s.vehicles := by
  obtain ⟨fr, n, sq, u, rfl⟩ := h.eq
  unfold Sim.calculateLaneChanges
  split
  · exact ⟨_, rfl, rfl, rfl⟩
  · have h1 : ∀ links : LinkSet ℝ, v.choosePath links = .ok none := fun links => by
      simp [Vehicle.choosePath, h.lcs.1, h.paths.1, Vehicle.minPath, bind, Except.bind, pure, Except.pure]
    have h2 : ∀ links : LinkSet ℝ, w.choosePath links = .ok none := fun links => by
      simp [Vehicle.choosePath, h.lcs.2, h.paths.2, Vehicle.minPath, bind, Except.bind, pure, Except.pure]
    simp [both, SlotMap.keys, SlotMap.keysFrom, Sim.choosePathOf, getVeh, SlotMap.get?, bind, Except.bind, pure, Except.pure, h1, h2]

end Pair
/-- The parameters of the example in the documentation (`src/lib.rs:39-46`), with steps of at most 0.2 s, up to 60 m/s. -/
theorem cautious_usual (adj acc : ℝ) : Cautious ⟨1.5, 2, 2, adj, acc⟩ (0.2 + 0.1) 60 := by
  have hsq : √((2 : ℝ) / (2 + 6)) = 1 / 2 := by
    rw [show (2 : ℝ) / (2 + 6) = (1 / 2) ^ 2 by norm_num]
    exact Real.sqrt_sq (by norm_num)
  have hsq' : √((2 : ℝ) * (2 + 6)) = 4 := by
    rw [show (2 : ℝ) * (2 + 6) = 4 ^ 2 by norm_num]
    exact Real.sqrt_sq (by norm_num)
  constructor <;> dsimp only
  · norm_num
  · norm_num
  · rw [hsq]; norm_num
  · rw [hsq, hsq']; norm_num

/-- A vehicle starts 21 m behind another that drives at 10 m/s. -/
example : ∃ (_ : Env) (_ : LawfulDijkstra) (s0 s : Sim ℝ) (v0 u0 v u : Vehicle ℝ) (l : Link ℝ) (k j lk : Key), Reach True s0 ∧
    ¬ s0.accUpdate < 0.1 ∧ s0.getVehicle k = .ok v0 ∧ s0.getVehicle j = .ok u0 ∧ s0.getLinkRef lk = .ok l ∧ lk ∉ l.linksOut ∧
    Cautious v0.acc (0.1 + 0.1) 10 ∧ v0.posFront ≤ u0.posRear ∧
    v0.posFront + v0.vel ^ 2 / 12 + 3 / 4 * (0.1 + 0.1) ^ 2 ≤ u0.posRear + u0.vel ^ 2 / 12 ∧
    FollowStep k j lk 0.1 10 s0 s ∧ s.getVehicle k = .ok v ∧ s.getVehicle j = .ok u := by
  obtain ⟨N, s, ⟨l, v, w, hb⟩, hp, hn, h⟩ := @program_runs (Lone.env 0) (Lone.lawful 0) _ (Search.full_ends _) _ (Pair.leads (d := 5) (by norm_num) le_rfl)
  have hr : @Reach ℝ _ (@Env.withFuel (Lone.env 0) N) True s := (h N le_rfl).1
  obtain ⟨N1, s', h1⟩ := @C69_calls (@Env.withFuel (Lone.env 0) N) (@LawfulDijkstra.withFuel (Lone.env 0) (Lone.lawful 0) N) s hr
    (Search.full_ends _) hp hn (.step 0.1) trivial trivial
  let env : Env := @Env.withFuel (Lone.env 0) (max N N1)
  have hlaw : LawfulDijkstra := @LawfulDijkstra.withFuel (Lone.env 0) (Lone.lawful 0) (max N N1)
  replace hr : Reach True s := (h _ (le_max_left _ _)).1
  replace h1 : s.step 0.1 = .ok s' := h1 _ (le_max_right _ _)
  obtain ⟨fr, n, sq, u, es⟩ := hb.eq
  have gl : s.getLinkRef ⟨0, 1⟩ = .ok l := by rw [es]; rfl
  have gv : s.getVehicle ⟨0, 1⟩ = .ok v := by rw [es]; rfl
  have gw : s.getVehicle ⟨1, 1⟩ = .ok w := by rw [es]; rfl
  have hc : ¬ s.accUpdate < 0.1 := by
    rw [es]; show ¬ (5 : ℝ) < 0.1; norm_num
  have lv : v.linkId = some ⟨0, 1⟩ := by rw [Vehicle.linkId, hb.routes.1]; rfl
  have lw : w.linkId = some ⟨0, 1⟩ := by rw [Vehicle.linkId, hb.routes.2]; rfl
  obtain ⟨s1, hs1, e1, e2⟩ := Pair.lanes hb
  have gv1 : s1.getVehicle ⟨0, 1⟩ = .ok v := by rw [← gv]; unfold Sim.getVehicle; rw [e2]
  have gw1 : s1.getVehicle ⟨1, 1⟩ = .ok w := by rw [← gw]; unfold Sim.getVehicle; rw [e2]
  have gl1 : s1.getLinkRef ⟨0, 1⟩ = .ok l := by rw [← gl]; unfold Sim.getLinkRef; rw [e1]
  obtain ⟨v', gv', lv'⟩ := step_stays hr h1 hc hs1 gv gv1 lv lv gl (by norm_num) (by rw [hb.acc.1]; norm_num)
    (by rw [hb.acc.1, hb.pos.1, hb.vel.1]; have := hb.len; norm_num; linarith)
  obtain ⟨w', gw', lw'⟩ := step_stays hr h1 hc hs1 gw gw1 lw lw gl (by norm_num) (by rw [hb.acc.2]; norm_num)
    (by rw [hb.acc.2, hb.pos.2, hb.vel.2]; have := hb.len; norm_num; linarith)
  have hsq : √((2 : ℝ) / (2 + 6)) = 1 / 2 := by
    rw [show (2 : ℝ) / (2 + 6) = (1 / 2) ^ 2 by norm_num]
    exact Real.sqrt_sq (by norm_num)
  have hsq' : √((2 : ℝ) * (2 + 6)) = 4 := by
    rw [show (2 : ℝ) * (2 + 6) = 4 ^ 2 by norm_num]
    exact Real.sqrt_sq (by norm_num)
  refine ⟨env, hlaw, s, s', w, v, w', v', l, ⟨1, 1⟩, ⟨0, 1⟩, ⟨0, 1⟩, hr, hc, gw, gv, gl, by rw [hb.outs]; simp, ?_, ?_, ?_,
    ⟨0.1, by norm_num, le_rfl, h1, ⟨⟨s1, l, hs1, gl1, ⟨[], [], by rw [hb.vehs]; rfl⟩⟩, ⟨⟨w, gw, lw⟩, v, gv, lv⟩, ⟨w', gw', lw'⟩, v', gv', lv'⟩, ?_⟩, gw', gv'⟩
  · rw [hb.acc.2]
    constructor <;> dsimp only
    · norm_num
    · norm_num
    · rw [hsq]; norm_num
    · rw [hsq, hsq']; norm_num
  · rw [Vehicle.posFront, Vehicle.posRear, hb.pos.1, hb.pos.2, hb.half.1, hb.half.2]; norm_num
  · rw [Vehicle.posFront, Vehicle.posRear, hb.pos.1, hb.pos.2, hb.half.1, hb.half.2, hb.vel.1, hb.vel.2]; norm_num
  · intro x hx
    rw [gw] at hx; cases hx
    rw [hb.vel.2]; norm_num

/-! ## C77: lines -/

/-- After lane changes the vehicle `k` on the link `lk` has not entered another link and may not go on, if accelerations are due; the
vehicles ahead of it on the link pass. -/
def AtLine [Env] (k lk : Key) (s : Sim ℝ) : Prop :=
  ∃ s1 v1 l1 pre post, s.calculateLaneChanges = .ok s1 ∧ s1.getVehicle k = .ok v1 ∧ s1.getLinkRef lk = .ok l1 ∧
    v1.linkId = some lk ∧ v1.entered = 1 ∧ l1.vehicles = pre ++ k :: post ∧
    (∀ a ∈ post, ∀ w, s1.getVehicle a = .ok w → Passes s1.links lk 0 l1.length l1 w) ∧
    (¬ s.accUpdate < 0.1 → MustStop s1.links v1 0)

theorem AtLine.keeps [Env] [LawfulDijkstra] {h V : ℝ} (hs : Reach strict s) (hst : s.step dt = .ok s') (ha : AtLine k lk s) {l : Link ℝ}
    (hl : s.getLinkRef lk = .ok l) (hdt : 0 ≤ dt) (hh : dt + 0.1 ≤ h) (hv : s.getVehicle k = .ok v) (hlk : v.linkId = some lk)
    (hlen : 0 ≤ v.halfLen) (hc : Stopping v.acc h) (hV : v.vel ≤ V)
    (hwide : V ^ 2 + 2 * (v.acc.maxAcc + 6) * h * V + (v.acc.maxAcc + 3) ^ 2 * h ^ 2 ≤ 60 * l.speedLimit)
    (hk : Keeps h s.accUpdate (l.length - v.posFront) v.vel v.acc.getAcc 0) :
    ∃ v', s'.getVehicle k = .ok v' ∧ v'.linkId = some lk ∧ v'.halfLen = v.halfLen ∧ (∃ a, v'.acc = { v.acc with acc := a }) ∧
      Keeps h s'.accUpdate (l.length - v'.posFront) v'.vel v'.acc.getAcc 0 := by
  obtain ⟨s1, v1, l1, pre, post, hlanes, hv1, hl1, b1, hent, hvs, hpost, hms⟩ := ha
  obtain ⟨s1', s2, s3, s4, s5, s6, hr⟩ := (step_spec hs.inv dt).ok hst
  rw [hr.run1] at hlanes; cases hlanes
  obtain ⟨v1', v2, v4, ht⟩ := hr.trace (getVeh_ok.1 hv)
  have g1 := ht.get1
  rw [getVeh_ok.1 hv1] at g1; cases g1
  obtain ⟨e1, e2, -⟩ := ht.steer.same
  obtain ⟨e3, -⟩ := ht.steer.stay (b1.trans hlk.symm)
  have e4 : v1.halfLen = v.halfLen := by
    rcases ht.steer with (rfl | ⟨p, -, -, rfl⟩) | ⟨p, -, -, hs⟩
    · rfl
    · rfl
    · obtain ⟨link, pos, lc, pf, -, rfl, -⟩ := hs.ex
      rfl
  obtain ⟨a, w, ev2⟩ := ht.acc.same
  obtain ⟨q, e, lc, cnt, ev4, -⟩ := ht.move.eq
  have v0 := C20_speed hs hv
  norm_num at hh
  have e5 : v4.vel = max (v.vel + dt * v2.acc.getAcc) 0 := by
    rw [ev4]; dsimp only; rw [ev2]; dsimp only; rw [e1]; simp only [fmax]; norm_num
  have e6 : v4.pos = v.pos + (v.vel + v4.vel) / 2 * dt := by
    have : v4.pos = v2.pos + 0.5 * (v2.vel + v4.vel) * dt := by rw [ev4]
    rw [this, ev2]; dsimp only; rw [e1, e3]
    have h5 : (0.5 : ℝ) = 1 / 2 := by norm_num
    rw [h5]; ring
  have e7 : v4.halfLen = v.halfLen ∧ v4.acc = v2.acc ∧ v4.route = v1.route := by
    rw [ev4]; dsimp only; rw [ev2]; exact ⟨e4, rfl, rfl⟩
  have e8 : v2.acc = { v.acc with acc := a } := by rw [ev2]; dsimp only; rw [e2]
  have hge : -6 ≤ v2.acc.getAcc := by
    simp only [AccelerationModel.getAcc, fmax, maxDecel]
    exact le_max_of_le_right (by norm_num)
  obtain ⟨ll, hll, hfr⟩ := hr.frame1.frame.fwd lk l (getLink_ok.1 hl)
  rw [getLink_ok.1 hl1] at hll; cases hll
  have elen : l1.length = l.length := by unfold Link.length; rw [hfr.curve]
  have hclk := hr.clocks.2.1
  obtain ⟨hg0, hk⟩ := hk
  have hu0 : (0 : ℝ) = max (0 + dt * 0) 0 := by simp
  have main : 0 ≤ l.length - (v4.pos + v4.halfLen) ∧ (v4.vel = 0 ∧ (s'.accUpdate < 0.1 → v2.acc.getAcc ≤ 0) ∨
      CanStop (3 / 4 * h ^ 2) (l.length - (v4.pos + v4.halfLen) + 0 ^ 2 / 12) v4.vel v2.acc.getAcc
        (if s'.accUpdate < 0.1 then h - s'.accUpdate else 0)) := by
    have hg : l.length - (v4.pos + v4.halfLen) = l.length - v.posFront + (0 + 0) / 2 * dt - (v.vel + v4.vel) / 2 * dt := by
      rw [e6, e7.1, Vehicle.posFront]; ring
    by_cases hlt : s.accUpdate < 0.1
    · replace hclk := hclk.trans (if_pos hlt)
      rw [if_pos hlt] at hk
      have hsame : v2.acc = v.acc := by
        rcases ht.acc with ⟨-, -, e3⟩ | ⟨hge, -⟩
        · rw [e3, e2]
        · rw [hr.clocks.1] at hge; exact absurd hlt hge
      rw [← hsame] at hk
      have hlt' := hlt
      norm_num at hlt'
      obtain ⟨k1, k2⟩ := keeps_move hg0 le_rfl v0 hge (b := 0) (by norm_num) hdt (r := h - s.accUpdate) (h := h) (by linarith) (by linarith)
        (hk.imp (fun x => ⟨x.1, x.2 hlt⟩) id) e5 hu0 hg
      refine ⟨k1, k2.imp (fun x => ⟨x.1, fun _ => x.2⟩) fun x => x.mono le_rfl le_rfl ?_⟩
      rw [hclk]
      split <;> linarith
    · replace hclk := hclk.trans (if_neg hlt)
      rw [if_neg hlt] at hk
      have hk' : v.vel = 0 ∨ 3 / 4 * h ^ 2 ≤ l.length - v.posFront - v.vel ^ 2 / 12 := by
        refine hk.imp And.left fun x => ?_
        have := x 0 le_rfl le_rfl (by linarith)
        simpa using this
      have hmax : 0 ≤ v.acc.maxAcc := by have := hc.acc; norm_num at this; linarith
      have hcan : v.vel = 0 ∧ v2.acc.getAcc ≤ 0 ∨
          CanStop (3 / 4 * h ^ 2) (l.length - v.posFront + 0 ^ 2 / 12) v.vel v2.acc.getAcc h := by
        by_cases hnear : l1.length - 5 * l1.speedLimit ≤ v1.posFront
        · have hfol : v2.acc.getAcc ≤ followAcc v.acc (l.length - v.posFront) v.vel 0 := by
            have hh := hr.held (i := 0) (k0 := lk) (lk := lk) (pos := l1.length) hs ht hlt hent
              (.here (by have : v1.route.head? = some lk := b1; rw [← List.head?_eq_getElem?]; exact this) (getLink_ok.1 hl1)) hl1 hvs hpost
              (by norm_num; linarith) (hms hlt)
            rw [followAcc_eq]
            have key : v2.acc.acc ≤ max (min v1.acc.maxAcc (v1.acc.idm (l1.length - v1.posFront) v1.vel 0)) (-6) := by
              rcases hh with e | ⟨as, hx, e⟩
              · rw [e]; exact le_trans (by norm_num) (le_max_right _ _)
              · rw [e]
                norm_num at hx
                exact le_trans (le_min (foldl_min_le as _).1 ((foldl_min_le as _).2 _ hx)) (le_max_left _ _)
            rw [elen, e1, e2, Vehicle.posFront, e3, e4] at key
            refine max_le key (le_trans ?_ (le_max_right _ _))
            simp only [maxDecel]; norm_num
          have := hc.canStop v0 hfol hge hk'
          simpa using this
        · right
          have hacc := hr.acc_le ht hlt hmax
          refine (canStop_wide v0 hmax ?_).slower hacc
          have hfar : 5 * l.speedLimit ≤ l.length - v.posFront := by
            rw [elen, hfr.speedLimit, Vehicle.posFront, e3, e4] at hnear
            rw [Vehicle.posFront]
            linarith
          have h6 : 2 * (v.acc.maxAcc + 6) * h * v.vel ≤ 2 * (v.acc.maxAcc + 6) * h * V :=
            mul_le_mul_of_nonneg_left hV (mul_nonneg (by linarith) (by linarith))
          have h7 : v.vel ^ 2 ≤ V ^ 2 := pow_le_pow_left₀ v0 hV 2
          linarith
      obtain ⟨k1, k2⟩ := keeps_move hg0 le_rfl v0 hge (b := 0) (by norm_num) hdt (r := h) (h := h) (by linarith) (by linarith)
        hcan e5 hu0 hg
      refine ⟨k1, k2.imp (fun x => ⟨x.1, fun _ => x.2⟩) fun x => x.mono le_rfl le_rfl ?_⟩
      rw [hclk]
      split
      · norm_num
      · linarith
  have hpos : v4.pos ≤ l.length := by
    have := main.1
    rw [e7.1] at this
    linarith
  have hl4 : ∀ a l', v4.route.head? = some a → s4.links.get? a = some l' → ¬ l'.length < v4.pos := by
    intro a l' ha hl'
    rw [e7.2.2] at ha
    have : some a = some lk := ha.symm.trans b1
    cases this
    obtain ⟨l0, h0, hfr⟩ := hr.frame4.bwd hl'
    rw [getLink_ok.1 hl] at h0; cases h0
    have : l'.length = l.length := by unfold Link.length; rw [hfr.curve]
    rw [this]; exact not_lt.2 hpos
  cases ht.out with
  | stays u hu hp _ =>
    obtain ⟨p, d, r, c, rfl⟩ := hp
    refine ⟨_, getVeh_ok.2 hu, ?_, e7.1, ⟨a, e7.2.1.trans e8⟩, ?_⟩
    · show v4.route.head? = _; rw [e7.2.2]; exact b1
    · show Keeps h _ (l.length - (v4.pos + v4.halfLen)) v4.vel v4.acc.getAcc 0
      rw [e7.2.1]
      exact main
  | passes v5 u hp _ _ _ =>
    obtain ⟨a, rest, l', pf, ha, hl', hlt, -⟩ := hp.ex
    exact absurd hlt (hl4 a l' (by rw [ha]; rfl) hl')
  | leaves v5 hp _ _ =>
    obtain ⟨a, rest, l', pf, ha, hl', hlt, -⟩ := hp.ex
    exact absurd hlt (hl4 a l' (by rw [ha]; rfl) hl')

/-- A step of at most `D` seconds in which `k`, not faster than `V`, is the first before the end of `lk` and may not go on. -/
def LineStep [Env] (k lk : Key) (D V : ℝ) (s s' : Sim ℝ) : Prop :=
  ∃ dt, 0 ≤ dt ∧ dt ≤ D ∧ s.step dt = .ok s' ∧ AtLine k lk s ∧ ∀ v, s.getVehicle k = .ok v → v.vel ≤ V

/-- **C77** In exact arithmetic: when accelerations are due, the vehicle `k` stands, or would stop at least `3/4 h²` metres before the
end of its link if it braked fully.  Then in all following steps of at most `D` seconds in which it is the first vehicle that has to
stop at the end of its link, and not faster than `V`, it stays on its link and its front does not pass the end.
Here `h = D + 0.1`. -/
theorem C77_stops [Env] [LawfulDijkstra] {D V : ℝ} {l : Link ℝ} {s0 : Sim ℝ} {v0 : Vehicle ℝ} (hs : Reach strict s0)
    (hre : ¬ s0.accUpdate < 0.1) (hv0 : s0.getVehicle k = .ok v0) (hlk : v0.linkId = some lk) (hl : s0.getLinkRef lk = .ok l)
    (hlen : 0 ≤ v0.halfLen) (hc : Stopping v0.acc (D + 0.1))
    (hwide : V ^ 2 + 2 * (v0.acc.maxAcc + 6) * (D + 0.1) * V + (v0.acc.maxAcc + 3) ^ 2 * (D + 0.1) ^ 2 ≤ 60 * l.speedLimit)
    (hgap : v0.posFront ≤ l.length) (hstop : v0.vel = 0 ∨ v0.posFront + v0.vel ^ 2 / 12 + 3 / 4 * (D + 0.1) ^ 2 ≤ l.length)
    (hrun : Relation.ReflTransGen (LineStep k lk D V) s0 s) :
    ∃ v, s.getVehicle k = .ok v ∧ v.linkId = some lk ∧ v.posFront ≤ l.length := by
  have key : Reach strict s ∧ ∃ l' v, s.getLinkRef lk = .ok l' ∧ l'.length = l.length ∧ l'.speedLimit = l.speedLimit ∧
      s.getVehicle k = .ok v ∧ v.linkId = some lk ∧ v.halfLen = v0.halfLen ∧ (∃ a, v.acc = { v0.acc with acc := a }) ∧
      Keeps (D + 0.1) s.accUpdate (l.length - v.posFront) v.vel v.acc.getAcc 0 := by
    induction hrun with
    | refl =>
      refine ⟨hs, l, v0, hl, rfl, rfl, hv0, hlk, rfl, ⟨_, rfl⟩, by linarith, hstop.imp (fun h => ⟨h, fun h => absurd h hre⟩) fun h => ?_⟩
      intro t h0 h1 _
      rw [if_neg hre] at h1
      obtain rfl := le_antisymm h1 h0
      linarith
    | tail _ hst ih =>
      obtain ⟨hs, l1, v, hl1, el, es, hv, hlk, eh, ⟨a, ea⟩, hk⟩ := ih
      obtain ⟨dt, h0, h1, hst, hb, hV⟩ := hst
      obtain ⟨s1, s2, s3, s4, s5, s6, hr⟩ := (step_spec hs.inv dt).ok hst
      obtain ⟨l', hl', hfr⟩ := hr.frame.fwd lk l1 (getLink_ok.1 hl1)
      obtain ⟨v', hv', hlk', eh', ⟨a', ea'⟩, hk'⟩ := hb.keeps hs hst hl1 h0 (h := D + 0.1) (by linarith) hv hlk (by rw [eh]; exact hlen)
        (by rw [ea]; exact ⟨hc.acc, hc.dec, hc.strong, hc.near, hc.far⟩) (hV v hv) (by rw [ea, es]; exact hwide) (by rw [el]; exact hk)
      refine ⟨.exec (.step dt) hs trivial hst, l', v', getLink_ok.2 hl', ?_, ?_, hv', hlk', eh'.trans eh, ⟨a', ?_⟩, by rw [← el]; exact hk'⟩
      · rw [← el]; unfold Link.length; rw [hfr.curve]
      · rw [hfr.speedLimit, es]
      · rw [ea', ea]
  obtain ⟨-, l', v, -, -, -, hv, hlk, -, -, hk⟩ := key
  exact ⟨v, hv, hlk, by linarith [hk.1]⟩

/-- A vehicle at 14 m/s, about 50 m before the end of its link, which it may not leave. -/
example : ∃ (_ : Env) (_ : LawfulDijkstra) (s0 s : Sim ℝ) (v0 : Vehicle ℝ) (l : Link ℝ) (k lk : Key), Reach True s0 ∧
    ¬ s0.accUpdate < 0.1 ∧ s0.getVehicle k = .ok v0 ∧ v0.linkId = some lk ∧ s0.getLinkRef lk = .ok l ∧ 0 ≤ v0.halfLen ∧
    Stopping v0.acc (0.05 + 0.1) ∧
    14 ^ 2 + 2 * (v0.acc.maxAcc + 6) * (0.05 + 0.1) * 14 + (v0.acc.maxAcc + 3) ^ 2 * (0.05 + 0.1) ^ 2 ≤ 60 * l.speedLimit ∧
    v0.posFront ≤ l.length ∧ v0.vel = 14 ∧ v0.posFront + v0.vel ^ 2 / 12 + 3 / 4 * (0.05 + 0.1) ^ 2 ≤ l.length ∧
    LineStep k lk 0.05 14 s0 s := by
  obtain ⟨n, s0, s1, s2, v0, v1, v2, h1, h2, h3, h4, h5, h6, h7, -, h8, -, -, h9, -, h10, h11, h12, hp, ⟨l', hl', -, hl1, hl2⟩, -, t, h15, h16,
    hv, l, h13, h13', hl⟩ := Lone.run false 7 (by norm_num) (by norm_num)
  rw [h13'] at hl'; injection hl' with hl'; subst hl'
  have hsq : √((2 : ℝ) / (2 + 6)) = 1 / 2 := by
    rw [show (2 : ℝ) / (2 + 6) = (1 / 2) ^ 2 by norm_num]
    exact Real.sqrt_sq (by norm_num)
  refine ⟨Lone.env n, Lone.lawful n, s1, s2, v1, l, ⟨0, 1⟩, ⟨0, 1⟩, h3, by rw [h8]; norm_num, h6, h9, h13', by rw [hv.half]; norm_num, ?_, ?_,
    ?_, by rw [h12]; norm_num, ?_, 0.05, by norm_num, le_rfl, h4,
    ⟨t, v1, l, [], [], h15, h16, h13, h9, hv.entered, hl.vehs, fun _ h => (nomatch h),
      fun _ => .inr (.inl ⟨by rw [hv.route]; rfl, hv.exit⟩)⟩, ?_⟩
  · constructor
    · rw [hv.maxAcc]; norm_num
    · rw [hv.dec]; norm_num
    · rw [hv.dec, hv.maxAcc]; norm_num
    · rw [hv.maxAcc, hsq]; norm_num
    · rw [hv.maxAcc, hv.head, hsq]; norm_num
  · rw [hv.maxAcc, hl.speed]; norm_num
  · rw [Vehicle.posFront, hp, hv.half]; linarith
  · rw [Vehicle.posFront, hp, hv.half, h12]; norm_num; linarith
  · intro v hv'
    rw [h6] at hv'; cases hv'
    rw [h12]; norm_num

end

end TrafficSim
