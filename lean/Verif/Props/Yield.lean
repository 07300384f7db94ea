import Verif.Props.Region
import Verif.Props.Conflict
import Verif.Props.SafetyAcross

/-! # C92: vehicles wait before a crossing for those that are ahead of them -/

namespace TrafficSim

section
variable {strict : Prop} {s s' s1 s2 s3 s4 s5 s6 : Sim ℝ} {dt : ℝ} {k lk : Key} {v v1 v2 v4 v' : Vehicle ℝ} {l : Link ℝ}

/-- A step keeps a vehicle able to stop before the line `p` of its link, if its acceleration, where it is computed anew, is at most that
for a vehicle that stands at the line, or the line is far away. -/
theorem StepRun.line_keeps [Env] [LawfulDijkstra] {h V p : ℝ} (hs : Reach strict s) (hr : StepRun strict s dt s1 s2 s3 s4 s5 s6 s')
    (ht : Trace s dt s1 s2 s3 s4 s' k v v1 v2 v4) (hl : s.getLinkRef lk = .ok l) (hp : p ≤ l.length) (hdt : 0 ≤ dt) (hh : dt + 0.1 ≤ h)
    (hv : s.getVehicle k = .ok v) (hlk : v.linkId = some lk) (b1 : v1.linkId = some lk) (hlen : 0 ≤ v.halfLen) (hc : Stopping v.acc h)
    (hV : v.vel ≤ V)
    (hwide : V ^ 2 + 2 * (v.acc.maxAcc + 6) * h * V + (v.acc.maxAcc + 3) ^ 2 * h ^ 2 ≤ 60 * l.speedLimit)
    (hacc : ¬ s.accUpdate < 0.1 → v2.acc.getAcc ≤ followAcc v.acc (p - v.posFront) v.vel 0 ∨ 5 * l.speedLimit ≤ p - v.posFront)
    (hk : Keeps h s.accUpdate (p - v.posFront) v.vel v.acc.getAcc 0) :
    ∃ v', s'.getVehicle k = .ok v' ∧ v'.linkId = some lk ∧ v'.halfLen = v.halfLen ∧ (∃ a, v'.acc = { v.acc with acc := a }) ∧
      Keeps h s'.accUpdate (p - v'.posFront) v'.vel v'.acc.getAcc 0 := by
  obtain ⟨e1, e2, -⟩ := ht.steer.same
  obtain ⟨e3, -⟩ := ht.steer.stay (b1.trans hlk.symm)
  have e4 : v1.halfLen = v.halfLen := by
    rcases ht.steer with (rfl | ⟨p, -, -, rfl⟩) | ⟨p, -, -, hs⟩
    · rfl
    · rfl
    · obtain ⟨link, pos, lc, pf, -, rfl, -⟩ := hs.ex
      rfl
  obtain ⟨a, w, ev2⟩ := ht.acc.same
  obtain ⟨q, e, lc, cnt, ev4, -⟩ := ht.move.eq
  have v0 := C20_speed hs hv
  norm_num at hh
  have e5 : v4.vel = max (v.vel + dt * v2.acc.getAcc) 0 := by
    rw [ev4]; dsimp only; rw [ev2]; dsimp only; rw [e1]; simp only [fmax]; norm_num
  have e6 : v4.pos = v.pos + (v.vel + v4.vel) / 2 * dt := by
    have : v4.pos = v2.pos + 0.5 * (v2.vel + v4.vel) * dt := by rw [ev4]
    rw [this, ev2]; dsimp only; rw [e1, e3]
    have h5 : (0.5 : ℝ) = 1 / 2 := by norm_num
    rw [h5]; ring
  have e7 : v4.halfLen = v.halfLen ∧ v4.acc = v2.acc ∧ v4.route = v1.route := by
    rw [ev4]; dsimp only; rw [ev2]; exact ⟨e4, rfl, rfl⟩
  have e8 : v2.acc = { v.acc with acc := a } := by rw [ev2]; dsimp only; rw [e2]
  have hge : -6 ≤ v2.acc.getAcc := by
    simp only [AccelerationModel.getAcc, fmax, maxDecel]
    exact le_max_of_le_right (by norm_num)
  have hclk := hr.clocks.2.1
  obtain ⟨hg0, hk⟩ := hk
  have hu0 : (0 : ℝ) = max (0 + dt * 0) 0 := by simp
  have main : 0 ≤ p - (v4.pos + v4.halfLen) ∧ (v4.vel = 0 ∧ (s'.accUpdate < 0.1 → v2.acc.getAcc ≤ 0) ∨
      CanStop (3 / 4 * h ^ 2) (p - (v4.pos + v4.halfLen) + 0 ^ 2 / 12) v4.vel v2.acc.getAcc
        (if s'.accUpdate < 0.1 then h - s'.accUpdate else 0)) := by
    have hg : p - (v4.pos + v4.halfLen) = p - v.posFront + (0 + 0) / 2 * dt - (v.vel + v4.vel) / 2 * dt := by
      rw [e6, e7.1, Vehicle.posFront]; ring
    by_cases hlt : s.accUpdate < 0.1
    · replace hclk := hclk.trans (if_pos hlt)
      rw [if_pos hlt] at hk
      have hsame : v2.acc = v.acc := by
        rcases ht.acc with ⟨-, -, e3⟩ | ⟨hge, -⟩
        · rw [e3, e2]
        · rw [hr.clocks.1] at hge; exact absurd hlt hge
      rw [← hsame] at hk
      have hlt' := hlt
      norm_num at hlt'
      obtain ⟨k1, k2⟩ := keeps_move hg0 le_rfl v0 hge (b := 0) (by norm_num) hdt (r := h - s.accUpdate) (h := h) (by linarith) (by linarith)
        (hk.imp (fun x => ⟨x.1, x.2 hlt⟩) id) e5 hu0 hg
      refine ⟨k1, k2.imp (fun x => ⟨x.1, fun _ => x.2⟩) fun x => x.mono le_rfl le_rfl ?_⟩
      rw [hclk]
      split <;> linarith
    · replace hclk := hclk.trans (if_neg hlt)
      rw [if_neg hlt] at hk
      have hk' : v.vel = 0 ∨ 3 / 4 * h ^ 2 ≤ p - v.posFront - v.vel ^ 2 / 12 := by
        refine hk.imp And.left fun x => ?_
        have := x 0 le_rfl le_rfl (by linarith)
        simpa using this
      have hmax : 0 ≤ v.acc.maxAcc := by have := hc.acc; norm_num at this; linarith
      have hcan : v.vel = 0 ∧ v2.acc.getAcc ≤ 0 ∨
          CanStop (3 / 4 * h ^ 2) (p - v.posFront + 0 ^ 2 / 12) v.vel v2.acc.getAcc h := by
        rcases hacc hlt with hfol | hfar
        · have := hc.canStop v0 hfol hge hk'
          simpa using this
        · right
          have hle := hr.acc_le ht hlt hmax
          refine (canStop_wide v0 hmax ?_).slower hle
          have h6 : 2 * (v.acc.maxAcc + 6) * h * v.vel ≤ 2 * (v.acc.maxAcc + 6) * h * V :=
            mul_le_mul_of_nonneg_left hV (mul_nonneg (by linarith) (by linarith))
          have h7 : v.vel ^ 2 ≤ V ^ 2 := pow_le_pow_left₀ v0 hV 2
          linarith
      obtain ⟨k1, k2⟩ := keeps_move hg0 le_rfl v0 hge (b := 0) (by norm_num) hdt (r := h) (h := h) (by linarith) (by linarith)
        hcan e5 hu0 hg
      refine ⟨k1, k2.imp (fun x => ⟨x.1, fun _ => x.2⟩) fun x => x.mono le_rfl le_rfl ?_⟩
      rw [hclk]
      split
      · norm_num
      · linarith
  have hpos : v4.pos ≤ l.length := by
    refine le_trans ?_ hp
    have := main.1
    rw [e7.1] at this
    linarith
  have hl4 : ∀ a l', v4.route.head? = some a → s4.links.get? a = some l' → ¬ l'.length < v4.pos := by
    intro a l' ha hl'
    rw [e7.2.2] at ha
    have : some a = some lk := ha.symm.trans b1
    cases this
    obtain ⟨l0, h0, hfr⟩ := hr.frame4.bwd hl'
    rw [getLink_ok.1 hl] at h0; cases h0
    have : l'.length = l.length := by unfold Link.length; rw [hfr.curve]
    rw [this]; exact not_lt.2 hpos
  cases ht.out with
  | stays u hu hp _ =>
    obtain ⟨p', d, r, c, rfl⟩ := hp
    refine ⟨_, getVeh_ok.2 hu, ?_, e7.1, ⟨a, e7.2.1.trans e8⟩, ?_⟩
    · show v4.route.head? = _; rw [e7.2.2]; exact b1
    · show Keeps h _ (p - (v4.pos + v4.halfLen)) v4.vel v4.acc.getAcc 0
      rw [e7.2.1]
      exact main
  | passes v5 u hp _ _ _ =>
    obtain ⟨a, rest, l', pf, ha, hl', hlt, -⟩ := hp.ex
    exact absurd hlt (hl4 a l' (by rw [ha]; rfl) hl')
  | leaves v5 hp _ _ =>
    obtain ⟨a, rest, l', pf, ha, hl', hlt, -⟩ := hp.ex
    exact absurd hlt (hl4 a l' (by rw [ha]; rfl) hl')

/-- After lane changes the vehicle `k` on the link `lk` is either five seconds' way, at the speed limit of the link, before the position
`p`, or right behind a vehicle of another link that approaches or is on a conflict region which begins at `p`, and that it does not
simply follow, as the links run in different directions or the rear of the other vehicle is not on the region yet. -/
def Yields [Env] (k lk : Key) (p : ℝ) (s : Sim ℝ) : Prop :=
  ∃ s1 v1 l1, s.calculateLaneChanges = .ok s1 ∧ s1.getVehicle k = .ok v1 ∧ s1.getLinkRef lk = .ok l1 ∧ v1.linkId = some lk ∧
    (v1.posFront + 5 * l1.speedLimit ≤ p ∨ ∃ c ∈ s.conflicts, ∃ a b, c.link0.linkId ≠ c.link1.linkId ∧ b.key = k ∧ b.pos = p ∧
      RightBehind (EnteredBy s1.vehicles) s1.links s1.vehicles c a b ∧ ¬ (c.sameDir = true ∧ 0 < a.posRear))

/-- A step of at most `D` seconds in which `k`, not faster than `V`, has to wait before the position `p` of `lk`. -/
def YieldStep [Env] (k lk : Key) (p D V : ℝ) (s s' : Sim ℝ) : Prop :=
  ∃ dt, 0 ≤ dt ∧ dt ≤ D ∧ s.step dt = .ok s' ∧ Yields k lk p s ∧ ∀ v, s.getVehicle k = .ok v → v.vel ≤ V

theorem Yields.keeps [Env] [LawfulDijkstra] {h V p : ℝ} (hs : Reach strict s) (hst : s.step dt = .ok s') (ha : Yields k lk p s)
    (hl : s.getLinkRef lk = .ok l) (hp : p ≤ l.length) (hdt : 0 ≤ dt) (hh : dt + 0.1 ≤ h)
    (hv : s.getVehicle k = .ok v) (hlk : v.linkId = some lk) (hlen : 0 ≤ v.halfLen) (hc : Stopping v.acc h) (hV : v.vel ≤ V)
    (hwide : V ^ 2 + 2 * (v.acc.maxAcc + 6) * h * V + (v.acc.maxAcc + 3) ^ 2 * h ^ 2 ≤ 60 * l.speedLimit)
    (hk : Keeps h s.accUpdate (p - v.posFront) v.vel v.acc.getAcc 0) :
    ∃ v', s'.getVehicle k = .ok v' ∧ v'.linkId = some lk ∧ v'.halfLen = v.halfLen ∧ (∃ a, v'.acc = { v.acc with acc := a }) ∧
      Keeps h s'.accUpdate (p - v'.posFront) v'.vel v'.acc.getAcc 0 := by
  obtain ⟨s1, v1, l1, hlanes, hv1, hl1, b1, hwait⟩ := ha
  obtain ⟨s1', s2, s3, s4, s5, s6, hr⟩ := (step_spec hs.inv dt).ok hst
  rw [hr.run1] at hlanes; cases hlanes
  obtain ⟨v1', v2, v4, ht⟩ := hr.trace (getVeh_ok.1 hv)
  have g1 := ht.get1
  rw [getVeh_ok.1 hv1] at g1; cases g1
  refine hr.line_keeps hs ht hl hp hdt hh hv hlk b1 hlen hc hV hwide (fun hre => ?_) hk
  obtain ⟨e1, e2, -⟩ := ht.steer.same
  obtain ⟨e3, -⟩ := ht.steer.stay (b1.trans hlk.symm)
  have e4 : v1.halfLen = v.halfLen := by
    rcases ht.steer with (rfl | ⟨p, -, -, rfl⟩) | ⟨p, -, -, hs⟩
    · rfl
    · rfl
    · obtain ⟨link, pos, lc, pf, -, rfl, -⟩ := hs.ex
      rfl
  have ef : v1.posFront = v.posFront := by rw [Vehicle.posFront, e3, e4]; rfl
  rcases hwait with hfar | ⟨c, hcs, a, b, hne, rfl, rfl, hb, hdir⟩
  · obtain ⟨ll, hll, hfr⟩ := hr.frame1.frame.fwd lk l (getLink_ok.1 hl)
    rw [getLink_ok.1 hl1] at hll; cases hll
    rw [ef, hfr.speedLimit] at hfar
    exact .inr (by linarith)
  · left
    have hbv : s1.vehicles.get? b.key = some b.vehicle :=
      hb.right.elim (fun h => h.1.choose_spec.2.veh) fun h => h.1.choose_spec.2.veh
    rw [getVeh_ok.1 hv1] at hbv
    injection hbv with hbv
    have hc1 : c ∈ s1.conflicts := by
      rcases hr.lanes with ⟨-, e⟩ | ⟨-, vs, lcs, hl⟩
      · rw [e]; exact hcs
      · rw [show s1.conflicts = s.conflicts by rw [hl.eq]]; exact hcs
    have key : v2.acc.acc ≤ max (min b.vehicle.acc.maxAcc (conflictAcc c a b)) (-6) := by
      rcases ht.acc with ⟨hlt, -⟩ | ⟨-, n0, n1, vs, har, ha⟩
      · rw [hr.clocks.1] at hlt; exact absurd hlt hre
      by_cases hf : b.key ∈ s1.frozen
      · obtain ⟨x, w, ev2, -, hz, -⟩ := ha.eq
        have : v2.acc.acc = -6.0 := by rw [ev2]; exact hz hf
        rw [this]
        exact le_trans (by norm_num) (le_max_right _ _)
      · obtain ⟨w, as, x, hw, hx, ew⟩ := har.conflict hr.inv1.mid hc1 hne (frontsOrdered_real ..) hb hf
        have g2 := ht.get2
        rw [hr.vehicles3, hw] at g2; cases g2
        rw [ew]
        exact le_trans (le_min (foldl_min_le as _).1 ((foldl_min_le as _).2 _ hx)) (le_max_left _ _)
    rw [followAcc_eq]
    refine max_le ?_ (le_trans ?_ (le_max_right _ _))
    · unfold conflictAcc at key
      rw [if_neg (by norm_num; intro h; by_contra h'; exact hdir ⟨h, by simpa using h'⟩), ← hbv, e2, e1, ef] at key
      norm_num at key ⊢
      exact key
    · simp only [maxDecel]; norm_num

/-- **C92** In exact arithmetic: when accelerations are due, the vehicle `k` stands, or would stop at least `3/4 h²` metres before the
position `p` of its link if it braked fully.  Then in all following steps of at most `D` seconds in which it is not faster than `V`, and
either far from `p` or right behind a vehicle of another link at a conflict region that begins at `p`, its front does not pass `p`.
Here `h = D + 0.1`.

What is missing: that the vehicle ahead counts as long as it is in the region, which is false, see `C92_through`. -/
theorem C92_waits_partial [Env] [LawfulDijkstra] {D V p : ℝ} {s0 : Sim ℝ} {v0 : Vehicle ℝ} (hs : Reach strict s0)
    (hre : ¬ s0.accUpdate < 0.1) (hv0 : s0.getVehicle k = .ok v0) (hlk : v0.linkId = some lk) (hl : s0.getLinkRef lk = .ok l)
    (hp : p ≤ l.length) (hlen : 0 ≤ v0.halfLen) (hc : Stopping v0.acc (D + 0.1))
    (hwide : V ^ 2 + 2 * (v0.acc.maxAcc + 6) * (D + 0.1) * V + (v0.acc.maxAcc + 3) ^ 2 * (D + 0.1) ^ 2 ≤ 60 * l.speedLimit)
    (hgap : v0.posFront ≤ p) (hstop : v0.vel = 0 ∨ v0.posFront + v0.vel ^ 2 / 12 + 3 / 4 * (D + 0.1) ^ 2 ≤ p)
    (hrun : Relation.ReflTransGen (YieldStep k lk p D V) s0 s) :
    ∃ v, s.getVehicle k = .ok v ∧ v.linkId = some lk ∧ v.posFront ≤ p := by
  have key : Reach strict s ∧ ∃ l' v, s.getLinkRef lk = .ok l' ∧ l'.length = l.length ∧ l'.speedLimit = l.speedLimit ∧
      s.getVehicle k = .ok v ∧ v.linkId = some lk ∧ v.halfLen = v0.halfLen ∧ (∃ a, v.acc = { v0.acc with acc := a }) ∧
      Keeps (D + 0.1) s.accUpdate (p - v.posFront) v.vel v.acc.getAcc 0 := by
    induction hrun with
    | refl =>
      refine ⟨hs, l, v0, hl, rfl, rfl, hv0, hlk, rfl, ⟨_, rfl⟩, by linarith, hstop.imp (fun h => ⟨h, fun h => absurd h hre⟩) fun h => ?_⟩
      intro t h0 h1 _
      rw [if_neg hre] at h1
      obtain rfl := le_antisymm h1 h0
      linarith
    | tail _ hst ih =>
      obtain ⟨hs, l1, v, hl1, el, es, hv, hlk, eh, ⟨a, ea⟩, hk⟩ := ih
      obtain ⟨dt, h0, h1, hst, hb, hV⟩ := hst
      obtain ⟨s1, s2, s3, s4, s5, s6, hr⟩ := (step_spec hs.inv dt).ok hst
      obtain ⟨l', hl', hfr⟩ := hr.frame.fwd lk l1 (getLink_ok.1 hl1)
      obtain ⟨v', hv', hlk', eh', ⟨a', ea'⟩, hk'⟩ := hb.keeps hs hst hl1 (by rw [el]; exact hp) h0 (h := D + 0.1) (by linarith) hv hlk
        (by rw [eh]; exact hlen) (by rw [ea]; exact ⟨hc.acc, hc.dec, hc.strong, hc.near, hc.far⟩) (hV v hv) (by rw [ea, es]; exact hwide) hk
      refine ⟨.exec (.step dt) hs trivial hst, l', v', getLink_ok.2 hl', ?_, ?_, hv', hlk', eh'.trans eh, ⟨a', ?_⟩, hk'⟩
      · rw [← el]; unfold Link.length; rw [hfr.curve]
      · rw [hfr.speedLimit, es]
      · rw [ea', ea]
  obtain ⟨-, l', v, -, -, -, hv, hlk, -, -, hk⟩ := key
  exact ⟨v, hv, hlk, by linarith [hk.1]⟩

/-! ### A vehicle that waits -/

namespace Cross

/-- Two links without links before them, and a vehicle `a` on the link of the one side of a conflict, ahead of a vehicle `b` on the other. -/
theorem behind [Env] [LawfulDijkstra] {s : Sim ℝ} (hs : Reach True s) {c : ConflictPoint ℝ} {ka kb : Key} {va vb : Vehicle ℝ} {l0 l1 : Link ℝ}
    (hl0 : s.links.get? c.link0.linkId = some l0) (hl1 : s.links.get? c.link1.linkId = some l1) (hne : c.link0.linkId ≠ c.link1.linkId)
    (i0 : l0.linksIn = []) (i1 : l1.linksIn = []) (ga : s.vehicles.get? ka = some va) (gb : s.vehicles.get? kb = some vb)
    (only : ∀ k w, s.vehicles.get? k = some w → k = ka ∨ k = kb) (ra : va.linkId = some c.link1.linkId)
    (rb : vb.linkId = some c.link0.linkId) (m0 : c.link0.minPos ≤ l0.length) (m1 : c.link1.minPos ≤ l1.length)
    (na : c.link1.minPos - 5 * l1.speedLimit ≤ va.posFront) (nb : c.link0.minPos - 5 * l0.speedLimit ≤ vb.posFront)
    (xa : va.posRear < c.link1.maxPos) (xb : vb.posRear < c.link0.maxPos)
    (hlt : vb.posFront - c.link0.minPos < va.posFront - c.link1.minPos) :
    RightBehind (EnteredBy s.vehicles) s.links s.vehicles c ⟨ka, va, 0, c.link1.minPos⟩ ⟨kb, vb, 0, c.link0.minPos⟩ := by
  have mem := hs.inv.mem
  have hab : ka ≠ kb := by
    rintro rfl
    rw [ga] at gb; cases gb
    rw [ra] at rb
    exact hne (Option.some.inj rb).symm
  have onA : ∀ k ∈ l1.vehicles, k = ka := by
    intro k hk
    obtain ⟨w, hw, hlk⟩ := ((mem _ _ hl1).2 k).1 hk
    rcases only k w hw with rfl | rfl
    · rfl
    · rw [gb] at hw; cases hw
      rw [rb] at hlk
      exact absurd (Option.some.inj hlk) hne
  have onB : ∀ k ∈ l0.vehicles, k = kb := by
    intro k hk
    obtain ⟨w, hw, hlk⟩ := ((mem _ _ hl0).2 k).1 hk
    rcases only k w hw with rfl | rfl
    · rw [ga] at hw; cases hw
      rw [ra] at hlk
      exact absurd (Option.some.inj hlk) hne.symm
    · rfl
  have ent : ∀ {k lk : Key} {w : Vehicle ℝ}, s.vehicles.get? k = some w → w.linkId = some lk → EnteredBy s.vehicles lk := by
    intro k lk w hw hlk
    have h1 := (hs.inv.veh k w hw).entered
    refine ⟨k, w, hw, ?_⟩
    have : w.route.head? = some lk := hlk
    obtain ⟨rest, hr⟩ : ∃ rest, w.route = lk :: rest := by
      cases h : w.route with
      | nil => rw [h] at this; cases this
      | cons x rest => rw [h] at this; cases this; exact ⟨rest, rfl⟩
    rw [hr]
    obtain ⟨n, hn⟩ := Nat.exists_eq_add_of_le h1
    rw [hn, Nat.add_comm, List.take_succ_cons]
    exact List.mem_cons_self
  have here : ∀ {lk : Key} {l : Link ℝ} {i : ℕ} {lk' : Key} {p p' : ℝ}, s.links.get? lk = some l → l.linksIn = [] →
      Climb (EnteredBy s.vehicles) s.links s.vehicles lk 0 lk p i lk' p' → i = 0 ∧ lk' = lk ∧ p' = p := by
    intro lk l i lk' p p' hl hi h
    cases h with
    | here => exact ⟨rfl, rfl, rfl⟩
    | up h1 h2 h3 h4 h5 h6 h7 =>
      rw [hl] at h1; cases h1
      rw [hi] at h5; cases h5
  have unb : ∀ {k0 : Key} {p : ℝ} {l : Link ℝ} {w : Vehicle ℝ}, p ≤ l.length → p - 5 * l.speedLimit ≤ w.posFront → Unblocking k0 0 p l w := by
    intro k0 p l w h1 h2
    refine ⟨?_, fun _ => .inr (not_lt.2 h1)⟩
    norm_num; linarith
  have head : ∀ {lk : Key} {w : Vehicle ℝ}, w.linkId = some lk → w.route[0]? = some lk := by
    intro lk w h
    rw [← List.head?_eq_getElem?]; exact h
  have na' : Nears (EnteredBy s.vehicles) s.links s.vehicles c.link1 ⟨ka, va, 0, c.link1.minPos⟩ := by
    refine ⟨⟨_, .here, ga, ?_, head ra⟩, by show va.posRear - _ < _; linarith⟩
    obtain ⟨pre, post, e⟩ := List.append_of_mem (((mem _ _ hl1).2 ka).2 ⟨va, ga, ra⟩)
    refine ⟨l1, pre, post, hl1, ent ga ra, e, fun k hk w hw => ?_⟩
    obtain rfl := onA k (by rw [e]; exact List.mem_append_right _ hk)
    rw [ga] at hw; cases hw
    exact unb m1 na
  have nb' : Nears (EnteredBy s.vehicles) s.links s.vehicles c.link0 ⟨kb, vb, 0, c.link0.minPos⟩ := by
    refine ⟨⟨_, .here, gb, ?_, head rb⟩, by show vb.posRear - _ < _; linarith⟩
    obtain ⟨pre, post, e⟩ := List.append_of_mem (((mem _ _ hl0).2 kb).2 ⟨vb, gb, rb⟩)
    refine ⟨l0, pre, post, hl0, ent gb rb, e, fun k hk w hw => ?_⟩
    obtain rfl := onB k (by rw [e]; exact List.mem_append_right _ hk)
    rw [gb] at hw; cases hw
    exact unb m0 nb
  refine ⟨.inr ⟨na', nb'⟩, by simp only [RelVeh.posFront]; linarith, ?_⟩
  rintro ⟨k, w, i, p⟩ (⟨⟨lk, hcl, hf⟩, -⟩ | ⟨⟨lk, hcl, hf⟩, -⟩)
  · obtain ⟨e1, rfl, e3⟩ := here hl0 i0 hcl
    obtain ⟨l, pre, post, hl, -, e, -⟩ := hf.on
    rw [hl0] at hl; cases hl
    obtain rfl := onB k (by rw [e]; simp)
    have := hf.veh
    dsimp only at this e1 e3
    rw [gb] at this; cases this
    subst e1; subst e3
    exact .inr (.inl rfl)
  · obtain ⟨e1, rfl, e3⟩ := here hl1 i1 hcl
    obtain ⟨l, pre, post, hl, -, e, -⟩ := hf.on
    rw [hl1] at hl; cases hl
    obtain rfl := onA k (by rw [e]; simp)
    have := hf.veh
    dsimp only at this e1 e3
    rw [ga] at this; cases this
    subst e1; subst e3
    exact .inl rfl

/-- A vehicle at the start of each of the links. -/
noncomputable def cars : List (Op ℝ) := [.addVehicle Lone.car ⟨1, 1⟩, .addVehicle Lone.car ⟨0, 1⟩]

/-- What is known of the crossing and of the vehicles, `a` on it and `b` before it. -/
structure Wait (s : Sim ℝ) (a b : Vehicle ℝ) (c : ConflictPoint ℝ) : Prop where
  l0 : ∃ l, s.links.get? ⟨0, 1⟩ = some l ∧ l.linksIn = [] ∧ l.speedLimit = 10 ∧ 99 ≤ l.length
  l1 : ∃ l, s.links.get? ⟨1, 1⟩ = some l ∧ l.linksIn = [] ∧ l.speedLimit = 10 ∧ 99 ≤ l.length
  ga : s.getVehicle ⟨0, 1⟩ = .ok a
  gb : s.getVehicle ⟨1, 1⟩ = .ok b
  only : ∀ k w, s.vehicles.get? k = some w → k = ⟨0, 1⟩ ∨ k = ⟨1, 1⟩
  routes : a.route = [⟨1, 1⟩] ∧ b.route = [⟨0, 1⟩]
  paths : a.pathfind.paths = [] ∧ b.pathfind.paths = []
  lcs : a.laneChange = none ∧ b.laneChange = none
  half : a.halfLen = 2 ∧ b.halfLen = 2
  acc : (∃ x, a.acc = ⟨2, 2, 2, 1, x⟩) ∧ ∃ x, b.acc = ⟨2, 2, 2, 1, x⟩
  cs : s.conflicts = [c]
  keys : c.link0.linkId = ⟨0, 1⟩ ∧ c.link1.linkId = ⟨1, 1⟩
  here : c.link0.minPos = 48 ∧ c.link0.maxPos = 52
  there : c.link1.minPos = -1 / 4 ∧ c.link1.maxPos = 2
  dir : c.sameDir = false

theorem waiting : @ProgLeads (Lone.env 0) (fun s => s.accUpdate = 0 ∧ s.lcUpdate = 0 ∧ ∃ a b c, Wait s a b c ∧ a.pos = 0 ∧ b.pos = 0 ∧ a.vel = 0 ∧ b.vel = 0)
    .new (ops ⟨0, 0⟩ ⟨1, 0⟩ ⟨50, 0⟩ ⟨0, 1⟩ ++ cars) := by
  have m1 : ∀ i : ℕ, Meets ⟨50, 0⟩ ⟨0, 1⟩ ⟨0, 0⟩ ⟨1, 0⟩ (i / 4) ↔ 0 ≤ i ∧ i ≤ 7 := by
    intro i
    simp only [Meets, lineDist, V2.add, V2.smul]
    norm_num
    rw [abs_of_nonneg (by positivity)]
    constructor
    · intro h
      by_contra hc
      have : (8 : ℝ) ≤ i := by exact_mod_cast (by omega : 8 ≤ i)
      linarith
    · intro h
      have g : (i : ℝ) ≤ 7 := by exact_mod_cast h
      linarith
  have m0 := right_angle 0
  refine leads (by norm_num) (by norm_num) ⟨200, by norm_num, (m0 200).2 (by norm_num)⟩ ⟨0, by norm_num, (m1 0).2 (by norm_num)⟩ fun la lb c hb => ?_
  refine ⟨trivial, ⟨rfl, .inr (by simp [two, u32Max])⟩, fun n1 s1 r1 e1 => ?_⟩
  obtain ⟨va, fa, e1'⟩ := @Relay.added (@Env.withFuel (Lone.env 0) n1) (two la lb [c] [] []) lb ⟨1, 1⟩ [] rfl hb.pb.lcs hb.pb.segs hb.pb.vehs rfl (by decide)
  replace e1 : s1 = two la { lb with vehicles := [⟨0, 1⟩] } [c] [⟨1, some va⟩] [] := by rw [e1'] at e1; cases e1; rfl
  subst e1
  refine ⟨trivial, ⟨rfl, .inr (by simp [two, u32Max])⟩, fun n2 s2 r2 e2 => ?_⟩
  obtain ⟨vb, fb, e2'⟩ := @Relay.added (@Env.withFuel (Lone.env 0) n2) (two la { lb with vehicles := [⟨0, 1⟩] } [c] [⟨1, some va⟩] []) la ⟨0, 1⟩ _ rfl
    hb.pa.lcs hb.pa.segs hb.pa.vehs rfl (by simp)
  replace e2 : s2 = two { la with vehicles := [⟨1, 1⟩] } { lb with vehicles := [⟨0, 1⟩] } [c] [⟨1, some va⟩, ⟨1, some vb⟩] [] := by
    rw [e2'] at e2; cases e2; rfl
  subst e2
  have la1 := hb.pa.len
  have lb1 := hb.pb.len
  norm_num at la1 lb1
  obtain ⟨a1, a2⟩ := hb.r0.exact m0 (by norm_num) (by norm_num; linarith)
  obtain ⟨b1, b2⟩ := hb.r1.exact m1 (by norm_num) (by norm_num; linarith)
  norm_num at a1 a2 b1 b2
  refine ⟨by show (0.0 : ℝ) = 0; norm_num, by show (0.0 : ℝ) = 0; norm_num, va, vb, c, ⟨⟨_, rfl, hb.ia, hb.pa.limit, ?_⟩, ⟨_, rfl, hb.ib, hb.pb.limit, ?_⟩, rfl, rfl, ?_,
    ⟨fa.route, fb.route⟩, ⟨fa.paths, fb.paths⟩, ⟨fa.lc, fb.lc⟩, ⟨fa.half, fb.half⟩, ⟨⟨_, fa.acc⟩, ⟨_, fb.acc⟩⟩, rfl, ⟨hb.k0, hb.k1⟩, ⟨a1, a2⟩,
    ⟨by rw [b1]; norm_num, b2⟩, ?_⟩, fa.pos, fb.pos, fa.vel, fb.vel⟩
  · show 99 ≤ la.length; linarith
  · show 99 ≤ lb.length; linarith
  · rintro ⟨i, w⟩ u hu
    match i with
    | 0 => simp [two, SlotMap.get?] at hu; rw [← hu.1]; exact .inl rfl
    | 1 => simp [two, SlotMap.get?] at hu; rw [← hu.1]; exact .inr rfl
    | n + 2 => simp [two, SlotMap.get?] at hu
  · by_contra hc
    rw [Bool.not_eq_false, hb.dir] at hc
    norm_num at hc

theorem Wait.step [Env] [LawfulDijkstra] {s s' : Sim ℝ} {a b : Vehicle ℝ} {c : ConflictPoint ℝ} {dt : ℝ} (h : Wait s a b c) (hs : Reach True s)
    (hst : s.step dt = .ok s') (hdt : 0 ≤ dt) (ha : a.pos + (a.vel + 2 * dt) * dt ≤ 99) (hb : b.pos + (b.vel + 2 * dt) * dt ≤ 99) :
    ∃ a' b', Wait s' a' b' c ∧ a'.vel ≤ a.vel + 2 * dt ∧ b'.vel ≤ b.vel + 2 * dt ∧ a.pos ≤ a'.pos ∧ b.pos ≤ b'.pos ∧
      a'.pos ≤ a.pos + (a.vel + 2 * dt) * dt ∧ b'.pos ≤ b.pos + (b.vel + 2 * dt) * dt := by
  obtain ⟨l0, g0, p0, q0, r0⟩ := h.l0
  obtain ⟨l1, g1, p1, q1, r1⟩ := h.l1
  obtain ⟨⟨x, ex⟩, y, ey⟩ := h.acc
  obtain ⟨-, a', c1, c2, c3, c4, c5, ⟨ca, c6⟩, c7, c8, c9, c10⟩ := Relay.veh hs hst hdt h.ga (by rw [Vehicle.linkId, h.routes.1]; rfl) (getLink_ok.2 g1)
    h.lcs.1 (fun p hp => by rw [h.paths.1] at hp; cases hp) (by rw [ex]; norm_num) (by rw [ex]; exact ha.trans r1)
  obtain ⟨-, b', d1, d2, d3, d4, d5, ⟨da, d6⟩, d7, d8, d9, d10⟩ := Relay.veh hs hst hdt h.gb (by rw [Vehicle.linkId, h.routes.2]; rfl) (getLink_ok.2 g0)
    h.lcs.2 (fun p hp => by rw [h.paths.2] at hp; cases hp) (by rw [ey]; norm_num) (by rw [ey]; exact hb.trans r0)
  rw [ex] at c6 c7 c9
  rw [ey] at d6 d7 d9
  obtain ⟨s1, s2, s3, s4, s5, s6, hr⟩ := (step_spec hs.inv dt).ok hst
  have lane : ∀ {k : Key} {l : Link ℝ}, s.links.get? k = some l → l.linksIn = [] → l.speedLimit = 10 → 99 ≤ l.length →
      ∃ l, s'.links.get? k = some l ∧ l.linksIn = [] ∧ l.speedLimit = 10 ∧ 99 ≤ l.length := by
    intro k l hl h1 h2 h3
    obtain ⟨l', hl', hf⟩ := hr.frame.fwd k l hl
    exact ⟨l', hl', hf.linksIn.trans h1, hf.speedLimit.trans h2, by unfold Link.length; rw [hf.curve]; exact h3⟩
  refine ⟨a', b', ⟨lane g0 p0 q0 r0, lane g1 p1 q1 r1, c1, d1, fun k w hw => ?_, ⟨?_, ?_⟩, ⟨by rw [c3]; exact h.paths.1, by rw [d3]; exact h.paths.2⟩,
    ⟨c4, d4⟩, ⟨c5.trans h.half.1, d5.trans h.half.2⟩, ⟨⟨ca, c6⟩, da, d6⟩, hr.others.2.trans h.cs, h.keys, h.here, h.there, h.dir⟩, c7, d7, c8, d8, c9, d9⟩
  · obtain ⟨u, hu⟩ := hr.back hw
    exact h.only k u hu
  · rcases c10 with ⟨e, -⟩ | ⟨-, p, hp, -⟩
    · rw [e]; exact h.routes.1
    · rw [h.paths.1] at hp; cases hp
  · rcases d10 with ⟨e, -⟩ | ⟨-, p, hp, -⟩
    · rw [e]; exact h.routes.2
    · rw [h.paths.2] at hp; cases hp

theorem Wait.right [Env] [LawfulDijkstra] {s : Sim ℝ} {a b : Vehicle ℝ} {c : ConflictPoint ℝ} (h : Wait s a b c) (hs : Reach True s)
    (ha0 : 0 ≤ a.pos) (ha : a.pos < 4) (hb0 : 0 ≤ b.pos) (hb : b.pos ≤ 46) :
    RightBehind (EnteredBy s.vehicles) s.links s.vehicles c ⟨⟨0, 1⟩, a, 0, c.link1.minPos⟩ ⟨⟨1, 1⟩, b, 0, c.link0.minPos⟩ := by
  obtain ⟨l0, g0, p0, q0, r0⟩ := h.l0
  obtain ⟨l1, g1, p1, q1, r1⟩ := h.l1
  have h1 := h.half.1
  have h2 := h.half.2
  have k1 := h.here
  have k2 := h.there
  refine behind hs (by rw [h.keys.1]; exact g0) (by rw [h.keys.2]; exact g1) (by rw [h.keys.1, h.keys.2]; decide) p0 p1 (getVeh_ok.1 h.ga)
    (getVeh_ok.1 h.gb) h.only (by rw [Vehicle.linkId, h.routes.1, h.keys.2]; rfl) (by rw [Vehicle.linkId, h.routes.2, h.keys.1]; rfl) ?_ ?_ ?_ ?_ ?_ ?_ ?_
  · rw [k1.1]; linarith
  · rw [k2.1]; linarith
  · rw [k2.1, q1, Vehicle.posFront, h1]; linarith
  · rw [k1.1, q0, Vehicle.posFront, h2]; linarith
  · rw [k2.2, Vehicle.posRear, h1]; linarith
  · rw [k1.2, Vehicle.posRear, h2]; linarith
  · rw [k1.1, k2.1, Vehicle.posFront, Vehicle.posFront, h1, h2]; linarith

end Cross

/-- A vehicle on the crossing, and one that approaches it: the hypotheses of `C92_waits_partial` hold, and those of `C55_slowed_exact`. -/
example : ∃ (_ : Env) (_ : LawfulDijkstra) (s0 s : Sim ℝ) (v0 : Vehicle ℝ) (l : Link ℝ) (k lk : Key), Reach True s0 ∧
    ¬ s0.accUpdate < 0.1 ∧ s0.getVehicle k = .ok v0 ∧ v0.linkId = some lk ∧ s0.getLinkRef lk = .ok l ∧ 48 ≤ l.length ∧ 0 ≤ v0.halfLen ∧
    Stopping v0.acc (0.1 + 0.1) ∧
    14 ^ 2 + 2 * (v0.acc.maxAcc + 6) * (0.1 + 0.1) * 14 + (v0.acc.maxAcc + 3) ^ 2 * (0.1 + 0.1) ^ 2 ≤ 60 * l.speedLimit ∧
    v0.posFront ≤ 48 ∧ v0.posFront + v0.vel ^ 2 / 12 + 3 / 4 * (0.1 + 0.1) ^ 2 ≤ 48 ∧ YieldStep k lk 48 0.1 14 s0 s ∧
    ¬ ∃ s1 v1 l1, s0.calculateLaneChanges = .ok s1 ∧ s1.getVehicle k = .ok v1 ∧ s1.getLinkRef lk = .ok l1 ∧
      v1.posFront + 5 * l1.speedLimit ≤ 48 := by
  obtain ⟨N, s, ⟨z1, z2, a, b, c, hw, a0, b0, u0, w0⟩, hp, hn, h⟩ := @program_runs (Lone.env 0) (Lone.lawful 0) _ (Search.full_ends _) _ Cross.waiting
  obtain ⟨N1, s1, hN1, h1, hp1, hn1⟩ := @Trip.call (Lone.env 0) (Lone.lawful 0) (Search.full_ends _) s N (fun n hn => (h n hn).1) hp hn (.step 0.1)
    trivial trivial
  obtain ⟨N2, s2, hN2, h2, hp2, hn2⟩ := @Trip.call (Lone.env 0) (Lone.lawful 0) (Search.full_ends _) s1 N1 (fun n hn => (h1 n hn).2) hp1 hn1 (.step 0.1)
    trivial trivial
  let _ : Env := @Env.withFuel (Lone.env 0) N2
  let law : LawfulDijkstra := @LawfulDijkstra.withFuel (Lone.env 0) (Lone.lawful 0) N2
  have hs : Reach True s := (h N2 (hN1.trans hN2)).1
  have hs1 : Reach True s1 := (h1 N2 hN2).2
  have e1 : s.step 0.1 = .ok s1 := (h1 N2 hN2).1
  have e2 : s1.step 0.1 = .ok s2 := (h2 N2 le_rfl).1
  obtain ⟨a1, b1, hw1, c1, c2, c3, c4, c5, c6⟩ := hw.step hs e1 (by norm_num) (by rw [a0, u0]; norm_num) (by rw [b0, w0]; norm_num)
  rw [a0] at c3 c5; rw [b0] at c4 c6; rw [u0] at c1 c5; rw [w0] at c2 c6
  norm_num at c1 c2 c5 c6
  obtain ⟨t1, t2⟩ := Trip.clocks hs e1
  rw [z1] at t1; rw [z2] at t2
  norm_num at t1 t2
  obtain ⟨l, g0, p0, q0, r0⟩ := hw1.l0
  obtain ⟨x, ex⟩ := hw1.acc.2
  have v0 := C20_speed hs1 hw1.gb
  obtain ⟨s1', s2', s3, s4, s5, s6, hr⟩ := (step_spec hs1.inv 0.1).ok e2
  have hl : s1'.vehicles = s1.vehicles ∧ s1'.links = s1.links := by
    rcases hr.lanes with ⟨-, e⟩ | ⟨hge, -⟩
    · rw [e]; exact ⟨rfl, rfl⟩
    · exact absurd (by rw [t2]; norm_num [laneChangeUpdateSec]) hge
  have gb : s1'.getVehicle ⟨1, 1⟩ = .ok b1 := by
    have := hw1.gb
    unfold Sim.getVehicle at this ⊢
    rw [hl.1]; exact this
  have gl : s1'.getLinkRef ⟨0, 1⟩ = .ok l := getLink_ok.2 (by rw [hl.2]; exact g0)
  have hf : b1.posFront = b1.pos + 2 := by rw [Vehicle.posFront, hw1.half.2]
  refine ⟨inferInstance, law, s1, s2, b1, l, ⟨1, 1⟩, ⟨0, 1⟩, hs1, by rw [t1]; norm_num, hw1.gb, by rw [Vehicle.linkId, hw1.routes.2]; rfl, getLink_ok.2 g0,
    by linarith, by rw [hw1.half.2]; norm_num, by rw [ex]; exact Trip.stopping rfl x, by rw [ex, q0]; norm_num, by rw [hf]; linarith, ?_,
    ⟨0.1, by norm_num, le_rfl, e2, ⟨s1', b1, l, hr.run1, gb, gl, by rw [Vehicle.linkId, hw1.routes.2]; rfl, .inr ⟨c, by rw [hw1.cs]; simp,
      ⟨⟨0, 1⟩, a1, 0, c.link1.minPos⟩, ⟨⟨1, 1⟩, b1, 0, c.link0.minPos⟩, by rw [hw1.keys.1, hw1.keys.2]; decide, rfl, hw1.here.1, ?_, ?_⟩⟩, ?_⟩, ?_⟩
  · rw [hf]
    have : b1.vel ^ 2 ≤ 1 := by nlinarith
    norm_num; linarith
  · rw [hl.1, hl.2]
    exact hw1.right hs1 c3 (by linarith) c4 (by linarith)
  · rw [hw1.dir]; simp
  · intro v hv
    rw [hw1.gb] at hv; cases hv
    linarith
  · rintro ⟨s1'', v1, l1, k1, k2, k3, k4⟩
    rw [hr.run1] at k1; cases k1
    rw [gb] at k2; cases k2
    rw [gl] at k3; cases k3
    rw [hf, q0] at k4
    linarith

end

end TrafficSim
