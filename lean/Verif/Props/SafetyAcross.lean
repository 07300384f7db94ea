import Verif.Props.Safety
import Verif.Props.PathChoice
import Verif.Props.LaneDist

/-! # C76 across links: a vehicle does not run into one on the next link of its route -/

namespace TrafficSim

section
variable {strict : Prop} {s s' s1 : Sim ℝ} {dt : ℝ} {k j : Key} {v v1 v' u u1 u' : Vehicle ℝ}

/-- The rear of `u` is `g` metres ahead of the front of `v`, on the same link or on the next one of the route of `v`. -/
inductive GapTo (s : Sim ℝ) (v u : Vehicle ℝ) : ℝ → Prop
  | same {a : Key} : v.linkId = some a → u.linkId = some a → GapTo s v u (u.posRear - v.posFront)
  | next {a b : Key} {l : Link ℝ} : v.linkId = some a → v.route[1]? = some b → s.getLinkRef a = .ok l → u.linkId = some b →
      GapTo s v u (l.length + u.posRear - v.posFront)

/-- No link leads to itself or back to a link before it, and links have a length. -/
structure NoLoops (s : Sim ℝ) : Prop where
  back : ∀ a b, Conn s.links a b → ¬ Conn s.links b a
  long : ∀ a l, s.getLinkRef a = .ok l → 0 ≤ l.length

theorem NoLoops.self (h : NoLoops s) {a : Key} (hc : Conn s.links a a) : False := h.back a a hc hc

/-- `k` is right behind `j`: they are neighbours on a link, or `j` is the last vehicle on the next link of the route of `k`, and the
vehicles that are on the link of `k` ahead of it drive elsewhere. -/
inductive NextBehind (s : Sim ℝ) (k j : Key) : Prop
  | same {a : Key} {l : Link ℝ} : s.getLinkRef a = .ok l → [k, j] <:+: l.vehicles → NextBehind s k j
  | next {a b : Key} {v : Vehicle ℝ} {l l0 : Link ℝ} {pre post rest : List Key} : s.getVehicle k = .ok v → v.linkId = some a →
      v.route[1]? = some b → s.getLinkRef a = .ok l → l.vehicles = pre ++ k :: post →
      (∀ c ∈ post, ∀ w, s.getVehicle c = .ok w → v.posFront ≤ w.posFront ∧ w.route[1]? ≠ some b) →
      s.getLinkRef b = .ok l0 → l0.vehicles = j :: rest → 0 < l0.speedLimit → NextBehind s k j

theorem route_conn {links : LinkSet ℝ} {v : Vehicle ℝ} {k a b : Key} (h : VehInv links k v) (ha : v.linkId = some a)
    (hb : v.route[1]? = some b) : Conn links a b ∧ ∃ rest, v.route = a :: b :: rest := by
  have hc := h.drivable.chain
  change v.route.head? = some a at ha
  match hr : v.route with
  | [] => rw [hr] at ha; cases ha
  | [x] => rw [hr] at hb; cases hb
  | x :: y :: rest =>
    rw [hr] at ha hb hc
    cases ha; cases hb
    exact ⟨(List.isChain_cons_cons.1 hc).1, rest, rfl⟩

theorem GapTo.unique [Env] [LawfulDijkstra] (hs : Reach strict s) (hn : NoLoops s) (hv : s.getVehicle k = .ok v) {g g' : ℝ}
    (h : GapTo s v u g) (h' : GapTo s v u g') : g = g' := by
  have hi := hs.inv.veh k v (getVeh_ok.1 hv)
  cases h with
  | same h1 h2 =>
    cases h' with
    | same => rfl
    | next h3 h4 h5 h6 =>
      rw [h1] at h3; cases h3
      rw [h2] at h6; cases h6
      exact (hn.self (route_conn hi h1 h4).1).elim
  | next h3 h4 h5 h6 =>
    cases h' with
    | same h1 h2 =>
      rw [h1] at h3; cases h3
      rw [h2] at h6; cases h6
      exact (hn.self (route_conn hi h1 h4).1).elim
    | next h7 h8 h9 h10 =>
      rw [h3] at h7; cases h7
      rw [h5] at h9; cases h9
      rfl

/-- How a vehicle that does not change lanes moves in a step. -/
theorem step_moves [Env] [LawfulDijkstra] (h : Reach strict s) (hst : s.step dt = .ok s') (hlanes : s.calculateLaneChanges = .ok s1)
    (hv : s.getVehicle k = .ok v) (hv1 : s1.getVehicle k = .ok v1) (hv' : s'.getVehicle k = .ok v') (h1 : v1.linkId = v.linkId) :
    v1.vel = v.vel ∧ v1.acc = v.acc ∧ v1.pos = v.pos ∧ v1.halfLen = v.halfLen ∧ v'.halfLen = v.halfLen ∧ VehInv s.links k v1 ∧
      ((v'.route = v1.route ∧ v'.pos = v.pos + (v.vel + v'.vel) / 2 * dt) ∨
      ∃ a b l rest, v.linkId = some a ∧ v1.route = a :: b :: rest ∧ v'.route = b :: rest ∧ s.getLinkRef a = .ok l ∧ Conn s.links a b ∧
        0 ≤ v'.pos ∧ v'.pos = v.pos + (v.vel + v'.vel) / 2 * dt - l.length) := by
  obtain ⟨-, -, -, -, e5⟩ := step_speed h hst hv hv'
  obtain ⟨s1', s2, s3, s4, s5, s6, hr⟩ := (step_spec h.inv dt).ok hst
  rw [hr.run1] at hlanes; cases hlanes
  obtain ⟨v1', v2, v4, ht⟩ := hr.trace (getVeh_ok.1 hv)
  have g1 := ht.get1
  rw [getVeh_ok.1 hv1] at g1; cases g1
  obtain ⟨e1, e2, -⟩ := ht.steer.same
  obtain ⟨e3, -⟩ := ht.steer.stay h1
  have e4 : v1.halfLen = v.halfLen := by
    rcases ht.steer with (rfl | ⟨p, -, -, rfl⟩) | ⟨p, -, -, hs⟩
    · rfl
    · rfl
    · obtain ⟨link, pos, lc, pf, -, rfl, -⟩ := hs.ex
      rfl
  have hi : VehInv s.links k v1 := (hr.inv1.veh k v1 ht.get1).mono hr.frame1.frame.ge
  obtain ⟨a, w, ev2⟩ := ht.acc.same
  obtain ⟨q, e, lc, cnt, ev4, -⟩ := ht.move.eq
  have er : v4.route = v1.route := by rw [ev4, ev2]
  obtain ⟨-, -, e6⟩ := ht.vel (getVeh_ok.1 hv')
  have ep : v4.pos = v.pos + (v.vel + v'.vel) / 2 * dt := by
    have : v4.pos = v2.pos + 0.5 * (v2.vel + v4.vel) * dt := by rw [ev4]
    rw [this, e6, ev2]; dsimp only; rw [e1, e3]
    have h5 : (0.5 : ℝ) = 1 / 2 := by norm_num
    rw [h5]; ring
  refine ⟨e1, e2, e3, e4, e5, hi, ?_⟩
  cases ht.out with
  | stays u hu hp _ =>
    rw [getVeh_ok.1 hv'] at hu; cases hu
    obtain ⟨p, d, r, c, rfl⟩ := hp
    exact .inl ⟨er, ep⟩
  | passes v5 u hp hne hu hpl =>
    rw [getVeh_ok.1 hv'] at hu; cases hu
    obtain ⟨p, d, r, cc, rfl⟩ := hpl
    obtain ⟨a, rest, l, pf, h3, h4, h5, rfl, -⟩ := hp.ex
    dsimp only at hne ep ⊢
    obtain ⟨b, rest', rfl⟩ := List.exists_cons_of_ne_nil hne
    rw [er] at h3
    obtain ⟨l0, h0, hfr⟩ := hr.frame4.bwd h4
    have el : l.length = l0.length := by unfold Link.length; rw [hfr.curve]
    refine .inr ⟨a, b, l0, rest', ?_, h3, rfl, getLink_ok.2 h0, ?_, ?_, ?_⟩
    · rw [← h1, Vehicle.linkId, h3]; rfl
    · have := hi.drivable.chain
      rw [h3] at this
      exact (List.isChain_cons_cons.1 this).1
    · linarith
    · rw [ep, el]
  | leaves _ _ _ hn => rw [getVeh_ok.1 hv'] at hn; cases hn

theorem GapTo.moves [Env] [LawfulDijkstra] (h : Reach strict s) (hn : NoLoops s) (hst : s.step dt = .ok s')
    (hlanes : s.calculateLaneChanges = .ok s1) (hv : s.getVehicle k = .ok v) (hv1 : s1.getVehicle k = .ok v1)
    (hv' : s'.getVehicle k = .ok v') (h1 : v1.linkId = v.linkId) (hu : s.getVehicle j = .ok u) (hu1 : s1.getVehicle j = .ok u1)
    (hu' : s'.getVehicle j = .ok u') (h2 : u1.linkId = u.linkId) {g g' : ℝ} (hg : GapTo s v u g)
    (hb : ∀ b, u.linkId = some b → v.linkId ≠ some b → v1.route[1]? = some b) (hg' : GapTo s' v' u' g') :
    g + (u.vel + u'.vel) / 2 * dt - (v.vel + v'.vel) / 2 * dt ≤ g' := by
  obtain ⟨-, -, -, -, f1, hi, hm⟩ := step_moves h hst hlanes hv hv1 hv' h1
  obtain ⟨-, -, -, -, f2, hj, hm'⟩ := step_moves h hst hlanes hu hu1 hu' h2
  obtain ⟨_, s2, s3, s4, s5, s6, hr⟩ := (step_spec h.inv dt).ok hst
  have hlen : ∀ {a : Key} {l l' : Link ℝ}, s.getLinkRef a = .ok l → s'.getLinkRef a = .ok l' → l'.length = l.length := by
    intro a l l' hl hl'
    obtain ⟨l2, hl2, hfr⟩ := hr.frame.fwd a l (getLink_ok.1 hl)
    rw [getLink_ok.1 hl'] at hl2; cases hl2
    unfold Link.length; rw [hfr.curve]
  have hin : ∀ {a : Key} {l' : Link ℝ}, s'.getLinkRef a = .ok l' → 0 ≤ l'.length := by
    intro a l' hl'
    obtain ⟨l, hl, hfr⟩ := hr.frame.bwd (getLink_ok.1 hl')
    rw [hlen (getLink_ok.2 hl) hl']
    exact hn.long a l (getLink_ok.2 hl)
  cases hg with
  | @same a va ua =>
    rcases hm with ⟨r1, p1⟩ | ⟨a1, b1, l1, rest1, x1, r1, y1, z1, c1, -, p1⟩ <;>
      rcases hm' with ⟨r2, p2⟩ | ⟨a2, b2, l2, rest2, x2, r2, y2, z2, c2, -, p2⟩
    · have hv'' : v'.linkId = some a := by rw [Vehicle.linkId, r1, ← va, ← h1]; rfl
      have hu'' : u'.linkId = some a := by rw [Vehicle.linkId, r2, ← ua, ← h2]; rfl
      cases hg' with
      | same => simp only [Vehicle.posRear, Vehicle.posFront, f1, f2, p1, p2]; linarith
      | next h3 h4 h5 h6 =>
        rw [hu''] at h6; cases h6
        rw [r1] at h4
        exact (hn.self (route_conn hi (h1.trans va) h4).1).elim
    · rw [ua] at x2; cases x2
      have hv'' : v'.linkId = some a := by rw [Vehicle.linkId, r1, ← va, ← h1]; rfl
      have hu'' : u'.linkId = some b2 := by rw [Vehicle.linkId, y2]; rfl
      cases hg' with
      | same h3 h4 =>
        rw [hv''] at h3; cases h3
        rw [hu''] at h4; cases h4
        exact (hn.self c2).elim
      | next h3 h4 h5 h6 =>
        rw [hv''] at h3; cases h3
        rw [hlen z2 h5]
        simp only [Vehicle.posRear, Vehicle.posFront, f1, f2, p1, p2]; linarith
    · rw [va] at x1; cases x1
      have hv'' : v'.linkId = some b1 := by rw [Vehicle.linkId, y1]; rfl
      have hu'' : u'.linkId = some a := by rw [Vehicle.linkId, r2, ← ua, ← h2]; rfl
      cases hg' with
      | same h3 h4 =>
        rw [hv''] at h3; cases h3
        rw [hu''] at h4; cases h4
        exact (hn.self c1).elim
      | next h3 h4 h5 h6 =>
        rw [hv''] at h3; cases h3
        rw [hu''] at h6; cases h6
        rw [y1] at h4
        have hc := hi.drivable.chain
        obtain ⟨b, r, rfl⟩ : ∃ b r, rest1 = b :: r := by
          cases rest1 with
          | nil => cases h4
          | cons b r => exact ⟨b, r, rfl⟩
        cases h4
        rw [r1, List.isChain_cons_cons, List.isChain_cons_cons] at hc
        exact (hn.back _ _ c1 hc.2.1).elim
    · rw [va] at x1; cases x1
      rw [ua] at x2; cases x2
      rw [z1] at z2; cases z2
      cases hg' with
      | same => simp only [Vehicle.posRear, Vehicle.posFront, f1, f2, p1, p2]; linarith
      | next h3 h4 h5 h6 =>
        have := hin h5
        simp only [Vehicle.posRear, Vehicle.posFront, f1, f2, p1, p2]; linarith
  | @next a b l va vb hl ub =>
    have hab : a ≠ b := by
      rintro rfl
      exact hn.self (route_conn (h.inv.veh k v (getVeh_ok.1 hv)) va vb).1
    have hb1 := hb b ub (by rw [va]; exact fun e => hab (Option.some.inj e))
    obtain ⟨cab, rest, er⟩ := route_conn hi (h1.trans va) hb1
    have hbb : ¬ Conn s.links b b := fun c => hn.self c
    rcases hm with ⟨r1, p1⟩ | ⟨a1, b1, l1, rest1, x1, r1, y1, z1, c1, -, p1⟩ <;>
      rcases hm' with ⟨r2, p2⟩ | ⟨a2, b2, l2, rest2, x2, r2, y2, z2, c2, -, p2⟩
    · have hv'' : v'.linkId = some a := by rw [Vehicle.linkId, r1, er]; rfl
      have hu'' : u'.linkId = some b := by rw [Vehicle.linkId, r2, ← ub, ← h2]; rfl
      cases hg' with
      | same h3 h4 =>
        rw [hv''] at h3; cases h3
        rw [hu''] at h4; cases h4
        exact (hab rfl).elim
      | next h3 h4 h5 h6 =>
        rw [hv''] at h3; cases h3
        rw [hlen hl h5]
        simp only [Vehicle.posRear, Vehicle.posFront, f1, f2, p1, p2]; linarith
    · rw [ub] at x2; cases x2
      have hv'' : v'.linkId = some a := by rw [Vehicle.linkId, r1, er]; rfl
      have hu'' : u'.linkId = some b2 := by rw [Vehicle.linkId, y2]; rfl
      cases hg' with
      | same h3 h4 =>
        rw [hv''] at h3; cases h3
        rw [hu''] at h4; cases h4
        exact (hn.back _ _ cab c2).elim
      | next h3 h4 h5 h6 =>
        rw [hu''] at h6; cases h6
        rw [r1, er] at h4; cases h4
        exact (hbb c2).elim
    · rw [va] at x1; cases x1
      rw [er] at r1; cases r1
      rw [hl] at z1; cases z1
      have hv'' : v'.linkId = some b := by rw [Vehicle.linkId, y1]; rfl
      have hu'' : u'.linkId = some b := by rw [Vehicle.linkId, r2, ← ub, ← h2]; rfl
      cases hg' with
      | same h3 h4 => simp only [Vehicle.posRear, Vehicle.posFront, f1, f2, p1, p2]; linarith
      | next h3 h4 h5 h6 =>
        rw [hu''] at h6; cases h6
        rw [y1] at h4
        have hc := hi.drivable.chain
        rw [er] at hc
        cases rest with
        | nil => cases h4
        | cons c r =>
          cases h4
          rw [List.isChain_cons_cons, List.isChain_cons_cons] at hc
          exact (hbb hc.2.1).elim
    · rw [va] at x1; cases x1
      rw [er] at r1; cases r1
      rw [hl] at z1; cases z1
      rw [ub] at x2; cases x2
      have hv'' : v'.linkId = some b := by rw [Vehicle.linkId, y1]; rfl
      have hu'' : u'.linkId = some b2 := by rw [Vehicle.linkId, y2]; rfl
      cases hg' with
      | same h3 h4 =>
        rw [hv''] at h3; cases h3
        rw [hu''] at h4; cases h4
        exact (hbb c2).elim
      | next h3 h4 h5 h6 =>
        rw [hv''] at h3; cases h3
        rw [hlen z2 h5]
        simp only [Vehicle.posRear, Vehicle.posFront, f1, f2, p1, p2]; linarith

theorem across_keeps [Env] [LawfulDijkstra] {h V g g' : ℝ} (hs : Reach strict s) (hn : NoLoops s) (hst : s.step dt = .ok s') (hdt : 0 ≤ dt)
    (hh : dt + 0.1 ≤ h) (hlanes : s.calculateLaneChanges = .ok s1) (hb : NextBehind s1 k j)
    (hv : s.getVehicle k = .ok v) (hv1 : s1.getVehicle k = .ok v1) (hv' : s'.getVehicle k = .ok v') (h1 : v1.linkId = v.linkId)
    (hu : s.getVehicle j = .ok u) (hu1 : s1.getVehicle j = .ok u1) (hu' : s'.getVehicle j = .ok u') (h2 : u1.linkId = u.linkId)
    (hg : GapTo s v u g) (hg' : GapTo s' v' u' g') (hc : Cautious v.acc h V) (hV : v.vel ≤ V) (hu0 : 0 ≤ u.pos)
    (hwide : ∀ a l, v.linkId = some a → s.getLinkRef a = .ok l →
      V ^ 2 + 2 * (v.acc.maxAcc + 6) * h * V + (v.acc.maxAcc + 3) ^ 2 * h ^ 2 + 12 * u.halfLen ≤ 60 * l.speedLimit)
    (hk : Keeps h s.accUpdate g v.vel v.acc.getAcc u.vel) :
    Keeps h s'.accUpdate g' v'.vel v'.acc.getAcc u'.vel := by
  obtain ⟨c1, c2, c3, c4, -, hi, -⟩ := step_moves hs hst hlanes hv hv1 hv' h1
  obtain ⟨d1, d2, d3, d4, -, hj, -⟩ := step_moves hs hst hlanes hu hu1 hu' h2
  obtain ⟨_, s2, s3, s4, s5, s6, hr⟩ := (step_spec hs.inv dt).ok hst
  have e0 := hr.run1
  rw [hlanes] at e0; cases e0
  have hmem : ∀ {a l}, s1.getLinkRef a = .ok l → ∀ k, k ∈ l.vehicles → ∃ w, s1.getVehicle k = .ok w ∧ w.linkId = some a := by
    intro a l hl k hk
    obtain ⟨w, hw, e⟩ := ((hr.inv1.mem a l (getLink_ok.1 hl)).2 k).1 hk
    exact ⟨w, getVeh_ok.2 hw, e⟩
  have hbk : ∀ b, u.linkId = some b → v.linkId ≠ some b → v1.route[1]? = some b := by
    intro b hub hvb
    cases hb with
    | same hl hkj =>
      obtain ⟨w, hw, ew⟩ := hmem hl k (hkj.subset (by simp))
      obtain ⟨x, hx, ex⟩ := hmem hl j (hkj.subset (by simp))
      rw [hv1] at hw; cases hw
      rw [hu1] at hx; cases hx
      rw [← h1, ew, ← ex, h2, hub] at hvb
      exact absurd rfl hvb
    | next hw ha hb' hl hvs hpost hl0 hvs0 _ =>
      rw [hv1] at hw; cases hw
      obtain ⟨x, hx, ex⟩ := hmem hl0 j (by rw [hvs0]; simp)
      rw [hu1] at hx; cases hx
      rw [h2, hub] at ex; cases ex
      exact hb'
  refine keeps_step hs hst hv hv' hu hu' hdt hh (fun hre v0 e2 hk' => ?_) hk
    (GapTo.moves hs hn hst hlanes hv hv1 hv' h1 hu hu1 hu' h2 hg hbk hg')
  have hmax : 0 ≤ v.acc.maxAcc := by have := hc.acc; norm_num at this; linarith
  cases hb with
  | @same a l hl hkj =>
    obtain ⟨w, hw, ew⟩ := hmem hl k (hkj.subset (by simp))
    obtain ⟨x, hx, ex⟩ := hmem hl j (hkj.subset (by simp))
    rw [hv1] at hw; cases hw
    rw [hu1] at hx; cases hx
    obtain rfl : g = u.posRear - v.posFront := hg.unique hs hn hv (.same (h1.symm.trans ew) (h2.symm.trans ex))
    refine hc.canStop v0 hV ?_ e2 hk'
    have := C64_follows hs hst hre hlanes hv1 hv' hu1 hl hkj
    simp only [Vehicle.posRear, Vehicle.posFront] at this ⊢
    rw [c1, c2, c3, c4, d1, d3, d4] at this
    exact this
  | @next a b w l l0 pre post rest hw ha hb' hl hvs hpost hl0 hvs0 hpos0 =>
    rw [hv1] at hw; cases hw
    obtain ⟨x, hx, ex⟩ := hmem hl0 j (by rw [hvs0]; simp)
    rw [hu1] at hx; cases hx
    obtain ⟨cab, rest', er⟩ := route_conn hi ha hb'
    obtain ⟨ls, hls, hfr⟩ := hr.frame1.frame.bwd (getLink_ok.1 hl)
    have el : l.length = ls.length := by unfold Link.length; rw [hfr.curve]
    obtain rfl : g = l.length + u.posRear - v.posFront := by
      cases hg with
      | same h3 h4 =>
        rw [← h1, ha] at h3; cases h3
        rw [← h2, ex] at h4; cases h4
        exact (hn.self cab).elim
      | next h3 h4 h5 h6 =>
        rw [← h1, ha] at h3; cases h3
        rw [getLink_ok.1 h5] at hls; cases hls
        rw [el]
    by_cases hnear : l.length - 5 * l.speedLimit ≤ v1.posFront
    · refine hc.canStop v0 hV ?_ e2 hk'
      have h0 : (0.0 : ℝ) = 0 := by norm_num
      have := C65_follows (i := 1) (k0 := b) (lk := a) (pos := 0.0 + l.length) hs hst hre hlanes hv1 hv'
        (.first hb' (getLink_ok.1 hl0) ⟨j, u1, getVeh_ok.1 hu1, ?_⟩ ?_ le_rfl ?_ (getLink_ok.1 hl)) hl0 hvs0 hu1 hl hvs ?_ ?_ ?_
      · rw [h0, zero_add] at this
        simp only [Vehicle.posRear, Vehicle.posFront] at this ⊢
        rw [c1, c2, c3, c4, d1, d3, d4] at this
        exact this
      · have hent := hj.entered
        change u1.route.head? = some b at ex
        obtain ⟨r, e⟩ : ∃ r, u1.route = b :: r := by
          cases hrt : u1.route with
          | nil => rw [hrt] at ex; cases ex
          | cons x r => rw [hrt] at ex; cases ex; exact ⟨r, rfl⟩
        rw [e]
        obtain ⟨n, en⟩ : ∃ n, u1.entered = n + 1 := ⟨u1.entered - 1, by omega⟩
        rw [en, List.take_succ_cons]
        simp
      · simp only [maxLookahead]; norm_num; exact hpos0
      · rw [er]; rfl
      · intro c hc' w hw
        obtain ⟨n1, n2⟩ := hpost c hc' w hw
        exact ⟨by rw [h0, zero_add]; linarith, n2⟩
      · rw [h0, zero_add]; exact hnear
      · right; rw [h0, zero_add]
    · right
      obtain ⟨w1, w2, w4, ht⟩ := hr.trace (getVeh_ok.1 hv)
      have hacc : v'.acc.getAcc ≤ v.acc.maxAcc := by
        rw [(ht.vel (getVeh_ok.1 hv')).2.1]
        exact hr.acc_le ht hre hmax
      refine (canStop_wide v0 hmax ?_).slower hacc
      have hw := hwide a ls (h1.symm.trans ha) (getLink_ok.2 hls)
      rw [hfr.speedLimit, Vehicle.posFront, c3, c4] at hnear
      have h6 : 2 * (v.acc.maxAcc + 6) * h * v.vel ≤ 2 * (v.acc.maxAcc + 6) * h * V :=
        mul_le_mul_of_nonneg_left hV (mul_nonneg (by linarith) (by norm_num at hh; linarith))
      have h7 : v.vel ^ 2 ≤ V ^ 2 := pow_le_pow_left₀ v0 hV 2
      have h8 := sq_nonneg u.vel
      simp only [Vehicle.posRear, Vehicle.posFront]
      linarith

/-- A step of at most `D` seconds in which `k` and `j` do not change lanes and `k`, not faster than `V`, is right behind `j`.  After it
`j` is on the link of `k` or the next one. -/
structure FollowOn [Env] (k j : Key) (D V : ℝ) (s s' : Sim ℝ) : Prop where
  step : ∃ dt, 0 ≤ dt ∧ dt ≤ D ∧ s.step dt = .ok s'
  behind : ∃ s1, s.calculateLaneChanges = .ok s1 ∧ NextBehind s1 k j ∧
    (∃ v v1, s.getVehicle k = .ok v ∧ s1.getVehicle k = .ok v1 ∧ v1.linkId = v.linkId ∧ v.vel ≤ V) ∧
    ∃ u u1, s.getVehicle j = .ok u ∧ s1.getVehicle j = .ok u1 ∧ u1.linkId = u.linkId
  after : ∃ v u g, s'.getVehicle k = .ok v ∧ s'.getVehicle j = .ok u ∧ GapTo s' v u g

/-- **C76** (across links) In exact arithmetic, with no link leading to itself or to a link before it: when accelerations are due, the
vehicle `j` is on the link of the vehicle `k` or on the next one of its route, and `k` stands, or would stop at least `3/4 h²` metres
behind `j` if both braked fully.  Then in all following steps of at most `D` seconds in which `k` is right behind `j` and not faster
than `V`, the front of `k` does not pass the rear of `j`.  They may pass from link to link meanwhile.  Here `h = D + 0.1`, and the
speed limits are such that a vehicle that cannot yet see another on the next link can stop behind it. -/
theorem C76_across [Env] [LawfulDijkstra] {D V g0 g : ℝ} {s0 : Sim ℝ} {v0 u0 : Vehicle ℝ} (hs : Reach strict s0) (hn : NoLoops s0)
    (hre : ¬ s0.accUpdate < 0.1) (hv0 : s0.getVehicle k = .ok v0) (hu0 : s0.getVehicle j = .ok u0) (hg0 : GapTo s0 v0 u0 g0)
    (hc : Cautious v0.acc (D + 0.1) V) (hpos : 0 ≤ u0.pos)
    (hwide : ∀ a l, s0.getLinkRef a = .ok l → V ^ 2 + 2 * (v0.acc.maxAcc + 6) * (D + 0.1) * V +
      (v0.acc.maxAcc + 3) ^ 2 * (D + 0.1) ^ 2 + 12 * u0.halfLen ≤ 60 * l.speedLimit)
    (hgap : 0 ≤ g0) (hstop : v0.vel = 0 ∨ v0.vel ^ 2 / 12 + 3 / 4 * (D + 0.1) ^ 2 ≤ g0 + u0.vel ^ 2 / 12)
    (hrun : Relation.ReflTransGen (FollowOn k j D V) s0 s) (hv : s.getVehicle k = .ok v) (hu : s.getVehicle j = .ok u)
    (hg : GapTo s v u g) : 0 ≤ g := by
  have key : Reach strict s ∧ NoLoops s ∧ ∃ v u g, s.getVehicle k = .ok v ∧ s.getVehicle j = .ok u ∧ GapTo s v u g ∧
      (∃ a, v.acc = { v0.acc with acc := a }) ∧ u.halfLen = u0.halfLen ∧ 0 ≤ u.pos ∧
      (∀ a l, s.getLinkRef a = .ok l → V ^ 2 + 2 * (v0.acc.maxAcc + 6) * (D + 0.1) * V +
        (v0.acc.maxAcc + 3) ^ 2 * (D + 0.1) ^ 2 + 12 * u0.halfLen ≤ 60 * l.speedLimit) ∧
      Keeps (D + 0.1) s.accUpdate g v.vel v.acc.getAcc u.vel := by
    clear hv hu hg
    induction hrun with
    | refl =>
      refine ⟨hs, hn, v0, u0, g0, hv0, hu0, hg0, ⟨_, rfl⟩, rfl, hpos, hwide, hgap,
        hstop.imp (fun h => ⟨h, fun h => absurd h hre⟩) fun h => ?_⟩
      intro t h0 h1 _
      rw [if_neg hre] at h1
      obtain rfl := le_antisymm h1 h0
      linarith
    | @tail s s' _ hst ih =>
      obtain ⟨hs, hn, v, u, g, hv, hu, hg, ⟨a, ea⟩, eh, hpos, hwide, hk⟩ := ih
      obtain ⟨⟨dt, h0, h1, hst⟩, ⟨s1, hlanes, hb, ⟨x, v1, hx, hv1, e1, hV⟩, ⟨y, u1, hy, hu1, e2⟩⟩, v', u', g', hv', hu', hg'⟩ := hst
      rw [hv] at hx; cases hx
      rw [hu] at hy; cases hy
      obtain ⟨_, s2, s3, s4, s5, s6, hr⟩ := (step_spec hs.inv dt).ok hst
      obtain ⟨-, -, -, ⟨a', ea'⟩, -⟩ := step_speed hs hst hv hv'
      have hfr : ∀ {a l'}, s'.getLinkRef a = .ok l' → ∃ l, s.getLinkRef a = .ok l ∧ l'.length = l.length ∧ l'.speedLimit = l.speedLimit := by
        intro a l' hl'
        obtain ⟨l, hl, hfr⟩ := hr.frame.bwd (getLink_ok.1 hl')
        exact ⟨l, getLink_ok.2 hl, by unfold Link.length; rw [hfr.curve], hfr.speedLimit⟩
      have hn' : NoLoops s' := by
        have hcn : ∀ a b, Conn s'.links a b → Conn s.links a b := hr.frame.ge.conn
        refine ⟨fun a b h h' => hn.back a b (hcn a b h) (hcn b a h'), fun a l hl => ?_⟩
        obtain ⟨l0, hl0, e, -⟩ := hfr hl
        rw [e]; exact hn.long a l0 hl0
      have hpos' : u'.halfLen = u.halfLen ∧ 0 ≤ u'.pos := by
        obtain ⟨-, -, -, -, f, -, hm⟩ := step_moves hs hst hlanes hu hu1 hu' e2
        refine ⟨f, ?_⟩
        rcases hm with ⟨-, p⟩ | ⟨-, -, -, -, -, -, -, -, -, h, -⟩
        · have s1 := C20_speed hs hu
          have s2 := C20_speed (s := s') (.exec (.step dt) hs trivial hst) hu'
          rw [p]; positivity
        · exact h
      refine ⟨.exec (.step dt) hs trivial hst, hn', v', u', g', hv', hu', hg', ⟨a', by rw [ea', ea]⟩, hpos'.1.trans eh, hpos'.2, ?_,
        across_keeps hs hn hst h0 (by linarith) hlanes hb hv hv1 hv' e1 hu hu1 hu' e2 hg hg' ?_ hV hpos ?_ hk⟩
      · intro a l hl
        obtain ⟨l0, hl0, -, e⟩ := hfr hl
        rw [e]; exact hwide a l0 hl0
      · rw [ea]; exact ⟨hc.acc, hc.dec, hc.near, hc.far⟩
      · intro a l _ hl
        rw [ea, eh]
        exact hwide a l hl
  obtain ⟨hs, hn, v', u', g', hv', hu', hg', -, -, -, -, hk⟩ := key
  rw [hv] at hv'; cases hv'
  rw [hu] at hu'; cases hu'
  rw [hg.unique hs hn hv hg']
  exact hk.1

end

/-! ### Example: two links -/

namespace Relay

section
variable {s s' : Sim ℝ} {dt : ℝ} {k c : Key} {v : Vehicle ℝ}

theorem mem_of_cheapest {links : LinkSet ℝ} {v : Vehicle ℝ} {ps : List Path} {p : Path} (h : Cheapest links v ps p) : p ∈ ps := by
  obtain ⟨pre, post, n, rfl, -⟩ := h
  simp

/-- A vehicle whose paths are on its lane and that does not get to the end of its link. -/
theorem veh [Env] [LawfulDijkstra] {l : Link ℝ} (hs : Reach True s) (hst : s.step dt = .ok s') (hdt : 0 ≤ dt) (hv : s.getVehicle k = .ok v)
    (hc : v.linkId = some c) (hl : s.getLinkRef c = .ok l) (hlc : v.laneChange = none)
    (hp : ∀ p ∈ v.pathfind.paths, p.links.head? = some c) (hmax : 0 ≤ v.acc.maxAcc)
    (hend : v.pos + (v.vel + v.acc.maxAcc * dt) * dt ≤ l.length) :
    (∀ s1 v1, s.calculateLaneChanges = .ok s1 → s1.getVehicle k = .ok v1 → v1.linkId = some c) ∧
    ∃ v', s'.getVehicle k = .ok v' ∧ v'.linkId = some c ∧ v'.pathfind = v.pathfind ∧ v'.laneChange = none ∧ v'.halfLen = v.halfLen ∧
      (∃ a, v'.acc = { v.acc with acc := a }) ∧ v'.vel ≤ v.vel + v.acc.maxAcc * dt ∧ v.pos ≤ v'.pos ∧
      v'.pos ≤ v.pos + (v.vel + v.acc.maxAcc * dt) * dt ∧
      (v'.route = v.route ∧ (s.lcUpdate < 0.3 ∨ v.pathfind.paths = []) ∨ ¬ s.lcUpdate < 0.3 ∧ ∃ p ∈ v.pathfind.paths, v'.route = p.links) := by
  have hch : ∀ {v1}, (s.lcUpdate < 0.3 ∧ v1 = v) ∨ (¬ s.lcUpdate < 0.3 ∧ Chooses s.links v v1) →
      v1.linkId = some c ∧ v1.pathfind = v.pathfind ∧ v1.laneChange = none ∧ v1.pos = v.pos ∧
      (v1.route = v.route ∧ (s.lcUpdate < 0.3 ∨ v.pathfind.paths = []) ∨ ¬ s.lcUpdate < 0.3 ∧ ∃ p ∈ v.pathfind.paths, v1.route = p.links) := by
    rintro v1 (⟨h, rfl⟩ | ⟨hge, h⟩)
    · exact ⟨hc, rfl, hlc, rfl, .inl ⟨rfl, .inl h⟩⟩
    · cases h with
      | carriesOn h e =>
        subst e
        rw [hlc] at h
        exact ⟨hc, rfl, hlc, rfl, .inl ⟨rfl, .inr (h.resolve_left (by simp))⟩⟩
      | keeps p _ hq e e' =>
        subst e'
        exact ⟨hc, rfl, hlc, rfl, .inr ⟨hge, p, (mem_of_cheapest hq), e.symm⟩⟩
      | takes p n _ hq _ _ _ e =>
        subst e
        exact ⟨hp p (mem_of_cheapest hq), rfl, hlc, rfl, .inr ⟨hge, p, (mem_of_cheapest hq), rfl⟩⟩
      | changes p link l x off sl pf _ hq h1 h2 _ _ _ _ e =>
        rw [hp p (mem_of_cheapest hq)] at h1; cases h1
        exact absurd hc h2
  obtain ⟨s1, s2, s3, s4, s5, s6, hr⟩ := (step_spec hs.inv dt).ok hst
  obtain ⟨v1, v2, v4, ht⟩ := hr.trace (getVeh_ok.1 hv)
  obtain ⟨c1, c2, c3, c4, c5⟩ := hch (hr.chooses (getVeh_ok.1 hv) ht.get1)
  refine ⟨fun s1' w hlanes hw => ?_, ?_⟩
  · rw [hr.run1] at hlanes; cases hlanes
    have := ht.get1
    rw [getVeh_ok.1 hw] at this; cases this
    exact c1
  obtain ⟨e1, e2, -⟩ := ht.steer.same
  have v0 := C20_speed hs hv
  obtain ⟨a, w, ev2⟩ := ht.acc.same
  obtain ⟨q, e, lc, cnt, ev4, -⟩ := ht.move.eq
  have hacc : v2.acc.getAcc ≤ v.acc.maxAcc := by
    by_cases hlt : s.accUpdate < 0.1
    · have hsame : v2.acc = v.acc := by
        rcases ht.acc with ⟨-, -, e3⟩ | ⟨hge, -⟩
        · rw [e3, e2]
        · rw [hr.clocks.1] at hge; exact absurd hlt hge
      have := hs.acc_le hv
      rw [hsame]
      simp only [AccelerationModel.getAcc, fmax, maxDecel]
      rw [max_eq_left (by linarith)] at this
      exact max_le this (by norm_num; linarith)
    · exact hr.acc_le ht hlt hmax
  have e5 : v4.vel = max (v.vel + dt * v2.acc.getAcc) 0 := by
    rw [ev4]; dsimp only; rw [ev2]; dsimp only; rw [e1]; simp only [fmax]; norm_num
  have e6 : v4.pos = v.pos + (v.vel + v4.vel) / 2 * dt := by
    have : v4.pos = v2.pos + 0.5 * (v2.vel + v4.vel) * dt := by rw [ev4]
    rw [this, ev2]; dsimp only; rw [e1, c4]
    have h5 : (0.5 : ℝ) = 1 / 2 := by norm_num
    rw [h5]; ring
  have hvel : v4.vel ≤ v.vel + v.acc.maxAcc * dt := by
    have := mul_le_mul_of_nonneg_left hacc hdt
    have h0 := mul_nonneg hmax hdt
    rw [e5]
    exact max_le (by linarith) (by linarith)
  have hvel0 : 0 ≤ v4.vel := by rw [e5]; exact le_max_right _ _
  have hpos : v4.pos ≤ v.pos + (v.vel + v.acc.maxAcc * dt) * dt := by
    have : (v.vel + v4.vel) / 2 ≤ v.vel + v.acc.maxAcc * dt := by linarith [mul_nonneg hmax hdt]
    rw [e6]
    linarith [mul_le_mul_of_nonneg_right this hdt]
  have hpos0 : v.pos ≤ v4.pos := by
    rw [e6]
    have : 0 ≤ (v.vel + v4.vel) / 2 * dt := by positivity
    linarith
  have er : v4.route = v1.route := by rw [ev4]; dsimp only; rw [ev2]
  obtain ⟨v', hv', hc'⟩ := hr.stays ht c1 hl (hpos.trans hend) er
  obtain ⟨-, -, -, ea, eh⟩ := step_speed hs hst hv hv'
  obtain ⟨w1, hw, f1, -, hd⟩ := C70_drive hs hst (getVeh_ok.1 hv) (getVeh_ok.1 hv')
  obtain ⟨d1, d2, d3, d4, d5⟩ := hch hw
  obtain ⟨-, -, ev⟩ := ht.vel (getVeh_ok.1 hv')
  have ex : w1.pos + 0.5 * (v.vel + v'.vel) * dt = v4.pos := by
    have h5 : (0.5 : ℝ) = 1 / 2 := by norm_num
    rw [e6, ev, d4, h5]; ring
  rw [ex] at hd
  cases hd with
  | stays a' l' _ _ _ g1 g2 g3 g4 =>
    refine ⟨v', hv', hc', g2.trans d2, ?_, eh, ea, ?_, ?_, ?_, ?_⟩
    · rw [g4, d3]; rfl
    · rw [ev]; exact hvel
    · rw [g3]; exact hpos0
    · rw [g3]; exact hpos
    · rw [g1]; exact d5
  | passes a' l' h1 h2 h3 _ _ _ _ _ =>
    exfalso
    have : w1.route.head? = some a' := by rw [h1]; rfl
    have : some a' = some c := this.symm.trans d1
    cases this
    rw [getLink_ok.1 hl] at h2; cases h2
    linarith

end

/-- A straight link with nothing on it. -/
structure Plain (l : Link ℝ) : Prop where
  outs : l.linksOut = []
  lcs : l.laneChanges = []
  vehs : l.vehicles = []
  segs : l.curve.segments ≠ []
  limit : l.speedLimit = 10
  len : 99 ≤ l.length
  short : l.length ≤ 101
  group : l.group = none
  control : l.control = .open_

theorem link [Env] {s s' : Sim ℝ} {x : ℝ} (hfree : s.links.free = []) (h : s.exec (.addLink (TwoLanes.lane x 0)) = .ok s') : ∃ l, Plain l ∧
    s' = { s with links := ⟨s.links.slots ++ [⟨1, some l⟩], []⟩ } := by
  have hd : V2.distance (⟨x, 0⟩ : V2 ℝ) ⟨x + 100, 0⟩ = 100 := by
    simp only [V2.distance, V2.magnitude, V2.magnitude2, V2.dot, V2.sub, fsqrt]
    show Real.sqrt _ = 100
    rw [show ((x + 100 - x) * (x + 100 - x) + (0 - 0) * (0 - 0) : ℝ) = 100 * 100 by ring]
    exact Real.sqrt_mul_self (by norm_num)
  simp only [Sim.exec, Sim.addLink, SlotMap.insertWithKey, hfree] at h
  split at h
  · cases h
  simp only [M_bind_ok, M_pure_ok] at h
  obtain ⟨_, ⟨_, ⟨l, hl, rfl⟩, rfl⟩, rfl⟩ := h
  refine ⟨l, ?_, rfl⟩
  simp only [Link.new, M_bind_ok, M_pure_ok] at hl
  obtain ⟨c, hc, rfl⟩ := hl
  obtain ⟨hlen, hsegs⟩ := C38_length (by norm_num) (by rw [hd]; norm_num) hc
  rw [hd] at hlen
  obtain ⟨h1, h2⟩ := abs_le.1 hlen
  norm_num at h1 h2
  refine ⟨rfl, rfl, rfl, hsegs, rfl, ?_, ?_, rfl, rfl⟩
  · show 99 ≤ c.length
    linarith
  · show c.length ≤ 101
    linarith

/-- A new vehicle on an empty link. -/
structure Fresh (lk : Key) (v : Vehicle ℝ) : Prop where
  route : v.route = [lk]
  paths : v.pathfind.paths = []
  lc : v.laneChange = none
  half : v.halfLen = 2
  pos : v.pos = 0
  vel : v.vel = 0
  acc : v.acc = ⟨2, 2, 2, 1, 2⟩

theorem added [Env] {s : Sim ℝ} {l : Link ℝ} {lk : Key} {vs : List (Slot (Vehicle ℝ))} (hl : s.links.get? lk = some l) (hlcs : l.laneChanges = [])
    (hsegs : l.curve.segments ≠ []) (hvs : l.vehicles = []) (hs : s.vehicles = ⟨vs, []⟩) (hn : vs.length < 10) : ∃ v, Fresh lk v ∧
    s.exec (.addVehicle Lone.car lk) = .ok { s with
      links := s.links.modify lk fun _ => { l with vehicles := [⟨vs.length, 1⟩] }, vehicles := ⟨vs ++ [⟨1, some v⟩], []⟩ } := by
  obtain ⟨v0, v, h1, h2, a1, a2, a3, a4, a5, a6, a7, a8, a9, a10, a11⟩ := Pair.placed (k := ⟨vs.length, 1⟩) hl hlcs hsegs
  refine ⟨v, ⟨a2, a5, a6, a8, a9, a10, a11⟩, ?_⟩
  have hlt : ¬ vs.length + 1 ≥ u32Max := by unfold u32Max; omega
  simp only [Sim.exec, Sim.addVehicle, SlotMap.insertWithKey, hs, if_neg hlt, h1, h2, bind, Except.bind, pure, Except.pure]
  have hg : getVeh (⟨vs ++ [⟨1, some v⟩], []⟩ : VehicleSet ℝ) ⟨vs.length, 1⟩ = .ok v := by
    rw [getVeh_ok]; simp [SlotMap.get?]
  have hi : Sim.insertOnLink s.links ⟨vs ++ [⟨1, some v⟩], []⟩ lk ⟨vs.length, 1⟩ =
      .ok (s.links.modify lk fun _ => { l with vehicles := [⟨vs.length, 1⟩] }) := by
    simp only [Sim.insertOnLink, getLink_ok.2 hl, bind, Except.bind, pure, Except.pure, Link.insertVehicle, hg, hvs, Link.insertIdx, updLink, hl]
    rfl
  rw [hi]

/-- The front vehicle is on the second link, and the one behind it is sent there from the first link. -/
structure Road (s : Sim ℝ) (v u : Vehicle ℝ) : Prop where
  la : ∃ l, s.links.get? ⟨0, 1⟩ = some l ∧ l.linksOut = [⟨1, 1⟩] ∧ l.laneChanges = [] ∧ l.speedLimit = 10 ∧ 99 ≤ l.length
  lb : ∃ l, s.links.get? ⟨1, 1⟩ = some l ∧ l.linksOut = [] ∧ l.laneChanges = [] ∧ l.speedLimit = 10 ∧ 99 ≤ l.length
  only : ∀ c l, s.links.get? c = some l → c = ⟨0, 1⟩ ∨ c = ⟨1, 1⟩
  gv : s.getVehicle ⟨1, 1⟩ = .ok v
  gu : s.getVehicle ⟨0, 1⟩ = .ok u
  vonly : ∀ c w, s.vehicles.get? c = some w → c = ⟨0, 1⟩ ∨ c = ⟨1, 1⟩
  lv : v.linkId = some ⟨0, 1⟩
  lu : u.linkId = some ⟨1, 1⟩
  half : v.halfLen = 2 ∧ u.halfLen = 2
  acc : (∃ x, v.acc = ⟨2, 2, 2, 1, x⟩) ∧ ∃ x, u.acc = ⟨2, 2, 2, 1, x⟩
  lc : v.laneChange = none ∧ u.laneChange = none
  paths : v.pathfind.paths ≠ [] ∧ ∀ p ∈ v.pathfind.paths, ∃ rest, p.links = ⟨0, 1⟩ :: ⟨1, 1⟩ :: rest
  nopath : u.pathfind.paths = []

noncomputable def build : List (Op ℝ) :=
  [.addLink (TwoLanes.lane 0 0), .addLink (TwoLanes.lane 100 0), .addLinkConnection ⟨0, 1⟩ ⟨1, 1⟩, .addVehicle Lone.car ⟨1, 1⟩,
    .addVehicle Lone.car ⟨0, 1⟩, .setVehicleDestination ⟨1, 1⟩ ⟨1, 1⟩]

theorem two_get {α : Type} {x y : α} {c : Key} {z : α} (h : (⟨[⟨1, some x⟩, ⟨1, some y⟩], []⟩ : SlotMap α).get? c = some z) :
    c = ⟨0, 1⟩ ∨ c = ⟨1, 1⟩ := by
  obtain ⟨i, w⟩ := c
  match i with
  | 0 => simp [SlotMap.get?] at h; left; rw [← h.1]
  | 1 => simp [SlotMap.get?] at h; right; rw [← h.1]
  | n + 2 => simp [SlotMap.get?] at h

/-- The simulation with two links. -/
noncomputable def road (la lb : Link ℝ) (vs : List (Slot (Vehicle ℝ))) : Sim ℝ :=
  ⟨⟨[⟨1, some la⟩, ⟨1, some lb⟩], []⟩, .empty, [], ⟨vs, []⟩, [], 0, 0, 0.0, 0.0⟩

theorem leads : @ProgLeads (Lone.env 0) (fun s => s.accUpdate = 0 ∧ s.lcUpdate = 0 ∧ ∃ v u, Road s v u ∧ v.pos = 0 ∧ v.vel = 0 ∧ u.pos = 0 ∧ u.vel = 0 ∧
    v.acc = ⟨2, 2, 2, 1, 2⟩ ∧ u.acc = ⟨2, 2, 2, 1, 2⟩ ∧ ∀ l, s.links.get? ⟨0, 1⟩ = some l → l.length ≤ 101) .new build := by
  refine ⟨trivial, TwoLanes.lane_fits _ _ (.inr (by simp [Sim.new, SlotMap.empty, u32Max])), fun n1 s1 r1 h1 => ?_⟩
  obtain ⟨la, pa, rfl⟩ := @link (_) _ _ _ rfl h1
  refine ⟨trivial, TwoLanes.lane_fits _ _ (.inr (by simp [Sim.new, SlotMap.empty, u32Max])), fun n2 s2 r2 h2 => ?_⟩
  obtain ⟨lb, pb, rfl⟩ := @link (_) _ _ _ rfl h2
  refine ⟨trivial, ⟨rfl, rfl⟩, fun n3 s3 r3 h3 => ?_⟩
  obtain ⟨pa', ea⟩ : ∃ l : Link ℝ, l = { la with linksOut := la.linksOut ++ [⟨1, 1⟩] } := ⟨_, rfl⟩
  obtain ⟨pb', eb⟩ : ∃ l : Link ℝ, l = { lb with linksIn := lb.linksIn ++ [⟨0, 1⟩] } := ⟨_, rfl⟩
  replace h3 : s3 = road pa' pb' [] := by rw [ea, eb]; cases h3; rfl
  subst h3
  refine ⟨trivial, ⟨rfl, .inr (by simp [road, u32Max])⟩, fun n4 s4 r4 h4 => ?_⟩
  obtain ⟨u, fu, h4'⟩ := @added (@Env.withFuel (Lone.env 0) n4) (road pa' pb' []) pb' ⟨1, 1⟩ [] rfl (by rw [eb]; exact pb.lcs)
    (by rw [eb]; exact pb.segs) (by rw [eb]; exact pb.vehs) rfl (by decide)
  replace h4 : s4 = road pa' { pb' with vehicles := [⟨0, 1⟩] } [⟨1, some u⟩] := by rw [h4'] at h4; cases h4; rfl
  subst h4
  refine ⟨trivial, ⟨rfl, .inr (by simp [road, u32Max])⟩, fun n5 s5 r5 h5 => ?_⟩
  obtain ⟨v, fv, h5'⟩ := @added (@Env.withFuel (Lone.env 0) n5) (road pa' { pb' with vehicles := [⟨0, 1⟩] } [⟨1, some u⟩]) pa' ⟨0, 1⟩ [⟨1, some u⟩] rfl
    (by rw [ea]; exact pa.lcs) (by rw [ea]; exact pa.segs) (by rw [ea]; exact pa.vehs) rfl (by simp)
  obtain ⟨ka, eka⟩ : ∃ l, l = { pa' with vehicles := [⟨1, 1⟩] } := ⟨_, rfl⟩
  obtain ⟨kb, ekb⟩ : ∃ l, l = { pb' with vehicles := [⟨0, 1⟩] } := ⟨_, rfl⟩
  replace h5 : s5 = road ka kb [⟨1, some u⟩, ⟨1, some v⟩] := by rw [h5'] at h5; cases h5; rw [eka, ekb]; rfl
  subst h5
  refine ⟨trivial, ⟨rfl, .inr rfl⟩, fun n6 s6 r6 h6 => ?_⟩
  replace h6 : @Sim.setVehicleDestination ℝ _ (@Env.withFuel (Lone.env 0) n5) _ ⟨1, 1⟩ ⟨1, 1⟩ = .ok s6 := h6
  let env : Env := @Env.withFuel (Lone.env 0) n5
  have : LawfulDijkstra := @LawfulDijkstra.withFuel (Lone.env 0) (Lone.lawful 0) n5
  have hs := (setVehicleDestination_spec (E := fun _ => True) r5.inv (.inr trivial) (.inr trivial) rfl (.inr (.inr trivial))).ok h6
  obtain ⟨w, pf, hw, hsrc, -, -, hvs⟩ := hs.veh
  cases hw
  have oa : ka.linksOut = [⟨1, 1⟩] := by rw [eka, ea]; show la.linksOut ++ _ = _; rw [pa.outs]; rfl
  have ob : kb.linksOut = [] := by rw [ekb, eb]; exact pb.outs
  have ca : ka.laneChanges = [] := by rw [eka, ea]; exact pa.lcs
  have cb : kb.laneChanges = [] := by rw [ekb, eb]; exact pb.lcs
  have hla : (road ka kb [⟨1, some u⟩, ⟨1, some v⟩]).links.get? ⟨0, 1⟩ = some ka := rfl
  have hlb : (road ka kb [⟨1, some u⟩, ⟨1, some v⟩]).links.get? ⟨1, 1⟩ = some kb := rfl
  have hnolane : ∀ x y, ¬ LaneTo (road ka kb [⟨1, some u⟩, ⟨1, some v⟩]).links x y := by
    rintro x y ⟨l, hl, hy⟩
    rcases two_get hl with rfl | rfl
    · rw [hla] at hl; cases hl; rw [ca] at hy; cases hy
    · rw [hlb] at hl; cases hl; rw [cb] at hy; cases hy
  have gv6 : s6.getVehicle ⟨1, 1⟩ = .ok { v with pathfind := pf, canExit := false } := by
    rw [Sim.getVehicle, getVeh_ok, hvs]; rfl
  have hc : Conn (road ka kb [⟨1, some u⟩, ⟨1, some v⟩]).links ⟨0, 1⟩ ⟨1, 1⟩ := ⟨ka, rfl, by rw [oa]; simp⟩
  have hlead : Leads (road ka kb [⟨1, some u⟩, ⟨1, some v⟩]).links ⟨0, 1⟩ ⟨1, 1⟩ := .single (.inl hc)
  have lv : v.linkId = some ⟨0, 1⟩ := by rw [Vehicle.linkId, fv.route]; rfl
  obtain ⟨route, hrt, hpl⟩ := C73_plan (v := v) r5 h6 rfl gv6 lv hlead
  have hfind := (C51_finds (v := v) r5 h6 rfl gv6 lv hlead).1
  obtain ⟨K, hK, -, -, hpaths⟩ := hpl.paths
  have hbK : (⟨1, 1⟩ : Key) ∈ K := by
    obtain ⟨r, hr, hstar⟩ := hrt.last
    have : r = ⟨1, 1⟩ := by
      rcases Relation.ReflTransGen.cases_head hstar with e | ⟨z, hz, -⟩
      · exact e
      · exact absurd hz (hnolane _ _)
    exact hK _ (this ▸ List.mem_of_getLast? hr)
  rw [hs.eq]
  refine ⟨by show (0.0 : ℝ) = 0; norm_num, by show (0.0 : ℝ) = 0; norm_num, { v with pathfind := pf, canExit := false }, u, ⟨⟨ka, rfl, oa, ca, ?_, ?_⟩, ⟨kb, rfl, ob, cb, ?_, ?_⟩, fun c l h => two_get h,
    by rw [← gv6]; rfl, ?_, ?_, lv, ?_, ⟨fv.half, fu.half⟩, ⟨⟨2, fv.acc⟩, 2, fu.acc⟩, ⟨fv.lc, fu.lc⟩, ⟨hfind, ?_⟩, fu.paths⟩, fv.pos, fv.vel, fu.pos, fu.vel,
    fv.acc, fu.acc, ?_⟩
  · rw [eka, ea]; exact pa.limit
  · rw [eka, ea]; exact pa.len
  · rw [ekb, eb]; exact pb.limit
  · rw [ekb, eb]; exact pb.len
  · show getVeh s6.vehicles _ = _
    rw [getVeh_ok, hvs]; rfl
  · intro c w hw
    replace hw : s6.vehicles.get? c = some w := hw
    rw [hvs] at hw
    exact two_get hw
  · rw [Vehicle.linkId, fu.route]; rfl
  · intro p hp
    have hne : p.links ≠ [] := by
      intro e
      obtain ⟨last, y, h1, -⟩ := hpl.dists p hp
      rw [e] at h1; cases h1
    obtain ⟨b, ks, e⟩ := List.exists_cons_of_ne_nil hne
    obtain ⟨h1, h2⟩ := (hpaths b ks).1 ⟨p, hp, e⟩
    rcases h1 with rfl | h1
    · cases h2 with
      | stop _ h => 
        rcases h with h | h | h
        · cases h
        · exact absurd (by norm_num) h
        · exact absurd hbK (h _ hc)
      | go _ _ hl hj _ =>
        rw [hla] at hl; cases hl
        rw [oa, List.mem_singleton] at hj
        subst hj
        exact ⟨_, e⟩
    · exact absurd h1 (hnolane _ _)
  · intro l hl
    have hl := hla.symm.trans hl; cases hl
    rw [eka, ea]; exact pa.short

theorem Road.step [Env] [LawfulDijkstra] {s s' : Sim ℝ} {v u : Vehicle ℝ} {dt : ℝ} (h : Road s v u) (hs : Reach True s) (hst : s.step dt = .ok s')
    (hdt : 0 ≤ dt) (hv : v.pos + (v.vel + 2 * dt) * dt ≤ 99) (hu : u.pos + (u.vel + 2 * dt) * dt ≤ 99) : ∃ v' u', Road s' v' u' ∧
      v'.vel ≤ v.vel + 2 * dt ∧ v.pos ≤ v'.pos ∧ v'.pos ≤ v.pos + (v.vel + 2 * dt) * dt ∧
      u'.vel ≤ u.vel + 2 * dt ∧ u.pos ≤ u'.pos ∧ u'.pos ≤ u.pos + (u.vel + 2 * dt) * dt ∧
      (s.lcUpdate < 0.3 → v'.route = v.route) ∧ (¬ s.lcUpdate < 0.3 → ∃ rest, v'.route = ⟨0, 1⟩ :: ⟨1, 1⟩ :: rest) := by
  obtain ⟨la, ha, a1, a2, a3, a4⟩ := h.la
  obtain ⟨lb, hb, b1, b2, b3, b4⟩ := h.lb
  obtain ⟨⟨x, ex⟩, ⟨y, ey⟩⟩ := h.acc
  have hmax : u.acc.maxAcc = 2 := by rw [ey]
  obtain ⟨-, v', c1, c2, c3, c4, c5, ⟨ca, c6⟩, c7, c8, c9, c10⟩ := veh hs hst hdt h.gv h.lv (getLink_ok.2 ha) h.lc.1
    (fun p hp => by obtain ⟨r, e⟩ := h.paths.2 p hp; rw [e]; rfl) (by rw [ex]; norm_num) (by rw [ex]; exact hv.trans a4)
  obtain ⟨-, u', d1, d2, d3, d4, d5, ⟨da, d6⟩, d7, d8, d9, d10⟩ := veh hs hst hdt h.gu h.lu (getLink_ok.2 hb) h.lc.2
    (fun p hp => by rw [h.nopath] at hp; cases hp) (by rw [hmax]; norm_num) (by rw [hmax]; exact hu.trans b4)
  rw [ex] at c6 c7 c9
  rw [hmax] at d7 d9
  obtain ⟨s1, s2, s3, s4, s5, s6, hr⟩ := (step_spec hs.inv dt).ok hst
  refine ⟨v', u', ⟨?_, ?_, ?_, c1, d1, ?_, c2, d2, ⟨c5.trans h.half.1, d5.trans h.half.2⟩, ⟨⟨ca, c6⟩, da, by rw [d6, ey]⟩, ⟨c4, d4⟩,
    by rw [c3]; exact h.paths, by rw [d3]; exact h.nopath⟩, c7, c8, c9, d7, d8, d9, ?_, ?_⟩
  · obtain ⟨l', h', hf⟩ := hr.frame.fwd _ _ ha
    exact ⟨l', h', hf.linksOut.trans a1, hf.laneChanges.trans a2, hf.speedLimit.trans a3, by rw [Link.length, hf.curve]; exact a4⟩
  · obtain ⟨l', h', hf⟩ := hr.frame.fwd _ _ hb
    exact ⟨l', h', hf.linksOut.trans b1, hf.laneChanges.trans b2, hf.speedLimit.trans b3, by rw [Link.length, hf.curve]; exact b4⟩
  · intro c l hl
    obtain ⟨l0, h0, -⟩ := hr.frame.bwd hl
    exact h.only c l0 h0
  · intro c w hw
    obtain ⟨w0, h0⟩ := hr.back hw
    exact h.vonly c w0 h0
  · intro hlt
    rcases c10 with ⟨e, -⟩ | ⟨hge, -⟩
    · exact e
    · exact absurd hlt hge
  · intro hlt
    rcases c10 with ⟨-, h1⟩ | ⟨-, p, hp, e⟩
    · exact (h1.elim hlt h.paths.1).elim
    · obtain ⟨r, e'⟩ := h.paths.2 p hp
      exact ⟨r, e.trans e'⟩


theorem Road.vehs [Env] [LawfulDijkstra] {s : Sim ℝ} {v u : Vehicle ℝ} (h : Road s v u) (hs : Reach True s) :
    (∀ l, s.links.get? ⟨0, 1⟩ = some l → l.vehicles = [⟨1, 1⟩]) ∧ ∀ l, s.links.get? ⟨1, 1⟩ = some l → l.vehicles = [⟨0, 1⟩] := by
  have one : ∀ (xs : List Key) (x : Key), xs.Nodup → (∀ y, y ∈ xs ↔ y = x) → xs = [x] := by
    intro xs x hn hx
    have := List.perm_singleton.1 ((List.perm_ext_iff_of_nodup hn (List.nodup_singleton x)).2 fun y => by rw [hx, List.mem_singleton])
    exact this
  refine ⟨fun l hl => ?_, fun l hl => ?_⟩
  · obtain ⟨hn, hm⟩ := hs.inv.mem _ _ hl
    refine one _ _ hn fun y => (hm y).trans ⟨?_, ?_⟩
    · rintro ⟨w, hw, hw'⟩
      rcases h.vonly y w hw with rfl | rfl
      · rw [getVeh_ok.1 h.gu] at hw; cases hw
        rw [h.lu] at hw'; cases hw'
      · rfl
    · rintro rfl
      exact ⟨v, getVeh_ok.1 h.gv, h.lv⟩
  · obtain ⟨hn, hm⟩ := hs.inv.mem _ _ hl
    refine one _ _ hn fun y => (hm y).trans ⟨?_, ?_⟩
    · rintro ⟨w, hw, hw'⟩
      rcases h.vonly y w hw with rfl | rfl
      · rfl
      · rw [getVeh_ok.1 h.gv] at hw; cases hw
        rw [h.lv] at hw'; cases hw'
    · rintro rfl
      exact ⟨u, getVeh_ok.1 h.gu, h.lu⟩

/-- Calls in turn, with one bound on loops. -/
theorem calls [Env] [LawfulDijkstra] (hd : SearchEnds) : ∀ (dts : List ℝ) {s : Sim ℝ} {N : Nat}, (∀ n, N ≤ n → @Reach ℝ _ (Env.withFuel n) True s) →
    PosNet s.links → StraightNet s.links → ∃ N' s', N ≤ N' ∧ ∀ n, N' ≤ n → dts.foldlM (@Sim.step ℝ _ (Env.withFuel n)) s = .ok s'
  | [], s, N, _, _, _ => ⟨N, s, le_rfl, fun _ _ => rfl⟩
  | dt :: dts, s, N, hr, hp, hs => by
    obtain ⟨N1, s1, h1⟩ := @C69_calls (Env.withFuel N) (LawfulDijkstra.withFuel N) s (hr N le_rfl) hd hp hs (.step dt) trivial trivial
    have h1 : ∀ n, N1 ≤ n → @Sim.exec ℝ _ (Env.withFuel n) s (.step dt) = .ok s1 := h1
    have hr1 : ∀ n, max N N1 ≤ n → @Reach ℝ _ (Env.withFuel n) True s1 := fun n hn =>
      @Reach.exec ℝ _ (Env.withFuel n) True s s1 (.step dt) (hr n (le_of_max_le_left hn)) trivial (h1 n (le_of_max_le_right hn))
    have h2 := @exec_straight (Env.withFuel (max N N1)) (LawfulDijkstra.withFuel _) s s1 (.step dt) (hr _ (le_max_left _ _)) hp hs trivial
      (h1 _ (le_max_right _ _))
    obtain ⟨N2, s2, hle, h3⟩ := calls hd dts hr1 h2.1 h2.2
    refine ⟨N2, s2, (le_max_left _ _).trans hle, fun n hn => ?_⟩
    rw [List.foldlM_cons]
    have : @Sim.step ℝ _ (Env.withFuel n) s dt = .ok s1 := h1 n ((le_max_right _ _).trans (hle.trans hn))
    rw [this]
    exact h3 n hn

/-- Three steps on the road; in the last one accelerations are computed. -/
theorem run : ∃ (_ : Env) (_ : LawfulDijkstra) (sb sc : Sim ℝ) (vb ub vc uc : Vehicle ℝ), Reach True sb ∧ Road sb vb ub ∧ Road sc vc uc ∧
    sb.step 0.05 = .ok sc ∧ sb.accUpdate = 0.2 ∧ sb.calculateLaneChanges = .ok sb ∧ (∃ rest, vb.route = ⟨0, 1⟩ :: ⟨1, 1⟩ :: rest) ∧
    vc.route = vb.route ∧ (0 ≤ vb.pos ∧ vb.pos ≤ 1 ∧ vb.vel ≤ 2 ∧ vc.vel ≤ 2) ∧ (0 ≤ ub.pos ∧ ub.pos ≤ 1 ∧ ub.vel ≤ 2 ∧ uc.vel ≤ 2) := by
  obtain ⟨N, s, ⟨z1, z2, v, u, hb, p0, q0, p1, q1, -⟩, hp, hn, h⟩ :=
    @program_runs (Lone.env 0) (Lone.lawful 0) _ (Search.full_ends _) _ leads
  obtain ⟨N', sf, hN, hsteps⟩ := @calls (Lone.env 0) (Lone.lawful 0) (Search.full_ends _) [0.5, 0.2, 0.05] s N (fun n hn => (h n hn).1) hp hn
  let env : Env := @Env.withFuel (Lone.env 0) N'
  have hlaw : LawfulDijkstra := @LawfulDijkstra.withFuel (Lone.env 0) (Lone.lawful 0) N'
  have hr : Reach True s := (h _ hN).1
  have hst : [0.5, 0.2, 0.05].foldlM (Sim.step (F := ℝ)) s = .ok sf := hsteps N' le_rfl
  simp only [List.foldlM_cons, List.foldlM_nil, M_bind_ok, M_pure_ok] at hst
  obtain ⟨sa, ha, sb, hbs, sc, hc, rfl⟩ := hst
  have ra : Reach True sa := hr.exec (op := .step 0.5) trivial ha
  have rb : Reach True sb := ra.exec (op := .step 0.2) trivial hbs
  obtain ⟨va, ua, da, a1, a2, a3, a4, a5, a6, -, -⟩ := hb.step hr ha (by norm_num) (by rw [p0, q0]; norm_num) (by rw [p1, q1]; norm_num)
  rw [q0] at a1; rw [p0, q0] at a3; rw [p0] at a2; rw [q1] at a4; rw [p1, q1] at a6; rw [p1] at a5
  norm_num at a1 a2 a3 a4 a5 a6
  obtain ⟨vb, ub, db, b1, b2, b3, b4, b5, b6, -, b8⟩ := da.step ra hbs (by norm_num) (by norm_num; linarith) (by norm_num; linarith)
  norm_num at b1 b2 b3 b4 b5 b6
  obtain ⟨vc, uc, dc, c1, c2, c3, c4, c5, c6, c7, -⟩ := db.step rb hc (by norm_num) (by norm_num; linarith) (by norm_num; linarith)
  norm_num at c1 c2 c3 c4 c5 c6
  obtain ⟨ta1, ta2, ta3, ta4, ta5, ta6, hra⟩ := (step_spec hr.inv 0.5).ok ha
  obtain ⟨tb1, tb2, tb3, tb4, tb5, tb6, hrb⟩ := (step_spec ra.inv 0.2).ok hbs
  obtain ⟨-, ka1, ka2⟩ := hra.clocks
  obtain ⟨-, kb1, kb2⟩ := hrb.clocks
  simp only [accelerationUpdateSec, laneChangeUpdateSec] at ka1 ka2 kb1 kb2
  rw [z1] at ka1; rw [z2] at ka2
  norm_num at ka1 ka2
  rw [ka1] at kb1; rw [ka2] at kb2
  norm_num at kb1 kb2
  obtain ⟨rest, er⟩ := b8 (by rw [ka2]; norm_num)
  have ec := c7 (by rw [kb2]; norm_num)
  have hlanes : sb.calculateLaneChanges = .ok sb := by
    unfold Sim.calculateLaneChanges
    exact if_pos (by rw [kb2]; simp only [laneChangeUpdateSec]; norm_num)
  exact ⟨env, hlaw, sb, sc, vb, ub, vc, uc, rb, db, dc, hc, by rw [kb1]; norm_num, hlanes, ⟨rest, er⟩, ec,
    ⟨by linarith, by linarith, by linarith, by linarith⟩, by linarith, by linarith, by linarith, by linarith⟩

end Relay

open Relay in
/-- A vehicle starts on a link while another starts on the next one. -/
example : ∃ (_ : Env) (_ : LawfulDijkstra) (s0 s : Sim ℝ) (v0 u0 v u : Vehicle ℝ) (g0 g : ℝ) (k j : Key), Reach True s0 ∧ NoLoops s0 ∧
    ¬ s0.accUpdate < 0.1 ∧ s0.getVehicle k = .ok v0 ∧ s0.getVehicle j = .ok u0 ∧ GapTo s0 v0 u0 g0 ∧ v0.linkId ≠ u0.linkId ∧
    Cautious v0.acc (0.1 + 0.1) 10 ∧ 0 ≤ u0.pos ∧
    (∀ a l, s0.getLinkRef a = .ok l → 10 ^ 2 + 2 * (v0.acc.maxAcc + 6) * (0.1 + 0.1) * 10 +
      (v0.acc.maxAcc + 3) ^ 2 * (0.1 + 0.1) ^ 2 + 12 * u0.halfLen ≤ 60 * l.speedLimit) ∧
    0 ≤ g0 ∧ (v0.vel = 0 ∨ v0.vel ^ 2 / 12 + 3 / 4 * (0.1 + 0.1) ^ 2 ≤ g0 + u0.vel ^ 2 / 12) ∧
    FollowOn k j 0.1 10 s0 s ∧ s.getVehicle k = .ok v ∧ s.getVehicle j = .ok u ∧ GapTo s v u g := by
  obtain ⟨env, hlaw, sb, sc, vb, ub, vc, uc, rb, db, dc, hc, kb1, hlanes, ⟨rest, er⟩, ec, ⟨b1, b2, b3, b4⟩, b5, b6, b7, b8⟩ := run
  obtain ⟨x, ex⟩ := db.acc.1
  obtain ⟨la, gla, la1, la2, la3, la4⟩ := db.la
  obtain ⟨lb, glb, lb1, lb2, lb3, lb4⟩ := db.lb
  obtain ⟨lc, glc, -⟩ := dc.la
  obtain ⟨vsa, vsb⟩ := db.vehs rb
  have v0 := C20_speed rb db.gv
  have hsq : √((2 : ℝ) / (2 + 6)) = 1 / 2 := by
    rw [show (2 : ℝ) / (2 + 6) = (1 / 2) ^ 2 by norm_num]
    exact Real.sqrt_sq (by norm_num)
  have hsq' : √((2 : ℝ) * (2 + 6)) = 4 := by
    rw [show (2 : ℝ) * (2 + 6) = 4 ^ 2 by norm_num]
    exact Real.sqrt_sq (by norm_num)
  have hgap : 94 ≤ la.length + ub.posRear - vb.posFront := by
    rw [Vehicle.posFront, Vehicle.posRear, db.half.1, db.half.2]; linarith
  have hconn : ∀ x y, Conn sb.links x y → x = ⟨0, 1⟩ ∧ y = ⟨1, 1⟩ := by
    rintro x y ⟨l, hl, hy⟩
    rcases db.only x l hl with rfl | rfl
    · rw [gla] at hl; cases hl
      rw [la1, List.mem_singleton] at hy
      exact ⟨rfl, hy⟩
    · rw [glb] at hl; cases hl
      rw [lb1] at hy; cases hy
  have hlim : ∀ y l, sb.getLinkRef y = .ok l → l.speedLimit = 10 ∧ 0 ≤ l.length := by
    intro y l hl
    rcases db.only y l (getLink_ok.1 hl) with rfl | rfl
    · have e := (getLink_ok.1 hl).symm.trans gla; cases e
      exact ⟨la3, by linarith⟩
    · have e := (getLink_ok.1 hl).symm.trans glb; cases e
      exact ⟨lb3, by linarith⟩
  refine ⟨env, hlaw, sb, sc, vb, ub, vc, uc, _, _, ⟨1, 1⟩, ⟨0, 1⟩, rb, ⟨?_, fun y l hl => (hlim y l hl).2⟩, by rw [kb1]; norm_num, db.gv, db.gu,
    .next db.lv (by rw [er]; rfl) (getLink_ok.2 gla) db.lu, by rw [db.lv, db.lu]; decide, ?_, by linarith, ?_, by linarith, .inr ?_,
    ⟨⟨0.05, by norm_num, by norm_num, hc⟩, ⟨sb, hlanes, .next db.gv db.lv (by rw [er]; rfl) (getLink_ok.2 gla) (pre := []) (post := [])
      (vsa la gla) nofun (getLink_ok.2 glb) (vsb lb glb) (by rw [lb3]; norm_num), ⟨vb, vb, db.gv, db.gv, rfl, by linarith⟩, ub, ub, db.gu, db.gu, rfl⟩,
      vc, uc, _, dc.gv, dc.gu, .next dc.lv (by rw [ec, er]; rfl) (getLink_ok.2 glc) dc.lu⟩, dc.gv, dc.gu,
    .next dc.lv (by rw [ec, er]; rfl) (getLink_ok.2 glc) dc.lu⟩
  · intro x y h1 h2
    obtain ⟨rfl, rfl⟩ := hconn x y h1
    have := (hconn _ _ h2).1
    cases this
  · rw [ex]
    constructor <;> dsimp only
    · norm_num
    · norm_num
    · rw [hsq]; norm_num
    · rw [hsq, hsq']; norm_num
  · intro y l hl
    rw [ex, db.half.2, (hlim y l hl).1]
    norm_num
  · have h1 : vb.vel ^ 2 ≤ 2 ^ 2 := pow_le_pow_left₀ v0 (by linarith) 2
    have h2 := sq_nonneg ub.vel
    norm_num
    linarith

end TrafficSim
