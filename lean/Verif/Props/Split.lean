import Verif.Props.Safety
import Verif.Lemmas.Pinwheel

/-! # C97: how time is divided into steps -/

namespace TrafficSim

section
variable {F : Type} [Flt F]

/-- The lane change that a vehicle at the position `p` has not completed. -/
def uncompleted (p : F) : Option (LaneChange F) → Option (LaneChange F)
  | some lc => if p < lc.endPos then some lc else none
  | none => none

/-- What the motion of a vehicle in a step does to it. -/
theorem Moved.exact {dt : F} {lo : Nat} {k : Key} {v v' : Vehicle F} (h : Moved dt lo k v v') :
    v'.route = v.route ∧ v'.acc = v.acc ∧ v'.vel = fmax (v.vel + dt * v.acc.getAcc) 0.0 ∧ v'.pos = v.pos + 0.5 * (v.vel + v'.vel) * dt ∧
    v'.laneChange = uncompleted v'.pos v.laneChange ∧ v'.entered = (if v.willQueueOrEnter = 2 then v.entered + 1 else v.entered) ∧
    v'.willQueueOrEnter = 0 := by
  obtain ⟨sq, sq', hi, hlo⟩ := h
  unfold Vehicle.integrate at hi
  rw [M_bind_ok] at hi
  obtain ⟨p, hp, hi⟩ := hi
  rw [M_pure_ok] at hi
  cases hi
  have key : ∀ u : Vehicle F, (u.integrateMotion dt).route = u.route ∧ (u.integrateMotion dt).acc = u.acc ∧
      (u.integrateMotion dt).vel = fmax (u.vel + dt * u.acc.getAcc) 0.0 ∧
      (u.integrateMotion dt).pos = u.pos + 0.5 * (u.vel + (u.integrateMotion dt).vel) * dt ∧
      (u.integrateMotion dt).laneChange = uncompleted (u.integrateMotion dt).pos u.laneChange ∧
      (u.integrateMotion dt).entered = u.entered ∧ (u.integrateMotion dt).willQueueOrEnter = u.willQueueOrEnter := by
    intro u
    unfold Vehicle.integrateMotion Vehicle.updateStopCount uncompleted
    dsimp only
    split <;> exact ⟨rfl, rfl, rfl, rfl, rfl, rfl, rfl⟩
  unfold Vehicle.integrateQueue at hp
  split at hp
  · rename_i hw
    simp only [M_pure_ok] at hp
    subst hp
    obtain ⟨a1, a2, a3, a4, a5, a6, a7⟩ := key { v with willQueueOrEnter := 0 }
    exact ⟨a1, a2, a3, a4, a5, by rw [a6, hw]; rfl, a7⟩
  · rename_i hw
    simp only [M_pure_ok] at hp
    subst hp
    obtain ⟨a1, a2, a3, a4, a5, a6, a7⟩ := key { v with queued := some (v.queued.getD (sq + 1)), willQueueOrEnter := 0 }
    exact ⟨a1, a2, a3, a4, a5, by rw [a6, hw]; rfl, a7⟩
  · rename_i hw
    simp only [M_pure_ok] at hp
    subst hp
    obtain ⟨a1, a2, a3, a4, a5, a6, a7⟩ := key { v with entered := v.entered + 1, queued := none, willQueueOrEnter := 0 }
    exact ⟨a1, a2, a3, a4, a5, by rw [a6, hw]; rfl, a7⟩
  · cases hp

end

theorem uncompleted_twice {p q : ℝ} (h : p ≤ q) (o : Option (LaneChange ℝ)) : uncompleted q (uncompleted p o) = uncompleted q o := by
  cases o with
  | none => rfl
  | some lc =>
    unfold uncompleted
    dsimp only
    split <;> rename_i h1
    · split at h1
      · cases h1; rfl
      · cases h1
    · split at h1
      · cases h1
      · rw [if_neg (by linarith)]

theorem uncompleted_shift (p len : ℝ) (o : Option (LaneChange ℝ)) (f : LaneChange ℝ → CubicFn ℝ) :
    uncompleted (p - len) (o.map fun lc => { endPos := lc.endPos - len, offset := f lc }) =
      (uncompleted p o).map fun lc => { endPos := lc.endPos - len, offset := f lc } := by
  cases o with
  | none => rfl
  | some lc =>
    show (if p - len < lc.endPos - len then _ else _) = Option.map _ (if p < lc.endPos then _ else _)
    by_cases h : p < lc.endPos
    · rw [if_pos h, if_pos (by linarith)]; rfl
    · rw [if_neg h, if_neg (by linarith)]; rfl

/-- The speed and the way in two steps and in one. -/
theorem split_motion {y c a b ya yb yt : ℝ} (hy : 0 ≤ y) (ha : 0 ≤ a) (hb : 0 ≤ b) (h1 : ya = max (y + a * c) 0) (h2 : yb = max (ya + b * c) 0)
    (ht : yt = max (y + (a + b) * c) 0) (hm : 0 < yt ∨ y = 0) :
    yb = yt ∧ 0.5 * (y + ya) * a + 0.5 * (ya + yb) * b = 0.5 * (y + yt) * (a + b) := by
  have lin : 0 ≤ y + (a + b) * c → yb = yt ∧ 0.5 * (y + ya) * a + 0.5 * (ya + yb) * b = 0.5 * (y + yt) * (a + b) := by
    intro h
    have : 0 ≤ y + a * c := by
      by_cases hc : 0 ≤ c
      · positivity
      · have := mul_nonneg hb (neg_nonneg.2 (not_le.1 hc).le)
        linarith
    rw [max_eq_left this] at h1
    rw [max_eq_left h] at ht
    have e : ya + b * c = y + (a + b) * c := by rw [h1]; ring
    rw [e, max_eq_left h] at h2
    rw [h2, ht, h1]
    exact ⟨rfl, by ring⟩
  by_cases h : 0 ≤ y + (a + b) * c
  · exact lin h
  · push Not at h
    rw [max_eq_right h.le] at ht
    have hy0 : y = 0 := hm.resolve_left (by rw [ht]; exact lt_irrefl _)
    subst hy0
    have hc : c ≤ 0 := by
      by_contra hn
      have := mul_nonneg (add_nonneg ha hb) (not_le.1 hn).le
      linarith
    rw [max_eq_right (by have := mul_nonneg ha (neg_nonneg.2 hc); linarith)] at h1
    subst h1
    rw [max_eq_right (by have := mul_nonneg hb (neg_nonneg.2 hc); linarith)] at h2
    rw [h2, ht]
    exact ⟨rfl, by ring⟩

section
variable {strict : Prop} {s s' sa t : Sim ℝ} {a b : ℝ} {k : Key} {v w : Vehicle ℝ}

/-- **C97** (partial) In exact arithmetic: two steps of `a` and `b` seconds do with a vehicle the same as one step of `a + b` seconds, if no
decisions are made between them, the vehicle does not come to a stand, and it does not get past the link that follows next.
Missing: vehicles that come to a stand.  `C97_differs` shows that it is false of them. -/
theorem C97_split_partial [Env] [LawfulDijkstra] (h : Reach strict s) (ha : 0 ≤ a) (hb : 0 ≤ b) (h1 : s.step a = .ok sa) (h2 : sa.step b = .ok s')
    (h3 : s.step (a + b) = .ok t) (hacc : sa.accUpdate < 0.1) (hlc : sa.lcUpdate < 0.3) (hv : s.getVehicle k = .ok v)
    (hw : t.getVehicle k = .ok w) (hm : 0 < w.vel ∨ v.vel = 0) (hin : ∀ i l, w.linkId = some i → t.getLinkRef i = .ok l → w.pos ≤ l.length) :
    ∃ u, s'.getVehicle k = .ok u ∧ u.route = w.route ∧ u.pos = w.pos ∧ u.vel = w.vel ∧ u.acc = w.acc ∧ u.entered = w.entered ∧
      u.laneChange = w.laneChange := by
  have hR1 : Reach strict sa := .exec (.step a) h trivial h1
  obtain ⟨a1, a2, a3, a4, a5, a6, ra⟩ := (step_spec h.inv a).ok h1
  obtain ⟨b1, b2, b3, b4, b5, b6, rb⟩ := (step_spec hR1.inv b).ok h2
  obtain ⟨t1, t2, t3, t4, t5, t6, rt⟩ := (step_spec h.inv (a + b)).ok h3
  obtain ⟨v1, v2, v4, ta⟩ := ra.trace (getVeh_ok.1 hv)
  obtain ⟨w1, w2, w4, tt⟩ := rt.trace (getVeh_ok.1 hv)
  have e1 := ra.run1; rw [rt.run1] at e1; cases e1
  have e2 := ra.run2; rw [rt.run2] at e2; cases e2
  have g1 := ta.get1; rw [tt.get1] at g1; cases g1
  have g2 := ta.get2; rw [ra.vehicles3, ← rt.vehicles3, tt.get2] at g2; cases g2
  obtain ⟨m1, m2, m3, m4, m5, m6, m7⟩ := ta.move.exact
  obtain ⟨n1, n2, n3, n4, n5, n6, n7⟩ := tt.move.exact
  have hvel : v2.vel = v.vel := by
    obtain ⟨x, y, e⟩ := tt.acc.same
    rw [e]; exact tt.steer.same.1
  have y0 : 0 ≤ v2.vel := by rw [hvel]; exact C20_speed h hv
  have wvel : w.vel = w4.vel := by
    cases tt.out with
    | stays u hu hp _ =>
      rw [getVeh_ok.1 hw] at hu; cases hu
      obtain ⟨_, _, _, _, rfl⟩ := hp; rfl
    | passes v5 u hp _ hu hpl =>
      rw [getVeh_ok.1 hw] at hu; cases hu
      obtain ⟨_, _, _, _, -, -, -, rfl, -⟩ := hp.ex
      obtain ⟨_, _, _, _, rfl⟩ := hpl; rfl
    | leaves _ _ _ hu => rw [getVeh_ok.1 hw] at hu; cases hu
  have z0 : fmax (v2.vel + a * v2.acc.getAcc) 0.0 = max (v2.vel + a * v2.acc.getAcc) (0 : ℝ) := by
    simp only [fmax]; norm_num
  have z1 : fmax (v2.vel + (a + b) * v2.acc.getAcc) 0.0 = max (v2.vel + (a + b) * v2.acc.getAcc) (0 : ℝ) := by
    simp only [fmax]; norm_num
  rw [z0] at m3; rw [z1] at n3
  -- the second step, of a vehicle that has the motion of `v4`
  have second : ∀ va, sa.vehicles.get? k = some va → va.vel = v4.vel → va.acc = v4.acc → va.willQueueOrEnter = 0 →
      ∃ u4, Outcome b4 s' k u4 ∧ u4.route = va.route ∧ u4.acc = va.acc ∧ u4.vel = w4.vel ∧
        u4.pos = va.pos + (w4.pos - v4.pos) ∧ u4.laneChange = uncompleted u4.pos va.laneChange ∧ u4.entered = va.entered := by
    intro va hva q1 q2 q3
    obtain ⟨va1, va2, va4, tb⟩ := rb.trace hva
    have e1 : b1 = sa := by
      rcases rb.lanes with ⟨-, e⟩ | ⟨hn, -⟩
      · exact e
      · exact absurd hlc hn
    subst e1
    have e2 := tb.get1; rw [hva] at e2; cases e2
    have e3 : va2 = va := by
      rcases tb.acc with ⟨-, -, e⟩ | ⟨hn, -⟩
      · exact e
      · exact absurd hacc hn
    subst e3
    obtain ⟨o1, o2, o3, o4, o5, o6, o7⟩ := tb.move.exact
    have z2 : fmax (va2.vel + b * va2.acc.getAcc) 0.0 = max (v4.vel + b * v2.acc.getAcc) (0 : ℝ) := by
      rw [q1, q2, m2]; simp only [fmax]; norm_num
    rw [z2] at o3
    obtain ⟨r1, r2⟩ := split_motion y0 ha hb m3 o3 n3 (by rw [← wvel, hvel]; exact hm)
    refine ⟨va4, tb.out, o1, o2, r1, ?_, o5, by rw [o6, q3]; rfl⟩
    rw [o4, q1, m4, n4]
    linarith
  have hmono : v4.pos ≤ w4.pos := by
    have v40 : 0 ≤ v4.vel := by rw [m3]; exact le_max_right _ _
    obtain ⟨r1, r2⟩ := split_motion y0 ha hb m3 rfl n3 (by rw [← wvel, hvel]; exact hm)
    have : 0 ≤ 0.5 * (v4.vel + max (v4.vel + b * v2.acc.getAcc) 0) * b := by
      have := le_max_right (v4.vel + b * v2.acc.getAcc) 0
      positivity
    rw [m4, n4]; linarith
  -- links keep their lengths
  have len4 : ∀ {i l}, a4.links.get? i = some l → ∃ l0, s.links.get? i = some l0 ∧ l.length = l0.length := by
    intro i l hl
    obtain ⟨l0, h0, e⟩ := ra.frame4.bwd hl
    exact ⟨l0, h0, by unfold Link.length; rw [e.curve]⟩
  have lent : ∀ {i l}, t4.links.get? i = some l → ∃ l0, s.links.get? i = some l0 ∧ l.length = l0.length := by
    intro i l hl
    obtain ⟨l0, h0, e⟩ := rt.frame4.bwd hl
    exact ⟨l0, h0, by unfold Link.length; rw [e.curve]⟩
  have lenb : ∀ {i l}, b4.links.get? i = some l → ∃ l0, s.links.get? i = some l0 ∧ l.length = l0.length := by
    intro i l hl
    obtain ⟨l1, h1, e⟩ := rb.frame4.bwd hl
    obtain ⟨l0, h0, e'⟩ := ra.frame.bwd h1
    exact ⟨l0, h0, by unfold Link.length; rw [e.curve, e'.curve]⟩
  have hroute : v4.route = w4.route := by rw [m1, n1]
  have hent : v4.entered = w4.entered := by rw [m6, n6]
  cases tt.out with
  | stays u hu hp hx =>
    rw [getVeh_ok.1 hw] at hu; cases hu
    obtain ⟨i, l, hi, hl, hle⟩ := hx
    obtain ⟨l0, hl0, el⟩ := lent hl
    cases ta.out with
    | stays va hva hpa _ =>
      obtain ⟨pa, da, la, ca, ea⟩ := hpa
      obtain ⟨u4, hout, o1, o2, o3, o4, o5, o6⟩ := second va hva (by rw [ea]) (by rw [ea]) (by rw [ea]; exact m7)
      have ep : u4.pos = w4.pos := by rw [o4, ea]; ring
      have no : ¬ ∃ v5, Passed b4.links u4 v5 := by
        rintro ⟨v5, hv5⟩
        obtain ⟨i', rest, l', pf, h1, h2, h3, -⟩ := hv5.ex
        obtain ⟨l0', hl0', el'⟩ := lenb h2
        have : w4.route = i' :: rest := by rw [← hroute, ← h1, o1, ea]
        rw [this] at hi; cases hi
        rw [hl0] at hl0'; cases hl0'
        rw [el'] at h3; rw [el] at hle; rw [ep] at h3
        exact hle h3
      cases hout with
      | stays u hu hpu _ =>
        obtain ⟨_, _, _, _, eu⟩ := hpu
        obtain ⟨_, _, _, _, ew⟩ := hp
        refine ⟨u, getVeh_ok.2 hu, ?_, ?_, ?_, ?_, ?_, ?_⟩
        · rw [eu, ew]; show u4.route = w4.route; rw [o1, ea]; exact hroute
        · rw [eu, ew]; exact ep
        · rw [eu, ew]; exact o3
        · rw [eu, ew]; show u4.acc = w4.acc; rw [o2, ea]; show v4.acc = _; rw [m2, n2]
        · rw [eu, ew]; show u4.entered = w4.entered; rw [o6, ea]; exact hent
        · rw [eu, ew]; show u4.laneChange = w4.laneChange
          rw [o5, ea, ep]; show uncompleted _ v4.laneChange = _
          rw [m5, n5, uncompleted_twice hmono]
      | passes v5 _ hp5 _ _ _ => exact absurd ⟨v5, hp5⟩ no
      | leaves v5 hp5 _ _ => exact absurd ⟨v5, hp5⟩ no
    | passes v5 _ hp5 _ _ _ =>
      obtain ⟨i', rest, l', pf, h1, h2, h3, -⟩ := hp5.ex
      obtain ⟨l0', hl0', el'⟩ := len4 h2
      rw [← hroute, h1] at hi; cases hi
      rw [hl0] at hl0'; cases hl0'
      rw [el'] at h3; rw [el] at hle
      exact absurd (h3.trans_le hmono) hle
    | leaves v5 hp5 _ _ =>
      obtain ⟨i', rest, l', pf, h1, h2, h3, -⟩ := hp5.ex
      obtain ⟨l0', hl0', el'⟩ := len4 h2
      rw [← hroute, h1] at hi; cases hi
      rw [hl0] at hl0'; cases hl0'
      rw [el'] at h3; rw [el] at hle
      exact absurd (h3.trans_le hmono) hle
  | leaves _ _ _ hu => rw [getVeh_ok.1 hw] at hu; cases hu
  | passes w5 u hp5 hne hu hp =>
    rw [getVeh_ok.1 hw] at hu; cases hu
    obtain ⟨i, rest, l, pf, hi, hl, hlt, ew5, -⟩ := hp5.ex
    obtain ⟨l0, hl0, el⟩ := lent hl
    obtain ⟨_, _, _, _, ew⟩ := hp
    have hrest : rest ≠ [] := by rw [ew5] at hne; exact hne
    have wroute : w.route = rest := by rw [ew, ew5]
    have wpos : w.pos = w4.pos - l.length := by rw [ew, ew5]
    have wacc : w.acc = w4.acc := by rw [ew, ew5]
    have went : w.entered = max (w4.entered - 1) 1 := by rw [ew, ew5]
    have wlc : w.laneChange = w4.laneChange.map fun lc => { endPos := lc.endPos - l.length, offset := lc.offset.translateX l.length } := by
      rw [ew, ew5]
    cases ta.out with
    | stays va hva hpa _ =>
      obtain ⟨pa, da, la, ca, ea⟩ := hpa
      obtain ⟨u4, hout, o1, o2, o3, o4, o5, o6⟩ := second va hva (by rw [ea]) (by rw [ea]) (by rw [ea]; exact m7)
      have ep : u4.pos = w4.pos := by rw [o4, ea]; ring
      have er : u4.route = i :: rest := by rw [o1, ea]; show v4.route = _; rw [hroute, hi]
      cases hout with
      | stays u hu hpu hx =>
        obtain ⟨i', l', hi', hl', hle⟩ := hx
        rw [er] at hi'; cases hi'
        obtain ⟨l0', hl0', el'⟩ := lenb hl'
        rw [hl0] at hl0'; cases hl0'
        rw [el', ep, ← el] at hle
        exact absurd hlt hle
      | passes u5 u hq _ hu hpu =>
        obtain ⟨i', rest', l', pf', hi', hl', -, eu5, -⟩ := hq.ex
        rw [er] at hi'; cases hi'
        obtain ⟨l0', hl0', el'⟩ := lenb hl'
        rw [hl0] at hl0'; cases hl0'
        have ell : l'.length = l.length := by rw [el', el]
        obtain ⟨_, _, _, _, eu⟩ := hpu
        refine ⟨u, getVeh_ok.2 hu, ?_, ?_, ?_, ?_, ?_, ?_⟩
        · rw [wroute, eu, eu5]
        · rw [wpos, eu, eu5]; show u4.pos - l'.length = _; rw [ell, ep]
        · rw [wvel, eu, eu5]; exact o3
        · rw [wacc, eu, eu5]; show u4.acc = w4.acc; rw [o2, ea]; show v4.acc = _; rw [m2, n2]
        · rw [went, eu, eu5]; show max (u4.entered - 1) 1 = _; rw [o6, ea]; show max (v4.entered - 1) 1 = _; rw [hent]
        · rw [wlc, eu, eu5, ell]; show Option.map _ u4.laneChange = _
          have : u4.laneChange = w4.laneChange := by
            rw [o5, ea, ep]; show uncompleted _ v4.laneChange = _
            rw [m5, n5, uncompleted_twice hmono]
          rw [this]
      | leaves u5 hq hnil _ =>
        obtain ⟨i', rest', l', pf', hi', -, -, eu5, -⟩ := hq.ex
        rw [er] at hi'; cases hi'
        rw [eu5] at hnil
        exact absurd hnil hrest
    | leaves v5 hq hnil _ =>
      obtain ⟨i', rest', l', pf', hi', -, -, eu5, -⟩ := hq.ex
      rw [hroute, hi] at hi'; cases hi'
      rw [eu5] at hnil
      exact absurd hnil hrest
    | passes v5 va hq _ hva hpa =>
      obtain ⟨i', rest', l', pf', hi', hl', -, e5, -⟩ := hq.ex
      rw [hroute, hi] at hi'; cases hi'
      obtain ⟨l0', hl0', el'⟩ := len4 hl'
      rw [hl0] at hl0'; cases hl0'
      have ell : l'.length = l.length := by rw [el', el]
      obtain ⟨_, _, _, _, ea⟩ := hpa
      have va_acc : va.acc = v4.acc := by rw [ea, e5]
      have va_route : va.route = rest := by rw [ea, e5]
      have va_pos : va.pos = v4.pos - l.length := by rw [ea, e5, ← ell]
      have va_ent : va.entered = max (v4.entered - 1) 1 := by rw [ea, e5]
      have va_lc : va.laneChange = v4.laneChange.map fun lc => { endPos := lc.endPos - l.length, offset := lc.offset.translateX l.length } := by
        rw [ea, e5, ← ell]
      obtain ⟨u4, hout, o1, o2, o3, o4, o5, o6⟩ := second va hva (by rw [ea, e5]) va_acc (by rw [ea, e5]; exact m7)
      have ep : u4.pos = w.pos := by rw [o4, va_pos, wpos]; ring
      have no : ¬ ∃ v5, Passed b4.links u4 v5 := by
        rintro ⟨u5, hu5⟩
        obtain ⟨i2, rest2, l2, pf2, h1, h2, h3, -⟩ := hu5.ex
        obtain ⟨l20, hl20, el2⟩ := lenb h2
        obtain ⟨l2', hl2', e⟩ := rt.frame.fwd _ _ hl20
        have := hin i2 l2' (by rw [Vehicle.linkId, wroute, ← va_route, ← o1, h1]; rfl) (getLink_ok.2 hl2')
        have e3 : l2'.length = l20.length := by unfold Link.length; rw [e.curve]
        rw [e3, ← el2, ← ep] at this
        exact absurd h3 (not_lt.2 this)
      cases hout with
      | stays u hu hpu _ =>
        obtain ⟨_, _, _, _, eu⟩ := hpu
        refine ⟨u, getVeh_ok.2 hu, ?_, ?_, ?_, ?_, ?_, ?_⟩
        · rw [wroute, eu]; show u4.route = _; rw [o1, va_route]
        · rw [eu]; exact ep
        · rw [wvel, eu]; exact o3
        · rw [wacc, eu]; show u4.acc = w4.acc; rw [o2, va_acc, m2, n2]
        · rw [went, eu]; show u4.entered = _; rw [o6, va_ent, hent]
        · rw [wlc, eu]; show u4.laneChange = _
          rw [o5, va_lc, ep, wpos, uncompleted_shift, m5, n5, uncompleted_twice hmono]
      | passes v5 _ hp5 _ _ _ => exact absurd ⟨v5, hp5⟩ no
      | leaves v5 hp5 _ _ => exact absurd ⟨v5, hp5⟩ no

end

end TrafficSim
