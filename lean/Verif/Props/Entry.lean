import Verif.Lemmas.Entry
import Verif.Lemmas.Corner
import Verif.Props.Traffic

/-! # Stop lines and queues -/

namespace TrafficSim

section
variable {F : Type} [Flt F] {strict : Prop} {s s' : Sim F} {op : Op F}

/-! ## Queue numbers -/

/-- The queue numbers in use are at most `seq` and differ from each other. -/
structure Queues (vs : VehicleSet F) (seq : Nat) : Prop where
  le : ∀ k v q, vs.get? k = some v → v.queued = some q → q ≤ seq
  inj : ∀ k k' v v' q, vs.get? k = some v → vs.get? k' = some v' → v.queued = some q → v'.queued = some q → k = k'

omit [Flt F] in
theorem Queues.back {vs vs' : VehicleSet F} {seq : Nat} (h : Queues vs seq)
    (hq : ∀ k v' q, vs'.get? k = some v' → v'.queued = some q → ∃ v, vs.get? k = some v ∧ v.queued = some q) :
    Queues vs' seq := by
  constructor
  · intro k v q hv hvq
    obtain ⟨u, hu, huq⟩ := hq k v q hv hvq
    exact h.le k u q hu huq
  · intro k k' v v' q hv hv' hvq hvq'
    obtain ⟨u, hu, huq⟩ := hq k v q hv hvq
    obtain ⟨u', hu', huq'⟩ := hq k' v' q hv' hvq'
    exact h.inj k k' u u' q hu hu' huq huq'

theorem Queues.move {dt : F} {p p' : VehicleSet F × Nat} {k : Key} (h : Queues p.1 p.2)
    (hi : Sim.integrateOne dt p k = .ok p') : Queues p'.1 p'.2 := by
  unfold Sim.integrateOne at hi
  simp only [M_bind_ok, getVeh_ok, M_pure_ok] at hi
  obtain ⟨v, hv, ⟨v', sq⟩, hi, rfl⟩ := hi
  dsimp only
  have key : p.2 ≤ sq ∧ ∀ q, v'.queued = some q → (v.queued = some q ∧ q ≤ p.2) ∨ (q = sq ∧ p.2 < sq) := by
    unfold Vehicle.integrate at hi
    rw [M_bind_ok] at hi
    obtain ⟨w, hw, hi⟩ := hi
    rw [M_pure_ok] at hi
    obtain ⟨h1, h2⟩ := Prod.mk.inj hi
    obtain ⟨pos, vel, lc, cnt, hf⟩ := integrateMotion_fields w.1 dt
    rw [← h1, ← h2, hf]
    dsimp only
    unfold Vehicle.integrateQueue at hw
    split at hw
    · simp only [M_pure_ok] at hw; subst hw
      exact ⟨le_rfl, fun q hq => .inl ⟨hq, h.le k v q hv hq⟩⟩
    · simp only [M_pure_ok] at hw; subst hw
      cases e : v.queued with
      | some f =>
        simp only [Option.getD_some]
        exact ⟨by omega, fun q hq => .inl ⟨hq, h.le k v q hv (e.trans hq)⟩⟩
      | none =>
        simp only [Option.getD_none]
        exact ⟨by omega, fun q hq => .inr ⟨(Option.some.inj hq).symm, by omega⟩⟩
    · simp only [M_pure_ok] at hw; subst hw
      exact ⟨le_rfl, nofun⟩
    · simp at hw
  obtain ⟨hle, hq⟩ := key
  have look : ∀ a u q, (p.1.modify k fun _ => v').get? a = some u → u.queued = some q →
      (∃ u0, p.1.get? a = some u0 ∧ u0.queued = some q ∧ q ≤ p.2) ∨ (a = k ∧ q = sq ∧ p.2 < sq) := by
    intro a u q hu huq
    rw [SlotMap.get?_modify] at hu
    split at hu
    · rename_i e; subst e
      rw [hv] at hu
      cases hu
      rcases hq q huq with ⟨h1, h2⟩ | h1
      · exact .inl ⟨v, hv, h1, h2⟩
      · exact .inr ⟨rfl, h1⟩
    · exact .inl ⟨u, hu, huq, h.le a u q hu huq⟩
  constructor
  · intro a u q hu huq
    rcases look a u q hu huq with ⟨-, -, -, h1⟩ | ⟨-, h1, -⟩
    · exact h1.trans hle
    · exact h1.le
  · intro a a' u u' q hu hu' huq huq'
    rcases look a u q hu huq with ⟨u0, h1, h2, h3⟩ | ⟨h1, h2, h3⟩ <;>
      rcases look a' u' q hu' huq' with ⟨u0', g1, g2, g3⟩ | ⟨g1, g2, g3⟩
    · exact h.inj a a' u0 u0' q h1 g1 h2 g2
    · omega
    · omega
    · rw [h1, g1]

theorem exec_seq [Env] [LawfulDijkstra] (hs : SimInv strict s) (h : s.exec op = .ok s') (hne : ∀ dt, op ≠ .step dt) :
    s'.seq = s.seq := by
  cases op with
  | addLink a =>
    simp only [Sim.exec, M_bind_ok, M_pure_ok] at h
    obtain ⟨⟨s1, k⟩, h, rfl⟩ := h
    rw [(addLink_ok hs.net.wf h).eq]
  | addLinkGroup ids m =>
    obtain ⟨g, lcs, h⟩ := addLinkGroup_ok hs.net h
    rw [h.eq]
  | addLinkConvergance a b =>
    rcases addLinkConvergance_ok hs.net h with rfl | ⟨c, la, lb, -, -, -, -, -, -, -, he⟩
    · rfl
    · rw [he]
  | addLinkConnection a b =>
    obtain ⟨-, -, -, he⟩ := addLinkConnection_ok h
    rw [he]
  | addTrafficLight tl =>
    simp only [Sim.exec, M_bind_ok, M_pure_ok] at h
    obtain ⟨⟨s1, k⟩, h, rfl⟩ := h
    rw [(addTrafficLight_ok hs.lwf h).eq]
  | addVehicle a l =>
    simp only [Sim.exec, M_bind_ok, M_pure_ok] at h
    obtain ⟨⟨s1, j⟩, h, rfl⟩ := h
    rw [(addVehicle_ok hs h).eq]
  | removeVehicle j => rw [((removeVehicle_spec (E := fun _ => True) hs j).ok h).eq]
  | randomiseVelocityAdjusts sd f => rw [(randomise_ok h).2]
  | setVehicleFrozen j b =>
    simp only [Sim.exec, M_pure_ok] at h
    subst h
    obtain ⟨f, e⟩ := setVehicleFrozen_eq s j b
    rw [e]
  | setVehicleDestination j d =>
    simp only [Sim.exec, Sim.setVehicleDestination, M_bind_ok, getVeh_ok, M_pure_ok] at h
    obtain ⟨v, hv, a, ha, b, hb, rfl⟩ := h
    rfl
  | setLinkControl j c => rw [(setLinkControl_ok h).2.2]
  | doLaneChange j l d =>
    simp only [Sim.exec, Sim.doLaneChange, M_bind_ok] at h
    obtain ⟨v, hv, h⟩ := h
    split at h <;>
    · simp only [M_bind_ok] at h
      obtain ⟨_, _, _, _, r, _, h⟩ := h
      cases r with
      | none => simp at h
      | some r =>
        obtain ⟨pos, off, sl⟩ := r
        simp only [M_bind_ok, M_pure_ok] at h
        obtain ⟨_, _, _, _, rfl⟩ := h
        rfl
  | step dt => exact absurd rfl (hne dt)

theorem Trace.queued [Env] {dt : F} {s1 s2 s3 s4 : Sim F} {k : Key} {v v1 v2 v4 v' : Vehicle F}
    (h : Trace s dt s1 s2 s3 s4 s' k v v1 v2 v4) (hv' : s'.vehicles.get? k = some v') : v'.queued = v4.queued := by
  cases h.out with
  | stays u hu hpl _ =>
    rw [hv'] at hu; cases hu
    obtain ⟨p, d, r, c, rfl⟩ := hpl; rfl
  | passes v5 u hpa _ hu hpl =>
    rw [hv'] at hu; cases hu
    obtain ⟨p, d, r, c, rfl⟩ := hpl
    obtain ⟨a, rest, l, pf, -, -, -, rfl, -⟩ := hpa.ex
    rfl
  | leaves _ _ _ hn => rw [hv'] at hn; cases hn

theorem StepRun.queues [Env] {dt : F} {s1 s2 s3 s4 s5 s6 : Sim F} (h : StepRun strict s dt s1 s2 s3 s4 s5 s6 s')
    (hq : Queues s.vehicles s.seq) : Queues s'.vehicles s'.seq := by
  have h3 : Queues s3.vehicles s3.seq := by
    rw [h.seq.2.1]
    refine hq.back fun k v2 q hv2 hv2q => ?_
    obtain ⟨v1, hv1, r2⟩ := h.vehs2.bwd hv2
    obtain ⟨v, hv, r1⟩ := h.vehs1.bwd hv1
    exact ⟨v, hv, by rw [← r1.same.2.2.1, ← r2.fields.2.2]; exact hv2q⟩
  have h4 : Queues s4.vehicles s4.seq :=
    (Spec.foldlM (E := fun _ => True) (I := fun p : VehicleSet F × Nat => Queues p.1 p.2)
      (fun p hp k _ => ⟨fun p' hp' => hp.move hp', fun _ _ => trivial⟩) h3).ok h.move.run
  rw [h.seq.2.2]
  refine h4.back fun k v' q hv' hv'q => ?_
  obtain ⟨v, hv⟩ := h.back hv'
  obtain ⟨v1, v2, v4, ht⟩ := h.trace hv
  exact ⟨v4, ht.get4, by rw [← ht.queued hv']; exact hv'q⟩

/-- In every reachable simulation the queue numbers are in order. -/
theorem Reach.queues [Env] [LawfulDijkstra] (h : Reach strict s) : Queues s.vehicles s.seq := by
  induction h with
  | new => exact ⟨nofun, nofun⟩
  | @exec s s' op hr ha he ih =>
    have hi := hr.inv
    by_cases hst : ∃ dt, op = .step dt
    · obtain ⟨dt, rfl⟩ := hst
      obtain ⟨s1, s2, s3, s4, s5, s6, h⟩ := (step_spec hi dt).ok he
      exact h.queues ih
    · have hne : ∀ dt, op ≠ .step dt := fun dt h => hst ⟨dt, h⟩
      rw [exec_seq hi he hne]
      refine ih.back fun k v' q hv' hq => ?_
      cases exec_origin hi he hv' with
      | added a link pf _ _ _ _ hp =>
        obtain ⟨p, d, r, c, rfl⟩ := hp
        cases hq
      | same h _ => exact ⟨v', h, hq⟩
      | adjusted v x h e _ => subst e; exact ⟨v, h, hq⟩
      | destined v pf dst h _ _ _ e => subst e; exact ⟨v, h, hq⟩
      | shifted v link d pos lc pf h _ _ _ e => subst e; exact ⟨v, h, hq⟩
      | stepped dt _ _ _ _ _ _ _ _ _ _ e => exact absurd e (hne dt)

/-- **C28** (unique) Two different vehicles never have the same queue number. -/
theorem C28_unique [Env] [LawfulDijkstra] (h : Reach strict s) {k k' : Key} {v v' : Vehicle F}
    (hv : s.getVehicle k = .ok v) (hv' : s.getVehicle k' = .ok v') (hk : k ≠ k') {q q' : Nat}
    (hq : v.queued = some q) (hq' : v'.queued = some q') : q ≠ q' := by
  rintro rfl
  exact hk (h.queues.inj k k' v v' q (getVeh_ok.1 hv) (getVeh_ok.1 hv') hq hq')

/-- **C28** (order) The queue number of a vehicle only changes in a step, in which it may be given up; a
vehicle that gets a new number gets one that is larger than the number of every vehicle that was queued
before. -/
theorem C28_order [Env] [LawfulDijkstra] (h : Reach strict s) (he : s.exec op = .ok s') {k : Key} {v' : Vehicle F}
    (hv' : s'.getVehicle k = .ok v') {q : Nat} (hq : v'.queued = some q) :
    (∃ v, s.getVehicle k = .ok v ∧ v.queued = some q) ∨
      ((∃ dt, op = .step dt) ∧ (∃ v, s.getVehicle k = .ok v ∧ v.queued = none) ∧
        ∀ j w r, s.getVehicle j = .ok w → w.queued = some r → r < q) := by
  have hi := h.inv
  cases exec_origin hi he (getVeh_ok.1 hv') with
  | added a link pf _ _ _ _ hp =>
    obtain ⟨p, d, r, c, rfl⟩ := hp
    cases hq
  | same h _ => exact .inl ⟨v', getVeh_ok.2 h, hq⟩
  | adjusted v x h e _ => subst e; exact .inl ⟨v, getVeh_ok.2 h, hq⟩
  | destined v pf dst h _ _ _ e => subst e; exact .inl ⟨v, getVeh_ok.2 h, hq⟩
  | shifted v link d pos lc pf h _ _ _ e => subst e; exact .inl ⟨v, getVeh_ok.2 h, hq⟩
  | stepped dt s1 s2 s3 s4 s5 s6 v v1 v2 v4 e hr hv ht =>
    rw [ht.queued (getVeh_ok.1 hv')] at hq
    have e1 : v2.queued = v.queued := ht.acc.fields.2.2.trans ht.steer.same.2.2.1
    rcases ht.move.cases.2 with ⟨-, -, h1⟩ | ⟨-, -, sq, hsq, h1⟩ | ⟨-, -, h1⟩
    · exact .inl ⟨v, getVeh_ok.2 hv, by rw [← e1, ← h1]; exact hq⟩
    · rw [h1, e1] at hq
      cases hvq : v.queued with
      | some f =>
        rw [hvq] at hq
        exact .inl ⟨v, getVeh_ok.2 hv, hvq.trans hq⟩
      | none =>
        rw [hvq] at hq
        cases hq
        refine .inr ⟨⟨dt, e⟩, ⟨v, getVeh_ok.2 hv, hvq⟩, fun j w r hw hr' => ?_⟩
        have := h.queues.le j w r (getVeh_ok.1 hw) hr'
        rw [hr.seq.2.1] at hsq
        exact lt_of_le_of_lt this hsq
    · rw [h1] at hq; cases hq

/-! ## Admissions -/

omit [Flt F] in
theorem matchedPrefix_get : ∀ (a b : List Key) (i : Nat), i < Vehicle.matchedPrefix a b → a[i]? = b[i]?
  | [], _, i, h => by simp [Vehicle.matchedPrefix] at h
  | _ :: _, [], i, h => by simp [Vehicle.matchedPrefix] at h
  | x :: a, y :: b, i, h => by
    unfold Vehicle.matchedPrefix at h
    split at h
    · rename_i e
      cases i with
      | zero => simp [e]
      | succ i =>
        rw [List.getElem?_cons_succ, List.getElem?_cons_succ]
        exact matchedPrefix_get a b i (by omega)
    · omega

/-- A link that is marked as entered, ahead of the vehicle's own link. -/
def Vehicle.Claims (v : Vehicle F) (j : Key) : Prop := ∃ i, 0 < i ∧ i < v.entered ∧ v.route[i]? = some j

theorem Steered.claims {links : LinkSet F} {v v1 : Vehicle F} (h : Steered links v v1) {j : Key} (hj : v1.Claims j) :
    v.Claims j := by
  obtain ⟨i, h0, h1, h2⟩ := hj
  rcases h with (rfl | ⟨p, -, -, rfl⟩) | ⟨p, -, -, hs⟩
  · exact ⟨i, h0, h1, h2⟩
  · simp only [Vehicle.setPath] at h1 h2
    exact ⟨i, h0, by omega, by rw [matchedPrefix_get v.route p.links i (by omega)]; exact h2⟩
  · obtain ⟨link, pos, lc, pf, -, rfl, -⟩ := hs.ex
    dsimp only at h1
    omega

theorem Trace.claims [Env] {dt : F} {s1 s2 s3 s4 : Sim F} {k : Key} {v v1 v2 v4 v' : Vehicle F}
    (h : Trace s dt s1 s2 s3 s4 s' k v v1 v2 v4) (hv' : s'.vehicles.get? k = some v') {j : Key} (hj : v'.Claims j) :
    v4.Claims j := by
  obtain ⟨i, h0, h1, h2⟩ := hj
  cases h.out with
  | stays u hu hpl _ =>
    rw [hv'] at hu; cases hu
    obtain ⟨p, d, r, c, rfl⟩ := hpl
    exact ⟨i, h0, h1, h2⟩
  | passes v5 u hpa _ hu hpl =>
    rw [hv'] at hu; cases hu
    obtain ⟨p, d, r, c, rfl⟩ := hpl
    obtain ⟨a, rest, l, pf, hr, -, -, rfl, -⟩ := hpa.ex
    dsimp only at h1 h2
    exact ⟨i + 1, by omega, by omega, by rw [hr, List.getElem?_cons_succ]; exact h2⟩
  | leaves _ _ _ hn => rw [hv'] at hn; cases hn

/-- A link that a step marks as entered, ahead of the vehicle, is one to which it was admitted. -/
theorem Trace.admitted [Env] {dt : F} {s1 s2 s3 s4 s5 s6 : Sim F} (hr : StepRun strict s dt s1 s2 s3 s4 s5 s6 s')
    (hL : LongLinks s.links) {k : Key} {v v1 v2 v4 v' : Vehicle F} (h : Trace s dt s1 s2 s3 s4 s' k v v1 v2 v4)
    (hv' : s'.vehicles.get? k = some v') {j : Key} (hj : v'.Claims j) (hn : ¬ v.Claims j) :
    v1.route[v1.entered]? = some j ∧ Admission s1.links s1.vehicles k v1 2 := by
  obtain ⟨i, h0, h1, h2⟩ := h.claims hv' hj
  obtain ⟨e, he⟩ := h.entry hr hL
  rw [e] at h2
  have hold : ¬ i < v1.entered := fun hlt => hn (h.steer.claims ⟨i, h0, hlt, h2⟩)
  cases he with
  | keeps h3 _ => omega
  | queues sq _ _ h3 => omega
  | enters _ ha h3 _ =>
    have : i = v1.entered := by omega
    exact ⟨by rw [← this]; exact h2, ha⟩

theorem exec_claims [Env] [LawfulDijkstra] (hs : SimInv strict s) (he : s.exec op = .ok s') (hne : ∀ dt, op ≠ .step dt)
    {k : Key} {v' : Vehicle F} (hv' : s'.vehicles.get? k = some v') {j : Key} (hj : v'.Claims j) :
    ∃ v, s.vehicles.get? k = some v ∧ v.Claims j := by
  cases exec_origin hs he hv' with
  | added a link pf _ _ _ _ hp =>
    obtain ⟨p, d, r, c, rfl⟩ := hp
    obtain ⟨i, h0, h1, h2⟩ := hj
    dsimp only at h1
    omega
  | same h _ => exact ⟨v', h, hj⟩
  | adjusted v x h e _ => subst e; exact ⟨v, h, hj⟩
  | destined v pf dst h _ _ _ e => subst e; exact ⟨v, h, hj⟩
  | shifted v link d pos lc pf h _ _ _ e =>
    subst e
    obtain ⟨i, h0, h1, h2⟩ := hj
    dsimp only at h1
    omega
  | stepped dt _ _ _ _ _ _ _ _ _ _ e => exact absurd e (hne dt)

/-- **C25 (partly).** A link that is newly marked as entered by a vehicle, and that the vehicle has not
reached yet, was not closed.  Full statement: every link newly marked as entered was not closed.  That is
false, see `C25_overrun`: a vehicle that drives over the line marks its new link as entered, whatever its
control.  `LongLinks` rules out links so short that adding their length has no effect; with positive
lengths it holds in exact arithmetic, see `C25_exact_partial`. -/
theorem C25_partial [Env] [LawfulDijkstra] (h : Reach strict s) (hL : LongLinks s.links) (he : s.exec op = .ok s')
    {k : Key} {v' : Vehicle F} (hv' : s'.getVehicle k = .ok v') {i : Nat} {j : Key} (h0 : 0 < i) (hi : i < v'.entered)
    (hj : v'.route[i]? = some j) :
    (∃ v i0, s.getVehicle k = .ok v ∧ 0 < i0 ∧ i0 < v.entered ∧ v.route[i0]? = some j) ∨
      ∃ l, s.getLinkRef j = .ok l ∧ l.control ≠ .closed := by
  have hs := h.inv
  have hc : v'.Claims j := ⟨i, h0, hi, hj⟩
  by_cases hst : ∃ dt, op = .step dt
  · obtain ⟨dt, rfl⟩ := hst
    obtain ⟨s1, s2, s3, s4, s5, s6, hr⟩ := (step_spec hs dt).ok he
    obtain ⟨v, hv⟩ := hr.back (getVeh_ok.1 hv')
    obtain ⟨v1, v2, v4, ht⟩ := hr.trace hv
    by_cases hn : v.Claims j
    · obtain ⟨i0, a, b, c⟩ := hn
      exact .inl ⟨v, i0, getVeh_ok.2 hv, a, b, c⟩
    · obtain ⟨e, ha⟩ := ht.admitted hr hL (getVeh_ok.1 hv') hc hn
      have key : ∃ next, s1.links.get? j = some next ∧ next.control ≠ .closed := by
        cases ha with
        | open_ hl hctl =>
          have := hl.route
          rw [e] at this; cases this
          exact ⟨_, hl.link, by rw [hctl]; nofun⟩
        | yield_ hl hctl =>
          have := hl.route
          rw [e] at this; cases this
          exact ⟨_, hl.link, by rw [hctl]; nofun⟩
      obtain ⟨next, hn, hctl⟩ := key
      obtain ⟨l, hl, el⟩ := hr.frame1.bwd hn
      rw [el] at hctl
      exact .inr ⟨l, getLink_ok.2 hl, hctl⟩
  · obtain ⟨v, hv, i0, a, b, c⟩ := exec_claims hs he (fun dt h => hst ⟨dt, h⟩) (getVeh_ok.1 hv') hc
    exact .inl ⟨v, i0, getVeh_ok.2 hv, a, b, c⟩

/-- **C27** (admission, partly).  A vehicle that is newly admitted in a step to a link whose control asks it to
give way was queued before the step.  Full statement: it was queued for that link, and it queued while
it had stopped if the control says so.  That is false, see `C27_stale`: the queue number survives a
change of the route.  What is true of the moment when it queued is `C27_queues`. -/
theorem C27_admission_partial [Env] [LawfulDijkstra] {dt : F} (h : Reach strict s) (hL : LongLinks s.links)
    (he : s.step dt = .ok s') {k : Key} {v v' : Vehicle F} (hv : s.getVehicle k = .ok v) (hv' : s'.getVehicle k = .ok v')
    {i : Nat} {j : Key} (h0 : 0 < i) (hi : i < v'.entered) (hj : v'.route[i]? = some j)
    (hnew : ∀ i0, 0 < i0 → i0 < v.entered → v.route[i0]? ≠ some j) {l : Link F} (hl : s.getLinkRef j = .ok l) {d : F}
    {m : Bool} {p : Int} (hc : l.control = .yield_ d m p) :
    (∃ q, v.queued = some q) ∧ v'.queued = none := by
  have hs := h.inv
  obtain ⟨s1, s2, s3, s4, s5, s6, hr⟩ := (step_spec hs dt).ok he
  obtain ⟨v1, v2, v4, ht⟩ := hr.trace (getVeh_ok.1 hv)
  have hcl : v'.Claims j := ⟨i, h0, hi, hj⟩
  have hn : ¬ v.Claims j := fun ⟨i0, a, b, c⟩ => hnew i0 a b c
  obtain ⟨e, ha⟩ := ht.admitted hr hL (getVeh_ok.1 hv') hcl hn
  obtain ⟨l1, hl1, el1⟩ := hr.frame1.fwd j l (getLink_ok.1 hl)
  constructor
  · cases ha with
    | open_ hx hctl =>
      have := hx.route
      rw [e] at this; cases this
      have := hx.link
      rw [hl1] at this; cases this
      rw [el1] at hctl
      dsimp only at hctl
      rw [hc] at hctl; cases hctl
    | yield_ hx hctl hq => exact ⟨_, by rw [← ht.steer.same.2.2.1]; exact hq⟩
  · rw [ht.queued (getVeh_ok.1 hv')]
    obtain ⟨i4, a0, a1, a2⟩ := ht.claims (getVeh_ok.1 hv') hcl
    obtain ⟨e', he'⟩ := ht.entry hr hL
    rw [e'] at a2
    have hold : ¬ i4 < v1.entered := fun hlt => hn (ht.steer.claims ⟨i4, a0, hlt, a2⟩)
    cases he' with
    | keeps h3 _ => omega
    | queues sq _ _ h3 => omega
    | enters _ ha h3 h4 => exact h4

/-- **C27** (queueing) A vehicle gets a queue number only if the control of the next link that it has not
entered asks it to give way, it is within the distance that the control demands of the line, and it has
stopped if the control says that vehicles must stop.  The distance of the line from the start of the
vehicle's link is that of a way with the right number of links. -/
theorem C27_queues [Env] [LawfulDijkstra] {dt : F} (h : Reach strict s) (hL : LongLinks s.links)
    (he : s.step dt = .ok s') {k : Key} {v v' : Vehicle F} (hv : s.getVehicle k = .ok v) (hv' : s'.getVehicle k = .ok v')
    {q : Nat} (hq : v.queued = none) (hq' : v'.queued = some q) :
    ∃ s1 v1 j l d m pr, s.calculateLaneChanges = .ok s1 ∧ s1.getVehicle k = .ok v1 ∧
      v1.route[v1.entered]? = some j ∧ s.getLinkRef j = .ok l ∧ l.control = .yield_ d m pr ∧
      (m = true → v.vel < 0.1) ∧
      ∃ i a lk llk p, i + 1 = v1.entered ∧ v1.linkId = some a ∧ v1.route[i]? = some lk ∧ s.getLinkRef lk = .ok llk ∧
        Upstream s.links lk llk.length i a p ∧ -d < v1.posFront - p := by
  have hs := h.inv
  obtain ⟨s1, s2, s3, s4, s5, s6, hr⟩ := (step_spec hs dt).ok he
  obtain ⟨v1, v2, v4, ht⟩ := hr.trace (getVeh_ok.1 hv)
  rw [ht.queued (getVeh_ok.1 hv')] at hq'
  obtain ⟨-, he'⟩ := ht.entry hr hL
  have e1 := ht.steer.same
  rw [← e1.2.2.1] at hq
  cases he' with
  | keeps _ h4 => rw [h4, hq] at hq'; cases hq'
  | enters _ _ _ h4 => rw [h4] at hq'; cases hq'
  | queues sq _ ha _ _ _ _ =>
    cases ha with
    | @queue _ _ _ _ d m pr hx hctl _ hd hm =>
      obtain ⟨l, hl, el⟩ := hr.frame1.bwd hx.link
      obtain ⟨i, llk, a, hi, hlk, hu, hri, hh⟩ := hx.ex
      obtain ⟨llk0, hlk0, elk⟩ := hr.frame1.bwd hlk
      have hu' := hu.back hr.frame1.frame
      refine ⟨s1, v1, _, l, d, m, pr, hr.run1, getVeh_ok.2 ht.get1, hx.route, getLink_ok.2 hl, ?_, ?_, i, a, _, llk0, _, hi,
        hh, hri, getLink_ok.2 hlk0, ?_, hd⟩
      · rw [el] at hctl; exact hctl
      · rw [← e1.1]; exact hm
      · rw [elk] at hu'; exact hu'

/-- **C63.** A vehicle is admitted to an open link only when it can no longer stop comfortably (with
2.5 m to spare) five metres before the line. -/
theorem C63_open [Env] [LawfulDijkstra] {dt : F} (h : Reach strict s) (hL : LongLinks s.links)
    (he : s.step dt = .ok s') {k : Key} {v v' : Vehicle F} (hv : s.getVehicle k = .ok v) (hv' : s'.getVehicle k = .ok v')
    {i : Nat} {j : Key} (h0 : 0 < i) (hi : i < v'.entered) (hj : v'.route[i]? = some j)
    (hnew : ∀ i0, 0 < i0 → i0 < v.entered → v.route[i0]? ≠ some j) {l : Link F} (hl : s.getLinkRef j = .ok l)
    (hc : l.control = .open_) :
    ∃ s1 v1, s.calculateLaneChanges = .ok s1 ∧ s1.getVehicle k = .ok v1 ∧ v1.route[v1.entered]? = some j ∧
      ∃ i a lk llk p, i + 1 = v1.entered ∧ v1.linkId = some a ∧ v1.route[i]? = some lk ∧ s.getLinkRef lk = .ok llk ∧
        Upstream s.links lk llk.length i a p ∧
        ¬ (0.5 * v.vel * (v.vel / v.acc.comfDec) + 2.5 ≤ p + -5.0 - v1.posFront) := by
  have hs := h.inv
  obtain ⟨s1, s2, s3, s4, s5, s6, hr⟩ := (step_spec hs dt).ok he
  obtain ⟨v1, v2, v4, ht⟩ := hr.trace (getVeh_ok.1 hv)
  have hcl : v'.Claims j := ⟨i, h0, hi, hj⟩
  have hn : ¬ v.Claims j := fun ⟨i0, a, b, c⟩ => hnew i0 a b c
  obtain ⟨e, ha⟩ := ht.admitted hr hL (getVeh_ok.1 hv') hcl hn
  obtain ⟨l1, hl1, el1⟩ := hr.frame1.fwd j l (getLink_ok.1 hl)
  have e1 := ht.steer.same
  refine ⟨s1, v1, hr.run1, getVeh_ok.2 ht.get1, e, ?_⟩
  cases ha with
  | yield_ hx hctl =>
    have := hx.route
    rw [e] at this; cases this
    have := hx.link
    rw [hl1] at this; cases this
    rw [el1] at hctl
    dsimp only at hctl
    rw [hc] at hctl; cases hctl
  | open_ hx hctl hcs =>
    obtain ⟨i, llk, a, hi, hlk, hu, hri, hh⟩ := hx.ex
    obtain ⟨llk0, hlk0, elk⟩ := hr.frame1.bwd hlk
    have hu' := hu.back hr.frame1.frame
    refine ⟨i, a, _, llk0, _, hi, hh, hri, getLink_ok.2 hlk0, by rw [elk] at hu'; exact hu', ?_⟩
    unfold Vehicle.canStop Vehicle.stoppingDistance at hcs
    rw [e1.1, e1.2.1] at hcs
    exact of_decide_eq_false hcs

end

/-- **C25 (partly)** in exact arithmetic, where it suffices that all links have positive lengths. -/
theorem C25_exact_partial [Env] [LawfulDijkstra] {strict : Prop} {s s' : Sim ℝ} {op : Op ℝ} (h : Reach strict s)
    (hpos : ∀ k l, s.getLinkRef k = .ok l → 0 < l.length) (he : s.exec op = .ok s') {k : Key} {v' : Vehicle ℝ}
    (hv' : s'.getVehicle k = .ok v') {i : Nat} {j : Key} (h0 : 0 < i) (hi : i < v'.entered)
    (hj : v'.route[i]? = some j) :
    (∃ v i0, s.getVehicle k = .ok v ∧ 0 < i0 ∧ i0 < v.entered ∧ v.route[i0]? = some j) ∨
      ∃ l, s.getLinkRef j = .ok l ∧ l.control ≠ .closed :=
  C25_partial h (longLinks_real fun k l hl => hpos k l (getLink_ok.2 hl)) he hv' h0 hi hj

/-! ## Examples and counterexamples -/

section
attribute [local instance] Town.env

theorem Corner.isAt_ok {s : Sim Float} {route : List Key} {e : Nat} {q : Option Nat} (h : Corner.isAt s route e q = true) :
    ∃ v, s.getVehicle ⟨0, 1⟩ = .ok v ∧ v.route = route ∧ v.entered = e ∧ v.queued = q ∧ 0.1 ≤ v.vel := by
  unfold Corner.isAt at h
  split at h
  · rename_i v hv
    simp only [Bool.and_eq_true, beq_iff_eq, decide_eq_true_eq] at h
    obtain ⟨⟨⟨h1, h2⟩, h3⟩, h4⟩ := h
    exact ⟨v, getVeh_ok.2 hv, h1, h2, h3, h4⟩
  · cases h

theorem Corner.control_ok {s : Sim Float} {k : Key} {n : Nat} (h : Corner.control s k = n) (hn : n < 4) :
    ∃ l, s.getLinkRef k = .ok l ∧ (n = 0 → l.control = .open_) ∧ (n = 1 → ∃ d p, l.control = .yield_ d false p) ∧
      (n = 2 → ∃ d p, l.control = .yield_ d true p) ∧ (n = 3 → l.control = .closed) := by
  unfold Corner.control at h
  split at h
  · rename_i l hl
    refine ⟨l, getLink_ok.2 hl, ?_⟩
    split at h
    · rename_i e; subst h; simp [e]
    · rename_i d m p e
      rw [e]
      cases m
      · simp at h; subst h; simp
      · simp at h; subst h; simp
    · rename_i e; subst h; simp [e]
  · omega

/-- **C25 is false of the code.** A car that is too fast to stop drives on to a closed link, which is
thereby marked as entered. -/
theorem C25_overrun : ∃ (s s' : Sim Float) (v v' : Vehicle Float) (k j : Key) (l : Link Float), Reach True s ∧
    s.step 3.3 = .ok s' ∧ s.getVehicle k = .ok v ∧ s'.getVehicle k = .ok v' ∧ j ∉ v.route ∧
    v'.route[0]? = some j ∧ 0 < v'.entered ∧ s.getLinkRef j = .ok l ∧ l.control = .closed := by
  obtain ⟨s, s', h1, -, h2, -, h4⟩ := Corner.overrun
  unfold Corner.closedTest at h4
  simp only [Bool.and_eq_true, beq_iff_eq] at h4
  obtain ⟨⟨⟨-, a1⟩, a2⟩, a3⟩ := h4
  obtain ⟨l, hl, -, -, -, hc⟩ := Corner.control_ok a1 (by decide)
  obtain ⟨v, hv, hr, -⟩ := Corner.isAt_ok a2
  split at a3
  · rename_i v' hv'
    simp only [Bool.and_eq_true, beq_iff_eq] at a3
    exact ⟨s, s', v, v', ⟨0, 1⟩, ⟨1, 1⟩, l, h1, h2, hv, getVeh_ok.2 hv', by rw [hr]; decide, by rw [a3.1]; rfl,
      by omega, hl, hc rfl⟩
  · cases a3

/-- **C27 is false of the code.** A car queues for one link, where it need not stop, gets another
destination, and is admitted to a link where it must stop; it moves at 0.1 m/s or more all the time. -/
theorem C27_stale : ∃ (s0 s1 s2 s3 : Sim Float) (v0 v1 v2 v3 : Vehicle Float) (k a b c : Key) (l : Link Float) (d : Float)
    (p : Int), Reach True s0 ∧ s0.step 0.3 = .ok s1 ∧ s1.setVehicleDestination k c = .ok s2 ∧ s2.step 0.3 = .ok s3 ∧
    s0.getVehicle k = .ok v0 ∧ s1.getVehicle k = .ok v1 ∧ s2.getVehicle k = .ok v2 ∧ s3.getVehicle k = .ok v3 ∧
    0.1 ≤ v0.vel ∧ 0.1 ≤ v1.vel ∧ 0.1 ≤ v2.vel ∧ 0.1 ≤ v3.vel ∧
    v0.route = [a] ∧ v0.queued = none ∧ v1.route = [a, b] ∧ v2.route = [a, b] ∧ b ≠ c ∧
    v3.route = [a, c] ∧ v3.entered = 2 ∧ s2.getLinkRef c = .ok l ∧ l.control = .yield_ d true p := by
  obtain ⟨s, s', h1, -, h2, -, h4⟩ := Corner.stale
  unfold Corner.staleTest at h4
  simp only [Bool.and_eq_true] at h4
  obtain ⟨⟨a1, a2⟩, a3⟩ := h4
  split at a3
  · rename_i s2 h5
    simp only [Bool.and_eq_true, beq_iff_eq] at a3
    obtain ⟨⟨a3, a4⟩, a5⟩ := a3
    split at a5
    · rename_i s3 h6
      obtain ⟨v0, b1, b2, b3, b4, b5⟩ := Corner.isAt_ok a1
      obtain ⟨v1, c1, c2, c3, c4, c5⟩ := Corner.isAt_ok a2
      obtain ⟨v2, d1, d2, d3, d4, d5⟩ := Corner.isAt_ok a3
      obtain ⟨v3, e1, e2, e3, e4, e5⟩ := Corner.isAt_ok a5
      obtain ⟨l, hl, -, -, hc, -⟩ := Corner.control_ok a4 (by decide)
      obtain ⟨d, p, hc⟩ := hc rfl
      exact ⟨s, s', s2, s3, v0, v1, v2, v3, ⟨0, 1⟩, ⟨0, 1⟩, ⟨1, 1⟩, ⟨2, 1⟩, l, d, p, h1, h2, h5, h6, b1, c1, d1, e1,
        b5, c5, d5, e5, b2, b4, c2, d2, by decide, e2, e3, hl, hc⟩
    · cases a5
  · cases a3

/-- `C25_partial` and `C63_open` apply to a car that is admitted to an open link. -/
example : ∃ (s s' : Sim Float) (v v' : Vehicle Float) (l : Link Float), Reach True s ∧ LongLinks s.links ∧ s.step 0.3 = .ok s' ∧
    s.getVehicle ⟨0, 1⟩ = .ok v ∧ s'.getVehicle ⟨0, 1⟩ = .ok v' ∧ 1 < v'.entered ∧ v'.route[1]? = some ⟨1, 1⟩ ∧
    v.entered = 1 ∧ s.getLinkRef ⟨1, 1⟩ = .ok l ∧ l.control = .open_ := by
  obtain ⟨s, s', h1, -, h2, -, h4⟩ := Corner.open_
  unfold Corner.openTest at h4
  simp only [Bool.and_eq_true, beq_iff_eq] at h4
  obtain ⟨⟨⟨a0, a1⟩, a2⟩, a3⟩ := h4
  obtain ⟨l, hl, hc, -⟩ := Corner.control_ok a1 (by decide)
  obtain ⟨v, b1, b2, b3, b4, b5⟩ := Corner.isAt_ok a2
  obtain ⟨v', c1, c2, c3, c4, c5⟩ := Corner.isAt_ok a3
  exact ⟨s, s', v, v', l, h1, shortNet_long a0, h2, b1, c1, by omega, by rw [c2]; rfl, b3, hl, hc rfl⟩

/-- `C27_admission_partial` applies to a car that is admitted to the link for which it queued. -/
example : ∃ (s s' : Sim Float) (v v' : Vehicle Float) (l : Link Float) (d : Float) (p : Int), Reach True s ∧ LongLinks s.links ∧
    s.step 0.3 = .ok s' ∧ s.getVehicle ⟨0, 1⟩ = .ok v ∧ s'.getVehicle ⟨0, 1⟩ = .ok v' ∧ 1 < v'.entered ∧
    v'.route[1]? = some ⟨1, 1⟩ ∧ v.entered = 1 ∧ s.getLinkRef ⟨1, 1⟩ = .ok l ∧ l.control = .yield_ d false p := by
  obtain ⟨s, s', h1, -, h2, -, h4⟩ := Corner.yields
  unfold Corner.yieldTest at h4
  simp only [Bool.and_eq_true, beq_iff_eq] at h4
  obtain ⟨⟨⟨a0, a1⟩, a2⟩, a3⟩ := h4
  obtain ⟨l, hl, -, hc, -⟩ := Corner.control_ok a1 (by decide)
  obtain ⟨d, p, hc⟩ := hc rfl
  obtain ⟨v, b1, b2, b3, b4, b5⟩ := Corner.isAt_ok a2
  obtain ⟨v', c1, c2, c3, c4, c5⟩ := Corner.isAt_ok a3
  exact ⟨s, s', v, v', l, d, p, h1, shortNet_long a0, h2, b1, c1, by omega, by rw [c2]; rfl, b3, hl, hc⟩

/-- `C27_queues` applies to a car that queues. -/
example : ∃ (s s' : Sim Float) (v v' : Vehicle Float), Reach True s ∧ LongLinks s.links ∧
    s.step 0.3 = .ok s' ∧ s.getVehicle ⟨0, 1⟩ = .ok v ∧ s'.getVehicle ⟨0, 1⟩ = .ok v' ∧ v.queued = none ∧
    v'.queued = some 1 := by
  obtain ⟨s, s', h1, -, h2, -, h4⟩ := Corner.queue
  unfold Corner.queueTest at h4
  simp only [Bool.and_eq_true] at h4
  obtain ⟨⟨a0, a2⟩, a3⟩ := h4
  obtain ⟨v, b1, b2, b3, b4, b5⟩ := Corner.isAt_ok a2
  obtain ⟨v', c1, c2, c3, c4, c5⟩ := Corner.isAt_ok a3
  exact ⟨s, s', v, v', h1, shortNet_long a0, h2, b1, c1, b4, c4⟩

/-- `C28_unique` and `C28_order` apply to two cars that queue for the same link. -/
example : ∃ (s s' : Sim Float) (v v' : Vehicle Float), Reach True s ∧ s.exec (.step 0.3) = .ok s' ∧ Reach True s' ∧
    s'.getVehicle ⟨0, 1⟩ = .ok v ∧ s'.getVehicle ⟨1, 1⟩ = .ok v' ∧ v.queued = some 1 ∧ v'.queued = some 2 := by
  obtain ⟨s, s', h1, -, h2, h3, h4⟩ := Corner.merge_queues
  simp only [Corner.mergeTest, Corner.queuedAt, Bool.and_eq_true, beq_iff_eq, Option.map_eq_some_iff] at h4
  obtain ⟨⟨-, v, hv, e⟩, v', hv', e'⟩ := h4
  exact ⟨s, s', v, v', h1, h2, h3, getVeh_ok.2 hv, getVeh_ok.2 hv', e, e'⟩

end

end TrafficSim
