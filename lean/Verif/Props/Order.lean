import Verif.Props.Roads

/-! # C100: links list their vehicles in the order in which they are on them -/

namespace TrafficSim

section
variable {strict : Prop} {s s' s1 s2 s3 s4 s5 s6 : Sim ℝ} {dt : ℝ} {k j : Key} {v v1 v2 v4 u : Vehicle ℝ}

/-- Every link lists its vehicles in the order of their positions, rearmost first. -/
def Lined (s : Sim ℝ) : Prop := ∀ a l, s.links.get? a = some l → Ordered s.vehicles l.vehicles

theorem ordered_of {vs vs' : VehicleSet ℝ} {ks : List Key} (h : ∀ x ∈ ks, ∀ v', vs'.get? x = some v' → ∃ v, vs.get? x = some v ∧ v'.pos = v.pos)
    (ho : Ordered vs ks) : Ordered vs' ks := by
  refine List.Pairwise.imp_of_mem ?_ ho
  intro a b ha hb hab va vb hva hvb
  obtain ⟨wa, ga, ea⟩ := h a ha va hva
  obtain ⟨wb, gb, eb⟩ := h b hb vb hvb
  rw [ea, eb]
  exact hab wa wb ga gb

theorem Lined.same (h : Lined s) (hl : SRel (fun _ l l' => l'.vehicles = l.vehicles) s.links s'.links)
    (hv : SRel (fun _ v v' => v'.pos = v.pos) s.vehicles s'.vehicles) : Lined s' := by
  intro a l' hl'
  obtain ⟨l, hl, e⟩ := hl.bwd hl'
  rw [e]
  refine ordered_of (fun x _ v' hv' => ?_) (h a l hl)
  obtain ⟨v, hv, e⟩ := hv.bwd hv'
  exact ⟨v, hv, e⟩

theorem removed_sublist (l : Link ℝ) (k : Key) : (l.removeVehicle k).vehicles.Sublist l.vehicles := by
  have := (List.erase_sublist (a := k) (l := l.vehicles.reverse)).reverse
  simpa [Link.removeVehicle] using this

/-- The order after a vehicle that was taken from its link has been put on another. -/
theorem shift_lined [Env] {id link : Key} {pos : ℝ} {lc : Option (LaneChange ℝ)} {links links' : LinkSet ℝ} {l : Link ℝ} {w : Vehicle ℝ}
    (hv : s.vehicles.get? id = some v) (hM : MemberBut (fun j => j = id) links s.vehicles)
    (hO : ∀ a l, links.get? a = some l → Ordered s.vehicles l.vehicles) (hl : getLink links link = .ok l)
    (hw : v.setLocation link pos lc links = .ok w)
    (hins : Sim.insertOnLink links (s.vehicles.modify id fun _ => w) link id = .ok links')
    (h : s' = { s with links := links', vehicles := s.vehicles.modify id fun _ => w }) :
    Member s'.links s'.vehicles ∧ Lined s' ∧ ∃ v, s'.vehicles.get? id = some v ∧ v.linkId = some link := by
  subst h
  unfold Vehicle.setLocation at hw
  simp only [M_bind_ok, M_pure_ok] at hw
  obtain ⟨pf, -, hw⟩ := hw
  have hget : (s.vehicles.modify id fun _ => w).get? id = some w := by rw [SlotMap.get?_modify_self, hv]; rfl
  have hwl : w.linkId = some link := by rw [← hw]; rfl
  obtain ⟨-, hm'⟩ := (insertOnLink_spec (E := fun _ => True) (hM.setVeh (k := id) rfl fun _ => w) rfl hget hwl
    (contains_of_get (getLink_ok.1 hl))).ok hins
  refine ⟨member_iff.2 (hm'.congr fun j => by simp), ?_, w, hget, hwl⟩
  refine insertAll_ordered [(id, link)] links links' (fun a la hla => ?_) (by simpa using hins)
  refine ordered_of (fun x hx v' hv' => ?_) (hO a la hla)
  have hne : x ≠ id := (((hM a la hla).2 x).1 hx).1
  rw [SlotMap.get?_modify_ne _ _ hne] at hv'
  exact ⟨v', hv', rfl⟩

/-- A lane change keeps the order, and vehicles are on the link that they are said to be on. -/
theorem doLaneChange_lined [Env] {id link : Key} {d : ℝ} (hm : Member s.links s.vehicles) (ho : Lined s)
    (h : s.doLaneChange id link d = .ok s') : Member s'.links s'.vehicles ∧ Lined s' ∧ ∃ v, s'.vehicles.get? id = some v ∧ v.linkId = some link := by
  unfold Sim.doLaneChange at h
  obtain ⟨v, hv, h⟩ := M_bind_ok.1 h
  rw [getVeh_ok] at hv
  split at h
  · rename_i a ha
    obtain ⟨links, h1, h⟩ := M_bind_ok.1 h
    obtain ⟨⟨l0, hl0⟩, rfl⟩ := updLink_ok.1 h1
    obtain ⟨l, hl, h⟩ := M_bind_ok.1 h
    obtain ⟨r, hr, h⟩ := M_bind_ok.1 h
    split at h
    · cases h
    obtain ⟨w, hw, h⟩ := M_bind_ok.1 h
    obtain ⟨links', hins, h⟩ := M_bind_ok.1 h
    rw [M_pure_ok] at h
    refine shift_lined hv (((member_iff.1 hm).remove hv ha).congr fun j => by simp) (fun b lb hb => ?_) hl hw hins h.symm
    rw [SlotMap.get?_modify] at hb
    split at hb
    · rename_i e
      subst e
      rw [hl0] at hb; cases hb
      exact (ho _ l0 hl0).sublist (removed_sublist l0 id)
    · exact ho b lb hb
  · rename_i hn
    obtain ⟨links, h1, h⟩ := M_bind_ok.1 h
    rw [M_pure_ok] at h1
    subst h1
    obtain ⟨l, hl, h⟩ := M_bind_ok.1 h
    obtain ⟨r, hr, h⟩ := M_bind_ok.1 h
    split at h
    · cases h
    obtain ⟨w, hw, h⟩ := M_bind_ok.1 h
    obtain ⟨links', hins, h⟩ := M_bind_ok.1 h
    rw [M_pure_ok] at h
    refine shift_lined hv (fun lk l0 hl0 => ⟨(hm lk l0 hl0).1, fun j => ?_⟩) ho hl hw hins h.symm
    rw [(hm lk l0 hl0).2 j]
    constructor
    · rintro ⟨w, hw, e⟩
      refine ⟨?_, w, hw, e⟩
      rintro rfl
      rw [hv] at hw; cases hw
      rw [hn] at e; cases e
    · exact fun h => h.2

/-- Planned lane changes keep the order. -/
theorem performAll_lined [Env] : ∀ (lcs : List (Key × Path)) {s s' : Sim ℝ}, Member s.links s.vehicles → Lined s →
    lcs.foldlM Sim.performLaneChange s = .ok s' → Lined s'
  | [], s, s', _, ho, h => by
    rw [List.foldlM_nil, M_pure_ok] at h
    rw [← h]; exact ho
  | q :: lcs, s, s', hm, ho, h => by
    rw [List.foldlM_cons] at h
    obtain ⟨s1, h1, h2⟩ := M_bind_ok.1 h
    unfold Sim.performLaneChange at h1
    split at h1
    · cases h1
    · rename_i a rest e
      simp only [M_bind_ok, M_pure_ok] at h1
      obtain ⟨s2, h3, vs, h4, rfl⟩ := h1
      obtain ⟨hm2, ho2, w, hw, hwl⟩ := doLaneChange_lined hm ho h3
      have hR : SRel (fun _ (v v' : Vehicle ℝ) => v'.linkId = v.linkId ∧ v'.pos = v.pos) s2.vehicles vs := by
        obtain ⟨-, rfl⟩ := updVeh_ok.1 h4
        refine SRel.modify_one _ _ _ (fun _ _ _ => ⟨rfl, rfl⟩) fun u hu => ?_
        rw [hw] at hu; cases hu
        refine ⟨?_, rfl⟩
        rw [hwl]
        show q.2.links.head? = _
        rw [e]; rfl
      refine performAll_lined lcs (s := { s2 with vehicles := vs }) ?_ ?_ h2
      · exact member_iff.2 ((member_iff.1 hm2).onVehs (hR.mono fun _ _ _ h => h.1))
      · exact ho2.same (s' := { s2 with vehicles := vs }) (SRel.refl fun _ _ _ => rfl) (hR.mono fun _ _ _ h => h.2)

theorem calculateLaneChanges_lined [Env] (hs : SimInv strict s) (ho : Lined s) (h : s.calculateLaneChanges = .ok s1) : Lined s1 := by
  unfold Sim.calculateLaneChanges at h
  rcases ite_ok.1 h with ⟨-, h⟩ | ⟨-, h⟩
  · rw [M_pure_ok] at h; rw [← h]; exact ho
  · obtain ⟨⟨vs, lcs⟩, h2, h3⟩ := M_bind_ok.1 h
    obtain ⟨-, hch, -⟩ := (choosePaths_spec (strict := strict) (div := True) (geo := True) (.inr trivial) hs).ok h2
    have hR : SRel (fun _ (v v' : Vehicle ℝ) => v'.linkId = v.linkId ∧ v'.pos = v.pos) s.vehicles vs := by
      refine hch.mono ?_
      rintro k v v' (rfl | ⟨p, -, hh, rfl⟩)
      · exact ⟨rfl, rfl⟩
      · exact ⟨hh, rfl⟩
    refine performAll_lined lcs ?_ ?_ h3
    · exact member_iff.2 ((member_iff.1 hs.mem).onVehs (hR.mono fun _ _ _ h => h.1))
    · exact ho.same (s' := { s with vehicles := vs, lcUpdate := 0.0 }) (SRel.refl fun _ _ _ => rfl) (hR.mono fun _ _ _ h => h.2)

/-- **C100** (calls) In exact arithmetic no call other than a step disturbs the order of the vehicles on a link: vehicles may be added,
removed or sent to another lane anywhere, and links, lights and groups may be added. -/
theorem C100_calls [Env] [LawfulDijkstra] {op : Op ℝ} (hs : Reach strict s) (hop : ∀ dt, op ≠ .step dt) (h : s.exec op = .ok s')
    (ho : Lined s) : Lined s' := by
  have hI := hs.inv
  have refl : SRel (fun _ (v v' : Vehicle ℝ) => v'.pos = v.pos) s.vehicles s.vehicles := SRel.refl fun _ _ _ => rfl
  cases op with
  | addLink a =>
    simp only [Sim.exec, M_bind_ok, M_pure_ok] at h
    obtain ⟨⟨s2, k⟩, h, rfl⟩ := h
    have hA := addLink_ok hI.net.wf h
    obtain ⟨l, hl, hget⟩ := hA.link
    have ev : s2.vehicles = s.vehicles := by rw [hA.eq]
    intro b lb hb
    dsimp only at hb ⊢
    rw [ev]
    rw [hget] at hb
    split at hb
    · cases hb
      obtain ⟨e1, e2, e3, e4, e5, e6, e7, -, e9, -⟩ := Link.new_ok hl
      rw [e9]; exact List.Pairwise.nil
    · exact ho b lb hb
  | addLinkGroup ids m =>
    obtain ⟨g, lcs, hG⟩ := addLinkGroup_ok hI.net h
    refine ho.same (hG.rel.mono fun k l l' e => ?_) (by rw [hG.eq]; exact refl)
    rw [e.1]
  | addLinkConvergance a b =>
    rcases addLinkConvergance_ok hI.net h with rfl | ⟨c, la, lb, -, -, -, -, -, -, hr, he⟩
    · exact ho
    · refine ho.same (hr.mono fun k l l' e => ?_) (by rw [he]; exact refl)
      rw [e]
  | addLinkConnection a b =>
    obtain ⟨-, -, hr, he⟩ := addLinkConnection_ok h
    refine ho.same (hr.mono fun k l l' e => ?_) (by rw [he]; exact refl)
    rw [e]
  | addTrafficLight tl =>
    simp only [Sim.exec, M_bind_ok, M_pure_ok] at h
    obtain ⟨⟨s2, k⟩, h, rfl⟩ := h
    have hA := addTrafficLight_ok hI.lwf h
    show Lined s2
    rw [hA.eq]; exact ho
  | addVehicle a link =>
    simp only [Sim.exec, M_bind_ok, M_pure_ok] at h
    obtain ⟨⟨s2, k⟩, h, rfl⟩ := h
    have hA := addVehicle_ok hI h
    obtain ⟨w, pf, -, -, -, -, hget⟩ := hA.veh
    unfold Sim.addVehicle at h
    simp only [M_bind_ok] at h
    obtain ⟨⟨vs, k'⟩, hm, links', hl', h⟩ := h
    rw [M_pure_ok] at h
    obtain ⟨rfl, rfl⟩ := Prod.mk.inj h
    dsimp only at hl' hget ⊢
    refine insertAll_ordered [(k', link)] s.links links' (fun b lb hb => ?_) (by simpa using hl')
    refine ordered_of (fun x hx v' hv' => ?_) (ho b lb hb)
    obtain ⟨w', hw', -⟩ := ((hI.mem b lb hb).2 x).1 hx
    have hne : x ≠ k' := by rintro rfl; exact hA.fresh (SlotMap.get?_issued hw')
    rw [hget, if_neg hne] at hv'
    exact ⟨v', hv', rfl⟩
  | removeVehicle k =>
    have hR := (removeVehicle_spec (E := fun _ => True) hI k).ok h
    intro b lb' hb
    have hveh : ∀ x v', s'.vehicles.get? x = some v' → ∃ v, s.vehicles.get? x = some v ∧ v'.pos = v.pos := by
      intro x v' hv'
      rw [hR.vehicles, SlotMap.get?_remove] at hv'
      split at hv'
      · cases hv'
      · exact ⟨v', hv', rfl⟩
    have hsub : ∃ lb, s.links.get? b = some lb ∧ lb'.vehicles.Sublist lb.vehicles := by
      change s.removeVehicle k = .ok s' at h
      unfold Sim.removeVehicle at h
      split at h
      · split at h
        · simp only [M_bind_ok, M_pure_ok] at h
          obtain ⟨links, h1, rfl⟩ := h
          obtain ⟨⟨l0, hl0⟩, rfl⟩ := updLink_ok.1 h1
          dsimp only at hb
          rw [SlotMap.get?_modify] at hb
          split at hb
          · rename_i e
            subst e
            rw [hl0] at hb; cases hb
            exact ⟨l0, hl0, removed_sublist l0 _⟩
          · exact ⟨lb', hb, List.Sublist.refl _⟩
        · rw [M_pure_ok] at h; subst h
          exact ⟨lb', hb, List.Sublist.refl _⟩
      · rw [M_pure_ok] at h; subst h
        exact ⟨lb', hb, List.Sublist.refl _⟩
    obtain ⟨lb, hlb, hs⟩ := hsub
    exact ordered_of (fun x _ v' hv' => hveh x v' hv') ((ho b lb hlb).sublist hs)
  | randomiseVelocityAdjusts sd f =>
    obtain ⟨hr, he⟩ := randomise_ok h
    refine ho.same (by rw [he]; exact SRel.refl fun _ _ _ => rfl) (hr.mono fun k v v' e => ?_)
    rw [e]; rfl
  | setVehicleFrozen k b =>
    obtain ⟨f, e⟩ := setVehicleFrozen_eq s k b
    simp only [Sim.exec, M_pure_ok] at h
    rw [← h, e]; exact ho
  | setVehicleDestination k dst =>
    have hk : s.vehicles.contains k = true := by
      simp only [Sim.exec, Sim.setVehicleDestination, M_bind_ok, getVeh_ok] at h
      obtain ⟨v, hv, -⟩ := h
      exact contains_of_get hv
    have hD := (setVehicleDestination_spec (E := fun _ => True) hI (.inr trivial) (.inr trivial) hk (.inr (.inr trivial))).ok h
    obtain ⟨v, pf, hv, -, -, -, he⟩ := hD.veh
    refine ho.same (by rw [hD.eq]; exact SRel.refl fun _ _ _ => rfl) ?_
    rw [he]
    refine SRel.modify_one _ _ _ (fun _ _ _ => rfl) fun u hu => ?_
    rw [hv] at hu; cases hu; rfl
  | setLinkControl k c =>
    obtain ⟨-, h1, h2⟩ := setLinkControl_ok h
    refine ho.same ?_ (by rw [h2]; exact refl)
    rw [h1]
    exact (writeControls_rel _ _).mono fun k l l' ⟨c, e, _⟩ => by rw [e]
  | doLaneChange id link d => exact (doLaneChange_lined hI.mem ho h).2.1
  | step dt => exact absurd rfl (hop dt)

/-- **C100** (steps) In exact arithmetic a step keeps the order if there is room for it.  Lane changes keep it in any case.  If no vehicle
would then get past the middle of the one that is listed next ahead of it if it accelerated fully and the other stood, the vehicles are in
order after the step. -/
theorem C100_step [Env] [LawfulDijkstra] (hs : Reach strict s) (h : s.step dt = .ok s') (hdt : 0 ≤ dt) (hlanes : s.calculateLaneChanges = .ok s1)
    (ho : Lined s) : Lined s1 ∧
    ((∀ a l k j v u, s1.getLinkRef a = .ok l → [k, j] <:+: l.vehicles → s1.getVehicle k = .ok v → s1.getVehicle j = .ok u →
      0 ≤ v.acc.maxAcc ∧ v.vel * dt + v.acc.maxAcc * dt ^ 2 / 2 ≤ u.pos - v.pos) → Lined s') := by
  refine ⟨calculateLaneChanges_lined hs.inv ho hlanes, fun hroom => ?_⟩
  obtain ⟨s1', s2, s3, s4, s5, s6, hr⟩ := (step_spec hs.inv dt).ok h
  have e1 := hr.run1
  rw [hlanes] at e1; cases e1
  refine hr.ordered fun a l4 hl4 => ?_
  obtain ⟨l1, hl1, el⟩ := hr.lists4.bwd hl4
  rw [el]
  have veh : ∀ x ∈ l1.vehicles, ∃ v v1 v2 v4, s.vehicles.get? x = some v ∧ Trace s dt s1 s2 s3 s4 s' x v v1 v2 v4 := by
    intro x hx
    obtain ⟨w, hw, -⟩ := ((hr.inv1.mem a l1 hl1).2 x).1 hx
    obtain ⟨v, hv, -⟩ := hr.vehs1.bwd hw
    obtain ⟨v1, v2, v4, ht⟩ := hr.trace hv
    exact ⟨v, v1, v2, v4, hv, ht⟩
  have motion : ∀ {x v v1 v2 v4}, s.vehicles.get? x = some v → Trace s dt s1 s2 s3 s4 s' x v v1 v2 v4 →
      v1.pos ≤ v4.pos ∧ (0 ≤ v1.acc.maxAcc → v4.pos ≤ v1.pos + v1.vel * dt + v1.acc.maxAcc * dt ^ 2 / 2) := by
    intro x v v1 v2 v4 hv ht
    obtain ⟨f1, f2, -⟩ := ht.steer.same
    have hv0 : 0 ≤ v1.vel := by rw [f1]; exact C20_speed hs (getVeh_ok.2 hv)
    have hacc : v2.acc.acc ≤ max v1.acc.maxAcc (-6) := by
      rcases ht.acc with ⟨-, -, e⟩ | ⟨-, n0, n1, vs, -, hx⟩
      · rw [e, f2]; exact hs.acc_le (getVeh_ok.2 hv)
      · obtain ⟨b, w, ev2, -, hz, hnz⟩ := hx.eq
        rw [ev2]
        by_cases hf : x ∈ s1.frozen
        · show b ≤ _
          rw [hz hf]; simp only [maxDecel]; exact le_max_of_le_right (by norm_num)
        · obtain ⟨as, e⟩ := hnz hf
          show b ≤ _
          rw [e]
          exact le_max_of_le_left (foldl_min_le as _).1
    obtain ⟨b, w, ev2⟩ := ht.acc.same
    obtain ⟨q, e, lc, cnt, ev4, -⟩ := ht.move.eq
    have hvel : v4.vel = max (v1.vel + dt * v2.acc.getAcc) 0 := by
      rw [ev4]; dsimp only; rw [ev2]; dsimp only; simp only [fmax]; norm_num
    have hpos : v4.pos = v1.pos + (v1.vel + v4.vel) / 2 * dt := by
      have : v4.pos = v2.pos + 0.5 * (v2.vel + v4.vel) * dt := by rw [ev4]
      rw [this, ev2]; dsimp only
      have h5 : (0.5 : ℝ) = 1 / 2 := by norm_num
      rw [h5]; ring
    have h40 : 0 ≤ v4.vel := by rw [hvel]; exact le_max_right _ _
    refine ⟨by rw [hpos]; nlinarith [mul_nonneg (add_nonneg hv0 h40) hdt], fun hm => ?_⟩
    have hg : v2.acc.getAcc ≤ v1.acc.maxAcc := by
      simp only [AccelerationModel.getAcc, fmax, maxDecel]
      refine max_le (hacc.trans (max_le le_rfl (by linarith))) (le_trans (by norm_num) hm)
    have h4 : v4.vel ≤ v1.vel + dt * v1.acc.maxAcc := by
      rw [hvel]
      exact max_le (by linarith [mul_le_mul_of_nonneg_left hg hdt]) (by linarith [mul_nonneg hdt hm])
    rw [hpos]
    nlinarith [mul_le_mul_of_nonneg_right h4 hdt]
  set f : Key → ℝ := fun k => (s4.vehicles.get? k).elim 0 (·.pos) with hf
  have ef : ∀ {k v}, s4.vehicles.get? k = some v → f k = v.pos := fun h => by rw [hf]; dsimp only; rw [h]; rfl
  have : IsTrans Key fun k j => f k ≤ f j := ⟨fun _ _ _ h h' => h.trans h'⟩
  have hchain : l1.vehicles.Pairwise fun k j => f k ≤ f j := by
    refine List.isChain_iff_pairwise.1 (isChain_of_infix fun k j hkj => ?_)
    obtain ⟨v, v1, v2, v4, hv, ht⟩ := veh k (hkj.subset (by simp))
    obtain ⟨u, u1, u2, u4, hu, ht'⟩ := veh j (hkj.subset (by simp))
    obtain ⟨m1, m2⟩ := hroom a l1 k j v1 u1 (getLink_ok.2 hl1) hkj (getVeh_ok.2 ht.get1) (getVeh_ok.2 ht'.get1)
    rw [ef ht.get4, ef ht'.get4]
    linarith [(motion hv ht).2 m1, (motion hu ht').1]
  exact hchain.imp fun {x y} h vx vy gx gy => by rw [ef gx, ef gy] at h; exact h

/-- What `C84_road_partial` supposes at the beginning holds with what vehicles need to stop behind each other in all following steps. -/
theorem road_inv [Env] [LawfulDijkstra] {D V A H : ℝ} {s0 : Sim ℝ} (hs : Reach strict s0) (hroads : Roads s0)
    (hwide : Wide (D + 0.1) D V A H s0) (hfits : ∀ k v, s0.getVehicle k = .ok v → FitsRoad (D + 0.1) V A H s0 v) (hre : ¬ s0.accUpdate < 0.1)
    (hgap : ∀ k j v u g, s0.getVehicle k = .ok v → s0.getVehicle j = .ok u → InRow s0 k j v u g →
      0 ≤ g ∧ (v.vel = 0 ∨ v.vel ^ 2 / 12 + 3 / 4 * (D + 0.1) ^ 2 ≤ g + u.vel ^ 2 / 12))
    (hrun : Relation.ReflTransGen (RoadStep D V) s0 s) : RoadInv strict (D + 0.1) D V A H s := by
  induction hrun with
  | refl =>
    refine ⟨hs, hroads, hwide, hfits, ?_, fun h => absurd h hre, fun k j v u g hv hu hg => ?_⟩
    · norm_num at hre; linarith
    · obtain ⟨h1, h2⟩ := hgap k j v u g hv hu hg
      refine ⟨h1, h2.imp (fun h => ⟨h, fun h => absurd h hre⟩) fun h => ?_⟩
      intro t h0 h1 _
      rw [if_neg hre] at h1
      obtain rfl := le_antisymm h1 h0
      linarith
  | tail _ hst ih => exact ih.step le_rfl hst

/-- **C100, the part that holds for roads** (exact arithmetic).  Where `C84_road_partial` shows that no vehicle drives into another, the
vehicles on each link also stay listed in order. -/
theorem C100_road_partial [Env] [LawfulDijkstra] {D V A H : ℝ} {s0 : Sim ℝ} (hs : Reach strict s0) (hroads : Roads s0)
    (hwide : Wide (D + 0.1) D V A H s0) (hfits : ∀ k v, s0.getVehicle k = .ok v → FitsRoad (D + 0.1) V A H s0 v) (hre : ¬ s0.accUpdate < 0.1)
    (hgap : ∀ k j v u g, s0.getVehicle k = .ok v → s0.getVehicle j = .ok u → InRow s0 k j v u g →
      0 ≤ g ∧ (v.vel = 0 ∨ v.vel ^ 2 / 12 + 3 / 4 * (D + 0.1) ^ 2 ≤ g + u.vel ^ 2 / 12))
    (hrun : Relation.ReflTransGen (RoadStep D V) s0 s) : Lined s := by
  have hI := road_inv hs hroads hwide hfits hre hgap hrun
  intro a l hl
  set f : Key → ℝ := fun k => (s.vehicles.get? k).elim 0 (·.pos) with hf
  have ef : ∀ {k v}, s.vehicles.get? k = some v → f k = v.pos := fun h => by rw [hf]; dsimp only; rw [h]; rfl
  have : IsTrans Key fun k j => f k ≤ f j := ⟨fun _ _ _ h h' => h.trans h'⟩
  have hchain : l.vehicles.Pairwise fun k j => f k ≤ f j := by
    refine List.isChain_iff_pairwise.1 (isChain_of_infix fun k j hkj => ?_)
    obtain ⟨v, hv, -⟩ := ((hI.reach.inv.mem _ _ hl).2 _).1 (hkj.subset (by simp : k ∈ [k, j]))
    obtain ⟨u, hu, -⟩ := ((hI.reach.inv.mem _ _ hl).2 _).1 (hkj.subset (by simp : j ∈ [k, j]))
    have h1 := (hI.fits k v (getVeh_ok.2 hv)).half
    have h2 := (hI.fits j u (getVeh_ok.2 hu)).half
    have := (hI.keeps k j v u _ (getVeh_ok.2 hv) (getVeh_ok.2 hu) (.same (getLink_ok.2 hl) hkj)).1
    rw [ef hv, ef hu]
    rw [Vehicle.posFront, Vehicle.posRear] at this
    linarith
  exact hchain.imp fun {x y} h vx vy gx gy => by rw [ef gx, ef gy] at h; exact h


/-- A vehicle starts 25 m behind the middle of another that drives at 10 m/s: the vehicles are listed in order, and there is room. -/
theorem lined_pair : ∃ (_ : Env) (_ : LawfulDijkstra) (s s' s1 : Sim ℝ) (l : Link ℝ), Reach True s ∧ s.step 0.1 = .ok s' ∧
    s.calculateLaneChanges = .ok s1 ∧ Lined s ∧ s1.getLinkRef ⟨0, 1⟩ = .ok l ∧ l.vehicles = [⟨1, 1⟩, ⟨0, 1⟩] ∧
    ∀ a l k j v u, s1.getLinkRef a = .ok l → [k, j] <:+: l.vehicles → s1.getVehicle k = .ok v → s1.getVehicle j = .ok u →
      0 ≤ v.acc.maxAcc ∧ v.vel * 0.1 + v.acc.maxAcc * 0.1 ^ 2 / 2 ≤ u.pos - v.pos := by
  obtain ⟨N, s, ⟨l, v, w, hb⟩, hp, hn, h⟩ := @program_runs (Lone.env 0) (Lone.lawful 0) _ (Search.full_ends _) _ (Pair.leads (d := 5) (by norm_num) le_rfl)
  have hr : @Reach ℝ _ (@Env.withFuel (Lone.env 0) N) True s := (h N le_rfl).1
  obtain ⟨N1, s', h1⟩ := @C69_calls (@Env.withFuel (Lone.env 0) N) (@LawfulDijkstra.withFuel (Lone.env 0) (Lone.lawful 0) N) s hr
    (Search.full_ends _) hp hn (.step 0.1) trivial trivial
  let env : Env := @Env.withFuel (Lone.env 0) (max N N1)
  have hlaw : LawfulDijkstra := @LawfulDijkstra.withFuel (Lone.env 0) (Lone.lawful 0) (max N N1)
  replace hr : Reach True s := (h _ (le_max_left _ _)).1
  replace h1 : s.step 0.1 = .ok s' := h1 _ (le_max_right _ _)
  obtain ⟨fr, n, sq, u, es⟩ := hb.eq
  have gl : s.links.get? ⟨0, 1⟩ = some l := by rw [es]; rfl
  have gv : s.vehicles.get? ⟨0, 1⟩ = some v := by rw [es]; rfl
  have gw : s.vehicles.get? ⟨1, 1⟩ = some w := by rw [es]; rfl
  have only : ∀ a l', s.links.get? a = some l' → l' = l := by
    intro a l' h
    have hk : a ∈ s.links.keys := SlotMap.mem_keys.2 ⟨l', h⟩
    have ek : s.links.keys = [⟨0, 1⟩] := by rw [es]; rfl
    rw [ek, List.mem_singleton] at hk
    rw [hk, gl] at h
    cases h; rfl
  obtain ⟨s1, hs1, e1, e2⟩ := Pair.lanes hb
  refine ⟨env, hlaw, s, s', s1, l, hr, h1, hs1, fun a l' hl => ?_, getLink_ok.2 (by rw [e1]; exact gl), hb.vehs, fun a l' k j x y hl hkj hx hy => ?_⟩
  · rw [only a l' hl, hb.vehs]
    refine List.pairwise_pair.2 fun x y hx hy => ?_
    rw [gw] at hx; rw [gv] at hy
    cases hx; cases hy
    rw [hb.pos.1, hb.pos.2]; norm_num
  · have hl := getLink_ok.1 hl
    rw [e1] at hl
    rw [only a l' hl, hb.vehs] at hkj
    have := hkj.eq_of_length rfl
    cases this
    have hx := getVeh_ok.1 hx
    have hy := getVeh_ok.1 hy
    rw [e2] at hx hy
    rw [gw] at hx; rw [gv] at hy
    cases hx; cases hy
    rw [hb.acc.2, hb.vel.2, hb.pos.1, hb.pos.2]
    norm_num

example : ∃ (_ : Env) (_ : LawfulDijkstra) (s s' : Sim ℝ), Reach True s ∧ s.exec (.setVehicleFrozen ⟨0, 1⟩ true) = .ok s' ∧ Lined s := by
  obtain ⟨env, hl, s, -, -, -, h1, -, -, h2, -⟩ := lined_pair
  exact ⟨env, hl, s, _, h1, rfl, h2⟩

/-- On a road one vehicle starts behind another. -/
example : ∃ (_ : Env) (_ : LawfulDijkstra) (s0 s : Sim ℝ), Relation.ReflTransGen (RoadStep 0.1 10) s0 s ∧ RoadInv True (0.1 + 0.1) 0.1 10 2 2 s ∧ Lined s := by
  obtain ⟨env, hlaw, s0, s, -, -, -, -, -, -, -, h1, h2, h3, h4, h5, h6, h7, -⟩ := road_runs
  exact ⟨env, hlaw, s0, s, .single h7, road_inv h1 h2 h3 h4 h5 h6 (.single h7), C100_road_partial h1 h2 h3 h4 h5 h6 (.single h7)⟩

end

end TrafficSim
