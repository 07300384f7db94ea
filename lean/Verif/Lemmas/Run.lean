import Verif.Lemmas.Ops

/-! # Runs: what holds across several operations, and what a step does to a vehicle -/

namespace TrafficSim

section
variable {F : Type} [Flt F] {strict : Prop} {s s' : Sim F} {dt : F}

/-- `s'` can be reached from `s` through the public interface. -/
inductive Run [Env] (strict : Prop) (s : Sim F) : Sim F → Prop
  | refl : Run strict s s
  | exec {s' s'' : Sim F} (op : Op F) : Run strict s s' → Allowed strict s' op → s'.exec op = .ok s'' → Run strict s s''

theorem Run.reach [Env] (hs : Reach strict s) (h : Run strict s s') : Reach strict s' := by
  induction h with
  | refl => exact hs
  | exec op _ ha he ih => exact .exec op ih ha he

theorem Run.trans [Env] {s'' : Sim F} (h : Run strict s s') (h' : Run strict s' s'') : Run strict s s'' := by
  induction h' with
  | refl => exact h
  | exec op _ ha he ih => exact .exec op ih ha he

/-! ## A step -/

variable {s1 s2 s3 s4 s5 s6 : Sim F}

/-- The effect of the first phase on a vehicle: it keeps its path, takes another path on the same lane,
or changes lanes. -/
def Steered (links : LinkSet F) (v v1 : Vehicle F) : Prop :=
  Rechose links v v1 ∨ ∃ p, Chose links v p ∧ p.links.head? ≠ v.route.head? ∧ ShiftedTo links p v v1

omit [Flt F] in
theorem OnlyVehs.frame' {links links' : LinkSet F} (h : OnlyVehs links links') : Frame links links' := h.frame

theorem StepRun.frame1 [Env] (h : StepRun strict s dt s1 s2 s3 s4 s5 s6 s') : OnlyVehs s.links s1.links := by
  rcases h.lanes with ⟨-, rfl⟩ | ⟨-, vs, lcs, h⟩
  · exact SRel.refl fun _ _ _ => rfl
  · exact h.ctrl

theorem StepRun.frame2 [Env] (h : StepRun strict s dt s1 s2 s3 s4 s5 s6 s') : Frame s1.links s2.links := by
  rcases h.acc with ⟨-, rfl⟩ | ⟨-, n0, n1, vs, h⟩
  · exact frame_refl _
  · exact h.frame

theorem StepRun.frame3 [Env] (h : StepRun strict s dt s1 s2 s3 s4 s5 s6 s') : Frame s2.links s3.links := by
  obtain ⟨wss, h⟩ := h.lights
  rw [h.links]; exact writeControls_frame _ _

theorem StepRun.links4 [Env] (h : StepRun strict s dt s1 s2 s3 s4 s5 s6 s') : s4.links = s3.links := by rw [h.move.eq]

theorem StepRun.links' [Env] (h : StepRun strict s dt s1 s2 s3 s4 s5 s6 s') : s'.links = s5.links := by
  rw [h.eq]; dsimp only; rw [h.place.eq]

theorem StepRun.vehicles' [Env] (h : StepRun strict s dt s1 s2 s3 s4 s5 s6 s') : s'.vehicles = s6.vehicles := by rw [h.eq]

theorem StepRun.vehicles3 [Env] (h : StepRun strict s dt s1 s2 s3 s4 s5 s6 s') : s3.vehicles = s2.vehicles := by
  obtain ⟨wss, h⟩ := h.lights
  rw [h.eq]

theorem StepRun.frame4 [Env] (h : StepRun strict s dt s1 s2 s3 s4 s5 s6 s') : Frame s.links s4.links := by
  rw [h.links4]
  exact (h.frame1.frame.trans h.frame2).trans h.frame3

theorem StepRun.frame [Env] (h : StepRun strict s dt s1 s2 s3 s4 s5 s6 s') : Frame s.links s'.links := by
  rw [h.links']
  exact h.frame4.trans h.adv.frame

theorem StepRun.vehs1 [Env] (h : StepRun strict s dt s1 s2 s3 s4 s5 s6 s') :
    SRel (fun _ v v1 => Steered s.links v v1) s.vehicles s1.vehicles := by
  rcases h.lanes with ⟨-, rfl⟩ | ⟨-, vs, lcs, h⟩
  · exact SRel.refl fun _ v _ => .inl (.inl rfl)
  · have hm := h.vehs
    have hc := h.choose
    refine ⟨hm.keys.trans hc.keys, fun w => hm.wf (hc.wf w), fun k i => hm.issued k (hc.issued k i), fun k v hv => ?_⟩
    obtain ⟨v1, hv1, hr⟩ := hc.fwd k v hv
    obtain ⟨v2, hv2, h1, h2⟩ := hm.fwd k v1 hv1
    refine ⟨v2, hv2, ?_⟩
    by_cases hk : k ∈ lcs.map (·.1)
    · obtain ⟨⟨k', p⟩, hq, rfl⟩ := List.mem_map.1 hk
      obtain ⟨u, hu, hu1, hch, hne⟩ := (h.planned _ hq).ex
      dsimp only at hu hu1 hch hne hv hv1
      rw [hv] at hu; cases hu
      rw [hv1] at hu1; cases hu1
      exact .inr ⟨p, hch, hne, h2 p hq⟩
    · rw [h1 hk]; exact .inl hr

/-- The effect of the second phase on a vehicle. -/
def Accelerated [Env] (s1 s2 : Sim F) (k : Key) (v1 v2 : Vehicle F) : Prop :=
  (s1.accUpdate < accelerationUpdateSec ∧ s2 = s1 ∧ v2 = v1) ∨
    (¬ s1.accUpdate < accelerationUpdateSec ∧ ∃ n0 n1 vs, AccRun s1 n0 n1 vs s2 ∧ VehAccRun s1.frozen n0 k v1 v2)

theorem StepRun.vehs2 [Env] (h : StepRun strict s dt s1 s2 s3 s4 s5 s6 s') :
    SRel (Accelerated s1 s2) s1.vehicles s3.vehicles := by
  rw [h.vehicles3]
  rcases h.acc with ⟨h1, rfl⟩ | ⟨h1, n0, n1, vs, h⟩
  · exact SRel.refl fun _ v _ => .inl ⟨h1, rfl, rfl⟩
  · exact h.vehicles.mono fun k v v' hv => .inr ⟨h1, n0, n1, vs, h, hv⟩

/-- What happens to the vehicle `v4` at the end of a step. -/
inductive Outcome (s4 s' : Sim F) (k : Key) (v4 : Vehicle F) : Prop
  | stays (v' : Vehicle F) : s'.vehicles.get? k = some v' → Placed v4 v' →
      (∃ a l, v4.route.head? = some a ∧ s4.links.get? a = some l ∧ ¬ l.length < v4.pos) → Outcome s4 s' k v4
  | passes (v5 v' : Vehicle F) : Passed s4.links v4 v5 → v5.route ≠ [] → s'.vehicles.get? k = some v' →
      Placed v5 v' → Outcome s4 s' k v4
  | leaves (v5 : Vehicle F) : Passed s4.links v4 v5 → v5.route = [] → s'.vehicles.get? k = none → Outcome s4 s' k v4

theorem StepRun.outcome [Env] (h : StepRun strict s dt s1 s2 s3 s4 s5 s6 s') {k : Key} {v4 : Vehicle F}
    (hv : s4.vehicles.get? k = some v4) : Outcome s4 s' k v4 := by
  rcases h.adv.fwd k v4 hv with ⟨h1, h2⟩ | ⟨v5, hp, ⟨h1, h2⟩ | ⟨h1, h2⟩⟩
  · obtain ⟨v', hv', -, hpl⟩ := h.place.vehicles.fwd k v4 h1
    exact .stays v' (by rw [h.vehicles']; exact hv') hpl h2
  · obtain ⟨v', hv', -, hpl⟩ := h.place.vehicles.fwd k v5 h2
    exact .passes v5 v' hp h1 (by rw [h.vehicles']; exact hv') hpl
  · refine .leaves v5 hp h1 ?_
    cases e : s'.vehicles.get? k with
    | none => rfl
    | some v' =>
      rw [h.vehicles'] at e
      obtain ⟨u, hu, -⟩ := h.place.vehicles.bwd e
      rw [h2] at hu; cases hu

/-- What a step does to the vehicle `v` with key `k`. -/
structure Trace [Env] (s : Sim F) (dt : F) (s1 s2 s3 s4 s' : Sim F) (k : Key) (v v1 v2 v4 : Vehicle F) : Prop where
  get1 : s1.vehicles.get? k = some v1
  steer : Steered s.links v v1
  get2 : s3.vehicles.get? k = some v2
  acc : Accelerated s1 s2 k v1 v2
  get4 : s4.vehicles.get? k = some v4
  move : Moved dt s3.seq k v2 v4
  out : Outcome s4 s' k v4

theorem StepRun.trace [Env] (h : StepRun strict s dt s1 s2 s3 s4 s5 s6 s') {k : Key} {v : Vehicle F}
    (hv : s.vehicles.get? k = some v) : ∃ v1 v2 v4, Trace s dt s1 s2 s3 s4 s' k v v1 v2 v4 := by
  obtain ⟨v1, g1, r1⟩ := h.vehs1.fwd k v hv
  obtain ⟨v2, g2, r2⟩ := h.vehs2.fwd k v1 g1
  obtain ⟨v4, g4, r4⟩ := h.move.vehicles.fwd k v2 g2
  exact ⟨v1, v2, v4, g1, r1, g2, r2, g4, r4, h.outcome g4⟩

theorem StepRun.back [Env] (h : StepRun strict s dt s1 s2 s3 s4 s5 s6 s') {k : Key} {v' : Vehicle F}
    (hv : s'.vehicles.get? k = some v') : ∃ v, s.vehicles.get? k = some v := by
  rw [h.vehicles'] at hv
  obtain ⟨v5, h5, -⟩ := h.place.vehicles.bwd hv
  obtain ⟨v4, h4⟩ := h.adv.bwd k v5 h5
  obtain ⟨v2, h2, -⟩ := h.move.vehicles.bwd h4
  obtain ⟨v1, h1, -⟩ := h.vehs2.bwd h2
  obtain ⟨v, h0, -⟩ := h.vehs1.bwd h1
  exact ⟨v, h0⟩

theorem StepRun.issued [Env] (h : StepRun strict s dt s1 s2 s3 s4 s5 s6 s') {k : Key} (hk : s.vehicles.Issued k) :
    s'.vehicles.Issued k := by
  rw [h.vehicles']
  exact h.place.vehicles.issued k (h.adv.issued k (h.move.vehicles.issued k (h.vehs2.issued k (h.vehs1.issued k hk))))

/-! ## Handles -/

/-- What every operation respects: issued handles stay issued, and only fresh handles become valid. -/
structure Evolves (s s' : Sim F) : Prop where
  vehIssued : ∀ k, s.vehicles.Issued k → s'.vehicles.Issued k
  linkIssued : ∀ k, s.links.Issued k → s'.links.Issued k
  lightIssued : ∀ k, s.lights.Issued k → s'.lights.Issued k
  vehBack : ∀ k v', s'.vehicles.get? k = some v' → s.vehicles.contains k = true ∨ ¬ s.vehicles.Issued k
  links : ∀ k, s.links.contains k = true → s'.links.contains k = true
  lights : ∀ k, s.lights.contains k = true → s'.lights.contains k = true

omit [Flt F] in
theorem Evolves.of {L : Key → Link F → Link F → Prop} {V : Key → Vehicle F → Vehicle F → Prop}
    {T : Key → TrafficLight F → TrafficLight F → Prop} (hl : SRel L s.links s'.links)
    (hv : SRel V s.vehicles s'.vehicles) (ht : SRel T s.lights s'.lights) : Evolves s s' :=
  ⟨hv.issued, hl.issued, ht.issued, fun k v' h => by
    obtain ⟨v, h, -⟩ := hv.bwd h
    exact .inl (contains_of_get h), fun k h => by rw [hl.contains]; exact h, fun k h => by rw [ht.contains]; exact h⟩

omit [Flt F] in
theorem srel_same {V : Type} {m m' : SlotMap V} (h : m' = m) : SRel (fun _ v v' => v' = v) m m' := by
  subst h; exact SRel.refl fun _ _ _ => rfl

omit [Flt F] in
theorem Evolves.rfl' : Evolves s s := Evolves.of (srel_same rfl) (srel_same rfl) (srel_same rfl)

theorem exec_evolves [Env] [LawfulDijkstra] (hs : SimInv strict s) {op : Op F} (h : s.exec op = .ok s') :
    Evolves s s' := by
  cases op with
  | addLink a =>
    simp only [Sim.exec, M_bind_ok, M_pure_ok] at h
    obtain ⟨⟨s1, k⟩, h, rfl⟩ := h
    have h := addLink_ok hs.net.wf h
    have ev : s1.vehicles = s.vehicles := by rw [h.eq]
    have et : s1.lights = s.lights := by rw [h.eq]
    dsimp only
    exact ⟨by rw [ev]; exact fun _ h => h, h.mono, by rw [et]; exact fun _ h => h,
      by rw [ev]; exact fun k v h => .inl (contains_of_get h), h.le.contains, by rw [et]; exact fun _ h => h⟩
  | addLinkGroup ids m =>
    obtain ⟨g, lcs, h⟩ := addLinkGroup_ok hs.net h
    exact Evolves.of h.rel (srel_same (by rw [h.eq])) (srel_same (by rw [h.eq]))
  | addLinkConvergance a b =>
    rcases addLinkConvergance_ok hs.net h with rfl | ⟨c, la, lb, -, -, -, -, -, -, h, he⟩
    · exact Evolves.rfl'
    · exact Evolves.of h (srel_same (by rw [he])) (srel_same (by rw [he]))
  | addLinkConnection a b =>
    obtain ⟨-, -, h, he⟩ := addLinkConnection_ok h
    exact Evolves.of h (srel_same (by rw [he])) (srel_same (by rw [he]))
  | addTrafficLight tl =>
    simp only [Sim.exec, M_bind_ok, M_pure_ok] at h
    obtain ⟨⟨s1, k⟩, h, rfl⟩ := h
    have h := addTrafficLight_ok hs.lwf h
    have ev : s1.vehicles = s.vehicles := by rw [h.eq]
    have el : s1.links = s.links := by rw [h.eq]
    dsimp only
    refine ⟨by rw [ev]; exact fun _ h => h, by rw [el]; exact fun _ h => h, h.mono,
      by rw [ev]; exact fun k v h => .inl (contains_of_get h), by rw [el]; exact fun _ h => h, fun j hj => ?_⟩
    obtain ⟨v, hv⟩ := get_of_contains hj
    have := h.light j
    split at this
    · exact contains_of_get this
    · rw [hv] at this; exact contains_of_get this
  | addVehicle a l =>
    simp only [Sim.exec, M_bind_ok, M_pure_ok] at h
    obtain ⟨⟨s1, k⟩, h, rfl⟩ := h
    have h := addVehicle_ok hs h
    have et : s1.lights = s.lights := by rw [h.eq]
    dsimp only
    refine ⟨h.mono, h.links.issued, by rw [et]; exact fun _ h => h, fun j v' hj => ?_,
      fun j hj => by rw [h.links.contains]; exact hj, by rw [et]; exact fun _ h => h⟩
    obtain ⟨v, pf, -, -, -, -, hget⟩ := h.veh
    rw [hget] at hj
    split at hj
    · rename_i e; rw [e]; exact .inr h.fresh
    · exact .inl (contains_of_get hj)
  | removeVehicle k =>
    have h := (removeVehicle_spec (E := fun _ => True) hs k).ok h
    have et : s'.lights = s.lights := by rw [h.eq]
    refine ⟨by rw [h.vehicles]; exact fun j hj => hj.remove k, h.links.issued, by rw [et]; exact fun _ h => h, fun j v' hj => ?_,
      fun j hj => by rw [h.links.contains]; exact hj, by rw [et]; exact fun _ h => h⟩
    rw [h.vehicles, SlotMap.get?_remove] at hj
    split at hj
    · cases hj
    · exact .inl (contains_of_get hj)
  | randomiseVelocityAdjusts sd f =>
    obtain ⟨h1, h2⟩ := randomise_ok h
    exact Evolves.of (srel_same (by rw [h2])) h1 (srel_same (by rw [h2]))
  | setVehicleFrozen k b =>
    simp only [Sim.exec, M_pure_ok] at h
    subst h
    obtain ⟨f, e⟩ := setVehicleFrozen_eq s k b
    rw [e]
    exact Evolves.of (srel_same rfl) (srel_same rfl) (srel_same rfl)
  | setVehicleDestination k d =>
    have hk : s.vehicles.contains k = true := by
      simp only [Sim.exec, Sim.setVehicleDestination, M_bind_ok, getVeh_ok] at h
      obtain ⟨v, hv, -⟩ := h
      exact contains_of_get hv
    have h := (setVehicleDestination_spec (E := fun _ => True) hs (.inr trivial) (.inr trivial) hk (.inr (.inr trivial))).ok h
    obtain ⟨v, pf, -, -, -, -, he⟩ := h.veh
    refine Evolves.of (V := fun _ _ _ => True) (srel_same (by rw [h.eq])) ?_ (srel_same (by rw [h.eq]))
    rw [he]
    exact SRel.modify_one _ _ _ (fun _ _ _ => trivial) fun _ _ => trivial
  | setLinkControl k c =>
    obtain ⟨-, h1, h2⟩ := setLinkControl_ok h
    exact Evolves.of (by rw [h1]; exact writeControls_frame _ _) (srel_same (by rw [h2])) (srel_same (by rw [h2]))
  | doLaneChange k l d =>
    simp only [Sim.exec, Sim.doLaneChange, M_bind_ok, getVeh_ok] at h
    obtain ⟨v, hv, h⟩ := h
    have key : ∀ (links' : LinkSet F) (r : Option (F × F × F)), SRel (fun _ _ _ => True) s.links links' →
        ((match r with
          | none => throw Err.noProjection
          | some (pos, offset, slope) => do
            let v ← v.setLocation l pos (some { endPos := pos + d, offset := CubicFn.fit pos offset slope (pos + d) 0.0 0.0 }) links'
            let links ← Sim.insertOnLink links' (s.vehicles.modify k fun _ => v) l k
            pure { s with links, vehicles := s.vehicles.modify k fun _ => v } : M (Sim F))) = .ok s' → Evolves s s' := by
      intro links' r hL h
      cases r with
      | none => simp at h
      | some r =>
        obtain ⟨pos, off, sl⟩ := r
        simp only [M_bind_ok, M_pure_ok] at h
        obtain ⟨v', -, links'', hi, rfl⟩ := h
        refine Evolves.of (V := fun _ _ _ => True) (L := fun _ _ _ => True) ?_
          (SRel.modify_one _ _ _ (fun _ _ _ => trivial) fun _ _ => trivial) (srel_same rfl)
        simp only [Sim.insertOnLink, M_bind_ok, updLink_ok] at hi
        obtain ⟨_, _, _, _, _, rfl⟩ := hi
        exact hL.modify _ _ fun _ _ _ _ _ => trivial
    split at h
    · simp only [M_bind_ok, updLink_ok] at h
      obtain ⟨links', ⟨-, rfl⟩, l', hl, r, hr, h⟩ := h
      exact key _ r (SRel.modify_one _ _ _ (fun _ _ _ => trivial) fun _ _ => trivial) h
    · simp only [M_bind_ok, M_pure_ok] at h
      obtain ⟨links', rfl, l', hl, r, hr, h⟩ := h
      exact key _ r (SRel.refl fun _ _ _ => trivial) h
  | step dt =>
    obtain ⟨s1, s2, s3, s4, s5, s6, h⟩ := (step_spec hs dt).ok h
    have hlt : SRel (fun _ tl tl' => TrafficLight.step tl dt = .ok tl') s.lights s'.lights := by
      obtain ⟨wss, hl⟩ := h.lights
      have e1 : s2.lights = s.lights := by
        have a1 : s1.lights = s.lights := by
          rcases h.lanes with ⟨-, e⟩ | ⟨-, vs, lcs, e⟩
          · rw [e]
          · rw [e.eq]
        rcases h.acc with ⟨-, e⟩ | ⟨-, n0, n1, vs, e⟩
        · rw [e, a1]
        · rw [e.eq, ← a1]
      have e2 : s'.lights = s3.lights := by
        rw [h.eq]; dsimp only; rw [h.place.eq]; dsimp only; rw [h.adv.eq]; dsimp only; rw [h.move.eq]
      rw [e2, ← e1]; exact hl.lights
    exact ⟨fun k => h.issued, h.frame.issued, hlt.issued, fun k v' hv => .inl (by
      obtain ⟨v, hv⟩ := h.back hv; exact contains_of_get hv), h.frame.le.contains,
      fun k hk => by rw [hlt.contains]; exact hk⟩

theorem Run.evolves [Env] [LawfulDijkstra] (hs : Reach strict s) (h : Run strict s s') :
    (∀ k, s.vehicles.Issued k → s'.vehicles.Issued k) ∧ (∀ k, s.links.Issued k → s'.links.Issued k) ∧
    (∀ k, s.lights.Issued k → s'.lights.Issued k) ∧
    (∀ k, s.vehicles.Issued k → s.vehicles.contains k = false → s'.vehicles.contains k = false) ∧
    (∀ k, s.links.contains k = true → s'.links.contains k = true) ∧
    (∀ k, s.lights.contains k = true → s'.lights.contains k = true) := by
  induction h with
  | refl => exact ⟨fun _ h => h, fun _ h => h, fun _ h => h, fun _ _ h => h, fun _ h => h, fun _ h => h⟩
  | @exec s1 s2 op hr ha he ih =>
    have hi := (hr.reach hs).inv
    have e := exec_evolves hi he
    obtain ⟨h1, h2, h3, h4, h5, h6⟩ := ih
    refine ⟨fun k h => e.vehIssued k (h1 k h), fun k h => e.linkIssued k (h2 k h), fun k h => e.lightIssued k (h3 k h),
      fun k hk hd => ?_, fun k h => e.links k (h5 k h), fun k h => e.lights k (h6 k h)⟩
    by_contra hne
    obtain ⟨v', hv'⟩ := get_of_contains (by simpa using hne)
    rcases e.vehBack k v' hv' with h | h
    · rw [h4 k hk hd] at h; cases h
    · exact h (h1 k hk)

end

end TrafficSim
