import Verif.Lemmas.Run
import Verif.Lemmas.TownRun
import Verif.Props.Unchecked

/-! # C09-C12, C17-C19: the bookkeeping of a simulation

`Reach strict s` says that `s` results from a new simulation by any sequence of public calls that
returned normally (`Verif/Lemmas/Inv.lean`).  With `strict = False` the only condition on the calls
is that lights are built through their public interface from existing links. -/

namespace TrafficSim

section
variable {F : Type} [Flt F] {strict : Prop} {s s' : Sim F}

/-! ## C09 -/

/-- **C09.** Each live vehicle is listed on exactly one link, exactly once, and it is the link the
vehicle reports; no link lists a dead vehicle. -/
theorem C09_one_link [Env] [LawfulDijkstra] (h : Reach strict s) :
    (∀ k v, s.getVehicle k = .ok v → ∃ lk l, v.linkId = some lk ∧ s.getLinkRef lk = .ok l ∧ l.vehicles.count k = 1 ∧
      ∀ lk' l', s.getLinkRef lk' = .ok l' → k ∈ l'.vehicles → lk' = lk) ∧
    (∀ lk l k, s.getLinkRef lk = .ok l → k ∈ l.vehicles → ∃ v, s.getVehicle k = .ok v) := by
  have hi := h.inv
  simp only [Sim.getVehicle, Sim.getLinkRef, getVeh_ok, getLink_ok]
  refine ⟨fun k v hv => ?_, fun lk l k hl hk => ?_⟩
  · have hvi := hi.veh k v hv
    have hlk : v.linkId = some v.pathfind.src := hvi.src
    obtain ⟨l, hl⟩ := get_of_contains (hvi.drivable.valid _ (List.mem_of_mem_head? hvi.src))
    refine ⟨_, l, hlk, hl, ?_, fun lk' l' hl' hk' => ?_⟩
    · obtain ⟨m1, m2⟩ := hi.mem _ l hl
      exact List.count_eq_one_of_mem m1 ((m2 k).2 ⟨v, hv, hlk⟩)
    · obtain ⟨v', hv', hlk'⟩ := ((hi.mem _ l' hl').2 k).1 hk'
      rw [hv] at hv'; cases hv'
      rw [hlk] at hlk'; exact (Option.some.inj hlk').symm
  · obtain ⟨v, hv, -⟩ := ((hi.mem _ l hl).2 k).1 hk
    exact ⟨v, hv⟩

/-! ## C10 -/

/-- **C10.** A step never fails because of a missing link or vehicle, an empty route, an impossible
internal state, a counter below zero, a link without a group, an overfull array or slot map. -/
theorem C10_no_dangling [Env] [LawfulDijkstra] (h : Reach strict s) {dt : F} {e : Err} (he : s.step dt = .error e) :
    e ≠ .badLink ∧ e ≠ .badVehicle ∧ e ≠ .emptyRoute ∧ e ≠ .unreachable ∧ e ≠ .underflow ∧ e ≠ .noGroup ∧
      e ≠ .arrayFull ∧ e ≠ .slotMapFull := by
  have := (step_spec h.inv dt).err he
  cases e <;> simp_all [StepErr]

/-- The only ways in which a step can fail if every group has at most 16 different links, no link is in
two groups, and every light has a phase and at most 64 movements: an empty lane projection is sampled, a
position is NaN, the curve of a lane-change target has no projection of the vehicle, or a loop does not
end. -/
theorem C10_step_errors [Env] [LawfulDijkstra] (h : Reach True s) {dt : F} {e : Err} (he : s.step dt = .error e) :
    e = .emptySamples ∨ e = .nanCompare ∨ e = .noProjection ∨ e = .diverges := by
  have := (step_spec h.inv dt).err he
  cases e <;> simp_all [StepErr]

/-! ## C11 -/

/-- **C11.** A handle returned when adding a vehicle differs from every vehicle handle returned
before. -/
theorem C11_vehicle_fresh [Env] [LawfulDijkstra] {s0 s1 s2 s3 : Sim F} {a a' : VehicleAttributes F} {l l' k k' : Key}
    (h0 : Reach strict s0) (h1 : s0.addVehicle a l = .ok (s1, k)) (h2 : Run strict s1 s2)
    (h3 : s2.addVehicle a' l' = .ok (s3, k')) : k' ≠ k := by
  have r1 : Reach strict s1 := .exec (.addVehicle a l) h0 trivial (by simp [Sim.exec, h1])
  rintro rfl
  exact (addVehicle_ok (h2.reach r1).inv h3).fresh ((h2.evolves r1).1 _ (addVehicle_ok h0.inv h1).issued)

theorem C11_link_fresh [Env] [LawfulDijkstra] {s0 s1 s2 s3 : Sim F} {a a' : LinkAttributes F} {k k' : Key}
    (h0 : Reach strict s0) (h1 : s0.addLink a = .ok (s1, k)) (h2 : Run strict s1 s2)
    (h3 : s2.addLink a' = .ok (s3, k')) : k' ≠ k := by
  have r1 : Reach strict s1 := .exec (.addLink a) h0 trivial (by simp [Sim.exec, h1])
  rintro rfl
  exact (addLink_ok (h2.reach r1).inv.net.wf h3).fresh ((h2.evolves r1).2.1 _ (addLink_ok h0.inv.net.wf h1).issued)

theorem C11_light_fresh [Env] [LawfulDijkstra] {s0 s1 s2 s3 : Sim F} {a a' : TrafficLight F} {k k' : Key}
    (h0 : Reach strict s0) (ha : LightOK strict s0.links a) (h1 : s0.addTrafficLight a = .ok (s1, k))
    (h2 : Run strict s1 s2) (h3 : s2.addTrafficLight a' = .ok (s3, k')) : k' ≠ k := by
  have r1 : Reach strict s1 := .exec (.addTrafficLight a) h0 ha (by simp [Sim.exec, h1])
  rintro rfl
  exact (addTrafficLight_ok (h2.reach r1).inv.lwf h3).fresh
    ((h2.evolves r1).2.2.1 _ (addTrafficLight_ok h0.inv.lwf h1).issued)

/-- A handle is valid right after it was returned. -/
theorem C11_vehicle_valid [Env] [LawfulDijkstra] {a : VehicleAttributes F} {l k : Key} (h : Reach strict s)
    (ha : s.addVehicle a l = .ok (s', k)) : ∃ v, s'.getVehicle k = .ok v := by
  obtain ⟨v, pf, -, -, -, -, hg⟩ := (addVehicle_ok h.inv ha).veh
  exact ⟨v, getVeh_ok.2 (by rw [hg, if_pos rfl])⟩

/-- **C11.** Once a vehicle that was in the simulation is gone, its handle stays invalid whatever
happens later. -/
theorem C11_never_back [Env] [LawfulDijkstra] {s0 s1 s2 : Sim F} {k : Key} {v : Vehicle F} (h0 : Reach strict s0)
    (hk : s0.getVehicle k = .ok v) (h1 : Run strict s0 s1) (hd : ∀ v, s1.getVehicle k ≠ .ok v)
    (h2 : Run strict s1 s2) : ∀ v, s2.getVehicle k ≠ .ok v := by
  have hi := (h1.evolves h0).1 k (SlotMap.get?_issued (getVeh_ok.1 hk))
  have hd1 : s1.vehicles.contains k = false := by
    by_contra hne
    obtain ⟨u, hu⟩ := get_of_contains (by simpa using hne)
    exact hd u (getVeh_ok.2 hu)
  intro u hu
  have := (h2.evolves (h1.reach h0)).2.2.2.1 k hi hd1
  rw [contains_of_get (getVeh_ok.1 hu)] at this
  cases this

/-- Handles of links stay valid: links are never removed. -/
theorem C11_link_stays [Env] [LawfulDijkstra] {k : Key} {l : Link F} (h0 : Reach strict s) (hk : s.getLinkRef k = .ok l)
    (h1 : Run strict s s') : ∃ l', s'.getLinkRef k = .ok l' := by
  obtain ⟨l', hl'⟩ := get_of_contains ((h1.evolves h0).2.2.2.2.1 k (contains_of_get (getLink_ok.1 hk)))
  exact ⟨l', getLink_ok.2 hl'⟩

/-! ## C12 -/

theorem StepRun.frozen [Env] {dt : F} {s1 s2 s3 s4 s5 s6 : Sim F} (h : StepRun strict s dt s1 s2 s3 s4 s5 s6 s') :
    s1.frozen = s.frozen ∧ s'.frozen = s2.frozen ∧
      (s2.frozen = s.frozen ∨ s2.frozen = s.frozen.filter fun k => s2.vehicles.contains k) := by
  have e1 : s1.frozen = s.frozen := by
    rcases h.lanes with ⟨-, e⟩ | ⟨-, vs, lcs, e⟩
    · rw [e]
    · rw [e.eq]
  obtain ⟨wss, hl⟩ := h.lights
  have e2 : s'.frozen = s2.frozen := by
    rw [h.eq]; dsimp only; rw [h.place.eq]; dsimp only; rw [h.adv.eq]; dsimp only; rw [h.move.eq]; dsimp only; rw [hl.eq]
  refine ⟨e1, e2, ?_⟩
  rcases h.acc with ⟨-, e⟩ | ⟨-, n0, n1, vs, e⟩
  · rw [e, e1]; exact .inl rfl
  · right
    have e3 : s2.frozen = s1.frozen.filter fun k => vs.contains k := by rw [e.eq]; rfl
    rw [e3, e1]
    have e4 : s2.vehicles = s1.frozen.foldl (fun vs k => vs.modify k Vehicle.emergencyStop) vs := by rw [e.eq]; rfl
    have : ∀ k, s2.vehicles.contains k = vs.contains k := by
      intro k
      rw [e4]
      generalize s1.frozen = fs
      clear * -
      induction fs generalizing vs with
      | nil => rfl
      | cons a fs ih =>
        rw [List.foldl_cons, ih]
        exact SlotMap.isSome_get?_modify vs a k _
    simp only [this]

theorem Reach.frozen_nodup [Env] [LawfulDijkstra] (h : Reach strict s) : s.frozen.Nodup := by
  induction h with
  | new => simp [Sim.new]
  | @exec s s' op hr ha he ih =>
    have hi := hr.inv
    cases op with
    | addLink a =>
      simp only [Sim.exec, M_bind_ok, M_pure_ok] at he
      obtain ⟨⟨s1, k⟩, h, rfl⟩ := he
      dsimp only; rw [(addLink_ok hi.net.wf h).eq]; exact ih
    | addLinkGroup ids m =>
      obtain ⟨g, lcs, h⟩ := addLinkGroup_ok hi.net he
      rw [h.eq]; exact ih
    | addLinkConvergance a b =>
      rcases addLinkConvergance_ok hi.net he with rfl | ⟨c, la, lb, -, -, -, -, -, -, h, e⟩
      · exact ih
      · rw [e]; exact ih
    | addLinkConnection a b =>
      obtain ⟨-, -, h, e⟩ := addLinkConnection_ok he
      rw [e]; exact ih
    | addTrafficLight tl =>
      simp only [Sim.exec, M_bind_ok, M_pure_ok] at he
      obtain ⟨⟨s1, k⟩, h, rfl⟩ := he
      dsimp only; rw [(addTrafficLight_ok hi.lwf h).eq]; exact ih
    | addVehicle a l =>
      simp only [Sim.exec, M_bind_ok, M_pure_ok] at he
      obtain ⟨⟨s1, k⟩, h, rfl⟩ := he
      dsimp only; rw [(addVehicle_ok hi h).eq]; exact ih
    | removeVehicle k =>
      rw [((removeVehicle_spec (E := fun _ => True) hi k).ok he).eq]; exact ih
    | randomiseVelocityAdjusts sd f =>
      rw [(randomise_ok he).2]; exact ih
    | setVehicleFrozen k b =>
      simp only [Sim.exec, M_pure_ok] at he
      subst he
      unfold Sim.setVehicleFrozen
      split
      · rename_i hc
        refine List.nodup_append.2 ⟨ih, by simp, ?_⟩
        rintro x hx y hy rfl
        rw [List.mem_singleton] at hy; subst hy
        simp [hx] at hc
      · exact ih.erase _
      · exact ih
    | setVehicleDestination k d =>
      simp only [Sim.exec, Sim.setVehicleDestination, M_bind_ok, M_pure_ok] at he
      obtain ⟨_, _, _, _, rfl⟩ := he
      exact ih
    | setLinkControl k c =>
      rw [(setLinkControl_ok he).2.2]; exact ih
    | doLaneChange k l d =>
      simp only [Sim.exec, Sim.doLaneChange, M_bind_ok] at he
      obtain ⟨v, hv, he⟩ := he
      split at he <;>
      · simp only [M_bind_ok] at he
        obtain ⟨_, _, _, _, r, _, he⟩ := he
        cases r with
        | none => simp at he
        | some r =>
          obtain ⟨pos, off, sl⟩ := r
          simp only [M_bind_ok, M_pure_ok] at he
          obtain ⟨_, _, _, _, rfl⟩ := he
          exact ih
    | step dt =>
      obtain ⟨s1, s2, s3, s4, s5, s6, h⟩ := (step_spec hi dt).ok he
      obtain ⟨-, e1, e2 | e2⟩ := h.frozen
      · rw [e1, e2]; exact ih
      · rw [e1, e2]; exact ih.filter _

/-- **C12.** Reading the frozen attribute returns the value last set, other vehicles are not affected,
setting twice is the same as setting once, and nothing else of the simulation changes. -/
theorem C12_set_frozen [Env] [LawfulDijkstra] (h : Reach strict s) (k : Key) (b : Bool) :
    (s.setVehicleFrozen k b).getVehicleFrozen k = b ∧
    (∀ j, j ≠ k → (s.setVehicleFrozen k b).getVehicleFrozen j = s.getVehicleFrozen j) ∧
    (s.setVehicleFrozen k b).setVehicleFrozen k b = s.setVehicleFrozen k b ∧
    s.setVehicleFrozen k b = { s with frozen := (s.setVehicleFrozen k b).frozen } := by
  have hn := h.frozen_nodup
  have h1 : (s.setVehicleFrozen k b).getVehicleFrozen k = b := by
    cases b <;> cases e : s.frozen.contains k <;>
      simp only [Sim.setVehicleFrozen, Sim.getVehicleFrozen, e]
    · have : k ∉ s.frozen.erase k := fun hk => by simp [hn.mem_erase_iff] at hk
      simpa using this
    · simp
  refine ⟨h1, ?_, ?_, ?_⟩
  · intro j hj
    cases b <;> cases e : s.frozen.contains k <;>
      simp only [Sim.setVehicleFrozen, Sim.getVehicleFrozen, e]
    · rw [Bool.eq_iff_iff]
      simp only [List.contains_iff_mem]
      rw [hn.mem_erase_iff]
      simp [hj]
    · rw [Bool.eq_iff_iff]
      simp [hj]
  · have h2 : (s.setVehicleFrozen k b).frozen.contains k = b := h1
    generalize s.setVehicleFrozen k b = s1 at h2
    unfold Sim.setVehicleFrozen
    rw [h2]
    cases b <;> rfl
  · obtain ⟨f, e⟩ := setVehicleFrozen_eq s k b
    rw [e]

/-- **C12.** A step keeps the frozen attribute of every vehicle that is still in the simulation. -/
theorem C12_step [Env] [LawfulDijkstra] (h : Reach strict s) {dt : F} (hst : s.step dt = .ok s') {k : Key} {v : Vehicle F}
    (hk : s'.getVehicle k = .ok v) : s'.getVehicleFrozen k = s.getVehicleFrozen k := by
  obtain ⟨s1, s2, s3, s4, s5, s6, hr⟩ := (step_spec h.inv dt).ok hst
  unfold Sim.getVehicleFrozen
  obtain ⟨-, e1, e2 | e2⟩ := hr.frozen
  · rw [e1, e2]
  · rw [e1, e2]
    have hv : s2.vehicles.contains k = true := by
      obtain ⟨u, hu⟩ := hr.back (getVeh_ok.1 hk)
      obtain ⟨v1, v2, v4, ht⟩ := hr.trace hu
      have := ht.get2
      rw [hr.vehicles3] at this
      exact contains_of_get this
    rw [Bool.eq_iff_iff]
    simp [hv]

/-! ## C17 -/

/-- **C17.** A step increases the frame counter by one; no other operation changes it. -/
theorem C17_frame [Env] [LawfulDijkstra] (h : Reach strict s) (op : Op F) (ho : s.exec op = .ok s') :
    s'.frame = match (generalizing := false) op with
      | .step _ => s.frame + 1
      | _ => s.frame := by
  have hi := h.inv
  cases op with
  | addLink a =>
    simp only [Sim.exec, M_bind_ok, M_pure_ok] at ho
    obtain ⟨⟨s1, k⟩, h, rfl⟩ := ho
    dsimp only; rw [(addLink_ok hi.net.wf h).eq]
  | addLinkGroup ids m =>
    obtain ⟨g, lcs, h⟩ := addLinkGroup_ok hi.net ho
    rw [h.eq]
  | addLinkConvergance a b =>
    rcases addLinkConvergance_ok hi.net ho with rfl | ⟨c, la, lb, -, -, -, -, -, -, h, e⟩
    · rfl
    · rw [e]
  | addLinkConnection a b =>
    obtain ⟨-, -, h, e⟩ := addLinkConnection_ok ho
    rw [e]
  | addTrafficLight tl =>
    simp only [Sim.exec, M_bind_ok, M_pure_ok] at ho
    obtain ⟨⟨s1, k⟩, h, rfl⟩ := ho
    dsimp only; rw [(addTrafficLight_ok hi.lwf h).eq]
  | addVehicle a l =>
    simp only [Sim.exec, M_bind_ok, M_pure_ok] at ho
    obtain ⟨⟨s1, k⟩, h, rfl⟩ := ho
    dsimp only; rw [(addVehicle_ok hi h).eq]
  | removeVehicle k => rw [((removeVehicle_spec (E := fun _ => True) hi k).ok ho).eq]
  | randomiseVelocityAdjusts sd f => rw [(randomise_ok ho).2]
  | setVehicleFrozen k b =>
    simp only [Sim.exec, M_pure_ok] at ho
    subst ho
    obtain ⟨f, e⟩ := setVehicleFrozen_eq s k b
    rw [e]
  | setVehicleDestination k d =>
    simp only [Sim.exec, Sim.setVehicleDestination, M_bind_ok, M_pure_ok] at ho
    obtain ⟨_, _, _, _, rfl⟩ := ho
    rfl
  | setLinkControl k c => rw [(setLinkControl_ok ho).2.2]
  | doLaneChange k l d =>
    simp only [Sim.exec, Sim.doLaneChange, M_bind_ok] at ho
    obtain ⟨v, hv, he⟩ := ho
    split at he <;>
    · simp only [M_bind_ok] at he
      obtain ⟨_, _, _, _, r, _, he⟩ := he
      cases r with
      | none => simp at he
      | some r =>
        obtain ⟨pos, off, sl⟩ := r
        simp only [M_bind_ok, M_pure_ok] at he
        obtain ⟨_, _, _, _, rfl⟩ := he
        rfl
  | step dt =>
    obtain ⟨s1, s2, s3, s4, s5, s6, h⟩ := (step_spec hi dt).ok ho
    have e1 : s1.frame = s.frame := by
      rcases h.lanes with ⟨-, e⟩ | ⟨-, vs, lcs, e⟩
      · rw [e]
      · rw [e.eq]
    obtain ⟨wss, hl⟩ := h.lights
    have e2 : s2.frame = s1.frame := by
      rcases h.acc with ⟨-, e⟩ | ⟨-, n0, n1, vs, e⟩
      · rw [e]
      · rw [e.eq]
    have e3 : s6.frame = s2.frame := by
      rw [h.place.eq]; dsimp only; rw [h.adv.eq]; dsimp only; rw [h.move.eq]; dsimp only; rw [hl.eq]
    rw [h.eq]; dsimp only; rw [e3, e2, e1]

/-! ## C18 -/

omit [Flt F] in
theorem erase_last_eq_filter {ks : List Key} (hn : ks.Nodup) (k : Key) :
    (ks.reverse.erase k).reverse = ks.filter (fun j => j ≠ k) := by
  rw [(List.nodup_reverse.2 hn).erase_eq_filter, List.filter_reverse, List.reverse_reverse]
  refine List.filter_congr fun x _ => ?_
  rw [Bool.eq_iff_iff]
  simp

omit [Flt F] in
theorem filter_ne_of_not_mem {ks : List Key} {k : Key} (h : k ∉ ks) : ks.filter (fun j => j ≠ k) = ks := by
  rw [List.filter_eq_self]
  intro a ha
  simp only [decide_not, Bool.not_eq_eq_eq_not, Bool.not_true, decide_eq_false_iff_not]
  rintro rfl
  exact h ha

/-- **C18.** Removing a vehicle never fails; the vehicle disappears from the simulation and from its
link, everything else is unchanged, and removing it again changes nothing. -/
theorem C18_remove [Env] [LawfulDijkstra] (h : Reach strict s) (k : Key) : ∃ s', s.removeVehicle k = .ok s' ∧
    s'.vehicles.get? k = none ∧ (∀ j, j ≠ k → s'.vehicles.get? j = s.vehicles.get? j) ∧
    (∀ lk, s'.links.get? lk = (s.links.get? lk).map fun l => { l with vehicles := l.vehicles.filter fun j => j ≠ k }) ∧
    s' = { s with links := s'.links, vehicles := s'.vehicles } ∧
    s'.removeVehicle k = .ok s' := by
  have hi := h.inv
  have inval : ∀ s : Sim F, s.vehicles.get? k = none → s.removeVehicle k = .ok s := by
    intro s hs
    unfold Sim.removeVehicle SlotMap.remove
    rw [hs]; rfl
  cases hv : s.vehicles.get? k with
  | none =>
    refine ⟨s, inval s hv, hv, fun _ _ => rfl, fun lk => ?_, rfl, inval s hv⟩
    cases hl : s.links.get? lk with
    | none => rfl
    | some l =>
      have : k ∉ l.vehicles := by
        intro hk
        obtain ⟨v, hv', -⟩ := ((hi.mem _ l hl).2 k).1 hk
        rw [hv] at hv'; cases hv'
      rw [Option.map_some, filter_ne_of_not_mem this]
  | some v =>
    have hvi := hi.veh k v hv
    have hlk : v.linkId = some v.pathfind.src := hvi.src
    obtain ⟨l, hl⟩ := get_of_contains (hvi.drivable.valid _ (List.mem_of_mem_head? hvi.src))
    have hrun : s.removeVehicle k = .ok { s with links := s.links.modify v.pathfind.src (fun l => l.removeVehicle k)
                                                 vehicles := (s.vehicles.remove k).1 } := by
      unfold Sim.removeVehicle
      have e : s.vehicles.remove k = ((s.vehicles.remove k).1, some v) := by
        rw [← hv, ← SlotMap.remove_snd]
      rw [e]
      dsimp only
      rw [hlk]
      dsimp only
      rw [hvi.id, updLink_ok.2 ⟨⟨l, hl⟩, rfl⟩]
      rfl
    refine ⟨_, hrun, ?_, ?_, ?_, rfl, inval _ ?_⟩
    · dsimp only; rw [SlotMap.get?_remove, if_pos rfl]
    · intro j hj; dsimp only; rw [SlotMap.get?_remove, if_neg hj]
    · intro lk
      dsimp only
      rw [SlotMap.get?_modify]
      split
      · rename_i e
        rw [e, hl, Option.map_some, Option.map_some]
        unfold Link.removeVehicle
        rw [erase_last_eq_filter (hi.mem _ l hl).1]
      · rename_i e
        cases hl' : s.links.get? lk with
        | none => rfl
        | some l' =>
          have : k ∉ l'.vehicles := by
            intro hk
            obtain ⟨v', hv', hlk'⟩ := ((hi.mem _ l' hl').2 k).1 hk
            rw [hv] at hv'; cases hv'
            rw [hlk] at hlk'
            exact e (Option.some.inj hlk').symm
          rw [Option.map_some, filter_ne_of_not_mem this]
    · dsimp only; rw [SlotMap.get?_remove, if_pos rfl]

omit [Flt F] in
/-- **C18.** Removing a vehicle that does not exist changes nothing. -/
theorem C18_remove_invalid {k : Key} (h : ∀ v, s.getVehicle k ≠ .ok v) : s.removeVehicle k = .ok s := by
  have : s.vehicles.get? k = none := by
    cases e : s.vehicles.get? k with
    | none => rfl
    | some v => exact absurd (getVeh_ok.2 e) (h v)
  unfold Sim.removeVehicle SlotMap.remove
  rw [this]; rfl

/-! ## C19 -/

/-- **C19.** A new vehicle is at position 0 with speed 0 on its link and has no destination; every other
vehicle is as before, the link lists the vehicles it listed before in the same order, and the other
links, the lights, the conflicts and the frozen attributes are as before. -/
theorem C19_add [Env] [LawfulDijkstra] (h : Reach strict s) {a : VehicleAttributes F} {link k : Key}
    (ha : s.addVehicle a link = .ok (s', k)) :
    (∃ v, s'.getVehicle k = .ok v ∧ v.pos = 0.0 ∧ v.vel = 0.0 ∧ v.linkId = some link ∧ v.destination = Key.null ∧
      v.laneChange = none) ∧
    (∀ j, j ≠ k → s'.vehicles.get? j = s.vehicles.get? j) ∧ (∀ v, s.getVehicle k ≠ .ok v) ∧
    (∃ l l', s.getLinkRef link = .ok l ∧ s'.getLinkRef link = .ok l' ∧ k ∈ l'.vehicles ∧
      l'.vehicles.filter (fun j => j ≠ k) = l.vehicles ∧ l' = { l with vehicles := l'.vehicles }) ∧
    (∀ lk, lk ≠ link → s'.links.get? lk = s.links.get? lk) ∧
    s' = { s with links := s'.links, vehicles := s'.vehicles } := by
  have hi := h.inv
  have hA := addVehicle_ok hi ha
  obtain ⟨v, pf, hp, h1, h2, h3, hg⟩ := hA.veh
  have hkv : s'.vehicles.get? k = some v := by rw [hg, if_pos rfl]
  obtain ⟨p, d, r, c, hv⟩ := hp
  have hvl : v.linkId = some link := by rw [hv]; rfl
  obtain ⟨l, hl⟩ := get_of_contains hA.valid
  have hlinks : ∃ i, s'.links = s.links.modify link fun _ => { l with vehicles := l.vehicles.insertIdx i k } := by
    have := ha
    simp only [Sim.addVehicle, M_bind_ok] at this
    obtain ⟨⟨vs, k'⟩, -, links', hl', he⟩ := this
    rw [M_pure_ok] at he
    obtain ⟨rfl, rfl⟩ := Prod.mk.inj he
    simp only [Sim.insertOnLink, Link.insertVehicle, M_bind_ok, M_pure_ok, getLink_ok, updLink_ok] at hl'
    obtain ⟨l0, hl0, l1, ⟨v1, -, i, -, rfl⟩, -, rfl⟩ := hl'
    rw [hl] at hl0; cases hl0
    exact ⟨i, rfl⟩
  obtain ⟨i, hi'⟩ := hlinks
  have hl' : s'.links.get? link = some { l with vehicles := l.vehicles.insertIdx i k } := by
    rw [hi', SlotMap.get?_modify_self, hl]; rfl
  have hk : k ∉ l.vehicles := by
    intro hk
    obtain ⟨u, hu, -⟩ := ((hi.mem _ l hl).2 k).1 hk
    exact hA.fresh (SlotMap.get?_issued hu)
  refine ⟨⟨v, getVeh_ok.2 hkv, ?_, ?_, hvl, ?_, ?_⟩, ?_, ?_, ⟨l, _, getLink_ok.2 hl, getLink_ok.2 hl', ?_, ?_, rfl⟩, ?_, hA.eq⟩
  · rw [hv]; rfl
  · rw [hv]; rfl
  · rw [hv]; exact h2
  · rw [hv]; rfl
  · intro j hj; rw [hg, if_neg hj]
  · intro u hu; exact hA.fresh (SlotMap.get?_issued (getVeh_ok.1 hu))
  · exact ((hA.mem _ _ hl').2 k).2 ⟨v, hkv, hvl⟩
  · dsimp only
    have hmem := ((hA.mem _ _ hl').2 k).2 ⟨v, hkv, hvl⟩
    dsimp only at hmem
    have hle : i ≤ l.vehicles.length := by
      by_contra hgt
      rw [List.insertIdx_of_length_lt (by omega)] at hmem
      exact hk hmem
    clear * - hk hle
    generalize l.vehicles = ks at *
    induction ks generalizing i with
    | nil => obtain rfl : i = 0 := by simpa using hle
             simp
    | cons a ks ih =>
      cases i with
      | zero => rw [List.insertIdx_zero, List.filter_cons_of_neg (by simp)]; exact filter_ne_of_not_mem hk
      | succ i =>
        rw [List.insertIdx_succ_cons, List.filter_cons_of_pos, ih i]
        · exact fun h => hk (by simp [h])
        · simpa using hle
        · simp only [decide_not, Bool.not_eq_eq_eq_not, Bool.not_true, decide_eq_false_iff_not]
          rintro rfl; exact hk (by simp)
  · intro lk hlk
    rw [hi', SlotMap.get?_modify_ne _ _ hlk]

end

/-! ## Examples

The town of `Verif/Lemmas/Town.lean` meets the hypotheses of the theorems above: it has two vehicles, one
of them frozen, and in the third step the other one changes lanes. -/

section
attribute [local instance] Town.env

example : ∃ s s' : Sim Float, Reach True s ∧ s.step 0.2 = .ok s' ∧ Reach True s' ∧ Town.route s 0 = [1] ∧
    Town.route s' 0 = [0, 2] ∧ Town.route s' 1 = [3] ∧ s'.getVehicleFrozen ⟨1, 1⟩ = true ∧ s'.frame = 3 := by
  obtain ⟨s, s', h1, -, h2, h3, h4⟩ := Town.third
  simp only [Town.test, Bool.and_eq_true, beq_iff_eq] at h4
  exact ⟨s, s', h1, h2, h3, h4.1.1.1.1, h4.1.1.1.2, h4.1.1.2, h4.1.2, h4.2⟩

/-- A step of a reachable simulation can fail, as in `C10_step_errors`. -/
example : ∃ (env : Env) (s : Sim Float) (e : Err), @LawfulDijkstra env ∧ @Reach Float _ env True s ∧
    @Sim.step Float _ env s 0.1 = .error e := by
  obtain ⟨env, s, h⟩ := C36_projection_empty_reachable
  exact ⟨env, s, _, h⟩

/-- A vehicle is added, removed, and another vehicle is added in the slot of the first: the hypotheses of
`C11_vehicle_fresh`, `C11_never_back`, `C18_remove` and `C19_add`. -/
example : ∃ (s0 s1 s2 s3 : Sim Float) (k k' : Key), Reach True s0 ∧ s0.addVehicle Town.car ⟨0, 1⟩ = .ok (s1, k) ∧
    s1.removeVehicle k = .ok s2 ∧ Run True s1 s2 ∧ s2.addVehicle Town.car ⟨0, 1⟩ = .ok (s3, k') ∧ k.idx = k'.idx := by
  have h : (match runChecked (Town.ops.take 1) Sim.new with
    | some s0 =>
      match s0.addVehicle Town.car ⟨0, 1⟩ with
      | .ok p => match p.1.removeVehicle p.2 with
        | .ok s2 => match s2.addVehicle Town.car ⟨0, 1⟩ with
          | .ok q => p.2.idx == q.2.idx
          | .error _ => false
        | .error _ => false
      | .error _ => false
    | none => false) = true := by decide +kernel
  split at h
  · rename_i s0 h0
    split at h
    · rename_i p h1
      split at h
      · rename_i s2 h2
        split at h
        · rename_i q h3
          refine ⟨s0, p.1, s2, q.1, p.2, q.2, runChecked_reach _ _ _ .new h0, h1, h2, ?_, h3, by simpa using h⟩
          exact .exec (.removeVehicle p.2) .refl trivial h2
        · cases h
      · cases h
    · cases h
  · cases h

end

end TrafficSim
