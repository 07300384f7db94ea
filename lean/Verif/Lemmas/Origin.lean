import Verif.Lemmas.Run

/-! # Where a vehicle comes from

What each public operation does to each vehicle, and induction over the history of a vehicle. -/

namespace TrafficSim

section
variable {F : Type} [Flt F] {strict : Prop} {s s' : Sim F} {op : Op F}

/-- How the vehicle `v'` with key `k` arises in the operation `op`. -/
inductive Origin [Env] (strict : Prop) (s : Sim F) (op : Op F) (s' : Sim F) (k : Key) (v' : Vehicle F) : Prop
  | added (a : VehicleAttributes F) (link : Key) (pf : PathfindingModel) : op = .addVehicle a link →
      ¬ s.vehicles.Issued k → pf.src = link → pf.dst = Key.null →
      Placed { Vehicle.new k a with pathfind := pf, route := [link], entered := 1, canExit := false } v' →
      Origin strict s op s' k v'
  | same : s.vehicles.get? k = some v' → (∀ dt, op ≠ .step dt) → Origin strict s op s' k v'
  | adjusted (v : Vehicle F) (x : F) : s.vehicles.get? k = some v → v' = v.setVelocityAdjust (Sim.clampAdjust x) →
      (∃ sd f, op = .randomiseVelocityAdjusts sd f ∧ x = f k) → Origin strict s op s' k v'
  | destined (v : Vehicle F) (pf : PathfindingModel) (dst : Key) : s.vehicles.get? k = some v →
      op = .setVehicleDestination k dst → pf.src = v.pathfind.src → pf.dst = dst →
      v' = { v with pathfind := pf, canExit := false } → Origin strict s op s' k v'
  | shifted (v : Vehicle F) (link : Key) (d pos : F) (lc : LaneChange F) (pf : PathfindingModel) :
      s.vehicles.get? k = some v → op = .doLaneChange k link d → pf.src = link → pf.dst = v.pathfind.dst →
      v' = { v with route := [link], pathfind := pf, entered := 1, pos := pos, laneChange := some lc, canExit := false } →
      Origin strict s op s' k v'
  | stepped (dt : F) (s1 s2 s3 s4 s5 s6 : Sim F) (v v1 v2 v4 : Vehicle F) : op = .step dt →
      StepRun strict s dt s1 s2 s3 s4 s5 s6 s' → s.vehicles.get? k = some v →
      Trace s dt s1 s2 s3 s4 s' k v v1 v2 v4 → Origin strict s op s' k v'

theorem exec_origin [Env] [LawfulDijkstra] (hs : SimInv strict s) (h : s.exec op = .ok s') {k : Key} {v' : Vehicle F}
    (hv' : s'.vehicles.get? k = some v') : Origin strict s op s' k v' := by
  have same : s'.vehicles = s.vehicles → (∀ dt, op ≠ .step dt) → Origin strict s op s' k v' := fun e hne =>
    .same (by rw [← e]; exact hv') hne
  cases op with
  | addLink a =>
    simp only [Sim.exec, M_bind_ok, M_pure_ok] at h
    obtain ⟨⟨s1, k⟩, h, rfl⟩ := h
    exact same (by dsimp only; rw [(addLink_ok hs.net.wf h).eq]) nofun
  | addLinkGroup ids m =>
    obtain ⟨g, lcs, h⟩ := addLinkGroup_ok hs.net h
    exact same (by rw [h.eq]) nofun
  | addLinkConvergance a b =>
    rcases addLinkConvergance_ok hs.net h with rfl | ⟨c, la, lb, -, -, -, -, -, -, -, he⟩
    · exact same rfl nofun
    · exact same (by rw [he]) nofun
  | addLinkConnection a b =>
    obtain ⟨-, -, -, he⟩ := addLinkConnection_ok h
    exact same (by rw [he]) nofun
  | addTrafficLight tl =>
    simp only [Sim.exec, M_bind_ok, M_pure_ok] at h
    obtain ⟨⟨s1, k⟩, h, rfl⟩ := h
    exact same (by dsimp only; rw [(addTrafficLight_ok hs.lwf h).eq]) nofun
  | addVehicle a l =>
    simp only [Sim.exec, M_bind_ok, M_pure_ok] at h
    obtain ⟨⟨s1, j⟩, h, rfl⟩ := h
    have h := addVehicle_ok hs h
    obtain ⟨v, pf, h1, h2, h3, -, hget⟩ := h.veh
    dsimp only at hv'
    rw [hget] at hv'
    split at hv'
    · rename_i e; subst e; cases hv'
      exact .added a l pf rfl h.fresh h2 h3 h1
    · exact .same hv' nofun
  | removeVehicle j =>
    have h := (removeVehicle_spec (E := fun _ => True) hs j).ok h
    rw [h.vehicles, SlotMap.get?_remove] at hv'
    split at hv'
    · cases hv'
    · exact .same hv' nofun
  | randomiseVelocityAdjusts sd f =>
    obtain ⟨h1, -⟩ := randomise_ok h
    obtain ⟨v, hv, e⟩ := h1.bwd hv'
    exact .adjusted v (f k) hv e ⟨sd, f, rfl, rfl⟩
  | setVehicleFrozen j b =>
    simp only [Sim.exec, M_pure_ok] at h
    subst h
    obtain ⟨f, e⟩ := setVehicleFrozen_eq s j b
    exact same (by rw [e]) nofun
  | setVehicleDestination j d =>
    have hk : s.vehicles.contains j = true := by
      simp only [Sim.exec, Sim.setVehicleDestination, M_bind_ok, getVeh_ok] at h
      obtain ⟨v, hv, -⟩ := h
      exact contains_of_get hv
    have h := (setVehicleDestination_spec (E := fun _ => True) hs (.inr trivial) (.inr trivial) hk (.inr (.inr trivial))).ok h
    obtain ⟨v, pf, h1, h2, h3, -, he⟩ := h.veh
    rw [he, SlotMap.get?_modify] at hv'
    split at hv'
    · rename_i e; subst e
      rw [h1] at hv'
      exact .destined v pf d h1 rfl h2 h3 (Option.some.inj hv').symm
    · exact .same hv' nofun
  | setLinkControl j c =>
    obtain ⟨-, -, h2⟩ := setLinkControl_ok h
    exact same (by rw [h2]) nofun
  | doLaneChange j l d =>
    have hk : s.vehicles.contains j = true ∧ s.links.contains l = true := by
      simp only [Sim.exec, Sim.doLaneChange, M_bind_ok, getVeh_ok] at h
      obtain ⟨v, hv, h⟩ := h
      refine ⟨contains_of_get hv, ?_⟩
      split at h
      · simp only [M_bind_ok, updLink_ok, getLink_ok] at h
        obtain ⟨links', ⟨-, rfl⟩, l', hl, -⟩ := h
        have h1 := contains_of_get hl
        have := SRel.modify_one (R := fun _ _ _ => True) s.links ‹Key› (fun l => l.removeVehicle j)
          (fun _ _ _ => trivial) (fun _ _ => trivial)
        rwa [this.contains] at h1
      · simp only [M_bind_ok, M_pure_ok, getLink_ok] at h
        obtain ⟨links', rfl, l', hl, -⟩ := h
        exact contains_of_get hl
    have h := (doLaneChange_spec (E := fun _ => True) (.inr trivial) (.inr trivial) (.inr ⟨trivial, trivial, trivial⟩) hs hk.1 hk.2 d).ok h
    obtain ⟨v, v1, h1, hsh, he⟩ := h.vehs
    rw [he, SlotMap.get?_modify] at hv'
    split at hv'
    · rename_i e; subst e
      rw [h1] at hv'
      obtain ⟨pos, lc, pf, e, h2, h3, -⟩ := hsh.ex
      exact .shifted v l d pos lc pf h1 rfl h2 h3 ((Option.some.inj hv').symm.trans e)
    · exact .same hv' nofun
  | step dt =>
    obtain ⟨s1, s2, s3, s4, s5, s6, h⟩ := (step_spec hs dt).ok h
    obtain ⟨v, hv⟩ := h.back hv'
    obtain ⟨v1, v2, v4, ht⟩ := h.trace hv
    exact .stepped dt s1 s2 s3 s4 s5 s6 v v1 v2 v4 rfl h hv ht

end

end TrafficSim
