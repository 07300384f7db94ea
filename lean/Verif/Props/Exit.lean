import Verif.Props.Motion

/-! # C15, C49, C61: paths, and where vehicles may leave -/

namespace TrafficSim

section
variable {F : Type} [Flt F] {strict : Prop} {s s' : Sim F} {dt : F}

/-- A vehicle that may leave at the end of its route has its destination there. -/
def Vehicle.ExitOK (v : Vehicle F) : Prop :=
  v.canExit = true → v.route.getLast? = some v.destination

theorem Steered.exitOK {links : LinkSet F} {k : Key} {v v1 : Vehicle F} (hi : VehInv links k v) (hv : v.ExitOK)
    (h : Steered links v v1) : v1.ExitOK := by
  rcases h with (rfl | ⟨p, hc, -, rfl⟩) | ⟨p, hc, -, hs⟩
  · exact hv
  · intro h
    exact (hi.paths p hc.mem).exit.1 h
  · obtain ⟨link, pos, lc, pf, -, rfl, -, hd, -⟩ := hs.ex
    intro h
    have := (hi.paths p hc.mem).exit.1 h
    unfold Vehicle.destination
    dsimp only
    rw [hd]; exact this

/-- The route, the destination and the permission to leave after the first three phases of a step. -/
theorem Trace.exitOK [Env] {s1 s2 s3 s4 : Sim F} {k : Key} {v v1 v2 v4 : Vehicle F}
    (h : Trace s dt s1 s2 s3 s4 s' k v v1 v2 v4) (hi : VehInv s.links k v) (hv : v.ExitOK) : v4.ExitOK := by
  have h1 := h.steer.exitOK hi hv
  obtain ⟨a, w, rfl⟩ := h.acc.same
  obtain ⟨q, e, lc, cnt, rfl, -⟩ := h.move.eq
  exact h1

/-- **C61.** A vehicle that may leave at the end of its route has its destination there. -/
theorem C61_can_exit [Env] [LawfulDijkstra] (h : Reach strict s) {k : Key} {v : Vehicle F} (hv : s.getVehicle k = .ok v)
    (hx : v.canExit = true) : v.route.getLast? = some v.destination := by
  suffices H : ∀ k v, s.vehicles.get? k = some v → v.ExitOK from H k v (getVeh_ok.1 hv) hx
  clear hv hx
  induction h with
  | new =>
    intro k v hv
    have : (Sim.new : Sim F).vehicles.get? k = none := rfl
    rw [this] at hv; cases hv
  | @exec s s' op hr ha he ih =>
    intro k v' hv'
    cases exec_origin hr.inv he hv' with
    | added a link pf _ _ _ _ hp =>
      obtain ⟨p, d, r, c, rfl⟩ := hp
      intro h; cases h
    | same hv _ => exact ih k v' hv
    | adjusted v x hv e _ => subst e; exact ih k v hv
    | destined v pf dst hv _ _ _ e => subst e; intro h; cases h
    | shifted v link d pos lc pf hv _ _ _ e => subst e; intro h; cases h
    | stepped dt s1 s2 s3 s4 s5 s6 v v1 v2 v4 _ hsr hv ht =>
      have h4 := ht.exitOK (hr.inv.veh k v hv) (ih k v hv)
      cases ht.out with
      | stays u hu hp _ =>
        rw [hv'] at hu; cases hu
        obtain ⟨p, d, r, c, rfl⟩ := hp
        exact h4
      | passes v5 u hp hne hu hpl =>
        rw [hv'] at hu; cases hu
        obtain ⟨p, d, r, c, rfl⟩ := hpl
        obtain ⟨k', rest, l, pf, h1, -, -, rfl, -, hd⟩ := hp.ex
        dsimp only at hne
        intro hx
        have := h4 hx
        rw [h1] at this
        obtain ⟨b, rest', rfl⟩ := List.exists_cons_of_ne_nil hne
        rw [List.getLast?_cons_cons] at this
        unfold Vehicle.destination at *
        dsimp only
        rw [(hd b rfl).2.1]
        exact this
      | leaves _ _ _ hn => rw [hv'] at hn; cases hn

/-- **C15 (partly).** A vehicle that has permission to leave when it drives off the end of its last link
leaves at its destination.  Full statement: a vehicle that disappears in a step was on its destination
link.  That is false, see `C15_leaves_elsewhere`; what is missing is a check for the permission where
vehicles drive off the end of their link. -/
theorem C15_partial [Env] [LawfulDijkstra] (h : Reach strict s) (hst : s.step dt = .ok s') {k : Key} {v : Vehicle F}
    (hv : s.getVehicle k = .ok v) (hgone : ∀ v', s'.getVehicle k ≠ .ok v') :
    ∃ s1 v1, s.calculateLaneChanges = .ok s1 ∧ s1.getVehicle k = .ok v1 ∧ v1.destination = v.destination ∧
      v1.route = v1.linkId.toList ∧ (v1.canExit = true → v1.linkId = some v.destination) := by
  obtain ⟨s1, s2, s3, s4, s5, s6, hr⟩ := (step_spec h.inv dt).ok hst
  obtain ⟨v1, v2, v4, ht⟩ := hr.trace (getVeh_ok.1 hv)
  have hd := ht.steer.same.2.2.2.2
  refine ⟨s1, v1, hr.run1, getVeh_ok.2 ht.get1, hd, ?_⟩
  have hx := ht.steer.exitOK (h.inv.veh k v (getVeh_ok.1 hv)) (fun hx => C61_can_exit h hv hx)
  have hr4 : v4.route = v1.route := by
    obtain ⟨a, w, ev2⟩ := ht.acc.same
    obtain ⟨q, e, lc, cnt, ev4, -⟩ := ht.move.eq
    rw [ev4, ev2]
  cases ht.out with
  | stays u hu => exact absurd (getVeh_ok.2 hu) (hgone u)
  | passes v5 u _ _ hu => exact absurd (getVeh_ok.2 hu) (hgone u)
  | leaves v5 hp hnil _ =>
    obtain ⟨k', rest, l, pf, h1, -, -, rfl, -⟩ := hp.ex
    dsimp only at hnil; subst hnil
    rw [hr4] at h1
    refine ⟨by unfold Vehicle.linkId; rw [h1]; rfl, fun hc => ?_⟩
    have := hx hc
    rw [h1] at this
    unfold Vehicle.linkId
    rw [h1]
    unfold Vehicle.destination at *
    rw [← hd, ← this]
    rfl

/-- **C49.** Every path from which a vehicle may choose has one to eight links, each connected to the
next; it begins on the link of the vehicle or a lane next to it, and permits leaving exactly if it ends
at the destination. -/
theorem C49_paths [Env] [LawfulDijkstra] (h : Reach strict s) {k : Key} {v : Vehicle F} (hv : s.getVehicle k = .ok v)
    {p : Path} (hp : p ∈ v.pathfind.paths) :
    1 ≤ p.links.length ∧ p.links.length ≤ 8 ∧
      (∀ i a b, p.links[i]? = some a → p.links[i + 1]? = some b →
        ∃ l, s.getLinkRef a = .ok l ∧ b ∈ l.linksOut) ∧
      (∃ a b, v.linkId = some a ∧ p.links[0]? = some b ∧
        (b = a ∨ ∃ l, s.getLinkRef a = .ok l ∧ b ∈ l.laneChanges)) ∧
      (p.canExit = true ↔ p.links.getLast? = some v.destination) := by
  have hi := h.inv.veh k v (getVeh_ok.1 hv)
  have hok := hi.paths p hp
  obtain ⟨b, hb, hbb⟩ := hok.start
  refine ⟨?_, hok.size, ?_, ?_, hok.exit⟩
  · cases e : p.links with
    | nil => rw [e] at hb; cases hb
    | cons => simp
  · intro i a b ha hb
    have hc := hok.drivable.chain
    rw [List.isChain_iff_getElem] at hc
    obtain ⟨hlt, rfl⟩ := List.getElem?_eq_some_iff.1 hb
    obtain ⟨hlt', rfl⟩ := List.getElem?_eq_some_iff.1 ha
    obtain ⟨l, hl, hm⟩ := hc i hlt
    exact ⟨l, getLink_ok.2 hl, hm⟩
  · refine ⟨v.pathfind.src, b, hi.src, by rw [← List.head?_eq_getElem?]; exact hb, ?_⟩
    rcases hbb with rfl | ⟨l, hl, hm⟩
    · exact .inl rfl
    · exact .inr ⟨l, getLink_ok.2 hl, hm⟩

end

/-! ## Examples -/

section
attribute [local instance] Town.env

/-- `C49_paths` and `C61_can_exit` apply to a car that takes the path to its destination. -/
example : ∃ (s s' : Sim Float) (v v' : Vehicle Float) (p : Path), Reach True s ∧ s.step 0.2 = .ok s' ∧ Reach True s' ∧
    s.getVehicle ⟨0, 1⟩ = .ok v ∧ p ∈ v.pathfind.paths ∧ p.links = [⟨0, 1⟩, ⟨1, 1⟩] ∧ s'.getVehicle ⟨0, 1⟩ = .ok v' ∧
    v'.canExit = true ∧ v'.route = [⟨0, 1⟩, ⟨1, 1⟩] := by
  obtain ⟨s, s', h1, -, h2, h3, h4⟩ := Way.third
  unfold Way.test at h4
  split at h4
  · rename_i v v' hv hv'
    simp only [Bool.and_eq_true, beq_iff_eq] at h4
    obtain ⟨⟨⟨a1, a2⟩, a3⟩, a4⟩ := h4
    obtain ⟨p, e, hp⟩ := List.map_eq_singleton_iff.1 a1
    exact ⟨s, s', v, v', p, h1, h2, h3, getVeh_ok.2 hv, by rw [e]; simp, congrArg Prod.fst hp, getVeh_ok.2 hv', a3, a4⟩
  · cases h4

/-- `C15_partial` applies to a car that leaves at its destination. -/
example : ∃ (s s' : Sim Float) (v : Vehicle Float), Reach True s ∧ s.step 1.0 = .ok s' ∧
    s.getVehicle ⟨0, 1⟩ = .ok v ∧ v.canExit = true ∧ ∀ v', s'.getVehicle ⟨0, 1⟩ ≠ .ok v' := by
  obtain ⟨s, s', h1, -, h2, -, h4⟩ := Way.leave
  simp only [Way.leaveTest, Bool.and_eq_true, Option.isNone_iff_eq_none] at h4
  obtain ⟨a1, a2⟩ := h4
  split at a1
  · rename_i v hv
    simp only [Bool.and_eq_true] at a1
    refine ⟨s, s', v, h1, h2, getVeh_ok.2 hv, a1.2, fun v' hv' => ?_⟩
    rw [getVeh_ok.1 hv'] at a2; cases a2
  · cases a1

end

end TrafficSim
