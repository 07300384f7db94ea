import Verif.Lemmas.PhaseAdv

/-! # Phases of a step: choice of paths and lane changes -/

namespace TrafficSim

theorem SlotMap.modify_const {V : Type} {m : SlotMap V} {k : Key} {v : V} (h : m.get? k = some v) (f : V → V) :
    m.modify k f = m.modify k fun _ => f v := by
  unfold SlotMap.modify; rw [h]

theorem SlotMap.modify_same {V : Type} {m : SlotMap V} {k : Key} {v : V} (h : m.get? k = some v) :
    m.modify k (fun _ => v) = m := by
  unfold SlotMap.modify
  rw [h]
  dsimp only
  have := SlotMap.get?_eq_some.1 h
  obtain ⟨hlt, he⟩ := List.getElem?_eq_some_iff.1 this
  rw [← he, List.set_getElem_self]

section
variable {F : Type} [Flt F] {strict div geo : Prop}

/-! ## Choice of a path -/

theorem projectApprox_spec {links : LinkSet F} (hG : GoodNet links ∨ geo) (hN : NetInv strict links) {a b : Key} {l : Link F}
    (hl : links.get? a = some l) (hb : b ∈ l.laneChanges) (pos : F) :
    Spec (l.projectApprox b pos) (StepErr strict div geo) fun _ => True := by
  have hi := hN.link a l hl
  unfold Link.projectApprox
  have hne : l.laneChanges ≠ [] := List.ne_nil_of_mem hb
  cases hg : l.group with
  | none => have := hi.lc hne; rw [hg] at this; cases this
  | some g =>
    dsimp only
    have hgi := hi.group g hg
    refine Spec.bind (P := fun p => p ∈ g.projections) ?_ fun p hp => ?_
    · unfold LinkGroup.projection
      rw [hi.id]
      obtain ⟨i, hi'⟩ := LinkGroup.findLink_mem hgi.mem
      rw [hi']
      dsimp only
      by_cases hst : strict
      · obtain ⟨x, y, hx, hy, hxy⟩ := (hgi.lc hst b).1 hb
        have hnd := hgi.nodup hst
        have ex := LinkGroup.findLink_nodup hnd hx
        have ey := LinkGroup.findLink_nodup hnd hy
        rw [hi'] at ex; cases ex
        rw [ey]
        dsimp only
        have hxl := LinkGroup.findLink_lt hi'
        have hyl := LinkGroup.findLink_lt ey
        rw [if_neg (by omega)]
        have hlt : (g.links.length - 1) * i + y < g.projections.length := by
          rw [hgi.count hst]
          obtain ⟨n, hn⟩ : ∃ n, g.links.length = n + 1 := ⟨g.links.length - 1, by omega⟩
          rw [hn] at hxl hyl ⊢
          simp only [Nat.add_sub_cancel]
          rcases hxy with ⟨h1, -⟩ | ⟨h1, -⟩
          · have h2 : i + 1 ≤ n := by omega
            calc n * i + y ≤ n * i + n := by omega
              _ = n * (i + 1) := by ring
              _ ≤ n * n := Nat.mul_le_mul_left _ h2
              _ < (n + 1) * n := by nlinarith
          · have h2 : i ≤ n := by omega
            calc n * i + y ≤ n * n + y := by have := Nat.mul_le_mul_left n h2; omega
              _ < (n + 1) * n := by nlinarith
        rw [List.getElem?_eq_getElem hlt]
        exact Spec.pure (List.getElem_mem hlt)
      · split
        · exact Spec.throw hst
        · rw [if_neg (by have := LinkGroup.findLink_lt hi'; omega)]
          split
          · rename_i h
            exact Spec.pure (List.mem_of_getElem? h)
          · exact Spec.throw hst
    · unfold LinkProjection.projectApprox
      exact (LinkProjection.sample_spec (hG.imp (fun h => h.proj a l hl g hg p hp) id) pos).bind fun _ _ => Spec.pure trivial

theorem evaluatePath_spec {links : LinkSet F} (hG : GoodNet links ∨ geo) (hN : NetInv strict links) {k : Key} {v : Vehicle F}
    (hv : VehInv links k v) {p : Path} (hp : p ∈ v.pathfind.paths) :
    Spec (v.evaluatePath p links) (StepErr strict div geo) fun _ => True := by
  have hsrc := hv.src
  obtain ⟨a, ha, hst⟩ := (hv.paths p hp).start
  unfold Vehicle.evaluatePath
  obtain ⟨ks, hks⟩ : ∃ ks, p.links = a :: ks := List.head?_eq_some_iff.1 ha
  obtain ⟨rs, hrs⟩ : ∃ rs, v.route = v.pathfind.src :: rs := List.head?_eq_some_iff.1 hsrc
  rw [hks, hrs]
  dsimp only
  refine Spec.ite (fun _ => Spec.pure trivial) fun hne => ?_
  rcases hst with h | ⟨l, hl, hla⟩
  · exact absurd h.symm hne
  · refine (getLink_spec (contains_of_get hl)).bind fun l' hl' => ?_
    rw [hl] at hl'; cases hl'
    exact (projectApprox_spec hG hN hl hla v.pos).bind fun _ _ => Spec.pure trivial

theorem minPath_spec {links : LinkSet F} (hG : GoodNet links ∨ geo) (hN : NetInv strict links) {k : Key} {v : Vehicle F}
    (hv : VehInv links k v) : ∀ (ps : List Path) (best : Option (Path × Nat)), (∀ p ∈ ps, p ∈ v.pathfind.paths) →
    (∀ b c, best = some (b, c) → b ∈ v.pathfind.paths) →
    Spec (v.minPath links ps best) (StepErr strict div geo) fun r => ∀ b c, r = some (b, c) → b ∈ v.pathfind.paths
  | [], best, _, hb => by unfold Vehicle.minPath; exact Spec.pure hb
  | p :: ps, best, hps, hb => by
    unfold Vehicle.minPath
    refine (evaluatePath_spec hG hN hv (hps p (by simp))).bind fun c _ => ?_
    have ih := minPath_spec hG hN hv ps
    split
    · exact ih _ (fun q hq => hps q (by simp [hq])) (by rintro b c' h; cases h; exact hps p (by simp))
    · rename_i b bc
      refine ih _ (fun q hq => hps q (by simp [hq])) ?_
      intro b' c' h
      split at h
      · cases h; exact hps p (by simp)
      · cases h; exact hb b bc rfl

theorem choosePath_spec {links : LinkSet F} (hG : GoodNet links ∨ geo) (hN : NetInv strict links) {k : Key} {v : Vehicle F}
    (hv : VehInv links k v) : Spec (v.choosePath links) (StepErr strict div geo) fun r =>
      ∀ p, r = some p → p ∈ v.pathfind.paths ∧ v.laneChange = none ∧ p.links ≠ v.route := by
  unfold Vehicle.choosePath
  refine Spec.ite (fun _ => Spec.pure (by simp)) fun hlc => ?_
  refine (minPath_spec hG hN hv _ none (fun _ h => h) (by simp)).bind fun r hr => ?_
  split
  · exact Spec.pure (by simp)
  · rename_i p c
    refine Spec.ite (fun _ => Spec.pure (by simp)) fun hne => Spec.pure ?_
    rintro q hq
    cases hq
    exact ⟨hr p c rfl, by simpa using hlc, hne⟩

/-- The vehicle chose the path `p`. -/
structure Chose (links : LinkSet F) (v : Vehicle F) (p : Path) : Prop where
  run : v.choosePath links = .ok (some p)
  mem : p ∈ v.pathfind.paths
  lc : v.laneChange = none

/-- The effect of the choice on a vehicle: another path on the same lane is taken at once. -/
def Rechose (links : LinkSet F) (v v' : Vehicle F) : Prop :=
  v' = v ∨ ∃ p, Chose links v p ∧ p.links.head? = v.route.head? ∧ v' = v.setPath p

omit [Flt F] in
theorem matchedPrefix_le : ∀ (a b : List Key), Vehicle.matchedPrefix a b ≤ b.length
  | [], _ => by simp [Vehicle.matchedPrefix]
  | _ :: _, [] => by simp [Vehicle.matchedPrefix]
  | a :: as, b :: bs => by
    unfold Vehicle.matchedPrefix
    have := matchedPrefix_le as bs
    split <;> simp; omega

omit [Flt F] in
theorem matchedPrefix_pos {a b : List Key} {k : Key} (ha : a.head? = some k) (hb : b.head? = some k) :
    1 ≤ Vehicle.matchedPrefix a b := by
  obtain ⟨as, rfl⟩ := List.head?_eq_some_iff.1 ha
  obtain ⟨bs, rfl⟩ := List.head?_eq_some_iff.1 hb
  unfold Vehicle.matchedPrefix
  rw [if_pos rfl]; omega

omit [Flt F] in
theorem VehInv.setPath {links : LinkSet F} {k : Key} {v : Vehicle F} (hv : VehInv links k v) {p : Path}
    (hd : Drivable links p.links) (hh : p.links.head? = v.route.head?) : VehInv links k (v.setPath p) := by
  have h1 := matchedPrefix_le v.route p.links
  have h2 := matchedPrefix_pos hv.src (hh.trans hv.src)
  have h3 := hv.entered
  refine ⟨hv.id, hd, hh.trans hv.src, hv.dst, ?_, ?_, hv.will, hv.paths⟩
  · unfold Vehicle.setPath; dsimp only; omega
  · unfold Vehicle.setPath; dsimp only; omega

theorem VehInv.rechose {links : LinkSet F} {k : Key} {v v' : Vehicle F} (hv : VehInv links k v)
    (h : Rechose links v v') : VehInv links k v' := by
  rcases h with rfl | ⟨p, hc, hh, rfl⟩
  · exact hv
  · exact hv.setPath (hv.paths p hc.mem).drivable hh

/-- A planned lane change. -/
structure Planned (s : Sim F) (vs : VehicleSet F) (q : Key × Path) : Prop where
  ex : ∃ v, s.vehicles.get? q.1 = some v ∧ vs.get? q.1 = some v ∧ Chose s.links v q.2 ∧
    q.2.links.head? ≠ v.route.head?

/-- What was decided for the vehicle `v`: it stays on its route, or chose a path on its own lane, which it takes, or one on
another lane, which is noted. -/
def PathDecided (links : LinkSet F) (lcs : List (Key × Path)) (k : Key) (v : Vehicle F) (v' : Option (Vehicle F)) : Prop :=
  (v.choosePath links = .ok none ∧ k ∉ lcs.map (·.1) ∧ v' = some v) ∨
  ∃ p, Chose links v p ∧ ((p.links.head? ≠ v.route.head? ∧ (k, p) ∈ lcs ∧ v' = some v) ∨
    (p.links.head? = v.route.head? ∧ k ∉ lcs.map (·.1) ∧ v' = some (v.setPath p)))

theorem choosePaths_spec {s : Sim F} (hG : GoodNet s.links ∨ geo) (hs : SimInv strict s) :
    Spec (s.vehicles.keys.foldlM (Sim.choosePathOf s.links) (s.vehicles, [])) (StepErr strict div geo) fun p =>
      ((p.2.map (·.1)).Nodup ∧ ∀ q ∈ p.2, Planned s p.1 q) ∧
      SRel (fun _ v v' => Rechose s.links v v') s.vehicles p.1 ∧
      ∀ k v, s.vehicles.get? k = some v → PathDecided s.links p.2 k v (p.1.get? k) := by
  refine (foldlM_keys' (fun p : VehicleSet F × List (Key × Path) => p.1)
    (J := fun rest p => ((p.2.map (·.1)).Nodup ∧ ∀ q ∈ p.2, q.1 ∉ rest ∧ Planned s p.1 q) ∧
      ∀ k v, s.vehicles.get? k = some v → k ∉ rest → PathDecided s.links p.2 k v (p.1.get? k))
    (R := fun _ v v' => Rechose s.links v v') ?_ rfl ⟨⟨by simp, by simp⟩, fun k v hk hn =>
      absurd (SlotMap.mem_keys.2 ⟨v, hk⟩) hn⟩).mono
    (fun p h => ⟨⟨h.1.1.1, fun q hq => (h.1.1.2 q hq).2⟩, h.2, fun k v hk => h.1.2 k v hk (by simp)⟩) (fun _ h => h)
  rintro ⟨vs, lcs⟩ k rest v hnd ⟨⟨hn, hJ⟩, hD⟩ _ hv hv'
  rw [List.nodup_cons] at hnd
  dsimp only at hv' hn hJ hD ⊢
  have hknot : k ∉ lcs.map (·.1) := fun hm => by
    obtain ⟨q, hq, e⟩ := List.mem_map.1 hm
    exact (hJ q hq).1 (by rw [← e]; simp)
  have decide1 : ∀ (lcs' : List (Key × Path)) (w : Vehicle F), (∀ q ∈ lcs', q ∈ lcs ∨ q.1 = k) → (∀ q ∈ lcs, q ∈ lcs') →
      PathDecided s.links lcs' k v (some w) →
      ∀ j u, s.vehicles.get? j = some u → j ∉ rest → PathDecided s.links lcs' j u ((vs.modify k fun _ => w).get? j) := by
    intro lcs' w hsub hsup hd j u hj hjr
    by_cases e : j = k
    · subst e
      rw [hv] at hj; cases hj
      rw [SlotMap.get?_modify_self, hv']; exact hd
    · have hin : ∀ {x : Key}, x ≠ k → (x ∈ lcs'.map (·.1) → x ∈ lcs.map (·.1)) := by
        intro x hx hm
        obtain ⟨q, hq, rfl⟩ := List.mem_map.1 hm
        rcases hsub q hq with h | h
        · exact List.mem_map.2 ⟨q, h, rfl⟩
        · exact absurd h hx
      rw [SlotMap.get?_modify_ne _ _ e]
      rcases hD j u hj (by simp [e, hjr]) with ⟨h1, h2, h3⟩ | ⟨p, h1, ⟨h2, h3, h4⟩ | ⟨h2, h3, h4⟩⟩
      · exact .inl ⟨h1, fun hm => h2 (hin e hm), h3⟩
      · exact .inr ⟨p, h1, .inl ⟨h2, hsup _ h3, h4⟩⟩
      · exact .inr ⟨p, h1, .inr ⟨h2, fun hm => h3 (hin e hm), h4⟩⟩
  have hi := hs.veh k v hv
  have keep : ∀ w, (∀ q ∈ lcs, q.1 ∉ rest ∧ Planned s (vs.modify k fun _ => w) q) := by
    intro w q hq
    obtain ⟨h1, u, h2, h3, h4⟩ := hJ q hq
    have e : q.1 ≠ k := by intro e; exact h1 (by simp [e])
    exact ⟨fun hm => h1 (by simp [hm]), u, h2, by rw [SlotMap.get?_modify_ne _ _ e]; exact h3, h4⟩
  have hsame := SlotMap.modify_same hv'
  unfold Sim.choosePathOf
  refine (getVeh_spec (contains_of_get hv')).bind fun v2 hv2 => ?_
  rw [hv'] at hv2; cases hv2
  refine ((choosePath_spec hG hs.net hi).post fun r hr h => And.intro hr h).bind ?_
  rintro r ⟨hrun, hr⟩
  cases r with
  | none =>
    refine Spec.pure ⟨⟨⟨hn, ?_⟩, ?_⟩, v, hsame.symm, .inl rfl⟩
    · have := keep v; rw [hsame] at this; exact this
    · have := decide1 lcs v (fun _ => .inl) (fun _ h => h) (.inl ⟨hrun, hknot, rfl⟩)
      rw [hsame] at this; exact this
  | some p =>
    obtain ⟨h1, h2, h3⟩ := hr p rfl
    have hc : Chose s.links v p := ⟨hrun, h1, h2⟩
    obtain ⟨a, ha, -⟩ := (hi.paths p h1).start
    have hlk : v.linkId = some v.pathfind.src := hi.src
    dsimp only
    rw [hlk, ha]
    dsimp only
    refine Spec.ite (fun hne => Spec.pure ⟨⟨⟨?_, ?_⟩, ?_⟩, v, hsame.symm, .inl rfl⟩)
      (fun he => Spec.pure ⟨⟨⟨hn, ?_⟩, ?_⟩, v.setPath p, ?_, ?_⟩)
    · dsimp only
      rw [List.map_append, List.nodup_append]
      refine ⟨hn, by simp, ?_⟩
      rintro x hx y hy rfl
      simp only [List.map_cons, List.map_nil, List.mem_singleton] at hy
      obtain ⟨q, hq, e⟩ := List.mem_map.1 hx
      exact (hJ q hq).1 (by rw [e, hy, hi.id]; simp)
    · intro q hq
      dsimp only at hq ⊢
      rcases List.mem_append.1 hq with hq | hq
      · have := keep v; rw [hsame] at this; exact this q hq
      · simp only [List.mem_singleton] at hq
        subst hq
        dsimp only
        rw [hi.id]
        refine ⟨hnd.1, v, hv, hv', hc, ?_⟩
        dsimp only
        rw [hi.src, ha]
        intro e; cases e; exact hne rfl
    · dsimp only
      have := decide1 (lcs ++ [(v.id, p)]) v (fun q hq => by
        rcases List.mem_append.1 hq with h | h
        · exact .inl h
        · simp only [List.mem_singleton] at h
          rw [h]; exact .inr hi.id) (fun q hq => List.mem_append_left _ hq)
        (.inr ⟨p, hc, .inl ⟨by rw [hi.src, ha]; intro e; cases e; exact hne rfl, by rw [hi.id]; simp, rfl⟩⟩)
      rw [hsame] at this; exact this
    · dsimp only
      rw [SlotMap.modify_const hv']; exact keep _
    · dsimp only
      rw [SlotMap.modify_const hv']
      have he : v.pathfind.src = a := by simpa using he
      exact decide1 lcs _ (fun _ => .inl) (fun _ h => h) (.inr ⟨p, hc, .inr ⟨by rw [hi.src, ha, he], hknot, rfl⟩⟩)
    · rw [SlotMap.modify_const hv']
    · refine .inr ⟨p, hc, ?_, rfl⟩
      have : v.pathfind.src = a := by simpa using he
      rw [hi.src, ha, this]

/-! ## Lane changes -/

/-- Where a vehicle is after it has started a lane change to `link` over the distance `d`. -/
def ShiftGeo (links : LinkSet F) (link : Key) (d : F) (v v' : Vehicle F) : Prop :=
  ∃ l off sl, links.get? link = some l ∧ l.curve.inverseSample v.worldPos v.worldDir = .ok (some (v'.pos, off, sl)) ∧
    v'.laneChange = some { endPos := v'.pos + d, offset := CubicFn.fit v'.pos off sl (v'.pos + d) 0.0 0.0 }

theorem ShiftGeo.back {links links' : LinkSet F} {link : Key} {d : F} {v v' : Vehicle F} (hf : OnlyVehs links links')
    (h : ShiftGeo links' link d v v') : ShiftGeo links link d v v' := by
  obtain ⟨l', off, sl, hl, h1, h2⟩ := h
  obtain ⟨l, hl, e⟩ := hf.bwd hl
  exact ⟨l, off, sl, hl, by rw [e] at h1; exact h1, h2⟩

/-- The effect of a lane change to `link` on the vehicle. -/
structure Shifted (links : LinkSet F) (link : Key) (d : F) (v v' : Vehicle F) : Prop where
  geo : ShiftGeo links link d v v'
  ex : ∃ pos lc pf, v' = { v with
      route := [link], pathfind := pf, entered := 1, pos := pos, laneChange := some lc, canExit := false } ∧
    pf.src = link ∧ pf.dst = v.pathfind.dst ∧ (∀ q ∈ pf.paths, PathOK links link v.pathfind.dst q) ∧
    links.contains link = true

theorem Shifted.inv {links : LinkSet F} {k link : Key} {d : F} {v v' : Vehicle F} (h : Shifted links link d v v')
    (hv : VehInv links k v) : VehInv links k v' := by
  obtain ⟨pos, lc, pf, rfl, h1, h2, h3, h4⟩ := h.ex
  refine ⟨hv.id, ⟨by simp [h4], by simp⟩, ?_, ?_, le_rfl, by simp, hv.will, ?_⟩
  · dsimp only; rw [h1]; rfl
  · dsimp only; rw [h2]; exact hv.dst
  · dsimp only; rw [h1, h2]; exact h3

/-- The effect of a lane change on the simulation. -/
structure LaneRun (s : Sim F) (id link : Key) (d : F) (s' : Sim F) : Prop where
  ctrl : OnlyVehs s.links s'.links
  vehs : ∃ v v', s.vehicles.get? id = some v ∧ Shifted s.links link d v v' ∧
    s'.vehicles = s.vehicles.modify id fun _ => v'
  mem : Member s'.links s'.vehicles
  eq : s' = { s with links := s'.links, vehicles := s'.vehicles }

theorem doLaneChange_spec [Env] [LawfulDijkstra] {E : Err → Prop} (hE : strict ∨ E .shiftOverflow) (hE1 : SearchEnds ∨ E .diverges)
    {s : Sim F} (hG : GoodNet s.links ∨ GeoErr E) (hs : SimInv strict s) {id link : Key}
    (hid : s.vehicles.contains id = true) (hlink : s.links.contains link = true) (d : F) :
    Spec (s.doLaneChange id link d) E (LaneRun s id link d) := by
  unfold Sim.doLaneChange
  refine (getVeh_spec hid).bind fun v hv => ?_
  have hi := hs.veh id v hv
  have hlk : v.linkId = some v.pathfind.src := hi.src
  rw [hlk]
  dsimp only
  have hsrc : s.links.contains v.pathfind.src = true := hi.drivable.valid _ (List.mem_of_mem_head? hi.src)
  refine (updLink_spec hsrc).bind fun links' hl' => ?_
  subst hl'
  have hL : OnlyVehs s.links (s.links.modify v.pathfind.src fun l => l.removeVehicle id) :=
    SRel.modify_one _ _ _ (fun _ _ _ => rfl) fun l _ => rfl
  have hM := (member_iff.1 hs.mem).remove hv hlk
  refine (getLink_spec (by rw [hL.contains]; exact hlink)).bind fun l hl => ?_
  have hN := hs.net.frame hL.frame
  have hG' := hG.imp_left fun h => h.of_rel (SRel.mono hL.frame fun _ _ _ h => ⟨h.group, h.curve⟩)
  refine ((LinkCurve.inverseSample_spec (hG.imp (·.noNan) (·.2.1)) l.curve (hN.link _ l hl).segs _ _).post
    (Q' := fun r => l.curve.inverseSample v.worldPos v.worldDir = .ok r) fun r hr _ => hr).bind fun r hr => ?_
  cases r with
  | none => exact Spec.throw (hG'.elim (fun h => absurd hr (h.back _ l hl _ _)) (·.2.2))
  | some r =>
    obtain ⟨pos, off, sl⟩ := r
    dsimp only
    refine Spec.bind (P := fun v' => Shifted s.links link d v v') ?_ fun v' hv' => ?_
    · unfold Vehicle.setLocation
      refine (PathfindingModel.setOrigin_spec hN hE hE1 v.pathfind (contains_of_get hl) (hi.mono hL.frame.le).dst).bind
        fun pf ⟨h1, h2, h3⟩ => Spec.pure ⟨ShiftGeo.back hL ⟨l, off, sl, hl, hr, rfl⟩, _, _, pf, rfl, h1, h2,
          fun q hq => (h3 q hq).mono hL.frame.ge, hlink⟩
    · have hM' := hM.setVeh (k := id) (.inr rfl) (fun _ => v')
      have hget : (s.vehicles.modify id fun _ => v').get? id = some v' := by
        rw [SlotMap.get?_modify_self, hv]; rfl
      have hlv : v'.linkId = some link := by
        obtain ⟨_, _, _, rfl, -⟩ := hv'.ex; rfl
      refine (insertOnLink_spec hM' (.inr rfl) hget hlv (contains_of_get hl)).bind ?_
      rintro links'' ⟨hr, hm⟩
      refine Spec.pure ⟨hL.trans (hr.mono fun j l l' h => ?_), ⟨v, v', hv, hv', rfl⟩,
        member_iff.2 (hm.congr fun j => by tauto), rfl⟩
      by_cases e : j = link
      · obtain ⟨i, -, h⟩ := h.2 e; rw [h]
      · rw [h.1 e]

theorem LaneRun.inv {s s' : Sim F} {id link : Key} {d : F} (h : LaneRun s id link d s') (hs : SimInv strict s) : SimInv strict s' := by
  have et : s'.lights = s.lights := by rw [h.eq]
  have ec : s'.conflicts = s.conflicts := by rw [h.eq]
  obtain ⟨v, v', hv, hsh, he⟩ := h.vehs
  have hf := h.ctrl.frame
  refine ⟨hs.net.frame hf, by rw [he]; exact hs.vwf.modify _ _, ?_, h.mem, by rw [et]; exact hs.lwf, ?_, ?_⟩
  · rw [he]
    intro k u hu
    rw [SlotMap.get?_modify] at hu
    split at hu
    · rename_i e
      subst e
      rw [hv] at hu; cases hu
      exact (hsh.inv (hs.veh k v hv)).mono hf.le
    · exact (hs.veh k u hu).mono hf.le
  · rw [et]; exact fun k tl htl => (hs.lights k tl htl).frame hf
  · rw [ec]; intro c hc; rw [hf.contains, hf.contains]; exact hs.conflicts c hc

/-- The effect of a lane change to the first link of `p` and of taking the path `p`. -/
structure ShiftedTo (links : LinkSet F) (p : Path) (v v' : Vehicle F) : Prop where
  geo : ∃ link, p.links.head? = some link ∧ ShiftGeo links link 30.0 v v'
  ex : ∃ link pos lc pf, p.links.head? = some link ∧ v' = { v with
      route := p.links, pathfind := pf, entered := 1, pos := pos, laneChange := some lc, canExit := p.canExit } ∧
    pf.src = link ∧ pf.dst = v.pathfind.dst ∧ (∀ q ∈ pf.paths, PathOK links link v.pathfind.dst q)

/-- The effect of a planned lane change on the simulation. -/
structure PerformRun (s : Sim F) (q : Key × Path) (s' : Sim F) : Prop where
  ctrl : OnlyVehs s.links s'.links
  vehs : ∃ v v', s.vehicles.get? q.1 = some v ∧ ShiftedTo s.links q.2 v v' ∧
    s'.vehicles = s.vehicles.modify q.1 fun _ => v'
  inv : SimInv strict s'
  eq : s' = { s with links := s'.links, vehicles := s'.vehicles }

theorem SlotMap.modify_modify {V : Type} (m : SlotMap V) (k : Key) (v w : V) :
    (m.modify k fun _ => v).modify k (fun _ => w) = m.modify k fun _ => w := by
  cases h : m.get? k with
  | none =>
    have e : ∀ x : V, (m.modify k fun _ => x) = m := fun x => by unfold SlotMap.modify; rw [h]
    rw [e, e]
  | some u =>
    have h' : (m.modify k fun _ => v).get? k = some v := by rw [SlotMap.get?_modify_self, h]; rfl
    generalize hm : (m.modify k fun _ => v) = m' at h' ⊢
    have e1 : m'.modify k (fun _ => w) = ⟨m'.slots.set k.idx ⟨k.ver, some w⟩, m'.free⟩ := by
      unfold SlotMap.modify; rw [h']
    rw [e1, ← hm]
    unfold SlotMap.modify
    rw [h]
    simp

theorem performLaneChange_spec [Env] [LawfulDijkstra] (hE : SearchEnds ∨ div) {s : Sim F} (hG : GoodNet s.links ∨ geo) (hs : SimInv strict s) {q : Key × Path} {v : Vehicle F}
    (hv : s.vehicles.get? q.1 = some v) (hq : q.2 ∈ v.pathfind.paths) :
    Spec (Sim.performLaneChange s q) (StepErr strict div geo) (PerformRun (strict := strict) s q) := by
  unfold Sim.performLaneChange
  have hi := hs.veh _ v hv
  have hok := hi.paths _ hq
  obtain ⟨a, ha, -⟩ := hok.start
  obtain ⟨ks, hks⟩ := List.head?_eq_some_iff.1 ha
  have hd := hok.drivable
  rw [hks]
  dsimp only
  refine (doLaneChange_spec StepErr.shift hE (hG.imp_right GeoErr.step.2) hs (contains_of_get hv)
    (hd.valid a (by rw [hks]; simp)) _).bind fun s' h => ?_
  obtain ⟨v1, v', hv1, hsh, he⟩ := h.vehs
  rw [hv] at hv1; cases hv1
  have hget : s'.vehicles.get? q.1 = some v' := by rw [he, SlotMap.get?_modify_self, hv]; rfl
  refine (updVeh_spec (contains_of_get hget)).bind fun vs hvs => Spec.pure ?_
  rw [SlotMap.modify_const hget, he, SlotMap.modify_modify] at hvs
  have hI := h.inv hs
  have hvi := hI.veh _ v' hget
  obtain ⟨pos, lc, pf, hv', h1, h2, h3, h4⟩ := hsh.ex
  have hhead : q.2.links.head? = v'.route.head? := by rw [hv', ha]; rfl
  have hvs' : vs = s'.vehicles.modify q.1 fun _ => v'.setPath q.2 := by rw [hvs, he, SlotMap.modify_modify]
  refine ⟨h.ctrl, ⟨v, v'.setPath q.2, hv, ⟨⟨a, ha, hsh.geo⟩, a, pos, lc, pf, ha, ?_, h1, h2, h3⟩, hvs⟩, ?_, ?_⟩
  · rw [hv']
    unfold Vehicle.setPath
    dsimp only
    rw [hks]
    simp [Vehicle.matchedPrefix]
  · refine ⟨hI.net, ?_, ?_, ?_, hI.lwf, hI.lights, hI.conflicts⟩
    · dsimp only; rw [hvs']; exact hI.vwf.modify _ _
    · dsimp only; rw [hvs']
      intro k u hu
      rw [SlotMap.get?_modify] at hu
      split at hu
      · rename_i e; subst e
        rw [hget] at hu; cases hu
        exact hvi.setPath (hd.mono h.ctrl.frame.le) hhead
      · exact hI.veh k u hu
    · dsimp only; rw [hvs', member_iff]
      refine (member_iff.1 hI.mem).onVehs (SRel.modify_one _ _ _ (fun _ _ _ => rfl) fun u hu => ?_)
      rw [hget] at hu; cases hu
      exact hhead
  · rw [h.eq]

/-- The effect of the phase. -/
structure LaneRunAll (s : Sim F) (vs : VehicleSet F) (lcs : List (Key × Path)) (s' : Sim F) : Prop where
  choose : SRel (fun _ v v' => Rechose s.links v v') s.vehicles vs
  planned : ∀ q ∈ lcs, Planned s vs q
  nodup : (lcs.map (·.1)).Nodup
  decided : ∀ k v, s.vehicles.get? k = some v → PathDecided s.links lcs k v (vs.get? k)
  ctrl : OnlyVehs s.links s'.links
  vehs : SRel (fun k v v' => (k ∉ lcs.map (·.1) → v' = v) ∧ ∀ p, (k, p) ∈ lcs → ShiftedTo s.links p v v') vs s'.vehicles
  inv : SimInv strict s'
  eq : s' = { s with links := s'.links, vehicles := s'.vehicles, lcUpdate := 0.0 }

theorem ShiftedTo.back {links links' : LinkSet F} (h : OnlyVehs links links') {p : Path} {v v' : Vehicle F}
    (hs : ShiftedTo links' p v v') : ShiftedTo links p v v' := by
  obtain ⟨link, pos, lc, pf, h1, h2, h3, h4, h5⟩ := hs.ex
  obtain ⟨link', e, hg⟩ := hs.geo
  exact ⟨⟨link', e, hg.back h⟩, link, pos, lc, pf, h1, h2, h3, h4, fun q hq => (h5 q hq).mono h.frame.ge⟩

theorem calculateLaneChanges_phase [Env] [LawfulDijkstra] (hE : SearchEnds ∨ div) {s : Sim F} (hG : GoodNet s.links ∨ geo) (hs : SimInv strict s) :
    Spec s.calculateLaneChanges (StepErr strict div geo) fun s' => (s.lcUpdate < laneChangeUpdateSec ∧ s' = s) ∨
      (¬ s.lcUpdate < laneChangeUpdateSec ∧ ∃ vs lcs, LaneRunAll (strict := strict) s vs lcs s') := by
  unfold Sim.calculateLaneChanges
  refine Spec.ite (fun h => Spec.pure (.inl ⟨h, rfl⟩)) fun hlt => ?_
  dsimp only
  refine (choosePaths_spec hG hs).bind ?_
  rintro ⟨vs, lcs⟩ ⟨⟨hn, hpl⟩, hch, hdec⟩
  dsimp only at hn hpl hch hdec ⊢
  have hI0 : SimInv strict { s with vehicles := vs, lcUpdate := 0.0 } := by
    refine ⟨hs.net, hch.wf hs.vwf, ?_, ?_, hs.lwf, hs.lights, hs.conflicts⟩
    · intro k v' hv'
      obtain ⟨v, hv, hr⟩ := hch.bwd hv'
      exact (hs.veh k v hv).rechose hr
    · rw [member_iff]
      refine (member_iff.1 hs.mem).onVehs (hch.mono ?_)
      rintro k v v' (rfl | ⟨p, -, hh, rfl⟩)
      · rfl
      · exact hh
  refine (Spec.foldlM' (I := fun rest (s' : Sim F) => ∃ done, lcs = done ++ rest ∧ SimInv strict s' ∧
    OnlyVehs s.links s'.links ∧ s' = { s with links := s'.links, vehicles := s'.vehicles, lcUpdate := 0.0 } ∧
    SRel (fun k v v' => (k ∉ done.map (·.1) → v' = v) ∧ ∀ p, (k, p) ∈ done → ShiftedTo s.links p v v') vs s'.vehicles)
    ?_ ?_).mono ?_ (fun _ h => h)
  · rintro s' q rest hsuf ⟨done, hd, hI, hL, he, hr⟩
    have hnd : (done.map (·.1) ++ q.1 :: rest.map (·.1)).Nodup := by
      have := hn; rw [hd] at this; simpa using this
    have hqn : q.1 ∉ done.map (·.1) := by
      rw [List.nodup_append] at hnd
      intro hm; exact hnd.2.2 _ hm q.1 (by simp) rfl
    obtain ⟨v, h1, h2, h3, h4⟩ := (hpl q (by rw [hd]; simp)).ex
    obtain ⟨v', hv', hsame, -⟩ := hr.fwd q.1 v h2
    obtain rfl := hsame hqn
    refine (performLaneChange_spec hE
      (hG.imp_left fun h => h.of_rel (SRel.mono hL.frame fun _ _ _ h => ⟨h.group, h.curve⟩)) hI hv' h3.mem).mono (fun s'' h => ?_) (fun _ h => h)
    obtain ⟨w, w', hw, hsh, hvs⟩ := h.vehs
    rw [hv'] at hw; cases hw
    refine ⟨done ++ [q], by simp [hd], h.inv, hL.trans h.ctrl, ?_, ?_⟩
    · rw [h.eq, he]
    · rw [hvs]
      refine ⟨by rw [SlotMap.keys_modify, hr.keys], fun hw => (hr.wf hw).modify _ _,
        fun k' hk' => (hr.issued k' hk').modify _ _, fun j u hj => ?_⟩
      by_cases e : j = q.1
      · subst e
        rw [h2] at hj; cases hj
        refine ⟨w', by rw [SlotMap.get?_modify_self, hv']; rfl, fun hm => absurd (by simp) hm, fun p hp => ?_⟩
        rcases List.mem_append.1 hp with hp | hp
        · exact absurd (List.mem_map.2 ⟨_, hp, rfl⟩) hqn
        · simp only [List.mem_singleton] at hp
          rw [← hp] at hsh
          exact hsh.back hL
      · obtain ⟨u', hu', h5, h6⟩ := hr.fwd j u hj
        refine ⟨u', by rw [SlotMap.get?_modify_ne _ _ e]; exact hu', fun hm => h5 ?_, fun p hp => ?_⟩
        · intro hm'; exact hm (by simp only [List.map_append, List.mem_append]; exact .inl hm')
        · rcases List.mem_append.1 hp with hp | hp
          · exact h6 p hp
          · simp only [List.mem_singleton] at hp
            rw [← hp] at e; exact absurd rfl e
  · exact ⟨[], rfl, hI0, SRel.refl fun _ _ _ => rfl, rfl, SRel.refl fun _ _ _ => ⟨fun _ => rfl, by simp⟩⟩
  · rintro s' ⟨done, hd, hI, hL, he, hr⟩
    rw [List.append_nil] at hd
    subst hd
    exact .inr ⟨hlt, vs, lcs, hch, hpl, hn, hdec, hL, hr, hI, he⟩

end

end TrafficSim
