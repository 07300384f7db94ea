import Verif.Lemmas.PhaseStep

/-! # Phases of a step: vehicles passing the end of their link -/

namespace TrafficSim

section
variable {F : Type} [Flt F] {strict : Prop}

/-- The vehicle passed the end of its link. -/
structure Passed (links : LinkSet F) (v v' : Vehicle F) : Prop where
  ex : ∃ k rest l pf, v.route = k :: rest ∧ links.get? k = some l ∧ l.length < v.pos ∧
    v' = { v with
      route := rest, pathfind := pf, entered := max (v.entered - 1) 1, pos := v.pos - l.length
      laneChange := v.laneChange.map fun lc =>
        { endPos := lc.endPos - l.length, offset := lc.offset.translateX l.length } } ∧
    (rest = [] → pf = v.pathfind) ∧
    ∀ k', rest.head? = some k' → pf.src = k' ∧ pf.dst = v.pathfind.dst ∧
      ∀ q ∈ pf.paths, PathOK links k' v.pathfind.dst q
  /-- If the next link is in the matrix of the vehicle, its paths are planned anew over the same matrix. -/
  plan : ∀ k', v'.route.head? = some k' → (mget v.pathfind.matrix k').isSome →
    ∃ links' : LinkSet F, Frame links links' ∧ { v.pathfind with src := k' }.makePaths links' = .ok v'.pathfind

theorem advance_spec [Env] [LawfulDijkstra] {E : Err → Prop} (hE : strict ∨ E .shiftOverflow) (hE' : SearchEnds ∨ E .diverges)
    {links : LinkSet F} (hN : NetInv strict links) {k : Key} {v : Vehicle F} (hv : VehInv links k v) :
    Spec (v.advance links) E fun p => (p.2 = false ∧ p.1 = v ∧
        ∃ k l, v.route.head? = some k ∧ links.get? k = some l ∧ ¬ l.length < v.pos) ∨
      (p.2 = true ∧ Passed links v p.1) := by
  unfold Vehicle.advance
  have hsrc := hv.src
  split
  · rename_i hr; rw [hr] at hsrc; cases hsrc
  · rename_i a rest hr
    have hval := hv.drivable.valid
    rw [hr] at hval
    refine (getLink_spec (hval a (by simp))).bind fun l hl => Spec.ite (fun hlt => ?_)
      (fun hlt => Spec.pure (.inl ⟨rfl, rfl, a, l, by rw [hr]; rfl, hl, hlt⟩))
    have fin : ∀ pf : PathfindingModel, (rest = [] → pf = v.pathfind) →
        (∀ k', rest.head? = some k' → pf.src = k' ∧ pf.dst = v.pathfind.dst ∧
          ∀ q ∈ pf.paths, PathOK links k' v.pathfind.dst q) →
        (∀ k', rest.head? = some k' → (mget v.pathfind.matrix k').isSome →
          { v.pathfind with src := k' }.makePaths links = .ok pf) →
        Spec (do
          if v.entered = 0 then throw .underflow
          let v := { v with
            route := rest
            pathfind := pf
            entered := max (v.entered - 1) 1
            pos := v.pos - l.length
            laneChange := v.laneChange.map fun lc =>
              { endPos := lc.endPos - l.length, offset := lc.offset.translateX l.length } }
          pure (v, true) : M (Vehicle F × Bool)) E fun p => (p.2 = false ∧ p.1 = v ∧
            ∃ k l, v.route.head? = some k ∧ links.get? k = some l ∧ ¬ l.length < v.pos) ∨
          (p.2 = true ∧ Passed links v p.1) := by
      intro pf h1 h2 h3
      rw [if_neg (by have := hv.entered; omega)]
      exact Spec.pure (.inr ⟨rfl, ⟨a, rest, l, pf, hr, hl, hlt, rfl, h1, h2⟩, fun k' hk' hm => ⟨links, Frame.rfl', h3 k' hk' hm⟩⟩)
    cases rest with
    | nil => exact fin v.pathfind (fun _ => rfl) (by simp) (by simp)
    | cons b rest =>
      obtain ⟨hok, herr⟩ := PathfindingModel.setOrigin_spec hN hE hE' v.pathfind (hval b (by simp)) hv.dst
      have hsp : Spec (v.pathfind.setOrigin b links) E fun pf => (pf.src = b ∧ pf.dst = v.pathfind.dst ∧
          ∀ q ∈ pf.paths, PathOK links b v.pathfind.dst q) ∧ v.pathfind.setOrigin b links = .ok pf :=
        ⟨fun pf h => ⟨hok pf h, h⟩, herr⟩
      refine hsp.bind fun pf hpf => fin pf (by simp) ?_ ?_
      · rintro k' h'
        cases h'
        exact hpf.1
      · rintro k' h' hm
        cases h'
        have h := hpf.2
        unfold PathfindingModel.setOrigin at h
        dsimp only at h
        rw [if_neg (by rw [Option.isNone_iff_eq_none]; intro e; rw [e] at hm; cases hm), pure_bind] at h
        exact h

omit [Flt F] in
theorem Drivable.tail {links : LinkSet F} {a : Key} {ks : List Key} (h : Drivable links (a :: ks)) : Drivable links ks :=
  ⟨fun k hk => h.valid k (by simp [hk]), h.chain.tail⟩

/-- A vehicle that passed the end of its link and has a next link is in order. -/
theorem Passed.inv {links : LinkSet F} {k : Key} {v v' : Vehicle F} (h : Passed links v v') (hv : VehInv links k v)
    (hr : v'.route ≠ []) : VehInv links k v' := by
  obtain ⟨a, rest, l, pf, h1, h2, h3, rfl, h4, h5⟩ := h.ex
  dsimp only at hr
  obtain ⟨b, rest', rfl⟩ := List.exists_cons_of_ne_nil hr
  obtain ⟨h6, h7, h8⟩ := h5 b rfl
  have hd := hv.drivable
  rw [h1] at hd
  have hle := hv.enteredLe
  rw [h1] at hle
  have hen := hv.entered
  refine ⟨hv.id, hd.tail, ?_, ?_, ?_, ?_, hv.will, ?_⟩
  · dsimp only; rw [h6]; rfl
  · dsimp only; rw [h7]; exact hv.dst
  · dsimp only; omega
  · dsimp only; simp only [List.length_cons] at hle ⊢; omega
  · dsimp only; rw [h6, h7]; exact h8

/-- The effect of the phase. -/
structure AdvRun (s s' : Sim F) : Prop where
  frame : Frame s.links s'.links
  ctrl : SRel (fun _ l l' => l' = { l with vehicles := l'.vehicles }) s.links s'.links
  eq : s' = { s with links := s'.links, vehicles := s'.vehicles }
  wf : s.vehicles.WF → s'.vehicles.WF
  mem : Member s'.links s'.vehicles
  fwd : ∀ k v, s.vehicles.get? k = some v →
    (s'.vehicles.get? k = some v ∧ ∃ a l, v.route.head? = some a ∧ s.links.get? a = some l ∧ ¬ l.length < v.pos) ∨
    ∃ v', Passed s.links v v' ∧ ((v'.route ≠ [] ∧ s'.vehicles.get? k = some v') ∨
      (v'.route = [] ∧ s'.vehicles.get? k = none))
  bwd : ∀ k v', s'.vehicles.get? k = some v' → ∃ v, s.vehicles.get? k = some v
  issued : ∀ k, s.vehicles.Issued k → s'.vehicles.Issued k

/-- The links differ at most in the lists of vehicles. -/
abbrev OnlyVehs (links links' : LinkSet F) : Prop :=
  SRel (fun _ l l' => l' = { l with vehicles := l'.vehicles }) links links'

omit [Flt F] in
theorem OnlyVehs.frame {links links' : LinkSet F} (h : OnlyVehs links links') : Frame links links' :=
  SRel.mono h fun k l l' e => by
    rw [e]; exact ⟨rfl, rfl, rfl, rfl, rfl, rfl, rfl, rfl, rfl, fun h => h⟩

omit [Flt F] in
theorem OnlyVehs.trans {links links' links'' : LinkSet F} (h : OnlyVehs links links') (h' : OnlyVehs links' links'') :
    OnlyVehs links links'' :=
  SRel.trans h h' fun k l l' l'' e e' => by rw [e', e]

theorem Passed.back {links links' : LinkSet F} (h : OnlyVehs links links') {v v' : Vehicle F} (hp : Passed links' v v') :
    Passed links v v' := by
  obtain ⟨k, rest, l', pf, h1, h2, h3, h4, h5, h6⟩ := hp.ex
  obtain ⟨l, hl, e⟩ := h.bwd h2
  have el : l'.length = l.length := by rw [e]; rfl
  rw [el] at h3 h4
  refine ⟨⟨k, rest, l, pf, h1, hl, h3, h4, h5, fun k' hk' => ?_⟩, fun k' hk' hm => ?_⟩
  · obtain ⟨h7, h8, h9⟩ := h6 k' hk'
    exact ⟨h7, h8, fun q hq => (h9 q hq).mono h.frame.ge⟩
  · obtain ⟨links'', hf, he⟩ := hp.plan k' hk' hm
    exact ⟨links'', h.frame.trans hf, he⟩

/-- What happened to a vehicle in the loop of the phase. -/
inductive AdvOne (links : LinkSet F) (adv : List (Key × Key)) (ex : List Key) (k : Key) (v v' : Vehicle F) : Prop
  | stay : v' = v → k ∉ adv.map (·.1) → k ∉ ex →
      (∃ a l, v.route.head? = some a ∧ links.get? a = some l ∧ ¬ l.length < v.pos) → AdvOne links adv ex k v v'
  | next (b : Key) : Passed links v v' → v'.linkId = some b → (k, b) ∈ adv → k ∉ ex → AdvOne links adv ex k v v'
  | exit : Passed links v v' → v'.route = [] → k ∈ ex → k ∉ adv.map (·.1) → AdvOne links adv ex k v v'

/-- The invariant of the loop of the phase. -/
structure AdvInv (s : Sim F) (rest : List Key) (a : Sim.AdvState F) : Prop where
  links : OnlyVehs s.links a.links
  vehs : SRel (fun k v v' => (k ∈ rest → v' = v) ∧ (k ∉ rest → AdvOne s.links a.advanced a.exited k v v'))
    s.vehicles a.vehicles
  mem : MemberBut (fun j => j ∈ a.advanced.map (·.1) ∨ j ∈ a.exited) a.links a.vehicles
  advNodup : (a.advanced.map (·.1)).Nodup
  exNodup : a.exited.Nodup
  advIn : ∀ p ∈ a.advanced, p.1 ∉ rest ∧ ∃ v', a.vehicles.get? p.1 = some v' ∧ v'.linkId = some p.2
  exIn : ∀ k ∈ a.exited, k ∉ rest ∧ k ∈ s.vehicles.keys

theorem advanceOne_spec [Env] [LawfulDijkstra] {E : Err → Prop} (hE : strict ∨ E .shiftOverflow) (hE' : SearchEnds ∨ E .diverges)
    {s : Sim F} (hs : SimInv strict s) {a : Sim.AdvState F} {k : Key} {rest : List Key}
    (hsuf : (k :: rest) <:+ s.vehicles.keys) (h : AdvInv s (k :: rest) a) :
    Spec (Sim.advanceOne a k) E (AdvInv s rest) := by
  have hnd : (k :: rest).Nodup := s.vehicles.nodup_keys.sublist hsuf.sublist
  rw [List.nodup_cons] at hnd
  have hk : k ∈ s.vehicles.keys := hsuf.subset (by simp)
  obtain ⟨v, hv⟩ := SlotMap.mem_keys.1 hk
  obtain ⟨v1, hv1, he, -⟩ := h.vehs.fwd k v hv
  obtain rfl := he (by simp)
  have hka : k ∉ a.advanced.map (·.1) := by
    intro hm
    obtain ⟨p, hp, e⟩ := List.mem_map.1 hm
    exact (h.advIn p hp).1 (by rw [e]; simp)
  have hke : k ∉ a.exited := fun hm => (h.exIn k hm).1 (by simp)
  have hi : VehInv a.links k v1 := (hs.veh k v1 hv).mono h.links.frame.le
  have hN : NetInv strict a.links := hs.net.frame h.links.frame
  unfold Sim.advanceOne
  refine (getVeh_spec (contains_of_get hv1)).bind fun v2 hv2 => ?_
  rw [hv1] at hv2; cases hv2
  have hlk : v1.linkId = some v1.pathfind.src := hi.src
  rw [hlk]
  dsimp only
  refine (advance_spec hE hE' hN hi).bind ?_
  rintro ⟨w, did⟩ (⟨hd, hw, b, l, hb, hl, hlt⟩ | ⟨hd, hp⟩)
  · dsimp only at hd hw ⊢
    subst hd
    refine Spec.pure ⟨h.links, ?_, h.mem, h.advNodup, h.exNodup, fun p hp => ⟨fun hm => (h.advIn p hp).1 (by simp [hm]),
      (h.advIn p hp).2⟩, fun j hj => ⟨fun hm => (h.exIn j hj).1 (by simp [hm]), (h.exIn j hj).2⟩⟩
    refine ⟨h.vehs.keys, h.vehs.wf, h.vehs.issued, fun j u hj => ?_⟩
    obtain ⟨u', hu', h3, h4⟩ := h.vehs.fwd j u hj
    refine ⟨u', hu', fun hm => h3 (by simp [hm]), fun hm => ?_⟩
    by_cases e : j = k
    · subst e
      rw [hv] at hj; cases hj
      obtain ⟨l0, hl0, e0⟩ := h.links.bwd hl
      exact .stay (h3 (by simp)) hka hke ⟨b, l0, hb, hl0, by rw [e0] at hlt; exact hlt⟩
    · exact h4 (by simp [e, hm])
  · dsimp only at hd hp ⊢
    subst hd
    have hsrc : a.links.contains v1.pathfind.src = true := hi.drivable.valid _ (List.mem_of_mem_head? hi.src)
    rw [if_pos rfl]
    refine (updLink_spec hsrc).bind fun links' hl' => ?_
    subst hl'
    have hp' : Passed s.links v1 w := hp.back h.links
    have hL : OnlyVehs s.links (a.links.modify v1.pathfind.src fun l => l.removeVehicle k) :=
      SRel.modify h.links _ _ fun l l' _ _ e => by rw [e]; rfl
    have hM := (h.mem.remove hv1 hlk).setVeh (k := k) (.inr rfl) (fun _ => w)
    have hget : (a.vehicles.modify k fun _ => w).get? k = some w := by
      rw [SlotMap.get?_modify_self, hv1]; rfl
    have hV : ∀ adv ex, (∀ j u u', j ∉ k :: rest → AdvOne s.links a.advanced a.exited j u u' →
          AdvOne s.links adv ex j u u') → AdvOne s.links adv ex k v1 w →
        SRel (fun k v v' => (k ∈ rest → v' = v) ∧ (k ∉ rest → AdvOne s.links adv ex k v v')) s.vehicles
          (a.vehicles.modify k fun _ => w) := by
      intro adv ex hmono hone
      refine ⟨by rw [SlotMap.keys_modify, h.vehs.keys], fun hw => (h.vehs.wf hw).modify k _,
        fun k' hk' => (h.vehs.issued k' hk').modify k _, fun j u hj => ?_⟩
      by_cases e : j = k
      · subst e
        rw [hv] at hj; cases hj
        exact ⟨w, hget, fun hm => absurd hm hnd.1, fun _ => hone⟩
      · obtain ⟨u', hu', h3, h4⟩ := h.vehs.fwd j u hj
        refine ⟨u', by rw [SlotMap.get?_modify_ne _ _ e]; exact hu', fun hm => h3 (by simp [hm]), fun hm => ?_⟩
        have hjm : j ∉ k :: rest := by simp [e, hm]
        exact hmono j u u' hjm (h4 hjm)
    cases hlw : w.linkId with
    | some b =>
      dsimp only
      refine Spec.pure ⟨hL, hV _ _ ?_ (.next b hp' hlw (by simp) hke), ?_, ?_, h.exNodup, ?_, ?_⟩
      · rintro j u u' hj (⟨h1, h2, h3, h4⟩ | ⟨c, h1, h2, h3, h4⟩ | ⟨h1, h2, h3, h4⟩)
        · refine .stay h1 ?_ h3 h4
          simp only [List.map_append, List.map_cons, List.map_nil, List.mem_append, List.mem_singleton, not_or]
          exact ⟨h2, by rintro rfl; simp at hj⟩
        · exact .next c h1 h2 (by simp [h3]) h4
        · refine .exit h1 h2 h3 ?_
          simp only [List.map_append, List.map_cons, List.map_nil, List.mem_append, List.mem_singleton, not_or]
          exact ⟨h4, by rintro rfl; simp at hj⟩
      · refine hM.congr fun j => ?_
        simp only [List.map_append, List.map_cons, List.map_nil, List.mem_append, List.mem_singleton]
        tauto
      · rw [List.map_append, List.nodup_append]
        refine ⟨h.advNodup, by simp, ?_⟩
        rintro x hx y hy rfl
        simp at hy
        exact hka (hy ▸ hx)
      · intro p hp
        rcases List.mem_append.1 hp with hp | hp
        · obtain ⟨h1, v', h2, h3⟩ := h.advIn p hp
          have e : p.1 ≠ k := by intro e; exact h1 (by simp [e])
          exact ⟨fun hm => h1 (by simp [hm]), v', by rw [SlotMap.get?_modify_ne _ _ e]; exact h2, h3⟩
        · simp at hp
          subst hp
          exact ⟨hnd.1, w, hget, hlw⟩
      · exact fun j hj => ⟨fun hm => (h.exIn j hj).1 (by simp [hm]), (h.exIn j hj).2⟩
    | none =>
      dsimp only
      have hwr : w.route = [] := by
        unfold Vehicle.linkId at hlw
        simpa using hlw
      refine Spec.pure ⟨hL, hV _ _ ?_ (.exit hp' hwr (by simp) hka), ?_, h.advNodup, ?_, ?_, ?_⟩
      · rintro j u u' hj (⟨h1, h2, h3, h4⟩ | ⟨c, h1, h2, h3, h4⟩ | ⟨h1, h2, h3, h4⟩)
        · exact .stay h1 h2 (by simp [h3]; rintro rfl; simp at hj) h4
        · exact .next c h1 h2 h3 (by simp [h4]; rintro rfl; simp at hj)
        · exact .exit h1 h2 (by simp [h3]) h4
      · refine hM.congr fun j => ?_
        simp only [List.mem_append, List.mem_singleton]
        tauto
      · rw [List.nodup_append]
        refine ⟨h.exNodup, by simp, ?_⟩
        rintro x hx y hy rfl
        simp at hy
        exact hke (hy ▸ hx)
      · intro p hp
        obtain ⟨h1, v', h2, h3⟩ := h.advIn p hp
        have e : p.1 ≠ k := by intro e; exact h1 (by simp [e])
        exact ⟨fun hm => h1 (by simp [hm]), v', by rw [SlotMap.get?_modify_ne _ _ e]; exact h2, h3⟩
      · intro j hj
        rcases List.mem_append.1 hj with hj | hj
        · exact ⟨fun hm => (h.exIn j hj).1 (by simp [hm]), (h.exIn j hj).2⟩
        · simp at hj; subst hj; exact ⟨hnd.1, hk⟩

/-- Putting the advanced vehicles on their new links. -/
theorem insertAll_spec {E : Err → Prop} {vs : VehicleSet F} {out : Key → Prop} : ∀ (adv : List (Key × Key))
    (links : LinkSet F), (adv.map (·.1)).Nodup →
    (∀ p ∈ adv, links.contains p.2 = true ∧ ∃ v, vs.get? p.1 = some v ∧ v.linkId = some p.2) →
    MemberBut (fun j => j ∈ adv.map (·.1) ∨ out j) links vs → (∀ p ∈ adv, ¬ out p.1) →
    Spec (adv.foldlM (fun links p => Sim.insertOnLink links vs p.2 p.1) links) E fun links' =>
      OnlyVehs links links' ∧ MemberBut out links' vs
  | [], links, _, _, hm, _ => Spec.pure ⟨SRel.refl fun _ _ _ => rfl, hm.congr fun j => by simp⟩
  | p :: adv, links, hn, hv, hm, ho => by
    rw [List.foldlM_cons]
    rw [List.map_cons, List.nodup_cons] at hn
    obtain ⟨hc, v, hpv, hpl⟩ := hv p (by simp)
    refine (insertOnLink_spec hm (.inl (by simp)) hpv hpl hc).bind ?_
    rintro links' ⟨hr, hm'⟩
    have hr' : OnlyVehs links links' := hr.mono fun j l l' h => by
      by_cases e : j = p.2
      · obtain ⟨i, -, h⟩ := h.2 e; rw [h]
      · rw [h.1 e]
    refine (insertAll_spec adv links' hn.2 (fun q hq => ?_) (hm'.congr fun j => ?_) fun q hq => ho q (by simp [hq])).mono
      (fun links'' h => ⟨hr'.trans h.1, h.2⟩) (fun _ h => h)
    · obtain ⟨h1, h2⟩ := hv q (by simp [hq])
      exact ⟨by rw [hr.contains]; exact h1, h2⟩
    · simp only [List.map_cons, List.mem_cons]
      constructor
      · rintro ⟨(h1 | h1) | h1, h2⟩
        · exact absurd h1 h2
        · exact .inl h1
        · exact .inr h1
      · rintro (h1 | h1)
        · exact ⟨.inl (.inr h1), by rintro rfl; exact hn.1 h1⟩
        · exact ⟨.inr h1, by rintro rfl; exact ho p (by simp) h1⟩

omit [Flt F] in
theorem removeAll_mem {links : LinkSet F} : ∀ (ex : List Key) (vs : VehicleSet F), ex.Nodup →
    MemberBut (fun j => j ∈ ex) links vs → Member links (ex.foldl (fun vs k => (vs.remove k).1) vs)
  | [], vs, _, h => member_iff.2 (h.congr fun j => by simp)
  | k :: ex, vs, hn, h => by
    rw [List.nodup_cons] at hn
    rw [List.foldl_cons]
    refine removeAll_mem ex _ hn.2 ((h.delete (k := k) (by simp)).congr fun j => ?_)
    simp only [List.mem_cons]
    constructor
    · rintro ⟨h1 | h1, h2⟩
      · exact absurd h1 h2
      · exact h1
    · exact fun h1 => ⟨.inr h1, by rintro rfl; exact hn.1 h1⟩

omit [Flt F] in
theorem removeAll_get (j : Key) : ∀ (ex : List Key) (vs : VehicleSet F),
    (ex.foldl (fun vs k => (vs.remove k).1) vs).get? j = if j ∈ ex then none else vs.get? j
  | [], vs => by simp
  | k :: ex, vs => by
    rw [List.foldl_cons, removeAll_get j ex, SlotMap.get?_remove]
    by_cases h1 : j ∈ ex <;> by_cases h2 : j = k <;> simp [h1, h2]

omit [Flt F] in
theorem removeAll_wf : ∀ (ex : List Key) (vs : VehicleSet F), vs.WF →
    (ex.foldl (fun vs k => (vs.remove k).1) vs).WF
  | [], _, h => h
  | k :: ex, vs, h => by rw [List.foldl_cons]; exact removeAll_wf ex _ (h.remove k)

omit [Flt F] in
theorem removeAll_issued (j : Key) : ∀ (ex : List Key) (vs : VehicleSet F), vs.Issued j →
    (ex.foldl (fun vs k => (vs.remove k).1) vs).Issued j
  | [], _, h => h
  | k :: ex, vs, h => by rw [List.foldl_cons]; exact removeAll_issued j ex _ (h.remove k)

theorem advanceVehicles_phase [Env] [LawfulDijkstra] {E : Err → Prop} (hE : strict ∨ E .shiftOverflow)
    (hE' : SearchEnds ∨ E .diverges) {s : Sim F} (hs : SimInv strict s) : Spec s.advanceVehicles E (AdvRun s) := by
  unfold Sim.advanceVehicles
  refine Spec.bind (P := AdvInv s []) ?_ ?_
  · refine Spec.foldlM' (I := AdvInv s) (fun a k rest hsuf h => advanceOne_spec hE hE' hs hsuf h) ?_
    refine ⟨SRel.refl fun _ _ _ => rfl, SRel.refl fun k v hk => ⟨fun _ => rfl, fun h =>
      absurd (SlotMap.mem_keys.2 ⟨v, hk⟩) h⟩, (member_iff.1 hs.mem).congr fun j => by simp, by simp, by simp, by simp, by simp⟩
  · intro a ha
    have hadv : ∀ p ∈ a.advanced, ∃ v v', s.vehicles.get? p.1 = some v ∧ a.vehicles.get? p.1 = some v' ∧
        Passed s.links v v' ∧ v'.linkId = some p.2 ∧ p.1 ∉ a.exited := by
      intro p hp
      obtain ⟨-, v', hv', hl'⟩ := ha.advIn p hp
      obtain ⟨v, hv, -, hone⟩ := ha.vehs.bwd hv'
      rcases hone (by simp) with ⟨h1, h2, h3, h4⟩ | ⟨c, h1, h2, h3, h4⟩ | ⟨h1, h2, h3, h4⟩
      · exact absurd (List.mem_map.2 ⟨p, hp, rfl⟩) h2
      · exact ⟨v, v', hv, hv', h1, hl', h4⟩
      · exact absurd (List.mem_map.2 ⟨p, hp, rfl⟩) h4
    refine (insertAll_spec (out := fun j => j ∈ a.exited) a.advanced a.links ha.advNodup (fun p hp => ?_) ha.mem
      fun p hp => ?_).bind ?_
    · obtain ⟨v, v', h1, h2, h3, h4, h5⟩ := hadv p hp
      refine ⟨?_, v', h2, h4⟩
      rw [ha.links.contains]
      have hr : v'.route ≠ [] := by intro e; unfold Vehicle.linkId at h4; rw [e] at h4; cases h4
      exact (h3.inv (hs.veh _ v h1) hr).drivable.valid _ (List.mem_of_mem_head? h4)
    · obtain ⟨v, v', h1, h2, h3, h4, h5⟩ := hadv p hp
      exact h5
    · rintro links' ⟨hl, hm⟩
      have hL := ha.links.trans hl
      refine Spec.pure ⟨hL.frame, hL, rfl, fun h => removeAll_wf _ _ (ha.vehs.wf h), removeAll_mem _ _ ha.exNodup hm, ?_, ?_,
        fun k hk => removeAll_issued k _ _ (ha.vehs.issued k hk)⟩
      · intro k v hv
        obtain ⟨v', hv', -, hone⟩ := ha.vehs.fwd k v hv
        dsimp only
        rw [removeAll_get, hv']
        rcases hone (by simp) with ⟨h1, h2, h3, h4⟩ | ⟨c, h1, h2, h3, h4⟩ | ⟨h1, h2, h3, h4⟩
        · subst h1; exact .inl ⟨by rw [if_neg h3], h4⟩
        · refine .inr ⟨v', h1, .inl ⟨?_, by rw [if_neg h4]⟩⟩
          intro e; unfold Vehicle.linkId at h2; rw [e] at h2; cases h2
        · exact .inr ⟨v', h1, .inr ⟨h2, by rw [if_pos h3]⟩⟩
      · intro k v' hv'
        dsimp only at hv'
        rw [removeAll_get] at hv'
        split at hv'
        · cases hv'
        · obtain ⟨v, hv, -⟩ := ha.vehs.bwd hv'; exact ⟨v, hv⟩

theorem AdvRun.inv {s s' : Sim F} (h : AdvRun s s') (hs : SimInv strict s) : SimInv strict s' := by
  have et : s'.lights = s.lights := by rw [h.eq]
  have ec : s'.conflicts = s.conflicts := by rw [h.eq]
  refine ⟨hs.net.frame h.frame, h.wf hs.vwf, ?_, h.mem, by rw [et]; exact hs.lwf, ?_, ?_⟩
  · intro k v' hv'
    obtain ⟨v, hv⟩ := h.bwd k v' hv'
    rcases h.fwd k v hv with ⟨h1, -⟩ | ⟨w, hp, ⟨h1, h2⟩ | ⟨h1, h2⟩⟩
    · rw [hv'] at h1; cases h1
      exact (hs.veh k _ hv).mono h.frame.le
    · rw [hv'] at h2; cases h2
      exact (hp.inv (hs.veh k v hv) h1).mono h.frame.le
    · rw [hv'] at h2; cases h2
  · rw [et]; exact fun k tl htl => (hs.lights k tl htl).frame h.frame
  · rw [ec]; intro c hc; rw [h.frame.contains, h.frame.contains]; exact hs.conflicts c hc

end

end TrafficSim
