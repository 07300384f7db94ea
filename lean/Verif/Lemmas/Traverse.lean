import Verif.Lemmas.Frame
import Verif.Props.Math

/-! # Traversals over the vehicles on upstream links -/

namespace TrafficSim

section
variable {F : Type}

/-- Everything that a link or a vehicle of the network refers to exists. -/
structure NetOK (n : Net F) : Prop where
  ids : ∀ k l, n.links.get? k = some l → l.id = k
  ins : ∀ k l, n.links.get? k = some l → ∀ j ∈ l.linksIn, n.links.contains j = true
  vehs : ∀ k l, n.links.get? k = some l → ∀ j ∈ l.vehicles, n.vehicles.contains j = true
  confs : ∀ k l, n.links.get? k = some l → ∀ c ∈ l.conflicts, n.links.contains c.linkId = true
  routes : ∀ k v, n.vehicles.get? k = some v → ∀ j ∈ v.route, n.links.contains j = true

variable [Flt F]

/-- Going `i` links upstream from the link `k0`, at a position `pos0` on which the search starts,
leads to the link `k`; seen from there the start is at position `pos`. -/
inductive Upstream (links : LinkSet F) (k0 : Key) (pos0 : F) : Nat → Key → F → Prop
  | here : Upstream links k0 pos0 0 k0 pos0
  | up {i : Nat} {k j : Key} {pos : F} {l l' : Link F} : Upstream links k0 pos0 i k pos →
      links.get? k = some l → j ∈ l.linksIn → links.get? j = some l' →
      Upstream links k0 pos0 (i + 1) j (pos + l'.length)

/-- A vehicle that a search from position `pos0` of link `k0` may visit. -/
structure Visited (n : Net F) (k0 : Key) (pos0 : F) (r : RelVeh F) : Prop where
  veh : n.vehicles.get? r.key = some r.vehicle
  place : ∃ k l, Upstream n.links k0 pos0 r.routeIdx k r.pos ∧ n.links.get? k = some l ∧
    r.key ∈ l.vehicles ∧ ∃ st, r.getRoute 0 = some (k0, st) ∧ (st = .entered ∨ ¬ l.length < r.pos)

theorem processList_spec {σ : Type} {E : Err → Prop} {I : σ → Prop} {vs : VehicleSet F}
    {f : RelVeh F → σ → M (σ × Bool)} {route : Nat × Key} {pos minPos length : F} {P : RelVeh F → Prop}
    (hf : ∀ r s, P r → I s → Spec (f r s) E fun p => I p.1) : ∀ (ks : List Key),
    (∀ k ∈ ks, vs.contains k = true) →
    (∀ k ∈ ks, ∀ v st, vs.get? k = some v → v.getRoute route.1 = some (route.2, st) →
      (st = .entered ∨ ¬ length < pos) → P { key := k, vehicle := v, routeIdx := route.1, pos }) →
    ∀ s, I s → Spec (Link.processList vs f route pos minPos length ks s) E fun p => I p.1
  | [], _, _, s, hs => Spec.pure hs
  | k :: ks, hc, hP, s, hs => by
    have ih := processList_spec (minPos := minPos) hf ks (fun k hk => hc k (by simp [hk]))
      (fun k hk => hP k (by simp [hk]))
    unfold Link.processList
    refine (getVeh_spec (hc k (by simp))).bind fun v hv => ?_
    refine Spec.ite (fun _ => Spec.pure hs) (fun _ => ?_)
    cases hr : v.getRoute route.1 with
    | none => exact ih s hs
    | some p =>
      obtain ⟨k', st⟩ := p
      refine Spec.ite (fun _ => ih s hs) (fun hk => Spec.ite (fun _ => Spec.pure hs) (fun hst => ?_))
      have hk' : k' = route.2 := by simpa using hk
      subst hk'
      refine (hf _ s (hP k (by simp) v st hv hr ?_) hs).bind fun p hp => ?_
      · by_cases h : st = .entered
        · exact .inl h
        · exact .inr fun h' => hst ⟨h, h'⟩
      · exact Spec.ite (fun _ => Spec.pure hp) (fun _ => ih p.1 hp)

/-- Rule for searches: an invariant of the callback's state is kept. -/
theorem processVehicles_spec {σ : Type} {E : Err → Prop} {I : σ → Prop} {n : Net F} (hn : NetOK n)
    {f : RelVeh F → σ → M (σ × Bool)} {k0 : Key} {pos0 : F} (hE : E .diverges)
    (hf : ∀ r s, Visited n k0 pos0 r → I s → Spec (f r s) E fun p => I p.1) :
    ∀ (fuel : Nat) (l : Link F) (i : Nat) (k : Key) (pos : F) (skip : Nat) (s : σ),
    n.links.get? k = some l → Upstream n.links k0 pos0 i k pos → I s →
    Spec (Link.processVehicles n f fuel l (i, k0) pos skip s) E I := by
  intro fuel
  induction fuel with
  | zero => intro l i k pos skip s _ _ _; unfold Link.processVehicles; exact Spec.throw hE
  | succ fuel ih =>
    intro l i k pos skip s hl hu hs
    unfold Link.processVehicles
    refine Spec.ite (fun _ => Spec.pure hs) (fun _ => ?_)
    refine (processList_spec hf (l.vehicles.reverse.drop skip) (fun j hj => hn.vehs k l hl j ?_)
      (fun j hj v st hv hr hst => ?_) s hs).bind fun p hp => ?_
    · exact List.mem_reverse.1 (List.mem_of_mem_drop hj)
    · exact ⟨hv, k, l, hu, hl, List.mem_reverse.1 (List.mem_of_mem_drop hj), st, hr, hst⟩
    · refine Spec.ite (fun _ => Spec.pure hp) (fun _ => Spec.ite (fun _ => Spec.pure hp) (fun _ => ?_))
      refine Spec.foldlM (fun s hs j hj => ?_) hp
      refine (getLink_spec (hn.ins k l hl j hj)).bind fun l' hl' => ?_
      exact ih l' (i + 1) j (pos + l'.length) 0 s hl' (hu.up hl hj hl') hs

theorem skipAhead_spec {E : Err → Prop} {vs : VehicleSet F} (pos1 : F) : ∀ (ks : List Key),
    (∀ k ∈ ks, vs.contains k = true) →
    Spec (Link.skipAhead vs pos1 ks) E fun ks' => ks' <:+ ks
  | [], _ => Spec.pure List.suffix_rfl
  | k :: ks, h => by
    unfold Link.skipAhead
    refine (getVeh_spec (h k (by simp))).bind fun v hv => Spec.ite (fun _ => ?_) (fun _ => Spec.pure List.suffix_rfl)
    exact (skipAhead_spec pos1 ks fun k hk => h k (by simp [hk])).mono
      (fun ks' h' => h'.trans (List.suffix_cons k ks)) (fun _ => id)

theorem checkGapList_spec {E : Err → Prop} {vs : VehicleSet F} (pos0 time : F) (q : Option Nat)
    (route : Nat × Key) (maxVel : F) : ∀ (ks : List Key), (∀ k ∈ ks, vs.contains k = true) →
    Spec (Link.checkGapList vs pos0 time q route maxVel ks) E fun _ => True
  | [], _ => Spec.pure trivial
  | k :: ks, h => by
    have ih := checkGapList_spec (E := E) pos0 time q route maxVel ks fun k hk => h k (by simp [hk])
    unfold Link.checkGapList
    refine (getVeh_spec (h k (by simp))).bind fun v hv => ?_
    cases v.getRoute route.1 with
    | none => exact ih
    | some p =>
      obtain ⟨k', st⟩ := p
      refine Spec.ite (fun _ => ih) (fun _ => ?_)
      cases st <;> cases q <;> first | exact Spec.pure trivial | exact Spec.ite (fun _ => Spec.pure trivial) (fun _ => Spec.pure trivial)

theorem allM_spec {α : Type} {E : Err → Prop} {f : α → M Bool} : ∀ (l : List α),
    (∀ a ∈ l, Spec (f a) E fun _ => True) → Spec (Link.allM f l) E fun _ => True
  | [], _ => Spec.pure trivial
  | a :: l, h => by
    unfold Link.allM
    refine (h a (by simp)).bind fun b _ => Spec.ite (fun _ => ?_) (fun _ => Spec.pure trivial)
    exact allM_spec l fun a ha => h a (by simp [ha])

theorem checkGap_spec {E : Err → Prop} {n : Net F} (hn : NetOK n) (hE : E .diverges) (time : F)
    (q : Option Nat) : ∀ (fuel : Nat) (k : Key) (l : Link F) (pos : F × F) (route : Nat × Key) (maxVel : F),
    n.links.get? k = some l → Spec (Link.checkGap n time q fuel l pos route maxVel) E fun _ => True := by
  intro fuel
  induction fuel with
  | zero => intro k l pos route mv _; unfold Link.checkGap; exact Spec.throw hE
  | succ fuel ih =>
    intro k l pos route mv hl
    unfold Link.checkGap
    have hv : ∀ j ∈ l.vehicles.reverse, n.vehicles.contains j = true := fun j hj =>
      hn.vehs k l hl j (List.mem_reverse.1 hj)
    refine (skipAhead_spec pos.2 l.vehicles.reverse hv).bind fun ks hks => ?_
    refine (checkGapList_spec _ _ _ _ _ ks fun k hk => hv k (hks.subset hk)).bind fun b _ => ?_
    cases b with
    | some b => exact Spec.pure trivial
    | none =>
      refine Spec.ite (fun _ => Spec.pure trivial) (fun _ => ?_)
      refine allM_spec _ fun j hj => ?_
      exact (getLink_spec (hn.ins k l hl j hj)).bind fun l' hl' => ih j l' _ _ _ hl'

theorem canEnterLoop_spec [Env] {E : Err → Prop} {n : Net F} (hn : NetOK n) (hE : E .diverges)
    {k : Key} {l : Link F} (hl : n.links.get? k = some l) (veh : RelVeh F) (q : Nat) (prio : Int) :
    ∀ (idxs : List Nat), (∀ i ∈ idxs, i < l.conflicts.length) →
    Spec (Link.canEnterLoop n l veh q prio idxs) E fun r => ∀ i, r = some i → i ∈ idxs
  | [], _ => Spec.pure (by simp)
  | i :: idxs, h => by
    have ih := canEnterLoop_spec hn hE hl veh q prio idxs fun i hi => h i (by simp [hi])
    unfold Link.canEnterLoop
    rw [List.getElem?_eq_getElem (h i (by simp))]
    refine (getLink_spec (hn.confs k l hl _ (List.getElem_mem _))).bind fun l' hl' => ?_
    refine (checkGap_spec hn hE _ _ _ _ l' _ _ _ hl').bind fun b _ => ?_
    refine Spec.ite (fun _ => ih.mono (fun r hr i hi => by simp [hr i hi]) (fun _ => id)) (fun _ => ?_)
    exact Spec.pure fun i hi => by simp at hi; simp [hi]

theorem canEnter_spec [Env] {E : Err → Prop} {n : Net F} (hn : NetOK n) (hE : E .diverges)
    {k : Key} {l : Link F} (hl : n.links.get? k = some l) (last : Nat) (hlast : last ≤ l.conflicts.length)
    (veh : RelVeh F) (q : Nat) (prio : Int) :
    Spec (Link.canEnter n l last veh q prio) E fun r => r.2 ≤ l.conflicts.length := by
  have hr : ∀ i ∈ rotatedRange l.conflicts.length last, i < l.conflicts.length := fun i hi => by
    have := (C59_rotatedRange l.conflicts.length last hlast).2.1 i
    exact (this.1 hi)
  unfold Link.canEnter
  refine (canEnterLoop_spec hn hE hl veh q prio _ hr).bind fun r hri => ?_
  cases r with
  | none => exact Spec.pure hlast
  | some i => exact Spec.pure (hr i (hri i rfl)).le

end

end TrafficSim
