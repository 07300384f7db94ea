import Verif.Lemmas.Origin
import Verif.Lemmas.TownRun
import Verif.Props.Converge

/-! # C34, C60, C62: the network -/

namespace TrafficSim

section
variable {F : Type} [Flt F] {strict : Prop} {s s' : Sim F}

/-- What an operation does to the links. -/
inductive NetOrigin [Env] (s : Sim F) (op : Op F) (s' : Sim F) : Prop
  | frame : Frame s.links s'.links → NetOrigin s op s'
  | added (a : LinkAttributes F) (k : Key) : op = .addLink a → LinkAdded s a s' k → NetOrigin s op s'
  | grouped (ids : List Key) (mask : Nat) (g : LinkGroup F) (lcs : List (Key × Key)) : op = .addLinkGroup ids mask →
      GroupAdded s ids mask g lcs s' → NetOrigin s op s'
  | converging (a b : Key) (cs : List (Key × LinkConflict F)) : op = .addLinkConvergance a b →
      SRel (Conflicting cs) s.links s'.links → NetOrigin s op s'
  | connected (a b : Key) : op = .addLinkConnection a b → s.links.contains a = true → s.links.contains b = true →
      SRel (Connected a b) s.links s'.links → NetOrigin s op s'

theorem exec_network [Env] [LawfulDijkstra] (hs : SimInv strict s) {op : Op F} (h : s.exec op = .ok s') :
    NetOrigin s op s' := by
  have same : s'.links = s.links → NetOrigin s op s' := fun e => .frame (by rw [e]; exact frame_refl _)
  cases op with
  | addLink a =>
    simp only [Sim.exec, M_bind_ok, M_pure_ok] at h
    obtain ⟨⟨s1, k⟩, h, rfl⟩ := h
    exact .added a k rfl (addLink_ok hs.net.wf h)
  | addLinkGroup ids m =>
    obtain ⟨g, lcs, h⟩ := addLinkGroup_ok hs.net h
    exact .grouped ids m g lcs rfl h
  | addLinkConvergance a b =>
    rcases addLinkConvergance_ok hs.net h with rfl | ⟨c, la, lb, -, -, -, -, -, -, h, -⟩
    · exact same rfl
    · exact .converging a b _ rfl h
  | addLinkConnection a b =>
    obtain ⟨h1, h2, h, -⟩ := addLinkConnection_ok h
    exact .connected a b rfl h1 h2 h
  | addTrafficLight tl =>
    simp only [Sim.exec, M_bind_ok, M_pure_ok] at h
    obtain ⟨⟨s1, k⟩, h, rfl⟩ := h
    exact same (by dsimp only; rw [(addTrafficLight_ok hs.lwf h).eq])
  | addVehicle a l =>
    simp only [Sim.exec, M_bind_ok, M_pure_ok] at h
    obtain ⟨⟨s1, j⟩, h, rfl⟩ := h
    exact .frame (addVehicle_ok hs h).links.frame
  | removeVehicle j => exact .frame ((removeVehicle_spec (E := fun _ => True) hs j).ok h).links.frame
  | randomiseVelocityAdjusts sd f =>
    obtain ⟨-, h2⟩ := randomise_ok h
    exact same (by rw [h2])
  | setVehicleFrozen j b =>
    simp only [Sim.exec, M_pure_ok] at h
    subst h
    obtain ⟨f, e⟩ := setVehicleFrozen_eq s j b
    exact same (by rw [e])
  | setVehicleDestination j d =>
    simp only [Sim.exec, Sim.setVehicleDestination, M_bind_ok, M_pure_ok] at h
    obtain ⟨v, -, v', -, rfl⟩ := h
    exact same rfl
  | setLinkControl j c =>
    obtain ⟨-, h1, -⟩ := setLinkControl_ok h
    exact .frame (by rw [h1]; exact writeControls_frame _ _)
  | doLaneChange j l d =>
    have hk : s.vehicles.contains j = true ∧ s.links.contains l = true := by
      simp only [Sim.exec, Sim.doLaneChange, M_bind_ok, getVeh_ok] at h
      obtain ⟨v, hv, h⟩ := h
      refine ⟨contains_of_get hv, ?_⟩
      split at h
      · simp only [M_bind_ok, updLink_ok, getLink_ok] at h
        obtain ⟨links', ⟨-, rfl⟩, l', hl, -⟩ := h
        have h1 := contains_of_get hl
        have := SRel.modify_one (R := fun _ _ _ => True) s.links ‹Key› (fun l => l.removeVehicle j)
          (fun _ _ _ => trivial) (fun _ _ => trivial)
        rwa [this.contains] at h1
      · simp only [M_bind_ok, M_pure_ok, getLink_ok] at h
        obtain ⟨links', rfl, l', hl, -⟩ := h
        exact contains_of_get hl
    exact .frame ((doLaneChange_spec (E := fun _ => True) (.inr trivial) (.inr trivial) (.inr ⟨trivial, trivial, trivial⟩) hs hk.1 hk.2 d).ok h).ctrl.frame
  | step dt =>
    obtain ⟨s1, s2, s3, s4, s5, s6, h⟩ := (step_spec hs dt).ok h
    exact .frame h.frame

theorem linkNew_fields [Env] {k : Key} {a : LinkAttributes F} {l : Link F} (h : Link.new k a = .ok l) :
    l.linksIn = [] ∧ l.linksOut = [] := by
  simp only [Link.new, M_bind_ok, M_pure_ok] at h
  obtain ⟨c, -, rfl⟩ := h
  exact ⟨rfl, rfl⟩

/-! ## C60 -/

/-- **C60.** A link lists another one as successor as often as that one lists it as predecessor. -/
theorem C60_symmetric [Env] [LawfulDijkstra] (h : Reach strict s) {a b : Key} {la lb : Link F}
    (ha : s.getLinkRef a = .ok la) (hb : s.getLinkRef b = .ok lb) : la.linksOut.count b = lb.linksIn.count a := by
  rw [Sim.getLinkRef, getLink_ok] at ha hb
  induction h generalizing a b la lb with
  | new =>
    have : (Sim.new : Sim F).links.get? a = none := rfl
    rw [this] at ha; cases ha
  | @exec s s' op hr _ he ih =>
    cases exec_network hr.inv he with
    | frame hf =>
      obtain ⟨la0, ha0, ea⟩ := hf.bwd ha
      obtain ⟨lb0, hb0, eb⟩ := hf.bwd hb
      rw [ea.linksOut, eb.linksIn]
      exact ih ha0 hb0
    | added att k _ hk =>
      obtain ⟨l, hl, hget⟩ := hk.link
      obtain ⟨n1, n2⟩ := linkNew_fields hl
      have hn := hr.inv.net
      have fresh : s.links.contains k = false := by
        cases e : s.links.contains k with
        | false => rfl
        | true => obtain ⟨v, hv⟩ := get_of_contains e; exact absurd hv (not_contains_of_not_issued hk.fresh v)
      rw [hget] at ha hb
      split at ha
      · rename_i e; cases ha; subst e
        rw [n2]
        split at hb
        · cases hb; rw [n1]; rfl
        · symm
          rw [List.count_nil, List.count_eq_zero]
          intro hm
          rw [(hn.link b lb hb).linksIn a hm] at fresh; cases fresh
      · split at hb
        · rename_i e; cases hb; subst e
          rw [n1, List.count_nil, List.count_eq_zero]
          intro hm
          rw [(hn.link a la ha).linksOut b hm] at fresh; cases fresh
        · exact ih ha hb
    | grouped ids mask g lcs _ hg =>
      obtain ⟨la0, ha0, rfl, -⟩ := hg.rel.bwd ha
      obtain ⟨lb0, hb0, rfl, -⟩ := hg.rel.bwd hb
      exact ih (la := la0) (lb := lb0) ha0 hb0
    | converging x y cs _ hc =>
      obtain ⟨la0, ha0, rfl⟩ := hc.bwd ha
      obtain ⟨lb0, hb0, rfl⟩ := hc.bwd hb
      exact ih (la := la0) (lb := lb0) ha0 hb0
    | connected x y _ _ _ hc =>
      obtain ⟨la0, ha0, rfl⟩ := hc.bwd ha
      obtain ⟨lb0, hb0, rfl⟩ := hc.bwd hb
      dsimp only
      rw [List.count_append, List.count_append, ih ha0 hb0]
      congr 1
      by_cases e1 : a = x <;> by_cases e2 : b = y
      · simp [e1, e2]
      · simp [e1, e2, Ne.symm e2]
      · simp [e1, e2, Ne.symm e1]
      · simp [e1, e2]

/-! ## C62 -/

/-- **C62.** No operation removes a link or changes its key, shape, speed limit or cost; successors,
predecessors, lane changes and conflicts are only added; and operations other than the four that build
the network, in particular steps, leave all of them alone. -/
theorem C62_network_grows [Env] [LawfulDijkstra] (h : Reach strict s) {op : Op F} (he : s.exec op = .ok s') {k : Key}
    {l : Link F} (hl : s.getLinkRef k = .ok l) :
    ∃ l', s'.getLinkRef k = .ok l' ∧ l'.id = k ∧ l.id = k ∧ l'.curve = l.curve ∧ l'.speedLimit = l.speedLimit ∧
      l'.cost = l.cost ∧ l.linksIn <+: l'.linksIn ∧ l.linksOut <+: l'.linksOut ∧ l.laneChanges <+: l'.laneChanges ∧
      l.conflicts <+: l'.conflicts ∧
      ((∀ a b, op ≠ .addLinkConnection a b) → l'.linksIn = l.linksIn ∧ l'.linksOut = l.linksOut) ∧
      ((∀ ids m, op ≠ .addLinkGroup ids m) → l'.laneChanges = l.laneChanges ∧ l'.group = l.group) ∧
      ((∀ a b, op ≠ .addLinkConvergance a b) → l'.conflicts = l.conflicts) := by
  have hid := (h.inv.net.link k l (getLink_ok.1 hl)).id
  rw [Sim.getLinkRef, getLink_ok] at hl
  simp only [Sim.getLinkRef, getLink_ok]
  have r {α : Type} (x : List α) : x <+: x := List.prefix_rfl
  cases exec_network h.inv he with
  | frame hf =>
    obtain ⟨l', hl', e⟩ := hf.fwd k l hl
    refine ⟨l', hl', e.id.trans hid, hid, e.curve, e.speedLimit, e.cost, ?_, ?_, ?_, ?_, fun _ => ⟨e.linksIn, e.linksOut⟩,
      fun _ => ⟨e.laneChanges, e.group⟩, fun _ => e.conflicts⟩
    · rw [e.linksIn]
    · rw [e.linksOut]
    · rw [e.laneChanges]
    · rw [e.conflicts]
  | added att j _ hk =>
    exact ⟨l, hk.old hl, hid, hid, rfl, rfl, rfl, r _, r _, r _, r _, fun _ => ⟨rfl, rfl⟩, fun _ => ⟨rfl, rfl⟩, fun _ => rfl⟩
  | grouped ids mask g lcs hop hg =>
    obtain ⟨l', hl', rfl, -⟩ := hg.rel.fwd k l hl
    exact ⟨_, hl', hid, hid, rfl, rfl, rfl, r _, r _, List.prefix_append _ _, r _, fun _ => ⟨rfl, rfl⟩,
      fun hne => absurd hop (hne _ _), fun _ => rfl⟩
  | converging x y cs hop hc =>
    obtain ⟨l', hl', rfl⟩ := hc.fwd k l hl
    exact ⟨_, hl', hid, hid, rfl, rfl, rfl, r _, r _, r _, List.prefix_append _ _, fun _ => ⟨rfl, rfl⟩, fun _ => ⟨rfl, rfl⟩,
      fun hne => absurd hop (hne _ _)⟩
  | connected x y hop _ _ hc =>
    obtain ⟨l', hl', rfl⟩ := hc.fwd k l hl
    exact ⟨_, hl', hid, hid, rfl, rfl, rfl, List.prefix_append _ _, List.prefix_append _ _, r _, r _,
      fun hne => absurd hop (hne _ _), fun _ => ⟨rfl, rfl⟩, fun _ => rfl⟩

/-! ## C34 -/

omit [Flt F] in
theorem lanePairs_nodup (g : LinkGroup F) (hnd : g.links.Nodup) (dir : Direction) (target : Nat → Nat) :
    ∀ {idxs : List Nat} {ps : List (Key × Key)}, idxs.Nodup → g.lanePairs dir target idxs = .ok ps →
      (ps.map (·.1)).Nodup ∧ ∀ p ∈ ps, ∃ i ∈ idxs, g.links[i]? = some p.1 ∧ g.links[target i]? = some p.2
  | [], ps, _, h => by
    simp only [LinkGroup.lanePairs, M_pure_ok] at h
    subst h; simp
  | i :: idxs, ps, hn, h => by
    rw [List.nodup_cons] at hn
    simp only [LinkGroup.lanePairs, M_bind_ok] at h
    obtain ⟨b, -, h⟩ := h
    split at h
    · split at h
      · rename_i x y hx hy
        simp only [M_bind_ok, M_pure_ok] at h
        obtain ⟨rest, hrest, rfl⟩ := h
        obtain ⟨h1, h2⟩ := lanePairs_nodup g hnd dir target hn.2 hrest
        refine ⟨?_, ?_⟩
        · rw [List.map_cons, List.nodup_cons]
          refine ⟨fun hm => ?_, h1⟩
          obtain ⟨p, hp, rfl⟩ := List.mem_map.1 hm
          obtain ⟨j, hj, hj1, -⟩ := h2 p hp
          have hlt := (List.getElem?_eq_some_iff.1 hx).1
          have := (List.getElem?_inj hlt hnd).1 (hx.trans hj1.symm)
          subst this
          exact hn.1 hj
        · intro p hp
          rcases List.mem_cons.1 hp with rfl | hp
          · exact ⟨i, by simp, hx, hy⟩
          · obtain ⟨j, hj, h⟩ := h2 p hp
            exact ⟨j, by simp [hj], h⟩
      · simp at h
    · obtain ⟨h1, h2⟩ := lanePairs_nodup g hnd dir target hn.2 h
      refine ⟨h1, fun p hp => ?_⟩
      obtain ⟨j, hj, h⟩ := h2 p hp
      exact ⟨j, by simp [hj], h⟩

omit [Flt F] in
theorem laneChanges_nodup {g : LinkGroup F} (hnd : g.links.Nodup) {lcs : List (Key × Key)}
    (h : g.laneChanges = .ok lcs) : lcs.Nodup := by
  unfold LinkGroup.laneChanges at h
  split at h
  · simp at h
  · simp only [M_bind_ok, M_pure_ok] at h
    obtain ⟨r, hr, l, hl, rfl⟩ := h
    obtain ⟨r1, r2⟩ := lanePairs_nodup g hnd _ _ (List.nodup_reverse.2 List.nodup_range) hr
    obtain ⟨l1, l2⟩ := lanePairs_nodup g hnd _ _ (List.nodup_range.map fun a b h => by simpa using h) hl
    refine List.Nodup.append r1.of_map l1.of_map fun p hp hp' => ?_
    obtain ⟨i, -, hi1, hi2⟩ := r2 p hp
    obtain ⟨j, hj, hj1, hj2⟩ := l2 p hp'
    have e := (List.getElem?_inj (List.getElem?_eq_some_iff.1 hi1).1 hnd).1 (hi1.trans hj1.symm)
    have e' := (List.getElem?_inj (List.getElem?_eq_some_iff.1 hi2).1 hnd).1 (hi2.trans hj2.symm)
    simp at hj
    omega

/-- **C34.** After a group of distinct, ungrouped links has been added, lane `i` of it may change to lane
`i + 1` exactly if bit `2 i + 1` of the mask is set, and to lane `i - 1` exactly if bit `2 i` is set; it has
no other lane changes, and no duplicates, so at most two.  Other links are not affected. -/
theorem C34_lane_changes [Env] [LawfulDijkstra] (h : Reach strict s) {ids : List Key} {mask : Nat}
    (hst : s.addLinkGroup ids mask = .ok s') (hnd : ids.Nodup)
    (hun : ∀ k ∈ ids, ∀ l, s.getLinkRef k = .ok l → l.group = none) :
    (∀ i k, ids[i]? = some k → ∃ l', s'.getLinkRef k = .ok l' ∧ l'.laneChanges.Nodup ∧ l'.laneChanges.length ≤ 2 ∧
      ∀ j, j ∈ l'.laneChanges ↔ (mask.testBit (2 * i + 1) = true ∧ ids[i + 1]? = some j) ∨
        (mask.testBit (2 * i) = true ∧ 0 < i ∧ ids[i - 1]? = some j)) ∧
    ∀ k, k ∉ ids → s'.getLinkRef k = s.getLinkRef k := by
  obtain ⟨g, lcs, hg⟩ := addLinkGroup_ok h.inv.net hst
  have hmem : ∀ k x, x ∈ (lcs.filter (fun p => p.1 == k)).map (·.2) ↔ (k, x) ∈ lcs := by
    intro k x
    rw [List.mem_map]
    constructor
    · rintro ⟨⟨y, z⟩, hp, rfl⟩
      obtain ⟨h1, h2⟩ := List.mem_filter.1 hp
      have : y = k := by simpa using h2
      rw [← this]; exact h1
    · intro hp
      exact ⟨(k, x), List.mem_filter.2 ⟨hp, by simp⟩, rfl⟩
  constructor
  · intro i k hk
    have hki := List.mem_of_getElem? hk
    obtain ⟨l, hl⟩ := get_of_contains (hg.valid k hki)
    have hnil : l.laneChanges = [] := by
      by_contra hne
      have := (h.inv.net.link k l hl).lc hne
      rw [hun k hki l (getLink_ok.2 hl)] at this
      cases this
    obtain ⟨l', hl', rfl, hlen⟩ := hg.rel.fwd k l hl
    refine ⟨_, getLink_ok.2 hl', ?_, hlen (by simp [hnil]), fun j => ?_⟩
    · dsimp only
      rw [hnil, List.nil_append]
      have := (laneChanges_nodup (by rw [hg.links]; exact hnd) hg.changes).filter (fun p => p.1 == k)
      refine List.Nodup.map_on ?_ this
      rintro ⟨a, b⟩ hp ⟨c, d⟩ hq e
      have h1 := (List.mem_filter.1 hp).2
      have h2 := (List.mem_filter.1 hq).2
      simp only [beq_iff_eq] at h1 h2 e
      rw [h1, h2, e]
    · dsimp only
      rw [hnil, List.nil_append, hmem, hg.pairs]
      have hlt := (List.getElem?_eq_some_iff.1 hk).1
      constructor
      · rintro ⟨i', j', hi', hj', hh⟩
        have := (List.getElem?_inj hlt hnd).1 (hk.trans hi'.symm)
        subst this
        rcases hh with ⟨rfl, hb⟩ | ⟨rfl, hb⟩
        · exact .inl ⟨hb, hj'⟩
        · exact .inr ⟨hb, by omega, by simpa using hj'⟩
      · rintro (⟨hb, hj⟩ | ⟨hb, hi, hj⟩)
        · exact ⟨i, i + 1, hk, hj, .inl ⟨rfl, hb⟩⟩
        · exact ⟨i, i - 1, hk, hj, .inr ⟨by omega, hb⟩⟩
  · intro k hk
    unfold Sim.getLinkRef getLink
    cases e : s.links.get? k with
    | none =>
      have : s'.links.get? k = none := by
        cases e' : s'.links.get? k with
        | none => rfl
        | some l' => obtain ⟨l, hl, -⟩ := hg.rel.bwd e'; rw [e] at hl; cases hl
      rw [this]
    | some l =>
      obtain ⟨l', hl', he, -⟩ := hg.rel.fwd k l e
      rw [hl', he]
      have : lcs.filter (fun p => p.1 == k) = [] := by
        rw [List.filter_eq_nil_iff]
        rintro ⟨a, b⟩ hp
        simp only [beq_iff_eq]
        rintro rfl
        obtain ⟨i, j, hi, -⟩ := (hg.pairs a b).1 hp
        exact hk (List.mem_of_getElem? hi)
      rw [this, if_neg hk]
      simp

end

/-! ## C54 for reachable simulations -/

/-- **C54.** `C54_convergence` needs no hypothesis if the simulation can be reached. -/
theorem C54_reachable [Env] [LawfulDijkstra] {strict : Prop} {s s' : Sim ℝ} (hr : Reach strict s) {a b : Key}
    (h : s.exec (.addLinkConvergance a b) = .ok s') :
    s' = s ∨
    ∃ (la lb : Link ℝ) (aMin aMax bMin bMax : ℝ), a ≠ b ∧ s.getLinkRef a = .ok la ∧ s.getLinkRef b = .ok lb ∧
      InRange la.length aMin aMax ∧ InRange lb.length bMin bMax ∧
      s'.getLinkRef a = .ok { la with conflicts := la.conflicts ++ [⟨b, aMax, bMin, bMax⟩] } ∧
      s'.getLinkRef b = .ok { lb with conflicts := lb.conflicts ++ [⟨a, bMax, aMin, aMax⟩] } ∧
      ∀ k, k ≠ a → k ≠ b → s'.getLinkRef k = s.getLinkRef k := by
  rcases C54_convergence h (fun k l hl => (hr.inv.net.link k l hl).id) with h | ⟨la, lb, x, X, y, Y, _, h1, h2, h3, h4, h5, h6, h7, h8, -⟩
  · exact .inl h
  · refine .inr ⟨la, lb, x, X, y, Y, h1, getLink_ok.2 h2, getLink_ok.2 h3, h4, h5, getLink_ok.2 h6, getLink_ok.2 h7,
      fun k e1 e2 => ?_⟩
    unfold Sim.getLinkRef getLink
    rw [h8 k e1 e2]

/-! ## Examples -/

namespace NetworkDemo

attribute [local instance] Town.env

open Town (street)

/-- Three parallel links and a link behind them. -/
def links : List (Op Float) :=
  [.addLink ⟨street 0.0 0.0 1.0 0.0 2.0, 10.0⟩, .addLink ⟨street 0.0 3.0 1.0 0.0 2.0, 10.0⟩,
   .addLink ⟨street 0.0 6.0 1.0 0.0 2.0, 10.0⟩, .addLink ⟨street 2.0 0.0 1.0 0.0 3.0, 10.0⟩]

def outs (s : Sim Float) (k : Nat) : Option (List Key × List Key × List Key) :=
  (s.links.get? ⟨k, 1⟩).map fun l => (l.linksOut, l.linksIn, l.laneChanges)

theorem group : ∃ s s' : Sim Float, Reach True s ∧ Allowed True s (.addLinkGroup [⟨0, 1⟩, ⟨1, 1⟩, ⟨2, 1⟩] 26) ∧
    s.exec (.addLinkGroup [⟨0, 1⟩, ⟨1, 1⟩, ⟨2, 1⟩] 26) = .ok s' ∧ Reach True s' ∧
    (outs s' 1 == some ([], [], [⟨2, 1⟩])) = true :=
  trial_reach (ops := links) (by decide +kernel)

/-- The hypotheses of `C34_lane_changes` hold; the middle lane gets one lane change. -/
example : ∃ s s' : Sim Float, Reach True s ∧ s.addLinkGroup [⟨0, 1⟩, ⟨1, 1⟩, ⟨2, 1⟩] 26 = .ok s' ∧
    (∀ k ∈ [(⟨0, 1⟩ : Key), ⟨1, 1⟩, ⟨2, 1⟩], ∀ l, s.getLinkRef k = .ok l → l.group = none) ∧
    ∃ l', s'.getLinkRef ⟨1, 1⟩ = .ok l' ∧ l'.laneChanges = [⟨2, 1⟩] := by
  obtain ⟨s, s', h1, h2, h3, -, h5⟩ := group
  rw [beq_iff_eq, outs, Option.map_eq_some_iff] at h5
  obtain ⟨l, hl, e⟩ := h5
  exact ⟨s, s', h1, h3, fun k hk l hl => (h2 trivial).2.2 k hk l (getLink_ok.1 hl), l, getLink_ok.2 hl, (Prod.mk.inj (Prod.mk.inj e).2).2⟩

theorem connect : ∃ s s' : Sim Float, Reach True s ∧ Allowed True s (.addLinkConnection ⟨0, 1⟩ ⟨3, 1⟩) ∧
    s.exec (.addLinkConnection ⟨0, 1⟩ ⟨3, 1⟩) = .ok s' ∧ Reach True s' ∧
    (outs s 0 == some ([⟨3, 1⟩], [], []) && outs s' 0 == some ([⟨3, 1⟩, ⟨3, 1⟩], [], []) &&
      outs s' 3 == some ([], [⟨0, 1⟩, ⟨0, 1⟩], [])) = true :=
  trial_reach (ops := links ++ [.addLinkConnection ⟨0, 1⟩ ⟨3, 1⟩]) (by decide +kernel)

/-- `C60_symmetric` and `C62_network_grows` apply, with a connection declared twice. -/
example : ∃ (s s' : Sim Float) (l la lb : Link Float), Reach True s ∧
    s.exec (.addLinkConnection ⟨0, 1⟩ ⟨3, 1⟩) = .ok s' ∧ Reach True s' ∧ s.getLinkRef ⟨0, 1⟩ = .ok l ∧
    s'.getLinkRef ⟨0, 1⟩ = .ok la ∧ s'.getLinkRef ⟨3, 1⟩ = .ok lb ∧ l.linksOut = [⟨3, 1⟩] ∧
    la.linksOut.count ⟨3, 1⟩ = 2 ∧ lb.linksIn.count ⟨0, 1⟩ = 2 := by
  obtain ⟨s, s', h1, -, h3, h4, h5⟩ := connect
  simp only [Bool.and_eq_true, beq_iff_eq, outs, Option.map_eq_some_iff] at h5
  obtain ⟨⟨⟨l, a1, a2⟩, ⟨la, b1, b2⟩⟩, ⟨lb, c1, c2⟩⟩ := h5
  simp only [Prod.mk.injEq] at a2 b2 c2
  refine ⟨s, s', l, la, lb, h1, h3, h4, getLink_ok.2 a1, getLink_ok.2 b1, getLink_ok.2 c1, a2.1, ?_, ?_⟩
  · rw [b2.1]; decide
  · rw [c2.2.1]; decide

end NetworkDemo

end TrafficSim
