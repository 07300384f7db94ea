import Verif.Props.Gridlock

/-! # C90: where nobody waits in a circle -/

namespace TrafficSim

section
variable {strict : Prop} {s s' s1 : Sim ℝ} {dt : ℝ}

/-- No conflicts, no groups of lanes, and no way from a link back to it. -/
structure OneWay (s : Sim ℝ) : Prop where
  conflicts : s.conflicts = []
  groups : ∀ k l, s.links.get? k = some l → l.group = none
  ways : ∀ k, ¬ Relation.TransGen (Conn s.links) k k

/-- The links of a route lead on and on. -/
theorem chain_way {r : Key → Key → Prop} : ∀ {ks : List Key}, ks.IsChain r → ∀ {a b : Key} {i : Nat}, ks.head? = some a → ks[i + 1]? = some b →
    Relation.TransGen r a b
  | [], _, a, b, i, ha, _ => by cases ha
  | [x], _, a, b, i, ha, hb => by simp at hb
  | x :: y :: ks, h, a, b, i, ha, hb => by
    obtain ⟨h1, h2⟩ := List.isChain_cons_cons.1 h
    cases ha
    cases i with
    | zero => simp at hb; subst hb; exact .single h1
    | succ i =>
      rw [List.getElem?_cons_succ] at hb
      exact .head h1 (chain_way h2 rfl hb)

/-- Waiting leads ahead on a link, or to a link further on. -/
theorem WaitsFor.ahead [Env] (hi : SimInv strict s1) (h : OneWay s1) {k j : Key} (hw : WaitsFor s1 k j) :
    ∃ v u a b, s1.vehicles.get? k = some v ∧ s1.vehicles.get? j = some u ∧ v.linkId = some a ∧ u.linkId = some b ∧
      (Relation.TransGen (Conn s1.links) a b ∨ a = b ∧ ∃ l, s1.links.get? a = some l ∧ l.vehicles.idxOf k < l.vehicles.idxOf j) := by
  cases hw with
  | @next lk l u v h1 h2 h3 h4 h5 =>
    have hm := hi.mem lk l h1
    have on : ∀ x w, x ∈ l.vehicles → s1.vehicles.get? x = some w → w.linkId = some lk := by
      intro x w hx hw
      obtain ⟨w', hw', e⟩ := (hm.2 x).1 hx
      rw [hw] at hw'; cases hw'; exact e
    obtain ⟨pre, post, e⟩ := h2
    have mk : k ∈ l.vehicles := by rw [← e]; simp
    have mj : j ∈ l.vehicles := by rw [← e]; simp
    refine ⟨v, u, lk, lk, h4, h3, on k v mk h4, on j u mj h3, .inr ⟨rfl, l, h1, ?_⟩⟩
    have hn := hm.1
    rw [← e] at hn ⊢
    rw [List.append_assoc, List.nodup_append] at hn
    obtain ⟨-, hn2, hn3⟩ := hn
    have k1 : k ∉ pre := fun hk => hn3 k hk k (by simp) rfl
    have j1 : j ∉ pre := fun hj => hn3 j hj j (by simp) rfl
    have kj : k ≠ j := by
      intro h; subst h; simp at hn2
    rw [List.append_assoc, List.idxOf_append_of_notMem k1, List.idxOf_append_of_notMem j1]
    simp [kj]
  | @last k0 l i d js u v h1 h2 h3 h4 h5 =>
    obtain ⟨lk, hlk, -⟩ := h1.way
    have hm := hi.mem k0 l h2
    obtain ⟨u', hu', e⟩ := (hm.2 j).1 (by rw [h3]; simp)
    rw [h4] at hu'; cases hu'
    exact ⟨v, u, lk, k0, h1.veh, h4, hlk, e, .inl (chain_way (hi.veh k v h1.veh).drivable.chain hlk h1.route)⟩
  | lane h1 _ _ h4 => rw [h.groups _ _ h1] at h4; cases h4
  | region h1 => rw [h.conflicts] at h1; cases h1
  | merge h1 => rw [h.conflicts] at h1; cases h1

/-- Nobody waits for itself. -/
theorem OneWay.no_circle [Env] (hi : SimInv strict s1) (h : OneWay s1) (k : Key) : ¬ Relation.TransGen (WaitsFor s1) k k := by
  have key : ∀ j, Relation.TransGen (WaitsFor s1) k j →
      ∃ v u a b, s1.vehicles.get? k = some v ∧ s1.vehicles.get? j = some u ∧ v.linkId = some a ∧ u.linkId = some b ∧
      (Relation.TransGen (Conn s1.links) a b ∨ a = b ∧ ∃ l, s1.links.get? a = some l ∧ l.vehicles.idxOf k < l.vehicles.idxOf j) := by
    intro j hj
    induction hj with
    | single h1 => exact h1.ahead hi h
    | tail _ h2 ih =>
      obtain ⟨v, u, a, b, g1, g2, e1, e2, hc⟩ := ih
      obtain ⟨v', w, a', c, g3, g4, e3, e4, hd⟩ := h2.ahead hi h
      rw [g2] at g3; cases g3
      rw [e2] at e3; cases e3
      refine ⟨v, w, a, c, g1, g4, e1, e4, ?_⟩
      rcases hc with hc | ⟨rfl, l, hl, hc⟩
      · rcases hd with hd | ⟨rfl, -⟩
        · exact .inl (hc.trans hd)
        · exact .inl hc
      · rcases hd with hd | ⟨rfl, l', hl', hd⟩
        · exact .inl hd
        · rw [hl] at hl'; cases hl'
          exact .inr ⟨rfl, l, hl, hc.trans hd⟩
  intro hk
  obtain ⟨v, u, a, b, g1, g2, e1, e2, hc⟩ := key k hk
  rw [g1] at g2; cases g2
  rw [e1] at e2; cases e2
  rcases hc with hc | ⟨-, l, -, hc⟩
  · exact h.ways a hc
  · exact lt_irrefl _ hc

/-- **C90, where it holds** (exact arithmetic).  On a network without conflicts, groups of lanes and circles of links all vehicles stand, and
accelerations are due.  Then one of them leaves or starts to move, or is frozen, or is at the end of its route or at a link that is not open. -/
theorem C90_flows_partial [Env] [LawfulDijkstra] (h : Reach strict s) (hst : s.step dt = .ok s') (hdt : 0 < dt)
    (hre : ¬ s.accUpdate < 0.1) (hlanes : s.calculateLaneChanges = .ok s1) (hnet : OneWay s)
    (hcar : ∀ k v, s1.getVehicle k = .ok v → 0 < v.acc.maxAcc ∧ 0 < v.acc.comfDec ∧ v.vel = 0)
    (hsome : ∃ k v, s1.getVehicle k = .ok v) :
    ∃ k v, s1.getVehicle k = .ok v ∧ (k ∈ s.frozen ∨ HeldAtLine s1 k ∨ (∀ v', s'.getVehicle k ≠ .ok v') ∨
      ∃ v', s'.getVehicle k = .ok v' ∧ 0 < v'.vel) := by
  obtain ⟨s1', s2, s3, s4, s5, s6, hr⟩ := (step_spec h.inv dt).ok hst
  rw [hr.run1] at hlanes; cases hlanes
  have hc1 : s1.conflicts = [] := by
    rw [← hnet.conflicts]
    rcases hr.lanes with ⟨-, e⟩ | ⟨-, vs, lcs, hl⟩
    · rw [e]
    · rw [hl.eq]
  have net1 : OneWay s1 := by
    refine ⟨hc1, fun k l hl => ?_, fun k hk => hnet.ways k (Relation.TransGen.mono (fun a b => ?_) _ _ hk)⟩
    · obtain ⟨l0, hl0, e⟩ := hr.frame1.bwd hl
      rw [e]; exact hnet.groups k l0 hl0
    · rintro ⟨l, hl, hb⟩
      obtain ⟨l0, hl0, e⟩ := hr.frame1.bwd hl
      rw [e] at hb
      exact ⟨l0, hl0, hb⟩
  by_cases hall : ∀ k v, s1.getVehicle k = .ok v → ∃ v', s'.getVehicle k = .ok v' ∧ v'.vel = 0
  · obtain ⟨k, v, hv, hk⟩ := C90_standstill_partial h hst hdt hre hr.run1 hcar hall hsome
    refine ⟨k, v, hv, ?_⟩
    rcases hk with hk | hk | hk
    · exact .inl hk
    · exact .inr (.inl hk)
    · exact absurd hk (net1.no_circle hr.inv1 k)
  · push Not at hall
    obtain ⟨k, v, hv, hk⟩ := hall
    refine ⟨k, v, hv, .inr (.inr ?_)⟩
    by_cases hex : ∃ v', s'.getVehicle k = .ok v'
    · obtain ⟨v', hv'⟩ := hex
      refine .inr ⟨v', hv', lt_of_le_of_ne ?_ (Ne.symm (hk v' hv'))⟩
      have := C20_speed (.exec (.step dt) h trivial hst) hv'
      exact this
    · exact .inl fun v' hv' => hex ⟨v', hv'⟩

end

/-- The only vehicle stands and is no longer frozen. -/
theorem Lone.idle : ∃ (_ : Env) (_ : LawfulDijkstra) (s s' s1 : Sim ℝ) (v v' : Vehicle ℝ), Reach True s ∧ s.step 0.05 = .ok s' ∧
    ¬ s.accUpdate < 0.1 ∧ s.calculateLaneChanges = .ok s1 ∧ OneWay s ∧ s1.getVehicle ⟨0, 1⟩ = .ok v ∧ s'.getVehicle ⟨0, 1⟩ = .ok v' ∧
    (∀ k w, s1.getVehicle k = .ok w → k = ⟨0, 1⟩ ∧ w = v) ∧ 0 < v.acc.maxAcc ∧ 0 < v.acc.comfDec ∧ v.vel = 0 ∧ v.route = [⟨0, 1⟩] ∧
    ⟨0, 1⟩ ∉ s.frozen ∧ s1.conflicts = [] ∧ ∀ lk l, s1.getLinkRef lk = .ok l → l.group = none := by
  obtain ⟨n, s, -, -, v, l, h1, -, h3, h4, -, -, -, -, -, -, h11, h12, -, fr, m, sq, t, u, es, hl, hpos⟩ := Lone.rest_alone
  let := Lone.env n
  have := Lone.lawful n
  have r1 := Reach.exec (strict := True) (.setVehicleFrozen ⟨0, 1⟩ false) h1 trivial rfl
  have hf := (C12_set_frozen h1 ⟨0, 1⟩ false).1
  obtain ⟨fr', e1⟩ := setVehicleFrozen_eq s ⟨0, 1⟩ false
  have h3' : ¬ t < 0.1 := by rw [es] at h3; exact h3
  have e2 : s.setVehicleFrozen ⟨0, 1⟩ false = Lone.sim l v fr' m sq t u := by rw [e1, es]; rfl
  rw [e2] at r1 hf
  obtain ⟨u', hlanes⟩ := Lone.lanes (n := n) (l := l) (fr := fr') (m := m) (sq := sq) (t := t) (u := u) h12
  obtain ⟨l', v', fr2, t', u2, hst, -⟩ := Lone.step (n := n) (fr := fr') (m := m) (sq := sq) (t := t) (u := u) (dt := 0.05) hl h12 (by norm_num)
    (by rw [h11]; norm_num; linarith)
  have groups : ∀ k l0, (Lone.one l).get? k = some l0 → l0 = l := by
    intro k l0 hl0
    have hk : k ∈ (Lone.one l).keys := SlotMap.mem_keys.2 ⟨l0, hl0⟩
    rw [Lone.keys_one, List.mem_singleton] at hk
    subst hk
    rw [Lone.get_one] at hl0
    exact (Option.some.inj hl0).symm
  refine ⟨Lone.env n, Lone.lawful n, _, _, _, v, v', r1, hst, h3', hlanes, ⟨rfl, ?_, ?_⟩, rfl, rfl, ?_, ?_, ?_, h11, h12.route, ?_, rfl, ?_⟩
  · intro k l0 hl0
    rw [groups k l0 hl0]
    exact hl.group
  · intro k hk
    obtain ⟨b, ⟨l0, hl0, hb⟩, -⟩ := Relation.TransGen.head'_iff.1 hk
    rw [groups k l0 hl0, hl.outs] at hb
    cases hb
  · intro k w hw
    have hk : k ∈ (Lone.one v).keys := SlotMap.mem_keys.2 ⟨w, getVeh_ok.1 hw⟩
    rw [Lone.keys_one, List.mem_singleton] at hk
    subst hk
    have : (Lone.one v).get? ⟨0, 1⟩ = some w := getVeh_ok.1 hw
    rw [Lone.get_one] at this
    exact ⟨rfl, (Option.some.inj this).symm⟩
  · rw [h12.maxAcc]; norm_num
  · rw [h12.dec]; norm_num
  · simpa [Sim.getVehicleFrozen] using hf
  · intro k l0 hl0
    rw [groups k l0 (getLink_ok.1 hl0)]
    exact hl.group

example : ∃ (_ : Env) (_ : LawfulDijkstra) (s s' s1 : Sim ℝ), Reach True s ∧ s.step 0.05 = .ok s' ∧ ¬ s.accUpdate < 0.1 ∧
    s.calculateLaneChanges = .ok s1 ∧ OneWay s ∧ (∀ k v, s1.getVehicle k = .ok v → 0 < v.acc.maxAcc ∧ 0 < v.acc.comfDec ∧ v.vel = 0) ∧
    ∃ k v, s1.getVehicle k = .ok v ∧ k ∉ s.frozen := by
  obtain ⟨e, e', s, s', s1, v, v', h1, h2, h3, h4, h5, h6, h7, h8, h9, h10, h11, h12, h13, -⟩ := Lone.idle
  exact ⟨e, e', s, s', s1, h1, h2, h3, h4, h5, fun k w hw => (h8 k w hw).2 ▸ ⟨h9, h10, h11⟩, _, v, h6, h13⟩

end TrafficSim
