import Verif.Lemmas.Acc

/-! # Which vehicles are listed on which links -/

namespace TrafficSim

section
variable {F : Type}

/-- Every link lists exactly the vehicles that are on it, each once, except those in `out`, which are
listed nowhere. -/
def MemberBut (out : Key → Prop) (links : LinkSet F) (vs : VehicleSet F) : Prop :=
  ∀ lk l, links.get? lk = some l → l.vehicles.Nodup ∧
    ∀ k, k ∈ l.vehicles ↔ ¬ out k ∧ ∃ v, vs.get? k = some v ∧ v.linkId = some lk

variable {out out' : Key → Prop} {links links' : LinkSet F} {vs vs' : VehicleSet F}

theorem member_iff : Member links vs ↔ MemberBut (fun _ => False) links vs := by
  simp [Member, MemberBut]

theorem MemberBut.congr (h : MemberBut out links vs) (ho : ∀ k, out k ↔ out' k) : MemberBut out' links vs := by
  intro lk l hl
  obtain ⟨h1, h2⟩ := h lk l hl
  exact ⟨h1, fun k => by rw [h2, ho]⟩

theorem mem_removeVehicle [Flt F] {l : Link F} (hn : l.vehicles.Nodup) (k j : Key) :
    j ∈ (l.removeVehicle k).vehicles ↔ j ≠ k ∧ j ∈ l.vehicles := by
  simp only [Link.removeVehicle, List.mem_reverse]
  rw [List.Nodup.mem_erase_iff (List.nodup_reverse.2 hn)]
  simp

theorem nodup_removeVehicle [Flt F] {l : Link F} (hn : l.vehicles.Nodup) (k : Key) :
    (l.removeVehicle k).vehicles.Nodup := by
  simp only [Link.removeVehicle]
  exact List.nodup_reverse.2 ((List.nodup_reverse.2 hn).erase k)

theorem MemberBut.remove [Flt F] (h : MemberBut out links vs) {k a : Key} {v : Vehicle F} (hv : vs.get? k = some v)
    (ha : v.linkId = some a) :
    MemberBut (fun j => out j ∨ j = k) (links.modify a fun l => l.removeVehicle k) vs := by
  intro lk l hl
  rw [SlotMap.get?_modify] at hl
  split at hl
  · rename_i e
    subst e
    rw [Option.map_eq_some_iff] at hl
    obtain ⟨l0, hl0, rfl⟩ := hl
    obtain ⟨h1, h2⟩ := h lk l0 hl0
    refine ⟨nodup_removeVehicle h1 k, fun j => ?_⟩
    rw [mem_removeVehicle h1, h2]
    constructor
    · rintro ⟨h3, h4, h5⟩; exact ⟨by tauto, h5⟩
    · rintro ⟨h3, h4⟩; exact ⟨by tauto, by tauto, h4⟩
  · rename_i e
    obtain ⟨h1, h2⟩ := h lk l hl
    refine ⟨h1, fun j => ?_⟩
    rw [h2]
    constructor
    · rintro ⟨h3, v', hv', hl'⟩
      refine ⟨?_, v', hv', hl'⟩
      rintro (h4 | rfl)
      · exact h3 h4
      · rw [hv] at hv'; cases hv'
        rw [ha] at hl'; cases hl'
        exact e rfl
    · rintro ⟨h3, h4⟩; exact ⟨by tauto, h4⟩

theorem MemberBut.setVeh (h : MemberBut out links vs) {k : Key} (ho : out k) (f : Vehicle F → Vehicle F) :
    MemberBut out links (vs.modify k f) := by
  intro lk l hl
  obtain ⟨h1, h2⟩ := h lk l hl
  refine ⟨h1, fun j => ?_⟩
  rw [h2]
  refine and_congr_right fun hj => ?_
  have e : j ≠ k := by rintro rfl; exact hj ho
  rw [SlotMap.get?_modify_ne _ _ e]

theorem MemberBut.onVehs (h : MemberBut out links vs)
    (hr : SRel (fun _ v v' => v'.linkId = v.linkId) vs vs') : MemberBut out links vs' := by
  intro lk l hl
  obtain ⟨h1, h2⟩ := h lk l hl
  refine ⟨h1, fun j => ?_⟩
  rw [h2]
  refine and_congr_right fun _ => ?_
  constructor
  · rintro ⟨v, hv, hl⟩
    obtain ⟨v', hv', e⟩ := hr.fwd j v hv
    exact ⟨v', hv', e.trans hl⟩
  · rintro ⟨v', hv', hl⟩
    obtain ⟨v, hv, e⟩ := hr.bwd hv'
    exact ⟨v, hv, e.symm.trans hl⟩

theorem MemberBut.onLinks (h : MemberBut out links vs)
    (hr : SRel (fun _ l l' => l'.vehicles = l.vehicles) links links') : MemberBut out links' vs := by
  intro lk l' hl'
  obtain ⟨l, hl, e⟩ := hr.bwd hl'
  rw [e]
  exact h lk l hl

theorem MemberBut.delete (h : MemberBut out links vs) {k : Key} (ho : out k) :
    MemberBut (fun j => out j ∧ j ≠ k) links (vs.remove k).1 := by
  intro lk l hl
  obtain ⟨h1, h2⟩ := h lk l hl
  refine ⟨h1, fun j => ?_⟩
  rw [h2, SlotMap.get?_remove]
  by_cases e : j = k
  · subst e; simp [ho]
  · simp [e]

theorem MemberBut.insert [Flt F] (h : MemberBut out links vs) {k b : Key} {v : Vehicle F} (ho : out k)
    (hv : vs.get? k = some v) (hb : v.linkId = some b) {l : Link F} (hl : links.get? b = some l) (i : Nat)
    (hi : i ≤ l.vehicles.length) :
    MemberBut (fun j => out j ∧ j ≠ k) (links.modify b fun _ => { l with vehicles := l.vehicles.insertIdx i k }) vs := by
  intro lk l' hl'
  rw [SlotMap.get?_modify] at hl'
  split at hl'
  · rename_i e
    subst e
    rw [hl] at hl'
    cases hl'
    obtain ⟨h1, h2⟩ := h lk l hl
    have hmem : ∀ j, j ∈ l.vehicles.insertIdx i k ↔ j = k ∨ j ∈ l.vehicles := fun j => by
      rw [List.mem_insertIdx hi]
    have hk : k ∉ l.vehicles := fun hk => ((h2 k).1 hk).1 ho
    refine ⟨?_, fun j => ?_⟩
    · rw [(List.perm_insertIdx k l.vehicles hi).nodup_iff]
      exact List.nodup_cons.2 ⟨hk, h1⟩
    · rw [hmem, h2]
      by_cases e : j = k
      · subst e
        exact ⟨fun _ => ⟨fun h => h.2 rfl, v, hv, hb⟩, fun _ => .inl rfl⟩
      · simp [e]
  · rename_i e
    obtain ⟨h1, h2⟩ := h lk l' hl'
    refine ⟨h1, fun j => ?_⟩
    rw [h2]
    constructor
    · rintro ⟨h3, h4⟩; exact ⟨fun h => h3 h.1, h4⟩
    · rintro ⟨h3, v', hv', hl''⟩
      refine ⟨fun hj => ?_, v', hv', hl''⟩
      by_cases e' : j = k
      · subst e'
        rw [hv] at hv'; cases hv'
        rw [hb] at hl''; cases hl''
        exact e rfl
      · exact h3 ⟨hj, e'⟩

theorem MemberBut.valid (h : MemberBut out links vs) {lk : Key} {l : Link F} (hl : links.get? lk = some l) :
    ∀ k ∈ l.vehicles, vs.contains k = true := by
  intro k hk
  obtain ⟨-, v, hv, -⟩ := ((h lk l hl).2 k).1 hk
  exact contains_of_get hv

/-! ## Insertion on a link -/

theorem insertIdx_spec [Flt F] {E : Err → Prop} (pos : F) : ∀ (ks : List Key), (∀ k ∈ ks, vs.contains k = true) →
    Spec (Link.insertIdx vs pos ks) E fun i => i ≤ ks.length
  | [], _ => Spec.pure le_rfl
  | k :: ks, h => by
    unfold Link.insertIdx
    refine (getVeh_spec (h k (by simp))).bind fun v _ => Spec.ite (fun _ => Spec.pure (Nat.zero_le _)) (fun _ => ?_)
    exact (insertIdx_spec pos ks fun k hk => h k (by simp [hk])).bind fun i hi => Spec.pure (by simpa using hi)

/-- The link `b` after the vehicle `k` was put on it. -/
def LinkInsert (k b : Key) (j : Key) (l l' : Link F) : Prop :=
  (j ≠ b → l' = l) ∧ (j = b → ∃ i, i ≤ l.vehicles.length ∧ l' = { l with vehicles := l.vehicles.insertIdx i k })

theorem insertOnLink_spec [Flt F] {E : Err → Prop} (h : MemberBut out links vs) {k b : Key} {v : Vehicle F} (ho : out k)
    (hv : vs.get? k = some v) (hb : v.linkId = some b) (hc : links.contains b = true) :
    Spec (Sim.insertOnLink links vs b k) E fun links' => SRel (LinkInsert k b) links links' ∧
      MemberBut (fun j => out j ∧ j ≠ k) links' vs := by
  unfold Sim.insertOnLink Link.insertVehicle
  refine (getLink_spec hc).bind fun l hl => ?_
  refine Spec.bind (P := fun l' => ∃ i, i ≤ l.vehicles.length ∧ l' = { l with vehicles := l.vehicles.insertIdx i k }) ?_ ?_
  · refine (getVeh_spec (contains_of_get hv)).bind fun v _ => ?_
    exact (insertIdx_spec v.pos l.vehicles (h.valid hl)).bind fun i hi => Spec.pure ⟨i, hi, rfl⟩
  · rintro l' ⟨i, hi, rfl⟩
    refine (updLink_spec hc).mono (fun links' hlinks' => ?_) (fun _ h => h)
    subst hlinks'
    refine ⟨?_, h.insert ho hv hb hl i hi⟩
    refine SRel.modify_one links b _ (fun j v hj => ⟨fun _ => rfl, fun e => absurd e hj⟩) fun v hv' => ?_
    rw [hl] at hv'; cases hv'
    exact ⟨fun e => absurd rfl e, fun _ => ⟨i, hi, rfl⟩⟩

theorem LinkInsert.frame {k b j : Key} {l l' : Link F} (h : LinkInsert k b j l l') : LinkFrame l l' := by
  by_cases e : j = b
  · obtain ⟨i, -, rfl⟩ := h.2 e
    exact ⟨rfl, rfl, rfl, rfl, rfl, rfl, rfl, rfl, rfl, fun h => h⟩
  · rw [h.1 e]; exact LinkFrame.rfl'

end

end TrafficSim
