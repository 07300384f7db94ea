import Verif.Lemmas.Rel
import Verif.Model.Simulation
import Verif.Props.Math

/-! # Local properties of links, conflicts and vehicles: C29, C31, C50, C56, C58 -/

namespace TrafficSim

section
variable {F : Type} [Flt F]

/-! ## C29 -/

/-- The outcome of the gap check for the conflict with index `idx`. -/
def GapAt [Env] (net : Net F) (l : Link F) (veh : RelVeh F) (queuedAt : Nat) (priority : Int) (idx : Nat)
    (b : Bool) : Prop :=
  ∃ c link, l.conflicts[idx]? = some c ∧ net.links.get? c.linkId = some link ∧
    Link.checkGap net (veh.minReachTime c.ownMaxPos l.speedLimit + gapBuffer)
      (Link.gapPriority link.control queuedAt priority) Env.fuel link (c.minPos, c.maxPos) (0, c.linkId) 0.0
      = .ok b

theorem GapAt.unique [Env] {net : Net F} {l : Link F} {veh : RelVeh F} {q : Nat} {p : Int} {i : Nat} {a b : Bool}
    (ha : GapAt net l veh q p i a) (hb : GapAt net l veh q p i b) : a = b := by
  obtain ⟨c, k, h1, h2, h3⟩ := ha
  obtain ⟨c', k', h1', h2', h3'⟩ := hb
  rw [h1] at h1'; cases h1'
  rw [h2] at h2'; cases h2'
  rw [h3] at h3'; cases h3'; rfl

theorem canEnterLoop_ok [Env] {net : Net F} {l : Link F} {veh : RelVeh F} {q : Nat} {p : Int} :
    ∀ {is : List Nat} {r : Option Nat}, Link.canEnterLoop net l veh q p is = .ok r →
      match r with
      | none => ∀ i ∈ is, GapAt net l veh q p i true
      | some i => i ∈ is ∧ GapAt net l veh q p i false
  | [], r, h => by
    simp only [Link.canEnterLoop, M_pure_ok] at h
    subst h; simp
  | i :: is, r, h => by
    unfold Link.canEnterLoop at h
    split at h
    · simp at h
    · rename_i c hc
      simp only [M_bind_ok, getLink_ok] at h
      obtain ⟨link, hl, b, hb, h⟩ := h
      cases b with
      | true =>
        rw [if_pos rfl] at h
        have := canEnterLoop_ok h
        cases r with
        | none =>
          intro j hj
          rcases List.mem_cons.1 hj with rfl | hj
          · exact ⟨c, link, hc, hl, hb⟩
          · exact this j hj
        | some j => exact ⟨List.mem_cons_of_mem _ this.1, this.2⟩
      | false =>
        simp only [Bool.false_eq_true, if_false, M_pure_ok] at h
        subst h
        exact ⟨by simp, c, link, hc, hl, hb⟩

/-- What the entry check decides: the answer is yes exactly if every conflict of the link leaves a
sufficient gap, and after a no the cache holds a conflict that does not. -/
theorem canEnter_ok [Env] {net : Net F} {l : Link F} {last last' : Nat} {veh : RelVeh F} {q : Nat} {p : Int}
    {b : Bool} (hlast : last ≤ l.conflicts.length) (h : Link.canEnter net l last veh q p = .ok (b, last')) :
    last' ≤ l.conflicts.length ∧
    (b = true → ∀ i < l.conflicts.length, GapAt net l veh q p i true) ∧
    (b = false → last' < l.conflicts.length ∧ GapAt net l veh q p last' false) := by
  unfold Link.canEnter at h
  simp only [M_bind_ok] at h
  obtain ⟨r, hr, h⟩ := h
  have hm := (C59_rotatedRange l.conflicts.length last hlast).2.1
  have := canEnterLoop_ok hr
  cases r with
  | none =>
    simp only [M_pure_ok, Prod.mk.injEq] at h
    obtain ⟨rfl, rfl⟩ := h
    exact ⟨hlast, fun _ i hi => this i ((hm i).2 hi), by simp⟩
  | some i =>
    simp only [M_pure_ok, Prod.mk.injEq] at h
    obtain ⟨rfl, rfl⟩ := h
    have hi := (hm i).1 this.1
    exact ⟨hi.le, by simp, fun _ => ⟨hi, this.2⟩⟩

/-- **C29.**  Whether a vehicle may enter a link does not depend on the cached conflict index: for any
two cache values that can occur (at most the number of conflicts), if both searches end, they decide
alike.  The decision is yes exactly if all conflicts leave a sufficient gap, and the new cache value can
occur again. -/
theorem C29_cache_irrelevant [Env] {net : Net F} {l : Link F} {last₁ last₂ last₁' last₂' : Nat}
    {veh : RelVeh F} {q : Nat} {p : Int} {b₁ b₂ : Bool}
    (h₁ : last₁ ≤ l.conflicts.length) (h₂ : last₂ ≤ l.conflicts.length)
    (r₁ : Link.canEnter net l last₁ veh q p = .ok (b₁, last₁'))
    (r₂ : Link.canEnter net l last₂ veh q p = .ok (b₂, last₂')) :
    b₁ = b₂ ∧ last₁' ≤ l.conflicts.length ∧
      (b₁ = true ↔ ∀ i < l.conflicts.length, GapAt net l veh q p i true) := by
  obtain ⟨a1, a2, a3⟩ := canEnter_ok h₁ r₁
  obtain ⟨c1, c2, c3⟩ := canEnter_ok h₂ r₂
  refine ⟨?_, a1, a2, fun hall => ?_⟩
  · cases b₁ <;> cases b₂
    · rfl
    · obtain ⟨x, y⟩ := a3 rfl
      exact absurd (y.unique (c2 rfl _ x)) (by decide)
    · obtain ⟨x, y⟩ := c3 rfl
      exact absurd (y.unique (a2 rfl _ x)) (by decide)
    · rfl
  · cases b₁
    · obtain ⟨x, y⟩ := a3 rfl
      exact absurd (y.unique (hall _ x)) (by decide)
    · rfl

/-! ## C31 -/

/-- A vehicle that queued with number `own` for a link of priority `prio` would drive although the vehicle
`other`, which is queued for the conflicting link `route.2` with control `ctl`, might be too close: the
gap check answers yes and the time gap is not sufficient. -/
structure GoesFirst (vs : VehicleSet F) (own : Nat) (prio : Int) (ctl : TrafficControl F) (other : Key)
    (route : Nat × Key) : Prop where
  go : ∃ (pos0 time maxVel : F) (ks : List Key) (v : Vehicle F),
    vs.get? other = some v ∧ ¬ time < v.minReachTime pos0 maxVel ∧
    Link.checkGapList vs pos0 time (Link.gapPriority ctl own prio) route maxVel (other :: ks) = .ok (some true)

theorem goesFirst_iff {vs : VehicleSet F} {own n : Nat} {prio p2 : Int} {d : F} {ms : Bool} {other : Key}
    {route : Nat × Key} {v : Vehicle F} (hv : vs.get? other = some v)
    (hr : v.getRoute route.1 = some (route.2, .queuedAt n)) (h : GoesFirst vs own prio (.yield_ d ms p2) other route) :
    (p2 < prio ∧ 0 < n) ∨ (p2 = prio ∧ own < n) := by
  obtain ⟨pos0, time, maxVel, ks, v', hv', hlt, hg⟩ := h.go
  rw [hv] at hv'; cases hv'
  unfold Link.checkGapList at hg
  simp only [M_bind_ok, getVeh_ok] at hg
  obtain ⟨v', hv', hg⟩ := hg
  rw [hv] at hv'; cases hv'
  rw [hr] at hg
  simp only [ne_eq, not_true_eq_false, if_false] at hg
  unfold Link.gapPriority at hg
  by_cases h1 : prio < p2
  · simp only [h1, if_true, hlt] at hg
    simp at hg
  · simp only [h1, if_false] at hg
    by_cases h2 : prio = p2
    · simp only [h2, if_true] at hg
      by_cases h3 : own < n
      · exact .inr ⟨h2.symm, h3⟩
      · simp [h3, hlt] at hg
    · simp only [h2, if_false] at hg
      by_cases h3 : 0 < n
      · exact .inl ⟨by omega, h3⟩
      · simp [h3, hlt] at hg

/-- **C31.**  Take two vehicles `a`, `b` with queue numbers `na`, `nb`, queued for yielding links
of priority `pa`, `pb`.  It never happens that both would drive without a sufficient gap to the other; the
one of lower priority never does; and at equal priorities the one that queued later never does. -/
theorem C31_not_mutual {vs : VehicleSet F} {a b : Key} {va vb : Vehicle F} {na nb : Nat} {pa pb : Int}
    {da db : F} {ma mb : Bool} {ra rb : Nat × Key}
    (ha : vs.get? a = some va) (hb : vs.get? b = some vb)
    (qa : va.getRoute ra.1 = some (ra.2, .queuedAt na)) (qb : vb.getRoute rb.1 = some (rb.2, .queuedAt nb)) :
    ¬ (GoesFirst vs na pa (.yield_ db mb pb) b rb ∧ GoesFirst vs nb pb (.yield_ da ma pa) a ra) ∧
    (pa < pb → ¬ GoesFirst vs na pa (.yield_ db mb pb) b rb) ∧
    (pa = pb → nb < na → ¬ GoesFirst vs na pa (.yield_ db mb pb) b rb) := by
  refine ⟨fun ⟨h1, h2⟩ => ?_, fun hp h1 => ?_, fun hp hn h1 => ?_⟩
  · have h1 := goesFirst_iff hb qb h1
    have h2 := goesFirst_iff ha qa h2
    omega
  · have h1 := goesFirst_iff hb qb h1
    omega
  · have h1 := goesFirst_iff hb qb h1
    omega

/-- **C31** (the other direction) The vehicle of higher priority, and at equal priorities the one that
queued earlier, is not held up by the other, whatever the distances. -/
theorem C31_precedence {vs : VehicleSet F} {b : Key} {vb : Vehicle F} {na nb : Nat} {pa pb : Int} {db : F}
    {mb : Bool} {rb : Nat × Key} (hb : vs.get? b = some vb)
    (qb : vb.getRoute rb.1 = some (rb.2, .queuedAt nb)) (h : (pb < pa ∧ 0 < nb) ∨ (pa = pb ∧ na < nb))
    (pos0 time maxVel : F) (ks : List Key) :
    Link.checkGapList vs pos0 time (Link.gapPriority (.yield_ db mb pb) na pa) rb maxVel (b :: ks) = .ok (some true) := by
  unfold Link.checkGapList
  have hg : getVeh vs b = .ok vb := getVeh_ok.2 hb
  rw [hg]
  simp only [bind, Except.bind, qb, ne_eq, not_true_eq_false, if_false]
  rcases h with ⟨h1, h2⟩ | ⟨h1, h2⟩
  · have e : Link.gapPriority (.yield_ db mb pb) na pa = some 0 := by
      simp only [Link.gapPriority]
      rw [if_neg (by omega), if_neg (by omega)]
    rw [e]; simp only [h2, if_true]; rfl
  · have e : Link.gapPriority (.yield_ db mb pb) na pa = some na := by
      simp only [Link.gapPriority]
      rw [if_neg (by omega), if_pos h1]
    rw [e]; simp only [h2, if_true]; rfl

end

/-! ## C50 -/

namespace LaneDists

/-- **C50** Combining lane distances is commutative, associative and idempotent. -/
theorem C50_combine (a b c : LaneDists) :
    a.combine b = b.combine a ∧ (a.combine b).combine c = a.combine (b.combine c) ∧ a.combine a = a := by
  refine ⟨?_, ?_, ?_⟩
  · simp only [combine, max_comm]
  · simp only [combine, max_assoc]
  · simp only [combine, max_self]

/-- **C50** Adding a distance distributes over combining, for every number type: also with saturation. -/
theorem C50_offset {F : Type} [Flt F] (a b : LaneDists) (d : F) :
    (a.combine b).offset d = (a.offset d).combine (b.offset d) := by
  have key : ∀ x y z : Nat, satAdd (max x y) z = max (satAdd x z) (satAdd y z) := by
    intro x y z; unfold satAdd; omega
  simp only [combine, offset, map, key]

/-- `a` is at least as good a lane as `b`: all distances are at least as large. -/
def AllLe (b a : LaneDists) : Prop := b.d0 ≤ a.d0 ∧ b.d1 ≤ a.d1 ∧ b.d2 ≤ a.d2 ∧ b.d3 ≤ a.d3

/-- The vehicle at `pos` is before the point where distance `d` (in units of 0.1 m) ends. -/
def Before (pos : ℝ) (d : Nat) : Prop := pos < 0.1 * d

theorem costTerm_le {i m n : Nat} {pos : ℝ} (h : m ≤ n) (hb : Before pos m) :
    costTerm i n pos ≤ costTerm i m pos := by
  unfold Before at hb
  show ((i + 1 : ℕ) : ℝ) / (0.1 * (n : ℝ) - pos) ≤ ((i + 1 : ℕ) : ℝ) / (0.1 * (m : ℝ) - pos)
  have hmn : (m : ℝ) ≤ n := by exact_mod_cast h
  apply div_le_div_of_nonneg_left (by positivity)
  · linarith
  · linarith

/-- **C50** A lane whose distances are all larger never costs more, as long as the vehicle is before the
nearest of them. -/
theorem C50_cost_antitone {a b : LaneDists} {pos : ℝ} (h : AllLe b a)
    (hb : Before pos b.d0 ∧ Before pos b.d1 ∧ Before pos b.d2 ∧ Before pos b.d3) :
    a.cost pos ≤ b.cost pos := by
  unfold cost
  exact max_le_max (max_le_max (max_le_max (costTerm_le h.1 hb.1) (costTerm_le h.2.1 hb.2.1))
    (costTerm_le h.2.2.1 hb.2.2.1)) (costTerm_le h.2.2.2 hb.2.2.2)

/-- Two lanes to which `C50_cost_antitone` applies. -/
example : (⟨1000, 2000, 2000, 2000⟩ : LaneDists).cost (20 : ℝ) ≤ (⟨500, 2000, 2000, 2000⟩ : LaneDists).cost 20 := by
  apply C50_cost_antitone
  · simp [AllLe]
  · norm_num [Before]

/-- **C50** (negation beyond the condition) For a vehicle past all the ends the cost is negative: a lane that
ended 1 m behind the vehicle counts as better than any lane that goes on. -/
theorem C50_past_end_is_best : ∃ (dead good : LaneDists) (pos : ℝ), AllLe dead good ∧
    dead.cost pos < 0 ∧ 0 < good.cost pos := by
  refine ⟨⟨100, 100, 100, 100⟩, ⟨5000, 5000, 5000, 5000⟩, 11, by simp [AllLe], ?_, ?_⟩
  · unfold cost
    simp only [costTerm, fmax, Flt.ofNat]
    norm_num
  · unfold cost
    simp only [costTerm, fmax, Flt.ofNat]
    norm_num

end LaneDists

/-! ## C56 -/

section
variable {F : Type} [Flt F]

theorem clampAdjust_cases (x : F) : (x < 0.75 ∧ Sim.clampAdjust x = 0.75) ∨
    (1.25 < x ∧ Sim.clampAdjust x = 1.25) ∨ (¬ x < 0.75 ∧ ¬ 1.25 < x ∧ Sim.clampAdjust x = x) := by
  unfold Sim.clampAdjust
  by_cases h : x < 0.75
  · exact .inl ⟨h, if_pos h⟩
  · rw [if_neg h]
    by_cases h' : 1.25 < x
    · exact .inr (.inl ⟨h', if_pos h'⟩)
    · exact .inr (.inr ⟨h, h', if_neg h'⟩)

/-- **C56** Randomising velocity adjustments changes nothing but the velocity factor of the vehicles: the
factor of every vehicle becomes its own sample, replaced by 0.75 if it is less than that and by 1.25 if it
is greater. -/
theorem C56_only_factor {s s' : Sim F} {sd : F} {f : Key → F} (h : s.randomiseVelocityAdjusts sd f = .ok s') :
    s'.links = s.links ∧ s'.lights = s.lights ∧ s'.conflicts = s.conflicts ∧ s'.frozen = s.frozen ∧
    s'.frame = s.frame ∧ s'.seq = s.seq ∧ s'.accUpdate = s.accUpdate ∧ s'.lcUpdate = s.lcUpdate ∧
    s'.vehicles.keys = s.vehicles.keys ∧
    ∀ k, s'.vehicles.get? k = (s.vehicles.get? k).map fun v =>
      { v with acc := { v.acc with
          velAdj := if f k < 0.75 then 0.75 else if 1.25 < f k then 1.25 else f k } } := by
  unfold Sim.randomiseVelocityAdjusts at h
  rcases ite_ok.1 h with ⟨-, h⟩ | ⟨-, h⟩
  · simp at h
  · simp only [M_pure_ok] at h
    subst h
    refine ⟨rfl, rfl, rfl, rfl, rfl, rfl, rfl, rfl, ?_, fun k => ?_⟩
    · exact SlotMap.keys_foldl_modify s.vehicles.keys id _ s.vehicles
    · exact SlotMap.get?_foldl_modify_keys s.vehicles _ k

/-- **C56** In exact arithmetic every factor ends up between 0.75 and 1.25. -/
theorem C56_range {s s' : Sim ℝ} {sd : ℝ} {f : Key → ℝ} (h : s.randomiseVelocityAdjusts sd f = .ok s')
    {k : Key} {v : Vehicle ℝ} (hv : s'.vehicles.get? k = some v) : 0.75 ≤ v.acc.velAdj ∧ v.acc.velAdj ≤ 1.25 := by
  have := (C56_only_factor h).2.2.2.2.2.2.2.2.2 k
  rw [hv] at this
  cases hk : s.vehicles.get? k with
  | none => rw [hk] at this; simp at this
  | some v0 =>
    rw [hk] at this
    simp only [Option.map_some, Option.some.injEq] at this
    rw [this]
    simp only
    split
    · norm_num
    · split
      · norm_num
      · rename_i h1 h2
        exact ⟨not_lt.1 h1, not_lt.1 h2⟩

/-- **C56** In binary64 no factor is below 0.75 or above 1.25, whatever was sampled (a NaN sample stays
NaN). -/
theorem C56_range_float {s s' : Sim Float} {sd : Float} {f : Key → Float}
    (h : s.randomiseVelocityAdjusts sd f = .ok s') {k : Key} {v : Vehicle Float}
    (hv : s'.vehicles.get? k = some v) : ¬ v.acc.velAdj < 0.75 ∧ ¬ 1.25 < v.acc.velAdj := by
  have := (C56_only_factor h).2.2.2.2.2.2.2.2.2 k
  rw [hv] at this
  cases hk : s.vehicles.get? k with
  | none => rw [hk] at this; simp at this
  | some v0 =>
    rw [hk] at this
    simp only [Option.map_some, Option.some.injEq] at this
    rw [this]
    simp only
    split
    · constructor <;> decide +kernel
    · split
      · constructor <;> decide +kernel
      · rename_i h1 h2
        exact ⟨h1, h2⟩

/-! ## C58 -/

/-- The vehicles `ks` are listed in order of their positions, rearmost first. -/
def Ordered (vs : VehicleSet ℝ) (ks : List Key) : Prop :=
  ks.Pairwise fun a b => ∀ va vb, vs.get? a = some va → vs.get? b = some vb → va.pos ≤ vb.pos

theorem insertIdx_ordered {vs : VehicleSet ℝ} {id : Key} {v : Vehicle ℝ} (hv : vs.get? id = some v) :
    ∀ {ks : List Key} {i : Nat}, Link.insertIdx vs v.pos ks = .ok i → Ordered vs ks →
      i ≤ ks.length ∧ Ordered vs (ks.insertIdx i id)
  | [], i, h, _ => by
    simp only [Link.insertIdx, M_pure_ok] at h
    subst h
    simp [Ordered]
  | k :: ks, i, h, ho => by
    simp only [Link.insertIdx, M_bind_ok, getVeh_ok] at h
    obtain ⟨vk, hk, h⟩ := h
    have ho' := List.pairwise_cons.1 ho
    rcases ite_ok.1 h with ⟨hlt, h⟩ | ⟨hlt, h⟩
    · simp only [M_pure_ok] at h
      subst h
      refine ⟨by simp, List.pairwise_cons.2 ⟨fun b hb va vb ha hvb => ?_, ho⟩⟩
      rw [hv] at ha; cases ha
      rcases List.mem_cons.1 hb with rfl | hb
      · rw [hk] at hvb; cases hvb; exact hlt.le
      · exact hlt.le.trans (ho'.1 b hb vk vb hk hvb)
    · simp only [M_bind_ok, M_pure_ok] at h
      obtain ⟨j, hj, rfl⟩ := h
      obtain ⟨h1, h2⟩ := insertIdx_ordered hv hj ho'.2
      refine ⟨by simp; omega, ?_⟩
      rw [List.insertIdx_succ_cons]
      refine List.pairwise_cons.2 ⟨fun b hb va vb ha hvb => ?_, h2⟩
      rw [hk] at ha; cases ha
      rcases (List.mem_insertIdx h1).1 hb with rfl | hb
      · rw [hv] at hvb; cases hvb; exact not_lt.1 hlt
      · exact ho'.1 b hb vk vb hk hvb

/-- **C58.**  If the vehicles of a link are listed in order of position, they still are after a vehicle is
inserted, and the list is the old one with the new vehicle added; nothing else about the link changes. -/
theorem C58_insert {l l' : Link ℝ} {vs : VehicleSet ℝ} {id : Key} (h : l.insertVehicle vs id = .ok l')
    (ho : Ordered vs l.vehicles) :
    Ordered vs l'.vehicles ∧ l'.vehicles.Perm (id :: l.vehicles) ∧ l.vehicles.Sublist l'.vehicles ∧
      l' = { l with vehicles := l'.vehicles } := by
  unfold Link.insertVehicle at h
  simp only [M_bind_ok, getVeh_ok, M_pure_ok] at h
  obtain ⟨v, hv, i, hi, rfl⟩ := h
  obtain ⟨h1, h2⟩ := insertIdx_ordered hv hi ho
  exact ⟨h2, List.perm_insertIdx id l.vehicles h1, List.sublist_insertIdx .., rfl⟩

/-- **C58** (removal) Removing a vehicle keeps the order of the others: the list loses exactly one
occurrence of the vehicle, if it was there, and nothing else about the link changes. -/
theorem C58_remove {vs : VehicleSet ℝ} (l : Link ℝ) (id : Key) (ho : Ordered vs l.vehicles) :
    Ordered vs (l.removeVehicle id).vehicles ∧ (l.removeVehicle id).vehicles.Sublist l.vehicles ∧
      (id ∈ l.vehicles → l.vehicles.Perm (id :: (l.removeVehicle id).vehicles)) ∧
      (id ∉ l.vehicles → (l.removeVehicle id).vehicles = l.vehicles) ∧
      l.removeVehicle id = { l with vehicles := (l.removeVehicle id).vehicles } := by
  have hsub : (l.removeVehicle id).vehicles.Sublist l.vehicles := by
    have := (List.erase_sublist (a := id) (l := l.vehicles.reverse)).reverse
    simpa [Link.removeVehicle] using this
  refine ⟨List.Pairwise.sublist hsub ho, hsub, fun hm => ?_, fun hm => ?_, rfl⟩
  · have h1 := List.perm_cons_erase (List.mem_reverse.2 hm)
    refine (List.reverse_perm _).symm.trans (h1.trans (List.Perm.cons _ ?_))
    exact (List.reverse_perm _).symm
  · simp only [Link.removeVehicle]
    rw [List.erase_of_not_mem (by simpa using hm), List.reverse_reverse]

end

/-! ## Concrete instances -/

namespace SmallDemo

@[instance_reducible] def env : Env := ⟨100, fun _ _ _ => .ok none⟩
attribute [local instance] env

/-- A straight link of 100 m. -/
def link (i : Nat) (control : TrafficControl Float) (conflicts : List (LinkConflict Float)) (vehicles : List Key) :
    Link Float :=
  { id := ⟨i, 1⟩, group := none, curve := ⟨1.0, 100.0, []⟩, linksIn := [], linksOut := [], laneChanges := [],
    conflicts, lastConflict := 0, speedLimit := 15.0, cost := 67, vehicles, control, active := true }

/-- A vehicle at `pos` with speed `vel`, queued with number `q`. -/
def car (i lk : Nat) (pos vel : Float) (q : Option Nat) : Vehicle Float :=
  { Vehicle.new (F := Float) ⟨i, 1⟩ ⟨2.0, 5.0, 2.0, 2.0, 2.0, 2.0⟩ with
    pos, vel, route := [⟨lk, 1⟩], entered := 0, queued := q }

/-- Link 0 crosses links 1 and 2.  On link 1 a fast car approaches, link 2 is empty. -/
def net : Net Float :=
  { links := ⟨[⟨1, some (link 0 (.yield_ 5.0 false 0) [⟨⟨2, 1⟩, 8.0, 40.0, 44.0⟩, ⟨⟨1, 1⟩, 5.0, 40.0, 44.0⟩] [])⟩,
      ⟨1, some (link 1 .open_ [] [⟨0, 1⟩])⟩, ⟨1, some (link 2 .open_ [] [])⟩], []⟩
    vehicles := ⟨[⟨1, some { car 0 1 20.0 15.0 none with entered := 1 }⟩, ⟨1, some (car 1 0 0.0 0.0 (some 3))⟩,
      ⟨1, some (car 2 1 0.0 0.0 (some 5))⟩], []⟩ }

def veh : RelVeh Float := ⟨⟨1, 1⟩, car 1 0 0.0 0.0 (some 3), 0, 0.0⟩

/-- What a run returns, if it succeeds. -/
def result {α : Type} : M α → Option α
  | .ok a => some a
  | .error _ => none

theorem result_eq {α : Type} {x : M α} {a : α} (h : result x = some a) : x = .ok a := by
  cases x with
  | ok b => simp only [result, Option.some.injEq] at h; rw [h]
  | error e => simp [result] at h

/-- `C29_cache_irrelevant` applies to the link with two conflicts: from both cache values the search ends, here
with a no because of the car on link 1. -/
example : let l := link 0 (.yield_ 5.0 false 0) [⟨⟨2, 1⟩, 8.0, 40.0, 44.0⟩, ⟨⟨1, 1⟩, 5.0, 40.0, 44.0⟩] []
    Link.canEnter net l 0 veh 3 0 = .ok (false, 1) ∧ Link.canEnter net l 1 veh 3 0 = .ok (false, 1) := by
  constructor <;> apply result_eq <;> decide +kernel

/-- The hypotheses of `C31_not_mutual` hold for the two queued cars, and the one that queued first indeed
goes first. -/
example : ∃ va vb : Vehicle Float, net.vehicles.get? ⟨1, 1⟩ = some va ∧ net.vehicles.get? ⟨2, 1⟩ = some vb ∧
    va.getRoute 0 = some (⟨0, 1⟩, .queuedAt 3) ∧ vb.getRoute 0 = some (⟨1, 1⟩, .queuedAt 5) ∧
    GoesFirst net.vehicles 3 0 (.yield_ 5.0 false 0) ⟨2, 1⟩ (0, ⟨1, 1⟩) := by
  refine ⟨_, _, rfl, rfl, rfl, rfl, ⟨40.0, 1000.0, 15.0, [], _, rfl, by decide +kernel, ?_⟩⟩
  apply result_eq; decide +kernel

end SmallDemo

/-- The hypotheses of `C58_insert` hold for two cars on an ordered link. -/
noncomputable def SmallDemo.carR (i : Nat) (pos : ℝ) : Vehicle ℝ :=
  { Vehicle.new (F := ℝ) ⟨i, 1⟩ ⟨2, 5, 2, 2, 2, 2⟩ with pos }

noncomputable def SmallDemo.carsR : VehicleSet ℝ :=
  ⟨[⟨1, some (carR 0 1)⟩, ⟨1, some (carR 1 20)⟩, ⟨1, some (carR 2 10)⟩], []⟩

example : Ordered SmallDemo.carsR [⟨0, 1⟩, ⟨1, 1⟩] ∧
    Link.insertIdx SmallDemo.carsR 10 [⟨0, 1⟩, ⟨1, 1⟩] = .ok 1 := by
  have h0 : SmallDemo.carsR.get? ⟨0, 1⟩ = some (SmallDemo.carR 0 1) := rfl
  have h1 : SmallDemo.carsR.get? ⟨1, 1⟩ = some (SmallDemo.carR 1 20) := rfl
  constructor
  · simp only [Ordered, List.pairwise_cons, List.mem_singleton, forall_eq, h0, h1, Option.some.injEq]
    refine ⟨?_, by simp⟩
    rintro va vb rfl rfl
    norm_num [SmallDemo.carR]
  · have e0 : getVeh SmallDemo.carsR ⟨0, 1⟩ = .ok (SmallDemo.carR 0 1) := rfl
    have e1 : getVeh SmallDemo.carsR ⟨1, 1⟩ = .ok (SmallDemo.carR 1 20) := rfl
    have c0 : ¬ (10 : ℝ) < (SmallDemo.carR 0 1).pos := by norm_num [SmallDemo.carR]
    have c1 : (10 : ℝ) < (SmallDemo.carR 1 20).pos := by norm_num [SmallDemo.carR]
    simp only [Link.insertIdx, e0, e1, bind, Except.bind, pure, Except.pure]
    split
    · exact absurd ‹_› c0
    · split
      · rename_i h; cases h
      · rename_i h; cases h; rfl

end TrafficSim
