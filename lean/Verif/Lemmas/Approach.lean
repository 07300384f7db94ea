import Verif.Lemmas.Cap
import Verif.Lemmas.Entry

/-! # The vehicles that a search upstream finds -/

namespace TrafficSim

section
variable {F : Type} [Flt F]

/-- The vehicle `w` on the link `l` does not end a search upstream from the link `k0`, which is `i` links ahead; seen
from `l` the search started at position `pos`. -/
structure Unblocking (k0 : Key) (i : Nat) (pos : F) (l : Link F) (w : Vehicle F) : Prop where
  near : ¬ w.posFront < pos - 5.0 * l.speedLimit
  goes : w.route[i]? = some k0 → i < w.entered ∨ ¬ l.length < pos

/-- The link is marked as active. -/
def Active (links : LinkSet F) (k : Key) : Prop := ∃ l, links.get? k = some l ∧ l.active = true

/-- Some vehicle has entered the link. -/
def EnteredBy (vs : VehicleSet F) (k : Key) : Prop := ∃ j v, vs.get? j = some v ∧ k ∈ v.route.take v.entered

/-- The search upstream from `k0` gets from one link to another, past the vehicles on the links in between; `act` says
which links are active. -/
inductive Climb (act : Key → Prop) (links : LinkSet F) (vs : VehicleSet F) (k0 : Key) : Nat → Key → F → Nat → Key → F → Prop
  | here {i : Nat} {k : Key} {pos : F} : Climb act links vs k0 i k pos i k pos
  | up {i : Nat} {k : Key} {pos : F} {i' : Nat} {k' : Key} {pos' : F} {l l' : Link F} {j : Key} : links.get? k = some l →
      act k → (∀ a ∈ l.vehicles, ∀ w, vs.get? a = some w → Unblocking k0 i pos l w) →
      ¬ 0.0 ≤ pos - 5.0 * l.speedLimit → j ∈ l.linksIn → links.get? j = some l' →
      Climb act links vs k0 (i + 1) j (pos + l'.length) i' k' pos' → Climb act links vs k0 i k pos i' k' pos'

/-- On the link `lk` the search upstream finds the vehicle. -/
structure FoundOn (act : Key → Prop) (links : LinkSet F) (vs : VehicleSet F) (k0 lk : Key) (r : RelVeh F) : Prop where
  veh : vs.get? r.key = some r.vehicle
  on : ∃ l pre post, links.get? lk = some l ∧ act lk ∧ l.vehicles = pre ++ r.key :: post ∧
    ∀ a ∈ r.key :: post, ∀ w, vs.get? a = some w → Unblocking k0 r.routeIdx r.pos l w
  route : r.vehicle.route[r.routeIdx]? = some k0

/-- The vehicle is found by the search upstream from position `pos0` of the link `k0`. -/
def Found (act : Key → Prop) (links : LinkSet F) (vs : VehicleSet F) (k0 : Key) (pos0 : F) (r : RelVeh F) : Prop :=
  ∃ lk, Climb act links vs k0 0 k0 pos0 r.routeIdx lk r.pos ∧ FoundOn act links vs k0 lk r

theorem unblocking_iff {k0 : Key} {i : Nat} {pos : F} {l : Link F} {w : Vehicle F} :
    Unblocking k0 i pos l w ↔ ¬ w.posFront < pos - maxLookahead * l.speedLimit ∧
      ∀ st, w.getRoute i = some (k0, st) → ¬ (st ≠ .entered ∧ l.length < pos) := by
  constructor
  · rintro ⟨h1, h2⟩
    refine ⟨h1, fun st hst h => ?_⟩
    obtain ⟨hr, -, -⟩ := getRoute_link hst
    rcases h2 hr with h2 | h2
    · refine h.1 ?_
      unfold Vehicle.getRoute at hst
      rw [hr, Option.map_some, if_pos h2] at hst
      cases hst; rfl
    · exact h2 h.2
  · rintro ⟨h1, h2⟩
    refine ⟨h1, fun hr => ?_⟩
    by_cases hi : i < w.entered
    · exact .inl hi
    · right
      obtain ⟨st, hst⟩ : ∃ st, w.getRoute i = some (k0, st) := by
        unfold Vehicle.getRoute
        rw [hr]; exact ⟨_, rfl⟩
      intro hlt
      exact h2 st hst ⟨fun e => hi ((getRoute_link hst).2.1 e), hlt⟩

variable {links : LinkSet F} {vs : VehicleSet F} {p : RelVeh F → Prop} [DecidablePred p]

/-- The callback that collects the vehicles with a property. -/
def collect (p : RelVeh F → Prop) [DecidablePred p] (r : RelVeh F) (out : List (RelVeh F)) : M (List (RelVeh F) × Bool) :=
  if p r then pure (out ++ [r], false) else pure (out, false)

theorem processList_collect {k0 : Key} {i : Nat} {pos : F} {l : Link F} : ∀ {ks : List Key} {out : List (RelVeh F)}
    {q : List (RelVeh F) × Bool},
    Link.processList vs (collect p) (i, k0) pos (pos - maxLookahead * l.speedLimit) l.length ks out = .ok q →
    ∃ new, q.1 = out ++ new ∧ (∀ r, r ∈ new ↔ p r ∧ vs.get? r.key = some r.vehicle ∧ r.routeIdx = i ∧ r.pos = pos ∧
      r.vehicle.route[i]? = some k0 ∧ ∃ pre post, ks = pre ++ r.key :: post ∧
        ∀ a ∈ pre ++ [r.key], ∀ w, vs.get? a = some w → Unblocking k0 i pos l w) ∧
      (q.2 = true ↔ ∀ a ∈ ks, ∀ w, vs.get? a = some w → Unblocking k0 i pos l w)
  | [], out, q, h => by
    simp only [Link.processList, M_pure_ok] at h
    subst h
    exact ⟨[], by simp, by simp, by simp⟩
  | k :: ks, out, q, h => by
    unfold Link.processList at h
    rw [M_bind_ok] at h
    obtain ⟨v, hv, h⟩ := h
    rw [getVeh_ok] at hv
    -- vehicles found further on
    have shift : Unblocking k0 i pos l v → ∀ r : RelVeh F,
        ((∃ pre post, ks = pre ++ r.key :: post ∧ ∀ a ∈ pre ++ [r.key], ∀ w, vs.get? a = some w → Unblocking k0 i pos l w) ∨
          r.key = k) ↔
        ∃ pre post, k :: ks = pre ++ r.key :: post ∧ ∀ a ∈ pre ++ [r.key], ∀ w, vs.get? a = some w → Unblocking k0 i pos l w := by
      intro hu r
      constructor
      · rintro (⟨pre, post, e, hp⟩ | e)
        · refine ⟨k :: pre, post, by rw [e]; rfl, fun a ha w hw => ?_⟩
          rcases List.mem_cons.1 ha with rfl | ha
          · rw [hv] at hw; cases hw; exact hu
          · exact hp a ha w hw
        · refine ⟨[], ks, by rw [e]; rfl, fun a ha w hw => ?_⟩
          simp at ha
          rw [ha, e, hv] at hw; cases hw; exact hu
      · rintro ⟨pre, post, e, h⟩
        cases pre with
        | nil => simp at e; exact .inr e.1.symm
        | cons b pre =>
          simp at e
          exact .inl ⟨pre, post, e.2, fun a ha => h a (by simp at ha ⊢; tauto)⟩
    have block : ¬ Unblocking k0 i pos l v → ∀ r : RelVeh F,
        ¬ ∃ pre post, k :: ks = pre ++ r.key :: post ∧ ∀ a ∈ pre ++ [r.key], ∀ w, vs.get? a = some w → Unblocking k0 i pos l w := by
      rintro hu r ⟨pre, post, e, h⟩
      refine hu (h k ?_ v hv)
      cases pre with
      | nil => simp at e; simp [e.1]
      | cons b pre => simp at e; simp [e.1]
    have all : Unblocking k0 i pos l v → ((∀ a ∈ ks, ∀ w, vs.get? a = some w → Unblocking k0 i pos l w) ↔
        ∀ a ∈ k :: ks, ∀ w, vs.get? a = some w → Unblocking k0 i pos l w) := by
      intro hu
      constructor
      · intro h a ha w hw
        rcases List.mem_cons.1 ha with rfl | ha
        · rw [hv] at hw; cases hw; exact hu
        · exact h a ha w hw
      · intro h a ha; exact h a (List.mem_cons_of_mem _ ha)
    have stop : ¬ Unblocking k0 i pos l v → q = (out, false) → ∃ new, q.1 = out ++ new ∧
        (∀ r, r ∈ new ↔ p r ∧ vs.get? r.key = some r.vehicle ∧ r.routeIdx = i ∧ r.pos = pos ∧
          r.vehicle.route[i]? = some k0 ∧ ∃ pre post, k :: ks = pre ++ r.key :: post ∧
            ∀ a ∈ pre ++ [r.key], ∀ w, vs.get? a = some w → Unblocking k0 i pos l w) ∧
        (q.2 = true ↔ ∀ a ∈ k :: ks, ∀ w, vs.get? a = some w → Unblocking k0 i pos l w) := by
      rintro hu rfl
      refine ⟨[], by simp, fun r => ?_, ?_⟩
      · simp only [List.not_mem_nil, false_iff]
        rintro ⟨-, -, -, -, -, h⟩
        exact block hu r h
      · simp only [Bool.false_eq_true, false_iff]
        exact fun h => hu (h k (by simp) v hv)
    -- going on without collecting this vehicle
    have skip : Unblocking k0 i pos l v → (v.route[i]? ≠ some k0 ∨ ¬ p ⟨k, v, i, pos⟩) →
        Link.processList vs (collect p) (i, k0) pos (pos - maxLookahead * l.speedLimit) l.length ks out = .ok q →
        ∃ new, q.1 = out ++ new ∧
        (∀ r, r ∈ new ↔ p r ∧ vs.get? r.key = some r.vehicle ∧ r.routeIdx = i ∧ r.pos = pos ∧
          r.vehicle.route[i]? = some k0 ∧ ∃ pre post, k :: ks = pre ++ r.key :: post ∧
            ∀ a ∈ pre ++ [r.key], ∀ w, vs.get? a = some w → Unblocking k0 i pos l w) ∧
        (q.2 = true ↔ ∀ a ∈ k :: ks, ∀ w, vs.get? a = some w → Unblocking k0 i pos l w) := by
      intro hu hn h
      obtain ⟨new, e1, e2, e3⟩ := processList_collect h
      refine ⟨new, e1, fun r => ?_, e3.trans (all hu)⟩
      rw [e2, ← shift hu r]
      constructor
      · rintro ⟨h1, h2, h3, h4, h5, h6⟩; exact ⟨h1, h2, h3, h4, h5, .inl h6⟩
      · rintro ⟨h1, h2, h3, h4, h5, h6 | h6⟩
        · exact ⟨h1, h2, h3, h4, h5, h6⟩
        · exfalso
          obtain ⟨rk, rv, ri, rp⟩ := r
          dsimp only at h1 h2 h3 h4 h5 h6
          subst h3; subst h4; subst h6
          rw [hv] at h2; cases h2
          rcases hn with hn | hn
          · exact hn h5
          · exact hn h1
    split at h
    · rename_i hnear
      rw [M_pure_ok] at h
      exact stop (fun hu => (unblocking_iff.1 hu).1 hnear) h.symm
    · rename_i hnear
      cases hr : v.getRoute i with
      | none =>
        rw [hr] at h
        have hri : v.route[i]? = none := by
          unfold Vehicle.getRoute at hr
          simpa using hr
        exact skip (unblocking_iff.2 ⟨hnear, fun st hst => by rw [hr] at hst; cases hst⟩) (.inl (by rw [hri]; simp)) h
      | some z =>
        obtain ⟨k', st⟩ := z
        rw [hr] at h
        dsimp only at h
        have hri := (getRoute_link hr).1
        split at h
        · rename_i hk
          refine skip (unblocking_iff.2 ⟨hnear, fun st' hst' => ?_⟩) (.inl fun e => ?_) h
          · rw [hr] at hst'; cases hst'; exact absurd rfl hk
          · rw [hri] at e; cases e; exact hk rfl
        · rename_i hk
          have hk : k' = k0 := not_not.1 hk
          subst hk
          split at h
          · rename_i hst
            rw [M_pure_ok] at h
            exact stop (fun hu => (unblocking_iff.1 hu).2 st hr hst) h.symm
          · rename_i hst
            have hu : Unblocking k' i pos l v := unblocking_iff.2 ⟨hnear, fun st' hst' => by rw [hr] at hst'; cases hst'; exact hst⟩
            rw [M_bind_ok] at h
            obtain ⟨⟨out', brk⟩, hc, h⟩ := h
            unfold collect at hc
            split at hc
            · rename_i hp
              rw [M_pure_ok] at hc; cases hc
              simp only [Bool.false_eq_true, if_false] at h
              obtain ⟨new, e1, e2, e3⟩ := processList_collect h
              refine ⟨⟨k, v, i, pos⟩ :: new, by rw [e1]; simp, fun r => ?_, e3.trans (all hu)⟩
              rw [List.mem_cons, e2, ← shift hu r]
              constructor
              · rintro (rfl | ⟨h1, h2, h3, h4, h5, h6⟩)
                · exact ⟨hp, hv, rfl, rfl, hri, .inr rfl⟩
                · exact ⟨h1, h2, h3, h4, h5, .inl h6⟩
              · rintro ⟨h1, h2, h3, h4, h5, h6 | h6⟩
                · exact .inr ⟨h1, h2, h3, h4, h5, h6⟩
                · left
                  obtain ⟨rk, rv, ri, rp⟩ := r
                  dsimp only at h1 h2 h3 h4 h5 h6
                  subst h3; subst h4; subst h6
                  rw [hv] at h2; cases h2; rfl
            · rename_i hp
              rw [M_pure_ok] at hc; cases hc
              simp only [Bool.false_eq_true, if_false] at h
              exact skip hu (.inr hp) h

theorem processVehicles_collect {n : Net F} {k0 : Key} : ∀ {fuel : Nat} {l : Link F} {i : Nat} {k : Key} {pos : F}
    {out out' : List (RelVeh F)}, n.links.get? k = some l →
    Link.processVehicles n (collect p) fuel l (i, k0) pos 0 out = .ok out' →
    ∃ new, out' = out ++ new ∧ ∀ r, r ∈ new ↔ p r ∧ ∃ lk, Climb (Active n.links) n.links n.vehicles k0 i k pos r.routeIdx lk r.pos ∧
      FoundOn (Active n.links) n.links n.vehicles k0 lk r := by
  intro fuel
  induction fuel with
  | zero => intro l i k pos out out' _ h; simp [Link.processVehicles] at h
  | succ fuel ih =>
    intro l i k pos out out' hl h
    unfold Link.processVehicles at h
    split at h
    · rename_i ha
      rw [M_pure_ok] at h
      subst h
      refine ⟨[], by simp, fun r => ?_⟩
      simp only [List.not_mem_nil, false_iff]
      rintro ⟨-, lk, hc, hf⟩
      cases hc with
      | here =>
        obtain ⟨l', _, _, hl', ⟨l2, hl2, ha'⟩, -⟩ := hf.on
        rw [hl] at hl2; cases hl2; exact ha ha'
      | up h1 h2 =>
        obtain ⟨l2, hl2, ha'⟩ := h2
        rw [hl] at hl2; cases hl2; exact ha ha'
    · rename_i ha
      have ha : Active n.links k := ⟨l, hl, not_not.1 ha⟩
      dsimp only at h
      rw [M_bind_ok] at h
      obtain ⟨q, hq, h⟩ := h
      rw [List.drop_zero] at hq
      obtain ⟨new, e1, e2, e3⟩ := processList_collect hq
      -- the vehicles found on this link
      have here : ∀ r, r ∈ new ↔ p r ∧ r.routeIdx = i ∧ r.pos = pos ∧ FoundOn (Active n.links) n.links n.vehicles k0 k r := by
        intro r
        rw [e2]
        constructor
        · rintro ⟨h1, h2, h3, h4, h5, pre, post, h6, h7⟩
          refine ⟨h1, h3, h4, h2, ⟨l, post.reverse, pre.reverse, hl, ha, ?_, fun a ha w hw => ?_⟩, by rw [h3]; exact h5⟩
          · rw [← List.reverse_reverse l.vehicles, h6]; simp
          · rw [h3, h4]
            exact h7 a (by simp at ha ⊢; tauto) w hw
        · rintro ⟨h1, h3, h4, h2, ⟨l', pre, post, h5, -, h6, h7⟩, h8⟩
          rw [hl] at h5; cases h5
          refine ⟨h1, h2, h3, h4, by rw [← h3]; exact h8, post.reverse, pre.reverse, by rw [h6]; simp, fun a ha w hw => ?_⟩
          rw [← h3, ← h4]
          exact h7 a (by simp at ha ⊢; tauto) w hw
      have all : (∀ a ∈ l.vehicles.reverse, ∀ w, n.vehicles.get? a = some w → Unblocking k0 i pos l w) ↔
          ∀ a ∈ l.vehicles, ∀ w, n.vehicles.get? a = some w → Unblocking k0 i pos l w := by simp
      have ends : (q.2 = false ∨ 0.0 ≤ pos - maxLookahead * l.speedLimit) → out' = q.1 → ∃ new, out' = out ++ new ∧
          ∀ r, r ∈ new ↔ p r ∧ ∃ lk, Climb (Active n.links) n.links n.vehicles k0 i k pos r.routeIdx lk r.pos ∧ FoundOn (Active n.links) n.links n.vehicles k0 lk r := by
        rintro hend rfl
        refine ⟨new, e1, fun r => ?_⟩
        rw [here]
        constructor
        · rintro ⟨h1, h2, h3, h4⟩
          refine ⟨h1, k, ?_, h4⟩
          rw [h2, h3]; exact .here
        · rintro ⟨h1, lk, hc, hf⟩
          generalize hi : r.routeIdx = i' at hc
          generalize hp' : r.pos = p' at hc
          cases hc with
          | here => exact ⟨h1, rfl, rfl, hf⟩
          | up g1 g2 g3 g4 =>
            rw [hl] at g1; cases g1
            rcases hend with hend | hend
            · rw [e3.2 (all.2 g3)] at hend; cases hend
            · exact absurd hend g4
      split at h
      · rename_i hc
        rw [M_pure_ok] at h
        exact ends (.inl (by simpa using hc)) h.symm
      · rename_i hc
        split at h
        · rename_i hz
          rw [M_pure_ok] at h
          exact ends (.inr hz) h.symm
        · rename_i hz
          have hall := all.1 (e3.1 (not_not.1 hc))
          have fold : ∀ {ks : List Key} {o o' : List (RelVeh F)}, ks.foldlM (fun s k => do
              let link ← getLink n.links k
              Link.processVehicles n (collect p) fuel link (i + 1, k0) (pos + link.length) 0 s) o = .ok o' →
              ∃ new, o' = o ++ new ∧ ∀ r, r ∈ new ↔ p r ∧ ∃ j ∈ ks, ∃ lj, n.links.get? j = some lj ∧
                ∃ lk, Climb (Active n.links) n.links n.vehicles k0 (i + 1) j (pos + lj.length) r.routeIdx lk r.pos ∧
                  FoundOn (Active n.links) n.links n.vehicles k0 lk r := by
            intro ks
            induction ks with
            | nil =>
              intro o o' h
              rw [List.foldlM_nil, M_pure_ok] at h
              subst h
              exact ⟨[], by simp, by simp⟩
            | cons j ks ih' =>
              intro o o' h
              rw [List.foldlM_cons, M_bind_ok] at h
              obtain ⟨o1, h1, h2⟩ := h
              rw [M_bind_ok] at h1
              obtain ⟨lj, hlj, h1⟩ := h1
              rw [getLink_ok] at hlj
              obtain ⟨n1, rfl, f1⟩ := ih hlj h1
              obtain ⟨n2, rfl, f2⟩ := ih' h2
              refine ⟨n1 ++ n2, by simp, fun r => ?_⟩
              rw [List.mem_append, f1, f2]
              constructor
              · rintro (⟨h1, h2⟩ | ⟨h1, a, ha, h2⟩)
                · exact ⟨h1, j, by simp, lj, hlj, h2⟩
                · exact ⟨h1, a, by simp [ha], h2⟩
              · rintro ⟨h1, a, ha, la, hla, h2⟩
                rcases List.mem_cons.1 ha with rfl | ha
                · rw [hlj] at hla; cases hla; exact .inl ⟨h1, h2⟩
                · exact .inr ⟨h1, a, ha, la, hla, h2⟩
          obtain ⟨new2, rfl, f⟩ := fold h
          refine ⟨new ++ new2, by rw [e1]; simp, fun r => ?_⟩
          rw [List.mem_append, here, f]
          constructor
          · rintro (⟨h1, h2, h3, h4⟩ | ⟨h1, j, hj, lj, hlj, lk, h2, h3⟩)
            · refine ⟨h1, k, ?_, h4⟩
              rw [h2, h3]; exact .here
            · exact ⟨h1, lk, .up hl ha hall hz hj hlj h2, h3⟩
          · rintro ⟨h1, lk, hc, hf⟩
            generalize hi : r.routeIdx = i' at hc
            generalize hp' : r.pos = p' at hc
            cases hc with
            | here => exact .inl ⟨h1, rfl, rfl, hf⟩
            | up g1 g2 g3 g4 g5 g6 g7 =>
              rw [hl] at g1; cases g1
              exact .inr ⟨h1, _, g5, _, g6, lk, g7, hf⟩

/-- The vehicles before or in the conflict region on one link. -/
def Nears (act : Key → Prop) (links : LinkSet F) (vs : VehicleSet F) (c : ConflictPointLink F) (r : RelVeh F) : Prop :=
  Found act links vs c.linkId c.minPos r ∧ r.posRear < c.maxPos - c.minPos

theorem findVehicles_iff [Env] {n : Net F} {c : ConflictPointLink F} {out out' : List (RelVeh F)}
    (h : c.findVehicles n out = .ok out') : ∃ new, out' = out ++ new ∧ ∀ r, r ∈ new ↔ Nears (Active n.links) n.links n.vehicles c r := by
  unfold ConflictPointLink.findVehicles at h
  rw [M_bind_ok] at h
  obtain ⟨l, hl, h⟩ := h
  obtain ⟨new, e, f⟩ := processVehicles_collect (p := fun r : RelVeh F => r.posRear < c.maxPos - c.minPos) (getLink_ok.1 hl) h
  exact ⟨new, e, fun r => by rw [f]; exact and_comm⟩

/-! ## Searches while accelerations change -/

/-- What a search sees of the vehicle is the same. -/
structure VehSees (v v' : Vehicle F) : Prop where
  pos : v'.pos = v.pos
  halfLen : v'.halfLen = v.halfLen
  route : v'.route = v.route
  entered : v'.entered = v.entered

omit [Flt F] in
theorem VehSame.sees {v v' : Vehicle F} (h : VehSame v v') : VehSees v v' := by
  obtain ⟨x, y, rfl⟩ := h
  exact ⟨rfl, rfl, rfl, rfl⟩

theorem VehSees.front {v v' : Vehicle F} (h : VehSees v v') : v'.posFront = v.posFront := by
  rw [Vehicle.posFront, Vehicle.posFront, h.pos, h.halfLen]

theorem VehSees.rear {v v' : Vehicle F} (h : VehSees v v') : v'.posRear = v.posRear := by
  rw [Vehicle.posRear, Vehicle.posRear, h.pos, h.halfLen]

/-- What a search sees of the links is the same. -/
structure LinkSees (l l' : Link F) : Prop where
  vehicles : l'.vehicles = l.vehicles
  linksIn : l'.linksIn = l.linksIn
  speedLimit : l'.speedLimit = l.speedLimit
  length : l'.length = l.length

theorem VehSees.unblocking {k0 : Key} {i : Nat} {pos : F} {l l' : Link F} {w w' : Vehicle F} (h : VehSees w w') (hl : LinkSees l l') :
    Unblocking k0 i pos l' w' ↔ Unblocking k0 i pos l w := by
  constructor
  · rintro ⟨a, b⟩
    rw [h.front, hl.speedLimit] at a
    rw [h.route, h.entered, hl.length] at b
    exact ⟨a, b⟩
  · rintro ⟨a, b⟩
    rw [← h.front, ← hl.speedLimit] at a
    rw [← h.route, ← h.entered, ← hl.length] at b
    exact ⟨a, b⟩

/-- The same vehicles are there, each as `R` says. -/
structure Alike (R : Vehicle F → Vehicle F → Prop) (vs vs' : VehicleSet F) : Prop where
  fwd : ∀ k v, vs.get? k = some v → ∃ v', vs'.get? k = some v' ∧ R v v'
  bwd : ∀ k v', vs'.get? k = some v' → ∃ v, vs.get? k = some v

omit [Flt F] in
theorem Alike.back {R : Vehicle F → Vehicle F → Prop} {vs vs' : VehicleSet F} (h : Alike R vs vs') {k : Key} {v' : Vehicle F}
    (hv : vs'.get? k = some v') : ∃ v, vs.get? k = some v ∧ R v v' := by
  obtain ⟨v, g⟩ := h.bwd k v' hv
  obtain ⟨u, gu, r⟩ := h.fwd k v g
  rw [hv] at gu; cases gu
  exact ⟨v, g, r⟩

omit [Flt F] in
theorem SRel.alike {R : Vehicle F → Vehicle F → Prop} {vs vs' : VehicleSet F} (h : SRel (fun _ => R) vs vs') : Alike R vs vs' :=
  ⟨h.fwd, fun _ _ hv => (h.bwd hv).imp fun _ => And.left⟩

variable {act act' : Key → Prop} {links' : LinkSet F} {vs' : VehicleSet F} {R : Vehicle F → Vehicle F → Prop}

theorem Climb.same (hR : ∀ v v', R v v' → VehSees v v') (ha : ∀ k, act k → act' k) (hl : SRel (fun _ => LinkSees) links links')
    (hv : Alike R vs vs') {k0 : Key} {i i' : Nat} {k k' : Key} {pos pos' : F}
    (h : Climb act links vs k0 i k pos i' k' pos') : Climb act' links' vs' k0 i k pos i' k' pos' := by
  induction h with
  | here => exact .here
  | up h1 h2 h3 h4 h5 h6 _ ih =>
    obtain ⟨l1, g1, e1⟩ := hl.fwd _ _ h1
    obtain ⟨l2, g2, e2⟩ := hl.fwd _ _ h6
    rw [← e1.speedLimit] at h4
    rw [← e1.linksIn] at h5
    rw [← e2.length] at ih
    refine .up g1 (ha _ h2) (fun a ha' w hw => ?_) h4 h5 g2 ih
    obtain ⟨w0, hw0, hs⟩ := hv.back hw
    rw [e1.vehicles] at ha'
    exact ((hR _ _ hs).unblocking e1).2 (h3 a ha' w0 hw0)

theorem Climb.same' (hR : ∀ v v', R v v' → VehSees v v') (ha : ∀ k, act' k → act k) (hl : SRel (fun _ => LinkSees) links links')
    (hv : Alike R vs vs') {k0 : Key} {i i' : Nat} {k k' : Key} {pos pos' : F}
    (h : Climb act' links' vs' k0 i k pos i' k' pos') : Climb act links vs k0 i k pos i' k' pos' := by
  induction h with
  | here => exact .here
  | up h1 h2 h3 h4 h5 h6 _ ih =>
    obtain ⟨l1, g1, e1⟩ := hl.bwd h1
    obtain ⟨l2, g2, e2⟩ := hl.bwd h6
    rw [e1.speedLimit] at h4
    rw [e1.linksIn] at h5
    rw [e2.length] at ih
    refine .up g1 (ha _ h2) (fun a ha' w hw => ?_) h4 h5 g2 ih
    obtain ⟨w1, hw1, hs⟩ := hv.fwd _ _ hw
    rw [← e1.vehicles] at ha'
    exact ((hR _ _ hs).unblocking e1).1 (h3 a ha' w1 hw1)

theorem Nears.same (hR : ∀ v v', R v v' → VehSees v v') (ha : ∀ k, act k → act' k) (hl : SRel (fun _ => LinkSees) links links')
    (hv : Alike R vs vs') {c : ConflictPointLink F} {r : RelVeh F} (h : Nears act links vs c r) :
    ∃ v', vs'.get? r.key = some v' ∧ R r.vehicle v' ∧ Nears act' links' vs' c { r with vehicle := v' } := by
  obtain ⟨⟨lk, h1, h2⟩, h3⟩ := h
  obtain ⟨v', hv', hs⟩ := hv.fwd _ _ h2.veh
  have hs' := hR _ _ hs
  refine ⟨v', hv', hs, ⟨lk, h1.same hR ha hl hv, hv', ?_, ?_⟩, ?_⟩
  · obtain ⟨l, pre, post, g1, g2, g3, g4⟩ := h2.on
    obtain ⟨l1, g5, e⟩ := hl.fwd _ _ g1
    refine ⟨l1, pre, post, g5, ha _ g2, e.vehicles.trans g3, fun a ha' w hw => ?_⟩
    obtain ⟨w0, hw0, hs⟩ := hv.back hw
    exact ((hR _ _ hs).unblocking e).2 (g4 a ha' w0 hw0)
  · dsimp only; rw [hs'.route]; exact h2.route
  · simp only [RelVeh.posRear, hs'.rear] at h3 ⊢; exact h3

theorem Nears.same' (hR : ∀ v v', R v v' → VehSees v v') (ha : ∀ k, act' k → act k) (hl : SRel (fun _ => LinkSees) links links')
    (hv : Alike R vs vs') {c : ConflictPointLink F} {r : RelVeh F} (h : Nears act' links' vs' c r) :
    ∃ v, vs.get? r.key = some v ∧ R v r.vehicle ∧ Nears act links vs c { r with vehicle := v } := by
  obtain ⟨⟨lk, h1, h2⟩, h3⟩ := h
  obtain ⟨v, hv0, hs⟩ := hv.back h2.veh
  have hs' := hR _ _ hs
  refine ⟨v, hv0, hs, ⟨lk, h1.same' hR ha hl hv, hv0, ?_, ?_⟩, ?_⟩
  · obtain ⟨l, pre, post, g1, g2, g3, g4⟩ := h2.on
    obtain ⟨l1, g5, e⟩ := hl.bwd g1
    refine ⟨l1, pre, post, g5, ha _ g2, e.vehicles.symm.trans g3, fun a ha' w hw => ?_⟩
    obtain ⟨w1, hw1, hs⟩ := hv.fwd _ _ hw
    exact ((hR _ _ hs).unblocking e).1 (g4 a ha' w1 hw1)
  · dsimp only; rw [← hs'.route]; exact h2.route
  · simp only [RelVeh.posRear, hs'.rear] at h3 ⊢; exact h3

end

end TrafficSim
