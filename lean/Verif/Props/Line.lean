import Verif.Lemmas.Line
import Verif.Lemmas.Entry
import Verif.Props.Entry
import Verif.Props.Kinematics

/-! # C26: stop lines hold vehicles -/

namespace TrafficSim

section
variable {F : Type} [Flt F] {strict : Prop}

/-- The vehicle `w` on the link `l` does not keep vehicles behind it from being looked at by the search from the end
of the link `k0`, which is `i` links ahead and, seen from `l`, at position `pos`: it is near enough, and if it drives
through `k0`, it has entered `k0` and either has entered the link after that, or may leave at the end of its route,
or is about to roll into an open link. -/
structure Passes (links : LinkSet F) (k0 : Key) (i : Nat) (pos : F) (l : Link F) (w : Vehicle F) : Prop where
  near : ¬ w.posFront < pos - maxLookahead * l.speedLimit
  goes : w.route[i]? = some k0 → i < w.entered ∧ (i + 1 < w.entered ∨ (w.route.length = i + 1 ∧ w.canExit = true) ∨
    ∃ j next, w.route[i + 1]? = some j ∧ links.get? j = some next ∧ next.control = .open_ ∧ w.canStop (pos + -5.0) = false)

/-- Nothing between the vehicle `v` and the end of the last link it has entered, `k0` with index `i` in its route,
ends the search from there before the link with index `i - d`, from which the end of `k0` is at position `pos`. -/
inductive FreeTo (s : Sim F) (v : Vehicle F) (i : Nat) (k0 : Key) : Nat → Key → F → Prop
  | here {l : Link F} : v.route[i]? = some k0 → s.links.get? k0 = some l → FreeTo s v i k0 0 k0 l.length
  | back {d : Nat} {k j : Key} {pos : F} {l l' : Link F} : FreeTo s v i k0 d k pos → s.links.get? k = some l →
      (∀ a ∈ l.vehicles, ∀ w, s.vehicles.get? a = some w → Passes s.links k0 d pos l w) →
      ¬ 0.0 ≤ pos - maxLookahead * l.speedLimit → d + 1 ≤ i → v.route[i - (d + 1)]? = some j → s.links.get? j = some l' →
      FreeTo s v i k0 (d + 1) j (pos + l'.length)

/-- The vehicle may not go on after the link with index `i` of its route: the next link is closed, or there is none
and it may not leave, or it must give way there and has not queued yet. -/
def MustStop (links : LinkSet F) (v : Vehicle F) (i : Nat) : Prop :=
  (∃ j next, v.route[i + 1]? = some j ∧ links.get? j = some next ∧ next.control = .closed) ∨
  (v.route[i + 1]? = none ∧ v.canExit = false) ∨
  ∃ j next d m p, v.route[i + 1]? = some j ∧ links.get? j = some next ∧ next.control = .yield_ d m p ∧ v.queued = none

/-- Vehicles are at most slowed down or given a decision. -/
def NetSlower (s s' : Net F) : Prop := SRel (VehAcc fun _ _ => True) s.vehicles s'.vehicles

theorem NetSlower.rfl' (s : Net F) : NetSlower s s := SRel.refl fun _ _ _ => VehAcc.rfl'

theorem NetSlower.trans (s s' s'' : Net F) (h : NetSlower s s') (h' : NetSlower s' s'') : NetSlower s s'' :=
  SRel.trans h h' fun _ _ _ _ => VehAcc.trans

theorem stoplineFn_slower [Env] {n : Net F} {l : Link F} (r : RelVeh F) (s : Net F) (p : Net F × Bool)
    (h : Link.stoplineFn n l r s = .ok p) : NetSlower s p.1 := by
  have slow : ∀ (links : LinkSet F) (vs : VehicleSet F) (f : Vehicle F → Vehicle F), NetSlower s ⟨links, vs⟩ →
      (∀ v v', VehAcc (fun _ _ => True) r.key v v' → VehAcc (fun _ _ => True) r.key v (f v')) →
      NetSlower s ⟨links, vs.modify r.key f⟩ := fun links vs f h hf => SRel.modify h r.key f fun _ _ _ _ hr => hf _ _ hr
  have hs : ∀ links, NetSlower s ⟨links, s.vehicles⟩ := fun _ => NetSlower.rfl' s
  unfold Link.stoplineFn at h
  split at h
  · rw [M_pure_ok] at h; subst h; exact NetSlower.rfl' s
  · rw [M_bind_ok] at h
    obtain ⟨next, -, h⟩ := h
    split at h
    · split at h
      · rw [M_pure_ok] at h; subst h
        exact slow _ _ _ (hs _) fun v v' hv => hv.decide trivial
      · rw [M_pure_ok] at h; subst h; exact NetSlower.rfl' s
    · split at h
      · rw [M_pure_ok] at h; subst h
        refine slow _ _ _ ?_ fun v v' hv => hv.stopAtLine _
        split
        · exact slow _ _ _ (hs _) fun v v' hv => hv.decide trivial
        · exact hs _
      · rw [M_bind_ok] at h
        obtain ⟨cur, -, h⟩ := h
        rw [M_bind_ok] at h
        obtain ⟨⟨ok, last⟩, -, h⟩ := h
        dsimp only at h
        split at h
        · rw [M_pure_ok] at h; subst h
          exact slow _ _ _ (hs _) fun v v' hv => hv.decide trivial
        · rw [M_pure_ok] at h; subst h
          exact slow _ _ _ (hs _) fun v v' hv => hv.stopAtLine _
      · cases h
    · rw [M_pure_ok] at h; subst h
      exact slow _ _ _ (hs _) fun v v' hv => hv.stopAtLine _
  · split at h
    · rw [M_pure_ok] at h; subst h; exact NetSlower.rfl' s
    · rw [M_pure_ok] at h; subst h
      exact slow _ _ _ (hs _) fun v v' hv => hv.stopAtLine _

theorem Way.snoc {σ : Type} {n : Net F} {f : RelVeh F → σ → M (σ × Bool)} {k0 : Key} {i i' : Nat} {k k' j : Key} {pos pos' : F}
    {l l' : Link F} (h : Way n f k0 i k pos i' k' pos') (h1 : n.links.get? k' = some l) (h2 : l.active = true)
    (h3 : ∀ a ∈ l.vehicles, ∃ w, n.vehicles.get? a = some w ∧
      GoesOn f (i', k0) pos' (pos' - maxLookahead * l.speedLimit) l.length a w)
    (h4 : ¬ 0.0 ≤ pos' - maxLookahead * l.speedLimit) (h5 : j ∈ l.linksIn) (h6 : n.links.get? j = some l') :
    Way n f k0 i k pos (i' + 1) j (pos' + l'.length) := by
  induction h with
  | here => exact .up h1 h2 h3 h4 h5 h6 .here
  | up a1 a2 a3 a4 a5 a6 _ ih => exact .up a1 a2 a3 a4 a5 a6 (ih h1 h3 h4)

/-- The state before the stop line of `k0` is looked at. -/
structure Before (s : Sim F) (n : Net F) : Prop where
  links : SRel (fun j l l' => ∃ b c, l' = { l with active := b, lastConflict := c } ∧
    (b = true ↔ ∃ k v, s.vehicles.get? k = some v ∧ j ∈ v.route.take v.entered)) s.links n.links
  vehicles : SRel (fun _ v v' => VehSame v.reset v') s.vehicles n.vehicles

theorem Passes.goesOn [Env] {s : Sim F} {n : Net F} (hb : Before s n) {k0 : Key} {i : Nat} {pos : F} {l l0 : Link F} {w : Vehicle F}
    (h : Passes s.links k0 i pos l w) (he : w.entered ≤ w.route.length) {a : Key} (hw : s.vehicles.get? a = some w) (length : F) :
    ∃ w', n.vehicles.get? a = some w' ∧
      GoesOn (Link.stoplineFn n l0) (i, k0) pos (pos - maxLookahead * l.speedLimit) length a w' := by
  obtain ⟨w', hw', x, y, rfl⟩ := hb.vehicles.fwd a w hw
  refine ⟨_, hw', h.near, fun st hst => ?_⟩
  have hst : w.getRoute i = some (k0, st) := hst
  obtain ⟨hr, -, -⟩ := getRoute_link hst
  obtain ⟨g1, g2⟩ := h.goes hr
  have hent : st = .entered := by
    unfold Vehicle.getRoute at hst
    rw [hr] at hst
    simp only [Option.map_some, g1, if_true, Option.some.injEq, Prod.mk.injEq] at hst
    exact hst.2.symm
  refine ⟨.inl hent, fun s1 p hp => ?_⟩
  unfold Link.stoplineFn at hp
  rcases g2 with g2 | ⟨g2, g3⟩ | ⟨j, next, g2, g3, g4, g5⟩
  · have : w.getRoute (i + 1) = some (w.route[i + 1]'(by omega), .entered) := by
      unfold Vehicle.getRoute
      rw [List.getElem?_eq_getElem (by omega), Option.map_some, if_pos g2]
    have e : RelVeh.getRoute ⟨a, { w.reset with acc := { w.reset.acc with acc := x }, willQueueOrEnter := y }, i, pos⟩ 1 =
      some (w.route[i + 1]'(by omega), .entered) := this
    rw [e] at hp
    simp only [M_pure_ok] at hp
    rw [← hp]
  · have : w.getRoute (i + 1) = none := by
      unfold Vehicle.getRoute
      rw [List.getElem?_eq_none (by omega), Option.map_none]
    have e : RelVeh.getRoute ⟨a, { w.reset with acc := { w.reset.acc with acc := x }, willQueueOrEnter := y }, i, pos⟩ 1 =
      none := this
    rw [e] at hp
    have g3' : w.reset.canExit = true := g3
    simp only [g3', if_true, M_pure_ok] at hp
    rw [← hp]
  · obtain ⟨next', hn', b, c, rfl, -⟩ := hb.links.fwd j next g3
    obtain ⟨st', e⟩ : ∃ st', w.getRoute (i + 1) = some (j, st') := by
      unfold Vehicle.getRoute
      rw [g2]
      exact ⟨_, rfl⟩
    have e : RelVeh.getRoute ⟨a, { w.reset with acc := { w.reset.acc with acc := x }, willQueueOrEnter := y }, i, pos⟩ 1 =
      some (j, st') := e
    rw [e] at hp
    have g5' : RelVeh.canStop ⟨a, { w.reset with acc := { w.reset.acc with acc := x }, willQueueOrEnter := y }, i, pos⟩ (-5.0) =
      false := g5
    split at hp
    · simp only [M_pure_ok] at hp; rw [← hp]
    · rename_i heq
      cases heq
      rw [M_bind_ok] at hp
      obtain ⟨next2, hnext2, hp⟩ := hp
      rw [getLink_ok, hn'] at hnext2; cases hnext2
      simp only [g4, g5', Bool.false_eq_true, not_false_eq_true, if_true, M_pure_ok] at hp
      rw [← hp]
    · rename_i heq; cases heq

omit [Flt F] in
theorem mem_take_of_getElem? {v : Vehicle F} {m n : Nat} {j : Key} (hm : m < n) (hj : v.route[m]? = some j) : j ∈ v.route.take n := by
  refine List.mem_of_getElem? (i := m) ?_
  rw [List.getElem?_take, if_pos hm]; exact hj

omit [Flt F] in
theorem Before.active {s : Sim F} {n : Net F} (hb : Before s n) {k j : Key} {v : Vehicle F} (hv : s.vehicles.get? k = some v)
    {m : Nat} (hm : m < v.entered) (hj : v.route[m]? = some j) {l : Link F} (hl : s.links.get? j = some l) :
    ∃ c, n.links.get? j = some { l with active := true, lastConflict := c } := by
  obtain ⟨l', hl', b, c, rfl, hact⟩ := hb.links.fwd j l hl
  have : b = true := hact.2 ⟨k, v, hv, mem_take_of_getElem? hm hj⟩
  subst this
  exact ⟨c, hl'⟩

theorem FreeTo.start {s : Sim F} {v : Vehicle F} {i d : Nat} {k0 k : Key} {pos : F} (h : FreeTo s v i k0 d k pos) :
    v.route[i]? = some k0 ∧ ∃ l, s.links.get? k0 = some l ∧ v.route[i - d]? = some k ∧ d ≤ i := by
  induction h with
  | here h1 h2 => exact ⟨h1, _, h2, h1, by omega⟩
  | back _ _ _ _ h1 h2 _ ih =>
    obtain ⟨a, l, b, -, -⟩ := ih
    exact ⟨a, l, b, h2, h1⟩

theorem FreeTo.way [Env] {s : Sim F} (hs : SimInv strict s) {n : Net F} (hb : Before s n)
    (hsym : ∀ a b la lb, s.links.get? a = some la → s.links.get? b = some lb → b ∈ la.linksOut → a ∈ lb.linksIn)
    {k : Key} {v : Vehicle F} (hv : s.vehicles.get? k = some v) {i d : Nat} (hent : v.entered = i + 1) {k0 k1 : Key} {pos : F}
    {l0 : Link F} (hl0 : s.links.get? k0 = some l0) (lc : Link F)
    (h : FreeTo s v i k0 d k1 pos) : Way n (Link.stoplineFn n lc) k0 0 k0 l0.length d k1 pos := by
  induction h with
  | here h1 h2 =>
    rw [hl0] at h2; cases h2
    exact .here
  | @back d k2 j pos l l' h1 h2 h3 h4 h5 h6 h7 ih =>
    obtain ⟨-, -, -, hr, hd⟩ := h1.start
    obtain ⟨c, g⟩ := hb.active hv (by omega) hr h2
    obtain ⟨c', g'⟩ := hb.active hv (by omega) h6 h7
    have key := fun A B => ih.snoc g rfl A h4 B g'
    refine key (fun a ha => ?_) ?_
    · obtain ⟨w, hw, -⟩ := ((hs.mem k2 l h2).2 a).1 ha
      exact (h3 a ha w hw).goesOn hb (hs.veh a w hw).enteredLe hw l.length
    · refine hsym j k2 l' l h7 h2 ?_
      have hch := (hs.veh k v hv).drivable.chain
      rw [List.isChain_iff_getElem] at hch
      obtain ⟨hlt, e⟩ := List.getElem?_eq_some_iff.1 hr
      obtain ⟨hlt', e'⟩ := List.getElem?_eq_some_iff.1 h6
      obtain ⟨la, hla, hm⟩ := hch (i - (d + 1)) (by omega)
      rw [e', h7] at hla; cases hla
      have e3 : v.route[i - (d + 1) + 1]'(by omega) = k2 := by
        rw [← e]
        congr 1
        omega
      rw [e3] at hm; exact hm

/-- The first vehicle before a line at which it must stop is given the acceleration for stopping there. -/
theorem AccRun.held [Env] {s s' : Sim F} (hs : SimInv strict s)
    (hsym : ∀ a b la lb, s.links.get? a = some la → s.links.get? b = some lb → b ∈ la.linksOut → a ∈ lb.linksIn)
    {n0 n1 : Net F} {vs : VehicleSet F} (hr : AccRun s n0 n1 vs s') {k k0 lk : Key} {i : Nat} {pos : F} {l : Link F} {v : Vehicle F}
    (hv : s.vehicles.get? k = some v) (hf : k ∉ s.frozen) (hent : v.entered = i + 1) (hfree : FreeTo s v i k0 i lk pos)
    (hl : s.links.get? lk = some l) {pre post : List Key} (hvs : l.vehicles = pre ++ k :: post)
    (hpost : ∀ a ∈ post, ∀ w, s.vehicles.get? a = some w → Passes s.links k0 i pos l w)
    (hnear : ¬ v.posFront < pos - maxLookahead * l.speedLimit) (hstop : MustStop s.links v i) :
    ∃ v', ∃ as : List F, ∃ w, s'.vehicles.get? k = some v' ∧ v.gapAcc (pos + 0.0) 0.0 ∈ as ∧
      v' = { v with acc := { v.acc with acc := as.foldl fmin v.acc.maxAcc }, willQueueOrEnter := w } := by
  refine hr.capped hv hf ?_
  refine Capped.before ?_ hr.slow.slower
  have hN0 : NetInv strict n0.links := hs.net.frame hr.prep.frame
  have hok0 := hr.prep.netOK hs.mid
  obtain ⟨hk0, l0, hl0, hlk, -⟩ := hfree.start
  obtain ⟨l00, hl00, -⟩ := hr.prep.links.fwd k0 l0 hl0
  obtain ⟨as, bs, hks⟩ := List.append_of_mem (SlotMap.mem_keys.2 ⟨l00, hl00⟩)
  have hrun := hr.runStop
  rw [hks, List.foldlM_append, M_bind_ok] at hrun
  obtain ⟨n, hn, hrun⟩ := hrun
  rw [List.foldlM_cons, M_bind_ok] at hrun
  obtain ⟨n', hn', hrun⟩ := hrun
  have fold : ∀ (ks : List Key) (n n' : Net F), ks ⊆ n0.links.keys → NetAcc (Decided n0) n0 n →
      ks.foldlM Link.applyStoplines n = .ok n' → NetAcc (Decided n0) n n' := by
    intro ks n n' hsub h0 h
    refine (Spec.foldlM (E := fun _ => True) (I := fun n' => NetAcc (Decided n0) n n') (fun n1 h1 k hk => ?_) NetAcc.rfl').ok h
    have h01 := NetAcc.trans h0 h1
    obtain ⟨l, hl⟩ := SlotMap.mem_keys.1 (hsub hk)
    refine (applyStoplines_spec (hok0.same (NetAcc.same h01)) (NetAcc.same h01) ?_ trivial ?_).mono
      (fun n' h' => NetAcc.trans h1 h') (fun _ h => h)
    · intro k l' hl'
      obtain ⟨l, hl, c, rfl, hc⟩ := (NetAcc.links h01).bwd hl'
      exact hc ((hN0.link k l hl).last)
    · rw [(NetAcc.links h01).contains]; exact contains_of_get hl
  have s1 := fold as n0 n (fun a ha => by rw [hks]; simp [ha]) NetAcc.rfl' hn
  have s2 : NetAcc (Decided n0) n n' := fold [k0] n n' (fun a ha => by rw [hks]; simp at ha; simp [ha]) s1 (by
    rw [List.foldlM_cons, M_bind_ok]; exact ⟨n', hn', rfl⟩)
  have s3 := fold bs n' n1 (fun a ha => by rw [hks]; simp [ha]) (s1.trans s2) hrun
  refine Capped.after (vs := n.vehicles) ⟨_, s1.vehicles⟩ (Capped.before ?_ ⟨_, s3.vehicles⟩)
  have hb : Before s n := by
    refine ⟨hr.prep.links.trans s1.links ?_, hr.prep.vehicles.trans s1.vehicles ?_⟩
    · rintro j l l' l'' ⟨b, rfl, hb⟩ ⟨c, rfl, -⟩
      exact ⟨b, c, rfl, hb⟩
    · rintro j v v' v'' rfl h
      exact h.same
  obtain ⟨c0, hn0⟩ := hb.active hv (by omega) hk0 hl0
  obtain ⟨c1, hn1⟩ := hb.active hv (by omega) hlk hl
  obtain ⟨v1, hv1, x, y, rfl⟩ := hb.vehicles.fwd k v hv
  unfold Link.applyStoplines at hn'
  rw [M_bind_ok] at hn'
  obtain ⟨lq, hlq, hn'⟩ := hn'
  rw [getLink_ok, hn0] at hlq; cases hlq
  have hid : l0.id = k0 := (hs.net.link k0 l0 hl0).id
  have hrt : v.getRoute i = some (k0, .entered) := by
    unfold Vehicle.getRoute
    rw [hk0, Option.map_some, if_pos (by omega)]
  subst hid
  refine processVehicles_finds (R := NetSlower) (Q := fun s s' => SRel (fun _ v v' => VehSame v v') n.vehicles s.vehicles →
      Capped k (v.gapAcc (pos + 0.0) 0.0) s.vehicles s'.vehicles)
    NetSlower.rfl' NetSlower.trans
    (fun _ _ _ h h' hm => Capped.after ⟨_, h⟩ (h' (hm.trans h fun _ _ _ _ a b => a.trans b.same)))
    (fun _ _ _ h h' hm => Capped.before (h hm) ⟨_, h'⟩)
    stoplineFn_slower hn1 rfl hvs (fun a ha => ?_) hv1 hnear hrt (.inl rfl) (fun m p hp hm => ?_)
    (hfree.way hs hb hsym hv hent hl0 _) hn0 hn' (SRel.refl fun _ _ _ => ⟨_, _, rfl⟩)
  · obtain ⟨w, hw, -⟩ := ((hs.mem lk l hl).2 a).1 (by rw [hvs]; simp [ha])
    exact (hpost a ha w hw).goesOn hb (hs.veh a w hw).enteredLe hw l.length
  · let r : RelVeh F := ⟨k, { v.reset with acc := { v.reset.acc with acc := x }, willQueueOrEnter := y }, i, pos⟩
    have cap : p.1.vehicles = r.stopAtLine 0.0 m.vehicles ∨ p.1.vehicles = r.stopAtLine 0.0 (r.queueLink m.vehicles) := by
      unfold Link.stoplineFn at hp
      rcases hstop with ⟨j, next, h1, h2, h3⟩ | ⟨h1, h2⟩ | ⟨j, next, d, mst, pr, h1, h2, h3, hq⟩
      · left
        obtain ⟨next', hn', b, c, rfl, -⟩ := hb.links.fwd j next h2
        obtain ⟨st', hst', e⟩ : ∃ st', st' ≠ .entered ∧ v.getRoute (i + 1) = some (j, st') := by
          unfold Vehicle.getRoute
          rw [h1, Option.map_some, if_neg (by omega), if_pos hent]
          cases v.queued
          · exact ⟨.notEntered, nofun, rfl⟩
          · exact ⟨.queuedAt _, nofun, rfl⟩
        have e : r.getRoute 1 = some (j, st') := e
        rw [e] at hp
        split at hp
        · rename_i heq; cases heq; exact absurd rfl hst'
        · rename_i heq
          cases heq
          rw [M_bind_ok] at hp
          obtain ⟨next2, hnext2, hp⟩ := hp
          rw [getLink_ok, hn'] at hnext2; cases hnext2
          simp only [h3, M_pure_ok] at hp
          rw [← hp]
        · rename_i heq; cases heq
      · left
        have e : v.getRoute (i + 1) = none := by
          unfold Vehicle.getRoute
          rw [h1, Option.map_none]
        have e : r.getRoute 1 = none := e
        rw [e] at hp
        have h2' : v.reset.canExit = false := h2
        simp only [h2', Bool.false_eq_true, if_false, M_pure_ok] at hp
        rw [← hp]
        rfl
      · obtain ⟨next', hn', b, c, rfl, -⟩ := hb.links.fwd j next h2
        have e : v.getRoute (i + 1) = some (j, .notEntered) := by
          unfold Vehicle.getRoute
          rw [h1, Option.map_some, if_neg (by omega), if_pos hent, hq]
        have e : r.getRoute 1 = some (j, .notEntered) := e
        rw [e] at hp
        split at hp
        · rename_i heq; cases heq
        · rename_i heq
          cases heq
          rw [M_bind_ok] at hp
          obtain ⟨next2, hnext2, hp⟩ := hp
          rw [getLink_ok, hn'] at hnext2; cases hnext2
          simp only [h3, M_pure_ok] at hp
          rw [← hp]
          dsimp only
          split
          · exact .inr rfl
          · exact .inl rfl
        · rename_i heq; cases heq
    intro u hu
    obtain ⟨u', hu', x', y', rfl⟩ := hm.fwd k _ hv1
    rw [hu] at hu'; cases hu'
    rcases cap with cap | cap
    · exact ⟨_, [v.gapAcc (pos + 0.0) 0.0], by rw [cap, RelVeh.stopAtLine, SlotMap.get?_modify_self, hu]; rfl, by simp, _, rfl⟩
    · exact ⟨_, [v.gapAcc (pos + 0.0) 0.0], by
        rw [cap, RelVeh.stopAtLine, SlotMap.get?_modify_self, RelVeh.queueLink, SlotMap.get?_modify_self, hu]; rfl, by simp, _, rfl⟩

section
variable {s s' s1 : Sim F} {dt : F} {i : Nat} {k k0 lk : Key} {pos : F} {l1 : Link F} {v1 v' : Vehicle F} {pre post : List Key}

/-- The situation of C26 in the course of a step. -/
theorem StepRun.held [Env] [LawfulDijkstra] {s2 s3 s4 s5 s6 : Sim F} {v v2 v4 : Vehicle F} (h : Reach strict s)
    (hr : StepRun strict s dt s1 s2 s3 s4 s5 s6 s') (ht : Trace s dt s1 s2 s3 s4 s' k v v1 v2 v4) (hre : ¬ s.accUpdate < 0.1)
    (hent : v1.entered = i + 1) (hfree : FreeTo s1 v1 i k0 i lk pos) (hl : s1.getLinkRef lk = .ok l1)
    (hvs : l1.vehicles = pre ++ k :: post)
    (hpost : ∀ a ∈ post, ∀ w, s1.getVehicle a = .ok w → Passes s1.links k0 i pos l1 w)
    (hnear : ¬ v1.posFront < pos - 5.0 * l1.speedLimit) (hstop : MustStop s1.links v1 i) :
    v2.acc.acc = -6.0 ∨ ∃ as : List F, v1.acc.idm (pos + 0.0 - v1.posFront) v1.vel 0.0 ∈ as ∧
      v2.acc.acc = as.foldl fmin v1.acc.maxAcc := by
  have hv1 := getVeh_ok.2 ht.get1
  rcases ht.acc with ⟨hlt, -⟩ | ⟨-, n0, n1, vs, har, ha⟩
  · rw [hr.clocks.1] at hlt; exact absurd hlt hre
  by_cases hf : k ∈ s1.frozen
  · left
    obtain ⟨a, w, ev2, -, hz, -⟩ := ha.eq
    rw [ev2]
    exact hz hf
  · right
    have hsym : ∀ a b la lb, s1.links.get? a = some la → s1.links.get? b = some lb → b ∈ la.linksOut → a ∈ lb.linksIn := by
      intro a b la lb h1 h2 h3
      obtain ⟨la0, g1, e1⟩ := hr.frame1.frame.bwd h1
      obtain ⟨lb0, g2, e2⟩ := hr.frame1.frame.bwd h2
      have := C60_symmetric h (getLink_ok.2 g1) (getLink_ok.2 g2)
      rw [e2.linksIn]
      rw [e1.linksOut] at h3
      refine List.count_pos_iff.1 ?_
      rw [← this]
      exact List.count_pos_iff.2 h3
    obtain ⟨w, as, x, hw, hx, ew⟩ := har.held hr.inv1 hsym (getVeh_ok.1 hv1) hf hent hfree (getLink_ok.1 hl) hvs
      (fun a ha w hw => hpost a ha w (getVeh_ok.2 hw)) hnear hstop
    have g2 := ht.get2
    rw [hr.vehicles3, hw] at g2; cases g2
    exact ⟨as, hx, by rw [ew]⟩

/-- **C26** (any numbers) Accelerations are recomputed.  After lane changes the vehicle `k` is the first one that the
search from the end of the last link it has entered comes to, apart from those that pass, and may not go on.
Then its acceleration is -6 m/s², if it is frozen, or the least of several values, among them the car-following
acceleration for a stationary obstacle at the end of that link. -/
theorem C26_line [Env] [LawfulDijkstra] (h : Reach strict s) (hst : s.step dt = .ok s') (hre : ¬ s.accUpdate < 0.1)
    (hlanes : s.calculateLaneChanges = .ok s1) (hv1 : s1.getVehicle k = .ok v1) (hv' : s'.getVehicle k = .ok v')
    (hent : v1.entered = i + 1) (hfree : FreeTo s1 v1 i k0 i lk pos) (hl : s1.getLinkRef lk = .ok l1)
    (hvs : l1.vehicles = pre ++ k :: post)
    (hpost : ∀ a ∈ post, ∀ w, s1.getVehicle a = .ok w → Passes s1.links k0 i pos l1 w)
    (hnear : ¬ v1.posFront < pos - 5.0 * l1.speedLimit) (hstop : MustStop s1.links v1 i) :
    v'.acc.acc = -6.0 ∨ ∃ as : List F, v1.acc.idm (pos + 0.0 - v1.posFront) v1.vel 0.0 ∈ as ∧
      v'.acc.acc = as.foldl fmin v1.acc.maxAcc := by
  obtain ⟨s1', s2, s3, s4, s5, s6, hr⟩ := (step_spec h.inv dt).ok hst
  rw [hr.run1] at hlanes; cases hlanes
  obtain ⟨v, hv⟩ := hr.back (getVeh_ok.1 hv')
  obtain ⟨v1', v2, v4, ht⟩ := hr.trace hv
  have g1 := ht.get1
  rw [getVeh_ok.1 hv1] at g1; cases g1
  obtain ⟨-, ea, -⟩ := ht.vel (getVeh_ok.1 hv')
  rw [ea]
  exact hr.held h ht hre hent hfree hl hvs hpost hnear hstop

end

end

section
variable {strict : Prop} {s s' s1 : Sim ℝ} {dt : ℝ} {i : Nat} {k k0 lk : Key} {pos : ℝ} {l1 : Link ℝ} {v1 v' : Vehicle ℝ}
  {pre post : List Key}

/-- **C26.** In the same situation, in exact arithmetic, the vehicle accelerates no more than it would with nothing
but a stationary obstacle at the line ahead of it. -/
theorem C26_held [Env] [LawfulDijkstra] (h : Reach strict s) (hst : s.step dt = .ok s') (hre : ¬ s.accUpdate < 0.1)
    (hlanes : s.calculateLaneChanges = .ok s1) (hv1 : s1.getVehicle k = .ok v1) (hv' : s'.getVehicle k = .ok v')
    (hent : v1.entered = i + 1) (hfree : FreeTo s1 v1 i k0 i lk pos) (hl : s1.getLinkRef lk = .ok l1)
    (hvs : l1.vehicles = pre ++ k :: post)
    (hpost : ∀ a ∈ post, ∀ w, s1.getVehicle a = .ok w → Passes s1.links k0 i pos l1 w)
    (hnear : pos - 5 * l1.speedLimit ≤ v1.posFront) (hstop : MustStop s1.links v1 i) :
    v'.acc.getAcc ≤ followAcc v1.acc (pos - v1.posFront) v1.vel 0 := by
  rw [followAcc_eq]
  have key : v'.acc.acc ≤ max (min v1.acc.maxAcc (v1.acc.idm (pos - v1.posFront) v1.vel 0)) (-6) := by
    rcases C26_line h hst hre hlanes hv1 hv' hent hfree hl hvs hpost (by norm_num; linarith) hstop with e | ⟨as, hx, e⟩
    · rw [e]; exact le_trans (by norm_num) (le_max_right _ _)
    · rw [e]
      norm_num at hx
      exact le_trans (le_min (foldl_min_le as _).1 ((foldl_min_le as _).2 _ hx)) (le_max_left _ _)
  refine max_le key (le_trans ?_ (le_max_right _ _))
  simp only [maxDecel]; norm_num

/-- A vehicle that may not leave at the end of its link, less than 50 m from there. -/
example : ∃ (_ : Env) (_ : LawfulDijkstra) (s s' s1 : Sim ℝ) (v1 v' : Vehicle ℝ) (l1 : Link ℝ) (k lk : Key), Reach True s ∧
    s.step 0.05 = .ok s' ∧ ¬ s.accUpdate < 0.1 ∧ s.calculateLaneChanges = .ok s1 ∧ s1.getVehicle k = .ok v1 ∧
    s'.getVehicle k = .ok v' ∧ v1.entered = 0 + 1 ∧ FreeTo s1 v1 0 lk 0 lk l1.length ∧ s1.getLinkRef lk = .ok l1 ∧
    l1.vehicles = [] ++ k :: [] ∧ l1.length - 5 * l1.speedLimit ≤ v1.posFront ∧ MustStop s1.links v1 0 := by
  obtain ⟨n, s0, s1, s2, v0, v1, v2, h1, h2, h3, h4, h5, h6, h7, -, h8, -, -, h9, -, h10, h11, h12, hp, ⟨l', hl', -, -, hl2⟩, -, t, h15, h16,
    hv, l, h13, h13', hl⟩ := Lone.run false 7 (by norm_num) (by norm_num)
  rw [h13'] at hl'; injection hl' with hl'; subst hl'
  refine ⟨Lone.env n, Lone.lawful n, s1, s2, t, v1, v2, l, ⟨0, 1⟩, ⟨0, 1⟩, h3, h4, by rw [h8]; norm_num, h15, h16, h7, hv.entered,
    .here (by rw [hv.route]; rfl) (getLink_ok.1 h13), h13, hl.vehs, ?_, .inr (.inl ⟨by rw [hv.route]; rfl, hv.exit⟩)⟩
  rw [hl.speed, Vehicle.posFront, hp, hv.half]
  linarith

end

section
attribute [local instance] Town.env

def Corner.lineTest (s s' : Sim Float) : Bool :=
  decide (¬ s.accUpdate < 0.1) && (s'.vehicles.get? ⟨0, 1⟩).isSome && match s.calculateLaneChanges with
  | .ok s1 => Corner.control s1 ⟨1, 1⟩ == 3 && match s1.vehicles.get? ⟨0, 1⟩, s1.links.get? ⟨0, 1⟩ with
    | some v, some l => v.route == [⟨0, 1⟩, ⟨1, 1⟩] && v.entered == 1 && l.vehicles == [⟨0, 1⟩] &&
      decide (¬ v.posFront < l.length - 5.0 * l.speedLimit)
    | _, _ => false
  | .error _ => false

theorem Corner.line : ∃ s s' : Sim Float, Reach True s ∧ Allowed True s (.step 0.3) ∧ s.exec (.step 0.3) = .ok s' ∧
    Reach True s' ∧ Corner.lineTest s s' = true :=
  trial_reach (ops := Corner.ops .closed .closed) (by decide +kernel)

/-- A car before a closed link. -/
example : ∃ (s s' s1 : Sim Float) (v1 v' : Vehicle Float) (l1 : Link Float) (k lk : Key), Reach True s ∧
    s.step 0.3 = .ok s' ∧ ¬ s.accUpdate < 0.1 ∧ s.calculateLaneChanges = .ok s1 ∧ s1.getVehicle k = .ok v1 ∧
    s'.getVehicle k = .ok v' ∧ v1.entered = 0 + 1 ∧ FreeTo s1 v1 0 lk 0 lk l1.length ∧ s1.getLinkRef lk = .ok l1 ∧
    l1.vehicles = [] ++ k :: [] ∧ ¬ v1.posFront < l1.length - 5.0 * l1.speedLimit ∧ MustStop s1.links v1 0 := by
  obtain ⟨s, s', h1, -, h3, -, h5⟩ := Corner.line
  unfold Corner.lineTest at h5
  simp only [Bool.and_eq_true, decide_eq_true_eq, Option.isSome_iff_exists] at h5
  obtain ⟨⟨h6, v', hv'⟩, h5⟩ := h5
  split at h5
  · rename_i s1 hs1
    rw [Bool.and_eq_true] at h5
    obtain ⟨hc, h5⟩ := h5
    obtain ⟨next, hn, -, -, -, hclosed⟩ := Corner.control_ok (beq_iff_eq.1 hc) (by decide)
    split at h5
    · rename_i v l hv hl
      simp only [Bool.and_eq_true, decide_eq_true_eq, beq_iff_eq] at h5
      obtain ⟨⟨⟨a1, a2⟩, a3⟩, a4⟩ := h5
      exact ⟨s, s', s1, v, v', l, ⟨0, 1⟩, ⟨0, 1⟩, h1, h3, h6, hs1, getVeh_ok.2 hv, getVeh_ok.2 hv', a2,
        .here (by rw [a1]; rfl) hl, getLink_ok.2 hl, a3, a4,
        .inl ⟨⟨1, 1⟩, next, by rw [a1]; rfl, getLink_ok.1 hn, hclosed rfl⟩⟩
    · cases h5
  · simp at h5

end

end TrafficSim
