import Verif.Props.Free
import Verif.Props.Conflict
import Verif.Props.Obstacle
import Verif.Props.Safety

/-! # C83: what a vehicle is slowed down by -/

namespace TrafficSim

section
variable {F : Type} [Flt F] {strict : Prop}

/-- The vehicle `j` is `u`.  The `i`th link of its route is `k0`.  Position `p` of that link is `d` in terms of the position of `u`:
the lengths of the links on a way of `i` links from the link `u` is on to `k0` are added to `p`.  If this is past the end of the link `u`
is on, `u` has been let in to `k0`. -/
structure Sees (s : Sim F) (k0 : Key) (p : F) (j : Key) (u : Vehicle F) (i : Nat) (d : F) : Prop where
  veh : s.vehicles.get? j = some u
  route : u.route[i]? = some k0
  way : ∃ lk, u.route.head? = some lk ∧ Upstream s.links k0 p i lk d
  letIn : ∀ lk l, u.route.head? = some lk → s.links.get? lk = some l → l.length < d → i < u.entered

/-- The vehicle `j`, which is `u`, is or will be on the link of the conflict region `c`, and has not left the region. -/
def Heads (s : Sim F) (c : ConflictPointLink F) (j : Key) (u : Vehicle F) (d : F) : Prop :=
  ∃ i, Sees s c.linkId c.minPos j u i d ∧ u.posRear - d < c.maxPos - c.minPos

/-- There is something ahead of the vehicle `k`, which is `v`, that it has to follow: it is at the given distance from its front and has
the given speed. -/
inductive Hindrance [Env] (s : Sim F) (k : Key) (v : Vehicle F) : F → F → Prop
  /-- the next vehicle on the link -/
  | next {lk j : Key} {l : Link F} {u : Vehicle F} : s.links.get? lk = some l → [k, j] <:+: l.vehicles → s.vehicles.get? j = some u →
      Hindrance s k v (u.posRear - v.posFront) u.vel
  /-- the last vehicle on a link further on -/
  | last {k0 j : Key} {l : Link F} {i : Nat} {d : F} {js : List Key} {u : Vehicle F} : Sees s k0 0.0 k v (i + 1) d →
      s.links.get? k0 = some l → l.vehicles = j :: js → s.vehicles.get? j = some u → Hindrance s k v (d + u.posRear - v.posFront) u.vel
  /-- the end of the route, if the vehicle may not leave there -/
  | exit {k0 : Key} {l : Link F} {i : Nat} {d : F} : s.links.get? k0 = some l → Sees s k0 l.length k v i d → v.route[i + 1]? = none →
      v.canExit = false → Hindrance s k v (d + 0.0 - v.posFront) 0.0
  /-- the start of a link that is not open and that the vehicle has not entered -/
  | entry {k0 j : Key} {l l' : Link F} {i : Nat} {d : F} : s.links.get? k0 = some l → Sees s k0 l.length k v i d →
      v.route[i + 1]? = some j → v.entered ≤ i + 1 → s.links.get? j = some l' → l'.control ≠ .open_ → Hindrance s k v (d + 0.0 - v.posFront) 0.0
  /-- a vehicle on a neighbouring lane that is in the way -/
  | lane {lk j : Key} {l l0 : Link F} {u : Vehicle F} {g : LinkGroup F} {ps : List (LinkProjection F)} {p : LinkProjection F} {o : Obstacle F} {i : Nat}
      {d pos vel : F} : s.links.get? lk = some l → j ∈ l.vehicles → s.vehicles.get? j = some u → l.group = some g →
      g.projectionsFromLink lk = .ok ps → p ∈ ps → u.project p = .ok o → s.links.get? p.dst = some l0 → Sees s p.dst o.pos k v i d →
      v.canPass o l0 = .ok (.follow pos vel) → Hindrance s k v (d + (pos - o.pos) - v.posFront) vel
  /-- a conflict region that another vehicle reaches before, not to be followed -/
  | region {c : ConflictPoint F} {a b : ConflictPointLink F} {j : Key} {u : Vehicle F} {d d' : F} : c ∈ s.conflicts →
      (a = c.link0 ∧ b = c.link1 ∨ a = c.link1 ∧ b = c.link0) → Heads s a j u d → Heads s b k v d' →
      (v.posFront - d' ≤ u.posFront - d ∨ ¬ u.posFront - d ≤ v.posFront - d') →
      ¬ (c.sameDir = true ∧ 0.0 < u.posRear - d) → Hindrance s k v (d' + 0.0 - v.posFront) 0.0
  /-- a vehicle in a conflict region, to be followed -/
  | merge {c : ConflictPoint F} {a b : ConflictPointLink F} {j : Key} {u : Vehicle F} {d d' : F} : c ∈ s.conflicts →
      (a = c.link0 ∧ b = c.link1 ∨ a = c.link1 ∧ b = c.link0) → Heads s a j u d → Heads s b k v d' →
      (v.posFront - d' ≤ u.posFront - d ∨ ¬ u.posFront - d ≤ v.posFront - d') → c.sameDir = true → 0.0 < u.posRear - d →
      Hindrance s k v (fmin (v.worldDir.dot (u.rearCoords.1.sub v.worldPos)) (v.worldDir.dot (u.rearCoords.2.sub v.worldPos)) - v.halfLen) u.vel

/-- An acceleration that is asked of the vehicle `k`, which is `v`, by a speed limit or by something ahead. -/
inductive Cause [Env] (s : Sim F) (k : Key) (v : Vehicle F) : F → Prop
  | limit {j : Key} {l : Link F} {a : F} : j ∈ v.route → s.links.get? j = some l → LimitAcc v.acc v.vel l.speedLimit a → Cause s k v a
  | follow {gap vel : F} : Hindrance s k v gap vel → Cause s k v (v.acc.idm gap v.vel vel)

variable {k : Key} {v : Vehicle F} {P : F → Prop} {vs : VehicleSet F}

theorem Tuned.cap (h : Tuned k v P vs) {f : Vehicle F → Vehicle F} {x : F} (hx : P x)
    (hf : ∀ (a : F) (w : Nat), f { v with acc := { v.acc with acc := a }, willQueueOrEnter := w } =
      { v with acc := { v.acc with acc := fmin a x }, willQueueOrEnter := w }) : Tuned k v P (vs.modify k f) := by
  obtain ⟨as, w, h1, h2⟩ := h
  refine ⟨as ++ [x], w, ?_, ?_⟩
  · rw [SlotMap.get?_modify_self, h1, List.foldl_append, Option.map_some, hf]; rfl
  · intro a ha
    rcases List.mem_append.1 ha with ha | ha
    · exact h2 a ha
    · rw [List.mem_singleton] at ha
      subst ha; exact hx

theorem Tuned.decide (h : Tuned k v P vs) {f : Vehicle F → Vehicle F} {n : Nat}
    (hf : ∀ u, f u = { u with willQueueOrEnter := n }) : Tuned k v P (vs.modify k f) := by
  obtain ⟨as, w, h1, h2⟩ := h
  exact ⟨as, n, by rw [SlotMap.get?_modify_self, h1, Option.map_some, hf], h2⟩

theorem Tuned.other (h : Tuned k v P vs) {j : Key} {f : Vehicle F → Vehicle F} (hj : k ≠ j) : Tuned k v P (vs.modify j f) := by
  obtain ⟨as, w, h1, h2⟩ := h
  exact ⟨as, w, by rw [SlotMap.get?_modify_ne _ _ hj, h1], h2⟩

omit [Flt F] in
theorem VehSame.of_reset [Flt F] {u u' : Vehicle F} (h : VehSame u.reset u') : VehSame u u' := by
  obtain ⟨a, w, rfl⟩ := h
  exact ⟨a, w, rfl⟩

theorem Meanwhile.upstream {s : Sim F} {n : Net F} (hm : Meanwhile s n) {k0 : Key} {p : F} {i : Nat} {lk : Key} {d : F}
    (h : Upstream n.links k0 p i lk d) : Upstream s.links k0 p i lk d := by
  induction h with
  | here => exact .here
  | up _ hl hj hl' ih =>
    obtain ⟨l, g, b, c, rfl⟩ := hm.links.bwd hl
    obtain ⟨l', g', b', c', rfl⟩ := hm.links.bwd hl'
    have := Upstream.up ih g hj g'
    exact this

theorem Meanwhile.sees {s : Sim F} {n : Net F} (hm : Meanwhile s n) (hs : SimInv strict s) {k0 : Key} {p : F} {r : RelVeh F}
    (h : Visited n k0 p r) : ∃ u, Sees s k0 p r.key u r.routeIdx r.pos ∧ VehSame u r.vehicle := by
  obtain ⟨u, hu, hv⟩ := hm.vehicles.bwd h.veh
  obtain ⟨lk, l, hup, hl, hmem, st, hst, hin⟩ := h.place
  obtain ⟨l, gl, b, c, rfl⟩ := hm.links.bwd hl
  obtain ⟨w, hw, hwl⟩ := ((hs.mem lk l gl).2 _).1 hmem
  rw [hu] at hw; cases hw
  refine ⟨u, ⟨hu, ?_, ⟨lk, hwl, hm.upstream hup⟩, fun lk' l' h1 h2 h3 => ?_⟩, hv.of_reset⟩
  · have := getRoute_get hst
    rw [hv.route.1] at this
    exact this
  · have e := hwl.symm.trans h1
    cases e
    rw [gl] at h2; cases h2
    have hin := hin.resolve_right (not_not_intro h3)
    have := (getRoute_link (v := r.vehicle) hst).2.1 hin
    obtain ⟨a, w, e⟩ := hv
    rw [e] at this
    exact this

section
variable [Env] {s : Sim F}

theorem stopline_caused (hs : SimInv strict s) (hv : s.vehicles.get? k = some v) {n m : Net F} (hm : Meanwhile s n)
    {lk : Key} {l : Link F} (hl : n.links.get? lk = some l) {r : RelVeh F} (hr : Visited n lk l.length r)
    (hT : Tuned k v (Cause s k v) m.vehicles) :
    Spec (Link.stoplineFn n l r m) (fun _ => True) fun p => Tuned k v (Cause s k v) p.1.vehicles := by
  obtain ⟨u, hsee, hsame⟩ := hm.sees hs hr
  obtain ⟨l, gl, b, c, rfl⟩ := hm.links.bwd hl
  by_cases hk : k = r.key
  swap
  · refine Spec.of_ok fun p hp => ?_
    unfold Link.stoplineFn at hp
    split at hp
    · rw [M_pure_ok] at hp; subst hp; exact hT
    · rw [M_bind_ok] at hp
      obtain ⟨next, -, hp⟩ := hp
      split at hp
      · split at hp <;> rw [M_pure_ok] at hp <;> subst hp
        · exact hT.other hk
        · exact hT
      · split at hp
        · dsimp only at hp
          rw [M_pure_ok] at hp; subst hp
          refine Tuned.other ?_ hk
          split
          · exact hT.other hk
          · exact hT
        · simp only [M_bind_ok] at hp
          obtain ⟨cur, -, ⟨ok, last⟩, -, hp⟩ := hp
          dsimp only at hp
          split at hp <;> rw [M_pure_ok] at hp <;> subst hp
          · exact hT.other hk
          · exact hT.other hk
        · cases hp
      · rw [M_pure_ok] at hp; subst hp; exact hT.other hk
    · split at hp <;> rw [M_pure_ok] at hp <;> subst hp
      · exact hT
      · exact hT.other hk
  · subst hk
    have := hsee.veh
    rw [hv] at this; cases this
    have stop : ∀ {m : Net F}, Tuned r.key v (Cause s r.key v) m.vehicles →
        Cause s r.key v (v.acc.idm (r.pos + 0.0 - v.posFront) v.vel 0.0) → Tuned r.key v (Cause s r.key v) (r.stopAtLine 0.0 m.vehicles) :=
      fun h hx => h.cap hx fun _ _ => rfl
    obtain ⟨er, ee, ec⟩ : r.vehicle.route = v.route ∧ r.vehicle.entered = v.entered ∧ r.vehicle.canExit = v.canExit := by
      obtain ⟨a, w, e⟩ := hsame
      rw [e]; exact ⟨rfl, rfl, rfl⟩
    refine Spec.of_ok fun p hp => ?_
    unfold Link.stoplineFn at hp
    split at hp
    · rw [M_pure_ok] at hp; subst hp; exact hT
    · rename_i j state hne hst
      rw [M_bind_ok] at hp
      obtain ⟨next, hnext, hp⟩ := hp
      rw [getLink_ok] at hnext
      obtain ⟨next, gnext, b', c', rfl⟩ := hm.links.bwd hnext
      have hj := getRoute_get hst
      have hent : v.entered ≤ r.routeIdx + 1 := by
        by_contra hlt
        apply hne
        unfold RelVeh.getRoute Vehicle.getRoute at hst
        rw [hj, ee] at hst
        simp only [Option.map_some] at hst
        rw [if_pos (by omega)] at hst
        cases hst; rfl
      rw [er] at hj
      have cause : next.control ≠ .open_ → Cause s r.key v (v.acc.idm (r.pos + 0.0 - v.posFront) v.vel 0.0) :=
        fun h => .follow (.entry gl hsee hj hent gnext h)
      dsimp only at hp
      split at hp
      · split at hp <;> rw [M_pure_ok] at hp <;> subst hp
        · exact hT.decide fun _ => rfl
        · exact hT
      · rename_i hc
        have hc' : next.control ≠ .open_ := by rw [hc]; exact nofun
        split at hp
        · rw [M_pure_ok] at hp; subst hp
          refine stop (m := ⟨m.links, _⟩) ?_ (cause hc')
          show Tuned r.key v _ (if _ then _ else _)
          split
          · exact hT.decide fun _ => rfl
          · exact hT
        · simp only [M_bind_ok] at hp
          obtain ⟨cur, -, ⟨ok, last⟩, -, hp⟩ := hp
          dsimp only at hp
          split at hp <;> rw [M_pure_ok] at hp <;> subst hp
          · exact hT.decide fun _ => rfl
          · exact stop hT (cause hc')
        · cases hp
      · rename_i hc
        rw [M_pure_ok] at hp; subst hp
        exact stop hT (cause (by rw [hc]; exact nofun))
    · rename_i hst
      split at hp <;> rw [M_pure_ok] at hp <;> subst hp
      · exact hT
      · rename_i hc
        refine stop hT (.follow (.exit gl hsee ?_ ?_))
        · unfold RelVeh.getRoute Vehicle.getRoute at hst
          rw [er] at hst
          simpa using hst
        · rw [ec] at hc
          simpa using hc

theorem windows_caused {lk : Key} {l : Link F} (hv : s.vehicles.get? k = some v) (hl : s.links.get? lk = some l) (hlk : k ∈ l.vehicles → lk ∈ v.route) :
    ∀ {pre ks : List Key} {vs vs' : VehicleSet F}, l.vehicles = pre ++ ks → SRel (fun _ v v' => VehSame v.reset v') s.vehicles vs →
    Tuned k v (Cause s k v) vs → Link.followWindows l.speedLimit ks vs = .ok vs' → Tuned k v (Cause s k v) vs'
  | pre, [], vs, vs', _, _, hT, h => by
    unfold Link.followWindows at h
    rw [M_pure_ok] at h; subst h; exact hT
  | pre, [a], vs, vs', e, _, hT, h => by
    unfold Link.followWindows at h
    rw [updVeh_ok] at h
    rw [h.2]
    by_cases ha : k = a
    · subst ha
      exact hT.limit fun a h => .limit (hlk (by rw [e]; simp)) hl h
    · exact hT.other ha
  | pre, a :: b :: ks, vs, vs', e, hm, hT, h => by
    unfold Link.followWindows at h
    simp only [M_bind_ok, updVeh_ok, getVeh_ok] at h
    obtain ⟨ld, hld, vs1, ⟨hex, rfl⟩, h⟩ := h
    obtain ⟨u, hu, hsame⟩ := hm.bwd hld
    refine windows_caused hv hl hlk (pre := pre ++ [a]) (by rw [e]; simp) ?_ ?_ h
    · refine SRel.modify hm a _ ?_
      rintro v v' - - ⟨x, w, rfl⟩
      exact ⟨_, w, rfl⟩
    · by_cases ha : k = a
      · subst ha
        have hc : Cause s k v (v.acc.idm (u.posRear - v.posFront) v.vel u.vel) := .follow (.next hl ⟨pre, ks, by rw [e]; simp⟩ hu)
        have h1 := hT.cap (f := fun v => v.followVehicle ld.posRear ld.vel) hc fun _ _ => by
          obtain ⟨x, w, rfl⟩ := hsame
          rfl
        have h2 := h1.limit (limit := l.speedLimit) fun a h => .limit (hlk (by rw [e]; simp)) hl h
        obtain ⟨as, w, g1, g2⟩ := h2
        refine ⟨as, w, ?_, g2⟩
        rw [← g1]
        simp only [SlotMap.get?_modify_self, Option.map_map]
        rfl
      · exact hT.other ha

theorem entering_caused (hs : SimInv strict s) (hv : s.vehicles.get? k = some v) {links : LinkSet F} (hm : Meanwhile s ⟨links, vs⟩)
    {lk : Key} {l : Link F} (hl : links.get? lk = some l) {r : RelVeh F} (hr : Visited ⟨links, vs⟩ lk 0.0 r) (hi : 1 ≤ r.routeIdx)
    {vs' : VehicleSet F} (hm' : SRel (fun _ v v' => VehSame v.reset v') s.vehicles vs') (hT : Tuned k v (Cause s k v) vs') :
    Spec (Link.enteringFn l r vs') (fun _ => True) fun p => SRel (fun _ v v' => VehSame v.reset v') s.vehicles p.1 ∧ Tuned k v (Cause s k v) p.1 := by
  obtain ⟨u, hsee, hsame⟩ := hm.sees hs hr
  obtain ⟨l, gl, b, c, rfl⟩ := hm.links.bwd hl
  refine Spec.of_ok fun p hp => ?_
  unfold Link.enteringFn at hp
  dsimp only at hp
  have hm1 : SRel (fun _ v v' => VehSame v.reset v') s.vehicles (r.applySpeedLimit l.speedLimit 0.0 vs') := by
    refine SRel.modify hm' r.key _ ?_
    rintro v v' - - ⟨x, w, rfl⟩
    unfold Vehicle.applySpeedLimit AccelerationModel.applySpeedLimit
    split
    · exact ⟨_, w, rfl⟩
    · dsimp only
      split <;> exact ⟨_, w, rfl⟩
  have hT1 : Tuned k v (Cause s k v) (r.applySpeedLimit l.speedLimit 0.0 vs') := by
    by_cases hk : k = r.key
    · subst hk
      have := hsee.veh
      rw [hv] at this; cases this
      exact hT.limitAhead fun a h => .limit (List.mem_of_getElem? hsee.route) gl h
    · exact hT.other hk
  split at hp
  · rw [M_pure_ok] at hp; subst hp; exact ⟨hm1, hT1⟩
  · rename_i j js hvs
    rw [M_bind_ok] at hp
    obtain ⟨ld, hld, hp⟩ := hp
    rw [M_pure_ok] at hp; subst hp
    rw [getVeh_ok] at hld
    obtain ⟨w, hw, hsame'⟩ := hm1.bwd hld
    constructor
    · refine SRel.modify hm1 r.key _ ?_
      rintro v v' - - ⟨x, w, rfl⟩
      exact ⟨_, w, rfl⟩
    · by_cases hk : k = r.key
      · subst hk
        have := hsee.veh
        rw [hv] at this; cases this
        obtain ⟨i, ei⟩ : ∃ i, r.routeIdx = i + 1 := ⟨r.routeIdx - 1, by omega⟩
        rw [ei] at hsee
        refine hT1.cap (.follow (.last hsee gl hvs hw)) fun _ _ => ?_
        obtain ⟨x, y, rfl⟩ := hsame'
        rfl
      · exact hT1.other hk

theorem obstacle_caused (hs : SimInv strict s) (hv : s.vehicles.get? k = some v) {links : LinkSet F} (hm : Meanwhile s ⟨links, vs⟩)
    {lk j : Key} {l l0 : Link F} {w : Vehicle F} {g : LinkGroup F} {ps : List (LinkProjection F)} {p : LinkProjection F} {o : Obstacle F}
    (hl : s.links.get? lk = some l) (hj : j ∈ l.vehicles) (hw : s.vehicles.get? j = some w) (hg : l.group = some g)
    (hps : g.projectionsFromLink lk = .ok ps) (hp : p ∈ ps) (ho : w.project p = .ok o) (hl0 : links.get? p.dst = some l0)
    {r : RelVeh F} (hr : Visited ⟨links, vs⟩ p.dst o.pos r) {vs' : VehicleSet F} (hT : Tuned k v (Cause s k v) vs') :
    Spec (Link.obstacleFn l0 o r vs') (fun _ => True) fun q => Tuned k v (Cause s k v) q.1 := by
  obtain ⟨u, hsee, hsame⟩ := hm.sees hs hr
  obtain ⟨l0, gl, b, c, rfl⟩ := hm.links.bwd hl0
  refine Spec.of_ok fun q hq => ?_
  unfold Link.obstacleFn at hq
  rw [M_bind_ok] at hq
  obtain ⟨res, hres, hq⟩ := hq
  rw [hsame.canPass] at hres
  cases res with
  | pass => rw [M_pure_ok] at hq; subst hq; exact hT
  | follow pos vel =>
    rw [M_pure_ok] at hq; subst hq
    by_cases hk : k = r.key
    · subst hk
      have := hsee.veh
      rw [hv] at this; cases this
      exact hT.cap (.follow (.lane hl hj hw hg hps hp ho gl hsee hres)) fun _ _ => rfl
    · exact hT.other hk

theorem followObstacle_caused (hs : SimInv strict s) (hv : s.vehicles.get? k = some v) {links : LinkSet F} (hm : Meanwhile s ⟨links, vs⟩)
    {lk j : Key} {l l0 : Link F} {w : Vehicle F} {g : LinkGroup F} {ps : List (LinkProjection F)} {p : LinkProjection F} {o : Obstacle F}
    (hl : s.links.get? lk = some l) (hj : j ∈ l.vehicles) (hw : s.vehicles.get? j = some w) (hg : l.group = some g)
    (hps : g.projectionsFromLink lk = .ok ps) (hp : p ∈ ps) (ho : w.project p = .ok o) (hl0 : links.get? p.dst = some l0)
    {skip : Nat} {q : VehicleSet F × Nat} (hT : Tuned k v (Cause s k v) vs) (h : Link.followObstacle links l0 o (vs, skip) = .ok q) :
    Tuned k v (Cause s k v) q.1 := by
  have fin : ∀ {skip : Nat} {vs' : VehicleSet F}, Link.processVehicles ⟨links, vs⟩ (Link.obstacleFn l0 o) Env.fuel l0 (0, l0.id) o.pos skip vs = .ok vs' →
      Tuned k v (Cause s k v) vs' := by
    intro skip vs' h
    rw [hm.ok.ids _ _ hl0] at h
    exact (processVehicles_spec (E := fun _ => True) (I := fun vs' => Tuned k v (Cause s k v) vs') hm.ok trivial
      (fun r u hr hu => obstacle_caused hs hv hm hl hj hw hg hps hp ho hl0 hr hu) _ l0 0 p.dst o.pos skip vs hl0 .here hT).ok h
  unfold Link.followObstacle at h
  rw [M_bind_ok] at h
  obtain ⟨res, -, h⟩ := h
  cases res with
  | none =>
    replace h : (Link.processVehicles ⟨links, vs⟩ (Link.obstacleFn l0 o) Env.fuel l0 (0, l0.id) o.pos l0.vehicles.length vs >>=
      fun vs' => pure (vs', l0.vehicles.length)) = .ok q := h
    rw [M_bind_ok] at h
    obtain ⟨vs', h, h'⟩ := h
    rw [M_pure_ok] at h'; subst h'
    exact fin h
  | some cnt =>
    replace h : (Link.processVehicles ⟨links, vs⟩ (Link.obstacleFn l0 o) Env.fuel l0 (0, l0.id) o.pos (skip + cnt) vs >>=
      fun vs' => pure (vs', skip + cnt)) = .ok q := h
    rw [M_bind_ok] at h
    obtain ⟨vs', h, h'⟩ := h
    rw [M_pure_ok] at h'; subst h'
    exact fin h

theorem followObstacles_caused (hs : SimInv strict s) (hv : s.vehicles.get? k = some v) {links : LinkSet F}
    {lk : Key} {l l0 : Link F} {g : LinkGroup F} {ps : List (LinkProjection F)} {p : LinkProjection F}
    (hl : s.links.get? lk = some l) (hg : l.group = some g)
    (hps : g.projectionsFromLink lk = .ok ps) (hp : p ∈ ps) (hl0 : links.get? p.dst = some l0) (hc : l0.curve.segments ≠ []) :
    ∀ (ks : List Key) {vs : VehicleSet F} {skip : Nat} {q : VehicleSet F × Nat}, (∀ j ∈ ks, j ∈ l.vehicles) → Meanwhile s ⟨links, vs⟩ →
    Tuned k v (Cause s k v) vs → Link.followObstacles links p l0 ks (vs, skip) = .ok q →
    Meanwhile s ⟨links, q.1⟩ ∧ Tuned k v (Cause s k v) q.1
  | [], vs, skip, q, _, hm, hT, h => by
    unfold Link.followObstacles at h
    rw [M_pure_ok] at h; subst h; exact ⟨hm, hT⟩
  | j :: ks, vs, skip, q, hks, hm, hT, h => by
    unfold Link.followObstacles at h
    simp only [M_bind_ok, getVeh_ok] at h
    obtain ⟨w', hw', o, ho, q1, h1, h⟩ := h
    obtain ⟨w, hw, hsame⟩ := hm.vehicles.bwd hw'
    rw [hsame.of_reset.project] at ho
    refine followObstacles_caused hs hv hl hg hps hp hl0 hc ks (vs := q1.1) (skip := q1.2) (fun j hj => hks j (by simp [hj])) (hm.slow ?_)
      (followObstacle_caused hs hv hm hl (hks j (by simp)) hw hg hps hp ho hl0 hT h1) h
    exact (followObstacle_spec (E := fun _ => True) trivial hm.ok hl0 hc o skip).ok h1

theorem linkAcc_caused (hs : SimInv strict s) (hv : s.vehicles.get? k = some v) {links : LinkSet F}
    (hN : NetInv strict links) (hm : Meanwhile s ⟨links, vs⟩) {lk : Key} (hlk : links.contains lk = true) {vs' : VehicleSet F}
    (hT : Tuned k v (Cause s k v) vs) (h : Link.applyAccelerations links vs lk = .ok vs') :
    Meanwhile s ⟨links, vs'⟩ ∧ Tuned k v (Cause s k v) vs' := by
  obtain ⟨l, hl⟩ := get_of_contains hlk
  obtain ⟨vs1, vs2, hw⟩ := linkAccRun hN hm.ok hl h
  obtain ⟨l0, hl0, b, c, rfl⟩ := hm.links.bwd hl
  have h1 : Tuned k v (Cause s k v) vs1 := by
    refine windows_caused hv hl0 (fun hk => ?_) (pre := []) rfl hm.vehicles hT hw.windows
    obtain ⟨w, hw, hwl⟩ := ((hs.mem lk l0 hl0).2 k).1 hk
    rw [hv] at hw; cases hw
    exact List.mem_of_head? hwl
  have hm1 := hm.slow hw.slow1
  have hid : l0.id = lk := (hN.link lk _ hl).id
  subst hid
  have h2 : Tuned k v (Cause s k v) vs2 := by
    exact ((processVehicles_skip (E := fun _ => True) (I := fun u => SRel (fun _ v v' => VehSame v.reset v') s.vehicles u ∧ Tuned k v (Cause s k v) u)
      hm1.ok trivial (fun r u hr hi hu => entering_caused hs hv hm1 hl hr hi hu.1 hu.2) Env.fuel hl ⟨hm1.vehicles, h1⟩).ok hw.entering).2
  have hm2 := hm1.slow hw.slow2
  rcases hw.projs with ⟨-, rfl⟩ | ⟨g, ps, hg, hps, hdst, hp⟩
  · exact ⟨hm2, h2⟩
  · refine (Spec.foldlM (E := fun _ => True) (I := fun u => Meanwhile s ⟨links, u⟩ ∧ Tuned k v (Cause s k v) u)
      (fun u hu p hpm => Spec.of_ok fun u' hu' => ?_) ⟨hm2, h2⟩).ok hp
    unfold Link.applyProjection at hu'
    simp only [M_bind_ok, getLink_ok] at hu'
    obtain ⟨other, hother, ⟨q1, q2⟩, hq, hu'⟩ := hu'
    rw [M_pure_ok] at hu'; subst hu'
    exact followObstacles_caused hs hv hl0 hg hps hpm hother (hN.link _ _ hother).segs _ (fun j hj => List.mem_reverse.1 hj) hu.1 hu.2 hq

/-- A vehicle found near the conflict point. -/
def NearRegion (n : Net F) (d : ConflictPointLink F) (r : RelVeh F) : Prop :=
  Visited n d.linkId d.minPos r ∧ r.posRear < d.maxPos - d.minPos

omit [Env] in
theorem NearRegion.linkId {n : Net F} {d : ConflictPointLink F} {r : RelVeh F} (h : NearRegion n d r) : r.linkId 0 = some d.linkId := by
  obtain ⟨-, -, -, -, -, st, h, -⟩ := h.1.place
  unfold RelVeh.linkId
  rw [h]; rfl

omit [Env] in
theorem NearRegion.heads (hs : SimInv strict s) {n : Net F} (hm : Meanwhile s n) {d : ConflictPointLink F} {r : RelVeh F} (h : NearRegion n d r) :
    ∃ u, Heads s d r.key u r.pos ∧ VehSame u r.vehicle := by
  obtain ⟨u, h1, h2⟩ := hm.sees hs h.1
  refine ⟨u, ⟨_, h1, ?_⟩, h2⟩
  obtain ⟨a, w, e⟩ := h2
  have := h.2
  unfold RelVeh.posRear at this
  rw [e] at this
  exact this

theorem conflict_windows_caused (hs : SimInv strict s) (hv : s.vehicles.get? k = some v) {n : Net F} (hm : Meanwhile s n) {c : ConflictPoint F}
    (hc : c ∈ s.conflicts) : ∀ {buf : List (RelVeh F)} {vs : VehicleSet F}, buf.IsChain Ahead →
    (∀ r ∈ buf, NearRegion n c.link0 r ∨ NearRegion n c.link1 r) → Tuned k v (Cause s k v) vs →
    Tuned k v (Cause s k v) (ConflictPoint.applyWindows c.sameDir buf vs)
  | [], vs, _, _, hT => hT
  | [_], vs, _, _, hT => hT
  | a :: b :: rest, vs, hch, hf, hT => by
    unfold ConflictPoint.applyWindows
    refine conflict_windows_caused hs hv hm hc (List.IsChain.of_cons hch) (fun r hr => hf r (by simp [hr])) ?_
    by_cases hk : k = b.key
    swap
    · split
      · split
        · exact hT.other hk
        · exact hT.other hk
      · exact hT
    split
    · rename_i hne
      obtain ⟨da, db, hd, fa, fb⟩ : ∃ da db, (da = c.link0 ∧ db = c.link1 ∨ da = c.link1 ∧ db = c.link0) ∧ NearRegion n da a ∧ NearRegion n db b := by
        rcases hf a (by simp) with fa | fa <;> rcases hf b (by simp) with fb | fb
        · exact absurd (fa.linkId.trans fb.linkId.symm) hne
        · exact ⟨_, _, .inl ⟨rfl, rfl⟩, fa, fb⟩
        · exact ⟨_, _, .inr ⟨rfl, rfl⟩, fa, fb⟩
        · exact absurd (fa.linkId.trans fb.linkId.symm) hne
      obtain ⟨u, ha, hu⟩ := fa.heads hs hm
      obtain ⟨w, hb, hw⟩ := fb.heads hs hm
      have : w = v := by
        obtain ⟨_, h, -⟩ := hb
        have := h.veh
        rw [← hk, hv] at this
        cases this; rfl
      subst this
      rw [← hk] at hb
      have hord : w.posFront - b.pos ≤ u.posFront - a.pos ∨ ¬ u.posFront - a.pos ≤ w.posFront - b.pos := by
        have := (List.isChain_cons_cons.1 hch).1
        obtain ⟨x, y, e⟩ := hu
        obtain ⟨x', y', e'⟩ := hw
        unfold Ahead RelVeh.posFront at this
        rw [e, e'] at this
        exact this
      have hrear : a.posRear = u.posRear - a.pos := by
        obtain ⟨x, y, e⟩ := hu
        unfold RelVeh.posRear
        rw [e]; rfl
      obtain ⟨x, y, eu⟩ := hu
      split
      · rename_i hsd
        rw [Bool.and_eq_true, decide_eq_true_eq, hrear] at hsd
        have hcause := Cause.follow (Hindrance.merge hc hd ha hb hord hsd.1 hsd.2)
        unfold RelVeh.followObstacle
        rw [← hk]
        refine hT.cap hcause fun _ _ => ?_
        rw [eu]; rfl
      · rename_i hsd
        rw [Bool.and_eq_true, decide_eq_true_eq, hrear] at hsd
        have hcause := Cause.follow (Hindrance.region hc hd ha hb hord hsd)
        unfold RelVeh.stopAtLine
        rw [← hk]
        exact hT.cap hcause fun _ _ => rfl
    · exact hT

theorem conflict_caused (hs : SimInv strict s) (hv : s.vehicles.get? k = some v) {links : LinkSet F}
    (hm : Meanwhile s ⟨links, vs⟩) {c : ConflictPoint F} (hc : c ∈ s.conflicts) (h0 : links.contains c.link0.linkId = true)
    (h1 : links.contains c.link1.linkId = true) {vs' : VehicleSet F} (hT : Tuned k v (Cause s k v) vs) (h : c.applyAccelerations links vs = .ok vs') :
    Meanwhile s ⟨links, vs'⟩ ∧ Tuned k v (Cause s k v) vs' := by
  unfold ConflictPoint.applyAccelerations at h
  rw [M_bind_ok] at h
  obtain ⟨b0, hb0, h⟩ := h
  obtain ⟨n0, e0, hn0⟩ := (findVehicles_spec (E := fun _ => True) trivial hm.ok c.link0 h0 []).ok hb0
  rw [List.nil_append] at e0
  subst e0
  split at h
  · rw [M_pure_ok] at h; subst h; exact ⟨hm, hT⟩
  · rw [M_bind_ok] at h
    obtain ⟨b1, hb1, h⟩ := h
    obtain ⟨n1, rfl, hn1⟩ := (findVehicles_spec (E := fun _ => True) trivial hm.ok c.link1 h1 _).ok hb1
    split at h
    · rw [M_pure_ok] at h; subst h; exact ⟨hm, hT⟩
    · rw [M_bind_ok] at h
      obtain ⟨b, hb, h⟩ := h
      rw [M_pure_ok] at h; subst h
      unfold sortBuffer at hb
      split at hb
      · cases hb
      · rw [M_pure_ok] at hb; subst hb
        refine ⟨hm.slow (applyWindows_slow c.sameDir _ _), conflict_windows_caused hs hv hm hc sortDesc_chain (fun r hr => ?_) hT⟩
        rw [sortDesc_mem, List.mem_append] at hr
        exact hr.imp (hn0 r) (hn1 r)

/-- The recomputation of accelerations. -/
theorem AccRun.caused {s' : Sim F} (hs : SimInv strict s) {n0 n1 : Net F} {vs : VehicleSet F} (hr : AccRun s n0 n1 vs s')
    (hv : s.vehicles.get? k = some v) :
    (∃ v', s'.vehicles.get? k = some v' ∧ v'.acc.acc = -6.0 ∧ k ∈ s.frozen) ∨ k ∉ s.frozen ∧ Tuned k v (Cause s k v) s'.vehicles := by
  have hok0 := hr.prep.netOK hs.mid
  have hN0 : NetInv strict n0.links := hs.net.frame hr.prep.frame
  have hf1 : Frame n0.links n1.links := SRel.mono hr.stop.links fun _ _ _ => LinkSame.frame
  have hm0 : Meanwhile s n0 := by
    refine ⟨hok0, hr.prep.links.mono ?_, hr.prep.vehicles.mono ?_⟩
    · rintro k l l' ⟨b, rfl, -⟩; exact ⟨b, _, rfl⟩
    · rintro k v v' rfl; exact ⟨_, _, rfl⟩
  have hmid : ∀ n, NetAcc (Decided n0) n0 n → Meanwhile s n := by
    intro n hn
    refine ⟨hok0.same hn.same, hm0.links.trans hn.links ?_, hm0.vehicles.trans hn.vehicles fun _ _ _ _ a b => a.trans b.same⟩
    rintro k l l' l'' ⟨b, c, rfl⟩ ⟨c', rfl, -⟩
    exact ⟨b, c', rfl⟩
  have hT0 : Tuned k v (Cause s k v) n0.vehicles := by
    obtain ⟨u, hu, rfl⟩ := hr.prep.vehicles.fwd k v hv
    exact ⟨[], v.willQueueOrEnter, hu, by simp⟩
  have hT1 : Tuned k v (Cause s k v) n1.vehicles := by
    refine ((Spec.foldlM (E := fun _ => True) (I := fun n => NetAcc (Decided n0) n0 n ∧ Tuned k v (Cause s k v) n.vehicles)
      (fun n hn j hj => ?_) ⟨NetAcc.rfl', hT0⟩).ok hr.runStop).2
    obtain ⟨hn, hT⟩ := hn
    obtain ⟨l, hl⟩ := SlotMap.mem_keys.1 hj
    have hj' : n.links.contains j = true := by rw [hn.links.contains]; exact contains_of_get hl
    have hm := hmid n hn
    have h1 := applyStoplines_spec (E := fun _ => True) hm.ok hn.same (fun k l' hl' => by
      obtain ⟨l, hl, c, rfl, hc⟩ := hn.links.bwd hl'
      exact hc (hN0.link k l hl).last) trivial hj'
    have h2 : Spec (Link.applyStoplines n j) (fun _ => True) fun n' => Tuned k v (Cause s k v) n'.vehicles := by
      unfold Link.applyStoplines
      refine (getLink_spec hj').bind fun l hl => ?_
      rw [hm.ok.ids j l hl]
      exact processVehicles_spec (I := fun n' : Net F => Tuned k v (Cause s k v) n'.vehicles) hm.ok trivial
        (fun r u hr hu => stopline_caused hs hv hm hl hr hu) _ l 0 j l.length 0 n hl .here hT
    exact (h1.and h2).mono (fun n' h => ⟨hn.trans h.1, h.2⟩) fun _ _ => trivial
  have hm1 := hmid n1 hr.stop
  have hN1 := hN0.frame hf1
  have hrun := hr.runAcc
  simp only [Sim.applyLinkAccelerations, M_bind_ok] at hrun
  obtain ⟨vs1, hrun1, hrun2⟩ := hrun
  have h1 : Meanwhile s ⟨n1.links, vs1⟩ ∧ Tuned k v (Cause s k v) vs1 := by
    refine (Spec.foldlM (E := fun _ => True) (I := fun u => Meanwhile s ⟨n1.links, u⟩ ∧ Tuned k v (Cause s k v) u)
      (fun u hu j hj => Spec.of_ok fun u' hu' => ?_) ⟨hm1, hT1⟩).ok hrun1
    obtain ⟨l, hl⟩ := SlotMap.mem_keys.1 hj
    exact linkAcc_caused hs hv hN1 hu.1 (contains_of_get hl) hu.2 hu'
  have h2 : Meanwhile s ⟨n1.links, vs⟩ ∧ Tuned k v (Cause s k v) vs := by
    refine (Spec.foldlM (E := fun _ => True) (I := fun u => Meanwhile s ⟨n1.links, u⟩ ∧ Tuned k v (Cause s k v) u)
      (fun u hu c hc => Spec.of_ok fun u' hu' => ?_) h1).ok hrun2
    have := hs.conflicts c hc
    rw [← hm1.links.contains, ← hm1.links.contains] at this
    exact conflict_caused hs hv hu.1 hc this.1 this.2 hu.2 hu'
  obtain ⟨as, w, g1, g2⟩ := h2.2
  obtain ⟨u, hu, eu⟩ := (emergency_foldl vs s.frozen).fwd k _ g1
  by_cases hz : k ∈ s.frozen
  · rw [if_pos hz] at eu
    refine .inl ⟨u, by rw [hr.eq]; exact hu, by rw [eu]; rfl, hz⟩
  · rw [if_neg hz] at eu
    subst eu
    refine .inr ⟨hz, as, w, ?_, g2⟩
    rw [hr.eq]; exact hu

end

/-- **C83** When accelerations are due, a vehicle is slowed down only by the speed limits of the links of its route and by what is ahead
of it: its acceleration is its greatest acceleration or the least of some that these ask for.  A frozen vehicle brakes fully. -/
theorem C83_causes [Env] [LawfulDijkstra] {s s' s1 : Sim F} {dt : F} (h : Reach strict s) (hst : s.step dt = .ok s')
    (hre : ¬ s.accUpdate < 0.1) (hlanes : s.calculateLaneChanges = .ok s1) {v1 v' : Vehicle F}
    (hv1 : s1.getVehicle k = .ok v1) (hv' : s'.getVehicle k = .ok v') :
    k ∈ s.frozen ∧ v'.acc.acc = -6.0 ∨
    k ∉ s.frozen ∧ ∃ as : List F, v'.acc.acc = as.foldl fmin v1.acc.maxAcc ∧ ∀ a ∈ as, Cause s1 k v1 a := by
  obtain ⟨s1', s2, s3, s4, s5, s6, hr⟩ := (step_spec h.inv dt).ok hst
  rw [hr.run1] at hlanes; cases hlanes
  obtain ⟨v, hv⟩ := hr.back (getVeh_ok.1 hv')
  obtain ⟨v1', v2, v4, ht⟩ := hr.trace hv
  have g1 := ht.get1
  rw [getVeh_ok.1 hv1] at g1; cases g1
  obtain ⟨-, ea, -⟩ := ht.vel (getVeh_ok.1 hv')
  rw [ea]
  rcases ht.acc with ⟨hlt, -⟩ | ⟨-, n0, n1, vs, har, -⟩
  · rw [hr.clocks.1] at hlt; exact absurd hlt hre
  have g2 := ht.get2
  rw [hr.vehicles3] at g2
  have hz : s1.frozen = s.frozen := by
    rcases hr.lanes with ⟨-, e⟩ | ⟨-, vs, lcs, e⟩
    · rw [e]
    · rw [e.eq]
  rcases har.caused hr.inv1 (getVeh_ok.1 hv1) with ⟨v3, h3, e, hf⟩ | ⟨hf, as, w, h3, e⟩
  · rw [g2] at h3; cases h3
    exact .inl ⟨hz ▸ hf, e⟩
  · rw [g2] at h3; cases h3
    exact .inr ⟨hz ▸ hf, as, rfl, e⟩

end

/-! ## In exact arithmetic -/

theorem lt_foldl_min {x y : ℝ} {as : List ℝ} (hx : y < x) (h : ∀ a ∈ as, y < a) : y < as.foldl fmin x := by
  induction as generalizing x with
  | nil => exact hx
  | cons a as ih => exact ih (lt_min hx (h a (by simp))) fun b hb => h b (by simp [hb])

/-- **C83** (exact arithmetic) When accelerations are due, a vehicle that stands starts to move, unless it is frozen or there is something
that it has to follow at most 2 m ahead of it. -/
theorem C83_starts [Env] [LawfulDijkstra] {strict : Prop} {s s' s1 : Sim ℝ} {dt : ℝ} {k : Key} (h : Reach strict s) (hst : s.step dt = .ok s')
    (hdt : 0 < dt) (hre : ¬ s.accUpdate < 0.1) (hlanes : s.calculateLaneChanges = .ok s1) {v1 v' : Vehicle ℝ}
    (hv1 : s1.getVehicle k = .ok v1) (hv' : s'.getVehicle k = .ok v') (hmax : 0 < v1.acc.maxAcc) (hdec : 0 < v1.acc.comfDec)
    (hstand : v1.vel = 0) :
    0 < v'.vel ∨ k ∈ s.frozen ∨ ∃ gap vel, Hindrance s1 k v1 gap vel ∧ gap ≤ 2 := by
  rcases C83_causes h hst hre hlanes hv1 hv' with ⟨hf, -⟩ | ⟨-, as, e, hc⟩
  · exact .inr (.inl hf)
  by_cases hb : ∃ gap vel, Hindrance s1 k v1 gap vel ∧ gap ≤ 2
  · exact .inr (.inr hb)
  left
  have hacc : 0 < v'.acc.acc := by
    rw [e]
    refine lt_foldl_min hmax fun a ha => ?_
    cases hc a ha with
    | limit _ _ hl =>
      cases hl with
      | now =>
        rw [hstand, zero_div]
        simp only [pow4]
        norm_num
        exact hmax
      | ahead d hd hle =>
        exfalso
        have hd : 0 < d := by norm_num at hd; exact hd
        rw [hstand] at hle
        simp only [sq] at hle
        have hn : ∀ x : ℝ, 0 ≤ (x * x - 0 * 0) / (2.0 * d) := fun x =>
          div_nonneg (by rw [mul_zero, sub_zero]; exact mul_self_nonneg _) (by norm_num; exact hd.le)
        linarith [(hn _).trans hle]
    | follow hh =>
      rename_i gap vel
      have hgap : 2 < gap := by
        by_contra hle
        exact hb ⟨_, _, hh, not_lt.1 hle⟩
      rw [hstand, idm_far _ hgap, zero_mul, zero_mul, zero_mul, add_zero, add_zero]
      refine mul_pos hmax ?_
      have h1 : 2 / gap < 1 := by rw [div_lt_one (by linarith)]; exact hgap
      have h2 : 0 < 2 / gap := by positivity
      nlinarith
  obtain ⟨v, hv⟩ : ∃ v, s.getVehicle k = .ok v := by
    obtain ⟨s1', s2, s3, s4, s5, s6, hr⟩ := (step_spec h.inv dt).ok hst
    obtain ⟨v, hv⟩ := hr.back (getVeh_ok.1 hv')
    exact ⟨v, getVeh_ok.2 hv⟩
  rw [C20_motion h hst hv hv']
  refine lt_max_of_lt_left ?_
  have h1 := C20_speed h hv
  have h2 : 0 < v'.acc.getAcc := lt_max_of_lt_left hacc
  have := mul_pos hdt h2
  linarith

/-- A vehicle stands 12 m behind another that drives at 8 m/s. -/
example : ∃ (_ : Env) (_ : LawfulDijkstra) (s s' s1 : Sim ℝ) (v1 v' : Vehicle ℝ) (k : Key), Reach True s ∧ s.step 0.1 = .ok s' ∧
    ¬ s.accUpdate < 0.1 ∧ s.calculateLaneChanges = .ok s1 ∧ s1.getVehicle k = .ok v1 ∧ s'.getVehicle k = .ok v' ∧
    0 < v1.acc.maxAcc ∧ 0 < v1.acc.comfDec ∧ v1.vel = 0 ∧ ∃ gap vel, Hindrance s1 k v1 gap vel ∧ 0 < vel := by
  obtain ⟨N, s, ⟨l, v, w, hb⟩, hp, hn, h⟩ := @program_runs (Lone.env 0) (Lone.lawful 0) _ (Search.full_ends _) _
    (Pair.leads (d := 4) (by norm_num) (by norm_num))
  have hr : @Reach ℝ _ (@Env.withFuel (Lone.env 0) N) True s := (h N le_rfl).1
  obtain ⟨N1, s', h1⟩ := @C69_calls (@Env.withFuel (Lone.env 0) N) (@LawfulDijkstra.withFuel (Lone.env 0) (Lone.lawful 0) N) s hr
    (Search.full_ends _) hp hn (.step 0.1) trivial trivial
  let env : Env := @Env.withFuel (Lone.env 0) (max N N1)
  have hlaw : LawfulDijkstra := @LawfulDijkstra.withFuel (Lone.env 0) (Lone.lawful 0) (max N N1)
  replace hr : Reach True s := (h _ (le_max_left _ _)).1
  replace h1 : s.step 0.1 = .ok s' := h1 _ (le_max_right _ _)
  obtain ⟨fr, n, sq, u, es⟩ := hb.eq
  have gl : s.getLinkRef ⟨0, 1⟩ = .ok l := by rw [es]; rfl
  have gv : s.getVehicle ⟨0, 1⟩ = .ok v := by rw [es]; rfl
  have gw : s.getVehicle ⟨1, 1⟩ = .ok w := by rw [es]; rfl
  have hc : ¬ s.accUpdate < 0.1 := by
    rw [es]; show ¬ (4 : ℝ) < 0.1; norm_num
  obtain ⟨s1, hs1, e1, e2⟩ := Pair.lanes hb
  have gv1 : s1.getVehicle ⟨0, 1⟩ = .ok v := by rw [← gv]; unfold Sim.getVehicle; rw [e2]
  have gw1 : s1.getVehicle ⟨1, 1⟩ = .ok w := by rw [← gw]; unfold Sim.getVehicle; rw [e2]
  have gl1 : s1.getLinkRef ⟨0, 1⟩ = .ok l := by rw [← gl]; unfold Sim.getLinkRef; rw [e1]
  have lw : w.linkId = some ⟨0, 1⟩ := by rw [Vehicle.linkId, hb.routes.2]; rfl
  obtain ⟨w', gw', -⟩ := step_stays hr h1 hc hs1 gw gw1 lw lw gl (by norm_num) (by rw [hb.acc.2]; norm_num)
    (by rw [hb.acc.2, hb.pos.2, hb.vel.2]; have := hb.len; norm_num; linarith)
  refine ⟨env, hlaw, s, s', s1, w, w', ⟨1, 1⟩, hr, h1, hc, hs1, gw1, gw', by rw [hb.acc.2]; norm_num, by rw [hb.acc.2]; norm_num, hb.vel.2,
    _, _, .next (getLink_ok.1 gl1) ⟨[], [], by rw [hb.vehs]; rfl⟩ (getVeh_ok.1 gv1), ?_⟩
  rw [hb.vel.1]; norm_num

end TrafficSim
