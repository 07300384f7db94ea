import Verif.Lemmas.Origin

/-! # Admissions and queueing in a step -/

namespace TrafficSim

section
variable {F : Type} [Flt F] {strict : Prop} {s s' : Sim F}

/-- Adding the lengths of the links on the way to the length of a link changes it; this holds in exact
arithmetic if all lengths are positive. -/
def LongLinks (links : LinkSet F) : Prop :=
  ∀ k0 l0 i a p la, links.get? k0 = some l0 → Upstream links k0 l0.length (i + 1) a p → links.get? a = some la →
    la.length < p

theorem Upstream.back {links links' : LinkSet F} (h : Frame links links') {k0 : Key} {pos0 : F} {i : Nat} {k : Key} {pos : F}
    (hu : Upstream links' k0 pos0 i k pos) : Upstream links k0 pos0 i k pos := by
  induction hu with
  | here => exact .here
  | @up i k j pos l l' _ hl hj hl' ih =>
    obtain ⟨m, hm, e⟩ := h.bwd hl
    obtain ⟨m', hm', e'⟩ := h.bwd hl'
    have : l'.length = m'.length := by unfold Link.length; rw [e'.curve]
    rw [this]
    exact .up ih hm (by rw [← e.linksIn]; exact hj) hm'

theorem LongLinks.frame {links links' : LinkSet F} (h : LongLinks links) (hf : Frame links links') : LongLinks links' := by
  intro k0 l0 i a p la h0 hu ha
  obtain ⟨m0, hm0, e0⟩ := hf.bwd h0
  obtain ⟨m, hm, e⟩ := hf.bwd ha
  have e0' : l0.length = m0.length := by unfold Link.length; rw [e0.curve]
  have e' : la.length = m.length := by unfold Link.length; rw [e.curve]
  rw [e0'] at hu
  rw [e']
  exact h k0 m0 i a p m hm0 (hu.back hf) hm

/-- With positive lengths the condition holds in exact arithmetic. -/
theorem longLinks_real {links : LinkSet ℝ} (h : ∀ k l, links.get? k = some l → 0 < l.length) : LongLinks links := by
  have key : ∀ k0 l0 i a p, links.get? k0 = some l0 → Upstream links k0 l0.length i a p → 0 < p := by
    intro k0 l0 i a p h0 hu
    induction hu with
    | here => exact h k0 l0 h0
    | up _ _ _ hl' ih => exact add_pos ih (h _ _ hl')
  intro k0 l0 i a p la h0 hu ha
  cases hu with
  | up hu hl hj hl' =>
    rw [ha] at hl'; cases hl'
    have := key k0 l0 _ _ _ h0 hu
    exact lt_add_of_pos_left _ this

/-- The line that the vehicle reaches next without having been admitted to the link behind it: it is at
position `p`, seen from the start of the vehicle's link, at the end of the link `lk`. -/
structure NextLine (links : LinkSet F) (v : Vehicle F) (lk : Key) (p : F) (j : Key) (next : Link F) : Prop where
  ex : ∃ i l a, i + 1 = v.entered ∧ links.get? lk = some l ∧ Upstream links lk l.length i a p ∧ v.route[i]? = some lk ∧
    v.route.head? = some a
  route : v.route[v.entered]? = some j
  link : links.get? j = some next

/-- The reasons for admitting the vehicle `v` to the next link (2) or letting it queue for it (1). -/
inductive Admission [Env] (links : LinkSet F) (vs : VehicleSet F) (k : Key) (v : Vehicle F) : Nat → Prop
  | open_ {lk p j next} : NextLine links v lk p j next → next.control = .open_ → v.canStop (p + -5.0) = false →
      Admission links vs k v 2
  | yield_ {lk p j next d m pr f} {n : Net F} {l : Link F} {r : RelVeh F} {last last' : Nat} : NextLine links v lk p j next →
      next.control = .yield_ d m pr → v.queued = some f →
      SRel (fun _ l l' => ∃ b c, l' = { l with active := b, lastConflict := c }) links n.links →
      SRel (fun _ v v' => VehSame v.reset v') vs n.vehicles →
      links.get? lk = some l → r.key = k → n.vehicles.get? k = some r.vehicle → r.routeIdx + 1 = v.entered → r.pos = p →
      last ≤ next.conflicts.length →
      Link.canEnter n next last (r.offset l.length) f pr = .ok (true, last') → Admission links vs k v 2
  | queue {lk p j next d m pr} : NextLine links v lk p j next → next.control = .yield_ d m pr → v.queued = none →
      -d < v.posFront - p → (m = true → v.vel < 0.1) → Admission links vs k v 1

omit [Flt F] in
theorem getRoute_link {v : Vehicle F} {i : Nat} {j : Key} {st : RouteState} (h : v.getRoute i = some (j, st)) :
    v.route[i]? = some j ∧ (st = .entered → i < v.entered) ∧ (v.entered = i → st = match v.queued with
      | some f => .queuedAt f
      | none => .notEntered) := by
  unfold Vehicle.getRoute at h
  rw [Option.map_eq_some_iff] at h
  obtain ⟨j', h1, h2⟩ := h
  dsimp only at h2
  obtain ⟨rfl, rfl⟩ := Prod.mk.inj h2
  refine ⟨h1, fun h => ?_, fun h => ?_⟩
  · by_contra hn
    rw [if_neg hn] at h
    split at h
    · split at h <;> cases h
    · cases h
  · rw [if_neg (by omega), if_pos h]; cases v.queued <;> rfl

theorem Wants.index {n : Net F} (hL : LongLinks n.links) {lk : Key} {l : Link F} {r : RelVeh F} {j : Key} {st : RouteState}
    {next : Link F} (h : Wants n lk l r j st next) (he : 1 ≤ r.vehicle.entered) :
    r.routeIdx + 1 = r.vehicle.entered := by
  obtain ⟨-, h2⟩ := getRoute_some (v := r.vehicle) h.route
  have h3 := h2 h.out
  obtain ⟨a, la, hu, ha, -, st', hst, hor⟩ := h.seen.place
  unfold RelVeh.getRoute at hst
  rw [Nat.add_zero] at hst
  cases hi : r.routeIdx with
  | zero => omega
  | succ i =>
    rcases hor with rfl | hor
    · have := (getRoute_link hst).2.1 rfl
      omega
    · rw [hi] at hu
      exact absurd (hL lk l i a r.pos la h.here hu ha) hor

omit [Flt F] in
theorem LinkSame.both {l l' l'' : Link F} {b : Bool} (h : l' = { l with active := b }) (h' : LinkSame l' l'') :
    ∃ b c, l'' = { l with active := b, lastConflict := c } := by
  obtain ⟨c, rfl, -⟩ := h'
  exact ⟨b, c, by rw [h]⟩

theorem canEnterLoop_same [Env] (n : Net F) (l : Link F) (b : Bool) (c : Nat) (r : RelVeh F) (q : Nat) (p : Int) :
    ∀ is : List Nat, Link.canEnterLoop n { l with active := b, lastConflict := c } r q p is = Link.canEnterLoop n l r q p is
  | [] => rfl
  | i :: is => by
    unfold Link.canEnterLoop
    simp only [canEnterLoop_same n l b c r q p is]

theorem canEnter_same [Env] (n : Net F) (l : Link F) (b : Bool) (c last : Nat) (r : RelVeh F) (q : Nat) (p : Int) :
    Link.canEnter n { l with active := b, lastConflict := c } last r q p = Link.canEnter n l last r q p := by
  unfold Link.canEnter
  rw [canEnterLoop_same]

/-- The reasons for a decision, in terms of the state before the phase. -/
theorem Decided.admission [Env] {s1 : Sim F} {n0 : Net F} (hs : SimInv strict s1) (hp : Prepared s1 n0)
    (hL : LongLinks s1.links) {k : Key} {w : Nat} (h : Decided n0 k w) {v : Vehicle F} (hv : s1.vehicles.get? k = some v) :
    Admission s1.links s1.vehicles k v w := by
  obtain ⟨n, hn, hd⟩ := h
  have hlinks : SRel (fun _ l l' => ∃ b c, l' = { l with active := b, lastConflict := c }) s1.links n.links := by
    refine hp.links.trans hn.links ?_
    rintro k l l' l'' ⟨b, h, -⟩ h'
    exact LinkSame.both h h'
  have hvs : SRel (fun _ v v' => VehSame v.reset v') s1.vehicles n.vehicles := by
    refine hp.vehicles.trans hn.vehicles ?_
    rintro k v v' v'' rfl h'
    exact h'
  have hfr : Frame s1.links n.links := hp.frame.trans (SRel.mono hn.links fun _ _ _ => LinkSame.frame)
  have hLn := hL.frame hfr
  obtain ⟨v', hv', a, w', hvv⟩ := hvs.fwd k v hv
  have hi := hs.veh k v hv
  -- the line
  have line : ∀ {lk l r j st next}, Wants n lk l r j st next → r.key = k → r.vehicle = v' ∧ r.routeIdx + 1 = v.entered ∧
      (st = match v.queued with | some f => RouteState.queuedAt f | none => .notEntered) ∧ ∃ next0 l0,
        NextLine s1.links v lk r.pos j next0 ∧ s1.links.get? lk = some l0 ∧ l.length = l0.length ∧ ∃ b c, next = { next0 with active := b, lastConflict := c } := by
    intro lk l r j st next W hk
    subst hk
    have hrv : r.vehicle = v' := by
      have := W.seen.veh
      rw [hv'] at this
      exact (Option.some.inj this).symm
    have hent : r.vehicle.entered = v.entered := by rw [hrv, hvv]; rfl
    have hroute : r.vehicle.route = v.route := by rw [hrv, hvv]; rfl
    have hq : r.vehicle.queued = v.queued := by rw [hrv, hvv]; rfl
    have hidx := W.index hLn (by rw [hent]; exact hi.entered)
    obtain ⟨g1, -, g3⟩ := getRoute_link (v := r.vehicle) W.route
    rw [hidx, hroute, hent] at g1
    refine ⟨hrv, hidx.trans hent, ?_, ?_⟩
    · rw [← hq]; exact g3 hidx.symm
    · obtain ⟨next0, hn0, b, c, e⟩ := hlinks.bwd W.next
      obtain ⟨l0, hl0, b', c', e'⟩ := hlinks.bwd W.here
      obtain ⟨x, lx, hu, hx, hmem, st', hst, -⟩ := W.seen.place
      have hst0 := (getRoute_link (v := r.vehicle) hst).1
      rw [Nat.add_zero, hroute] at hst0
      have hlen : l.length = l0.length := by unfold Link.length; rw [e']
      rw [hlen] at hu
      refine ⟨next0, l0, ⟨⟨r.routeIdx, l0, x, hidx.trans hent, hl0, hu.back hfr, hst0, ?_⟩, g1, hn0⟩, hl0, hlen, b, c, e⟩
      -- the vehicle is on the link `x`
      obtain ⟨lx0, hlx0, b2, c2, e2⟩ := hlinks.bwd hx
      obtain ⟨u, hu2, hu3⟩ := ((hs.mem x lx0 hlx0).2 r.key).1 (by rw [e2] at hmem; exact hmem)
      rw [hv] at hu2; cases hu2
      exact hu3
  cases hd with
  | enterOpen W hk hc hst =>
    obtain ⟨hr, h2, h3, next0, l0, hl, -, -, b, c, rfl⟩ := line W hk
    refine .open_ hl hc ?_
    unfold RelVeh.canStop at hst
    rw [hr, hvv] at hst
    exact hst
  | enterYield last last' W hk hc hst hle hce =>
    obtain ⟨hr, h2, h3, next0, l0, hl, hl0, hlen, b, c, rfl⟩ := line W hk
    have hq : ∃ f, v.queued = some f := by
      cases hq : v.queued with
      | none => rw [hq] at h3; rw [hst] at h3; cases h3
      | some f => exact ⟨f, rfl⟩
    obtain ⟨f, hf⟩ := hq
    rw [hf, hst] at h3
    cases h3
    rw [hlen, canEnter_same] at hce
    exact .yield_ (r := _) hl hc hf hlinks hvs hl0 hk (by rw [hr]; exact hv') h2 rfl hle hce
  | queue W hk hc hst hpos hm =>
    obtain ⟨hr, h2, h3, next0, l0, hl, -, -, b, c, rfl⟩ := line W hk
    have hq : v.queued = none := by
      cases hq : v.queued with
      | none => rfl
      | some f => rw [hq, hst] at h3; cases h3
    unfold RelVeh.posFront at hpos
    rw [hr, hvv] at hpos
    refine .queue hl hc hq hpos fun h => ?_
    have := hm h
    rw [hr, hvv] at this
    exact of_decide_eq_true this

/-! ## In a step -/

variable {dt : F} {s1 s2 s3 s4 s5 s6 : Sim F}

theorem StepRun.seq [Env] (h : StepRun strict s dt s1 s2 s3 s4 s5 s6 s') :
    s1.seq = s.seq ∧ s3.seq = s.seq ∧ s'.seq = s4.seq := by
  have e1 : s1.seq = s.seq := by
    rcases h.lanes with ⟨-, rfl⟩ | ⟨-, vs, lcs, h⟩
    · rfl
    · rw [h.eq]
  have e2 : s2.seq = s1.seq := by
    rcases h.acc with ⟨-, rfl⟩ | ⟨-, n0, n1, vs, h⟩
    · rfl
    · rw [h.eq]
  have e3 : s3.seq = s2.seq := by
    obtain ⟨wss, h⟩ := h.lights
    rw [h.eq]
  refine ⟨e1, e3.trans (e2.trans e1), ?_⟩
  rw [h.eq]; dsimp only; rw [h.place.eq]; dsimp only; rw [h.adv.eq]

/-- The motion of a vehicle, in terms of the decision about it. -/
theorem Moved.cases {lo : Nat} {k : Key} {v v' : Vehicle F} (h : Moved dt lo k v v') :
    v'.route = v.route ∧ ((v.willQueueOrEnter = 0 ∧ v'.entered = v.entered ∧ v'.queued = v.queued) ∨
      (v.willQueueOrEnter = 1 ∧ v'.entered = v.entered ∧ ∃ sq, lo < sq ∧ v'.queued = some (v.queued.getD sq)) ∨
      (v.willQueueOrEnter = 2 ∧ v'.entered = v.entered + 1 ∧ v'.queued = none)) := by
  obtain ⟨sq, sq', hi, hlo⟩ := h
  unfold Vehicle.integrate at hi
  rw [M_bind_ok] at hi
  obtain ⟨p, hp, hi⟩ := hi
  rw [M_pure_ok] at hi
  cases hi
  obtain ⟨pos, vel, lc, cnt, hf⟩ := integrateMotion_fields p.1 dt
  rw [hf]
  unfold Vehicle.integrateQueue at hp
  split at hp
  · rename_i hw
    simp only [M_pure_ok] at hp
    subst hp
    exact ⟨rfl, .inl ⟨hw, rfl, rfl⟩⟩
  · rename_i hw
    simp only [M_pure_ok] at hp
    subst hp
    exact ⟨rfl, .inr (.inl ⟨hw, rfl, sq + 1, by omega, rfl⟩)⟩
  · rename_i hw
    simp only [M_pure_ok] at hp
    subst hp
    exact ⟨rfl, .inr (.inr ⟨hw, rfl, rfl⟩)⟩
  · simp at hp

/-- What a step does to the entries of a vehicle. -/
inductive EntryStep [Env] (s1 : Sim F) (k : Key) (v1 v4 : Vehicle F) : Prop
  | keeps : v4.entered = v1.entered → v4.queued = v1.queued → EntryStep s1 k v1 v4
  | queues (sq : Nat) : ¬ s1.accUpdate < accelerationUpdateSec → Admission s1.links s1.vehicles k v1 1 →
      v4.entered = v1.entered → v1.queued = none → v4.queued = some sq → s1.seq < sq → EntryStep s1 k v1 v4
  | enters : ¬ s1.accUpdate < accelerationUpdateSec → Admission s1.links s1.vehicles k v1 2 →
      v4.entered = v1.entered + 1 → v4.queued = none → EntryStep s1 k v1 v4

theorem Accelerated.fields [Env] {k : Key} {v1 v2 : Vehicle F} (h : Accelerated s1 s2 k v1 v2) :
    v2.route = v1.route ∧ v2.entered = v1.entered ∧ v2.queued = v1.queued := by
  rcases h with ⟨-, -, rfl⟩ | ⟨-, n0, n1, vs, hr, ha⟩
  · exact ⟨rfl, rfl, rfl⟩
  · obtain ⟨a, w, rfl, -⟩ := ha.eq
    exact ⟨rfl, rfl, rfl⟩

theorem Trace.entry [Env] (h : StepRun strict s dt s1 s2 s3 s4 s5 s6 s') (hL : LongLinks s.links) {k : Key}
    {v v1 v2 v4 : Vehicle F} (ht : Trace s dt s1 s2 s3 s4 s' k v v1 v2 v4) :
    v4.route = v1.route ∧ EntryStep s1 k v1 v4 := by
  obtain ⟨f1, f2, f3⟩ := ht.acc.fields
  obtain ⟨m1, m2⟩ := ht.move.cases
  have hw0 := (h.inv1.veh k v1 ht.get1).will
  refine ⟨m1.trans f1, ?_⟩
  have hL1 : LongLinks s1.links := hL.frame h.frame1.frame
  rw [f2, f3] at m2
  rcases ht.acc with ⟨-, -, rfl⟩ | ⟨hacc, n0, n1, vs, hr, ha⟩
  · rcases m2 with ⟨-, a, b⟩ | ⟨a, -⟩ | ⟨a, -⟩
    · exact .keeps a b
    · omega
    · omega
  · obtain ⟨a, w, rfl, hd, -⟩ := ha.eq
    dsimp only at m2
    rcases hd with rfl | hd
    · rcases m2 with ⟨-, a, b⟩ | ⟨a, -⟩ | ⟨a, -⟩
      · exact .keeps a b
      · omega
      · omega
    · have hadm := hd.admission h.inv1 hr.prep hL1 ht.get1
      rcases m2 with ⟨-, a, b⟩ | ⟨rfl, a, sq, hsq, b⟩ | ⟨rfl, a, b⟩
      · exact .keeps a b
      · cases hadm with
        | queue hl hc hq h1 h2 =>
          rw [hq] at b
          refine .queues sq hacc (.queue hl hc hq h1 h2) a hq b ?_
          rw [h.seq.1, ← h.seq.2.1]; exact hsq
      · exact .enters hacc hadm a b

end

end TrafficSim
