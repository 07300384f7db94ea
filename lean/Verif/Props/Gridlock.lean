import Verif.Props.Conflict
import Verif.Props.PathChoice
import Verif.Props.Binary
import Verif.Props.Cause
import Verif.Props.BinaryFollow
import Verif.Lemmas.Pinwheel

/-! # C90: vehicles that wait for each other

The claim is that vehicles at crossings do not wait for each other for ever.  It is false of the code: at a conflict point a vehicle waits
for the one that is further ahead, even where that one waits for another vehicle at another conflict point. -/

namespace TrafficSim

section
variable {F : Type} [Flt F] {strict : Prop} {s s' : Sim F} {dt : F} {k : Key} {v v' : Vehicle F}

/-- The acceleration of a vehicle that must stop here, with the maximum `m`. -/
def Brakes (m a : F) : Prop := a = -6.0 ∨ ∃ as : List F, -10.0 * m ∈ as ∧ a = as.foldl fmin m

/-- The vehicle stands, and at a conflict point it waits for a vehicle on the other link.  All links of its route are entered. -/
structure Blocked (s : Sim F) (k : Key) (v : Vehicle F) : Prop where
  vel : v.vel = 0.0
  paths : ∀ p ∈ v.pathfind.paths, p.links = v.route
  entered : v.entered = v.route.length
  on : ∀ a l, v.route.head? = some a → s.links.get? a = some l → ¬ l.length < v.pos
  braked : s.accUpdate < 0.1 → Brakes v.acc.maxAcc v.acc.acc
  behind : ∃ c ∈ s.conflicts, c.link0.linkId ≠ c.link1.linkId ∧ FrontsOrdered (EnteredBy s.vehicles) s.links s.vehicles c ∧
    ∃ a b : RelVeh F, RightBehind (EnteredBy s.vehicles) s.links s.vehicles c a b ∧ b.key = k ∧
      ¬ (c.sameDir = true ∧ 0.0 < a.posRear) ∧ b.pos + 0.0 - v.posFront ≤ 2.0

/-- All vehicles stand and wait, and there is at most one on each link. -/
structure Gridlock (s : Sim F) : Prop where
  single : ∀ lk l, s.links.get? lk = some l → l.vehicles.length ≤ 1
  veh : ∀ k v, s.vehicles.get? k = some v → Blocked s k v

/-- A vehicle that stands and brakes does not move in a step of `dt` seconds. -/
def Rests (dt : F) (v : Vehicle F) : Prop :=
  (∀ a, Brakes v.acc.maxAcc a → fmax (0.0 + dt * fmax a (-6.0)) 0.0 = 0.0) ∧ v.pos + 0.5 * (0.0 + 0.0) * dt = v.pos

/-- What remains of a vehicle that does not move. -/
structure Remains (v v' : Vehicle F) : Prop where
  sees : VehSees v v'
  vel : v'.vel = v.vel
  paths : v'.pathfind = v.pathfind
  maxAcc : v'.acc.maxAcc = v.acc.maxAcc

omit [Flt F] in
theorem single_eq {α : Type} {l l' : List α} (h : l.length ≤ 1) (hn : l'.Nodup) (hm : ∀ x, x ∈ l' ↔ x ∈ l) : l' = l := by
  match l, h with
  | [], _ => exact List.eq_nil_iff_forall_not_mem.2 fun x hx => by simpa using (hm x).1 hx
  | [a], _ =>
    match l', hn with
    | [], _ => exact absurd ((hm a).2 (by simp)) (by simp)
    | [b], _ => have := (hm b).1 (by simp); simp at this; rw [this]
    | b :: c :: l', hn =>
      have h1 := (hm b).1 (by simp)
      have h2 := (hm c).1 (by simp)
      simp at h1 h2
      subst h1 h2
      simp at hn

omit [Flt F] in
/-- Where the vehicles stay on their links, each the only one there, a search sees the same of the links. -/
theorem sees_of_single {links links' : LinkSet F} {vs vs' : VehicleSet F} {R : Vehicle F → Vehicle F → Prop}
    (hR : ∀ v v', R v v' → VehSees v v') (hf : Frame links links') (hm : Member links vs) (hm' : Member links' vs')
    (h1 : ∀ lk l, links.get? lk = some l → l.vehicles.length ≤ 1) (hv : Alike R vs vs') :
    SRel (fun _ => LinkSees) links links' := by
  refine ⟨hf.keys, hf.wf, hf.issued, fun k l hl => ?_⟩
  obtain ⟨l', hl', e⟩ := hf.fwd k l hl
  refine ⟨l', hl', single_eq (h1 k l hl) (hm' k l' hl').1 fun x => ?_, e.linksIn, e.speedLimit, by rw [Link.length, Link.length, e.curve]⟩
  rw [(hm' k l' hl').2 x, (hm k l hl).2 x]
  constructor
  · rintro ⟨w', hw', ew⟩
    obtain ⟨w, hw, r⟩ := hv.back hw'
    exact ⟨w, hw, by rw [Vehicle.linkId, ← (hR _ _ r).route]; exact ew⟩
  · rintro ⟨w, hw, ew⟩
    obtain ⟨w', hw', r⟩ := hv.fwd x w hw
    exact ⟨w', hw', by rw [Vehicle.linkId, (hR _ _ r).route]; exact ew⟩

omit [Flt F] in
theorem enteredBy_alike {vs vs' : VehicleSet F} {R : Vehicle F → Vehicle F → Prop} (hR : ∀ v v', R v v' → VehSees v v')
    (hv : Alike R vs vs') (k : Key) : EnteredBy vs k ↔ EnteredBy vs' k := by
  constructor
  · rintro ⟨j, w, hw, hk⟩
    obtain ⟨w', hw', r⟩ := hv.fwd j w hw
    exact ⟨j, w', hw', by rw [(hR _ _ r).route, (hR _ _ r).entered]; exact hk⟩
  · rintro ⟨j, w', hw', hk⟩
    obtain ⟨w, hw, r⟩ := hv.back hw'
    exact ⟨j, w, hw, by rw [← (hR _ _ r).route, ← (hR _ _ r).entered]; exact hk⟩

/-- A step leaves the vehicles as they are. -/
theorem Gridlock.step [Env] [LawfulDijkstra] (h : Gridlock s) (hs : Reach strict s) (hst : s.step dt = .ok s')
    (hd : ∀ k v, s.vehicles.get? k = some v → Rests dt v) : Gridlock s' ∧ Alike Remains s.vehicles s'.vehicles := by
  obtain ⟨s1, s2, s3, s4, s5, s6, hr⟩ := (step_spec hs.inv dt).ok hst
  have hc1 : s1.conflicts = s.conflicts := by
    rcases hr.lanes with ⟨-, e⟩ | ⟨-, vs, lcs, hl⟩
    · rw [e]
    · rw [hl.eq]
  have hc' : s'.conflicts = s.conflicts := by
    rw [← hc1, hr.eq]; dsimp only
    obtain ⟨wss, hl⟩ := hr.lights
    rw [hr.place.eq]; dsimp only; rw [hr.adv.eq]; dsimp only; rw [hr.move.eq]; dsimp only; rw [hl.eq]; dsimp only
    rcases hr.acc with ⟨-, e⟩ | ⟨-, n0, n1, vs, ha⟩
    · rw [e]
    · rw [ha.eq]
  have first : ∀ k v v1, s.vehicles.get? k = some v → s1.vehicles.get? k = some v1 → v1 = v := by
    intro k v v1 hv hv1
    rcases hr.chooses hv hv1 with ⟨-, e⟩ | ⟨-, hc⟩
    · exact e
    · have hp := (h.veh k v hv).paths
      have own : ∀ p, Cheapest s.links v v.pathfind.paths p → p.links = v.route := by
        rintro p ⟨pre, post, n, e, -⟩
        exact hp p (by rw [e]; simp)
      cases hc with
      | carriesOn _ e => exact e
      | keeps p _ hq _ e => exact e
      | takes p n _ hq hne _ _ _ => exact absurd (own p hq) hne
      | changes p _ _ _ _ _ _ _ hq h1 h2 _ _ _ _ _ => rw [own p hq] at h1; exact absurd h1 h2
  have a1 : Alike Eq s.vehicles s1.vehicles := by
    refine ⟨fun k v hv => ?_, fun k v1 hv1 => ?_⟩
    · obtain ⟨v1, g, -⟩ := hr.vehs1.fwd k v hv
      exact ⟨v1, g, (first k v v1 hv g).symm⟩
    · obtain ⟨v, g, -⟩ := hr.vehs1.bwd hv1
      exact ⟨v, g⟩
  have eqSees : ∀ v v' : Vehicle F, v = v' → VehSees v v' := by rintro v _ rfl; exact ⟨rfl, rfl, rfl, rfl⟩
  have l1 := sees_of_single eqSees hr.frame1.frame hs.inv.mem hr.inv1.mem h.single a1
  have remain : ∀ k v, s.vehicles.get? k = some v → ∃ v', s'.vehicles.get? k = some v' ∧ Remains v v' ∧
      Brakes v'.acc.maxAcc v'.acc.acc := by
    intro k v hv
    have hb := h.veh k v hv
    obtain ⟨v1, v2, v4, ht⟩ := hr.trace hv
    have e1 := first k v v1 hv ht.get1
    subst e1
    have hbr : Brakes v1.acc.maxAcc v2.acc.acc := by
      rcases ht.acc with ⟨hlt, -, e⟩ | ⟨-, n0, n1, vs, har, ha⟩
      · rw [hr.clocks.1] at hlt
        rw [e]; exact hb.braked hlt
      · by_cases hf : k ∈ s1.frozen
        · obtain ⟨x, w, ev2, -, hz, -⟩ := ha.eq
          rw [ev2]
          exact .inl (hz hf)
        · obtain ⟨c, hc, hne, ho, a, b, hrb, hk, hdir, hgap⟩ := hb.behind
          have ho' := ho.same (enteredBy_alike eqSees a1) l1 eqSees a1
          obtain ⟨va, vb, ea, eb, hrb'⟩ := hrb.same (enteredBy_alike eqSees a1) l1 eqSees a1
          subst ea eb
          obtain ⟨w, as, x, hw, hx, ew⟩ := har.conflict hr.inv1.mid (by rw [hc1]; exact hc) hne ho' hrb' (by rw [← hk] at hf; exact hf)
          have hbv : s.vehicles.get? b.key = some b.vehicle :=
            hrb.right.elim (fun h => h.1.choose_spec.2.veh) fun h => h.1.choose_spec.2.veh
          rw [hk, hv] at hbv
          cases hbv
          have g2 := ht.get2
          rw [hr.vehicles3] at g2
          dsimp only at hw
          rw [hk, g2] at hw; cases hw
          right
          refine ⟨as, ?_, by rw [ew]⟩
          unfold conflictAcc at hx
          rw [if_neg (by simpa using hdir)] at hx
          unfold AccelerationModel.idm at hx
          rw [if_pos (by exact hgap)] at hx
          exact hx
    have hrest := hd k v1 hv
    obtain ⟨x, w, ev2⟩ := ht.acc.same
    have hacc : v2.acc.maxAcc = v1.acc.maxAcc ∧ v2.vel = 0.0 ∧ v2.pos = v1.pos ∧ v2.route = v1.route ∧ v2.halfLen = v1.halfLen ∧
        v2.entered = v1.entered ∧ v2.pathfind = v1.pathfind := by
      rw [ev2]; exact ⟨rfl, hb.vel, rfl, rfl, rfl, rfl, rfl⟩
    obtain ⟨f1, f2, f3, f4, f5, f6, f7⟩ := hacc
    have hstill : fmax (v2.vel + dt * v2.acc.getAcc) 0.0 = 0.0 := by
      rw [f2]; exact hrest.1 _ hbr
    have hent : ∃ q lc cnt, v4 = { v2 with queued := q, entered := v2.entered, willQueueOrEnter := 0, vel := 0.0, pos := v1.pos, laneChange := lc, stopCnt := cnt } := by
      obtain ⟨sq, sq', hi, -⟩ := ht.move
      unfold Vehicle.integrate at hi
      rw [M_bind_ok] at hi
      obtain ⟨p, hp, hi⟩ := hi
      rw [M_pure_ok] at hi
      cases hi
      have hm := hr.mid3.veh k v2 ht.get2
      obtain ⟨-, -, q, e, he, hw⟩ := (integrateQueue_spec (E := fun _ => True) hm.will sq).ok hp
      have hw' : e = v2.entered := by
        rcases hw with ⟨h1, -⟩ | ⟨-, h2⟩
        · exact h1
        · have := hm.willEnter h2
          rw [f6, f4, hb.entered] at this
          omega
      subst hw'
      obtain ⟨lc, cnt, hm'⟩ := integrateMotion_eq p.1 dt
      refine ⟨q, lc, cnt, ?_⟩
      rw [hm', he]
      dsimp only
      rw [hstill, f2, f3, hrest.2]
    obtain ⟨q, lc, cnt, ev4⟩ := hent
    have hstay : ∀ v5, ¬ Passed s4.links v4 v5 := by
      intro v5 hp
      obtain ⟨a, rest, l, pf, ha, hl, hlt, -⟩ := hp.ex
      obtain ⟨l0, hl0, e0⟩ := hr.frame4.bwd hl
      have ha' : v1.route.head? = some a := by
        rw [ev4] at ha; dsimp only at ha; rw [f4] at ha; rw [ha]; rfl
      refine hb.on a l0 ha' hl0 ?_
      rw [ev4] at hlt
      rw [Link.length, ← e0.curve]
      exact hlt
    cases ht.out with
    | stays v' hv' hp _ =>
      refine ⟨v', hv', ?_⟩
      obtain ⟨p, d, r, c, rfl⟩ := hp
      rw [ev4]
      refine ⟨⟨⟨rfl, f5, f4, f6⟩, hb.vel.symm, f7, f1⟩, ?_⟩
      dsimp only; rw [f1]; exact hbr
    | passes v5 u hp _ _ _ => exact absurd hp (hstay v5)
    | leaves v5 hp _ _ => exact absurd hp (hstay v5)
  have hal : Alike Remains s.vehicles s'.vehicles := by
    refine ⟨fun k v hv => ?_, fun k v' hv' => hr.back hv'⟩
    obtain ⟨v', hv', r, -⟩ := remain k v hv
    exact ⟨v', hv', r⟩
  have rs : ∀ v v' : Vehicle F, Remains v v' → VehSees v v' := fun _ _ h => h.sees
  have hl' := sees_of_single rs hr.frame hs.inv.mem hr.inv.mem h.single hal
  refine ⟨⟨fun lk l' hl => ?_, fun k v' hv' => ?_⟩, hal⟩
  · obtain ⟨l, hl0, e⟩ := hl'.bwd hl
    rw [e.vehicles]; exact h.single lk l hl0
  · obtain ⟨v, hv⟩ := hr.back hv'
    obtain ⟨u, hu, r, hbr⟩ := remain k v hv
    rw [hv'] at hu; cases hu
    have hb := h.veh k v hv
    obtain ⟨c, hc, hne, ho, a, b, hrb, hk, hdir, hgap⟩ := hb.behind
    refine ⟨r.vel.trans hb.vel, by rw [r.paths, r.sees.route]; exact hb.paths, by rw [r.sees.entered, r.sees.route]; exact hb.entered, ?_, fun _ => hbr,
      c, by rw [hc']; exact hc, hne, ho.same (enteredBy_alike rs hal) hl' rs hal, ?_⟩
    · intro a l' ha hla
      obtain ⟨l, hl0, e⟩ := hl'.bwd hla
      rw [e.length, r.sees.pos]
      exact hb.on a l (by rw [← r.sees.route]; exact ha) hl0
    · obtain ⟨va, vb, ra, rb, hrb'⟩ := hrb.same (enteredBy_alike rs hal) hl' rs hal
      refine ⟨_, _, hrb', hk, ?_, ?_⟩
      · simp only [RelVeh.posRear, ra.sees.rear] at hdir ⊢; exact hdir
      · rw [r.sees.front]; exact hgap

omit [Flt F] in
theorem Remains.trans {v'' : Vehicle F} (h : Remains v v') (h' : Remains v' v'') : Remains v v'' :=
  ⟨⟨h'.sees.pos.trans h.sees.pos, h'.sees.halfLen.trans h.sees.halfLen, h'.sees.route.trans h.sees.route,
    h'.sees.entered.trans h.sees.entered⟩, h'.vel.trans h.vel, h'.paths.trans h.paths, h'.maxAcc.trans h.maxAcc⟩

/-- **C90** (any numbers) In a gridlock no vehicle ever moves: as long as a vehicle that stands and brakes does not move in a step, all
vehicles stand where they stand. -/
theorem C90_gridlock [Env] [LawfulDijkstra] {dts : List F} (hs : Reach strict s) (h : Gridlock s)
    (hd : ∀ dt ∈ dts, ∀ k v, s.vehicles.get? k = some v → Rests dt v) (hrun : dts.foldlM Sim.step s = .ok s') :
    Gridlock s' ∧ Alike Remains s.vehicles s'.vehicles := by
  induction dts generalizing s with
  | nil =>
    rw [List.foldlM_nil, M_pure_ok] at hrun
    cases hrun
    exact ⟨h, fun k v hv => ⟨v, hv, ⟨rfl, rfl, rfl, rfl⟩, rfl, rfl, rfl⟩, fun k v hv => ⟨v, hv⟩⟩
  | cons dt dts ih =>
    rw [List.foldlM_cons, M_bind_ok] at hrun
    obtain ⟨s1, h1, h2⟩ := hrun
    obtain ⟨g1, a1⟩ := h.step hs h1 (hd dt (by simp))
    obtain ⟨g2, a2⟩ := ih (.exec (.step dt) hs trivial h1) g1 (fun d hdm k v hv => by
      obtain ⟨u, hu, r⟩ := a1.back hv
      have := hd d (by simp [hdm]) k u hu
      unfold Rests at this ⊢
      rw [r.maxAcc, r.sees.pos]
      exact this) h2
    refine ⟨g2, fun k v hv => ?_, fun k v hv => ?_⟩
    · obtain ⟨u, hu, r⟩ := a1.fwd k v hv
      obtain ⟨w, hw, r'⟩ := a2.fwd k u hu
      exact ⟨w, hw, r.trans r'⟩
    · obtain ⟨u, hu⟩ := a2.bwd k v hv
      exact a1.bwd k u hu

end

/-! ## In exact arithmetic -/

section
variable {strict : Prop} {s s' : Sim ℝ}

/-- The vehicle `k` has to stop for the vehicle `j`, which is at most 2 m ahead, or before a conflict region, at most 2 m ahead, that `j`
reaches before. -/
inductive WaitsFor [Env] (s : Sim ℝ) (k j : Key) : Prop
  | next {lk : Key} {l : Link ℝ} {u v : Vehicle ℝ} : s.links.get? lk = some l → [k, j] <:+: l.vehicles → s.vehicles.get? j = some u →
      s.vehicles.get? k = some v → u.posRear - v.posFront ≤ 2 → WaitsFor s k j
  | last {k0 : Key} {l : Link ℝ} {i : Nat} {d : ℝ} {js : List Key} {u v : Vehicle ℝ} : Sees s k0 0.0 k v (i + 1) d →
      s.links.get? k0 = some l → l.vehicles = j :: js → s.vehicles.get? j = some u → d + u.posRear - v.posFront ≤ 2 → WaitsFor s k j
  | lane {lk : Key} {l l0 : Link ℝ} {u v : Vehicle ℝ} {g : LinkGroup ℝ} {ps : List (LinkProjection ℝ)} {p : LinkProjection ℝ} {o : Obstacle ℝ}
      {i : Nat} {d pos vel : ℝ} : s.links.get? lk = some l → j ∈ l.vehicles → s.vehicles.get? j = some u → l.group = some g →
      g.projectionsFromLink lk = .ok ps → p ∈ ps → u.project p = .ok o → s.links.get? p.dst = some l0 → Sees s p.dst o.pos k v i d →
      v.canPass o l0 = .ok (.follow pos vel) → d + (pos - o.pos) - v.posFront ≤ 2 → WaitsFor s k j
  | region {c : ConflictPoint ℝ} {a b : ConflictPointLink ℝ} {u v : Vehicle ℝ} {d d' : ℝ} : c ∈ s.conflicts →
      (a = c.link0 ∧ b = c.link1 ∨ a = c.link1 ∧ b = c.link0) → Heads s a j u d → Heads s b k v d' →
      v.posFront - d' ≤ u.posFront - d → ¬ (c.sameDir = true ∧ 0 < u.posRear - d) → d' - v.posFront ≤ 2 → WaitsFor s k j
  | merge {c : ConflictPoint ℝ} {a b : ConflictPointLink ℝ} {u v : Vehicle ℝ} {d d' : ℝ} : c ∈ s.conflicts →
      (a = c.link0 ∧ b = c.link1 ∨ a = c.link1 ∧ b = c.link0) → Heads s a j u d → Heads s b k v d' →
      v.posFront - d' ≤ u.posFront - d → c.sameDir = true → 0 < u.posRear - d →
      min (v.worldDir.dot (u.rearCoords.1.sub v.worldPos)) (v.worldDir.dot (u.rearCoords.2.sub v.worldPos)) - v.halfLen ≤ 2 → WaitsFor s k j

/-- The vehicle is at most 2 m before, or past, the end of its route where it may not leave, or a link that is not open and that it has not
entered. -/
inductive HeldAtLine [Env] (s : Sim ℝ) (k : Key) : Prop
  | exit {k0 : Key} {l : Link ℝ} {i : Nat} {d : ℝ} {v : Vehicle ℝ} : s.links.get? k0 = some l → Sees s k0 l.length k v i d →
      v.route[i + 1]? = none → v.canExit = false → d - v.posFront ≤ 2 → HeldAtLine s k
  | entry {k0 j : Key} {l l' : Link ℝ} {i : Nat} {d : ℝ} {v : Vehicle ℝ} : s.links.get? k0 = some l → Sees s k0 l.length k v i d →
      v.route[i + 1]? = some j → v.entered ≤ i + 1 → s.links.get? j = some l' → l'.control ≠ .open_ → d - v.posFront ≤ 2 → HeldAtLine s k

/-- **C90, the part that holds** (exact arithmetic).  Accelerations are due, and all vehicles stand before and after the step, with at least
one vehicle there.  Then one of them is frozen, or at the end of its route or at a link that is not open, or there are vehicles each of which
waits for the next, and the last for the first. -/
theorem C90_standstill_partial [Env] [LawfulDijkstra] {s1 : Sim ℝ} {dt : ℝ} (h : Reach strict s) (hst : s.step dt = .ok s') (hdt : 0 < dt)
    (hre : ¬ s.accUpdate < 0.1) (hlanes : s.calculateLaneChanges = .ok s1)
    (hcar : ∀ k v, s1.getVehicle k = .ok v → 0 < v.acc.maxAcc ∧ 0 < v.acc.comfDec ∧ v.vel = 0)
    (hstand : ∀ k v, s1.getVehicle k = .ok v → ∃ v', s'.getVehicle k = .ok v' ∧ v'.vel = 0)
    (hsome : ∃ k v, s1.getVehicle k = .ok v) :
    ∃ k v, s1.getVehicle k = .ok v ∧ (k ∈ s.frozen ∨ HeldAtLine s1 k ∨ Relation.TransGen (WaitsFor s1) k k) := by
  by_contra hno
  push Not at hno
  have waits : ∀ k v, s1.getVehicle k = .ok v → ∃ j u, s1.getVehicle j = .ok u ∧ WaitsFor s1 k j := by
    intro k v hv
    obtain ⟨h1, h2, h3⟩ := hcar k v hv
    obtain ⟨v', hv', h0⟩ := hstand k v hv
    obtain ⟨n1, n2, -⟩ := hno k v hv
    rcases C83_starts h hst hdt hre hlanes hv hv' h1 h2 h3 with hp | hp | ⟨gap, vel, hh, hgap⟩
    · rw [h0] at hp; exact absurd hp (lt_irrefl _)
    · exact absurd hp n1
    have g := getVeh_ok.1 hv
    cases hh with
    | next a1 a2 a3 => exact ⟨_, _, getVeh_ok.2 a3, .next a1 a2 a3 g hgap⟩
    | last a1 a2 a3 a4 => exact ⟨_, _, getVeh_ok.2 a4, .last a1 a2 a3 a4 hgap⟩
    | exit a1 a2 a3 a4 => exact absurd (.exit a1 a2 a3 a4 (by norm_num at hgap; linarith)) n2
    | entry a1 a2 a3 a4 a5 a6 => exact absurd (.entry a1 a2 a3 a4 a5 a6 (by norm_num at hgap; linarith)) n2
    | lane a1 a2 a3 a4 a5 a6 a7 a8 a9 a10 => exact ⟨_, _, getVeh_ok.2 a3, .lane a1 a2 a3 a4 a5 a6 a7 a8 a9 a10 hgap⟩
    | region a1 a2 a3 a4 a5 a6 =>
      refine ⟨_, _, getVeh_ok.2 a3.choose_spec.1.veh, .region a1 a2 a3 a4 ?_ ?_ (by norm_num at hgap; linarith)⟩
      · exact a5.elim id fun h => le_of_lt (not_le.1 h)
      · norm_num at a6 ⊢; exact a6
    | merge a1 a2 a3 a4 a5 a6 a7 =>
      refine ⟨_, _, getVeh_ok.2 a3.choose_spec.1.veh, .merge a1 a2 a3 a4 ?_ a6 (by norm_num at a7; simpa using a7) hgap⟩
      exact a5.elim id fun h => le_of_lt (not_le.1 h)
  let α := { k : Key // k ∈ s1.vehicles.keys }
  have : Finite α := List.finite_toSet s1.vehicles.keys
  have present : ∀ x : α, ∃ v, s1.getVehicle x.1 = .ok v := fun x => by
    obtain ⟨v, hv⟩ := SlotMap.mem_keys.1 x.2
    exact ⟨v, getVeh_ok.2 hv⟩
  let r : α → α → Prop := fun x y => Relation.TransGen (WaitsFor s1) y.1 x.1
  have : IsTrans α r := ⟨fun x y z h1 h2 => h2.trans h1⟩
  have : Std.Irrefl r := ⟨fun x hx => by
    obtain ⟨v, hv⟩ := present x
    exact (hno x.1 v hv).2.2 hx⟩
  have hwf : WellFounded r := Finite.wellFounded_of_trans_of_irrefl r
  obtain ⟨k, v, hv⟩ := hsome
  obtain ⟨m, -, hmin⟩ := hwf.has_min Set.univ ⟨⟨k, SlotMap.mem_keys.2 ⟨v, getVeh_ok.1 hv⟩⟩, trivial⟩
  obtain ⟨w, hw⟩ := present m
  obtain ⟨j, u, hu, hwait⟩ := waits m.1 w hw
  exact hmin ⟨j, SlotMap.mem_keys.2 ⟨u, getVeh_ok.1 hu⟩⟩ trivial (.single hwait)

/-- The only vehicle is frozen. -/
example : ∃ (_ : Env) (_ : LawfulDijkstra) (s s' s1 : Sim ℝ), Reach True s ∧ s.step 0.05 = .ok s' ∧ ¬ s.accUpdate < 0.1 ∧
    s.calculateLaneChanges = .ok s1 ∧ (∀ k v, s1.getVehicle k = .ok v → 0 < v.acc.maxAcc ∧ 0 < v.acc.comfDec ∧ v.vel = 0) ∧
    (∀ k v, s1.getVehicle k = .ok v → ∃ v', s'.getVehicle k = .ok v' ∧ v'.vel = 0) ∧ ∃ k v, s1.getVehicle k = .ok v := by
  obtain ⟨n, s, s', s1, v, l, h1, h2, h3, h4, h5, h6, h7, h8, h9, h10, h11, h12, h13, -⟩ := Lone.rest_alone
  let := Lone.env n
  have := Lone.lawful n
  refine ⟨Lone.env n, Lone.lawful n, s, s', s1, h1, h2, h3, h6, fun k w hw => ?_, fun k w hw => ?_, _, _, h7⟩
  · rw [(h13 k w hw).2]
    exact ⟨by rw [h12.maxAcc]; norm_num, by rw [h12.dec]; norm_num, h11⟩
  · obtain ⟨rfl, -⟩ := h13 k w hw
    obtain ⟨v', hv', -, -, e⟩ := C13_stays h1 h2 (by norm_num) h3 h4 h5 h6 h7 rfl h8 h9 h10 h11
    exact ⟨v', hv', e⟩

end

/-! ## In binary arithmetic -/

section
open B64

/-- A zero that is added to zero. -/
theorem zero_add_zero {y : Float} (hy : y.isNaN = false) (h0 : val y = 0) : (0.0 : Float) + y = 0.0 := by
  have hz : (0.0 : Float).toModel.unpack = .zero .positive := by rfl
  have : ∃ s, y.toModel.unpack = .zero s := by
    rcases uval_inj (legal y) (legal 0.0) hy (by decide +kernel) (h0.trans val_zero.symm) with h | ⟨s, s', h, -⟩
    · exact ⟨_, h.trans hz⟩
    · exact ⟨s, h⟩
  obtain ⟨s, hs⟩ := this
  show Float.ofModel (Float.Model.pack (Float.Model.UnpackedFloat.add .binary64 (0.0 : Float).toModel.unpack y.toModel.unpack)) = 0.0
  rw [hz, hs]
  cases s <;> rfl

/-- Braking does not move a vehicle that stands. -/
theorem brake_float {dt a : Float} (hdt : (0.0 : Float) ≤ dt) (ha : a ≤ 0.0) : fmax (0.0 + dt * fmax a (-6.0)) 0.0 = 0.0 := by
  rcases fmax_cases (0.0 + dt * fmax a (-6.0)) 0.0 with ⟨e, -⟩ | ⟨e, h1, h2⟩
  · exact e
  rw [e]
  obtain ⟨-, hyn, hr⟩ := add_num h2
  obtain ⟨hdn, hbn, hm⟩ := mul_num hyn
  have hb : val (fmax a (-6.0)) ≤ 0 := by
    rcases fmax_cases a (-6.0) with ⟨e, -⟩ | ⟨e, -, -⟩
    · rw [e]; exact (lt_zero_iff.1 (show (-6.0 : Float) < 0.0 by decide +kernel)).2.le
    · rw [e, ← val_zero]; exact (le_iff.1 ha).2.2
  have hy : val (dt * fmax a (-6.0)) ≤ 0 := by
    rw [← val_zero]
    refine hm.above 0.0 (by decide +kernel) ?_
    rw [val_zero]
    have := mul_le_mul_of_nonneg_left hb (nonneg_iff.1 hdt).2
    rwa [mul_zero] at this
  refine zero_add_zero hyn (le_antisymm hy (le_of_not_gt fun hlt => h1 (lt_zero_iff.2 ⟨h2, ?_⟩)))
  rw [val_zero, zero_add] at hr
  rw [hr.eq hyn rfl]; exact hlt

theorem brakes_float {m a : Float} (hm : -10.0 * m ≤ 0.0) (h : Brakes m a) : a ≤ 0.0 := by
  rcases h with rfl | ⟨as, hx, rfl⟩
  · decide +kernel
  · obtain ⟨h1, h2, h3⟩ := le_iff.1 hm
    obtain ⟨g1, -, g3⟩ := le_iff.1 (foldl_fmin_mem hx h1)
    exact le_iff.2 ⟨g1, h2, g3.trans h3⟩

/-- A product with zero is zero, of either sign. -/
theorem zero_times {dt : Float} (hfin : dt.isFinite = true) : (0.0 : Float) * dt = 0.0 ∨ (0.0 : Float) * dt = -0.0 := by
  obtain ⟨hn, h0⟩ := val_zero_mul (x := 0.0) (by decide +kernel) val_zero hfin
  have hf : dt.toModel.unpack.isFinite = true := hfin
  have hz : (0.0 : Float).toModel.unpack = .zero .positive := by rfl
  have hm : (0.0 : Float) * dt = .ofModel (Float.Model.pack (Float.Model.UnpackedFloat.mul .binary64 (0.0 : Float).toModel.unpack dt.toModel.unpack)) :=
    rfl
  rw [hm, hz]
  generalize dt.toModel.unpack = u at hf
  rcases u with s | _ | s | ⟨s, m, e, h⟩
  · cases hf
  · cases hf
  · cases s
    · right; rfl
    · left; rfl
  · cases s
    · right; rfl
    · left; rfl

theorem rests_float {dt : Float} {v : Vehicle Float} (hdt : (0.0 : Float) ≤ dt) (hfin : dt.isFinite = true) (hm : -10.0 * v.acc.maxAcc ≤ 0.0)
    (hp : v.pos + 0.0 = v.pos ∧ v.pos + -0.0 = v.pos) : Rests dt v := by
  refine ⟨fun a ha => brake_float hdt (brakes_float hm ha), ?_⟩
  have e : (0.5 : Float) * (0.0 + 0.0) = 0.0 := by rfl
  rw [e]
  rcases zero_times hfin with e | e
  · rw [e]; exact hp.1
  · rw [e]; exact hp.2

end

namespace Pinwheel

attribute [local instance] Town.env

theorem blocked [LawfulDijkstra] {s : Sim Float} (hs : Reach True s) {n : Net Float} (hn : s.prepareNet = .ok n) (hacc : ¬ s.accUpdate < 0.1) {k : Key}
    {v : Vehicle Float} (h : testVehicle s n k v = true) : Blocked s k v ∧ -10.0 * v.acc.maxAcc ≤ 0.0 ∧
      (v.pos + 0.0 = v.pos ∧ v.pos + -0.0 = v.pos) ∧ v.pos < 1.0 ∧ v.route.length = 2 ∧ v.canExit = true := by
  unfold testVehicle at h
  simp only [Bool.and_eq_true, decide_eq_true_eq, and_assoc, List.all_eq_true] at h
  obtain ⟨h1, h2, h3, h4, h5, h6, h7, h7', h8, h9, h10⟩ := h
  refine ⟨⟨h1, h2, h3, ?_, fun h => absurd h hacc, ?_⟩, h6, ⟨h7, h7'⟩, h8, h9, h10⟩
  · intro a l ha hl
    split at h4
    · rename_i b _ hb
      rw [hb] at ha; cases ha
      rw [hl] at h4
      simpa using h4
    · cases h4
  · rw [List.any_eq_true] at h5
    obtain ⟨c, hc, h5⟩ := h5
    unfold testPoint at h5
    simp only [Bool.and_eq_true, and_assoc, bne_iff_ne, Bool.not_eq_true'] at h5
    obtain ⟨g1, g2, g3⟩ := h5
    split at g3
    · rename_i x y hx hy
      simp only [Bool.and_eq_true, decide_eq_true_eq, beq_iff_eq, and_assoc] at g3
      obtain ⟨e, g3, g4, g5, g6, g7⟩ := g3
      have hp : Prepared s n := (prepareNet_spec (E := fun _ => True) fun k v hv => (hs.inv.veh k v hv).drivable.valid).ok hn
      obtain ⟨ho, a, b, eb, eb', hb⟩ := rightBehind_of_found hs.inv.mid hp hx hy g3 g4 g5 g6
      exact ⟨c, hc, g1, ho, a, b, hb, eb.trans e, by rw [g2]; simp, by rw [eb']; exact g7⟩
    · cases g3

end Pinwheel

section

attribute [local instance] Town.env

/-- The tests recognise a gridlock. -/
theorem Pinwheel.grid_of {count : Nat} {s0 s : Sim Float} (hs : Reach True s) (ht : test count s0 s = true) :
    s.vehicles.keys.length = count ∧ s.frozen = [] ∧
    (∀ k l, getLink s.links k = .ok l → l.control = .open_ ∧ l.vehicles.length ≤ 1) ∧
    (∀ k v, s.getVehicle k = .ok v → v.pos < 1.0 ∧ v.route.length = 2 ∧ v.canExit = true) ∧ Gridlock s ∧
    ∀ dt, (0.0 : Float) ≤ dt → dt.isFinite = true → ∀ k v, s.vehicles.get? k = some v → Rests dt v := by
  have := Search.lawful 400
  unfold Pinwheel.test at ht
  simp only [Bool.and_eq_true, decide_eq_true_eq, and_assoc, List.all_eq_true, List.isEmpty_iff] at ht
  obtain ⟨h1, h2, h3, h4, h5⟩ := ht
  have links : ∀ k l, s.links.get? k = some l → l.control = .open_ ∧ l.vehicles.length ≤ 1 := by
    intro k l hl
    have := h4 k (SlotMap.mem_keys.2 ⟨l, hl⟩)
    rw [hl] at this
    simp only [Pinwheel.testLink, Bool.and_eq_true, decide_eq_true_eq] at this
    refine ⟨?_, this.1⟩
    have := this.2
    split at this
    · assumption
    · cases this
  split at h5
  · rename_i n hn
    rw [List.all_eq_true] at h5
    have vehs : ∀ k v, s.vehicles.get? k = some v → Pinwheel.testVehicle s n k v = true := by
      intro k v hv
      have := h5 k (SlotMap.mem_keys.2 ⟨v, hv⟩)
      rwa [hv] at this
    refine ⟨h1, h3, fun k l hl => links k l (getLink_ok.1 hl), fun k v hv => ?_,
      ⟨fun k l hl => (links k l hl).2, fun k v hv => (Pinwheel.blocked hs hn h2 (vehs k v hv)).1⟩, fun dt hdt hfin k v hv => ?_⟩
    · exact (Pinwheel.blocked hs hn h2 (vehs k v (getVeh_ok.1 hv))).2.2.2
    · obtain ⟨-, e1, e2, -⟩ := Pinwheel.blocked hs hn h2 (vehs k v hv)
      exact rests_float hdt hfin e1 e2
  · cases h5

/-- The roads that cross lead to a gridlock. -/
theorem Pinwheel.grid : ∃ s : Sim Float, Reach True s ∧ s.vehicles.keys.length = 4 ∧ s.frozen = [] ∧
    (∀ k l, getLink s.links k = .ok l → l.control = .open_ ∧ l.vehicles.length ≤ 1) ∧
    (∀ k v, s.getVehicle k = .ok v → v.pos < 1.0 ∧ v.route.length = 2 ∧ v.canExit = true) ∧ Gridlock s ∧
    ∀ dt, (0.0 : Float) ≤ dt → dt.isFinite = true → ∀ k v, s.vehicles.get? k = some v → Rests dt v := by
  obtain ⟨s0, s, -, -, -, hs, ht⟩ := Pinwheel.stands
  exact ⟨s, hs, Pinwheel.grid_of hs ht⟩

/-- Four vehicles stand, and would stand for any number of steps of a tenth of a second. -/
example : ∃ s : Sim Float, Reach True s ∧ Gridlock s ∧ s.vehicles.keys.length = 4 ∧
    ∀ dt ∈ List.replicate 1000 (0.1 : Float), ∀ k v, s.vehicles.get? k = some v → Rests dt v := by
  obtain ⟨s, h1, h2, -, -, -, h3, h4⟩ := Pinwheel.grid
  exact ⟨s, h1, h3, h2, fun dt hd => by rw [List.eq_of_mem_replicate hd]; exact h4 _ (by decide +kernel) (by decide +kernel)⟩

/-- **C90, it is false.**  On open links, with no vehicle frozen, four vehicles that are each alone on their link, and for which the links to
their destinations are free, stand less than a metre from where they started, and will never move, whatever the steps. -/
theorem C90_stuck : ∃ s : Sim Float, Reach True s ∧ s.vehicles.keys.length = 4 ∧ s.frozen = [] ∧
    (∀ k l, getLink s.links k = .ok l → l.control = .open_ ∧ l.vehicles.length ≤ 1) ∧
    ∀ k v, s.getVehicle k = .ok v → v.pos < 1.0 ∧ v.route.length = 2 ∧ v.entered = 2 ∧ v.canExit = true ∧
      ∀ (dts : List Float) (s' : Sim Float), (∀ dt ∈ dts, (0.0 : Float) ≤ dt ∧ dt.isFinite = true) → dts.foldlM Sim.step s = .ok s' →
        ∃ v', s'.getVehicle k = .ok v' ∧ v'.pos = v.pos ∧ v'.vel = 0.0 ∧ v'.route = v.route := by
  obtain ⟨s, hs, h1, h2, h3, h4, h5, h6⟩ := Pinwheel.grid
  have := Search.lawful 400
  refine ⟨s, hs, h1, h2, h3, fun k v hv => ?_⟩
  obtain ⟨g1, g2, g3⟩ := h4 k v hv
  have hv := getVeh_ok.1 hv
  refine ⟨g1, g2, (h5.veh k v hv).entered.trans g2, g3, fun dts s' hd hrun => ?_⟩
  obtain ⟨v', hv', r⟩ := (C90_gridlock hs h5 (fun dt hdt => h6 dt (hd dt hdt).1 (hd dt hdt).2) hrun).2.fwd k v hv
  exact ⟨v', getVeh_ok.2 hv', r.sees.pos, r.vel.trans (h5.veh k v hv).vel, r.sees.route⟩

end

end TrafficSim
