import Verif.Lemmas.Course
import Verif.Props.Free
import Verif.Props.Safety

/-! # C79: whether vehicles get to their destination

The claim is that a vehicle that is sent to a destination, is alone and has a clear way there, gets there and leaves.  It is false of
the code: `C79_no_permission` and `C79_stranded` say when such a vehicle stays for ever, and `C79_never_leaves` (`Props/ArrivalRoad.lean`)
is a witness.  What is true: it gets permission if it does not follow its way yet when it is sent (`C79_permission`), and with permission it
gets there and leaves (`C79_arrives_partial`).  Missing: ways with a choice of links or lanes, and ways too long to be planned at once. -/

namespace TrafficSim

section
variable {F : Type} [Flt F] {strict : Prop} {s s' : Sim F} {dt : F} {k dst : Key} {v v' : Vehicle F}

theorem Reach.steps [Env] (h : Reach strict s) : ∀ {dts : List F} {s' : Sim F}, dts.foldlM Sim.step s = .ok s' → Reach strict s' := by
  intro dts
  induction dts generalizing s with
  | nil => rintro s' ⟨⟩; exact h
  | cons dt dts ih =>
    intro s' hr
    rw [List.foldlM_cons, M_bind_ok] at hr
    obtain ⟨s1, h1, hr⟩ := hr
    exact ih (.exec (.step dt) h trivial h1) hr

theorem steps_back [Env] [LawfulDijkstra] (h : Reach strict s) : ∀ {dts : List F} {s' : Sim F} {v' : Vehicle F}, dts.foldlM Sim.step s = .ok s' →
    s'.vehicles.get? k = some v' → ∃ v, s.vehicles.get? k = some v := by
  intro dts
  induction dts generalizing s with
  | nil => rintro s' v' ⟨⟩ hv; exact ⟨v', hv⟩
  | cons dt dts ih =>
    intro s' v' hr hv
    rw [List.foldlM_cons, M_bind_ok] at hr
    obtain ⟨s1, h1, hr⟩ := hr
    obtain ⟨v1, hv1⟩ := ih (.exec (.step dt) h trivial h1) hr hv
    obtain ⟨_, _, _, _, _, _, hr⟩ := (step_spec h.inv dt).ok h1
    exact hr.back hv1

/-- Steps keep a vehicle on its course and do not change its permission to leave. -/
theorem Course.steps [Env] [LawfulDijkstra] (hc : Course s.links v v.route) (h : Reach strict s) (hv : s.vehicles.get? k = some v) :
    ∀ {dts : List F} {s' : Sim F} {v' : Vehicle F}, dts.foldlM Sim.step s = .ok s' → s'.vehicles.get? k = some v' →
      Course s'.links v' v'.route ∧ v'.canExit = v.canExit ∧ v'.pathfind.dst = v.pathfind.dst := by
  intro dts
  induction dts generalizing s v with
  | nil =>
    rintro s' v' ⟨⟩ hv'
    rw [hv] at hv'; cases hv'
    exact ⟨hc, rfl, rfl⟩
  | cons dt dts ih =>
    intro s' v' hr hv'
    rw [List.foldlM_cons, M_bind_ok] at hr
    obtain ⟨s1, h1, hr⟩ := hr
    have hR := Reach.exec (.step dt) h trivial h1
    obtain ⟨v1, hv1⟩ := steps_back hR hr hv'
    obtain ⟨g1, g2, g3, -⟩ := hc.step h h1 hv hv1
    obtain ⟨i1, i2, i3⟩ := ih g1 hR hv1 hr hv'
    exact ⟨i1, i2.trans g2, i3.trans g3⟩

/-- **C79 (false).** A vehicle gets no permission to leave at its destination if it is sent there while it already follows the only
way there: however the simulation goes on, it has none. -/
theorem C79_no_permission [Env] [LawfulDijkstra] {s'' : Sim F} {v'' : Vehicle F} {dts : List F} (h : Reach True s)
    (hv : s.getVehicle k = .ok v) (hlane : v.laneChange = none) (hw : OnlyWay s.links v.route) (hd : v.route.getLast? = some dst)
    (he : s.setVehicleDestination k dst = .ok s') (hrun : dts.foldlM Sim.step s' = .ok s'') (hv'' : s''.getVehicle k = .ok v'') :
    v''.canExit = false ∧ v''.destination = dst := by
  have hR : Reach True s' := .exec (.setVehicleDestination k dst) h trivial he
  obtain ⟨v', hv'⟩ := steps_back hR hrun (getVeh_ok.1 hv'')
  obtain ⟨h1, h2, h3, h4⟩ := hw.sent h he hv (getVeh_ok.2 hv') hlane rfl hd
  rw [← h3] at h1
  obtain ⟨-, g2, g3⟩ := h1.steps hR hv' hrun (getVeh_ok.1 hv'')
  exact ⟨g2.trans h2, g3.trans h4⟩

/-- **C79** A vehicle that is sent to the end of its only way, and does not follow it yet, has permission to leave there once it chose
its path. -/
theorem C79_permission [Env] [LawfulDijkstra] {s'' : Sim F} {v'' : Vehicle F} {ks : List Key} (h : Reach True s)
    (hv : s.getVehicle k = .ok v) (hlane : v.laneChange = none) (hw : OnlyWay s.links ks) (ha : ks.head? = v.linkId)
    (hd : ks.getLast? = some dst) (hne : v.route ≠ ks) (he : s.setVehicleDestination k dst = .ok s') (hlc : ¬ s'.lcUpdate < 0.3)
    (hst : s'.step dt = .ok s'') (hv'' : s''.getVehicle k = .ok v'') :
    v''.canExit = true ∧ v''.destination = dst ∧ Course s''.links v'' v''.route := by
  have hR : Reach True s' := .exec (.setVehicleDestination k dst) h trivial he
  obtain ⟨s1, s2, s3, s4, s5, s6, hr⟩ := (step_spec hR.inv dt).ok hst
  obtain ⟨v', hv'⟩ := hr.back (getVeh_ok.1 hv'')
  obtain ⟨h1, -, h3, h4⟩ := hw.sent h he hv (getVeh_ok.2 hv') hlane ha hd
  obtain ⟨v1, v2, v4, ht⟩ := hr.trace hv'
  rcases hr.chooses hv' ht.get1 with ⟨hlt, -⟩ | ⟨-, hch⟩
  · exact absurd hlt hlc
  obtain ⟨c1, c2, c3⟩ := h1.takes (by rw [h3]; exact hne) hch
  rw [← c2] at c1
  obtain ⟨g1, g2, g3, -⟩ := Course.rest hr ht c1 (getVeh_ok.1 hv'')
  refine ⟨g2.trans c3, ?_, g1⟩
  exact g3.trans (ht.steer.same.2.2.2.2.trans h4)

/-! ### Driving to the destination -/

/-- The vehicle `k` is alone, not frozen, on the only way to its destination, where it may leave.  The links ahead on its route
are open, no light controls them, and no two links of the route have a common point of conflict. -/
structure Clear (s : Sim F) (k : Key) (v : Vehicle F) : Prop where
  course : Course s.links v v.route
  exit : v.canExit = true
  only : ∀ j w, s.vehicles.get? j = some w → j = k
  frozen : k ∉ s.frozen
  opened : ∀ j ∈ v.route.tail, ∀ l, s.links.get? j = some l → l.control = .open_
  lights : ∀ j ∈ v.route.tail, ∀ light i, ¬ s.Controls light i j
  conflicts : ∀ c ∈ s.conflicts, c.link0.linkId ∈ v.route → c.link1.linkId ∉ v.route

theorem Clear.alone [Env] {s1 s2 s3 s4 s5 s6 : Sim F} (hc : Clear s k v) (hr : StepRun strict s dt s1 s2 s3 s4 s5 s6 s') :
    Alone s1 k v := by
  have e : s1.frozen = s.frozen ∧ s1.conflicts = s.conflicts := by
    rcases hr.lanes with ⟨-, e⟩ | ⟨-, vs, lcs, e⟩
    · rw [e]; exact ⟨rfl, rfl⟩
    · rw [e.eq]; exact ⟨rfl, rfl⟩
  refine ⟨fun j w hw => ?_, by rw [e.1]; exact hc.frozen, hc.exit, fun lk hlk => ?_, fun lk l hlk hl => ?_, fun j hj l hl => ?_,
    by rw [e.2]; exact hc.conflicts⟩
  · obtain ⟨u, hu, -⟩ := hr.vehs1.bwd hw
    exact hc.only j u hu
  · have := hc.course.way.nodup
    cases hroute : v.route with
    | nil => rw [hroute] at hlk; cases hlk
    | cons a t =>
      rw [hroute] at hlk this
      cases hlk
      exact (List.nodup_cons.1 this).1
  · obtain ⟨l0, hl0, e⟩ := hr.frame1.bwd hl
    obtain ⟨l', hl', hg⟩ := hc.course.way.get (List.mem_of_head? hlk)
    rw [hl0] at hl'; cases hl'
    rw [e]; exact hg
  · obtain ⟨l0, hl0, e⟩ := hr.frame1.bwd hl
    rw [e]; exact hc.opened j hj l0 hl0

theorem light_links {tl tl' : TrafficLight F} (h : tl.step dt = .ok tl') : tl'.links = tl.links := by
  unfold TrafficLight.step at h
  rw [M_bind_ok] at h
  obtain ⟨t1, h1, h⟩ := h
  rw [M_bind_ok] at h
  obtain ⟨t2, h2, h⟩ := h
  rw [M_bind_ok] at h
  obtain ⟨ms, -, h⟩ := h
  rw [M_pure_ok] at h; subst h
  rw [← (TrafficLight.updatePhase_fields h1).2.2.1]
  unfold TrafficLight.applyPhase at h2
  split at h2
  · cases h2
  · rw [M_bind_ok] at h2
    obtain ⟨ms', -, h2⟩ := h2
    rw [M_pure_ok] at h2; subst h2; rfl

/-- A step freezes no vehicle and keeps the conflicts. -/
theorem StepRun.others [Env] {s1 s2 s3 s4 s5 s6 : Sim F} (hr : StepRun strict s dt s1 s2 s3 s4 s5 s6 s') :
    (∀ j, j ∈ s'.frozen → j ∈ s.frozen) ∧ s'.conflicts = s.conflicts := by
  obtain ⟨wss, hl⟩ := hr.lights
  have e1 : s1.frozen = s.frozen ∧ s1.conflicts = s.conflicts := by
    rcases hr.lanes with ⟨-, e⟩ | ⟨-, vs, lcs, e⟩
    · rw [e]; exact ⟨rfl, rfl⟩
    · rw [e.eq]; exact ⟨rfl, rfl⟩
  have e2 : (∀ j, j ∈ s2.frozen → j ∈ s1.frozen) ∧ s2.conflicts = s1.conflicts := by
    rcases hr.acc with ⟨-, e⟩ | ⟨-, n0, n1, vs, e⟩
    · rw [e]; exact ⟨fun _ h => h, rfl⟩
    · rw [e.eq]; exact ⟨fun _ h => (List.mem_filter.1 h).1, rfl⟩
  have e3 : s'.frozen = s2.frozen ∧ s'.conflicts = s2.conflicts := by
    rw [hr.eq]; dsimp only; rw [hr.place.eq]; dsimp only; rw [hr.adv.eq]; dsimp only; rw [hr.move.eq]; dsimp only; rw [hl.eq]
    exact ⟨rfl, rfl⟩
  rw [e3.1, e3.2, e2.2, e1.2, ← e1.1]
  exact ⟨e2.1, rfl⟩

/-- A step keeps the way clear. -/
theorem Clear.step [Env] [LawfulDijkstra] (hc : Clear s k v) (h : Reach strict s) (hst : s.step dt = .ok s')
    (hv : s.vehicles.get? k = some v) (hv' : s'.vehicles.get? k = some v') : Clear s' k v' := by
  obtain ⟨g1, g2, -, g4⟩ := hc.course.step h hst hv hv'
  obtain ⟨s1, s2, s3, s4, s5, s6, hr⟩ := (step_spec h.inv dt).ok hst
  have e := hr.others
  have hsub : (∀ j, j ∈ v'.route → j ∈ v.route) ∧ ∀ j, j ∈ v'.route.tail → j ∈ v.route.tail := by
    rcases g4 with e | ⟨a, e⟩
    · rw [e]; exact ⟨fun _ h => h, fun _ h => h⟩
    · rw [e]; exact ⟨fun _ h => List.mem_cons_of_mem _ h, fun _ h => List.mem_of_mem_tail h⟩
  have hlights : ∀ j ∈ v'.route.tail, ∀ light i, ¬ s'.Controls light i j := by
    rintro j hj light i ⟨tl', htl', hm⟩
    obtain ⟨tl, htl, hs⟩ := (C08_lights h hst).bwd htl'
    rw [light_links hs] at hm
    exact hc.lights j (hsub.2 j hj) light i ⟨tl, htl, hm⟩
  refine ⟨g1, g2.trans hc.exit, fun j w hw => ?_, fun hf => hc.frozen (e.1 k hf), fun j hj l' hl' => ?_, hlights, ?_⟩
  · obtain ⟨u, hu⟩ := hr.back hw
    exact hc.only j u hu
  · obtain ⟨l, hl, -⟩ := hr.frame.bwd hl'
    obtain ⟨l'', hl'', e⟩ := C08_uncontrolled h hst (getLink_ok.2 hl) (hlights j hj)
    rw [getLink_ok.1 hl''] at hl'; cases hl'
    rw [e]; exact hc.opened j (hsub.2 j hj) l hl
  · rw [e.2]
    exact fun c hcc h0 h1 => hc.conflicts c hcc (hsub.1 _ h0) (hsub.1 _ h1)

end

section
variable {strict : Prop} {s s' : Sim ℝ} {dt : ℝ} {k : Key} {v v' : Vehicle ℝ}

/-- The length of a list of links. -/
noncomputable def lengthOf (links : LinkSet ℝ) (ks : List Key) : ℝ :=
  (ks.map fun j => match links.get? j with
    | some l => l.length
    | none => 0).sum

theorem lengthOf_cons {links : LinkSet ℝ} {a : Key} {l : Link ℝ} (h : links.get? a = some l) (ks : List Key) :
    lengthOf links (a :: ks) = l.length + lengthOf links ks := by
  unfold lengthOf
  rw [List.map_cons, List.sum_cons, h]

theorem lengthOf_frame {links links' : LinkSet ℝ} (h : Frame links links') : ∀ ks, lengthOf links' ks = lengthOf links ks := by
  intro ks
  unfold lengthOf
  congr 1
  refine List.map_congr_left fun j _ => ?_
  cases e : links.get? j with
  | some l =>
    obtain ⟨l', hl', hf⟩ := h.fwd j l e
    rw [hl']
    show l'.length = l.length
    unfold Link.length; rw [hf.curve]
  | none =>
    cases e' : links'.get? j with
    | none => rfl
    | some l' =>
      obtain ⟨l, hl, -⟩ := h.bwd e'
      rw [e] at hl; cases hl

/-- A vehicle that can drive: its greatest acceleration is at least `A`, and the speed it aims for on the links of its route at
least `m`. -/
structure Able (links : LinkSet ℝ) (v : Vehicle ℝ) (A m : ℝ) : Prop where
  acc : A ≤ v.acc.maxAcc
  dec : 0 ≤ v.acc.comfDec
  limit : ∀ j ∈ v.route, ∀ l, links.get? j = some l → m ≤ v.acc.velAdj * l.speedLimit ∧ 0 ≤ l.length

theorem lengthOf_nonneg {links : LinkSet ℝ} : ∀ {ks : List Key}, (∀ j ∈ ks, ∀ l, links.get? j = some l → 0 ≤ l.length) →
    0 ≤ lengthOf links ks := by
  intro ks h
  unfold lengthOf
  refine List.sum_nonneg fun x hx => ?_
  obtain ⟨j, hj, rfl⟩ := List.mem_map.1 hx
  split
  · rename_i l hl; exact h j hj l hl
  · exact le_rfl

/-- Slower than half the speed it aims for, a vehicle speeds up with at least 15/16 of its greatest acceleration. -/
theorem LimitAcc.half {m : AccelerationModel ℝ} {vel limit a x : ℝ} (h : LimitAcc m vel limit a) (h0 : 0 ≤ vel) (hx : 0 < x)
    (hlim : x ≤ m.velAdj * limit) (hv : vel ≤ x / 2) (hA : 0 ≤ m.maxAcc) (hd : 0 ≤ m.comfDec) : 15 / 16 * m.maxAcc ≤ a := by
  cases h with
  | now =>
    have h1 : 0 < m.velAdj * limit := by linarith
    have h2 : vel / (m.velAdj * limit) ≤ 1 / 2 := by rw [div_le_iff₀ h1]; linarith
    have h3 : 0 ≤ vel / (m.velAdj * limit) := div_nonneg h0 h1.le
    have h4 : (vel / (m.velAdj * limit)) ^ 4 ≤ (1 / 2) ^ 4 := pow_le_pow_left₀ h3 h2 4
    have h5 : pow4 (vel / (m.velAdj * limit)) = (vel / (m.velAdj * limit)) ^ 4 := by unfold pow4; ring
    rw [h5]
    have : m.maxAcc * (vel / (m.velAdj * limit)) ^ 4 ≤ m.maxAcc * (1 / 16) := mul_le_mul_of_nonneg_left (by linarith) hA
    norm_num
    linarith
  | ahead d hd0 hle =>
    exfalso
    have hd0 : 0 < d := by
      have : ¬ d ≤ 0 := fun h => hd0 (by norm_num; exact h)
      exact not_le.1 this
    have : 0 < (sq (m.velAdj * limit) - sq vel) / (2.0 * d) := by
      refine div_pos ?_ (by norm_num; exact hd0)
      unfold sq
      nlinarith
    linarith

theorem le_foldl_fmin {b : ℝ} : ∀ {as : List ℝ} {x : ℝ}, b ≤ x → (∀ a ∈ as, b ≤ a) → b ≤ as.foldl fmin x := by
  intro as
  induction as with
  | nil => intro x hx _; exact hx
  | cons a as ih =>
    intro x hx h
    refine ih ?_ fun a' ha' => h a' (by simp [ha'])
    show b ≤ fmin x a
    simp only [fmin]
    exact le_min hx (h a (by simp))

/-- How a vehicle with a clear way gets on in a step. -/
structure Advanced (δ A m : ℝ) (s s' : Sim ℝ) (v v' : Vehicle ℝ) : Prop where
  /-- the way ahead gets no longer -/
  less : lengthOf s'.links v'.route - v'.pos ≤ lengthOf s.links v.route - v.pos
  /-- and shorter when accelerations are due -/
  due : ¬ s.accUpdate < 0.1 → lengthOf s'.links v'.route - v'.pos ≤
    lengthOf s.links v.route - v.pos - min (15 / 32 * A * δ ^ 2) (m * δ / 4)
  able : Able s'.links v' A m
  /-- past the end of its route, the vehicle passes one link after the other -/
  past : lengthOf s.links v.route - v.pos < 0 → ∃ a, v.route = a :: v'.route
  route : v'.route = v.route ∨ ∃ a, v.route = a :: v'.route

theorem Clear.advanced [Env] [LawfulDijkstra] {δ A m : ℝ} (hc : Clear s k v) (h : Reach strict s) (hst : s.step dt = .ok s')
    (hv : s.vehicles.get? k = some v) (hv' : s'.vehicles.get? k = some v') (hδ : 0 < δ) (hdt : δ ≤ dt) (hA : 0 < A) (hm : 0 < m)
    (hab : Able s.links v A m) : Advanced δ A m s s' v v' := by
  obtain ⟨s1, s2, s3, s4, s5, s6, hr⟩ := (step_spec h.inv dt).ok hst
  obtain ⟨v1, v2, v4, ht⟩ := hr.trace hv
  have e1 := hc.course.first hr hv ht.get1
  subst e1
  obtain ⟨w1, hw, hvel, -, hdr⟩ := C70_drive h hst hv hv'
  have ew : w1 = v1 := by
    rcases hw with ⟨-, e⟩ | ⟨-, hch⟩
    · exact e
    · exact hc.course.keeps hch
  subst ew
  obtain ⟨p1, p2, -, ⟨a, p4⟩, -⟩ := step_speed h hst (getVeh_ok.2 hv) (getVeh_ok.2 hv')
  have v0 := C20_speed h (getVeh_ok.2 hv)
  have v0' : 0 ≤ v'.vel := by rw [p1]; exact le_max_right _ _
  set d := 0.5 * (w1.vel + v'.vel) * dt with hd
  have hd' : d = (w1.vel + v'.vel) / 2 * dt := by rw [hd, show (0.5 : ℝ) = 1 / 2 by norm_num]; ring
  have hdt0 : 0 < dt := by linarith
  have d0 : 0 ≤ d := by rw [hd']; exact mul_nonneg (by linarith) hdt0.le
  have hdue : ¬ s.accUpdate < 0.1 → min (15 / 32 * A * δ ^ 2) (m * δ / 4) ≤ d := by
    intro hre
    obtain ⟨as, q1, q2⟩ := C78_free h hst hre hr.run1 (getVeh_ok.2 ht.get1) (getVeh_ok.2 hv') (hc.alone hr)
    by_cases hs : w1.vel ≤ m / 2
    · refine (min_le_left _ _).trans ?_
      have hacc : 15 / 16 * w1.acc.maxAcc ≤ v'.acc.acc := by
        rw [q1]
        refine le_foldl_fmin (by linarith [hab.acc]) fun b hb => ?_
        obtain ⟨j, l, hj, hl, hla⟩ := q2 b hb
        obtain ⟨l0, hl0, e⟩ := hr.frame1.bwd (getLink_ok.1 hl)
        refine hla.half v0 hm ?_ hs (by linarith [hab.acc]) hab.dec
        rw [e]; exact (hab.limit j hj l0 hl0).1
      have hget : 15 / 16 * A ≤ v'.acc.getAcc := by
        simp only [AccelerationModel.getAcc, fmax]
        exact le_max_of_le_left (by linarith [hab.acc])
      have hv1 : 15 / 16 * A * δ ≤ v'.vel := by
        rw [p1]
        refine le_max_of_le_left ?_
        have : δ * (15 / 16 * A) ≤ dt * v'.acc.getAcc := mul_le_mul hdt hget (by positivity) hdt0.le
        linarith
      rw [hd']
      have : 15 / 32 * A * δ * δ ≤ (w1.vel + v'.vel) / 2 * dt := mul_le_mul (by linarith) hdt hδ.le (by linarith)
      linarith
    · refine (min_le_right _ _).trans ?_
      rw [not_le] at hs
      rw [hd']
      have : m / 4 * δ ≤ (w1.vel + v'.vel) / 2 * dt := mul_le_mul (by linarith) hdt hδ.le (by linarith)
      linarith
  have hlen := fun ks => lengthOf_frame hr.frame ks
  have hsub : ∀ r, (r = w1.route ∨ ∃ a, w1.route = a :: r) → ∀ j ∈ r, ∀ l, s'.links.get? j = some l →
      m ≤ w1.acc.velAdj * l.speedLimit ∧ 0 ≤ l.length := by
    intro r hr' j hj l' hl'
    obtain ⟨l, hl, hf⟩ := hr.frame.bwd hl'
    have hj' : j ∈ w1.route := by
      rcases hr' with e | ⟨a, e⟩
      · rw [← e]; exact hj
      · rw [e]; exact List.mem_cons_of_mem _ hj
    have := hab.limit j hj' l hl
    unfold Link.length at this ⊢
    rw [hf.speedLimit, hf.curve]; exact this
  have hable : (v'.route = w1.route ∨ ∃ a, w1.route = a :: v'.route) → Able s'.links v' A m := by
    intro hr'
    refine ⟨by rw [p4]; exact hab.acc, by rw [p4]; exact hab.dec, ?_⟩
    rw [p4]; exact hsub _ hr'
  cases hdr with
  | stays a l ha hl hlt er ep epos elc =>
    have hpos : v'.pos = w1.pos + d := epos
    refine ⟨?_, fun hre => ?_, hable (.inl er), fun hneg => ?_, .inl er⟩
    · rw [hlen, er, hpos]; linarith
    · rw [hlen, er, hpos]; linarith [hdue hre]
    · exfalso
      obtain ⟨t, et⟩ : ∃ t, w1.route = a :: t := by
        cases hrt : w1.route with
        | nil => rw [hrt] at ha; cases ha
        | cons b t => rw [hrt] at ha; cases ha; exact ⟨t, rfl⟩
      rw [et, lengthOf_cons hl] at hneg
      have : 0 ≤ lengthOf s.links t := lengthOf_nonneg fun j hj l' hl' => (hab.limit j (by rw [et]; exact List.mem_cons_of_mem _ hj) l' hl').2
      have hlt' : ¬ l.length < w1.pos + d := hlt
      exact hlt' (by linarith)
  | passes a l er hl hlt _ _ _ epos _ =>
    have hpos : v'.pos = w1.pos + d - l.length := epos
    refine ⟨?_, fun hre => ?_, hable (.inr ⟨a, er⟩), fun _ => ⟨a, er⟩, .inr ⟨a, er⟩⟩
    · rw [hlen, er, lengthOf_cons hl, hpos]; linarith
    · rw [hlen, er, lengthOf_cons hl, hpos]; linarith [hdue hre]

/-- In the course of these steps from `s`, the vehicle `k` leaves the simulation on the link `dst`. -/
def LeavesAt [Env] (k dst : Key) (s : Sim ℝ) (dts : List ℝ) : Prop :=
  ∃ pre dt post t t' w, dts = pre ++ dt :: post ∧ pre.foldlM Sim.step s = .ok t ∧ t.step dt = .ok t' ∧ t.getVehicle k = .ok w ∧
    w.linkId = some dst ∧ ∀ w', t'.getVehicle k ≠ .ok w'

theorem LeavesAt.cons [Env] {dst : Key} {dts : List ℝ} {s1 : Sim ℝ} (h : LeavesAt k dst s1 dts) (hst : s.step dt = .ok s1) :
    LeavesAt k dst s (dt :: dts) := by
  obtain ⟨pre, dt', post, t, t', w, h1, h2, h3⟩ := h
  refine ⟨dt :: pre, dt', post, t, t', w, by rw [h1]; rfl, ?_, h3⟩
  rw [List.foldlM_cons, hst]; exact h2

/-- Where a vehicle on its course leaves. -/
theorem Clear.last [Env] [LawfulDijkstra] (hc : Clear s k v) (h : Reach strict s) (hst : s.step dt = .ok s')
    (hv : s.vehicles.get? k = some v) (hn : s'.vehicles.get? k = none) (dts : List ℝ) : LeavesAt k v.destination s (dt :: dts) := by
  refine ⟨[], dt, dts, s, s', v, rfl, rfl, hst, getVeh_ok.2 hv, ?_, fun w hw => by have := getVeh_ok.1 hw; rw [hn] at this; cases this⟩
  obtain ⟨s1, s2, s3, s4, s5, s6, hr⟩ := (step_spec h.inv dt).ok hst
  obtain ⟨v1, v2, v4, ht⟩ := hr.trace hv
  have e1 := hc.course.first hr hv ht.get1
  subst e1
  have e4 : v4.route = v1.route := by
    obtain ⟨a, w, e2⟩ := ht.acc.same
    obtain ⟨sq, sq', hm, -⟩ := ht.move
    obtain ⟨-, -, m2, -⟩ := integrate_motion hm
    rw [m2, e2]
  cases ht.out with
  | stays u hu _ _ => rw [hn] at hu; cases hu
  | passes v5 u _ _ hu _ => rw [hn] at hu; cases hu
  | leaves v5 hp h5 _ =>
    obtain ⟨b, rest, l, pf, hroute, -, -, e5, -⟩ := hp.ex
    rw [e5] at h5
    dsimp only at h5
    subst h5
    have hd := hc.course.dst
    rw [← e4, hroute] at hd
    show v1.route.head? = _
    rw [← e4, hroute]; exact hd

theorem Clear.destination [Env] [LawfulDijkstra] (hc : Clear s k v) (h : Reach strict s) (hst : s.step dt = .ok s')
    (hv : s.vehicles.get? k = some v) (hv' : s'.vehicles.get? k = some v') : v'.destination = v.destination :=
  (hc.course.step h hst hv hv').2.2.1

variable {δ A m : ℝ}

/-- A vehicle that is past the end of its route leaves within as many steps as the route has links. -/
theorem Clear.past [Env] [LawfulDijkstra] (hδ : 0 < δ) (hA : 0 < A) (hm : 0 < m) : ∀ {dts : List ℝ} {s s' : Sim ℝ} {v : Vehicle ℝ},
    Clear s k v → Reach strict s → s.vehicles.get? k = some v → Able s.links v A m → lengthOf s.links v.route - v.pos < 0 →
    (∀ dt ∈ dts, δ ≤ dt) → v.route.length ≤ dts.length → dts.foldlM Sim.step s = .ok s' → LeavesAt k v.destination s dts := by
  intro dts
  induction dts with
  | nil =>
    intro s s' v hc _ _ _ _ _ hlen _
    have := hc.course.dst
    rw [List.length_eq_zero_iff.1 (Nat.le_zero.1 hlen)] at this
    cases this
  | cons dt dts ih =>
    intro s s' v hc h hv hab hneg hd hlen hrun
    rw [List.foldlM_cons, M_bind_ok] at hrun
    obtain ⟨s1, h1, hrun⟩ := hrun
    cases hv1 : s1.vehicles.get? k with
    | none => exact hc.last h h1 hv hv1 dts
    | some v1 =>
      have ha := hc.advanced h h1 hv hv1 hδ (hd dt (by simp)) hA hm hab
      obtain ⟨a, ea⟩ := ha.past hneg
      rw [ea] at hlen
      have := ih (hc.step h h1 hv hv1) (.exec (.step dt) h trivial h1) hv1 ha.able (lt_of_le_of_lt ha.less hneg)
        (fun d hd' => hd d (by simp [hd'])) (by simp at hlen; exact hlen) hrun
      rw [hc.destination h h1 hv hv1] at this
      exact this.cons h1

/-- An upper bound for the number of steps until accelerations are due. -/
noncomputable def untilDue (δ : ℝ) (s : Sim ℝ) : ℝ := if s.accUpdate < 0.1 then (0.1 - s.accUpdate) / δ + 1 else 0

/-- A vehicle with a clear way leaves at its destination within a number of steps. -/
theorem Clear.leaves [Env] [LawfulDijkstra] (hδ : 0 < δ) (hA : 0 < A) (hm : 0 < m) {c : ℝ} (hc0 : c = min (15 / 32 * A * δ ^ 2) (m * δ / 4)) :
    ∀ (n : ℕ) {dts : List ℝ} {s s' : Sim ℝ} {v : Vehicle ℝ},
    Clear s k v → Reach strict s → s.vehicles.get? k = some v → Able s.links v A m →
    (0.1 / δ + 2) * ((lengthOf s.links v.route - v.pos) / c) + untilDue δ s < n →
    (∀ dt ∈ dts, δ ≤ dt) → n + v.route.length ≤ dts.length → dts.foldlM Sim.step s = .ok s' → LeavesAt k v.destination s dts := by
  have hc : 0 < c := by rw [hc0]; refine lt_min ?_ ?_ <;> positivity
  have hN : 0 < 0.1 / δ + 2 := by positivity
  have hw : ∀ s : Sim ℝ, 0 ≤ untilDue δ s := by
    intro s
    unfold untilDue
    split
    · rename_i h
      have : 0 ≤ (0.1 - s.accUpdate) / δ := div_nonneg (by linarith) hδ.le
      linarith
    · exact le_rfl
  intro n
  induction n with
  | zero =>
    intro dts s s' v hcl h hv hab hpot hd hlen hrun
    refine hcl.past hδ hA hm h hv hab ?_ hd (by omega) hrun
    have h1 : (0.1 / δ + 2) * ((lengthOf s.links v.route - v.pos) / c) < 0 := by
      have := hw s
      push_cast at hpot
      linarith
    by_contra hn
    rw [not_lt] at hn
    have := mul_nonneg hN.le (div_nonneg hn hc.le)
    linarith
  | succ n ih =>
    intro dts s s' v hcl h hv hab hpot hd hlen hrun
    by_cases hneg : lengthOf s.links v.route - v.pos < 0
    · exact hcl.past hδ hA hm h hv hab hneg hd (by omega) hrun
    rw [not_lt] at hneg
    cases dts with
    | nil => simp at hlen
    | cons dt dts =>
      rw [List.foldlM_cons, M_bind_ok] at hrun
      obtain ⟨s1, h1, hrun⟩ := hrun
      cases hv1 : s1.vehicles.get? k with
      | none => exact hcl.last h h1 hv hv1 dts
      | some v1 =>
        have hdt : δ ≤ dt := hd dt (by simp)
        have ha := hcl.advanced h h1 hv hv1 hδ hdt hA hm hab
        have hle : v1.route.length ≤ v.route.length := by
          rcases ha.route with e | ⟨a, e⟩
          · rw [e]
          · rw [e]; simp
        refine LeavesAt.cons ?_ h1
        rw [← hcl.destination h h1 hv hv1]
        refine ih (hcl.step h h1 hv hv1) (.exec (.step dt) h trivial h1) hv1 ha.able ?_ (fun d hd' => hd d (by simp [hd'])) ?_ hrun
        · obtain ⟨_, _, _, _, _, _, hr⟩ := (step_spec h.inv dt).ok h1
          have hclk : s1.accUpdate = if s.accUpdate < 0.1 then s.accUpdate + dt else 0.0 + dt := hr.clocks.2.1
          push_cast at hpot
          by_cases hdue : s.accUpdate < 0.1
          · rw [if_pos hdue] at hclk
            have hr1 : (lengthOf s1.links v1.route - v1.pos) / c ≤ (lengthOf s.links v.route - v.pos) / c :=
              div_le_div_of_nonneg_right ha.less hc.le
            have hr2 := mul_le_mul_of_nonneg_left hr1 hN.le
            have hw1 : untilDue δ s1 ≤ untilDue δ s - 1 := by
              unfold untilDue
              rw [if_pos hdue, hclk]
              split
              · have : (0.1 - (s.accUpdate + dt)) / δ ≤ (0.1 - s.accUpdate) / δ - 1 := by
                  rw [← sub_nonneg]
                  have : (0.1 - s.accUpdate) / δ - 1 - (0.1 - (s.accUpdate + dt)) / δ = (dt - δ) / δ := by field_simp; ring
                  rw [this]; exact div_nonneg (by linarith) hδ.le
                linarith
              · have : 0 ≤ (0.1 - s.accUpdate) / δ := div_nonneg (by linarith) hδ.le
                linarith
            linarith
          · rw [if_neg hdue] at hclk
            have hr1 : (lengthOf s1.links v1.route - v1.pos) / c ≤ (lengthOf s.links v.route - v.pos) / c - 1 := by
              have := ha.due hdue
              rw [← hc0] at this
              rw [div_sub_one hc.ne']
              exact div_le_div_of_nonneg_right this hc.le
            have hr2 := mul_le_mul_of_nonneg_left hr1 hN.le
            have hw1 : untilDue δ s1 ≤ 0.1 / δ + 1 := by
              unfold untilDue
              split
              · have : (0.1 - s1.accUpdate) / δ ≤ 0.1 / δ := by
                  refine div_le_div_of_nonneg_right ?_ hδ.le
                  rw [hclk]; norm_num; linarith
                linarith
              · positivity
            have hw0 := hw s
            linarith
        · simp at hlen; omega

/-- **C79** In exact arithmetic: a vehicle that may leave at its destination, is alone and has a clear way there, gets there and leaves
there, if no step is shorter than some `δ > 0`. -/
theorem C79_arrives_partial [Env] [LawfulDijkstra] (h : Reach strict s) (hv : s.getVehicle k = .ok v) (hc : Clear s k v)
    (hacc : 0 < v.acc.maxAcc) (hdec : 0 ≤ v.acc.comfDec)
    (hlim : ∀ j ∈ v.route, ∀ l, s.getLinkRef j = .ok l → 0 < v.acc.velAdj * l.speedLimit ∧ 0 ≤ l.length) (hδ : 0 < δ) :
    ∃ n, ∀ (dts : List ℝ) (s' : Sim ℝ), n ≤ dts.length → (∀ dt ∈ dts, δ ≤ dt) → dts.foldlM Sim.step s = .ok s' →
      LeavesAt k v.destination s dts ∧ ∀ v', s'.getVehicle k ≠ .ok v' := by
  obtain ⟨m, hm, hlow⟩ : ∃ m : ℝ, 0 < m ∧ ∀ j ∈ v.route, ∀ l, s.getLinkRef j = .ok l → m ≤ v.acc.velAdj * l.speedLimit := by
    have hlim' : ∀ j ∈ v.route, ∀ l, s.getLinkRef j = .ok l → 0 < v.acc.velAdj * l.speedLimit := fun j hj l hl => (hlim j hj l hl).1
    clear hlim hc
    generalize v.route = ks at hlim'
    induction ks with
    | nil => exact ⟨1, one_pos, nofun⟩
    | cons a ks ih =>
      obtain ⟨m, hm, h1⟩ := ih fun j hj => hlim' j (by simp [hj])
      cases hl : s.getLinkRef a with
      | error e =>
        refine ⟨m, hm, fun j hj l hl' => ?_⟩
        rcases List.mem_cons.1 hj with rfl | hj
        · rw [hl] at hl'; cases hl'
        · exact h1 j hj l hl'
      | ok la =>
        refine ⟨min m (v.acc.velAdj * la.speedLimit), lt_min hm (hlim' a (by simp) la hl), fun j hj l hl' => ?_⟩
        rcases List.mem_cons.1 hj with rfl | hj
        · rw [hl] at hl'; cases hl'; exact min_le_right _ _
        · exact (min_le_left _ _).trans (h1 j hj l hl')
  have hab : Able s.links v v.acc.maxAcc m :=
    ⟨le_rfl, hdec, fun j hj l hl => ⟨hlow j hj l (getLink_ok.2 hl), (hlim j hj l (getLink_ok.2 hl)).2⟩⟩
  obtain ⟨n, hn⟩ := exists_nat_gt ((0.1 / δ + 2) * ((lengthOf s.links v.route - v.pos) / min (15 / 32 * v.acc.maxAcc * δ ^ 2) (m * δ / 4)) +
    untilDue δ s)
  refine ⟨n + v.route.length, fun dts s' hlen hd hrun => ?_⟩
  have hleft := Clear.leaves hδ hacc hm rfl n hc h (getVeh_ok.1 hv) hab hn hd hlen hrun
  refine ⟨hleft, fun v' hv' => ?_⟩
  obtain ⟨pre, dt, post, t, t', w, e, h1, h2, -, -, h3⟩ := hleft
  rw [e, List.foldlM_append, M_bind_ok] at hrun
  obtain ⟨t0, e1, hrun⟩ := hrun
  rw [h1] at e1; cases e1
  rw [List.foldlM_cons, M_bind_ok] at hrun
  obtain ⟨t1, e1, hrun⟩ := hrun
  rw [h2] at e1; cases e1
  obtain ⟨u, hu⟩ := steps_back (.exec (.step dt) (h.steps h1) trivial h2) hrun (getVeh_ok.1 hv')
  exact h3 u (getVeh_ok.2 hu)

/-! ### Without permission to leave -/

/-- **C79 (false).** In exact arithmetic: a vehicle that is alone on the link of its destination and has no permission to leave stays
there for ever: in all following steps of at most `D` seconds, it is on this link and its front does not pass the end.  It stands, or
would stop before the end if it braked fully.  `V` is at least the speed that it could reach on the rest of the link. -/
theorem C79_stranded [Env] [LawfulDijkstra] {D V : ℝ} {lk : Key} {l : Link ℝ} {dts : List ℝ} (h : Reach strict s)
    (hre : ¬ s.accUpdate < 0.1) (hv : s.getVehicle k = .ok v) (hroute : v.route = [lk]) (hl : s.getLinkRef lk = .ok l)
    (hc : Course s.links v v.route) (hex : v.canExit = false) (honly : ∀ j w, s.vehicles.get? j = some w → j = k)
    (hlen : 0 ≤ v.halfLen) (hst : Stopping v.acc (D + 0.1)) (hV0 : 0 ≤ V) (hV : v.vel ^ 2 + 2 * v.acc.maxAcc * (l.length - v.pos) ≤ V ^ 2)
    (hwide : V ^ 2 + 2 * (v.acc.maxAcc + 6) * (D + 0.1) * V + (v.acc.maxAcc + 3) ^ 2 * (D + 0.1) ^ 2 ≤ 60 * l.speedLimit)
    (hgap : v.posFront ≤ l.length) (hstop : v.vel = 0 ∨ v.posFront + v.vel ^ 2 / 12 + 3 / 4 * (D + 0.1) ^ 2 ≤ l.length)
    (hd : ∀ dt ∈ dts, 0 ≤ dt ∧ dt ≤ D) (hrun : dts.foldlM Sim.step s = .ok s') :
    ∃ v', s'.getVehicle k = .ok v' ∧ v'.linkId = some lk ∧ v'.posFront ≤ l.length := by
  have hmax : 0 ≤ v.acc.maxAcc := by have := hst.acc; norm_num at this; linarith
  suffices ∀ (dts : List ℝ) {t : Sim ℝ} {w : Vehicle ℝ}, Relation.ReflTransGen (LineStep k lk D V) s t → Reach strict t →
      (∃ lt, t.getLinkRef lk = .ok lt ∧ lt.length = l.length) →
      t.getVehicle k = .ok w → w.route = [lk] → Course t.links w w.route → w.canExit = false → (∀ j u, t.vehicles.get? j = some u → j = k) →
      (∃ a, w.acc = { v.acc with acc := a }) → w.halfLen = v.halfLen → w.vel ^ 2 + 2 * v.acc.maxAcc * (l.length - w.pos) ≤ V ^ 2 → (∀ dt ∈ dts, 0 ≤ dt ∧ dt ≤ D) →
      dts.foldlM Sim.step t = .ok s' → Relation.ReflTransGen (LineStep k lk D V) s s' from
    C77_stops h hre hv (by rw [Vehicle.linkId, hroute]; rfl) hl hlen hst hwide hgap hstop
      (this dts .refl h ⟨l, hl, rfl⟩ hv hroute hc hex honly ⟨_, rfl⟩ rfl hV hd hrun)
  intro dts
  induction dts with
  | nil => rintro t w hline - - - - - - - - - - - ⟨⟩; exact hline
  | cons dt dts ih =>
    intro t w hline ht hlt hw hroute' hc' hex' honly' hacc hhalf hV' hd hrun
    rw [List.foldlM_cons, M_bind_ok] at hrun
    obtain ⟨t', h1, hrun⟩ := hrun
    obtain ⟨hdt, hdD⟩ := hd dt (by simp)
    obtain ⟨lt, hlt, elt⟩ := hlt
    obtain ⟨w0, hw0, -, hfr⟩ := C77_stops h hre hv (by rw [Vehicle.linkId, hroute]; rfl) hl hlen hst hwide hgap hstop hline
    rw [hw] at hw0; cases hw0
    have hpos : w.pos ≤ l.length := by rw [Vehicle.posFront, hhalf] at hfr; linarith
    have hwV : w.vel ≤ V := by
      refine abs_le_of_sq_le_sq' ?_ hV0 |>.2
      have := mul_nonneg (mul_nonneg zero_le_two hmax) (sub_nonneg.2 hpos)
      linarith
    have hstep : LineStep k lk D V t t' := by
      refine ⟨dt, hdt, hdD, h1, ?_, fun w1 hw1 => ?_⟩
      swap
      · rw [hw] at hw1; cases hw1; exact hwV
      obtain ⟨s1, s2, s3, s4, s5, s6, hr⟩ := (step_spec ht.inv dt).ok h1
      obtain ⟨v1, v2, v4, htr⟩ := hr.trace (getVeh_ok.1 hw)
      have e1 := hc'.first hr (getVeh_ok.1 hw) htr.get1
      subst e1
      obtain ⟨l1, hl1, -⟩ := hr.frame1.frame.fwd lk lt (getLink_ok.1 hlt)
      have hv1 := hr.inv1.veh k v1 htr.get1
      have hlink : v1.linkId = some lk := by rw [Vehicle.linkId, hroute']; rfl
      obtain ⟨hnd, hm⟩ := hr.inv1.mem lk l1 hl1
      obtain ⟨pre, post, e⟩ := List.append_of_mem ((hm k).2 ⟨v1, htr.get1, hlink⟩)
      refine ⟨s1, v1, l1, pre, post, hr.run1, getVeh_ok.2 htr.get1, getLink_ok.2 hl1, hlink, ?_, e, fun a ha => ?_,
        fun _ => .inr (.inl ⟨by rw [hroute']; rfl, hex'⟩)⟩
      · have h2 := hv1.enteredLe
        rw [hroute'] at h2
        exact le_antisymm h2 hv1.entered
      · exfalso
        have ha' : a ∈ l1.vehicles := by rw [e]; simp [ha]
        obtain ⟨u, hu, -⟩ := (hm a).1 ha'
        obtain ⟨u0, hu0, -⟩ := hr.vehs1.bwd hu
        have := honly' a u0 hu0
        subst this
        rw [e, List.nodup_append] at hnd
        exact (List.nodup_cons.1 hnd.2.1).1 ha
    have hline' := hline.tail hstep
    have ht' := Reach.exec (.step dt) ht trivial h1
    obtain ⟨w', hw', hlk', -⟩ := C77_stops h hre hv (by rw [Vehicle.linkId, hroute]; rfl) hl hlen hst hwide hgap hstop hline'
    obtain ⟨g1, g2, g3, g4⟩ := hc'.step ht h1 (getVeh_ok.1 hw) (getVeh_ok.1 hw')
    obtain ⟨s1, s2, s3, s4, s5, s6, hr⟩ := (step_spec ht.inv dt).ok h1
    obtain ⟨lt', hlt', hf⟩ := hr.frame.fwd lk lt (getLink_ok.1 hlt)
    obtain ⟨p1, p2, -, ⟨a, p4⟩, p5⟩ := step_speed ht h1 hw hw'
    obtain ⟨a0, ea⟩ := hacc
    have hroute1 : w'.route = [lk] := by
      rcases g4 with e | ⟨b, e⟩
      · rw [e]; exact hroute'
      · rw [hroute'] at e
        injection e with _ e
        rw [Vehicle.linkId, ← e] at hlk'; cases hlk'
    refine ih hline' ht' ⟨lt', getLink_ok.2 hlt', by unfold Link.length at elt ⊢; rw [hf.curve]; exact elt⟩ hw' hroute1 g1 (g2.trans hex') ?_
      ⟨a, by rw [p4, ea]⟩ (p5.trans hhalf) ?_ (fun d hd' => hd d (by simp [hd'])) hrun
    · intro j u hu
      obtain ⟨u0, hu0⟩ := hr.back hu
      exact honly' j u0 hu0
    · have hle : w'.acc.getAcc ≤ v.acc.maxAcc := by
        have := ht'.acc_le hw'
        rw [p4, ea] at this
        rw [p4, ea]
        simp only [AccelerationModel.getAcc, fmax, maxDecel]
        refine max_le (this.trans (max_le le_rfl ?_)) ?_
        · linarith
        · norm_num; linarith
      obtain ⟨w1, hch, -, -, hdr⟩ := C70_drive ht h1 (getVeh_ok.1 hw) (getVeh_ok.1 hw')
      have ew : w1 = w := by
        rcases hch with ⟨-, e⟩ | ⟨-, hch⟩
        · exact e
        · exact hc'.keeps hch
      subst ew
      have v0 := C20_speed ht hw
      have v0' : 0 ≤ w'.vel := by rw [p1]; exact le_max_right _ _
      have epos : w'.pos = w1.pos + (w1.vel + w'.vel) / 2 * dt := by
        cases hdr with
        | stays a l _ _ _ _ _ epos _ =>
          have : w'.pos = w1.pos + 0.5 * (w1.vel + w'.vel) * dt := epos
          rw [this, show (0.5 : ℝ) = 1 / 2 by norm_num]; ring
        | passes a l er _ _ _ _ _ _ _ =>
          rw [hroute', hroute1] at er; cases er
      have hen : w'.vel ^ 2 ≤ w1.vel ^ 2 + v.acc.maxAcc * ((w1.vel + w'.vel) * dt) := by
        have h0 : 0 ≤ (w1.vel + w'.vel) * dt := mul_nonneg (by linarith) hdt
        rcases max_cases (w1.vel + dt * w'.acc.getAcc) 0 with ⟨e, -⟩ | ⟨e, -⟩
        · rw [e] at p1
          have h3 := mul_le_mul_of_nonneg_right hle h0
          have h4 : w'.vel ^ 2 - w1.vel ^ 2 = w'.acc.getAcc * ((w1.vel + w'.vel) * dt) := by
            have : dt * w'.acc.getAcc = w'.vel - w1.vel := by linarith
            calc _ = (w'.vel - w1.vel) * (w1.vel + w'.vel) := by ring
              _ = _ := by rw [← this]; ring
          linarith
        · rw [e] at p1
          rw [p1]
          have := mul_nonneg hmax h0
          rw [p1] at this
          nlinarith [sq_nonneg w1.vel]
      have h5 : 2 * v.acc.maxAcc * (l.length - w'.pos) = 2 * v.acc.maxAcc * (l.length - w1.pos) - v.acc.maxAcc * ((w1.vel + w'.vel) * dt) := by
        rw [epos]; ring
      linarith

end

end TrafficSim
