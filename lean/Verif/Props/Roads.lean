import Verif.Lemmas.Row
import Verif.Props.SafetyAcross
import Verif.Props.Small
import Verif.Props.Network

/-! # C84 on roads: vehicles that follow each other on links without branches do not collide -/

namespace TrafficSim

section
variable {strict : Prop} {s s' s1 s2 s3 s4 s5 s6 : Sim ℝ} {dt : ℝ} {k j : Key} {v v1 v2 v4 u u1 u2 u4 : Vehicle ℝ}

/-! ### The order of the vehicles on the links -/

/-- Where there are no lane changes, the lists of vehicles stay as they are. -/
theorem StepRun.still [Env] [LawfulDijkstra] (hr : StepRun strict s dt s1 s2 s3 s4 s5 s6 s')
    (hlc : ∀ a l, s.links.get? a = some l → l.laneChanges = []) : s1.links = s.links := by
  have h1 := hr.run1
  unfold Sim.calculateLaneChanges at h1
  rcases ite_ok.1 h1 with ⟨-, h1⟩ | ⟨hlt, h1⟩
  · rw [M_pure_ok] at h1; rw [← h1]
  · obtain ⟨⟨vs, lcs⟩, h2, h3⟩ := M_bind_ok.1 h1
    obtain ⟨⟨-, hpl⟩, -⟩ := (choosePaths_spec (strict := strict) (div := True) (geo := True) (.inr trivial) hr.inv0).ok h2
    have : lcs = [] := by
      refine List.eq_nil_iff_forall_not_mem.2 fun q hq => ?_
      obtain ⟨v, hv, -, hc, hne⟩ := (hpl q hq).ex
      have hi := hr.inv0.veh _ v hv
      obtain ⟨a, ha, h | ⟨l', hl', hm⟩⟩ := (hi.paths q.2 hc.mem).start
      · rw [ha, h] at hne; exact hne hi.src.symm
      · rw [hlc _ l' hl'] at hm; cases hm
    subst this
    dsimp only at h3
    rw [List.foldlM_nil, M_pure_ok] at h3
    rw [← h3]

theorem StepRun.lists4 [Env] (hr : StepRun strict s dt s1 s2 s3 s4 s5 s6 s') :
    SRel (fun _ l l' => l'.vehicles = l.vehicles) s1.links s4.links := by
  rw [hr.links4]
  obtain ⟨wss, hl⟩ := hr.lights
  have h3 : SRel (fun _ l l' => l'.vehicles = l.vehicles) s2.links s3.links := by
    rw [hl.links]
    exact (writeControls_rel _ _).mono fun k l l' ⟨c, e, _⟩ => by rw [e]
  rcases hr.acc with ⟨-, e⟩ | ⟨-, n0, n1, vs, h⟩
  · rw [e] at h3; exact h3
  · exact h.onLinks.trans h3 fun _ _ _ _ e e' => e'.trans e

/-- Vehicles are put on the next link in order. -/
theorem insertAll_ordered {vs : VehicleSet ℝ} : ∀ (adv : List (Key × Key)) (links links' : LinkSet ℝ),
    (∀ a l, links.get? a = some l → Ordered vs l.vehicles) →
    adv.foldlM (fun links p => Sim.insertOnLink links vs p.2 p.1) links = .ok links' →
    ∀ a l, links'.get? a = some l → Ordered vs l.vehicles
  | [], links, links', ho, h => by
    rw [List.foldlM_nil, M_pure_ok] at h
    rw [← h]; exact ho
  | p :: adv, links, links', ho, h => by
    rw [List.foldlM_cons] at h
    obtain ⟨links1, h1, h2⟩ := M_bind_ok.1 h
    refine insertAll_ordered adv links1 links' (fun a l hl => ?_) h2
    unfold Sim.insertOnLink at h1
    simp only [M_bind_ok, getLink_ok] at h1
    obtain ⟨l0, hl0, l1, h3, h4⟩ := h1
    obtain ⟨h5, -⟩ := C58_insert h3 (ho _ l0 hl0)
    unfold updLink at h4
    rw [hl0] at h4
    cases h4
    rw [SlotMap.get?_modify] at hl
    split at hl
    · rename_i e
      subst e
      rw [hl0] at hl; cases hl
      exact h5
    · exact ho a l hl

theorem advance_ordered [Env] [LawfulDijkstra] (hs : SimInv strict s) (h : s.advanceVehicles = .ok s')
    (ho : ∀ a l, s.links.get? a = some l → Ordered s.vehicles l.vehicles) :
    ∀ a l, s'.links.get? a = some l → Ordered s'.vehicles l.vehicles := by
  unfold Sim.advanceVehicles at h
  obtain ⟨a, h1, h2⟩ := M_bind_ok.1 h
  obtain ⟨links, h3, h4⟩ := M_bind_ok.1 h2
  rw [M_pure_ok] at h4
  have hI : AdvInv s [] a ∧ ∀ lk l', a.links.get? lk = some l' → ∃ l, s.links.get? lk = some l ∧ l'.vehicles.Sublist l.vehicles := by
    refine (Spec.foldlM' (E := fun _ => True) (I := fun rest a => AdvInv s rest a ∧
      ∀ lk l', a.links.get? lk = some l' → ∃ l, s.links.get? lk = some l ∧ l'.vehicles.Sublist l.vehicles)
      (fun a k rest hsuf h => ?_) ⟨?_, fun lk l hl => ⟨l, hl, List.Sublist.refl _⟩⟩).ok h1
    · refine ((advanceOne_spec (.inr trivial) (.inr trivial) hs hsuf h.1).post fun _ e h => And.intro e h).mono ?_ fun _ h => h
      rintro a' ⟨e, h'⟩
      refine ⟨h', fun lk l' hl' => ?_⟩
      unfold Sim.advanceOne at e
      obtain ⟨v, -, e⟩ := M_bind_ok.1 e
      split at e
      · cases e
      · obtain ⟨⟨v', did⟩, -, e⟩ := M_bind_ok.1 e
        rcases ite_ok.1 e with ⟨-, e⟩ | ⟨-, e⟩
        · obtain ⟨links', hu, e⟩ := M_bind_ok.1 e
          have hl : a'.links = links' := by
            split at e <;> rw [M_pure_ok] at e <;> rw [← e]
          rw [hl] at hl'
          unfold updLink at hu
          split at hu
          · cases hu
            rw [SlotMap.get?_modify] at hl'
            split at hl'
            · rename_i e2
              subst e2
              cases hg : a.links.get? lk with
              | none => rw [hg] at hl'; cases hl'
              | some l1 =>
                rw [hg] at hl'; cases hl'
                obtain ⟨l, hl, hsub⟩ := h.2 lk l1 hg
                refine ⟨l, hl, List.Sublist.trans ?_ hsub⟩
                have := (List.erase_sublist (a := k) (l := l1.vehicles.reverse)).reverse
                simpa [Link.removeVehicle] using this
            · exact h.2 lk l' hl'
          · cases hu
        · rw [M_pure_ok] at e
          rw [← e] at hl'
          exact h.2 lk l' hl'
    · exact ⟨SRel.refl fun _ _ _ => rfl, SRel.refl fun k v hk => ⟨fun _ => rfl, fun h =>
        absurd (SlotMap.mem_keys.2 ⟨v, hk⟩) h⟩, (member_iff.1 hs.mem).congr fun j => by simp, by simp, by simp, by simp, by simp⟩
  obtain ⟨hI, hsub⟩ := hI
  have h5 := insertAll_ordered a.advanced a.links links (fun lk l' hl' => by
    obtain ⟨l, hl, hsl⟩ := hsub lk l' hl'
    have hm := (hI.mem lk l' hl').2
    have hsame : ∀ c ∈ l'.vehicles, a.vehicles.get? c = s.vehicles.get? c := by
      intro c hc
      obtain ⟨hno, w, hw, -⟩ := (hm c).1 hc
      obtain ⟨w0, hw0, -, hone⟩ := hI.vehs.bwd hw
      rcases hone (by simp) with ⟨e, -⟩ | ⟨b, -, -, hin, -⟩ | ⟨-, -, hin, -⟩
      · rw [hw, hw0, e]
      · exact absurd (.inl (List.mem_map.2 ⟨_, hin, rfl⟩)) hno
      · exact absurd (.inr hin) hno
    refine List.Pairwise.imp_of_mem ?_ ((ho lk l hl).sublist hsl)
    intro x y hx hy h vx vy gx gy
    rw [hsame x hx] at gx
    rw [hsame y hy] at gy
    exact h vx vy gx gy) h3
  subst h4
  intro lk l hl
  refine (h5 lk l hl).imp fun {x y} h vx vy gx gy => ?_
  dsimp only at gx gy
  rw [removeAll_get] at gx gy
  split at gx
  · cases gx
  · split at gy
    · cases gy
    · exact h vx vy gx gy

theorem StepRun.ordered [Env] [LawfulDijkstra] (hr : StepRun strict s dt s1 s2 s3 s4 s5 s6 s')
    (ho : ∀ a l, s4.links.get? a = some l → Ordered s4.vehicles l.vehicles) :
    ∀ a l, s'.links.get? a = some l → Ordered s'.vehicles l.vehicles := by
  intro a l hl
  rw [hr.links'] at hl
  refine (advance_ordered hr.inv4 hr.run5 ho a l hl).imp fun {x y} h vx vy gx gy => ?_
  rw [hr.vehicles'] at gx gy
  obtain ⟨wx, hx, -, p, d, r, c, rfl⟩ := hr.place.vehicles.bwd gx
  obtain ⟨wy, hy, -, p', d', r', c', rfl⟩ := hr.place.vehicles.bwd gy
  exact h wx wy hx hy

/-! ### Motion of the vehicles, also of those that leave -/

/-- From the capping of the accelerations to the vehicle during a step. -/
theorem StepRun.capped [Env] [LawfulDijkstra] (h : Reach strict s) (hr : StepRun strict s dt s1 s2 s3 s4 s5 s6 s')
    (ht : Trace s dt s1 s2 s3 s4 s' k v v1 v2 v4) (hre : ¬ s.accUpdate < 0.1) {x : ℝ}
    (hcap : SimInv strict s1 → (∀ a b la lb, s1.links.get? a = some la → s1.links.get? b = some lb → b ∈ la.linksOut →
        a ∈ lb.linksIn) → ∀ n0 n1 vs s2, AccRun s1 n0 n1 vs s2 → Capped k x n0.vehicles vs) :
    v2.acc.acc = -6.0 ∨ ∃ as : List ℝ, x ∈ as ∧ v2.acc.acc = as.foldl fmin v1.acc.maxAcc := by
  rcases ht.acc with ⟨hlt, -⟩ | ⟨-, n0, n1, vs, har, ha⟩
  · rw [hr.clocks.1] at hlt; exact absurd hlt hre
  by_cases hf : k ∈ s1.frozen
  · left
    obtain ⟨a, w, ev2, -, hz, -⟩ := ha.eq
    rw [ev2]
    exact hz hf
  · right
    have hsym : ∀ a b la lb, s1.links.get? a = some la → s1.links.get? b = some lb → b ∈ la.linksOut → a ∈ lb.linksIn := by
      intro a b la lb h1 h2 h3
      obtain ⟨la0, g1, e1⟩ := hr.frame1.frame.bwd h1
      obtain ⟨lb0, g2, e2⟩ := hr.frame1.frame.bwd h2
      have := C60_symmetric h (getLink_ok.2 g1) (getLink_ok.2 g2)
      rw [e2.linksIn]
      rw [e1.linksOut] at h3
      refine List.count_pos_iff.1 ?_
      rw [← this]
      exact List.count_pos_iff.2 h3
    obtain ⟨w, as, x, hw, hx, ew⟩ := har.capped ht.get1 hf (hcap hr.inv1 hsym n0 n1 vs s2 har)
    have g2 := ht.get2
    rw [hr.vehicles3, hw] at g2; cases g2
    exact ⟨as, hx, by rw [ew]⟩

/-- Where a vehicle that does not change lanes is before it passes the end of its link. -/
structure Flat (dt : ℝ) (v v1 v2 v4 : Vehicle ℝ) : Prop where
  vel1 : v1.vel = v.vel
  acc1 : v1.acc = v.acc
  pos1 : v1.pos = v.pos
  half1 : v1.halfLen = v.halfLen
  half4 : v4.halfLen = v.halfLen
  route4 : v4.route = v1.route
  vel4 : v4.vel = max (v.vel + dt * v2.acc.getAcc) 0
  pos4 : v4.pos = v.pos + (v.vel + v4.vel) / 2 * dt
  low : -6 ≤ v2.acc.getAcc

theorem Trace.flat [Env] (ht : Trace s dt s1 s2 s3 s4 s' k v v1 v2 v4) (h1 : v1.linkId = v.linkId) : Flat dt v v1 v2 v4 := by
  obtain ⟨e1, e2, -⟩ := ht.steer.same
  obtain ⟨e3, -⟩ := ht.steer.stay h1
  have e4 : v1.halfLen = v.halfLen := by
    rcases ht.steer with (rfl | ⟨p, -, -, rfl⟩) | ⟨p, -, -, hs⟩
    · rfl
    · rfl
    · obtain ⟨link, pos, lc, pf, -, rfl, -⟩ := hs.ex
      rfl
  obtain ⟨a, w, ev2⟩ := ht.acc.same
  obtain ⟨q, e, lc, cnt, ev4, -⟩ := ht.move.eq
  refine ⟨e1, e2, e3, e4, by rw [ev4, ev2]; exact e4, by rw [ev4, ev2], ?_, ?_, ?_⟩
  · rw [ev4]; dsimp only; rw [ev2]; dsimp only; rw [e1]; simp only [fmax]; norm_num
  · have : v4.pos = v2.pos + 0.5 * (v2.vel + v4.vel) * dt := by rw [ev4]
    rw [this, ev2]; dsimp only; rw [e1, e3]
    have h5 : (0.5 : ℝ) = 1 / 2 := by norm_num
    rw [h5]; ring
  · simp only [AccelerationModel.getAcc, fmax, maxDecel]
    exact le_max_of_le_right (by norm_num)

/-- Without lane changes vehicles are on their links after the first phase. -/
theorem StepRun.linkId1 [Env] (hr : StepRun strict s dt s1 s2 s3 s4 s5 s6 s')
    (hlc : ∀ a l, s.links.get? a = some l → l.laneChanges = []) (hv : s.vehicles.get? k = some v)
    (ht : Trace s dt s1 s2 s3 s4 s' k v v1 v2 v4) : v1.linkId = v.linkId := by
  have hi := hr.inv0.veh k v hv
  rcases ht.steer with (rfl | ⟨p, -, e, rfl⟩) | ⟨p, hc, hne, -⟩
  · rfl
  · exact e
  · exfalso
    obtain ⟨a, ha, h | ⟨l', hl', hm⟩⟩ := (hi.paths p hc.mem).start
    · rw [ha, h] at hne; exact hne hi.src.symm
    · rw [hlc _ l' hl'] at hm; cases hm

/-- A vehicle that can stop behind its leader still can before any vehicles pass the ends of their links. -/
theorem StepRun.keeps [Env] {h g : ℝ} (hr : StepRun strict s dt s1 s2 s3 s4 s5 s6 s')
    (ht : Trace s dt s1 s2 s3 s4 s' k v v1 v2 v4) (hf : Flat dt v v1 v2 v4) (hf' : Flat dt u u1 u2 u4)
    (v0 : 0 ≤ v.vel) (u0 : 0 ≤ u.vel) (hdt : 0 ≤ dt) (hh : dt + 0.1 ≤ h)
    (hcan : ¬ s.accUpdate < 0.1 → v.vel = 0 ∨ 3 / 4 * h ^ 2 ≤ g + u.vel ^ 2 / 12 - v.vel ^ 2 / 12 →
      v.vel = 0 ∧ v2.acc.getAcc ≤ 0 ∨ CanStop (3 / 4 * h ^ 2) (g + u.vel ^ 2 / 12) v.vel v2.acc.getAcc h)
    (hk : Keeps h s.accUpdate g v.vel v.acc.getAcc u.vel) :
    Keeps h s'.accUpdate (g + (u4.pos - u.pos) - (v4.pos - v.pos)) v4.vel v2.acc.getAcc u4.vel := by
  have e1 := hf.vel4
  have e2 := hf.low
  have f1 := hf'.vel4
  have f2 := hf'.low
  have e3 : s.accUpdate < 0.1 → v2.acc = v.acc := fun hlt => by
    rcases ht.acc with ⟨-, -, e3⟩ | ⟨hge, -⟩
    · rw [e3, hf.acc1]
    · rw [hr.clocks.1] at hge; exact absurd hlt hge
  rw [hf.pos4, hf'.pos4]
  norm_num at hh
  have hclk := hr.clocks.2.1
  obtain ⟨hg0, hk⟩ := hk
  by_cases hlt : s.accUpdate < 0.1
  · replace hclk := hclk.trans (if_pos hlt)
    rw [if_pos hlt] at hk
    rw [e3 hlt] at e1 e2 ⊢
    have hlt' := hlt
    norm_num at hlt'
    obtain ⟨k1, k2⟩ := keeps_move hg0 u0 v0 e2 f2 hdt (r := h - s.accUpdate) (h := h) (by linarith) (by linarith)
      (hk.imp (fun x => ⟨x.1, x.2 hlt⟩) id) e1 f1 rfl
    refine Keeps.mono (g := g + (u.vel + u4.vel) / 2 * dt - (v.vel + v4.vel) / 2 * dt) ?_ (by linarith)
    refine ⟨k1, k2.imp (fun x => ⟨x.1, fun _ => x.2⟩) fun x => x.mono le_rfl le_rfl ?_⟩
    rw [hclk]
    split <;> linarith
  · replace hclk := hclk.trans (if_neg hlt)
    rw [if_neg hlt] at hk
    have hk' : v.vel = 0 ∨ 3 / 4 * h ^ 2 ≤ g + u.vel ^ 2 / 12 - v.vel ^ 2 / 12 := by
      refine hk.imp And.left fun x => ?_
      have := x 0 le_rfl le_rfl (by linarith)
      simpa using this
    obtain ⟨k1, k2⟩ := keeps_move hg0 u0 v0 e2 f2 hdt (r := h) (h := h) (by linarith) (by linarith) (hcan hlt hk') e1 f1 rfl
    refine Keeps.mono (g := g + (u.vel + u4.vel) / 2 * dt - (v.vel + v4.vel) / 2 * dt) ?_ (by linarith)
    refine ⟨k1, k2.imp (fun x => ⟨x.1, fun _ => x.2⟩) fun x => x.mono le_rfl le_rfl ?_⟩
    rw [hclk]
    split
    · norm_num
    · linarith

/-! ## C84 -/

/-- Links lead to at most one other link and are led to from at most one, and there is one lane. -/
structure Roads (s : Sim ℝ) : Prop where
  next : ∀ {a b c}, Conn s.links a b → Conn s.links a c → b = c
  prev : ∀ {a b c}, Conn s.links a c → Conn s.links b c → a = b
  self : ∀ a, ¬ Conn s.links a a
  lanes : ∀ a l, s.getLinkRef a = .ok l → l.laneChanges = []

/-- The speed limits and lengths of the links are such that a vehicle that does not see another one on the next link yet, or has just
come to a link when the other one is on the next, can stop behind it.  Vehicles have at most the speed `V`, the acceleration `A` and
the length `2 H`, and the accelerations are computed at least every `h` seconds. -/
structure Wide (h D V A H : ℝ) (s : Sim ℝ) : Prop where
  limit : ∀ a l, s.getLinkRef a = .ok l → V ^ 2 + 2 * (A + 6) * h * V + (A + 3) ^ 2 * h ^ 2 + 12 * H ≤ 60 * l.speedLimit
  length : ∀ a l, s.getLinkRef a = .ok l →
    V ^ 2 + 2 * (A + 6) * h * V + (A + 3) ^ 2 * h ^ 2 + 12 * (2 * H + V * D) ≤ 12 * l.length

/-- The vehicle `v` is cautious, accelerates with at most `A`, has a length of at most `2 H`, and is on its link. -/
structure FitsRoad (h V A H : ℝ) (s : Sim ℝ) (v : Vehicle ℝ) : Prop where
  cautious : Cautious v.acc h V
  maxAcc : v.acc.maxAcc ≤ A
  half : 0 < v.halfLen
  short : v.halfLen ≤ H
  pos : 0 ≤ v.pos
  on : ∀ a l, v.linkId = some a → s.getLinkRef a = .ok l → v.pos ≤ l.length

/-- The vehicle `u` is the next one after `v`, on the same link or on the next one, and its rear is `g` metres ahead of the front
of `v`. -/
inductive InRow (s : Sim ℝ) (k j : Key) (v u : Vehicle ℝ) : ℝ → Prop
  | same {a : Key} {l : Link ℝ} : s.getLinkRef a = .ok l → [k, j] <:+: l.vehicles → InRow s k j v u (u.posRear - v.posFront)
  | next {a b : Key} {l m : Link ℝ} : Conn s.links a b → s.getLinkRef a = .ok l → s.getLinkRef b = .ok m →
      l.vehicles.getLast? = some k → m.vehicles.head? = some j → InRow s k j v u (l.length + u.posRear - v.posFront)

/-- A step of at most `D` seconds before and after which no vehicle is faster than `V`, and in which no vehicle's route ends on a link
that leads to another. -/
structure RoadStep [Env] (D V : ℝ) (s s' : Sim ℝ) : Prop where
  step : ∃ dt, 0 ≤ dt ∧ dt ≤ D ∧ s.step dt = .ok s'
  slow : ∀ k v, s.getVehicle k = .ok v → v.vel ≤ V
  slow' : ∀ k v, s'.getVehicle k = .ok v → v.vel ≤ V
  onward : ∀ s1 k v a b, s.calculateLaneChanges = .ok s1 → s1.getVehicle k = .ok v → v.linkId = some a → Conn s.links a b → v.route ≠ [a]

/-- What holds on roads after every step. -/
structure RoadInv [Env] (strict : Prop) (h D V A H : ℝ) (s : Sim ℝ) : Prop where
  reach : Reach strict s
  roads : Roads s
  wide : Wide h D V A H s
  fits : ∀ k v, s.getVehicle k = .ok v → FitsRoad h V A H s v
  since : 0 ≤ s.accUpdate
  top : s.accUpdate < 0.1 → ∀ k v, s.getVehicle k = .ok v → v.acc.getAcc ≤ A
  keeps : ∀ k j v u g, s.getVehicle k = .ok v → s.getVehicle j = .ok u → InRow s k j v u g →
    Keeps h s.accUpdate g v.vel v.acc.getAcc u.vel

theorem Roads.lc (h : Roads s) (a : Key) (l : Link ℝ) (hl : s.links.get? a = some l) : l.laneChanges = [] := h.lanes a l (getLink_ok.2 hl)

/-- A vehicle in a row that can stop behind the next one still can before any vehicles pass the ends of their links. -/
theorem RoadInv.run [Env] [LawfulDijkstra] {h D V A H g : ℝ} (hI : RoadInv strict h D V A H s) (hr : StepRun strict s dt s1 s2 s3 s4 s5 s6 s')
    (hdt : 0 ≤ dt) (hh : dt + 0.1 ≤ h) (hV : ∀ k v, s.getVehicle k = .ok v → v.vel ≤ V)
    (hon : ∀ s1 k v a b, s.calculateLaneChanges = .ok s1 → s1.getVehicle k = .ok v → v.linkId = some a → Conn s.links a b → v.route ≠ [a])
    (hv : s.getVehicle k = .ok v) (hu : s.getVehicle j = .ok u) (ht : Trace s dt s1 s2 s3 s4 s' k v v1 v2 v4)
    (ht' : Trace s dt s1 s2 s3 s4 s' j u u1 u2 u4) (hg : InRow s k j v u g) :
    Keeps h s'.accUpdate (g + (u4.pos - u.pos) - (v4.pos - v.pos)) v4.vel v2.acc.getAcc u4.vel := by
  have el := hr.still hI.roads.lc
  have h1 := hr.linkId1 hI.roads.lc (getVeh_ok.1 hv) ht
  have h1' := hr.linkId1 hI.roads.lc (getVeh_ok.1 hu) ht'
  have hf := ht.flat h1
  have hf' := ht'.flat h1'
  have v0 := C20_speed hI.reach hv
  have u0 := C20_speed hI.reach hu
  have fv := hI.fits k v hv
  have fu := hI.fits j u hu
  refine hr.keeps ht hf hf' v0 u0 hdt hh (fun hre hk' => ?_) (hI.keeps k j v u g hv hu hg)
  cases hg with
  | @same a l hl hkj =>
    refine fv.cautious.canStop v0 (hV k v hv) ?_ hf.low hk'
    have : v2.acc.acc = -6.0 ∨ ∃ as : List ℝ, v1.acc.idm (u1.posRear - v1.posFront) v1.vel u1.vel ∈ as ∧
        v2.acc.acc = as.foldl fmin v1.acc.maxAcc := by
      have hl1 : s1.links.get? a = some l := by rw [el]; exact getLink_ok.1 hl
      refine hr.capped hI.reach ht hre fun hi _ n0 n1 vs s2 hr => hr.windows hi.mid hl1 fun vs2 vs3 h2 h3 => ?_
      obtain ⟨v2, hv2, a, w, rfl⟩ := h2.fwd k v1 ht.get1
      obtain ⟨u2, hu2, a', w', rfl⟩ := h2.fwd j u1 ht'.get1
      have := followWindows_follows h3 hkj (hi.mem _ l hl1).1 hv2 hu2
      exact this
    have := getAcc_le this
    rw [← followAcc_eq] at this
    simp only [Vehicle.posRear, Vehicle.posFront] at this ⊢
    rw [hf.vel1, hf.acc1, hf.pos1, hf.half1, hf'.vel1, hf'.pos1, hf'.half1] at this
    exact this
  | @next a b l m hab hl hm hk hj =>
    have hl1 : s1.links.get? a = some l := by rw [el]; exact getLink_ok.1 hl
    have hm1 : s1.links.get? b = some m := by rw [el]; exact getLink_ok.1 hm
    have ha : v1.linkId = some a := by
      obtain ⟨w, hw, e⟩ := ((hr.inv1.mem a l hl1).2 k).1 (List.mem_of_getLast? hk)
      rw [ht.get1] at hw; cases hw; exact e
    have hb : u1.linkId = some b := by
      obtain ⟨w, hw, e⟩ := ((hr.inv1.mem b m hm1).2 j).1 (List.mem_of_mem_head? hj)
      rw [ht'.get1] at hw; cases hw; exact e
    have hi := hr.inv1.veh k v1 ht.get1
    have hroute : v1.route[1]? = some b := by
      have hne := hon s1 k v1 a b hr.run1 (getVeh_ok.2 ht.get1) ha hab
      have hc := hi.drivable.chain
      have ha' : v1.route.head? = some a := ha
      match e : v1.route with
      | [] => rw [e] at ha'; cases ha'
      | [x] => rw [e] at ha' hne; cases ha'; exact absurd rfl hne
      | x :: y :: rest =>
        rw [e] at ha' hc; cases ha'
        have := (List.isChain_cons_cons.1 hc).1
        rw [el] at this
        rw [hI.roads.next hab this]; rfl
    have hwide := hI.wide.limit a l hl
    have hwide' := hI.wide.limit b m hm
    have h0 : (0.0 : ℝ) = 0 := by norm_num
    have hVk := hV k v hv
    have hmax : 0 ≤ v.acc.maxAcc := by have := fv.cautious.acc; norm_num at this; linarith
    have hA := fv.maxAcc
    have hH := fu.short
    have hH0 := fu.half
    have hh0 : 0 < h := by norm_num at hh; linarith
    obtain ⟨pre, hpre⟩ := List.getLast?_eq_some_iff.1 hk
    obtain ⟨rest, hrest⟩ : ∃ rest, m.vehicles = j :: rest := by
      cases e : m.vehicles with
      | nil => rw [e] at hj; cases hj
      | cons x r => rw [e] at hj; cases hj; exact ⟨r, rfl⟩
    by_cases hnear : l.length - 5 * l.speedLimit ≤ v1.posFront
    · refine fv.cautious.canStop v0 hVk ?_ hf.low hk'
      have hclear : ClearTo s1 v1 1 b 1 a (0.0 + l.length) := by
        refine .first hroute hm1 ⟨j, u1, ht'.get1, ?_⟩ ?_ le_rfl ?_ hl1
        · have hent := (hr.inv1.veh j u1 ht'.get1).entered
          change u1.route.head? = some b at hb
          obtain ⟨r, e⟩ : ∃ r, u1.route = b :: r := by
            cases hrt : u1.route with
            | nil => rw [hrt] at hb; cases hb
            | cons x r => rw [hrt] at hb; cases hb; exact ⟨r, rfl⟩
          rw [e]
          obtain ⟨n, en⟩ : ∃ n, u1.entered = n + 1 := ⟨u1.entered - 1, by omega⟩
          rw [en, List.take_succ_cons]
          simp
        · simp only [maxLookahead]; norm_num
          have : 0 ≤ V ^ 2 + 2 * (A + 6) * h * V + (A + 3) ^ 2 * h ^ 2 := by
            have : 0 ≤ V := v0.trans hVk
            have : 0 ≤ A := hmax.trans hA
            positivity
          linarith
        · change v1.route.head? = some a at ha
          rw [← ha, List.head?_eq_getElem?]
      have : v2.acc.acc = -6.0 ∨ ∃ as : List ℝ, v1.acc.idm (0.0 + l.length + u1.posRear - v1.posFront) v1.vel u1.vel ∈ as ∧
          v2.acc.acc = as.foldl fmin v1.acc.maxAcc := by
        refine hr.capped hI.reach ht hre fun hi hsym n0 n1 vs s2 hr =>
          hr.entering hi hsym ht.get1 hclear hm1 hl1 hpre nofun ?_ ?_ ?_
        · rw [h0, zero_add]; exact not_lt.2 (by simp only [maxLookahead]; norm_num at hnear ⊢; exact hnear)
        · right; rw [h0, zero_add]; exact lt_irrefl _
        intro vs b c r p hm rk rp hp
        unfold Link.enteringFn at hp
        dsimp only at hp
        rw [hrest] at hp
        simp only [M_bind_ok, M_pure_ok, getVeh_ok] at hp
        obtain ⟨ld, hld, rfl⟩ := hp
        have h1 : VehsSlower vs (r.applySpeedLimit m.speedLimit 0.0 vs) :=
          SRel.modify (SRel.refl fun _ _ _ => VehAcc.rfl') r.key _ fun _ _ _ _ hr => hr.applySpeedLimit _ _
        refine Capped.after ⟨_, h1⟩ ?_
        intro v hv
        have hm1 := hm.trans h1 fun _ _ _ _ a b => a.trans b.same
        obtain ⟨v2, hv2, x2, y2, rfl⟩ := hm1.fwd k v1 ht.get1
        rw [hv2] at hv; cases hv
        obtain ⟨u2, hu2, x3, y3, rfl⟩ := hm1.fwd j u1 ht'.get1
        rw [hu2] at hld; cases hld
        refine ⟨_, [v1.gapAcc (0.0 + l.length + u1.posRear) u1.vel], ?_, by simp [Vehicle.gapAcc], y2, rfl⟩
        rw [RelVeh.followVehicle, rk, rp, SlotMap.get?_modify_self, hv2]
        rfl
      have := getAcc_le this
      rw [← followAcc_eq, h0, zero_add] at this
      simp only [Vehicle.posRear, Vehicle.posFront] at this ⊢
      rw [hf.vel1, hf.acc1, hf.pos1, hf.half1, hf'.vel1, hf'.pos1, hf'.half1] at this
      exact this
    · right
      have hacc := hr.acc_le ht hre hmax
      refine (canStop_wide v0 (hmax.trans hA) ?_).slower (hacc.trans hA)
      rw [Vehicle.posFront, hf.pos1, hf.half1] at hnear
      have h6 : 2 * (A + 6) * h * v.vel ≤ 2 * (A + 6) * h * V :=
        mul_le_mul_of_nonneg_left hVk (mul_nonneg (by linarith) hh0.le)
      have h7 : v.vel ^ 2 ≤ V ^ 2 := pow_le_pow_left₀ v0 hVk 2
      have h8 := sq_nonneg u.vel
      have h9 := fu.pos
      simp only [Vehicle.posRear, Vehicle.posFront]
      linarith

theorem isChain_of_infix {α : Type} {R : α → α → Prop} : ∀ {L : List α}, (∀ k j, [k, j] <:+: L → R k j) → L.IsChain R
  | [], _ => List.isChain_nil
  | [_], _ => List.isChain_singleton _
  | x :: y :: L, h => List.isChain_cons_cons.2 ⟨h x y ⟨[], L, rfl⟩, isChain_of_infix fun k j hkj => h k j (hkj.trans (List.suffix_cons x _).isInfix)⟩

def listOf (links : LinkSet ℝ) (a : Key) : List Key := (links.get? a).elim [] (·.vehicles)
noncomputable def posOf (vs : VehicleSet ℝ) (k : Key) : ℝ := (vs.get? k).elim 0 (·.pos)
noncomputable def lenOf (links : LinkSet ℝ) (a : Key) : ℝ := (links.get? a).elim 0 (·.length)

theorem mem_listOf {links : LinkSet ℝ} {a : Key} (h : k ∈ listOf links a) : ∃ l, links.get? a = some l ∧ k ∈ l.vehicles := by
  unfold listOf at h
  cases e : links.get? a with
  | none => rw [e] at h; cases h
  | some l => rw [e] at h; exact ⟨l, rfl, h⟩

theorem listOf_eq {links : LinkSet ℝ} {a : Key} {l : Link ℝ} (h : links.get? a = some l) : listOf links a = l.vehicles := by
  unfold listOf; rw [h]; rfl

theorem lenOf_eq {links : LinkSet ℝ} {a : Key} {l : Link ℝ} (h : links.get? a = some l) : lenOf links a = l.length := by
  unfold lenOf; rw [h]; rfl

theorem posOf_eq {vs : VehicleSet ℝ} (h : vs.get? k = some v) : posOf vs k = v.pos := by
  unfold posOf; rw [h]; rfl

/-- How the vehicles on roads pass the ends of their links in a step. -/
theorem RoadInv.moves [Env] [LawfulDijkstra] {h D V A H : ℝ} (hI : RoadInv strict h D V A H s)
    (hr : StepRun strict s dt s1 s2 s3 s4 s5 s6 s') (hs' : Reach strict s')
    (hdt : 0 ≤ dt) (hh : dt + 0.1 ≤ h) (hV : ∀ k v, s.getVehicle k = .ok v → v.vel ≤ V)
    (hon : ∀ s1 k v a b, s.calculateLaneChanges = .ok s1 → s1.getVehicle k = .ok v → v.linkId = some a → Conn s.links a b → v.route ≠ [a]) :
    Row.Moves (Conn s.links) (lenOf s.links) (listOf s.links) (listOf s'.links) (posOf s4.vehicles) (posOf s'.vehicles) := by
  have el := hr.still hI.roads.lc
  have hlist : ∀ a l, s.links.get? a = some l → ∃ l4, s4.links.get? a = some l4 ∧ l4.vehicles = l.vehicles ∧ l4.length = l.length := by
    intro a l hl
    obtain ⟨l4, h4, e4⟩ := hr.lists4.fwd a l (by rw [el]; exact hl)
    obtain ⟨l5, h5, e5⟩ := hr.frame4.fwd a l hl
    rw [h4] at h5; cases h5
    exact ⟨l4, h4, e4, by unfold Link.length; rw [e5.curve]⟩
  have hmem : ∀ {a l k}, s.links.get? a = some l → k ∈ l.vehicles → ∃ v, s.vehicles.get? k = some v ∧ v.linkId = some a :=
    fun hl hk => ((hI.reach.inv.mem _ _ hl).2 _).1 hk
  have hpass : ∀ {k v4 v5}, s4.vehicles.get? k = some v4 → Passed s4.links v4 v5 → ∃ a l rest, v4.route = a :: rest ∧ v5.route = rest ∧
      s.links.get? a = some l ∧ l.length < v4.pos ∧ v5.pos = v4.pos - l.length ∧ v5.halfLen = v4.halfLen := by
    intro k v4 v5 _ hp
    obtain ⟨a, rest, l, pf, h1, h2, h3, rfl, -⟩ := hp.ex
    obtain ⟨l0, h0, hfr⟩ := hr.frame4.bwd h2
    have e : l.length = l0.length := by unfold Link.length; rw [hfr.curve]
    rw [e] at h3
    exact ⟨a, l0, rest, h1, rfl, h0, h3, by rw [← e], rfl⟩
  have hmem' : ∀ {a k} {v' : Vehicle ℝ}, s'.vehicles.get? k = some v' → v'.linkId = some a → k ∈ listOf s'.links a := by
    intro a k v' hv' ha
    have hi := hs'.inv.veh k v' hv'
    obtain ⟨l', hl'⟩ : ∃ l', s'.links.get? a = some l' := by
      exact get_of_contains (hi.drivable.valid a (List.mem_of_mem_head? ha))
    rw [listOf_eq hl']
    exact ((hs'.inv.mem a l' hl').2 k).2 ⟨v', hv', ha⟩
  have hchain : ∀ {k v4} {a b : Key} {rest : List Key}, s4.vehicles.get? k = some v4 → v4.route = a :: b :: rest → Conn s.links a b := by
    intro k v4 a b rest h4 e
    have hc := (hr.inv4.veh k v4 h4).drivable.chain
    rw [e] at hc
    exact hr.frame4.ge.conn _ _ (List.isChain_cons_cons.1 hc).1
  have row : ∀ k j v u v1 u1 v2 u2 v4 u4 g, s.getVehicle k = .ok v → s.getVehicle j = .ok u → Trace s dt s1 s2 s3 s4 s' k v v1 v2 v4 →
      Trace s dt s1 s2 s3 s4 s' j u u1 u2 u4 → InRow s k j v u g → 0 ≤ g + (u4.pos - u.pos) - (v4.pos - v.pos) :=
    fun k j v u v1 u1 v2 u2 v4 u4 g hv hu ht ht' hg => (hI.run hr hdt hh hV hon hv hu ht ht' hg).1
  have horder : ∀ a, (listOf s.links a).Pairwise fun k j => posOf s4.vehicles k < posOf s4.vehicles j := by
    intro a
    have : IsTrans Key fun k j => posOf s4.vehicles k < posOf s4.vehicles j := ⟨fun _ _ _ => lt_trans⟩
    refine List.isChain_iff_pairwise.1 (isChain_of_infix fun k j hkj => ?_)
    obtain ⟨l, hl, hk⟩ := mem_listOf (hkj.subset (by simp : k ∈ [k, j]))
    obtain ⟨-, -, hj⟩ := mem_listOf (hkj.subset (by simp : j ∈ [k, j]))
    rw [listOf_eq hl] at hkj
    obtain ⟨v, hv, ea⟩ := hmem hl (hkj.subset (by simp : k ∈ [k, j]))
    obtain ⟨u, hu, eb⟩ := hmem hl (hkj.subset (by simp : j ∈ [k, j]))
    obtain ⟨v1, v2, v4, ht⟩ := hr.trace hv
    obtain ⟨u1, u2, u4, ht'⟩ := hr.trace hu
    have := row k j v u _ _ _ _ _ _ _ (getVeh_ok.2 hv) (getVeh_ok.2 hu) ht ht' (.same (getLink_ok.2 hl) hkj)
    rw [posOf_eq ht.get4, posOf_eq ht'.get4]
    have h1 := (hI.fits k v (getVeh_ok.2 hv)).half
    have h2 := (hI.fits j u (getVeh_ok.2 hu)).half
    simp only [Vehicle.posRear, Vehicle.posFront] at this
    linarith
  refine ⟨hI.roads.next, hI.roads.prev, fun a k hk => ?_, fun a k hk => ?_, horder, fun a b k j hab hk hj => ?_, fun a => ?_⟩
  · obtain ⟨l, hl, hk⟩ := mem_listOf hk
    obtain ⟨v, hv, ea⟩ := hmem hl hk
    obtain ⟨v1, v2, v4, ht⟩ := hr.trace hv
    have h1 := hr.linkId1 hI.roads.lc hv ht
    have hf := ht.flat h1
    have e4 : v4.route.head? = some a := by rw [hf.route4, ← ea]; exact h1
    rw [posOf_eq ht.get4, lenOf_eq hl]
    cases ht.out with
    | stays u hu hp hx =>
      obtain ⟨a', l4, ha', hl4, hle⟩ := hx
      rw [e4] at ha'; cases ha'
      obtain ⟨l0, h0, hfr⟩ := hr.frame4.bwd hl4
      rw [hl] at h0; cases h0
      have e : l4.length = l.length := by unfold Link.length; rw [hfr.curve]
      rw [e] at hle
      obtain ⟨p, d, r, c, rfl⟩ := hp
      exact .inl ⟨hmem' hu e4, by rw [posOf_eq hu], not_lt.1 hle⟩
    | passes v5 u hp hne hu hpl =>
      obtain ⟨a', l', rest, e1, e2, hl', hlt, e3, -⟩ := hpass ht.get4 hp
      rw [e1] at e4; cases e4
      rw [hl] at hl'; cases hl'
      obtain ⟨p, d, r, c, rfl⟩ := hpl
      refine .inr ⟨hlt, fun b hab => ⟨hmem' hu ?_, (posOf_eq hu).trans e3⟩⟩
      rw [e2] at hne
      obtain ⟨b', rest', rfl⟩ := List.exists_cons_of_ne_nil hne
      show v5.route.head? = _
      rw [e2, hI.roads.next hab (hchain ht.get4 e1)]; rfl
    | leaves v5 hp hnil hn =>
      obtain ⟨a', l', rest, e1, e2, hl', hlt, e3, -⟩ := hpass ht.get4 hp
      rw [e1] at e4; cases e4
      rw [hl] at hl'; cases hl'
      refine .inr ⟨hlt, fun b hab => absurd ?_ (hon s1 k v1 a b hr.run1 (getVeh_ok.2 ht.get1) (h1.trans ea) hab)⟩
      rw [← hf.route4, e1, ← e2, hnil]
  · obtain ⟨l', hl', hk⟩ := mem_listOf hk
    obtain ⟨v', hv', ea'⟩ := ((hs'.inv.mem a l' hl').2 k).1 hk
    obtain ⟨v, hv⟩ := hr.back hv'
    obtain ⟨v1, v2, v4, ht⟩ := hr.trace hv
    have h1 := hr.linkId1 hI.roads.lc hv ht
    have hf := ht.flat h1
    have e4 : v4.route.head? = v.linkId := by rw [hf.route4]; exact h1
    have hin : ∀ {b l}, s.links.get? b = some l → v4.route.head? = some b → k ∈ listOf s.links b := by
      intro b l hl hb
      rw [listOf_eq hl]
      exact ((hI.reach.inv.mem b l hl).2 k).2 ⟨v, hv, by rw [← e4]; exact hb⟩
    rw [posOf_eq hv', posOf_eq ht.get4]
    cases ht.out with
    | stays u hu hp hx =>
      rw [hv'] at hu; cases hu
      obtain ⟨a', l4, ha', hl4, hle⟩ := hx
      obtain ⟨p, d, r, c, rfl⟩ := hp
      have : some a' = some a := ha'.symm.trans ea'
      cases this
      obtain ⟨l0, h0, hfr⟩ := hr.frame4.bwd hl4
      have e : l4.length = l0.length := by unfold Link.length; rw [hfr.curve]
      rw [e] at hle
      exact .inl ⟨hin h0 ha', rfl, by rw [lenOf_eq h0]; exact not_lt.1 hle⟩
    | passes v5 u hp hne hu hpl =>
      rw [hv'] at hu; cases hu
      obtain ⟨p, l0, rest, e1, e2, hl0, hlt, e3, -⟩ := hpass ht.get4 hp
      obtain ⟨p', d, r, c, rfl⟩ := hpl
      rw [e2] at hne
      obtain ⟨b, rest', rfl⟩ := List.exists_cons_of_ne_nil hne
      have : some b = some a := by rw [← ea']; show _ = v5.route.head?; rw [e2]; rfl
      cases this
      exact .inr ⟨p, hchain ht.get4 e1, hin hl0 (by rw [e1]; rfl), by rw [lenOf_eq hl0]; exact e3, by rw [lenOf_eq hl0]; exact hlt⟩
    | leaves _ _ _ hn => rw [hv'] at hn; cases hn
  · obtain ⟨l, hl, hk0⟩ := mem_listOf hk
    obtain ⟨m, hm, hj0⟩ := mem_listOf hj
    rw [listOf_eq hl] at hk
    rw [listOf_eq hm] at hj
    obtain ⟨k', hk'⟩ : ∃ k', l.vehicles.getLast? = some k' := ⟨_, List.getLast?_eq_some_getLast (List.ne_nil_of_mem hk)⟩
    obtain ⟨j', hj'⟩ : ∃ j', m.vehicles.head? = some j' := by
      cases e : m.vehicles with
      | nil => rw [e] at hj; cases hj
      | cons x r => exact ⟨x, rfl⟩
    have o1 := Row.le_last ((horder a).imp fun h => h.le) (by rw [listOf_eq hl]; exact hk') (by rw [listOf_eq hl]; exact hk)
    have o2 := Row.head_le ((horder b).imp fun h => h.le) (by rw [listOf_eq hm]; exact hj') (by rw [listOf_eq hm]; exact hj)
    obtain ⟨v, hv, ea⟩ := hmem hl (List.mem_of_getLast? hk')
    obtain ⟨u, hu, eb⟩ := hmem hm (List.mem_of_mem_head? hj')
    obtain ⟨v1, v2, v4, ht⟩ := hr.trace hv
    obtain ⟨u1, u2, u4, ht'⟩ := hr.trace hu
    have := row k' j' v u _ _ _ _ _ _ _ (getVeh_ok.2 hv) (getVeh_ok.2 hu) ht ht'
      (.next hab (getLink_ok.2 hl) (getLink_ok.2 hm) hk' hj')
    rw [posOf_eq ht.get4] at o1
    rw [posOf_eq ht'.get4] at o2
    have h1 := (hI.fits k' v (getVeh_ok.2 hv)).half
    have h2 := (hI.fits j' u (getVeh_ok.2 hu)).half
    simp only [Vehicle.posRear, Vehicle.posFront] at this
    rw [lenOf_eq hl]
    linarith
  · have ho : ∀ a l, s4.links.get? a = some l → Ordered s4.vehicles l.vehicles := by
      intro a l4 hl4
      obtain ⟨l, hl, -⟩ := hr.frame4.bwd hl4
      obtain ⟨l4', hl4', e, -⟩ := hlist a l hl
      rw [hl4] at hl4'; cases hl4'
      have := horder a
      rw [listOf_eq hl, ← e] at this
      refine this.imp fun {x y} h vx vy gx gy => ?_
      rw [posOf_eq gx, posOf_eq gy] at h
      exact h.le
    unfold listOf
    cases e : s'.links.get? a with
    | none => exact List.Pairwise.nil
    | some l' =>
      have h1 := hr.ordered ho a l' e
      refine List.Pairwise.imp_of_mem (fun {x y} hx hy h => ?_) h1
      obtain ⟨vx, gx, -⟩ := ((hs'.inv.mem a l' e).2 x).1 hx
      obtain ⟨vy, gy, -⟩ := ((hs'.inv.mem a l' e).2 y).1 hy
      rw [posOf_eq gx, posOf_eq gy]
      exact h vx vy gx gy

theorem RoadInv.step [Env] [LawfulDijkstra] {h D V A H : ℝ} (hI : RoadInv strict h D V A H s) (hD : D + 0.1 ≤ h)
    (hst : RoadStep D V s s') : RoadInv strict h D V A H s' := by
  obtain ⟨⟨dt, hdt, hdD, hst⟩, hV, hV', hon⟩ := hst
  obtain ⟨s1, s2, s3, s4, s5, s6, hr⟩ := (step_spec hI.reach.inv dt).ok hst
  have hs' : Reach strict s' := .exec (.step dt) hI.reach trivial hst
  have hM := hI.moves hr hs' hdt (by linarith) hV hon
  have hconn : ∀ a b, Conn s'.links a b → Conn s.links a b := hr.frame.ge.conn
  have hlink : ∀ {a l'}, s'.getLinkRef a = .ok l' → ∃ l, s.getLinkRef a = .ok l ∧ l'.length = l.length ∧ l'.speedLimit = l.speedLimit ∧
      l'.laneChanges = l.laneChanges := by
    intro a l' hl'
    obtain ⟨l, hl, hfr⟩ := hr.frame.bwd (getLink_ok.1 hl')
    exact ⟨l, getLink_ok.2 hl, by unfold Link.length; rw [hfr.curve], hfr.speedLimit, hfr.laneChanges⟩
  have hwide' : Wide h D V A H s' := by
    refine ⟨fun a l' hl' => ?_, fun a l' hl' => ?_⟩ <;> obtain ⟨l, hl, e1, e2, -⟩ := hlink hl'
    · rw [e2]; exact hI.wide.limit a l hl
    · rw [e1]; exact hI.wide.length a l hl
  -- what is known of a vehicle after the step
  have veh : ∀ k v', s'.getVehicle k = .ok v' → ∃ v v1 v2 v4, s.getVehicle k = .ok v ∧ Trace s dt s1 s2 s3 s4 s' k v v1 v2 v4 ∧
      Flat dt v v1 v2 v4 ∧ v'.vel = v4.vel ∧ v'.acc = v2.acc ∧ v'.halfLen = v.halfLen ∧ (∃ a, v'.acc = { v.acc with acc := a }) ∧
      0 ≤ v'.pos ∧ 0 ≤ v'.vel ∧ posOf s'.vehicles k = v'.pos ∧ posOf s4.vehicles k = v4.pos := by
    intro k v' hv'
    obtain ⟨v, hv⟩ := hr.back (getVeh_ok.1 hv')
    obtain ⟨v1, v2, v4, ht⟩ := hr.trace hv
    have hf := ht.flat (hr.linkId1 hI.roads.lc hv ht)
    obtain ⟨-, e2, e3⟩ := ht.vel (getVeh_ok.1 hv')
    obtain ⟨-, -, -, e4, e5⟩ := step_speed hI.reach hst (getVeh_ok.2 hv) hv'
    have hp0 := (hI.fits k v (getVeh_ok.2 hv)).pos
    have v0 := C20_speed hI.reach (getVeh_ok.2 hv)
    have v0' := C20_speed hs' hv'
    have hp4 : 0 ≤ v4.pos := by
      have : 0 ≤ v4.vel := by rw [← e3]; exact v0'
      rw [hf.pos4]; positivity
    refine ⟨v, v1, v2, v4, getVeh_ok.2 hv, ht, hf, e3, e2, e5, e4, ?_, v0', posOf_eq (getVeh_ok.1 hv'), posOf_eq ht.get4⟩
    cases ht.out with
    | stays u hu hp _ =>
      rw [getVeh_ok.1 hv'] at hu; cases hu
      obtain ⟨p, d, r, c, rfl⟩ := hp
      exact hp4
    | passes v5 u hp _ hu hpl =>
      rw [getVeh_ok.1 hv'] at hu; cases hu
      obtain ⟨p, d, r, cc, rfl⟩ := hpl
      obtain ⟨a, rest, l, pf, -, -, hlt, rfl, -⟩ := hp.ex
      show 0 ≤ v4.pos - l.length
      linarith
    | leaves _ _ _ hn => rw [getVeh_ok.1 hv'] at hn; cases hn
  -- a vehicle that has just passed the end of its link
  have short : ∀ {k p l v'}, s'.getVehicle k = .ok v' → s.getLinkRef p = .ok l → k ∈ listOf s.links p →
      posOf s'.vehicles k = posOf s4.vehicles k - lenOf s.links p → v'.pos ≤ V * D := by
    intro k p l v' hv' hl hk hp
    obtain ⟨v, v1, v2, v4, hv, ht, hf, e1, e2, e3, e4, -, -, p1, p2⟩ := veh k v' hv'
    rw [p1, p2, lenOf_eq (getLink_ok.1 hl), hf.pos4] at hp
    rw [listOf_eq (getLink_ok.1 hl)] at hk
    obtain ⟨w, hw, ea⟩ := ((hI.reach.inv.mem p l (getLink_ok.1 hl)).2 k).1 hk
    rw [getVeh_ok.1 hv] at hw; cases hw
    have h1 := (hI.fits k v hv).on p l ea hl
    have h2 := hV k v hv
    have h3 := hV' k v' hv'
    have v0 := C20_speed hI.reach hv
    rw [e1] at h3
    have h4 : (v.vel + v4.vel) / 2 * dt ≤ V * D :=
      mul_le_mul (by linarith) hdD hdt (v0.trans h2)
    linarith
  have since : 0 ≤ s'.accUpdate := by
    rw [hr.clocks.2.1]
    have := hI.since
    split
    · positivity
    · norm_num; exact hdt
  have top : ∀ {k v v1 v2 v4}, s.getVehicle k = .ok v → Trace s dt s1 s2 s3 s4 s' k v v1 v2 v4 → v2.acc.getAcc ≤ A := by
    intro k v v1 v2 v4 hv ht
    have fv := hI.fits k v hv
    by_cases hlt : s.accUpdate < 0.1
    · rcases ht.acc with ⟨-, -, e3⟩ | ⟨hge, -⟩
      · rw [e3, ht.steer.same.2.1]; exact hI.top hlt k v hv
      · rw [hr.clocks.1] at hge; exact absurd hlt hge
    · have := fv.cautious.acc
      norm_num at this
      exact (hr.acc_le ht hlt (by linarith)).trans fv.maxAcc
  have hlin : ∀ {a k}, k ∈ listOf s.links a → ∃ l, s.getLinkRef a = .ok l := fun h => by
    obtain ⟨l, hl, -⟩ := mem_listOf h
    exact ⟨l, getLink_ok.2 hl⟩
  refine ⟨hs', ⟨fun h h' => hI.roads.next (hconn _ _ h) (hconn _ _ h'), fun h h' => hI.roads.prev (hconn _ _ h) (hconn _ _ h'),
    fun a h => hI.roads.self a (hconn _ _ h), fun a l hl => ?_⟩, hwide', fun k v' hv' => ?_, since,
    fun _ k v' hv' => ?_, fun k j v' u' g hv' hu' hg => ?_⟩
  · obtain ⟨l0, hl0, -, -, e⟩ := hlink hl
    rw [e]; exact hI.roads.lanes a l0 hl0
  · obtain ⟨v, v1, v2, v4, hv, ht, hf, e1, e2, e3, ⟨a, e4⟩, hp0, hv0, p1, p2⟩ := veh k v' hv'
    have fv := hI.fits k v hv
    have hc := fv.cautious
    refine ⟨by rw [e4]; exact ⟨hc.acc, hc.dec, hc.near, hc.far⟩, by rw [e4]; exact fv.maxAcc, by rw [e3]; exact fv.half, by rw [e3]; exact fv.short, hp0,
      fun a l' ha hl' => ?_⟩
    obtain ⟨l, hl, el, -⟩ := hlink hl'
    rw [el]
    have hin : k ∈ listOf s'.links a := by
      rw [listOf_eq (getLink_ok.1 hl')]
      exact ((hs'.inv.mem a l' (getLink_ok.1 hl')).2 k).2 ⟨v', getVeh_ok.1 hv', ha⟩
    rcases hM.bwd a k hin with ⟨-, e5, h5⟩ | ⟨p, hp, hk, e5, -⟩
    · rw [← p1, e5, ← lenOf_eq (getLink_ok.1 hl)]; exact h5
    · obtain ⟨lp, hlp⟩ := hlin hk
      have h6 := short hv' hlp hk e5
      have h7 := hI.wide.length a l hl
      have h8 : 0 ≤ V := hv0.trans (hV' k v' hv')
      have h9 : 0 ≤ A := by
        have := hc.acc; norm_num at this; linarith [fv.maxAcc]
      have h10 : 0 ≤ V ^ 2 + 2 * (A + 6) * h * V + (A + 3) ^ 2 * h ^ 2 := by
        have : 0 ≤ h := by norm_num at hD; linarith
        positivity
      linarith [fv.half, fv.short]
  · obtain ⟨v, v1, v2, v4, hv, ht, -, -, e2, -⟩ := veh k v' hv'
    rw [e2]; exact top hv ht
  · obtain ⟨v, v1, v2, v4, hv, ht, hf, e1, e2, e3, -, hp0, hv0, p1, p2⟩ := veh k v' hv'
    obtain ⟨u, u1, u2, u4, hu, ht', hf', d1, d2, d3, -, hq0, hu0, q1, q2⟩ := veh j u' hu'
    have fv := hI.fits k v hv
    have fu := hI.fits j u hu
    rw [e1, e2, d1]
    have key : ∀ {g}, InRow s k j v u g → _ := fun {g} hg => hI.run hr hdt (by linarith) hV hon hv hu ht ht' hg
    cases hg with
    | @same a l' hl' hkj =>
      have hne : k ≠ j := by
        have := (hs'.inv.mem a l' (getLink_ok.1 hl')).1
        rintro rfl
        have := this.sublist hkj.sublist
        simp at this
      rcases hM.same (a := a) (by rw [listOf_eq (getLink_ok.1 hl')]; exact hkj) hne with ⟨o, ek, ej⟩ | ⟨p, hp, ok, oj, ek, ej⟩ |
        ⟨p, hp, o, ek, ej⟩
      · obtain ⟨l, hl⟩ := hlin (o.subset (by simp : k ∈ [k, j]))
        rw [listOf_eq (getLink_ok.1 hl)] at o
        refine (key (.same hl o)).mono (le_of_eq ?_)
        simp only [Vehicle.posRear, Vehicle.posFront]
        rw [e3, d3, ← p1, ← q1, ek, ej, p2, q2]; ring
      · obtain ⟨lp, hlp⟩ := hlin (List.mem_of_getLast? ok)
        obtain ⟨la, hla⟩ := hlin (List.mem_of_mem_head? oj)
        rw [listOf_eq (getLink_ok.1 hlp)] at ok
        rw [listOf_eq (getLink_ok.1 hla)] at oj
        refine (key (.next hp hlp hla ok oj)).mono (le_of_eq ?_)
        rw [lenOf_eq (getLink_ok.1 hlp)] at ek
        simp only [Vehicle.posRear, Vehicle.posFront]
        rw [e3, d3, ← p1, ← q1, ek, ej, p2, q2]; ring
      · obtain ⟨l, hl⟩ := hlin (o.subset (by simp : k ∈ [k, j]))
        rw [listOf_eq (getLink_ok.1 hl)] at o
        rw [lenOf_eq (getLink_ok.1 hl)] at ek ej
        refine (key (.same hl o)).mono (le_of_eq ?_)
        simp only [Vehicle.posRear, Vehicle.posFront]
        rw [e3, d3, ← p1, ← q1, ek, ej, p2, q2]; ring
    | @next a b l' m' hab' hl' hm' hk hj =>
      have hab := hconn _ _ hab'
      obtain ⟨l0, hl0, el0, -⟩ := hlink hl'
      rw [el0]
      rcases hM.next hab (by rw [listOf_eq (getLink_ok.1 hl')]; exact hk) (by rw [listOf_eq (getLink_ok.1 hm')]; exact hj) with
        ⟨ok, oj, ek, ej⟩ | ⟨o, ek, ej⟩ | ⟨p, hp, ok, oj, ek, ej⟩ | ⟨p, hp, ok, oj, ek, ej⟩
      · obtain ⟨lb, hlb⟩ := hlin (List.mem_of_mem_head? oj)
        rw [listOf_eq (getLink_ok.1 hl0)] at ok
        rw [listOf_eq (getLink_ok.1 hlb)] at oj
        refine (key (.next hab hl0 hlb ok oj)).mono (le_of_eq ?_)
        simp only [Vehicle.posRear, Vehicle.posFront]
        rw [e3, d3, ← p1, ← q1, ek, ej, p2, q2]; ring
      · rw [listOf_eq (getLink_ok.1 hl0)] at o
        rw [lenOf_eq (getLink_ok.1 hl0)] at ej
        refine (key (.same hl0 o)).mono (le_of_eq ?_)
        simp only [Vehicle.posRear, Vehicle.posFront]
        rw [e3, d3, ← p1, ← q1, ek, ej, p2, q2]; ring
      · obtain ⟨lp, hlp⟩ := hlin (List.mem_of_getLast? ok)
        rw [listOf_eq (getLink_ok.1 hlp)] at ok
        rw [listOf_eq (getLink_ok.1 hl0)] at oj
        rw [lenOf_eq (getLink_ok.1 hlp)] at ek
        rw [lenOf_eq (getLink_ok.1 hl0)] at ej
        refine (key (.next hp hlp hl0 ok oj)).mono (le_of_eq ?_)
        simp only [Vehicle.posRear, Vehicle.posFront]
        rw [e3, d3, ← p1, ← q1, ek, ej, p2, q2]; ring
      · obtain ⟨lp, hlp⟩ := hlin ok
        have h6 := short hv' hlp ok ek
        have h7 := hI.wide.length a l0 hl0
        have h8 : v4.vel ≤ V := by rw [← e1]; exact hV' k v' hv'
        have h8' : 0 ≤ v4.vel := by rw [← e1]; exact hv0
        have hmax : 0 ≤ v.acc.maxAcc := by have := fv.cautious.acc; norm_num at this; linarith
        have h9 : 0 ≤ A := hmax.trans fv.maxAcc
        have hh0 : 0 ≤ h := by norm_num at hD; linarith
        have h10 : 0 ≤ V ^ 2 + 2 * (A + 6) * h * V + (A + 3) ^ 2 * h ^ 2 := by
          have : 0 ≤ V := h8'.trans h8
          positivity
        have hG : 12 * (l0.length + u'.posRear - v'.posFront) ≥ V ^ 2 + 2 * (A + 6) * h * V + (A + 3) ^ 2 * h ^ 2 := by
          simp only [Vehicle.posRear, Vehicle.posFront]
          rw [e3, d3]
          linarith [fv.short, fu.short]
        refine ⟨by linarith, .inr ?_⟩
        have h11 : 2 * (A + 6) * h * v4.vel ≤ 2 * (A + 6) * h * V :=
          mul_le_mul_of_nonneg_left h8 (mul_nonneg (by linarith) hh0)
        have h12 : v4.vel ^ 2 ≤ V ^ 2 := pow_le_pow_left₀ h8' h8 2
        have hc := canStop_wide (h := h) (g := l0.length + u'.posRear - v'.posFront) (u := u4.vel) (v := v4.vel) (a := A) h8' h9
          (by linarith [sq_nonneg u4.vel])
        refine (hc.slower (top hv ht)).mono le_rfl le_rfl ?_
        split <;> linarith

/-- **C84** (on roads) In exact arithmetic, on links that follow each other without branches, and with one lane: accelerations are due,
and every vehicle that has another one next ahead stands, or would stop at least `3/4 h²` metres behind it if both braked fully.  Then
in all following steps of at most `D` seconds, after which no vehicle is faster than `V` and in which no route ends on a link that leads
on, no vehicle's front passes the rear of another.  Here `h = D + 0.1`, and the links are long and the speed limits high enough to see
that far. -/
theorem C84_road_partial [Env] [LawfulDijkstra] {D V A H : ℝ} {s0 : Sim ℝ} (hs : Reach strict s0) (hroads : Roads s0)
    (hwide : Wide (D + 0.1) D V A H s0) (hfits : ∀ k v, s0.getVehicle k = .ok v → FitsRoad (D + 0.1) V A H s0 v) (hre : ¬ s0.accUpdate < 0.1)
    (hgap : ∀ k j v u g, s0.getVehicle k = .ok v → s0.getVehicle j = .ok u → InRow s0 k j v u g →
      0 ≤ g ∧ (v.vel = 0 ∨ v.vel ^ 2 / 12 + 3 / 4 * (D + 0.1) ^ 2 ≤ g + u.vel ^ 2 / 12))
    (hrun : Relation.ReflTransGen (RoadStep D V) s0 s) (hv : s.getVehicle k = .ok v) (hu : s.getVehicle j = .ok u) (hkj : k ≠ j) :
    (v.linkId = u.linkId → v.posFront ≤ u.posRear ∨ u.posFront ≤ v.posRear) ∧
    ∀ a b l, v.linkId = some a → u.linkId = some b → Conn s.links a b → s.getLinkRef a = .ok l → v.posFront ≤ l.length + u.posRear := by
  have hI : RoadInv strict (D + 0.1) D V A H s := by
    clear hv hu
    induction hrun with
    | refl =>
      refine ⟨hs, hroads, hwide, hfits, ?_, fun h => absurd h hre, fun k j v u g hv hu hg => ?_⟩
      · norm_num at hre; linarith
      · obtain ⟨h1, h2⟩ := hgap k j v u g hv hu hg
        refine ⟨h1, h2.imp (fun h => ⟨h, fun h => absurd h hre⟩) fun h => ?_⟩
        intro t h0 h1 _
        rw [if_neg hre] at h1
        obtain rfl := le_antisymm h1 h0
        linarith
    | tail _ hst ih => exact ih.step le_rfl hst
  have hmem : ∀ {a l k}, s.links.get? a = some l → k ∈ l.vehicles → ∃ v, s.getVehicle k = .ok v ∧ FitsRoad (D + 0.1) V A H s v := by
    intro a l k hl hk
    obtain ⟨v, hv, -⟩ := ((hI.reach.inv.mem _ _ hl).2 _).1 hk
    exact ⟨v, getVeh_ok.2 hv, hI.fits k v (getVeh_ok.2 hv)⟩
  set f : Key → ℝ := fun k => (s.vehicles.get? k).elim 0 (·.posFront) with hf
  set r : Key → ℝ := fun k => (s.vehicles.get? k).elim 0 (·.posRear) with hr
  have ef : ∀ {k v}, s.getVehicle k = .ok v → f k = v.posFront := fun h => by rw [hf]; dsimp only; rw [getVeh_ok.1 h]; rfl
  have er : ∀ {k v}, s.getVehicle k = .ok v → r k = v.posRear := fun h => by rw [hr]; dsimp only; rw [getVeh_ok.1 h]; rfl
  have hrf : ∀ {k v}, s.getVehicle k = .ok v → FitsRoad (D + 0.1) V A H s v → r k ≤ f k := by
    intro k v hv h
    rw [ef hv, er hv, Vehicle.posFront, Vehicle.posRear]
    linarith [h.half]
  have horder : ∀ {a l}, s.links.get? a = some l → l.vehicles.Pairwise fun k j => f k ≤ r j ∧ r k ≤ f k ∧ r j ≤ f j := by
    intro a l hl
    have : IsTrans Key fun k j => f k ≤ r j ∧ r k ≤ f k ∧ r j ≤ f j :=
      ⟨fun _ _ _ h h' => ⟨h.1.trans (h'.2.1.trans h'.1), h.2.1, h'.2.2⟩⟩
    refine List.isChain_iff_pairwise.1 (isChain_of_infix fun k j hkj => ?_)
    obtain ⟨v, hv, h1⟩ := hmem hl (hkj.subset (by simp : k ∈ [k, j]))
    obtain ⟨u, hu, h2⟩ := hmem hl (hkj.subset (by simp : j ∈ [k, j]))
    refine ⟨?_, hrf hv h1, hrf hu h2⟩
    have := (hI.keeps k j v u _ hv hu (.same (getLink_ok.2 hl) hkj)).1
    rw [ef hv, er hu]; linarith
  have hon : ∀ {k v a}, s.getVehicle k = .ok v → v.linkId = some a → ∃ l, s.links.get? a = some l ∧ k ∈ l.vehicles := by
    intro k v a hv ha
    have hi := hI.reach.inv.veh k v (getVeh_ok.1 hv)
    obtain ⟨l, hl⟩ := get_of_contains (hi.drivable.valid a (List.mem_of_mem_head? ha))
    exact ⟨l, hl, ((hI.reach.inv.mem a l hl).2 k).2 ⟨v, getVeh_ok.1 hv, ha⟩⟩
  refine ⟨fun e => ?_, fun a b l ha hb hab hl => ?_⟩
  · have hi := hI.reach.inv.veh k v (getVeh_ok.1 hv)
    have ha : v.linkId = some v.pathfind.src := hi.src
    obtain ⟨l, hl, hk⟩ := hon hv ha
    obtain ⟨l', hl', hj⟩ := hon hu (e.symm.trans ha)
    rw [hl] at hl'; cases hl'
    have hsym : Std.Symm fun k j => f k ≤ r j ∨ f j ≤ r k := ⟨fun _ _ => Or.symm⟩
    have := List.Pairwise.forall (R := fun k j => f k ≤ r j ∨ f j ≤ r k) ((horder hl).imp fun h => Or.inl h.1) hk hj hkj
    rw [ef hv, er hv, ef hu, er hu] at this
    exact this
  · obtain ⟨l', hl', hk⟩ := hon hv ha
    rw [getLink_ok.1 hl] at hl'; cases hl'
    obtain ⟨m, hm, hj⟩ := hon hu hb
    obtain ⟨k', hk'⟩ : ∃ k', l.vehicles.getLast? = some k' := ⟨_, List.getLast?_eq_some_getLast (List.ne_nil_of_mem hk)⟩
    obtain ⟨j', hj'⟩ : ∃ j', m.vehicles.head? = some j' := by
      cases e : m.vehicles with
      | nil => rw [e] at hj; cases hj
      | cons x r => exact ⟨x, rfl⟩
    obtain ⟨w, hw, h1⟩ := hmem (getLink_ok.1 hl) (List.mem_of_getLast? hk')
    obtain ⟨z, hz, h2⟩ := hmem hm (List.mem_of_mem_head? hj')
    have o1 : f k ≤ f k' := Row.le_last ((horder (getLink_ok.1 hl)).imp fun h => h.1.trans h.2.2) hk' hk
    have o2 : r j' ≤ r j := Row.head_le ((horder hm).imp fun h => h.2.1.trans h.1) hj' hj
    have := (hI.keeps k' j' w z _ hw hz (.next hab hl (getLink_ok.2 hm) hk' hj')).1
    rw [ef hv, ef hw] at o1
    rw [er hu, er hz] at o2
    linarith

end

open Relay in
/-- A vehicle starts on a link while another starts on the next one. -/
theorem road_runs : ∃ (_ : Env) (_ : LawfulDijkstra) (s0 s : Sim ℝ) (k j a b : Key) (v u : Vehicle ℝ) (g : ℝ), Reach True s0 ∧ Roads s0 ∧
    Wide (0.1 + 0.1) 0.1 10 2 2 s0 ∧ (∀ k v, s0.getVehicle k = .ok v → FitsRoad (0.1 + 0.1) 10 2 2 s0 v) ∧ ¬ s0.accUpdate < 0.1 ∧
    (∀ k j v u g, s0.getVehicle k = .ok v → s0.getVehicle j = .ok u → InRow s0 k j v u g →
      0 ≤ g ∧ (v.vel = 0 ∨ v.vel ^ 2 / 12 + 3 / 4 * (0.1 + 0.1) ^ 2 ≤ g + u.vel ^ 2 / 12)) ∧
    RoadStep 0.1 10 s0 s ∧ s.getVehicle k = .ok v ∧ s.getVehicle j = .ok u ∧ k ≠ j ∧ v.linkId = some a ∧ u.linkId = some b ∧
    Conn s.links a b ∧ InRow s k j v u g := by
  obtain ⟨env, hlaw, sb, sc, vb, ub, vc, uc, rb, db, dc, hc, kb1, hlanes, ⟨rest, er⟩, ec, ⟨b1, b2, b3, b4⟩, b5, b6, b7, b8⟩ := run
  obtain ⟨x, ex⟩ := db.acc.1
  obtain ⟨y, ey⟩ := db.acc.2
  obtain ⟨la, gla, la1, la2, la3, la4⟩ := db.la
  obtain ⟨lb, glb, lb1, lb2, lb3, lb4⟩ := db.lb
  obtain ⟨lc, glc, lc1, -⟩ := dc.la
  obtain ⟨ld, gld, -⟩ := dc.lb
  have rc : Reach True sc := rb.exec (op := .step 0.05) trivial hc
  obtain ⟨vsa, vsb⟩ := db.vehs rb
  obtain ⟨vsc, vsd⟩ := dc.vehs rc
  have v0 := C20_speed rb db.gv
  have hsq : √((2 : ℝ) / (2 + 6)) = 1 / 2 := by
    rw [show (2 : ℝ) / (2 + 6) = (1 / 2) ^ 2 by norm_num]
    exact Real.sqrt_sq (by norm_num)
  have hsq' : √((2 : ℝ) * (2 + 6)) = 4 := by
    rw [show (2 : ℝ) * (2 + 6) = 4 ^ 2 by norm_num]
    exact Real.sqrt_sq (by norm_num)
  have hcau : ∀ x, Cautious (⟨2, 2, 2, 1, x⟩ : AccelerationModel ℝ) (0.1 + 0.1) 10 := by
    intro x
    constructor <;> dsimp only
    · norm_num
    · norm_num
    · rw [hsq]; norm_num
    · rw [hsq, hsq']; norm_num
  have hconn : ∀ {x y}, Conn sb.links x y → x = ⟨0, 1⟩ ∧ y = ⟨1, 1⟩ := by
    rintro x y ⟨l, hl, hy⟩
    rcases db.only x l hl with rfl | rfl
    · rw [gla] at hl; cases hl
      rw [la1, List.mem_singleton] at hy
      exact ⟨rfl, hy⟩
    · rw [glb] at hl; cases hl
      rw [lb1] at hy; cases hy
  have hlim : ∀ y l, sb.getLinkRef y = .ok l → l.speedLimit = 10 ∧ 99 ≤ l.length ∧ l.laneChanges = [] := by
    intro y l hl
    rcases db.only y l (getLink_ok.1 hl) with rfl | rfl
    · have e := (getLink_ok.1 hl).symm.trans gla; cases e
      exact ⟨la3, la4, la2⟩
    · have e := (getLink_ok.1 hl).symm.trans glb; cases e
      exact ⟨lb3, lb4, lb2⟩
  have hveh : ∀ k v, sb.getVehicle k = .ok v → k = ⟨1, 1⟩ ∧ v = vb ∨ k = ⟨0, 1⟩ ∧ v = ub := by
    intro k v hv
    rcases db.vonly k v (getVeh_ok.1 hv) with rfl | rfl
    · have := db.gu; rw [hv] at this; cases this; exact .inr ⟨rfl, rfl⟩
    · have := db.gv; rw [hv] at this; cases this; exact .inl ⟨rfl, rfl⟩
  have hveh' : ∀ k v, sc.getVehicle k = .ok v → v.vel ≤ 10 := by
    intro k v hv
    rcases dc.vonly k v (getVeh_ok.1 hv) with rfl | rfl
    · have := dc.gu; rw [hv] at this; cases this; linarith
    · have := dc.gv; rw [hv] at this; cases this; linarith
  refine ⟨env, hlaw, sb, sc, ⟨1, 1⟩, ⟨0, 1⟩, ⟨0, 1⟩, ⟨1, 1⟩, vc, uc, lc.length + uc.posRear - vc.posFront, rb, ⟨?_, ?_, ?_, fun c l hl => (hlim c l hl).2.2⟩,
    ⟨fun c l hl => by rw [(hlim c l hl).1]; norm_num, fun c l hl => by have := (hlim c l hl).2.1; norm_num; linarith⟩, ?_, by rw [kb1]; norm_num, ?_,
    ⟨⟨0.05, by norm_num, by norm_num, hc⟩, ?_, hveh', ?_⟩, dc.gv, dc.gu, by decide, dc.lv, dc.lu, ⟨lc, glc, by rw [lc1]; simp⟩,
    .next (a := ⟨0, 1⟩) (b := ⟨1, 1⟩) ⟨lc, glc, by rw [lc1]; simp⟩ (getLink_ok.2 glc) (getLink_ok.2 gld) (by rw [vsc lc glc]; rfl) (by rw [vsd ld gld]; rfl)⟩
  · intro a b c h h'
    rw [(hconn h).2, (hconn h').2]
  · intro a b c h h'
    rw [(hconn h).1, (hconn h').1]
  · intro a h
    have := (hconn h).1.symm.trans (hconn h).2
    cases this
  · intro k v hv
    rcases hveh k v hv with ⟨rfl, rfl⟩ | ⟨rfl, rfl⟩
    · exact ⟨by rw [ex]; exact hcau x, by rw [ex], by rw [db.half.1]; norm_num, by rw [db.half.1], b1, fun c l _ hl => by linarith [(hlim c l hl).2.1]⟩
    · exact ⟨by rw [ey]; exact hcau y, by rw [ey], by rw [db.half.2]; norm_num, by rw [db.half.2], b5, fun c l _ hl => by linarith [(hlim c l hl).2.1]⟩
  · intro k j v u g hv hu hg
    cases hg with
    | @same a l hl hkj =>
      exfalso
      have h1 := hkj.length_le
      rcases db.only a l (getLink_ok.1 hl) with rfl | rfl
      · rw [vsa l (getLink_ok.1 hl)] at h1; simp at h1
      · rw [vsb l (getLink_ok.1 hl)] at h1; simp at h1
    | @next a b l m hab hl hm hk hj =>
      obtain ⟨rfl, rfl⟩ := hconn hab
      rw [vsa l (getLink_ok.1 hl)] at hk
      rw [vsb m (getLink_ok.1 hm)] at hj
      obtain rfl : ⟨1, 1⟩ = k := Option.some.inj hk
      obtain rfl : ⟨0, 1⟩ = j := Option.some.inj hj
      have := db.gv; rw [hv] at this; cases this
      have := db.gu; rw [hu] at this; cases this
      have hlen := (hlim _ l hl).2.1
      have h1 : vb.vel ^ 2 ≤ 2 ^ 2 := pow_le_pow_left₀ v0 b3 2
      have h2 := sq_nonneg ub.vel
      rw [Vehicle.posFront, Vehicle.posRear, db.half.1, db.half.2]
      exact ⟨by linarith, .inr (by norm_num; linarith)⟩
  · intro k v hv
    rcases hveh k v hv with ⟨-, rfl⟩ | ⟨-, rfl⟩ <;> linarith
  · intro s1 k v a b hs1 hv ha hab
    rw [hlanes] at hs1; cases hs1
    obtain ⟨rfl, rfl⟩ := hconn hab
    rcases hveh k v hv with ⟨rfl, rfl⟩ | ⟨rfl, rfl⟩
    · rw [er]; simp
    · rw [db.lu] at ha; cases ha

end TrafficSim
