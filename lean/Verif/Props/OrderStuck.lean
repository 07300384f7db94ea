import Verif.Props.Gridlock
import Verif.Props.Follow
import Verif.Props.Sight

/-! # C100: vehicles are listed in order: where they are not, and what comes of it

A link lists its vehicles from the last to the first, and each follows the next in the list.  The list is in order of position when a vehicle is
put into it, but it is not put in order again when a vehicle has run past another.  Such a vehicle goes on following the one it has left
behind. -/

namespace TrafficSim

section
variable {F : Type} [Flt F] {strict : Prop} {s s' : Sim F} {dt : F} {k : Key} {v v' : Vehicle F}

/-- Where no vehicle passes the end of its link, the lists of vehicles stay as they are. -/
theorem advance_still [Env] [LawfulDijkstra] (hs : SimInv strict s) (h : s.advanceVehicles = .ok s')
    (hno : ∀ k v v', s.vehicles.get? k = some v → ¬ Passed s.links v v') :
    SRel (fun _ l l' => l'.vehicles = l.vehicles) s.links s'.links := by
  unfold Sim.advanceVehicles at h
  obtain ⟨a, h1, h2⟩ := M_bind_ok.1 h
  obtain ⟨links, h3, h4⟩ := M_bind_ok.1 h2
  rw [M_pure_ok] at h4
  have hI : AdvInv s [] a ∧ ∀ lk l', a.links.get? lk = some l' → ∃ l, s.links.get? lk = some l ∧ l'.vehicles.Sublist l.vehicles := by
    refine (Spec.foldlM' (E := fun _ => True) (I := fun rest a => AdvInv s rest a ∧
      ∀ lk l', a.links.get? lk = some l' → ∃ l, s.links.get? lk = some l ∧ l'.vehicles.Sublist l.vehicles)
      (fun a k rest hsuf h => ?_) ⟨?_, fun lk l hl => ⟨l, hl, List.Sublist.refl _⟩⟩).ok h1
    · refine ((advanceOne_spec (.inr trivial) (.inr trivial) hs hsuf h.1).post fun _ e h => And.intro e h).mono ?_ fun _ h => h
      rintro a' ⟨e, h'⟩
      refine ⟨h', fun lk l' hl' => ?_⟩
      unfold Sim.advanceOne at e
      obtain ⟨v, -, e⟩ := M_bind_ok.1 e
      split at e
      · cases e
      · obtain ⟨⟨v', did⟩, -, e⟩ := M_bind_ok.1 e
        rcases ite_ok.1 e with ⟨-, e⟩ | ⟨-, e⟩
        · obtain ⟨links', hu, e⟩ := M_bind_ok.1 e
          have hl : a'.links = links' := by
            split at e <;> rw [M_pure_ok] at e <;> rw [← e]
          rw [hl] at hl'
          unfold updLink at hu
          split at hu
          · cases hu
            rw [SlotMap.get?_modify] at hl'
            split at hl'
            · rename_i e2
              subst e2
              cases hg : a.links.get? lk with
              | none => rw [hg] at hl'; cases hl'
              | some l1 =>
                rw [hg] at hl'; cases hl'
                obtain ⟨l, hl, hsub⟩ := h.2 lk l1 hg
                refine ⟨l, hl, List.Sublist.trans ?_ hsub⟩
                have := (List.erase_sublist (a := k) (l := l1.vehicles.reverse)).reverse
                simpa [Link.removeVehicle] using this
            · exact h.2 lk l' hl'
          · cases hu
        · rw [M_pure_ok] at e
          rw [← e] at hl'
          exact h.2 lk l' hl'
    · exact ⟨SRel.refl fun _ _ _ => rfl, SRel.refl fun k v hk => ⟨fun _ => rfl, fun h =>
        absurd (SlotMap.mem_keys.2 ⟨v, hk⟩) h⟩, (member_iff.1 hs.mem).congr fun j => by simp, by simp, by simp, by simp, by simp⟩
  obtain ⟨hI, hsub⟩ := hI
  have same : ∀ c w, a.vehicles.get? c = some w → s.vehicles.get? c = some w ∧ c ∉ a.advanced.map (·.1) ∧ c ∉ a.exited := by
    intro c w hw
    obtain ⟨w0, hw0, -, hone⟩ := hI.vehs.bwd hw
    rcases hone (by simp) with ⟨e, h1, h2, -⟩ | ⟨b, hp, -⟩ | ⟨hp, -⟩
    · rw [e]; exact ⟨hw0, h1, h2⟩
    · exact absurd hp (hno c w0 w hw0)
    · exact absurd hp (hno c w0 w hw0)
  have hadv : a.advanced = [] := by
    refine List.eq_nil_iff_forall_not_mem.2 fun p hp => ?_
    obtain ⟨-, w, hw, -⟩ := hI.advIn p hp
    exact (same _ w hw).2.1 (List.mem_map.2 ⟨p, hp, rfl⟩)
  rw [hadv, List.foldlM_nil, M_pure_ok] at h3
  subst h3 h4
  refine ⟨hI.links.keys, hI.links.wf, hI.links.issued, fun lk l hl => ?_⟩
  obtain ⟨l', hl', -⟩ := hI.links.fwd lk l hl
  refine ⟨l', hl', ?_⟩
  obtain ⟨l0, hl0, hsl⟩ := hsub lk l' hl'
  rw [hl] at hl0; cases hl0
  obtain ⟨hnd, hm⟩ := hs.mem lk l hl
  refine hsl.eq_of_length (le_antisymm hsl.length_le ((hnd.subperm fun x hx => ?_).length_le))
  obtain ⟨w, hw, hon⟩ := (hm x).1 hx
  obtain ⟨w', hw', -⟩ := hI.vehs.fwd x w hw
  obtain ⟨e, h1, h2⟩ := same x w' hw'
  rw [hw] at e; cases e
  exact ((hI.mem lk l' hl').2 x).2 ⟨by simp [h2, hadv], w, hw', hon⟩

/-- The vehicle stands, on its link and on the only way to its destination, and is frozen, or the next vehicle in the list of its link is at
most 2 m ahead, or behind. -/
structure Waits (s : Sim F) (k : Key) (v : Vehicle F) : Prop where
  vel : v.vel = 0.0
  paths : ∀ p ∈ v.pathfind.paths, p.links = v.route
  entered : v.entered = v.route.length
  on : ∀ a l, v.route.head? = some a → s.links.get? a = some l → ¬ l.length < v.pos
  braked : s.accUpdate < 0.1 → Brakes v.acc.maxAcc v.acc.acc
  why : k ∈ s.frozen ∨ ∃ a l j u, s.links.get? a = some l ∧ [k, j] <:+: l.vehicles ∧ s.vehicles.get? j = some u ∧ u.posRear - v.posFront ≤ 2.0

theorem jam_step [Env] [LawfulDijkstra] (h : ∀ k v, s.vehicles.get? k = some v → Waits s k v) (hs : Reach strict s) (hst : s.step dt = .ok s')
    (hd : ∀ k v, s.vehicles.get? k = some v → Rests dt v) :
    (∀ k v, s'.vehicles.get? k = some v → Waits s' k v) ∧ Alike Remains s.vehicles s'.vehicles ∧
      SRel (fun _ l l' => l'.vehicles = l.vehicles) s.links s'.links := by
  obtain ⟨s1, s2, s3, s4, s5, s6, hr⟩ := (step_spec hs.inv dt).ok hst
  have own : ∀ k v p, s.vehicles.get? k = some v → Cheapest s.links v v.pathfind.paths p → p.links = v.route := by
    rintro k v p hv ⟨pre, post, n, e, -⟩
    exact (h k v hv).paths p (by rw [e]; simp)
  have hf1 : s1.frozen = s.frozen := by
    rcases hr.lanes with ⟨-, e⟩ | ⟨-, vs, lcs, hl⟩
    · rw [e]
    · rw [hl.eq]
  have hf' : ∀ k v, s.vehicles.get? k = some v → k ∈ s.frozen → k ∈ s'.frozen := by
    intro k v hv hk
    have e3 : s'.frozen = s2.frozen := by
      obtain ⟨wss, hl⟩ := hr.lights
      rw [hr.eq]; dsimp only; rw [hr.place.eq]; dsimp only; rw [hr.adv.eq]; dsimp only; rw [hr.move.eq]; dsimp only; rw [hl.eq]
    rw [e3]
    rcases hr.acc with ⟨-, e⟩ | ⟨-, n0, n1, vs, ha⟩
    · rw [e, hf1]; exact hk
    · rw [ha.eq]
      refine List.mem_filter.2 ⟨by rw [hf1]; exact hk, ?_⟩
      obtain ⟨v1, hv1, -⟩ := hr.vehs1.fwd k v hv
      obtain ⟨w0, hw0, -⟩ := ha.prep.vehicles.fwd k v1 hv1
      obtain ⟨w1, hw1, -⟩ := ha.stop.vehicles.fwd k w0 hw0
      obtain ⟨w2, hw2, -⟩ := ha.slow.fwd k w1 hw1
      exact contains_of_get hw2
  have el1 : s1.links = s.links := by
    have h1 := hr.run1
    unfold Sim.calculateLaneChanges at h1
    rcases ite_ok.1 h1 with ⟨-, h1⟩ | ⟨hlt, h1⟩
    · rw [M_pure_ok] at h1; rw [← h1]
    · obtain ⟨⟨vs, lcs⟩, h2, h3⟩ := M_bind_ok.1 h1
      obtain ⟨⟨-, hpl⟩, -⟩ := (choosePaths_spec (strict := strict) (div := True) (geo := True) (.inr trivial) hr.inv0).ok h2
      have : lcs = [] := by
        refine List.eq_nil_iff_forall_not_mem.2 fun q hq => ?_
        obtain ⟨v, hv, -, hc, hne⟩ := (hpl q hq).ex
        exact hne (by rw [(h _ v hv).paths q.2 hc.mem])
      subst this
      dsimp only at h3
      rw [List.foldlM_nil, M_pure_ok] at h3
      rw [← h3]
  have first : ∀ k v v1, s.vehicles.get? k = some v → s1.vehicles.get? k = some v1 → v1 = v := by
    intro k v v1 hv hv1
    rcases hr.chooses hv hv1 with ⟨-, e⟩ | ⟨-, hc⟩
    · exact e
    · cases hc with
      | carriesOn _ e => exact e
      | keeps p _ hq _ e => exact e
      | takes p n _ hq hne _ _ _ => exact absurd (own k v p hv hq) hne
      | changes p _ _ _ _ _ _ _ hq h1 h2 _ _ _ _ _ => rw [own k v p hv hq] at h1; exact absurd h1 h2
  have mid : ∀ k v, s.vehicles.get? k = some v → ∃ v2 v4, Trace s dt s1 s2 s3 s4 s' k v v v2 v4 ∧ Brakes v.acc.maxAcc v2.acc.acc ∧
      (∃ q lc cnt, v4 = { v2 with queued := q, entered := v2.entered, willQueueOrEnter := 0, vel := 0.0, pos := v.pos, laneChange := lc, stopCnt := cnt }) ∧
      ∀ v5, ¬ Passed s4.links v4 v5 := by
    intro k v hv
    have hb := h k v hv
    obtain ⟨v1, v2, v4, ht⟩ := hr.trace hv
    have e1 := first k v v1 hv ht.get1
    subst e1
    have hbr : Brakes v1.acc.maxAcc v2.acc.acc := by
      rcases ht.acc with ⟨hlt, -, e⟩ | ⟨hre, n0, n1, vs, har, ha⟩
      · rw [hr.clocks.1] at hlt
        rw [e]; exact hb.braked hlt
      · by_cases hf : k ∈ s1.frozen
        · obtain ⟨x, w, ev2, -, hz, -⟩ := ha.eq
          rw [ev2]
          exact .inl (hz hf)
        · rcases hb.why with hw | ⟨a, l, j, u, hl, hkj, hu, hgap⟩
          · rw [hf1] at hf; exact absurd hw hf
          rw [hr.clocks.1] at hre
          obtain ⟨u1, hu1, -⟩ := hr.vehs1.fwd j u hu
          have e1 := first j u u1 hu hu1
          subst e1
          have hl1 : s1.links.get? a = some l := by rw [el1]; exact hl
          have hcap := har.windows hr.inv1.mid (k := k) (x := v1.acc.idm (u1.posRear - v1.posFront) v1.vel u1.vel) hl1 fun vs2 vs3 h2 h3 => by
            obtain ⟨v2, hv2, a, w, rfl⟩ := h2.fwd k v1 ht.get1
            obtain ⟨u2, hu2, a', w', rfl⟩ := h2.fwd j u1 hu1
            have := followWindows_follows h3 hkj (hr.inv1.mem _ l hl1).1 hv2 hu2
            exact this
          obtain ⟨w, as, x, hw, hx, ew⟩ := har.capped ht.get1 hf hcap
          have g2 := ht.get2
          rw [hr.vehicles3, hw] at g2; cases g2
          refine .inr ⟨as, ?_, by rw [ew]⟩
          unfold AccelerationModel.idm at hx
          rw [if_pos (by exact hgap)] at hx
          exact hx
    refine ⟨v2, v4, ht, hbr, ?_⟩
    have hrest := hd k v1 hv
    obtain ⟨x, w, ev2⟩ := ht.acc.same
    obtain ⟨f2, f3, f4, f6⟩ : v2.vel = 0.0 ∧ v2.pos = v1.pos ∧ v2.route = v1.route ∧ v2.entered = v1.entered := by
      rw [ev2]; exact ⟨hb.vel, rfl, rfl, rfl⟩
    have hstill : fmax (v2.vel + dt * v2.acc.getAcc) 0.0 = 0.0 := by
      rw [f2]; exact hrest.1 _ hbr
    have hent : ∃ q lc cnt, v4 = { v2 with queued := q, entered := v2.entered, willQueueOrEnter := 0, vel := 0.0, pos := v1.pos, laneChange := lc, stopCnt := cnt } := by
      obtain ⟨sq, sq', hi, -⟩ := ht.move
      unfold Vehicle.integrate at hi
      rw [M_bind_ok] at hi
      obtain ⟨p, hp, hi⟩ := hi
      rw [M_pure_ok] at hi
      cases hi
      have hm := hr.mid3.veh k v2 ht.get2
      obtain ⟨-, -, q, e, he, hw⟩ := (integrateQueue_spec (E := fun _ => True) hm.will sq).ok hp
      have hw' : e = v2.entered := by
        rcases hw with ⟨h1, -⟩ | ⟨-, h2⟩
        · exact h1
        · have := hm.willEnter h2
          rw [f6, f4, hb.entered] at this
          omega
      subst hw'
      obtain ⟨lc, cnt, hm'⟩ := integrateMotion_eq p.1 dt
      refine ⟨q, lc, cnt, ?_⟩
      rw [hm', he]
      dsimp only
      rw [hstill, f2, f3, hrest.2]
    refine ⟨hent, ?_⟩
    obtain ⟨q, lc, cnt, ev4⟩ := hent
    intro v5 hp
    obtain ⟨a, rest, l, pf, ha, hl, hlt, -⟩ := hp.ex
    obtain ⟨l0, hl0, e0⟩ := hr.frame4.bwd hl
    have ha' : v1.route.head? = some a := by
      rw [ev4] at ha; dsimp only at ha; rw [f4] at ha; rw [ha]; rfl
    refine hb.on a l0 ha' hl0 ?_
    rw [ev4] at hlt
    rw [Link.length, ← e0.curve]
    exact hlt
  have remain : ∀ k v, s.vehicles.get? k = some v → ∃ v', s'.vehicles.get? k = some v' ∧ Remains v v' ∧
      Brakes v'.acc.maxAcc v'.acc.acc := by
    intro k v hv
    have hb := h k v hv
    obtain ⟨v2, v4, ht, hbr, ⟨q, lc, cnt, ev4⟩, hstay⟩ := mid k v hv
    obtain ⟨x, w, ev2⟩ := ht.acc.same
    cases ht.out with
    | stays v' hv' hp _ =>
      refine ⟨v', hv', ?_⟩
      obtain ⟨p, d, r, c, rfl⟩ := hp
      have em : v2.acc.maxAcc = v.acc.maxAcc := by rw [ev2]
      rw [ev4]
      refine ⟨?_, ?_⟩
      · rw [ev2]; exact ⟨⟨rfl, rfl, rfl, rfl⟩, hb.vel.symm, rfl, rfl⟩
      · dsimp only; rw [em]; exact hbr
    | passes v5 u hp _ _ _ => exact absurd hp (hstay v5)
    | leaves v5 hp _ _ => exact absurd hp (hstay v5)
  have hal : Alike Remains s.vehicles s'.vehicles := by
    refine ⟨fun k v hv => ?_, fun k v' hv' => hr.back hv'⟩
    obtain ⟨v', hv', r, -⟩ := remain k v hv
    exact ⟨v', hv', r⟩
  have hlists : SRel (fun _ l l' => l'.vehicles = l.vehicles) s.links s'.links := by
    have h4 : SRel (fun _ l l' => l'.vehicles = l.vehicles) s1.links s4.links := by
      rw [hr.links4]
      obtain ⟨wss, hl⟩ := hr.lights
      have h3 : SRel (fun _ l l' => l'.vehicles = l.vehicles) s2.links s3.links := by
        rw [hl.links]
        exact (writeControls_rel _ _).mono fun k l l' ⟨c, e, _⟩ => by rw [e]
      rcases hr.acc with ⟨-, e⟩ | ⟨-, n0, n1, vs, h⟩
      · rw [e] at h3; exact h3
      · exact h.onLinks.trans h3 fun _ _ _ _ e e' => e'.trans e
    rw [el1] at h4
    rw [hr.links']
    refine h4.trans (advance_still hr.inv4 hr.run5 fun k v4 v5 hv4 hp => ?_) fun _ _ _ _ e e' => e'.trans e
    obtain ⟨v3, hv3, -⟩ := hr.move.vehicles.bwd hv4
    obtain ⟨v1, hv1, -⟩ := hr.vehs2.bwd hv3
    obtain ⟨v, hv, -⟩ := hr.vehs1.bwd hv1
    obtain ⟨v2, w4, ht, -, -, hstay⟩ := mid k v hv
    have g4 := ht.get4
    rw [hv4] at g4; cases g4
    exact hstay v5 hp
  refine ⟨fun k v' hv' => ?_, hal, hlists⟩
  obtain ⟨v, hv⟩ := hr.back hv'
  obtain ⟨u, hu, r, hbr⟩ := remain k v hv
  rw [hv'] at hu; cases hu
  have hb := h k v hv
  refine ⟨r.vel.trans hb.vel, by rw [r.paths, r.sees.route]; exact hb.paths, by rw [r.sees.entered, r.sees.route]; exact hb.entered, ?_, fun _ => hbr, ?_⟩
  · intro a l' ha hla
    obtain ⟨l, hl0, e⟩ := hr.frame.bwd hla
    rw [r.sees.pos, Link.length, e.curve]
    exact hb.on a l (by rw [← r.sees.route]; exact ha) hl0
  · rcases hb.why with hw | ⟨a, l, j, u, hl, hkj, hu, hgap⟩
    · exact .inl (hf' k v hv hw)
    · obtain ⟨l', hl', el⟩ := hlists.fwd a l hl
      obtain ⟨u', hu', r', -⟩ := remain j u hu
      exact .inr ⟨a, l', j, u', hl', by rw [el]; exact hkj, hu', by rw [r'.sees.rear, r.sees.front]; exact hgap⟩

/-- **C100, what comes of it** (any numbers).  All vehicles stand, and each is frozen or follows, in the list of its link, a vehicle whose rear
is less than 2 m ahead of its front.  As long as a vehicle that stands and brakes does not move in a step, no vehicle ever moves and no list
ever changes, even where the vehicle that is followed is behind the one that follows it. -/
theorem C100_jam [Env] [LawfulDijkstra] {dts : List F} (hs : Reach strict s) (h : ∀ k v, s.vehicles.get? k = some v → Waits s k v)
    (hd : ∀ dt ∈ dts, ∀ k v, s.vehicles.get? k = some v → Rests dt v) (hrun : dts.foldlM Sim.step s = .ok s') :
    (∀ k v, s'.vehicles.get? k = some v → Waits s' k v) ∧ Alike Remains s.vehicles s'.vehicles ∧
      SRel (fun _ l l' => l'.vehicles = l.vehicles) s.links s'.links := by
  induction dts generalizing s with
  | nil =>
    rw [List.foldlM_nil, M_pure_ok] at hrun
    cases hrun
    exact ⟨h, ⟨fun k v hv => ⟨v, hv, ⟨rfl, rfl, rfl, rfl⟩, rfl, rfl, rfl⟩, fun k v hv => ⟨v, hv⟩⟩, SRel.refl fun _ _ _ => rfl⟩
  | cons dt dts ih =>
    rw [List.foldlM_cons, M_bind_ok] at hrun
    obtain ⟨s1, h1, h2⟩ := hrun
    obtain ⟨g1, a1, l1⟩ := jam_step h hs h1 (hd dt (by simp))
    obtain ⟨g2, a2, l2⟩ := ih (.exec (.step dt) hs trivial h1) g1 (fun d hdm k v hv => by
      obtain ⟨u, hu, r⟩ := a1.back hv
      have := hd d (by simp [hdm]) k u hu
      unfold Rests at this ⊢
      rw [r.maxAcc, r.sees.pos]
      exact this) h2
    refine ⟨g2, ⟨fun k v hv => ?_, fun k v hv => ?_⟩, l1.trans l2 fun _ _ _ _ e e' => e'.trans e⟩
    · obtain ⟨u, hu, r⟩ := a1.fwd k v hv
      obtain ⟨w, hw, r'⟩ := a2.fwd k u hu
      exact ⟨w, hw, r.trans r'⟩
    · obtain ⟨u, hu⟩ := a2.bwd k v hv
      exact a1.bwd k u hu

end

namespace Passing

attribute [local instance] Town.env

def bike : VehicleAttributes Float := ⟨0.8, 1.5, 3.0, 3.0, 2.0, 2.0⟩

/-- Two streets, one after the other.  A bicycle comes to the end of the first one when another one starts at the beginning of the second, and
is frozen as soon as it has started. -/
def ops : List (Op Float) :=
  [.addLink ⟨Town.street 0.0 0.0 1.0 0.0 30.0, 40.0⟩, .addLink ⟨Town.street 30.0 0.0 1.0 0.0 60.0, 40.0⟩,
   .addLinkConnection ⟨0, 1⟩ ⟨1, 1⟩, .addVehicle bike ⟨0, 1⟩, .setVehicleDestination ⟨0, 1⟩ ⟨1, 1⟩, .step 0.3, .step 4.6,
   .addVehicle bike ⟨1, 1⟩, .step 0.3, .step 0.3, .setVehicleFrozen ⟨1, 1⟩ true, .step 0.3, .step 0.3, .step 0.3]

/-- The first vehicle has left the second one behind, but it is listed behind it. -/
def test (s : Sim Float) : Bool :=
  s.vehicles.keys == [⟨0, 1⟩, ⟨1, 1⟩] && s.frozen == [⟨1, 1⟩] && decide (¬ s.accUpdate < 0.1) &&
  match s.vehicles.get? ⟨0, 1⟩, s.vehicles.get? ⟨1, 1⟩, s.links.get? ⟨1, 1⟩ with
  | some v, some u, some l => [v, u].all (fun v => decide (v.vel = 0.0) && v.pathfind.paths.all (fun p => p.links == v.route) && v.route == [⟨1, 1⟩] &&
      v.entered == 1 && decide (¬ l.length < v.pos) && decide (-10.0 * v.acc.maxAcc ≤ 0.0) && decide (v.pos + 0.0 = v.pos) &&
      decide (v.pos + -0.0 = v.pos)) && l.vehicles == [⟨0, 1⟩, ⟨1, 1⟩] && decide (u.posRear - v.posFront ≤ 2.0) && decide (u.posFront < v.posRear) &&
      decide (v.posFront < 10.0) && decide (60.0 ≤ l.length) && v.canExit
  | _, _, _ => false

theorem stands : ∃ s0 s : Sim Float, Reach True s0 ∧ Allowed True s0 (.step 0.3) ∧ s0.exec (.step 0.3) = .ok s ∧ Reach True s ∧ test s = true :=
  trial_reach (test := fun _ s => test s) (by decide +kernel : trial ops (.step 0.3) (fun _ s => test s) = true)

theorem waits_of {s : Sim Float} (h : test s = true) : ∃ (v u : Vehicle Float) (l : Link Float), s.frozen = [⟨1, 1⟩] ∧
    s.vehicles.get? ⟨0, 1⟩ = some v ∧ s.vehicles.get? ⟨1, 1⟩ = some u ∧ s.links.get? ⟨1, 1⟩ = some l ∧ l.vehicles = [⟨0, 1⟩, ⟨1, 1⟩] ∧
    u.posFront < v.posRear ∧ v.posFront < 10.0 ∧ 60.0 ≤ l.length ∧ v.canExit = true ∧ v.route = [⟨1, 1⟩] ∧ u.route = [⟨1, 1⟩] ∧
    (∀ k v, s.vehicles.get? k = some v → Waits s k v) ∧
    ∀ dt, (0.0 : Float) ≤ dt → dt.isFinite = true → ∀ k v, s.vehicles.get? k = some v → Rests dt v := by
  unfold test at h
  simp only [Bool.and_eq_true, decide_eq_true_eq, and_assoc, beq_iff_eq] at h
  obtain ⟨h1, h2, h3, h4⟩ := h
  split at h4
  · rename_i v u l hv hu hl
    simp only [Bool.and_eq_true, decide_eq_true_eq, and_assoc, beq_iff_eq] at h4
    obtain ⟨hall, g1, g2, g3, g4, g5, g6⟩ := h4
    have each : ∀ w, w = v ∨ w = u → w.vel = 0.0 ∧ (∀ p ∈ w.pathfind.paths, p.links = w.route) ∧ w.route = [⟨1, 1⟩] ∧ w.entered = 1 ∧
        ¬ l.length < w.pos ∧ -10.0 * w.acc.maxAcc ≤ 0.0 ∧ w.pos + 0.0 = w.pos ∧ w.pos + -0.0 = w.pos := by
      intro w hw
      have := List.all_eq_true.1 hall w (by simpa using hw)
      simpa only [Bool.and_eq_true, decide_eq_true_eq, and_assoc, beq_iff_eq, List.all_eq_true] using this
    have two : ∀ k w, s.vehicles.get? k = some w → (k = ⟨0, 1⟩ ∧ w = v) ∨ (k = ⟨1, 1⟩ ∧ w = u) := by
      intro k w hw
      have hk := SlotMap.mem_keys.2 ⟨w, hw⟩
      rw [h1] at hk
      simp only [List.mem_cons, List.not_mem_nil, or_false] at hk
      rcases hk with rfl | rfl
      · rw [hv] at hw; cases hw; exact .inl ⟨rfl, rfl⟩
      · rw [hu] at hw; cases hw; exact .inr ⟨rfl, rfl⟩
    refine ⟨v, u, l, h2, hv, hu, hl, g1, g3, g4, g5, g6, (each v (.inl rfl)).2.2.1, (each u (.inr rfl)).2.2.1, fun k w hw => ?_, fun dt hdt hfin k w hw => ?_⟩
    · obtain ⟨e1, e2, e3, e4, e5, -⟩ := each w ((two k w hw).imp And.right And.right)
      refine ⟨e1, e2, by rw [e4, e3]; rfl, fun a l' ha hl' => ?_, fun h => absurd h h3, ?_⟩
      · rw [e3] at ha; cases ha
        rw [hl] at hl'; cases hl'
        exact e5
      · rcases two k w hw with ⟨rfl, rfl⟩ | ⟨rfl, rfl⟩
        · exact .inr ⟨_, l, ⟨1, 1⟩, u, hl, ⟨[], [], by rw [g1]; rfl⟩, hu, g2⟩
        · exact .inl (by rw [h2]; simp)
    · obtain ⟨-, -, -, -, -, e6, e7, e8⟩ := each w ((two k w hw).imp And.right And.right)
      exact rests_float hdt hfin e6 ⟨e7, e8⟩
  · cases h4

/-- Two bicycles wait, and would wait for any number of steps of a tenth of a second. -/
example : ∃ s : Sim Float, Reach True s ∧ (∀ k v, s.vehicles.get? k = some v → Waits s k v) ∧ s.vehicles.get? ⟨0, 1⟩ ≠ none ∧
    ∀ dt ∈ List.replicate 1000 (0.1 : Float), ∀ k v, s.vehicles.get? k = some v → Rests dt v := by
  obtain ⟨s0, s, -, -, -, hs, ht⟩ := stands
  obtain ⟨v, u, l, -, hv, -, -, -, -, -, -, -, -, -, h1, h2⟩ := waits_of ht
  exact ⟨s, hs, h1, by rw [hv]; simp, fun dt hd => by rw [List.eq_of_mem_replicate hd]; exact h2 _ (by decide +kernel) (by decide +kernel)⟩

end Passing

section

attribute [local instance] Town.env

/-- **C100, it is false.**  There are two vehicles, `k` and `j`, on the same link of 60 m.  The rear of `k` is ahead of the front of `j`, but `k`
is listed behind `j`.  Vehicle `j` is frozen.  Vehicle `k` is not, it has nothing ahead, and it may exit at the end of the link.  But it will
never move, and never be listed in order, whatever the steps. -/
theorem C100_passed : ∃ (s : Sim Float) (k j lk : Key) (v u : Vehicle Float) (l : Link Float), Reach True s ∧ s.frozen = [j] ∧ k ≠ j ∧
    s.getVehicle k = .ok v ∧ s.getVehicle j = .ok u ∧ s.getLinkRef lk = .ok l ∧ l.vehicles = [k, j] ∧ v.route = [lk] ∧ u.route = [lk] ∧
    u.posFront < v.posRear ∧ v.posFront < 10.0 ∧ 60.0 ≤ l.length ∧ v.canExit = true ∧
    ∀ (dts : List Float) (s' : Sim Float), (∀ dt ∈ dts, (0.0 : Float) ≤ dt ∧ dt.isFinite = true) → dts.foldlM Sim.step s = .ok s' →
      ∃ v' l', s'.getVehicle k = .ok v' ∧ v'.pos = v.pos ∧ v'.vel = 0.0 ∧ v'.route = [lk] ∧ s'.getLinkRef lk = .ok l' ∧ l'.vehicles = [k, j] := by
  obtain ⟨s0, s, -, -, -, hs, ht⟩ := Passing.stands
  obtain ⟨v, u, l, h1, h2, h3, h4, h5, h6, h7, h8, h9, h10, h11, h12, h13⟩ := Passing.waits_of ht
  have := Search.lawful 400
  refine ⟨s, ⟨0, 1⟩, ⟨1, 1⟩, ⟨1, 1⟩, v, u, l, hs, h1, by decide, getVeh_ok.2 h2, getVeh_ok.2 h3, getLink_ok.2 h4, h5, h10, h11, h6, h7, h8, h9,
    fun dts s' hd hrun => ?_⟩
  obtain ⟨-, ha, hl⟩ := C100_jam hs h12 (fun dt hdt => h13 dt (hd dt hdt).1 (hd dt hdt).2) hrun
  obtain ⟨v', hv', r⟩ := ha.fwd _ v h2
  obtain ⟨l', hl', e⟩ := hl.fwd _ l h4
  exact ⟨v', l', getVeh_ok.2 hv', r.sees.pos, r.vel.trans (h12 _ v h2).vel, r.sees.route.trans h10, getLink_ok.2 hl', e.trans h5⟩

end

end TrafficSim
