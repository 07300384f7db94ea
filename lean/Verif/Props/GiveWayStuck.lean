import Verif.Props.Gridlock
import Verif.Props.Enters
import Verif.Props.GiveWay

/-! # C99: vehicles that give way are let in: where the line is too near -/

namespace TrafficSim

section
variable {F : Type} [Flt F] {strict : Prop} {s s' : Sim F} {dt : F} {k lk j : Key} {v v' : Vehicle F}

/-- The only vehicle stands at most 2 m before the end of its link, where it must give way, and is not near enough to queue. -/
structure Short (s : Sim F) (k lk j : Key) (v : Vehicle F) : Prop where
  only : ∀ a w, s.vehicles.get? a = some w → a = k
  vel : v.vel = 0.0
  paths : ∀ p ∈ v.pathfind.paths, p.links = v.route
  here : v.route[0]? = some lk
  next : v.route[1]? = some j
  entered : v.entered = 1
  queued : v.queued = none
  line : ∃ l lj d m p, s.links.get? lk = some l ∧ s.links.get? j = some lj ∧ ¬ l.length < v.pos ∧ ¬ v.posFront < l.length - 5.0 * l.speedLimit ∧
    l.length + 0.0 - v.posFront ≤ 2.0 ∧ lj.control = .yield_ d m p ∧ ¬ -d < v.posFront - l.length
  lights : ∀ light i, ¬ s.Controls light i j
  braked : s.accUpdate < 0.1 → Brakes v.acc.maxAcc v.acc.acc

theorem Short.step [Env] [LawfulDijkstra] (h : Short s k lk j v) (hv : s.vehicles.get? k = some v) (hs : Reach strict s) (hL : LongLinks s.links)
    (hst : s.step dt = .ok s') (hd : Rests dt v) : ∃ v', s'.vehicles.get? k = some v' ∧ Remains v v' ∧ Short s' k lk j v' := by
  obtain ⟨s1, s2, s3, s4, s5, s6, hr⟩ := (step_spec hs.inv dt).ok hst
  obtain ⟨v1, v2, v4, ht⟩ := hr.trace hv
  have e1 : v1 = v := by
    rcases hr.chooses hv ht.get1 with ⟨-, e⟩ | ⟨-, hc⟩
    · exact e
    · have own : ∀ p, Cheapest s.links v v.pathfind.paths p → p.links = v.route := by
        rintro p ⟨pre, post, n, e, -⟩
        exact h.paths p (by rw [e]; simp)
      cases hc with
      | carriesOn _ e => exact e
      | keeps p _ hq _ e => exact e
      | takes p n _ hq hne _ _ _ => exact absurd (own p hq) hne
      | changes p _ _ _ _ _ _ _ hq h1 h2 _ _ _ _ _ => rw [own p hq] at h1; exact absurd h1 h2
  subst e1
  obtain ⟨l, lj, d, m, p, hl, hlj, hon, hnear, hgap, hctl, hfar⟩ := h.line
  obtain ⟨l1, hl1, el⟩ := hr.frame1.fwd lk l hl
  obtain ⟨lj1, hlj1, ej⟩ := hr.frame1.fwd j lj hlj
  have hhead : v1.linkId = some lk := by rw [Vehicle.linkId, List.head?_eq_getElem?]; exact h.here
  have hvs : l1.vehicles = [] ++ k :: [] := by
    obtain ⟨hnd, hm⟩ := hr.inv1.mem lk l1 hl1
    rw [List.nil_append]
    refine single_eq (l := [k]) (by simp) hnd fun x => ?_
    rw [hm x, List.mem_singleton]
    constructor
    · rintro ⟨w, hw, -⟩
      obtain ⟨w0, hw0, -⟩ := hr.vehs1.bwd hw
      exact h.only x w0 hw0
    · rintro rfl
      exact ⟨v1, ht.get1, hhead⟩
  have hlen : l1.length = l.length := by rw [el]; rfl
  have hbr : Brakes v1.acc.maxAcc v2.acc.acc := by
    by_cases hre : s.accUpdate < 0.1
    · rcases ht.acc with ⟨-, -, e⟩ | ⟨hn, -⟩
      · rw [e]; exact h.braked hre
      · rw [hr.clocks.1] at hn; exact absurd hre hn
    · rcases hr.held (i := 0) hs ht hre h.entered (.here h.here hl1) (getLink_ok.2 hl1) hvs (by simp)
        (by rw [el]; exact hnear) (.inr (.inr ⟨j, lj1, d, m, p, h.next, hlj1, by rw [ej]; exact hctl, h.queued⟩)) with e | ⟨as, hx, e⟩
      · exact .inl e
      · refine .inr ⟨as, ?_, e⟩
        unfold AccelerationModel.idm at hx
        rw [if_pos (by rw [hlen]; exact hgap)] at hx
        exact hx
  obtain ⟨x, w, ev2⟩ := ht.acc.same
  obtain ⟨f1, f2, f3, f4, f5, f6, f7⟩ : v2.acc.maxAcc = v1.acc.maxAcc ∧ v2.vel = 0.0 ∧ v2.pos = v1.pos ∧ v2.route = v1.route ∧
      v2.halfLen = v1.halfLen ∧ v2.entered = v1.entered ∧ v2.pathfind = v1.pathfind := by
    rw [ev2]; exact ⟨rfl, h.vel, rfl, rfl, rfl, rfl, rfl⟩
  obtain ⟨-, he⟩ := ht.entry hr hL
  have hi1 := hr.inv1.veh k v1 ht.get1
  have hent : v4.entered = 1 ∧ v4.queued = none := by
    cases he with
    | keeps h3 h4 => exact ⟨h3.trans h.entered, h4.trans h.queued⟩
    | queues sq _ ha _ _ _ _ =>
      exfalso
      cases ha with
      | @queue _ _ _ _ d' m' p' hx hc' _ hd' _ =>
        have e := hx.route
        rw [h.entered, h.next] at e; cases e
        have e := hx.link
        rw [hlj1] at e; cases e
        rw [ej] at hc'
        dsimp only at hc'
        rw [hctl] at hc'; cases hc'
        obtain ⟨i, llk, a, hi, hlk, hu, hri, hh⟩ := hx.ex
        rw [h.entered] at hi
        obtain rfl : i = 0 := by omega
        rw [h.here] at hri; cases hri
        rw [hl1] at hlk; cases hlk
        cases hu
        rw [hlen] at hd'
        exact hfar hd'
    | enters _ ha _ _ =>
      exfalso
      cases ha with
      | open_ hx hc' =>
        have e := hx.route
        rw [h.entered, h.next] at e; cases e
        have e := hx.link
        rw [hlj1] at e; cases e
        rw [ej] at hc'
        dsimp only at hc'
        rw [hctl] at hc'; cases hc'
      | yield_ _ _ hq => rw [h.queued] at hq; cases hq
  have hstill : fmax (v2.vel + dt * v2.acc.getAcc) 0.0 = 0.0 := by
    rw [f2]; exact hd.1 _ hbr
  obtain ⟨q, e, lc, cnt, ev4, -⟩ := ht.move.eq
  rw [hstill, f2, f3, hd.2] at ev4
  have hstay : ∀ v5, ¬ Passed s4.links v4 v5 := by
    intro v5 hp
    obtain ⟨a, rest, l', pf, ha, hl', hlt, -⟩ := hp.ex
    obtain ⟨l0, hl0, e0⟩ := hr.frame4.bwd hl'
    have ha' : v1.route[0]? = some a := by
      rw [ev4] at ha; dsimp only at ha; rw [f4] at ha; rw [ha]; rfl
    rw [h.here] at ha'; cases ha'
    rw [hl] at hl0; cases hl0
    refine hon ?_
    rw [ev4] at hlt
    rw [Link.length, ← e0.curve]
    exact hlt
  have hlights : ∀ light i, ¬ s'.Controls light i j := by
    rintro light i ⟨tl', htl', hm⟩
    obtain ⟨tl, htl, e⟩ := (C08_lights hs hst).bwd htl'
    rw [light_links e] at hm
    exact h.lights light i ⟨tl, htl, hm⟩
  cases ht.out with
  | passes v5 u hp _ _ _ => exact absurd hp (hstay v5)
  | leaves v5 hp _ _ => exact absurd hp (hstay v5)
  | stays v' hv' hp _ =>
    refine ⟨v', hv', ?_⟩
    obtain ⟨pp, dd, r, c, rfl⟩ := hp
    obtain ⟨l', hl', e0⟩ := hr.frame.fwd lk l hl
    obtain ⟨lj', hlj', ec⟩ := C08_uncontrolled hs hst (getLink_ok.2 hlj) hlights
    have elen : l'.length = l.length := by unfold Link.length; rw [e0.curve]
    have hrem : Remains v1 { v4 with worldPos := pp, worldDir := dd, rearLats := r, rearCoords := c } := by
      rw [ev4]; exact ⟨⟨rfl, f5, f4, (by rw [ev4] at hent; exact hent.1.trans h.entered.symm)⟩, h.vel.symm, f7, f1⟩
    refine ⟨hrem, ?_, hrem.vel.trans h.vel, by rw [hrem.paths, hrem.sees.route]; exact h.paths, by rw [hrem.sees.route]; exact h.here,
      by rw [hrem.sees.route]; exact h.next, hent.1, hent.2, ?_, hlights, fun _ => ?_⟩
    · intro a w hw
      obtain ⟨u, hu⟩ := hr.back hw
      exact h.only a u hu
    · refine ⟨l', lj', d, m, p, hl', getLink_ok.1 hlj', by rw [elen, hrem.sees.pos]; exact hon, by rw [hrem.sees.front, elen, e0.speedLimit]; exact hnear,
        by rw [hrem.sees.front, elen]; exact hgap, ec.trans hctl, by rw [hrem.sees.front, elen]; exact hfar⟩
    · rw [hrem.maxAcc]
      show Brakes v1.acc.maxAcc v4.acc.acc
      rw [ev4]; exact hbr

/-- **C99, where it is false** (any numbers).  The only vehicle stands at most 2 m before the end of its link, but not within the distance of
the line in which vehicles queue at the next link.  As long as a vehicle that stands and brakes does not move in a step, it stands there for
ever. -/
theorem C99_short [Env] [LawfulDijkstra] {dts : List F} (hs : Reach strict s) (hL : LongLinks s.links) (hv : s.vehicles.get? k = some v)
    (h : Short s k lk j v) (hd : ∀ dt ∈ dts, Rests dt v) (hrun : dts.foldlM Sim.step s = .ok s') :
    ∃ v', s'.vehicles.get? k = some v' ∧ Remains v v' ∧ Short s' k lk j v' := by
  induction dts generalizing s v with
  | nil =>
    rw [List.foldlM_nil, M_pure_ok] at hrun
    cases hrun
    exact ⟨v, hv, ⟨⟨rfl, rfl, rfl, rfl⟩, rfl, rfl, rfl⟩, h⟩
  | cons dt dts ih =>
    rw [List.foldlM_cons, M_bind_ok] at hrun
    obtain ⟨s1, h1, h2⟩ := hrun
    obtain ⟨v1, hv1, r1, g1⟩ := h.step hv hs hL h1 (hd dt (by simp))
    obtain ⟨s1', s2, s3, s4, s5, s6, hr⟩ := (step_spec hs.inv dt).ok h1
    obtain ⟨v2, hv2, r2, g2⟩ := ih (.exec (.step dt) hs trivial h1) (hL.frame hr.frame) hv1 g1 (fun d hdm => by
      have := hd d (by simp [hdm])
      unfold Rests at this ⊢
      rw [r1.maxAcc, r1.sees.pos]
      exact this) h2
    exact ⟨v2, hv2, r1.trans r2, g2⟩

end

namespace Halt

attribute [local instance] Town.env

/-- Two streets, one after the other, and a car on the first.  Vehicles queue for the second street within a metre of the line. -/
def ops : List (Op Float) :=
  [.addLink ⟨Town.street 0.0 0.0 1.0 0.0 8.0, 10.0⟩, .addLink ⟨Town.street 8.0 0.0 1.0 0.0 20.0, 10.0⟩,
   .addLinkConnection ⟨0, 1⟩ ⟨1, 1⟩, .setLinkControl ⟨1, 1⟩ (.yield_ 1.0 false 0), .addVehicle ⟨2.0, 4.0, 3.0, 3.0, 2.0, 2.0⟩ ⟨0, 1⟩,
   .setVehicleDestination ⟨0, 1⟩ ⟨1, 1⟩, .step 1.5]

/-- The car stands too far from the line. -/
def test (s : Sim Float) : Bool :=
  shortNet s.links && s.vehicles.keys == [⟨0, 1⟩] && s.frozen.isEmpty && s.lights.keys.isEmpty && decide (¬ s.accUpdate < 0.1) &&
  match s.vehicles.get? ⟨0, 1⟩, s.links.get? ⟨0, 1⟩, s.links.get? ⟨1, 1⟩ with
  | some v, some l, some lj => decide (v.vel = 0.0) && v.pathfind.paths.all (fun p => p.links == v.route) && v.route == [⟨0, 1⟩, ⟨1, 1⟩] &&
      v.entered == 1 && v.queued == none && v.canExit && decide (¬ l.length < v.pos) && decide (¬ v.posFront < l.length - 5.0 * l.speedLimit) &&
      decide (l.length + 0.0 - v.posFront ≤ 2.0) && lj.vehicles.isEmpty && decide (-10.0 * v.acc.maxAcc ≤ 0.0) && decide (v.pos + 0.0 = v.pos) &&
      decide (v.pos + -0.0 = v.pos) && match lj.control with
      | .yield_ d m _ => !m && decide (0.0 < d) && decide (¬ -d < v.posFront - l.length)
      | _ => false
  | _, _, _ => false

theorem stands : ∃ s0 s : Sim Float, Reach True s0 ∧ Allowed True s0 (.step 1.5) ∧ s0.exec (.step 1.5) = .ok s ∧ Reach True s ∧ test s = true :=
  trial_reach (test := fun _ s => test s) (by decide +kernel : trial ops (.step 1.5) (fun _ s => test s) = true)

/-- The test recognises a vehicle that is short of the line. -/
theorem short_of {s : Sim Float} (h : test s = true) : ∃ (v : Vehicle Float) (lj : Link Float) (d : Float) (p : Int), LongLinks s.links ∧
    s.vehicles.keys = [⟨0, 1⟩] ∧ s.frozen = [] ∧ s.vehicles.get? ⟨0, 1⟩ = some v ∧ s.links.get? ⟨1, 1⟩ = some lj ∧ v.canExit = true ∧
    lj.vehicles = [] ∧ lj.control = .yield_ d false p ∧ 0.0 < d ∧ v.route = [⟨0, 1⟩, ⟨1, 1⟩] ∧ Short s ⟨0, 1⟩ ⟨0, 1⟩ ⟨1, 1⟩ v ∧
    ∀ dt, (0.0 : Float) ≤ dt → dt.isFinite = true → Rests dt v := by
  unfold test at h
  simp only [Bool.and_eq_true, decide_eq_true_eq, and_assoc, List.isEmpty_iff, beq_iff_eq] at h
  obtain ⟨h1, h2, h3, h4, h5, h6⟩ := h
  split at h6
  · rename_i v l lj hv hl hlj
    simp only [Bool.and_eq_true, decide_eq_true_eq, and_assoc, List.isEmpty_iff, beq_iff_eq, List.all_eq_true] at h6
    obtain ⟨g1, g2, g3, g4, g5, g6, g7, g8, g9, g10, g11, g12, g13, g14⟩ := h6
    split at g14
    · rename_i d m p hc
      simp only [Bool.and_eq_true, decide_eq_true_eq, Bool.not_eq_true'] at g14
      obtain ⟨⟨rfl, e1⟩, e2⟩ := g14
      refine ⟨v, lj, d, p, shortNet_long h1, h2, h3, hv, hlj, g6, g10, hc, e1, g3,
        ⟨fun a w hw => ?_, g1, g2, by rw [g3]; rfl, by rw [g3]; rfl, g4, g5, ⟨l, lj, d, false, p, hl, hlj, g7, g8, g9, hc, e2⟩, ?_, fun e => absurd e h5⟩,
        fun dt hdt hfin => rests_float hdt hfin g11 ⟨g12, g13⟩⟩
      · have := SlotMap.mem_keys.2 ⟨w, hw⟩
        rwa [h2, List.mem_singleton] at this
      · rintro light i ⟨tl, htl, -⟩
        have := SlotMap.mem_keys.2 ⟨tl, htl⟩
        rw [h4] at this
        cases this
    · cases g14
  · cases h6

/-- A car stands short of the line, and would stand there for any number of steps of a tenth of a second. -/
example : ∃ (s : Sim Float) (k lk j : Key) (v : Vehicle Float), Reach True s ∧ LongLinks s.links ∧ s.vehicles.get? k = some v ∧ Short s k lk j v ∧
    ∀ dt ∈ List.replicate 1000 (0.1 : Float), Rests dt v := by
  obtain ⟨s0, s, -, -, -, hs, ht⟩ := stands
  obtain ⟨v, lj, d, p, h1, h2, h3, h4, h5, h6, h7, h8, h9, h10, h11, h12⟩ := short_of ht
  exact ⟨s, _, _, _, v, hs, h1, h4, h11, fun dt hd => by rw [List.eq_of_mem_replicate hd]; exact h12 _ (by decide +kernel) (by decide +kernel)⟩

end Halt

section

attribute [local instance] Town.env

/-- **C99, it is false.**  A vehicle is the only one and may exit at the end of its route, and the next link of the route is empty.  It must
give way there, and it stands at most 2 m before the line.  But it will never move, whatever the steps. -/
theorem C99_stuck : ∃ (s : Sim Float) (k lk j : Key) (v : Vehicle Float) (l lj : Link Float) (d : Float) (p : Int), Reach True s ∧
    s.vehicles.keys = [k] ∧ s.frozen = [] ∧ s.getVehicle k = .ok v ∧ v.route = [lk, j] ∧ v.canExit = true ∧ s.getLinkRef lk = .ok l ∧
    s.getLinkRef j = .ok lj ∧ lj.vehicles = [] ∧ lj.control = .yield_ d false p ∧ 0.0 < d ∧ l.length + 0.0 - v.posFront ≤ 2.0 ∧
    ∀ (dts : List Float) (s' : Sim Float), (∀ dt ∈ dts, (0.0 : Float) ≤ dt ∧ dt.isFinite = true) → dts.foldlM Sim.step s = .ok s' →
      ∃ v', s'.getVehicle k = .ok v' ∧ v'.pos = v.pos ∧ v'.vel = 0.0 ∧ v'.route = v.route ∧ v'.entered = 1 ∧ v'.queued = none := by
  obtain ⟨s0, s, -, -, -, hs, ht⟩ := Halt.stands
  obtain ⟨v, lj, d, p, h1, h2, h3, h4, h5, h6, h7, h8, h9, h10, h11, h12⟩ := Halt.short_of ht
  have := Search.lawful 400
  obtain ⟨l, -, -, -, -, hl, -, -, -, hgap, -⟩ := h11.line
  refine ⟨s, _, _, _, v, l, lj, d, p, hs, h2, h3, getVeh_ok.2 h4, h10, h6, getLink_ok.2 hl, getLink_ok.2 h5, h7, h8, h9, hgap,
    fun dts s' hd hrun => ?_⟩
  obtain ⟨v', hv', r, g⟩ := C99_short hs h1 h4 h11 (fun dt hdt => h12 dt (hd dt hdt).1 (hd dt hdt).2) hrun
  exact ⟨v', getVeh_ok.2 hv', r.sees.pos, g.vel, r.sees.route, g.entered, g.queued⟩

end

end TrafficSim
