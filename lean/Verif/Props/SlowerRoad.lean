import Verif.Props.Slower
import Verif.Props.TrappedRoad
import Verif.Props.Sight

/-! # C96: an example, and a vehicle that is too fast -/

namespace TrafficSim

namespace Calm
open Relay

/-- A straight link of 100 m with the speed limit `lim`. -/
noncomputable def lane (x lim : ℝ) : LinkAttributes ℝ := ⟨(LineSegment2d.fromEnds ⟨x, 0⟩ ⟨x + 100, 0⟩).toCurve, lim⟩

theorem lane_fits (x : ℝ) {lim : ℝ} (hl : 0 < lim) {s : Sim ℝ} (h : s.links.HasRoom) : ValidArgs s (.addLink (lane x lim)) := by
  have hd := Pit.dist (x := x) (d := 100) (by norm_num)
  exact ⟨h, hl, _, _, by rw [hd]; norm_num, by rw [hd]; norm_num, rfl⟩

/-- What is known of a new link. -/
structure Plain (lim : ℝ) (l : Link ℝ) : Prop where
  outs : l.linksOut = []
  lcs : l.laneChanges = []
  vehs : l.vehicles = []
  segs : l.curve.segments ≠ []
  limit : l.speedLimit = lim
  len : 99 ≤ l.length
  control : l.control = .open_
  group : l.group = none

theorem link [Env] {s s' : Sim ℝ} {x lim : ℝ} (hfree : s.links.free = []) (h : s.exec (.addLink (lane x lim)) = .ok s') :
    ∃ l, Plain lim l ∧ s' = { s with links := ⟨s.links.slots ++ [⟨1, some l⟩], []⟩ } := by
  have hd := Pit.dist (x := x) (d := 100) (by norm_num)
  simp only [Sim.exec, Sim.addLink, SlotMap.insertWithKey, hfree] at h
  split at h
  · cases h
  simp only [M_bind_ok, M_pure_ok] at h
  obtain ⟨_, ⟨_, ⟨l, hl, rfl⟩, rfl⟩, rfl⟩ := h
  refine ⟨l, ?_, rfl⟩
  simp only [Link.new, M_bind_ok, M_pure_ok] at hl
  obtain ⟨c, hc, rfl⟩ := hl
  obtain ⟨hlen, hsegs⟩ := C38_length (by norm_num) (by rw [hd]; norm_num) hc
  rw [hd] at hlen
  obtain ⟨h1, h2⟩ := abs_le.1 hlen
  norm_num at h1 h2
  refine ⟨rfl, rfl, rfl, hsegs, rfl, ?_, rfl, rfl⟩
  show _ ≤ c.length
  linarith

/-- What is known of each of the two links. -/
structure Lane (s : Sim ℝ) (c : Key) (lim : ℝ) (outs : List Key) : Prop where
  ex : ∃ l, s.links.get? c = some l ∧ l.linksOut = outs ∧ l.group = none ∧ l.speedLimit = lim ∧ 99 ≤ l.length ∧ l.control = .open_

/-- One vehicle on the first of two links. -/
structure Road (s : Sim ℝ) (v : Vehicle ℝ) : Prop where
  la : Lane s ⟨0, 1⟩ 10 [⟨1, 1⟩]
  lb : Lane s ⟨1, 1⟩ 5 []
  gv : s.getVehicle ⟨0, 1⟩ = .ok v
  only : ∀ c w, s.vehicles.get? c = some w → c = ⟨0, 1⟩
  here : v.linkId = some ⟨0, 1⟩
  change : v.laneChange = none
  half : v.halfLen = 2
  acc : ∃ x, v.acc = ⟨2, 2, 2, 1, x⟩
  lights : ∀ light i j, ¬ s.Controls light i j
  all : ∀ c l, s.links.get? c = some l → c = ⟨0, 1⟩ ∨ c = ⟨1, 1⟩

noncomputable def build : List (Op ℝ) :=
  [.addLink (lane 0 10), .addLink (lane 100 5), .addLinkConnection ⟨0, 1⟩ ⟨1, 1⟩, .addVehicle Lone.car ⟨0, 1⟩]

theorem leads : @ProgLeads (Lone.env 0) (fun s => s.accUpdate = 0 ∧ s.lcUpdate = 0 ∧ ∃ v, Road s v ∧ v.pos = 0 ∧ v.vel = 0 ∧ v.acc = ⟨2, 2, 2, 1, 2⟩) .new build := by
  refine ⟨trivial, lane_fits _ (by norm_num) (.inr (by simp [Sim.new, SlotMap.empty, u32Max])), fun n1 s1 r1 h1 => ?_⟩
  obtain ⟨la, pa, rfl⟩ := @link (_) _ _ _ _ rfl h1
  refine ⟨trivial, lane_fits _ (by norm_num) (.inr (by simp [Sim.new, SlotMap.empty, u32Max])), fun n2 s2 r2 h2 => ?_⟩
  obtain ⟨lb, pb, rfl⟩ := @link (_) _ _ _ _ rfl h2
  refine ⟨trivial, ⟨rfl, rfl⟩, fun n3 s3 r3 h3 => ?_⟩
  obtain ⟨pa', ea⟩ : ∃ l : Link ℝ, l = { la with linksOut := la.linksOut ++ [⟨1, 1⟩] } := ⟨_, rfl⟩
  obtain ⟨pb', eb⟩ : ∃ l : Link ℝ, l = { lb with linksIn := lb.linksIn ++ [⟨0, 1⟩] } := ⟨_, rfl⟩
  replace h3 : s3 = road pa' pb' [] := by rw [ea, eb]; cases h3; rfl
  subst h3
  refine ⟨trivial, ⟨rfl, .inr (by simp [road, u32Max])⟩, fun n4 s4 r4 h4 => ?_⟩
  obtain ⟨v, fv, h4'⟩ := @added (@Env.withFuel (Lone.env 0) n4) (road pa' pb' []) pa' ⟨0, 1⟩ [] rfl (by rw [ea]; exact pa.lcs)
    (by rw [ea]; exact pa.segs) (by rw [ea]; exact pa.vehs) rfl (by decide)
  replace h4 : s4 = road { pa' with vehicles := [⟨0, 1⟩] } pb' [⟨1, some v⟩] := by rw [h4'] at h4; cases h4; rfl
  subst h4
  refine ⟨by show (0.0 : ℝ) = 0; norm_num, by show (0.0 : ℝ) = 0; norm_num, v, ?_, fv.pos, fv.vel, fv.acc⟩
  refine ⟨⟨_, rfl, ?_, ?_, ?_, ?_, ?_⟩, ⟨_, rfl, ?_, ?_, ?_, ?_, ?_⟩, rfl, ?_, by rw [Vehicle.linkId, fv.route]; rfl, fv.lc, fv.half, ⟨2, fv.acc⟩, ?_,
    fun _ _ h => two_get h⟩
  · rw [ea]; show la.linksOut ++ _ = _; rw [pa.outs]; rfl
  · rw [ea]; exact pa.group
  · rw [ea]; exact pa.limit
  · rw [ea]; exact pa.len
  · rw [ea]; exact pa.control
  · rw [eb]; exact pb.outs
  · rw [eb]; exact pb.group
  · rw [eb]; exact pb.limit
  · rw [eb]; exact pb.len
  · rw [eb]; exact pb.control
  · rintro ⟨i, w⟩ u hu
    match i with
    | 0 => simp [road, SlotMap.get?] at hu; rw [← hu.1]
    | n + 1 => simp [road, SlotMap.get?] at hu
  · rintro light i j ⟨tl, htl, -⟩
    simp [road, SlotMap.get?, SlotMap.empty] at htl

theorem Lane.frame {s s' : Sim ℝ} {c : Key} {lim : ℝ} {outs : List Key} (h : Lane s c lim outs) (hf : Frame s.links s'.links)
    (hc : ∀ l l', s.links.get? c = some l → s'.links.get? c = some l' → l'.control = l.control) : Lane s' c lim outs := by
  obtain ⟨l, hl, h1, h2, h3, h4, h5⟩ := h.ex
  obtain ⟨l', hl', e⟩ := hf.fwd _ _ hl
  have hlen : l'.length = l.length := by unfold Link.length; rw [e.curve]
  exact ⟨l', hl', e.linksOut.trans h1, e.group.trans h2, e.speedLimit.trans h3, by rw [hlen]; exact h4, (hc _ _ hl hl').trans h5⟩

/-- What a step changes, if the vehicle has planned its way. -/
theorem Road.step [Env] [LawfulDijkstra] {s s' : Sim ℝ} {v : Vehicle ℝ} {dt : ℝ} (h : Road s v) (hpl : ∀ p ∈ v.pathfind.paths, p.links = [⟨0, 1⟩, ⟨1, 1⟩])
    (hs : Reach True s) (hst : s.step dt = .ok s') (hdt : 0 ≤ dt) (hv : v.pos + (v.vel + 2 * dt) * dt ≤ 99) :
    ∃ v', Road s' v' ∧ v'.pathfind = v.pathfind ∧ v'.vel ≤ v.vel + 2 * dt ∧ v'.pos ≤ v.pos + (v.vel + 2 * dt) * dt ∧
      (¬ s.lcUpdate < 0.3 → v.pathfind.paths ≠ [] → v'.route = [⟨0, 1⟩, ⟨1, 1⟩]) := by
  obtain ⟨x, ex⟩ := h.acc
  obtain ⟨l, hl, -, -, -, hlen, -⟩ := h.la.ex
  obtain ⟨-, v', c1, c2, c3, c4, c5, ⟨ca, c6⟩, c7, c8, c9, c10⟩ := veh hs hst hdt h.gv h.here (getLink_ok.2 hl) h.change
    (fun p hp => by rw [hpl p hp]; rfl) (by rw [ex]; norm_num) (by rw [ex]; dsimp only; linarith)
  rw [ex] at c6 c7 c9
  obtain ⟨s1, s2, s3, s4, s5, s6, hr⟩ := (step_spec hs.inv dt).ok hst
  have hlights : ∀ light i j, ¬ s'.Controls light i j := by
    rintro light i j ⟨tl', htl', hm⟩
    obtain ⟨tl, htl, e⟩ := (C08_lights hs hst).bwd htl'
    rw [light_links e] at hm
    exact h.lights light i j ⟨tl, htl, hm⟩
  have hctl : ∀ {c : Key} (l l' : Link ℝ), s.links.get? c = some l → s'.links.get? c = some l' → l'.control = l.control := by
    intro c l l' hl hl'
    obtain ⟨l'', hl'', e⟩ := C08_uncontrolled hs hst (getLink_ok.2 hl) fun light i => hlights light i c
    rw [getLink_ok.1 hl''] at hl'; cases hl'
    exact e
  refine ⟨v', ⟨h.la.frame hr.frame hctl, h.lb.frame hr.frame hctl, c1, fun c w hw => ?_, c2, c4, c5.trans h.half, ⟨ca, c6⟩, hlights,
    fun c l' hl' => ?_⟩, c3, c7, c9, fun hlc hne => ?_⟩
  · obtain ⟨u, hu⟩ := hr.back hw
    exact h.only c u hu
  · obtain ⟨l0, hl0, -⟩ := hr.frame.bwd hl'
    exact h.all c l0 hl0
  · rcases c10 with ⟨-, e | e⟩ | ⟨-, p, hp, e⟩
    · exact absurd e hlc
    · exact absurd e hne
    · rw [e, hpl p hp]

end Calm

open Calm in
/-- A vehicle that starts about 100 m before a link where the speed limit is 5 m/s, and a step. -/
example : ∃ (_ : Env) (_ : LawfulDijkstra) (s0 s : Sim ℝ) (v0 : Vehicle ℝ) (l next : Link ℝ) (k lk nx : Key), Reach True s0 ∧ ¬ s0.accUpdate < 0.1 ∧
    s0.getVehicle k = .ok v0 ∧ v0.linkId = some lk ∧ s0.getLinkRef lk = .ok l ∧ s0.getLinkRef nx = .ok next ∧ nx ≠ lk ∧
    (∀ a l, s0.getLinkRef a = .ok l → 0 < l.length) ∧ l.speedLimit = 10 ∧ next.speedLimit = 5 ∧ 0 ≤ v0.halfLen ∧ v0.acc.velAdj * next.speedLimit = 5 ∧
    (4 : ℝ) ≤ min (2 * v0.acc.comfDec) 6 ∧ Gentle v0.acc.maxAcc v0.acc.comfDec 4 5 (0.05 + 0.1) 10 ∧
    10 ^ 2 ≤ 2 * v0.acc.comfDec * (5 * l.speedLimit - 7.5) ∧ v0.pos ≤ l.length ∧ v0.vel ^ 2 ≤ 2 * v0.acc.comfDec * (l.length - v0.pos - 7.5) ∧
    GoesStep k lk nx 0.05 10 s0 s := by
  obtain ⟨N, s, ⟨z1, z2, v, hb, p0, q0, -⟩, hp, hn, h⟩ := @program_runs (Lone.env 0) (Lone.lawful 0) _ (Search.full_ends _) _ leads
  obtain ⟨lb, hlb, -⟩ := hb.lb.ex
  obtain ⟨N1, s1, hN1, h1, hp1, hn1⟩ := @Trip.call (Lone.env 0) (Lone.lawful 0) (Search.full_ends _) s N (fun n hn => (h n hn).1) hp hn
    (.setVehicleDestination ⟨0, 1⟩ ⟨1, 1⟩) trivial ⟨by rw [SlotMap.contains, getVeh_ok.1 hb.gv]; rfl, .inr (by rw [SlotMap.contains, hlb]; rfl)⟩
  obtain ⟨N', sf, hN, hsteps⟩ := @Relay.calls (Lone.env 0) (Lone.lawful 0) (Search.full_ends _) [0.5, 0.2, 0.05] s1 N1 (fun n hn => (h1 n hn).2) hp1 hn1
  let env : Env := @Env.withFuel (Lone.env 0) N'
  have hlaw : LawfulDijkstra := @LawfulDijkstra.withFuel (Lone.env 0) (Lone.lawful 0) N'
  have hr : Reach True s := (h _ (hN1.trans hN)).1
  have hr1 : Reach True s1 := (h1 _ hN).2
  have hsend : s.setVehicleDestination ⟨0, 1⟩ ⟨1, 1⟩ = .ok s1 := (h1 _ hN).1
  have hst : [0.5, 0.2, 0.05].foldlM (Sim.step (F := ℝ)) s1 = .ok sf := hsteps N' le_rfl
  simp only [List.foldlM_cons, List.foldlM_nil, M_bind_ok, M_pure_ok] at hst
  obtain ⟨sa, ha, sb, hbs, sc, hc, rfl⟩ := hst
  have ra : Reach True sa := hr1.exec (op := .step 0.5) trivial ha
  have rb : Reach True sb := ra.exec (op := .step 0.2) trivial hbs
  have hd := (setVehicleDestination_spec (E := fun _ => True) (k := ⟨0, 1⟩) (dst := ⟨1, 1⟩) hr.inv (.inr trivial) (.inr trivial)
    (by rw [SlotMap.contains, getVeh_ok.1 hb.gv]; rfl) (.inr (.inr trivial))).ok hsend
  obtain ⟨w, pf, hw, -, -, -, hvs⟩ := hd.veh
  rw [getVeh_ok.1 hb.gv] at hw; cases hw
  have gv1 : s1.getVehicle ⟨0, 1⟩ = .ok { v with pathfind := pf, canExit := false } := by
    refine getVeh_ok.2 ?_
    rw [hvs, SlotMap.get?_modify_self, getVeh_ok.1 hb.gv]; rfl
  have el1 : s1.links = s.links := by rw [hd.eq]
  obtain ⟨la, hla, a1, a2, a3, a4, a5⟩ := hb.la.ex
  obtain ⟨lb', hlb', b1, b2, b3, b4, b5⟩ := hb.lb.ex
  obtain ⟨cw, -⟩ := OnlyWay.sent (ks := [⟨0, 1⟩, ⟨1, 1⟩]) hr hsend hb.gv gv1 hb.change
    (.cons hla a2 a1 (.cons (by norm_num) hla .last) (.last hlb' b2 b1)) hb.here.symm rfl
  have hb1 : Road s1 { v with pathfind := pf, canExit := false } := by
    refine ⟨⟨la, by rw [el1]; exact hla, a1, a2, a3, a4, a5⟩, ⟨lb', by rw [el1]; exact hlb', b1, b2, b3, b4, b5⟩, gv1, fun c u hu => ?_, hb.here, hb.change,
      hb.half, hb.acc, ?_, fun c l hl => hb.all c l (by rw [← el1]; exact hl)⟩
    · have : (s1.vehicles.get? c).isSome := by rw [hu]; rfl
      rw [hvs, SlotMap.isSome_get?_modify] at this
      obtain ⟨u', hu'⟩ := Option.isSome_iff_exists.1 this
      exact hb.only c u' hu'
    · rintro light i j ⟨tl, htl, hm⟩
      rw [hd.eq] at htl
      exact hb.lights light i j ⟨tl, htl, hm⟩
  obtain ⟨va, da, ea1, ea2, ea3, -⟩ := hb1.step (fun p hp => (cw.paths p hp).1) hr1 ha (by norm_num) (by show v.pos + (v.vel + _) * _ ≤ _; rw [p0, q0]; norm_num)
  replace ea2 : va.vel ≤ v.vel + 2 * 0.5 := ea2
  replace ea3 : va.pos ≤ v.pos + (v.vel + 2 * 0.5) * 0.5 := ea3
  rw [q0] at ea2; rw [p0, q0] at ea3
  norm_num at ea2 ea3
  obtain ⟨vb, db, eb1, eb2, eb3, eb4⟩ := da.step (fun p hp => (cw.paths p (by rw [← ea1]; exact hp)).1) ra hbs (by norm_num) (by norm_num; linarith)
  norm_num at eb2 eb3
  obtain ⟨ta1, ta2⟩ := Trip.clocks hr1 ha
  obtain ⟨tb1, tb2⟩ := Trip.clocks ra hbs
  have y1 : s1.accUpdate = 0 := by rw [hd.eq]; exact z1
  have y2 : s1.lcUpdate = 0 := by rw [hd.eq]; exact z2
  rw [y1] at ta1; rw [y2] at ta2
  norm_num at ta1 ta2
  rw [ta1] at tb1; rw [ta2] at tb2
  norm_num at tb1 tb2
  have hroute := eb4 (by rw [ta2]; norm_num) (by rw [ea1]; exact cw.any)
  obtain ⟨la, hla, a1, a2, a3, a4, a5⟩ := db.la.ex
  obtain ⟨lb, hlb, b1, b2, b3, b4, b5⟩ := db.lb.ex
  obtain ⟨x, ex⟩ := db.acc
  have v0 := C20_speed rb db.gv
  have hsq : vb.vel ^ 2 ≤ 2 ^ 2 := pow_le_pow_left₀ v0 (by linarith) 2
  refine ⟨env, hlaw, sb, sc, vb, la, lb, ⟨0, 1⟩, ⟨0, 1⟩, ⟨1, 1⟩, rb, by rw [tb1]; norm_num, db.gv, db.here, getLink_ok.2 hla, getLink_ok.2 hlb, by decide, ?_, a3, b3,
    by rw [db.half]; norm_num, by rw [ex, b3]; norm_num, by rw [ex]; norm_num, ?_, ?_, by linarith, ?_, 0.05, by norm_num, le_rfl, hc, ?_, ?_⟩
  · intro c l hl
    have hl := getLink_ok.1 hl
    rcases db.all c l hl with rfl | rfl
    · rw [hla] at hl; cases hl; linarith
    · rw [hlb] at hl; cases hl; linarith
  · rw [ex]
    constructor <;> norm_num [excess]
  · rw [ex, a3]; norm_num
  · rw [ex]; dsimp only; norm_num at hsq ⊢; linarith
  · have hlanes : sb.calculateLaneChanges = .ok sb := by
      unfold Sim.calculateLaneChanges
      rw [if_pos (by rw [tb2]; simp only [laneChangeUpdateSec]; norm_num)]; rfl
    have hm := ((rb.inv.mem _ _ hla).2 ⟨0, 1⟩).2 ⟨vb, getVeh_ok.1 db.gv, db.here⟩
    obtain e | ⟨pre, j, e⟩ := List.eq_nil_or_concat la.vehicles
    · rw [e] at hm; cases hm
    have hj : j = ⟨0, 1⟩ := by
      obtain ⟨w, hw, -⟩ := ((rb.inv.mem _ _ hla).2 j).1 (by rw [e]; simp)
      exact db.only j w hw
    subst hj
    exact ⟨sb, vb, vb, la, lb, pre, [], [], db.gv, hroute, hlanes, db.gv, hroute, getLink_ok.2 hla, getLink_ok.2 hlb, b5, by rw [e]; simp⟩
  · intro v hv
    rw [db.gv] at hv; cases hv
    linarith

namespace Brisk

attribute [local instance] Town.env

/-- A straight road: a link of 60 m, two of 3 m, and one where the speed limit is 5 m/s.  A car comes from the first one. -/
def road : List (Op Float) :=
  [.addLink ⟨Town.street 0.0 0.0 1.0 0.0 60.0, 40.0⟩, .addLink ⟨Town.street 60.0 0.0 1.0 0.0 3.0, 40.0⟩,
   .addLink ⟨Town.street 63.0 0.0 1.0 0.0 3.0, 40.0⟩, .addLink ⟨Town.street 66.0 0.0 1.0 0.0 6.0, 5.0⟩,
   .addLinkConnection ⟨0, 1⟩ ⟨1, 1⟩, .addLinkConnection ⟨1, 1⟩ ⟨2, 1⟩, .addLinkConnection ⟨2, 1⟩ ⟨3, 1⟩,
   .addVehicle Blind.car ⟨0, 1⟩, .setVehicleDestination ⟨0, 1⟩ ⟨3, 1⟩, .step 0.3, .step 6.5]

def test (s0 s s' : Sim Float) : Bool :=
  match s0.vehicles.get? ⟨0, 1⟩, s.vehicles.get? ⟨0, 1⟩, s'.vehicles.get? ⟨0, 1⟩, s0.links.get? ⟨3, 1⟩ with
  | some v0, some v, some v', some l =>
    decide (v0.acc.maxAcc = 2.0 ∧ v0.acc.comfDec = 4.5 ∧ v0.acc.velAdj = 1.0) && decide (Between v0 0.0 50.0) &&
    decide (v0.vel * v0.vel < 5.0 * 5.0 + 2.0 * v0.acc.comfDec * (66.0 - v0.worldPos.x)) && decide (l.speedLimit = 5.0) &&
    decide (v.linkId = some ⟨2, 1⟩) && decide (v'.linkId = some ⟨3, 1⟩) && decide (v'.pos < 1.0 ∧ 8.5 < v'.vel)
  | _, _, _, _ => false

theorem test_spec {s0 s s' : Sim Float} (h : test s0 s s' = true) : ∃ v0 v v' l, s0.getVehicle ⟨0, 1⟩ = .ok v0 ∧ s.getVehicle ⟨0, 1⟩ = .ok v ∧
    s'.getVehicle ⟨0, 1⟩ = .ok v' ∧ s0.getLinkRef ⟨3, 1⟩ = .ok l ∧ (v0.acc.maxAcc = 2.0 ∧ v0.acc.comfDec = 4.5 ∧ v0.acc.velAdj = 1.0) ∧
    Between v0 0.0 50.0 ∧ v0.vel * v0.vel < 5.0 * 5.0 + 2.0 * v0.acc.comfDec * (66.0 - v0.worldPos.x) ∧ l.speedLimit = 5.0 ∧
    v.linkId = some ⟨2, 1⟩ ∧ v'.linkId = some ⟨3, 1⟩ ∧ v'.pos < 1.0 ∧ 8.5 < v'.vel := by
  unfold test at h
  split at h
  · rename_i v0 v v' l h1 h2 h3 h4
    simp only [Bool.and_eq_true, decide_eq_true_eq, and_assoc] at h
    exact ⟨v0, v, v', l, getVeh_ok.2 h1, getVeh_ok.2 h2, getVeh_ok.2 h3, getLink_ok.2 h4, ⟨h.1, h.2.1, h.2.2.1⟩, h.2.2.2⟩
  · cases h

end Brisk

open Brisk in
attribute [local instance] Town.env in
/-- **C96** (witness) A vehicle on a straight road, which begins to be limited to 5 m/s at 66 m, could slow down in time with less than its
comfortable deceleration.  Two short links before this point, it does not see the limit in time: with steps of 0.2 s it gets there with more
than 8.5 m/s. -/
theorem C96_too_fast : ∃ (s0 s s' : Sim Float) (v0 v v' : Vehicle Float) (l : Link Float), Reach True s0 ∧
    Relation.ReflTransGen (fun a b => a.step 0.2 = .ok b) s0 s ∧ s.step 0.2 = .ok s' ∧
    s0.getVehicle ⟨0, 1⟩ = .ok v0 ∧ s.getVehicle ⟨0, 1⟩ = .ok v ∧ s'.getVehicle ⟨0, 1⟩ = .ok v' ∧ s0.getLinkRef ⟨3, 1⟩ = .ok l ∧
    (v0.acc.maxAcc = 2.0 ∧ v0.acc.comfDec = 4.5 ∧ v0.acc.velAdj = 1.0) ∧ Between v0 0.0 50.0 ∧
    v0.vel * v0.vel < 5.0 * 5.0 + 2.0 * v0.acc.comfDec * (66.0 - v0.worldPos.x) ∧ l.speedLimit = 5.0 ∧
    v.linkId = some ⟨2, 1⟩ ∧ v'.linkId = some ⟨3, 1⟩ ∧ v'.pos < 1.0 ∧ 8.5 < v'.vel := by
  obtain ⟨s0, s, s', h1, h2, h3, h4⟩ := drive_reach (ops := road) (n := 7) (dt := 0.2) (test := test) (by decide +kernel)
  obtain ⟨v0, v, v', l, h⟩ := test_spec h4
  exact ⟨s0, s, s', v0, v, v', l, h1, h2, h3, h⟩

end TrafficSim
