import Verif.Props.Green
import Verif.Props.TrappedRoad
import Verif.Props.SlowerRoad

/-! # C98: an example -/

namespace TrafficSim

namespace Gate
open Relay

/-- What is known of the two links, of 8 m and 100 m. -/
structure Net (s : Sim ℝ) : Prop where
  la : ∃ l, s.links.get? ⟨0, 1⟩ = some l ∧ l.group = none ∧ l.linksOut = [⟨1, 1⟩] ∧ l.laneChanges = [] ∧ l.speedLimit = 10 ∧ 7.9 ≤ l.length ∧ l.length ≤ 8.1
  lb : ∃ l, s.links.get? ⟨1, 1⟩ = some l ∧ l.group = none ∧ l.linksOut = [] ∧ l.speedLimit = 10
  all : ∀ c l, s.links.get? c = some l → c = ⟨0, 1⟩ ∨ c = ⟨1, 1⟩

theorem Net.frame {s s' : Sim ℝ} (h : Net s) (hf : Frame s.links s'.links) : Net s' := by
  obtain ⟨l, hl, h1, h2, h3, h4, h5, h6⟩ := h.la
  obtain ⟨l2, hl2, g1, g2, g3⟩ := h.lb
  obtain ⟨l', hl', e⟩ := hf.fwd _ _ hl
  obtain ⟨l2', hl2', e2⟩ := hf.fwd _ _ hl2
  have hlen : l'.length = l.length := by unfold Link.length; rw [e.curve]
  refine ⟨⟨l', hl', e.group.trans h1, e.linksOut.trans h2, e.laneChanges.trans h3, e.speedLimit.trans h4, by rw [hlen]; exact h5, by rw [hlen]; exact h6⟩,
    ⟨l2', hl2', e2.group.trans g1, e2.linksOut.trans g2, e2.speedLimit.trans g3⟩, fun c u hu => ?_⟩
  obtain ⟨u0, hu0, -⟩ := hf.bwd hu
  exact h.all c u0 hu0

noncomputable def build : List (Op ℝ) :=
  [.addLink (Pit.lane 0 8), .addLink (Pit.lane 8 100), .addLinkConnection ⟨0, 1⟩ ⟨1, 1⟩, .addVehicle Lone.car ⟨0, 1⟩]

theorem leads : @ProgLeads (Lone.env 0) (fun s => s.accUpdate = 0 ∧ s.lcUpdate = 0 ∧ s.lights = .empty ∧ Net s ∧
    (∀ l, s.links.get? ⟨1, 1⟩ = some l → l.conflicts = []) ∧ (s.frozen = [] ∧ s.conflicts = []) ∧
    ∃ v, Fresh ⟨0, 1⟩ v ∧ s.getVehicle ⟨0, 1⟩ = .ok v ∧ ∀ c w, s.vehicles.get? c = some w → c = ⟨0, 1⟩) .new build := by
  refine ⟨trivial, Pit.lane_fits _ (by norm_num) (by norm_num) (.inr (by simp [Sim.new, SlotMap.empty, u32Max])), fun n1 s1 r1 h1 => ?_⟩
  obtain ⟨la, pa, rfl⟩ := @Pit.link (_) _ _ _ _ (by norm_num) rfl h1
  refine ⟨trivial, Pit.lane_fits _ (by norm_num) (by norm_num) (.inr (by simp [Sim.new, SlotMap.empty, u32Max])), fun n2 s2 r2 h2 => ?_⟩
  obtain ⟨lb, pb, clear, rfl⟩ := @Pit.link_clear (_) _ _ _ _ (by norm_num) rfl h2
  refine ⟨trivial, ⟨rfl, rfl⟩, fun n3 s3 r3 h3 => ?_⟩
  obtain ⟨pa', ea⟩ : ∃ l : Link ℝ, l = { la with linksOut := la.linksOut ++ [⟨1, 1⟩] } := ⟨_, rfl⟩
  obtain ⟨pb', eb⟩ : ∃ l : Link ℝ, l = { lb with linksIn := lb.linksIn ++ [⟨0, 1⟩] } := ⟨_, rfl⟩
  replace h3 : s3 = road pa' pb' [] := by rw [ea, eb]; cases h3; rfl
  subst h3
  refine ⟨trivial, ⟨rfl, .inr (by simp [road, u32Max])⟩, fun n4 s4 r4 h4 => ?_⟩
  obtain ⟨v, fv, h4'⟩ := @added (@Env.withFuel (Lone.env 0) n4) (road pa' pb' []) pa' ⟨0, 1⟩ [] rfl (by rw [ea]; exact pa.lcs)
    (by rw [ea]; exact pa.segs) (by rw [ea]; exact pa.vehs) rfl (by decide)
  replace h4 : s4 = road { pa' with vehicles := [⟨0, 1⟩] } pb' [⟨1, some v⟩] := by rw [h4'] at h4; cases h4; rfl
  subst h4
  refine ⟨by show (0.0 : ℝ) = 0; norm_num, by show (0.0 : ℝ) = 0; norm_num, rfl, ⟨⟨_, rfl, ?_, ?_, ?_, ?_, ?_, ?_⟩, ⟨_, rfl, ?_, ?_, ?_⟩,
    fun _ _ h => two_get h⟩, ?_, ⟨rfl, rfl⟩, v, fv, rfl, ?_⟩
  · rw [ea]; exact pa.group
  · rw [ea]; show la.linksOut ++ _ = _; rw [pa.outs]; rfl
  · rw [ea]; exact pa.lcs
  · rw [ea]; exact pa.limit
  · rw [ea]; show _ ≤ la.length; have := pa.len; norm_num at this ⊢; linarith
  · rw [ea]; show la.length ≤ _; have := pa.short; norm_num at this ⊢; linarith
  · rw [eb]; exact pb.group
  · rw [eb]; exact pb.outs
  · rw [eb]; exact pb.limit
  · intro l hl
    have : l = pb' := by cases hl; rfl
    rw [this, eb]; exact clear
  · rintro ⟨i, w⟩ u hu
    match i with
    | 0 => simp [road, SlotMap.get?] at hu; rw [← hu.1]
    | n + 1 => simp [road, SlotMap.get?] at hu

/-- A light with two movements that are in conflict, of which the second controls the second link.  Each has a phase of 10 s. -/
noncomputable def lamp : TrafficLight ℝ :=
  (((TrafficLight.new.addMovement 2 3 2 []).addMovement 1 3 2 [⟨1, 1⟩]).addPhase 1 10).addPhase 2 10

/-- The only light, of which both movements have been red for a time `a`. -/
structure Lit (s : Sim ℝ) (j : Key) (a : ℝ) : Prop where
  ex : ∃ tl m0 m1, s.lights.get? j = some tl ∧ tl.links = [(1, ⟨1, 1⟩)] ∧ tl.phases = [⟨1, 10⟩, ⟨2, 10⟩] ∧ tl.phase = 0 ∧ tl.movements = [m0, m1] ∧
    m0.state = .red ∧ m1.state = .red ∧ m0.conflict = 2 ∧ m1.conflict = 1 ∧ m1.redTime = 2 ∧ m1.since = a
  only : ∀ c tl, s.lights.get? c = some tl → c = j

theorem Lit.step [Env] [LawfulDijkstra] {s s' : Sim ℝ} {j : Key} {a dt : ℝ} (h : Lit s j a) (hs : Reach True s) (hst : s.step dt = .ok s') (ha : a ≤ 2) :
    Lit s' j (a + dt) := by
  obtain ⟨tl, m0, m1, h1, h2, h3, h4, h5, h6, h7, h8, h9, h10, h11⟩ := h.ex
  obtain ⟨tl', h1', hstep⟩ := (C08_lights hs hst).fwd j tl h1
  obtain ⟨ms, lk, ph, p⟩ := tl
  dsimp only at h2 h3 h4 h5
  subst h2 h3 h4 h5 h11
  refine ⟨?_, fun c tl hc => ?_⟩
  · simp [TrafficLight.step, TrafficLight.updatePhase, TrafficLight.phaseComplete, TrafficLight.applyPhase, TrafficLight.applyMask, maskBit,
      TrafficLight.computeNext, TrafficLight.nextOf, TrafficLight.stepMovement, TrafficLight.canTurnGreen, h6, h7, h8, h9, h10, bind, Except.bind, pure,
      Except.pure, not_lt.2 ha, Nat.testBit] at hstep
    subst hstep
    exact ⟨_, _, _, h1', rfl, rfl, rfl, rfl, rfl, rfl, rfl, rfl, rfl, rfl⟩
  · obtain ⟨tl0, h0, -⟩ := (C08_lights hs hst).bwd hc
    exact h.only c tl0 h0

theorem Lit.controls {s : Sim ℝ} {j : Key} {a : ℝ} (h : Lit s j a) : s.Controls j 1 ⟨1, 1⟩ ∧ ∀ light i, s.Controls light i ⟨1, 1⟩ → light = j ∧ i = 1 := by
  obtain ⟨tl, m0, m1, h1, h2, -⟩ := h.ex
  refine ⟨⟨tl, h1, by rw [h2]; simp⟩, ?_⟩
  rintro light i ⟨tl', h', hm⟩
  have := h.only light tl' h'
  subst this
  rw [h1] at h'; cases h'
  rw [h2] at hm
  simp at hm
  exact ⟨rfl, hm⟩

theorem Lit.red {s : Sim ℝ} {j : Key} {a : ℝ} (h : Lit s j a) (hn : Net s) : Red ⟨0, 1⟩ s := by
  obtain ⟨tl, m0, m1, h1, h2, h3, h4, h5, h6, h7, -⟩ := h.ex
  obtain ⟨l, g1, -, g2, -⟩ := hn.la
  intro l' c hl' hc
  rw [getLink_ok.1 hl'] at g1; cases g1
  rw [g2, List.mem_singleton] at hc
  subst hc
  exact ⟨j, 1, tl, m1, h.controls.1, h.controls.2, h1, by rw [h5]; rfl, by rw [h7]; decide⟩

theorem wellPosed {tl : TrafficLight ℝ} {m0 m1 : Movement ℝ} (h3 : tl.phases = [⟨1, 10⟩, ⟨2, 10⟩]) (h5 : tl.movements = [m0, m1]) (h8 : m0.conflict = 2)
    (h9 : m1.conflict = 1) : WellPosed tl := by
  have hlen : tl.movements.length = 2 := by rw [h5]; rfl
  constructor
  · intro i j hi hj
    rw [hlen] at hi hj
    interval_cases i <;> interval_cases j <;> simp [Names, h5, h8, h9, Nat.testBit]
  · intro ph hp i j hi hj hij
    rw [hlen] at hi hj
    rw [h3] at hp
    have hp : ph = ⟨1, 10⟩ ∨ ph = ⟨2, 10⟩ := by simpa using hp
    interval_cases i <;> interval_cases j <;> rcases hp with rfl | rfl <;> simp [Nat.testBit] at hij ⊢

/-- A run of steps, as a sequence of states. -/
theorem sequence [Env] {dt : ℝ} : ∀ {n : ℕ} {s s' : Sim ℝ}, (List.replicate n dt).foldlM Sim.step s = .ok s' →
    ∃ σ : Nat → Sim ℝ, σ 0 = s ∧ ∀ m < n, (σ m).step dt = .ok (σ (m + 1)) := by
  intro n
  induction n with
  | zero => intro s s' _; exact ⟨fun _ => s, rfl, fun m hm => by omega⟩
  | succ n ih =>
    intro s s' h
    rw [List.replicate_succ, List.foldlM_cons, M_bind_ok] at h
    obtain ⟨t, h1, h2⟩ := h
    obtain ⟨σ, e, hσ⟩ := ih h2
    refine ⟨fun m => match m with | 0 => s | m + 1 => σ m, rfl, fun m hm => ?_⟩
    match m with
    | 0 => show s.step dt = .ok (σ 0); rw [e]; exact h1
    | m + 1 => exact hσ m (by omega)

/-- A vehicle on a link without neighbours is the first one there, if there is no other. -/
theorem alone [Env] [LawfulDijkstra] {strict : Prop} {s s' : Sim ℝ} {k lk : Key} {v : Vehicle ℝ} {l : Link ℝ} {dt : ℝ} (hs : Reach strict s) (hst : s.step dt = .ok s')
    (hv : s.getVehicle k = .ok v) (hon : v.linkId = some lk) (hl : s.getLinkRef lk = .ok l) (hlc : l.laneChanges = [])
    (only : ∀ c w, s.vehicles.get? c = some w → c = k) : First k lk s := by
  refine Trip.first hs hst hv only (by rw [SlotMap.contains, getLink_ok.1 hl]; rfl) fun s1 v1 h1 hv1 => ?_
  obtain ⟨t1, s2, s3, s4, s5, s6, hr⟩ := (step_spec hs.inv dt).ok hst
  obtain ⟨w1, v2, v4, ht⟩ := hr.trace (getVeh_ok.1 hv)
  have := hr.run1
  rw [h1] at this; cases this
  have := ht.get1
  rw [getVeh_ok.1 hv1] at this; cases this
  have hi := hs.inv.veh k v (getVeh_ok.1 hv)
  have hsrc : v.pathfind.src = lk := by
    have h1 : v.route.head? = some lk := hon
    rw [hi.src] at h1; cases h1; rfl
  rcases ht.steer with (e | ⟨p, hc, e, e1⟩) | ⟨p, hc, hne, -⟩
  · rw [e]; exact hon
  · rw [e1]; exact e.trans hon
  · exfalso
    obtain ⟨a, ha, h | ⟨l', hl', hm⟩⟩ := (hi.paths p hc.mem).start
    · rw [ha, h, hsrc] at hne; exact hne hon.symm
    · rw [hsrc, getLink_ok.1 hl] at hl'; cases hl'
      rw [hlc] at hm; cases hm

/-- The simulation after the vehicle is sent to `dst`. -/
theorem sent [Env] [LawfulDijkstra] {s s' : Sim ℝ} {dst : Key} {v : Vehicle ℝ} (gv : s.getVehicle ⟨0, 1⟩ = .ok v)
    (only : ∀ c w, s.vehicles.get? c = some w → c = ⟨0, 1⟩) (hs : Reach True s) (he : s.setVehicleDestination ⟨0, 1⟩ dst = .ok s') :
    ∃ pf, Trip.Sent s s' v pf := by
  have hk := getVeh_ok.1 gv
  have hd := (setVehicleDestination_spec (E := fun _ => True) (k := ⟨0, 1⟩) (dst := dst) hs.inv (.inr trivial) (.inr trivial)
    (by rw [SlotMap.contains, hk]; rfl) (.inr (.inr trivial))).ok he
  obtain ⟨w, pf, hw, -, -, -, hvs⟩ := hd.veh
  rw [hk] at hw; cases hw
  refine ⟨pf, getVeh_ok.2 ?_, fun c u hu => ?_, hd.eq⟩
  · rw [hvs, SlotMap.get?_modify_self, hk]; rfl
  · have : (s'.vehicles.get? c).isSome := by rw [hu]; rfl
    rw [hvs, SlotMap.isSome_get?_modify] at this
    obtain ⟨u', hu'⟩ := Option.isSome_iff_exists.1 this
    exact only c u' hu'

end Gate

open Gate in
/-- Instances of `C98_green`, for any number of steps: a vehicle waits at a light that is red for both movements. -/
example : ∃ (tl : TrafficLight ℝ) (ph : Phase ℝ), tl.phase < tl.phases.length ∧ WellPosed tl ∧ tl.movements.length ≤ 64 ∧ 1 < tl.movements.length ∧
    tl.phases[1]? = some ph ∧ ph.mask.testBit 1 = true ∧ (0.1 : ℝ) + 0.1 < ph.duration ∧
    ∀ N, ∃ (_ : Env) (_ : LawfulDijkstra) (sp s0 : Sim ℝ) (k lk light : Key) (v0 : Vehicle ℝ) (l : Link ℝ) (σ : Nat → Sim ℝ),
      Reach True sp ∧ sp.step 0.1 = .ok s0 ∧ ¬ s0.accUpdate < 0.1 ∧ s0.getVehicle k = .ok v0 ∧ Heading lk v0 ∧ Onward v0 ∧ s0.getLinkRef lk = .ok l ∧
      l.laneChanges = [] ∧ lk ∉ l.linksOut ∧ (∀ k l, s0.getLinkRef k = .ok l → 0 < l.length) ∧ 0 ≤ v0.halfLen ∧ Stopping v0.acc (0.1 + 0.1) ∧
      0 < v0.acc.velAdj ∧
      (∀ k l, s0.getLinkRef k = .ok l → 0 < l.speedLimit ∧ l.speedLimit ≤ 10 ∧ 4 * v0.acc.maxAcc * (0.1 + 0.1) ≤ v0.acc.velAdj * l.speedLimit) ∧
      v0.vel ≤ v0.acc.velAdj * 10 ∧
      (v0.acc.velAdj * 10) ^ 2 + 2 * (v0.acc.maxAcc + 6) * (0.1 + 0.1) * (v0.acc.velAdj * 10) + (v0.acc.maxAcc + 3) ^ 2 * (0.1 + 0.1) ^ 2 ≤
        60 * l.speedLimit ∧
      v0.posFront ≤ l.length ∧ v0.posFront + v0.vel ^ 2 / 12 + 3 / 4 * (0.1 + 0.1) ^ 2 ≤ l.length ∧ l.length - 7.5 < v0.posFront ∧ 1.5 ≤ l.speedLimit ∧
      (∀ j ∈ l.linksOut, s0.Controls light 1 j ∧ ∀ light' i', s0.Controls light' i' j → light' = light ∧ i' = 1) ∧ s0.lights.get? light = some tl ∧
      σ 0 = s0 ∧ (∀ n < N, (σ n).step 0.1 = .ok (σ (n + 1))) ∧
      ∀ n < N, (∃ v, (σ n).getVehicle k = .ok v ∧ v.linkId = some lk) → First k lk (σ n) := by
  obtain ⟨N0, s0, ⟨z1, z2, z3, net, -, -, v0, fv, gv, only⟩, hp, hn, h⟩ := @program_runs (Lone.env 0) (Lone.lawful 0) _ (Search.full_ends _) _ leads
  have law : ∀ n, @LawfulDijkstra (@Env.withFuel (Lone.env 0) n) := fun n => @LawfulDijkstra.withFuel (Lone.env 0) (Lone.lawful 0) n
  obtain ⟨la, hla, a1, a2, a3, a4, a5, a6⟩ := net.la
  obtain ⟨lb, hlb, b1, b2, b3⟩ := net.lb
  have hl0 : s0.links.contains ⟨1, 1⟩ = true := by rw [SlotMap.contains, hlb]; rfl
  obtain ⟨N1, s1, hN1, h1, hp1, hn1⟩ := @Trip.call (Lone.env 0) (Lone.lawful 0) (Search.full_ends _) s0 N0 (fun n hn => (h n hn).1) hp hn
    (.setVehicleDestination ⟨0, 1⟩ ⟨1, 1⟩) trivial ⟨by rw [SlotMap.contains, getVeh_ok.1 gv]; rfl, .inr hl0⟩
  obtain ⟨pf, hsent⟩ := @sent (@Env.withFuel (Lone.env 0) N1) (law N1) _ _ _ _ gv only (h N1 hN1).1 (h1 N1 le_rfl).1
  obtain ⟨m1, m2, m3, m4⟩ : s1.links = s0.links ∧ s1.lights = s0.lights ∧ s1.accUpdate = s0.accUpdate ∧ s1.lcUpdate = s0.lcUpdate := by
    rw [hsent.eq]; exact ⟨rfl, rfl, rfl, rfl⟩
  have htl : LightOK True s1.links lamp := by
    refine ⟨⟨_, .addPhase 2 10 (.addPhase 1 10 (.addMovement 1 3 2 [⟨1, 1⟩] (.addMovement 2 3 2 [] .new)))⟩, ?_,
      fun _ => by simp [lamp, TrafficLight.addPhase], fun _ => ?_⟩
    · rw [m1]
      intro p hp
      simp [lamp, TrafficLight.addPhase, TrafficLight.addMovement, TrafficLight.new] at hp
      subst hp; exact hl0
    · simp [lamp, TrafficLight.addPhase, TrafficLight.addMovement, TrafficLight.new]
  obtain ⟨N2, s2, hN2, h2, hp2, hn2⟩ := @Trip.call (Lone.env 0) (Lone.lawful 0) (Search.full_ends _) s1 N1 (fun n hn => (h1 n hn).2) hp1 hn1
    (.addTrafficLight lamp) htl (by show s1.lights.HasRoom; rw [m2, z3]; exact .inr (by simp [SlotMap.empty, u32Max]))
  obtain ⟨N3, s3, hN3, h3, hp3, hn3⟩ := @Trip.call (Lone.env 0) (Lone.lawful 0) (Search.full_ends _) s2 N2 (fun n hn => (h2 n hn).2) hp2 hn2
    (.step 0.5) trivial trivial
  obtain ⟨N4, s4, hN4, h4, hp4, hn4⟩ := @Trip.call (Lone.env 0) (Lone.lawful 0) (Search.full_ends _) s3 N3 (fun n hn => (h3 n hn).2) hp3 hn3
    (.step 0.1) trivial trivial
  have hpos : ∀ {t : Sim ℝ}, PosNet t.links → ∀ k l, t.getLinkRef k = .ok l → 0 < l.length := fun hp k l hl => hp.1 k l (getLink_ok.1 hl)
  -- the state after the steps
  have state : ∃ j v4, Lit s4 j 0.6 ∧ Gate.Net s4 ∧ s4.getVehicle ⟨0, 1⟩ = .ok v4 ∧ Heading ⟨0, 1⟩ v4 ∧ Onward v4 ∧ v4.halfLen = 2 ∧
      (∃ y, v4.acc = ⟨2, 2, 2, 1, y⟩) ∧ 0 ≤ v4.vel ∧ v4.vel ≤ 1.2 ∧ 0 ≤ v4.pos ∧ v4.pos ≤ 0.62 ∧ s4.accUpdate = 0.1 ∧
      ∀ c w, s4.vehicles.get? c = some w → c = ⟨0, 1⟩ := by
    let env : Env := @Env.withFuel (Lone.env 0) N4
    have hlaw : LawfulDijkstra := law N4
    obtain ⟨r0, k0⟩ : Reach True s0 ∧ build.foldlM Sim.exec .new = .ok s0 := h N4 (by omega)
    obtain ⟨k1, r1⟩ : s0.setVehicleDestination ⟨0, 1⟩ ⟨1, 1⟩ = .ok s1 ∧ Reach True s1 := h1 N4 (by omega)
    obtain ⟨k2, r2⟩ : s1.exec (.addTrafficLight lamp) = .ok s2 ∧ Reach True s2 := h2 N4 (by omega)
    obtain ⟨k3, r3⟩ : s2.step 0.5 = .ok s3 ∧ Reach True s3 := h3 N4 (by omega)
    obtain ⟨k4, r4⟩ : s3.step 0.1 = .ok s4 ∧ Reach True s4 := h4 N4 (by omega)
    simp only [Sim.exec, M_bind_ok, M_pure_ok] at k2
    obtain ⟨⟨s2', j⟩, k2, e2⟩ := k2
    dsimp only at e2; subst e2
    have hadd := addTrafficLight_ok r1.inv.lwf k2
    have lit2 : Lit s2' j 0 := by
      refine ⟨?_, fun c tl' hc => ?_⟩
      · have := hadd.light j
        rw [if_pos rfl] at this
        exact ⟨_, _, _, this, rfl, rfl, rfl, rfl, rfl, rfl, rfl, rfl, rfl, by show (0.0 : ℝ) = 0; norm_num⟩
      · rw [hadd.light] at hc
        split at hc
        · assumption
        · rw [m2, z3] at hc; cases hc
    obtain ⟨n1, n2, n3, n4⟩ : s2'.links = s1.links ∧ s2'.vehicles = s1.vehicles ∧ s2'.accUpdate = s1.accUpdate ∧ s2'.lcUpdate = s1.lcUpdate := by
      rw [hadd.eq]; exact ⟨rfl, rfl, rfl, rfl⟩
    have gv2 : s2'.getVehicle ⟨0, 1⟩ = .ok { v0 with pathfind := pf, canExit := false } := by
      rw [← hsent.gv]; unfold Sim.getVehicle; rw [n2]
    have hlink : v0.linkId = some ⟨0, 1⟩ := by rw [Vehicle.linkId, fv.route]; rfl
    obtain ⟨c1, -, -, c4⟩ := OnlyWay.sent (ks := [⟨0, 1⟩, ⟨1, 1⟩]) r0 k1 gv hsent.gv fv.lc
      (.cons hla a1 a2 (.cons (by norm_num) hla .last) (.last hlb b1 b2)) hlink.symm rfl
    have net2 : Gate.Net s2' := by
      have e : s2'.links = s0.links := n1.trans m1
      obtain ⟨x1, x2, x3⟩ := net
      rw [← e] at x1 x2 x3
      exact ⟨x1, x2, x3⟩
    have hla2 : s2'.links.get? ⟨0, 1⟩ = some la := by rw [n1, m1]; exact hla
    obtain ⟨-, v3, d1, d2, d3, d4, d5, ⟨y, d6⟩, d7, d8, d9, d10⟩ := Relay.veh r2 k3 (by norm_num) gv2 hlink (getLink_ok.2 hla2) fv.lc
      (fun p hp => by rw [(c1.paths p hp).1]; rfl) (by show 0 ≤ v0.acc.maxAcc; rw [fv.acc]; norm_num)
      (by show v0.pos + (v0.vel + v0.acc.maxAcc * 0.5) * 0.5 ≤ _; rw [fv.acc, fv.pos, fv.vel]; norm_num at a5 ⊢; linarith)
    replace d3 : v3.pathfind = pf := d3
    replace d5 : v3.halfLen = v0.halfLen := d5
    replace d6 : v3.acc = { v0.acc with acc := y } := d6
    replace d7 : v3.vel ≤ v0.vel + v0.acc.maxAcc * 0.5 := d7
    replace d8 : v0.pos ≤ v3.pos := d8
    replace d9 : v3.pos ≤ v0.pos + (v0.vel + v0.acc.maxAcc * 0.5) * 0.5 := d9
    rw [fv.acc, fv.vel] at d7; rw [fv.acc, fv.pos, fv.vel] at d9; rw [fv.acc] at d6; rw [fv.pos] at d8
    norm_num at d7 d9
    have hclk2 := Trip.clocks r2 k3
    rw [n3, m3, z1, n4, m4, z2] at hclk2
    obtain ⟨t1, t2⟩ := hclk2
    norm_num at t1 t2
    have hroute3 : v3.route = [⟨0, 1⟩] := by
      rcases d10 with ⟨e, -⟩ | ⟨e, -⟩
      · rw [e]; exact fv.route
      · exact absurd (by rw [n4, m4, z2]; norm_num) e
    have hdst : ∀ {v : Vehicle ℝ}, v.pathfind = pf → v.destination ≠ ⟨0, 1⟩ := by
      intro v e
      have : v.destination = ⟨1, 1⟩ := by
        unfold Vehicle.destination; rw [e]; exact c4
      rw [this]; decide
    have hhead3 : Heading ⟨0, 1⟩ v3 := by
      have hi := r3.inv.veh _ _ (getVeh_ok.1 d1)
      exact ⟨d2, le_antisymm (by have := hi.enteredLe; rw [hroute3] at this; exact this) hi.entered, hdst d3⟩
    have lit3 := lit2.step r2 k3 (by norm_num)
    have lit4 := lit3.step r3 k4 (by norm_num)
    obtain ⟨_, _, _, _, _, _, hr2⟩ := (step_spec r2.inv 0.5).ok k3
    obtain ⟨_, _, _, _, _, _, hr3⟩ := (step_spec r3.inv 0.1).ok k4
    have net3 := net2.frame hr2.frame
    have net4 := net3.frame hr3.frame
    obtain ⟨l3, hl3, -, -, -, -, g5, -⟩ := net3.la
    obtain ⟨-, v4, f1, f2, f3, f4, f5, ⟨y', f6⟩, f7, f8, f9, f10⟩ := Relay.veh r3 k4 (by norm_num) d1 d2 (getLink_ok.2 hl3) d4
      (fun p hp => by rw [d3] at hp; rw [(c1.paths p hp).1]; rfl) (by rw [d6]; norm_num) (by rw [d6]; norm_num at g5 ⊢; linarith)
    rw [d6] at f6 f7 f9
    norm_num at f6 f7 f9
    have hroute4 : v4.route = [⟨0, 1⟩, ⟨1, 1⟩] := by
      rcases f10 with ⟨e, h | h⟩ | ⟨-, p, hp, e⟩
      · exact absurd h (by rw [t2]; norm_num)
      · rw [d3] at h; exact absurd h c1.any
      · rw [e]; rw [d3] at hp; exact (c1.paths p hp).1
    have hhead4 := hhead3.step r3 k4 d1 f1 f2 ((lit3.red net3).shut r2 k3) (hpos hp3)
    have hclk3 := (Trip.clocks r3 k4).1
    rw [t1] at hclk3
    norm_num at hclk3
    refine ⟨j, v4, by convert lit4 using 1; norm_num, net4, f1, hhead4, ⟨by rw [hroute4]; simp, fun p hp => ?_⟩, by rw [f5, d5, fv.half], ⟨y', f6⟩,
      C20_speed r4 f1, by norm_num; linarith, by linarith, by norm_num; linarith, by rw [hclk3]; norm_num, fun c w hw => ?_⟩
    · rw [f3, d3] at hp
      rw [(c1.paths p hp).1]; simp
    · obtain ⟨u, hu⟩ := hr3.back hw
      obtain ⟨u', hu'⟩ := hr2.back hu
      rw [n2] at hu'
      exact hsent.only c u' hu'
  obtain ⟨j, v4, lit, net4, gv4, hhead, hon, half, ⟨y, hacc⟩, w1, w2, w3, w4, w5, only4⟩ := state
  obtain ⟨tl, u0, u1, q1, q2, q3, q4, q5, q6, q7, q8, q9, q10, q11⟩ := lit.ex
  obtain ⟨l4, hl4, i1, i2, i3, i4, i5, i6⟩ := net4.la
  norm_num at w2 w4 i5 i6
  refine ⟨tl, ⟨2, 10⟩, by rw [q4, q3]; simp, wellPosed q3 q5 q8 q9, by rw [q5]; simp, by rw [q5]; simp, by rw [q3]; rfl, rfl, by norm_num, fun N => ?_⟩
  obtain ⟨N', sf, hN, hsteps⟩ := @Relay.calls (Lone.env 0) (Lone.lawful 0) (Search.full_ends _) (List.replicate N 0.1) s4 N4 (fun n hn => (h4 n hn).2) hp4 hn4
  let env : Env := @Env.withFuel (Lone.env 0) N'
  have hlaw : LawfulDijkstra := law N'
  obtain ⟨-, r3⟩ : s2.step 0.5 = .ok s3 ∧ Reach True s3 := h3 N' (by omega)
  obtain ⟨k4, r4⟩ : s3.step 0.1 = .ok s4 ∧ Reach True s4 := h4 N' (by omega)
  have hrun : (List.replicate N (0.1 : ℝ)).foldlM Sim.step s4 = .ok sf := hsteps N' le_rfl
  obtain ⟨σ, e0, hσ⟩ := sequence hrun
  have hsq : v4.vel ^ 2 ≤ 1.2 ^ 2 := pow_le_pow_left₀ w1 (by norm_num; linarith) 2
  refine ⟨env, hlaw, s3, s4, ⟨0, 1⟩, ⟨0, 1⟩, j, v4, l4, σ, r3, k4, by rw [w5]; norm_num, gv4, hhead, hon, getLink_ok.2 hl4, i3, by rw [i2]; decide, hpos hp4,
    by rw [half]; norm_num, by rw [hacc]; exact Trip.stopping rfl y, by rw [hacc]; norm_num, fun c l hl => ?_, by rw [hacc]; norm_num; linarith,
    by rw [hacc, i4]; norm_num, ?_, ?_, ?_, by rw [i4]; norm_num, fun c hc => ?_, q1, e0, hσ, fun n hn => ?_⟩
  · have : l.speedLimit = 10 := by
      have hl := getLink_ok.1 hl
      obtain ⟨lb4, hlb4, -, -, h⟩ := net4.lb
      rcases net4.all c l hl with rfl | rfl
      · rw [hl4] at hl; cases hl; exact i4
      · rw [hlb4] at hl; cases hl; exact h
    rw [this, hacc]; norm_num
  · rw [Vehicle.posFront, half]; linarith
  · rw [Vehicle.posFront, half]; norm_num at hsq ⊢; linarith
  · rw [Vehicle.posFront, half]; norm_num; linarith
  · rw [i2, List.mem_singleton] at hc
    subst hc
    exact lit.controls
  · rintro ⟨v, hv, hlk⟩
    have at_n : ∀ m ≤ N, Reach True (σ m) ∧ Gate.Net (σ m) ∧ ∀ c w, (σ m).vehicles.get? c = some w → c = ⟨0, 1⟩ := by
      intro m
      induction m with
      | zero => intro _; rw [e0]; exact ⟨r4, net4, only4⟩
      | succ m ih =>
        intro hm
        obtain ⟨x1, x2, x3⟩ := ih (by omega)
        obtain ⟨_, _, _, _, _, _, hr⟩ := (step_spec x1.inv 0.1).ok (hσ m (by omega))
        refine ⟨.exec (.step 0.1) x1 trivial (hσ m (by omega)), x2.frame hr.frame, fun c w hw => ?_⟩
        obtain ⟨u, hu⟩ := hr.back hw
        exact x3 c u hu
    obtain ⟨x1, x2, x3⟩ := at_n n (by omega)
    obtain ⟨l, hl, -, -, hlc, -⟩ := x2.la
    exact alone x1 (hσ n hn) hv hlk (getLink_ok.2 hl) hlc x3

end TrafficSim
