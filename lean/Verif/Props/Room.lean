import Verif.Props.Safety
import Verif.Lemmas.Town

/-! # C82: lane changes without room -/

namespace TrafficSim

/-- **C82** (part) In exact arithmetic: when accelerations are recomputed after lane changes, a vehicle less than 2 m behind the next one
on its link, or beside it, brakes fully.  The full claim, that a vehicle changes lanes only where there is room, so that no vehicles
collide by it, is false: `C82_crash`. -/
theorem C82_brakes_partial [Env] [LawfulDijkstra] {strict : Prop} {s s' s1 : Sim ℝ} {dt : ℝ} {k j lk : Key} {v1 v' u : Vehicle ℝ} {l : Link ℝ}
    (h : Reach strict s) (hst : s.step dt = .ok s') (hre : ¬ s.accUpdate < 0.1) (hlanes : s.calculateLaneChanges = .ok s1)
    (hv1 : s1.getVehicle k = .ok v1) (hv' : s'.getVehicle k = .ok v') (hu : s1.getVehicle j = .ok u) (hl : s1.getLinkRef lk = .ok l)
    (hkj : [k, j] <:+: l.vehicles) (hgap : u.posRear - v1.posFront ≤ 2) (hmax : 0.6 ≤ v1.acc.maxAcc) : v'.acc.getAcc = -6 := by
  have h1 := C64_follows h hst hre hlanes hv1 hv' hu hl hkj
  rw [C23_full_braking _ hmax hgap] at h1
  refine le_antisymm h1 ?_
  have : (-6.0 : ℝ) ≤ v'.acc.getAcc := le_max_right _ _
  norm_num at this ⊢
  exact this

/-- A vehicle is added where another one has just left, with its front at the other's rear. -/
example : ∃ (_ : Env) (_ : LawfulDijkstra) (s s' s1 : Sim ℝ) (v1 v' u : Vehicle ℝ) (l : Link ℝ) (k j lk : Key), Reach True s ∧
    s.step 0.1 = .ok s' ∧ ¬ s.accUpdate < 0.1 ∧ s.calculateLaneChanges = .ok s1 ∧ s1.getVehicle k = .ok v1 ∧ s'.getVehicle k = .ok v' ∧
    s1.getVehicle j = .ok u ∧ s1.getLinkRef lk = .ok l ∧ [k, j] <:+: l.vehicles ∧ u.posRear - v1.posFront ≤ 2 ∧ 0.6 ≤ v1.acc.maxAcc := by
  obtain ⟨N, s, ⟨l, v, w, hb⟩, hp, hn, h⟩ := @program_runs (Lone.env 0) (Lone.lawful 0) _ (Search.full_ends _) _
    (Pair.leads (d := 2) (by norm_num) (by norm_num))
  have hr : @Reach ℝ _ (@Env.withFuel (Lone.env 0) N) True s := (h N le_rfl).1
  obtain ⟨N1, s', h1⟩ := @C69_calls (@Env.withFuel (Lone.env 0) N) (@LawfulDijkstra.withFuel (Lone.env 0) (Lone.lawful 0) N) s hr
    (Search.full_ends _) hp hn (.step 0.1) trivial trivial
  let env : Env := @Env.withFuel (Lone.env 0) (max N N1)
  have hlaw : LawfulDijkstra := @LawfulDijkstra.withFuel (Lone.env 0) (Lone.lawful 0) (max N N1)
  replace hr : Reach True s := (h _ (le_max_left _ _)).1
  replace h1 : s.step 0.1 = .ok s' := h1 _ (le_max_right _ _)
  obtain ⟨fr, n, sq, u, es⟩ := hb.eq
  have gl : s.getLinkRef ⟨0, 1⟩ = .ok l := by rw [es]; rfl
  have gv : s.getVehicle ⟨0, 1⟩ = .ok v := by rw [es]; rfl
  have gw : s.getVehicle ⟨1, 1⟩ = .ok w := by rw [es]; rfl
  have hc : ¬ s.accUpdate < 0.1 := by
    rw [es]; show ¬ (2 : ℝ) < 0.1; norm_num
  have lw : w.linkId = some ⟨0, 1⟩ := by rw [Vehicle.linkId, hb.routes.2]; rfl
  obtain ⟨s1, hs1, e1, e2⟩ := Pair.lanes hb
  have gv1 : s1.getVehicle ⟨0, 1⟩ = .ok v := by rw [← gv]; unfold Sim.getVehicle; rw [e2]
  have gw1 : s1.getVehicle ⟨1, 1⟩ = .ok w := by rw [← gw]; unfold Sim.getVehicle; rw [e2]
  have gl1 : s1.getLinkRef ⟨0, 1⟩ = .ok l := by rw [← gl]; unfold Sim.getLinkRef; rw [e1]
  obtain ⟨w', gw', -⟩ := step_stays hr h1 hc hs1 gw gw1 lw lw gl (by norm_num) (by rw [hb.acc.2]; norm_num)
    (by rw [hb.acc.2, hb.pos.2, hb.vel.2]; have := hb.len; norm_num; linarith)
  refine ⟨env, hlaw, s, s', s1, w, w', v, l, ⟨1, 1⟩, ⟨0, 1⟩, ⟨0, 1⟩, hr, h1, hc, hs1, gw1, gw', gv1, gl1,
    ⟨[], [], by rw [hb.vehs]; rfl⟩, ?_, by rw [hb.acc.2]; norm_num⟩
  rw [Vehicle.posFront, Vehicle.posRear, hb.pos.1, hb.pos.2, hb.half.1, hb.half.2]
  norm_num

namespace Room

attribute [local instance] Town.env

/-- 2.5 m wide, 12 m long -/
def truck : VehicleAttributes Float := ⟨2.5, 12.0, 6.0, 1.5, 2.0, 2.0⟩

/-- Two lanes, 3 m apart, with a truck on each.  One is sent to the other lane. -/
def ops : List (Op Float) :=
  [.addLink ⟨Town.street 0.0 0.0 1.0 0.0 40.0, 15.0⟩, .addLink ⟨Town.street 0.0 3.0 1.0 0.0 40.0, 15.0⟩, .addLinkGroup [⟨0, 1⟩, ⟨1, 1⟩] 6,
   .addVehicle truck ⟨1, 1⟩, .addVehicle truck ⟨0, 1⟩, .step 0.2, .setVehicleDestination ⟨0, 1⟩ ⟨0, 1⟩, .step 4.0]

end Room

/-- The point `p` is inside the rectangle of the vehicle. -/
def Covers (v : Vehicle Float) (p : V2 Float) : Prop :=
  Float.abs ((p.sub v.worldPos).dot v.worldDir) < v.halfLen ∧ Float.abs ((p.sub v.worldPos).dot (rot90 v.worldDir)) < v.halfWid

instance (v : Vehicle Float) (p : V2 Float) : Decidable (Covers v p) := inferInstanceAs (Decidable (_ ∧ _))

namespace Room

attribute [local instance] Town.env

def test (s s' : Sim Float) : Bool :=
  match s.vehicles.get? ⟨0, 1⟩, s.vehicles.get? ⟨1, 1⟩, s'.vehicles.get? ⟨0, 1⟩, s'.vehicles.get? ⟨1, 1⟩ with
  | some v, some u, some v', some u' => v.linkId == some ⟨1, 1⟩ && u.linkId == some ⟨0, 1⟩ && v'.linkId == some ⟨0, 1⟩ &&
    u'.linkId == some ⟨0, 1⟩ && decide (Float.abs v.worldDir.y < 0.001) && decide (Float.abs u.worldDir.y < 0.001) &&
    decide (u.worldPos.y + u.halfWid + 0.4 < v.worldPos.y - v.halfWid) && decide (Covers v' ⟨28.5, 0.95⟩) && decide (Covers u' ⟨28.5, 0.95⟩)
  | _, _, _, _ => false

set_option maxRecDepth 100000 in
theorem runs : ∃ s s' : Sim Float, Reach True s ∧ Allowed True s (.step 1.3) ∧ s.exec (.step 1.3) = .ok s' ∧ Reach True s' ∧
    test s s' = true :=
  trial_reach (ops := ops) (by decide +kernel)

end Room

section
attribute [local instance] Town.env

/-- **C82** (negation, binary64) Two trucks drive on neighbouring lanes, both along the x axis, 0.4 m apart.  One of them changes lanes, and after a step of
1.3 s the point `p` is inside both. -/
theorem C82_crash : ∃ (s s' : Sim Float) (v u v' u' : Vehicle Float) (k j a b : Key) (p : V2 Float), Reach True s ∧ s.step 1.3 = .ok s' ∧
    s.getVehicle k = .ok v ∧ s.getVehicle j = .ok u ∧ s'.getVehicle k = .ok v' ∧ s'.getVehicle j = .ok u' ∧ a ≠ b ∧ v.linkId = some a ∧
    u.linkId = some b ∧ v'.linkId = some b ∧ u'.linkId = some b ∧ Float.abs v.worldDir.y < 0.001 ∧ Float.abs u.worldDir.y < 0.001 ∧
    u.worldPos.y + u.halfWid + 0.4 < v.worldPos.y - v.halfWid ∧ Covers v' p ∧ Covers u' p := by
  obtain ⟨s, s', h1, -, h2, -, h3⟩ := Room.runs
  unfold Room.test at h3
  split at h3
  · rename_i v u v' u' hv hu hv' hu'
    simp only [Bool.and_eq_true, decide_eq_true_eq, beq_iff_eq] at h3
    obtain ⟨⟨⟨⟨⟨⟨⟨⟨a1, a2⟩, a3⟩, a4⟩, a5⟩, a6⟩, a7⟩, a8⟩, a9⟩ := h3
    exact ⟨s, s', v, u, v', u', ⟨0, 1⟩, ⟨1, 1⟩, ⟨1, 1⟩, ⟨0, 1⟩, _, h1, h2, getVeh_ok.2 hv, getVeh_ok.2 hu, getVeh_ok.2 hv', getVeh_ok.2 hu',
      by decide, a1, a2, a3, a4, a5, a6, a7, a8, a9⟩
  · cases h3

end

end TrafficSim
