import Verif.Props.Split
import Verif.Props.SlowerRoad
import Verif.Props.Driven

/-! C97: an example, and a vehicle that shows why it must not come to a stand. -/

namespace TrafficSim

open Calm in
/-- A vehicle that starts, moved by two steps of 0.03 s and by one of 0.06 s. -/
example : ∃ (_ : Env) (_ : LawfulDijkstra) (s sa s' t : Sim ℝ) (v w : Vehicle ℝ) (k : Key), Reach True s ∧ s.step 0.03 = .ok sa ∧
    sa.step 0.03 = .ok s' ∧ s.step (0.03 + 0.03) = .ok t ∧ sa.accUpdate < 0.1 ∧ sa.lcUpdate < 0.3 ∧ s.getVehicle k = .ok v ∧
    t.getVehicle k = .ok w ∧ 0 < w.vel ∧ v.pos < w.pos ∧ ∀ i l, w.linkId = some i → t.getLinkRef i = .ok l → w.pos ≤ l.length := by
  obtain ⟨N, s, ⟨z1, z2, v, hb, p0, q0, ec⟩, hp, hn, h⟩ := @program_runs (Lone.env 0) (Lone.lawful 0) _ (Search.full_ends _) _ leads
  obtain ⟨N1, sf, hN1, hsteps⟩ := @Relay.calls (Lone.env 0) (Lone.lawful 0) (Search.full_ends _) [0.03, 0.03] s N (fun n hn => (h n hn).1) hp hn
  obtain ⟨N2, tf, hN2, hstept⟩ := @Relay.calls (Lone.env 0) (Lone.lawful 0) (Search.full_ends _) [0.03 + 0.03] s N (fun n hn => (h n hn).1) hp hn
  let env : Env := @Env.withFuel (Lone.env 0) (max N1 N2)
  have hlaw : LawfulDijkstra := @LawfulDijkstra.withFuel (Lone.env 0) (Lone.lawful 0) (max N1 N2)
  have hr : Reach True s := (h _ (hN1.trans (le_max_left _ _))).1
  have hst : [0.03, 0.03].foldlM (Sim.step (F := ℝ)) s = .ok sf := hsteps _ (le_max_left _ _)
  have htt : [0.03 + 0.03].foldlM (Sim.step (F := ℝ)) s = .ok tf := hstept _ (le_max_right _ _)
  simp only [List.foldlM_cons, List.foldlM_nil, M_bind_ok, M_pure_ok] at hst htt
  obtain ⟨sa, ha, sb, hbs, rfl⟩ := hst
  obtain ⟨t, ht, rfl⟩ := htt
  obtain ⟨ta1, ta2⟩ := Trip.clocks hr ha
  rw [z1] at ta1; rw [z2] at ta2
  norm_num at ta1 ta2
  obtain ⟨t1, t2, t3, t4, t5, t6, rt⟩ := (step_spec hr.inv (0.03 + 0.03)).ok ht
  obtain ⟨v1, v2, v4, tr⟩ := rt.trace (getVeh_ok.1 hb.gv)
  have e1 : t1 = s := by
    rcases rt.lanes with ⟨-, e⟩ | ⟨hn, -⟩
    · exact e
    · exact absurd (by rw [z2]; simp only [laneChangeUpdateSec]; norm_num) hn
  subst e1
  have g1 := tr.get1; rw [getVeh_ok.1 hb.gv] at g1; cases g1
  have e2 : v2 = v := by
    rcases tr.acc with ⟨-, -, e⟩ | ⟨hn, -⟩
    · exact e
    · exact absurd (by rw [z1]; simp only [accelerationUpdateSec]; norm_num) hn
  subst e2
  obtain ⟨m1, m2, m3, m4, -⟩ := tr.move.exact
  have ea : v2.acc.getAcc = 2 := by
    rw [ec]; simp only [AccelerationModel.getAcc, maxDecel, fmax]; norm_num
  have hvel : v4.vel = 0.12 := by
    rw [m3, q0, ea]; simp only [fmax]; norm_num
  have hpos : v4.pos = 0.0036 := by
    rw [m4, p0, q0, hvel]; norm_num
  obtain ⟨la, hla, -, -, -, hlen, -⟩ := hb.la.ex
  have hlk : v4.linkId = some ⟨0, 1⟩ := by rw [Vehicle.linkId, m1]; exact hb.here
  have no : ¬ ∃ v5, Passed t4.links v4 v5 := by
    rintro ⟨v5, hv5⟩
    obtain ⟨i, rest, l, pf, h1, h2, h3, -⟩ := hv5.ex
    rw [Vehicle.linkId, h1] at hlk; cases hlk
    obtain ⟨l0, h0, e⟩ := rt.frame4.bwd h2
    rw [hla] at h0; cases h0
    have : l.length = la.length := by unfold Link.length; rw [e.curve]
    rw [this, hpos] at h3
    norm_num at h3; linarith
  cases tr.out with
  | passes v5 _ hp5 _ _ _ => exact absurd ⟨v5, hp5⟩ no
  | leaves v5 hp5 _ _ => exact absurd ⟨v5, hp5⟩ no
  | stays w hw hpl _ =>
    obtain ⟨_, _, _, _, ew⟩ := hpl
    have wv : w.vel = v4.vel := by rw [ew]
    have wp : w.pos = v4.pos := by rw [ew]
    have wl : w.linkId = v4.linkId := by rw [ew]; rfl
    refine ⟨env, hlaw, t1, sa, sb, t, v2, w, ⟨0, 1⟩, hr, ha, hbs, ht, by rw [ta1]; norm_num, by rw [ta2]; norm_num, hb.gv, getVeh_ok.2 hw,
      by rw [wv, hvel]; norm_num, by rw [wp, hpos, p0]; norm_num, ?_⟩
    intro i l hi hl
    rw [wl, hlk] at hi; cases hi
    obtain ⟨l0, h0, e⟩ := rt.frame.bwd (getLink_ok.1 hl)
    rw [hla] at h0; cases h0
    have : l.length = la.length := by unfold Link.length; rw [e.curve]
    rw [this, wp, hpos]
    norm_num; linarith

namespace Halved

attribute [local instance] Town.env

/-- Compares two steps with one of the same time. -/
def test (s sa : Sim Float) : Bool :=
  match sa.step 1.95, s.step 2.0 with
  | .ok s', .ok t =>
    match s'.vehicles.get? ⟨0, 1⟩, t.vehicles.get? ⟨0, 1⟩ with
    | some u, some w => decide (sa.accUpdate < 0.1 ∧ sa.lcUpdate < 0.3 ∧ u.route = w.route ∧ u.vel = 0.0 ∧ w.vel = 0.0) &&
        decide (u.pos + 0.18 < w.pos)
    | _, _ => false
  | _, _ => false

end Halved

open Halved Driven in
attribute [local instance] Town.env in
/-- **C97** (witness) A vehicle that comes to a stand: after a step of 2 s it stands 18 cm further than after steps of 0.05 s and 1.95 s, though
no decisions are made between the two. -/
theorem C97_differs : ∃ (s sa s' t : Sim Float) (u w : Vehicle Float), Reach True s ∧ s.step 0.05 = .ok sa ∧ sa.step 1.95 = .ok s' ∧
    s.step 2.0 = .ok t ∧ sa.accUpdate < 0.1 ∧ sa.lcUpdate < 0.3 ∧ s'.getVehicle ⟨0, 1⟩ = .ok u ∧ t.getVehicle ⟨0, 1⟩ = .ok w ∧
    u.route = w.route ∧ u.vel = 0.0 ∧ w.vel = 0.0 ∧ u.pos + 0.18 < w.pos := by
  obtain ⟨s, sa, h1, -, h2, -, h4⟩ := trial_reach (ops := ops) (op := .step 0.05) (test := Halved.test) (by decide +kernel)
  unfold Halved.test at h4
  split at h4
  · rename_i s' t g1 g2
    split at h4
    · rename_i u w g3 g4
      simp only [Bool.and_eq_true, decide_eq_true_eq] at h4
      obtain ⟨⟨a1, a2, a3, a4, a5⟩, b1⟩ := h4
      exact ⟨s, sa, s', t, u, w, h1, h2, g1, g2, a1, a2, getVeh_ok.2 g3, getVeh_ok.2 g4, a3, a4, a5, b1⟩
    · cases h4
  · cases h4

end TrafficSim
