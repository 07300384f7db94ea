import Verif.Props.Cause
import Verif.Props.Yield

/-! # C94: vehicles give way at a crossing only to those that have been let in -/

namespace TrafficSim

section
variable {strict : Prop} {s s' s1 : Sim ℝ} {k : Key}

theorem Upstream.past {links : LinkSet ℝ} (hpos : ∀ k l, links.get? k = some l → 0 ≤ l.length) {k0 lk : Key} {p d : ℝ} {i : Nat}
    (h : Upstream links k0 p i lk d) : p ≤ d ∧ ∀ n l, i = n + 1 → links.get? lk = some l → p + l.length ≤ d := by
  induction h with
  | here => exact ⟨le_rfl, fun n l e => by omega⟩
  | up _ hl hj hl' ih =>
    have := hpos _ _ hl'
    refine ⟨by linarith [ih.1], fun n l e h => ?_⟩
    rw [hl'] at h; cases h
    linarith [ih.1]

/-- Nobody that has been let in to the link of the conflict region is before its end, or will be there. -/
def Left (s : Sim ℝ) (c : ConflictPointLink ℝ) : Prop :=
  ∀ j u, s.vehicles.get? j = some u → c.linkId ∈ u.route.take u.entered → c.linkId ∉ u.route.tail ∧ c.maxPos ≤ u.posRear

/-- **C94** In exact arithmetic: if nobody that has been let in to a link has yet to leave the conflict region on it, and the region begins
after the start of the link, the conflict slows nobody down.  When accelerations are due, the acceleration of a vehicle is its greatest
acceleration or the least of some that are asked for by what is ahead of it, as in C83, without the conflicts of this kind.

What is missing: regions that begin at the start of the link or before, for which this is false, see `C94_blocked`. -/
theorem C94_let_in_partial [Env] [LawfulDijkstra] {dt : ℝ} (h : Reach strict s) (hst : s.step dt = .ok s') (hre : ¬ s.accUpdate < 0.1)
    (hlanes : s.calculateLaneChanges = .ok s1) {v1 v' : Vehicle ℝ} (hv1 : s1.getVehicle k = .ok v1) (hv' : s'.getVehicle k = .ok v')
    (hpos : ∀ k l, s1.links.get? k = some l → 0 ≤ l.length) {cs : List (ConflictPoint ℝ)}
    (hcs : ∀ c ∈ s1.conflicts, c ∈ cs ∨ 0 < c.link0.minPos ∧ Left s1 c.link0 ∨ 0 < c.link1.minPos ∧ Left s1 c.link1) :
    k ∈ s.frozen ∧ v'.acc.acc = -6 ∨
    k ∉ s.frozen ∧ ∃ as : List ℝ, v'.acc.acc = as.foldl min v1.acc.maxAcc ∧ ∀ a ∈ as, Cause { s1 with conflicts := cs } k v1 a := by
  obtain ⟨s1', s2, s3, s4, s5, s6, hr⟩ := (step_spec h.inv dt).ok hst
  have e1 := hr.run1
  rw [hlanes] at e1; cases e1
  have inv := hr.inv1
  have none : ∀ {c : ConflictPointLink ℝ} {j : Key} {u : Vehicle ℝ} {d : ℝ}, 0 < c.minPos → Left s1 c → ¬ Heads s1 c j u d := by
    rintro c j u d hc hl ⟨i, hs, hd⟩
    obtain ⟨lk, hlk, hup⟩ := hs.way
    obtain ⟨b1, b2⟩ := hup.past hpos
    have hr := hs.route
    match i with
    | 0 =>
      cases hup
      obtain ⟨-, h2⟩ := hl j u hs.veh (List.mem_of_getElem? (i := 0) (by
        rw [List.getElem?_take_of_lt (inv.veh j u hs.veh).entered]; exact hr))
      linarith
    | n + 1 =>
      obtain ⟨l, hl'⟩ : ∃ l, s1.links.get? lk = some l := by cases hup; exact ⟨_, by assumption⟩
      have hin := hs.letIn lk l hlk hl' (by linarith [b2 n l rfl hl'])
      refine (hl j u hs.veh (List.mem_of_getElem? (i := n + 1) ?_)).1 (List.mem_of_getElem? (i := n) ?_)
      · rw [List.getElem?_take_of_lt hin]; exact hr
      · rw [List.getElem?_tail]; exact hr
  have keeps : ∀ {c : ConflictPoint ℝ} {a b : ConflictPointLink ℝ} {i j : Key} {u w : Vehicle ℝ} {d d' : ℝ}, c ∈ s1.conflicts →
      (a = c.link0 ∧ b = c.link1 ∨ a = c.link1 ∧ b = c.link0) → Heads s1 a i u d → Heads s1 b j w d' → c ∈ cs := by
    intro c a b i j u w d d' hc hab h1 h2
    rcases hcs c hc with h | ⟨g1, g2⟩ | ⟨g1, g2⟩
    · exact h
    · rcases hab with ⟨rfl, rfl⟩ | ⟨rfl, rfl⟩
      · exact absurd h1 (none g1 g2)
      · exact absurd h2 (none g1 g2)
    · rcases hab with ⟨rfl, rfl⟩ | ⟨rfl, rfl⟩
      · exact absurd h2 (none g1 g2)
      · exact absurd h1 (none g1 g2)
  have sees : ∀ {k0 j : Key} {p d : ℝ} {u : Vehicle ℝ} {i : Nat}, Sees s1 k0 p j u i d → Sees { s1 with conflicts := cs } k0 p j u i d :=
    fun h => ⟨h.1, h.2, h.3, h.4⟩
  have heads : ∀ {c : ConflictPointLink ℝ} {j : Key} {d : ℝ} {u : Vehicle ℝ}, Heads s1 c j u d → Heads { s1 with conflicts := cs } c j u d :=
    fun ⟨i, h, g⟩ => ⟨i, sees h, g⟩
  refine (C83_causes h hst hre hlanes hv1 hv').imp (fun h => ⟨h.1, by rw [h.2]; norm_num⟩) fun ⟨h1, as, h2, h3⟩ => ⟨h1, as, h2, fun a ha => ?_⟩
  cases h3 a ha with
  | limit a1 a2 a3 => exact .limit a1 a2 a3
  | follow hh =>
    refine .follow ?_
    cases hh with
    | next a1 a2 a3 => exact .next a1 a2 a3
    | last a1 a2 a3 a4 => exact .last (sees a1) a2 a3 a4
    | exit a1 a2 a3 a4 => exact .exit a1 (sees a2) a3 a4
    | entry a1 a2 a3 a4 a5 a6 => exact .entry a1 (sees a2) a3 a4 a5 a6
    | lane a1 a2 a3 a4 a5 a6 a7 a8 a9 a10 => exact .lane a1 a2 a3 a4 a5 a6 a7 a8 (sees a9) a10
    | region a1 a2 a3 a4 a5 a6 => exact .region (keeps a1 a2 a3 a4) a2 (heads a3) (heads a4) a5 a6
    | merge a1 a2 a3 a4 a5 a6 a7 => exact .merge (keeps a1 a2 a3 a4) a2 (heads a3) (heads a4) a5 a6 a7

/-- A car on its way to a crossing with a road on which nobody is: the conflict does not count. -/
example : ∃ (_ : Env) (_ : LawfulDijkstra) (s s' s1 : Sim ℝ) (v1 v' : Vehicle ℝ), Reach True s ∧ s.step 0.1 = .ok s' ∧ ¬ s.accUpdate < 0.1 ∧
    s.calculateLaneChanges = .ok s1 ∧ s1.getVehicle ⟨0, 1⟩ = .ok v1 ∧ s'.getVehicle ⟨0, 1⟩ = .ok v' ∧
    (∀ k l, s1.links.get? k = some l → 0 ≤ l.length) ∧ s1.conflicts ≠ [] ∧
    ∀ c ∈ s1.conflicts, c ∈ ([] : List (ConflictPoint ℝ)) ∨ 0 < c.link0.minPos ∧ Left s1 c.link0 ∨ 0 < c.link1.minPos ∧ Left s1 c.link1 := by
  have m1 : ∀ i : ℕ, Meets ⟨50, -50⟩ ⟨0, 1⟩ ⟨0, 0⟩ ⟨1, 0⟩ (i / 4) ↔ 193 ≤ i ∧ i ≤ 207 := by
    intro i
    rw [← Cross.right_angle 0 i]
    simp only [Meets, lineDist, V2.add, V2.smul]
    norm_num
    rw [show (-50 : ℝ) + i / 4 = -(50 - i / 4) by ring, abs_neg]
  have m0 := Cross.right_angle (-50)
  have prog : @ProgLeads (Lone.env 0) (fun s => ∃ la lb c v, Cross.Built ⟨0, 0⟩ ⟨1, 0⟩ ⟨50, -50⟩ ⟨0, 1⟩ la lb c ∧ Relay.Fresh ⟨0, 1⟩ v ∧
      s = Cross.two { la with vehicles := [⟨0, 1⟩] } lb [c] [⟨1, some v⟩] []) .new
      (Cross.ops ⟨0, 0⟩ ⟨1, 0⟩ ⟨50, -50⟩ ⟨0, 1⟩ ++ [.addVehicle Lone.car ⟨0, 1⟩]) := by
    refine Cross.leads (by norm_num) (by norm_num) ⟨200, by norm_num, (m0 200).2 (by norm_num)⟩ ⟨200, by norm_num, (m1 200).2 (by norm_num)⟩
      fun la lb c hb => ?_
    refine ⟨trivial, ⟨rfl, .inr (by simp [Cross.two, u32Max])⟩, fun n1 s1 r1 e1 => ?_⟩
    obtain ⟨va, fa, e1'⟩ := @Relay.added (@Env.withFuel (Lone.env 0) n1) (Cross.two la lb [c] [] []) la ⟨0, 1⟩ [] rfl hb.pa.lcs hb.pa.segs
      hb.pa.vehs rfl (by decide)
    replace e1 : s1 = Cross.two { la with vehicles := [⟨0, 1⟩] } lb [c] [⟨1, some va⟩] [] := by rw [e1'] at e1; cases e1; rfl
    exact ⟨la, lb, c, va, hb, fa, e1⟩
  obtain ⟨N, s, ⟨la, lb, c, v, hb, fv, es⟩, hp, hn, h⟩ := @program_runs (Lone.env 0) (Lone.lawful 0) _ (Search.full_ends _) _ prog
  obtain ⟨N1, s1, hN1, h1, hp1, hn1⟩ := @Trip.call (Lone.env 0) (Lone.lawful 0) (Search.full_ends _) s N (fun n hn => (h n hn).1) hp hn (.step 0.1)
    trivial trivial
  obtain ⟨N2, s2, hN2, h2, hp2, hn2⟩ := @Trip.call (Lone.env 0) (Lone.lawful 0) (Search.full_ends _) s1 N1 (fun n hn => (h1 n hn).2) hp1 hn1 (.step 0.1)
    trivial trivial
  let _ : Env := @Env.withFuel (Lone.env 0) N2
  let law : LawfulDijkstra := @LawfulDijkstra.withFuel (Lone.env 0) (Lone.lawful 0) N2
  have hs : Reach True s := (h N2 (hN1.trans hN2)).1
  have hs1 : Reach True s1 := (h1 N2 hN2).2
  have e1 : s.step 0.1 = .ok s1 := (h1 N2 hN2).1
  have e2 : s1.step 0.1 = .ok s2 := (h2 N2 le_rfl).1
  have la1 := hb.pa.len
  have lb1 := hb.pb.len
  norm_num at la1 lb1
  have gl : s.links.get? ⟨0, 1⟩ = some { la with vehicles := [⟨0, 1⟩] } := by rw [es]; rfl
  have far : ∀ {w : Vehicle ℝ} {x : ℝ}, w.acc = ⟨2, 2, 2, 1, x⟩ → w.pos ≤ 1 → w.vel ≤ 1 → w.pos + (w.vel + w.acc.maxAcc * 0.1) * 0.1 ≤ la.length := by
    intro w x e h1 h2
    rw [e]; norm_num; linarith
  obtain ⟨-, v', c1, c2, c3, c4, c5, ⟨x, c6⟩, c7, c8, c9, c10⟩ := Relay.veh hs e1 (by norm_num) (k := ⟨0, 1⟩) (v := v) (by rw [es]; rfl)
    (by rw [Vehicle.linkId, fv.route]; rfl) (getLink_ok.2 gl) fv.lc (fun p hp => by rw [fv.paths] at hp; cases hp) (by rw [fv.acc]; norm_num)
    (far fv.acc (by rw [fv.pos]; norm_num) (by rw [fv.vel]; norm_num))
  obtain ⟨t1, t2⟩ := Trip.clocks hs e1
  rw [es] at t1 t2
  simp only [Cross.two] at t1 t2
  norm_num at t1 t2
  obtain ⟨_, _, _, _, _, _, hr⟩ := (step_spec hs.inv 0.1).ok e1
  obtain ⟨s1', s2', s3, s4, s5, s6, hr2⟩ := (step_spec hs1.inv 0.1).ok e2
  have hl : s1' = { s1 with lcUpdate := s1'.lcUpdate } := by
    rcases hr2.lanes with ⟨-, e⟩ | ⟨hge, -⟩
    · rw [e]
    · exact absurd (by rw [t2]; norm_num [laneChangeUpdateSec]) hge
  have cs : s1'.conflicts = [c] := by
    rw [hl]; show s1.conflicts = _
    rw [hr.others.2, es]; rfl
  obtain ⟨l', gl', fl⟩ := hr.frame.fwd _ _ gl
  rw [fv.acc, fv.vel] at c7 c9
  rw [fv.pos] at c9
  rw [fv.acc] at c6
  norm_num at c7 c9
  obtain ⟨-, v2, g2, -⟩ := Relay.veh hs1 e2 (by norm_num) c1 c2 (getLink_ok.2 gl') c4 (fun p hp => by rw [c3, fv.paths] at hp; cases hp)
    (by rw [c6]; norm_num) (by unfold Link.length; rw [fl.curve]; exact far c6 (by linarith) (by linarith))
  refine ⟨inferInstance, law, s1, s2, s1', v', v2, hs1, e2, by rw [t1]; norm_num, hr2.run1, ?_, g2, ?_, by rw [cs]; simp, fun c' hc' => .inr (.inr ?_)⟩
  · rw [hl]; exact c1
  · intro k l hk
    rw [hl] at hk
    exact (hp1.length k l hk).le
  · rw [cs, List.mem_singleton] at hc'; subst hc'
    obtain ⟨b1, b2⟩ := hb.r1.exact m1 (by norm_num) (by norm_num; linarith)
    refine ⟨by rw [b1]; norm_num, fun j u hu hin => ?_⟩
    rw [hl] at hu
    obtain ⟨w, hw⟩ := hr.back hu
    rw [es] at hw
    have hj : j = ⟨0, 1⟩ := by
      obtain ⟨i, n⟩ := j
      match i with
      | 0 => simp [Cross.two, SlotMap.get?] at hw; rw [← hw.1]
      | n + 1 => simp [Cross.two, SlotMap.get?] at hw
    subst hj
    obtain rfl : v' = u := by
      have := getVeh_ok.1 c1
      rw [hu] at this; cases this; rfl
    have hrt : v'.route = [⟨0, 1⟩] := by
      rcases c10 with ⟨e, -⟩ | ⟨-, p, hp, -⟩
      · rw [e]; exact fv.route
      · rw [fv.paths] at hp; cases hp
    have := List.mem_of_mem_take hin
    rw [hrt, hb.k1] at this
    simp at this

end

end TrafficSim
