import Verif.Props.Arrival
import Verif.Props.Speed
import Verif.Props.Enters

/-! # C89: plans that end too early

Ways are planned until the link that starts 200 m or more from the start of the path.  The claim is that a vehicle that is alone and on an
open road to its destination gets there.  It is false of the code: where a link of 200 m or more is followed by a link shorter than half
of the vehicle, the plan ends with the latter.  The vehicle has to stop at its end, and its middle, with which a vehicle gets on to the next
link, does not get past the end of the former. -/

namespace TrafficSim

section
variable {F : Type} [Flt F] {strict : Prop} {s s' : Sim F} {dt : F} {k lk j : Key} {v v1 v' : Vehicle F}

/-- The vehicle `k` is alone, all its paths end with the link `j` after `lk`, and it may not leave there.  The link `j` is open. -/
structure Trap (s : Sim F) (k lk j : Key) (v : Vehicle F) : Prop where
  paths : ∀ p ∈ v.pathfind.paths, p.links = [lk, j] ∧ p.canExit = false
  exit : v.canExit = false
  only : ∀ a w, s.vehicles.get? a = some w → a = k
  opened : ∀ l, s.links.get? j = some l → l.control = .open_
  lights : ∀ light i, ¬ s.Controls light i j

/-- The vehicle follows its path, or is about to choose it. -/
def OnTrack (s : Sim F) (lk j : Key) (v : Vehicle F) : Prop :=
  v.route = [lk, j] ∨ (v.route = [lk] ∧ v.entered = 1 ∧ v.laneChange = none ∧ v.pathfind.paths ≠ [] ∧ ¬ s.lcUpdate < 0.3)

theorem Trap.first [Env] {s1 s2 s3 s4 s5 s6 : Sim F} (h : Trap s k lk j v) (ho : OnTrack s lk j v)
    (hr : StepRun strict s dt s1 s2 s3 s4 s5 s6 s') (hv : s.vehicles.get? k = some v) (hv1 : s1.vehicles.get? k = some v1) :
    v1 = { v with route := [lk, j] } := by
  have same : v.route = [lk, j] → v = { v with route := [lk, j] } := fun e => by rw [← e]
  rcases hr.chooses hv hv1 with ⟨hlt, e⟩ | ⟨-, hc⟩
  · rcases ho with ho | ⟨-, -, -, -, ho⟩
    · rw [e]; exact same ho
    · exact absurd hlt ho
  · cases hc with
    | carriesOn hno e =>
      rcases ho with ho | ⟨-, -, h1, h2, -⟩
      · rw [e]; exact same ho
      · rcases hno with hno | hno
        · rw [h1] at hno; cases hno
        · exact absurd hno h2
    | keeps p _ hq he e =>
      obtain ⟨pre, post, _, e', -⟩ := hq
      rw [e]; exact same (he.symm.trans (h.paths p (by rw [e']; simp)).1)
    | takes p n _ hq hne _ hn e =>
      obtain ⟨pre, post, _, e', -⟩ := hq
      obtain ⟨p1, p2⟩ := h.paths p (by rw [e']; simp)
      rcases ho with ho | ⟨h1, h2, -⟩
      · exact absurd (p1.trans ho.symm) hne
      · have : min v.entered n = v.entered := by
          rw [h2]
          refine min_eq_left (Nat.pos_of_ne_zero ?_)
          rintro rfl
          rw [h1, p1] at hn
          exact hn.2.2.2 1 (by omega) (by simp) (by simp) rfl
        rw [e, p1, p2, this, ← h.exit]
    | changes p link l x off sl pf _ hq hl hne _ _ _ _ _ =>
      obtain ⟨pre, post, _, e, -⟩ := hq
      rw [(h.paths p (by rw [e]; simp)).1] at hl
      cases hl
      rcases ho with ho | ⟨h1, -⟩
      · rw [ho] at hne; exact absurd rfl hne
      · rw [h1] at hne; exact absurd rfl hne

/-- A step does not free the vehicle as long as it stays on its link. -/
theorem Trap.step [Env] [LawfulDijkstra] {s1 s2 s3 s4 s5 s6 : Sim F} {v2 v4 : Vehicle F} (h : Trap s k lk j v) (ho : OnTrack s lk j v)
    (hs : Reach strict s) (hst : s.step dt = .ok s') (hr : StepRun strict s dt s1 s2 s3 s4 s5 s6 s') (hv : s.vehicles.get? k = some v)
    (ht : Trace s dt s1 s2 s3 s4 s' k v v1 v2 v4) (hstay : ∀ l, s4.links.get? lk = some l → ¬ l.length < v4.pos) :
    ∃ v', s'.vehicles.get? k = some v' ∧ Placed v4 v' ∧ Trap s' k lk j v' ∧ v'.route = [lk, j] := by
  have e1 := h.first ho hr hv ht.get1
  obtain ⟨a, w, e2⟩ := ht.acc.same
  obtain ⟨q, e, lc, cnt, e4, -⟩ := ht.move.eq
  have f4 : v4.route = [lk, j] ∧ v4.pathfind = v.pathfind ∧ v4.canExit = v.canExit := by
    rw [e4, e2, e1]; exact ⟨rfl, rfl, rfl⟩
  have hlights : ∀ light i, ¬ s'.Controls light i j := by
    rintro light i ⟨tl', htl', hm⟩
    obtain ⟨tl, htl, hs⟩ := (C08_lights hs hst).bwd htl'
    rw [light_links hs] at hm
    exact h.lights light i ⟨tl, htl, hm⟩
  have no : ∀ v5, ¬ Passed s4.links v4 v5 := by
    intro v5 hp
    obtain ⟨a, rest, l, pf, ha, hl, hlt, -⟩ := hp.ex
    rw [f4.1] at ha
    cases ha
    exact hstay l hl hlt
  cases ht.out with
  | stays v' hv' hp _ =>
    refine ⟨v', hv', hp, ?_⟩
    obtain ⟨p, d, r, c, rfl⟩ := hp
    refine ⟨⟨?_, f4.2.2.trans h.exit, fun a w hw => ?_, fun l' hl' => ?_, hlights⟩, f4.1⟩
    · dsimp only; rw [f4.2.1]; exact h.paths
    · obtain ⟨u, hu⟩ := hr.back hw
      exact h.only a u hu
    · obtain ⟨l, hl, -⟩ := hr.frame.bwd hl'
      obtain ⟨l'', hl'', e⟩ := C08_uncontrolled hs hst (getLink_ok.2 hl) hlights
      rw [getLink_ok.1 hl''] at hl'; cases hl'
      rw [e]; exact h.opened l hl
  | passes v5 u hp _ _ _ => exact absurd hp (no v5)
  | leaves v5 hp _ _ => exact absurd hp (no v5)

end

/-! ### The motion -/

/-- The same with any acceleration up to `a` in between. -/
theorem CanStop.after {m G v v' a a' r t : ℝ} (h : CanStop m G v a r) (hv : 0 ≤ v) (ha : 0 ≤ a) (ha' : a' ≤ a) (ht : 0 ≤ t)
    (e : v' = max (v + t * a') 0) : CanStop m (G - (v + v') / 2 * t) v' a (r - t) := by
  intro x h0 h1 _
  have hv' : 0 ≤ v' := by rw [e]; exact le_max_right _ _
  have hta : t * a' ≤ t * a := mul_le_mul_of_nonneg_left ha' ht
  have hat : 0 ≤ t * a := mul_nonneg ht ha
  have hle : v' ≤ v + t * a := by rw [e]; exact max_le (by linarith) (by linarith)
  have hax : 0 ≤ a * x := mul_nonneg ha h0
  have key := h (t + x) (by linarith) (by linarith) (by nlinarith)
  have d1 : (v + v') / 2 * t ≤ (v + (v + t * a)) / 2 * t := mul_le_mul_of_nonneg_right (by linarith) ht
  have d2 : v' * x ≤ (v + t * a) * x := mul_le_mul_of_nonneg_right hle h0
  have d3 : (v' + a * x) ^ 2 ≤ (v + a * (t + x)) ^ 2 := pow_le_pow_left₀ (by linarith) (by linarith) 2
  nlinarith

/-- A vehicle that could stop 5 m before a line can stop at the line even if it speeds up for twice `h` seconds. -/
theorem canStop_twice {h d v a c : ℝ} (hv : 0 ≤ v) (ha : 0 ≤ a) (hc : 0 < c) (hc3 : c ≤ 3) (hroom : (13 + 6 * a + a ^ 2) * h ^ 2 ≤ 7)
    (hd : v ^ 2 / (2 * c) + 7.5 ≤ d) : CanStop (3 / 4 * h ^ 2) d v a (h + h) := by
  intro t h0 h1 _
  have h2 : v ^ 2 / 6 ≤ v ^ 2 / (2 * c) := div_le_div_of_nonneg_left (by positivity) (by linarith) (by linarith)
  norm_num at hd
  have d1 : v * t ≤ v * (h + h) := mul_le_mul_of_nonneg_left h1 hv
  have d2 : t ^ 2 ≤ (h + h) ^ 2 := pow_le_pow_left₀ h0 h1 2
  have d3 : a * t ^ 2 ≤ a * (h + h) ^ 2 := mul_le_mul_of_nonneg_left d2 ha
  have d4 : (v + a * t) ^ 2 ≤ (v + a * (h + h)) ^ 2 :=
    pow_le_pow_left₀ (by positivity) (by linarith [mul_le_mul_of_nonneg_left h1 ha]) 2
  have d5 : 0 ≤ (v - 6 * (2 * h + a * h / 3)) ^ 2 := sq_nonneg _
  have d6 : 0 ≤ a * h ^ 2 := by positivity
  have d7 : 0 ≤ a ^ 2 * h ^ 2 := by positivity
  nlinarith

section
variable {strict : Prop} {s s' : Sim ℝ} {dt : ℝ} {k lk j : Key} {v v' : Vehicle ℝ}

/-- Whenever accelerations are recomputed, the vehicle can stop before the point `P`: if it has not entered the next link, even if it speeds up
for another `h` seconds. -/
def Caught (h P : ℝ) (s : Sim ℝ) (v : Vehicle ℝ) : Prop :=
  v.entered = 1 ∧ CanStop (3 / 4 * h ^ 2) (P - v.posFront) v.vel v.acc.maxAcc ((if s.accUpdate < 0.1 then h - s.accUpdate else 0) + h) ∨
  v.entered = 2 ∧ Keeps h s.accUpdate (P - v.posFront) v.vel v.acc.getAcc 0

theorem Caught.front {h P : ℝ} (hc : Caught h P s v) (hh : 0 ≤ h) (hclk : s.accUpdate < 0.1 → s.accUpdate ≤ h) (hv : 0 ≤ v.vel) : v.posFront ≤ P := by
  rcases hc with ⟨-, hc⟩ | ⟨-, hc⟩
  · have := hc 0 le_rfl (by split <;> [linarith [hclk ‹_›]; linarith]) (by linarith)
    nlinarith [sq_nonneg v.vel, sq_nonneg h]
  · linarith [hc.1]

/-- A step leaves the vehicle caught. -/
theorem Caught.step [Env] [LawfulDijkstra] {h V : ℝ} {l lj : Link ℝ} (hs : Reach strict s) (hst : s.step dt = .ok s')
    (hpos : ∀ k l, s.links.get? k = some l → 0 < l.length) (hl : s.links.get? lk = some l) (hj : s.links.get? j = some lj) (hne : lk ≠ j)
    (hshort : lj.length < v.halfLen) (hsoon : lj.length < 5 * lj.speedLimit) (hdt : 0 ≤ dt) (hh : dt + 0.1 ≤ h) (hc : Stopping v.acc h)
    (hc3 : v.acc.comfDec ≤ 3) (hroom : (13 + 6 * v.acc.maxAcc + v.acc.maxAcc ^ 2) * h ^ 2 ≤ 7) (hV : v.vel ≤ V)
    (hwide : V ^ 2 + 2 * (v.acc.maxAcc + 6) * h * V + (v.acc.maxAcc + 3) ^ 2 * h ^ 2 ≤ 60 * l.speedLimit)
    (hsee : V ^ 2 / (2 * v.acc.comfDec) + 7.5 ≤ 5 * l.speedLimit)
    (hv : s.vehicles.get? k = some v) (ht : Trap s k lk j v) (ho : OnTrack s lk j v) (hk : Caught h (l.length + lj.length) s v) :
    ∃ v', s'.vehicles.get? k = some v' ∧ Trap s' k lk j v' ∧ v'.route = [lk, j] ∧ v'.pathfind = v.pathfind ∧ v'.halfLen = v.halfLen ∧ (∃ a, v'.acc = { v.acc with acc := a }) ∧
      Caught h (l.length + lj.length) s' v' := by
  obtain ⟨s1, s2, s3, s4, s5, s6, hr⟩ := (step_spec hs.inv dt).ok hst
  obtain ⟨v1, v2, v4, htr⟩ := hr.trace hv
  have ev1 := ht.first ho hr hv htr.get1
  obtain ⟨a, w, ev2⟩ := htr.acc.same
  obtain ⟨q, e, lc, cnt, ev4, -⟩ := htr.move.eq
  have v0 := C20_speed hs (getVeh_ok.2 hv)
  norm_num at hh
  have e5 : v4.vel = max (v.vel + dt * v2.acc.getAcc) 0 := by
    rw [ev4]; dsimp only; rw [ev2]; dsimp only; rw [ev1]; simp only [fmax]; norm_num
  have e6 : v4.pos = v.pos + (v.vel + v4.vel) / 2 * dt := by
    have : v4.pos = v2.pos + 0.5 * (v2.vel + v4.vel) * dt := by rw [ev4]
    rw [this, ev2]; dsimp only; rw [ev1]
    have h5 : (0.5 : ℝ) = 1 / 2 := by norm_num
    rw [h5]; ring
  have e7 : v4.halfLen = v.halfLen ∧ v4.acc = v2.acc ∧ v4.route = [lk, j] := by
    rw [ev4]; dsimp only; rw [ev2]; dsimp only; rw [ev1]; exact ⟨rfl, rfl, rfl⟩
  have e8 : v2.acc = { v.acc with acc := a } := by rw [ev2]; dsimp only; rw [ev1]
  have hge : -6 ≤ v2.acc.getAcc := by
    simp only [AccelerationModel.getAcc, fmax, maxDecel]
    exact le_max_of_le_right (by norm_num)
  obtain ⟨l1, hl1, hfl⟩ := hr.frame1.frame.fwd lk l hl
  obtain ⟨lj1, hlj1, hfj⟩ := hr.frame1.frame.fwd j lj hj
  have hop : lj1.control = .open_ := by
    obtain ⟨x, hx, e⟩ := hr.frame1.fwd j lj hj
    rw [hlj1] at hx; cases hx
    rw [e]; exact ht.opened lj hj
  have el : l1.length = l.length := by unfold Link.length; rw [hfl.curve]
  have elj : lj1.length = lj.length := by unfold Link.length; rw [hfj.curve]
  have hclk := hr.clocks.2.1
  have hmax : 0 ≤ v.acc.maxAcc := by have := hc.acc; norm_num at this; linarith
  have hgp : l.length + lj.length - (v4.pos + v4.halfLen) =
      l.length + lj.length - v.posFront - (v.vel + v4.vel) / 2 * dt := by
    rw [e6, e7.1, Vehicle.posFront]; ring
  have hL : LongLinks s.links := longLinks_real hpos
  have hreg : v1.linkId = some lk := by rw [ev1]; rfl
  have only : ∀ a u, s1.vehicles.get? a = some u → a = k := by
    intro a u hu
    obtain ⟨u0, hu0, -⟩ := hr.vehs1.bwd hu
    exact ht.only a u0 hu0
  have hmem := hr.inv1.mem lk l1 hl1
  obtain ⟨pre, post, hvs⟩ := List.append_of_mem ((hmem.2 k).2 ⟨v1, htr.get1, hreg⟩)
  have hpost : ∀ b ∈ post, False := by
    intro b hb
    obtain ⟨u, hu, -⟩ := (hmem.2 b).1 (by rw [hvs]; simp [hb])
    have := only b u hu
    subst this
    have hn := hmem.1
    rw [hvs, List.nodup_append] at hn
    exact (List.nodup_cons.1 hn.2.1).1 hb
  have hclean : ∀ b ∈ lj1.vehicles, False := by
    intro b hb
    obtain ⟨u, hu, hu'⟩ := ((hr.inv1.mem j lj1 hlj1).2 b).1 hb
    have := only b u hu
    subst this
    rw [htr.get1] at hu; cases hu
    rw [hreg] at hu'
    exact hne (Option.some.inj hu')
  have hcaught : Caught h (l.length + lj.length) s' v4 := by
    rcases hk with ⟨he, hk⟩ | ⟨he, hg0, hk⟩
    · have hent : v1.entered = 0 + 1 := by rw [ev1]; exact he
      by_cases hlt : s.accUpdate < 0.1
      · replace hclk := hclk.trans (if_pos hlt)
        rw [if_pos hlt] at hk
        have hsame : v2 = v1 := by
          rcases htr.acc with ⟨-, -, e3⟩ | ⟨hge, -⟩
          · exact e3
          · rw [hr.clocks.1] at hge; exact absurd hlt hge
        have hent4 : v4.entered = 1 := by
          cases (Trace.entry hr hL htr).2 with
          | keeps h1 _ => rw [h1, hent]
          | queues _ h1 => rw [hr.clocks.1] at h1; exact absurd hlt h1
          | enters h1 => rw [hr.clocks.1] at h1; exact absurd hlt h1
        refine .inl ⟨hent4, ?_⟩
        have hacc : v2.acc.getAcc ≤ v.acc.maxAcc := by
          have := hs.acc_le (getVeh_ok.2 hv)
          rw [hsame, ev1]
          simp only [AccelerationModel.getAcc, fmax, maxDecel]
          refine max_le (this.trans (max_le le_rfl (by linarith))) (by norm_num; linarith)
        have := hk.after v0 hmax hacc hdt e5
        show CanStop _ (l.length + lj.length - (v4.pos + v4.halfLen)) _ v4.acc.maxAcc _
        rw [hgp, e7.2.1, e8]
        refine this.mono le_rfl le_rfl ?_
        rw [hclk]
        have hlt' := hlt
        norm_num at hlt'
        split <;> linarith
      · replace hclk := hclk.trans (if_neg hlt)
        rw [if_neg hlt] at hk
        have hacc := hr.acc_le htr hlt hmax
        have hcs : v1.canStop (l1.length + -5.0) = decide (v.vel ^ 2 / (2 * v.acc.comfDec) + 7.5 ≤ l.length - v.posFront) := by
          rw [Vehicle.canStop, Vehicle.stoppingDistance, AccelerationModel.stoppingDistance, el, ev1]
          refine decide_eq_decide.2 ?_
          have : 0.5 * v.vel * (v.vel / v.acc.comfDec) + 2.5 = v.vel ^ 2 / (2 * v.acc.comfDec) + 2.5 := by
            have := hc.dec
            field_simp; norm_num; ring
          show 0.5 * v.vel * (v.vel / v.acc.comfDec) + 2.5 ≤ l.length + -5.0 - v.posFront ↔ _
          rw [this]
          norm_num
          constructor <;> intro h <;> linarith
        by_cases hstop : v.vel ^ 2 / (2 * v.acc.comfDec) + 7.5 ≤ l.length - v.posFront
        · have hent4 : v4.entered = 1 := by
            cases (Trace.entry hr hL htr).2 with
            | keeps h1 _ => rw [h1, hent]
            | queues _ _ _ h1 => rw [h1, hent]
            | enters _ h1 =>
              have bad : ∀ {lk' p j' next}, NextLine s1.links v1 lk' p j' next → p = l1.length ∧ next = lj1 := by
                intro lk' p j' next hn
                obtain ⟨i, l', a, h1, h2, h3, h4, h5⟩ := hn.ex
                rw [hent] at h1
                have : i = 0 := by omega
                subst this
                have hr1 : v1.route = [lk, j] := by rw [ev1]
                rw [hr1] at h4 h5
                cases h4; cases h5
                rw [hl1] at h2; cases h2
                have h6 := hn.route
                rw [hent, hr1] at h6
                cases h6
                have h7 := hn.link
                rw [hlj1] at h7; cases h7
                cases h3
                exact ⟨rfl, rfl⟩
              cases h1 with
              | open_ hn _ h2 =>
                rw [(bad hn).1, hcs] at h2
                exact absurd hstop (of_decide_eq_false h2)
              | yield_ hn h2 => rw [(bad hn).2, hop] at h2; cases h2
          refine .inl ⟨hent4, ?_⟩
          have hfirst : CanStop (3 / 4 * h ^ 2) (l.length + lj.length - v.posFront) v.vel v.acc.maxAcc (h + h) :=
            canStop_twice v0 hmax hc.dec hc3 hroom (by have := hpos j lj hj; linarith)
          have := hfirst.after v0 hmax hacc hdt e5
          show CanStop _ (l.length + lj.length - (v4.pos + v4.halfLen)) _ v4.acc.maxAcc _
          rw [hgp, e7.2.1, e8]
          refine this.mono le_rfl le_rfl ?_
          rw [hclk]
          split
          · norm_num; linarith
          · linarith
        · have hnear : ¬ v1.posFront < l1.length - maxLookahead * l1.speedLimit := by
            intro hlt
            apply hstop
            have h7 : v.vel ^ 2 ≤ V ^ 2 := pow_le_pow_left₀ v0 hV 2
            have h8 : v.vel ^ 2 / (2 * v.acc.comfDec) ≤ V ^ 2 / (2 * v.acc.comfDec) :=
              div_le_div_of_nonneg_right h7 (by have := hc.dec; linarith)
            rw [el, hfl.speedLimit, ev1] at hlt
            have hlt : v.posFront < l.length - maxLookahead * l.speedLimit := hlt
            simp only [maxLookahead] at hlt
            norm_num at hlt hsee ⊢
            linarith
          have hgo := (hr.goes hs hL htr hlt hent (.here (by rw [ev1]; rfl) hl1) hl1 hvs (fun b hb => (hpost b hb).elim) hnear hl1
            (by rw [ev1]; rfl) hlj1 (.rolls hop (by rw [hcs]; exact decide_eq_false hstop))).1
            (.inl hop)
          have hk' : CanStop (3 / 4 * h ^ 2) (l.length + lj.length - v.posFront + 0 ^ 2 / 12) v.vel v2.acc.getAcc h := by
            have := hk.slower hacc
            rw [zero_add] at this
            simpa using this
          have hg0 : 0 ≤ l.length + lj.length - v.posFront := by
            have := hk' 0 le_rfl (by linarith) (by linarith)
            nlinarith [sq_nonneg v.vel, sq_nonneg h]
          obtain ⟨k1, k2⟩ := keeps_move (g' := l.length + lj.length - (v4.pos + v4.halfLen)) hg0 le_rfl v0 hge (b := 0) (u' := 0) (by norm_num) hdt
            (r := h) (h := h) (by linarith) (by linarith) (.inr hk') e5 (by simp) (by rw [hgp]; ring)
          refine .inr ⟨hgo.1, k1, ?_⟩
          show _ ∨ CanStop _ (l.length + lj.length - (v4.pos + v4.halfLen) + _) _ _ _
          rw [e7.2.1]
          refine k2.imp (fun x => ⟨x.1, fun _ => x.2⟩) fun x => x.mono le_rfl le_rfl ?_
          rw [hclk]
          split
          · norm_num
          · linarith
    · have hent : v1.entered = 1 + 1 := by rw [ev1]; exact he
      have hent4 : v4.entered = 2 := by
        cases (Trace.entry hr hL htr).2 with
        | keeps h1 _ => rw [h1, hent]
        | queues _ _ _ h1 => rw [h1, hent]
        | enters _ h1 =>
          have bad : ∀ {lk' p j' next}, ¬ NextLine s1.links v1 lk' p j' next := by
            intro lk' p j' next hn
            have h6 := hn.route
            rw [hent, ev1] at h6
            cases h6
          cases h1 with
          | open_ hn => exact absurd hn bad
          | yield_ hn => exact absurd hn bad
      by_cases hlt : s.accUpdate < 0.1
      · replace hclk := hclk.trans (if_pos hlt)
        rw [if_pos hlt] at hk
        have hsame : v2.acc = v.acc := by
          rcases htr.acc with ⟨-, -, e3⟩ | ⟨hge, -⟩
          · rw [e3, ev1]
          · rw [hr.clocks.1] at hge; exact absurd hlt hge
        rw [← hsame] at hk
        have hlt' := hlt
        norm_num at hlt'
        obtain ⟨k1, k2⟩ := keeps_move (g' := l.length + lj.length - (v4.pos + v4.halfLen)) hg0 le_rfl v0 hge (b := 0) (u' := 0) (by norm_num) hdt
          (r := h - s.accUpdate) (h := h) (by linarith) (by linarith) (hk.imp (fun x => ⟨x.1, x.2 hlt⟩) id) e5 (by simp) (by rw [hgp]; ring)
        refine .inr ⟨hent4, k1, ?_⟩
        show _ ∨ CanStop _ (l.length + lj.length - (v4.pos + v4.halfLen) + _) _ _ _
        rw [e7.2.1]
        refine k2.imp (fun x => ⟨x.1, fun _ => x.2⟩) fun x => x.mono le_rfl le_rfl ?_
        rw [hclk]
        split <;> linarith
      · replace hclk := hclk.trans (if_neg hlt)
        rw [if_neg hlt] at hk
        have hk' : v.vel = 0 ∨ 3 / 4 * h ^ 2 ≤ l.length + lj.length - v.posFront - v.vel ^ 2 / 12 := by
          refine hk.imp And.left fun x => ?_
          have := x 0 le_rfl le_rfl (by linarith)
          simpa using this
        have hcan : v.vel = 0 ∧ v2.acc.getAcc ≤ 0 ∨
            CanStop (3 / 4 * h ^ 2) (l.length + lj.length - v.posFront + 0 ^ 2 / 12) v.vel v2.acc.getAcc h := by
          by_cases hnear : lj1.length + l1.length - 5 * l1.speedLimit ≤ v1.posFront
          · have hfol : v2.acc.getAcc ≤ followAcc v.acc (l.length + lj.length - v.posFront) v.vel 0 := by
              have hh := hr.held (i := 1) (k0 := j) (lk := lk) (pos := lj1.length + l1.length) hs htr hlt hent
                (.back (.here (by rw [ev1]; rfl) hlj1) hlj1 (fun b hb => (hclean b hb).elim)
                  (by rw [elj, hfj.speedLimit]; simp only [maxLookahead]; norm_num; linarith) le_rfl (by rw [ev1]; rfl) hl1)
                (getLink_ok.2 hl1) hvs (fun b hb => (hpost b hb).elim) (by norm_num; linarith)
                (.inr (.inl ⟨by rw [ev1]; rfl, by rw [ev1]; exact ht.exit⟩))
              rw [followAcc_eq]
              have key : v2.acc.acc ≤ max (min v1.acc.maxAcc (v1.acc.idm (lj1.length + l1.length - v1.posFront) v1.vel 0)) (-6) := by
                rcases hh with e | ⟨as, hx, e⟩
                · rw [e]; exact le_trans (by norm_num) (le_max_right _ _)
                · rw [e]
                  norm_num at hx
                  exact le_trans (le_min (foldl_min_le as _).1 ((foldl_min_le as _).2 _ hx)) (le_max_left _ _)
              have e3 : lj1.length + l1.length - v1.posFront = l.length + lj.length - v.posFront := by
                rw [elj, el, ev1]
                show lj.length + l.length - v.posFront = _
                ring
              rw [e3, ev1] at key
              refine max_le key (le_trans ?_ (le_max_right _ _))
              simp only [maxDecel]; norm_num
            have := hc.canStop v0 hfol hge hk'
            simpa using this
          · right
            have hacc := hr.acc_le htr hlt hmax
            refine (canStop_wide v0 hmax ?_).slower hacc
            have hfar : 5 * l.speedLimit ≤ l.length + lj.length - v.posFront := by
              rw [el, elj, hfl.speedLimit, ev1] at hnear
              have hnear : ¬ lj.length + l.length - 5 * l.speedLimit ≤ v.posFront := hnear
              linarith
            have h6 : 2 * (v.acc.maxAcc + 6) * h * v.vel ≤ 2 * (v.acc.maxAcc + 6) * h * V :=
              mul_le_mul_of_nonneg_left hV (mul_nonneg (by linarith) (by linarith))
            have h7 : v.vel ^ 2 ≤ V ^ 2 := pow_le_pow_left₀ v0 hV 2
            linarith
        obtain ⟨k1, k2⟩ := keeps_move (g' := l.length + lj.length - (v4.pos + v4.halfLen)) hg0 le_rfl v0 hge (b := 0) (u' := 0) (by norm_num) hdt
          (r := h) (h := h) (by linarith) (by linarith) hcan e5 (by simp) (by rw [hgp]; ring)
        refine .inr ⟨hent4, k1, ?_⟩
        show _ ∨ CanStop _ (l.length + lj.length - (v4.pos + v4.halfLen) + _) _ _ _
        rw [e7.2.1]
        refine k2.imp (fun x => ⟨x.1, fun _ => x.2⟩) fun x => x.mono le_rfl le_rfl ?_
        rw [hclk]
        split
        · norm_num
        · linarith
  have hclk' : s'.accUpdate < 0.1 → s'.accUpdate ≤ h := fun h => by norm_num at h; linarith
  have hfront := hcaught.front (by linarith) hclk' (by rw [e5]; exact le_max_right _ _)
  obtain ⟨v', hv', hp, ht', hroute⟩ := ht.step ho hs hst hr hv htr fun l' hl' hlt => by
    obtain ⟨l0, h0, hfr⟩ := hr.frame4.bwd hl'
    rw [hl] at h0; cases h0
    have : l'.length = l.length := by unfold Link.length; rw [hfr.curve]
    rw [this] at hlt
    rw [Vehicle.posFront, e7.1] at hfront
    linarith
  refine ⟨v', hv', ht', hroute, ?_⟩
  obtain ⟨p, d, r, c, rfl⟩ := hp
  exact ⟨by rw [ev4]; dsimp only; rw [ev2]; dsimp only; rw [ev1], e7.1, ⟨a, e7.2.1.trans e8⟩, hcaught⟩

/-- The vehicle stays caught. -/
theorem Caught.steps [Env] [LawfulDijkstra] {D V L Lj u w a₀ c₀ b₀ : ℝ} (hD : 0 ≤ D) (hc3 : c₀ ≤ 3) (hroom : (13 + 6 * a₀ + a₀ ^ 2) * (D + 0.1) ^ 2 ≤ 7)
    (hwide : V ^ 2 + 2 * (a₀ + 6) * (D + 0.1) * V + (a₀ + 3) ^ 2 * (D + 0.1) ^ 2 ≤ 60 * u) (hsee : V ^ 2 / (2 * c₀) + 7.5 ≤ 5 * u)
    (hne : lk ≠ j) (hshort : Lj < b₀) (hsoon : Lj < 5 * w) :
    ∀ {dts : List ℝ} {s s' : Sim ℝ} {v : Vehicle ℝ}, Reach strict s → (∀ dt ∈ dts, 0 ≤ dt ∧ dt ≤ D) → dts.foldlM Sim.step s = .ok s' →
    (∀ k l, s.links.get? k = some l → 0 < l.length) → (∃ l, s.links.get? lk = some l ∧ l.length = L ∧ l.speedLimit = u) →
    (∃ l, s.links.get? j = some l ∧ l.length = Lj ∧ l.speedLimit = w) → s.vehicles.get? k = some v → v.halfLen = b₀ → v.acc.maxAcc = a₀ →
    v.acc.comfDec = c₀ → Stopping v.acc (D + 0.1) → Fits v.acc (D + 0.1) V s.links → Moderate (D + 0.1) V s v → (s.accUpdate < 0.1 → s.accUpdate ≤ D + 0.1) →
    Trap s k lk j v → OnTrack s lk j v → Caught (D + 0.1) (L + Lj) s v →
    ∃ v', s'.vehicles.get? k = some v' ∧ v'.linkId = some lk ∧ v'.posFront ≤ L + Lj ∧ v'.pathfind.dst = v.pathfind.dst := by
  intro dts
  induction dts with
  | nil =>
    rintro s s' v hs - ⟨⟩ - - - hv - - - - - - hclk - ho hc
    refine ⟨v, hv, ?_, hc.front ?_ hclk (C20_speed hs (getVeh_ok.2 hv)), rfl⟩
    · rcases ho with e | ⟨e, -⟩ <;> rw [Vehicle.linkId, e] <;> rfl
    · norm_num; linarith
  | cons dt dts ih =>
    intro s s' v hs hd hrun hpos hl hj hv hhalf hacc hdec hst hf hm hclk ht ho hc
    rw [List.foldlM_cons, M_bind_ok] at hrun
    obtain ⟨s1, h1, hrun⟩ := hrun
    obtain ⟨d0, d1⟩ := hd dt (by simp)
    obtain ⟨l, hl, rfl, rfl⟩ := hl
    obtain ⟨lj, hj, rfl, rfl⟩ := hj
    subst hhalf hacc hdec
    have hs1 := Reach.exec (.step dt) hs trivial h1
    obtain ⟨v1, hv1, ht1, hr1, hpf, hh1, ⟨a, ha1⟩, hc1⟩ := hc.step hs h1 hpos hl hj hne hshort hsoon d0 (by linarith) hst hc3 hroom hm.1 hwide hsee hv ht ho
    obtain ⟨_, _, _, _, _, _, hr⟩ := (step_spec hs.inv dt).ok h1
    obtain ⟨l', hl', el⟩ := hr.frame.fwd lk l hl
    obtain ⟨lj', hlj', elj⟩ := hr.frame.fwd j lj hj
    have := ih hs1 (fun d hd' => hd d (by simp [hd'])) hrun (fun k' l' hl' => by
        obtain ⟨l0, hl0, e0⟩ := hr.frame.bwd hl'
        have e : l'.length = l0.length := by unfold Link.length; rw [e0.curve]
        rw [e]; exact hpos k' l0 hl0)
      ⟨l', hl', by unfold Link.length; rw [el.curve], el.speedLimit⟩ ⟨lj', hlj', by unfold Link.length; rw [elj.curve], elj.speedLimit⟩
      hv1 hh1 (by rw [ha1]) (by rw [ha1]) (by rw [ha1]; exact ⟨hst.acc, hst.dec, hst.strong, hst.near, hst.far⟩)
      (hf.frame hr.frame (by rw [ha1]) (by rw [ha1])) (hm.step hs h1 d0 (by linarith) (getVeh_ok.2 hv) (getVeh_ok.2 hv1) hf)
      (by
        intro _
        rw [hr.clocks.2.1]
        split
        · rename_i h
          have h : s.accUpdate < 0.1 := h
          norm_num at h ⊢; linarith
        · norm_num; linarith) ht1 (.inl hr1) hc1
    obtain ⟨v', g1, g2, g3, g4⟩ := this
    exact ⟨v', g1, g2, g3, g4.trans (by rw [hpf])⟩

/-- **C89 (false).** In exact arithmetic: the vehicle `k` is alone on the link `lk`, which is at least 200 m long and leads to the open link `j`
only, on which it may drive on to its destination `dst`, but `j` is shorter than half of the vehicle.  When accelerations and lane changes are
due, it can stop comfortably 7.5 m before the end of `lk`.  Then it never leaves `lk`, whatever steps of at most `D` seconds follow. -/
theorem C89_trapped [Env] [LawfulDijkstra] {D M : ℝ} {s0 : Sim ℝ} {dst : Key} {l lj : Link ℝ} {dts : List ℝ} (h : Reach True s)
    (hv : s.getVehicle k = .ok v) (hroute : v.route = [lk]) (hlane : v.laneChange = none) (honly : ∀ a w, s.getVehicle a = .ok w → a = k)
    (hre : ¬ s.accUpdate < 0.1) (hlcu : ¬ s.lcUpdate < 0.3)
    (hl : s.getLinkRef lk = .ok l) (hlong : 200 ≤ l.length) (hout : l.linksOut = [j]) (hlcs : l.laneChanges = []) (hj : s.getLinkRef j = .ok lj)
    (hne : lk ≠ j) (hopen : lj.control = .open_) (hlights : ∀ light i, ¬ s.Controls light i j) (hshort : lj.length < v.halfLen)
    (hlead : Leads s.links lk dst) (hd1 : dst ≠ lk) (hd2 : dst ≠ j)
    (hpos : ∀ k l, s.getLinkRef k = .ok l → 0 < l.length) (hadj : 0 < v.acc.velAdj)
    (hlim : ∀ k l, s.getLinkRef k = .ok l → 0 < l.speedLimit ∧ l.speedLimit ≤ M ∧ 4 * v.acc.maxAcc * (D + 0.1) ≤ v.acc.velAdj * l.speedLimit)
    (hsoon : lj.length < 5 * lj.speedLimit)
    (hc : Stopping v.acc (D + 0.1)) (hc3 : v.acc.comfDec ≤ 3) (hroom : (13 + 6 * v.acc.maxAcc + v.acc.maxAcc ^ 2) * (D + 0.1) ^ 2 ≤ 7)
    (hvel : v.vel ≤ v.acc.velAdj * M)
    (hwide : (v.acc.velAdj * M) ^ 2 + 2 * (v.acc.maxAcc + 6) * (D + 0.1) * (v.acc.velAdj * M) + (v.acc.maxAcc + 3) ^ 2 * (D + 0.1) ^ 2 ≤
      60 * l.speedLimit)
    (hsee : (v.acc.velAdj * M) ^ 2 / (2 * v.acc.comfDec) + 7.5 ≤ 5 * l.speedLimit)
    (hstop : v.posFront + v.vel ^ 2 / (2 * v.acc.comfDec) + 7.5 ≤ l.length) (hD : 0 ≤ D)
    (he : s.setVehicleDestination k dst = .ok s0) (hd : ∀ dt ∈ dts, 0 ≤ dt ∧ dt ≤ D) (hrun : dts.foldlM Sim.step s0 = .ok s') :
    ∃ v', s'.getVehicle k = .ok v' ∧ v'.linkId = some lk ∧ v'.posFront ≤ l.length + lj.length ∧ v'.destination = dst := by
  have hs0 : Reach True s0 := .exec (.setVehicleDestination k dst) h trivial he
  have hds := (setVehicleDestination_spec (E := fun _ => True) h.inv (.inr trivial) (.inr trivial) (contains_of_get (getVeh_ok.1 hv))
    (.inr (.inr trivial))).ok he
  obtain ⟨u, pf, hu, x1, x2, x3, x4⟩ := hds.veh
  rw [getVeh_ok.1 hv] at hu; cases hu
  have hv0 : s0.vehicles.get? k = some { v with pathfind := pf, canExit := false } := by
    rw [x4, SlotMap.get?_modify_self, getVeh_ok.1 hv]; rfl
  have hlk : s0.links = s.links := by rw [hds.eq]
  obtain ⟨hclk1, hclk2, hlts⟩ : s0.accUpdate = s.accUpdate ∧ s0.lcUpdate = s.lcUpdate ∧ s0.lights = s.lights := by
    rw [hds.eq]; exact ⟨rfl, rfl, rfl⟩
  have hla : v.linkId = some lk := by rw [Vehicle.linkId, hroute]; rfl
  obtain ⟨route, ⟨r1, r2, r, r3, r4⟩, hpl⟩ := C73_plan h he hv (getVeh_ok.2 hv0) hla hlead
  obtain ⟨K, k1, -, -, k4⟩ := hpl.paths
  have gl := getLink_ok.1 hl
  have nolane : ∀ b, LaneStar s.links lk b → b = lk := by
    intro b hb
    rcases Relation.ReflTransGen.cases_head hb with e | ⟨c, ⟨l', hl', hm⟩, -⟩
    · exact e.symm
    · rw [gl] at hl'; cases hl'
      rw [hlcs] at hm; cases hm
  obtain ⟨kl, kj⟩ : lk ∈ K ∧ j ∈ K := by
    match route, r1 with
    | [a], r1 =>
      cases r1; cases r3
      exact absurd (nolane dst r4) hd1
    | a :: b :: rs, r1 =>
      cases r1
      obtain ⟨c, hc1, l', hl', hm⟩ := (List.isChain_cons_cons.1 r2).1
      have := nolane c hc1
      subst this
      rw [gl] at hl'; cases hl'
      rw [hout, List.mem_singleton] at hm
      subst hm
      exact ⟨k1 _ (by simp), k1 _ (by simp)⟩
  have h200 : ¬ l.length < 200.0 := by norm_num; exact hlong
  have hplan : ∀ p ∈ pf.paths, p.links = [lk, j] := by
    intro p hp
    obtain ⟨b, hb, -⟩ := (x3 p hp).start
    obtain ⟨ks, e⟩ : ∃ ks, p.links = b :: ks := by
      cases h : p.links with
      | nil => rw [h] at hb; cases hb
      | cons c ks => rw [h] at hb; cases hb; exact ⟨ks, rfl⟩
    obtain ⟨q1, q2⟩ := (k4 b ks).1 ⟨p, hp, e⟩
    have hbl : b = lk := by
      rcases q1 with q1 | ⟨l', hl', hm⟩
      · exact q1
      · rw [gl] at hl'; cases hl'
        rw [hlcs] at hm; cases hm
    subst hbl
    rw [e]
    cases q2 with
    | stop _ q =>
      rcases q with q | q | q
      · cases q
      · exact absurd (by norm_num) q
      · exact absurd kj (q j ⟨l, gl, by rw [hout]; simp⟩)
    | go _ _ g1 g2 g3 =>
      rw [gl] at g1; cases g1
      rw [hout, List.mem_singleton] at g2
      subst g2
      cases g3 with
      | stop => rfl
      | go _ g4 =>
        refine absurd g4 ?_
        norm_num; exact hlong
  have hsome : pf.paths ≠ [] := by
    obtain ⟨p, hp, -⟩ := (k4 lk [j]).2 ⟨.inl rfl, .go kl (by norm_num) gl (by rw [hout]; simp) (.stop kj (.inr (.inl (by norm_num; exact hlong))))⟩
    rintro e
    rw [show ({ v with pathfind := pf, canExit := false } : Vehicle ℝ).pathfind.paths = pf.paths from rfl, e] at hp
    cases hp
  have hi := h.inv.veh k v (getVeh_ok.1 hv)
  have hent : v.entered = 1 := by
    have := hi.entered
    have := hi.enteredLe
    rw [hroute] at this
    simp at this
    omega
  have htrap : Trap s0 k lk j { v with pathfind := pf, canExit := false } := by
    refine ⟨fun p hp => ⟨hplan p hp, ?_⟩, rfl, fun a w hw => ?_, fun l' hl' => ?_, ?_⟩
    · by_contra hx
      have := (x3 p hp).exit.1 (by simpa using hx)
      rw [hplan p hp] at this
      exact hd2 (Option.some.inj this).symm
    · rw [x4] at hw
      have : (s.vehicles.get? a).isSome := by rw [← SlotMap.isSome_get?_modify s.vehicles k, hw]; rfl
      obtain ⟨u', hu'⟩ := Option.isSome_iff_exists.1 this
      exact honly a u' (getVeh_ok.2 hu')
    · rw [hlk, getLink_ok.1 hj] at hl'; cases hl'
      exact hopen
    · rintro light i ⟨tl, htl, hm⟩
      rw [hlts] at htl
      exact hlights light i ⟨tl, htl, hm⟩
  have hmax : 0 ≤ v.acc.maxAcc := by have := hc.acc; norm_num at this; linarith
  have v0 := C20_speed h hv
  have hcaught : Caught (D + 0.1) (l.length + lj.length) s0 { v with pathfind := pf, canExit := false } := by
    refine .inl ⟨hent, ?_⟩
    rw [if_neg (by rw [hclk1]; exact hre)]
    refine (canStop_twice v0 hmax hc.dec hc3 hroom ?_).mono le_rfl le_rfl (by norm_num; linarith)
    have := hpos j lj hj
    show _ ≤ l.length + lj.length - v.posFront
    linarith
  obtain ⟨v', g1, g2, g3, g4⟩ := Caught.steps hD hc3 hroom hwide hsee hne hshort hsoon hs0 hd hrun
    (fun k' l' hl' => hpos k' l' (by rw [hlk] at hl'; exact getLink_ok.2 hl')) ⟨l, by rw [hlk]; exact gl, rfl, rfl⟩
    ⟨lj, by rw [hlk]; exact getLink_ok.1 hj, rfl, rfl⟩ hv0 rfl rfl rfl hc
    ⟨hmax, fun k' l' hl' => by
      rw [hlk] at hl'
      obtain ⟨h1, h2, h3⟩ := hlim k' l' (getLink_ok.2 hl')
      exact ⟨mul_pos hadj h1, mul_le_mul_of_nonneg_left h2 hadj.le, h3⟩⟩
    ⟨hvel, fun h => absurd h (by rw [hclk1]; exact hre)⟩ (fun h => absurd h (by rw [hclk1]; exact hre)) htrap
    (.inr ⟨hroute, hent, hlane, hsome, by rw [hclk2]; exact hlcu⟩) hcaught
  exact ⟨v', getVeh_ok.2 g1, g2, g3, g4.trans x2⟩

end

end TrafficSim
