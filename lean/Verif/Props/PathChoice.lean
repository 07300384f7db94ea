import Verif.Lemmas.Cap
import Verif.Lemmas.Town

/-! # C70: which path a vehicle takes, and when it changes lanes -/

namespace TrafficSim

variable {F : Type} [Flt F] {strict : Prop}

/-- The cost of a path at the position `x`: the greatest of `n / (dₙ - x)`, where `dₙ` is the distance, kept in tenths of
metres, that can be driven with fewer than `n` lane changes. -/
def Urgency (d : LaneDists) (x c : F) : Prop :=
  c = fmax (fmax (fmax (Flt.ofNat 1 / (0.1 * Flt.ofNat d.d0 - x)) (Flt.ofNat 2 / (0.1 * Flt.ofNat d.d1 - x)))
    (Flt.ofNat 3 / (0.1 * Flt.ofNat d.d2 - x))) (Flt.ofNat 4 / (0.1 * Flt.ofNat d.d3 - x))

/-- What the path `p` costs the vehicle `v`: on the lane of the vehicle, a thousand times the cost at its position, and on
another lane, a thousand times the cost at its projection there, plus five. -/
def PathCost (links : LinkSet F) (v : Vehicle F) (p : Path) (n : Nat) : Prop :=
  ∃ cur new, v.route.head? = some cur ∧ p.links.head? = some new ∧
    ((cur = new ∧ ∃ c, Urgency p.dists v.pos c ∧ n = toUsize (1000.0 * c)) ∨
     (cur ≠ new ∧ ∃ l x c, links.get? cur = some l ∧ l.projectApprox new v.pos = .ok x ∧ Urgency p.dists x c ∧
        n = toUsize (1000.0 * c + 5.0)))

/-- `p` is the first of the paths `ps` that cost the least. -/
def Cheapest (links : LinkSet F) (v : Vehicle F) (ps : List Path) (p : Path) : Prop :=
  ∃ pre post n, ps = pre ++ p :: post ∧ PathCost links v p n ∧
    (∀ q ∈ pre, ∃ m, PathCost links v q m ∧ n < m) ∧ ∀ q ∈ post, ∃ m, PathCost links v q m ∧ n ≤ m

theorem evaluatePath_cost {links : LinkSet F} {v : Vehicle F} {p : Path} {n : Nat}
    (h : v.evaluatePath p links = .ok n) : PathCost links v p n := by
  unfold Vehicle.evaluatePath at h
  split at h
  · rename_i cur r new q hr hp
    refine ⟨cur, new, by rw [hr]; rfl, by rw [hp]; rfl, ?_⟩
    split at h
    · rename_i e
      exact .inl ⟨e, _, rfl, (Except.ok.inj h).symm⟩
    · rename_i e
      rw [M_bind_ok] at h
      obtain ⟨l, hl, h⟩ := h
      rw [M_bind_ok] at h
      obtain ⟨x, hx, h⟩ := h
      exact .inr ⟨e, l, x, _, getLink_ok.1 hl, hx, rfl, (Except.ok.inj h).symm⟩
  · cases h

theorem minPath_cheapest {links : LinkSet F} {v : Vehicle F} : ∀ (ps seen : List Path) (b : Path) (c : Nat) (r),
    (∃ pre post, seen = pre ++ b :: post ∧ PathCost links v b c ∧
      (∀ q ∈ pre, ∃ m, PathCost links v q m ∧ c < m) ∧ ∀ q ∈ post, ∃ m, PathCost links v q m ∧ c ≤ m) →
    v.minPath links ps (some (b, c)) = .ok r → ∃ p n, r = some (p, n) ∧ Cheapest links v (seen ++ ps) p
  | [], seen, b, c, r, ⟨pre, post, h1, h2, h3, h4⟩, h => by
    unfold Vehicle.minPath at h
    cases h
    exact ⟨b, c, rfl, pre, post, c, by simpa using h1, h2, h3, h4⟩
  | p :: ps, seen, b, c, r, ⟨pre, post, h1, h2, h3, h4⟩, h => by
    unfold Vehicle.minPath at h
    rw [M_bind_ok] at h
    obtain ⟨n, hn, h⟩ := h
    have hn := evaluatePath_cost hn
    have e : seen ++ p :: ps = (seen ++ [p]) ++ ps := by simp
    dsimp only at h
    rw [e]
    split at h
    · rename_i hlt
      refine minPath_cheapest ps (seen ++ [p]) p n r ⟨seen, [], rfl, hn, ?_, by simp⟩ h
      intro q hq
      rw [h1] at hq
      rcases List.mem_append.1 hq with hq | hq
      · obtain ⟨m, hm, hl⟩ := h3 q hq
        exact ⟨m, hm, by omega⟩
      · rcases List.mem_cons.1 hq with rfl | hq
        · exact ⟨c, h2, hlt⟩
        · obtain ⟨m, hm, hl⟩ := h4 q hq
          exact ⟨m, hm, by omega⟩
    · rename_i hlt
      refine minPath_cheapest ps (seen ++ [p]) b c r ⟨pre, post ++ [p], by simp [h1], h2, h3, ?_⟩ h
      intro q hq
      rcases List.mem_append.1 hq with hq | hq
      · exact h4 q hq
      · rw [List.mem_singleton] at hq
        rw [hq]
        exact ⟨n, hn, by omega⟩

/-- What `choose_path` returns. -/
theorem choosePath_cheapest {links : LinkSet F} {v : Vehicle F} {r : Option Path} (h : v.choosePath links = .ok r) :
    (v.laneChange.isSome ∧ r = none) ∨ (v.laneChange = none ∧
      ((v.pathfind.paths = [] ∧ r = none) ∨ ∃ p, Cheapest links v v.pathfind.paths p ∧
        ((p.links = v.route ∧ r = none) ∨ (p.links ≠ v.route ∧ r = some p)))) := by
  unfold Vehicle.choosePath at h
  split at h
  · rename_i hlc
    exact .inl ⟨hlc, (Except.ok.inj h).symm⟩
  · rename_i hlc
    refine .inr ⟨by simpa using hlc, ?_⟩
    cases hp : v.pathfind.paths with
    | nil =>
      rw [hp] at h
      unfold Vehicle.minPath at h
      exact .inl ⟨rfl, (Except.ok.inj h).symm⟩
    | cons p ps =>
      rw [hp] at h
      unfold Vehicle.minPath at h
      rw [M_bind_ok] at h
      obtain ⟨o, ho, h⟩ := h
      rw [M_bind_ok] at ho
      obtain ⟨n, hn, ho⟩ := ho
      obtain ⟨b, m, rfl, hb⟩ := minPath_cheapest ps [p] p n o ⟨[], [], rfl, evaluatePath_cost hn, by simp, by simp⟩ ho
      refine .inr ⟨b, hb, ?_⟩
      dsimp only at h
      split at h
      · rename_i e
        exact .inl ⟨e, (Except.ok.inj h).symm⟩
      · rename_i e
        exact .inr ⟨e, (Except.ok.inj h).symm⟩

/-- `n` is the length of the longest common prefix of the two lists. -/
def CommonPrefix (a b : List Key) (n : Nat) : Prop :=
  n ≤ a.length ∧ n ≤ b.length ∧ a.take n = b.take n ∧ ∀ m, n < m → m ≤ a.length → m ≤ b.length → a.take m ≠ b.take m

omit [Flt F] in
theorem matchedPrefix_common : ∀ a b : List Key, CommonPrefix a b (Vehicle.matchedPrefix a b)
  | [], b => ⟨Nat.zero_le _, Nat.zero_le _, rfl, fun m h h' => absurd h' (by simp; omega)⟩
  | a :: as, [] => ⟨Nat.zero_le _, Nat.zero_le _, rfl, fun m h _ h' => absurd h' (by simp; omega)⟩
  | a :: as, b :: bs => by
    obtain ⟨h1, h2, h3, h4⟩ := matchedPrefix_common as bs
    unfold Vehicle.matchedPrefix
    split
    · rename_i e
      refine ⟨by simpa using h1, by simpa using h2, by simp [e, h3], fun m hm ha hb => ?_⟩
      obtain ⟨m, rfl⟩ : ∃ j, m = j + 1 := ⟨m - 1, by omega⟩
      simp only [List.length_cons] at ha hb
      simpa [e] using h4 m (by omega) (by omega) (by omega)
    · rename_i e
      refine ⟨Nat.zero_le _, Nat.zero_le _, rfl, fun m hm ha hb => ?_⟩
      obtain ⟨m, rfl⟩ : ∃ j, m = j + 1 := ⟨m - 1, by omega⟩
      simp [e]

/-- What becomes of the vehicle `v` when it chooses its path. -/
inductive Chooses (links : LinkSet F) (v v' : Vehicle F) : Prop
  /-- A vehicle that is changing lanes, or has no path to its destination, carries on. -/
  | carriesOn : v.laneChange.isSome ∨ v.pathfind.paths = [] → v' = v → Chooses links v v'
  /-- The cheapest path is the route that the vehicle follows. -/
  | keeps (p : Path) : v.laneChange = none → Cheapest links v v.pathfind.paths p → p.links = v.route → v' = v →
      Chooses links v v'
  /-- The cheapest path is another one, on the lane of the vehicle: it becomes its route, on which the vehicle has entered
  the links up to where the two part. -/
  | takes (p : Path) (n : Nat) : v.laneChange = none → Cheapest links v v.pathfind.paths p → p.links ≠ v.route →
      p.links.head? = v.route.head? → CommonPrefix v.route p.links n →
      v' = { v with route := p.links, entered := min v.entered n, canExit := p.canExit } → Chooses links v v'
  /-- The cheapest path is on another lane: the vehicle is moved to the point of that lane beside it, from where it has
  thirty metres to get to the middle of the lane. -/
  | changes (p : Path) (link : Key) (l : Link F) (x off slope : F) (pf : PathfindingModel) : v.laneChange = none →
      Cheapest links v v.pathfind.paths p → p.links.head? = some link → v.route.head? ≠ some link →
      links.get? link = some l → l.curve.inverseSample v.worldPos v.worldDir = .ok (some (x, off, slope)) →
      pf.src = link → pf.dst = v.pathfind.dst →
      v' = { v with
        route := p.links, entered := 1, canExit := p.canExit, pathfind := pf, pos := x
        laneChange := some ⟨x + 30.0, CubicFn.fit x off slope (x + 30.0) 0.0 0.0⟩ } → Chooses links v v'

variable {s s' : Sim F} {dt : F}

theorem LaneRunAll.chooses {vs : VehicleSet F} {lcs : List (Key × Path)} (h : LaneRunAll (strict := strict) s vs lcs s')
    {k : Key} {v : Vehicle F} (hv : s.vehicles.get? k = some v) :
    ∃ v', s'.vehicles.get? k = some v' ∧ Chooses s.links v v' := by
  have fin : ∀ {u}, vs.get? k = some u → k ∉ lcs.map (·.1) → s'.vehicles.get? k = some u := by
    intro u hu hk
    obtain ⟨v', hv', h1, -⟩ := h.vehs.fwd k u hu
    rw [h1 hk] at hv'; exact hv'
  rcases h.decided k v hv with ⟨h1, h2, h3⟩ | ⟨p, hc, h'⟩
  · refine ⟨v, fin h3 h2, ?_⟩
    rcases choosePath_cheapest h1 with ⟨a, -⟩ | ⟨a, ⟨b, -⟩ | ⟨p, hp, ⟨e, -⟩ | ⟨-, e⟩⟩⟩
    · exact .carriesOn (.inl a) rfl
    · exact .carriesOn (.inr b) rfl
    · exact .keeps p a hp e rfl
    · cases e
  · obtain ⟨hne, hch⟩ : p.links ≠ v.route ∧ Cheapest s.links v v.pathfind.paths p := by
      rcases choosePath_cheapest hc.run with ⟨-, e⟩ | ⟨-, ⟨-, e⟩ | ⟨q, hq, ⟨-, e⟩ | ⟨e', e⟩⟩⟩
      · cases e
      · cases e
      · cases e
      · cases e; exact ⟨e', hq⟩
    rcases h' with ⟨h1, h2, h3⟩ | ⟨h1, h2, h3⟩
    · obtain ⟨v', hv', -, hs⟩ := h.vehs.fwd k v h3
      have hs := hs p h2
      refine ⟨v', hv', ?_⟩
      obtain ⟨link, e, l, off, sl, hl, hi, hlc⟩ := hs.geo
      obtain ⟨link', x, lc, pf, e', ev, hsrc, hdst, -⟩ := hs.ex
      rw [e] at e'; cases e'
      refine .changes p link l v'.pos off sl pf hc.lc hch e (fun h => h1 (e.trans h.symm)) hl hi hsrc hdst ?_
      rw [ev] at hlc ⊢
      dsimp only at hlc ⊢
      rw [hlc]
    · exact ⟨_, fin h3 h2, .takes p _ hc.lc hch hne h1 (matchedPrefix_common _ _) rfl⟩

/-- **C70** When the choice of paths is due, every vehicle that is not changing lanes takes the first of the cheapest of
its paths; if that path is on another lane, the vehicle starts to change to it. -/
theorem C70_choice [Env] [LawfulDijkstra] (h : Reach strict s) (hd : ¬ s.lcUpdate < 0.3)
    (hr : s.calculateLaneChanges = .ok s') {k : Key} {v : Vehicle F} (hv : s.vehicles.get? k = some v) :
    ∃ v', s'.vehicles.get? k = some v' ∧ Chooses s.links v v' := by
  rcases (calculateLaneChanges_phase (.inr trivial) (.inr trivial) h.inv : Spec _ (StepErr strict True True) _).ok hr with
    ⟨h1, -⟩ | ⟨-, vs, lcs, hl⟩
  · exact absurd h1 hd
  · exact hl.chooses hv

/-- What the rest of a step does to the route and the lane change of a vehicle that has chosen its path: `x` is where it
gets to on its link. -/
inductive Drives (links : LinkSet F) (dt : F) (v v' : Vehicle F) (x : F) : Prop
  | stays (a : Key) (l : Link F) : v.route.head? = some a → links.get? a = some l → ¬ l.length < x → v'.route = v.route →
      v'.pathfind = v.pathfind → v'.pos = x → v'.laneChange = v.laneChange.filter (fun lc => x < lc.endPos) →
      Drives links dt v v' x
  | passes (a : Key) (l : Link F) : v.route = a :: v'.route → links.get? a = some l → l.length < x → v'.route ≠ [] →
      some v'.pathfind.src = v'.route.head? → v'.pathfind.dst = v.pathfind.dst → v'.pos = x - l.length →
      v'.laneChange = (v.laneChange.filter (fun lc => x < lc.endPos)).map
        (fun lc => ⟨lc.endPos - l.length, lc.offset.translateX l.length⟩) → Drives links dt v v' x

theorem StepRun.chooses [Env] {s1 s2 s3 s4 s5 s6 : Sim F} (hr : StepRun strict s dt s1 s2 s3 s4 s5 s6 s') {k : Key}
    {v v1 : Vehicle F} (hv : s.vehicles.get? k = some v) (hv1 : s1.vehicles.get? k = some v1) :
    (s.lcUpdate < laneChangeUpdateSec ∧ v1 = v) ∨ (¬ s.lcUpdate < laneChangeUpdateSec ∧ Chooses s.links v v1) := by
  rcases hr.lanes with ⟨h1, e⟩ | ⟨h1, vs, lcs, hl⟩
  · refine .inl ⟨h1, ?_⟩
    rw [e, hv] at hv1; cases hv1; rfl
  · obtain ⟨u, hu, hc⟩ := hl.chooses hv
    rw [hv1] at hu; cases hu
    exact .inr ⟨h1, hc⟩

theorem integrate_motion {v v' : Vehicle F} {sq sq' : Nat} (h : v.integrate dt sq = .ok (v', sq')) :
    v'.vel = fmax (v.vel + dt * v.acc.getAcc) 0.0 ∧ v'.pos = v.pos + 0.5 * (v.vel + v'.vel) * dt ∧
    v'.route = v.route ∧ v'.pathfind = v.pathfind ∧ v'.canExit = v.canExit ∧
    v'.laneChange = v.laneChange.filter (fun lc => v'.pos < lc.endPos) ∧
    v'.stopCnt = if v'.vel < 0.1 then v.stopCnt + 1 else 0 := by
  unfold Vehicle.integrate at h
  rw [M_bind_ok] at h
  obtain ⟨⟨u, q⟩, hu, h⟩ := h
  have hq : ∃ qd e, u = { v with queued := qd, entered := e, willQueueOrEnter := 0 } := by
    unfold Vehicle.integrateQueue at hu
    split at hu
    all_goals first | cases hu; exact ⟨_, _, rfl⟩ | cases hu
  obtain ⟨qd, e, rfl⟩ := hq
  simp only [M_pure_ok, Prod.mk.injEq] at h
  obtain ⟨rfl, -⟩ := h
  unfold Vehicle.integrateMotion Vehicle.updateStopCount
  dsimp only
  have key : ∀ x : F, (match v.laneChange with
      | some lc => if x < lc.endPos then some lc else none
      | none => none) = v.laneChange.filter (fun lc => x < lc.endPos) := by
    intro x
    cases v.laneChange with
    | none => rfl
    | some lc => simp [Option.filter]
  split
  · rename_i hs
    exact ⟨rfl, rfl, rfl, rfl, rfl, key _, rfl⟩
  · rename_i hs
    exact ⟨rfl, rfl, rfl, rfl, rfl, key _, rfl⟩

/-- **C70** In a step, a vehicle first chooses its path, if that is due; it then follows this path. It leaves a link exactly
when it gets past its end, and finishes changing lanes exactly when it gets to where the lane change ends. -/
theorem C70_drive [Env] [LawfulDijkstra] (h : Reach strict s) (hst : s.step dt = .ok s') {k : Key} {v v' : Vehicle F}
    (hv : s.vehicles.get? k = some v) (hv' : s'.vehicles.get? k = some v') :
    ∃ v1, ((s.lcUpdate < 0.3 ∧ v1 = v) ∨ (¬ s.lcUpdate < 0.3 ∧ Chooses s.links v v1)) ∧
      v1.vel = v.vel ∧ v'.canExit = v1.canExit ∧ Drives s.links dt v1 v' (v1.pos + 0.5 * (v.vel + v'.vel) * dt) := by
  obtain ⟨s1, s2, s3, s4, s5, s6, hr⟩ := (step_spec h.inv dt).ok hst
  obtain ⟨v1, v2, v4, ht⟩ := hr.trace hv
  have hc := hr.chooses hv ht.get1
  have e1 : v1.vel = v.vel := by
    rcases hc with ⟨-, e⟩ | ⟨-, hc⟩
    · rw [e]
    · cases hc with
      | carriesOn _ e => rw [e]
      | keeps p _ _ _ e => rw [e]
      | takes p n _ _ _ _ _ e => rw [e]
      | changes p link l x off sl pf _ _ _ _ _ _ _ _ e => rw [e]
  obtain ⟨a, w, e2⟩ : ∃ a w, v2 = { v1 with acc := a, willQueueOrEnter := w } := by
    rcases ht.acc with ⟨-, -, e⟩ | ⟨-, n0, n1, vs, -, ha⟩
    · exact ⟨v1.acc, v1.willQueueOrEnter, e⟩
    · obtain ⟨a, w, e, -⟩ := ha.eq
      exact ⟨_, w, e⟩
  obtain ⟨sq, sq', hm, -⟩ := ht.move
  obtain ⟨-, m1, m2, m3, m4, m5, -⟩ := integrate_motion hm
  rw [e2] at m1 m2 m3 m4 m5
  dsimp only at m1 m2 m3 m4 m5
  refine ⟨v1, hc, e1, ?_⟩
  rw [← e1]
  have hlen : ∀ {a : Key} {l : Link F}, s4.links.get? a = some l → ∃ l0, s.links.get? a = some l0 ∧ l0.length = l.length := by
    intro a l hl
    obtain ⟨l0, h0, hf⟩ := hr.frame4.bwd hl
    exact ⟨l0, h0, by unfold Link.length; rw [hf.curve]⟩
  cases ht.out with
  | stays u hu hp hstay =>
    rw [hv'] at hu; cases hu
    obtain ⟨p, d, r, c, ev⟩ := hp
    obtain ⟨b, l, hb, hl, hlt⟩ := hstay
    obtain ⟨l0, hl0, el⟩ := hlen hl
    rw [ev]
    dsimp only
    refine ⟨m4, .stays b l0 (by rw [← m2]; exact hb) hl0 (by rw [el, ← m1]; exact hlt) m2 m3 m1 ?_⟩
    rw [← m1]; exact m5
  | passes v5 u hp hne hu hpl =>
    rw [hv'] at hu; cases hu
    obtain ⟨b, rest, l, pf, hroute, hl, hlt, e5, -, hpf⟩ := hp.ex
    obtain ⟨p, d, r, c, ev⟩ := hpl
    obtain ⟨l0, hl0, el⟩ := hlen hl
    rw [e5] at hne
    dsimp only at hne
    rw [ev, e5]
    dsimp only
    have hrest : ∃ k', rest.head? = some k' := by
      cases rest with
      | nil => exact absurd rfl hne
      | cons k' _ => exact ⟨k', rfl⟩
    obtain ⟨k', hk'⟩ := hrest
    obtain ⟨hsrc, hdst, -⟩ := hpf k' hk'
    refine ⟨m4, .passes b l0 (by rw [← m2]; exact hroute) hl0 (by rw [el, ← m1]; exact hlt) hne
      (by dsimp only; rw [hsrc, hk']) (by dsimp only; rw [hdst, m3]) (by dsimp only; rw [← m1, el]) ?_⟩
    dsimp only
    rw [← m1, m5, el]
  | leaves v5 _ _ hn => rw [hn] at hv'; cases hv'

/-- **C71** A step counts how long a vehicle has been standing: the count goes up by one if the vehicle is slower than
0.1 m/s at the end of the step, and starts anew otherwise. -/
theorem C71_count [Env] [LawfulDijkstra] (h : Reach strict s) (hst : s.step dt = .ok s') {k : Key} {v v' : Vehicle F}
    (hv : s.vehicles.get? k = some v) (hv' : s'.vehicles.get? k = some v') :
    v'.stopCnt = if v'.vel < 0.1 then v.stopCnt + 1 else 0 := by
  obtain ⟨s1, s2, s3, s4, s5, s6, hr⟩ := (step_spec h.inv dt).ok hst
  obtain ⟨v1, v2, v4, ht⟩ := hr.trace hv
  have e1 : v1.stopCnt = v.stopCnt := by
    rcases hr.chooses hv ht.get1 with ⟨-, e⟩ | ⟨-, hc⟩
    · rw [e]
    · cases hc with
      | carriesOn _ e => rw [e]
      | keeps p _ _ _ e => rw [e]
      | takes p n _ _ _ _ _ e => rw [e]
      | changes p link l x off sl pf _ _ _ _ _ _ _ _ e => rw [e]
  have e2 : v2.stopCnt = v1.stopCnt := by
    rcases ht.acc with ⟨-, -, e⟩ | ⟨-, n0, n1, vs, -, ha⟩
    · rw [e]
    · obtain ⟨a, w, e, -⟩ := ha.eq
      rw [e]
  obtain ⟨sq, sq', hm, -⟩ := ht.move
  have m := (integrate_motion hm).2.2.2.2.2.2
  rw [e2, e1] at m
  cases ht.out with
  | stays u hu hp hstay =>
    rw [hv'] at hu; cases hu
    obtain ⟨p, d, r, c, ev⟩ := hp
    rw [ev]; exact m
  | passes v5 u hp hne hu hpl =>
    rw [hv'] at hu; cases hu
    obtain ⟨b, rest, l, pf, hroute, hl, hlt, e5, -, hpf⟩ := hp.ex
    obtain ⟨p, d, r, c, ev⟩ := hpl
    rw [ev, e5]; exact m
  | leaves v5 _ _ hn => rw [hn] at hv'; cases hv'

/-- **C70** (exact arithmetic) A vehicle that is changing lanes keeps its route. It is done exactly when it has covered what
was left of the lane change; until then its distance from the middle of the lane follows the same curve. -/
theorem C70_changing [Env] [LawfulDijkstra] {s s' : Sim ℝ} {dt : ℝ} (h : Reach strict s) (hst : s.step dt = .ok s') {k : Key}
    {v v' : Vehicle ℝ} {lc : LaneChange ℝ} (hv : s.vehicles.get? k = some v) (hlc : v.laneChange = some lc)
    (hv' : s'.vehicles.get? k = some v') :
    v'.canExit = v.canExit ∧ (v'.route = v.route ∨ ∃ a, v.route = a :: v'.route) ∧
    (v'.laneChange = none ↔ lc.endPos - v.pos ≤ (v.vel + v'.vel) / 2 * dt) ∧
    ∀ lc', v'.laneChange = some lc' → lc'.endPos - v'.pos = lc.endPos - v.pos - (v.vel + v'.vel) / 2 * dt ∧
      ∀ y, lc'.offset.y (v'.pos + y) = lc.offset.y (v.pos + (v.vel + v'.vel) / 2 * dt + y) := by
  obtain ⟨v1, hc, -, he, hd⟩ := C70_drive h hst hv hv'
  obtain rfl : v1 = v := by
    rcases hc with ⟨-, e⟩ | ⟨-, hc⟩
    · exact e
    · cases hc with
      | carriesOn _ e => exact e
      | keeps p e => rw [hlc] at e; cases e
      | takes p n e => rw [hlc] at e; cases e
      | changes p link l x off sl pf e => rw [hlc] at e; cases e
  have hx : v1.pos + 0.5 * (v1.vel + v'.vel) * dt = v1.pos + (v1.vel + v'.vel) / 2 * dt := by
    have : (0.5 : ℝ) = 1 / 2 := by norm_num
    rw [this]; ring
  rw [hx] at hd
  refine ⟨he, ?_⟩
  cases hd with
  | stays a l _ _ _ hr _ hp h' =>
    rw [hlc, Option.filter] at h'
    refine ⟨.inl hr, ?_⟩
    split at h'
    · rename_i hlt
      have hlt := of_decide_eq_true hlt
      refine ⟨⟨fun e => (by rw [h'] at e; cases e), fun e => absurd hlt (by linarith)⟩, fun lc' e => ?_⟩
      rw [h'] at e; cases e
      exact ⟨by rw [hp]; ring, fun y => by rw [hp]⟩
    · rename_i hlt
      have hlt : ¬ _ := fun h => hlt (decide_eq_true h)
      exact ⟨⟨fun _ => by linarith, fun _ => h'⟩, fun lc' e => by rw [h'] at e; cases e⟩
  | passes a l hr _ _ _ _ _ hp h' =>
    rw [hlc, Option.filter] at h'
    refine ⟨.inr ⟨a, hr⟩, ?_⟩
    split at h'
    · rename_i hlt
      have hlt := of_decide_eq_true hlt
      refine ⟨⟨fun e => (by rw [h'] at e; cases e), fun e => absurd hlt (by linarith)⟩, fun lc' e => ?_⟩
      rw [h'] at e; cases e
      refine ⟨by rw [hp]; dsimp only; ring, fun y => ?_⟩
      rw [hp]
      unfold CubicFn.y CubicFn.yAndDy CubicFn.translateX
      dsimp only
      ring
    · rename_i hlt
      have hlt : ¬ _ := fun h => hlt (decide_eq_true h)
      exact ⟨⟨fun _ => by linarith, fun _ => h'⟩, fun lc' e => by rw [h'] at e; cases e⟩

namespace Town

attribute [local instance] env

/-- A car changes lanes in this step, and another one stands still. -/
def choiceTest (s s' : Sim Float) : Bool :=
  test s s' && decide (¬ s.lcUpdate < 0.3) && (match s.calculateLaneChanges with
    | .ok s1 => route s1 0 == [0, 2]
    | .error _ => false) &&
  match s.vehicles.get? ⟨0, 1⟩, s'.vehicles.get? ⟨0, 1⟩, s.vehicles.get? ⟨1, 1⟩, s'.vehicles.get? ⟨1, 1⟩ with
  | some v, some v', some w, some w' => v.laneChange.isNone && v.pathfind.paths.length == 2 && v'.laneChange.isSome &&
      w.stopCnt == 1 && w'.stopCnt == 2
  | _, _, _, _ => false

theorem chooses : ∃ s s' : Sim Float, Reach True s ∧ Allowed True s (.step 0.2) ∧ s.exec (.step 0.2) = .ok s' ∧
    Reach True s' ∧ choiceTest s s' = true :=
  trial_reach (ops := run 2) (by decide +kernel)

/-- The hypotheses of C70_choice, C70_drive and C71_count can be met: one car has two paths and changes lanes, and another
one has been standing for one step. -/
example : ∃ s s1 s' : Sim Float, ∃ v v' w w', Reach True s ∧ s.step 0.2 = .ok s' ∧ ¬ s.lcUpdate < 0.3 ∧
    s.calculateLaneChanges = .ok s1 ∧ s.vehicles.get? ⟨0, 1⟩ = some v ∧ s'.vehicles.get? ⟨0, 1⟩ = some v' ∧
    s.vehicles.get? ⟨1, 1⟩ = some w ∧ s'.vehicles.get? ⟨1, 1⟩ = some w' ∧ v.laneChange = none ∧
    v.pathfind.paths.length = 2 ∧ v'.laneChange.isSome ∧ w.stopCnt = 1 ∧ w'.stopCnt = 2 := by
  obtain ⟨s, s', hr, -, he, -, ht⟩ := chooses
  simp only [choiceTest, Bool.and_eq_true, decide_eq_true_eq] at ht
  obtain ⟨⟨⟨-, h1⟩, h2⟩, h3⟩ := ht
  split at h2
  · rename_i s1 hs1
    split at h3
    · rename_i v v' w w' a b c d
      simp only [Bool.and_eq_true, beq_iff_eq, Option.isNone_iff_eq_none] at h3
      obtain ⟨⟨⟨⟨e1, e2⟩, e3⟩, e4⟩, e5⟩ := h3
      exact ⟨s, s1, s', v, v', w, w', hr, he, h1, hs1, a, b, c, d, e1, e2, e3, e4, e5⟩
    · cases h3
  · cases h2

end Town

end TrafficSim
