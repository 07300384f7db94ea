import Verif.Props.Trapped

/-! # C96: how fast vehicles are where a lower speed limit begins -/

namespace TrafficSim

/-- At all times until `r`, something at the speed `v` and `d` metres before a point, that has the acceleration `a` and does not stop, is not
faster than the square root of `B` of the distance. -/
def Under (B : ℝ → ℝ) (d v a r : ℝ) : Prop := ∀ t, 0 ≤ t → t ≤ r → 0 ≤ v + a * t → (v + a * t) ^ 2 ≤ B (d - (v * t + a * t ^ 2 / 2))

theorem Under.mono {B : ℝ → ℝ} {d v a r r' : ℝ} (h : Under B d v a r) (hr : r' ≤ r) : Under B d v a r' :=
  fun t h0 h1 => h t h0 (h1.trans hr)

theorem Under.weaken {B B' : ℝ → ℝ} {d v a r : ℝ} (h : Under B d v a r) (hB : ∀ x, B x ≤ B' x) : Under B' d v a r :=
  fun t h0 h1 h2 => (h t h0 h1 h2).trans (hB _)

theorem Under.now {B : ℝ → ℝ} {d v a r : ℝ} (h : Under B d v a r) (hr : 0 ≤ r) (hv : 0 ≤ v) : v ^ 2 ≤ B d := by
  have := h 0 le_rfl hr (by simpa using hv)
  simpa using this

theorem Under.after {B : ℝ → ℝ} {d v a r v' dt : ℝ} (h : Under B d v a r) (hB : ∀ x, 0 ≤ B x) (hv : 0 ≤ v) (hdt : 0 ≤ dt)
    (hv' : v' = max (v + dt * a) 0) : Under B (d - (v + v') / 2 * dt) v' a (r - dt) := by
  intro t h0 h1 h2
  by_cases hs : 0 ≤ v + dt * a
  · rw [max_eq_left hs] at hv'
    have := h (t + dt) (by linarith) (by linarith) (by rw [hv'] at h2; linarith)
    have e1 : v' + a * t = v + a * (t + dt) := by rw [hv']; ring
    have e2 : d - (v + v') / 2 * dt - (v' * t + a * t ^ 2 / 2) = d - (v * (t + dt) + a * (t + dt) ^ 2 / 2) := by rw [hv']; ring
    rw [e1, e2]; exact this
  · push Not at hs
    rw [max_eq_right hs.le] at hv'
    have ha : a < 0 := by
      by_contra hn
      have := mul_nonneg hdt (not_lt.1 hn)
      linarith
    have : t = 0 := by
      rw [hv'] at h2
      by_contra hn
      have : a * t < 0 := mul_neg_of_neg_of_pos ha (lt_of_le_of_ne h0 (Ne.symm hn))
      linarith
    subst this
    rw [hv']
    simpa using hB _

/-- The way until the time `t`. -/
theorem way_bound {v a t h A : ℝ} (hv : 0 ≤ v) (h0 : 0 ≤ t) (h1 : t ≤ h) (h2 : 0 ≤ v + a * t) (ha : a ≤ A) (hA : 0 ≤ A) :
    0 ≤ v * t + a * t ^ 2 / 2 ∧ v * t + a * t ^ 2 / 2 ≤ (v + A * h / 2) * h := by
  have e : v * t + a * t ^ 2 / 2 = (v + (v + a * t)) / 2 * t := by ring
  have h3 : a * t ≤ A * h := (mul_le_mul_of_nonneg_right ha h0).trans (mul_le_mul_of_nonneg_left h1 hA)
  rw [e]
  constructor
  · positivity
  · calc (v + (v + a * t)) / 2 * t ≤ (v + A * h / 2) * t := mul_le_mul_of_nonneg_right (by linarith) h0
      _ ≤ (v + A * h / 2) * h := mul_le_mul_of_nonneg_left h1 (by have := mul_nonneg hA (h0.trans h1); linarith)

/-- By how much the square of the speed of a vehicle may exceed that of the speed limit `lim` that begins ahead.  `A` is its maximum
acceleration, `M` the deceleration with which it brakes at most, and `h` the time between two decisions. -/
noncomputable def excess (A M lim h : ℝ) : ℝ := 2 * (A + M) * h * (lim + A * h / 2)

/-- The bound on the square of the speed at the distance `x` before the limit, of a vehicle that has entered the link where it begins -/
noncomputable def boundIn (A M lim h x : ℝ) : ℝ := lim ^ 2 + excess A M lim h + 2 * M * max x 0

/-- The same, of a vehicle that has not. -/
noncomputable def boundOut (A c M lim h V x : ℝ) : ℝ :=
  if x < 0 then lim ^ 2 + excess A M lim h else max 0 (2 * c * (x - 7.5) + 2 * (A + c) * (V + A * h / 2) * h)

/-- Conditions on the parameters of a vehicle.  `c` is its comfortable deceleration, and `V` bounds its speed. -/
structure Gentle (A c M lim h V : ℝ) : Prop where
  acc : 0 ≤ A
  comf : 0 < c
  hard : c ≤ M
  limit : 0 < lim
  time : 0 ≤ h
  speed : 0 ≤ V
  small : (A + M) * h * c ≤ (M - c) * lim
  room : 4 * (A + c) * (V + A * h / 2) * h ≤ 15 * c + lim ^ 2 + excess A M lim h

section
variable {A c M lim h V d v a : ℝ}

theorem Gentle.excess_nonneg (g : Gentle A c M lim h V) : 0 ≤ excess A M lim h := by
  have h1 := g.acc; have h2 := g.comf; have h3 := g.hard; have h4 := g.limit; have h5 := g.time
  unfold excess
  have : 0 ≤ A + M := by linarith
  positivity

theorem Gentle.in_nonneg (g : Gentle A c M lim h V) (x : ℝ) : 0 ≤ boundIn A M lim h x := by
  have h1 := g.excess_nonneg; have h2 := g.comf; have h3 := g.hard
  unfold boundIn
  have : 0 ≤ M * max x 0 := mul_nonneg (by linarith) (le_max_right _ _)
  have := sq_nonneg lim
  linarith

theorem Gentle.out_nonneg (g : Gentle A c M lim h V) (x : ℝ) : 0 ≤ boundOut A c M lim h V x := by
  have h1 := g.excess_nonneg
  unfold boundOut
  split
  · have := sq_nonneg lim
    linarith
  · exact le_max_left _ _

theorem Gentle.way (g : Gentle A c M lim h V) : 0 ≤ 2 * (A + c) * (V + A * h / 2) * h := by
  have h1 := g.acc; have h2 := g.comf; have h3 := g.speed; have h5 := g.time
  positivity

theorem Gentle.out_le (g : Gentle A c M lim h V) (x : ℝ) : boundOut A c M lim h V x ≤ boundIn A M lim h x := by
  have h0 := g.in_nonneg x
  unfold boundOut
  split
  · rename_i hx
    unfold boundIn
    rw [max_eq_right hx.le]; linarith
  · rename_i hx
    refine max_le h0 ?_
    unfold boundIn
    rw [max_eq_left (not_lt.1 hx)]
    have h1 := g.room; have h2 := g.way; have h3 := mul_le_mul_of_nonneg_right g.hard (not_lt.1 hx)
    linarith

theorem sq_move (v a t : ℝ) : (v + a * t) ^ 2 = v ^ 2 + 2 * a * (v * t + a * t ^ 2 / 2) := by ring

/-- A vehicle that is slow enough to slow down comfortably, whatever it does. -/
theorem Gentle.slow (g : Gentle A c M lim h V) (hv : 0 ≤ v) (hd : 0 ≤ d) (hs : v ^ 2 ≤ lim ^ 2 + 2 * c * d) (ha : a ≤ A) :
    Under (boundIn A M lim h) d v a h := by
  intro t h0 h1 h2
  obtain ⟨n0, n1⟩ := way_bound hv h0 h1 h2 ha g.acc
  rw [sq_move]
  generalize v * t + a * t ^ 2 / 2 = w at *
  have hc := g.comf
  have hl := g.limit
  have hv' : v ≤ lim + c * d / lim := by
    refine abs_le_of_sq_le_sq' ?_ (by positivity) |>.2
    have : (lim + c * d / lim) ^ 2 = lim ^ 2 + 2 * c * d + (c * d / lim) ^ 2 := by field_simp; ring
    have := sq_nonneg (c * d / lim)
    linarith
  have k1 : 2 * (A + M) * w ≤ excess A M lim h + 2 * (M - c) * d := by
    have hAM : 0 ≤ A + M := by have := g.acc; have := g.hard; linarith
    have e1 : 2 * (A + M) * w ≤ 2 * (A + M) * ((lim + c * d / lim + A * h / 2) * h) := by
      refine mul_le_mul_of_nonneg_left (n1.trans (mul_le_mul_of_nonneg_right ?_ g.time)) (by linarith)
      linarith
    have e2 : 2 * (A + M) * ((lim + c * d / lim + A * h / 2) * h) = excess A M lim h + 2 * ((A + M) * h * c) * (d / lim) := by
      unfold excess; ring
    have e3 : (A + M) * h * c * (d / lim) ≤ (M - c) * lim * (d / lim) := mul_le_mul_of_nonneg_right g.small (by positivity)
    have e4 : (M - c) * lim * (d / lim) = (M - c) * d := by field_simp
    linarith
  have k2 : a * w ≤ A * w := mul_le_mul_of_nonneg_right ha n0
  unfold boundIn
  by_cases hw : w ≤ d
  · rw [max_eq_left (by linarith)]
    linarith
  · rw [max_eq_right (by linarith)]
    have : M * d ≤ M * w := mul_le_mul_of_nonneg_left (by linarith) (by have := g.hard; linarith)
    linarith

/-- A vehicle that brakes as is needed. -/
theorem Gentle.brakes (g : Gentle A c M lim h V) {need : ℝ} (hv : 0 ≤ v) (hs : v ^ 2 ≤ lim ^ 2 + 2 * need * d) (hn : c ≤ need)
    (hM : need ≤ M) (ha : a ≤ -need) : Under (boundIn A M lim h) d v a h := by
  intro t h0 h1 h2
  obtain ⟨n0, -⟩ := way_bound hv h0 h1 h2 (ha.trans (by have := g.comf; have := g.acc; linarith)) g.acc
  rw [sq_move]
  generalize v * t + a * t ^ 2 / 2 = w at *
  have k2 : a * w ≤ -need * w := mul_le_mul_of_nonneg_right ha n0
  have hc := g.comf
  have he := g.excess_nonneg
  unfold boundIn
  by_cases hw : w ≤ d
  · rw [max_eq_left (by linarith)]
    have : need * (d - w) ≤ M * (d - w) := mul_le_mul_of_nonneg_right hM (by linarith)
    linarith
  · rw [max_eq_right (by linarith)]
    have : need * d ≤ need * w := mul_le_mul_of_nonneg_left (by linarith) (by linarith)
    linarith

/-- A vehicle that brakes as hard as it does for a speed limit. -/
theorem Gentle.hardest (g : Gentle A c M lim h V) (hv : 0 ≤ v) (hs : v ^ 2 ≤ boundIn A M lim h d) (hd : 0 ≤ d) (ha : a ≤ -M) :
    Under (boundIn A M lim h) d v a h := by
  intro t h0 h1 h2
  have hM : 0 ≤ M := g.comf.le.trans g.hard
  obtain ⟨n0, -⟩ := way_bound hv h0 h1 h2 (ha.trans (by have := g.acc; linarith)) g.acc
  rw [sq_move]
  generalize v * t + a * t ^ 2 / 2 = w at *
  have k2 : a * w ≤ -M * w := mul_le_mul_of_nonneg_right ha n0
  unfold boundIn at *
  rw [max_eq_left hd] at hs
  have : M * (d - w) ≤ M * max (d - w) 0 := mul_le_mul_of_nonneg_left (le_max_left _ _) hM
  linarith

/-- A vehicle at the line that does not get faster. -/
theorem Gentle.atLine (g : Gentle A c M lim h V) (hv : 0 ≤ v) (hs : v ^ 2 ≤ boundIn A M lim h 0) (ha : a ≤ 0) :
    Under (boundIn A M lim h) 0 v a h := by
  intro t h0 h1 h2
  obtain ⟨n0, -⟩ := way_bound hv h0 h1 h2 (ha.trans g.acc) g.acc
  rw [sq_move]
  generalize v * t + a * t ^ 2 / 2 = w at *
  have k2 : a * w ≤ 0 := mul_nonpos_of_nonpos_of_nonneg ha n0
  have hM : 0 ≤ M := g.comf.le.trans g.hard
  have : 0 ≤ M * max (0 - w) 0 := mul_nonneg hM (le_max_right _ _)
  unfold boundIn at *
  rw [max_self] at hs
  linarith

/-- A vehicle that can stop, whatever it does. -/
theorem Gentle.canStop (g : Gentle A c M lim h V) (hv : 0 ≤ v) (hV : v ≤ V) (hs : v ^ 2 ≤ 2 * c * (d - 7.5)) (ha : a ≤ A) :
    Under (boundOut A c M lim h V) d v a h := by
  intro t h0 h1 h2
  obtain ⟨n0, n1⟩ := way_bound hv h0 h1 h2 ha g.acc
  rw [sq_move]
  generalize v * t + a * t ^ 2 / 2 = w at *
  have k2 : a * w ≤ A * w := mul_le_mul_of_nonneg_right ha n0
  have hc := g.comf
  have n2 : w ≤ (V + A * h / 2) * h := n1.trans (mul_le_mul_of_nonneg_right (by linarith) g.time)
  have n3 : 2 * (A + c) * w ≤ 2 * (A + c) * (V + A * h / 2) * h := by
    have := mul_le_mul_of_nonneg_left n2 (show 0 ≤ 2 * (A + c) by have := g.acc; linarith)
    linarith
  unfold boundOut
  split
  · rename_i hx
    have : c * d ≤ c * w := mul_le_mul_of_nonneg_left (by linarith) hc.le
    have := g.room; have := g.way
    norm_num at hs
    linarith
  · refine le_max_of_le_right ?_
    linarith

/-- A vehicle that cannot stop any more, in the time until it is told that it may enter the link. -/
theorem Gentle.enters (g : Gentle A c M lim h V) (hv : 0 ≤ v) (hV : v ≤ V) (hd : 0 ≤ d) (hs : v ^ 2 ≤ boundOut A c M lim h V d) (ha : a ≤ A) :
    Under (boundIn A M lim h) d v a h := by
  intro t h0 h1 h2
  obtain ⟨n0, n1⟩ := way_bound hv h0 h1 h2 ha g.acc
  rw [sq_move]
  generalize v * t + a * t ^ 2 / 2 = w at *
  have k2 : a * w ≤ A * w := mul_le_mul_of_nonneg_right ha n0
  have hc := g.comf
  have hM := g.hard
  have n2 : w ≤ (V + A * h / 2) * h := n1.trans (mul_le_mul_of_nonneg_right (by linarith) g.time)
  have n3 : 2 * (A + c) * w ≤ 2 * (A + c) * (V + A * h / 2) * h := by
    have := mul_le_mul_of_nonneg_left n2 (show 0 ≤ 2 * (A + c) by have := g.acc; linarith)
    linarith
  have hroom := g.room
  have hA := g.acc
  have hh := g.time
  have hmax : 0 ≤ M * max (d - w) 0 := mul_nonneg (by linarith) (le_max_right _ _)
  unfold boundOut at hs
  rw [if_neg (not_lt.2 hd)] at hs
  unfold boundIn
  rcases le_max_iff.1 hs with hs | hs
  · have hv0 : v = 0 := by
      have := le_antisymm hs (sq_nonneg v)
      exact pow_eq_zero_iff (two_ne_zero) |>.1 this
    rw [hv0] at n1
    have e1 : 2 * A * w ≤ 2 * A * ((0 + A * h / 2) * h) := mul_le_mul_of_nonneg_left n1 (by linarith)
    have e2 : 2 * A * ((0 + A * h / 2) * h) ≤ excess A M lim h := by
      have hl := g.limit
      have : 0 ≤ M := by linarith
      have p1 : 0 ≤ 2 * M * h * (lim + A * h / 2) := by positivity
      have p2 : 0 ≤ 2 * A * h * lim := by positivity
      unfold excess
      linarith
    have := sq_nonneg lim
    linarith
  · norm_num at hs
    by_cases hw : w ≤ d
    · rw [max_eq_left (by linarith)]
      have : c * (d - w) ≤ M * (d - w) := mul_le_mul_of_nonneg_right hM (by linarith)
      linarith
    · have : c * d ≤ c * w := mul_le_mul_of_nonneg_left (by linarith) hc.le
      linarith

end

section
variable {F : Type} [Flt F] {strict : Prop} {s s' s1 : Sim F} {dt : F} {k : Key} {v1 v' : Vehicle F} {i : Nat} {k0 lk : Key} {pos : F}
  {l l0 : Link F} {pre post : List Key}

/-- As `C66_limit`, of a vehicle whose middle is at the start of `k0` or past it. -/
theorem limit_reached [Env] [LawfulDijkstra] (h : Reach strict s) (hst : s.step dt = .ok s') (hre : ¬ s.accUpdate < 0.1)
    (hlanes : s.calculateLaneChanges = .ok s1) (hv1 : s1.getVehicle k = .ok v1) (hv' : s'.getVehicle k = .ok v')
    (hclear : ClearTo s1 v1 i k0 i lk pos) (hl0 : s1.getLinkRef k0 = .ok l0)
    (hl : s1.getLinkRef lk = .ok l) (hvs : l.vehicles = pre ++ k :: post)
    (hpost : ∀ a ∈ post, ∀ w, s1.getVehicle a = .ok w → ¬ w.posFront < pos - 5.0 * l.speedLimit ∧ w.route[i]? ≠ some k0)
    (hnear : ¬ v1.posFront < pos - 5.0 * l.speedLimit) (hent : i < v1.entered ∨ ¬ l.length < pos)
    (hdist : pos + 0.0 - v1.pos ≤ 0.0) :
    v'.acc.acc = -6.0 ∨ ∃ as : List F, v1.acc.maxAcc * (1.0 - pow4 (v1.vel / (v1.acc.velAdj * l0.speedLimit))) ∈ as ∧
      v'.acc.acc = as.foldl fmin v1.acc.maxAcc := by
  refine capped_step h hst hre hlanes hv1 hv' fun hi hsym n0 n1 vs s2 hr =>
    hr.entering hi hsym (getVeh_ok.1 hv1) hclear (getLink_ok.1 hl0) (getLink_ok.1 hl) hvs
      (fun a ha w hw => hpost a ha w (getVeh_ok.2 hw)) hnear hent ?_
  intro vs b c r p hm rk rp hp
  have hcap : Capped k (v1.acc.maxAcc * (1.0 - pow4 (v1.vel / (v1.acc.velAdj * l0.speedLimit)))) vs
        (r.applySpeedLimit l0.speedLimit 0.0 vs) := by
    intro v hv
    obtain ⟨v2, hv2, x2, y2, rfl⟩ := hm.fwd k v1 (getVeh_ok.1 hv1)
    rw [hv2] at hv; cases hv
    refine ⟨_, [v1.acc.maxAcc * (1.0 - pow4 (v1.vel / (v1.acc.velAdj * l0.speedLimit)))], ?_, by simp, y2, rfl⟩
    rw [RelVeh.applySpeedLimit, rk, rp, SlotMap.get?_modify_self, hv2, Option.map_some, Option.some_inj]
    exact congrArg (fun m => ({ v1.reset with acc := m, willQueueOrEnter := y2 } : Vehicle F))
      (if_pos (c := pos + 0.0 - v1.pos ≤ 0.0) hdist)
  unfold Link.enteringFn at hp
  dsimp only at hp
  split at hp
  · rw [M_pure_ok] at hp; subst hp; exact hcap
  · rw [M_bind_ok] at hp
    obtain ⟨ld, -, hp⟩ := hp
    rw [M_pure_ok] at hp; subst hp
    exact hcap.before ⟨fun _ _ => True, SRel.modify (SRel.refl fun _ _ _ => VehAcc.rfl') r.key _
      fun _ _ _ _ hr => hr.followVehicle _ _⟩

omit [Flt F] in
theorem matchedPrefix_two {a b : Key} {r r' : List Key} : 2 ≤ Vehicle.matchedPrefix (a :: b :: r) (a :: b :: r') := by
  simp [Vehicle.matchedPrefix]

/-- A vehicle whose next link is the same after lane changes is not made to forget that it has entered it. -/
theorem Steered.keeps {links : LinkSet F} {v v1 : Vehicle F} (h : Steered links v v1) {a b : Key} {r r' : List Key}
    (hr : v.route = a :: b :: r) (hr' : v1.route = a :: b :: r') :
    (2 ≤ v.entered → 2 ≤ v1.entered) ∧ (v.entered = 1 → v1.entered = 1) := by
  rcases h with (rfl | ⟨p, -, -, rfl⟩) | ⟨p, -, hne, hs⟩
  · exact ⟨id, id⟩
  · have e : p.links = a :: b :: r' := hr'
    have : 2 ≤ Vehicle.matchedPrefix v.route p.links := by rw [hr, e]; exact matchedPrefix_two
    constructor
    · intro h
      exact le_min h this
    · intro h
      show min v.entered _ = 1
      rw [h]; exact min_eq_left (by omega)
  · obtain ⟨link, pos, lc, pf, -, rfl, -⟩ := hs.ex
    refine absurd ?_ hne
    have e : p.links = a :: b :: r' := hr'
    rw [hr, e]; rfl

end

section
variable {strict : Prop} {s s' : Sim ℝ} {dt : ℝ} {k lk nx : Key}

/-- Before and after lane changes the vehicle `k` is on the link `lk` and goes on to `nx`, which is open.  It is the first one on its
link. -/
def GoesTo [Env] (k lk nx : Key) (s : Sim ℝ) : Prop :=
  ∃ s1 v v1 l1 next pre r r1, s.getVehicle k = .ok v ∧ v.route = lk :: nx :: r ∧ s.calculateLaneChanges = .ok s1 ∧
    s1.getVehicle k = .ok v1 ∧ v1.route = lk :: nx :: r1 ∧ s1.getLinkRef lk = .ok l1 ∧ s1.getLinkRef nx = .ok next ∧
    next.control = .open_ ∧ l1.vehicles = pre ++ [k]

/-- The acceleration with which a vehicle that is about to enter `nx` drives, `d` metres before it. -/
theorem slows_acc {A c M lim h V d v a : ℝ} (g : Gentle A c M lim h V) (hM : M ≤ min (2 * c) 6) (hv : 0 ≤ v) (hd : 0 ≤ d)
    (hs : v ^ 2 ≤ boundIn A M lim h d) (hA : a ≤ A) (hline : d = 0 → lim < v → a ≤ 0)
    (hb : 0 < d → ∀ need, v ^ 2 - 2 * need * d = lim ^ 2 → c ≤ need → a ≤ -min (min need (2 * c)) 6) :
    Under (boundIn A M lim h) d v a h := by
  rcases hd.eq_or_lt with rfl | hd'
  · by_cases hl : lim < v
    · exact g.atLine hv hs (hline rfl hl)
    · refine g.slow hv le_rfl ?_ hA
      have := pow_le_pow_left₀ hv (not_lt.1 hl) 2
      linarith
  · have e : v ^ 2 - 2 * ((v ^ 2 - lim ^ 2) / (2 * d)) * d = lim ^ 2 := by field_simp; ring
    generalize (v ^ 2 - lim ^ 2) / (2 * d) = need at e
    by_cases hn : c ≤ need
    · have hb' := hb hd' need e hn
      have h1 := le_min_iff.1 hM
      by_cases hm : need ≤ M
      · refine g.brakes hv (need := need) (by linarith) hn hm (hb'.trans ?_)
        rw [min_eq_left (hm.trans h1.1), min_eq_left (hm.trans h1.2)]
      · refine g.hardest hv hs hd (hb'.trans ?_)
        exact neg_le_neg (le_min (le_min (not_le.1 hm).le h1.1) h1.2)
    · refine g.slow hv hd ?_ hA
      have := mul_le_mul_of_nonneg_right (not_le.1 hn).le hd
      linarith

/-- A vehicle on its way to `nx`, or arrived there. -/
def Slowed (lk : Key) (A c M lim h V len : ℝ) (s : Sim ℝ) (v : Vehicle ℝ) : Prop :=
  (v.linkId ≠ some lk ∧ v.vel ^ 2 ≤ lim ^ 2 + excess A M lim h) ∨
  (v.linkId = some lk ∧ v.pos ≤ len ∧
    ((2 ≤ v.entered ∧ Under (boundIn A M lim h) (len - v.pos) v.vel v.acc.getAcc (if s.accUpdate < 0.1 then h - s.accUpdate else 0)) ∨
    (v.entered = 1 ∧ Under (boundOut A c M lim h V) (len - v.pos) v.vel v.acc.getAcc (if s.accUpdate < 0.1 then h - s.accUpdate else 0))))

theorem GoesTo.slowed [Env] [LawfulDijkstra] {A c M lim h V : ℝ} {l next : Link ℝ} {v : Vehicle ℝ} (hg : GoesTo k lk nx s) (hs : Reach strict s)
    (hpos : ∀ a l, s.links.get? a = some l → 0 < l.length) (hne : nx ≠ lk) (hst : s.step dt = .ok s') (hdt : 0 ≤ dt) (hh : dt + 0.1 ≤ h)
    (hl : s.getLinkRef lk = .ok l) (hn : s.getLinkRef nx = .ok next) (hv : s.getVehicle k = .ok v) (hV : v.vel ≤ V) (hlen : 0 ≤ v.halfLen)
    (hA : v.acc.maxAcc = A) (hc : v.acc.comfDec = c) (hlim : v.acc.velAdj * next.speedLimit = lim) (hnx : 0 < next.speedLimit)
    (hM : M ≤ min (2 * c) 6) (g : Gentle A c M lim h V) (hfar : V ^ 2 ≤ 2 * c * (5 * l.speedLimit - 7.5))
    (hk : Slowed lk A c M lim h V l.length s v) :
    ∃ v', s'.getVehicle k = .ok v' ∧ v'.halfLen = v.halfLen ∧ (∃ a, v'.acc = { v.acc with acc := a }) ∧
      Slowed lk A c M lim h V l.length s' v' := by
  obtain ⟨s1, w, v1, l1, next1, pre, r, r1, hw, hroute, hlanes, hv1, hroute1, hl1, hn1, hopen, hvs⟩ := hg
  rw [hv] at hw; cases hw
  obtain ⟨s1', s2, s3, s4, s5, s6, hr⟩ := (step_spec hs.inv dt).ok hst
  rw [hr.run1] at hlanes; cases hlanes
  obtain ⟨v1', v2, v4, ht⟩ := hr.trace (getVeh_ok.1 hv)
  have g1 := ht.get1
  rw [getVeh_ok.1 hv1] at g1; cases g1
  obtain ⟨e1, e2, -⟩ := ht.steer.same
  have hreg : v.linkId = some lk := by unfold Vehicle.linkId; rw [hroute]; rfl
  have hreg1 : v1.linkId = v.linkId := by unfold Vehicle.linkId; rw [hroute, hroute1]; rfl
  obtain ⟨e3, -⟩ := ht.steer.stay hreg1
  have hL : LongLinks s.links := longLinks_real hpos
  obtain ⟨hr4, hentry⟩ := Trace.entry hr hL ht
  rw [hroute1] at hr4
  obtain ⟨v', hv'⟩ : ∃ v', s'.vehicles.get? k = some v' := by
    cases ht.out with
    | stays u hu _ _ => exact ⟨u, hu⟩
    | passes _ u _ _ hu _ => exact ⟨u, hu⟩
    | leaves v5 hp hnil _ =>
      obtain ⟨a, rest, l', pf, ha, -, -, rfl, -⟩ := hp.ex
      rw [hr4] at ha; cases ha
      cases hnil
  obtain ⟨hvel, hge, hsame, hacc, hhalf⟩ := step_speed hs hst hv (getVeh_ok.2 hv')
  obtain ⟨-, ea, -⟩ := ht.vel hv'
  refine ⟨v', getVeh_ok.2 hv', hhalf, hacc, ?_⟩
  have v0 := C20_speed hs hv
  norm_num at hh
  have hclk := hr.clocks.2.1
  obtain ⟨ll, hll, hfr⟩ := hr.frame1.frame.fwd lk l (getLink_ok.1 hl)
  rw [getLink_ok.1 hl1] at hll; cases hll
  obtain ⟨ln, hln, hfn⟩ := hr.frame1.frame.fwd nx next (getLink_ok.1 hn)
  rw [getLink_ok.1 hn1] at hln; cases hln
  have elen : l1.length = l.length := by unfold Link.length; rw [hfr.curve]
  have hend : ∀ B : ℝ → ℝ, (∀ x, 0 ≤ B x) → Under B (l.length - v.pos) v.vel v'.acc.getAcc (if s.accUpdate < 0.1 then h - s.accUpdate else h) →
      Under B (l.length - v.pos - (v.vel + v'.vel) / 2 * dt) v'.vel v'.acc.getAcc (if s'.accUpdate < 0.1 then h - s'.accUpdate else 0) := by
    intro B hB hu
    refine (hu.after hB v0 hdt hvel).mono ?_
    by_cases hlt : s.accUpdate < 0.1
    · rw [if_pos hlt]
      replace hclk := hclk.trans (if_pos hlt)
      have hlt' := hlt
      norm_num at hlt'
      rw [hclk]; split <;> linarith
    · rw [if_neg hlt]
      replace hclk := hclk.trans (if_neg hlt)
      rw [hclk]; split
      · norm_num
      · linarith
  rcases hk with ⟨hk, -⟩ | ⟨-, hpl, hk⟩
  · exact absurd hreg hk
  have hd : 0 ≤ l.length - v.pos := by linarith
  obtain ⟨kp1, kp2⟩ := ht.steer.keeps hroute hroute1
  have main : (2 ≤ v4.entered ∧ Under (boundIn A M lim h) (l.length - v.pos) v.vel v'.acc.getAcc (if s.accUpdate < 0.1 then h - s.accUpdate else h)) ∨
      (v4.entered = 1 ∧ Under (boundOut A c M lim h V) (l.length - v.pos) v.vel v'.acc.getAcc (if s.accUpdate < 0.1 then h - s.accUpdate else h)) := by
    by_cases hlt : s.accUpdate < 0.1
    · rw [if_pos hlt] at hk ⊢
      rw [hsame hlt]
      have he : v4.entered = v1.entered := by
        cases hentry with
        | keeps h1 _ => exact h1
        | queues _ h1 => rw [hr.clocks.1] at h1; exact absurd hlt h1
        | enters h1 => rw [hr.clocks.1] at h1; exact absurd hlt h1
      rw [he]
      exact hk.imp (fun x => ⟨kp1 x.1, x.2⟩) fun x => ⟨kp2 x.1, x.2⟩
    · rw [if_neg hlt] at hk ⊢
      have hacA : v'.acc.getAcc ≤ A := by
        rw [ea, ← hA]
        exact hr.acc_le ht hlt (by rw [hA]; exact g.acc)
      have hle : v1.entered ≤ v4.entered := by
        cases hentry with
        | keeps h1 _ => exact h1.ge
        | queues _ _ _ h1 => exact h1.ge
        | enters _ _ h1 => rw [h1]; exact Nat.le_succ _
      have e4 : v1.halfLen = v.halfLen := by
        rcases ht.steer with (rfl | ⟨p, -, -, rfl⟩) | ⟨p, -, -, hs⟩
        · rfl
        · rfl
        · obtain ⟨link, pos, lc, pf, -, rfl, -⟩ := hs.ex
          rfl
      have hfront : v1.posFront = v.pos + v.halfLen := by rw [Vehicle.posFront, e3, e4]
      have hfarOut : v.vel ^ 2 ≤ 2 * c * (l.length - v.pos - 7.5) → Under (boundOut A c M lim h V) (l.length - v.pos) v.vel v'.acc.getAcc h :=
        fun h => g.canStop v0 hV h hacA
      have hcomf := g.comf
      by_cases hnear : l.length - 5 * l.speedLimit ≤ v.pos + v.halfLen
      · rcases hk with ⟨he, hk⟩ | ⟨he, hk⟩
        · refine .inl ⟨(kp1 he).trans hle, ?_⟩
          have hclear : ClearTo s1 v1 1 nx 1 lk (0.0 + l1.length) := by
            refine .first (by rw [hroute1]; rfl) (getLink_ok.1 hn1) ⟨k, v1, getVeh_ok.1 hv1, ?_⟩ ?_ le_rfl (by rw [hroute1]; rfl) (getLink_ok.1 hl1)
            · rw [hroute1]
              have := kp1 he
              obtain ⟨n, hn⟩ := Nat.exists_eq_add_of_le this
              rw [hn, Nat.add_comm]
              simp [List.take]
            · rw [hfn.speedLimit]
              simp only [maxLookahead]
              norm_num
              exact hnx
          have hz : (0.0 + l1.length : ℝ) = l.length := by rw [elen]; norm_num
          rw [hz] at hclear
          have hlim1 : v1.acc.velAdj * next1.speedLimit = lim := by rw [e2, hfn.speedLimit, hlim]
          refine slows_acc g hM v0 hd (hk.now le_rfl v0) hacA (fun h0 hgt => ?_) fun h0 need hneed hcn => ?_
          · have hx := getAcc_le (limit_reached hs hst hlt hr.run1 hv1 (getVeh_ok.2 hv') hclear hn1 hl1 hvs (fun _ h => nomatch h)
              (by rw [hfront, hfr.speedLimit]; norm_num; linarith) (.inl (kp1 he)) (by rw [e3]; norm_num; linarith))
            rw [hlim1, e1, e2, hA] at hx
            refine hx.trans (max_le (min_le_of_right_le ?_) (by norm_num))
            refine mul_nonpos_of_nonneg_of_nonpos g.acc ?_
            have hl := g.limit
            have : 1 ≤ v.vel / lim := by rw [le_div_iff₀ hl]; linarith
            have : (1 : ℝ) ≤ (v.vel / lim) ^ 4 := one_le_pow₀ this
            have e : pow4 (v.vel / lim) = (v.vel / lim) ^ 4 := by simp only [pow4]; ring
            rw [e]
            norm_num
            exact this
          · have := C66_slows hs hst hlt hr.run1 hv1 (getVeh_ok.2 hv') hclear hn1 hl1 hvs (fun _ h => nomatch h)
              (by rw [hfront, hfr.speedLimit]; linarith) (.inl (kp1 he)) (by rw [e3]; linarith) (need := need)
              (by rw [e1, e3, hlim1]; exact hneed) (by rw [e2, hc]; exact hcn)
            rw [e2, hc] at this
            exact this
        · have he1 := kp2 he
          by_cases hstop : v.vel ^ 2 / (2 * c) + 7.5 ≤ l.length - (v.pos + v.halfLen)
          · have hu := hfarOut (by
              have h2 := mul_le_mul_of_nonneg_left hstop (show 0 ≤ 2 * c by linarith)
              have e : 2 * c * (v.vel ^ 2 / (2 * c) + 7.5) = v.vel ^ 2 + 2 * c * 7.5 := by field_simp
              rw [e] at h2
              have := mul_nonneg (show 0 ≤ 2 * c by linarith) hlen
              linarith)
            rcases Nat.lt_or_ge v4.entered 2 with h | h
            · exact .inr ⟨by omega, hu⟩
            · exact .inl ⟨h, hu.weaken g.out_le⟩
          · have hgo := (hr.goes hs hL ht hlt he1 (.here (by rw [hroute1]; rfl) (getLink_ok.1 hl1)) (getLink_ok.1 hl1) hvs (fun _ h => nomatch h)
              (by rw [hfront, elen, hfr.speedLimit]; simp only [maxLookahead]; norm_num; linarith) (getLink_ok.1 hl1)
              (by rw [hroute1]; rfl) (getLink_ok.1 hn1) (.rolls hopen (decide_eq_false ?_))).1 (.inl hopen)
            · refine .inl ⟨hgo.1.ge, g.enters v0 hV hd (hk.now le_rfl v0) hacA⟩
            · rw [hfront, elen]
              show ¬ 0.5 * v1.vel * (v1.vel / v1.acc.comfDec) + 2.5 ≤ _
              rw [e1, e2, hc]
              have : 0.5 * v.vel * (v.vel / c) + 2.5 = v.vel ^ 2 / (2 * c) + 2.5 := by
                field_simp; norm_num; ring
              rw [this]
              intro hx
              apply hstop
              norm_num at hx ⊢
              linarith
      · have hu := hfarOut (by
          have h2 : v.vel ^ 2 ≤ V ^ 2 := pow_le_pow_left₀ v0 hV 2
          have h3 : 2 * c * (5 * l.speedLimit - 7.5) ≤ 2 * c * (l.length - v.pos - 7.5) := mul_le_mul_of_nonneg_left (by linarith) (by linarith)
          linarith)
        have h1 : 1 ≤ v4.entered := by
          rcases hk with ⟨he, -⟩ | ⟨he, -⟩
          · have := kp1 he; omega
          · have := kp2 he; omega
        rcases Nat.lt_or_ge v4.entered 2 with h | h
        · exact .inr ⟨by omega, hu⟩
        · exact .inl ⟨h, hu.weaken g.out_le⟩
  have half : (0.5 : ℝ) = 1 / 2 := by norm_num
  cases ht.out with
  | stays u hu hp hx =>
    rw [hv'] at hu; cases hu
    obtain ⟨a, l', ha, hl', hle⟩ := hx
    have hreg4 : v'.linkId = some lk := by
      obtain ⟨p, d, rr, cc, rfl⟩ := hp
      show v4.route.head? = _
      rw [hr4]; rfl
    have hent : v'.entered = v4.entered := by
      obtain ⟨p, d, rr, cc, rfl⟩ := hp
      rfl
    have hp4 : v'.pos = v4.pos := by
      obtain ⟨p, d, rr, cc, rfl⟩ := hp
      rfl
    rw [hr4] at ha; cases ha
    obtain ⟨l0, h0, hf0⟩ := hr.frame4.bwd hl'
    rw [getLink_ok.1 hl] at h0; cases h0
    have e0 : l'.length = l.length := by unfold Link.length; rw [hf0.curve]
    rw [e0] at hle
    have hp' : v'.pos = v.pos + (v.vel + v'.vel) / 2 * dt := by
      obtain ⟨a, w, ev2⟩ := ht.acc.same
      obtain ⟨q, e, lc, cnt, ev4, -⟩ := ht.move.eq
      have h1 : v4.pos = v2.pos + 0.5 * (v2.vel + v4.vel) * dt := by rw [ev4]
      have h2 : v2.pos = v.pos ∧ v2.vel = v.vel := by rw [ev2]; exact ⟨e3, e1⟩
      rw [hp4, h1, h2.1, h2.2, half, (ht.vel hv').2.2]; ring
    refine .inr ⟨hreg4, by rw [hp4]; exact not_lt.1 hle, ?_⟩
    have e5 : l.length - v'.pos = l.length - v.pos - (v.vel + v'.vel) / 2 * dt := by rw [hp']; ring
    rw [hent, e5]
    exact main.imp (fun x => ⟨x.1, hend _ g.in_nonneg x.2⟩) fun x => ⟨x.1, hend _ g.out_nonneg x.2⟩
  | passes v5 u hp hne' hu hpl' =>
    rw [hv'] at hu; cases hu
    obtain ⟨a, rest, l', pf, ha, hl', hlt, e5, -⟩ := hp.ex
    rw [hr4] at ha; cases ha
    have hreg4 : v'.linkId = some nx := by
      obtain ⟨p, d, rr, cc, rfl⟩ := hpl'
      show v5.route.head? = _
      rw [e5]; rfl
    obtain ⟨l0, h0, hf0⟩ := hr.frame4.bwd hl'
    rw [getLink_ok.1 hl] at h0; cases h0
    have e0 : l'.length = l.length := by unfold Link.length; rw [hf0.curve]
    have hp4 : v4.pos = v.pos + (v.vel + v'.vel) / 2 * dt := by
      obtain ⟨a, w, ev2⟩ := ht.acc.same
      obtain ⟨q, e, lc, cnt, ev4, -⟩ := ht.move.eq
      have h1 : v4.pos = v2.pos + 0.5 * (v2.vel + v4.vel) * dt := by rw [ev4]
      have h2 : v2.pos = v.pos ∧ v2.vel = v.vel := by rw [ev2]; exact ⟨e3, e1⟩
      rw [h1, h2.1, h2.2, half, (ht.vel hv').2.2]; ring
    refine .inl ⟨by rw [hreg4]; exact fun h => hne (Option.some.inj h), ?_⟩
    have hlt' : l.length - v.pos - (v.vel + v'.vel) / 2 * dt < 0 := by rw [e0, hp4] at hlt; linarith
    have v0' : 0 ≤ v'.vel := by rw [hvel]; exact le_max_right _ _
    have hr0 : 0 ≤ (if s'.accUpdate < 0.1 then h - s'.accUpdate else 0) := by
      split
      · rename_i hx
        norm_num at hx; linarith
      · exact le_rfl
    rcases main with ⟨-, hu⟩ | ⟨-, hu⟩
    · have := (hend _ g.in_nonneg hu).now hr0 v0'
      unfold boundIn at this
      rw [max_eq_right hlt'.le] at this
      linarith
    · have := (hend _ g.out_nonneg hu).now hr0 v0'
      unfold boundOut at this
      rw [if_pos hlt'] at this
      exact this
  | leaves v5 _ _ hx => rw [hv'] at hx; cases hx

/-- A step of at most `D` seconds, before which the vehicle `k` is on the link `lk`, goes on to `nx`, and drives at most `V`. -/
def GoesStep [Env] (k lk nx : Key) (D V : ℝ) (s s' : Sim ℝ) : Prop :=
  ∃ dt, 0 ≤ dt ∧ dt ≤ D ∧ s.step dt = .ok s' ∧ GoesTo k lk nx s ∧ ∀ v, s.getVehicle k = .ok v → v.vel ≤ V

/-- **C96** In exact arithmetic, the vehicle `k` has slowed down when it gets to the link `nx`: it exceeds its speed limit there, `lim`, by
not more than what it gains and loses in about the time between two decisions.  Until then its speed is such that it may still slow down. -/
theorem C96_slows_partial [Env] [LawfulDijkstra] {D V lim M : ℝ} {l next : Link ℝ} {s0 : Sim ℝ} {v0 : Vehicle ℝ} (hs : Reach strict s0)
    (hre : ¬ s0.accUpdate < 0.1) (hv0 : s0.getVehicle k = .ok v0) (hlk : v0.linkId = some lk) (hl : s0.getLinkRef lk = .ok l)
    (hn : s0.getLinkRef nx = .ok next) (hne : nx ≠ lk) (hpos : ∀ a l, s0.getLinkRef a = .ok l → 0 < l.length) (hnx : 0 < next.speedLimit)
    (hlen : 0 ≤ v0.halfLen) (hlim : v0.acc.velAdj * next.speedLimit = lim) (hM : M ≤ min (2 * v0.acc.comfDec) 6)
    (g : Gentle v0.acc.maxAcc v0.acc.comfDec M lim (D + 0.1) V) (hfar : V ^ 2 ≤ 2 * v0.acc.comfDec * (5 * l.speedLimit - 7.5))
    (hin : v0.pos ≤ l.length) (hstop : v0.vel = 0 ∨ v0.vel ^ 2 ≤ 2 * v0.acc.comfDec * (l.length - v0.pos - 7.5))
    (hrun : Relation.ReflTransGen (GoesStep k lk nx D V) s0 s) :
    ∃ v, s.getVehicle k = .ok v ∧
      (v.linkId = some lk → v.vel ^ 2 ≤ lim ^ 2 + excess v0.acc.maxAcc M lim (D + 0.1) + 2 * M * (l.length - v.pos)) ∧
      (v.linkId ≠ some lk → v.vel ≤ lim + (v0.acc.maxAcc + M) * (D + 0.1) * (1 + v0.acc.maxAcc * (D + 0.1) / (2 * lim))) := by
  have key : Reach strict s ∧ (∀ a l, s.links.get? a = some l → 0 < l.length) ∧ (∃ l', s.getLinkRef lk = .ok l' ∧ l'.length = l.length ∧
      l'.speedLimit = l.speedLimit) ∧ (∃ n', s.getLinkRef nx = .ok n' ∧ n'.speedLimit = next.speedLimit) ∧
      (s.accUpdate < 0.1 → s.accUpdate ≤ D + 0.1) ∧
      ∃ v, s.getVehicle k = .ok v ∧ v.halfLen = v0.halfLen ∧ (∃ a, v.acc = { v0.acc with acc := a }) ∧
        Slowed lk v0.acc.maxAcc v0.acc.comfDec M lim (D + 0.1) V l.length s v := by
    have hD : 0 ≤ D + 0.1 := g.time
    induction hrun with
    | refl =>
      refine ⟨hs, fun a l h => hpos a l (getLink_ok.2 h), ⟨l, hl, rfl, rfl⟩, ⟨next, hn, rfl⟩, fun h => absurd h hre, v0, hv0, rfl, ⟨_, rfl⟩,
        .inr ⟨hlk, hin, ?_⟩⟩
      have hu : Under (boundOut v0.acc.maxAcc v0.acc.comfDec M lim (D + 0.1) V) (l.length - v0.pos) v0.vel v0.acc.getAcc
          (if s0.accUpdate < 0.1 then D + 0.1 - s0.accUpdate else 0) := by
        intro t h0 h1 _
        rw [if_neg hre] at h1
        obtain rfl := le_antisymm h1 h0
        simp only [mul_zero, add_zero, ne_eq, OfNat.ofNat_ne_zero, not_false_eq_true, zero_pow, zero_div, sub_zero]
        rcases hstop with h | h
        · rw [h]
          simpa using g.out_nonneg (l.length - v0.pos)
        · unfold boundOut
          rw [if_neg (by linarith)]
          exact le_max_of_le_right (by linarith [g.way])
      have he := (hs.inv.veh k v0 (getVeh_ok.1 hv0)).entered
      rcases Nat.lt_or_ge v0.entered 2 with h | h
      · exact .inr ⟨by omega, hu⟩
      · exact .inl ⟨h, hu.weaken g.out_le⟩
    | tail _ hst ih =>
      obtain ⟨hs, hp, ⟨l1, hl1, el, es⟩, ⟨n1, hn1, en⟩, hclk, v, hv, eh, ⟨a, ea⟩, hk⟩ := ih
      obtain ⟨dt, h0, h1, hst, hb, hV⟩ := hst
      obtain ⟨s1, s2, s3, s4, s5, s6, hr⟩ := (step_spec hs.inv dt).ok hst
      obtain ⟨l', hl', hfr⟩ := hr.frame.fwd lk l1 (getLink_ok.1 hl1)
      obtain ⟨n', hn', hfn⟩ := hr.frame.fwd nx n1 (getLink_ok.1 hn1)
      obtain ⟨v', hv', eh', ⟨a', ea'⟩, hk'⟩ := hb.slowed hs hp hne hst h0 (A := v0.acc.maxAcc) (c := v0.acc.comfDec) (M := M) (lim := lim)
        (h := D + 0.1) (by linarith) hl1 hn1 hv (hV v hv) (by rw [eh]; exact hlen) (by rw [ea]) (by rw [ea]) (by rw [ea, en]; exact hlim)
        (by rw [en]; exact hnx) hM g (by rw [es]; exact hfar) (by rw [el]; exact hk)
      refine ⟨.exec (.step dt) hs trivial hst, fun b m hm => ?_, ⟨l', getLink_ok.2 hl', ?_, ?_⟩, ⟨n', getLink_ok.2 hn', ?_⟩, ?_, v', hv', eh'.trans eh,
        ⟨a', by rw [ea', ea]⟩, ?_⟩
      · obtain ⟨m0, hm0, e⟩ := hr.frame.bwd hm
        have := hp b m0 hm0
        unfold Link.length at this ⊢
        rwa [e.curve]
      · rw [← el]; unfold Link.length; rw [hfr.curve]
      · rw [hfr.speedLimit, es]
      · rw [hfn.speedLimit, en]
      · intro h
        norm_num at h hD ⊢
        linarith
      · rw [el] at hk'; exact hk'
  obtain ⟨hs, -, -, -, hclk, v, hv, -, -, hk⟩ := key
  have v0' := C20_speed hs hv
  refine ⟨v, hv, fun h => ?_, fun h => ?_⟩
  · rcases hk with ⟨hk, -⟩ | ⟨-, hp, hk⟩
    · exact absurd h hk
    have hr0 : 0 ≤ (if s.accUpdate < 0.1 then D + 0.1 - s.accUpdate else 0) := by
      split
      · rename_i h
        linarith [hclk h]
      · exact le_rfl
    have : v.vel ^ 2 ≤ boundIn v0.acc.maxAcc M lim (D + 0.1) (l.length - v.pos) := by
      rcases hk with ⟨-, hk⟩ | ⟨-, hk⟩
      · exact hk.now hr0 v0'
      · exact (hk.now hr0 v0').trans (g.out_le _)
    unfold boundIn at this
    rwa [max_eq_left (by linarith)] at this
  · rcases hk with ⟨-, hk⟩ | ⟨hk, -⟩
    · have h1 := g.acc; have h2 := g.comf; have h3 := g.hard; have h4 := g.limit; have h5 := g.time
      have h6 : 0 ≤ v0.acc.maxAcc + M := by linarith
      refine abs_le_of_sq_le_sq' ?_ (by positivity) |>.2
      generalize D + 0.1 = t at *
      unfold excess at hk
      have e : (lim + (v0.acc.maxAcc + M) * t * (1 + v0.acc.maxAcc * t / (2 * lim))) ^ 2 = lim ^ 2 + 2 * (v0.acc.maxAcc + M) * t * (lim + v0.acc.maxAcc * t / 2) +
          ((v0.acc.maxAcc + M) * t * (1 + v0.acc.maxAcc * t / (2 * lim))) ^ 2 := by field_simp; ring
      rw [e]
      linarith [sq_nonneg ((v0.acc.maxAcc + M) * t * (1 + v0.acc.maxAcc * t / (2 * lim)))]
    · exact absurd hk h

end

end TrafficSim
