import Verif.Props.EndsBinary

/-! # C103: a step ends in binary64: where vehicles give way -/

namespace TrafficSim

open B64

namespace B64

/-- A number of the format above the exact result is above the rounded one. -/
theorem Rounding.le_rep {z : EReal} {w : Float} (h : Rounding z w) {c : ℝ} (hc : IsRep c) (hb : c < huge) (hz : z ≤ (c : EReal)) :
    val w ≤ (c : EReal) := by
  induction z with
  | bot => rw [h.bot]; exact bot_le
  | top => exact absurd hz (not_le_of_gt (EReal.coe_lt_top c))
  | coe r =>
    have hz : r ≤ c := EReal.coe_le_coe_iff.1 hz
    obtain ⟨y, -, hn, hcl, -⟩ := h.near r rfl
    have hy : y ≤ c := by
      by_contra hlt
      have := hn c hc
      rw [abs_of_nonneg (by linarith), abs_of_nonneg (by linarith)] at this
      linarith
    rcases hcl with ⟨e, -⟩ | ⟨-, h'⟩ | ⟨e, -⟩
    · show uval _ ≤ (c : EReal)
      rw [e]; exact EReal.coe_le_coe_iff.2 hy
    · linarith
    · show uval _ ≤ (c : EReal)
      rw [e]; exact bot_le

/-- A number between two bounds. -/
def Within (a b : ℝ) (x : Float) : Prop := x.isNaN = false ∧ (a : EReal) ≤ val x ∧ val x ≤ (b : EReal)

theorem Within.real {a b : ℝ} {x : Float} (h : Within a b x) : x.isNaN = false ∧ ∃ r : ℝ, val x = r ∧ a ≤ r ∧ r ≤ b := by
  obtain ⟨h0, h1, h2⟩ := h
  induction hv : val x with
  | bot => rw [hv] at h1; exact absurd h1 (not_le_of_gt (EReal.bot_lt_coe _))
  | top => rw [hv] at h2; exact absurd h2 (not_le_of_gt (EReal.coe_lt_top _))
  | coe r =>
    rw [hv] at h1 h2
    exact ⟨h0, r, rfl, EReal.coe_le_coe_iff.1 h1, EReal.coe_le_coe_iff.1 h2⟩

theorem Within.mono {a b c d : ℝ} {x : Float} (h : Within a b x) (h1 : c ≤ a) (h2 : b ≤ d) : Within c d x :=
  ⟨h.1, (EReal.coe_le_coe_iff.2 h1).trans h.2.1, h.2.2.trans (EReal.coe_le_coe_iff.2 h2)⟩

theorem within_of {a b : Float} {ra rb : ℝ} {x : Float} (ha : val a = ra) (hb : val b = rb) (h1 : a ≤ x) (h2 : x ≤ b) : Within ra rb x := by
  obtain ⟨-, h0, h1⟩ := le_iff.1 h1
  obtain ⟨-, -, h2⟩ := le_iff.1 h2
  exact ⟨h0, ha ▸ h1, hb ▸ h2⟩

theorem int_rep {j : ℤ} (h : |j| < 2 ^ 43) : IsRep j ∧ -huge < j ∧ (j : ℝ) < huge := by
  have e : (j : ℝ) = ((j * 1024 : ℤ) : ℝ) / 1024 := by push_cast; ring
  have hb : |j * 1024| < 2 ^ 53 := by rw [abs_mul, abs_of_nonneg (by norm_num : (0 : ℤ) ≤ 1024)]; linarith
  have hb' : |-j * 1024| < 2 ^ 53 := by rw [abs_mul, abs_neg, abs_of_nonneg (by norm_num : (0 : ℤ) ≤ 1024)]; linarith
  refine ⟨by rw [e]; exact grid_rep hb, by rw [e]; exact grid_gt hb, ?_⟩
  have := grid_gt hb'
  push_cast at this
  linarith

theorem within_rounding {r : ℝ} {w : Float} (h : Rounding (r : EReal) w) {e f : ℤ} (he : |e| < 2 ^ 43) (hf : |f| < 2 ^ 43) (h1 : (e : ℝ) ≤ r) (h2 : r ≤ f) :
    Within e f w :=
  ⟨h.num, h.ge_rep (int_rep he).1 (int_rep he).2.1 (EReal.coe_le_coe_iff.2 h1), h.le_rep (int_rep hf).1 (int_rep hf).2.2 (EReal.coe_le_coe_iff.2 h2)⟩

section
variable {a b c d : ℝ} {x y : Float}

theorem Within.add (hx : Within a b x) (hy : Within c d y) (e f : ℤ) (he : |e| < 2 ^ 43) (hf : |f| < 2 ^ 43) (h1 : (e : ℝ) ≤ a + c) (h2 : b + d ≤ f) :
    Within e f (x + y) := by
  obtain ⟨nx, r, er, r1, r2⟩ := hx.real
  obtain ⟨ny, s, es, s1, s2⟩ := hy.real
  have h := add_rounding nx ny (.inl (by rw [er]; exact EReal.coe_ne_top _)) (.inl (by rw [er]; exact EReal.coe_ne_bot _))
  rw [er, es, ← EReal.coe_add] at h
  exact within_rounding h he hf (by linarith) (by linarith)

theorem Within.sub (hx : Within a b x) (hy : Within c d y) (e f : ℤ) (he : |e| < 2 ^ 43) (hf : |f| < 2 ^ 43) (h1 : (e : ℝ) ≤ a - d) (h2 : b - c ≤ f) :
    Within e f (x - y) := by
  obtain ⟨nx, r, er, r1, r2⟩ := hx.real
  obtain ⟨ny, s, es, s1, s2⟩ := hy.real
  have h := sub_rounding nx ny (.inl (by rw [er]; exact EReal.coe_ne_top _)) (.inl (by rw [er]; exact EReal.coe_ne_bot _))
  rw [er, es, ← EReal.coe_sub] at h
  exact within_rounding h he hf (by linarith) (by linarith)

theorem Within.mul (hx : Within a b x) (hy : Within c d y) (e f : ℤ) (he : |e| < 2 ^ 43) (hf : |f| < 2 ^ 43)
    (hm : ∀ r s : ℝ, a ≤ r → r ≤ b → c ≤ s → s ≤ d → e ≤ r * s ∧ r * s ≤ f) : Within e f (x * y) := by
  obtain ⟨nx, r, er, r1, r2⟩ := hx.real
  obtain ⟨ny, s, es, s1, s2⟩ := hy.real
  have h := mul_rounding nx ny (.inl (by rw [er]; exact ⟨EReal.coe_ne_top _, EReal.coe_ne_bot _⟩)) (.inl (by rw [es]; exact ⟨EReal.coe_ne_top _, EReal.coe_ne_bot _⟩))
  rw [er, es, ← EReal.coe_mul] at h
  exact within_rounding h he hf (hm r s r1 r2 s1 s2).1 (hm r s r1 r2 s1 s2).2

/-- A quotient by a positive number. -/
theorem Within.div (hx : Within a b x) (hy : Within c d y) (hc : 0 < c) (e f : ℤ) (he : |e| < 2 ^ 43) (hf : |f| < 2 ^ 43)
    (h1 : (e : ℝ) * c ≤ a) (h2 : b ≤ f * c) (h3 : e ≤ 0) (h4 : 0 ≤ f) : Within e f (x / y) := by
  obtain ⟨nx, r, er, r1, r2⟩ := hx.real
  obtain ⟨ny, s, es, s1, s2⟩ := hy.real
  have hs : 0 < s := hc.trans_le s1
  have h := div_rounding nx ny (.inl (by rw [er]; exact ⟨EReal.coe_ne_top _, EReal.coe_ne_bot _⟩)) (by rw [es]; exact_mod_cast hs.ne')
  rw [er, es, ← EReal.coe_div] at h
  have h3' : (e : ℝ) ≤ 0 := by exact_mod_cast h3
  have h4' : (0 : ℝ) ≤ f := by exact_mod_cast h4
  refine within_rounding h he hf ?_ ?_
  · rw [le_div_iff₀ hs]; nlinarith
  · rw [div_le_iff₀ hs]; nlinarith

theorem Within.sqrt (hx : Within a b x) (ha : 0 ≤ a) (f : ℤ) (hf : |f| < 2 ^ 43) (h4 : 0 ≤ f) (h : b ≤ f * f) : Within 0 f (x.sqrt) := by
  obtain ⟨nx, r, er, r1, r2⟩ := hx.real
  have h' := sqrt_rounding nx er (ha.trans r1)
  have := within_rounding h' (e := 0) (by norm_num) hf (by exact_mod_cast Real.sqrt_nonneg r) (Real.sqrt_le_iff.2 ⟨by exact_mod_cast h4, by nlinarith⟩)
  exact_mod_cast this

theorem Within.fmax (hx : Within a b x) (hy : Within c d y) : Within (max a c) (max b d) (Flt.fmax x y) := by
  rcases fmax_cases x y with ⟨e, h | h⟩ | ⟨e, h, -⟩ <;> rw [e]
  · obtain ⟨-, -, h⟩ := lt_iff.1 h
    refine ⟨hy.1, ?_, hy.2.2.trans (EReal.coe_le_coe_iff.2 (le_max_right _ _))⟩
    rcases max_choice a c with e | e <;> rw [e]
    exacts [hx.2.1.trans h.le, hy.2.1]
  · rw [hx.1] at h; cases h
  · refine ⟨hx.1, ?_, hx.2.2.trans (EReal.coe_le_coe_iff.2 (le_max_left _ _))⟩
    rcases max_choice a c with e | e <;> rw [e]
    exacts [hx.2.1, hy.2.1.trans (le_of_not_gt fun hlt => h (lt_iff.2 ⟨hx.1, hy.1, hlt⟩))]

end

theorem within_zero : Within 0 0 0.0 := ⟨by decide +kernel, by rw [val_zero]; exact le_rfl, by rw [val_zero]; exact le_rfl⟩

theorem val_two : val 2.0 = ((2 : ℝ) : EReal) := by
  rw [val_finite (m := 2 ^ 52) (e := -51) (h := by norm_num) (by rfl), EReal.coe_eq_coe_iff, mval, zpow_neg]
  norm_num

theorem val_half : val 0.5 = ((1 / 2 : ℝ) : EReal) := by
  rw [val_finite (m := 2 ^ 52) (e := -53) (h := by norm_num) (by rfl), EReal.coe_eq_coe_iff, mval, zpow_neg]
  norm_num

theorem within_two : Within 2 2 2.0 := ⟨by decide +kernel, val_two.ge, val_two.le⟩
theorem within_half : Within (1 / 2) (1 / 2) 0.5 := ⟨by decide +kernel, val_half.ge, val_half.le⟩

end B64

/-- The time that a vehicle needs to get somewhere is not very long. -/
theorem minReachTime_within {m : AccelerationModel Float} {vel dist limit : Float} (ha : Within (1 / 8) 100 m.maxAcc) (hv : Within 0 2000 vel)
    (hd : Within 0 100000 dist) (hl : Within 1 100 limit) : Within (-860000) 17000000 (m.minReachTime vel dist limit) := by
  have sqb : Within 0 4000000 (sq vel) := by
    have := hv.mul hv 0 4000000 (by norm_num) (by norm_num) fun r s h1 h2 h3 h4 => ⟨by push_cast; positivity, by push_cast; nlinarith⟩
    exact_mod_cast this
  have d1 : Within 0 200 (2.0 * m.maxAcc) := by
    have := within_two.mul ha 0 200 (by norm_num) (by norm_num) fun r s h1 h2 h3 h4 => ⟨by push_cast; nlinarith, by push_cast; nlinarith⟩
    exact_mod_cast this
  have d2 : Within 0 20000000 (2.0 * m.maxAcc * dist) := by
    have := d1.mul hd 0 20000000 (by norm_num) (by norm_num) fun r s h1 h2 h3 h4 => ⟨by push_cast; positivity, by push_cast; nlinarith⟩
    exact_mod_cast this
  have d3 : Within 0 25000000 (2.0 * m.maxAcc * dist + sq vel) := by
    have := d2.add sqb 0 25000000 (by norm_num) (by norm_num) (by norm_num) (by norm_num)
    exact_mod_cast this
  unfold AccelerationModel.minReachTime
  dsimp only
  split
  · have e1 : Within 0 5000 (fsqrt (2.0 * m.maxAcc * dist + sq vel)) := by
      have := d3.sqrt le_rfl 5000 (by norm_num) (by norm_num) (by norm_num)
      exact_mod_cast this
    have e2 : Within (-2000) 5000 (fsqrt (2.0 * m.maxAcc * dist + sq vel) - vel) := by
      have := e1.sub hv (-2000) 5000 (by norm_num) (by norm_num) (by norm_num) (by norm_num)
      exact_mod_cast this
    have e3 : Within (-16000) 40000 ((fsqrt (2.0 * m.maxAcc * dist + sq vel) - vel) / m.maxAcc) := by
      have := e2.div ha (by norm_num) (-16000) 40000 (by norm_num) (by norm_num) (by norm_num) (by norm_num) (by norm_num) (by norm_num)
      exact_mod_cast this
    exact e3.mono (by norm_num) (by norm_num)
  · have t1 : Within (-2000) 100 (limit - vel) := by
      have := hl.sub hv (-2000) 100 (by norm_num) (by norm_num) (by norm_num) (by norm_num)
      exact_mod_cast this
    have t2 : Within (-16000) 800 ((limit - vel) / m.maxAcc) := by
      have := t1.div ha (by norm_num) (-16000) 800 (by norm_num) (by norm_num) (by norm_num) (by norm_num) (by norm_num) (by norm_num)
      exact_mod_cast this
    have w1 : Within 0 2100 (vel + limit) := by
      have := hv.add hl 0 2100 (by norm_num) (by norm_num) (by norm_num) (by norm_num)
      exact_mod_cast this
    have w2 : Within 0 1050 (0.5 * (vel + limit)) := by
      have := within_half.mul w1 0 1050 (by norm_num) (by norm_num) fun r s h1 h2 h3 h4 => ⟨by push_cast; nlinarith, by push_cast; nlinarith⟩
      exact_mod_cast this
    have w3 : Within (-16800000) 840000 (0.5 * (vel + limit) * ((limit - vel) / m.maxAcc)) := by
      have := w2.mul t2 (-16800000) 840000 (by norm_num) (by norm_num) fun r s h1 h2 h3 h4 => ⟨by push_cast; nlinarith, by push_cast; nlinarith⟩
      exact_mod_cast this
    have w4 : Within (-840000) 16900000 (dist - 0.5 * (vel + limit) * ((limit - vel) / m.maxAcc)) := by
      have := hd.sub w3 (-840000) 16900000 (by norm_num) (by norm_num) (by norm_num) (by norm_num)
      exact_mod_cast this
    have w5 : Within (-840000) 16900000 ((dist - 0.5 * (vel + limit) * ((limit - vel) / m.maxAcc)) / limit) := by
      have := w4.div hl (by norm_num) (-840000) 16900000 (by norm_num) (by norm_num) (by norm_num) (by norm_num) (by norm_num) (by norm_num)
      exact_mod_cast this
    have := t2.add w5 (-860000) 17000000 (by norm_num) (by norm_num) (by norm_num) (by norm_num)
    exact_mod_cast this

/-! ## Networks of streets -/

/-- A street: about a millimetre to ten kilometres long, with a speed limit of 1 to 100 m/s, not next to another lane, and with crossings
less than ten kilometres away. -/
structure Street (l : Link Float) : Prop where
  length : (0.0009765625 : Float) ≤ l.length ∧ l.length ≤ (10000.0 : Float)
  limit : (1.0 : Float) ≤ l.speedLimit ∧ l.speedLimit ≤ (100.0 : Float)
  group : l.group = none
  conflicts : ∀ c ∈ l.conflicts, (-10000.0 : Float) ≤ c.minPos ∧ (-10000.0 : Float) ≤ c.ownMaxPos ∧ c.ownMaxPos ≤ (10000.0 : Float)

/-- A car: its speed is at most 2000 m/s, it can accelerate by 0.125 to 100 m/s², and its position is not below minus twenty kilometres. -/
structure Car (v : Vehicle Float) : Prop where
  pos : (-20000.0 : Float) ≤ v.pos
  vel : (0.0 : Float) ≤ v.vel ∧ v.vel ≤ (2000.0 : Float)
  acc : (0.125 : Float) ≤ v.acc.maxAcc ∧ v.acc.maxAcc ≤ (100.0 : Float)

/-- A network of streets with cars. -/
structure Streets (n : Net Float) : Prop where
  links : ∀ k l, n.links.get? k = some l → Street l
  vehicles : ∀ k v, n.vehicles.get? k = some v → Car v

namespace B64

theorem val_one_real : val 1.0 = ((1 : ℝ) : EReal) := by
  rw [val_finite (m := 2 ^ 52) (e := -52) (h := by norm_num) (by rfl), EReal.coe_eq_coe_iff, mval, zpow_neg]
  norm_num

theorem val_eighth : val 0.125 = ((1 / 8 : ℝ) : EReal) := by
  rw [val_finite (m := 2 ^ 52) (e := -55) (h := by norm_num) (by rfl), EReal.coe_eq_coe_iff, mval, zpow_neg]
  norm_num

theorem val_hundred : val 100.0 = ((100 : ℝ) : EReal) := by
  rw [val_finite (m := 100 * 2 ^ 46) (e := -46) (h := by norm_num) (by rfl), EReal.coe_eq_coe_iff, mval, zpow_neg]
  norm_num

theorem val_ten_thousand : val 10000.0 = ((10000 : ℝ) : EReal) := by
  rw [val_finite (m := 10000 * 2 ^ 39) (e := -39) (h := by norm_num) (by rfl), EReal.coe_eq_coe_iff, mval, zpow_neg]
  norm_num

theorem val_twenty_thousand : val 20000.0 = ((20000 : ℝ) : EReal) := by
  rw [val_finite (m := 10000 * 2 ^ 39) (e := -38) (h := by norm_num) (by rfl), EReal.coe_eq_coe_iff, mval, zpow_neg]
  norm_num

theorem val_two_thousand : val 2000.0 = ((2000 : ℝ) : EReal) := by
  rw [val_finite (m := 1000 * 2 ^ 43) (e := -42) (h := by norm_num) (by rfl), EReal.coe_eq_coe_iff, mval, zpow_neg]
  norm_num

theorem val_neg_real {x : Float} {r : ℝ} (h : val x = r) : val (-x) = ((-r : ℝ) : EReal) := by rw [val_neg, h, EReal.coe_neg]

end B64

namespace Street
variable {l : Link Float}

theorem length_within (h : Street l) : Within 0 10000 l.length :=
  (within_of val_tick val_ten_thousand h.length.1 h.length.2).mono (by norm_num) le_rfl

theorem limit_within (h : Street l) : Within 1 100 l.speedLimit := within_of val_one_real val_hundred h.limit.1 h.limit.2

end Street

theorem Streets.numbers {n : Net Float} (h : Streets n) : Numbers n.links := by
  refine ⟨fun k l hl => (h.links k l hl).length.1, fun k l hl => ?_⟩
  have := (h.links k l hl).limit_within
  exact ⟨lt_iff.2 ⟨by decide +kernel, this.1, lt_of_lt_of_le (by rw [val_zero]; exact_mod_cast one_pos) this.2.1⟩,
    le_iff.2 ⟨this.1, by decide +kernel, this.2.2.trans (by rw [val_million]; exact EReal.coe_le_coe_iff.2 (by norm_num))⟩⟩

/-- Where the search goes on from has not been far. -/
theorem pos_short {pos limit : Float} (hp : Within 0 10500 pos) (hl : Within 1 100 limit) (h : ¬ (0.0 : Float) ≤ pos - 5.0 * limit) :
    Within 0 500 pos := by
  have five : Within 5 5 5.0 := ⟨by decide +kernel, val_five.ge, val_five.le⟩
  have h1 : Within 0 500 (5.0 * limit) := by
    have := five.mul hl 0 500 (by norm_num) (by norm_num) fun r s h1 h2 h3 h4 => ⟨by push_cast; nlinarith, by push_cast; nlinarith⟩
    exact_mod_cast this
  obtain ⟨nx, r, er, r1, r2⟩ := hp.real
  obtain ⟨ny, s, es, s1, s2⟩ := h1.real
  have hr := sub_rounding nx ny (.inl (by rw [er]; exact EReal.coe_ne_top _)) (.inl (by rw [er]; exact EReal.coe_ne_bot _))
  refine ⟨nx, hp.2.1, ?_⟩
  rw [er]
  refine EReal.coe_le_coe_iff.2 ?_
  by_contra hlt
  refine h (nonneg_iff.2 ⟨hr.num, ?_⟩)
  rw [← val_zero]
  refine hr.below 0.0 (by decide +kernel) ?_
  rw [val_zero, er, es, ← EReal.coe_sub]
  exact EReal.coe_nonneg.2 (by linarith)

section
variable {σ : Type} {Q : σ → Prop} {net : Net Float} {g : Nat → RelVeh Float → σ → M (σ × Bool)}

theorem processList_streets {route : Nat × Key} {pos minPos length : Float}
    (hg : ∀ r s, net.vehicles.get? r.key = some r.vehicle → Within 0 10500 r.pos → Q s → Settles (fun n => g n r s) fun p => Q p.1)
    (hp : Within 0 10500 pos) : ∀ {ks : List Key} {s : σ}, Q s →
    Settles (fun n => Link.processList net.vehicles (g n) route pos minPos length ks s) fun p => Q p.1
  | [], s, hs => by
    unfold Link.processList
    exact .pure hs
  | k :: ks, s, hs => by
    unfold Link.processList
    refine .bind getVeh_settles fun v hv => .ite (fun _ => .pure hs) fun _ => ?_
    cases v.getRoute route.1 with
    | none => exact processList_streets hg hp hs
    | some p =>
      obtain ⟨k', st⟩ := p
      refine .ite (fun _ => processList_streets hg hp hs) fun _ => .ite (fun _ => .pure hs) fun _ => ?_
      refine .bind (hg _ s hv hp hs) fun p hp' => ?_
      obtain ⟨s', b⟩ := p
      exact .ite (fun _ => .pure hp') fun _ => processList_streets hg hp hp'

/-- The search over the vehicles on upstream links ends, and sees vehicles that are not far away. -/
theorem processVehicles_streets (hnet : Streets net)
    (hg : ∀ r s, net.vehicles.get? r.key = some r.vehicle → Within 0 10500 r.pos → Q s → Settles (fun n => g n r s) fun p => Q p.1) :
    ∀ (m : Nat) (_ : m ≤ 5120000000) {φ : Nat → Nat} (_ : Unbounded φ) {k : Key} {l : Link Float} (_ : net.links.get? k = some l) {route : Nat × Key}
      {pos : Float} (_ : Within 0 10500 pos) (_ : ((((5120000000 - m : ℤ) : ℝ) / 1024 : ℝ) : EReal) ≤ val pos) {skip : Nat} {s : σ} (_ : Q s),
    Settles (fun n => Link.processVehicles net (g n) (φ n) l route pos skip s) Q := by
  intro m
  induction m with
  | zero =>
    intro _ φ hφ k l hl route pos hp hlow skip s hs
    have := hlow.trans hp.2.2
    rw [EReal.coe_le_coe_iff] at this
    norm_num at this
  | succ m ih =>
    intro hm φ hφ k l hl route pos hp hlow skip s hs
    obtain ⟨N, hN⟩ := hφ.succ
    refine .congr ⟨N, fun n hn => by rw [hN n hn]⟩ ?_
    simp only [Link.processVehicles]
    refine .ite (fun _ => .pure hs) fun _ => .bind (processList_streets hg hp hs) fun p hp' => ?_
    obtain ⟨s', b⟩ := p
    refine .ite (fun _ => .pure hp') fun _ => .ite (fun _ => .pure hp') fun hfar => ?_
    have short := pos_short hp (hnet.links k l hl).limit_within hfar
    refine .foldlM (fun s hs j hj => ?_) hp'
    refine .bind getLink_settles fun l' hl' => ?_
    have hl1 := hnet.links j l' hl'
    have hsum : Within 0 10500 (pos + l'.length) := by
      have := short.add hl1.length_within 0 10500 (by norm_num) (by norm_num) (by norm_num) (by norm_num)
      exact_mod_cast this
    obtain ⟨-, hd, hle⟩ := le_iff.1 hl1.length.1
    rw [val_tick] at hle
    obtain ⟨-, g2⟩ := add_grid hp.1 hd (j := 5120000000 - ((m + 1 : ℕ) : ℤ)) (by rw [abs_lt]; omega) hlow hle
    rw [show (5120000000 - ((m + 1 : ℕ) : ℤ) + 1 : ℤ) = 5120000000 - m by push_cast; ring] at g2
    exact ih (by omega) hφ.pred hl' hsum g2 hs

end

/-- A vehicle that wants to go on needs a moderate time to get past a crossing. -/
theorem reach_short {v : Vehicle Float} (hv : Car v) {p0 p1 p2 limit : Float} (h0 : Within 0 10500 p0) (h1 : Within 0 10000 p1)
    (h2 : Within (-10000) 10000 p2) (hl : Within 1 100 limit) : Within (-900000) 18000000 (v.minReachTime (p0 + p1 + p2) limit + 0.5) := by
  have a1 : Within 0 20500 (p0 + p1) := by
    have := h0.add h1 0 20500 (by norm_num) (by norm_num) (by norm_num) (by norm_num)
    exact_mod_cast this
  have a2 : Within (-10000) 30500 (p0 + p1 + p2) := by
    have := a1.add h2 (-10000) 30500 (by norm_num) (by norm_num) (by norm_num) (by norm_num)
    exact_mod_cast this
  have a4 : Within 0 100000 (fmax (p0 + p1 + p2 - v.pos) 0.0) := by
    obtain ⟨-, np, lp⟩ := le_iff.1 hv.pos
    rw [val_neg_real val_twenty_thousand] at lp
    obtain ⟨nx, r, er, r1, r2⟩ := a2.real
    have h := sub_rounding nx np (.inl (by rw [er]; exact EReal.coe_ne_top _)) (.inl (by rw [er]; exact EReal.coe_ne_bot _))
    have hle : val (p0 + p1 + p2 - v.pos) ≤ ((100000 : ℝ) : EReal) := by
      have := (int_rep (j := 100000) (by norm_num))
      push_cast at this
      refine h.le_rep this.1 this.2.2 ?_
      rw [er]
      refine (EReal.sub_le_sub (EReal.coe_le_coe_iff.2 r2) lp).trans ?_
      rw [← EReal.coe_sub]
      exact EReal.coe_le_coe_iff.2 (by norm_num)
    have h0 := nonneg_iff.1 (fmax_zero (p0 + p1 + p2 - v.pos))
    refine ⟨h0.1, by exact_mod_cast h0.2, ?_⟩
    rcases fmax_cases (p0 + p1 + p2 - v.pos) 0.0 with ⟨e, -⟩ | ⟨e, -, -⟩ <;> rw [e]
    · rw [val_zero]; exact_mod_cast (by norm_num : (0 : ℝ) ≤ 100000)
    · exact hle
  have a5 := minReachTime_within (m := v.acc) (within_of val_eighth val_hundred hv.acc.1 hv.acc.2) (within_of (ra := 0) (by rw [val_zero]; rfl) val_two_thousand hv.vel.1 hv.vel.2) a4 hl
  have a6 := a5.add within_half (-900000) 18000000 (by norm_num) (by norm_num) (by norm_num) (by norm_num)
  exact_mod_cast a6

section
variable [Env]

theorem canEnterLoop_streets {net : Net Float} (hnet : Streets net) {j : Key} {l : Link Float} (hl : net.links.get? j = some l) {veh : RelVeh Float}
    {p0 p1 : Float} (hv : Car veh.vehicle) (hp : veh.pos = p0 + p1) (h0 : Within 0 10500 p0) (h1 : Within 0 10000 p1) {q : Nat} {pr : Int} :
    ∀ {idxs : List Nat}, Settles (fun n => @Link.canEnterLoop Float _ (Env.withFuel n) net l veh q pr idxs) fun _ => True
  | [] => by
    unfold Link.canEnterLoop
    exact .pure trivial
  | idx :: rest => by
    unfold Link.canEnterLoop
    cases hc : l.conflicts[idx]? with
    | none => exact .throw (by simp)
    | some c =>
      obtain ⟨c1, c2, c3⟩ := (hnet.links j l hl).conflicts c (List.mem_of_getElem? hc)
      refine .bind getLink_settles fun l' hl' => ?_
      refine .bind (P := fun _ => True) ?_ fun b _ => .ite (fun _ => canEnterLoop_streets hnet hl hv hp h0 h1) fun _ => .pure trivial
      have ht : Within (-900000) 18000000 (veh.minReachTime c.ownMaxPos l.speedLimit + gapBuffer) := by
        unfold RelVeh.minReachTime
        rw [hp]
        exact reach_short hv h0 h1 (within_of (val_neg_real val_ten_thousand) val_ten_thousand c2 c3) (hnet.links j l hl).limit_within
      have hm : (-1000000.0 : Float) ≤ c.minPos := by
        obtain ⟨-, n1, n2⟩ := le_iff.1 c1
        refine le_iff.2 ⟨by decide +kernel, n1, le_trans ?_ n2⟩
        rw [val_neg, val_neg, val_million, val_ten_thousand, ← EReal.coe_neg, ← EReal.coe_neg]
        exact EReal.coe_le_coe_iff.2 (by norm_num)
      exact checkGap_settles_float (q := Link.gapPriority l'.control q pr) hnet.numbers (fun k l hl => (hnet.links k l hl).limit.2)
        (nonneg_iff.2 ⟨by decide +kernel, by rw [val_hundred]; exact_mod_cast (by norm_num : (0 : ℝ) ≤ 100)⟩)
        (fun hn h hm hl => gap_enough (j := 20480000000) hn h hm (val_hundred ▸ (le_iff.1 hl).2.2) ht.1 ht.2.2 (by norm_num) (by norm_num) (by norm_num)
          (by norm_num)) hl' (pos := (c.minPos, c.maxPos)) hm (0, c.linkId)

theorem stoplineFn_streets {net : Net Float} (hnet : Streets net) {lk : Key} {l : Link Float} (hl : net.links.get? lk = some l) (r : RelVeh Float) (s : Net Float)
    (hr : net.vehicles.get? r.key = some r.vehicle) (hp : Within 0 10500 r.pos) :
    Settles (fun n => @Link.stoplineFn Float _ (Env.withFuel n) net l r s) fun _ => True := by
  unfold Link.stoplineFn
  cases hg : r.getRoute 1 with
  | none =>
    dsimp only
    exact .ite (fun _ => .pure trivial) fun _ => .pure trivial
  | some p =>
    obtain ⟨k, st⟩ := p
    cases st with
    | entered =>
      dsimp only
      exact .pure trivial
    | notEntered =>
      dsimp only
      refine .bind getLink_settles fun next _ => ?_
      cases next.control with
      | open_ => exact .ite (fun _ => .pure trivial) fun _ => .pure trivial
      | yield_ d m p => exact .pure trivial
      | closed => exact .pure trivial
    | queuedAt f =>
      dsimp only
      refine .bind getLink_settles fun next hnext => ?_
      cases hc : next.control with
      | open_ => exact .ite (fun _ => .pure trivial) fun _ => .pure trivial
      | yield_ d m p =>
        dsimp only
        refine .bind getLink_settles fun cur _ => ?_
        refine .bind (P := fun _ => True) ?_ fun b _ => ?_
        · unfold Link.canEnter
          refine .bind (canEnterLoop_streets hnet hnext (veh := r.offset l.length) (hnet.vehicles _ _ hr) rfl hp (hnet.links lk l hl).length_within) fun c _ => ?_
          cases c <;> exact .pure trivial
        · obtain ⟨b, c⟩ := b
          dsimp only
          exact .ite (fun _ => .pure trivial) fun _ => .pure trivial
      | closed => exact .pure trivial

theorem applyStoplines_streets {net : Net Float} (hnet : Streets net) (k : Key) :
    Settles (fun n => @Link.applyStoplines Float _ (Env.withFuel n) net k) fun _ => True := by
  unfold Link.applyStoplines
  refine .bind getLink_settles fun l hl => ?_
  have hw := (hnet.links k l hl).length_within
  refine processVehicles_streets hnet (Q := fun _ => True) (fun r s hr hp _ => (stoplineFn_streets hnet hl r s hr hp).mono fun _ _ => trivial) 5120000000 le_rfl
    .id hl (hw.mono le_rfl (by norm_num)) (le_trans ?_ hw.2.1) trivial
  exact EReal.coe_le_coe_iff.2 (by norm_num)

omit [Env] in
theorem Streets.same {n n' : Net Float} (h : Streets n) (hs : NetSame n n') : Streets n' := by
  refine ⟨fun k l' hl' => ?_, fun k v' hv' => ?_⟩
  · obtain ⟨l, hl, c, rfl, -⟩ := hs.links.bwd hl'
    have := h.links k l hl
    exact ⟨this.length, this.limit, this.group, this.conflicts⟩
  · obtain ⟨v, hv, a, w, rfl⟩ := hs.vehicles.bwd hv'
    have := h.vehicles k v hv
    exact ⟨this.pos, this.vel, this.acc⟩

theorem applyAccelerations_streets {strict : Prop} {s : Sim Float} (hs : SimInv strict s) (hn : Streets ⟨s.links, s.vehicles⟩) (hc : Crossings s) :
    Settles (fun n => @Sim.applyAccelerations Float _ (Env.withFuel n) s) fun _ => True := by
  unfold Sim.applyAccelerations
  refine .ite (fun _ => .pure trivial) fun _ => ?_
  refine .bind (.of_spec (prepareNet_spec fun k v hv => (hs.veh k v hv).drivable.valid)) fun n0 h0 => ?_
  have hn0 : Streets n0 := by
    refine ⟨fun k l' hl' => ?_, fun k v' hv' => ?_⟩
    · obtain ⟨l, hl, b, rfl, -⟩ := h0.links.bwd hl'
      have := hn.links k l hl
      exact ⟨this.length, this.limit, this.group, this.conflicts⟩
    · obtain ⟨v, hv, rfl⟩ := h0.vehicles.bwd hv'
      have := hn.vehicles k v hv
      exact ⟨this.pos, this.vel, this.acc⟩
  have hok0 := h0.netOK hs.mid
  have hN0 : NetInv strict n0.links := hs.net.frame h0.frame
  refine .bind (P := fun n1 => NetSame n0 n1) (.foldlM (fun n1 h1 k hk => ?_) ⟨SRel.refl fun _ _ _ => LinkSame.rfl', SRel.refl fun _ _ _ => ⟨_, _, rfl⟩⟩) fun n1 h1 => ?_
  · refine ((applyStoplines_streets (hn0.same h1) k).and_of_ok (P := fun n2 => NetSame n0 n2) fun n n2 h2 => ?_).mono fun _ h => h.2
    let _ := Env.withFuel n
    obtain ⟨l, hl⟩ := SlotMap.mem_keys.1 hk
    have := ((applyStoplines_spec (E := fun _ => True) (n0 := n0) (hok0.same h1) h1 ?_ trivial ?_).ok h2).same
    · exact ⟨SRel.trans h1.links this.links fun _ _ _ _ => LinkSame.trans, SRel.trans h1.vehicles this.vehicles fun _ _ _ _ => by
        rintro ⟨a, w, rfl⟩ ⟨a', w', rfl⟩
        exact ⟨a', w', rfl⟩⟩
    · intro k l' hl'
      obtain ⟨l, hl, c, rfl, hc⟩ := h1.links.bwd hl'
      exact hc ((hN0.link k l hl).last)
    · rw [h1.links.contains]; exact contains_of_get hl
  · have hn1 := hn0.same h1
    refine .bind (P := fun _ => True) ?_ fun vs _ => .pure trivial
    unfold Sim.applyLinkAccelerations
    refine .bind (P := fun _ => True) (.foldlM (fun vs _ k _ => linkAccelerations_settles_float hn1.numbers (fun k l hl => (hn1.links k l hl).group) vs k) trivial) fun vs _ => ?_
    exact .foldlM (fun vs _ c hcm => conflictAccelerations_settles_float hn1.numbers (hc c hcm).1 (hc c hcm).2 vs) trivial

/-- **C103, in part** (binary64).  A step of a reachable simulation of streets with cars ends if the search for shortest paths ends, also
where vehicles give way to each other.  Streets are not next to each other, crossings are not far away, and cars can accelerate: see
`Street` and `Car` for the numbers. -/
theorem C103_streets_partial [LawfulDijkstra] {strict : Prop} {s : Sim Float} (h : Reach strict s) (hd : SearchEnds)
    (hn : Streets ⟨s.links, s.vehicles⟩) (hc : Crossings s) (dt : Float) :
    ∃ N r, r ≠ .error .diverges ∧ ∀ n, N ≤ n → @Sim.step Float _ (Env.withFuel n) s dt = r := by
  have hs := h.inv
  have key : Settles (fun n => @Sim.step Float _ (Env.withFuel n) s dt) fun _ => True := by
    have hE : ∀ e, StepErr strict False True e → e ≠ .diverges := by
      rintro e he rfl
      exact he
    unfold Sim.step
    refine .bind (P := fun s1 => SimInv strict s1 ∧ Streets ⟨s1.links, s1.vehicles⟩ ∧ Crossings s1)
      (.of_spec ((calculateLaneChanges_phase (strict := strict) (div := False) (.inl hd) (.inr trivial) hs).mono ?_ hE)) fun s1 ⟨i1, n1, c1⟩ => ?_
    · rintro s1 (⟨-, rfl⟩ | ⟨-, vs, lcs, h1⟩)
      · exact ⟨hs, hn, hc⟩
      · refine ⟨h1.inv, ⟨fun k l' hl' => ?_, fun k v' hv' => ?_⟩, ?_⟩
        · obtain ⟨l, hl, e⟩ := h1.ctrl.bwd hl'
          rw [e]
          have := hn.links k l hl
          exact ⟨this.length, this.limit, this.group, this.conflicts⟩
        · have none : lcs = [] := by
            refine List.eq_nil_iff_forall_not_mem.2 fun q hq => ?_
            obtain ⟨v, hv, -, hc, hne⟩ := (h1.planned q hq).ex
            have hi := hs.veh _ v hv
            obtain ⟨a, ha, h | ⟨l', hl', hm⟩⟩ := (hi.paths q.2 hc.mem).start
            · rw [ha, h] at hne; exact hne hi.src.symm
            · have := (hs.net.link _ l' hl').lc (List.ne_nil_of_mem hm)
              rw [(hn.links _ l' hl').group] at this
              cases this
          obtain ⟨w, hw, e, -⟩ := h1.vehs.bwd hv'
          rw [e (by rw [none]; simp)]
          obtain ⟨v, hv, e⟩ := h1.choose.bwd hw
          have := hn.vehicles k v hv
          rcases e with rfl | ⟨p, -, -, rfl⟩
          · exact this
          · exact ⟨this.pos, this.vel, this.acc⟩
        · unfold Crossings
          rw [h1.eq]
          exact hc
    refine .bind ((applyAccelerations_streets i1 n1 c1).and_of_ok (P := fun s2 => SimMid strict s2) ?_) fun s2 ⟨_, i2⟩ => ?_
    · intro n s2 h2
      let _ := Env.withFuel n
      rcases (applyAccelerations_phase (E := fun _ => True) trivial (.inr trivial) (.inr ⟨trivial, trivial, trivial⟩) i1.mid).ok h2 with
        ⟨-, rfl⟩ | ⟨-, n0, n1, vs, h2⟩
      · exact i1.mid
      · exact h2.mid i1
    refine .bind (P := fun s3 => SimMid strict s3) (.of_spec ((updateLights_phase (div := False) i2 dt).mono ?_ hE)) fun s3 i3 => ?_
    · rintro s3 ⟨wss, h3⟩
      exact h3.mid i2
    refine .bind (P := fun s4 => SimInv strict s4) (.of_spec ((integrate_phase i3 dt).mono (fun s4 h4 => h4.inv i3) fun _ => id))
      fun s4 i4 => ?_
    refine .bind (P := fun s5 => SimInv strict s5)
      (.of_spec ((advanceVehicles_phase StepErr.shift (.inl hd) i4).mono (fun s5 h5 => h5.inv i4) hE)) fun s5 i5 => ?_
    exact .bind (P := fun _ => True) (.of_spec ((updateVehicleCoords_phase i5).mono (fun _ _ => trivial) fun _ => id))
      fun s6 _ => .pure trivial
  obtain ⟨N, r, h1, -, h2⟩ := key
  exact ⟨N, r, h1, h2⟩

end

namespace Ringed

attribute [local instance] env

/-- A street that leads into a triangle of streets, where cars give way. -/
def ways : List (Op Float) :=
  [.addLink ⟨Town.street 0.0 0.0 1.0 0.0 10.0, 10.0⟩, .addLink ⟨Town.street 10.0 0.0 1.0 0.0 4.0, 10.0⟩,
   .addLink ⟨Town.street 12.0 (-2.0) 0.0 1.0 4.0, 10.0⟩, .addLink ⟨Town.street 12.0 2.0 1.0 0.0 3.0, 10.0⟩,
   .addLink ⟨Town.street 15.0 2.0 (-0.6) (-0.8) 5.0, 10.0⟩,
   .addLinkConnection ⟨0, 1⟩ ⟨1, 1⟩, .addLinkConnection ⟨2, 1⟩ ⟨3, 1⟩, .addLinkConnection ⟨3, 1⟩ ⟨4, 1⟩, .addLinkConnection ⟨4, 1⟩ ⟨2, 1⟩,
   .addLinkConvergance ⟨1, 1⟩ ⟨2, 1⟩, .setLinkControl ⟨1, 1⟩ (.yield_ 20.0 false 0)]

def street (l : Link Float) : Bool :=
  decide ((0.0009765625 : Float) ≤ l.length) && decide (l.length ≤ (10000.0 : Float)) && decide ((1.0 : Float) ≤ l.speedLimit) &&
  decide (l.speedLimit ≤ (100.0 : Float)) && l.group.isNone && l.conflicts.all fun c =>
    decide ((-10000.0 : Float) ≤ c.minPos) && decide ((-10000.0 : Float) ≤ c.ownMaxPos) && decide (c.ownMaxPos ≤ (10000.0 : Float))

def car (v : Vehicle Float) : Bool :=
  decide ((-20000.0 : Float) ≤ v.pos) && decide ((0.0 : Float) ≤ v.vel) && decide (v.vel ≤ (2000.0 : Float)) &&
  decide ((0.125 : Float) ≤ v.acc.maxAcc) && decide (v.acc.maxAcc ≤ (100.0 : Float))

/-- A link where vehicles give way to others. -/
def gives (l : Link Float) : Bool := !l.conflicts.isEmpty && match l.control with
  | .yield_ _ _ _ => true
  | _ => false

def test' (s : Sim Float) : Bool :=
  s.vehicles.keys == [⟨0, 1⟩] &&
  (s.conflicts.all fun c => decide ((-1000000.0 : Float) ≤ c.link0.minPos) && decide ((-1000000.0 : Float) ≤ c.link1.minPos)) &&
  (s.links.keys.all fun k => (s.links.get? k).all street) && (s.vehicles.keys.all fun k => (s.vehicles.get? k).all car) &&
  (s.links.get? ⟨1, 1⟩).any gives

end Ringed

/-- A car on a street that leads into a triangle of streets. -/
example : ∃ (_ : Env) (_ : LawfulDijkstra) (s : Sim Float), Reach True s ∧ SearchEnds ∧ Streets ⟨s.links, s.vehicles⟩ ∧ Crossings s ∧
    s.vehicles.keys ≠ [] ∧ ∃ k l, s.links.get? k = some l ∧ l.conflicts ≠ [] ∧ ∃ d m p, l.control = .yield_ d m p := by
  obtain ⟨-, s, -, -, -, hs, h⟩ := @trial_reach _ _ Ringed.env Ringed.ways (.addVehicle Town.car ⟨0, 1⟩) (fun _ s => Ringed.test' s) (by decide +kernel)
  unfold Ringed.test' at h
  simp only [Bool.and_eq_true, beq_iff_eq, List.all_eq_true, decide_eq_true_eq, Option.all_eq_true, Option.any_eq_true] at h
  obtain ⟨⟨⟨⟨h1, h2⟩, h3⟩, h4⟩, l, hl, h5⟩ := h
  refine ⟨Ringed.env, Search.full_lawful 400, s, hs, Search.full_ends 400, ⟨fun k l hl => ?_, fun k v hv => ?_⟩, h2, by rw [h1]; simp, _, l, hl, ?_⟩
  · have := h3 k (SlotMap.mem_keys.2 ⟨l, hl⟩) l hl
    unfold Ringed.street at this
    simp only [Bool.and_eq_true, decide_eq_true_eq, List.all_eq_true, Option.isNone_iff_eq_none] at this
    obtain ⟨⟨⟨⟨⟨a, b⟩, c⟩, d⟩, e⟩, f⟩ := this
    exact ⟨⟨a, b⟩, ⟨c, d⟩, e, fun c hc => ⟨(f c hc).1.1, (f c hc).1.2, (f c hc).2⟩⟩
  · have := h4 k (SlotMap.mem_keys.2 ⟨v, hv⟩) v hv
    unfold Ringed.car at this
    simp only [Bool.and_eq_true, decide_eq_true_eq] at this
    obtain ⟨⟨⟨⟨a, c⟩, d⟩, e⟩, f⟩ := this
    exact ⟨a, ⟨c, d⟩, e, f⟩
  · unfold Ringed.gives at h5
    simp only [Bool.and_eq_true, Bool.not_eq_true', List.isEmpty_eq_false_iff] at h5
    refine ⟨h5.1, ?_⟩
    cases hc : l.control with
    | yield_ d m p => exact ⟨d, m, p, rfl⟩
    | open_ => rw [hc] at h5; cases h5.2
    | closed => rw [hc] at h5; cases h5.2

end TrafficSim
