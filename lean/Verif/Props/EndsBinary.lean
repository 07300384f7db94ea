import Verif.Props.Binary
import Verif.Props.Terminate

/-! # C103: a step ends in binary64 -/

namespace TrafficSim

namespace B64

/-- A number of the format below the exact result is below the rounded one. -/
theorem Rounding.ge_rep {z : EReal} {w : Float} (h : Rounding z w) {c : ℝ} (hc : IsRep c) (hb : -huge < c) (hz : (c : EReal) ≤ z) :
    (c : EReal) ≤ val w := by
  induction z with
  | bot => exact absurd hz (not_le_of_gt (EReal.bot_lt_coe c))
  | top => rw [h.top]; exact le_top
  | coe r =>
    have hz : c ≤ r := EReal.coe_le_coe_iff.1 hz
    obtain ⟨y, -, hn, hcl, -⟩ := h.near r rfl
    have hy : c ≤ y := by
      by_contra hlt
      have := hn c hc
      rw [abs_of_nonpos (by linarith), abs_of_nonpos (by linarith)] at this
      linarith
    rcases hcl with ⟨e, -⟩ | ⟨e, -⟩ | ⟨-, h'⟩
    · show (c : EReal) ≤ uval _
      rw [e]; exact EReal.coe_le_coe_iff.2 hy
    · show (c : EReal) ≤ uval _
      rw [e]; exact le_top
    · linarith

/-- Multiples of 2⁻¹⁰ that are not too large are numbers of the format. -/
theorem grid_rep {j : ℤ} (h : |j| < 2 ^ 53) : IsRep (j / 1024) := by
  have e : ∀ n : ℕ, mval n (-10) = n / 1024 := fun n => by unfold mval; rw [zpow_neg]; norm_num; ring
  rcases le_total 0 j with h0 | h0
  · refine ⟨.positive, j.toNat, -10, by rw [abs_of_nonneg h0] at h; omega, by norm_num, ?_⟩
    show _ = mval _ _
    rw [e]
    congr 1
    exact_mod_cast (Int.toNat_of_nonneg h0).symm
  · refine ⟨.negative, (-j).toNat, -10, by rw [abs_of_nonpos h0] at h; omega, by norm_num, ?_⟩
    show _ = -mval _ _
    have : (((-j).toNat : ℤ) : ℝ) = ((-j : ℤ) : ℝ) := by exact_mod_cast Int.toNat_of_nonneg (by omega)
    push_cast at this
    rw [e, ← neg_div]
    congr 1
    have : (((-j).toNat : ℕ) : ℝ) = -(j : ℝ) := this
    rw [this, neg_neg]

theorem grid_gt {j : ℤ} (h : |j| < 2 ^ 53) : -huge < (j : ℝ) / 1024 := by
  have h1 : (-(2 : ℝ) ^ 53) < j := by exact_mod_cast (abs_lt.1 h).1
  have h2 : (2 : ℝ) ^ 53 ≤ huge := by
    unfold huge mval
    have : (2 : ℝ) ^ (1 : ℤ) ≤ 2 ^ (972 : ℤ) := zpow_le_zpow_right₀ (by norm_num) (by norm_num)
    generalize (2 : ℝ) ^ (972 : ℤ) = x at this ⊢
    norm_num at this ⊢
    linarith
  linarith

/-- A sum with at least 2⁻¹⁰ gets beyond the next multiple of 2⁻¹⁰. -/
theorem add_grid {x d : Float} (hx : x.isNaN = false) (hd : d.isNaN = false) {j : ℤ} (hj : |j + 1| < 2 ^ 53)
    (h1 : ((j / 1024 : ℝ) : EReal) ≤ val x) (h2 : ((1 / 1024 : ℝ) : EReal) ≤ val d) :
    (x + d).isNaN = false ∧ ((((j + 1 : ℤ) : ℝ) / 1024 : ℝ) : EReal) ≤ val (x + d) := by
  have hxb : val x ≠ ⊥ := fun h => by rw [h] at h1; exact absurd h1 (not_le_of_gt (EReal.bot_lt_coe _))
  have hdb : val d ≠ ⊥ := fun h => by rw [h] at h2; exact absurd h2 (not_le_of_gt (EReal.bot_lt_coe _))
  have hr := add_rounding hx hd (.inr hdb) (.inl hxb)
  refine ⟨hr.num, hr.ge_rep (grid_rep hj) (grid_gt hj) ?_⟩
  refine le_trans (le_of_eq ?_) (add_le_add h1 h2)
  rw [← EReal.coe_add, EReal.coe_eq_coe_iff]
  push_cast
  ring

theorem val_finite {x : Float} {m : Nat} {e : Int} {h : 0 < m} (hx : x.toModel.unpack = .finite .positive m e h) : val x = ((mval m e : ℝ) : EReal) := by
  unfold val; rw [hx]; rfl

theorem val_tick : val 0.0009765625 = ((1 / 1024 : ℝ) : EReal) := by
  rw [val_finite (m := 2 ^ 52) (e := -62) (h := by norm_num) (by rfl), EReal.coe_eq_coe_iff, mval, zpow_neg]
  norm_num

theorem val_five : val 5.0 = ((5 : ℝ) : EReal) := by
  rw [val_finite (m := 5 * 2 ^ 50) (e := -50) (h := by norm_num) (by rfl), EReal.coe_eq_coe_iff, mval, zpow_neg]
  norm_num

theorem val_million : val 1000000.0 = ((1000000 : ℝ) : EReal) := by
  rw [val_finite (m := 1000000 * 2 ^ 33) (e := -33) (h := by norm_num) (by rfl), EReal.coe_eq_coe_iff, mval, zpow_neg]
  norm_num

theorem val_two_million : val 2000000.0 = ((2000000 : ℝ) : EReal) := by
  rw [val_finite (m := 1000000 * 2 ^ 33) (e := -32) (h := by norm_num) (by rfl), EReal.coe_eq_coe_iff, mval, zpow_neg]
  norm_num

theorem val_five_million : val 5000000.0 = ((5000000 : ℝ) : EReal) := by
  rw [val_finite (m := 1250000 * 2 ^ 32) (e := -30) (h := by norm_num) (by rfl), EReal.coe_eq_coe_iff, mval, zpow_neg]
  norm_num

end B64

open B64

/-- All links have lengths of at least about a millimetre and speed limits of at most a million metres per second. -/
structure Numbers (links : LinkSet Float) : Prop where
  length : ∀ k l, links.get? k = some l → (0.0009765625 : Float) ≤ l.length
  limit : ∀ k l, links.get? k = some l → (0.0 : Float) < l.speedLimit ∧ l.speedLimit ≤ (1000000.0 : Float)

theorem far_enough {pos limit : Float} (hp : pos.isNaN = false) (h : ((5000000 : ℝ) : EReal) ≤ val pos) (hl : limit ≤ 1000000.0) :
    (0.0 : Float) ≤ pos - 5.0 * limit := by
  obtain ⟨h1, -, h2⟩ := le_iff.1 hl
  rw [val_million] at h2
  have r1 := mul_rounding (x := 5.0) (y := limit) (by decide +kernel) h1 (.inl ⟨by rw [val_five]; exact EReal.coe_ne_top _, by rw [val_five]; exact EReal.coe_ne_bot _⟩)
    (.inr (by rw [val_five]; norm_num))
  have h3 : val (5.0 * limit) ≤ ((5000000 : ℝ) : EReal) := by
    rw [← val_five_million]
    refine r1.above _ (by decide +kernel) ?_
    rw [val_five_million, val_five]
    refine (mul_le_mul_of_nonneg_left h2 (by exact_mod_cast (by norm_num : (0 : ℝ) ≤ 5))).trans (le_of_eq ?_)
    rw [← EReal.coe_mul]; norm_num
  have h4 : val (5.0 * limit) ≠ ⊤ := fun e => by rw [e] at h3; exact absurd h3 (not_le_of_gt (EReal.coe_lt_top _))
  have h5 : val pos ≠ ⊥ := fun e => by rw [e] at h; exact absurd h (not_le_of_gt (EReal.bot_lt_coe _))
  have r2 := sub_rounding hp r1.num (.inr h4) (.inl h5)
  refine nonneg_iff.2 ⟨r2.num, ?_⟩
  rw [← val_zero]
  refine r2.below 0.0 (by decide +kernel) ?_
  rw [val_zero]
  exact (EReal.sub_nonneg (.inr h4) (.inl h5)).2 (h3.trans h)

theorem processVehicles_levels_float {σ : Type} {Q : σ → Prop} {net : Net Float} {g : Nat → RelVeh Float → σ → M (σ × Bool)}
    (hg : ∀ r s, Q s → Settles (fun n => g n r s) fun p => Q p.1) (hnet : Numbers net.links) :
    ∀ (m : Nat) (_ : m < 2 ^ 52) {φ : Nat → Nat} (_ : Unbounded φ) {k : Key} {l : Link Float} (_ : net.links.get? k = some l) {route : Nat × Key}
      {pos : Float} (_ : pos.isNaN = false) (_ : ((((5120000000 - m : ℤ) : ℝ) / 1024 : ℝ) : EReal) ≤ val pos) {skip : Nat} {s : σ} (_ : Q s),
    Settles (fun n => Link.processVehicles net (g n) (φ n) l route pos skip s) Q := by
  intro m
  induction m with
  | zero =>
    intro _ φ hφ k l hl route pos hn hp skip s hs
    obtain ⟨N, hN⟩ := hφ.succ
    refine .congr ⟨N, fun n hn => by rw [hN n hn]⟩ ?_
    simp only [Link.processVehicles]
    refine .ite (fun _ => .pure hs) fun _ => .bind (processList_settles hg hs) fun p hp' => ?_
    obtain ⟨s', b⟩ := p
    refine .ite (fun _ => .pure hp') fun _ => .ite (fun _ => .pure hp') fun h => absurd ?_ h
    refine far_enough hn ?_ (hnet.limit k l hl).2
    norm_num at hp
    exact hp
  | succ m ih =>
    intro hm φ hφ k l hl route pos hn hp skip s hs
    obtain ⟨N, hN⟩ := hφ.succ
    refine .congr ⟨N, fun n hn => by rw [hN n hn]⟩ ?_
    simp only [Link.processVehicles]
    refine .ite (fun _ => .pure hs) fun _ => .bind (processList_settles hg hs) fun p hp' => ?_
    obtain ⟨s', b⟩ := p
    refine .ite (fun _ => .pure hp') fun _ => .ite (fun _ => .pure hp') fun _ => ?_
    refine .foldlM (fun s hs j hj => ?_) hp'
    refine .bind getLink_settles fun l' hl' => ?_
    obtain ⟨-, hd, hle⟩ := le_iff.1 (hnet.length j l' hl')
    rw [val_tick] at hle
    obtain ⟨g1, g2⟩ := add_grid hn hd (j := 5120000000 - ((m + 1 : ℕ) : ℤ)) (by rw [abs_lt]; omega) hp hle
    rw [show (5120000000 - ((m + 1 : ℕ) : ℤ) + 1 : ℤ) = 5120000000 - m by push_cast; ring] at g2
    exact ih (by omega) hφ.pred hl' g1 g2 hs

/-- The search over the vehicles on upstream links ends. -/
theorem processVehicles_settles_float {σ : Type} {Q : σ → Prop} {net : Net Float} (hnet : Numbers net.links)
    {g : Nat → RelVeh Float → σ → M (σ × Bool)} (hg : ∀ r s, Q s → Settles (fun n => g n r s) fun p => Q p.1) {k : Key}
    {l : Link Float} (hl : net.links.get? k = some l) {route : Nat × Key} {pos : Float} (hpos : (-1000000.0 : Float) ≤ pos) {skip : Nat} {s : σ} (hs : Q s) :
    Settles (fun n => Link.processVehicles net (g n) n l route pos skip s) Q := by
  obtain ⟨-, h1, h2⟩ := le_iff.1 hpos
  rw [val_neg, val_million] at h2
  refine processVehicles_levels_float hg hnet (5120000000 + 1024000000) (by norm_num) .id hl h1 (le_trans ?_ h2) hs
  rw [← EReal.coe_neg]
  exact EReal.coe_le_coe_iff.2 (by norm_num)

theorem gap_enough {pos mv time : Float} {A B : ℝ} {j : ℤ} (hp : pos.isNaN = false) (h : ((4000000000000 : ℝ) : EReal) ≤ val pos) (hm : (0.0 : Float) < mv)
    (h2 : val mv ≤ (A : EReal)) (t1 : time.isNaN = false) (t2 : val time ≤ (B : EReal)) (hj : |j| < 2 ^ 53) (hB : B < j / 1024) (hA : j / 1024 * A ≤ 4000000000000)
    (hj0 : 0 ≤ j) : time < pos / mv := by
  obtain ⟨-, h1, h3⟩ := lt_iff.1 hm
  rw [val_zero] at h3
  obtain ⟨r, hr⟩ : ∃ r : ℝ, val mv = r := by
    induction hv : val mv with
    | bot => rw [hv] at h3; exact absurd h3 (not_lt_of_ge bot_le)
    | top => rw [hv] at h2; exact absurd h2 (not_le_of_gt (EReal.coe_lt_top _))
    | coe r => exact ⟨r, rfl⟩
  rw [hr] at h2 h3
  have h2 := EReal.coe_le_coe_iff.1 h2
  have h3 : 0 < r := EReal.coe_pos.1 h3
  have r1 := div_rounding hp h1 (.inr ⟨by rw [hr]; exact EReal.coe_ne_top _, by rw [hr]; exact EReal.coe_ne_bot _⟩)
    (by rw [hr]; exact_mod_cast h3.ne')
  have h4 : ((j / 1024 : ℝ) : EReal) ≤ val (pos / mv) := by
    refine r1.ge_rep (grid_rep hj) (grid_gt hj) ?_
    rw [hr]
    refine le_trans ?_ (EReal.div_le_div_right_of_nonneg (by exact_mod_cast h3.le) h)
    rw [← EReal.coe_div]
    refine EReal.coe_le_coe_iff.2 ?_
    rw [le_div_iff₀ h3]
    have hj0 : (0 : ℝ) ≤ j := by exact_mod_cast hj0
    have : (j : ℝ) / 1024 * r ≤ j / 1024 * A := mul_le_mul_of_nonneg_left h2 (by positivity)
    linarith
  exact lt_iff.2 ⟨t1, r1.num, (t2.trans_lt (EReal.coe_lt_coe_iff.2 hB)).trans_le h4⟩

theorem checkGapList_settles_float {vs : VehicleSet Float} {pos0 time : Float} {q : Option Nat} {route : Nat × Key} {mv : Float} :
    ∀ {ks : List Key}, Settles (fun _ => Link.checkGapList vs pos0 time q route mv ks) fun _ => True
  | [] => by
    unfold Link.checkGapList
    exact .pure trivial
  | k :: ks => by
    have ih := checkGapList_settles_float (vs := vs) (pos0 := pos0) (time := time) (q := q) (route := route) (mv := mv) (ks := ks)
    unfold Link.checkGapList
    refine .bind getVeh_settles fun v _ => ?_
    cases v.getRoute route.1 with
    | none => exact ih
    | some p =>
      obtain ⟨k', st⟩ := p
      refine .ite (fun _ => ih) fun _ => ?_
      cases st <;> cases q <;> first | exact .pure trivial | exact .ite (fun _ => .pure trivial) fun _ => .pure trivial

theorem skipAhead_settles_float {vs : VehicleSet Float} {pos : Float} : ∀ {ks : List Key},
    Settles (fun _ => Link.skipAhead vs pos ks) fun _ => True
  | [] => by
    unfold Link.skipAhead
    exact .pure trivial
  | k :: ks => by
    unfold Link.skipAhead
    exact .bind getVeh_settles fun v _ => .ite (fun _ => skipAhead_settles_float) fun _ => .pure trivial

theorem fmax_limit {mv limit top : Float} (hm : mv ≤ top) (h0 : (0.0 : Float) < limit) (h1 : limit ≤ top) :
    (0.0 : Float) < fmax mv limit ∧ fmax mv limit ≤ top := by
  rcases fmax_cases mv limit with ⟨e, -⟩ | ⟨e, hlt, hn⟩ <;> rw [e]
  · exact ⟨h0, h1⟩
  · obtain ⟨a, b, c⟩ := lt_iff.1 h0
    exact ⟨lt_iff.2 ⟨a, hn, c.trans_le (le_of_not_gt fun h => hlt (lt_iff.2 ⟨hn, b, h⟩))⟩, hm⟩

theorem checkGap_levels_float {net : Net Float} {time top : Float} {q : Option Nat} (hnet : Numbers net.links)
    (htop : ∀ k l, net.links.get? k = some l → l.speedLimit ≤ top)
    (ht : ∀ {pos mv : Float}, pos.isNaN = false → ((4000000000000 : ℝ) : EReal) ≤ val pos → (0.0 : Float) < mv → mv ≤ top → time < pos / mv) :
    ∀ (m : Nat) (_ : m < 2 ^ 52) {φ : Nat → Nat} (_ : Unbounded φ) {k : Key} {l : Link Float} (_ : net.links.get? k = some l) {route : Nat × Key}
      {pos : Float × Float} (_ : pos.1.isNaN = false) (_ : ((((4096000000000000 - m : ℤ) : ℝ) / 1024 : ℝ) : EReal) ≤ val pos.1) {mv : Float}
      (_ : mv ≤ top),
    Settles (fun n => Link.checkGap net time q (φ n) l pos route mv) fun _ => True := by
  intro m
  induction m with
  | zero =>
    intro _ φ hφ k l hl route pos hn hp mv hmv
    obtain ⟨N, hN⟩ := hφ.succ
    refine .congr ⟨N, fun n hn => by rw [hN n hn]⟩ ?_
    simp only [Link.checkGap]
    refine .bind skipAhead_settles_float fun ks _ => .bind checkGapList_settles_float fun b _ => ?_
    cases b with
    | some b => exact .pure trivial
    | none =>
      refine .ite (fun _ => .pure trivial) fun h => absurd ?_ h
      have h0 := (hnet.limit k l hl).1
      obtain ⟨g0, g1⟩ := fmax_limit hmv h0 (htop k l hl)
      refine ht hn ?_ g0 g1
      norm_num at hp
      exact hp
  | succ m ih =>
    intro hm φ hφ k l hl route pos hn hp mv hmv
    obtain ⟨N, hN⟩ := hφ.succ
    refine .congr ⟨N, fun n hn => by rw [hN n hn]⟩ ?_
    simp only [Link.checkGap]
    refine .bind skipAhead_settles_float fun ks _ => .bind checkGapList_settles_float fun b _ => ?_
    cases b with
    | some b => exact .pure trivial
    | none =>
      refine .ite (fun _ => .pure trivial) fun _ => allM_settles fun j hj => ?_
      have h0 := (hnet.limit k l hl).1
      refine .bind getLink_settles fun l' hl' => ?_
      obtain ⟨-, hd, hle⟩ := le_iff.1 (hnet.length j l' hl')
      rw [val_tick] at hle
      obtain ⟨j, ej⟩ : ∃ j : ℤ, j = 4096000000000000 - ((m + 1 : ℕ) : ℤ) := ⟨_, rfl⟩
      have e1 : (j : ℝ) / 1024 = ((4096000000000000 - ((m + 1 : ℕ) : ℤ) : ℤ) : ℝ) / 1024 := by rw [ej]
      have e2 : j + 1 = 4096000000000000 - (m : ℤ) := by rw [ej]; push_cast; ring
      obtain ⟨g1, g2⟩ := add_grid hn hd (j := j) (by rw [abs_lt]; omega) (by rw [e1]; exact_mod_cast hp) hle
      rw [e2] at g2
      exact ih (by omega) hφ.pred hl' (pos := (pos.1 + l'.length, pos.2 + l'.length)) g1 g2 (fmax_limit hmv h0 (htop k l hl)).2

/-- The search for a gap ends if distances get long enough. -/
theorem checkGap_settles_float {net : Net Float} {time top : Float} {q : Option Nat} (hnet : Numbers net.links)
    (htop : ∀ k l, net.links.get? k = some l → l.speedLimit ≤ top) (h0 : (0.0 : Float) ≤ top)
    (ht : ∀ {pos mv : Float}, pos.isNaN = false → ((4000000000000 : ℝ) : EReal) ≤ val pos → (0.0 : Float) < mv → mv ≤ top → time < pos / mv)
    {k : Key} {l : Link Float} (hl : net.links.get? k = some l) {pos : Float × Float} (hp : (-1000000.0 : Float) ≤ pos.1) (route : Nat × Key) :
    Settles (fun n => Link.checkGap net time q n l pos route 0.0) fun _ => True := by
  obtain ⟨-, h1, h2⟩ := le_iff.1 hp
  rw [val_neg, val_million] at h2
  obtain ⟨m, hm⟩ : ∃ m : ℕ, m = 4096000000000000 + 1024000000 := ⟨_, rfl⟩
  have hstart : ((((4096000000000000 - m : ℤ) : ℝ) / 1024 : ℝ) : EReal) ≤ val pos.1 := by
    refine le_trans ?_ h2
    rw [← EReal.coe_neg]
    refine EReal.coe_le_coe_iff.2 ?_
    rw [hm]
    norm_num
  exact checkGap_levels_float hnet htop ht m (by omega) .id hl h1 hstart h0

/-- **C103**, the search over the vehicles on links upstream (binary64): it ends from every position above -10⁶ m if lengths are at least
2⁻¹⁰ m and speed limits are positive and at most 10⁶ m/s, whatever is done with the vehicles, as long as that ends. -/
theorem C103_search {σ : Type} {net : Net Float} (hn : Numbers net.links) {k : Key} {l : Link Float} (hl : net.links.get? k = some l)
    (f : RelVeh Float → σ → M (σ × Bool)) (hf : ∀ veh s, f veh s ≠ .error .diverges) (route : Nat × Key) {pos : Float}
    (hp : (-1000000.0 : Float) ≤ pos) (skip : Nat) (s : σ) :
    ∃ N r, r ≠ .error .diverges ∧ ∀ n, N ≤ n → Link.processVehicles net f n l route pos skip s = r := by
  obtain ⟨N, r, h1, -, h2⟩ := processVehicles_settles_float (Q := fun _ => True) hn (g := fun _ => f)
    (fun veh s _ => ⟨0, f veh s, hf veh s, fun _ _ => trivial, fun _ _ => rfl⟩) hl (route := route) hp (skip := skip) (s := s) trivial
  exact ⟨N, r, h1, h2⟩

/-- **C103**, the search for a gap (binary64): it ends for the same networks and positions if the gap that is searched for is at most 10⁶ s. -/
theorem C103_gap {net : Net Float} (hn : Numbers net.links) {k : Key} {l : Link Float} (hl : net.links.get? k = some l) {time : Float}
    (ht : time ≤ 1000000.0) (queuedAt : Option Nat) {pos : Float × Float} (hp : (-1000000.0 : Float) ≤ pos.1) (route : Nat × Key) :
    ∃ N r, r ≠ .error .diverges ∧ ∀ n, N ≤ n → Link.checkGap net time queuedAt n l pos route 0.0 = r := by
  obtain ⟨t1, -, t2⟩ := le_iff.1 ht
  rw [val_million] at t2
  obtain ⟨N, r, h1, -, h2⟩ := checkGap_settles_float (q := queuedAt) hn (fun k l hl => (hn.limit k l hl).2)
    (le_iff.2 ⟨by decide +kernel, by decide +kernel, by rw [val_zero, val_million]; exact_mod_cast (by norm_num : (0 : ℝ) ≤ 1000000)⟩)
    (fun hn h hm hl => gap_enough (j := 2048000000) hn h hm (val_million ▸ (le_iff.1 hl).2.2) t1 t2 (by norm_num) (by norm_num) (by norm_num) (by norm_num))
    hl hp route
  exact ⟨N, r, h1, h2⟩

/-! ## A step -/

/-- What a step needs to end in binary64, besides lengths and speed limits: no lanes next to each other, and links where vehicles give way
cross no others. -/
structure PlainNet (links : LinkSet Float) : Prop extends Numbers links where
  group : ∀ k l, links.get? k = some l → l.group = none
  gives : ∀ k l, links.get? k = some l → (∀ d m p, l.control ≠ .yield_ d m p) ∨ l.conflicts = []

theorem PlainNet.rel {links links' : LinkSet Float} (h : PlainNet links) (hr : SRel (fun _ l l' => l'.curve = l.curve ∧
    l'.speedLimit = l.speedLimit ∧ l'.group = l.group ∧ l'.control = l.control ∧ l'.conflicts = l.conflicts) links links') : PlainNet links' := by
  refine ⟨⟨fun k l' hl' => ?_, fun k l' hl' => ?_⟩, fun k l' hl' => ?_, fun k l' hl' => ?_⟩
  all_goals obtain ⟨l, hl, h1, h2, h3, h4, h5⟩ := hr.bwd hl'
  · have := h.length k l hl
    unfold Link.length at this ⊢
    rw [h1]; exact this
  · rw [h2]; exact h.limit k l hl
  · rw [h3]; exact h.group k l hl
  · rw [h4, h5]; exact h.gives k l hl

theorem PlainNet.lastConflict {links : LinkSet Float} (h : PlainNet links) (k : Key) (c : Nat) :
    PlainNet (links.modify k fun l => { l with lastConflict := c }) :=
  h.rel (SRel.modify_one _ _ _ (fun _ _ _ => ⟨rfl, rfl, rfl, rfl, rfl⟩) fun _ _ => ⟨rfl, rfl, rfl, rfl, rfl⟩)

section
variable [Env]

theorem stoplineFn_settles_float {net : Net Float} (hnet : PlainNet net.links) {l : Link Float} (r : RelVeh Float) (s : Net Float)
    (hs : PlainNet s.links) : Settles (fun n => @Link.stoplineFn Float _ (Env.withFuel n) net l r s) fun p => PlainNet p.1.links := by
  unfold Link.stoplineFn
  cases hg : r.getRoute 1 with
  | none =>
    dsimp only
    exact .ite (fun _ => .pure hs) fun _ => .pure hs
  | some p =>
    obtain ⟨k, st⟩ := p
    cases st with
    | entered =>
      dsimp only
      exact .pure hs
    | notEntered =>
      dsimp only
      refine .bind getLink_settles fun next _ => ?_
      cases next.control with
      | open_ => exact .ite (fun _ => .pure hs) fun _ => .pure hs
      | yield_ d m p => exact .pure hs
      | closed => exact .pure hs
    | queuedAt f =>
      dsimp only
      refine .bind getLink_settles fun next hnext => ?_
      have hgive := hnet.gives k next hnext
      cases hc : next.control with
      | open_ => exact .ite (fun _ => .pure hs) fun _ => .pure hs
      | yield_ d m p =>
        dsimp only
        have hcs : next.conflicts = [] := hgive.resolve_left fun h => h d m p hc
        refine .bind getLink_settles fun cur _ => ?_
        refine .bind (P := fun _ => True) ?_ fun b _ => ?_
        · unfold Link.canEnter
          rw [hcs]
          exact .pure trivial
        · obtain ⟨b, c⟩ := b
          dsimp only
          exact .ite (fun _ => .pure (hs.lastConflict _ _)) fun _ => .pure (hs.lastConflict _ _)
      | closed => exact .pure hs

omit [Env] in
theorem start_length {l : Float} (h : (0.0009765625 : Float) ≤ l) : (-1000000.0 : Float) ≤ l := by
  obtain ⟨-, h1, h2⟩ := le_iff.1 h
  rw [val_tick] at h2
  refine le_iff.2 ⟨by decide +kernel, h1, le_trans ?_ h2⟩
  rw [val_neg, val_million, ← EReal.coe_neg]
  exact EReal.coe_le_coe_iff.2 (by norm_num)

theorem applyStoplines_settles_float {net : Net Float} (hnet : PlainNet net.links) (k : Key) :
    Settles (fun n => @Link.applyStoplines Float _ (Env.withFuel n) net k) fun n => PlainNet n.links := by
  unfold Link.applyStoplines
  exact .bind getLink_settles fun l hl => processVehicles_settles_float hnet.toNumbers
    (fun r s hs => stoplineFn_settles_float hnet r s hs) hl (start_length (hnet.length k l hl)) hnet

omit [Env] in
theorem updVeh_settles_float {vs : VehicleSet Float} {k : Key} {f : Vehicle Float → Vehicle Float} :
    Settles (fun _ => updVeh vs k f) fun _ => True := by
  unfold updVeh
  split
  · exact .pure trivial
  · exact .throw (by simp)

omit [Env] in
theorem followWindows_settles_float {limit : Float} : ∀ {ks : List Key} {vs : VehicleSet Float},
    Settles (fun _ => Link.followWindows limit ks vs) fun _ => True
  | [], _ => by
    unfold Link.followWindows
    exact .pure trivial
  | [k], vs => by
    unfold Link.followWindows
    exact updVeh_settles_float
  | k :: k' :: ks, vs => by
    unfold Link.followWindows
    exact .bind getVeh_settles fun ld _ => .bind updVeh_settles_float fun vs' _ => followWindows_settles_float

omit [Env] in
theorem enteringFn_settles_float {l : Link Float} (r : RelVeh Float) (vs : VehicleSet Float) :
    Settles (fun _ => Link.enteringFn l r vs) fun _ => True := by
  unfold Link.enteringFn
  dsimp only
  cases l.vehicles with
  | nil => exact .pure trivial
  | cons k ks => exact .bind getVeh_settles fun ld _ => .pure trivial

theorem linkAccelerations_settles_float {links : LinkSet Float} (hnet : Numbers links)
    (hgr : ∀ k l, links.get? k = some l → l.group = none) (vs : VehicleSet Float) (k : Key) :
    Settles (fun n => @Link.applyAccelerations Float _ (Env.withFuel n) links vs k) fun _ => True := by
  unfold Link.applyAccelerations
  refine .bind getLink_settles fun l hl => .bind followWindows_settles_float fun vs1 _ => ?_
  refine .bind (processVehicles_settles_float (net := ⟨links, vs1⟩) (Q := fun _ => True) hnet
    (fun r s _ => (enteringFn_settles_float r s).mono fun _ _ => trivial) hl (by decide +kernel) trivial) fun vs2 _ => ?_
  rw [hgr k l hl]
  exact .pure trivial

theorem findVehicles_settles_float {net : Net Float} (hnet : Numbers net.links) {c : ConflictPointLink Float} (hc : (-1000000.0 : Float) ≤ c.minPos)
    (out : List (RelVeh Float)) : Settles (fun n => @ConflictPointLink.findVehicles Float _ (Env.withFuel n) c net out) fun _ => True := by
  unfold ConflictPointLink.findVehicles
  refine .bind getLink_settles fun l hl => processVehicles_settles_float (Q := fun _ => True) hnet (fun r s _ => ?_) hl hc trivial
  unfold ConflictPointLink.findFn
  exact .ite (fun _ => .pure trivial) fun _ => .pure trivial

theorem conflictAccelerations_settles_float {links : LinkSet Float} (hnet : Numbers links) {c : ConflictPoint Float}
    (h0 : (-1000000.0 : Float) ≤ c.link0.minPos) (h1 : (-1000000.0 : Float) ≤ c.link1.minPos) (vs : VehicleSet Float) :
    Settles (fun n => @ConflictPoint.applyAccelerations Float _ (Env.withFuel n) c links vs) fun _ => True := by
  unfold ConflictPoint.applyAccelerations
  refine .bind (findVehicles_settles_float hnet h0 _) fun b0 _ => .ite (fun _ => .pure trivial) fun _ => ?_
  refine .bind (findVehicles_settles_float hnet h1 _) fun b1 _ => .ite (fun _ => .pure trivial) fun _ => ?_
  refine .bind (P := fun _ => True) ?_ fun b _ => .pure trivial
  unfold sortBuffer
  exact .ite (fun _ => .throw (by simp)) fun _ => .pure trivial

/-- Where links cross or merge is not far before their beginnings. -/
def Crossings (s : Sim Float) : Prop :=
  ∀ c ∈ s.conflicts, (-1000000.0 : Float) ≤ c.link0.minPos ∧ (-1000000.0 : Float) ≤ c.link1.minPos

theorem applyAccelerations_settles_float {strict : Prop} {s : Sim Float} (hs : SimInv strict s) (hn : PlainNet s.links) (hc : Crossings s) :
    Settles (fun n => @Sim.applyAccelerations Float _ (Env.withFuel n) s) fun _ => True := by
  unfold Sim.applyAccelerations
  refine .ite (fun _ => .pure trivial) fun _ => ?_
  refine .bind (.of_spec (prepareNet_spec fun k v hv => (hs.veh k v hv).drivable.valid)) fun n0 h0 => ?_
  have hn0 : PlainNet n0.links := hn.rel (h0.links.mono fun k l l' => by
    rintro ⟨b, rfl, -⟩
    exact ⟨rfl, rfl, rfl, rfl, rfl⟩)
  refine .bind (P := fun n1 => PlainNet n1.links) (.foldlM (fun n1 h1 k _ => applyStoplines_settles_float h1 k) hn0) fun n1 h1 => ?_
  refine .bind (P := fun _ => True) ?_ fun vs _ => .pure trivial
  unfold Sim.applyLinkAccelerations
  refine .bind (P := fun _ => True) (.foldlM (fun vs _ k _ => linkAccelerations_settles_float h1.toNumbers h1.group vs k) trivial) fun vs _ => ?_
  exact .foldlM (fun vs _ c hcm => conflictAccelerations_settles_float h1.toNumbers (hc c hcm).1 (hc c hcm).2 vs) trivial

/-- **C103, in part** (binary64).  A step of a reachable simulation ends if lengths are at least 2⁻¹⁰ m, speed limits are positive and at
most 10⁶ m/s, and the search for shortest paths ends.  Links must not be grouped, and where vehicles give way no links may cross: then the
search for a gap may go on for ever. -/
theorem C103_step_partial [LawfulDijkstra] {strict : Prop} {s : Sim Float} (h : Reach strict s) (hd : SearchEnds) (hn : PlainNet s.links)
    (hc : Crossings s) (dt : Float) : ∃ N r, r ≠ .error .diverges ∧ ∀ n, N ≤ n → @Sim.step Float _ (Env.withFuel n) s dt = r := by
  have hs := h.inv
  have key : Settles (fun n => @Sim.step Float _ (Env.withFuel n) s dt) fun _ => True := by
    have hE : ∀ e, StepErr strict False True e → e ≠ .diverges := by
      rintro e he rfl
      exact he
    unfold Sim.step
    refine .bind (P := fun s1 => SimInv strict s1 ∧ PlainNet s1.links ∧ Crossings s1)
      (.of_spec ((calculateLaneChanges_phase (strict := strict) (div := False) (.inl hd) (.inr trivial) hs).mono ?_ hE)) fun s1 ⟨i1, n1, c1⟩ => ?_
    · rintro s1 (⟨-, rfl⟩ | ⟨-, vs, lcs, h1⟩)
      · exact ⟨hs, hn, hc⟩
      · refine ⟨h1.inv, hn.rel (h1.ctrl.mono fun k l l' e => by rw [e]; exact ⟨rfl, rfl, rfl, rfl, rfl⟩), ?_⟩
        unfold Crossings
        rw [h1.eq]
        exact hc
    refine .bind ((applyAccelerations_settles_float i1 n1 c1).and_of_ok (P := fun s2 => SimMid strict s2) ?_) fun s2 ⟨_, i2⟩ => ?_
    · intro n s2 h2
      let _ := Env.withFuel n
      rcases (applyAccelerations_phase (E := fun _ => True) trivial (.inr trivial) (.inr ⟨trivial, trivial, trivial⟩) i1.mid).ok h2 with
        ⟨-, rfl⟩ | ⟨-, n0, n1, vs, h2⟩
      · exact i1.mid
      · exact h2.mid i1
    refine .bind (P := fun s3 => SimMid strict s3) (.of_spec ((updateLights_phase (div := False) i2 dt).mono ?_ hE)) fun s3 i3 => ?_
    · rintro s3 ⟨wss, h3⟩
      exact h3.mid i2
    refine .bind (P := fun s4 => SimInv strict s4) (.of_spec ((integrate_phase i3 dt).mono (fun s4 h4 => h4.inv i3) fun _ => id))
      fun s4 i4 => ?_
    refine .bind (P := fun s5 => SimInv strict s5)
      (.of_spec ((advanceVehicles_phase StepErr.shift (.inl hd) i4).mono (fun s5 h5 => h5.inv i4) hE)) fun s5 i5 => ?_
    exact .bind (P := fun _ => True) (.of_spec ((updateVehicleCoords_phase i5).mono (fun _ _ => trivial) fun _ => id))
      fun s6 _ => .pure trivial
  obtain ⟨N, r, h1, -, h2⟩ := key
  exact ⟨N, r, h1, h2⟩

end

namespace Ringed

@[instance_reducible] noncomputable def env : Env := Search.full 400

attribute [local instance] env

/-- A triangle of streets with a car, and a street that leads into it. -/
def ops : List (Op Float) :=
  [.addLink ⟨Town.street 0.0 0.0 1.0 0.0 4.0, 10.0⟩, .addLink ⟨Town.street 4.0 0.0 0.0 1.0 3.0, 10.0⟩,
   .addLink ⟨Town.street 4.0 3.0 (-0.8) (-0.6) 5.0, 10.0⟩, .addLink ⟨Town.street (-4.0) 0.0 1.0 0.0 4.0, 10.0⟩,
   .addLinkConnection ⟨0, 1⟩ ⟨1, 1⟩, .addLinkConnection ⟨1, 1⟩ ⟨2, 1⟩, .addLinkConnection ⟨2, 1⟩ ⟨0, 1⟩, .addLinkConnection ⟨3, 1⟩ ⟨0, 1⟩,
   .addLinkConvergance ⟨2, 1⟩ ⟨3, 1⟩, .setLinkControl ⟨0, 1⟩ (.yield_ 20.0 false 0)]

def test (s : Sim Float) : Bool :=
  s.vehicles.keys == [⟨0, 1⟩] && !s.conflicts.isEmpty &&
  (s.conflicts.all fun c => decide ((-1000000.0 : Float) ≤ c.link0.minPos) && decide ((-1000000.0 : Float) ≤ c.link1.minPos)) &&
  s.links.keys.all fun k =>
    match s.links.get? k with
    | some l => decide ((0.0009765625 : Float) ≤ l.length) && decide ((0.0 : Float) < l.speedLimit) && decide (l.speedLimit ≤ (1000000.0 : Float)) &&
      l.group.isNone && (l.conflicts.isEmpty || match l.control with
        | .yield_ _ _ _ => false
        | _ => true)
    | none => false

end Ringed

/-- A car on a ring road that a road leads into. -/
example : ∃ (_ : Env) (_ : LawfulDijkstra) (s : Sim Float), Reach True s ∧ SearchEnds ∧ PlainNet s.links ∧ Crossings s ∧ s.conflicts ≠ [] ∧
    s.vehicles.keys ≠ [] := by
  obtain ⟨-, s, -, -, -, hs, h⟩ := @trial_reach _ _ Ringed.env Ringed.ops (.addVehicle Town.car ⟨0, 1⟩) (fun _ s => Ringed.test s) (by decide +kernel)
  unfold Ringed.test at h
  simp only [Bool.and_eq_true, beq_iff_eq, List.all_eq_true, decide_eq_true_eq, Bool.not_eq_true', List.isEmpty_eq_false_iff] at h
  obtain ⟨⟨⟨h1, h2⟩, h3⟩, h4⟩ := h
  have key : ∀ k l, s.links.get? k = some l → ((0.0009765625 : Float) ≤ l.length ∧ (0.0 : Float) < l.speedLimit ∧ l.speedLimit ≤ (1000000.0 : Float)) ∧
      l.group = none ∧ ((∀ d m p, l.control ≠ .yield_ d m p) ∨ l.conflicts = []) := by
    intro k l hl
    have := h4 k (SlotMap.mem_keys.2 ⟨l, hl⟩)
    rw [hl] at this
    simp only [Bool.and_eq_true, decide_eq_true_eq, Option.isNone_iff_eq_none, Bool.or_eq_true, List.isEmpty_iff] at this
    obtain ⟨⟨⟨⟨a, b⟩, c⟩, d⟩, e⟩ := this
    refine ⟨⟨a, b, c⟩, d, e.symm.imp_left fun e d m p hc => ?_⟩
    rw [hc] at e
    cases e
  exact ⟨Ringed.env, Search.full_lawful 400, s, hs, Search.full_ends 400, ⟨⟨fun k l hl => (key k l hl).1.1, fun k l hl => (key k l hl).1.2⟩,
    fun k l hl => (key k l hl).2.1, fun k l hl => (key k l hl).2.2⟩, h3, h2, by rw [h1]; simp⟩

end TrafficSim
