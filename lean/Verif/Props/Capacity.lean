import Verif.Props.Order

/-! # C101: there are not more vehicles on a link than have room on it

The vehicles on a link take up, all together, no more than the length of the link and what may stand out at its ends, which is half of a
vehicle at each end. -/

namespace TrafficSim

section
variable {F : Type} [Flt F] {s s' : Sim F}

/-- Adding a vehicle takes up at most one more place. -/
theorem addVehicle_grows [Env] {a : VehicleAttributes F} {lk k : Key} (h : s.addVehicle a lk = .ok (s', k)) :
    s'.vehicles.slots.length ≤ s.vehicles.slots.length + 1 := by
  unfold Sim.addVehicle at h
  obtain ⟨⟨vs, id⟩, h1, h⟩ := M_bind_ok.1 h
  obtain ⟨links, -, h⟩ := M_bind_ok.1 h
  rw [M_pure_ok] at h
  cases h
  dsimp only
  unfold SlotMap.insertWithKey at h1
  split at h1
  · split at h1
    · obtain ⟨v, -, h1⟩ := M_bind_ok.1 h1
      rw [M_pure_ok] at h1
      cases h1
      simp
    · cases h1
  · rcases ite_ok.1 h1 with ⟨-, h1⟩ | ⟨-, h1⟩
    · cases h1
    · obtain ⟨v, -, h1⟩ := M_bind_ok.1 h1
      rw [M_pure_ok] at h1
      cases h1
      simp

/-- **C101, it is false** (any numbers).  Any number of vehicles, of any size, may be added to a link of any length, one after the other, as long
as there are fewer than 2³² - 2 in the simulation; all of them stand at the beginning of the link. -/
theorem C101_crowded [Env] [LawfulDijkstra] {lk : Key} {l : Link F} (hs : Reach True s) (hd : SearchEnds) (hl : s.getLinkRef lk = .ok l)
    (a : VehicleAttributes F) (n : Nat) (hn : s.vehicles.slots.length + n < 2 ^ 32 - 1) :
    ∃ s' l', (List.replicate n (Op.addVehicle a lk)).foldlM Sim.exec s = .ok s' ∧ Reach True s' ∧ s'.getLinkRef lk = .ok l' ∧
      l'.length = l.length ∧ l'.vehicles.length = l.vehicles.length + n ∧ (∀ k v, s.getVehicle k = .ok v → s'.getVehicle k = .ok v) ∧
      ∃ ks : List Key, ks.length = n ∧ ks.Nodup ∧ ∀ k ∈ ks, ∃ v, s'.getVehicle k = .ok v ∧ v.linkId = some lk ∧ v.pos = 0.0 ∧ v.vel = 0.0 ∧
        v.halfLen = (Vehicle.new k a).halfLen ∧ ∀ u, s.getVehicle k ≠ .ok u := by
  induction n generalizing s l with
  | zero => exact ⟨s, l, rfl, hs, hl, rfl, rfl, fun _ _ h => h, [], rfl, by simp, by simp⟩
  | succ n ih =>
    have hn' : s.vehicles.slots.length + 1 < u32Max := by
      have : u32Max = 2 ^ 32 - 1 := by decide
      omega
    obtain ⟨⟨s1, k⟩, h1⟩ := addVehicle_total (a := a) hs.inv hd (contains_of_get (getLink_ok.1 hl)) (.inr hn')
    have he : s.exec (.addVehicle a lk) = .ok s1 := by rw [Sim.exec, h1]; rfl
    have hs1 : Reach True s1 := .exec (.addVehicle a lk) hs trivial he
    obtain ⟨⟨v, gv, v1, v2, v3, -, -⟩, hoth, hnew, ⟨l0, l1, gl0, gl1, hin, hfil, el⟩, -, -⟩ := C19_add hs h1
    rw [hl] at gl0; cases gl0
    have hlen : l1.vehicles.length = l.vehicles.length + 1 := by
      have hnd := (hs1.inv.mem lk l1 (getLink_ok.1 gl1)).1
      have hc := List.length_eq_length_filter_add (l := l1.vehicles) (fun j => decide (j ≠ k))
      rw [hfil] at hc
      have : (l1.vehicles.filter fun j => !decide (j ≠ k)).length = 1 := by
        have e : (fun j : Key => !decide (j ≠ k)) = fun j => j == k := by funext j; by_cases h : j = k <;> simp [h]
        rw [e, ← List.count_eq_length_filter, List.count_eq_one_of_mem hnd hin]
      omega
    have hhalf : v.halfLen = (Vehicle.new k a).halfLen := by
      obtain ⟨w, pf, ⟨p, d, r, c, ew⟩, -, -, -, hg⟩ := (addVehicle_ok hs.inv h1).veh
      have : s1.vehicles.get? k = some w := by rw [hg, if_pos rfl]
      rw [getVeh_ok.1 gv] at this; cases this
      rw [ew]
    obtain ⟨s', l', hrun, hs', gl', e1, e2, hkeep, ks, e3, e4, e5⟩ := ih hs1 gl1 (by have := addVehicle_grows h1; omega)
    have hk : k ∉ ks := fun h => by
      obtain ⟨_, -, -, -, -, -, h⟩ := e5 k h
      exact h v gv
    refine ⟨s', l', ?_, hs', gl', e1.trans (by rw [el]; rfl), by omega,
      fun j u hu => hkeep j u (getVeh_ok.2 ?_), k :: ks, by simp [e3], List.nodup_cons.2 ⟨hk, e4⟩, fun j hj => ?_⟩
    · rw [List.replicate_succ, List.foldlM_cons, M_bind_ok]
      exact ⟨s1, he, hrun⟩
    · rw [hoth j (fun e => hnew u (e ▸ hu))]
      exact getVeh_ok.1 hu
    · rcases List.mem_cons.1 hj with rfl | hj
      · exact ⟨v, hkeep _ _ gv, v3, v1, v2, hhalf, hnew⟩
      · obtain ⟨w, g1, g2, g3, g4, g5, g6⟩ := e5 j hj
        refine ⟨w, g1, g2, g3, g4, g5, fun u hu => ?_⟩
        refine g6 u (getVeh_ok.2 ?_)
        rw [hoth j (fun e => hk (e ▸ hj))]
        exact getVeh_ok.1 hu

end

section
variable {strict : Prop} {s : Sim ℝ}

/-- How far a row of vehicles reaches whose fronts and rears are in order. -/
theorem row_length {f r : Key → ℝ} : ∀ {k : Key} {ks : List Key}, (k :: ks).Pairwise (fun x y => f x ≤ r y) →
    ((k :: ks).map fun x => f x - r x).sum ≤ f ((k :: ks).getLast (by simp)) - r k
  | k, [], _ => by simp
  | k, j :: ks, h => by
    have := row_length (List.pairwise_cons.1 h).2
    have hkj := (List.pairwise_cons.1 h).1 j (by simp)
    rw [List.map_cons, List.sum_cons, List.getLast_cons (by simp)]
    linarith

/-- **C101, the part that holds for roads** (exact arithmetic).  Where `C84_road_partial` shows that no vehicle drives into another, the vehicles on
a link are, all together, at most as long as the link and half of two vehicles. -/
theorem C101_room_partial [Env] [LawfulDijkstra] {D V A H : ℝ} {s0 : Sim ℝ} (hs : Reach strict s0) (hroads : Roads s0)
    (hwide : Wide (D + 0.1) D V A H s0) (hfits : ∀ k v, s0.getVehicle k = .ok v → FitsRoad (D + 0.1) V A H s0 v) (hre : ¬ s0.accUpdate < 0.1)
    (hgap : ∀ k j v u g, s0.getVehicle k = .ok v → s0.getVehicle j = .ok u → InRow s0 k j v u g →
      0 ≤ g ∧ (v.vel = 0 ∨ v.vel ^ 2 / 12 + 3 / 4 * (D + 0.1) ^ 2 ≤ g + u.vel ^ 2 / 12))
    (hrun : Relation.ReflTransGen (RoadStep D V) s0 s) {a : Key} {l : Link ℝ} (hl : s.getLinkRef a = .ok l)
    (hne : l.vehicles ≠ []) :
    ∃ vs : List (Vehicle ℝ), List.Forall₂ (fun k v => s.getVehicle k = .ok v) l.vehicles vs ∧
      (vs.map fun v => 2 * v.halfLen).sum ≤ l.length + 2 * H := by
  have hI := road_inv hs hroads hwide hfits hre hgap hrun
  have hmem : ∀ k ∈ l.vehicles, ∃ v, s.getVehicle k = .ok v ∧ v.linkId = some a := by
    intro k hk
    obtain ⟨v, hv, e⟩ := ((hI.reach.inv.mem _ _ (getLink_ok.1 hl)).2 _).1 hk
    exact ⟨v, getVeh_ok.2 hv, e⟩
  set f : Key → ℝ := fun k => (s.vehicles.get? k).elim 0 (·.posFront) with hf
  set r : Key → ℝ := fun k => (s.vehicles.get? k).elim 0 (·.posRear) with hr
  have ef : ∀ {k v}, s.getVehicle k = .ok v → f k = v.posFront := fun h => by rw [hf]; dsimp only; rw [getVeh_ok.1 h]; rfl
  have er : ∀ {k v}, s.getVehicle k = .ok v → r k = v.posRear := fun h => by rw [hr]; dsimp only; rw [getVeh_ok.1 h]; rfl
  obtain ⟨vs, hvs⟩ : ∃ vs : List (Vehicle ℝ), List.Forall₂ (fun k v => s.getVehicle k = .ok v) l.vehicles vs := by
    have : ∀ ks : List Key, (∀ k ∈ ks, ∃ v, s.getVehicle k = .ok v ∧ v.linkId = some a) →
        ∃ vs : List (Vehicle ℝ), List.Forall₂ (fun k v => s.getVehicle k = .ok v) ks vs := by
      intro ks
      induction ks with
      | nil => exact fun _ => ⟨[], .nil⟩
      | cons k ks ih =>
        intro h
        obtain ⟨v, hv, -⟩ := h k (by simp)
        obtain ⟨vs, hvs⟩ := ih fun k hk => h k (by simp [hk])
        exact ⟨v :: vs, .cons hv hvs⟩
    exact this _ hmem
  refine ⟨vs, hvs, ?_⟩
  have hsum : ∀ {ks : List Key} {vs : List (Vehicle ℝ)}, List.Forall₂ (fun k v => s.getVehicle k = .ok v) ks vs →
      (vs.map fun v => 2 * v.halfLen).sum = (ks.map fun x => f x - r x).sum := by
    intro ks vs h
    induction h with
    | nil => rfl
    | cons h _ ih =>
      rw [List.map_cons, List.sum_cons, List.map_cons, List.sum_cons, ih, ef h, er h, Vehicle.posFront, Vehicle.posRear]
      ring
  rw [hsum hvs]
  have horder : l.vehicles.Pairwise fun k j => f k ≤ r j := by
    have hrf : ∀ k ∈ l.vehicles, r k ≤ f k := by
      intro k hk
      obtain ⟨v, hv, -⟩ := hmem k hk
      rw [ef hv, er hv, Vehicle.posFront, Vehicle.posRear]
      linarith [(hI.fits k v hv).half]
    have : IsTrans Key fun k j => f k ≤ r j ∧ r k ≤ f k ∧ r j ≤ f j :=
      ⟨fun _ _ _ h h' => ⟨h.1.trans (h'.2.1.trans h'.1), h.2.1, h'.2.2⟩⟩
    refine List.Pairwise.imp (R := fun k j => f k ≤ r j ∧ r k ≤ f k ∧ r j ≤ f j) (fun h => h.1)
      (List.isChain_iff_pairwise.1 (isChain_of_infix fun k j hkj => ?_))
    have hk := hkj.subset (by simp : k ∈ [k, j])
    have hj := hkj.subset (by simp : j ∈ [k, j])
    obtain ⟨v, hv, -⟩ := hmem k hk
    obtain ⟨u, hu, -⟩ := hmem j hj
    refine ⟨?_, hrf k hk, hrf j hj⟩
    have := (hI.keeps k j v u _ hv hu (.same hl hkj)).1
    rw [ef hv, er hu]; linarith
  match e : l.vehicles with
  | [] => exact absurd e hne
  | k :: ks =>
    rw [e] at horder
    obtain ⟨v, hv, -⟩ := hmem k (by rw [e]; simp)
    obtain ⟨u, hu, hon⟩ := hmem ((k :: ks).getLast (by simp)) (by rw [e]; exact List.getLast_mem _)
    have h1 := row_length horder
    have h2 := (hI.fits _ u hu).on a l hon hl
    have h3 := (hI.fits _ v hv).pos
    rw [ef hu, er hv, Vehicle.posFront, Vehicle.posRear] at h1
    linarith [(hI.fits _ v hv).short, (hI.fits _ u hu).short]

/-- A thousand vehicles are added to a link on which there are two. -/
example : ∃ (_ : Env) (_ : LawfulDijkstra) (s s' : Sim ℝ) (l l' : Link ℝ), Reach True s ∧ s.getLinkRef ⟨0, 1⟩ = .ok l ∧ l.vehicles.length = 2 ∧
    (List.replicate 1000 (Op.addVehicle Lone.car ⟨0, 1⟩)).foldlM Sim.exec s = .ok s' ∧ s'.getLinkRef ⟨0, 1⟩ = .ok l' ∧ l'.length = l.length ∧
    l'.vehicles.length = 1002 := by
  obtain ⟨N, s, ⟨l, v, w, hb⟩, -, -, h⟩ := @program_runs (Lone.env 0) (Lone.lawful 0) _ (Search.full_ends _) _ (Pair.leads (d := 5) (by norm_num) le_rfl)
  let env : Env := @Env.withFuel (Lone.env 0) N
  have hlaw : LawfulDijkstra := @LawfulDijkstra.withFuel (Lone.env 0) (Lone.lawful 0) N
  have hr : Reach True s := (h N le_rfl).1
  obtain ⟨fr, n, sq, u, es⟩ := hb.eq
  have gl : s.links.get? ⟨0, 1⟩ = some l := by rw [es]; rfl
  have e2 : l.vehicles.length = 2 := by rw [hb.vehs]; rfl
  obtain ⟨s', l', h1, -, h2, h3, h4, -⟩ := C101_crowded hr (Search.full_ends _) (getLink_ok.2 gl) Lone.car 1000 (by rw [es]; norm_num [Pair.both])
  exact ⟨env, hlaw, s, s', l, l', hr, getLink_ok.2 gl, e2, h1, h2, h3, by rw [h4, e2]⟩

/-- On a road one vehicle starts behind another; the first is on the link `a`. -/
example : ∃ (_ : Env) (_ : LawfulDijkstra) (s0 s : Sim ℝ) (a : Key) (l : Link ℝ), Relation.ReflTransGen (RoadStep 0.1 10) s0 s ∧
    s.getLinkRef a = .ok l ∧ l.vehicles ≠ [] ∧ ∃ vs : List (Vehicle ℝ), List.Forall₂ (fun k v => s.getVehicle k = .ok v) l.vehicles vs ∧
      (vs.map fun v => 2 * v.halfLen).sum ≤ l.length + 2 * 2 := by
  obtain ⟨env, hlaw, s0, s, k, j, a, b, v, u, g, h1, h2, h3, h4, h5, h6, h7, gv, -, -, e, -, ⟨l, gl, -⟩, -⟩ := road_runs
  have hr := (road_inv h1 h2 h3 h4 h5 h6 (.single h7)).reach
  have hne : l.vehicles ≠ [] := List.ne_nil_of_mem (((hr.inv.mem a l gl).2 k).2 ⟨v, getVeh_ok.1 gv, e⟩)
  exact ⟨env, hlaw, s0, s, a, l, .single h7, getLink_ok.2 gl, hne, C101_room_partial h1 h2 h3 h4 h5 h6 (.single h7) (getLink_ok.2 gl) hne⟩

end

end TrafficSim
