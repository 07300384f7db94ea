import Verif.Props.Speed

/-! # C86: vehicles are within the links that they are on -/

namespace TrafficSim

section
variable {F : Type} [Flt F] {strict : Prop} {s s' : Sim F} {dt : F} {k : Key}

theorem Cheapest.mem {links : LinkSet F} {v : Vehicle F} {ps : List Path} {p : Path} (h : Cheapest links v ps p) : p ∈ ps := by
  obtain ⟨pre, post, n, e, -⟩ := h
  rw [e]; simp

/-- The route of a vehicle that has chosen its path starts where the vehicle is, or beside it. -/
theorem Chooses.starts {links : LinkSet F} {v v1 : Vehicle F} (hi : VehInv links k v) (h : Chooses links v v1) :
    Drivable links v1.route ∧ ∃ a, v1.route.head? = some a ∧
      ((v.linkId = some a ∧ v1.pos = v.pos) ∨ (v.linkId ≠ some a ∧ ∃ c, v.linkId = some c ∧ LaneTo links c a)) := by
  have hsrc : v.linkId = some v.pathfind.src := hi.src
  cases h with
  | carriesOn _ e => subst e; exact ⟨hi.drivable, _, hi.src, .inl ⟨hi.src, rfl⟩⟩
  | keeps p _ _ _ e => subst e; exact ⟨hi.drivable, _, hi.src, .inl ⟨hi.src, rfl⟩⟩
  | takes p n _ hc _ e _ ev =>
    subst ev
    exact ⟨(hi.paths p hc.mem).drivable, _, e.trans hi.src, .inl ⟨hi.src, rfl⟩⟩
  | changes p link l x off sl pf _ hc e hne _ _ _ _ ev =>
    subst ev
    obtain ⟨a, ha, h⟩ := (hi.paths p hc.mem).start
    rw [e] at ha; cases ha
    refine ⟨(hi.paths p hc.mem).drivable, _, e, .inr ⟨hne, _, hsrc, ?_⟩⟩
    rcases h with rfl | h
    · exact absurd hsrc hne
    · exact h

/-- **C86** A vehicle that is past the end of its link after a step came to this link in the step: it left just one link behind,
although it got past the ends of both. -/
theorem C86_past_end [Env] [LawfulDijkstra] {v' : Vehicle F} {b : Key} {lb : Link F} (h : Reach strict s) (hst : s.step dt = .ok s')
    (hv' : s'.getVehicle k = .ok v') (hb : v'.linkId = some b) (hlb : s'.getLinkRef b = .ok lb) (hpast : lb.length < v'.pos) :
    ∃ v a la x, s.getVehicle k = .ok v ∧ s.getLinkRef a = .ok la ∧ Conn s.links a b ∧ la.length < x ∧ lb.length < x - la.length ∧
      v'.pos = x - la.length ∧ (v.linkId = some a → x = v.pos + 0.5 * (v.vel + v'.vel) * dt) ∧
      (v.linkId ≠ some a → ∃ c, v.linkId = some c ∧ LaneTo s.links c a) := by
  obtain ⟨s1, s2, s3, s4, s5, s6, hr⟩ := (step_spec h.inv dt).ok hst
  obtain ⟨v, hv⟩ := hr.back (getVeh_ok.1 hv')
  obtain ⟨v1, hc, -, -, hdr⟩ := C70_drive h hst hv (getVeh_ok.1 hv')
  have hi := h.inv.veh k v hv
  have hst1 : Drivable s.links v1.route ∧ ∃ a, v1.route.head? = some a ∧
      ((v.linkId = some a ∧ v1.pos = v.pos) ∨ (v.linkId ≠ some a ∧ ∃ c, v.linkId = some c ∧ LaneTo s.links c a)) := by
    rcases hc with ⟨-, rfl⟩ | ⟨-, hc⟩
    · exact ⟨hi.drivable, _, hi.src, .inl ⟨hi.src, rfl⟩⟩
    · exact hc.starts hi
  obtain ⟨hdrv, a, ha, hor⟩ := hst1
  obtain ⟨lb0, hlb0, hf⟩ := hr.frame.bwd (getLink_ok.1 hlb)
  have hlen : lb.length = lb0.length := by unfold Link.length; rw [hf.curve]
  cases hdr with
  | stays a' l ha' hl hnp er _ ep _ =>
    exfalso
    have : v'.linkId = some a' := by rw [Vehicle.linkId, er]; exact ha'
    rw [hb] at this; cases this
    rw [hlb0] at hl; cases hl
    rw [ep, hlen] at hpast
    exact hnp hpast
  | passes a' l er hl hpas hne _ _ ep _ =>
    rw [er] at ha; cases ha
    have hcn : Conn s.links a b := by
      have hch := hdrv.chain
      rw [er] at hch
      unfold Vehicle.linkId at hb
      cases hr' : v'.route with
      | nil => exact absurd hr' hne
      | cons b' rest =>
        rw [hr'] at hb hch; cases hb
        exact (List.isChain_cons_cons.1 hch).1
    refine ⟨v, a, l, _, getVeh_ok.2 hv, getLink_ok.2 hl, hcn, hpas, by rw [← ep]; exact hpast, ep, fun e => ?_, fun hne' => ?_⟩
    · rcases hor with ⟨-, e'⟩ | ⟨hne', -⟩
      · rw [e']
      · exact absurd e hne'
    · rcases hor with ⟨e, -⟩ | ⟨-, h⟩
      · exact absurd e hne'
      · exact h

end

section
variable {strict : Prop} {s s' : Sim ℝ} {k : Key} {v : Vehicle ℝ}

/-- Operations of which `P` holds, other than to group links or to make a vehicle change lanes. -/
def Single (P : Op ℝ → Prop) : Op ℝ → Prop
  | .addLinkGroup _ _ => False
  | .doLaneChange _ _ _ => False
  | op => P op

theorem Single.imp {P : Op ℝ → Prop} {op : Op ℝ} (h : Single P op) : P op := by
  cases op <;> first | exact h | exact h.elim

theorem ReachBy.mono [Env] {P Q : Op ℝ → Prop} (h : ReachBy strict P s) (hpq : ∀ op, P op → Q op) : ReachBy strict Q s := by
  induction h with
  | new => exact .new
  | exec op _ ha hp he ih => exact .exec op ih ha (hpq op hp) he

/-- Where no links are grouped no lane changes are possible. -/
theorem ReachBy.noLanes [Env] [LawfulDijkstra] {P : Op ℝ → Prop} (h : ReachBy strict (Single P) s) :
    ∀ lk l, s.links.get? lk = some l → l.laneChanges = [] := by
  induction h with
  | new => intro lk l hl; cases hl
  | @exec s s' op hr ha hp he ih =>
    intro lk l' hl'
    cases exec_network hr.reach.inv he with
    | frame hf =>
      obtain ⟨l, hl, e⟩ := hf.bwd hl'
      rw [e.laneChanges]; exact ih lk l hl
    | added a k hop hk =>
      obtain ⟨l, hn, hget⟩ := hk.link
      rw [hget] at hl'
      split at hl'
      · cases hl'
        simp only [Link.new, M_bind_ok, M_pure_ok] at hn
        obtain ⟨_, _, rfl⟩ := hn
        rfl
      · exact ih lk l' hl'
    | grouped ids mask g lcs hop hg => subst hop; exact hp.elim
    | converging a b cs _ hc =>
      obtain ⟨l, hl, rfl⟩ := hc.bwd hl'
      exact ih lk l hl
    | connected a b _ _ _ hc =>
      obtain ⟨l, hl, rfl⟩ := hc.bwd hl'
      exact ih lk l hl

/-- **C86** In exact arithmetic, where no links are grouped and no vehicle is made to change lanes: if no vehicle can get further than the
length of the shortest link in a step, then at all times every vehicle is within its link.  The bounds are those of `C80_always`. -/
theorem C86_within_partial [Env] [LawfulDijkstra] {D A lo hi jlo jhi : ℝ} (h : ReachBy strict (Single (Within D A lo hi jlo jhi)) s) (hlo : 0 < lo)
    (hj : 0 < jlo) (hj1 : jlo ≤ 1) (hj2 : 1 ≤ jhi) (hD : 0 ≤ D) (hA : 4 * A * (D + 0.1) ≤ jlo * lo)
    (hlen : ∀ lk l, s.getLinkRef lk = .ok l → 0 ≤ l.length ∧ jhi * hi * D ≤ l.length) (hv : s.getVehicle k = .ok v) :
    ∃ lk l, v.linkId = some lk ∧ s.getLinkRef lk = .ok l ∧ 0 ≤ v.pos ∧ v.pos ≤ l.length := by
  induction h generalizing k v with
  | new => cases hv
  | @exec s s' op hr ha hp he ih =>
    have hR := hr.reach
    have hR' : Reach strict s' := .exec op hR ha he
    have grows : ∀ {lk l}, s.links.get? lk = some l → ∃ l', s'.links.get? lk = some l' ∧ l'.length = l.length := fun {lk l} hl => by
      obtain ⟨l', hl', -, -, ec, -⟩ := C62_network_grows hR he (getLink_ok.2 hl)
      exact ⟨l', getLink_ok.1 hl', by unfold Link.length; rw [ec]⟩
    have hlen0 : ∀ lk l, s.getLinkRef lk = .ok l → 0 ≤ l.length ∧ jhi * hi * D ≤ l.length := fun lk l hl => by
      obtain ⟨l', hl', e⟩ := grows (getLink_ok.1 hl)
      rw [← e]; exact hlen lk l' (getLink_ok.2 hl')
    have ih : ∀ {k v}, s.vehicles.get? k = some v → ∃ lk l, v.linkId = some lk ∧ s.links.get? lk = some l ∧ 0 ≤ v.pos ∧ v.pos ≤ l.length :=
      fun {k v} hv => by
        obtain ⟨lk, l, h1, h2, h3⟩ := ih hlen0 (getVeh_ok.2 hv)
        exact ⟨lk, l, h1, getLink_ok.1 h2, h3⟩
    have moved : ∀ {k v} (w : Vehicle ℝ), s.vehicles.get? k = some v → w.linkId = v.linkId → w.pos = v.pos →
        ∃ lk l, w.linkId = some lk ∧ s'.getLinkRef lk = .ok l ∧ 0 ≤ w.pos ∧ w.pos ≤ l.length := fun {k v} w hv e e' => by
      obtain ⟨lk, l, h1, h2, h3, h4⟩ := ih hv
      obtain ⟨l', hl', el⟩ := grows h2
      exact ⟨lk, l', e.trans h1, getLink_ok.2 hl', by rw [e']; exact h3, by rw [e', el]; exact h4⟩
    have hv' := getVeh_ok.1 hv
    cases exec_origin hR.inv he hv' with
    | added a link pf hop hni hsrc hdst hpl =>
      obtain ⟨p, d, r, c, rfl⟩ := hpl
      have hi' := hR'.inv.veh k _ hv'
      obtain ⟨l, hl⟩ := Option.isSome_iff_exists.1 (hi'.drivable.1 link (by simp))
      refine ⟨link, l, rfl, getLink_ok.2 hl, ?_, ?_⟩
      · show (0 : ℝ) ≤ 0.0; norm_num
      · show (0.0 : ℝ) ≤ _
        norm_num
        exact (hlen link l (getLink_ok.2 hl)).1
    | same hv _ => exact moved v hv rfl rfl
    | adjusted u x hu e _ => subst e; exact moved _ hu rfl rfl
    | destined u pf dst hu _ _ _ e => subst e; exact moved _ hu rfl rfl
    | shifted u link d pos lc pf hu hop _ _ e => subst hop; exact hp.elim
    | stepped dt s1 s2 s3 s4 s5 s6 u u1 u2 u4 hop hsr hu ht =>
      subst hop
      have he : s.step dt = .ok s' := he
      obtain ⟨d0, d1⟩ : 0 ≤ dt ∧ dt ≤ D := hp
      obtain ⟨lk, l, h1, h2, h3, h4⟩ := ih hu
      have hu0 := C20_speed hR (getVeh_ok.2 hu)
      have hv0 := C20_speed hR' hv
      have hlim := fun {s : Sim ℝ} (h : ReachBy strict (Single (Within D A lo hi jlo jhi)) s) {k v} (hv : s.getVehicle k = .ok v) =>
        C80_always (h.mono fun _ => Single.imp) hlo hj hj1 hj2 hD hA hv
      have hu1 := hlim hr (getVeh_ok.2 hu)
      have hv1 := hlim (.exec (.step dt) hr ha ⟨d0, d1⟩ he) hv
      obtain ⟨w, hc, -, -, hdr⟩ := C70_drive hR he hu hv'
      have hw : w.linkId = u.linkId ∧ w.pos = u.pos := by
        rcases hc with ⟨-, rfl⟩ | ⟨-, hc⟩
        · exact ⟨rfl, rfl⟩
        · obtain ⟨-, a, ha, ⟨e1, e2⟩ | ⟨-, c, -, lc, hlc, hm⟩⟩ := hc.starts (hR.inv.veh k u hu)
          · exact ⟨ha.trans e1.symm, e2⟩
          · rw [hr.noLanes _ lc hlc] at hm; cases hm
      have hm0 : 0 ≤ 0.5 * (u.vel + v.vel) * dt := by positivity
      have hm1 : 0.5 * (u.vel + v.vel) * dt ≤ jhi * hi * D := by
        have h5 : (0.5 : ℝ) = 1 / 2 := by norm_num
        rw [h5]
        exact mul_le_mul (by linarith) d1 d0 (by linarith)
      rw [hw.2] at hdr
      cases hdr with
      | stays a l' ha' hl hnp er _ ep _ =>
        have e1 : v.linkId = some a := by rw [Vehicle.linkId, er]; exact ha'
        obtain ⟨l'', hl'', e⟩ := grows hl
        exact ⟨a, l'', e1, getLink_ok.2 hl'', by rw [ep]; linarith, by rw [ep, e]; exact not_lt.1 hnp⟩
      | passes a l' er hl hpas hne _ _ ep _ =>
        have e2 : some a = some lk := by
          rw [← h1, ← hw.1, Vehicle.linkId, er]; rfl
        cases e2
        rw [h2] at hl; cases hl
        have hi' := hR'.inv.veh k v hv'
        obtain ⟨l'', hl''⟩ := Option.isSome_iff_exists.1 (hi'.drivable.1 _ (List.mem_of_head? hi'.src))
        refine ⟨_, l'', hi'.src, getLink_ok.2 hl'', by rw [ep]; linarith, ?_⟩
        have := (hlen _ l'' (getLink_ok.2 hl'')).2
        rw [ep]; linarith

end

namespace Bend

attribute [local instance] Town.env

/-- A road of 20 m, three links of 1 m in the same direction, and a link to the left. -/
def ops : List (Op Float) :=
  [.addLink ⟨Town.street 0.0 0.0 1.0 0.0 20.0, 40.0⟩, .addLink ⟨Town.street 20.0 0.0 1.0 0.0 1.0, 40.0⟩,
   .addLink ⟨Town.street 21.0 0.0 1.0 0.0 1.0, 40.0⟩, .addLink ⟨Town.street 22.0 0.0 1.0 0.0 1.0, 40.0⟩,
   .addLink ⟨Town.street 23.0 0.0 0.0 1.0 20.0, 40.0⟩,
   .addLinkConnection ⟨0, 1⟩ ⟨1, 1⟩, .addLinkConnection ⟨1, 1⟩ ⟨2, 1⟩, .addLinkConnection ⟨2, 1⟩ ⟨3, 1⟩,
   .addLinkConnection ⟨3, 1⟩ ⟨4, 1⟩, .addVehicle ⟨2.0, 4.0, 3.0, 2.0, 4.0, 2.0⟩ ⟨0, 1⟩, .setVehicleDestination ⟨0, 1⟩ ⟨4, 1⟩, .step 0.3,
   .step 2.7, .step 0.2, .step 0.2]

def test (s s' : Sim Float) : Bool :=
  match s.vehicles.get? ⟨0, 1⟩, s'.vehicles.get? ⟨0, 1⟩, s.links.get? ⟨3, 1⟩ with
  | some v, some v', some l => decide (v.linkId = some ⟨3, 1⟩) && decide (l.length + 2.9 < v.pos) && decide (v.vel < 15.2 ∧ v'.vel < 15.2) &&
      decide (v'.worldPos.x + 2.9 < v.worldPos.x ∧ v.worldPos.y + 5.8 < v'.worldPos.y)
  | _, _, _ => false

/-- The test of the last two steps. -/
def test2 (_ s : Sim Float) : Bool :=
  match s.exec (.step 0.2) with
  | .ok s' => test s s'
  | .error _ => false

theorem ran : ∃ s0 s s' : Sim Float, Reach True s0 ∧ s0.exec (.step 0.2) = .ok s ∧ Reach True s ∧ s.exec (.step 0.2) = .ok s' ∧ test s s' = true := by
  obtain ⟨s0, s, h0, -, h1, h2, h⟩ := trial_reach (ops := ops) (op := .step 0.2) (test := test2) (by decide +kernel)
  unfold test2 at h
  split at h
  · next s' hs => exact ⟨s0, s, s', h0, h1, h2, hs, h⟩
  · cases h

end Bend

attribute [local instance] Town.env in
/-- **C86** (witness, short links) A vehicle that is less than 15.2 m/s fast gets past the ends of several links of 1 m in steps of 0.2 s.  As it
leaves just one of them behind in a step, it is more than 2.9 m past the end of its link, and off the road.  In the next step it is moved
by more than 6.4 m, although it drives less than 3.1 m. -/
theorem C86_off_road : ∃ (s s' : Sim Float) (k b : Key) (v v' : Vehicle Float) (l : Link Float), Reach True s ∧ s.step 0.2 = .ok s' ∧
    s.getVehicle k = .ok v ∧ s'.getVehicle k = .ok v' ∧ v.linkId = some b ∧ s.getLinkRef b = .ok l ∧ l.length + 2.9 < v.pos ∧
    v.vel < 15.2 ∧ v'.vel < 15.2 ∧ v'.worldPos.x + 2.9 < v.worldPos.x ∧ v.worldPos.y + 5.8 < v'.worldPos.y :=
  match Bend.ran with
  | ⟨_, s, s', _, _, hs, hst, h⟩ => by
    unfold Bend.test at h
    split at h
    · rename_i v v' l h1 h2 h3
      simp only [Bool.and_eq_true, decide_eq_true_eq] at h
      exact ⟨s, s', ⟨0, 1⟩, ⟨3, 1⟩, v, v', l, hs, hst, getVeh_ok.2 h1, getVeh_ok.2 h2, h.1.1.1, getLink_ok.2 h3, h.1.1.2, h.1.2.1, h.1.2.2, h.2.1, h.2.2⟩
    · cases h

/-- An instance of `C86_past_end`: the vehicle of `C86_off_road`, one step earlier. -/
example : ∃ (_ : Env) (_ : LawfulDijkstra) (s s' : Sim Float) (k b : Key) (v' : Vehicle Float) (lb : Link Float), Reach True s ∧
    s.step 0.2 = .ok s' ∧ s'.getVehicle k = .ok v' ∧ v'.linkId = some b ∧ s'.getLinkRef b = .ok lb ∧ lb.length + 2.9 < v'.pos :=
  match Bend.ran with
  | ⟨s, s', _, hs, hst, _, _, h⟩ => by
    unfold Bend.test at h
    split at h
    · rename_i v' _ lb h1 _ h2
      simp only [Bool.and_eq_true, decide_eq_true_eq] at h
      exact ⟨Town.env, Search.lawful 400, s, s', ⟨0, 1⟩, ⟨3, 1⟩, v', lb, hs, hst, getVeh_ok.2 h1, h.1.1.1, getLink_ok.2 h2, h.1.1.2⟩
    · cases h

open Trip in
/-- An instance of `C86_within_partial`: a vehicle on two links with a limit of 10 m/s, and any steps of at most half a second. -/
example (dts : List ℝ) (hd : ∀ dt ∈ dts, 0 ≤ dt ∧ dt ≤ 0.5) : ∃ (_ : Env) (_ : LawfulDijkstra) (s s' : Sim ℝ) (k : Key) (v : Vehicle ℝ),
    ReachBy True (Single (Within 0.5 2 10 10 1 1)) s ∧ (4 : ℝ) * 2 * (0.5 + 0.1) ≤ 1 * 10 ∧ s.getVehicle k = .ok v ∧
    (∀ lk l, s.getLinkRef lk = .ok l → 0 ≤ l.length ∧ (1 : ℝ) * 10 * 0.5 ≤ l.length) ∧ dts.foldlM Sim.step s = .ok s' ∧
    ReachBy True (Single (Within 0.5 2 10 10 1 1)) s' := by
  obtain ⟨N, s0, ⟨z1, -, -, v0, hb, p0, q0⟩, hp, hn, h⟩ :=
    @program_runs (Lone.env 0) (Lone.lawful 0) _ (Search.full_ends _) _ (leads (.inl rfl))
  obtain ⟨N2, s2, hN2, h2⟩ := @Relay.calls (Lone.env 0) (Lone.lawful 0) (Search.full_ends _) dts s0 N (fun n hn => (h n hn).1) hp hn
  let env : Env := @Env.withFuel (Lone.env 0) N2
  have hlaw : LawfulDijkstra := @LawfulDijkstra.withFuel (Lone.env 0) (Lone.lawful 0) N2
  obtain ⟨r0, k0⟩ : Reach True s0 ∧ (build ⟨0, 1⟩).foldlM Sim.exec .new = .ok s0 := h N2 (by omega)
  have k2 : dts.foldlM Sim.step s0 = .ok s2 := h2 N2 le_rfl
  have by0 : ReachBy True (Single (Within 0.5 2 10 10 1 1)) s0 := by
    refine ReachBy.new.run (fun op ho => ?_) k0
    simp only [build, List.mem_cons, List.not_mem_nil, or_false] at ho
    rcases ho with rfl | rfl | rfl | rfl
    · exact ⟨⟨le_rfl, le_rfl⟩, fun _ => trivial⟩
    · exact ⟨⟨le_rfl, le_rfl⟩, fun _ => trivial⟩
    · exact ⟨trivial, fun _ => trivial⟩
    · exact ⟨⟨by simp [Lone.car], by simp [Lone.car]⟩, fun _ => trivial⟩
  have hlen : ∀ lk l, s0.getLinkRef lk = .ok l → 0 ≤ l.length ∧ (1 : ℝ) * 10 * 0.5 ≤ l.length := by
    intro lk l hl
    have hl := getLink_ok.1 hl
    rcases hb.all lk l hl with rfl | rfl
    · obtain ⟨l', hl', -, -, -, h4, -⟩ := hb.la.ex
      rw [hl] at hl'; cases hl'
      constructor <;> norm_num at h4 ⊢ <;> linarith
    · obtain ⟨l', hl', -, -, -, h4, -⟩ := hb.lb.ex
      rw [hl] at hl'; cases hl'
      constructor <;> norm_num at h4 ⊢ <;> linarith
  exact ⟨env, hlaw, s0, s2, ⟨0, 1⟩, v0, by0, by norm_num, hb.gv, hlen, k2, by0.steps hd k2⟩

end TrafficSim
