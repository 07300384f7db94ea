import Verif.Props.Follow

/-! # C67: vehicles on neighbouring lanes -/

namespace TrafficSim

section
variable {F : Type} [Flt F] {strict : Prop}

/-- A search that starts on a link, behind its foremost vehicles, does its work on a vehicle of the link that it finds. -/
theorem processVehicles_behind {σ : Type} {n : Net F} {f : RelVeh F → σ → M (σ × Bool)} {R Q : σ → σ → Prop}
    (hR : ∀ s, R s s) (hRR : ∀ a b c, R a b → R b c → R a c) (hRQ : ∀ a b c, R a b → Q b c → Q a c)
    (hQR : ∀ a b c, Q a b → R b c → Q a c) (hf : ∀ r s p, f r s = .ok p → R s p.1)
    {k0 : Key} {pos : F} {l : Link F} {pre mid ahead : List Key} {k : Key} {v : Vehicle F}
    (ha : l.active = true) (hvs : l.vehicles = pre ++ k :: (mid ++ ahead))
    (hmid : ∀ a ∈ mid, ∃ w, n.vehicles.get? a = some w ∧
      GoesOn f (0, k0) pos (pos - maxLookahead * l.speedLimit) l.length a w)
    (hv : n.vehicles.get? k = some v) (hnear : ¬ v.posFront < pos - maxLookahead * l.speedLimit)
    (hin : v.getRoute 0 = some (k0, .entered)) (hq : ∀ s p, f ⟨k, v, 0, pos⟩ s = .ok p → Q s p.1)
    {fuel : Nat} {s s' : σ} (h : Link.processVehicles n f fuel l (0, k0) pos ahead.length s = .ok s') : Q s s' := by
  cases fuel with
  | zero => simp [Link.processVehicles] at h
  | succ fuel =>
  unfold Link.processVehicles at h
  rw [if_neg (by simp [ha])] at h
  dsimp only at h
  rw [M_bind_ok] at h
  obtain ⟨p, hp, h⟩ := h
  have hrest : R p.1 s' := by
    split at h
    · rw [M_pure_ok] at h; subst h; exact hR _
    · split at h
      · rw [M_pure_ok] at h; subst h; exact hR _
      · refine (Spec.foldlM (E := fun _ => True) (I := fun s' => R p.1 s') (fun s1 h1 k _ => ⟨?_, fun _ _ => trivial⟩)
          (hR p.1)).ok h
        intro s2 h2
        rw [M_bind_ok] at h2
        obtain ⟨lk, -, h2⟩ := h2
        exact hRR _ _ _ h1 (processVehicles_rel hR hRR hf h2)
  refine hQR _ _ _ ?_ hrest
  rw [hvs] at hp
  have e : (pre ++ k :: (mid ++ ahead)).reverse = ahead.reverse ++ (mid.reverse ++ k :: pre.reverse) := by simp
  rw [e, List.drop_left' (by simp)] at hp
  obtain ⟨s1, h1, h2⟩ := processList_goesOn hR hRR hf (fun a ha => hmid a (List.mem_reverse.1 ha)) hp
  refine hRQ _ _ _ h1 ?_
  unfold Link.processList at h2
  rw [M_bind_ok] at h2
  obtain ⟨v', hv', h2⟩ := h2
  rw [getVeh_ok, hv] at hv'; cases hv'
  rw [if_neg hnear, hin] at h2
  dsimp only at h2
  rw [if_neg (by simp), if_neg fun h => h.1 rfl, M_bind_ok] at h2
  obtain ⟨q, hq', h2⟩ := h2
  refine hQR _ _ _ (hq _ _ hq') ?_
  split at h2
  · rw [M_pure_ok] at h2; subst h2; exact hR _
  · exact processList_rel hR hRR hf h2

theorem firstBehind_at {vs : VehicleSet F} {pos : F} {b : Key} {w : Vehicle F} {bs : List Key} (hw : vs.get? b = some w)
    (hb : w.pos < pos) : ∀ {as : List Key} {o : Option Nat}, Link.firstBehind vs pos (as ++ b :: bs) = .ok o →
    ∃ i, o = some i ∧ i ≤ as.length ∧
      ((∀ a ∈ as, ∀ x, vs.get? a = some x → ¬ x.pos < pos) → i = as.length)
  | [], o, h => by
    simp only [List.nil_append, Link.firstBehind, M_bind_ok, getVeh_ok] at h
    obtain ⟨v, hv, h⟩ := h
    rw [hw] at hv; cases hv
    rw [if_pos hb, M_pure_ok] at h
    exact ⟨0, h.symm, le_refl _, fun _ => rfl⟩
  | a :: as, o, h => by
    rw [List.cons_append] at h
    unfold Link.firstBehind at h
    rw [M_bind_ok] at h
    obtain ⟨v, hv, h⟩ := h
    rw [getVeh_ok] at hv
    split at h
    · rename_i hlt
      rw [M_pure_ok] at h
      exact ⟨0, h.symm, Nat.zero_le _, fun hn => absurd hlt (hn a (by simp) v hv)⟩
    · rw [M_bind_ok] at h
      obtain ⟨o', ho', h⟩ := h
      obtain ⟨i, rfl, hi, he⟩ := firstBehind_at hw hb ho'
      simp only [M_pure_ok] at h
      refine ⟨i + 1, h.symm, by simp [hi], fun hn => ?_⟩
      rw [List.length_cons, he fun a' ha' => hn a' (by simp [ha'])]

omit [Flt F] in
theorem getRoute_zero {v : Vehicle F} {k : Key} (h : v.route[0]? = some k) (h' : 0 < v.entered) :
    v.getRoute 0 = some (k, .entered) := by
  unfold Vehicle.getRoute
  rw [h, Option.map_some, if_pos h']

omit [Flt F] in
theorem VehSame.rfl' {v : Vehicle F} : VehSame v v := ⟨v.acc.acc, v.willQueueOrEnter, rfl⟩

omit [Flt F] in
theorem VehSame.pos_eq {v v' : Vehicle F} (h : VehSame v v') : v'.pos = v.pos := by
  obtain ⟨a, w, rfl⟩ := h
  rfl

theorem VehSame.canPass [Env] {v v' : Vehicle F} (h : VehSame v v') (o : Obstacle F) (l : Link F) :
    v'.canPass o l = v.canPass o l := by
  obtain ⟨a, w, rfl⟩ := h
  rfl

theorem VehSame.project {v v' : Vehicle F} (h : VehSame v v') (p : LinkProjection F) : v'.project p = v.project p := by
  obtain ⟨a, w, rfl⟩ := h
  rfl

theorem obstacleFn_slower [Env] {l : Link F} {o : Obstacle F} (r : RelVeh F) (vs : VehicleSet F) (p : VehicleSet F × Bool)
    (h : Link.obstacleFn l o r vs = .ok p) : VehsSlower vs p.1 := by
  unfold Link.obstacleFn at h
  rw [M_bind_ok] at h
  obtain ⟨res, -, h⟩ := h
  cases res with
  | pass => simp only [M_pure_ok] at h; subst h; exact SRel.refl fun _ _ _ => VehAcc.rfl'
  | follow x vel =>
    simp only [M_pure_ok] at h; subst h
    exact SRel.modify (SRel.refl fun _ _ _ => VehAcc.rfl') r.key _ fun _ _ _ _ hr => hr.followVehicle _ _

theorem followObstacle_run [Env] {links : LinkSet F} {l : Link F} {o : Obstacle F} {p q : VehicleSet F × Nat}
    (h : Link.followObstacle links l o p = .ok q) : ∃ b, Link.firstBehind p.1 o.pos (l.vehicles.reverse.drop p.2) = .ok b ∧
      (∀ i, b = some i → q.2 = p.2 + i) ∧
      Link.processVehicles ⟨links, p.1⟩ (Link.obstacleFn l o) Env.fuel l (0, l.id) o.pos q.2 p.1 = .ok q.1 := by
  unfold Link.followObstacle at h
  rw [M_bind_ok] at h
  obtain ⟨b, hb, h⟩ := h
  refine ⟨b, hb, ?_⟩
  cases b with
  | none =>
    rw [M_bind_ok] at h
    obtain ⟨skip, -, h⟩ := h
    simp only [M_bind_ok, M_pure_ok] at h
    obtain ⟨vs, hvs, rfl⟩ := h
    exact ⟨nofun, hvs⟩
  | some i =>
    rw [M_bind_ok] at h
    obtain ⟨skip, hs, h⟩ := h
    simp only [M_bind_ok, M_pure_ok] at h hs
    obtain ⟨vs, hvs, rfl⟩ := h
    exact ⟨fun j hj => by cases hj; exact hs.symm, hvs⟩

theorem followObstacle_slower [Env] {links : LinkSet F} {l : Link F} {o : Obstacle F} {p q : VehicleSet F × Nat}
    (h : Link.followObstacle links l o p = .ok q) : VehsSlower p.1 q.1 := by
  obtain ⟨-, -, -, h⟩ := followObstacle_run h
  exact processVehicles_rel (R := VehsSlower) (fun _ => SRel.refl fun _ _ _ => VehAcc.rfl')
    (fun _ _ _ h h' => SRel.trans h h' fun _ _ _ _ => VehAcc.trans) obstacleFn_slower h

theorem followObstacles_slower [Env] {links : LinkSet F} {pr : LinkProjection F} {l : Link F} : ∀ {ks : List Key}
    {p q : VehicleSet F × Nat}, Link.followObstacles links pr l ks p = .ok q → VehsSlower p.1 q.1
  | [], p, q, h => by
    simp only [Link.followObstacles, M_pure_ok] at h; subst h; exact SRel.refl fun _ _ _ => VehAcc.rfl'
  | k :: ks, p, q, h => by
    simp only [Link.followObstacles, M_bind_ok] at h
    obtain ⟨_, -, _, -, p', hp', h⟩ := h
    exact SRel.trans (followObstacle_slower hp') (followObstacles_slower h) fun _ _ _ _ => VehAcc.trans

/-- If the vehicles `j` and those ahead of it are all ahead of `b`, where `b` is next after `ahead`, the search for
those that follow `j` starts after `ahead` at most; and there, if the vehicles of `ahead` are not behind `j`. -/
theorem followObstacles_reach [Env] {links : LinkSet F} {pr : LinkProjection F} {l : Link F} {behind ahead : List Key} {b j : Key}
    {rest : List Key} {x u : Vehicle F} {o : Obstacle F} {vs0 : VehicleSet F} (hvs : l.vehicles.reverse = ahead ++ b :: behind)
    (hb : vs0.get? b = some x) (hu : vs0.get? j = some u) (ho : u.project pr = .ok o) (hx : x.pos < o.pos)
    (hahead : ∀ a ∈ ahead, ∀ w, vs0.get? a = some w → ¬ w.pos < o.pos) : ∀ {front : List Key},
    (∀ a ∈ front, ∀ w o', vs0.get? a = some w → w.project pr = .ok o' → x.pos < o'.pos) →
    ∀ {p q : VehicleSet F × Nat}, SRel (fun _ v v' => VehSame v v') vs0 p.1 → p.2 ≤ ahead.length →
    Link.followObstacles links pr l (front ++ j :: rest) p = .ok q →
    ∃ vs1 vs2, VehsSlower p.1 vs1 ∧ VehsSlower vs2 q.1 ∧
      Link.processVehicles ⟨links, vs1⟩ (Link.obstacleFn l o) Env.fuel l (0, l.id) o.pos ahead.length vs1 = .ok vs2 := by
  intro front
  induction front with
  | nil =>
    intro _ p q hm hle h
    simp only [List.nil_append, Link.followObstacles, M_bind_ok, getVeh_ok] at h
    obtain ⟨u', hu', o', ho', p', hp', h⟩ := h
    obtain ⟨u2, hu2, hsame⟩ := hm.fwd j u hu
    rw [hu'] at hu2; cases hu2
    rw [hsame.project, ho] at ho'; cases ho'
    obtain ⟨c, hc, hi, hrun⟩ := followObstacle_run hp'
    rw [hvs, List.drop_append_of_le_length hle] at hc
    obtain ⟨x2, hx2, hsx⟩ := hm.fwd b x hb
    obtain ⟨i, rfl, -, he⟩ := firstBehind_at hx2 (by rw [hsx.pos_eq]; exact hx) hc
    have := he fun a ha w hw => by
      obtain ⟨w0, hw0, hsw⟩ := hm.bwd hw
      rw [hsw.pos_eq]
      exact hahead a (List.mem_of_mem_drop ha) w0 hw0
    rw [hi i rfl, this, List.length_drop, Nat.add_sub_of_le hle] at hrun
    exact ⟨p.1, p'.1, SRel.refl fun _ _ _ => VehAcc.rfl', followObstacles_slower h, hrun⟩
  | cons a front ih =>
    intro hfront p q hm hle h
    simp only [List.cons_append, Link.followObstacles, M_bind_ok, getVeh_ok] at h
    obtain ⟨w, hw, o', ho', p', hp', h⟩ := h
    obtain ⟨w0, hw0, hsw⟩ := hm.bwd hw
    rw [hsw.project] at ho'
    obtain ⟨c, hc, hi, hrun⟩ := followObstacle_run hp'
    rw [hvs, List.drop_append_of_le_length hle] at hc
    obtain ⟨x2, hx2, hsx⟩ := hm.fwd b x hb
    obtain ⟨i, rfl, hil, -⟩ := firstBehind_at hx2 (by rw [hsx.pos_eq]; exact hfront a (by simp) w0 o' hw0 ho') hc
    have hs := followObstacle_slower hp'
    rw [List.length_drop] at hil
    have := hi i rfl
    obtain ⟨vs1, vs2, h1, h2, h3⟩ := ih (fun a' ha' => hfront a' (by simp [ha'])) (hm.trans hs fun _ _ _ _ a b => a.trans b.same)
      (by omega) h
    exact ⟨vs1, vs2, SRel.trans hs h1 fun _ _ _ _ => VehAcc.trans, h2, h3⟩

end

section
variable {F : Type} [Flt F] {strict : Prop} {s s' s1 : Sim F} {dt : F} {k j b lk lo : Key} {v1 v' u x : Vehicle F}
  {l lj : Link F} {g : LinkGroup F} {ps : List (LinkProjection F)} {pr : LinkProjection F} {o : Obstacle F}
  {pre mid ahead back front : List Key} {y vel : F}

/-- **C67** (any numbers) Accelerations are recomputed.  After lane changes the vehicle `j` on the link `lo` is an
obstacle for the link `lk` of the same group.  The vehicles of `lk` are, from the rear, `pre`, `k`, `mid` and
`ahead`; those of `ahead` are not behind the obstacle, and those of `mid` can pass it.  The foremost vehicle that is
not in `ahead` is behind the obstacle, and behind those for which the vehicles in front of `j` stand.  If `k` cannot
pass the obstacle, the acceleration of `k` is -6 m/s², if it is frozen, or the least of several values, among them
the car-following acceleration for the obstacle. -/
theorem C67_obstacle [Env] [LawfulDijkstra] (h : Reach strict s) (hst : s.step dt = .ok s') (hre : ¬ s.accUpdate < 0.1)
    (hlanes : s.calculateLaneChanges = .ok s1) (hv1 : s1.getVehicle k = .ok v1) (hv' : s'.getVehicle k = .ok v')
    (hlo : s1.getLinkRef lo = .ok lj) (hg : lj.group = some g) (hps : g.projectionsFromLink lo = .ok ps) (hpr : pr ∈ ps)
    (hdst : pr.dst = lk) (hj : lj.vehicles = back ++ j :: front) (hu : s1.getVehicle j = .ok u) (ho : u.project pr = .ok o)
    (hl : s1.getLinkRef lk = .ok l) (hvs : l.vehicles = pre ++ k :: (mid ++ ahead))
    (hb : (k :: mid).getLast? = some b) (hx : s1.getVehicle b = .ok x) (hxo : x.pos < o.pos)
    (hfront : ∀ a ∈ front, ∀ w o', s1.getVehicle a = .ok w → w.project pr = .ok o' → x.pos < o'.pos)
    (hahead : ∀ a ∈ ahead, ∀ w, s1.getVehicle a = .ok w → ¬ w.pos < o.pos)
    (hmid : ∀ a ∈ mid, ∀ w, s1.getVehicle a = .ok w → ¬ w.posFront < o.pos - 5.0 * l.speedLimit ∧ w.canPass o l = .ok .pass)
    (hnear : ¬ v1.posFront < o.pos - 5.0 * l.speedLimit) (hcant : v1.canPass o l = .ok (.follow y vel)) :
    v'.acc.acc = -6.0 ∨ ∃ as : List F, v1.acc.idm (o.pos + (y - o.pos) - v1.posFront) v1.vel vel ∈ as ∧
      v'.acc.acc = as.foldl fmin v1.acc.maxAcc := by
  replace hlo := getLink_ok.1 hlo
  replace hl := getLink_ok.1 hl
  replace hu := getVeh_ok.1 hu
  replace hx := getVeh_ok.1 hx
  refine capped_step h hst hre hlanes hv1 hv' fun hi hsym n0 n1 vs s2 hr =>
    hr.linkCapped hi.mid hlo fun links va vb vc vd act c hbf hlb hrun => ?_
  replace hv1 := getVeh_ok.1 hv1
  refine Capped.after hrun.slow1.slower (Capped.after hrun.slow2.slower ?_)
  have hb2 := (hbf.slow hrun.slow1).slow hrun.slow2
  rcases hrun.projs with ⟨e, -⟩ | ⟨g', ps', hg', hps', hmem, hfold⟩
  · dsimp only at e; rw [hg] at e; cases e
  dsimp only at hg' hps'
  rw [hg] at hg'; cases hg'
  rw [(hi.net.link lo lj hlo).id, hps] at hps'; cases hps'
  have hR : ∀ a : VehicleSet F, VehsSlower a a := fun _ => SRel.refl fun _ _ _ => VehAcc.rfl'
  have hRR : ∀ a b c : VehicleSet F, VehsSlower a b → VehsSlower b c → VehsSlower a c :=
    fun _ _ _ h h' => SRel.trans h h' fun _ _ _ _ => VehAcc.trans
  have one : ∀ (pr : LinkProjection F) (sa sb : VehicleSet F),
      Link.applyProjection links { lj with active := act, lastConflict := c } sa pr = .ok sb → VehsSlower sa sb := by
    intro pr sa sb h
    simp only [Link.applyProjection, M_bind_ok, M_pure_ok] at h
    obtain ⟨_, -, q, hq, rfl⟩ := h
    exact followObstacles_slower hq
  have step : ∀ (ps : List (LinkProjection F)) (sa sb : VehicleSet F),
      ps.foldlM (Link.applyProjection links { lj with active := act, lastConflict := c }) sa = .ok sb → VehsSlower sa sb := by
    intro ps sa sb h
    exact (Spec.foldlM (E := fun _ => True) (I := fun s' => VehsSlower sa s') (fun s1 h1 k _ =>
      ⟨fun s2 h2 => hRR _ _ _ h1 (one k _ _ h2), fun _ _ => trivial⟩) (hR sa)).ok h
  obtain ⟨as, bs, e⟩ := List.append_of_mem hpr
  rw [e, List.foldlM_append, M_bind_ok] at hfold
  obtain ⟨sa, ha', hfold⟩ := hfold
  rw [List.foldlM_cons, M_bind_ok] at hfold
  obtain ⟨sb, hb', hfold⟩ := hfold
  have sa' := step _ _ _ ha'
  refine Capped.after ⟨_, sa'⟩ (Capped.before ?_ ⟨_, step _ _ _ hfold⟩)
  simp only [Link.applyProjection, M_bind_ok, M_pure_ok, getLink_ok] at hb'
  obtain ⟨lo', hlo', q, hq, rfl⟩ := hb'
  have hroute : ∀ a ∈ l.vehicles, ∀ w, s1.vehicles.get? a = some w → w.route[0]? = some lk ∧ 0 < w.entered := by
    intro a ha w hw
    obtain ⟨w', hw', hlink⟩ := ((hi.mem lk l hl).2 a).1 ha
    rw [hw] at hw'; cases hw'
    refine ⟨?_, (hi.veh a w hw).entered⟩
    rw [← hlink, Vehicle.linkId, List.head?_eq_getElem?]
  have hkl : k ∈ l.vehicles := by rw [hvs]; simp
  obtain ⟨hk0, hk1⟩ := hroute k hkl v1 hv1
  obtain ⟨c9, g9⟩ := hb2.used hl ⟨k, v1, hv1, mem_take_of_getElem? (m := 0) (by omega) hk0⟩
  rw [hdst, g9] at hlo'; cases hlo'
  set l9 : Link F := { l with active := true, lastConflict := c9 } with hl9
  have hsb : SRel (fun _ v v' => VehSame v.reset v') s1.vehicles sa :=
    hb2.vehicles.trans sa' fun _ _ _ _ a b => a.trans b.same
  have key : ∃ vs1 vs2, VehsSlower sa vs1 ∧ VehsSlower vs2 q.1 ∧ Link.processVehicles ⟨links, vs1⟩ (Link.obstacleFn l9 o)
      Env.fuel l9 (0, l9.id) o.pos ahead.reverse.length vs1 = .ok vs2 := by
    obtain ⟨x2, hx2, hxs⟩ := hsb.fwd b x hx
    obtain ⟨u2, hu2, hus⟩ := hsb.fwd j u hu
    have e1 : lj.vehicles.reverse = front.reverse ++ j :: back.reverse := by rw [hj]; simp
    rw [e1] at hq
    obtain ⟨init, hinit⟩ := List.getLast?_eq_some_iff.1 hb
    refine followObstacles_reach (l := l9) (behind := init.reverse ++ pre.reverse) (vs0 := sa) ?_ hx2 hu2
      (hus.project pr ▸ ho) (hxs.pos_eq ▸ hxo) ?_ ?_ (SRel.refl fun _ _ _ => VehSame.rfl') (Nat.zero_le _) hq
    · have : pre ++ k :: (mid ++ ahead) = pre ++ (init ++ [b]) ++ ahead := by rw [← hinit]; simp
      rw [hl9]
      dsimp only
      rw [hvs, this]
      simp
    · intro a ha w hw
      obtain ⟨w0, hw0, hws⟩ := hsb.bwd hw
      rw [hws.pos_eq]
      exact hahead a (List.mem_reverse.1 ha) w0 (getVeh_ok.2 hw0)
    · intro a ha w o' hw ho'
      obtain ⟨w0, hw0, hws⟩ := hsb.bwd hw
      rw [hxs.pos_eq]
      rw [hws.project] at ho'
      exact hfront a (List.mem_reverse.1 ha) w0 o' (getVeh_ok.2 hw0) ho'
  obtain ⟨vs1, vs2, h1, h2, h3⟩ := key
  refine Capped.after ⟨_, h1⟩ (Capped.before ?_ ⟨_, h2⟩)
  have hsb1 : SRel (fun _ v v' => VehSame v.reset v') s1.vehicles vs1 := hsb.trans h1 fun _ _ _ _ a b => a.trans b.same
  obtain ⟨v9, hv9, x9, y9, rfl⟩ := hsb1.fwd k v1 hv1
  have hid : l9.id = lk := (hi.net.link lk l hl).id
  rw [List.length_reverse, hid] at h3
  refine processVehicles_behind (n := ⟨links, vs1⟩) (R := VehsSlower)
    (Q := fun s s' => SRel (fun _ v v' => VehSame v v') vs1 s → Capped k _ s s') hR hRR
    (fun _ _ _ h h' hm => Capped.after ⟨_, h⟩ (h' (hm.trans h fun _ _ _ _ a b => a.trans b.same)))
    (fun _ _ _ h h' hm => Capped.before (h hm) ⟨_, h'⟩) obstacleFn_slower (l := l9) rfl hvs (fun a ha => ?_) hv9 hnear ?_
    (fun m p hp hm => ?_) h3 (SRel.refl fun _ _ _ => VehSame.rfl')
  · have hal : a ∈ l.vehicles := by rw [hvs]; simp [ha]
    obtain ⟨w, hw, -⟩ := ((hi.mem lk l hl).2 a).1 hal
    obtain ⟨w', hw', hws⟩ := hsb1.fwd a w hw
    obtain ⟨r0, r1⟩ := hroute a hal w hw
    obtain ⟨n1, n2⟩ := hmid a ha w (getVeh_ok.2 hw)
    refine ⟨w', hw', ?_, fun st hst => ⟨.inl ?_, fun s p hp => ?_⟩⟩
    · obtain ⟨xx, yy, rfl⟩ := hws
      exact n1
    · obtain ⟨xx, yy, rfl⟩ := hws
      have hst' : some (lk, st) = some (lk, RouteState.entered) := hst.symm.trans (getRoute_zero r0 r1)
      injection hst' with hst'
      exact (Prod.mk.inj hst').2
    · unfold Link.obstacleFn at hp
      rw [M_bind_ok] at hp
      obtain ⟨res, hres, hp⟩ := hp
      have : w'.canPass o l = .ok .pass := (hws.canPass o l).trans n2
      dsimp only at hres
      have e9 : w'.canPass o l9 = w'.canPass o l := rfl
      rw [e9, this] at hres
      cases hres
      simp only [M_pure_ok] at hp
      subst hp; rfl
  · exact getRoute_zero hk0 hk1
  · unfold Link.obstacleFn at hp
    rw [M_bind_ok] at hp
    obtain ⟨res, hres, hp⟩ := hp
    have hres' : v1.canPass o l = .ok res := hres
    rw [hcant] at hres'
    cases hres'
    simp only [M_pure_ok] at hp
    subst hp
    intro v hv
    obtain ⟨v2, hv2, x2, y2, rfl⟩ := hm.fwd k _ hv9
    rw [hv2] at hv; cases hv
    refine ⟨_, [v1.gapAcc (o.pos + (y - o.pos)) vel], ?_, by simp [Vehicle.gapAcc], y2, rfl⟩
    rw [RelVeh.followVehicle, SlotMap.get?_modify_self, hv2]
    rfl

end

section
variable {strict : Prop} {s s' s1 : Sim ℝ} {dt : ℝ} {k j b lk lo : Key} {v1 v' u x : Vehicle ℝ}
  {l lj : Link ℝ} {g : LinkGroup ℝ} {ps : List (LinkProjection ℝ)} {pr : LinkProjection ℝ} {o : Obstacle ℝ}
  {pre mid ahead back front : List Key} {y vel : ℝ}

/-- **C67** (real numbers) In the situation of C67, `k` accelerates no more than it would with the obstacle alone ahead of it. -/
theorem C67_follows [Env] [LawfulDijkstra] (h : Reach strict s) (hst : s.step dt = .ok s') (hre : ¬ s.accUpdate < 0.1)
    (hlanes : s.calculateLaneChanges = .ok s1) (hv1 : s1.getVehicle k = .ok v1) (hv' : s'.getVehicle k = .ok v')
    (hlo : s1.getLinkRef lo = .ok lj) (hg : lj.group = some g) (hps : g.projectionsFromLink lo = .ok ps) (hpr : pr ∈ ps)
    (hdst : pr.dst = lk) (hj : lj.vehicles = back ++ j :: front) (hu : s1.getVehicle j = .ok u) (ho : u.project pr = .ok o)
    (hl : s1.getLinkRef lk = .ok l) (hvs : l.vehicles = pre ++ k :: (mid ++ ahead))
    (hb : (k :: mid).getLast? = some b) (hx : s1.getVehicle b = .ok x) (hxo : x.pos < o.pos)
    (hfront : ∀ a ∈ front, ∀ w o', s1.getVehicle a = .ok w → w.project pr = .ok o' → x.pos < o'.pos)
    (hahead : ∀ a ∈ ahead, ∀ w, s1.getVehicle a = .ok w → o.pos ≤ w.pos)
    (hmid : ∀ a ∈ mid, ∀ w, s1.getVehicle a = .ok w → o.pos - 5 * l.speedLimit ≤ w.posFront ∧ w.canPass o l = .ok .pass)
    (hnear : o.pos - 5 * l.speedLimit ≤ v1.posFront) (hcant : v1.canPass o l = .ok (.follow y vel)) :
    v'.acc.getAcc ≤ followAcc v1.acc (y - v1.posFront) v1.vel vel := by
  rw [followAcc_eq]
  have := getAcc_le (C67_obstacle h hst hre hlanes hv1 hv' hlo hg hps hpr hdst hj hu ho hl hvs hb hx hxo hfront
    (fun a ha w hw => not_lt_of_ge (hahead a ha w hw)) (fun a ha w hw => ?_) ?_ hcant)
  · rw [add_sub_cancel] at this
    exact this
  · obtain ⟨n1, n2⟩ := hmid a ha w hw
    exact ⟨by norm_num; linarith, n2⟩
  · norm_num; linarith

/-- On a straight link, an obstacle is where its rear corners are. -/
theorem refineObstacle_straight {c : LinkCurve ℝ} {a t : V2 ℝ} (ht : t.x * t.x + t.y * t.y = 1)
    (hc : ∀ p, c.sampleCentre p = .ok ⟨a.add (V2.smul p t), t⟩) {n : Nat} {o o' : Obstacle ℝ}
    (h : Vehicle.refineObstacle c n o = .ok o') :
    o' = { o with
      pos := min ((o.rearCoords.1.sub a).dot t) ((o.rearCoords.2.sub a).dot t)
      lat := ⟨(o.rearCoords.1.sub a).dot (rot90 t), (o.rearCoords.2.sub a).dot (rot90 t)⟩ } := by
  have hy : ∀ (q : V2 ℝ) (p : ℝ), (q.sub (a.add (V2.smul p t))).dot t = (q.sub a).dot t - p := by
    intro q p
    simp only [V2.dot, V2.sub, V2.add, V2.smul]
    linear_combination -p * ht
  have hx : ∀ (q : V2 ℝ) (p : ℝ), (q.sub (a.add (V2.smul p t))).dot (rot90 t) = (q.sub a).dot (rot90 t) := by
    intro q p
    simp only [V2.dot, V2.sub, V2.add, V2.smul, rot90]
    ring
  induction n generalizing o with
  | zero => simp [Vehicle.refineObstacle] at h
  | succ n ih =>
    unfold Vehicle.refineObstacle at h
    rw [M_bind_ok] at h
    obtain ⟨sm, hsm, h⟩ := h
    rw [hc] at hsm
    cases hsm
    simp only [projectLocal, hx, hy] at h
    have hm : o.pos + fmin ((o.rearCoords.1.sub a).dot t - o.pos) ((o.rearCoords.2.sub a).dot t - o.pos) =
        min ((o.rearCoords.1.sub a).dot t) ((o.rearCoords.2.sub a).dot t) := by
      show o.pos + min _ _ = _
      rw [← min_add_add_left]
      congr 1 <;> ring
    split at h
    · rw [M_pure_ok] at h
      subst h
      simp only [hm]
    · rw [ih h]

/-- **C67** (passing) On a straight link, which begins at `a` and has the direction `t`, a vehicle passes an obstacle if
half its width and half a metre more is free beside the middle of its lane where it is; here the obstacle is taken
where it was projected to, or else where its rear corners are.  Otherwise it follows the hindmost of the rear corners,
which moves with the speed of the obstacle. -/
theorem C67_passing [Env] {v : Vehicle ℝ} {o : Obstacle ℝ} {l : Link ℝ} {a t : V2 ℝ} (ht : t.x * t.x + t.y * t.y = 1)
    (hc : ∀ p, l.curve.sampleCentre p = .ok ⟨a.add (V2.smul p t), t⟩) {r : ObstaclePassResult ℝ} (h : v.canPass o l = .ok r) :
    let y := min ((o.rearCoords.1.sub a).dot t) ((o.rearCoords.2.sub a).dot t)
    let far := fun (p x0 x1 : ℝ) => v.halfWid + 1 / 2 < max (x0 - v.offsetAt (p - v.halfLen)) (v.offsetAt (p - v.halfLen) - x1)
    (r = .pass ↔ far o.pos o.lat.min o.lat.max ∨
        far y ((o.rearCoords.1.sub a).dot (rot90 t)) ((o.rearCoords.2.sub a).dot (rot90 t))) ∧
      (r ≠ .pass → r = .follow y o.vel) := by
  intro y far
  have hclear : ∀ o' : Obstacle ℝ, v.isClear o' = true ↔ far o'.pos o'.lat.min o'.lat.max := by
    intro o'
    refine decide_eq_true_iff.trans ?_
    show v.halfWid + (0.5 : ℝ) < max _ _ ↔ _
    rw [show (0.5 : ℝ) = 1 / 2 by norm_num, max_comm]
  unfold Vehicle.canPass at h
  split at h
  · rename_i h1
    rw [M_pure_ok] at h
    subst h
    exact ⟨⟨fun _ => .inl ((hclear o).1 h1), fun _ => rfl⟩, fun h => absurd rfl h⟩
  · rename_i h1
    rw [M_bind_ok] at h
    obtain ⟨o', ho', h⟩ := h
    have e := refineObstacle_straight ht hc ho'
    have h2 := hclear o'
    rw [e] at h2 h
    split at h
    · rename_i h3
      rw [M_pure_ok] at h
      subst h
      exact ⟨⟨fun _ => .inr (h2.1 h3), fun _ => rfl⟩, fun h => absurd rfl h⟩
    · rename_i h3
      rw [M_pure_ok] at h
      subst h
      refine ⟨⟨fun h => (by cases h), fun h => ?_⟩, fun _ => rfl⟩
      rcases h with h | h
      · exact absurd ((hclear o).2 h) h1
      · exact absurd (h2.2 h) h3

end

/-! ## Examples -/

namespace Narrow
open Town
attribute [local instance] Town.env

/-- Two lanes too close to each other, and a car on each. -/
def ops : List (Op Float) :=
  [.addLink ⟨street 0.0 0.0 1.0 0.0 6.0, 10.0⟩, .addLink ⟨street 0.0 1.0 1.0 0.0 6.0, 10.0⟩, .addLinkGroup [⟨0, 1⟩, ⟨1, 1⟩] 0,
   .addVehicle ⟨2.0, 1.0, 0.5, 2.0, 6.0, 2.0⟩ ⟨1, 1⟩, .step 1.0, .addVehicle ⟨2.0, 1.0, 0.5, 2.0, 6.0, 2.0⟩ ⟨0, 1⟩]

def test (s s' : Sim Float) : Bool :=
  decide (¬ s.accUpdate < 0.1) && (s'.vehicles.get? ⟨1, 1⟩).isSome &&
  match s.calculateLaneChanges with
  | .ok s1 => match s1.vehicles.get? ⟨0, 1⟩, s1.vehicles.get? ⟨1, 1⟩, s1.links.get? ⟨0, 1⟩, s1.links.get? ⟨1, 1⟩ with
    | some u, some v, some l, some lj => l.vehicles == [⟨1, 1⟩] && lj.vehicles == [⟨0, 1⟩] && match lj.group with
      | some g => match g.projectionsFromLink ⟨1, 1⟩ with
        | .ok [pr] => pr.dst == ⟨0, 1⟩ && match u.project pr with
          | .ok o => decide (v.pos < o.pos) && decide (¬ v.posFront < o.pos - 5.0 * l.speedLimit) && match v.canPass o l with
            | .ok (.follow _ _) => true
            | _ => false
          | _ => false
        | _ => false
      | _ => false
    | _, _, _, _ => false
  | .error _ => false

theorem slows : ∃ s s' : Sim Float, Reach True s ∧ Allowed True s (.step 0.3) ∧ s.exec (.step 0.3) = .ok s' ∧
    Reach True s' ∧ test s s' = true :=
  trial_reach (ops := ops) (by decide +kernel)

/-- C67 -/
example : ∃ (s s' s1 : Sim Float) (k j b lk lo : Key) (v1 v' u x : Vehicle Float) (l lj : Link Float) (g : LinkGroup Float)
    (ps : List (LinkProjection Float)) (pr : LinkProjection Float) (o : Obstacle Float) (pre mid ahead back front : List Key)
    (y vel : Float), Reach True s ∧ s.step 0.3 = .ok s' ∧ ¬ s.accUpdate < 0.1 ∧
    s.calculateLaneChanges = .ok s1 ∧ s1.getVehicle k = .ok v1 ∧ s'.getVehicle k = .ok v' ∧
    s1.getLinkRef lo = .ok lj ∧ lj.group = some g ∧ g.projectionsFromLink lo = .ok ps ∧ pr ∈ ps ∧
    pr.dst = lk ∧ lj.vehicles = back ++ j :: front ∧ s1.getVehicle j = .ok u ∧ u.project pr = .ok o ∧
    s1.getLinkRef lk = .ok l ∧ l.vehicles = pre ++ k :: (mid ++ ahead) ∧
    (k :: mid).getLast? = some b ∧ s1.getVehicle b = .ok x ∧ x.pos < o.pos ∧
    (∀ a ∈ front, ∀ w o', s1.getVehicle a = .ok w → w.project pr = .ok o' → x.pos < o'.pos) ∧
    (∀ a ∈ ahead, ∀ w, s1.getVehicle a = .ok w → ¬ w.pos < o.pos) ∧
    (∀ a ∈ mid, ∀ w, s1.getVehicle a = .ok w → ¬ w.posFront < o.pos - 5.0 * l.speedLimit ∧ w.canPass o l = .ok .pass) ∧
    ¬ v1.posFront < o.pos - 5.0 * l.speedLimit ∧ v1.canPass o l = .ok (.follow y vel) := by
  obtain ⟨s, s', h1, -, h3, -, h5⟩ := slows
  unfold test at h5
  simp only [Bool.and_eq_true, decide_eq_true_eq, Option.isSome_iff_exists] at h5
  obtain ⟨⟨h6, v', hv'⟩, h5⟩ := h5
  split at h5
  · rename_i s1 hs1
    split at h5
    · rename_i u v l lj hu hv hl hlj
      simp only [Bool.and_eq_true, beq_iff_eq] at h5
      obtain ⟨⟨a1, a2⟩, h5⟩ := h5
      split at h5
      · rename_i g hg
        split at h5
        · rename_i pr hpr
          rw [Bool.and_eq_true, beq_iff_eq] at h5
          obtain ⟨hd, h5⟩ := h5
          split at h5
          · rename_i o ho
            simp only [Bool.and_eq_true, decide_eq_true_eq] at h5
            obtain ⟨⟨a3, a4⟩, h5⟩ := h5
            split at h5
            · rename_i y vel hp
              exact ⟨s, s', s1, ⟨1, 1⟩, ⟨0, 1⟩, ⟨1, 1⟩, ⟨0, 1⟩, ⟨1, 1⟩, v, v', u, v, l, lj, g, [pr], pr, o, [], [], [], [], [],
                y, vel, h1, h3, h6, hs1, getVeh_ok.2 hv, getVeh_ok.2 hv', getLink_ok.2 hlj, hg, hpr, by simp, hd, a2,
                getVeh_ok.2 hu, ho, getLink_ok.2 hl, a1, rfl, getVeh_ok.2 hv, a3, nofun, nofun, nofun, a4, hp⟩
            · cases h5
          · cases h5
        · cases h5
      · cases h5
    · cases h5
  · simp at h5

end Narrow

namespace StraightLane

/-- A straight link of one segment. -/
noncomputable def curve : LinkCurve ℝ := ⟨1 / 2, 2, [⟨⟨0, 0⟩, ⟨1, 0⟩, ⟨2, 0⟩⟩]⟩

theorem curve_eq (p : ℝ) : curve.sampleCentre p = .ok ⟨(⟨0, 0⟩ : V2 ℝ).add (V2.smul p ⟨1, 0⟩), ⟨1, 0⟩⟩ := by
  have h2 : Real.sqrt (2 * 2) = 2 := Real.sqrt_mul_self (by norm_num)
  have e : curve.segmentIndex p = .ok 0 := by
    rw [LinkCurve.segmentIndex, if_neg (by simp [curve])]
    simp [curve]
  have e' : curve.sampleInternal p = .ok (⟨⟨0, 0⟩, ⟨1, 0⟩, ⟨2, 0⟩⟩, p * (1 / 2) - ((0 : ℕ) : ℝ)) := by
    unfold LinkCurve.sampleInternal
    rw [M_bind_ok]
    exact ⟨0, e, rfl⟩
  unfold LinkCurve.sampleCentre
  rw [M_bind_ok]
  refine ⟨_, e', ?_⟩
  rw [M_pure_ok]
  have e3 : (QuadraticBezier2d.sampleDt ⟨⟨0, 0⟩, ⟨1, 0⟩, ⟨2, 0⟩⟩ (p * (1 / 2) - ((0 : ℕ) : ℝ)) : V2 ℝ) = ⟨2, 0⟩ := by
    simp only [QuadraticBezier2d.sampleDt, V2.smul, V2.add]
    congr 1
    · norm_num; ring
    · norm_num
  rw [e3]
  congr 1
  · simp only [QuadraticBezier2d.sample, V2.smul, V2.add]
    congr 1
    · norm_num; ring
    · norm_num
  · have : V2.magnitude (⟨2, 0⟩ : V2 ℝ) = 2 := by
      show Real.sqrt (2 * 2 + 0 * 0) = 2
      rw [mul_zero, add_zero, h2]
    simp only [V2.normalize, V2.normalizeTo, this, V2.smul]
    norm_num

/-- An obstacle 5 m ahead, half on the lane: `C67_passing` applies, and the vehicle follows. -/
example : ∃ (env : Env) (v : Vehicle ℝ) (o : Obstacle ℝ) (l : Link ℝ) (a t : V2 ℝ) (r : ObstaclePassResult ℝ),
    t.x * t.x + t.y * t.y = 1 ∧ (∀ p, l.curve.sampleCentre p = .ok ⟨a.add (V2.smul p t), t⟩) ∧
    @Vehicle.canPass ℝ _ env v o l = .ok r ∧ r = .follow 5 3 := by
  let env := Search.full 5
  let v : Vehicle ℝ := Vehicle.new ⟨0, 1⟩ ⟨2, 4, 3, 2, 2, 2⟩
  let o : Obstacle ℝ := ⟨4, ⟨0, 2⟩, (⟨5, 0⟩, ⟨5, 2⟩), 3⟩
  let l : Link ℝ := ⟨⟨0, 1⟩, none, curve, [], [], [], [], 0, 10, 0, [], .open_, true⟩
  have hv : ∀ p, v.offsetAt p = 0 := by
    intro p
    show (0.0 : ℝ) = 0
    norm_num
  have hw : v.halfWid = 1 := by
    show (0.5 : ℝ) * 2 = 1
    norm_num
  have hr : Vehicle.refineObstacle curve 5 o = .ok ⟨5, ⟨0, 2⟩, (⟨5, 0⟩, ⟨5, 2⟩), 3⟩ := by
    have d : ∀ (q : V2 ℝ) (p : ℝ), (projectLocal q ((⟨0, 0⟩ : V2 ℝ).add (V2.smul p ⟨1, 0⟩)) (rot90 ⟨1, 0⟩) ⟨1, 0⟩ : V2 ℝ) =
        ⟨q.y, q.x - p⟩ := by
      intro q p
      simp only [projectLocal, V2.dot, V2.sub, V2.add, V2.smul, rot90]
      congr 1 <;> ring
    have m : ∀ a : ℝ, fmin a a = a := fun a => min_self a
    unfold Vehicle.refineObstacle
    rw [M_bind_ok]
    refine ⟨_, curve_eq _, ?_⟩
    simp only [d, m, o]
    rw [if_neg (by norm_num)]
    unfold Vehicle.refineObstacle
    rw [M_bind_ok]
    refine ⟨_, curve_eq _, ?_⟩
    simp only [d, m]
    rw [if_pos (by norm_num), M_pure_ok]
    congr 1
    norm_num
  have hnc : ∀ p, v.isClear ⟨p, ⟨0, 2⟩, (⟨5, 0⟩, ⟨5, 2⟩), 3⟩ = false := by
    intro p
    refine decide_eq_false ?_
    show ¬ v.halfWid + (0.5 : ℝ) < max (v.offsetAt _ - 2) (0 - v.offsetAt _)
    rw [hv, hw]
    norm_num
  refine ⟨env, v, o, l, ⟨0, 0⟩, ⟨1, 0⟩, .follow 5 3, by norm_num, curve_eq, ?_, rfl⟩
  unfold Vehicle.canPass
  rw [if_neg (by rw [hnc]; simp), M_bind_ok]
  exact ⟨_, hr, by rw [if_neg (by rw [hnc]; simp)]; rfl⟩

end StraightLane

end TrafficSim
