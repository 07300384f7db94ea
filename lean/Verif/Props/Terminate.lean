import Verif.Lemmas.Settle
import Verif.Lemmas.Run
import Verif.Lemmas.Lone

/-! # Termination of a step -/

namespace TrafficSim

/-- The parameters of the model with another amount of fuel. -/
@[instance_reducible] def Env.withFuel [Env] (n : Nat) : Env := ⟨n, Env.dijkstra⟩

theorem LawfulDijkstra.withFuel [Env] [h : LawfulDijkstra] (n : Nat) : @LawfulDijkstra (Env.withFuel n) :=
  @LawfulDijkstra.mk (Env.withFuel n) h.err h.found h.notFound

/-- The search for the place of an obstacle along the curve ends. -/
def RefineEnds (c : LinkCurve ℝ) : Prop := ∀ o, Settles (fun n => Vehicle.refineObstacle c n o) fun _ => True

/-- What a step needs to end: positive lengths and speed limits, and the search for the place of an obstacle ends on
the curve of each link to which the vehicles of another one are projected. -/
structure StepEnds (links : LinkSet ℝ) : Prop extends PosNet links where
  refine : ∀ k l, links.get? k = some l → ∀ g, l.group = some g → ∀ p ∈ g.projections, ∀ l', links.get? p.dst = some l' →
    RefineEnds l'.curve

theorem StepEnds.rel {links links' : LinkSet ℝ} (h : StepEnds links)
    (hr : SRel (fun _ l l' => l'.curve = l.curve ∧ l'.speedLimit = l.speedLimit ∧ l'.group = l.group) links links') :
    StepEnds links' := by
  refine ⟨⟨fun k l' hl' => ?_, fun k l' hl' => ?_⟩, fun k l' hl' g hg p hp l2' hl2' => ?_⟩
  · obtain ⟨l, hl, h1, -⟩ := hr.bwd hl'
    have := h.length k l hl
    unfold Link.length at this ⊢
    rw [h1]; exact this
  · obtain ⟨l, hl, -, h1, -⟩ := hr.bwd hl'
    rw [h1]; exact h.limit k l hl
  · obtain ⟨l, hl, -, -, h1⟩ := hr.bwd hl'
    obtain ⟨l2, hl2, h2, -⟩ := hr.bwd hl2'
    rw [h2]
    exact h.refine k l hl g (h1.symm.trans hg) p hp l2 hl2

theorem StepEnds.frame {links links' : LinkSet ℝ} (h : StepEnds links) (hf : Frame links links') : StepEnds links' :=
  h.rel (SRel.mono hf fun _ _ _ h => ⟨h.curve, h.speedLimit, h.group⟩)

theorem StepEnds.lastConflict {links : LinkSet ℝ} (h : StepEnds links) (k : Key) (c : Nat) :
    StepEnds (links.modify k fun l => { l with lastConflict := c }) :=
  h.rel (SRel.modify_one _ _ _ (fun _ _ _ => ⟨rfl, rfl, rfl⟩) fun _ _ => ⟨rfl, rfl, rfl⟩)

section
variable [Env]

theorem canEnterLoop_settles {net : Net ℝ} (hnet : PosNet net.links) {l : Link ℝ} {veh : RelVeh ℝ} {q : Nat} {pr : Int} :
    ∀ {idxs : List Nat}, Settles (fun n => @Link.canEnterLoop ℝ _ (Env.withFuel n) net l veh q pr idxs) fun _ => True
  | [] => by
    unfold Link.canEnterLoop
    exact .pure trivial
  | idx :: rest => by
    unfold Link.canEnterLoop
    cases l.conflicts[idx]? with
    | none => exact .throw (by simp)
    | some c =>
      refine .bind getLink_settles fun l' hl' => ?_
      exact .bind (checkGap_settles hnet hl') fun b _ => .ite (fun _ => canEnterLoop_settles hnet) fun _ => .pure trivial

theorem stoplineFn_settles {net : Net ℝ} (hnet : PosNet net.links) {l : Link ℝ} (r : RelVeh ℝ) (s : Net ℝ) (hs : StepEnds s.links) :
    Settles (fun n => @Link.stoplineFn ℝ _ (Env.withFuel n) net l r s) fun p => StepEnds p.1.links := by
  unfold Link.stoplineFn
  cases hg : r.getRoute 1 with
  | none =>
    dsimp only
    exact .ite (fun _ => .pure hs) fun _ => .pure hs
  | some p =>
    obtain ⟨k, st⟩ := p
    cases st with
    | entered =>
      dsimp only
      exact .pure hs
    | notEntered =>
      dsimp only
      refine .bind getLink_settles fun next _ => ?_
      cases next.control with
      | open_ => exact .ite (fun _ => .pure hs) fun _ => .pure hs
      | yield_ d m p => exact .pure hs
      | closed => exact .pure hs
    | queuedAt f =>
      dsimp only
      refine .bind getLink_settles fun next _ => ?_
      cases next.control with
      | open_ => exact .ite (fun _ => .pure hs) fun _ => .pure hs
      | yield_ d m p =>
        dsimp only
        refine .bind getLink_settles fun cur _ => ?_
        refine .bind (P := fun _ => True) ?_ fun b _ => ?_
        · unfold Link.canEnter
          refine .bind (canEnterLoop_settles hnet) fun c _ => ?_
          cases c <;> exact .pure trivial
        · obtain ⟨b, c⟩ := b
          dsimp only
          exact .ite (fun _ => .pure (hs.lastConflict _ _)) fun _ => .pure (hs.lastConflict _ _)
      | closed => exact .pure hs

theorem applyStoplines_settles {net : Net ℝ} (hnet : StepEnds net.links) (k : Key) :
    Settles (fun n => @Link.applyStoplines ℝ _ (Env.withFuel n) net k) fun n => StepEnds n.links := by
  unfold Link.applyStoplines
  exact .bind getLink_settles fun l hl => processVehicles_settles hnet.toPosNet
    (fun r s hs => stoplineFn_settles hnet.toPosNet r s hs) hl hnet

omit [Env] in
theorem updVeh_settles {vs : VehicleSet ℝ} {k : Key} {f : Vehicle ℝ → Vehicle ℝ} :
    Settles (fun _ => updVeh vs k f) fun _ => True := by
  unfold updVeh
  split
  · exact .pure trivial
  · exact .throw (by simp)

omit [Env] in
theorem followWindows_settles {limit : ℝ} : ∀ {ks : List Key} {vs : VehicleSet ℝ},
    Settles (fun _ => Link.followWindows limit ks vs) fun _ => True
  | [], _ => by
    unfold Link.followWindows
    exact .pure trivial
  | [k], vs => by
    unfold Link.followWindows
    exact updVeh_settles
  | k :: k' :: ks, vs => by
    unfold Link.followWindows
    exact .bind getVeh_settles fun ld _ => .bind updVeh_settles fun vs' _ => followWindows_settles

omit [Env] in
theorem enteringFn_settles {l : Link ℝ} (r : RelVeh ℝ) (vs : VehicleSet ℝ) :
    Settles (fun _ => Link.enteringFn l r vs) fun _ => True := by
  unfold Link.enteringFn
  dsimp only
  cases l.vehicles with
  | nil => exact .pure trivial
  | cons k ks => exact .bind getVeh_settles fun ld _ => .pure trivial

theorem obstacleFn_settles {l : Link ℝ} (hl : RefineEnds l.curve) {o : Obstacle ℝ} (r : RelVeh ℝ) (vs : VehicleSet ℝ) :
    Settles (fun n => @Link.obstacleFn ℝ _ (Env.withFuel n) l o r vs) fun _ => True := by
  unfold Link.obstacleFn
  refine .bind (P := fun _ => True) ?_ fun b _ => by cases b <;> exact .pure trivial
  unfold Vehicle.canPass
  refine .ite (fun _ => .pure trivial) fun _ => ?_
  exact .bind (hl o) fun o' _ => .ite (fun _ => .pure trivial) fun _ => .pure trivial

omit [Env] in
theorem firstBehind_settles {vs : VehicleSet ℝ} {pos : ℝ} : ∀ {ks : List Key},
    Settles (fun _ => Link.firstBehind vs pos ks) fun _ => True
  | [] => by
    unfold Link.firstBehind
    exact .pure trivial
  | k :: ks => by
    unfold Link.firstBehind
    refine .bind getVeh_settles fun v _ => .ite (fun _ => .pure trivial) fun _ => .bind firstBehind_settles fun r _ => ?_
    cases r <;> exact .pure trivial

theorem followObstacles_settles {links : LinkSet ℝ} (hnet : PosNet links) {proj : LinkProjection ℝ} {k : Key} {l : Link ℝ}
    (hl : links.get? k = some l) (hp : RefineEnds l.curve) : ∀ {ks : List Key} {s : VehicleSet ℝ × Nat},
    Settles (fun n => @Link.followObstacles ℝ _ (Env.withFuel n) links proj l ks s) fun _ => True
  | [], s => by
    unfold Link.followObstacles
    exact .pure trivial
  | j :: ks, s => by
    unfold Link.followObstacles
    refine .bind getVeh_settles fun v _ => ?_
    refine .bind (P := fun _ => True) (.of_spec ⟨fun _ _ => trivial, ?_⟩) fun o _ => ?_
    · intro e he
      unfold Vehicle.project LinkProjection.project LinkProjection.sample at he
      simp only [M_bind_err, M_pure_err, and_false, exists_false, or_false] at he
      split at he
      · rw [M_throw_err] at he; subst he; simp
      · split at he
        · rw [M_pure_err] at he; cases he
        · rw [M_throw_err] at he; subst he; simp
    · refine .bind (P := fun _ => True) ?_ fun s' _ => followObstacles_settles hnet hl hp
      unfold Link.followObstacle
      refine .bind firstBehind_settles fun r _ => ?_
      cases r <;>
        exact .bind (P := fun _ => True) (.pure trivial) fun skip _ =>
          .bind (processVehicles_settles (net := ⟨links, s.1⟩) (Q := fun _ => True) hnet
            (fun r s _ => (obstacleFn_settles hp r s).mono fun _ _ => trivial) hl trivial) fun vs _ => .pure trivial

theorem linkAccelerations_settles {links : LinkSet ℝ} (hnet : PosNet links)
    (hp : ∀ k l, links.get? k = some l → ∀ g, l.group = some g → ∀ p ∈ g.projections, ∀ l', links.get? p.dst = some l' →
      RefineEnds l'.curve) (vs : VehicleSet ℝ) (k : Key) :
    Settles (fun n => @Link.applyAccelerations ℝ _ (Env.withFuel n) links vs k) fun _ => True := by
  unfold Link.applyAccelerations
  refine .bind getLink_settles fun l hl => .bind followWindows_settles fun vs1 _ => ?_
  refine .bind (processVehicles_settles (net := ⟨links, vs1⟩) (Q := fun _ => True) hnet
    (fun r s _ => (enteringFn_settles r s).mono fun _ _ => trivial) hl trivial) fun vs2 _ => ?_
  cases hg : l.group with
  | none => exact .pure trivial
  | some g =>
    dsimp only
    refine .bind (P := fun ps => ∀ p ∈ ps, p ∈ g.projections) (.of_spec ⟨?_, ?_⟩) fun ps hps => ?_
    · intro ps h
      unfold LinkGroup.projectionsFromLink at h
      split at h
      · cases h
      · split at h
        · cases h
        · dsimp only at h
          split at h
          · rw [M_pure_ok] at h
            subst h
            intro p hp
            exact List.mem_of_mem_take (List.mem_of_mem_drop hp)
          · cases h
    · intro e h
      unfold LinkGroup.projectionsFromLink at h
      split at h
      · cases h; simp
      · split at h
        · cases h; simp
        · dsimp only at h
          split at h
          · cases h
          · cases h; simp
    · refine .foldlM (fun vs _ p hpp => ?_) trivial
      unfold Link.applyProjection
      refine .bind getLink_settles fun l' hl' => ?_
      exact .bind (followObstacles_settles hnet hl' (hp k l hl g hg p (hps p hpp) l' hl')) fun r _ => .pure trivial

theorem findVehicles_settles {net : Net ℝ} (hnet : PosNet net.links) (c : ConflictPointLink ℝ) (out : List (RelVeh ℝ)) :
    Settles (fun n => @ConflictPointLink.findVehicles ℝ _ (Env.withFuel n) c net out) fun _ => True := by
  unfold ConflictPointLink.findVehicles
  refine .bind getLink_settles fun l hl => processVehicles_settles (Q := fun _ => True) hnet (fun r s _ => ?_) hl trivial
  unfold ConflictPointLink.findFn
  exact .ite (fun _ => .pure trivial) fun _ => .pure trivial

theorem conflictAccelerations_settles {links : LinkSet ℝ} (hnet : PosNet links) (c : ConflictPoint ℝ) (vs : VehicleSet ℝ) :
    Settles (fun n => @ConflictPoint.applyAccelerations ℝ _ (Env.withFuel n) c links vs) fun _ => True := by
  unfold ConflictPoint.applyAccelerations
  refine .bind (findVehicles_settles hnet _ _) fun b0 _ => .ite (fun _ => .pure trivial) fun _ => ?_
  refine .bind (findVehicles_settles hnet _ _) fun b1 _ => .ite (fun _ => .pure trivial) fun _ => ?_
  refine .bind (P := fun _ => True) ?_ fun b _ => .pure trivial
  unfold sortBuffer
  exact .ite (fun _ => .throw (by simp)) fun _ => .pure trivial

/-- The phase of a step that recomputes the accelerations ends. -/
theorem applyAccelerations_settles {strict : Prop} {s : Sim ℝ} (hs : SimInv strict s) (hn : StepEnds s.links) :
    Settles (fun n => @Sim.applyAccelerations ℝ _ (Env.withFuel n) s) fun _ => True := by
  unfold Sim.applyAccelerations
  refine .ite (fun _ => .pure trivial) fun _ => ?_
  refine .bind (.of_spec (prepareNet_spec fun k v hv => (hs.veh k v hv).drivable.valid)) fun n0 h0 => ?_
  have hn0 : StepEnds n0.links := hn.frame h0.frame
  refine .bind (P := fun n1 => StepEnds n1.links) (.foldlM (fun n1 h1 k _ => applyStoplines_settles h1 k) hn0) fun n1 h1 => ?_
  refine .bind (P := fun _ => True) ?_ fun vs _ => .pure trivial
  unfold Sim.applyLinkAccelerations
  refine .bind (P := fun _ => True) (.foldlM (fun vs _ k _ => linkAccelerations_settles h1.toPosNet h1.refine vs k) trivial)
    fun vs _ => ?_
  exact .foldlM (fun vs _ c _ => conflictAccelerations_settles h1.toPosNet c vs) trivial

theorem step_settles [LawfulDijkstra] {strict : Prop} {s : Sim ℝ} (hs : SimInv strict s) (hd : SearchEnds) (hn : StepEnds s.links)
    (dt : ℝ) : ∃ N r, r ≠ .error .diverges ∧ ∀ n, N ≤ n → @Sim.step ℝ _ (Env.withFuel n) s dt = r := by
  have key : Settles (fun n => @Sim.step ℝ _ (Env.withFuel n) s dt) fun _ => True := by
    have hE : ∀ e, StepErr strict False True e → e ≠ .diverges := by
      rintro e he rfl
      exact he
    unfold Sim.step
    refine .bind (P := fun s1 => SimInv strict s1 ∧ StepEnds s1.links)
      (.of_spec ((calculateLaneChanges_phase (strict := strict) (div := False) (.inl hd) (.inr trivial) hs).mono ?_ hE)) fun s1 ⟨i1, n1⟩ => ?_
    · rintro s1 (⟨-, rfl⟩ | ⟨-, vs, lcs, h1⟩)
      · exact ⟨hs, hn⟩
      · exact ⟨h1.inv, hn.frame h1.ctrl.frame⟩
    refine .bind ((applyAccelerations_settles i1 n1).and_of_ok (P := fun s2 => SimMid strict s2) ?_) fun s2 ⟨_, i2⟩ => ?_
    · intro n s2 h2
      let _ := Env.withFuel n
      rcases (applyAccelerations_phase (E := fun _ => True) trivial (.inr trivial) (.inr ⟨trivial, trivial, trivial⟩) i1.mid).ok h2 with
        ⟨-, rfl⟩ | ⟨-, n0, n1, vs, h2⟩
      · exact i1.mid
      · exact h2.mid i1
    refine .bind (P := fun s3 => SimMid strict s3) (.of_spec ((updateLights_phase (div := False) i2 dt).mono ?_ hE)) fun s3 i3 => ?_
    · rintro s3 ⟨wss, h3⟩
      exact h3.mid i2
    refine .bind (P := fun s4 => SimInv strict s4) (.of_spec ((integrate_phase i3 dt).mono (fun s4 h4 => h4.inv i3) fun _ => id))
      fun s4 i4 => ?_
    refine .bind (P := fun s5 => SimInv strict s5)
      (.of_spec ((advanceVehicles_phase StepErr.shift (.inl hd) i4).mono (fun s5 h5 => h5.inv i4) hE)) fun s5 i5 => ?_
    exact .bind (P := fun _ => True) (.of_spec ((updateVehicleCoords_phase i5).mono (fun _ _ => trivial) fun _ => id))
      fun s6 _ => .pure trivial
  obtain ⟨N, r, h1, -, h2⟩ := key
  exact ⟨N, r, h1, h2⟩

/-- **C32.** In exact arithmetic, a step of a reachable simulation ends, whatever the network looks like: if all
lengths and speed limits are positive, the search for shortest paths ends, and the search for the place of an
obstacle ends on the curves of neighbouring lanes, then from some amount of fuel on the result is always the
same and not that of running out of fuel. -/
theorem C32_step [LawfulDijkstra] {strict : Prop} {s : Sim ℝ} (h : Reach strict s) (hd : SearchEnds) (hn : StepEnds s.links) (dt : ℝ) :
    ∃ N r, r ≠ .error .diverges ∧ ∀ n, N ≤ n → @Sim.step ℝ _ (Env.withFuel n) s dt = r :=
  step_settles h.inv hd hn dt

end

/-- On a straight link the search for the place of an obstacle ends after two rounds. -/
theorem refineEnds_straight {c : LinkCurve ℝ} {a u : V2 ℝ} (hu : u.x * u.x + u.y * u.y = 1)
    (hs : ∀ s, c.sampleCentre s = .ok ⟨a.add (V2.smul s u), u⟩) : RefineEnds c := by
  intro o
  have hy : ∀ (p : V2 ℝ) (s : ℝ), (projectLocal p (a.add (V2.smul s u)) (rot90 u) u).y = (p.sub a).dot u - s := by
    intro p s
    simp only [projectLocal, V2.dot, V2.sub, V2.add, V2.smul]
    linear_combination (-s) * hu
  have hx : ∀ (p : V2 ℝ) (s : ℝ), (projectLocal p (a.add (V2.smul s u)) (rot90 u) u).x = (p.sub a).dot (rot90 u) := by
    intro p s
    simp only [projectLocal, V2.dot, V2.sub, V2.add, V2.smul, rot90]
    ring
  have hmin : ∀ x y s : ℝ, fmin (x - s) (y - s) = min x y - s := by
    intro x y s
    show min (x - s) (y - s) = _
    exact (min_sub_sub_right x y s)
  have key : ∀ n o, Vehicle.refineObstacle c (n + 1) o =
      let d := min ((o.rearCoords.1.sub a).dot u) ((o.rearCoords.2.sub a).dot u) - o.pos
      if d < 0.1 then pure { o with
        pos := o.pos + d
        lat := ⟨(o.rearCoords.1.sub a).dot (rot90 u), (o.rearCoords.2.sub a).dot (rot90 u)⟩ }
      else Vehicle.refineObstacle c n { o with pos := o.pos + d } := by
    intro n o
    conv_lhs => unfold Vehicle.refineObstacle
    simp only [hs, hy, hx, hmin, bind, Except.bind]
  obtain ⟨r, hr⟩ : ∃ r : Obstacle ℝ, ∀ n, Vehicle.refineObstacle c (n + 2) o = .ok r := by
    by_cases hd : min ((o.rearCoords.1.sub a).dot u) ((o.rearCoords.2.sub a).dot u) - o.pos < 0.1
    · exact ⟨_, fun n => by rw [key]; dsimp only; rw [if_pos hd]; rfl⟩
    · exact ⟨_, fun n => by
        rw [key]
        dsimp only
        rw [if_neg hd, key]
        dsimp only
        rw [if_pos (by norm_num)]
        rfl⟩
  refine ⟨2, .ok r, by simp, fun _ _ => trivial, fun n hn => ?_⟩
  obtain ⟨m, rfl⟩ := Nat.exists_eq_add_of_le hn
  rw [Nat.add_comm]
  exact hr m

/-- The curve of every link is that of a straight line. -/
def StraightNet (links : LinkSet ℝ) : Prop := ∀ k l, links.get? k = some l → ∃ a u : V2 ℝ, u.x * u.x + u.y * u.y = 1 ∧
  ∀ s, l.curve.sampleCentre s = .ok ⟨a.add (V2.smul s u), u⟩

/-- **C32**, for straight links: a step of a reachable simulation ends. -/
theorem C32_straight [Env] [LawfulDijkstra] {strict : Prop} {s : Sim ℝ} (h : Reach strict s) (hd : SearchEnds)
    (hn : PosNet s.links) (hs : StraightNet s.links) (dt : ℝ) :
    ∃ N r, r ≠ .error .diverges ∧ ∀ n, N ≤ n → @Sim.step ℝ _ (Env.withFuel n) s dt = r := by
  refine C32_step h hd ⟨hn, fun k l hl g hg p hp l' hl' => ?_⟩ dt
  obtain ⟨a, u, hu, h1⟩ := hs p.dst l' hl'
  exact refineEnds_straight hu h1

/-- **C32**, the search over the vehicles on links upstream: it ends for every network with positive lengths and speed
limits, whatever is done with the vehicles, as long as that ends. -/
theorem C32_search {σ : Type} {net : Net ℝ} (hn : PosNet net.links) {k : Key} {l : Link ℝ} (hl : net.links.get? k = some l)
    (f : RelVeh ℝ → σ → M (σ × Bool)) (hf : ∀ veh s, f veh s ≠ .error .diverges) (route : Nat × Key) (pos : ℝ) (skip : Nat) (s : σ) :
    ∃ N r, r ≠ .error .diverges ∧ ∀ n, N ≤ n → Link.processVehicles net f n l route pos skip s = r := by
  obtain ⟨N, r, h1, -, h2⟩ := processVehicles_settles (Q := fun _ => True) hn (g := fun _ => f)
    (fun veh s _ => ⟨0, f veh s, hf veh s, fun _ _ => trivial, fun _ _ => rfl⟩) hl (route := route) (pos := pos) (skip := skip)
    (s := s) trivial
  exact ⟨N, r, h1, h2⟩

/-- **C32**, the search for a gap: it ends for every network with positive lengths and speed limits. -/
theorem C32_gap {net : Net ℝ} (hn : PosNet net.links) {k : Key} {l : Link ℝ} (hl : net.links.get? k = some l)
    (time : ℝ) (queuedAt : Option Nat) (pos : ℝ × ℝ) (route : Nat × Key) (maxVel : ℝ) :
    ∃ N r, r ≠ .error .diverges ∧ ∀ n, N ≤ n → Link.checkGap net time queuedAt n l pos route maxVel = r := by
  obtain ⟨N, r, h1, -, h2⟩ := checkGap_settles hn (time := time) (q := queuedAt) hl (route := route) (pos := pos) (mv := maxVel)
  exact ⟨N, r, h1, h2⟩

/-- A link that leads into itself. -/
def roundLink : Link ℝ :=
  { id := ⟨0, 1⟩, curve := ⟨3, 3, []⟩, group := none, linksIn := [⟨0, 1⟩], linksOut := [⟨0, 1⟩], laneChanges := [], conflicts := [],
    lastConflict := 0, speedLimit := 10, cost := 3, vehicles := [], control := .open_, active := true }

theorem roundLink_pos : PosNet ⟨[⟨1, some roundLink⟩], []⟩ := by
  have : ∀ k l, (⟨[⟨1, some roundLink⟩], []⟩ : LinkSet ℝ).get? k = some l → l = roundLink := by
    rintro ⟨i, w⟩ l h
    cases i with
    | zero =>
      simp only [SlotMap.get?, List.getElem?_cons_zero] at h
      split at h
      · cases h; rfl
      · cases h
    | succ i => simp [SlotMap.get?] at h
  refine ⟨fun k l h => ?_, fun k l h => ?_⟩ <;> rw [this k l h]
  · show (0 : ℝ) < 3; norm_num
  · show (0 : ℝ) < 10; norm_num

/-- The searches end on a ring road. -/
example : (∃ N r, r ≠ .error .diverges ∧ ∀ n, N ≤ n →
      Link.processVehicles ⟨⟨[⟨1, some roundLink⟩], []⟩, .empty⟩ (fun _ s => pure (s + 1, false)) n roundLink (0, ⟨0, 1⟩) 3 0 0 = r) ∧
    ∃ N r, r ≠ .error .diverges ∧ ∀ n, N ≤ n →
      Link.checkGap ⟨⟨[⟨1, some roundLink⟩], []⟩, .empty⟩ 5 none n roundLink (1, 2) (0, ⟨0, 1⟩) 10 = r :=
  ⟨C32_search (net := ⟨_, _⟩) roundLink_pos (k := ⟨0, 1⟩) rfl _ (by simp [pure, Except.pure]) _ _ _ _,
    C32_gap (net := ⟨_, _⟩) roundLink_pos (k := ⟨0, 1⟩) rfl _ _ _ _ _⟩

/-- A vehicle on a straight link. -/
example : ∃ (_ : Env) (_ : LawfulDijkstra) (s : Sim ℝ), Reach True s ∧ SearchEnds ∧ StepEnds s.links ∧ s.vehicles.keys ≠ [] := by
  obtain ⟨n, l, v, h, hl, hv, h1, -⟩ := Lone.start
  have : ∀ k l', (Lone.sim l v [] 0 0 0.0 0.0).links.get? k = some l' → l' = l := by
    rintro ⟨i, w⟩ l' h
    cases i with
    | zero =>
      simp only [Lone.sim, SlotMap.get?, List.getElem?_cons_zero] at h
      split at h
      · cases h; rfl
      · cases h
    | succ i => simp [Lone.sim, SlotMap.get?] at h
  refine ⟨Lone.env n, Lone.lawful n, _, h, Search.full_ends _, ⟨⟨fun k l' h => ?_, fun k l' h => ?_⟩, fun k l' h g hg => ?_⟩, ?_⟩
  · rw [this k l' h]; linarith
  · rw [this k l' h, hl.speed]; norm_num
  · rw [this k l' h, hl.group] at hg; cases hg
  · simp [Lone.sim, SlotMap.keys, SlotMap.keysFrom]

end TrafficSim
