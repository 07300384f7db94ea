import Verif.Lemmas.Group

/-! # Path planning never refers to a missing link and plans drivable paths -/

namespace TrafficSim

section
variable {F : Type} {E : Err → Prop} {strict : Prop} {links : LinkSet F}

theorem StepErr.shift {div geo : Prop} : strict ∨ StepErr strict div geo .shiftOverflow := by
  by_cases h : strict
  · exact .inl h
  · exact .inr h

theorem forall₂_right {α β : Type} {P : α → β → Prop} {l : List α} {bs : List β} (h : List.Forall₂ P l bs) :
    ∀ b ∈ bs, ∃ a ∈ l, P a b := by
  induction h with
  | nil => simp
  | cons h _ ih =>
    intro b hb
    rcases List.mem_cons.1 hb with rfl | hb
    · exact ⟨_, by simp, h⟩
    · obtain ⟨a, ha, h'⟩ := ih b hb
      exact ⟨a, by simp [ha], h'⟩

theorem Link.reachableLanes_spec (hN : NetInv strict links) (hE : strict ∨ E .shiftOverflow) {k : Key}
    {l : Link F} (hl : links.get? k = some l) :
    Spec l.reachableLanes E fun ks => k ∈ ks ∧ ∀ j ∈ ks, links.contains j = true := by
  have hi := hN.link k l hl
  unfold Link.reachableLanes
  cases hg : l.group with
  | none =>
    rw [hi.id]
    exact Spec.pure ⟨by simp, fun j hj => by simp at hj; rw [hj]; exact contains_of_get hl⟩
  | some g =>
    have hgi := hi.group g hg
    rw [hi.id]
    obtain ⟨i, hfi⟩ := LinkGroup.findLink_mem hgi.mem
    simp only [hfi]
    have hlt := LinkGroup.findLink_lt hfi
    refine (g.reachableLanes_spec hlt (hE.imp hgi.small fun h => h)).mono ?_ (fun _ h => h)
    rintro ks ⟨lo, hi', h1, h2, h3, rfl, -⟩
    refine ⟨?_, fun j hj => hgi.valid j (List.mem_of_mem_take (List.mem_of_mem_drop hj))⟩
    have := (LinkGroup.findLink_some hfi).1
    refine List.mem_of_getElem? (i := i - lo) ?_
    rw [List.getElem?_drop, List.getElem?_take, if_pos (by omega), show lo + (i - lo) = i by omega, this]

theorem Link.reachableFromLanes_spec (hN : NetInv strict links) (hE : strict ∨ E .shiftOverflow) {k : Key}
    {l : Link F} (hl : links.get? k = some l) :
    Spec l.reachableFromLanes E fun ks => k ∈ ks ∧ ∀ j ∈ ks, links.contains j = true := by
  have hi := hN.link k l hl
  unfold Link.reachableFromLanes
  cases hg : l.group with
  | none =>
    rw [hi.id]
    exact Spec.pure ⟨by simp, fun j hj => by simp at hj; rw [hj]; exact contains_of_get hl⟩
  | some g =>
    have hgi := hi.group g hg
    rw [hi.id]
    obtain ⟨i, hfi⟩ := LinkGroup.findLink_mem hgi.mem
    simp only [hfi]
    have hlt := LinkGroup.findLink_lt hfi
    refine (g.reachableFromLanes_spec hlt (hE.imp hgi.small fun h => h)).mono ?_ (fun _ h => h)
    rintro ks ⟨lo, hi', h1, h2, h3, rfl, -⟩
    refine ⟨?_, fun j hj => hgi.valid j (List.mem_of_mem_take (List.mem_of_mem_drop hj))⟩
    have := (LinkGroup.findLink_some hfi).1
    refine List.mem_of_getElem? (i := i - lo) ?_
    rw [List.getElem?_drop, List.getElem?_take, if_pos (by omega), show lo + (i - lo) = i by omega, this]

theorem laneSuccessors_spec [Flt F] : ∀ (ks : List Key), (∀ j ∈ ks, links.contains j = true) →
    Spec (laneSuccessors links ks) E fun r => ∀ b w, (b, w) ∈ r ↔
      ∃ a ∈ ks, ∃ l, links.get? a = some l ∧ b ∈ l.linksOut ∧ w = l.cost
  | [], _ => Spec.pure (by simp)
  | k :: ks, h => by
    unfold laneSuccessors
    refine (getLink_spec (h k (by simp))).bind fun l hl => ?_
    refine (laneSuccessors_spec ks fun j hj => h j (by simp [hj])).bind fun rest hr => ?_
    refine Spec.pure fun b w => ?_
    rw [List.mem_append, hr, List.mem_map]
    constructor
    · rintro (⟨c, hc, h'⟩ | ⟨a, ha, h'⟩)
      · cases h'; exact ⟨k, by simp, l, hl, hc, rfl⟩
      · exact ⟨a, by simp [ha], h'⟩
    · rintro ⟨a, ha, l', hl', h1, h2⟩
      rcases List.mem_cons.1 ha with rfl | ha
      · rw [hl] at hl'; cases hl'
        exact .inl ⟨b, h1, by rw [h2]⟩
      · exact .inr ⟨a, ha, l', hl', h1, h2⟩

theorem NetInv.out (hN : NetInv strict links) {a b : Key} (h : Conn links a b) :
    links.contains b = true := by
  obtain ⟨l, hl, hb⟩ := h
  exact (hN.link a l hl).linksOut b hb

theorem NetInv.lane (hN : NetInv strict links) {a b : Key} (h : LaneTo links a b) :
    links.contains b = true := by
  obtain ⟨l, hl, hb⟩ := h
  exact (hN.link a l hl).laneChanges b hb

variable [Flt F]

theorem successors_spec (hN : NetInv strict links) (hE : strict ∨ E .shiftOverflow) {k : Key}
    (hk : links.contains k = true) :
    Spec (successors links k) E fun r => ∀ b w, (b, w) ∈ r → links.contains b = true := by
  unfold successors
  refine (getLink_spec hk).bind fun l hl => ?_
  refine (l.reachableLanes_spec hN hE hl).bind fun ks hks => ?_
  refine (laneSuccessors_spec ks hks.2).mono (fun r hr b w hb => ?_) (fun _ => id)
  obtain ⟨a, -, l, hl, h1, -⟩ := (hr b w).1 hb
  exact hN.out ⟨l, hl, h1⟩

theorem SuccReach.valid (hN : NetInv strict links) {a b : Key} (ha : links.contains a = true)
    (h : SuccReach (successors links) a b) : links.contains b = true := by
  induction h with
  | refl => exact ha
  | tail _ h ih =>
    obtain ⟨l, w, hl, hw⟩ := h
    exact (successors_spec (E := fun _ => True) hN (.inr trivial) ih).ok hl _ _ hw

theorem SuccReach.of_chain {succ : Key → M (List (Key × Nat))} : ∀ {route : List Key} {a : Key},
    route.head? = some a → (route.IsChain fun a b => ∃ l w, succ a = .ok l ∧ (b, w) ∈ l) →
    ∀ b ∈ route, SuccReach succ a b
  | [], a, h, _ => by simp at h
  | [c], a, h, _ => by
    simp at h; subst h
    intro b hb; simp at hb; subst hb; exact Relation.ReflTransGen.refl
  | c :: d :: r, a, h, hc => by
    simp at h; subst h
    rw [List.isChain_cons_cons] at hc
    intro b hb
    rcases List.mem_cons.1 hb with rfl | hb
    · exact Relation.ReflTransGen.refl
    · exact Relation.ReflTransGen.head hc.1 (SuccReach.of_chain (a := d) rfl hc.2 b hb)

theorem propagateBack_spec (m : List (Key × LaneDists)) {k : Key} (hk : links.contains k = true) :
    Spec (propagateBack links m k) E fun _ => True := by
  unfold propagateBack
  refine (getLink_spec hk).bind fun l hl => ?_
  split <;> exact Spec.pure trivial

theorem propagateAcross_spec (m : List (Key × LaneDists)) {p : Key × Key}
    (hk : links.contains p.1 = true) : Spec (propagateAcross links m p) E fun _ => True := by
  unfold propagateAcross
  split
  · exact Spec.pure trivial
  · exact (getLink_spec hk).bind fun l hl => Spec.pure trivial

theorem matrixStep_spec (hN : NetInv strict links) (hE : strict ∨ E .shiftOverflow)
    (m : List (Key × LaneDists)) {k : Key} (hk : links.contains k = true) :
    Spec (matrixStep links m k) E fun _ => True := by
  unfold matrixStep
  refine (getLink_spec hk).bind fun l hl => ?_
  have hi := hN.link k l hl
  cases hg : l.group with
  | none => exact propagateBack_spec m hk
  | some g =>
    have hgi := hi.group g hg
    refine (Spec.foldlM (I := fun _ => True) (fun m _ a ha => propagateBack_spec m (hgi.valid a ha))
      trivial).bind fun m _ => ?_
    refine (g.laneChanges_spec (List.ne_nil_of_mem hgi.mem) (hE.imp hgi.small id)).bind fun ps hps => ?_
    refine Spec.foldlM (fun m _ p hp => propagateAcross_spec m ?_) trivial
    obtain ⟨i, j, h1, -⟩ := (hps p.1 p.2).1 hp
    exact hgi.valid _ (List.mem_of_getElem? h1)

theorem calcLaneMatrix_spec (hN : NetInv strict links) (hE : strict ∨ E .shiftOverflow) (dst : Key)
    {route : List Key} (hr : ∀ k ∈ route, links.contains k = true) :
    Spec (calcLaneMatrix links dst route) E fun _ => True :=
  Spec.foldlM (fun m _ a ha => matrixStep_spec hN hE m (hr a (by simpa using ha))) trivial

/-- One element of the result of `makePathsInner`. -/
structure InnerPath (links : LinkSet F) (matrix : List (Key × LaneDists)) (dst : Key) (n : Nat)
    (pre : List Key) (k : Key) (p : Path) : Prop where
  shape : ∃ suf, p.links = pre ++ k :: suf ∧ suf.length ≤ n ∧ ∀ j ∈ k :: suf, (mget matrix j).isSome
  drivable : Drivable links p.links
  exit : p.canExit = true ↔ p.links.getLast? = some dst

omit [Flt F] in
theorem Drivable.snoc {ks : List Key} {k k' : Key} (h : Drivable links (ks ++ [k]))
    (hk : links.contains k' = true) (hc : Conn links k k') : Drivable links (ks ++ [k] ++ [k']) := by
  refine ⟨fun j hj => ?_, ?_⟩
  · rcases List.mem_append.1 hj with hj | hj
    · exact h.valid j hj
    · simp at hj; rw [hj]; exact hk
  · rw [List.isChain_append]
    refine ⟨h.chain, by simp, ?_⟩
    simpa using hc

theorem makePathsInner_spec (hN : NetInv strict links) (matrix : List (Key × LaneDists)) (dst : Key) :
    ∀ (n : Nat) (pre : List Key) (k : Key) (dist : F), Drivable links (pre ++ [k]) →
    Spec (makePathsInner links matrix dst n pre k dist) E fun r =>
      (mget matrix k = none → r = none) ∧ ((mget matrix k).isSome → ∃ ps, r = some ps ∧ ps ≠ []) ∧
      ∀ ps, r = some ps → ∀ p ∈ ps, InnerPath links matrix dst n pre k p := by
  intro n
  induction n with
  | zero =>
    intro pre k dist hd
    unfold makePathsInner
    cases hm : mget matrix k with
    | none => exact Spec.pure ⟨fun _ => rfl, by simp, by simp⟩
    | some d =>
      refine Spec.pure ⟨by simp, fun _ => ⟨_, rfl, by simp⟩, ?_⟩
      rintro ps h p hp
      simp at h; subst h
      simp at hp; subst hp
      exact ⟨⟨[], by simp, by simp, by simp [hm]⟩, hd, by simp⟩
  | succ n ih =>
    intro pre k dist hd
    unfold makePathsInner
    cases hm : mget matrix k with
    | none => exact Spec.pure ⟨fun _ => rfl, by simp, by simp⟩
    | some d =>
      have hk : links.contains k = true := hd.valid k (by simp)
      have fin : ∀ children : List (List Path), (∀ ps ∈ children, ps ≠ [] ∧
          ∀ p ∈ ps, InnerPath links matrix dst (n + 1) pre k p) →
          Spec (if children.isEmpty = true then
              pure (some [{ links := pre ++ [k], dists := d.offset dist, canExit := decide (k = dst) }])
            else pure (some children.flatten) : M (Option (List Path))) E fun r =>
            (some d = none → r = none) ∧ ((some d).isSome → ∃ ps, r = some ps ∧ ps ≠ []) ∧
            ∀ ps, r = some ps → ∀ p ∈ ps, InnerPath links matrix dst (n + 1) pre k p := by
        intro children hc
        refine Spec.ite (fun hemp => Spec.pure ?_) (fun hne => Spec.pure ?_)
        · refine ⟨by simp, fun _ => ⟨_, rfl, by simp⟩, ?_⟩
          rintro ps h p hp
          simp at h; subst h
          simp at hp; subst hp
          exact ⟨⟨[], by simp, by simp, by simp [hm]⟩, hd, by simp⟩
        · refine ⟨by simp, fun _ => ⟨_, rfl, ?_⟩, ?_⟩
          · cases children with
            | nil => simp at hne
            | cons a cs =>
              intro h
              have := (hc a (by simp)).1
              simp at h
              exact this h.1
          · rintro ps h p hp
            simp at h; subst h
            obtain ⟨ps, hps, hp⟩ := List.mem_flatten.1 hp
            exact (hc ps hps).2 p hp
      refine Spec.ite (fun _ => ?_) (fun _ => fin [] (by simp))
      refine (getLink_spec hk).bind fun l hl => ?_
      refine (Spec.mapM (P := fun succ r => succ ∈ l.linksOut ∧
        (∀ ps, r = some ps → ps ≠ []) ∧
        ∀ ps, r = some ps → ∀ p ∈ ps, InnerPath links matrix dst n (pre ++ [k]) succ p)
        (fun succ hsucc => ?_)).bind fun rs hrs => fin (rs.filterMap id) ?_
      · refine (ih (pre ++ [k]) succ _ (hd.snoc ((hN.link k l hl).linksOut succ hsucc)
          ⟨l, hl, hsucc⟩)).mono (fun r ⟨h1, h2, h3⟩ => ⟨hsucc, ?_, h3⟩) (fun _ => id)
        rintro ps rfl
        cases hs : mget matrix succ with
        | none => exact absurd (h1 hs) (by simp)
        | some d => obtain ⟨ps', h, h'⟩ := h2 (by simp [hs]); cases h; exact h'
      · intro ps hps
        obtain ⟨r, hr, hrp⟩ := List.mem_filterMap.1 hps
        simp only [id_eq] at hrp
        obtain ⟨succ, -, hsucc⟩ := forall₂_right hrs r hr
        refine ⟨hsucc.2.1 ps hrp, fun p hp => ?_⟩
        obtain ⟨⟨suf, h1, h2, h3⟩, h4, h5⟩ := hsucc.2.2 ps hrp p hp
        refine ⟨⟨succ :: suf, by simp [h1], by simp; omega, ?_⟩, h4, h5⟩
        intro j hj
        rcases List.mem_cons.1 hj with rfl | hj
        · simp [hm]
        · exact h3 j hj

namespace PathfindingModel

theorem makePaths_spec (hN : NetInv strict links) (p : PathfindingModel)
    (hs : links.contains p.src = true) :
    Spec (p.makePaths links) E fun p' => p'.src = p.src ∧ p'.dst = p.dst ∧ p'.matrix = p.matrix ∧
      (∀ q ∈ p'.paths, PathOK links p.src p.dst q ∧ ∀ j ∈ q.links, (mget p.matrix j).isSome) ∧
      ((mget p.matrix p.src).isSome → p'.paths ≠ []) := by
  have key : ∀ k, links.contains k = true → (k = p.src ∨ LaneTo links p.src k) →
      Spec (makePathsInner links p.matrix p.dst 7 [] k (0.0 : F)) E fun r =>
        ((mget p.matrix k).isSome → ∃ ps, r = some ps ∧ ps ≠ []) ∧
        ∀ ps, r = some ps → ∀ q ∈ ps, PathOK links p.src p.dst q ∧
          ∀ j ∈ q.links, (mget p.matrix j).isSome := by
    intro k hk hk'
    refine (makePathsInner_spec hN p.matrix p.dst 7 [] k (0.0 : F) ⟨by simpa using hk, by simp⟩).mono
      (fun r ⟨_, h2, h3⟩ => ⟨h2, fun ps hps q hq => ?_⟩) (fun _ => id)
    obtain ⟨⟨suf, h1, h2, h4⟩, h5, h6⟩ := h3 ps hps q hq
    refine ⟨⟨h5, ⟨k, by simp [h1], hk'⟩, by simp [h1]; omega, h6⟩, ?_⟩
    rw [h1]; exact h4
  unfold makePaths
  refine (key p.src hs (.inl rfl)).bind fun own hown => ?_
  refine (getLink_spec hs).bind fun l hl => ?_
  refine (Spec.mapM (P := fun k r => ∀ ps, r = some ps → ∀ q ∈ ps, PathOK links p.src p.dst q ∧
          ∀ j ∈ q.links, (mget p.matrix j).isSome)
    (fun k hk => (key k ((hN.link _ l hl).laneChanges k hk) (.inr ⟨l, hl, hk⟩)).mono (fun r h => h.2)
      (fun _ => id))).bind fun others ho => Spec.pure ⟨rfl, rfl, rfl, ?_, ?_⟩
  · intro q hq
    obtain ⟨ps, hps, hq'⟩ := List.mem_flatten.1 hq
    obtain ⟨r, hr, hrp⟩ := List.mem_filterMap.1 hps
    simp only [id_eq] at hrp
    rcases List.mem_cons.1 hr with rfl | hr
    · exact hown.2 ps hrp q hq'
    · obtain ⟨k, -, h⟩ := forall₂_right ho r hr
      exact h ps hrp q hq'
  · intro hm
    obtain ⟨ps, rfl, hne⟩ := hown.1 hm
    intro h
    simp at h
    exact hne h.1

theorem reroute_spec [Env] [LawfulDijkstra] (hN : NetInv strict links) (hE : strict ∨ E .shiftOverflow)
    (hE' : SearchEnds ∨ E .diverges) (p : PathfindingModel) (hs : links.contains p.src = true)
    (hd : p.dst.isNull = true ∨ links.contains p.dst = true ∨ E .badLink) :
    Spec (p.reroute links) E fun p' => p'.src = p.src ∧ p'.dst = p.dst ∧ p'.paths = p.paths ∧
      (p.dst.isNull = true ∨ links.contains p.dst = true) := by
  obtain ⟨l, hl⟩ := get_of_contains hs
  have hn : p.src.isNull = false := by simpa using SlotMap.not_isNull hN.wf hl
  unfold reroute
  refine Spec.ite (fun h => Spec.pure ⟨rfl, rfl, rfl, ?_⟩) (fun h => ?_)
  · rw [hn] at h; simpa using .inl h
  · rw [hn] at h
    simp only [Bool.false_or] at h
    cases hdl : links.get? p.dst with
    | none =>
      have hb : E .badLink := by
        rcases hd with hd | hd | hd
        · exact absurd hd h
        · rw [SlotMap.contains, hdl] at hd; simp at hd
        · exact hd
      have : getLink links p.dst = throw .badLink := by unfold getLink; rw [hdl]
      rw [this]
      exact Spec.throw hb
    | some dl =>
      have hc := contains_of_get hdl
      refine (getLink_spec hc).bind fun dl hdl => ?_
      refine (dl.reachableFromLanes_spec hN hE hdl).bind fun dsts hdsts => ?_
      refine Spec.bind (P := fun r => ∀ route c, r = some (route, c) →
          ∀ k ∈ route, links.contains k = true) ⟨?_, ?_⟩ ?_
      · rintro r hr route c rfl k hk
        obtain ⟨h1, h2, -⟩ := LawfulDijkstra.found _ _ _ _ _ hr
        exact SuccReach.valid hN hs (SuccReach.of_chain h1 h2 k hk)
      · intro e he
        rcases LawfulDijkstra.err _ _ _ _ he with rfl | ⟨k, hk, hke⟩
        · refine hE'.resolve_left fun h => h _ _ _ ⟨links.keys, fun k hk => ?_⟩ he
          have hk := SuccReach.valid hN hs hk
          obtain ⟨l, hl⟩ := get_of_contains hk
          refine ⟨SlotMap.mem_keys.2 ⟨l, hl⟩, fun he => ?_⟩
          cases (successors_spec (E := (· = .shiftOverflow)) hN (.inr rfl) hk).err he
        · exact (successors_spec hN hE (SuccReach.valid hN hs hk)).err hke
      · intro r hr
        cases r with
        | none => exact Spec.pure ⟨rfl, rfl, rfl, .inr hc⟩
        | some r =>
          exact (calcLaneMatrix_spec hN hE p.dst (hr r.1 r.2 rfl)).bind fun m _ =>
            Spec.pure ⟨rfl, rfl, rfl, .inr hc⟩

theorem setOrigin_spec [Env] [LawfulDijkstra] (hN : NetInv strict links) (hE : strict ∨ E .shiftOverflow)
    (hE' : SearchEnds ∨ E .diverges) (p : PathfindingModel) {k : Key} (hk : links.contains k = true)
    (hd : p.dst.isNull = true ∨ links.contains p.dst = true) :
    Spec (p.setOrigin k links) E fun p' => p'.src = k ∧ p'.dst = p.dst ∧
      ∀ q ∈ p'.paths, PathOK links k p.dst q := by
  unfold setOrigin
  have fin : ∀ p' : PathfindingModel, p'.src = k → p'.dst = p.dst → Spec (p'.makePaths links) E fun p' =>
      p'.src = k ∧ p'.dst = p.dst ∧ ∀ q ∈ p'.paths, PathOK links k p.dst q := by
    rintro p' rfl h2
    refine (makePaths_spec hN p' hk).mono (fun p'' ⟨h3, h4, h5, h6, _⟩ => ⟨h3, h4.trans h2, ?_⟩) (fun _ => id)
    intro q hq
    rw [← h2]
    exact (h6 q hq).1
  refine Spec.ite (fun _ => ?_) (fun _ => fin { p with src := k } rfl rfl)
  exact (reroute_spec hN hE hE' { p with src := k } hk (hd.imp id .inl)).bind fun p' h => fin p' h.1 h.2.1

theorem setDestination_spec [Env] [LawfulDijkstra] (hN : NetInv strict links)
    (hE : strict ∨ E .shiftOverflow) (hE' : SearchEnds ∨ E .diverges) (p : PathfindingModel) (k : Key)
    (hs : links.contains p.src = true)
    (hd : k.isNull = true ∨ links.contains k = true ∨ E .badLink) :
    Spec (p.setDestination k links) E fun p' => p'.src = p.src ∧ p'.dst = k ∧
      (k.isNull = true ∨ links.contains k = true) ∧ ∀ q ∈ p'.paths, PathOK links p.src k q := by
  unfold setDestination
  refine (reroute_spec hN hE hE' { p with dst := k } hs hd).bind ?_
  rintro p' ⟨h1, h2, -, h4⟩
  refine (makePaths_spec hN p' (by rw [h1]; exact hs)).mono (fun p'' ⟨h5, h6, _, h7, _⟩ => ?_) (fun _ => id)
  simp only at h1 h2
  rw [h1] at h5 h7
  rw [h2] at h6 h7
  exact ⟨h5, h6, h4, fun q hq => (h7 q hq).1⟩

end PathfindingModel

end

end TrafficSim
