import Verif.Lemmas.Cap
import Verif.Props.Network

/-! # The first vehicle before a line -/

namespace TrafficSim

section
variable {F : Type} [Flt F] {strict : Prop} {σ : Type}

/-! ## Searches that reach a certain vehicle -/

/-- The vehicle `w` does not end the search `f` on its link, whose length is `length`. -/
structure GoesOn (f : RelVeh F → σ → M (σ × Bool)) (route : Nat × Key) (pos minPos length : F) (k : Key) (w : Vehicle F) :
    Prop where
  near : ¬ w.posFront < minPos
  on : ∀ st, w.getRoute route.1 = some (route.2, st) → (st = .entered ∨ ¬ length < pos) ∧
    ∀ s p, f ⟨k, w, route.1, pos⟩ s = .ok p → p.2 = false

/-- The search `f` on a link upstream finds its way from one link to another. -/
inductive Way (n : Net F) (f : RelVeh F → σ → M (σ × Bool)) (k0 : Key) : Nat → Key → F → Nat → Key → F → Prop
  | here {i : Nat} {k : Key} {pos : F} : Way n f k0 i k pos i k pos
  | up {i : Nat} {k : Key} {pos : F} {i' : Nat} {k' : Key} {pos' : F} {l l' : Link F} {j : Key} : n.links.get? k = some l →
      l.active = true → (∀ a ∈ l.vehicles, ∃ w, n.vehicles.get? a = some w ∧
        GoesOn f (i, k0) pos (pos - maxLookahead * l.speedLimit) l.length a w) →
      ¬ 0.0 ≤ pos - maxLookahead * l.speedLimit → j ∈ l.linksIn → n.links.get? j = some l' →
      Way n f k0 (i + 1) j (pos + l'.length) i' k' pos' → Way n f k0 i k pos i' k' pos'

section
variable {R Q : σ → σ → Prop} (hR : ∀ s, R s s) (hRR : ∀ s s' s'', R s s' → R s' s'' → R s s'')
  (hRQ : ∀ s s' s'', R s s' → Q s' s'' → Q s s'') (hQR : ∀ s s' s'', Q s s' → R s' s'' → Q s s'')
  {f : RelVeh F → σ → M (σ × Bool)} (hf : ∀ r s p, f r s = .ok p → R s p.1)

include hR hRR hf in
theorem processList_rel {vs : VehicleSet F} {route : Nat × Key} {pos minPos length : F} : ∀ {ks : List Key} {s : σ} {p : σ × Bool},
    Link.processList vs f route pos minPos length ks s = .ok p → R s p.1
  | [], s, p, h => by
    simp only [Link.processList, M_pure_ok] at h
    subst h; exact hR s
  | k :: ks, s, p, h => by
    unfold Link.processList at h
    rw [M_bind_ok] at h
    obtain ⟨v, -, h⟩ := h
    split at h
    · rw [M_pure_ok] at h; subst h; exact hR s
    · split at h
      · exact processList_rel h
      · split at h
        · exact processList_rel h
        · split at h
          · rw [M_pure_ok] at h; subst h; exact hR s
          · rw [M_bind_ok] at h
            obtain ⟨⟨s1, b⟩, hq, h⟩ := h
            have h1 : R s s1 := hf _ _ _ hq
            dsimp only at h
            split at h
            · rw [M_pure_ok] at h; subst h; exact h1
            · exact hRR _ _ _ h1 (processList_rel h)

include hR hRR hf in
theorem processVehicles_rel {n : Net F} : ∀ {fuel : Nat} {l : Link F} {route : Nat × Key} {pos : F} {skip : Nat} {s s' : σ},
    Link.processVehicles n f fuel l route pos skip s = .ok s' → R s s' := by
  intro fuel
  induction fuel with
  | zero => intro l route pos skip s s' h; simp [Link.processVehicles] at h
  | succ fuel ih =>
    intro l route pos skip s s' h
    unfold Link.processVehicles at h
    split at h
    · rw [M_pure_ok] at h; subst h; exact hR s
    · dsimp only at h
      rw [M_bind_ok] at h
      obtain ⟨p, hp, h⟩ := h
      have h1 := processList_rel hR hRR hf hp
      split at h
      · rw [M_pure_ok] at h; subst h; exact h1
      · split at h
        · rw [M_pure_ok] at h; subst h; exact h1
        · refine hRR _ _ _ h1 ((Spec.foldlM (E := fun _ => True) (I := fun s' => R p.1 s') (fun s1 h1 k _ => ⟨?_, fun _ _ => trivial⟩)
            (hR p.1)).ok h)
          intro s2 h2
          rw [M_bind_ok] at h2
          obtain ⟨lk, -, h2⟩ := h2
          exact hRR _ _ _ h1 (ih h2)

include hR hRR hf in
/-- Vehicles that do not end the search are passed. -/
theorem processList_goesOn {vs : VehicleSet F} {route : Nat × Key} {pos minPos length : F} {ks' : List Key} :
    ∀ {ks : List Key} {s : σ} {p : σ × Bool},
    (∀ k ∈ ks, ∃ w, vs.get? k = some w ∧ GoesOn f route pos minPos length k w) →
    Link.processList vs f route pos minPos length (ks ++ ks') s = .ok p →
    ∃ s1, R s s1 ∧ Link.processList vs f route pos minPos length ks' s1 = .ok p
  | [], s, p, _, h => ⟨s, hR s, h⟩
  | k :: ks, s, p, hk, h => by
    obtain ⟨w, hw, hg⟩ := hk k (by simp)
    have ih := fun (s : σ) => processList_goesOn (vs := vs) (s := s) (p := p) (ks' := ks') fun k hk' => hk k (List.mem_cons_of_mem _ hk')
    rw [List.cons_append] at h
    unfold Link.processList at h
    rw [M_bind_ok] at h
    obtain ⟨v, hv, h⟩ := h
    rw [getVeh_ok, hw] at hv; cases hv
    rw [if_neg hg.near] at h
    cases hr : w.getRoute route.1 with
    | none => rw [hr] at h; exact ih s h
    | some q =>
      obtain ⟨k', st⟩ := q
      rw [hr] at h
      dsimp only at h
      split at h
      · exact ih s h
      · rename_i he
        have he : k' = route.2 := not_not.1 he
        subst he
        obtain ⟨h1, h2⟩ := hg.on st hr
        split at h
        · rename_i h3
          rcases h1 with h1 | h1
          · exact absurd h1 h3.1
          · exact absurd h3.2 h1
        · rw [M_bind_ok] at h
          obtain ⟨q, hq, h⟩ := h
          rw [h2 s q hq] at h
          obtain ⟨s1, h4, h5⟩ := ih q.1 h
          exact ⟨s1, hRR _ _ _ (hf _ _ _ hq) h4, h5⟩

include hR hRR hRQ hQR hf in
/-- The search does its work on a vehicle that it finds. -/
theorem processVehicles_finds {n : Net F} {k0 : Key} {i' : Nat} {k' : Key} {pos' : F} {l' : Link F} {pre post : List Key} {k : Key}
    {v : Vehicle F} (hl' : n.links.get? k' = some l') (ha : l'.active = true) (hvs : l'.vehicles = pre ++ k :: post)
    (hpost : ∀ a ∈ post, ∃ w, n.vehicles.get? a = some w ∧
      GoesOn f (i', k0) pos' (pos' - maxLookahead * l'.speedLimit) l'.length a w)
    (hv : n.vehicles.get? k = some v) (hnear : ¬ v.posFront < pos' - maxLookahead * l'.speedLimit)
    {st : RouteState} (hin : v.getRoute i' = some (k0, st)) (hst : st = .entered ∨ ¬ l'.length < pos') (hq : ∀ s p, f ⟨k, v, i', pos'⟩ s = .ok p → Q s p.1) :
    ∀ {i : Nat} {k1 : Key} {pos : F}, Way n f k0 i k1 pos i' k' pos' → ∀ {fuel : Nat} {l : Link F} {s s' : σ},
    n.links.get? k1 = some l →
    Link.processVehicles n f fuel l (i, k0) pos 0 s = .ok s' → Q s s' := by
  intro i k1 pos hw
  induction hw with
  | here =>
    intro fuel l s s' hl h
    rw [hl'] at hl; cases hl
    cases fuel with
    | zero => simp [Link.processVehicles] at h
    | succ fuel =>
      unfold Link.processVehicles at h
      rw [if_neg (by simp [ha])] at h
      dsimp only at h
      rw [M_bind_ok] at h
      obtain ⟨p, hp, h⟩ := h
      have hrest : R p.1 s' := by
        split at h
        · rw [M_pure_ok] at h; subst h; exact hR _
        · split at h
          · rw [M_pure_ok] at h; subst h; exact hR _
          · refine (Spec.foldlM (E := fun _ => True) (I := fun s' => R p.1 s') (fun s1 h1 k _ => ⟨?_, fun _ _ => trivial⟩)
              (hR p.1)).ok h
            intro s2 h2
            rw [M_bind_ok] at h2
            obtain ⟨lk, -, h2⟩ := h2
            exact hRR _ _ _ h1 (processVehicles_rel hR hRR hf h2)
      refine hQR _ _ _ ?_ hrest
      rw [hvs] at hp
      simp only [List.drop_zero, List.reverse_append, List.reverse_cons, List.append_assoc, List.singleton_append] at hp
      obtain ⟨s1, h1, h2⟩ := processList_goesOn hR hRR hf (fun a ha => hpost a (List.mem_reverse.1 ha)) hp
      refine hRQ _ _ _ h1 ?_
      unfold Link.processList at h2
      rw [M_bind_ok] at h2
      obtain ⟨v', hv', h2⟩ := h2
      rw [getVeh_ok, hv] at hv'; cases hv'
      rw [if_neg hnear, hin] at h2
      dsimp only at h2
      rw [if_neg (by simp), if_neg fun h => hst.elim (fun e => h.1 e) fun e => e h.2, M_bind_ok] at h2
      obtain ⟨q, hq', h2⟩ := h2
      refine hQR _ _ _ (hq _ _ hq') ?_
      split at h2
      · rw [M_pure_ok] at h2; subst h2; exact hR _
      · exact processList_rel hR hRR hf h2
  | @up i k1 pos i' k' pos' lk lj j h1 h2 h3 h4 h5 h6 h7 ih =>
    intro fuel l s s' hl h
    rw [h1] at hl; cases hl
    cases fuel with
    | zero => simp [Link.processVehicles] at h
    | succ fuel =>
      unfold Link.processVehicles at h
      rw [if_neg (by simp [h2])] at h
      dsimp only at h
      rw [M_bind_ok] at h
      obtain ⟨p, hp, h⟩ := h
      rw [List.drop_zero] at hp
      obtain ⟨s1, hs1, hp'⟩ := processList_goesOn (ks' := []) hR hRR hf (fun a ha => h3 a (List.mem_reverse.1 ha))
        (by rw [List.append_nil]; exact hp)
      simp only [Link.processList, M_pure_ok] at hp'
      subst hp'
      rw [if_neg (by simp), if_neg h4] at h
      refine hRQ _ _ _ hs1 ?_
      dsimp only at h
      obtain ⟨as, bs, e⟩ := List.append_of_mem h5
      rw [e, List.foldlM_append, M_bind_ok] at h
      obtain ⟨sa, ha', h⟩ := h
      rw [List.foldlM_cons, M_bind_ok] at h
      obtain ⟨sb, hb', h⟩ := h
      have step : ∀ (ks : List Key) (sa sb : σ), ks.foldlM (fun s k => do
          let link ← getLink n.links k
          Link.processVehicles n f fuel link (i + 1, k0) (pos + link.length) 0 s) sa = .ok sb → R sa sb := by
        intro ks sa sb h
        refine (Spec.foldlM (E := fun _ => True) (I := fun s' => R sa s') (fun s1 h1 k _ => ⟨?_, fun _ _ => trivial⟩) (hR sa)).ok h
        intro s2 h2
        rw [M_bind_ok] at h2
        obtain ⟨lk, -, h2⟩ := h2
        exact hRR _ _ _ h1 (processVehicles_rel hR hRR hf h2)
      refine hRQ _ _ _ (step _ _ _ ha') (hQR _ _ _ ?_ (step _ _ _ h))
      rw [M_bind_ok] at hb'
      obtain ⟨lj', hlj', hb'⟩ := hb'
      rw [getLink_ok, h6] at hlj'; cases hlj'
      exact ih hl' hpost hnear hin hst hq h6 hb'

end

end

end TrafficSim
