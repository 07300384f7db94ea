import Verif.Lemmas.Inv

/-! # A search that meets the assumptions made of the external one

The theorems assume `LawfulDijkstra` of the external crate's `dijkstra`.  Here is an implementation
of Dijkstra's algorithm with a proof that it is lawful, so the assumption can be met; the concrete
examples use it. -/

namespace TrafficSim

namespace Search

/-- Inserts a route (last link first) in a queue ordered by cost. -/
def insert (e : List Key × Nat) : List (List Key × Nat) → List (List Key × Nat)
  | [] => [e]
  | x :: xs => if e.2 < x.2 then e :: x :: xs else x :: insert e xs

/-- Dijkstra's algorithm: `queue` holds routes (last link first) with their costs. -/
def search (succ : Key → M (List (Key × Nat))) (goal : Key → Bool) :
    Nat → List (List Key × Nat) → List Key → M (Option (List Key × Nat))
  | 0, _, _ => .error .diverges
  | _ + 1, [], _ => .ok none
  | n + 1, ([], _) :: queue, seen => search succ goal n queue seen
  | n + 1, (k :: ks, c) :: queue, seen =>
    if seen.contains k then search succ goal n queue seen
    else if goal k then .ok (some ((k :: ks).reverse, c))
    else
      match succ k with
      | .error e => .error e
      | .ok l => search succ goal n ((l.map fun p => (p.1 :: k :: ks, c + p.2)).foldr insert queue) (k :: seen)

/-- The environment of the examples. -/
@[instance_reducible] def env (fuel : Nat) : Env :=
  ⟨fuel, fun src succ goal => search succ goal fuel [([src], 0)] []⟩

theorem mem_insert {e x : List Key × Nat} : ∀ {q : List (List Key × Nat)}, x ∈ insert e q ↔ x = e ∨ x ∈ q
  | [] => by simp [insert]
  | y :: ys => by
    unfold insert
    split
    · simp
    · rw [List.mem_cons, mem_insert, List.mem_cons]; tauto

theorem mem_foldr_insert {x : List Key × Nat} {q : List (List Key × Nat)} : ∀ {l : List (List Key × Nat)},
    x ∈ l.foldr insert q ↔ x ∈ l ∨ x ∈ q
  | [] => by simp
  | y :: ys => by rw [List.foldr_cons, mem_insert, mem_foldr_insert, List.mem_cons]; tauto

/-- One step of a route. -/
def Edge (succ : Key → M (List (Key × Nat))) (a b : Key) : Prop := ∃ l w, succ a = .ok l ∧ (b, w) ∈ l

/-- The invariant of the search. -/
structure Ok (src : Key) (succ : Key → M (List (Key × Nat))) (goal : Key → Bool) (q : List (List Key × Nat))
    (seen : List Key) : Prop where
  route : ∀ e ∈ q, ∃ k ks, e.1 = k :: ks ∧ (k :: ks).reverse.head? = some src ∧ (k :: ks).reverse.IsChain (Edge succ)
  start : src ∈ seen ∨ ∃ e ∈ q, e.1.head? = some src
  closed : ∀ k ∈ seen, goal k = false ∧ ∃ l, succ k = .ok l ∧ ∀ p ∈ l, p.1 ∈ seen ∨ ∃ e ∈ q, e.1.head? = some p.1

theorem reach_of_chain {succ : Key → M (List (Key × Nat))} {src : Key} : ∀ {ks : List Key} {k : Key},
    (k :: ks).reverse.head? = some src → (k :: ks).reverse.IsChain (Edge succ) → SuccReach succ src k
  | [], k, h, _ => by
    simp at h; subst h; exact .refl
  | a :: ks, k, h, hc => by
    rw [List.reverse_cons] at h hc
    rw [List.isChain_append] at hc
    have hne : (a :: ks).reverse.head? = some src := by
      rw [List.head?_append] at h
      cases e : (a :: ks).reverse.head? with
      | none => simp at e
      | some x => rw [e] at h; simpa using h
    refine .tail (reach_of_chain hne hc.1) ?_
    exact hc.2.2 a (by simp) k (by simp)

variable {src : Key} {succ : Key → M (List (Key × Nat))} {goal : Key → Bool}

theorem Ok.pop {e : List Key × Nat} {q : List (List Key × Nat)} {seen : List Key} {k : Key} {ks : List Key}
    (h : Ok src succ goal (e :: q) seen) (he : e.1 = k :: ks) (hk : k ∈ seen) : Ok src succ goal q seen := by
  refine ⟨fun e' h' => h.route e' (by simp [h']), ?_, ?_⟩
  · rcases h.start with h1 | ⟨e', h1, h2⟩
    · exact .inl h1
    · rcases List.mem_cons.1 h1 with rfl | h1
      · rw [he] at h2; cases h2; exact .inl hk
      · exact .inr ⟨e', h1, h2⟩
  · intro j hj
    obtain ⟨h1, l, h2, h3⟩ := h.closed j hj
    refine ⟨h1, l, h2, fun p hp => ?_⟩
    rcases h3 p hp with h4 | ⟨e', h4, h5⟩
    · exact .inl h4
    · rcases List.mem_cons.1 h4 with rfl | h4
      · rw [he] at h5; cases h5; exact .inl hk
      · exact .inr ⟨e', h4, h5⟩

theorem Ok.push {e : List Key × Nat} {q : List (List Key × Nat)} {seen : List Key} {k : Key} {ks : List Key}
    {l : List (Key × Nat)} {c : Nat} (h : Ok src succ goal (e :: q) seen) (he : e.1 = k :: ks) (hg : goal k = false)
    (hl : succ k = .ok l) :
    Ok src succ goal ((l.map fun p => (p.1 :: k :: ks, c + p.2)).foldr insert q) (k :: seen) := by
  have key : ∀ x, (x ∈ seen ∨ ∃ e' ∈ e :: q, e'.1.head? = some x) → x ∈ k :: seen ∨
      ∃ e' ∈ (l.map fun p => (p.1 :: k :: ks, c + p.2)).foldr insert q, e'.1.head? = some x := by
    rintro x (hx | ⟨e', h1, h2⟩)
    · exact .inl (by simp [hx])
    · rcases List.mem_cons.1 h1 with rfl | h1
      · rw [he] at h2; cases h2; exact .inl (by simp)
      · exact .inr ⟨e', mem_foldr_insert.2 (.inr h1), h2⟩
  refine ⟨fun e' h' => ?_, key _ h.start, ?_⟩
  · rcases mem_foldr_insert.1 h' with h' | h'
    · obtain ⟨p, hp, rfl⟩ := List.mem_map.1 h'
      obtain ⟨k', ks', h1, h2, h3⟩ := h.route e (by simp)
      rw [he] at h1; cases h1
      refine ⟨p.1, k :: ks, rfl, ?_, ?_⟩
      · rw [List.reverse_cons, List.head?_append, h2]; rfl
      · rw [List.reverse_cons, List.isChain_append]
        refine ⟨h3, by simp, ?_⟩
        intro a ha b hb
        simp at ha hb
        subst ha hb
        exact ⟨l, p.2, hl, hp⟩
    · exact h.route e' (by simp [h'])
  · intro j hj
    rcases List.mem_cons.1 hj with rfl | hj
    · refine ⟨hg, l, hl, fun p hp => .inr ⟨_, mem_foldr_insert.2 (.inl (List.mem_map.2 ⟨p, hp, rfl⟩)), rfl⟩⟩
    · obtain ⟨h1, l', h2, h3⟩ := h.closed j hj
      exact ⟨h1, l', h2, fun p hp => key _ (h3 p hp)⟩

theorem search_spec : ∀ (n : Nat) (q : List (List Key × Nat)) (seen : List Key), Ok src succ goal q seen →
    (∀ e, search succ goal n q seen = .error e → e = .diverges ∨ ∃ k, SuccReach succ src k ∧ succ k = .error e) ∧
    (∀ r c, search succ goal n q seen = .ok (some (r, c)) → r.head? = some src ∧ r.IsChain (Edge succ) ∧
      ∃ k, r.getLast? = some k ∧ goal k = true) ∧
    (search succ goal n q seen = .ok none → ∀ k, SuccReach succ src k → goal k = false)
  | 0, q, seen, _ => by
    unfold search
    refine ⟨fun e h => ?_, fun _ _ h => ?_, fun h => ?_⟩ <;> cases h
    exact .inl rfl
  | n + 1, [], seen, h => by
    unfold search
    refine ⟨nofun, nofun, fun _ k hk => ?_⟩
    have hin : ∀ k, SuccReach succ src k → k ∈ seen := by
      intro k hk
      induction hk with
      | refl =>
        rcases h.start with h | ⟨e, he, -⟩
        · exact h
        · cases he
      | tail _ hab ih =>
        obtain ⟨-, l', h2, h3⟩ := h.closed _ ih
        obtain ⟨l, w, h4, h5⟩ := hab
        rw [h2] at h4; cases h4
        rcases h3 _ h5 with h | ⟨e, he, -⟩
        · exact h
        · cases he
    exact (h.closed k (hin k hk)).1
  | n + 1, ([], c) :: q, seen, h => by
    obtain ⟨k, ks, h1, -⟩ := h.route _ (List.mem_cons_self ..)
    cases h1
  | n + 1, (k :: ks, c) :: q, seen, h => by
    unfold search
    obtain ⟨k', ks', h1, h2, h3⟩ := h.route _ (List.mem_cons_self ..)
    dsimp only at h1
    rw [← h1] at h2 h3
    by_cases hk : seen.contains k = true
    · rw [if_pos hk]
      exact search_spec n q seen (h.pop rfl (by simpa using hk))
    rw [if_neg hk]
    by_cases hg : goal k = true
    · rw [if_pos hg]
      refine ⟨nofun, fun r c h => ?_, nofun⟩
      cases h
      exact ⟨h2, h3, k, by simp, hg⟩
    rw [if_neg hg]
    cases hs : succ k with
    | error e =>
      refine ⟨fun e' h => ?_, nofun, nofun⟩
      cases h
      exact .inr ⟨k, reach_of_chain h2 h3, hs⟩
    | ok l => exact search_spec n _ _ (h.push rfl (by simpa using hg) hs)

theorem Ok.start0 : Ok src succ goal [([src], 0)] [] := by
  refine ⟨fun e he => ?_, .inr ⟨_, List.mem_singleton.2 rfl, rfl⟩, fun k hk => by cases hk⟩
  rw [List.mem_singleton] at he
  subst he
  exact ⟨src, [], rfl, rfl, by simp⟩

/-- The search is lawful. -/
theorem lawful (fuel : Nat) : @LawfulDijkstra (env fuel) := by
  let _ := env fuel
  exact ⟨fun src succ goal e h => (search_spec fuel _ _ .start0).1 e h,
    fun src succ goal r c h => (search_spec fuel _ _ .start0).2.1 r c h,
    fun src succ goal h => (search_spec fuel _ _ .start0).2.2 h⟩

/-! ### The search ends on finite graphs -/

open Classical in
/-- The search with as much fuel as it needs. -/
noncomputable def run (src : Key) (succ : Key → M (List (Key × Nat))) (goal : Key → Bool) : M (Option (List Key × Nat)) :=
  if h : ∃ n, search succ goal n [([src], 0)] [] ≠ .error .diverges then search succ goal h.choose [([src], 0)] []
  else .error .diverges

theorem run_eq (src : Key) (succ : Key → M (List (Key × Nat))) (goal : Key → Bool) :
    ∃ n, run src succ goal = search succ goal n [([src], 0)] [] := by
  unfold run
  split
  · exact ⟨_, rfl⟩
  · exact ⟨0, by rw [search]⟩

/-- With the search run to its end. -/
@[instance_reducible] noncomputable def full (fuel : Nat) : Env := ⟨fuel, run⟩

theorem full_lawful (fuel : Nat) : @LawfulDijkstra (full fuel) := by
  let _ := full fuel
  refine ⟨fun src succ goal e h => ?_, fun src succ goal r c h => ?_, fun src succ goal h => ?_⟩
  all_goals
    obtain ⟨n, hn⟩ := run_eq src succ goal
    change run src succ goal = _ at h
    rw [hn] at h
  · exact (search_spec n _ _ .start0).1 e h
  · exact (search_spec n _ _ .start0).2.1 r c h
  · exact (search_spec n _ _ .start0).2.2 h

theorem search_ends {ks : List Key} (hks : ∀ k, SuccReach succ src k → k ∈ ks ∧ succ k ≠ .error .diverges)
    (q : List (List Key × Nat)) (seen : List Key) (h : Ok src succ goal q seen) :
    ∃ n, search succ goal n q seen ≠ .error .diverges :=
  match q, h with
  | [], _ => ⟨1, by simp [search]⟩
  | ([], c) :: q, h => by
    obtain ⟨k, ks, h1, -⟩ := h.route _ (List.mem_cons_self ..)
    cases h1
  | (k :: ks', c) :: q, h => by
    obtain ⟨k', ks'', h1, h2, h3⟩ := h.route _ (List.mem_cons_self ..)
    dsimp only at h1
    rw [← h1] at h2 h3
    obtain ⟨hin, hne⟩ := hks k (reach_of_chain h2 h3)
    by_cases hk : seen.contains k = true
    · obtain ⟨n, hn⟩ := search_ends hks q seen (h.pop rfl (by simpa using hk))
      exact ⟨n + 1, by rw [search, if_pos hk]; exact hn⟩
    by_cases hg : goal k = true
    · exact ⟨1, by rw [search, if_neg hk, if_pos hg]; simp⟩
    cases hs : succ k with
    | error e =>
      refine ⟨1, ?_⟩
      rw [search, if_neg hk, if_neg hg, hs]
      rw [hs] at hne
      simpa using hne
    | ok l =>
      have hlt : (ks.filter fun j => !(k :: seen).contains j).length < (ks.filter fun j => !seen.contains j).length := by
        have : (ks.filter fun j => !(k :: seen).contains j) = (ks.filter fun j => !seen.contains j).filter fun j => !decide (j = k) := by
          rw [List.filter_filter]
          congr 1
          funext j
          simp
        rw [this]
        exact List.length_filter_lt_length_iff_exists.2 ⟨k, List.mem_filter.2 ⟨hin, by simpa using hk⟩, by simp⟩
      obtain ⟨n, hn⟩ := search_ends hks _ _ (h.push (c := c) rfl (by simpa using hg) hs)
      exact ⟨n + 1, by rw [search, if_neg hk, if_neg hg, hs]; exact hn⟩
termination_by ((ks.filter fun k => !seen.contains k).length, q.length)
decreasing_by
  · exact Prod.Lex.right _ (by simp)
  · exact Prod.Lex.left _ _ hlt

theorem full_ends (fuel : Nat) : @SearchEnds (full fuel) := by
  rintro src succ goal ⟨ks, hks⟩ h
  change run src succ goal = _ at h
  have he := search_ends (goal := goal) hks _ _ .start0
  rw [run, dif_pos he] at h
  exact he.choose_spec h

end Search

end TrafficSim
