import Verif.Lemmas.Search

/-! # The route found is one of least cost -/

namespace TrafficSim

/-- `ks` is a route along successors of total cost `c`. -/
inductive RouteCost (succ : Key → M (List (Key × Nat))) : List Key → Nat → Prop
  | one (k : Key) : RouteCost succ [k] 0
  | cons {a b : Key} {w c : Nat} {ks : List Key} {l : List (Key × Nat)} : succ a = .ok l → (b, w) ∈ l →
      RouteCost succ (b :: ks) c → RouteCost succ (a :: b :: ks) (w + c)

/-- What `pathfinding::directed::dijkstra::dijkstra` promises besides `LawfulDijkstra`: the cost returned is that of the
route returned, and no route from the source to a goal costs less. -/
class BestDijkstra [Env] : Prop where
  cost : ∀ src succ goal route c, Env.dijkstra src succ goal = .ok (some (route, c)) → RouteCost succ route c
  best : ∀ src succ goal route c, Env.dijkstra src succ goal = .ok (some (route, c)) → ∀ ks c' k, RouteCost succ ks c' →
    ks.head? = some src → ks.getLast? = some k → goal k = true → c ≤ c'

namespace Search

variable {src : Key} {succ : Key → M (List (Key × Nat))} {goal : Key → Bool}

theorem _root_.TrafficSim.RouteCost.snoc {a b : Key} {w : Nat} {l : List (Key × Nat)} (hl : succ a = .ok l) (hb : (b, w) ∈ l) :
    ∀ {ks : List Key} {c : Nat}, RouteCost succ ks c → ks.getLast? = some a → RouteCost succ (ks ++ [b]) (c + w)
  | _, _, .one k, h => by
    cases h
    rw [Nat.add_comm]
    exact .cons hl hb (.one b)
  | _, _, .cons (ks := ks) h1 h2 h3, h => by
    rw [List.getLast?_cons_cons] at h
    rw [Nat.add_assoc]
    exact .cons h1 h2 (h3.snoc hl hb h)

/-- There is a route of cost `c` from `src` to a link. -/
inductive To (src : Key) (succ : Key → M (List (Key × Nat))) : Key → Nat → Prop
  | refl : To src succ src 0
  | step {a b : Key} {w c : Nat} {l : List (Key × Nat)} : To src succ a c → succ a = .ok l → (b, w) ∈ l → To src succ b (c + w)

theorem To.head {a b k : Key} {w c : Nat} {l : List (Key × Nat)} (hl : succ a = .ok l) (hb : (b, w) ∈ l) (h : To b succ k c) :
    To a succ k (w + c) := by
  induction h with
  | refl =>
    rw [Nat.add_comm]
    exact .step .refl hl hb
  | step _ h1 h2 ih =>
    rw [← Nat.add_assoc]
    exact .step ih h1 h2

theorem to_of_route : ∀ {ks : List Key} {c : Nat} {src k : Key}, RouteCost succ ks c → ks.head? = some src → ks.getLast? = some k →
    To src succ k c
  | _, _, _, _, .one k, h1, h2 => by cases h1; cases h2; exact .refl
  | _, _, _, _, .cons h1 h2 h3, h4, h5 => by
    cases h4
    rw [List.getLast?_cons_cons] at h5
    exact (to_of_route h3 rfl h5).head h1 h2

/-- The further invariant of the search. -/
structure Best (src : Key) (succ : Key → M (List (Key × Nat))) (goal : Key → Bool) (q : List (List Key × Nat))
    (seen : List Key) : Prop where
  sorted : q.Pairwise fun e e' => e.2 ≤ e'.2
  cost : ∀ e ∈ q, RouteCost succ e.1.reverse e.2
  start : src ∈ seen ∨ ∃ e ∈ q, e.1.head? = some src ∧ e.2 = 0
  seen : ∀ k ∈ seen, goal k = false ∧ ∃ d, (∀ c, To src succ k c → d ≤ c) ∧ ∀ l, succ k = .ok l → ∀ p ∈ l,
    p.1 ∈ seen ∨ ∃ e ∈ q, e.1.head? = some p.1 ∧ e.2 ≤ d + p.2

theorem insert_sorted {e : List Key × Nat} : ∀ {q : List (List Key × Nat)}, (q.Pairwise fun e e' => e.2 ≤ e'.2) →
    (insert e q).Pairwise fun e e' => e.2 ≤ e'.2
  | [], _ => by simp [insert]
  | x :: xs, h => by
    rw [List.pairwise_cons] at h
    unfold insert
    split
    · rename_i hlt
      rw [List.pairwise_cons]
      refine ⟨fun y hy => ?_, List.pairwise_cons.2 h⟩
      rcases List.mem_cons.1 hy with rfl | hy
      · exact hlt.le
      · exact hlt.le.trans (h.1 y hy)
    · rename_i hlt
      rw [List.pairwise_cons]
      refine ⟨fun y hy => ?_, insert_sorted h.2⟩
      rcases mem_insert.1 hy with rfl | hy
      · exact Nat.le_of_not_lt hlt
      · exact h.1 y hy

theorem foldr_sorted {q : List (List Key × Nat)} (h : q.Pairwise fun e e' => e.2 ≤ e'.2) : ∀ (l : List (List Key × Nat)),
    (l.foldr insert q).Pairwise fun e e' => e.2 ≤ e'.2
  | [] => h
  | _ :: l => insert_sorted (foldr_sorted h l)

/-- Every route to a link not seen yet costs at least as much as something in the queue. -/
theorem Best.queued {q : List (List Key × Nat)} {seen : List Key} (h : Best src succ goal q seen) {k : Key} {c : Nat}
    (ht : To src succ k c) (hk : k ∉ seen) : ∃ e ∈ q, e.2 ≤ c := by
  induction ht with
  | refl =>
    rcases h.start with h | ⟨e, h1, -, h2⟩
    · exact absurd h hk
    · exact ⟨e, h1, h2.le⟩
  | @step a b w c l ha hl hb ih =>
    by_cases hs : a ∈ seen
    · obtain ⟨-, d, h1, h2⟩ := h.seen a hs
      rcases h2 l hl _ hb with h | ⟨e, h3, -, h4⟩
      · exact absurd h hk
      · exact ⟨e, h3, h4.trans (Nat.add_le_add_right (h1 _ ha) _)⟩
    · obtain ⟨e, h1, h2⟩ := ih hs
      exact ⟨e, h1, h2.trans (Nat.le_add_right _ _)⟩

theorem Best.least {e : List Key × Nat} {q : List (List Key × Nat)} {seen : List Key} (h : Best src succ goal (e :: q) seen)
    {k : Key} {c : Nat} (ht : To src succ k c) (hk : k ∉ seen) : e.2 ≤ c := by
  obtain ⟨e', h1, h2⟩ := h.queued ht hk
  rcases List.mem_cons.1 h1 with rfl | h1
  · exact h2
  · exact ((List.pairwise_cons.1 h.sorted).1 e' h1).trans h2

theorem Best.pop {e : List Key × Nat} {q : List (List Key × Nat)} {seen : List Key} {k : Key} {ks : List Key}
    (h : Best src succ goal (e :: q) seen) (he : e.1 = k :: ks) (hk : k ∈ seen) : Best src succ goal q seen := by
  refine ⟨(List.pairwise_cons.1 h.sorted).2, fun e' h' => h.cost e' (by simp [h']), ?_, ?_⟩
  · rcases h.start with h1 | ⟨e', h1, h2, h3⟩
    · exact .inl h1
    · rcases List.mem_cons.1 h1 with rfl | h1
      · rw [he] at h2; cases h2; exact .inl hk
      · exact .inr ⟨e', h1, h2, h3⟩
  · intro j hj
    obtain ⟨h0, d, h1, h2⟩ := h.seen j hj
    refine ⟨h0, d, h1, fun l hl p hp => ?_⟩
    rcases h2 l hl p hp with h4 | ⟨e', h4, h5, h6⟩
    · exact .inl h4
    · rcases List.mem_cons.1 h4 with rfl | h4
      · rw [he] at h5; cases h5; exact .inl hk
      · exact .inr ⟨e', h4, h5, h6⟩

theorem Best.push {q : List (List Key × Nat)} {seen : List Key} {k : Key} {ks : List Key} {l : List (Key × Nat)} {c : Nat}
    (h : Best src succ goal ((k :: ks, c) :: q) seen) (hk : k ∉ seen) (hg : goal k = false) (hl : succ k = .ok l) :
    Best src succ goal ((l.map fun p => (p.1 :: k :: ks, c + p.2)).foldr insert q) (k :: seen) := by
  refine ⟨foldr_sorted (List.pairwise_cons.1 h.sorted).2 _, fun e' h' => ?_, ?_, ?_⟩
  · rcases mem_foldr_insert.1 h' with h' | h'
    · obtain ⟨p, hp, rfl⟩ := List.mem_map.1 h'
      have := h.cost _ (List.mem_cons_self ..)
      show RouteCost succ (p.1 :: k :: ks).reverse (c + p.2)
      rw [List.reverse_cons]
      exact this.snoc hl hp (by simp)
    · exact h.cost e' (by simp [h'])
  · rcases h.start with h1 | ⟨e', h1, h2, h3⟩
    · exact .inl (by simp [h1])
    · rcases List.mem_cons.1 h1 with rfl | h1
      · cases h2; exact .inl (by simp)
      · exact .inr ⟨e', mem_foldr_insert.2 (.inr h1), h2, h3⟩
  · intro j hj
    rcases List.mem_cons.1 hj with rfl | hj
    · refine ⟨hg, c, fun c' ht => h.least ht hk, fun l' hl' p hp => .inr ?_⟩
      rw [hl] at hl'; cases hl'
      exact ⟨_, mem_foldr_insert.2 (.inl (List.mem_map.2 ⟨p, hp, rfl⟩)), rfl, le_rfl⟩
    · obtain ⟨h0, d, h1, h2⟩ := h.seen j hj
      refine ⟨h0, d, h1, fun l' hl' p hp => ?_⟩
      rcases h2 l' hl' p hp with h4 | ⟨e', h4, h5, h6⟩
      · exact .inl (by simp [h4])
      · rcases List.mem_cons.1 h4 with rfl | h4
        · cases h5; exact .inl (by simp)
        · exact .inr ⟨e', mem_foldr_insert.2 (.inr h4), h5, h6⟩

theorem search_best : ∀ (n : Nat) (q : List (List Key × Nat)) (seen : List Key), Best src succ goal q seen →
    ∀ r c, search succ goal n q seen = .ok (some (r, c)) → RouteCost succ r c ∧ ∀ k c', To src succ k c' → goal k = true → c ≤ c'
  | 0, q, seen, _, r, c, e => by simp [search] at e
  | n + 1, [], seen, _, r, c, e => by simp [search] at e
  | n + 1, ([], c0) :: q, seen, h, r, c, e => by
    have := h.cost _ (List.mem_cons_self ..)
    cases this
  | n + 1, (k :: ks, c0) :: q, seen, h, r, c, e => by
    unfold search at e
    by_cases hk : seen.contains k = true
    · rw [if_pos hk] at e
      exact search_best n q seen (h.pop rfl (by simpa using hk)) r c e
    rw [if_neg hk] at e
    by_cases hg : goal k = true
    · rw [if_pos hg] at e
      cases e
      refine ⟨h.cost _ (List.mem_cons_self ..), fun j c' ht hj => h.least ht fun hs => ?_⟩
      rw [(h.seen j hs).1] at hj; cases hj
    rw [if_neg hg] at e
    cases hs : succ k with
    | error x => rw [hs] at e; cases e
    | ok l =>
      rw [hs] at e
      exact search_best n _ _ (h.push (by simpa using hk) (by simpa using hg) hs) r c e

theorem Best.start0 : Best src succ goal [([src], 0)] [] :=
  ⟨by simp, fun e he => by rw [List.mem_singleton] at he; subst he; exact .one src,
    .inr ⟨_, List.mem_singleton.2 rfl, rfl, rfl⟩, nofun⟩

/-- The search of the examples finds a route of least cost. -/
theorem best (fuel : Nat) : @BestDijkstra (env fuel) := by
  let _ := env fuel
  exact ⟨fun src succ goal r c h => (search_best fuel _ _ .start0 r c h).1,
    fun src succ goal r c h ks c' k h1 h2 h3 h4 => (search_best fuel _ _ .start0 r c h).2 k c' (to_of_route h1 h2 h3) h4⟩

theorem full_best (fuel : Nat) : @BestDijkstra (full fuel) := by
  let _ := full fuel
  refine ⟨fun src succ goal r c h => ?_, fun src succ goal r c h ks c' k h1 h2 h3 h4 => ?_⟩
  all_goals
    obtain ⟨n, hn⟩ := run_eq src succ goal
    change run src succ goal = _ at h
    rw [hn] at h
  · exact (search_best n _ _ .start0 r c h).1
  · exact (search_best n _ _ .start0 r c h).2 k c' (to_of_route h1 h2 h3) h4

end Search

end TrafficSim
