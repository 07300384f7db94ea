import Verif.Lemmas.Inv

/-! # Running concrete simulations, for witnesses and examples -/

namespace TrafficSim

section
variable {F : Type} [Flt F]

/-- A decidable condition that implies `Allowed True`; lights are not accepted. -/
def opChecked (s : Sim F) : Op F → Bool
  | .addLinkGroup ids _ => decide ids.Nodup && decide (ids.length ≤ 16) && ids.all fun k =>
      match s.links.get? k with
      | some l => l.group.isNone
      | none => true
  | .addTrafficLight _ => false
  | _ => true

/-- Runs a list of operations, checking their arguments. -/
def runChecked [Env] : List (Op F) → Sim F → Option (Sim F)
  | [], s => some s
  | op :: ops, s =>
    if opChecked s op then
      match s.exec op with
      | .ok s' => runChecked ops s'
      | .error _ => none
    else none

theorem opChecked_allowed {s : Sim F} {op : Op F} (h : opChecked s op = true) : Allowed True s op := by
  cases op <;> simp only [Allowed]
  · simp only [opChecked, Bool.and_eq_true, decide_eq_true_eq, List.all_eq_true] at h
    refine fun _ => ⟨h.1.1, h.1.2, fun k hk l hl => ?_⟩
    have := h.2 k hk
    rw [hl] at this
    simpa using this
  · simp [opChecked] at h

theorem runChecked_reach [Env] : ∀ (ops : List (Op F)) (s s' : Sim F), Reach True s →
    runChecked ops s = some s' → Reach True s'
  | [], s, s', hr, h => by
    simp only [runChecked, Option.some.injEq] at h
    exact h ▸ hr
  | op :: ops, s, s', hr, h => by
    unfold runChecked at h
    split at h
    · rename_i hg
      split at h
      · rename_i s1 h1
        exact runChecked_reach ops s1 s' (.exec op hr (opChecked_allowed hg) h1) h
      · simp at h
    · simp at h

/-- Runs a list of operations and one more operation, and tests the states before and after it. -/
def trial [Env] (ops : List (Op F)) (op : Op F) (test : Sim F → Sim F → Bool) : Bool :=
  match runChecked ops Sim.new with
  | some s => opChecked s op &&
      match s.exec op with
      | .ok s' => test s s'
      | .error _ => false
  | none => false

theorem trial_reach [Env] {ops : List (Op F)} {op : Op F} {test : Sim F → Sim F → Bool} (h : trial ops op test = true) :
    ∃ s s' : Sim F, Reach True s ∧ Allowed True s op ∧ s.exec op = .ok s' ∧ Reach True s' ∧ test s s' = true := by
  unfold trial at h
  split at h
  · rename_i s hs
    rw [Bool.and_eq_true] at h
    obtain ⟨h1, h2⟩ := h
    split at h2
    · rename_i s' hs'
      have hr := runChecked_reach _ _ _ .new hs
      exact ⟨s, s', hr, opChecked_allowed h1, hs', .exec op hr (opChecked_allowed h1) hs', h2⟩
    · cases h2
  · cases h

end

end TrafficSim
