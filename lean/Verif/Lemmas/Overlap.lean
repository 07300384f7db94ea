import Verif.Lemmas.Demo

/-! # Running concrete simulations with conflict points that are computed beforehand

The search for a conflict point takes long to evaluate.  Here it is done apart, for two curves, so that a run of a simulation need not
do it again. -/

namespace TrafficSim

deriving instance DecidableEq for V2
deriving instance DecidableEq for QuadraticBezier2d
deriving instance DecidableEq for LinkCurve

section
variable {F : Type} [Flt F]

/-- Two curves and the parts of them that are in conflict. -/
structure Overlap (F : Type) where
  a : LinkCurve F
  b : LinkCurve F
  rangeA : F × F
  rangeB : F × F
  sameDir : Bool

/-- The parts of the curves are those found by the search. -/
def Overlap.Right [Env] (j : Overlap F) : Prop :=
  ConflictPointLink.scan j.a j.b Env.fuel 0.0 none none = .ok (some j.rangeA) ∧
  ConflictPointLink.scan j.b j.a Env.fuel 0.0 none none = .ok (some j.rangeB) ∧
  ∃ a0 a1 b0 b1, j.a.sampleCentre j.rangeA.1 = .ok a0 ∧ j.a.sampleCentre j.rangeA.2 = .ok a1 ∧
    j.b.sampleCentre j.rangeB.1 = .ok b0 ∧ j.b.sampleCentre j.rangeB.2 = .ok b1 ∧
    j.sameDir = decide ((0.25 : F) < (a1.pos.sub a0.pos).normalize.dot (b1.pos.sub b0.pos).normalize)

def Overlap.point (j : Overlap F) (ka kb : Key) : ConflictPoint F :=
  ⟨⟨ka, j.rangeA.1, j.rangeA.2⟩, ⟨kb, j.rangeB.1, j.rangeB.2⟩, j.sameDir⟩

theorem Overlap.Right.new [Env] {j : Overlap F} (h : j.Right) {la lb : Link F} (ha : la.curve = j.a) (hb : lb.curve = j.b) :
    ConflictPoint.new la lb = .ok (some (j.point la.id lb.id)) := by
  obtain ⟨h1, h2, a0, a1, b0, b1, g1, g2, g3, g4, e⟩ := h
  have ea : ConflictPointLink.new la lb = .ok (some ⟨la.id, j.rangeA.1, j.rangeA.2⟩) := by
    rw [ConflictPointLink.new, ha, hb, h1]; rfl
  have eb : ConflictPointLink.new lb la = .ok (some ⟨lb.id, j.rangeB.1, j.rangeB.2⟩) := by
    rw [ConflictPointLink.new, ha, hb, h2]; rfl
  have ta : ConflictPoint.tangentOf la ⟨la.id, j.rangeA.1, j.rangeA.2⟩ = .ok (a1.pos.sub a0.pos).normalize := by
    unfold ConflictPoint.tangentOf; dsimp only; rw [ha, g1, g2]; rfl
  have tb : ConflictPoint.tangentOf lb ⟨lb.id, j.rangeB.1, j.rangeB.2⟩ = .ok (b1.pos.sub b0.pos).normalize := by
    unfold ConflictPoint.tangentOf; dsimp only; rw [hb, g3, g4]; rfl
  unfold ConflictPoint.new
  refine M_bind_ok.2 ⟨_, ea, M_bind_ok.2 ⟨_, eb, M_bind_ok.2 ⟨_, ta, M_bind_ok.2 ⟨_, tb, ?_⟩⟩⟩⟩
  rw [Overlap.point, e]
  rfl

variable [DecidableEq F]

def Overlap.scanned [Env] (j : Overlap F) : Bool :=
  match ConflictPointLink.scan j.a j.b Env.fuel 0.0 none none with
  | .ok (some r) => decide (r = j.rangeA)
  | _ => false

def Overlap.directed (j : Overlap F) : Bool :=
  match j.a.sampleCentre j.rangeA.1, j.a.sampleCentre j.rangeA.2, j.b.sampleCentre j.rangeB.1, j.b.sampleCentre j.rangeB.2 with
  | .ok a0, .ok a1, .ok b0, .ok b1 =>
    j.sameDir == decide ((0.25 : F) < (a1.pos.sub a0.pos).normalize.dot (b1.pos.sub b0.pos).normalize)
  | _, _, _, _ => false

def Overlap.swap (j : Overlap F) : Overlap F := ⟨j.b, j.a, j.rangeB, j.rangeA, j.sameDir⟩

theorem Overlap.scanned_eq [Env] {j : Overlap F} (h : j.scanned = true) :
    ConflictPointLink.scan j.a j.b Env.fuel 0.0 none none = .ok (some j.rangeA) := by
  unfold Overlap.scanned at h
  split at h
  · rename_i r e
    rw [e, of_decide_eq_true h]
  · cases h

theorem Overlap.right [Env] {j : Overlap F} (h1 : j.scanned = true) (h2 : j.swap.scanned = true) (h3 : j.directed = true) : j.Right := by
  refine ⟨j.scanned_eq h1, j.swap.scanned_eq h2, ?_⟩
  unfold Overlap.directed at h3
  split at h3
  · rename_i a0 a1 b0 b1 e1 e2 e3 e4
    exact ⟨a0, a1, b0, b1, e1, e2, e3, e4, by simpa using h3⟩
  · cases h3

omit [DecidableEq F] in
theorem Overlap.right' [Env] {j : Overlap F} (h : j.Right) (h3 : j.swap.directed = true) : j.swap.Right := by
  refine ⟨h.2.1, h.1, ?_⟩
  unfold Overlap.directed at h3
  split at h3
  · rename_i a0 a1 b0 b1 e1 e2 e3 e4
    exact ⟨a0, a1, b0, b1, e1, e2, e3, e4, by simpa using h3⟩
  · cases h3

/-- The overlap for two links, if it is in the list. -/
def overlapOf (js : List (Overlap F)) (s : Sim F) (a b : Key) : Option (Overlap F × Link F × Link F) :=
  if a = b then none
  else match s.links.get? a, s.links.get? b with
    | some la, some lb => (js.find? fun j => decide (la.curve = j.a ∧ lb.curve = j.b)).map fun j => (j, la, lb)
    | _, _ => none

/-- Executes an operation, with the overlaps of the list. -/
def execWith [Env] (js : List (Overlap F)) (s : Sim F) : Op F → M (Sim F)
  | .addLinkConvergance a b => match overlapOf js s a b with
    | some (j, la, lb) => do
      let links ← (j.point la.id lb.id).linkConflicts.foldlM
        (fun links p => updLink links p.1 fun l => { l with conflicts := l.conflicts ++ [p.2] }) s.links
      pure { s with links, conflicts := s.conflicts ++ [j.point la.id lb.id] }
    | none => s.exec (.addLinkConvergance a b)
  | op => s.exec op

theorem execWith_eq [Env] {js : List (Overlap F)} (h : ∀ j ∈ js, j.Right) (s : Sim F) (op : Op F) : execWith js s op = s.exec op := by
  unfold execWith
  split
  · rename_i a b
    split
    · rename_i j la lb hj
      unfold overlapOf at hj
      split at hj
      · cases hj
      rename_i hne
      split at hj
      · rename_i la' lb' ha hb
        rw [Option.map_eq_some_iff] at hj
        obtain ⟨j', hj, e⟩ := hj
        cases e
        have hmem := List.mem_of_find?_eq_some hj
        have hc := List.find?_some hj
        rw [decide_eq_true_eq] at hc
        show _ = s.addLinkConvergance a b
        unfold Sim.addLinkConvergance
        rw [if_neg hne, ha, hb]
        dsimp only
        rw [(h j hmem).new hc.1 hc.2]
        rfl
      · cases hj
    · rfl
  · rfl

def runWith [Env] (js : List (Overlap F)) : List (Op F) → Sim F → Option (Sim F)
  | [], s => some s
  | op :: ops, s =>
    if opChecked s op then
      match execWith js s op with
      | .ok s' => runWith js ops s'
      | .error _ => none
    else none

theorem runWith_eq [Env] {js : List (Overlap F)} (h : ∀ j ∈ js, j.Right) : ∀ (ops : List (Op F)) (s : Sim F),
    runWith js ops s = runChecked ops s
  | [], s => rfl
  | op :: ops, s => by
    unfold runWith runChecked
    rw [execWith_eq h]
    simp only [runWith_eq h ops]
    rfl

/-- Like `trial`, with the overlaps of the list. -/
def trialWith [Env] (js : List (Overlap F)) (ops : List (Op F)) (op : Op F) (test : Sim F → Sim F → Bool) : Bool :=
  match runWith js ops Sim.new with
  | some s => opChecked s op &&
      match execWith js s op with
      | .ok s' => test s s'
      | .error _ => false
  | none => false

theorem trialWith_reach [Env] {js : List (Overlap F)} {ops : List (Op F)} {op : Op F} {test : Sim F → Sim F → Bool}
    (hj : ∀ j ∈ js, j.Right) (h : trialWith js ops op test = true) :
    ∃ s s' : Sim F, Reach True s ∧ Allowed True s op ∧ s.exec op = .ok s' ∧ Reach True s' ∧ test s s' = true := by
  refine trial_reach (ops := ops) ?_
  unfold trialWith at h
  rw [runWith_eq hj] at h
  unfold trial
  simp only [execWith_eq hj] at h
  exact h

end

end TrafficSim
