import Verif.Props.Along
import Verif.Props.Sight
import Verif.Props.Binary
import Verif.Props.Terminate

/-! # C103: a step ends in binary64: where the search for a gap never does -/

namespace TrafficSim

section
variable {F : Type} [Flt F] {strict : Prop} {s : Sim F}

/-- **C103, where it is false** (any numbers), the search for a gap.  Each link of `S` is empty, and the first link that leads into it
is in `S` too.  If no number is greater than `time`, the search never ends. -/
theorem C103_gap_endless {net : Net F} {time : F} {q : Option Nat} (ht : ∀ x, ¬ time < x) {S : Key → Prop}
    (hS : ∀ k, S k → ∃ l, net.links.get? k = some l ∧ l.vehicles = [] ∧ ∃ j rest, l.linksIn = j :: rest ∧ S j) :
    ∀ (n : Nat) {k : Key} {l : Link F}, S k → net.links.get? k = some l → ∀ (pos : F × F) (route : Nat × Key) (mv : F),
      Link.checkGap net time q n l pos route mv = .error .diverges
  | 0, _, _, _, _, _, _, _ => rfl
  | n + 1, k, l, hk, hl, pos, route, mv => by
    obtain ⟨l', hl', hv, j, rest, hin, hj⟩ := hS k hk
    rw [hl] at hl'; cases hl'
    obtain ⟨lj, hlj, -⟩ := hS j hj
    unfold Link.checkGap
    simp only [hv, List.reverse_nil, Link.skipAhead, Link.checkGapList, pure_bind, if_neg (ht _), hin, Link.allM, getLink_ok.2 hlj]
    rw [show (Except.ok lj : M (Link F)) = pure lj from rfl]
    simp only [pure_bind, C103_gap_endless ht hS n hj hlj]
    rfl

/-- **C103, where it is false** (any numbers).  The accelerations are due.  The only vehicle on the first link has queued before the next
link, where it must give way to the links of `S` as above.  If no number is greater than the time it needs to get past the crossing, the
step never ends. -/
theorem C103_endless [Env] [LawfulDijkstra] (hs : Reach strict s) {lk : Key} {rest : List Key} (hlc : s.lcUpdate < 0.3) (hacc : ¬ s.accUpdate < 0.1)
    (hkeys : s.links.keys = lk :: rest) {l : Link F} (hl : s.links.get? lk = some l) {k : Key} (hvs : l.vehicles = [k]) {v : Vehicle F}
    (hv : s.vehicles.get? k = some v) (hnear : ¬ v.posFront < l.length - 5.0 * l.speedLimit) {j : Key} (here : v.route[0]? = some lk)
    (next : v.route[1]? = some j) (hent : v.entered = 1) {f : Nat} (hq : v.queued = some f) {lj : Link F}
    (hlj : s.links.get? j = some lj) {d : F} {m : Bool} {p : Int} (hctl : lj.control = .yield_ d m p) {c : LinkConflict F} {cs : List (LinkConflict F)}
    (hcs : lj.conflicts = c :: cs) (hlast : lj.lastConflict = 0) {S : Key → Prop}
    (hS : ∀ k, S k → ∃ l, s.links.get? k = some l ∧ l.vehicles = [] ∧ ∃ j rest, l.linksIn = j :: rest ∧ S j) (hc : S c.linkId)
    (ht : ∀ x, ¬ v.minReachTime (l.length + l.length + c.ownMaxPos) lj.speedLimit + 0.5 < x) (dt : F) (n : Nat) :
    @Sim.step F _ (Env.withFuel n) s dt = .error .diverges := by
  obtain ⟨n0, h0⟩ : ∃ n0, s.prepareNet = .ok n0 := by
    have := prepareNet_spec (E := fun _ => False) (s := s) fun k v hv => (hs.inv.veh k v hv).drivable.valid
    cases hp : s.prepareNet with
    | ok a => exact ⟨a, rfl⟩
    | error e => exact (this.err hp).elim
  have hp : Prepared s n0 := (prepareNet_spec (E := fun _ => False) fun k v hv => (hs.inv.veh k v hv).drivable.valid).ok h0
  obtain ⟨l0, hl0, b, rfl, hb⟩ := hp.links.fwd lk l hl
  obtain ⟨lj0, hlj0, b', rfl, -⟩ := hp.links.fwd j lj hlj
  obtain ⟨v0, hv0, rfl⟩ := hp.vehicles.fwd k v hv
  have hk0 : n0.links.keys = lk :: rest := by rw [← hkeys]; exact hp.links.keys
  have hact : b = true := hb.2 ⟨k, v, hv, by
    rw [hent]
    obtain ⟨h1, h2⟩ := List.getElem?_eq_some_iff.1 here
    exact List.mem_take_iff_getElem.2 ⟨0, by omega, h2⟩⟩
  subst hact
  have hS0 : ∀ k, S k → ∃ l, n0.links.get? k = some l ∧ l.vehicles = [] ∧ ∃ j rest, l.linksIn = j :: rest ∧ S j := by
    intro a ha
    obtain ⟨la, hla, e1, e2⟩ := hS a ha
    obtain ⟨la0, hla0, b2, rfl, -⟩ := hp.links.fwd a la hla
    exact ⟨_, hla0, e1, e2⟩
  have key : @Link.applyStoplines F _ (Env.withFuel n) n0 lk = .error .diverges := by
    cases n with
    | zero =>
      unfold Link.applyStoplines
      rw [getLink_ok.2 hl0]
      rfl
    | succ n =>
      obtain ⟨lc, hlc0, -⟩ := hS0 _ hc
      have hg := C103_gap_endless (q := Link.gapPriority lc.control f p) ht hS0 (n + 1) hc hlc0 (c.minPos, c.maxPos) (0, c.linkId) 0.0
      have hr0 : v.reset.getRoute 0 = some (lk, .entered) := by
        unfold Vehicle.getRoute
        rw [show v.reset.route[0]? = some lk from here, show v.reset.entered = 1 from hent]
        rfl
      have hr1 : v.reset.getRoute (0 + 1) = some (j, .queuedAt f) := by
        unfold Vehicle.getRoute
        rw [show v.reset.route[0 + 1]? = some j from next, show v.reset.entered = 1 from hent, show v.reset.queued = some f from hq]
        rfl
      have hf : @Link.stoplineFn F _ (Env.withFuel (n + 1)) n0 { l with active := true } ⟨k, v.reset, 0, l.length⟩ n0 =
          .error .diverges := by
        unfold Link.stoplineFn RelVeh.getRoute
        simp only [hr1, getLink_ok.2 hlj0]
        rw [show ∀ x : Link F, (Except.ok x : M (Link F)) = pure x from fun _ => rfl]
        simp only [pure_bind, hctl, Link.canEnter, hcs, hlast, List.length_cons]
        have e : rotatedRange (cs.length + 1) 0 = 0 :: (List.range cs.length).map (fun i => if i + 1 ≥ cs.length + 1 then i + 1 - (cs.length + 1) else i + 1) := by
          unfold rotatedRange
          rw [List.range_succ_eq_map]
          simp [Function.comp_def]
        rw [e]
        simp only [Link.canEnterLoop, List.getElem?_cons_zero, getLink_ok.2 hlc0]
        rw [show ∀ x : Link F, (Except.ok x : M (Link F)) = pure x from fun _ => rfl]
        simp only [pure_bind]
        have hg' : Link.checkGap n0 ((RelVeh.offset ⟨k, v.reset, 0, l.length⟩ l.length).minReachTime c.ownMaxPos lj.speedLimit + gapBuffer)
          (Link.gapPriority lc.control f p) (n + 1) lc (c.minPos, c.maxPos) (0, c.linkId) 0.0 = .error .diverges := hg
        erw [hg']
        rfl
      have hid : l.id = lk := (hs.inv.net.link lk l hl).id
      obtain ⟨l1, e1⟩ : ∃ l1, l1 = { l with active := true } := ⟨_, rfl⟩
      have e2 : l1.id = lk ∧ l1.vehicles = [k] ∧ l1.active = true ∧ l1.length = l.length ∧ l1.speedLimit = l.speedLimit := by
        rw [e1]; exact ⟨hid, hvs, rfl, rfl, rfl⟩
      rw [← e1] at hl0 hf
      obtain ⟨e2, e3, e4, e5, e6⟩ := e2
      unfold Link.applyStoplines
      rw [getLink_ok.2 hl0, show ∀ x : Link F, (Except.ok x : M (Link F)) = pure x from fun _ => rfl, pure_bind]
      show Link.processVehicles n0 _ (n + 1) _ _ _ _ _ = _
      simp only [Link.processVehicles, e2, e3, e4, e5, e6, List.reverse_singleton, List.drop_zero, Link.processList, getVeh_ok.2 hv0]
      rw [show ∀ x : Vehicle F, (Except.ok x : M (Vehicle F)) = pure x from fun _ => rfl]
      simp only [pure_bind, not_true_eq_false, if_false]
      rw [if_neg (show ¬ v.reset.posFront < l.length - maxLookahead * l.speedLimit from hnear), hr0]
      simp only [ne_eq, not_true_eq_false, if_false, false_and]
      rw [hf]
      rfl
  unfold Sim.step Sim.calculateLaneChanges
  rw [if_pos (show s.lcUpdate < laneChangeUpdateSec from hlc)]
  unfold Sim.applyAccelerations
  simp only [pure_bind]
  rw [if_neg (show ¬ s.accUpdate < accelerationUpdateSec from hacc), h0, show (Except.ok n0 : M (Net F)) = pure n0 from rfl]
  simp only [pure_bind, hk0, List.foldlM_cons, key]
  rfl

end

namespace Endless

attribute [local instance] Town.env

/-- A street on which a car that cannot accelerate must give way, the street behind it, and a triangle of streets that crosses that one. -/
def ops : List (Op Float) :=
  [.addLink ⟨Town.street 0.0 0.0 1.0 0.0 10.0, 10.0⟩, .addLink ⟨Town.street 10.0 0.0 1.0 0.0 4.0, 10.0⟩,
   .addLink ⟨Town.street 12.0 (-2.0) 0.0 1.0 4.0, 10.0⟩, .addLink ⟨Town.street 12.0 2.0 1.0 0.0 3.0, 10.0⟩,
   .addLink ⟨Town.street 15.0 2.0 (-0.6) (-0.8) 5.0, 10.0⟩,
   .addLinkConnection ⟨0, 1⟩ ⟨1, 1⟩, .addLinkConnection ⟨2, 1⟩ ⟨3, 1⟩, .addLinkConnection ⟨3, 1⟩ ⟨4, 1⟩, .addLinkConnection ⟨4, 1⟩ ⟨2, 1⟩,
   .addLinkConvergance ⟨1, 1⟩ ⟨2, 1⟩, .setLinkControl ⟨1, 1⟩ (.yield_ 20.0 false 0),
   .addVehicle ⟨2.0, 4.0, 3.0, 2.0, 0.0, 2.0⟩ ⟨0, 1⟩, .setVehicleDestination ⟨0, 1⟩ ⟨1, 1⟩, .step 0.3]

/-- All links are about as long and fast as streets. -/
def streets (links : LinkSet Float) : Bool := links.keys.all fun k =>
  match links.get? k with
  | some l => decide (1.0 ≤ l.length) && decide (l.length ≤ 20.0) && decide (l.speedLimit = 10.0) && l.group.isNone
  | none => false

/-- The link is empty, and another one leads into it. -/
def ringed (links : LinkSet Float) (k j : Key) : Bool :=
  match links.get? k with
  | some l => l.vehicles.isEmpty && l.linksIn.head? == some j
  | none => false

def test (s : Sim Float) : Bool :=
  streets s.links && s.links.keys.head? == some ⟨0, 1⟩ && decide (s.lcUpdate < 0.3) && decide (¬ s.accUpdate < 0.1) && ringed s.links ⟨2, 1⟩ ⟨4, 1⟩ &&
  ringed s.links ⟨3, 1⟩ ⟨2, 1⟩ && ringed s.links ⟨4, 1⟩ ⟨3, 1⟩ &&
  match s.vehicles.get? ⟨0, 1⟩, s.links.get? ⟨0, 1⟩, s.links.get? ⟨1, 1⟩ with
  | some v, some l, some lj => decide (v.acc.maxAcc = 0.0) && l.vehicles == [⟨0, 1⟩] && decide (¬ v.posFront < l.length - 5.0 * l.speedLimit) &&
      v.route == [⟨0, 1⟩, ⟨1, 1⟩] && v.entered == 1 && v.queued.isSome && lj.lastConflict == 0 &&
      (match lj.control with
      | .yield_ _ _ _ => true
      | _ => false) &&
      match lj.conflicts with
      | c :: _ => c.linkId == ⟨2, 1⟩ && (v.minReachTime (l.length + l.length + c.ownMaxPos) lj.speedLimit + 0.5).isNaN
      | [] => false
  | _, _, _ => false

theorem queues : ∃ s0 s : Sim Float, Reach True s0 ∧ Allowed True s0 (.step 0.2) ∧ s0.exec (.step 0.2) = .ok s ∧ Reach True s ∧ test s = true :=
  trial_reach (ops := ops) (test := fun _ s => test s) (by decide +kernel)

theorem ring {links : LinkSet Float} {k j : Key} (h : ringed links k j = true) : ∃ l, links.get? k = some l ∧ l.vehicles = [] ∧
    ∃ rest, l.linksIn = j :: rest := by
  unfold ringed at h
  split at h
  · rename_i l hl
    simp only [Bool.and_eq_true, List.isEmpty_iff, beq_iff_eq, List.head?_eq_some_iff] at h
    exact ⟨l, hl, h.1, h.2⟩
  · cases h

end Endless

section

attribute [local instance] Town.env

open Endless

/-- **C103, where it is false** (binary64).  A car that cannot accelerate waits at a give-way line before a triangle of empty streets.  The
time that it needs is zero divided by zero, so a step never ends, however long it may go on. -/
theorem C103_waits : ∃ (_ : Env) (_ : LawfulDijkstra) (s : Sim Float), Reach True s ∧
    (∀ k l, s.links.get? k = some l → 1.0 ≤ l.length ∧ l.length ≤ 20.0 ∧ l.speedLimit = 10.0 ∧ l.group = none) ∧
    (∃ k v, s.vehicles.get? k = some v ∧ v.acc.maxAcc = 0.0) ∧ ∀ dt n, @Sim.step Float _ (Env.withFuel n) s dt = .error .diverges := by
  obtain ⟨-, s, -, -, -, hs, h⟩ := queues
  let _ : LawfulDijkstra := Search.lawful 400
  unfold test at h
  simp only [Bool.and_eq_true, beq_iff_eq, decide_eq_true_eq, List.head?_eq_some_iff] at h
  obtain ⟨⟨⟨⟨⟨⟨⟨h1, rest, h2⟩, h3⟩, h4⟩, h5⟩, h6⟩, h7⟩, h⟩ := h
  split at h
  · rename_i v l lj hv hl hlj
    simp only [Bool.and_eq_true, beq_iff_eq, decide_eq_true_eq, Option.isSome_iff_exists] at h
    obtain ⟨⟨⟨⟨⟨⟨⟨⟨g1, g2⟩, g3⟩, g4⟩, g5⟩, f, g6⟩, g7⟩, g8⟩, h⟩ := h
    split at g8
    · rename_i d m p hctl
      split at h
      · rename_i c cs hcs
        simp only [Bool.and_eq_true, beq_iff_eq] at h
        refine ⟨_, inferInstance, s, hs, fun k l hl => ?_, ⟨_, v, hv, g1⟩, fun dt n => ?_⟩
        · have := List.all_eq_true.1 h1 k (SlotMap.mem_keys.2 ⟨l, hl⟩)
          rw [hl] at this
          simpa [and_assoc] using this
        · refine C103_endless hs h3 h4 h2 hl g2 hv g3 (by rw [g4]; rfl) (by rw [g4]; rfl) g5 g6 hlj hctl hcs g7
            (S := fun k => k = ⟨2, 1⟩ ∨ k = ⟨3, 1⟩ ∨ k = ⟨4, 1⟩) ?_ (.inl h.1) ?_ dt n
          · rintro k (rfl | rfl | rfl)
            · obtain ⟨l, a, b, r, e⟩ := ring h5
              exact ⟨l, a, b, _, r, e, .inr (.inr rfl)⟩
            · obtain ⟨l, a, b, r, e⟩ := ring h6
              exact ⟨l, a, b, _, r, e, .inl rfl⟩
            · obtain ⟨l, a, b, r, e⟩ := ring h7
              exact ⟨l, a, b, _, r, e, .inr (.inl rfl)⟩
          · intro x hx
            have := (B64.lt_iff.1 hx).1
            rw [h.2] at this
            cases this
      · cases h
    · cases g8
  · cases h

end

end TrafficSim
