import Verif.Props.Cause
import Verif.Props.Sight
import Verif.Props.Network

/-! # C85: distances to what is ahead -/

namespace TrafficSim

section
variable {F : Type} [Flt F] {strict : Prop} {s : Sim F}

/-- Two ways along the network with the same ends and the same number of links are the same. -/
def UniqueWays (s : Sim F) : Prop :=
  ∀ p q : List Key, p.IsChain (Conn s.links) → q.IsChain (Conn s.links) → p.length = q.length → p.head? = q.head? →
    p.getLast? = q.getLast? → p = q

/-- A way to `k0`, as found from there. -/
theorem Upstream.way [Env] [LawfulDijkstra] (h : Reach strict s) {k0 lk : Key} {p d : F} {i : Nat} (hup : Upstream s.links k0 p i lk d) :
    ∃ (w : List Key) (ls : List (Link F)), w.length = i ∧ (w ++ [k0]).IsChain (Conn s.links) ∧ (w ++ [k0]).head? = some lk ∧
      w.map s.links.get? = ls.map some ∧ d = (ls.map Link.length).foldr (fun x a => a + x) p := by
  induction hup with
  | here => exact ⟨[], [], rfl, by simp, rfl, rfl, rfl⟩
  | @up i k j pos l l' _ hl hj hl' ih =>
    obtain ⟨w, ls, h1, h2, h3, h4, h5⟩ := ih
    have hmem : k ∈ l'.linksOut := by
      rw [← List.count_pos_iff, C60_symmetric h (getLink_ok.2 hl') (getLink_ok.2 hl)]
      exact List.count_pos_iff.2 hj
    refine ⟨j :: w, l' :: ls, by rw [List.length_cons, h1], ?_, rfl, by rw [List.map_cons, List.map_cons, h4, hl'], ?_⟩
    · rw [List.cons_append]
      cases hw : w ++ [k0] with
      | nil => simp at hw
      | cons x r =>
        rw [hw] at h2 h3
        cases h3
        exact List.isChain_cons_cons.2 ⟨⟨l', hl', hmem⟩, h2⟩
    · rw [List.map_cons, List.foldr_cons, ← h5]

/-- **C85** (partial) If ways are unique, the distance at which a vehicle sees what is ahead (`Sees`, in terms of which C83 states the
causes of all accelerations) is the one along its route: the lengths of the links of its route before the place are added. -/
theorem C85_along_partial [Env] [LawfulDijkstra] (h : Reach strict s) (hu : UniqueWays s) {k0 j : Key} {p d : F} {u : Vehicle F} {i : Nat}
    (hs : Sees s k0 p j u i d) :
    ∃ ls : List (Link F), (u.route.take i).map s.links.get? = ls.map some ∧ d = (ls.map Link.length).foldr (fun x a => a + x) p := by
  obtain ⟨lk, hlk, hup⟩ := hs.way
  obtain ⟨w, ls, h1, h2, h3, h4, h5⟩ := hup.way h
  have hlt : i < u.route.length := (List.getElem?_eq_some_iff.1 hs.route).1
  have hk0 := (List.getElem?_eq_some_iff.1 hs.route).2
  have htake : u.route.take (i + 1) = u.route.take i ++ [k0] := by rw [List.take_succ_eq_append_getElem hlt, hk0]
  have hw := hu (w ++ [k0]) (u.route.take (i + 1)) h2 ((h.inv.veh j u hs.veh).drivable.chain.take _)
    (by rw [htake]; simp [h1]; omega) (by rw [h3, List.head?_take, if_neg (by omega), hlk]) (by rw [htake]; simp)
  rw [htake] at hw
  rw [← List.append_cancel_right hw]
  exact ⟨ls, h4, h5⟩

omit [Flt F] in
theorem UniqueWays.of_single (h : ∀ k l, s.links.get? k = some l → l.linksOut.length ≤ 1) : UniqueWays s := by
  intro p
  induction p with
  | nil =>
    intro q _ _ hl _ _
    exact (List.length_eq_zero_iff.1 hl.symm).symm
  | cons a p ih =>
    intro q hp hq hl hh ht
    cases q with
    | nil => cases hl
    | cons b q =>
      cases hh
      congr 1
      cases p with
      | nil =>
        cases q with
        | nil => rfl
        | cons => cases hl
      | cons x p =>
        cases q with
        | nil => cases hl
        | cons y q =>
          rw [List.isChain_cons_cons] at hp hq
          refine ih _ hp.2 hq.2 (by simpa using hl) ?_ (by simpa [List.getLast?_cons_cons] using ht)
          obtain ⟨l, h1, h2⟩ := hp.1
          obtain ⟨l', h3, h4⟩ := hq.1
          rw [h1] at h3; cases h3
          have := h a l h1
          match hlo : l.linksOut with
          | [] => rw [hlo] at h2; cases h2
          | [z] =>
            rw [hlo, List.mem_singleton] at h2 h4
            rw [h2, h4]; rfl
          | _ :: _ :: _ => rw [hlo] at this; simp at this

end

namespace Detour

attribute [local instance] Town.env

/-- 4 m long, headway 2 s, maximum acceleration 2 m/s², comfortable deceleration 1 m/s² -/
def car : VehicleAttributes Float := ⟨2.0, 4.0, 3.0, 2.0, 2.0, 1.0⟩

/-- From link 0 to link 5 there are a fast way, of 30 m and 50 m, and a slow way, of 20 m and 20 m.  Cars stand on link 5 and on the slow
way, and one comes on link 0. -/
def ops : List (Op Float) :=
  [.addLink ⟨Town.street 0.0 0.0 1.0 0.0 60.0, 40.0⟩,
   .addLink ⟨Town.street 60.0 0.0 0.0 1.0 30.0, 40.0⟩, .addLink ⟨Town.street 60.0 30.0 0.8 (-0.6) 50.0, 40.0⟩,
   .addLink ⟨Town.street 60.0 0.0 1.0 0.0 20.0, 9.0⟩, .addLink ⟨Town.street 80.0 0.0 1.0 0.0 20.0, 5.0⟩,
   .addLink ⟨Town.street 100.0 0.0 1.0 0.0 10.0, 40.0⟩,
   .addLinkConnection ⟨0, 1⟩ ⟨1, 1⟩, .addLinkConnection ⟨1, 1⟩ ⟨2, 1⟩, .addLinkConnection ⟨2, 1⟩ ⟨5, 1⟩,
   .addLinkConnection ⟨0, 1⟩ ⟨3, 1⟩, .addLinkConnection ⟨3, 1⟩ ⟨4, 1⟩, .addLinkConnection ⟨4, 1⟩ ⟨5, 1⟩,
   .addVehicle car ⟨5, 1⟩, .setVehicleFrozen ⟨0, 1⟩ true, .addVehicle car ⟨0, 1⟩, .setVehicleDestination ⟨1, 1⟩ ⟨5, 1⟩,
   .addVehicle car ⟨3, 1⟩, .setVehicleFrozen ⟨2, 1⟩ true, .addVehicle car ⟨4, 1⟩, .setVehicleFrozen ⟨3, 1⟩ true,
   .step 0.3, .step 6.5, .step 0.2, .step 0.2, .step 0.2]

def test (s s' : Sim Float) : Bool :=
  match s.vehicles.get? ⟨1, 1⟩, s'.vehicles.get? ⟨1, 1⟩, s.vehicles.get? ⟨0, 1⟩, s.links.get? ⟨0, 1⟩, s.links.get? ⟨1, 1⟩, s.links.get? ⟨2, 1⟩ with
  | some v, some v', some u, some l0, some l1, some l2 =>
    decide (v.route = [⟨0, 1⟩, ⟨1, 1⟩, ⟨2, 1⟩, ⟨5, 1⟩] ∧ u.route = [⟨5, 1⟩] ∧ s.lcUpdate < 0.3) &&
    decide (v'.acc.acc < -10.0 ∧ -2.0 < v.acc.idm (l0.length + l1.length + l2.length + u.posRear - v.posFront) v.vel u.vel)
  | _, _, _, _, _, _ => false

theorem test_spec {s s' : Sim Float} (h : test s s' = true) : ∃ (v v' u : Vehicle Float) (l0 l1 l2 : Link Float),
    s.getVehicle ⟨1, 1⟩ = .ok v ∧ s'.getVehicle ⟨1, 1⟩ = .ok v' ∧ s.getVehicle ⟨0, 1⟩ = .ok u ∧ s.getLinkRef ⟨0, 1⟩ = .ok l0 ∧
    s.getLinkRef ⟨1, 1⟩ = .ok l1 ∧ s.getLinkRef ⟨2, 1⟩ = .ok l2 ∧
    (v.route = [⟨0, 1⟩, ⟨1, 1⟩, ⟨2, 1⟩, ⟨5, 1⟩] ∧ u.route = [⟨5, 1⟩] ∧ s.lcUpdate < 0.3) ∧
    v'.acc.acc < -10.0 ∧ -2.0 < v.acc.idm (l0.length + l1.length + l2.length + u.posRear - v.posFront) v.vel u.vel := by
  unfold test at h
  split at h
  · rename_i v v' u l0 l1 l2 g1 g2 g3 g4 g5 g6
    simp only [Bool.and_eq_true, decide_eq_true_eq] at h
    exact ⟨v, v', u, l0, l1, l2, getVeh_ok.2 g1, getVeh_ok.2 g2, getVeh_ok.2 g3, getLink_ok.2 g4, getLink_ok.2 g5, getLink_ok.2 g6,
      h.1, h.2⟩
  · cases h

theorem turn : ∃ s s' : Sim Float, Reach True s ∧ s.step 0.2 = .ok s' ∧ test s s' = true :=
  match trial_reach (ops := ops) (op := .step 0.2) (test := test) (by decide +kernel) with
  | ⟨s, s', h1, _, h2, _, h⟩ => ⟨s, s', h1, h2, h⟩

end Detour

open Detour in
attribute [local instance] Town.env in
/-- **C85** (witness) The claim is false in general: a vehicle whose route has another vehicle at its end brakes with more than 10 m/s²,
though with the distance along its route less than 2 m/s² are asked for.  The distance along another way, not taken, counts. -/
theorem C85_detour : ∃ (s s' : Sim Float) (v v' u : Vehicle Float) (l0 l1 l2 : Link Float), Reach True s ∧ s.step 0.2 = .ok s' ∧
    s.getVehicle ⟨1, 1⟩ = .ok v ∧ s'.getVehicle ⟨1, 1⟩ = .ok v' ∧ s.getVehicle ⟨0, 1⟩ = .ok u ∧ s.getLinkRef ⟨0, 1⟩ = .ok l0 ∧
    s.getLinkRef ⟨1, 1⟩ = .ok l1 ∧ s.getLinkRef ⟨2, 1⟩ = .ok l2 ∧
    (v.route = [⟨0, 1⟩, ⟨1, 1⟩, ⟨2, 1⟩, ⟨5, 1⟩] ∧ u.route = [⟨5, 1⟩] ∧ s.lcUpdate < 0.3) ∧
    v'.acc.acc < -10.0 ∧ -2.0 < v.acc.idm (l0.length + l1.length + l2.length + u.posRear - v.posFront) v.vel u.vel := by
  obtain ⟨s, s', h1, h2, h⟩ := turn
  obtain ⟨v, v', u, l0, l1, l2, h⟩ := test_spec h
  exact ⟨s, s', v, v', u, l0, l1, l2, h1, h2, h⟩

namespace Detour

attribute [local instance] Town.env

/-- Two links in a row and a car on its way along them. -/
def plain : List (Op Float) :=
  [.addLink ⟨Town.street 0.0 0.0 1.0 0.0 4.0, 40.0⟩, .addLink ⟨Town.street 4.0 0.0 1.0 0.0 4.0, 40.0⟩, .addLinkConnection ⟨0, 1⟩ ⟨1, 1⟩,
   .addVehicle car ⟨0, 1⟩, .setVehicleDestination ⟨0, 1⟩ ⟨1, 1⟩, .step 0.3]

def plainTest (_ s : Sim Float) : Bool :=
  match s.vehicles.get? ⟨0, 1⟩, s.links.get? ⟨0, 1⟩, s.links.get? ⟨1, 1⟩ with
  | some v, some l0, some l1 =>
    decide (v.route = [⟨0, 1⟩, ⟨1, 1⟩]) && decide (⟨0, 1⟩ ∈ l1.linksIn) && decide (¬ l0.length < 0.0 + l0.length) &&
    s.links.keys.all fun k => match s.links.get? k with
      | some l => decide (l.linksOut.length ≤ 1)
      | none => true
  | _, _, _ => false

end Detour

open Detour in
example : ∃ (_ : Env) (_ : LawfulDijkstra) (s : Sim Float) (u : Vehicle Float) (l : Link Float), Reach True s ∧ UniqueWays s ∧
    Sees s ⟨1, 1⟩ 0.0 ⟨0, 1⟩ u 1 (0.0 + l.length) := by
  let env := Town.env
  obtain ⟨s', s, -, -, -, h1, h⟩ := trial_reach (ops := plain) (op := .step 0.1) (test := plainTest) (by decide +kernel)
  unfold plainTest at h
  split at h
  · rename_i v l0 l1 g1 g2 g3
    simp only [Bool.and_eq_true, decide_eq_true_eq, List.all_eq_true] at h
    refine ⟨env, Search.lawful _, s, v, l0, h1, .of_single fun k l hl => ?_, g1, by rw [h.1.1.1]; rfl, ⟨⟨0, 1⟩, by rw [h.1.1.1]; rfl,
      .up .here g3 h.1.1.2 g2⟩, fun lk l e1 e2 e3 => ?_⟩
    · have := h.2 k (SlotMap.mem_keys.2 ⟨l, hl⟩)
      rw [hl] at this
      simpa using this
    · rw [h.1.1.1] at e1; cases e1
      rw [g2] at e2; cases e2
      exact absurd e3 h.1.2
  · cases h

end TrafficSim
