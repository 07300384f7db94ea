import Verif.Props.Enters

/-! # C88: vehicles wait for larger gaps than they need

The claim is that a vehicle that gives way goes on as soon as the others on the way to the conflict come later than it can be past it, and
half a second.  It is false of the code: `apply_stoplines` counts positions from the start of the link where the vehicle waits, so that the
line is at the length of the link, and adds the length once more before it asks `can_enter`.  The time in which the vehicle can be past the
conflict is that for a way that is longer by this link.  The positive part is `C87_enters`, with the length of the link counted twice. -/

namespace TrafficSim

attribute [local instance] Town.env

/-- The first car of `Crossing` waits before link 1 with a queue number.  The other one is the only one on the way to link 2 and comes later
than the first car is past the conflict, and half a second.  The first car is not admitted. -/
def Crossing.waitTest (s s' : Sim Float) : Bool :=
  shortNet s.links && decide (¬ s.accUpdate < 0.1) && match s.calculateLaneChanges with
  | .ok s1 => match s1.vehicles.get? ⟨0, 1⟩, s'.vehicles.get? ⟨0, 1⟩, s1.vehicles.get? ⟨1, 1⟩, s1.links.get? ⟨0, 1⟩, s1.links.get? ⟨1, 1⟩,
      s1.links.get? ⟨2, 1⟩, s1.links.get? ⟨3, 1⟩ with
    | some v, some v', some w, some la, some l, some lc, some lu =>
      v.route == [⟨0, 1⟩, ⟨1, 1⟩] && v.entered == 1 && v.queued == some 1 && v'.route == [⟨0, 1⟩, ⟨1, 1⟩] && v'.entered == 1 &&
      v'.queued == some 1 && la.vehicles == [⟨0, 1⟩] &&
      decide (¬ v.posFront < la.length - 5.0 * la.speedLimit) && w.route == [⟨3, 1⟩, ⟨2, 1⟩] && lc.vehicles == [] &&
      lc.linksIn == [⟨3, 1⟩] && lu.vehicles == [⟨1, 1⟩] && lu.linksIn == [] &&
      (match l.control with
        | .yield_ _ false _ => true
        | _ => false) &&
      (match lc.control with
        | .open_ => true
        | _ => false) &&
      (match l.conflicts with
        | [c] => c.linkId == ⟨2, 1⟩ && decide (v.minReachTime (la.length + c.ownMaxPos) l.speedLimit + 0.5 <
            w.minReachTime (c.minPos + lu.length) (fmax (fmax 0.0 lc.speedLimit) lu.speedLimit))
        | _ => false)
    | _, _, _, _, _, _, _ => false
  | .error _ => false

theorem Crossing.waits : ∃ s s' : Sim Float, Reach True s ∧ Allowed True s (.step 0.3) ∧ s.exec (.step 0.3) = .ok s' ∧
    Reach True s' ∧ Crossing.waitTest s s' = true :=
  trial_reach (ops := Crossing.ops 16.0 10.0) (by decide +kernel)

/-- **C88**, the negation (binary64).  A vehicle has a queue number for a link where it must give way, and at the only conflict of this link,
on all ways upstream, the vehicles by which the search is decided come later than it can be past the conflict, and 0.5 s.  Still it is not
admitted.  The hypotheses of `C87_enters` hold, except that the length of the link where it waits is counted once. -/
theorem C88_waits : ∃ (s s' s1 : Sim Float) (v1 v' : Vehicle Float) (l1 next : Link Float) (k lk j : Key) (d : Float) (m : Bool) (pr : Int)
    (f : Nat), Reach True s ∧ s.step 0.3 = .ok s' ∧
    LongLinks s.links ∧ ¬ s.accUpdate < 0.1 ∧ s.calculateLaneChanges = .ok s1 ∧ s1.getVehicle k = .ok v1 ∧ s'.getVehicle k = .ok v' ∧
    v1.entered = 0 + 1 ∧ FreeTo s1 v1 0 lk 0 lk l1.length ∧ s1.getLinkRef lk = .ok l1 ∧ l1.vehicles = [] ++ k :: [] ∧
    ¬ v1.posFront < l1.length - 5.0 * l1.speedLimit ∧ v1.route[0 + 1]? = some j ∧ s1.getLinkRef j = .ok next ∧
    next.control = .yield_ d m pr ∧ v1.queued = some f ∧
    (∀ c ∈ next.conflicts, ∀ lc, s1.getLinkRef c.linkId = .ok lc → ∀ i' k' pos' far mv l' kw w,
      Approach s1.links s1.vehicles (v1.minReachTime (l1.length + c.ownMaxPos) next.speedLimit + 0.5) c.linkId
        0 c.linkId c.minPos c.maxPos (fmax 0.0 lc.speedLimit) i' k' pos' far mv →
      s1.getLinkRef k' = .ok l' → Decisive s1.vehicles l' i' c.linkId far kw w → Precedes lc.control f pr w i' →
      v1.minReachTime (l1.length + c.ownMaxPos) next.speedLimit + 0.5 < w.minReachTime pos' mv) ∧
    v'.route = v1.route ∧ v'.entered = 1 ∧ v'.queued = some f := by
  obtain ⟨s, s', h1, -, h3, -, h⟩ := Crossing.waits
  unfold Crossing.waitTest at h
  simp only [Bool.and_eq_true, decide_eq_true_eq] at h
  obtain ⟨⟨h0, h6⟩, h5⟩ := h
  split at h5
  · rename_i s1 hs1
    split at h5
    · rename_i v v' w la l lc lu g1 gv g2 g3 g4 g5 g6
      simp only [Bool.and_eq_true, beq_iff_eq, decide_eq_true_eq] at h5
      obtain ⟨⟨⟨⟨⟨⟨⟨⟨⟨⟨⟨⟨⟨⟨⟨a1, a2⟩, a3⟩, z1⟩, z2⟩, z3⟩, a4⟩, a5⟩, a6⟩, a7⟩, a8⟩, a9⟩, a10⟩, a11⟩, a12⟩, a13⟩ := h5
      split at a11
      · rename_i d pr e11
        split at a12
        · rename_i e12
          split at a13
          · rename_i c e13
            simp only [Bool.and_eq_true, beq_iff_eq, decide_eq_true_eq] at a13
            obtain ⟨b1, b2⟩ := a13
            refine ⟨s, s', s1, v, v', la, l, ⟨0, 1⟩, ⟨0, 1⟩, ⟨1, 1⟩, d, false, pr, 1, h1, h3, shortNet_long h0, h6, hs1,
              getVeh_ok.2 g1, getVeh_ok.2 gv, a2, .here (by rw [a1]; rfl) g3, getLink_ok.2 g3, a4, a5, by rw [a1]; rfl, getLink_ok.2 g4,
              e11, a3, ?_, z1.trans a1.symm, z2, z3⟩
            intro c' hc' lc' hlc' i' k' pos' far mv l' kw w' hap hl' hdec hpre
            rw [e13, List.mem_singleton] at hc'
            subst hc'
            rw [b1] at hlc'
            have hlc' := getLink_ok.1 hlc'
            rw [g5] at hlc'; cases hlc'
            rw [b1] at hap hdec
            have hl' := getLink_ok.1 hl'
            have hdec' := hdec.ex
            obtain ⟨p1, p2, post, e, -⟩ := hdec'
            cases hap with
            | here =>
              rw [g5] at hl'; cases hl'
              rw [a7] at e
              simp at e
            | up q1 _ _ q2 q3 hap =>
              rw [g5] at q1; cases q1
              rw [a8, List.mem_singleton] at q2
              subst q2
              rw [g6] at q3; cases q3
              cases hap with
              | here =>
                rw [g6] at hl'; cases hl'
                rw [a9] at e
                have : kw ∈ [(⟨1, 1⟩ : Key)].reverse := by rw [e]; simp
                have : kw = ⟨1, 1⟩ := by simpa using this
                subst this
                have := hdec.veh
                rw [g2] at this; cases this
                exact b2
              | up q1 _ _ q2 _ _ =>
                rw [g6] at q1; cases q1
                rw [a10] at q2; cases q2
          · cases a13
        · cases a12
      · cases a11
    · cases h5
  · cases h5

end TrafficSim
