import Verif.Props.GapExact
import Verif.Lemmas.CrossingLate

/-! # Gap acceptance: examples and a counterexample -/

namespace TrafficSim

attribute [local instance] Town.env

/-- What the trial runs in `Crossing` show. -/
theorem Crossing.admit {e : Bool} {s s' : Sim Float} (h : Crossing.admitTest e s s' = true) :
    ∃ (v v' w : Vehicle Float) (la l lc lu : Link Float) (d : Float) (p : Int) (c : LinkConflict Float),
      LongLinks s.links ∧ s.getVehicle ⟨0, 1⟩ = .ok v ∧ s'.getVehicle ⟨0, 1⟩ = .ok v' ∧ s.getVehicle ⟨1, 1⟩ = .ok w ∧
      s.getLinkRef ⟨0, 1⟩ = .ok la ∧ s.getLinkRef ⟨1, 1⟩ = .ok l ∧ s.getLinkRef ⟨2, 1⟩ = .ok lc ∧ s.getLinkRef ⟨3, 1⟩ = .ok lu ∧
      v.route = [⟨0, 1⟩, ⟨1, 1⟩] ∧ v.entered = 1 ∧ v.queued = some 1 ∧ v'.route = [⟨0, 1⟩, ⟨1, 1⟩] ∧ v'.entered = 2 ∧
      w.route = [⟨3, 1⟩, ⟨2, 1⟩] ∧ lc.vehicles = [] ∧ lc.linksIn = [⟨3, 1⟩] ∧ lu.vehicles = [⟨1, 1⟩] ∧
      l.control = .yield_ d false p ∧ lc.control = .open_ ∧ l.conflicts = [c] ∧ c.linkId = ⟨2, 1⟩ ∧
      (if e then decide (w.minReachTime (c.minPos + lu.length) lu.speedLimit <
          v.minReachTime (la.length + c.ownMaxPos) l.speedLimit)
        else decide (v.minReachTime (la.length + c.ownMaxPos) l.speedLimit + 0.5 <
          w.minReachTime (c.minPos + lu.length) lu.speedLimit)) = true := by
  unfold Crossing.admitTest at h
  rw [Bool.and_eq_true] at h
  obtain ⟨h0, h⟩ := h
  split at h
  · rename_i v v' w la l lc lu g1 g2 g3 g4 g5 g6 g7
    simp only [Bool.and_eq_true, beq_iff_eq] at h
    obtain ⟨⟨⟨⟨⟨⟨⟨⟨⟨⟨⟨h1, h2⟩, h3⟩, h4⟩, h5⟩, h6⟩, h7⟩, h8⟩, h9⟩, h10⟩, h11⟩, h12⟩ := h
    split at h10
    · rename_i d p e10
      split at h11
      · rename_i e11
        split at h12
        · rename_i c e12
          simp only [Bool.and_eq_true, beq_iff_eq] at h12
          exact ⟨v, v', w, la, l, lc, lu, d, p, c, shortNet_long h0, getVeh_ok.2 g1, getVeh_ok.2 g2, getVeh_ok.2 g3,
            getLink_ok.2 g4, getLink_ok.2 g5, getLink_ok.2 g6, getLink_ok.2 g7, h1, h2, h3, h4, h5, h6, h7, h8, h9, e10, e11,
            e12, h12.1, h12.2⟩
        · cases h12
      · cases h11
    · cases h10
  · cases h

/-- **C30 is false of the code.**  A car is admitted to a link where it must give way, although another car,
on the only way to the conflicting link, may get to the conflict before the first car is past it.  The limit
of the conflicting link is so low that the search ends before it gets to that car. -/
theorem C30_missed : ∃ (s s' : Sim Float) (v v' w : Vehicle Float) (a b cl u k kw : Key) (la l lc lu : Link Float) (d : Float)
    (p : Int) (c : LinkConflict Float), Reach True s ∧ s.step 0.3 = .ok s' ∧
    s.getVehicle k = .ok v ∧ s'.getVehicle k = .ok v' ∧ s.getVehicle kw = .ok w ∧
    s.getLinkRef a = .ok la ∧ s.getLinkRef b = .ok l ∧ s.getLinkRef cl = .ok lc ∧ s.getLinkRef u = .ok lu ∧
    v.route = [a, b] ∧ v.entered = 1 ∧ v'.route = [a, b] ∧ v'.entered = 2 ∧ l.control = .yield_ d false p ∧
    c ∈ l.conflicts ∧ c.linkId = cl ∧ lc.control = .open_ ∧ lc.vehicles = [] ∧ lc.linksIn = [u] ∧ lu.vehicles = [kw] ∧
    w.route = [u, cl] ∧
    w.minReachTime (c.minPos + lu.length) lu.speedLimit < v.minReachTime (la.length + c.ownMaxPos) l.speedLimit := by
  obtain ⟨s, s', h1, -, h2, -, h4⟩ := Crossing.early
  obtain ⟨v, v', w, la, l, lc, lu, d, p, c, g1, g2, g3, g4, g5, g6, g7, g8, g9, g10, g11, g12, g13, g14, g15, g16, g17, g18,
    g19, g20, g21, g22⟩ := Crossing.admit h4
  exact ⟨s, s', v, v', w, ⟨0, 1⟩, ⟨1, 1⟩, ⟨2, 1⟩, ⟨3, 1⟩, ⟨0, 1⟩, ⟨1, 1⟩, la, l, lc, lu, d, p, c, h1, h2, g2, g3, g4, g5, g6, g7,
    g8, g9, g10, g12, g13, g18, by rw [g20]; simp, g21, g19, g15, g16, g17, g14, by simpa using g22⟩

/-- `C30_partial` applies to a car that is admitted to a link where it must give way, while another car is on the
way to the conflict. -/
example : ∃ (s s' : Sim Float) (v v' w : Vehicle Float) (l lc : Link Float) (d : Float) (p : Int) (c : LinkConflict Float),
    Reach True s ∧ LongLinks s.links ∧ s.step 0.3 = .ok s' ∧ s.getVehicle ⟨0, 1⟩ = .ok v ∧ s'.getVehicle ⟨0, 1⟩ = .ok v' ∧
    1 < v'.entered ∧ v'.route[1]? = some ⟨1, 1⟩ ∧ v.entered = 1 ∧ s.getLinkRef ⟨1, 1⟩ = .ok l ∧ l.control = .yield_ d false p ∧
    c ∈ l.conflicts ∧ s.getLinkRef c.linkId = .ok lc ∧ s.getVehicle ⟨1, 1⟩ = .ok w ∧ w.route[1]? = some c.linkId ∧
    Precedes lc.control 1 p w 1 := by
  obtain ⟨s, s', h1, -, h2, -, h4⟩ := Crossing.late
  obtain ⟨v, v', w, la, l, lc, lu, d, p, c, g1, g2, g3, g4, g5, g6, g7, g8, g9, g10, g11, g12, g13, g14, g15, g16, g17, g18,
    g19, g20, g21, g22⟩ := Crossing.admit h4
  exact ⟨s, s', v, v', w, l, lc, d, p, c, h1, g1, h2, g2, g3, by omega, by rw [g12]; rfl, g10, g6, g18,
    by rw [g20]; simp, by rw [g21]; exact g7, g4, by rw [g14, g21]; rfl, .inr (by rw [g19]; trivial)⟩

end TrafficSim
