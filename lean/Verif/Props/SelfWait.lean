import Verif.Props.Flow

/-! # C91: a vehicle that is alone -/

namespace TrafficSim

section

attribute [local instance] Town.env

/-- **C91, it is false.**  A vehicle that is the only one, on open links, stands less than a metre from where it started, and will never
move, whatever the steps. -/
theorem C91_self : ∃ s : Sim Float, Reach True s ∧ s.vehicles.keys.length = 1 ∧ s.frozen = [] ∧
    (∀ k l, getLink s.links k = .ok l → l.control = .open_) ∧
    ∀ k v, s.getVehicle k = .ok v → v.pos < 1.0 ∧ v.route.length = 2 ∧ v.entered = 2 ∧ v.canExit = true ∧
      ∀ (dts : List Float) (s' : Sim Float), (∀ dt ∈ dts, (0.0 : Float) ≤ dt ∧ dt.isFinite = true) → dts.foldlM Sim.step s = .ok s' →
        ∃ v', s'.getVehicle k = .ok v' ∧ v'.pos = v.pos ∧ v'.vel = 0.0 ∧ v'.route = v.route := by
  obtain ⟨s0, s, -, -, -, hs, ht⟩ := Pinwheel.alone
  obtain ⟨h1, h2, h3, h4, h5, h6⟩ := Pinwheel.grid_of hs ht
  have := Search.lawful 400
  refine ⟨s, hs, h1, h2, fun k l hl => (h3 k l hl).1, fun k v hv => ?_⟩
  obtain ⟨g1, g2, g3⟩ := h4 k v hv
  have hv := getVeh_ok.1 hv
  refine ⟨g1, g2, (h5.veh k v hv).entered.trans g2, g3, fun dts s' hd hrun => ?_⟩
  obtain ⟨v', hv', r⟩ := (C90_gridlock hs h5 (fun dt hdt => h6 dt (hd dt hdt).1 (hd dt hdt).2) hrun).2.fwd k v hv
  exact ⟨v', getVeh_ok.2 hv', r.sees.pos, r.vel.trans (h5.veh k v hv).vel, r.sees.route⟩

end

/-- **C91, the rest** (exact arithmetic).  The only vehicle stands, and accelerations are due.  Its route does not lead back to its link, which is
in no group, and there is no conflict point of two links of the route.  Then it starts to move, or it is frozen, or it is at the end of its route
or at a link that is not open. -/
theorem C91_starts_partial [Env] [LawfulDijkstra] {strict : Prop} {s s' s1 : Sim ℝ} {dt : ℝ} {k : Key} {v1 v' : Vehicle ℝ} (h : Reach strict s)
    (hst : s.step dt = .ok s') (hdt : 0 < dt) (hre : ¬ s.accUpdate < 0.1) (hlanes : s.calculateLaneChanges = .ok s1)
    (hv1 : s1.getVehicle k = .ok v1) (hv' : s'.getVehicle k = .ok v') (hmax : 0 < v1.acc.maxAcc) (hdec : 0 < v1.acc.comfDec)
    (hstand : v1.vel = 0) (honly : ∀ j w, s1.getVehicle j = .ok w → j = k) (honce : ∀ lk, v1.linkId = some lk → lk ∉ v1.route.tail)
    (hgroup : ∀ lk l, v1.linkId = some lk → s1.getLinkRef lk = .ok l → l.group = none)
    (hconf : ∀ c ∈ s1.conflicts, c.link0.linkId ∈ v1.route → c.link1.linkId ∉ v1.route) :
    0 < v'.vel ∨ k ∈ s.frozen ∨ HeldAtLine s1 k := by
  obtain ⟨s1', s2, s3, s4, s5, s6, hr⟩ := (step_spec h.inv dt).ok hst
  rw [hr.run1] at hlanes; cases hlanes
  have hi := hr.inv1
  have g := getVeh_ok.1 hv1
  have only : ∀ j w, s1.vehicles.get? j = some w → j = k := fun j w hw => honly j w (getVeh_ok.2 hw)
  rcases C83_starts h hst hdt hre hr.run1 hv1 hv' hmax hdec hstand with hp | hp | ⟨gap, vel, hh, hgap⟩
  · exact .inl hp
  · exact .inr (.inl hp)
  cases hh with
  | @next lk j l u a1 a2 a3 =>
    have := only j u a3
    subst this
    have hn := (hi.mem lk l a1).1
    obtain ⟨pre, post, e⟩ := a2
    rw [← e, List.append_assoc, List.nodup_append] at hn
    have := hn.2.1
    simp at this
  | @last k0 j l i d js u a1 a2 a3 a4 =>
    have := only j u a4
    subst this
    obtain ⟨w, hw, e⟩ := ((hi.mem k0 l a2).2 j).1 (by rw [a3]; simp)
    rw [g] at hw; cases hw
    refine absurd ?_ (honce k0 e)
    have := a1.route
    rw [← List.getElem?_tail] at this
    exact List.mem_of_getElem? this
  | exit a1 a2 a3 a4 => exact .inr (.inr (.exit a1 a2 a3 a4 (by norm_num at hgap; linarith)))
  | entry a1 a2 a3 a4 a5 a6 => exact .inr (.inr (.entry a1 a2 a3 a4 a5 a6 (by norm_num at hgap; linarith)))
  | @lane lk j l l0 u gr ps p o i d pos vel a1 a2 a3 a4 =>
    have := only j u a3
    subst this
    obtain ⟨w, hw, e⟩ := ((hi.mem lk l a1).2 j).1 a2
    rw [g] at hw; cases hw
    rw [hgroup lk l e (getLink_ok.2 a1)] at a4; cases a4
  | @region c a b j u d d' a1 a2 a3 a4 =>
    obtain ⟨i, s1', -⟩ := a3
    obtain ⟨i', s2', -⟩ := a4
    have := only j u s1'.veh
    subst this
    have := s1'.veh
    rw [g] at this; cases this
    have m1 := List.mem_of_getElem? s1'.route
    have m2 := List.mem_of_getElem? s2'.route
    rcases a2 with ⟨rfl, rfl⟩ | ⟨rfl, rfl⟩
    · exact absurd m2 (hconf c a1 m1)
    · exact absurd m1 (hconf c a1 m2)
  | @merge c a b j u d d' a1 a2 a3 a4 =>
    obtain ⟨i, s1', -⟩ := a3
    obtain ⟨i', s2', -⟩ := a4
    have := only j u s1'.veh
    subst this
    have := s1'.veh
    rw [g] at this; cases this
    have m1 := List.mem_of_getElem? s1'.route
    have m2 := List.mem_of_getElem? s2'.route
    rcases a2 with ⟨rfl, rfl⟩ | ⟨rfl, rfl⟩
    · exact absurd m2 (hconf c a1 m1)
    · exact absurd m1 (hconf c a1 m2)

example : ∃ (_ : Env) (_ : LawfulDijkstra) (s s' s1 : Sim ℝ) (v1 v' : Vehicle ℝ) (k : Key), Reach True s ∧ s.step 0.05 = .ok s' ∧ (0 : ℝ) < 0.05 ∧
    ¬ s.accUpdate < 0.1 ∧ s.calculateLaneChanges = .ok s1 ∧ s1.getVehicle k = .ok v1 ∧ s'.getVehicle k = .ok v' ∧ 0 < v1.acc.maxAcc ∧
    0 < v1.acc.comfDec ∧ v1.vel = 0 ∧ (∀ j w, s1.getVehicle j = .ok w → j = k) ∧ (∀ lk, v1.linkId = some lk → lk ∉ v1.route.tail) ∧
    (∀ lk l, v1.linkId = some lk → s1.getLinkRef lk = .ok l → l.group = none) ∧
    (∀ c ∈ s1.conflicts, c.link0.linkId ∈ v1.route → c.link1.linkId ∉ v1.route) ∧ k ∉ s.frozen := by
  obtain ⟨e, e', s, s', s1, v, v', h1, h2, h3, h4, h5, h6, h7, h8, h9, h10, h11, h12, h13, h14, h15⟩ := Lone.idle
  refine ⟨e, e', s, s', s1, v, v', _, h1, h2, by norm_num, h3, h4, h6, h7, h9, h10, h11, fun j w hw => (h8 j w hw).1, ?_,
    fun lk l _ hl => h15 lk l hl, ?_, h13⟩
  · intro lk _
    rw [h12]; simp
  · rw [h14]; simp

end TrafficSim
