import Verif.Lemmas.Origin
import Verif.Props.Traffic
import Mathlib.Tactic.Linarith
import Mathlib.Tactic.NormNum

/-! # C13, C20, C21, C57: speeds, accelerations and update intervals -/

namespace TrafficSim

section
variable {F : Type} [Flt F] {strict : Prop} {s s' : Sim F} {dt : F}

/-- Induction over the history of the speed and the acceleration of a vehicle. -/
theorem Reach.kinematics [Env] [LawfulDijkstra] (P : F → AccelerationModel F → Prop)
    (hnew : ∀ a : VehicleAttributes F, P 0.0 (AccelerationModel.new a.headway a.maxAcc a.comfDec))
    (hadj : ∀ vel m x, P vel m → P vel (m.setVelocityAdjust x))
    (hstep : ∀ vel m a dt, P vel m → (a = m.acc ∨ a = maxDecel ∨ ∃ as : List F, a = as.foldl fmin m.maxAcc) →
      P (fmax (vel + dt * fmax a maxDecel) 0.0) { m with acc := a })
    (h : Reach strict s) : ∀ k v, s.vehicles.get? k = some v → P v.vel v.acc := by
  induction h with
  | new =>
    intro k v hv
    have : (Sim.new : Sim F).vehicles.get? k = none := rfl
    rw [this] at hv; cases hv
  | @exec s s' op hr ha he ih =>
    intro k v' hv'
    cases exec_origin hr.inv he hv' with
    | added a link pf _ _ _ _ hp =>
      obtain ⟨p, d, r, c, rfl⟩ := hp
      exact hnew a
    | same hv _ => exact ih k v' hv
    | adjusted v x hv e _ => subst e; exact hadj _ _ _ (ih k v hv)
    | destined v pf dst hv _ _ _ e => subst e; exact ih k v hv
    | shifted v link d pos lc pf hv _ _ _ e => subst e; exact ih k v hv
    | stepped dt s1 s2 s3 s4 s5 s6 v v1 v2 v4 _ hsr hv ht =>
      obtain ⟨e1, e2, -⟩ := ht.vel hv'
      obtain ⟨h1, h2, -⟩ := ht.steer.same
      have hP := ih k v hv
      have key : ∃ a, v2.acc = { v.acc with acc := a } ∧
          (a = v.acc.acc ∨ a = maxDecel ∨ ∃ as : List F, a = as.foldl fmin v.acc.maxAcc) := by
        rcases ht.acc with ⟨-, -, rfl⟩ | ⟨-, n0, n1, vs, -, hacc⟩
        · exact ⟨v.acc.acc, by rw [h2], .inl rfl⟩
        · obtain ⟨a, w, rfl, -, hz, hnz⟩ := hacc.eq
          refine ⟨a, by dsimp only; rw [h2], ?_⟩
          by_cases hk : k ∈ s1.frozen
          · exact .inr (.inl (hz hk))
          · obtain ⟨as, e⟩ := hnz hk
            exact .inr (.inr ⟨as, by rw [e, h2]⟩)
      obtain ⟨a, ea, hcase⟩ := key
      rw [e1, e2, ea]
      exact hstep _ _ a dt hP hcase

/-- A vehicle that did not change lanes and was not removed: it moved on its link, or passed the end of
the link. -/
theorem Trace.pos [Env] {s1 s2 s3 s4 : Sim F} {k : Key} {v v1 v2 v4 v' : Vehicle F}
    (h : Trace s dt s1 s2 s3 s4 s' k v v1 v2 v4) (hv' : s'.vehicles.get? k = some v')
    (hlane : v1.linkId = v.linkId) :
    (v'.linkId = v.linkId ∧ v'.pos = v.pos + 0.5 * (v.vel + v'.vel) * dt ∧
      ∃ a l, v.linkId = some a ∧ s4.links.get? a = some l ∧ ¬ l.length < v.pos + 0.5 * (v.vel + v'.vel) * dt) ∨
    ∃ a b l, v.linkId = some a ∧ v'.linkId = some b ∧ s4.links.get? a = some l ∧
      l.length < v.pos + 0.5 * (v.vel + v'.vel) * dt ∧ v'.pos = v.pos + 0.5 * (v.vel + v'.vel) * dt - l.length := by
  obtain ⟨e1, -, -⟩ := h.steer.same
  obtain ⟨e2, -⟩ := h.steer.stay hlane
  obtain ⟨-, -, e3⟩ := h.vel hv'
  obtain ⟨a, w, ev2⟩ := h.acc.same
  obtain ⟨q, e, lc, cnt, ev4, -⟩ := h.move.eq
  have hp : v4.pos = v.pos + 0.5 * (v.vel + v'.vel) * dt := by
    have : v4.pos = v2.pos + 0.5 * (v2.vel + v4.vel) * dt := by rw [ev4]
    rw [this, e3, ev2]
    dsimp only
    rw [e1, e2]
  have hr : v4.route = v1.route := by rw [ev4, ev2]
  have hr4 : v4.route.head? = v.linkId := by rw [hr]; exact hlane
  cases h.out with
  | stays u hu hpl hx =>
    rw [hv'] at hu; cases hu
    obtain ⟨p, d, r, c, rfl⟩ := hpl
    obtain ⟨a, l, ha, hl, hlt⟩ := hx
    refine .inl ⟨hr4, hp, a, l, by rw [← hr4]; exact ha, hl, ?_⟩
    rw [hp] at hlt; exact hlt
  | passes v5 u hpa hne hu hpl =>
    rw [hv'] at hu; cases hu
    obtain ⟨p, d, r, c, rfl⟩ := hpl
    obtain ⟨a, rest, l, pf, h1, h2, h3, rfl, -⟩ := hpa.ex
    dsimp only at hne
    obtain ⟨b, rest', rfl⟩ := List.exists_cons_of_ne_nil hne
    refine .inr ⟨a, b, l, by rw [← hr4, h1]; rfl, rfl, h2, ?_, ?_⟩
    · rw [hp] at h3; exact h3
    · dsimp only; rw [hp]
  | leaves _ _ _ hn => rw [hv'] at hn; cases hn

/-! ## C57 -/

/-- The time since the last update if an update happens in every step before which at least `limit`
has passed since the last update; `dts` lists the steps, the first one first. -/
def sinceUpdate (limit : F) (dts : List F) : F :=
  dts.foldl (fun t dt => if t < limit then t + dt else 0.0 + dt) 0.0

/-- The simulations that can be reached, with the time steps that were made. -/
inductive History [Env] (strict : Prop) : Sim F → List F → Prop
  | new : History strict .new []
  | other {s s' : Sim F} {dts : List F} (op : Op F) : History strict s dts → Allowed strict s op →
      (∀ dt, op ≠ .step dt) → s.exec op = .ok s' → History strict s' dts
  | step {s s' : Sim F} {dts : List F} (dt : F) : History strict s dts → s.step dt = .ok s' →
      History strict s' (dts ++ [dt])

theorem History.reach [Env] {dts : List F} (h : History strict s dts) : Reach strict s := by
  induction h with
  | new => exact .new
  | other op _ ha _ he ih => exact .exec op ih ha he
  | step dt _ he ih => exact .exec (.step dt) ih trivial he

theorem Reach.history [Env] (h : Reach strict s) : ∃ dts, History strict s dts := by
  induction h with
  | new => exact ⟨_, .new⟩
  | exec op _ ha he ih =>
    obtain ⟨dts, h⟩ := ih
    by_cases hop : ∃ dt, op = .step dt
    · obtain ⟨dt, rfl⟩ := hop
      exact ⟨_, .step dt h he⟩
    · exact ⟨_, .other op h ha (fun dt e => hop ⟨dt, e⟩) he⟩

theorem exec_clocks [Env] [LawfulDijkstra] (hi : SimInv strict s) {op : Op F} (he : s.exec op = .ok s')
    (hne : ∀ dt, op ≠ .step dt) : s'.accUpdate = s.accUpdate ∧ s'.lcUpdate = s.lcUpdate := by
  cases op with
  | addLink a =>
    simp only [Sim.exec, M_bind_ok, M_pure_ok] at he
    obtain ⟨⟨s1, k⟩, h, rfl⟩ := he
    dsimp only; rw [(addLink_ok hi.net.wf h).eq]; exact ⟨rfl, rfl⟩
  | addLinkGroup ids m =>
    obtain ⟨g, lcs, h⟩ := addLinkGroup_ok hi.net he
    rw [h.eq]; exact ⟨rfl, rfl⟩
  | addLinkConvergance a b =>
    rcases addLinkConvergance_ok hi.net he with rfl | ⟨c, la, lb, -, -, -, -, -, -, h, e⟩
    · exact ⟨rfl, rfl⟩
    · rw [e]; exact ⟨rfl, rfl⟩
  | addLinkConnection a b =>
    obtain ⟨-, -, h, e⟩ := addLinkConnection_ok he
    rw [e]; exact ⟨rfl, rfl⟩
  | addTrafficLight tl =>
    simp only [Sim.exec, M_bind_ok, M_pure_ok] at he
    obtain ⟨⟨s1, k⟩, h, rfl⟩ := he
    dsimp only; rw [(addTrafficLight_ok hi.lwf h).eq]; exact ⟨rfl, rfl⟩
  | addVehicle a l =>
    simp only [Sim.exec, M_bind_ok, M_pure_ok] at he
    obtain ⟨⟨s1, k⟩, h, rfl⟩ := he
    dsimp only; rw [(addVehicle_ok hi h).eq]; exact ⟨rfl, rfl⟩
  | removeVehicle k => rw [((removeVehicle_spec (E := fun _ => True) hi k).ok he).eq]; exact ⟨rfl, rfl⟩
  | randomiseVelocityAdjusts sd f => rw [(randomise_ok he).2]; exact ⟨rfl, rfl⟩
  | setVehicleFrozen k b =>
    simp only [Sim.exec, M_pure_ok] at he
    subst he
    obtain ⟨f, e⟩ := setVehicleFrozen_eq s k b
    rw [e]; exact ⟨rfl, rfl⟩
  | setVehicleDestination k d =>
    simp only [Sim.exec, Sim.setVehicleDestination, M_bind_ok, M_pure_ok] at he
    obtain ⟨_, _, _, _, rfl⟩ := he
    exact ⟨rfl, rfl⟩
  | setLinkControl k c => rw [(setLinkControl_ok he).2.2]; exact ⟨rfl, rfl⟩
  | doLaneChange k l d =>
    simp only [Sim.exec, Sim.doLaneChange, M_bind_ok] at he
    obtain ⟨v, hv, he⟩ := he
    split at he <;>
    · simp only [M_bind_ok] at he
      obtain ⟨_, _, _, _, r, _, he⟩ := he
      cases r with
      | none => simp at he
      | some r =>
        obtain ⟨pos, off, sl⟩ := r
        simp only [M_bind_ok, M_pure_ok] at he
        obtain ⟨_, _, _, _, rfl⟩ := he
        exact ⟨rfl, rfl⟩
  | step dt => exact absurd rfl (hne dt)

theorem StepRun.clocks [Env] {s1 s2 s3 s4 s5 s6 : Sim F} (h : StepRun strict s dt s1 s2 s3 s4 s5 s6 s') :
    s1.accUpdate = s.accUpdate ∧ s'.accUpdate = (if s.accUpdate < accelerationUpdateSec then s.accUpdate + dt else 0.0 + dt) ∧
      s'.lcUpdate = if s.lcUpdate < laneChangeUpdateSec then s.lcUpdate + dt else 0.0 + dt := by
  obtain ⟨wss, hl⟩ := h.lights
  have e6 : s6.accUpdate = s2.accUpdate ∧ s6.lcUpdate = s2.lcUpdate := by
    rw [h.place.eq]; dsimp only; rw [h.adv.eq]; dsimp only; rw [h.move.eq]; dsimp only; rw [hl.eq]; exact ⟨rfl, rfl⟩
  have e1 : s1.accUpdate = s.accUpdate ∧ s1.lcUpdate = if s.lcUpdate < laneChangeUpdateSec then s.lcUpdate else 0.0 := by
    rcases h.lanes with ⟨hlt, e⟩ | ⟨hlt, vs, lcs, e⟩
    · rw [e, if_pos hlt]; exact ⟨rfl, rfl⟩
    · rw [e.eq, if_neg hlt]; exact ⟨rfl, rfl⟩
  have e2 : s2.accUpdate = (if s.accUpdate < accelerationUpdateSec then s.accUpdate else 0.0) ∧ s2.lcUpdate = s1.lcUpdate := by
    rcases h.acc with ⟨hlt, e⟩ | ⟨hlt, n0, n1, vs, e⟩
    · rw [e1.1] at hlt
      rw [e, if_pos hlt]; exact ⟨e1.1, rfl⟩
    · rw [e1.1] at hlt
      rw [e.eq, if_neg hlt]; exact ⟨rfl, rfl⟩
  refine ⟨e1.1, ?_, ?_⟩
  · rw [h.eq]; dsimp only; rw [e6.1, e2.1]; split <;> rfl
  · rw [h.eq]; dsimp only; rw [e6.2, e2.2, e1.2]; split <;> rfl

/-- The clocks of a simulation count the time since the last update. -/
theorem History.clocks [Env] [LawfulDijkstra] {dts : List F} (h : History strict s dts) :
    s.accUpdate = sinceUpdate 0.1 dts ∧ s.lcUpdate = sinceUpdate 0.3 dts := by
  induction h with
  | new => exact ⟨rfl, rfl⟩
  | other op hr ha hne he ih =>
    obtain ⟨h1, h2⟩ := exec_clocks hr.reach.inv he hne
    exact ⟨h1.trans ih.1, h2.trans ih.2⟩
  | @step s s' dts dt hr he ih =>
    obtain ⟨s1, s2, s3, s4, s5, s6, h⟩ := (step_spec hr.reach.inv dt).ok he
    obtain ⟨-, h1, h2⟩ := h.clocks
    unfold sinceUpdate at ih ⊢
    rw [List.foldl_append, List.foldl_append, ← ih.1, ← ih.2]
    exact ⟨h1, h2⟩

/-- **C57** (accelerations) If less than 0.1 s passed since the last recomputation, no vehicle's
acceleration or place in a queue changes in the step, and no vehicle is admitted to a link: the links a
vehicle has entered are among those that it had entered before, except the link it is on. -/
theorem C57_no_recomputation [Env] [LawfulDijkstra] {dts : List F} (h : History strict s dts) (hst : s.step dt = .ok s')
    (hlt : sinceUpdate 0.1 dts < (0.1 : F)) {k : Key} {v v' : Vehicle F} (hv : s.getVehicle k = .ok v)
    (hv' : s'.getVehicle k = .ok v') :
    v'.acc = v.acc ∧ v'.queued = v.queued ∧
      ∀ lk ∈ v'.route.take v'.entered, lk ∈ v.route.take v.entered ∨ v'.linkId = some lk := by
  rw [← h.clocks.1] at hlt
  have hi := h.reach.inv
  obtain ⟨s1, s2, s3, s4, s5, s6, hr⟩ := (step_spec hi dt).ok hst
  obtain ⟨v1, v2, v4, ht⟩ := hr.trace (getVeh_ok.1 hv)
  have hvi := hi.veh k v (getVeh_ok.1 hv)
  have e1 := hr.clocks.1
  obtain ⟨a1, a2, a3, a4, -⟩ := ht.steer.same
  have e2 : v2 = v1 := by
    rcases ht.acc with ⟨-, -, e⟩ | ⟨hge, -⟩
    · exact e
    · rw [e1] at hge; exact absurd hlt hge
  subst e2
  obtain ⟨q, e, lc, cnt, ev4, hq⟩ := ht.move.eq
  obtain ⟨rfl, rfl⟩ := hq (a4.trans hvi.will)
  obtain ⟨-, e3, -⟩ := ht.vel (getVeh_ok.1 hv')
  -- the links entered after the first phase
  have hent : (∀ lk ∈ v2.route.take v2.entered, lk ∈ v.route.take v.entered) ∨ v2.entered = 1 := by
    rcases ht.steer with (rfl | ⟨p, hc, hh, rfl⟩) | ⟨p, hc, hne, hs⟩
    · exact .inl fun lk h => h
    · refine .inl fun lk hlk => ?_
      simp only [Vehicle.setPath] at hlk
      have : ∀ (a b : List Key) (n : Nat), lk ∈ b.take (min n (Vehicle.matchedPrefix a b)) → lk ∈ a.take n := by
        intro a
        induction a with
        | nil => intro b n h; simp [Vehicle.matchedPrefix] at h
        | cons x a ih =>
          intro b n h
          cases b with
          | nil => simp at h
          | cons y b =>
            unfold Vehicle.matchedPrefix at h
            split at h
            · rename_i e
              cases n with
              | zero => simp at h
              | succ n =>
                rw [Nat.succ_min_succ, List.take_succ_cons, List.mem_cons] at h
                rw [List.take_succ_cons, List.mem_cons]
                rcases h with h | h
                · exact .inl (h.trans e.symm)
                · exact .inr (ih b n h)
            · simp at h
      exact this _ _ _ hlk
    · obtain ⟨link, pos, lc, pf, hl, rfl, -⟩ := hs.ex
      exact .inr rfl
  have hq4 : v4.queued = v2.queued := by rw [ev4]
  have hr4 : v4.route = v2.route ∧ v4.entered = v2.entered := by rw [ev4]; exact ⟨rfl, rfl⟩
  refine ⟨e3.trans a2, ?_, ?_⟩
  · rw [← a3, ← hq4]
    cases ht.out with
    | stays u hu hpl _ =>
      rw [getVeh_ok.1 hv'] at hu; cases hu
      obtain ⟨p, d, r, c, rfl⟩ := hpl; rfl
    | passes v5 u hpa _ hu hpl =>
      rw [getVeh_ok.1 hv'] at hu; cases hu
      obtain ⟨p, d, r, c, rfl⟩ := hpl
      obtain ⟨a, rest, l, pf, -, -, -, rfl, -⟩ := hpa.ex
      rfl
    | leaves _ _ _ hn => rw [getVeh_ok.1 hv'] at hn; cases hn
  · intro lk hlk
    have one : ∀ ks : List Key, lk ∈ ks.take 1 → ks.head? = some lk := by
      intro ks h
      cases ks with
      | nil => simp at h
      | cons x xs => simp at h; rw [h]; rfl
    cases ht.out with
    | stays u hu hpl _ =>
      rw [getVeh_ok.1 hv'] at hu; cases hu
      obtain ⟨p, d, r, c, rfl⟩ := hpl
      dsimp only at hlk
      rcases hent with hent | hent
      · rw [hr4.1, hr4.2] at hlk
        exact .inl (hent lk hlk)
      · rw [hr4.2, hent] at hlk
        exact .inr (one _ hlk)
    | passes v5 u hpa _ hu hpl =>
      rw [getVeh_ok.1 hv'] at hu; cases hu
      obtain ⟨p, d, r, c, rfl⟩ := hpl
      obtain ⟨a, rest, l, pf, h1, -, -, rfl, -⟩ := hpa.ex
      dsimp only at hlk
      rw [hr4.2] at hlk
      by_cases hen : v2.entered ≤ 1
      · rw [show max (v2.entered - 1) 1 = 1 by omega] at hlk
        exact .inr (one _ hlk)
      · rcases hent with hent | hent
        · obtain ⟨n, hn⟩ : ∃ n, v2.entered = n + 1 := ⟨v2.entered - 1, by omega⟩
          refine .inl (hent lk ?_)
          rw [← hr4.1, h1, hn, List.take_succ_cons]
          rw [show max (v2.entered - 1) 1 = n by omega] at hlk
          exact List.mem_cons_of_mem _ hlk
        · omega
    | leaves _ _ _ hn => rw [getVeh_ok.1 hv'] at hn; cases hn

/-- **C57** (paths) If less than 0.3 s passed since paths were re-evaluated, a vehicle keeps its route,
except for the link it may have passed, and starts no lane change. -/
theorem C57_no_path_update [Env] [LawfulDijkstra] {dts : List F} (h : History strict s dts) (hst : s.step dt = .ok s')
    (hlt : sinceUpdate 0.3 dts < (0.3 : F)) {k : Key} {v v' : Vehicle F} (hv : s.getVehicle k = .ok v)
    (hv' : s'.getVehicle k = .ok v') :
    (v'.route = v.route ∨ v'.route = v.route.tail) ∧ (v.laneChange = none → v'.laneChange = none) ∧
      s.calculateLaneChanges = .ok s := by
  rw [← h.clocks.2] at hlt
  have hi := h.reach.inv
  obtain ⟨s1, s2, s3, s4, s5, s6, hr⟩ := (step_spec hi dt).ok hst
  obtain ⟨v1, v2, v4, ht⟩ := hr.trace (getVeh_ok.1 hv)
  have e1 : s1 = s := by
    rcases hr.lanes with ⟨-, e⟩ | ⟨hge, -⟩
    · exact e
    · exact absurd hlt hge
  subst e1
  have e2 : v1 = v := by
    have := ht.get1
    rw [getVeh_ok.1 hv] at this; exact (Option.some.inj this).symm
  subst e2
  obtain ⟨a, w, ev2⟩ := ht.acc.same
  have h4 : v4.route = v1.route ∧ (v1.laneChange = none → v4.laneChange = none) := by
    obtain ⟨sq, sq', hm, -⟩ := ht.move
    unfold Vehicle.integrate at hm
    rw [M_bind_ok] at hm
    obtain ⟨p, hp, hm⟩ := hm
    rw [M_pure_ok] at hm
    cases hm
    obtain ⟨q, e, he, -⟩ := integrateQueue_eq hp
    have : p.1.route = v1.route ∧ p.1.laneChange = v1.laneChange := by rw [he, ev2]; exact ⟨rfl, rfl⟩
    constructor
    · rw [← this.1]; obtain ⟨_, _, e⟩ := integrateMotion_eq p.1 dt; rw [e]
    · intro hn
      unfold Vehicle.integrateMotion Vehicle.updateStopCount
      rw [this.2, hn]
      dsimp only
      split <;> rfl
  refine ⟨?_, fun hn => ?_, hr.run1⟩
  · cases ht.out with
    | stays u hu hpl _ =>
      rw [getVeh_ok.1 hv'] at hu; cases hu
      obtain ⟨p, d, r, c, rfl⟩ := hpl
      exact .inl h4.1
    | passes v5 u hpa _ hu hpl =>
      rw [getVeh_ok.1 hv'] at hu; cases hu
      obtain ⟨p, d, r, c, rfl⟩ := hpl
      obtain ⟨a, rest, l, pf, h1, -, -, rfl, -⟩ := hpa.ex
      refine .inr ?_
      rw [← h4.1, h1]; rfl
    | leaves _ _ _ hn => rw [getVeh_ok.1 hv'] at hn; cases hn
  · have hn4 := h4.2 hn
    cases ht.out with
    | stays u hu hpl _ =>
      rw [getVeh_ok.1 hv'] at hu; cases hu
      obtain ⟨p, d, r, c, rfl⟩ := hpl
      exact hn4
    | passes v5 u hpa _ hu hpl =>
      rw [getVeh_ok.1 hv'] at hu; cases hu
      obtain ⟨p, d, r, c, rfl⟩ := hpl
      obtain ⟨a, rest, l, pf, h1, -, -, rfl, -⟩ := hpa.ex
      dsimp only
      rw [hn4]; rfl
    | leaves _ _ _ hn => rw [getVeh_ok.1 hv'] at hn; cases hn

/-! ### Recomputation forgets the old accelerations -/

/-- The simulation with other stored accelerations. -/
def Sim.withAccs (s : Sim F) (f : Key → F) : Sim F :=
  { s with
    vehicles := s.vehicles.keys.foldl
      (fun vs k => vs.modify k fun v => { v with acc := { v.acc with acc := f k } }) s.vehicles }

omit [Flt F] in
theorem SlotMap.modify_none {V : Type} {m : SlotMap V} {a : Key} (h : m.get? a = none) (f : V → V) : m.modify a f = m := by
  unfold SlotMap.modify; rw [h]

omit [Flt F] in
theorem SlotMap.modify_some {V : Type} {m : SlotMap V} {a : Key} {v : V} (h : m.get? a = some v) (f : V → V) :
    m.modify a f = ⟨m.slots.set a.idx ⟨a.ver, some (f v)⟩, m.free⟩ := by
  unfold SlotMap.modify; rw [h]

omit [Flt F] in
theorem SlotMap.modify_comm {V : Type} (m : SlotMap V) {a b : Key} (h : a ≠ b) (f g : V → V) :
    (m.modify a f).modify b g = (m.modify b g).modify a f := by
  have ha : (m.modify a f).get? b = m.get? b := SlotMap.get?_modify_ne _ _ h.symm
  have hb : (m.modify b g).get? a = m.get? a := SlotMap.get?_modify_ne _ _ h
  cases h1 : m.get? a with
  | none => rw [SlotMap.modify_none h1, SlotMap.modify_none (hb.trans h1)]
  | some v =>
    cases h2 : m.get? b with
    | none => rw [SlotMap.modify_none h2, SlotMap.modify_none (ha.trans h2)]
    | some w =>
      have hidx : a.idx ≠ b.idx := fun e => h (SlotMap.get?_idx_inj h1 h2 e)
      rw [SlotMap.modify_some (ha.trans h2), SlotMap.modify_some (hb.trans h1), SlotMap.modify_some h1,
        SlotMap.modify_some h2]
      dsimp only
      rw [List.set_comm _ _ hidx]

omit [Flt F] in
theorem SlotMap.modify_comp {V : Type} (m : SlotMap V) (a : Key) (f g : V → V) :
    (m.modify a f).modify a g = m.modify a fun v => g (f v) := by
  cases h1 : m.get? a with
  | none => rw [SlotMap.modify_none h1, SlotMap.modify_none h1, SlotMap.modify_none h1]
  | some v =>
    have h2 : (m.modify a f).get? a = some (f v) := by rw [SlotMap.get?_modify_self, h1]; rfl
    rw [SlotMap.modify_some h2, SlotMap.modify_some h1, SlotMap.modify_some h1]
    dsimp only
    rw [List.set_set]

omit [Flt F] in
theorem SlotMap.foldl_modify_swap {V : Type} (f : Key → V → V) (k : Key) (g : V → V) : ∀ (ks : List Key) (m : SlotMap V),
    k ∉ ks → (ks.foldl (fun m j => m.modify j (f j)) m).modify k g = ks.foldl (fun m j => m.modify j (f j)) (m.modify k g)
  | [], _, _ => rfl
  | j :: ks, m, h => by
    rw [List.mem_cons, not_or] at h
    rw [List.foldl_cons, List.foldl_cons, foldl_modify_swap f k g ks _ h.2, SlotMap.modify_comm _ (Ne.symm h.1)]

omit [Flt F] in
theorem SlotMap.foldl_modify_comp {V : Type} (f g : Key → V → V) : ∀ (ks : List Key) (m : SlotMap V), ks.Nodup →
    ks.foldl (fun m j => m.modify j (g j)) (ks.foldl (fun m j => m.modify j (f j)) m) =
      ks.foldl (fun m j => m.modify j fun v => g j (f j v)) m
  | [], _, _ => rfl
  | j :: ks, m, h => by
    rw [List.nodup_cons] at h
    rw [List.foldl_cons, List.foldl_cons, List.foldl_cons, foldl_modify_swap f j (g j) ks _ h.1, SlotMap.modify_comp,
      foldl_modify_comp f g ks _ h.2]

omit [Flt F] in
theorem prepare_commute (ks : List Key) : ∀ (links : LinkSet F) (vs vs0 : VehicleSet F), ks.Nodup →
    (∀ k ∈ ks, vs.get? k = vs0.get? k) →
    ks.foldlM Sim.resetVehicle ⟨links, vs⟩ = (do
      let links ← ks.foldlM (fun links k => do
        let v ← getVeh vs0 k
        v.activateLinks links) links
      pure ⟨links, ks.foldl (fun vs k => vs.modify k Vehicle.reset) vs⟩ : M (Net F)) := by
  induction ks with
  | nil => intro links vs vs0 _ _; rfl
  | cons k ks ih =>
    intro links vs vs0 hnd hsame
    rw [List.nodup_cons] at hnd
    rw [List.foldlM_cons, List.foldlM_cons, List.foldl_cons]
    have hg : getVeh vs k = getVeh vs0 k := by unfold getVeh; rw [hsame k (by simp)]
    have key : ∀ links, ks.foldlM Sim.resetVehicle ⟨links, vs.modify k Vehicle.reset⟩ = _ := fun links =>
      ih links (vs.modify k Vehicle.reset) vs0 hnd.2 fun j hj => by
        have hne : j ≠ k := fun e => hnd.1 (e ▸ hj)
        rw [SlotMap.get?_modify_ne _ _ hne]; exact hsame j (by simp [hj])
    unfold Sim.resetVehicle at key ⊢
    rw [hg]
    cases hv : getVeh vs0 k with
    | error e => rfl
    | ok v =>
      cases ha : v.activateLinks links with
      | error e =>
        simp only [bind, Except.bind, ha]
      | ok links' =>
        have := key links'
        simp only [bind, Except.bind, ha, pure, Except.pure] at this ⊢
        exact this

/-- **C57** (accelerations) If at least 0.1 s passed since the last recomputation, the accelerations are
computed afresh: what they were before makes no difference. -/
theorem C57_recomputation [Env] {s : Sim F} (hge : ¬ s.accUpdate < 0.1) (f : Key → F) :
    (s.withAccs f).applyAccelerations = s.applyAccelerations := by
  have hrel : SRel (fun k v v' => v' = { v with acc := { v.acc with acc := f k } }) s.vehicles (s.withAccs f).vehicles :=
    SRel.foldl_modify_keys s.vehicles fun k v => { v with acc := { v.acc with acc := f k } }
  have hprep : (s.withAccs f).prepareNet = s.prepareNet := by
    unfold Sim.prepareNet
    dsimp only
    rw [prepare_commute _ _ _ _ (s.withAccs f).vehicles.nodup_keys fun _ _ => rfl,
      prepare_commute _ _ _ _ s.vehicles.nodup_keys fun _ _ => rfl, hrel.keys]
    have hfun : (fun (links : LinkSet F) k => do
        let v ← getVeh (s.withAccs f).vehicles k
        v.activateLinks links) = (fun links k => do
        let v ← getVeh s.vehicles k
        v.activateLinks links) := by
      funext links k
      unfold getVeh
      cases hk : s.vehicles.get? k with
      | none =>
        cases hk' : (s.withAccs f).vehicles.get? k with
        | none => rfl
        | some v' => obtain ⟨v, hv, -⟩ := hrel.bwd hk'; rw [hk] at hv; cases hv
      | some v => obtain ⟨v', hv', e⟩ := hrel.fwd k v hk; rw [hv', e]; rfl
    have hvs : s.vehicles.keys.foldl (fun vs k => vs.modify k Vehicle.reset) (s.withAccs f).vehicles =
        s.vehicles.keys.foldl (fun vs k => vs.modify k Vehicle.reset) s.vehicles :=
      SlotMap.foldl_modify_comp (fun k (v : Vehicle F) => { v with acc := { v.acc with acc := f k } })
        (fun _ => Vehicle.reset) s.vehicles.keys s.vehicles s.vehicles.nodup_keys
    rw [hfun, hvs]
    rfl
  unfold Sim.applyAccelerations
  have e1 : (s.withAccs f).accUpdate = s.accUpdate := rfl
  rw [e1, hprep]
  have : ¬ s.accUpdate < accelerationUpdateSec := hge
  rw [if_neg this, if_neg this]
  rfl

end

/-! ## Examples -/

section
attribute [local instance] Town.env

/-- `C57_no_recomputation` and `C57_no_path_update` apply to a car in its second step of 0.03 s. -/
example : ∃ (s s' : Sim Float) (dts : List Float) (v v' : Vehicle Float), History True s dts ∧ s.step 0.03 = .ok s' ∧
    sinceUpdate 0.1 dts < (0.1 : Float) ∧ sinceUpdate 0.3 dts < (0.3 : Float) ∧ s.getVehicle ⟨0, 1⟩ = .ok v ∧
    s'.getVehicle ⟨0, 1⟩ = .ok v' ∧ v.vel < v'.vel := by
  obtain ⟨s, s', h1, -, h2, -, h4⟩ := DeadEnd.coast
  simp only [DeadEnd.coastTest, Bool.and_eq_true, decide_eq_true_eq] at h4
  obtain ⟨⟨⟨⟨a1, a2⟩, a3⟩, a4⟩, a5⟩ := h4
  split at a5
  · rename_i v v' hv hv'
    simp only [Bool.and_eq_true, decide_eq_true_eq] at a5
    obtain ⟨dts, hd⟩ := h1.history
    have := Search.lawful 400
    refine ⟨s, s', dts, v, v', hd, h2, ?_, ?_, getVeh_ok.2 hv, getVeh_ok.2 hv', a5.2⟩
    · rw [← hd.clocks.1]; exact a1
    · rw [← hd.clocks.2]; exact a2
  · cases a5

/-- `C57_recomputation` applies to a car that brakes. -/
example : ∃ (s s' : Sim Float), Reach True s ∧ s.step 0.05 = .ok s' ∧ ¬ s.accUpdate < 0.1 := by
  obtain ⟨s, s', h1, -, h2, -, h4⟩ := DeadEnd.brake
  simp only [DeadEnd.brakeTest, Bool.and_eq_true, Bool.not_eq_true', decide_eq_false_iff_not] at h4
  exact ⟨s, s', h1, h2, h4.1.2⟩

end

end TrafficSim
