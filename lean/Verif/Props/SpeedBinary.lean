import Verif.Props.EndsRuns

/-! # C104: speeds in binary64, on networks of all kinds -/

namespace TrafficSim

open B64

variable {strict : Prop} {s s' : Sim Float}

/-- Bounds on the arguments of operations: steps take 2⁻¹⁰ to 1 s, speed limits are 1 to 100 m/s, vehicles can accelerate by 0.125 to 8 m/s²,
and random factors are numbers. -/
def Timed : Op Float → Prop
  | .step dt => (0.0009765625 : Float) ≤ dt ∧ dt ≤ (1.0 : Float)
  | .addLink a => (1.0 : Float) ≤ a.speedLimit ∧ a.speedLimit ≤ (100.0 : Float)
  | .addVehicle a _ => (0.125 : Float) ≤ a.maxAcc ∧ a.maxAcc ≤ (8.0 : Float)
  | .randomiseVelocityAdjusts _ sample => ∀ k, (sample k).isNaN = false
  | _ => True

/-- The simulations that can be reached by such operations. -/
inductive TimedReach [Env] (strict : Prop) : Sim Float → Prop
  | new : TimedReach strict .new
  | exec {s s' : Sim Float} (op : Op Float) : TimedReach strict s → Allowed strict s op → Timed op → s.exec op = .ok s' → TimedReach strict s'

theorem TimedReach.reach [Env] (h : TimedReach strict s) : Reach strict s := by
  induction h with
  | new => exact .new
  | exec op _ ha _ he ih => exact .exec op ih ha he

theorem TimedReach.limits [Env] [LawfulDijkstra] (h : TimedReach strict s) :
    ∀ k l, s.links.get? k = some l → (1.0 : Float) ≤ l.speedLimit ∧ l.speedLimit ≤ (100.0 : Float) := by
  induction h with
  | new => intro lk l hl; cases hl
  | @exec s s' op hr ha hp he ih =>
    intro lk l' hl'
    cases exec_network hr.reach.inv he with
    | frame hf =>
      obtain ⟨l, hl, e⟩ := hf.bwd hl'
      rw [e.speedLimit]; exact ih lk l hl
    | added a k hop hk =>
      subst hop
      obtain ⟨l, hn, hget⟩ := hk.link
      rw [hget] at hl'
      split at hl'
      · cases hl'
        have : l'.speedLimit = a.speedLimit := by
          simp only [Link.new, M_bind_ok, M_pure_ok] at hn
          obtain ⟨_, _, rfl⟩ := hn
          rfl
        rw [this]; exact hp
      · exact ih lk l' hl'
    | grouped ids mask g lcs _ hg =>
      obtain ⟨l, hl, rfl, -⟩ := hg.rel.bwd hl'
      exact ih lk l hl
    | converging a b cs _ hc =>
      obtain ⟨l, hl, rfl⟩ := hc.bwd hl'
      exact ih lk l hl
    | connected a b _ _ _ hc =>
      obtain ⟨l, hl, rfl⟩ := hc.bwd hl'
      exact ih lk l hl

theorem TimedReach.clock [Env] [LawfulDijkstra] (h : TimedReach strict s) : (0.0 : Float) ≤ s.accUpdate := by
  induction h with
  | new => exact nonneg_iff.2 ⟨by decide +kernel, by show 0 ≤ val 0.0; rw [val_zero]⟩
  | @exec s s' op hr ha hp he ih =>
    by_cases hop : ∃ dt, op = .step dt
    · obtain ⟨dt, rfl⟩ := hop
      exact clock_step hr.reach he hp ih
    · rw [(exec_clocks hr.reach.inv he fun dt e => hop ⟨dt, e⟩).1]
      exact ih

/-- What is known of each vehicle. -/
theorem TimedReach.pace [Env] [LawfulDijkstra] (h : TimedReach strict s) : ∀ k v, s.vehicles.get? k = some v →
    Pacing s.accUpdate v ∧ ((0.125 : Float) ≤ v.acc.maxAcc ∧ v.acc.maxAcc ≤ (8.0 : Float)) ∧ (0.75 : Float) ≤ v.acc.velAdj ∧ v.acc.velAdj ≤ (1.25 : Float) := by
  induction h with
  | new => intro k v hv; cases hv
  | @exec s s' op hr ha hp he ih =>
    have hinv := hr.reach.inv
    intro k v' hv'
    have hcl : (∀ dt, op ≠ .step dt) → s'.accUpdate = s.accUpdate := fun hne => (exec_clocks hinv he hne).1
    cases exec_origin hinv he hv' with
    | added a link pf hop _ _ _ hpl =>
      subst hop
      rw [hcl nofun]
      obtain ⟨p, d, r, c, rfl⟩ := hpl
      exact ⟨pacing_new hr.clock (by rfl), hp, (by decide +kernel : (0.75 : Float) ≤ 1.0), (by decide +kernel : (1.0 : Float) ≤ 1.25)⟩
    | same hv hne => rw [hcl hne]; exact ih k v' hv
    | adjusted v x hv e hop =>
      obtain ⟨sd, f, rfl, rfl⟩ := hop
      rw [hcl nofun]
      subst e
      exact ⟨(ih k v hv).1, (ih k v hv).2.1, clamp_within (hp k)⟩
    | destined v pf dst hv hop _ _ e =>
      subst hop e
      rw [hcl nofun]
      exact ih k v hv
    | shifted v link d pos lc pf hv hop _ _ e =>
      subst hop e
      rw [hcl nofun]
      exact ih k v hv
    | stepped dt s1 s2 s3 s4 s5 s6 v v1 v2 v4 hop hsr hv ht =>
      subst hop
      obtain ⟨h1, h2, h3⟩ := ih k v hv
      obtain ⟨p1, p2, p3⟩ := pace_step hr.reach he hp hr.limits hv hv' h2 h3 h1
      rw [p2, p3]
      exact ⟨p1, h2, h3⟩

/-- **C104** In binary64, speeds are numbers from 0 to 135 m/s in all simulations, however long they are used and whatever the network is like:
with groups of lanes, changes of lanes, crossings, lights and links of any shape.  See `Timed` for the bounds on steps and on what is added. -/
theorem C104_speeds [Env] [LawfulDijkstra] (h : TimedReach strict s) {k : Key} {v : Vehicle Float} (hv : s.getVehicle k = .ok v) :
    (0.0 : Float) ≤ v.vel ∧ v.vel ≤ (135.0 : Float) :=
  ⟨C20_number_float h.reach hv, ((h.pace k v (getVeh_ok.1 hv)).1).1⟩

/-! ## An example -/

theorem timed_run [Env] : ∀ (ops : List (Op Float)) (s s' : Sim Float), TimedReach True s → (∀ op ∈ ops, Timed op) → runChecked ops s = some s' →
    TimedReach True s'
  | [], s, s', hr, _, h => by
    simp only [runChecked, Option.some.injEq] at h
    exact h ▸ hr
  | op :: ops, s, s', hr, hc, h => by
    unfold runChecked at h
    split at h
    · rename_i hg
      split at h
      · rename_i s1 h1
        exact timed_run ops s1 s' (.exec op hr (opChecked_allowed hg) (hc op (by simp)) h1) (fun o ho => hc o (by simp [ho])) h
      · simp at h
    · simp at h

namespace Shifting

/-- Two lanes next to each other and a car that is moved from one to the other while it drives. -/
def ops : List (Op Float) :=
  [.addLink ⟨Town.street 0.0 0.0 1.0 0.0 8.0, 10.0⟩, .addLink ⟨Town.street 0.0 3.0 1.0 0.0 8.0, 10.0⟩, .addLinkGroup [⟨0, 1⟩, ⟨1, 1⟩] 3,
   .addVehicle Town.car ⟨0, 1⟩, .step 0.125, .doLaneChange ⟨0, 1⟩ ⟨1, 1⟩ 3.0, .step 0.125]

/-- A test for `Timed`. -/
def timed : Op Float → Bool
  | .step dt => decide ((0.0009765625 : Float) ≤ dt) && decide (dt ≤ (1.0 : Float))
  | .addLink a => decide ((1.0 : Float) ≤ a.speedLimit) && decide (a.speedLimit ≤ (100.0 : Float))
  | .addVehicle a _ => decide ((0.125 : Float) ≤ a.maxAcc) && decide (a.maxAcc ≤ (8.0 : Float))
  | .randomiseVelocityAdjusts _ _ => false
  | _ => true

theorem ops_timed : ∀ op ∈ ops, Timed op := by
  have h : ops.all timed = true := by decide +kernel
  intro op hop
  have := List.all_eq_true.1 h op hop
  cases op <;> simp_all [timed, Timed]

def test [Env] : Bool := match runChecked ops Sim.new with
  | none => false
  | some s => match s.vehicles.get? ⟨0, 1⟩ with
    | none => false
    | some v => decide (v.linkId = some ⟨1, 1⟩) && v.laneChange.isSome && decide ((0.25 : Float) < v.vel)

end Shifting

example : ∃ (_ : Env) (_ : LawfulDijkstra) (s : Sim Float) (v : Vehicle Float), TimedReach True s ∧ s.getVehicle ⟨0, 1⟩ = .ok v ∧
    v.linkId = some ⟨1, 1⟩ ∧ v.laneChange.isSome = true ∧ (0.25 : Float) < v.vel := by
  have h : @Shifting.test Town.env = true := by decide +kernel
  let _ := Town.env
  unfold Shifting.test at h
  split at h
  · cases h
  · next s hs =>
    split at h
    · cases h
    · next v hv =>
      simp only [Bool.and_eq_true, decide_eq_true_eq] at h
      exact ⟨Town.env, Search.lawful _, s, v, timed_run _ _ _ .new Shifting.ops_timed hs, getVeh_ok.2 hv, h.1.1, h.1.2, h.2⟩

end TrafficSim
