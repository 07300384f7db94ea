# Formal model of `traffic-simple` in Lean 4

## Shape of the model

The model lives in `lean/Verif/Model/`, one module per source file.  Every definition cites the file
and lines it models.

* **Numbers.**  The whole model is polymorphic in a number type `F` with `[Flt F]`, a class that
  lists the primitive `f64` operations the code uses and assumes *no law* about them.  This gives
  three tiers of theorem.
  * *Tier 1*: for every `F` and every `[Flt F]`.  Holds for IEEE `f64` with rounding, infinities
    and NaN, because nothing is assumed.
  * *Tier 2*: at `F := ℝ`.  Exact arithmetic; rounding is not modelled.
  * *Tier 3*: at `F := Float`.  Lean's `Float` has a logical definition of IEEE binary64 in core
    (`Init/Data/Float/Model`), so concrete floating-point facts are checked by the kernel.
    `Lemmas/Binary64.lean` proves of that definition that sums, differences and products are the
    exact ones rounded to the nearest binary64 number, and so are quotients and square roots,
    and what NaN and the infinities do.  Theorems for all `Float` inputs (`…_float`) rest on it.
* **Failure.**  A panic is an error value in `M α = Except Err α`.  Each `Err` constructor names one
  kind of panic site.  Integer underflow and shift overflow are errors, as in a debug build.
* **Loops.**  Loops over collections are folds or structural recursion.  Unbounded loops and
  recursions take a fuel argument; running out is the error `diverges`.
* **Mutation.**  `&mut` and `Cell` become returned values.
* **External crates.**  `slotmap` is modelled concretely (`Model/SlotMap.lean`).
  `pathfinding::dijkstra` is a parameter (`Env`), with its documented contract as a separate class;
  a concrete implementation is proved to meet the contract.  `dfs_reach` is modelled concretely.
  `rand` samples are an arbitrary input function.  `cgmath` vector operations are written out.
* **Specification.**  Each property is stated in `Verif/Props/`, using small specification
  predicates that do not mention the model's internal helpers where the property is observable.
  Helper lemmas are in `Verif/Lemmas/`.  Beside each theorem an `example` shows that its hypotheses
  are met by a concrete non-trivial case.

## Plan per property

| Id | Model part | Proof plan |
|----|------------|------------|
| C01 | Light | T1; invariant over `step`, induction over runs |
| C02 | Light | T1; ghost history of shown states and time steps; `since` equals the time in state recomputed from the history |
| C03 | Light | T1; case analysis of one step |
| C04 | Light | T1; ghost history as in C02 |
| C05 | Light | T1; ghost history as in C02 |
| C06 | Light | T2; ranking argument per phase, induction on phases |
| C07 | Light | T1; exact characterisation of `ok` |
| C08 | Simulation, Light | T1; fold over lights and their links |
| C09 | Simulation | T1; main structural invariant over all public operations |
| C10 | Simulation | T1; Hoare-style rules for `M`, excluded error set |
| C11 | SlotMap, Simulation | T1; ghost set of issued keys |
| C12 | Simulation | T1 |
| C13 | Simulation | T1 for the acceleration, T2 and T3 for the motion |
| C14 | Simulation, Pathfinding | T1; route-chain invariant plus one-step relation |
| C15 | Simulation | expected false: `advance` does not check `can_exit`; witness and partial |
| C16 | Simulation | T1 |
| C17 | Simulation | T1 |
| C18 | Simulation | T1 |
| C19 | Simulation | T1 |
| C20 | Vehicle, Simulation | T2 and T3 |
| C21 | Acceleration, Simulation | T2 and T3; invariant `acc ≤ max_acc` through all folds |
| C22 | Acceleration, Simulation | T2 and (above the limit) T3; polynomial inequality lifted through `step` |
| C23 | Acceleration | T2 and T3 |
| C24 | Acceleration | T2; optimality against arbitrary motion profiles; witness outside the domain |
| C25 | Link, Simulation | T1; invariant of the traversal |
| C26 | Link | T1/T2; traversal visits vehicles in order |
| C27 | Link, Vehicle | expected false: queue number survives a path change; witness and partial |
| C28 | Vehicle, Simulation | T1; invariant on the counter |
| C29 | Link | T1; rotation of the conflict list |
| C30 | Link | T1; soundness of the recursive search against an inductive specification |
| C31 | Link | T1; decision logic |
| C32 | Link | T2; explicit fuel bound |
| C33 | Group | T1; closure characterisation |
| C34 | Group, Simulation | T1 |
| C35 | Group | expected false for changes to the right; witness, partial for the left |
| C36 | LinkCurve, LUT, Group | T1; empty projection as witness |
| C37 | LinkCurve | T2 |
| C38 | LinkCurve, Algorithms | T2; loop invariant |
| C39 | Algorithms | T2; loop invariant |
| C40 | Algorithms | T2; stack invariant |
| C41 | Bezier | T2; `ring` |
| C42 | Bezier, Cubic | T2; `HasDerivAt` |
| C43 | Algorithms | T2 |
| C44 | Cubic | T2 |
| C45 | Simulation, Vehicle | T2 |
| C46 | Vehicle | T2 |
| C47 | Util | T2 |
| C48 | LUT | T2 |
| C49 | Pathfinding | T1 |
| C50 | Pathfinding | T1/T2 |
| C51 | Pathfinding | T1 with the Dijkstra contract |
| C52 | Pathfinding | expected false: stale matrix; witness and partial |
| C53 | Simulation | expected false in the "if" direction; soundness, witness, partial completeness |
| C54 | Conflict | T1 symmetry, T2 bounds |
| C55 | Conflict | T2 |
| C56 | Simulation | T2, T3 |
| C57 | Simulation | T1 |
| C58 | Link | T2 |
| C59 | Util | pure |
| C60 | Simulation | T1; invariant |
| C61 | Vehicle, Pathfinding | T1; invariant on the permission to leave |
| C62 | Simulation | T1; what each operation does to the network |
| C63 | Link, Simulation | T1; the entry decision at an open line |
| C64 | Link, Simulation | T1; the model's acceleration is among those whose least is taken, T2 for the bound |
| C65 | Link, Simulation | T1/T2; the first vehicle upstream of a link follows the last one on it |
| C66 | Link, Simulation | T1/T2; as C65, for speed limits |
| C67 | Link, Group, Vehicle | T1/T2; the first vehicle behind an obstacle on a neighbouring lane |
| C68 | Simulation | T2; every phase of a step succeeds; fuel bounds |
| C69 | Simulation | T1/T2; every operation succeeds with valid arguments; induction over programs |
| C70 | Vehicle, Simulation | T1; what becomes of each vehicle when paths are chosen |
| C71 | Vehicle, Simulation | T1 |
| C72 | Vehicle, Cubic | T2; straight links |
| C73 | Pathfinding | T1; exact set of planned paths and meaning of the four distances |
| C74 | Pathfinding | T1 with a search that returns routes of least cost |
| C75 | Group, Vehicle | T2; straight links |
| C76 | Link, Vehicle, Acceleration | T2, invariant of runs: full braking leaves a gap, on one link and across links; T3 for the documented sign of the deceleration |
| C77 | Link, Vehicle, Acceleration | T2, the same invariant for a line |
| C78 | Link, Vehicle, Acceleration, Simulation | T1, induction over the links ahead |
| C79 | Vehicle, Pathfinding, Simulation | T1 for the permission to leave; T2 for arrival (the rest of the way shrinks) and for staying (C77) |
| C80 | Acceleration, Vehicle, Simulation | T2, invariant of whole executions with bounds on the operations |
| C81 | Light, Link, Vehicle, Simulation | T2, C77 with a vehicle that may change its route but not the link it must stop on |
| C82 | Simulation, Link, Vehicle | T2 for the braking (C23, C64); T3 for the witness that there need be no room |
| C83 | Simulation, Link, Conflict, Vehicle | T1 for the causes; T2 for the start |
| C84 | Simulation, Link, Vehicle | T2 for all vehicles on roads of long links without branches (`C84_road_partial`), and for two vehicles on one link or two links in a row (C76); T3 for the witnesses that others are not seen |
| C85 | Simulation, Link, Vehicle | T1 on networks with unique ways; T3 for the witness |
| C86 | Vehicle, Simulation | T1 for what happens past the end of a link; T2, invariant of whole executions, with C80; T3 for the witness |
| C87 | Link, Vehicle, Simulation | T1: the search for a gap says yes (`checkGap_false`), and the first vehicle at the line is asked (`StepRun.goes`) |
| C88 | Link | T3 for the witness; the positive part is C87 |
| C89 | Vehicle, Pathfinding, Simulation | T2: the vehicle keeps being able to stop (`Caught.step`), and its plan does not change (`Trap.step`); where it arrives (`C89_arrives_partial`), plans are first parts of the only road (`Chain`, `Journey`), the vehicle follows its plan before it gets near the end of its route (`Travel.first`), and so it is slowed down at low speeds by nothing closer than 3 m (`Travel.cause`) |
| C90 | Conflict, Simulation, Vehicle | T1, invariant: what vehicles see does not change while they stand (`Gridlock.step`); T3 for the witness, with conflict points that are computed beforehand (`Lemmas/Overlap.lean`); T2 for the circle, by C83, and for networks without circles (`C90_flows_partial`, an order on the vehicles) |
| C91 | Conflict, Simulation, Vehicle | T3 for the witness, by `C90_gridlock` with one vehicle; T2 for the rest, by C83 |
| C92 | Conflict, Simulation, Vehicle | T2, invariant: the vehicle keeps being able to stop before the region (`Yields.keeps`, with C55); T3 for the witness, with `Lemmas/Overlap.lean` |
| C93 | Conflict, Curve | T2: the projection on to a straight link is the foot of the perpendicular on its line (`Straight.project`), and the search over the samples (`scan_straight`); T2 for the witness |
| C94 | Conflict, Link, Vehicle | T2, by C83: who is seen from a position past the end of a link has been let in (`Sees.letIn`); T3 for the witness |
| C95 | Vehicle, Acceleration | T2, by C20 and the integral of the speed over the time of the step (`driven`); T3 for the witness |
| C96 | Link, Acceleration, Vehicle | T2, invariant of steps: at all times until the next decision the square of the speed is below a bound that depends on the distance (`Under`, `GoesTo.slowed`); T3 for the witness |
| C97 | Sim, Vehicle | T2, decisions come before the time of a step is used, so both executions share them; then the motion between two decisions is that of a constant acceleration (`Moved.exact`, `split_motion`); T3 for the witness |
| C98 | Light, Sim, Vehicle | T2, a movement is green for longer than a vehicle goes without a decision in each round of phases (`LightLive.green_window`, after C06); at each decision on green the vehicle enters the next link (`Heading.goes`), and until then it keeps before the line (`Heading.holds`, `Heading.drifts`) |
| C99 | Link, Sim, Vehicle | T2, before the line a vehicle that has not queued is held back as at a closed link (`Heading.waits`), queues at a decision and enters at the next one (`Heading.asks`); further away the line is all a vehicle that is alone follows (`Hindrance.line`), so that it gains a fixed distance with each decision (`Heading.gains`); T1 for standing short of the line (`Short.step`), T3 for the witness |
| C100 | Link, Sim | T2, a vehicle is inserted in order (`insertIdx_ordered`), and each way of moving one to another link is a removal and an insertion (`calculateLaneChanges_lined`, `advance_ordered`); in between the positions change in order; on roads by the invariant of C84 (`RoadInv`); T1 for standing for ever (`jam_step`), T3 for the witness |
| C101 | Sim, SlotMap | T1 for the negation, by induction on the number of calls (`addVehicle_total`, `addVehicle_grows`); T2 for roads, by adding up the gaps of the invariant of C84 (`RoadInv`, `row_length`) |
| C102 | Sim, Vehicle, Acceleration | T2, by induction on the calls (`exec_origin`, `exec_frozen`), with the braking distance as what is left of the way (`Held.slows`) |
| C103 | Link, Vehicle, Acceleration, Sim | T3, the distance of a search is at least a multiple of 2⁻¹⁰ m that grows with each link, as multiples of 2⁻¹⁰ below 2⁴³ are numbers of the format and rounding does not pass them (`add_grid`, `Rounding.ge_rep`); the time that is searched for by intervals (`Within`, `minReachTime_within`); T1 for searches that never end, T3 for the witness |
| C104 | Sim, Vehicle, Acceleration, Link | T3, by induction on the calls (`exec_origin`, `exec_network`): the speed is at most 125 m/s, 8 m/s for each second on the clock and 0.01 m/s for each step since accelerations were recomputed, or the acceleration is not positive (`Pacing`); steps are counted by multiples of 2⁻¹⁰ on the clock, errors are at most 2⁻¹¹ (`Rounding.close`); then C103. The bound on speeds holds without conditions on the network (`pace_step`), also with groups and changes of lanes (`SpeedBinary`). `Endless` imports `Along` only so that their evaluations in the kernel do not run at the same time, which takes too much memory |

## Which code is modelled

All of `/repo/src` by hand, function by function, at the pinned commit:

| Source | Model |
|--------|-------|
| `lib.rs` (key types) and the crate `slotmap` | `Model/SlotMap.lean` |
| `math/util.rs`, `math/cubic.rs`, `math/lut.rs` | `Model/Math.lean` |
| `math/curve.rs`, `math/curve/bezier.rs`, `math/curve/algorithms.rs`, `link/curve.rs` | `Model/Curve.lean` |
| `util.rs` | `Model/Util.lean` |
| `light.rs` | `Model/Light.lean` |
| `group.rs` | `Model/Group.lean` |
| `conflict.rs` | `Model/Conflict.lean` |
| `link.rs` | `Model/Link.lean`, the types in `Model/Types.lean` |
| `vehicle.rs`, `vehicle/dynamics.rs` | `Model/Vehicle.lean`, the types in `Model/Types.lean` |
| `vehicle/acceleration.rs` | `Model/Acceleration.lean` |
| `vehicle/pathfinding.rs` | `Model/Pathfinding.lean` |
| `simulation.rs` | `Model/Simulation.lean` |

Not modelled:

* getters that return a field and the iterators `iter_links`, `iter_vehicles`, `iter_lights`;
* `debug.rs`, the feature `debug` and everything behind it;
* `Display for Interval`, the derived traits, and the implementation of the curve trait for `&C`;
* functions under `#[cfg(test)]`.

Simplifications, each repeated at its definition:

* `&mut`, `Cell`, `Rc` and the reuse of buffers are values that are passed on.
* Curve methods are pure functions.  A user-supplied curve that is not one is outside the model.
* Slot map versions are unbounded; the code wraps them at 2³² and then reuses handles (C11 is about fewer reuses than that).
* `SparseSecondaryMap` is an association list.  `stop_cnt` and the step counter `frame` are unbounded.
* `usize` is 64 bits wide.  Arithmetic overflow is an error, as in a debug build.  A release build wraps instead.
* Out-of-bounds accesses through `get_unchecked`, which are undefined behaviour in Rust, are errors (C36).
* At `ℝ`, `x / 0 = 0` and `√x = 0` for `x < 0`.
* At `Float`, `Float.ceil` is opaque to the kernel.  No proof uses its value.

## How reachable simulations are described

`Op F` lists the public operations that change a simulation, `Sim.exec` runs one.  `Reach strict s`
says that `s` results from a new simulation by operations that succeed; a light that is added must have
been built through its public interface and name existing links.  With `strict := True` the links of a
group are different, at most 16, and in no other group, and a light has a phase and at most 64
movements.  Outside these limits the code panics or overflows.
`Reach.inv` (`Lemmas/Inv.lean`) is the structural invariant from which most T1 theorems start.

Termination is treated apart from correctness.  A result `.ok` means that the fuel sufficed;
C32, C40, C68 and C69 prove that some fuel suffices and that more does not change the result.

`Env` holds the fuel and the search `pathfinding::dijkstra`.  What is assumed of the search:

* `LawfulDijkstra`: it fails only if the successor function fails or fuel runs out; a route it
  finds is a path to a goal; if it finds none there is none.  Proved of `Search.env` and `Search.full` (`Lemmas/Search.lean`).
* `SearchEnds`: on finite graphs some fuel suffices.  Proved of `Search.full`.
* `BestDijkstra`: the route found is one of least cost.  Proved of both (`Lemmas/Dijkstra.lean`).

Each theorem takes only those it needs as instance arguments.  The classes are not axioms.
`Search.env` implements Dijkstra's algorithm, so the assumptions can be met; that the crate
`pathfinding` meets them is trusted.

Examples at `Float` run a concrete program in the kernel (`decide +kernel`, `Lemmas/Demo.lean`,
`trial_reach`).  Examples at `ℝ` are built with `program_runs` (`Props/Calls.lean`), because real
arithmetic does not compute.

## Claims that are false of the code

Each has a machine-checked witness, most of them reachable simulations at `Float`.

| Id | Finding | Witness |
|----|---------|---------|
| C13 | a stopped frozen vehicle is moved sideways by a lane change | `C13_can_shift` |
| C15 | a vehicle leaves at the end of a link that is not its destination | `C15_leaves_elsewhere` |
| C23 | a vehicle with maximum acceleration below 0.6 does not brake fully at the minimum gap | `C23_weak_vehicle_brakes_less` |
| C23 | a faster leader can lead to stronger braking, once the desired gap is negative | `C23_leader_not_monotone` |
| C24 | above its maximum speed a vehicle's reach time is overestimated | `C24_speeding_overestimates` |
| C25 | a vehicle that overruns a line marks the closed link as entered | `C25_overrun` |
| C27 | a place in the queue for one link admits a vehicle to another | `C27_stale` |
| C30 | gap acceptance misses a vehicle on a faster upstream link | `C30_missed` |
| C35 | lane changes to the right use the projection of another pair of lanes | `C35_right_wrong` |
| C36 | a projection without samples is accessed in a step (undefined behaviour) | `C36_projection_empty_reachable` |
| C50 | once a vehicle is past the end of a lane, that lane is the cheapest | `C50_past_end_is_best` |
| C52 | paths to the former destination stay if the new one cannot be reached | `C52_stale` |
| C53 | destinations reached only by a last lane change are not listed | `C53_missed` |
| C76 | with a negative comfortable deceleration, as documented at `src/vehicle.rs:76`, vehicles ignore what is ahead until 2 m before it | `C76_negative_deceleration_float`, `C76_collision` |
| C79 | a vehicle that is sent to the link it is on, or again to the end of the path it follows, never gets permission to leave: `set_destination` withdraws it, and `choose_path` does not take a path that the vehicle already follows | `C79_no_permission`, `C79_never_leaves` |
| C82 | `do_lane_change` does not check that there is room: `can_insert_vehicle`, written for this, is used nowhere. Two vehicles side by side come to overlap when one is sent to the lane of the other | `C82_crash` |
| C84 | A vehicle enters at most one more link each time accelerations are recomputed, and what is beyond links that it has not entered is not seen if nothing stands on these. On a road of short links a vehicle drives into another that stands on its lane 26 m ahead | `C84_short_links` |
| C84 | A vehicle is only known to the link of its middle and to those that it has entered. Its rear may still be on the link before a branch: one that takes the other branch drives into it, unless the two branches are declared as converging | `C84_branch` |
| C85 | The search upstream goes along all ways, and a vehicle is found by each way from the link of its middle. The distance along a shorter way that is not on its route makes a vehicle brake with more than 10 m/s² | `C85_detour` |
| C86 | `advance` leaves one link behind in a step. On links that are shorter than the way in a step, a vehicle gets ahead of its link, off the road where the road bends, and is put back in a later step: 6.4 m in a step in which it drives 3.1 m | `C86_off_road` |
| C88 | `apply_stoplines` passes `vehicle.offset(self.length())` to `can_enter` although the position already counts to the end of the link: the gap that is demanded is that for a way longer by the link where the vehicle waits | `C88_waits` |
| C89 | ways are planned until a link that starts 200 m or more away; where the plan ends with a link shorter than half of the vehicle, the vehicle stops at the end of the plan with its middle still on the link before, and as plans are extended only when a vehicle gets on to a link, it stays for ever | `C89_trapped`, `C89_never_arrives` |
| C90 | at each conflict point the vehicle further ahead goes first, also when it stands. Four cars on roads that each cross the next stop for each other and never move again | `C90_gridlock`, `C90_stuck` |
| C91 | the vehicle that goes first at a conflict point may be the vehicle itself. Where two links of a route are declared as converging, a lone car gives way to itself and never moves again | `C91_self` |
| C92 | A vehicle counts at a conflict point only while its middle is on the link (or upstream). A truck whose rear still stands on the crossing, with its middle on the next link, is forgotten: a car on the crossing road drives into it | `C92_through` |
| C93 | The nearest point on the other link is searched for beyond its ends, where straight links are continued as lines. Of two links in a line, 900 m apart, about all of one is in conflict with the other | `C93_beyond` |
| C94 | Where a conflict region begins at the start of its link, vehicles before the link count there, also those that stand at it because it is closed, while anybody is on the link. A car waits before an empty crossing for one that stands at a closed link | `C94_blocked` |
| C95 | A vehicle that comes to a stand within a step is moved as if it braked evenly over the whole step, however hard it brakes: 4.4 m in a step of 2 s instead of 1.6 m | `C95_overshoots` |
| C96 | The limit of a link that comes after short links is seen too late: a vehicle gets with 8.8 m/s to where 5 m/s are allowed, though it could have slowed down comfortably | `C96_too_fast` |
| C97 | A vehicle that comes to a stand stands 18 cm further if the time is one step instead of two, though no decisions are made between them | `C97_differs` |
| C99 | A vehicle that is alone, and must give way at the next link within a metre of the line, stops 1.5 m before it and never moves again | `C99_stuck` |
| C100 | A vehicle runs past one that has just started and is frozen; it is still listed behind it and, with a free road ahead, never moves again | `C100_passed` |
| C101 | `add_vehicle` does not look whether there is room: any number of vehicles may be added to a link, all at its beginning | `C101_crowded` |
| C103 | The time that a vehicle with maximum acceleration 0 needs to get past a crossing is 0/0. No gap is longer than that, so `check_gap` looks for one further and further upstream; where links form a ring it calls itself until the stack overflows | `C103_waits` |

## Mutation tests

`seeded/LOG.jsonl` records wrong programs.  Each is a small edit of a definition in a copy of
the model.  The copy is built; `theorems_failed` lists the theorems and lemmas whose proof breaks,
`claims_lost` the theorems of the manifest that then depend on a broken proof.  In the copy the
kernel evaluations of examples are replaced by placeholders, so only general proofs count.
`theorems_tightened` names theorems that were strengthened because the edit had survived.
A `note` says where a copy was not built to the end.
The copies are of earlier states of the proofs, so claims added later are missing from `claims_lost`.

## Trusted base

* The Lean 4.33.0 kernel.
* Axioms.  The theorems in the manifest depend on `propext`, `Classical.choice` and
  `Quot.sound`, except: `C33_ungrouped`, `C36_projection_empty`, `LaneDists.C50_combine` and
  `C18_remove_invalid` on `propext` only; `C36_curve_partial`, `C36_projection_iff`, `C31_not_mutual`,
  `C31_precedence`, `LaneDists.C50_offset` and `C69_control` on `propext` and `Quot.sound` only.
  No axiom is added; there is no `sorry`, `native_decide` or `bv_decide`.
* The reading of the Rust source by hand: the model is not extracted from the code.
* The documented behaviour of the crates `slotmap`, `arrayvec`, `itertools`, `smallvec`, `cgmath`,
  `pathfinding` and `rand`, as modelled.
* For tier 2, the step from `f64` to `ℝ`.
* For tier 3, Lean's logical definition of binary64.
