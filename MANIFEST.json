{
 "claims": [
  {
   "property": "C01",
   "status": "proved",
   "theorems": [
    "TrafficSim.C01_conflicting_never_both"
   ],
   "note": "every [Flt F]; every interleaving of building and stepping"
  },
  {
   "property": "C02",
   "status": "proved",
   "theorems": [
    "TrafficSim.C02_red_clearance"
   ],
   "note": "every [Flt F]"
  },
  {
   "property": "C03",
   "status": "proved",
   "theorems": [
    "TrafficSim.C03_legal_order"
   ],
   "note": "every [Flt F]"
  },
  {
   "property": "C04",
   "status": "proved",
   "theorems": [
    "TrafficSim.C04_amber_held"
   ],
   "note": "every [Flt F]"
  },
  {
   "property": "C05",
   "status": "proved",
   "theorems": [
    "TrafficSim.C05_phase_order"
   ],
   "note": "every [Flt F]"
  },
  {
   "property": "C06",
   "status": "proved",
   "theorems": [
    "TrafficSim.C06_live"
   ],
   "note": "real arithmetic"
  },
  {
   "property": "C07",
   "status": "proved",
   "theorems": [
    "TrafficSim.C07_step_ok_iff"
   ],
   "note": "every [Flt F]"
  },
  {
   "property": "C37",
   "status": "proved",
   "theorems": [
    "TrafficSim.C37_through_points"
   ],
   "note": "real arithmetic"
  },
  {
   "property": "C38",
   "status": "proved",
   "theorems": [
    "TrafficSim.C38_straight",
    "TrafficSim.C38_builds"
   ],
   "note": "real arithmetic"
  },
  {
   "property": "C39",
   "status": "proved",
   "theorems": [
    "TrafficSim.C39_equidistant"
   ],
   "note": "real arithmetic"
  },
  {
   "property": "C40",
   "status": "proved",
   "theorems": [
    "TrafficSim.C40_samples",
    "TrafficSim.C40_terminates"
   ],
   "note": "real arithmetic"
  },
  {
   "property": "C41",
   "status": "proved",
   "theorems": [
    "TrafficSim.C41_ends",
    "TrafficSim.C41_subdivide",
    "TrafficSim.C41_reverse",
    "TrafficSim.C41_convert",
    "TrafficSim.C41_segment"
   ],
   "note": "real arithmetic"
  },
  {
   "property": "C42",
   "status": "proved",
   "theorems": [
    "TrafficSim.C42_segment",
    "TrafficSim.C42_quadratic",
    "TrafficSim.C42_cubic",
    "TrafficSim.C42_cubicFn"
   ],
   "note": "real arithmetic"
  },
  {
   "property": "C43",
   "status": "proved",
   "theorems": [
    "TrafficSim.C43_chain",
    "TrafficSim.C43_residual",
    "TrafficSim.C43_initial",
    "TrafficSim.C43_line"
   ],
   "note": "C43_chain and C43_residual for every [Flt F]; the others in real arithmetic"
  },
  {
   "property": "C44",
   "status": "proved",
   "theorems": [
    "TrafficSim.C44_fit",
    "TrafficSim.C44_translate"
   ],
   "note": "real arithmetic"
  },
  {
   "property": "C47",
   "status": "proved",
   "theorems": [
    "TrafficSim.C47_lerp_inverse",
    "TrafficSim.C47_distance",
    "TrafficSim.C47_overlap",
    "TrafficSim.C47_disc_shift"
   ],
   "note": "real arithmetic"
  },
  {
   "property": "C48",
   "status": "proved",
   "theorems": [
    "TrafficSim.C48_lookup",
    "TrafficSim.C48_outside"
   ],
   "note": "real arithmetic"
  },
  {
   "property": "C59",
   "status": "proved",
   "theorems": [
    "TrafficSim.C59_rotatedRange"
   ],
   "note": "natural numbers"
  },
  {
   "property": "C23",
   "status": "partial",
   "theorems": [
    "TrafficSim.C23_range",
    "TrafficSim.C23_full_braking",
    "TrafficSim.C23_weak_vehicle_brakes_less",
    "TrafficSim.C23_gap_monotone",
    "TrafficSim.C23_leader_monotone_partial",
    "TrafficSim.C23_leader_not_monotone",
    "TrafficSim.C23_range_float",
    "TrafficSim.C23_full_braking_float",
    "TrafficSim.C23_gap_monotone_float",
    "TrafficSim.C23_leader_monotone_float_partial"
   ],
   "note": "Real arithmetic, and the names with float in binary64 with every rounding. Proved: the bound, monotonicity in the gap, full braking at the minimum gap when the maximum acceleration is at least 0.6, leader monotonicity while the desired gap is not negative. False of the code: full braking for a maximum acceleration below 0.6, and leader monotonicity when the leader is so much faster that the desired gap is negative; both negations are proved with witnesses"
  },
  {
   "property": "C24",
   "status": "proved",
   "theorems": [
    "TrafficSim.C24_least",
    "TrafficSim.C24_speeding_overestimates"
   ],
   "note": "real arithmetic; the second theorem shows what happens outside the quantifier (speed above the maximum)"
  },
  {
   "property": "C33",
   "status": "proved",
   "theorems": [
    "TrafficSim.C33_reachable",
    "TrafficSim.C33_ungrouped"
   ],
   "note": "every [Flt F]; groups of at most 16 lanes"
  },
  {
   "property": "C35",
   "status": "partial",
   "theorems": [
    "TrafficSim.C35_left_partial",
    "TrafficSim.C35_right_wrong"
   ],
   "note": "every [Flt F]. Proved for changes to a lane further left. False of the code for every change to a lane further right: C35_right_wrong shows that LinkGroup::projection then uses the mapping of another pair of lanes"
  },
  {
   "property": "C36",
   "status": "partial",
   "theorems": [
    "TrafficSim.C36_curve_partial",
    "TrafficSim.C36_projection_iff",
    "TrafficSim.C36_projection_empty",
    "TrafficSim.C36_projection_empty_reachable"
   ],
   "note": "Proved for link curves and every f64 position. For lane projections the access is in bounds exactly if the projection has samples; that this can fail is shown with a concrete reachable simulation whose step accesses an empty projection. Lookup tables use checked indexing"
  },
  {
   "property": "C45",
   "status": "proved",
   "theorems": [
    "TrafficSim.C45_start",
    "TrafficSim.C45_advance"
   ],
   "note": "real arithmetic"
  },
  {
   "property": "C46",
   "status": "proved",
   "theorems": [
    "TrafficSim.C46_heading"
   ],
   "note": "real arithmetic"
  },
  {
   "property": "C29",
   "status": "proved",
   "theorems": [
    "TrafficSim.C29_cache_irrelevant"
   ],
   "note": "every [Flt F]"
  },
  {
   "property": "C31",
   "status": "proved",
   "theorems": [
    "TrafficSim.C31_not_mutual",
    "TrafficSim.C31_precedence"
   ],
   "note": "every [Flt F]"
  },
  {
   "property": "C50",
   "status": "proved",
   "theorems": [
    "TrafficSim.LaneDists.C50_combine",
    "TrafficSim.LaneDists.C50_offset",
    "TrafficSim.LaneDists.C50_cost_antitone",
    "TrafficSim.LaneDists.C50_past_end_is_best"
   ],
   "note": "real arithmetic for the costs; C50_past_end_is_best shows what happens once the vehicle is past the end of the lane"
  },
  {
   "property": "C54",
   "status": "proved",
   "theorems": [
    "TrafficSim.C54_convergence",
    "TrafficSim.C54_reachable"
   ],
   "note": "real arithmetic"
  },
  {
   "property": "C56",
   "status": "proved",
   "theorems": [
    "TrafficSim.C56_only_factor",
    "TrafficSim.C56_range",
    "TrafficSim.C56_range_float"
   ],
   "note": ""
  },
  {
   "property": "C58",
   "status": "proved",
   "theorems": [
    "TrafficSim.C58_insert",
    "TrafficSim.C58_remove"
   ],
   "note": "real arithmetic"
  },
  {
   "property": "C09",
   "status": "proved",
   "theorems": [
    "TrafficSim.C09_one_link"
   ],
   "note": "every [Flt F], every lawful search; every reachable simulation (Reach.inv)"
  },
  {
   "property": "C10",
   "status": "proved",
   "theorems": [
    "TrafficSim.C10_no_dangling",
    "TrafficSim.C10_step_errors"
   ],
   "note": "every [Flt F], every lawful search; C10_step_errors lists the failures that remain possible for well formed groups and lights"
  },
  {
   "property": "C11",
   "status": "proved",
   "theorems": [
    "TrafficSim.C11_vehicle_fresh",
    "TrafficSim.C11_link_fresh",
    "TrafficSim.C11_light_fresh",
    "TrafficSim.C11_vehicle_valid",
    "TrafficSim.C11_never_back",
    "TrafficSim.C11_link_stays"
   ],
   "note": "every [Flt F], every lawful search"
  },
  {
   "property": "C12",
   "status": "proved",
   "theorems": [
    "TrafficSim.C12_set_frozen",
    "TrafficSim.C12_step"
   ],
   "note": "every [Flt F], every lawful search"
  },
  {
   "property": "C17",
   "status": "proved",
   "theorems": [
    "TrafficSim.C17_frame"
   ],
   "note": "every [Flt F], every lawful search"
  },
  {
   "property": "C18",
   "status": "proved",
   "theorems": [
    "TrafficSim.C18_remove",
    "TrafficSim.C18_remove_invalid"
   ],
   "note": "every [Flt F], every lawful search"
  },
  {
   "property": "C19",
   "status": "proved",
   "theorems": [
    "TrafficSim.C19_add"
   ],
   "note": "every [Flt F], every lawful search"
  },
  {
   "property": "C08",
   "status": "proved",
   "theorems": [
    "TrafficSim.C08_obeys",
    "TrafficSim.C08_uncontrolled",
    "TrafficSim.C08_lights"
   ],
   "note": "every [Flt F], every lawful search"
  },
  {
   "property": "C13",
   "status": "partial",
   "theorems": [
    "TrafficSim.C13_brakes",
    "TrafficSim.C13_speed",
    "TrafficSim.C13_stays",
    "TrafficSim.C13_stays_float",
    "TrafficSim.C13_can_shift"
   ],
   "note": "C13_brakes for every [Flt F]; C13_speed and C13_stays in real arithmetic, C13_stays_float in binary64. Proved: full braking, and that a stopped frozen vehicle that does not change lanes keeps its place. False of the code: that a stopped frozen vehicle never moves; C13_can_shift is a reachable simulation in which it is moved to another lane"
  },
  {
   "property": "C14",
   "status": "proved",
   "theorems": [
    "TrafficSim.C14_moves_along"
   ],
   "note": "every [Flt F], every lawful search"
  },
  {
   "property": "C15",
   "status": "partial",
   "theorems": [
    "TrafficSim.C15_partial",
    "TrafficSim.C15_leaves_elsewhere"
   ],
   "note": "every [Flt F]. False of the code: C15_leaves_elsewhere is a reachable simulation in which a vehicle leaves on a link that is not its destination. Proved: a vehicle with permission to leave leaves only at its destination"
  },
  {
   "property": "C16",
   "status": "proved",
   "theorems": [
    "TrafficSim.C16_leaves"
   ],
   "note": "every [Flt F], every lawful search"
  },
  {
   "property": "C20",
   "status": "proved",
   "theorems": [
    "TrafficSim.C20_speed",
    "TrafficSim.C20_motion",
    "TrafficSim.C20_forward",
    "TrafficSim.C20_speed_float",
    "TrafficSim.C20_number_float",
    "TrafficSim.C20_forward_float"
   ],
   "note": "Real arithmetic (C20_speed, C20_motion, C20_forward) and binary64 with every rounding, infinity and NaN (the others). In binary64 'not negative' and 'not backwards' are read as comparisons of the machine numbers: speeds are numbers with 0.0 <= v, and no position comes out below the one before"
  },
  {
   "property": "C21",
   "status": "proved",
   "theorems": [
    "TrafficSim.C21_limits",
    "TrafficSim.C21_limits_float"
   ],
   "note": "C21_limits in real arithmetic; C21_limits_float in binary64, the bounds being the machine numbers v + dt * -6 and v + dt * max_acc, for a finite time step and a finite maximum acceleration"
  },
  {
   "property": "C22",
   "status": "proved",
   "theorems": [
    "TrafficSim.C22_kept",
    "TrafficSim.C22_above",
    "TrafficSim.C22_above_float"
   ],
   "note": "C22_kept and C22_above in real arithmetic; C22_above_float in binary64: a vehicle at or above its limit is not faster after the step. That the limit itself is not exceeded by a slower vehicle is not proved in binary64, where rounding may exceed it by a last digit"
  },
  {
   "property": "C49",
   "status": "proved",
   "theorems": [
    "TrafficSim.C49_paths"
   ],
   "note": "every [Flt F], every lawful search; every reachable simulation"
  },
  {
   "property": "C57",
   "status": "proved",
   "theorems": [
    "TrafficSim.C57_no_recomputation",
    "TrafficSim.C57_no_path_update",
    "TrafficSim.C57_recomputation"
   ],
   "note": "every [Flt F], every lawful search"
  },
  {
   "property": "C61",
   "status": "proved",
   "theorems": [
    "TrafficSim.C61_can_exit"
   ],
   "note": "every [Flt F], every lawful search; every reachable simulation"
  },
  {
   "property": "C34",
   "status": "proved",
   "theorems": [
    "TrafficSim.C34_lane_changes"
   ],
   "note": "every [Flt F], every lawful search; every reachable simulation"
  },
  {
   "property": "C60",
   "status": "proved",
   "theorems": [
    "TrafficSim.C60_symmetric"
   ],
   "note": "every [Flt F], every lawful search; every reachable simulation"
  },
  {
   "property": "C62",
   "status": "proved",
   "theorems": [
    "TrafficSim.C62_network_grows"
   ],
   "note": "every [Flt F], every lawful search; every reachable simulation"
  },
  {
   "property": "C25",
   "status": "partial",
   "theorems": [
    "TrafficSim.C25_partial",
    "TrafficSim.C25_exact_partial",
    "TrafficSim.C25_overrun"
   ],
   "note": "every [Flt F]; C25_exact_partial in real arithmetic for links of positive length. Proved: a link that a vehicle newly claims before it has reached it is not closed. False of the code: that no link newly marked as entered is closed; C25_overrun is a reachable simulation in which a vehicle that is too fast drives on to a closed link"
  },
  {
   "property": "C27",
   "status": "partial",
   "theorems": [
    "TrafficSim.C27_admission_partial",
    "TrafficSim.C27_queues",
    "TrafficSim.C27_stale"
   ],
   "note": "every [Flt F]. Proved: only queued vehicles are admitted to a link where they must give way, and a vehicle queues only within the distance and stopped if it must stop. False of the code: that it queued for the link to which it is admitted; C27_stale is a reachable simulation in which a vehicle gets into a link where it must stop at 0.1 m/s or more all the time, with the queue number of another link"
  },
  {
   "property": "C28",
   "status": "proved",
   "theorems": [
    "TrafficSim.C28_unique",
    "TrafficSim.C28_order"
   ],
   "note": "every [Flt F], every lawful search; every reachable simulation"
  },
  {
   "property": "C63",
   "status": "proved",
   "theorems": [
    "TrafficSim.C63_open"
   ],
   "note": "every [Flt F], every lawful search; links not negligibly short (LongLinks)"
  },
  {
   "property": "C30",
   "status": "partial",
   "theorems": [
    "TrafficSim.C30_partial",
    "TrafficSim.C30_exact_partial",
    "TrafficSim.C30_uniform",
    "TrafficSim.C30_missed"
   ],
   "note": "Proved where the search for approaching vehicles goes far enough, and in exact arithmetic without that condition when no link is faster than the conflicting link. False in general: the search ends where the conflict cannot be reached in time at the greatest speed limit seen so far, so it misses a car on a faster link behind a slow one (C30_missed)."
  },
  {
   "property": "C32",
   "status": "proved",
   "theorems": [
    "TrafficSim.C32_search",
    "TrafficSim.C32_gap",
    "TrafficSim.C32_step",
    "TrafficSim.C32_straight"
   ],
   "note": "In exact arithmetic, for every network whose links have positive length and speed limit, cyclic or not: the search over upstream vehicles and the gap search end. C32_step concludes that a whole step of a reachable simulation ends, if the external shortest-path search ends on finite graphs and the search for the place of an obstacle ends on the curves of neighbouring lanes; C32_straight discharges the latter for straight links. For strongly curved links that inner search is not shown to end."
  },
  {
   "property": "C26",
   "status": "proved",
   "theorems": [
    "TrafficSim.C26_line",
    "TrafficSim.C26_held"
   ],
   "note": "For every reachable state and every network. The situation (first vehicle that the search upstream from the end of its last entered link comes to, apart from those that pass) is spelled out by FreeTo, Passes and MustStop, in terms of the state after lane changes. C26_line holds for every number type, C26_held in exact arithmetic."
  },
  {
   "property": "C51",
   "status": "proved",
   "theorems": [
    "TrafficSim.C51_finds"
   ],
   "note": "every number type, every lawful shortest-path search; link groups with at most 16 different links, none in two groups"
  },
  {
   "property": "C52",
   "status": "partial",
   "theorems": [
    "TrafficSim.C52_partial",
    "TrafficSim.C52_first_partial",
    "TrafficSim.C52_stale"
   ],
   "note": "the full claim is false of the code (C52_stale): the paths to the former destination stay when the new one cannot be reached; proved: no planned path contains the new destination or permits leaving, and a vehicle without former destination has no planned path"
  },
  {
   "property": "C53",
   "status": "partial",
   "theorems": [
    "TrafficSim.C53_partial",
    "TrafficSim.C53_sound",
    "TrafficSim.C53_missed"
   ],
   "note": "the full claim is false of the code (C53_missed): a destination that is only reached by a lane change after a connection is not listed; C53_partial says exactly which pairs are listed"
  },
  {
   "property": "C55",
   "status": "proved",
   "theorems": [
    "TrafficSim.C55_behind",
    "TrafficSim.C55_slowed",
    "TrafficSim.C55_slowed_exact",
    "TrafficSim.C55_first"
   ],
   "note": "any arithmetic for C55_behind and C55_slowed (which assumes the front positions are ordered by <=, as they are unless one is NaN); real arithmetic for the bounds on the acceleration; near means found by the bounded search upstream of the conflict region (Nears)"
  },
  {
   "property": "C64",
   "status": "proved",
   "theorems": [
    "TrafficSim.C64_follow",
    "TrafficSim.C64_follows"
   ],
   "note": "C64_follow for every number type (the model's acceleration is among those whose least is taken), C64_follows in exact arithmetic"
  },
  {
   "property": "C65",
   "status": "proved",
   "theorems": [
    "TrafficSim.C65_entering",
    "TrafficSim.C65_follows"
   ],
   "note": "which vehicle is the first to come to the link is spelled out by ClearTo, in terms of the state after lane changes; C65_entering for every number type, C65_follows in exact arithmetic"
  },
  {
   "property": "C66",
   "status": "proved",
   "theorems": [
    "TrafficSim.C66_limit",
    "TrafficSim.C66_slows"
   ],
   "note": "the situation is that of C65; C66_limit for every number type, C66_slows in exact arithmetic"
  },
  {
   "property": "C67",
   "status": "proved",
   "theorems": [
    "TrafficSim.C67_obstacle",
    "TrafficSim.C67_follows",
    "TrafficSim.C67_passing"
   ],
   "note": "C67_obstacle for every number type, C67_follows in exact arithmetic; C67_passing says in exact arithmetic when a vehicle can pass on a straight link"
  },
  {
   "property": "C68",
   "status": "proved",
   "theorems": [
    "TrafficSim.C68_step",
    "TrafficSim.C68_steps",
    "TrafficSim.C68_straight"
   ],
   "note": "exact arithmetic, every lawful shortest-path search that ends on finite graphs; C68_step and C68_steps for every network on which vehicles can be projected and the search for obstacles ends, C68_straight for straight links"
  },
  {
   "property": "C69",
   "status": "proved",
   "theorems": [
    "TrafficSim.C69_program",
    "TrafficSim.C69_calls",
    "TrafficSim.C69_connection",
    "TrafficSim.C69_control",
    "TrafficSim.C69_remove",
    "TrafficSim.C69_light",
    "TrafficSim.C69_vehicle",
    "TrafficSim.C69_destination",
    "TrafficSim.C69_laneChange"
   ],
   "note": "C69_program, C69_calls and C69_laneChange in exact arithmetic (ValidProgram and ValidArgs spell out the conditions); the others for every number type"
  },
  {
   "property": "C70",
   "status": "proved",
   "theorems": [
    "TrafficSim.C70_choice",
    "TrafficSim.C70_drive",
    "TrafficSim.C70_changing"
   ],
   "note": "C70_choice and C70_drive for every number type; Urgency, PathCost and Cheapest spell out the cost of a path, Chooses what becomes of the vehicle, Drives the rest of the step. C70_changing in exact arithmetic"
  },
  {
   "property": "C71",
   "status": "proved",
   "theorems": [
    "TrafficSim.C71_count"
   ],
   "note": "every number type; the count is a natural number in the model, a usize in the code"
  },
  {
   "property": "C72",
   "status": "proved",
   "theorems": [
    "TrafficSim.C72_asked",
    "TrafficSim.C72_chosen",
    "TrafficSim.C72_added",
    "TrafficSim.C72_place"
   ],
   "note": "exact arithmetic, straight links"
  },
  {
   "property": "C73",
   "status": "proved",
   "theorems": [
    "TrafficSim.C73_plan"
   ],
   "note": "every number type, every lawful shortest-path search; PlanAlong spells out the planned paths and their distances"
  },
  {
   "property": "C74",
   "status": "proved",
   "theorems": [
    "TrafficSim.C74_quickest"
   ],
   "note": "every number type, every shortest-path search that returns a route of least cost (BestDijkstra); Search.best shows that Dijkstra's algorithm does"
  },
  {
   "property": "C75",
   "status": "proved",
   "theorems": [
    "TrafficSim.C75_beside",
    "TrafficSim.C75_error"
   ],
   "note": "exact real arithmetic; links whose curves are straight (StraightNet) and have positive lengths; operation sequences meeting the documented preconditions (Reach True)"
  },
  {
   "property": "C76",
   "status": "proved",
   "theorems": [
    "TrafficSim.C76_no_collision",
    "TrafficSim.C76_across",
    "TrafficSim.C76_negative_deceleration_float",
    "TrafficSim.C76_collision"
   ],
   "note": "exact real arithmetic for the positive part; the conditions on the parameters are the structure Cautious; C76_no_collision: both vehicles stay on one link that does not lead to itself; C76_across: they pass from link to link, the front one on the link of the other or the next one of its route; the negative part (the documented sign of the comfortable deceleration) is proved for all binary64 numbers, with a reachable collision as witness"
  },
  {
   "property": "C77",
   "status": "proved",
   "theorems": [
    "TrafficSim.C77_stops"
   ],
   "note": "exact real arithmetic; the conditions on the parameters are the structure Stopping; the vehicle keeps having to stop (closed next link, next link where it must give way and has not queued, or end of the route without permission to leave) and is the first that does"
  },
  {
   "property": "C78",
   "status": "proved",
   "theorems": [
    "TrafficSim.C78_free"
   ],
   "note": "every number type, every lawful shortest-path search"
  },
  {
   "property": "C79",
   "status": "partial",
   "theorems": [
    "TrafficSim.C79_permission",
    "TrafficSim.C79_arrives_partial",
    "TrafficSim.C89_arrives_partial",
    "TrafficSim.C79_no_permission",
    "TrafficSim.C79_stranded",
    "TrafficSim.C79_never_leaves"
   ],
   "note": "the full claim is false of the code: C79_no_permission (every number type) and C79_stranded (exact arithmetic) say when a vehicle never leaves, C79_never_leaves is a witness. Proved: C79_permission (every number type), when a vehicle gets permission; C79_arrives_partial (exact arithmetic), that with permission and a clear way (Clear) it gets there and leaves. C89_arrives_partial is the same for ways that are not planned at once. Missing: ways with a choice of links or lanes"
  },
  {
   "property": "C80",
   "status": "proved",
   "theorems": [
    "TrafficSim.C80_limit",
    "TrafficSim.C80_from_rest",
    "TrafficSim.C80_always"
   ],
   "note": "exact real arithmetic; Within spells out the bounds on the operations of an execution for C80_always"
  },
  {
   "property": "C81",
   "status": "proved",
   "theorems": [
    "TrafficSim.C81_closed",
    "TrafficSim.C81_red"
   ],
   "note": "exact real arithmetic; the conditions on the parameters are the structure Stopping; the vehicle is the first on its link (First) and the link has no lane changes"
  },
  {
   "property": "C82",
   "status": "partial",
   "theorems": [
    "TrafficSim.C82_brakes_partial",
    "TrafficSim.C82_crash"
   ],
   "note": "the full claim is false of the code: C82_crash (binary64) is a witness. Proved: C82_brakes_partial (exact arithmetic), that a vehicle with less than 2 m to the next one brakes fully when accelerations are recomputed"
  },
  {
   "property": "C83",
   "status": "proved",
   "theorems": [
    "TrafficSim.C83_causes",
    "TrafficSim.C83_starts"
   ],
   "note": "C83_causes: every number type, every lawful shortest-path search; Cause and Hindrance spell out the causes and where they are. C83_starts: exact real arithmetic, positive maximum acceleration and comfortable deceleration"
  },
  {
   "property": "C84",
   "status": "partial",
   "theorems": [
    "TrafficSim.C84_road_partial",
    "TrafficSim.C84_short_links",
    "TrafficSim.C84_branch"
   ],
   "note": "the full claim is false of the code: two binary64 witnesses. The positive part, over the reals: C84_road_partial, for all vehicles on networks without branches, merges and lane changes, with long links and high speed limits, for any number of steps, with routes that do not end before the road does; for two vehicles on other networks, C76_no_collision and C76_across"
  },
  {
   "property": "C85",
   "status": "partial",
   "theorems": [
    "TrafficSim.C85_along_partial",
    "TrafficSim.C85_detour"
   ],
   "note": "the full claim is false of the code: C85_detour (binary64) is a witness. Proved: C85_along_partial (every number type, every lawful shortest-path search), on networks with unique ways; C83_causes says that these distances are the ones that count"
  },
  {
   "property": "C86",
   "status": "partial",
   "theorems": [
    "TrafficSim.C86_past_end",
    "TrafficSim.C86_within_partial",
    "TrafficSim.C86_off_road"
   ],
   "note": "the full claim is false of the code: C86_off_road (binary64) is a witness, on links of 1 m. Proved: C86_past_end (every number type, every lawful shortest-path search), and C86_within_partial in exact arithmetic, for whole executions without lane changes in which no vehicle gets further than the shortest link in a step. Missing from the latter: positions after lane changes"
  },
  {
   "property": "C87",
   "status": "proved",
   "theorems": [
    "TrafficSim.C87_rolls",
    "TrafficSim.C87_queues",
    "TrafficSim.C87_enters"
   ],
   "note": "every number type, every lawful shortest-path search; LongLinks: the distance back along the links from the end of a link grows with each link (true in exact arithmetic when lengths are positive). The converse, that vehicles go on only if they may, is C25, C26, C27 and C30"
  },
  {
   "property": "C88",
   "status": "partial",
   "theorems": [
    "TrafficSim.C88_waits",
    "TrafficSim.C87_enters"
   ],
   "note": "the full claim is false of the code: C88_waits (binary64) is a witness in which everything but the admission holds. C87_enters (every number type, every lawful shortest-path search) is the claim with the length of the link where the vehicle waits counted twice, as in the code"
  },
  {
   "property": "C89",
   "status": "partial",
   "theorems": [
    "TrafficSim.C89_trapped",
    "TrafficSim.C89_never_arrives",
    "TrafficSim.C89_arrives_partial"
   ],
   "note": "the full claim is false of the code: C89_trapped (exact arithmetic) says when a vehicle never gets past the end of the first link of its way, C89_never_arrives is a witness for all sequences of steps of at most 0.1 s. Proved: C89_arrives_partial (exact arithmetic), for a vehicle alone on a road without a choice, of any length, all of whose links are longer than half of the vehicle by some metres. Missing: ways with a choice of links or lanes, other vehicles, and roads some of whose links are shorter but where the plan does not end there"
  },
  {
   "property": "C90",
   "status": "partial",
   "theorems": [
    "TrafficSim.C90_gridlock",
    "TrafficSim.C90_stuck",
    "TrafficSim.C90_standstill_partial",
    "TrafficSim.C90_flows_partial"
   ],
   "note": "the full claim is false of the code: C90_gridlock (every arithmetic) says when vehicles stand for ever, C90_stuck is a witness with four vehicles for all sequences of finite steps. Proved: C90_standstill_partial (exact arithmetic), that when nobody moves somebody is held up by something other than a vehicle or some wait for each other in a circle. C90_flows_partial, that on networks without conflict points, lane groups and circles of links somebody starts or leaves. Missing: weaker conditions under which there are no such circles"
  },
  {
   "property": "C91",
   "status": "partial",
   "theorems": [
    "TrafficSim.C91_self",
    "TrafficSim.C91_starts_partial"
   ],
   "note": "the full claim is false of the code: C91_self is a witness, a vehicle on a road around a corner whose two links are declared as converging, for all sequences of finite steps. Proved: C91_starts_partial (exact arithmetic), that without such conflict points and lane groups the only vehicle starts. Missing: the same with lane groups, and in binary arithmetic"
  },
  {
   "property": "C92",
   "status": "partial",
   "theorems": [
    "TrafficSim.C92_waits_partial",
    "TrafficSim.C92_through"
   ],
   "note": "the full claim is false of the code: C92_through (binary64) is a witness. Proved: C92_waits_partial (exact arithmetic), for all sequences of steps in which the vehicle is far from the region or right behind a vehicle of the other link"
  },
  {
   "property": "C93",
   "status": "partial",
   "theorems": [
    "TrafficSim.C93_region_partial",
    "TrafficSim.C93_beyond"
   ],
   "note": "the full claim is false of the code: C93_beyond (exact arithmetic) is a witness. Proved: C93_region_partial (exact arithmetic), for all pairs of straight links, with lines instead of links. Missing: curved links"
  },
  {
   "property": "C94",
   "status": "partial",
   "theorems": [
    "TrafficSim.C94_let_in_partial",
    "TrafficSim.C94_blocked"
   ],
   "note": "the full claim is false of the code: C94_blocked (binary64) is a witness. Proved: C94_let_in_partial (exact arithmetic), for conflict regions that begin after the start of the link; the causes are those of C83"
  },
  {
   "property": "C95",
   "status": "partial",
   "theorems": [
    "TrafficSim.C95_exact_partial",
    "TrafficSim.C95_overshoots"
   ],
   "note": "the full claim is false of the code: C95_overshoots (binary64) is a witness. Proved: C95_exact_partial (exact arithmetic), the way is the integral of the speed if the vehicle does not stop within the step, and what it is instead if it does"
  },
  {
   "property": "C96",
   "status": "partial",
   "theorems": [
    "TrafficSim.C96_slows_partial",
    "TrafficSim.C96_too_fast"
   ],
   "note": "the full claim is false of the code: C96_too_fast (binary64) is a witness. Proved: C96_slows_partial (exact arithmetic), the bound on the speed on the way to the next link and on arrival there, for the first vehicle on its link. Missing: limits after the next link if links are long, vehicles behind others, and changes of lanes"
  },
  {
   "property": "C97",
   "status": "partial",
   "theorems": [
    "TrafficSim.C97_split_partial",
    "TrafficSim.C97_differs"
   ],
   "note": "the full claim is false of the code: C97_differs (binary64) is a witness. Proved: C97_split_partial (exact arithmetic), for vehicles that do not come to a stand and do not pass the link after the one they get to; the heading in the plane and the count of stops are not part of the claim"
  },
  {
   "property": "C98",
   "status": "proved",
   "theorems": [
    "TrafficSim.C98_green"
   ],
   "note": "exact arithmetic; the number of steps is the same for all networks, vehicles and states with that light. Assumed of the run: that steps succeed and that no other vehicle is before this one on its link"
  },
  {
   "property": "C99",
   "status": "partial",
   "theorems": [
    "TrafficSim.C99_let_in",
    "TrafficSim.C99_alone",
    "TrafficSim.C99_short",
    "TrafficSim.C99_stuck"
   ],
   "note": "the full claim is false of the code (C99_stuck, Float; C99_short, every number type): where the distance in which vehicles may queue is at most 2 m, a vehicle that stands short of it stands for ever. C99_let_in (exact arithmetic): vehicles within the distance are let in after a number of steps that depends on the distance and the length of the steps only. C99_alone (exact arithmetic): where the distance is more than 2 m, a vehicle that is alone gets there and is let in, wherever on the link it is. Missing: vehicles that are further away than the distance and not alone"
  },
  {
   "property": "C100",
   "status": "partial",
   "theorems": [
    "TrafficSim.C100_calls",
    "TrafficSim.C100_step",
    "TrafficSim.C100_road_partial",
    "TrafficSim.C100_jam",
    "TrafficSim.C100_passed"
   ],
   "note": "the full claim is false of the code (C100_passed, Float, a witness for all later steps; C100_jam, every number type, when vehicles stand for ever in the order of the lists). Proved in exact arithmetic: C100_calls, that calls other than steps keep the order; C100_step, that changing lanes does, and that a step does if each vehicle has room for the furthest it may drive in it; C100_road_partial, that the order is kept in all steps under the conditions of C84_road_partial"
  },
  {
   "property": "C101",
   "status": "partial",
   "theorems": [
    "TrafficSim.C101_crowded",
    "TrafficSim.C101_room_partial"
   ],
   "note": "the full claim is false of the code (C101_crowded, every number type: n vehicles are added to one link, for every n up to the capacity of the collection). Proved in exact arithmetic: on roads under the conditions of C84_road_partial the lengths of the vehicles on a link add up to at most the length of the link and that of the longest vehicle"
  },
  {
   "property": "C102",
   "status": "proved",
   "theorems": [
    "TrafficSim.C102_stops",
    "TrafficSim.C102_rests"
   ],
   "note": "exact arithmetic, for all sequences of allowed calls by which the vehicle is not released; how far a vehicle drives in a step is by C20_forward the average of its speeds before and after it, times the time step"
  },
  {
   "property": "C103",
   "status": "partial",
   "theorems": [
    "TrafficSim.C103_search",
    "TrafficSim.C103_gap",
    "TrafficSim.C103_step_partial",
    "TrafficSim.C103_streets_partial",
    "TrafficSim.C103_gap_endless",
    "TrafficSim.C103_endless",
    "TrafficSim.C103_waits"
   ],
   "note": "the full claim is false of the code: C103_waits (binary64) is a witness, C103_gap_endless and C103_endless (every number type) say when the search for a gap and a step never end. Proved in binary64: C103_search and C103_gap for the two searches, C103_step_partial and C103_streets_partial for a whole step. In exact arithmetic: C32. Missing: groups of lanes, and vehicles outside the bounds of Car before links where they give way"
  },
  {
   "property": "C104",
   "status": "proved",
   "theorems": [
    "TrafficSim.C104_runs",
    "TrafficSim.C104_speeds"
   ],
   "note": "binary64. C104_runs: for all histories of calls whose arguments are within the bounds of Calm, on networks within the bounds of Street; the end of the next step is on condition that the search for shortest paths ends (SearchEnds). C104_speeds: speeds only, on networks of all kinds, with groups of lanes and changes of lanes, for all histories of calls whose arguments are within the bounds of Timed"
  }
 ]
}