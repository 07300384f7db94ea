{"id": "C01", "title": "Conflicting signals are never both non-red", "statement": "Take any traffic light whose conflict masks are symmetric and whose phases never activate two conflicting movements together. After any sequence of steps from the freshly built light, no two different conflicting movements are both showing amber or green.", "quantifier": "all lights with at most 64 movements, all masks and phase tables meeting the hypothesis, all step sequences, all time steps (including zero, negative, NaN)", "why_tests_cant": "the state space (movements x phases x timers x step sequences) is unbounded; a test fixes one table and one time step", "anchors": ["src/light.rs: TrafficLight::step, can_turn_green, apply_phase, state"]}
{"id": "C02", "title": "Red clearance time before a conflicting green", "statement": "Whenever a movement changes from red to green, every movement whose conflict mask names it is showing red at that moment and has been showing red, counted over the preceding steps, for strictly longer than its own red clearance time.", "quantifier": "all lights, all histories of steps and time steps", "why_tests_cant": "it relates the present state to an unbounded history of observed states", "anchors": ["src/light.rs: TrafficLight::step, can_turn_green, Movement::step, state"]}
{"id": "C03", "title": "Signals change in the legal order", "statement": "In one step a movement either keeps its state or changes red to green, green to amber, amber to red, or amber back to green. It never goes from green straight to red nor from red to amber.", "quantifier": "all lights, all states, all steps", "why_tests_cant": "tests only see the transitions of the sampled phase table", "anchors": ["src/light.rs: TrafficLight::step, Movement::step"]}
{"id": "C04", "title": "Amber is held for its full duration", "statement": "A movement changes from amber to red only after it has been amber, counted over the preceding steps, for at least the amber time given when it was added.", "quantifier": "all lights, all histories of steps and time steps", "why_tests_cant": "history property over arbitrary schedules and time steps", "anchors": ["src/light.rs: TrafficLight::step, add_movement, Movement::step"]}
{"id": "C05", "title": "Phases run in order and only after their green time", "statement": "The current phase changes in a step only to the cyclic successor, and only if every movement that the phase activates has been green, counted over the preceding steps, for at least the phase duration. If they all have, it does change.", "quantifier": "all lights with at least one phase, all histories", "why_tests_cant": "history property; tests sample single tables", "anchors": ["src/light.rs: TrafficLight::update_phase, add_phase"]}
{"id": "C06", "title": "Traffic lights are live", "statement": "With a fixed positive time step, at least one phase, symmetric conflicts and no phase activating two conflicting movements, every phase of the light is eventually reached again from every reachable state: no deadlock.", "quantifier": "all such lights, all reachable states, all positive time steps", "why_tests_cant": "liveness cannot be observed by a finite test", "anchors": ["src/light.rs: TrafficLight::step, update_phase, can_turn_green"]}
{"id": "C07", "title": "When stepping a traffic light fails", "statement": "Stepping a light never fails if it has at least one phase and at most 64 movements, and always fails (panics, in a build with overflow checks) if it has no phase or more than 64 movements.", "quantifier": "all lights built through the public interface, all histories", "why_tests_cant": "every mask width and every history must be excluded", "anchors": ["src/light.rs: TrafficLight::step, update_phase, apply_phase, can_turn_green"]}
{"id": "C08", "title": "Links obey their traffic light", "statement": "After a simulation step, a link that is controlled by exactly one movement of exactly one light is open if that movement is green and closed otherwise, whatever control was set before; links not controlled by any light keep the control the user set.", "quantifier": "all networks, all lights, all states", "why_tests_cant": "quantifies over all networks, lights and link assignments", "anchors": ["src/simulation.rs: update_lights, set_link_control", "src/light.rs: get_states, add_movement"]}
{"id": "C09", "title": "A vehicle is on exactly one link, once", "statement": "In every state reachable through the public interface each live vehicle is listed on exactly one link, exactly once, and that link is the one the vehicle reports; no link lists a dead vehicle.", "quantifier": "all networks, all sequences of public calls with valid handles, all time steps", "why_tests_cant": "invariant over all operation sequences including lane changes, advances, exits and removals", "anchors": ["src/simulation.rs: add_vehicle, remove_vehicle, step, do_lane_change, advance_vehicles", "src/link.rs: insert_vehicle, remove_vehicle", "src/vehicle.rs: advance, set_location, link_id"]}
{"id": "C10", "title": "No dangling reference inside a step", "statement": "In every state reachable through the public interface a step never fails because of a missing link, a missing vehicle, an empty route, an impossible internal state, or an entered-link counter below zero.", "quantifier": "all networks, all sequences of public calls with valid handles, all time steps", "why_tests_cant": "absence of a failure over all reachable states", "anchors": ["src/simulation.rs: step, calculate_lane_changes, advance_vehicles", "src/vehicle.rs: integrate, advance, update_coords, choose_path", "src/link.rs: process_vehicles"]}
{"id": "C11", "title": "Handles are unique and never come back to life", "statement": "A handle returned when adding a vehicle, link or light differs from every handle issued before by the same simulation, and once a vehicle is removed its handle stays invalid whatever is added later.", "quantifier": "all sequences of insertions and removals", "why_tests_cant": "slot reuse makes collisions possible only after long histories", "anchors": ["src/simulation.rs: add_vehicle, add_link, add_traffic_light, remove_vehicle, get_vehicle"]}
{"id": "C12", "title": "Freezing is a set", "statement": "After setting a vehicle's frozen attribute, reading it returns the value set, and the attribute of every other vehicle is unchanged; setting twice equals setting once; and a step keeps the frozen attribute of every vehicle that is still in the simulation.", "quantifier": "all simulations, all handles, all sequences of calls", "why_tests_cant": "all sequences of set/get calls and steps", "anchors": ["src/simulation.rs: set_vehicle_frozen, get_vehicle_frozen, apply_frozen_vehicles"]}
{"id": "C13", "title": "A frozen vehicle brakes at full strength", "statement": "In any step in which accelerations are recomputed, a frozen vehicle decelerates at exactly 6 m/s2 until its speed is zero, whatever traffic surrounds it, and a frozen vehicle that is stopped does not move.", "quantifier": "all networks, all states, all traffic around the vehicle", "why_tests_cant": "the acceleration model is applied by many loops over all traffic; tests sample a few configurations", "anchors": ["src/simulation.rs: apply_frozen_vehicles, apply_accelerations, integrate", "src/vehicle/acceleration.rs: emergency_stop, acc", "src/vehicle.rs: integrate"]}
{"id": "C14", "title": "Vehicles only move along the network", "statement": "Over one step, a vehicle that is still present is on the link it was on, on a link directly connected downstream of it, on a link its old link permits lane changing into, or on a link directly downstream of such a lane-change target. It never jumps elsewhere.", "quantifier": "all networks, all reachable states, all time steps", "why_tests_cant": "the route is recomputed dynamically; all networks and states", "anchors": ["src/simulation.rs: step", "src/vehicle.rs: advance, set_path, choose_path", "src/vehicle/pathfinding.rs: make_paths"]}
{"id": "C15", "title": "A vehicle leaves the simulation only at its destination", "statement": "If a vehicle disappears during a step, then the link it was on was its destination link.", "quantifier": "all networks, all reachable states", "why_tests_cant": "needs every history of re-routing, lane changes and destinations", "anchors": ["src/simulation.rs: advance_vehicles", "src/vehicle.rs: advance, can_exit, set_path", "src/vehicle/pathfinding.rs: make_paths_inner"]}
{"id": "C16", "title": "Vehicles disappear only by driving off the end of their route", "statement": "A vehicle that disappears during a step was on the last link of its planned route and its position passed the end of that link in this step; all other vehicles stay in the simulation.", "quantifier": "all networks, all reachable states, all time steps", "why_tests_cant": "all traffic situations", "anchors": ["src/simulation.rs: advance_vehicles, step", "src/vehicle.rs: advance"]}
{"id": "C17", "title": "Frame counter", "statement": "Each successful step increases the frame counter by exactly one and no other public operation changes it.", "quantifier": "all sequences of public calls", "why_tests_cant": "all operation sequences", "anchors": ["src/simulation.rs: frame, step"]}
{"id": "C18", "title": "Removing a vehicle is local and idempotent", "statement": "Removing a vehicle makes it disappear from the simulation and from its link, leaves every other vehicle, link order, control and light unchanged, and removing it again (or an invalid handle) changes nothing.", "quantifier": "all reachable simulations, all handles", "why_tests_cant": "frame condition over whole state for all states", "anchors": ["src/simulation.rs: remove_vehicle", "src/link.rs: remove_vehicle"]}
{"id": "C19", "title": "Adding a vehicle is local", "statement": "A vehicle added to a link appears there at position 0 with speed 0 and no destination, not frozen unless its handle was, and no other vehicle is changed; the order of the vehicles already on the link is kept.", "quantifier": "all reachable simulations, links and attributes", "why_tests_cant": "frame condition over whole state for all states", "anchors": ["src/simulation.rs: add_vehicle", "src/vehicle.rs: Vehicle::new, set_location", "src/link.rs: insert_vehicle"]}
{"id": "C20", "title": "Speed is never negative and vehicles never reverse", "statement": "After any step every vehicle's speed is its speed before plus the acceleration times the time step, or zero if that is negative, and a vehicle that did not change lanes has moved forward by the mean of both speeds times the time step, for any non-negative time step.", "quantifier": "all vehicles, all accelerations, all non-negative time steps; exact arithmetic and IEEE binary64", "why_tests_cant": "floating-point rounding and arbitrary accelerations", "anchors": ["src/vehicle.rs: integrate, vel, pos_mid"]}
{"id": "C21", "title": "Acceleration stays within physical limits", "statement": "In every step the change in speed of every vehicle lies between -6 m/s2 and its maximum acceleration, times the time step.", "quantifier": "all networks, all reachable states with non-negative maximum acceleration, all time steps", "why_tests_cant": "accelerations are combined from unboundedly many influences (leaders, stop lines, speed limits, conflicts)", "anchors": ["src/vehicle/acceleration.rs: acc, reset, follow_vehicle, stop_at_line, apply_speed_limit, apply_current_speed_limit, emergency_stop", "src/vehicle.rs: integrate"]}
{"id": "C22", "title": "Speed limits are respected", "statement": "A vehicle at or below its adjusted speed limit (limit of its link times its adjustment factor) when accelerations are recomputed is still at or below it after the step, provided the time step is small enough compared with limit/acceleration; and a vehicle above it slows down.", "quantifier": "all vehicles, limits, factors and time steps up to limit / (4 max acceleration)", "why_tests_cant": "real-valued parameters; nonlinear update", "anchors": ["src/vehicle/acceleration.rs: apply_current_speed_limit", "src/link.rs: apply_accelerations", "src/vehicle.rs: integrate", "src/simulation.rs: step"]}
{"id": "C23", "title": "Car following reacts in the right direction", "statement": "The acceleration that follows from a leader never increases when the gap shrinks or the leader slows, is at most the maximum acceleration, and at or below the minimum gap of 2 m is full braking.", "quantifier": "all gaps, speeds and model parameters", "why_tests_cant": "monotonicity in real parameters", "anchors": ["src/vehicle/acceleration.rs: follow_vehicle, stop_at_line, idm"]}
{"id": "C24", "title": "Minimum reach time is the true minimum", "statement": "The time reported for reaching a position is the least time in which a vehicle starting at its current speed can cover the distance with acceleration at most its maximum and speed at most the given maximum.", "quantifier": "all speeds up to the maximum speed, distances, accelerations, maximum speeds", "why_tests_cant": "optimality over all motion profiles", "anchors": ["src/vehicle/acceleration.rs: min_reach_time", "src/vehicle.rs: min_reach_time"]}
{"id": "C25", "title": "Nobody enters a closed link", "statement": "A vehicle never claims entry into a link that is closed at the time entries are decided: between two consecutive states of a run, every link newly marked as entered by some vehicle was not closed.", "quantifier": "all networks, all reachable states, all controls", "why_tests_cant": "upstream traversal over arbitrary networks and traffic", "anchors": ["src/link.rs: apply_stoplines, process_vehicles, set_control", "src/vehicle.rs: enter_link, integrate", "src/simulation.rs: step"]}
{"id": "C26", "title": "Stop lines hold vehicles", "statement": "The first vehicle that wants to go through a closed link, or through one where it must give way and has not queued, or that may not leave the end of its route, is given an acceleration no greater than the car-following acceleration for a stationary obstacle at the line.", "quantifier": "all networks, all states", "why_tests_cant": "upstream traversal over arbitrary networks and traffic", "anchors": ["src/link.rs: apply_stoplines", "src/vehicle/acceleration.rs: stop_at_line"]}
{"id": "C27", "title": "Stop signs make vehicles stop", "statement": "A vehicle is admitted to a link whose control says vehicles must stop only after it has queued for that link while stopped and within the required distance.", "quantifier": "all networks, all reachable states", "why_tests_cant": "needs all histories of re-routing while queued", "anchors": ["src/link.rs: apply_stoplines", "src/vehicle.rs: queue_link, set_path, advance, get_route"]}
{"id": "C28", "title": "Queue numbers are unique and first come first served", "statement": "In every reachable state any two queued vehicles have different queue numbers, and a vehicle that queued in a later step has a larger number than every vehicle that was queued before.", "quantifier": "all sequences of public calls and steps", "why_tests_cant": "global counter threaded through all histories", "anchors": ["src/vehicle.rs: integrate, get_route", "src/simulation.rs: integrate"]}
{"id": "C29", "title": "The conflict cache does not change decisions", "statement": "Whether a vehicle may enter a link with right of way constraints does not depend on the cached index of the last blocking conflict.", "quantifier": "all networks, all states, all cache values", "why_tests_cant": "the cache is an invisible internal state; equivalence over all of its values", "anchors": ["src/link.rs: can_enter", "src/util.rs: rotated_range"]}
{"id": "C30", "title": "Gap acceptance is sound", "statement": "If a vehicle is admitted into a yielding link then, for every conflicting link, the nearest vehicle on every upstream path of the conflict that has right of way needs more than the admitted vehicle's clearing time plus 0.5 s to reach the conflict, under the minimum reach time model.", "quantifier": "all networks, all traffic", "why_tests_cant": "recursive search over arbitrary upstream networks", "anchors": ["src/link.rs: can_enter, check_gap"]}
{"id": "C31", "title": "Right of way is never mutual", "statement": "Of two different vehicles queued at yielding links with the same priority, at most one regards the other as having to give way; with different priorities only the higher one does.", "quantifier": "all priorities and queue numbers", "why_tests_cant": "all pairs of priority values and queue numbers", "anchors": ["src/link.rs: can_enter, check_gap", "src/vehicle.rs: get_route"]}
{"id": "C32", "title": "Upstream searches terminate", "statement": "If every link is at least some positive length and speed limits are bounded, the search over vehicles on upstream links ends for every network, including cyclic ones, and the gap search ends for every finite clearing time.", "quantifier": "all networks including cycles, all positions and times", "why_tests_cant": "termination over all cyclic networks", "anchors": ["src/link.rs: process_vehicles, check_gap"]}
{"id": "C33", "title": "Reachable lanes", "statement": "The lanes reported as reachable from a lane are exactly those that can be reached by zero or more single permitted lane changes within the group, in left-to-right order, and the lanes a lane is reachable from are exactly the converse.", "quantifier": "all groups up to 16 lanes, all masks", "why_tests_cant": "all 2^32 masks and all group sizes", "anchors": ["src/group.rs: reachable_lanes, reachable_from_lanes, lc_bit", "src/link.rs: reachable_lanes, reachable_from_lanes"]}
{"id": "C34", "title": "Permitted lane changes", "statement": "After a group is added, each of its links lists as lane-change targets exactly the adjacent links permitted by the mask (at most two), and links outside the group are unaffected.", "quantifier": "all groups of distinct ungrouped links, all masks", "why_tests_cant": "all masks and group sizes", "anchors": ["src/simulation.rs: add_link_group", "src/group.rs: lane_changes", "src/link.rs: lane_changes, add_lane_change"]}
{"id": "C35", "title": "Position transfer uses the right pair of lanes", "statement": "When the benefit of changing from one lane to another lane of the group is evaluated, the vehicle's position is transferred using the mapping from the first lane to the second.", "quantifier": "all groups, all pairs of different lanes", "why_tests_cant": "all pairs in all group sizes", "anchors": ["src/group.rs: LinkGroup::new, projection, projections_from_link", "src/link.rs: project_approx"]}
{"id": "C36", "title": "Unchecked indexing is in bounds", "statement": "The memory accesses that skip bounds checks are within bounds for every position, including negative, infinite and NaN positions: sampling a link curve or a lane projection. (Lookup tables are indexed with checks, and these never fail either.)", "quantifier": "all curves and tables that can be built, all f64 positions", "why_tests_cant": "memory safety for all 2^64 inputs and all curves", "anchors": ["src/link/curve.rs: sample_internal", "src/math/lut.rs: sample", "src/group.rs: LinkProjection::sample"]}
{"id": "C37", "title": "Link curves pass through their sample points", "statement": "The centre line of a link at multiples of the step passes exactly through the points obtained by walking along the user's curve, starts at the curve's start, and is continuous.", "quantifier": "all user curves, all steps (exact arithmetic)", "why_tests_cant": "all curves", "anchors": ["src/link/curve.rs: LinkCurve::new, with_step, sample_centre", "src/math/curve/algorithms.rs: equidistant_points_along_curve"]}
{"id": "C38", "title": "Straight links are exact", "statement": "A link built on a straight segment reports the segment's length to within 0.1 % of the step, and its centre line at distance s is the point of the segment at distance s, with the segment's direction, and no lateral error.", "quantifier": "all segments longer than the step and at most four billion steps long, all positions (exact arithmetic)", "why_tests_cant": "all segments and positions", "anchors": ["src/link/curve.rs: with_step, sample, sample_centre", "src/math/curve/algorithms.rs: equidistant_points_along_curve", "src/math/curve/bezier.rs: LineSegment2d"]}
{"id": "C39", "title": "Equidistant points", "statement": "The points produced along a curve start at the curve's start, consecutive points differ by the step to within 1 %, and the reported length is the number of full steps plus the remaining distance to the end.", "quantifier": "all curves and positive steps for which the search ends (exact arithmetic)", "why_tests_cant": "all curves", "anchors": ["src/math/curve/algorithms.rs: equidistant_points_along_curve"]}
{"id": "C40", "title": "Subdivided sampling", "statement": "Adaptive sampling of a curve yields points with strictly increasing parameter from the start of the range to its end, with consecutive points no farther apart than the requested length.", "quantifier": "all curves and lengths for which the sampling ends (exact arithmetic)", "why_tests_cant": "all curves", "anchors": ["src/math/curve/algorithms.rs: subdivided_samples_along_curve, subdivided_points_along_curve"]}
{"id": "C41", "title": "Bezier algebra", "statement": "Subdividing a cubic Bezier curve at any parameter gives two curves that trace exactly the two parts, reversing traces it backwards, converting a line or quadratic to a cubic traces the same curve, and curves start and end at their end points.", "quantifier": "all control points and parameters (exact arithmetic)", "why_tests_cant": "polynomial identities over all reals", "anchors": ["src/math/curve/bezier.rs: CubicBezier2d::subdivide, reverse, quadratic, line, sample; QuadraticBezier2d::sample; LineSegment2d"]}
{"id": "C42", "title": "Reported derivatives are the derivatives", "statement": "The derivative reported by line segments, quadratic and cubic Bezier curves and cubic functions is the derivative of the reported position, and likewise the second derivative of quadratic curves.", "quantifier": "all curves and parameters (exact arithmetic)", "why_tests_cant": "a limit statement over all reals", "anchors": ["src/math/curve/bezier.rs: sample_dt, sample_dt2", "src/math/cubic.rs: CubicFn::dy", "src/math/util.rs: normalize_with_derivative"]}
{"id": "C43", "title": "Projection onto a curve", "statement": "If projecting a point onto a curve returns a parameter inside the curve's range, the last correction was smaller than the tolerance and the parameter was reached from the returned chain of corrections; for a straight line the returned parameter is the exact orthogonal projection.", "quantifier": "all curves, points, tolerances, starting parameters (exact arithmetic)", "why_tests_cant": "all curves and points", "anchors": ["src/math/curve/algorithms.rs: project_point_onto_curve"]}
{"id": "C44", "title": "Cubic fitting", "statement": "A cubic fitted to two end points and slopes takes those values and slopes there, and translating it shifts it exactly.", "quantifier": "all end points with different abscissae, all values and slopes (exact arithmetic)", "why_tests_cant": "identity over reals", "anchors": ["src/math/cubic.rs: CubicFn::fit, translate_x, y, dy"]}
{"id": "C45", "title": "Lane changes are smooth", "statement": "A lane change started at a vehicle's position begins with the lateral offset and slope the vehicle has relative to the new lane, ends with offset and slope zero after the requested distance, and passing from one link to the next during the change does not alter the lateral offset.", "quantifier": "all vehicles, lanes, distances (exact arithmetic)", "why_tests_cant": "real-valued continuity across discrete link changes", "anchors": ["src/simulation.rs: do_lane_change", "src/vehicle.rs: advance, offset_at, set_location", "src/math/cubic.rs: fit, translate_x", "src/link/curve.rs: inverse_sample"]}
{"id": "C46", "title": "Heading is a unit vector", "statement": "After coordinates are updated a vehicle's direction has length one whenever the new position differs from the rear reference point.", "quantifier": "all vehicles and curves (exact arithmetic)", "why_tests_cant": "all geometry", "anchors": ["src/vehicle.rs: update_coords, direction", "src/vehicle/dynamics.rs: calc_direction"]}
{"id": "C47", "title": "Interval arithmetic", "statement": "Interpolation and inverse interpolation are inverse, distance and clearance are negative exactly on (strict) containment and overlap, a disc has the given midpoint and twice the radius as length, and shifting preserves length.", "quantifier": "all intervals and values (exact arithmetic)", "why_tests_cant": "identities over reals", "anchors": ["src/util.rs: Interval"]}
{"id": "C48", "title": "Lookup tables", "statement": "Reading a lookup table inside its range returns the sample taken within half a step of the argument; outside it returns the nearest end sample, for every argument.", "quantifier": "all ranges, steps, functions and arguments (exact arithmetic)", "why_tests_cant": "all reals", "anchors": ["src/math/lut.rs: LookupTable::from_samples, sample"]}
{"id": "C49", "title": "Planned paths are drivable", "statement": "Every path a vehicle may choose has between one and eight links, each directly connected to the next, and begins on the vehicle's link or on a lane-change target of it; the vehicle may leave at its end exactly if the last link is its destination.", "quantifier": "all networks, destinations and reachable states", "why_tests_cant": "all networks", "anchors": ["src/vehicle/pathfinding.rs: make_paths, make_paths_inner", "src/vehicle.rs: choose_path, set_path"]}
{"id": "C50", "title": "Lane costs", "statement": "Combining lane distances is commutative, associative and idempotent, adding a distance distributes over it, and a lane whose distances are all larger never costs more, as long as the vehicle is before the nearest of them.", "quantifier": "all distances and positions", "why_tests_cant": "all values, saturation included", "anchors": ["src/vehicle/pathfinding.rs: LaneDists"]}
{"id": "C51", "title": "Routing finds the destination when there is a way", "statement": "Setting a destination that can be reached from the vehicle's link by following connections and permitted lane changes yields at least one planned path, and from every planned link the destination can be reached.", "quantifier": "all networks, all pairs of links", "why_tests_cant": "all networks", "anchors": ["src/vehicle/pathfinding.rs: set_destination, reroute, calc_lane_matrix, successors"]}
{"id": "C52", "title": "An unreachable destination is not driven towards", "statement": "After setting a destination that cannot be reached, the vehicle has no planned paths left from its former destination.", "quantifier": "all networks, vehicles and destinations", "why_tests_cant": "all networks and histories of destinations", "anchors": ["src/vehicle/pathfinding.rs: set_destination, reroute", "src/simulation.rs: set_vehicle_destination"]}
{"id": "C53", "title": "All routes", "statement": "The list of all routes contains a pair of links exactly if the first has no incoming connection, the second has no outgoing connection, and the second can be reached from the first by following connections and permitted lane changes.", "quantifier": "all networks", "why_tests_cant": "all networks", "anchors": ["src/simulation.rs: all_routes"]}
{"id": "C54", "title": "Convergence is symmetric and bounded", "statement": "Declaring that two links converge adds a conflict to both links or to neither, each naming the other link with the same two ranges swapped, and the ranges lie within the links up to 0.25 m.", "quantifier": "all pairs of links (exact arithmetic)", "why_tests_cant": "all geometries", "anchors": ["src/simulation.rs: add_link_convergance", "src/conflict.rs: ConflictPoint::new, link_conflicts, ConflictPointLink::new"]}
{"id": "C55", "title": "Conflict points only slow down the vehicle behind", "statement": "At a conflict point the vehicle whose front is farthest past the start of the conflict region receives no acceleration from it, and every other vehicle with the vehicle immediately ahead of it on the other link is slowed.", "quantifier": "all traffic at all conflict points", "why_tests_cant": "all traffic situations", "anchors": ["src/conflict.rs: apply_accelerations, find_vehicles"]}
{"id": "C56", "title": "Velocity adjustments are in range", "statement": "After randomising velocity adjustments every vehicle's factor is between 0.75 and 1.25 whatever was sampled, and nothing else about the simulation changes.", "quantifier": "all simulations, all sampled values", "why_tests_cant": "all random samples", "anchors": ["src/simulation.rs: randomise_velocity_adjusts", "src/vehicle.rs: set_velocity_adjust"]}
{"id": "C57", "title": "Update intervals", "statement": "Accelerations are recomputed in a step exactly if the steps since the last recomputation add up to at least 0.1 s, and paths are re-evaluated exactly if they add up to at least 0.3 s; in other steps entries, queueing and accelerations are unchanged.", "quantifier": "all sequences of steps and time steps", "why_tests_cant": "history property", "anchors": ["src/simulation.rs: step, apply_accelerations, calculate_lane_changes"]}
{"id": "C58", "title": "Insertion keeps the order of vehicles", "statement": "If the vehicles listed on a link are ordered by position, they still are after inserting a vehicle; removing keeps the order too.", "quantifier": "all links and vehicles", "why_tests_cant": "all lists and positions", "anchors": ["src/link.rs: insert_vehicle, remove_vehicle"]}
{"id": "C59", "title": "Rotated ranges", "statement": "The rotated range with a start not above the count yields every index below the count exactly once.", "quantifier": "all counts and starts", "why_tests_cant": "all sizes", "anchors": ["src/util.rs: rotated_range"]}
{"id": "C60", "title": "Connections are symmetric", "statement": "In every reachable state a link lists another as successor exactly as many times as the other lists it as predecessor.", "quantifier": "all sequences of public calls", "why_tests_cant": "all operation sequences", "anchors": ["src/simulation.rs: add_link_connection", "src/link.rs: links_in, links_out"]}
{"id": "C61", "title": "Permission to leave is only for the destination", "statement": "In every reachable state a vehicle that may leave the simulation at the end of its route has its destination as the last link of its route.", "quantifier": "all networks, all sequences of public calls and steps", "why_tests_cant": "history property over all operation sequences", "anchors": ["src/vehicle.rs: set_path, set_destination, set_location, advance", "src/pathfinding.rs: PathfindingModel"]}
{"id": "C62", "title": "The network only grows", "statement": "No call removes a link or changes its shape, speed limit or cost; successors, predecessors, lane changes and conflicts are only appended, and only by the call that builds them; in particular steps leave the network unchanged.", "quantifier": "all reachable states, all public calls", "why_tests_cant": "history property over all operation sequences", "anchors": ["src/simulation.rs: all public functions", "src/link.rs: Link"]}
{"id": "C63", "title": "Open links are claimed only when needed", "statement": "A vehicle is admitted in a step to an open link ahead of it only when it can no longer stop comfortably (with 2.5 m to spare) five metres before the line of that link.", "quantifier": "all networks whose links are not negligibly short, all reachable states", "why_tests_cant": "upstream traversal over arbitrary networks and traffic", "anchors": ["src/link.rs: apply_stoplines, process_vehicles", "src/vehicle.rs: can_stop, stopping_distance, integrate"]}
{"id": "C64", "title": "Vehicles follow the next one on their link", "statement": "Whenever accelerations are recomputed, a vehicle with another one next ahead of it in the list of its link accelerates no more than the car-following model yields for the gap between its front and the rear of that one and for both speeds.", "quantifier": "all reachable states, all networks and traffic, all links, all pairs of neighbouring vehicles", "why_tests_cant": "the acceleration is the least of contributions from every link, conflict point and obstacle in an arbitrary network; a test sees one arrangement", "anchors": ["src/link.rs: Link::apply_accelerations, follow_vehicle", "src/vehicle/acceleration.rs: follow_vehicle, idm", "src/simulation.rs: apply_accelerations"]}
{"id": "C65", "title": "Vehicles follow the last one on the links ahead", "statement": "Whenever accelerations are recomputed, the first vehicle upstream whose route comes to a link, if it has entered that link or is on the link before it, accelerates no more than the car-following model yields for the last vehicle on that link, with the gap counted along its route.", "quantifier": "all reachable states, all networks (cyclic ones included), all distances in links between the two vehicles", "why_tests_cant": "the search upstream runs over arbitrarily many links of an arbitrary network", "anchors": ["src/link.rs: Link::apply_accelerations, process_vehicles", "src/vehicle.rs: get_route", "src/vehicle/acceleration.rs: follow_vehicle"]}
{"id": "C66", "title": "Vehicles slow down in time for lower speed limits", "statement": "Whenever accelerations are recomputed, the first vehicle upstream whose route comes to a link, if it has entered that link or is on the link before it, and which would need at least its comfortable deceleration to have slowed down to the speed limit of the link at its start, brakes at least as hard as needed, or with twice its comfortable deceleration or 6 m/s2 if these are less.", "quantifier": "all reachable states, all networks, all speed limits and distances", "why_tests_cant": "the search upstream runs over arbitrarily many links of an arbitrary network", "anchors": ["src/link.rs: Link::apply_accelerations, process_vehicles", "src/vehicle/acceleration.rs: apply_speed_limit"]}
{"id": "C67", "title": "Vehicles follow obstacles on neighbouring lanes", "statement": "Whenever accelerations are recomputed, the vehicle on a link that is the first behind a vehicle projected onto the link from an adjacent or overlapping one, apart from vehicles that can pass it, and cannot pass it itself, accelerates no more than the car-following model yields for the projected rear. On a straight link it can pass exactly if more than half its width and half a metre is free beside its path.", "quantifier": "all reachable states, all groups of links, all vehicles and projections", "why_tests_cant": "it depends on the whole order of vehicles on two links and on their geometry", "anchors": ["src/link.rs: Link::apply_accelerations, follow_obstacles, process_vehicles", "src/vehicle.rs: can_pass, project", "src/group.rs: projections_from_link"]}
{"id": "C68", "title": "A step never fails", "statement": "In exact arithmetic, stepping a reachable simulation whose links are straight, of positive length and with positive speed limits never panics and always ends, for any sequence of time steps, provided that the external shortest-path search ends on finite graphs, groups have at most 16 different links and no link is in two groups.", "quantifier": "all reachable states, all sequences of time steps, all networks of straight links", "why_tests_cant": "a panic anywhere in a step, or a loop that does not end, is only found by a test that happens upon the state that triggers it", "anchors": ["src/simulation.rs: step and everything it calls"]}
{"id": "C69", "title": "Calls with valid arguments succeed", "statement": "In exact arithmetic, a program that builds a network of straight links of positive length and speed limit and drives vehicles on it never fails, if every call names links and vehicles that exist, groups have 2 to 16 different links that are in no other group, and there is room in the maps. Connecting links, setting the control of a link, adding lights and vehicles, and setting destinations succeed exactly when their arguments exist and there is room, in any arithmetic.", "quantifier": "all programs over the public interface, of any length", "why_tests_cant": "all operation sequences", "anchors": ["src/simulation.rs: all public functions"]}
{"id": "C70", "title": "Vehicles take the cheapest path and change lanes for it", "statement": "Whenever the choice of paths is due, every vehicle that is not changing lanes compares the planned paths by cost and takes the first of the cheapest: it keeps its route if that is the path, takes the path over on its own lane, keeping the links it has entered up to where the two part, or starts to change lanes to the point of the other lane beside it, over thirty metres. Otherwise, and while it changes lanes, it keeps its route; the lane change ends exactly when the vehicle has got to its end, and follows the same curve until then.", "quantifier": "all reachable states, all networks, all time steps", "why_tests_cant": "the choice depends on all planned paths, the projection onto other lanes, and the history of lane changes", "anchors": ["src/simulation.rs: calculate_lane_changes, step", "src/vehicle.rs: choose_path, evaluate_path, set_path, advance, integrate", "src/vehicle/pathfinding.rs: LaneDists::cost"]}
{"id": "C71", "title": "How long a vehicle has been standing", "statement": "In every step the count of a vehicle's standing steps goes up by one if the vehicle is slower than 0.1 m/s at the end of the step, and is set to zero otherwise.", "quantifier": "all reachable states, all time steps", "why_tests_cant": "a test observes single vehicles; the count must survive lane changes and changes of links", "anchors": ["src/vehicle.rs: integrate", "src/simulation.rs: step"]}
{"id": "C72", "title": "Lane changes are smooth and vehicles stay in place", "statement": "In exact arithmetic, on straight links: a vehicle is added at the first end of its link, at rest, in the middle of the lane. A lane change, whether asked for or chosen, starts exactly where the vehicle is and leads to the middle of the new lane, in its direction, over the given distance. After every step a vehicle is at its position along its link, as far beside the middle of the lane as its lane change says.", "quantifier": "all reachable states, all straight links, all distances other than zero", "why_tests_cant": "geometric identity over all positions, directions and distances", "anchors": ["src/vehicle.rs: set_location, update_coords, lane_change", "src/simulation.rs: do_lane_change, add_vehicle, calculate_lane_changes, step", "src/math/cubic.rs: CubicFn::fit"]}
{"id": "C73", "title": "Vehicles plan all ways along a route, and how far they lead", "statement": "After a destination that can be reached is set, the planned paths of the vehicle are exactly the ways from its link and the lanes it may change to, over links along a route to the destination, that cannot be continued within eight links and 200 m. Each path has four distances, for no, one, two and three lane changes: the length of the path and the distance beyond it that can be driven with so many lane changes, in rounded tenths of a metre; unbounded only where the destination can be reached so, and unbounded if it can be reached so along the roads of a route that passes no road twice.", "quantifier": "all reachable states, all networks, all destinations that can be reached", "why_tests_cant": "the planned paths and their distances depend on the whole network; a test looks at one", "anchors": ["src/vehicle/pathfinding.rs: PathfindingModel::calc_lane_matrix, make_paths, make_paths_inner, LaneDists", "src/vehicle.rs: set_destination", "src/simulation.rs: set_vehicle_destination"]}
{"id": "C74", "title": "Vehicles plan along a quickest route", "statement": "The route along which a vehicle plans after a destination is set takes, at the speed limits, no longer than any other way to a lane from which the destination can be reached by lane changes; the time on each link is rounded down to a tenth of a second, and that on the last link does not count.", "quantifier": "all reachable states, all networks, all destinations that can be reached, every search that returns a route of least cost", "why_tests_cant": "the minimum over all the ways through an arbitrary network", "anchors": ["src/vehicle/pathfinding.rs: PathfindingModel::reroute, successors", "src/link.rs: Link::new, reachable_lanes, reachable_from_lanes, cost"]}
{"id": "C75", "title": "Where a vehicle is in terms of the other lanes", "statement": "In exact arithmetic, on straight links: for each link of a group there are projections to exactly the other links of the group, in order. What a projection yields for a vehicle is its place in terms of the other link: the foot and the side distance, on that link, of the point of its own link at its rear, rounded down to a multiple of 2 m, and behind the start of that link by as much as the vehicle's rear is behind the start of its own. So while the rear is on its link, the place is off by less than 2 m along and less than 2 m across.", "quantifier": "all reachable states, all straight links, all vehicles with a position that fits in the index type", "why_tests_cant": "geometric identity over all pairs of links, all positions and all orders of the links in a group", "anchors": ["src/group.rs: LinkGroup::new, projections_from_link, LinkProjection::project, sample", "src/vehicle.rs: project", "src/math/util.rs: project_point_onto_curve"]}
{"id": "C76", "title": "Vehicles that follow each other do not collide", "statement": "In exact arithmetic: a vehicle right behind another one on a link, whose maximum acceleration is at least 0.6, whose comfortable deceleration is positive and whose headway is large enough for its speed, its acceleration and the time step (at 2 m/s2, 2 m/s2, 1.5 s and steps of 0.2 s: at all speeds up to 60 m/s), and that stands or would stop behind the other if both braked fully, never gets its front past the rear of the other, as long as both stay on the link, however the other one drives. The same holds while they pass from link to link without changing lanes, the other one being on the link of the vehicle or on the next one of its route, on networks without loops of two links whose speed limits are high enough for the speeds driven. With a negative comfortable deceleration, which is what the documentation asks for, a vehicle pays no attention to what is ahead until 2 m before it, and does collide.", "quantifier": "all reachable states, all sequences of time steps up to a bound, all ways the vehicle ahead drives, all parameters that meet the conditions; for the negative part all binary64 arguments", "why_tests_cant": "collisions depend on the whole history of gaps and speeds; a test follows a few trajectories", "anchors": ["src/vehicle/acceleration.rs: follow_vehicle, idm", "src/link.rs: Link::apply_accelerations", "src/vehicle.rs: integrate, follow_vehicle", "src/simulation.rs: step"]}
{"id": "C77", "title": "Vehicles stop before the end of their link", "statement": "In exact arithmetic: a vehicle that has to stop at the end of its link, with parameters as for following, that stands or could stop before the end by full braking, stays on its link with its front not past the end, for as long as it has to stop and no vehicle before it does, at speeds for which the range of five seconds at the speed limit in which lines are looked for is long enough.", "quantifier": "all reachable states, all sequences of time steps up to a bound, all parameters that meet the conditions", "why_tests_cant": "overrunning a line depends on speed, distance, the time step and the phase in which accelerations are recomputed", "anchors": ["src/vehicle/acceleration.rs: stop_at_line, idm", "src/link.rs: Link::apply_stoplines", "src/vehicle.rs: integrate, advance", "src/simulation.rs: step"]}
{"id": "C78", "title": "A vehicle that is alone is slowed down by speed limits only", "statement": "When accelerations are recomputed, a vehicle that is alone, not frozen, on links without lane groups, may leave at the end of its route, and has only open links and no common point of conflict on its route, accelerates with its maximum acceleration or the least acceleration that a speed limit on its route asks for: on its own link that of approaching the limit, ahead that of slowing down to the limit, if this takes at least the comfortable deceleration, and at most twice that.", "quantifier": "all reachable states, all networks, all routes, every arithmetic", "why_tests_cant": "that nothing else slows the vehicle down is a statement about all the interactions along all possible routes", "anchors": ["src/simulation.rs: apply_accelerations, step", "src/link.rs: Link::apply_accelerations, apply_stoplines", "src/vehicle/acceleration.rs: apply_current_speed_limit, apply_speed_limit"]}
{"id": "C79", "title": "A vehicle with a clear way gets to its destination and leaves", "statement": "A vehicle that is alone and is sent to a destination to which it has a single clear way gets there and leaves there, after a number of steps that depends on the length of the least step only. This is true if the vehicle does not follow its way yet when it is sent: then it gets permission to leave with its next choice of a path, and gets there. It is false if the vehicle already follows its way, in particular if it is on the link of its destination: then it never gets permission to leave, stops at the end of the link and stays there for ever.", "quantifier": "all reachable states, all ways of up to eight links planned at once, all sequences of time steps not shorter than a positive bound (at most 0.1 s in the witness)", "why_tests_cant": "liveness: no finite run shows that a vehicle arrives in all cases, or that it never leaves", "anchors": ["src/vehicle.rs: set_destination, choose_path, set_path, advance, integrate", "src/simulation.rs: set_vehicle_destination, step", "src/vehicle/pathfinding.rs: make_paths"]}
{"id": "C80", "title": "Vehicles do not get faster than the speed limits allow", "statement": "In exact arithmetic: if all vehicles take at least four times D + 0.1 seconds to accelerate from rest to the least speed they may aim for (least speed limit times least adjustment factor), then no vehicle is ever faster than the greatest speed limit times the greatest adjustment factor, whatever is built, added, removed, sent elsewhere or moved to other lanes between steps of at most D seconds. For a single vehicle: if its speed is at most its adjustment factor times the greatest speed limit when accelerations are due, or it stands, this remains so.", "quantifier": "all executions whose steps, speed limits, accelerations and adjustment factors meet the bounds; all sequences of steps", "why_tests_cant": "the bound has to hold in every state of every execution, with accelerations kept over steps of any length", "anchors": ["src/vehicle/acceleration.rs: apply_current_speed_limit, AccelerationModel", "src/vehicle.rs: integrate", "src/simulation.rs: step, add_vehicle, randomise_velocity_adjusts"]}
{"id": "C81", "title": "Vehicles do not pass red lights", "statement": "In exact arithmetic: a vehicle that is on a link without lane changes, has entered no other link, has its destination elsewhere, stands or could stop before the end of the link by full braking, and whose parameters and speeds meet conditions as for stopping, stays on the link with its front not past the end and enters no further link, for as long as all links that follow are closed, or each is controlled by a movement of a light that is amber or red, and it is the first vehicle on the link.", "quantifier": "all reachable states, all networks, all sequences of time steps up to a bound, all ways the other vehicles drive", "why_tests_cant": "running a light depends on speed, distance, time step, the phase in which accelerations are recomputed and the choice of route", "anchors": ["src/simulation.rs: step, apply_accelerations", "src/light.rs: TrafficLight::step, get_states", "src/link.rs: Link::apply_stoplines", "src/vehicle.rs: integrate, advance, choose_path"]}
{"id": "C82", "title": "Vehicles change lanes only where there is room", "statement": "A vehicle that changes lanes does so only where there is room for it between the vehicles on the other lane, so that no two vehicles come to occupy the same place by a change of lanes; if it has come closer than 2 m to the next vehicle it brakes fully as soon as accelerations are recomputed.", "quantifier": "every reachable state, every step, every pair of vehicles on neighbouring lanes and every point of the plane", "why_tests_cant": "it depends on where and when a vehicle chooses another lane, relative to every other vehicle, and on its sideways motion over many steps", "anchors": ["src/simulation.rs: calculate_lane_changes, do_lane_change", "src/link.rs: can_insert_vehicle, insert_vehicle", "src/vehicle.rs: choose_path, set_location, update_coords"]}
{"id": "C83", "title": "No vehicle is slowed down, or stands, without a reason", "statement": "When accelerations are recomputed, the acceleration of a vehicle that is not frozen is the least of its maximum acceleration and of accelerations each of which has a cause: the speed limit of a link of its route, the vehicle next on its link or last on a link further on, the start of a link that is not open and that it has not entered, the end of its route without permission to leave, a vehicle on a neighbouring lane in its way, or a vehicle that gets to a conflict region of its route before it. In exact arithmetic, a vehicle that stands starts to move unless it is frozen or such a cause, other than a speed limit, is at most 2 m ahead.", "quantifier": "all reachable states, all networks, all vehicles, every arithmetic; exact arithmetic for the start", "why_tests_cant": "that there is no other cause is a statement about all the interactions of all vehicles on all networks", "anchors": ["src/simulation.rs: apply_accelerations, step", "src/link.rs: Link::apply_accelerations, apply_stoplines, process_vehicles, follow_obstacle", "src/conflict.rs: ConflictPoint::apply_accelerations", "src/vehicle/acceleration.rs"]}
{"id": "C84", "title": "Vehicles do not run into what is ahead on their lane", "statement": "A vehicle whose parameters and speed let it stop in time, and which could stop before the rear of the next vehicle on the way it drives by full braking, does not drive into that vehicle, wherever the other one is: on the same link, on the next one, further on, or half on a link that branches off.", "quantifier": "all reachable states, all networks, all sequences of time steps up to a bound, all parameters that meet the conditions", "why_tests_cant": "whether a vehicle sees another in time depends on the lengths of all the links between, on when links are entered, and on the routes of both", "anchors": ["src/simulation.rs: apply_accelerations, step", "src/link.rs: Link::apply_accelerations, apply_stoplines, process_vehicles", "src/vehicle.rs: enter_link, activate_links, integrate, advance"]}
{"id": "C85", "title": "Vehicles judge distances along their own route", "statement": "The distance at which a vehicle sees what is ahead, on which its acceleration depends, is the distance along its own route. This is true where two ways along the network with the same ends and the same number of links are the same; otherwise the distance along a way that is not on its route may count.", "quantifier": "all reachable states, all networks, all routes, every arithmetic", "why_tests_cant": "it takes networks with two ways of the same number of links but other lengths, and vehicles on both, for a difference to show", "anchors": ["src/link.rs: process_vehicles, RelativeVehicle", "src/simulation.rs: apply_accelerations", "src/vehicle.rs: get_route"]}
{"id": "C86", "title": "Vehicles are within the links that they are on", "statement": "At all times the middle of a vehicle is between the start and the end of the link that it is on. This is true, in exact arithmetic and without lane changes, if no vehicle can get further in a step than the length of the shortest link. In general a vehicle that is past the end of its link after a step came to that link in this step: just one link is left behind in a step, so that on short links a vehicle may get off the road and is put back later by several metres.", "quantifier": "all executions, all networks, every arithmetic for the general statement; exact arithmetic for the positive one", "why_tests_cant": "it depends on speeds, time steps and the lengths of links that follow each other, over whole executions", "anchors": ["src/vehicle.rs: advance, integrate, update_coords", "src/simulation.rs: step", "src/link/curve.rs: sample_centre"]}
{"id": "C87", "title": "Vehicles that may go on do so", "statement": "When accelerations are recomputed and a vehicle is the one that comes to the line at the end of the last link it has entered, near enough to the line: if the next link is open and the vehicle cannot stop comfortably 5 m before the line, it is admitted to the link. If it must give way there, is within the distance from the line and has stopped where that is demanded, it gets a queue number larger than all before. If it has a queue number and at each conflict, on each way upstream, the first vehicle not past the conflict that is to go there either need not be waited for or comes later than it is past the conflict, and 0.5 s, it is admitted.", "quantifier": "all reachable states, all networks of long enough links, every arithmetic", "why_tests_cant": "that nobody waits without reason is a statement about all junctions, all ways to them and all the vehicles on these", "anchors": ["src/simulation.rs: apply_accelerations, step", "src/link.rs: apply_stoplines, check_gap, process_vehicles", "src/vehicle.rs: enter_link, enqueue, min_reach_time"]}
{"id": "C88", "title": "The gap a vehicle waits for is the gap it needs", "statement": "A vehicle with a queue number for a link where it must give way is admitted once the others that have right of way come to the conflict later than it can be past it, and 0.5 s. This is false of the code, which counts the length of the link where the vehicle waits twice and so demands a gap that grows with this link; it is true with this length added.", "quantifier": "all reachable states, all networks; the negation by a witness", "why_tests_cant": "the vehicle is only late, and by how much depends on the length of a link that has nothing to do with the junction", "anchors": ["src/link.rs: apply_stoplines, can_enter, check_gap, RelativeVehicle::offset"]}
{"id": "C89", "title": "Vehicles get to where they can get", "statement": "A vehicle that is alone on an open road and is sent to a link that can be got to from where it is gets there. This is false of the code: ways are planned until a link that starts 200 m or more away, and where the plan ends with a link that is shorter than half of the vehicle, the vehicle stops at its end and never gets on to this link, so that no new plan is made. It is true of roads without a choice, of any length, whose links are longer than half of the vehicle by some metres.", "quantifier": "the negation for all vehicles, networks and sequences of steps that meet the conditions; a witness for all sequences of steps; the positive part for all such roads and all sequences of enough steps within bounds", "why_tests_cant": "that the vehicle stays for ever cannot be observed, and it takes a long link followed by one of a metre or two", "anchors": ["src/vehicle.rs: set_destination, advance, choose_path", "src/vehicle/pathfinding.rs: reroute, make_paths, make_paths_inner", "src/simulation.rs: step, set_vehicle_destination"]}
{"id": "C90", "title": "Vehicles at crossings do not wait for each other for ever", "statement": "Vehicles on open links whose ways are free past the crossings do not stand for ever. This is false of the code: at each conflict point the vehicle that is further ahead goes first, even if it stands, and where every vehicle stands at a conflict point right behind another, none of them will ever move, whatever the steps. In exact arithmetic, when all vehicles stand before and after a step in which accelerations are due, one of them is frozen, or at the end of its route or at a link that is not open, or some of them wait for each other in a circle. On networks without conflict points, lane groups and circles of links there are no such circles: some vehicle starts or leaves, or is frozen, or at the end of its route or at a link that is not open.", "quantifier": "the negation for all states, networks and sequences of steps that meet the conditions, in every arithmetic, with a witness for all sequences of finite steps; the positive part for all reachable states", "why_tests_cant": "that vehicles never move again cannot be observed, and that nothing but a circle makes all stand is a statement about all networks and all traffic", "anchors": ["src/conflict.rs: ConflictPoint::apply_accelerations, find_vehicles", "src/simulation.rs: apply_accelerations, step", "src/link.rs: apply_accelerations, apply_stoplines", "src/vehicle.rs: stop_at_line, integrate"]}
{"id": "C91", "title": "A vehicle that is alone is not held up", "statement": "The only vehicle in the simulation, on open links, does not stand for ever. This is false of the code: where two links that follow each other on its route are declared as converging, the vehicle finds itself on both sides of the conflict point, gives way to itself and never moves again. In exact arithmetic, the only vehicle, if it stands when accelerations are due, starts to move, or is frozen, or at the end of its route or at a link that is not open, if its route does not lead back to its link, the link is in no lane group and no two links of the route have a conflict point.", "quantifier": "a witness for all sequences of finite steps; the positive part for all reachable states, all networks and routes that meet the conditions", "why_tests_cant": "that a vehicle never moves again cannot be observed, and that nothing but the listed causes holds it up is a statement about all networks", "anchors": ["src/conflict.rs: ConflictPoint::apply_accelerations, find_vehicles", "src/simulation.rs: add_link_convergance, step", "src/link.rs: apply_accelerations"]}
{"id": "C92", "title": "Vehicles keep out of a crossing while another vehicle is in it", "statement": "A vehicle that could stop before the part of its link that is declared as in conflict with another link does not drive on to that part while another vehicle is on the part of the other link. This is false of the code: a vehicle whose middle has left the other link no longer counts at the conflict point, though its rear is still on the crossing, and others drive into it. In exact arithmetic, it is true as long as the vehicle is right behind the other one in the order of the conflict point, at whatever times the steps are made.", "quantifier": "all reachable states, all networks, all sequences of steps up to a bound, all parameters that meet the conditions; the negation by a witness", "why_tests_cant": "whether the other vehicle counts depends on where links end within the crossing and on the lengths of vehicles", "anchors": ["src/conflict.rs: ConflictPoint::apply_accelerations, find_vehicles", "src/simulation.rs: apply_accelerations, step", "src/vehicle.rs: advance, stop_at_line"]}
{"id": "C93", "title": "Conflicts are where links are near each other", "statement": "The part of a link that counts as in conflict with another link is the part that is less than 1.8 m away from the other link (for links that cross at right angles; up to 3.6 m for links side by side), up to the quarter of a metre in which it is sampled. Of straight links, this is true with the straight lines on which the links are instead of the links themselves, and the links count as running in the same direction exactly if the cosine of the angle between them is greater than 1/4. It is false with the links themselves: the nearest point on the other link is searched for beyond its ends, so that of two links in a line that are hundreds of metres apart, all of one is in conflict with the other.", "quantifier": "all straight links of any length at any place, in exact arithmetic; the negation by a witness", "why_tests_cant": "there are infinitely many pairs of links, and regions that are too large or too small show only in traffic", "anchors": ["src/conflict.rs: ConflictPointLink::new, ConflictPoint::new", "src/math/cubic.rs: inverse_sample, sample_centre", "src/simulation.rs: add_link_convergance"]}
{"id": "C94", "title": "Vehicles at a crossing do not wait for those that may not come", "statement": "A conflict slows a vehicle down only if there is another vehicle that has been let in to the other link (it is on it, or was allowed to enter it) and has yet to leave the conflict region. This is true, in exact arithmetic, of regions that begin after the start of the link. It is false of the code for regions that begin at the start of the link: vehicles before the link count too, even those that stand at a closed link, as long as somebody is on that link, be it past the crossing.", "quantifier": "all reachable states, all networks, all traffic; the negation by a witness", "why_tests_cant": "which vehicles count depends on all the ways to the crossing and on who has been let in", "anchors": ["src/conflict.rs: ConflictPoint::apply_accelerations, find_vehicles", "src/link.rs: process_vehicles", "src/vehicle.rs: get_route, enter_link", "src/simulation.rs: apply_accelerations, step"]}
{"id": "C95", "title": "The way a vehicle drives in a step is that of its acceleration", "statement": "In a step, a vehicle is moved by the way of something that starts with its speed, moves with the acceleration with which it drives in the step and stands once its speed is 0. In exact arithmetic this is true, for steps of any length, if the vehicle does not come to a stand before the end of the step. It is false of the code otherwise: the vehicle is moved by half of what it drives at its speed in the whole step, however hard it brakes, which is further than it takes to stop.", "quantifier": "all reachable states, all vehicles, all steps in which the vehicle does not change lanes; the negation by a witness", "why_tests_cant": "the speeds and accelerations are real numbers, and the error is hidden in steps of the usual length", "anchors": ["src/vehicle.rs: integrate", "src/vehicle/acceleration.rs: AccelerationModel::acc", "src/simulation.rs: integrate, step"]}
{"id": "C96", "title": "Vehicles have slowed down when they get to a lower speed limit", "statement": "A vehicle that can slow down with its comfortable deceleration to the speed limit of a link ahead of it has slowed down when it gets there, up to what its speed changes between two of its decisions. In exact arithmetic this is true of the first vehicle on its link and the next link, with steps of any length up to a bound, as long as the next link is open and the vehicle keeps its route. It is false of the code for links further ahead: a vehicle sees the speed limits only of links that it may enter, and the ones after short links too late.", "quantifier": "all reachable states, all networks, all sequences of steps up to a bound, all parameters that meet the conditions; the negation by a witness", "why_tests_cant": "where a vehicle sees the limit for the first time depends on the lengths of links, its speed and the times of the steps", "anchors": ["src/link.rs: process_vehicles, apply_accelerations, apply_speed_limit", "src/vehicle/acceleration.rs: AccelerationModel::apply_current_speed_limit, apply_speed_limit", "src/vehicle.rs: can_stop, enter_link, apply_speed_limit, integrate", "src/simulation.rs: step"]}
{"id": "C97", "title": "How time is divided into steps makes no difference between decisions", "statement": "Two steps of a and b seconds between which no decisions are made have the same effect on a vehicle as one step of a + b seconds: on its place on its route, its speed, its acceleration, the links it has entered and its change of lanes. In exact arithmetic this is true of vehicles that do not come to a stand in the steps and do not drive over the whole of a link in them. It is false of the code otherwise: of a vehicle that comes to a stand, the place where it stands depends on how the time was divided.", "quantifier": "all reachable states, all networks, all vehicles, all pairs of steps between which no decisions are made; the negation by a witness", "why_tests_cant": "times, speeds and places are real numbers, and the differences are small in steps of the usual length", "anchors": ["src/vehicle.rs: integrate, advance", "src/simulation.rs: step, integrate, advance_vehicles"]}
{"id": "C98", "title": "Vehicles that wait at a light are let in when it is their turn", "statement": "A vehicle that is first on its link and waits at a light, which controls all links that follow with one movement, is let in to one of these links after a number of steps that depends on the light and the length of the steps only, if the movement is green in some phase that is longer than a step and 0.1 seconds.", "quantifier": "all reachable states, all networks, all lights that have no conflicts within a phase, all lengths of steps, all vehicles near the end of their link that stand or can still stop there; exact arithmetic", "why_tests_cant": "how long a vehicle waits depends on the state of the light, all its phases, and on when the vehicle decides; tests try a few lights for a limited time", "anchors": ["src/light.rs: TrafficLight::step, update_phase, can_turn_green", "src/simulation.rs: step, update_lights, apply_stoplines", "src/link.rs: apply_stoplines, can_enter", "src/vehicle.rs: can_stop, enter_link, stop_at_line, integrate"]}
{"id": "C99", "title": "A vehicle that is alone gets past the lines where it must give way", "statement": "A vehicle that comes to a link where it must give way is let in after a number of steps that depends on the line and the length of the steps only, before its front is over the line, if there is no vehicle before it on its link and none on its way to a conflicting link. In exact arithmetic this is true of vehicles that are within the distance of the line in which they may queue, and, where that is more than 2 m, of a vehicle that is alone, wherever on the link it is; then the number of steps depends on the way in which it accelerates, too. It is false of the code for lines where this distance is small: vehicles stop up to 2 m before a line, and one that stands there, too far away to queue, stands there for ever.", "quantifier": "all reachable states, all networks, all lengths of steps, all vehicles that are alone or within the distance of the line, and stand or can still stop there; the negation by a witness, for all later steps", "why_tests_cant": "that a vehicle never moves again cannot be observed, and how soon it is let in depends on its speed, its distance from the line and on when it decides", "anchors": ["src/link.rs: apply_stoplines, process_vehicles", "src/vehicle/acceleration.rs: idm, stop_at_line", "src/vehicle.rs: queue_link, enter_link, integrate", "src/simulation.rs: apply_stoplines, step"]}
{"id": "C100", "title": "The vehicles on a link are listed in order of position", "statement": "The list of the vehicles on a link, in which each vehicle follows the next, is in order of position. This is true at the beginning. In exact arithmetic no call other than a step changes it, nor does the choice of lanes in a step, and a step does not if each vehicle has room ahead for the furthest it may drive in it; on roads where the gaps are large enough at the beginning it stays true in all following steps. It is false of the code in general: the list is not put in order when a vehicle that cannot stop in time runs past another one. It then goes on following the one that it has left behind, and if that one is frozen, stands before a free road for ever.", "quantifier": "all reachable states, all networks, all calls, all steps with room, all sequences of steps on roads; the negation by a witness, for all later steps", "why_tests_cant": "that a list is in order depends on the whole history of insertions, changes of lanes and motions, and that a vehicle never moves again cannot be observed", "anchors": ["src/link.rs: insert_vehicle, remove_vehicle, process_vehicles", "src/simulation.rs: add_vehicle, advance_vehicles, do_lane_change, step", "src/vehicle.rs: integrate"]}
{"id": "C101", "title": "A link does not hold more vehicles than have room on it", "statement": "The vehicles on a link are, all together, not longer than the link and what may stand out at its two ends. In exact arithmetic this stays true on roads where the gaps are large enough at the beginning, in all following steps. It is false of the code in general: any number of vehicles, of any size, may be added to a link of any length, and all stand in the same place.", "quantifier": "all reachable states, all networks, any number of vehicles up to the capacity of the collection, with all kinds of numbers; exact arithmetic for roads", "why_tests_cant": "a test adds a few vehicles to a long link; that nothing limits the number cannot be observed, and neither can the room that is left in all following steps", "anchors": ["src/simulation.rs: add_vehicle", "src/link.rs: insert_vehicle", "src/vehicle.rs: new, set_location", "src/simulation.rs: step"]}
{"id": "C102", "title": "A frozen vehicle comes to a stand and stays there", "statement": "In exact arithmetic: from when a vehicle is frozen, until it may move again, its speed is at most V - 6 (t - T) after t seconds, where T is the time until accelerations are recomputed, at most 0.1 s and the length of a step, and V what its speed may be by then. So it stands after T + V / 6 seconds, does not drive further than V T + V^2 / 12 + V D / 2 metres, where D is the length of a step, and does not drive at all from then on, whatever else is built, added, removed or sent elsewhere in the mean time.", "quantifier": "all reachable states, all vehicles with a non-negative maximum acceleration, all sequences of calls between which the vehicle is not released, with steps of at most D seconds, without any bound on their number; exact arithmetic", "why_tests_cant": "that a vehicle never moves again cannot be observed; how far it gets depends on when accelerations are recomputed, which depends on the lengths of all steps", "anchors": ["src/simulation.rs: set_vehicle_frozen, apply_accelerations, step", "src/vehicle.rs: emergency_stop, integrate", "src/vehicle/acceleration.rs: emergency_stop, acc"]}
{"id": "C103", "title": "A step ends, in binary arithmetic", "statement": "Each step of a reachable simulation ends, with the numbers of the code. The search over the vehicles on links upstream ends from every position above -10^6 m if links are at least 2^-10 m long and speed limits are positive and at most 10^6 m/s, and so does the search for a gap if the time that is searched for is at most 10^6 s. A step ends on networks without groups of lanes if such links cross no others where vehicles give way, or if links are at most 10 km long, limits are between 1 and 100 m/s, and vehicles drive at most 2000 m/s and can accelerate by 0.125 to 100 m/s^2. It is false of the code in general: the time that a vehicle which cannot accelerate needs to get past a crossing is zero divided by zero, no gap is longer than that, and where links form a ring the search for a gap goes round it for ever.", "quantifier": "all reachable states, all networks with such numbers, all time steps, however long the searches may be; binary64; the negation by a witness, for every bound on the number of steps of the search", "why_tests_cant": "that a search never ends cannot be observed; whether it does depends on rounding, as positions are sums of the lengths of any number of links", "anchors": ["src/link.rs: process_vehicles, check_gap, can_enter", "src/vehicle.rs: min_reach_time", "src/vehicle/acceleration.rs: min_reach_time", "src/simulation.rs: step"]}
{"id": "C104", "title": "Nothing gets out of hand in runs of any length, in binary arithmetic", "statement": "With the numbers of the code, in every simulation that is built and run by public calls, speeds are numbers between 0 and 135 m/s, positions are numbers that are not negative, and the next step ends. This is under bounds on the arguments of the calls only: links are about a millimetre to ten kilometres long, are not grouped into lanes and have limits of 1 to 100 m/s, crossings are less than ten kilometres away, vehicles can accelerate by 0.125 to 8 m/s^2, random factors are numbers, vehicles are not moved between links by hand, and steps take 2^-10 to 1 s.", "quantifier": "all sequences of calls with such arguments, of any length, in which networks are extended and vehicles are added, removed, frozen and sent elsewhere between steps; all time steps for the last step; binary64", "why_tests_cant": "rounding errors add up over runs of any length, and the speed that a vehicle reaches until accelerations are recomputed depends on the lengths of all steps in between; that a step never ends cannot be observed", "anchors": ["src/simulation.rs: step, apply_accelerations, add_vehicle, randomise_velocity_adjusts", "src/vehicle.rs: integrate, apply_speed_limit", "src/vehicle/acceleration.rs: apply_current_speed, acc", "src/link.rs: apply_accelerations, check_gap, process_vehicles"]}
