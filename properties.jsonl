{"id": "C01", "title": "Coordinate construction accepts exactly the wall positions", "statement": "Coordinate::new(x, y) returns Some exactly when the maze width W is a power of two not larger than 64 and (x, y) is a wall position of a W x W maze (both below 2W, one even and one odd); the accessors x() and y() then return the arguments.", "quantifier": "every width W: u8 and every x, y: u8", "why_tests_cant": "the domain is W x 256 x 256 and the W << 1 expression wraps for W = 128; tests sample W = 4", "anchors": ["mousecore2/src/solve/search.rs: Coordinate::new, Coordinate::x, Coordinate::y"]}
{"id": "C02", "title": "Distinct wall positions never share storage", "statement": "For a supported maze width (a power of two up to 32) every wall position is stored in its own slot and every slot index is below 2*W*W, hence inside the 2048-slot arrays: writing one wall can never alter or read another.", "quantifier": "every supported W and every pair of coordinates", "why_tests_cant": "needs all pairs of coordinates for all widths", "anchors": ["mousecore2/src/solve/search.rs: Coordinate::as_index", "mousecore2/src/wall.rs: Walls::update, Walls::wall_state, WallDetector::wall_existence"]}
{"id": "C03", "title": "Wall map behaves as a map from walls to states", "statement": "After any sequence of Walls::update calls, wall_state(c) is the state given in the last update for c, or the state c had initially when c was never updated.", "quantifier": "every supported W, every initial map made by new(), every finite history of updates, every coordinate", "why_tests_cant": "histories are unbounded; the bit packing of four walls in a byte must be right for every neighbour combination", "anchors": ["mousecore2/src/wall.rs: Walls::update, Walls::wall_state"]}
{"id": "C04", "title": "A fresh wall map knows exactly the outer walls and the start cell", "statement": "Walls::new() reports Checked{exists:true} exactly for the top and right outer walls and for (1,0), Checked{exists:false} exactly for (0,1), and Unchecked for everything else (W >= 2).", "quantifier": "every supported W >= 2, every coordinate", "why_tests_cant": "tests compare one rendered 4x4 maze in which Unchecked and open look the same", "anchors": ["mousecore2/src/wall.rs: Walls::new"]}
{"id": "C05", "title": "Reading a wall never panics on a map built through the API", "statement": "wall_state never reaches unreachable!() on any map obtained from new() or from_str() followed by any updates; for a map made by TryFrom<&[u8]> this is false (a byte holding the bit pattern 2 makes it panic), and remains false until the affected wall is updated.", "quantifier": "every supported W, every history of updates, every coordinate; every byte array for the TryFrom part", "why_tests_cant": "the corrupting byte patterns are never tried by tests", "anchors": ["mousecore2/src/wall.rs: Walls::wall_state, TryFrom<&[u8]> for Walls"]}
{"id": "C06", "title": "Wall map byte round trip", "statement": "Walls::try_from(w.as_bytes()) succeeds and gives a map equal to w; try_from accepts a byte slice exactly when it has 512 bytes, and as_bytes of the result is that slice.", "quantifier": "every map and every byte slice", "why_tests_cant": "every byte slice of every length", "anchors": ["mousecore2/src/wall.rs: Walls::as_bytes, TryFrom<&[u8]> for Walls"]}
{"id": "C07", "title": "Text round trip of a wall map", "statement": "For every wall map, parsing its Display output succeeds and yields a map in which a wall exists exactly where it existed in the original and every other wall is known to be absent; in particular a fully explored map survives exactly.", "quantifier": "every supported W, every wall map reachable through new()/update()/from_str()", "why_tests_cant": "2^(2*W*W) maps; tests use three 4x4 mazes", "anchors": ["mousecore2/src/wall.rs: Display for Walls, FromStr for Walls"]}
{"id": "C08", "title": "Parsing never panics and rejects at the first malformed place", "statement": "from_str never panics on any text; when it fails, the reported line is the first line (among the first 2W+1) that does not have the required form, all earlier lines having it, and the reported byte range is the first offending field of this line.", "quantifier": "every supported W and every text", "why_tests_cant": "every string; slicing at byte offsets can panic on non-ASCII text or short lines", "anchors": ["mousecore2/src/wall.rs: FromStr for Walls, ParseWallsError"]}
{"id": "C09", "title": "Rendering a parsed canonical maze text gives the same text", "statement": "If a text has the canonical form of a complete W x W maze drawing (2W+1 lines, closed outline on the left and bottom) then parsing succeeds and Display of the result is that very text.", "quantifier": "every supported W and every canonical text", "why_tests_cant": "tests do it for three literals", "anchors": ["mousecore2/src/wall.rs: Display for Walls, FromStr for Walls"]}
{"id": "C10", "title": "Shortest search path is a real path", "statement": "Searcher::shortest_path, when it returns a path, returns a list that begins with start, ends with a goal other than start, and in which every two successive coordinates are joined by a straight run (diagonal, or along the axis crossed by the wall) all of whose coordinates after the first are inside the maze and not walls.", "quantifier": "every supported W, start, goal list and wall predicate", "why_tests_cant": "all mazes of all sizes", "anchors": ["mousecore2/src/solve/search.rs: Searcher::new, Searcher::shortest_path, Searcher::bfs_tree, Coordinate::extended_neighbors"]}
{"id": "C11", "title": "Shortest search path has the minimum number of runs", "statement": "No path of straight runs from start to any goal other than start has fewer runs than the one returned by shortest_path; the pruning of already scanned lines never loses a shorter path.", "quantifier": "every supported W, start, goal list, wall predicate and every competing path", "why_tests_cant": "competing paths are exponentially many", "anchors": ["mousecore2/src/solve/search.rs: Searcher::bfs_tree (kinds, excludes), Searcher::shortest_path"]}
{"id": "C12", "title": "Search path exists whenever a goal is reachable", "statement": "shortest_path returns None exactly when no goal other than start can be reached from start by straight runs through non-wall coordinates.", "quantifier": "every supported W, start, goal list, wall predicate", "why_tests_cant": "all mazes", "anchors": ["mousecore2/src/solve/search.rs: Searcher::bfs_tree, Searcher::shortest_path"]}
{"id": "C13", "title": "Planning never panics and always ends", "statement": "Searcher::shortest_path and Searcher::search terminate and never hit a failed unwrap, a full queue or vector, an out-of-range index or unreachable!() .", "quantifier": "every supported W, start, goals, current coordinate and wall state function", "why_tests_cant": "fixed capacities 6*32, 2*32, 2048 must suffice in all mazes", "anchors": ["mousecore2/src/solve/search.rs: Searcher::shortest_path, Searcher::search, Coordinate::extended_neighbors, Coordinate::intermediate_coords, Coordinate::neighbors"]}
{"id": "C14", "title": "A start that is itself a goal is not recognised", "statement": "shortest_path never returns the trivial path [start]; goals equal to start are ignored, and when start is the only goal the answer is None in every maze.", "quantifier": "every supported W, start, goals and wall predicate", "why_tests_cant": "tests never make start a goal", "anchors": ["mousecore2/src/solve/search.rs: Searcher::bfs_tree"]}
{"id": "C15", "title": "Exploration only ends when the best path is fully known", "statement": "When search returns Ok(None), the path that shortest_path finds treating unknown walls as open consists, apart from its start, only of coordinates known to be open, including every coordinate passed over inside each run.", "quantifier": "every supported W, start, goals, current and wall state function", "why_tests_cant": "all partially explored mazes", "anchors": ["mousecore2/src/solve/search.rs: Searcher::search, Searcher::unchecked_walls, Coordinate::intermediate_coords"]}
{"id": "C16", "title": "When exploration ends", "statement": "search returns Ok(None) exactly when an optimistic shortest path exists and neither a wall position nor a cell centre passed by it is reported as unknown. It is false that it ends as soon as every wall position on that path is known to be open: there are wall maps where all of them are known and search still returns a Commander, because the state of a cell centre is stored in the slot of a side wall that is not on the path.", "quantifier": "every supported W, start, goals, current and wall state function; an explicit map for the negative part", "why_tests_cant": "needs mazes where side walls of a vertical run are unknown", "anchors": ["mousecore2/src/solve/search.rs: Searcher::unchecked_walls, Coordinate::intermediate_coords"]}
{"id": "C17", "title": "Which coordinates the callbacks see", "statement": "The answer of shortest_path depends only on the answers of is_wall for coordinates that Coordinate::new accepts. For search this is false: two wall_state functions that agree on all such coordinates can make it answer differently (it also asks for cell centres).", "quantifier": "every supported W, start, goals and pair of wall functions; an explicit pair for the negative part", "why_tests_cant": "tests use callbacks that mask the difference", "anchors": ["mousecore2/src/solve/search.rs: Coordinate::intermediate_coords, Coordinate::new_relative"]}
{"id": "C18", "title": "Exploration moves toward the nearest interesting wall", "statement": "When search returns a Commander, its candidate list is a rearrangement without repetition of the (at most six) adjacent walls of the current one that are not known to exist, and its first element is the first step of a shortest walk, over adjacent coordinates not known to be walls, from the current coordinate to a closest unexplored wall of interest.", "quantifier": "every supported W, start, goals, current and wall state function", "why_tests_cant": "all partially explored mazes", "anchors": ["mousecore2/src/solve/search.rs: Searcher::candidates, Searcher::search, Coordinate::neighbors"]}
{"id": "C19", "title": "search reports Unreachable exactly when exploration cannot continue", "statement": "search returns Err(Unreachable) exactly when either no goal other than start is reachable treating unknown walls as open, or there is an interesting unexplored wall but none can be reached from the current coordinate.", "quantifier": "every supported W, start, goals, current and wall state function", "why_tests_cant": "all partially explored mazes", "anchors": ["mousecore2/src/solve/search.rs: Searcher::search, Searcher::candidates"]}
{"id": "C20", "title": "Commander never sends the robot into a wall", "statement": "next_coordinate returns Ok(Some(c)) only if c is a candidate now known to be open and all earlier candidates are known walls; Ok(None) exactly when the first candidate that is not a known wall is still unknown; Err exactly when all candidates are known walls. force_next_coordinate returns the first candidate known to be open, if any.", "quantifier": "every commander and every wall state function at call time", "why_tests_cant": "the wall state changes between search and next_coordinate", "anchors": ["mousecore2/src/solve/search.rs: Commander::next_coordinate, Commander::force_next_coordinate"]}
{"id": "C21", "title": "Robot search state stays consistent over every history", "statement": "Starting from any SearchState accepted by new, any sequence of update calls keeps the posture perpendicular to the wall the robot is on and never panics; update returns None (and changes nothing) exactly when the given coordinate is not adjacent; otherwise it moves to the given coordinate facing away from the cell just crossed, or, for walls behind, turns round in place.", "quantifier": "every supported W, initial state and every finite sequence of coordinates", "why_tests_cant": "histories are unbounded", "anchors": ["mousecore2/src/solve/search.rs: SearchState::new, SearchState::update"]}
{"id": "C22", "title": "Every commanded coordinate is executable", "statement": "Any coordinate returned by a Commander that search produced for the robot's current coordinate is accepted by SearchState::update (never None), and after at most one turn-round the robot really arrives there.", "quantifier": "every supported W, start, goals, robot state, wall states before and after", "why_tests_cant": "crosses three components over all mazes", "anchors": ["mousecore2/src/solve/search.rs: Searcher::search, Commander::next_coordinate, SearchState::update"]}
{"id": "C23", "title": "Exploration is complete and optimal", "statement": "When search returns Ok(None) and every wall marked checked is marked truthfully, the path known to be open has the minimum number of runs in the true maze, and shortest_path on the known walls (unknown counted as wall) returns the same path as shortest_path on the true maze.", "quantifier": "every supported W, true maze, truthful partial map, start, goals", "why_tests_cant": "the integration tests assert it on five mazes only", "anchors": ["mousecore2/src/solve/search.rs: Searcher::search, Searcher::shortest_path", "mousecore2/tests/search.rs: test_search"]}
{"id": "C24", "title": "Exploration terminates with the right answer", "statement": "The exploration loop (search, sense, next_coordinate, update) with sensors that tell the truth and decide what the commander asks ends after a bounded number of rounds, without panic: with Ok(None) and the shortest path of the true maze known when some goal can be reached in the true maze, with Err(Unreachable) when none can. Even for sensors that do not tell the truth the number of rounds is bounded, provided known states stay known.", "quantifier": "every supported W, true maze, start, goals, robot state, sensor behaviour", "why_tests_cant": "liveness over unbounded executions", "anchors": ["mousecore2/src/solve/search.rs: Searcher::search, Commander::next_coordinate, SearchState::update", "mousecore2/tests/search.rs: test_search"]}
{"id": "C25", "title": "Run nodes exist exactly at legal poses", "statement": "Node::new(x, y, posture) returns Some exactly when W is a power of two up to 64, x and y are below 2W, and either the posture is axis-parallel at a cell centre (both even) or diagonal at a wall (one even one odd).", "quantifier": "every W, x, y: u8 and posture", "why_tests_cant": "full domain", "anchors": ["mousecore2/src/solve/run.rs: Node::new, RunCoord::new"]}
{"id": "C26", "title": "Node identifiers are a bijection", "statement": "Converting a node to its internal identifier and back gives the same node; distinct nodes have distinct identifiers and table slots below 16*W*W, inside the tables.", "quantifier": "every supported W and every node", "why_tests_cant": "all nodes for all widths", "anchors": ["mousecore2/src/solve/run.rs: Node::as_index, From<Node> for NodeId, From<NodeId> for Node"]}
{"id": "C27", "title": "Run successors are exactly the drivable moves", "statement": "The moves considered from a node by the run planner are exactly the geometric straight runs, diagonal runs and slaloms of its posture whose end lies in the maze and all of whose crossed walls are open; each end pose is again a legal node.", "quantifier": "every supported W, node and wall predicate", "why_tests_cant": "all mazes, all four rotations", "anchors": ["mousecore2/src/solve/run.rs: Node::successors, Node::succs_flow, Node::new_relative"]}
{"id": "C28", "title": "Every planned step has a trajectory", "statement": "For every node and each of its moves, trajectory_kind returns the trajectory with the same shape and length as the edge that was costed; and conversely trajectory_kind returns Some only for pairs of poses related by such a shape.", "quantifier": "every supported W, node, wall predicate; every pair of nodes", "why_tests_cant": "tests execute two mazes; a None makes the caller panic", "anchors": ["mousecore2/src/solve/run.rs: Node::trajectory_kind, Node::successors, EdgeKind, TrajectoryKind"]}
{"id": "C29", "title": "Run path is a valid path with the reported cost", "statement": "When shortest_path returns (path, cost), path starts at the given start, ends at a node accepted by is_goal, visits no pose twice, every step is a drivable move, and cost is the exact sum of into_cost over the steps and below the maximum of the cost type (no saturation has happened).", "quantifier": "every supported W, start, goal predicate, wall predicate, cost function, cost type", "why_tests_cant": "all mazes and cost functions", "anchors": ["mousecore2/src/solve/run.rs: shortest_path"]}
{"id": "C30", "title": "Run path is cheapest", "statement": "No path of drivable moves from start to a goal has a smaller total cost than the one returned, and None is returned exactly when no goal can be reached with a total cost below the maximum of the cost type, provided the fixed-size priority queue never drops an entry.", "quantifier": "every supported W, start, goal predicate, wall predicate, cost function, cost type, every tie-breaking order of the heap", "why_tests_cant": "competing paths are exponentially many; tie-breaking is unspecified", "anchors": ["mousecore2/src/solve/run.rs: shortest_path"]}
{"id": "C31", "title": "When the run planner's capacities suffice", "statement": "shortest_path terminates for every supported size, and the only panic possible is that the path found has more than 1024 poses. For W <= 8 it never panics and never drops a queue entry, whatever the maze and cost function; for every supported W it does not panic when every move costs at least q and the maximum of the cost type is at most 1024 q.", "quantifier": "every supported W, start, goal predicate, wall predicate, cost function", "why_tests_cant": "worst case over all mazes and cost functions", "anchors": ["mousecore2/src/solve/run.rs: shortest_path (QUE_MAX, PATH_MAX, NEIGHBOR_MAX)"]}
{"id": "C32", "title": "Slalom geometry agrees with the planner's grid", "statement": "For every move the planner can use, starting at the pose of the first node and driving the associated trajectory (the straight, or the configured slalom: straight, curve end point, straight) ends at the pose of the second node: straights exactly, slaloms within 3e-7 of the square width per axis, headings up to whole turns.", "quantifier": "every node, every slalom edge, every square width", "why_tests_cant": "tests drive two mazes and never check the end pose", "anchors": ["mousecore2/src/trajectory/slalom.rs: SlalomConfig::new, create_params, parameters", "mousecore2/src/wall.rs: Pose::from_node", "mousecore2/src/solve/run.rs: Node::trajectory_kind"]}
{"id": "C33", "title": "Search moves land on the next search pose", "statement": "Driving the trajectory associated with Front, Right, Left or Back from Pose::from_search_state of the old state ends at Pose::from_search_state of the new state, within 6e-9 of the square width, if the square width is 0.09 m or the front offset zero. Otherwise every turn misses by exactly front offset times (square width / 0.09 m - 1) along the old heading, because the offset is scaled by 0.09, and by no more than that (plus 6e-9 of the square width) per axis.", "quantifier": "every state, adjacent coordinate, front offset", "why_tests_cant": "tests use square width 0.09 only", "anchors": ["mousecore2/src/trajectory/slalom.rs: SlalomConfig::new", "mousecore2/src/wall.rs: Pose::from_search_state", "mousecore2/src/solve/search.rs: SearchState::update"]}
{"id": "C34", "title": "A sensed wall is a wall of the robot's own cell", "statement": "When PoseConverter::convert returns a wall for a pose with coordinates in [0, 128 cells), the pose is in the free space of its cell, the wall is the side of that cell through which the ray leaves the free space, existing_distance is the distance along the ray at which it does, larger than the ignore length, and not_existing_distance the (strictly larger, if half the wall width is below the ignore radius) distance at which the ray would leave the free space extended by the next cell; and the line of the ray keeps the ignore radius from both pillars at the ends of the side the robot looks at (less than 45 degrees off). Conversely such a wall is returned whenever it belongs to the maze, it is further than the ignore length and no pillar of that side (or of the cell) is near the line of the ray. At every pose a returned wall belongs to the maze and has finite distances.", "quantifier": "every pose (real-number model), every cell width in whole millimetres, every wall width below it, every order of equal distances", "why_tests_cant": "continuum of poses", "anchors": ["mousecore2/src/wall.rs: PoseConverter::convert, remquof_with_width"]}
{"id": "C35", "title": "What poses outside the maze yield", "statement": "convert returns None for every pose with a negative coordinate. For a pose right of or above the maze, less than 128 cells from the origin, it returns at most the outer wall, and only from the cell directly next to that wall. At 128 cells the cell number wraps: 128 cells right of the first cell the wall right of the first cell is returned.", "quantifier": "every pose (real-number model)", "why_tests_cant": "continuum of poses", "anchors": ["mousecore2/src/wall.rs: PoseConverter::convert"]}
{"id": "C36", "title": "Wall probability stays a probability", "statement": "For every monotone rounding of the arithmetic, a call of detect_and_update with a finite distance and positive deviation keeps every stored existence probability in [0, 1], or it panics in its expect. It panics only when the squares of the scaled deviations from both expected distances overflow, and a call in which they do overflow never returns a report. A history without such an observation never panics.", "quantifier": "every history of observations, every positive deviation, every rounding mode", "why_tests_cant": "continuum of observations and float rounding", "anchors": ["mousecore2/src/wall.rs: WallDetector::detect_and_update, Probability"]}
{"id": "C37", "title": "Wall evidence is combined by Bayes' rule in any order", "statement": "Over exact arithmetic the posterior odds after an observation are the prior odds times the likelihood ratio of the two hypotheses, so the belief after a set of observations of a wall does not depend on their order.", "quantifier": "every prior, every finite list of observations and every permutation of it (while undecided)", "why_tests_cant": "all permutations of unbounded lists", "anchors": ["mousecore2/src/wall.rs: WallDetector::detect_and_update"]}
{"id": "C38", "title": "Certain walls are frozen, uncertain reports may be revised", "statement": "Once the probability of a wall is 0 or 1 (within machine epsilon) detect_and_update never changes it and returns None for it. While it is not, whatever was reported before, there is an observation after which the wall is reported as present and one after which it is reported as absent.", "quantifier": "every history of observations", "why_tests_cant": "unbounded histories", "anchors": ["mousecore2/src/wall.rs: WallDetector::detect_and_update, WallDetector::with_walls"]}
{"id": "C39", "title": "Perfect measurements settle every wall correctly", "statement": "If an observed distance equals the expected distance for the true state of the wall, belief in the true state never decreases, and after finitely many such observations the wall is reported with its true state, whatever undecided belief it started from.", "quantifier": "every prior at least machine epsilon away from 0 and 1, every geometry with distinct distances, every deviation", "why_tests_cant": "limit behaviour over unbounded repetitions", "anchors": ["mousecore2/src/wall.rs: WallDetector::detect_and_update", "mousesim2/src/lib.rs: Simulator::distance_from_wall"]}
{"id": "C40", "title": "Detector seeded from a map agrees with the map", "statement": "WallDetector::with_walls gives probability 1, 0 or 1/2 to every wall according to its state, for every wall of the maze, without panicking.", "quantifier": "every supported W and wall map", "why_tests_cant": "all maps", "anchors": ["mousecore2/src/wall.rs: WallDetector::with_walls"]}
{"id": "C41", "title": "Straight trajectory respects its limits", "statement": "At every time, the generated target has speed between 0 and v_max, acceleration magnitude at most a_max and jerk magnitude at most j_max.", "quantifier": "every v_max, a_max, j_max > 0, distance, 0 <= v_start, v_end <= v_max and every time (real-number model)", "why_tests_cant": "continuum; proptest samples with tolerance 1e-2", "anchors": ["mousecore2/src/trajectory/straight.rs: StraightCalculatorGenerator::generate_with_terminal_velocity, OverallCalculator::calculate"]}
{"id": "C42", "title": "Straight trajectory ends at its destination", "statement": "From the end time on the target is exactly the requested signed distance from the start, with zero acceleration and the reported terminal velocity. Speeding up, the terminal velocity is the requested one or the largest reachable one, up to a search step of 2^-25 of the range. Slowing down, it is the requested one whenever there is room for every velocity between; the claim that it is whenever the requested one is reachable is false: braking distance is not monotone in the final velocity, and a robot slower than a_max^2/j_max asked to stop within exactly its stopping distance is given a terminal velocity of at least half its speed.", "quantifier": "every limit and request (real-number model)", "why_tests_cant": "continuum", "anchors": ["mousecore2/src/trajectory/straight.rs: generate_with_terminal_velocity, OverallCalculator::calculate, calculate_reachable_velocity"]}
{"id": "C43", "title": "Trajectory derivatives are consistent", "statement": "The reported acceleration is the time derivative of the reported velocity at every time, the reported velocity that of the reported position between start and end, and the reported jerk that of the acceleration except at finitely many instants; the acceleration changes no faster than the jerk limit; the position moves steadily from start to destination. The one discontinuity is a jump back of the position at the start, when the terminal velocity cannot be reached by braking within the distance, by what is missing. When the mouse is to stop or to keep at least half its speed, this is at most what it covers in the time in which it could change its speed by the resolution of the velocity search; asked for a third of its speed, it may be 0.2 percent of the distance.", "quantifier": "every limit, start and end velocity, every time (real-number model)", "why_tests_cant": "continuum; tests compare finite differences with a coarse tolerance", "anchors": ["mousecore2/src/trajectory/straight.rs: AccelerationCalculator::calculate, generate_acceleration"]}
{"id": "C44", "title": "Trajectories have a finite, predictable number of samples", "statement": "A straight, spin or curve trajectory yields floor(t_end/period)+1 samples and then None; a stop trajectory yields ceil(t_end/period) samples; shifting changes no count.", "quantifier": "every period > 0 and end time (real-number model)", "why_tests_cant": "unbounded iteration", "anchors": ["mousecore2/src/trajectory/straight.rs: StraightTrajectory::next", "mousecore2/src/trajectory/spin.rs: SpinTrajectory::next", "mousecore2/src/trajectory/slalom.rs: CurveTrajectory::next", "mousecore2/src/trajectory.rs: StopTrajectory::next, ShiftTrajectory::next"]}
{"id": "C45", "title": "Which moves terminate", "statement": "A request ends after finitely many samples if and only if the robot starts with some speed, or is to end with some speed and has room for a speed of v_max/2^25, or has room for that speed and for stopping again. Otherwise, in particular for zero distance and zero velocities, the end time is nan or infinite and the iterator yields the start for ever.", "quantifier": "every limit and period", "why_tests_cant": "tests exclude the zero request", "anchors": ["mousecore2/src/trajectory/straight.rs: generate_constant, StraightTrajectory::next", "mousecore2/src/trajectory/spin.rs: SpinGenerator::generate"]}
{"id": "C46", "title": "Shifting a trajectory is a rigid motion", "statement": "ShiftTrajectory maps positions by rotation and translation by its pose, velocities, accelerations and jerks by the rotation only; distances and speeds are preserved and shifting by one pose and then another equals shifting by the composed pose.", "quantifier": "every pose and target (real-number model)", "why_tests_cant": "continuum", "anchors": ["mousecore2/src/trajectory.rs: ShiftTrajectory::shift"]}
{"id": "C47", "title": "Curves are driven at constant speed", "statement": "Every sample of a curve has forward speed exactly v, zero sideways speed, and acceleration and jerk that are the first and second derivative of the velocity vector; each step moves the position by at most v times the period.", "quantifier": "every curve, period and sample index (real-number model)", "why_tests_cant": "continuum; proptest samples", "anchors": ["mousecore2/src/trajectory/slalom.rs: CurveTrajectory::next"]}
{"id": "C48", "title": "Controller integrates the whole error history", "statement": "After any sequence of control calls since construction or reset, each motor voltage is feed-forward + P + D on the current sample plus ki times the sum of all previous errors times the period; reset forgets exactly that sum.", "quantifier": "every history of control/reset calls (real-number model)", "why_tests_cant": "unbounded histories", "anchors": ["mousecore2/src/control.rs: Controller::control, control_each, reset"]}
{"id": "C49", "title": "Supervisor intervenes minimally", "statement": "When the demands of all six pillars considered are met by the request, acceleration and jerk are returned unchanged. Otherwise the returned acceleration meets the demand of the most violated pillar with equality and is closest to the request among all accelerations that meet it; it never panics unless the robot is exactly on a pillar. The returned jerk is the requested one turned and scaled like the acceleration, and is infinite or nan when the requested acceleration is zero.", "quantifier": "every input, constraint with non-zero normal, and every competing acceleration (real-number model)", "why_tests_cant": "continuum of competitors", "anchors": ["mousecore2/src/control.rs: SupervisoryController::apply_constraints, supervise"]}
{"id": "C50", "title": "Which pillars the supervisor guards", "statement": "For a robot in cell (i, j) with i, j <= 124 the six pillars considered are the corners of the diagonally next cell, (i+1, j+1) to (i+2, j+2), and the two pillars beyond one of its sides; the lower left corner (i, j) of the robot's own cell is never considered, so a robot at rest arbitrarily close to it is not corrected although the demand for that pillar is violated.", "quantifier": "every robot position", "why_tests_cant": "tests never place the robot near the lower-left pillar", "anchors": ["mousecore2/src/control.rs: SupervisoryController::nearest_pillars, remquof"]}
{"id": "C51", "title": "Angle normalisation", "statement": "normalize_angle returns an angle in (-pi, pi] that differs from its argument by a whole number of turns.", "quantifier": "every real angle", "why_tests_cant": "continuum", "anchors": ["mousecore2/src/control.rs: normalize_angle"]}
{"id": "C52", "title": "Tracking is exact on target", "statement": "If the state coincides with the target, navigate returns the target's own acceleration and jerk, and in the low-speed mode track commands exactly the target's speed, turn rate and their derivatives.", "quantifier": "every state/target (real-number model)", "why_tests_cant": "continuum", "anchors": ["mousecore2/src/control.rs: NavigationController::navigate, Tracker::track"]}
{"id": "C53", "title": "Estimator heading is the integral of the gyro", "statement": "After any sequence of estimates the heading equals the initial heading plus the sum of the angular velocities times the period, and the reported angular velocity is the last one.", "quantifier": "every history of sensor values (real-number model)", "why_tests_cant": "unbounded histories", "anchors": ["mousecore2/src/estimate.rs: Estimator::estimate"]}
{"id": "C54", "title": "Estimator velocity converges to the wheels", "statement": "With zero measured acceleration and constant wheel displacement the estimated speed error shrinks by exactly the factor alpha each step; with acceleration and wheel data off by at most dA and dW from the true speeds the error is at most alpha^n times the initial one plus a constant; with exact data the estimate is exact forever.", "quantifier": "every number of steps, alpha, period (real-number model)", "why_tests_cant": "unbounded histories", "anchors": ["mousecore2/src/estimate.rs: Estimator::estimate"]}
{"id": "C55", "title": "Straight driving is estimated as straight", "statement": "If every measured angular velocity is zero and the slip estimate starts at zero, heading and lateral position never change and the forward position advances by the estimated speed times the period each step. If no speed is measured from rest, the position never changes. The reported velocity always has the estimated speed as its length.", "quantifier": "every history (real-number model)", "why_tests_cant": "unbounded histories", "anchors": ["mousecore2/src/estimate.rs: Estimator::estimate"]}
{"id": "C56", "title": "Simulator voltage and speed stay bounded", "statement": "apply never stores a voltage beyond +-max_voltage and keeps voltages within it; over any history of apply/step calls forward and rotational speed never exceed the larger of the initial speed and gain times max_voltage; under constant voltages both approach their steady values geometrically.", "quantifier": "every history of apply/step (real-number model)", "why_tests_cant": "unbounded histories", "anchors": ["mousesim2/src/lib.rs: Simulator::apply, step, next_trans_vel, next_rot_vel"]}
{"id": "C57", "title": "Simulator sensors agree with its motion", "statement": "Encoder outputs add up to twice the average forward speed times the period and differ by the average turn rate times wheel interval times the period; a step of a robot that does not slide leaves it not sliding, moves it by the trapezoid of old and new velocity and turns it by the new turn rate; the accelerometer measures the change of velocity along the new heading.", "quantifier": "every simulator state (real-number model)", "why_tests_cant": "continuum", "anchors": ["mousesim2/src/lib.rs: Simulator::distance, step, angular_velocity"]}
{"id": "C58", "title": "Encoder counts survive counter wrap-around", "statement": "Over any sequence of angle() calls whose single movements (as reported by the counter, modulo 2^16) are below half of the 16-bit range in either direction, no call panics and the sum of the reported differences equals the true total movement, 1024 counts being one revolution; a movement of exactly half the range makes the unchecked negation overflow (a panic in a checked build) when the previous count was at least 2^15, and is otherwise reported as a backward movement.", "quantifier": "every sequence of counter values", "why_tests_cant": "unbounded histories and all 2^32 pairs", "anchors": ["sensors2/src/encoder.rs: MA702GQ::angle, get_lower_bits"]}
{"id": "C59", "title": "ToF readings are paired with requests", "statement": "Over any sequence of calls and bus failures, each successful distance() is preceded by its own successful request_polling() not used by an earlier successful distance(), and reports the thousandth part of the range register in metres; distance() without a pending request performs no bus traffic; a failed call leaves the pending flag unchanged.", "quantifier": "every sequence of calls and every pattern of bus failures", "why_tests_cant": "all failure schedules", "anchors": ["sensors2/src/tof.rs: VL6180X::request_polling, distance, is_polling_requested"]}
{"id": "C60", "title": "When ToF initialisation returns and when it cannot", "statement": "init on a freshly created driver returns with the sensor configured at the new address; calling init again on a driver whose address was already moved away from the default never returns, because the power cycle puts the device back to its default address while the driver keeps talking to the old one; a second init with an unchanged default address does return.", "quantifier": "every non-default address, every amount of retrying, against a device that forgets its address when power-cycled", "why_tests_cant": "tests have no device model", "anchors": ["sensors2/src/tof.rs: VL6180X::init, update_device_address"]}
{"id": "C61", "title": "IMU chip select is always released", "statement": "After any register access, whether or not the transfer failed, chip select has been driven high again, unless driving the pin itself failed; every transfer happens while chip select is low.", "quantifier": "every pattern of bus and pin failures", "why_tests_cant": "all failure schedules", "anchors": ["sensors2/src/imu.rs: write_to_register, read_from_registers"]}
{"id": "C62", "title": "IMU calibration removes a constant bias atomically", "statement": "If the sensor output is constant during calibrate, subsequent readings of the same raw value are zero; if any reading fails, calibrate returns an error and leaves both offsets unchanged.", "quantifier": "every raw value, previous offset and failure position (real-number model)", "why_tests_cant": "all failure positions", "anchors": ["sensors2/src/imu.rs: calibrate, angular_velocity, translational_acceleration, connect_raw_data"]}
{"id": "C63", "title": "Motor duty is always legal and brakes at zero", "statement": "For every voltage and positive battery voltage both duties lie between 0 and the maximum, at least one pin is at its maximum, the other falls in proportion to |voltage|/battery clamped to 1, and zero voltage gives both at maximum.", "quantifier": "every voltage, positive battery voltage and maximum duties (real-number model)", "why_tests_cant": "continuum", "anchors": ["sensors2/src/motor.rs: Motor::apply"]}
{"id": "C64", "title": "Voltmeter stays within the readings", "statement": "After construction and any number of updates the reported voltage lies between the smallest and the largest reading seen.", "quantifier": "every sequence of ADC readings, period and cut-off >= 0 (real-number model)", "why_tests_cant": "unbounded histories", "anchors": ["sensors2/src/voltmeter.rs: Voltmeter::new, update_voltage, voltage"]}
{"id": "C65", "title": "The estimator follows the simulated robot", "statement": "An estimator with the simulator's period that starts with the simulated robot's heading and reads its encoders, accelerometer and gyro after every step has exactly the robot's heading and turn rate after any history of voltages; driving straight with the speed changing by at most D per step, its speed is off by at most alpha^n times the initial error plus D/2.", "quantifier": "every history of voltages, every simulator and estimator state (real-number model)", "why_tests_cant": "unbounded histories over a continuum of voltages", "anchors": ["mousesim2/src/lib.rs: Simulator::step, distance, angular_velocity, translational_acceleration", "mousecore2/src/estimate.rs: Estimator::estimate"]}
{"id": "C66", "title": "A detector fed by the simulator learns the simulated maze", "statement": "A wall detector that starts fresh and is given the simulator's wall readings at any sequence of poses never panics, never believes a wall's state more likely to be the wrong one, and every wall or opening it reports is one; looking from one pose repeatedly it reports the true state after finitely many looks.", "quantifier": "every maze, every sequence of poses (exact arithmetic)", "why_tests_cant": "all poses and mazes, unbounded histories", "anchors": ["mousesim2/src/lib.rs: Simulator::distance_from_wall", "mousecore2/src/wall.rs: WallDetector::detect_and_update, PoseConverter::convert"]}
{"id": "C67", "title": "Where curves end", "statement": "The exact path of a curve ends on the bisector of its turn. The curve ends listed in the slalom table lie on that bisector within 3e-6 of the square width, except for FastRun45: there the straight after the curve starts at least 0.0017 square widths away from where the curve ends, whatever the speed.", "quantifier": "every curve, every slalom kind, direction, speed, period and square width (real-number model)", "why_tests_cant": "continuum of paths; the tests only look at samples of one parameter set", "anchors": ["mousecore2/src/trajectory/slalom.rs: CurveTrajectory::next, SlalomConfig::new", "mousecore2/src/trajectory/straight.rs: StraightCalculatorGenerator"]}
{"id": "C68", "title": "The parts of a slalom join", "statement": "Every sample of a slalom driven with constant speed goes forward with exactly that speed. The first sample is the origin; the curve starts less than one step after the last sample of the first straight; the second straight starts exactly at the listed end of the curve; the last sample is less than one step before the end of the slalom, in its heading; there are no further samples.", "quantifier": "every slalom parameters, speed and period (real-number model)", "why_tests_cant": "unbounded sample counts, continuum of parameters", "anchors": ["mousecore2/src/trajectory/slalom.rs: SlalomGenerator::generate_constant_slalom"]}
{"id": "C69", "title": "Speed changes only the rate", "statement": "With velocity, acceleration and jerk limits scaled by k, k², k³ and velocities by k, a straight profile is the same motion run through k times faster. Hence the heading of a slalom curve at time s depends on the speed and the reference speed only through s·v/vRef, its duration scales inversely, and the exact paths of two speeds are the same curve up to the ratio of the reference speeds. The curves of the slalom table end after finite time at every speed.", "quantifier": "every k > 0, limits, distance, velocities, time; every slalom kind, direction, square width, offset, speed, period (real-number model)", "why_tests_cant": "relates two unboundedly many runs to each other; the searches inside the generator have no closed form to compare with", "anchors": ["mousecore2/src/trajectory/straight.rs: StraightCalculatorGenerator::generate, calculate_reachable_velocity, OverallCalculator", "mousecore2/src/trajectory/slalom.rs: SlalomGenerator, SlalomConfig::parameters"]}
{"id": "C70", "title": "Where table curves really end", "statement": "Following its speed and heading exactly, every curve of the slalom table ends within 3e-6 square widths (in x and in y) of the end the table lists, at every speed, with the exception of FastRun45, which goes 0.0031705 to 0.0031707 square widths too far in both coordinates, so the straight after it starts with a jump (0.4 mm for 90 mm squares).", "quantifier": "every slalom kind, direction, square width, front offset with positive reference speed, speed, period (real-number model)", "why_tests_cant": "needs the exact integral of the heading; samples of the iterator only approximate it and only at one speed", "anchors": ["mousecore2/src/trajectory/slalom.rs: SlalomConfig::parameters, CurveTrajectory::next"]}
{"id": "C71", "title": "What meeting a pillar's demand is good for", "statement": "A robot that starts outside the avoidance distance of a pillar, does not approach it too fast at first, and whose acceleration satisfies the supervisor's inequality for that pillar at all times never comes closer to the pillar than the avoidance distance. But the correction the supervisor makes for the most violated pillar can make the acceleration violate the inequality of another pillar it considered and that the request respected.", "quantifier": "every motion (continuous time), supervisor settings, pillar; the second part is an existence claim", "why_tests_cant": "infinitely long continuous-time motions; the interplay of two pillars is invisible to the unit tests of one", "anchors": ["mousecore2/src/control.rs: SupervisoryController::supervise"]}
{"id": "C72", "title": "Tracking above the speed threshold", "statement": "Above the threshold a robot that moves along its heading with the commanded speed, acceleration, turn rate and angular acceleration has exactly the requested acceleration and jerk. If the acceleration of the robot is the one the navigation controller asks for, the error of position and velocity decays exponentially, at a rate that depends on the (positive) gains only, whatever the error at first and however the target moves.", "quantifier": "every state, target, request, positive gains, target motion, initial error, time", "why_tests_cant": "convergence is about all infinite continuous-time motions", "anchors": ["mousecore2/src/control.rs: NavigationController::navigate, TrackingController::track"]}
{"id": "C73", "title": "Tracking below the speed threshold", "statement": "While a robot executes the low-speed command, and its heading differs from the target's by less than half a turn, the tracking error b(x²+y²)/2+θ²/2 changes at the rate -k(b·xe²+θe²) with k = 2ζ√(ω²+b·v²), up to a term of at most |b·v·ye|·2|θe|^11/11! from the polynomial used for sin x/x, whose error is at most 2|x|^11/11! (times x).", "quantifier": "every state, target, settings; the polynomial bound for |x| ≤ 6", "why_tests_cant": "a statement about derivatives along all motions", "anchors": ["mousecore2/src/control.rs: TrackingController::track, sinc"]}
{"id": "C74", "title": "Single precision obeys the laws assumed", "statement": "Rounding to f32 gives a nearest f32 value, leaves f32 values alone, and overflows exactly from the middle between the largest value and 2^128 on. It obeys the laws of rounding assumed by the properties of the wall detector. So with f32 arithmetic no history of observations panics, when measured distances are within 2^20 m of the expected ones and deviations at least 2^-40 m, and every stored value is an f32 number between 0 and 1.", "quantifier": "every real number; every history of observations, every exp function that is 1 at 0 and not negative above", "why_tests_cant": "unbounded histories, 2^32 values per operand", "anchors": ["mousecore2/src/wall.rs: WallDetector::detect_and_update"]}
{"id": "C75", "title": "The belief computed in single precision is close to Bayes' rule", "statement": "With f32 arithmetic and an exp function of relative error e, one update of an undecided belief gives a value within e/2 + 2^-22 (K^2+3) of what Bayes' rule gives, when the measured distance is at most K <= 256 deviations away from both expected distances (including the cases in which exp or a product overflows).", "quantifier": "every f32 belief, real distances, deviation between 2^-60 and 2^60, exp function of relative error at most 1/8", "why_tests_cant": "an error bound over all inputs needs an analysis of all roundings", "anchors": ["mousecore2/src/wall.rs: WallDetector::detect_and_update"]}
{"id": "C76", "title": "Slaloms with changing speed are continuous drives", "statement": "A slalom of the table that speeds up before the curve and changes speed again after it ends after finitely many samples. Its samples start at the start pose with the start speed, all move forward along the heading, never sideways and never faster than v_max, and the last one is less than a step before the end pose of the slalom with a speed within a_max * period of the terminal velocity reported. Successive samples are at most one step apart, plus what the straights are too short for the change of speed, plus 1.5 times the error of the table; their speeds differ by at most a_max * period. The curve itself ends, at any speed, no further along than half the reference speed (in seconds) allows.", "quantifier": "every square width, slalom kind, direction, generator limits, period up to v_ref / (100 v_max), start, middle and end speed", "why_tests_cant": "a continuum of speeds and limits; the joints between the pieces depend on the last sample of each", "anchors": ["mousecore2/src/trajectory/slalom.rs: SlalomGenerator::generate_slalom_with_terminal_velocity", "mousecore2/src/trajectory/straight.rs"]}
{"id": "C77", "title": "The targets of a whole fast run", "statement": "For every path of at least two poses that the planner can return, the driver of the fast run generates a trajectory for every move and issues their targets one after the other, without panic, one every round, and then ends. The targets start at the first pose at rest, pass exactly at every pose of the path but the last, all go forward along the heading and never sideways or faster than v_max, and end less than a step before a pose within 3e-7 square widths of the last pose. Successive targets are at most 1.01 steps apart, plus 0.0048 square widths at a joint, plus the inaccuracy of the velocity search. Their speeds differ by at most a_max * period, except perhaps at the one joint before the third move, and not there when the path has at most five poses or when the shortest straight of the slalom table is enough to reach the speed of the run. With four poses or more the mouse stops at the goal if it has room for it; with two or three poses it never stops. When the start is a goal the driver panics.", "quantifier": "every maze, start, goal, cost function, path length, all admissible limits, periods and speeds", "why_tests_cant": "the test runs a handful of mazes with one setting; the joints depend on the whole history of speeds", "anchors": ["mousecore2/tests/run.rs", "mousecore2/src/run.rs: shortest_path, Node::trajectory_kind", "mousecore2/src/trajectory"]}
{"id": "C78", "title": "The targets of a whole search run", "statement": "Whatever the sensors report in each round, the main loop of the search run issues one target per round, and these are the beginning of a tour: from rest in the centre of the first square over its northern side at full speed, then one search move after the other (front, left, right, or to the centre, stop, half a turn on the spot, stop, and back), each towards an adjacent side that the wall map of some round has shown open, each starting where the robot state says and ending within 6e-9 square widths of the next one's start. Successive targets differ by at most 1.01 steps plus 4.6e-6 square widths in position and by at most a_max * period, plus the inaccuracy of the velocity search, in speed. The loop is left only when search returns Ok(None). It panics only where it says unreachable!: when a trajectory ends before the commander has named a coordinate, when search fails, or when the commander finds walls only; a wall the commander waits for and that is never decided leads to the first of these. If the map never changes what it has shown, tells the truth, and answers the commander within d rounds, where d + 1 rounds take at most 0.49 squares, then the loop ends: without panic and with the true shortest path in the map if a goal can be reached, with a panic if none can.", "quantifier": "every maze and goal set of every supported width, every history of wall maps, every number of rounds, all settings with room for stopping, the settings of the test among them", "why_tests_cant": "the test simulates a few mazes with one offset; what the loop does depends on the history of maps and on when a wall becomes known", "anchors": ["mousecore2/tests/search.rs:166-334", "mousecore2/src/search.rs: Searcher::search, Commander::next_coordinate, SearchState::update", "mousecore2/src/trajectory"]}
{"id": "C79", "title": "The slip angle", "statement": "The slip angle after an estimate is the one solution of an implicit Euler step of d(slip)/dt = omega - (slip_angle_const / |v|) slip, and zero at standstill. Through any sequence of sensor values it stays within M if it starts there and the turn rate times the speed stays within M times the constant. At constant speed and turn rate it tends geometrically to omega |v| / slip_angle_const, and at this value the estimated positions lie exactly on a circle of radius v / (omega cos slip), for any number of estimates. Every single estimate moves the position by at most |v| * period / cos slip, in the direction of the heading in the middle of the step less the slip angle.", "quantifier": "all sensor values, all lengths of the sequence, all positive periods and constants", "why_tests_cant": "the test compares a few simulated steps in which the robot does not slip", "anchors": ["mousecore2/src/estimate.rs:57-107"]}
{"id": "C80", "title": "The speed controllers make the simulated motors follow their reference", "statement": "Run `Controller::control`, `Simulator::apply` and `Simulator::step` in a loop, as the drivers of the search and fast run do, with a controller whose motor model is that of the simulator, no differential gain, positive integral gain, and gains small enough against the sampling (K*ki*T < 1 + K*kp and 2*K*kp*T < 4*T1 + 2*T + K*ki*T*T for both axes). There are constants C and a factor below 1, which depend on gains, motors and period only, such that for every start, every reference and every error of the measured speeds: as long as the voltages asked for are within the limit, speed error plus error sum in round n is at most C times (factor^n times its first value, plus the largest defect of the reference, plus the largest error of measurement), for speed and turn rate separately. The defect of a constant reference is zero, that of a constant acceleration a is a*T*T/(T1+T). If the feed-forward voltages of the reference leave room for C times the start error, defect and measurement error, the limit is never reached. With a constant reference and exact measurement speed and turn rate converge to exactly the reference and the error sums to zero.", "quantifier": "all gains, motor constants and periods with the two inequalities, all start states, all reference sequences, all sequences of measurement errors, all numbers of rounds", "why_tests_cant": "convergence is a statement about infinitely many rounds and about all references and disturbances; the tests look at one robot with one set of gains on finite runs", "anchors": ["mousecore2/src/control.rs:185-245", "mousesim2/src/lib.rs:62-113", "mousesim2/src/lib.rs:145-159", "mousecore2/tests/search.rs:145-163", "mousecore2/tests/search.rs:275-276"]}
{"id": "C81", "title": "The former solver returns a cheapest path for the costs it charges", "statement": "Let DijkstraSolver of the former core crate run on any graph whose nodes have distinct indices below the table size, identifiers that can be undone, and no panics in successors and distance. Charge an edge its cost plus the distance of its end from the first goal. If a path is returned, it starts at the start, ends in a goal, follows edges of the graph, visits no node twice, and no way to any goal is charged less. Err(UnfeasibleError) is returned exactly when the start is a goal or no goal can be reached below the largest cost value. The only panic possible is a full heap or path list, and there is none on graphs that are small enough. If all distances are zero the path is cheapest. With other distances, even consistent ones, it need not be: on a graph of four nodes a path of cost 10 is returned although one of cost 9 exists.", "quantifier": "all graphs, costs, distances, starts, goal lists and heaps that return some least entry", "why_tests_cant": "the test is one small graph with distance zero; the accumulated distances only matter on graphs with competing paths", "anchors": ["obsolete/mousecore/src/solvers/dijkstra.rs:1-119"]}
{"id": "C82", "title": "Codes and goals of the former run nodes", "statement": "In the former core crate, for every maze width that is a power of two up to 32: every pose inside the maze has an identifier that fits a NonZeroU16 and from which the pose is recovered. Every RunNode has an index below 16 * W * W, so inside the tables of the solver, and two different RunNodes never share an index. Position::new accepts exactly the positions inside the maze that are not pillars, and the goal list made from a position consists of exactly the four RunNodes there, without a panic.", "quantifier": "all supported widths, all poses, all positions", "why_tests_cant": "tests look at a few poses in one width", "anchors": ["obsolete/mousecore/src/nodes.rs:33-134", "obsolete/mousecore/src/nodes.rs:653-784"]}
{"id": "C83", "title": "The former run graph lists exactly the moves that can be driven", "statement": "For every RunNode of the former core crate, every set of blocked walls and every cost function that is defined on the patterns that occur, successors returns, without a panic and with at most 128 entries, exactly the poses that a straight, diagonal or slalom move reaches while crossing only open walls of the maze, each with the cost of its move. predecessors returns exactly the poses from which this pose is reached, seen as the moves of a mouse driving backwards. Between two poses of which none lies on a blocked wall the lists agree: n is a successor of m with cost c exactly if m is a predecessor of n with cost c. For a pose on a blocked wall they do not agree: it has predecessors that do not have it as a successor.", "quantifier": "all supported widths, all wall sets, all poses and all cost functions", "why_tests_cant": "the tests list the neighbours of a few nodes in small mazes with a fixed set of walls", "anchors": ["obsolete/mousecore/src/nodes.rs:270-348", "obsolete/mousecore/src/nodes.rs:786-1015", "obsolete/mousecore/src/mazes.rs:150-239", "obsolete/mousecore/src/utils/direction.rs:44-238"]}
{"id": "C84", "title": "What the plan of the former fast run minimises", "statement": "Let the former solver run on the former maze of run nodes, for any walls, from any start pose to any list of goal poses. A path that is returned is a path of drivable moves from the start to a goal that visits no pose twice, and no such path has a smaller sum of (cost of the move + cost of a straight from its end to the first goal). An error is returned only if the start is a goal or every path to a goal is charged the largest cost value or more. The only panic possible is a full heap or path vector; in mazes of up to 8 x 8 cells there is none, whatever the walls, and a path is returned exactly if one is charged less than the largest cost and the start is no goal. Both default cost tables are defined on all patterns that occur in mazes up to 32 x 32 and their sums do not overflow; longer straights make the table panic. The path is not the fastest one in general: with the default linear costs, in an otherwise empty maze of 4 x 4 cells, a path of cost 35 is returned where one of cost 34 exists.", "quantifier": "all supported widths, wall sets, starts, goal lists, cost functions that fit, and heaps that return some least entry", "why_tests_cant": "the tests compare one path in one maze", "anchors": ["obsolete/mousecore/src/solvers/dijkstra.rs:48-111", "obsolete/mousecore/src/mazes.rs:150-239", "obsolete/mousecore/src/nodes.rs:136-145", "obsolete/mousecore/src/pattern_converters.rs:14-183"]}
{"id": "C85", "title": "The former search graph", "statement": "In a maze of any supported width, for any walls and any cost function defined on the patterns that occur: the successors of a search pose (on a wall position, looking across it) are the poses reached by the four moves (through the cell ahead to the opposite wall or to either side, or turning around) across an open wall of the maze, each exactly once with the cost of the move, at most four; the predecessors are the open poses from which a move leads to the pose, whether or not its own wall is open. Nothing panics. Indices lie in the tables and identify the pose, and the identifier is decoded to the pose. route returns a move exactly if it leads from the one pose to the other, next returns the pose after a move exactly if that is in the maze. A move driven backwards is a move between the reversed poses. The wall of a search pose is the one at its position, and converting a wall to poses gives exactly the two poses on it.", "quantifier": "all supported widths, wall sets, cost functions, search poses", "why_tests_cant": "the tests list the neighbours of a few poses", "anchors": ["obsolete/mousecore/src/nodes.rs:147-162", "obsolete/mousecore/src/nodes.rs:419-596", "obsolete/mousecore/src/mazes.rs:150-239", "obsolete/mousecore/src/wall_manager.rs:25-42"]}
{"id": "C86", "title": "Which walls a former fast path still has to check", "statement": "For every drivable move between two run poses walls_between returns the walls that the move crosses, in the order in which they are crossed, without a panic. For a path of drivable moves find_unchecked_nodes returns both search poses of each wall crossed that is not checked, in order, and nothing else; it panics exactly if more than 8192 such walls are crossed.", "quantifier": "all supported widths, moves, paths and beliefs about the walls", "why_tests_cant": "the tests list the walls of a few moves", "anchors": ["obsolete/mousecore/src/nodes.rs:1017-1114", "obsolete/mousecore/src/mazes.rs:241-270"]}
{"id": "C87", "title": "Where the former search goes next", "statement": "When a shortest path from the start to a goal is found through all that is not known to be a wall, the candidates for the next pose are those from which one of the unchecked walls on that path can be reached by moves across open walls that do not pass another candidate; each exactly once, ordered by the least total cost of the way (move to the candidate and on to the wall), and only those with a total below the largest cost. There are no candidates if and only if no such way costs less than the largest cost. When the path crosses only checked walls, or there is no path, there are no candidates. The only panic is a full heap, and in mazes of up to 8 x 8 cells there is none, whatever the walls and whatever is known of them.", "quantifier": "all supported widths, beliefs about the walls, starts, goal lists, current poses, cost functions that fit, heaps that return some least entry, and sorts", "why_tests_cant": "the test follows one search in one maze", "anchors": ["obsolete/mousecore/src/commanders/search.rs:294-354", "obsolete/mousecore/src/commanders/search.rs:371-373", "obsolete/mousecore/src/mazes.rs:241-283"]}
{"id": "C88", "title": "A run of the former search", "statement": "Take any maze that is closed, any true knowledge of its walls that contains the opening ahead of the start, any course in which the sensors find out about further walls between the calls of next_command, and walls that are locked at any time. The commands returned lead from one pose to the next and only across openings of the maze: half a cell out of the start, then forward, right, left and back moves, and last half a cell into the middle of a cell; the reply that the tracking is finished comes exactly after the final command. While it waits, the commander waits for a wall of a candidate that has not been checked or is locked, otherwise it moves to a candidate. If the goals can be reached there is no panic, except for a full heap (not in mazes of up to 8 x 8 cells) and for a plan that passes the cell ahead twice. When the final command is given every wall on the planned path has been checked, and in the maze itself the path can be driven and is charged least among all paths to a goal (or the start is a goal, or no path costs less than the largest cost). If no move costs more than twice another, a run has at most (2 W W + 1)(8 W W + 1) + 1 commands. A maze whose goal cannot be reached makes the commander panic.", "quantifier": "all supported widths, closed mazes, starts and goals in cells, courses of the sensors, locks, cost functions that fit, heaps and sorts", "why_tests_cant": "the test follows one search in one maze with one course of the sensors", "anchors": ["obsolete/mousecore/src/commanders/search.rs:72-92", "obsolete/mousecore/src/commanders/search.rs:214-280", "obsolete/mousecore/src/commanders/search.rs:294-354", "obsolete/mousecore/src/mazes.rs:267-283", "obsolete/mousecore/src/nodes.rs:147-162"]}
{"id": "C89", "title": "The former wall memory", "statement": "Every wall of the maze has its own mutex in the wall manager. A new manager holds the probability 1 for the border and the wall right of the start, 0 for the wall ahead of the start, and 1/2 for all others. An attempt to read or update a wall fails exactly while its mutex is held elsewhere, and an update changes this wall only: after any attempts each wall has the value of the last successful update. Functions that wait return what the first successful attempt returns. With a threshold between 0 and 1/2 a wall counts as checked and missing below it, as checked and existing above one minus the threshold, as not checked otherwise. A text is read so that each wall exists or not according to the character at its place and is unknown if there is none; it panics exactly if a line is too long; the drawing of any maze gives exactly its walls. The display shows the value of every wall at its place. In a maze that follows the rules, with truthful updates, what the manager says is always true, and a search with it, with any walls locked during each call, is one of the runs of C88. With a single cell the new manager takes the border ahead for open; with threshold 0 nothing is ever checked.", "quantifier": "all supported widths, thresholds, rounding arithmetics, sequences of updates and locks, texts, mazes and runs", "why_tests_cant": "the tests read one drawing and four indices", "anchors": ["obsolete/mousecore/src/wall_manager.rs:18-200", "obsolete/mousecore/src/wall_manager.rs:234-310", "obsolete/mousecore/src/mazes.rs:16-40", "obsolete/mousecore/src/utils/probability.rs:13-47"]}
{"id": "C90", "title": "The former pose converter", "statement": "From a pose in a cell, up to 256 cells right of and above the origin, the wall returned is the side through which the ray of the sensor leaves the room of that cell; it belongs to the maze, and the two distances are those at which the ray leaves the room, and at which it would leave it if the wall were absent and the next cell open. Conversely such a wall is returned whenever the ray leaves the room further than the ignored length and no pillar is near. Within 128 cells the result agrees with the newer converter in wall and distances. At every pose whatsoever a returned wall belongs to the maze and its distances are finite. From cells of the maze the error for walls that cannot be made never occurs; left of and below the maze the pose is out of bounds; right of and above it only the border is ever seen. 256 cells to the right the walls of the maze appear again. A position that is not a number panics, an infinite one panics or is out of bounds depending on the direction.", "quantifier": "all supported widths, widths of cells and walls, poses, unstable sorts", "why_tests_cant": "the tests try a few poses of one maze", "anchors": ["obsolete/mousecore/src/wall_detector.rs:314-383", "obsolete/mousecore/src/wall_detector.rs:410-544"]}
{"id": "C91", "title": "The former wall detector", "statement": "A call of detect_and_update with up to six sensors, finite readings with positive deviations and any mutexes held does not panic. It reads one sensor after the other, each from where it was when it began to wait: a wall that certainly does not exist is ignored; one that certainly exists moves the position along the ray to the place that best fits the former position and the measured distance, the inverses of the variances being added; any other wall gets odds multiplied by the ratio of the likelihoods, unless its mutex is held. Settled walls keep their values, all values stay between 0 and 1 (in every rounding arithmetic and for any readings whatsoever, if the call returns), the deviation never grows beyond the mean of the former two. Over any number of calls each sensor remembers the pose at the first call since its last measurement. If each measurement is nearer to the right distance, a search with this detector is a session of C89: what the memory says is always true and the commands are a tour through openings. A wall measured n times with evidence at least m is certain or has odds at least exp(n m) times the former ones. A position taken to be exact is never corrected; an exact sensor on it makes the position not a number, and the call after that panics.", "quantifier": "all supported widths, converters that tell what is seen, memories, poses, sensors, readings, locks, sequences of calls, searches", "why_tests_cant": "the code has no test of the detector with several sensors, waiting sensors or several calls", "anchors": ["obsolete/mousecore/src/wall_detector.rs:49-71", "obsolete/mousecore/src/wall_detector.rs:142-266", "obsolete/mousecore/src/utils/probability.rs:13-47"]}
{"id": "C92", "title": "The former run commander", "statement": "A run commander is made for the cheapest plan from the current pose to the goal position that crosses only walls that are checked and absent; its current node becomes the last node of the plan, at the goal. Making it panics only if the start is already at the goal position, if every way there is charged the largest cost or more, or if a vector of the solver is full (impossible up to 8 x 8 cells). It then gives exactly one command for each move of the plan, in order, and reports the end for ever; it never panics and never reports a conversion error. Each command has the trajectory that leads from its node to the next node of the plan by a move across openings; if what is known of the walls is true, no command leads across a wall of the maze. Between any two poses a trajectory is found exactly if a move joins them, with one exception that no plan contains. The first two commands accelerate, of the others the last two decelerate; so a run of one or two commands never slows down.", "quantifier": "all supported widths, goals, starts, knowledge of walls, cost tables, numbers of calls", "why_tests_cant": "the code tests the commands of two paths; routes, speeds and goals of all paths in all mazes cannot be listed", "anchors": ["obsolete/mousecore/src/commanders/run.rs:34-47", "obsolete/mousecore/src/commanders/run.rs:144-167", "obsolete/mousecore/src/nodes.rs:576-643", "obsolete/mousecore/src/mazes.rs:333-356"]}
{"id": "C93", "title": "The former setup commander", "statement": "The setup commander chooses the first of front, right, left and back for which a plan from the turned pose to the goal exists; it gives this rotation once, then reports the end for ever, its current node is the turned pose, and the run commander can be made from there. In a cell of a closed maze whose costs can be paid (true for the default costs up to 16 x 16 cells) it is made exactly if the goal cell is another cell that is connected with the current one by walls that are checked and absent: every connection of cells can be driven with the moves of a fast run from one of the four headings. Otherwise it panics.", "quantifier": "all supported widths, cells, knowledge of walls, cost tables", "why_tests_cant": "that the moves of a fast run reach every connected cell is a statement about all mazes", "anchors": ["obsolete/mousecore/src/commanders/setup.rs:30-44", "obsolete/mousecore/src/commanders/setup.rs:180-186", "obsolete/mousecore/src/nodes.rs:1125-1147"]}
{"id": "C94", "title": "The life of the former robot", "statement": "From the construction of the search operator on, over any sequence of calls of Administrator::run without selection of a mode, while the walls are found out about truthfully: all commands of the search, the rotations, the returns and the fast runs form one continuous drive through openings of the maze. The modes follow the order search, (return setup, return, run setup, run) for each run, return setup, return, idle; a mode is left only when the agent has no command left, in a cell: at the goal after a fast run, at the start after a return. The interrupts are on exactly while there is an operator. A call never reports an operator error, and reports an unsupported mode exactly at the end of the last return; the operator is then lost and the next call panics. Before that a call panics only for a full vector (more than 8 x 8 cells), for a search that has lost its way, or if the search has ended in the start cell (which can happen). The number of commands is bounded by the width and the number of runs. Pressing the switch during a search panics whichever mode is selected; during a run the new operator starts at the end of the plan. An interrupt requests a selection exactly if the switch is pressed and the tick of the operator succeeds. A selection that does not panic sets the selected mode, clears the request, turns the interrupts on and has set the first command of an operator of that mode; selecting the idle mode fails, loses the operator and leaves the request, so that the next call panics.", "quantifier": "all supported widths, mazes, knowledge of walls at each call, answers of the agents, numbers of runs, lengths of life", "why_tests_cant": "the claim is about every interleaving of calls, sensor knowledge and agent states over a whole life in every maze", "anchors": ["obsolete/mousecore/src/administrator.rs:112-189", "obsolete/mousecore/src/operators/tracking.rs:51-146", "obsolete/mousecore/src/defaults/operator_store.rs:17-147", "obsolete/mousecore/src/defaults/operator.rs:22-52", "obsolete/mousecore/src/defaults/state.rs:106-113"]}
{"id": "C95", "title": "Targets of the former tracking manager under interrupts", "statement": "Whatever the interleaving of the periodic interrupt with the accesses of the main loop to the lock of the queue, the targets handed to the robot are those of all trajectories put in the queue, in order, each once, up to repetitions of the last one. A tick that finds the lock free hands out a new target unless everything is over. A tick panics exactly if it is the first and finds the lock held or nothing to hand out. The main loop never panics, at most three trajectories wait, set_command takes every command in the order of the commander, and run returns Ok only after every target of every command has been handed out; if all trajectories end and lock and main loop are served again and again, it does so.", "quantifier": "all interleavings of interrupts with lock accesses, all trajectories (any iterators), all sequences of answers of the commander", "why_tests_cant": "the claim is about every interleaving of an interrupt with the main loop", "anchors": ["obsolete/mousecore/src/trajectory_managers/tracking.rs:16-123", "obsolete/mousecore/src/operators/tracking.rs:51-146", "obsolete/mousecore/src/agents/tracking.rs:78-111"]}
{"id": "C96", "title": "Targets and emergencies of the former search manager under interrupts", "statement": "Whatever the interleaving of the interrupt with the main loop, nothing panics, and the targets handed out by the former search manager are those of the trajectories in order, never one twice, interrupted by emergencies: while the lock is held or the queue is used up, the targets are those of the emergency trajectory from the last target, which then stays at its end. After an emergency of n ticks at least n targets are left out, none otherwise, so the target of tick t is never one from before position t; it is exactly the one at position t as long as no trajectory with fewer targets left than the emergency had ticks is met. Commands are taken as in C95, and run returns Ok when all trajectories end and lock and main loop are served again and again.", "quantifier": "all interleavings, all trajectories and emergency trajectories (any iterators), all sequences of answers of the commander", "why_tests_cant": "the claim is about every interleaving and every length of emergency", "anchors": ["obsolete/mousecore/src/trajectory_managers/search.rs:19-150", "obsolete/mousecore/src/operators/tracking.rs:51-146"]}
{"id": "C97", "title": "What has been done when IMU initialisation returns", "statement": "When init of the inertial sensor driver returns, exactly the following was done in this order, with every failing register access repeated until a complete access succeeded: the sensor was reset (register 0x06 := 0x80); ten milliseconds were waited; register 0x00 was read until it answered 0xE0; the six configuration registers (0x06, 0x05, 0x7F, 0x01, 0x14, 0x7F := 0x01, 0x00, 0x20, 0x06, 0x00, 0x00) were written, each after waiting a millisecond; afterwards only measurements were read. With a device that never identifies itself as 0xE0, init never returns; with one that does and never fails it returns at the first try of everything.", "quantifier": "every behaviour of the bus, the pin and the device (any function of everything done so far), every amount of retrying, every previous state", "why_tests_cant": "all failure schedules, unbounded retries", "anchors": ["sensors2/src/imu.rs: ICM20648::init, check_who_am_i, write_to_register, read_from_registers"]}
{"id": "C98", "title": "Targets of a whole former fast run", "statement": "For every plan of the former run commander, the commands, converted to poses and turned into trajectories one after the other, give targets that start at the first pose at rest, pass exactly at every pose of the plan but the last, go only forward, and end less than a step before a pose within a millionth of a square width of the last. Successive targets are no further apart than a step plus the inaccuracies of tables and searches; their speeds differ by no more than the acceleration allows, except perhaps at one place (never when the shortest straight of the slalom table is enough for reaching the speed of the run, or with at most four commands). With three commands or more the run ends at rest if that straight is enough for stopping; with one or two it always ends at positive speed. The front offset has no influence. However the interrupts interleave with the main loop, the robot is handed a beginning of these targets, in order, up to repetitions of the last one; with a fair schedule whose first interrupt finds the lock free nothing panics, run returns Ok, and the robot has then been handed all of them.", "quantifier": "every maze of a supported width, every knowledge of walls, every start and goal position, all usable settings of speed, acceleration, jerk, period, width and offset, every interleaving of interrupts and main loop", "why_tests_cant": "unbounded set of plans, settings over the reals, all interleavings", "anchors": ["obsolete/mousecore/src/trajectory_generators/run.rs: RunTrajectoryGenerator::generate", "obsolete/mousecore/src/command_converter.rs: _convert", "obsolete/mousecore/src/commanders/run.rs: RunCommander", "obsolete/mousecore/src/trajectory_managers/tracking.rs: TrajectoryManager"]}
{"id": "C99", "title": "Targets of a whole former search run", "statement": "For every run of the former search commander in a maze that the sensors report truly, the commands, converted to poses and turned into trajectories one after the other, give targets that lead across real openings from the pose of each command to within 6e-9 of a square width of the pose of the next: the first from rest to search velocity, the last from search velocity to rest in the centre of a cell where the mouse stays for half a second, the others from and to search velocity, a turn back with a rest and a half turn in the cell centre. Every trajectory ends and is not empty; positions of successive targets are at most a step apart, and speeds differ by no more than the acceleration allows, also from one command to the next. In every turn back the commanded heading jumps back by about half a turn for a tenth of a second and then forward again. The emergency trajectory after any target starts at its pose, with search velocity whatever the speed of the target, and comes to rest half a square width less the offset ahead. However the interrupts interleave with the main loop, what the robot has been handed are targets of these commands at positions of this list, and of emergencies; with a fair schedule the run ends, all commands having been taken.", "quantifier": "every maze of a supported width, every behaviour of the sensors that reports truly, every start and goals, all usable settings, every interleaving of interrupts and main loop", "why_tests_cant": "unbounded explorations, settings over the reals, all interleavings", "anchors": ["obsolete/mousecore/src/trajectory_generators/search.rs: SearchTrajectoryGenerator", "obsolete/mousecore/src/command_converter.rs: convert", "obsolete/mousecore/src/commanders/search.rs: SearchCommander", "obsolete/mousecore/src/trajectory_managers/search.rs: TrajectoryManager"]}
{"id": "C100", "title": "The targets of a whole life of the former robot lead it phase by phase through the maze", "statement": "Take the former robot with usable settings (those of its search, those of its run, and a quarter turn that can be begun) and a maze as for C94. The rotation of a setup operator is a turn on the spot from the pose of its command by 0, -90, +90 or 180 degrees (negative is to the right), never faster than the configured angular velocity, and it ends in the heading the commander counts on. The commands of any life from the search on, at any time, are those of phases in the order of the modes, a search, and then rotations and runs in turns: all phases before that of the current mode are complete, and the current one has begun. The targets of each phase lead from its pose to the pose of the next one, through openings of the maze; and the first target of a phase can follow the last of the phase before: it is at rest, at most one step and 2e-6 of a square width further, and in the heading of the last target up to one step of the rotation and full turns.", "quantifier": "every usable configuration, every closed maze as in C94, every number of fast runs, every life (any order of learning about walls and any behaviour of the agents that accepts commands), every moment", "why_tests_cant": "A life has many operators that are created from the state of the one before; a test runs one maze with one configuration, and a wrong sign of a rotation or a pose that does not fit the next operator may only show in some cell or for some turn.", "anchors": ["obsolete/mousecore/src/trajectory_generators/setup.rs:61-101", "obsolete/mousecore/src/defaults/config.rs:193-218", "obsolete/mousecore/src/command_converter.rs:130-139", "obsolete/mousecore/src/administrator.rs:112-134", "obsolete/mousecore/src/defaults/operator_store.rs:93-147"]}
{"id": "C101", "title": "Voltages of the former controller", "statement": "In any arithmetic, with any references and measured values (numbers or not), every call of the former controller gives each motor exactly one voltage, first the left one, then the right one. Either it succeeds and neither voltage exceeds the fail-safe threshold (though it may not be a number), or it fails, both voltages are zero, and the error reports voltages of which at least one exceeds the threshold. On real numbers the voltages are difference and sum of two PID laws with feed-forward, whose integrals are the sums of all earlier errors times the period, those of failed calls included. Stopping sets both voltages to zero. Once a reference or measured speed is not a number, all voltages from then on are not numbers, they are applied, and no call fails.", "quantifier": "every sequence of calls, every settings, all values; any rounding for the fail-safe and for the effect of values that are not numbers", "why_tests_cant": "unbounded histories of an integrating controller over the reals; effects of values that are not numbers", "anchors": ["obsolete/mousecore/src/controllers.rs", "obsolete/mousecore/src/tracker.rs"]}
{"id": "C102", "title": "Dead reckoning of the former estimator", "statement": "On real numbers with positive settings the former estimator never panics. After any sequence of measurements the heading is the initial one plus the sum of the measured turns, and both standard deviations have grown by the delta once per estimate. Each estimate mixes the old speed plus the acceleration with the mean of the wheels, solves the implicit equation of the slip angle, and moves the position along the exact arc of a circle in the direction heading minus slip (below the threshold of the turn rate along the chord direction, with a bounded error). The error of the speed is forgotten geometrically and bounded by the errors of the sensors; the slip angle stays bounded; at constant speed a straight run and a circle with constant slip are reckoned without any error, for any number of estimates. A sensor that fails, never answers or says not a number makes the call panic, diverge or fail an assertion, the first one in the order left, right, acceleration, turn rate. The builder reports the first missing part in a fixed order; the constructor of the robot never passes the configured delta of the deviation to it.", "quantifier": "every sequence of measurements, all positive settings, all initial states and deviations", "why_tests_cant": "unbounded sequences over the reals; the exact arc and bounds for all settings", "anchors": ["obsolete/mousecore/src/estimator.rs"]}
{"id": "C103", "title": "Former tracker", "statement": "On real numbers the former tracker computes the same internal speed, the same reference and the same measured values as the newer navigation and tracker together, whatever the deviations of the position. Above the threshold of the speed its reference makes a robot accelerate exactly by the acceleration of the target plus the gains times the errors of velocity and position. If the robot is exactly on its target all the time, and the targets are a motion along their own heading from rest whose speeds fit the accelerations, then at every call, below and above the threshold alike, the voltages are those of the feed-forward alone, applied as long as the fail-safe allows.", "quantifier": "all states, targets, gains and thresholds; every sequence of feasible targets", "why_tests_cant": "identity of two control laws over the reals and over unbounded runs", "anchors": ["obsolete/mousecore/src/tracker.rs", "obsolete/mousecore/src/controllers.rs"]}
{"id": "C104", "title": "The former robot is blind for its own position", "statement": "Every call of the former robot estimates, then drives the motors, then looks with the distance sensors: what it does in a call never depends on what the distance sensors, the memory or the converter say in it, in any arithmetic, and if it fails the detector and the memory stay as they were. With fair settings and sensors that answer with numbers a robot never panics, also over many operators that hand on state and memory; all probabilities stay between 0 and 1; the heading changes by the sum of the measured turns; and the sum of the deviations of the position never grows, since the configured delta is ignored. If the position is taken to be exact at first (as in the default state) the distance sensors never have any influence on the position or on the motors: two lives with the same encoders, inertial sensors, targets and settings (even with different deltas), but different mazes, distance sensors and memories have the same deeds and end in the same state, that of a robot without distance sensors.", "quantifier": "every history of operators, calls and measurements, every supported width, every converter that sees the maze, every memory; any rounding for the order within a call", "why_tests_cant": "a relation between two unbounded executions for all mazes and measurements", "anchors": ["obsolete/mousecore/src/robot.rs", "obsolete/mousecore/src/estimator.rs:206-225", "obsolete/mousecore/src/wall_detector.rs"]}
{"id": "C105", "title": "Drift of the estimate of a simulated robot", "statement": "The estimator fed by the encoders and the inertial sensor of the simulator: driving straight with any voltages the errors of the single steps cancel, so that the error of the position is the initial one plus period * alpha / (1 - alpha) times the change of the error of the speed, exactly; it therefore stays bounded for ever, by half the largest jump of the speed times that factor. With arbitrary voltages the estimated heading is exact, the estimated speed stays within a bound given by the largest speeds, the period and the filter, and in every direction of the plane the position drifts by at most a stated rate times the time driven.", "quantifier": "all voltages, all numbers of steps, all settings with positive period, filter weight in [0,1), positive thresholds; slip bound below a right angle", "why_tests_cant": "bounds over unbounded drives with arbitrary voltages", "anchors": ["mousecore2/src/estimate.rs", "mousesim2/src/lib.rs"]}
{"id": "C106", "title": "Former simulator", "statement": "The former simulator (mousesim, and its copy in the test utilities) moves the robot and answers encoder and inertial sensor exactly like the newer one; over any history of calls the voltages stay within the limit and the speeds within bounds, and a robot that does not slide never does. A distance sensor reads the distance of the wall the former detector would see from its seat, or of what lies behind if this wall is not in the maze, and reports an error if nothing is seen: never a panic; walls read from the drawing of a maze are those of this maze. With the copy in the test utilities a robot that knows its pose searches any regular maze without a wrong entry in its memory, and the detector never moves it. The published copy swaps the axes of the mount, so that the detector moves a robot that knows its pose.", "quantifier": "all states of the simulator, all settings, all histories of calls, all mazes, all mounts and poses, up to six sensors, any busy mutexes", "why_tests_cant": "unbounded histories, continuous poses, all mazes; the tests use only one of the two copies", "anchors": ["obsolete/mousesim/src/lib.rs", "obsolete/mousecore/utils/src/sensors.rs", "obsolete/mousecore/src/wall_detector.rs"]}
{"id": "C107", "title": "Former robot in the former simulator", "statement": "A former robot (estimator, tracker, controller, wall detector) driven by the loop of the tests in the former simulator, with any targets, any maze and up to six sensors, from any state: no lap panics, each gives both motors a finite voltage within the fail-safe threshold, the error of its heading never changes, the deviations never grow, all probabilities stay between 0 and 1, and the outcome is unique. If it takes its position to be exact, then the estimated speed stays within a bound and in every direction of the plane the position drifts by at most a stated rate times the time driven. If moreover all targets lie on the line along which it stands at the start, both motors always get the same voltage, the robot never leaves the line, and the estimated position stays for ever within the largest jump of the speed over 4 pi times the cut-off frequency.", "quantifier": "all targets, mazes, memories, sensor mounts, numbers of laps; all settings with positive period, slip constant and threshold, non-zero model gains, non-negative lower bounds", "why_tests_cant": "closed loop of simulator and robot over unboundedly many laps with arbitrary targets", "anchors": ["obsolete/mousecore/src/robot.rs", "obsolete/mousecore/src/estimator.rs", "obsolete/mousecore/src/tracker.rs", "obsolete/mousecore/src/controllers.rs", "obsolete/mousecore/src/wall_detector.rs", "obsolete/mousesim/src/lib.rs", "obsolete/mousecore/utils/src/sensors.rs"]}
{"id": "C108", "title": "Former encoder, voltmeter and motors", "statement": "Over any sequence of calls of the former encoder, with movements of less than half the range of its counter between them, each call reports the distance rolled (minus the circumference per 1024 counts), through any number of wrap-arounds, so the distances add up to the whole movement; a movement of exactly half the range panics or is taken for one in the other direction. Creating the voltmeter panics if one of its first 100 readings fails, and otherwise stores their mean through the divider; nothing that is done with the voltmeter and the motors afterwards changes the voltage reported, so a motor gets the voltage asked for times the present battery voltage over the one at the start, cut off at the whole battery voltage, with the sign asked for, up to one step of the duty.", "quantifier": "all sequences of counter values, readings of the converter, voltages and maximum duties", "why_tests_cant": "arbitrary call sequences and 16-bit wrap-around; the drivers have no tests without hardware", "anchors": ["obsolete/sensors/src/encoder.rs", "obsolete/sensors/src/voltmeter.rs", "obsolete/sensors/src/motor.rs"]}
{"id": "C109", "title": "Former distance sensors, and the detector with them", "statement": "Whatever fails on the bus and whatever else is done there, each reading of a former distance sensor is the answer of the device to a call that saw its interrupt, read it and cleared it, scaled by the sensor's coefficients; it was asked for by an earlier call, with no reading and no other request in between; between two requests there is a reading. A device that loses a measurement is waited for for ever. If no request has failed, the pose the former wall detector remembers for the sensor is where the measurement not yet delivered was asked for; if one has, it may be an earlier one, however far away. A robot sure of its position with up to six such sensors on one bus, none of whose requests fails and whose measurements are right for the pose at which they were asked for, searches any regular maze without panic, never remembers anything wrong and is commanded along a tour through openings; the detector does not move it.", "quantifier": "all bus behaviours, histories of calls, poses, mazes, numbers of sensors up to six, mutexes held elsewhere", "why_tests_cant": "arbitrary interleavings and failures of bus operations over unbounded histories", "anchors": ["obsolete/sensors/src/tof.rs", "obsolete/mousecore/src/wall_detector.rs"]}
{"id": "C110", "title": "Former inertial sensor", "statement": "The former initialisation of the inertial sensor, which does not reset the offsets first, does the same operations with the same outcome as the newer one, whatever fails and whatever the offsets were, and leaves the same offsets: the means of the last 1000 readings. When it returns, reset, identification and configuration were done in this order and nothing else before measuring; it returns at the first try if nothing fails and register 0 answers 0xE0, and never if that register never does. In any sequence of public calls, whatever fails, transfers are framed by chip select, which is released afterwards.", "quantifier": "all bus behaviours (any function of everything done before), call sequences, numbers of retries", "why_tests_cant": "arbitrary failures of bus operations at any point; thousands of operations per call", "anchors": ["obsolete/sensors/src/imu.rs"]}
{"id": "C111", "title": "Former configuration builder", "statement": "After any sequence of setter calls and earlier calls of build on one former configuration builder, build fails naming the first required field (in the order of the fields) that has no value that still counts, and otherwise returns the configuration in which each field has the value set last or, for an optional field without one, its documented default. A call of build, whether it fails or not, takes the values of the required fields up to where it got out of the builder: until the start is set again every further build fails with \"start\".", "quantifier": "all sequences of calls, all values", "why_tests_cant": "arbitrary interleavings of 32 setters and failed and successful builds", "anchors": ["obsolete/mousecore/src/defaults/config.rs", "obsolete/mousecore/src/utils/builder.rs", "obsolete/mousecore/src/utils/macros.rs"]}
{"id": "C112", "title": "What the former operators hand on", "statement": "When the former administrator exchanges its operator, the old one is taken apart and a new one is made from its parts: no documented panic of the container occurs, the new operator has exactly the encoders, motors, inertial sensor and distance sensors of the old one, its maze and its wall detector use the same wall manager, and its robot has the settings of the configuration and the estimated state of the old one but knows nothing else of the past. But for that the administrator panics, succeeds, gives commands and changes mode exactly as the same administrator without a robot does on what the memory of its operator says; the motors are stopped exactly at an exchange, and the memory is changed only by interrupts. This holds through any sequence of runs and interrupts, whatever the sensors answer. An interrupt is one call of the robot: it panics if the robot does, fails exactly if the robot reports too high a voltage, and looks for a request of a mode exactly otherwise. A resource can be built exactly if nothing is missing, and otherwise the first missing part is named.", "quantifier": "all configurations, modes, commanders, beliefs, sensor answers, sequences of runs and interrupts, types of peripherals", "why_tests_cant": "ownership through arbitrarily many exchanges of operators of four kinds with arbitrary configurations", "anchors": ["obsolete/mousecore/src/defaults/operator_store.rs", "obsolete/mousecore/src/defaults/resource.rs", "obsolete/mousecore/src/defaults/state.rs", "obsolete/mousecore/src/administrator.rs", "obsolete/mousecore/src/robot.rs"]}
{"id": "C113", "title": "Life of the former machine with its robot", "statement": "Let the former machine begin a search on a new memory of a regular maze, with a sure position or not, and let the administrator be run and interrupted in any order, with sensors that answer with numbers and distance sensors that measure truthfully from where the robot takes itself to be. Then, through search, return and all fast runs, what the memory says is true of the maze; all commands ever given lead one after the other from the start through openings of the maze; their number is bounded; each change of mode is to the next one in order, with no command left, in a cell, at the start after a return and at the goal after a fast run. The machine ends with UnsupportedMode only after the last return. An interrupt never panics, whatever is measured; a run panics only for want of capacity in mazes wider than 8 cells, when the search has come back where it can find nothing new, or when it ended in the cell of the start.", "quantifier": "all mazes, widths, cost functions, configurations, sensor values, orders of runs and interrupts, numbers of fast runs", "why_tests_cant": "whole lives of the machine with real-valued sensors and asynchronous interrupts", "anchors": ["obsolete/mousecore/src/administrator.rs", "obsolete/mousecore/src/operators/tracking.rs", "obsolete/mousecore/src/robot.rs", "obsolete/mousecore/src/wall_detector.rs", "obsolete/mousecore/src/wall_manager.rs", "obsolete/mousecore/src/commanders/search.rs", "obsolete/mousecore/src/commanders/run.rs"]}
{"id": "C114", "title": "The whole search test", "statement": "Consider the integration test of the search as one program: simulator, estimator, trajectories, navigation, tracker, controller, planner, wall detector and wall map in its loop, and the assertion after it. On every maze that agrees with what is known in advance, for all goals, after any number of rounds, wherever the robot is and however well it follows its targets: the simulated maze is unchanged, everything recorded in the map is true and is kept, no look is inconclusive, and neither sensors, detector nor map make the test panic. The test is still running, has passed, or has panicked at one of the unreachable!() of its driver: the assertion that the recorded map and the maze have the same shortest path never fails. If the walls are seen before the last target of each trajectory is commanded, the test passes after finitely many rounds on every maze in which a goal can be reached, and panics on every other.", "quantifier": "all mazes of all supported widths from 2, goals, offsets up to 10 mm, numbers of rounds; for the map also all sensor poses, settings, gains, planners and trigonometric functions", "why_tests_cant": "the test runs on a few mazes with three offsets; here the outcome of its assertion is settled for every maze and every motion of the robot", "anchors": ["mousecore2/tests/search.rs", "mousesim2/src/lib.rs", "mousecore2/src/wall.rs", "mousecore2/src/solve/search.rs", "mousecore2/src/estimate.rs", "mousecore2/src/control.rs"]}
{"id": "C115", "title": "Walls are seen in time", "statement": "Consider the integration test of the search with its own sensor poses, widths and limits. A robot that takes itself to be within 1.62 mm (along either axis) and 1/40 radian of the pose at which a move of the search ends has its three distance sensors on the front, left and right wall of the square that it is entering. So, if in every round that commands the last target but one of a trajectory the robot takes itself to be within 1 mm and 1/40 radian of that target, all walls around the square ahead and the square behind are recorded before the last target is commanded: the planner never has to wait for a wall at the end of a trajectory, and the test passes after finitely many rounds on every maze in which a goal can be reached, and panics on every other.", "quantifier": "all mazes of all supported widths from 2 whose first square is no dead end, goals, offsets up to 10 mm, histories of the loop; real positions and headings", "why_tests_cant": "geometry of rays over real poses, and an invariant over all rounds of all searches in all mazes", "anchors": ["mousecore2/tests/search.rs", "mousecore2/src/wall.rs", "mousecore2/src/solve/search.rs", "mousesim2/src/lib.rs"]}
{"id": "C116", "title": "The search test passes on every maze with a straight way to the goal", "statement": "Consider the integration test of the search with its own controller, tracker, estimator, simulator, gains and limits, on a maze whose first squares form a straight corridor (walls on both sides of each square, none across) that contains all goals; the rest of the maze is arbitrary. Then in every round of the main loop the voltage stays below the limit of the simulator, the simulated robot and the place at which it takes itself to be lie exactly on the line of the commanded target with its heading, the estimated place is within 1 mm of the target and the robot itself within 1.05 mm. Consequently every wall is seen in time, the planner goes straight on to the goals, and the test passes after finitely many rounds.", "quantifier": "all mazes of all supported widths from 2 with such a corridor of any length, all non-empty lists of goals in it behind the first square, all offsets up to 10 mm, all rounds; exact real arithmetic", "why_tests_cant": "a feedback loop of controller, tracker, estimator and motor over thousands of rounds, for a continuum of offsets and all contents of the rest of the maze", "anchors": ["mousecore2/tests/search.rs", "mousecore2/src/control.rs", "mousecore2/src/estimate.rs", "mousesim2/src/lib.rs", "mousecore2/src/trajectory/straight.rs", "mousecore2/src/solve/search.rs"]}
{"id": "C117", "title": "How the integration test of the fast run can end", "statement": "Run the whole integration test of the fast run (planning, stringing the trajectories together, main loop of estimator, navigation, supervisor, tracker, controller and simulator) on any maze and any goals other than the start. Exactly one of these happens: the planner's path buffer overflows; no goal is found and the test panics; or a path to a goal is found, the loop is given a finite list of targets that go from the start to that goal with at most 1 m/s and 10 m/s², one per round, and the test passes after exactly as many rounds as there are targets, or fails in one of these rounds because the supervisor panics or because the voltages are not within 4 V. No other panic is possible, and the loop always ends. While the robot takes itself to be between the borders and not on a pillar, the supervisor does not panic. In mazes of at most eight squares the test panics before the first round exactly when no way to a goal is cheaper than the largest cost. With the start as result of the planner it panics in the first round.", "quantifier": "all mazes of all supported widths, all lists of valid goals, all priority queues, all numbers of rounds; exact real arithmetic", "why_tests_cant": "the two tests use two mazes with one goal square; the claim is about all mazes, goals and queue orders and excludes every other panic", "anchors": ["mousecore2/tests/run.rs", "mousecore2/src/solve/run.rs", "mousecore2/src/control.rs"]}
{"id": "C118", "title": "The planner of the fast run prefers a single move", "statement": "If a goal can be reached from the start by one move, no path to a goal costs less than that move and no other goal can be reached at the same cost, then the planner returns exactly that move, with any cost function and any order among equal entries of its queue, even if the queue overflows. With the costs of the integration test: if the first walls ahead of the start are open up to a goal, and no goal lies nearer to the border of the start, the planner returns the straight way to it.", "quantifier": "all supported widths, wall functions, goal predicates, cost functions, priority queues; all lengths of the straight way", "why_tests_cant": "independence of the queue order and of the rest of the maze", "anchors": ["mousecore2/src/solve/run.rs", "mousecore2/tests/run.rs"]}
{"id": "C119", "title": "The test of the fast run passes on every maze with a straight way to the goal", "statement": "Consider the integration test of the fast run with its own planner, trajectories, estimator, navigation, supervisor, tracker, controller and simulator, on a maze in which the first k walls ahead of the start are open, with the square behind them among the goals and no goal nearer to the border of the start; the rest of the maze is arbitrary. Then the test passes, after exactly 230 rounds for one square, 322 for two and 90 k + 136 for k from three on. In the round of every target the robot takes itself to be, and is, exactly on the middle line with heading north; the place it takes itself to be at is within 2 mm of the target, its real place within 2.05 mm; the supervisor changes nothing. When the loop is left the robot is within 4.3 mm of the centre of the goal square. With this margin, a robot on the same line at 3 m/s that is asked to keep its speed would have its input changed by the supervisor.", "quantifier": "all mazes of all supported widths, all lengths k below the width, all lists of goals as described, all priority queues, all non-negative values of the constant pi; exact real arithmetic", "why_tests_cant": "a feedback loop over up to 2926 rounds, for all contents of the rest of the maze, all queue orders and all lengths; neither test uses such a maze", "anchors": ["mousecore2/tests/run.rs", "mousecore2/src/control.rs", "mousecore2/src/estimate.rs", "mousesim2/src/lib.rs", "mousecore2/src/trajectory/straight.rs", "mousecore2/src/solve/run.rs"]}
{"id": "C120", "title": "The clock of a trajectory in single precision", "statement": "A trajectory counts its time by adding the period in single precision. The clock never runs backwards and after n periods it is wrong by at most about n(n+1)/2 times the 2^24-th part of a period (not at all while the multiples of the period have 24 binary digits); it advances with every target up to 2^24 - 1 periods, but then stands still at some time of at most 2^25 periods. So every trajectory shorter than 2^24 - 1 periods ends; it has the same number of targets as with exact arithmetic if its end is not closer to a multiple of the period than the clock is wrong, and at most one more or less while the clock is wrong by less than a period; the same holds for stops. A trajectory of 2^25 periods or more never ends (with a period of a millisecond, one of 9.4 hours). Along a straight way, the place of a target differs from the place with an exact clock by at most the way at top speed in the time the clock is wrong by.", "quantifier": "all periods between 2^-126 and 2^100, all end times, all numbers of calls, all limits and distances of straight ways; the calculators of the places with exact arithmetic", "why_tests_cant": "the tests of the iterators run them for fractions of a second; the clock stands still only after 16 million calls", "anchors": ["mousecore2/src/trajectory/straight.rs: StraightTrajectory::next", "mousecore2/src/trajectory/spin.rs: SpinTrajectory::next", "mousecore2/src/trajectory/slalom.rs: CurveTrajectory::next", "mousecore2/src/trajectory.rs: StopTrajectory::next"]}
{"id": "C121", "title": "In single precision the control loop never computes an infinity or a NaN from plausible readings, however long it drives", "statement": "Take the estimator, navigation controller, tracker and controller with every operation rounded to single precision, called in turn as in each round of the search test. If the sensors report wheels no faster than W, accelerations that change the speed by at most w per period and rotations no faster than Omega, if the settings are moderate, if alpha damps the estimate to at most V, and if Omega*V is at most the constant of the slip angle, then after any number of rounds with any targets of sane size every voltage ever computed, and all that the robot remembers (place, heading, velocity, slip angle, xi, error sums), is a finite number; the velocity stays within V and the slip angle within 5/4 rad. The library functions sin, cos and sqrt need only be roughly right. In exact arithmetic each of the four functions of this model is the function of the real-number model, and a round is a round of the search test. On the other hand one reading of the gyro that is not a number makes the heading and all later voltages NaN, whatever follows.", "quantifier": "all periods from 1/4096 to 1/32 s, all bounds W, w, Omega, V, all settings within the stated sizes, all libraries within the stated accuracy, all finite sequences of plausible readings and sane targets", "why_tests_cant": "overflow of an accumulator would appear only after an astronomical number of rounds; a cosine of the slip angle near zero needs a rare combination of readings; tests drive a few seconds with one set of constants", "anchors": ["mousecore2/src/estimate.rs:57-107", "mousecore2/src/control.rs:80-153", "mousecore2/src/control.rs:157-174", "mousecore2/src/control.rs:197-245", "mousecore2/src/control.rs:257-272", "mousecore2/tests/search.rs:265-278"]}
{"id": "C122", "title": "The supervisor in single precision: no panic inside the maze, a panic next to its border", "statement": "Take the supervisor with every operation rounded to single precision and any library whose functions are roughly right. For a robot whose coordinates are at least 1/64 m from the two border lines through the origin, at most 8 m and at most 100 squares away, with at most 64 m/s along each axis, any request below 2^20 m/s² and moderate settings, none of its panics occurs (comparison of what is not a number, assertions, overflow of the pillar numbers, division by zero, unreachable), except the last one when the robot takes itself to be exactly on a pillar; the acceleration returned is finite, and the jerk too if one component of the request is at least 2^-10 m/s². In exact arithmetic it is the supervisor of the real-number model. Nearer to the border this is false: a robot at rest with the coordinate 2^-100 m makes an assertion fail, because the quotient by that number overflows.", "quantifier": "all positions, velocities and requests within the stated sizes, all settings and libraries", "why_tests_cant": "2^128 inputs; the failure needs coordinates that tests never produce", "anchors": ["mousecore2/src/control.rs:283-288", "mousecore2/src/control.rs:299-323", "mousecore2/src/control.rs:325-349", "mousecore2/src/control.rs:351-401"]}
{"id": "C123", "title": "How far the estimate in single precision is from the one in real numbers", "statement": "Run the estimator with every operation rounded to single precision, and the same estimator in real numbers, on the same readings of the sensors, however many. For plausible readings and suitable settings (as in C121) the two speeds never differ by more than (V+W+w)/(2^20 (1-alpha)), and the two slip angles never by more than a fixed multiple of that plus 2^-17: these errors do not add up, and whatever the functions sine and cosine are. The headings differ, during the first 2^22 estimates and as long as the heading is within H, by at most (H + Omega p + 2^-100)/2^23 per estimate. This growth is real: a heading of 2^k or more does not change at all, however long the robot turns, if it turns by less than 2^(k-26) per period, while the heading in real numbers grows with every period.", "quantifier": "all plausible readings, all numbers of estimates (headings: up to 2^22), all settings that suit, all libraries", "why_tests_cant": "needs a second, exact computation next to the code for all sequences of readings; the dead zone needs headings and rotations that the simulator never produces", "anchors": ["mousecore2/src/estimate.rs:57-107"]}
{"id": "C124", "title": "Straight and spin trajectories in single precision: they end, and all their targets are finite", "statement": "Generate a straight or a spin trajectory with every operation rounded to single precision, with any square root that is never negative and at most a fifth too large (but for the root of zero), any limits of moderate size (the highest velocity a number of single precision from 2^-8 to 2^8, acceleration at least half and jerk at least twice that number, at most 2^14 and 2^18), any first and requested last velocity from 0 to the limit, and any length, forwards or backwards, from 2^-14 s at full speed to 2^30. Then the duration is finite and at most five times the time at full speed plus 90 s, and at least the time at full speed up to 0.01 %; the trajectory hands out targets at the times of the clock, finitely many, and then nothing (if the duration is less than 2^24-1 periods); every target is finite and of the size of the request; the last velocity reported is between the first and the requested one. For limits like those of a mouse, shifted to any pose nearby, the targets are those C121 assumes: the control loop following them never computes an infinity or a NaN from plausible readings. In exact arithmetic trajectory and targets are those of the real-number model. From rest over no length to rest, however, the duration is NaN and the trajectory never ends.", "quantifier": "all limits, velocities, lengths and periods within the stated sizes, all times, all poses nearby, all libraries", "why_tests_cant": "the bisections, divisions and roots would have to be run for about 2^190 combinations of inputs; the property tests of the code compare targets only with a tolerance", "anchors": ["mousecore2/src/trajectory/straight.rs:55-127", "mousecore2/src/trajectory/straight.rs:129-192", "mousecore2/src/trajectory/straight.rs:195-227", "mousecore2/src/trajectory/straight.rs:245-294", "mousecore2/src/trajectory/straight.rs:340-371", "mousecore2/src/trajectory/spin.rs:32-75", "mousecore2/src/trajectory.rs:84-107"]}
{"id": "C125", "title": "Slaloms in single precision: they end, no target jumps or is infinite, and the control loop can follow them", "statement": "Compute the parameters of a slalom of any kind and direction in single precision, for squares from 1 cm to 5 m and a front offset from 0 to 3.6 cm: the rotation, lengths and end of the curve have the intended sizes and the velocity of reference is right up to 0.001 % of a square per second. Drive the slalom with such parameters, either with one speed or from one velocity over a middle one to a last one, at a speed on the curve of at most 2 m/s and from 13 % to 379 % of the reference, with periods from 1/2048 s to 1 s, every operation rounded, with any sine and cosine of at most 1.01 and any square root as in C124. Then it hands out finitely many targets - straight, curve, shifted straight - and then nothing. The curve starts where the first straight ends according to the parameters; its headings are those of the rotation at the times of the clock; from one target to the next the position changes by at most the speed times the period, up to 6 % and 0.04 m/s; no target is faster than the speed by more than 3 % and 0.002 m/s; all targets are finite and within fixed sizes. The speed on the curve is between the first and the middle velocity, and the last velocity reported between that and the requested one. Shifted to any pose within 250 m, these targets are among those of C121: the control loop following them never computes an infinity or a NaN from plausible readings. In exact arithmetic parameters and targets are those of the real-number model.", "quantifier": "all squares, offsets, kinds, directions, speeds, limits and periods within the stated sizes, all poses nearby, all libraries", "why_tests_cant": "the test of the code runs each of the 16 slaloms once for a few speeds and compares only the last target, with a tolerance; the positions of a curve are sums of thousands of rounded terms", "anchors": ["mousecore2/src/trajectory/slalom.rs:85-111", "mousecore2/src/trajectory/slalom.rs:113-149", "mousecore2/src/trajectory/slalom.rs:152-178", "mousecore2/src/trajectory/slalom.rs:229-283", "mousecore2/src/trajectory/slalom.rs:355-495", "mousecore2/src/trajectory/straight.rs:429-458", "mousecore2/src/trajectory.rs:84-118"]}
{"id": "C126", "title": "The search run in single precision: poses, targets, panics and the control loop along a whole search", "statement": "Run the search program (explorer, commander, trajectories, shifts to the pose of the state) with every operation on numbers rounded to single precision, for every supported maze width (powers of two up to 32), squares from 1 cm to 5 m, offsets up to 3.6 cm, a speed up to 2 m/s, and limits and periods as in C124 and C125. The pose of a search state agrees with the one in real numbers up to 0.3 millionths of a square for every square from the corner, and the angle up to a millionth; the same for the pose of a node of the run. Whatever the walls seen in every round, the targets handed out are those of the first trajectory followed by those of moves from side to adjacent side through sides seen open, each the trajectory that the state demands at the pose of the state; all are finite, being targets of moderate size shifted to a pose within 250 m; one per round; the program ends only when the explorer has nothing left to look for. If it panics, then because the targets ran out before the walls in front were known, or because the walls seen leave no way. If a period takes at most 49 % of a square, sensors that tell the truth, never take anything back and have settled what the commander asks for by the last target of a trajectory make the search end: without panic and with the shortest path of the maze in the map if a goal can be reached, with a panic if none can; with sensors that never settle it, the search panics. A control loop following the targets computes finite voltages from plausible readings. In exact arithmetic the targets, the round of the end and the panics are those of the real-number program of C78.", "quantifier": "all mazes, goals, wall observations per round, run lengths, squares, offsets, speeds, limits, periods and libraries within the stated sizes", "why_tests_cant": "the test searches a handful of mazes with one set of numbers on the rounding of the host and checks only that the goal is found", "anchors": ["mousecore2/tests/search.rs:168-228", "mousecore2/tests/search.rs:254-334", "mousecore2/src/trajectory.rs:116-118", "mousecore2/src/trajectory.rs:126-143", "mousecore2/src/trajectory.rs:148-168", "mousecore2/src/wall.rs:24-29", "mousecore2/src/wall.rs:32-55", "mousecore2/src/wall.rs:57-74"]}
{"id": "C127", "title": "The fast run in single precision: one trajectory per move, targets exactly at the poses, no panic and no gap along every planned path", "statement": "Run the program of the fast run (speeds of the moves, straights and slaloms, shifts to the poses of the path, the main loop) with every operation on numbers rounded to single precision, for every supported maze width with a maze of at most 7 m, squares of at least 1 cm, a speed up to 2 m/s and twelve squares per second, limits and periods as in C124 and C125, and limits with which a speed of at least two squares per second and 5 cm/s is reached from rest within 14 % of a square. For every path of at least two poses that the planner can return from a legal pose, whatever the walls and the costs: there is a trajectory for every move; the main loop issues all their targets one after the other, one per round, never panics, has no round without target, and ends after the last one; every target is finite, being a target of moderate size shifted to a pose within 250 m; and in the order of the path there is a target with exactly the coordinates and the angle of every pose of the path but the last, as computed in single precision. A control loop following the targets computes finite voltages from plausible readings. If the start is a goal, nothing is planned and the main loop panics in its first round. In exact arithmetic the targets, the round of the end and the panics are those of the real-number program of C77.", "quantifier": "all mazes, costs, starts, goals, paths of any length, run lengths, squares, speeds, limits, periods and libraries within the stated sizes", "why_tests_cant": "the test drives one path through one maze with one set of numbers on the rounding of the host and checks the simulated robot only", "anchors": ["mousecore2/tests/run.rs:116-122", "mousecore2/tests/run.rs:158-210", "mousecore2/tests/run.rs:214-256", "mousecore2/src/trajectory.rs:126-143"]}
{"id": "C128", "title": "Sensors and motors in single precision", "statement": "With binary32 arithmetic the encoder panics exactly as with real numbers and otherwise returns a finite angle right up to 3e-7 of itself; the distance sensor's metres are right up to 30 nm and strictly increase with the byte; after the two calibrations of `init` at rest, every angular velocity and acceleration is finite and off by at most 1.1e-4 of the noise + 1e-6 of the offset + 7e-7 of the raw value, and however the mouse moves during calibration they stay below 71 rad/s and 41 m/s^2; the voltmeter panics exactly as with real numbers and otherwise, after any number of updates, shows a finite non-negative voltage off by at most (13 + 2.6/(1-alpha)) millionths of the largest readable voltage; the motor gives one pin its maximum duty and the other within 1.04 of the ideal part of its maximum, never above it, while a NaN voltage (or a zero voltage with a battery of zero) drives it backwards at full power.", "quantifier": "for all counters, bytes, raw values, calibration series of 1000 values, sequences of converter readings of any length, periods and cut-off frequencies with 1e-4 <= p f <= 1000, voltages (also infinite or NaN) and batteries", "why_tests_cant": "Rounding errors of 1000 additions and of an unbounded number of filter updates depend on every value read; tests with a few chosen readings do not bound them, and none feeds NaN.", "anchors": ["sensors2/src/encoder.rs:36-47", "sensors2/src/tof.rs:219", "sensors2/src/imu.rs:110-133", "sensors2/src/imu.rs:198-233", "sensors2/src/voltmeter.rs:38-72", "sensors2/src/motor.rs:28-46"]}
{"id": "C129", "title": "The pose converter in single precision: which wall a distance sensor sees, from rounded poses and rounded trigonometry", "statement": "Run the default pose converter (squares of 9 cm, walls of 6 mm, ignored radius 1 cm around pillars and ignored length 8 mm) with every operation rounded to single precision and a library whose sine and cosine err by at most eps (eps at most 1/1000), for a sensor pose with coordinates up to 11 m and an angle up to 100 rad. If a wall is returned, it belongs to the maze and is a side of the cell whose free space contains the pose (up to 4 um); the returned distance is more than 7.999 mm and the point at that distance along the true ray is on that side, while the point at the other distance is on a side of the free space extended by the next cell, all up to 0.3 eps + 13 um; and the line of sight keeps 10 mm (up to eps/5 + 8 um) from both pillars of the side that the robot clearly looks at. Conversely, from inside a room (by eps + 50 um) a wall of the maze through which the true ray leaves the room, further away than 8.25 mm + 5 eps and with every pillar of the cell 10 mm + eps/5 + 8 um away from the line of sight, is returned, at the true distance up to 5 eps + 0.2 mm. For any pose, even with infinities or NaN, and any arithmetic and library, the distances that are compared are never NaN (so the comparison does not panic) and a returned wall is legal. An angle that is NaN is not noticed: from inside a room a wall to the right or below is then returned with two infinite distances. In exact arithmetic the converter is that of C34 and C35.", "quantifier": "all poses with coordinates up to 11 m and angles up to 100 rad, all supported maze widths, all libraries with trigonometric errors up to 1/1000, all sorting functions that sort", "why_tests_cant": "the tests of the converter compare a handful of poses; near the boundaries between two cells, two quarters of the circle and two sides of a cell, rounding changes the branch taken, and that this never changes the wall by more than micrometres is a statement about all poses", "anchors": ["mousecore2/src/wall.rs:256-298", "mousecore2/src/wall.rs:299-334", "mousecore2/src/wall.rs:335-470"]}
{"id": "C130", "title": "One look settles a wall, in single precision", "statement": "Run the wall detector together with its pose converter (default settings) with every operation rounded to single precision, a library whose sine and cosine err by at most 1/1000 and whose exponential function is 1 at 0 and at least 300 from 6 on, from poses with coordinates up to 11 m and angles up to 100 rad, with deviations between 1 um and 2.01 mm. The distances expected with and without a returned wall always differ by at least 17 mm. Therefore one reading within 7 mm of the distance that is expected for the true state of the wall makes the belief at least 0.96 or at most 0.04 and is reported with the true state, whatever was believed before unless a belief below 0.1 or above 0.9 was wrong; or, if the belief is already 0 or 1 within machine epsilon, nothing is reported and it stays right. Over any history of such readings from anywhere, in any order and number, starting from a new detector or from one seeded with a right map: no call panics, every report is conclusive and true, no belief is ever settled against the truth, and every wall that was seen or known at least once is settled for the truth and stays so.", "quantifier": "all mazes of supported width, histories of any length, poses, readings within 7 mm, deviations from 1 um to 2.01 mm, libraries with the stated accuracy, sorting functions that sort", "why_tests_cant": "the gap of 17 mm is a minimum over a continuum of poses near pillars and corners, and the belief depends on the whole history through rounded arithmetic; tests look at a few poses", "anchors": ["mousecore2/src/wall.rs:161-217", "mousecore2/src/wall.rs:299-334", "mousecore2/src/wall.rs:335-470", "mousesim2/src/lib.rs:176"]}
{"id": "C131", "title": "The simulator in single precision stays within bounds for ever and never teaches anything wrong", "statement": "Run the simulator of mousesim2 with every operation rounded to single precision, parameters of moderate size (period 0.1 to 2.5 ms, time constants up to 1000 periods, translation gain times largest voltage up to 99, rotation gain times largest voltage up to 308, wheel distance up to 10 cm; the values of the integration test are covered) and a library whose sine and cosine have squares that sum up to at most 1 + eta, eta up to half a period per time constant. From rest, after any number of calls of apply (with any voltages that are not NaN, also infinite ones) and step, in any order: the voltages are within the limit; forward speed and turn rate are within 2.4 and 1.02 times what the largest voltage drives them to; position and angle are below 2^24; encoder distances are at most 1 m per period; the accelerations are finite. A voltage that is NaN passes the limit: after the next step position, angle and velocities are NaN, and stay so whatever voltages follow. Distance sensors: for a simulated maze of which every wall is known, and any number of sensor poses with coordinates up to 11 m and angles up to 100 rad, the loop of distance_from_wall, detect_and_update and update never panics, the detector is never settled against the maze, the map never holds anything wrong and never loses anything, and every wall that the converter returned for one of the poses is in the map. With exact arithmetic this simulator is the one in real numbers (C56, C57).", "quantifier": "all sequences of calls of any length, all voltages, all parameters and libraries within the bounds, all mazes of supported width, all lists of sensor poses", "why_tests_cant": "the filter feeds its rounded output back for ever through rounded trigonometry, whose squares may sum up to more than 1, so whether errors accumulate is a question about infinitely many steps; NaN voltages never occur in the test", "anchors": ["mousesim2/src/lib.rs:36-178", "mousecore2/tests/search.rs:96-100", "mousecore2/tests/search.rs:241-251", "mousecore2/tests/search.rs:315-331"]}
{"id": "C132", "title": "The whole search test in single precision: its map stays true and its assertion never fails", "statement": "Run the main loop of mousecore2/tests/search.rs (simulator, estimator, trajectories, navigation, tracker, controller, planner, pose converter, wall detector, wall map) with every operation rounded to single precision, a library whose sine and cosine err by at most 1/1000 and whose exponential function is 1 at 0 and at least 300 from 6 on. As long as the sensors are at places within 11 m and 100 rad (which holds for sensors within 10 cm of the robot while the robot takes itself to be within 10 m and 95 rad), whatever the robot, its gains, its trajectories and its planner do: the simulated maze does not change, the detector is never settled against it, everything in the recorded map is true, nothing recorded is lost, and neither sensors, detector nor map panic: the loop panics, ends or goes on exactly when its driver does with the recorded maps. With usable settings of the search (C126) the test therefore goes on, passes, or panics at an unreachable!() of the driver; the assertion at its end never fails. If furthermore the robot covers at most 49 % of a square per period and walls are seen before the last target of a trajectory, the test ends: it passes if and only if a goal can be reached. The exception: after a round with a voltage that is not a number, the next round panics at an assert! of the detector unless the driver ends or panics before, or the detector is sure of the wall to the right of the first square (release build, a sort that keeps the order of equal distances). Without rounding, with the exact sine and cosine and settings by which the code can divide, the test is the one in real numbers (C114) round by round, as long as the robot does not estimate that it slides at a right angle. The test can pass: with the values of tests/search.rs and no rounding it passes after finitely many rounds on every maze that begins with a straight corridor to all the goals.", "quantifier": "all mazes of the supported widths, all goals, all robots and settings, all planners (for the map), all libraries within the error bounds, all numbers of rounds", "why_tests_cant": "The integration test runs a handful of mazes with one set of parameters and one mathematical library; the claim covers all of them and every round of runs of any length, also those of a robot that does not follow its targets.", "anchors": ["mousecore2/tests/search.rs:254-345", "mousecore2/src/wall.rs:161-217", "mousesim2/src/lib.rs:115-178"]}
{"id": "C133", "title": "The whole test of the fast run in single precision: how it can end, and that nothing infinite gets into the simulator", "statement": "Run mousecore2/tests/run.rs (planning, trajectories, main loop of estimator, navigation, supervisor, tracker, controller, assertion and simulator) with every operation rounded to single precision. On every maze that has been read, with all goals but the start, settings of the trajectories as in C127, and whatever robot, supervisor and simulator: the planner panics on a path that is too long, or finds no path, and the test panics with it; or the robot is given targets exactly at the poses of the path, in this order, one in each round, and either the test passes after exactly as many rounds as there are targets, or it fails in one of these rounds because the supervisor panics or a voltage is not a number of at most 4 V. No unreachable!(), no unwrap of a target, and the loop always ends. While the robot takes itself to be in the maze and not at a pillar, and moderate inputs are demanded, the supervisor does not panic. As long as the test has not failed, everything the simulator holds and returns is finite: forward speed and turn rate stay within 2.4 and 1.02 times what the largest voltage drives them to, each wheel turns by at most a metre in a period, position and angle stay below 2^24; and the position and velocity that the robot takes itself to have are numbers, since the supervisor panics otherwise. More than that, with whatever rounding, if a cosine is finite only at finite angles: in a round that does not fail, position, angle, velocities and accelerations that the robot takes itself to have and the controller's sums of errors are finite, so anything infinite in the robot's state fails the test at once instead of going on unnoticed. Without rounding the loop is the one in real numbers (C117), round by round, also where the supervisor returns a jerk that is infinite or no number: the test then fails exactly if the tracker uses the jerk. The test can pass: with the values of tests/run.rs and no rounding it passes on every maze with a straight way from the start and goals at its end, after as many rounds as there are targets. The simulated robot is then within 4.3 mm of the centre of the goal square.", "quantifier": "all mazes of the supported widths, all goals but the start, all robots, gains and supervisors, all queues with the laws of a heap, all libraries with the stated accuracy, all numbers of rounds", "why_tests_cant": "The tests of the project run two mazes with one robot; that no other robot, gain or maze can make the loop end otherwise, or drive the simulated state to infinity, is about all executions.", "anchors": ["mousecore2/tests/run.rs:137-256", "mousecore2/src/control.rs:283-401", "mousecore2/src/control.rs:80-153", "mousesim2/src/lib.rs:36-178"]}
