# Formal model of ikazuya0201/mouse_components (Lean 4)

## 1. Layout

* `lean/Verif/Model/` — the model, function by function; each definition cites file and lines in `/repo`.
* `lean/Verif/Spec/` — small specifications the theorems refer to, independent of the code's helpers.
* `lean/Verif/Proof/` — lemmas.
* `lean/Verif/Props/` — the property theorems (`Cnn_...`), each with an `example` meeting its hypotheses.
* `lean/Verif/Audit.lean` — models nothing; the build fails there if a theorem rests on more than the three
  standard principles.
* `properties.jsonl`, `MANIFEST.json` — the claims and the theorems that settle them.
* `seeded/LOG.jsonl` — wrong programs tried against the theorems.

## 2. What is modelled and what is not

Modelled: all of the three workspace members of `/repo/Cargo.toml`, and parts of the former core crate.

| crate | files | model |
|---|---|---|
| `mousecore2` | `solve/search.rs` | `Model/Search` |
| | `solve/run.rs` | `Model/Run` |
| | `wall.rs` (wall map, text form) | `Model/Walls` |
| | `wall.rs` (pose converter, detector) | `Model/Convert`, `Model/Detect` |
| | `trajectory.rs`, `trajectory/straight.rs`, `trajectory/spin.rs` | `Model/Straight` |
| | `trajectory/slalom.rs`, poses of `wall.rs` | `Model/Slalom` |
| | `control.rs` | `Model/Control` |
| | `estimate.rs` | `Model/Estimate` |
| `mousesim2` | `lib.rs` | `Model/Sim` |
| `obsolete/mousecore` | `solvers/dijkstra.rs` | `Model/OldSolver` |
| `obsolete/mousecore` | `nodes.rs` (run nodes), `utils/direction.rs`, `mazes.rs` (edges, distance), `wall_manager.rs` (`Wall`) | `Model/OldNode` |
| `obsolete/mousecore` | `nodes.rs` (`Position`), `pattern_converters.rs` | `Model/OldPlan` |
| `obsolete/mousecore` | `nodes.rs` (`SearchNode`, `walls_between`), `mazes.rs` (unchecked nodes, `is_available`), `wall_manager.rs` 25-42, `commanders/search.rs` | `Model/OldSearch` |
| `obsolete/mousecore` | `wall_manager.rs` (`WallManager`), `utils/probability.rs`, `mazes.rs` (`WallChecker`) | `Model/OldManager` |
| `obsolete/mousecore` | `wall_detector.rs` (`WallDetector`, `PoseConverter`; not the builder) | `Model/OldDetect` |
| `obsolete/mousecore` | `commanders/run.rs`, `commanders/setup.rs`, `nodes.rs` (`RunNode::route`, `rotation_nodes`), `mazes.rs` (`CheckedMaze`) | `Model/OldRun` |
| `obsolete/mousecore` | `administrator.rs`, `operators/tracking.rs`, `defaults/operator.rs`, `defaults/operator_store.rs`, `defaults/state.rs` (agents represented by what they answer) | `Model/OldLife` |
| `obsolete/mousecore` | `trajectory_managers/tracking.rs`, `trajectory_managers/search.rs`, `agents/tracking.rs`, `operators/tracking.rs`, between lock accesses (trajectories are arbitrary iterators; the robot is left out) | `Model/OldTraject` |
| `obsolete/mousecore` | `command_converter.rs`, `trajectory_generators/run.rs`; `trajectory_generators/straight.rs`, `slalom.rs`, `trajectory.rs` compute what those of mousecore2 compute and are represented by its models | `Model/OldTargets`, `Model/Straight`, `Model/Slalom` |
| `obsolete/mousecore` | `trajectory_generators/search.rs`; `trajectory_generators/spin.rs` computes what that of mousecore2 computes | `Model/OldHunt` |
| `obsolete/mousecore` | `trajectory_generators/setup.rs`; of `defaults/config.rs` the settings of the generators (193-218) | `Model/OldTurn` |
| `obsolete/mousecore` | `controllers.rs`, `estimator.rs` with its builder (not the setters), `tracker.rs`, `robot.rs`, `utils/robot_state.rs`, `utils/random.rs`; of `defaults/config.rs` the settings of the robot (172-192). Headings, readings of the gyro, targets and settings are finite, headings are not rounded | `Model/OldRobot` |
| `obsolete/mousesim`, `obsolete/mousecore/utils` | `mousesim/src/lib.rs` and its copy `utils/src/sensors.rs`: the inner simulator, stepper, observer, encoder, inertial sensor, motors and distance sensors. Real numbers; parts share the inner simulator, so are functions of it | `Model/OldSim` |
| `obsolete/sensors` | `encoder.rs`, `voltmeter.rs`, `motor.rs`, `tof.rs`, `imu.rs`. Real numbers; an arbitrary world answers the bus operations; what is textually the same as in `sensors2` is shared with its models | `Model/OldSensors` |
| `obsolete/mousecore/src/defaults/config.rs` | The builder: setters, `build`, which moves values out. Real numbers; a builder is a function from fields. Not serialization | `Model/OldConfig` |
| `obsolete/mousecore/src/defaults/resource.rs`, `state.rs`, `operator_store.rs`, `Construct`/`Deconstruct` of `operators/tracking.rs`, `agents/tracking.rs`, `robot.rs`, `estimator.rs`, `tracker.rs`, `controllers.rs`, `wall_detector.rs`, `mazes.rs`, `commanders/*.rs`, and `administrator.rs` over them | Peripherals are values that are only moved; an `Rc` of a wall manager is a place in a store; trajectory managers are what they answer; `run` and interrupts are atomic | `Model/OldStore` |
| `mousecore2/tests/run.rs:52-257` | Everything, as one program over the models it calls; the values of the test. A jerk of the supervisor that is no number makes the voltages so, when the tracker uses it | `Model/RunTrial`, `Model/Driver` |
| `mousecore2/tests/search.rs:90-346` | Everything, as one program over the models it calls; the values of the test. A panic of `wall_state` about any wall or centre of a square counts as one. `sin` and `cos` are a parameter, except in the pose converter | `Model/Trial` |
| `sensors2` | `encoder.rs`, `tof.rs`, `imu.rs`, `motor.rs`, `voltmeter.rs` | `Model/Encoder`, `Tof`, `Imu`, `Motor`, `Voltmeter` |

Not modelled:

* Of `obsolete/mousecore` what is not in the table: not a member of the workspace, not built.
* `CurveTrajectory::advance_by`, compiled only with a nightly compiler.
* The mazes `mousecore2/mazes/*.dat` that the tests of `mousecore2/tests/*.rs` read: mazes are arguments.
* Derived code (`Debug`, `Clone`, serde, `typed-builder` setters beyond their defaults) and the type-level units of `uom`.
* The approximations of `micromath` (`sin`, `cos`, `sqrt`, `exp`): exact functions, or parameters where nothing about them matters.
* Binary32 rounding (`Model/Binary32`), except in the wall detector (see below), in the clock of trajectories (`Model/Clock`, C120), in straight and spin trajectories (`Model/SingleStraight`, C124), in slaloms (`Model/SingleSlalom`, C125), in the poses and the main loop of the search (`Model/SingleSearch`, C126), in the main loop of the run (`Model/SingleRun`, C127), in the drivers of `sensors2` (`Model/SingleSensors`, C128), in the pose converter (`Model/SingleConvert`, C129), in the simulator (`Model/SingleSim`, C131), in the whole search test (`Model/SingleTest`, C132), in the whole test of the fast run (`Model/SingleRunTest`, C133) and in the control loop of `mousecore2`: estimator, navigation, tracker, controller (`Model/Single`, C121) and supervisor (`Model/Guard`, C122).
* Stack and memory limits, timing, interrupts, the bus hardware (an arbitrary world answers each operation).

## 3. Conventions

* **Panics are values.** A function that can panic in Rust (failed `unwrap`/`expect`, index out of range, a full `heapless`
  container whose `push` is unwrapped, `unreachable!()`, checked overflow) returns `R α = Except Panic α`. "Never panics" is
  a theorem that the result is `.ok _`.
* **Loops** are recursions on a fuel argument. Running out of fuel is the separate error `diverge`, so termination is a
  theorem and not an assumption.
* **Integers** `u8`, `u16`, `i8`, ... are `Nat`/`Int` with explicit wraps and checks. Wall bytes are `BitVec 8`.
* **`const W: u8`** is an argument. *Supported* widths are 1, 2, 4, 8, 16, 32 (`WIDTH = 32`).
* **Callbacks** (`impl Fn`) are pure functions.
* **Floating point.** Geometry, trajectories, control, estimator, simulator, drivers: real numbers with units erased (SI), with
  explicit infinities and `nan` (`F`) where they decide control flow. Wall detector: `F` over an arithmetic `Arith`; theorems hold
  for every arithmetic obeying the laws `Spec.Rounding` (monotone, exact on 0, 1/2, 1, ...), or for the exact one, as stated;
  C74 shows that binary32 obeys the laws, C75 bounds its error.
* **`heapless::BinaryHeap`** is any heap with minimum extraction (`Spec/Heap`), `sort_unstable` any sort.
* **Devices** are arbitrary functions from the log of all operations so far to the next answer.

## 4. Trusted base

* The kernel of Lean 4.33.0 and the definitions of Mathlib used in statements (ℝ, derivatives, integrals, `Real.sin`, ...).
* Axioms: `propext`, `Classical.choice`, `Quot.sound`. Every theorem named in `MANIFEST.json` depends on all three, with the
  exceptions: only `propext` and `Quot.sound` for `C02_onto`, `C06_bytes_roundtrip`, `C06_accepts`, `C08_every_text`,
  `C20_next_coordinate`, `C59_request`, `C60_hangs`, `C60_returns`; only `propext` for `C59_idle`, `C59_failed`.
  No own axioms, no `sorry`, no `native_decide`, no `bv_decide`. `decide +kernel` is used for finite tables and for rational
  arithmetic (the kernel evaluates).
* The reading of the Rust source: nothing here runs it. Each definition cites the lines it models.
* The simplifications of section 3 and those named in the comments of the definitions.

## 5. Findings: where the code disagrees with what one would expect

These first versions of properties turned out to be false of the code. The properties now state what is true, and the
disagreement is proved.

* C05: `TryFrom<&[u8]>` accepts bytes that make `wall_state` panic.
* C14: a start that is itself a goal is not recognised by `Searcher::shortest_path`.
* C16, C17: `search` also asks for cell centres, so it may go on exploring although the best path is known.
* C31: a run path of more than 1024 poses (not excluded for `W = 16, 32`) would make the planner panic.
* C33: the search trajectories scale the front offset by 0.09 m instead of the square width.
* C35: a pose 128 cells right of the maze is read as being inside.
* C36: the `expect` of the detector fires when both squared deviations overflow.
* C42: asked to stop within exactly its stopping distance, a robot slower than a_max²/j_max is given a terminal velocity of at
  least half its speed (braking distance is not monotone in the final velocity). C45: some requests never end (nan or infinite
  end time).
* C50: the supervisor never considers the lower left corner of the robot's own cell. C71: the correction for one pillar can break
  another one.
* C58: a movement of exactly half of the counter range panics (or wraps, without overflow checks).
* C60: re-initialising a distance sensor with a non-default address never returns.
* C67, C70: the curve of `FastRun45` ends 0.0032 square widths beyond where the straight after it starts, in both coordinates.
* C43: asked for a third of its speed, the mouse may be promised it although the distance is 0.2 percent too short; the position
  then jumps back at the start.
* C77: the driver of the fast run assumes from the third move on that the mouse has the speed of the run, whether or not the first
  two moves reached it. On paths of two or three poses the mouse does not stop at the goal. When the start is a goal the driver
  panics.
* C78: a maze whose goal cannot be reached makes the driver of the search panic, and so does a wall that is decided too late: the
  mouse has no move to fall back on, it does not stop.
* C81: the former solver adds the estimate to the goal once per edge, so its path is cheapest for a cost nobody asked for; with
  consistent estimates it returns a path of cost 10 where one of cost 9 exists.
* C83: a pose on a blocked wall has predecessors in the former maze that do not have it as a successor.
* C84: because of C81 the former planner does not return the fastest path: with the default costs it already fails in an empty
  maze of 4 x 4 cells.
* C88: the former search panics in a maze whose goal cannot be reached; it would also panic after a plan that passes a cell twice.
* C89: in a maze of a single cell a new wall memory takes the border ahead of the start for open; with the threshold 0 no wall is ever
  known, and a drawing with one character too many in a line makes the constructor panic.
* C90: the former converter reports walls of the maze again 256 cells to the right of it; a position that is infinite makes it panic
  when the robot looks along the axis of the finite coordinate.
* C91: the former detector replaces both deviations of the position by their mean even when nothing was measured; a position with
  deviation 0 (as in the default state) is never corrected, and together with a sensor of deviation 0 it becomes NaN, after which
  the next call panics.
* C92: `RunNode::route` of the former crate accepts pairs of poses that no move joins (two opposite walls of one cell, `Grazes`); no
  plan contains them. A run with one or two moves has only commands that accelerate, so it never slows down.
* C93: in the goal cell itself, and when no connection is known, making a setup commander panics (`unreachable!`).
* C94: after the last return the mode is `Idle`, for which there is no operator: `run` returns `UnsupportedMode`, the old operator is gone, the
  interrupts stay off, and the next `run` panics (`todo!()`). A search that ends in the start cell makes the return setup panic
  (`C94_home_case`). Pressing the switch during a search panics in the conversion of the pose; during a run the new operator starts from the
  end of the old plan, wherever the mouse is.
* C95: if the first interrupt after the interrupts are turned on comes while `run` reads the queue or generates the next trajectory, the
  tracking manager has no last target yet and panics (`unimplemented!()`), although a trajectory is waiting. A tick on a running thread
  instead of an interrupt could also make `set_command` fail with `FullQueue` although there is room.
* C96: after an emergency the search manager leaves out as many targets as the emergency had ticks, of each trajectory it tries: if the
  front one has fewer left it is thrown away and the full number is left out of the next one too (`C96_overshoot`), so the robot is
  asked to jump ahead of the schedule. An emergency at the very first tick starts from the default target (the origin), not from the robot.
* C98: a former run of one or two commands ends at positive speed, in the goal cell, and the manager then repeats a target that moves; the
  comment in `run.rs` ("this code doesn't work if the initial command is slalom") is about reaching the speed of the run: with
  usable settings the commands are carried out also when the first is a slalom, but if the first two moves are too short for
  reaching the speed of the run the target speed jumps at the third command.
* C99: the second stop of a former turn back (`search.rs`) has the pose before the half turn, so that the commanded heading jumps back by about
  180 degrees for a tenth of a second and then forward again (`C99_back_jumps`). `generate_emergency` starts with the search velocity
  whatever the speed of the target it is given; the comment "should never be called when spin" is not ensured by anything: an interrupt that
  meets the lock while the mouse turns back or stands is enough.
* C101: the fail-safe of the former controller lets voltages through that are not numbers; after one such reference or measured speed the
  error sum is not a number for ever and all calls "succeed". The error sums grow also during failed calls.
* C102: `Estimator::construct` (`estimator.rs:206-225`) never hands `standard_deviation_delta` on to the builder, so the setting of the
  configuration is ignored and 0 is used.
* C104: as a consequence the deviations of the former robot never grow, and from the default state, whose position has deviation 0, the distance sensors
  never correct the position at all: it drives by dead reckoning for ever. Each operator makes a new estimator, in which speed and slip angle
  start again from 0, although the robot may be moving.
* C106: `obsolete/mousesim/src/lib.rs:345-352` takes the `x` of a sensor's mount to the right and its `y` forward, whereas the wall detector
  (and the copy of the simulator in `obsolete/mousecore/utils/src/sensors.rs`, used by the tests) takes `x` forward and `y` to the left: in the published simulator a
  robot that knows its pose is moved away from it by the detector. The two copies also report different standard deviations (0.001 and 0.002).
* C108: the former motors divide by the battery voltage measured when the voltmeter was created: the line that would measure it again, `obsolete/sensors/src/voltmeter.rs:77`,
  is commented out. As the battery runs down every motor gets proportionally less than asked for.
* C109: the former wall detector remembers the pose of the first failed call, whatever the failure, but a distance sensor whose *request* fails asks again at a later pose: the reading is
  then taken for one at the earlier pose (`C109_early`). A device that loses a measurement is never asked again (`C109_stuck`).
* C110: the former `init` leaves out the reset of the offsets of the newer one; in real numbers this makes no difference.
* C111: the former configuration builder moves the values of required fields out of itself even when it fails, so a failed `build` cannot be repaired by setting the missing field: the
  fields before it have to be set again, too. The documentation calls `pattern_converter` required (`config.rs:402`) although it has a default; when deserialized, on the other hand,
  the required `estimator_cut_off_frequency` becomes 0 Hz if it is missing (`config.rs:47-48`), with which the estimator ignores the encoders, and the optional
  `estimator_approximation_threshold` and `estimator_standard_deviation_delta` become required.
* C112: when the mode has no operator (`Idle` at the end, or selected by hand) the administrator ends with `UnsupportedMode` and the operator is dropped with all peripherals; every later `run` panics.
  At an exchange the wall detector forgets the poses of sensors that are still measuring, so that their next reading is taken for one at a later pose. The motors are stopped, but speed and slip
  angle of the estimator start from 0 whatever they were.
* C114: because rays keep 10 mm from pillars, the two distances a sensor may report differ by at least 14 mm, seven times the standard deviation of the simulator, so that one look settles a wall.
  The integration test therefore never records a wrong wall or an undecided one, wherever the robot looks from: its final assertion cannot fail, whatever estimator and controller do. What can fail is only that
  a trajectory ends before its walls have been seen, which is the first `unreachable!()` of the loop.
* C115: this `unreachable!()` is not reached by a robot that follows its targets to a millimetre: on the last millimetre of a move all three sensors are on the walls of the square ahead.
* C116: on a line the estimator's error of place is a fixed multiple of its error of speed (3.18 ms), so that it is below 0.05 mm as long as the voltages are within the limit and does not add up.
  The tracker changes its law at 0.2 m/s; at the change the loop still stays within a millimetre of its targets.
* C117: the run test has no check that a path is found before its trajectories are built other than `unwrap`, and none for goals that contain the start: a path of the start alone gives no trajectory and the
  first round panics with `unreachable!()`. All else that can fail are the supervisor and the 4 V of the assertion.
* C119: on a straight way the supervisor never intervenes: at 45 mm from the pillars its demand is met up to `|2 u + 400 v| = 806` (u: acceleration along the way, v: speed), which is more than the run needs.
  At 3 m/s it would intervene, on the middle line of a straight way, where there is nothing to avoid (`C119_too_fast`).
* C120: in single precision the clock of a trajectory stands still after at most 2^25 periods, so a longer trajectory (9.4 hours at a millisecond) never ends. For a second at a millisecond the clock is wrong by at most
  0.03 ms.
* C121: the control loop divides by the cosine of the slip angle (`estimate.rs:85-91`). What keeps it away from zero is only that rotation times speed is at most the constant of the slip angle, 100 m/s² by default;
  nothing in the code checks that. And nothing checks that readings are numbers: one NaN of the gyro and the robot never again has a heading or a voltage (`C121_poison`); at its outputs the search and run tests would see it
  only in the simulator.
* C122: the supervisor divides by `a2`, twice the distance to a pillar along y, whenever it is not exactly zero (`control.rs:364-371`). Next to the line y = 0 this is tiny without being zero, the square of the quotient
  overflows, and the assertion that the new acceleration is a number fails (`C122_border`). Between two other pillars this cannot happen, because coordinates near them are multiples of 2^-29.
* C123: the heading is never reduced to one turn (`estimate.rs:98`), so its resolution gets coarser with every turn to the same side. From 8 rad on, rotations slower than 2^-23 rad per period (0.00012 rad/s at a millisecond)
  are not noticed at all (`C123_deaf`).
* C124: a straight trajectory from rest over no length to rest has the highest velocity zero, so its duration is 0/0 and it never ends, in single precision as in real numbers (`C124_stuck`, `C45_zero`). For all lengths that
  take at least 2^-14 s at full speed the rounded bisection still finds a velocity of at least 1/64 of the length per second, so nothing is divided by zero.

## 6. The properties one by one

Full statements are in `properties.jsonl`; the theorem names are those of namespace `Verif.Props`.

| property | status | modelled | proved by | theorems |
|---|---|---|---|---|
| C01 Coordinate construction accepts exactly the wall positions | proved | `Coordinate::new` with the bit operations on `u8` | arithmetic for all `W` | `C01_new_iff`, `C01_valid` |
| C02 Distinct wall positions never share storage | proved | `Coordinate::as_index` | arithmetic; injective and onto | `C02_slots`, `C02_onto` |
| C03 Wall map behaves as a map from walls to states | proved | the byte array of `Walls`, `update`, `wall_state` | refinement to a function `Coord → WallState`, induction on the history | `C03_history` |
| C04 A fresh wall map knows exactly the outer walls and the start cell | proved | `Walls::new` | the loops by induction | `C04_new` |
| C05 Reading a wall never panics on a map built through the API | proved | `wall_state` on arbitrary bytes | invariant over histories; negative part by a witness | `C05_readable`, `C05_bytes` |
| C06 Wall map byte round trip | proved | `TryFrom<&[u8]>`, `as_bytes` | list lemmas | `C06_bytes_roundtrip`, `C06_accepts` |
| C07 Text round trip of a wall map | proved | `Display`, `FromStr` over lists of characters | round trip, induction on rows and columns | `C07_text_roundtrip`, `C07_explored_exact` |
| C08 Parsing never panics and rejects at the first malformed place | proved | `FromStr`, with UTF-8 byte offsets and `str::lines` | independent line grammar (Spec/Text), induction | `C08_parse`, `C08_every_text` |
| C09 Rendering a parsed canonical maze text gives the same text | proved | same | as C07 | `C09_canonical` |
| C10 Shortest search path is a real path | proved | `extended_neighbors`, `bfs_tree`, `shortest_path` | invariants of the queue loop; straight runs specified apart (Spec/Grid) | `C10_path_sound` |
| C11 Shortest search path has the minimum number of runs | proved | same | simulation of the pruned search by a plain breadth first search | `C11_path_minimal` |
| C12 Search path exists whenever a goal is reachable | proved | same | same | `C12_complete` |
| C13 Planning never panics and always ends | proved | `shortest_path`, `search` | measure for termination, capacity invariants | `C13_total`, `C13_plan_total` |
| C14 A start that is itself a goal is not recognised | proved | same | queue invariant | `C14_start_not_goal` |
| C15 Exploration only ends when the best path is fully known | proved | `unchecked_walls`, `search` | corollary of the path theorems | `C15_done_known` |
| C16 When exploration ends | proved | same | iff, plus a concrete maze for the negative part | `C16_stop_iff`, `C16_not_as_soon_as_known` |
| C17 Which coordinates the callbacks see | proved | same | congruence lemmas, plus a concrete pair of functions | `C17_plan_valid_only`, `C17_search_sees_invalid` |
| C18 Exploration moves toward the nearest interesting wall | proved | `candidates` | breadth first distances; insertion of candidates | `C18_candidates` |
| C19 search reports Unreachable exactly when exploration cannot continue | proved | `search` | case analysis over the reachability theorems | `C19_unreachable_iff` |
| C20 Commander never sends the robot into a wall | proved | `Commander` | induction on the candidate list | `C20_next_coordinate` |
| C21 Robot search state stays consistent over every history | proved | `SearchState` | induction on histories | `C21_new_iff`, `C21_update`, `C21_history` |
| C22 Every commanded coordinate is executable | proved | `Commander`, `SearchState` | composition | `C22_executable` |
| C23 Exploration is complete and optimal | proved | `search`, `shortest_path` | the returned path is the least in a shortlex order independent of the map | `C23_complete_optimal` |
| C24 Exploration terminates with the right answer | proved | the loop of `tests/search.rs` over the modelled functions | well-founded measure: undecided walls | `C24_terminates`, `C24_progress`, `C24_loop_ends`, `C24_walls_slotConsistent` |
| C25 Run nodes exist exactly at legal poses | proved | `Node::new` | arithmetic | `C25_node_new` |
| C26 Node identifiers are a bijection | proved | `NodeId` | arithmetic | `C26_identifiers` |
| C27 Run successors are exactly the drivable moves | proved | `Node::successors` | rotating-frame specification (Spec/Run), case analysis on postures | `C27_successors` |
| C28 Every planned step has a trajectory | proved | `trajectory_kind` | case analysis | `C28_move_has_trajectory`, `C28_trajectory_exact` |
| C29 Run path is a valid path with the reported cost | proved | the Dijkstra loop with a bounded binary heap | loop invariants for every heap with minimum extraction | `C29_path_valid` |
| C30 Run path is cheapest | proved | same | optimality invariant | `C30_cheapest` |
| C31 When the run planner's capacities suffice | proved | same | counting of pushes; potential bounds | `C31_small_mazes`, `C31_only_long_paths_panic`, `C31_bounded_costs` |
| C32 Slalom geometry agrees with the planner's grid | proved | `SlalomConfig`, `Pose` over ℝ | bounds of √2 | `C32_trajectory_ends_at_node`, `C32_planned_move` |
| C33 Search moves land on the next search pose | proved | same | same | `C33_search_move`, `C33_nominal`, `C33_offset_missed` |
| C34 A sensed wall is a wall of the robot's own cell | proved | `PoseConverter::convert` | real analysis of the ray | `C34_wall`, `C34_complete`, `C34_good`, `C34_pillars`, `C34_complete_looks`, `C34_gap`, `C34_gap_default` |
| C35 What poses outside the maze yield | proved | same | same | `C35_negative`, `C35_outside`, `C35_wrap` |
| C36 Wall probability stays a probability | proved | `WallDetector` over any arithmetic with the laws `Spec.Rounding` | induction on histories | `C36_call`, `C36_history`, `C36_no_overflow` |
| C37 Wall evidence is combined by Bayes' rule in any order | proved | same, exact arithmetic | odds = product of likelihood ratios | `C37_used`, `C37_fresh`, `C37_bayes`, `C37_order` |
| C38 Certain walls are frozen, uncertain reports may be revised | proved | same | freezing invariant | `C38_settled`, `C38_revisable` |
| C39 Perfect measurements settle every wall correctly | proved | same | monotone odds, Archimedean bound | `C39_monotone`, `C39_settles` |
| C40 Detector seeded from a map agrees with the map | proved | `with_walls` | loop | `C40_with_walls`, `C40_known_frozen` |
| C41 Straight trajectory respects its limits | proved | `straight.rs` calculators | piecewise analysis of the seven phases | `C41_limits` |
| C42 Straight trajectory ends at its destination | proved | same | bisection invariants | `C42_end`, `C42_after`, `C42_start`, `C42_terminal_up`, `C42_terminal_down`, `C42_exact_up`, `C42_exact_down`, `C42_roomy`, `C42_missed_stop` |
| C43 Trajectory derivatives are consistent | proved | same | derivatives glued at the phase limits | `C43_velocity`, `C43_position`, `C43_start`, `C43_monotone`, `C43_acceleration`, `C43_jerk`, `C43_small_jump`, `C43_large_jump` |
| C44 Trajectories have a finite, predictable number of samples | proved | all trajectory iterators | induction on calls | `C44_straight`, `C44_spin`, `C44_stop`, `C44_shift`, `C44_generated`, `C44_constant`, `C44_curve`, `C44_slalom` |
| C45 Which moves terminate | proved | same | case analysis of nan/∞ times | `C45_ends_iff`, `C45_stuck`, `C45_zero`, `C45_straight`, `C45_spin`, `C45_spin_ends` |
| C46 Shifting a trajectory is a rigid motion | proved | `ShiftTrajectory` | algebra, derivatives | `C46_shift`, `C46_distance`, `C46_speed`, `C46_body`, `C46_compose`, `C46_origin`, `C46_derivative` |
| C47 Curves are driven at constant speed | proved | `CurveTrajectory` | derivatives; quadrature error bound | `C47_start`, `C47_velocity`, `C47_derivatives`, `C47_step`, `C47_accuracy`, `C47_path_exists` |
| C48 Controller integrates the whole error history | proved | `Controller` | induction on histories | `C48_output`, `C48_reset` |
| C49 Supervisor intervenes minimally | proved | `SupervisoryController` | projection on a half plane | `C49_supervise`, `C49_total`, `C49_jerk`, `C49_zero_request` |
| C50 Which pillars the supervisor guards | proved | `nearest_pillars` | triangles of the cell | `C50_which`, `C50_pillars`, `C50_misses`, `C50_unguarded` |
| C51 Angle normalisation | proved | `normalize_angle` | arithmetic of floors | `C51_normalize` |
| C52 Tracking is exact on target | proved | `NavigationController`, `TrackingController` | algebra | `C52_navigate`, `C52_low`, `C52_high` |
| C53 Estimator heading is the integral of the gyro | proved | `Estimator` | induction | `C53_heading`, `C53_rate` |
| C54 Estimator velocity converges to the wheels | proved | same | geometric series | `C54_converges`, `C54_error`, `C54_exact` |
| C55 Straight driving is estimated as straight | proved | same | induction | `C55_straight`, `C55_on_the_spot`, `C55_velocity` |
| C56 Simulator voltage and speed stay bounded | proved | `mousesim2` | invariant | `C56_apply`, `C56_bounded`, `C56_steady` |
| C57 Simulator sensors agree with its motion | proved | same | algebra | `C57_encoders`, `C57_step`, `C57_acc` |
| C58 Encoder counts survive counter wrap-around | proved | `encoder.rs` | induction; modular arithmetic | `C58_step`, `C58_history`, `C58_half`, `C58_angle` |
| C59 ToF readings are paired with requests | proved | `tof.rs` against an arbitrary world | induction over call sequences | `C59_reading`, `C59_request`, `C59_idle`, `C59_failed`, `C59_paired`, `C59_flag`, `C59_metres` |
| C60 When ToF initialisation returns and when it cannot | proved | same | fuel recursion, device specification | `C60_hangs`, `C60_returns`, `C60_first` |
| C61 IMU chip select is always released | proved | `imu.rs` against an arbitrary world | induction over call sequences | `C61_chip_select`, `C61_failed_transfer` |
| C62 IMU calibration removes a constant bias atomically | proved | same | sums | `C62_mean`, `C62_atomic`, `C62_gyro`, `C62_accel`, `C62_zero`, `C62_init` |
| C63 Motor duty is always legal and brakes at zero | proved | `motor.rs` | real analysis | `C63_motor` |
| C64 Voltmeter stays within the readings | proved | `voltmeter.rs` | convexity, induction | `C64_voltmeter` |
| C65 The estimator follows the simulated robot | proved | simulator and estimator together | closed-loop induction | `C65_heading`, `C65_speed` |
| C66 A detector fed by the simulator learns the simulated maze | proved | simulator and detector together | closed-loop induction | `C66_truth`, `C66_new`, `C66_settles`, `C66_once` |
| C67 Where curves end | proved | `slalom.rs` curves | symmetry of the heading | `C67_bisector`, `C67_table`, `C67_jump` |
| C68 The parts of a slalom join | proved | slalom of three parts | composition | `C68_speed`, `C68_joints` |
| C69 Speed changes only the rate | proved | straight profiles and curves | scaling lemma for the searches | `C69_profile`, `C69_end`, `C69_heading`, `C69_duration`, `C69_path`, `C69_table_ends` |
| C70 Where table curves really end | proved | the slalom table | integrals bounded by polynomials over ℚ, evaluated in the kernel | `C70_ends`, `C70_wrong` |
| C71 What meeting a pillar's demand is good for | proved | supervisor in continuous time | exponential barrier argument; concrete robot | `C71_safe`, `C71_breaks` |
| C72 Tracking above the speed threshold | proved | navigation and tracking in continuous time | algebra; Lyapunov function | `C72_realises`, `C72_converges` |
| C73 Tracking below the speed threshold | proved | low-speed tracking | Lyapunov derivative; Taylor bound of sine | `C73_sinc`, `C73_decreases` |
| C74 Single precision obeys the laws assumed | proved | binary32 rounding (`Model/Binary32`), detector over it | grid argument; instance of C36 | `C74_nearest`, `C74_laws`, `C74_detector` |
| C75 The belief computed in single precision is close to Bayes' rule | proved | same | rounding errors operation by operation | `C75_accuracy` |
| C76 Slaloms with changing speed are continuous drives | proved | trajectories of `Straight` and `Slalom` over the reals | joining of three drives; C42, C43, C47, C70 | `C76_slalom`, `C76_curve_end`, `C76_table`, `C76_roomy`, `C70_length` |
| C77 The targets of a whole fast run | proved | driver of `tests/run.rs` (`Model/Driver`) | induction over the path; C29, C32, C43, C76 | `C77_run`, `C77_planned`, `C77_at_goal` |
| C78 The targets of a whole search run | proved | driver of `tests/search.rs` (`Model/SearchDriver`) | invariant of the loop; C22, C23, C24, C33, C42, C43, C47 | `C78_tour`, `C78_panics`, `C78_ends`, `C78_late`, `C78_punctual` |
| C79 The slip angle | proved | `Estimator::estimate` (`Model/Estimate`) | induction over the sensor values | `C79_euler`, `C79_bounded`, `C79_limit`, `C79_step`, `C79_circle` |
| C80 The speed controllers make the simulated motors follow their reference | proved | `Controller.control`, `Simulator.apply`, `Simulator.step` in a loop (`Spec/Servo`) | Lyapunov function for the closed loop of order two (`Proof/Schur`), input-to-state bound by superposition, induction over the rounds for the voltage limit | `C80_tracks`, `C80_stays`, `C80_settles` |
| C81 The former solver returns a cheapest path for the costs it charges | proved | `DijkstraSolver` for any node type, graph and heap (`Model/OldSolver`) | invariant of the main loop with the closed nodes as a tree; refinement of the heap to a multiset | `C81_found`, `C81_unfeasible`, `C81_total`, `C81_shortest`, `C81_detour` |
| C82 Codes and goals of the former run nodes | proved | identifiers, indices, positions and goal lists of `RunNode` (`Model/OldNode`, `Model/OldPlan`) | bit fields as digits of a number; injectivity of the slots | `C82_ids`, `C82_indices`, `C82_goals` |
| C83 The former run graph lists exactly the moves that can be driven | proved | neighbour lists of `RunNode`, `Maze::successors` and `predecessors` (`Model/OldNode`) | loops by induction over the rounds, the predecessors by reversal of the frame | `C83_successors`, `C83_predecessors`, `C83_reversal`, `C83_blocked_end` |
| C84 What the plan of the former fast run minimises | proved | the former solver on the former maze, both pattern converters (`Model/OldSolver`, `Model/OldNode`, `Model/OldPlan`) | instance of C81 by C82 and C83; counts of small mazes by evaluation in the kernel | `C84_plan`, `C84_no_plan`, `C84_total`, `C84_default_costs`, `C84_not_fastest` |
| C85 The former search graph | proved | `SearchNode`, walls to nodes, the maze of search nodes (`Model/OldSearch`) | the four moves in one frame, then arithmetic on coordinates | `C85_successors`, `C85_predecessors`, `C85_codes`, `C85_route`, `C85_next`, `C85_reversal`, `C85_walls` |
| C86 Which walls a former fast path still has to check | proved | `RunNode::walls_between`, `find_unchecked_nodes` (`Model/OldSearch`) | cases over the shapes of the moves, induction over the path | `C86_walls_between`, `C86_unchecked` |
| C87 Where the former search goes next | proved | `next_node_candidates` (`Model/OldSearch`) | invariant of the loop (settled or still in the heap), C84 to C86; counts of small mazes by evaluation in the kernel | `C87_candidates`, `C87_no_path`, `C87_all_checked`, `C87_total` |
| C88 A run of the former search | proved | `SearchCommander` as a state machine (`Model/OldSearch`), knowledge of the walls as an input | invariant over the runs; the maze as cells joined by openings; potential (unchecked walls, total of the first candidate) | `C88_tour`, `C88_end`, `C88_waits`, `C88_no_panic`, `C88_finish`, `C88_bounded`, `C88_unsolvable` |
| C89 The former wall memory | proved | `WallManager` (`Model/OldManager`), probabilities in an abstract rounding arithmetic | the memory as a function on walls; induction over characters and lines; invariant over the sessions | `C89_index`, `C89_new`, `C89_update`, `C89_history`, `C89_spin`, `C89_state`, `C89_locked`, `C89_text`, `C89_drawing`, `C89_display`, `C89_session`, `C89_single`, `C89_zero` |
| C90 The former pose converter | proved | `PoseConverter` of the former crate (`Model/OldDetect`, with parts of `Model/Convert`), exact numbers, plus infinite and undefined positions | geometry of C34; case analysis of the four sides and of `as u8` | `C90_wall`, `C90_same`, `C90_complete`, `C90_good`, `C90_errors`, `C90_outside`, `C90_sees`, `C90_wrap`, `C90_infinite` |
| C91 The former wall detector | proved | `detect_and_update` (`Model/OldDetect`), the former wall memory, an abstract rounding arithmetic | refinement to a guess in real numbers, sensor by sensor; invariant over searches; induction over calls | `C91_call`, `C91_settled`, `C91_narrows`, `C91_correction`, `C91_measure`, `C91_past`, `C91_stored`, `C91_search`, `C91_settles`, `C91_frozen`, `C91_nan` |
| C92 The former run commander | proved | `RunCommander`, `RunNode::route`, `CheckedMaze` (`Model/OldRun`), solver and nodes of C81 to C84 | case analysis of frames for `route`; induction over the path | `C92_route`, `C92_grazes`, `C92_new`, `C92_fails`, `C92_commands`, `C92_safe`, `C92_speed` |
| C93 The former setup commander | proved | `SetupCommander`, `rotation_nodes` (`Model/OldRun`) | induction over simple walks with an automaton of two states; pigeonhole for the number of moves | `C93_choice`, `C93_replies`, `C93_reach`, `C93_setting` |
| C94 The life of the former robot | proved | administrator, operators, operator store, modes (`Model/OldLife`) | invariant over operators and administrator that composes C88, C92, C93 | `C94_drive`, `C94_modes`, `C94_end`, `C94_no_panic`, `C94_home`, `C94_home_case`, `C94_length`, `C94_way`, `C94_found`, `C94_select`, `C94_select_run`, `C94_switch`, `C94_selected` |
| C95 Targets of the former tracking manager under interrupts | proved | tracking manager, agent and operator at the level of lock accesses (`Model/OldTraject`) | invariants over all interleavings; a measure for the end | `C95_targets`, `C95_progress`, `C95_panic`, `C95_commands`, `C95_commands_tracking`, `C95_done`, `C95_no_panic`, `C95_completes` |
| C96 Targets and emergencies of the former search manager under interrupts | proved | search manager with emergencies at the level of lock accesses (`Model/OldTraject`) | history invariant over all interleavings; a measure for the end | `C96_history`, `C96_never_late`, `C96_on_time`, `C96_commands`, `C96_no_panic`, `C96_completes`, `C96_overshoot` |
| C97 What has been done when IMU initialisation returns | proved | `imu.rs` against an arbitrary world | induction over retries, log decomposed stretch by stretch | `C97_init`, `C97_stranger`, `C97_returns` |
| C98 Targets of a whole former fast run | proved | `Model/OldTargets` (converter, run generator), commander (`Model/OldRun`), manager (`Model/OldTraject`) | the drive of C77 for the former legs, joined with C92 and C95 | `C98_targets`, `C98_any_time`, `C98_completes`, `C98_planned` |
| C99 Targets of a whole former search run | proved | `Model/OldHunt` (generator), converter (`Model/OldTargets`), commander (`Model/OldSearch`), manager (`Model/OldTraject`) | a leg for each kind of command, induction over the tour of C88, joined with C96 | `C99_targets`, `C99_explored`, `C99_emergency`, `C99_back_jumps`, `C99_any_time`, `C99_completes` |
| C100 The targets of a whole life of the former robot lead it phase by phase through the maze | proved | `trajectory_generators/setup.rs`, the part of `defaults/config.rs` that feeds the generators (`Model/OldTurn`), operators and administrator of C94 | mirroring of C44 for turns to the right; phases as an invariant of the life; C98, C99 for the runs and the search | `C100_turn`, `C100_story`, `C100_phases`, `C100_targets` |
| C101 Voltages of the former controller | proved | `controllers.rs` (`Model/OldRobot`), any arithmetic | induction over the calls; sums as lists | `C101_safe`, `C101_stop`, `C101_law`, `C101_poison` |
| C102 Dead reckoning of the former estimator | proved | `estimator.rs` (`Model/OldRobot`), exact arithmetic for the motion, any for the panics | speed, slip and heading of the newer estimator by simulation (C53, C54, C79), geometry of arcs anew | `C102_run`, `C102_step`, `C102_speed`, `C102_slip`, `C102_straight`, `C102_circle`, `C102_sensors`, `C102_build`, `C102_construct` |
| C103 Former tracker | proved | `tracker.rs` (`Model/OldRobot`) | equality with the newer tracker, C52 and C72 | `C103_newer`, `C103_realises`, `C103_on_target` |
| C104 The former robot is blind for its own position | proved | `robot.rs` with the detector of `Model/OldDetect` | simulation by a robot without distance sensors; C91, C102; two runs compared | `C104_order`, `C104_run`, `C104_blind`, `C104_life`, `C104_no_influence` |
| C105 Drift of the estimate of a simulated robot | proved | `Sim`, `Estimate` | `C105_straight` (telescoping identity by induction on the drive), `C105_bounded`, `C105_speed`, `C105_drift` (one step bounded in every direction, then induction) | `C105_straight`, `C105_speed`, `C105_drift`, `C105_bounded` |
| C106 Former simulator | proved | `obsolete/mousesim/src/lib.rs`, `utils/src/sensors.rs` | equality with the newer simulator; invariant of the search (`simPatrol_inv`) on top of C91; one case computed for the finding | `C106_newer`, `C106_bounded`, `C106_distance`, `C106_built`, `C106_search`, `C106_frame` |
| C107 Former robot in the former simulator | proved | `Model/OldSim` and `Model/OldRobot` together | invariants of the lap (`one_lap`, `drives_of`); one step bounded as in C105; conserved quantity of the straight drive | `C107_unique`, `C107_drive`, `C107_drift`, `C107_straight` |
| C108 Former encoder, voltmeter and motors | proved | `obsolete/sensors/src/{encoder,voltmeter,motor}.rs` (`Model/OldSensors`) | the former encoder and motor as functions of the newer ones (C58, C59); induction on the calls | `C108_distance`, `C108_half`, `C108_voltmeter`, `C108_motors` |
| C109 Former distance sensors, and the detector with them | proved | `obsolete/sensors/src/tof.rs` with `wall_detector.rs` | invariants of the histories of calls (`polls_inv`, `polls_asked`); simulation of the bus by the patrol of C91 (`bus_inv`); one case computed for the finding | `C109_reading`, `C109_once`, `C109_stuck`, `C109_pose`, `C109_early`, `C109_search` |
| C110 Former inertial sensor | proved | `obsolete/sensors/src/imu.rs` | relation between two runs that differ in the offsets only (`Agree`), then C62, C97 and C61 | `C110_init`, `C110_mean`, `C110_order`, `C110_returns`, `C110_chip_select` |
| C111 Former configuration builder | proved | `obsolete/mousecore/src/defaults/config.rs:300-624` | induction over the list of fields and over the calls | `C111_build`, `C111_again` |
| C112 What the former operators hand on | proved | `defaults/{resource,state,operator_store}.rs`, `Construct`/`Deconstruct` of all parts, `administrator.rs` on top of the robot | case analysis of construction; refinement of the administrator without a robot; induction on the life | `C112_exchange`, `C112_run`, `C112_tick`, `C112_life`, `C112_build`, `C112_configured`, `C112_report` |
| C113 Life of the former machine with its robot | proved | the machine of C112 with the robot of C104, the detector of C91 and the commanders of C94 | invariant: refinement to a life of C94 whose belief is in the memory (C92), memory right for the maze; estimator of numbers (C102) | `C113_lives`, `C113_drive`, `C113_length`, `C113_run`, `C113_no_panic`, `C113_tick` |
| C114 The whole search test | proved | `tests/search.rs` complete (`Model/Trial`): all models of `mousecore2` and `mousesim2` that it calls | one look settles a wall (`C34_gap`, `C66_once`); invariant of the rounds; refinement to the driver of C78; C23 | `C114_map`, `C114_driver`, `C114_assertion`, `C114_ends`, `C114_test`, `C114_passes` |
| C115 Walls are seen in time | proved | `tests/search.rs` complete (`Model/Trial`), `PoseConverter` | rays of the three sensors at the ends of the moves (C34); what the detector is sure of is recorded; invariant of the rounds: heading of the last two targets, walls around the squares behind and ahead; C114 | `C115_sees`, `C115_punctual`, `C115_passes` |
| C116 The search test passes on every maze with a straight way to the goal | proved | `tests/search.rs` complete (`Model/Trial`), with estimator, tracker, controller, simulator, trajectory generator | reduction of the loop to six numbers on a line (`Lane`), then to deviations from the target (`Offset`); contraction while cruising (`Cruise`); intervals of exact integers for the 110 rounds of acceleration, evaluated by the kernel (`Ramp`); planner in a corridor (C18, C11); C115 | `C116_passes`, `C116_tracks` |
| C117 How the integration test of the fast run can end | proved | `tests/run.rs` complete (`Model/RunTrial`), with planner, driver, supervisor, controller and simulator | refinement of the loop to the list of targets of C77; planner C30, C31; supervisor C49, C50 | `C117_outcome`, `C117_cause`, `C117_small`, `C117_at_start` |
| C118 The planner of the fast run prefers a single move | proved | `solve/run.rs` (`Model/Run`), costs of `tests/run.rs` | invariant of the search: the first round marks the goal with its least cost, later rounds cannot undercut it; progress of every move against its cost | `C118_direct`, `C118_straight` |
| C119 The test of the fast run passes on every maze with a straight way to the goal | proved | `tests/run.rs` complete (`Model/RunTrial`), with planner, trajectory generator, supervisor, estimator, tracker, controller, simulator | the bisection for the peak speed evaluated exactly (`Pace`); deviations from the target as in C116, bounded with intervals of exact integers for the ramps (kernel) and by linear superposition and contraction for the part of constant speed, whose length is free (`PaceIv`, `PaceRuns`); positivity of the supervisor's demand on the middle line; C49, C50, C118 | `C119_passes`, `C119_follows`, `C119_too_fast` |
| C120 The clock of a trajectory in single precision | proved | the clock of the iterators of `mousecore2` in binary32 (`Model/Clock`) | relative error of one rounding, induction; the stall by the spacing of binary32 numbers; C43 and the mean value theorem for the places | `C120_steady`, `C120_lag`, `C120_exact`, `C120_stands`, `C120_endless`, `C120_count`, `C120_ends`, `C120_near`, `C120_rest`, `C120_model`, `C120_place` |
| C121 In single precision the control loop never computes an infinity or a NaN from plausible readings, however long it drives | proved | Model/Single | Props/Single: a calculus of sizes (Proof/Single), an invariant per component, induction over the rounds; accumulators are bounded by the stall lemma of C120 | `C121_finite`, `C121_estimator`, `C121_navigation`, `C121_tracker`, `C121_controller`, `C121_poison`, `C121_test` |
| C122 The supervisor in single precision: no panic inside the maze, a panic next to its border | proved | Model/Guard | Props/Guard: sizes of Proof/Single; differences to pillars are multiples of 2^-29, so that quotients stay below 2^60; the border case is computed step by step | `C122_total`, `C122_same`, `C122_border` |
| C123 How far the estimate in single precision is from the one in real numbers | proved | `Estimator::estimate` twice: binary32 (`Model/Single`) and real numbers (`Model/Estimate`) | Proof/Drift: error of one rounding, Lipschitz bound of the slip angle in the speed, contraction of both errors; sums with rounding; the dead zone by the spacing of binary32 numbers | `C123_speed`, `C123_heading`, `C123_deaf` |
| C124 Straight and spin trajectories in single precision: they end, and all their targets are finite | proved | `straight.rs`, `spin.rs` and the shift in any arithmetic (`Model/SingleStraight`), binary32 in the theorems | Proof/Journey: times and distances of an acceleration with rounding; a lower bound of the highest velocity through 25 rounded bisections; bounds of every phase; translation to `Model/Straight` for exact arithmetic | `C124_ends`, `C124_lasting`, `C124_sane`, `C124_drive`, `C124_stuck`, `C124_model`, `C124_target` |
| C125 Slaloms in single precision: they end, no target jumps or is infinite, and the control loop can follow them | proved | slaloms over any arithmetic (`Model/SingleSlalom`), instances binary32 and exact | bounds of the rotation from C124, positions by induction over the clock; simulation of the two iterators for the exact instance | `C125_parameters`, `C125_curve`, `C125_bend`, `C125_constant`, `C125_terminal`, `C125_maze`, `C125_sane`, `C125_drive`, `C125_exact`, `C125_model`, `C125_final` |
| C126 The search run in single precision: poses, targets, panics and the control loop along a whole search | proved | `wall.rs` poses and `tests/search.rs` over any arithmetic (`Model/SingleSearch`), instances binary32 and exact | C124 and C125 for every trajectory, an invariant of the main loop over any arithmetic, simulation of the main loop for the exact instance | `C126_pose`, `C126_node`, `C126_targets`, `C126_panics`, `C126_ends`, `C126_late`, `C126_drive`, `C126_model` |
| C127 The fast run in single precision: one trajectory per move, targets exactly at the poses, no panic and no gap along every planned path | proved | `tests/run.rs` over any arithmetic (`Model/SingleRun`), instances binary32 and exact | C124 and C125 for every move, a lower bound of the speed along the path from the bisection in single precision (`Proof/Rise`), simulation of the main loop for the exact instance | `C127_run`, `C127_planned`, `C127_at_goal`, `C127_drive`, `C127_model` |
| C128 Sensors and motors in single precision | proved | numbers of `sensors2` over any arithmetic (`Model/SingleSensors`), instances binary32 and exact | rounding errors operation by operation; invariants of the sums and a contraction for the filter | `C128_encoder`, `C128_distance`, `C128_motor`, `C128_motor_nan`, `C128_voltmeter`, `C128_raw`, `C128_gyro`, `C128_accel`, `C128_gyro_rest`, `C128_accel_rest`, `C128_inertial_bounded`, `C128_model` |
| C129 The pose converter in single precision: which wall a distance sensor sees, from rounded poses and rounded trigonometry | proved | `wall.rs` pose converter over any arithmetic (`Model/SingleConvert`), instances binary32 and exact | rounding errors of the position in the cell; a condition number of each branch of the circle, so that a wrong quarter or a wrong order of distances changes the point by micrometres only (`Proof/SingleQuarter`); the exit of the true ray for the converse (`Proof/SingleExit`); translation to `Model/Convert` for exact arithmetic | `C129_total`, `C129_wall`, `C129_pillars`, `C129_complete`, `C129_nan`, `C129_model` |
| C130 One look settles a wall, in single precision | proved | wall detector and pose converter together over binary32 (`Model/Detect`, `Model/SingleConvert`) | plane geometry of the ray between pillars for the 17 mm (`Proof/SingleGap`); rounding of the two logarithms and of Bayes' rule (`Proof/SingleLook`); induction over the history | `C130_gap`, `C130_look`, `C130_history`, `C130_start` |
| C131 The simulator in single precision stays within bounds for ever and never teaches anything wrong | proved | `mousesim2/src/lib.rs` over any arithmetic (`Model/SingleSim`), instances binary32 and exact; the sensor loop of the test with given poses | a contraction with rounding for the two filters, where the gain of the period beats the excess of sine and cosine; saturation of sums at 2²⁴ (`Proof/SingleSim`); induction over the calls; C130 for the sensors | `C131_bounded`, `C131_nan`, `C131_inspect`, `C131_model` |
| C132 The whole search test in single precision: its map stays true and its assertion never fails | proved | main loop of `tests/search.rs` with floating point numbers (`Model/SingleTest`) | round by round simulation of the driver of C126; C23, C126, C130, C131; C131_nan for the exception; `C132_model`: relation of both loops, preserved by a round; `C132_passes`: C116 carried over by `C132_model` | `C132_map`, `C132_driver`, `C132_assertion`, `C132_ends`, `C132_view`, `C132_nan`, `C132_model`, `C132_passes` |
| C133 The whole test of the fast run in single precision: how it can end, and that nothing infinite gets into the simulator | proved | main loop and planning of `tests/run.rs` with floating point numbers (`Model/SingleRunTest`) | induction over the rounds with the targets of C127; C31, C122, C131; `C133_model`: relation of both loops, preserved by a round; `C133_finite`: back from finite voltages through controller, tracker and supervisor to the state; `C133_passes`: C119 carried over by `C133_model` | `C133_test`, `C133_ends`, `C133_cause`, `C133_bounded`, `C133_numbers`, `C133_model`, `C133_finite`, `C133_finite_run`, `C133_passes` |
