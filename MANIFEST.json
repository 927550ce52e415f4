{
 "claims": [
  {
   "property": "C01",
   "status": "proved",
   "theorems": [
    "Verif.Props.C01_new_iff",
    "Verif.Props.C01_valid"
   ],
   "note": "all W, x, y of type u8"
  },
  {
   "property": "C02",
   "status": "proved",
   "theorems": [
    "Verif.Props.C02_slots",
    "Verif.Props.C02_onto"
   ],
   "note": "plus: the numbering is onto"
  },
  {
   "property": "C03",
   "status": "proved",
   "theorems": [
    "Verif.Props.C03_history"
   ],
   "note": ""
  },
  {
   "property": "C04",
   "status": "proved",
   "theorems": [
    "Verif.Props.C04_new"
   ],
   "note": ""
  },
  {
   "property": "C05",
   "status": "proved",
   "theorems": [
    "Verif.Props.C05_readable",
    "Verif.Props.C05_bytes"
   ],
   "note": "negative part included: exactly which byte arrays make wall_state panic, and until when"
  },
  {
   "property": "C06",
   "status": "proved",
   "theorems": [
    "Verif.Props.C06_bytes_roundtrip",
    "Verif.Props.C06_accepts"
   ],
   "note": ""
  },
  {
   "property": "C07",
   "status": "proved",
   "theorems": [
    "Verif.Props.C07_text_roundtrip",
    "Verif.Props.C07_explored_exact"
   ],
   "note": ""
  },
  {
   "property": "C08",
   "status": "proved",
   "theorems": [
    "Verif.Props.C08_parse",
    "Verif.Props.C08_every_text"
   ],
   "note": "str::lines and byte slicing are modelled, including non-ASCII text"
  },
  {
   "property": "C09",
   "status": "proved",
   "theorems": [
    "Verif.Props.C09_canonical"
   ],
   "note": ""
  },
  {
   "property": "C10",
   "status": "proved",
   "theorems": [
    "Verif.Props.C10_path_sound"
   ],
   "note": ""
  },
  {
   "property": "C100",
   "status": "proved",
   "theorems": [
    "Verif.Props.C100_turn",
    "Verif.Props.C100_story",
    "Verif.Props.C100_phases",
    "Verif.Props.C100_targets"
   ],
   "note": "The targets of each phase are those of its trajectories run to their end; what interrupts do to them is C96, C97 and C99. That a phase begins only when the agent of the one before is empty is C94."
  },
  {
   "property": "C101",
   "status": "proved",
   "theorems": [
    "Verif.Props.C101_safe",
    "Verif.Props.C101_stop",
    "Verif.Props.C101_law",
    "Verif.Props.C101_poison"
   ],
   "note": "any arithmetic for C101_safe and C101_poison; C101_law in exact arithmetic"
  },
  {
   "property": "C102",
   "status": "proved",
   "theorems": [
    "Verif.Props.C102_run",
    "Verif.Props.C102_step",
    "Verif.Props.C102_speed",
    "Verif.Props.C102_slip",
    "Verif.Props.C102_straight",
    "Verif.Props.C102_circle",
    "Verif.Props.C102_sensors",
    "Verif.Props.C102_build",
    "Verif.Props.C102_construct"
   ],
   "note": "motion in exact arithmetic; C102_sensors in any"
  },
  {
   "property": "C103",
   "status": "proved",
   "theorems": [
    "Verif.Props.C103_newer",
    "Verif.Props.C103_realises",
    "Verif.Props.C103_on_target"
   ],
   "note": "exact arithmetic"
  },
  {
   "property": "C104",
   "status": "proved",
   "theorems": [
    "Verif.Props.C104_order",
    "Verif.Props.C104_run",
    "Verif.Props.C104_blind",
    "Verif.Props.C104_life",
    "Verif.Props.C104_no_influence"
   ],
   "note": "C104_order in any arithmetic, the others in exact arithmetic"
  },
  {
   "property": "C105",
   "status": "proved",
   "theorems": [
    "Verif.Props.C105_straight",
    "Verif.Props.C105_speed",
    "Verif.Props.C105_drift",
    "Verif.Props.C105_bounded"
   ],
   "note": "real numbers with exact sines and cosines; mousesim2 and the newer estimator"
  },
  {
   "property": "C106",
   "status": "proved",
   "theorems": [
    "Verif.Props.C106_newer",
    "Verif.Props.C106_bounded",
    "Verif.Props.C106_distance",
    "Verif.Props.C106_built",
    "Verif.Props.C106_search",
    "Verif.Props.C106_frame"
   ],
   "note": "C106_frame is the finding on the published copy"
  },
  {
   "property": "C107",
   "status": "proved",
   "theorems": [
    "Verif.Props.C107_unique",
    "Verif.Props.C107_drive",
    "Verif.Props.C107_drift",
    "Verif.Props.C107_straight"
   ],
   "note": "real numbers, exact sines and cosines"
  },
  {
   "property": "C108",
   "status": "proved",
   "theorems": [
    "Verif.Props.C108_distance",
    "Verif.Props.C108_half",
    "Verif.Props.C108_voltmeter",
    "Verif.Props.C108_motors"
   ],
   "note": "Real numbers; encoder, voltmeter and motor of obsolete/sensors."
  },
  {
   "property": "C109",
   "status": "proved",
   "theorems": [
    "Verif.Props.C109_reading",
    "Verif.Props.C109_once",
    "Verif.Props.C109_stuck",
    "Verif.Props.C109_pose",
    "Verif.Props.C109_early",
    "Verif.Props.C109_search"
   ],
   "note": "The world answering the bus operations is arbitrary; C109_early is the counterexample when a request has failed."
  },
  {
   "property": "C11",
   "status": "proved",
   "theorems": [
    "Verif.Props.C11_path_minimal"
   ],
   "note": "through a simulation of the pruned search by a plain breadth first search"
  },
  {
   "property": "C110",
   "status": "proved",
   "theorems": [
    "Verif.Props.C110_init",
    "Verif.Props.C110_mean",
    "Verif.Props.C110_order",
    "Verif.Props.C110_returns",
    "Verif.Props.C110_chip_select"
   ],
   "note": "Equality of offsets in real numbers (binary32 rounding is not modelled)."
  },
  {
   "property": "C111",
   "status": "proved",
   "theorems": [
    "Verif.Props.C111_build",
    "Verif.Props.C111_again"
   ],
   "note": "Numbers are real numbers. Serialization is not modelled."
  },
  {
   "property": "C112",
   "status": "proved",
   "theorems": [
    "Verif.Props.C112_exchange",
    "Verif.Props.C112_run",
    "Verif.Props.C112_tick",
    "Verif.Props.C112_life",
    "Verif.Props.C112_build",
    "Verif.Props.C112_configured",
    "Verif.Props.C112_report"
   ],
   "note": "run and interrupts are atomic; a lock held elsewhere is an input; references to wall managers are places in a store"
  },
  {
   "property": "C113",
   "status": "proved",
   "theorems": [
    "Verif.Props.C113_lives",
    "Verif.Props.C113_drive",
    "Verif.Props.C113_length",
    "Verif.Props.C113_run",
    "Verif.Props.C113_no_panic",
    "Verif.Props.C113_tick"
   ],
   "note": "exact arithmetic; the agents accept the commands (cf. C96-C98); no mode selected by hand; bound on the search commands for costs without short cuts (Balanced), as in C94"
  },
  {
   "property": "C114",
   "status": "proved",
   "theorems": [
    "Verif.Props.C114_map",
    "Verif.Props.C114_driver",
    "Verif.Props.C114_assertion",
    "Verif.Props.C114_ends",
    "Verif.Props.C114_test",
    "Verif.Props.C114_passes"
   ],
   "note": "tests/search.rs as one program, over the reals, detector in exact arithmetic; that the walls are seen in time is a hypothesis (Punctual), the statement says so"
  },
  {
   "property": "C115",
   "status": "proved",
   "theorems": [
    "Verif.Props.C115_sees",
    "Verif.Props.C115_punctual",
    "Verif.Props.C115_passes"
   ],
   "note": "The tracking error at the ends of the trajectories is a hypothesis on the state that the robot estimates. Exact trigonometric functions, real numbers."
  },
  {
   "property": "C116",
   "status": "proved",
   "theorems": [
    "Verif.Props.C116_passes",
    "Verif.Props.C116_tracks"
   ],
   "note": "no hypothesis about tracking: the feedback loop is analysed (a contraction while cruising; while accelerating, an interval computation with exact integers evaluated by the kernel); the maze has to have a straight corridor from the start to all goals; exact real arithmetic"
  },
  {
   "property": "C117",
   "status": "proved",
   "theorems": [
    "Verif.Props.C117_outcome",
    "Verif.Props.C117_cause",
    "Verif.Props.C117_small",
    "Verif.Props.C117_at_start"
   ],
   "note": "Whole of tests/run.rs as a program; all outcomes, with the exact round in which a failing test fails."
  },
  {
   "property": "C118",
   "status": "proved",
   "theorems": [
    "Verif.Props.C118_direct",
    "Verif.Props.C118_straight"
   ],
   "note": "For every heap that satisfies the laws of a bounded priority queue."
  },
  {
   "property": "C119",
   "status": "proved",
   "theorems": [
    "Verif.Props.C119_passes",
    "Verif.Props.C119_follows",
    "Verif.Props.C119_too_fast"
   ],
   "note": "Exact real arithmetic and trigonometry; the clock is exact. The constant pi may be any non-negative number. The number of rounds is the number of targets; the 230, 322 and 90 k + 136 are exact for real arithmetic."
  },
  {
   "property": "C12",
   "status": "proved",
   "theorems": [
    "Verif.Props.C12_complete"
   ],
   "note": ""
  },
  {
   "property": "C120",
   "status": "proved",
   "theorems": [
    "Verif.Props.C120_steady",
    "Verif.Props.C120_lag",
    "Verif.Props.C120_exact",
    "Verif.Props.C120_stands",
    "Verif.Props.C120_endless",
    "Verif.Props.C120_count",
    "Verif.Props.C120_ends",
    "Verif.Props.C120_near",
    "Verif.Props.C120_rest",
    "Verif.Props.C120_model",
    "Verif.Props.C120_place"
   ],
   "note": "Clock of all iterators in binary32; the calculators of the places stay exact."
  },
  {
   "property": "C121",
   "status": "proved",
   "theorems": [
    "Verif.Props.C121_finite",
    "Verif.Props.C121_estimator",
    "Verif.Props.C121_navigation",
    "Verif.Props.C121_tracker",
    "Verif.Props.C121_controller",
    "Verif.Props.C121_poison",
    "Verif.Props.C121_test"
   ],
   "note": "Model/Single is generic in the arithmetic; C121_finite is about binary32, the four linking theorems and C121_test about exact arithmetic, C121_poison about any arithmetic. sin, cos, sqrt are any functions within the bounds of Spec.Fair (true of the real ones: fair_real). bench_assembled shows the settings of the search test meet the hypotheses."
  },
  {
   "property": "C122",
   "status": "proved",
   "theorems": [
    "Verif.Props.C122_total",
    "Verif.Props.C122_same",
    "Verif.Props.C122_border"
   ],
   "note": "Model/Guard is generic in the arithmetic; C122_total and C122_border are about binary32, C122_same about exact arithmetic (with usize large enough). The conversion to millimetres, atan2, sqrt, sin and cos are any functions within the bounds of Spec.SoundPlatform (true of the real ones: sound_real)."
  },
  {
   "property": "C123",
   "status": "proved",
   "theorems": [
    "Verif.Props.C123_speed",
    "Verif.Props.C123_heading",
    "Verif.Props.C123_deaf"
   ],
   "note": "Model/Single (binary32) against Model/Estimate (reals)."
  },
  {
   "property": "C124",
   "status": "proved",
   "theorems": [
    "Verif.Props.C124_ends",
    "Verif.Props.C124_lasting",
    "Verif.Props.C124_sane",
    "Verif.Props.C124_drive",
    "Verif.Props.C124_stuck",
    "Verif.Props.C124_model",
    "Verif.Props.C124_target"
   ],
   "note": "The square root is any with the stated bounds; the limits of velocity must be numbers of binary32, the other numbers need not be. For slaloms see C125. For lengths below 2^-14 s at full speed only the length zero is treated."
  },
  {
   "property": "C125",
   "status": "proved",
   "theorems": [
    "Verif.Props.C125_parameters",
    "Verif.Props.C125_curve",
    "Verif.Props.C125_bend",
    "Verif.Props.C125_constant",
    "Verif.Props.C125_terminal",
    "Verif.Props.C125_maze",
    "Verif.Props.C125_sane",
    "Verif.Props.C125_drive",
    "Verif.Props.C125_exact",
    "Verif.Props.C125_model",
    "Verif.Props.C125_final"
   ],
   "note": "Sine, cosine and square root are any with the stated bounds. A slalom with a terminal velocity needs straights of at least 2^-14 s at full speed at both ends, which those of a run have (14 % of a square). How far the last target is from the end of the curve is proved only for real numbers (C43, C47, C70). advance_by is compiled only with a nightly compiler and is not modelled."
  },
  {
   "property": "C126",
   "status": "proved",
   "theorems": [
    "Verif.Props.C126_pose",
    "Verif.Props.C126_node",
    "Verif.Props.C126_targets",
    "Verif.Props.C126_panics",
    "Verif.Props.C126_ends",
    "Verif.Props.C126_late",
    "Verif.Props.C126_drive",
    "Verif.Props.C126_model"
   ],
   "note": "the wall map is any map, another one in every round; the library of C124 and C125"
  },
  {
   "property": "C127",
   "status": "proved",
   "theorems": [
    "Verif.Props.C127_run",
    "Verif.Props.C127_planned",
    "Verif.Props.C127_at_goal",
    "Verif.Props.C127_drive",
    "Verif.Props.C127_model"
   ],
   "note": "Rounding as in C124 and C125: sine, cosine and square root are arbitrary functions with the stated rough bounds. Exactness at the poses is with respect to the pose computed in single precision, which C126_node compares with the real one. The condition on the acceleration from rest keeps the speed in the first slalom away from zero, as the real-number claim C77 does."
  },
  {
   "property": "C128",
   "status": "proved",
   "theorems": [
    "Verif.Props.C128_encoder",
    "Verif.Props.C128_distance",
    "Verif.Props.C128_motor",
    "Verif.Props.C128_motor_nan",
    "Verif.Props.C128_voltmeter",
    "Verif.Props.C128_raw",
    "Verif.Props.C128_gyro",
    "Verif.Props.C128_accel",
    "Verif.Props.C128_gyro_rest",
    "Verif.Props.C128_accel_rest",
    "Verif.Props.C128_inertial_bounded",
    "Verif.Props.C128_model"
   ],
   "note": "binary32 model of sensors2's numbers; calibrations are functions of the raw values read (the bus traffic is in C62's model); C128_model ties them to the real-number models in exact arithmetic"
  },
  {
   "property": "C129",
   "status": "proved",
   "theorems": [
    "Verif.Props.C129_total",
    "Verif.Props.C129_wall",
    "Verif.Props.C129_pillars",
    "Verif.Props.C129_complete",
    "Verif.Props.C129_nan",
    "Verif.Props.C129_model"
   ],
   "note": "Release build: the two debug assertions against NaN coordinates are left out. The conversion to revolutions is modelled as a division by the nearest number to 2 pi. Theorem names are in namespace Verif.Props."
  },
  {
   "property": "C13",
   "status": "proved",
   "theorems": [
    "Verif.Props.C13_total",
    "Verif.Props.C13_plan_total"
   ],
   "note": "all supported widths; queue and array bounds as in the code"
  },
  {
   "property": "C130",
   "status": "proved",
   "theorems": [
    "Verif.Props.C130_gap",
    "Verif.Props.C130_look",
    "Verif.Props.C130_history",
    "Verif.Props.C130_start"
   ],
   "note": "Release build as for C129. That a library is accurate enough is a hypothesis (Steep, TrigNear); steep_of_accurate derives it from a relative error of at most a fifth, accurateExp_rounded gives an instance."
  },
  {
   "property": "C131",
   "status": "proved",
   "theorems": [
    "Verif.Props.C131_bounded",
    "Verif.Props.C131_nan",
    "Verif.Props.C131_inspect",
    "Verif.Props.C131_model"
   ],
   "note": "Parameters of moderate size (SimFit), library with nearly unit sine and cosine (CircleTrig); sensor poses are given as finite numbers, how they are computed from the state is left out."
  },
  {
   "property": "C132",
   "status": "proved",
   "theorems": [
    "Verif.Props.C132_map",
    "Verif.Props.C132_driver",
    "Verif.Props.C132_assertion",
    "Verif.Props.C132_ends",
    "Verif.Props.C132_view",
    "Verif.Props.C132_nan",
    "Verif.Props.C132_model",
    "Verif.Props.C132_passes"
   ],
   "note": "The places of the sensors are a hypothesis about the execution (InView), reduced by C132_view to the estimated state staying within 10 m and 95 rad; that the closed loop keeps the estimate there is not proved. C132_ends takes over the hypothesis of C126_ends that walls are seen in time (Prompt). C132_model: cos of the estimated slip angle is not zero in the rounds considered (hypothesis about the execution)."
  },
  {
   "property": "C133",
   "status": "proved",
   "theorems": [
    "Verif.Props.C133_test",
    "Verif.Props.C133_ends",
    "Verif.Props.C133_cause",
    "Verif.Props.C133_bounded",
    "Verif.Props.C133_numbers",
    "Verif.Props.C133_model",
    "Verif.Props.C133_finite",
    "Verif.Props.C133_finite_run",
    "Verif.Props.C133_passes",
    "Verif.Props.C133_arrives"
   ],
   "note": "That the voltages stay within 4 V is not claimed in single precision (C133_passes: on straight ways without rounding). C133_cause: the estimate being in the maze and off the pillars is a hypothesis about the round. C133_model: cos of the estimated slip angle is not zero and the position in mm is at most usize::MAX in the rounds considered (hypothesis about the execution)."
  },
  {
   "property": "C14",
   "status": "proved",
   "theorems": [
    "Verif.Props.C14_start_not_goal"
   ],
   "note": ""
  },
  {
   "property": "C15",
   "status": "proved",
   "theorems": [
    "Verif.Props.C15_done_known"
   ],
   "note": ""
  },
  {
   "property": "C16",
   "status": "proved",
   "theorems": [
    "Verif.Props.C16_stop_iff",
    "Verif.Props.C16_not_as_soon_as_known"
   ],
   "note": "reworded after the original claim turned out false"
  },
  {
   "property": "C17",
   "status": "proved",
   "theorems": [
    "Verif.Props.C17_plan_valid_only",
    "Verif.Props.C17_search_sees_invalid"
   ],
   "note": "reworded after the original claim turned out false for search"
  },
  {
   "property": "C18",
   "status": "proved",
   "theorems": [
    "Verif.Props.C18_candidates"
   ],
   "note": ""
  },
  {
   "property": "C19",
   "status": "proved",
   "theorems": [
    "Verif.Props.C19_unreachable_iff"
   ],
   "note": ""
  },
  {
   "property": "C20",
   "status": "proved",
   "theorems": [
    "Verif.Props.C20_next_coordinate"
   ],
   "note": ""
  },
  {
   "property": "C21",
   "status": "proved",
   "theorems": [
    "Verif.Props.C21_new_iff",
    "Verif.Props.C21_update",
    "Verif.Props.C21_history"
   ],
   "note": ""
  },
  {
   "property": "C22",
   "status": "proved",
   "theorems": [
    "Verif.Props.C22_executable"
   ],
   "note": ""
  },
  {
   "property": "C23",
   "status": "proved",
   "theorems": [
    "Verif.Props.C23_complete_optimal"
   ],
   "note": ""
  },
  {
   "property": "C24",
   "status": "proved",
   "theorems": [
    "Verif.Props.C24_terminates",
    "Verif.Props.C24_progress",
    "Verif.Props.C24_loop_ends",
    "Verif.Props.C24_walls_slotConsistent"
   ],
   "note": "the loop is the caller's (tests/search.rs); the wall map meets the assumption on slots"
  },
  {
   "property": "C25",
   "status": "proved",
   "theorems": [
    "Verif.Props.C25_node_new"
   ],
   "note": "every W, x, y below 256 and posture"
  },
  {
   "property": "C26",
   "status": "proved",
   "theorems": [
    "Verif.Props.C26_identifiers"
   ],
   "note": ""
  },
  {
   "property": "C27",
   "status": "proved",
   "theorems": [
    "Verif.Props.C27_successors"
   ],
   "note": "specification: Spec/Run.lean (Drivable), stated in a rotating frame independent of the code's tables"
  },
  {
   "property": "C28",
   "status": "proved",
   "theorems": [
    "Verif.Props.C28_move_has_trajectory",
    "Verif.Props.C28_trajectory_exact"
   ],
   "note": "both directions"
  },
  {
   "property": "C29",
   "status": "proved",
   "theorems": [
    "Verif.Props.C29_path_valid"
   ],
   "note": "holds for any heap satisfying HeapLaws, even when entries are dropped"
  },
  {
   "property": "C30",
   "status": "proved",
   "theorems": [
    "Verif.Props.C30_cheapest"
   ],
   "note": "for any heap with minimum extraction; 'no entry dropped' is the hypothesis that the ghost flag is false, discharged for W <= 8 by C31_small_mazes"
  },
  {
   "property": "C31",
   "status": "proved",
   "theorems": [
    "Verif.Props.C31_small_mazes",
    "Verif.Props.C31_only_long_paths_panic",
    "Verif.Props.C31_bounded_costs"
   ],
   "note": ""
  },
  {
   "property": "C32",
   "status": "proved",
   "theorems": [
    "Verif.Props.C32_trajectory_ends_at_node",
    "Verif.Props.C32_planned_move"
   ],
   "note": "real-number model, table values taken as exact decimals; tolerance reworded from 2e-7 (exceeded by the 135 degree slalom) to 3e-7"
  },
  {
   "property": "C33",
   "status": "proved",
   "theorems": [
    "Verif.Props.C33_search_move",
    "Verif.Props.C33_nominal",
    "Verif.Props.C33_offset_missed"
   ],
   "note": "reworded: the offset is scaled by 0.09 m instead of the square width"
  },
  {
   "property": "C34",
   "status": "proved",
   "theorems": [
    "Verif.Props.C34_wall",
    "Verif.Props.C34_complete",
    "Verif.Props.C34_good",
    "Verif.Props.C34_pillars",
    "Verif.Props.C34_complete_looks",
    "Verif.Props.C34_gap",
    "Verif.Props.C34_gap_default"
   ],
   "note": "Real arithmetic with Rust's integer conversions; sin, cos exact (micromath approximations not modelled); the unstable sort is any sort."
  },
  {
   "property": "C35",
   "status": "proved",
   "theorems": [
    "Verif.Props.C35_negative",
    "Verif.Props.C35_outside",
    "Verif.Props.C35_wrap"
   ],
   "note": "First form of the claim (None everywhere outside) is false: C35_wrap, and the ring in C35_outside."
  },
  {
   "property": "C36",
   "status": "proved",
   "theorems": [
    "Verif.Props.C36_call",
    "Verif.Props.C36_history",
    "Verif.Props.C36_no_overflow"
   ],
   "note": "First form (expect never fires) is false: it fires when both squared deviations overflow. The rounding is any function with the laws Spec.Rounding."
  },
  {
   "property": "C37",
   "status": "proved",
   "theorems": [
    "Verif.Props.C37_used",
    "Verif.Props.C37_fresh",
    "Verif.Props.C37_bayes",
    "Verif.Props.C37_order"
   ],
   "note": "exact arithmetic"
  },
  {
   "property": "C38",
   "status": "proved",
   "theorems": [
    "Verif.Props.C38_settled",
    "Verif.Props.C38_revisable"
   ],
   "note": "Settled part for every arithmetic, revision for exact arithmetic."
  },
  {
   "property": "C39",
   "status": "proved",
   "theorems": [
    "Verif.Props.C39_monotone",
    "Verif.Props.C39_settles"
   ],
   "note": "Exact arithmetic; undecided means at least EPSILON away from 0 and 1."
  },
  {
   "property": "C40",
   "status": "proved",
   "theorems": [
    "Verif.Props.C40_with_walls",
    "Verif.Props.C40_known_frozen"
   ],
   "note": ""
  },
  {
   "property": "C41",
   "status": "proved",
   "theorems": [
    "Verif.Props.C41_limits"
   ],
   "note": "real-number model, exact square root"
  },
  {
   "property": "C42",
   "status": "proved",
   "theorems": [
    "Verif.Props.C42_end",
    "Verif.Props.C42_after",
    "Verif.Props.C42_start",
    "Verif.Props.C42_terminal_up",
    "Verif.Props.C42_terminal_down",
    "Verif.Props.C42_exact_up",
    "Verif.Props.C42_exact_down",
    "Verif.Props.C42_roomy",
    "Verif.Props.C42_missed_stop"
   ],
   "note": "real-number model; the claim about reachable velocities was false as first stated"
  },
  {
   "property": "C43",
   "status": "proved",
   "theorems": [
    "Verif.Props.C43_velocity",
    "Verif.Props.C43_position",
    "Verif.Props.C43_start",
    "Verif.Props.C43_monotone",
    "Verif.Props.C43_acceleration",
    "Verif.Props.C43_jerk",
    "Verif.Props.C43_small_jump",
    "Verif.Props.C43_large_jump"
   ],
   "note": "real-number model"
  },
  {
   "property": "C44",
   "status": "proved",
   "theorems": [
    "Verif.Props.C44_straight",
    "Verif.Props.C44_spin",
    "Verif.Props.C44_stop",
    "Verif.Props.C44_shift",
    "Verif.Props.C44_generated",
    "Verif.Props.C44_constant",
    "Verif.Props.C44_curve",
    "Verif.Props.C44_slalom"
   ],
   "note": "Number and content of the samples of every trajectory kind, for all numbers of calls; C44_slalom composes the three parts of a slalom."
  },
  {
   "property": "C45",
   "status": "proved",
   "theorems": [
    "Verif.Props.C45_ends_iff",
    "Verif.Props.C45_stuck",
    "Verif.Props.C45_zero",
    "Verif.Props.C45_straight",
    "Verif.Props.C45_spin",
    "Verif.Props.C45_spin_ends"
   ],
   "note": "the claim was false as first stated"
  },
  {
   "property": "C46",
   "status": "proved",
   "theorems": [
    "Verif.Props.C46_shift",
    "Verif.Props.C46_distance",
    "Verif.Props.C46_speed",
    "Verif.Props.C46_body",
    "Verif.Props.C46_compose",
    "Verif.Props.C46_origin",
    "Verif.Props.C46_derivative"
   ],
   "note": "real-number model, exact trigonometric functions"
  },
  {
   "property": "C47",
   "status": "proved",
   "theorems": [
    "Verif.Props.C47_start",
    "Verif.Props.C47_velocity",
    "Verif.Props.C47_derivatives",
    "Verif.Props.C47_step",
    "Verif.Props.C47_accuracy",
    "Verif.Props.C47_path_exists"
   ],
   "note": "C47_accuracy adds an error bound of the sampled positions against the exact path."
  },
  {
   "property": "C48",
   "status": "proved",
   "theorems": [
    "Verif.Props.C48_output",
    "Verif.Props.C48_reset"
   ],
   "note": "Real-number model."
  },
  {
   "property": "C49",
   "status": "proved",
   "theorems": [
    "Verif.Props.C49_supervise",
    "Verif.Props.C49_total",
    "Verif.Props.C49_jerk",
    "Verif.Props.C49_zero_request"
   ],
   "note": "Real-number model; only the jerks can be infinite or nan."
  },
  {
   "property": "C50",
   "status": "proved",
   "theorems": [
    "Verif.Props.C50_which",
    "Verif.Props.C50_pillars",
    "Verif.Props.C50_misses",
    "Verif.Props.C50_unguarded"
   ],
   "note": "The claim as first written (the four corners of the robot's own cell are considered) is false of the code; what it considers and the consequence are proved."
  },
  {
   "property": "C51",
   "status": "proved",
   "theorems": [
    "Verif.Props.C51_normalize"
   ],
   "note": "For any positive constant in place of pi."
  },
  {
   "property": "C52",
   "status": "proved",
   "theorems": [
    "Verif.Props.C52_navigate",
    "Verif.Props.C52_low",
    "Verif.Props.C52_high"
   ],
   "note": "C52_high uses exact sine and cosine."
  },
  {
   "property": "C53",
   "status": "proved",
   "theorems": [
    "Verif.Props.C53_heading",
    "Verif.Props.C53_rate"
   ],
   "note": "Any trigonometric functions."
  },
  {
   "property": "C54",
   "status": "proved",
   "theorems": [
    "Verif.Props.C54_converges",
    "Verif.Props.C54_error",
    "Verif.Props.C54_exact"
   ],
   "note": "Any trigonometric functions."
  },
  {
   "property": "C55",
   "status": "proved",
   "theorems": [
    "Verif.Props.C55_straight",
    "Verif.Props.C55_on_the_spot",
    "Verif.Props.C55_velocity"
   ],
   "note": "The division by zero at speed zero is modelled by its IEEE value."
  },
  {
   "property": "C56",
   "status": "proved",
   "theorems": [
    "Verif.Props.C56_apply",
    "Verif.Props.C56_bounded",
    "Verif.Props.C56_steady"
   ],
   "note": "Exact sine and cosine."
  },
  {
   "property": "C57",
   "status": "proved",
   "theorems": [
    "Verif.Props.C57_encoders",
    "Verif.Props.C57_step",
    "Verif.Props.C57_acc"
   ],
   "note": "Exact sine and cosine."
  },
  {
   "property": "C58",
   "status": "proved",
   "theorems": [
    "Verif.Props.C58_step",
    "Verif.Props.C58_history",
    "Verif.Props.C58_half",
    "Verif.Props.C58_angle"
   ],
   "note": "Histories are arbitrary lists of counter values; half-range movement characterised exactly."
  },
  {
   "property": "C59",
   "status": "proved",
   "theorems": [
    "Verif.Props.C59_reading",
    "Verif.Props.C59_request",
    "Verif.Props.C59_idle",
    "Verif.Props.C59_failed",
    "Verif.Props.C59_paired",
    "Verif.Props.C59_flag",
    "Verif.Props.C59_metres"
   ],
   "note": "Against an arbitrary world that may answer or fail every bus operation."
  },
  {
   "property": "C60",
   "status": "proved",
   "theorems": [
    "Verif.Props.C60_hangs",
    "Verif.Props.C60_returns",
    "Verif.Props.C60_first"
   ],
   "note": "The claim as first listed (re-initialisation works) is false for non-default addresses; reworded."
  },
  {
   "property": "C61",
   "status": "proved",
   "theorems": [
    "Verif.Props.C61_chip_select",
    "Verif.Props.C61_failed_transfer"
   ],
   "note": "Any sequence of calls, any failure schedule, also inside an unfinished initialisation."
  },
  {
   "property": "C62",
   "status": "proved",
   "theorems": [
    "Verif.Props.C62_mean",
    "Verif.Props.C62_atomic",
    "Verif.Props.C62_gyro",
    "Verif.Props.C62_accel",
    "Verif.Props.C62_zero",
    "Verif.Props.C62_init"
   ],
   "note": "Offsets as real numbers."
  },
  {
   "property": "C63",
   "status": "proved",
   "theorems": [
    "Verif.Props.C63_motor"
   ],
   "note": "Real-number model of the duty computation; conversion to integers as in the code."
  },
  {
   "property": "C64",
   "status": "proved",
   "theorems": [
    "Verif.Props.C64_voltmeter"
   ],
   "note": "Real-number model."
  },
  {
   "property": "C65",
   "status": "proved",
   "theorems": [
    "Verif.Props.C65_heading",
    "Verif.Props.C65_speed"
   ],
   "note": "C65_heading for any trigonometric functions."
  },
  {
   "property": "C66",
   "status": "proved",
   "theorems": [
    "Verif.Props.C66_truth",
    "Verif.Props.C66_new",
    "Verif.Props.C66_settles",
    "Verif.Props.C66_once"
   ],
   "note": "Exact arithmetic; default converter, any order of equal distances."
  },
  {
   "property": "C67",
   "status": "proved",
   "theorems": [
    "Verif.Props.C67_bisector",
    "Verif.Props.C67_table",
    "Verif.Props.C67_jump"
   ],
   "note": ""
  },
  {
   "property": "C68",
   "status": "proved",
   "theorems": [
    "Verif.Props.C68_speed",
    "Verif.Props.C68_joints"
   ],
   "note": ""
  },
  {
   "property": "C69",
   "status": "proved",
   "theorems": [
    "Verif.Props.C69_profile",
    "Verif.Props.C69_end",
    "Verif.Props.C69_heading",
    "Verif.Props.C69_duration",
    "Verif.Props.C69_path",
    "Verif.Props.C69_table_ends"
   ],
   "note": "real-number model"
  },
  {
   "property": "C70",
   "status": "proved",
   "theorems": [
    "Verif.Props.C70_ends",
    "Verif.Props.C70_wrong"
   ],
   "note": "real-number model; exact path, not the sampled one; cosine bounded by its Taylor polynomial with kernel-evaluated rational arithmetic"
  },
  {
   "property": "C71",
   "status": "proved",
   "theorems": [
    "Verif.Props.C71_safe",
    "Verif.Props.C71_breaks"
   ],
   "note": "Continuous time. C71_breaks is a concrete robot for which the correction for one pillar breaks another one."
  },
  {
   "property": "C72",
   "status": "proved",
   "theorems": [
    "Verif.Props.C72_realises",
    "Verif.Props.C72_converges"
   ],
   "note": "Exact sine and cosine; continuous time."
  },
  {
   "property": "C73",
   "status": "proved",
   "theorems": [
    "Verif.Props.C73_sinc",
    "Verif.Props.C73_decreases"
   ],
   "note": "Exact sine and cosine; continuous time."
  },
  {
   "property": "C74",
   "status": "proved",
   "theorems": [
    "Verif.Props.C74_nearest",
    "Verif.Props.C74_laws",
    "Verif.Props.C74_detector"
   ],
   "note": "The sign of zero is not modelled."
  },
  {
   "property": "C75",
   "status": "proved",
   "theorems": [
    "Verif.Props.C75_accuracy"
   ],
   "note": "The exp function is a parameter with relative error e; accurateExp_rounded shows the correctly rounded one qualifies with 2^-24."
  },
  {
   "property": "C76",
   "status": "proved",
   "theorems": [
    "Verif.Props.C76_slalom",
    "Verif.Props.C76_curve_end",
    "Verif.Props.C76_table",
    "Verif.Props.C76_roomy",
    "Verif.Props.C70_length"
   ],
   "note": "over the reals; C76_table leaves the missing distance as a parameter, C76_roomy shows that it is zero when there is room for slowing down"
  },
  {
   "property": "C77",
   "status": "proved",
   "theorems": [
    "Verif.Props.C77_run",
    "Verif.Props.C77_planned",
    "Verif.Props.C77_at_goal"
   ],
   "note": "over the reals; the driver is the one of mousecore2/tests/run.rs, without its estimation and control loop; front offset 0 as there"
  },
  {
   "property": "C78",
   "status": "proved",
   "theorems": [
    "Verif.Props.C78_tour",
    "Verif.Props.C78_panics",
    "Verif.Props.C78_ends",
    "Verif.Props.C78_late",
    "Verif.Props.C78_punctual"
   ],
   "note": "main loop of tests/search.rs as a caller, over the reals; wall maps arbitrary per round (safety), truthful and in time or just in time (liveness); estimation, control and detection are other models, joined in C114"
  },
  {
   "property": "C79",
   "status": "proved",
   "theorems": [
    "Verif.Props.C79_euler",
    "Verif.Props.C79_bounded",
    "Verif.Props.C79_limit",
    "Verif.Props.C79_step",
    "Verif.Props.C79_circle"
   ],
   "note": "real numbers"
  },
  {
   "property": "C80",
   "status": "proved",
   "theorems": [
    "Verif.Props.C80_tracks",
    "Verif.Props.C80_stays",
    "Verif.Props.C80_settles"
   ],
   "note": "Exact reals. The measurement error is arbitrary within its bound; the estimator (C65) is not part of the loop."
  },
  {
   "property": "C81",
   "status": "proved",
   "theorems": [
    "Verif.Props.C81_found",
    "Verif.Props.C81_unfeasible",
    "Verif.Props.C81_total",
    "Verif.Props.C81_shortest",
    "Verif.Props.C81_detour"
   ],
   "note": "Former solver; the heap is any queue that returns some entry of least cost (QueueLaws)."
  },
  {
   "property": "C82",
   "status": "proved",
   "theorems": [
    "Verif.Props.C82_ids",
    "Verif.Props.C82_indices",
    "Verif.Props.C82_goals"
   ],
   "note": "codes undone, indices injective, goal lists complete"
  },
  {
   "property": "C83",
   "status": "proved",
   "theorems": [
    "Verif.Props.C83_successors",
    "Verif.Props.C83_predecessors",
    "Verif.Props.C83_reversal",
    "Verif.Props.C83_blocked_end"
   ],
   "note": "edges are the drivable moves, reversal between open ends"
  },
  {
   "property": "C84",
   "status": "proved",
   "theorems": [
    "Verif.Props.C84_plan",
    "Verif.Props.C84_no_plan",
    "Verif.Props.C84_total",
    "Verif.Props.C84_default_costs",
    "Verif.Props.C84_not_fastest"
   ],
   "note": "minimal for the charged costs, total for W <= 8, finding"
  },
  {
   "property": "C85",
   "status": "proved",
   "theorems": [
    "Verif.Props.C85_successors",
    "Verif.Props.C85_predecessors",
    "Verif.Props.C85_codes",
    "Verif.Props.C85_route",
    "Verif.Props.C85_next",
    "Verif.Props.C85_reversal",
    "Verif.Props.C85_walls"
   ],
   "note": ""
  },
  {
   "property": "C86",
   "status": "proved",
   "theorems": [
    "Verif.Props.C86_walls_between",
    "Verif.Props.C86_unchecked"
   ],
   "note": ""
  },
  {
   "property": "C87",
   "status": "proved",
   "theorems": [
    "Verif.Props.C87_candidates",
    "Verif.Props.C87_no_path",
    "Verif.Props.C87_all_checked",
    "Verif.Props.C87_total"
   ],
   "note": ""
  },
  {
   "property": "C88",
   "status": "proved",
   "theorems": [
    "Verif.Props.C88_tour",
    "Verif.Props.C88_end",
    "Verif.Props.C88_waits",
    "Verif.Props.C88_no_panic",
    "Verif.Props.C88_finish",
    "Verif.Props.C88_bounded",
    "Verif.Props.C88_unsolvable"
   ],
   "note": "the knowledge of the walls is an input that only has to be true and to grow; the threads of the operator and of the sensors are interleaved call by call"
  },
  {
   "property": "C89",
   "status": "proved",
   "theorems": [
    "Verif.Props.C89_index",
    "Verif.Props.C89_new",
    "Verif.Props.C89_update",
    "Verif.Props.C89_history",
    "Verif.Props.C89_spin",
    "Verif.Props.C89_state",
    "Verif.Props.C89_locked",
    "Verif.Props.C89_text",
    "Verif.Props.C89_drawing",
    "Verif.Props.C89_display",
    "Verif.Props.C89_session",
    "Verif.Props.C89_single",
    "Verif.Props.C89_zero"
   ],
   "note": "probabilities are extended reals without a negative zero; the formatting of numbers is a parameter"
  },
  {
   "property": "C90",
   "status": "proved",
   "theorems": [
    "Verif.Props.C90_wall",
    "Verif.Props.C90_same",
    "Verif.Props.C90_complete",
    "Verif.Props.C90_good",
    "Verif.Props.C90_errors",
    "Verif.Props.C90_outside",
    "Verif.Props.C90_sees",
    "Verif.Props.C90_wrap",
    "Verif.Props.C90_infinite"
   ],
   "note": "Exact real arithmetic for finite poses."
  },
  {
   "property": "C91",
   "status": "proved",
   "theorems": [
    "Verif.Props.C91_call",
    "Verif.Props.C91_settled",
    "Verif.Props.C91_narrows",
    "Verif.Props.C91_correction",
    "Verif.Props.C91_measure",
    "Verif.Props.C91_past",
    "Verif.Props.C91_stored",
    "Verif.Props.C91_search",
    "Verif.Props.C91_settles",
    "Verif.Props.C91_frozen",
    "Verif.Props.C91_nan"
   ],
   "note": "C91_stored holds in every rounding arithmetic, the others in exact real arithmetic."
  },
  {
   "property": "C92",
   "status": "proved",
   "theorems": [
    "Verif.Props.C92_route",
    "Verif.Props.C92_grazes",
    "Verif.Props.C92_new",
    "Verif.Props.C92_fails",
    "Verif.Props.C92_commands",
    "Verif.Props.C92_safe",
    "Verif.Props.C92_speed"
   ],
   "note": "route_iff decides the trajectories between all pairs of poses; commands by induction over the path"
  },
  {
   "property": "C93",
   "status": "proved",
   "theorems": [
    "Verif.Props.C93_choice",
    "Verif.Props.C93_replies",
    "Verif.Props.C93_reach",
    "Verif.Props.C93_setting"
   ],
   "note": "simple ways between cells by induction, driven by an automaton with the states 'at a centre' and 'on a wall, diagonally'; the converse by the walk of C86"
  },
  {
   "property": "C94",
   "status": "proved",
   "theorems": [
    "Verif.Props.C94_drive",
    "Verif.Props.C94_modes",
    "Verif.Props.C94_end",
    "Verif.Props.C94_no_panic",
    "Verif.Props.C94_home",
    "Verif.Props.C94_home_case",
    "Verif.Props.C94_length",
    "Verif.Props.C94_way",
    "Verif.Props.C94_found",
    "Verif.Props.C94_select",
    "Verif.Props.C94_select_run",
    "Verif.Props.C94_switch",
    "Verif.Props.C94_selected"
   ],
   "note": "agents accept every command they are given when they say they are not full (C95 proves this of the trajectory manager); the walls are found out about truthfully"
  },
  {
   "property": "C95",
   "status": "proved",
   "theorems": [
    "Verif.Props.C95_targets",
    "Verif.Props.C95_progress",
    "Verif.Props.C95_panic",
    "Verif.Props.C95_commands",
    "Verif.Props.C95_commands_tracking",
    "Verif.Props.C95_done",
    "Verif.Props.C95_no_panic",
    "Verif.Props.C95_completes"
   ],
   "note": "the interrupt runs to completion before the main loop goes on; a trajectory that is over stays over"
  },
  {
   "property": "C96",
   "status": "proved",
   "theorems": [
    "Verif.Props.C96_history",
    "Verif.Props.C96_never_late",
    "Verif.Props.C96_on_time",
    "Verif.Props.C96_commands",
    "Verif.Props.C96_no_panic",
    "Verif.Props.C96_completes",
    "Verif.Props.C96_overshoot"
   ],
   "note": "the counter of emergency ticks is unbounded; nth is the default one (not the one of nightly compilers)"
  },
  {
   "property": "C97",
   "status": "proved",
   "theorems": [
    "Verif.Props.C97_init",
    "Verif.Props.C97_stranger",
    "Verif.Props.C97_returns"
   ],
   "note": "log of all operations of init; stated with the specification predicates Done, Configured and OnlyMeasures"
  },
  {
   "property": "C98",
   "status": "proved",
   "theorems": [
    "Verif.Props.C98_targets",
    "Verif.Props.C98_any_time",
    "Verif.Props.C98_completes",
    "Verif.Props.C98_planned"
   ],
   "note": "Real arithmetic and exact trigonometry as for C77. The trajectories are those of Model/Straight and Model/Slalom, which the former crate shares. Reaching the last pose is shown up to a millionth of a square width because of the rounded half diagonal (0.70710677) and the slalom table."
  },
  {
   "property": "C99",
   "status": "proved",
   "theorems": [
    "Verif.Props.C99_targets",
    "Verif.Props.C99_explored",
    "Verif.Props.C99_emergency",
    "Verif.Props.C99_back_jumps",
    "Verif.Props.C99_any_time",
    "Verif.Props.C99_completes"
   ],
   "note": "Real arithmetic and exact trigonometry as for C78. That the heading jumps in a turn back is what the code does (the second stop there has the pose before the half turn); the claim states it instead of hiding it."
  }
 ]
}
