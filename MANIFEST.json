{
 "claims": [
  {
   "property": "C01",
   "status": "proved",
   "theorems": [
    "Verif.Props.C01_dp_optimal"
   ],
   "note": ""
  },
  {
   "property": "C02",
   "status": "proved",
   "theorems": [
    "Verif.Props.C02_dp_value_function"
   ],
   "note": ""
  },
  {
   "property": "C03",
   "status": "proved",
   "theorems": [
    "Verif.Props.C03_dp_errors"
   ],
   "note": ""
  },
  {
   "property": "C04",
   "status": "proved",
   "theorems": [
    "Verif.Props.C04_pygraph_optimal",
    "Verif.Props.C04_pygraph_no_columns",
    "Verif.Props.C04_path_index"
   ],
   "note": ""
  },
  {
   "property": "C05",
   "status": "proved",
   "theorems": [
    "Verif.Props.C05_pygraph_step_limit"
   ],
   "note": ""
  },
  {
   "property": "C06",
   "status": "proved",
   "theorems": [
    "Verif.Props.C06_pygraph_furthest"
   ],
   "note": ""
  },
  {
   "property": "C07",
   "status": "proved",
   "theorems": [
    "Verif.Props.C07_pygraph_terminates",
    "Verif.Props.C07_pygraph_rerun_fresh"
   ],
   "note": ""
  },
  {
   "property": "C08",
   "status": "partial",
   "theorems": [
    "Verif.Props.C08_segments_tile_partial",
    "Verif.Props.C08_segments_tile_refuted",
    "Verif.Props.C08_exact"
   ],
   "note": "False for the code: the split index is relative to the remaining data. Exactly: the segments tile the path iff there are at most two of them."
  },
  {
   "property": "C09",
   "status": "partial",
   "theorems": [
    "Verif.Props.C09_segments_total_partial",
    "Verif.Props.C09_segments_total_refuted",
    "Verif.Props.C09_exact"
   ],
   "note": "False for the code: IndexError on at most two columns, endless loop on data that need a third segment. C09_exact says exactly when the call returns."
  },
  {
   "property": "C10",
   "status": "proved",
   "theorems": [
    "Verif.Props.C10_bfs_optimal",
    "Verif.Props.C10_bfs_optimal_exact"
   ],
   "note": ""
  },
  {
   "property": "C11",
   "status": "proved",
   "theorems": [
    "Verif.Props.C11_dijkstra_sound",
    "Verif.Props.C11_dijkstra_sound_heap"
   ],
   "note": ""
  },
  {
   "property": "C12",
   "status": "partial",
   "theorems": [
    "Verif.Props.C12_dijkstra_optimal_partial",
    "Verif.Props.C12_dijkstra_optimal_refuted",
    "Verif.Props.C12_two_columns_partial",
    "Verif.Props.C12_two_columns_exact_partial",
    "Verif.Props.C12_three_columns"
   ],
   "note": "False for the code: distances change while nodes are in the heap, and the search stops early. Holds for a queue that pops a node of least current distance. With the heap of libstdc++ it holds for at most two columns and can fail from three on."
  },
  {
   "property": "C13",
   "status": "proved",
   "theorems": [
    "Verif.Props.C13_runs_and_resets"
   ],
   "note": ""
  },
  {
   "property": "C14",
   "status": "partial",
   "theorems": [
    "Verif.Props.C14_histories_partial",
    "Verif.Props.C14_unsearched",
    "Verif.Props.C14_searched",
    "Verif.Props.C14_get_path_after_reset_refuted",
    "Verif.Props.C14_init_twice_refuted",
    "Verif.Props.C14_second_init",
    "Verif.Props.C14_widths"
   ],
   "note": "False for the code: get_path after run and reset, and a run after a second init, follow a null pointer. All other histories after one init on columns of one width are shown safe. C14_widths: for columns of different widths run_bfs reads outside an array exactly if some column is wider than the one before."
  },
  {
   "property": "C15",
   "status": "proved",
   "theorems": [
    "Verif.Props.C15_weights",
    "Verif.Props.C15_weights_init"
   ],
   "note": ""
  },
  {
   "property": "C16",
   "status": "proved",
   "theorems": [
    "Verif.Props.C16_add_data_column",
    "Verif.Props.C16_add_data_column_rows"
   ],
   "note": ""
  },
  {
   "property": "C17",
   "status": "partial",
   "theorems": [
    "Verif.Props.C17_unreachable_partial",
    "Verif.Props.C17_unreachable_raises",
    "Verif.Props.C17_unreachable_refuted"
   ],
   "note": "False for the code: a Python list [] in front, or behind a float64 column, raises AttributeError. Holds for empty arrays and for [] behind float32 columns."
  },
  {
   "property": "C18",
   "status": "proved",
   "theorems": [
    "Verif.Props.C18_check_dtype",
    "Verif.Props.C18_check_dtype_errors"
   ],
   "note": ""
  },
  {
   "property": "C19",
   "status": "proved",
   "theorems": [
    "Verif.Props.C19_solvers_agree"
   ],
   "note": ""
  },
  {
   "property": "C20",
   "status": "proved",
   "theorems": [
    "Verif.Props.C20_rot",
    "Verif.Props.C20_axis_rot_unique",
    "Verif.Props.C20_compose",
    "Verif.Props.C20_pose"
   ],
   "note": ""
  },
  {
   "property": "C21",
   "status": "proved",
   "theorems": [
    "Verif.Props.C21_inverse",
    "Verif.Props.C21_algebra",
    "Verif.Props.C21_reads_three_rows",
    "Verif.Props.C21_act"
   ],
   "note": ""
  },
  {
   "property": "C22",
   "status": "proved",
   "theorems": [
    "Verif.Props.C22_rows",
    "Verif.Props.C22_count",
    "Verif.Props.C22_product",
    "Verif.Props.C22_no_ranges"
   ],
   "note": ""
  },
  {
   "property": "C23",
   "status": "proved",
   "theorems": [
    "Verif.Props.C23_value",
    "Verif.Props.C23_injective",
    "Verif.Props.C23_stratified",
    "Verif.Props.C23_domain"
   ],
   "note": "Exact fractions; floating point rounding is not modelled."
  },
  {
   "property": "C24",
   "status": "proved",
   "theorems": [
    "Verif.Props.C24_odd_primes"
   ],
   "note": "For every computed square root that is neither too small nor as large as the number."
  },
  {
   "property": "C25",
   "status": "proved",
   "theorems": [
    "Verif.Props.C25_bases",
    "Verif.Props.C25_histories",
    "Verif.Props.C25_dim_zero"
   ],
   "note": "Exact fractions."
  },
  {
   "property": "C26",
   "status": "proved",
   "theorems": [
    "Verif.Props.C26_random",
    "Verif.Props.C26_halton",
    "Verif.Props.C26_unknown_method",
    "Verif.Props.C26_representations"
   ],
   "note": "pyquaternion as documented."
  },
  {
   "property": "C27",
   "status": "proved",
   "theorems": [
    "Verif.Props.C27_polyhedron",
    "Verif.Props.C27_convex_hull",
    "Verif.Props.C27_negative_side"
   ],
   "note": ""
  },
  {
   "property": "C28",
   "status": "proved",
   "theorems": [
    "Verif.Props.C28_edges",
    "Verif.Props.C28_wireframe",
    "Verif.Props.C28_degree"
   ],
   "note": ""
  },
  {
   "property": "C29",
   "status": "proved",
   "theorems": [
    "Verif.Props.C29_any_pair",
    "Verif.Props.C29_default",
    "Verif.Props.C29_symmetric",
    "Verif.Props.C29_monotone",
    "Verif.Props.C29_empty",
    "Verif.Props.C29_invariant",
    "Verif.Props.C29_geometric"
   ],
   "note": ""
  },
  {
   "property": "C30",
   "status": "proved",
   "theorems": [
    "Verif.Props.C30_dh",
    "Verif.Props.C30_shared",
    "Verif.Props.C30_unknown_type"
   ],
   "note": ""
  },
  {
   "property": "C31",
   "status": "proved",
   "theorems": [
    "Verif.Props.C31_fk",
    "Verif.Props.C31_rigid",
    "Verif.Props.C31_all_links",
    "Verif.Props.C31_move_base",
    "Verif.Props.C31_too_few"
   ],
   "note": ""
  },
  {
   "property": "C32",
   "status": "partial",
   "theorems": [
    "Verif.Props.C32_casadi_partial",
    "Verif.Props.C32_refuted"
   ],
   "note": "False for the code: the symbolic link transform ignores the joint type. Holds when all joints are revolute."
  },
  {
   "property": "C33",
   "status": "proved",
   "theorems": [
    "Verif.Props.C33_answer",
    "Verif.Props.C33_new",
    "Verif.Props.C33_history",
    "Verif.Props.C33_priority",
    "Verif.Props.C33_reordered",
    "Verif.Props.C33_any_matrix"
   ],
   "note": ""
  },
  {
   "property": "C34",
   "status": "proved",
   "theorems": [
    "Verif.Props.C34_self_collision",
    "Verif.Props.C34_matrix",
    "Verif.Props.C34_any_matrix"
   ],
   "note": ""
  },
  {
   "property": "C35",
   "status": "proved",
   "theorems": [
    "Verif.Props.C35_arm2_sound",
    "Verif.Props.C35_error"
   ],
   "note": "Exact when the elbow is bent; otherwise within the tolerance. C35_error: the error is exactly the difference of the distances to the shoulder."
  },
  {
   "property": "C36",
   "status": "proved",
   "theorems": [
    "Verif.Props.C36_arm2_succeeds",
    "Verif.Props.C36_arm2_complete",
    "Verif.Props.C36_arm2_iff"
   ],
   "note": "Non-singular: the end is not on the first axis and the elbow cosine is not within 1e-6 of plus or minus one."
  },
  {
   "property": "C37",
   "status": "partial",
   "theorems": [
    "Verif.Props.C37_wrist_sound_partial",
    "Verif.Props.C37_singular",
    "Verif.Props.C37_refuted",
    "Verif.Props.C37_iff",
    "Verif.Props.C37_at_base"
   ],
   "note": "False for the code when the approach axis is parallel to the base z axis. Holds otherwise. C37_singular says which orientation comes out instead, depending on the signs of two zeros; C37_at_base: with equal signs it is wrong even for the orientation of the base itself."
  },
  {
   "property": "C38",
   "status": "proved",
   "theorems": [
    "Verif.Props.C38_wrist_complete"
   ],
   "note": ""
  },
  {
   "property": "C39",
   "status": "partial",
   "theorems": [
    "Verif.Props.C39_kuka_sound_partial",
    "Verif.Props.C39_refuted",
    "Verif.Props.C39_stretched",
    "Verif.Props.C39_error",
    "Verif.Props.C39_default"
   ],
   "note": "False for the code when the wrist is stretched (and only approximate when the elbow is snapped). Holds otherwise. C39_stretched: the outer wrist angles of a stretched solution are 0, pi or -pi, whatever the target."
  },
  {
   "property": "C40",
   "status": "proved",
   "theorems": [
    "Verif.Props.C40_kuka_complete"
   ],
   "note": "Non-singular: wrist centre off the first axis, elbow not within the tolerance of stretched or folded, wrist not stretched."
  },
  {
   "property": "C41",
   "status": "partial",
   "theorems": [
    "Verif.Props.C41_rail_sound_partial",
    "Verif.Props.C41_refuted",
    "Verif.Props.C41_complete",
    "Verif.Props.C41_solution",
    "Verif.Props.C41_iff"
   ],
   "note": "False for the code with other than the default parameters, because the inner Kuka always has those. C41_iff: all regular solutions are right iff the robot has the default lengths; C41_solution says which are right otherwise; C41_complete: the solutions are complete for the default robot."
  },
  {
   "property": "C42",
   "status": "proved",
   "theorems": [
    "Verif.Props.C42_anthropomorphic_sound",
    "Verif.Props.C42_anthropomorphic_succeeds",
    "Verif.Props.C42_anthropomorphic_iff",
    "Verif.Props.C42_error",
    "Verif.Props.C42_complete"
   ],
   "note": ""
  },
  {
   "property": "C43",
   "status": "proved",
   "theorems": [
    "Verif.Props.C43_planar",
    "Verif.Props.C43_spherical",
    "Verif.Props.C43_anthropomorphic",
    "Verif.Props.C43_arm2",
    "Verif.Props.C43_kuka",
    "Verif.Props.C43_rail"
   ],
   "note": ""
  },
  {
   "property": "C44",
   "status": "partial",
   "theorems": [
    "Verif.Props.C44_kuka_partial",
    "Verif.Props.C44_rail_partial",
    "Verif.Props.C44_refuted"
   ],
   "note": "False for SphericalWrist, which returns its cached array. Holds for Kuka and KukaOnRail."
  },
  {
   "property": "C45",
   "status": "proved",
   "theorems": [
    "Verif.Props.C45_rejects",
    "Verif.Props.C45_accepts",
    "Verif.Props.C45_within",
    "Verif.Props.C45_nominal",
    "Verif.Props.C45_inverted_accepted"
   ],
   "note": "The last theorem shows that inverted bounds are accepted when no nominal is given, so lower <= upper is a needed hypothesis."
  },
  {
   "property": "C46",
   "status": "proved",
   "theorems": [
    "Verif.Props.C46",
    "Verif.Props.C46_negative"
   ],
   "note": ""
  },
  {
   "property": "C47",
   "status": "proved",
   "theorems": [
    "Verif.Props.C47_samples",
    "Verif.Props.C47_within",
    "Verif.Props.C47_nominal",
    "Verif.Props.C47_no_tolerance",
    "Verif.Props.C47_short"
   ],
   "note": ""
  },
  {
   "property": "C48",
   "status": "proved",
   "theorems": [
    "Verif.Props.C48"
   ],
   "note": ""
  },
  {
   "property": "C49",
   "status": "proved",
   "theorems": [
    "Verif.Props.C49",
    "Verif.Props.C49_zero",
    "Verif.Props.C49_zero_axis"
   ],
   "note": "Axes that pyquaternion does not reject; a zero axis raises."
  },
  {
   "property": "C50",
   "status": "proved",
   "theorems": [
    "Verif.Props.C50_random",
    "Verif.Props.C50_halton",
    "Verif.Props.C50_rotation",
    "Verif.Props.C50_unknown_rep",
    "Verif.Props.C50_rpy",
    "Verif.Props.C50_tolOrientation",
    "Verif.Props.C50_tolOrientation_stock"
   ],
   "note": "TolOrientationPt relies on Quaternion.random_near, which stock pyquaternion does not have: then it raises AttributeError (last theorem)."
  },
  {
   "property": "C51",
   "status": "proved",
   "theorems": [
    "Verif.Props.C51",
    "Verif.Props.C51_path",
    "Verif.Props.C51_short",
    "Verif.Props.C51_lengths"
   ],
   "note": ""
  },
  {
   "property": "C52",
   "status": "proved",
   "theorems": [
    "Verif.Props.C52",
    "Verif.Props.C52_raises"
   ],
   "note": ""
  },
  {
   "property": "C53",
   "status": "proved",
   "theorems": [
    "Verif.Props.C53",
    "Verif.Props.C53_points"
   ],
   "note": ""
  },
  {
   "property": "C54",
   "status": "proved",
   "theorems": [
    "Verif.Props.C54_position",
    "Verif.Props.C54_euler",
    "Verif.Props.C54_euler_radians"
   ],
   "note": ""
  },
  {
   "property": "C55",
   "status": "partial",
   "theorems": [
    "Verif.Props.C55_refuted",
    "Verif.Props.C55_partial",
    "Verif.Props.C55_iff"
   ],
   "note": "False for the code: negative angles in degrees are not recognised. Holds for positive ones."
  },
  {
   "property": "C56",
   "status": "proved",
   "theorems": [
    "Verif.Props.C56_path",
    "Verif.Props.C56_unknown_path",
    "Verif.Props.C56_unknown_tolerance",
    "Verif.Props.C56_known",
    "Verif.Props.C56_obstacles",
    "Verif.Props.C56_unknown_shape",
    "Verif.Props.C56_task",
    "Verif.Props.C56_import",
    "Verif.Props.C56_tolerances"
   ],
   "note": ""
  },
  {
   "property": "C57",
   "status": "partial",
   "theorems": [
    "Verif.Props.C57_refuted",
    "Verif.Props.C57_partial",
    "Verif.Props.C57_round_trip",
    "Verif.Props.C57_iff",
    "Verif.Props.C57_origin"
   ],
   "note": "False for the code: the export drops rotations (and writes nothing for the empty scene). Holds for non-empty scenes of unrotated boxes."
  },
  {
   "property": "C58",
   "status": "partial",
   "theorems": [
    "Verif.Props.C58_refuted",
    "Verif.Props.C58_empty",
    "Verif.Props.C58_stale",
    "Verif.Props.C58_partial"
   ],
   "note": "False for the code for the empty scene. Holds for non-empty scenes."
  },
  {
   "property": "C59",
   "status": "proved",
   "theorems": [
    "Verif.Props.C59",
    "Verif.Props.C59_raises"
   ],
   "note": "For robots whose ik and collision check return values; C76 is about references."
  },
  {
   "property": "C60",
   "status": "partial",
   "theorems": [
    "Verif.Props.C60_refuted",
    "Verif.Props.C60_last",
    "Verif.Props.C60_partial",
    "Verif.Props.C60_unbound",
    "Verif.Props.C60_stale",
    "Verif.Props.C60_other_points"
   ],
   "note": "False for the code: only the last sample counts. Exact description of what is returned."
  },
  {
   "property": "C61",
   "status": "partial",
   "theorems": [
    "Verif.Props.C61_refuted",
    "Verif.Props.C61_partial",
    "Verif.Props.C61_diverges",
    "Verif.Props.C61_unreachable",
    "Verif.Props.C61_exact"
   ],
   "note": "False for the code: with an unreachable point the loop never ends. Holds when enough samples have solutions."
  },
  {
   "property": "C62",
   "status": "proved",
   "theorems": [
    "Verif.Props.C62",
    "Verif.Props.C62_exact",
    "Verif.Props.C62_default",
    "Verif.Props.C62_iterated",
    "Verif.Props.C62_red_two",
    "Verif.Props.C62_entry",
    "Verif.Props.C62_point"
   ],
   "note": ""
  },
  {
   "property": "C63",
   "status": "partial",
   "theorems": [
    "Verif.Props.C63_refuted",
    "Verif.Props.C63_raises",
    "Verif.Props.C63_partial",
    "Verif.Props.C63_resample"
   ],
   "note": "False for the code: NameError for every other point type. Holds for free-orientation points."
  },
  {
   "property": "C64",
   "status": "proved",
   "theorems": [
    "Verif.Props.C64",
    "Verif.Props.C64_costs",
    "Verif.Props.C64_succeeds",
    "Verif.Props.C64_fails",
    "Verif.Props.C64_fails_first",
    "Verif.Props.C64_corner",
    "Verif.Props.C64_stock",
    "Verif.Props.C64_stock_exact",
    "Verif.Props.C64_unchecked",
    "Verif.Props.C64_no_scene"
   ],
   "note": "C64_stock: with the published pyquaternion no run of two or more rounds succeeds. C64_succeeds and C64_stock_exact ask that the poses are accepted as rotations; C136 says when they are, C136_stock does without."
  },
  {
   "property": "C65",
   "status": "partial",
   "theorems": [
    "Verif.Props.C65_refuted",
    "Verif.Props.C65_no_scene",
    "Verif.Props.C65_unknown",
    "Verif.Props.C65_dispatch_partial"
   ],
   "note": "False for the code: AttributeError without a scene. Dispatch proved for tasks with a scene."
  },
  {
   "property": "C66",
   "status": "proved",
   "theorems": [
    "Verif.Props.C66",
    "Verif.Props.C66_reach",
    "Verif.Props.C66_succeeds",
    "Verif.Props.C66_arm2",
    "Verif.Props.C66_kuka"
   ],
   "note": "For every robot with a sound inverse kinematics; instantiated for Arm2 and Kuka."
  },
  {
   "property": "C67",
   "status": "partial",
   "theorems": [
    "Verif.Props.C67_refuted",
    "Verif.Props.C67_raises"
   ],
   "note": "False for the code: every call raises."
  },
  {
   "property": "C68",
   "status": "proved",
   "theorems": [
    "Verif.Props.C68",
    "Verif.Props.C68_disjoint",
    "Verif.Props.C68_complete",
    "Verif.Props.C68_iff"
   ],
   "note": "Soundness for all polyhedra; for boxes multipliers exist exactly when the distance is at least eps."
  },
  {
   "property": "C69",
   "status": "partial",
   "theorems": [
    "Verif.Props.C69_refuted",
    "Verif.Props.C69_prismatic",
    "Verif.Props.C69_index_error",
    "Verif.Props.C69_partial",
    "Verif.Props.C69_kuka"
   ],
   "note": "False for the code: links with two shapes, prismatic joints; IndexError with fewer shapes than links. An equivalence for revolute robots with one shape per link, instantiated for Kuka."
  },
  {
   "property": "C70",
   "status": "proved",
   "theorems": [
    "Verif.Props.C70",
    "Verif.Props.C70_search"
   ],
   "note": "Exact arithmetic."
  },
  {
   "property": "C71",
   "status": "proved",
   "theorems": [
    "Verif.Props.C71_slots",
    "Verif.Props.C71_margins",
    "Verif.Props.C71_other"
   ],
   "note": ""
  },
  {
   "property": "C72",
   "status": "partial",
   "theorems": [
    "Verif.Props.C72_refuted",
    "Verif.Props.C72_plan_first",
    "Verif.Props.C72_paths_first",
    "Verif.Props.C72_partial"
   ],
   "note": "False for every robot: planning first raises. An exact description of when each callback raises, in every reachable state."
  },
  {
   "property": "C73",
   "status": "proved",
   "theorems": [
    "Verif.Props.C73_reset_forgets",
    "Verif.Props.C73_no_reset_refuted"
   ],
   "note": "The second theorem shows that the reset is needed."
  },
  {
   "property": "C74",
   "status": "partial",
   "theorems": [
    "Verif.Props.C74_refuted",
    "Verif.Props.C74_partial",
    "Verif.Props.C74_iff",
    "Verif.Props.C74_never"
   ],
   "note": "False for the code: the angles are yaw, pitch, roll of Rx(roll) Ry(pitch) Rz(yaw) but point_to_frame reads them in the order x, y, z. C74_iff: unless the pitch is a right angle, the frame is right exactly if yaw and roll are the same."
  },
  {
   "property": "C75",
   "status": "partial",
   "theorems": [
    "Verif.Props.C75_refuted",
    "Verif.Props.C75_partial",
    "Verif.Props.C75_rational"
   ],
   "note": "False for the code: only euler_tolerance converts degrees. C75_rational: for rational angles the two agree exactly if no angle exceeds ten."
  },
  {
   "property": "C76",
   "status": "partial",
   "theorems": [
    "Verif.Props.C76_refuted",
    "Verif.Props.C76_wrist",
    "Verif.Props.C76_stable_partial",
    "Verif.Props.C76_kuka",
    "Verif.Props.C76_kuka_default"
   ],
   "note": "False for the code with SphericalWrist, whose ik hands out views of one cached array. Holds for every robot whose ik does not overwrite earlier answers, in particular Kuka."
  },
  {
   "property": "C77",
   "status": "partial",
   "theorems": [
    "Verif.Props.C77_refuted",
    "Verif.Props.C77_self",
    "Verif.Props.C77_partial",
    "Verif.Props.C77_plain_partial"
   ],
   "note": "False for the code: base, tool and self-collisions are not constrained. Everything else holds for revolute robots with one shape per link and every solver that meets its contract."
  },
  {
   "property": "C78",
   "status": "partial",
   "theorems": [
    "Verif.Props.C78_refuted",
    "Verif.Props.C78_points",
    "Verif.Props.C78_joints",
    "Verif.Props.C78_seven",
    "Verif.Props.C78_partial",
    "Verif.Props.C78_result"
   ],
   "note": "False for the code: other point types and other numbers of joints raise."
  },
  {
   "property": "C79",
   "status": "partial",
   "theorems": [
    "Verif.Props.C79_refuted",
    "Verif.Props.C79_drawn",
    "Verif.Props.C79_partial"
   ],
   "note": "False for the code: the base is drawn as if tf_base were the identity. Links and tool are right, and the base if tf_base is the identity."
  },
  {
   "property": "C80",
   "status": "partial",
   "theorems": [
    "Verif.Props.C80_refuted",
    "Verif.Props.C80_frame",
    "Verif.Props.C80_partial",
    "Verif.Props.C80_stops"
   ],
   "note": "False for the code: the base is never drawn in animations. Everything else is right in every frame."
  },
  {
   "property": "C81",
   "status": "proved",
   "theorems": [
    "Verif.Props.C81_kinematics",
    "Verif.Props.C81_no_links"
   ],
   "note": "Without links the call raises, see the second theorem."
  },
  {
   "property": "C82",
   "status": "proved",
   "theorems": [
    "Verif.Props.C82_segments",
    "Verif.Props.C82_orthogonal",
    "Verif.Props.C82_default"
   ],
   "note": ""
  },
  {
   "property": "C83",
   "status": "partial",
   "theorems": [
    "Verif.Props.C83_refuted",
    "Verif.Props.C83_partial",
    "Verif.Props.C83_frames"
   ],
   "note": "False for the code: the axes are not cleared when loading. Loading adds exactly the lines of the new task; showing a solution clears first and is right."
  },
  {
   "property": "C84",
   "status": "partial",
   "theorems": [
    "Verif.Props.C84_refuted",
    "Verif.Props.C84_partial",
    "Verif.Props.C84_length_partial"
   ],
   "note": "False for the code: loading other paths keeps the old solution. Right after planning it holds."
  },
  {
   "property": "C85",
   "status": "proved",
   "theorems": [
    "Verif.Props.C85_segment_report"
   ],
   "note": ""
  },
  {
   "property": "C86",
   "status": "partial",
   "theorems": [
    "Verif.Props.C86_split_points_refuted",
    "Verif.Props.C86_split_points_partial",
    "Verif.Props.C86_exact"
   ],
   "note": "False for the code whenever there are several segments: the next start is appended on a split, so column 0 is missing and the last start appears twice. C86_exact gives split_points exactly."
  },
  {
   "property": "C87",
   "status": "proved",
   "theorems": [
    "Verif.Props.C87_cost_basic",
    "Verif.Props.C87_cost_is_half_angle",
    "Verif.Props.C87_cost_invariant",
    "Verif.Props.C87_cost_matrix"
   ],
   "note": ""
  },
  {
   "property": "C88",
   "status": "proved",
   "theorems": [
    "Verif.Props.C88_least_rotation",
    "Verif.Props.C88_least_rotation_dp",
    "Verif.Props.C88_script"
   ],
   "note": ""
  },
  {
   "property": "C89",
   "status": "proved",
   "theorems": [
    "Verif.Props.C89_weld_line",
    "Verif.Props.C89_ends",
    "Verif.Props.C89_negative",
    "Verif.Props.C89_samples"
   ],
   "note": ""
  },
  {
   "property": "C90",
   "status": "proved",
   "theorems": [
    "Verif.Props.C90_walls",
    "Verif.Props.C90_walls_disjoint",
    "Verif.Props.C90_paths",
    "Verif.Props.C90_shipped",
    "Verif.Props.C90_positions",
    "Verif.Props.C90_workpiece"
   ],
   "note": "The paths use the shipped dimensions, the walls are for all dimensions."
  },
  {
   "property": "C91",
   "status": "proved",
   "theorems": [
    "Verif.Props.C91_torch",
    "Verif.Props.C91_tip",
    "Verif.Props.C91_tip_free",
    "Verif.Props.C91_gap",
    "Verif.Props.C91_body",
    "Verif.Props.C91_tip_position",
    "Verif.Props.C91_shipped"
   ],
   "note": "C91_gap is a finding about the shipped numbers."
  },
  {
   "property": "C92",
   "status": "proved",
   "theorems": [
    "Verif.Props.C92_path_ori_free",
    "Verif.Props.C92_path_pos_tol",
    "Verif.Props.C92_scenes"
   ],
   "note": ""
  },
  {
   "property": "C93",
   "status": "proved",
   "theorems": [
    "Verif.Props.C93_pops_least",
    "Verif.Props.C93_sorts"
   ],
   "note": "The queue is libstdc++'s binary heap, transcribed. In the search distances do change, which is why C12 is false."
  },
  {
   "property": "C94",
   "status": "proved",
   "theorems": [
    "Verif.Props.C94_plan",
    "Verif.Props.C94_errors",
    "Verif.Props.C94_goal_cost"
   ],
   "note": "The reported length is half of the total angle. cost_function_2 (not used by the script) leaves the last orientation out of the distance to the reference: C94_goal_cost."
  },
  {
   "property": "C95",
   "status": "partial",
   "theorems": [
    "Verif.Props.C95_refuted",
    "Verif.Props.C95_unit_partial",
    "Verif.Props.C95_near"
   ],
   "note": "False of the file: Quaternion is not imported (NameError on every call) and random_quaternion_near ends without a return below a distance of pi/4."
  },
  {
   "property": "C96",
   "status": "partial",
   "theorems": [
    "Verif.Props.C96_table",
    "Verif.Props.C96_returns",
    "Verif.Props.C96_single_partial",
    "Verif.Props.C96_refuted_wrong",
    "Verif.Props.C96_refuted_lost",
    "Verif.Props.C96_stale"
   ],
   "note": "False of the code: the frame is multiplied again for every table position (C96_refuted_wrong) and only the last sample counts (C96_refuted_lost). True for one sample per point and one table position."
  },
  {
   "property": "C97",
   "status": "proved",
   "theorems": [
    "Verif.Props.C97_redundant",
    "Verif.Props.C97_plans"
   ],
   "note": "The robot's methods are assumed determined by their arguments (DeterminedFixed); the heap of the compiled search is any lawful priority queue."
  },
  {
   "property": "C98",
   "status": "proved",
   "theorems": [
    "Verif.Props.C98_load_scene",
    "Verif.Props.C98_load_paths",
    "Verif.Props.C98_log"
   ],
   "note": "File contents are a function of the name (no other program writes them meanwhile)."
  },
  {
   "property": "C99",
   "status": "proved",
   "theorems": [
    "Verif.Props.C99_iterative",
    "Verif.Props.C99_grid",
    "Verif.Props.C99_grid_succeeds",
    "Verif.Props.C99_grid_iterative"
   ],
   "note": "Robot methods assumed determined by their arguments; random draws are arbitrary functions."
  },
  {
   "property": "C100",
   "status": "proved",
   "theorems": [
    "Verif.Props.C100"
   ],
   "note": "The optimiser itself is any function of the path, the scene, the iteration limit and the start."
  },
  {
   "property": "C101",
   "status": "proved",
   "theorems": [
    "Verif.Props.C101"
   ],
   "note": ""
  },
  {
   "property": "C102",
   "status": "partial",
   "theorems": [
    "Verif.Props.C102_refuted",
    "Verif.Props.C102_raises",
    "Verif.Props.C102_partial"
   ],
   "note": "Refuted for the code as it is: TypeError for every non-empty list."
  },
  {
   "property": "C103",
   "status": "partial",
   "theorems": [
    "Verif.Props.C103_kuka_partial",
    "Verif.Props.C103_rail_partial",
    "Verif.Props.C103_anthropomorphic_partial",
    "Verif.Props.C103_detects",
    "Verif.Props.C103_kuka_detects",
    "Verif.Props.C103_limit",
    "Verif.Props.C103_planar",
    "Verif.Props.C103_refuted",
    "Verif.Props.C103_arm2"
   ],
   "note": "Refuted for the shipped robots taken together (PlanarArm). The detection theorems assume only that the collision library reports boxes with a common point."
  },
  {
   "property": "C104",
   "status": "partial",
   "theorems": [
    "Verif.Props.C104_refuted",
    "Verif.Props.C104_fk",
    "Verif.Props.C104_parallel",
    "Verif.Props.C104_reach"
   ],
   "note": "Refuted: the table of link parameters is for another convention than DHLink. The explicit forward kinematics is proved for all lengths and joint values. The geometry of the Puma (no lists) is not modelled."
  },
  {
   "property": "C105",
   "status": "proved",
   "theorems": [
    "Verif.Props.C105"
   ],
   "note": "Colours are not modelled."
  },
  {
   "property": "C106",
   "status": "proved",
   "theorems": [
    "Verif.Props.C106"
   ],
   "note": "Needs a robot with a link if it has a tool (plot raises otherwise)."
  },
  {
   "property": "C107",
   "status": "proved",
   "theorems": [
    "Verif.Props.C107_print_graph",
    "Verif.Props.C107_bfs_table",
    "Verif.Props.C107_print_path",
    "Verif.Props.C107_fresh_table"
   ],
   "note": "Text is modelled by the numbers in it. Dangling parent pointers after a second init are not modelled (see C14)."
  },
  {
   "property": "C108",
   "status": "proved",
   "theorems": [
    "Verif.Props.C108_layout",
    "Verif.Props.C108_labels",
    "Verif.Props.C108_places",
    "Verif.Props.C108_everywhere"
   ],
   "note": "matplotlib's choice of the axes under the mouse is modelled as containment with borders."
  },
  {
   "property": "C109",
   "status": "partial",
   "theorems": [
    "Verif.Props.C109_refuted",
    "Verif.Props.C109_partial",
    "Verif.Props.C109_values",
    "Verif.Props.C109_color"
   ],
   "note": "False before the first move of a slider: the steps start at 0.1, so the slider shows 3.1 while the first curve has frequency 3; and before the first choice of a colour, when the button red is on. From the first move and choice on it holds."
  },
  {
   "property": "C110",
   "status": "proved",
   "theorems": [
    "Verif.Props.C110_sound",
    "Verif.Props.C110_complete"
   ],
   "note": "ik writes the first link matrix of the robot it is called on; the model keeps this. Only the last sample of a point counts, see C60. Reaching needs the default parameters, see C41."
  },
  {
   "property": "C111",
   "status": "proved",
   "theorems": [
    "Verif.Props.C111_kuka",
    "Verif.Props.C111_arm2",
    "Verif.Props.C111_rail"
   ],
   "note": "Costs are assumed finite and exact (no float32 overflow), as in C66."
  },
  {
   "property": "C112",
   "status": "proved",
   "theorems": [
    "Verif.Props.C112_links",
    "Verif.Props.C112_fk",
    "Verif.Props.C112_kuka",
    "Verif.Props.C112_plan",
    "Verif.Props.C112_margin"
   ],
   "note": "fk itself is over the reals; the theorem bounds the effect of the rounding of the joint values, not the rounding inside fk."
  },
  {
   "property": "C113",
   "status": "partial",
   "theorems": [
    "Verif.Props.C113_partial",
    "Verif.Props.C113_missed",
    "Verif.Props.C113_refuted",
    "Verif.Props.C113_neighbours",
    "Verif.Props.C113_kuka",
    "Verif.Props.C113_rail",
    "Verif.Props.C113_anthropomorphic",
    "Verif.Props.C113_arm2",
    "Verif.Props.C113_spherical"
   ],
   "note": "Refuted by a configuration with the upper arm backwards and the forearm folded over it; the collision library is assumed exact. Missing from the partial theorem: pairs with an index difference of two."
  },
  {
   "property": "C114",
   "status": "proved",
   "theorems": [
    "Verif.Props.C114_run",
    "Verif.Props.C114_sound",
    "Verif.Props.C114_complete",
    "Verif.Props.C114_wire",
    "Verif.Props.C114_scene",
    "Verif.Props.C114_seam",
    "Verif.Props.C114_reach",
    "Verif.Props.C114_regular",
    "Verif.Props.C114_ends",
    "Verif.Props.C114_any"
   ],
   "note": "Rounding errors of the float arithmetic before the conversion to float32 are not modelled. The drawing at the end is not modelled."
  },
  {
   "property": "C115",
   "status": "proved",
   "theorems": [
    "Verif.Props.C115_run",
    "Verif.Props.C115_scene",
    "Verif.Props.C115_chance",
    "Verif.Props.C115_any"
   ],
   "note": "The robot is any robot; the drawing is not modelled."
  },
  {
   "property": "C116",
   "status": "partial",
   "theorems": [
    "Verif.Props.C116_partial",
    "Verif.Props.C116_stock",
    "Verif.Props.C116_kuka",
    "Verif.Props.C116_ends",
    "Verif.Props.C116_refuted",
    "Verif.Props.C116_chance"
   ],
   "note": "Refuted by the missing random_near. Missing from the partial theorem: that the script ends without it. C116_stock and C116_kuka are for exact cosines in fk; C136_script and C136_script_kuka are for any, with ValueError as another outcome."
  },
  {
   "property": "C117",
   "status": "proved",
   "theorems": [
    "Verif.Props.C117_line",
    "Verif.Props.C117_passage",
    "Verif.Props.C117_sound"
   ],
   "note": "An endless run is modelled as running out of every amount of fuel. The drawing is not modelled."
  },
  {
   "property": "C118",
   "status": "partial",
   "theorems": [
    "Verif.Props.C118_partial",
    "Verif.Props.C118_refuted",
    "Verif.Props.C118_gate",
    "Verif.Props.C118_passage"
   ],
   "note": "Refuted by the passage: points 6, 7 and 8 touch the lintel."
  },
  {
   "property": "C119",
   "status": "partial",
   "theorems": [
    "Verif.Props.C119_partial",
    "Verif.Props.C119_refuted",
    "Verif.Props.C119_iff",
    "Verif.Props.C119_retract"
   ],
   "note": "Refuted by the retraction in industrial_1.json."
  },
  {
   "property": "C120",
   "status": "partial",
   "theorems": [
    "Verif.Props.C120_reach",
    "Verif.Props.C120_none",
    "Verif.Props.C120_shell",
    "Verif.Props.C120_partial",
    "Verif.Props.C120_refuted",
    "Verif.Props.C120_rail_reach",
    "Verif.Props.C120_rail_none"
   ],
   "note": "Refuted by a pose a ten-millionth of a metre out of reach, for which four solutions are returned."
  },
  {
   "property": "C121",
   "status": "proved",
   "theorems": [
    "Verif.Props.C121_rail",
    "Verif.Props.C121_no_ik",
    "Verif.Props.C121_fixed",
    "Verif.Props.C121_rail_width"
   ],
   "note": "Found by a mutation of the model: the fixed joint values given to a Kuka had been ignored."
  },
  {
   "property": "C122",
   "status": "proved",
   "theorems": [
    "Verif.Props.C122_import",
    "Verif.Props.C122_script",
    "Verif.Props.C122_workpiece",
    "Verif.Props.C122_kingpin"
   ],
   "note": ""
  },
  {
   "property": "C123",
   "status": "partial",
   "theorems": [
    "Verif.Props.C123_refuted",
    "Verif.Props.C123_passage",
    "Verif.Props.C123_industrial",
    "Verif.Props.C123_partial"
   ],
   "note": "False as stated: C123_refuted. The exact sets of touching points are proved for the two files for which it is false."
  },
  {
   "property": "C124",
   "status": "partial",
   "theorems": [
    "Verif.Props.C124_refuted",
    "Verif.Props.C124_iff",
    "Verif.Props.C124_partial",
    "Verif.Props.C124_weld"
   ],
   "note": "False as stated: C124_refuted."
  },
  {
   "property": "C125",
   "status": "partial",
   "theorems": [
    "Verif.Props.C125_refuted",
    "Verif.Props.C125_partial",
    "Verif.Props.C125_box"
   ],
   "note": "False as stated: C125_refuted."
  },
  {
   "property": "C126",
   "status": "partial",
   "theorems": [
    "Verif.Props.C126_refuted",
    "Verif.Props.C126_partial",
    "Verif.Props.C126_samples",
    "Verif.Props.C126_identity"
   ],
   "note": "False as stated: C126_refuted. Found by a mutation of the model that no theorem noticed. Such points cannot get there at present (C63)."
  },
  {
   "property": "C127",
   "status": "proved",
   "theorems": [
    "Verif.Props.C127_ik",
    "Verif.Props.C127_script",
    "Verif.Props.C127_other",
    "Verif.Props.C127_result",
    "Verif.Props.C127_solvable"
   ],
   "note": "The solver is an arbitrary function; that a reported success means feasible values is a hypothesis of C127_result. The plot (lines 29-37) is left out."
  },
  {
   "property": "C128",
   "status": "proved",
   "theorems": [
    "Verif.Props.C128_bodies",
    "Verif.Props.C128_check"
   ],
   "note": ""
  },
  {
   "property": "C129",
   "status": "proved",
   "theorems": [
    "Verif.Props.C129_feasible",
    "Verif.Props.C129_found",
    "Verif.Props.C129_objective"
   ],
   "note": "C77 is the direction from a result to its promise; this adds that no good path is excluded."
  },
  {
   "property": "C130",
   "status": "proved",
   "theorems": [
    "Verif.Props.C130_number",
    "Verif.Props.C130_given",
    "Verif.Props.C130_refuted",
    "Verif.Props.C130_point",
    "Verif.Props.C130_position",
    "Verif.Props.C130_weld",
    "Verif.Props.C130_table",
    "Verif.Props.C130_attributes"
   ],
   "note": "C130_refuted: with the default arguments the nominal value is never a sample. The weld lines need that pi is irrational, as angles half a radian apart must not make up for ninths of a turn."
  },
  {
   "property": "C131",
   "status": "partial",
   "theorems": [
    "Verif.Props.C131_data",
    "Verif.Props.C131_set_data",
    "Verif.Props.C131_print_partial",
    "Verif.Props.C131_run",
    "Verif.Props.C131_second_init",
    "Verif.Props.C131_refuted"
   ],
   "note": "False in general: C131_refuted and C131_second_init (init after a search moves the nodes, the parents still point to where they were). C131_print_partial: no dangling parent if each search is followed by reset before init. C131_data holds for all growth policies."
  },
  {
   "property": "C132",
   "status": "partial",
   "theorems": [
    "Verif.Props.C132_aa_partial",
    "Verif.Props.C132_aa_refuted",
    "Verif.Props.C132_arm2_partial",
    "Verif.Props.C132_wrist_partial",
    "Verif.Props.C132_wrist_refuted",
    "Verif.Props.C132_kuka_partial",
    "Verif.Props.C132_kuka_refuted",
    "Verif.Props.C132_rail_partial",
    "Verif.Props.C132_rail_refuted"
   ],
   "note": "False for some draws (C132_aa_refuted, C132_wrist_refuted, C132_kuka_refuted, C132_rail_refuted). For the Kuka the condition of the partial theorems is on the solutions that ik returns, not on the draw."
  },
  {
   "property": "C133",
   "status": "proved",
   "theorems": [
    "Verif.Props.C133_answer",
    "Verif.Props.C133_pen",
    "Verif.Props.C133_good_box",
    "Verif.Props.C133_bad_box",
    "Verif.Props.C133_beside",
    "Verif.Props.C133_inside"
   ],
   "note": "The recorded answers are examples in the same file."
  },
  {
   "property": "C134",
   "status": "partial",
   "theorems": [
    "Verif.Props.C134_partial",
    "Verif.Props.C134_refuted"
   ],
   "note": "False of the code: C134_refuted is the line of the page."
  },
  {
   "property": "C135",
   "status": "proved",
   "theorems": [
    "Verif.Props.C135_arm2",
    "Verif.Props.C135_arm2_twice",
    "Verif.Props.C135_anthropomorphic",
    "Verif.Props.C135_anthropomorphic_twice",
    "Verif.Props.C135_wrist",
    "Verif.Props.C135_kuka",
    "Verif.Props.C135_kuka_twice",
    "Verif.Props.C135_rail",
    "Verif.Props.C135_rail_twice"
   ],
   "note": ""
  },
  {
   "property": "C136",
   "status": "partial",
   "theorems": [
    "Verif.Props.C136_partial",
    "Verif.Props.C136_double",
    "Verif.Props.C136_two_joints",
    "Verif.Props.C136_refused",
    "Verif.Props.C136_refuted",
    "Verif.Props.C136_never_exact",
    "Verif.Props.C136_planner",
    "Verif.Props.C136_stock",
    "Verif.Props.C136_script",
    "Verif.Props.C136_script_kuka",
    "Verif.Props.C136_not_rotation"
   ],
   "note": "Refuted for float32 cosines, true for double precision. The witness has correctly rounded float32 cosines; numpy's may differ in the last bit. Other roundings of fk (products in double precision) are not modelled."
  },
  {
   "property": "C137",
   "status": "partial",
   "theorems": [
    "Verif.Props.C137_floor",
    "Verif.Props.C137_heights",
    "Verif.Props.C137_refuted",
    "Verif.Props.C137_partial",
    "Verif.Props.C137_prints",
    "Verif.Props.C137_markers"
   ],
   "note": "Refuted. The rail robot that the script sets up, which would stand beside the box, is never used; its planning part is commented out."
  },
  {
   "property": "C138",
   "status": "proved",
   "theorems": [
    "Verif.Props.C138_samples",
    "Verif.Props.C138_unique",
    "Verif.Props.C138_point",
    "Verif.Props.C138_rows",
    "Verif.Props.C138_sampler"
   ],
   "note": "np.random.random is taken to be independent and uniform on [0,1), in real numbers; the generator itself and the rounding are not modelled."
  },
  {
   "property": "C139",
   "status": "proved",
   "theorems": [
    "Verif.Props.C139_boxes",
    "Verif.Props.C139_averages",
    "Verif.Props.C139_orientations",
    "Verif.Props.C139_no_gaps"
   ],
   "note": "Exact numbers, as for C25; rounding is not modelled. The square root used in the prime test needs its usual accuracy."
  },
  {
   "property": "C140",
   "status": "partial",
   "theorems": [
    "Verif.Props.C140_swing",
    "Verif.Props.C140_refuted",
    "Verif.Props.C140_partial",
    "Verif.Props.C140_kuka"
   ],
   "note": "False of the code as stated; the counterexample is proved for every lawful queue, all random draws and any rounding that treats both signs alike, the sufficient margin for every robot. The shapes are boxes and the collision test is exact."
  },
  {
   "property": "C141",
   "status": "partial",
   "theorems": [
    "Verif.Props.C141_refuted",
    "Verif.Props.C141_longer",
    "Verif.Props.C141_bfs_partial",
    "Verif.Props.C141_partial",
    "Verif.Props.C141_two_columns_partial",
    "Verif.Props.C141_succeeds",
    "Verif.Props.C141_planner_partial",
    "Verif.Props.C141_plan_longer"
   ],
   "note": "False of the code for three or more columns, because the heap is not reordered when distances change (C12)."
  },
  {
   "property": "C142",
   "status": "proved",
   "theorems": [
    "Verif.Props.C142_rate",
    "Verif.Props.C142_almost_surely",
    "Verif.Props.C142_kuka",
    "Verif.Props.C142_chance"
   ],
   "note": "The draws are independent and uniform (allDraws, drawLaw); the collision library is taken to be exact for boxes (boxOracle)."
  },
  {
   "property": "C143",
   "status": "partial",
   "theorems": [
    "Verif.Props.C143_arm2_partial",
    "Verif.Props.C143_anthropomorphic_partial",
    "Verif.Props.C143_wrist_partial",
    "Verif.Props.C143_kuka_partial",
    "Verif.Props.C143_rail_partial",
    "Verif.Props.C143_back_arm2",
    "Verif.Props.C143_back_kuka",
    "Verif.Props.C143_beyond",
    "Verif.Props.C143_refuted"
   ],
   "note": "False of the Kuka: it adds a quarter turn to the third angle after the arm was solved; C143_refuted. The ranges that hold are proved for all five robots."
  },
  {
   "property": "C144",
   "status": "partial",
   "theorems": [
    "Verif.Props.C144_arm2_partial",
    "Verif.Props.C144_kuka_partial",
    "Verif.Props.C144_around",
    "Verif.Props.C144_refuted"
   ],
   "note": "False: C144_around shows an arm that is turned by more than half a turn between two points behind it, although a quarter turn would do. What is missing in the partial theorems: ways beyond the ranges, and the heap of the code for more than two points (see C12)."
  },
  {
   "property": "C145",
   "status": "proved",
   "theorems": [
    "Verif.Props.C145_way",
    "Verif.Props.C145_kuka_way",
    "Verif.Props.C145_kuka",
    "Verif.Props.C145_stays"
   ],
   "note": "The draws are assumed independent and uniform (allDraws), the arithmetic exact and the collision test exact for boxes, as in C142. The heap of the code is exact for at most two points only (C12), and ways beyond the ranges of ik can be shorter (C144)."
  },
  {
   "property": "C146",
   "status": "proved",
   "theorems": [
    "Verif.Props.C146_rate",
    "Verif.Props.C146_ends",
    "Verif.Props.C146_never",
    "Verif.Props.C146_kuka",
    "Verif.Props.C146_line",
    "Verif.Props.C146_passage",
    "Verif.Props.C146_mean"
   ],
   "note": "The draws of different tries and points are assumed independent and uniform (allDraws), the arithmetic exact and the collision test exact for boxes, as in C142 and C145. C61 and C117 treat single outcomes of the draws."
  },
  {
   "property": "C147",
   "status": "partial",
   "theorems": [
    "Verif.Props.C147_partial",
    "Verif.Props.C147_one_joint",
    "Verif.Props.C147_sharp",
    "Verif.Props.C147_refuted",
    "Verif.Props.C147_cost"
   ],
   "note": "False of the code: C147_refuted, already for two joints and two points and the heap of the code. What holds (C147_partial): the travel is at most sqrt((points - 1) * joints) times the least. No smaller factor holds, for any numbers of joints and points (C147_sharp). With one joint and two points the travel is the least (C147_one_joint). C147_cost: get_path_cost with cost_function and weights one would be the travel."
  },
  {
   "property": "C148",
   "status": "proved",
   "theorems": [
    "Verif.Props.C148_near",
    "Verif.Props.C148_motion",
    "Verif.Props.C148_grid",
    "Verif.Props.C148_incremental",
    "Verif.Props.C148_any",
    "Verif.Props.C148_revolute",
    "Verif.Props.C148_grid_any",
    "Verif.Props.C148_rail_moves",
    "Verif.Props.C148_rail"
   ],
   "note": "The collision test is taken to be exact for boxes (boxOracle) and the arithmetic of fk exact. Collisions of the robot with itself are not covered: enlarging the scene does not enlarge the links (C140 has a condition for these)."
  },
  {
   "property": "C149",
   "status": "proved",
   "theorems": [
    "Verif.Props.C149_visit",
    "Verif.Props.C149_list",
    "Verif.Props.C149_sort",
    "Verif.Props.C149_sound",
    "Verif.Props.C149_relaxation",
    "Verif.Props.C149_exact",
    "Verif.Props.C149_order"
   ],
   "note": "The set-up of the start nodes (graph.cpp:29-35) and the sequence of calls are part of the statement: the code contains no caller."
  },
  {
   "property": "C150",
   "status": "proved",
   "theorems": [
    "Verif.Props.C150",
    "Verif.Props.C150_again",
    "Verif.Props.C150_simple"
   ],
   "note": "The answers are those of Determined: values that do not depend on the state of the robot object (kuka_determined, pureArm_determined, rail_determined). Method optimization is left out: it takes get_optimal_path as a parameter."
  },
  {
   "property": "C151",
   "status": "proved",
   "theorems": [
    "Verif.Props.C151_touch",
    "Verif.Props.C151_answer",
    "Verif.Props.C151_kuka",
    "Verif.Props.C151_arm",
    "Verif.Props.C151_arm2",
    "Verif.Props.C151_rail"
   ],
   "note": "With the exact overlap of boxes as collision oracle. The joint values of a sliding joint enter the reach."
  },
  {
   "property": "C152",
   "status": "proved",
   "theorems": [
    "Verif.Props.C152",
    "Verif.Props.C152_solve",
    "Verif.Props.C152_touches",
    "Verif.Props.C152_ik",
    "Verif.Props.C152_samples",
    "Verif.Props.C152_rail"
   ],
   "note": "For every collision oracle that depends only on the relative pose of two shapes; the exact overlap of boxes is one (boxOracle_ok). In exact arithmetic. Rotations of the path are left out: TolEulerPt and TolPositionPt have intervals along fixed axes."
  },
  {
   "property": "C153",
   "status": "partial",
   "theorems": [
    "Verif.Props.C153_refuted",
    "Verif.Props.C153_shorter",
    "Verif.Props.C153_bfs_partial",
    "Verif.Props.C153_partial",
    "Verif.Props.C153_two_columns_partial",
    "Verif.Props.C153_plan_partial",
    "Verif.Props.C153_plan_shorter"
   ],
   "note": "False of the code for Dijkstra's search, which the planners use: through five columns of four values it reports 10, through the same columns in reverse order 6. The grid planner plans a path of length 33 for four points, and one of length 19 for the same points in reverse order (C153_plan_shorter). Proved for the breadth-first search with all weights, for Dijkstra's search with a queue that pops a node of least current distance, and with the heap of the code for at most two columns; for the grid planner under the same conditions."
  },
  {
   "property": "C154",
   "status": "proved",
   "theorems": [
    "Verif.Props.C154_same_choices",
    "Verif.Props.C154_weights",
    "Verif.Props.C154_units",
    "Verif.Props.C154_zeros",
    "Verif.Props.C154_pygraph",
    "Verif.Props.C154_pygraph_partial_path",
    "Verif.Props.C154_pygraph_segments"
   ],
   "note": "The general theorem relates two runs through the whole search, the heap of libstdc++ included. The three special cases are in exact arithmetic."
  },
  {
   "property": "C155",
   "status": "partial",
   "theorems": [
    "Verif.Props.C155_refuted",
    "Verif.Props.C155_partial",
    "Verif.Props.C155_succeeds",
    "Verif.Props.C155_touches",
    "Verif.Props.C155_arm2",
    "Verif.Props.C155_kuka",
    "Verif.Props.C155_longer",
    "Verif.Props.C155_incremental"
   ],
   "note": "Success is kept, proved for every queue that keeps its nodes. The length is not: with an obstacle the path 4, 1, 0, 3 of length 19 is planned, without it the path 4, 6, 8, 3 of length 33. With a queue kept in order, or with at most two points, the length does not grow."
  },
  {
   "property": "C156",
   "status": "proved",
   "theorems": [
    "Verif.Props.C156_perm",
    "Verif.Props.C156_check",
    "Verif.Props.C156_kuka",
    "Verif.Props.C156_rail",
    "Verif.Props.C156_file"
   ],
   "note": "For every collision oracle; in exact arithmetic. A shape without a transform (or the reverse) is ignored by the zip of the check and here."
  },
  {
   "property": "C157",
   "status": "partial",
   "theorems": [
    "Verif.Props.C157_refuted",
    "Verif.Props.C157_partial",
    "Verif.Props.C157_out_of_reach"
   ],
   "note": "False of the code: the assignment meant for the position writes base_wrist[3, :3], the last row, and not base_wrist[:3, 3]. For rigid targets that row is zero, so the frame stays rigid; the wrist has the orientation of the arm and stands in the origin. Proved: the frame that is left, the direction of approach, the orientation unless the wrist is stretched, and the position relative to the center of the wrist."
  }
 ]
}