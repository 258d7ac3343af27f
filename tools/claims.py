"""Writes MANIFEST.json from the table below and checks that every named theorem exists."""
import json, os, re, glob
root = os.path.dirname(os.path.dirname(os.path.abspath(__file__)))
P, Q = "proved", "partial"
claims = [
 ("C01", P, ["Verif.Props.C01_dp_optimal"], ""),
 ("C02", P, ["Verif.Props.C02_dp_value_function"], ""),
 ("C03", P, ["Verif.Props.C03_dp_errors"], ""),
 ("C04", P, ["Verif.Props.C04_pygraph_optimal", "Verif.Props.C04_pygraph_no_columns", "Verif.Props.C04_path_index"], ""),
 ("C05", P, ["Verif.Props.C05_pygraph_step_limit"], ""),
 ("C06", P, ["Verif.Props.C06_pygraph_furthest"], ""),
 ("C07", P, ["Verif.Props.C07_pygraph_terminates", "Verif.Props.C07_pygraph_rerun_fresh"], ""),
 ("C08", Q, ["Verif.Props.C08_segments_tile_partial", "Verif.Props.C08_segments_tile_refuted", "Verif.Props.C08_exact"],
  "False for the code: the split index is relative to the remaining data. Exactly: the segments tile the path iff there are at most two of them."),
 ("C09", Q, ["Verif.Props.C09_segments_total_partial", "Verif.Props.C09_segments_total_refuted", "Verif.Props.C09_exact"],
  "False for the code: IndexError on at most two columns, endless loop on data that need a third segment. C09_exact says exactly when the call returns."),
 ("C10", P, ["Verif.Props.C10_bfs_optimal", "Verif.Props.C10_bfs_optimal_exact"], ""),
 ("C11", P, ["Verif.Props.C11_dijkstra_sound", "Verif.Props.C11_dijkstra_sound_heap"], ""),
 ("C12", Q, ["Verif.Props.C12_dijkstra_optimal_partial", "Verif.Props.C12_dijkstra_optimal_refuted", "Verif.Props.C12_two_columns_partial", "Verif.Props.C12_two_columns_exact_partial", "Verif.Props.C12_three_columns"],
  "False for the code: distances change while nodes are in the heap, and the search stops early. Holds for a queue that pops a node of least current distance. With the heap of libstdc++ it holds for at most two columns and can fail from three on."),
 ("C13", P, ["Verif.Props.C13_runs_and_resets"], ""),
 ("C14", Q, ["Verif.Props.C14_histories_partial", "Verif.Props.C14_unsearched", "Verif.Props.C14_searched", "Verif.Props.C14_get_path_after_reset_refuted", "Verif.Props.C14_init_twice_refuted", "Verif.Props.C14_second_init", "Verif.Props.C14_widths"],
  "False for the code: get_path after run and reset, and a run after a second init, follow a null pointer. All other histories after one init on columns of one width are shown safe. C14_widths: for columns of different widths run_bfs reads outside an array exactly if some column is wider than the one before."),
 ("C15", P, ["Verif.Props.C15_weights", "Verif.Props.C15_weights_init"], ""),
 ("C16", P, ["Verif.Props.C16_add_data_column", "Verif.Props.C16_add_data_column_rows"], ""),
 ("C17", Q, ["Verif.Props.C17_unreachable_partial", "Verif.Props.C17_unreachable_raises", "Verif.Props.C17_unreachable_refuted"],
  "False for the code: a Python list [] in front, or behind a float64 column, raises AttributeError. Holds for empty arrays and for [] behind float32 columns."),
 ("C18", P, ["Verif.Props.C18_check_dtype", "Verif.Props.C18_check_dtype_errors"], ""),
 ("C19", P, ["Verif.Props.C19_solvers_agree"], ""),
 ("C20", P, ["Verif.Props.C20_rot", "Verif.Props.C20_axis_rot_unique", "Verif.Props.C20_compose", "Verif.Props.C20_pose"],
  ""),
 ("C21", P, ["Verif.Props.C21_inverse", "Verif.Props.C21_algebra", "Verif.Props.C21_reads_three_rows", "Verif.Props.C21_act"],
  ""),
 ("C22", P, ["Verif.Props.C22_rows", "Verif.Props.C22_count", "Verif.Props.C22_product", "Verif.Props.C22_no_ranges"],
  ""),
 ("C23", P, ["Verif.Props.C23_value", "Verif.Props.C23_injective", "Verif.Props.C23_stratified", "Verif.Props.C23_domain"],
  "Exact fractions; floating point rounding is not modelled."),
 ("C24", P, ["Verif.Props.C24_odd_primes"],
  "For every computed square root that is neither too small nor as large as the number."),
 ("C25", P, ["Verif.Props.C25_bases", "Verif.Props.C25_histories", "Verif.Props.C25_dim_zero"],
  "Exact fractions."),
 ("C26", P, ["Verif.Props.C26_random", "Verif.Props.C26_halton", "Verif.Props.C26_unknown_method", "Verif.Props.C26_representations"],
  "pyquaternion as documented."),
 ("C27", P, ["Verif.Props.C27_polyhedron", "Verif.Props.C27_convex_hull", "Verif.Props.C27_negative_side"],
  ""),
 ("C28", P, ["Verif.Props.C28_edges", "Verif.Props.C28_wireframe", "Verif.Props.C28_degree"],
  ""),
 ("C29", P, ["Verif.Props.C29_any_pair", "Verif.Props.C29_default", "Verif.Props.C29_symmetric", "Verif.Props.C29_monotone", "Verif.Props.C29_empty", "Verif.Props.C29_invariant", "Verif.Props.C29_geometric"],
  ""),
 ("C30", P, ["Verif.Props.C30_dh", "Verif.Props.C30_shared", "Verif.Props.C30_unknown_type"],
  ""),
 ("C31", P, ["Verif.Props.C31_fk", "Verif.Props.C31_rigid", "Verif.Props.C31_all_links", "Verif.Props.C31_move_base", "Verif.Props.C31_too_few"],
  ""),
 ("C32", Q, ["Verif.Props.C32_casadi_partial", "Verif.Props.C32_refuted"],
  "False for the code: the symbolic link transform ignores the joint type. Holds when all joints are revolute."),
 ("C33", P, ["Verif.Props.C33_answer", "Verif.Props.C33_new", "Verif.Props.C33_history", "Verif.Props.C33_priority", "Verif.Props.C33_reordered", "Verif.Props.C33_any_matrix"],
  ""),
 ("C34", P, ["Verif.Props.C34_self_collision", "Verif.Props.C34_matrix", "Verif.Props.C34_any_matrix"],
  ""),
 ("C35", P, ["Verif.Props.C35_arm2_sound", "Verif.Props.C35_error"], "Exact when the elbow is bent; otherwise within the tolerance. C35_error: the error is exactly the difference of the distances to the shoulder."),
 ("C36", P, ["Verif.Props.C36_arm2_succeeds", "Verif.Props.C36_arm2_complete", "Verif.Props.C36_arm2_iff"],
  "Non-singular: the end is not on the first axis and the elbow cosine is not within 1e-6 of plus or minus one."),
 ("C37", Q, ["Verif.Props.C37_wrist_sound_partial", "Verif.Props.C37_singular", "Verif.Props.C37_refuted", "Verif.Props.C37_iff", "Verif.Props.C37_at_base"],
  "False for the code when the approach axis is parallel to the base z axis. Holds otherwise. C37_singular says which orientation comes out instead, depending on the signs of two zeros; C37_at_base: with equal signs it is wrong even for the orientation of the base itself."),
 ("C38", P, ["Verif.Props.C38_wrist_complete"], ""),
 ("C39", Q, ["Verif.Props.C39_kuka_sound_partial", "Verif.Props.C39_refuted", "Verif.Props.C39_stretched", "Verif.Props.C39_error", "Verif.Props.C39_default"],
  "False for the code when the wrist is stretched (and only approximate when the elbow is snapped). Holds otherwise. C39_stretched: the outer wrist angles of a stretched solution are 0, pi or -pi, whatever the target."),
 ("C40", P, ["Verif.Props.C40_kuka_complete"],
  "Non-singular: wrist centre off the first axis, elbow not within the tolerance of stretched or folded, wrist not stretched."),
 ("C41", Q, ["Verif.Props.C41_rail_sound_partial", "Verif.Props.C41_refuted", "Verif.Props.C41_complete", "Verif.Props.C41_solution", "Verif.Props.C41_iff"],
  "False for the code with other than the default parameters, because the inner Kuka always has those. C41_iff: all regular solutions are right iff the robot has the default lengths; C41_solution says which are right otherwise; C41_complete: the solutions are complete for the default robot."),
 ("C42", P, ["Verif.Props.C42_anthropomorphic_sound", "Verif.Props.C42_anthropomorphic_succeeds", "Verif.Props.C42_anthropomorphic_iff", "Verif.Props.C42_error", "Verif.Props.C42_complete"], ""),
 ("C43", P, ["Verif.Props.C43_planar", "Verif.Props.C43_spherical", "Verif.Props.C43_anthropomorphic", "Verif.Props.C43_arm2", "Verif.Props.C43_kuka", "Verif.Props.C43_rail"], ""),
 ("C44", Q, ["Verif.Props.C44_kuka_partial", "Verif.Props.C44_rail_partial", "Verif.Props.C44_refuted"],
  "False for SphericalWrist, which returns its cached array. Holds for Kuka and KukaOnRail."),
 ("C45", P, ["Verif.Props.C45_rejects", "Verif.Props.C45_accepts", "Verif.Props.C45_within", "Verif.Props.C45_nominal", "Verif.Props.C45_inverted_accepted"],
  "The last theorem shows that inverted bounds are accepted when no nominal is given, so lower <= upper is a needed hypothesis."),
 ("C46", P, ["Verif.Props.C46", "Verif.Props.C46_negative"],
  ""),
 ("C47", P, ["Verif.Props.C47_samples", "Verif.Props.C47_within", "Verif.Props.C47_nominal", "Verif.Props.C47_no_tolerance", "Verif.Props.C47_short"],
  ""),
 ("C48", P, ["Verif.Props.C48"],
  ""),
 ("C49", P, ["Verif.Props.C49", "Verif.Props.C49_zero", "Verif.Props.C49_zero_axis"],
  "Axes that pyquaternion does not reject; a zero axis raises."),
 ("C50", P, ["Verif.Props.C50_random", "Verif.Props.C50_halton", "Verif.Props.C50_rotation", "Verif.Props.C50_unknown_rep", "Verif.Props.C50_rpy", "Verif.Props.C50_tolOrientation", "Verif.Props.C50_tolOrientation_stock"],
  "TolOrientationPt relies on Quaternion.random_near, which stock pyquaternion does not have: then it raises AttributeError (last theorem)."),
 ("C51", P, ["Verif.Props.C51", "Verif.Props.C51_path", "Verif.Props.C51_short", "Verif.Props.C51_lengths"],
  ""),
 ("C52", P, ["Verif.Props.C52", "Verif.Props.C52_raises"],
  ""),
 ("C53", P, ["Verif.Props.C53", "Verif.Props.C53_points"],
  ""),
 ("C54", P, ["Verif.Props.C54_position", "Verif.Props.C54_euler", "Verif.Props.C54_euler_radians"],
  ""),
 ("C55", Q, ["Verif.Props.C55_refuted", "Verif.Props.C55_partial", "Verif.Props.C55_iff"],
  "False for the code: negative angles in degrees are not recognised. Holds for positive ones."),
 ("C56", P, ["Verif.Props.C56_path", "Verif.Props.C56_unknown_path", "Verif.Props.C56_unknown_tolerance", "Verif.Props.C56_known", "Verif.Props.C56_obstacles", "Verif.Props.C56_unknown_shape", "Verif.Props.C56_task", "Verif.Props.C56_import", "Verif.Props.C56_tolerances"],
  ""),
 ("C57", Q, ["Verif.Props.C57_refuted", "Verif.Props.C57_partial", "Verif.Props.C57_round_trip", "Verif.Props.C57_iff", "Verif.Props.C57_origin"],
  "False for the code: the export drops rotations (and writes nothing for the empty scene). Holds for non-empty scenes of unrotated boxes."),
 ("C58", Q, ["Verif.Props.C58_refuted", "Verif.Props.C58_empty", "Verif.Props.C58_stale", "Verif.Props.C58_partial"],
  "False for the code for the empty scene. Holds for non-empty scenes."),
 ("C59", P, ["Verif.Props.C59", "Verif.Props.C59_raises"],
  "For robots whose ik and collision check return values; C76 is about references."),
 ("C60", Q, ["Verif.Props.C60_refuted", "Verif.Props.C60_last", "Verif.Props.C60_partial", "Verif.Props.C60_unbound", "Verif.Props.C60_stale", "Verif.Props.C60_other_points"],
  "False for the code: only the last sample counts. Exact description of what is returned."),
 ("C61", Q, ["Verif.Props.C61_refuted", "Verif.Props.C61_partial", "Verif.Props.C61_diverges", "Verif.Props.C61_unreachable", "Verif.Props.C61_exact"],
  "False for the code: with an unreachable point the loop never ends. Holds when enough samples have solutions."),
 ("C62", P, ["Verif.Props.C62", "Verif.Props.C62_exact", "Verif.Props.C62_default", "Verif.Props.C62_iterated", "Verif.Props.C62_red_two", "Verif.Props.C62_entry", "Verif.Props.C62_point"],
  ""),
 ("C63", Q, ["Verif.Props.C63_refuted", "Verif.Props.C63_raises", "Verif.Props.C63_partial", "Verif.Props.C63_resample"],
  "False for the code: NameError for every other point type. Holds for free-orientation points."),
 ("C64", P, ["Verif.Props.C64", "Verif.Props.C64_costs", "Verif.Props.C64_succeeds", "Verif.Props.C64_fails", "Verif.Props.C64_fails_first", "Verif.Props.C64_corner", "Verif.Props.C64_stock", "Verif.Props.C64_stock_exact", "Verif.Props.C64_unchecked", "Verif.Props.C64_no_scene"],
  "C64_stock: with the published pyquaternion no run of two or more rounds succeeds. C64_succeeds and C64_stock_exact ask that the poses are accepted as rotations; C136 says when they are, C136_stock does without."),
 ("C65", Q, ["Verif.Props.C65_refuted", "Verif.Props.C65_no_scene", "Verif.Props.C65_unknown", "Verif.Props.C65_dispatch_partial"],
  "False for the code: AttributeError without a scene. Dispatch proved for tasks with a scene."),
 ("C66", P, ["Verif.Props.C66", "Verif.Props.C66_reach", "Verif.Props.C66_succeeds", "Verif.Props.C66_arm2", "Verif.Props.C66_kuka"],
  "For every robot with a sound inverse kinematics; instantiated for Arm2 and Kuka."),
 ("C67", Q, ["Verif.Props.C67_refuted", "Verif.Props.C67_raises"],
  "False for the code: every call raises."),
 ("C68", P, ["Verif.Props.C68", "Verif.Props.C68_disjoint", "Verif.Props.C68_complete", "Verif.Props.C68_iff"],
  "Soundness for all polyhedra; for boxes multipliers exist exactly when the distance is at least eps."),
 ("C69", Q, ["Verif.Props.C69_refuted", "Verif.Props.C69_prismatic", "Verif.Props.C69_index_error", "Verif.Props.C69_partial", "Verif.Props.C69_kuka"],
  "False for the code: links with two shapes, prismatic joints; IndexError with fewer shapes than links. An equivalence for revolute robots with one shape per link, instantiated for Kuka."),
 ("C70", P, ["Verif.Props.C70", "Verif.Props.C70_search"],
  "Exact arithmetic."),
 ("C71", P, ["Verif.Props.C71_slots", "Verif.Props.C71_margins", "Verif.Props.C71_other"], ""),
 ("C72", Q, ["Verif.Props.C72_refuted", "Verif.Props.C72_plan_first", "Verif.Props.C72_paths_first", "Verif.Props.C72_partial"],
  "False for every robot: planning first raises. An exact description of when each callback raises, in every reachable state."),
 ("C73", P, ["Verif.Props.C73_reset_forgets", "Verif.Props.C73_no_reset_refuted"], "The second theorem shows that the reset is needed."),
 ("C74", Q, ["Verif.Props.C74_refuted", "Verif.Props.C74_partial", "Verif.Props.C74_iff", "Verif.Props.C74_never"],
  "False for the code: the angles are yaw, pitch, roll of Rx(roll) Ry(pitch) Rz(yaw) but point_to_frame reads them in the order x, y, z. C74_iff: unless the pitch is a right angle, the frame is right exactly if yaw and roll are the same."),
 ("C75", Q, ["Verif.Props.C75_refuted", "Verif.Props.C75_partial", "Verif.Props.C75_rational"],
  "False for the code: only euler_tolerance converts degrees. C75_rational: for rational angles the two agree exactly if no angle exceeds ten."),
 ("C76", Q, ["Verif.Props.C76_refuted", "Verif.Props.C76_wrist", "Verif.Props.C76_stable_partial", "Verif.Props.C76_kuka", "Verif.Props.C76_kuka_default"],
  "False for the code with SphericalWrist, whose ik hands out views of one cached array. Holds for every robot whose ik does not overwrite earlier answers, in particular Kuka."),
 ("C77", Q, ["Verif.Props.C77_refuted", "Verif.Props.C77_self", "Verif.Props.C77_partial", "Verif.Props.C77_plain_partial"],
  "False for the code: base, tool and self-collisions are not constrained. Everything else holds for revolute robots with one shape per link and every solver that meets its contract."),
 ("C78", Q, ["Verif.Props.C78_refuted", "Verif.Props.C78_points", "Verif.Props.C78_joints", "Verif.Props.C78_seven", "Verif.Props.C78_partial", "Verif.Props.C78_result"],
  "False for the code: other point types and other numbers of joints raise."),
 ("C79", Q, ["Verif.Props.C79_refuted", "Verif.Props.C79_drawn", "Verif.Props.C79_partial"],
  "False for the code: the base is drawn as if tf_base were the identity. Links and tool are right, and the base if tf_base is the identity."),
 ("C80", Q, ["Verif.Props.C80_refuted", "Verif.Props.C80_frame", "Verif.Props.C80_partial", "Verif.Props.C80_stops"],
  "False for the code: the base is never drawn in animations. Everything else is right in every frame."),
 ("C81", P, ["Verif.Props.C81_kinematics", "Verif.Props.C81_no_links"], "Without links the call raises, see the second theorem."),
 ("C82", P, ["Verif.Props.C82_segments", "Verif.Props.C82_orthogonal", "Verif.Props.C82_default"], ""),
 ("C83", Q, ["Verif.Props.C83_refuted", "Verif.Props.C83_partial", "Verif.Props.C83_frames"],
  "False for the code: the axes are not cleared when loading. Loading adds exactly the lines of the new task; showing a solution clears first and is right."),
 ("C84", Q, ["Verif.Props.C84_refuted", "Verif.Props.C84_partial", "Verif.Props.C84_length_partial"],
  "False for the code: loading other paths keeps the old solution. Right after planning it holds."),
 ("C85", P, ["Verif.Props.C85_segment_report"], ""),
 ("C86", Q, ["Verif.Props.C86_split_points_refuted", "Verif.Props.C86_split_points_partial", "Verif.Props.C86_exact"],
  "False for the code whenever there are several segments: the next start is appended on a split, so column 0 is missing and the last start appears twice. C86_exact gives split_points exactly."),
 ("C87", P, ["Verif.Props.C87_cost_basic", "Verif.Props.C87_cost_is_half_angle", "Verif.Props.C87_cost_invariant", "Verif.Props.C87_cost_matrix"], ""),
 ("C88", P, ["Verif.Props.C88_least_rotation", "Verif.Props.C88_least_rotation_dp", "Verif.Props.C88_script"], ""),
 ("C89", P, ["Verif.Props.C89_weld_line", "Verif.Props.C89_ends", "Verif.Props.C89_negative", "Verif.Props.C89_samples"],
  ""),
 ("C90", P, ["Verif.Props.C90_walls", "Verif.Props.C90_walls_disjoint", "Verif.Props.C90_paths", "Verif.Props.C90_shipped", "Verif.Props.C90_positions", "Verif.Props.C90_workpiece"],
  "The paths use the shipped dimensions, the walls are for all dimensions."),
 ("C91", P, ["Verif.Props.C91_torch", "Verif.Props.C91_tip", "Verif.Props.C91_tip_free", "Verif.Props.C91_gap", "Verif.Props.C91_body", "Verif.Props.C91_tip_position", "Verif.Props.C91_shipped"],
  "C91_gap is a finding about the shipped numbers."),
 ("C92", P, ["Verif.Props.C92_path_ori_free", "Verif.Props.C92_path_pos_tol", "Verif.Props.C92_scenes"],
  ""),
 ("C93", P, ["Verif.Props.C93_pops_least", "Verif.Props.C93_sorts"],
  "The queue is libstdc++'s binary heap, transcribed. In the search distances do change, which is why C12 is false."),
 ("C94", P, ["Verif.Props.C94_plan", "Verif.Props.C94_errors", "Verif.Props.C94_goal_cost"],
  "The reported length is half of the total angle. cost_function_2 (not used by the script) leaves the last orientation out of the distance to the reference: C94_goal_cost."),
 ("C95", Q, ["Verif.Props.C95_refuted", "Verif.Props.C95_unit_partial", "Verif.Props.C95_near"],
  "False of the file: Quaternion is not imported (NameError on every call) and random_quaternion_near ends without a return below a distance of pi/4."),
 ("C96", Q, ["Verif.Props.C96_table", "Verif.Props.C96_returns", "Verif.Props.C96_single_partial", "Verif.Props.C96_refuted_wrong", "Verif.Props.C96_refuted_lost", "Verif.Props.C96_stale"],
  "False of the code: the frame is multiplied again for every table position (C96_refuted_wrong) and only the last sample counts (C96_refuted_lost). True for one sample per point and one table position."),
 ("C97", P, ["Verif.Props.C97_redundant", "Verif.Props.C97_plans"],
  "The robot's methods are assumed determined by their arguments (DeterminedFixed); the heap of the compiled search is any lawful priority queue."),
 ("C98", P, ["Verif.Props.C98_load_scene", "Verif.Props.C98_load_paths", "Verif.Props.C98_log"],
  "File contents are a function of the name (no other program writes them meanwhile)."),
 ("C99", P, ["Verif.Props.C99_iterative", "Verif.Props.C99_grid", "Verif.Props.C99_grid_succeeds", "Verif.Props.C99_grid_iterative"],
  "Robot methods assumed determined by their arguments; random draws are arbitrary functions."),
 ("C100", P, ["Verif.Props.C100"],
  "The optimiser itself is any function of the path, the scene, the iteration limit and the start."),
 ("C101", P, ["Verif.Props.C101"],
  ""),
 ("C102", Q, ["Verif.Props.C102_refuted", "Verif.Props.C102_raises", "Verif.Props.C102_partial"],
  "Refuted for the code as it is: TypeError for every non-empty list."),
 ("C103", Q, ["Verif.Props.C103_kuka_partial", "Verif.Props.C103_rail_partial", "Verif.Props.C103_anthropomorphic_partial", "Verif.Props.C103_detects", "Verif.Props.C103_kuka_detects", "Verif.Props.C103_limit", "Verif.Props.C103_planar", "Verif.Props.C103_refuted", "Verif.Props.C103_arm2"],
  "Refuted for the shipped robots taken together (PlanarArm). The detection theorems assume only that the collision library reports boxes with a common point."),
 ("C104", Q, ["Verif.Props.C104_refuted", "Verif.Props.C104_fk", "Verif.Props.C104_parallel", "Verif.Props.C104_reach"],
  "Refuted: the table of link parameters is for another convention than DHLink. The explicit forward kinematics is proved for all lengths and joint values. The geometry of the Puma (no lists) is not modelled."),
 ("C105", P, ["Verif.Props.C105"],
  "Colours are not modelled."),
 ("C106", P, ["Verif.Props.C106"],
  "Needs a robot with a link if it has a tool (plot raises otherwise)."),
 ("C107", P, ["Verif.Props.C107_print_graph", "Verif.Props.C107_bfs_table", "Verif.Props.C107_print_path", "Verif.Props.C107_fresh_table"],
  "Text is modelled by the numbers in it. Dangling parent pointers after a second init are not modelled (see C14)."),
 ("C108", P, ["Verif.Props.C108_layout", "Verif.Props.C108_labels", "Verif.Props.C108_places", "Verif.Props.C108_everywhere"],
  "matplotlib's choice of the axes under the mouse is modelled as containment with borders."),
 ("C109", Q, ["Verif.Props.C109_refuted", "Verif.Props.C109_partial", "Verif.Props.C109_values", "Verif.Props.C109_color"],
  "False before the first move of a slider: the steps start at 0.1, so the slider shows 3.1 while the first curve has frequency 3; and before the first choice of a colour, when the button red is on. From the first move and choice on it holds."),
 ("C110", P, ["Verif.Props.C110_sound", "Verif.Props.C110_complete"],
  "ik writes the first link matrix of the robot it is called on; the model keeps this. Only the last sample of a point counts, see C60. Reaching needs the default parameters, see C41."),
 ("C111", P, ["Verif.Props.C111_kuka", "Verif.Props.C111_arm2", "Verif.Props.C111_rail"],
  "Costs are assumed finite and exact (no float32 overflow), as in C66."),
 ("C112", P, ["Verif.Props.C112_links", "Verif.Props.C112_fk", "Verif.Props.C112_kuka", "Verif.Props.C112_plan", "Verif.Props.C112_margin"],
  "fk itself is over the reals; the theorem bounds the effect of the rounding of the joint values, not the rounding inside fk."),
 ("C113", Q, ["Verif.Props.C113_partial", "Verif.Props.C113_missed", "Verif.Props.C113_refuted", "Verif.Props.C113_neighbours", "Verif.Props.C113_kuka", "Verif.Props.C113_rail", "Verif.Props.C113_anthropomorphic", "Verif.Props.C113_arm2", "Verif.Props.C113_spherical"],
  "Refuted by a configuration with the upper arm backwards and the forearm folded over it; the collision library is assumed exact. Missing from the partial theorem: pairs with an index difference of two."),
 ("C114", P, ["Verif.Props.C114_run", "Verif.Props.C114_sound", "Verif.Props.C114_complete", "Verif.Props.C114_wire", "Verif.Props.C114_scene", "Verif.Props.C114_seam", "Verif.Props.C114_reach", "Verif.Props.C114_regular", "Verif.Props.C114_ends", "Verif.Props.C114_any"],
  "Rounding errors of the float arithmetic before the conversion to float32 are not modelled. The drawing at the end is not modelled."),
 ("C115", P, ["Verif.Props.C115_run", "Verif.Props.C115_scene", "Verif.Props.C115_chance", "Verif.Props.C115_any"],
  "The robot is any robot; the drawing is not modelled."),
 ("C116", Q, ["Verif.Props.C116_partial", "Verif.Props.C116_stock", "Verif.Props.C116_kuka", "Verif.Props.C116_ends", "Verif.Props.C116_refuted", "Verif.Props.C116_chance"],
  "Refuted by the missing random_near. Missing from the partial theorem: that the script ends without it. C116_stock and C116_kuka are for exact cosines in fk; C136_script and C136_script_kuka are for any, with ValueError as another outcome."),
 ("C117", P, ["Verif.Props.C117_line", "Verif.Props.C117_passage", "Verif.Props.C117_sound"],
  "An endless run is modelled as running out of every amount of fuel. The drawing is not modelled."),
 ("C118", Q, ["Verif.Props.C118_partial", "Verif.Props.C118_refuted", "Verif.Props.C118_gate", "Verif.Props.C118_passage"],
  "Refuted by the passage: points 6, 7 and 8 touch the lintel."),
 ("C119", Q, ["Verif.Props.C119_partial", "Verif.Props.C119_refuted", "Verif.Props.C119_iff", "Verif.Props.C119_retract"],
  "Refuted by the retraction in industrial_1.json."),
 ("C120", Q, ["Verif.Props.C120_reach", "Verif.Props.C120_none", "Verif.Props.C120_shell", "Verif.Props.C120_partial", "Verif.Props.C120_refuted", "Verif.Props.C120_rail_reach", "Verif.Props.C120_rail_none"],
  "Refuted by a pose a ten-millionth of a metre out of reach, for which four solutions are returned."),
 ("C121", P, ["Verif.Props.C121_rail", "Verif.Props.C121_no_ik", "Verif.Props.C121_fixed", "Verif.Props.C121_rail_width"],
  "Found by a mutation of the model: the fixed joint values given to a Kuka had been ignored."),
 ("C122", P, ["Verif.Props.C122_import", "Verif.Props.C122_script", "Verif.Props.C122_workpiece", "Verif.Props.C122_kingpin"],
  ""),
 ("C123", Q, ["Verif.Props.C123_refuted", "Verif.Props.C123_passage", "Verif.Props.C123_industrial", "Verif.Props.C123_partial"],
  "False as stated: C123_refuted. The exact sets of touching points are proved for the two files for which it is false."),
 ("C124", Q, ["Verif.Props.C124_refuted", "Verif.Props.C124_iff", "Verif.Props.C124_partial", "Verif.Props.C124_weld"],
  "False as stated: C124_refuted."),
 ("C125", Q, ["Verif.Props.C125_refuted", "Verif.Props.C125_partial", "Verif.Props.C125_box"],
  "False as stated: C125_refuted."),
 ("C126", Q, ["Verif.Props.C126_refuted", "Verif.Props.C126_partial", "Verif.Props.C126_samples", "Verif.Props.C126_identity"],
  "False as stated: C126_refuted. Found by a mutation of the model that no theorem noticed. Such points cannot get there at present (C63)."),
 ("C127", P, ["Verif.Props.C127_ik", "Verif.Props.C127_script", "Verif.Props.C127_other", "Verif.Props.C127_result", "Verif.Props.C127_solvable"],
  "The solver is an arbitrary function; that a reported success means feasible values is a hypothesis of C127_result. The plot (lines 29-37) is left out."),
 ("C128", P, ["Verif.Props.C128_bodies", "Verif.Props.C128_check"],
  ""),
 ("C129", P, ["Verif.Props.C129_feasible", "Verif.Props.C129_found", "Verif.Props.C129_objective"],
  "C77 is the direction from a result to its promise; this adds that no good path is excluded."),
 ("C130", P, ["Verif.Props.C130_number", "Verif.Props.C130_given", "Verif.Props.C130_refuted", "Verif.Props.C130_point", "Verif.Props.C130_position", "Verif.Props.C130_weld", "Verif.Props.C130_table", "Verif.Props.C130_attributes"],
  "C130_refuted: with the default arguments the nominal value is never a sample. The weld lines need that pi is irrational, as angles half a radian apart must not make up for ninths of a turn."),
 ("C131", Q, ["Verif.Props.C131_data", "Verif.Props.C131_set_data", "Verif.Props.C131_print_partial", "Verif.Props.C131_run", "Verif.Props.C131_second_init", "Verif.Props.C131_refuted"],
  "False in general: C131_refuted and C131_second_init (init after a search moves the nodes, the parents still point to where they were). C131_print_partial: no dangling parent if each search is followed by reset before init. C131_data holds for all growth policies."),
 ("C132", Q, ["Verif.Props.C132_aa_partial", "Verif.Props.C132_aa_refuted", "Verif.Props.C132_arm2_partial", "Verif.Props.C132_wrist_partial", "Verif.Props.C132_wrist_refuted", "Verif.Props.C132_kuka_partial", "Verif.Props.C132_kuka_refuted", "Verif.Props.C132_rail_partial", "Verif.Props.C132_rail_refuted"],
  "False for some draws (C132_aa_refuted, C132_wrist_refuted, C132_kuka_refuted, C132_rail_refuted). For the Kuka the condition of the partial theorems is on the solutions that ik returns, not on the draw."),
 ("C133", P, ["Verif.Props.C133_answer", "Verif.Props.C133_pen", "Verif.Props.C133_good_box", "Verif.Props.C133_bad_box", "Verif.Props.C133_beside", "Verif.Props.C133_inside"],
  "The recorded answers are examples in the same file."),
 ("C134", Q, ["Verif.Props.C134_partial", "Verif.Props.C134_refuted"],
  "False of the code: C134_refuted is the line of the page."),
 ("C135", P, ["Verif.Props.C135_arm2", "Verif.Props.C135_arm2_twice", "Verif.Props.C135_anthropomorphic", "Verif.Props.C135_anthropomorphic_twice", "Verif.Props.C135_wrist", "Verif.Props.C135_kuka", "Verif.Props.C135_kuka_twice", "Verif.Props.C135_rail", "Verif.Props.C135_rail_twice"],
  ""),
 ("C136", Q, ["Verif.Props.C136_partial", "Verif.Props.C136_double", "Verif.Props.C136_two_joints", "Verif.Props.C136_refused", "Verif.Props.C136_refuted", "Verif.Props.C136_never_exact", "Verif.Props.C136_planner", "Verif.Props.C136_stock", "Verif.Props.C136_script", "Verif.Props.C136_script_kuka", "Verif.Props.C136_not_rotation"],
  "Refuted for float32 cosines, true for double precision. The witness has correctly rounded float32 cosines; numpy's may differ in the last bit. Other roundings of fk (products in double precision) are not modelled."),
 ("C137", Q, ["Verif.Props.C137_floor", "Verif.Props.C137_heights", "Verif.Props.C137_refuted", "Verif.Props.C137_partial", "Verif.Props.C137_prints", "Verif.Props.C137_markers"],
  "Refuted. The rail robot that the script sets up, which would stand beside the box, is never used; its planning part is commented out."),
 ("C138", P, ["Verif.Props.C138_samples", "Verif.Props.C138_unique", "Verif.Props.C138_point", "Verif.Props.C138_rows", "Verif.Props.C138_sampler"],
  "np.random.random is taken to be independent and uniform on [0,1), in real numbers; the generator itself and the rounding are not modelled."),
 ("C139", P, ["Verif.Props.C139_boxes", "Verif.Props.C139_averages", "Verif.Props.C139_orientations", "Verif.Props.C139_no_gaps"],
  "Exact numbers, as for C25; rounding is not modelled. The square root used in the prime test needs its usual accuracy."),
 ("C140", Q, ["Verif.Props.C140_swing", "Verif.Props.C140_refuted", "Verif.Props.C140_partial", "Verif.Props.C140_kuka"],
  "False of the code as stated; the counterexample is proved for every lawful queue, all random draws and any rounding that treats both signs alike, the sufficient margin for every robot. The shapes are boxes and the collision test is exact."),
 ("C141", Q, ["Verif.Props.C141_refuted", "Verif.Props.C141_longer", "Verif.Props.C141_bfs_partial", "Verif.Props.C141_partial", "Verif.Props.C141_two_columns_partial", "Verif.Props.C141_succeeds", "Verif.Props.C141_planner_partial", "Verif.Props.C141_plan_longer"],
  "False of the code for three or more columns, because the heap is not reordered when distances change (C12)."),
 ("C142", P, ["Verif.Props.C142_rate", "Verif.Props.C142_almost_surely", "Verif.Props.C142_kuka", "Verif.Props.C142_chance"],
  "The draws are independent and uniform (allDraws, drawLaw); the collision library is taken to be exact for boxes (boxOracle)."),
 ("C143", Q, ["Verif.Props.C143_arm2_partial", "Verif.Props.C143_anthropomorphic_partial", "Verif.Props.C143_wrist_partial", "Verif.Props.C143_kuka_partial", "Verif.Props.C143_rail_partial", "Verif.Props.C143_back_arm2", "Verif.Props.C143_back_kuka", "Verif.Props.C143_beyond", "Verif.Props.C143_refuted"],
  "False of the Kuka: it adds a quarter turn to the third angle after the arm was solved; C143_refuted. The ranges that hold are proved for all five robots."),
 ("C144", Q, ["Verif.Props.C144_arm2_partial", "Verif.Props.C144_kuka_partial", "Verif.Props.C144_around", "Verif.Props.C144_refuted"],
  "False: C144_around shows an arm that is turned by more than half a turn between two points behind it, although a quarter turn would do. What is missing in the partial theorems: ways beyond the ranges, and the heap of the code for more than two points (see C12)."),
 ("C145", P, ["Verif.Props.C145_way", "Verif.Props.C145_kuka_way", "Verif.Props.C145_kuka", "Verif.Props.C145_stays"],
  "The draws are assumed independent and uniform (allDraws), the arithmetic exact and the collision test exact for boxes, as in C142. The heap of the code is exact for at most two points only (C12), and ways beyond the ranges of ik can be shorter (C144)."),
 ("C146", P, ["Verif.Props.C146_rate", "Verif.Props.C146_ends", "Verif.Props.C146_never", "Verif.Props.C146_kuka", "Verif.Props.C146_line", "Verif.Props.C146_passage", "Verif.Props.C146_mean"],
  "The draws of different tries and points are assumed independent and uniform (allDraws), the arithmetic exact and the collision test exact for boxes, as in C142 and C145. C61 and C117 treat single outcomes of the draws."),
 ("C147", Q, ["Verif.Props.C147_partial", "Verif.Props.C147_one_joint", "Verif.Props.C147_sharp", "Verif.Props.C147_refuted", "Verif.Props.C147_cost"],
  "False of the code: C147_refuted, already for two joints and two points and the heap of the code. What holds (C147_partial): the travel is at most sqrt((points - 1) * joints) times the least. No smaller factor holds, for any numbers of joints and points (C147_sharp). With one joint and two points the travel is the least (C147_one_joint). C147_cost: get_path_cost with cost_function and weights one would be the travel."),
 ("C148", P, ["Verif.Props.C148_near", "Verif.Props.C148_motion", "Verif.Props.C148_grid", "Verif.Props.C148_incremental", "Verif.Props.C148_any", "Verif.Props.C148_revolute", "Verif.Props.C148_grid_any", "Verif.Props.C148_rail_moves", "Verif.Props.C148_rail"],
  "The collision test is taken to be exact for boxes (boxOracle) and the arithmetic of fk exact. Collisions of the robot with itself are not covered: enlarging the scene does not enlarge the links (C140 has a condition for these)."),
 ("C149", P, ["Verif.Props.C149_visit", "Verif.Props.C149_list", "Verif.Props.C149_sort", "Verif.Props.C149_sound", "Verif.Props.C149_relaxation", "Verif.Props.C149_exact", "Verif.Props.C149_order"],
  "The set-up of the start nodes (graph.cpp:29-35) and the sequence of calls are part of the statement: the code contains no caller."),
 ("C150", P, ["Verif.Props.C150", "Verif.Props.C150_again", "Verif.Props.C150_simple"],
  "The answers are those of Determined: values that do not depend on the state of the robot object (kuka_determined, pureArm_determined, rail_determined). Method optimization is left out: it takes get_optimal_path as a parameter."),
 ("C151", P, ["Verif.Props.C151_touch", "Verif.Props.C151_answer", "Verif.Props.C151_kuka", "Verif.Props.C151_arm", "Verif.Props.C151_arm2", "Verif.Props.C151_rail"],
  "With the exact overlap of boxes as collision oracle. The joint values of a sliding joint enter the reach."),
 ("C152", P, ["Verif.Props.C152", "Verif.Props.C152_solve", "Verif.Props.C152_touches", "Verif.Props.C152_ik", "Verif.Props.C152_samples", "Verif.Props.C152_rail"],
  "For every collision oracle that depends only on the relative pose of two shapes; the exact overlap of boxes is one (boxOracle_ok). In exact arithmetic. Rotations of the path are left out: TolEulerPt and TolPositionPt have intervals along fixed axes."),
 ("C153", Q, ["Verif.Props.C153_refuted", "Verif.Props.C153_shorter", "Verif.Props.C153_bfs_partial", "Verif.Props.C153_partial", "Verif.Props.C153_two_columns_partial", "Verif.Props.C153_plan_partial", "Verif.Props.C153_plan_shorter"],
  "False of the code for Dijkstra's search, which the planners use: through five columns of four values it reports 10, through the same columns in reverse order 6. The grid planner plans a path of length 33 for four points, and one of length 19 for the same points in reverse order (C153_plan_shorter). Proved for the breadth-first search with all weights, for Dijkstra's search with a queue that pops a node of least current distance, and with the heap of the code for at most two columns; for the grid planner under the same conditions."),
 ("C154", P, ["Verif.Props.C154_same_choices", "Verif.Props.C154_weights", "Verif.Props.C154_units", "Verif.Props.C154_zeros", "Verif.Props.C154_pygraph", "Verif.Props.C154_pygraph_partial_path", "Verif.Props.C154_pygraph_segments"],
  "The general theorem relates two runs through the whole search, the heap of libstdc++ included. The three special cases are in exact arithmetic."),
 ("C155", Q, ["Verif.Props.C155_refuted", "Verif.Props.C155_partial", "Verif.Props.C155_succeeds", "Verif.Props.C155_touches", "Verif.Props.C155_arm2", "Verif.Props.C155_kuka", "Verif.Props.C155_longer", "Verif.Props.C155_incremental"],
  "Success is kept, proved for every queue that keeps its nodes. The length is not: with an obstacle the path 4, 1, 0, 3 of length 19 is planned, without it the path 4, 6, 8, 3 of length 33. With a queue kept in order, or with at most two points, the length does not grow."),
 ("C156", P, ["Verif.Props.C156_perm", "Verif.Props.C156_check", "Verif.Props.C156_kuka", "Verif.Props.C156_rail", "Verif.Props.C156_file"],
  "For every collision oracle; in exact arithmetic. A shape without a transform (or the reverse) is ignored by the zip of the check and here."),
 ("C157", Q, ["Verif.Props.C157_refuted", "Verif.Props.C157_partial", "Verif.Props.C157_out_of_reach"],
  "False of the code: the assignment meant for the position writes base_wrist[3, :3], the last row, and not base_wrist[:3, 3]. For rigid targets that row is zero, so the frame stays rigid; the wrist has the orientation of the arm and stands in the origin. Proved: the frame that is left, the direction of approach, the orientation unless the wrist is stretched, and the position relative to the center of the wrist."),
]
src = "\n".join(open(f).read() for f in glob.glob(root + "/lean/Verif/**/*.lean", recursive=True))
names = set(re.findall(r"theorem\s+(?:_root_\.)?([\w.₀-₉']+)", src))
for c, _, ths, _ in claims:
    for t in ths:
        if t.split(".")[-1] not in names:
            print("missing", c, t)
json.dump({"claims": [{"property": c, "status": s, "theorems": t, "note": n} for c, s, t, n in claims]},
          open(root + "/MANIFEST.json", "w"), indent=1)
