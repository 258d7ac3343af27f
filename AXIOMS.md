# Axioms of the theorems in MANIFEST.json

Written by tools/axioms.py from `#print axioms`.

## Classical.choice, Quot.sound, propext (626 theorems)

* Verif.Props.C04_pygraph_optimal
* Verif.Props.C05_pygraph_step_limit
* Verif.Props.C06_pygraph_furthest
* Verif.Props.C07_pygraph_terminates
* Verif.Props.C08_segments_tile_partial
* Verif.Props.C08_exact
* Verif.Props.C09_segments_total_partial
* Verif.Props.C09_segments_total_refuted
* Verif.Props.C09_exact
* Verif.Props.C10_bfs_optimal
* Verif.Props.C10_bfs_optimal_exact
* Verif.Props.C11_dijkstra_sound
* Verif.Props.C11_dijkstra_sound_heap
* Verif.Props.C12_dijkstra_optimal_partial
* Verif.Props.C12_dijkstra_optimal_refuted
* Verif.Props.C12_two_columns_partial
* Verif.Props.C12_two_columns_exact_partial
* Verif.Props.C12_three_columns
* Verif.Props.C13_runs_and_resets
* Verif.Props.C14_histories_partial
* Verif.Props.C14_searched
* Verif.Props.C14_get_path_after_reset_refuted
* Verif.Props.C14_init_twice_refuted
* Verif.Props.C14_second_init
* Verif.Props.C14_widths
* Verif.Props.C15_weights
* Verif.Props.C15_weights_init
* Verif.Props.C16_add_data_column
* Verif.Props.C16_add_data_column_rows
* Verif.Props.C17_unreachable_partial
* Verif.Props.C17_unreachable_refuted
* Verif.Props.C19_solvers_agree
* Verif.Props.C20_rot
* Verif.Props.C20_axis_rot_unique
* Verif.Props.C20_compose
* Verif.Props.C20_pose
* Verif.Props.C21_inverse
* Verif.Props.C21_algebra
* Verif.Props.C21_reads_three_rows
* Verif.Props.C21_act
* Verif.Props.C22_rows
* Verif.Props.C22_product
* Verif.Props.C23_value
* Verif.Props.C23_injective
* Verif.Props.C23_stratified
* Verif.Props.C23_domain
* Verif.Props.C24_odd_primes
* Verif.Props.C25_bases
* Verif.Props.C25_histories
* Verif.Props.C25_dim_zero
* Verif.Props.C26_random
* Verif.Props.C26_halton
* Verif.Props.C26_unknown_method
* Verif.Props.C26_representations
* Verif.Props.C27_polyhedron
* Verif.Props.C27_convex_hull
* Verif.Props.C27_negative_side
* Verif.Props.C28_edges
* Verif.Props.C28_wireframe
* Verif.Props.C28_degree
* Verif.Props.C29_any_pair
* Verif.Props.C29_default
* Verif.Props.C29_symmetric
* Verif.Props.C29_monotone
* Verif.Props.C29_empty
* Verif.Props.C29_invariant
* Verif.Props.C29_geometric
* Verif.Props.C30_dh
* Verif.Props.C30_shared
* Verif.Props.C30_unknown_type
* Verif.Props.C31_fk
* Verif.Props.C31_rigid
* Verif.Props.C31_all_links
* Verif.Props.C31_move_base
* Verif.Props.C31_too_few
* Verif.Props.C32_casadi_partial
* Verif.Props.C32_refuted
* Verif.Props.C33_answer
* Verif.Props.C33_new
* Verif.Props.C33_history
* Verif.Props.C33_priority
* Verif.Props.C33_reordered
* Verif.Props.C33_any_matrix
* Verif.Props.C34_self_collision
* Verif.Props.C34_matrix
* Verif.Props.C34_any_matrix
* Verif.Props.C35_arm2_sound
* Verif.Props.C35_error
* Verif.Props.C36_arm2_succeeds
* Verif.Props.C36_arm2_complete
* Verif.Props.C36_arm2_iff
* Verif.Props.C37_wrist_sound_partial
* Verif.Props.C37_singular
* Verif.Props.C37_refuted
* Verif.Props.C37_iff
* Verif.Props.C37_at_base
* Verif.Props.C38_wrist_complete
* Verif.Props.C39_kuka_sound_partial
* Verif.Props.C39_refuted
* Verif.Props.C39_stretched
* Verif.Props.C39_error
* Verif.Props.C39_default
* Verif.Props.C40_kuka_complete
* Verif.Props.C41_rail_sound_partial
* Verif.Props.C41_refuted
* Verif.Props.C41_complete
* Verif.Props.C41_solution
* Verif.Props.C41_iff
* Verif.Props.C42_anthropomorphic_sound
* Verif.Props.C42_anthropomorphic_succeeds
* Verif.Props.C42_anthropomorphic_iff
* Verif.Props.C42_error
* Verif.Props.C42_complete
* Verif.Props.C43_planar
* Verif.Props.C43_spherical
* Verif.Props.C43_anthropomorphic
* Verif.Props.C43_arm2
* Verif.Props.C43_kuka
* Verif.Props.C43_rail
* Verif.Props.C44_kuka_partial
* Verif.Props.C44_rail_partial
* Verif.Props.C44_refuted
* Verif.Props.C45_rejects
* Verif.Props.C45_accepts
* Verif.Props.C45_within
* Verif.Props.C45_nominal
* Verif.Props.C45_inverted_accepted
* Verif.Props.C46
* Verif.Props.C46_negative
* Verif.Props.C47_samples
* Verif.Props.C47_within
* Verif.Props.C47_nominal
* Verif.Props.C47_no_tolerance
* Verif.Props.C47_short
* Verif.Props.C48
* Verif.Props.C49
* Verif.Props.C49_zero
* Verif.Props.C49_zero_axis
* Verif.Props.C50_random
* Verif.Props.C50_halton
* Verif.Props.C50_rotation
* Verif.Props.C50_unknown_rep
* Verif.Props.C50_rpy
* Verif.Props.C50_tolOrientation
* Verif.Props.C50_tolOrientation_stock
* Verif.Props.C51
* Verif.Props.C51_path
* Verif.Props.C51_short
* Verif.Props.C51_lengths
* Verif.Props.C52
* Verif.Props.C52_raises
* Verif.Props.C53
* Verif.Props.C53_points
* Verif.Props.C54_position
* Verif.Props.C54_euler
* Verif.Props.C54_euler_radians
* Verif.Props.C55_refuted
* Verif.Props.C55_partial
* Verif.Props.C55_iff
* Verif.Props.C56_path
* Verif.Props.C56_unknown_path
* Verif.Props.C56_unknown_tolerance
* Verif.Props.C56_known
* Verif.Props.C56_obstacles
* Verif.Props.C56_unknown_shape
* Verif.Props.C56_task
* Verif.Props.C56_import
* Verif.Props.C56_tolerances
* Verif.Props.C57_refuted
* Verif.Props.C57_partial
* Verif.Props.C57_round_trip
* Verif.Props.C57_iff
* Verif.Props.C57_origin
* Verif.Props.C58_refuted
* Verif.Props.C58_empty
* Verif.Props.C58_stale
* Verif.Props.C58_partial
* Verif.Props.C59
* Verif.Props.C59_raises
* Verif.Props.C60_refuted
* Verif.Props.C60_last
* Verif.Props.C60_partial
* Verif.Props.C60_unbound
* Verif.Props.C60_stale
* Verif.Props.C60_other_points
* Verif.Props.C61_refuted
* Verif.Props.C61_partial
* Verif.Props.C61_diverges
* Verif.Props.C61_unreachable
* Verif.Props.C61_exact
* Verif.Props.C62
* Verif.Props.C62_exact
* Verif.Props.C62_default
* Verif.Props.C62_iterated
* Verif.Props.C62_red_two
* Verif.Props.C62_entry
* Verif.Props.C62_point
* Verif.Props.C63_refuted
* Verif.Props.C63_raises
* Verif.Props.C63_partial
* Verif.Props.C63_resample
* Verif.Props.C64
* Verif.Props.C64_costs
* Verif.Props.C64_succeeds
* Verif.Props.C64_fails
* Verif.Props.C64_fails_first
* Verif.Props.C64_corner
* Verif.Props.C64_stock
* Verif.Props.C64_stock_exact
* Verif.Props.C64_unchecked
* Verif.Props.C64_no_scene
* Verif.Props.C65_refuted
* Verif.Props.C65_no_scene
* Verif.Props.C65_unknown
* Verif.Props.C65_dispatch_partial
* Verif.Props.C66
* Verif.Props.C66_reach
* Verif.Props.C66_succeeds
* Verif.Props.C66_arm2
* Verif.Props.C66_kuka
* Verif.Props.C67_refuted
* Verif.Props.C67_raises
* Verif.Props.C68
* Verif.Props.C68_disjoint
* Verif.Props.C68_complete
* Verif.Props.C68_iff
* Verif.Props.C69_refuted
* Verif.Props.C69_prismatic
* Verif.Props.C69_index_error
* Verif.Props.C69_partial
* Verif.Props.C69_kuka
* Verif.Props.C70
* Verif.Props.C70_search
* Verif.Props.C71_slots
* Verif.Props.C71_margins
* Verif.Props.C71_other
* Verif.Props.C72_refuted
* Verif.Props.C72_plan_first
* Verif.Props.C72_paths_first
* Verif.Props.C72_partial
* Verif.Props.C73_reset_forgets
* Verif.Props.C73_no_reset_refuted
* Verif.Props.C74_refuted
* Verif.Props.C74_partial
* Verif.Props.C74_iff
* Verif.Props.C74_never
* Verif.Props.C75_refuted
* Verif.Props.C75_partial
* Verif.Props.C75_rational
* Verif.Props.C76_refuted
* Verif.Props.C76_wrist
* Verif.Props.C76_stable_partial
* Verif.Props.C76_kuka
* Verif.Props.C76_kuka_default
* Verif.Props.C77_refuted
* Verif.Props.C77_self
* Verif.Props.C77_partial
* Verif.Props.C77_plain_partial
* Verif.Props.C78_refuted
* Verif.Props.C78_points
* Verif.Props.C78_joints
* Verif.Props.C78_seven
* Verif.Props.C78_partial
* Verif.Props.C78_result
* Verif.Props.C79_refuted
* Verif.Props.C79_drawn
* Verif.Props.C79_partial
* Verif.Props.C80_refuted
* Verif.Props.C80_frame
* Verif.Props.C80_partial
* Verif.Props.C80_stops
* Verif.Props.C81_kinematics
* Verif.Props.C81_no_links
* Verif.Props.C82_segments
* Verif.Props.C82_orthogonal
* Verif.Props.C82_default
* Verif.Props.C83_refuted
* Verif.Props.C83_partial
* Verif.Props.C83_frames
* Verif.Props.C84_refuted
* Verif.Props.C84_partial
* Verif.Props.C84_length_partial
* Verif.Props.C85_segment_report
* Verif.Props.C86_split_points_refuted
* Verif.Props.C86_split_points_partial
* Verif.Props.C86_exact
* Verif.Props.C87_cost_basic
* Verif.Props.C87_cost_is_half_angle
* Verif.Props.C87_cost_invariant
* Verif.Props.C87_cost_matrix
* Verif.Props.C88_least_rotation
* Verif.Props.C88_least_rotation_dp
* Verif.Props.C88_script
* Verif.Props.C89_weld_line
* Verif.Props.C89_ends
* Verif.Props.C89_negative
* Verif.Props.C89_samples
* Verif.Props.C90_walls
* Verif.Props.C90_walls_disjoint
* Verif.Props.C90_paths
* Verif.Props.C90_shipped
* Verif.Props.C90_positions
* Verif.Props.C90_workpiece
* Verif.Props.C91_torch
* Verif.Props.C91_tip
* Verif.Props.C91_tip_free
* Verif.Props.C91_gap
* Verif.Props.C91_body
* Verif.Props.C91_tip_position
* Verif.Props.C91_shipped
* Verif.Props.C92_path_ori_free
* Verif.Props.C92_path_pos_tol
* Verif.Props.C92_scenes
* Verif.Props.C93_pops_least
* Verif.Props.C93_sorts
* Verif.Props.C94_plan
* Verif.Props.C94_errors
* Verif.Props.C94_goal_cost
* Verif.Props.C95_refuted
* Verif.Props.C95_unit_partial
* Verif.Props.C95_near
* Verif.Props.C96_table
* Verif.Props.C96_returns
* Verif.Props.C96_single_partial
* Verif.Props.C96_refuted_wrong
* Verif.Props.C96_refuted_lost
* Verif.Props.C96_stale
* Verif.Props.C97_redundant
* Verif.Props.C97_plans
* Verif.Props.C98_load_scene
* Verif.Props.C98_load_paths
* Verif.Props.C98_log
* Verif.Props.C99_iterative
* Verif.Props.C99_grid
* Verif.Props.C99_grid_succeeds
* Verif.Props.C99_grid_iterative
* Verif.Props.C100
* Verif.Props.C101
* Verif.Props.C102_refuted
* Verif.Props.C103_kuka_partial
* Verif.Props.C103_rail_partial
* Verif.Props.C103_anthropomorphic_partial
* Verif.Props.C103_detects
* Verif.Props.C103_kuka_detects
* Verif.Props.C103_limit
* Verif.Props.C103_planar
* Verif.Props.C103_refuted
* Verif.Props.C103_arm2
* Verif.Props.C104_refuted
* Verif.Props.C104_fk
* Verif.Props.C104_parallel
* Verif.Props.C104_reach
* Verif.Props.C105
* Verif.Props.C106
* Verif.Props.C107_bfs_table
* Verif.Props.C107_print_path
* Verif.Props.C107_fresh_table
* Verif.Props.C108_layout
* Verif.Props.C108_labels
* Verif.Props.C108_places
* Verif.Props.C108_everywhere
* Verif.Props.C109_refuted
* Verif.Props.C109_partial
* Verif.Props.C109_values
* Verif.Props.C109_color
* Verif.Props.C110_sound
* Verif.Props.C110_complete
* Verif.Props.C111_kuka
* Verif.Props.C111_arm2
* Verif.Props.C111_rail
* Verif.Props.C112_links
* Verif.Props.C112_fk
* Verif.Props.C112_kuka
* Verif.Props.C112_plan
* Verif.Props.C112_margin
* Verif.Props.C113_partial
* Verif.Props.C113_missed
* Verif.Props.C113_refuted
* Verif.Props.C113_neighbours
* Verif.Props.C113_kuka
* Verif.Props.C113_rail
* Verif.Props.C113_anthropomorphic
* Verif.Props.C113_arm2
* Verif.Props.C113_spherical
* Verif.Props.C114_run
* Verif.Props.C114_sound
* Verif.Props.C114_complete
* Verif.Props.C114_wire
* Verif.Props.C114_scene
* Verif.Props.C114_seam
* Verif.Props.C114_reach
* Verif.Props.C114_regular
* Verif.Props.C114_ends
* Verif.Props.C114_any
* Verif.Props.C115_run
* Verif.Props.C115_scene
* Verif.Props.C115_chance
* Verif.Props.C115_any
* Verif.Props.C116_partial
* Verif.Props.C116_stock
* Verif.Props.C116_kuka
* Verif.Props.C116_ends
* Verif.Props.C116_refuted
* Verif.Props.C116_chance
* Verif.Props.C117_line
* Verif.Props.C117_passage
* Verif.Props.C117_sound
* Verif.Props.C118_partial
* Verif.Props.C118_refuted
* Verif.Props.C118_gate
* Verif.Props.C118_passage
* Verif.Props.C119_partial
* Verif.Props.C119_refuted
* Verif.Props.C119_iff
* Verif.Props.C119_retract
* Verif.Props.C120_reach
* Verif.Props.C120_none
* Verif.Props.C120_shell
* Verif.Props.C120_partial
* Verif.Props.C120_refuted
* Verif.Props.C120_rail_reach
* Verif.Props.C120_rail_none
* Verif.Props.C121_rail
* Verif.Props.C121_no_ik
* Verif.Props.C121_fixed
* Verif.Props.C121_rail_width
* Verif.Props.C122_import
* Verif.Props.C122_script
* Verif.Props.C122_workpiece
* Verif.Props.C122_kingpin
* Verif.Props.C123_refuted
* Verif.Props.C123_passage
* Verif.Props.C123_industrial
* Verif.Props.C123_partial
* Verif.Props.C124_refuted
* Verif.Props.C124_iff
* Verif.Props.C124_partial
* Verif.Props.C124_weld
* Verif.Props.C125_refuted
* Verif.Props.C125_partial
* Verif.Props.C125_box
* Verif.Props.C126_refuted
* Verif.Props.C126_partial
* Verif.Props.C126_samples
* Verif.Props.C126_identity
* Verif.Props.C127_ik
* Verif.Props.C127_script
* Verif.Props.C127_other
* Verif.Props.C127_result
* Verif.Props.C127_solvable
* Verif.Props.C128_bodies
* Verif.Props.C128_check
* Verif.Props.C129_feasible
* Verif.Props.C129_found
* Verif.Props.C129_objective
* Verif.Props.C130_number
* Verif.Props.C130_given
* Verif.Props.C130_refuted
* Verif.Props.C130_point
* Verif.Props.C130_position
* Verif.Props.C130_weld
* Verif.Props.C130_table
* Verif.Props.C130_attributes
* Verif.Props.C131_data
* Verif.Props.C131_set_data
* Verif.Props.C131_print_partial
* Verif.Props.C131_run
* Verif.Props.C131_second_init
* Verif.Props.C131_refuted
* Verif.Props.C132_aa_partial
* Verif.Props.C132_aa_refuted
* Verif.Props.C132_arm2_partial
* Verif.Props.C132_wrist_partial
* Verif.Props.C132_wrist_refuted
* Verif.Props.C132_kuka_partial
* Verif.Props.C132_kuka_refuted
* Verif.Props.C132_rail_partial
* Verif.Props.C132_rail_refuted
* Verif.Props.C133_answer
* Verif.Props.C133_pen
* Verif.Props.C133_good_box
* Verif.Props.C133_bad_box
* Verif.Props.C133_beside
* Verif.Props.C133_inside
* Verif.Props.C134_partial
* Verif.Props.C134_refuted
* Verif.Props.C135_arm2
* Verif.Props.C135_arm2_twice
* Verif.Props.C135_anthropomorphic
* Verif.Props.C135_anthropomorphic_twice
* Verif.Props.C135_wrist
* Verif.Props.C135_kuka
* Verif.Props.C135_kuka_twice
* Verif.Props.C135_rail
* Verif.Props.C135_rail_twice
* Verif.Props.C136_partial
* Verif.Props.C136_double
* Verif.Props.C136_two_joints
* Verif.Props.C136_refused
* Verif.Props.C136_refuted
* Verif.Props.C136_never_exact
* Verif.Props.C136_planner
* Verif.Props.C136_stock
* Verif.Props.C136_script
* Verif.Props.C136_script_kuka
* Verif.Props.C136_not_rotation
* Verif.Props.C137_floor
* Verif.Props.C137_heights
* Verif.Props.C137_refuted
* Verif.Props.C137_partial
* Verif.Props.C137_prints
* Verif.Props.C137_markers
* Verif.Props.C138_samples
* Verif.Props.C138_unique
* Verif.Props.C138_point
* Verif.Props.C138_rows
* Verif.Props.C138_sampler
* Verif.Props.C139_boxes
* Verif.Props.C139_averages
* Verif.Props.C139_orientations
* Verif.Props.C139_no_gaps
* Verif.Props.C140_swing
* Verif.Props.C140_refuted
* Verif.Props.C140_partial
* Verif.Props.C140_kuka
* Verif.Props.C141_refuted
* Verif.Props.C141_longer
* Verif.Props.C141_bfs_partial
* Verif.Props.C141_partial
* Verif.Props.C141_two_columns_partial
* Verif.Props.C141_succeeds
* Verif.Props.C141_planner_partial
* Verif.Props.C141_plan_longer
* Verif.Props.C142_rate
* Verif.Props.C142_almost_surely
* Verif.Props.C142_kuka
* Verif.Props.C142_chance
* Verif.Props.C143_arm2_partial
* Verif.Props.C143_anthropomorphic_partial
* Verif.Props.C143_wrist_partial
* Verif.Props.C143_kuka_partial
* Verif.Props.C143_rail_partial
* Verif.Props.C143_back_arm2
* Verif.Props.C143_back_kuka
* Verif.Props.C143_beyond
* Verif.Props.C143_refuted
* Verif.Props.C144_arm2_partial
* Verif.Props.C144_kuka_partial
* Verif.Props.C144_around
* Verif.Props.C144_refuted
* Verif.Props.C145_way
* Verif.Props.C145_kuka_way
* Verif.Props.C145_kuka
* Verif.Props.C145_stays
* Verif.Props.C146_rate
* Verif.Props.C146_ends
* Verif.Props.C146_never
* Verif.Props.C146_kuka
* Verif.Props.C146_line
* Verif.Props.C146_passage
* Verif.Props.C146_mean
* Verif.Props.C147_partial
* Verif.Props.C147_one_joint
* Verif.Props.C147_sharp
* Verif.Props.C147_refuted
* Verif.Props.C147_cost
* Verif.Props.C148_near
* Verif.Props.C148_motion
* Verif.Props.C148_grid
* Verif.Props.C148_incremental
* Verif.Props.C148_any
* Verif.Props.C148_revolute
* Verif.Props.C148_grid_any
* Verif.Props.C148_rail_moves
* Verif.Props.C148_rail
* Verif.Props.C149_visit
* Verif.Props.C149_list
* Verif.Props.C149_sound
* Verif.Props.C149_relaxation
* Verif.Props.C149_exact
* Verif.Props.C149_order
* Verif.Props.C150
* Verif.Props.C150_again
* Verif.Props.C150_simple
* Verif.Props.C151_touch
* Verif.Props.C151_answer
* Verif.Props.C151_kuka
* Verif.Props.C151_arm
* Verif.Props.C151_arm2
* Verif.Props.C151_rail
* Verif.Props.C152
* Verif.Props.C152_solve
* Verif.Props.C152_touches
* Verif.Props.C152_ik
* Verif.Props.C152_samples
* Verif.Props.C152_rail
* Verif.Props.C153_refuted
* Verif.Props.C153_shorter
* Verif.Props.C153_bfs_partial
* Verif.Props.C153_partial
* Verif.Props.C153_two_columns_partial
* Verif.Props.C153_plan_partial
* Verif.Props.C153_plan_shorter
* Verif.Props.C154_same_choices
* Verif.Props.C154_weights
* Verif.Props.C154_units
* Verif.Props.C154_zeros
* Verif.Props.C154_pygraph
* Verif.Props.C154_pygraph_partial_path
* Verif.Props.C154_pygraph_segments
* Verif.Props.C155_refuted
* Verif.Props.C155_partial
* Verif.Props.C155_succeeds
* Verif.Props.C155_touches
* Verif.Props.C155_arm2
* Verif.Props.C155_kuka
* Verif.Props.C155_longer
* Verif.Props.C155_incremental
* Verif.Props.C156_perm
* Verif.Props.C156_check
* Verif.Props.C156_kuka
* Verif.Props.C156_rail
* Verif.Props.C156_file
* Verif.Props.C157_refuted
* Verif.Props.C157_partial
* Verif.Props.C157_out_of_reach

## Quot.sound, propext (11 theorems)

* Verif.Props.C01_dp_optimal
* Verif.Props.C02_dp_value_function
* Verif.Props.C03_dp_errors
* Verif.Props.C04_path_index
* Verif.Props.C07_pygraph_rerun_fresh
* Verif.Props.C08_segments_tile_refuted
* Verif.Props.C17_unreachable_raises
* Verif.Props.C18_check_dtype
* Verif.Props.C22_count
* Verif.Props.C107_print_graph
* Verif.Props.C149_sort

## propext (4 theorems)

* Verif.Props.C04_pygraph_no_columns
* Verif.Props.C14_unsearched
* Verif.Props.C18_check_dtype_errors
* Verif.Props.C22_no_ranges

## none (2 theorems)

* Verif.Props.C102_raises
* Verif.Props.C102_partial
