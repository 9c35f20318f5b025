{
 "claims": [
  {
   "property": "C01",
   "status": "proved",
   "theorems": [
    "RingLib.C01_partition",
    "RingLib.C01_arguments",
    "RingLib.C01_scan_forward",
    "RingLib.C01_scan_reverse",
    "RingLib.C01_wrong_length",
    "RingLib.C01_sizes_and_idx_map"
   ],
   "note": "scan slices partition the arrays, every link sees its own slice, forward and reverse; wrong lengths raise; q_size/qd_size/idx_map agree."
  },
  {
   "property": "C02",
   "status": "proved",
   "theorems": [
    "RingLib.C02_inverse",
    "RingLib.C02_missing",
    "RingLib.C02_world",
    "RingLib.C02_idx_map",
    "RingLib.C02_parse_rejects_duplicates"
   ],
   "note": "name/idx maps are inverse, world and missing names, idx_map, duplicates rejected by parse."
  },
  {
   "property": "C03",
   "status": "proved",
   "theorems": [
    "RingLib.C03_delete",
    "RingLib.C03_world_geoms_dropped",
    "RingLib.C03_delete_everything",
    "RingLib.C03_unknown_strict",
    "RingLib.C03_unknown_lenient",
    "RingLib.C03_list_lenient",
    "RingLib.C03_list_strict",
    "RingLib.C03_list_strict_raises",
    "RingLib.generator.C03_make_sys_noimu"
   ],
   "note": "delete_subsystem, one name and list of names, strict and lenient; surviving links keep their view; world geometries are dropped, deleting everything raises."
  },
  {
   "property": "C04",
   "status": "proved",
   "theorems": [
    "RingLib.C04_inject",
    "RingLib.C04_duplicates_rejected",
    "RingLib.C04_unknown_body"
   ],
   "note": "inject_system: names, views of host and guest links, world geometries, globals; duplicates and unknown bodies rejected."
  },
  {
   "property": "C05",
   "status": "proved",
   "theorems": [
    "RingLib.C05_delete_inject",
    "RingLib.C05_round_trip"
   ],
   "note": "delete after inject is the identity up to joint_params keys of the guest and the world geometries of the host, which every deletion drops."
  },
  {
   "property": "C06",
   "status": "proved",
   "theorems": [
    "RingLib.morph.C06_cycle",
    "RingLib.morph.C06_identify",
    "RingLib.morph.C06_checks",
    "RingLib.morph.C06_identity"
   ],
   "note": ""
  },
  {
   "property": "C07",
   "status": "proved",
   "theorems": [
    "RingLib.morph.C07_reroot",
    "RingLib.morph.C07_restore",
    "RingLib.morph.C07_compose",
    "RingLib.morph.C07_several_roots"
   ],
   "note": "single-rooted trees in any numbering; systems with several roots raise KeyError (C07_several_roots)"
  },
  {
   "property": "C08",
   "status": "partial",
   "theorems": [
    "RingLib.io.C08_roundtrip_partial",
    "RingLib.io.C08_by_name_partial",
    "RingLib.io.C08_identity_partial",
    "RingLib.io.C08_model_fails",
    "RingLib.io.C08_cor_fails",
    "RingLib.io.C08_point_fails",
    "RingLib.io.C08_name_fails",
    "RingLib.io.C08_xyz_fails"
   ],
   "note": "round trip proved for savable systems; cor joints, missing model name, point boxes away from the link, numeric names and xyz transforms are not kept (the _fails theorems); world geometries and integrator options are not written"
  },
  {
   "property": "C09",
   "status": "proved",
   "theorems": [
    "RingLib.C09_change",
    "RingLib.C09_wrong_size",
    "RingLib.C09_unknown_type",
    "RingLib.C09_freeze",
    "RingLib.C09_freeze_list",
    "RingLib.C09_freeze_unknown",
    "RingLib.C09_unfreeze",
    "RingLib.C09_free_to_cor"
   ],
   "note": "change_joint_type, freeze (one and many), unfreeze, free->cor: exactly the addressed link changes. Joint types with init_joint_params (XML reload) are not modelled."
  },
  {
   "property": "C10",
   "status": "proved",
   "theorems": [
    "RingLib.C10_jointtype",
    "RingLib.C10_children",
    "RingLib.C10_children_unknown",
    "RingLib.C10_subsystem",
    "RingLib.C10_subsystem_order",
    "RingLib.C10_world_children"
   ],
   "note": "children exact and ordered; subsystem = proper descendants, without repetition."
  },
  {
   "property": "C11",
   "status": "proved",
   "theorems": [
    "RingLib.C11_create_key",
    "RingLib.C11_to_q",
    "RingLib.C11_tiny_fails",
    "RingLib.C11_create"
   ],
   "note": "All built-in joints, all vectors; quaternion blocks whose entries are all below 1e-8 are proved to be mapped to zero (C11_tiny_fails)."
  },
  {
   "property": "C12",
   "status": "proved",
   "theorems": [
    "RingLib.C12_ensure_positive_w",
    "RingLib.C12_quat_mul_assoc",
    "RingLib.C12_quat_mul_unit",
    "RingLib.C12_hamilton_rules",
    "RingLib.C12_quat_mul_bilinear",
    "RingLib.C12_norm_multiplicative",
    "RingLib.C12_unit_closed",
    "RingLib.C12_quat_inv",
    "RingLib.C12_quat_inv_mul",
    "RingLib.C12_rotate_linear",
    "RingLib.C12_rotate_mul",
    "RingLib.C12_rotate_inv",
    "RingLib.C12_rotate_isometry",
    "RingLib.C12_rotate_neg",
    "RingLib.C12_rotate_sense",
    "RingLib.C12_rotate_quat"
   ],
   "note": "All algebraic laws of quat_mul, quat_inv, rotate, rotate_quat over any commutative ring."
  },
  {
   "property": "C13",
   "status": "proved",
   "theorems": [
    "RingLib.C13_matrix_action",
    "RingLib.C13_matrix_is_rotation",
    "RingLib.C13_matrix_mul",
    "RingLib.C13_matrix_scale_invariant",
    "RingLib.C13_rotate_matrix",
    "RingLib.C13_from_to",
    "RingLib.C13_from_to_half_turn"
   ],
   "note": "quat_to_3x3 and rotate_matrix for all unit quaternions; quat_from_3x3 inverts up to sign unless w = 0, where it is proved to fail (division by zero)."
  },
  {
   "property": "C14",
   "status": "partial",
   "theorems": [
    "RingLib.C14_wrap",
    "RingLib.C14_wrap_eq_iff",
    "RingLib.C14_angle_error",
    "RingLib.C14_angle_error_laws",
    "RingLib.C14_angle_error_right_partial",
    "RingLib.C14_angle_error_right_fails"
   ],
   "note": "wrap_to_pi complete. angle_error: exact formula, range, symmetry, signs, left factors; invariance under a common right factor holds only up to 1e-7 because of the componentwise tolerance (negation proved in C14_angle_error_right_fails)."
  },
  {
   "property": "C15",
   "status": "proved",
   "theorems": [
    "RingLib.C15_rot_axis",
    "RingLib.C15_rot_axis_add",
    "RingLib.C15_rot_axis_degenerate",
    "RingLib.C15_round_trip",
    "RingLib.C15_round_trip_rotation",
    "RingLib.C15_round_trip_negligible"
   ],
   "note": "Rodrigues formula (angle negated by convention), composition, degenerate axis, round trip in and outside the tolerance."
  },
  {
   "property": "C16",
   "status": "proved",
   "theorems": [
    "RingLib.C16_decompose",
    "RingLib.C16_minimal",
    "RingLib.C16_residual_orthogonal",
    "RingLib.C16_transfer_heading",
    "RingLib.C16_transfer_heading_angles"
   ],
   "note": "Decomposition, rotation about k, minimal residual, orthogonality, transfer of heading."
  },
  {
   "property": "C17",
   "status": "proved",
   "theorems": [
    "RingLib.C17_quat_euler_unit",
    "RingLib.C17_intrinsic_extrinsic",
    "RingLib.C17_euler_to_quat",
    "RingLib.C17_to_euler"
   ],
   "note": "quat_euler unit and intrinsic/extrinsic duality, closed formula, reading back the angles."
  },
  {
   "property": "C18",
   "status": "proved",
   "theorems": [
    "RingLib.C18_mul_assoc",
    "RingLib.C18_mul_zero",
    "RingLib.C18_inv",
    "RingLib.C18_unit_closed",
    "RingLib.C18_point",
    "RingLib.C18_motion_mul",
    "RingLib.C18_motion_is_velocity",
    "RingLib.C18_move_into_frame"
   ],
   "note": "Group laws, point maps, motion/force transport."
  },
  {
   "property": "C19",
   "status": "proved",
   "theorems": [
    "RingLib.C19_power",
    "RingLib.C19_power_unique",
    "RingLib.C19_motion_cross",
    "RingLib.C19_cross_star_adjoint",
    "RingLib.C19_motion_cross_star",
    "RingLib.C19_motion_cross_lie",
    "RingLib.C19_crm_crf",
    "RingLib.C19_transform_as_matrix",
    "RingLib.C19_X_transform",
    "RingLib.C19_X_transform_as_matrix"
   ],
   "note": "Power invariance, cross products, 6x6 matrices."
  },
  {
   "property": "C20",
   "status": "proved",
   "theorems": [
    "RingLib.C20_as_matrix",
    "RingLib.C20_mass",
    "RingLib.C20_congruence",
    "RingLib.C20_congruence_unique",
    "RingLib.C20_energy",
    "RingLib.C20_compose",
    "RingLib.C20_additive",
    "RingLib.C20_mcI",
    "RingLib.C20_create_matrix"
   ],
   "note": "Congruence, uniqueness, energy, composition, additivity, 6x6 matrix."
  },
  {
   "property": "C21",
   "status": "proved",
   "theorems": [
    "RingLib.C21_energy_is_sum",
    "RingLib.C21_mass_and_com",
    "RingLib.C21_order_independent",
    "RingLib.C21_other_geoms_irrelevant",
    "RingLib.C21_symmetric",
    "RingLib.C21_energy_nonneg",
    "RingLib.C21_box_solid",
    "RingLib.C21_sphere_solid",
    "RingLib.C21_cylinder_solid",
    "RingLib.C21_capsule_solid"
   ],
   "note": "Sum over geometries, order independence, mass, symmetry, non-negative energy."
  },
  {
   "property": "C22",
   "status": "proved",
   "theorems": [
    "RingLib.C22_forward",
    "RingLib.C22_path",
    "RingLib.C22_local",
    "RingLib.C22_rigid"
   ],
   "note": "Forward kinematics is the unique solution of the pose recursion, equals the composition along the path, depends only on the ancestors and commutes with a rigid motion of the base."
  },
  {
   "property": "C23",
   "status": "proved",
   "theorems": [
    "RingLib.C23_inverse",
    "RingLib.C23_unsupported_fails"
   ],
   "note": "Exact equality for all invertible joints; for free_2d, cor and saddle the function is proved to raise always."
  },
  {
   "property": "C24",
   "status": "proved",
   "theorems": [
    "RingLib.C24_unzip",
    "RingLib.C24_zip_unzip",
    "RingLib.C24_unzip_zip",
    "RingLib.C24_delete_to_world",
    "RingLib.C24_match_xs",
    "RingLib.C24_match_missing",
    "RingLib.C24_xs_from_raw"
   ],
   "note": "zip/unzip inverse to each other, relative poses, delete_to_world, match_xs, xs_from_raw."
  },
  {
   "property": "C25",
   "status": "proved",
   "theorems": [
    "RingLib.C25_rel_pose",
    "RingLib.C25_child_to_parent",
    "RingLib.C25_invariant"
   ],
   "note": "Keys, values by name, invariance under a change of the world frame."
  },
  {
   "property": "C26",
   "status": "proved",
   "theorems": [
    "RingLib.C26_torques",
    "RingLib.C26_columns",
    "RingLib.C26_newton_euler",
    "RingLib.C26_newton_euler_unique"
   ],
   "note": "For all systems with rigid transforms and registered joints: the mass matrix is the linear part of inverse dynamics."
  },
  {
   "property": "C27",
   "status": "proved",
   "theorems": [
    "RingLib.C27_symmetric",
    "RingLib.C27_energy",
    "RingLib.C27_nonneg",
    "RingLib.C27_pos",
    "RingLib.C27_forward_dynamics"
   ],
   "note": "Symmetric, twice the kinetic energy of the links plus armature, non-negative, positive with armature; forward dynamics (exact inversion) solves the balance equation."
  },
  {
   "property": "C28",
   "status": "proved",
   "theorems": [
    "RingLib.C28_strapdown_unit",
    "RingLib.C28_strapdown_zero",
    "RingLib.C28_strapdown_rotation",
    "RingLib.C28_semi_implicit",
    "RingLib.C28_step",
    "RingLib.C28_simulation"
   ],
   "note": "strapdown, one integration step, step with substeps, any number of steps; |dt| < 1e8."
  },
  {
   "property": "C29",
   "status": "partial",
   "theorems": [
    "RingLib.C29_quadratic",
    "RingLib.C29_monotone_partial",
    "RingLib.C29_limit",
    "RingLib.C29_monotone_fails",
    "RingLib.C29_converges_fails"
   ],
   "note": "Quadratic convergence and monotonicity for starting residual < 1 proved; monotonicity for replaced guesses is false (C29_monotone_fails, C29_converges_fails: stale residual)."
  },
  {
   "property": "C30",
   "status": "partial",
   "theorems": [
    "RingLib.C30_box_partial",
    "RingLib.C30_speed",
    "RingLib.C30_fails"
   ],
   "note": "false as stated: C30_fails (all max_it+1 draws rejected, the last rejected one is kept). Proved: in the box whenever the rejection search succeeds (C30_box_partial), speed bound in every case (C30_speed)"
  },
  {
   "property": "C31",
   "status": "partial",
   "theorems": [
    "RingLib.C31_direction",
    "RingLib.C31_pi",
    "RingLib.C31_lower_partial",
    "RingLib.C31_rom_partial",
    "RingLib.C31_default_partial",
    "RingLib.C31_upper_fails"
   ],
   "note": "[-pi, pi] for every stream (C31_pi), lower end of the range of motion always (C31_lower_partial), both ends without minimal speed or with the default half-size; upper end false in general: C31_upper_fails"
  },
  {
   "property": "C32",
   "status": "partial",
   "theorems": [
    "RingLib.C32_angle_partial",
    "RingLib.C32_position_partial",
    "RingLib.C32_strict",
    "RingLib.C32_room_fails"
   ],
   "note": "termination, order, coverage of all sample times and layout proved; room for every knot is false (C32_room_fails: the last but one knot may be overwritten); strict increase if Ts <= t_min"
  },
  {
   "property": "C33",
   "status": "partial",
   "theorems": [
    "RingLib.C33_cos",
    "RingLib.C33_random",
    "RingLib.C33_reparametrisation",
    "RingLib.C33_left_fails"
   ],
   "note": "all parts proved except constancy left of the first knot, which is false (C33_left_fails)"
  },
  {
   "property": "C34",
   "status": "partial",
   "theorems": [
    "RingLib.C34_replace",
    "RingLib.C34_fields_complete",
    "RingLib.C34_join_fails",
    "RingLib.C34_join_self_fails",
    "RingLib.C34_switch_partial",
    "RingLib.C34_rejects"
   ],
   "note": "join_motionconfigs itself never returns: C34_join_fails (a dict is put into a set), C34_join_self_fails; C34_switch_partial: without comparing that dict the joined configuration switches at the boundaries as claimed; C34_rejects: disagreement is rejected"
  },
  {
   "property": "C35",
   "status": "proved",
   "theorems": [
    "RingLib.generator.C35_positions",
    "RingLib.generator.C35_exact"
   ],
   "note": "uniform draws in [0,1) are the only assumption on the random stream"
  },
  {
   "property": "C36",
   "status": "proved",
   "theorems": [
    "RingLib.sensors.C36_average",
    "RingLib.sensors.C36_average_rejects",
    "RingLib.sensors.C36_average_const",
    "RingLib.sensors.C36_average_linear",
    "RingLib.sensors.C36_delay",
    "RingLib.sensors.C36_delay_linear",
    "RingLib.sensors.C36_delay_const",
    "RingLib.sensors.C36_causal",
    "RingLib.sensors.C36_channels",
    "RingLib.sensors.C36_no_delay",
    "RingLib.sensors.C36_imu"
   ],
   "note": ""
  },
  {
   "property": "C37",
   "status": "partial",
   "theorems": [
    "RingLib.sensors.C37_acc",
    "RingLib.sensors.C37_quadratic",
    "RingLib.sensors.C37_rest_acc",
    "RingLib.sensors.C37_short_fails",
    "RingLib.sensors.C37_gyr_first",
    "RingLib.sensors.C37_gyr_second",
    "RingLib.sensors.C37_rest_gyr",
    "RingLib.sensors.C37_rate_partial",
    "RingLib.sensors.C37_slow_fails"
   ],
   "note": "proved for trajectories of at least 3n samples and for rotation rates above the tolerance of the axis-angle extraction; shorter trajectories change length (C37_short_fails) and slower rotations read zero (C37_slow_fails)"
  },
  {
   "property": "C38",
   "status": "partial",
   "theorems": [
    "RingLib.sensors.C38_gain",
    "RingLib.sensors.C38_length_partial",
    "RingLib.sensors.C38_short_fails",
    "RingLib.sensors.C38_const",
    "RingLib.sensors.C38_linear",
    "RingLib.sensors.C38_zero_phase",
    "RingLib.sensors.C38_quat_unit",
    "RingLib.sensors.C38_quat_const",
    "RingLib.sensors.C38_step",
    "RingLib.sensors.C38_alpha"
   ],
   "note": "proved for at least three samples; fewer raise (C38_short_fails)"
  },
  {
   "property": "C39",
   "status": "proved",
   "theorems": [
    "RingLib.sensors.C39_noise",
    "RingLib.sensors.C39_unknown",
    "RingLib.sensors.C39_identity"
   ],
   "note": ""
  },
  {
   "property": "C40",
   "status": "partial",
   "theorems": [
    "RingLib.generator.C40_int",
    "RingLib.generator.C40_int_rejected",
    "RingLib.generator.C40_list_partial",
    "RingLib.generator.C40_list_rejected",
    "RingLib.generator.C40_list_fails",
    "RingLib.generator.C40_executions",
    "RingLib.generator.C40_split",
    "RingLib.generator.C40_to_list",
    "RingLib.generator.C40_succeeds"
   ],
   "note": "list sizes: the divisibility check compares with prime factors and rejects valid requests (C40_list_fails); everything else proved"
  },
  {
   "property": "C41",
   "status": "proved",
   "theorems": [
    "RingLib.generator.C41_layout",
    "RingLib.generator.C41_fresh",
    "RingLib.generator.C41_to_lazy_gen"
   ],
   "note": ""
  },
  {
   "property": "C42",
   "status": "proved",
   "theorems": [
    "RingLib.utils.C42_product",
    "RingLib.utils.C42_distribute",
    "RingLib.utils.C42_expand_merge",
    "RingLib.utils.C42_merge_expand",
    "RingLib.generator.C42_thresholds"
   ],
   "note": "exact division instead of int(a / b) on floats"
  },
  {
   "property": "C43",
   "status": "proved",
   "theorems": [
    "RingLib.generator.C43_epochs",
    "RingLib.generator.C43_once",
    "RingLib.generator.C43_too_large"
   ],
   "note": "aliasing of the handed out arrays (pytree_deepcopy) is outside the value model"
  },
  {
   "property": "C44",
   "status": "partial",
   "theorems": [
    "RingLib.generator.C44_randomize_hz",
    "RingLib.generator.C44_unequal_fails",
    "RingLib.generator.C44_generator",
    "RingLib.generator.C44_rejected"
   ],
   "note": "randomize_hz in utils accepts configurations of different durations and overwrites them (C44_unequal_fails); the generator rejects them"
  },
  {
   "property": "C45",
   "status": "partial",
   "theorems": [
    "RingLib.sensors.C45_rel_pose",
    "RingLib.sensors.C45_root_incl",
    "RingLib.sensors.C45_root_full",
    "RingLib.generator.C45_names2indices",
    "RingLib.generator.C45_imu",
    "RingLib.sensors.C45_joint_axes",
    "RingLib.sensors.C45_hinge",
    "RingLib.generator.C45_pipeline",
    "RingLib.generator.C45_rootfull_fails",
    "RingLib.generator.C45_rename_partial",
    "RingLib.generator.C45_rename_fails"
   ],
   "note": "All statements are proved, with two exceptions where the code is wrong: renaming links to numbers loses data if a link is named like the number of another (C45_rename_fails), and the whole orientation of the roots (or links by number) cannot be asked for on its own (C45_rootfull_fails). Of several IMUs on one segment the last one is used (ImuOf)."
  },
  {
   "property": "C46",
   "status": "partial",
   "theorems": [
    "RingLib.artifacts.C46_unactuated",
    "RingLib.artifacts.C46_inject_hide",
    "RingLib.artifacts.C46_geoms_fails",
    "RingLib.artifacts.C46_only_imus_fails",
    "RingLib.artifacts.C46_inject"
   ],
   "note": "proved for systems with at least one link that is not an IMU: names, parents, joint types and all data of the other links are restored, coordinates and poses are picked by name. Geometries of IMUs are lost (C46_geoms_fails), a system of IMUs only raises (C46_only_imus_fails)"
  },
  {
   "property": "C47",
   "status": "proved",
   "theorems": [
    "RingLib.utils.C47_primes",
    "RingLib.utils.C47_unique",
    "RingLib.utils.C47_gcd"
   ],
   "note": ""
  },
  {
   "property": "C48",
   "status": "partial",
   "theorems": [
    "RingLib.utils.C48_union",
    "RingLib.utils.C48_no_overwrite",
    "RingLib.utils.C48_error",
    "RingLib.utils.C48_overwrite_leaf_fails",
    "RingLib.utils.C48_nested"
   ],
   "note": "Nested dictionaries merge as claimed, with the exact condition under which an error is raised; arrays at the first level are never overwritten, also not with overwrite=True (C48_overwrite_leaf_fails)."
  },
  {
   "property": "C49",
   "status": "partial",
   "theorems": [
    "RingLib.utils.C49_partial",
    "RingLib.utils.C49_ends",
    "RingLib.utils.C49_rejected",
    "RingLib.utils.C49_hangs_fails"
   ],
   "note": "Whatever is returned is as claimed; returning is proved if a good allowed sample exists and draws are fair; with only NaN samples allowed the function loops forever (C49_hangs_fails)."
  },
  {
   "property": "C50",
   "status": "partial",
   "theorems": [
    "RingLib.hdf5.C50_partial",
    "RingLib.hdf5.C50_rejected",
    "RingLib.hdf5.C50_order_fails",
    "RingLib.hdf5.C50_fields_fails"
   ],
   "note": "Lists and tuples up to ten elements, dictionaries, named tuples with alphabetical fields; longer lists are reordered (C50_order_fails), named tuple fields too (C50_fields_fails)."
  },
  {
   "property": "C51",
   "status": "partial",
   "theorems": [
    "RingLib.hdf5.Trees.C51_trees_partial",
    "RingLib.hdf5.Trees.C51_namedtuple_fails",
    "RingLib.hdf5.Trees.C51_lengths_fails",
    "RingLib.hdf5.Trees.C51_structure",
    "RingLib.hdf5.Trees.C51_no_arrays",
    "RingLib.hdf5.Trees.C51_scalar",
    "RingLib.hdf5.C51_partial",
    "RingLib.hdf5.C51_order_fails",
    "RingLib.hdf5.C51_repeated_fails",
    "RingLib.hdf5.C51_out_of_range"
   ],
   "note": "Rows are right, array by array in trees of any structure, but come in increasing order of the indices (C51_order_fails); repeated indices are refused (C51_repeated_fails); named tuples cannot be loaded from two files (C51_namedtuple_fails); the length of the first array counts for all (C51_lengths_fails)."
  },
  {
   "property": "C52",
   "status": "partial",
   "theorems": [
    "RingLib.FPath.C52_stem",
    "RingLib.utils.C52_extension",
    "RingLib.utils.C52_pickle",
    "RingLib.utils.C52_exists",
    "RingLib.utils.C52_overwrite",
    "RingLib.utils.C52_roundtrip",
    "RingLib.generator.C52_folder_fails",
    "RingLib.hdf5.C52_hdf5"
   ],
   "note": "pickle_save and hdf5 save; to_folder with overwrite=False replaces existing pickles (C52_folder_fails)."
  },
  {
   "property": "C53",
   "status": "partial",
   "theorems": [
    "RingLib.utils.C53_tree_equal",
    "RingLib.utils.C53_sys_compare_partial",
    "RingLib.utils.C53_identical",
    "RingLib.utils.C53_different",
    "RingLib.utils.C53_order_partial",
    "RingLib.utils.C53_empty_fails",
    "RingLib.utils.C53_count_fails",
    "RingLib.utils.C53_kind_fails",
    "RingLib.utils.C53_order_fails",
    "RingLib.utils.C53_nan_fails"
   ],
   "note": "tree_equal is exact and total on consistent systems; sys_compare raises on systems without geometries, with more geometries or other kinds (C53_empty_fails, C53_count_fails, C53_kind_fails); order matters inside the tolerance (C53_order_fails); NaN (C53_nan_fails)"
  },
  {
   "property": "C54",
   "status": "partial",
   "theorems": [
    "RingLib.ml.C54_queue",
    "RingLib.ml.C54_zero_fails",
    "RingLib.ml.C54_last",
    "RingLib.ml.C54_tracked_partial",
    "RingLib.ml.C54_unevaluated_fails"
   ],
   "note": "Positive capacities (C54_zero_fails for zero); without tracked metrics the last n are kept; with tracked metrics only evaluated episodes are stored once n of them exist, before that unevaluated ones are stored too (C54_unevaluated_fails)."
  },
  {
   "property": "C55",
   "status": "partial",
   "theorems": [
    "RingLib.ml.C55_partial",
    "RingLib.ml.C55_warmup_fails",
    "RingLib.ml.C55_counter_fails"
   ],
   "note": "All histories after the warmup. Within the warmup large and NaN gradients are applied (C55_warmup_fails); the counter counts consecutive large gradients, also those that are applied (C55_counter_fails)."
  },
  {
   "property": "C56",
   "status": "partial",
   "theorems": [
    "RingLib.ml.C56_grads_partial",
    "RingLib.ml.C56_window",
    "RingLib.ml.C56_first_fails",
    "RingLib.ml.C56_nan",
    "RingLib.ml.C56_episode",
    "RingLib.ml.C56_episode_exact"
   ],
   "note": "NaN, episode limit and stopping proved; the gradient callback is right once as many gradients were seen as are demanded in a row, before that fewer suffice (C56_first_fails). Stopping after a kill is C57_run."
  },
  {
   "property": "C57",
   "status": "proved",
   "theorems": [
    "RingLib.ml.C57_record",
    "RingLib.ml.C57_run",
    "RingLib.ml.C57_after",
    "RingLib.ml.C57_seeds",
    "RingLib.ml.C57_keys"
   ],
   "note": "For arbitrary generators, step functions and callbacks; python's shuffle is any permutation."
  },
  {
   "property": "C58",
   "status": "proved",
   "theorems": [
    "RingLib.ml.C58_relabel",
    "RingLib.ml.C58_step",
    "RingLib.ml.C58_cone",
    "RingLib.ml.C58_component",
    "RingLib.ml.C58_two_chunks",
    "RingLib.ml.C58_chunks",
    "RingLib.ml.C58_shape",
    "RingLib.ml.C58_messages",
    "RingLib.ml.C58_message",
    "RingLib.ml.C58_cells"
   ],
   "note": ""
  },
  {
   "property": "C59",
   "status": "partial",
   "theorems": [
    "RingLib.ml.C59_ring_single",
    "RingLib.ml.C59_ring_transparent",
    "RingLib.ml.C59_unbatched_transparent",
    "RingLib.ml.C59_tower",
    "RingLib.ml.C59_scale",
    "RingLib.ml.C59_scale10",
    "RingLib.ml.C59_scale_rejects",
    "RingLib.ml.C59_addTs",
    "RingLib.ml.C59_noGraph",
    "RingLib.ml.C59_heading",
    "RingLib.ml.C59_lpf",
    "RingLib.ml.C59_order_fails",
    "RingLib.ml.C59_scale_transparent",
    "RingLib.ml.C59_addTs_transparent",
    "RingLib.ml.C59_noGraph_transparent",
    "RingLib.ml.C59_heading_transparent",
    "RingLib.ml.C59_lpf_transparent"
   ],
   "note": "the scaling wrapper reorders ten features (C59_order_fails); filters without batch support and RING assumed to keep shapes"
  },
  {
   "property": "C60",
   "status": "partial",
   "theorems": [
    "RingLib.ml.C60_distinct_partial",
    "RingLib.ml.C60_partial",
    "RingLib.ml.C60_collision_fails",
    "RingLib.ml.C60_logged"
   ],
   "note": "Keys that are not empty and do not contain the separator, or more generally different joined names; otherwise values are lost (C60_collision_fails)."
  },
  {
   "property": "C61",
   "status": "partial",
   "theorems": [
    "RingLib.jcalc.C61_success",
    "RingLib.jcalc.C61_exists",
    "RingLib.jcalc.C61_atomic_partial",
    "RingLib.jcalc.C61_others",
    "RingLib.jcalc.C61_atomic_fails",
    "RingLib.jcalc.C61_overwrite",
    "RingLib.jcalc.C61_overwrite_twice",
    "RingLib.jcalc.C61_note_fails",
    "RingLib.jcalc.C61_subsystem",
    "RingLib.jcalc.C61_subsystem_ok",
    "RingLib.jcalc.C61_history",
    "RingLib.jcalc.C61_initial"
   ],
   "note": "a failed registration with overwrite=True removes the type (C61_atomic_fails); refused changes stay noted (C61_note_fails)"
  },
  {
   "property": "C62",
   "status": "proved",
   "theorems": [
    "RingLib.System.C62_init",
    "RingLib.System.C62_apply",
    "RingLib.System.C62_initial",
    "RingLib.System.C62_zero_error",
    "RingLib.System.C62_unroll",
    "RingLib.System.C62_lag",
    "RingLib.System.C62_gains",
    "RingLib.System.C62_dynsim",
    "RingLib.System.C62_unactuated"
   ],
   "note": ""
  },
  {
   "property": "C63",
   "status": "partial",
   "theorems": [
    "RingLib.C63_rows",
    "RingLib.C63_frozen_fails"
   ],
   "note": "rows, widths, unit quaternions and angle ranges for every built-in joint type; the number of rows of frozen joints differs when N is not given (C63_frozen_fails)"
  },
  {
   "property": "C64",
   "status": "partial",
   "theorems": [
    "RingLib.C64_config",
    "RingLib.C64_still_partial",
    "RingLib.C64_cor_fails"
   ],
   "note": "configuration (C64_config) and all joint types except cor, for which it is false (C64_cor_fails); overwrites for joint types are kept, so free joints of the registered slow motions move (C109_nomotion_fails)"
  },
  {
   "property": "C65",
   "status": "proved",
   "theorems": [
    "RingLib.C65_draw_steps",
    "RingLib.C65_draw",
    "RingLib.C65_fresh"
   ],
   "note": "columns and keys of draw_random_q (C65_draw), all keys different if splitting never collides (C65_fresh)"
  },
  {
   "property": "C66",
   "status": "proved",
   "theorems": [
    "RingLib.generator.C66_rotations"
   ],
   "note": "rows of normal draws that are (numerically) the zero vector are excluded by hypothesis"
  },
  {
   "property": "C67",
   "status": "partial",
   "theorems": [
    "RingLib.generator.C67_to_folder_partial",
    "RingLib.generator.C67_prefix_fails"
   ],
   "note": "Prefixes without a dot; with a dot all sequences end up in the same file (C67_prefix_fails)."
  },
  {
   "property": "C68",
   "status": "proved",
   "theorems": [
    "RingLib.ml.C68_average",
    "RingLib.ml.C68_eval",
    "RingLib.ml.C68_taken"
   ],
   "note": "Values are exact numbers, infinities or NaN."
  },
  {
   "property": "C69",
   "status": "proved",
   "theorems": [
    "RingLib.sensors.C69_magvec",
    "RingLib.sensors.C69_natural_units",
    "RingLib.sensors.C69_quasi_const",
    "RingLib.sensors.C69_quasi_linear",
    "RingLib.sensors.C69_imu",
    "RingLib.sensors.C69_ideal",
    "RingLib.sensors.C69_orientation"
   ],
   "note": ""
  },
  {
   "property": "C70",
   "status": "proved",
   "theorems": [
    "RingLib.io.C70_defaults",
    "RingLib.io.C70_missing"
   ],
   "note": ""
  },
  {
   "property": "C71",
   "status": "proved",
   "theorems": [
    "RingLib.artifacts.C71_randomize",
    "RingLib.artifacts.C71_refused"
   ],
   "note": ""
  },
  {
   "property": "C72",
   "status": "partial",
   "theorems": [
    "RingLib.morph.C72_resting",
    "RingLib.morph.C72_reverse",
    "RingLib.morph.C72_reach",
    "RingLib.morph.C72_several_roots_fails",
    "RingLib.morph.C72_motion",
    "RingLib.morph.C72_geoms",
    "RingLib.morph.C72_morph",
    "RingLib.morph.C72_anchor",
    "RingLib.morph.C72_rest",
    "RingLib.morph.C72_joints",
    "RingLib.morph.C72_refuses"
   ],
   "note": "Everything is proved for every reversal; what fails is in the code: with several roots all new roots get the joint of the first old root (C72_several_roots_fails)."
  },
  {
   "property": "C73",
   "status": "partial",
   "theorems": [
    "RingLib.randomize.C73_anchors",
    "RingLib.randomize.C73_rest",
    "RingLib.randomize.C73_unknown",
    "RingLib.randomize.C73_world_geoms_fails"
   ],
   "note": "the last sentence of the statement is a defect of the code: C73_world_geoms_fails; everything else is C73_anchors"
  },
  {
   "property": "C74",
   "status": "partial",
   "theorems": [
    "RingLib.C74_randomize_partial",
    "RingLib.C74_randomize_roots",
    "RingLib.C74_rate_fails",
    "RingLib.C74_scale_xs",
    "RingLib.C74_refused",
    "RingLib.C74_one",
    "RingLib.C74_zero",
    "RingLib.C74_compose",
    "RingLib.C74_kinematics_partial",
    "RingLib.C74_default",
    "RingLib.C74_other_joints_fails",
    "RingLib.C74_large_angle_fails",
    "RingLib.C74_half_turn_fails"
   ],
   "note": "The code does not scale p3d, free_2d, cor and saddle joints, hinges beyond half a turn or half turns as stated, and the random root motion only fits 100 Hz recordings: C74_other_joints_fails, C74_large_angle_fails, C74_half_turn_fails, C74_rate_fails."
  },
  {
   "property": "C75",
   "status": "proved",
   "theorems": [
    "RingLib.C75_gen",
    "RingLib.C75_sequences",
    "RingLib.C75_fresh",
    "RingLib.C75_setup_keys",
    "RingLib.C75_setup_fresh",
    "RingLib.C75_outputs",
    "RingLib.C75_simulated",
    "RingLib.C75_test_system",
    "RingLib.C75_build",
    "RingLib.C75_build_default",
    "RingLib.C75_finalize_fn_rejected",
    "RingLib.C75_lengths_rejected"
   ],
   "note": "Without a setup_fn of the user and without motion artifacts (these parts on their own: C46). C75_simulated is stated without unactuated links; with these see C62_dynsim."
  },
  {
   "property": "C76",
   "status": "partial",
   "theorems": [
    "RingLib.C76_batched",
    "RingLib.C76_unbatched",
    "RingLib.C76_only_segments",
    "RingLib.C76_all_or_none",
    "RingLib.C76_dt_fails",
    "RingLib.C76_dt_single_fails",
    "RingLib.C76_factory",
    "RingLib.C76_factory_twice",
    "RingLib.C76_again",
    "RingLib.generator.C76_generator"
   ],
   "note": "The time step that the generator itself adds cannot be flattened: C76_dt_fails. Everything else in the statement is proved."
  },
  {
   "property": "C77",
   "status": "partial",
   "theorems": [
    "RingLib.System.C77_single",
    "RingLib.System.C77_default",
    "RingLib.System.C77_best",
    "RingLib.System.C77_residual",
    "RingLib.System.C77_sign",
    "RingLib.System.C77_descent",
    "RingLib.System.C77_value",
    "RingLib.System.C77_arguments",
    "RingLib.System.C77_zero_fails",
    "RingLib.System.C77_diverged_fails"
   ],
   "note": "A start that ends with NaNs wins the selection (C77_diverged_fails), and a vanishing quaternion counts as every orientation (C77_zero_fails); proved: everything for runs without NaNs and quaternions that are not negligible."
  },
  {
   "property": "C78",
   "status": "partial",
   "theorems": [
    "RingLib.C78_free_fall",
    "RingLib.C78_release",
    "RingLib.C78_falls_partial",
    "RingLib.C78_falls_fails",
    "RingLib.C78_plain",
    "RingLib.C78_free",
    "RingLib.C78_free_2d",
    "RingLib.C78_cor",
    "RingLib.C78_saddle",
    "RingLib.C78_free_partial",
    "RingLib.C78_free_2d_partial",
    "RingLib.C78_cor_partial",
    "RingLib.C78_saddle_partial",
    "RingLib.C78_free_fails",
    "RingLib.C78_free_2d_fails",
    "RingLib.C78_cor_fails",
    "RingLib.C78_saddle_fails",
    "RingLib.C78_tree",
    "RingLib.C78_link_velocity",
    "RingLib.C78_integrator",
    "RingLib.C78_integrator_turn"
   ],
   "note": "Holds for hinges, sliders, three-dimensional sliders, spherical and frozen joints and for systems of these; for free, free_2d, cor and saddle joints the code violates it, the exact condition is proved."
  },
  {
   "property": "C79",
   "status": "partial",
   "theorems": [
    "RingLib.C79_register",
    "RingLib.C79_rr_axis",
    "RingLib.C79_rr_imp_axes",
    "RingLib.C79_rsaddle_axes",
    "RingLib.C79_params",
    "RingLib.C79_rr_transform",
    "RingLib.C79_rr_imp_ideal",
    "RingLib.C79_rr_imp_tilt",
    "RingLib.C79_rr",
    "RingLib.C79_rr_imp",
    "RingLib.C79_rsaddle",
    "RingLib.C79_rr_imp_partial",
    "RingLib.C79_rr_imp_error",
    "RingLib.C79_rsaddle_partial",
    "RingLib.C79_rr_imp_fails",
    "RingLib.C79_rsaddle_fails",
    "RingLib.C79_draw_partial",
    "RingLib.C79_draw_fails",
    "RingLib.C79_no_coordinates",
    "RingLib.C79_no_inv_kin",
    "RingLib.C79_no_inverse"
   ],
   "note": "Holds for rr; for rr_imp and rsaddle the declared motion is wrong and the residual angle can leave its bounds; the exact conditions and weaker bounds are proved."
  },
  {
   "property": "C80",
   "status": "partial",
   "theorems": [
    "RingLib.C80_restrict",
    "RingLib.C80_minmax",
    "RingLib.C80_clip",
    "RingLib.C80_method",
    "RingLib.C80_gp",
    "RingLib.C80_gp_covariance",
    "RingLib.C80_poly",
    "RingLib.C80_poly_centred",
    "RingLib.C80_mlp",
    "RingLib.C80_centred_fails",
    "RingLib.C80_constant_fails",
    "RingLib.C80_constant",
    "RingLib.C80_centre_first",
    "RingLib.C80_centre_fails",
    "RingLib.C80_scale",
    "RingLib.C80_params",
    "RingLib.C80_ranges",
    "RingLib.C80_rotation",
    "RingLib.C80_rotation_matrix",
    "RingLib.C80_transform",
    "RingLib.C80_transform_fails",
    "RingLib.C80_angles",
    "RingLib.C80_translations",
    "RingLib.C80_home",
    "RingLib.C80_motion",
    "RingLib.C80_motion_fails",
    "RingLib.C80_draw_partial",
    "RingLib.C80_draw_fails",
    "RingLib.C80_coords",
    "RingLib.C80_coords_clip",
    "RingLib.C80_coords_fails",
    "RingLib.C80_register",
    "RingLib.C80_find",
    "RingLib.C80_order",
    "RingLib.C80_sigmoid",
    "RingLib.C80_clamp"
   ],
   "note": "Restriction, functions, rotation, translation and registration are proved; the declared motion, centred functions, reused factories, half-size of the range of motion and coordinates violate the property, with witnesses; the exact conditions and weaker bounds are proved."
  },
  {
   "property": "C81",
   "status": "partial",
   "theorems": [
    "RingLib.C81_torch",
    "RingLib.C81_torch_once",
    "RingLib.C81_torch_none",
    "RingLib.C81_dataset",
    "RingLib.C81_element",
    "RingLib.C81_pairing_partial",
    "RingLib.C81_pairing_fails",
    "RingLib.C81_foreign_fails",
    "RingLib.C81_roundtrip",
    "RingLib.C81_eager",
    "RingLib.C81_torch_transform",
    "RingLib.C81_pytorch",
    "RingLib.C81_folder",
    "RingLib.C81_seed_fails",
    "RingLib.C81_grain_none_fails",
    "RingLib.C81_backend"
   ],
   "note": "Making datasets, their elements, epochs of both backends and the round trip from to_folder are proved; pairing of folders, foreign files, seeding of transforms and the optional transform of grain violate the property, with witnesses."
  },
  {
   "property": "C82",
   "status": "partial",
   "theorems": [
    "RingLib.C82_sample",
    "RingLib.C82_sample_none",
    "RingLib.C82_statistics",
    "RingLib.C82_normalized",
    "RingLib.C82_normalizer",
    "RingLib.C82_standardized",
    "RingLib.C82_affine",
    "RingLib.C82_constant_fails"
   ],
   "note": "Sampling, statistics, standardization and invertibility are proved; features that do not vary in the sample violate the last sentence, with a witness."
  },
  {
   "property": "C83",
   "status": "partial",
   "theorems": [
    "RingLib.ml.C83_name",
    "RingLib.ml.C83_nojit",
    "RingLib.ml.C83_roundtrip",
    "RingLib.ml.C83_name_fails",
    "RingLib.ml.C83_plain_fails",
    "RingLib.ml.C83_class_fails",
    "RingLib.ml.C83_search",
    "RingLib.ml.C83_unwrapped"
   ],
   "note": "The round trip of networks in wrappers, names, attributes and unwrapping are proved; lost names, other filters and other classes violate the property, with witnesses for all inputs."
  },
  {
   "property": "C84",
   "status": "partial",
   "theorems": [
    "RingLib.ml.C84_n_params",
    "RingLib.ml.C84_series",
    "RingLib.ml.C84_series_partial",
    "RingLib.ml.C84_series_fails",
    "RingLib.ml.C84_logs_fails",
    "RingLib.ml.C84_logs_none",
    "RingLib.ml.C84_upload",
    "RingLib.ml.C84_warning_fails",
    "RingLib.ml.C84_saved_partial",
    "RingLib.ml.C84_dots_fails",
    "RingLib.ml.C84_exists_fails",
    "RingLib.ml.C84_checkpoint_none",
    "RingLib.ml.C84_checkpoint",
    "RingLib.ml.C84_checkpoint_fails",
    "RingLib.ml.C84_close",
    "RingLib.ml.C84_close_fails"
   ],
   "note": "Series, saving, uploads, checkpoints and the order of closing are proved; names with dots, existing files, the file of the logger and values that are not finite violate the property, with witnesses."
  },
  {
   "property": "C85",
   "status": "partial",
   "theorems": [
    "RingLib.ml.C85_step",
    "RingLib.ml.C85_updates",
    "RingLib.ml.C85_devices",
    "RingLib.ml.C85_chunks",
    "RingLib.ml.C85_length_fails",
    "RingLib.ml.C85_short_fails",
    "RingLib.ml.C85_divide_fails",
    "RingLib.ml.C85_batchsize_fails",
    "RingLib.ml.C85_carry",
    "RingLib.ml.C85_eval_partial",
    "RingLib.ml.C85_eval_fails",
    "RingLib.ml.C85_links_partial",
    "RingLib.ml.C85_links_default",
    "RingLib.ml.C85_links_fails"
   ],
   "note": "Equality with truncated backpropagation on one device, independence of devices, chunks and carried states are proved; lengths, changing batch sizes, other reductions and wrong link names violate the property, with witnesses."
  },
  {
   "property": "C86",
   "status": "partial",
   "theorems": [
    "RingLib.ml.C86_start",
    "RingLib.ml.C86_order",
    "RingLib.ml.C86_tracked",
    "RingLib.ml.C86_history",
    "RingLib.ml.C86_run",
    "RingLib.ml.C86_params",
    "RingLib.ml.C86_params_default",
    "RingLib.ml.C86_resume",
    "RingLib.ml.C86_resume_fails",
    "RingLib.ml.C86_track_fails",
    "RingLib.ml.C86_none_fails",
    "RingLib.ml.C86_share_fails",
    "RingLib.ml.C86_exception_fails",
    "RingLib.ml.C86_loggers",
    "RingLib.ml.C86_default_fails",
    "RingLib.ml.C86_limit",
    "RingLib.ml.C86_whole"
   ],
   "note": "Start, callbacks and their order, episodes, saved parameters, checkpoints and loggers are proved; tracking without a file, one episode, data of resumed runs, exceptions and the shared default list violate the property, with witnesses."
  },
  {
   "property": "C87",
   "status": "partial",
   "theorems": [
    "RingLib.C87_unit_vectors",
    "RingLib.C87_group",
    "RingLib.C87_quat",
    "RingLib.C87_plucker",
    "RingLib.C87_euler",
    "RingLib.C87_XtoV_value",
    "RingLib.C87_XtoV_invariant",
    "RingLib.C87_XtoV_velocity",
    "RingLib.C87_XtoV_half_turn",
    "RingLib.C87_XtoV_axis",
    "RingLib.C87_arccos",
    "RingLib.C87_arcsin_partial",
    "RingLib.C87_arcsin_fails",
    "RingLib.C87_to_euler_fails",
    "RingLib.C87_unit_quats"
   ],
   "note": "Group laws, quaternion and Euler forms, XtoV, the derivative rule of safe_arccos and the tangent of safe_arcsin are proved; the value of safe_arcsin under differentiation is wrong, with witnesses."
  },
  {
   "property": "C88",
   "status": "partial",
   "theorems": [
    "RingLib.C88_avg",
    "RingLib.C88_avg_sign",
    "RingLib.C88_avg_equal",
    "RingLib.C88_constant_axis",
    "RingLib.C88_constant_axis_lost",
    "RingLib.C88_constant_axis_fails"
   ],
   "note": "The average is proved in full; the angles are proved if the first rotation is not negligible, otherwise the sign is lost, with witnesses."
  },
  {
   "property": "C89",
   "status": "proved",
   "theorems": [
    "RingLib.ml.C89_lstm",
    "RingLib.ml.C89_lstm_bounds",
    "RingLib.ml.C89_lstm_sequence",
    "RingLib.ml.C89_cell",
    "RingLib.ml.C89_shape",
    "RingLib.ml.C89_bodies",
    "RingLib.ml.C89_chunks",
    "RingLib.ml.C89_causal",
    "RingLib.ml.C89_step",
    "RingLib.ml.C89_load_params"
   ],
   "note": ""
  },
  {
   "property": "C90",
   "status": "partial",
   "theorems": [
    "RingLib.ml.C90_ring_100Hz",
    "RingLib.ml.C90_ring_Ts",
    "RingLib.ml.C90_ring_None",
    "RingLib.ml.C90_ring_batch",
    "RingLib.ml.C90_warning",
    "RingLib.ml.C90_keywords",
    "RingLib.ml.C90_misspelt_fails",
    "RingLib.ml.C90_quickstart_fails",
    "RingLib.ml.C90_rnno_kwargs",
    "RingLib.ml.C90_rnno_quats",
    "RingLib.ml.C90_rnno_plain",
    "RingLib.ml.C90_rnno_batch",
    "RingLib.ml.C90_rnno_default_fails",
    "RingLib.ml.C90_rnno_truth"
   ],
   "note": "All statements are proved; they fail for the documented example of a parent array, for misspelt keyword arguments and for the default sampling frequency of RNNO, with witnesses."
  },
  {
   "property": "C91",
   "status": "partial",
   "theorems": [
    "RingLib.saddle.C91_episode",
    "RingLib.saddle.C91_beyond",
    "RingLib.saddle.C91_scale",
    "RingLib.saddle.C91_info_is_target",
    "RingLib.saddle.C91_last_never_scored",
    "RingLib.saddle.C91_seed",
    "RingLib.saddle.C91_picture",
    "RingLib.saddle.C91_zero_action_fails",
    "RingLib.saddle.C91_stale_action_fails",
    "RingLib.saddle.C91_picture_lags_fails",
    "RingLib.saddle.C91_short_fails"
   ],
   "note": "Everything stated about observations, rewards and truncation is proved; it fails for the action zero, for pictures after reset and after steps, and for recordings of one sample, with witnesses."
  },
  {
   "property": "C92",
   "status": "partial",
   "theorems": [
    "RingLib.ml.C92_schedule",
    "RingLib.ml.C92_schedule_twice",
    "RingLib.ml.C92_no_steps",
    "RingLib.ml.C92_clip",
    "RingLib.ml.C92_scale",
    "RingLib.ml.C92_nan_spreads",
    "RingLib.ml.C92_infinity",
    "RingLib.ml.C92_training",
    "RingLib.ml.C92_one_step_fails",
    "RingLib.ml.C92_odd_steps_fails",
    "RingLib.ml.C92_warmup_nan_fails"
   ],
   "note": "Schedule, clipping and the use of gradients are proved for all histories; the schedule with cos_decay_twice fails for one and for odd numbers of steps, and NaN spreads in the warm-up, with witnesses."
  },
  {
   "property": "C93",
   "status": "partial",
   "theorems": [
    "RingLib.rendering.C93_printed",
    "RingLib.rendering.C93_small_fails",
    "RingLib.rendering.C93_mujoco_pose",
    "RingLib.rendering.C93_vispy_pose",
    "RingLib.rendering.C93_backends_agree",
    "RingLib.rendering.C93_mujoco_box_sphere",
    "RingLib.rendering.C93_mujoco_long",
    "RingLib.rendering.C93_mujoco_axis_fails",
    "RingLib.rendering.C93_box_mesh",
    "RingLib.rendering.C93_box_edges",
    "RingLib.rendering.C93_vispy_box",
    "RingLib.rendering.C93_vispy_box_fails",
    "RingLib.rendering.C93_capsule_surface",
    "RingLib.rendering.C93_capsule_ends",
    "RingLib.rendering.C93_capsule_faces",
    "RingLib.rendering.C93_capsule_length_fails",
    "RingLib.rendering.C93_xyz",
    "RingLib.rendering.C93_replace",
    "RingLib.rendering.C93_color",
    "RingLib.rendering.C93_bodies",
    "RingLib.rendering.C93_cameras",
    "RingLib.rendering.C93_target",
    "RingLib.rendering.C93_no_geoms_fails"
   ],
   "note": "Poses, bodies, cameras, colours and coordinate systems are proved; the axis of cylinders and capsules with MuJoCo, boxes and the length of capsules with vispy fail, with witnesses. Pictures are not modelled."
  },
  {
   "property": "C94",
   "status": "partial",
   "theorems": [
    "RingLib.rendering.C94_every_nth",
    "RingLib.rendering.C94_render",
    "RingLib.rendering.C94_scene",
    "RingLib.rendering.C94_check",
    "RingLib.rendering.C94_reuse",
    "RingLib.rendering.C94_after_error_fails",
    "RingLib.rendering.C94_vispy_backend_fails",
    "RingLib.rendering.C94_mujoco_overwrites",
    "RingLib.rendering.C94_mujoco_poses"
   ],
   "note": "Proved for all histories of calls for which scenes could be made; after a failed call and with vispy_backend it fails, with witnesses. Pictures are a parameter."
  },
  {
   "property": "C95",
   "status": "partial",
   "theorems": [
    "RingLib.rendering.C95_drawn",
    "RingLib.rendering.C95_array",
    "RingLib.rendering.C95_exact",
    "RingLib.rendering.C95_lengths",
    "RingLib.rendering.C95_missing",
    "RingLib.rendering.C95_rel_pose_fails",
    "RingLib.rendering.C95_bodies",
    "RingLib.rendering.C95_names_taken",
    "RingLib.rendering.C95_world_fails",
    "RingLib.rendering.C95_render",
    "RingLib.rendering.C95_child_to_parent_fails"
   ],
   "note": "Poses, lengths, exactness, names, colours and geometries proved for all systems; a prediction without roots, roots child-to-parent and geometries of the world fail, with witnesses."
  },
  {
   "property": "C96",
   "status": "proved",
   "theorems": [
    "RingLib.sensors.C96_follows",
    "RingLib.sensors.C96_bounded",
    "RingLib.sensors.C96_boundary_fails",
    "RingLib.sensors.C96_settles",
    "RingLib.sensors.C96_rate",
    "RingLib.sensors.C96_rest",
    "RingLib.sensors.C96_ahead",
    "RingLib.sensors.C96_diverges_fails",
    "RingLib.sensors.C96_distance"
   ],
   "note": "Proved in full: limits, bounds and rest for 70 dt + 625 dt^2 < 4; on the boundary and beyond it uniform motions are not followed (C96_boundary_fails, C96_diverges_fails)."
  },
  {
   "property": "C97",
   "status": "partial",
   "theorems": [
    "RingLib.rendering.C97_drawn",
    "RingLib.rendering.C97_update_twice",
    "RingLib.rendering.C97_options",
    "RingLib.rendering.C97_switches",
    "RingLib.rendering.C97_show_cs_root_fails",
    "RingLib.rendering.C97_roots_pile_up_fails",
    "RingLib.rendering.C97_root_stays_fails",
    "RingLib.rendering.C97_render",
    "RingLib.rendering.C97_colours",
    "RingLib.rendering.C97_solids",
    "RingLib.rendering.C97_cylinder_edges_fails",
    "RingLib.rendering.C97_no_geom_fails",
    "RingLib.rendering.C97_after_error_fails",
    "RingLib.rendering.C97_to_list"
   ],
   "note": "Canvas, poses, colours, cameras and switches proved for all histories; root axes that pile up or cannot be switched off, links without geometries, errors in init and edges of cylinders fail, with witnesses."
  },
  {
   "property": "C98",
   "status": "partial",
   "theorems": [
    "RingLib.io.C98_expanduser",
    "RingLib.io.C98_load",
    "RingLib.io.C98_create_file",
    "RingLib.io.C98_create_text_partial",
    "RingLib.io.C98_loading_keeps",
    "RingLib.io.C98_saving_keeps",
    "RingLib.io.C98_roundtrip_partial",
    "RingLib.io.C98_extension_fails",
    "RingLib.io.C98_home_fails",
    "RingLib.io.C98_seed_fails",
    "RingLib.io.C98_suffix_fails",
    "RingLib.io.C98_empty_fails",
    "RingLib.io.C98_mkdir_fails",
    "RingLib.io.C98_rename"
   ],
   "note": "Loading, saving, the round trip and renaming proved; other extensions, the home directory in to_xml, the seed of a text, empty paths and folders made by loading fail, with theorems for all such inputs. The round trip needs the extension .xml and a printer the parser inverts on the saved document."
  },
  {
   "property": "C99",
   "status": "partial",
   "theorems": [
    "RingLib.io.C99_comments",
    "RingLib.io.C99_file",
    "RingLib.io.C99_space_fails",
    "RingLib.io.C99_equals_fails",
    "RingLib.io.C99_examples_partial",
    "RingLib.io.C99_load_examples",
    "RingLib.io.C99_other_files_fails"
   ],
   "note": "Comments proved for texts with single spaces and one equals sign per word; listing proved for tidy folders. Leading or double spaces, further equals signs and other files in the folder fail, with theorems."
  },
  {
   "property": "C100",
   "status": "partial",
   "theorems": [
    "RingLib.ml.C100_value_partial",
    "RingLib.ml.C100_default",
    "RingLib.ml.C100_devices_partial",
    "RingLib.ml.C100_unbatched",
    "RingLib.ml.C100_divide_fails",
    "RingLib.ml.C100_lengths",
    "RingLib.ml.C100_links_mismatch",
    "RingLib.ml.C100_names_fails",
    "RingLib.ml.C100_coupled_fails"
   ],
   "note": "Values, keys and independence of the devices proved for filters that act per sequence and as many different names as links. Other numbers of names, repeated names, batches the devices do not divide and filters that mix sequences fail, with theorems."
  },
  {
   "property": "C101",
   "status": "partial",
   "theorems": [
    "RingLib.base.C101_len",
    "RingLib.base.C101_take_partial",
    "RingLib.base.C101_take_fails",
    "RingLib.base.C101_takes_partial",
    "RingLib.base.C101_slice",
    "RingLib.base.C101_slice_last",
    "RingLib.base.C101_concatenate",
    "RingLib.base.C101_batch",
    "RingLib.base.C101_vstack_entries",
    "RingLib.base.C101_vstack_batches",
    "RingLib.base.C101_repeat",
    "RingLib.base.C101_index_set_partial",
    "RingLib.base.C101_index_sum_partial",
    "RingLib.base.C101_index_set_fails",
    "RingLib.base.C101_add_sub",
    "RingLib.base.C101_scale",
    "RingLib.base.C101_squeeze_one",
    "RingLib.base.C101_T_fails",
    "RingLib.base.C101_squeeze_fails",
    "RingLib.base.C101_reshape_fails",
    "RingLib.base.C101_hstack_fails",
    "RingLib.base.C101_iter",
    "RingLib.base.C101_transform_create",
    "RingLib.base.C101_motion_create",
    "RingLib.base.C101_motion_create_fails"
   ],
   "note": "Proved for indices inside the batch; outside it, for T, squeeze, reshape and hstack of transforms and for motions created from one batched argument the property fails, with theorems. Other axes than the first and broadcasting updates are not modelled."
  },
  {
   "property": "C102",
   "status": "partial",
   "theorems": [
    "RingLib.deepcopy.C102_keeps",
    "RingLib.deepcopy.C102_like",
    "RingLib.deepcopy.C102_same_partial",
    "RingLib.deepcopy.C102_fresh_partial",
    "RingLib.deepcopy.C102_unshared",
    "RingLib.deepcopy.C102_frame_partial",
    "RingLib.deepcopy.C102_total_partial",
    "RingLib.deepcopy.C102_text_fails",
    "RingLib.deepcopy.C102_cycle_fails",
    "RingLib.deepcopy.C102_namedtuple_fails",
    "RingLib.deepcopy.C102_base_fails"
   ],
   "note": "Proved for trees without _Base (sharing) and without named tuples (kinds); for those, for strings and for cycles the property fails, with theorems."
  },
  {
   "property": "C103",
   "status": "partial",
   "theorems": [
    "RingLib.package.C103_history",
    "RingLib.package.C103_joints",
    "RingLib.package.C103_undone_fails"
   ],
   "note": "Proved in full for start, id and registered types; that changes made to custom joints survive fails, with a theorem."
  },
  {
   "property": "C104",
   "status": "partial",
   "theorems": [
    "RingLib.package.C104_flags_partial",
    "RingLib.package.C104_unset",
    "RingLib.package.C104_number_partial",
    "RingLib.package.C104_twice_partial",
    "RingLib.package.C104_inside_fails"
   ],
   "note": "Proved if the flag for the number of devices only occurs at the beginning of words; otherwise a word is cut, with a theorem."
  },
  {
   "property": "C105",
   "status": "partial",
   "theorems": [
    "RingLib.ml.C105_rows_partial",
    "RingLib.ml.C105_step_fails",
    "RingLib.ml.C105_online",
    "RingLib.ml.C105_offline",
    "RingLib.ml.C105_missing_fails",
    "RingLib.ml.C105_name_fails",
    "RingLib.ml.C105_command_partial",
    "RingLib.ml.C105_command_fails",
    "RingLib.ml.C105_environment_partial",
    "RingLib.ml.C105_no_run_fails"
   ],
   "note": "Proved for rows, files and commands; existing files named like the commands, equal names in different folders, missing files and a metric named like the step fail, with theorems."
  },
  {
   "property": "C106",
   "status": "partial",
   "theorems": [
    "RingLib.generator.C106_folder_partial",
    "RingLib.generator.C106_folder",
    "RingLib.generator.C106_nan_fails",
    "RingLib.generator.C106_all_nan_fails",
    "RingLib.generator.C106_pickle",
    "RingLib.generator.C106_pickle_kept",
    "RingLib.generator.C106_eager"
   ],
   "note": "Proved for the single file, the eager generator, and folders without NaNs; with NaNs the folder holds other sequences or is not completed, with theorems."
  },
  {
   "property": "C107",
   "status": "proved",
   "theorems": [
    "RingLib.C107_step",
    "RingLib.C107_hangs",
    "RingLib.C107_explodes_fails",
    "RingLib.sensors.C107_settles",
    "RingLib.sensors.C107_rate",
    "RingLib.sensors.C107_rest",
    "RingLib.sensors.C107_agree_fails",
    "RingLib.sensors.C107_diverges_fails",
    "RingLib.sensors.C107_loaded"
   ],
   "note": "Proved in full; beyond the stated bounds the simulation diverges (C107_explodes_fails, C107_diverges_fails) and the two simulations of the IMU do not agree (C107_agree_fails)."
  },
  {
   "property": "C108",
   "status": "partial",
   "theorems": [
    "RingLib.ml.C108_names",
    "RingLib.ml.C108_stored",
    "RingLib.ml.C108_number",
    "RingLib.ml.C108_validated",
    "RingLib.ml.C108_passes",
    "RingLib.ml.C108_broadcast",
    "RingLib.ml.C108_single_rows",
    "RingLib.ml.C108_single_fails",
    "RingLib.ml.C108_exchanged_fails",
    "RingLib.ml.C108_fewer_fails",
    "RingLib.ml.C108_tf_fails"
   ],
   "note": "Proved for functions that return a tuple, with as many outputs in the model, and for names that are not old names of later arguments; the other cases and `save_model_tf` accept wrong exports, with theorems."
  },
  {
   "property": "C109",
   "status": "partial",
   "theorems": [
    "RingLib.jcalc.C109_feasible",
    "RingLib.jcalc.C109_register",
    "RingLib.jcalc.C109_names",
    "RingLib.jcalc.C109_draw",
    "RingLib.jcalc.C109_later_fails",
    "RingLib.jcalc.C109_overwrites_fails",
    "RingLib.jcalc.C109_nomotion_fails"
   ],
   "note": "The equivalence, the register and drawing are proved in full; the last sentence is false: later times, overwrites for joint types and the centre of rotation are not looked at, with theorems."
  },
  {
   "property": "C110",
   "status": "proved",
   "theorems": [
    "RingLib.generator.C110_unchanged",
    "RingLib.generator.C110_received",
    "RingLib.generator.C110_writes",
    "RingLib.generator.C110_all",
    "RingLib.generator.C110_again",
    "RingLib.generator.C110_refused",
    "RingLib.generator.C110_uncopied_fails",
    "RingLib.generator.C110_nested_fails"
   ],
   "note": "Heap model of dicts; all parts of the statement hold."
  },
  {
   "property": "C111",
   "status": "proved",
   "theorems": [
    "RingLib.C111_accelerations",
    "RingLib.C111_power",
    "RingLib.C111_balance",
    "RingLib.C111_conserved",
    "RingLib.C111_forward",
    "RingLib.C111_springs",
    "RingLib.C111_dampers",
    "RingLib.C111_dissipates"
   ],
   "note": "For all joints whose declared axes are the velocities of their transforms; the others are excluded in the statement (see C78)."
  },
  {
   "property": "C112",
   "status": "proved",
   "theorems": [
    "RingLib.C112_poses",
    "RingLib.C112_dynamics",
    "RingLib.C112_step",
    "RingLib.C112_simulation",
    "RingLib.C112_sensors"
   ],
   "note": "All built-in joints; the joint transforms of the moved system differ from the old ones at the roots alone."
  },
  {
   "property": "C113",
   "status": "proved",
   "theorems": [
    "RingLib.C113_consistent",
    "RingLib.C113_energy",
    "RingLib.C113_exists"
   ],
   "note": "Orientations are excluded in the statement: the integrator turns them with a velocity up to 1e-8 off (see C78)."
  },
  {
   "property": "C114",
   "status": "partial",
   "theorems": [
    "RingLib.C114_poses",
    "RingLib.C114_dynamics_partial",
    "RingLib.C114_step_partial",
    "RingLib.C114_simulation_partial",
    "RingLib.C114_approximate_fails"
   ],
   "note": "Proved for the exact inverse of the mass matrix (mass_mat_iters = 0) and dt >= 0, damping and armature not negative; with the approximate inverse trees influence each other, with a theorem."
  },
  {
   "property": "C115",
   "status": "proved",
   "theorems": [
    "RingLib.C115_cache",
    "RingLib.C115_split",
    "RingLib.C115_lag"
   ],
   "note": "Under the conditions under which C28 says that a step succeeds."
  },
  {
   "property": "C116",
   "status": "proved",
   "theorems": [
    "RingLib.C116_delete",
    "RingLib.C116_delete_list",
    "RingLib.C116_noimu",
    "RingLib.C116_inject"
   ],
   "note": "For the injection every link must have the parameters of its joint type in its own system if the other system has some (OwnParams)."
  },
  {
   "property": "C117",
   "status": "proved",
   "theorems": [
    "RingLib.C117_poses",
    "RingLib.C117_torques",
    "RingLib.C117_mass_matrix"
   ],
   "note": "For states with unit quaternions; the mass matrix for every system after forward kinematics (`Dynamic`)."
  },
  {
   "property": "C118",
   "status": "proved",
   "theorems": [
    "RingLib.C118_speed",
    "RingLib.C118_energy",
    "RingLib.C118_weight",
    "RingLib.C118_rest"
   ],
   "note": ""
  },
  {
   "property": "C119",
   "status": "proved",
   "theorems": [
    "RingLib.C119_torques",
    "RingLib.C119_mass_matrix",
    "RingLib.C119_energy",
    "RingLib.C119_motion",
    "RingLib.C119_simulation",
    "RingLib.C119_millionth",
    "RingLib.C119_plain_fails"
   ],
   "note": "The simulation for `mass_mat_iters = 0`; the armature of the scaled system compensates the millionth on the diagonal."
  },
  {
   "property": "C120",
   "status": "proved",
   "theorems": [
    "RingLib.C120_accelerations",
    "RingLib.C120_simulation"
   ],
   "note": ""
  }
 ]
}
