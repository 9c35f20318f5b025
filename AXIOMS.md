# Axioms

Generated by `tools/axioms.py` from `#print axioms`.

## propext, Classical.choice, Quot.sound (837 theorems)

* `RingLib.C01_partition`
* `RingLib.C01_arguments`
* `RingLib.C01_scan_forward`
* `RingLib.C01_scan_reverse`
* `RingLib.C01_sizes_and_idx_map`
* `RingLib.C02_inverse`
* `RingLib.C02_missing`
* `RingLib.C02_idx_map`
* `RingLib.C02_parse_rejects_duplicates`
* `RingLib.C03_delete`
* `RingLib.C03_world_geoms_dropped`
* `RingLib.C03_delete_everything`
* `RingLib.C03_unknown_strict`
* `RingLib.C03_unknown_lenient`
* `RingLib.C03_list_lenient`
* `RingLib.C03_list_strict`
* `RingLib.C03_list_strict_raises`
* `RingLib.generator.C03_make_sys_noimu`
* `RingLib.C04_inject`
* `RingLib.C04_duplicates_rejected`
* `RingLib.C04_unknown_body`
* `RingLib.C05_delete_inject`
* `RingLib.C05_round_trip`
* `RingLib.morph.C06_cycle`
* `RingLib.morph.C06_identify`
* `RingLib.morph.C06_identity`
* `RingLib.morph.C07_reroot`
* `RingLib.morph.C07_restore`
* `RingLib.morph.C07_compose`
* `RingLib.morph.C07_several_roots`
* `RingLib.io.C08_roundtrip_partial`
* `RingLib.io.C08_by_name_partial`
* `RingLib.io.C08_identity_partial`
* `RingLib.io.C08_model_fails`
* `RingLib.io.C08_cor_fails`
* `RingLib.io.C08_point_fails`
* `RingLib.io.C08_name_fails`
* `RingLib.io.C08_xyz_fails`
* `RingLib.C09_change`
* `RingLib.C09_wrong_size`
* `RingLib.C09_unknown_type`
* `RingLib.C09_freeze`
* `RingLib.C09_freeze_list`
* `RingLib.C09_freeze_unknown`
* `RingLib.C09_unfreeze`
* `RingLib.C09_free_to_cor`
* `RingLib.C10_jointtype`
* `RingLib.C10_children`
* `RingLib.C10_children_unknown`
* `RingLib.C10_subsystem`
* `RingLib.C10_world_children`
* `RingLib.C11_create_key`
* `RingLib.C11_to_q`
* `RingLib.C11_tiny_fails`
* `RingLib.C11_create`
* `RingLib.C12_ensure_positive_w`
* `RingLib.C13_matrix_action`
* `RingLib.C13_matrix_is_rotation`
* `RingLib.C13_matrix_mul`
* `RingLib.C13_matrix_scale_invariant`
* `RingLib.C13_rotate_matrix`
* `RingLib.C13_from_to`
* `RingLib.C13_from_to_half_turn`
* `RingLib.C14_wrap`
* `RingLib.C14_wrap_eq_iff`
* `RingLib.C14_angle_error`
* `RingLib.C14_angle_error_laws`
* `RingLib.C14_angle_error_right_partial`
* `RingLib.C14_angle_error_right_fails`
* `RingLib.C15_rot_axis`
* `RingLib.C15_rot_axis_add`
* `RingLib.C15_rot_axis_degenerate`
* `RingLib.C15_round_trip`
* `RingLib.C15_round_trip_rotation`
* `RingLib.C15_round_trip_negligible`
* `RingLib.C16_decompose`
* `RingLib.C16_minimal`
* `RingLib.C16_residual_orthogonal`
* `RingLib.C16_transfer_heading`
* `RingLib.C16_transfer_heading_angles`
* `RingLib.C17_quat_euler_unit`
* `RingLib.C17_intrinsic_extrinsic`
* `RingLib.C17_euler_to_quat`
* `RingLib.C17_to_euler`
* `RingLib.C19_transform_as_matrix`
* `RingLib.C20_congruence`
* `RingLib.C20_congruence_unique`
* `RingLib.C20_energy`
* `RingLib.C20_compose`
* `RingLib.C20_additive`
* `RingLib.C21_energy_is_sum`
* `RingLib.C21_other_geoms_irrelevant`
* `RingLib.C21_energy_nonneg`
* `RingLib.C21_box_solid`
* `RingLib.C21_sphere_solid`
* `RingLib.C21_cylinder_solid`
* `RingLib.C21_capsule_solid`
* `RingLib.C22_forward`
* `RingLib.C22_path`
* `RingLib.C22_local`
* `RingLib.C22_rigid`
* `RingLib.C23_inverse`
* `RingLib.C23_unsupported_fails`
* `RingLib.C24_unzip`
* `RingLib.C24_zip_unzip`
* `RingLib.C24_unzip_zip`
* `RingLib.C24_delete_to_world`
* `RingLib.C24_match_xs`
* `RingLib.C24_match_missing`
* `RingLib.C24_xs_from_raw`
* `RingLib.C25_rel_pose`
* `RingLib.C26_torques`
* `RingLib.C26_columns`
* `RingLib.C26_newton_euler`
* `RingLib.C26_newton_euler_unique`
* `RingLib.C27_symmetric`
* `RingLib.C27_energy`
* `RingLib.C27_nonneg`
* `RingLib.C27_pos`
* `RingLib.C27_forward_dynamics`
* `RingLib.C28_strapdown_unit`
* `RingLib.C28_strapdown_zero`
* `RingLib.C28_strapdown_rotation`
* `RingLib.C28_semi_implicit`
* `RingLib.C28_step`
* `RingLib.C28_simulation`
* `RingLib.C29_quadratic`
* `RingLib.C29_monotone_partial`
* `RingLib.C29_limit`
* `RingLib.C29_monotone_fails`
* `RingLib.C29_converges_fails`
* `RingLib.C30_box_partial`
* `RingLib.C30_speed`
* `RingLib.C30_fails`
* `RingLib.C31_direction`
* `RingLib.C31_pi`
* `RingLib.C31_lower_partial`
* `RingLib.C31_rom_partial`
* `RingLib.C31_default_partial`
* `RingLib.C31_upper_fails`
* `RingLib.C32_angle_partial`
* `RingLib.C32_position_partial`
* `RingLib.C32_strict`
* `RingLib.C32_room_fails`
* `RingLib.C33_cos`
* `RingLib.C33_random`
* `RingLib.C33_reparametrisation`
* `RingLib.C33_left_fails`
* `RingLib.C34_replace`
* `RingLib.C34_fields_complete`
* `RingLib.C34_join_fails`
* `RingLib.C34_join_self_fails`
* `RingLib.C34_switch_partial`
* `RingLib.C34_rejects`
* `RingLib.generator.C35_positions`
* `RingLib.generator.C35_exact`
* `RingLib.sensors.C36_average`
* `RingLib.sensors.C36_average_rejects`
* `RingLib.sensors.C36_average_const`
* `RingLib.sensors.C36_average_linear`
* `RingLib.sensors.C36_delay`
* `RingLib.sensors.C36_delay_linear`
* `RingLib.sensors.C36_delay_const`
* `RingLib.sensors.C36_causal`
* `RingLib.sensors.C36_channels`
* `RingLib.sensors.C36_no_delay`
* `RingLib.sensors.C36_imu`
* `RingLib.sensors.C37_acc`
* `RingLib.sensors.C37_quadratic`
* `RingLib.sensors.C37_rest_acc`
* `RingLib.sensors.C37_short_fails`
* `RingLib.sensors.C37_gyr_first`
* `RingLib.sensors.C37_gyr_second`
* `RingLib.sensors.C37_rest_gyr`
* `RingLib.sensors.C37_rate_partial`
* `RingLib.sensors.C37_slow_fails`
* `RingLib.sensors.C38_gain`
* `RingLib.sensors.C38_length_partial`
* `RingLib.sensors.C38_short_fails`
* `RingLib.sensors.C38_const`
* `RingLib.sensors.C38_linear`
* `RingLib.sensors.C38_zero_phase`
* `RingLib.sensors.C38_quat_unit`
* `RingLib.sensors.C38_quat_const`
* `RingLib.sensors.C38_step`
* `RingLib.sensors.C38_alpha`
* `RingLib.sensors.C39_noise`
* `RingLib.sensors.C39_unknown`
* `RingLib.sensors.C39_identity`
* `RingLib.generator.C40_int_rejected`
* `RingLib.generator.C40_list_partial`
* `RingLib.generator.C40_list_rejected`
* `RingLib.generator.C40_list_fails`
* `RingLib.generator.C40_executions`
* `RingLib.generator.C40_split`
* `RingLib.generator.C40_to_list`
* `RingLib.generator.C40_succeeds`
* `RingLib.generator.C41_layout`
* `RingLib.generator.C41_fresh`
* `RingLib.generator.C41_to_lazy_gen`
* `RingLib.generator.C43_epochs`
* `RingLib.generator.C44_randomize_hz`
* `RingLib.generator.C44_unequal_fails`
* `RingLib.generator.C44_generator`
* `RingLib.generator.C44_rejected`
* `RingLib.sensors.C45_rel_pose`
* `RingLib.sensors.C45_root_incl`
* `RingLib.sensors.C45_root_full`
* `RingLib.generator.C45_names2indices`
* `RingLib.generator.C45_imu`
* `RingLib.sensors.C45_joint_axes`
* `RingLib.sensors.C45_hinge`
* `RingLib.generator.C45_pipeline`
* `RingLib.generator.C45_rootfull_fails`
* `RingLib.generator.C45_rename_partial`
* `RingLib.artifacts.C46_unactuated`
* `RingLib.artifacts.C46_inject_hide`
* `RingLib.artifacts.C46_geoms_fails`
* `RingLib.artifacts.C46_only_imus_fails`
* `RingLib.artifacts.C46_inject`
* `RingLib.utils.C47_primes`
* `RingLib.utils.C47_unique`
* `RingLib.utils.C48_union`
* `RingLib.utils.C48_no_overwrite`
* `RingLib.utils.C48_error`
* `RingLib.utils.C48_nested`
* `RingLib.utils.C49_partial`
* `RingLib.utils.C49_ends`
* `RingLib.utils.C49_rejected`
* `RingLib.utils.C49_hangs_fails`
* `RingLib.hdf5.C50_partial`
* `RingLib.hdf5.C50_rejected`
* `RingLib.hdf5.C50_order_fails`
* `RingLib.hdf5.C50_fields_fails`
* `RingLib.hdf5.Trees.C51_trees_partial`
* `RingLib.hdf5.Trees.C51_lengths_fails`
* `RingLib.hdf5.Trees.C51_structure`
* `RingLib.hdf5.Trees.C51_no_arrays`
* `RingLib.hdf5.Trees.C51_scalar`
* `RingLib.hdf5.C51_partial`
* `RingLib.hdf5.C51_out_of_range`
* `RingLib.FPath.C52_stem`
* `RingLib.utils.C52_extension`
* `RingLib.utils.C52_pickle`
* `RingLib.utils.C52_exists`
* `RingLib.utils.C52_overwrite`
* `RingLib.utils.C52_roundtrip`
* `RingLib.generator.C52_folder_fails`
* `RingLib.hdf5.C52_hdf5`
* `RingLib.utils.C53_tree_equal`
* `RingLib.utils.C53_sys_compare_partial`
* `RingLib.utils.C53_identical`
* `RingLib.utils.C53_different`
* `RingLib.utils.C53_order_partial`
* `RingLib.utils.C53_empty_fails`
* `RingLib.utils.C53_count_fails`
* `RingLib.utils.C53_kind_fails`
* `RingLib.utils.C53_order_fails`
* `RingLib.utils.C53_nan_fails`
* `RingLib.ml.C54_queue`
* `RingLib.ml.C54_last`
* `RingLib.ml.C54_tracked_partial`
* `RingLib.ml.C54_unevaluated_fails`
* `RingLib.ml.C55_partial`
* `RingLib.ml.C55_warmup_fails`
* `RingLib.ml.C55_counter_fails`
* `RingLib.ml.C56_grads_partial`
* `RingLib.ml.C56_window`
* `RingLib.ml.C56_first_fails`
* `RingLib.ml.C56_episode`
* `RingLib.ml.C57_record`
* `RingLib.ml.C57_run`
* `RingLib.ml.C57_after`
* `RingLib.ml.C57_seeds`
* `RingLib.ml.C58_relabel`
* `RingLib.ml.C58_step`
* `RingLib.ml.C58_cone`
* `RingLib.ml.C58_component`
* `RingLib.ml.C58_messages`
* `RingLib.ml.C58_cells`
* `RingLib.ml.C59_ring_single`
* `RingLib.ml.C59_ring_transparent`
* `RingLib.ml.C59_unbatched_transparent`
* `RingLib.ml.C59_tower`
* `RingLib.ml.C59_scale`
* `RingLib.ml.C59_scale10`
* `RingLib.ml.C59_scale_rejects`
* `RingLib.ml.C59_addTs`
* `RingLib.ml.C59_noGraph`
* `RingLib.ml.C59_heading`
* `RingLib.ml.C59_lpf`
* `RingLib.ml.C59_order_fails`
* `RingLib.ml.C59_scale_transparent`
* `RingLib.ml.C59_addTs_transparent`
* `RingLib.ml.C59_noGraph_transparent`
* `RingLib.ml.C59_heading_transparent`
* `RingLib.ml.C59_lpf_transparent`
* `RingLib.ml.C60_distinct_partial`
* `RingLib.ml.C60_partial`
* `RingLib.ml.C60_collision_fails`
* `RingLib.ml.C60_logged`
* `RingLib.jcalc.C61_success`
* `RingLib.jcalc.C61_exists`
* `RingLib.jcalc.C61_atomic_partial`
* `RingLib.jcalc.C61_others`
* `RingLib.jcalc.C61_atomic_fails`
* `RingLib.jcalc.C61_overwrite`
* `RingLib.jcalc.C61_overwrite_twice`
* `RingLib.jcalc.C61_note_fails`
* `RingLib.jcalc.C61_subsystem`
* `RingLib.jcalc.C61_subsystem_ok`
* `RingLib.jcalc.C61_history`
* `RingLib.jcalc.C61_initial`
* `RingLib.System.C62_init`
* `RingLib.System.C62_apply`
* `RingLib.System.C62_initial`
* `RingLib.System.C62_zero_error`
* `RingLib.System.C62_unroll`
* `RingLib.System.C62_lag`
* `RingLib.System.C62_gains`
* `RingLib.System.C62_dynsim`
* `RingLib.System.C62_unactuated`
* `RingLib.C63_rows`
* `RingLib.C63_frozen_fails`
* `RingLib.C64_config`
* `RingLib.C64_still_partial`
* `RingLib.C64_cor_fails`
* `RingLib.C65_draw_steps`
* `RingLib.C65_draw`
* `RingLib.C65_fresh`
* `RingLib.generator.C66_rotations`
* `RingLib.generator.C67_to_folder_partial`
* `RingLib.generator.C67_prefix_fails`
* `RingLib.ml.C68_average`
* `RingLib.ml.C68_eval`
* `RingLib.ml.C68_taken`
* `RingLib.sensors.C69_magvec`
* `RingLib.sensors.C69_natural_units`
* `RingLib.sensors.C69_quasi_const`
* `RingLib.sensors.C69_quasi_linear`
* `RingLib.sensors.C69_imu`
* `RingLib.sensors.C69_ideal`
* `RingLib.sensors.C69_orientation`
* `RingLib.io.C70_defaults`
* `RingLib.io.C70_missing`
* `RingLib.artifacts.C71_randomize`
* `RingLib.artifacts.C71_refused`
* `RingLib.morph.C72_resting`
* `RingLib.morph.C72_reverse`
* `RingLib.morph.C72_reach`
* `RingLib.morph.C72_several_roots_fails`
* `RingLib.morph.C72_motion`
* `RingLib.morph.C72_geoms`
* `RingLib.morph.C72_morph`
* `RingLib.morph.C72_anchor`
* `RingLib.morph.C72_rest`
* `RingLib.morph.C72_joints`
* `RingLib.morph.C72_refuses`
* `RingLib.randomize.C73_anchors`
* `RingLib.randomize.C73_rest`
* `RingLib.randomize.C73_unknown`
* `RingLib.randomize.C73_world_geoms_fails`
* `RingLib.C74_randomize_partial`
* `RingLib.C74_randomize_roots`
* `RingLib.C74_rate_fails`
* `RingLib.C74_scale_xs`
* `RingLib.C74_refused`
* `RingLib.C74_one`
* `RingLib.C74_zero`
* `RingLib.C74_compose`
* `RingLib.C74_kinematics_partial`
* `RingLib.C74_default`
* `RingLib.C74_other_joints_fails`
* `RingLib.C74_large_angle_fails`
* `RingLib.C74_half_turn_fails`
* `RingLib.C75_gen`
* `RingLib.C75_sequences`
* `RingLib.C75_fresh`
* `RingLib.C75_setup_keys`
* `RingLib.C75_setup_fresh`
* `RingLib.C75_outputs`
* `RingLib.C75_simulated`
* `RingLib.C75_test_system`
* `RingLib.C75_build`
* `RingLib.C75_build_default`
* `RingLib.C75_finalize_fn_rejected`
* `RingLib.C75_lengths_rejected`
* `RingLib.C76_batched`
* `RingLib.C76_unbatched`
* `RingLib.C76_only_segments`
* `RingLib.C76_all_or_none`
* `RingLib.C76_dt_fails`
* `RingLib.C76_dt_single_fails`
* `RingLib.C76_factory`
* `RingLib.C76_factory_twice`
* `RingLib.C76_again`
* `RingLib.generator.C76_generator`
* `RingLib.System.C77_single`
* `RingLib.System.C77_default`
* `RingLib.System.C77_best`
* `RingLib.System.C77_residual`
* `RingLib.System.C77_sign`
* `RingLib.System.C77_descent`
* `RingLib.System.C77_value`
* `RingLib.System.C77_arguments`
* `RingLib.System.C77_zero_fails`
* `RingLib.System.C77_diverged_fails`
* `RingLib.C78_free_fall`
* `RingLib.C78_release`
* `RingLib.C78_falls_partial`
* `RingLib.C78_falls_fails`
* `RingLib.C78_plain`
* `RingLib.C78_free`
* `RingLib.C78_free_2d`
* `RingLib.C78_cor`
* `RingLib.C78_saddle`
* `RingLib.C78_free_partial`
* `RingLib.C78_free_2d_partial`
* `RingLib.C78_cor_partial`
* `RingLib.C78_saddle_partial`
* `RingLib.C78_free_fails`
* `RingLib.C78_free_2d_fails`
* `RingLib.C78_cor_fails`
* `RingLib.C78_saddle_fails`
* `RingLib.C78_tree`
* `RingLib.C78_link_velocity`
* `RingLib.C78_integrator`
* `RingLib.C78_integrator_turn`
* `RingLib.C79_register`
* `RingLib.C79_rr_axis`
* `RingLib.C79_rr_imp_axes`
* `RingLib.C79_rsaddle_axes`
* `RingLib.C79_params`
* `RingLib.C79_rr_transform`
* `RingLib.C79_rr_imp_ideal`
* `RingLib.C79_rr_imp_tilt`
* `RingLib.C79_rr`
* `RingLib.C79_rr_imp`
* `RingLib.C79_rsaddle`
* `RingLib.C79_rr_imp_partial`
* `RingLib.C79_rr_imp_error`
* `RingLib.C79_rsaddle_partial`
* `RingLib.C79_rr_imp_fails`
* `RingLib.C79_rsaddle_fails`
* `RingLib.C79_draw_partial`
* `RingLib.C79_draw_fails`
* `RingLib.C79_no_coordinates`
* `RingLib.C79_no_inv_kin`
* `RingLib.C79_no_inverse`
* `RingLib.C80_restrict`
* `RingLib.C80_minmax`
* `RingLib.C80_clip`
* `RingLib.C80_method`
* `RingLib.C80_gp`
* `RingLib.C80_gp_covariance`
* `RingLib.C80_poly`
* `RingLib.C80_poly_centred`
* `RingLib.C80_mlp`
* `RingLib.C80_centred_fails`
* `RingLib.C80_constant_fails`
* `RingLib.C80_constant`
* `RingLib.C80_centre_first`
* `RingLib.C80_centre_fails`
* `RingLib.C80_scale`
* `RingLib.C80_params`
* `RingLib.C80_ranges`
* `RingLib.C80_rotation`
* `RingLib.C80_rotation_matrix`
* `RingLib.C80_transform`
* `RingLib.C80_transform_fails`
* `RingLib.C80_angles`
* `RingLib.C80_translations`
* `RingLib.C80_home`
* `RingLib.C80_motion`
* `RingLib.C80_motion_fails`
* `RingLib.C80_draw_partial`
* `RingLib.C80_draw_fails`
* `RingLib.C80_coords`
* `RingLib.C80_coords_clip`
* `RingLib.C80_coords_fails`
* `RingLib.C80_register`
* `RingLib.C80_find`
* `RingLib.C80_order`
* `RingLib.C80_sigmoid`
* `RingLib.C80_clamp`
* `RingLib.C81_torch`
* `RingLib.C81_torch_once`
* `RingLib.C81_dataset`
* `RingLib.C81_element`
* `RingLib.C81_pairing_partial`
* `RingLib.C81_pairing_fails`
* `RingLib.C81_foreign_fails`
* `RingLib.C81_roundtrip`
* `RingLib.C81_eager`
* `RingLib.C81_torch_transform`
* `RingLib.C81_pytorch`
* `RingLib.C81_folder`
* `RingLib.C81_seed_fails`
* `RingLib.C82_sample`
* `RingLib.C82_sample_none`
* `RingLib.C82_statistics`
* `RingLib.C82_normalized`
* `RingLib.C82_normalizer`
* `RingLib.C82_standardized`
* `RingLib.C82_affine`
* `RingLib.C82_constant_fails`
* `RingLib.ml.C83_name`
* `RingLib.ml.C83_nojit`
* `RingLib.ml.C83_roundtrip`
* `RingLib.ml.C83_name_fails`
* `RingLib.ml.C83_plain_fails`
* `RingLib.ml.C83_class_fails`
* `RingLib.ml.C83_search`
* `RingLib.ml.C83_unwrapped`
* `RingLib.ml.C84_series`
* `RingLib.ml.C84_series_partial`
* `RingLib.ml.C84_series_fails`
* `RingLib.ml.C84_logs_fails`
* `RingLib.ml.C84_logs_none`
* `RingLib.ml.C84_saved_partial`
* `RingLib.ml.C84_dots_fails`
* `RingLib.ml.C84_exists_fails`
* `RingLib.ml.C84_checkpoint_none`
* `RingLib.ml.C84_checkpoint`
* `RingLib.ml.C84_checkpoint_fails`
* `RingLib.ml.C84_close_fails`
* `RingLib.ml.C85_step`
* `RingLib.ml.C85_updates`
* `RingLib.ml.C85_devices`
* `RingLib.ml.C85_short_fails`
* `RingLib.ml.C85_divide_fails`
* `RingLib.ml.C85_batchsize_fails`
* `RingLib.ml.C85_eval_partial`
* `RingLib.ml.C85_eval_fails`
* `RingLib.ml.C85_links_partial`
* `RingLib.ml.C85_links_default`
* `RingLib.ml.C85_links_fails`
* `RingLib.ml.C86_start`
* `RingLib.ml.C86_order`
* `RingLib.ml.C86_tracked`
* `RingLib.ml.C86_history`
* `RingLib.ml.C86_run`
* `RingLib.ml.C86_params`
* `RingLib.ml.C86_params_default`
* `RingLib.ml.C86_resume`
* `RingLib.ml.C86_resume_fails`
* `RingLib.ml.C86_track_fails`
* `RingLib.ml.C86_none_fails`
* `RingLib.ml.C86_share_fails`
* `RingLib.ml.C86_exception_fails`
* `RingLib.ml.C86_loggers`
* `RingLib.ml.C86_default_fails`
* `RingLib.ml.C86_limit`
* `RingLib.ml.C86_whole`
* `RingLib.C87_unit_vectors`
* `RingLib.C87_group`
* `RingLib.C87_quat`
* `RingLib.C87_plucker`
* `RingLib.C87_euler`
* `RingLib.C87_XtoV_value`
* `RingLib.C87_XtoV_invariant`
* `RingLib.C87_XtoV_velocity`
* `RingLib.C87_XtoV_half_turn`
* `RingLib.C87_XtoV_axis`
* `RingLib.C87_arccos`
* `RingLib.C87_arcsin_partial`
* `RingLib.C87_arcsin_fails`
* `RingLib.C87_to_euler_fails`
* `RingLib.C87_unit_quats`
* `RingLib.C88_avg`
* `RingLib.C88_avg_sign`
* `RingLib.C88_avg_equal`
* `RingLib.C88_constant_axis`
* `RingLib.C88_constant_axis_lost`
* `RingLib.C88_constant_axis_fails`
* `RingLib.ml.C89_lstm`
* `RingLib.ml.C89_lstm_bounds`
* `RingLib.ml.C89_lstm_sequence`
* `RingLib.ml.C89_cell`
* `RingLib.ml.C89_step`
* `RingLib.ml.C89_load_params`
* `RingLib.ml.C90_ring_100Hz`
* `RingLib.ml.C90_ring_Ts`
* `RingLib.ml.C90_ring_None`
* `RingLib.ml.C90_ring_batch`
* `RingLib.ml.C90_warning`
* `RingLib.ml.C90_keywords`
* `RingLib.ml.C90_misspelt_fails`
* `RingLib.ml.C90_quickstart_fails`
* `RingLib.ml.C90_rnno_kwargs`
* `RingLib.ml.C90_rnno_quats`
* `RingLib.ml.C90_rnno_plain`
* `RingLib.ml.C90_rnno_batch`
* `RingLib.ml.C90_rnno_default_fails`
* `RingLib.ml.C90_rnno_truth`
* `RingLib.saddle.C91_episode`
* `RingLib.saddle.C91_beyond`
* `RingLib.saddle.C91_scale`
* `RingLib.saddle.C91_info_is_target`
* `RingLib.saddle.C91_last_never_scored`
* `RingLib.saddle.C91_seed`
* `RingLib.saddle.C91_picture`
* `RingLib.saddle.C91_zero_action_fails`
* `RingLib.saddle.C91_stale_action_fails`
* `RingLib.saddle.C91_picture_lags_fails`
* `RingLib.saddle.C91_short_fails`
* `RingLib.ml.C92_schedule`
* `RingLib.ml.C92_schedule_twice`
* `RingLib.ml.C92_no_steps`
* `RingLib.ml.C92_clip`
* `RingLib.ml.C92_scale`
* `RingLib.ml.C92_nan_spreads`
* `RingLib.ml.C92_infinity`
* `RingLib.ml.C92_training`
* `RingLib.ml.C92_one_step_fails`
* `RingLib.ml.C92_odd_steps_fails`
* `RingLib.ml.C92_warmup_nan_fails`
* `RingLib.rendering.C93_printed`
* `RingLib.rendering.C93_small_fails`
* `RingLib.rendering.C93_mujoco_pose`
* `RingLib.rendering.C93_vispy_pose`
* `RingLib.rendering.C93_backends_agree`
* `RingLib.rendering.C93_mujoco_box_sphere`
* `RingLib.rendering.C93_mujoco_long`
* `RingLib.rendering.C93_mujoco_axis_fails`
* `RingLib.rendering.C93_box_mesh`
* `RingLib.rendering.C93_box_edges`
* `RingLib.rendering.C93_vispy_box`
* `RingLib.rendering.C93_vispy_box_fails`
* `RingLib.rendering.C93_capsule_surface`
* `RingLib.rendering.C93_capsule_ends`
* `RingLib.rendering.C93_capsule_faces`
* `RingLib.rendering.C93_capsule_length_fails`
* `RingLib.rendering.C93_xyz`
* `RingLib.rendering.C93_replace`
* `RingLib.rendering.C93_color`
* `RingLib.rendering.C93_bodies`
* `RingLib.rendering.C93_cameras`
* `RingLib.rendering.C93_target`
* `RingLib.rendering.C93_no_geoms_fails`
* `RingLib.rendering.C94_every_nth`
* `RingLib.rendering.C94_render`
* `RingLib.rendering.C94_scene`
* `RingLib.rendering.C94_check`
* `RingLib.rendering.C94_reuse`
* `RingLib.rendering.C94_after_error_fails`
* `RingLib.rendering.C94_vispy_backend_fails`
* `RingLib.rendering.C94_mujoco_overwrites`
* `RingLib.rendering.C94_mujoco_poses`
* `RingLib.rendering.C95_drawn`
* `RingLib.rendering.C95_array`
* `RingLib.rendering.C95_exact`
* `RingLib.rendering.C95_lengths`
* `RingLib.rendering.C95_missing`
* `RingLib.rendering.C95_rel_pose_fails`
* `RingLib.rendering.C95_bodies`
* `RingLib.rendering.C95_names_taken`
* `RingLib.rendering.C95_world_fails`
* `RingLib.rendering.C95_render`
* `RingLib.rendering.C95_child_to_parent_fails`
* `RingLib.sensors.C96_follows`
* `RingLib.sensors.C96_bounded`
* `RingLib.sensors.C96_boundary_fails`
* `RingLib.sensors.C96_settles`
* `RingLib.sensors.C96_rate`
* `RingLib.sensors.C96_rest`
* `RingLib.sensors.C96_ahead`
* `RingLib.sensors.C96_diverges_fails`
* `RingLib.sensors.C96_distance`
* `RingLib.rendering.C97_drawn`
* `RingLib.rendering.C97_update_twice`
* `RingLib.rendering.C97_options`
* `RingLib.rendering.C97_switches`
* `RingLib.rendering.C97_show_cs_root_fails`
* `RingLib.rendering.C97_roots_pile_up_fails`
* `RingLib.rendering.C97_root_stays_fails`
* `RingLib.rendering.C97_render`
* `RingLib.rendering.C97_colours`
* `RingLib.rendering.C97_solids`
* `RingLib.rendering.C97_cylinder_edges_fails`
* `RingLib.rendering.C97_no_geom_fails`
* `RingLib.rendering.C97_after_error_fails`
* `RingLib.rendering.C97_to_list`
* `RingLib.io.C98_load`
* `RingLib.io.C98_create_file`
* `RingLib.io.C98_create_text_partial`
* `RingLib.io.C98_loading_keeps`
* `RingLib.io.C98_saving_keeps`
* `RingLib.io.C98_roundtrip_partial`
* `RingLib.io.C98_extension_fails`
* `RingLib.io.C98_home_fails`
* `RingLib.io.C98_seed_fails`
* `RingLib.io.C98_suffix_fails`
* `RingLib.io.C98_empty_fails`
* `RingLib.io.C98_mkdir_fails`
* `RingLib.io.C99_comments`
* `RingLib.io.C99_file`
* `RingLib.io.C99_space_fails`
* `RingLib.io.C99_equals_fails`
* `RingLib.io.C99_examples_partial`
* `RingLib.io.C99_load_examples`
* `RingLib.io.C99_other_files_fails`
* `RingLib.ml.C100_value_partial`
* `RingLib.ml.C100_default`
* `RingLib.ml.C100_devices_partial`
* `RingLib.ml.C100_unbatched`
* `RingLib.ml.C100_divide_fails`
* `RingLib.ml.C100_lengths`
* `RingLib.ml.C100_links_mismatch`
* `RingLib.ml.C100_names_fails`
* `RingLib.ml.C100_coupled_fails`
* `RingLib.base.C101_len`
* `RingLib.base.C101_take_partial`
* `RingLib.base.C101_take_fails`
* `RingLib.base.C101_takes_partial`
* `RingLib.base.C101_slice`
* `RingLib.base.C101_slice_last`
* `RingLib.base.C101_concatenate`
* `RingLib.base.C101_batch`
* `RingLib.base.C101_vstack_entries`
* `RingLib.base.C101_vstack_batches`
* `RingLib.base.C101_repeat`
* `RingLib.base.C101_index_set_partial`
* `RingLib.base.C101_index_sum_partial`
* `RingLib.base.C101_index_set_fails`
* `RingLib.base.C101_add_sub`
* `RingLib.base.C101_squeeze_one`
* `RingLib.base.C101_reshape_fails`
* `RingLib.base.C101_hstack_fails`
* `RingLib.deepcopy.C102_keeps`
* `RingLib.deepcopy.C102_like`
* `RingLib.deepcopy.C102_same_partial`
* `RingLib.deepcopy.C102_fresh_partial`
* `RingLib.deepcopy.C102_unshared`
* `RingLib.deepcopy.C102_frame_partial`
* `RingLib.deepcopy.C102_total_partial`
* `RingLib.deepcopy.C102_namedtuple_fails`
* `RingLib.deepcopy.C102_base_fails`
* `RingLib.package.C103_joints`
* `RingLib.package.C103_undone_fails`
* `RingLib.package.C104_flags_partial`
* `RingLib.package.C104_unset`
* `RingLib.package.C104_number_partial`
* `RingLib.package.C104_twice_partial`
* `RingLib.package.C104_inside_fails`
* `RingLib.ml.C105_rows_partial`
* `RingLib.ml.C105_step_fails`
* `RingLib.ml.C105_online`
* `RingLib.ml.C105_offline`
* `RingLib.ml.C105_missing_fails`
* `RingLib.ml.C105_name_fails`
* `RingLib.ml.C105_command_partial`
* `RingLib.ml.C105_command_fails`
* `RingLib.ml.C105_environment_partial`
* `RingLib.ml.C105_no_run_fails`
* `RingLib.generator.C106_folder_partial`
* `RingLib.generator.C106_folder`
* `RingLib.generator.C106_nan_fails`
* `RingLib.generator.C106_all_nan_fails`
* `RingLib.generator.C106_pickle`
* `RingLib.generator.C106_pickle_kept`
* `RingLib.generator.C106_eager`
* `RingLib.C107_step`
* `RingLib.C107_hangs`
* `RingLib.C107_explodes_fails`
* `RingLib.sensors.C107_settles`
* `RingLib.sensors.C107_rate`
* `RingLib.sensors.C107_rest`
* `RingLib.sensors.C107_agree_fails`
* `RingLib.sensors.C107_diverges_fails`
* `RingLib.sensors.C107_loaded`
* `RingLib.ml.C108_names`
* `RingLib.ml.C108_stored`
* `RingLib.ml.C108_number`
* `RingLib.ml.C108_validated`
* `RingLib.ml.C108_passes`
* `RingLib.ml.C108_broadcast`
* `RingLib.ml.C108_single_rows`
* `RingLib.ml.C108_single_fails`
* `RingLib.ml.C108_fewer_fails`
* `RingLib.ml.C108_tf_fails`
* `RingLib.jcalc.C109_feasible`
* `RingLib.jcalc.C109_register`
* `RingLib.jcalc.C109_names`
* `RingLib.jcalc.C109_draw`
* `RingLib.jcalc.C109_later_fails`
* `RingLib.jcalc.C109_overwrites_fails`
* `RingLib.jcalc.C109_nomotion_fails`
* `RingLib.generator.C110_received`
* `RingLib.generator.C110_all`
* `RingLib.generator.C110_again`
* `RingLib.generator.C110_refused`
* `RingLib.generator.C110_uncopied_fails`
* `RingLib.C111_accelerations`
* `RingLib.C111_power`
* `RingLib.C111_balance`
* `RingLib.C111_conserved`
* `RingLib.C111_forward`
* `RingLib.C111_springs`
* `RingLib.C111_dampers`
* `RingLib.C111_dissipates`
* `RingLib.C112_poses`
* `RingLib.C112_dynamics`
* `RingLib.C112_step`
* `RingLib.C112_simulation`
* `RingLib.C112_sensors`
* `RingLib.C113_consistent`
* `RingLib.C113_energy`
* `RingLib.C113_exists`
* `RingLib.C114_poses`
* `RingLib.C114_dynamics_partial`
* `RingLib.C114_step_partial`
* `RingLib.C114_simulation_partial`
* `RingLib.C114_approximate_fails`
* `RingLib.C115_cache`
* `RingLib.C115_split`
* `RingLib.C115_lag`
* `RingLib.C116_delete`
* `RingLib.C116_delete_list`
* `RingLib.C116_noimu`
* `RingLib.C116_inject`
* `RingLib.C117_poses`
* `RingLib.C117_torques`
* `RingLib.C117_mass_matrix`
* `RingLib.C118_speed`
* `RingLib.C118_energy`
* `RingLib.C118_weight`
* `RingLib.C118_rest`
* `RingLib.C119_torques`
* `RingLib.C119_mass_matrix`
* `RingLib.C119_energy`
* `RingLib.C119_motion`
* `RingLib.C119_simulation`
* `RingLib.C119_millionth`
* `RingLib.C119_plain_fails`
* `RingLib.C120_accelerations`
* `RingLib.C120_simulation`

## propext, Quot.sound (65 theorems)

* `RingLib.C01_wrong_length`
* `RingLib.C02_world`
* `RingLib.morph.C06_checks`
* `RingLib.C10_subsystem_order`
* `RingLib.C12_quat_mul_assoc`
* `RingLib.C12_quat_mul_bilinear`
* `RingLib.C12_norm_multiplicative`
* `RingLib.C12_unit_closed`
* `RingLib.C12_rotate_linear`
* `RingLib.C12_rotate_mul`
* `RingLib.C12_rotate_inv`
* `RingLib.C12_rotate_isometry`
* `RingLib.C12_rotate_neg`
* `RingLib.C12_rotate_sense`
* `RingLib.C12_rotate_quat`
* `RingLib.C18_mul_assoc`
* `RingLib.C18_mul_zero`
* `RingLib.C18_inv`
* `RingLib.C18_unit_closed`
* `RingLib.C18_point`
* `RingLib.C18_motion_mul`
* `RingLib.C18_motion_is_velocity`
* `RingLib.C18_move_into_frame`
* `RingLib.C19_power`
* `RingLib.C19_power_unique`
* `RingLib.C19_motion_cross`
* `RingLib.C19_cross_star_adjoint`
* `RingLib.C19_motion_cross_star`
* `RingLib.C19_motion_cross_lie`
* `RingLib.C19_X_transform`
* `RingLib.C19_X_transform_as_matrix`
* `RingLib.C20_mass`
* `RingLib.C20_mcI`
* `RingLib.C20_create_matrix`
* `RingLib.C21_mass_and_com`
* `RingLib.C21_order_independent`
* `RingLib.C21_symmetric`
* `RingLib.C25_child_to_parent`
* `RingLib.C25_invariant`
* `RingLib.generator.C40_int`
* `RingLib.utils.C42_distribute`
* `RingLib.utils.C42_expand_merge`
* `RingLib.utils.C42_merge_expand`
* `RingLib.generator.C43_once`
* `RingLib.generator.C43_too_large`
* `RingLib.utils.C47_gcd`
* `RingLib.ml.C54_zero_fails`
* `RingLib.ml.C56_nan`
* `RingLib.ml.C57_keys`
* `RingLib.ml.C58_shape`
* `RingLib.C81_torch_none`
* `RingLib.ml.C85_chunks`
* `RingLib.ml.C85_length_fails`
* `RingLib.ml.C85_carry`
* `RingLib.ml.C89_shape`
* `RingLib.ml.C89_bodies`
* `RingLib.ml.C89_chunks`
* `RingLib.ml.C89_causal`
* `RingLib.base.C101_scale`
* `RingLib.base.C101_T_fails`
* `RingLib.base.C101_squeeze_fails`
* `RingLib.base.C101_transform_create`
* `RingLib.base.C101_motion_create_fails`
* `RingLib.generator.C110_unchanged`
* `RingLib.generator.C110_writes`

## propext (28 theorems)

* `RingLib.C12_quat_mul_unit`
* `RingLib.C12_hamilton_rules`
* `RingLib.C12_quat_inv`
* `RingLib.C12_quat_inv_mul`
* `RingLib.C19_crm_crf`
* `RingLib.C20_as_matrix`
* `RingLib.utils.C42_product`
* `RingLib.generator.C42_thresholds`
* `RingLib.generator.C45_rename_fails`
* `RingLib.utils.C48_overwrite_leaf_fails`
* `RingLib.hdf5.Trees.C51_namedtuple_fails`
* `RingLib.hdf5.C51_order_fails`
* `RingLib.hdf5.C51_repeated_fails`
* `RingLib.ml.C56_episode_exact`
* `RingLib.ml.C58_two_chunks`
* `RingLib.ml.C58_chunks`
* `RingLib.ml.C58_message`
* `RingLib.C81_backend`
* `RingLib.ml.C84_n_params`
* `RingLib.ml.C84_upload`
* `RingLib.ml.C84_warning_fails`
* `RingLib.ml.C84_close`
* `RingLib.io.C98_expanduser`
* `RingLib.io.C98_rename`
* `RingLib.deepcopy.C102_text_fails`
* `RingLib.deepcopy.C102_cycle_fails`
* `RingLib.package.C103_history`
* `RingLib.generator.C110_nested_fails`

## none (4 theorems)

* `RingLib.C81_grain_none_fails`
* `RingLib.base.C101_iter`
* `RingLib.base.C101_motion_create`
* `RingLib.ml.C108_exchanged_fails`
