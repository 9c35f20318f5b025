# Which code is modelled

Generated by `tools/coverage.py` from the line citations in `lean/Verif/Model`. For every function of the
package: the model definitions that cite lines of it. A dash means that the function is not modelled.

572 of 648 functions and methods are cited.

## src/ring/__init__.py

| function | lines | model |
|---|---|---|
| `RING` | 23-114 | `Factories.ringConfig`, `Factories.rateWarning`, `Factories.ringParams`, `Factories.ringWrap`, `Factories.ringFactory` |
| `setup` | 121-158 | `Package.registerIf`, `Package.setup` |

## src/ring/algebra.py

| function | lines | model |
|---|---|---|
| `inertia_mul_motion` | 7-10 | `Algebra.inertia_mul_motion` |
| `motion_dot` | 13-14 | `Algebra.motion_dot` |
| `motion_cross` | 17-20 | `Algebra.motion_cross` |
| `motion_cross_star` | 23-26 | `Algebra.motion_cross_star` |
| `transform_mul` | 29-38 | `Algebra.transform_mul` |
| `transform_inv` | 41-45 | `Algebra.transform_inv` |
| `transform_move_into_frame` | 48-61 | `Algebra.transform_move_into_frame` |
| `transform_motion` | 64-73 | `Algebra.transform_motion` |
| `transform_force` | 76-85 | `Algebra.transform_force` |
| `transform_inertia` | 88-100 | `Algebra.transform_inertia` |

## src/ring/algorithms/_random.py

| function | lines | model |
|---|---|---|
| `_to_float` | 14-17 | `MotionConfig.TDF.at` |
| `random_angle_over_time` | 21-117 | `Random.resample`, `Random.ang_body`, `Random.angle_knots`, `Random.random_angle_over_time` |
| `random_position_over_time` | 121-238 | `Random.resample`, `Random.pos_body_inner`, `Random.pos_accept`, `Random.pos_cond_inner`, `Random.pos_body`, `Random.position_knots` and 1 more |
| `_warn_huge_preallocation` | 244-252 | – |
| `_clip_to_pi` | 255-256 | `Random._clip_to_pi` |
| `_resolve_range_of_motion` | 259-347 | `Random.rom_prob`, `Random._next_phi`, `Random.rom_body`, `Random.rom_cond`, `Random._resolve_range_of_motion` |
| `cosInterpolate` | 350-361 | `Random.cos_interpolate`, `Random.cosInterpolate` |
| `_biject_alpha` | 364-368 | `Random._biject_alpha` |
| `_generate_cdf` | 371-404 | `Random._generate_cdf` |
| `interpolate` | 407-439 | `Random.two_point_interp`, `Random.interpolate` |

## src/ring/algorithms/custom_joints/rr_imp_joint.py

| function | lines | model |
|---|---|---|
| `register_rr_imp_joint` | 13-59 | `CustomJoints._rr_imp_transform`, `CustomJoints.centred`, `CustomJoints._draw_rr_imp`, `CustomJoints._rr_imp_motion`, `CustomJoints.rr_imp_model`, `CustomJoints.register_rr_imp_joint` and 1 more |
| `_draw_random_joint_axes` | 62-70 | `CustomJoints._draw_rr_imp_axes` |

## src/ring/algorithms/custom_joints/rr_joint.py

| function | lines | model |
|---|---|---|
| `register_rr_joint` | 9-29 | `CustomJoints._rr_transform`, `CustomJoints._rr_motion`, `CustomJoints.rr_model`, `CustomJoints.register_rr_joint`, `Package.JointReg` |
| `_draw_random_joint_axis` | 32-33 | `CustomJoints._draw_random_joint_axis` |

## src/ring/algorithms/custom_joints/rsaddle_joint.py

| function | lines | model |
|---|---|---|
| `register_rsaddle_joint` | 10-34 | `CustomJoints._rsaddle_transform`, `CustomJoints._rsaddle_motion`, `CustomJoints.rsaddle_model`, `CustomJoints.register_rsaddle_joint`, `Package.JointReg` |
| `_draw_random_joint_axes` | 37-40 | `CustomJoints._draw_rsaddle_axes` |

## src/ring/algorithms/custom_joints/suntay.py

| function | lines | model |
|---|---|---|
| `deg2rad` | 28-29 | `Suntay.deg2rad` |
| `GP_DrawFnPair` | 32-57 | `Suntay.GP_DrawFnPair` |
| `register_suntay` | 90-295 | `Package.JointReg`, `Suntay.draw_fn_pairs`, `Suntay._suntay_rotation_matrix_R_transpose_eq26`, `Suntay._suntay_translation_vector_H_eq9`, `Suntay._alpha_beta_gamma_S`, `Suntay._utils_find_suntay_joint` and 9 more |
| `_scale_delta` | 298-306 | `Suntay._scale_delta` |
| `Polynomial_DrawnFnPair` | 309-383 | `Suntay._apply_poly_factors`, `Suntay.powersOf`, `Suntay.centreOf`, `Suntay.poly_init`, `Suntay.poly_apply`, `Suntay.centredFn` and 1 more |
| `ConstantValue_DrawnFnPair` | 386-399 | `Suntay.ConstantValue_DrawnFnPair` |
| `MLP_DrawnFnPair` | 402-450 | `Suntay.MLP_DrawnFnPair` |
| `_gp_draw_and_rom` | 453-458 | `Suntay._gp_draw_and_rom` |
| `_gp_draw` | 461-467 | `Suntay._gp_draw` |
| `_gp_K` | 470-477 | `Suntay._gp_K` |
| `_rbf_kernel` | 480-481 | `Suntay._rbf_kernel` |
| `_shift` | 484-485 | `Suntay._shift` |
| `_shift_inv` | 488-489 | `Suntay._shift_inv` |
| `_normalize` | 492-501 | `Suntay.lowest`, `Suntay.highest`, `Suntay._normalize` |
| `_smoothclamp` | 504-507 | `Suntay._smoothclamp` |
| `_sigmoidclamp` | 510-513 | `Suntay._sigmoidclamp` |
| `restrict` | 516-546 | `Suntay.Method.ofName`, `Suntay.restrict` |

## src/ring/algorithms/dynamics.py

| function | lines | model |
|---|---|---|
| `inverse_dynamics` | 14-75 | `Dynamics.DynDicts`, `Dynamics.link_vel_acc`, `Dynamics.forward_scan`, `Dynamics.backwards_scan`, `Dynamics.inverse_dynamics` |
| `compute_mass_matrix` | 78-178 | `Dynamics.accumulate_inertias`, `Dynamics._jcalc_motion_matrix`, `Dynamics.transform_force6`, `Dynamics.populate_loop`, `Dynamics.populate_H`, `Dynamics.fill_upper` and 1 more |
| `_quaternion_spring_force` | 181-185 | `Dynamics._quaternion_spring_force` |
| `_spring_force` | 188-210 | `Dynamics._calc_spring_force_per_link`, `Dynamics._spring_force` |
| `forward_dynamics` | 213-247 | `Dynamics.mass_mat_inv`, `Dynamics.forward_dynamics` |
| `_strapdown_integration` | 250-258 | `Dynamics._strapdown_integration` |
| `_semi_implicit_euler_integration` | 261-287 | `Dynamics.q_integrate`, `Dynamics._semi_implicit_euler_integration` |
| `kinetic_energy` | 295-297 | `Dynamics.kinetic_energy` |
| `step` | 300-324 | `Dynamics.step_loop`, `Dynamics.step` |
| `_inv_approximate` | 327-352 | `Dynamics.inv_approximate_body`, `Dynamics.inv_approximate_start`, `Dynamics._inv_approximate` |

## src/ring/algorithms/generator/base.py

| function | lines | model |
|---|---|---|
| `RCMG.__init__` | 25-101 | `CopyDicts.buildAll`, `Rcmg.RCMG` |
| `RCMG._compute_repeats` | 103-132 | `Batch._compute_repeats` |
| `RCMG.to_lazy_gen` | 134-137 | `Batch.to_lazy_gen` |
| `RCMG._number_of_executions_required` | 140-151 | `Batch.executionsLoop`, `Batch._number_of_executions_required` |
| `RCMG._generators_ncalls` | 153-173 | `Batch.ncall`, `Batch._generators_ncalls` |
| `RCMG.to_list` | 175-185 | `Batch.to_list`, `Exports.callbackCalls` |
| `RCMG.to_folder` | 187-213 | `Exports.callbackCalls`, `Exports.folderCalls`, `Exports.to_folder_of`, `Files.toFolderLoop`, `Files.to_folder`, `Files.default_save_fn` |
| `RCMG.to_pickle` | 215-223 | `Exports.to_pickle` |
| `RCMG.to_eager_gen` | 225-235 | `Exports.to_eager_gen` |
| `RCMG.eager_gen_from_list` | 238-261 | `Batch.eagerStep`, `Batch.eager_gen_from_list` |
| `_copy_dicts` | 264-271 | `CopyDicts._copy`, `CopyDicts.copyKwargs`, `CopyDicts._copy_dicts` |
| `_build_mconfig_batched_generator` | 275-422 | `CopyDicts.buildOptions`, `Finalize.FinalizeOpts`, `Finalize.sysNoImu`, `Finalize.axesStage`, `Finalize.relStage`, `Finalize.inclStage` and 19 more |
| `draw_random_q` | 425-470 | `DrawQ.draw_q`, `DrawQ.draw_random_q` |

## src/ring/algorithms/generator/batch.py

| function | lines | model |
|---|---|---|
| `_build_batch_matrix` | 13-17 | `Batch._build_batch_matrix` |
| `generators_lazy` | 20-52 | `Batch.switchRow`, `Batch.lazyRun`, `Batch.generators_lazy` |
| `generators_eager` | 55-86 | `Batch.eagerCalls`, `Batch.generators_eager` |

## src/ring/algorithms/generator/finalize_fns.py

| function | lines | model |
|---|---|---|
| `FinalizeFn.__init__` | 17-18 | `Finalize.FinalizeFn` |
| `FinalizeFn.__call__` | 20-26 | `Finalize.FinalizeFn` |
| `_rename_links` | 29-39 | `Utils.renameStep`, `Utils._rename_links` |
| `Names2Indices.__init__` | 43-44 | `Finalize.namesStage`, `Utils.Names2Indices` |
| `Names2Indices.__call__` | 46-50 | `Finalize.namesStage`, `Utils.Names2Indices` |
| `JointAxisSensor.__init__` | 54-56 | `Finalize.JointAxisSensor` |
| `JointAxisSensor.__call__` | 58-65 | `Finalize.JointAxisSensor` |
| `RelPose.__init__` | 69-70 | `Finalize.RelPose` |
| `RelPose.__call__` | 72-76 | `Finalize.RelPose` |
| `RootIncl.__init__` | 80-82 | `Finalize.RootIncl` |
| `RootIncl.__call__` | 84-88 | `Finalize.RootIncl` |
| `RootFull.__init__` | 92-94 | `Finalize.RootFull` |
| `RootFull.__call__` | 96-100 | `Finalize.RootFull` |
| `IMU.__init__` | 111-113 | `Finalize.IMU` |
| `IMU.__call__` | 115-120 | `Finalize.IMU` |
| `_imu_data` | 123-155 | `Finalize.imuLoop`, `Finalize._imu_data` |
| `DynamicalSimulation.__init__` | 182-194 | `PdControl.DynSim` |
| `DynamicalSimulation.assert_test_system` | 197-214 | `Rcmg.testLink`, `Rcmg.assert_test_system` |
| `DynamicalSimulation.__call__` | 216-266 | `PdControl.build_q_ref`, `PdControl.DynSim.call`, `Rcmg.dynStage` |
| `_flatten` | 269-272 | `Flatten._flatten` |
| `_expand_dt` | 275-285 | `Flatten.setDt`, `Flatten._expand_dt` |
| `_expand_then_flatten` | 288-315 | `Flatten.dict_to_tuple`, `Flatten.flattenBatched`, `Flatten._expand_then_flatten` |
| `GeneratorTrafoLambda.__init__` | 319-321 | `Flatten.GeneratorTrafoExpandFlatten` |
| `GeneratorTrafoLambda.__call__` | 323-334 | `Flatten.GeneratorTrafoExpandFlatten` |
| `GeneratorTrafoExpandFlatten` | 337-340 | `Flatten.GeneratorTrafoExpandFlatten` |

## src/ring/algorithms/generator/motion_artifacts.py

| function | lines | model |
|---|---|---|
| `imu_reference_link_name` | 12-13 | `MotionArtifacts.imu_reference_link_name` |
| `unactuated_subsystem` | 16-17 | `MotionArtifacts.unactuated_subsystem` |
| `_subsystem_factory` | 20-43 | `MotionArtifacts.subsystemDoc`, `MotionArtifacts._subsystem_factory` |
| `inject_subsystems` | 46-109 | `MotionArtifacts.Artifacts`, `MotionArtifacts.injectImu`, `MotionArtifacts.reattach`, `MotionArtifacts.inject_subsystems`, `Rcmg.ArtifactArgs` |
| `_log_uniform` | 121-124 | `MotionArtifacts._log_uniform` |
| `setup_fn_randomize_damping_stiffness_factory` | 127-200 | `MotionArtifacts.stif_damp_rigid`, `MotionArtifacts.stif_damp_nonrigid`, `MotionArtifacts.RigidOpts`, `MotionArtifacts.drawStif`, `MotionArtifacts.randomizeImu`, `MotionArtifacts.setup_fn_randomize_damping_stiffness` and 2 more |
| `_match_q_x_between_sys` | 215-243 | `MotionArtifacts.matchLink`, `MotionArtifacts._match_q_x_between_sys` |
| `HideInjectedBodies.__call__` | 247-260 | `MotionArtifacts.hideImu`, `MotionArtifacts.HideInjectedBodies`, `Rcmg.hideStage` |

## src/ring/algorithms/generator/pd_control.py

| function | lines | model |
|---|---|---|
| `_pd_control` | 22-128 | `PdControl.argQT`, `PdControl.pdInitLink`, `PdControl.pd_control_init`, `PdControl.pdApplyLink`, `PdControl.pd_control_apply` |
| `_unroll_dynamics_pd_control` | 131-168 | `PdControl.clipTaus`, `PdControl.pdLoop`, `PdControl._unroll_dynamics_pd_control` |
| `_initial_q_is_q_ref` | 171-183 | `PdControl.initialLink`, `PdControl._initial_q_is_q_ref` |

## src/ring/algorithms/generator/setup_fns.py

| function | lines | model |
|---|---|---|
| `_setup_fn_randomize_positions` | 8-16 | `Setup.randomizePosition`, `Setup._setup_fn_randomize_positions` |
| `_draw_pos_uniform` | 19-28 | `Setup._draw_pos_uniform` |
| `_setup_fn_randomize_transform1_rot` | 31-43 | `Setup.resetImus`, `Setup._setup_fn_randomize_transform1_rot` |

## src/ring/algorithms/jcalc.py

| function | lines | model |
|---|---|---|
| `MotionConfig.is_feasible` | 96-97 | `MotionConfig.MotionConfig` |
| `MotionConfig.to_nomotion_config` | 99-114 | `MotionConfig.MotionConfig`, `MotionConfig.MotionConfig.to_nomotion_config` |
| `MotionConfig.overwrite_for_joint_type` | 117-142 | `MotionConfig.MotionConfig`, `Registry.overwrite_for_joint_type` |
| `MotionConfig.overwrite_for_subsystem` | 145-192 | `MotionConfig.MotionConfig`, `Registry.specialise`, `Registry.subsystemBodies`, `Registry.subsystemTypes`, `Registry.renameTypes`, `Registry.overwrite_for_subsystem` |
| `MotionConfig.from_register` | 195-196 | `MotionConfig.MotionConfig`, `MotionRegister.from_register` |
| `_joint_specific_overwrites_free_cor` | 302-315 | `MotionRegister.changes_free_cor`, `MotionRegister._joint_specific_overwrites_free_cor` |
| `_is_feasible_config1` | 333-388 | `MotionConfig.dx_deltax_check`, `MotionConfig.inside_box_checks`, `MotionConfig._is_feasible_config1` |
| `_find_interval` | 391-409 | `MotionConfig._find_interval` |
| `join_motionconfigs` | 412-443 | `MotionConfig.new_value`, `MotionConfig.check_field`, `MotionConfig.join_on`, `MotionConfig.join_motionconfigs` |
| `_free_transform` | 532-534 | `Jcalc._free_transform` |
| `_free_2d_transform` | 537-541 | `Jcalc._free_2d_transform` |
| `_rxyz_transform` | 544-547 | `Jcalc._rxyz_transform` |
| `_pxyz_transform` | 550-552 | `Jcalc._pxyz_transform` |
| `_frozen_transform` | 555-556 | `Jcalc._frozen_transform` |
| `_spherical_transform` | 559-560 | `Jcalc._spherical_transform` |
| `_saddle_transform` | 563-565 | `Jcalc._saddle_transform` |
| `_p3d_transform` | 568-569 | `Jcalc._p3d_transform` |
| `_cor_transform` | 572-575 | `Jcalc._cor_transform` |
| `_draw_rxyz` | 586-625 | `MotionConfig._draw_rxyz` |
| `_draw_pxyz` | 628-661 | `MotionConfig._draw_pxyz` |
| `_draw_spherical` | 664-690 | `MotionConfig._draw_spherical` |
| `_draw_saddle` | 693-716 | `MotionConfig._draw_saddle` |
| `_draw_p3d_and_cor` | 719-748 | `MotionConfig._draw_p3d_and_cor` |
| `_draw_p3d` | 751-759 | `MotionConfig._draw_p3d` |
| `_draw_cor` | 762-773 | `MotionConfig._draw_cor` |
| `_draw_free` | 776-787 | `MotionConfig._draw_free` |
| `_draw_free_2d` | 790-810 | `MotionConfig._draw_free_2d` |
| `_draw_frozen` | 813-818 | `MotionConfig._draw_frozen` |
| `_qd_from_q_quaternion` | 824-830 | `PdControl._qd_from_q_quaternion` |
| `_qd_from_q_cartesian` | 833-837 | `PdControl._qd_from_q_cartesian` |
| `_p_control_quaternion` | 840-842 | `Jcalc._p_control_quaternion` |
| `_p_control_term_rxyz` | 845-848 | `Jcalc._p_control_term_rxyz` |
| `_p_control_term_pxyz_p3d` | 851-852 | `Jcalc._p_control_term_pxyz_p3d` |
| `_p_control_term_frozen` | 855-856 | `Jcalc._p_control_term_frozen` |
| `_p_control_term_spherical` | 859-860 | – |
| `_p_control_term_free` | 863-869 | `Jcalc._p_control_term_free` |
| `_p_control_term_free_2d` | 872-878 | `Jcalc._p_control_term_free_2d` |
| `_p_control_term_cor` | 881-882 | – |
| `_qd_from_q_free` | 885-888 | `PdControl._qd_from_q_free` |
| `_coordinate_vector_to_q_free_spherical_cor` | 891-892 | `Jcalc._coordinate_vector_to_q_free_spherical_cor` |
| `_coordinate_vector_to_q_free_2d` | 895-896 | `Jcalc._coordinate_vector_to_q_free_2d` |
| `_inv_kin_rxyz_factory` | 902-917 | `Jcalc._inv_kin_rxyz` |
| `_inv_kin_pxyz_factory` | 920-926 | `Jcalc._inv_kin_pxyz` |
| `_inv_kin_free_2d` | 929-931 | – |
| `get_joint_model` | 1053-1057 | `Jcalc.get_joint_model`, `Registry.get_model` |
| `register_new_joint_type` | 1060-1090 | `Registry.popType`, `Registry.register_new_joint_type` |
| `_limit_scope_of_joint_params` | 1093-1099 | `Jcalc._limit_scope_of_joint_params` |
| `jcalc_transform` | 1102-1106 | `Jcalc.jcalc_transform` |
| `_to_motion` | 1109-1114 | – |
| `jcalc_motion` | 1117-1125 | `Jcalc.jcalc_motion` |
| `jcalc_tau` | 1128-1135 | `Jcalc.jcalc_tau` |
| `_init_joint_params` | 1138-1159 | `Xml.initFns`, `Xml.drawParams`, `Xml._init_joint_params` |

## src/ring/algorithms/kinematics.py

| function | lines | model |
|---|---|---|
| `forward_kinematics_transforms` | 13-42 | `Kinematics.forward_kinematics_transforms` |
| `forward_kinematics` | 45-54 | `Kinematics.forward_kinematics` |
| `inverse_kinematics` | 57-97 | `Kinematics.inverse_kinematics_link`, `Kinematics.inverse_kinematics` |
| `inverse_kinematics_endeffector` | 100-202 | `EndEffector.ik_objective`, `EndEffector.ik_run`, `EndEffector.inverse_kinematics_endeffector` |

## src/ring/algorithms/sensors.py

| function | lines | model |
|---|---|---|
| `accelerometer` | 15-29 | `Sensors.accInner`, `Sensors.accelerometer` |
| `gyroscope` | 32-60 | `Sensors.gyrRow`, `Sensors.gyroscope` |
| `_draw_random_magvec` | 63-78 | `Sensors._draw_random_magvec` |
| `magnetometer` | 81-82 | `Sensors.magnetometer` |
| `add_noise_bias` | 137-179 | `Sensors.noiseLoop`, `Sensors.add_noise_bias` |
| `imu` | 182-271 | `Sensors.delayBy`, `Sensors.ImuArgs`, `Sensors.imuOri`, `Sensors.imuQuasi`, `Sensors.imuLowpassPos`, `Sensors.imuLowpassRot` and 5 more |
| `rescale_natural_units` | 279-280 | `Sensors.rescale_natural_units` |
| `rel_pose` | 283-329 | `Finalize.pose_child_to_parent`, `Finalize.rel_pose`, `Kinematics.pose_child_to_parent`, `Kinematics.rel_pose` |
| `root_incl` | 332-354 | `Finalize.root_link`, `Finalize.root_orientation`, `Finalize.root_incl`, `Kinematics.root_link`, `Kinematics.root_orientation` |
| `root_full` | 357-379 | `Finalize.root_link`, `Finalize.root_orientation`, `Finalize.root_full`, `Kinematics.root_orientation` |
| `joint_axes` | 382-425 | `Finalize.axesNoise`, `Finalize.addAxesNoise`, `Finalize.axesWorldStep`, `Finalize.joint_axes` |
| `_joint_axes_from_xs` | 428-456 | `Finalize.ensure_axis_convention`, `Finalize.averageAxis`, `Finalize._joint_axes_from_xs` |
| `_joint_axes_from_sys` | 459-477 | `Finalize.axis_from_link`, `Finalize._joint_axes_from_sys` |
| `_moving_average` | 480-494 | `Sensors.padEdges`, `Sensors._moving_average` |
| `_quasi_physical_simulation_beautiful` | 509-520 | `SpringSim.qpBeautifulScan`, `SpringSim._quasi_physical_simulation_beautiful` |
| `_quasi_physical_simulation` | 529-548 | `Sensors.qpScan`, `Sensors._quasi_physical_simulation` |
| `_butterworth` | 551-591 | `Sensors.butterCoeffs`, `Sensors.butterScan`, `Sensors.butterPass`, `Sensors._butterworth` |

## src/ring/base.py

| function | lines | model |
|---|---|---|
| `_Base.__add__` | 30-31 | `Algebra.Motion.add`, `BaseOps.add` |
| `_Base.__sub__` | 33-34 | `Algebra.[Neg`, `BaseOps.sub` |
| `_Base.__mul__` | 36-37 | `Algebra.[Neg`, `BaseOps.mul` |
| `_Base.__neg__` | 39-40 | `Algebra.[Neg`, `BaseOps.neg` |
| `_Base.__truediv__` | 42-43 | `BaseOps.truediv` |
| `_Base.__getitem__` | 45-46 | `BaseOps.take` |
| `_Base.reshape` | 48-49 | `BaseOps.reshape` |
| `_Base.slice` | 51-52 | `BaseOps.slice` |
| `_Base.take` | 54-55 | `BaseOps.take`, `BaseOps.takes` |
| `_Base.hstack` | 57-58 | `BaseOps.hstack` |
| `_Base.vstack` | 60-61 | `BaseOps.vstack` |
| `_Base.concatenate` | 63-64 | `BaseOps.concatenate` |
| `_Base.batch` | 66-67 | `BaseOps.batch` |
| `_Base.index_set` | 69-70 | `BaseOps.index_set` |
| `_Base.index_sum` | 72-73 | `BaseOps.index_sum` |
| `_Base.T` | 76-77 | `BaseOps.transposeAll` |
| `_Base.flatten` | 79-80 | – |
| `_Base.squeeze` | 82-83 | `BaseOps.squeeze` |
| `_Base.squeeze_1d` | 85-86 | `BaseOps.squeeze_1d` |
| `_Base.batch_dim` | 88-89 | – |
| `_Base.transpose` | 91-92 | – |
| `_Base.__iter__` | 94-95 | `BaseOps.iter` |
| `_Base.repeat` | 97-98 | `BaseOps.repeatTree` |
| `_Base.ndim` | 100-101 | – |
| `_Base.shape` | 103-107 | `BaseOps.shapeOf` |
| `_Base.__len__` | 109-110 | `BaseOps.len` |
| `Transform.create` | 125-138 | `BaseOps.transformCreate` |
| `Transform.zero` | 141-145 | `Algebra.Transform.zero`, `Quat.unitQuat` |
| `Transform.as_matrix` | 147-149 | `Algebra.Transform.as_matrix` |
| `Motion.create` | 159-165 | `BaseOps.motionCreate` |
| `Motion.zero` | 168-171 | `Algebra.Motion.zero` |
| `Motion.as_matrix` | 173-174 | `Algebra.Motion.as_matrix` |
| `Force.create` | 184-190 | `BaseOps.motionCreate` |
| `Force.zero` | 193-196 | `Algebra.Force.zero` |
| `Force.as_matrix` | 198-199 | `Algebra.Force.as_matrix` |
| `Inertia.create` | 212-220 | `Algebra.Inertia.create` |
| `Inertia.zero` | 223-227 | `Algebra.Inertia.zero` |
| `Inertia.as_matrix` | 229-231 | `Algebra.Inertia.as_matrix` |
| `XYZ.create` | 251-252 | `Compare.shapeDims`, `Compare.objGeometry`, `Inertia.Shape`, `Xml.xyzFromXml` |
| `XYZ.get_it_3x3` | 254-255 | `Compare.shapeDims`, `Compare.objGeometry`, `Inertia.Shape`, `Inertia.Geometry.get_it_3x3` |
| `Sphere.get_it_3x3` | 262-264 | `Compare.shapeDims`, `Compare.objGeometry`, `Inertia.Shape`, `Inertia.Geometry.get_it_3x3` |
| `Box.get_it_3x3` | 273-288 | `Compare.shapeDims`, `Compare.objGeometry`, `Inertia.Shape`, `Inertia.Geometry.get_it_3x3` |
| `Cylinder.get_it_3x3` | 298-306 | `Compare.shapeDims`, `Compare.objGeometry`, `Inertia.Shape`, `Inertia.Geometry.get_it_3x3` |
| `Capsule.get_it_3x3` | 316-334 | `Compare.shapeDims`, `Compare.objGeometry`, `Inertia.Shape`, `Inertia.Geometry.get_it_3x3` |
| `System.num_links` | 431-432 | `System.num_links` |
| `System.q_size` | 434-435 | `System.q_size` |
| `System.qd_size` | 437-438 | `System.qd_size` |
| `System.name_to_idx` | 440-441 | `System.name_to_idx` |
| `System.idx_to_name` | 443-447 | `System.idx_to_name` |
| `System.idx_map` | 449-458 | `System.idx_map` |
| `System.parent_name` | 460-461 | `System.parent_name` |
| `System.add_prefix` | 463-464 | `System.add_prefix_suffix` |
| `System.change_model_name` | 466-479 | `SystemFile.change_model_name` |
| `System.change_link_name` | 481-485 | `System.change_link_name` |
| `System.add_prefix_suffix` | 487-495 | `System.add_prefix_suffix` |
| `System._replace_free_with_cor` | 497-526 | `System.corLogic`, `System._replace_free_with_cor` |
| `System.freeze` | 528-544 | `System.freeze`, `System.freezeList` |
| `System.unfreeze` | 546-550 | `System.unfreeze` |
| `System.change_joint_type` | 552-592 | `System.changeLogic`, `System.change_joint_type` |
| `System.joint_type_simplification` | 595-606 | `System.joint_type_simplification` |
| `System.joint_type_is_free_or_cor` | 609-610 | `Dynamics.joint_type_is_free_or_cor`, `System.joint_type_is_free_or_cor_or_spherical` |
| `System.joint_type_is_spherical` | 613-614 | `Dynamics.joint_type_is_spherical`, `System.joint_type_is_free_or_cor_or_spherical` |
| `System.joint_type_is_free_or_cor_or_spherical` | 617-620 | `System.joint_type_is_free_or_cor_or_spherical` |
| `System.findall_imus` | 622-624 | `System.findall_imus` |
| `System.findall_segments` | 626-629 | `System.findall_segments` |
| `System._bodies_indices_to_bodies_name` | 631-632 | – |
| `System.findall_bodies_to_world` | 634-636 | `System.findall_bodies_to_world` |
| `System.find_body_to_world` | 638-641 | `System.find_body_to_world` |
| `System.findall_bodies_with_jointtype` | 643-647 | `System.findall_bodies_with_jointtype` |
| `System.children` | 649-653 | `System.children`, `System.children_names` |
| `System.findall_bodies_subsystem` | 655-662 | `System.findall_bodies_subsystem` |
| `System.scan` | 664-679 | `System.scan` |
| `System.parse` | 681-697 | – |
| `System.render` | 699-722 | – |
| `System.render_prediction` | 724-737 | – |
| `System.delete_system` | 739-741 | – |
| `System.make_sys_noimu` | 743-745 | – |
| `System.inject_system` | 747-760 | – |
| `System.morph_system` | 762-779 | – |
| `System.from_xml` | 782-783 | `SystemFile.from_xml` |
| `System.from_str` | 786-787 | `SystemFile.from_str` |
| `System.to_str` | 789-790 | `SystemFile.to_str` |
| `System.to_xml` | 792-793 | `SystemFile.to_xml` |
| `System.create` | 796-809 | `SystemFile.create` |
| `System.coordinate_vector_to_q` | 811-839 | `Kinematics.to_q_link`, `Kinematics.coordinate_vector_to_q` |
| `_update_sys_if_replace_joint_type` | 842-878 | `System._update_sys_if_replace_joint_type` |
| `_parse_system` | 885-950 | `System.(field)`, `System.check_dasz_unitq`, `System.parse` |
| `_inertia_from_geometries` | 953-957 | `Inertia._inertia_from_geometries` |
| `_parse_system_calculate_inertia` | 960-970 | `Inertia.compute_inertia_per_link` |
| `_scan_sys` | 973-1023 | `System.IdxMap.q`, `System.IdxMap.d`, `System.buildIdxs`, `System.checkPieces`, `System.scanLoop`, `System.scan` |
| `State.create` | 1042-1093 | `Kinematics.replace_by_unit_quat`, `Kinematics.State.init_q`, `Kinematics.State.create`, `Kinematics.State.create_key` |

## src/ring/io/examples.py

| function | lines | model |
|---|---|---|
| `load_example` | 12-16 | `SystemFile.load_example` |
| `list_examples` | 19-37 | `SystemFile.list_of_examples_in_folder`, `SystemFile.examplesOfFolder`, `SystemFile.list_examples` |
| `list_load_examples` | 40-42 | `SystemFile.loadExamples` |

## src/ring/io/xml/abstract.py

| function | lines | model |
|---|---|---|
| `default_zeropoint` | 19-24 | `SpringSim.qpSys`, `Xml.default_zeropoint` |
| `AbsDampArmaStiffZero.from_xml` | 37-46 | `SpringSim.qpSys`, `Xml.dofFromXml` |
| `AbsDampArmaStiffZero.to_xml` | 49-66 | `Xml.dofToXml` |
| `AbsMaxCoordOMC.from_xml` | 71-75 | `Xml.omcFromXml` |
| `AbsMaxCoordOMC.to_xml` | 78-82 | `Xml.omcToXml` |
| `AbsTrans.from_xml` | 87-90 | `Xml.transFromXml` |
| `AbsTrans.to_xml` | 93-97 | `Xml.transToXml` |
| `AbsPosMinMax.from_xml` | 102-119 | `Xml.posMinMaxFromXml` |
| `AbsPosMinMax.to_xml` | 122-127 | `Xml.posMinMaxToXml` |
| `_from_xml_geom_attr_processing` | 130-148 | `Xml.getColor`, `Xml._from_xml_geom_attr_processing` |
| `_to_xml_geom_processing` | 151-163 | `Xml._to_xml_geom_processing` |
| `AbsGeomBox.from_xml` | 171-175 | `Xml.boxFromXml` |
| `AbsGeomBox.to_xml` | 178-181 | `Xml.geomToXml` |
| `AbsGeomSphere.from_xml` | 189-193 | `Xml.sphereFromXml` |
| `AbsGeomSphere.to_xml` | 196-199 | `Xml.geomToXml` |
| `AbsGeomCylinder.from_xml` | 207-211 | `Xml.cylinderFromXml` |
| `AbsGeomCylinder.to_xml` | 214-217 | `Xml.geomToXml` |
| `AbsGeomCapsule.from_xml` | 225-229 | `Xml.capsuleFromXml` |
| `AbsGeomCapsule.to_xml` | 232-235 | `Xml.geomToXml` |
| `AbsGeomXYZ.from_xml` | 243-250 | `Xml.getSize`, `Xml.xyzFromXml` |
| `AbsGeomXYZ.to_xml` | 253-257 | `Xml.geomToXml` |
| `_arr_equal` | 272-273 | – |
| `_get_rotation` | 276-288 | `Xml._get_rotation` |
| `_to_str` | 291-301 | `Xml.strOfArr` |

## src/ring/io/xml/from_xml.py

| function | lines | model |
|---|---|---|
| `_find_assert_unique` | 13-25 | `Xml._find_assert_unique` |
| `_build_defaults_attributes` | 28-38 | `Xml.defaultAttrib`, `Xml._build_defaults_attributes` |
| `_assert_all_tags_attrs_valid` | 41-66 | `Xml.valid_attrs`, `Xml.checkElement`, `Xml._assert_all_tags_attrs_valid` |
| `_mix_in_defaults` | 69-77 | `Xml.mixIn` |
| `_convert_attrs_to_arrays` | 80-87 | `Xml.toAVal`, `Xml._convert_attrs_to_arrays` |
| `_extract_geoms_from_body_xml` | 90-102 | `Xml.geomFromXml`, `Xml._extract_geoms_from_body_xml` |
| `_extract_omc_from_body_xml` | 105-114 | `Xml._extract_omc_from_body_xml` |
| `_initial_setup` | 117-123 | `Xml._initial_setup` |
| `load_sys_from_str` | 130-259 | `Compare.objGeometry`, `SystemFile.from_str`, `Xml.LinkRec`, `Xml.getJoint`, `Xml.getName`, `Xml.readBody` and 6 more |
| `load_sys_from_xml` | 262-263 | `SystemFile.from_xml` |
| `_load_xml` | 266-270 | `SystemFile._load_xml` |
| `load_comments_from_xml` | 273-284 | `SystemFile.load_comments_from_xml` |
| `load_comments_from_str` | 287-303 | `SystemFile.commentDict`, `SystemFile.load_comments` |

## src/ring/io/xml/to_xml.py

| function | lines | model |
|---|---|---|
| `save_sys_to_str` | 15-88 | `Xml.bodyAttrib`, `Xml.bodyParts`, `Xml.process_link`, `Xml.save_sys_to_str` |
| `save_sys_to_xml` | 91-94 | `SystemFile.to_xml` |

## src/ring/maths.py

| function | lines | model |
|---|---|---|
| `wrap_to_pi` | 9-11 | `Trig.wrap_to_pi` |
| `unit_vectors` | 19-22 | `Finalize.unit_vectors`, `Render.unit_vector` |
| `safe_norm` | 26-36 | `Trig.safe_norm` |
| `safe_normalize` | 40-50 | `Trig.safe_normalize`, `Trig.safe_normalize4` |
| `safe_arccos` | 54-56 | `SpatialRot.safe_arccos` |
| `_safe_arccos_jvp` | 60-65 | `SpatialRot._safe_arccos_jvp` |
| `safe_arcsin` | 69-71 | `SpatialRot.safe_arcsin` |
| `_safe_arcsin_jvp` | 75-80 | `SpatialRot._safe_arcsin_jvp` |
| `ensure_positive_w` | 84-85 | `Quat.ensure_positive_w` |
| `angle_error` | 88-90 | `Trig.angle_error` |
| `unit_quats_like` | 93-98 | `SpatialRot.unit_quats_like` |
| `quat_mul` | 102-112 | `Quat.quat_mul` |
| `quat_inv` | 115-117 | `Quat.quat_inv` |
| `rotate` | 121-124 | `Quat.rotate` |
| `rotate_matrix` | 127-130 | `Quat.rotate_matrix` |
| `rotate_quat` | 133-135 | `Quat.rotate_quat` |
| `quat_rot_axis` | 139-163 | `Trig.quat_rot_axis` |
| `quat_from_3x3` | 167-173 | `Trig.quat_from_3x3` |
| `quat_to_3x3` | 177-193 | `Quat.quat_dot`, `Quat.quat_to_3x3` |
| `quat_random` | 196-209 | `Finalize.quat_randomN`, `Sensors.quat_random1`, `Setup.quat_random` |
| `quat_euler` | 212-236 | `Trig.Axis.unit`, `Trig.quat_euler` |
| `quat_angle` | 240-243 | `Trig.quat_angle` |
| `quat_angle_constantAxisOverTime` | 246-256 | `QuatAvg.angleAlong`, `QuatAvg.quat_angle_constantAxisOverTime` |
| `quat_to_rot_axis` | 260-266 | `Trig.quat_to_rot_axis` |
| `euler_to_quat` | 270-280 | `Trig.euler_to_quat` |
| `quat_to_euler` | 284-302 | `SpatialRot.quat_to_euler_y_jvp`, `Trig.quat_to_euler` |
| `quat_project` | 306-321 | `Trig.quat_project` |
| `quat_avg` | 324-331 | `QuatAvg.outerSum`, `QuatAvg.quat_avg` |
| `quat_lowpassfilter` | 338-380 | `Sensors.lowpassStep`, `Sensors.lowpassAlpha`, `Sensors.lowpassForward`, `Sensors.quat_lowpassfilter` |
| `quat_inclinationAngle` | 383-385 | `Trig.quat_inclinationAngle` |
| `quat_headingAngle` | 388-390 | `Trig.quat_headingAngle` |
| `quat_transfer_heading` | 393-397 | `Trig.quat_transfer_heading` |

## src/ring/ml/__init__.py

| function | lines | model |
|---|---|---|
| `RNNO` | 19-57 | `Factories.KwEmbed`, `Factories.rnnoKwargs`, `Factories.rnnoWrap`, `Factories.RNNO` |

## src/ring/ml/base.py

| function | lines | model |
|---|---|---|
| `_to_3d` | 13-16 | `Filters._to_3d` |
| `_to_2d` | 19-22 | `Filters._to_2d` |
| `AbstractFilter._apply_unbatched` | 26-31 | `Filters._apply_unbatched` |
| `AbstractFilter._apply_batched` | 34-35 | – |
| `AbstractFilter.init` | 37-39 | – |
| `AbstractFilter.apply` | 41-47 | `Filters.filterApply` |
| `AbstractFilter.name` | 50-56 | `FilterObjects.ownName`, `FilterObjects.name` |
| `AbstractFilter.nojit` | 58-59 | `FilterObjects.nojit` |
| `AbstractFilter._pre_save` | 61-62 | `FilterObjects._pre_save` |
| `AbstractFilter.save` | 64-66 | `FilterObjects.save` |
| `AbstractFilter._post_load` | 69-70 | `FilterObjects._post_load` |
| `AbstractFilter.load` | 73-75 | `FilterObjects.load` |
| `AbstractFilter.search_attr` | 77-78 | `FilterObjects.search_attr` |
| `AbstractFilter.unwrapped_deep` | 81-82 | `FilterObjects.unwrapped_deep` |
| `AbstractFilterUnbatched._apply_unbatched` | 87-88 | `Filters.unbatchedFilter` |
| `AbstractFilterUnbatched._apply_batched` | 90-99 | `Filters.loopBatched`, `Filters.unbatchedFilter` |
| `AbstractFilterWrapper.__init__` | 103-105 | `FilterObjects.(field)` |
| `AbstractFilterWrapper._apply_batched` | 107-108 | – |
| `AbstractFilterWrapper.unwrapped` | 111-112 | – |
| `AbstractFilterWrapper.apply` | 114-115 | – |
| `AbstractFilterWrapper.init` | 117-118 | – |
| `AbstractFilterWrapper.nojit` | 120-122 | `FilterObjects.nojit` |
| `AbstractFilterWrapper.search_attr` | 124-127 | `FilterObjects.search_attr` |
| `AbstractFilterWrapper._pre_save` | 129-130 | `FilterObjects._pre_save` |
| `AbstractFilterWrapper._post_load` | 133-137 | `FilterObjects._post_load` |
| `AbstractFilterWrapper.name` | 140-141 | `FilterObjects.name` |
| `AbstractFilterWrapper.unwrapped_deep` | 144-145 | `FilterObjects.unwrapped_deep` |
| `LPF_FilterWrapper.__init__` | 149-161 | `Filters.LPF` |
| `LPF_FilterWrapper.apply` | 163-202 | `Filters.sampFreq`, `Filters.sampFreqs`, `Filters.lpfBodies`, `Filters.lpfSeq`, `Filters.lpfRates`, `Filters.lpfOut` and 1 more |
| `GroundTruthHeading_FilterWrapper.__init__` | 207-210 | `Filters.GroundTruthHeading` |
| `GroundTruthHeading_FilterWrapper.apply` | 212-217 | `Filters.lamOr`, `Filters.GroundTruthHeading` |
| `GroundTruthHeading_FilterWrapper.transfer_ground_truth_heading` | 220-231 | `Filters.headingLoop`, `Filters.transfer_ground_truth_heading`, `Filters.GroundTruthHeading` |
| `ScaleX_FilterWrapper.__init__` | 239-246 | `Filters.ScaleX` |
| `ScaleX_FilterWrapper.apply` | 248-264 | `Filters.scaleRow`, `Filters.ScaleX` |
| `NoGraph_FilterWrapper.__init__` | 269-273 | `Filters.NoGraph` |
| `NoGraph_FilterWrapper.init` | 275-283 | `Filters.NoGraph` |
| `NoGraph_FilterWrapper.apply` | 285-302 | `Filters.normalizeLast`, `Filters.noGraphShapes`, `Filters.NoGraph` |
| `AddTs_FilterWrapper.__init__` | 306-310 | `Filters.AddTs` |
| `AddTs_FilterWrapper._add_Ts` | 312-319 | `Filters._add_Ts`, `Filters.AddTs` |
| `AddTs_FilterWrapper.init` | 321-322 | `Filters.AddTs` |
| `AddTs_FilterWrapper.apply` | 324-325 | `Filters.AddTs` |

## src/ring/ml/callbacks.py

| function | lines | model |
|---|---|---|
| `_build_eval_fn2` | 26-61 | `EvalXy.namedValues`, `EvalXy.vmapLinks`, `EvalXy.metricStep`, `EvalXy.evalFn2`, `EvalXy._build_eval_fn2` |
| `EvalXyTrainingLoopCallback.__init__` | 65-93 | `EvalXy.evalXyInit`, `EvalXy.evalXyInit3` |
| `EvalXyTrainingLoopCallback.after_training_step` | 95-115 | `Callbacks.evalXy` |
| `AverageMetricesTLCB.__init__` | 119-121 | – |
| `AverageMetricesTLCB.after_training_step` | 123-150 | `Callbacks.averageLoop`, `Callbacks.averageMetrices` |
| `Queue.__init__` | 160-162 | – |
| `Queue.__len__` | 164-165 | – |
| `Queue.insert` | 167-177 | `Callbacks.Queue.sort`, `Callbacks.Queue.insert` |
| `Queue.__iter__` | 179-180 | – |
| `_zoom_into_metrices` | 183-187 | `Callbacks._zoom_into_metrices` |
| `SaveParamsTrainingLoopCallback.__init__` | 191-207 | `Callbacks.SaveParams`, `Callbacks.SaveParams.init` |
| `SaveParamsTrainingLoopCallback.after_training_step` | 209-238 | `Callbacks.meanTracked`, `Callbacks.trackedValue`, `Callbacks.SaveParams.after_training_step` |
| `SaveParamsTrainingLoopCallback.close` | 240-278 | `Closing.uploadLoop`, `Closing.elementPath`, `Closing.elementFile`, `Closing.closeLoop`, `Closing.saveParamsClose`, `TrainFn.saveClose` |
| `LogGradsTrainingLoopCallBack.__init__` | 282-289 | `TrainFn.CbState.init` |
| `LogGradsTrainingLoopCallBack.after_training_step` | 291-316 | `TrainingLoop.gradsNorm`, `TrainingLoop.logGradsLoop`, `TrainingLoop.logGradsCallback` |
| `NanKillRunCallback.__init__` | 320-324 | – |
| `NanKillRunCallback.after_training_step` | 326-345 | `TrainingLoop.nanKillCallback` |
| `LogEpisodeTrainingLoopCallback.__init__` | 349-350 | – |
| `LogEpisodeTrainingLoopCallback.after_training_step` | 352-366 | `TrainingLoop.logEpisodeCallback` |
| `TimingKillRunCallback.__init__` | 370-371 | – |
| `TimingKillRunCallback.after_training_step` | 373-387 | `TrainFn.CbKind.callback` |
| `CheckpointCallback.after_training_step` | 391-402 | `TrainFn.CbKind.callback` |
| `CheckpointCallback.close` | 404-415 | `Closing.checkpointPath`, `Closing.checkpointClose`, `TrainFn.CbKind.close` |
| `WandbKillRun.__init__` | 419-420 | – |
| `WandbKillRun.after_training_step` | 422-439 | `TrainFn.CbKind.callback` |

## src/ring/ml/ml_utils.py

| function | lines | model |
|---|---|---|
| `Logger.close` | 24-24 | – |
| `Logger.log` | 26-26 | – |
| `Logger.n_params` | 29-31 | `Closing.n_params` |
| `MixinLogger.close` | 35-36 | `TrainFn.LoggerKind.close` |
| `MixinLogger.log_image` | 38-39 | – |
| `MixinLogger.log_video` | 41-48 | – |
| `MixinLogger.log_params` | 50-51 | – |
| `MixinLogger.log` | 53-56 | `Closing.DictLogger.log`, `WandbLogger.WandbLogger.log` |
| `MixinLogger.log_key_value` | 58-59 | – |
| `MixinLogger.log_command_output` | 61-65 | `WandbLogger.commandFile`, `WandbLogger.log_command_output` |
| `MixinLogger.log_txt` | 67-68 | – |
| `MixinLogger._log_environment` | 70-73 | `WandbLogger.environmentCommands` |
| `DictLogger.__init__` | 77-79 | `Closing.DictLogger.logAll` |
| `DictLogger.log_key_value` | 81-82 | `Closing.DictLogger.log_key_value` |
| `DictLogger.close` | 84-87 | `Closing.DictLogger.close` |
| `DictLogger.save` | 89-93 | `Closing.DictLogger.save` |
| `DictLogger.get_logs` | 95-96 | – |
| `WandbLogger.__init__` | 100-102 | `WandbLogger.WandbLogger.init` |
| `WandbLogger.log_key_value` | 104-108 | `WandbLogger.WandbLogger.log_key_value` |
| `WandbLogger.log_params` | 110-111 | `TrainFn.LoggerKind.uploads` |
| `WandbLogger.log_video` | 113-127 | – |
| `WandbLogger.log_image` | 129-131 | – |
| `WandbLogger.log_txt` | 133-137 | `WandbLogger.log_command_output` |
| `WandbLogger.close` | 139-140 | `TrainFn.LoggerKind.close` |
| `WandbLogger.wandb_save` | 143-157 | `WandbLogger.copiedFile`, `WandbLogger.wandb_save` |
| `_flatten_convert_filter_nested_dict` | 160-176 | `Callbacks._flatten_convert_filter_nested_dict` |
| `_flatten_dict` | 179-188 | `Callbacks.flattenItems`, `Callbacks.flattenItem`, `Callbacks._flatten_dict` |
| `_to_float_if_not_string` | 191-195 | – |
| `on_cluster` | 198-201 | – |
| `unique_id` | 204-207 | – |
| `save_model_tf` | 210-243 | `OnnxExport.Close`, `OnnxExport.save_model_tf_validate` |
| `to_onnx` | 246-340 | `OnnxExport.renameAll`, `OnnxExport.renamed`, `OnnxExport.compareOutputs`, `OnnxExport.OnnxModel.session_run`, `OnnxExport.validateOnnx`, `OnnxExport.to_onnx` |
| `_unknown_link_names` | 343-344 | `TrainStep._unknown_link_names` |

## src/ring/ml/optimizer.py

| function | lines | model |
|---|---|---|
| `make_optimizer` | 14-64 | `MakeOptimizer.cosine_decay_schedule`, `MakeOptimizer.join_schedules`, `MakeOptimizer.schedule`, `MakeOptimizer.scale_grads`, `MakeOptimizer.clip_by_global_norm`, `MakeOptimizer.preprocess` and 4 more |
| `_condition_not_toolarge` | 74-79 | `Optimizer._condition_not_toolarge` |
| `skip_large_update` | 82-153 | `Optimizer.safe_int32_increment`, `Optimizer.skipInit`, `Optimizer.do_update`, `Optimizer.reject_update`, `Optimizer.skipUpdate`, `Optimizer.skip_large_update` |

## src/ring/ml/ringnet.py

| function | lines | model |
|---|---|---|
| `_scan_sys` | 16-20 | – |
| `_make_rnno_cell_apply_fn` | 23-76 | `Ringnet.(field)`, `Ringnet.message`, `Ringnet.accumulate_message`, `Ringnet._rnno_cell_apply_fn` |
| `make_ring` | 79-141 | `Ringnet.(field)`, `Ringnet.unroll` |
| `StackedRNNCell.__init__` | 145-159 | `Ringnet.(field)` |
| `StackedRNNCell.__call__` | 161-173 | `Ringnet.(field)`, `Ringnet.stackedLoop`, `Ringnet.inner_cell` |
| `LSTM.__init__` | 177-179 | – |
| `LSTM.__call__` | 181-196 | `Rnno.LSTM` |
| `LSTM.initial_state` | 198-199 | – |
| `RING.__init__` | 203-219 | `FilterObjects.(field)` |
| `RING.apply` | 221-226 | `Filters.RING.apply` |
| `RING.init` | 228-253 | `Filters.RING.initBatch` |
| `RING._apply_batched` | 255-273 | `Filters.RING.applyBatched` |
| `RING._load_params` | 276-280 | `Rnno._load_params` |
| `RING.nojit` | 282-285 | `FilterObjects.nojit` |
| `RING._pre_save` | 287-291 | `FilterObjects._pre_save` |
| `RING._post_load` | 294-297 | `FilterObjects._post_load` |

## src/ring/ml/rnno_v1.py

| function | lines | model |
|---|---|---|
| `rnno_v1_forward_factory` | 10-54 | `Rnno.cellFactor`, `Rnno.(field)`, `Rnno.rnnLayers`, `Rnno.linearLayers`, `Rnno.oneBody`, `Rnno.rnno_v1_forward` |

## src/ring/ml/train.py

| function | lines | model |
|---|---|---|
| `_build_step_fn` | 37-97 | `Optimizer.apply_updates`, `Optimizer.apply_grads`, `TrainStep.deviceLoss`, `TrainStep.valueAndGrad`, `TrainStep.pmappedLoss`, `TrainStep.splitTime` and 2 more |
| `train_fn` | 100-243 | `Closing.loadCheckpoint`, `TrainFn.TrainArgs`, `TrainFn.trainStart`, `TrainFn.savePath`, `TrainFn.defaultCallbacks`, `TrainFn.trainCallbacks` and 6 more |
| `_arr_to_dict` | 246-253 | `TrainStep._arr_to_dict` |
| `_build_eval_fn` | 256-300 | `TrainStep.pipe`, `TrainStep.pmappedEval` |
| `_DefaultEvalFnCallback.__init__` | 304-305 | `TrainFn.CbKind.callback` |
| `_DefaultEvalFnCallback.after_training_step` | 307-317 | `TrainFn.CbKind.callback` |

## src/ring/ml/training_loop.py

| function | lines | model |
|---|---|---|
| `send_kill_run_signal` | 13-15 | – |
| `recv_kill_run_signal` | 18-20 | – |
| `TrainingLoopCallback.after_training_step` | 24-34 | `TrainingLoop.CallArgs` |
| `TrainingLoopCallback.close` | 36-37 | `TrainFn.CbKind.close` |
| `TrainingLoop.__init__` | 41-69 | `TrainingLoop.TrainingLoop.init` |
| `TrainingLoop.key` | 72-80 | `TrainingLoop.TrainingLoop.nextKey` |
| `TrainingLoop.run` | 82-95 | `TrainFn.trainClose`, `TrainingLoop.runLoop`, `TrainingLoop.TrainingLoop.run` |
| `TrainingLoop.step` | 97-124 | `TrainingLoop.callLoop`, `TrainingLoop.TrainingLoop.step` |
| `TrainingLoop.close` | 126-131 | `Closing.closeAll`, `Closing.TrainingLoop.close` |

## src/ring/rendering/base_render.py

| function | lines | model |
|---|---|---|
| `_load_scene` | 51-93 | `RenderScene.popped`, `RenderScene.newScene`, `RenderScene.freshScene`, `RenderScene._load_scene` |
| `render` | 96-152 | `RenderScene.xsList`, `RenderScene.frames`, `RenderScene.render` |
| `_render_prediction_internals` | 155-224 | `RenderPrediction.yhatDict`, `RenderPrediction.hatRot`, `RenderPrediction.hatTransform`, `RenderPrediction.add_offset`, `RenderPrediction._render_prediction_internals` |
| `render_prediction` | 227-245 | `RenderPrediction.render_prediction` |
| `_color_to_rgba` | 248-261 | `Render._color_to_rgba` |
| `_xyz_to_three_capsules` | 264-278 | `Render._xyz_to_three_capsules` |
| `_replace_xyz_geoms` | 281-288 | `Render._replace_xyz_geoms` |
| `_sys_render` | 291-306 | `RenderPrediction.prediction_color`, `RenderPrediction.keepGeom`, `RenderPrediction.keptGeoms`, `RenderPrediction._geoms_replace_color`, `RenderPrediction._sys_render` |

## src/ring/rendering/mujoco_render.py

| function | lines | model |
|---|---|---|
| `_build_model_of_geoms` | 14-107 | `Render.attachToWorld`, `Render.group`, `Render.targetbody`, `Render._build_model_of_geoms` |
| `_xml_str_one_body` | 110-131 | `Render._xml_str_one_body` |
| `_xml_str_one_geom` | 134-154 | `Render._xml_str_one_geom` |
| `_array_to_str` | 157-159 | `Render.printed` |
| `MujocoScene.__init__` | 166-187 | `VispyScene.to_list`, `VispyScene.mujocoTexts` |
| `MujocoScene.init` | 189-200 | `RenderScene.MjScene.init` |
| `MujocoScene.update` | 202-224 | `Render.bodyPose`, `RenderScene.setPoses`, `RenderScene.MjScene.update` |
| `MujocoScene.render` | 226-228 | – |

## src/ring/rendering/vispy_render.py

| function | lines | model |
|---|---|---|
| `Scene._get_camera` | 42-43 | – |
| `Scene._set_camera` | 46-47 | – |
| `Scene._render` | 50-51 | – |
| `Scene.enable_xyz` | 53-56 | `VispyScene.enable_xyz` |
| `Scene.disable_xyz` | 58-61 | `VispyScene.disable_xyz` |
| `Scene.enable_xyz_transform1` | 63-64 | `VispyScene.set_xyz_transform1` |
| `Scene.disable_xyz_tranform1` | 66-67 | `VispyScene.set_xyz_transform1` |
| `Scene.render` | 69-84 | `VispyScene.render` |
| `Scene._add_box` | 86-87 | – |
| `Scene._add_sphere` | 89-90 | – |
| `Scene._add_cylinder` | 92-93 | – |
| `Scene._add_capsule` | 95-96 | – |
| `Scene._add_xyz` | 98-99 | – |
| `Scene._remove_visual` | 102-103 | – |
| `Scene._remove_all_visuals` | 105-107 | `VispyScene.remove_all_visuals` |
| `Scene.init` | 109-153 | `VispyScene.visualOf`, `VispyScene.geomTransform`, `VispyScene.addGeoms`, `VispyScene.addLinks`, `VispyScene.init` |
| `Scene._compute_transform_per_visual` | 156-162 | – |
| `Scene._postprocess_transforms` | 165-166 | – |
| `Scene._init_visual` | 169-172 | – |
| `Scene._update_visual` | 174-177 | – |
| `Scene.update` | 179-202 | `VispyScene.updateLoop`, `VispyScene.transformPerVisual`, `VispyScene.update` |
| `_compile_staticmethod` | 206-209 | `VispyScene.transformPerVisual` |
| `VispyScene.__init__` | 213-250 | `VispyScene.create` |
| `VispyScene._set_camera` | 252-253 | `VispyScene.create`, `VispyScene.render` |
| `VispyScene._get_camera` | 255-256 | `VispyScene.create`, `VispyScene.render` |
| `VispyScene._render` | 258-259 | `VispyScene.render` |
| `VispyScene._add_box` | 261-269 | `Render._add_box`, `VispyScene.visualOf` |
| `VispyScene._add_sphere` | 271-277 | `VispyScene.visualOf` |
| `VispyScene._add_cylinder` | 279-286 | `VispyScene.visualOf` |
| `VispyScene._add_capsule` | 288-295 | `VispyScene.visualOf` |
| `VispyScene._add_xyz` | 297-298 | `VispyScene.visualOf` |
| `VispyScene._remove_visual` | 300-301 | `VispyScene.remove_all_visuals` |
| `VispyScene._compute_transform_per_visual` | 304-320 | `Render._compute_transform_per_visual` |
| `VispyScene._postprocess_transforms` | 323-324 | – |
| `VispyScene._init_visual` | 326-332 | `VispyScene.setTransform` |
| `VispyScene._update_visual` | 334-340 | `VispyScene.setTransform` |

## src/ring/rendering/vispy_visuals.py

| function | lines | model |
|---|---|---|
| `DoubleMeshVisual.__init__` | 21-41 | `VispyScene.doubleMesh` |
| `SphereVisual.__init__` | 45-62 | `VispyScene.sphereColors` |
| `box_mesh` | 68-122 | `Render.boxVerts`, `Render.boxEdges`, `Render.boxFaces` |
| `BoxVisual.__init__` | 129-154 | `Render._add_box`, `VispyScene.boxColors` |
| `CylinderVisual.__init__` | 161-191 | `VispyScene.cylinderColors` |
| `capsule_mesh` | 197-267 | `Render.capsuleSizes`, `Render.capsuleVert`, `Render.capsuleFaces`, `Render.capsuleMesh` |
| `CapsuleVisual.__init__` | 271-287 | `VispyScene.visualOf` |

## src/ring/sim2real/sim2real.py

| function | lines | model |
|---|---|---|
| `xs_from_raw` | 13-66 | `Kinematics.xs_from_raw_link`, `Kinematics.eps_transform`, `Kinematics.xs_from_raw` |
| `match_xs` | 69-96 | `Kinematics.match_xs` |
| `unzip_xs` | 99-130 | `Kinematics.parentToLink`, `Kinematics.unzip_link`, `Kinematics.unzip_xs` |
| `zip_xs` | 133-162 | `Kinematics.zip_link`, `Kinematics.zip_xs` |
| `_checks_time_series_of_xs` | 165-168 | `Scale._checks_time_series_of_xs` |
| `delete_to_world_pos_rot` | 171-188 | `Kinematics.delete_to_world_pos_rot` |
| `randomize_to_world_pos_rot` | 191-225 | `Scale.freeSys`, `Scale.freeMotion`, `Scale.randomize_to_world_pos_rot` |
| `_overwrite_transform_of_link_then_update` | 228-237 | `Kinematics._overwrite_transform_of_link_then_update`, `Scale.overwriteSeq` |
| `_replace_transform_of_link` | 240-243 | – |
| `scale_xs` | 246-278 | `Scale.scale_link`, `Scale._scale_xs`, `Scale.scale_xs` |
| `_scale_transform_based_on_type` | 281-288 | `Scale._scale_transform_based_on_type` |

## src/ring/spatial.py

| function | lines | model |
|---|---|---|
| `rx` | 13-24 | `SpatialRot.rx` |
| `ry` | 27-38 | `SpatialRot.ry` |
| `rz` | 41-52 | `SpatialRot.rz` |
| `cross` | 55-57 | `Algebra.cross` |
| `quadrants` | 60-70 | `Algebra.quadrants` |
| `crm` | 73-75 | `Algebra.crm` |
| `crf` | 78-79 | `Algebra.crf` |
| `_rotxyz` | 82-83 | `Algebra._rotxyz` |
| `rotx` | 86-87 | `SpatialRot.rotx` |
| `roty` | 90-91 | `SpatialRot.roty` |
| `rotz` | 94-95 | `SpatialRot.rotz` |
| `xlt` | 98-100 | `Algebra.xlt` |
| `X_transform` | 103-104 | `Algebra.X_transform` |
| `mcI` | 107-112 | `Algebra.mcI` |
| `XtoV` | 115-126 | `SpatialRot.XtoV` |

## src/ring/sys_composer/delete_sys.py

| function | lines | model |
|---|---|---|
| `_autodetermine_imu_names` | 8-9 | – |
| `make_sys_noimu` | 12-18 | `Surgery.make_sys_noimu` |
| `delete_subsystem` | 21-89 | `Surgery.takeKeep`, `Surgery.delete_subsystem`, `Surgery.delete_subsystem'`, `Surgery.delete_subsystems` |
| `_find_subsystem_indices` | 92-97 | `Surgery._find_subsystem_indices` |
| `_idx_map_and_keepers` | 100-109 | `Surgery._idx_map_and_keepers` |
| `_reindex_parent_array` | 112-114 | `Surgery._reindex_parent_array` |

## src/ring/sys_composer/inject_sys.py

| function | lines | model |
|---|---|---|
| `_tree_nan_like` | 9-12 | `Surgery._tree_nan_like` |
| `inject_system` | 22-110 | `Surgery.unionJointParams`, `Surgery.inject_system` |

## src/ring/sys_composer/morph_sys.py

| function | lines | model |
|---|---|---|
| `_autodetermine_new_parents` | 11-27 | `Morph.connected`, `Morph.connections`, `Morph._autodetermine_new_parents` |
| `_new_to_old_indices` | 30-43 | `Morph.findChildsOf`, `Morph._new_to_old_indices` |
| `_old_to_new_indices` | 46-51 | `Morph._old_to_new_indices` |
| `identify_system` | 64-108 | `Morph.resolveParent`, `Morph.checkParent`, `Morph.identifyLink`, `Morph.identify_system` |
| `morph_system` | 111-232 | `MorphSystem.useLink`, `MorphSystem.withPos`, `MorphSystem.cornerOf`, `MorphSystem._new_pos_min_max`, `MorphSystem.lower`, `MorphSystem.upper` and 6 more |
| `_new_transform1` | 238-295 | `MorphSystem.restPoses`, `MorphSystem.compensate`, `MorphSystem.moveUp`, `MorphSystem.setTransforms`, `MorphSystem._new_transform1` |
| `_permute_modify_geoms` | 298-315 | `MorphSystem._permute_modify_geoms` |
| `_per_link_arrays` | 318-335 | `MorphSystem.jointProperties` |
| `_swapped_joint_properties` | 338-361 | `MorphSystem.JointProps`, `MorphSystem.jointProperties`, `MorphSystem.swapWith`, `MorphSystem._swapped_joint_properties` |

## src/ring/utils/backend.py

| function | lines | model |
|---|---|---|
| `set_host_device_count` | 5-30 | `Package.set_host_device_count` |

## src/ring/utils/batchsize.py

| function | lines | model |
|---|---|---|
| `batchsize_thresholds` | 7-19 | `Batch.batchsize_thresholds` |
| `distribute_batchsize` | 22-35 | `Batch.distribute_batchsize` |
| `merge_batchsize` | 38-50 | `Batch.merge_batchsize`, `Batch.merge_batchsize3` |
| `expand_batchsize` | 53-63 | `Batch.expand_batchsize` |

## src/ring/utils/colab.py

| function | lines | model |
|---|---|---|
| `setup_colab_env` | 5-48 | – |

## src/ring/utils/dataloader.py

| function | lines | model |
|---|---|---|
| `make_generator` | 16-41 | `DataLoader.backendOf` |
| `_Dataset.__init__` | 48-56 | `DataLoader.Dataset`, `DataLoader.Dataset.init` |
| `_Dataset.__len__` | 58-59 | – |
| `_Dataset.__getitem__` | 61-65 | `DataLoader.Dataset.load`, `DataLoader.Dataset.get` |
| `_Dataset.listdir` | 68-69 | `DataLoader.listdir` |
| `_Dataset.__call__` | 71-72 | – |
| `TransformTransform.__init__` | 76-77 | – |
| `TransformTransform.__call__` | 79-82 | `DataLoader.transformTransform` |
| `pytorch_generator` | 85-116 | `DataLoader.torchInit`, `DataLoader.torchStep`, `DataLoader.pytorch_generator` |
| `eager_generator` | 119-132 | `DataLoader.eager_data`, `DataLoader.eager_generator` |
| `pygrain_generator` | 135-159 | `DataLoader.random_map` |

## src/ring/utils/dataloader_torch.py

| function | lines | model |
|---|---|---|
| `FolderOfPickleFilesDataset.__init__` | 14-17 | `DataLoader.folderDataset` |
| `FolderOfPickleFilesDataset.__len__` | 19-20 | `DataLoader.folderDataset` |
| `FolderOfPickleFilesDataset.__getitem__` | 22-26 | `DataLoader.folderDataset`, `DataLoader.folderGet` |
| `FolderOfPickleFilesDataset.listdir` | 29-30 | `DataLoader.folderDataset` |
| `dataset_to_generator` | 33-62 | `DataLoader.torchInit`, `DataLoader.torchStep` |

## src/ring/utils/hdf5.py

| function | lines | model |
|---|---|---|
| `save` | 20-31 | `Hdf5.save` |
| `load` | 34-51 | `Hdf5.load`, `Hdf5.loadRows`, `Hdf5Trees.load` |
| `_call_fn` | 54-55 | – |
| `load_from_multiple` | 58-77 | `Hdf5.load_from_multiple`, `Hdf5Trees.part`, `Hdf5Trees.load_from_multiple` |
| `load_length` | 85-101 | `Hdf5Trees.leaves`, `Hdf5Trees.load_length` |
| `_parse_path` | 104-119 | `Hdf5._parse_path` |
| `_tree_concat` | 122-131 | `Hdf5Trees.treeMap`, `Hdf5Trees.join`, `Hdf5Trees._tree_concat` |
| `_is_namedtuple` | 134-136 | – |
| `_savetree` | 139-159 | `Hdf5._savetree`, `Hdf5.saveSeq`, `Hdf5.saveDict` |
| `_loadtree` | 162-180 | `Hdf5.takeRows`, `Hdf5.loadRows`, `Hdf5Trees.takeLeaf`, `Hdf5Trees.load` |
| `_lazy_tree_map` | 183-198 | `Hdf5.ofGroup`, `Hdf5._lazy_tree_map`, `Hdf5.mapItems`, `Hdf5Trees.join` |

## src/ring/utils/normalizer.py

| function | lines | model |
|---|---|---|
| `make_normalizer_from_generator` | 17-56 | `Normalizer.mean`, `Normalizer.std`, `Normalizer.draws`, `Normalizer.concat`, `Normalizer.permute`, `Normalizer.slice` and 4 more |

## src/ring/utils/path.py

| function | lines | model |
|---|---|---|
| `parse_path` | 7-62 | `Files.dotted`, `Files.parse_path` |

## src/ring/utils/randomize_sys.py

| function | lines | model |
|---|---|---|
| `_find_children` | 15-26 | `Anchors._find_children` |
| `_find_root_of_subsys_that_contains_body` | 29-34 | `Anchors.inSubsys`, `Anchors.findRoot`, `Anchors._find_root_of_subsys_that_contains_body` |
| `_assign_anchors_to_subsys` | 37-49 | `Anchors._assign_anchors_to_subsys` |
| `_morph_extract_subsys` | 52-56 | `Anchors._morph_extract_subsys` |
| `randomize_anchors` | 59-74 | `Anchors.hold`, `Anchors.randomize_anchors` |
| `randomize_hz` | 80-105 | `Hz.hzStep`, `Hz.randomize_hz` |
| `randomize_hz_finalize_fn_factory` | 108-119 | `Flatten.randomize_hz_finalize_fn` |

## src/ring/utils/register_gym_envs/saddle.py

| function | lines | model |
|---|---|---|
| `Env.__init__` | 36-56 | `SaddleEnv.Env` |
| `Env.reset` | 58-73 | `SaddleEnv.Env`, `SaddleEnv.observations`, `SaddleEnv.reset` |
| `Env._get_obs` | 75-76 | `SaddleEnv.get_obs_info` |
| `Env._get_info` | 78-79 | `SaddleEnv.get_obs_info` |
| `Env.step` | 81-91 | `SaddleEnv.step` |
| `Env._abs_angle` | 93-94 | `SaddleEnv.abs_angle` |
| `Env.render` | 96-109 | `SaddleEnv.render` |

## src/ring/utils/utils.py

| function | lines | model |
|---|---|---|
| `tree_equal` | 19-34 | `Compare.tree_equal`, `Compare.treeEqualDict`, `Compare.treeEqualList` |
| `_sys_compare_unsafe` | 37-54 | `Compare.compareDict`, `Compare.compareVal`, `Compare.compareZip`, `Compare._sys_compare_unsafe` |
| `sys_compare` | 57-61 | `Compare.sys_compare` |
| `to_list` | 64-68 | – |
| `dict_union` | 71-95 | `Utils.unionStep`, `Utils.dict_union` |
| `dict_to_nested` | 98-102 | `Utils.dict_to_nested` |
| `save_figure_to_rgba` | 105-112 | – |
| `pytree_deepcopy` | 115-130 | `Deepcopy.copyKids`, `Deepcopy.pytree_deepcopy` |
| `import_lib` | 133-150 | – |
| `pickle_save` | 153-156 | `Files.pickle_save` |
| `pickle_load` | 159-165 | `Files.pickle_load` |
| `primes` | 168-179 | `Batch.primesInner`, `Batch.primesOuter`, `Batch.primes` |
| `gcd` | 182-185 | `Batch.gcd` |
| `replace_elements_w_nans` | 188-228 | `Utils.findGood`, `Utils.replaceLoop`, `Utils.replace_elements_w_nans` |
