{
 "C01": ["proved", "scan slices partition the arrays, every link sees its own slice, forward and reverse; wrong lengths raise; q_size/qd_size/idx_map agree."],
 "C02": ["proved", "name/idx maps are inverse, world and missing names, idx_map, duplicates rejected by parse."],
 "C03": ["proved", "delete_subsystem, one name and list of names, strict and lenient; surviving links keep their view; world geometries are dropped, deleting everything raises."],
 "C04": ["proved", "inject_system: names, views of host and guest links, world geometries, globals; duplicates and unknown bodies rejected."],
 "C05": ["proved", "delete after inject is the identity up to joint_params keys of the guest and the world geometries of the host, which every deletion drops."],
 "C06": ["proved", ""],
 "C07": ["proved", "single-rooted trees in any numbering; systems with several roots raise KeyError (C07_several_roots)"],
 "C08": ["partial", "round trip proved for savable systems; cor joints, missing model name, point boxes away from the link, numeric names and xyz transforms are not kept (the _fails theorems); world geometries and integrator options are not written"],
 "C09": ["proved", "change_joint_type, freeze (one and many), unfreeze, free->cor: exactly the addressed link changes. Joint types with init_joint_params (XML reload) are not modelled."],
 "C10": ["proved", "children exact and ordered; subsystem = proper descendants, without repetition."],
 "C100": ["partial", "Values, keys and independence of the devices proved for filters that act per sequence and as many different names as links. Other numbers of names, repeated names, batches the devices do not divide and filters that mix sequences fail, with theorems."],
 "C101": ["partial", "Proved for indices inside the batch; outside it, for T, squeeze, reshape and hstack of transforms and for motions created from one batched argument the property fails, with theorems. Other axes than the first and broadcasting updates are not modelled."],
 "C102": ["partial", "Proved for trees without _Base (sharing) and without named tuples (kinds); for those, for strings and for cycles the property fails, with theorems."],
 "C103": ["partial", "Proved in full for start, id and registered types; that changes made to custom joints survive fails, with a theorem."],
 "C104": ["partial", "Proved if the flag for the number of devices only occurs at the beginning of words; otherwise a word is cut, with a theorem."],
 "C105": ["partial", "Proved for rows, files and commands; existing files named like the commands, equal names in different folders, missing files and a metric named like the step fail, with theorems."],
 "C106": ["partial", "Proved for the single file, the eager generator, and folders without NaNs; with NaNs the folder holds other sequences or is not completed, with theorems."],
 "C107": ["proved", "Proved in full; beyond the stated bounds the simulation diverges (C107_explodes_fails, C107_diverges_fails) and the two simulations of the IMU do not agree (C107_agree_fails)."],
 "C108": ["partial", "Proved for functions that return a tuple, with as many outputs in the model, and for names that are not old names of later arguments; the other cases and `save_model_tf` accept wrong exports, with theorems."],
 "C109": ["partial", "The equivalence, the register and drawing are proved in full; the last sentence is false: later times, overwrites for joint types and the centre of rotation are not looked at, with theorems."],
 "C11": ["proved", "All built-in joints, all vectors; quaternion blocks whose entries are all below 1e-8 are proved to be mapped to zero (C11_tiny_fails)."],
 "C110": ["proved", "Heap model of dicts; all parts of the statement hold."],
 "C111": ["proved", "For all joints whose declared axes are the velocities of their transforms; the others are excluded in the statement (see C78)."],
 "C112": ["proved", "All built-in joints; the joint transforms of the moved system differ from the old ones at the roots alone."],
 "C113": ["proved", "Orientations are excluded in the statement: the integrator turns them with a velocity up to 1e-8 off (see C78)."],
 "C114": ["partial", "Proved for the exact inverse of the mass matrix (mass_mat_iters = 0) and dt >= 0, damping and armature not negative; with the approximate inverse trees influence each other, with a theorem."],
 "C115": ["proved", "Under the conditions under which C28 says that a step succeeds."],
 "C116": ["proved", "For the injection every link must have the parameters of its joint type in its own system if the other system has some (OwnParams)."],
 "C117": ["proved", "For states with unit quaternions; the mass matrix for every system after forward kinematics (`Dynamic`)."],
 "C118": ["proved", ""],
 "C119": ["proved", "The simulation for `mass_mat_iters = 0`; the armature of the scaled system compensates the millionth on the diagonal."],
 "C12": ["proved", "All algebraic laws of quat_mul, quat_inv, rotate, rotate_quat over any commutative ring."],
 "C120": ["proved", ""],
 "C13": ["proved", "quat_to_3x3 and rotate_matrix for all unit quaternions; quat_from_3x3 inverts up to sign unless w = 0, where it is proved to fail (division by zero)."],
 "C14": ["partial", "wrap_to_pi complete. angle_error: exact formula, range, symmetry, signs, left factors; invariance under a common right factor holds only up to 1e-7 because of the componentwise tolerance (negation proved in C14_angle_error_right_fails)."],
 "C15": ["proved", "Rodrigues formula (angle negated by convention), composition, degenerate axis, round trip in and outside the tolerance."],
 "C16": ["proved", "Decomposition, rotation about k, minimal residual, orthogonality, transfer of heading."],
 "C17": ["proved", "quat_euler unit and intrinsic/extrinsic duality, closed formula, reading back the angles."],
 "C18": ["proved", "Group laws, point maps, motion/force transport."],
 "C19": ["proved", "Power invariance, cross products, 6x6 matrices."],
 "C20": ["proved", "Congruence, uniqueness, energy, composition, additivity, 6x6 matrix."],
 "C21": ["proved", "Sum over geometries, order independence, mass, symmetry, non-negative energy."],
 "C22": ["proved", "Forward kinematics is the unique solution of the pose recursion, equals the composition along the path, depends only on the ancestors and commutes with a rigid motion of the base."],
 "C23": ["proved", "Exact equality for all invertible joints; for free_2d, cor and saddle the function is proved to raise always."],
 "C24": ["proved", "zip/unzip inverse to each other, relative poses, delete_to_world, match_xs, xs_from_raw."],
 "C25": ["proved", "Keys, values by name, invariance under a change of the world frame."],
 "C26": ["proved", "For all systems with rigid transforms and registered joints: the mass matrix is the linear part of inverse dynamics."],
 "C27": ["proved", "Symmetric, twice the kinetic energy of the links plus armature, non-negative, positive with armature; forward dynamics (exact inversion) solves the balance equation."],
 "C28": ["proved", "strapdown, one integration step, step with substeps, any number of steps; |dt| < 1e8."],
 "C29": ["partial", "Quadratic convergence and monotonicity for starting residual < 1 proved; monotonicity for replaced guesses is false (C29_monotone_fails, C29_converges_fails: stale residual)."],
 "C30": ["partial", "false as stated: C30_fails (all max_it+1 draws rejected, the last rejected one is kept). Proved: in the box whenever the rejection search succeeds (C30_box_partial), speed bound in every case (C30_speed)"],
 "C31": ["partial", "[-pi, pi] for every stream (C31_pi), lower end of the range of motion always (C31_lower_partial), both ends without minimal speed or with the default half-size; upper end false in general: C31_upper_fails"],
 "C32": ["partial", "termination, order, coverage of all sample times and layout proved; room for every knot is false (C32_room_fails: the last but one knot may be overwritten); strict increase if Ts <= t_min"],
 "C33": ["partial", "all parts proved except constancy left of the first knot, which is false (C33_left_fails)"],
 "C34": ["partial", "join_motionconfigs itself never returns: C34_join_fails (a dict is put into a set), C34_join_self_fails; C34_switch_partial: without comparing that dict the joined configuration switches at the boundaries as claimed; C34_rejects: disagreement is rejected"],
 "C35": ["proved", "uniform draws in [0,1) are the only assumption on the random stream"],
 "C36": ["proved", ""],
 "C37": ["partial", "proved for trajectories of at least 3n samples and for rotation rates above the tolerance of the axis-angle extraction; shorter trajectories change length (C37_short_fails) and slower rotations read zero (C37_slow_fails)"],
 "C38": ["partial", "proved for at least three samples; fewer raise (C38_short_fails)"],
 "C39": ["proved", ""],
 "C40": ["partial", "list sizes: the divisibility check compares with prime factors and rejects valid requests (C40_list_fails); everything else proved"],
 "C41": ["proved", ""],
 "C42": ["proved", "exact division instead of int(a / b) on floats"],
 "C43": ["proved", "aliasing of the handed out arrays (pytree_deepcopy) is outside the value model"],
 "C44": ["partial", "randomize_hz in utils accepts configurations of different durations and overwrites them (C44_unequal_fails); the generator rejects them"],
 "C45": ["partial", "All statements are proved, with two exceptions where the code is wrong: renaming links to numbers loses data if a link is named like the number of another (C45_rename_fails), and the whole orientation of the roots (or links by number) cannot be asked for on its own (C45_rootfull_fails). Of several IMUs on one segment the last one is used (ImuOf)."],
 "C46": ["partial", "proved for systems with at least one link that is not an IMU: names, parents, joint types and all data of the other links are restored, coordinates and poses are picked by name. Geometries of IMUs are lost (C46_geoms_fails), a system of IMUs only raises (C46_only_imus_fails)"],
 "C47": ["proved", ""],
 "C48": ["partial", "Nested dictionaries merge as claimed, with the exact condition under which an error is raised; arrays at the first level are never overwritten, also not with overwrite=True (C48_overwrite_leaf_fails)."],
 "C49": ["partial", "Whatever is returned is as claimed; returning is proved if a good allowed sample exists and draws are fair; with only NaN samples allowed the function loops forever (C49_hangs_fails)."],
 "C50": ["partial", "Lists and tuples up to ten elements, dictionaries, named tuples with alphabetical fields; longer lists are reordered (C50_order_fails), named tuple fields too (C50_fields_fails)."],
 "C51": ["partial", "Rows are right, array by array in trees of any structure, but come in increasing order of the indices (C51_order_fails); repeated indices are refused (C51_repeated_fails); named tuples cannot be loaded from two files (C51_namedtuple_fails); the length of the first array counts for all (C51_lengths_fails)."],
 "C52": ["partial", "pickle_save and hdf5 save; to_folder with overwrite=False replaces existing pickles (C52_folder_fails)."],
 "C53": ["partial", "tree_equal is exact and total on consistent systems; sys_compare raises on systems without geometries, with more geometries or other kinds (C53_empty_fails, C53_count_fails, C53_kind_fails); order matters inside the tolerance (C53_order_fails); NaN (C53_nan_fails)"],
 "C54": ["partial", "Positive capacities (C54_zero_fails for zero); without tracked metrics the last n are kept; with tracked metrics only evaluated episodes are stored once n of them exist, before that unevaluated ones are stored too (C54_unevaluated_fails)."],
 "C55": ["partial", "All histories after the warmup. Within the warmup large and NaN gradients are applied (C55_warmup_fails); the counter counts consecutive large gradients, also those that are applied (C55_counter_fails)."],
 "C56": ["partial", "NaN, episode limit and stopping proved; the gradient callback is right once as many gradients were seen as are demanded in a row, before that fewer suffice (C56_first_fails). Stopping after a kill is C57_run."],
 "C57": ["proved", "For arbitrary generators, step functions and callbacks; python's shuffle is any permutation."],
 "C58": ["proved", ""],
 "C59": ["partial", "the scaling wrapper reorders ten features (C59_order_fails); filters without batch support and RING assumed to keep shapes"],
 "C60": ["partial", "Keys that are not empty and do not contain the separator, or more generally different joined names; otherwise values are lost (C60_collision_fails)."],
 "C61": ["partial", "a failed registration with overwrite=True removes the type (C61_atomic_fails); refused changes stay noted (C61_note_fails)"],
 "C62": ["proved", ""],
 "C63": ["partial", "rows, widths, unit quaternions and angle ranges for every built-in joint type; the number of rows of frozen joints differs when N is not given (C63_frozen_fails)"],
 "C64": ["partial", "configuration (C64_config) and all joint types except cor, for which it is false (C64_cor_fails); overwrites for joint types are kept, so free joints of the registered slow motions move (C109_nomotion_fails)"],
 "C65": ["proved", "columns and keys of draw_random_q (C65_draw), all keys different if splitting never collides (C65_fresh)"],
 "C66": ["proved", "rows of normal draws that are (numerically) the zero vector are excluded by hypothesis"],
 "C67": ["partial", "Prefixes without a dot; with a dot all sequences end up in the same file (C67_prefix_fails)."],
 "C68": ["proved", "Values are exact numbers, infinities or NaN."],
 "C69": ["proved", ""],
 "C70": ["proved", ""],
 "C71": ["proved", ""],
 "C72": ["partial", "Everything is proved for every reversal; what fails is in the code: with several roots all new roots get the joint of the first old root (C72_several_roots_fails)."],
 "C73": ["partial", "the last sentence of the statement is a defect of the code: C73_world_geoms_fails; everything else is C73_anchors"],
 "C74": ["partial", "The code does not scale p3d, free_2d, cor and saddle joints, hinges beyond half a turn or half turns as stated, and the random root motion only fits 100 Hz recordings: C74_other_joints_fails, C74_large_angle_fails, C74_half_turn_fails, C74_rate_fails."],
 "C75": ["proved", "Without a setup_fn of the user and without motion artifacts (these parts on their own: C46). C75_simulated is stated without unactuated links; with these see C62_dynsim."],
 "C76": ["partial", "The time step that the generator itself adds cannot be flattened: C76_dt_fails. Everything else in the statement is proved."],
 "C77": ["partial", "A start that ends with NaNs wins the selection (C77_diverged_fails), and a vanishing quaternion counts as every orientation (C77_zero_fails); proved: everything for runs without NaNs and quaternions that are not negligible."],
 "C78": ["partial", "Holds for hinges, sliders, three-dimensional sliders, spherical and frozen joints and for systems of these; for free, free_2d, cor and saddle joints the code violates it, the exact condition is proved."],
 "C79": ["partial", "Holds for rr; for rr_imp and rsaddle the declared motion is wrong and the residual angle can leave its bounds; the exact conditions and weaker bounds are proved."],
 "C80": ["partial", "Restriction, functions, rotation, translation and registration are proved; the declared motion, centred functions, reused factories, half-size of the range of motion and coordinates violate the property, with witnesses; the exact conditions and weaker bounds are proved."],
 "C81": ["partial", "Making datasets, their elements, epochs of both backends and the round trip from to_folder are proved; pairing of folders, foreign files, seeding of transforms and the optional transform of grain violate the property, with witnesses."],
 "C82": ["partial", "Sampling, statistics, standardization and invertibility are proved; features that do not vary in the sample violate the last sentence, with a witness."],
 "C83": ["partial", "The round trip of networks in wrappers, names, attributes and unwrapping are proved; lost names, other filters and other classes violate the property, with witnesses for all inputs."],
 "C84": ["partial", "Series, saving, uploads, checkpoints and the order of closing are proved; names with dots, existing files, the file of the logger and values that are not finite violate the property, with witnesses."],
 "C85": ["partial", "Equality with truncated backpropagation on one device, independence of devices, chunks and carried states are proved; lengths, changing batch sizes, other reductions and wrong link names violate the property, with witnesses."],
 "C86": ["partial", "Start, callbacks and their order, episodes, saved parameters, checkpoints and loggers are proved; tracking without a file, one episode, data of resumed runs, exceptions and the shared default list violate the property, with witnesses."],
 "C87": ["partial", "Group laws, quaternion and Euler forms, XtoV, the derivative rule of safe_arccos and the tangent of safe_arcsin are proved; the value of safe_arcsin under differentiation is wrong, with witnesses."],
 "C88": ["partial", "The average is proved in full; the angles are proved if the first rotation is not negligible, otherwise the sign is lost, with witnesses."],
 "C89": ["proved", ""],
 "C90": ["partial", "All statements are proved; they fail for the documented example of a parent array, for misspelt keyword arguments and for the default sampling frequency of RNNO, with witnesses."],
 "C91": ["partial", "Everything stated about observations, rewards and truncation is proved; it fails for the action zero, for pictures after reset and after steps, and for recordings of one sample, with witnesses."],
 "C92": ["partial", "Schedule, clipping and the use of gradients are proved for all histories; the schedule with cos_decay_twice fails for one and for odd numbers of steps, and NaN spreads in the warm-up, with witnesses."],
 "C93": ["partial", "Poses, bodies, cameras, colours and coordinate systems are proved; the axis of cylinders and capsules with MuJoCo, boxes and the length of capsules with vispy fail, with witnesses. Pictures are not modelled."],
 "C94": ["partial", "Proved for all histories of calls for which scenes could be made; after a failed call and with vispy_backend it fails, with witnesses. Pictures are a parameter."],
 "C95": ["partial", "Poses, lengths, exactness, names, colours and geometries proved for all systems; a prediction without roots, roots child-to-parent and geometries of the world fail, with witnesses."],
 "C96": ["proved", "Proved in full: limits, bounds and rest for 70 dt + 625 dt^2 < 4; on the boundary and beyond it uniform motions are not followed (C96_boundary_fails, C96_diverges_fails)."],
 "C97": ["partial", "Canvas, poses, colours, cameras and switches proved for all histories; root axes that pile up or cannot be switched off, links without geometries, errors in init and edges of cylinders fail, with witnesses."],
 "C98": ["partial", "Loading, saving, the round trip and renaming proved; other extensions, the home directory in to_xml, the seed of a text, empty paths and folders made by loading fail, with theorems for all such inputs. The round trip needs the extension .xml and a printer the parser inverts on the saved document."],
 "C99": ["partial", "Comments proved for texts with single spaces and one equals sign per word; listing proved for tidy folders. Leading or double spaces, further equals signs and other files in the folder fail, with theorems."]
}
