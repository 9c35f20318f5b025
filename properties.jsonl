{"id": "C01", "title": "scan hands every link exactly its own slice of q / qd", "statement": "For every system, `System.scan` visits the links in link order (reversed when reverse=True), gives each link the slice of a 'q' ('d') array whose width is that link's joint-type width, these slices are adjacent, disjoint and cover the array exactly, and the stacked result is always in link order regardless of the direction. `idx_map('q'|'d')` and `q_size`/`qd_size` agree with that partition.", "quantifier": "all systems (any number of links, any joint types with registered widths), all arrays, both directions", "why_tests_cant": "The number of links and joint types is unbounded; tests exercise one ant and one three-segment system.", "anchors": ["src/ring/base.py:_scan_sys", "src/ring/base.py:System.scan", "src/ring/base.py:System.idx_map", "src/ring/base.py:System.q_size"]}
{"id": "C02", "title": "link names and indices are inverse to each other", "statement": "On a system with unique link names `name_to_idx` and `idx_to_name` are mutually inverse, a missing name is reported as an error instead of a wrong index, index -1 is accepted only with allow_world, and `idx_map('l')` agrees with `name_to_idx`.", "quantifier": "all link-name lists without duplicates, all names, all indices", "why_tests_cant": "Ranges over arbitrary name lists.", "anchors": ["src/ring/base.py:System.name_to_idx", "src/ring/base.py:System.idx_to_name", "src/ring/base.py:System.idx_map"]}
{"id": "C03", "title": "delete_subsystem removes exactly the link and its descendants", "statement": "Deleting a link from a well-formed system removes precisely that link and all of its descendants; every surviving link keeps its name, parent (by name), joint type, transforms, mocap info and its own damping/armature/stiffness/zero-point entries; every surviving geometry stays on the same (by name) link; the result is again well-formed. Deleting an unknown name raises under strict and is the identity otherwise.", "quantifier": "all well-formed systems, all link names, lists of names", "why_tests_cant": "Trees of arbitrary shape and size; a test checks a handful.", "anchors": ["src/ring/sys_composer/delete_sys.py:delete_subsystem", "src/ring/sys_composer/delete_sys.py:_find_subsystem_indices", "src/ring/sys_composer/delete_sys.py:_reindex_parent_array"]}
{"id": "C04", "title": "inject_system concatenates two trees without disturbing either", "statement": "Injecting a system at a body yields a system whose first links are the host's links unchanged and whose remaining links are the guest's, with parents shifted by the host's link count and guest roots attached to the chosen body (or to the world); all per-link and per-dof arrays are concatenated; duplicate link names are rejected.", "quantifier": "all pairs of well-formed systems, all attachment points", "why_tests_cant": "Pairs of arbitrary trees.", "anchors": ["src/ring/sys_composer/inject_sys.py:inject_system", "src/ring/sys_composer/inject_sys.py:_tree_nan_like"]}
{"id": "C05", "title": "deleting an injected subsystem gives back the host", "statement": "For a single-rooted guest without world-attached geometries, `delete_subsystem(inject_system(host, guest, at), root_of_guest)` is the host system again, in every field that describes links, degrees of freedom and geometries, except that geometries attached to the world are dropped.", "quantifier": "all pairs of well-formed systems with disjoint names, all attachment points", "why_tests_cant": "Unit tests compare three concrete systems.", "anchors": ["src/ring/sys_composer/inject_sys.py:inject_system", "src/ring/sys_composer/delete_sys.py:delete_subsystem"]}
{"id": "C06", "title": "identify_system returns a topological renumbering of the requested tree", "statement": "Given new parents that form a forest over the links, the returned permutation is a bijection of the links, the returned parent array is the requested parent relation expressed in the new numbering, and in it every parent precedes its children (depth-first preorder, siblings in old-index order). If the system is already in depth-first preorder and the parents are unchanged the permutation is the identity. If the requested parents contain a cycle an error is raised.", "quantifier": "all forests over any number of links", "why_tests_cant": "Arbitrary forests; the test-suite has three literal parent arrays.", "anchors": ["src/ring/sys_composer/morph_sys.py:identify_system", "src/ring/sys_composer/morph_sys.py:_new_to_old_indices", "src/ring/sys_composer/morph_sys.py:_old_to_new_indices"]}
{"id": "C07", "title": "re-rooting a tree at a new anchor only reverses the path to the anchor", "statement": "For every single-rooted tree and every link, the automatically determined parents make that link the only child of the world, keep the undirected set of link-link connections, and differ from the old parents only on the path from the old root to the anchor. Re-rooting back at the old root restores the original parents.", "quantifier": "all single-rooted trees in topological numbering, all anchors", "why_tests_cant": "Arbitrary trees and anchors.", "anchors": ["src/ring/sys_composer/morph_sys.py:_autodetermine_new_parents", "src/ring/sys_composer/morph_sys.py:morph_system"]}
{"id": "C08", "title": "an XML save/load round trip preserves the kinematic tree", "statement": "`System.from_str(sys.to_str())` describes the same mechanism: links are renumbered to depth-first preorder and otherwise keep name, parent (by name), joint type, transforms, damping, armature, stiffness, zero point, mocap info, and geometries stay with their link; a system that is already in depth-first preorder keeps its numbering.", "quantifier": "all well-formed systems", "why_tests_cant": "Arbitrary trees; tests round-trip the shipped example files only.", "anchors": ["src/ring/io/xml/to_xml.py:save_sys_to_str", "src/ring/io/xml/from_xml.py:load_sys_from_str", "src/ring/io/xml/abstract.py:AbsDampArmaStiffZero"]}
{"id": "C09", "title": "changing, freezing or unfreezing a joint affects that link only", "statement": "`freeze`, `unfreeze`, `change_joint_type` and the free->cor replacement change the joint type of exactly the addressed link, resize that link's damping / armature / stiffness / zero-point / q slices to the new joint type's widths, and leave the joint type and all per-dof entries of all other links untouched.", "quantifier": "all systems, all link names, all old/new joint types", "why_tests_cant": "Flat per-dof arrays have unbounded layout combinations.", "anchors": ["src/ring/base.py:System.freeze", "src/ring/base.py:System.unfreeze", "src/ring/base.py:System.change_joint_type", "src/ring/base.py:_update_sys_if_replace_joint_type"]}
{"id": "C10", "title": "descendant and children queries are exact", "statement": "`children(name)` returns exactly the links whose parent is that link, in link order; `findall_bodies_subsystem(name)` returns each proper descendant of the link exactly once (its children first, then the sub-result of each child); the children of the world are the roots.", "quantifier": "all well-formed systems, all names", "why_tests_cant": "Arbitrary trees.", "anchors": ["src/ring/base.py:System.children", "src/ring/base.py:System.findall_bodies_subsystem"]}
{"id": "C11", "title": "minimal coordinates built from a vector are valid joint coordinates", "statement": "`coordinate_vector_to_q` keeps the length, turns every quaternion block with an entry larger than 1e-8 (smaller ones become zero) into a unit quaternion, wraps every hinge angle into [-pi, pi), leaves translations untouched, and is idempotent; `State.create(sys)` starts from a valid q: unit quaternions at every quaternion joint and zero elsewhere, with q and qd of the system's sizes.", "quantifier": "all systems, all real vectors", "why_tests_cant": "Infinite input space.", "anchors": ["src/ring/base.py:System.coordinate_vector_to_q", "src/ring/base.py:State.create", "src/ring/base.py:System.joint_type_simplification"]}
{"id": "C12", "title": "quaternions act as rotations", "statement": "`quat_mul` is associative with unit [1,0,0,0]; the norm is multiplicative; for unit quaternions `quat_inv` is the two-sided inverse; `rotate` is linear, preserves dot products and cross products, and rotating by a product is rotating twice (right factor first); q and -q rotate identically.", "quantifier": "all quaternions and vectors over the reals", "why_tests_cant": "Uncountable input space.", "anchors": ["src/ring/maths.py:quat_mul", "src/ring/maths.py:quat_inv", "src/ring/maths.py:rotate", "src/ring/maths.py:rotate_quat"]}
{"id": "C13", "title": "rotation matrices and quaternions agree", "statement": "For a unit quaternion `quat_to_3x3` is an orthogonal matrix with determinant one, its action equals `rotate`, it maps products to products, and `quat_from_3x3(quat_to_3x3(q))` gives q or -q whenever the scalar part is non-zero.", "quantifier": "all unit quaternions", "why_tests_cant": "Uncountable input space; the one random quaternion in the tests never has scalar part zero.", "anchors": ["src/ring/maths.py:quat_to_3x3", "src/ring/maths.py:quat_from_3x3"]}
{"id": "C14", "title": "wrap_to_pi and the angle helpers return the canonical representative", "statement": "`wrap_to_pi` returns a value in [-pi, pi), congruent to its argument modulo 2*pi, is the identity on [-pi, pi) and 2*pi-periodic; `angle_error` is symmetric, invariant under sign flips of either quaternion and under a common left or right rotation, is zero for equal orientations and lies in [0, pi].", "quantifier": "all real angles, all unit quaternions", "why_tests_cant": "Uncountable input space.", "anchors": ["src/ring/maths.py:wrap_to_pi", "src/ring/maths.py:angle_error", "src/ring/maths.py:quat_angle"]}
{"id": "C15", "title": "axis-angle and quaternion conversion are inverse", "statement": "`quat_rot_axis` of a non-degenerate axis is a unit quaternion that leaves the axis fixed, composition about a common axis adds angles, and `quat_rot_axis(*quat_to_rot_axis(q))` represents the same rotation as q for unit quaternions.", "quantifier": "all axes of non-negligible length, all real angles, all unit quaternions", "why_tests_cant": "Uncountable input space.", "anchors": ["src/ring/maths.py:quat_rot_axis", "src/ring/maths.py:quat_to_rot_axis"]}
{"id": "C16", "title": "primary-axis projection splits a rotation correctly", "statement": "`quat_project(q, k)` returns (q_pri, q_res) with q = q_res * q_pri, q_pri a rotation about k, and among all rotations about k the returned one leaves the smallest residual rotation; `quat_transfer_heading` keeps the inclination of the second argument.", "quantifier": "all unit quaternions, all unit axes", "why_tests_cant": "Quantifies over all rotations about the axis.", "anchors": ["src/ring/maths.py:quat_project", "src/ring/maths.py:quat_transfer_heading"]}
{"id": "C17", "title": "Euler angle conversions are consistent", "statement": "`quat_euler` with convention xyz equals `euler_to_quat`; `quat_to_euler(euler_to_quat(a)) = a` for all angles in the open principal ranges; all results are unit quaternions.", "quantifier": "all angle triples", "why_tests_cant": "Uncountable input space.", "anchors": ["src/ring/maths.py:quat_euler", "src/ring/maths.py:euler_to_quat", "src/ring/maths.py:quat_to_euler"]}
{"id": "C18", "title": "rigid transforms form a group", "statement": "`transform_mul` is associative, has the zero transform as unit, `transform_inv` is a two-sided inverse for unit rotations, and moving a point / motion vector through a product equals moving it twice.", "quantifier": "all transforms with unit quaternions", "why_tests_cant": "Uncountable input space.", "anchors": ["src/ring/algebra.py:transform_mul", "src/ring/algebra.py:transform_inv", "src/ring/algebra.py:transform_move_into_frame"]}
{"id": "C19", "title": "power is frame invariant", "statement": "`motion_dot(transform_motion(t,m), transform_force(t,f)) = motion_dot(m,f)`; `transform_motion` preserves `motion_cross`; `motion_cross_star` is the negative transpose of `motion_cross`; `transform_force` of `motion_cross_star` commutes likewise; the 6x6 matrices of the spatial module represent the same operators.", "quantifier": "all unit transforms, motions and forces", "why_tests_cant": "Uncountable input space.", "anchors": ["src/ring/algebra.py:transform_motion", "src/ring/algebra.py:transform_force", "src/ring/algebra.py:motion_cross", "src/ring/algebra.py:motion_cross_star", "src/ring/spatial.py:crm", "src/ring/spatial.py:crf"]}
{"id": "C20", "title": "inertia is transformed consistently and conserves mass and energy", "statement": "`transform_inertia` keeps the mass, composes along products of transforms, and satisfies (X I X^-1)(X v) = X(I v), hence the kinetic energy of a moving body is the same in every frame; `inertia_mul_motion` agrees with the 6x6 matrix `Inertia.as_matrix`.", "quantifier": "all inertias, unit transforms, motions", "why_tests_cant": "Uncountable input space.", "anchors": ["src/ring/algebra.py:transform_inertia", "src/ring/algebra.py:inertia_mul_motion", "src/ring/base.py:Inertia"]}
{"id": "C21", "title": "link inertia is the sum over its geometries, independent of their order, and physical", "statement": "The inertia parsed for a link is the sum of its geometries' inertias shifted by the geometry pose, does not depend on the order in which geometries are listed, has total mass equal to the sum of masses, and yields non-negative kinetic energy for every motion.", "quantifier": "all lists of geometries with non-negative masses and dimensions", "why_tests_cant": "Any number of geometries and any pose.", "anchors": ["src/ring/base.py:_parse_system", "src/ring/base.py:Inertia.create", "src/ring/spatial.py:mcI", "src/ring/base.py:Box", "src/ring/base.py:Capsule"]}
{"id": "C22", "title": "forward kinematics composes joint transforms along the path from the world", "statement": "After `forward_kinematics_transforms` each link's pose is its joint transform, then its fixed transform, then its parent's pose (the world's identity for roots); equivalently it is the ordered product along the path from the world. Changing q of a link moves only that link and its descendants.", "quantifier": "all well-formed systems and all q", "why_tests_cant": "Arbitrary depth of the tree.", "anchors": ["src/ring/algorithms/kinematics.py:forward_kinematics_transforms"]}
{"id": "C23", "title": "inverse kinematics inverts forward kinematics", "statement": "For systems whose joints are free, spherical, frozen, prismatic or revolute and q with unit quaternions and hinge angles in [-pi, pi), `inverse_kinematics(forward_kinematics(q)) = q` (up to the sign of quaternions).", "quantifier": "all well-formed systems, all admissible q", "why_tests_cant": "Arbitrary trees and coordinates; the test uses one system and five seeds.", "anchors": ["src/ring/algorithms/kinematics.py:inverse_kinematics", "src/ring/algorithms/jcalc.py:_inv_kin_free"]}
{"id": "C24", "title": "absolute and relative poses convert losslessly", "statement": "`zip_xs` and `unzip_xs` are inverse for unit rotations, `unzip_xs` recovers the relative poses, `delete_to_world_pos_rot` puts the roots at the identity and keeps all relative poses, and `match_xs` selects each link of the system from the recording by name.", "quantifier": "all well-formed systems and all time-indexed poses", "why_tests_cant": "Arbitrary trees.", "anchors": ["src/ring/sim2real/sim2real.py:zip_xs", "src/ring/sim2real/sim2real.py:unzip_xs", "src/ring/sim2real/sim2real.py:delete_to_world_pos_rot", "src/ring/sim2real/sim2real.py:match_xs"]}
{"id": "C25", "title": "relative-pose targets are complete and do not depend on the world frame", "statement": "`rel_pose` yields exactly one entry per non-root link, the entry is the child orientation relative to the parent taken at the link name, and it is unchanged when the whole scene is rotated.", "quantifier": "all systems, pose recordings, global rotations", "why_tests_cant": "Arbitrary trees and rotations.", "anchors": ["src/ring/algorithms/sensors.py:rel_pose"]}
{"id": "C26", "title": "mass matrix and inverse dynamics agree", "statement": "For every system state, tau(q, qd, qdd) - tau(q, qd, 0) computed by the recursive Newton-Euler pass equals the composite-rigid-body mass matrix (without armature) times qdd, i.e. the two recursions describe the same equation of motion.", "quantifier": "all well-formed systems, all states and accelerations", "why_tests_cant": "Quantifies over trees of any depth and all real states.", "anchors": ["src/ring/algorithms/dynamics.py:compute_mass_matrix", "src/ring/algorithms/dynamics.py:inverse_dynamics"]}
{"id": "C27", "title": "the mass matrix is symmetric and positive", "statement": "The computed mass matrix is symmetric, its quadratic form equals twice the kinetic energy of the moving links, hence it is positive semidefinite for physical inertias and positive definite when every armature is positive, so `forward_dynamics` solves an invertible system.", "quantifier": "all well-formed systems and states", "why_tests_cant": "Trees of any depth.", "anchors": ["src/ring/algorithms/dynamics.py:compute_mass_matrix", "src/ring/algorithms/dynamics.py:forward_dynamics"]}
{"id": "C28", "title": "simulation keeps orientations normalised", "statement": "One `step` of the semi-implicit Euler integrator maps unit quaternions of free/cor/spherical joints to unit quaternions whatever the velocities, with zero velocity the orientation is unchanged, and the velocity update precedes the position update.", "quantifier": "all states, all time steps, any number of steps", "why_tests_cant": "Any number of steps.", "anchors": ["src/ring/algorithms/dynamics.py:_strapdown_integration", "src/ring/algorithms/dynamics.py:_semi_implicit_euler_integration", "src/ring/algorithms/dynamics.py:step"]}
{"id": "C29", "title": "approximate inverse of the mass matrix improves monotonically", "statement": "`_inv_approximate(a, a_inv, n)` returns a matrix whose residual ||I - a a_inv|| never exceeds the residual of the accepted starting guess, and for one that starts with residual below one it converges quadratically.", "quantifier": "all matrices, all starting guesses, all iteration counts", "why_tests_cant": "Any number of iterations.", "anchors": ["src/ring/algorithms/dynamics.py:_inv_approximate"]}
{"id": "C30", "title": "random positions stay inside the configured box", "statement": "Every knot drawn by `random_position_over_time` lies in [pos_min, pos_max], whatever the random draws.", "quantifier": "all random streams, all feasible configurations", "why_tests_cant": "Must hold for every random stream, including those rejecting every sample.", "anchors": ["src/ring/algorithms/_random.py:random_position_over_time"]}
{"id": "C31", "title": "random angles respect the range of motion", "statement": "With range_of_motion enabled, knots drawn for a hinge stay within the configured half-size around the start angle and within [-pi, pi].", "quantifier": "all random streams, all feasible configurations", "why_tests_cant": "Must hold for every random stream.", "anchors": ["src/ring/algorithms/_random.py:_resolve_range_of_motion", "src/ring/algorithms/_random.py:random_angle_over_time"]}
{"id": "C32", "title": "the knot buffer always suffices and covers the whole sequence", "statement": "The preallocated knot array has room for every knot the drawing loop can write, knot times strictly increase, and the last knot lies beyond the end of the sequence so that interpolation never extrapolates.", "quantifier": "all durations, interval bounds and random streams", "why_tests_cant": "Unbounded loop length.", "anchors": ["src/ring/algorithms/_random.py:random_angle_over_time", "src/ring/algorithms/_random.py:random_position_over_time"]}
{"id": "C33", "title": "interpolation hits the knots and never overshoots", "statement": "`cosInterpolate` returns the knot value at each knot, values between two adjacent knots lie between the knot values (and are monotone there), and it is constant outside the knots; the randomised interpolation keeps this with its reparametrisation a non-decreasing map of [0,1] onto itself.", "quantifier": "all strictly increasing knot times, all values and query points", "why_tests_cant": "Infinite input space.", "anchors": ["src/ring/algorithms/_random.py:cosInterpolate", "src/ring/algorithms/_random.py:interpolate", "src/ring/algorithms/_random.py:_biject_alpha", "src/ring/algorithms/_random.py:_generate_cdf"]}
{"id": "C34", "title": "joined motion configurations switch at the given boundaries", "statement": "`join_motionconfigs(cs, bs)` behaves at time t like the configuration whose interval contains t (boundary times belong to the later one) for every time-dependent field, and rejects configurations that disagree in any time-independent field.", "quantifier": "all lists of configurations, boundaries and times", "why_tests_cant": "Any number of configurations.", "anchors": ["src/ring/algorithms/jcalc.py:join_motionconfigs", "src/ring/algorithms/jcalc.py:_find_interval"]}
{"id": "C35", "title": "randomised body positions stay inside their declared box", "statement": "The setup function that randomises body positions changes nothing but link positions and every new position lies component-wise in [pos_min, pos_max]; with pos_min = pos_max the position is exactly that.", "quantifier": "all systems, all random streams", "why_tests_cant": "All random streams.", "anchors": ["src/ring/algorithms/generator/setup_fns.py:_setup_fn_randomize_positions"]}
{"id": "C36", "title": "IMU smoothing and delay are causal and shape preserving", "statement": "With the window half-size as delay, the simulated IMU signal at time t depends on raw measurements up to t only; smoothing and delay keep the length for every window, are linear, preserve constant signals (away from the delay), and a delay by d shifts by exactly d samples filling with zeros.", "quantifier": "all signals of any length, all odd windows and delays", "why_tests_cant": "Any length.", "anchors": ["src/ring/algorithms/sensors.py:_moving_average", "src/ring/algorithms/sensors.py:imu"]}
{"id": "C37", "title": "simulated IMU readings are physically right on exactly solvable motions", "statement": "For a body at rest or in uniform translation with constant orientation the accelerometer returns the rotated gravity at every sample and the gyroscope returns zero; for a trajectory quadratic in time the accelerometer returns exactly its acceleration plus gravity; for constant-rate rotation the gyroscope returns the constant rate; the output has as many samples as the input.", "quantifier": "all lengths, poses, velocities, rates below the aliasing limit", "why_tests_cant": "Any length and any constant.", "anchors": ["src/ring/algorithms/sensors.py:accelerometer", "src/ring/algorithms/sensors.py:gyroscope"]}
{"id": "C38", "title": "low-pass filtering keeps constants and length", "statement": "The zero-phase Butterworth smoother returns a signal of the same length, is linear, leaves constant signals unchanged (unit DC gain) for every admissible cut-off; the quaternion low-pass filter keeps constant orientation sequences and returns unit quaternions.", "quantifier": "all signals and cut-off frequencies", "why_tests_cant": "Any length.", "anchors": ["src/ring/algorithms/sensors.py:_butterworth", "src/ring/maths.py:quat_lowpassfilter"]}
{"id": "C39", "title": "sensor noise touches only the measured channels", "statement": "`add_noise_bias` adds to each channel a per-sample noise term and one bias constant over time bounded by the configured maximal bias, keeps all channel names and shapes, and is the identity for zero levels.", "quantifier": "all measurement dictionaries and random streams", "why_tests_cant": "All random streams.", "anchors": ["src/ring/algorithms/sensors.py:add_noise_bias"]}
{"id": "C40", "title": "requested number of sequences is what is generated", "statement": "For an integer size that is a multiple of the number of (system, motion-config) pairs each pair contributes the same number of sequences, for a list of sizes each system contributes the requested number, non-divisible requests are rejected, and splitting into several generator calls to bound memory keeps the product.", "quantifier": "all sizes, numbers of systems and configurations, memory thresholds", "why_tests_cant": "All natural numbers.", "anchors": ["src/ring/algorithms/generator/base.py:RCMG._compute_repeats", "src/ring/algorithms/generator/base.py:RCMG._number_of_executions_required", "src/ring/algorithms/generator/base.py:RCMG._generators_ncalls"]}
{"id": "C41", "title": "combined generators lay out batches in order and lose nothing", "statement": "A lazily combined generator returns, for generators g_1..g_n with repeats r_1..r_n, exactly the concatenation of r_i fresh samples of g_i in order, each drawn with its own key.", "quantifier": "all numbers of generators and repeats", "why_tests_cant": "Any number of generators.", "anchors": ["src/ring/algorithms/generator/batch.py:generators_lazy", "src/ring/algorithms/generator/batch.py:_build_batch_matrix"]}
{"id": "C42", "title": "splitting a batch over devices is lossless", "statement": "`distribute_batchsize` returns sizes whose product is the batch size, `expand_batchsize` followed by `merge_batchsize` is the identity and preserves order, and batches not divisible by the number of devices are rejected when larger than it.", "quantifier": "all batch sizes and device counts", "why_tests_cant": "All natural numbers.", "anchors": ["src/ring/utils/batchsize.py:distribute_batchsize", "src/ring/utils/batchsize.py:merge_batchsize", "src/ring/utils/batchsize.py:expand_batchsize"]}
{"id": "C43", "title": "an epoch of the eager data generator visits every sample at most once", "statement": "Consecutive calls of the generator made by `eager_gen_from_list`-style batching return disjoint batches until the epoch ends, each epoch covers len - len mod batchsize distinct samples, and with shuffling each epoch is a permutation; handing out batches never changes the stored data.", "quantifier": "all dataset sizes, batch sizes, shuffles and numbers of calls", "why_tests_cant": "Unbounded number of calls.", "anchors": ["src/ring/algorithms/generator/base.py:RCMG.eager_gen_from_list", "src/ring/algorithms/generator/base.py:RCMG.to_eager_gen"]}
{"id": "C44", "title": "random sampling rates keep the number of samples", "statement": "With randomised sampling rate each configuration's duration T and time step dt are related so that the requested number of samples is produced and downsampling/padding keeps T constant across configurations.", "quantifier": "all lists of rates and configurations", "why_tests_cant": "All combinations.", "anchors": ["src/ring/utils/randomize_sys.py:randomize_hz", "src/ring/utils/randomize_sys.py:randomize_hz_finalize_fn_factory"]}
{"id": "C45", "title": "X and y carry the documented keys", "statement": "The training input/target builders add one entry per non-IMU link, IMU measurements are stored under the name of the segment the IMU is attached to, joint axes for every link, relative poses for non-root links and inclination for root links; renaming links to numbers is a bijective relabelling that loses no data.", "quantifier": "all systems with IMUs and all link names", "why_tests_cant": "Arbitrary names and trees.", "anchors": ["src/ring/algorithms/generator/finalize_fns.py:_imu_data", "src/ring/algorithms/generator/finalize_fns.py:_rename_links", "src/ring/algorithms/sensors.py:joint_axes"]}
{"id": "C46", "title": "motion-artifact bodies can be injected and hidden without a trace", "statement": "Injecting the free-floating IMU bodies and then hiding them again returns a system with the original links, names, parents and joint types, and poses of the original links are selected by name.", "quantifier": "all systems with any number of IMUs", "why_tests_cant": "Arbitrary trees.", "anchors": ["src/ring/algorithms/generator/motion_artifacts.py:inject_subsystems", "src/ring/algorithms/generator/motion_artifacts.py:HideInjectedBodies"]}
{"id": "C47", "title": "prime factorisation and gcd are correct", "statement": "`primes(n)` returns a non-decreasing list of primes with product n for n >= 2; `gcd(a, b)` is the greatest common divisor.", "quantifier": "all natural numbers", "why_tests_cant": "All natural numbers.", "anchors": ["src/ring/utils/utils.py:primes", "src/ring/utils/utils.py:gcd"]}
{"id": "C48", "title": "dict_union merges without losing or silently overwriting entries", "statement": "The merged dictionary contains every entry of both arguments; without overwrite a collision of leaf entries is an error, with overwrite the second argument wins; the arguments are not modified.", "quantifier": "all nested dictionaries of depth two", "why_tests_cant": "Arbitrary keys.", "anchors": ["src/ring/utils/utils.py:dict_union", "src/ring/utils/utils.py:dict_to_nested"]}
{"id": "C49", "title": "replacing NaN elements keeps good data and leaves none bad", "statement": "`replace_elements_w_nans` returns a list of the same length without NaN elements in which every originally good element is unchanged and replacements are good elements of the allowed set.", "quantifier": "all lists of pytrees, all random draws", "why_tests_cant": "All random draws.", "anchors": ["src/ring/utils/utils.py:replace_elements_w_nans"]}
{"id": "C50", "title": "hdf5 save/load returns the saved tree", "statement": "Loading a tree saved with the hdf5 helpers yields the same nested structure with the same leaves in the same order.", "quantifier": "all trees of dicts, lists, tuples with array leaves", "why_tests_cant": "Lists of any length.", "anchors": ["src/ring/utils/hdf5.py:save", "src/ring/utils/hdf5.py:load", "src/ring/utils/hdf5.py:_savetree"]}
{"id": "C51", "title": "indexed loading from several hdf5 files equals loading everything and indexing", "statement": "`load_from_multiple(files, indices)` returns the elements that indexing the concatenation of all files would return.", "quantifier": "all file lengths and index lists", "why_tests_cant": "Any number and size of files.", "anchors": ["src/ring/utils/hdf5.py:load_from_multiple"]}
{"id": "C52", "title": "files are not overwritten without permission", "statement": "With overwrite=False neither `pickle_save`/`hdf5` save nor writing a dataset to a folder replaces an existing file; with an extension given the file ends in that extension.", "quantifier": "all paths and file-system contents", "why_tests_cant": "All file-system states.", "anchors": ["src/ring/utils/path.py:parse_path", "src/ring/utils/utils.py:pickle_save", "src/ring/algorithms/generator/base.py:RCMG.to_folder"]}
{"id": "C53", "title": "system comparison is an equivalence on systems", "statement": "`sys_compare`/`tree_equal` return True for identical systems, False for systems that differ structurally and never raise on well-formed systems; the result does not depend on the order of arguments.", "quantifier": "all pairs of systems", "why_tests_cant": "All pairs.", "anchors": ["src/ring/utils/utils.py:sys_compare", "src/ring/utils/utils.py:tree_equal"]}
{"id": "C54", "title": "parameter queue keeps the best n", "statement": "After any sequence of insertions the queue of the parameter-saving callback holds the n smallest values inserted so far in increasing order (earlier wins ties); without tracked metrics the last n parameter sets are kept; with tracked metrics only evaluated episodes are stored.", "quantifier": "all insertion histories, all capacities", "why_tests_cant": "Unbounded histories.", "anchors": ["src/ring/ml/callbacks.py:Queue", "src/ring/ml/callbacks.py:SaveParamsTrainingLoopCallback"]}
{"id": "C55", "title": "large or NaN updates are skipped without touching optimizer state", "statement": "With `skip_large_update` an update whose norm exceeds the threshold or that contains NaN/Inf leaves parameters and inner optimizer state unchanged unless more than the allowed number of consecutive updates were rejected; accepted updates are exactly those of the inner optimizer; the counter counts consecutive rejections.", "quantifier": "all histories of gradients", "why_tests_cant": "Unbounded histories.", "anchors": ["src/ring/ml/optimizer.py:skip_large_update"]}
{"id": "C56", "title": "training is only killed for a documented reason", "statement": "The gradient-logging callback kills a run only after the configured number of consecutive over-large gradients; the NaN callback kills exactly when a NaN loss/parameter occurs; the episode callback ends a run after the configured episode; after a kill no further training step is executed.", "quantifier": "all histories of metrics", "why_tests_cant": "Unbounded histories.", "anchors": ["src/ring/ml/callbacks.py:LogGradsTrainingLoopCallBack", "src/ring/ml/callbacks.py:NanKillRunCallback", "src/ring/ml/training_loop.py:TrainingLoop.run"]}
{"id": "C57", "title": "the training loop trains on every generated batch once and validates on unseen data", "statement": "The i-th training step uses the i-th generated sample, callbacks at step i see the sample generated for step i+1, the number of steps equals min(n_episodes, kill step), and with cycle_seeds every window of that length starting at a multiple visits every seed exactly once.", "quantifier": "all numbers of episodes, all callback behaviours", "why_tests_cant": "Unbounded histories.", "anchors": ["src/ring/ml/training_loop.py:TrainingLoop"]}
{"id": "C58", "title": "the RING network respects the graph", "statement": "Relabelling the bodies (and the parent array accordingly) relabels the outputs; the output of a body at time t depends only on inputs up to t of bodies in its own connected component, and after one step only on itself, its parent and its children; feeding a sequence in chunks while carrying the state gives the same outputs as feeding it at once.", "quantifier": "all parent arrays, sequences, chunkings and network weights", "why_tests_cant": "All graphs, lengths and weights.", "anchors": ["src/ring/ml/ringnet.py:_make_rnno_cell_apply_fn", "src/ring/ml/ringnet.py:make_ring"]}
{"id": "C59", "title": "filter wrappers are transparent", "statement": "The scaling, sampling-time, graph-flattening and ground-truth heading wrappers change only the documented features, keep batch/time/body layout, and outputs of wrapped filters for a batch are the stacked outputs of the unbatched calls.", "quantifier": "all inputs", "why_tests_cant": "Arbitrary shapes.", "anchors": ["src/ring/ml/base.py:AbstractFilterWrapper", "src/ring/ml/base.py:ScaleX_FilterWrapper", "src/ring/ml/base.py:NoGraph_FilterWrapper"]}
{"id": "C60", "title": "metrics are flattened without losing values", "statement": "Flattening nested metric dictionaries for logging keeps every scalar under a unique key.", "quantifier": "all nested dictionaries", "why_tests_cant": "Arbitrary keys.", "anchors": ["src/ring/ml/ml_utils.py:_flatten_dict"]}
{"id": "C61", "title": "joint-type registration is atomic and consistent", "statement": "Registered joint types always have a joint model with as many motion vectors as velocity coordinates and q/qd widths; registering an existing name fails without overwrite; a failed registration leaves the registry unchanged; the specialisation of a joint type for a subsystem keeps its coordinate layout.", "quantifier": "all histories of registrations", "why_tests_cant": "Unbounded histories.", "anchors": ["src/ring/algorithms/jcalc.py:register_new_joint_type", "src/ring/algorithms/jcalc.py:overwrite_for_joint_type", "src/ring/algorithms/jcalc.py:overwrite_for_subsystem"]}
{"id": "C62", "title": "P-control references reach the right joints", "statement": "In the P-controlled simulation each link is driven by the columns of the reference trajectory that belong to the link of the same name, links without reference get zero torque, and the state error of identical reference and state is zero.", "quantifier": "all systems and references", "why_tests_cant": "Arbitrary trees.", "anchors": ["src/ring/algorithms/generator/pd_control.py:_pd_control", "src/ring/algorithms/generator/pd_control.py:_initial_q_is_q_ref"]}
{"id": "C63", "title": "drawn joint trajectories have the layout of the joint", "statement": "For every joint type, configuration and random stream the draw function returns one row per time step with as many entries as the joint has coordinates; quaternion parts are unit quaternions, angles lie in [-pi, pi]; the number of rows is the same for all joint types.", "quantifier": "all joint types, configurations, random streams", "why_tests_cant": "All random streams and configurations.", "anchors": ["src/ring/algorithms/jcalc.py:_draw_rxyz", "src/ring/algorithms/jcalc.py:_draw_free", "src/ring/algorithms/jcalc.py:_draw_frozen"]}
{"id": "C64", "title": "a no-motion configuration stands still", "statement": "`MotionConfig.to_nomotion_config` changes only speeds and minimal angle changes, the result is feasible, and with it every joint type draws a trajectory that is constant in time.", "quantifier": "all configurations, joint types and random streams", "why_tests_cant": "All random streams.", "anchors": ["src/ring/algorithms/jcalc.py:MotionConfig.to_nomotion_config"]}
{"id": "C65", "title": "every joint of a system is drawn with its own key into its own columns", "statement": "`draw_random_q` gives every link a key that no other link gets and that differs from the key it returns, uses the configuration overwritten for the joint type, and the columns of the drawn q that belong to link i are exactly what the draw function of link i returned, so that q is a valid coordinate vector at every time.", "quantifier": "all systems, configurations and random streams", "why_tests_cant": "Arbitrary trees and streams.", "anchors": ["src/ring/algorithms/generator/base.py:draw_random_q"]}
{"id": "C66", "title": "randomised mounting rotations are bounded unit rotations", "statement": "Randomising the mounting rotations of the links changes nothing but transform1.rot, every new rotation is a unit quaternion turning by at most maxval, and links whose name starts with imu keep the identity unless asked otherwise.", "quantifier": "all systems, random streams, 0 <= maxval <= pi", "why_tests_cant": "All random streams and real-valued bounds.", "anchors": ["src/ring/algorithms/generator/setup_fns.py:_setup_fn_randomize_transform1_rot", "src/ring/maths.py:quat_random"]}
{"id": "C67", "title": "writing a dataset to a folder stores every sequence in its own numbered file", "statement": "`to_folder` stores the i-th generated sequence in the file `<prefix><i>.pickle` of the folder, every sequence in a file of its own, and changes nothing else in the file system except that it may create the folder.", "quantifier": "all folders, prefixes, numbers of sequences and file-system contents", "why_tests_cant": "tests write a handful of sequences with the default prefix into an empty folder; the claim is about every prefix and every folder content", "anchors": ["src/ring/algorithms/generator/base.py:RCMG.to_folder", "src/ring/utils/path.py:parse_path"]}
{"id": "C68", "title": "evaluation callbacks report the right numbers", "statement": "In every episode the evaluation callback adds, under its identifier, the metrics of the parameters of the last episode whose number is a multiple of eval_every, and refuses to replace an existing entry; the averaging callback adds the mean of those named metrics that are finite (nothing if there is none) and changes no other metric.", "quantifier": "all histories of episodes, all metrics", "why_tests_cant": "Unbounded histories and arbitrary nested metrics, including NaN and infinities.", "anchors": ["src/ring/ml/callbacks.py:EvalXyTrainingLoopCallback", "src/ring/ml/callbacks.py:AverageMetricesTLCB"]}
{"id": "C69", "title": "the simulated IMU delivers complete channels for every option", "statement": "For every combination of options of `imu` (random mounting orientation, quasi-physical mounting, low-pass filters, second-order gyroscope, magnetometer, smoothing, delay, noise, natural units), given a key wherever randomness is asked for and an odd smoothing window, a trajectory of at least three samples and three accelerometer steps yields exactly the channels acc, gyr and (if asked for) mag with one value per sample. Without options the readings are those of the ideal sensors; the spring-damper mounting is linear and keeps a body at rest at rest.", "quantifier": "all option combinations, trajectories, random streams", "why_tests_cant": "The option space and the trajectories are unbounded; tests run a few option sets on one trajectory.", "anchors": ["src/ring/algorithms/sensors.py:imu", "src/ring/algorithms/sensors.py:_quasi_physical_simulation"]}
{"id": "C70", "title": "defaults in a system file fill in exactly what is missing", "statement": "Attributes given under `<defaults>` are used for every body and every geometry, at any depth, that does not give the attribute itself; they never replace a given attribute and never reach other elements. A body that gives no position, rotation, position range, damping, armature or spring starts at the origin without rotation, has zero damping, armature and stiffness of the width of its joint, and as spring zero point the origin of its joint, whose rotation part is the identity.", "quantifier": "all XML documents and joint types", "why_tests_cant": "Documents nest to any depth and any subset of attributes may be missing; tests load a handful of example files.", "anchors": ["src/ring/io/xml/from_xml.py:_initial_setup", "src/ring/io/xml/from_xml.py:_mix_in_defaults", "src/ring/io/xml/from_xml.py:_build_defaults_attributes", "src/ring/io/xml/from_xml.py:load_sys_from_str"]}
{"id": "C71", "title": "random IMU mountings stay within their limits", "statement": "Randomising the mounting of the IMUs gives every IMU either the rigid values (stiffness 200 in rotation and 20000 in translation, damping a fifth of it) or flexible ones (rotational stiffness in [0.2, 10], translational stiffness in [25, 1000], damping between 5% and 50% of the stiffness), written to the joints of that IMU. IMUs listed as surely rigid are rigid, with probability zero none is rigid, and if all are to be alike all unlisted ones are of the same kind. Nothing else in the system changes. Unknown or repeated names in the list, a list with probability zero, and probabilities outside [0, 1) are refused.", "quantifier": "all systems with injected IMU bodies, any number of IMUs, all options, all random draws", "why_tests_cant": "The values are random and the slices depend on the arrangement of all links; a test sees one seed on one system.", "anchors": ["src/ring/algorithms/generator/motion_artifacts.py:setup_fn_randomize_damping_stiffness_factory", "src/ring/algorithms/generator/motion_artifacts.py:_log_uniform"]}
{"id": "C72", "title": "a morphed system is the same mechanism", "statement": "Morphing a well-formed system to a list of parents that only reverses connections (in particular holding a tree at another link, given by number or name) succeeds and gives a well-formed system with the same links under the same names, renumbered depth-first. Every link keeps its geometries and marker; every reversed connection keeps its joint type, damping, armature, spring and joint parameters, and the joint of the old root goes to the new root; if one link is attached to the world, every joint is taken over exactly once. At rest every link and every geometry is where it was. For all coordinates of a system of built-in joints with a free root whose reversed joints are invertible there are coordinates of the morphed system for which every link is where it was. Position ranges are recomputed and sorted. Parents that do more than reverse connections are refused. Not so for systems with several roots: all new roots get the joint of the first old root, so joints of the other trees are lost.", "quantifier": "all systems, all reversals, all coordinates", "why_tests_cant": "Trees are unbounded and the offset, joint and geometry of every link depend on its new and old neighbours; tests morph a few example systems.", "anchors": ["src/ring/sys_composer/morph_sys.py:morph_system", "src/ring/sys_composer/morph_sys.py:_new_transform1", "src/ring/sys_composer/morph_sys.py:_swapped_joint_properties", "src/ring/sys_composer/morph_sys.py:_permute_modify_geoms"]}
{"id": "C73", "title": "randomize_anchors returns every way to hold the trees", "statement": "For a well-formed system of unit orientations `randomize_anchors` returns, for every way to choose one of the given anchors (by default one of the segments) per tree, or the root of a tree that has none of them, one system: it is well-formed, has the same links under the same names, exactly the chosen links are attached to the world, the same pairs of links are connected, every joint (type, damping, armature, spring, parameters) is used exactly once, markers and global options are kept, and when no joint is deflected every geometry is where it was. The order in which python lists a set does not matter. Anchors that do not exist are ignored. Not so for the geometries of the world: they survive only if the system is a single tree.", "quantifier": "all systems with any number of trees, all lists of anchors, all orders of sets", "why_tests_cant": "The number of trees, links and anchors is unbounded and the order of a python set depends on the hash seed; a test sees one order.", "anchors": ["src/ring/utils/randomize_sys.py:randomize_anchors", "src/ring/utils/randomize_sys.py:_assign_anchors_to_subsys", "src/ring/utils/randomize_sys.py:_morph_extract_subsys", "src/ring/utils/randomize_sys.py:_find_root_of_subsys_that_contains_body"]}
{"id": "C74", "title": "scaling and re-rooting recorded motion change only the joint motion asked for", "statement": "`scale_xs` refuses recordings of another number of links; otherwise every pose of every time step belonging to a joint type that is not excluded has its displacement multiplied by the factor (px, py, pz, free) and its rotation about the same axis multiplied by the factor (rx, ry, rz, spherical, free), and everything else is kept. Factor one returns the same motion, factor zero removes it, scaling twice multiplies the factors, and for hinge, slider joints scaling the joint transforms of a configuration gives the joint transforms of the scaled configuration. `randomize_to_world_pos_rot` puts the only root link on a randomly drawn free motion and keeps every other link rigidly where it was relative to its parent.", "quantifier": "all systems, all recordings, all factors, all lists of excluded joint types, all random draws", "why_tests_cant": "The recordings are real-valued and of any length; the failures are at half turns, joint types and sampling rates which tests do not use.", "anchors": ["src/ring/sim2real/sim2real.py:scale_xs", "src/ring/sim2real/sim2real.py:_scale_transform_based_on_type", "src/ring/sim2real/sim2real.py:randomize_to_world_pos_rot"]}
{"id": "C75", "title": "every sequence of the random motion generator is a random motion of its own random variant of the system", "statement": "Without a setup function of the user and without motion artifacts, a call of the generator returns one sequence per configuration, in order. The system of a sequence is the given one with its links put somewhere into their boxes, with new joint parameters, with `cor` joints in place of free ones and with the time step of the drawn sampling rate, each only if asked for, and nothing else changed. The coordinates are drawn for the configuration of that sequence, all sequences have the same number of samples, and the poses are those of the variant in these coordinates. Inputs and targets are those of this motion of this variant; `X['dt']` is its time step. With a simulation, this motion is the reference of the controller, and the states of the simulated variant are returned. No random key is used twice. `RCMG` refuses infeasible configurations, and systems that cannot be simulated: a joint without damping, or a massless link with a joint at the end of a chain. A `finalize_fn` together with random sampling rates, and configurations with different numbers of samples, raise in every call.", "quantifier": "all systems with built-in joints, all lists of configurations, all combinations of the options, all random keys, all sampling rates", "why_tests_cant": "The generator is a composition of random parts; tests look at shapes and seeds, not at whether the motion, the poses, the labels and the time step of a sequence belong to the same variant of the system, nor at reused keys.", "anchors": ["src/ring/algorithms/generator/base.py:_build_mconfig_batched_generator", "src/ring/algorithms/generator/base.py:RCMG.__init__", "src/ring/algorithms/generator/finalize_fns.py:DynamicalSimulation.assert_test_system"]}
{"id": "C76", "title": "flattening a dictionary of segments puts every measurement where the network expects it", "statement": "`_expand_then_flatten` turns the dictionaries `X`, `y` of numbered segments into arrays with the axes batch, time, segment, feature (without batch if there is none): entry number `i` of the segment axis is the segment named `i`, whatever the order of the dictionary; its features are accelerometer, gyroscope, joint axes if given, and the time step if given, constant over time and of that sequence. Targets are arranged in the same way. Nothing gets lost: if there is a result then `X` holds nothing but these segments and the time step, joint axes are given for all segments or for none, and every segment has a target. The time step that the generator adds for random sampling rates, and that of `randomize_hz_finalize_fn_factory`, can be flattened.", "quantifier": "all numbers of sequences, times and segments, all widths of the channels, all values, all orders of the dictionaries", "why_tests_cant": "Tests look at the shape of the result; a permutation of segments, channels or of batch and time has the same shape.", "anchors": ["src/ring/algorithms/generator/finalize_fns.py:_expand_then_flatten", "src/ring/algorithms/generator/finalize_fns.py:_expand_dt", "src/ring/algorithms/generator/finalize_fns.py:_flatten", "src/ring/utils/randomize_sys.py:randomize_hz_finalize_fn_factory"]}
{"id": "C77", "title": "inverse kinematics of an end effector returns a valid configuration and its true residual", "statement": "`inverse_kinematics_endeffector` returns joint values that are valid (unit quaternions, wrapped angles) and as a residual the weighted sum of rotation angle and distance between the wanted pose and the pose that the end effector has with exactly these joint values. The residual is never negative, and zero only if the wanted pose is reached (up to the tolerance of `angle_error`). An optimiser that does not increase its objective never makes it worse than the initial value. Without initial value it starts at the rest configuration. With several random starts, each starts from its own row of the sample, and the result of the best one is returned. Contradicting arguments are refused.", "quantifier": "all well-formed systems of built-in joints, all poses and weights, all optimisers, all initial values and numbers of starts; user supplied maps for joints", "why_tests_cant": "The test runs one optimiser on a few systems and asks for a small residual; it does not see that the residual belongs to other joint values, nor what happens when a run diverges.", "anchors": ["src/ring/algorithms/kinematics.py:inverse_kinematics_endeffector"]}
{"id": "C78", "title": "joint axes declare the velocity with which the joint transform moves", "statement": "When the coordinates of a joint change with the joint velocity (as the integrator changes them), the frame that the joint transform describes moves with the spatial velocity that the motion axes of the joint declare. Then the pose of every link, as forward kinematics computes it, moves with the velocity that the dynamics algorithms attribute to the link. In particular a free body that is released falls in the direction of gravity.", "quantifier": "all built-in joints, all coordinates and velocities; all well-formed systems; all differentiable paths of coordinates", "why_tests_cant": "The tests simulate a pendulum of hinges and compare some energies; they do not differentiate the transform of each joint at each configuration, and no test drops a turned body.", "anchors": ["src/ring/algorithms/jcalc.py:_joint_types", "src/ring/algorithms/dynamics.py:_strapdown_integration", "src/ring/algorithms/dynamics.py:_semi_implicit_euler_integration"]}
{"id": "C79", "title": "joints with random axes: registration, axes, motion", "statement": "The joints rr, rr_imp and rsaddle can be registered at any time, with the right widths and without touching other joints. Their axes are drawn with length one, those of rr_imp perpendicular to each other. The transform of an rr joint is the rotation about its axis; rr_imp without residual angle is rr and with it tilts the axis by the residual angle. The declared motion axes are the velocity with which the transform moves. The drawn residual angles of rr_imp have mean zero and stay within the given maximum.", "quantifier": "all keys, parameters, coordinates, velocities, motion configurations, registries", "why_tests_cant": "Tests only check that a system with these joints can be simulated and drawn from; the declared axes are wrong only when both angles are used, and the bound is left only for trajectories that stay at one side.", "anchors": ["src/ring/algorithms/custom_joints/rr_joint.py:register_rr_joint", "src/ring/algorithms/custom_joints/rr_imp_joint.py:register_rr_imp_joint", "src/ring/algorithms/custom_joints/rsaddle_joint.py:register_rsaddle_joint"]}
{"id": "C80", "title": "the knee joint of Grood and Suntay", "statement": "The functions of the knee joint (translations, abduction and external rotation depending on flexion) that are drawn from Gaussian processes, polynomials and networks stay within the bounds of the config at every flexion angle, each drawn with its own key; values restricted by any of the five methods stay within the interval. The transform consists of the three clinical rotations and translations: flexion, abduction and external rotation are the angles between the femoral, floating and tibial axes, and the translation is the sum of its components along these axes; away from half a turn it is a unit transform. The declared motion axis is the velocity of the transform. Drawn flexion angles and coordinates from coordinate vectors stay within the flexion range and the range of motion of the config. Registering the joint touches no other joint.", "quantifier": "all configs, factories, parameters, keys, flexion angles and velocities, motion configurations, registries", "why_tests_cant": "The test of the joint only checks that motion can be drawn; the sign of the declared axis, centred functions beyond the bounds, the shared centre of a reused factory and the ignored half-size of the range of motion are not visible in shapes.", "anchors": ["src/ring/algorithms/custom_joints/suntay.py:register_suntay", "src/ring/algorithms/custom_joints/suntay.py:restrict", "src/ring/algorithms/custom_joints/suntay.py:GP_DrawFnPair", "src/ring/algorithms/custom_joints/suntay.py:Polynomial_DrawnFnPair", "src/ring/algorithms/custom_joints/suntay.py:MLP_DrawnFnPair"]}
{"id": "C81", "title": "datasets of pickle files", "statement": "A dataset of folders is made if and only if there is a folder and all folders have equally many files; element i consists of the contents of the i-th file of every folder, so that files of the same name belong together. The torch backend never ends: every epoch hands out every element exactly once, in a new random order if shuffled and in the order of the files otherwise, in batches of the batch size of which only the last may be smaller, or is left out with drop_last; every element is transformed with a random number generator of its own. The eager backend transforms every element once and hands out epochs of those. What to_folder has written to a new folder is what the dataset of the folder contains, whatever the order in which the folder is listed. Every file is loaded once, the data is determined by the seed, and a transform is optional.", "quantifier": "all file systems, folders, listing orders, contents, transforms, batch sizes, orders of epochs, numbers of calls", "why_tests_cant": "The tests load folders that were written in one go on one file system, where listings happen to be in the same order; mispaired files, duplicates by other extensions and unseeded transforms do not raise.", "anchors": ["src/ring/utils/dataloader.py:make_generator", "src/ring/utils/dataloader.py:_Dataset", "src/ring/utils/dataloader.py:pytorch_generator", "src/ring/utils/dataloader.py:eager_generator", "src/ring/utils/dataloader.py:pygrain_generator", "src/ring/utils/dataloader_torch.py:FolderOfPickleFilesDataset", "src/ring/utils/dataloader_torch.py:dataset_to_generator"]}
{"id": "C82", "title": "normalization of inputs", "statement": "make_normalizer_from_generator calls the generator just as often as needed for the requested number of sequences, every time with its own key, and takes mean and standard deviation of every feature from exactly that many different sequences, in an order that all arrays of the tree share; if the number of sequences drawn is the number asked for, from all of them. The normalizer gives that sample mean 0 and standard deviation sigma/(sigma+eps) < 1 in every feature, and zero in features that do not vary; it is strictly increasing in every entry and can be inverted. Trees of another structure are refused, as are empty batches. Small deviations in any feature stay small.", "quantifier": "all generators, batch sizes, requested numbers, keys, permutations, arrays and features", "why_tests_cant": "A test normalizes data of one generator with one batch size; the number of calls at sizes that do not divide, the statistics for all data and features that do not vary need arbitrary shapes and values.", "anchors": ["src/ring/utils/normalizer.py:make_normalizer_from_generator"]}
{"id": "C83", "title": "filters as objects: names, attributes, saving and loading", "statement": "A filter in any number of wrappers that is saved and loaded does what it did before, with the parameters and the parent array given to save, compiled if asked for; its wrappers, their settings and its name are kept, whatever the class of the filter. Saving and nojit leave the object as it was, apart from the new parameters. The name of a wrapped filter lists the names from the inside out and raises only if one is missing. Attributes are searched from the outside in, and unwrapping altogether gives the innermost filter.", "quantifier": "all networks, filters, chains of wrappers, names, attributes, parameters, paths, file systems", "why_tests_cant": "Nothing in the repository saves or loads a filter; tests would have to wrap, name, save, load and use filters of each class in all combinations.", "anchors": ["src/ring/ml/base.py:AbstractFilter", "src/ring/ml/base.py:AbstractFilterWrapper", "src/ring/ml/ringnet.py:RING"]}
{"id": "C84", "title": "loggers and the end of a run", "statement": "The dictionary logger keeps, under every key, the values logged in the order of the calls, entry i being that of episode i, and writes them to its output path when it is closed. Closing the loop closes all callbacks and then all loggers. Closing the callback that saves parameters writes every parameter set of its queue to a file of its own, whatever the path, changes no other file and uploads each file once with every logger that can, warning only if none can. A killed run writes a checkpoint, which gives back exactly its last parameters and optimizer state; other runs write none.", "quantifier": "all sequences of metrics, keys, queues, paths, file systems, lists of callbacks and loggers, run ids, parameters, optimizer states", "why_tests_cant": "Names of files depend on dots in paths and values, on the length of the queue and on which files exist; closing depends on which of the callbacks before raised. The repository has no test of any of the close methods.", "anchors": ["src/ring/ml/ml_utils.py:DictLogger", "src/ring/ml/callbacks.py:SaveParamsTrainingLoopCallback", "src/ring/ml/callbacks.py:CheckpointCallback", "src/ring/ml/training_loop.py:TrainingLoop"]}
{"id": "C85", "title": "the training step and the evaluation", "statement": "A training step is truncated backpropagation through time: the sequences are split in time into chunks of tbp steps that together are the sequences; for one chunk after the other the parameters are updated once, with the gradient of the mean loss of the whole batch, and the filter continues from the state in which it was left. Every step starts from the same initial state. The result does not depend on the number of devices, nor does the evaluation of metrics. Batches may differ in size. A recurrent filter predicts for the chunks what it predicts for the whole sequence. Every named link is evaluated on its own data.", "quantifier": "all filters that treat sequences independently, losses, optimizers, parameters, batches, lengths, numbers of devices, reductions, names", "why_tests_cant": "Gradients on several devices agree with those on one only if all batches, losses and parameters are considered; tests run on one device with one length that is a multiple of tbp.", "anchors": ["src/ring/ml/train.py:_build_step_fn", "src/ring/ml/train.py:_build_eval_fn", "src/ring/ml/train.py:_arr_to_dict"]}
{"id": "C86", "title": "the training function", "statement": "train_fn starts from the checkpoint if there is one, else from the parameters of the filter, else from new ones. It calls exactly the callbacks its arguments ask for, each once, those of the user after those of the library and before the one that tracks metrics, which sees the metrics of all others. It trains the number of episodes asked for unless the run is killed, which is what it returns. If asked to, it has saved the parameters of the last episode when it returns, and, if the run was killed, a checkpoint from which a later call continues as if the run had not been interrupted. What it is asked to save is saved whenever training ends, and arguments that cannot work are refused before training. Calls do not influence each other.", "quantifier": "all arguments, filters, generators, step functions, user callbacks, loggers, file systems, numbers of episodes, seeds", "why_tests_cant": "The combinations of options, callbacks and file systems are unbounded, and the failures occur only after all episodes have been trained.", "anchors": ["src/ring/ml/train.py:train_fn", "src/ring/ml/train.py:_DefaultEvalFnCallback", "src/ring/ml/callbacks.py:CheckpointCallback", "src/ring/ml/callbacks.py:WandbKillRun", "src/ring/ml/callbacks.py:TimingKillRunCallback"]}
{"id": "C87", "title": "rotations about the axes, velocity of a transform, safe inverse trigonometric functions", "statement": "rx, ry, rz are the rotation matrices about their axes: they fix the axis, angles add, the transpose has the negative angle. They are the matrices of quat_rot_axis, rotx, roty, rotz those of the transforms without translation, and the matrix of quat_euler is the product of the three. XtoV of a transform is a vector that the transform leaves unchanged, and to first order the velocity of a small motion. safe_arccos and safe_arcsin return, when they are differentiated, the value of the function and a tangent that is that of the derivative where |x| <= 1 - 1e-7 and bounded everywhere. unit_quats_like gives one identity per row.", "quantifier": "all angles, axes, unit quaternions, positions, arguments and tangents", "why_tests_cant": "The laws hold for a continuum of angles; the wrong value of safe_arcsin is only seen when the function is differentiated.", "anchors": ["src/ring/spatial.py:rx", "src/ring/spatial.py:XtoV", "src/ring/maths.py:safe_arcsin", "src/ring/maths.py:safe_arccos", "src/ring/maths.py:unit_quats_like"]}
{"id": "C88", "title": "average of quaternions, angles about a constant axis", "statement": "quat_avg of unit quaternions is a unit quaternion whose rotation has the smallest sum of squared (Frobenius) distances to the given rotations; it does not depend on their order or on the signs of the quaternions, and if all describe one rotation it is that rotation. quat_angle_constantAxisOverTime of rotations about a common axis gives, up to full turns, their angles about the axis of the first one, all with the same sign.", "quantifier": "all lists of unit quaternions, all axes and angles, all functions that meet the documentation of jnp.linalg.eigh", "why_tests_cant": "Optimality is a statement about all rotations; the loss of the sign occurs only for sequences that begin with the identity.", "anchors": ["src/ring/maths.py:quat_avg", "src/ring/maths.py:quat_angle_constantAxisOverTime"]}
{"id": "C89", "title": "recurrent cells and RNNO: recursion, bounds, causality, chunks", "statement": "The LSTM cell meets the LSTM equations (gates in the order input, candidate, forget, output; bias one in the forget gate); its outputs lie strictly between -1 and 1, and from zero states the cell state after T steps is at most T. rnno_v1 returns one output per time step for the single body and rejects other numbers of bodies; a time step is the chain of cells, norms, activations and linear layers in order, each cell with its own state; a sequence processed in two parts with the state passed on gives the same as in one; outputs do not depend on later inputs. _load_params accepts a path, a dictionary or None and nothing else.", "quantifier": "all weights (arbitrary functions in place of linear layers and cells), all numbers of layers and units, all sequences and states", "why_tests_cant": "Tests use one set of random weights and short sequences; the bounds and the equality of chunked and whole processing hold for all.", "anchors": ["src/ring/ml/ringnet.py:LSTM", "src/ring/ml/ringnet.py:RING._load_params", "src/ring/ml/rnno_v1.py:rnno_v1_forward_factory"]}
{"id": "C90", "title": "ready-made filters: which network gets which features, and what happens to its estimates", "statement": "ring.RING at 0.01 s (unless switched off) runs the parameters for 100 Hz on the nine scaled features of every body; for every other sampling time it runs the parameters for many rates on ten scaled features, the sampling time (given, or read from the input) being the fourth. The estimates are low-pass filtered forwards and backwards per body at the sampling rate unless switched off, roots take the heading of the truth if one is given, and the results are unit quaternions. A batch is treated like its sequences. It warns exactly outside 40 to 200 Hz. RNNO gives the network one body that has the scaled features of all bodies side by side, without messages, cuts the outputs into those of the bodies and, for orientations, normalises, filters (in evaluation) and aligns them; keyword arguments that it sets itself are rejected.", "quantifier": "all networks, parameters, inputs, states, parent arrays, sampling times and keyword arguments", "why_tests_cant": "The library's test runs one input of zeros and looks at the shape of the result; which features reach the network in which order cannot be seen in a shape.", "anchors": ["src/ring/__init__.py:RING", "src/ring/ml/__init__.py:RNNO", "src/ring/ml/base.py:GroundTruthHeading_FilterWrapper.apply"]}
{"id": "C91", "title": "gymnasium environment Saddle-v0: what the agent sees and what it is paid", "statement": "reset shows the twelve measurements (accelerometer and gyroscope of the first, then of the second segment) and the true relative orientation at time 0. Every action then yields the measurements and the truth of the next time and a reward in [-pi, 0]: minus the angle between the action, whatever its length and sign, and the truth of the time last shown (angles up to 1e-7 may count as zero). An episode never terminates, is truncated with the last but one sample, and raises beyond. The truth in info is the one the next action is compared with, so that repeating it is optimal. The last truth is never scored. A seed decides everything but the remembered action. A picture shows the pose of the current time with the last action over it.", "quantifier": "all recordings of any length, all generators, seeds and sequences of actions, by induction over the actions", "why_tests_cant": "The library has no test of the environment; an off-by-one between observation, truth and reward does not change the shape of anything.", "anchors": ["src/ring/utils/register_gym_envs/saddle.py:Env.reset", "src/ring/utils/register_gym_envs/saddle.py:Env.step", "src/ring/utils/register_gym_envs/saddle.py:Env.render"]}
{"id": "C92", "title": "optimizer of the training: learning rate, clipping and which gradients are used", "statement": "The learning rate falls strictly along half a period of the cosine from lr to 1e-7 lr over n_steps_per_episode * n_episodes steps and stays there; with cos_decay_twice it falls from lr to lr/100 in the first half and to 0 in the second, without jumps. Gradients are scaled, then clipped: what reaches the inner optimizer has at most the length glob_clip, and is the gradient itself if that is shorter. A gradient is used if before scaling and clipping it is finite with squared length below the bound, or within the warm-up, or after more than 150 too large ones in a row; then the parameters move by minus the learning rate at the number of gradients used before times the direction of the inner optimizer; otherwise parameters, inner optimizer and schedule stay.", "quantifier": "all histories of gradients (also with NaN and infinities), parameters, inner optimizers, learning rates and numbers of steps", "why_tests_cant": "The library's test trains for a few steps; the end of a schedule, runs of 150 large gradients and the coupling of schedule and skipped gradients lie beyond.", "anchors": ["src/ring/ml/optimizer.py:make_optimizer"]}
{"id": "C93", "title": "what is drawn where: poses, solids, meshes and bodies of the rendering", "statement": "Both backends put the point of a geometry with coordinates p to the point of the world that has these coordinates in the frame of the geometry (MuJoCo: when the numbers of the geometry have four decimals; printing changes a number by at most 0.00005). Boxes and spheres of MuJoCo are the solids of the geometries. A coordinate system becomes three capsules around the segments from its origin along its axes. Every link with a geometry has exactly one body with exactly its geometries in order; cameras and lights are attached to the body of their link or to the world; the following cameras follow the least link with a geometry. Colour names are four numbers in [0,1]. The vertices of the vispy meshes lie on the surface of the capsule and at the corners of the box.", "quantifier": "all lists of geometries, transforms, link poses, colours, cameras and lights", "why_tests_cant": "The tests render a few systems and look at no pixel; whether what is drawn is where the frames say is not checked anywhere.", "anchors": ["src/ring/rendering/mujoco_render.py:_build_model_of_geoms", "src/ring/rendering/mujoco_render.py:_xml_str_one_geom", "src/ring/rendering/vispy_render.py:VispyScene._compute_transform_per_visual", "src/ring/rendering/vispy_visuals.py:capsule_mesh", "src/ring/rendering/base_render.py:_xyz_to_three_capsules"]}
{"id": "C94", "title": "which scene is drawn and which frames: the scene kept between calls of render", "statement": "After any calls of render for which scenes could be made, render returns the pictures of the requested poses in order (the rest pose if none is given, every n-th if asked), each showing its own poses only, in a scene made for the requested system, backend and options or for earlier ones that compare equal; such a scene has the geometries of the system in their colours. A pose with the wrong number of links is refused before a scene is made. In MuJoCo every body has the pose of its link after an update.", "quantifier": "all histories of calls, systems, poses, options, cameras and behaviours of the drawing libraries", "why_tests_cant": "The tests render single systems; what a call draws after others, and after failed ones, depends on module variables and is never looked at.", "anchors": ["src/ring/rendering/base_render.py:render", "src/ring/rendering/base_render.py:_load_scene", "src/ring/rendering/mujoco_render.py:MujocoScene.update"]}
{"id": "C95", "title": "a prediction is drawn beside the truth", "statement": "render_prediction draws every link of the truth in its pose moved by the offset of the truth, and a second body, called hat_, of the links that are no IMUs: roots are where they truly are with the predicted orientation, any other link is seen from its parent where it truly is and rotated as predicted, everything moved by the offset of the prediction. Lengths are the true ones, and an exact prediction is drawn as the truth. The geometries of the second body are those of the segments in the colour of the prediction, roots have none if transparent. An array is read in the order of the segments; a prediction without one of them is refused.", "quantifier": "all well-formed systems with IMUs on links, poses, predictions, offsets, numbers of time steps", "why_tests_cant": "The tests only look whether frames come out; whether the drawn prediction is the predicted one is never compared.", "anchors": ["src/ring/rendering/base_render.py:_render_prediction_internals", "src/ring/rendering/base_render.py:render_prediction", "src/ring/rendering/base_render.py:_sys_render"]}
{"id": "C96", "title": "the IMU on a spring catches up with the motion", "statement": "The quasi-physical simulation follows the motion of the link: if 70 dt + 625 dt^2 < 4, in particular at 25 Hz and faster, then for every motion whose second differences vanish in the end, in particular every motion that is uniform from some sample on, whatever it was before, the distance between the simulated position and the next sample vanishes; if the motion comes to rest, the simulated position tends to the place of rest; if accelerations are bounded by a in the end, the distance is in the end at most a times a constant that depends on dt only. For no other sample time does it follow every uniform motion.", "quantifier": "all motions, all sample times, all dimensions, all lengths", "why_tests_cant": "Stability is a statement about infinitely long motions and a real-valued sample time; a test looks at finitely many samples at few rates.", "anchors": ["src/ring/algorithms/sensors.py:_quasi_physical_simulation"]}
{"id": "C97", "title": "the canvas of vispy shows the geometries where they are", "statement": "Whatever was done with a vispy scene before (initialisations and updates with or without errors, pictures, switches), init with geometries followed by update with poses leaves on the canvas every geometry, with its solid and its colours, in its pose, one set of axes per link that has a geometry if axes of links are on, axes at the root if those are on, and besides these only axes at the root left from before. A later update forgets the earlier one. Pictures are taken from the given cameras in their order and change nothing on the canvas. Axes are shown as the arguments of the scene ask for.", "quantifier": "all reachable scenes, all lists of geometries, all poses, all cameras", "why_tests_cant": "The tests only look whether an image comes out (and need a window system); which nodes remain after a second init, or where they are, is never looked at.", "anchors": ["src/ring/rendering/vispy_render.py:Scene.init", "src/ring/rendering/vispy_render.py:Scene.update", "src/ring/rendering/vispy_render.py:VispyScene", "src/ring/rendering/vispy_visuals.py:DoubleMeshVisual"]}
{"id": "C98", "title": "a system is loaded from the file that was named, and what was saved is loaded again", "statement": "from_xml loads the model in the file with the given name and the extension .xml, with the given seed, and changes no file; System.create does so when that file exists and takes its argument as a model otherwise. Loading adds at most directories; saving changes no other file, and nothing at all when it raises. A savable system that is saved and loaded again is the same system up to the order of its links. change_model_name sets the name, with prefix and suffix, and nothing else.", "quantifier": "all file systems, all paths and texts, all seeds, all systems that can be saved", "why_tests_cant": "The tests load files with the extension .xml that exist; other extensions, missing folders, the home directory and seeds given with a text are not tried.", "anchors": ["src/ring/base.py:System.create", "src/ring/base.py:System.from_xml", "src/ring/base.py:System.to_xml", "src/ring/base.py:System.change_model_name", "src/ring/io/xml/from_xml.py:_load_xml", "src/ring/io/xml/to_xml.py:save_sys_to_xml"]}
{"id": "C99", "title": "comments are returned with their pairs, and the listed examples are the model files", "statement": "load_comments returns, in their order, exactly the comments with the given name, each as the dictionary of its key=value pairs (the last value of a repeated key). For an examples folder that holds only model files and the known folders, list_examples is strictly sorted, every listed example is loaded from a model file of the folder or of test_morph_system, and every such file belongs to exactly one listed example. Loading the examples gives the systems of their files in order and changes no file.", "quantifier": "all lists of comments without misplaced spaces and equals signs, all names, all tidy examples folders, all lists of examples in existing folders, all file systems", "why_tests_cant": "The tests load the examples that are there; no test reads comments, and none looks whether a file is missing from the list.", "anchors": ["src/ring/io/xml/from_xml.py:load_comments_from_str", "src/ring/io/xml/from_xml.py:load_comments_from_xml", "src/ring/io/examples.py:list_examples", "src/ring/io/examples.py:load_example", "src/ring/io/examples.py:list_load_examples"]}
{"id": "C100", "title": "the evaluation callback returns each metric of each link for the whole batch, whatever the devices", "statement": "For a filter that acts per sequence, EvalXyTrainingLoopCallback builds a function that returns, for every metric and every link name, that metric of that link's truth and estimate over all sequences of the batch in their order, and nothing else. The result does not depend on how the batch is spread over devices. Arrays that are not batched are evaluated as a batch of one. Truth with another number of sequences and estimates with another number of links raise.", "quantifier": "all filters that act per sequence, all parameters, metrics, batches and numbers of links, all machines that accept the batch", "why_tests_cant": "The tests run on one device with one small batch and do not compare values of a link with those computed without the callback.", "anchors": ["src/ring/ml/callbacks.py:_build_eval_fn2", "src/ring/ml/callbacks.py:EvalXyTrainingLoopCallback.__init__"]}
{"id": "C101", "title": "a batch of transforms, motions or forces is the list of its entries", "statement": "len is the number of entries. Taking an entry by an index inside the batch (counted from the end if negative), taking several, slicing, concatenating, batching, repeating, setting an entry, adding to an entry, sums, differences, multiples, negatives and quotients are the same operations on the list of entries; vstack batches entries made of vectors and concatenates batches. Squeezing a batch of one gives its entry if that has no axis of length one. Created transforms have the given arrays and zero positions or unit quaternions of the same batch shape for a missing one.", "quantifier": "all arrays of all shapes, all batches, all indices and bounds", "why_tests_cant": "The tests use a few batch shapes; indices outside the batch do not raise, so a wrong index goes unnoticed.", "anchors": ["src/ring/base.py:_Base", "src/ring/base.py:Transform.create", "src/ring/base.py:Motion.create", "src/ring/base.py:Force.create"]}
{"id": "C102", "title": "what is done to a copied batch does not reach the stored data", "statement": "pytree_deepcopy changes no object and returns, along every path, the same data, keys and kinds as the original. Of a tree without _Base the copy shares only numbers and jax arrays with the memory before, so whatever a program does that is handed the copy (the transform of an eager generator), no object that existed before changes. Nothing new is reached along two paths. Trees of numbers, arrays, lists, tuples, dictionaries and _Base that are not deeper than the recursion limit have a copy.", "quantifier": "all memories, all trees in them with or without sharing, all recursion limits, all programs that hold the copy", "why_tests_cant": "Aliasing shows only for the particular program that writes to the shared object, possibly epochs later; tests compare values.", "anchors": ["src/ring/utils/utils.py:pytree_deepcopy", "src/ring/algorithms/generator/base.py:RCMG.eager_gen_from_list"]}
{"id": "C103", "title": "setting up the package again only changes what is asked for", "statement": "After any history of calls of setup, some of which may raise, the start of the training is the last one given, otherwise the one from before, otherwise the time of the first call that succeeded; the unique id alike. A call with joints of distinct names and one motion axis per velocity coordinate succeeds, registers each of them as given, and leaves all other joint types, the noted changes and the gains as they were.", "quantifier": "all registries, all histories of calls with all arguments", "why_tests_cant": "setup runs once per test process, at import; its global state cannot be reset.", "anchors": ["src/ring/__init__.py:setup", "src/ring/algorithms/jcalc.py:register_new_joint_type"]}
{"id": "C104", "title": "the number of host devices is set and the other flags of XLA are kept", "statement": "After set_host_device_count the words of XLA_FLAGS are the flag with the given number, followed by the words of the old value in order without those that set the number of devices. The number occurs once. A second call replaces the first.", "quantifier": "all values of the environment variable, all numbers", "why_tests_cant": "Tests start from an unset variable.", "anchors": ["src/ring/utils/backend.py:set_host_device_count"]}
{"id": "C105", "title": "what the wandb logger is given is stored, and the machine is left as it was", "statement": "Logging metrics gives one row per finite metric, with its value under its joined name and the number of the episode, and keeps earlier rows. Saving a file stores its content under its name, with or without a connection; without one a copy is put into the directory of the run. Making the logger stores the output of its three commands. No other file changes, no stored file is lost.", "quantifier": "all metrics, file systems, paths, stored files, outputs of commands, runs", "why_tests_cant": "Needs accounts and files with unlucky names; the tests use the dictionary logger only.", "anchors": ["src/ring/ml/ml_utils.py:WandbLogger", "src/ring/ml/ml_utils.py:MixinLogger.log_command_output", "src/ring/ml/ml_utils.py:WandbLogger.wandb_save"]}
{"id": "C106", "title": "every export of a generator holds the same sequences", "statement": "For one seed and one request, the folder, the single file and the eager generator hold the sequences of the list: file `i` of the folder is sequence `i`, over all calls of the generators; the single file is loaded as all of them in their order; the eager generator hands out each of them once per epoch, up to an incomplete batch. An export that cannot be made raises.", "quantifier": "all generators, requests, seeds, file systems, paths, prefixes, batch sizes, shuffles", "why_tests_cant": "The tests compare lengths for one small request; NaNs and requests split over several calls do not occur in them.", "anchors": ["src/ring/algorithms/generator/base.py:RCMG.to_folder", "src/ring/algorithms/generator/base.py:RCMG.to_pickle", "src/ring/algorithms/generator/base.py:RCMG.to_eager_gen", "src/ring/algorithms/generator/base.py:RCMG.to_list"]}
{"id": "C107", "title": "the physics engine simulates a body on springs as a mass on a spring", "statement": "One step of the simulation of one body on a sliding joint with three axes is, along every axis, the step of a mass on a spring and a damper, under gravity; the mass is that of the geometries plus armature plus a millionth. From every state the body comes to rest where the spring holds its weight if dt\u00b2 k < 4 M + 2 d dt. The IMU that `_quasi_physical_simulation_beautiful` lets hang on such a body settles behind a uniform motion by a thirtieth of a second of it, and where the motion stops, at 11 Hz and faster.", "quantifier": "all single bodies on a p3d joint with exact mass matrix inverse, all states, motions, sample times", "why_tests_cant": "The limit of a simulation is not reached by any run, and the beautiful version is not tested at all.", "anchors": ["src/ring/algorithms/dynamics.py:step", "src/ring/algorithms/dynamics.py:forward_dynamics", "src/ring/algorithms/sensors.py:_quasi_physical_simulation_beautiful"]}
{"id": "C108", "title": "a validated export of a function computes what the function computes", "statement": "If `to_onnx` with validation returns, the stored model gives, for the arguments of the call, every output of the function up to an absolute and relative tolerance of 1e-5, and its inputs and outputs have the given names in order. An exact export passes. `save_model_tf` with validation raises if an output differs.", "quantifier": "all functions, arguments, converted models, shapes of arrays and lists of names", "why_tests_cant": "Tests export one correct model; what the validation accepts is a statement about all wrong models.", "anchors": ["src/ring/ml/ml_utils.py:to_onnx", "src/ring/ml/ml_utils.py:save_model_tf"]}
{"id": "C109", "title": "feasible motions can start, and all registered motions are feasible", "statement": "For bounds in order, `MotionConfig.is_feasible` holds if and only if hinges and free joints have a first move (a time, a change and a speed within their bounds), positions start inside their boxes and the range of motion has room for the smallest change. Every motion in the register is feasible, also with the overwrites for single joint types, and is drawn at every rate for every system of built-in joints; other names raise KeyError. A feasible motion has moves at every time and for every joint type.", "quantifier": "all configurations, all names, joint types, systems, rates and random streams", "why_tests_cant": "The equivalence ranges over all configurations; tests draw a few motions and a motion without possible moves does not fail but is drawn outside its bounds.", "anchors": ["src/ring/algorithms/jcalc.py:_is_feasible_config1", "src/ring/algorithms/jcalc.py:_registered_motion_configs", "src/ring/algorithms/jcalc.py:MotionConfig.from_register"]}
{"id": "C110", "title": "building generators leaves the options as they are", "statement": "When RCMG builds one generator per system from one set of option dicts, every generator is built, each holds a dict of simulation options of its own in which the unactuated bodies of its own system are noted and all else is as given, and no dict that existed before is changed; so generators can be built again from the same options, or from the mutable defaults of the signature, without changing those built before. Options that already hold the entry, or motion artifacts without a simulation, are refused.", "quantifier": "all heaps of dicts, option dicts, numbers of systems, and for the decorator all functions that write only into their arguments", "why_tests_cant": "Aliasing shows only after a second construction from the same dict, possibly much later in a program; tests build each generator from fresh options.", "anchors": ["src/ring/algorithms/generator/base.py:_copy_dicts", "src/ring/algorithms/generator/base.py:_build_mconfig_batched_generator", "src/ring/algorithms/generator/base.py:RCMG.__init__"]}
{"id": "C111", "title": "the torques of inverse dynamics are those that change the energy", "statement": "While the coordinates of a system of hinges, sliders, spherical and frozen joints change with given velocities and these with given accelerations, the rate of the kinetic energy that the library computes plus the potential energy of the links in the poses of forward kinematics is the power of the torques that inverse dynamics returns for the accelerations (plus what accelerates the armatures). So without such torques the energy is constant. For the accelerations that forward_dynamics returns, the rate is the power of the given torques, dampers and springs, when the regularisation of the mass matrix counts as an inertia; without torques the energy, with that of the springs, never grows, and is constant without dampers.", "quantifier": "all trees of such joints, trajectories, times, inertias, gravities, armatures, springs, dampers", "why_tests_cant": "A wrong gyroscopic, transport or gravity term shows only for motions that excite it; a test compares some trajectories up to integration errors that hide small violations.", "anchors": ["src/ring/algorithms/dynamics.py:inverse_dynamics", "src/ring/algorithms/dynamics.py:kinetic_energy", "src/ring/algorithms/dynamics.py:forward_dynamics", "src/ring/algorithms/kinematics.py:forward_kinematics_transforms"]}
{"id": "C112", "title": "where a system is mounted does not matter for how it moves", "statement": "Let every tree of a system be mounted somewhere else and in another orientation, with gravity turned along. Then forward kinematics returns the old poses moved along; inverse dynamics, mass matrix, kinetic energy and forward dynamics are unchanged; and every simulation with the same torques, any number of steps and substeps, passes through the same coordinates and velocities, with the poses moved along. Accelerometer, gyroscope and magnetometer on a moved body read what they read before. In particular a translation, or a turn about the direction of gravity, of one tree changes nothing but its poses.", "quantifier": "all systems of built-in joints, mountings of each tree, coordinates, velocities, accelerations, torques, numbers of steps and substeps", "why_tests_cant": "A term that refers to the world frame instead of the frame of the link, or a wrong order of factors, shows only in some orientations; simulations can only be compared for a few mountings, up to rounding.", "anchors": ["src/ring/algorithms/dynamics.py:step", "src/ring/algorithms/dynamics.py:forward_dynamics", "src/ring/algorithms/dynamics.py:inverse_dynamics", "src/ring/algorithms/dynamics.py:compute_mass_matrix", "src/ring/algorithms/kinematics.py:forward_kinematics_transforms", "src/ring/algorithms/sensors.py:accelerometer", "src/ring/algorithms/sensors.py:gyroscope", "src/ring/algorithms/sensors.py:magnetometer"]}
{"id": "C113", "title": "the step of the simulation follows the equations of motion", "statement": "As the step size goes to zero, one step of the simulation changes the velocities at the rate of the accelerations that forward dynamics returns for the state (implicit damping switched off), and the coordinates of every joint without a quaternion at the rate of the velocities; at step size zero the velocities and these coordinates do not change. In systems of hinges, sliders and frozen joints the energy of the state after the step changes at the rate of the power of the torques, dampers and springs.", "quantifier": "all systems of built-in joints with physical bodies, states, torques (energy: hinges, sliders, frozen joints)", "why_tests_cant": "A limit; a test sees errors of the order of the step size whether or not the method is consistent.", "anchors": ["src/ring/algorithms/dynamics.py:step", "src/ring/algorithms/dynamics.py:_semi_implicit_euler_integration", "src/ring/algorithms/dynamics.py:forward_dynamics", "src/ring/algorithms/dynamics.py:kinetic_energy"]}
{"id": "C114", "title": "trees that are not connected do not influence each other", "statement": "A system may consist of several trees. The poses of the links of a tree, the torques that inverse dynamics returns and the accelerations that forward dynamics returns for its joints, and its coordinates, velocities and poses after any number of simulation steps depend only on that tree: on its coordinates, velocities, torques, mounting, bodies, springs, dampers and armatures. Whatever is different in the other trees makes no difference.", "quantifier": "all systems of built-in joints with physical bodies, all sets of whole trees, all pairs of states, torques and parameters that agree on the set, any number of steps and substeps", "why_tests_cant": "Needs a comparison for every pair of systems that agree on some trees; tests simulate one system at a time.", "anchors": ["src/ring/algorithms/dynamics.py:step", "src/ring/algorithms/dynamics.py:forward_dynamics", "src/ring/algorithms/dynamics.py:compute_mass_matrix", "src/ring/algorithms/dynamics.py:inverse_dynamics", "src/ring/algorithms/dynamics.py:_inv_approximate", "src/ring/algorithms/kinematics.py:forward_kinematics_transforms"]}
{"id": "C115", "title": "substeps are steps, and what is cached does not matter", "statement": "A step with m*n substeps does exactly what m consecutive steps of an m-th of the step size with n substeps each do under the same torques; in particular substeps are steps. The result of a step does not depend on the transforms stored in the links or on the poses stored in the state when the step begins. The poses in the state after a step are the forward kinematics of the coordinates before the last substep: they lag one substep behind the coordinates.", "quantifier": "all systems of built-in joints with physical bodies, all states, torques, step sizes, numbers of steps and substeps and contents of the caches", "why_tests_cant": "Needs every system, every split of the step and every content of the caches; tests use one number of substeps and a fresh system.", "anchors": ["src/ring/algorithms/dynamics.py:step", "src/ring/algorithms/dynamics.py:_semi_implicit_euler_integration", "src/ring/algorithms/kinematics.py:forward_kinematics", "src/ring/algorithms/kinematics.py:forward_kinematics_transforms"]}
{"id": "C116", "title": "cutting and joining systems does not move the links", "statement": "Deleting a link with its descendants, deleting a list of links or removing all IMUs leaves every remaining link at the pose it had: forward kinematics of the smaller system at the same joint coordinates returns, by name, the poses that forward kinematics of the whole system returns. Injecting a system leaves every link of the host at its pose; a link of the guest has the pose it had in its own system, relative to the body at which the guest is attached or, if it is attached to the world, relative to the world.", "quantifier": "all well-formed systems with any joint models, all links, all hosts and guests with different link names, all coordinates", "why_tests_cant": "Needs every tree, every cut and every joint configuration, although the links are renumbered and their coordinates move to other columns; tests compare a few file-based systems.", "anchors": ["src/ring/base.py:System.delete_system", "src/ring/base.py:System.inject_system", "src/ring/sys_composer/delete_sys.py:delete_subsystem", "src/ring/sys_composer/delete_sys.py:make_sys_noimu", "src/ring/sys_composer/inject_sys.py:inject_system", "src/ring/algorithms/kinematics.py:forward_kinematics_transforms"]}
{"id": "C117", "title": "a joint carries only what hangs at it", "statement": "The torques that inverse dynamics returns for a link and for the links below it depend only on these links and on the links that carry them: whatever is different in other branches (coordinates, velocities, accelerations, mounting, bodies) makes no difference. The pose of a link depends only on itself and on the links that carry it. The mass matrix has entries different from zero only between joints of which one carries the other.", "quantifier": "all systems of built-in joints, all links, all pairs of systems, states and accelerations that agree on the branches through the link", "why_tests_cant": "Needs every tree and every pair of motions that agree on a branch; tests evaluate single configurations.", "anchors": ["src/ring/algorithms/dynamics.py:inverse_dynamics", "src/ring/algorithms/dynamics.py:compute_mass_matrix", "src/ring/algorithms/kinematics.py:forward_kinematics_transforms"]}
{"id": "C118", "title": "torques are weight plus motion, and the part of the motion grows with the square of its speed", "statement": "The torques that inverse dynamics returns are those that hold the weight of the links at rest plus those that the motion would need without gravity. A motion played k times as fast (velocities times k, accelerations times k squared) under k squared times the gravity needs k squared times the torques, so without gravity the torques grow with the square of the speed; the kinetic energy grows with k squared. At rest and without gravity no torque is needed.", "quantifier": "all systems after forward kinematics, all velocities and accelerations, all factors", "why_tests_cant": "Identities between results for all motions and all factors; tests evaluate single motions.", "anchors": ["src/ring/algorithms/dynamics.py:inverse_dynamics", "src/ring/algorithms/dynamics.py:kinetic_energy"]}
{"id": "C119", "title": "heavier bodies need proportionally stronger torques", "statement": "With c times the mass in every body and c times the armature (and the inertias of the links computed anew from the bodies of every shape) the same motion, under the same gravity, needs exactly c times the torques, the mass matrix is c times the old one and the kinetic energy c times the old one. If moreover springs, dampers and the torques that drive the joints are c times as strong (c not zero), forward dynamics returns the same accelerations and every simulation, with any number of substeps, is the same; for that the armature has to make up for the millionth that forward dynamics adds to the diagonal of the mass matrix and that is not scaled.", "quantifier": "all systems after forward kinematics with bodies of all shapes, all motions, all factors c; for the simulation all systems of built-in joints with exact inversion of the mass matrix, all states, torques and numbers of substeps", "why_tests_cant": "Identities for all systems, shapes, motions and factors; tests compare single numbers.", "anchors": ["src/ring/algorithms/dynamics.py:inverse_dynamics", "src/ring/algorithms/dynamics.py:compute_mass_matrix", "src/ring/base.py:_inertia_from_geometries", "src/ring/base.py:Inertia", "src/ring/algorithms/dynamics.py:forward_dynamics", "src/ring/algorithms/dynamics.py:step"]}
{"id": "C120", "title": "a simulation of hinges and sliders does not depend on the unit of time", "statement": "For every factor k other than zero: when gravity, torques and spring stiffnesses are multiplied by k squared, velocities and dampings by k, and the step size is divided by k, forward dynamics returns k squared times the accelerations (for every system, with the exact and with the approximate inverse of the mass matrix), and for systems without quaternion joints a step with any number of substeps returns the same positions and poses and k times the velocities.", "quantifier": "all systems (without free, cor or spherical joints for the simulation), all states, torques, numbers of substeps and factors other than zero", "why_tests_cant": "An identity between two simulations for all factors and any number of substeps; tests compare single runs with tolerances.", "anchors": ["src/ring/algorithms/dynamics.py:forward_dynamics", "src/ring/algorithms/dynamics.py:_semi_implicit_euler_integration", "src/ring/algorithms/dynamics.py:step"]}
