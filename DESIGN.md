# Design of the formal model of `ring`

Source under study: `/repo` (simon-bachhuber/ring, python). Prover: Lean 4.33.0 + Mathlib.

## 1. Layout

* `lean/Verif/Model/Py.lean` – the little bit of Python semantics used by the models (exceptions as values, list indexing, dictionaries).
* `lean/Verif/Model/…`   – the model: one definition per python function, each with a comment citing file and lines in `/repo`; simplifications are named in that comment.
* `lean/Verif/Spec/…`    – small specifications that do not use model helpers (e.g. "descendant", "forest", "path").
* `lean/Verif/Lemmas/…`  – helper lemmas.
* `lean/Verif/Props/…`   – the property theorems `C01_…`, `C02_…`, with an `example` beside each that meets its hypotheses.

## 2. Modelling decisions

* **Exceptions are values.** Functions that can raise return `Except PyErr α`.
* **Numbers.** `float32/float64` values are modelled by exact numbers: an arbitrary commutative ring / ordered field where
  only algebra matters, `ℝ` where trigonometry or norms matter. Rounding, overflow, NaN propagation through arithmetic is not modelled
  (NaN is modelled explicitly where code branches on it).
* **Randomness.** `jax.random` draws are parameters ("oracle" streams); theorems quantify over all of them.
* **jit / vmap / pmap** are semantically transparent and not modelled. `lax.while_loop`/`scan` are modelled as recursion/folds.
* **Out-of-range dynamic indexing** of JAX arrays is modelled by clamping where code relies on it.
* **Recursion of python functions** over parent arrays is modelled with an explicit recursion budget; running out is `RecursionError`.
  Theorems show that a budget larger than the number of links always suffices on well-formed input.
* **Files, XML text, HDF5 containers** are modelled as abstract trees / maps (no character-level syntax).

## 3. Proof ideas per property

The status of every property is in `MANIFEST.json`, with a note on what is missing.

| id | model | proof idea |
|---|---|---|
| C01 | `_scan_sys` as a fold with running q/d offsets over link types | induction on links with generalised offset: slices concatenate to the array |
| C02 | `name_to_idx`, `idx_to_name`, `idx_map` on name lists | list lemmas, uniqueness |
| C03 | struct-of-arrays `System`; `delete_subsystem` line by line | descendants inductively defined; single pass finds them by strong induction; reindexing via counting |
| C04 | `inject_system` line by line | list append lemmas |
| C05 | composition of both | subtree of guest root is exactly the appended segment |
| C06 | `_new_to_old_indices` (DFS with budget), `_old_to_new_indices`, `identify_system` | DFS visits each node of a forest once; preorder invariant |
| C07 | `_autodetermine_new_parents` | path reversal characterisation, induction along the tree |
| C08 | abstract XML tree writer/reader | numbering of reader = preorder of writer |
| C09 | `_update_sys_if_replace_joint_type` and its callers | per-link decomposition from C01 |
| C10 | `children`, `_find_children`, `findall_bodies_subsystem` | as C03 |
| C11 | `coordinate_vector_to_q`, `State.create` | per block; norm lemmas over ℝ |
| C12–C13 | quaternion functions over a commutative ring | `ring` identities, linear_combination for unit norm |
| C14–C17 | trigonometric functions over ℝ | Mathlib trigonometry, `Complex.arg` for atan2 |
| C18–C20 | `algebra.py`, `spatial.py` over a commutative ring | identities by `linear_combination` |
| C21 | `Inertia.create`, `mcI`, geometry inertias, sum over geometries | permutation invariance of sums, sum-of-squares |
| C22–C24 | `forward_kinematics_transforms`, `inverse_kinematics`, `sim2real` | induction over topologically ordered links |
| C25 | `rel_pose` | algebra + list lemmas |
| C26–C27 | RNEA and CRBA on a topologically ordered forest with arbitrary motion subspaces | subtree sums; virtual power |
| C28 | integrator | unit norm of product |
| C29 | `_inv_approximate` | expected to be **false** (stale residual): concrete counterexample + partial theorem |
| C30–C33 | `_random.py` loops with oracle streams | loop invariants; C30/C31 expected to be **false** in corner cases: counterexample + partial theorem |
| C34 | `_find_interval`, `join_motionconfigs` | sortedness lemma |
| C35 | setup function | interval arithmetic |
| C36–C39 | `sensors.py` | list/index lemmas, exact finite differences |
| C40–C44 | generator arithmetic and batching | number theory, list lemmas; some parts expected **false** |
| C45–C46 | finalize functions, motion artifacts | dictionary lemmas, system surgery lemmas |
| C47–C53 | utils | number theory, dictionary, tree induction; some parts expected **false** |
| C54–C60 | ml | state machines, invariants by induction over histories |
| C61–C62 | registry, P-control | state machine |
| C63–C64 | `draw_random_q` and the draw functions of the joints | one lemma per joint type; oracle streams |
| C65 | `draw_random_q` on a whole system | layout of the scan (C01) |
| C66 | random mounting rotations | norms, arc functions |
| C67 | file names and numbering of stored sequences | string lemmas |
| C68 | evaluation callbacks | list arithmetic |
| C69 | `sensors.imu` with all options | dictionary lemmas |
| C70 | abstract XML tree reader | induction on the tree |
| C71 | random mounting of IMUs | loop invariant over the IMUs, one slice at a time |
| C72 | `morph_system` as a whole | offsets in closed form (`Spec/Morph`), induction over the levels of the new forest; coordinates of the morphed system assembled slice by slice |
| C73 | `randomize_anchors` | relation `HeldAt` between systems, in names; composed along delete, morph and inject; induction over the trees |
| C74 | `scale_xs`, `randomize_to_world_pos_rot` | relation `ScaledBy` in terms of turns about an axis; kinematics of the scaled configuration; composition of `draw_q`, `unzip_xs`, `zip_xs` |
| C75 | the generator as a whole | relations `Variant`, `WithCor`, `IsMotion` describe one sequence; each loop is shown to establish them, keys are tracked by their depth; `C75_simulated` composes with `C62_dynsim`, `C75_outputs` with `C45_pipeline` |
| C76 | `_expand_then_flatten` | arrays by index; the flattened array is described entry by entry (`feature`), by induction over the channels; names of segments by injectivity of `str` |
| C77 | `inverse_kinematics_endeffector` | the optimiser is a parameter; residual through the specification of forward kinematics (C22) and of `coordinate_vector_to_q` (C11); `argmin` by induction |
| C78 | the transform of each built-in joint is differentiated (velocity of a frame = how fixed points are seen to move); forward kinematics and the integrator | composition of velocities along the tree by induction; uniqueness of the velocity gives the exact condition for the joints that fail |
| C79 | the three joints as models in the registry; the velocity of their frames as in C78 | rotations about the drawn axes; exact condition for the declared motion from uniqueness of the velocity; bounds of centred trajectories |
| C80 | the knee joint as a model in the registry; functions and factories with the variable that they share; the velocity of frames as in C78 | bounds of each restriction method and each kind of function; the matrix as product of three right-handed rotations, its quaternion by half angles; uniqueness of the velocity |
| C81 | file systems as in C52; listings in any order; the torch loader as a state with the rest of the epoch; contents of files and the sizes of batches | the batches of an order concatenate to it; a run of one epoch from any boundary; induction over epochs; a listing is a permutation of the written names |
| C82 | arrays as lists of sequences of feature vectors; mean and standard deviation by their defining equations | ceiling division; permutations of ranges; mean and squared deviations under affine maps; a sum of squares that is zero |
| C83 | filters as objects (network, other filter, wrapper, `None`) with files as in C52 and the behaviour as in C59 | chains of wrappers by induction; the round trip through files of C52 |
| C84 | dictionaries of series; files as in C52; things to be closed as functions of a state that may raise | induction over calls, queue and list of closers; file names by injectivity of decimal notation |
| C85 | parameters in a Hilbert space, gradients of Mathlib; batches as lists of sequences, devices as lists of batches; truncated backpropagation through time on one device as specification | gradients of means of differentiable functions; induction over chunks |
| C86 | a run as function from arguments and a world of files and loggers to a result and a world; rank of callbacks, callbacks wanted by the arguments, files that stay as specification | invariant of the loop over episodes; induction over closing |
| C87 | `rx`…, `XtoV` over the reals, functions with a derivative rule as pairs; group laws, fixed vectors, derivatives of Mathlib as specification | half-angle formulas, `linear_combination`, derivative of a product with a continuous factor |
| C88 | `quat_avg` with `eigh` as parameter that meets its documentation (existence proved); distances of rotation matrices as specification | spectral decomposition, Rayleigh quotient |
| C89 | equations of the LSTM cell per unit; network as chain per time step, weights arbitrary functions | induction on time and on layers |
| C90 | `Scaled`, `ScaledWithTime`, `Flattened`: features as the network gets them, by entry; `Estimates`: from the estimates of the network to the results | composition of the theorems of C59, C38, C16, C58 |
| C91 | `ObsAt`, `angleBetween` (angle between rotations from the scalar product), `Expected` (observation, truth, reward, flags by time) | invariant of the object over the actions; error from C14 |
| C92 | `fade` (half a period of the cosine), `length2`, `Used`/`nUsed` (which gradients of a history are used) | properties of the cosine; induction over histories, counters from C55 |
| C93 | `solid` (documented solids), `mjSolid`/`mjPoint`/`mjTurn` (documented meaning of MuJoCo), `rowPoint`, `IsCorner`, `AtDistance` | quaternion algebra and `C18_point`; stable sorting and grouping by induction; trigonometry of the caps |
| C94 | `shot`/`shoot` (picture of one pose in a fresh scene), `poses`, `Overwrites`, `after` (histories of calls) | invariant `Kept` of the module variables over all histories |
| C95 | `Drawn` (where truth and prediction are drawn, by names of links), `Exact` (the true relative rotations), `IsSegment`, `inHatColor` | induction over the tree (`drawn_exact`), refinement of `unzip_xs`/`zip_xs` (C24), `make_sys_noimu` (C03) and `inject_system` (C04) |
| C96 | `Simulated` (what comes out for every number of samples), limits of real sequences | Lyapunov function of a linear recurrence (`recurrence_tendsto`), growth by induction (`recurrence_grows`); geometric decay of the impulse response and superposition (`forced_eventually`) |
| C97 | `Reachable` (all that can be done with a scene), `Placed` (points are drawn where the frames say), `Node.shown`, `forgotten` (nodes the scene does not know) | invariant `SceneInv` over all histories; exact form of the canvas (`init_eq`, `updateLoop_eq`) by induction; poses by C93 |
| C98 | `xmlFile` (the file that is meant), `systemAt` (the model in a file), `FS.DirsAdded`, `Reloaded` of C08 | paths by C52, files by the lemmas of C46, documents by C08 |
| C99 | `commentText`, `PlainComment` (how a comment is written), `Tidy` (how the folder looks like), `exampleFile` | splitting undoes joining (`splitChar_join`), induction over pairs and comments; examples are described by their files, C98 for loading |
| C100 | `slice` (one link of all sequences), `ActsPerSequence`, `estimate` (the filter without devices); values are read by `_zoom_into_metrices` | expanding and merging cancel (C42), the loop over metrics is a map as the names differ |
| C101 | `Holds t S l` (the arrays hold the entries `l` along the first axis), `Arr.Same` (same shape and entries), `InBounds` | per array (`HoldsArr`), lifted by `holds_mapM`, `holds_map2`, `holds_mapN`; joining by induction over the parts |
| C102 | `follow`, `seen` (what is reached along a path), `Step`, `Run` (any program that reads, allocates and writes what it holds) | induction over the recursion with the address ranges of the copies (`IsCopy`, `KidsCopy`); induction over the program with what it can reach (`Safe`) |
| C103 | `After` (histories of calls), `lastGiven`, `Registry.Knows`, `Registry.SameAt` (C61) | the four registrations by `register_state` of C61; induction over the history |
| C104 | `Words` (the words of a text), `IsCount` | the substitution acts on each word (`reSub_append`, by induction over the characters); `split` and `join` give the words |
| C105 | `lookup` in rows and stored files, `FS.DirsAdded` (C52) | unfolding with `Dict.lookup_set`; the three commands one after the other |
| C106 | `Cleaned` (what is written for a list), `IsEpoch` (C43), `pickle_load` (C52), `seqFile` (C67) | induction over the calls of the callback; the loop over files splits at every call (`toFolderLoop_append`) |
| C107 | `Hooke` (one step of a mass on a spring), limits of Mathlib | Newton-Euler equations (C26, C27) of one link; energy of the linear recurrence (C96), growth beyond the stable time step |
| C108 | `SameUpTo` (one shape, entries up to the tolerance) | induction over outputs and names; broadcasting of shapes; renaming keeps the prefix that is done |
| C109 | `Move`, `CanStart` (first move, boxes, range), `Ordered` | speeds of a rectangle of times and changes; arithmetic with bounds of π for the register; C65 for drawing |
| C110 | `WritesArgs`, `Unchanged` (heap of dicts), `Noted` (lookups) | frame property of copies by induction over arguments; induction over systems |
| C111 | `bodyPotential`, `potential`, `elastic`, `regularEnergy`, `HasTwist`, `Motion.HasDeriv` (`Spec.Energy`, `Spec.Twist`) | derivatives of motions in moving frames, tree induction, principle of virtual power, derivative of the energy |
| C112 | `Moved`, `movedPoses`, `State.moved` (`Spec.Moved`) | tree induction for poses, velocities and accelerations, downward induction for forces, induction over substeps and steps |
| C113 | `potential`, `regularEnergy`, `Straight` (`Spec.Energy`), `BuiltIn.Follows` (`Spec.Twist`) | continuity of the regularised inverse in the step size, slope of `a + τ g(τ)` at zero, C111 along the curve of states after one step |
| C114 | `WholeTrees`, `SameOn`, `AgreeOn`, `State.AgreeOn`, `TorquesOn` (`Spec.Separate`) | induction along the trees for poses, velocities, accelerations and forces; the mass matrix has no entries between trees; the difference of two solutions, cut to the trees, has a quadratic form that is not negative |
| C115 | `SameButCache` (equal but for cached transforms), runs of `step` compared with runs of `step` | forward kinematics overwrites what is cached; the loop over `a + b` substeps splits by induction; a substep keeps the poses it starts with |
| C116 | `CoordsByName`, `NamedPose` (`Spec.Alike`) | links with the same joint, mounting and parent by name have the same pose up to that of the body they are attached to, by induction along the tree; what deletion and injection do to the views of the links (C03, C04) |
| C117 | `OnBranch`, `SameOn`, `AgreeOn` (`Spec.Separate`) | velocities and accelerations by induction from the root for any set that contains the parents, forces by induction from the leaves for any set that contains the children; a joint moves only links below it and two links with a common descendant are on one branch |
| C118 | `System.under` (`Spec.Tempo`) | velocities scale with k, accelerations and forces with k², by induction over the tree in both directions; the same inductions split accelerations and forces into two summands |
| C119 | `Geometry.heavier`, `System.heavier`, `System.scaled` (`Spec.Heavier`) | the inertia tensor of every shape and the shift to the link frame are linear in the mass; accelerations do not change, forces scale by induction over the tree; the inverse of c times a matrix is the inverse divided by c; induction over the substeps |
| C120 | `System.tempo`, `State.tempo`, `System.NoQuat` (`Spec.Clock`) | dampings times step size do not change, so neither does the inverse of the damped mass matrix; the forces in front of it are multiplied by k²; induction over the substeps. Quaternion joints are left out because the integration adds 1e-8 to a velocity before it divides by it, a constant with a unit |

Where a property as stated is violated by the code, the negation is proved with a concrete witness
(`…_fails`), a `_partial` theorem states what does hold, and the finding is listed below.

## 4. Trusted base

* **Lean's kernel** (Lean 4.33.0) and the Mathlib that comes with it. `vcheck` replays every module.
* **Axioms.** Only `propext`, `Classical.choice` and `Quot.sound`. `AXIOMS.md` lists for every theorem of the manifest what
  `#print axioms` says. No own axioms, no `sorry`, no `native_decide`, no `bv_decide`, no `implemented_by`, no `unsafe`.
* **The translation** from python to `lean/Verif/Model`, which was done by hand. Every definition there cites the lines it models, and
  says where it simplifies. `tools/cites.py` prints each citation beside the cited source line; `COVERAGE.md` (from `tools/coverage.py`)
  lists for every function of the package which definitions model it, or that none does.
* **The decisions of section 2**, in particular exact numbers instead of floats and oracles instead of random number generators.
* **The statements.** `lean/Verif/Spec` and the structures at the head of the files in `lean/Verif/Props` say what is claimed; they do
  not use helpers of the model beyond the data types.

### What is modelled

| source | model | remarks |
|---|---|---|
| `base.py` | `Algebra`, `Inertia`, `System`, `Compare` | transforms, motions, forces, inertias, geometries, the system with all queries, `scan`, `parse`, joint type changes, state. Rendering, array operations and files: below |
| `algebra.py`, `spatial.py` | `Algebra`, `SpatialRot` | all |
| `maths.py` | `Vec`, `Quat`, `Trig`, `SpatialRot`, `QuatAvg` | all; `eigh` is a parameter; a function with a derivative rule is a pair of value and tangent |
| `algorithms/kinematics.py` | `EndEffector`, `Kinematics` | all; the optimiser of `jaxopt` is a parameter |
| `algorithms/dynamics.py` | `Dynamics` | mass matrix, bias forces, forward dynamics, integrator, approximate inverse |
| `algorithms/jcalc.py` | `Jcalc`, `MotionConfig`, `Registry`, `PdControl`, `DrawQ` | all built-in joints; registration; motion configurations |
| `algorithms/custom_joints/rr_joint.py`, `rr_imp_joint.py`, `rsaddle_joint.py` | `CustomJoints` | all |
| `algorithms/custom_joints/suntay.py` | `Suntay` | all but the network of `MLP_DrawnFnPair` (a haiku module, here a parameter) and the lookups of `_utils_Q_S_H_alpha_beta_gamma` around the function for one time step |
| `utils/dataloader.py`, `dataloader_torch.py` | `DataLoader` | all but worker processes, prefetching, collation and the sampler of grain; `torch.utils.data.DataLoader` by what it documents |
| `utils/normalizer.py` | `Normalizer` | all but printing; functions of `tree_utils` by what they document |
| `ml/base.py:25-145`, `ml/ringnet.py:202-297` (names, `nojit`, `save`, `load`, attributes) | `FilterObjects` | all; a compiled `apply` is a flag |
| `ml/ml_utils.py:22-96` (`n_params`, `DictLogger`), `ml/callbacks.py:240-268, 404-415` (`close`), `ml/training_loop.py:126-131`, `ml/train.py:146-151` | `Closing` | without `cleanup`, `wandb` and the texts of warnings |
| `ml/train.py:36-95, 246-300` (step, evaluation, names of links) | `TrainStep` | filter, loss, optimizer and reductions are parameters; arrays of rank 4 |
| `ml/train.py:100-243, 303-317` (`train_fn`), `ml/callbacks.py:373-387, 391-415, 422-439` | `TrainFn` | generator, filter, optimizer, step and evaluation are parameters; `wandb` reduced to whether a run is active, its tags and uploads |
| `ml/rnno_v1.py`, `ml/ringnet.py:176-199, 276-280` | `Rnno` | all; linear layers, `hk.GRU`, layer norm and activations are arbitrary functions; vectors only |
| `__init__.py:23-114`, `ml/__init__.py` | `Factories` | all; names and `quiet` left out; values of keyword arguments of `RING` are truth values or numbers |
| `utils/register_gym_envs/saddle.py` | `SaddleEnv` | all but the construction of the generator; the generator of sequences and numpy's random numbers are parameters; of `render` the arguments of the renderer |
| `ml/optimizer.py:14-64` | `MakeOptimizer` | all, with cosine schedules, global clipping and chaining of `optax`; adaptive clipping and the inner optimizer are parameters |
| `rendering/mujoco_render.py` | `Render` | text of the model as a record, poses of bodies; floor, sky and pictures not |
| `rendering/vispy_render.py:261-269, 304-320`, `rendering/vispy_visuals.py:68-122, 197-267` | `Render` | transforms, boxes, capsules; spheres and tubes are made by vispy |
| `rendering/base_render.py:15-44, 248-288` | `Render` | colours, coordinate systems |
| `rendering/base_render.py:47-152` | `RenderScene` | scene kept between calls, `render`; the drawing libraries and `tree_equal` are parameters |
| `rendering/mujoco_render.py:189-224` | `RenderScene` | poses of the bodies |
| `rendering/base_render.py:155-245, 291-306` | `RenderPrediction` | all, one time step at a time; colours are opaque texts |
| `rendering/vispy_render.py`, colours of `rendering/vispy_visuals.py`, `rendering/mujoco_render.py:166-187` | `VispyScene` | all but the window library; numbers of rows and columns of spheres and cylinders are left out |
| `base.py:466-479, 782-809`, `io/xml/from_xml.py:262-303`, `io/xml/to_xml.py:91-94`, `io/examples.py` | `SystemFile` | all; parser and printer of XML, `PRNGKey` and `os.listdir` are parameters; comments are given as the list of their texts |
| `ml/callbacks.py:26-93` | `EvalXy` | all; the filter is a parameter given the sequences of a device, metrics return one number per link |
| `base.py:42-110, 124-138, 158-165, 183-190` | `BaseOps` | arrays are shapes with entries by index; `take`, `concatenate` and `repeat` along the first axis, updates at one index without broadcasting, `reshape` without `-1`; `batch` by the documentation of `tree_utils`; `flatten`, `ndim`, `batch_dim`, `transpose` not modelled |
| `utils/utils.py:115-130` | `Deepcopy` | with the memory it acts on; arrays of objects are not modelled; elsewhere in the model the function is the identity |
| `__init__.py:117-158` | `Package` | clock and hash are parameters; a registration is what it hands to `register_new_joint_type` |
| `utils/backend.py` | `Package` | white space and the printed number are parameters |
| `ml/ml_utils.py:33-73, 99-157` | `WandbLogger` | `wandb.save`, `wandb.log` and the shell as described there; time is not modelled |
| `algorithms/generator/base.py:175-235` | `Exports` | a batched tree is the list of its rows; calls of generators that raise do so before anything is written |
| `algorithms/sensors.py:497-520` | `SpringSim`, `SpringXml` | orientations are passed on unchanged and left out |
| `ml/ml_utils.py:236-243, 246-340` | `OnnxExport` | converters are parameters; `sor4onnx.rename` renames by exact name; no NaN |
| `algorithms/jcalc.py:194-330` | `MotionRegister` | all |
| `algorithms/generator/base.py:264-271, 312-318` | `CopyDicts` | dicts as objects in a heap; only keyword arguments |
| `algorithms/_random.py` | `Random` | all |
| `algorithms/sensors.py` | `Sensors`, `Finalize` | all but plotting and the unused smooth quasi-physical variant |
| `algorithms/generator/*` | `Batch`, `DrawQ`, `Files`, `Finalize`, `Flatten`, `Hz`, `MotionArtifacts`, `PdControl`, `Rcmg`, `Setup` | the generator as a whole, batching, sizes, repetition, setup and finalize functions, motion artifacts |
| `sys_composer/*` | `Surgery`, `Morph`, `MorphSystem` | delete, inject, re-rooting, morphing |
| `io/xml/*` | `Xml` | reading and writing as abstract trees. Not: characters of XML |
| `sim2real/sim2real.py` | `Kinematics`, `Scale` | all |
| `utils/*` | `Utils`, `Files`, `Hdf5`, `Hz`, `Batch`, `Compare`, `Anchors` | Not: plotting, colab |
| `utils/hdf5.py:34-131` (trees in several files) | `Hdf5Trees` | indices not negative, along the first axis; shapes of rows not modelled |
| `ml/*` | `Callbacks`, `Optimizer`, `TrainingLoop`, `Ringnet`, `Filters` | bookkeeping and data flow; the neural network cells are parameters |
| `utils/colab.py`, `ml/ml_utils.py:98-157, 210-340` (uploads to wandb, export to tensorflow and onnx), the window and picture libraries behind `rendering/*` | – | not modelled |

Hypotheses that appear again and again:

* `System.Consistent E s`: what `parse` checks (lengths of all arrays, known joint types, unique names, unit quaternions).
* `System.WF E s`: consistent, parents have smaller numbers than their children, and the derived data (inertia, order of the
  geometries) is up to date, as after `parse`.
* `Rng.Ok`: uniform draws lie in `[0, 1)`, integer draws in their range, permutations are permutations.

Each comes with a concrete system or generator that satisfies it (an `example` beside the theorem).

## 5. Findings

Behaviour of the code that contradicts a property, or that a reader would not expect. Where a theorem is named, the behaviour is
proved in the model with a concrete witness; the others were noticed while reading and translating the code.

### Contradicting a listed property

* re-rooting a system with more than one root raises `KeyError` (`C07_several_roots`).
* saving and loading loses the pose of coordinate-system geometries, position ranges of zero size away from the link, needs a model name, changes numeric link names, and cannot load `cor` joints; geometries of the world, `integration_method` and `mass_mat_iters` are never written (`C08_xyz_fails`, `C08_point_fails`, `C08_model_fails`, `C08_name_fails`, `C08_cor_fails`).
* `coordinate_vector_to_q` maps quaternions below the tolerance to the zero quaternion (`C11_tiny_fails`).
* `angle_error` is not exactly invariant under a common right factor (tolerance per component) (`C14_angle_error_right_fails`).
* `_inv_kin_free_2d` misses an argument; `cor` and `saddle` have no inverse kinematics (`C23_unsupported_fails`).
* `_inv_approximate` compares with a residual that is not updated (`C29_monotone_fails`, `C29_converges_fails`).
* the fallback of `random_position_over_time` is never reached: after all tries the last rejected draw is kept (`C30_fails`).
* `_resolve_range_of_motion` can exceed the upper end of the range of motion (`C31_upper_fails`).
* the buffer of knots is one row too small, the last but one knot may be overwritten (`C32_room_fails`).
* cosine interpolation is not constant left of the first knot (`C33_left_fails`).
* `join_motionconfigs` always raises, because it puts a dictionary into a set (`C34_join_fails`, `C34_join_self_fails`).
* accelerometer output of short trajectories has another length; the gyroscope reports slow rotations as zero (`C37_short_fails`, `C37_slow_fails`).
* low-pass filtering fewer than three samples raises (`C38_short_fails`).
* `_compute_repeats` compares list sizes with prime factors and rejects valid requests (`C40_list_fails`).
* `assert len(set(Ts))` is always true, so configurations of different duration are accepted and overwritten (`C44_unequal_fails`).
* renaming links to numbers loses data if a link has the name of another number; `add_y_rootfull` or `use_link_number_in_Xy` alone fails with an unbound variable (`C45_rename_fails`, `C45_rootfull_fails`).
* hiding injected bodies drops the geometries of IMUs; a system of IMUs only raises (`C46_geoms_fails`, `C46_only_imus_fails`).
* `dict_union(overwrite=True)` refuses colliding arrays at the first level (`C48_overwrite_leaf_fails`).
* `replace_elements_w_nans` loops forever if all allowed samples contain NaN (`C49_hangs_fails`).
* HDF5: lists of more than ten elements come back reordered, named tuple fields in alphabetical order (`C50_order_fails`, `C50_fields_fails`).
* loading rows by index ignores their order and refuses repeated ones (`C51_order_fails`, `C51_repeated_fails`); trees with named tuples cannot be loaded from two files, and if the arrays of a file have different lengths the first one decides and other rows are returned (`C51_namedtuple_fails`, `C51_lengths_fails`).
* `to_folder(overwrite=False)` replaces existing files; prefixes with a dot write all sequences to one file (`C52_folder_fails`, `C67_prefix_fails`).
* `sys_compare` raises on systems without geometries or with other geometries; NaN compares unequal (`C53_empty_fails`, `C53_count_fails`, `C53_kind_fails`, `C53_order_fails`, `C53_nan_fails`).
* a queue of length zero raises; parameters of episodes without metric values are stored (`C54_zero_fails`, `C54_unevaluated_fails`).
* `skip_large_update` applies NaN updates during warm-up, and the counter also counts applied updates (`C55_warmup_fails`, `C55_counter_fails`).
* the gradient callback stops the run at the first large gradient if fewer values than demanded have been seen (`C56_first_fails`).
* the scaling wrapper reorders ten or more features (`C59_order_fails`).
* `_flatten_dict` loses values if joined keys coincide (`C60_collision_fails`).
* a refused registration with `overwrite=True` removes the old joint type; refused changes stay noted (`C61_atomic_fails`, `C61_note_fails`).
* the number of rows drawn for frozen joints differs when `N` is not given (`C63_frozen_fails`).
* `to_nomotion_config` leaves the motion of `cor` joints (`C64_cor_fails`).
* `morph_system` gives the joint of the first root to all new roots, so a system of several trees loses joints even if no parent changes (`C72_several_roots_fails`).
* `randomize_anchors` loses the geometries of the world when the system has several trees, also in those results that keep their anchors (`C73_world_geoms_fails`); anchors that do not exist are silently ignored (`C73_unknown`).
* `scale_xs` never changes `p3d`, `free_2d`, `cor` and `saddle` joints (`C74_other_joints_fails`), turns hinges deflected by more than half a turn the wrong way (`C74_large_angle_fails`), and at half turns the result depends on the sign of the quaternion (`C74_half_turn_fails`).
* `randomize_to_world_pos_rot` raises unless the recording is sampled at 100 Hz: the free motion has a fixed time step (`C74_rate_fails`).
* `RCMG(…, randomize_hz=True)` puts the time step into `X` as one number per sequence, and `GeneratorTrafoExpandFlatten` indexes it with two axes: flattening raises (`C76_dt_fails`, `C76_dt_single_fails`). The time step of `randomize_hz_finalize_fn_factory` has the right shape (`C76_factory`), but see `C75_finalize_fn_rejected`.
* `inverse_kinematics_endeffector`: if one of several starts ends with NaNs then `jnp.argmin` picks that one, and NaNs are returned although another start may have reached the pose (`C77_diverged_fails`). A vanishing quaternion has rotation error zero towards every orientation: the initial value `zeros` yields an invalid configuration with residual zero (`C77_zero_fails`).
* the axes of `free`, `free_2d` and `cor` joints declare the linear velocity in the coordinates of the link, but the transform and the integrator use it in the coordinates of the parent; `cor` also misses the part of the displacement that turns; the first axis of a `saddle` joint is declared in the wrong frame (`C78_free_fails`, `C78_free_2d_fails`, `C78_cor_fails`, `C78_saddle_fails`; the `_partial` theorems say exactly when the declared motion is right). So a box that is released upside down rises, and one that lies on its side moves sideways (`C78_falls_fails`).
* `rr_imp` and `rsaddle` joints declare their first axis as if the second turn was not there; the error of the angular velocity of an rr_imp joint is the primary velocity times `2 sin(ψ/2)` for the residual angle `ψ` (`C79_rr_imp_fails`, `C79_rsaddle_fails`, `C79_rr_imp_error`).
* the residual angle of `rr_imp` is centred after it was scaled, so it can leave `±ang_max_deg`, but not twice this interval (`C79_draw_fails`, `C79_draw_partial`).
* the frame of a knee joint turns about the negative x axis, while its motion axis is declared as positive x, and the velocities that come from its translations are not declared at all (`C80_motion`, `C80_motion_fails`). For a hinge `rx` the declared axis is right (C78).
* centred functions can leave the bounds of the config; they only stay within the width of the bounds around zero (`C80_centred_fails`, `C80_poly_centred`, `C80_mlp`); constant functions ignore the bounds (`C80_constant_fails`).
* a factory with `center=True` that is used for two joints centres the second at the flexion range of the first (`C80_centre_fails`).
* drawing flexion angles ignores `rom_halfsize` and takes the number of bins for it; with `randomized_interpolation_angle` it raises (`C80_draw_fails`, `C80_draw_partial`).
* with the default method, coordinates are scaled from the whole circle instead of being projected: a flexion of 0 becomes one of 45 degrees (`C80_coords_fails`, `C80_coords_clip`).
* at a flexion of half a turn the orientation is not a unit quaternion (NaN in the code) (`C80_transform_fails`).
* `os.listdir` gives names in any order, and files of several folders are paired by their position: measurements of one subject can be paired with the labels of another (`C81_pairing_fails`, `C81_pairing_partial`).
* `pickle_load` replaces the extension of a listed file, so that `seq0.json` next to `seq0.pickle` adds the sequence a second time (`C81_foreign_fails`).
* the random number generators of transforms are made without a seed in the torch and eager backends (`C81_seed_fails`).
* the grain backend raises a `TypeError` if no transform is given, which is its default (`C81_grain_none_fails`).
* the normalizer multiplies features that do not vary in the sample, like inputs that are zero throughout, by `1e8`; a deviation of one millionth in other data becomes 100 (`C82_constant_fails`).
* `RING.nojit` forgets the name of the network; wrappers lose it in place, so that `name` raises after a filter has been saved or handed to `train_fn`, and for every filter that is loaded (`C83_name_fails`).
* `AbstractFilter._post_load` returns `None`: filters that are not networks cannot be loaded, and wrappers around them contain `None` after loading (`C83_plain_fails`).
* `load` uses the method of the class it is called on; `AbstractFilter.load` always gives `None`, and `load` of a wrapper class cannot load a network (`C83_class_fails`).
* `DictLogger.save` makes a directory at the path of the file and then cannot open it: a logger with an output path always raises when it is closed and never stores anything (`C84_logs_fails`, for all paths and file systems).
* Metrics that are not finite are left out of the series, so that later entries belong to other episodes (`C84_series_fails`).
* If the name of the parameter file contains a dot besides that of its extension, all parameter sets of the queue get the same file name: closing raises at the second, and all but the best are lost (`C84_dots_fails`).
* If the parameter file exists, closing raises and nothing that was trained is saved, neither the parameters nor the checkpoint that is closed afterwards, and no logger is closed (`C84_exists_fails`, `C84_close_fails`).
* Ids of runs that differ only after their last dot share one checkpoint (`C84_checkpoint_fails`).
* The warning that no logger can upload is given for every logger before the first that can, and is not given if there are no loggers (`C84_warning_fails`).
* Sequences shorter than `tbp`, and those whose length is not a multiple of the number of chunks, raise (`C85_short_fails`, `C85_divide_fails`); chunks may be almost twice as long as `tbp` (`C85_length_fails`, `C85_chunks`).
* The initial state is that of the first batch: a later batch of another size raises (`C85_batchsize_fails`).
* Metrics whose reduction is not a mean depend on the number of devices, since the reductions are averaged over devices (`C85_eval_fails`).
* A list of link names of the wrong length or with a name used twice is accepted: names too many get the data of the last link, names too few drop links (`C85_links_fails`).
* Metrics to be tracked, but no file for the parameters (the default): the assertion that should refuse this compares with `None` instead of `False`, and every run fails when it ends, after all the training (`C86_track_fails`); `None` as file likewise (`C86_none_fails`).
* The parameters of the last episode and the tracked ones are saved under the same name if there is one episode, so that such a run always fails (`C86_share_fails`).
* A resumed run uses the data of the first run again: the keys and the number of the episode start anew (`C86_resume_fails`).
* An exception before the end of training loses everything, no parameters and no checkpoint are saved (`C86_exception_fails`).
* The default of `loggers` is a list that is changed in place: after a run with `wandb` a call without it and without loggers fails before it trains (`C86_default_fails`).
* The value that `safe_arcsin` returns when it is differentiated is the arc cosine (`primal_out = safe_arccos(x)`, `maths.py:78`); it is right for `x = √2/2` only (`C87_arcsin_fails`). So `quat_to_euler` returns other angles under `jax.grad` or `value_and_grad` (`C87_to_euler_fails`).
* `quat_angle_constantAxisOverTime` loses the sign of the angles if the first rotation is (close to) the identity: opposite angles give the same value (`C88_constant_axis_fails`). Sequences of a joint that starts at zero are of this kind.
* The quickstart example (`readme.md:33`, docstring of `ring.RING`, `tests/test_quickstart_example.py`) uses the parent array `[0, 1, 2]`. In the convention of the code (`-1` is the world) every body is then its own parent; no body is connected to another, and for all weights the estimates of the middle body, which has no sensor, do not depend on the measurements at all (`C90_quickstart_fails`). The right array is `[-1, 0, 1]`.
* Misspelt keyword arguments of `ring.RING` are accepted and change nothing (`C90_misspelt_fails`).
* `RNNO(…, return_quats=True)` with otherwise default arguments raises an `AssertionError` when it is applied to features without sampling time, because `samp_freq` defaults to `None` (`C90_rnno_default_fails`).
* `ring.RING(lam, 0)` raises `ZeroDivisionError` from the text of the warning (`C90_warning`).
* `Saddle-v0`: the action zero lies in the action space, its reward is `NaN` (`C91_zero_action_fails`).
* `Saddle-v0`: `reset` keeps the remembered action, so that `render` draws the last action of the old episode over the first pose of the new one (`C91_stale_action_fails`).
* `Saddle-v0`: `render` draws the estimate for the time before over the pose of the current time; an agent without error looks wrong, by 180° in the witness (`C91_picture_lags_fails`).
* `Saddle-v0`: a recording of one sample is never reported as truncated, every action raises `IndexError` (`C91_short_fails`).
* `make_optimizer(…, cos_decay_twice=True)`: one step raises `ValueError` (`C92_one_step_fails`); for an odd number of steps the schedule is one step short and the learning rate of the last step is exactly zero (`C92_odd_steps_fails`).
* `make_optimizer` with default arguments: within the first 300 steps one `NaN` in one gradient makes all parameters of all leaves `NaN`, because the clipping divides by the common length (`C92_warmup_nan_fails`, `C92_nan_spreads`).
* Rendering with the default backend: cylinders and capsules are documented (and weighed, C21) along the x-axis, but MuJoCo draws them along the z-axis and nothing turns them (`C93_mujoco_axis_fails`, `C93_mujoco_long`); vispy draws them along x. The capsules of coordinate systems are made for the z-axis (`C93_xyz`).
* Rendering with vispy: the sizes of a box in y and z are exchanged (`C93_vispy_box_fails`); the length of a capsule is the total length instead of the length of its cylinder, and capsules with a cylinder shorter than two radii raise `ValueError` (`C93_capsule_length_fails`).
* Rendering with MuJoCo: a system without geometries gets cameras that follow a body that does not exist (`C93_no_geoms_fails`); sizes below 0.00005 become 0 (`C93_small_fails`).
* `_load_scene` stores its arguments before the scene is made: after a call that raises (unknown colour, misspelled backend, camera on a link without a geometry), the same call again finds them and draws without an error in the scene of the call before, that is another system; without a scene before it is an `AttributeError` (`C94_after_error_fails`).
* `_load_scene` takes `vispy_backend` out of the stored arguments: a later call that means the default window library gets the scene of the named one (`C94_vispy_backend_fails`), and a call that names it again never reuses its scene.
* `render_prediction`: the branch that adds "the missing links, links that connect to worldbody" is never reached, as `yhat[name]` is read for all links before. The relative orientations alone (what `rel_pose` returns) are a `KeyError` (`C95_rel_pose_fails`, `C95_missing`).
* `render_prediction` says "`yhat` are child-to-parent", but a root must be given parent-to-child: with the comment's convention the root is drawn turned the wrong way (`C95_child_to_parent_fails`).
* `_sys_render`: for geometries of the world (`link_idx` -1) `keep` looks at the parent of the last link, and in a system without IMUs they are drawn a second time in the colour of the prediction (`C95_world_fails`).
* `_quasi_physical_simulation` diverges for sample times with 70 dt + 625 dt² > 4, e.g. at 24 Hz: of a uniform motion the simulated position is further away than every bound (`C96_diverges_fails`). Nothing refuses such a rate; `imu(quasi_physical=True)` at a low rate returns the second difference of it. On the boundary 70 dt + 625 dt² = 4 it oscillates forever, with an amplitude of the way done in a 35th of a second (`C96_boundary_fails`).
* `VispyScene`: `init` adds axes at the root without remembering them; every `init` leaves those of the one before on the canvas (`C97_roots_pile_up_fails`), also when they were switched off since (`C97_root_stays_fails`).
* `VispyScene(show_cs=True, show_cs_root=False)` shows the axes at the root (`C97_show_cs_root_fails`); `enable_xyz(show_cs_root)` would not help either, as they are on by class default.
* `Scene.init`: "show coordinate system of links" leaves out links without a geometry (`C97_no_geom_fails`).
* `Scene.init` that raises (short capsule) has replaced the visuals but not the transforms: `update` then puts new geometries where old ones belong (`C97_after_error_fails`).
* `CylinderVisual` ignores `edge_color` (`C97_cylinder_edges_fails`).
* `System.to_xml` writes to the path as it is, `from_xml` and `create` replace the extension by `.xml`: what was saved under another name is not loaded, but what was there before or nothing (`C98_extension_fails`). `to_xml` does not expand `~`, `from_xml` does (`C98_home_fails`).
* `System.create` ignores `seed` when it is given a text (`C98_seed_fails`), does not see existing files with another extension and loads the `.xml` beside it, or parses the name as a model (`C98_suffix_fails`), and raises `ValueError` for `""`, `"."` and `"/"` (`C98_empty_fails`).
* `from_xml` of a file in a folder that does not exist makes that folder before it raises (`C98_mkdir_fails`).
* `load_comments_from_str`: a comment that begins with a space, as in `<!-- knee side=left -->`, is never found (`C99_space_fails`); two spaces in a row, a space at the end or `=` in a value raise `ValueError` (`C99_equals_fails`).
* `list_examples` lists every other file of the folder too, and loading it raises; a model called `exclude.xml` or `test_morph_system.xml` is never listed (`C99_other_files_fails`).
* `EvalXyTrainingLoopCallback` with names of links: a name too many gets the metric of the last link, a name too few drops a link, a repeated name loses one, and none of it raises (`C100_names_fails`). A batch above the threshold that the number of devices does not divide raises `AssertionError` (`C100_divide_fails`); for a filter that mixes sequences the result depends on the devices (`C100_coupled_fails`).
* `_Base.take` and `__getitem__` outside the batch give an entry of NaN (`C101_take_fails`), updates outside it are dropped (`C101_index_set_fails`); neither raises.
* `_Base.T`, `squeeze`, `reshape` and `hstack` treat position and quaternion alike: for a batch of transforms `len` raises after `T` (`C101_T_fails`) and after `squeeze` of one entry (`C101_squeeze_fails`), no shape without `-1` is possible (`C101_reshape_fails`), and `hstack` gives positions with six components (`C101_hstack_fails`).
* `Motion.create` and `Force.create` of a batch with one argument missing return something that is no batch (`C101_motion_create_fails`); `Transform.create` extends the missing one.
* `pytree_deepcopy` returns a `_Base` as it is, so what is done to the copy of a `_Base` with arrays of numpy is done to the original (`C102_base_fails`).
* `pytree_deepcopy` turns named tuples into tuples (`C102_namedtuple_fails`); for strings, which are scalars for `np.isscalar`, it raises `AttributeError` (`C102_text_fails`).
* `ring.setup` registers the custom joints anew: a change made with `MotionConfig.overwrite_for_joint_type` to one of them is undone, but stays noted, so that it is refused when made again (`C103_undone_fails`).
* `set_host_device_count` cuts a word that contains the flag further back, as after a quotation mark (`C104_inside_fails`).
* Making a `WandbLogger` appends to and then removes the files `pip_list.txt`, `conda_list.txt` and `nvidia-smi.txt` of the working directory, also if they were there before (`C105_command_fails`).
* `WandbLogger.wandb_save` stores files by their last component, so that files of one name in different folders replace each other (`C105_name_fails`); a missing file is ignored with a connection and raises without one (`C105_missing_fails`).
* A metric whose joined name is `i_episode` is logged with the number of the episode in place of its value (`C105_step_fails`).
* `to_folder` replaces sequences with NaNs by others of the same call, while `to_list`, `to_pickle` and `to_eager_gen` keep them (`C106_nan_fails`); if all sequences of one call have NaNs, `to_folder` does not complete although the others do (`C106_all_nan_fails`).
* Making a `WandbLogger` without a run raises and leaves `pip_list.txt` behind (`C105_no_run_fails`).
* `_quasi_physical_simulation_beautiful` damps the velocity in the world, not the velocity relative to the motion, so it stays behind a uniform motion while `_quasi_physical_simulation` catches up with it: the two never agree (`C107_agree_fails`).
* The simulation diverges if dt² k > 4 M + 2 d dt (`C107_explodes_fails`), the IMU for example at 10 Hz (`C107_diverges_fails`).
* `to_onnx`: for a function that returns one array the validation compares its first row to all rows of the output, so an exact export is rejected and a wrong one accepted (`C108_single_fails`).
* `to_onnx` compares only as many outputs as the model has (`C108_fewer_fails`), and renames one name after the other, so exchanged names become one name (`C108_exchanged_fails`).
* `save_model_tf` discards the result of the comparison; with validation it accepts all values (`C108_tf_fails`).
* `is_feasible` looks at time zero only (`C109_later_fails`), and neither at the overwrites for joint types nor at the fields of the centre of rotation (`C109_overwrites_fails`): a configuration that passes may have no move for free joints.
* `to_nomotion_config` keeps the overwrites for joint types: without motion the registered motions `…-S` and `…-S+` still let free joints move (`C109_nomotion_fails`).
* The copies of `_copy_dicts` are shallow: a decorated function that writes into a dict within an argument changes the caller's (`C110_nested_fails`). The builder does not do this. Without the decorator a second system, or a second generator from default options, would be refused (`C110_uncopied_fails`).
* C111 is about the continuous equations. Free, planar free, `cor` and saddle joints are left out because their declared axes are not the velocities of their transforms (C78); a body on a free joint gains energy from nothing (`C78_falls_fails`).
* C113 says nothing about the quaternions of free, `cor` and spherical joints: the integrator turns them with an angular velocity that is up to `1e-8` off (`C78_integrator_turn`).
* C114 is false for `mass_mat_iters` other than zero (`C114_approximate_fails`): the starting guess of `_inv_approximate` is scaled by the trace of the whole matrix and an iterate is accepted or rejected as a whole, so the acceleration of a rotor with armature 1/2 under the torque 1 is 3/2 beside a rotor with armature 1 and 1/37 beside one with armature 3 (one iteration; the right value is 2).
* C119: the millionth that `forward_dynamics` adds to the diagonal of the mass matrix is not scaled. If masses, armatures, springs, dampers and torques are c times as strong and nothing makes up for it, the accelerations are the same only where they are zero (`C119_millionth`, c positive and not one; witness `C119_plain_fails`).

### Noticed while translating

* `suntay._draw_flexion_angle` is called with its positional arguments shifted.
* `joint_type_simplification("free_2d_x")` gives `free`; `change_joint_type` writes a unit quaternion only for exactly `spherical`, `free`, `cor`, while `parse` checks by prefix.
* `overwrite_for_subsystem` cannot be used twice for the same link name, even on another system; a free joint of a link named `2d` collides with `free_2d`.
* the primal output of `_safe_arcsin_jvp` uses `arccos`.
* `inject_system` changes the joint parameter dictionaries of its input.
* nested IMUs, or an IMU attached to the world, raise in `make_sys_noimu`; of two IMUs on a segment the last is used.
* `delete_subsystem` drops all geometries of the world, and deleting everything raises `ValueError`.
* `RCMG(randomize_hz=True, finalize_fn=f)` always fails; `System.create(xml_str, seed)` ignores the seed; `freeze` and `change_joint_type` of unknown names do nothing; the dataloader does not sort the directory.
* `quat_from_3x3` divides by zero at 180 degrees; the default `exclude` of `scale_xs` makes the scaling of positions unreachable.
* `is_feasible` never checks the boxes of `cor` joints; `_draw_free_2d` uses the x and y ranges for y and z.
* `X["dt"]` has shape `()`, which `_expand_dt` indexes.
* HDF5: `OrderedDict` is saved as a dictionary but loaded as a named tuple; keys with `/` break loading; an existing file is truncated before the tree is checked.
* `train_fn` asserts that `callback_save_params is not None`, which is always true; `DictLogger.save` always raises; saving with no tracked metric divides by zero; a truncated-backpropagation length longer than the sequence gives no chunk; the logged loss is that of the last chunk.
* `AbstractFilter._post_load` returns `None`; `RING.nojit`, and so saving, drops the name.
* states of a P-controlled simulation: `x` lags `q` by one step (`C62_lag`).
* rendering attaches geometries of the world to the last parent.
* A `finalize_fn` of the user and `randomize_hz` cannot be combined: the generator is built, and every call raises (`C75_finalize_fn_rejected`).
* Configurations with different `T` can be given to one generator, and every call raises when the motions are stacked (`C75_lengths_rejected`).
* `assert_test_system` accepts massless links at the end of a chain if these have no joint, although its comment excludes them (`C75_test_system`).
* With `return_q_ref`, `X` holds an entry that is not a segment, and flattening raises (`C76_only_segments`).
* The strapdown integration turns with an angular velocity that is too large by `1e-8` (`C78_integrator_turn`).
* Systems with rr, rr_imp or rsaddle joints have neither coordinate vectors nor inverse kinematics; both raise (`C79_no_coordinates`, `C79_no_inv_kin`).
* `SaveParamsTrainingLoopCallback.close` with `cleanup=True` and an empty queue uses the unbound variable `filename`.
* A run resumed from a checkpoint starts with the key, the seeds and the episode number of a new run, so that it sees the same data again.
* The loss that a training step returns is that of the last chunk alone (part of `C85_step`).
* `callback_kill_after_episode=k` trains `k + 1` episodes (`C86_limit` is sharp: the number of the last episode is `k`).
* `XtoV` returns an array of shape `(6, 1)`, which `crm` refuses (its assertion wants `(6,)`); for a half turn it is zero whatever the axis (`C87_XtoV_half_turn`).
* `LSTM.__call__` (`ml/ringnet.py:176-199`) allows inputs of rank two, but splits the state along the first axis; a batch of states is split wrongly. The library maps over batches outside, so that it does not happen there.
* `Saddle-v0` gives the agent the target of its next action in `info["truth"]` (`C91_info_is_target`), and never scores the last sample (`C91_last_never_scored`).
* The schedule of `make_optimizer` counts used gradients; when gradients are skipped the learning rate is higher than planned and the schedule does not reach its end within the training (`C92_training`).
* `box_mesh`: the two triangles of a side have opposite orientations; harmless without shading. `capsule_mesh`: `linspace(0, 2π, num_cols)` includes the end, so the last column repeats the first and one column of triangles is degenerate (`C93_capsule_ends`).
* `VispyScene._add_xyz` ignores the size of an `XYZ`.
* `render(…, render_every_nth=0)` is a `ValueError`, a negative number gives no frames (`C94_every_nth`).
* `render_prediction` of a system with links `x` and `hat_x` raises (`C95_names_taken`).
* `_quasi_physical_simulation` of a uniform motion ends one sample ahead of it (`C96_ahead`), as the position after the step is paired with the sample before.
* `MujocoScene.__init__` turns texts into lists in the dictionaries of the caller and in the module's `_default_lights`; harmless as it is idempotent (`C97_to_list`), but `_load_scene` then compares the changed dictionary with that of the next call, so a call that gives a camera as a text never reuses its scene.
* `load_comments_from_xml`: the docstring shows comments with no element around them; `TreeBuilder(insert_comments=True)` attaches comments to the element that is open, so those before the first element are dropped.
* `step` returns poses `x` that belong to the coordinates before its last substep (C115_lag). Code that reads `state.x` after `step` without calling `forward_kinematics` again sees a state that is late by one substep.
* `inject_system` fills parameters of joint types that only the other system has with NaN. A host link whose joint type has no parameters of its own but for which the guest brings some would use NaN afterwards; C116_inject assumes that every link has its own parameters (`OwnParams`), as in all systems loaded from files.

## 6. Mutation tests

`seeded/LOG.jsonl` has one line per attempt: the definition edited, the edit, the claim it breaks, the theorems that failed and, where a
theorem had to be tightened before it noticed, its name. The edits are made in a copy outside this repository.
