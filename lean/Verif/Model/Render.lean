import Mathlib.Algebra.Order.Round
import Mathlib.Data.Matrix.Mul
import Mathlib.LinearAlgebra.Matrix.Notation
import Verif.Model.Inertia
import Verif.Model.Trig
import Verif.Model.Py

/-!
# Drawing geometries

`/repo/src/ring/rendering/`: colours, coordinate systems, the model for MuJoCo, the transforms for vispy and the meshes.

* The text of the MuJoCo model is the record of what it says; a number in the text is the number rounded to four
  decimals (ties upwards instead of to the even neighbour).
* What MuJoCo draws is its documented meaning: a body has a position and an orientation (a quaternion from the body to the
  world), a geom the same relative to its body; boxes have half sizes, cylinders and capsules lie along the z-axis and have
  a radius and half the length of the cylinder.
* The matrix of a visual of vispy multiplies a row `(x, y, z, 1)` from the right.
* The order of a python set of bodies is the order of first appearance; it has no effect, since bodies are found by name.
* Sizes of windows, cameras, lights (other than where they are attached), materials and shading are left out.
-/

namespace RingLib.rendering

open maths

/-! ## Colours and coordinate systems -/

/-- a colour: `None`, a tuple of numbers, a name, or something else -/
inductive PyColor where
  | none
  | tuple (l : List ℝ)
  | name (s : String)
  | other

/-- `_rgbas`, `/repo/src/ring/rendering/base_render.py:15-44` -/
noncomputable def _rgbas : List (String × List ℝ) := [
  ("self", [0.7, 0.5, 0.1, 1.0]),
  ("effector", [0.7, 0.4, 0.1, 1.0]),
  ("decoration", [0.3, 0.5, 0.7, 1.0]),
  ("eye", [0.0, 0.2, 1.0, 1.0]),
  ("target", [0.6, 0.3, 0.3, 1.0]),
  ("site", [0.5, 0.5, 0.5, 0.3]),
  ("red", [0.8, 0.2, 0.2, 1.0]),
  ("green", [0.2, 0.8, 0.2, 1.0]),
  ("blue", [0.2, 0.2, 0.8, 1.0]),
  ("yellow", [0.8, 0.8, 0.2, 1.0]),
  ("cyan", [0.2, 0.8, 0.8, 1.0]),
  ("magenta", [0.8, 0.2, 0.8, 1.0]),
  ("white", [0.8, 0.8, 0.8, 1.0]),
  ("gray", [0.5, 0.5, 0.5, 1.0]),
  ("brown", [0.6, 0.3, 0.1, 1.0]),
  ("orange", [0.8, 0.5, 0.2, 1.0]),
  ("pink", [0.8, 0.75, 0.8, 1.0]),
  ("purple", [0.5, 0.2, 0.5, 1.0]),
  ("lime", [0.5, 0.8, 0.2, 1.0]),
  ("gold", [0.8, 0.84, 0.2, 1.0]),
  ("matplotlib_green", [0.0, 0.502, 0.0, 1.0]),
  ("matplotlib_blue", [0.012, 0.263, 0.8745, 1.0]),
  ("matplotlib_lightblue", [0.482, 0.784, 0.9647, 1.0]),
  ("matplotlib_salmon", [0.98, 0.502, 0.447, 1.0]),
  ("black", [0.1, 0.1, 0.1, 1.0]),
  ("dustin_exp_blue", [75 / 255, 93 / 255, 208 / 255, 1.0]),
  ("dustin_exp_white", [241 / 255, 239 / 255, 208 / 255, 1.0]),
  ("dustin_exp_orange", [227 / 255, 139 / 255, 61 / 255, 1.0])]

/-- `/repo/src/ring/rendering/base_render.py:248-261` `_color_to_rgba`: the new colour -/
noncomputable def _color_to_rgba : PyColor → Py (List ℝ)
  | .none => pyDict _rgbas "self"
  | .tuple l => if l.length = 3 then .ok (l ++ [1.0]) else .ok l
  | .name s => pyDict _rgbas s
  | .other => .error .notImplemented

/-- a geometry to be drawn, with its colour -/
structure Geom where
  mass : ℝ
  transform : Transform ℝ
  link_idx : Int
  shape : Shape ℝ
  color : PyColor

/-- the i-th unit vector, `/repo/src/ring/maths.py:19-22` -/
def unit_vector (i : Nat) : Vec3 ℝ := ⟨if i = 0 then 1 else 0, if i = 1 then 1 else 0, if i = 2 then 1 else 0⟩

/-- `/repo/src/ring/rendering/base_render.py:264-278` `_xyz_to_three_capsules` of an `XYZ` of the given size -/
noncomputable def _xyz_to_three_capsules (xyz : Geom) (size : ℝ) : List Geom :=
  let length := size
  let radius := length / 7
  let colors := ["red", "green", "blue"]
  let rot_axis := [1, 0, 2]
  (List.range 3).map fun i =>
    let pos := Vec3.smul (length / 2) (unit_vector i)
    let rot := quat_rot_axis (unit_vector (rot_axis.getD i 0)) (Real.pi / 2)
    let t := algebra.transform_mul ⟨pos, rot⟩ xyz.transform
    ⟨0, t, xyz.link_idx, .capsule radius length, .name (colors.getD i "")⟩

/-- `/repo/src/ring/rendering/base_render.py:281-288` `_replace_xyz_geoms`. -/
noncomputable def _replace_xyz_geoms : List Geom → List Geom
  | [] => []
  | g :: gs =>
    match g.shape with
    | .xyz size => _xyz_to_three_capsules g size ++ _replace_xyz_geoms gs
    | _ => g :: _replace_xyz_geoms gs

/-! ## MuJoCo -/

/-- kinds of geoms of MuJoCo -/
inductive MjType | box | sphere | capsule | cylinder
deriving DecidableEq

/-- `<geom type size rgba pos quat/>` -/
structure MjGeom where
  type : MjType
  size : List ℝ
  rgba : List ℝ
  pos : Vec3 ℝ
  quat : Quat ℝ

/-- `<body name mocap="true">` -/
structure MjBody where
  name : Int
  cameras : List String
  lights : List String
  geoms : List MjGeom

/-- the parts of the model that depend on the arguments -/
structure MjModel where
  worldCameras : List String
  worldLights : List String
  bodies : List MjBody
  target : Int

/-- a number as it is printed, `/repo/src/ring/rendering/mujoco_render.py:157-159` `_array_to_str` -/
noncomputable def printed (x : ℝ) : ℝ := (round (x * 10000) : ℝ) / 10000

/-- `/repo/src/ring/rendering/mujoco_render.py:134-154` `_xml_str_one_geom`; `rgba` is the colour of the geometry -/
noncomputable def _xml_str_one_geom (g : Geom) (rgba : List ℝ) : Py MjGeom := do
  let (type, size) ← (match g.shape with
    | .box dim_x dim_y dim_z => .ok (MjType.box, [dim_x / 2, dim_y / 2, dim_z / 2])
    | .sphere radius => .ok (MjType.sphere, [radius])
    | .capsule radius length => .ok (MjType.capsule, [radius, length / 2])
    | .cylinder radius length => .ok (MjType.cylinder, [radius, length / 2])
    | .xyz _ => .error .notImplemented : Py (MjType × List ℝ))
  let rot := quat_inv g.transform.rot
  let pos := g.transform.pos
  return ⟨type, size.map printed, rgba.map printed, ⟨printed pos.x, printed pos.y, printed pos.z⟩,
    ⟨printed rot.w, printed rot.x, printed rot.y, printed rot.z⟩⟩

/-- the loops over cameras and over lights, `/repo/src/ring/rendering/mujoco_render.py:30-54`: what is written directly
into the world -/
def attachToWorld (unique_parents : List Int) : List (Int × List String) → Py (List String)
  | [] => .ok []
  | (parent, strs) :: rest =>
    if -1 ∉ unique_parents ∧ parent = -1 then do
      let r ← attachToWorld unique_parents rest
      return strs ++ r
    else do
      pyAssert (parent ∈ unique_parents)
      attachToWorld unique_parents rest

/-- the loop of `/repo/src/ring/rendering/mujoco_render.py:60-64`: the counter `parent` goes up to the link of the next
geometry; it never comes back, and `recursion` stands for a loop without end -/
def group {β : Type} (parent : Int) (groups : List (Int × List β)) : List (Int × β) → Py (List (Int × List β))
  | [] => .ok groups
  | (link_idx, g) :: rest =>
    if parent ≤ link_idx then
      group link_idx (groups.map fun p => if p.1 = link_idx then (p.1, p.2 ++ [g]) else p) rest
    else .error .recursion

/-- `dic[parent] if parent in dic else []` -/
def find (dic : List (Int × List String)) (parent : Int) : List String := (dic.lookup parent).getD []

/-- `min(parents_noworld) if len(parents_noworld) > 0 else -1`, `/repo/src/ring/rendering/mujoco_render.py:73-74` -/
def targetbody (unique_parents : List Int) : Int :=
  match unique_parents.filter (· ≠ -1) with
  | [] => -1
  | p :: ps => ps.foldl min p

/-- `/repo/src/ring/rendering/mujoco_render.py:110-131` `_xml_str_one_body`. -/
noncomputable def _xml_str_one_body (body_number : Int) (geoms : List (Geom × List ℝ)) (cameras lights : List String) :
    Py MjBody := do
  let gs ← geoms.mapM fun g => _xml_str_one_geom g.1 g.2
  return ⟨body_number, cameras, lights, gs⟩

/-- `/repo/src/ring/rendering/mujoco_render.py:14-107` `_build_model_of_geoms`. -/
noncomputable def _build_model_of_geoms (geoms : List (Geom × List ℝ)) (cameras lights : List (Int × List String)) :
    Py MjModel := do
  let geoms := geoms.mergeSort fun a b => decide (a.1.link_idx ≤ b.1.link_idx)
  let unique_parents := (geoms.map fun g => g.1.link_idx).dedup
  let inside_worldbody_cameras ← attachToWorld unique_parents cameras
  let inside_worldbody_lights ← attachToWorld unique_parents lights
  let grouped_geoms ← group (-1) (unique_parents.map fun p => (p, [])) (geoms.map fun g => (g.1.link_idx, g))
  let bodies ← grouped_geoms.mapM fun p => _xml_str_one_body p.1 p.2 (find cameras p.1) (find lights p.1)
  return ⟨inside_worldbody_cameras, inside_worldbody_lights, bodies, targetbody unique_parents⟩

/-- `MujocoScene.update`, `/repo/src/ring/rendering/mujoco_render.py:202-224`: position and orientation of the body with
the given name; the body of the world is not moved -/
def bodyPose (x : List (Transform ℝ)) (name : Int) : Py (Vec3 ℝ × Quat ℝ) :=
  if name = -1 then .ok (0, ⟨1, 0, 0, 0⟩)
  else do
    let t ← pyGet x name
    return (t.pos, quat_inv t.rot)

/-! ## Vispy -/

/-- a homogeneous matrix from its rotation, `M.at[:3, :3].set(E)` -/
def withRotation (E : Mat3 ℝ) : Matrix (Fin 4) (Fin 4) ℝ :=
  !![E.a00, E.a01, E.a02, 0; E.a10, E.a11, E.a12, 0; E.a20, E.a21, E.a22, 0; 0, 0, 0, 1]

/-- `T.at[3, :3].set(x.pos)` -/
def withPosition (p : Vec3 ℝ) : Matrix (Fin 4) (Fin 4) ℝ :=
  !![1, 0, 0, 0; 0, 1, 0, 0; 0, 0, 1, 0; p.x, p.y, p.z, 1]

/-- `VispyScene._compute_transform_per_visual`, `/repo/src/ring/rendering/vispy_render.py:304-320`. -/
noncomputable def _compute_transform_per_visual (x_links : List (Transform ℝ)) (x_link_to_geom : Transform ℝ)
    (geom_link_idx : Int) : Py (Matrix (Fin 4) (Fin 4) ℝ) := do
  let x ← if geom_link_idx = -1 then .ok ⟨0, ⟨1, 0, 0, 0⟩⟩ else pyGet x_links geom_link_idx
  let x := algebra.transform_mul x_link_to_geom x
  let E := quat_to_3x3 x.rot
  return withRotation E * withPosition x.pos

/-- `/repo/src/ring/rendering/vispy_visuals.py:68-122` `box_mesh`: the vertices … -/
noncomputable def boxVerts (dim_x dim_y dim_z : ℝ) : List (Vec3 ℝ) :=
  let verts : List (Vec3 ℝ) :=
    [⟨-dim_x, -dim_y, -dim_z⟩, ⟨dim_x, -dim_y, -dim_z⟩, ⟨-dim_x, dim_y, -dim_z⟩, ⟨dim_x, dim_y, -dim_z⟩,
     ⟨-dim_x, -dim_y, dim_z⟩, ⟨dim_x, -dim_y, dim_z⟩, ⟨-dim_x, dim_y, dim_z⟩, ⟨dim_x, dim_y, dim_z⟩]
  verts.map fun v => ⟨v.x / 2, v.y / 2, v.z / 2⟩

/-- … the edges, `/repo/src/ring/rendering/vispy_visuals.py:87-103` … -/
def boxEdges : List (Nat × Nat) :=
  [(0, 1), (0, 2), (0, 4), (1, 3), (1, 5), (2, 3), (2, 6), (3, 7), (4, 5), (4, 6), (5, 7), (6, 7)]

/-- … and the faces, `/repo/src/ring/rendering/vispy_visuals.py:105-120` -/
def boxFaces : List (Nat × Nat × Nat) :=
  [(0, 1, 2), (1, 2, 3), (0, 1, 4), (1, 4, 5), (0, 2, 4), (2, 4, 6), (1, 3, 5), (3, 5, 7), (2, 3, 6), (3, 6, 7),
   (4, 5, 6), (5, 6, 7)]

/-- `VispyScene._add_box`, `/repo/src/ring/rendering/vispy_render.py:261-269`, and `BoxVisual`,
`/repo/src/ring/rendering/vispy_visuals.py:129-154`: the vertices that are drawn -/
noncomputable def _add_box (dim_x dim_y dim_z : ℝ) : List (Vec3 ℝ) := boxVerts dim_x dim_z dim_y

/-- `np.linspace(a, b, n)[i]` for `n ≥ 2` -/
noncomputable def linspace (a b : ℝ) (n i : Nat) : ℝ := a + (b - a) * i / (n - 1)

/-- the numbers of rows of a cap and of the cylinder and of columns, `/repo/src/ring/rendering/vispy_visuals.py:201-213` -/
noncomputable def capsuleSizes (radius length : ℝ) : Nat × Nat × Nat :=
  (max ⌊radius * 10⌋₊ 10, max ⌊(length - 2 * radius) * 10⌋₊ 10, max ⌊2 * Real.pi * radius * 10⌋₊ 20)

/-- the vertex in the given row and column of a capsule with `ns` rows per cap, `nc` rows of the cylinder and `cols`
columns, `/repo/src/ring/rendering/vispy_visuals.py:215-248` -/
noncomputable def capsuleVert (radius length : ℝ) (ns nc cols : Nat) (offset : Bool) (row col : Nat) : Vec3 ℝ :=
  let cyl_length := length - 2 * radius
  let phi := linspace 0 (2 * Real.pi) cols col + (if offset then Real.pi / cols * row else 0)
  let y := radius * Real.cos phi
  let z := radius * Real.sin phi
  if row < ns then
    let theta := linspace 0 (Real.pi / 2) ns row
    ⟨radius * Real.cos theta + cyl_length / 2, y * Real.sin theta, z * Real.sin theta⟩
  else if row < ns + nc then
    ⟨linspace (-cyl_length / 2) (cyl_length / 2) nc (nc - 1 - (row - ns)), y, z⟩
  else
    let theta := linspace (Real.pi / 2) Real.pi ns (row - (ns + nc))
    ⟨radius * Real.cos theta - cyl_length / 2, y * Real.sin theta, z * Real.sin theta⟩

/-- the two triangles of a row and a column, `/repo/src/ring/rendering/vispy_visuals.py:250-263`, as pairs of row and
column -/
def capsuleFaces (cols row col : Nat) : List (List (Nat × Nat)) :=
  [[(row + 1, col % cols), (row, (col + 1) % cols), (row, col % cols)],
   [(row + 1, (col + 1) % cols), (row, (col + 1) % cols), (row + 1, col % cols)]]

/-- `/repo/src/ring/rendering/vispy_visuals.py:197-267` `capsule_mesh`: the vertices, row by row -/
noncomputable def capsuleMesh (radius length : ℝ) (offset : Bool := true) : Py (List (Vec3 ℝ)) :=
  if length < 2 * radius then .error .value
  else
    let (ns, nc, cols) := capsuleSizes radius length
    .ok ((List.range (2 * ns + nc)).flatMap fun row =>
      (List.range cols).map fun col => capsuleVert radius length ns nc cols offset row col)

end RingLib.rendering
