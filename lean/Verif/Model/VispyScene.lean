import Verif.Model.Render

/-!
# The scene of vispy

`/repo/src/ring/rendering/vispy_render.py`: what is on the canvas, where, and what of it a scene remembers; colours of
`/repo/src/ring/rendering/vispy_visuals.py`; the arguments of the scene of MuJoCo.

* The canvas is the list of the nodes of `view.scene` in the order of their creation; a node is known by a number, has a
  shape, and a transform or none. `parent=self.view.scene` appends a node, `parent = None` takes it off.
* Methods that raise leave the scene as it was at that line; hence they return the scene and the outcome.
* `geom_link_idx` and `geom_transform` are one list of pairs; before `init` there is none (`AttributeError`).
* `tree_batch` of an empty list is taken as an error of the library.
* The picture of a canvas from a camera is a parameter. A geometry is one of the five classes, so the `Exception` for unknown
  ones is left out. The numbers of rows and columns of spheres and cylinders are left out.
-/

namespace RingLib.rendering

/-! ## Colours of visuals -/

/-- `_default_color`, `/repo/src/ring/rendering/vispy_visuals.py:13` -/
noncomputable def _default_color : PyColor := .tuple [1, 0.8, 0.7, 1]

/-- `_default_edge_color`, `/repo/src/ring/rendering/vispy_visuals.py:14` -/
def _default_edge_color : PyColor := .name "black"

/-- `color is None` -/
def PyColor.isNone : PyColor → Bool
  | .none => true
  | _ => false

/-- `if color is None and edge_color is None: color = _default_color` -/
noncomputable def defaultedColor (color edge_color : PyColor) : PyColor :=
  if color.isNone && edge_color.isNone then _default_color else color

/-- `DoubleMeshVisual.__init__`, `/repo/src/ring/rendering/vispy_visuals.py:21-41`: colours of the faces and of the edges;
`None` is an empty mesh -/
noncomputable def doubleMesh (color edge_color : PyColor) : PyColor × PyColor := (defaultedColor color edge_color, edge_color)

/-- `BoxVisual.__init__`, `/repo/src/ring/rendering/vispy_visuals.py:129-154` -/
noncomputable def boxColors (color edge_color : PyColor) : PyColor × PyColor :=
  let color := if color.isNone then _default_color else color
  let edge_color := if edge_color.isNone then _default_edge_color else edge_color
  doubleMesh color edge_color

/-- `SphereVisual.__init__`, `/repo/src/ring/rendering/vispy_visuals.py:45-62` -/
noncomputable def sphereColors (color edge_color : PyColor) : PyColor × PyColor := (defaultedColor color edge_color, edge_color)

/-- `CylinderVisual.__init__`, `/repo/src/ring/rendering/vispy_visuals.py:161-191`: `edge_color` is not handed on -/
noncomputable def cylinderColors (color edge_color : PyColor) : PyColor × PyColor := (defaultedColor color edge_color, .none)

/-! ## Nodes -/

/-- what a node draws: vertices or sizes, and the colours of faces and edges -/
inductive Visual where
  | box (verts : List (Vec3 ℝ)) (colors : PyColor × PyColor)
  | sphere (radius : ℝ) (colors : PyColor × PyColor)
  | cylinder (radius length : ℝ) (colors : PyColor × PyColor)
  | capsule (verts : List (Vec3 ℝ)) (colors : PyColor × PyColor)
  | axes

/-- a node of the canvas -/
structure Node where
  id : Nat
  visual : Visual
  transform : Option (Matrix (Fin 4) (Fin 4) ℝ)

/-- a geometry with its `edge_color` -/
structure VGeom extends Geom where
  edge_color : PyColor

/-- `isinstance(geom, base.XYZ)` -/
def VGeom.isXYZ (g : VGeom) : Bool :=
  match g.shape with
  | .xyz _ => true
  | _ => false

/-- the visual of a geometry: `/repo/src/ring/rendering/vispy_render.py:121-135` and `_add_box`, `_add_sphere`,
`_add_cylinder`, `_add_capsule`, `_add_xyz`, `/repo/src/ring/rendering/vispy_render.py:261-298`, and
`CapsuleVisual.__init__`, `/repo/src/ring/rendering/vispy_visuals.py:271-287` -/
noncomputable def visualOf (g : VGeom) : Py Visual :=
  match g.shape with
  | .box a b c => .ok (.box (_add_box a b c) (boxColors g.color g.edge_color))
  | .sphere r => .ok (.sphere r (sphereColors g.color g.edge_color))
  | .cylinder r l => .ok (.cylinder r l (cylinderColors g.color g.edge_color))
  | .capsule r l => do
    let verts ← capsuleMesh r l
    return .capsule verts (doubleMesh g.color g.edge_color)
  | .xyz _ => .ok .axes

/-! ## The scene -/

/-- the attributes of a scene -/
structure VScene (Cam : Type) where
  xyz : Bool
  xyz_root : Bool
  xyz_transform1 : Bool
  canvas : List Node
  next : Nat
  visuals : List Nat
  geoms : List (Option VGeom)
  fresh_init : Bool
  batch : Option (List (Int × Transform ℝ))
  camera : Cam

variable {Cam Img : Type}

namespace VScene

/-- `/repo/src/ring/rendering/vispy_render.py:53-56` `enable_xyz` -/
def enable_xyz (s : VScene Cam) (enable_root : Bool := true) : VScene Cam :=
  let s := { s with xyz := true }
  if enable_root then { s with xyz_root := true } else s

/-- `/repo/src/ring/rendering/vispy_render.py:58-61` `disable_xyz` -/
def disable_xyz (s : VScene Cam) (disable_root : Bool := true) : VScene Cam :=
  let s := { s with xyz := false }
  if disable_root then { s with xyz_root := false } else s

/-- `/repo/src/ring/rendering/vispy_render.py:63-67` `enable_xyz_transform1` and `disable_xyz_tranform1` -/
def set_xyz_transform1 (s : VScene Cam) (b : Bool) : VScene Cam := { s with xyz_transform1 := b }

/-- `/repo/src/ring/rendering/vispy_render.py:213-256` `VispyScene.__init__` and `_set_camera`; class attributes are those of
`/repo/src/ring/rendering/vispy_render.py:27-30` -/
def create (camera : Cam) (show_cs : Bool := false) (show_cs_root : Bool := true) : VScene Cam :=
  let s : VScene Cam := ⟨true, true, true, [], 0, [], [], false, none, camera⟩
  if show_cs then s.enable_xyz else s.disable_xyz (!show_cs_root)

/-- a new node on the canvas -/
def add (s : VScene Cam) (v : Visual) : VScene Cam :=
  { s with canvas := s.canvas ++ [⟨s.next, v, none⟩], next := s.next + 1 }

/-- `self.visuals.append(self._add_…())` -/
def push (s : VScene Cam) (v : Visual) : VScene Cam :=
  { s.add v with visuals := s.visuals ++ [s.next] }

/-- `_remove_all_visuals` and `_remove_visual`, `/repo/src/ring/rendering/vispy_render.py:105-107, 300-301` -/
def remove_all_visuals (s : VScene Cam) : VScene Cam :=
  { s with canvas := s.canvas.filter fun n => n.id ∉ s.visuals }

/-- the transform of a geometry, `/repo/src/ring/rendering/vispy_render.py:120, 129-133` -/
def geomTransform (s : VScene Cam) (g : VGeom) : Transform ℝ :=
  if g.isXYZ && !s.xyz_transform1 then ⟨0, ⟨1, 0, 0, 0⟩⟩ else g.transform

/-- the loop over geometries, `/repo/src/ring/rendering/vispy_render.py:118-136`: the scene, `geom_link_idx` with
`geom_transform`, and the error -/
noncomputable def addGeoms : VScene Cam → List VGeom → VScene Cam × List (Int × Transform ℝ) × Py Unit
  | s, [] => (s, [], .ok ())
  | s, g :: gs =>
    match visualOf g with
    | .error e => (s, [], .error e)
    | .ok v =>
      let r := addGeoms (s.push v) gs
      (r.1, (g.link_idx, s.geomTransform g) :: r.2.1, r.2.2)

/-- `np.unique` -/
def unique (l : List Int) : List Int := (l.mergeSort (· ≤ ·)).dedup

/-- the loop over links, `/repo/src/ring/rendering/vispy_render.py:140-146` -/
def addLinks (s : VScene Cam) (links : List Int) : VScene Cam :=
  links.foldl (fun s _ => let s := s.push .axes; { s with geoms := s.geoms ++ [none] }) s

/-- `/repo/src/ring/rendering/vispy_render.py:109-153` `init` -/
noncomputable def init (s : VScene Cam) (geoms : List VGeom) : VScene Cam × Py Unit :=
  let s := s.remove_all_visuals
  let s := { s with geoms := geoms.map some, fresh_init := true, visuals := [] }
  match s.addGeoms geoms with
  | (s, _, .error e) => (s, .error e)
  | (s, l, .ok ()) =>
    let links := if s.xyz then unique (l.map Prod.fst) else []
    let s := s.addLinks links
    let s := if s.xyz_root then s.add .axes else s
    let l := l ++ links.map fun i => (i, ⟨0, ⟨1, 0, 0, 0⟩⟩)
    if l = [] then (s, .error .other) else ({ s with batch := some l }, .ok ())

/-- `visual.transform = MatrixTransform(transform)` and `visual.transform.matrix = transform`,
`/repo/src/ring/rendering/vispy_render.py:326-340` -/
def setTransform (canvas : List Node) (id : Nat) (m : Matrix (Fin 4) (Fin 4) ℝ) : List Node :=
  canvas.map fun n => if n.id = id then { n with transform := some m } else n

/-- the loop of `/repo/src/ring/rendering/vispy_render.py:194-199` -/
def updateLoop (fresh_init : Bool) (transforms : List (Matrix (Fin 4) (Fin 4) ℝ)) :
    Nat → List Nat → List Node → List Node × Py Unit
  | _, [], canvas => (canvas, .ok ())
  | i, id :: ids, canvas =>
    match transforms[i]? with
    | none => (canvas, .error .index)
    | some m =>
      if !fresh_init && canvas.any (fun n => n.id == id && n.transform.isNone) then (canvas, .error .attribute)
      else updateLoop fresh_init transforms (i + 1) ids (setTransform canvas id m)

/-- one matrix per visual, `/repo/src/ring/rendering/vispy_render.py:183-191, 205-209` -/
noncomputable def transformPerVisual (x : List (Transform ℝ)) (batch : List (Int × Transform ℝ)) :
    Py (List (Matrix (Fin 4) (Fin 4) ℝ)) :=
  batch.mapM fun b => _compute_transform_per_visual x b.2 b.1

/-- `/repo/src/ring/rendering/vispy_render.py:179-202` `update` -/
noncomputable def update (s : VScene Cam) (x : List (Transform ℝ)) : VScene Cam × Py Unit :=
  match s.batch with
  | none => (s, .error .attribute)
  | some batch =>
    match transformPerVisual x batch with
    | .error e => (s, .error e)
    | .ok transforms =>
      match updateLoop s.fresh_init transforms 0 ((s.visuals.zip s.geoms).map Prod.fst) s.canvas with
      | (canvas, .error e) => ({ s with canvas := canvas }, .error e)
      | (canvas, .ok ()) => ({ s with canvas := canvas, fresh_init := false }, .ok ())

/-- the argument `camera` of `render` -/
inductive CameraArg (Cam : Type) where
  | none
  | one (c : Cam)
  | list (l : List Cam)

/-- `/repo/src/ring/rendering/vispy_render.py:69-84` `render`, with `_get_camera`, `_set_camera` and `_render` of
`/repo/src/ring/rendering/vispy_render.py:252-259`: an image or a list of images -/
def render (photo : List Node → Cam → Img) (s : VScene Cam) : CameraArg Cam → VScene Cam × (Img ⊕ List Img)
  | .none => (s, .inl (photo s.canvas s.camera))
  | .one c => ({ s with camera := c }, .inl (photo s.canvas c))
  | .list l =>
    let r := l.foldl (fun (r : VScene Cam × List Img) c => ({ r.1 with camera := c }, r.2 ++ [photo r.1.canvas c])) (s, [])
    (r.1, .inr r.2)

end VScene

/-! ## Arguments of the scene of MuJoCo -/

/-- a value of `add_cameras` or `add_lights` -/
inductive OneOrMore where
  | one (s : String)
  | more (l : List String)
deriving DecidableEq

/-- the assignments of `to_list`, `/repo/src/ring/rendering/mujoco_render.py:179-183`, to the dictionary of the caller -/
def to_list (dic : List (Int × OneOrMore)) : List (Int × OneOrMore) :=
  dic.map fun e => (e.1, match e.2 with
    | .one s => .more [s]
    | .more l => .more l)

/-- the texts that `init` is given, `/repo/src/ring/rendering/mujoco_render.py:166-187` -/
def mujocoTexts (dic : List (Int × OneOrMore)) : List (Int × List String) :=
  (to_list dic).map fun e => (e.1, match e.2 with
    | .one s => s.toList.map String.singleton
    | .more l => l)

end RingLib.rendering
