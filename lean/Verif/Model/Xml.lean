import Verif.Model.System
import Verif.Model.Utils

/-!
# Saving and loading systems: `/repo/src/ring/io/xml/`

* An XML document is the tree of its elements. `tostring`, `minidom` and `ElementTree.fromstring` are
  not modelled: what is written is what is read, apart from white space between elements.
* Attributes are strings; the texts of numbers are given by `Txt`.
* A tuple of numbers as colour is represented by its text (`Geometry.color` is a string).
* Arrays of an unexpected shape (two numbers as a position, ...) raise `ValueError` at once; the code
  raises when it stacks or uses them.
* A numeric `model` name, or coordinate system name of a marker, would be kept as an array by the code;
  here it raises `TypeError`.
* The warning of `save_sys_to_str` about joint parameters is not modelled.
-/

namespace RingLib
namespace io
open System
variable {α π K V W : Type}

/-! ## elements -/

/-- an XML element; `V` is the type of its attributes -/
inductive Xml (V : Type) where
  | node (tag : String) (attrib : Dict V) (children : List (Xml V))

namespace Xml

def tag : Xml V → String
  | node t _ _ => t
def attrib : Xml V → Dict V
  | node _ a _ => a
def children : Xml V → List (Xml V)
  | node _ _ c => c

/-- `x.findall(tag)` for a plain tag: the children with that tag -/
def findall (x : Xml V) (t : String) : List (Xml V) := x.children.filter fun c => c.tag = t

mutual
/-- `x.iter()`: tag and attributes of all elements -/
def iter : Xml V → List (String × Dict V)
  | node t a cs => (t, a) :: iterList cs
def iterList : List (Xml V) → List (String × Dict V)
  | [] => []
  | c :: cs => iter c ++ iterList cs
end

mutual
/-- replace the attributes of all elements -/
def mapAttrib (f : String → Dict V → Dict W) : Xml V → Xml W
  | node t a cs => node t (f t a) (mapAttribList f cs)
def mapAttribList (f : String → Dict V → Dict W) : List (Xml V) → List (Xml W)
  | [] => []
  | c :: cs => mapAttrib f c :: mapAttribList f cs
end

end Xml

/-! ## numbers as text -/

/-- the texts of numbers -/
structure Txt (α : Type) where
  /-- `str(x)` of a number -/
  fmt : α → String
  /-- `float(word)`, `none` if it raises -/
  num : String → Option α
  /-- `str(k)` of an integer -/
  fmtInt : Int → String
  /-- `int(x)`, `none` if it raises -/
  toInt : α → Option Int
  /-- `maths.quat_euler(jnp.flip(jnp.deg2rad(angles)), convention="zyx")` -/
  euler : Vec3 α → Quat α

/-- `s.split(" ")` on the characters -/
def splitSp : List Char → List (List Char)
  | [] => [[]]
  | c :: cs =>
    if c = ' ' then [] :: splitSp cs
    else match splitSp cs with
      | [] => [[c]]
      | w :: ws => (c :: w) :: ws

/-- `" ".join(ws)` on the characters -/
def joinSp : List (List Char) → List Char
  | [] => []
  | [w] => w
  | w :: ws => w ++ ' ' :: joinSp ws

/-- `s.split(" ")` -/
def pySplit (s : String) : List String := (splitSp s.toList).map String.ofList

/-- `_to_str` of a one-dimensional array, `/repo/src/ring/io/xml/abstract.py:296-299` -/
def strOfArr (T : Txt α) (l : List α) : String :=
  String.ofList (joinSp (l.map fun x => (T.fmt x).toList))

/-- an attribute after `_convert_attrs_to_arrays`: a string, a scalar or a one-dimensional array -/
inductive AVal (α : Type) where
  | str (s : String)
  | scalar (x : α)
  | arr (l : List α)

/-- The loop body of `_convert_attrs_to_arrays`, `/repo/src/ring/io/xml/from_xml.py:82-87`
(`np.squeeze` turns an array of one number into a scalar). -/
def toAVal (T : Txt α) (v : String) : AVal α :=
  match (pySplit v).mapM T.num with
  | none => .str v
  | some [x] => .scalar x
  | some l => .arr l

/-- an array of three numbers -/
def AVal.vec3 : AVal α → Py (Vec3 α)
  | .arr [x, y, z] => .ok ⟨x, y, z⟩
  | _ => .error .value

/-- an array of four numbers -/
def AVal.quat : AVal α → Py (Quat α)
  | .arr [w, x, y, z] => .ok ⟨w, x, y, z⟩
  | _ => .error .value

/-- `float(v)` of a scalar -/
def AVal.float : AVal α → Py α
  | .scalar x => .ok x
  | .arr _ => .error .type
  | .str _ => .error .value

/-- `jnp.atleast_1d(v)` -/
def AVal.atleast_1d : AVal α → Py (List α)
  | .scalar x => .ok [x]
  | .arr l => .ok l
  | .str _ => .error .type

/-- `v[i]` -/
def AVal.index (v : AVal α) (i : Nat) : Py α :=
  match v with
  | .arr l => pyGet l (i : Int)
  | .scalar _ => .error .index
  | .str _ => .error .type

def vecList (v : Vec3 α) : List α := [v.x, v.y, v.z]
def quatList (q : Quat α) : List α := [q.w, q.x, q.y, q.z]

/-! ## `/repo/src/ring/io/xml/abstract.py` -/

section abstract_
variable [Field α] [DecidableEq α]

/-- `default_quat`, `/repo/src/ring/io/xml/abstract.py:12` -/
def default_quat : Quat α := ⟨1, 0, 0, 0⟩

/-- `default_pos`, `/repo/src/ring/io/xml/abstract.py:13` -/
def default_pos : Vec3 α := ⟨0, 0, 0⟩

/-- `default_damping`, `default_armature`, `default_stiffness`,
`/repo/src/ring/io/xml/abstract.py:14-16` -/
def default_dof (qd_size : Nat) : List α := List.replicate qd_size 0

/-- `/repo/src/ring/io/xml/abstract.py:19-24` `default_zeropoint` -/
def default_zeropoint (q_size : Nat) (link_typ : String) : List α :=
  let zeropoint := List.replicate q_size (0 : α)
  if joint_type_is_free_or_cor_or_spherical link_typ then zeropoint.set 0 1 else zeropoint

/-- `element.set(key, text)` unless a value equals its default -/
def setUnless {β : Type} [DecidableEq β] (d : Dict String) (key : String) (x default : β)
    (text : String) : Dict String :=
  if x = default then d else d.set key text

/-- `/repo/src/ring/io/xml/abstract.py:48-66` `AbsDampArmaStiffZero.to_xml` -/
def dofToXml (T : Txt α) (d : Dict String) (damping armature stiffness zeropoint : List α)
    (q_size qd_size : Nat) (link_typ : String) : Dict String :=
  let d := setUnless d "damping" damping (default_dof qd_size) (strOfArr T damping)
  let d := setUnless d "armature" armature (default_dof qd_size) (strOfArr T armature)
  let d := setUnless d "spring_stiff" stiffness (default_dof qd_size) (strOfArr T stiffness)
  setUnless d "spring_zero" zeropoint (default_zeropoint q_size link_typ) (strOfArr T zeropoint)

/-- `jnp.atleast_1d(attr.get(key, default))` -/
def getDof (attr : Dict (AVal α)) (key : String) (default : List α) : Py (List α) :=
  match attr.lookup key with
  | none => .ok default
  | some v => v.atleast_1d

/-- `/repo/src/ring/io/xml/abstract.py:36-46` `AbsDampArmaStiffZero.from_xml` -/
def dofFromXml (attr : Dict (AVal α)) (q_size qd_size : Nat) (link_typ : String) :
    Py (List α × List α × List α × List α) := do
  let damping ← getDof attr "damping" (default_dof qd_size)
  let armature ← getDof attr "armature" (default_dof qd_size)
  let stiffness ← getDof attr "spring_stiff" (default_dof qd_size)
  let zeropoint ← getDof attr "spring_zero" (default_zeropoint q_size link_typ)
  pure (damping, armature, stiffness, zeropoint)

/-- `attr.get(key, default)` of a position -/
def getPos (attr : Dict (AVal α)) (key : String) : Py (Vec3 α) :=
  match attr.lookup key with
  | none => .ok default_pos
  | some v => v.vec3

/-- `/repo/src/ring/io/xml/abstract.py:78-82` `AbsMaxCoordOMC.to_xml` -/
def omcToXml (T : Txt α) (o : MaxCoordOMC α) : Dict String :=
  let d := setUnless [] "pos" o.pos_marker_constant_offset default_pos
    (strOfArr T (vecList o.pos_marker_constant_offset))
  let d := d.set "name" o.coordinate_system_name
  d.set "pos_marker" (T.fmtInt o.pos_marker_number)

/-- `int(attr.get("pos_marker"))` -/
def getMarker (T : Txt α) (attr : Dict (AVal α)) : Py Int :=
  match attr.lookup "pos_marker" with
  | some (.scalar x) =>
    match T.toInt x with
    | some k => .ok k
    | none => .error .value
  | some (.str _) => .error .value
  | _ => .error .type

/-- `attr.get("name")` of a coordinate system -/
def getCsName (attr : Dict (AVal α)) : Py String :=
  match attr.lookup "name" with
  | some (.str s) => .ok s
  | _ => .error .type

/-- `/repo/src/ring/io/xml/abstract.py:70-75` `AbsMaxCoordOMC.from_xml` -/
def omcFromXml (T : Txt α) (attr : Dict (AVal α)) : Py (MaxCoordOMC α) := do
  let pos ← getPos attr "pos"
  let marker_number ← getMarker T attr
  let cs_name ← getCsName attr
  pure ⟨cs_name, marker_number, pos⟩

/-- `/repo/src/ring/io/xml/abstract.py:92-97` `AbsTrans.to_xml` -/
def transToXml (T : Txt α) (d : Dict String) (t : Transform α) : Dict String :=
  let d := setUnless d "pos" t.pos default_pos (strOfArr T (vecList t.pos))
  setUnless d "quat" t.rot default_quat (strOfArr T (quatList t.rot))

/-- `/repo/src/ring/io/xml/abstract.py:276-288` `_get_rotation` -/
def _get_rotation (T : Txt α) (attr : Dict (AVal α)) : Py (Quat α) :=
  match attr.lookup "quat" with
  | some rot => do
    pyAssert ("euler" ∉ attr.keys)
    rot.quat
  | none =>
    match attr.lookup "euler" with
    | some v => do
      let euler_xyz ← v.vec3
      pure (T.euler euler_xyz)
    | none => .ok default_quat

/-- `/repo/src/ring/io/xml/abstract.py:86-90` `AbsTrans.from_xml` -/
def transFromXml (T : Txt α) (attr : Dict (AVal α)) : Py (Transform α) := do
  let pos ← getPos attr "pos"
  let rot ← _get_rotation T attr
  pure ⟨pos, rot⟩

/-- `/repo/src/ring/io/xml/abstract.py:121-127` `AbsPosMinMax.to_xml` -/
def posMinMaxToXml (T : Txt α) (d : Dict String) (pos_min pos_max : Vec3 α) : Dict String :=
  if pos_min = pos_max then d
  else
    let d := d.set "pos_min" (strOfArr T (vecList pos_min))
    d.set "pos_max" (strOfArr T (vecList pos_max))

/-- `/repo/src/ring/io/xml/abstract.py:101-119` `AbsPosMinMax.from_xml` -/
def posMinMaxFromXml (attr : Dict (AVal α)) (pos : Vec3 α) : Py (Vec3 α × Vec3 α) :=
  match attr.lookup "pos_min", attr.lookup "pos_max" with
  | none, none => .ok (pos, pos)
  | some a, some b => do
    let pos_min ← a.vec3
    let pos_max ← b.vec3
    pyAssert (pos_min ≠ pos_max)
    pure (pos_min, pos_max)
  | _, _ => .error .assertion

/-! ### geometries -/

/-- `geometry_to_xml_identifier[type(geom)]`, `/repo/src/ring/io/xml/abstract.py:260-267` -/
def geomIdentifier : Shape α → String
  | .box _ _ _ => "box"
  | .sphere _ => "sphere"
  | .cylinder _ _ => "cylinder"
  | .capsule _ _ => "capsule"
  | .xyz _ => "xyz"

/-- `element.set(key, ..)` unless it is `None` -/
def setSome (d : Dict String) (key : String) : Option String → Dict String
  | none => d
  | some s => d.set key s

/-- `/repo/src/ring/io/xml/abstract.py:151-163` `_to_xml_geom_processing` -/
def _to_xml_geom_processing (T : Txt α) (g : Geometry α) : Dict String :=
  let d := transToXml T [] g.transform
  let d := d.set "mass" (T.fmt g.mass)
  let d := setSome d "color" g.color
  let d := setSome d "edge_color" g.edge_color
  d.set "type" (geomIdentifier g.shape)

/-- `to_xml` of the five geometries, `/repo/src/ring/io/xml/abstract.py:177-181, 195-199, 213-217,
231-235, 252-257` -/
def geomToXml (T : Txt α) (g : Geometry α) : Dict String :=
  match g.shape with
  | .box x y z => (_to_xml_geom_processing T g).set "dim" (strOfArr T [x, y, z])
  | .sphere r => (_to_xml_geom_processing T g).set "dim" (strOfArr T [r])
  | .cylinder r l => (_to_xml_geom_processing T g).set "dim" (strOfArr T [r, l])
  | .capsule r l => (_to_xml_geom_processing T g).set "dim" (strOfArr T [r, l])
  | .xyz size => setUnless (Dict.set [] "type" "xyz") "dim" size 1 (T.fmt size)

/-- the colour of a geometry, `/repo/src/ring/io/xml/abstract.py:140-146` -/
def getColor (T : Txt α) (attr : Dict (AVal α)) (key : String) : Py (Option String) :=
  match attr.lookup key with
  | none => .ok none
  | some (.str s) => .ok (some s)
  | some (.arr l) => .ok (some (strOfArr T l))
  | some (.scalar _) => .error .type

/-- `/repo/src/ring/io/xml/abstract.py:130-148` `_from_xml_geom_attr_processing` -/
def _from_xml_geom_attr_processing (T : Txt α) (attr : Dict (AVal α)) :
    Py (α × Transform α × Option String × Option String) := do
  let m ← pyDict attr "mass"
  let mass ← m.float
  let trafo ← transFromXml T attr
  let color ← getColor T attr "color"
  let edge_color ← getColor T attr "edge_color"
  pure (mass, trafo, color, edge_color)

/-- `[geom_attr["dim"][i] for i in range(n)]`, all of them positive -/
def getDims (E : Env α π) (attr : Dict (AVal α)) (n : Nat) : Py (List α) := do
  let dim ← pyDict attr "dim"
  let dims ← (List.range n).mapM dim.index
  pyAssert (∀ x ∈ dims, E.ge 0 x = false)
  pure dims

/-- `AbsGeomBox.from_xml`, `/repo/src/ring/io/xml/abstract.py:170-175` -/
def boxFromXml (E : Env α π) (T : Txt α) (attr : Dict (AVal α)) (link_idx : Int) :
    Py (Geometry α) := do
  let c ← _from_xml_geom_attr_processing T attr
  let dims ← getDims E attr 3
  pure ⟨c.1, c.2.1, link_idx, .box (dims.getD 0 0) (dims.getD 1 0) (dims.getD 2 0), c.2.2.1, c.2.2.2⟩

/-- `AbsGeomSphere.from_xml`, `/repo/src/ring/io/xml/abstract.py:188-193` -/
def sphereFromXml (E : Env α π) (T : Txt α) (attr : Dict (AVal α)) (link_idx : Int) :
    Py (Geometry α) := do
  let c ← _from_xml_geom_attr_processing T attr
  let dim ← pyDict attr "dim"
  let radius ← dim.float
  pyAssert (E.ge 0 radius = false)
  pure ⟨c.1, c.2.1, link_idx, .sphere radius, c.2.2.1, c.2.2.2⟩

/-- `AbsGeomCylinder.from_xml`, `/repo/src/ring/io/xml/abstract.py:206-211` -/
def cylinderFromXml (E : Env α π) (T : Txt α) (attr : Dict (AVal α)) (link_idx : Int) :
    Py (Geometry α) := do
  let c ← _from_xml_geom_attr_processing T attr
  let dims ← getDims E attr 2
  pure ⟨c.1, c.2.1, link_idx, .cylinder (dims.getD 0 0) (dims.getD 1 0), c.2.2.1, c.2.2.2⟩

/-- `AbsGeomCapsule.from_xml`, `/repo/src/ring/io/xml/abstract.py:224-229` -/
def capsuleFromXml (E : Env α π) (T : Txt α) (attr : Dict (AVal α)) (link_idx : Int) :
    Py (Geometry α) := do
  let c ← _from_xml_geom_attr_processing T attr
  let dims ← getDims E attr 2
  pure ⟨c.1, c.2.1, link_idx, .capsule (dims.getD 0 0) (dims.getD 1 0), c.2.2.1, c.2.2.2⟩

/-- the size of the coordinate system, `/repo/src/ring/io/xml/abstract.py:244-247` -/
def getSize (attr : Dict (AVal α)) : Py α :=
  match attr.lookup "dim" with
  | none => .ok 1
  | some v => v.float

/-- `AbsGeomXYZ.from_xml`, `/repo/src/ring/io/xml/abstract.py:242-250`, with `XYZ.create`,
`/repo/src/ring/base.py:250-252` -/
def xyzFromXml (E : Env α π) (attr : Dict (AVal α)) (link_idx : Int) : Py (Geometry α) := do
  let dim ← getSize attr
  pyAssert (E.ge 0 dim = false)
  pure ⟨0, Transform.zero, link_idx, .xyz dim, none, none⟩

/-- `xml_identifier_to_abstract[attr["type"]].from_xml(attr, link_idx)`,
`/repo/src/ring/io/xml/from_xml.py:96-98` -/
def geomFromXml (E : Env α π) (T : Txt α) (link_idx : Int) (attr : Dict (AVal α)) :
    Py (Geometry α) := do
  let typ ← pyDict attr "type"
  match typ with
  | .str "box" => boxFromXml E T attr link_idx
  | .str "sphere" => sphereFromXml E T attr link_idx
  | .str "cylinder" => cylinderFromXml E T attr link_idx
  | .str "capsule" => capsuleFromXml E T attr link_idx
  | .str "xyz" => xyzFromXml E attr link_idx
  | .str _ => .error .key
  | _ => .error .type

/-! ## `/repo/src/ring/io/xml/to_xml.py` -/

/-- `arr[global_index_map[..][name]]` -/
def slicedBy (m : List (String × Idx)) (name : String) (xs : List α) : Py (List α) := do
  let i ← pyDict m name
  match i with
  | .slice a b => pure (pySlice xs (a, b))
  | .at _ => .error .type

/-- the attributes of a body, `/repo/src/ring/io/xml/to_xml.py:40-61` -/
def bodyAttrib (E : Env α π) (T : Txt α) (s : System α π) (qmap dmap : List (String × Idx))
    (link_idx : Nat) : Py (Dict String) := do
  let link ← pyGet s.links (link_idx : Int)
  let link_typ ← pyGet s.link_types (link_idx : Int)
  let link_name ← pyGet s.link_names (link_idx : Int)
  let d := (Dict.set [] "joint" link_typ).set "name" link_name
  let d := transToXml T d link.transform1
  let d := posMinMaxToXml T d link.pos_min link.pos_max
  let damping ← slicedBy dmap link_name s.link_damping
  let armature ← slicedBy dmap link_name s.link_armature
  let stiffness ← slicedBy dmap link_name s.link_spring_stiffness
  let zeropoint ← slicedBy qmap link_name s.link_spring_zeropoint
  let q_size ← width E.qw link_typ
  let qd_size ← width E.dw link_typ
  pure (dofToXml T d damping armature stiffness zeropoint q_size qd_size link_typ)

/-- the elements of the geometries and the marker of a body, `/repo/src/ring/io/xml/to_xml.py:63-75` -/
def bodyParts (T : Txt α) (s : System α π) (link_idx : Nat) : Py (List (Xml String)) := do
  let geoms := (s.geoms.filter fun g => g.link_idx = (link_idx : Int)).map fun g =>
    Xml.node "geom" (geomToXml T g) []
  let omc_link ← pyGet s.omc (link_idx : Int)
  pure (geoms ++ (omc_link.toList.map fun o => Xml.node "omc" (omcToXml T o) []))

/-- `process_link`, `/repo/src/ring/io/xml/to_xml.py:39-80`. The first number is the remaining depth
of the recursion. -/
def process_link (E : Env α π) (T : Txt α) (s : System α π) (qmap dmap : List (String × Idx)) :
    Nat → Nat → Py (Xml String)
  | 0, _ => .error .recursion
  | fuel + 1, link_idx => do
    let attrib ← bodyAttrib E T s qmap dmap link_idx
    let parts ← bodyParts T s link_idx
    let childs ← ((List.range s.link_parents.length).filter fun i =>
      s.link_parents[i]? = some (link_idx : Int)).mapM (process_link E T s qmap dmap fuel)
    pure (.node "body" attrib (parts ++ childs))

/-- `/repo/src/ring/io/xml/to_xml.py:15-88` `save_sys_to_str`. Writing `None` as the name of the model
raises `TypeError`. -/
def save_sys_to_str (E : Env α π) (T : Txt α) (s : System α π) : Py (Xml String) := do
  let qmap ← s.idx_map E .q
  let dmap ← s.idx_map E .d
  let bodies ← ((List.range s.link_parents.length).filter fun i =>
    s.link_parents[i]? = some (-1)).mapM (process_link E T s qmap dmap s.link_parents.length)
  match s.model_name with
  | none => .error .type
  | some model_name =>
    pure (.node "x_xy" [("model", model_name)]
      [.node "options" [("dt", T.fmt s.dt), ("gravity", strOfArr T (vecList s.gravity))] [],
        .node "worldbody" [] bodies])

/-! ## `/repo/src/ring/io/xml/from_xml.py` -/

/-- `/repo/src/ring/io/xml/from_xml.py:13-25` `_find_assert_unique` -/
def _find_assert_unique : Xml V → List String → Py (Option (Xml V))
  | _, [] => .error .assertion
  | tree, [key] =>
    match tree.findall key with
    | [] => .ok none
    | [v] => .ok (some v)
    | _ => .error .assertion
  | tree, key :: keys =>
    match tree.findall key with
    | [] => .ok none
    | [v] => _find_assert_unique v keys
    | _ => .error .assertion

/-- the defaults of one tag, `/repo/src/ring/io/xml/from_xml.py:32-37` -/
def defaultAttrib (tree : Xml V) (tag : String) : Py (Dict V) := do
  let defaults_subtree ← _find_assert_unique tree ["defaults", tag]
  match defaults_subtree with
  | none => pure []
  | some x => pure x.attrib

/-- `/repo/src/ring/io/xml/from_xml.py:28-38` `_build_defaults_attributes` -/
def _build_defaults_attributes (tree : Xml V) : Py (Dict (Dict V)) := do
  let geom ← defaultAttrib tree "geom"
  let body ← defaultAttrib tree "body"
  pure [("geom", geom), ("body", body)]

/-- `valid_attrs`, `/repo/src/ring/io/xml/from_xml.py:42-62` -/
def valid_attrs : Dict (List String) := [
  ("x_xy", ["model"]),
  ("options", ["gravity", "dt"]),
  ("defaults", ["geom", "body"]),
  ("worldbody", []),
  ("body", ["name", "pos", "pos_min", "pos_max", "quat", "euler", "joint", "armature", "damping",
    "spring_stiff", "spring_zero"]),
  ("geom", ["type", "mass", "pos", "dim", "quat", "euler", "color", "edge_color"]),
  ("omc", ["name", "pos_marker", "pos"])]

/-- the check of one element, `/repo/src/ring/io/xml/from_xml.py:64-66` -/
def checkElement (x : String × Dict V) : Py Unit := do
  pyAssert (x.1 ∈ valid_attrs.keys)
  let valid ← pyDict valid_attrs x.1
  pyAssert (∀ a ∈ x.2.keys, a ∈ valid)

/-- `/repo/src/ring/io/xml/from_xml.py:41-66` `_assert_all_tags_attrs_valid` -/
def _assert_all_tags_attrs_valid (xml_tree : Xml V) : Py Unit := xml_tree.iter.forM checkElement

/-- the loop body of `_mix_in_defaults`, `/repo/src/ring/io/xml/from_xml.py:71-77` -/
def mixIn (default_attrs : Dict (Dict V)) (tag : String) (attr : Dict V) : Dict V :=
  match default_attrs.lookup tag with
  | none => attr
  | some defaults => defaults.foldl (fun a x => if x.1 ∈ a.keys then a else a.set x.1 x.2) attr

/-- `/repo/src/ring/io/xml/from_xml.py:80-87` `_convert_attrs_to_arrays` -/
def _convert_attrs_to_arrays (T : Txt α) (xml_tree : Xml String) : Xml (AVal α) :=
  xml_tree.mapAttrib fun _ a => a.map fun x => (x.1, toAVal T x.2)

/-- `/repo/src/ring/io/xml/from_xml.py:117-123` `_initial_setup`: the converted tree and `worldbody`.
A missing `worldbody` raises `AttributeError` (`None.iter`). -/
def _initial_setup (T : Txt α) (xml_tree : Xml String) : Py (Xml (AVal α) × Xml (AVal α)) := do
  _assert_all_tags_attrs_valid xml_tree
  let xml_tree := _convert_attrs_to_arrays T xml_tree
  let default_attrs ← _build_defaults_attributes xml_tree
  let worldbody ← _find_assert_unique xml_tree ["worldbody"]
  match worldbody with
  | none => .error .attribute
  | some worldbody => pure (xml_tree, worldbody.mapAttrib (mixIn default_attrs))

/-- `/repo/src/ring/io/xml/from_xml.py:90-102` `_extract_geoms_from_body_xml` -/
def _extract_geoms_from_body_xml (E : Env α π) (T : Txt α) (children : List (Xml (AVal α)))
    (current_link_idx : Int) : Py (List (Geometry α)) :=
  (children.filter fun c => c.tag = "geom").mapM fun c => geomFromXml E T current_link_idx c.attrib

/-- `/repo/src/ring/io/xml/from_xml.py:105-114` `_extract_omc_from_body_xml` -/
def _extract_omc_from_body_xml (T : Txt α) (children : List (Xml (AVal α))) :
    Py (Option (MaxCoordOMC α)) :=
  match children.filter fun c => c.tag = "omc" with
  | [] => .ok none
  | [c] => do
    let o ← omcFromXml T c.attrib
    pure (some o)
  | _ => .error .other

/-- What the dictionaries of `load_sys_from_str` hold about one link,
`/repo/src/ring/io/xml/from_xml.py:158-167`. -/
structure LinkRec (α : Type) where
  parent : Int
  name : String
  typ : String
  transform : Transform α
  pos_min : Vec3 α
  pos_max : Vec3 α
  omc : Option (MaxCoordOMC α)
  damping : List α
  armature : List α
  stiffness : List α
  zeropoint : List α
  geoms : List (Geometry α)

/-- `body.attrib["joint"]`, `/repo/src/ring/io/xml/from_xml.py:174-181` (a numeric joint type is
unhashable) -/
def getJoint (attr : Dict (AVal α)) : Py String := do
  let v ← pyDict attr "joint"
  match v with
  | .str "cor" => .error .other
  | .str s => pure s
  | _ => .error .type

/-- `body.attrib["name"]`, `/repo/src/ring/io/xml/from_xml.py:185-188` -/
def getName (T : Txt α) (attr : Dict (AVal α)) : Py String := do
  let v ← pyDict attr "name"
  match v with
  | .str s => pure s
  | .scalar x =>
    match T.toInt x with
    | some k => pure (T.fmtInt k)
    | none => .error .value
  | .arr _ => .error .type

/-- what `process_body` reads of a body, `/repo/src/ring/io/xml/from_xml.py:174-212` -/
def readBody (E : Env α π) (T : Txt α) (attr : Dict (AVal α)) (children : List (Xml (AVal α)))
    (parent current_link_idx : Int) : Py (LinkRec α) := do
  let typ ← getJoint attr
  let name ← getName T attr
  let transform ← transFromXml T attr
  let pm ← posMinMaxFromXml attr transform.pos
  let omc ← _extract_omc_from_body_xml T children
  let q_size ← width E.qw typ
  let qd_size ← width E.dw typ
  let dof ← dofFromXml attr q_size qd_size typ
  let geoms ← _extract_geoms_from_body_xml E T children current_link_idx
  pure ⟨parent, name, typ, transform, pm.1, pm.2, omc, dof.1, dof.2.1, dof.2.2.1, dof.2.2.2, geoms⟩

/-- `global_link_idx` and the dictionaries -/
abbrev LoadState (α : Type) := Int × List (Int × LinkRec α)

mutual
/-- `process_body`, `/repo/src/ring/io/xml/from_xml.py:170-217`. The dictionaries get the same keys at
the same time and are one dictionary here; a key is always new. -/
def process_body (E : Env α π) (T : Txt α) : Xml (AVal α) → Int → LoadState α → Py (LoadState α)
  | .node _ attr children, parent, st => do
    let current_link_idx := st.1 + 1
    let r ← readBody E T attr children parent current_link_idx
    process_bodies E T children current_link_idx (current_link_idx, st.2 ++ [(current_link_idx, r)])
/-- the loop over `findall("body")`, `/repo/src/ring/io/xml/from_xml.py:214-215` and `219-220` -/
def process_bodies (E : Env α π) (T : Txt α) :
    List (Xml (AVal α)) → Int → LoadState α → Py (LoadState α)
  | [], _, st => .ok st
  | c :: cs, parent, st =>
    if c.tag = "body" then do
      let st ← process_body E T c parent st
      process_bodies E T cs parent st
    else process_bodies E T cs parent st
end

/-- What is known of the joints: `_joint_types[typ].init_joint_params` (`none`: no such joint, `some
none`: the joint has no parameters), `jax.random.split`, and the row of an array of width zero. -/
structure JointInit (π K : Type) where
  init : String → Option (Option (K → π))
  split : K → Nat → List K
  default : π

/-- `joint_params_init_fns`, `/repo/src/ring/algorithms/jcalc.py:1142-1147` -/
def initFns (J : JointInit π K) (link_types : List String) : Py (Dict (K → π)) :=
  link_types.foldlM (fun d typ =>
    if typ ∈ Dict.keys d then .ok d
    else match J.init typ with
      | none => .error .key
      | some none => .ok d
      | some (some f) => .ok (d ++ [(typ, f)])) []

/-- the loop `/repo/src/ring/algorithms/jcalc.py:1151-1154` -/
def drawParams (J : JointInit π K) (n_links : Nat) : K → Dict (K → π) → Dict (List π)
  | _, [] => []
  | key, (typ, f) :: fns =>
    let keys := J.split key (n_links + 1)
    (typ, (keys.drop 1).map f) :: drawParams J n_links (keys.headD key) fns

/-- `/repo/src/ring/algorithms/jcalc.py:1138-1159` `_init_joint_params` -/
def _init_joint_params (J : JointInit π K) (key : K) (s : System α π) : Py (System α π) := do
  let fns ← initFns J s.link_types
  let joint_params := drawParams J s.num_links key fns
  pure { s with joint_params := Dict.set joint_params "default" (List.replicate s.num_links J.default) }

/-- `options`, `/repo/src/ring/io/xml/from_xml.py:126-152`; the result is `float(dt)` and the
gravity -/
def getOptions (xml_tree : Xml (AVal α)) : Py (α × Vec3 α) := do
  let options_xml ← _find_assert_unique xml_tree ["options"]
  let attr := match options_xml with
    | none => []
    | some x => x.attrib
  let dt ← match attr.lookup "dt" with
    | none => pure (1 / 100)
    | some v => v.float
  let gravity ← match attr.lookup "gravity" with
    | none => pure ⟨0, 0, 981 / 100⟩
    | some v => v.vec3
  pure (dt, gravity)

/-- `xml_tree.attrib.get("model", None)`, `/repo/src/ring/io/xml/from_xml.py:147` -/
def getModel (attr : Dict (AVal α)) : Py (Option String) :=
  match attr.lookup "model" with
  | none => .ok none
  | some (.str s) => .ok (some s)
  | some _ => .error .type

/-- one row of the batched links, `/repo/src/ring/io/xml/from_xml.py:192` with the defaults of
`/repo/src/ring/base.py:355-359` -/
def linkRow (r : LinkRec α) : LinkRow α :=
  ⟨r.transform, r.pos_min, r.pos_max, Inertia.zero, Transform.zero, Transform.zero⟩

/-- `/repo/src/ring/io/xml/from_xml.py:130-259` `load_sys_from_str`; `key` is `PRNGKey(seed)`.
`links[0]` raises `IndexError` if there is no link. -/
def load_sys_from_str (E : Env α π) (T : Txt α) (J : JointInit π K) (key : K) (xml_tree : Xml String) :
    Py (System α π) := do
  let setup ← _initial_setup T xml_tree
  pyAssert (xml_tree.tag = "x_xy")
  let model_name ← getModel setup.1.attrib
  let options ← getOptions setup.1
  let st ← process_bodies E T setup.2.children (-1) (-1, [])
  pyAssert (st.2.map Prod.fst = (List.range st.2.length).map Int.ofNat)
  let recs := st.2.map Prod.snd
  let _ ← pyGet recs 0
  let damping ← jnpConcatenate (recs.map (·.damping))
  let armature ← jnpConcatenate (recs.map (·.armature))
  let stiffness ← jnpConcatenate (recs.map (·.stiffness))
  let zeropoint ← jnpConcatenate (recs.map (·.zeropoint))
  let world_geoms ← _extract_geoms_from_body_xml E T setup.2.children (-1)
  let s ← _init_joint_params J key
    { link_parents := recs.map (·.parent)
      links := recs.map linkRow
      joint_params := []
      link_types := recs.map (·.typ)
      link_damping := damping
      link_armature := armature
      link_spring_stiffness := stiffness
      link_spring_zeropoint := zeropoint
      dt := options.1
      geoms := (recs.map (·.geoms)).flatten ++ world_geoms
      gravity := options.2
      integration_method := "semi_implicit_euler"
      mass_mat_iters := 0
      link_names := recs.map (·.name)
      model_name := model_name
      omc := recs.map (·.omc) }
  parse E s

end abstract_
end io
end RingLib
