import Verif.Model.Kinematics
import Verif.Model.Surgery
import Verif.Model.RenderScene

/-!
# Drawing a prediction beside the truth

`/repo/src/ring/rendering/base_render.py:155-245, 291-306`. One time step at a time (the axis of time is carried along
by all functions that are used); `jax.jit` is transparent.
-/

namespace RingLib.rendering
open System algebra
variable {α π : Type}

/-- the prediction: a dictionary, or an array with one row per link -/
inductive YHat (α : Type) where
  | dict (d : List (String × Quat α))
  | array (a : List (Quat α))

/-- `/repo/src/ring/rendering/base_render.py:164-165`. A row that is out of range is the last row (jax). -/
def yhatDict (s : System α π) : YHat α → Py (List (String × Quat α))
  | .dict d => pure d
  | .array a => s.link_names.zipIdx.mapM fun (x : String × Nat) =>
      match a[min x.2 (a.length - 1)]? with
      | some q => pure (x.1, q)
      | none => .error .index

/-- `/repo/src/ring/rendering/base_render.py:172-176` one entry of `transform2hat_rot` -/
def hatRot [Ring α] (yhat : List (String × Quat α)) (x : String × Int) : Py (String × Quat α) := do
  let q ← pyDict yhat x.1
  pure (x.1, if x.2 = -1 then q else maths.quat_inv q)

/-- `/repo/src/ring/rendering/base_render.py:182-187` one entry of `transform2hat` -/
def hatTransform [Ring α] (transform2hat_rot : List (String × Quat α)) (transform2 : List (Transform α))
    (x : String × Nat) : Py (Transform α) :=
  match transform2hat_rot.lookup x.1 with
  | some q => pure ⟨0, q⟩
  | none => pyGet transform2 x.2

/-- `/repo/src/ring/rendering/base_render.py:197-199` `add_offset` -/
def add_offset [Ring α] (x : Transform α) (offset : Vec3 α) : Transform α :=
  transform_mul x ⟨offset, maths.unitQuat⟩

/-- `add_offset(xs[i], offset) for i in range(n)` -/
def offsets [Ring α] (xs : List (Transform α)) (offset : Vec3 α) (n : Nat) : Py (List (Transform α)) :=
  (List.range n).mapM fun (i : Nat) => do
    let x ← pyGet xs (i : Int)
    pure (add_offset x offset)

/-- `/repo/src/ring/rendering/base_render.py:302` `(78 / 255, 163 / 255, 243 / 255, 1.0)`; colours are opaque texts in
`Geometry`. -/
def prediction_color : String := "(0.3058823529411765, 0.6392156862745098, 0.9529411764705882, 1.0)"

/-- `/repo/src/ring/rendering/base_render.py:297` `keep`; `link_parents[-1]` is that of the last link. -/
def keepGeom (s : System α π) (transparent_segment_to_root : Bool) (i : Int) : Py Bool :=
  if transparent_segment_to_root then do
    let p ← pyGet s.link_parents i
    pure (decide (p ≠ -1))
  else pure true

/-- `/repo/src/ring/rendering/base_render.py:298` the comprehension -/
def keptGeoms (s : System α π) (transparent_segment_to_root : Bool) (color : String) :
    List (Geometry α) → Py (List (Geometry α))
  | [] => pure []
  | g :: gs => do
    let b ← keepGeom s transparent_segment_to_root g.link_idx
    let rest ← keptGeoms s transparent_segment_to_root color gs
    pure (if b then { g with color := some color } :: rest else rest)

/-- `/repo/src/ring/rendering/base_render.py:296-299` `_geoms_replace_color`; `sys.replace` does not check anything and
does not compute the inertias. -/
def _geoms_replace_color (s : System α π) (transparent_segment_to_root : Bool) (color : String) : Py (System α π) := do
  let geoms ← keptGeoms s transparent_segment_to_root color s.geoms
  pure { s with geoms := geoms }

/-- `/repo/src/ring/rendering/base_render.py:291-306` `_sys_render` -/
def _sys_render [Field α] (E : Env α π) (s : System α π) (transparent_segment_to_root : Bool) : Py (System α π) := do
  let (sys_noimu, _) ← make_sys_noimu E s
  let sys_newcolor ← _geoms_replace_color sys_noimu transparent_segment_to_root prediction_color
  inject_system E s (sys_newcolor.add_prefix_suffix (some "hat_"))

/-- `/repo/src/ring/rendering/base_render.py:155-224` `_render_prediction_internals`, one time step. `update` of the
dictionary lets the truth win. -/
def _render_prediction_internals [Field α] (E : JEnv α π) (s : System α π) (xs : List (Transform α)) (yhat : YHat α)
    (transparent_segment_to_root : Bool) (offset_truth offset_pred : Vec3 α) :
    Py (System α π × List (Transform α)) := do
  let (sys_noimu, _) ← make_sys_noimu E.toEnv s
  let yhat ← yhatDict sys_noimu yhat
  let xs_noimu ← match_xs E sys_noimu xs s
  let transform2hat_rot ← (sys_noimu.link_names.zip sys_noimu.link_parents).mapM (hatRot yhat)
  let (transform1, transform2) ← unzip_xs E sys_noimu xs_noimu
  let transform2hat ← sys_noimu.link_names.zipIdx.mapM (hatTransform transform2hat_rot transform2)
  let xshat ← zip_xs E sys_noimu transform1 transform2hat
  let hats ← offsets xshat offset_pred sys_noimu.num_links
  let truths ← offsets xs offset_truth s.num_links
  let xs_dict := s.link_names.zip truths ++ (sys_noimu.link_names.map fun name => "hat_" ++ name).zip hats
  let sys_render ← _sys_render E.toEnv s transparent_segment_to_root
  let xs_render ← sys_render.link_names.mapM (pyDict xs_dict)
  pure (sys_render, xs_render)

/-- the poses of one step are drawn in the system of the drawing; the steps share it -/
def stepsOf [Field α] (E : JEnv α π) (s : System α π) (transparent : Bool) (offset_truth offset_pred : Vec3 α)
    (steps : List (List (Transform α) × YHat α)) : Py (List (List (Transform α))) :=
  steps.mapM fun st => do
    let r ← _render_prediction_internals E s st.1 st.2 transparent offset_truth offset_pred
    pure r.2

/-- `/repo/src/ring/rendering/base_render.py:227-245` `render_prediction`: truth and prediction of all times; offsets that
are not given are zero. -/
noncomputable def render_prediction {K Sc Img : Type} (lib : SceneLib (System ℝ π) K Sc Img)
    (eq : SceneArgs (System ℝ π) K → SceneArgs (System ℝ π) K → Py Bool)
    (restPose : System ℝ π → List (Transform ℝ)) (cache : SceneCache (System ℝ π) K Sc)
    (E : JEnv ℝ π) (s : System ℝ π) (steps : List (List (Transform ℝ) × YHat ℝ)) (transparent : Bool)
    (offset_truth offset_pred : Option (Vec3 ℝ)) (backend : String) (kwargs : List (String × K))
    (camera : Option String) (render_every_nth : Int) : Py (List Img) × SceneCache (System ℝ π) K Sc :=
  match stepsOf E s transparent (offset_truth.getD 0) (offset_pred.getD 0) steps with
  | .error e => (.error e, cache)
  | .ok xs =>
    match _sys_render E.toEnv s transparent with
    | .error e => (.error e, cache)
    | .ok sys_render =>
      render lib eq num_links restPose cache ⟨sys_render, backend, kwargs⟩ (.batched xs) camera render_every_nth

end RingLib.rendering
