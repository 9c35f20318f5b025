import Verif.Model.Render

/-!
# Scenes and frames

`/repo/src/ring/rendering/base_render.py:47-152`: the scene that is kept between calls, and `render`.

* The libraries (MuJoCo, vispy) and the conversion of a system to its geometries are parameters: how a scene is made, given
  its geometries, moved and photographed.
* `utils.tree_equal` on the arguments is the parameter `eq` (its model is in `Compare`).
* The dictionary of keyword arguments is kept in the module variable `_args` and is the same object that
  `scene_kwargs.pop` changes; here the changed dictionary is stored.
* One `x` is the list of the transforms of the links (position and rotation have the same number of links).
* The progress bar is left out.
-/

namespace RingLib.rendering

/-- the arguments of `_load_scene` -/
structure SceneArgs (S K : Type) where
  sys : S
  backend : String
  kwargs : List (String × K)

/-- what the libraries provide -/
structure SceneLib (S K Sc Img : Type) where
  geoms : S → List Geom
  mujoco : List (String × K) → Py Sc
  vispy : Option K → List (String × K) → Py Sc
  init : Sc → List (Geom × List ℝ) → Py Sc
  update : Sc → List (Transform ℝ) → Py Sc
  picture : Sc → Option String → Py Img

/-- the module variables `_args` and `_scene`, `/repo/src/ring/rendering/base_render.py:47-48` -/
structure SceneCache (S K Sc : Type) where
  args : Option (SceneArgs S K)
  scene : Option Sc

variable {S K Sc Img : Type}

/-- the dictionary after `scene_kwargs.pop("vispy_backend")`, `/repo/src/ring/rendering/base_render.py:67-70` -/
def popped (a : SceneArgs S K) : SceneArgs S K :=
  if a.backend = "vispy" then ⟨a.sys, a.backend, a.kwargs.filter fun e => e.1 ≠ "vispy_backend"⟩ else a

/-- the new scene, `/repo/src/ring/rendering/base_render.py:60-90` -/
noncomputable def newScene (lib : SceneLib S K Sc Img) (a : SceneArgs S K) : Py Sc := do
  let scene ←
    if a.backend = "mujoco" then lib.mujoco a.kwargs
    else if a.backend = "vispy" then lib.vispy (a.kwargs.lookup "vispy_backend") (popped a).kwargs
    else .error .notImplemented
  let geoms := lib.geoms a.sys
  let geoms := if a.backend = "mujoco" then _replace_xyz_geoms geoms else geoms
  let geoms_rgba ← geoms.mapM fun g => do
    let c ← _color_to_rgba g.color
    return (g, c)
  lib.init scene geoms_rgba

/-- making and storing a scene, `/repo/src/ring/rendering/base_render.py:59-93` -/
noncomputable def freshScene (lib : SceneLib S K Sc Img) (cache : SceneCache S K Sc) (a : SceneArgs S K) :
    Py (Option Sc) × SceneCache S K Sc :=
  match newScene lib a with
  | .ok scene => (.ok (some scene), ⟨some (popped a), some scene⟩)
  | .error e => (.error e, ⟨some (popped a), cache.scene⟩)

/-- `/repo/src/ring/rendering/base_render.py:51-93` `_load_scene`. -/
noncomputable def _load_scene (lib : SceneLib S K Sc Img) (eq : SceneArgs S K → SceneArgs S K → Py Bool)
    (cache : SceneCache S K Sc) (a : SceneArgs S K) : Py (Option Sc) × SceneCache S K Sc :=
  match cache.args with
  | some b =>
    match eq b a with
    | .ok true => (.ok cache.scene, cache)
    | .ok false => freshScene lib cache a
    | .error e => (.error e, cache)
  | none => freshScene lib cache a

/-- the argument `xs`: nothing, a batched transform, a single one, a list -/
inductive RenderXs where
  | none
  | batched (l : List (List (Transform ℝ)))
  | single (x : List (Transform ℝ))
  | list (l : List (List (Transform ℝ)))

/-- the list of poses, `/repo/src/ring/rendering/base_render.py:118-126` -/
def xsList (rest : List (Transform ℝ)) : RenderXs → List (List (Transform ℝ))
  | .none => [rest]
  | .batched l => l
  | .single x => [x]
  | .list l => l

/-- `[xs[t] for t in range(0, len(xs), n)]` -/
def everyNth (n : Int) (xs : List (List (Transform ℝ))) : Py (List (List (Transform ℝ))) :=
  if n = 0 then .error .value
  else if n < 0 then .ok []
  else .ok ((List.range ((xs.length + n.toNat - 1) / n.toNat)).filterMap fun i => xs[i * n.toNat]?)

/-- the frames and the scene after the loop, `/repo/src/ring/rendering/base_render.py:147-152` -/
def frames (lib : SceneLib S K Sc Img) (camera : Option String) : Sc → List (List (Transform ℝ)) → Py (List Img × Sc)
  | scene, [] => .ok ([], scene)
  | scene, x :: xs => do
    let scene ← lib.update scene x
    let img ← lib.picture scene camera
    let (imgs, scene) ← frames lib camera scene xs
    return (img :: imgs, scene)

/-- `/repo/src/ring/rendering/base_render.py:96-152` `render`, with the number of links and the rest pose of the system; a
scene of `None` has no method `update`. When a frame fails the scene that is kept is what it was (its poses do not
matter). -/
noncomputable def render (lib : SceneLib S K Sc Img) (eq : SceneArgs S K → SceneArgs S K → Py Bool) (n_links : S → Nat)
    (restPose : S → List (Transform ℝ)) (cache : SceneCache S K Sc) (a : SceneArgs S K) (xs : RenderXs)
    (camera : Option String) (render_every_nth : Int) : Py (List Img) × SceneCache S K Sc :=
  let l := xsList (restPose a.sys) xs
  match (if render_every_nth ≠ 1 then everyNth render_every_nth l else .ok l) with
  | .error e => (.error e, cache)
  | .ok l =>
    if l.all fun x => x.length = n_links a.sys then
      match _load_scene lib eq cache a with
      | (.error e, cache) => (.error e, cache)
      | (.ok none, cache) => (if l = [] then .ok [] else .error .attribute, cache)
      | (.ok (some scene), cache) =>
        match frames lib camera scene l with
        | .error e => (.error e, cache)
        | .ok (imgs, scene) => (.ok imgs, ⟨cache.args, some scene⟩)
    else (.error .assertion, cache)

/-! ## The scene of MuJoCo -/

/-- a scene: the model, the links with a body, the poses of the bodies -/
structure MjScene where
  model : MjModel
  parent_ids : List Int
  poses : List (Int × Vec3 ℝ × Quat ℝ)

/-- `MujocoScene.init`, `/repo/src/ring/rendering/mujoco_render.py:189-200` -/
noncomputable def MjScene.init (cameras lights : List (Int × List String)) (geoms : List (Geom × List ℝ)) :
    Py MjScene := do
  let model ← _build_model_of_geoms geoms cameras lights
  return ⟨model, (geoms.map fun g => g.1.link_idx).dedup, model.bodies.map fun b => (b.name, 0, ⟨1, 0, 0, 0⟩)⟩

/-- the loop of `MujocoScene.update`, `/repo/src/ring/rendering/mujoco_render.py:204-218` -/
def setPoses (x : List (Transform ℝ)) : List Int → List (Int × Vec3 ℝ × Quat ℝ) → Py (List (Int × Vec3 ℝ × Quat ℝ))
  | [], poses => .ok poses
  | parent_id :: ids, poses =>
    if parent_id = -1 then setPoses x ids poses
    else if parent_id ∉ poses.map Prod.fst then .error .key
    else do
      let p ← bodyPose x parent_id
      setPoses x ids (poses.map fun e => if e.1 = parent_id then (e.1, p) else e)

/-- `MujocoScene.update`, `/repo/src/ring/rendering/mujoco_render.py:202-224` -/
def MjScene.update (s : MjScene) (x : List (Transform ℝ)) : Py MjScene := do
  let poses ← setPoses x s.parent_ids s.poses
  return ⟨s.model, s.parent_ids, poses⟩

end RingLib.rendering
