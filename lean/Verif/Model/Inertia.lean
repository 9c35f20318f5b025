import Verif.Model.Algebra

/-!
# Geometries and link inertias (`/repo/src/ring/base.py:234-335, 953-970`)

A colour (python: a string, a tuple or `None`) is carried along as an opaque text. `jnp.pi` is the
parameter `pi`.
-/

namespace RingLib
variable {R : Type*}

/-- The subclasses of `Geometry` with their own fields, `/repo/src/ring/base.py:244-335`. -/
inductive Shape (R : Type*) where
  | xyz (size : R)
  | sphere (radius : R)
  | box (dim_x dim_y dim_z : R)
  | cylinder (radius length : R)
  | capsule (radius length : R)
deriving DecidableEq, Repr

/-- `/repo/src/ring/base.py:234-241` `Geometry`. -/
structure Geometry (R : Type*) where
  mass : R
  transform : Transform R
  link_idx : Int
  shape : Shape R
  color : Option String := none
  edge_color : Option String := none
deriving DecidableEq, Repr

/-- `get_it_3x3` of the five geometries, `/repo/src/ring/base.py:254-255, 262-264, 273-289,
299-307, 317-335`. The python literals `0.25`, `0.4`, `0.375`, `0.5` are the exact fractions. -/
def Geometry.get_it_3x3 [Field R] (pi : R) (g : Geometry R) : Mat3 R :=
  match g.shape with
  | .xyz _ => 0
  | .sphere radius => Mat3.smul (2 / 5 * g.mass * radius ^ 2) .eye
  | .box dim_x dim_y dim_z =>
    Mat3.smul (1 / 12 * g.mass)
      (Mat3.diag (dim_y ^ 2 + dim_z ^ 2) (dim_x ^ 2 + dim_z ^ 2) (dim_x ^ 2 + dim_y ^ 2))
  | .cylinder radius length =>
    let radius_dir := 3 * radius ^ 2 + length ^ 2
    Mat3.smul (1 / 12 * g.mass) (Mat3.diag (6 * radius ^ 2) radius_dir radius_dir)
  | .capsule r d =>
    let v_cyl := pi * r ^ 2 * d
    let v_cap := 4 / 3 * pi * r ^ 3
    let v_tot := v_cyl + v_cap
    let m_cyl := g.mass * v_cyl / v_tot
    let m_cap := g.mass * v_cap / v_tot
    let I_a := m_cyl * (1 / 4 * r ^ 2 + 1 / 12 * d ^ 2)
      + m_cap * (2 / 5 * r ^ 2 + 3 / 8 * r * d + 1 / 4 * d ^ 2)
    let I_b := (1 / 2 * m_cyl + 2 / 5 * m_cap) * r ^ 2
    Mat3.diag I_b I_a I_a

/-- `/repo/src/ring/base.py:953-957` `_inertia_from_geometries`: `inertia += ...` in list
order starting from zero. -/
def _inertia_from_geometries [Field R] (pi : R) (geometries : List (Geometry R)) : Inertia R :=
  geometries.foldl
    (fun inertia geom => inertia + Inertia.create geom.mass geom.transform (geom.get_it_3x3 pi)) 0

/-- `/repo/src/ring/base.py:960-970` `_parse_system_calculate_inertia` for one link: the
geometries whose `link_idx` equals the link's index, in list order.  (The `scan` over the links
is modelled in `Verif.Model.System`.) -/
def compute_inertia_per_link [Field R] (pi : R) (geoms : List (Geometry R)) (link_idx : Int) :
    Inertia R :=
  _inertia_from_geometries pi (geoms.filter fun geom => geom.link_idx == link_idx)

end RingLib
