import Verif.Spec.Kinematics
import Verif.Spec.Quat
import Mathlib.Analysis.SpecialFunctions.Trigonometric.Basic

/-! # Specification vocabulary for scaled joint motions -/

namespace RingLib

/-- the unit quaternion of the turn by the angle `θ` about the axis `k` -/
noncomputable def Quat.turn (k : Vec3 ℝ) (θ : ℝ) : Quat ℝ :=
  ⟨Real.cos (θ / 2), Real.sin (θ / 2) * k.x, Real.sin (θ / 2) * k.y, Real.sin (θ / 2) * k.z⟩

/-- a vector of length one -/
def Vec3.IsUnit (k : Vec3 ℝ) : Prop := k.x ^ 2 + k.y ^ 2 + k.z ^ 2 = 1

/-- `q` and `-q` are the same rotation; `q` is the turn by `θ` about `k` -/
def Quat.IsTurn (q : Quat ℝ) (k : Vec3 ℝ) (θ : ℝ) : Prop := q = Quat.turn k θ ∨ q = -Quat.turn k θ

/-- the vector part is below the resolution `1e-8` of the library -/
def Quat.Tiny (q : Quat ℝ) : Prop := |q.x| ≤ 1e-8 ∧ |q.y| ≤ 1e-8 ∧ |q.z| ≤ 1e-8

/-- joint types that slide -/
def Slides (t : String) : Prop := t = "px" ∨ t = "py" ∨ t = "pz" ∨ t = "free"

/-- joint types that turn -/
def Turns (t : String) : Prop := t = "rx" ∨ t = "ry" ∨ t = "rz" ∨ t = "spherical" ∨ t = "free"

/-- `y` is the joint transform `x` with the motion multiplied by `factor`: the displacement of joints
that slide, the angle, about the same axis, of joints that turn. A turn smaller than the resolution
becomes the identity. The angle is the one of smallest size; for a half turn there are two of
them. -/
structure ScaledBy (t : String) (factor : ℝ) (x y : Transform ℝ) : Prop where
  pos : Slides t → y.pos = ⟨factor * x.pos.x, factor * x.pos.y, factor * x.pos.z⟩
  pos_kept : ¬ Slides t → y.pos = x.pos
  rot : Turns t → ∀ (k : Vec3 ℝ) (θ : ℝ), k.IsUnit → -Real.pi < θ → θ < Real.pi → ¬ x.rot.Tiny →
    x.rot.IsTurn k θ → y.rot = Quat.turn k (factor * θ)
  rot_half : Turns t → ∀ (k : Vec3 ℝ), k.IsUnit → x.rot.IsTurn k Real.pi →
    y.rot = Quat.turn k (factor * Real.pi) ∨ y.rot = Quat.turn k (-(factor * Real.pi))
  rot_tiny : Turns t → x.rot.normSq = 1 → x.rot.Tiny → y.rot = ⟨1, 0, 0, 0⟩
  rot_kept : ¬ Turns t → y.rot = x.rot

end RingLib
