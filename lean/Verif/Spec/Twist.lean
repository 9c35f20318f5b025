import Mathlib.Analysis.Calculus.Deriv.Basic
import Verif.Spec.Algebra
import Verif.Spec.Dynamics

/-! # Specification vocabulary for velocities: what it means that a frame moves with a velocity -/

namespace RingLib

/-- `f'` is the derivative at time `t` of the vector `f` that depends on time -/
def Vec3.HasDeriv (f : ℝ → Vec3 ℝ) (f' : Vec3 ℝ) (t : ℝ) : Prop :=
  HasDerivAt (fun s => (f s).x) f'.x t ∧ HasDerivAt (fun s => (f s).y) f'.y t ∧
    HasDerivAt (fun s => (f s).z) f'.z t

/-- At time `t` the frame `T` moves with the spatial velocity `m`, given in its own coordinates:
every point that rests in the surrounding frame is seen from the moving frame to move with the
opposite of the velocity that the frame has there. -/
def HasTwist (T : ℝ → Transform ℝ) (m : Motion ℝ) (t : ℝ) : Prop :=
  ∀ p : Vec3 ℝ, Vec3.HasDeriv (fun s => (T s).point p)
    (-(m.vel + m.ang.cross ((T t).point p))) t

namespace jcalc

/-- The first four entries form a quaternion which turns with the angular velocity `(a, b, c)`, given
in the coordinates of the turning frame: the derivative of `r` is `-(a i + b j + c k) r / 2` (the
quaternions of the library map coordinates of the fixed frame to those of the turning frame). -/
def QuatTurns (q : ℝ → List ℝ) (a b c : ℝ) (t : ℝ) : Prop :=
  let w := (q t).getD 0 0
  let x := (q t).getD 1 0
  let y := (q t).getD 2 0
  let z := (q t).getD 3 0
  HasDerivAt (fun s => (q s).getD 0 0) ((a * x + b * y + c * z) / 2) t ∧
  HasDerivAt (fun s => (q s).getD 1 0) (-(a * w + b * z - c * y) / 2) t ∧
  HasDerivAt (fun s => (q s).getD 2 0) (-(b * w + c * x - a * z) / 2) t ∧
  HasDerivAt (fun s => (q s).getD 3 0) (-(c * w + a * y - b * x) / 2) t

/-- At time `t` the coordinates `q` of a joint change with the velocity `u`: the orientation of
free, cor and spherical joints turns with the first three entries, every other coordinate has
its entry as derivative. -/
def BuiltIn.Follows (b : BuiltIn) (q : ℝ → List ℝ) (u : List ℝ) (t : ℝ) : Prop :=
  match b with
  | .free => QuatTurns q (u.getD 0 0) (u.getD 1 0) (u.getD 2 0) t ∧
      ∀ j : Nat, j < 3 → HasDerivAt (fun s => (q s).getD (4 + j) 0) (u.getD (3 + j) 0) t
  | .cor => QuatTurns q (u.getD 0 0) (u.getD 1 0) (u.getD 2 0) t ∧
      ∀ j : Nat, j < 6 → HasDerivAt (fun s => (q s).getD (4 + j) 0) (u.getD (3 + j) 0) t
  | .spherical => QuatTurns q (u.getD 0 0) (u.getD 1 0) (u.getD 2 0) t
  | b => ∀ j : Nat, j < b.qd_width → HasDerivAt (fun s => (q s).getD j 0) (u.getD j 0) t

/-- The motion which the axes of a joint declare for the velocity `u`: sum of axis times entry. -/
noncomputable def BuiltIn.declared {P : Type} (p : P) (b : BuiltIn) (u : List ℝ) : Motion ℝ :=
  (((b.model (π := P)).motion.map fun m => m p).zipWith (fun ax c => Motion.smul c ax) u).foldr
    (· + ·) ⟨0, 0⟩

/-- The same for any joint model. -/
def _root_.RingLib.JointModel.declared {P : Type} (jm : JointModel ℝ P) (p : P) (u : List ℝ) : Motion ℝ :=
  ((jm.motion.map fun m => m p).zipWith (fun ax c => Motion.smul c ax) u).foldr (· + ·) ⟨0, 0⟩

/-- The joints whose axes do not depend on the coordinates. -/
def BuiltIn.Plain : BuiltIn → Prop
  | .frozen | .spherical | .p3d | .r _ | .p _ => True
  | .free | .free_2d | .cor | .saddle => False

end jcalc
end RingLib
