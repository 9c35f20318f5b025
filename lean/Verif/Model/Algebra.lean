import Verif.Model.Quat

/-!
# `/repo/src/ring/algebra.py`, `/repo/src/ring/spatial.py` and the dataclasses of `base.py`

Transforms, motions, forces and inertias over an arbitrary commutative ring / field.
Batched (vectorised) use of these functions is not modelled: they act on one element.
-/

namespace RingLib
variable {R : Type*}

/-- `/repo/src/ring/base.py:113-122` `Transform` (unbatched). -/
@[ext] structure Transform (R : Type*) where
  pos : Vec3 R
  rot : Quat R
deriving DecidableEq, Repr

/-- `/repo/src/ring/base.py:140-145` `Transform.zero`. -/
def Transform.zero [Zero R] [One R] : Transform R := ⟨0, maths.unitQuat⟩

/-- `/repo/src/ring/base.py:152-156` `Motion` (unbatched). -/
@[ext] structure Motion (R : Type*) where
  ang : Vec3 R
  vel : Vec3 R
deriving DecidableEq, Repr

/-- `/repo/src/ring/base.py:177-181` `Force` (unbatched). -/
@[ext] structure Force (R : Type*) where
  ang : Vec3 R
  vel : Vec3 R
deriving DecidableEq, Repr

/-- `/repo/src/ring/base.py:202-209` `Inertia` (unbatched; `mass` has shape `(1,)` or `()` in
python and is a scalar here). -/
@[ext] structure Inertia (R : Type*) where
  it_3x3 : Mat3 R
  h : Vec3 R
  mass : R
deriving DecidableEq, Repr

/-- `/repo/src/ring/base.py:167-171` `Motion.zero`. -/
def Motion.zero [Zero R] : Motion R := ⟨0, 0⟩
/-- `/repo/src/ring/base.py:192-196` `Force.zero`. -/
def Force.zero [Zero R] : Force R := ⟨0, 0⟩
/-- `/repo/src/ring/base.py:222-227` `Inertia.zero`. -/
def Inertia.zero [Zero R] : Inertia R := ⟨0, 0, 0⟩

/-- `_Base.__add__` (`/repo/src/ring/base.py:30-31`): leaf-wise sum of two trees. -/
def Motion.add [Add R] (a b : Motion R) : Motion R := ⟨a.ang + b.ang, a.vel + b.vel⟩
def Force.add [Add R] (a b : Force R) : Force R := ⟨a.ang + b.ang, a.vel + b.vel⟩
def Inertia.add [Add R] (a b : Inertia R) : Inertia R :=
  ⟨a.it_3x3 + b.it_3x3, a.h + b.h, a.mass + b.mass⟩
instance [Add R] : Add (Motion R) := ⟨Motion.add⟩
instance [Add R] : Add (Force R) := ⟨Force.add⟩
instance [Add R] : Add (Inertia R) := ⟨Inertia.add⟩
instance [Zero R] : Zero (Motion R) := ⟨Motion.zero⟩
instance [Zero R] : Zero (Force R) := ⟨Force.zero⟩
instance [Zero R] : Zero (Inertia R) := ⟨Inertia.zero⟩
/-- `_Base.__neg__` / `__sub__` (`/repo/src/ring/base.py:33-40`). -/
instance [Neg R] : Neg (Motion R) := ⟨fun a => ⟨-a.ang, -a.vel⟩⟩
instance [Neg R] : Neg (Force R) := ⟨fun a => ⟨-a.ang, -a.vel⟩⟩
instance [Sub R] : Sub (Motion R) := ⟨fun a b => ⟨a.ang - b.ang, a.vel - b.vel⟩⟩
instance [Sub R] : Sub (Force R) := ⟨fun a b => ⟨a.ang - b.ang, a.vel - b.vel⟩⟩
/-- `_Base.__mul__` with a scalar. -/
def Motion.smul [Mul R] (s : R) (a : Motion R) : Motion R := ⟨.smul s a.ang, .smul s a.vel⟩
def Force.smul [Mul R] (s : R) (a : Force R) : Force R := ⟨.smul s a.ang, .smul s a.vel⟩

namespace spatial

/-- `/repo/src/ring/spatial.py:55-57` `cross`. -/
def cross [Zero R] [Neg R] (r : Vec3 R) : Mat3 R := ⟨0, -r.z, r.y, r.z, 0, -r.x, -r.y, r.x, 0⟩

/-- `/repo/src/ring/spatial.py:60-70` `quadrants` with `default=jnp.zeros`. -/
def quadrants [Zero R] (aa ab ba bb : Option (Mat3 R)) : Mat6 R :=
  ⟨aa.getD 0, ab.getD 0, ba.getD 0, bb.getD 0⟩

/-- `/repo/src/ring/spatial.py:73-75` `crm`. -/
def crm [Zero R] [Neg R] (v : Vec6 R) : Mat6 R :=
  quadrants (some (cross v.fst)) none (some (cross v.snd)) (some (cross v.fst))

/-- `/repo/src/ring/spatial.py:78-79` `crf`. -/
def crf [Zero R] [Neg R] (v : Vec6 R) : Mat6 R := -(crm v).transpose

/-- `/repo/src/ring/spatial.py:82-83` `_rotxyz`. -/
def _rotxyz [Zero R] (E : Mat3 R) : Mat6 R := quadrants (some E) none none (some E)

/-- `/repo/src/ring/spatial.py:98-100` `xlt`. -/
def xlt [Zero R] [One R] [Neg R] (r : Vec3 R) : Mat6 R :=
  quadrants (some .eye) none (some (-(cross r))) (some .eye)

/-- `/repo/src/ring/spatial.py:103-104` `X_transform`. -/
def X_transform [Zero R] [One R] [Neg R] [Add R] [Mul R] (E : Mat3 R) (r : Vec3 R) : Mat6 R :=
  (_rotxyz E).mul (xlt r)

/-- `/repo/src/ring/spatial.py:107-112` `mcI`. Python parses `m * cross(c) @ cross(c)` as
`(m * cross(c)) @ cross(c)`. -/
def mcI [Ring R] (m : R) (c : Vec3 R) (Ic : Mat3 R) : Mat6 R :=
  quadrants
    (some (Ic - (Mat3.smul m (cross c)).mul (cross c)))
    (some (Mat3.smul m (cross c)))
    (some (Mat3.smul (-m) (cross c)))
    (some (Mat3.smul m .eye))

end spatial

namespace algebra

/-- `/repo/src/ring/algebra.py:7-10` `inertia_mul_motion`. -/
def inertia_mul_motion [Ring R] (it : Inertia R) (m : Motion R) : Force R :=
  ⟨it.it_3x3.mulVec m.ang + it.h.cross m.vel, .smul it.mass m.vel - it.h.cross m.ang⟩

/-- `/repo/src/ring/algebra.py:13-14` `motion_dot`. -/
def motion_dot [Ring R] (m : Motion R) (f : Force R) : R := m.ang.dot f.ang + m.vel.dot f.vel

/-- `/repo/src/ring/algebra.py:17-20` `motion_cross`. -/
def motion_cross [Ring R] (m1 m2 : Motion R) : Motion R :=
  ⟨m1.ang.cross m2.ang, m1.ang.cross m2.vel + m1.vel.cross m2.ang⟩

/-- `/repo/src/ring/algebra.py:23-26` `motion_cross_star`. -/
def motion_cross_star [Ring R] (m : Motion R) (f : Force R) : Force R :=
  ⟨m.ang.cross f.ang + m.vel.cross f.vel, m.ang.cross f.vel⟩

/-- `/repo/src/ring/algebra.py:29-38` `transform_mul(t2, t1)`. -/
def transform_mul [Ring R] (t2 t1 : Transform R) : Transform R :=
  ⟨t1.pos + maths.rotate t2.pos (maths.quat_inv t1.rot), maths.quat_mul t2.rot t1.rot⟩

/-- `/repo/src/ring/algebra.py:41-45` `transform_inv`. -/
def transform_inv [Ring R] (t : Transform R) : Transform R :=
  ⟨maths.rotate (-t.pos) t.rot, maths.quat_inv t.rot⟩

/-- `/repo/src/ring/algebra.py:48-61` `transform_move_into_frame`. -/
def transform_move_into_frame [Ring R] (t new_frame : Transform R) : Transform R :=
  ⟨maths.rotate t.pos new_frame.rot, maths.rotate_quat t.rot new_frame.rot⟩

/-- `/repo/src/ring/algebra.py:64-73` `transform_motion`. -/
def transform_motion [Ring R] (t : Transform R) (m : Motion R) : Motion R :=
  ⟨maths.rotate m.ang t.rot, maths.rotate (-(t.pos.cross m.ang) + m.vel) t.rot⟩

/-- `/repo/src/ring/algebra.py:76-85` `transform_force`. -/
def transform_force [Ring R] (t : Transform R) (f : Force R) : Force R :=
  ⟨maths.rotate (f.ang - t.pos.cross f.vel) t.rot, maths.rotate f.vel t.rot⟩

/-- `/repo/src/ring/algebra.py:88-100` `transform_inertia`. -/
def transform_inertia [Field R] (t : Transform R) (it : Inertia R) : Inertia R :=
  let r := t.pos
  let I_ := it.it_3x3
  let rcross := spatial.cross r
  let hmr := it.h - .smul it.mass t.pos
  let new_h := maths.rotate hmr t.rot
  let new_it_3x3 := maths.rotate_matrix
    (I_ + rcross.mul (spatial.cross it.h) + (spatial.cross hmr).mul rcross) t.rot
  ⟨new_it_3x3, new_h, it.mass⟩

end algebra

/-- `/repo/src/ring/base.py:147-149` `Transform.as_matrix`. -/
def Transform.as_matrix [Field R] (t : Transform R) : Mat6 R :=
  let E := maths.quat_to_3x3 t.rot
  (spatial.quadrants (some E) none none (some E)).mul (spatial.xlt t.pos)

/-- `/repo/src/ring/base.py:173-174` `Motion.as_matrix`. -/
def Motion.as_matrix (m : Motion R) : Vec6 R := ⟨m.ang, m.vel⟩
/-- `/repo/src/ring/base.py:198-199` `Force.as_matrix`. -/
def Force.as_matrix (f : Force R) : Vec6 R := ⟨f.ang, f.vel⟩

/-- `/repo/src/ring/base.py:211-220` `Inertia.create`; `[:3, :3]` selects the upper left
quadrant of `mcI`. -/
def Inertia.create [Field R] (mass : R) (transform : Transform R) (it_3x3 : Mat3 R) :
    Inertia R :=
  let it := maths.rotate_matrix it_3x3 (maths.quat_inv transform.rot)
  let it := (spatial.mcI mass transform.pos it).aa
  let h := Vec3.smul mass transform.pos
  ⟨it, h, mass⟩

/-- `/repo/src/ring/base.py:229-231` `Inertia.as_matrix`. -/
def Inertia.as_matrix [Ring R] (it : Inertia R) : Mat6 R :=
  let hcross := spatial.cross it.h
  spatial.quadrants (some it.it_3x3) (some hcross) (some (-hcross))
    (some (Mat3.smul it.mass .eye))

end RingLib
