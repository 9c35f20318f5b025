import Verif.Model.Algebra
import Verif.Spec.Quat

/-! Helper lemmas on quaternions (polynomial identities without unit-norm assumptions). -/

namespace RingLib
variable {R : Type*}

namespace maths
section ring
variable [CommRing R]

@[simp] theorem quat_inv_w (q : Quat R) : (quat_inv q).w = q.w := by simp [quat_inv]
@[simp] theorem quat_inv_x (q : Quat R) : (quat_inv q).x = -q.x := by simp [quat_inv]
@[simp] theorem quat_inv_y (q : Quat R) : (quat_inv q).y = -q.y := by simp [quat_inv]
@[simp] theorem quat_inv_z (q : Quat R) : (quat_inv q).z = -q.z := by simp [quat_inv]

theorem quat_mul_assoc' (a b c : Quat R) :
    quat_mul (quat_mul a b) c = quat_mul a (quat_mul b c) := by
  ext <;> simp [quat_mul] <;> ring

theorem unit_mul (a : Quat R) : quat_mul unitQuat a = a := by ext <;> simp [quat_mul, unitQuat]
theorem mul_unit (a : Quat R) : quat_mul a unitQuat = a := by ext <;> simp [quat_mul, unitQuat]

theorem normSq_mul (a b : Quat R) : (quat_mul a b).normSq = a.normSq * b.normSq := by
  simp [quat_mul, Quat.normSq]; ring

theorem normSq_inv (a : Quat R) : (quat_inv a).normSq = a.normSq := by
  simp [Quat.normSq]

theorem quat_inv_inv (a : Quat R) : quat_inv (quat_inv a) = a := by ext <;> simp

theorem quat_inv_mul (a b : Quat R) :
    quat_inv (quat_mul a b) = quat_mul (quat_inv b) (quat_inv a) := by
  ext <;> simp [quat_mul] <;> ring

theorem quat_inv_unit : quat_inv (unitQuat : Quat R) = unitQuat := by ext <;> simp [unitQuat]

theorem mul_inv_normSq (a : Quat R) : quat_mul a (quat_inv a) = ⟨a.normSq, 0, 0, 0⟩ := by
  ext <;> simp [quat_mul, Quat.normSq] <;> ring

theorem inv_mul_normSq (a : Quat R) : quat_mul (quat_inv a) a = ⟨a.normSq, 0, 0, 0⟩ := by
  ext <;> simp [quat_mul, Quat.normSq] <;> ring

theorem mul_inv_self {a : Quat R} (h : a.normSq = 1) : quat_mul a (quat_inv a) = unitQuat := by
  rw [mul_inv_normSq, h]; rfl

theorem inv_mul_self {a : Quat R} (h : a.normSq = 1) : quat_mul (quat_inv a) a = unitQuat := by
  rw [inv_mul_normSq, h]; rfl

theorem rotate_x (v : Vec3 R) (q : Quat R) : (rotate v q).x =
    (q.w*q.w + q.x*q.x - q.y*q.y - q.z*q.z) * v.x + 2*(q.x*q.y - q.w*q.z) * v.y
      + 2*(q.x*q.z + q.w*q.y) * v.z := by
  simp [rotate, rotate_quat, quat_mul]; ring
theorem rotate_y (v : Vec3 R) (q : Quat R) : (rotate v q).y =
    2*(q.x*q.y + q.w*q.z) * v.x + (q.w*q.w - q.x*q.x + q.y*q.y - q.z*q.z) * v.y
      + 2*(q.y*q.z - q.w*q.x) * v.z := by
  simp [rotate, rotate_quat, quat_mul]; ring
theorem rotate_z (v : Vec3 R) (q : Quat R) : (rotate v q).z =
    2*(q.x*q.z - q.w*q.y) * v.x + 2*(q.y*q.z + q.w*q.x) * v.y
      + (q.w*q.w - q.x*q.x - q.y*q.y + q.z*q.z) * v.z := by
  simp [rotate, rotate_quat, quat_mul]; ring

/-- the scalar part of `rotate_quat` of a pure quaternion vanishes -/
theorem rotate_quat_w (v : Vec3 R) (q : Quat R) :
    (rotate_quat ⟨0, v.x, v.y, v.z⟩ q).w = 0 := by
  simp [rotate_quat, quat_mul]; ring

theorem rotate_add (a b : Vec3 R) (q : Quat R) : rotate (a + b) q = rotate a q + rotate b q := by
  ext <;> simp [rotate_x, rotate_y, rotate_z] <;> ring
theorem rotate_sub (a b : Vec3 R) (q : Quat R) : rotate (a - b) q = rotate a q - rotate b q := by
  ext <;> simp [rotate_x, rotate_y, rotate_z] <;> ring
theorem rotate_neg (a : Vec3 R) (q : Quat R) : rotate (-a) q = -rotate a q := by
  ext <;> simp [rotate_x, rotate_y, rotate_z] <;> ring
theorem rotate_smul (s : R) (a : Vec3 R) (q : Quat R) :
    rotate (.smul s a) q = .smul s (rotate a q) := by
  ext <;> simp [rotate_x, rotate_y, rotate_z] <;> ring
theorem rotate_zero (q : Quat R) : rotate 0 q = 0 := by
  ext <;> simp [rotate_x, rotate_y, rotate_z]
theorem rotate_unit (v : Vec3 R) : rotate v unitQuat = v := by
  ext <;> simp [rotate_x, rotate_y, rotate_z, unitQuat]

theorem rotate_rotate (v : Vec3 R) (p q : Quat R) :
    rotate (rotate v p) q = rotate v (quat_mul q p) := by
  ext <;> simp only [rotate_x, rotate_y, rotate_z, quat_mul] <;> ring

theorem rotate_neg_quat (v : Vec3 R) (q : Quat R) : rotate v (-q) = rotate v q := by
  ext <;> simp [rotate_x, rotate_y, rotate_z]

theorem dot_rotate (a b : Vec3 R) (q : Quat R) :
    (rotate a q).dot (rotate b q) = q.normSq * q.normSq * a.dot b := by
  simp only [Vec3.dot, rotate_x, rotate_y, rotate_z, Quat.normSq]; ring

theorem cross_rotate (a b : Vec3 R) (q : Quat R) :
    (rotate a q).cross (rotate b q) = .smul q.normSq (rotate (a.cross b) q) := by
  ext <;> simp only [Vec3.cross_x, Vec3.cross_y, Vec3.cross_z, Vec3.smul_x, Vec3.smul_y,
    Vec3.smul_z, rotate_x, rotate_y, rotate_z, Quat.normSq] <;> ring

theorem rotate_scalar (v : Vec3 R) (s : R) :
    rotate v ⟨s, 0, 0, 0⟩ = .smul (s * s) v := by
  ext <;> simp [rotate_x, rotate_y, rotate_z]

theorem Vec3.one_smul' (v : Vec3 R) : Vec3.smul 1 v = v := by ext <;> simp

theorem rotate_inv_rotate {q : Quat R} (h : q.normSq = 1) (v : Vec3 R) :
    rotate (rotate v q) (quat_inv q) = v := by
  rw [rotate_rotate, inv_mul_self h, rotate_unit]

theorem rotate_rotate_inv {q : Quat R} (h : q.normSq = 1) (v : Vec3 R) :
    rotate (rotate v (quat_inv q)) q = v := by
  rw [rotate_rotate, mul_inv_self h, rotate_unit]

theorem dot_rotate_unit {q : Quat R} (h : q.normSq = 1) (a b : Vec3 R) :
    (rotate a q).dot (rotate b q) = a.dot b := by rw [dot_rotate, h]; ring

theorem cross_rotate_unit {q : Quat R} (h : q.normSq = 1) (a b : Vec3 R) :
    (rotate a q).cross (rotate b q) = rotate (a.cross b) q := by
  rw [cross_rotate, h, Vec3.one_smul']

end ring

section field
variable [Field R]

theorem to3x3_of_unit {q : Quat R} (h : q.normSq = 1) : quat_to_3x3 q =
    ⟨1 - 2*(q.y*q.y + q.z*q.z), 2*(q.x*q.y - q.w*q.z), 2*(q.x*q.z + q.w*q.y),
     2*(q.x*q.y + q.w*q.z), 1 - 2*(q.x*q.x + q.z*q.z), 2*(q.y*q.z - q.w*q.x),
     2*(q.x*q.z - q.w*q.y), 2*(q.y*q.z + q.w*q.x), 1 - 2*(q.x*q.x + q.y*q.y)⟩ := by
  have h' : quat_dot q q = 1 := h
  simp only [quat_to_3x3, h', div_one]
  ext <;> ring

theorem to3x3_mulVec {q : Quat R} (h : q.normSq = 1) (v : Vec3 R) :
    (quat_to_3x3 q).mulVec v = rotate v q := by
  have h1 : q.w*q.w + q.x*q.x + q.y*q.y + q.z*q.z = 1 := h
  rw [to3x3_of_unit h]
  ext <;> simp only [Mat3.mulVec, rotate_x, rotate_y, rotate_z]
  · linear_combination (-v.x) * h1
  · linear_combination (-v.y) * h1
  · linear_combination (-v.z) * h1

theorem to3x3_inv {q : Quat R} (h : q.normSq = 1) :
    quat_to_3x3 (quat_inv q) = (quat_to_3x3 q).transpose := by
  rw [to3x3_of_unit h, to3x3_of_unit ((normSq_inv q).trans h)]
  ext <;> simp only [Mat3.transpose, quat_inv_w, quat_inv_x, quat_inv_y, quat_inv_z] <;> ring

end field
end maths

theorem Mat3.ext_mulVec [CommRing R] {A B : Mat3 R} (h : ∀ v, A.mulVec v = B.mulVec v) :
    A = B := by
  have hx := h ⟨1, 0, 0⟩
  have hy := h ⟨0, 1, 0⟩
  have hz := h ⟨0, 0, 1⟩
  simp [Mat3.mulVec] at hx hy hz
  ext <;> tauto

theorem Mat3.mul_mulVec [CommRing R] (A B : Mat3 R) (v : Vec3 R) :
    (A.mul B).mulVec v = A.mulVec (B.mulVec v) := by
  ext <;> simp [Mat3.mul, Mat3.mulVec] <;> ring

theorem Mat3.add_mulVec [CommRing R] (A B : Mat3 R) (v : Vec3 R) :
    (A + B).mulVec v = A.mulVec v + B.mulVec v := by
  ext <;> simp [Mat3.add_def, Mat3.mulVec] <;> ring

theorem Mat3.sub_mulVec [CommRing R] (A B : Mat3 R) (v : Vec3 R) :
    (A - B).mulVec v = A.mulVec v - B.mulVec v := by
  ext <;> simp [Mat3.sub_def, Mat3.mulVec] <;> ring

theorem Mat3.neg_mulVec [CommRing R] (A : Mat3 R) (v : Vec3 R) :
    (-A).mulVec v = -(A.mulVec v) := by
  ext <;> simp [Mat3.neg_def, Mat3.mulVec] <;> ring

theorem Mat3.smul_mulVec [CommRing R] (s : R) (A : Mat3 R) (v : Vec3 R) :
    (Mat3.smul s A).mulVec v = .smul s (A.mulVec v) := by
  ext <;> simp [Mat3.smul, Mat3.mulVec] <;> ring

theorem Mat3.eye_mulVec [CommRing R] (v : Vec3 R) : (Mat3.eye : Mat3 R).mulVec v = v := by
  ext <;> simp [Mat3.eye, Mat3.mulVec]

theorem Mat3.zero_mulVec [CommRing R] (v : Vec3 R) : (0 : Mat3 R).mulVec v = 0 := by
  ext <;> simp [Mat3.zero_def, Mat3.mulVec]

theorem Mat3.mulVec_add [CommRing R] (A : Mat3 R) (u v : Vec3 R) :
    A.mulVec (u + v) = A.mulVec u + A.mulVec v := by
  ext <;> simp [Mat3.mulVec] <;> ring

theorem spatial.cross_mulVec [CommRing R] (r v : Vec3 R) :
    (spatial.cross r).mulVec v = r.cross v := by
  ext <;> simp [spatial.cross, Mat3.mulVec] <;> ring

end RingLib
