import Mathlib.Tactic.NormNum
import Mathlib.Algebra.Field.Rat
import Mathlib.Tactic.FieldSimp
import Verif.Lemmas.Quat

/-!
# C12, C13: quaternions act as rotations, and agree with rotation matrices

All statements are for every quaternion / vector over an arbitrary commutative ring (field when
the code divides); in particular for `ℝ`.
-/

namespace RingLib
open maths
variable {R : Type*}

/-! A unit quaternion with four non-zero entries, used below to show that the hypotheses are
satisfiable. -/
def exQuat : Quat ℚ := ⟨1/2, 1/2, -1/2, 1/2⟩
theorem exQuat_unit : exQuat.IsUnit := by norm_num [exQuat, Quat.IsUnit]

section ring
variable [CommRing R]

/-- C12: `quat_mul` is associative. -/
theorem C12_quat_mul_assoc (a b c : Quat R) :
    quat_mul (quat_mul a b) c = quat_mul a (quat_mul b c) := quat_mul_assoc' a b c

/-- C12: `[1,0,0,0]` is a two-sided unit. -/
theorem C12_quat_mul_unit (a : Quat R) :
    quat_mul ⟨1, 0, 0, 0⟩ a = a ∧ quat_mul a ⟨1, 0, 0, 0⟩ = a := ⟨unit_mul a, mul_unit a⟩

/-- C12: the quaternion units multiply by Hamilton's rules `i j = k`, `j k = i`, `k i = j`,
`i² = j² = k² = -1` (fixes handedness of the product). -/
theorem C12_hamilton_rules :
    quat_mul (⟨0,1,0,0⟩ : Quat R) ⟨0,0,1,0⟩ = ⟨0,0,0,1⟩ ∧
    quat_mul (⟨0,0,1,0⟩ : Quat R) ⟨0,0,0,1⟩ = ⟨0,1,0,0⟩ ∧
    quat_mul (⟨0,0,0,1⟩ : Quat R) ⟨0,1,0,0⟩ = ⟨0,0,1,0⟩ ∧
    quat_mul (⟨0,1,0,0⟩ : Quat R) ⟨0,1,0,0⟩ = ⟨-1,0,0,0⟩ ∧
    quat_mul (⟨0,0,1,0⟩ : Quat R) ⟨0,0,1,0⟩ = ⟨-1,0,0,0⟩ ∧
    quat_mul (⟨0,0,0,1⟩ : Quat R) ⟨0,0,0,1⟩ = ⟨-1,0,0,0⟩ := by
  simp [quat_mul]

/-- C12: the product is distributive over sums of components and compatible with scaling, hence
determined by Hamilton's rules. -/
theorem C12_quat_mul_bilinear (s : R) (a b c : Quat R) :
    quat_mul ⟨a.w + s * b.w, a.x + s * b.x, a.y + s * b.y, a.z + s * b.z⟩ c =
      (let p := quat_mul a c; let q := quat_mul b c
       ⟨p.w + s * q.w, p.x + s * q.x, p.y + s * q.y, p.z + s * q.z⟩) ∧
    quat_mul c ⟨a.w + s * b.w, a.x + s * b.x, a.y + s * b.y, a.z + s * b.z⟩ =
      (let p := quat_mul c a; let q := quat_mul c b
       ⟨p.w + s * q.w, p.x + s * q.x, p.y + s * q.y, p.z + s * q.z⟩) := by
  constructor <;> ext <;> simp [quat_mul] <;> ring

/-- C12: the norm is multiplicative. -/
theorem C12_norm_multiplicative (a b : Quat R) :
    (quat_mul a b).normSq = a.normSq * b.normSq := normSq_mul a b

/-- C12: products and inverses of unit quaternions are unit quaternions. -/
theorem C12_unit_closed {a b : Quat R} (ha : a.IsUnit) (hb : b.IsUnit) :
    (quat_mul a b).IsUnit ∧ (quat_inv a).IsUnit := by
  refine ⟨?_, ?_⟩
  · have := normSq_mul a b
    rw [show a.normSq = 1 from ha, show b.normSq = 1 from hb, mul_one] at this
    exact this
  · exact (normSq_inv a).trans ha

/-- C12: for unit quaternions `quat_inv` is the two-sided inverse. -/
theorem C12_quat_inv {a : Quat R} (ha : a.IsUnit) :
    quat_mul a (quat_inv a) = ⟨1, 0, 0, 0⟩ ∧ quat_mul (quat_inv a) a = ⟨1, 0, 0, 0⟩ :=
  ⟨mul_inv_self ha, inv_mul_self ha⟩

/-- C12: `quat_inv` is an anti-automorphism and an involution. -/
theorem C12_quat_inv_mul (a b : Quat R) :
    quat_inv (quat_mul a b) = quat_mul (quat_inv b) (quat_inv a) ∧ quat_inv (quat_inv a) = a :=
  ⟨quat_inv_mul a b, quat_inv_inv a⟩

/-- C12: `rotate` is linear in the vector. -/
theorem C12_rotate_linear (s : R) (a b : Vec3 R) (q : Quat R) :
    rotate (a + .smul s b) q = rotate a q + .smul s (rotate b q) := by
  rw [rotate_add, rotate_smul]

/-- C12: rotating by a product is rotating twice, right factor first. -/
theorem C12_rotate_mul (v : Vec3 R) (p q : Quat R) :
    rotate v (quat_mul q p) = rotate (rotate v p) q := (rotate_rotate v p q).symm

/-- C12: `rotate` by the unit quaternion is the identity, by the inverse undoes the rotation. -/
theorem C12_rotate_inv {q : Quat R} (h : q.IsUnit) (v : Vec3 R) :
    rotate v ⟨1, 0, 0, 0⟩ = v ∧ rotate (rotate v q) (quat_inv q) = v ∧
      rotate (rotate v (quat_inv q)) q = v :=
  ⟨rotate_unit v, rotate_inv_rotate h v, rotate_rotate_inv h v⟩

/-- C12: `rotate` is an isometry (dot products preserved) and preserves orientation (cross
products preserved). -/
theorem C12_rotate_isometry {q : Quat R} (h : q.IsUnit) (a b : Vec3 R) :
    (rotate a q).dot (rotate b q) = a.dot b ∧
      (rotate a q).cross (rotate b q) = rotate (a.cross b) q :=
  ⟨dot_rotate_unit h a b, cross_rotate_unit h a b⟩

/-- C12: `q` and `-q` rotate identically. -/
theorem C12_rotate_neg (v : Vec3 R) (q : Quat R) : rotate v (-q) = rotate v q :=
  rotate_neg_quat v q

/-- C12: a rotation keeps its own axis, and turns the plane orthogonal to the axis in the
mathematically positive sense: with `q = [c, s·k]`, `k = e_z`, the image of `e_x` is
`(c²-s², 2cs, 0)`. Together with `C12_rotate_isometry` this fixes the sense of rotation. -/
theorem C12_rotate_sense (c s : R) (h : c * c + s * s = 1) :
    rotate ⟨0, 0, 1⟩ (⟨c, 0, 0, s⟩ : Quat R) = ⟨0, 0, 1⟩ ∧
    rotate ⟨1, 0, 0⟩ (⟨c, 0, 0, s⟩ : Quat R) = ⟨c * c - s * s, 2 * (c * s), 0⟩ := by
  constructor
  · ext <;> simp [rotate_x, rotate_y, rotate_z, h]
  · ext <;> simp [rotate_x, rotate_y, rotate_z]

/-- C12: `rotate_quat q r` is conjugation of `q`; it is multiplicative and acts on rotations by
re-expressing their action in the rotated frame. -/
theorem C12_rotate_quat {r : Quat R} (h : r.IsUnit) (p q : Quat R) (v : Vec3 R) :
    rotate_quat (quat_mul p q) r = quat_mul (rotate_quat p r) (rotate_quat q r) ∧
    rotate (rotate v r) (rotate_quat q r) = rotate (rotate v q) r := by
  constructor
  · simp only [rotate_quat]
    have e : quat_mul (quat_inv r) r = unitQuat := inv_mul_self h
    calc quat_mul r (quat_mul (quat_mul p q) (quat_inv r))
        = quat_mul r (quat_mul p (quat_mul unitQuat (quat_mul q (quat_inv r)))) := by
          rw [unit_mul, quat_mul_assoc']
      _ = _ := by rw [← e]; simp only [quat_mul_assoc']
  · simp only [rotate_quat, rotate_rotate]
    congr 1
    rw [quat_mul_assoc', quat_mul_assoc', inv_mul_self h, mul_unit]

example : quat_mul exQuat (quat_inv exQuat) = ⟨1, 0, 0, 0⟩ := (C12_quat_inv exQuat_unit).1
example : rotate ⟨1, 2, 3⟩ exQuat = (⟨-2, -3, 1⟩ : Vec3 ℚ) := by
  ext <;> norm_num [rotate_x, rotate_y, rotate_z, exQuat]
example : (rotate ⟨1, 2, 3⟩ exQuat).dot (rotate ⟨0, 5, -1⟩ exQuat) = (7 : ℚ) := by
  rw [(C12_rotate_isometry exQuat_unit _ _).1]; norm_num [Vec3.dot]
example : ∃ c s : ℚ, c * c + s * s = 1 ∧ c ≠ 0 ∧ s ≠ 0 := ⟨3/5, 4/5, by norm_num⟩
end ring

section field
variable [Field R]

/-- C13: the matrix of a unit quaternion acts like `rotate`. -/
theorem C13_matrix_action {q : Quat R} (h : q.IsUnit) (v : Vec3 R) :
    (quat_to_3x3 q).mulVec v = rotate v q := to3x3_mulVec h v

/-- C13: the matrix of a unit quaternion is orthogonal with determinant one. -/
theorem C13_matrix_is_rotation {q : Quat R} (h : q.IsUnit) : (quat_to_3x3 q).IsRotation := by
  have ht : (quat_to_3x3 q).transpose = quat_to_3x3 (quat_inv q) := (to3x3_inv h).symm
  have h' : (quat_inv q).normSq = 1 := (normSq_inv q).trans h
  have hdet : (quat_to_3x3 q).det = q.normSq * q.normSq * q.normSq := by
    have h1 : q.w*q.w + q.x*q.x + q.y*q.y + q.z*q.z = 1 := h
    rw [to3x3_of_unit h]
    rw [show (1 : R) - 2*(q.y*q.y + q.z*q.z) = q.w*q.w + q.x*q.x - q.y*q.y - q.z*q.z by
      linear_combination -h1]
    rw [show (1 : R) - 2*(q.x*q.x + q.z*q.z) = q.w*q.w - q.x*q.x + q.y*q.y - q.z*q.z by
      linear_combination -h1]
    rw [show (1 : R) - 2*(q.x*q.x + q.y*q.y) = q.w*q.w - q.x*q.x - q.y*q.y + q.z*q.z by
      linear_combination -h1]
    simp only [Mat3.det, Quat.normSq]; ring
  refine ⟨?_, ?_, ?_⟩
  · apply Mat3.ext_mulVec; intro v
    rw [Mat3.mul_mulVec, ht, to3x3_mulVec h', to3x3_mulVec h, rotate_rotate_inv h, Mat3.eye_mulVec]
  · apply Mat3.ext_mulVec; intro v
    rw [Mat3.mul_mulVec, ht, to3x3_mulVec h, to3x3_mulVec h', rotate_inv_rotate h, Mat3.eye_mulVec]
  · rw [hdet, show q.normSq = 1 from h]; ring

/-- C13: products of quaternions are products of matrices; inverses are transposes. -/
theorem C13_matrix_mul {p q : Quat R} (hp : p.IsUnit) (hq : q.IsUnit) :
    quat_to_3x3 (quat_mul p q) = (quat_to_3x3 p).mul (quat_to_3x3 q) ∧
    quat_to_3x3 (quat_inv q) = (quat_to_3x3 q).transpose := by
  constructor
  · apply Mat3.ext_mulVec; intro v
    rw [Mat3.mul_mulVec, to3x3_mulVec hp, to3x3_mulVec hq,
      to3x3_mulVec (C12_unit_closed hp hq).1, rotate_rotate]
  · exact to3x3_inv hq

/-- C13: `quat_to_3x3` ignores the length of the quaternion (it divides by the squared norm), so
the matrix is a rotation for every non-zero quaternion. -/
theorem C13_matrix_scale_invariant {q : Quat R} {s : R} (hs : s ≠ 0) :
    quat_to_3x3 ⟨s * q.w, s * q.x, s * q.y, s * q.z⟩ = quat_to_3x3 q := by
  by_cases hq : quat_dot q q = 0
  · have : quat_dot (⟨s * q.w, s * q.x, s * q.y, s * q.z⟩ : Quat R)
        ⟨s * q.w, s * q.x, s * q.y, s * q.z⟩ = 0 := by
      have : quat_dot (⟨s * q.w, s * q.x, s * q.y, s * q.z⟩ : Quat R)
        ⟨s * q.w, s * q.x, s * q.y, s * q.z⟩ = s * s * quat_dot q q := by
        simp [quat_dot]; ring
      rw [this, hq, mul_zero]
    simp [quat_to_3x3, this, hq]
  · have e : (2 : R) / quat_dot (⟨s * q.w, s * q.x, s * q.y, s * q.z⟩ : Quat R)
        ⟨s * q.w, s * q.x, s * q.y, s * q.z⟩ = (2 / quat_dot q q) / (s * s) := by
      have : quat_dot (⟨s * q.w, s * q.x, s * q.y, s * q.z⟩ : Quat R)
        ⟨s * q.w, s * q.x, s * q.y, s * q.z⟩ = quat_dot q q * (s * s) := by
        simp [quat_dot]; ring
      rw [this, div_div]
    simp only [quat_to_3x3, e]
    ext <;> simp only <;> field_simp

/-- C13: `rotate_matrix` conjugates: applying the rotated matrix to a rotated vector is rotating
the image. -/
theorem C13_rotate_matrix {q : Quat R} (h : q.IsUnit) (m : Mat3 R) (v : Vec3 R) :
    (rotate_matrix m q).mulVec (rotate v q) = rotate (m.mulVec v) q := by
  have ht := (C13_matrix_mul h h).2
  have h' := (C12_unit_closed h h).2
  simp only [rotate_matrix]
  rw [Mat3.mul_mulVec, Mat3.mul_mulVec, ← ht, to3x3_mulVec h', rotate_inv_rotate h,
    to3x3_mulVec h]

example : (quat_to_3x3 exQuat).IsRotation := C13_matrix_is_rotation exQuat_unit
example : quat_to_3x3 exQuat = ⟨0, -1, 0, 0, 0, -1, 1, 0, 0⟩ := by
  rw [to3x3_of_unit exQuat_unit]; ext <;> norm_num [exQuat]

end field
end RingLib
