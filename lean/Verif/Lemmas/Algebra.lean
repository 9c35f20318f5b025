import Mathlib.Tactic.Abel
import Verif.Lemmas.Quat
import Verif.Spec.Algebra

/-! Helper lemmas for rigid transforms, motions, forces and inertias. -/

namespace RingLib
open maths algebra
variable {R : Type*}

section ring
variable [CommRing R]

@[simp] theorem Motion.add_ang (a b : Motion R) : (a + b).ang = a.ang + b.ang := rfl
@[simp] theorem Motion.add_vel (a b : Motion R) : (a + b).vel = a.vel + b.vel := rfl
@[simp] theorem Force.add_ang (a b : Force R) : (a + b).ang = a.ang + b.ang := rfl
@[simp] theorem Force.add_vel (a b : Force R) : (a + b).vel = a.vel + b.vel := rfl
@[simp] theorem Motion.zero_ang : (0 : Motion R).ang = 0 := rfl
@[simp] theorem Motion.zero_vel : (0 : Motion R).vel = 0 := rfl
@[simp] theorem Force.zero_ang : (0 : Force R).ang = 0 := rfl
@[simp] theorem Force.zero_vel : (0 : Force R).vel = 0 := rfl
@[simp] theorem Motion.neg_ang (a : Motion R) : (-a).ang = -a.ang := rfl
@[simp] theorem Motion.neg_vel (a : Motion R) : (-a).vel = -a.vel := rfl
@[simp] theorem Force.neg_ang (a : Force R) : (-a).ang = -a.ang := rfl
@[simp] theorem Force.neg_vel (a : Force R) : (-a).vel = -a.vel := rfl
@[simp] theorem Motion.sub_ang (a b : Motion R) : (a - b).ang = a.ang - b.ang := rfl
@[simp] theorem Motion.sub_vel (a b : Motion R) : (a - b).vel = a.vel - b.vel := rfl
@[simp] theorem Force.sub_ang (a b : Force R) : (a - b).ang = a.ang - b.ang := rfl
@[simp] theorem Force.sub_vel (a b : Force R) : (a - b).vel = a.vel - b.vel := rfl
@[simp] theorem Motion.smul_ang (s : R) (a : Motion R) : (Motion.smul s a).ang = .smul s a.ang := rfl
@[simp] theorem Motion.smul_vel (s : R) (a : Motion R) : (Motion.smul s a).vel = .smul s a.vel := rfl
@[simp] theorem Force.smul_ang (s : R) (a : Force R) : (Force.smul s a).ang = .smul s a.ang := rfl
@[simp] theorem Force.smul_vel (s : R) (a : Force R) : (Force.smul s a).vel = .smul s a.vel := rfl
@[simp] theorem Inertia.add_it (a b : Inertia R) : (a + b).it_3x3 = a.it_3x3 + b.it_3x3 := rfl
@[simp] theorem Inertia.add_h (a b : Inertia R) : (a + b).h = a.h + b.h := rfl
@[simp] theorem Inertia.add_mass (a b : Inertia R) : (a + b).mass = a.mass + b.mass := rfl
@[simp] theorem Inertia.zero_it : (0 : Inertia R).it_3x3 = 0 := rfl
@[simp] theorem Inertia.zero_h : (0 : Inertia R).h = 0 := rfl
@[simp] theorem Inertia.zero_mass : (0 : Inertia R).mass = 0 := rfl

instance : AddCommGroup (Motion R) where
  add_assoc a b c := by ext1 <;> simp [add_assoc]
  zero_add a := by ext1 <;> simp
  add_zero a := by ext1 <;> simp
  neg_add_cancel a := by ext1 <;> simp
  add_comm a b := by ext1 <;> simp [add_comm]
  sub_eq_add_neg a b := by ext1 <;> simp [sub_eq_add_neg]
  nsmul := nsmulRec
  zsmul := zsmulRec

instance : AddCommGroup (Force R) where
  add_assoc a b c := by ext1 <;> simp [add_assoc]
  zero_add a := by ext1 <;> simp
  add_zero a := by ext1 <;> simp
  neg_add_cancel a := by ext1 <;> simp
  add_comm a b := by ext1 <;> simp [add_comm]
  sub_eq_add_neg a b := by ext1 <;> simp [sub_eq_add_neg]
  nsmul := nsmulRec
  zsmul := zsmulRec

instance : AddCommMonoid (Inertia R) where
  add_assoc a b c := by ext1 <;> simp [add_assoc]
  zero_add a := by ext1 <;> simp
  add_zero a := by ext1 <;> simp
  add_comm a b := by ext1 <;> simp [add_comm]
  nsmul := nsmulRec

/-! vector identities -/
theorem Vec3.dot_comm (a b : Vec3 R) : a.dot b = b.dot a := by simp [Vec3.dot]; ring
theorem Vec3.dot_add (a b c : Vec3 R) : a.dot (b + c) = a.dot b + a.dot c := by
  simp [Vec3.dot]; ring
theorem Vec3.add_dot (a b c : Vec3 R) : (a + b).dot c = a.dot c + b.dot c := by
  simp [Vec3.dot]; ring
theorem Vec3.dot_sub (a b c : Vec3 R) : a.dot (b - c) = a.dot b - a.dot c := by
  simp [Vec3.dot]; ring
theorem Vec3.neg_dot (a b : Vec3 R) : (-a).dot b = -(a.dot b) := by simp [Vec3.dot]; ring
theorem Vec3.dot_cross (a b c : Vec3 R) : a.dot (b.cross c) = -((b.cross a).dot c) := by
  simp [Vec3.dot]; ring
theorem Vec3.cross_add (a b c : Vec3 R) : a.cross (b + c) = a.cross b + a.cross c := by
  ext <;> simp <;> ring
theorem Vec3.add_cross (a b c : Vec3 R) : (a + b).cross c = a.cross c + b.cross c := by
  ext <;> simp <;> ring
theorem Vec3.cross_smul (s : R) (a b : Vec3 R) : a.cross (.smul s b) = .smul s (a.cross b) := by
  ext <;> simp <;> ring
theorem Vec3.smul_add' (s : R) (a b : Vec3 R) :
    Vec3.smul s (a + b) = Vec3.smul s a + Vec3.smul s b := by
  ext <;> simp <;> ring

theorem rotate_cross {q : Quat R} (h : q.normSq = 1) (a b : Vec3 R) :
    rotate (a.cross b) q = (rotate a q).cross (rotate b q) := (cross_rotate_unit h a b).symm

theorem spatial.cross_transpose (r : Vec3 R) :
    (spatial.cross r).transpose = -(spatial.cross r) := by
  ext <;> simp [Mat3.transpose, Mat3.neg_def, spatial.cross]
theorem Mat3.zero_transpose : (0 : Mat3 R).transpose = 0 := rfl
theorem Mat6.neg_def (A : Mat6 R) : -A = ⟨-A.aa, -A.ab, -A.ba, -A.bb⟩ := rfl

/-! transforms -/

theorem transform_mul_assoc' (t3 t2 t1 : Transform R) :
    transform_mul (transform_mul t3 t2) t1 = transform_mul t3 (transform_mul t2 t1) := by
  ext1
  · simp only [transform_mul, rotate_add, rotate_rotate, quat_inv_mul, add_assoc]
  · simp only [transform_mul, quat_mul_assoc']

theorem transform_zero_mul (t : Transform R) : transform_mul .zero t = t := by
  ext1
  · show t.pos + rotate 0 _ = _
    rw [rotate_zero, add_zero]
  · exact unit_mul _

theorem transform_mul_zero (t : Transform R) : transform_mul t .zero = t := by
  ext1
  · show 0 + rotate t.pos (quat_inv unitQuat) = _
    rw [quat_inv_unit, rotate_unit, zero_add]
  · exact mul_unit _

theorem transform_inv_mul {t : Transform R} (h : t.rot.normSq = 1) :
    transform_mul (transform_inv t) t = .zero := by
  ext1
  · show t.pos + rotate (rotate (-t.pos) t.rot) (quat_inv t.rot) = 0
    rw [rotate_inv_rotate h, add_neg_cancel]
  · exact inv_mul_self h

theorem transform_mul_inv {t : Transform R} (h : t.rot.normSq = 1) :
    transform_mul t (transform_inv t) = .zero := by
  ext1
  · show rotate (-t.pos) t.rot + rotate t.pos (quat_inv (quat_inv t.rot)) = 0
    rw [quat_inv_inv, rotate_neg, neg_add_cancel]
  · exact mul_inv_self h

theorem transform_mul_unit {t2 t1 : Transform R} (h2 : t2.rot.normSq = 1)
    (h1 : t1.rot.normSq = 1) : (transform_mul t2 t1).rot.normSq = 1 := by
  show (quat_mul _ _).normSq = 1
  rw [normSq_mul, h1, h2, mul_one]

theorem transform_inv_unit {t : Transform R} (h : t.rot.normSq = 1) :
    (transform_inv t).rot.normSq = 1 := (normSq_inv _).trans h

theorem transform_zero_unit : (Transform.zero : Transform R).rot.normSq = 1 := by
  simp [Transform.zero, unitQuat, Quat.normSq]

theorem transform_motion_mul {t1 : Transform R} (h : t1.rot.normSq = 1) (t2 : Transform R)
    (m : Motion R) :
    transform_motion (transform_mul t2 t1) m = transform_motion t2 (transform_motion t1 m) := by
  ext1
  · simp only [transform_motion, transform_mul, rotate_rotate]
  · simp only [transform_motion, transform_mul]
    rw [← rotate_rotate]
    congr 1
    rw [Vec3.add_cross, rotate_add, rotate_add, rotate_neg, rotate_neg, rotate_add,
      rotate_cross h (rotate _ _) _, rotate_rotate_inv h]
    abel

theorem transform_force_mul {t1 : Transform R} (h : t1.rot.normSq = 1) (t2 : Transform R)
    (f : Force R) :
    transform_force (transform_mul t2 t1) f = transform_force t2 (transform_force t1 f) := by
  ext1
  · simp only [transform_force, transform_mul]
    rw [← rotate_rotate]
    congr 1
    rw [Vec3.add_cross, rotate_sub, rotate_add, rotate_sub,
      rotate_cross h (rotate _ _) _, rotate_rotate_inv h]
    abel
  · simp only [transform_force, transform_mul, rotate_rotate]

theorem transform_motion_zero (m : Motion R) : transform_motion .zero m = m := by
  ext1
  · simp only [transform_motion, Transform.zero, rotate_unit]
  · simp only [transform_motion, Transform.zero, rotate_unit]
    ext <;> simp

theorem transform_force_zero (f : Force R) : transform_force .zero f = f := by
  ext1
  · simp only [transform_force, Transform.zero, rotate_unit]
    ext <;> simp
  · simp only [transform_force, Transform.zero, rotate_unit]

theorem transform_motion_add (t : Transform R) (a b : Motion R) :
    transform_motion t (a + b) = transform_motion t a + transform_motion t b := by
  ext1
  · simp only [transform_motion, Motion.add_ang, rotate_add]
  · simp only [transform_motion, Motion.add_ang, Motion.add_vel, ← rotate_add]
    congr 1; rw [Vec3.cross_add]; abel

theorem transform_motion_smul (t : Transform R) (s : R) (a : Motion R) :
    transform_motion t (.smul s a) = .smul s (transform_motion t a) := by
  ext1
  · simp only [transform_motion, Motion.smul_ang, rotate_smul]
  · simp only [transform_motion, Motion.smul_ang, Motion.smul_vel, ← rotate_smul]
    congr 1; ext <;> simp <;> ring

theorem transform_force_add (t : Transform R) (a b : Force R) :
    transform_force t (a + b) = transform_force t a + transform_force t b := by
  ext1
  · simp only [transform_force, Force.add_ang, Force.add_vel, ← rotate_add]
    congr 1; rw [Vec3.cross_add]; abel
  · simp only [transform_force, Force.add_vel, rotate_add]

theorem transform_motion_neg (t : Transform R) (a : Motion R) :
    transform_motion t (-a) = -(transform_motion t a) := by
  have := transform_motion_smul t (-1) a
  have e : ∀ b : Motion R, Motion.smul (-1) b = -b := by
    intro b; ext <;> simp
  rwa [e, e] at this

theorem power_invariant {t : Transform R} (h : t.rot.normSq = 1) (m : Motion R) (f : Force R) :
    motion_dot (transform_motion t m) (transform_force t f) = motion_dot m f := by
  simp only [motion_dot, transform_motion, transform_force, dot_rotate_unit h]
  simp only [Vec3.dot, Vec3.sub_x, Vec3.sub_y, Vec3.sub_z, Vec3.add_x, Vec3.add_y, Vec3.add_z,
    Vec3.neg_x, Vec3.neg_y, Vec3.neg_z, Vec3.cross_x, Vec3.cross_y, Vec3.cross_z]
  ring

theorem motion_dot_add (m1 m2 : Motion R) (f : Force R) :
    motion_dot (m1 + m2) f = motion_dot m1 f + motion_dot m2 f := by
  simp [motion_dot, Vec3.add_dot]; ring

theorem motion_dot_add_right (m : Motion R) (f1 f2 : Force R) :
    motion_dot m (f1 + f2) = motion_dot m f1 + motion_dot m f2 := by
  simp [motion_dot, Vec3.dot_add]; ring

theorem motion_dot_smul (s : R) (m : Motion R) (f : Force R) :
    motion_dot (.smul s m) f = s * motion_dot m f := by
  simp [motion_dot, Vec3.dot]; ring

theorem motion_dot_zero (m : Motion R) : motion_dot m 0 = 0 := by
  simp [motion_dot, Vec3.dot]

theorem zero_motion_dot (f : Force R) : motion_dot (0 : Motion R) f = 0 := by
  simp [motion_dot, Vec3.dot]

theorem motion_dot_injective {f g : Force R} (h : ∀ m, motion_dot m f = motion_dot m g) :
    f = g := by
  have h1 := h ⟨⟨1,0,0⟩, 0⟩
  have h2 := h ⟨⟨0,1,0⟩, 0⟩
  have h3 := h ⟨⟨0,0,1⟩, 0⟩
  have h4 := h ⟨0, ⟨1,0,0⟩⟩
  have h5 := h ⟨0, ⟨0,1,0⟩⟩
  have h6 := h ⟨0, ⟨0,0,1⟩⟩
  simp [motion_dot, Vec3.dot] at h1 h2 h3 h4 h5 h6
  ext <;> assumption

theorem inertia_mul_add (it : Inertia R) (a b : Motion R) :
    inertia_mul_motion it (a + b) = inertia_mul_motion it a + inertia_mul_motion it b := by
  ext1
  · simp only [inertia_mul_motion, Motion.add_ang, Motion.add_vel, Force.add_ang,
      Mat3.mulVec_add, Vec3.cross_add]; abel
  · simp only [inertia_mul_motion, Motion.add_ang, Motion.add_vel, Force.add_vel,
      Vec3.smul_add', Vec3.cross_add]; abel

theorem inertia_add_mul (i1 i2 : Inertia R) (a : Motion R) :
    inertia_mul_motion (i1 + i2) a = inertia_mul_motion i1 a + inertia_mul_motion i2 a := by
  ext1
  · simp only [inertia_mul_motion, Force.add_ang, Inertia.add_it, Inertia.add_h,
      Mat3.add_mulVec, Vec3.add_cross]; abel
  · simp only [inertia_mul_motion, Force.add_vel, Inertia.add_h, Inertia.add_mass,
      Vec3.add_cross]
    ext <;> simp <;> ring

theorem inertia_mul_smul (it : Inertia R) (s : R) (a : Motion R) :
    inertia_mul_motion it (.smul s a) = .smul s (inertia_mul_motion it a) := by
  ext <;> simp [inertia_mul_motion, Mat3.mulVec] <;> ring

theorem inertia_ext {i j : Inertia R} (h : ∀ m, inertia_mul_motion i m = inertia_mul_motion j m) :
    i = j := by
  have hm := congrArg (fun f : Force R => f.vel.x) (h ⟨0, ⟨1, 0, 0⟩⟩)
  have h1 := h ⟨0, ⟨1, 0, 0⟩⟩
  have h2 := h ⟨0, ⟨0, 1, 0⟩⟩
  simp [inertia_mul_motion, Mat3.mulVec, Force.ext_iff, Vec3.ext_iff] at hm h1 h2
  have hh : i.h = j.h := by ext <;> tauto
  have hit : i.it_3x3 = j.it_3x3 := by
    apply Mat3.ext_mulVec
    intro v
    have h3 := congrArg Force.ang (h ⟨v, 0⟩)
    simp only [inertia_mul_motion, hh] at h3
    exact add_right_cancel h3
  ext1
  · exact hit
  · exact hh
  · exact hm

theorem inertia_symm {it : Inertia R} (h : it.it_3x3.IsSymm) (a b : Motion R) :
    motion_dot a (inertia_mul_motion it b) = motion_dot b (inertia_mul_motion it a) := by
  obtain ⟨h1, h2, h3⟩ := h
  simp only [motion_dot, inertia_mul_motion, Mat3.mulVec, Vec3.dot, h1, h2, h3, Vec3.add_x,
    Vec3.add_y, Vec3.add_z, Vec3.sub_x, Vec3.sub_y, Vec3.sub_z, Vec3.cross_x, Vec3.cross_y,
    Vec3.cross_z, Vec3.smul_x, Vec3.smul_y, Vec3.smul_z]
  ring

end ring

section field
variable [Field R]

theorem rotate_matrix_mulVec {q : Quat R} (h : q.normSq = 1) (m : Mat3 R) (v : Vec3 R) :
    (rotate_matrix m q).mulVec v = rotate (m.mulVec (rotate v (quat_inv q))) q := by
  simp only [rotate_matrix]
  rw [Mat3.mul_mulVec, Mat3.mul_mulVec, ← to3x3_inv h, to3x3_mulVec ((normSq_inv q).trans h),
    to3x3_mulVec h]

theorem inertia_congruence {t : Transform R} (h : t.rot.normSq = 1) (it : Inertia R)
    (m : Motion R) :
    inertia_mul_motion (transform_inertia t it) (transform_motion t m) =
      transform_force t (inertia_mul_motion it m) := by
  ext1
  · simp only [inertia_mul_motion, transform_inertia, transform_motion, transform_force]
    rw [rotate_matrix_mulVec h, rotate_inv_rotate h, cross_rotate_unit h, ← rotate_add]
    congr 1
    simp only [Mat3.add_mulVec, Mat3.mul_mulVec, spatial.cross_mulVec]
    ext <;> simp <;> ring
  · simp only [inertia_mul_motion, transform_inertia, transform_motion, transform_force]
    rw [cross_rotate_unit h, ← rotate_smul, ← rotate_sub]
    congr 1
    ext <;> simp <;> ring

theorem transform_motion_inv_right {t : Transform R} (h : t.rot.normSq = 1) (m : Motion R) :
    transform_motion t (transform_motion (transform_inv t) m) = m := by
  rw [← transform_motion_mul (transform_inv_unit h), transform_mul_inv h, transform_motion_zero]

theorem transform_motion_inv_left {t : Transform R} (h : t.rot.normSq = 1) (m : Motion R) :
    transform_motion (transform_inv t) (transform_motion t m) = m := by
  rw [← transform_motion_mul h, transform_inv_mul h, transform_motion_zero]

theorem transform_force_inv_left {t : Transform R} (h : t.rot.normSq = 1) (f : Force R) :
    transform_force (transform_inv t) (transform_force t f) = f := by
  rw [← transform_force_mul h, transform_inv_mul h, transform_force_zero]

theorem transform_force_inv_right {t : Transform R} (h : t.rot.normSq = 1) (f : Force R) :
    transform_force t (transform_force (transform_inv t) f) = f := by
  rw [← transform_force_mul (transform_inv_unit h), transform_mul_inv h, transform_force_zero]

end field
end RingLib
