import Mathlib.Tactic.LinearCombination
import Verif.Lemmas.Algebra
import Verif.Props.Quat

/-!
# C18, C19, C20: transforms, motions, forces and inertias
-/

namespace RingLib
open maths algebra
variable {R : Type*}

/-! A transform with non-trivial position and rotation; used to instantiate hypotheses. -/
def exT : Transform ℚ := ⟨⟨1, -2, 3⟩, exQuat⟩
theorem exT_unit : exT.IsUnit := exQuat_unit

section ring
variable [CommRing R]

/-- C18: `transform_mul` is associative (no unit-norm assumption needed). -/
theorem C18_mul_assoc (t3 t2 t1 : Transform R) :
    transform_mul (transform_mul t3 t2) t1 = transform_mul t3 (transform_mul t2 t1) :=
  transform_mul_assoc' t3 t2 t1

/-- C18: the zero transform (`pos = 0`, `rot = [1,0,0,0]`) is a two-sided unit. -/
theorem C18_mul_zero (t : Transform R) :
    transform_mul ⟨⟨0, 0, 0⟩, ⟨1, 0, 0, 0⟩⟩ t = t ∧ transform_mul t ⟨⟨0, 0, 0⟩, ⟨1, 0, 0, 0⟩⟩ = t :=
  ⟨transform_zero_mul t, transform_mul_zero t⟩

/-- C18: `transform_inv` is a two-sided inverse for unit rotations. -/
theorem C18_inv {t : Transform R} (h : t.IsUnit) :
    transform_mul (transform_inv t) t = ⟨⟨0, 0, 0⟩, ⟨1, 0, 0, 0⟩⟩ ∧
      transform_mul t (transform_inv t) = ⟨⟨0, 0, 0⟩, ⟨1, 0, 0, 0⟩⟩ :=
  ⟨transform_inv_mul h, transform_mul_inv h⟩

/-- C18: unit transforms are closed under products and inverses. -/
theorem C18_unit_closed {s t : Transform R} (hs : s.IsUnit) (ht : t.IsUnit) :
    (transform_mul s t).IsUnit ∧ (transform_inv s).IsUnit :=
  ⟨transform_mul_unit hs ht, transform_inv_unit hs⟩

/-- C18: the point map of a product is the composition of the point maps, of an inverse is the
inverse map. -/
theorem C18_point {t1 : Transform R} (h1 : t1.IsUnit) (t2 : Transform R) (p : Vec3 R) :
    (transform_mul t2 t1).point p = t2.point (t1.point p) ∧
    (transform_inv t1).point (t1.point p) = p ∧ t1.point ((transform_inv t1).point p) = p := by
  have key : ∀ {t : Transform R}, t.rot.normSq = 1 → ∀ t2 : Transform R, ∀ p,
      (transform_mul t2 t).point p = t2.point (t.point p) := by
    intro t h t2 p
    simp only [Transform.point, transform_mul]
    rw [← rotate_rotate]
    congr 1
    rw [rotate_sub, rotate_sub, rotate_add, rotate_rotate_inv h]
    abel
  have pz : ∀ p : Vec3 R, (Transform.zero : Transform R).point p = p := by
    intro p
    show rotate (p - 0) unitQuat = p
    rw [rotate_unit, sub_zero]
  refine ⟨key h1 t2 p, ?_, ?_⟩
  · rw [← key h1, transform_inv_mul h1, pz]
  · rw [← key (transform_inv_unit h1), transform_mul_inv h1, pz]

/-- C18: moving a motion or force vector through a product is moving it twice; through an
inverse is moving it back. -/
theorem C18_motion_mul {t1 : Transform R} (h1 : t1.IsUnit) (t2 : Transform R)
    (m : Motion R) (f : Force R) :
    transform_motion (transform_mul t2 t1) m = transform_motion t2 (transform_motion t1 m) ∧
    transform_force (transform_mul t2 t1) f = transform_force t2 (transform_force t1 f) :=
  ⟨transform_motion_mul h1 t2 m, transform_force_mul h1 t2 f⟩

/-- C18: the velocity of the point `p` of a rigid body moving with `m` (expressed in `A`),
rotated into `B`, is the velocity of the same point computed from the transformed motion. This
pins the motion transform to the point map. -/
theorem C18_motion_is_velocity {t : Transform R} (h : t.IsUnit) (m : Motion R) (p : Vec3 R) :
    rotate (m.vel + m.ang.cross p) t.rot =
      (transform_motion t m).vel + (transform_motion t m).ang.cross (t.point p) := by
  simp only [transform_motion, Transform.point]
  rw [cross_rotate_unit h, ← rotate_add]
  congr 1
  ext <;> simp <;> ring

/-- C18: `transform_move_into_frame` re-expresses a transform in rotated axes: acting with the
moved transform on rotated points is rotating the result of the original transform. -/
theorem C18_move_into_frame {F : Transform R} (hF : F.IsUnit) (t : Transform R) (p : Vec3 R) :
    (transform_move_into_frame t F).point (rotate p F.rot) = rotate (t.point p) F.rot := by
  simp only [Transform.point, transform_move_into_frame]
  rw [← rotate_sub, (C12_rotate_quat hF t.rot t.rot (p - t.pos)).2]

/-- C19: power is frame invariant. -/
theorem C19_power {t : Transform R} (h : t.IsUnit) (m : Motion R) (f : Force R) :
    motion_dot (transform_motion t m) (transform_force t f) = motion_dot m f :=
  power_invariant h m f

/-- C19: `transform_force` is the only frame change of forces which conserves power. -/
theorem C19_power_unique {t : Transform R} (h : t.IsUnit) (f g : Force R)
    (hg : ∀ m, motion_dot (transform_motion t m) g = motion_dot m f) :
    g = transform_force t f := by
  apply motion_dot_injective
  intro m
  have := hg (transform_motion (transform_inv t) m)
  have e : transform_motion t (transform_motion (transform_inv t) m) = m := by
    rw [← transform_motion_mul (transform_inv_unit h), transform_mul_inv h, transform_motion_zero]
  rw [← power_invariant h (transform_motion (transform_inv t) m) f, e] at this
  exact this

/-- C19: `transform_motion` preserves the motion cross product. -/
theorem C19_motion_cross {t : Transform R} (h : t.IsUnit) (a b : Motion R) :
    transform_motion t (motion_cross a b) =
      motion_cross (transform_motion t a) (transform_motion t b) := by
  ext1
  · simp only [transform_motion, motion_cross]
    rw [cross_rotate_unit h]
  · simp only [transform_motion, motion_cross]
    rw [cross_rotate_unit h, cross_rotate_unit h, ← rotate_add]
    congr 1
    ext <;> simp <;> ring

/-- C19: the force cross product is minus the transpose of the motion cross product. -/
theorem C19_cross_star_adjoint (a b : Motion R) (f : Force R) :
    motion_dot b (motion_cross_star a f) = - motion_dot (motion_cross a b) f := by
  simp [motion_dot, motion_cross_star, motion_cross, Vec3.dot]; ring

/-- C19: `transform_force` commutes with the force cross product. -/
theorem C19_motion_cross_star {t : Transform R} (h : t.IsUnit) (a : Motion R) (f : Force R) :
    transform_force t (motion_cross_star a f) =
      motion_cross_star (transform_motion t a) (transform_force t f) := by
  ext1
  · simp only [transform_motion, transform_force, motion_cross_star]
    rw [cross_rotate_unit h, cross_rotate_unit h, ← rotate_add]
    congr 1
    ext <;> simp <;> ring
  · simp only [transform_motion, transform_force, motion_cross_star]
    rw [cross_rotate_unit h]

/-- C19: antisymmetry and Jacobi identity of the motion cross product (it is the Lie bracket of
rigid velocities). -/
theorem C19_motion_cross_lie (a b c : Motion R) :
    motion_cross a a = 0 ∧
    motion_cross a (motion_cross b c) + motion_cross b (motion_cross c a)
      + motion_cross c (motion_cross a b) = 0 := by
  constructor
  · ext <;> simp [motion_cross] <;> ring
  · ext <;> simp [motion_cross] <;> ring

/-- C19: the 6x6 matrices `crm`, `crf` of the spatial module are the cross product operators. -/
theorem C19_crm_crf (a b : Motion R) (f : Force R) :
    (spatial.crm a.as_matrix).mulVec b.as_matrix = (motion_cross a b).as_matrix ∧
    (spatial.crf a.as_matrix).mulVec f.as_matrix = (motion_cross_star a f).as_matrix := by
  constructor
  · simp only [spatial.crm, spatial.quadrants, Mat6.mulVec, Motion.as_matrix, motion_cross,
      Option.getD, spatial.cross_mulVec, Mat3.zero_mulVec, add_zero]
    rw [add_comm]
  · simp only [spatial.crf, spatial.crm, spatial.quadrants, Option.getD, Mat6.mulVec,
      Mat6.transpose, Mat6.neg_def, Motion.as_matrix, Force.as_matrix, motion_cross_star,
      spatial.cross_transpose, neg_neg, Mat3.zero_transpose, spatial.cross_mulVec, neg_zero,
      Mat3.zero_mulVec, zero_add]

/-- C20: `inertia_mul_motion` is multiplication by the 6x6 matrix of the inertia. -/
theorem C20_as_matrix (it : Inertia R) (m : Motion R) :
    it.as_matrix.mulVec m.as_matrix = (inertia_mul_motion it m).as_matrix := by
  simp only [Inertia.as_matrix, spatial.quadrants, Mat6.mulVec, Motion.as_matrix,
    Force.as_matrix, inertia_mul_motion, Option.getD, spatial.cross_mulVec,
    Mat3.neg_mulVec, Mat3.smul_mulVec, Mat3.eye_mulVec]
  rw [sub_eq_neg_add]

end ring

section field
variable [Field R]

/-- C19: `Transform.as_matrix` is the Plücker matrix of `transform_motion`. -/
theorem C19_transform_as_matrix {t : Transform R} (h : t.IsUnit) (m : Motion R) :
    t.as_matrix.mulVec m.as_matrix = (transform_motion t m).as_matrix := by
  simp only [Transform.as_matrix, spatial.quadrants, spatial.xlt, Mat6.mulVec, Mat6.mul,
    Motion.as_matrix, transform_motion, Option.getD, Mat3.add_mulVec, Mat3.mul_mulVec]
  simp only [Mat3.zero_mulVec, Mat3.eye_mulVec, Mat3.neg_mulVec, to3x3_mulVec h, spatial.cross_mulVec, add_zero, zero_add, rotate_zero]
  ext1
  · rfl
  · simp only [rotate_add]

/-- C20: `transform_inertia` keeps the mass. -/
theorem C20_mass (t : Transform R) (it : Inertia R) : (transform_inertia t it).mass = it.mass :=
  rfl

/-- C20: the transformed inertia maps the transformed motion to the transformed momentum:
`(X I X⁻¹)(X v) = X (I v)`. -/
theorem C20_congruence {t : Transform R} (h : t.IsUnit) (it : Inertia R) (m : Motion R) :
    inertia_mul_motion (transform_inertia t it) (transform_motion t m) =
      transform_force t (inertia_mul_motion it m) := inertia_congruence h it m

/-- C20: it is the only inertia doing so. -/
theorem C20_congruence_unique {t : Transform R} (h : t.IsUnit) (it jt : Inertia R)
    (hj : ∀ m, inertia_mul_motion jt (transform_motion t m) =
      transform_force t (inertia_mul_motion it m)) : jt = transform_inertia t it := by
  apply inertia_ext
  intro m
  have h1 := hj (transform_motion (transform_inv t) m)
  rw [← inertia_congruence h, transform_motion_inv_right h] at h1
  exact h1

/-- C20: kinetic energy (times two) is frame invariant. -/
theorem C20_energy {t : Transform R} (h : t.IsUnit) (it : Inertia R) (m : Motion R) :
    motion_dot (transform_motion t m)
        (inertia_mul_motion (transform_inertia t it) (transform_motion t m)) =
      motion_dot m (inertia_mul_motion it m) := by
  rw [inertia_congruence h, power_invariant h]

/-- C20: `transform_inertia` composes along products of transforms and is undone by the
inverse. -/
theorem C20_compose {t1 t2 : Transform R} (h1 : t1.IsUnit) (h2 : t2.IsUnit) (it : Inertia R) :
    transform_inertia (transform_mul t2 t1) it = transform_inertia t2 (transform_inertia t1 it) ∧
    transform_inertia (transform_inv t1) (transform_inertia t1 it) = it ∧
    transform_inertia ⟨⟨0, 0, 0⟩, ⟨1, 0, 0, 0⟩⟩ it = it := by
  have z : transform_inertia ⟨⟨0, 0, 0⟩, ⟨1, 0, 0, 0⟩⟩ it = it := by
    symm
    apply C20_congruence_unique (transform_zero_unit (R := R))
    intro m
    exact (congrArg _ (transform_motion_zero m)).trans (transform_force_zero _).symm
  have c : ∀ {t1 t2 : Transform R}, t1.IsUnit → t2.IsUnit →
    transform_inertia t2 (transform_inertia t1 it) = transform_inertia (transform_mul t2 t1) it := by
    intro t1 t2 h1 h2
    apply C20_congruence_unique (transform_mul_unit h2 h1)
    intro m
    rw [transform_motion_mul h1, inertia_congruence h2, inertia_congruence h1,
      transform_force_mul h1]
  refine ⟨(c h1 h2).symm, ?_, z⟩
  rw [c h1 (transform_inv_unit h1), transform_inv_mul h1]
  exact z

/-- C20: additivity, i.e. the inertia of a composite body may be transformed part by part. -/
theorem C20_additive {t : Transform R} (h : t.IsUnit) (i j : Inertia R) :
    transform_inertia t (i + j) = transform_inertia t i + transform_inertia t j := by
  symm
  apply C20_congruence_unique h
  intro m
  rw [inertia_add_mul, inertia_congruence h, inertia_congruence h, ← transform_force_add,
    inertia_add_mul]

end field

example : transform_mul exT (transform_inv exT) = ⟨⟨0, 0, 0⟩, ⟨1, 0, 0, 0⟩⟩ := (C18_inv exT_unit).2
example : (transform_inv exT).pos = ⟨-2, 3, -1⟩ := by
  ext <;> norm_num [transform_inv, exT, exQuat, rotate_x, rotate_y, rotate_z]
example (m : Motion ℚ) (f : Force ℚ) :
    motion_dot (transform_motion exT m) (transform_force exT f) = motion_dot m f :=
  C19_power exT_unit m f
example : transform_inertia exT ⟨Mat3.eye, ⟨1, 0, 0⟩, 2⟩ ≠ (⟨Mat3.eye, ⟨1, 0, 0⟩, 2⟩ : Inertia ℚ) := by
  intro h
  have := congrArg (fun i => i.h.x) h
  norm_num [transform_inertia, exT, exQuat, rotate_x] at this

end RingLib
