import Mathlib.Tactic.Positivity
import Mathlib.Tactic.Linarith
import Mathlib.Algebra.Order.Field.Basic
import Mathlib.Algebra.BigOperators.Group.List.Basic
import Verif.Model.Inertia
import Verif.Props.Algebra

/-!
# C21: the inertia of a link is the sum over its geometries, is independent of their order and
gives non-negative kinetic energy
-/

namespace RingLib
open maths algebra
variable {R : Type*}

/-! ## Specification -/

/-- Twice the kinetic energy of one geometry rigidly moving with `m` (angular velocity `m.ang`,
velocity `m.vel` of the link origin): König's theorem, rotational energy about the geometry's own
centre (expressed in the geometry's axes) plus translational energy of its centre, whose velocity
is `vel + ang × pos`. -/
def Geometry.twiceEnergy [Field R] (pi : R) (g : Geometry R) (m : Motion R) : R :=
  let w := rotate m.ang g.transform.rot
  let c := m.vel + m.ang.cross g.transform.pos
  w.dot ((g.get_it_3x3 pi).mulVec w) + g.mass * c.dot c

/-- Sizes for which a geometry is a physical body: non-negative mass, and for capsules positive
radius and non-negative length (python divides by the capsule's volume). -/
def Geometry.Physical [Field R] [LinearOrder R] (g : Geometry R) : Prop :=
  0 ≤ g.mass ∧ g.transform.IsUnit ∧
    match g.shape with
    | .capsule r d => 0 < r ∧ 0 ≤ d
    | _ => True

/-! ## Lemmas -/
section field
variable [Field R]

theorem inertia_from_eq_sum (pi : R) (gs : List (Geometry R)) :
    _inertia_from_geometries pi gs =
      (gs.map fun g => Inertia.create g.mass g.transform (g.get_it_3x3 pi)).sum := by
  unfold _inertia_from_geometries
  have : ∀ (gs : List (Geometry R)) (a : Inertia R),
      gs.foldl (fun inertia geom =>
          inertia + Inertia.create geom.mass geom.transform (geom.get_it_3x3 pi)) a =
        a + (gs.map fun g => Inertia.create g.mass g.transform (g.get_it_3x3 pi)).sum := by
    intro gs
    induction gs with
    | nil => intro a; simp
    | cons g gs ih => intro a; simp [ih, add_assoc]
  rw [this, zero_add]

theorem inertia_zero_mul (m : Motion R) : inertia_mul_motion (0 : Inertia R) m = 0 := by
  ext <;> simp [inertia_mul_motion, Mat3.zero_mulVec]

theorem sum_energy (m : Motion R) (is : List (Inertia R)) :
    motion_dot m (inertia_mul_motion is.sum m) =
      (is.map fun i => motion_dot m (inertia_mul_motion i m)).sum := by
  induction is with
  | nil => simp [inertia_zero_mul, motion_dot_zero]
  | cons i is ih => simp [inertia_add_mul, motion_dot_add_right, ih]

theorem create_energy (mass : R) {t : Transform R} (h : t.IsUnit) (it : Mat3 R) (m : Motion R) :
    motion_dot m (inertia_mul_motion (Inertia.create mass t it) m) =
      (rotate m.ang t.rot).dot (it.mulVec (rotate m.ang t.rot)) +
        mass * (m.vel + m.ang.cross t.pos).dot (m.vel + m.ang.cross t.pos) := by
  have h' : (quat_inv t.rot).normSq = 1 := (normSq_inv _).trans h
  have e : ∀ v : Vec3 R, m.ang.dot (rotate v (quat_inv t.rot)) = (rotate m.ang t.rot).dot v := by
    intro v
    rw [← dot_rotate_unit (show t.rot.normSq = 1 from h), rotate_rotate_inv h]
  simp only [motion_dot, inertia_mul_motion, Inertia.create, spatial.mcI, spatial.quadrants,
    Option.getD, Mat3.sub_mulVec, Mat3.mul_mulVec, Mat3.smul_mulVec, spatial.cross_mulVec,
    rotate_matrix_mulVec h', quat_inv_inv, Vec3.dot_add, Vec3.dot_sub, e]
  simp [Vec3.dot]
  ring

end field

/-! ## Theorems -/

section field
variable [Field R]

/-- C21: the inertia of link `i` acts on every motion as the sum of the actions of exactly the
geometries attached to `i`; in particular (twice) the kinetic energy of the link is the sum of
those of its geometries. -/
theorem C21_energy_is_sum (pi : R) (geoms : List (Geometry R)) (i : Int)
    (hu : ∀ g ∈ geoms, g.link_idx = i → g.transform.IsUnit) (m : Motion R) :
    motion_dot m (inertia_mul_motion (compute_inertia_per_link pi geoms i) m) =
      ((geoms.filter fun g => g.link_idx = i).map fun g => g.twiceEnergy pi m).sum := by
  unfold compute_inertia_per_link
  rw [inertia_from_eq_sum, sum_energy, List.map_map]
  have e1 : (geoms.filter fun g => g.link_idx == i) = geoms.filter fun g => g.link_idx = i := by
    congr 1
  rw [e1]
  congr 1
  apply List.map_congr_left
  intro g hg
  rw [List.mem_filter] at hg
  exact create_energy g.mass (hu g hg.1 (by simpa using hg.2)) _ m

/-- C21: total mass and first moment are the sums of the geometries' masses and
mass-weighted positions. -/
theorem C21_mass_and_com (pi : R) (geoms : List (Geometry R)) (i : Int) :
    (compute_inertia_per_link pi geoms i).mass =
      ((geoms.filter fun g => g.link_idx = i).map (·.mass)).sum ∧
    (compute_inertia_per_link pi geoms i).h =
      ((geoms.filter fun g => g.link_idx = i).map
        fun g => Vec3.smul g.mass g.transform.pos).sum := by
  unfold compute_inertia_per_link
  rw [inertia_from_eq_sum]
  have e1 : (geoms.filter fun g => g.link_idx == i) = geoms.filter fun g => g.link_idx = i := by
    congr 1
  rw [e1]
  generalize (geoms.filter fun g => g.link_idx = i) = gs
  constructor
  · induction gs with
    | nil => rfl
    | cons g gs ih => simp only [List.map_cons, List.sum_cons, Inertia.add_mass, ih]; rfl
  · induction gs with
    | nil => rfl
    | cons g gs ih => simp only [List.map_cons, List.sum_cons, Inertia.add_h, ih]; rfl

/-- C21: the order in which the geometries are listed is irrelevant. -/
theorem C21_order_independent (pi : R) {g1 g2 : List (Geometry R)} (h : g1.Perm g2) (i : Int) :
    compute_inertia_per_link pi g1 i = compute_inertia_per_link pi g2 i := by
  unfold compute_inertia_per_link
  rw [inertia_from_eq_sum, inertia_from_eq_sum]
  exact ((h.filter _).map _).sum_eq

/-- C21: the inertia of a link depends only on the geometries attached to it. -/
theorem C21_other_geoms_irrelevant (pi : R) (geoms extra : List (Geometry R)) (i : Int)
    (h : ∀ g ∈ extra, g.link_idx ≠ i) :
    compute_inertia_per_link pi (geoms ++ extra) i = compute_inertia_per_link pi geoms i := by
  unfold compute_inertia_per_link
  have : (extra.filter fun geom => geom.link_idx == i) = [] := by
    rw [List.filter_eq_nil_iff]
    intro g hg
    simpa using h g hg
  rw [List.filter_append, this, List.append_nil]

/-- C21: the inertia matrix of a link is symmetric. -/
theorem C21_symmetric (pi : R) (geoms : List (Geometry R)) (i : Int)
    (hu : ∀ g ∈ geoms, g.link_idx = i → g.transform.IsUnit) :
    (compute_inertia_per_link pi geoms i).it_3x3.IsSymm := by
  unfold compute_inertia_per_link
  rw [inertia_from_eq_sum]
  have hu' : ∀ g ∈ geoms.filter (fun g => g.link_idx == i), g.transform.IsUnit := by
    intro g hg
    rw [List.mem_filter] at hg
    exact hu g hg.1 (by simpa using hg.2)
  revert hu'
  generalize (geoms.filter fun g => g.link_idx == i) = gs
  intro hu'
  induction gs with
  | nil => exact ⟨rfl, rfl, rfl⟩
  | cons g gs ih =>
    have ih := ih (fun g hg => hu' g (List.mem_cons_of_mem _ hg))
    have hs : (g.get_it_3x3 pi).IsSymm := by
      unfold Geometry.get_it_3x3
      cases g.shape <;> simp [Mat3.IsSymm, Mat3.diag, Mat3.smul, Mat3.eye, Mat3.zero_def]
    have hc : (Inertia.create g.mass g.transform (g.get_it_3x3 pi)).it_3x3.IsSymm := by
      obtain ⟨s1, s2, s3⟩ := hs
      refine ⟨?_, ?_, ?_⟩ <;>
      · simp only [Inertia.create, spatial.mcI, spatial.quadrants, Option.getD, rotate_matrix,
          Mat3.sub_def, Mat3.mul, Mat3.transpose, Mat3.smul, spatial.cross, s1, s2, s3]
        ring
    obtain ⟨a1, a2, a3⟩ := ih
    obtain ⟨b1, b2, b3⟩ := hc
    refine ⟨?_, ?_, ?_⟩ <;>
    · simp only [List.map_cons, List.sum_cons, Inertia.add_it, Mat3.add_def]
      simp only [*]

end field

/-- C21: for physical geometries the kinetic energy of a link is non-negative for every
motion. -/
theorem C21_energy_nonneg [Field R] [LinearOrder R] [IsStrictOrderedRing R] {pi : R}
    (hpi : 0 < pi) (geoms : List (Geometry R)) (i : Int)
    (hp : ∀ g ∈ geoms, g.link_idx = i → g.Physical) (m : Motion R) :
    0 ≤ motion_dot m (inertia_mul_motion (compute_inertia_per_link pi geoms i) m) := by
  rw [C21_energy_is_sum pi geoms i (fun g hg h => (hp g hg h).2.1)]
  apply List.sum_nonneg
  intro x hx
  rw [List.mem_map] at hx
  obtain ⟨g, hg, rfl⟩ := hx
  rw [List.mem_filter] at hg
  obtain ⟨hm, hun, hshape⟩ := hp g hg.1 (by simpa using hg.2)
  unfold Geometry.twiceEnergy
  generalize rotate m.ang g.transform.rot = w
  generalize m.vel + m.ang.cross g.transform.pos = c
  have hc : 0 ≤ g.mass * c.dot c := by
    apply mul_nonneg hm
    simp only [Vec3.dot]
    nlinarith [mul_self_nonneg c.x, mul_self_nonneg c.y, mul_self_nonneg c.z]
  have diagpos : ∀ a b d : R, 0 ≤ a → 0 ≤ b → 0 ≤ d →
      0 ≤ w.dot ((Mat3.diag a b d).mulVec w) := by
    intro a b d ha hb hd
    have : w.dot ((Mat3.diag a b d).mulVec w) =
        a * (w.x * w.x) + b * (w.y * w.y) + d * (w.z * w.z) := by
      simp [Vec3.dot, Mat3.diag, Mat3.mulVec]; ring
    rw [this]
    have := mul_self_nonneg w.x
    have := mul_self_nonneg w.y
    have := mul_self_nonneg w.z
    positivity
  have smulDiag : ∀ s a b d : R, Mat3.smul s (Mat3.diag a b d) =
      Mat3.diag (s * a) (s * b) (s * d) := by
    intro s a b d; simp [Mat3.smul, Mat3.diag]
  refine add_nonneg ?_ hc
  unfold Geometry.get_it_3x3
  cases hs : g.shape with
  | xyz size => simp [Mat3.zero_mulVec, Vec3.dot]
  | sphere radius =>
    have : (Mat3.eye : Mat3 R) = Mat3.diag 1 1 1 := rfl
    simp only [this, smulDiag]
    exact diagpos _ _ _ (by positivity) (by positivity) (by positivity)
  | box a b d =>
    simp only [smulDiag]
    exact diagpos _ _ _ (by positivity) (by positivity) (by positivity)
  | cylinder r l =>
    simp only [smulDiag]
    exact diagpos _ _ _ (by positivity) (by positivity) (by positivity)
  | capsule r d =>
    rw [hs] at hshape
    obtain ⟨hr, hd⟩ := hshape
    exact diagpos _ _ _ (by positivity) (by positivity) (by positivity)

/-! A link with a box and a capsule, in rotated poses. -/
def exGeoms : List (Geometry ℚ) :=
  [⟨2, exT, 0, .box 1 2 3, none, none⟩, ⟨1, exT, 1, .sphere 1, none, none⟩,
    ⟨3, ⟨⟨0, 1, 0⟩, exQuat⟩, 0, .capsule 1 2, some "red", none⟩]

example : ∀ g ∈ exGeoms, g.link_idx = 0 → g.Physical := by
  simp [exGeoms, Geometry.Physical, show exQuat.IsUnit from exQuat_unit,
    Transform.IsUnit, exT]

example : (compute_inertia_per_link (22/7) exGeoms 0).mass = 5 := by
  rw [(C21_mass_and_com _ _ _).1]
  simp [exGeoms]; norm_num

end RingLib
