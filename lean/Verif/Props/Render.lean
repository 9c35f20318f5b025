import Mathlib.Tactic.LinearCombination
import Mathlib.Tactic.Linarith
import Mathlib.Tactic.NormNum
import Verif.Model.Render
import Verif.Props.Algebra
import Verif.Props.SpatialRot

/-!
# C93: what is drawn where

The drawing of a system puts every geometry where the frames say it is, with the shape that its documentation gives it.
The specification: the solid of a geometry in its own frame, the documented meaning of a model of MuJoCo (position and
orientation of a body and of a geom, its solid) and the meaning of a homogeneous matrix on rows.
-/

namespace RingLib.rendering

open maths algebra

/-! ## Specification -/

/-- the solid of a geometry in its own frame: lengths are along the x-axis and the length of a capsule is the one of its
cylinder, as in the inertia (`/repo/src/ring/base.py:258-335`) -/
def solid : Shape ℝ → Vec3 ℝ → Prop
  | .xyz _, _ => False
  | .sphere r, p => p.x ^ 2 + p.y ^ 2 + p.z ^ 2 ≤ r ^ 2
  | .box a b c, p => |p.x| ≤ a / 2 ∧ |p.y| ≤ b / 2 ∧ |p.z| ≤ c / 2
  | .cylinder r l, p => p.y ^ 2 + p.z ^ 2 ≤ r ^ 2 ∧ |p.x| ≤ l / 2
  | .capsule r l, p => ∃ s, |s| ≤ l / 2 ∧ (p.x - s) ^ 2 + p.y ^ 2 + p.z ^ 2 ≤ r ^ 2

/-- the solid of a geom of MuJoCo in its own frame -/
def mjSolid : MjType → List ℝ → Vec3 ℝ → Prop
  | .sphere, [r], p => p.x ^ 2 + p.y ^ 2 + p.z ^ 2 ≤ r ^ 2
  | .box, [a, b, c], p => |p.x| ≤ a ∧ |p.y| ≤ b ∧ |p.z| ≤ c
  | .cylinder, [r, h], p => p.x ^ 2 + p.y ^ 2 ≤ r ^ 2 ∧ |p.z| ≤ h
  | .capsule, [r, h], p => ∃ s, |s| ≤ h ∧ p.x ^ 2 + p.y ^ 2 + (p.z - s) ^ 2 ≤ r ^ 2
  | _, _, _ => False

/-- how MuJoCo turns a vector by a quaternion: `v + 2 u × (u × v + w v)` -/
def mjTurn (q : Quat ℝ) (v : Vec3 ℝ) : Vec3 ℝ :=
  let u := q.vec
  v + Vec3.smul 2 (u.cross (u.cross v + Vec3.smul q.w v))

/-- the point of the world with coordinates `p` in a geom with the given position and quaternion in a body with the given
position and quaternion -/
def mjPoint (body geom : Vec3 ℝ × Quat ℝ) (p : Vec3 ℝ) : Vec3 ℝ :=
  body.1 + mjTurn body.2 (geom.1 + mjTurn geom.2 p)

/-- a homogeneous matrix applied to the row `(x, y, z, 1)` -/
def rowPoint (M : Matrix (Fin 4) (Fin 4) ℝ) (p : Vec3 ℝ) : Vec3 ℝ :=
  let r := Matrix.vecMul ![p.x, p.y, p.z, 1] M
  ⟨r 0, r 1, r 2⟩

/-- `p` with x and z exchanged -/
def swapXZ (p : Vec3 ℝ) : Vec3 ℝ := ⟨p.z, p.y, p.x⟩

/-- a number that has at most four decimals -/
def FourDecimals (x : ℝ) : Prop := ∃ n : ℤ, x = n / 10000

/-! ## Printing -/

/-- C93: a printed number differs from the number by at most 0.00005, and numbers with four decimals are kept. -/
theorem C93_printed (x : ℝ) : |printed x - x| ≤ 5e-5 ∧ (FourDecimals x → printed x = x) := by
  constructor
  · have h := abs_sub_round (x * 10000)
    have e : printed x - x = -((x * 10000 - round (x * 10000)) / 10000) := by unfold printed; ring
    rw [e, abs_neg, abs_div, abs_of_pos (by norm_num : (0 : ℝ) < 10000), div_le_iff₀ (by norm_num)]
    norm_num at h ⊢; linarith
  · rintro ⟨n, rfl⟩
    unfold printed
    rw [div_mul_cancel₀ _ (by norm_num), round_intCast]

example : FourDecimals (-1.5) := ⟨-15000, by norm_num⟩

/-- C93, what fails: a sphere with a radius below 0.00005 is given the size 0 (MuJoCo refuses such a model). -/
theorem C93_small_fails {g : Geom} {r : ℝ} (h0 : 0 < r) (h1 : r < 5e-5) (hs : g.shape = .sphere r) (c : List ℝ) :
    ∃ m, _xml_str_one_geom g c = .ok m ∧ m.size = [0] := by
  refine ⟨_, by unfold _xml_str_one_geom; rw [hs]; rfl, ?_⟩
  have : round (r * 10000) = 0 := by
    rw [round_eq_zero_iff]; norm_num at h1 ⊢; constructor <;> linarith
  simp [printed, this]

/-! ## Poses -/

theorem mjTurn_eq {q : Quat ℝ} (h : q.IsUnit) (v : Vec3 ℝ) : mjTurn q v = rotate v q := by
  have h1 : q.w*q.w + q.x*q.x + q.y*q.y + q.z*q.z = 1 := h
  ext
  · simp [mjTurn, rotate_x, Vec3.cross, Quat.vec]; linear_combination (-v.x) * h1
  · simp [mjTurn, rotate_y, Vec3.cross, Quat.vec]; linear_combination (-v.y) * h1
  · simp [mjTurn, rotate_z, Vec3.cross, Quat.vec]; linear_combination (-v.z) * h1

/-- the link of a geometry: the world or a link of the system -/
def linkFrame (x : List (Transform ℝ)) (i : Int) : Option (Transform ℝ) :=
  if i = -1 then some ⟨0, ⟨1, 0, 0, 0⟩⟩ else if i < 0 then none else x[i.toNat]?

theorem bodyPose_eq {x : List (Transform ℝ)} {i : Int} {t : Transform ℝ} (h : linkFrame x i = some t) :
    bodyPose x i = .ok (t.pos, quat_inv t.rot) := by
  unfold linkFrame at h
  unfold bodyPose
  split at h
  · rename_i e
    injection h with h
    subst h
    rw [if_pos e]
    simp [quat_inv]
  · rename_i e
    split at h
    · cases h
    · rename_i hn
      rw [if_neg e]
      simp [pyGet, hn, h, bind, Except.bind, pure, Except.pure]

theorem visual_eq {x : List (Transform ℝ)} {i : Int} {t g : Transform ℝ} (h : linkFrame x i = some t) :
    _compute_transform_per_visual x g i =
      .ok (withRotation (quat_to_3x3 (transform_mul g t).rot) * withPosition (transform_mul g t).pos) := by
  unfold linkFrame at h
  unfold _compute_transform_per_visual
  split at h
  · rename_i e
    injection h with h
    subst h
    rw [if_pos e]
    rfl
  · rename_i e
    split at h
    · cases h
    · rename_i hn
      rw [if_neg e]
      simp [pyGet, hn, h, bind, Except.bind, pure, Except.pure]

theorem rowPoint_eq {t : Transform ℝ} (h : t.IsUnit) (p : Vec3 ℝ) :
    rowPoint (withRotation (quat_to_3x3 t.rot) * withPosition t.pos) p = t.pos + rotate p (quat_inv t.rot) := by
  have h' : (quat_inv t.rot).normSq = 1 := (normSq_inv _).trans h
  rw [← to3x3_mulVec h', to3x3_inv h]
  ext <;> simp [rowPoint, withRotation, withPosition, Matrix.vecMul, dotProduct, Fin.sum_univ_four, Matrix.mul_apply,
    Mat3.mulVec, Mat3.transpose] <;> ring

/-- C93: MuJoCo puts the point with coordinates `p` in a geometry to the point of the world that has these coordinates in
the frame of the geometry, when the numbers of the geometry have four decimals; links are not rounded. -/
theorem C93_mujoco_pose {x : List (Transform ℝ)} {g : Geom} {t : Transform ℝ} {c : List ℝ} {m : MjGeom}
    (ht : linkFrame x g.link_idx = some t) (hu : t.IsUnit) (hg : g.transform.IsUnit)
    (hm : _xml_str_one_geom g c = .ok m)
    (hd : ∀ v ∈ [g.transform.pos.x, g.transform.pos.y, g.transform.pos.z, g.transform.rot.w, -g.transform.rot.x,
      -g.transform.rot.y, -g.transform.rot.z], FourDecimals v) :
    ∃ body, bodyPose x g.link_idx = .ok body ∧
      ∀ p, g.transform.point (t.point (mjPoint body (m.pos, m.quat) p)) = p := by
  refine ⟨_, bodyPose_eq ht, fun p => ?_⟩
  have hpos : m.pos = g.transform.pos ∧ m.quat = quat_inv g.transform.rot := by
    unfold _xml_str_one_geom at hm
    simp only [List.mem_cons, List.not_mem_nil, or_false, forall_eq_or_imp, forall_eq] at hd
    obtain ⟨h1, h2, h3, h4, h5, h6, h7⟩ := hd
    have e1 := (C93_printed _).2 h1
    have e2 := (C93_printed _).2 h2
    have e3 := (C93_printed _).2 h3
    have e4 := (C93_printed _).2 h4
    have e5 := (C93_printed _).2 h5
    have e6 := (C93_printed _).2 h6
    have e7 := (C93_printed _).2 h7
    cases hs : g.shape <;> rw [hs] at hm <;>
      simp only [bind, Except.bind, pure, Except.pure, Except.ok.injEq, reduceCtorEq] at hm <;>
      (subst hm; constructor) <;>
      [ext; ext; ext; ext; ext; ext; ext; ext] <;> simp [e1, e2, e3, e4, e5, e6, e7]
  have hg' : (quat_inv g.transform.rot).IsUnit := (normSq_inv _).trans hg
  have hu' : (quat_inv t.rot).IsUnit := (normSq_inv _).trans hu
  rw [hpos.1, hpos.2]
  unfold mjPoint Transform.point
  simp only
  rw [mjTurn_eq hu', mjTurn_eq hg']
  have a1 : ∀ a b : Vec3 ℝ, a + b - a = b := fun a b => by ext <;> simp
  rw [a1, rotate_rotate_inv hu, a1, rotate_rotate_inv hg]

/-- C93: vispy puts it to the same point of the world. -/
theorem C93_vispy_pose {x : List (Transform ℝ)} {i : Int} {g t : Transform ℝ}
    (ht : linkFrame x i = some t) (hu : t.IsUnit) (hg : g.IsUnit) :
    ∃ M, _compute_transform_per_visual x g i = .ok M ∧ ∀ p, g.point (t.point (rowPoint M p)) = p := by
  refine ⟨_, visual_eq ht, fun p => ?_⟩
  have hgt : (transform_mul g t).IsUnit := (C12_unit_closed hg hu).1
  rw [rowPoint_eq hgt, ← (C18_point hu g _).1]
  unfold Transform.point
  have a1 : ∀ a b : Vec3 ℝ, a + b - a = b := fun a b => by ext <;> simp
  rw [a1, rotate_rotate_inv hgt]

/-- C93: the two backends put the same point of a geometry to the same point of the world. -/
theorem C93_backends_agree {x : List (Transform ℝ)} {g : Geom} {t : Transform ℝ} {c : List ℝ} {m : MjGeom}
    {body : Vec3 ℝ × Quat ℝ} {M : Matrix (Fin 4) (Fin 4) ℝ}
    (ht : linkFrame x g.link_idx = some t) (hu : t.IsUnit) (hg : g.transform.IsUnit)
    (hm : _xml_str_one_geom g c = .ok m)
    (hd : ∀ v ∈ [g.transform.pos.x, g.transform.pos.y, g.transform.pos.z, g.transform.rot.w, -g.transform.rot.x,
      -g.transform.rot.y, -g.transform.rot.z], FourDecimals v)
    (hb : bodyPose x g.link_idx = .ok body) (hM : _compute_transform_per_visual x g.transform g.link_idx = .ok M)
    (p : Vec3 ℝ) : mjPoint body (m.pos, m.quat) p = rowPoint M p := by
  obtain ⟨b, h1, h2⟩ := C93_mujoco_pose ht hu hg hm hd
  obtain ⟨N, h3, h4⟩ := C93_vispy_pose (g := g.transform) ht hu hg
  rw [hb] at h1; rw [hM] at h3
  injection h1 with h1; injection h3 with h3
  subst h1; subst h3
  have inj : ∀ {s : Transform ℝ}, s.IsUnit → ∀ a b, s.point a = s.point b → a = b := fun hs a b e => by
    rw [← (C18_point hs .zero a).2.1, e, (C18_point hs .zero b).2.1]
  exact inj hu _ _ (inj hg _ _ ((h2 p).trans (h4 p).symm))

example : linkFrame [⟨⟨1, 2, 3⟩, ⟨0, 1, 0, 0⟩⟩] 0 = some ⟨⟨1, 2, 3⟩, ⟨0, 1, 0, 0⟩⟩ ∧
    (⟨⟨1, 2, 3⟩, ⟨0, 1, 0, 0⟩⟩ : Transform ℝ).IsUnit := by
  refine ⟨rfl, ?_⟩
  simp [Transform.IsUnit, Quat.IsUnit, Quat.normSq]

/-! ## Solids -/

/-- C93: boxes and spheres of MuJoCo are the solids of the geometries (sizes with four decimals). -/
theorem C93_mujoco_box_sphere {g : Geom} {c : List ℝ} {m : MjGeom} (hm : _xml_str_one_geom g c = .ok m) (p : Vec3 ℝ) :
    (∀ r, g.shape = .sphere r → FourDecimals r → (mjSolid m.type m.size p ↔ solid g.shape p)) ∧
    (∀ a b d, g.shape = .box a b d → FourDecimals (a / 2) → FourDecimals (b / 2) → FourDecimals (d / 2) →
      (mjSolid m.type m.size p ↔ solid g.shape p)) := by
  unfold _xml_str_one_geom at hm
  constructor
  · intro r hs hr
    rw [hs] at hm ⊢
    simp only [bind, Except.bind, pure, Except.pure, Except.ok.injEq] at hm
    subst hm
    simp [mjSolid, solid, (C93_printed _).2 hr]
  · intro a b d hs ha hb hd
    rw [hs] at hm ⊢
    simp only [bind, Except.bind, pure, Except.pure, Except.ok.injEq] at hm
    subst hm
    simp [mjSolid, solid, (C93_printed _).2 ha, (C93_printed _).2 hb, (C93_printed _).2 hd]

/-- C93: cylinders and capsules of MuJoCo are the solids of the geometries with the x- and the z-axis exchanged. -/
theorem C93_mujoco_long {g : Geom} {c : List ℝ} {m : MjGeom} (hm : _xml_str_one_geom g c = .ok m)
    {r l : ℝ} (hs : g.shape = .cylinder r l ∨ g.shape = .capsule r l) (hr : FourDecimals r) (hl : FourDecimals (l / 2))
    (p : Vec3 ℝ) : mjSolid m.type m.size p ↔ solid g.shape (swapXZ p) := by
  unfold _xml_str_one_geom at hm
  have e1 := (C93_printed _).2 hr
  have e2 := (C93_printed _).2 hl
  rcases hs with hs | hs <;> rw [hs] at hm ⊢ <;>
    simp only [bind, Except.bind, pure, Except.pure, Except.ok.injEq] at hm <;> subst hm
  · simp only [List.map_cons, List.map_nil, e1, e2, mjSolid, solid, swapXZ]
    rw [add_comm (p.y ^ 2)]
  · simp only [List.map_cons, List.map_nil, e1, e2, mjSolid, solid, swapXZ]
    constructor <;> rintro ⟨s, h1, h2⟩ <;> exact ⟨s, h1, by linarith⟩

/-- C93, what fails: with the default backend a cylinder (documented, weighed and drawn by vispy along the x-axis) lies
along the z-axis: its point `(l/2, 0, 0)` is not drawn, `(0, 0, l/2)` is drawn instead, for every cylinder longer than
thick. -/
theorem C93_mujoco_axis_fails {g : Geom} {c : List ℝ} {m : MjGeom} (hm : _xml_str_one_geom g c = .ok m)
    {r l : ℝ} (hs : g.shape = .cylinder r l) (hr : FourDecimals r) (hl : FourDecimals (l / 2)) (h0 : 0 ≤ r)
    (h : 2 * r < l) :
    solid g.shape ⟨l / 2, 0, 0⟩ ∧ ¬ mjSolid m.type m.size ⟨l / 2, 0, 0⟩ ∧
    ¬ solid g.shape ⟨0, 0, l / 2⟩ ∧ mjSolid m.type m.size ⟨0, 0, l / 2⟩ := by
  rw [C93_mujoco_long hm (.inl hs) hr hl, C93_mujoco_long hm (.inl hs) hr hl, hs]
  have hl0 : 0 ≤ l / 2 := by linarith
  have hlt : r ^ 2 < (l / 2) ^ 2 := by nlinarith
  simp only [solid, swapXZ, abs_of_nonneg hl0, abs_zero]
  refine ⟨⟨by nlinarith, le_refl _⟩, fun hh => by nlinarith [hh.1], fun hh => by nlinarith [hh.1], ⟨by nlinarith, le_refl _⟩⟩

example : ∃ m, _xml_str_one_geom ⟨1, ⟨0, ⟨1, 0, 0, 0⟩⟩, 0, .cylinder 1 4, .none⟩ [] = .ok m := ⟨_, rfl⟩
example : FourDecimals 1 ∧ FourDecimals (4 / 2) := ⟨⟨10000, by norm_num⟩, ⟨20000, by norm_num⟩⟩

/-- the corners of a box -/
def IsCorner (a b c : ℝ) (p : Vec3 ℝ) : Prop :=
  (p.x = a / 2 ∨ p.x = -a / 2) ∧ (p.y = b / 2 ∨ p.y = -b / 2) ∧ (p.z = c / 2 ∨ p.z = -c / 2)

/-- C93: the mesh of a box has the corners of the box as vertices. -/
theorem C93_box_mesh (a b c : ℝ) (p : Vec3 ℝ) : p ∈ boxVerts a b c ↔ IsCorner a b c p := by
  simp only [boxVerts, List.map_cons, List.map_nil, List.mem_cons, List.not_mem_nil, or_false, IsCorner, Vec3.ext_iff]
  tauto

/-- C93: its edges are the pairs of corners that differ in one coordinate (corners are numbered in binary), and every face
of the mesh is a triangle of three different corners on one side of the box; each of the six sides has two, which share
their diagonal and have all four corners of the side. -/
theorem C93_box_edges : (∀ i j : Fin 8, (i.val, j.val) ∈ boxEdges ↔ i < j ∧ (i.val ^^^ j.val) ∈ [1, 2, 4]) ∧
    (∀ f ∈ boxFaces, f.1 < f.2.1 ∧ f.2.1 < f.2.2 ∧ f.2.2 < 8) ∧
    (∀ k : Fin 3, ∀ v : Bool,
      ∃ f g, boxFaces.filter (fun f => f.1.testBit k == v && f.2.1.testBit k == v && f.2.2.testBit k == v) = [f, g] ∧
        [g.1, g.2.1] = [f.2.1, f.2.2] ∧
        ∀ i : Fin 8, i.val.testBit k = v → i.val ∈ [f.1, f.2.1, f.2.2, g.2.2]) := by
  refine ⟨by decide, by decide, ?_⟩
  intro k v
  fin_cases k <;> cases v <;> exact ⟨_, _, rfl, rfl, by decide⟩

/-- C93: with vispy the sizes of a box in y and in z are exchanged. -/
theorem C93_vispy_box (a b c : ℝ) (p : Vec3 ℝ) : p ∈ _add_box a b c ↔ IsCorner a c b p := C93_box_mesh a c b p

/-- C93, what fails: hence a box whose sizes in y and in z differ has no vertex at any of its corners. -/
theorem C93_vispy_box_fails {a b c : ℝ} (hb : 0 < b) (hc : 0 < c) (h : b ≠ c) (p : Vec3 ℝ) (hp : p ∈ _add_box a b c) :
    ¬ IsCorner a b c p := by
  rw [C93_vispy_box] at hp
  rintro ⟨-, h1, -⟩
  obtain ⟨-, h2, -⟩ := hp
  apply h
  rcases h1 with h1 | h1 <;> rcases h2 with h2 | h2 <;> linarith

/-! ## Capsules of vispy -/

theorem linspace_mem {a b : ℝ} (h : a ≤ b) {n i : Nat} (hn : 2 ≤ n) (hi : i < n) :
    a ≤ linspace a b n i ∧ linspace a b n i ≤ b := by
  have hn' : (0 : ℝ) < (n : ℝ) - 1 := by
    have : (2 : ℝ) ≤ n := by exact_mod_cast hn
    linarith
  have hi' : (i : ℝ) ≤ (n : ℝ) - 1 := by
    have : (i : ℝ) + 1 ≤ n := by exact_mod_cast hi
    linarith
  have h0 : (0 : ℝ) ≤ i := Nat.cast_nonneg i
  unfold linspace
  constructor
  · have : 0 ≤ (b - a) * i / ((n : ℝ) - 1) := by
      apply div_nonneg _ hn'.le
      exact mul_nonneg (by linarith) h0
    linarith
  · have : (b - a) * i / ((n : ℝ) - 1) ≤ b - a := by
      rw [div_le_iff₀ hn']
      exact mul_le_mul_of_nonneg_left hi' (by linarith)
    linarith

theorem linspace_last (a b : ℝ) {n : Nat} (hn : 2 ≤ n) : linspace a b n (n - 1) = b := by
  unfold linspace
  have hn' : (n : ℝ) - 1 ≠ 0 := by
    have : (2 : ℝ) ≤ n := by exact_mod_cast hn
    linarith
  rw [Nat.cast_sub (by omega), Nat.cast_one, mul_div_assoc, div_self hn', mul_one]
  ring

/-- the distance of `p` to the segment of half length `h` on the x-axis is `r` -/
def AtDistance (h r : ℝ) (p : Vec3 ℝ) : Prop :=
  (∃ s, |s| ≤ h ∧ (p.x - s) ^ 2 + p.y ^ 2 + p.z ^ 2 = r ^ 2) ∧
  ∀ s, |s| ≤ h → r ^ 2 ≤ (p.x - s) ^ 2 + p.y ^ 2 + p.z ^ 2

/-- C93: every vertex of the mesh of a capsule lies on the surface of the capsule whose total length (with the caps) is
`length`, along the x-axis; the mesh exists exactly for lengths of at least two radii. -/
theorem C93_capsule_surface {r l : ℝ} (hr : 0 ≤ r) (off : Bool) :
    (l < 2 * r → capsuleMesh r l off = .error .value) ∧
    (2 * r ≤ l → ∃ vs, capsuleMesh r l off = .ok vs ∧ vs ≠ [] ∧ ∀ p ∈ vs, AtDistance ((l - 2 * r) / 2) r p) := by
  constructor
  · intro h
    unfold capsuleMesh
    rw [if_pos h]
  · intro h
    unfold capsuleMesh
    rw [if_neg (not_lt.mpr h)]
    have hns : 2 ≤ (capsuleSizes r l).1 := le_trans (by norm_num) (le_max_right _ _)
    have hnc : 2 ≤ (capsuleSizes r l).2.1 := le_trans (by norm_num) (le_max_right _ _)
    have hco : 2 ≤ (capsuleSizes r l).2.2 := le_trans (by norm_num) (le_max_right _ _)
    generalize hsz : capsuleSizes r l = sz at hns hnc hco ⊢
    obtain ⟨ns, nc, cols⟩ := sz
    simp only at hns hnc hco ⊢
    refine ⟨_, rfl, ?_, ?_⟩
    · intro e
      have e' := congrArg List.length e
      simp only [List.length_flatMap, List.length_map, List.length_range, List.length_nil, List.map_const',
        List.sum_replicate, smul_eq_mul] at e'
      rcases Nat.mul_eq_zero.mp e' with e' | e' <;> omega
    · intro p hp
      simp only [List.mem_flatMap, List.mem_map, List.mem_range] at hp
      obtain ⟨row, hrow, col, -, rfl⟩ := hp
      unfold capsuleVert
      simp only
      generalize linspace 0 (2 * Real.pi) cols col + (if off = true then Real.pi / ↑cols * ↑row else 0) = φ
      have hφ := Real.sin_sq_add_cos_sq φ
      set d := l - 2 * r with hd
      have hd0 : 0 ≤ d := by linarith
      split
      · rename_i h1
        obtain ⟨t0, t1⟩ := linspace_mem (a := 0) (b := Real.pi / 2) (by positivity) hns h1
        generalize linspace 0 (Real.pi / 2) ns row = θ at t0 t1
        have hθ := Real.sin_sq_add_cos_sq θ
        have hc : 0 ≤ Real.cos θ := Real.cos_nonneg_of_mem_Icc ⟨by linarith, t1⟩
        have key : ∀ s : ℝ, (r * Real.cos θ + d / 2 - s) ^ 2 + (r * Real.cos φ * Real.sin θ) ^ 2 +
            (r * Real.sin φ * Real.sin θ) ^ 2 = r ^ 2 + (d / 2 - s) * (d / 2 - s + 2 * (r * Real.cos θ)) := by
          intro s
          linear_combination r ^ 2 * hθ + r ^ 2 * Real.sin θ ^ 2 * hφ
        refine ⟨⟨d / 2, by rw [abs_of_nonneg (by linarith)], by rw [key]; ring⟩, fun s hs => ?_⟩
        rw [key]
        have hs' := (abs_le.mp hs).2
        have := mul_nonneg (sub_nonneg.mpr hs') (add_nonneg (sub_nonneg.mpr hs') (mul_nonneg zero_le_two (mul_nonneg hr hc)))
        linarith
      · split
        · rename_i h1 h2
          obtain ⟨t0, t1⟩ := linspace_mem (a := -d / 2) (b := d / 2) (by linarith) hnc
            (show nc - 1 - (row - ns) < nc by omega)
          generalize linspace (-d / 2) (d / 2) nc (nc - 1 - (row - ns)) = x at t0 t1
          have key : ∀ s : ℝ, (x - s) ^ 2 + (r * Real.cos φ) ^ 2 + (r * Real.sin φ) ^ 2 = r ^ 2 + (x - s) ^ 2 := by
            intro s
            linear_combination r ^ 2 * hφ
          refine ⟨⟨x, abs_le.mpr ⟨by linarith, t1⟩, by rw [key]; ring⟩, fun s _ => ?_⟩
          rw [key]
          nlinarith [sq_nonneg (x - s)]
        · rename_i h1 h2
          obtain ⟨t0, t1⟩ := linspace_mem (a := Real.pi / 2) (b := Real.pi) (by linarith [Real.pi_pos]) hns
            (show row - (ns + nc) < ns by omega)
          generalize linspace (Real.pi / 2) Real.pi ns (row - (ns + nc)) = θ at t0 t1
          have hθ := Real.sin_sq_add_cos_sq θ
          have hc : Real.cos θ ≤ 0 := Real.cos_nonpos_of_pi_div_two_le_of_le t0 (by linarith [Real.pi_pos])
          have key : ∀ s : ℝ, (r * Real.cos θ - d / 2 - s) ^ 2 + (r * Real.cos φ * Real.sin θ) ^ 2 +
              (r * Real.sin φ * Real.sin θ) ^ 2 = r ^ 2 + (d / 2 + s) * (d / 2 + s + 2 * (r * -Real.cos θ)) := by
            intro s
            linear_combination r ^ 2 * hθ + r ^ 2 * Real.sin θ ^ 2 * hφ
          refine ⟨⟨-(d / 2), by rw [abs_neg, abs_of_nonneg (by linarith)], by rw [key]; ring⟩, fun s hs => ?_⟩
          rw [key]
          have hs' : 0 ≤ d / 2 + s := by linarith [(abs_le.mp hs).1]
          have := mul_nonneg hs' (add_nonneg hs' (mul_nonneg zero_le_two (mul_nonneg hr (neg_nonneg.mpr hc))))
          linarith

/-- C93: the first row of the mesh is the tip at `length / 2`, the last row the tip at `-length / 2`; the last column is
the first column again (so the column of triangles between them has no area). -/
theorem C93_capsule_ends {r l : ℝ} {ns nc cols : Nat} (hns : 2 ≤ ns) (hco : 2 ≤ cols) (off : Bool) (row col : Nat) :
    capsuleVert r l ns nc cols off 0 col = ⟨l / 2, 0, 0⟩ ∧
    capsuleVert r l ns nc cols off (2 * ns + nc - 1) col = ⟨-l / 2, 0, 0⟩ ∧
    capsuleVert r l ns nc cols off row (cols - 1) = capsuleVert r l ns nc cols off row 0 := by
  refine ⟨?_, ?_, ?_⟩
  · unfold capsuleVert
    simp only
    rw [if_pos (by omega), show linspace 0 (Real.pi / 2) ns 0 = 0 by simp [linspace]]
    ext <;> simp
    ring
  · unfold capsuleVert
    simp only
    rw [if_neg (by omega), if_neg (by omega), show 2 * ns + nc - 1 - (ns + nc) = ns - 1 by omega, linspace_last _ _ hns]
    ext <;> simp
    ring
  · unfold capsuleVert
    simp only
    rw [linspace_last _ _ hco, show linspace 0 (2 * Real.pi) cols 0 = 0 by simp [linspace]]
    have e : ∀ a : ℝ, Real.cos (2 * Real.pi + a) = Real.cos (0 + a) ∧ Real.sin (2 * Real.pi + a) = Real.sin (0 + a) := by
      intro a
      rw [add_comm, zero_add]
      exact ⟨Real.cos_add_two_pi a, Real.sin_add_two_pi a⟩
    rw [(e _).1, (e _).2]

/-- C93: the triangles of the mesh use vertices of the mesh, of two neighbouring rows. -/
theorem C93_capsule_faces {cols row col : Nat} (hco : 0 < cols) :
    ∀ f ∈ capsuleFaces cols row col, f.length = 3 ∧ ∀ v ∈ f, (v.1 = row ∨ v.1 = row + 1) ∧ v.2 < cols := by
  intro f hf
  simp only [capsuleFaces, List.mem_cons, List.not_mem_nil, or_false] at hf
  rcases hf with rfl | rfl <;>
    simp [Nat.mod_lt _ hco]

/-- C93, what fails: with vispy the length of a capsule is the total length, in the inertia and in MuJoCo the length of
its cylinder: the tip of the solid is not reached by any vertex, and a capsule whose cylinder is shorter than two radii
(a legal geometry) cannot be drawn at all. -/
theorem C93_capsule_length_fails {r l : ℝ} (hr : 0 < r) (hl : 0 ≤ l) (off : Bool) :
    solid (.capsule r l) ⟨l / 2 + r, 0, 0⟩ ∧
    (∀ vs, capsuleMesh r l off = .ok vs → ∀ p ∈ vs, p.x < l / 2 + r) ∧
    (l < 2 * r → capsuleMesh r l off = .error .value) := by
  obtain ⟨h1, h2⟩ := C93_capsule_surface (l := l) hr.le off
  refine ⟨⟨l / 2, by rw [abs_of_nonneg (by linarith)], ?_⟩, ?_, h1⟩
  · simp
  · intro vs hvs p hp
    rcases lt_or_ge l (2 * r) with h | h
    · rw [h1 h] at hvs; cases hvs
    · obtain ⟨ws, e, -, h3⟩ := h2 h
      rw [hvs] at e
      injection e with e
      subst e
      obtain ⟨⟨s, hs, hs'⟩, -⟩ := h3 p hp
      have := (abs_le.mp hs).2
      have : (p.x - s) ^ 2 ≤ r ^ 2 := by nlinarith [sq_nonneg p.y, sq_nonneg p.z]
      have := (abs_le.mp (sq_le_sq.mp this)).2
      rw [abs_of_pos hr] at this
      linarith

/-! ## Coordinate systems -/

theorem unit_vector_axis : unit_vector 0 = Axis.x.unit ∧ unit_vector 1 = Axis.y.unit ∧ unit_vector 2 = Axis.z.unit := by
  refine ⟨?_, ?_, ?_⟩ <;> ext <;> simp [unit_vector, Axis.unit]

/-- C93: a coordinate system becomes three capsules; drawn by MuJoCo, capsule `i` is the set of points at most
`size / 7` away from the segment from the origin of the coordinate system to `size` along its axis `i`, red for x, green
for y, blue for z, attached to the same link. -/
theorem C93_xyz {xyz : Geom} (hu : xyz.transform.IsUnit) {size : ℝ} :
    ∃ cs, _xyz_to_three_capsules xyz size = cs ∧ cs.length = 3 ∧
    ∀ i (hi : i < cs.length),
      (cs[i]).link_idx = xyz.link_idx ∧ (cs[i]).color = .name (["red", "green", "blue"].getD i "") ∧
      (cs[i]).shape = .capsule (size / 7) size ∧
      ∀ p : Vec3 ℝ, mjSolid .capsule [size / 7, size / 2] ((cs[i]).transform.point p) ↔
        ∃ s, 0 ≤ s ∧ s ≤ size ∧
          let d := xyz.transform.point p - Vec3.smul s (unit_vector i)
          d.x ^ 2 + d.y ^ 2 + d.z ^ 2 ≤ (size / 7) ^ 2 := by
  refine ⟨_, rfl, by simp [_xyz_to_three_capsules], ?_⟩
  intro i hi
  have hi3 : i < 3 := by simpa [_xyz_to_three_capsules] using hi
  simp only [_xyz_to_three_capsules, List.getElem_map, List.getElem_range, true_and]
  intro p
  rw [(C18_point hu _ p).1]
  generalize xyz.transform.point p = q
  have key : ∀ (ax : Axis) (v : Vec3 ℝ), rotate v (quat_rot_axis ax.unit (Real.pi / 2)) =
      (axisMatrix ax (Real.pi / 2)).mulVec v := fun ax v => by
    rw [← C87_quat ax, to3x3_mulVec (rot_coord_unit ax _)]
  obtain ⟨u0, u1, u2⟩ := unit_vector_axis
  have conv : ∀ (P Q : ℝ → Prop), (∀ s, P s ↔ Q (s + size / 2)) →
      ((∃ s, |s| ≤ size / 2 ∧ P s) ↔ ∃ s, 0 ≤ s ∧ s ≤ size ∧ Q s) := by
    intro P Q h
    constructor
    · rintro ⟨s, a, b⟩
      rw [abs_le] at a
      exact ⟨_, by linarith, by linarith, (h s).mp b⟩
    · rintro ⟨s, a, b, c⟩
      exact ⟨s - size / 2, abs_le.mpr ⟨by linarith, by linarith⟩, (h _).mpr (by rw [sub_add_cancel]; exact c)⟩
  have conv' : ∀ (P Q : ℝ → Prop), (∀ s, P s ↔ Q (size / 2 - s)) →
      ((∃ s, |s| ≤ size / 2 ∧ P s) ↔ ∃ s, 0 ≤ s ∧ s ≤ size ∧ Q s) := by
    intro P Q h
    constructor
    · rintro ⟨s, a, b⟩
      rw [abs_le] at a
      exact ⟨_, by linarith, by linarith, (h s).mp b⟩
    · rintro ⟨s, a, b, c⟩
      exact ⟨size / 2 - s, abs_le.mpr ⟨by linarith, by linarith⟩, (h _).mpr (by rw [sub_sub_cancel]; exact c)⟩
  have e3 : i = 0 ∨ i = 1 ∨ i = 2 := by omega
  rcases e3 with rfl | rfl | rfl
  · simp only [List.getD_cons_zero]
    rw [u1, u0]
    unfold Transform.point mjSolid
    rw [key]
    apply conv
    intro s
    simp only [axisMatrix, spatial.ry, Mat3.mulVec, Axis.unit, Real.cos_pi_div_two, Real.sin_pi_div_two, Vec3.smul,
      Vec3.sub_x, Vec3.sub_y, Vec3.sub_z]
    constructor <;> intro h <;> nlinarith [h]
  · simp only [List.getD_cons_zero, List.getD_cons_succ]
    rw [u1, u0]
    unfold Transform.point mjSolid
    rw [key]
    apply conv'
    intro s
    simp only [axisMatrix, spatial.rx, Mat3.mulVec, Axis.unit, Real.cos_pi_div_two, Real.sin_pi_div_two, Vec3.smul,
      Vec3.sub_x, Vec3.sub_y, Vec3.sub_z]
    constructor <;> intro h <;> nlinarith [h]
  · simp only [List.getD_cons_zero, List.getD_cons_succ]
    rw [u2]
    unfold Transform.point mjSolid
    rw [key]
    apply conv
    intro s
    simp only [axisMatrix, spatial.rz, Mat3.mulVec, Axis.unit, Real.cos_pi_div_two, Real.sin_pi_div_two, Vec3.smul,
      Vec3.sub_x, Vec3.sub_y, Vec3.sub_z]
    constructor <;> intro h <;> nlinarith [h]

/-- C93: nothing else of the geometries changes: the list is the concatenation of the capsules of the coordinate systems
and of the other geometries, in order, and no coordinate system is left. -/
theorem C93_replace (gs : List Geom) :
    _replace_xyz_geoms gs = gs.flatMap (fun g =>
      match g.shape with
      | .xyz size => _xyz_to_three_capsules g size
      | _ => [g]) ∧
    ∀ g ∈ _replace_xyz_geoms gs, ∀ s, g.shape ≠ .xyz s := by
  induction gs with
  | nil => simp [_replace_xyz_geoms]
  | cons g gs ih =>
    unfold _replace_xyz_geoms
    rw [List.flatMap_cons, ← ih.1]
    cases hs : g.shape <;> simp only [List.cons_append, List.nil_append, true_and]
    · intro k hk s
      rcases List.mem_append.mp hk with hk | hk
      · simp only [_xyz_to_three_capsules, List.mem_map] at hk
        obtain ⟨i, -, rfl⟩ := hk
        simp
      · exact ih.2 k hk s
    all_goals
      intro k hk s
      rcases List.mem_cons.mp hk with rfl | hk
      · rw [hs]; simp
      · exact ih.2 k hk s

/-! ## Colours -/

/-- C93: every name of a colour stands for four numbers between 0 and 1, no colour for the one of the name `self`; a
tuple of three numbers gets the opacity 1, any other tuple is kept; an unknown name is a `KeyError`. -/
theorem C93_color :
    (∀ s, s ∈ _rgbas.map Prod.fst → ∃ l, _color_to_rgba (.name s) = .ok l ∧ l.length = 4 ∧ ∀ v ∈ l, 0 ≤ v ∧ v ≤ 1) ∧
    (∀ s, s ∉ _rgbas.map Prod.fst → _color_to_rgba (.name s) = .error .key) ∧
    _color_to_rgba .none = _color_to_rgba (.name "self") ∧
    (∀ a b c, _color_to_rgba (.tuple [a, b, c]) = .ok [a, b, c, 1]) ∧
    (∀ l, l.length ≠ 3 → _color_to_rgba (.tuple l) = .ok l) := by
  refine ⟨?_, ?_, rfl, ?_, ?_⟩
  · intro s hs
    have hall : ∀ e ∈ _rgbas, e.2.length = 4 ∧ ∀ v ∈ e.2, 0 ≤ v ∧ v ≤ 1 := by
      unfold _rgbas
      simp only [List.forall_mem_cons, List.not_mem_nil, IsEmpty.forall_iff, implies_true, and_true, List.length_cons,
        List.length_nil]
      norm_num
    show ∃ l, pyDict _rgbas s = .ok l ∧ _
    unfold pyDict
    cases hl : _rgbas.lookup s with
    | none =>
      rw [List.lookup_eq_none_iff] at hl
      obtain ⟨e, he, rfl⟩ := List.mem_map.mp hs
      simpa using hl e he
    | some l =>
      obtain ⟨a, b, e, -⟩ := List.lookup_eq_some_iff.mp hl
      have hm : (s, l) ∈ _rgbas := by rw [e]; simp
      exact ⟨l, rfl, hall _ hm⟩
  · intro s hs
    show pyDict _rgbas s = _
    unfold pyDict
    have : _rgbas.lookup s = none := by
      rw [List.lookup_eq_none_iff]
      intro e he
      simp only [bne_iff_ne, ne_eq]
      rintro rfl
      exact hs (List.mem_map_of_mem he)
    rw [this]
  · intro a b c
    norm_num [_color_to_rgba]
  · intro l hl
    simp [_color_to_rgba, hl]

/-! ## Bodies, cameras and lights -/

theorem group_eq {β : Type} : ∀ (items : List (Int × β)) (parent : Int) (groups : List (Int × List β)),
    (∀ e ∈ items, parent ≤ e.1) → items.Pairwise (fun a b => a.1 ≤ b.1) →
    group parent groups items =
      .ok (groups.map fun p => (p.1, p.2 ++ (items.filter fun e => e.1 = p.1).map Prod.snd))
  | [], parent, groups, _, _ => by simp [group]
  | (i, g) :: rest, parent, groups, h1, h2 => by
    unfold group
    rw [if_pos (h1 _ List.mem_cons_self)]
    rw [group_eq rest i _ (fun e he => (List.pairwise_cons.mp h2).1 e he) (List.pairwise_cons.mp h2).2]
    congr 1
    rw [List.map_map]
    apply List.map_congr_left
    intro p _
    by_cases hp : p.1 = i
    · simp [hp]
    · simp [hp, Ne.symm hp]

/-- C93: the sort keeps the geometries of one link in their order. -/
theorem sort_filter (gs : List (Geom × List ℝ)) (k : Int) :
    (gs.mergeSort fun a b => decide (a.1.link_idx ≤ b.1.link_idx)).filter (fun g => g.1.link_idx = k) =
      gs.filter (fun g => g.1.link_idx = k) := by
  set le : Geom × List ℝ → Geom × List ℝ → Bool := fun a b => decide (a.1.link_idx ≤ b.1.link_idx) with hle
  have hsub : (gs.filter (fun g => g.1.link_idx = k)).Sublist (gs.mergeSort le) := by
    apply List.sublist_mergeSort
    · intro a b c; simp [hle]; exact le_trans
    · intro a b; simp [hle]; exact le_total _ _
    · rw [List.pairwise_iff_forall_sublist]
      intro a b hab
      have ha : a ∈ gs.filter (fun g => g.1.link_idx = k) := hab.subset (by simp)
      have hb : b ∈ gs.filter (fun g => g.1.link_idx = k) := hab.subset (by simp)
      simp at ha hb
      simp [hle, ha.2, hb.2]
    · exact List.filter_sublist
  have h2 := hsub.filter (fun g => decide (g.1.link_idx = k))
  rw [List.filter_filter] at h2
  simp only [Bool.and_self] at h2
  exact (h2.eq_of_length (((List.mergeSort_perm gs le).filter _).length_eq).symm).symm

theorem mapM_ok {α β : Type} {f : α → Py β} : ∀ {l : List α} {r : List β}, l.mapM f = .ok r → List.Forall₂ (fun a b => f a = .ok b) l r
  | [], r, h => by
    simp [pure, Except.pure] at h
    subst h
    exact .nil
  | a :: l, r, h => by
    rw [List.mapM_cons] at h
    cases ha : f a with
    | error e => simp [ha, bind, Except.bind] at h
    | ok b =>
      cases hl : l.mapM f with
      | error e => simp [ha, hl, bind, Except.bind] at h
      | ok bs =>
        simp [ha, hl, bind, Except.bind, pure, Except.pure] at h
        subst h
        exact .cons ha (mapM_ok hl)

/-- what a model consists of -/
theorem build_ok {gs : List (Geom × List ℝ)} {cameras lights : List (Int × List String)} {m : MjModel}
    (h : _build_model_of_geoms gs cameras lights = .ok m) (h1 : ∀ g ∈ gs, -1 ≤ g.1.link_idx) :
    ∃ up : List Int, up.Nodup ∧ (∀ k, k ∈ up ↔ ∃ g ∈ gs, g.1.link_idx = k) ∧
      attachToWorld up cameras = .ok m.worldCameras ∧ attachToWorld up lights = .ok m.worldLights ∧
      m.target = targetbody up ∧
      List.Forall₂ (fun k b => _xml_str_one_body k (gs.filter fun g => g.1.link_idx = k) (find cameras k) (find lights k)
        = .ok b) up m.bodies := by
  unfold _build_model_of_geoms at h
  simp only at h
  set sorted := gs.mergeSort fun a b => decide (a.1.link_idx ≤ b.1.link_idx) with hsort
  set up := (sorted.map fun g => g.1.link_idx).dedup with hup
  have hmem : ∀ g, g ∈ sorted ↔ g ∈ gs := fun g => (List.mergeSort_perm gs _).mem_iff
  cases hc : attachToWorld up cameras with
  | error e => simp [hc, bind, Except.bind] at h
  | ok wc =>
  cases hl : attachToWorld up lights with
  | error e => simp [hc, hl, bind, Except.bind] at h
  | ok wl =>
  have hg := group_eq (sorted.map fun g => (g.1.link_idx, g)) (-1) (up.map fun p => (p, []))
    (by
      intro e he
      obtain ⟨g, hg, rfl⟩ := List.mem_map.mp he
      exact h1 g ((hmem g).mp hg))
    (by
      rw [List.pairwise_map]
      have := List.pairwise_mergeSort (le := fun a b : Geom × List ℝ => decide (a.1.link_idx ≤ b.1.link_idx))
        (by intro a b c; simp; exact le_trans) (by intro a b; simp; exact le_total _ _) gs
      exact this.imp (by simp))
  simp only [hc, hl, hg, bind, Except.bind] at h
  split at h
  · cases h
  · rename_i bs hb
    simp only [pure, Except.pure, Except.ok.injEq] at h
    subst h
    refine ⟨up, List.nodup_dedup _, ?_, hc, hl, rfl, ?_⟩
    · intro k
      rw [hup, List.mem_dedup, List.mem_map]
      constructor
      · rintro ⟨g, a, b⟩; exact ⟨g, (hmem g).mp a, b⟩
      · rintro ⟨g, a, b⟩; exact ⟨g, (hmem g).mpr a, b⟩
    · have := mapM_ok hb
      rw [List.map_map, List.forall₂_map_left_iff] at this
      refine this.imp ?_
      intro k b hk
      simp only [Function.comp, List.nil_append] at hk
      rw [List.filter_map, List.map_map] at hk
      have e : (Prod.snd ∘ fun g : Geom × List ℝ => (g.1.link_idx, g)) = id := rfl
      rw [e, List.map_id] at hk
      rw [← sort_filter gs k]
      exact hk

theorem body_ok {k : Int} {gs : List (Geom × List ℝ)} {c l : List String} {b : MjBody}
    (h : _xml_str_one_body k gs c l = .ok b) :
    b.name = k ∧ b.cameras = c ∧ b.lights = l ∧ List.Forall₂ (fun g m => _xml_str_one_geom g.1 g.2 = .ok m) gs b.geoms := by
  unfold _xml_str_one_body at h
  cases hm : gs.mapM fun g => _xml_str_one_geom g.1 g.2 with
  | error e => simp [hm, bind, Except.bind] at h
  | ok ms =>
    simp [hm, bind, Except.bind, pure, Except.pure] at h
    subst h
    exact ⟨rfl, rfl, rfl, mapM_ok hm⟩

/-- C93: in a model for MuJoCo, every link that has a geometry (and no other) has exactly one body, with its number as the
name; the body has the geometries of the link and no others, in their order. -/
theorem C93_bodies {gs : List (Geom × List ℝ)} {cameras lights : List (Int × List String)} {m : MjModel}
    (h : _build_model_of_geoms gs cameras lights = .ok m) (h1 : ∀ g ∈ gs, -1 ≤ g.1.link_idx) :
    (m.bodies.map (·.name)).Nodup ∧ (∀ k, k ∈ m.bodies.map (·.name) ↔ ∃ g ∈ gs, g.1.link_idx = k) ∧
    ∀ b ∈ m.bodies, List.Forall₂ (fun g e => _xml_str_one_geom g.1 g.2 = .ok e)
      (gs.filter fun g => g.1.link_idx = b.name) b.geoms := by
  obtain ⟨up, hnd, hup, -, -, -, hb⟩ := build_ok h h1
  have hn : m.bodies.map (·.name) = up := by
    clear hnd hup
    generalize m.bodies = bs at hb ⊢
    induction hb with
    | nil => rfl
    | cons h _ ih => rw [List.map_cons, ih, (body_ok h).1]
  refine ⟨hn ▸ hnd, fun k => hn ▸ hup k, ?_⟩
  intro b hb'
  clear hnd hup hn
  generalize m.bodies = bs at hb hb'
  induction hb with
  | nil => cases hb'
  | cons h _ ih =>
    rcases List.mem_cons.mp hb' with rfl | hb'
    · have := body_ok h
      rw [this.1]
      exact this.2.2.2
    · exact ih hb'

theorem attach_ok {up : List Int} : ∀ {l : List (Int × List String)} {w : List String}, attachToWorld up l = .ok w →
    w = (if (-1 : Int) ∈ up then [] else (l.filter fun e => e.1 = -1).flatMap Prod.snd) ∧
    ∀ e ∈ l, e.1 = -1 ∨ e.1 ∈ up
  | [], w, h => by
    simp [attachToWorld] at h
    subst h
    simp
  | (k, s) :: l, w, h => by
    unfold attachToWorld at h
    split at h
    · rename_i hk
      cases hr : attachToWorld up l with
      | error e => simp [hr, bind, Except.bind] at h
      | ok r =>
        simp [hr, bind, Except.bind, pure, Except.pure] at h
        subst h
        obtain ⟨ih1, ih2⟩ := attach_ok hr
        rw [if_neg hk.1] at ih1 ⊢
        refine ⟨by simp [hk.2, ih1], ?_⟩
        intro e he
        rcases List.mem_cons.mp he with rfl | he
        · exact .inl hk.2
        · exact ih2 e he
    · rename_i hk
      by_cases hm : k ∈ up
      · simp [pyAssert, hm, bind, Except.bind] at h
        obtain ⟨ih1, ih2⟩ := attach_ok h
        refine ⟨?_, ?_⟩
        · rw [ih1]
          by_cases h1 : (-1 : Int) ∈ up
          · simp [h1]
          · have : k ≠ -1 := fun e => h1 (e ▸ hm)
            simp [h1, this]
        · intro e he
          rcases List.mem_cons.mp he with rfl | he
          · exact .inr hm
          · exact ih2 e he
      · simp [pyAssert, hm, bind, Except.bind] at h

/-- C93: cameras (and likewise lights) are attached to the body of their link; those of the world to its body or, when
the world has no geometry, directly to the world. A link without a geometry has no camera. -/
theorem C93_cameras {gs : List (Geom × List ℝ)} {cameras lights : List (Int × List String)} {m : MjModel}
    (h : _build_model_of_geoms gs cameras lights = .ok m) (h1 : ∀ g ∈ gs, -1 ≤ g.1.link_idx)
    (hc : (cameras.map Prod.fst).Nodup) (hl : (lights.map Prod.fst).Nodup) :
    (∀ k s, (k, s) ∈ cameras → (∃ b ∈ m.bodies, b.name = k ∧ b.cameras = s) ∨ (k = -1 ∧ m.worldCameras = s)) ∧
    (∀ k s, (k, s) ∈ lights → (∃ b ∈ m.bodies, b.name = k ∧ b.lights = s) ∨ (k = -1 ∧ m.worldLights = s)) ∧
    (∀ b ∈ m.bodies, b.name ∉ cameras.map Prod.fst → b.cameras = []) := by
  obtain ⟨up, hnd, hup, hwc, hwl, -, hb⟩ := build_ok h h1
  have look : ∀ {l : List (Int × List String)}, (l.map Prod.fst).Nodup → ∀ {k s}, (k, s) ∈ l →
      find l k = s ∧ (l.filter fun e => e.1 = k).flatMap Prod.snd = s := by
    intro l
    induction l with
    | nil => intro _ k s h; cases h
    | cons e l ih =>
      intro hn k s hks
      obtain ⟨k', s'⟩ := e
      simp only [List.map_cons, List.nodup_cons] at hn
      rcases List.mem_cons.mp hks with e | hks
      · injection e with e1 e2
        subst e1; subst e2
        refine ⟨by simp [find], ?_⟩
        have : l.filter (fun e => e.1 = k) = [] := by
          rw [List.filter_eq_nil_iff]
          intro a ha
          simp only [decide_eq_true_eq]
          rintro rfl
          exact hn.1 (List.mem_map_of_mem ha)
        simp [this]
      · have hne : k' ≠ k := by
          rintro rfl
          exact hn.1 (List.mem_map_of_mem (f := Prod.fst) hks)
        obtain ⟨i1, i2⟩ := ih hn.2 hks
        refine ⟨?_, by simp [hne]; simpa using i2⟩
        unfold find at i1 ⊢
        rw [List.lookup_cons, show (k == k') = false by simpa using hne.symm]
        exact i1
  have getb : ∀ k ∈ up, ∃ b ∈ m.bodies, b.name = k ∧ b.cameras = find cameras k ∧ b.lights = find lights k := by
    clear hnd hup hwc hwl
    generalize m.bodies = bs at hb ⊢
    induction hb with
    | nil => intro k hk; cases hk
    | cons h _ ih =>
      intro k hk
      rcases List.mem_cons.mp hk with rfl | hk
      · have := body_ok h
        exact ⟨_, List.mem_cons_self, this.1, this.2.1, this.2.2.1⟩
      · obtain ⟨b, hb, e⟩ := ih k hk
        exact ⟨b, List.mem_cons_of_mem _ hb, e⟩
  refine ⟨?_, ?_, ?_⟩
  · intro k s hks
    obtain ⟨e1, e2⟩ := look hc hks
    obtain ⟨a1, a2⟩ := attach_ok hwc
    by_cases hk : k ∈ up
    · obtain ⟨b, hb, b1, b2, -⟩ := getb k hk
      exact .inl ⟨b, hb, b1, b2.trans e1⟩
    · have hk1 : k = -1 := (a2 _ hks).resolve_right hk
      subst hk1
      rw [if_neg hk, e2] at a1
      exact .inr ⟨rfl, a1⟩
  · intro k s hks
    obtain ⟨e1, e2⟩ := look hl hks
    obtain ⟨a1, a2⟩ := attach_ok hwl
    by_cases hk : k ∈ up
    · obtain ⟨b, hb, b1, -, b2⟩ := getb k hk
      exact .inl ⟨b, hb, b1, b2.trans e1⟩
    · have hk1 : k = -1 := (a2 _ hks).resolve_right hk
      subst hk1
      rw [if_neg hk, e2] at a1
      exact .inr ⟨rfl, a1⟩
  · intro b hb' hn
    clear hnd hup hwc hwl getb
    generalize m.bodies = bs at hb hb'
    induction hb with
    | nil => cases hb'
    | cons h _ ih =>
      rcases List.mem_cons.mp hb' with rfl | hb'
      · have := body_ok h
        rw [this.2.1, ← this.1]
        unfold find
        have e : cameras.lookup b.name = none := by
          rw [List.lookup_eq_none_iff]
          intro e he
          simp only [bne_iff_ne, ne_eq]
          intro e'
          exact hn (e' ▸ List.mem_map_of_mem he)
        rw [e]
        rfl
      · exact ih hb'

/-- C93: the cameras that follow a body follow the body of the least link that has a geometry; geometries of the world
count only when there are no others. -/
theorem C93_target {gs : List (Geom × List ℝ)} {cameras lights : List (Int × List String)} {m : MjModel}
    (h : _build_model_of_geoms gs cameras lights = .ok m) (h1 : ∀ g ∈ gs, -1 ≤ g.1.link_idx) :
    ((∃ g ∈ gs, g.1.link_idx ≠ -1) → m.target ≠ -1 ∧ m.target ∈ m.bodies.map (·.name) ∧
      ∀ g ∈ gs, g.1.link_idx ≠ -1 → m.target ≤ g.1.link_idx) ∧
    ((∀ g ∈ gs, g.1.link_idx = -1) → m.target = -1) := by
  obtain ⟨up, hnd, hup, -, -, ht, -⟩ := build_ok h h1
  have hbod := (C93_bodies h h1).2.1
  have hmin : ∀ (l : List Int) (p : Int), (l.foldl min p = p ∨ l.foldl min p ∈ l) ∧ l.foldl min p ≤ p ∧
      ∀ k ∈ l, l.foldl min p ≤ k := by
    intro l
    induction l with
    | nil => intro p; simp
    | cons a l ih =>
      intro p
      rw [List.foldl_cons]
      obtain ⟨i1, i2, i3⟩ := ih (min p a)
      refine ⟨?_, le_trans i2 (min_le_left _ _), ?_⟩
      · rcases i1 with i1 | i1
        · rcases min_choice p a with e | e
          · exact .inl (i1.trans e)
          · exact .inr (by rw [i1, e]; exact List.mem_cons_self)
        · exact .inr (List.mem_cons_of_mem _ i1)
      · intro k hk
        rcases List.mem_cons.mp hk with rfl | hk
        · exact le_trans i2 (min_le_right _ _)
        · exact i3 k hk
  rw [ht]
  unfold targetbody
  have hmem : ∀ k, k ∈ up.filter (· ≠ -1) ↔ (∃ g ∈ gs, g.1.link_idx = k) ∧ k ≠ -1 := by
    intro k
    rw [List.mem_filter, hup]
    simp
  cases hf : up.filter (· ≠ -1) with
  | nil =>
    rw [hf] at hmem
    refine ⟨?_, fun _ => rfl⟩
    rintro ⟨g, hg, hne⟩
    have := (hmem g.1.link_idx).mpr ⟨⟨g, hg, rfl⟩, hne⟩
    cases this
  | cons p ps =>
    rw [hf] at hmem
    obtain ⟨i1, i2, i3⟩ := hmin ps p
    have hin : ps.foldl min p ∈ p :: ps := by
      rcases i1 with i1 | i1
      · rw [i1]; exact List.mem_cons_self
      · exact List.mem_cons_of_mem _ i1
    obtain ⟨j1, j2⟩ := (hmem _).mp hin
    refine ⟨fun _ => ⟨j2, (hbod _).mpr j1, ?_⟩, ?_⟩
    · intro g hg hne
      have := (hmem g.1.link_idx).mpr ⟨⟨g, hg, rfl⟩, hne⟩
      rcases List.mem_cons.mp this with e | e
      · show ps.foldl min p ≤ _
        rw [e]; exact i2
      · exact i3 _ e
    · intro hall
      obtain ⟨⟨g, hg, e⟩, hne⟩ := (hmem p).mp List.mem_cons_self
      exact absurd (e ▸ hall g hg) hne

/-- two links, of which the second has two geometries, and a camera that looks at the second -/
noncomputable def exampleGeoms : List (Geom × List ℝ) :=
  [(⟨1, ⟨0, ⟨1, 0, 0, 0⟩⟩, 1, .sphere 1, .none⟩, []), (⟨1, ⟨0, ⟨1, 0, 0, 0⟩⟩, 0, .box 1 2 3, .none⟩, []),
   (⟨1, ⟨0, ⟨1, 0, 0, 0⟩⟩, 1, .cylinder 1 2, .none⟩, [])]

example : ∃ m, _build_model_of_geoms exampleGeoms [(1, ["cam"])] [(-1, ["light"])] = .ok m := by
  refine ⟨?_, ?_⟩
  rotate_left
  · simp [_build_model_of_geoms, exampleGeoms, List.mergeSort, List.MergeSort.Internal.splitInTwo, List.merge,
      attachToWorld, group, _xml_str_one_body, _xml_str_one_geom, pyAssert, bind, Except.bind, pure, Except.pure]
    rfl

/-- C93, what fails: a system without geometries is given cameras that follow a body that does not exist (MuJoCo refuses
such a model). -/
theorem C93_no_geoms_fails : ∃ m, _build_model_of_geoms [] [] [(-1, ["light"])] = .ok m ∧
    m.target ∉ m.bodies.map (·.name) := by
  refine ⟨⟨[], ["light"], [], -1⟩, ?_, by simp⟩
  simp [_build_model_of_geoms, attachToWorld, group, targetbody, bind, Except.bind, pure, Except.pure]

end RingLib.rendering
