import Mathlib.Analysis.SpecialFunctions.Integrals.Basic
import Verif.Props.Inertia

/-!
# C21: the inertia tensors of the geometries are those of homogeneous solid bodies

The specification is the definition of the inertia tensor as an integral over the body. A box is
integrated in cartesian coordinates; bodies of revolution about the x axis in cylindrical ones
(`y = s cos θ`, `z = s sin θ`, volume element `s`).
-/

namespace RingLib
open Real intervalIntegral

/-! ## Specification -/

/-- integral over the centred box -/
noncomputable def boxInt (a b c : ℝ) (f : ℝ → ℝ → ℝ → ℝ) : ℝ :=
  ∫ x in (-(a / 2))..(a / 2), ∫ y in (-(b / 2))..(b / 2), ∫ z in (-(c / 2))..(c / 2), f x y z

/-- integral over the body of revolution about the x axis between `a` and `b` whose radius at `x`
is the square root of `r2 x` -/
noncomputable def revInt (a b : ℝ) (r2 : ℝ → ℝ) (f : ℝ → ℝ → ℝ → ℝ) : ℝ :=
  ∫ x in a..b, ∫ s in (0 : ℝ)..√(r2 x), ∫ θ in (0 : ℝ)..(2 * π),
    f x (s * cos θ) (s * sin θ) * s

/-- the inertia tensor (about the origin) of a body of mass `m` that is homogeneously distributed
over the domain of the integral `I` -/
noncomputable def solidInertia (m : ℝ) (I : (ℝ → ℝ → ℝ → ℝ) → ℝ) : Mat3 ℝ :=
  let ρ := m / I fun _ _ _ => 1
  let xx := ρ * I fun _ y z => y ^ 2 + z ^ 2
  let yy := ρ * I fun x _ z => x ^ 2 + z ^ 2
  let zz := ρ * I fun x y _ => x ^ 2 + y ^ 2
  let xy := ρ * I fun x y _ => -(x * y)
  let xz := ρ * I fun x _ z => -(x * z)
  let yz := ρ * I fun _ y z => -(y * z)
  ⟨xx, xy, xz, xy, yy, yz, xz, yz, zz⟩

/-! ## Integrals of polynomials -/

theorem int_lin (a b k u : ℝ) :
    ∫ x in a..b, (k + u * x) = k * (b - a) + u * (b ^ 2 - a ^ 2) / 2 := by
  rw [integral_add (Continuous.intervalIntegrable (by fun_prop) _ _)
    (Continuous.intervalIntegrable (by fun_prop) _ _), integral_const, integral_const_mul,
    integral_id]
  simp only [smul_eq_mul]
  ring

theorem int_sq (a b k l : ℝ) :
    ∫ x in a..b, (k + l * x ^ 2) = k * (b - a) + l * (b ^ 3 - a ^ 3) / 3 := by
  rw [integral_add (Continuous.intervalIntegrable (by fun_prop) _ _)
    (Continuous.intervalIntegrable (by fun_prop) _ _), integral_const, integral_const_mul,
    integral_pow]
  simp only [smul_eq_mul]
  push_cast
  ring

theorem int_quartic (a b k l n : ℝ) :
    ∫ x in a..b, (k + l * x ^ 2 + n * x ^ 4) =
      k * (b - a) + l * (b ^ 3 - a ^ 3) / 3 + n * (b ^ 5 - a ^ 5) / 5 := by
  rw [integral_add (Continuous.intervalIntegrable (by fun_prop) _ _)
    (Continuous.intervalIntegrable (by fun_prop) _ _), int_sq, integral_const_mul, integral_pow]
  push_cast
  ring

theorem int_cubic (a b k l : ℝ) :
    ∫ x in a..b, (k * x + l * x ^ 3) =
      k * (b ^ 2 - a ^ 2) / 2 + l * (b ^ 4 - a ^ 4) / 4 := by
  rw [integral_add (Continuous.intervalIntegrable (by fun_prop) _ _)
    (Continuous.intervalIntegrable (by fun_prop) _ _), integral_const_mul, integral_const_mul,
    integral_id, integral_pow]
  push_cast
  ring

/-- a general polynomial of degree four -/
theorem int_poly4 (a b k0 k1 k2 k3 k4 : ℝ) :
    ∫ x in a..b, (k0 + k1 * x + k2 * x ^ 2 + k3 * x ^ 3 + k4 * x ^ 4) =
      k0 * (b - a) + k1 * (b ^ 2 - a ^ 2) / 2 + k2 * (b ^ 3 - a ^ 3) / 3 +
        k3 * (b ^ 4 - a ^ 4) / 4 + k4 * (b ^ 5 - a ^ 5) / 5 := by
  have : (fun x : ℝ => k0 + k1 * x + k2 * x ^ 2 + k3 * x ^ 3 + k4 * x ^ 4) =
      fun x => (k0 + k2 * x ^ 2 + k4 * x ^ 4) + (k1 * x + k3 * x ^ 3) := by funext x; ring
  rw [this, integral_add (Continuous.intervalIntegrable (by fun_prop) _ _)
    (Continuous.intervalIntegrable (by fun_prop) _ _), int_quartic, int_cubic]
  ring

/-! ## Box -/

theorem boxInt_poly (a b c k lx ly lz kxy kxz kyz : ℝ) :
    boxInt a b c (fun x y z => k + lx * x ^ 2 + ly * y ^ 2 + lz * z ^ 2 + kxy * (x * y) +
      kxz * (x * z) + kyz * (y * z)) =
      a * b * c * (k + lx * a ^ 2 / 12 + ly * b ^ 2 / 12 + lz * c ^ 2 / 12) := by
  unfold boxInt
  have e1 : ∀ x y : ℝ, (∫ z in (-(c / 2))..(c / 2), (k + lx * x ^ 2 + ly * y ^ 2 + lz * z ^ 2 +
      kxy * (x * y) + kxz * (x * z) + kyz * (y * z))) =
      ((k + lx * x ^ 2) * c + lz * c ^ 3 / 12) + (kxy * x * c) * y + (ly * c) * y ^ 2 + 0 * y ^ 3 +
        0 * y ^ 4 := by
    intro x y
    have := int_poly4 (-(c / 2)) (c / 2) (k + lx * x ^ 2 + ly * y ^ 2 + kxy * (x * y))
      (kxz * x + kyz * y) lz 0 0
    rw [show (fun z => k + lx * x ^ 2 + ly * y ^ 2 + lz * z ^ 2 +
      kxy * (x * y) + kxz * (x * z) + kyz * (y * z)) = (fun z : ℝ =>
        (k + lx * x ^ 2 + ly * y ^ 2 + kxy * (x * y)) + (kxz * x + kyz * y) * z + lz * z ^ 2 +
          0 * z ^ 3 + 0 * z ^ 4) from by funext z; ring, this]
    ring
  simp only [e1, int_poly4]
  rw [show (fun x : ℝ => ((k + lx * x ^ 2) * c + lz * c ^ 3 / 12) * (b / 2 - -(b / 2)) +
      kxy * x * c * ((b / 2) ^ 2 - (-(b / 2)) ^ 2) / 2 +
      ly * c * ((b / 2) ^ 3 - (-(b / 2)) ^ 3) / 3 + 0 * ((b / 2) ^ 4 - (-(b / 2)) ^ 4) / 4 +
      0 * ((b / 2) ^ 5 - (-(b / 2)) ^ 5) / 5) = fun x =>
        (k * b * c + lz * c ^ 3 * b / 12 + ly * c * b ^ 3 / 12) + 0 * x + (lx * c * b) * x ^ 2 +
          0 * x ^ 3 + 0 * x ^ 4 from by funext x; ring, int_poly4]
  ring

theorem solidInertia_congr {m : ℝ} {I : (ℝ → ℝ → ℝ → ℝ) → ℝ} {V A B C : ℝ}
    (h : ∀ k lx ly lz kxy kxz kyz : ℝ, I (fun x y z => k + lx * x ^ 2 + ly * y ^ 2 + lz * z ^ 2 +
      kxy * (x * y) + kxz * (x * z) + kyz * (y * z)) =
        V * k + A * lx + B * ly + C * lz) :
    solidInertia m I =
      Mat3.diag (m / V * (B + C)) (m / V * (A + C)) (m / V * (A + B)) := by
  have h1 : I (fun _ _ _ => 1) = V := by
    have := h 1 0 0 0 0 0 0
    simpa using this
  have h2 : I (fun _ y z => y ^ 2 + z ^ 2) = B + C := by
    have := h 0 0 1 1 0 0 0
    simpa using this
  have h3 : I (fun x _ z => x ^ 2 + z ^ 2) = A + C := by
    have := h 0 1 0 1 0 0 0
    simpa using this
  have h4 : I (fun x y _ => x ^ 2 + y ^ 2) = A + B := by
    have := h 0 1 1 0 0 0 0
    simpa using this
  have h5 : I (fun x y _ => -(x * y)) = 0 := by
    have := h 0 0 0 0 (-1) 0 0
    simpa using this
  have h6 : I (fun x _ z => -(x * z)) = 0 := by
    have := h 0 0 0 0 0 (-1) 0
    simpa using this
  have h7 : I (fun _ y z => -(y * z)) = 0 := by
    have := h 0 0 0 0 0 0 (-1)
    simpa using this
  unfold solidInertia
  simp only [h1, h2, h3, h4, h5, h6, h7, mul_zero]
  rfl

/-- C21: `Box.get_it_3x3` is the inertia tensor of the solid box. -/
theorem C21_box_solid {a b c : ℝ} (ha : a ≠ 0) (hb : b ≠ 0) (hc : c ≠ 0) (m : ℝ)
    (t : Transform ℝ) (i : Int) :
    Geometry.get_it_3x3 π ⟨m, t, i, .box a b c, none, none⟩ = solidInertia m (boxInt a b c) := by
  rw [solidInertia_congr (V := a * b * c) (A := a * b * c * (a ^ 2 / 12))
    (B := a * b * c * (b ^ 2 / 12)) (C := a * b * c * (c ^ 2 / 12))]
  · ext <;> simp only [Geometry.get_it_3x3, Mat3.smul, Mat3.diag, mul_zero] <;> field_simp
  · intro k lx ly lz kxy kxz kyz
    rw [boxInt_poly]
    ring

/-! ## Bodies of revolution -/

theorem theta_int (k l n u v w s : ℝ) :
    ∫ θ in (0 : ℝ)..(2 * π), (k + u * (s * cos θ) + v * (s * sin θ) + l * (s * cos θ) ^ 2 +
      n * (s * sin θ) ^ 2 + w * (s * cos θ * (s * sin θ))) * s =
      0 + (2 * π * k) * s + 0 * s ^ 2 + (l + n) * π * s ^ 3 + 0 * s ^ 4 := by
  have : (fun θ : ℝ => (k + u * (s * cos θ) + v * (s * sin θ) + l * (s * cos θ) ^ 2 +
      n * (s * sin θ) ^ 2 + w * (s * cos θ * (s * sin θ))) * s) = fun θ =>
      k * s + u * s ^ 2 * cos θ + v * s ^ 2 * sin θ + l * s ^ 3 * cos θ ^ 2 +
        n * s ^ 3 * sin θ ^ 2 + w * s ^ 3 * (sin θ * cos θ) := by funext θ; ring
  rw [this]
  have ci : ∀ {f : ℝ → ℝ}, Continuous f → IntervalIntegrable f MeasureTheory.volume 0 (2 * π) :=
    fun h => h.intervalIntegrable _ _
  rw [integral_add (ci (by fun_prop)) (ci (by fun_prop)),
    integral_add (ci (by fun_prop)) (ci (by fun_prop)),
    integral_add (ci (by fun_prop)) (ci (by fun_prop)),
    integral_add (ci (by fun_prop)) (ci (by fun_prop)),
    integral_add (ci (by fun_prop)) (ci (by fun_prop))]
  simp only [integral_const_mul, integral_const, integral_cos, integral_sin, integral_cos_sq,
    integral_sin_sq, integral_sin_mul_cos₁]
  simp
  ring

/-- the integral over the disc at `x` -/
theorem disc_int (R k l n u v w : ℝ) :
    ∫ s in (0 : ℝ)..R, ∫ θ in (0 : ℝ)..(2 * π), (k + u * (s * cos θ) + v * (s * sin θ) +
      l * (s * cos θ) ^ 2 + n * (s * sin θ) ^ 2 + w * (s * cos θ * (s * sin θ))) * s =
      π * k * R ^ 2 + π * (l + n) * (R ^ 2) ^ 2 / 4 := by
  simp only [theta_int, int_poly4]
  ring

/-- second moments of a body of revolution -/
theorem revInt_poly {a b : ℝ} {r2 : ℝ → ℝ} (hab : a ≤ b) (h : ∀ x, a ≤ x → x ≤ b → 0 ≤ r2 x)
    (k lx ly lz kxy kxz kyz : ℝ) :
    revInt a b r2 (fun x y z => k + lx * x ^ 2 + ly * y ^ 2 + lz * z ^ 2 + kxy * (x * y) +
      kxz * (x * z) + kyz * (y * z)) =
      ∫ x in a..b, (π * (k + lx * x ^ 2) * r2 x + π * (ly + lz) * r2 x ^ 2 / 4) := by
  unfold revInt
  apply integral_congr
  intro x hx
  rw [Set.uIcc_of_le hab] at hx
  have := disc_int (√(r2 x)) (k + lx * x ^ 2) ly lz (kxy * x) (kxz * x) kyz
  rw [sq_sqrt (h x hx.1 hx.2)] at this
  dsimp only
  rw [← this]
  congr 1
  funext s
  congr 1
  funext θ
  ring

/-- C21: `Sphere.get_it_3x3` is the inertia tensor of the solid ball. -/
theorem C21_sphere_solid {r : ℝ} (hr : 0 < r) (m : ℝ) (t : Transform ℝ) (i : Int) :
    Geometry.get_it_3x3 π ⟨m, t, i, .sphere r, none, none⟩ =
      solidInertia m (revInt (-r) r fun x => r ^ 2 - x ^ 2) := by
  have hpi := pi_pos
  rw [solidInertia_congr (V := 4 / 3 * π * r ^ 3) (A := 4 / 15 * π * r ^ 5)
    (B := 4 / 15 * π * r ^ 5) (C := 4 / 15 * π * r ^ 5)]
  · ext <;> simp only [Geometry.get_it_3x3, Mat3.smul, Mat3.diag, Mat3.eye, mul_zero, mul_one] <;>
      field_simp <;> ring
  · intro k lx ly lz kxy kxz kyz
    rw [revInt_poly (by linarith) (fun x h1 h2 => by nlinarith)]
    rw [show (fun x : ℝ => π * (k + lx * x ^ 2) * (r ^ 2 - x ^ 2) +
        π * (ly + lz) * (r ^ 2 - x ^ 2) ^ 2 / 4) = fun x =>
        (π * k * r ^ 2 + π * (ly + lz) * r ^ 4 / 4) + 0 * x +
          (π * lx * r ^ 2 - π * k - π * (ly + lz) * r ^ 2 / 2) * x ^ 2 + 0 * x ^ 3 +
          (π * (ly + lz) / 4 - π * lx) * x ^ 4 from by funext x; ring, int_poly4]
    ring

/-- C21: `Cylinder.get_it_3x3` is the inertia tensor of the solid cylinder about the x axis. -/
theorem C21_cylinder_solid {r d : ℝ} (hr : 0 < r) (hd : 0 < d) (m : ℝ) (t : Transform ℝ)
    (i : Int) :
    Geometry.get_it_3x3 π ⟨m, t, i, .cylinder r d, none, none⟩ =
      solidInertia m (revInt (-(d / 2)) (d / 2) fun _ => r ^ 2) := by
  have hpi := pi_pos
  rw [solidInertia_congr (V := π * r ^ 2 * d) (A := π * r ^ 2 * d ^ 3 / 12)
    (B := π * r ^ 4 * d / 4) (C := π * r ^ 4 * d / 4)]
  · ext <;> simp only [Geometry.get_it_3x3, Mat3.smul, Mat3.diag, mul_zero] <;>
      field_simp <;> ring
  · intro k lx ly lz kxy kxz kyz
    rw [revInt_poly (by linarith) (fun x _ _ => by positivity)]
    rw [show (fun x : ℝ => π * (k + lx * x ^ 2) * r ^ 2 + π * (ly + lz) * (r ^ 2) ^ 2 / 4) =
        fun x => (π * k * r ^ 2 + π * (ly + lz) * r ^ 4 / 4) + 0 * x + (π * lx * r ^ 2) * x ^ 2 +
          0 * x ^ 3 + 0 * x ^ 4 from by funext x; ring, int_poly4]
    ring

/-- integral over a capsule: two half balls and a cylinder -/
noncomputable def capsuleInt (r d : ℝ) (f : ℝ → ℝ → ℝ → ℝ) : ℝ :=
  revInt (-(d / 2) - r) (-(d / 2)) (fun x => r ^ 2 - (x + d / 2) ^ 2) f +
    revInt (-(d / 2)) (d / 2) (fun _ => r ^ 2) f +
    revInt (d / 2) (d / 2 + r) (fun x => r ^ 2 - (x - d / 2) ^ 2) f

/-- C21: `Capsule.get_it_3x3` is the inertia tensor of the solid capsule about the x axis. -/
theorem C21_capsule_solid {r d : ℝ} (hr : 0 < r) (hd : 0 < d) (m : ℝ) (t : Transform ℝ)
    (i : Int) :
    Geometry.get_it_3x3 π ⟨m, t, i, .capsule r d, none, none⟩ =
      solidInertia m (capsuleInt r d) := by
  have hpi := pi_pos
  have hv : 0 < π * r ^ 2 * d + 4 / 3 * π * r ^ 3 := by positivity
  rw [solidInertia_congr (V := π * r ^ 2 * d + 4 / 3 * π * r ^ 3)
    (A := π * r ^ 2 * d ^ 3 / 12 + π * (4 / 15 * r ^ 5 + r ^ 4 * d / 2 + r ^ 3 * d ^ 2 / 3))
    (B := π * r ^ 4 * d / 4 + 4 / 15 * π * r ^ 5) (C := π * r ^ 4 * d / 4 + 4 / 15 * π * r ^ 5)]
  · ext <;> simp only [Geometry.get_it_3x3, Mat3.smul, Mat3.diag, mul_zero] <;>
      field_simp <;> ring
  · intro k lx ly lz kxy kxz kyz
    unfold capsuleInt
    rw [revInt_poly (by linarith) (fun x h1 h2 => by nlinarith),
      revInt_poly (by linarith) (fun x _ _ => by positivity),
      revInt_poly (by linarith) (fun x h1 h2 => by nlinarith)]
    have side : ∀ c : ℝ, (fun x : ℝ => π * (k + lx * x ^ 2) * (r ^ 2 - (x + c) ^ 2) +
        π * (ly + lz) * (r ^ 2 - (x + c) ^ 2) ^ 2 / 4) = fun x =>
        (π * k * (r ^ 2 - c ^ 2) + π * (ly + lz) * (r ^ 2 - c ^ 2) ^ 2 / 4) +
        (-2 * π * k * c - π * (ly + lz) * c * (r ^ 2 - c ^ 2)) * x +
        (π * lx * (r ^ 2 - c ^ 2) - π * k + π * (ly + lz) * (4 * c ^ 2 - 2 * (r ^ 2 - c ^ 2)) / 4)
          * x ^ 2 +
        (-2 * π * lx * c + π * (ly + lz) * c) * x ^ 3 +
        (-π * lx + π * (ly + lz) / 4) * x ^ 4 := by intro c; funext x; ring
    have e3 := side (-(d / 2))
    simp only [← sub_eq_add_neg] at e3
    rw [side (d / 2), e3, show (fun x : ℝ => π * (k + lx * x ^ 2) * r ^ 2 +
        π * (ly + lz) * (r ^ 2) ^ 2 / 4) =
        fun x => (π * k * r ^ 2 + π * (ly + lz) * r ^ 4 / 4) + 0 * x + (π * lx * r ^ 2) * x ^ 2 +
          0 * x ^ 3 + 0 * x ^ 4 from by funext x; ring, int_poly4, int_poly4, int_poly4]
    ring

example : (Geometry.get_it_3x3 π ⟨6, .zero, 0, .box 1 2 3, none, none⟩).a00 = 13 / 2 := by
  norm_num [Geometry.get_it_3x3, Mat3.smul, Mat3.diag]

end RingLib
