import Mathlib.Analysis.Calculus.Deriv.Mul
import Mathlib.Analysis.SpecialFunctions.Trigonometric.Deriv
import Mathlib.Data.List.GetD
import Verif.Spec.Twist
import Verif.Props.Simulation

/-! # Joint axes as velocities of joint transforms -/

namespace RingLib
open maths jcalc algebra

/-! ## moving frames -/

/-- the quaternion `r` turns with the angular velocity `ω` -/
def QRate (r : ℝ → Quat ℝ) (ω : Vec3 ℝ) (t : ℝ) : Prop :=
  HasDerivAt (fun s => (r s).w) ((ω.x * (r t).x + ω.y * (r t).y + ω.z * (r t).z) / 2) t ∧
  HasDerivAt (fun s => (r s).x) (-(ω.x * (r t).w + ω.y * (r t).z - ω.z * (r t).y) / 2) t ∧
  HasDerivAt (fun s => (r s).y) (-(ω.y * (r t).w + ω.z * (r t).x - ω.x * (r t).z) / 2) t ∧
  HasDerivAt (fun s => (r s).z) (-(ω.z * (r t).w + ω.x * (r t).y - ω.y * (r t).x) / 2) t

theorem twist_of_rate {p : ℝ → Vec3 ℝ} {r : ℝ → Quat ℝ} {ω p' : Vec3 ℝ} {t : ℝ}
    (hr : QRate r ω t) (hp : Vec3.HasDeriv p p' t) :
    HasTwist (fun s => ⟨p s, r s⟩) ⟨ω, rotate p' (r t)⟩ t := by
  intro v
  obtain ⟨hw, hx, hy, hz⟩ := hr
  obtain ⟨p1, p2, p3⟩ := hp
  have d1 := p1.const_sub v.x
  have d2 := p2.const_sub v.y
  have d3 := p3.const_sub v.z
  simp only [Transform.point]
  refine ⟨?_, ?_, ?_⟩
  · simp only [rotate_x, Vec3.sub_x, Vec3.sub_y, Vec3.sub_z]
    have := ((((((hw.mul hw).add (hx.mul hx)).sub (hy.mul hy)).sub (hz.mul hz)).mul d1).add
      ((((hx.mul hy).sub (hw.mul hz)).const_mul 2).mul d2)).add
      ((((hx.mul hz).add (hw.mul hy)).const_mul 2).mul d3)
    refine this.congr_deriv ?_
    simp only [rotate_x, rotate_y, rotate_z, Vec3.neg_x, Vec3.add_x, Vec3.cross_x, Vec3.sub_x,
      Vec3.sub_y, Vec3.sub_z]
    simp
    ring
  · simp only [rotate_y, Vec3.sub_x, Vec3.sub_y, Vec3.sub_z]
    have := (((((hx.mul hy).add (hw.mul hz)).const_mul 2).mul d1).add
      (((((hw.mul hw).sub (hx.mul hx)).add (hy.mul hy)).sub (hz.mul hz)).mul d2)).add
      ((((hy.mul hz).sub (hw.mul hx)).const_mul 2).mul d3)
    refine this.congr_deriv ?_
    simp only [rotate_x, rotate_y, rotate_z, Vec3.neg_y, Vec3.add_y, Vec3.cross_y, Vec3.sub_x,
      Vec3.sub_y, Vec3.sub_z]
    simp
    ring
  · simp only [rotate_z, Vec3.sub_x, Vec3.sub_y, Vec3.sub_z]
    have := (((((hx.mul hz).sub (hw.mul hy)).const_mul 2).mul d1).add
      ((((hy.mul hz).add (hw.mul hx)).const_mul 2).mul d2)).add
      (((((hw.mul hw).sub (hx.mul hx)).sub (hy.mul hy)).add (hz.mul hz)).mul d3)
    refine this.congr_deriv ?_
    simp only [rotate_x, rotate_y, rotate_z, Vec3.neg_z, Vec3.add_z, Vec3.cross_z, Vec3.sub_x,
      Vec3.sub_y, Vec3.sub_z]
    simp
    ring

theorem twist_congr {T T' : ℝ → Transform ℝ} {m m' : Motion ℝ} {t : ℝ} (h : HasTwist T m t)
    (hT : ∀ s, T s = T' s) (hm : m = m') : HasTwist T' m' t := by
  rw [← hm, show T' = T from funext fun s => (hT s).symm]; exact h

/-- a frame has only one velocity -/
theorem twist_unique {T : ℝ → Transform ℝ} {m m' : Motion ℝ} {t : ℝ} (hu : (T t).IsUnit)
    (h : HasTwist T m t) (h' : HasTwist T m' t) : m = m' := by
  have key : ∀ c : Vec3 ℝ, m.vel + m.ang.cross c = m'.vel + m'.ang.cross c := by
    intro c
    obtain ⟨_, _, hc⟩ := C18_point hu (T t) c
    have e := h ((transform_inv (T t)).point c)
    have e' := h' ((transform_inv (T t)).point c)
    rw [hc] at e e'
    have := e.1.unique e'.1
    have h2 := e.2.1.unique e'.2.1
    have h3 := e.2.2.unique e'.2.2
    simp only [Vec3.neg_x, Vec3.neg_y, Vec3.neg_z, neg_inj] at this h2 h3
    exact Vec3.ext this h2 h3
  have k0 := key 0
  have kx := key ⟨1, 0, 0⟩
  have ky := key ⟨0, 1, 0⟩
  simp only [Vec3.ext_iff, Vec3.add_x, Vec3.add_y, Vec3.add_z, Vec3.cross_x, Vec3.cross_y,
    Vec3.cross_z, Vec3.zero_x, Vec3.zero_y, Vec3.zero_z] at k0 kx ky
  obtain ⟨a1, a2, a3⟩ := k0
  obtain ⟨b1, b2, b3⟩ := kx
  obtain ⟨c1, c2, c3⟩ := ky
  ext <;> simp at * <;> linarith

/-- a resting frame -/
theorem twist_const (T : Transform ℝ) (t : ℝ) : HasTwist (fun _ => T) ⟨0, 0⟩ t := by
  intro p
  refine ⟨?_, ?_, ?_⟩ <;> simpa using hasDerivAt_const _ _

/-- velocities of composed frames: velocity of the second plus the one of the first, seen from the
second -/
theorem twist_mul {A B : ℝ → Transform ℝ} {a b : Motion ℝ} {t : ℝ} (hA : HasTwist A a t)
    (hB : HasTwist B b t) (uA : ∀ s, (A s).IsUnit) (uB : (B t).IsUnit) :
    HasTwist (fun s => transform_mul (B s) (A s)) (b + transform_motion (B t) a) t := by
  intro p
  have e : ∀ s, (transform_mul (B s) (A s)).point p = (B s).point ((A s).point p) := fun s =>
    (C18_point (uA s) (B s) p).1
  have lin : ∀ (T : Transform ℝ) (c : Vec3 ℝ), T.point c = T.point 0 +
      .smul c.x (T.point ⟨1, 0, 0⟩ - T.point 0) + .smul c.y (T.point ⟨0, 1, 0⟩ - T.point 0) +
      .smul c.z (T.point ⟨0, 0, 1⟩ - T.point 0) := by
    intro T c
    ext <;> simp [Transform.point, rotate_x, rotate_y, rotate_z] <;> ring
  have hm : transform_motion (B t) a = ⟨rotate a.ang (B t).rot,
      rotate (a.vel - (B t).pos.cross a.ang) (B t).rot⟩ := by
    unfold transform_motion
    rw [show -((B t).pos.cross a.ang) + a.vel = a.vel - (B t).pos.cross a.ang by abel]
  have hc := cross_rotate_unit (q := (B t).rot) uB
  set c := (A t).point p with hcdef
  obtain ⟨c1, c2, c3⟩ := hA p
  obtain ⟨o1, o2, o3⟩ := hB 0
  obtain ⟨x1, x2, x3⟩ := hB ⟨1, 0, 0⟩
  obtain ⟨y1, y2, y3⟩ := hB ⟨0, 1, 0⟩
  obtain ⟨z1, z2, z3⟩ := hB ⟨0, 0, 1⟩
  have tgt : -((b + transform_motion (B t) a).vel + (b + transform_motion (B t) a).ang.cross
      ((B t).point c)) = -(b.vel + b.ang.cross ((B t).point c)) -
        rotate (a.vel + a.ang.cross c) (B t).rot := by
    have h1 : (B t).point c = rotate (c - (B t).pos) (B t).rot := rfl
    have h2 : (rotate a.ang (B t).rot).cross ((B t).point c) =
        rotate (a.ang.cross (c - (B t).pos)) (B t).rot := by rw [h1, hc]
    have h3 : (b + transform_motion (B t) a).ang.cross ((B t).point c) =
        b.ang.cross ((B t).point c) + rotate (a.ang.cross (c - (B t).pos)) (B t).rot := by
      rw [← h2, hm]
      ext <;> simp <;> ring
    have h4 : (b + transform_motion (B t) a).vel = b.vel +
        rotate (a.vel - (B t).pos.cross a.ang) (B t).rot := by rw [hm]; rfl
    rw [h3, h4]
    have h5 : rotate (a.vel - (B t).pos.cross a.ang) (B t).rot +
        rotate (a.ang.cross (c - (B t).pos)) (B t).rot = rotate (a.vel + a.ang.cross c) (B t).rot := by
      rw [← rotate_add]
      congr 1
      ext <;> simp <;> ring
    rw [← h5]
    abel
  simp only [e]
  rw [tgt]
  have hrot : rotate (a.vel + a.ang.cross c) (B t).rot =
      .smul (a.vel + a.ang.cross c).x ((B t).point ⟨1, 0, 0⟩ - (B t).point 0) +
      .smul (a.vel + a.ang.cross c).y ((B t).point ⟨0, 1, 0⟩ - (B t).point 0) +
      .smul (a.vel + a.ang.cross c).z ((B t).point ⟨0, 0, 1⟩ - (B t).point 0) := by
    generalize a.vel + a.ang.cross c = w
    ext <;> simp [Transform.point, rotate_x, rotate_y, rotate_z] <;> ring
  rw [hrot, lin (B t) c]
  simp only [Vec3.neg_x, Vec3.neg_y, Vec3.neg_z] at c1 c2 c3
  refine ⟨?_, ?_, ?_⟩
  · have := ((o1.add (c1.mul (x1.sub o1))).add (c2.mul (y1.sub o1))).add (c3.mul (z1.sub o1))
    refine (this.congr_deriv ?_).congr_of_eventuallyEq (.of_forall fun s => ?_)
    · simp
      ring
    · dsimp only
      rw [lin (B s) ((A s).point p)]
      simp
  · have := ((o2.add (c1.mul (x2.sub o2))).add (c2.mul (y2.sub o2))).add (c3.mul (z2.sub o2))
    refine (this.congr_deriv ?_).congr_of_eventuallyEq (.of_forall fun s => ?_)
    · simp
      ring
    · dsimp only
      rw [lin (B s) ((A s).point p)]
      simp
  · have := ((o3.add (c1.mul (x3.sub o3))).add (c2.mul (y3.sub o3))).add (c3.mul (z3.sub o3))
    refine (this.congr_deriv ?_).congr_of_eventuallyEq (.of_forall fun s => ?_)
    · simp
      ring
    · dsimp only
      rw [lin (B s) ((A s).point p)]
      simp

/-! ## joints -/

open Real in
theorem rate_rotQuat {k : Vec3 ℝ} (hk : k.x ^ 2 + k.y ^ 2 + k.z ^ 2 = 1) {θ : ℝ → ℝ} {θ' t : ℝ}
    (h : HasDerivAt θ θ' t) : QRate (fun s => rotQuat k (-θ s)) (.smul θ' k) t := by
  have h2 : HasDerivAt (fun s => -θ s / 2) (-θ' / 2) t := h.neg.div_const 2
  have hc := h2.cos
  have hs := h2.sin
  refine ⟨?_, ?_, ?_, ?_⟩
  · refine hc.congr_deriv ?_
    simp only [rotQuat, Vec3.smul]
    linear_combination (-sin (-θ t / 2) * θ' / 2) * hk
  · refine (hs.mul_const k.x).congr_deriv ?_
    simp only [rotQuat, Vec3.smul]
    ring
  · refine (hs.mul_const k.y).congr_deriv ?_
    simp only [rotQuat, Vec3.smul]
    ring
  · refine (hs.mul_const k.z).congr_deriv ?_
    simp only [rotQuat, Vec3.smul]
    ring

theorem rate_rot_axis {k : Vec3 ℝ} (hk : k.x ^ 2 + k.y ^ 2 + k.z ^ 2 = 1) {θ : ℝ → ℝ} {θ' t : ℝ}
    (h : HasDerivAt θ θ' t) : QRate (fun s => quat_rot_axis k (θ s)) (.smul θ' k) t := by
  simp only [quat_rot_axis_eq, safe_normalize_of_unit hk]
  exact rate_rotQuat hk h

theorem rate_const (r : Quat ℝ) (t : ℝ) : QRate (fun _ => r) 0 t := by
  refine ⟨?_, ?_, ?_, ?_⟩ <;> simpa using hasDerivAt_const _ _

theorem deriv_const (p : Vec3 ℝ) (t : ℝ) : Vec3.HasDeriv (fun _ => p) 0 t :=
  ⟨hasDerivAt_const _ _, hasDerivAt_const _ _, hasDerivAt_const _ _⟩

theorem rate_turns {q : ℝ → List ℝ} {a b c t : ℝ} (h : QuatTurns q a b c t) :
    QRate (fun s => quatOf (q s)) ⟨a, b, c⟩ t := h

theorem list1 {u : List ℝ} (h : u.length = 1) : ∃ a, u = [a] := by
  match u, h with
  | [a], _ => exact ⟨a, rfl⟩

theorem list2 {u : List ℝ} (h : u.length = 2) : ∃ a b, u = [a, b] := by
  match u, h with
  | [a, b], _ => exact ⟨a, b, rfl⟩

theorem list3 {u : List ℝ} (h : u.length = 3) : ∃ a b c, u = [a, b, c] := by
  match u, h with
  | [a, b, c], _ => exact ⟨a, b, c, rfl⟩

theorem list6 {u : List ℝ} (h : u.length = 6) : ∃ a b c d e f, u = [a, b, c, d, e, f] := by
  match u, h with
  | [a, b, c, d, e, f], _ => exact ⟨a, b, c, d, e, f, rfl⟩

theorem list9 {u : List ℝ} (h : u.length = 9) :
    ∃ a b c d e f g i j, u = [a, b, c, d, e, f, g, i, j] := by
  match u, h with
  | [a, b, c, d, e, f, g, i, j], _ => exact ⟨a, b, c, d, e, f, g, i, j, rfl⟩

theorem smul_add_zero (c : ℝ) (m : Motion ℝ) : Motion.smul c m + ⟨0, 0⟩ = Motion.smul c m := by
  ext <;> exact add_zero _

/-- C78: hinges, sliders, three-dimensional sliders, spherical and frozen joints: when the
coordinates change with the velocity `u`, the frame that the joint transform describes moves with
the motion that the axes of the joint declare. -/
theorem C78_plain {P : Type} {p : P} {b : BuiltIn} (hb : b.Plain) {q : ℝ → List ℝ} {u : List ℝ}
    {t : ℝ} (hu : u.length = b.qd_width) (hf : b.Follows q u t) :
    HasTwist (fun s => (b.model (π := P)).transform (q s) p) (b.declared p u) t := by
  have vzero : ∀ r : Quat ℝ, rotate 0 r = 0 := rotate_zero
  match b, hb with
  | .frozen, _ =>
    obtain rfl := List.length_eq_zero_iff.1 hu
    exact twist_const _ _
  | .spherical, _ =>
    obtain ⟨a, b, c, rfl⟩ := list3 hu
    refine twist_congr (twist_of_rate (rate_turns hf) (deriv_const 0 t)) (fun s => rfl) ?_
    rw [vzero]
    ext <;> simp [BuiltIn.declared, BuiltIn.model, Motion.smul, mr, Axis.unit]
  | .p3d, _ =>
    obtain ⟨a, b, c, rfl⟩ := list3 hu
    have hp : Vec3.HasDeriv (fun s => vecOf (q s) 0) ⟨a, b, c⟩ t :=
      ⟨hf 0 (by decide), hf 1 (by decide), hf 2 (by decide)⟩
    refine twist_congr (twist_of_rate (rate_const unitQuat t) hp) (fun s => rfl) ?_
    rw [rotate_unit]
    ext <;> simp [BuiltIn.declared, BuiltIn.model, Motion.smul, mp, Axis.unit]
  | .r ax, _ =>
    obtain ⟨a, rfl⟩ := list1 hu
    refine twist_congr (twist_of_rate (rate_rot_axis (axis_unit ax) (hf 0 (by cases ax <;> decide)))
      (deriv_const 0 t)) (fun s => rfl) ?_
    rw [vzero]
    ext <;> simp [BuiltIn.declared, BuiltIn.model, Motion.smul, mr]
  | .p ax, _ =>
    obtain ⟨a, rfl⟩ := list1 hu
    have h0 := hf 0 (by cases ax <;> decide)
    have hp : Vec3.HasDeriv (fun s => Vec3.smul ((q s).getD 0 0) (ax.unit (R := ℝ)))
        (.smul a ax.unit) t :=
      ⟨h0.mul_const _, h0.mul_const _, h0.mul_const _⟩
    refine twist_congr (twist_of_rate (rate_const unitQuat t) hp) (fun s => rfl) ?_
    rw [rotate_unit]
    ext <;> simp [BuiltIn.declared, BuiltIn.model, Motion.smul, mp]

/-- C78: a free joint: the frame moves with the declared angular velocity, and with the velocity of
its position, *seen from the turned frame*. -/
theorem C78_free {P : Type} {p : P} {q : ℝ → List ℝ} {u : List ℝ} {t : ℝ}
    (hf : BuiltIn.free.Follows q u t) :
    HasTwist (fun s => (BuiltIn.free.model (π := P)).transform (q s) p)
      ⟨vecOf u 0, rotate (vecOf u 3) (quatOf (q t))⟩ t := by
  have hp : Vec3.HasDeriv (fun s => vecOf (q s) 4) (vecOf u 3) t :=
    ⟨hf.2 0 (by decide), hf.2 1 (by decide), hf.2 2 (by decide)⟩
  exact twist_congr (twist_of_rate (rate_turns hf.1) hp) (fun s => rfl) rfl

theorem declared_free {P : Type} {p : P} {u : List ℝ} (hu : u.length = 6) :
    BuiltIn.free.declared p u = ⟨vecOf u 0, vecOf u 3⟩ := by
  obtain ⟨a, b, c, d, e, f, rfl⟩ := list6 hu
  ext <;> simp [BuiltIn.declared, BuiltIn.model, Motion.smul, mr, mp, Axis.unit, vecOf]

theorem declared_free_2d {P : Type} {p : P} {u : List ℝ} (hu : u.length = 3) :
    BuiltIn.free_2d.declared p u = ⟨⟨u.getD 0 0, 0, 0⟩, ⟨0, u.getD 1 0, u.getD 2 0⟩⟩ := by
  obtain ⟨a, b, c, rfl⟩ := list3 hu
  ext <;> simp [BuiltIn.declared, BuiltIn.model, Motion.smul, mr, mp, Axis.unit]

theorem declared_cor {P : Type} {p : P} {u : List ℝ} (hu : u.length = 9) :
    BuiltIn.cor.declared p u = ⟨vecOf u 0, vecOf u 3 + vecOf u 6⟩ := by
  obtain ⟨a, b, c, d, e, f, g, i, j, rfl⟩ := list9 hu
  ext <;> simp [BuiltIn.declared, BuiltIn.model, Motion.smul, mr, mp, Axis.unit, vecOf]

theorem declared_saddle {P : Type} {p : P} {u : List ℝ} (hu : u.length = 2) :
    BuiltIn.saddle.declared p u = ⟨⟨0, u.getD 0 0, u.getD 1 0⟩, 0⟩ := by
  obtain ⟨a, b, rfl⟩ := list2 hu
  ext <;> simp [BuiltIn.declared, BuiltIn.model, Motion.smul, mr, Axis.unit]

/-- C78: a free joint in the plane, likewise. -/
theorem C78_free_2d {P : Type} {p : P} {q : ℝ → List ℝ} {u : List ℝ} {t : ℝ}
    (hf : BuiltIn.free_2d.Follows q u t) :
    HasTwist (fun s => (BuiltIn.free_2d.model (π := P)).transform (q s) p)
      ⟨⟨u.getD 0 0, 0, 0⟩, rotate ⟨0, u.getD 1 0, u.getD 2 0⟩
        (quat_rot_axis ⟨1, 0, 0⟩ ((q t).getD 0 0))⟩ t := by
  have hp : Vec3.HasDeriv (fun s => (⟨0, (q s).getD 1 0, (q s).getD 2 0⟩ : Vec3 ℝ))
      ⟨0, u.getD 1 0, u.getD 2 0⟩ t :=
    ⟨hasDerivAt_const _ _, hf 1 (by decide), hf 2 (by decide)⟩
  refine twist_congr (twist_of_rate (rate_rot_axis (k := ⟨1, 0, 0⟩) (by norm_num)
    (hf 0 (by decide))) hp) (fun s => rfl) ?_
  ext <;> simp

/-- C78: a `cor` joint (a free joint followed by a displacement): the displacement also moves when
the frame turns. -/
theorem C78_cor {P : Type} {p : P} {q : ℝ → List ℝ} {u : List ℝ} {t : ℝ}
    (hu : ∀ s, (quatOf (q s)).IsUnit) (hf : BuiltIn.cor.Follows q u t) :
    HasTwist (fun s => (BuiltIn.cor.model (π := P)).transform (q s) p)
      ⟨vecOf u 0, vecOf u 6 + rotate (vecOf u 3) (quatOf (q t)) +
        (vecOf u 0).cross (vecOf (q t) 7)⟩ t := by
  have hA : Vec3.HasDeriv (fun s => vecOf (q s) 4) (vecOf u 3) t :=
    ⟨hf.2 0 (by decide), hf.2 1 (by decide), hf.2 2 (by decide)⟩
  have hB : Vec3.HasDeriv (fun s => vecOf (q s) 7) (vecOf u 6) t :=
    ⟨hf.2 3 (by decide), hf.2 4 (by decide), hf.2 5 (by decide)⟩
  have tA := twist_of_rate (rate_turns hf.1) hA
  have tB := twist_of_rate (rate_const unitQuat t) hB
  refine twist_congr (twist_mul tA tB hu (by simp [Transform.IsUnit, Quat.IsUnit, unitQuat]))
    (fun s => ?_) ?_
  · show _ = _cor_transform (q s)
    have g : ∀ k : Nat, k < 7 → ((q s).take 7).getD k 0 = (q s).getD k 0 := by
      intro k hk
      simp [List.getD_eq_getElem?_getD, List.getElem?_take, hk]
    have g' : ∀ k : Nat, ((q s).drop 7).getD k 0 = (q s).getD (7 + k) 0 := by
      intro k
      simp [List.getD_eq_getElem?_getD]
    simp only [_cor_transform, _p3d_transform, _free_transform, vecOf, quatOf, g', g 0 (by decide),
      g 1 (by decide), g 2 (by decide), g 3 (by decide), g 4 (by decide), g 5 (by decide),
      g 6 (by decide), Nat.reduceAdd]
  · simp only [transform_motion, rotate_unit]
    ext <;> simp [vecOf] <;> ring

open Real in
theorem rate_saddle {a b : ℝ → ℝ} {a' b' t : ℝ} (ha : HasDerivAt a a' t) (hb : HasDerivAt b b' t) :
    QRate (fun s => euler_to_quat ⟨0, a s, b s⟩) ⟨a' * sin (b t), a' * cos (b t), b'⟩ t := by
  have h2 : HasDerivAt (fun s => a s / 2) (a' / 2) t := ha.div_const 2
  have h3 : HasDerivAt (fun s => b s / 2) (b' / 2) t := hb.div_const 2
  have hs : sin (b t) = 2 * sin (b t / 2) * cos (b t / 2) := by
    rw [← sin_two_mul]; ring_nf
  have hc : cos (b t) = cos (b t / 2) ^ 2 - sin (b t / 2) ^ 2 := by
    rw [← cos_two_mul']; ring_nf
  have h1 := sin_sq_add_cos_sq (b t / 2)
  have e : ∀ s, euler_to_quat ⟨0, a s, b s⟩ = ⟨cos (a s / 2) * cos (b s / 2),
      -(sin (a s / 2) * sin (b s / 2)), -(sin (a s / 2) * cos (b s / 2)),
      -(cos (a s / 2) * sin (b s / 2))⟩ := by
    intro s
    ext <;> simp [euler_to_quat, quat_inv]
  simp only [e, hs, hc]
  refine ⟨?_, ?_, ?_, ?_⟩
  · refine (h2.cos.mul h3.cos).congr_deriv ?_
    simp only [e]
    linear_combination (a' * sin (a t / 2) * cos (b t / 2) / 2) * h1
  · refine (h2.sin.mul h3.sin).neg.congr_deriv ?_
    simp only [e]
    linear_combination (a' * cos (a t / 2) * sin (b t / 2) / 2) * h1
  · refine (h2.sin.mul h3.cos).neg.congr_deriv ?_
    simp only [e]
    linear_combination (a' * cos (a t / 2) * cos (b t / 2) / 2) * h1
  · refine (h2.cos.mul h3.sin).neg.congr_deriv ?_
    simp only [e]
    linear_combination (-a' * sin (a t / 2) * sin (b t / 2) / 2) * h1

/-- C78: a saddle joint turns about the second axis of the *parent*, which the second angle turns
away, and about the third axis of the link. -/
theorem C78_saddle {P : Type} {p : P} {q : ℝ → List ℝ} {u : List ℝ} {t : ℝ}
    (hf : BuiltIn.saddle.Follows q u t) :
    HasTwist (fun s => (BuiltIn.saddle.model (π := P)).transform (q s) p)
      ⟨⟨u.getD 0 0 * Real.sin ((q t).getD 1 0), u.getD 0 0 * Real.cos ((q t).getD 1 0), u.getD 1 0⟩, 0⟩ t := by
  refine twist_congr (twist_of_rate (rate_saddle (hf 0 (by decide)) (hf 1 (by decide)))
    (deriv_const 0 t)) (fun s => rfl) ?_
  rw [rotate_zero]

/-- C78, what remains for a free joint: the declared motion is the velocity of the frame exactly if
the orientation leaves the velocity of the position as it is. -/
theorem C78_free_partial {P : Type} {p : P} {q : ℝ → List ℝ} {u : List ℝ} {t : ℝ}
    (hl : u.length = 6) (hu : (quatOf (q t)).IsUnit) (hf : BuiltIn.free.Follows q u t) :
    HasTwist (fun s => (BuiltIn.free.model (π := P)).transform (q s) p)
      (BuiltIn.free.declared p u) t ↔ rotate (vecOf u 3) (quatOf (q t)) = vecOf u 3 := by
  rw [declared_free hl]
  constructor
  · intro h
    exact (Motion.ext_iff.1 (twist_unique (T := fun s => (BuiltIn.free.model (π := P)).transform (q s) p)
      hu (C78_free (p := p) hf) h)).2
  · intro h
    have := C78_free (p := p) hf
    rwa [h] at this

/-- C78, what remains for a free joint in the plane. -/
theorem C78_free_2d_partial {P : Type} {p : P} {q : ℝ → List ℝ} {u : List ℝ} {t : ℝ}
    (hl : u.length = 3) (hf : BuiltIn.free_2d.Follows q u t) :
    HasTwist (fun s => (BuiltIn.free_2d.model (π := P)).transform (q s) p)
      (BuiltIn.free_2d.declared p u) t ↔
    rotate ⟨0, u.getD 1 0, u.getD 2 0⟩ (quat_rot_axis ⟨1, 0, 0⟩ ((q t).getD 0 0)) =
      ⟨0, u.getD 1 0, u.getD 2 0⟩ := by
  rw [declared_free_2d hl]
  constructor
  · intro h
    exact (Motion.ext_iff.1 (twist_unique
      (T := fun s => (BuiltIn.free_2d.model (π := P)).transform (q s) p)
      (builtin_transform_unit (P := P) .free_2d (fun h => absurd h (by decide)) p)
      (C78_free_2d (p := p) hf) h)).2
  · intro h
    have := C78_free_2d (p := p) hf
    rwa [h] at this

/-- C78, what remains for a `cor` joint. -/
theorem C78_cor_partial {P : Type} {p : P} {q : ℝ → List ℝ} {u : List ℝ} {t : ℝ}
    (hl : u.length = 9) (hu : ∀ s, (quatOf (q s)).IsUnit) (hf : BuiltIn.cor.Follows q u t) :
    HasTwist (fun s => (BuiltIn.cor.model (π := P)).transform (q s) p)
      (BuiltIn.cor.declared p u) t ↔
    rotate (vecOf u 3) (quatOf (q t)) + (vecOf u 0).cross (vecOf (q t) 7) = vecOf u 3 := by
  rw [declared_cor hl]
  constructor
  · intro h
    have := (Motion.ext_iff.1 (twist_unique ?_ (C78_cor (p := p) hu hf) h)).2
    · dsimp only at this
      rw [add_assoc, add_comm] at this
      exact add_right_cancel this
    · have := builtin_transform_unit (P := P) .cor (c := q t) (fun _ => ?_) p
      · exact this
      · have := hu t
        simp only [Quat.IsUnit, quatOf] at this
        simp only [sq4]
        rw [← this]
        ring
  · intro h
    have := C78_cor (p := p) hu hf
    rw [add_assoc, h, add_comm] at this
    exact this

/-- C78, what remains for a saddle joint: it must not turn about its first axis, or its second angle
must be a whole number of turns. -/
theorem C78_saddle_partial {P : Type} {p : P} {q : ℝ → List ℝ} {u : List ℝ} {t : ℝ}
    (hl : u.length = 2) (hf : BuiltIn.saddle.Follows q u t) :
    HasTwist (fun s => (BuiltIn.saddle.model (π := P)).transform (q s) p)
      (BuiltIn.saddle.declared p u) t ↔ u.getD 0 0 = 0 ∨ Real.cos ((q t).getD 1 0) = 1 := by
  rw [declared_saddle hl]
  have hs := Real.sin_sq_add_cos_sq ((q t).getD 1 0)
  constructor
  · intro h
    have := twist_unique ?_ (C78_saddle (p := p) hf) h
    · simp only [Motion.mk.injEq, Vec3.mk.injEq] at this
      by_cases h0 : u.getD 0 0 = 0
      · exact .inl h0
      · exact .inr ((mul_eq_left₀ h0).1 this.1.2.1)
    · exact builtin_transform_unit (P := P) .saddle (fun h => absurd h (by decide)) p
  · intro h
    have := C78_saddle (p := p) hf
    rcases h with h | h
    · rw [h, zero_mul, zero_mul] at this
      rwa [h]
    · rw [h] at hs
      have h0 : Real.sin ((q t).getD 1 0) = 0 := by nlinarith
      rwa [h, h0, mul_zero, mul_one] at this

/-- C78 does not hold for free joints: a body that is turned over and moves up has, by its axes, a
velocity that points down. -/
theorem C78_free_fails : ∃ (q : ℝ → List ℝ) (u : List ℝ), u.length = 6 ∧
    (∀ s, (quatOf (q s)).IsUnit) ∧ (∀ s, (q s).length = 7) ∧ BuiltIn.free.Follows q u 0 ∧
    ¬ HasTwist (fun s => (BuiltIn.free.model (π := Unit)).transform (q s) ())
      (BuiltIn.free.declared () u) 0 := by
  have hf : BuiltIn.free.Follows (fun s => [0, 1, 0, 0, 0, 0, s]) [0, 0, 0, 0, 0, 1] 0 := by
    refine ⟨⟨?_, ?_, ?_, ?_⟩, fun j hj => ?_⟩
    iterate 4 simpa using hasDerivAt_const _ _
    interval_cases j
    · simpa using hasDerivAt_const _ _
    · simpa using hasDerivAt_const _ _
    · simpa using hasDerivAt_id' _
  have hu : ∀ s : ℝ, (quatOf [0, 1, 0, 0, 0, 0, s]).IsUnit := by
    intro s; norm_num [quatOf, Quat.IsUnit]
  refine ⟨_, _, rfl, hu, fun _ => rfl, hf, ?_⟩
  rw [C78_free_partial rfl (hu 0) hf]
  intro h
  have := congrArg Vec3.z h
  rw [rotate_z] at this
  norm_num [vecOf, quatOf] at this

/-- C78 does not hold for free joints in the plane. -/
theorem C78_free_2d_fails : ∃ (q : ℝ → List ℝ) (u : List ℝ), u.length = 3 ∧
    (∀ s, (q s).length = 3) ∧ BuiltIn.free_2d.Follows q u 0 ∧
    ¬ HasTwist (fun s => (BuiltIn.free_2d.model (π := Unit)).transform (q s) ())
      (BuiltIn.free_2d.declared () u) 0 := by
  have hf : BuiltIn.free_2d.Follows (fun s => [Real.pi, 0, s]) [0, 0, 1] 0 := by
    intro j hj
    simp only [BuiltIn.qd_width] at hj
    interval_cases j
    · simpa using hasDerivAt_const _ _
    · simpa using hasDerivAt_const _ _
    · simpa using hasDerivAt_id' _
  refine ⟨_, _, rfl, fun _ => rfl, hf, ?_⟩
  rw [C78_free_2d_partial rfl hf]
  intro h
  have := congrArg Vec3.z h
  rw [quat_rot_axis_eq, safe_normalize_of_unit (by norm_num), rotate_z] at this
  simp [rotQuat, neg_div] at this
  norm_num at this

/-- C78 does not hold for `cor` joints: even with the orientation of the parent. -/
theorem C78_cor_fails : ∃ (q : ℝ → List ℝ) (u : List ℝ), u.length = 9 ∧
    (∀ s, (quatOf (q s)).IsUnit) ∧ (∀ s, (q s).length = 10) ∧ quatOf (q 0) = unitQuat ∧
    BuiltIn.cor.Follows q u 0 ∧
    ¬ HasTwist (fun s => (BuiltIn.cor.model (π := Unit)).transform (q s) ())
      (BuiltIn.cor.declared () u) 0 := by
  have hk : ((⟨0, 0, 1⟩ : Vec3 ℝ).x) ^ 2 + (⟨0, 0, 1⟩ : Vec3 ℝ).y ^ 2 + (⟨0, 0, 1⟩ : Vec3 ℝ).z ^ 2 =
      1 := by norm_num
  have hr := rate_rotQuat hk (hasDerivAt_id (0 : ℝ))
  have hf : BuiltIn.cor.Follows (fun s => quatList (rotQuat ⟨0, 0, 1⟩ (-s)) ++ [0, 0, 0, 1, 0, 0])
      [0, 0, 1, 0, 0, 0, 0, 0, 0] 0 := by
    refine ⟨?_, fun j hj => ?_⟩
    · obtain ⟨h1, h2, h3, h4⟩ := hr
      simp only [id] at h1 h2 h3 h4
      refine ⟨?_, ?_, ?_, ?_⟩
      · exact h1.congr_deriv (by simp [quatList])
      · exact h2.congr_deriv (by simp [quatList])
      · exact h3.congr_deriv (by simp [quatList])
      · exact h4.congr_deriv (by simp [quatList])
    · interval_cases j <;> simpa [quatList] using hasDerivAt_const _ _
  have hu : ∀ s : ℝ, (quatOf (quatList (rotQuat ⟨0, 0, 1⟩ (-s)) ++ [0, 0, 0, 1, 0, 0])).IsUnit :=
    fun s => rotQuat_unit hk _
  refine ⟨_, _, rfl, hu, fun _ => rfl, ?_, hf, ?_⟩
  · simp [rotQuat, quatList, quatOf, unitQuat]
  rw [C78_cor_partial rfl hu hf]
  intro h
  have := congrArg Vec3.y h
  rw [Vec3.add_y, rotate_y, Vec3.cross_y] at this
  simp [vecOf, quatList] at this

/-- C78 does not hold for saddle joints. -/
theorem C78_saddle_fails : ∃ (q : ℝ → List ℝ) (u : List ℝ), u.length = 2 ∧
    (∀ s, (q s).length = 2) ∧ BuiltIn.saddle.Follows q u 0 ∧
    ¬ HasTwist (fun s => (BuiltIn.saddle.model (π := Unit)).transform (q s) ())
      (BuiltIn.saddle.declared () u) 0 := by
  have hf : BuiltIn.saddle.Follows (fun s => [s, Real.pi / 2]) [1, 0] 0 := by
    intro j hj
    simp only [BuiltIn.qd_width] at hj
    interval_cases j
    · simpa using hasDerivAt_id' _
    · simpa using hasDerivAt_const _ _
  refine ⟨_, _, rfl, fun _ => rfl, hf, ?_⟩
  rw [C78_saddle_partial rfl hf]
  simp

/-! ## trees -/

section tree
variable {π' : Type} {E : JEnv ℝ π'} {s : System ℝ π'}

theorem transform_motion_zero'' (T : Transform ℝ) : transform_motion T ⟨0, 0⟩ = ⟨0, 0⟩ := by
  simp only [transform_motion]
  ext <;> simp [rotate_x, rotate_y, rotate_z]

theorem add_zero_motion (m : Motion ℝ) : m + ⟨0, 0⟩ = m := by
  ext <;> exact add_zero _

theorem zero_add_motion (m : Motion ℝ) : ⟨0, 0⟩ + m = m := by
  ext <;> exact zero_add _

theorem add_comm_motion (m n : Motion ℝ) : m + n = n + m := by
  ext <;> exact add_comm _ _

/-- C78: if, while the coordinates `q` change, the frame of every joint moves with the motion that
its axes declare for the velocities `u`, then the pose of every link, as forward kinematics
computes it, moves with the velocity that the dynamics algorithms attribute to the link. -/
theorem C78_tree (h : s.WF E.toEnv) (hj : s.Jointed E) {q : ℝ → List ℝ} {u : List ℝ} {t : ℝ}
    (hq : ∀ τ, (q τ).length = (s.link_types.map (wOf E.qw)).sum)
    {xs : ℝ → List (Transform ℝ)} {s' : ℝ → System ℝ π'}
    (hf : ∀ τ, s.forward_kinematics_transforms E (q τ) = .ok (xs τ, s' τ))
    (ht : ∀ l ∈ s.links, l.transform1.rot.normSq = 1)
    (hT : ∀ (i : Nat) (τ : ℝ) (T : Transform ℝ), i < s.link_parents.length →
      s.IsJointTransform E (q τ) i T → T.IsUnit)
    (hm : ∀ (i : Nat) (T : ℝ → Transform ℝ), i < s.link_parents.length →
      (∀ τ, s.IsJointTransform E (q τ) i (T τ)) → HasTwist T (s.jointMotion E u i) t)
    {v : Nat → Motion ℝ} (hv : (s' t).IsLinkVel E u v) (i : Nat)
    (hi : i < s.link_parents.length) :
    HasTwist (fun τ => poseAt (xs τ) i) (v i) t := by
  have fk : ∀ τ, s.IsFK E (q τ) (xs τ) (s' τ) := fun τ => isFK_unique h hj (hq τ) (hf τ)
  have key : ∀ i : Nat, i < s.link_parents.length →
      HasTwist (fun τ => poseAt (xs τ) i) (v i) t ∧ ∀ τ, (poseAt (xs τ) i).IsUnit := by
    intro i
    induction i using Nat.strong_induction_on with
    | _ i ih =>
      intro hi
      have hrow : s.links[i]? = some (s.links[i]'(by rw [h.links_len]; exact hi)) :=
        List.getElem?_eq_getElem _
      set row := s.links[i]'(by rw [h.links_len]; exact hi) with hrowdef
      have hru : row.transform1.IsUnit := ht _ (List.getElem_mem _)
      have hpose := fun τ => (fk τ).pose i hi row hrow
      choose T hT1 hT2 hT3 using hpose
      have hTu : ∀ τ, (T τ).IsUnit := fun τ => hT i τ _ hi (hT1 τ)
      have hJ := hm i T hi hT1
      -- the joint after the resting transform to the parent
      have hL := twist_mul (twist_const row.transform1 t) hJ (fun _ => hru) (hTu t)
      rw [transform_motion_zero'', add_zero_motion] at hL
      have hLu : ∀ τ, (transform_mul (T τ) row.transform1).IsUnit := fun τ =>
        transform_mul_unit (hTu τ) hru
      have hpi : ∀ τ, poseAt (xs τ) i = transform_mul (transform_mul (T τ) row.transform1)
          (poseAt (xs τ) s.link_parents[i]) := by
        intro τ
        have := hT2 τ
        rw [poseAt, if_neg (by omega), Int.toNat_natCast, List.getD_eq_getElem?_getD, this,
          Option.getD_some]
      have hs' := (fk t).rest
      have hlT : (s' t).linkT i = transform_mul (T t) row.transform1 := by
        unfold System.linkT
        rw [hT3 t]
        rfl
      have hax : ((s' t).axesAt E i).zipWith (fun ax c => Motion.smul c ax)
          (ownSlice E.dw (s' t).link_types u i) = (s.axesAt E i).zipWith
            (fun ax c => Motion.smul c ax) (ownSlice E.dw s.link_types u i) := by
        rw [hs']
        rfl
      have hpar : (s' t).link_parents = s.link_parents := by rw [hs']
      have hvi := hv i (by rw [hpar]; exact hi)
      rw [hax, hlT] at hvi
      simp only [hpar] at hvi
      change v i = _ + s.jointMotion E u i at hvi
      obtain ⟨h1, h2⟩ := h.topo i hi
      by_cases hp : s.link_parents[i] = -1
      · rw [if_pos hp, zero_add_motion] at hvi
        have e : ∀ τ, poseAt (xs τ) i = transform_mul (T τ) row.transform1 := by
          intro τ
          rw [hpi τ, hp]
          exact transform_mul_zero _
        refine ⟨twist_congr hL (fun τ => (e τ).symm) hvi.symm, fun τ => ?_⟩
        rw [e τ]
        exact hLu τ
      · rw [if_neg hp] at hvi
        obtain ⟨ih1, ih2⟩ := ih s.link_parents[i].toNat (by omega) (by omega)
        have hcast : ((s.link_parents[i].toNat : Nat) : Int) = s.link_parents[i] :=
          Int.toNat_of_nonneg (by omega)
        simp only [hcast] at ih1 ih2
        refine ⟨twist_congr (twist_mul ih1 hL ih2 (hLu t)) (fun τ => (hpi τ).symm) ?_, fun τ => ?_⟩
        · rw [hvi, add_comm_motion]
        · rw [hpi τ]
          exact transform_mul_unit (hLu τ) (ih2 τ)
  exact (key i hi).1

/-- C78: in systems of hinges, sliders, spherical and frozen joints, whenever the coordinates of all
joints change with the velocities `u`, the pose of every link moves with the velocity that the
dynamics algorithms attribute to it. -/
theorem C78_link_velocity (hE : E.Std) (h : s.WF E.toEnv) (hj : s.Jointed E)
    (hb : s.JointsIn BuiltIn.Plain) (ht : ∀ l ∈ s.links, l.transform1.rot.normSq = 1)
    {q : ℝ → List ℝ} {u : List ℝ} {t : ℝ}
    (hq : ∀ τ, (q τ).length = (s.link_types.map (wOf E.qw)).sum)
    (hu : u.length = (s.link_types.map (wOf E.dw)).sum)
    (hun : ∀ τ, s.UnitQ E (q τ))
    (hfol : ∀ (i : Nat) (b : BuiltIn), s.link_types[i]? = some b.name →
      b.Follows (fun τ => ownSlice E.qw s.link_types (q τ) i) (ownSlice E.dw s.link_types u i) t)
    {xs : ℝ → List (Transform ℝ)} {s' : ℝ → System ℝ π'}
    (hf : ∀ τ, s.forward_kinematics_transforms E (q τ) = .ok (xs τ, s' τ))
    {v : Nat → Motion ℝ} (hv : (s' t).IsLinkVel E u v) (i : Nat)
    (hi : i < s.link_parents.length) :
    HasTwist (fun τ => poseAt (xs τ) i) (v i) t := by
  refine C78_tree h hj hq hf ht ?_ ?_ hv i hi
  · rintro i τ T hi ⟨jm, p, e1, e2, rfl⟩
    have hi2 : i < s.link_types.length := by rw [h.types_len]; exact hi
    obtain ⟨b, _, hbn⟩ := hb s.link_types[i] (List.getElem_mem _)
    have hd : s.link_types.getD i "" = b.name := by simp [List.getD, hi2, hbn]
    rw [hd, hE.joints] at e1
    cases e1
    refine builtin_transform_unit b ?_ p
    intro hq
    exact hun τ i hi2 (by rw [hbn, is_quat_name]; exact hq)
  · intro i T hi hT
    have hi2 : i < s.link_types.length := by rw [h.types_len]; exact hi
    obtain ⟨b, hpl, hbn⟩ := hb s.link_types[i] (List.getElem_mem _)
    have hd : s.link_types.getD i "" = b.name := by simp [List.getD, hi2, hbn]
    obtain ⟨p, hp⟩ := jointParam_isSome h hj hi
    have hTe : ∀ τ, T τ = b.model.transform (ownSlice E.qw s.link_types (q τ) i) p := by
      intro τ
      obtain ⟨jm, p', e1, e2, e3⟩ := hT τ
      rw [hd, hE.joints] at e1
      cases e1
      rw [hp] at e2
      cases e2
      exact e3
    have hlen : (ownSlice E.dw s.link_types u i).length = b.qd_width := by
      rw [ownSlice_length hu hi2, hbn, (wOf_std hE b).2]
    have := C78_plain (p := p) hpl hlen (hfol i b (by rw [List.getElem?_eq_getElem hi2, hbn]))
    refine twist_congr this (fun τ => (hTe τ).symm) ?_
    unfold System.jointMotion System.axesAt BuiltIn.declared
    rw [hd, hE.joints, hp]
    rfl

end tree

/-! ## the integrator -/

open System in
/-- C78: the integrator changes the coordinates of joints without a quaternion with the velocity it
is given. -/
theorem C78_integrator {b : BuiltIn} (hb : (isFreeOrCor b || isSpherical b) = false) {c u : List ℝ}
    (hc : c.length = b.q_width) (hu : u.length = b.qd_width) :
    b.Follows (fun dt => q_integrate dt (c, u, b.name)) u 0 := by
  have h1 : isFreeOrCor b = false := by
    revert hb; cases isFreeOrCor b <;> simp
  have h2 : isSpherical b = false := by
    revert hb; cases isSpherical b <;> simp
  have hlen : c.length = u.length := by
    cases b <;> simp [isFreeOrCor, isSpherical] at h1 h2 <;>
      simp [hc, hu, BuiltIn.q_width, BuiltIn.qd_width]
  have key : ∀ j : Nat, j < b.qd_width →
      HasDerivAt (fun dt => (q_integrate dt (c, u, b.name)).getD j 0) (u.getD j 0) 0 := by
    intro j hj
    have e : (fun dt => (q_integrate dt (c, u, b.name)).getD j 0) =
        fun dt => c.getD j 0 + dt * u.getD j 0 := by
      funext dt
      unfold q_integrate
      simp only [is_free_or_cor_name, is_spherical_name, h1, h2, Bool.false_eq_true, if_false]
      unfold ladd
      rw [zipWith_getD _ (by omega) (by simp; omega), map_getD_zero _ (by simp)]
    rw [e]
    simpa using ((hasDerivAt_id' (0 : ℝ)).mul_const (u.getD j 0)).const_add (c.getD j 0)
  cases b <;> simp [isFreeOrCor, isSpherical] at h1 h2 <;> exact key

theorem norm4_of_unit {q : Quat ℝ} (h : q.normSq = 1) : norm4 q = 1 := by
  unfold norm4
  simp only [Quat.normSq] at h
  rw [show q.w ^ 2 + q.x ^ 2 + q.y ^ 2 + q.z ^ 2 = 1 by rw [← h]; ring, Real.sqrt_one]

open System in
/-- the rate at which the strapdown integration turns a quaternion -/
theorem strapdown_rate {q d : List ℝ} (hq : (quatOf q).normSq = 1) :
    ∃ k : ℝ, |k - 1| * norm3 (vecOf d 0) ≤ 1e-8 ∧
      QuatTurns (fun dt => _strapdown_integration q d dt) (k * d.getD 0 0) (k * d.getD 1 0)
        (k * d.getD 2 0) 0 := by
  set v := vecOf d 0 with hv
  set n := norm3 v with hn
  have hn0 : 0 ≤ n := norm3_nonneg v
  set a := n + 1e-8 with ha
  have ha0 : 0 < a := by rw [ha]; norm_num; positivity
  set ax := Vec3.smul a⁻¹ v with hax
  have hval : ∀ dt, _strapdown_integration q d dt = quatList
      ⟨(quat_mul (quat_rot_axis ax (a * dt)) (quatOf q)).w /
          norm4 (quat_mul (quat_rot_axis ax (a * dt)) (quatOf q)),
        (quat_mul (quat_rot_axis ax (a * dt)) (quatOf q)).x /
          norm4 (quat_mul (quat_rot_axis ax (a * dt)) (quatOf q)),
        (quat_mul (quat_rot_axis ax (a * dt)) (quatOf q)).y /
          norm4 (quat_mul (quat_rot_axis ax (a * dt)) (quatOf q)),
        (quat_mul (quat_rot_axis ax (a * dt)) (quatOf q)).z /
          norm4 (quat_mul (quat_rot_axis ax (a * dt)) (quatOf q))⟩ := fun dt => rfl
  by_cases hc : allclose0 ax
  · refine ⟨0, ?_, ?_⟩
    · obtain ⟨h1, h2, h3⟩ := hc
      have hsq := norm3_sq v
      rw [← hn] at hsq
      have ex : v.x = a * ax.x := by simp only [hax, Vec3.smul]; field_simp
      have ey : v.y = a * ax.y := by simp only [hax, Vec3.smul]; field_simp
      have ez : v.z = a * ax.z := by simp only [hax, Vec3.smul]; field_simp
      simp only [isclose0] at h1 h2 h3
      have e1 := sq_le_sq' (abs_le.1 h1).1 (abs_le.1 h1).2
      have e2 := sq_le_sq' (abs_le.1 h2).1 (abs_le.1 h2).2
      have e3 := sq_le_sq' (abs_le.1 h3).1 (abs_le.1 h3).2
      have hle : n ^ 2 ≤ (a * 1e-7) ^ 2 := by
        rw [hsq, ex, ey, ez]
        have : ax.x ^ 2 + ax.y ^ 2 + ax.z ^ 2 ≤ 1e-7 ^ 2 := by norm_num at e1 e2 e3 ⊢; linarith
        have h2 := mul_le_mul_of_nonneg_left this (sq_nonneg a)
        calc _ = a ^ 2 * (ax.x ^ 2 + ax.y ^ 2 + ax.z ^ 2) := by ring
          _ ≤ _ := h2
          _ = _ := by ring
      have hle2 : n ≤ a * 1e-7 := by
        apply le_of_sq_le_sq hle
        positivity
      have : n ≤ 1e-8 := by
        rw [ha] at hle2
        norm_num at hle2 ⊢
        linarith
      simpa using this
    · have hpos : ∀ᶠ dt in nhds (0 : ℝ), 0 < Real.cos (a * dt / 2) := by
        have hcont : Continuous fun dt : ℝ => Real.cos (a * dt / 2) := by fun_prop
        exact hcont.continuousAt.eventually (lt_mem_nhds (by simp))
      have hev : ∀ᶠ dt in nhds (0 : ℝ), _strapdown_integration q d dt = quatList (quatOf q) := by
        filter_upwards [hpos] with dt hdt
        rw [hval dt, C15_rot_axis_degenerate hc]
        set c := Real.cos (a * dt / 2) with hcd
        have hm : quat_mul (⟨c, 0, 0, 0⟩ : Quat ℝ) (quatOf q) =
            ⟨c * (quatOf q).w, c * (quatOf q).x, c * (quatOf q).y, c * (quatOf q).z⟩ := by
          ext <;> simp [quat_mul]
        have hnorm : norm4 (⟨c * (quatOf q).w, c * (quatOf q).x, c * (quatOf q).y,
            c * (quatOf q).z⟩ : Quat ℝ) = c := by
          unfold norm4
          simp only [Quat.normSq] at hq
          have : (c * (quatOf q).w) ^ 2 + (c * (quatOf q).x) ^ 2 + (c * (quatOf q).y) ^ 2 +
              (c * (quatOf q).z) ^ 2 = c ^ 2 := by
            linear_combination c ^ 2 * hq
          simp only [this]
          exact Real.sqrt_sq hdt.le
        rw [hm, hnorm]
        simp only
        rw [mul_div_cancel_left₀ _ hdt.ne', mul_div_cancel_left₀ _ hdt.ne',
          mul_div_cancel_left₀ _ hdt.ne', mul_div_cancel_left₀ _ hdt.ne']
      have hd : ∀ j : Nat, HasDerivAt (fun dt => (_strapdown_integration q d dt).getD j 0) 0 0 := by
        intro j
        refine (hasDerivAt_const (0 : ℝ) ((quatList (quatOf q)).getD j 0)).congr_of_eventuallyEq ?_
        filter_upwards [hev] with dt hdt
        rw [hdt]
      refine ⟨?_, ?_, ?_, ?_⟩ <;> simpa using hd _
  · have hk := safe_normalize_unit hc
    have hkv := safe_normalize_of hc
    have hnp : 0 < n := by
      rcases hn0.lt_or_eq with h | h
      · exact h
      · exfalso
        apply hc
        have hsq := norm3_sq v
        rw [← hn, ← h] at hsq
        have hx : v.x = 0 := by nlinarith [sq_nonneg v.x, sq_nonneg v.y, sq_nonneg v.z]
        have hy : v.y = 0 := by nlinarith [sq_nonneg v.x, sq_nonneg v.y, sq_nonneg v.z]
        have hz : v.z = 0 := by nlinarith [sq_nonneg v.x, sq_nonneg v.y, sq_nonneg v.z]
        refine ⟨?_, ?_, ?_⟩ <;> simp only [isclose0, hax, Vec3.smul, hx, hy, hz] <;> norm_num
    have hnax : norm3 ax = a⁻¹ * n := by
      rw [hn]
      unfold norm3
      rw [show ax.x ^ 2 + ax.y ^ 2 + ax.z ^ 2 = a⁻¹ ^ 2 * (v.x ^ 2 + v.y ^ 2 + v.z ^ 2) by
        simp only [hax, Vec3.smul]; ring, Real.sqrt_mul (by positivity),
        Real.sqrt_sq (by positivity)]
    set k := safe_normalize ax with hkd
    have hkc : k = .smul n⁻¹ v := by
      rw [hkv, hnax]
      ext <;> simp only [hax, Vec3.smul] <;> field_simp
    refine ⟨a / n, ?_, ?_⟩
    · rw [show a / n - 1 = 1e-8 / n by rw [ha]; field_simp; ring, abs_of_pos (by positivity)]
      field_simp
      exact le_rfl
    · have hval2 : ∀ dt, _strapdown_integration q d dt = quatList
          (quat_mul (rotQuat k (-(a * dt))) (quatOf q)) := by
        intro dt
        have h1 : (quat_mul (quat_rot_axis ax (a * dt)) (quatOf q)).normSq = 1 := by
          rw [normSq_mul, hq, mul_one]
          exact (C15_rot_axis hc _).1
        rw [hval dt, norm4_of_unit h1]
        simp only [div_one]
        rw [quat_rot_axis_eq]
      have hr := rate_rotQuat hk (((hasDerivAt_id' (0 : ℝ)).const_mul a))
      obtain ⟨rw', rx', ry', rz'⟩ := hr
      have e0 : rotQuat k (-(a * 0)) = ⟨1, 0, 0, 0⟩ := by simp [rotQuat]
      simp only [e0, hval2, QuatTurns] at rw' rx' ry' rz' ⊢
      set r := quatOf q with hr
      have e1 : quat_mul (⟨1, 0, 0, 0⟩ : Quat ℝ) r = r := by ext <;> simp [quat_mul]
      simp only [e1]
      have kx : a * k.x = a / n * d.getD 0 0 := by
        rw [hkc]; simp only [Vec3.smul, hv, vecOf]; ring
      have ky : a * k.y = a / n * d.getD 1 0 := by
        rw [hkc]; simp only [Vec3.smul, hv, vecOf]; ring
      have kz : a * k.z = a / n * d.getD 2 0 := by
        rw [hkc]; simp only [Vec3.smul, hv, vecOf]; ring
      rw [← kx, ← ky, ← kz]
      simp only [quatList, quat_mul, List.getD_cons_zero, List.getD_cons_succ]
      refine ⟨?_, ?_, ?_, ?_⟩
      · refine ((((rw'.mul_const r.w).sub (rx'.mul_const r.x)).sub (ry'.mul_const r.y)).sub
          (rz'.mul_const r.z)).congr_deriv ?_
        simp
        ring
      · refine ((((rw'.mul_const r.x).add (rx'.mul_const r.w)).add (ry'.mul_const r.z)).sub
          (rz'.mul_const r.y)).congr_deriv ?_
        simp
        ring
      · refine ((((rw'.mul_const r.y).sub (rx'.mul_const r.z)).add (ry'.mul_const r.w)).add
          (rz'.mul_const r.x)).congr_deriv ?_
        simp
        ring
      · refine ((((rw'.mul_const r.z).add (rx'.mul_const r.y)).sub (ry'.mul_const r.x)).add
          (rz'.mul_const r.w)).congr_deriv ?_
        simp
        ring

open System in
/-- C78: the integrator changes the coordinates of joints with a quaternion with the velocity it is
given, except that the angular velocity is too large by `1e-8` (or, below about `1e-16`, dropped). -/
theorem C78_integrator_turn {b : BuiltIn} (hb : (isFreeOrCor b || isSpherical b) = true)
    {c u : List ℝ} (hc : c.length = b.q_width) (hu : u.length = b.qd_width)
    (hq : (quatOf c).IsUnit) :
    ∃ k : ℝ, |k - 1| * norm3 (vecOf u 0) ≤ 1e-8 ∧
      b.Follows (fun dt => q_integrate dt (c, u, b.name))
        ((u.take 3).map (fun x => k * x) ++ u.drop 3) 0 := by
  have h4 : ∀ l : List ℝ, quatOf (l.take 4) = quatOf l := by
    intro l
    simp [quatOf, List.getD_eq_getElem?_getD]
  have h3 : ∀ l : List ℝ, vecOf (l.take 3) 0 = vecOf l 0 := by
    intro l
    simp [vecOf, List.getD_eq_getElem?_getD]
  have g3 : ∀ (l : List ℝ) (j : Nat), j < 3 → (l.take 3).getD j 0 = l.getD j 0 := by
    intro l j hj
    simp [List.getD_eq_getElem?_getD, List.getElem?_take, hj]
  have hu3 : 3 ≤ u.length := by
    rw [hu]; cases b <;> simp [isFreeOrCor, isSpherical] at hb <;> simp [BuiltIn.qd_width]
  have hl3 : (u.take 3).length = 3 := by simp; omega
  have scaled : ∀ (k : ℝ) (j : Nat), j < 3 →
      ((u.take 3).map (fun x => k * x) ++ u.drop 3).getD j 0 = k * u.getD j 0 := by
    intro k j hj
    have hj' : j < u.length := by omega
    rw [List.getD_append _ _ _ _ (by simp; omega)]
    simp [List.getD_eq_getElem?_getD, List.getElem?_take, hj, hj']
  have rest : ∀ (k : ℝ) (j : Nat),
      ((u.take 3).map (fun x => k * x) ++ u.drop 3).getD (3 + j) 0 = u.getD (3 + j) 0 := by
    intro k j
    rw [List.getD_append_right _ _ _ _ (by simp)]
    simp only [List.length_map, hl3, List.getD_eq_getElem?_getD, List.getElem?_drop]
    congr 3
    omega
  obtain ⟨k, hk, ht⟩ := strapdown_rate (q := c.take 4) (d := u.take 3) (by rw [h4]; exact hq)
  rw [h3] at hk
  rw [g3 u 0 (by decide), g3 u 1 (by decide), g3 u 2 (by decide)] at ht
  refine ⟨k, hk, ?_⟩
  have s0 := scaled k 0 (by decide)
  have s1 := scaled k 1 (by decide)
  have s2 := scaled k 2 (by decide)
  have h1 : b = .spherical ∨ isFreeOrCor b = true := by
    cases b <;> simp [isFreeOrCor, isSpherical] at hb ⊢
  rcases h1 with rfl | h1
  · have e1 : c.take 4 = c := List.take_of_length_le (by rw [hc]; decide)
    have e2 : u.take 3 = u := List.take_of_length_le (by rw [hu]; decide)
    have e3 : ∀ dt, q_integrate dt (c, u, BuiltIn.spherical.name) =
        _strapdown_integration (c.take 4) (u.take 3) dt := by
      intro dt
      rw [e1, e2]
      unfold q_integrate
      simp only [is_free_or_cor_name, is_spherical_name, isFreeOrCor, isSpherical,
        Bool.false_eq_true, if_false, if_true]
    simp only [BuiltIn.Follows, e3, s0, s1, s2]
    exact ht
  · have hval : ∀ dt, q_integrate dt (c, u, b.name) =
        _strapdown_integration (c.take 4) (u.take 3) dt ++
          ladd (c.drop 4) ((u.drop 3).map fun x => x * dt) := by
      intro dt
      unfold q_integrate
      simp only [is_free_or_cor_name, h1, if_true]
    have hsl : ∀ dt, (_strapdown_integration (c.take 4) (u.take 3) dt).length = 4 := fun dt => rfl
    have hturn : QuatTurns (fun dt => q_integrate dt (c, u, b.name)) (k * u.getD 0 0)
        (k * u.getD 1 0) (k * u.getD 2 0) 0 := by
      have e : ∀ (dt : ℝ) (j : Nat), j < 4 → (q_integrate dt (c, u, b.name)).getD j 0 =
          (_strapdown_integration (c.take 4) (u.take 3) dt).getD j 0 := by
        intro dt j hj
        rw [hval, List.getD_append _ _ _ _ (by rw [hsl]; exact hj)]
      simp only [QuatTurns, e _ 0 (by decide), e _ 1 (by decide), e _ 2 (by decide),
        e _ 3 (by decide)]
      exact ht
    have hlin : ∀ j : Nat, 4 + j < c.length → 3 + j < u.length →
        HasDerivAt (fun dt => (q_integrate dt (c, u, b.name)).getD (4 + j) 0)
          (u.getD (3 + j) 0) 0 := by
      intro j hj hj'
      have e : (fun dt => (q_integrate dt (c, u, b.name)).getD (4 + j) 0) =
          fun dt => c.getD (4 + j) 0 + u.getD (3 + j) 0 * dt := by
        funext dt
        rw [hval, List.getD_append_right _ _ _ _ (by rw [hsl]; omega), hsl,
          show 4 + j - 4 = j by omega]
        unfold ladd
        rw [zipWith_getD _ (by simp; omega) (by simp; omega), map_getD_zero _ (by simp)]
        simp [List.getD_eq_getElem?_getD]
      rw [e]
      simpa using ((hasDerivAt_id' (0 : ℝ)).const_mul (u.getD (3 + j) 0)).const_add
        (c.getD (4 + j) 0)
    cases b <;> simp [isFreeOrCor] at h1
    · simp only [BuiltIn.q_width, BuiltIn.qd_width] at hc hu
      simp only [BuiltIn.Follows, s0, s1, s2, rest]
      exact ⟨hturn, fun j hj => hlin j (by omega) (by omega)⟩
    · simp only [BuiltIn.q_width, BuiltIn.qd_width] at hc hu
      simp only [BuiltIn.Follows, s0, s1, s2, rest]
      exact ⟨hturn, fun j hj => hlin j (by omega) (by omega)⟩

end RingLib
