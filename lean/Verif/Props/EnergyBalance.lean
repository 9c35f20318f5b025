import Verif.Spec.Energy
import Verif.Props.Twist
import Verif.Props.Dynamics
import Verif.Props.SpringBody
import Mathlib.Analysis.Calculus.MeanValue

/-!
# C111: the torques of inverse dynamics are those that change the energy

The energy of a system is the kinetic energy that the library computes plus the potential energy of its links in the
poses that forward kinematics returns (`Spec.Energy`). Its rate is derived from the motion of the frames
(`Spec.Twist`), which the algorithms of dynamics do not know.
-/

namespace RingLib
open maths jcalc algebra Finset _root_.RingLib.System

/-! ## vectors -/

theorem Vec3.HasDeriv.add {a b : ℝ → Vec3 ℝ} {a' b' : Vec3 ℝ} {t : ℝ} (ha : Vec3.HasDeriv a a' t)
    (hb : Vec3.HasDeriv b b' t) : Vec3.HasDeriv (fun τ => a τ + b τ) (a' + b') t :=
  ⟨ha.1.add hb.1, ha.2.1.add hb.2.1, ha.2.2.add hb.2.2⟩

theorem Vec3.HasDeriv.congr {a b : ℝ → Vec3 ℝ} {a' b' : Vec3 ℝ} {t : ℝ} (ha : Vec3.HasDeriv a a' t)
    (h : ∀ τ, b τ = a τ) (h' : b' = a') : Vec3.HasDeriv b b' t := by
  rw [h', show b = a from funext h]
  exact ha

theorem Vec3.HasDeriv.cross {a b : ℝ → Vec3 ℝ} {a' b' : Vec3 ℝ} {t : ℝ} (ha : Vec3.HasDeriv a a' t)
    (hb : Vec3.HasDeriv b b' t) :
    Vec3.HasDeriv (fun τ => (a τ).cross (b τ)) (a'.cross (b t) + (a t).cross b') t := by
  obtain ⟨a1, a2, a3⟩ := ha
  obtain ⟨b1, b2, b3⟩ := hb
  refine ⟨?_, ?_, ?_⟩
  · refine ((a2.mul b3).sub (a3.mul b2)).congr_deriv ?_ |>.congr_of_eventuallyEq (.of_forall fun τ => ?_)
    · simp; ring
    · simp
  · refine ((a3.mul b1).sub (a1.mul b3)).congr_deriv ?_ |>.congr_of_eventuallyEq (.of_forall fun τ => ?_)
    · simp; ring
    · simp
  · refine ((a1.mul b2).sub (a2.mul b1)).congr_deriv ?_ |>.congr_of_eventuallyEq (.of_forall fun τ => ?_)
    · simp; ring
    · simp

theorem Vec3.HasDeriv.dot {a b : ℝ → Vec3 ℝ} {a' b' : Vec3 ℝ} {t : ℝ} (ha : Vec3.HasDeriv a a' t)
    (hb : Vec3.HasDeriv b b' t) : HasDerivAt (fun τ => (a τ).dot (b τ)) (a'.dot (b t) + (a t).dot b') t := by
  obtain ⟨a1, a2, a3⟩ := ha
  obtain ⟨b1, b2, b3⟩ := hb
  refine (((a1.mul b1).add (a2.mul b2)).add (a3.mul b3)).congr_deriv ?_
  simp only [Vec3.dot]
  ring

theorem Vec3.HasDeriv.smul {c : ℝ → ℝ} {c' : ℝ} {a : ℝ → Vec3 ℝ} {a' : Vec3 ℝ} {t : ℝ} (hc : HasDerivAt c c' t)
    (ha : Vec3.HasDeriv a a' t) :
    Vec3.HasDeriv (fun τ => Vec3.smul (c τ) (a τ)) (Vec3.smul c' (a t) + Vec3.smul (c t) a') t := by
  obtain ⟨a1, a2, a3⟩ := ha
  exact ⟨hc.mul a1, hc.mul a2, hc.mul a3⟩

theorem Vec3.HasDeriv.const (a : Vec3 ℝ) (t : ℝ) : Vec3.HasDeriv (fun _ => a) 0 t :=
  ⟨hasDerivAt_const _ _, hasDerivAt_const _ _, hasDerivAt_const _ _⟩

theorem Motion.HasDeriv.add {a b : ℝ → Motion ℝ} {a' b' : Motion ℝ} {t : ℝ} (ha : Motion.HasDeriv a a' t)
    (hb : Motion.HasDeriv b b' t) : Motion.HasDeriv (fun τ => a τ + b τ) (a' + b') t :=
  ⟨ha.1.add hb.1, ha.2.add hb.2⟩

/-! ## moving frames -/

/-- coordinates of a moving vector in a moving frame -/
theorem rotate_deriv {X : ℝ → Transform ℝ} {w : Motion ℝ} {t : ℝ} (hX : HasTwist X w t) {a : ℝ → Vec3 ℝ} {a' : Vec3 ℝ}
    (ha : Vec3.HasDeriv a a' t) : Vec3.HasDeriv (fun τ => rotate (a τ) (X τ).rot)
      (rotate a' (X t).rot + (rotate (a t) (X t).rot).cross w.ang) t := by
  have lin : ∀ (T : Transform ℝ) (c : Vec3 ℝ), rotate c T.rot =
      .smul c.x (T.point ⟨1, 0, 0⟩ - T.point 0) + .smul c.y (T.point ⟨0, 1, 0⟩ - T.point 0) +
      .smul c.z (T.point ⟨0, 0, 1⟩ - T.point 0) := by
    intro T c
    ext <;> simp [Transform.point, rotate_x, rotate_y, rotate_z] <;> ring
  have sub : ∀ p : Vec3 ℝ, Vec3.HasDeriv (fun τ => (X τ).point p - (X τ).point 0)
      (((X t).point p - (X t).point 0).cross w.ang) t := by
    intro p
    have h1 := hX p
    have h0 := hX 0
    refine ⟨(h1.1.sub h0.1).congr_deriv ?_, (h1.2.1.sub h0.2.1).congr_deriv ?_,
      (h1.2.2.sub h0.2.2).congr_deriv ?_⟩ <;> simp <;> ring
  have h := ((Vec3.HasDeriv.smul ha.1 (sub ⟨1, 0, 0⟩)).add (Vec3.HasDeriv.smul ha.2.1 (sub ⟨0, 1, 0⟩))).add
    (Vec3.HasDeriv.smul ha.2.2 (sub ⟨0, 0, 1⟩))
  refine h.congr (fun τ => lin _ _) ?_
  rw [lin (X t) a', lin (X t) (a t)]
  generalize (X t).point ⟨1, 0, 0⟩ - (X t).point 0 = e1
  generalize (X t).point ⟨0, 1, 0⟩ - (X t).point 0 = e2
  generalize (X t).point ⟨0, 0, 1⟩ - (X t).point 0 = e3
  ext <;> simp <;> ring

theorem transform_motion_vel {T : Transform ℝ} (hT : T.IsUnit) (m : Motion ℝ) :
    (transform_motion T m).vel = rotate m.vel T.rot + (T.point 0).cross (rotate m.ang T.rot) := by
  have : (T.point 0).cross (rotate m.ang T.rot) = rotate (-(T.pos.cross m.ang)) T.rot := by
    unfold Transform.point
    rw [cross_rotate_unit hT]
    congr 1
    ext <;> simp <;> ring
  rw [this, ← rotate_add]
  show rotate (-(T.pos.cross m.ang) + m.vel) T.rot = _
  rw [show -(T.pos.cross m.ang) + m.vel = m.vel + -(T.pos.cross m.ang) by abel]

/-- a moving motion, seen from a moving frame -/
theorem transform_motion_deriv {X : ℝ → Transform ℝ} {w : Motion ℝ} {t : ℝ} (hX : HasTwist X w t)
    (uX : ∀ τ, (X τ).IsUnit) {m : ℝ → Motion ℝ} {m' : Motion ℝ} (hm : Motion.HasDeriv m m' t) :
    Motion.HasDeriv (fun τ => transform_motion (X τ) (m τ))
      (transform_motion (X t) m' + motion_cross (transform_motion (X t) (m t)) w) t := by
  have ra := rotate_deriv hX hm.1
  have rv := rotate_deriv hX hm.2
  refine ⟨ra, ?_⟩
  refine (rv.add (Vec3.HasDeriv.cross (hX 0) ra)).congr (fun τ => transform_motion_vel (uX τ) _) ?_
  show (transform_motion (X t) m').vel + ((transform_motion (X t) (m t)).ang.cross w.vel +
    (transform_motion (X t) (m t)).vel.cross w.ang) = _
  rw [transform_motion_vel (uX t), transform_motion_vel (uX t)]
  show _ + ((rotate (m t).ang (X t).rot).cross w.vel + _) = _
  generalize rotate (m t).ang (X t).rot = A
  generalize rotate m'.ang (X t).rot = A'
  generalize rotate (m t).vel (X t).rot = V
  generalize rotate m'.vel (X t).rot = V'
  generalize (X t).point 0 = P
  ext <;> simp <;> ring

/-- potential energy, from the frame of the body -/
theorem bodyPotential_eq (g : Vec3 ℝ) (it : Inertia ℝ) {x : Transform ℝ} (hx : x.IsUnit) :
    bodyPotential g it x = (rotate g x.rot).dot (it.h - Vec3.smul it.mass (x.point 0)) := by
  unfold bodyPotential Transform.point
  have h1 : rotate (Vec3.smul it.mass x.pos + rotate it.h (quat_inv x.rot)) x.rot =
      it.h - Vec3.smul it.mass (rotate (0 - x.pos) x.rot) := by
    rw [rotate_add, rotate_rotate_inv hx, rotate_smul, show (0 : Vec3 ℝ) - x.pos = -x.pos by abel, rotate_neg]
    ext <;> simp <;> ring
  rw [← h1, dot_rotate_unit hx]

/-- the potential energy of a moving body changes by the power needed against gravity -/
theorem bodyPotential_deriv {x : ℝ → Transform ℝ} {v : Motion ℝ} {t : ℝ} (hx : HasTwist x v t)
    (ux : ∀ τ, (x τ).IsUnit) (g : Vec3 ℝ) (it : Inertia ℝ) :
    HasDerivAt (fun τ => bodyPotential g it (x τ))
      (motion_dot v (inertia_mul_motion it ⟨0, rotate g (x t).rot⟩)) t := by
  have hg := rotate_deriv hx (Vec3.HasDeriv.const g t)
  have hp : Vec3.HasDeriv (fun τ => it.h - Vec3.smul it.mass ((x τ).point 0))
      (Vec3.smul it.mass (v.vel + v.ang.cross ((x t).point 0))) t := by
    have h0 := hx 0
    refine ⟨((h0.1.const_mul it.mass).const_sub it.h.x).congr_deriv ?_,
      ((h0.2.1.const_mul it.mass).const_sub it.h.y).congr_deriv ?_,
      ((h0.2.2.const_mul it.mass).const_sub it.h.z).congr_deriv ?_⟩ <;> simp <;> ring
  refine ((Vec3.HasDeriv.dot hg hp).congr_deriv ?_).congr_of_eventuallyEq
    (.of_forall fun τ => bodyPotential_eq g it (ux τ))
  rw [rotate_zero]
  unfold motion_dot inertia_mul_motion
  dsimp only
  generalize rotate g (x t).rot = G
  generalize (x t).point 0 = P
  simp [Vec3.dot, Mat3.mulVec]
  ring

/-- twice the kinetic energy of a body -/
theorem kinetic_deriv {it : Inertia ℝ} (hs : it.it_3x3.IsSymm) {v : ℝ → Motion ℝ} {a : Motion ℝ} {t : ℝ}
    (hv : Motion.HasDeriv v a t) :
    HasDerivAt (fun τ => motion_dot (v τ) (inertia_mul_motion it (v τ)))
      (2 * motion_dot (v t) (inertia_mul_motion it a)) t := by
  obtain ⟨⟨a1, a2, a3⟩, b1, b2, b3⟩ := hv
  have hI : Vec3.HasDeriv (fun τ => (inertia_mul_motion it (v τ)).ang) (inertia_mul_motion it a).ang t := by
    refine ⟨?_, ?_, ?_⟩
    · refine (((a1.const_mul it.it_3x3.a00).add (a2.const_mul it.it_3x3.a01)).add (a3.const_mul it.it_3x3.a02)).add
        ((b3.const_mul it.h.y).sub (b2.const_mul it.h.z)) |>.congr_deriv ?_ |>.congr_of_eventuallyEq
        (.of_forall fun τ => ?_) <;> simp [inertia_mul_motion, Mat3.mulVec]
    · refine (((a1.const_mul it.it_3x3.a10).add (a2.const_mul it.it_3x3.a11)).add (a3.const_mul it.it_3x3.a12)).add
        ((b1.const_mul it.h.z).sub (b3.const_mul it.h.x)) |>.congr_deriv ?_ |>.congr_of_eventuallyEq
        (.of_forall fun τ => ?_) <;> simp [inertia_mul_motion, Mat3.mulVec]
    · refine (((a1.const_mul it.it_3x3.a20).add (a2.const_mul it.it_3x3.a21)).add (a3.const_mul it.it_3x3.a22)).add
        ((b2.const_mul it.h.x).sub (b1.const_mul it.h.y)) |>.congr_deriv ?_ |>.congr_of_eventuallyEq
        (.of_forall fun τ => ?_) <;> simp [inertia_mul_motion, Mat3.mulVec]
  have hL : Vec3.HasDeriv (fun τ => (inertia_mul_motion it (v τ)).vel) (inertia_mul_motion it a).vel t := by
    refine ⟨?_, ?_, ?_⟩
    · refine (b1.const_mul it.mass).sub ((a3.const_mul it.h.y).sub (a2.const_mul it.h.z)) |>.congr_deriv ?_
        |>.congr_of_eventuallyEq (.of_forall fun τ => ?_) <;> simp [inertia_mul_motion]
    · refine (b2.const_mul it.mass).sub ((a1.const_mul it.h.z).sub (a3.const_mul it.h.x)) |>.congr_deriv ?_
        |>.congr_of_eventuallyEq (.of_forall fun τ => ?_) <;> simp [inertia_mul_motion]
    · refine (b3.const_mul it.mass).sub ((a2.const_mul it.h.x).sub (a1.const_mul it.h.y)) |>.congr_deriv ?_
        |>.congr_of_eventuallyEq (.of_forall fun τ => ?_) <;> simp [inertia_mul_motion]
  have h := (Vec3.HasDeriv.dot ⟨a1, a2, a3⟩ hI).add (Vec3.HasDeriv.dot ⟨b1, b2, b3⟩ hL)
  refine h.congr_deriv ?_
  have e := inertia_symm hs (v t) a
  unfold motion_dot at e ⊢
  linarith

/-- the gyroscopic forces do no work -/
theorem gyroscopic (v : Motion ℝ) (f : Force ℝ) : motion_dot v (motion_cross_star v f) = 0 := by
  simp [motion_dot, motion_cross_star, Vec3.dot]
  ring

/-! ## joints -/

theorem axes_deriv {A : List (Motion ℝ)} {c : ℝ → List ℝ} {c' : List ℝ} {t : ℝ} (hl : ∀ τ, (c τ).length = A.length)
    (hl' : c'.length = A.length) (hd : ∀ d, d < A.length → HasDerivAt (fun τ => (c τ).getD d 0) (c'.getD d 0) t) :
    Motion.HasDeriv (fun τ => (A.zipWith (fun ax x => Motion.smul x ax) (c τ)).foldr (· + ·) ⟨0, 0⟩)
      ((A.zipWith (fun ax x => Motion.smul x ax) c').foldr (· + ·) ⟨0, 0⟩) t := by
  induction A generalizing c c' with
  | nil => exact ⟨Vec3.HasDeriv.const 0 t, Vec3.HasDeriv.const 0 t⟩
  | cons a A ih =>
    have split : ∀ l : List ℝ, l.length = (a :: A).length → l = l.getD 0 0 :: l.tail := by
      intro l h
      cases l with
      | nil => simp at h
      | cons x l => simp
    have e := ih (c := fun τ => (c τ).tail) (c' := c'.tail) (fun τ => by simp [hl τ]) (by simp [hl']) (by
      intro d hdA
      have := hd (d + 1) (by simpa using hdA)
      simpa [List.getD_eq_getElem?_getD] using this)
    have h0 := hd 0 (by simp)
    have e0 : Motion.HasDeriv (fun τ => Motion.smul ((c τ).getD 0 0) a) (Motion.smul (c'.getD 0 0) a) t :=
      ⟨⟨h0.mul_const _, h0.mul_const _, h0.mul_const _⟩, h0.mul_const _, h0.mul_const _, h0.mul_const _⟩
    have h2 := e0.add e
    rw [show ((a :: A).zipWith (fun ax x => Motion.smul x ax) c').foldr (· + ·) (⟨0, 0⟩ : Motion ℝ) =
      Motion.smul (c'.getD 0 0) a + (A.zipWith (fun ax x => Motion.smul x ax) c'.tail).foldr (· + ·) ⟨0, 0⟩ by
        conv_lhs => rw [split c' hl']
        rfl]
    rw [show (fun τ => ((a :: A).zipWith (fun ax x => Motion.smul x ax) (c τ)).foldr (· + ·) (⟨0, 0⟩ : Motion ℝ)) =
      fun τ => Motion.smul ((c τ).getD 0 0) a +
        (A.zipWith (fun ax x => Motion.smul x ax) (c τ).tail).foldr (· + ·) ⟨0, 0⟩ by
        funext τ
        conv_lhs => rw [split (c τ) (hl τ)]
        rfl]
    exact h2

section tree
variable {π' : Type} {E : JEnv ℝ π'} {s : System ℝ π'}

/-- accelerations of joints -/
theorem jointMotion_deriv (h : s.WF E.toEnv) (hj : s.Jointed E) (hw : E.MotionWidths) {u : ℝ → List ℝ}
    {w : List ℝ} {t : ℝ} (hu : ∀ τ, (u τ).length = (s.link_types.map (wOf E.dw)).sum)
    (hw' : w.length = (s.link_types.map (wOf E.dw)).sum)
    (hd : ∀ r, HasDerivAt (fun τ => (u τ).getD r 0) (w.getD r 0) t) {i : Nat} (hi : i < s.link_parents.length) :
    Motion.HasDeriv (fun τ => s.jointMotion E (u τ) i) (s.jointMotion E w i) t := by
  have hi2 : i < s.link_types.length := by rw [h.types_len]; exact hi
  have hlen := axesAt_length h hj hw hi2
  unfold System.jointMotion
  apply axes_deriv
  · intro τ
    rw [ownSlice_length (hu τ) hi2, hlen]
  · rw [ownSlice_length hw' hi2, hlen]
  · intro d hdA
    simp only [ownSlice_getD h hj hw hi2 _ hdA]
    exact hd _

theorem transform_motion_lin (T : Transform ℝ) (g : Vec3 ℝ) : transform_motion T ⟨0, g⟩ = ⟨0, rotate g T.rot⟩ := by
  have e : -(T.pos.cross (0 : Vec3 ℝ)) + g = g := by ext <;> simp
  unfold transform_motion
  dsimp only
  rw [e, rotate_zero]

theorem motion_cross_add_self (m n : Motion ℝ) : motion_cross (m + n) n = motion_cross m n := by
  ext <;> simp [motion_cross, Vec3.cross] <;> ring

/-- C111: the accelerations in the Newton-Euler equations are the rates of the velocities of the links, plus gravity
as seen from the link. -/
theorem C111_accelerations (h : s.WF E.toEnv) (hj : s.Jointed E) (hw : E.MotionWidths) {q u : ℝ → List ℝ}
    {w : List ℝ} {t : ℝ} (hq : ∀ τ, (q τ).length = (s.link_types.map (wOf E.qw)).sum)
    (hu : ∀ τ, (u τ).length = (s.link_types.map (wOf E.dw)).sum)
    (hw' : w.length = (s.link_types.map (wOf E.dw)).sum)
    (hd : ∀ r, HasDerivAt (fun τ => (u τ).getD r 0) (w.getD r 0) t)
    {xs : ℝ → List (Transform ℝ)} {s' : ℝ → System ℝ π'}
    (hf : ∀ τ, s.forward_kinematics_transforms E (q τ) = .ok (xs τ, s' τ))
    (ht : ∀ l ∈ s.links, l.transform1.rot.normSq = 1)
    (hT : ∀ (i : Nat) (τ : ℝ) (T : Transform ℝ), i < s.link_parents.length →
      s.IsJointTransform E (q τ) i T → T.IsUnit)
    (hm : ∀ (i : Nat) (T : ℝ → Transform ℝ), i < s.link_parents.length →
      (∀ τ, s.IsJointTransform E (q τ) i (T τ)) → HasTwist T (s.jointMotion E (u t) i) t)
    {v : ℝ → Nat → Motion ℝ} (hv : ∀ τ, (s' τ).IsLinkVel E (u τ) (v τ)) {a : Nat → Motion ℝ} {f : Nat → Force ℝ}
    {tau : List ℝ} (hne : (s' t).IsNewtonEuler E (u t) w (v t) a f tau) (i : Nat) (hi : i < s.link_parents.length) :
    (∃ a0, Motion.HasDeriv (fun τ => v τ i) a0 t ∧ a i = a0 + ⟨0, rotate s.gravity (poseAt (xs t) i).rot⟩) ∧
      ∀ τ, (poseAt (xs τ) i).IsUnit := by
  have fk : ∀ τ, s.IsFK E (q τ) (xs τ) (s' τ) := fun τ => isFK_unique h hj (hq τ) (hf τ)
  induction i using Nat.strong_induction_on with
  | _ i ih =>
    have hrow : s.links[i]? = some (s.links[i]'(by rw [h.links_len]; exact hi)) :=
      List.getElem?_eq_getElem _
    set row := s.links[i]'(by rw [h.links_len]; exact hi) with hrowdef
    have hru : row.transform1.IsUnit := ht _ (List.getElem_mem _)
    have hpose := fun τ => (fk τ).pose i hi row hrow
    choose T hT1 hT2 hT3 using hpose
    have hTu : ∀ τ, (T τ).IsUnit := fun τ => hT i τ _ hi (hT1 τ)
    have hJ := hm i T hi hT1
    have hL := twist_mul (twist_const row.transform1 t) hJ (fun _ => hru) (hTu t)
    rw [transform_motion_zero'', add_zero_motion] at hL
    have hLu : ∀ τ, (transform_mul (T τ) row.transform1).IsUnit := fun τ =>
      transform_mul_unit (hTu τ) hru
    have hpi : ∀ τ, poseAt (xs τ) i = transform_mul (transform_mul (T τ) row.transform1)
        (poseAt (xs τ) s.link_parents[i]) := by
      intro τ
      have := hT2 τ
      rw [poseAt, if_neg (by omega), Int.toNat_natCast, List.getD_eq_getElem?_getD, this,
        Option.getD_some]
    have hlT : ∀ τ, (s' τ).linkT i = transform_mul (T τ) row.transform1 := by
      intro τ
      unfold System.linkT
      rw [hT3 τ]
      rfl
    have hax : ∀ τ x, (s' τ).jointMotion E x i = s.jointMotion E x i := by
      intro τ x
      rw [(fk τ).rest]
      rfl
    have hpar : ∀ τ, (s' τ).link_parents = s.link_parents := fun τ => by rw [(fk τ).rest]
    have hgr : (s' t).gravity = s.gravity := by rw [(fk t).rest]
    have hvi : ∀ τ, v τ i = (if s.link_parents[i] = -1 then ⟨0, 0⟩ else
        transform_motion (transform_mul (T τ) row.transform1) (v τ s.link_parents[i].toNat)) +
          s.jointMotion E (u τ) i := by
      intro τ
      have := hv τ i (by rw [hpar]; exact hi)
      change v τ i = _ + (s' τ).jointMotion E (u τ) i at this
      rw [hax, hlT] at this
      simp only [hpar] at this
      exact this
    have hai := hne.acc i (by rw [hpar]; exact hi)
    rw [hax, hax, hlT, hgr] at hai
    simp only [hpar] at hai
    have hjd := jointMotion_deriv h hj hw hu hw' hd hi
    obtain ⟨h1, h2⟩ := h.topo i hi
    by_cases hp : s.link_parents[i] = -1
    · simp only [if_pos hp, zero_add_motion] at hvi
      rw [if_pos hp] at hai
      have e : ∀ τ, poseAt (xs τ) i = transform_mul (T τ) row.transform1 := by
        intro τ
        rw [hpi τ, hp]
        exact transform_mul_zero _
      refine ⟨⟨s.jointMotion E w i, ?_, ?_⟩, fun τ => ?_⟩
      · rw [show (fun τ => v τ i) = fun τ => s.jointMotion E (u τ) i from funext hvi]
        exact hjd
      · rw [hai, hvi t, motion_cross_self, e t, transform_motion_lin, add_zero]
        exact add_comm _ _
      · rw [e τ]
        exact hLu τ
    · simp only [if_neg hp] at hvi
      rw [if_neg hp] at hai
      obtain ⟨⟨a0, ih1, ih3⟩, ih2⟩ := ih s.link_parents[i].toNat (by omega) (by omega)
      have hcast : ((s.link_parents[i].toNat : Nat) : Int) = s.link_parents[i] :=
        Int.toNat_of_nonneg (by omega)
      simp only [hcast] at ih2 ih3
      have hX := transform_motion_deriv hL hLu ih1
      refine ⟨⟨transform_motion (transform_mul (T t) row.transform1) a0 +
        motion_cross (transform_motion (transform_mul (T t) row.transform1) (v t s.link_parents[i].toNat))
          (s.jointMotion E (u t) i) + s.jointMotion E w i, ?_, ?_⟩, fun τ => ?_⟩
      · rw [show (fun τ => v τ i) = fun τ => transform_motion (transform_mul (T τ) row.transform1)
          (v τ s.link_parents[i].toNat) + s.jointMotion E (u τ) i from funext hvi]
        exact hX.add hjd
      · rw [hai, hvi t, ih3, transform_motion_add, transform_motion_lin, motion_cross_add_self, hpi t,
          rotate_rotate]
        show _ = _ + (⟨0, rotate s.gravity (quat_mul (transform_mul (T t) row.transform1).rot
          (poseAt (xs t) s.link_parents[i]).rot)⟩ : Motion ℝ)
        abel
      · rw [hpi τ]
        exact transform_mul_unit (hLu τ) (ih2 τ)

/-- C111: the power of the torques of inverse dynamics is that of the inertial forces; gyroscopic forces do no work -/
theorem C111_power (h : s.Dynamic E) (hn : 0 < s.link_parents.length) {qd qdd tau : List ℝ}
    (hqd : qd.length = (s.link_types.map (wOf E.dw)).sum) (hqdd : qdd.length = qd.length)
    (htau : inverse_dynamics E s qd qdd = .ok tau) :
    ∃ v a f, s.IsNewtonEuler E qd qdd v a f tau ∧
      ∑ r ∈ range qd.length, qd.getD r 0 * tau.getD r 0 =
        ∑ i ∈ range s.link_parents.length, motion_dot (v i) (inertia_mul_motion (s.linkI i) (a i)) := by
  obtain ⟨tau', v, a, f, e1, hlen, hne⟩ := C26_newton_euler h hn hqd hqdd
  rw [e1] at htau
  obtain rfl : tau' = tau := by simpa using htau
  have e2 := inverse_dynamics_ok h.wf h.jointed hqd (hqdd.trans hqd) hn
  rw [e2] at e1
  obtain rfl : torques E s qd qdd = tau' := by simpa using e1
  have hvel : ∀ i, i < s.link_parents.length → v i = linkVel E s qd i := fun i hi =>
    linkVel_unique h qd hqd hne.vel hi
  have hacc : ∀ i, i < s.link_parents.length → a i = linkAcc E s qd qdd i := by
    apply tree_induction
    intro i hi ih
    obtain ⟨t1, t2⟩ := h.wf.topo i hi
    have ha := treeVal_eq h.wf.topo (⟨0, s.gravity⟩ : Motion ℝ)
      (fun i a => transform_motion (s.linkT i) a +
        (jointVel E s qdd i + motion_cross (linkVel E s qd i) (jointVel E s qd i))) i hi
    change linkAcc E s qd qdd i = _ at ha
    rw [hne.acc i hi, ha, hvel i hi]
    unfold System.jointMotion
    rw [jointVel_zipWith h qd hqd hi, jointVel_zipWith h qdd (hqdd.trans hqd) hi, add_assoc]
    congr 2
    unfold parentVal
    by_cases hp : s.link_parents[i] = -1
    · rw [if_pos hp, if_neg (by omega)]
    · rw [if_neg hp, if_pos (by omega), ih s.link_parents[i].toNat (by omega) (by omega)]
      rfl
  refine ⟨v, a, f, hne, ?_⟩
  have hp := virtual_power h.wf.topo h.unitT (jointVel E s qd) (linkForce E s qd qdd)
  have hL : ∀ i ∈ range s.link_parents.length, motion_dot (vel s.link_parents s.linkT (jointVel E s qd) i)
      (linkForce E s qd qdd i) = motion_dot (v i) (inertia_mul_motion (s.linkI i) (a i)) := by
    intro i hi
    have hi' := Finset.mem_range.1 hi
    rw [hvel i hi', hacc i hi']
    unfold linkForce
    rw [motion_dot_add_right]
    change _ + motion_dot (linkVel E s qd i) (motion_cross_star (linkVel E s qd i) _) = _
    rw [gyroscopic, add_zero]
    rfl
  rw [Finset.sum_congr rfl hL] at hp
  rw [hp, hqd, ← h.count]
  unfold dofCount dofStart
  rw [sum_offs]
  apply Finset.sum_congr rfl
  intro i hi
  have hi' := Finset.mem_range.1 hi
  have hi2 : i < s.link_types.length := by rw [h.wf.types_len]; exact hi'
  unfold jointVel
  rw [jointM_eq, sum_motion_dot]
  apply Finset.sum_congr rfl
  intro d hd
  have hd' := Finset.mem_range.1 hd
  have e := torques_get (E := E) (s := s) qd qdd hi' hd'
  have e3 : (torques E s qd qdd).getD (offs (fun k => (s.axesAt E k).length) i + d) 0 =
      motion_dot (s.axesAt E i)[d] (force s.link_parents s.linkT (linkForce E s qd qdd) i) := by
    rw [List.getD_eq_getElem?_getD]
    exact congrArg (fun o => o.getD 0) e
  rw [e3, ownSlice_getD h.wf h.jointed h.widths hi2 qd hd', motion_dot_smul]
  simp [hd']

/-- prepared systems -/
theorem fk_same (hE : E.Std) (h : s.Simulable E) {q : List ℝ} (hq : q.length = (s.link_types.map (wOf E.qw)).sum)
    (hu : s.UnitQ E q) {xs : List (Transform ℝ)} {s' : System ℝ π'}
    (hf : s.forward_kinematics_transforms E q = .ok (xs, s')) :
    SameButCache s s' ∧ s'.Simulable E ∧ s'.Dynamic E := by
  obtain ⟨s1, x, e, h1, h2, h3, _⟩ := fk_simulable hE h (st := ⟨q, [], []⟩) hq hu
  unfold forward_kinematics at e
  dsimp only at e
  rw [hf] at e
  simp only [ok_bind] at e
  obtain rfl : s' = s1 := by
    have := (Except.ok.injEq _ _).mp e
    exact (Prod.mk.injEq _ _ _ _).mp this |>.1
  exact ⟨h1, h2, h3⟩

theorem same_linkI {s' : System ℝ π'} (h : SameButCache s s') (i : Nat) : s'.linkI i = s.linkI i := by
  obtain ⟨_, hl, hr⟩ := h
  unfold System.linkI
  by_cases hi : i < s.links.length
  · have hi' : i < s'.links.length := by omega
    rw [List.getElem?_eq_getElem hi, List.getElem?_eq_getElem hi']
    have := (hr i hi hi').2.2.2
    simp [this]
  · rw [List.getElem?_eq_none (by omega), List.getElem?_eq_none (by omega)]

/-- C111: in systems of hinges, sliders, spherical and frozen joints, while the coordinates change with the velocities
`u` and these with the accelerations `w`: the energy (kinetic energy as the library computes it, and the potential
energy of the masses in the gravity of the system) changes by the power of the torques that inverse dynamics returns
for the accelerations, and of what accelerates the armatures. -/
theorem C111_balance (hE : E.Std) (h : s.Simulable E) (hb : s.JointsIn BuiltIn.Plain) {q u : ℝ → List ℝ}
    {w : List ℝ} {t : ℝ} (hq : ∀ τ, (q τ).length = (s.link_types.map (wOf E.qw)).sum)
    (hu : ∀ τ, (u τ).length = (s.link_types.map (wOf E.dw)).sum) (hw : w.length = (u t).length)
    (hun : ∀ τ, s.UnitQ E (q τ))
    (hfol : ∀ (i : Nat) (b : BuiltIn), s.link_types[i]? = some b.name →
      b.Follows (fun τ => ownSlice E.qw s.link_types (q τ) i) (ownSlice E.dw s.link_types (u t) i) t)
    (hd : ∀ r, HasDerivAt (fun τ => (u τ).getD r 0) (w.getD r 0) t)
    {xs : ℝ → List (Transform ℝ)} {s' : ℝ → System ℝ π'}
    (hf : ∀ τ, s.forward_kinematics_transforms E (q τ) = .ok (xs τ, s' τ)) {T : ℝ → ℝ}
    (hT : ∀ τ, kinetic_energy E (s' τ) (u τ) = .ok (T τ)) {tau : List ℝ}
    (htau : inverse_dynamics E (s' t) (u t) w = .ok tau) :
    HasDerivAt (fun τ => T τ + potential s (xs τ)) (∑ r ∈ range (u t).length,
      (u t).getD r 0 * (tau.getD r 0 + s.link_armature.getD r 0 * w.getD r 0)) t := by
  have hj := h.jointed hE
  have same := fun τ => fk_same hE h (hq τ) (hun τ) (hf τ)
  have fk : ∀ τ, s.IsFK E (q τ) (xs τ) (s' τ) := fun τ => isFK_unique h.wf hj (hq τ) (hf τ)
  have hpar : ∀ τ, (s' τ).link_parents = s.link_parents := fun τ => by rw [(fk τ).rest]
  have htyp : ∀ τ, (s' τ).link_types = s.link_types := fun τ => by rw [(fk τ).rest]
  have harm : ∀ τ, (s' τ).link_armature = s.link_armature := fun τ => by rw [(fk τ).rest]
  have hu' : ∀ τ, (u τ).length = ((s' τ).link_types.map (wOf E.dw)).sum := fun τ => by rw [htyp τ]; exact hu τ
  -- joints
  have hJu : ∀ (i : Nat) (τ : ℝ) (T : Transform ℝ), i < s.link_parents.length →
      s.IsJointTransform E (q τ) i T → T.IsUnit := by
    rintro i τ T hi ⟨jm, p, e1, e2, rfl⟩
    have hi2 : i < s.link_types.length := by rw [h.wf.types_len]; exact hi
    obtain ⟨b, _, hbn⟩ := hb s.link_types[i] (List.getElem_mem _)
    have hd : s.link_types.getD i "" = b.name := by simp [List.getD, hi2, hbn]
    rw [hd, hE.joints] at e1
    cases e1
    refine builtin_transform_unit b ?_ p
    intro hq
    exact hun τ i hi2 (by rw [hbn, is_quat_name]; exact hq)
  have hJt : ∀ (i : Nat) (T : ℝ → Transform ℝ), i < s.link_parents.length →
      (∀ τ, s.IsJointTransform E (q τ) i (T τ)) → HasTwist T (s.jointMotion E (u t) i) t := by
    intro i T hi hT
    have hi2 : i < s.link_types.length := by rw [h.wf.types_len]; exact hi
    obtain ⟨b, hpl, hbn⟩ := hb s.link_types[i] (List.getElem_mem _)
    have hd : s.link_types.getD i "" = b.name := by simp [List.getD, hi2, hbn]
    obtain ⟨p, hp⟩ := jointParam_isSome h.wf hj hi
    have hTe : ∀ τ, T τ = b.model.transform (ownSlice E.qw s.link_types (q τ) i) p := by
      intro τ
      obtain ⟨jm, p', e1, e2, e3⟩ := hT τ
      rw [hd, hE.joints] at e1
      cases e1
      rw [hp] at e2
      cases e2
      exact e3
    have hlen : (ownSlice E.dw s.link_types (u t) i).length = b.qd_width := by
      rw [ownSlice_length (hu t) hi2, hbn, (wOf_std hE b).2]
    have := C78_plain (p := p) hpl hlen (hfol i b (by rw [List.getElem?_eq_getElem hi2, hbn]))
    refine twist_congr this (fun τ => (hTe τ).symm) ?_
    unfold System.jointMotion System.axesAt BuiltIn.declared
    rw [hd, hE.joints, hp]
    rfl
  -- velocities
  have hv : ∀ τ, (s' τ).IsLinkVel E (u τ) (linkVel E (s' τ) (u τ)) := fun τ =>
    linkVel_exists (same τ).2.2 (u τ) (hu' τ)
  have hTe : ∀ τ, T τ = 1 / 2 * (∑ i ∈ range s.link_parents.length,
      motion_dot (linkVel E (s' τ) (u τ) i) (inertia_mul_motion (s.linkI i) (linkVel E (s' τ) (u τ) i)) +
      ∑ r ∈ range (u t).length, s.link_armature.getD r 0 * (u τ).getD r 0 ^ 2) := by
    intro τ
    obtain ⟨M, T', _, e1, e2, e3⟩ := C27_energy (same τ).2.2 (hu' τ) (hv τ)
    rw [hT τ] at e1
    obtain rfl : T τ = T' := by simpa using e1
    rw [e2, e3, hpar τ, harm τ, hu τ, ← hu t]
    simp only [same_linkI (same τ).1]
  obtain ⟨v, a, f, hne, hpow⟩ := C111_power (same t).2.2 (by rw [hpar]; exact h.nonempty) (hu' t) hw htau
  have hveq : ∀ i, i < s.link_parents.length → v i = linkVel E (s' t) (u t) i := fun i hi =>
    linkVel_unique (same t).2.2 (u t) (hu' t) hne.vel (by rw [hpar]; exact hi)
  -- the equations for the velocities that are derived
  have hne' : (s' t).IsNewtonEuler E (u t) w (linkVel E (s' t) (u t)) a f tau := {
    vel := hv t
    acc := by
      intro i hi
      rw [hne.acc i hi, hveq i (by rw [← hpar t]; exact hi)]
    force := by
      intro i hi
      rw [hne.force i hi, hveq i (by rw [← hpar t]; exact hi)]
    torque := hne.torque }
  have acc := fun i hi => C111_accelerations h.wf hj h.widths hq hu (hw.trans (hu t)) hd hf h.unit hJu hJt hv hne' i hi
  have body : ∀ i ∈ range s.link_parents.length, HasDerivAt (fun τ => 1 / 2 *
      motion_dot (linkVel E (s' τ) (u τ) i) (inertia_mul_motion (s.linkI i) (linkVel E (s' τ) (u τ) i)) +
      bodyPotential s.gravity (s.linkI i) (poseAt (xs τ) i))
      (motion_dot (v i) (inertia_mul_motion (s.linkI i) (a i))) t := by
    intro i hi
    have hi' := Finset.mem_range.1 hi
    obtain ⟨⟨a0, ha0, ea⟩, hxu⟩ := acc i hi'
    have hsym : (s.linkI i).it_3x3.IsSymm := by
      rw [← same_linkI (same t).1]
      exact (same t).2.2.symmI i (by rw [hpar]; exact hi')
    have tw : HasTwist (fun τ => poseAt (xs τ) i) (linkVel E (s' t) (u t) i) t :=
      C78_tree h.wf hj hq hf h.unit hJu hJt (hv t) i hi'
    have d1 := (kinetic_deriv hsym ha0).const_mul (1 / 2)
    have d2 := bodyPotential_deriv tw hxu s.gravity (s.linkI i)
    refine (d1.add d2).congr_deriv ?_
    rw [ea, inertia_mul_add, motion_dot_add_right, hveq i hi']
    ring
  have total := HasDerivAt.fun_sum body
  have arm : HasDerivAt (fun τ => ∑ r ∈ range (u t).length, 1 / 2 * (s.link_armature.getD r 0 * (u τ).getD r 0 ^ 2))
      (∑ r ∈ range (u t).length, (u t).getD r 0 * (s.link_armature.getD r 0 * w.getD r 0)) t := by
    apply HasDerivAt.fun_sum
    intro r _
    refine ((((hd r).pow 2).const_mul (s.link_armature.getD r 0)).const_mul (1 / 2)).congr_deriv ?_
    push_cast
    ring
  refine ((total.add arm).congr_deriv ?_).congr_of_eventuallyEq (.of_forall fun τ => ?_)
  · rw [hpar] at hpow
    simp only [same_linkI (same t).1] at hpow
    rw [← hpow, ← Finset.sum_add_distrib]
    apply Finset.sum_congr rfl
    intro r _
    ring
  · show T τ + potential s (xs τ) = ∑ i ∈ range s.link_parents.length, (1 / 2 *
        motion_dot (linkVel E (s' τ) (u τ) i) (inertia_mul_motion (s.linkI i) (linkVel E (s' τ) (u τ) i)) +
        bodyPotential s.gravity (s.linkI i) (poseAt (xs τ) i)) +
      ∑ r ∈ range (u t).length, 1 / 2 * (s.link_armature.getD r 0 * (u τ).getD r 0 ^ 2)
    rw [hTe τ, Finset.sum_add_distrib, ← Finset.mul_sum, ← Finset.mul_sum]
    unfold potential
    ring

/-- C111: the energy is constant while the torques only accelerate the armatures. -/
theorem C111_conserved (hE : E.Std) (h : s.Simulable E) (hb : s.JointsIn BuiltIn.Plain) {q u w : ℝ → List ℝ}
    (hq : ∀ τ, (q τ).length = (s.link_types.map (wOf E.qw)).sum)
    (hu : ∀ τ, (u τ).length = (s.link_types.map (wOf E.dw)).sum) (hw : ∀ τ, (w τ).length = (u τ).length)
    (hun : ∀ τ, s.UnitQ E (q τ))
    (hfol : ∀ (t : ℝ) (i : Nat) (b : BuiltIn), s.link_types[i]? = some b.name →
      b.Follows (fun τ => ownSlice E.qw s.link_types (q τ) i) (ownSlice E.dw s.link_types (u t) i) t)
    (hd : ∀ t r, HasDerivAt (fun τ => (u τ).getD r 0) ((w t).getD r 0) t)
    {xs : ℝ → List (Transform ℝ)} {s' : ℝ → System ℝ π'}
    (hf : ∀ τ, s.forward_kinematics_transforms E (q τ) = .ok (xs τ, s' τ)) {T : ℝ → ℝ}
    (hT : ∀ τ, kinetic_energy E (s' τ) (u τ) = .ok (T τ)) {tau : ℝ → List ℝ}
    (htau : ∀ τ, inverse_dynamics E (s' τ) (u τ) (w τ) = .ok (tau τ))
    (h0 : ∀ τ r, (tau τ).getD r 0 = -(s.link_armature.getD r 0 * (w τ).getD r 0)) (t t' : ℝ) :
    T t + potential s (xs t) = T t' + potential s (xs t') := by
  have key : ∀ t, HasDerivAt (fun τ => T τ + potential s (xs τ)) 0 t := by
    intro t
    refine (C111_balance hE h hb hq hu (hw t) hun (hfol t) (hd t) hf hT (htau t)).congr_deriv ?_
    apply Finset.sum_eq_zero
    intro r _
    rw [h0]
    ring
  exact is_const_of_deriv_eq_zero (fun t => (key t).differentiableAt) (fun t => (key t).deriv) t t'

/-- C111: for the accelerations that `forward_dynamics` returns, the energy changes by the power of the given torques,
of the dampers and of the springs, if the regularisation of the mass matrix counts as an inertia. -/
theorem C111_forward (hE : E.Std) (h : s.Simulable E) (hb : s.JointsIn BuiltIn.Plain) (hpi : 0 < E.pi)
    (hp : ∀ g ∈ s.geoms, g.Physical) (ha : ∀ x ∈ s.link_armature, 0 ≤ x)
    (hda : ∀ x ∈ s.link_damping, 0 ≤ x) (hdt : 0 ≤ s.dt) (hit : s.mass_mat_iters = 0) {q u : ℝ → List ℝ}
    {w tau spring : List ℝ} {t : ℝ} (hq : ∀ τ, (q τ).length = (s.link_types.map (wOf E.qw)).sum)
    (hu : ∀ τ, (u τ).length = (s.link_types.map (wOf E.dw)).sum)
    (hun : ∀ τ, s.UnitQ E (q τ))
    (hfol : ∀ (i : Nat) (b : BuiltIn), s.link_types[i]? = some b.name →
      b.Follows (fun τ => ownSlice E.qw s.link_types (q τ) i) (ownSlice E.dw s.link_types (u t) i) t)
    (hd : ∀ r, HasDerivAt (fun τ => (u τ).getD r 0) (w.getD r 0) t)
    {xs : ℝ → List (Transform ℝ)} {s' : ℝ → System ℝ π'}
    (hf : ∀ τ, s.forward_kinematics_transforms E (q τ) = .ok (xs τ, s' τ)) {T : ℝ → ℝ}
    (hT : ∀ τ, kinetic_energy E (s' τ) (u τ) = .ok (T τ)) (htau : tau.length = (u t).length)
    (hfd : forward_dynamics E (s' t) (q t) (u t) tau = .ok w) (hsp : _spring_force E (s' t) (q t) = .ok spring) :
    HasDerivAt (fun τ => T τ + potential s (xs τ) + regularEnergy s (u τ)) (∑ r ∈ range (u t).length,
      (u t).getD r 0 * (tau.getD r 0 - s.link_damping.getD r 0 * (u t).getD r 0 +
        s.link_spring_stiffness.getD r 0 * spring.getD r 0)) t := by
  have hj := h.jointed hE
  obtain ⟨same, hsim, hdyn⟩ := fk_same hE h (hq t) (hun t) (hf t)
  have hrest := (isFK_unique h.wf hj (hq t) (hf t)).rest
  have hpar : (s' t).link_parents = s.link_parents := by rw [hrest]
  have htyp : (s' t).link_types = s.link_types := by rw [hrest]
  have hgeo : (s' t).geoms = s.geoms := by rw [hrest]
  have harm : (s' t).link_armature = s.link_armature := by rw [hrest]
  have hdam : (s' t).link_damping = s.link_damping := by rw [hrest]
  have hsti : (s' t).link_spring_stiffness = s.link_spring_stiffness := by rw [hrest]
  have hdt' : (s' t).dt = s.dt := by rw [hrest]
  have hit' : (s' t).mass_mat_iters = s.mass_mat_iters := by rw [hrest]
  obtain ⟨qdd, tauID, spring', e1, e2, e3, e4, e5, e6, e7⟩ := C27_forward_dynamics hE hdyn hsim.builtin
    hsim.nonempty hpi (by rw [hgeo]; exact hp) (by rw [harm]; exact ha) (by rw [hdam]; exact hda)
    (by rw [hdt']; exact hdt) (by rw [hit']; exact hit) (q := q t) (qd := u t) (tau := tau)
    (by rw [htyp]; exact hq t) (by rw [htyp]; exact hu t) htau
  rw [hfd] at e1
  obtain rfl : w = qdd := by simpa using e1
  rw [hsp] at e5
  obtain rfl : spring = spring' := by simpa using e5
  have bal := C111_balance hE h hb hq hu e2 hun hfol hd hf hT e3
  have reg : HasDerivAt (fun τ => regularEnergy s (u τ)) (∑ r ∈ range (u t).length,
      (u t).getD r 0 * ((s.link_damping.getD r 0 * s.dt + 1e-6) * w.getD r 0)) t := by
    have : HasDerivAt (fun τ => ∑ r ∈ range (u t).length,
        1 / 2 * ((s.link_damping.getD r 0 * s.dt + 1e-6) * (u τ).getD r 0 ^ 2)) (∑ r ∈ range (u t).length,
      (u t).getD r 0 * ((s.link_damping.getD r 0 * s.dt + 1e-6) * w.getD r 0)) t := by
      apply HasDerivAt.fun_sum
      intro r _
      refine ((((hd r).pow 2).const_mul (s.link_damping.getD r 0 * s.dt + 1e-6)).const_mul (1 / 2)).congr_deriv ?_
      push_cast
      ring
    refine this.congr_of_eventuallyEq (.of_forall fun τ => ?_)
    dsimp only [regularEnergy]
    rw [hu τ, hu t]
  refine (bal.add reg).congr_deriv ?_
  rw [← Finset.sum_add_distrib]
  apply Finset.sum_congr rfl
  intro r hr
  have := e7 r (Finset.mem_range.1 hr)
  rw [harm, hdam, hdt', hsti] at this
  rw [← this]
  ring

/-! ## springs -/

theorem builtin_name_injective {b b' : BuiltIn} (h : b.name = b'.name) : b = b' := by
  have e : ∀ b : BuiltIn, BuiltIn.ofName b.name = some b := by
    exact BuiltIn.ofName_name
  have := e b
  rw [h, e b'] at this
  exact (Option.some.inj this).symm

theorem Straight.plain {b : BuiltIn} (h : Straight b) : b.Plain := by
  cases b <;> simp [Straight] at h <;> trivial

theorem Straight.widths {b : BuiltIn} (h : Straight b) : b.q_width = b.qd_width := by
  cases b <;> simp [Straight] at h <;> rfl

theorem Straight.noQuat {b : BuiltIn} (h : Straight b) : isFreeOrCor b = false ∧ isSpherical b = false := by
  cases b <;> simp [Straight] at h <;> exact ⟨rfl, rfl⟩

theorem straight_widths (hE : E.Std) (hb : s.JointsIn Straight) :
    s.link_types.map (wOf E.qw) = s.link_types.map (wOf E.dw) := by
  apply List.map_congr_left
  intro t ht
  obtain ⟨b, hs, rfl⟩ := hb t ht
  rw [(wOf_std hE b).1, (wOf_std hE b).2, hs.widths]

theorem straight_slice (hE : E.Std) (hb : s.JointsIn Straight) {β : Type} (x : List β) {i : Nat}
    (hi : i < s.link_types.length) : ownSlice E.qw s.link_types x i = ownSlice E.dw s.link_types x i := by
  unfold ownSlice
  rw [List.map_take, List.map_take, straight_widths hE hb]
  obtain ⟨b, hs, hbn⟩ := hb s.link_types[i] (List.getElem_mem _)
  have e : s.link_types.getD i "" = b.name := by simp [List.getD, hi, hbn]
  rw [e, (wOf_std hE b).1, (wOf_std hE b).2, hs.widths]

/-- C111: the springs of such joints pull with the distance to their zero points. -/
theorem C111_springs (h : s.WF E.toEnv) (hb : s.JointsIn Straight) (hn : 0 < s.link_parents.length)
    {q : List ℝ} (hq : q.length = (s.link_types.map (wOf E.qw)).sum) :
    _spring_force E s q = .ok (lsub s.link_spring_zeropoint q) := by
  have hlen : (lsub s.link_spring_zeropoint q).length = (s.link_types.map (wOf E.qw)).sum := by
    simp [lsub, h.zeropoint_len, hq]
  unfold _spring_force
  rw [scan_pure h.known h.types_len _ (arg := (argQ q).and <|
    (argQ s.link_spring_zeropoint).and (argL s.link_types)) (by
      intro x hx
      simp only [ScanArg.and, argQ, argL, List.mem_append, List.mem_singleton] at hx
      rcases hx with rfl | rfl | rfl
      · exact hq
      · exact h.zeropoint_len
      · exact h.types_len)
    (rows_and (rows_argQ rfl q) (rows_and (rows_argQ rfl _) (rows_argL _ _)))
    (by simp [h.types_len])]
  simp only [ok_bind]
  rw [jnpConcatenate_ok (by simp [h.types_len]; exact hn)]
  congr 1
  rw [← chunks_flatten _ (lsub s.link_spring_zeropoint q) hlen]
  congr 1
  apply List.ext_getElem
  · simp
  · intro i h1 h2
    have hi : i < s.link_types.length := by simpa using h2
    simp only [List.getElem_map, List.getElem_zip, chunks_row]
    obtain ⟨b, hs, hbn⟩ := hb s.link_types[i] (List.getElem_mem _)
    rw [hbn]
    unfold _calc_spring_force_per_link
    simp only [is_free_or_cor_name, is_spherical_name, hs.noQuat.1, hs.noQuat.2, Bool.false_eq_true, if_false]
    unfold lsub ownSlice
    rw [List.drop_zipWith, List.take_zipWith]

/-- C111: hinges and sliders with springs and dampers, moved by nothing else than gravity: the dampers take energy,
and nothing gives any. -/
theorem C111_dampers (hE : E.Std) (h : s.Simulable E) (hb : s.JointsIn Straight) (hpi : 0 < E.pi)
    (hp : ∀ g ∈ s.geoms, g.Physical) (ha : ∀ x ∈ s.link_armature, 0 ≤ x)
    (hda : ∀ x ∈ s.link_damping, 0 ≤ x) (hdt : 0 ≤ s.dt) (hit : s.mass_mat_iters = 0) {q u : ℝ → List ℝ}
    {w : List ℝ} {t : ℝ} (hq : ∀ τ, (q τ).length = (s.link_types.map (wOf E.qw)).sum)
    (hu : ∀ τ, (u τ).length = (s.link_types.map (wOf E.dw)).sum)
    (hfol : ∀ r, HasDerivAt (fun τ => (q τ).getD r 0) ((u t).getD r 0) t)
    (hd : ∀ r, HasDerivAt (fun τ => (u τ).getD r 0) (w.getD r 0) t)
    {xs : ℝ → List (Transform ℝ)} {s' : ℝ → System ℝ π'}
    (hf : ∀ τ, s.forward_kinematics_transforms E (q τ) = .ok (xs τ, s' τ)) {T : ℝ → ℝ}
    (hT : ∀ τ, kinetic_energy E (s' τ) (u τ) = .ok (T τ))
    (hfd : forward_dynamics E (s' t) (q t) (u t) (List.replicate (u t).length 0) = .ok w) :
    HasDerivAt (fun τ => T τ + potential s (xs τ) + regularEnergy s (u τ) + elastic s (q τ))
      (-∑ r ∈ range (u t).length, s.link_damping.getD r 0 * (u t).getD r 0 ^ 2) t := by
  have hj := h.jointed hE
  have hb' : s.JointsIn BuiltIn.Plain := fun x hx => by
    obtain ⟨b, h1, h2⟩ := hb x hx
    exact ⟨b, h1.plain, h2⟩
  have hqu : (q t).length = (u t).length := by rw [hq, hu, straight_widths hE hb]
  have hun : ∀ τ, s.UnitQ E (q τ) := by
    intro τ i hi hq
    obtain ⟨b, hs, hbn⟩ := hb s.link_types[i] (List.getElem_mem _)
    rw [hbn, is_quat_name] at hq
    simp [hs.noQuat.1, hs.noQuat.2] at hq
  have hslice : ∀ (i : Nat) (j : Nat) (b : BuiltIn), Straight b → s.link_types[i]? = some b.name → j < b.qd_width →
      HasDerivAt (fun τ => (ownSlice E.qw s.link_types (q τ) i).getD j 0)
        ((ownSlice E.dw s.link_types (u t) i).getD j 0) t := by
    intro i j b hs hbn hjw
    obtain ⟨hi, hbn'⟩ := List.getElem?_eq_some_iff.1 hbn
    have hjA : j < (s.axesAt E i).length := by
      rw [axesAt_length h.wf hj h.widths hi, hbn', (wOf_std hE b).2]
      exact hjw
    simp only [straight_slice hE hb _ hi, ownSlice_getD h.wf hj h.widths hi _ hjA]
    exact hfol _
  have hfol' : ∀ (i : Nat) (b : BuiltIn), s.link_types[i]? = some b.name →
      b.Follows (fun τ => ownSlice E.qw s.link_types (q τ) i) (ownSlice E.dw s.link_types (u t) i) t := by
    intro i b hbn
    obtain ⟨hi, hbn'⟩ := List.getElem?_eq_some_iff.1 hbn
    obtain ⟨b', hs, hbn2⟩ := hb s.link_types[i] (List.getElem_mem _)
    obtain rfl : b = b' := builtin_name_injective (hbn'.symm.trans hbn2)
    have := fun j => hslice i j b hs hbn
    cases b <;> simp [Straight] at hs <;> exact this
  obtain ⟨same, hsim, hdyn⟩ := fk_same hE h (hq t) (hun t) (hf t)
  have hrest := (isFK_unique h.wf hj (hq t) (hf t)).rest
  have hzer : (s' t).link_spring_zeropoint = s.link_spring_zeropoint := by rw [hrest]
  have htyp : (s' t).link_types = s.link_types := by rw [hrest]
  have hsp := C111_springs hsim.wf (s := s' t) (by
    intro x hx
    rw [htyp] at hx
    exact hb x hx) hsim.nonempty (q := q t) (by rw [htyp]; exact hq t)
  rw [hzer] at hsp
  have bal := C111_forward hE h hb' hpi hp ha hda hdt hit hq hu hun hfol' hd hf hT (by simp) hfd hsp
  have ela : HasDerivAt (fun τ => elastic s (q τ)) (∑ r ∈ range (u t).length,
      -((u t).getD r 0 * (s.link_spring_stiffness.getD r 0 *
        (s.link_spring_zeropoint.getD r 0 - (q t).getD r 0)))) t := by
    have : HasDerivAt (fun τ => ∑ r ∈ range (u t).length, 1 / 2 * (s.link_spring_stiffness.getD r 0 *
        (s.link_spring_zeropoint.getD r 0 - (q τ).getD r 0) ^ 2)) (∑ r ∈ range (u t).length,
      -((u t).getD r 0 * (s.link_spring_stiffness.getD r 0 *
        (s.link_spring_zeropoint.getD r 0 - (q t).getD r 0)))) t := by
      apply HasDerivAt.fun_sum
      intro r _
      refine (((((hfol r).const_sub (s.link_spring_zeropoint.getD r 0)).pow 2).const_mul
        (s.link_spring_stiffness.getD r 0)).const_mul (1 / 2)).congr_deriv ?_
      push_cast
      ring
    refine this.congr_of_eventuallyEq (.of_forall fun τ => ?_)
    dsimp only [elastic]
    rw [hq τ, ← hq t, hqu]
  refine (bal.add ela).congr_deriv ?_
  rw [← Finset.sum_add_distrib, ← Finset.sum_neg_distrib]
  apply Finset.sum_congr rfl
  intro r hr
  have hr' := Finset.mem_range.1 hr
  have e1 : (List.replicate (u t).length (0 : ℝ)).getD r 0 = 0 := by
    simp [List.getD_eq_getElem?_getD, List.getElem?_replicate]
    split <;> rfl
  have e2 : (lsub s.link_spring_zeropoint (q t)).getD r 0 = s.link_spring_zeropoint.getD r 0 - (q t).getD r 0 := by
    unfold lsub
    rw [zipWith_getD _ (by rw [h.wf.zeropoint_len, ← hq t, hqu]; exact hr') (by rw [hqu]; exact hr')]
  rw [e1, e2]
  ring

/-- C111: along such a motion the energy never grows, -/
theorem C111_dissipates (hE : E.Std) (h : s.Simulable E) (hb : s.JointsIn Straight) (hpi : 0 < E.pi)
    (hp : ∀ g ∈ s.geoms, g.Physical) (ha : ∀ x ∈ s.link_armature, 0 ≤ x)
    (hda : ∀ x ∈ s.link_damping, 0 ≤ x) (hdt : 0 ≤ s.dt) (hit : s.mass_mat_iters = 0) {q u w : ℝ → List ℝ}
    (hq : ∀ τ, (q τ).length = (s.link_types.map (wOf E.qw)).sum)
    (hu : ∀ τ, (u τ).length = (s.link_types.map (wOf E.dw)).sum)
    (hfol : ∀ t r, HasDerivAt (fun τ => (q τ).getD r 0) ((u t).getD r 0) t)
    (hd : ∀ t r, HasDerivAt (fun τ => (u τ).getD r 0) ((w t).getD r 0) t)
    {xs : ℝ → List (Transform ℝ)} {s' : ℝ → System ℝ π'}
    (hf : ∀ τ, s.forward_kinematics_transforms E (q τ) = .ok (xs τ, s' τ)) {T : ℝ → ℝ}
    (hT : ∀ τ, kinetic_energy E (s' τ) (u τ) = .ok (T τ))
    (hfd : ∀ t, forward_dynamics E (s' t) (q t) (u t) (List.replicate (u t).length 0) = .ok (w t)) :
    Antitone (fun τ => T τ + potential s (xs τ) + regularEnergy s (u τ) + elastic s (q τ)) ∧
    ((∀ x ∈ s.link_damping, x = 0) → ∀ t t', T t + potential s (xs t) + regularEnergy s (u t) + elastic s (q t) =
      T t' + potential s (xs t') + regularEnergy s (u t') + elastic s (q t')) := by
  have key := fun t => C111_dampers hE h hb hpi hp ha hda hdt hit hq hu (hfol t) (hd t) hf hT (hfd t)
  have damp : ∀ (P : ℝ → Prop), P 0 → (∀ x ∈ s.link_damping, P x) → ∀ r, P (s.link_damping.getD r 0) := by
    intro P h0 hP r
    rw [List.getD_eq_getElem?_getD]
    cases hx : s.link_damping[r]? with
    | none => exact h0
    | some x => exact hP x (List.mem_of_getElem? hx)
  constructor
  · apply antitone_of_deriv_nonpos (fun t => (key t).differentiableAt)
    intro t
    rw [(key t).deriv]
    apply neg_nonpos_of_nonneg
    apply Finset.sum_nonneg
    intro r _
    exact mul_nonneg (damp (0 ≤ ·) le_rfl hda r) (sq_nonneg _)
  · intro h0 t t'
    refine is_const_of_deriv_eq_zero (fun t => (key t).differentiableAt) (fun t => ?_) t t'
    rw [(key t).deriv, neg_eq_zero]
    apply Finset.sum_eq_zero
    intro r _
    rw [damp (· = 0) rfl h0 r, zero_mul]

end tree

/-! ## examples -/

noncomputable def pendGeoms : List (Geometry ℝ) :=
  [⟨1, .zero, 0, .box 1 2 3, none, none⟩, ⟨2, ⟨⟨0, 0, 1⟩, unitQuat⟩, 1, .sphere 1, none, none⟩]

noncomputable def pendRow (pos : Vec3 ℝ) (i : Nat) : LinkRow ℝ :=
  ⟨⟨pos, unitQuat⟩, 0, ⟨1, 1, 1⟩, compute_inertia_per_link Real.pi pendGeoms i, .zero, .zero⟩

/-- a double pendulum with a damped first hinge and a spring at the second -/
noncomputable def pendSys : System ℝ Unit where
  link_parents := [-1, 0]
  links := [pendRow 0 0, pendRow ⟨0, 0, 1⟩ 1]
  joint_params := [("default", [(), ()])]
  link_types := ["ry", "rx"]
  link_damping := [1, 0]
  link_armature := [0, 1]
  link_spring_stiffness := [0, 3]
  link_spring_zeropoint := [0, 1]
  dt := 1 / 100
  geoms := pendGeoms
  gravity := ⟨0, 0, 981 / 100⟩
  integration_method := "semi_implicit_euler"
  mass_mat_iters := 0
  link_names := ["a", "b"]
  model_name := some "m"
  omc := [none, none]

theorem pendSys_widths : pendSys.link_types.map (wOf stdEnv.qw) = [1, 1] ∧
    pendSys.link_types.map (wOf stdEnv.dw) = [1, 1] := by
  refine ⟨?_, ?_⟩ <;> decide

theorem pendSys_wf : pendSys.WF stdEnv.toEnv where
  types_len := rfl
  links_len := rfl
  omc_len := rfl
  names_len := rfl
  names_nodup := by show ["a", "b"].Nodup; decide
  pos_ok := by
    intro l hl
    simp [pendSys] at hl
    rcases hl with rfl | rfl <;> simp [stdEnv, pendRow]
  geoms_ok := by simp [pendSys, pendGeoms]
  known := by
    intro t ht
    simp [pendSys] at ht
    rcases ht with rfl | rfl <;> constructor <;> decide
  damping_len := by rw [pendSys_widths.2]; simp [pendSys]
  armature_len := by rw [pendSys_widths.2]; simp [pendSys]
  stiffness_len := by rw [pendSys_widths.2]; simp [pendSys]
  zeropoint_len := by rw [pendSys_widths.1]; simp [pendSys]
  unit_zero := by
    intro i hi h
    have : i < 2 := hi
    exfalso
    revert h
    match i, this with
    | 0, _ => show ¬ joint_type_is_free_or_cor_or_spherical "ry" = true; decide
    | 1, _ => show ¬ joint_type_is_free_or_cor_or_spherical "rx" = true; decide
  topo := by
    intro i hi
    have : i < 2 := hi
    match i, this with
    | 0, _ => simp [pendSys]
    | 1, _ => simp [pendSys]
  jp_keys := by simp [pendSys]
  jp_len := by simp [pendSys]
  inertia_ok := by
    intro i hi
    have : i < 2 := hi
    match i, this with
    | 0, _ => rfl
    | 1, _ => rfl
  geoms_sorted := by simp [pendSys, pendGeoms]

theorem pendSys_straight : pendSys.JointsIn Straight := by
  intro t ht
  simp [pendSys] at ht
  rcases ht with rfl | rfl
  · exact ⟨.r .y, trivial, rfl⟩
  · exact ⟨.r .x, trivial, rfl⟩

theorem pendSys_simulable : pendSys.Simulable stdEnv where
  wf := pendSys_wf
  default := by simp [pendSys]
  widths := kinSys_simulable.widths
  builtin := by
    intro t ht
    obtain ⟨b, _, hb⟩ := pendSys_straight t ht
    exact ⟨b, trivial, hb⟩
  nonempty := by simp [pendSys]
  unit := by
    intro l hl
    simp [pendSys] at hl
    rcases hl with rfl | rfl <;> simp [pendRow, Quat.normSq, unitQuat]
  geoms_unit := by
    intro g hg
    simp [pendSys, pendGeoms] at hg
    rcases hg with rfl | rfl <;> simp [Transform.zero, Quat.normSq, unitQuat]
  method := kinSys_simulable.method

theorem pendSys_unitQ (q : List ℝ) : pendSys.UnitQ stdEnv q := by
  intro i hi h
  have : i < 2 := hi
  exfalso
  revert h
  match i, this with
  | 0, _ => show ¬ joint_type_is_free_or_cor_or_spherical "ry" = true; decide
  | 1, _ => show ¬ joint_type_is_free_or_cor_or_spherical "rx" = true; decide

/-- the first hinge swings, the second is accelerated -/
example : ∃ (xs : ℝ → List (Transform ℝ)) (s' : ℝ → System ℝ Unit) (T : ℝ → ℝ) (tau : List ℝ),
    (∀ τ, pendSys.forward_kinematics_transforms stdEnv [Real.sin τ, τ ^ 2] = .ok (xs τ, s' τ)) ∧
    (∀ τ, kinetic_energy stdEnv (s' τ) [Real.cos τ, 2 * τ] = .ok (T τ)) ∧
    inverse_dynamics stdEnv (s' 1) [Real.cos 1, 2 * 1] [-Real.sin 1, 2] = .ok tau ∧
    HasDerivAt (fun τ => T τ + potential pendSys (xs τ)) (∑ r ∈ range 2,
      [Real.cos 1, 2 * 1].getD r 0 * (tau.getD r 0 + [0, 1].getD r 0 * [-Real.sin 1, 2].getD r 0)) 1 := by
  have hq : ∀ τ : ℝ, [Real.sin τ, τ ^ 2].length = (pendSys.link_types.map (wOf stdEnv.qw)).sum := by
    intro τ; rw [pendSys_widths.1]; rfl
  have hu : ∀ τ : ℝ, [Real.cos τ, 2 * τ].length = (pendSys.link_types.map (wOf stdEnv.dw)).sum := by
    intro τ; rw [pendSys_widths.2]; rfl
  have hj := pendSys_simulable.jointed stdEnv_std
  choose xs s' hf _ using fun τ : ℝ => C22_forward pendSys_wf hj (hq τ)
  have same := fun τ => fk_same stdEnv_std pendSys_simulable (hq τ) (pendSys_unitQ _) (hf τ)
  have htyp : ∀ τ, (s' τ).link_types = pendSys.link_types := fun τ => by
    rw [(isFK_unique pendSys_wf hj (hq τ) (hf τ)).rest]
  have hu' : ∀ τ : ℝ, [Real.cos τ, 2 * τ].length = ((s' τ).link_types.map (wOf stdEnv.dw)).sum := by
    intro τ; rw [htyp]; exact hu τ
  choose M T _ hT _ using fun τ : ℝ => C27_energy (same τ).2.2 (hu' τ) (linkVel_exists (same τ).2.2 _ (hu' τ))
  obtain ⟨tau, _, _, _, htau, _, _⟩ := C26_newton_euler (same 1).2.2 (same 1).2.1.nonempty (hu' 1)
    (qdd := [-Real.sin 1, 2]) rfl
  refine ⟨xs, s', T, tau, hf, hT, htau, ?_⟩
  have hw1 : wOf stdEnv.qw "ry" = 1 := by decide
  have hw2 : wOf stdEnv.qw "rx" = 1 := by decide
  have hw3 : wOf stdEnv.dw "ry" = 1 := by decide
  have hw4 : wOf stdEnv.dw "rx" = 1 := by decide
  have hsq : HasDerivAt (fun τ : ℝ => τ ^ 2) (2 * 1) 1 := by simpa using hasDerivAt_pow 2 (1 : ℝ)
  refine C111_balance (u := fun τ => [Real.cos τ, 2 * τ]) (w := [-Real.sin 1, 2]) (t := 1) stdEnv_std pendSys_simulable
    (fun t ht => ?_) hq hu rfl (fun τ => pendSys_unitQ _) ?_ ?_ hf hT htau
  · obtain ⟨b, h1, h2⟩ := pendSys_straight t ht
    exact ⟨b, h1.plain, h2⟩
  · intro i b hb
    have e0 : ∀ x y : ℝ, ownSlice stdEnv.qw pendSys.link_types [x, y] 0 = [x] := by
      intro x y; simp [ownSlice, pendSys, hw1]
    have e1 : ∀ x y : ℝ, ownSlice stdEnv.qw pendSys.link_types [x, y] 1 = [y] := by
      intro x y; simp [ownSlice, pendSys, hw1, hw2]
    have e2 : ∀ x y : ℝ, ownSlice stdEnv.dw pendSys.link_types [x, y] 0 = [x] := by
      intro x y; simp [ownSlice, pendSys, hw3]
    have e3 : ∀ x y : ℝ, ownSlice stdEnv.dw pendSys.link_types [x, y] 1 = [y] := by
      intro x y; simp [ownSlice, pendSys, hw3, hw4]
    match i, hb with
    | 0, hb =>
      obtain rfl : b = .r .y := builtin_name_injective (Option.some.inj hb).symm
      simp only [e0, e2]
      intro j hj
      have hj' : j < 1 := hj
      obtain rfl : j = 0 := by omega
      exact Real.hasDerivAt_sin 1
    | 1, hb =>
      obtain rfl : b = .r .x := builtin_name_injective (Option.some.inj hb).symm
      simp only [e1, e3]
      intro j hj
      have hj' : j < 1 := hj
      obtain rfl : j = 0 := by omega
      exact hsq
    | n + 2, hb => simp [pendSys] at hb
  · intro r
    match r with
    | 0 => exact Real.hasDerivAt_cos 1
    | 1 => simpa using (hasDerivAt_id (1 : ℝ)).const_mul 2
    | n + 2 => simpa using hasDerivAt_const (1 : ℝ) (0 : ℝ)

/-- every motion of the double pendulum loses energy -/
example {q u w : ℝ → List ℝ} (hq : ∀ τ, (q τ).length = 2) (hu : ∀ τ, (u τ).length = 2)
    (hfol : ∀ t r, HasDerivAt (fun τ => (q τ).getD r 0) ((u t).getD r 0) t)
    (hd : ∀ t r, HasDerivAt (fun τ => (u τ).getD r 0) ((w t).getD r 0) t)
    {xs : ℝ → List (Transform ℝ)} {s' : ℝ → System ℝ Unit}
    (hf : ∀ τ, pendSys.forward_kinematics_transforms stdEnv (q τ) = .ok (xs τ, s' τ)) {T : ℝ → ℝ}
    (hT : ∀ τ, kinetic_energy stdEnv (s' τ) (u τ) = .ok (T τ))
    (hfd : ∀ t, forward_dynamics stdEnv (s' t) (q t) (u t) (List.replicate (u t).length 0) = .ok (w t)) :
    Antitone (fun τ => T τ + potential pendSys (xs τ) + regularEnergy pendSys (u τ) + elastic pendSys (q τ)) :=
  (C111_dissipates stdEnv_std pendSys_simulable pendSys_straight Real.pi_pos (by
    intro g hg
    simp [pendSys, pendGeoms] at hg
    rcases hg with rfl | rfl <;>
      simp [Geometry.Physical, Transform.IsUnit, Transform.zero, Quat.IsUnit, unitQuat])
    (by simp [pendSys]) (by simp [pendSys]) (by norm_num [pendSys]) rfl
    (fun τ => by rw [hq, pendSys_widths.1]; rfl) (fun τ => by rw [hu, pendSys_widths.2]; rfl) hfol hd hf hT hfd).1

open sensors in
/-- a motion that satisfies all hypotheses: an IMU at rest on its springs -/
example : ∃ (q u w : ℝ → List ℝ) (xs : ℝ → List (Transform ℝ)) (s' : ℝ → System ℝ Unit) (T : ℝ → ℝ),
    (∀ t r, HasDerivAt (fun τ => (q τ).getD r 0) ((u t).getD r 0) t) ∧
    (∀ t r, HasDerivAt (fun τ => (u τ).getD r 0) ((w t).getD r 0) t) ∧
    (∀ t, forward_dynamics stdEnv (s' t) (q t) (u t) (List.replicate (u t).length 0) = .ok (w t)) ∧
    Antitone (fun τ => T τ + potential { qpSys (1 / 100) with link_spring_zeropoint := [7, 8, 9] } (xs τ) +
      regularEnergy { qpSys (1 / 100) with link_spring_zeropoint := [7, 8, 9] } (u τ) +
      elastic { qpSys (1 / 100) with link_spring_zeropoint := [7, 8, 9] } (q τ)) := by
  set s : System ℝ Unit := { qpSys (1 / 100) with link_spring_zeropoint := [7, 8, 9] } with hs
  have hb : SpringBody stdEnv s := qpSys_body (dt := 1 / 100) (by norm_num) (by norm_num) ⟨7, 8, 9⟩
  have h := hb.simulable
  have hj := h.jointed stdEnv_std
  have hw := p3d_widths stdEnv_std hb.types
  have hq : ([7, 8, 9] : List ℝ).length = (s.link_types.map (wOf stdEnv.qw)).sum := by rw [hw.1]; rfl
  have hu : ([0, 0, 0] : List ℝ).length = (s.link_types.map (wOf stdEnv.dw)).sum := by rw [hw.2]; rfl
  have hun : s.UnitQ stdEnv [7, 8, 9] := by
    intro i hi hq
    have : i < 1 := hi
    obtain rfl : i = 0 := by omega
    have hq : joint_type_is_free_or_cor_or_spherical "p3d" = true := hq
    exact absurd hq (by decide)
  obtain ⟨xs, s', hf, _⟩ := C22_forward h.wf hj hq
  obtain ⟨same, hsim, hdyn⟩ := fk_same stdEnv_std h hq hun hf
  have hrest := (isFK_unique h.wf hj hq hf).rest
  have hb' : SpringBody stdEnv s' := {
    simulable := hsim
    parents := by rw [hrest]; rfl
    types := by rw [hrest]; rfl
    physical := by rw [hrest]; exact hb.physical
    damping := by rw [hrest]; exact hb.damping
    armature := by rw [hrest]; exact hb.armature
    dt := by rw [hrest]; exact hb.dt
    dt_small := by rw [hrest]; exact hb.dt_small
    exact_inverse := by rw [hrest]; rfl }
  obtain ⟨w, e1, e2, e3⟩ := spring_accel stdEnv_std Real.pi_pos hb' hdyn
    (q := [7, 8, 9]) (qd := [0, 0, 0]) rfl rfl
  have hmass : (s'.linkI 0).mass = 2 / 1000 := by
    rw [same_linkI same]
    exact qp_mass
  have hgr : s'.gravity = 0 := by rw [hrest]; rfl
  have harm : s'.link_armature = [0, 0, 0] := by rw [hrest]; rfl
  have hdam : 0 ≤ s'.dt := hb'.dt
  have hzer : s'.link_spring_zeropoint = [7, 8, 9] := by rw [hrest]
  have hw0 : w = [0, 0, 0] := by
    obtain ⟨a, b, c, rfl⟩ := list3 e2
    have hz : ∀ r, comp (rotate (0 : Vec3 ℝ) (s'.linkT 0).rot) r = 0 := by
      intro r
      rw [rotate_zero]
      match r with
      | 0 => rfl
      | 1 => rfl
      | 2 => rfl
      | n + 3 => rfl
    have key : ∀ r, r < 3 → [a, b, c].getD r 0 = 0 := by
      intro r hr
      have := e3 r hr
      rw [hgr, hz, hzer, hmass] at this
      have z : ([0, 0, 0] : List ℝ).getD r 0 = 0 := by
        match r, hr with
        | 0, _ => rfl
        | 1, _ => rfl
        | 2, _ => rfl
      rw [z, sub_self, mul_zero, mul_zero, mul_zero, sub_zero, sub_zero, harm, z] at this
      have pos : 0 ≤ s'.link_damping.getD r 0 := by
        rw [List.getD_eq_getElem?_getD]
        cases hx : s'.link_damping[r]? with
        | none => exact le_rfl
        | some x => exact hb'.damping x (List.mem_of_getElem? hx)
      have pp := mul_nonneg pos hdam
      rcases mul_eq_zero.1 this with h0 | h0
      · exfalso
        have t : (0 : ℝ) < 2 / 1000 + 0 + 1e-6 := by norm_num
        linarith
      · exact h0
    have k0 := key 0 (by decide)
    have k1 := key 1 (by decide)
    have k2 := key 2 (by decide)
    simp at k0 k1 k2
    rw [k0, k1, k2]
  obtain ⟨M, T, _, hT, _⟩ := C27_energy hdyn (u := [0, 0, 0]) (by rw [hrest]; exact hu)
    (linkVel_exists hdyn _ (by rw [hrest]; exact hu))
  have cst : ∀ (x : List ℝ) (t : ℝ) (r : ℕ), HasDerivAt (fun _ : ℝ => x.getD r 0) (([0, 0, 0] : List ℝ).getD r 0) t := by
    intro x t r
    have z : ([0, 0, 0] : List ℝ).getD r 0 = 0 := by
      match r with
      | 0 => rfl
      | 1 => rfl
      | 2 => rfl
      | n + 3 => rfl
    rw [z]
    exact hasDerivAt_const t _
  refine ⟨fun _ => [7, 8, 9], fun _ => [0, 0, 0], fun _ => [0, 0, 0], fun _ => xs, fun _ => s', fun _ => T,
    fun t r => cst _ t r, fun t r => cst _ t r, fun t => by rw [hw0] at e1; exact e1, ?_⟩
  exact (C111_dissipates stdEnv_std h (fun t ht => ⟨.p3d, trivial, List.mem_singleton.1 ht⟩) Real.pi_pos hb.physical
    hb.armature hb.damping hb.dt hb.exact_inverse (fun _ => hq) (fun _ => hu) (fun t r => cst _ t r)
    (fun t r => cst _ t r) (fun _ => hf) (fun _ => hT) (fun t => by rw [hw0] at e1; exact e1)).1

end RingLib
