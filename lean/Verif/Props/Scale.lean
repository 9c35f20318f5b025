import Verif.Model.Scale
import Verif.Spec.Scale
import Verif.Props.Poses
import Verif.Props.DrawQ

/-! # C74: scaling joint motions, randomising the motion of the root -/

namespace RingLib
open System maths Real

theorem turn_eq (k : Vec3 ℝ) (θ : ℝ) : Quat.turn k θ = rotQuat k θ := rfl

theorem turn_neg_axis (k : Vec3 ℝ) (θ : ℝ) : Quat.turn ⟨-k.x, -k.y, -k.z⟩ θ = Quat.turn k (-θ) := by
  ext <;> simp [Quat.turn, neg_div]

theorem neg_unit {k : Vec3 ℝ} (hk : k.IsUnit) : (⟨-k.x, -k.y, -k.z⟩ : Vec3 ℝ).IsUnit := by
  unfold Vec3.IsUnit at *
  simpa using hk

/-- scaling the angle of a rotation quaternion -/
noncomputable def scaleRot (factor : ℝ) (q : Quat ℝ) : Quat ℝ :=
  quat_rot_axis (quat_to_rot_axis q).1 ((quat_to_rot_axis q).2 * factor)

theorem scaleRot_of {q : Quat ℝ} {k : Vec3 ℝ} (hk : k.IsUnit) (hv : safe_normalize q.vec = k)
    (f : ℝ) : scaleRot f q = Quat.turn k (f * quat_angle q) := by
  unfold scaleRot quat_to_rot_axis
  rw [quat_rot_axis_eq, hv, safe_normalize_of_unit hk, turn_eq]
  congr 1
  ring

theorem normalize_smul {k v : Vec3 ℝ} (hk : k.IsUnit) {s : ℝ} (hs : 0 < s)
    (hv : v = ⟨s * k.x, s * k.y, s * k.z⟩) (hn : ¬ allclose0 v) : safe_normalize v = k := by
  have hnorm : norm3 v = s := by
    unfold norm3
    rw [hv]
    have : (s * k.x) ^ 2 + (s * k.y) ^ 2 + (s * k.z) ^ 2 = s ^ 2 := by
      have := hk
      unfold Vec3.IsUnit at this
      linear_combination s ^ 2 * this
    simp only [this]
    exact sqrt_sq hs.le
  rw [safe_normalize_of hn, hnorm, hv]
  ext <;> simp only <;> field_simp

/-- the angle of a quaternion with positive sine -/
theorem angle_of {q : Quat ℝ} {k : Vec3 ℝ} (hk : k.IsUnit) {φ : ℝ} (h0 : 0 < φ) (h1 : φ < π)
    (hw : q.w = cos φ) (hv : q.vec = ⟨sin φ * k.x, sin φ * k.y, sin φ * k.z⟩)
    (hn : ¬ allclose0 q.vec) : quat_angle q = wrap_to_pi (2 * φ) ∧ safe_normalize q.vec = k := by
  have hs := sin_pos_of_pos_of_lt_pi h0 h1
  refine ⟨?_, normalize_smul hk hs hv hn⟩
  unfold quat_angle
  rw [safe_norm_of hn]
  congr 2
  apply atan2_unit (by linarith) (by linarith) _ hw
  unfold norm3
  rw [hv]
  have : (sin φ * k.x) ^ 2 + (sin φ * k.y) ^ 2 + (sin φ * k.z) ^ 2 = sin φ ^ 2 := by
    have := hk
    unfold Vec3.IsUnit at this
    linear_combination sin φ ^ 2 * this
  simp only [this]
  exact sqrt_sq hs.le

theorem tiny_iff (q : Quat ℝ) : q.Tiny ↔ allclose0 q.vec := Iff.rfl

theorem tiny_neg (q : Quat ℝ) : (-q).Tiny ↔ q.Tiny := by
  simp [Quat.Tiny]

theorem scaleRot_pos {k : Vec3 ℝ} {θ : ℝ} (hk : k.IsUnit) (h0 : 0 < θ) (h1 : θ < π)
    (hn : ¬ (Quat.turn k θ).Tiny) (f : ℝ) : scaleRot f (Quat.turn k θ) = Quat.turn k (f * θ) := by
  obtain ⟨ha, hv⟩ := angle_of (q := Quat.turn k θ) hk (φ := θ / 2) (by linarith) (by linarith) rfl
    rfl hn
  rw [scaleRot_of hk hv, ha, wrap_id (by linarith) (by linarith)]
  congr 1
  ring

theorem scaleRot_pos_neg {k : Vec3 ℝ} {θ : ℝ} (hk : k.IsUnit) (h0 : 0 < θ) (h1 : θ < π)
    (hn : ¬ (Quat.turn k θ).Tiny) (f : ℝ) : scaleRot f (-Quat.turn k θ) = Quat.turn k (f * θ) := by
  have hpi := pi_pos
  obtain ⟨ha, hv⟩ := angle_of (q := -Quat.turn k θ) (neg_unit hk) (φ := π - θ / 2) (by linarith)
    (by linarith) (by simp [Quat.turn, cos_pi_sub])
    (by ext <;> simp [Quat.turn, Quat.vec, sin_pi_sub]) (fun h => hn ((tiny_neg _).1 h))
  have hw : wrap_to_pi (2 * (π - θ / 2)) = -θ :=
    wrap_eq_of (k := -1) (by linarith) (by linarith) (by push_cast; ring)
  rw [scaleRot_of (neg_unit hk) hv, ha, hw, turn_neg_axis]
  congr 1
  ring

theorem scaleRot_turn {q : Quat ℝ} {k : Vec3 ℝ} {θ : ℝ} (hk : k.IsUnit) (h0 : -π < θ) (h1 : θ < π)
    (hn : ¬ q.Tiny) (hq : q.IsTurn k θ) (f : ℝ) : scaleRot f q = Quat.turn k (f * θ) := by
  have hn' : ¬ (Quat.turn k θ).Tiny := by
    rcases hq with rfl | rfl
    · exact hn
    · rwa [tiny_neg] at hn
  rcases lt_trichotomy θ 0 with h | h | h
  · have e : Quat.turn k θ = Quat.turn ⟨-k.x, -k.y, -k.z⟩ (-θ) := by rw [turn_neg_axis, neg_neg]
    have e' : Quat.turn k (f * θ) = Quat.turn ⟨-k.x, -k.y, -k.z⟩ (f * -θ) := by
      rw [turn_neg_axis]; congr 1; ring
    rw [e'] 
    rw [e] at hn'
    rcases hq with rfl | rfl
    · rw [e]; exact scaleRot_pos (neg_unit hk) (by linarith) (by linarith) hn' f
    · rw [e]; exact scaleRot_pos_neg (neg_unit hk) (by linarith) (by linarith) hn' f
  · exfalso
    apply hn'
    rw [h]
    simp [Quat.Tiny, Quat.turn]
    norm_num
  · rcases hq with rfl | rfl
    · exact scaleRot_pos hk h h1 hn' f
    · exact scaleRot_pos_neg hk h h1 hn' f

theorem half_not_tiny {k : Vec3 ℝ} (hk : k.IsUnit) : ¬ (Quat.turn k π).Tiny := by
  rw [tiny_iff]
  have : (Quat.turn k π).vec = k := by ext <;> simp [Quat.turn, Quat.vec]
  rw [this]
  exact not_allclose_of_unit hk

theorem scaleRot_half {k : Vec3 ℝ} (hk : k.IsUnit) (f : ℝ) :
    scaleRot f (Quat.turn k π) = Quat.turn k (-(f * π)) := by
  have hpi := pi_pos
  obtain ⟨ha, hv⟩ := angle_of (q := Quat.turn k π) hk (φ := π / 2) (by linarith) (by linarith) rfl
    rfl (half_not_tiny hk)
  have hw : wrap_to_pi (2 * (π / 2)) = -π :=
    wrap_eq_of (k := -1) (by linarith) (by linarith) (by push_cast; ring)
  rw [scaleRot_of hk hv, ha, hw]
  congr 1
  ring

theorem scaleRot_half_neg {k : Vec3 ℝ} (hk : k.IsUnit) (f : ℝ) :
    scaleRot f (-Quat.turn k π) = Quat.turn k (f * π) := by
  have e : -Quat.turn k π = Quat.turn ⟨-k.x, -k.y, -k.z⟩ π := by
    ext <;> simp [Quat.turn]
  rw [e, scaleRot_half (neg_unit hk), turn_neg_axis, neg_neg]

theorem scaleRot_tiny {q : Quat ℝ} (hq : q.normSq = 1) (hn : q.Tiny) (f : ℝ) :
    scaleRot f q = ⟨1, 0, 0, 0⟩ := by
  unfold scaleRot quat_to_rot_axis
  rw [quat_angle_negligible hq hn, safe_normalize_zero (v := q.vec) hn]
  have : allclose0 (0 : Vec3 ℝ) := by
    unfold allclose0 isclose0
    norm_num
  rw [quat_rot_axis_eq, safe_normalize_zero this]
  ext <;> simp [rotQuat]

/-- Every unit quaternion is a turn by an angle below half a turn, except for half turns. -/
theorem exists_turn {q : Quat ℝ} (hu : q.normSq = 1) (hw : q.w ≠ 0) (hn : ¬ q.Tiny) :
    ∃ (k : Vec3 ℝ) (θ : ℝ), k.IsUnit ∧ -π < θ ∧ θ < π ∧ q.IsTurn k θ := by
  have h1 : q.w*q.w + q.x*q.x + q.y*q.y + q.z*q.z = 1 := hu
  have hna : ¬ allclose0 q.vec := hn
  have hk := safe_normalize_unit hna
  have hrt := C15_round_trip (q := q) hu hn
  rw [quat_rot_axis_eq] at hrt
  have hs : safe_normalize (quat_to_rot_axis q).1 = safe_normalize q.vec := safe_normalize_of_unit hk
  rw [hs] at hrt
  set θ := -(quat_to_rot_axis q).2 with hθ
  have hθe : θ = quat_angle q := by rw [hθ]; simp [quat_to_rot_axis]
  have hm := wrap_mem (2 * atan2 (safe_norm q.vec) q.w)
  have hm1 : -π ≤ θ := by rw [hθe]; exact hm.1
  have hm2 : θ < π := by rw [hθe]; exact hm.2
  refine ⟨safe_normalize q.vec, θ, hk, lt_of_le_of_ne hm1 ?_, hm2, ?_⟩
  · intro hc
    rw [← hc] at hrt
    have : (rotQuat (safe_normalize q.vec) (-π)).w = 0 := by
      simp [rotQuat, neg_div]
    rw [hrt] at this
    split at this
    · exact hw this
    · exact hw (by simpa using this)
  · unfold Quat.IsTurn
    rw [turn_eq, hrt]
    split
    · exact .inl rfl
    · right
      ext <;> simp

theorem scaledBy (x : Transform ℝ) (t : String) (f : ℝ) :
    ScaledBy t f x (_scale_transform_based_on_type x t f) := by
  have hs : t ∈ ["px", "py", "pz", "free"] ↔ Slides t := by simp [Slides]
  have ht : t ∈ ["rx", "ry", "rz", "spherical", "free"] ↔ Turns t := by simp [Turns]
  have e : ∀ q, quat_rot_axis (quat_to_rot_axis q).1 ((quat_to_rot_axis q).2 * f) =
    scaleRot f q := fun q => rfl
  unfold _scale_transform_based_on_type
  simp only [e]
  constructor
  · intro h; rw [if_pos (hs.2 h)]; rfl
  · intro h; rw [if_neg (fun c => h (hs.1 c))]
  · intro h k θ hk h0 h1 hn hq; rw [if_pos (ht.2 h)]; exact scaleRot_turn hk h0 h1 hn hq f
  · intro h k hk hq
    rw [if_pos (ht.2 h)]
    rcases hq with hq | hq
    · rw [hq]; exact .inr (scaleRot_half hk f)
    · rw [hq]; exact .inl (scaleRot_half_neg hk f)
  · intro h hu hn; rw [if_pos (ht.2 h)]; exact scaleRot_tiny hu hn f
  · intro h; rw [if_neg (fun c => h (ht.1 c))]

theorem scale_eq {π' : Type} {E : JEnv ℝ π'} {s : System ℝ π'} (h : s.Consistent E.toEnv)
    {xs : List (Transform ℝ)} (hx : xs.length = s.link_parents.length) (f : ℝ)
    (exclude : List String) :
    s._scale_xs E f exclude xs = .ok ((List.range s.link_parents.length).map fun i =>
      if s.link_types.getD i "" ∈ exclude then xs.getD i .zero
      else _scale_transform_based_on_type (xs.getD i .zero) (s.link_types.getD i "") f) := by
  unfold _scale_xs
  refine scan_inv (E := E.toEnv) (s := s) h.known h.types_len (g := scale_link exclude f xs)
    ?_ (rows_and (rows_argL _ _) (rows_argL _ _)) (by simp [num_links, h.types_len]) _ (by simp) ?_
  · intro x hx
    simp only [ScanArg.and, argL, List.mem_append, List.mem_cons,
      List.not_mem_nil, or_false] at hx
    rcases hx with rfl | rfl
    · simp [num_links]
    · exact h.types_len
  · intro i hi
    have hi1 : i < xs.length := by omega
    have hi2 : i < s.link_types.length := by rw [h.types_len]; exact hi
    simp only [List.getElem_zip, List.getElem_range, List.getElem_map, scale_link,
      pyGet_nat (List.getElem?_eq_getElem hi1), ok_bind, List.getD_eq_getElem?_getD,
      List.getElem?_eq_getElem hi1, List.getElem?_eq_getElem hi2, Option.getD_some, pure_ok]
    by_cases he : s.link_types[i] ∈ exclude <;> simp [he]

/-- **C74.** `scale_xs` returns one pose per time step and link; links of an excluded type keep their
pose, all others get the pose whose joint motion is multiplied by the factor. -/
theorem C74_scale_xs {π' : Type} {E : JEnv ℝ π'} {s : System ℝ π'} (h : s.Consistent E.toEnv)
    {xs : List (List (Transform ℝ))} (hx : ∀ row ∈ xs, row.length = s.link_parents.length) (f : ℝ)
    (exclude : List String) :
    ∃ ys, s.scale_xs E xs f exclude = .ok ys ∧ ys.length = xs.length ∧
      ∀ (n : Nat) row, xs[n]? = some row → ∃ out, ys[n]? = some out ∧ out.length = row.length ∧
        ∀ (i : Nat) x t, row[i]? = some x → s.link_types[i]? = some t → ∃ y, out[i]? = some y ∧
          (t ∈ exclude → y = x) ∧ (t ∉ exclude → ScaledBy t f x y) := by
  unfold scale_xs _checks_time_series_of_xs
  rw [pyAssert_true (p := ∀ row ∈ xs, row.length = s.num_links) hx]
  simp only [ok_bind]
  refine ⟨_, mapM_ok fun row hr => scale_eq h (hx row hr) f exclude, by simp, ?_⟩
  intro n row hrow
  refine ⟨_, by rw [List.getElem?_map, hrow]; rfl, ?_, ?_⟩
  · simp [hx row (List.mem_of_getElem? hrow)]
  · intro i x t hxi hti
    have hi : i < s.link_parents.length := by
      rw [← hx row (List.mem_of_getElem? hrow)]
      exact (List.getElem?_eq_some_iff.1 hxi).1
    refine ⟨_, by rw [List.getElem?_map, List.getElem?_range hi]; rfl, ?_⟩
    simp only [List.getD_eq_getElem?_getD, hxi, hti, Option.getD_some]
    constructor
    · intro he; rw [if_pos he]
    · intro he; rw [if_neg he]; exact scaledBy x t f

/-- **C74.** A recording of another system is refused. -/
theorem C74_refused {π' : Type} {E : JEnv ℝ π'} {s : System ℝ π'} {xs : List (List (Transform ℝ))}
    {row : List (Transform ℝ)} (hr : row ∈ xs) (hx : row.length ≠ s.link_parents.length) (f : ℝ)
    (exclude : List String) : s.scale_xs E xs f exclude = .error .assertion := by
  unfold scale_xs _checks_time_series_of_xs
  rw [pyAssert_false (p := ∀ row ∈ xs, row.length = s.num_links) (fun h => hx (h row hr))]
  rfl

/-- The scaled pose is determined, except for half turns. -/
theorem ScaledBy.unique {t : String} {f : ℝ} {x y z : Transform ℝ} (hu : x.rot.normSq = 1)
    (hw : x.rot.w ≠ 0) (hy : ScaledBy t f x y) (hz : ScaledBy t f x z) : y = z := by
  have hpos : y.pos = z.pos := by
    by_cases h : Slides t
    · rw [hy.pos h, hz.pos h]
    · rw [hy.pos_kept h, hz.pos_kept h]
  have hrot : y.rot = z.rot := by
    by_cases h : Turns t
    · by_cases hn : x.rot.Tiny
      · rw [hy.rot_tiny h hu hn, hz.rot_tiny h hu hn]
      · obtain ⟨k, θ, hk, h0, h1, hq⟩ := exists_turn hu hw hn
        rw [hy.rot h k θ hk h0 h1 hn hq, hz.rot h k θ hk h0 h1 hn hq]
    · rw [hy.rot_kept h, hz.rot_kept h]
  cases y; cases z; simp_all

/-- **C74.** Scaling by one changes nothing: same displacement, same rotation. -/
theorem C74_one {t : String} {x y : Transform ℝ} (hu : x.rot.normSq = 1) (hn : ¬ x.rot.Tiny)
    (h : ScaledBy t 1 x y) : y.pos = x.pos ∧ (y.rot = x.rot ∨ y.rot = -x.rot) := by
  have neg : ∀ a b : Quat ℝ, b = -a → a = -b := by rintro a b rfl; ext <;> simp
  constructor
  · by_cases hs : Slides t
    · rw [h.pos hs]; simp
    · exact h.pos_kept hs
  · by_cases ht : Turns t
    · by_cases hw : x.rot.w = 0
      · have hrt := C15_round_trip (q := x.rot) hu hn
        have hx1 : x.rot.IsTurn x.rot.vec π := .inl (by
          ext <;> simp [Quat.turn, hw])
        have hk : x.rot.vec.IsUnit := by
          have h1 : x.rot.w*x.rot.w + x.rot.x*x.rot.x + x.rot.y*x.rot.y + x.rot.z*x.rot.z = 1 := hu
          rw [hw] at h1
          show x.rot.x ^ 2 + x.rot.y ^ 2 + x.rot.z ^ 2 = 1
          linarith
        rcases h.rot_half ht _ hk hx1 with e | e
        · left; rw [e]; ext <;> simp [Quat.turn, hw]
        · right; rw [e]; ext <;> simp [Quat.turn, hw, neg_div]
      · obtain ⟨k, θ, hk, h0, h1, hq⟩ := exists_turn hu hw hn
        rw [h.rot ht k θ hk h0 h1 hn hq, one_mul]
        rcases hq with e | e
        · exact .inl e.symm
        · exact .inr (neg _ _ e)
    · exact .inl (h.rot_kept ht)

/-- **C74.** Scaling by zero stops the joint: no displacement of a joint that slides, no rotation of a
joint that turns. -/
theorem C74_zero {t : String} {x y : Transform ℝ} (hu : x.rot.normSq = 1) (h : ScaledBy t 0 x y) :
    (Slides t → y.pos = 0) ∧ (Turns t → y.rot = ⟨1, 0, 0, 0⟩) := by
  constructor
  · intro hs; rw [h.pos hs]; ext <;> simp
  · intro ht
    by_cases hn : x.rot.Tiny
    · exact h.rot_tiny ht hu hn
    by_cases hw : x.rot.w = 0
    · have hx1 : x.rot.IsTurn x.rot.vec π := .inl (by ext <;> simp [Quat.turn, hw])
      have hk : x.rot.vec.IsUnit := by
        have h1 : x.rot.w*x.rot.w + x.rot.x*x.rot.x + x.rot.y*x.rot.y + x.rot.z*x.rot.z = 1 := hu
        rw [hw] at h1
        show x.rot.x ^ 2 + x.rot.y ^ 2 + x.rot.z ^ 2 = 1
        linarith
      rcases h.rot_half ht _ hk hx1 with e | e <;> rw [e] <;> ext <;> simp [Quat.turn]
    · obtain ⟨k, θ, hk, h0, h1, hq⟩ := exists_turn hu hw hn
      rw [h.rot ht k θ hk h0 h1 hn hq]
      ext <;> simp [Quat.turn]

/-- **C74.** Scaling twice is scaling by the product, as long as the angles stay below half a turn and
above the resolution. -/
theorem C74_compose {t : String} {a b : ℝ} {x y z : Transform ℝ} {k : Vec3 ℝ} {θ : ℝ}
    (hk : k.IsUnit) (h0 : -π < θ) (h1 : θ < π) (hn : ¬ x.rot.Tiny) (hq : x.rot.IsTurn k θ)
    (h2 : -π < a * θ) (h3 : a * θ < π) (hn' : ¬ (Quat.turn k (a * θ)).Tiny)
    (hy : ScaledBy t a x y) (hz : ScaledBy t b y z) : ScaledBy t (b * a) x z where
  pos hs := by rw [hz.pos hs, hy.pos hs]; ext <;> simp only <;> ring
  pos_kept hs := by rw [hz.pos_kept hs, hy.pos_kept hs]
  rot ht k' θ' hk' h0' h1' _ hq' := by
    have e := hy.rot ht k θ hk h0 h1 hn hq
    have e' := hy.rot ht k' θ' hk' h0' h1' hn hq'
    have := scaleRot_turn hk h0 h1 hn hq (b * a)
    rw [scaleRot_turn hk' h0' h1' hn hq'] at this
    rw [this, hz.rot ht k (a * θ) hk h2 h3 (e ▸ hn') (.inl e), mul_assoc]
  rot_half ht k' hk' hq' := by
    exfalso
    have hw : x.rot.w = 0 := by rcases hq' with e | e <;> rw [e] <;> simp [Quat.turn]
    have hc : 0 < cos (θ / 2) := cos_pos_of_mem_Ioo ⟨by linarith, by linarith⟩
    rcases hq with e | e <;> rw [e] at hw <;> simp [Quat.turn] at hw <;> linarith
  rot_tiny ht hu htn := absurd htn hn
  rot_kept ht := by rw [hz.rot_kept ht, hy.rot_kept ht]

/-! ## scaling and forward kinematics -/

/-- Coordinates of a joint that `scale_xs` knows how to scale: hinges below half a turn (and above
the resolution, or at rest), sliders, rigid connections. -/
def Scalable (b : jcalc.BuiltIn) (q : List ℝ) : Prop :=
  (∃ a θ, b = .r a ∧ q = [θ] ∧ -π < θ ∧ θ < π ∧ (θ = 0 ∨ 1e-8 < |sin (θ / 2)|)) ∨
  (∃ a d, b = .p a ∧ q = [d]) ∨ (b = .frozen ∧ q = [])

theorem axis_isUnit (a : Axis) : (a.unit : Vec3 ℝ).IsUnit := by
  cases a <;> simp [Axis.unit, Vec3.IsUnit]

theorem joint_scaled {π' : Type} {b : jcalc.BuiltIn} {q : List ℝ} (h : Scalable b q) (p : π') (f : ℝ) :
    _scale_transform_based_on_type ((@jcalc.BuiltIn.model π' b).transform q p) b.name f =
      (@jcalc.BuiltIn.model π' b).transform (q.map (f * ·)) p := by
  have hS := scaledBy ((@jcalc.BuiltIn.model π' b).transform q p) b.name f
  set y := _scale_transform_based_on_type ((@jcalc.BuiltIn.model π' b).transform q p) b.name f
  rcases h with ⟨a, θ, rfl, rfl, h0, h1, h2⟩ | ⟨a, d, rfl, rfl⟩ | ⟨rfl, rfl⟩
  · have ht : Turns (jcalc.BuiltIn.r a).name := by cases a <;> simp [Turns, jcalc.BuiltIn.name]
    have hns : ¬ Slides (jcalc.BuiltIn.r a).name := by
      cases a <;> simp [Slides, jcalc.BuiltIn.name]
    have hx : (@jcalc.BuiltIn.model π' (.r a)).transform [θ] p = ⟨0, Quat.turn a.unit (-θ)⟩ := by
      show jcalc._rxyz_transform a.unit [θ] = _
      unfold jcalc._rxyz_transform
      rw [quat_rot_axis_eq, safe_normalize_of_unit (axis_isUnit a)]
      rfl
    have hy : (@jcalc.BuiltIn.model π' (.r a)).transform ([θ].map (f * ·)) p =
        ⟨0, Quat.turn a.unit (f * -θ)⟩ := by
      show jcalc._rxyz_transform a.unit [f * θ] = _
      unfold jcalc._rxyz_transform
      rw [quat_rot_axis_eq, safe_normalize_of_unit (axis_isUnit a), mul_neg]
      rfl
    rw [hx] at hS
    rw [hy]
    have hp := hS.pos_kept hns
    have hr : y.rot = Quat.turn a.unit (f * -θ) := by
      rcases h2 with h2 | h2
      · rw [h2]
        have := hS.rot_tiny ht (by simp [Quat.turn, h2, Quat.normSq])
          (by simp [Quat.Tiny, Quat.turn, h2]; norm_num)
        rw [this]
        ext <;> simp [Quat.turn]
      · apply hS.rot ht a.unit (-θ) (axis_isUnit a) (by linarith) (by linarith) _ (.inl rfl)
        rintro ⟨hx, hy, hz⟩
        simp only [Quat.turn, neg_div, sin_neg, neg_mul, abs_neg] at hx hy hz
        cases a <;> simp [Axis.unit] at hx hy hz <;> linarith
    cases hyy : y
    rw [hyy] at hp hr
    simp only at hp hr
    rw [hp, hr]
  · have hs : Slides (jcalc.BuiltIn.p a).name := by cases a <;> simp [Slides, jcalc.BuiltIn.name]
    have hnt : ¬ Turns (jcalc.BuiltIn.p a).name := by
      cases a <;> simp [Turns, jcalc.BuiltIn.name]
    have hp := hS.pos hs
    have hr := hS.rot_kept hnt
    show y = jcalc._pxyz_transform a.unit [f * d]
    cases hyy : y
    rw [hyy] at hp hr
    simp only at hp hr
    rw [hp, hr]
    show (⟨⟨f * (d * (a.unit : Vec3 ℝ).x), f * (d * (a.unit : Vec3 ℝ).y),
      f * (d * (a.unit : Vec3 ℝ).z)⟩, unitQuat⟩ : Transform ℝ) = ⟨.smul (f * d) a.unit, unitQuat⟩
    congr 1
    ext <;> simp [Vec3.smul, mul_assoc]
  · have hp := hS.pos_kept (by simp [Slides, jcalc.BuiltIn.name])
    have hr := hS.rot_kept (by simp [Turns, jcalc.BuiltIn.name])
    cases hyy : y
    rw [hyy] at hp hr
    simp only at hp hr
    rw [hp, hr]
    rfl

theorem ownSlice_map {w : String → Option Nat} {types : List String} (q : List ℝ) (g : ℝ → ℝ) (i : Nat) :
    ownSlice w types (q.map g) i = (ownSlice w types q i).map g := by
  unfold ownSlice
  simp [List.map_take, List.map_drop]

/-- **C74.** Scaling the joint transforms is scaling the coordinates: for a system of hinges, sliders
and rigid connections, forward kinematics of the scaled coordinates yields the scaled joint
transforms. -/
theorem C74_kinematics_partial {π' : Type} {E : JEnv ℝ π'} {s : System ℝ π'} (h : s.WF E.toEnv)
    (hE : E.Std) {q : List ℝ} {f : ℝ} {exclude : List String}
    (hs : ∀ i (t : String), s.link_types[i]? = some t → t ∉ exclude ∧ ∃ b : jcalc.BuiltIn, t = b.name ∧
      Scalable b (ownSlice E.qw s.link_types q i))
    {xs ys : List (Transform ℝ)} {s₁ s₂ : System ℝ π'} (h₁ : s.IsFK E q xs s₁)
    (h₂ : s.IsFK E (q.map (f * ·)) ys s₂) :
    s.scale_xs E [s₁.links.map (·.transform2)] f exclude = .ok [s₂.links.map (·.transform2)] := by
  unfold scale_xs _checks_time_series_of_xs
  have hl1 : (s₁.links.map (·.transform2)).length = s.link_parents.length := by
    simp [h₁.links_len]
  rw [pyAssert_true (p := ∀ row ∈ [s₁.links.map (·.transform2)], row.length = s.num_links)
    (by simpa [num_links] using hl1)]
  simp only [ok_bind]
  rw [mapM_ok (g := fun _ => s₂.links.map (·.transform2))]
  · rfl
  · intro row hr
    rw [List.mem_singleton] at hr
    subst hr
    rw [scale_eq h.toConsistent hl1]
    congr 1
    apply List.ext_getElem (by simp [h₂.links_len])
    intro i hi hi'
    have hi : i < s.link_parents.length := by simpa using hi
    have hrow : s.links[i]? = some (s.links[i]'(by rw [h.links_len]; exact hi)) :=
      List.getElem?_eq_getElem _
    have htl : i < s.link_types.length := by rw [h.types_len]; exact hi
    obtain ⟨T₁, ⟨jm, p, hjm, hp, hT₁⟩, -, hl₁⟩ := h₁.pose i hi _ hrow
    obtain ⟨T₂, ⟨jm', p', hjm', hp', hT₂⟩, -, hl₂⟩ := h₂.pose i hi _ hrow
    rw [hjm] at hjm'
    rw [hp] at hp'
    cases hjm'
    cases hp'
    obtain ⟨hex, b, hb, hsc⟩ := hs i _ (List.getElem?_eq_getElem htl)
    have hty : s.link_types.getD i "" = b.name := by
      rw [List.getD_eq_getElem?_getD, List.getElem?_eq_getElem htl, Option.getD_some, hb]
    rw [hty, hE.joints] at hjm
    cases hjm
    rw [hb] at hex
    simp only [List.getElem_map, List.getElem_range, hty, if_neg hex]
    have e1 : (s₁.links.map (·.transform2)).getD i .zero = T₁ := by
      simp [hl₁]
    have e2 : s₂.links[i]'(by rw [h₂.links_len]; exact hi) = _ :=
      (List.getElem?_eq_some_iff.1 hl₂).2
    rw [e1, e2, hT₁, hT₂, joint_scaled hsc, ownSlice_map]

/-- **C74.** With the default exclusions the position of no joint is scaled. -/
theorem C74_default {t : String} {f : ℝ} {x y : Transform ℝ} (ht : t ∉ ["px", "py", "pz", "free"])
    (h : ScaledBy t f x y) : y.pos = x.pos :=
  h.pos_kept (by simpa [Slides] using ht)

/-! ## what goes wrong -/

/-- **C74 fails** for the other joint types: `p3d`, `free_2d`, `cor` and `saddle` joints keep their
motion, whatever the factor. -/
theorem C74_other_joints_fails {π' : Type} {E : JEnv ℝ π'} {s : System ℝ π'}
    (h : s.Consistent E.toEnv) {xs : List (List (Transform ℝ))}
    (hx : ∀ row ∈ xs, row.length = s.link_parents.length)
    (ht : ∀ t ∈ s.link_types, t = "p3d" ∨ t = "free_2d" ∨ t = "cor" ∨ t = "saddle") (f : ℝ)
    (exclude : List String) : s.scale_xs E xs f exclude = .ok xs := by
  obtain ⟨ys, hy, hl, hrow⟩ := C74_scale_xs h hx f exclude
  rw [hy]
  congr 1
  apply List.ext_getElem hl
  intro n h1 h2
  obtain ⟨out, ho, hol, hrest⟩ := hrow n _ (List.getElem?_eq_getElem h2)
  rw [(List.getElem?_eq_some_iff.1 ho).2]
  apply List.ext_getElem hol
  intro i h3 h4
  have hti : i < s.link_types.length := by
    rw [h.types_len, ← hx _ (List.getElem_mem h2)]; exact h4
  obtain ⟨y, hy, h5, h6⟩ := hrest i _ _ (List.getElem?_eq_getElem h4) (List.getElem?_eq_getElem hti)
  rw [(List.getElem?_eq_some_iff.1 hy).2]
  by_cases he : s.link_types[i] ∈ exclude
  · exact h5 he
  · have hS := h6 he
    have hc := ht _ (List.getElem_mem hti)
    have h7 : ¬ Slides s.link_types[i] := by
      rcases hc with e | e | e | e <;> rw [e] <;> simp [Slides]
    have h8 : ¬ Turns s.link_types[i] := by
      rcases hc with e | e | e | e <;> rw [e] <;> simp [Turns]
    have a := hS.pos_kept h7
    have b := hS.rot_kept h8
    cases y
    simp only at a b
    rw [a, b]

/-- **C74 fails** for hinges beyond half a turn: scaled by one half, a hinge at `3π/2` ends up at
`-π/4`, not at `3π/4`. -/
theorem C74_large_angle_fails :
    _scale_transform_based_on_type (jcalc._rxyz_transform ⟨1, 0, 0⟩ [3 * π / 2]) "rx" (1 / 2) =
      jcalc._rxyz_transform ⟨1, 0, 0⟩ [-π / 4] ∧
    ∀ v : Vec3 ℝ, v = ⟨0, 1, 0⟩ →
      rotate v (jcalc._rxyz_transform ⟨1, 0, 0⟩ [-π / 4]).rot ≠
      rotate v (jcalc._rxyz_transform ⟨1, 0, 0⟩ [3 * π / 4]).rot := by
  have hpi := pi_pos
  have hk : (⟨1, 0, 0⟩ : Vec3 ℝ).IsUnit := by simp [Vec3.IsUnit]
  have hT : ∀ θ, jcalc._rxyz_transform ⟨1, 0, 0⟩ [θ] = ⟨0, Quat.turn ⟨1, 0, 0⟩ (-θ)⟩ := by
    intro θ
    unfold jcalc._rxyz_transform
    rw [quat_rot_axis_eq, safe_normalize_of_unit hk]
    rfl
  simp only [hT]
  constructor
  · have hS := scaledBy ⟨0, Quat.turn ⟨1, 0, 0⟩ (-(3 * π / 2))⟩ "rx" (1 / 2)
    have hp := hS.pos_kept (by simp [Slides])
    have ht : (Quat.turn ⟨1, 0, 0⟩ (-(3 * π / 2))).IsTurn ⟨1, 0, 0⟩ (π / 2) := by
      right
      have e1 : -(3 * π / 2) / 2 = π / 2 / 2 - π := by ring
      ext <;> simp [Quat.turn, e1, cos_sub_pi, sin_sub_pi]
    have hr := hS.rot (by simp [Turns]) ⟨1, 0, 0⟩ (π / 2) hk (by linarith) (by linarith) (by
      have e1 : -(3 * π / 2) / 2 = π / 4 - π := by ring
      simp only [Quat.Tiny, Quat.turn, e1, sin_sub_pi, sin_pi_div_four]
      rintro ⟨h, -⟩
      simp only [mul_one, abs_neg] at h
      rw [abs_of_nonneg (by positivity)] at h
      have : (1 : ℝ) ≤ √2 := by rw [show (1 : ℝ) = √1 by simp]; exact sqrt_le_sqrt (by norm_num)
      norm_num at h
      linarith) ht
    generalize _scale_transform_based_on_type ⟨0, Quat.turn ⟨1, 0, 0⟩ (-(3 * π / 2))⟩ "rx" (1 / 2) = y at *
    cases y
    simp only at hp hr
    rw [hp, hr]
    congr 2
    ring
  · rintro v rfl hc
    have hy := congrArg Vec3.y hc
    simp only [rotate_y, Quat.turn] at hy
    have e1 : -(-π / 4) / 2 = π / 8 := by ring
    have e2 : -(3 * π / 4) / 2 = π / 8 - π / 2 := by ring
    rw [e1, e2, cos_sub_pi_div_two, sin_sub_pi_div_two] at hy
    have h1 : cos (π / 4) = cos (π / 8) ^ 2 - sin (π / 8) ^ 2 := by
      rw [show π / 4 = 2 * (π / 8) by ring, cos_two_mul']
    rw [cos_pi_div_four] at h1
    have : (0 : ℝ) < √2 := by positivity
    simp only [mul_one, mul_zero, zero_mul, sub_zero, add_zero, zero_add] at hy
    nlinarith

/-- **C74 fails** for half turns: the result depends on which of the two quaternions of the same
rotation is given. -/
theorem C74_half_turn_fails :
    ∃ (q : Quat ℝ) (v : Vec3 ℝ), q.normSq = 1 ∧ (∀ u, rotate u q = rotate u (-q)) ∧
      rotate v (_scale_transform_based_on_type ⟨0, q⟩ "spherical" (1 / 2)).rot ≠
      rotate v (_scale_transform_based_on_type ⟨0, -q⟩ "spherical" (1 / 2)).rot := by
  have hk : (⟨1, 0, 0⟩ : Vec3 ℝ).IsUnit := by simp [Vec3.IsUnit]
  have e : ∀ q : Quat ℝ, (_scale_transform_based_on_type ⟨0, q⟩ "spherical" (1 / 2)).rot =
      scaleRot (1 / 2) q := fun q => by
    unfold _scale_transform_based_on_type
    simp [scaleRot]
  refine ⟨Quat.turn ⟨1, 0, 0⟩ π, ⟨0, 1, 0⟩, by simp [Quat.turn, Quat.normSq],
    fun u => (rotate_neg_quat u _).symm, ?_⟩
  rw [e, e, scaleRot_half hk, scaleRot_half_neg hk]
  intro hc
  have hz := congrArg Vec3.z hc
  have e1 : 1 / 2 * π / 2 = π / 4 := by ring
  have e2 : -(1 / 2 * π) / 2 = -(π / 4) := by ring
  simp only [rotate_z, Quat.turn, e1, e2, cos_neg, sin_neg, cos_pi_div_four, sin_pi_div_four] at hz
  have h2 : √2 * √2 = 2 := mul_self_sqrt (by norm_num)
  simp at hz
  nlinarith

/-! ## the conditions can be met -/

/-- `C74_scale_xs`, `C74_one`, `C74_zero`, `C74_compose`: a hinge and its parent -/
example : kinSys.Consistent stdEnv.toEnv ∧
    (∀ row ∈ [List.replicate 4 (⟨⟨1, 2, 3⟩, Quat.turn ⟨1, 0, 0⟩ 1⟩ : Transform ℝ)],
      row.length = kinSys.link_parents.length) ∧
    (⟨1, 0, 0⟩ : Vec3 ℝ).IsUnit ∧ (Quat.turn ⟨1, 0, 0⟩ 1).normSq = 1 ∧
    ¬ (Quat.turn ⟨1, 0, 0⟩ 1).Tiny ∧ ¬ (Quat.turn ⟨1, 0, 0⟩ (2 * 1)).Tiny ∧
    (Quat.turn ⟨1, 0, 0⟩ 1).IsTurn ⟨1, 0, 0⟩ 1 ∧ -π < 2 * 1 ∧ 2 * 1 < π ∧
    ScaledBy "rx" 2 ⟨0, Quat.turn ⟨1, 0, 0⟩ 1⟩ ⟨0, Quat.turn ⟨1, 0, 0⟩ (2 * 1)⟩ := by
  have hpi := pi_gt_three
  have h1 : (1 : ℝ) / 4 < sin (1 / 2) := by
    have := sin_gt_sub_cube (x := 1 / 2) (by norm_num)
    norm_num at this ⊢
    linarith
  have h2 : (1 : ℝ) / 4 < sin (2 * 1 / 2) := by
    have := sin_gt_sub_cube (x := 1) (by norm_num)
    norm_num at this ⊢
    linarith
  have hk : (⟨1, 0, 0⟩ : Vec3 ℝ).IsUnit := by simp [Vec3.IsUnit]
  have hn : ¬ (Quat.turn ⟨1, 0, 0⟩ 1).Tiny := by
    rintro ⟨h, -, -⟩
    simp only [Quat.turn, mul_one] at h
    have := (abs_le.1 h).2
    norm_num at this
    linarith
  refine ⟨kinSys_consistent, ?_, hk, rotQuat_unit hk _, hn, ?_, .inl rfl, by linarith, by linarith, ?_⟩
  · intro row hr
    rw [List.mem_singleton.1 hr]
    rfl
  · rintro ⟨h, -, -⟩
    simp only [Quat.turn, mul_one] at h
    have := (abs_le.1 h).2
    norm_num at this h2
    linarith
  · have hS := scaledBy ⟨0, Quat.turn ⟨1, 0, 0⟩ 1⟩ "rx" 2
    have a := hS.pos_kept (by simp [Slides])
    have b := hS.rot (by simp [Turns]) ⟨1, 0, 0⟩ 1 hk (by linarith) (by linarith) hn (.inl rfl)
    generalize _scale_transform_based_on_type ⟨0, Quat.turn ⟨1, 0, 0⟩ 1⟩ "rx" 2 = y at *
    cases y
    simp only at a b
    subst a b
    exact hS

/-- `C74_kinematics_partial`: coordinates of hinges, sliders and rigid connections -/
example : Scalable (.r .y) [1] ∧ Scalable (.r .z) [0] ∧ Scalable (.p .x) [-3] ∧
    Scalable .frozen [] := by
  have hpi := pi_gt_three
  refine ⟨.inl ⟨.y, 1, rfl, rfl, by linarith, by linarith, .inr ?_⟩,
    .inl ⟨.z, 0, rfl, rfl, by linarith, by linarith, .inl rfl⟩, .inr (.inl ⟨.x, -3, rfl, rfl⟩),
    .inr (.inr ⟨rfl, rfl⟩)⟩
  have := sin_gt_sub_cube (x := 1 / 2) (by norm_num)
  rw [abs_of_pos (by norm_num at this ⊢; linarith)]
  norm_num at this ⊢
  linarith

end RingLib
