import Mathlib.LinearAlgebra.Matrix.ToLinearEquiv
import Verif.Props.Dynamics

/-! # Properties C27, C28: forward dynamics and integration -/

namespace RingLib
open System algebra maths Finset
variable {π' : Type}

/-! ## arrays -/

theorem zipWith_getD (f : ℝ → ℝ → ℝ) {a b : List ℝ} {r : Nat} (ha : r < a.length)
    (hb : r < b.length) :
    (List.zipWith f a b).getD r 0 = f (a.getD r 0) (b.getD r 0) := by
  simp [List.getD_eq_getElem?_getD, List.getElem?_zipWith, ha, hb]

theorem map_getD_zero (f : ℝ → ℝ) (hf : f 0 = 0) (a : List ℝ) (r : Nat) :
    (a.map f).getD r 0 = f (a.getD r 0) := by
  simp only [List.getD_eq_getElem?_getD, List.getElem?_map]
  cases a[r]? <;> simp [hf]

/-! ## spring forces -/

/-- joints with a quaternion and further coordinates -/
def isFreeOrCor : jcalc.BuiltIn → Bool
  | .free => true
  | .cor => true
  | _ => false

/-- joints whose only coordinates are a quaternion -/
def isSpherical : jcalc.BuiltIn → Bool
  | .spherical => true
  | _ => false

theorem is_free_or_cor_name (b : jcalc.BuiltIn) :
    joint_type_is_free_or_cor b.name = isFreeOrCor b := by
  rcases b with _ | _ | _ | _ | _ | _ | ⟨_ | _ | _⟩ | ⟨_ | _ | _⟩ | _ <;> decide

theorem is_spherical_name (b : jcalc.BuiltIn) :
    joint_type_is_spherical b.name = isSpherical b := by
  rcases b with _ | _ | _ | _ | _ | _ | ⟨_ | _ | _⟩ | ⟨_ | _ | _⟩ | _ <;> decide

theorem spring_length {b : jcalc.BuiltIn} {q z : List ℝ} (hq : q.length = b.q_width)
    (hz : z.length = b.q_width) :
    (_calc_spring_force_per_link (q, z, b.name)).length = b.qd_width := by
  unfold _calc_spring_force_per_link
  simp only [is_free_or_cor_name, is_spherical_name]
  cases b <;>
    simp only [jcalc.BuiltIn.q_width] at hq hz <;>
    simp [isFreeOrCor, isSpherical, jcalc.BuiltIn.qd_width, _quaternion_spring_force,
      jcalc.vecList, lsub, hq, hz]

theorem wOf_builtin {E : JEnv ℝ π'} (hE : E.Std) (b : jcalc.BuiltIn) :
    wOf E.qw b.name = b.q_width ∧ wOf E.dw b.name = b.qd_width := by
  constructor
  · rw [wOf, hE.qw b]; rfl
  · rw [wOf, hE.dw b]; rfl

theorem flatten_lengths {β : Type} {l : List (List β)} {ws : List Nat} (h : l.length = ws.length)
    (hw : ∀ i (h1 : i < l.length) (h2 : i < ws.length), l[i].length = ws[i]) :
    l.flatten.length = ws.sum ∧ l.map List.length = ws := by
  have e : l.map List.length = ws := by
    apply List.ext_getElem
    · simpa using h
    · intro i h1 h2
      simp only [List.length_map] at h1
      rw [List.getElem_map]
      exact hw i h1 h2
  exact ⟨by rw [List.length_flatten, e], e⟩

theorem jnpConcatenate_ok {β : Type} {l : List (List β)} (h : 0 < l.length) :
    jnpConcatenate l = .ok l.flatten := by
  unfold jnpConcatenate
  cases l with
  | nil => simp at h
  | cons => rfl

theorem spring_ok {E : JEnv ℝ π'} (hE : E.Std) {s : System ℝ π'} (h : s.WF E.toEnv)
    (hb : s.JointsIn fun _ => True) (hn : 0 < s.link_parents.length) {q : List ℝ}
    (hq : q.length = (s.link_types.map (wOf E.qw)).sum) :
    ∃ f, _spring_force E s q = .ok f ∧ f.length = (s.link_types.map (wOf E.dw)).sum := by
  unfold _spring_force
  rw [scan_pure h.known h.types_len _ (arg := (argQ q).and <|
    (argQ s.link_spring_zeropoint).and (argL s.link_types)) (by
      intro x hx
      simp only [ScanArg.and, argQ, argL, List.mem_append, List.mem_singleton] at hx
      rcases hx with rfl | rfl | rfl
      · exact hq
      · exact h.zeropoint_len
      · exact h.types_len)
    (rows_and (rows_argQ rfl q) (rows_and (rows_argQ rfl _) (rows_argL _ _)))
    (by simp [h.types_len])]
  simp only [ok_bind]
  rw [jnpConcatenate_ok (by simp [h.types_len]; exact hn)]
  refine ⟨_, rfl, ?_⟩
  apply (flatten_lengths (by simp) _).1
  intro i h1 h2
  have hi : i < s.link_types.length := by simpa using h2
  simp only [List.getElem_map, List.getElem_zip, chunks_row]
  obtain ⟨b, _, hbn⟩ := hb s.link_types[i] (List.getElem_mem _)
  have l1 := ownSlice_length hq hi
  have l2 := ownSlice_length h.zeropoint_len hi
  rw [hbn] at l1 l2 ⊢
  rw [(wOf_builtin hE b).1] at l1 l2
  rw [spring_length l1 l2, (wOf_builtin hE b).2]

/-! ## the linear system -/

theorem mulVecL_length {n : Nat} (A : Matrix (Fin n) (Fin n) ℝ) (v : List ℝ) :
    (mulVecL A v).length = n := by simp [mulVecL]

theorem mulVecL_getD {n : Nat} (A : Matrix (Fin n) (Fin n) ℝ) (v : List ℝ) (r : Fin n) :
    (mulVecL A v).getD r 0 = A.mulVec (fun c => v.getD c 0) r := by
  simp [mulVecL, Matrix.mulVec, dotProduct, List.getD_eq_getElem?_getD]

/-- a matrix with positive quadratic form can be inverted -/
theorem solve_pos {n : Nat} (A : Matrix (Fin n) (Fin n) ℝ)
    (hA : ∀ u : Fin n → ℝ, u ≠ 0 → 0 < ∑ r, ∑ c, u r * A r c * u c) (b : List ℝ) (r : Fin n) :
    ∑ c : Fin n, A r c * (mulVecL A⁻¹ b).getD c 0 = b.getD r 0 := by
  have hdet : A.det ≠ 0 := by
    intro h0
    obtain ⟨v, hv, hv0⟩ := Matrix.exists_mulVec_eq_zero_iff.2 h0
    have := hA v hv
    have e : ∑ r, ∑ c, v r * A r c * v c = ∑ r, v r * A.mulVec v r := by
      apply Finset.sum_congr rfl
      intro r _
      rw [Matrix.mulVec, dotProduct, Finset.mul_sum]
      apply Finset.sum_congr rfl
      intro c _
      ring
    rw [e, hv0] at this
    simp at this
  have e : (fun c : Fin n => (mulVecL A⁻¹ b).getD c 0) = A⁻¹.mulVec fun c => b.getD c 0 := by
    funext c
    exact mulVecL_getD _ _ c
  have : ∑ c : Fin n, A r c * (mulVecL A⁻¹ b).getD c 0 =
      A.mulVec (fun c : Fin n => (mulVecL A⁻¹ b).getD c 0) r := rfl
  rw [this, e, Matrix.mulVec_mulVec, Matrix.mul_nonsing_inv _ (isUnit_iff_ne_zero.2 hdet),
    Matrix.one_mulVec]

/-- C27: without approximate inversion, `forward_dynamics` solves an invertible system: the
accelerations it returns, put into inverse dynamics, balance the given torques, springs, damping,
armature, the implicit damping term and the small regularisation. -/
theorem C27_forward_dynamics {E : JEnv ℝ π'} (hE : E.Std) {s : System ℝ π'} (h : s.Dynamic E)
    (hb : s.JointsIn fun _ => True) (hn : 0 < s.link_parents.length) (hpi : 0 < E.pi)
    (hp : ∀ g ∈ s.geoms, g.Physical) (ha : ∀ x ∈ s.link_armature, 0 ≤ x)
    (hd : ∀ x ∈ s.link_damping, 0 ≤ x) (hdt : 0 ≤ s.dt) (hit : s.mass_mat_iters = 0)
    {q qd tau : List ℝ} (hq : q.length = (s.link_types.map (wOf E.qw)).sum)
    (hqd : qd.length = (s.link_types.map (wOf E.dw)).sum) (htau : tau.length = qd.length) :
    ∃ qdd tauID spring, forward_dynamics E s q qd tau = .ok qdd ∧ qdd.length = qd.length ∧
      inverse_dynamics E s qd qdd = .ok tauID ∧ tauID.length = qd.length ∧
      _spring_force E s q = .ok spring ∧ spring.length = qd.length ∧
      ∀ r, r < qd.length → tauID.getD r 0 +
        (s.link_armature.getD r 0 + s.link_damping.getD r 0 * s.dt + 1e-6) * qdd.getD r 0 =
        tau.getD r 0 - s.link_damping.getD r 0 * qd.getD r 0 +
          s.link_spring_stiffness.getD r 0 * spring.getD r 0 := by
  obtain ⟨spring, hs, hsl⟩ := spring_ok hE h.wf hb hn hq
  obtain ⟨M, hM, hsz, hen⟩ := mass_matrix_entries h
  obtain ⟨M', C', C, hM', _, _, _, hC, hCl, _⟩ := C26_torques h hn hqd (qdd := qd) rfl
  have hfd : forward_dynamics E s q qd tau = .ok (mulVecL (mass_mat_inv s M)
      (ladd (lsub tau C) (ladd (lmul (s.link_damping.map fun x => -x) qd)
        (lmul s.link_spring_stiffness spring)))) := by
    unfold forward_dynamics
    rw [hC, hM, hs]
    rfl
  set qdd := mulVecL (mass_mat_inv s M)
      (ladd (lsub tau C) (ladd (lmul (s.link_damping.map fun x => -x) qd)
        (lmul s.link_spring_stiffness spring))) with hqdd
  have hql : qdd.length = qd.length := by rw [hqdd, mulVecL_length, hsz, hqd]
  obtain ⟨M2, tauID, C2, hM2, hsz2, hID, hIDl, hC2, hCl2, heq⟩ := C26_torques h hn hqd hql
  rw [hM] at hM2
  cases hM2
  rw [hC] at hC2
  cases hC2
  refine ⟨qdd, tauID, spring, hfd, hql, hID, hIDl, hs, by rw [hsl, hqd], ?_⟩
  -- the matrix of the linear system
  have dpos : ∀ r, 0 ≤ s.link_damping.getD r 0 := by
    intro r
    rw [List.getD_eq_getElem?_getD]
    cases hx : s.link_damping[r]? with
    | none => exact le_rfl
    | some x => exact hd x (List.mem_of_getElem? hx)
  set A := M.toMatrix + Matrix.diagonal (fun i : Fin M.size => s.link_damping.getD i 0 * s.dt) +
      (1e-6 : ℝ) • (1 : Matrix (Fin M.size) (Fin M.size) ℝ) with hA
  have hentry : ∀ r c : Fin M.size, A r c = M.entry r c +
      if r = c then s.link_damping.getD r 0 * s.dt + 1e-6 else 0 := by
    intro r c
    rw [hA]
    simp only [Matrix.add_apply, Matrix.smul_apply, Matrix.diagonal_apply, Matrix.one_apply,
      SqMat.toMatrix, smul_eq_mul]
    split <;> ring
  have hpos : ∀ u : Fin M.size → ℝ, u ≠ 0 → 0 < ∑ r, ∑ c, u r * A r c * u c := by
    intro u hu
    obtain ⟨M3, hM3, hnn⟩ := C27_nonneg h hpi hp ha (List.ofFn u) (by simpa using hsz)
    rw [hM] at hM3
    cases hM3
    rw [List.length_ofFn, Finset.sum_range] at hnn
    have e : ∑ r : Fin M.size, ∑ c, u r * A r c * u c =
        ∑ r : Fin M.size, ∑ c ∈ range M.size,
          (List.ofFn u).getD r 0 * M.entry r c * (List.ofFn u).getD c 0 +
        ∑ r : Fin M.size, (s.link_damping.getD r 0 * s.dt + 1e-6) * u r ^ 2 := by
      rw [← Finset.sum_add_distrib]
      apply Finset.sum_congr rfl
      intro r _
      have e1 : ∀ c : Fin M.size, u r * A r c * u c =
          (List.ofFn u).getD r 0 * M.entry r c * (List.ofFn u).getD c 0 +
          (if r = c then (s.link_damping.getD r 0 * s.dt + 1e-6) * u r ^ 2 else 0) := by
        intro c
        rw [hentry]
        have g1 : (List.ofFn u).getD r 0 = u r := by simp [List.getD_eq_getElem?_getD]
        have g2 : (List.ofFn u).getD c 0 = u c := by simp [List.getD_eq_getElem?_getD]
        rw [g1, g2]
        split
        · rename_i hrc; subst hrc; ring
        · ring
      rw [Finset.sum_congr rfl (fun c _ => e1 c), Finset.sum_add_distrib, Finset.sum_ite_eq,
        if_pos (Finset.mem_univ _), Finset.sum_range]
    rw [e]
    apply add_pos_of_nonneg_of_pos hnn
    obtain ⟨k, hk⟩ : ∃ k, u k ≠ 0 := by
      by_contra hall
      push Not at hall
      exact hu (funext hall)
    have nn : ∀ r : Fin M.size, 0 < s.link_damping.getD r 0 * s.dt + 1e-6 := by
      intro r
      have := mul_nonneg (dpos r) hdt
      have h2 : (0 : ℝ) < 1e-6 := by norm_num
      linarith
    apply Finset.sum_pos'
    · intro r _
      exact mul_nonneg (nn r).le (sq_nonneg _)
    · exact ⟨k, Finset.mem_univ _, mul_pos (nn k) (by positivity)⟩
  intro r hr
  have hr' : r < M.size := by omega
  have sol := solve_pos A hpos (ladd (lsub tau C) (ladd (lmul (s.link_damping.map fun x => -x) qd)
        (lmul s.link_spring_stiffness spring))) ⟨r, hr'⟩
  have hinv : mass_mat_inv s M = A⁻¹ := by
    unfold mass_mat_inv
    rw [if_pos hit]
  rw [← hinv, ← hqdd] at sol
  have dl := h.wf.damping_len
  have sl := h.wf.stiffness_len
  have eb : (ladd (lsub tau C) (ladd (lmul (s.link_damping.map fun x => -x) qd)
        (lmul s.link_spring_stiffness spring))).getD r 0 =
      tau.getD r 0 - C.getD r 0 + (-s.link_damping.getD r 0 * qd.getD r 0 +
        s.link_spring_stiffness.getD r 0 * spring.getD r 0) := by
    unfold ladd lsub lmul
    rw [zipWith_getD, zipWith_getD, zipWith_getD, zipWith_getD, zipWith_getD,
      map_getD_zero _ neg_zero]
    all_goals first | (simp only [List.length_zipWith, List.length_map]; omega) | omega
  rw [eb] at sol
  have hrow := heq r hr
  have e1 : ∑ c : Fin M.size, A ⟨r, hr'⟩ c * qdd.getD c 0 =
      ∑ c ∈ range qd.length,
        (M.entry r c - if r = c then s.link_armature.getD r 0 else 0) * qdd.getD c 0 +
      (s.link_armature.getD r 0 + s.link_damping.getD r 0 * s.dt + 1e-6) * qdd.getD r 0 := by
    have e2 : ∀ c : Fin M.size, A ⟨r, hr'⟩ c * qdd.getD c 0 =
        (M.entry r c - if r = c then s.link_armature.getD r 0 else 0) * qdd.getD c 0 +
        (if (⟨r, hr'⟩ : Fin M.size) = c then (s.link_armature.getD r 0 +
          s.link_damping.getD r 0 * s.dt + 1e-6) * qdd.getD r 0 else 0) := by
      intro c
      rw [hentry]
      by_cases hrc : (⟨r, hr'⟩ : Fin M.size) = c
      · subst hrc
        simp only [if_true]
        ring
      · have : ¬ r = (c : Nat) := fun e => hrc (Fin.ext e)
        rw [if_neg hrc, if_neg hrc, if_neg this]
        ring
    rw [Finset.sum_congr rfl (fun c _ => e2 c), Finset.sum_add_distrib, Finset.sum_ite_eq,
      if_pos (Finset.mem_univ _), ← hsz2, Finset.sum_range]
  rw [e1, ← hrow] at sol
  linarith

/-! ## C28 -/

open jcalc
open Real (cos cos_pos_of_mem_Ioo)

theorem normalise_unit {p : Quat ℝ} (h : p.normSq ≠ 0) :
    (⟨p.w / norm4 p, p.x / norm4 p, p.y / norm4 p, p.z / norm4 p⟩ : Quat ℝ).normSq = 1 := by
  have hs : p.w ^ 2 + p.x ^ 2 + p.y ^ 2 + p.z ^ 2 = p.normSq := by simp [Quat.normSq]; ring
  have hn : 0 ≤ p.normSq := by rw [← hs]; positivity
  have h2 : norm4 p ^ 2 = p.normSq := by
    unfold norm4
    rw [Real.sq_sqrt (by rw [hs]; exact hn), hs]
  have h3 : norm4 p ≠ 0 := by
    intro h0
    rw [h0] at h2
    exact h (by rw [← h2]; norm_num)
  simp only [Quat.normSq]
  have : p.w / norm4 p * (p.w / norm4 p) + p.x / norm4 p * (p.x / norm4 p) +
      p.y / norm4 p * (p.y / norm4 p) + p.z / norm4 p * (p.z / norm4 p) =
      p.normSq / norm4 p ^ 2 := by simp only [Quat.normSq]; ring
  rw [this, h2, div_self h]

theorem norm3_le_of_abs {d : Vec3 ℝ} {e : ℝ} (he : 0 ≤ e) (hx : |d.x| ≤ e) (hy : |d.y| ≤ e)
    (hz : |d.z| ≤ e) : norm3 d ≤ 2 * e := by
  unfold norm3
  rw [Real.sqrt_le_left (by linarith)]
  have h1 := sq_le_sq' (abs_le.1 hx).1 (abs_le.1 hx).2
  have h2 := sq_le_sq' (abs_le.1 hy).1 (abs_le.1 hy).2
  have h3 := sq_le_sq' (abs_le.1 hz).1 (abs_le.1 hz).2
  nlinarith

/-- the rotation of one time step -/
theorem strap_rot (d : Vec3 ℝ) {dt : ℝ} (hdt : |dt| < 1e8) :
    (quat_rot_axis (.smul (norm3 d + 1e-8)⁻¹ d) ((norm3 d + 1e-8) * dt)).normSq ≠ 0 := by
  set a := norm3 d + 1e-8 with ha
  have hn : 0 ≤ norm3 d := Real.sqrt_nonneg _
  have hpos : 0 < a := by rw [ha]; have : (0 : ℝ) < 1e-8 := by norm_num
                          linarith
  by_cases h : |(Vec3.smul a⁻¹ d).x| ≤ 1e-8 ∧ |(Vec3.smul a⁻¹ d).y| ≤ 1e-8 ∧
      |(Vec3.smul a⁻¹ d).z| ≤ 1e-8
  · rw [C15_rot_axis_degenerate h]
    have key : ∀ x : ℝ, |a⁻¹ * x| ≤ 1e-8 → |x| ≤ 1e-8 * a := by
      intro x hx
      rw [abs_mul, abs_of_pos (inv_pos.2 hpos), inv_mul_le_iff₀ hpos] at hx
      linarith
    have hb := norm3_le_of_abs (d := d) (e := 1e-8 * a) (by positivity) (key _ h.1) (key _ h.2.1)
      (key _ h.2.2)
    have ha2 : a ≤ 2e-8 := by
      norm_num at hb ha ⊢
      linarith
    have hang : |a * dt / 2| < 1 + 1e-3 := by
      rw [abs_div, abs_mul, abs_of_pos hpos, abs_two]
      have : a * |dt| ≤ 2e-8 * 1e8 := mul_le_mul ha2 hdt.le (abs_nonneg _) (by norm_num)
      norm_num at this ⊢
      linarith
    have hc : 0 < cos (a * dt / 2) := by
      apply cos_pos_of_mem_Ioo
      have := Real.pi_gt_three
      rw [abs_lt] at hang
      norm_num at hang
      constructor <;> linarith [hang.1, hang.2]
    simp only [Quat.normSq]
    have := mul_pos hc hc
    intro h0
    nlinarith
  · have h1 : (quat_rot_axis (.smul a⁻¹ d) (a * dt)).normSq = 1 := (C15_rot_axis h (a * dt)).1
    rw [h1]
    norm_num

/-- C28: whatever the angular velocity, integrating a unit quaternion gives a unit quaternion. -/
theorem C28_strapdown_unit {q dang : List ℝ} {dt : ℝ}
    (hq : q.getD 0 0 ^ 2 + q.getD 1 0 ^ 2 + q.getD 2 0 ^ 2 + q.getD 3 0 ^ 2 = 1)
    (hdt : |dt| < 1e8) :
    let q' := _strapdown_integration q dang dt
    q'.length = 4 ∧ q'.getD 0 0 ^ 2 + q'.getD 1 0 ^ 2 + q'.getD 2 0 ^ 2 + q'.getD 3 0 ^ 2 = 1 := by
  refine ⟨rfl, ?_⟩
  have hq' : (quatOf q).normSq = 1 := by
    rw [← hq]; simp only [quatOf, Quat.normSq]; ring
  have := normalise_unit (p := quat_mul (quat_rot_axis (.smul (norm3 (vecOf dang 0) + 1e-8)⁻¹
    (vecOf dang 0)) ((norm3 (vecOf dang 0) + 1e-8) * dt)) (quatOf q)) (by
      rw [normSq_mul, hq', mul_one]
      exact strap_rot _ hdt)
  simp only [Quat.normSq] at this
  unfold _strapdown_integration quatList
  simp only [List.getD_cons_zero, List.getD_cons_succ]
  rw [← this]
  ring

/-- C28: without angular velocity the orientation does not change. -/
theorem C28_strapdown_zero {q dang : List ℝ} {dt : ℝ} (hl : q.length = 4)
    (hq : q.getD 0 0 ^ 2 + q.getD 1 0 ^ 2 + q.getD 2 0 ^ 2 + q.getD 3 0 ^ 2 = 1)
    (hdt : |dt| < 1e8) (hz : ∀ x ∈ dang, x = 0) :
    _strapdown_integration q dang dt = q := by
  have hd : vecOf dang 0 = ⟨0, 0, 0⟩ := by
    have : ∀ k, dang.getD k 0 = 0 := by
      intro k
      rw [List.getD_eq_getElem?_getD]
      cases hx : dang[k]? with
      | none => rfl
      | some x => exact hz x (List.mem_of_getElem? hx)
    simp only [vecOf, this]
  match q, hl with
  | [w, x, y, z], _ =>
    simp only [List.getD_cons_zero, List.getD_cons_succ] at hq
    unfold _strapdown_integration
    simp only [hd]
    have hn0 : norm3 (⟨0, 0, 0⟩ : Vec3 ℝ) = 0 := by simp [norm3]
    have hs0 : Vec3.smul (norm3 (⟨0, 0, 0⟩ : Vec3 ℝ) + 1e-8)⁻¹ (⟨0, 0, 0⟩ : Vec3 ℝ) = ⟨0, 0, 0⟩ := by
      ext <;> simp [Vec3.smul]
    rw [hs0, C15_rot_axis_degenerate (by norm_num), hn0, zero_add]
    have hc : 0 < cos (1e-8 * dt / 2) := by
      apply cos_pos_of_mem_Ioo
      have := Real.pi_gt_three
      rw [abs_lt] at hdt
      norm_num at hdt ⊢
      constructor <;> linarith [hdt.1, hdt.2]
    set c := cos (1e-8 * dt / 2) with hcdef
    have hm : quat_mul (⟨c, 0, 0, 0⟩ : Quat ℝ) (quatOf [w, x, y, z]) =
        ⟨c * w, c * x, c * y, c * z⟩ := by
      ext <;> simp [quat_mul, quatOf]
    rw [hm]
    have hnorm : norm4 (⟨c * w, c * x, c * y, c * z⟩ : Quat ℝ) = c := by
      unfold norm4
      have : (c * w) ^ 2 + (c * x) ^ 2 + (c * y) ^ 2 + (c * z) ^ 2 = c ^ 2 := by
        linear_combination c ^ 2 * hq
      simp only [this]
      exact Real.sqrt_sq hc.le
    rw [hnorm]
    simp only [quatList]
    rw [mul_div_cancel_left₀ _ hc.ne', mul_div_cancel_left₀ _ hc.ne',
      mul_div_cancel_left₀ _ hc.ne', mul_div_cancel_left₀ _ hc.ne']

/-- C28: the orientation is turned about the direction of the angular velocity, by (its length
plus `1e-8`) times `dt`. -/
theorem C28_strapdown_rotation {q dang : List ℝ} {dt : ℝ}
    (hq : q.getD 0 0 ^ 2 + q.getD 1 0 ^ 2 + q.getD 2 0 ^ 2 + q.getD 3 0 ^ 2 = 1)
    (hd : 1e-15 < norm3 (vecOf dang 0)) :
    quatOf (_strapdown_integration q dang dt) =
      quat_mul (quat_rot_axis (.smul (norm3 (vecOf dang 0))⁻¹ (vecOf dang 0))
        ((norm3 (vecOf dang 0) + 1e-8) * dt)) (quatOf q) := by
  set d := vecOf dang 0 with hdd
  set n := norm3 d with hn
  have hn0 : 0 < n := lt_trans (by norm_num) hd
  have ha0 : (0 : ℝ) < n + 1e-8 := by
    have : (0 : ℝ) < 1e-8 := by norm_num
    linarith
  have hsq : n ^ 2 = d.x ^ 2 + d.y ^ 2 + d.z ^ 2 := norm3_sq d
  -- the unit direction
  set k := Vec3.smul n⁻¹ d with hk
  have hk1 : k.x ^ 2 + k.y ^ 2 + k.z ^ 2 = 1 := by
    simp only [hk, Vec3.smul]
    have : (n⁻¹ * d.x) ^ 2 + (n⁻¹ * d.y) ^ 2 + (n⁻¹ * d.z) ^ 2 =
        (d.x ^ 2 + d.y ^ 2 + d.z ^ 2) * (n⁻¹) ^ 2 := by ring
    rw [this, ← hsq, ← mul_pow, mul_inv_cancel₀ hn0.ne', one_pow]
  have hs : Vec3.smul (n + 1e-8)⁻¹ d = .smul ((n + 1e-8)⁻¹ * n) k := by
    ext <;> simp only [hk, Vec3.smul] <;> field_simp
  have hc0 : 0 < (n + 1e-8)⁻¹ * n := mul_pos (inv_pos.2 ha0) hn0
  have hc1 : 5e-8 < (n + 1e-8)⁻¹ * n := by
    rw [lt_inv_mul_iff₀ ha0]
    norm_num at hd ⊢
    linarith
  have hnc : ¬ allclose0 (.smul ((n + 1e-8)⁻¹ * n) k) := by
    rintro ⟨h1, h2, h3⟩
    simp only [isclose0, Vec3.smul] at h1 h2 h3
    set c := (n + 1e-8)⁻¹ * n
    have e1 := sq_le_sq' (abs_le.1 h1).1 (abs_le.1 h1).2
    have e2 := sq_le_sq' (abs_le.1 h2).1 (abs_le.1 h2).2
    have e3 := sq_le_sq' (abs_le.1 h3).1 (abs_le.1 h3).2
    have e4 : c ^ 2 = (c * k.x) ^ 2 + (c * k.y) ^ 2 + (c * k.z) ^ 2 := by
      linear_combination -c ^ 2 * hk1
    have e5 : (5e-8 : ℝ) ^ 2 < c ^ 2 := by
      apply pow_lt_pow_left₀ hc1 (by norm_num) (by norm_num)
    norm_num at e1 e2 e3 e5
    linarith
  have hrot : quat_rot_axis (.smul (n + 1e-8)⁻¹ d) ((n + 1e-8) * dt) =
      quat_rot_axis k ((n + 1e-8) * dt) := by
    rw [hs, quat_rot_axis_eq, quat_rot_axis_eq,
      safe_normalize_smul hc0 (not_allclose_of_unit hk1) hnc]
  have hq' : (quatOf q).normSq = 1 := by
    rw [← hq]; simp only [quatOf, Quat.normSq]; ring
  have hu : (quat_mul (quat_rot_axis k ((n + 1e-8) * dt)) (quatOf q)).normSq = 1 := by
    have h1 : (quat_rot_axis k ((n + 1e-8) * dt)).normSq = 1 :=
      (C15_rot_axis (not_allclose_of_unit hk1) _).1
    rw [normSq_mul, hq', h1, one_mul]
  unfold _strapdown_integration
  simp only [← hdd, ← hn, hrot]
  set p := quat_mul (quat_rot_axis k ((n + 1e-8) * dt)) (quatOf q)
  have hn4 : norm4 p = 1 := by
    unfold norm4
    rw [show p.w ^ 2 + p.x ^ 2 + p.y ^ 2 + p.z ^ 2 = 1 by
      rw [← hu]; simp only [Quat.normSq]; ring]
    exact Real.sqrt_one
  rw [hn4]
  simp [quatList, quatOf]

/-! ### one link -/

theorem is_quat_name (b : BuiltIn) : joint_type_is_free_or_cor_or_spherical b.name =
    (isFreeOrCor b || isSpherical b) := by
  rcases b with _ | _ | _ | _ | _ | _ | ⟨_ | _ | _⟩ | ⟨_ | _ | _⟩ | _ <;> decide

/-- sum of the squares of the first four entries -/
def sq4 (c : List ℝ) : ℝ := c.getD 0 0 ^ 2 + c.getD 1 0 ^ 2 + c.getD 2 0 ^ 2 + c.getD 3 0 ^ 2

theorem q_integrate_length {b : BuiltIn} {q d : List ℝ} {dt : ℝ} (hq : q.length = b.q_width)
    (hd : d.length = b.qd_width) : (q_integrate dt (q, d, b.name)).length = b.q_width := by
  unfold q_integrate
  simp only [is_free_or_cor_name, is_spherical_name]
  cases b <;> simp only [BuiltIn.q_width, BuiltIn.qd_width] at hq hd <;>
    simp [isFreeOrCor, isSpherical, BuiltIn.q_width, _strapdown_integration, quatList, ladd, hq, hd]

theorem sq4_append {a b : List ℝ} (h : a.length = 4) : sq4 (a ++ b) = sq4 a := by
  match a, h with
  | [w, x, y, z], _ => rfl

theorem q_integrate_unit {b : BuiltIn} {q d : List ℝ} {dt : ℝ}
    (hb : (isFreeOrCor b || isSpherical b) = true) (hq : q.length = b.q_width) (hu : sq4 q = 1)
    (hdt : |dt| < 1e8) : sq4 (q_integrate dt (q, d, b.name)) = 1 := by
  unfold q_integrate
  simp only [is_free_or_cor_name, is_spherical_name]
  have ht : sq4 (q.take 4) = sq4 q := by
    match q with
    | [] => rfl
    | [_] => rfl
    | [_, _] => rfl
    | [_, _, _] => rfl
    | _ :: _ :: _ :: _ :: _ => rfl
  by_cases h1 : isFreeOrCor b = true
  · rw [if_pos h1, sq4_append rfl]
    exact (C28_strapdown_unit (by change sq4 (q.take 4) = 1; rw [ht]; exact hu) hdt).2
  · rw [if_neg h1]
    have h2 : isSpherical b = true := by simpa [h1] using hb
    rw [if_pos h2]
    exact (C28_strapdown_unit hu hdt).2

theorem q_integrate_zero {b : BuiltIn} {q d : List ℝ} {dt : ℝ}
    (hb : (isFreeOrCor b || isSpherical b) = true → sq4 q = 1) (hq : q.length = b.q_width)
    (hd : d.length = b.qd_width) (hdt : |dt| < 1e8) (hz : ∀ x ∈ d, x = 0) :
    q_integrate dt (q, d, b.name) = q := by
  have lz : ∀ (a e : List ℝ), a.length = e.length → (∀ x ∈ e, x = 0) → ladd a e = a := by
    intro a e hl he
    apply List.ext_getElem
    · simp [ladd, hl]
    · intro i h1 h2
      simp [ladd, he _ (List.getElem_mem _)]
  unfold q_integrate
  simp only [is_free_or_cor_name, is_spherical_name]
  by_cases h1 : isFreeOrCor b = true
  · rw [if_pos h1]
    have hlen : 4 ≤ q.length ∧ q.length - 4 = d.length - 3 := by
      cases b <;> simp [isFreeOrCor] at h1 <;> simp [hq, hd, BuiltIn.q_width, BuiltIn.qd_width]
    rw [C28_strapdown_zero (by simp; omega) (by
        have := hb (by simp [h1])
        have ht : sq4 (q.take 4) = sq4 q := by
          match q with
          | [] => rfl
          | [_] => rfl
          | [_, _] => rfl
          | [_, _, _] => rfl
          | _ :: _ :: _ :: _ :: _ => rfl
        change sq4 (q.take 4) = 1
        rw [ht]; exact this) hdt (fun x hx => hz x (List.mem_of_mem_take hx)),
      lz _ _ (by simp; omega) (by
        intro x hx
        obtain ⟨y, hy, rfl⟩ := List.mem_map.1 hx
        rw [hz y (List.mem_of_mem_drop hy), zero_mul]), List.take_append_drop]
  · rw [if_neg h1]
    by_cases h2 : isSpherical b = true
    · rw [if_pos h2]
      cases b <;> simp [isSpherical] at h2
      exact C28_strapdown_zero hq (hb (by simp [isSpherical])) hdt hz
    · rw [if_neg h2]
      apply lz
      · rw [List.length_map]
        cases b <;> simp [isFreeOrCor, isSpherical] at h1 h2 <;>
          simp [hq, hd, BuiltIn.q_width, BuiltIn.qd_width]
      · intro x hx
        obtain ⟨y, hy, rfl⟩ := List.mem_map.1 hx
        rw [hz y hy, mul_zero]


/-! ### transforms of the joints -/

theorem rot_axis_unit {v : Vec3 ℝ} (h : ¬ allclose0 v) (a : ℝ) :
    (quat_rot_axis v a).normSq = 1 := (C15_rot_axis h a).1

theorem not_allclose0_unit (a : Axis) : ¬ allclose0 (a.unit : Vec3 ℝ) := by
  cases a <;> simp [Axis.unit, allclose0, isclose0] <;> norm_num

theorem builtin_transform_unit {P : Type} (b : BuiltIn) {c : List ℝ}
    (hu : (isFreeOrCor b || isSpherical b) = true → sq4 c = 1) (p : P) :
    ((b.model (π := P)).transform c p).rot.normSq = 1 := by
  have hq : sq4 c = 1 → (quatOf c).normSq = 1 := by
    intro h
    rw [← h]
    simp only [quatOf, Quat.normSq, sq4]; ring
  have ht : quatOf (c.take 7) = quatOf c := by
    simp [quatOf, List.getD_eq_getElem?_getD, List.getElem?_take]
  have hx : ((⟨1, 0, 0⟩ : Vec3 ℝ)) = Axis.unit .x := rfl
  cases b with
  | free => exact hq (hu rfl)
  | free_2d =>
    simp only [BuiltIn.model, _free_2d_transform, hx]
    exact rot_axis_unit (not_allclose0_unit _) _
  | frozen => simp [BuiltIn.model, _frozen_transform, Transform.zero, unitQuat, Quat.normSq]
  | spherical => exact hq (hu rfl)
  | p3d => simp [BuiltIn.model, _p3d_transform, unitQuat, Quat.normSq]
  | cor =>
    simp only [BuiltIn.model, _cor_transform, transform_mul, normSq_mul, _p3d_transform,
      _free_transform, ht, hq (hu rfl)]
    simp [unitQuat, Quat.normSq]
  | r a => exact rot_axis_unit (not_allclose0_unit _) _
  | p a => simp [BuiltIn.model, _pxyz_transform, unitQuat, Quat.normSq]
  | saddle => exact (C17_euler_to_quat _).2

/-! ### the system during the simulation -/

theorem jointT_unit {E : JEnv ℝ π'} (hE : E.Std) {s : System ℝ π'} (h : s.Simulable E)
    {q : List ℝ} (hu : s.UnitQ E q) {i : Nat} (hi : i < s.link_types.length) :
    (jointT E s q i).rot.normSq = 1 := by
  obtain ⟨b, _, hb⟩ := h.builtin s.link_types[i] (List.getElem_mem _)
  have hj : s.Jointed E := ⟨fun t ht => by
    obtain ⟨b, _, rfl⟩ := h.builtin t ht
    exact ⟨_, hE.joints b⟩, h.default⟩
  obtain ⟨p, hp⟩ := jointParam_isSome h.wf hj (i := i) (by rw [← h.wf.types_len]; exact hi)
  have hd : s.link_types.getD i "" = b.name := by simp [List.getD, hi, hb]
  unfold jointT
  rw [hd, hE.joints b, hp]
  simp only [Option.bind_some, Option.map_some, Option.getD_some]
  apply builtin_transform_unit
  intro hq
  exact hu i hi (by rw [hb, is_quat_name]; exact hq)

theorem System.Simulable.jointed {E : JEnv ℝ π'} (hE : E.Std) {s : System ℝ π'}
    (h : s.Simulable E) : s.Jointed E :=
  ⟨fun t ht => by
    obtain ⟨b, _, rfl⟩ := h.builtin t ht
    exact ⟨_, hE.joints b⟩, h.default⟩

/-- only the cached transforms of the links and the time step differ -/
structure SameButCache (s s' : System ℝ π') : Prop where
  rest : s' = { s with links := s'.links, dt := s'.dt }
  len : s'.links.length = s.links.length
  row : ∀ i (h : i < s.links.length) (h' : i < s'.links.length),
    s'.links[i].transform1 = s.links[i].transform1 ∧ s'.links[i].pos_min = s.links[i].pos_min ∧
    s'.links[i].pos_max = s.links[i].pos_max ∧ s'.links[i].inertia = s.links[i].inertia

theorem Simulable.of_same {E : JEnv ℝ π'} {s s' : System ℝ π'} (h : s.Simulable E)
    (hs : SameButCache s s') : s'.Simulable E := by
  obtain ⟨hr, hl, hrow⟩ := hs
  obtain ⟨lp, links, jp, lt, ld, la, lss, lsz, dt, geoms, gr, im, mi, ln, mn, omc⟩ := s
  obtain ⟨lp', links', jp', lt', ld', la', lss', lsz', dt', geoms', gr', im', mi', ln', mn', omc'⟩ := s'
  simp only [System.mk.injEq, true_and] at hr hl hrow
  obtain ⟨rfl, rfl, rfl, rfl, rfl, rfl, rfl, rfl, rfl, rfl, rfl, rfl, rfl, rfl⟩ := hr
  have hw := h.wf
  have mem : ∀ l ∈ links', ∃ l0 ∈ links, l.transform1 = l0.transform1 ∧ l.pos_min = l0.pos_min ∧
      l.pos_max = l0.pos_max ∧ l.inertia = l0.inertia := by
    intro l hl'
    obtain ⟨i, hi, rfl⟩ := List.getElem_of_mem hl'
    exact ⟨links[i]'(by omega), List.getElem_mem _, hrow i (by omega) hi⟩
  exact {
    wf := {
      types_len := hw.types_len
      links_len := hl.trans hw.links_len
      omc_len := hw.omc_len
      names_len := hw.names_len
      names_nodup := hw.names_nodup
      pos_ok := by
        intro l hl'
        obtain ⟨l0, h0, _, e1, e2, _⟩ := mem l hl'
        rw [e1, e2]
        exact hw.pos_ok l0 h0
      geoms_ok := hw.geoms_ok
      known := hw.known
      damping_len := hw.damping_len
      armature_len := hw.armature_len
      stiffness_len := hw.stiffness_len
      zeropoint_len := hw.zeropoint_len
      unit_zero := hw.unit_zero
      topo := hw.topo
      jp_keys := hw.jp_keys
      jp_len := hw.jp_len
      inertia_ok := by
        intro i hi
        have hi' : i < links.length := hl ▸ hi
        exact ((hrow i hi' hi).2.2.2).trans (hw.inertia_ok i hi')
      geoms_sorted := hw.geoms_sorted }
    default := h.default
    widths := h.widths
    builtin := h.builtin
    nonempty := h.nonempty
    unit := by
      intro l hl'
      obtain ⟨l0, h0, e, _⟩ := mem l hl'
      rw [e]
      exact h.unit l0 h0
    geoms_unit := h.geoms_unit
    method := h.method }

/-- Forward kinematics prepares the system for the dynamics. -/
theorem fk_simulable {E : JEnv ℝ π'} (hE : E.Std) {s : System ℝ π'} (h : s.Simulable E)
    {st : State ℝ} (hq : st.q.length = (s.link_types.map (wOf E.qw)).sum) (hu : s.UnitQ E st.q) :
    ∃ s' x, s.forward_kinematics E st = .ok (s', { st with x := x }) ∧ SameButCache s s' ∧
      s'.Simulable E ∧ s'.Dynamic E ∧ s'.dt = s.dt := by
  have hj := h.jointed hE
  set s' : System ℝ π' := { s with links := s.links.mapIdx fun i row => { row with
            transform := transform_mul (jointT E s st.q i) row.transform1
            transform2 := jointT E s st.q i } } with hs'
  have same : SameButCache s s' := by
    refine ⟨rfl, by simp [hs'], ?_⟩
    intro i h1 h2
    simp [hs']
  refine ⟨s', (List.range s.link_parents.length).map (fkPose E s st.q), ?_, same,
    Simulable.of_same h same, ?_, rfl⟩
  · unfold forward_kinematics
    rw [fk_eq h.wf hj hq]
    rfl
  · have hsim := Simulable.of_same h same
    exact {
      wf := hsim.wf
      jointed := hsim.jointed hE
      widths := h.widths
      unit := by
        intro l hl
        obtain ⟨i, hi, rfl⟩ := List.getElem_of_mem hl
        have hi' : i < s.links.length := by simpa [hs'] using hi
        simp only [hs', List.getElem_mapIdx, transform_mul, normSq_mul]
        rw [jointT_unit hE h hu (by rw [h.wf.types_len, ← h.wf.links_len]; exact hi'),
          h.unit _ (List.getElem_mem _), one_mul]
      geoms_unit := h.geoms_unit }

/-! ### one step -/

/-- What one integration step does to the coordinates of one joint, given its new velocity. -/
def LinkStep (t : String) (dt : ℝ) (q d' q' : List ℝ) : Prop :=
  if joint_type_is_free_or_cor_or_spherical t then
    q'.take 4 = _strapdown_integration (q.take 4) (d'.take 3) dt ∧
    ∀ k, 4 + k < q.length → q'.getD (4 + k) 0 = q.getD (4 + k) 0 + dt * d'.getD (3 + k) 0
  else ∀ k, k < q.length → q'.getD k 0 = q.getD k 0 + dt * d'.getD k 0

theorem q_integrate_step {b : BuiltIn} {q d : List ℝ} {dt : ℝ} (hq : q.length = b.q_width)
    (hd : d.length = b.qd_width) : LinkStep b.name dt q d (q_integrate dt (q, d, b.name)) := by
  unfold LinkStep q_integrate
  simp only [is_free_or_cor_name, is_spherical_name, is_quat_name]
  by_cases h1 : isFreeOrCor b = true
  · simp only [h1, Bool.true_or, if_true]
    have hlen : q.length - 4 = d.length - 3 ∧ 4 ≤ q.length := by
      cases b <;> simp [isFreeOrCor] at h1 <;> simp [hq, hd, BuiltIn.q_width, BuiltIn.qd_width]
    refine ⟨List.take_left' rfl, ?_⟩
    intro k hk
    have e : ∀ (a b : List ℝ) k, a.length = 4 → (a ++ b).getD (4 + k) 0 = b.getD k 0 := by
      intro a b k ha
      simp only [List.getD_eq_getElem?_getD]
      rw [List.getElem?_append_right (by omega), ha, Nat.add_sub_cancel_left]
    rw [e _ _ _ rfl]
    unfold ladd
    rw [zipWith_getD _ (by simp; omega) (by simp; omega), map_getD_zero _ (by simp)]
    simp only [List.getD_eq_getElem?_getD, List.getElem?_drop]
    ring
  · simp only [h1, Bool.false_or]
    by_cases h2 : isSpherical b = true
    · simp only [h2, if_true]
      cases b <;> simp [isSpherical] at h2
      simp only [BuiltIn.q_width, BuiltIn.qd_width] at hq hd
      refine ⟨?_, fun k hk => by omega⟩
      rw [List.take_of_length_le (l := q) (by omega), List.take_of_length_le (l := d) (by omega)]
      exact List.take_of_length_le (by simp [_strapdown_integration, quatList])
    · simp only [h2, Bool.false_eq_true, if_false]
      have hlen : q.length = d.length := by
        cases b <;> simp [isFreeOrCor, isSpherical] at h1 h2 <;>
          simp [hq, hd, BuiltIn.q_width, BuiltIn.qd_width]
      intro k hk
      unfold ladd
      rw [zipWith_getD _ hk (by simp; omega), map_getD_zero _ (by simp)]

/-- C28: one integration step. The velocity changes first, `qd' = qd + dt * qdd`; the new velocity
then moves the coordinates. Orientations stay normalised, and a joint at rest keeps its
coordinates. -/
theorem C28_semi_implicit {E : JEnv ℝ π'} (hE : E.Std) {s : System ℝ π'} (h : s.Dynamic E)
    (hb : s.JointsIn fun _ => True) (hn : 0 < s.link_parents.length) {st : State ℝ} {tau : List ℝ}
    (hq : st.q.length = (s.link_types.map (wOf E.qw)).sum)
    (hqd : st.qd.length = (s.link_types.map (wOf E.dw)).sum) (htau : tau.length = st.qd.length)
    (hu : s.UnitQ E st.q) (hdt : |s.dt| < 1e8) :
    ∃ qdd st', forward_dynamics E s st.q st.qd tau = .ok qdd ∧ qdd.length = st.qd.length ∧
      _semi_implicit_euler_integration E s st tau = .ok st' ∧
      st'.q.length = st.q.length ∧ st'.qd.length = st.qd.length ∧ s.UnitQ E st'.q ∧
      (∀ r, r < st.qd.length → st'.qd.getD r 0 = st.qd.getD r 0 + s.dt * qdd.getD r 0) ∧
      ∀ i (hi : i < s.link_types.length),
        LinkStep s.link_types[i] s.dt (ownSlice E.qw s.link_types st.q i)
          (ownSlice E.dw s.link_types st'.qd i) (ownSlice E.qw s.link_types st'.q i) ∧
        ((∀ x ∈ ownSlice E.dw s.link_types st'.qd i, x = 0) →
          ownSlice E.qw s.link_types st'.q i = ownSlice E.qw s.link_types st.q i) := by
  obtain ⟨spring, hs, hsl⟩ := spring_ok hE h.wf hb hn hq
  obtain ⟨M, _, C, hM, hsz, _, _, hC, hCl, _⟩ := C26_torques h hn hqd (qdd := st.qd) rfl
  have hfd : ∃ qdd, forward_dynamics E s st.q st.qd tau = .ok qdd ∧ qdd.length = st.qd.length := by
    refine ⟨_, ?_, (mulVecL_length (mass_mat_inv s M)
      (ladd (lsub tau C) (ladd (lmul (s.link_damping.map fun x => -x) st.qd)
        (lmul s.link_spring_stiffness spring)))).trans hsz⟩
    unfold forward_dynamics
    rw [hC, hM, hs]
    rfl
  obtain ⟨qdd, hqdd, hqddl⟩ := hfd
  set qd' := ladd st.qd (qdd.map fun x => s.dt * x) with hqd'
  have hl' : qd'.length = st.qd.length := by rw [hqd']; simp [ladd, hqddl]
  have hl'' : qd'.length = (s.link_types.map (wOf E.dw)).sum := hl'.trans hqd
  set pieces := (List.range s.link_types.length).map fun i =>
    q_integrate s.dt (ownSlice E.qw s.link_types st.q i, ownSlice E.dw s.link_types qd' i,
      s.link_types.getD i "") with hpieces
  have hscan : s.scan E.toEnv (fun _ _ a => pure (q_integrate s.dt a))
      ((argQ st.q).and <| (argD qd').and (argL s.link_types)) = .ok pieces := by
    rw [scan_pure h.wf.known h.wf.types_len _ (arg := (argQ st.q).and <|
      (argD qd').and (argL s.link_types)) (by
        intro x hx
        simp only [ScanArg.and, argQ, argD, argL, List.mem_append, List.mem_singleton] at hx
        rcases hx with rfl | rfl | rfl
        · exact hq
        · exact hl''
        · exact h.wf.types_len)
      (rows_and (rows_argQ rfl _) (rows_and (rows_argD rfl _) (rows_argL _ _)))
      (by simp [h.wf.types_len])]
    congr 1
    apply List.ext_getElem
    · simp [hpieces]
    · intro i h1 h2
      have hi : i < s.link_types.length := by simpa [hpieces] using h2
      simp only [List.getElem_map, List.getElem_zip, chunks_row, hpieces, List.getElem_range]
      simp [List.getD_eq_getElem?_getD, hi]
  have blt : ∀ i (hi : i < s.link_types.length), ∃ b : BuiltIn, s.link_types[i] = b.name ∧
      s.link_types.getD i "" = b.name ∧
      (ownSlice E.qw s.link_types st.q i).length = b.q_width ∧
      (ownSlice E.dw s.link_types qd' i).length = b.qd_width := by
    intro i hi
    obtain ⟨b, _, hbn⟩ := hb s.link_types[i] (List.getElem_mem _)
    have hd : s.link_types.getD i "" = b.name := by simp [List.getD, hi, hbn]
    have l1 := ownSlice_length hq hi
    have l2 := ownSlice_length hl'' hi
    rw [hbn] at l1 l2
    rw [(wOf_builtin hE b).1] at l1
    rw [(wOf_builtin hE b).2] at l2
    exact ⟨b, hbn, hd, l1, l2⟩
  have hpl : ∀ i (h1 : i < pieces.length) (h2 : i < (s.link_types.map (wOf E.qw)).length),
      pieces[i].length = (s.link_types.map (wOf E.qw))[i] := by
    intro i h1 h2
    have hi : i < s.link_types.length := by simpa using h2
    obtain ⟨b, hb1, hb2, l1, l2⟩ := blt i hi
    simp only [hpieces, List.getElem_map, List.getElem_range, hb2]
    rw [q_integrate_length l1 l2, hb1, (wOf_builtin hE b).1]
  have hfl := flatten_lengths (by simp [hpieces]) hpl
  have hown : ∀ i (hi : i < s.link_types.length), ownSlice E.qw s.link_types pieces.flatten i =
      q_integrate s.dt (ownSlice E.qw s.link_types st.q i, ownSlice E.dw s.link_types qd' i,
        s.link_types.getD i "") := by
    intro i hi
    have e := ownSlice_eq E.qw s.link_types pieces.flatten i hi
    rw [← hfl.2, chunks_of_flatten] at e
    simp only [hpieces, List.getElem?_map, List.getElem?_range hi, Option.map_some,
      Option.some.injEq] at e
    exact e.symm
  have unit4 : ∀ i (hi : i < s.link_types.length),
      joint_type_is_free_or_cor_or_spherical s.link_types[i] = true →
      sq4 (ownSlice E.qw s.link_types st.q i) = 1 := fun i hi hj => hu i hi hj
  refine ⟨qdd, { st with q := pieces.flatten, qd := qd' }, hqdd, hqddl, ?_, ?_, hl', ?_, ?_, ?_⟩
  · unfold _semi_implicit_euler_integration
    rw [hqdd]
    simp only [ok_bind]
    rw [← hqd', hscan]
    simp only [ok_bind]
    rw [jnpConcatenate_ok (by simp [hpieces, h.wf.types_len]; exact hn)]
    rfl
  · exact hfl.1.trans hq.symm
  · intro i hi hj
    have hj' := unit4 i hi hj
    simp only
    rw [hown i hi]
    obtain ⟨b, hb1, hb2, l1, l2⟩ := blt i hi
    rw [hb2]
    rw [hb1, is_quat_name] at hj
    exact q_integrate_unit hj l1 hj' hdt
  · intro r hr
    simp only
    rw [hqd']
    unfold ladd
    rw [zipWith_getD _ hr (by simp; omega), map_getD_zero _ (by simp)]
  · intro i hi
    simp only
    rw [hown i hi]
    obtain ⟨b, hb1, hb2, l1, l2⟩ := blt i hi
    rw [hb2, hb1]
    refine ⟨q_integrate_step l1 l2, ?_⟩
    intro hz
    apply q_integrate_zero _ l1 l2 hdt hz
    intro hj
    exact unit4 i hi (by rw [hb1, is_quat_name]; exact hj)

theorem step_loop_ok {E : JEnv ℝ π'} (hE : E.Std) {tau : List ℝ} (n : Nat) :
    ∀ {s : System ℝ π'}, s.Simulable E → |s.dt| < 1e8 → ∀ {st : State ℝ},
    st.q.length = (s.link_types.map (wOf E.qw)).sum →
    st.qd.length = (s.link_types.map (wOf E.dw)).sum → tau.length = st.qd.length →
    s.UnitQ E st.q → ∃ st', step_loop E tau n s st = .ok st' ∧ st'.q.length = st.q.length ∧
      st'.qd.length = st.qd.length ∧ s.UnitQ E st'.q := by
  induction n with
  | zero => intro s _ _ st _ _ _ hu; exact ⟨st, rfl, rfl, rfl, hu⟩
  | succ n ih =>
    intro s h hdt st hq hqd htau hu
    obtain ⟨s', x, hfk, same, hsim, hdyn, hdt'⟩ := fk_simulable hE h hq hu
    have e1 : s'.link_types = s.link_types := by rw [same.rest]
    have hu' : ∀ q, s'.UnitQ E q ↔ s.UnitQ E q := by
      intro q
      rw [same.rest]
      rfl
    obtain ⟨qdd, st1, _, _, hst, l1, l2, hu1, _⟩ := C28_semi_implicit hE hdyn hsim.builtin
      hsim.nonempty (st := { st with x := x }) (tau := tau) (by rw [e1]; exact hq)
      (by rw [e1]; exact hqd) htau ((hu' _).2 hu) (by rw [hdt']; exact hdt)
    obtain ⟨st2, h2, l3, l4, hu2⟩ := ih hsim (by rw [hdt']; exact hdt) (st := st1)
      (by rw [e1, l1]; exact hq) (by rw [e1, l2]; exact hqd) (htau.trans l2.symm) hu1
    refine ⟨st2, ?_, l3.trans l1, l4.trans l2, (hu' _).1 hu2⟩
    unfold step_loop
    rw [hfk]
    simp only [ok_bind]
    rw [hst]
    exact h2

/-- C28: `step`, with any number of substeps, runs through and keeps orientations normalised. -/
theorem C28_step {E : JEnv ℝ π'} (hE : E.Std) {s : System ℝ π'} (h : s.Simulable E)
    (hdt : |s.dt| < 1e8) {st : State ℝ} {taus : Option (List ℝ)} {n : Nat} (hn : 0 < n)
    (hq : st.q.length = (s.link_types.map (wOf E.qw)).sum)
    (hqd : st.qd.length = (s.link_types.map (wOf E.dw)).sum)
    (htau : ∀ t ∈ taus, t.length = st.qd.length) (hu : s.UnitQ E st.q) :
    ∃ st', step E s st taus n = .ok st' ∧ st'.q.length = st.q.length ∧
      st'.qd.length = st.qd.length ∧ s.UnitQ E st'.q := by
  have hl : (taus.getD (st.qd.map fun _ => 0)).length = st.qd.length := by
    cases taus with
    | none => simp
    | some t => exact htau t rfl
  have same : SameButCache s { s with dt := s.dt / n } := by
    refine ⟨rfl, rfl, ?_⟩
    intro i h1 h2
    simp
  obtain ⟨st', h1, h2, h3, h4⟩ := step_loop_ok hE (tau := taus.getD (st.qd.map fun _ => 0)) n
    (Simulable.of_same h same) (by
      simp only [abs_div, Nat.abs_cast]
      apply lt_of_le_of_lt _ hdt
      apply div_le_self (abs_nonneg _)
      exact_mod_cast hn) hq hqd hl hu
  refine ⟨st', ?_, h2, h3, h4⟩
  unfold step
  simp only [q_size, qd_size, sumWidths_known (fun t ht => (h.wf.known t ht).1),
    sumWidths_known (fun t ht => (h.wf.known t ht).2), ok_bind]
  rw [pyAssert_true (p := _) hq.symm]
  simp only [ok_bind]
  rw [pyAssert_true (p := _) ⟨hqd.symm, hl.symm⟩]
  simp only [ok_bind]
  rw [pyAssert_true (p := _) h.method]
  simp only [ok_bind]
  rw [if_neg (by omega)]
  exact h1

/-- the states after each of a series of steps with the given torques -/
noncomputable def simulate (E : JEnv ℝ π') (s : System ℝ π') (n : Nat) :
    State ℝ → List (Option (List ℝ)) → Py (State ℝ)
  | st, [] => pure st
  | st, t :: ts => do
    let st' ← step E s st t n
    simulate E s n st' ts

/-- C28: any number of steps, with any torques, runs through and keeps orientations normalised. -/
theorem C28_simulation {E : JEnv ℝ π'} (hE : E.Std) {s : System ℝ π'} (h : s.Simulable E)
    (hdt : |s.dt| < 1e8) {n : Nat} (hn : 0 < n) (ts : List (Option (List ℝ))) : ∀ {st : State ℝ},
    st.q.length = (s.link_types.map (wOf E.qw)).sum →
    st.qd.length = (s.link_types.map (wOf E.dw)).sum →
    (∀ o ∈ ts, ∀ t ∈ o, t.length = st.qd.length) → s.UnitQ E st.q →
    ∃ st', simulate E s n st ts = .ok st' ∧ st'.q.length = st.q.length ∧
      st'.qd.length = st.qd.length ∧ s.UnitQ E st'.q := by
  induction ts with
  | nil => intro st _ _ _ hu; exact ⟨st, rfl, rfl, rfl, hu⟩
  | cons t ts ih =>
    intro st hq hqd ht hu
    obtain ⟨st1, h1, l1, l2, hu1⟩ := C28_step hE h hdt hn hq hqd (taus := t) (ht t (by simp)) hu
    obtain ⟨st2, h2, l3, l4, hu2⟩ := ih (st := st1) (l1.trans hq) (l2.trans hqd)
      (fun o ho t' ht' => (ht o (by simp [ho]) t' ht').trans l2.symm) hu1
    refine ⟨st2, ?_, l3.trans l1, l4.trans l2, hu2⟩
    unfold simulate
    rw [h1]
    exact h2


/-! ### the example system -/

theorem kinSys_builtin : kinSys.JointsIn fun _ => True := by
  intro t ht
  simp [kinSys] at ht
  rcases ht with rfl | rfl | rfl | rfl
  · exact ⟨.free, trivial, rfl⟩
  · exact ⟨.r .x, trivial, rfl⟩
  · exact ⟨.p .y, trivial, rfl⟩
  · exact ⟨.spherical, trivial, rfl⟩

theorem kinSys_simulable : kinSys.Simulable stdEnv where
  wf := kinSys_wf
  default := kinSys_jointed.default
  widths := stdEnv_widths
  builtin := kinSys_builtin
  nonempty := by simp [kinSys]
  unit := by
    intro l hl
    have : ∃ i, l = kinRow i := by
      simp [kinSys] at hl
      rcases hl with rfl | rfl | rfl | rfl <;> exact ⟨_, rfl⟩
    obtain ⟨i, rfl⟩ := this
    simp [kinRow, Quat.normSq]
  geoms_unit := kinSys_dynamic.geoms_unit
  method := by
    change "semi_implicit_euler".toLower = _
    decide +kernel

theorem kinSys_unitQ : kinSys.UnitQ stdEnv [0, 1, 0, 0, 5, 6, 7, 1 / 2, 3, 1, 0, 0, 0] := by
  intro i hi hj
  have hi4 : i < 4 := hi
  have w := kinSys_widths.1
  have e := ownSlice_eq stdEnv.qw kinSys.link_types
    ([0, 1, 0, 0, 5, 6, 7, 1 / 2, 3, 1, 0, 0, 0] : List ℝ) i hi
  rw [w] at e
  simp only [chunks, List.take_succ_cons, List.take_zero, List.drop_succ_cons, List.drop_zero] at e
  match i, hi4 with
  | 0, _ =>
    have e := Option.some.inj e
    simp only [← e]
    norm_num
  | 1, _ => simp [kinSys] at hj; exact absurd hj (by decide)
  | 2, _ => simp [kinSys] at hj; exact absurd hj (by decide)
  | 3, _ =>
    have e := Option.some.inj e
    simp only [← e]
    norm_num

/-- a thousand steps of four substeps each -/
example (qd tau : List ℝ) (h1 : qd.length = 11) (h2 : tau.length = 11) :
    ∃ st', simulate stdEnv kinSys 4 ⟨[0, 1, 0, 0, 5, 6, 7, 1 / 2, 3, 1, 0, 0, 0], qd, []⟩
        (List.replicate 1000 (some tau)) = .ok st' ∧ st'.q.length = 13 ∧
      st'.qd.length = qd.length ∧ kinSys.UnitQ stdEnv st'.q :=
  C28_simulation stdEnv_std kinSys_simulable (by simp only [kinSys]; norm_num) (by omega) _
    (by rw [kinSys_widths.1]; rfl) (by rw [kinSys_widths.2]; exact h1)
    (by
      intro o ho t ht
      rw [List.mem_replicate] at ho
      rw [ho.2] at ht
      cases ht
      simp [h1, h2]) kinSys_unitQ

example (q qd tau : List ℝ) (h0 : q.length = 13) (h1 : qd.length = 11) (h2 : tau.length = 11) :
    ∃ qdd tauID spring, forward_dynamics stdEnv kinSys q qd tau = .ok qdd ∧
      qdd.length = qd.length ∧
      inverse_dynamics stdEnv kinSys qd qdd = .ok tauID ∧ tauID.length = qd.length ∧
      _spring_force stdEnv kinSys q = .ok spring ∧ spring.length = qd.length ∧
      ∀ r, r < qd.length → tauID.getD r 0 + (kinSys.link_armature.getD r 0 +
          kinSys.link_damping.getD r 0 * kinSys.dt + 1e-6) * qdd.getD r 0 =
        tau.getD r 0 - kinSys.link_damping.getD r 0 * qd.getD r 0 +
          kinSys.link_spring_stiffness.getD r 0 * spring.getD r 0 :=
  C27_forward_dynamics stdEnv_std kinSys_dynamic kinSys_builtin (by simp [kinSys]) Real.pi_pos
    kinSys_physical (by intro x hx; simp [kinSys] at hx; simp [hx])
    (by intro x hx; simp [kinSys] at hx; simp [hx]) (by simp only [kinSys]; norm_num) rfl
    (by rw [kinSys_widths.1]; exact h0) (by rw [kinSys_widths.2]; exact h1) (h2.trans h1.symm)

example : _strapdown_integration [0, 1, 0, 0] [0, 0, 0] 3 = [0, 1, 0, 0] :=
  C28_strapdown_zero rfl (by norm_num) (by norm_num) (by simp)

end RingLib
