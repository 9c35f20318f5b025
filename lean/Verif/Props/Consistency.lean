import Verif.Props.Moved
import Mathlib.Topology.Instances.Matrix
import Mathlib.Analysis.Calculus.Deriv.Slope

/-!
# C113: the step of the simulation follows the equations of motion

How the state after one step depends on the step size: its rate at zero is what the equations of motion say, and so is
the rate of its energy (`Spec.Energy`).
-/

namespace RingLib
open maths jcalc algebra Finset _root_.RingLib.System

/-- `a + τ g(τ)` has the slope `g(0)` at zero when `g` is continuous there. -/
theorem deriv_mul_cont {f g : ℝ → ℝ} {a : ℝ} (hg : ContinuousAt g 0)
    (hf : ∀ᶠ τ in nhds (0 : ℝ), f τ = a + τ * g τ) : HasDerivAt f (g 0) 0 := by
  have e : HasDerivAt (fun τ => a + τ * g τ) (g 0) 0 := by
    rw [hasDerivAt_iff_tendsto_slope_zero]
    have h1 : Filter.Tendsto g (nhdsWithin 0 {0}ᶜ) (nhds (g 0)) := hg.tendsto.mono_left nhdsWithin_le_nhds
    refine h1.congr' ?_
    filter_upwards [self_mem_nhdsWithin] with t ht
    have ht' : t ≠ 0 := ht
    simp only [zero_add, zero_mul, add_zero, smul_eq_mul]
    field_simp
    ring
  exact e.congr_of_eventuallyEq hf

/-- the inverse of a matrix depends continuously on a parameter where the matrix can be inverted -/
theorem matrix_inv_continuousAt {n : Nat} {B : ℝ → Matrix (Fin n) (Fin n) ℝ} (hB : Continuous B)
    (hd : (B 0).det ≠ 0) (r c : Fin n) : ContinuousAt (fun τ => (B τ)⁻¹ r c) 0 := by
  simp only [Matrix.inv_def, Matrix.smul_apply, Ring.inverse_eq_inv', smul_eq_mul]
  exact (hB.matrix_det.continuousAt.inv₀ hd).mul ((hB.matrix_adjugate.matrix_elem r c).continuousAt)

variable {π' : Type} {E : JEnv ℝ π'} {s : System ℝ π'}

/-- the regularised mass matrix can be inverted -/
theorem regular_det (h : s.Dynamic E) (hpi : 0 < E.pi) (hp : ∀ g ∈ s.geoms, g.Physical)
    (ha : ∀ x ∈ s.link_armature, 0 ≤ x) {M : SqMat ℝ} (hM : compute_mass_matrix E s = .ok M) :
    (M.toMatrix + (1e-6 : ℝ) • (1 : Matrix (Fin M.size) (Fin M.size) ℝ)).det ≠ 0 := by
  intro h0
  obtain ⟨v, hv, hv0⟩ := Matrix.exists_mulVec_eq_zero_iff.2 h0
  obtain ⟨M2, hM2, hsz, _⟩ := mass_matrix_entries h
  rw [hM] at hM2
  cases hM2
  obtain ⟨M3, hM3, hnn⟩ := C27_nonneg h hpi hp ha (List.ofFn v) (by simpa using hsz)
  rw [hM] at hM3
  cases hM3
  rw [List.length_ofFn, Finset.sum_range] at hnn
  have g1 : ∀ r : Fin M.size, (List.ofFn v).getD r 0 = v r := fun r => by simp [List.getD_eq_getElem?_getD]
  have e : ∀ r : Fin M.size, ∑ c ∈ range M.size, (List.ofFn v).getD r 0 * M.entry r c * (List.ofFn v).getD c 0 =
      - (1e-6 * v r ^ 2) := by
    intro r
    have := congrFun hv0 r
    simp only [Matrix.mulVec, dotProduct, Matrix.add_apply, Matrix.smul_apply, Matrix.one_apply, SqMat.toMatrix,
      smul_eq_mul, Pi.zero_apply, add_mul, Finset.sum_add_distrib, mul_ite, mul_one, mul_zero, ite_mul, zero_mul,
      Finset.sum_ite_eq, Finset.mem_univ, if_true] at this
    rw [Finset.sum_range]
    simp only [g1, mul_assoc]
    rw [← Finset.mul_sum]
    linear_combination v r * this
  rw [Finset.sum_congr rfl fun r _ => e r, Finset.sum_neg_distrib] at hnn
  obtain ⟨k, hk⟩ : ∃ k, v k ≠ 0 := by
    by_contra hall
    push Not at hall
    exact hv (funext hall)
  have : 0 < ∑ r : Fin M.size, (1e-6 : ℝ) * v r ^ 2 := by
    apply Finset.sum_pos'
    · intro r _
      exact mul_nonneg (by norm_num) (sq_nonneg _)
    · exact ⟨k, Finset.mem_univ _, mul_pos (by norm_num) (by positivity)⟩
  linarith

theorem mass_mat_inv_congr (s : System ℝ π') {M M₂ : SqMat ℝ} (hsz : M₂.size = M.size)
    (hen : ∀ r c, r < M.size → c < M.size → M₂.entry r c = M.entry r c) (v : List ℝ) :
    mulVecL (mass_mat_inv s M₂) v = mulVecL (mass_mat_inv s M) v := by
  obtain ⟨n, f⟩ := M
  obtain ⟨n₂, f₂⟩ := M₂
  simp only at hsz hen
  subst hsz
  have : (SqMat.mk n₂ f₂).toMatrix = (SqMat.mk n₂ f).toMatrix := by
    ext i j
    exact hen i j i.2 j.2
  unfold mass_mat_inv
  rw [this]

/-- `Dynamic` does not depend on `dt`. -/
theorem Dynamic.set_dt (h : s.Dynamic E) (τ : ℝ) : ({ s with dt := τ } : System ℝ π').Dynamic E where
  wf := { types_len := h.wf.types_len, links_len := h.wf.links_len, omc_len := h.wf.omc_len
          names_len := h.wf.names_len, names_nodup := h.wf.names_nodup, pos_ok := h.wf.pos_ok
          geoms_ok := h.wf.geoms_ok, known := h.wf.known, damping_len := h.wf.damping_len
          armature_len := h.wf.armature_len, stiffness_len := h.wf.stiffness_len
          zeropoint_len := h.wf.zeropoint_len, unit_zero := h.wf.unit_zero, topo := h.wf.topo
          jp_keys := h.wf.jp_keys, jp_len := h.wf.jp_len, inertia_ok := h.wf.inertia_ok
          geoms_sorted := h.wf.geoms_sorted }
  jointed := by
    obtain ⟨a, b⟩ := h.jointed
    exact ⟨a, b⟩
  widths := h.widths
  unit := h.unit
  geoms_unit := h.geoms_unit

/-- The accelerations for the step size `τ`: continuous in `τ` at zero. -/
theorem forward_continuous (hE : E.Std) (h : s.Dynamic E) (hb : s.JointsIn fun _ => True)
    (hn : 0 < s.link_parents.length) (hpi : 0 < E.pi) (hp : ∀ g ∈ s.geoms, g.Physical)
    (ha : ∀ x ∈ s.link_armature, 0 ≤ x) {q u tau : List ℝ}
    (hq : q.length = (s.link_types.map (wOf E.qw)).sum) (hu : u.length = (s.link_types.map (wOf E.dw)).sum) :
    ∃ W : ℝ → List ℝ, (∀ τ, forward_dynamics E { s with dt := τ } q u tau = .ok (W τ) ∧ (W τ).length = u.length) ∧
      ∀ r, ContinuousAt (fun τ => (W τ).getD r 0) 0 := by
  obtain ⟨spring, hs, _⟩ := spring_ok hE h.wf hb hn hq
  obtain ⟨M, hM, hsz, hen⟩ := mass_matrix_entries h
  have hz : (u.map fun _ => (0 : ℝ)).length = (s.link_types.map (wOf E.dw)).sum := by simpa using hu
  set rhs := ladd (lsub tau (torques E s u (u.map fun _ => 0))) (ladd (lmul (s.link_damping.map fun x => -x) u)
    (lmul s.link_spring_stiffness spring)) with hrhs
  refine ⟨fun τ => mulVecL (mass_mat_inv { s with dt := τ } M) rhs, ?_, ?_⟩
  · intro τ
    refine ⟨?_, by rw [mulVecL_length, hsz, hu]⟩
    have hτ := Dynamic.set_dt h τ
    obtain ⟨Mτ, hMτ, hszτ, henτ⟩ := mass_matrix_entries hτ
    have hs' : _spring_force E { s with dt := τ } q = .ok spring := by rw [← hs]; rfl
    unfold forward_dynamics
    rw [inverse_dynamics_ok hτ.wf hτ.jointed hu hz hn, hMτ, hs']
    simp only [ok_bind]
    have e : Mτ.size = M.size := by rw [hszτ, hsz]
    rw [mass_mat_inv_congr _ e (fun r c hr hc => by
      rw [henτ r c (by omega) (by omega), hen r c hr hc]
      rfl)]
    rfl
  · intro r
    by_cases hr : r < M.size
    · have e : (fun τ => (mulVecL (mass_mat_inv { s with dt := τ } M) rhs).getD r 0) =
          fun τ => ∑ c : Fin M.size, mass_mat_inv { s with dt := τ } M ⟨r, hr⟩ c * rhs.getD c 0 := by
        funext τ
        exact mulVecL_getD _ _ ⟨r, hr⟩
      rw [e]
      apply tendsto_finsetSum
      intro c _
      apply Filter.Tendsto.mul_const
      change ContinuousAt (fun τ => mass_mat_inv { s with dt := τ } M ⟨r, hr⟩ c) 0
      unfold mass_mat_inv
      by_cases hit : s.mass_mat_iters = 0
      · simp only [hit, if_true]
        apply matrix_inv_continuousAt (B := fun τ => M.toMatrix +
          Matrix.diagonal (fun i : Fin M.size => s.link_damping.getD i 0 * τ) + (1e-6 : ℝ) • 1)
        · refine Continuous.add (Continuous.add continuous_const (Continuous.matrix_diagonal ?_)) continuous_const
          exact continuous_pi fun i => continuous_const.mul continuous_id
        · have := regular_det h hpi hp ha hM
          simpa using this
      · simp only [hit, if_false]
        exact continuousAt_const
    · have e : (fun τ => (mulVecL (mass_mat_inv { s with dt := τ } M) rhs).getD r 0) = fun _ => 0 := by
        funext τ
        rw [List.getD_eq_getElem?_getD, List.getElem?_eq_none (by rw [mulVecL_length]; omega)]
        rfl
      rw [e]
      exact continuousAt_const

theorem ownSlice_continuous {w : String → Option Nat} {types : List String} {v : ℝ → List ℝ} (i : Nat)
    (hv : ∀ r, ContinuousAt (fun τ => (v τ).getD r 0) 0) (k : Nat) :
    ContinuousAt (fun τ => (ownSlice w types (v τ) i).getD k 0) 0 := by
  unfold ownSlice
  by_cases hk : k < wOf w (types.getD i "")
  · have e : (fun τ => (((v τ).drop ((types.take i).map (wOf w)).sum).take (wOf w (types.getD i ""))).getD k 0) =
        fun τ => (v τ).getD (((types.take i).map (wOf w)).sum + k) 0 := by
      funext τ
      rw [List.getD_eq_getElem?_getD, List.getElem?_take_of_lt hk, List.getElem?_drop, ← List.getD_eq_getElem?_getD]
    rw [e]
    exact hv _
  · have e : (fun τ => (((v τ).drop ((types.take i).map (wOf w)).sum).take (wOf w (types.getD i ""))).getD k 0) =
        fun _ => 0 := by
      funext τ
      rw [List.getD_eq_getElem?_getD, List.getElem?_eq_none (by rw [List.length_take]; omega)]
      rfl
    rw [e]
    exact continuousAt_const

/-- C113: the step of the simulation is consistent with the equations of motion. As the step size goes to zero, the
velocities change at the rate of the accelerations that forward dynamics returns (without the implicit damping), and the
coordinates of joints without a quaternion at the rate of the velocities. -/
theorem C113_consistent (hE : E.Std) (h : s.Simulable E) (hpi : 0 < E.pi) (hp : ∀ g ∈ s.geoms, g.Physical)
    (ha : ∀ x ∈ s.link_armature, 0 ≤ x) {st : State ℝ} {tau w : List ℝ}
    (hq : st.q.length = (s.link_types.map (wOf E.qw)).sum)
    (hqd : st.qd.length = (s.link_types.map (wOf E.dw)).sum) (htau : tau.length = st.qd.length)
    (hu : s.UnitQ E st.q) {st' : ℝ → State ℝ}
    (hst : ∀ τ, |τ| < 1 → step E { s with dt := τ } st (some tau) 1 = .ok (st' τ))
    {xs : List (Transform ℝ)} {s₀ : System ℝ π'}
    (hf : ({ s with dt := 0 } : System ℝ π').forward_kinematics_transforms E st.q = .ok (xs, s₀))
    (hw : forward_dynamics E s₀ st.q st.qd tau = .ok w) :
    (st' 0).qd = st.qd ∧ (∀ r, HasDerivAt (fun τ => (st' τ).qd.getD r 0) (w.getD r 0) 0) ∧
    ∀ (i : Nat) (b : BuiltIn), s.link_types[i]? = some b.name →
      joint_type_is_free_or_cor_or_spherical b.name = false →
      ownSlice E.qw s.link_types (st' 0).q i = ownSlice E.qw s.link_types st.q i ∧
      b.Follows (fun τ => ownSlice E.qw s.link_types (st' τ).q i) (ownSlice E.dw s.link_types st.qd i) 0 := by
  have hset : ∀ τ, ({ s with dt := τ } : System ℝ π').Simulable E := fun τ =>
    Simulable.of_same h ⟨rfl, rfl, fun i h1 h2 => ⟨rfl, rfl, rfl, rfl⟩⟩
  have hj := h.jointed hE
  -- the system after forward kinematics
  set f := filled E s st.q with hfdef
  obtain rfl : s₀ = { f with dt := 0 } := by
    rw [fk_eq (hset 0).wf ((hset 0).jointed hE) hq] at hf
    exact ((Prod.mk.injEq _ _ _ _).mp ((Except.ok.injEq _ _).mp hf)).2.symm
  obtain ⟨f', x', e1, _, hsim, hdyn, _⟩ := fk_simulable hE h hq hu
  obtain rfl : f' = f := by
    rw [fk_filled hE h hq] at e1
    exact ((Prod.mk.injEq _ _ _ _).mp ((Except.ok.injEq _ _).mp e1)).1.symm
  obtain ⟨W, hW, hcont⟩ := forward_continuous hE hdyn hsim.builtin hsim.nonempty hpi hp ha (q := st.q) (u := st.qd)
    (tau := tau) hq hqd
  obtain rfl : w = W 0 := by
    rw [(hW 0).1] at hw
    exact ((Except.ok.injEq _ _).mp hw).symm
  -- one step
  have one : ∀ τ, |τ| < 1 → (∀ r, r < st.qd.length → (st' τ).qd.getD r 0 = st.qd.getD r 0 + τ * (W τ).getD r 0) ∧
      (st' τ).qd.length = st.qd.length ∧ ∀ i (hi : i < s.link_types.length),
        LinkStep s.link_types[i] τ (ownSlice E.qw s.link_types st.q i)
          (ownSlice E.dw s.link_types (st' τ).qd i) (ownSlice E.qw s.link_types (st' τ).q i) ∧
        (ownSlice E.qw s.link_types (st' τ).q i).length = (ownSlice E.qw s.link_types st.q i).length := by
    intro τ hτ
    obtain ⟨qdd, st1, h1, _, h2, l1, l2, _, h3, h4⟩ := C28_semi_implicit hE (Dynamic.set_dt hdyn τ) hsim.builtin
      hsim.nonempty (st := { st with x := (List.range s.link_parents.length).map (fkPose E s st.q) }) (tau := tau)
      hq hqd htau hu (by
        have : |τ| < 1e8 := lt_trans hτ (by norm_num)
        exact this)
    obtain rfl : qdd = W τ := by
      rw [(hW τ).1] at h1
      exact ((Except.ok.injEq _ _).mp h1).symm
    have hs := hst τ hτ
    have hk := (hset τ).wf.known
    unfold step at hs
    simp only [q_size, qd_size, sumWidths_known (fun t ht => (hk t ht).1),
      sumWidths_known (fun t ht => (hk t ht).2), ok_bind] at hs
    rw [pyAssert_true (p := _) hq.symm] at hs
    simp only [ok_bind] at hs
    rw [pyAssert_true (p := _) ⟨hqd.symm, htau.symm⟩] at hs
    simp only [ok_bind] at hs
    rw [pyAssert_true (p := _) h.method] at hs
    simp only [ok_bind] at hs
    rw [if_neg (by omega)] at hs
    unfold step_loop at hs
    rw [fk_filled hE (hset (τ / (1 : Nat))) hq] at hs
    simp only [ok_bind] at hs
    have hone : τ / ((1 : Nat) : ℝ) = τ := by simp
    rw [hone] at hs
    have hfill : filled E ({ s with dt := τ } : System ℝ π') st.q = { f with dt := τ } := rfl
    obtain rfl : st1 = st' τ := by
      have hs2 : (_semi_implicit_euler_integration E { f with dt := τ }
          { st with x := (List.range s.link_parents.length).map (fkPose E s st.q) } tau >>=
          fun z => step_loop E tau 0 { f with dt := τ } z) = .ok (st' τ) := hs
      rw [h2] at hs2
      exact (Except.ok.injEq _ _).mp hs2
    refine ⟨h3, l2, fun i hi => ⟨(h4 i hi).1, ?_⟩⟩
    rw [ownSlice_length (l1.trans hq) hi, ownSlice_length hq hi]
  have small : ∀ᶠ τ in nhds (0 : ℝ), |τ| < 1 := by
    have : ContinuousAt (fun τ : ℝ => |τ|) 0 := continuous_abs.continuousAt
    exact this.eventually (gt_mem_nhds (by simp))
  have hqd0 : (st' 0).qd = st.qd := by
    obtain ⟨h1, h2, _⟩ := one 0 (by simp)
    apply List.ext_getElem h2
    intro r k1 k2
    have := h1 r k2
    simpa [List.getD_eq_getElem?_getD, k1, k2] using this
  have hd : ∀ r, HasDerivAt (fun τ => (st' τ).qd.getD r 0) ((W 0).getD r 0) 0 := by
    intro r
    by_cases hr : r < st.qd.length
    · exact deriv_mul_cont (g := fun τ => (W τ).getD r 0) (hcont r) (small.mono fun τ hτ => (one τ hτ).1 r hr)
    · have e : (W 0).getD r 0 = 0 := by
        rw [List.getD_eq_getElem?_getD, List.getElem?_eq_none (by rw [(hW 0).2]; omega)]
        rfl
      rw [e]
      refine (hasDerivAt_const (0 : ℝ) (0 : ℝ)).congr_of_eventuallyEq (small.mono fun τ hτ => ?_)
      dsimp only
      rw [List.getD_eq_getElem?_getD, List.getElem?_eq_none (by rw [(one τ hτ).2.1]; omega)]
      rfl
  have hc : ∀ r, ContinuousAt (fun τ => (st' τ).qd.getD r 0) 0 := fun r => (hd r).continuousAt
  refine ⟨hqd0, hd, ?_⟩
  intro i b hib hb
  have hi : i < s.link_types.length := by
    by_contra hc
    rw [List.getElem?_eq_none (by omega)] at hib
    cases hib
  have hti : s.link_types[i] = b.name := by
    rw [List.getElem?_eq_getElem hi] at hib
    exact Option.some.inj hib
  have step : ∀ τ, |τ| < 1 → ∀ k, k < (ownSlice E.qw s.link_types st.q i).length →
      (ownSlice E.qw s.link_types (st' τ).q i).getD k 0 = (ownSlice E.qw s.link_types st.q i).getD k 0 +
        τ * (ownSlice E.dw s.link_types (st' τ).qd i).getD k 0 := by
    intro τ hτ k hk
    have := ((one τ hτ).2.2 i hi).1
    unfold LinkStep at this
    rw [hti, hb] at this
    simp only [Bool.false_eq_true, if_false] at this
    exact this k hk
  have hlen : (ownSlice E.qw s.link_types st.q i).length = b.q_width := by
    rw [ownSlice_length hq hi, hti, (wOf_builtin hE b).1]
  constructor
  · apply List.ext_getElem ((one 0 (by simp)).2.2 i hi).2
    intro k k1 k2
    have := step 0 (by simp) k k2
    simpa [List.getD_eq_getElem?_getD, k1, k2] using this
  · have key : ∀ k, k < b.q_width → HasDerivAt (fun τ => (ownSlice E.qw s.link_types (st' τ).q i).getD k 0)
        ((ownSlice E.dw s.link_types st.qd i).getD k 0) 0 := by
      intro k hk
      have := deriv_mul_cont (g := fun τ => (ownSlice E.dw s.link_types (st' τ).qd i).getD k 0)
        (ownSlice_continuous i hc k) (small.mono fun τ hτ => step τ hτ k (by rw [hlen]; exact hk))
      rwa [hqd0] at this
    rw [is_quat_name] at hb
    cases b <;> simp [isFreeOrCor, isSpherical] at hb <;>
      exact fun j hj => key j hj

theorem ownSlice_ext {w : String → Option Nat} {types : List String} {a b : List ℝ}
    (ha : a.length = (types.map (wOf w)).sum) (hb : b.length = (types.map (wOf w)).sum)
    (h : ∀ i, i < types.length → ownSlice w types a i = ownSlice w types b i) : a = b := by
  rw [← chunks_flatten _ a ha, ← chunks_flatten _ b hb]
  congr 1
  apply List.ext_getElem?
  intro i
  by_cases hi : i < types.length
  · rw [ownSlice_eq _ _ _ _ hi, ownSlice_eq _ _ _ _ hi, h i hi]
  · rw [List.getElem?_eq_none (by simpa using hi), List.getElem?_eq_none (by simpa using hi)]

theorem small_near_zero : ∀ᶠ τ in nhds (0 : ℝ), |τ| < 1 := by
  have : ContinuousAt (fun τ : ℝ => |τ|) 0 := continuous_abs.continuousAt
  exact this.eventually (gt_mem_nhds (by simp))

/-- C113: in systems of hinges, sliders and frozen joints, the energy of the state after one step changes, as the step
size goes to zero, at the rate of the power of the torques, dampers and springs. (The energy does not depend on the step
size; the systems in which it is evaluated have the step size zero.) -/
theorem C113_energy (hE : E.Std) (h : s.Simulable E) (hb : s.JointsIn Straight) (hpi : 0 < E.pi)
    (hp : ∀ g ∈ s.geoms, g.Physical) (ha : ∀ x ∈ s.link_armature, 0 ≤ x) (hda : ∀ x ∈ s.link_damping, 0 ≤ x)
    (hit : s.mass_mat_iters = 0) {st : State ℝ} {tau spring : List ℝ}
    (hq : st.q.length = (s.link_types.map (wOf E.qw)).sum)
    (hqd : st.qd.length = (s.link_types.map (wOf E.dw)).sum) (htau : tau.length = st.qd.length)
    (hu : s.UnitQ E st.q) {st' : ℝ → State ℝ}
    (hst : ∀ τ, |τ| < 1 → step E { s with dt := τ } st (some tau) 1 = .ok (st' τ))
    {xs : ℝ → List (Transform ℝ)} {s₀ : ℝ → System ℝ π'} {T : ℝ → ℝ}
    (hf : ∀ τ, |τ| < 1 →
      ({ s with dt := 0 } : System ℝ π').forward_kinematics_transforms E (st' τ).q = .ok (xs τ, s₀ τ))
    (hT : ∀ τ, |τ| < 1 → kinetic_energy E (s₀ τ) (st' τ).qd = .ok (T τ))
    (hsp : _spring_force E (s₀ 0) st.q = .ok spring) :
    HasDerivAt (fun τ => T τ + potential s (xs τ) + regularEnergy { s with dt := 0 } (st' τ).qd)
      (∑ r ∈ range st.qd.length, st.qd.getD r 0 * (tau.getD r 0 - s.link_damping.getD r 0 * st.qd.getD r 0 +
        s.link_spring_stiffness.getD r 0 * spring.getD r 0)) 0 := by
  have hset : ∀ τ, ({ s with dt := τ } : System ℝ π').Simulable E := fun τ =>
    Simulable.of_same h ⟨rfl, rfl, fun i h1 h2 => ⟨rfl, rfl, rfl, rfl⟩⟩
  have z1 : |(0 : ℝ)| < 1 := by simp
  have lens : ∀ τ, |τ| < 1 → (st' τ).q.length = st.q.length ∧ (st' τ).qd.length = st.qd.length ∧
      s.UnitQ E (st' τ).q := by
    intro τ hτ
    obtain ⟨st1, e, l1, l2, l3⟩ := C28_step hE (hset τ) (lt_trans hτ (by norm_num)) (n := 1) (by norm_num) hq hqd
      (taus := some tau) (fun t ht => by cases ht; exact htau) hu
    rw [hst τ hτ] at e
    cases e
    exact ⟨l1, l2, l3⟩
  -- the joints
  have hjoint : ∀ (i : Nat) (b : BuiltIn), s.link_types[i]? = some b.name → Straight b := by
    intro i b hib
    obtain ⟨b', h1, h2⟩ := hb b.name (List.mem_of_getElem? hib)
    rw [builtin_name_injective h2]
    exact h1
  have hnq : ∀ b : BuiltIn, Straight b → joint_type_is_free_or_cor_or_spherical b.name = false := by
    intro b hb
    rw [is_quat_name]
    cases b <;> simp [Straight] at hb <;> rfl
  -- the state at step size zero
  obtain ⟨w, hw⟩ : ∃ w, forward_dynamics E (filled E { s with dt := 0 } st.q) st.q st.qd tau = .ok w := by
    obtain ⟨f', x', e1, _, hsim, hdyn, _⟩ := fk_simulable hE (hset 0) (st := st) hq hu
    rw [fk_filled hE (hset 0) hq] at e1
    cases e1
    obtain ⟨W, hW, _⟩ := forward_continuous hE hdyn hsim.builtin hsim.nonempty hpi hp ha (q := st.q) (u := st.qd)
      (tau := tau) hq hqd
    exact ⟨W 0, (hW 0).1⟩
  have hf0 : ({ s with dt := 0 } : System ℝ π').forward_kinematics_transforms E st.q =
      .ok (_, filled E { s with dt := 0 } st.q) := fk_eq (hset 0).wf ((hset 0).jointed hE) hq
  obtain ⟨hqd0, hder, hfol⟩ := C113_consistent hE h hpi hp ha hq hqd htau hu hst hf0 hw
  have hq0 : (st' 0).q = st.q := by
    refine ownSlice_ext ((lens 0 z1).1.trans hq) hq fun i hi => ?_
    obtain ⟨b, h1, h2⟩ := hb s.link_types[i] (List.getElem_mem _)
    exact (hfol i b (by rw [List.getElem?_eq_getElem hi, h2]) (hnq b h1)).1
  have hs0 : s₀ 0 = filled E { s with dt := 0 } st.q := by
    have := hf 0 z1
    rw [hq0, hf0] at this
    exact ((Prod.mk.injEq _ _ _ _).mp ((Except.ok.injEq _ _).mp this)).2.symm
  -- outside of the interval nothing happens
  classical
  let σ : ℝ → ℝ := fun τ => if |τ| < 1 then τ else 0
  have hσ : ∀ τ, |σ τ| < 1 := by
    intro τ
    by_cases hτ : |τ| < 1
    · simp [σ, hτ]
    · simp [σ, hτ]
  have hσe : ∀ τ, |τ| < 1 → σ τ = τ := fun τ hτ => by simp [σ, hτ]
  have hσ0 : σ 0 = 0 := hσe 0 z1
  have main := C111_forward (s := { s with dt := 0 }) (q := fun τ => (st' (σ τ)).q) (u := fun τ => (st' (σ τ)).qd)
    (w := w) (tau := tau) (spring := spring) (t := 0) (xs := fun τ => xs (σ τ)) (s' := fun τ => s₀ (σ τ))
    (T := fun τ => T (σ τ)) hE (hset 0) ?_ hpi hp ha hda le_rfl hit (fun τ => (lens _ (hσ τ)).1.trans hq)
    (fun τ => (lens _ (hσ τ)).2.1.trans hqd) (fun τ => (lens _ (hσ τ)).2.2) ?_ ?_ (fun τ => hf _ (hσ τ))
    (fun τ => hT _ (hσ τ)) (by simp only [hσ0, hqd0]; exact htau) (by simp only [hσ0, hqd0, hq0, hs0]; exact hw)
    (by simp only [hσ0, hq0]; exact hsp)
  · simp only [hσ0, hqd0] at main
    refine main.congr_of_eventuallyEq (small_near_zero.mono fun τ hτ => ?_)
    simp only [hσe τ hτ]
    rfl
  · intro t ht
    obtain ⟨b, h1, h2⟩ := hb t ht
    exact ⟨b, by cases b <;> simp [Straight] at h1 <;> trivial, h2⟩
  · intro i b hib
    have hs := hjoint i b hib
    have := (hfol i b hib (hnq b hs)).2
    simp only [hσ0, hqd0]
    cases b <;> simp [Straight] at hs <;>
      exact fun j hj => (this j hj).congr_of_eventuallyEq (small_near_zero.mono fun τ hτ => by simp only [hσe τ hτ])
  · intro r
    exact (hder r).congr_of_eventuallyEq (small_near_zero.mono fun τ hτ => by simp only [hσe τ hτ])

/-- C113: the steps, accelerations and energies of the statements above exist. -/
theorem C113_exists (hE : E.Std) (h : s.Simulable E) (hb : s.JointsIn Straight) (hpi : 0 < E.pi)
    (hp : ∀ g ∈ s.geoms, g.Physical) (ha : ∀ x ∈ s.link_armature, 0 ≤ x) (hda : ∀ x ∈ s.link_damping, 0 ≤ x)
    (hit : s.mass_mat_iters = 0) {st : State ℝ} {tau : List ℝ}
    (hq : st.q.length = (s.link_types.map (wOf E.qw)).sum)
    (hqd : st.qd.length = (s.link_types.map (wOf E.dw)).sum) (htau : tau.length = st.qd.length)
    (hu : s.UnitQ E st.q) :
    ∃ (st' : ℝ → State ℝ) (xs : ℝ → List (Transform ℝ)) (s₀ : ℝ → System ℝ π') (T : ℝ → ℝ) (w spring : List ℝ),
      (∀ τ, |τ| < 1 → step E { s with dt := τ } st (some tau) 1 = .ok (st' τ)) ∧
      (∀ τ, |τ| < 1 →
        ({ s with dt := 0 } : System ℝ π').forward_kinematics_transforms E (st' τ).q = .ok (xs τ, s₀ τ) ∧
        kinetic_energy E (s₀ τ) (st' τ).qd = .ok (T τ)) ∧
      (∀ r, HasDerivAt (fun τ => (st' τ).qd.getD r 0) (w.getD r 0) 0) ∧
      HasDerivAt (fun τ => T τ + potential s (xs τ) + regularEnergy { s with dt := 0 } (st' τ).qd)
        (∑ r ∈ range st.qd.length, st.qd.getD r 0 * (tau.getD r 0 - s.link_damping.getD r 0 * st.qd.getD r 0 +
          s.link_spring_stiffness.getD r 0 * spring.getD r 0)) 0 := by
  classical
  have hset : ∀ τ, ({ s with dt := τ } : System ℝ π').Simulable E := fun τ =>
    Simulable.of_same h ⟨rfl, rfl, fun i h1 h2 => ⟨rfl, rfl, rfl, rfl⟩⟩
  have hrun : ∀ τ, ∃ z : State ℝ, |τ| < 1 →
      step E { s with dt := τ } st (some tau) 1 = .ok z ∧ z.q.length = st.q.length ∧ s.UnitQ E z.q := by
    intro τ
    by_cases hτ : |τ| < 1
    · obtain ⟨z, h1, h2, _, h3⟩ := C28_step hE (hset τ) (lt_trans hτ (by norm_num)) (n := 1) (by norm_num)
        (st := st) hq hqd (taus := some tau) (fun t ht => by cases ht; exact htau) hu
      exact ⟨z, fun _ => ⟨h1, h2, h3⟩⟩
    · exact ⟨st, fun h => absurd h hτ⟩
  choose st' hst using hrun
  have hfk : ∀ τ, ∃ (x : List (Transform ℝ)) (z : System ℝ π') (k : ℝ), |τ| < 1 →
      ({ s with dt := 0 } : System ℝ π').forward_kinematics_transforms E (st' τ).q = .ok (x, z) ∧
      kinetic_energy E z (st' τ).qd = .ok k := by
    intro τ
    by_cases hτ : |τ| < 1
    · obtain ⟨_, h2, h3⟩ := hst τ hτ
      have e := fk_eq (hset 0).wf ((hset 0).jointed hE) (q := (st' τ).q) (h2.trans hq)
      obtain ⟨_, _, hdyn⟩ := fk_same hE (hset 0) (h2.trans hq) h3 e
      obtain ⟨M, hM, _⟩ := mass_matrix_entries hdyn
      obtain ⟨k, hk⟩ : ∃ k, kinetic_energy E (filled E { s with dt := 0 } (st' τ).q) (st' τ).qd = .ok k := by
        have hM' : compute_mass_matrix E (filled E { s with dt := 0 } (st' τ).q) = .ok M := hM
        unfold kinetic_energy
        rw [hM']
        exact ⟨_, rfl⟩
      exact ⟨_, _, k, fun _ => ⟨e, hk⟩⟩
    · exact ⟨[], s, 0, fun h => absurd h hτ⟩
  choose xs s₀ T hf using hfk
  have z1 : |(0 : ℝ)| < 1 := by simp
  have hs := fun τ hτ => (hst τ hτ).1
  obtain ⟨f', x', e1, _, hsim, hdyn, _⟩ := fk_simulable hE h (st := st) hq hu
  rw [fk_filled hE h hq] at e1
  cases e1
  obtain ⟨W, hW, _⟩ := forward_continuous hE hdyn hsim.builtin hsim.nonempty hpi hp ha (q := st.q) (u := st.qd)
    (tau := tau) hq hqd
  obtain ⟨_, l0, u0⟩ := hst 0 z1
  obtain ⟨_, hsim0, _⟩ := fk_same hE (hset 0) (l0.trans hq) u0 (hf 0 z1).1
  have ht0 : (s₀ 0).link_types = s.link_types := by
    rw [(isFK_unique (hset 0).wf ((hset 0).jointed hE) (l0.trans hq) (hf 0 z1).1).rest]
  obtain ⟨spring, hsp, _⟩ := spring_ok hE hsim0.wf hsim0.builtin hsim0.nonempty (q := st.q) (by rw [ht0]; exact hq)
  exact ⟨st', xs, s₀, T, W 0, spring, hs, hf,
    (C113_consistent hE h hpi hp ha hq hqd htau hu hs (fk_eq (hset 0).wf ((hset 0).jointed hE) hq) (hW 0).1).2.1,
    C113_energy hE h hb hpi hp ha hda hit hq hqd htau hu hs (fun τ hτ => (hf τ hτ).1) (fun τ hτ => (hf τ hτ).2) hsp⟩

/-! ### examples -/

theorem pendSys_physical : ∀ g ∈ pendSys.geoms, g.Physical := by
  intro g hg
  simp [pendSys, pendGeoms] at hg
  rcases hg with rfl | rfl <;>
    simp [Geometry.Physical, Transform.IsUnit, Transform.zero, Quat.IsUnit, unitQuat]

/-- the double pendulum with a torque at the first hinge, a damper there and a spring at the second -/
example : ∃ (st' : ℝ → State ℝ) (w : List ℝ),
    (∀ τ, |τ| < 1 →
      step stdEnv { pendSys with dt := τ } ⟨[1, 2], [7, 3], []⟩ (some [5, 0]) 1 = .ok (st' τ)) ∧
    ∀ r, HasDerivAt (fun τ => (st' τ).qd.getD r 0) (w.getD r 0) 0 := by
  obtain ⟨st', _, _, _, w, _, h1, _, h2, _⟩ := C113_exists stdEnv_std pendSys_simulable pendSys_straight Real.pi_pos
    pendSys_physical (by simp [pendSys]) (by simp [pendSys]) rfl (st := ⟨[1, 2], [7, 3], []⟩) (tau := [5, 0])
    (by rw [pendSys_widths.1]; rfl) (by rw [pendSys_widths.2]; rfl) rfl (pendSys_unitQ _)
  exact ⟨st', w, h1, h2⟩

end RingLib
