import Verif.Props.Heavier
import Verif.Props.Substeps

/-!
# C119: the simulation of a heavier system

With `c` times the mass in every body, `c` times as strong springs and dampers and `c` times the torques the simulation
is the same, if the armature makes up for the millionth that forward dynamics adds to the mass matrix.
-/

namespace RingLib
open maths jcalc algebra Finset _root_.RingLib.System

variable {π' : Type} {E : JEnv ℝ π'} {s : System ℝ π'}

theorem scaled_wf (h : s.WF E.toEnv) (c : ℝ) : (s.scaled E.pi c).WF E.toEnv := by
  refine { heavier_wf h c with armature_len := ?_, damping_len := ?_, stiffness_len := ?_ }
  · unfold System.scaled
    rw [List.length_map]
    exact h.damping_len
  · unfold System.scaled
    rw [List.length_map]
    exact h.armature_len
  · unfold System.scaled
    rw [List.length_map]
    exact h.stiffness_len

theorem scaled_dynamic (h : s.Dynamic E) (c : ℝ) : (s.scaled E.pi c).Dynamic E := by
  have d := heavier_dynamic h c
  exact ⟨scaled_wf h.wf c, ⟨d.jointed.known, d.jointed.default⟩, d.widths, d.unit, d.geoms_unit⟩

theorem getD_map_mul (c : ℝ) (l : List ℝ) (r : Nat) : (l.map (c * ·)).getD r 0 = c * l.getD r 0 := by
  simp only [List.getD_eq_getElem?_getD, List.getElem?_map]
  cases l[r]? <;> simp

theorem inv_smul_any {n : Nat} {c : ℝ} (hc : c ≠ 0) (A : Matrix (Fin n) (Fin n) ℝ) : (c • A)⁻¹ = c⁻¹ • A⁻¹ := by
  by_cases h : IsUnit A.det
  · have := invertibleOfNonzero hc
    rw [Matrix.inv_smul A c h, invOf_eq_inv]
  · have h₂ : ¬ IsUnit (c • A).det := by
      rw [Matrix.det_smul, isUnit_iff_ne_zero]
      rw [isUnit_iff_ne_zero] at h
      intro hne
      exact h (right_ne_zero_of_mul hne)
    rw [Matrix.nonsing_inv_apply_not_isUnit _ h, Matrix.nonsing_inv_apply_not_isUnit _ h₂, smul_zero]

/-- **C119**: bodies, springs, dampers and torques `c` times as strong give the same accelerations. -/
theorem C119_motion (hE : E.Std) (h : s.Dynamic E) (hb : s.JointsIn fun _ => True) (hn : 0 < s.link_parents.length)
    (hit : s.mass_mat_iters = 0) {c : ℝ} (hc : c ≠ 0) {q u tau : List ℝ}
    (hq : q.length = (s.link_types.map (wOf E.qw)).sum) (hu : u.length = (s.link_types.map (wOf E.dw)).sum) :
    ∃ w, forward_dynamics E s q u tau = .ok w ∧
      forward_dynamics E (s.scaled E.pi c) q u (tau.map (c * ·)) = .ok w := by
  obtain ⟨spring, hs, _⟩ := spring_ok hE h.wf hb hn hq
  have hs₂ : _spring_force E (s.scaled E.pi c) q = .ok spring := hs
  have d := scaled_dynamic h c
  have hz : (u.map fun _ => (0 : ℝ)).length = (s.link_types.map (wOf E.dw)).sum := by rw [List.length_map]; exact hu
  have hC := inverse_dynamics_ok h.wf h.jointed hu hz hn
  have hC₂ : inverse_dynamics E (s.scaled E.pi c) u (u.map fun _ => 0) =
      .ok ((torques E s u (u.map fun _ => 0)).map (c * ·)) := by
    rw [← heavier_torques h c]
    exact inverse_dynamics_ok d.wf d.jointed hu hz hn
  obtain ⟨M, hM, hsz, he⟩ := mass_matrix_entries h
  obtain ⟨M₂, hM₂, hsz₂, he₂⟩ := mass_matrix_entries d
  have sz : M₂.size = M.size := hsz₂.trans hsz.symm
  have hen : ∀ r k, r < M.size → k < M.size →
      M₂.entry r k = c * M.entry r k + if r = k then (c - 1) * 1e-6 else 0 := by
    intro r k hr hk
    rw [he r k hr hk, he₂ r k (by rw [sz]; exact hr) (by rw [sz]; exact hk)]
    have e : massEntry E (s.scaled E.pi c) r k = c * massEntry E s r k := heavier_massEntry h c r k
    have hlen : r < s.link_armature.length := by rw [h.wf.armature_len, ← hsz]; exact hr
    have a : (s.scaled E.pi c).link_armature.getD r 0 = c * (s.link_armature.getD r 0 + 1e-6) - 1e-6 := by
      unfold System.scaled
      simp [List.getD_eq_getElem?_getD, hlen]
    rw [e, a]
    split <;> ring
  refine ⟨_, by unfold forward_dynamics; rw [hC, hM, hs]; rfl, ?_⟩
  unfold forward_dynamics
  rw [hC₂, hM₂, hs₂]
  simp only [ok_bind, pure_ok]
  congr 1
  have hv : ladd (lsub (tau.map (c * ·)) ((torques E s u (u.map fun _ => 0)).map (c * ·)))
      (ladd (lmul ((s.scaled E.pi c).link_damping.map fun x => -x) u)
        (lmul (s.scaled E.pi c).link_spring_stiffness spring)) =
      (ladd (lsub tau (torques E s u (u.map fun _ => 0))) (ladd (lmul (s.link_damping.map fun x => -x) u)
        (lmul s.link_spring_stiffness spring))).map (c * ·) := by
    have l1 : ∀ a b : List ℝ, lsub (a.map (c * ·)) (b.map (c * ·)) = (lsub a b).map (c * ·) := by
      intro a b
      unfold lsub
      rw [List.zipWith_map, List.map_zipWith]
      simp only [mul_sub]
    have l2 : ∀ a b : List ℝ, ladd (a.map (c * ·)) (b.map (c * ·)) = (ladd a b).map (c * ·) := by
      intro a b
      unfold ladd
      rw [List.zipWith_map, List.map_zipWith]
      simp only [mul_add]
    have l3 : ∀ a b : List ℝ, lmul (a.map (c * ·)) b = (lmul a b).map (c * ·) := by
      intro a b
      unfold lmul
      rw [List.zipWith_map_left, List.map_zipWith]
      simp only [mul_assoc]
    have e1 : (s.scaled E.pi c).link_damping.map (fun x => -x) = (s.link_damping.map fun x => -x).map (c * ·) := by
      unfold System.scaled
      rw [List.map_map, List.map_map]
      apply List.map_congr_left
      intro x _
      simp
    have e2 : (s.scaled E.pi c).link_spring_stiffness = s.link_spring_stiffness.map (c * ·) := rfl
    rw [e1, e2, l3, l3, l1, l2, l2]
  rw [hv]
  generalize ladd (lsub tau (torques E s u (u.map fun _ => 0))) (ladd (lmul (s.link_damping.map fun x => -x) u)
    (lmul s.link_spring_stiffness spring)) = v
  clear hM hM₂ he he₂ hsz hsz₂
  obtain ⟨n, m⟩ := M
  obtain ⟨n₂, m₂⟩ := M₂
  obtain rfl : n₂ = n := sz
  have hinv : mass_mat_inv (s.scaled E.pi c) ⟨n₂, m₂⟩ = c⁻¹ • mass_mat_inv s ⟨n₂, m⟩ := by
    have hit₂ : (s.scaled E.pi c).mass_mat_iters = 0 := hit
    unfold mass_mat_inv
    rw [if_pos hit, if_pos hit₂, ← inv_smul_any hc]
    congr 1
    ext r k
    have hd : (s.scaled E.pi c).link_damping.getD r 0 = c * s.link_damping.getD r 0 := getD_map_mul c _ _
    have hdt : (s.scaled E.pi c).dt = s.dt := rfl
    have := hen r k r.2 k.2
    simp only [Matrix.add_apply, Matrix.smul_apply, Matrix.diagonal_apply, Matrix.one_apply, SqMat.toMatrix, smul_eq_mul,
      hd, hdt]
    dsimp only at this
    rw [this]
    by_cases hrk : r = k
    · subst hrk
      simp only [if_true]
      ring
    · have : (r : Nat) ≠ k := fun e => hrk (Fin.ext e)
      simp only [if_neg hrk, if_neg this]
      ring
  rw [hinv]
  unfold mulVecL
  congr 1
  funext r
  apply Finset.sum_congr rfl
  intro k _
  rw [getD_map_mul, Matrix.smul_apply, smul_eq_mul]
  field_simp

/-! ## the simulation -/

theorem scaled_filled (pi c : ℝ) (q : List ℝ) : filled E (s.scaled pi c) q = (filled E s q).scaled pi c := by
  have hl : (filled E (s.scaled pi c) q).links = ((filled E s q).scaled pi c).links := by
    apply List.ext_getElem
    · simp [filled, System.scaled, System.heavier]
    · intro i h1 h2
      simp only [filled, System.scaled, System.heavier, List.getElem_mapIdx]
      rfl
  have hr : filled E (s.scaled pi c) q = { (filled E s q).scaled pi c with links := (filled E (s.scaled pi c) q).links } :=
    rfl
  rw [hr, hl]

theorem scaled_pose (pi c : ℝ) (q : List ℝ) (i : Nat) : fkPose E (s.scaled pi c) q i = fkPose E s q i := by
  have e : ∀ i : Nat, (s.scaled pi c).links[i]?.map (·.transform1) = s.links[i]?.map (·.transform1) := by
    intro i
    simp only [System.scaled, System.heavier, List.getElem?_mapIdx]
    cases s.links[i]? <;> rfl
  unfold fkPose
  simp only [e]
  rfl

theorem scaled_simulable {c : ℝ} (h : s.Simulable E) (hw : (s.scaled E.pi c).WF E.toEnv) : (s.scaled E.pi c).Simulable E where
  wf := hw
  default := h.default
  widths := h.widths
  builtin := h.builtin
  nonempty := h.nonempty
  unit := by
    intro l hl
    have hl : l ∈ s.links.mapIdx _ := hl
    obtain ⟨i, hi, rfl⟩ := List.mem_mapIdx.1 hl
    exact h.unit s.links[i] (List.getElem_mem hi)
  geoms_unit := by
    intro g hg
    obtain ⟨g, hg', rfl⟩ := List.mem_map.1 (show g ∈ s.geoms.map (Geometry.heavier c) from hg)
    exact h.geoms_unit g hg'
  method := h.method

theorem scaled_loop (hE : E.Std) {c : ℝ} (hc : c ≠ 0) {tau : List ℝ} (n : Nat) : ∀ {s : System ℝ π'}, s.Simulable E →
    |s.dt| < 1e8 → s.mass_mat_iters = 0 → ∀ {st : State ℝ}, st.q.length = (s.link_types.map (wOf E.qw)).sum →
    st.qd.length = (s.link_types.map (wOf E.dw)).sum → tau.length = st.qd.length → s.UnitQ E st.q →
    step_loop E (tau.map (c * ·)) n (s.scaled E.pi c) st = step_loop E tau n s st := by
  induction n with
  | zero => intros; rfl
  | succ n ih =>
    intro s h hdt hit st hq hqd htau hu
    have h₂ := scaled_simulable h (scaled_wf h.wf c)
    have f₁ := fk_filled hE h hq
    have f₂ := fk_filled hE h₂ (st := st) hq
    obtain ⟨s', x, hfk, same, hsim, hdyn, hdt'⟩ := fk_simulable hE h hq hu
    unfold step_loop
    rw [f₂, scaled_filled, f₁]
    have hx : fkPose E (s.scaled E.pi c) st.q = fkPose E s st.q := funext fun i => scaled_pose _ _ _ i
    rw [hx]
    simp only [ok_bind]
    rw [f₁] at hfk
    obtain rfl : filled E s st.q = s' := ((Prod.mk.injEq _ _ _ _).mp ((Except.ok.injEq _ _).mp hfk)).1
    obtain ⟨qdd, st1, _, _, hst, l1, l2, hu1, _⟩ := C28_semi_implicit hE hdyn hsim.builtin hsim.nonempty
      (st := { st with x := (List.range s.link_parents.length).map (fkPose E s st.q) }) (tau := tau) hq hqd htau hu hdt
    have he : ∀ z : State ℝ, z.q.length = (s.link_types.map (wOf E.qw)).sum →
        z.qd.length = (s.link_types.map (wOf E.dw)).sum →
        _semi_implicit_euler_integration E ((filled E s st.q).scaled E.pi c) z (tau.map (c * ·)) =
        _semi_implicit_euler_integration E (filled E s st.q) z tau := by
      intro z zq zd
      obtain ⟨w, w1, w2⟩ := C119_motion hE hdyn hsim.builtin hsim.nonempty hit hc (tau := tau) (q := z.q) (u := z.qd) zq zd
      unfold _semi_implicit_euler_integration
      rw [w1, w2]
      rfl
    have e := he { st with x := (List.range s.link_parents.length).map (fkPose E s st.q) } hq hqd
    rw [hst] at e ⊢
    change (_semi_implicit_euler_integration E ((filled E s st.q).scaled E.pi c)
      { st with x := (List.range s.link_parents.length).map (fkPose E s st.q) } (tau.map (c * ·)) >>= _) = _
    rw [e]
    simp only [ok_bind]
    exact ih hsim hdt hit (l1 ▸ hq) (l2 ▸ hqd) (htau.trans l2.symm) hu1

/-- **C119**: bodies, springs, dampers and torques `c` times as strong give the same simulation, for any number of
substeps. -/
theorem C119_simulation (hE : E.Std) (h : s.Simulable E) (hdt : |s.dt| < 1e8) (hit : s.mass_mat_iters = 0) {c : ℝ}
    (hc : c ≠ 0) {st : State ℝ} {tau : List ℝ} {n : Nat} (hn : 0 < n)
    (hq : st.q.length = (s.link_types.map (wOf E.qw)).sum) (hqd : st.qd.length = (s.link_types.map (wOf E.dw)).sum)
    (htau : tau.length = st.qd.length) (hu : s.UnitQ E st.q) :
    ∃ st', step E s st (some tau) n = .ok st' ∧ step E (s.scaled E.pi c) st (some (tau.map (c * ·))) n = .ok st' := by
  obtain ⟨st', h1, _⟩ := C28_step hE h hdt (taus := some tau) hn hq hqd
    (fun t ht => by cases ht; exact htau) hu
  refine ⟨st', h1, ?_⟩
  rw [← h1, step_eq_loop (taus := some tau) h hn hq hqd htau,
    step_eq_loop (taus := some (tau.map (c * ·))) (scaled_simulable h (scaled_wf h.wf c)) hn hq hqd
    (by rw [Option.getD_some, List.length_map]; exact htau)]
  have same : SameButCache s { s with dt := s.dt / n } := ⟨rfl, rfl, fun i h1 h2 => ⟨rfl, rfl, rfl, rfl⟩⟩
  exact scaled_loop (s := { s with dt := s.dt / n }) hE hc n (Simulable.of_same h same) (by
    simp only [abs_div, Nat.abs_cast]
    apply lt_of_le_of_lt _ hdt
    apply div_le_self (abs_nonneg _)
    exact_mod_cast hn) hit hq hqd htau hu

/-! ## without making up for the millionth -/

theorem physical_heavier {c : ℝ} (hc : 0 < c) {g : Geometry ℝ} (h : g.Physical) : (g.heavier c).Physical :=
  ⟨mul_nonneg hc.le h.1, h.2.1, h.2.2⟩

theorem plain_dynamic (h : s.Dynamic E) (c : ℝ) : (s.plain E.pi c).Dynamic E := by
  have d := heavier_dynamic h c
  refine ⟨{ heavier_wf h.wf c with damping_len := ?_, stiffness_len := ?_ }, ⟨d.jointed.known, d.jointed.default⟩,
    d.widths, d.unit, d.geoms_unit⟩
  · unfold System.plain
    rw [List.length_map]
    exact h.wf.damping_len
  · unfold System.plain
    rw [List.length_map]
    exact h.wf.stiffness_len

/-- **C119**: the millionth on the diagonal of the mass matrix is not scaled. If only masses, armatures, springs, dampers
and torques are `c` times as strong, the accelerations are the same only where they are zero. -/
theorem C119_millionth (hE : E.Std) (h : s.Dynamic E) (hb : s.JointsIn fun _ => True) (hn : 0 < s.link_parents.length)
    (hpi : 0 < E.pi) (hp : ∀ g ∈ s.geoms, g.Physical) (ha : ∀ x ∈ s.link_armature, 0 ≤ x)
    (hd : ∀ x ∈ s.link_damping, 0 ≤ x) (hdt : 0 ≤ s.dt) (hit : s.mass_mat_iters = 0) {c : ℝ} (hc : 0 < c) (hc1 : c ≠ 1)
    {q u tau : List ℝ} (hq : q.length = (s.link_types.map (wOf E.qw)).sum)
    (hu : u.length = (s.link_types.map (wOf E.dw)).sum) (htau : tau.length = u.length) {w : List ℝ}
    (h1 : forward_dynamics E s q u tau = .ok w)
    (h2 : forward_dynamics E (s.plain E.pi c) q u (tau.map (c * ·)) = .ok w) : ∀ r, r < u.length → w.getD r 0 = 0 := by
  obtain ⟨w', T, sp, a1, l1, a2, _, a3, _, a4⟩ := C27_forward_dynamics hE h hb hn hpi hp ha hd hdt hit hq hu htau
  rw [h1] at a1
  cases a1
  have d := plain_dynamic h c
  obtain ⟨w', T₂, sp₂, b1, _, b2, _, b3, _, b4⟩ := C27_forward_dynamics (s := s.plain E.pi c) hE d hb hn hpi
    (by
      intro g hg
      obtain ⟨g, hg', rfl⟩ := List.mem_map.1 (show g ∈ s.geoms.map (Geometry.heavier c) from hg)
      exact physical_heavier hc (hp g hg'))
    (by
      intro x hx
      obtain ⟨y, hy, rfl⟩ := List.mem_map.1 (show x ∈ s.link_armature.map (c * ·) from hx)
      exact mul_nonneg hc.le (ha y hy))
    (by
      intro x hx
      obtain ⟨y, hy, rfl⟩ := List.mem_map.1 (show x ∈ s.link_damping.map (c * ·) from hx)
      exact mul_nonneg hc.le (hd y hy))
    hdt hit (q := q) (qd := u) (tau := tau.map (c * ·)) hq hu (by rw [List.length_map]; exact htau)
  rw [h2] at b1
  cases b1
  obtain rfl : sp = sp₂ := by
    have : _spring_force E (s.plain E.pi c) q = _spring_force E s q := rfl
    rw [this, a3] at b3
    exact (Except.ok.injEq _ _).mp b3
  obtain rfl : T₂ = T.map (c * ·) := by
    have e : inverse_dynamics E (s.plain E.pi c) u w = .ok (torques E (s.heavier E.pi c) u w) :=
      inverse_dynamics_ok d.wf d.jointed hu (l1.trans hu) hn
    rw [e, heavier_torques h] at b2
    rw [inverse_dynamics_ok h.wf h.jointed hu (l1.trans hu) hn] at a2
    cases a2
    cases b2
    rfl
  intro r hr
  have x1 := a4 r hr
  have x2 := b4 r hr
  have e1 : (s.plain E.pi c).link_armature.getD r 0 = c * s.link_armature.getD r 0 := getD_map_mul c _ _
  have e2 : (s.plain E.pi c).link_damping.getD r 0 = c * s.link_damping.getD r 0 := getD_map_mul c _ _
  have e3 : (s.plain E.pi c).link_spring_stiffness.getD r 0 = c * s.link_spring_stiffness.getD r 0 := getD_map_mul c _ _
  have e4 : (s.plain E.pi c).dt = s.dt := rfl
  rw [e1, e2, e3, e4, getD_map_mul, getD_map_mul] at x2
  have hz : (c - 1) * 1e-6 * w.getD r 0 = 0 := by linear_combination c * x1 - x2
  have hne : (c - 1) * (1e-6 : ℝ) ≠ 0 := mul_ne_zero (sub_ne_zero.2 hc1) (by norm_num)
  exact (mul_eq_zero.1 hz).resolve_left hne

/-- **C119** fails if the millionth is not made up for: twice as heavy, twice as strong, and other accelerations. -/
theorem C119_plain_fails : ∃ (q u tau w w₂ : List ℝ), forward_dynamics stdEnv kinSys q u tau = .ok w ∧
    forward_dynamics stdEnv (kinSys.plain stdEnv.pi 2) q u (tau.map (2 * ·)) = .ok w₂ ∧ w ≠ w₂ := by
  have ha : ∀ x ∈ kinSys.link_armature, 0 ≤ x := by intro x hx; simp [kinSys] at hx; simp [hx]
  have hd : ∀ x ∈ kinSys.link_damping, 0 ≤ x := by intro x hx; simp [kinSys] at hx; simp [hx]
  have hdt : (0 : ℝ) ≤ kinSys.dt := by simp only [kinSys]; norm_num
  have hn : 0 < kinSys.link_parents.length := by simp [kinSys]
  have hq : (List.replicate 13 (0 : ℝ)).length = (kinSys.link_types.map (wOf stdEnv.qw)).sum := by
    rw [kinSys_widths.1]; rfl
  have hu : (List.replicate 11 (0 : ℝ)).length = (kinSys.link_types.map (wOf stdEnv.dw)).sum := by
    rw [kinSys_widths.2]; rfl
  have fd := fun tau (ht : tau.length = (List.replicate 11 (0 : ℝ)).length) =>
    C27_forward_dynamics stdEnv_std kinSys_dynamic kinSys_builtin hn Real.pi_pos kinSys_physical ha hd hdt rfl hq hu
      (tau := tau) ht
  have total : ∀ tau : List ℝ, ∃ w₂, forward_dynamics stdEnv (kinSys.plain stdEnv.pi 2) (List.replicate 13 0)
      (List.replicate 11 0) tau = .ok w₂ := by
    intro tau
    have d := plain_dynamic kinSys_dynamic 2
    obtain ⟨sp, hs, _⟩ := spring_ok (s := kinSys.plain stdEnv.pi 2) stdEnv_std d.wf kinSys_builtin hn hq
    obtain ⟨M, hM, _⟩ := mass_matrix_entries d
    have hz : ((List.replicate 11 (0 : ℝ)).map fun _ => (0 : ℝ)).length =
        (kinSys.link_types.map (wOf stdEnv.dw)).sum := by rw [List.length_map]; exact hu
    have hi := inverse_dynamics_ok d.wf d.jointed hu hz hn
    cases hf : forward_dynamics stdEnv (kinSys.plain stdEnv.pi 2) (List.replicate 13 0) (List.replicate 11 0) tau with
    | ok w => exact ⟨w, rfl⟩
    | error e =>
      unfold forward_dynamics at hf
      rw [hi, hM, hs] at hf
      cases hf
  by_contra hcon
  push Not at hcon
  have zero : ∀ tau : List ℝ, tau.length = 11 → ∃ T sp, inverse_dynamics stdEnv kinSys (List.replicate 11 0)
      (List.replicate 11 0) = .ok T ∧ _spring_force stdEnv kinSys (List.replicate 13 0) = .ok sp ∧
      T.getD 0 0 = tau.getD 0 0 - kinSys.link_damping.getD 0 0 * (List.replicate 11 (0 : ℝ)).getD 0 0 +
          kinSys.link_spring_stiffness.getD 0 0 * sp.getD 0 0 := by
    intro tau ht
    obtain ⟨w, T, sp, h1, l1, h2, _, h3, _, h4⟩ := fd tau ht
    obtain ⟨w₂, h5⟩ := total (tau.map (2 * ·))
    obtain rfl := hcon _ _ _ _ _ h1 h5
    have z := C119_millionth stdEnv_std kinSys_dynamic kinSys_builtin hn Real.pi_pos kinSys_physical ha hd hdt rfl
      (by norm_num) (by norm_num) hq hu ht h1 h5
    obtain rfl : w = List.replicate 11 0 := by
      apply List.ext_getElem l1
      intro r r1 r2
      have := z r r2
      rw [List.getD_eq_getElem?_getD, List.getElem?_eq_getElem r1] at this
      rw [List.getElem_replicate]
      exact this
    refine ⟨T, sp, h2, h3, ?_⟩
    have := h4 0 (by simp)
    rw [z 0 (by simp), mul_zero, add_zero] at this
    exact this
  obtain ⟨T, sp, a1, a2, a3⟩ := zero (1 :: List.replicate 10 0) rfl
  obtain ⟨T', sp', b1, b2, b3⟩ := zero (List.replicate 11 0) rfl
  rw [a1] at b1
  rw [a2] at b2
  cases b1
  cases b2
  rw [a3] at b3
  simp at b3

/-! ### example -/

/-- three times as heavy, three times as strong: the same step of four substeps -/
example (y : ℝ) (x : List (Transform ℝ)) :
    ∃ st', step stdEnv kinSys ⟨[0, 1, 0, 0, 5, 6, 7, 1 / 2, y, 1, 0, 0, 0], [1, 2, 3, 4, 5, 6, 7, 8, 9, 10, 11], x⟩
        (some [1, 1, 1, 1, 1, 1, 1, 1, 1, 1, 2]) 4 = .ok st' ∧
      step stdEnv (kinSys.scaled stdEnv.pi 3)
        ⟨[0, 1, 0, 0, 5, 6, 7, 1 / 2, y, 1, 0, 0, 0], [1, 2, 3, 4, 5, 6, 7, 8, 9, 10, 11], x⟩
        (some ([1, 1, 1, 1, 1, 1, 1, 1, 1, 1, 2].map (3 * ·))) 4 = .ok st' :=
  C119_simulation stdEnv_std kinSys_simulable (by simp only [kinSys]; norm_num) rfl (by norm_num) (by omega)
    (by rw [kinSys_widths.1]; rfl) (by rw [kinSys_widths.2]; rfl) rfl (kinSys_unitQ_slider y)

end RingLib
