import Verif.Lemmas.MassMatrix
import Verif.Props.Inertia
import Verif.Props.Kinematics
import Mathlib.Tactic.Positivity

/-! # Properties C26, C27: dynamics -/

namespace RingLib
open System algebra Finset
variable {α π : Type}

/-! ## preparations -/

section
variable [Field α] {E : JEnv α π} {s : System α π}

theorem System.Dynamic.unitT (h : s.Dynamic E) (i : Nat) (hi : i < s.link_parents.length) :
    (s.linkT i).rot.normSq = 1 := by
  have hi' : i < s.links.length := by rw [h.wf.links_len]; exact hi
  rw [linkT_eq hi']
  exact h.unit _ (List.getElem_mem _)

theorem System.Dynamic.symmI (h : s.Dynamic E) (i : Nat) (hi : i < s.link_parents.length) :
    (s.linkI i).it_3x3.IsSymm := by
  have hi' : i < s.links.length := by rw [h.wf.links_len]; exact hi
  rw [linkI_eq hi', h.wf.inertia_ok i hi']
  exact C21_symmetric _ _ _ (fun g hg _ => h.geoms_unit g hg)

theorem System.Dynamic.count (h : s.Dynamic E) :
    dofCount E s = (s.link_types.map (wOf E.dw)).sum :=
  (dofs_length h.wf h.jointed h.widths).symm

/-- the mass matrix, entry by entry -/
theorem mass_matrix_entries (h : s.Dynamic E) :
    ∃ M, compute_mass_matrix E s = .ok M ∧ M.size = (s.link_types.map (wOf E.dw)).sum ∧
      ∀ r c, r < M.size → c < M.size → M.entry r c =
        massEntry E s r c + if r = c then s.link_armature.getD r 0 else 0 := by
  refine ⟨_, compute_mass_matrix_ok h.wf h.jointed h.widths h.unitT h.symmI, h.count, ?_⟩
  intro r c hr hc
  exact fill_upper_entry h.symmI _ hr hc

end

/-! ## C26 -/

/-- C26: the recursive Newton-Euler pass and the composite-rigid-body mass matrix describe the same
equation of motion: `tau(qd, qdd) - tau(qd, 0) = (M - diag(armature)) qdd`. -/
theorem C26_torques [Field α] {E : JEnv α π} {s : System α π} (h : s.Dynamic E)
    (hn : 0 < s.link_parents.length) {qd qdd : List α}
    (hqd : qd.length = (s.link_types.map (wOf E.dw)).sum) (hqdd : qdd.length = qd.length) :
    ∃ M tau tau0, compute_mass_matrix E s = .ok M ∧ M.size = qd.length ∧
      inverse_dynamics E s qd qdd = .ok tau ∧ tau.length = qd.length ∧
      inverse_dynamics E s qd (qd.map fun _ => 0) = .ok tau0 ∧ tau0.length = qd.length ∧
      ∀ r, r < qd.length → tau.getD r 0 - tau0.getD r 0 =
        ∑ c ∈ range qd.length,
          (M.entry r c - if r = c then s.link_armature.getD r 0 else 0) * qdd.getD c 0 := by
  obtain ⟨M, hM, hsz, hen⟩ := mass_matrix_entries h
  have hc := h.count
  refine ⟨M, _, _, hM, by rw [hsz, hqd], inverse_dynamics_ok h.wf h.jointed hqd
    (hqdd.trans hqd) hn, by rw [torques_length, hc, hqd],
    inverse_dynamics_ok h.wf h.jointed hqd (by simpa using hqd) hn,
    by rw [torques_length, hc, hqd], ?_⟩
  intro r hr
  have e0 : (qd.map fun _ => (0 : α)) = List.replicate qd.length 0 := by simp
  rw [e0, torques_affine h.wf h.jointed h.widths h.unitT qd qdd qd.length
    (by rw [hc, ← hqd]; exact hr), add_sub_cancel_left, hc, ← hqd]
  apply Finset.sum_congr rfl
  intro c hc'
  have hc' := Finset.mem_range.1 hc'
  rw [hen r c (by omega) (by omega), add_sub_cancel_right]

/-- C26: in particular column `k` of the mass matrix is what inverse dynamics returns for the unit
acceleration `e_k`, less the torques without acceleration (and plus the armature on the
diagonal). -/
theorem C26_columns [Field α] {E : JEnv α π} {s : System α π} (h : s.Dynamic E)
    (hn : 0 < s.link_parents.length) {qd : List α}
    (hqd : qd.length = (s.link_types.map (wOf E.dw)).sum) {k : Nat} (hk : k < qd.length) :
    ∃ M tau tau0, compute_mass_matrix E s = .ok M ∧
      inverse_dynamics E s qd ((qd.map fun _ => 0).set k 1) = .ok tau ∧
      inverse_dynamics E s qd (qd.map fun _ => 0) = .ok tau0 ∧
      ∀ r, r < qd.length →
        M.entry r k = tau.getD r 0 - tau0.getD r 0 +
          if r = k then s.link_armature.getD r 0 else 0 := by
  obtain ⟨M, tau, tau0, h1, _, h2, _, h3, _, h4⟩ := C26_torques h hn hqd
    (qdd := (qd.map fun _ => 0).set k 1) (by simp)
  refine ⟨M, tau, tau0, h1, h2, h3, ?_⟩
  intro r hr
  rw [h4 r hr, Finset.sum_eq_single k]
  · have : ((qd.map fun _ => (0 : α)).set k 1).getD k 0 = 1 := by
      simp [List.getD_eq_getElem?_getD, hk]
    rw [this]; ring
  · intro c _ hne
    have : ((qd.map fun _ => (0 : α)).set k 1).getD c 0 = 0 := by
      rw [List.getD_eq_getElem?_getD, List.getElem?_set, if_neg (Ne.symm hne), List.getElem?_map]
      cases qd[c]? <;> rfl
    rw [this, mul_zero]
  · intro hk'
    simp [hk] at hk'

/-! ## C27 -/

/-- C27: the mass matrix is symmetric. -/
theorem C27_symmetric [Field α] {E : JEnv α π} {s : System α π} (h : s.Dynamic E) :
    ∃ M, compute_mass_matrix E s = .ok M ∧ M.size = (s.link_types.map (wOf E.dw)).sum ∧
      ∀ r c, r < M.size → c < M.size → M.entry r c = M.entry c r := by
  obtain ⟨M, hM, hsz, hen⟩ := mass_matrix_entries h
  refine ⟨M, hM, hsz, ?_⟩
  intro r c hr hc
  rw [hen r c hr hc, hen c r hc hr]
  congr 1
  · exact energyForm_symm h.symmI _ _
  · by_cases hrc : r = c
    · subst hrc; rfl
    · rw [if_neg hrc, if_neg (Ne.symm hrc)]

theorem foldr_motion_sum [CommRing α] (l : List (Motion α)) :
    l.foldr (· + ·) (⟨0, 0⟩ : Motion α) = l.sum := rfl

theorem jointVel_zipWith [Field α] {E : JEnv α π} {s : System α π} (h : s.Dynamic E) (u : List α)
    (hu : u.length = (s.link_types.map (wOf E.dw)).sum)
    {i : Nat} (hi : i < s.link_parents.length) :
    ((s.axesAt E i).zipWith (fun ax c => Motion.smul c ax)
      (ownSlice E.dw s.link_types u i)).foldr (· + ·) (⟨0, 0⟩ : Motion α) = jointVel E s u i := by
  have hi2 : i < s.link_types.length := by rw [h.wf.types_len]; exact hi
  have hl : (ownSlice E.dw s.link_types u i).length = (s.axesAt E i).length := by
    rw [ownSlice_length hu hi2, axesAt_length h.wf h.jointed h.widths hi2]
  rw [foldr_motion_sum]
  unfold jointVel
  rw [jointM_eq]
  generalize s.axesAt E i = A at hl
  generalize ownSlice E.dw s.link_types u i = c at hl
  induction A generalizing c with
  | nil => simp
  | cons a A ih =>
    cases c with
    | nil => simp at hl
    | cons x c =>
      rw [List.zipWith_cons_cons, List.sum_cons, ih c (by simpa using hl), List.length_cons,
        Finset.sum_range_succ', add_comm]
      simp

/-- the specification determines the velocities -/
theorem linkVel_unique [Field α] {E : JEnv α π} {s : System α π} (h : s.Dynamic E) (u : List α)
    (hu : u.length = (s.link_types.map (wOf E.dw)).sum) {v : Nat → Motion α}
    (hv : s.IsLinkVel E u v) {i : Nat} (hi : i < s.link_parents.length) :
    v i = linkVel E s u i := by
  revert i
  suffices h' : ∀ i, i < s.link_parents.length → _ from fun {i} hi => h' i hi
  apply tree_induction
  intro i hi ih
  rw [hv i hi, jointVel_zipWith h u hu hi]
  unfold linkVel
  rw [vel_eq h.wf.topo _ hi]
  congr 1
  obtain ⟨h1, h2⟩ := h.wf.topo i hi
  unfold parentVal
  by_cases hp : s.link_parents[i] = -1
  · rw [if_pos hp, if_neg (by omega)]
    exact (transform_motion_zero' _).symm
  · rw [if_neg hp, if_pos (by omega)]
    rw [ih s.link_parents[i].toNat (by omega) (by omega)]
    rfl

theorem linkVel_exists [Field α] {E : JEnv α π} {s : System α π} (h : s.Dynamic E) (u : List α)
    (hu : u.length = (s.link_types.map (wOf E.dw)).sum) :
    s.IsLinkVel E u (linkVel E s u) := by
  intro i hi
  rw [jointVel_zipWith h u hu hi]
  obtain ⟨h1, h2⟩ := h.wf.topo i hi
  have := vel_eq h.wf.topo (X := s.linkT) (jointVel E s u) hi
  unfold parentVal at this
  by_cases hp : s.link_parents[i] = -1
  · rw [if_pos hp]
    rw [if_neg (by omega), transform_motion_zero'] at this
    exact this
  · rw [if_neg hp]
    rw [if_pos (by omega)] at this
    exact this

theorem list_range_sum {β : Type} [AddCommMonoid β] (n : Nat) (f : Nat → β) :
    ((List.range n).map f).sum = ∑ r ∈ range n, f r := by
  induction n with
  | zero => rfl
  | succ n ih =>
    rw [List.range_succ, List.map_append, List.sum_append, ih, Finset.sum_range_succ]
    simp

theorem foldr_children [Field α] (n : Nat) (P : Nat → Prop) [DecidablePred P] (F : Nat → Force α) :
    ((List.range n).filter fun c => P c).foldr (fun c G => F c + G) (⟨0, 0⟩ : Force α) =
      ∑ c ∈ range n, if P c then F c else 0 := by
  have key : ∀ (l : List Nat), (l.filter fun c => P c).foldr (fun c G => F c + G) (⟨0, 0⟩ : Force α) =
      (l.map fun c => if P c then F c else 0).sum := by
    intro l
    induction l with
    | nil => rfl
    | cons x l ih =>
      rw [List.map_cons, List.sum_cons, ← ih, List.filter_cons]
      by_cases h : P x
      · simp [h]
      · simp [h]
  rw [key, list_range_sum]

/-- C26: inverse dynamics solves the Newton-Euler equations of the tree. -/
theorem C26_newton_euler [Field α] {E : JEnv α π} {s : System α π} (h : s.Dynamic E)
    (hn : 0 < s.link_parents.length) {qd qdd : List α}
    (hqd : qd.length = (s.link_types.map (wOf E.dw)).sum) (hqdd : qdd.length = qd.length) :
    ∃ tau v a f, inverse_dynamics E s qd qdd = .ok tau ∧ tau.length = qd.length ∧
      s.IsNewtonEuler E qd qdd v a f tau := by
  refine ⟨torques E s qd qdd, linkVel E s qd, linkAcc E s qd qdd,
    force s.link_parents s.linkT (linkForce E s qd qdd),
    inverse_dynamics_ok h.wf h.jointed hqd (hqdd.trans hqd) hn,
    by rw [torques_length, h.count, hqd], linkVel_exists h qd hqd, ?_, ?_, ?_⟩
  · intro i hi
    obtain ⟨h1, h2⟩ := h.wf.topo i hi
    have ha := treeVal_eq h.wf.topo (⟨0, s.gravity⟩ : Motion α)
      (fun i a => transform_motion (s.linkT i) a +
        (jointVel E s qdd i + motion_cross (linkVel E s qd i) (jointVel E s qd i))) i hi
    change linkAcc E s qd qdd i = _ at ha
    unfold jointMotion
    rw [jointVel_zipWith h qd hqd hi, jointVel_zipWith h qdd (hqdd.trans hqd) hi, ha, add_assoc]
    congr 2
    unfold parentVal
    by_cases hp : s.link_parents[i] = -1
    · rw [if_pos hp, if_neg (by omega)]
    · rw [if_neg hp, if_pos (by omega)]
      rfl
  · intro i hi
    rw [force_eq h.wf.topo]
    congr 1
    exact (foldr_children s.link_parents.length
      (fun c => s.link_parents.getD c (-1) = (i : Int)) _).symm
  · intro i hi
    have hi' : i < s.link_parents.length := by rw [← h.wf.types_len]; exact hi
    have hlen := axesAt_length h.wf h.jointed h.widths hi
    have hl : (torques E s qd qdd).length = (s.link_types.map (wOf E.dw)).sum := by
      rw [torques_length, h.count]
    have hol := ownSlice_length hl hi
    apply List.ext_getElem
    · rw [hol, List.length_map, hlen]
    · intro d h1 h2
      simp only [List.length_map] at h2
      have e1 := ownSlice_getD h.wf h.jointed h.widths hi (torques E s qd qdd) h2
      have e2 := torques_get (E := E) (s := s) qd qdd hi' h2
      simp only [List.getD_eq_getElem?_getD, List.getElem?_eq_getElem h1, Option.getD_some] at e1
      rw [e1, List.getElem_map]
      change ((torques E s qd qdd)[dofStart E s i + d]?).getD 0 = _
      rw [e2]
      rfl

/-- C26: the Newton-Euler equations have only one solution for the torques. -/
theorem C26_newton_euler_unique [Field α] {E : JEnv α π} {s : System α π} (h : s.Dynamic E)
    {qd qdd tau1 tau2 : List α} {v1 a1 v2 a2 : Nat → Motion α} {f1 f2 : Nat → Force α}
    (hqd : qd.length = (s.link_types.map (wOf E.dw)).sum)
    (l1 : tau1.length = qd.length) (l2 : tau2.length = qd.length)
    (h1 : s.IsNewtonEuler E qd qdd v1 a1 f1 tau1) (h2 : s.IsNewtonEuler E qd qdd v2 a2 f2 tau2) :
    tau1 = tau2 := by
  have hv : ∀ i, i < s.link_parents.length → v1 i = v2 i := fun i hi =>
    (linkVel_unique h qd hqd h1.vel hi).trans (linkVel_unique h qd hqd h2.vel hi).symm
  have ha : ∀ i, i < s.link_parents.length → a1 i = a2 i := by
    apply tree_induction
    intro i hi ih
    obtain ⟨t1, t2⟩ := h.wf.topo i hi
    rw [h1.acc i hi, h2.acc i hi, hv i hi]
    by_cases hp : s.link_parents[i] = -1
    · rw [if_pos hp, if_pos hp]
    · rw [if_neg hp, if_neg hp, ih s.link_parents[i].toNat (by omega) (by omega)]
  have hf : ∀ m i, s.link_parents.length - i ≤ m → i < s.link_parents.length → f1 i = f2 i := by
    intro m
    induction m with
    | zero => intro i h1 h2; omega
    | succ m ih =>
      intro i hm hi
      rw [h1.force i hi, h2.force i hi, hv i hi, ha i hi]
      congr 1
      have := foldr_children (α := α) s.link_parents.length
        (fun c => s.link_parents.getD c (-1) = (i : Int))
      rw [this, this]
      apply Finset.sum_congr rfl
      intro c hc
      have hc' := Finset.mem_range.1 hc
      split
      · rename_i hpc
        have e : s.link_parents.getD c (-1) = s.link_parents[c] := by simp [hc']
        have := (h.wf.topo c hc').2
        rw [ih c (by omega) hc']
      · rfl
  have e : chunks (s.link_types.map (wOf E.dw)) tau1 = chunks (s.link_types.map (wOf E.dw)) tau2 := by
    apply List.ext_getElem
    · simp
    · intro i g1 g2
      have hi : i < s.link_types.length := by simpa using g1
      have hi' : i < s.link_parents.length := by rw [← h.wf.types_len]; exact hi
      rw [chunks_row, chunks_row, h1.torque i hi, h2.torque i hi, hf _ i le_rfl hi']
  rw [← chunks_flatten _ tau1 (l1.trans hqd), ← chunks_flatten _ tau2 (l2.trans hqd), e]

/-- C27: the quadratic form of the mass matrix is twice the kinetic energy of the links, moving
with the velocities `v` that the joint velocities `u` produce, plus the energy of the armatures;
`kinetic_energy` returns half of it. -/
theorem C27_energy [Field α] {E : JEnv α π} {s : System α π} (h : s.Dynamic E) {u : List α}
    (hu : u.length = (s.link_types.map (wOf E.dw)).sum) {v : Nat → Motion α}
    (hv : s.IsLinkVel E u v) :
    ∃ M T, compute_mass_matrix E s = .ok M ∧ kinetic_energy E s u = .ok T ∧ T = 1 / 2 *
      ∑ r ∈ range u.length, ∑ c ∈ range u.length, u.getD r 0 * M.entry r c * u.getD c 0 ∧
    ∑ r ∈ range u.length, ∑ c ∈ range u.length, u.getD r 0 * M.entry r c * u.getD c 0 =
      ∑ i ∈ range s.link_parents.length,
        motion_dot (v i) (inertia_mul_motion (s.linkI i) (v i)) +
      ∑ r ∈ range u.length, s.link_armature.getD r 0 * u.getD r 0 ^ 2 := by
  obtain ⟨M, hM, hsz, hen⟩ := mass_matrix_entries h
  refine ⟨M, _, hM, by unfold kinetic_energy; rw [hM]; rfl, ?_, ?_⟩
  · rw [hsz, ← hu]
    congr 1
  · have e1 : ∀ r c, r < u.length → c < u.length → u.getD r 0 * M.entry r c * u.getD c 0 =
        u.getD r 0 * massEntry E s r c * u.getD c 0 +
          (if r = c then s.link_armature.getD r 0 * u.getD r 0 ^ 2 else 0) := by
      intro r c hr hc
      rw [hen r c (by omega) (by omega)]
      by_cases hrc : r = c
      · subst hrc; simp only [if_true]; ring
      · simp only [if_neg hrc]; ring
    have e2 : ∑ r ∈ range u.length, ∑ c ∈ range u.length, u.getD r 0 * M.entry r c * u.getD c 0 =
        ∑ r ∈ range u.length, ∑ c ∈ range u.length, u.getD r 0 * massEntry E s r c * u.getD c 0 +
        ∑ r ∈ range u.length, ∑ c ∈ range u.length,
          (if r = c then s.link_armature.getD r 0 * u.getD r 0 ^ 2 else 0) := by
      rw [← Finset.sum_add_distrib]
      apply Finset.sum_congr rfl
      intro r hr
      rw [← Finset.sum_add_distrib]
      apply Finset.sum_congr rfl
      intro c hc
      exact e1 r c (Finset.mem_range.1 hr) (Finset.mem_range.1 hc)
    rw [e2]
    congr 1
    · have := energy_jointVel h.wf h.jointed h.widths u u
      rw [h.count, ← hu] at this
      rw [← this]
      unfold energyForm
      apply Finset.sum_congr rfl
      intro i hi
      rw [linkVel_unique h u hu hv (Finset.mem_range.1 hi)]
      rfl
    · apply Finset.sum_congr rfl
      intro r hr
      rw [Finset.sum_ite_eq, if_pos hr]

/-! ### definiteness -/

section ordered
variable [Field α] [LinearOrder α] [IsStrictOrderedRing α] {E : JEnv α π} {s : System α π}

/-- C27: with physical geometries and armatures that are not negative, the mass matrix is positive
semidefinite. -/
theorem C27_nonneg (h : s.Dynamic E) (hpi : 0 < E.pi) (hp : ∀ g ∈ s.geoms, g.Physical)
    (ha : ∀ x ∈ s.link_armature, 0 ≤ x) (u : List α)
    (hu : u.length = (s.link_types.map (wOf E.dw)).sum) :
    ∃ M, compute_mass_matrix E s = .ok M ∧
      0 ≤ ∑ r ∈ range u.length, ∑ c ∈ range u.length, u.getD r 0 * M.entry r c * u.getD c 0 := by
  obtain ⟨M, T, hM, _, _, e⟩ := C27_energy h hu (linkVel_exists h u hu)
  refine ⟨M, hM, ?_⟩
  rw [e]
  apply add_nonneg
  · apply Finset.sum_nonneg
    intro i hi
    have hi' : i < s.links.length := by rw [h.wf.links_len]; exact Finset.mem_range.1 hi
    rw [linkI_eq hi', h.wf.inertia_ok i hi']
    exact C21_energy_nonneg hpi _ _ (fun g hg _ => hp g hg) _
  · apply Finset.sum_nonneg
    intro r hr
    apply mul_nonneg _ (sq_nonneg _)
    rw [List.getD_eq_getElem?_getD]
    cases hx : s.link_armature[r]? with
    | none => exact le_rfl
    | some x => exact ha x (List.mem_of_getElem? hx)

/-- C27: with positive armatures it is positive definite. -/
theorem C27_pos (h : s.Dynamic E) (hpi : 0 < E.pi) (hp : ∀ g ∈ s.geoms, g.Physical)
    (ha : ∀ x ∈ s.link_armature, 0 < x) (u : List α)
    (hu : u.length = (s.link_types.map (wOf E.dw)).sum) (hne : ∃ x ∈ u, x ≠ 0) :
    ∃ M, compute_mass_matrix E s = .ok M ∧
      0 < ∑ r ∈ range u.length, ∑ c ∈ range u.length, u.getD r 0 * M.entry r c * u.getD c 0 := by
  obtain ⟨M, T, hM, _, _, e⟩ := C27_energy h hu (linkVel_exists h u hu)
  refine ⟨M, hM, ?_⟩
  rw [e]
  apply add_pos_of_nonneg_of_pos
  · apply Finset.sum_nonneg
    intro i hi
    have hi' : i < s.links.length := by rw [h.wf.links_len]; exact Finset.mem_range.1 hi
    rw [linkI_eq hi', h.wf.inertia_ok i hi']
    exact C21_energy_nonneg hpi _ _ (fun g hg _ => hp g hg) _
  · have pos : ∀ r, r < u.length → 0 < s.link_armature.getD r 0 := by
      intro r hr
      have hr' : r < s.link_armature.length := by rw [h.wf.armature_len, ← hu]; exact hr
      rw [List.getD_eq_getElem?_getD, List.getElem?_eq_getElem hr']
      exact ha _ (List.getElem_mem _)
    obtain ⟨x, hx, hx0⟩ := hne
    obtain ⟨r, hr, rfl⟩ := List.mem_iff_getElem.1 hx
    apply Finset.sum_pos'
    · intro r hr
      exact mul_nonneg (pos r (Finset.mem_range.1 hr)).le (sq_nonneg _)
    · refine ⟨r, Finset.mem_range.2 hr, mul_pos (pos r hr) ?_⟩
      rw [List.getD_eq_getElem?_getD, List.getElem?_eq_getElem hr]
      have : (0 : α) < u[r] ^ 2 := by positivity
      simpa using this

end ordered

/-! ### the example system -/

theorem JEnv.Std.motionWidths_builtin {E : JEnv ℝ π} (h : E.Std) (b : jcalc.BuiltIn) :
    E.dw b.name = some (b.model (π := π)).motion.length := by
  rw [h.dw b]
  rcases b with _ | _ | _ | _ | _ | _ | ⟨_ | _ | _⟩ | ⟨_ | _ | _⟩ | _ <;> rfl

theorem stdEnv_widths : stdEnv.MotionWidths := by
  intro t jm h
  simp only [stdEnv, Option.map_eq_some_iff] at h ⊢
  obtain ⟨b, hb, rfl⟩ := h
  refine ⟨b, hb, ?_⟩
  rcases b with _ | _ | _ | _ | _ | _ | ⟨_ | _ | _⟩ | ⟨_ | _ | _⟩ | _ <;> rfl

theorem kinSys_dynamic : kinSys.Dynamic stdEnv where
  wf := kinSys_wf
  jointed := kinSys_jointed
  widths := stdEnv_widths
  unit := by
    intro l hl
    have : ∃ i, l = kinRow i := by
      simp [kinSys] at hl
      rcases hl with rfl | rfl | rfl | rfl <;> exact ⟨_, rfl⟩
    obtain ⟨i, rfl⟩ := this
    simp [kinRow, Transform.zero, Quat.normSq, maths.unitQuat]
  geoms_unit := by
    intro g hg
    simp [kinSys, kinGeoms] at hg
    rcases hg with rfl | rfl <;> simp [Transform.zero, Quat.normSq, maths.unitQuat]

theorem kinSys_physical : ∀ g ∈ kinSys.geoms, g.Physical := by
  intro g hg
  simp [kinSys, kinGeoms] at hg
  rcases hg with rfl | rfl <;>
    simp [Geometry.Physical, Transform.IsUnit, Transform.zero, Quat.IsUnit, Quat.normSq, maths.unitQuat]

example (qd qdd : List ℝ) (h1 : qd.length = 11) (h2 : qdd.length = 11) :
    ∃ M tau tau0, compute_mass_matrix stdEnv kinSys = .ok M ∧ M.size = qd.length ∧
      inverse_dynamics stdEnv kinSys qd qdd = .ok tau ∧ tau.length = qd.length ∧
      inverse_dynamics stdEnv kinSys qd (qd.map fun _ => 0) = .ok tau0 ∧
      tau0.length = qd.length ∧
      ∀ r, r < qd.length → tau.getD r 0 - tau0.getD r 0 = ∑ c ∈ range qd.length,
        (M.entry r c - if r = c then kinSys.link_armature.getD r 0 else 0) * qdd.getD c 0 :=
  C26_torques kinSys_dynamic (by simp [kinSys]) (by rw [kinSys_widths.2, h1]; rfl)
    (h2.trans h1.symm)

example : ∃ M, compute_mass_matrix stdEnv kinSys = .ok M ∧
    0 < ∑ r ∈ range 11, ∑ c ∈ range 11,
      [1, 0, 0, 0, 0, 1, 0, 0, 2, 0, 3].getD r 0 * M.entry r c *
        [1, 0, 0, 0, 0, 1, 0, 0, 2, 0, 3].getD c 0 :=
  C27_pos kinSys_dynamic Real.pi_pos kinSys_physical (by
    intro x hx
    simp [kinSys] at hx
    simp [hx]) [1, 0, 0, 0, 0, 1, 0, 0, 2, 0, 3] (by rw [kinSys_widths.2]; rfl) ⟨1, by simp, by simp⟩

example (qd qdd : List ℝ) (h1 : qd.length = 11) (h2 : qdd.length = 11) :
    ∃ tau v a f, inverse_dynamics stdEnv kinSys qd qdd = .ok tau ∧ tau.length = qd.length ∧
      kinSys.IsNewtonEuler stdEnv qd qdd v a f tau :=
  C26_newton_euler kinSys_dynamic (by simp [kinSys]) (by rw [kinSys_widths.2, h1]; rfl)
    (h2.trans h1.symm)

end RingLib
