import Verif.Props.Consistency
import Verif.Props.SpringBody
import Verif.Spec.Separate

/-!
# C114: trees that are not connected do not influence each other

What happens to one tree of a system does not depend on how the others are built, where they are and what drives them.
-/

namespace RingLib
open maths jcalc algebra Finset _root_.RingLib.System

variable {π' : Type} {E : JEnv ℝ π'} {s s₂ : System ℝ π'} {P : Nat → Prop}

theorem WholeTrees.up {parents : List Int} (h : WholeTrees parents P) : Upward parents P := fun i p e => (h i p e).1

theorem WholeTrees.down {parents : List Int} (h : WholeTrees parents P) : Downward parents P := fun i p e => (h i p e).2

/-! ## forward kinematics -/

theorem AgreeOn.joint_eq (a : AgreeOn E.toEnv P s s₂) {q q₂ : List ℝ} (hq : SameOn E.qw s.link_types P q q₂) {i : Nat}
    (hi : i < s.link_types.length) (hP : P i) : jointT E s₂ q₂ i = jointT E s q i := by
  have e : jointT E s₂ q₂ i = jointT E s q₂ i := by rw [a.rest]; rfl
  rw [e]
  unfold jointT
  rw [hq i hi hP]

theorem AgreeOn.pose (a : AgreeOn E.toEnv P s s₂) (h : s.WF E.toEnv) (hP : Upward s.link_parents P) {q q₂ : List ℝ}
    (hq : SameOn E.qw s.link_types P q q₂) {i : Nat} (hi : i < s.link_parents.length) (hPi : P i) :
    fkPose E s₂ q₂ i = fkPose E s q i := by
  have hp : s₂.link_parents = s.link_parents := by rw [a.rest]
  induction i using Nat.strong_induction_on with
  | _ i ih =>
    obtain ⟨t1, t2⟩ := h.topo i hi
    have e₁ : fkPose E s q i = _ := treeVal_eq h.topo _ _ i hi
    have e₂ : fkPose E s₂ q₂ i = _ := treeVal_eq (by rw [hp]; exact h.topo) _ _ i (by rw [hp]; exact hi)
    have f₁ : treeVal s.link_parents Transform.zero _ = fkPose E s q := rfl
    have f₂ : treeVal s₂.link_parents Transform.zero _ = fkPose E s₂ q₂ := rfl
    rw [f₁] at e₁
    rw [f₂] at e₂
    rw [e₁, e₂, a.joint_eq hq (by rw [h.types_len]; exact hi) hPi, (a.row i hPi).1]
    simp only [hp]
    congr 1
    unfold parentVal
    by_cases h0 : 0 ≤ s.link_parents[i]
    · rw [if_pos h0, if_pos h0]
      refine ih _ (by omega) (by omega) (hP i _ ?_ hPi)
      rw [List.getElem?_eq_getElem hi]
      congr 1
      omega
    · rw [if_neg h0, if_neg h0]

/-! ## dynamics -/

/-- what the algorithms of dynamics see -/
structure DynOn (E : JEnv ℝ π') (P : Nat → Prop) (s s₂ : System ℝ π') : Prop where
  rest : s₂ = { s with
    links := s₂.links, geoms := s₂.geoms, link_damping := s₂.link_damping, link_armature := s₂.link_armature
    link_spring_stiffness := s₂.link_spring_stiffness, link_spring_zeropoint := s₂.link_spring_zeropoint }
  inertia : ∀ i, P i → s₂.linkI i = s.linkI i
  trans : ∀ i, i < s.link_parents.length → P i → s₂.linkT i = s.linkT i
  damping : SameOn E.dw s.link_types P s.link_damping s₂.link_damping
  armature : SameOn E.dw s.link_types P s.link_armature s₂.link_armature
  stiffness : SameOn E.dw s.link_types P s.link_spring_stiffness s₂.link_spring_stiffness
  zeropoint : SameOn E.qw s.link_types P s.link_spring_zeropoint s₂.link_spring_zeropoint

theorem AgreeOn.dynOn (a : AgreeOn E.toEnv P s s₂) (h : s.WF E.toEnv) {q q₂ : List ℝ}
    (hq : SameOn E.qw s.link_types P q q₂) : DynOn E P (filled E s q) (filled E s₂ q₂) where
  rest := by
    conv_lhs => unfold RingLib.filled
    rw [a.rest]
    rfl
  inertia := by
    intro i hPi
    have := (a.row i hPi).2
    unfold linkI filled
    simp only [List.getElem?_mapIdx]
    cases h1 : s.links[i]? <;> cases h2 : s₂.links[i]? <;> simp [h1, h2] at this ⊢
    exact this
  trans := by
    intro i hi hPi
    have := (a.row i hPi).1
    have hj := a.joint_eq hq (by rw [h.types_len]; exact hi) hPi
    unfold linkT filled
    simp only [List.getElem?_mapIdx]
    cases h1 : s.links[i]? <;> cases h2 : s₂.links[i]? <;> simp [h1, h2] at this ⊢
    rw [this, hj]
  damping := a.damping
  armature := a.armature
  stiffness := a.stiffness
  zeropoint := a.zeropoint

section
variable (d : DynOn E P s s₂)
include d

theorem DynOn.parents : s₂.link_parents = s.link_parents := by rw [d.rest]

theorem DynOn.types : s₂.link_types = s.link_types := by rw [d.rest]

theorem DynOn.axes (i : Nat) : s₂.axesAt E i = s.axesAt E i := by rw [d.rest]; rfl

theorem DynOn.jointVel_eq {u u₂ : List ℝ} (hu : SameOn E.dw s.link_types P u u₂) {i : Nat}
    (hi : i < s.link_types.length) (hPi : P i) : jointVel E s₂ u₂ i = jointVel E s u i := by
  have e : jointVel E s₂ u₂ i = jointVel E s u₂ i := by rw [d.rest]; rfl
  rw [e]
  unfold jointVel
  rw [hu i hi hPi]

omit d in
theorem parent_in (hP : Upward s.link_parents P) {i : Nat} (hi : i < s.link_parents.length) (hPi : P i)
    (h0 : 0 ≤ s.link_parents[i]) : P s.link_parents[i].toNat := by
  refine hP i _ ?_ hPi
  rw [List.getElem?_eq_getElem hi]
  congr 1
  omega

theorem DynOn.vel_eq (ht : Topological s.link_parents) (hP : Upward s.link_parents P) {g g₂ : Nat → Motion ℝ}
    (hg : ∀ i, i < s.link_parents.length → P i → g₂ i = g i) (i : Nat) (hi : i < s.link_parents.length) (hPi : P i) :
    vel s₂.link_parents s₂.linkT g₂ i = vel s.link_parents s.linkT g i := by
  rw [d.parents]
  induction i using Nat.strong_induction_on with
  | _ i ih =>
    have t2 := (ht i hi).2
    rw [RingLib.vel_eq ht g₂ hi, RingLib.vel_eq ht g hi, d.trans i hi hPi, hg i hi hPi]
    congr 2
    unfold parentVal
    by_cases h0 : 0 ≤ s.link_parents[i]
    · rw [if_pos h0, if_pos h0, ih _ (by omega) (by omega) (parent_in hP hi hPi h0)]
    · rw [if_neg h0, if_neg h0]

theorem DynOn.linkVel_eq (h : s.WF E.toEnv) (hP : Upward s.link_parents P) {u u₂ : List ℝ}
    (hu : SameOn E.dw s.link_types P u u₂) (i : Nat) (hi : i < s.link_parents.length) (hPi : P i) :
    linkVel E s₂ u₂ i = linkVel E s u i := by
  unfold linkVel
  exact d.vel_eq h.topo hP (fun i hi hPi => d.jointVel_eq hu (by rw [h.types_len]; exact hi) hPi) i hi hPi

theorem DynOn.linkAcc_eq (h : s.WF E.toEnv) (hP : Upward s.link_parents P) {u u₂ w w₂ : List ℝ}
    (hu : SameOn E.dw s.link_types P u u₂) (hw : SameOn E.dw s.link_types P w w₂) (i : Nat)
    (hi : i < s.link_parents.length) (hPi : P i) : linkAcc E s₂ u₂ w₂ i = linkAcc E s u w i := by
  have ht := h.topo
  have hg : s₂.gravity = s.gravity := by rw [d.rest]
  induction i using Nat.strong_induction_on with
  | _ i ih =>
    have t2 := (ht i hi).2
    have hi' : i < s.link_types.length := by rw [h.types_len]; exact hi
    have e₁ : linkAcc E s u w i = _ := treeVal_eq ht _ _ i hi
    have e₂ : linkAcc E s₂ u₂ w₂ i = _ :=
      treeVal_eq (by rw [d.parents]; exact ht) _ _ i (by rw [d.parents]; exact hi)
    have f₁ : treeVal s.link_parents _ _ = linkAcc E s u w := rfl
    have f₂ : treeVal s₂.link_parents _ _ = linkAcc E s₂ u₂ w₂ := rfl
    rw [f₁] at e₁
    rw [f₂] at e₂
    rw [e₁, e₂]
    simp only [d.jointVel_eq hu hi' hPi, d.jointVel_eq hw hi' hPi, d.linkVel_eq h hP hu i hi hPi, d.parents,
      d.trans i hi hPi, hg]
    congr 2
    unfold parentVal
    by_cases h0 : 0 ≤ s.link_parents[i]
    · rw [if_pos h0, if_pos h0, ih _ (by omega) (by omega) (parent_in hP hi hPi h0)]
    · rw [if_neg h0, if_neg h0]

theorem DynOn.linkForce_eq (h : s.WF E.toEnv) (hP : Upward s.link_parents P) {u u₂ w w₂ : List ℝ}
    (hu : SameOn E.dw s.link_types P u u₂) (hw : SameOn E.dw s.link_types P w w₂) (i : Nat)
    (hi : i < s.link_parents.length) (hPi : P i) : linkForce E s₂ u₂ w₂ i = linkForce E s u w i := by
  unfold linkForce
  rw [d.inertia i hPi, d.linkAcc_eq h hP hu hw i hi hPi, d.linkVel_eq h hP hu i hi hPi]

theorem DynOn.force_eq (ht : Topological s.link_parents) {Q : Nat → Prop}
    (hQ : Downward s.link_parents Q) (hQP : ∀ i, Q i → P i) {f f₂ : Nat → Force ℝ}
    (hf : ∀ i, i < s.link_parents.length → Q i → f₂ i = f i) (i : Nat) (hi : i < s.link_parents.length) (hPi : Q i) :
    force s₂.link_parents s₂.linkT f₂ i = force s.link_parents s.linkT f i := by
  rw [d.parents]
  unfold force
  generalize hk : s.link_parents.length - i = k
  induction k using Nat.strong_induction_on generalizing i with
  | _ k ih =>
    rw [accum_eq ht, accum_eq ht, hf i hi hPi]
    congr 1
    apply Finset.sum_congr rfl
    intro c hc
    rw [Finset.mem_range] at hc
    split
    · rename_i hp
      have hd : s.link_parents.getD c (-1) = s.link_parents[c] := by simp [hc]
      rw [hd] at hp
      have t2 := (ht c hc).2
      have hPc : Q c := hQ c i (by rw [List.getElem?_eq_getElem hc, hp]) hPi
      rw [d.trans c hc (hQP c hPc), ih (s.link_parents.length - c) (by omega) c hc hPc rfl]
    · rfl

omit d in
/-- the entries of the two vectors for the degrees of freedom of `P` -/
theorem entry_on (h : s.Dynamic E) {u u₂ : List ℝ} (hu : SameOn E.dw s.link_types P u u₂) {r : Nat}
    (hr : r < dofCount E s) (hP : P (dofLink E s r)) : u₂.getD r 0 = u.getD r 0 := by
  obtain ⟨i, a, hi, ha, rfl⟩ := dof_cases hr
  rw [dofLink_eq hi ha] at hP
  have hi' : i < s.link_types.length := by rw [h.wf.types_len]; exact hi
  have e1 := ownSlice_getD h.wf h.jointed h.widths hi' u ha
  have e2 := ownSlice_getD h.wf h.jointed h.widths hi' u₂ ha
  rw [hu i hi' hP, e1] at e2
  exact e2.symm

theorem DynOn.torques_eq (h : s.Dynamic E) (hP : Upward s.link_parents P) {Q : Nat → Prop}
    (hQ : Downward s.link_parents Q) (hQP : ∀ i, Q i → P i) {u u₂ w w₂ : List ℝ}
    (hu : SameOn E.dw s.link_types P u u₂) (hw : SameOn E.dw s.link_types P w w₂) {r : Nat}
    (hr : r < dofCount E s) (hPr : Q (dofLink E s r)) :
    (torques E s₂ u₂ w₂).getD r 0 = (torques E s u w).getD r 0 := by
  obtain ⟨i, a, hi, ha, rfl⟩ := dof_cases hr
  rw [dofLink_eq hi ha] at hPr
  have e : dofStart E s i = dofStart E s₂ i := by rw [d.rest]; rfl
  have hi₂ : i < s₂.link_parents.length := by rw [d.parents]; exact hi
  have ha₂ : a < (s₂.axesAt E i).length := by rw [d.axes]; exact ha
  have t₁ := torques_get u w hi ha
  have t₂ := torques_get u₂ w₂ hi₂ ha₂
  rw [← e] at t₂
  rw [List.getD_eq_getElem?_getD, List.getD_eq_getElem?_getD, t₁, t₂]
  simp only [Option.getD_some]
  rw [d.force_eq h.wf.topo hQ hQP (fun i hi hQi => d.linkForce_eq h.wf hP hu hw i hi (hQP i hQi)) i hi hPr]
  congr 1
  simp only [d.axes]

omit d in
/-- the motion of a joint moves only the links of its tree -/
theorem vel_outside (ht : Topological s.link_parents) (hP : Upward s.link_parents P) {g : Nat → Motion ℝ}
    (hg : ∀ i, i < s.link_parents.length → P i → g i = 0) (i : Nat) (hi : i < s.link_parents.length) (hPi : P i) :
    vel s.link_parents s.linkT g i = 0 := by
  induction i using Nat.strong_induction_on with
  | _ i ih =>
    have t2 := (ht i hi).2
    rw [RingLib.vel_eq ht g hi, hg i hi hPi]
    unfold parentVal
    by_cases h0 : 0 ≤ s.link_parents[i]
    · rw [if_pos h0, ih _ (by omega) (by omega), transform_motion_zero', add_zero]
      refine hP i _ ?_ hPi
      rw [List.getElem?_eq_getElem hi]
      congr 1
      omega
    · rw [if_neg h0, transform_motion_zero', add_zero]

omit d in
theorem motion_dot_zero_left (f : Force ℝ) : motion_dot 0 f = 0 := by
  simp [motion_dot, Vec3.dot]

omit d in
theorem motion_dot_zero_right (m : Motion ℝ) : motion_dot m 0 = 0 := by
  simp [motion_dot, Vec3.dot]

omit d in
/-- the mass matrix does not couple the trees -/
theorem massEntry_cross (ht : Topological s.link_parents) (hP : WholeTrees s.link_parents P) {r c : Nat}
    (hr : P (dofLink E s r)) (hc : ¬ P (dofLink E s c)) : massEntry E s r c = 0 ∧ massEntry E s c r = 0 := by
  have hPc : WholeTrees s.link_parents (fun i => ¬ P i) := fun i p e => not_congr (hP i p e)
  have v1 : ∀ k, k < s.link_parents.length → ¬ P k → vel s.link_parents s.linkT (dofMotion E s r) k = 0 := by
    refine vel_outside ht hPc.up fun i _ hi => ?_
    unfold dofMotion single
    rw [if_neg]
    rintro rfl
    exact hi hr
  have v2 : ∀ k, k < s.link_parents.length → P k → vel s.link_parents s.linkT (dofMotion E s c) k = 0 := by
    refine vel_outside ht hP.up fun i _ hi => ?_
    unfold dofMotion single
    rw [if_neg]
    rintro rfl
    exact hc hi
  unfold massEntry energyForm
  constructor <;>
  · apply Finset.sum_eq_zero
    intro k hk
    rw [Finset.mem_range] at hk
    by_cases hPk : P k
    · rw [v2 k hk hPk]
      simp [motion_dot_zero_left, motion_dot_zero_right, inertia_mul_zero]
    · rw [v1 k hk hPk]
      simp [motion_dot_zero_left, motion_dot_zero_right, inertia_mul_zero]

theorem DynOn.massEntry_eq (ht : Topological s.link_parents) (hP : WholeTrees s.link_parents P) {r c : Nat}
    (hr : P (dofLink E s r)) : massEntry E s₂ r c = massEntry E s r c := by
  have hd : ∀ c, dofMotion E s₂ c = dofMotion E s c := by
    intro c
    rw [d.rest]
    rfl
  unfold massEntry energyForm
  rw [hd, hd, d.parents]
  apply Finset.sum_congr rfl
  intro k hk
  rw [Finset.mem_range] at hk
  by_cases hPk : P k
  · have h1 := d.vel_eq ht hP.up (g := dofMotion E s r) (g₂ := dofMotion E s r) (fun _ _ _ => rfl) k hk hPk
    have h2 := d.vel_eq ht hP.up (g := dofMotion E s c) (g₂ := dofMotion E s c) (fun _ _ _ => rfl) k hk hPk
    rw [d.parents] at h1 h2
    rw [h1, h2, d.inertia k hPk]
  · have hPc : WholeTrees s.link_parents (fun i => ¬ P i) := fun i p e => not_congr (hP i p e)
    have z : ∀ c, P (dofLink E s c) → ∀ i, i < s.link_parents.length → ¬ P i → dofMotion E s c i = 0 := by
      intro c hc i _ hi
      unfold dofMotion single
      rw [if_neg]
      rintro rfl
      exact hi hc
    have v1 := vel_outside ht hPc.up (z r hr) k hk hPk
    have v2 := vel_outside (s := s₂) (by rw [d.parents]; exact ht) (by rw [d.parents]; exact hPc.up)
      (by rw [d.parents]; exact z r hr) k (by rw [d.parents]; exact hk) hPk
    rw [d.parents] at v2
    rw [v1, v2, motion_dot_zero_left, motion_dot_zero_left]
end

/-! ## one step -/

theorem entries_of_same {w : String → Option Nat} {types : List String} {a b : List ℝ} (h : SameOn w types P a b)
    {i : Nat} (hi : i < types.length) (hP : P i) (k : Nat) :
    (ownSlice w types b i).getD k 0 = (ownSlice w types a i).getD k 0 := by rw [h i hi hP]

/-- the part of the spring forces that belongs to a link -/
theorem spring_slice (hE : E.Std) (h : s.WF E.toEnv) (hb : s.JointsIn fun _ => True) (hn : 0 < s.link_parents.length)
    {q f : List ℝ} (hq : q.length = (s.link_types.map (wOf E.qw)).sum) (hf : _spring_force E s q = .ok f) {i : Nat}
    (hi : i < s.link_types.length) :
    ownSlice E.dw s.link_types f i = _calc_spring_force_per_link (ownSlice E.qw s.link_types q i,
      ownSlice E.qw s.link_types s.link_spring_zeropoint i, s.link_types[i]) := by
  unfold _spring_force at hf
  rw [scan_pure h.known h.types_len _ (arg := (argQ q).and <|
    (argQ s.link_spring_zeropoint).and (argL s.link_types)) (by
      intro x hx
      simp only [ScanArg.and, argQ, argL, List.mem_append, List.mem_singleton] at hx
      rcases hx with rfl | rfl | rfl
      · exact hq
      · exact h.zeropoint_len
      · exact h.types_len)
    (rows_and (rows_argQ rfl q) (rows_and (rows_argQ rfl _) (rows_argL _ _)))
    (by simp [h.types_len])] at hf
  simp only [ok_bind] at hf
  rw [jnpConcatenate_ok (by simp [h.types_len]; exact hn)] at hf
  have hf := (Except.ok.injEq _ _).mp hf
  subst hf
  set pieces := List.map _calc_spring_force_per_link _ with hpieces
  have hfl : pieces.flatten.length = (s.link_types.map (wOf E.dw)).sum ∧ pieces.map List.length = s.link_types.map (wOf E.dw) := by
    apply flatten_lengths (by simp [hpieces])
    intro i h1 h2
    have hi : i < s.link_types.length := by simpa using h2
    simp only [hpieces, List.getElem_map, List.getElem_zip, chunks_row]
    obtain ⟨b, _, hbn⟩ := hb s.link_types[i] (List.getElem_mem _)
    have l1 := ownSlice_length hq hi
    have l2 := ownSlice_length h.zeropoint_len hi
    rw [hbn] at l1 l2 ⊢
    rw [(wOf_builtin hE b).1] at l1 l2
    rw [spring_length l1 l2, (wOf_builtin hE b).2]
  have e := ownSlice_eq E.dw s.link_types pieces.flatten i hi
  rw [← hfl.2, chunks_of_flatten] at e
  have hl : i < pieces.length := by simp [hpieces, hi]
  rw [List.getElem?_eq_getElem hl] at e
  have e := Option.some.inj e
  rw [← e]
  simp only [hpieces, List.getElem_map, List.getElem_zip, chunks_row]

/-- What is needed for an invertible system of equations: bodies with a mass, no negative damping or armature, the exact
inverse. -/
structure Solvable (E : JEnv ℝ π') (s : System ℝ π') : Prop where
  pi : 0 < E.pi
  physical : ∀ g ∈ s.geoms, g.Physical
  armature : ∀ x ∈ s.link_armature, 0 ≤ x
  damping : ∀ x ∈ s.link_damping, 0 ≤ x
  exact_inverse : s.mass_mat_iters = 0

/-- the accelerations solve the equations of motion -/
theorem forward_solves (hE : E.Std) (h : s.Dynamic E) (hb : s.JointsIn fun _ => True) (hn : 0 < s.link_parents.length)
    (hs : Solvable E s) (hdt : 0 ≤ s.dt) {q u tau : List ℝ} (hq : q.length = (s.link_types.map (wOf E.qw)).sum)
    (hu : u.length = (s.link_types.map (wOf E.dw)).sum) (htau : tau.length = u.length) :
    ∃ w spring, forward_dynamics E s q u tau = .ok w ∧ w.length = u.length ∧ _spring_force E s q = .ok spring ∧
      ∀ r, r < dofCount E s → ∑ c ∈ range (dofCount E s), massEntry E s r c * w.getD c 0 +
        (s.link_armature.getD r 0 + s.link_damping.getD r 0 * s.dt + 1e-6) * w.getD r 0 =
        tau.getD r 0 - (torques E s u (List.replicate u.length 0)).getD r 0 -
          s.link_damping.getD r 0 * u.getD r 0 + s.link_spring_stiffness.getD r 0 * spring.getD r 0 := by
  obtain ⟨w, T, spring, h1, l1, h2, _, h3, _, h4⟩ := C27_forward_dynamics hE h hb hn hs.pi hs.physical hs.armature
    hs.damping hdt hs.exact_inverse hq hu htau
  refine ⟨w, spring, h1, l1, h3, fun r hr => ?_⟩
  rw [inverse_dynamics_ok h.wf h.jointed hu (l1.trans hu) hn] at h2
  have h2 := (Except.ok.injEq _ _).mp h2
  subst h2
  have hr' : r < u.length := by
    rw [hu, ← h.count]
    exact hr
  have e := h4 r hr'
  rw [torques_affine h.wf h.jointed h.widths h.unitT u w u.length hr] at e
  linarith

/-- The accelerations of the joints of `P` do not depend on what is elsewhere. -/
theorem DynOn.forward_eq (d : DynOn E P s s₂) (hE : E.Std) (hP : WholeTrees s.link_parents P) (h : s.Dynamic E)
    (h₂ : s₂.Dynamic E) (hb : s.JointsIn fun _ => True) (hb₂ : s₂.JointsIn fun _ => True)
    (hn : 0 < s.link_parents.length) (hs : Solvable E s) (hs₂ : Solvable E s₂) (hdt : 0 ≤ s.dt)
    {q u tau q₂ u₂ tau₂ : List ℝ} (hq : q.length = (s.link_types.map (wOf E.qw)).sum)
    (hu : u.length = (s.link_types.map (wOf E.dw)).sum) (htau : tau.length = u.length)
    (lq : q₂.length = q.length) (lu : u₂.length = u.length) (lt : tau₂.length = tau.length)
    (eq : SameOn E.qw s.link_types P q q₂) (eu : SameOn E.dw s.link_types P u u₂)
    (et : SameOn E.dw s.link_types P tau tau₂) :
    ∃ w w₂, forward_dynamics E s q u tau = .ok w ∧ forward_dynamics E s₂ q₂ u₂ tau₂ = .ok w₂ ∧ w.length = u.length ∧
      w₂.length = u.length ∧ ∀ r, r < dofCount E s → P (dofLink E s r) → w₂.getD r 0 = w.getD r 0 := by
  classical
  have hty := d.types
  have hdt₂ : s₂.dt = s.dt := by rw [d.rest]
  have hn₂ : 0 < s₂.link_parents.length := by rw [d.parents]; exact hn
  have hcount : dofCount E s₂ = dofCount E s := by rw [d.rest]; rfl
  obtain ⟨w, f, h1, l1, g1, e1⟩ := forward_solves hE h hb hn hs hdt hq hu htau
  obtain ⟨w₂, f₂, h2, l2, g2, e2⟩ := forward_solves hE h₂ hb₂ hn₂ hs₂ (by rw [hdt₂]; exact hdt) (q := q₂) (u := u₂)
    (tau := tau₂) (by rw [hty, lq]; exact hq) (by rw [hty, lu]; exact hu) (by omega)
  refine ⟨w, w₂, h1, h2, l1, l2.trans lu, ?_⟩
  have hsp : SameOn E.dw s.link_types P f f₂ := by
    intro i hi hPi
    rw [spring_slice hE h.wf hb hn hq g1 hi]
    have := spring_slice hE h₂.wf hb₂ hn₂ (by rw [hty, lq]; exact hq) g2 (i := i) (by rw [hty]; exact hi)
    simp only [hty] at this
    rw [this, eq i hi hPi, d.zeropoint i hi hPi]
  have hz : SameOn E.dw s.link_types P (List.replicate u.length (0 : ℝ)) (List.replicate u₂.length 0) := by
    rw [lu]
    intro _ _ _
    rfl
  set n := dofCount E s with hndef
  set y : Nat → ℝ := fun c => if P (dofLink E s c) then w.getD c 0 - w₂.getD c 0 else 0 with hy
  have row : ∀ r, r < n → y r * (∑ c ∈ range n, massEntry E s r c * y c +
      (s.link_armature.getD r 0 + s.link_damping.getD r 0 * s.dt + 1e-6) * y r) = 0 := by
    intro r hr
    by_cases hPr : P (dofLink E s r)
    · have a1 := e1 r hr
      have a2 := e2 r (by rw [hcount]; exact hr)
      rw [hcount, d.torques_eq h hP.up hP.down (fun _ h => h) eu hz hr hPr, entry_on h et hr hPr, entry_on h eu hr hPr,
        entry_on h d.damping hr hPr, entry_on h d.armature hr hPr, entry_on h d.stiffness hr hPr,
        entry_on h hsp hr hPr, hdt₂] at a2
      have c1 : ∀ c ∈ range n, massEntry E s r c * y c = massEntry E s r c * w.getD c 0 -
          massEntry E s₂ r c * w₂.getD c 0 := by
        intro c _
        rw [d.massEntry_eq h.wf.topo hP hPr]
        by_cases hPc : P (dofLink E s c)
        · simp only [hy, if_pos hPc]
          ring
        · rw [(massEntry_cross h.wf.topo hP hPr hPc).1]
          ring
      rw [Finset.sum_congr rfl c1, Finset.sum_sub_distrib]
      have : y r = w.getD r 0 - w₂.getD r 0 := by simp only [hy, if_pos hPr]
      rw [this]
      linear_combination (w.getD r 0 - w₂.getD r 0) * (a1 - a2)
    · have : y r = 0 := by simp only [hy, if_neg hPr]
      rw [this, zero_mul]
  -- the quadratic form
  obtain ⟨M, hM, hsz, hen⟩ := mass_matrix_entries h
  obtain ⟨M', hM', hnn⟩ := C27_nonneg h hs.pi hs.physical hs.armature ((List.range n).map y)
    (by rw [List.length_map, List.length_range, hndef]; exact h.count)
  rw [hM] at hM'
  cases hM'
  have hnM : M.size = n := by rw [hsz, hndef]; exact h.count.symm
  rw [List.length_map, List.length_range] at hnn
  have gy : ∀ c, c < n → ((List.range n).map y).getD c 0 = y c := by
    intro c hc
    simp [List.getD_eq_getElem?_getD, hc]
  have e : ∀ r ∈ range n, ∑ c ∈ range n, ((List.range n).map y).getD r 0 * M.entry r c * ((List.range n).map y).getD c 0 =
      - ((s.link_damping.getD r 0 * s.dt + 1e-6) * y r ^ 2) := by
    intro r hr
    rw [Finset.mem_range] at hr
    have e1 : ∀ c ∈ range n, ((List.range n).map y).getD r 0 * M.entry r c * ((List.range n).map y).getD c 0 =
        y r * (massEntry E s r c * y c) + if r = c then s.link_armature.getD r 0 * y r ^ 2 else 0 := by
      intro c hc
      rw [Finset.mem_range] at hc
      rw [gy r hr, gy c hc, hen r c (by omega) (by omega)]
      split
      · rename_i hrc
        subst hrc
        ring
      · ring
    rw [Finset.sum_congr rfl e1, Finset.sum_add_distrib, Finset.sum_ite_eq, if_pos (Finset.mem_range.2 hr),
      ← Finset.mul_sum]
    linear_combination row r hr
  rw [Finset.sum_congr rfl e, Finset.sum_neg_distrib] at hnn
  have pos : ∀ r, 0 < s.link_damping.getD r 0 * s.dt + 1e-6 := by
    intro r
    have := mul_nonneg (getD_nonneg hs.damping r) hdt
    have h2 : (0 : ℝ) < 1e-6 := by norm_num
    linarith
  have zero : ∑ r ∈ range n, (s.link_damping.getD r 0 * s.dt + 1e-6) * y r ^ 2 = 0 :=
    le_antisymm (by linarith) (Finset.sum_nonneg fun r _ => mul_nonneg (pos r).le (sq_nonneg _))
  intro r hr hPr
  have := (Finset.sum_eq_zero_iff_of_nonneg fun r _ => mul_nonneg (pos r).le (sq_nonneg (y r))).1 zero r
    (Finset.mem_range.2 hr)
  rcases mul_eq_zero.1 this with h0 | h0
  · exact absurd h0 (pos r).ne'
  · have hy0 : y r = 0 := by simpa using h0
    simp only [hy, if_pos hPr] at hy0
    linarith

theorem linkStep_unique {t : String} {dt : ℝ} {q d a b : List ℝ} (ha : LinkStep t dt q d a) (hb : LinkStep t dt q d b)
    (la : a.length = q.length) (lb : b.length = q.length) : a = b := by
  apply List.ext_getElem (by omega)
  intro k h1 h2
  have e : ∀ (l : List ℝ) (hk : k < l.length), l[k] = l.getD k 0 := fun l hk => by
    simp [List.getD_eq_getElem?_getD, hk]
  unfold LinkStep at ha hb
  split at ha
  · rename_i hq
    rw [if_pos hq] at hb
    by_cases hk : k < 4
    · have : a.take 4 = b.take 4 := by rw [ha.1, hb.1]
      have := congrArg (fun l => l[k]?) this
      simp only [List.getElem?_take_of_lt hk, List.getElem?_eq_getElem h1, List.getElem?_eq_getElem h2] at this
      exact Option.some.inj this
    · obtain ⟨j, rfl⟩ : ∃ j, k = 4 + j := ⟨k - 4, by omega⟩
      rw [e a h1, e b h2, ha.2 j (by omega), hb.2 j (by omega)]
  · rename_i hq
    rw [if_neg hq] at hb
    rw [e a h1, e b h2, ha k (by omega), hb k (by omega)]

theorem euler_x {st st' : State ℝ} {tau : List ℝ} (h : _semi_implicit_euler_integration E s st tau = .ok st') :
    st'.x = st.x := by
  unfold _semi_implicit_euler_integration at h
  cases hfd : forward_dynamics E s st.q st.qd tau with
  | error e => simp [hfd, bind, Except.bind] at h
  | ok a =>
    simp only [hfd, ok_bind] at h
    revert h
    cases s.scan E.toEnv (fun _ _ a => pure (q_integrate s.dt a))
      ((argQ st.q).and <| (argD (ladd st.qd (a.map fun x => s.dt * x))).and (argL s.link_types)) with
    | error e => intro h; simp [bind, Except.bind] at h
    | ok ps =>
      simp only [ok_bind]
      cases jnpConcatenate ps with
      | error e => intro h; simp [bind, Except.bind] at h
      | ok q' =>
        intro h
        have := (Except.ok.injEq _ _).mp h
        rw [← this]

/-- vectors with the same entries for the degrees of freedom of `P` -/
theorem same_of_entries (h : s.Dynamic E) {u u₂ : List ℝ} (hu : u.length = (s.link_types.map (wOf E.dw)).sum)
    (hl : u₂.length = u.length)
    (e : ∀ r, r < dofCount E s → P (dofLink E s r) → u₂.getD r 0 = u.getD r 0) : SameOn E.dw s.link_types P u u₂ := by
  intro i hi hPi
  have hi' : i < s.link_parents.length := by rw [← h.wf.types_len]; exact hi
  have l1 := ownSlice_length hu hi
  have l2 := ownSlice_length (hl.trans hu) hi
  have la := axesAt_length h.wf h.jointed h.widths hi
  apply List.ext_getElem (by omega)
  intro k h1 h2
  have hk : k < (s.axesAt E i).length := by
    rw [la]
    omega
  have e1 := ownSlice_getD h.wf h.jointed h.widths hi u hk
  have e2 := ownSlice_getD h.wf h.jointed h.widths hi u₂ hk
  have hr : dofStart E s i + k < dofCount E s := by
    have := offs_mono (fun k => (s.axesAt E k).length) (show i + 1 ≤ s.link_parents.length by omega)
    rw [offs_succ] at this
    unfold dofCount dofStart
    omega
  have := e (dofStart E s i + k) hr (by rw [dofLink_eq hi' hk]; exact hPi)
  have g : ∀ (l : List ℝ) (hk : k < l.length), l[k] = l.getD k 0 := fun l hk => by
    simp [List.getD_eq_getElem?_getD, hk]
  rw [g _ h1, g _ h2, e1, e2]
  exact this

/-- one step of the integration -/
theorem DynOn.euler_eq (d : DynOn E P s s₂) (hE : E.Std) (hP : WholeTrees s.link_parents P) (h : s.Dynamic E)
    (h₂ : s₂.Dynamic E) (hb : s.JointsIn fun _ => True) (hb₂ : s₂.JointsIn fun _ => True)
    (hn : 0 < s.link_parents.length) (hs : Solvable E s) (hs₂ : Solvable E s₂) (hdt : 0 ≤ s.dt) (hdt' : s.dt < 1e8)
    {st st₂ : State ℝ} {tau tau₂ : List ℝ} (hq : st.q.length = (s.link_types.map (wOf E.qw)).sum)
    (hu : st.qd.length = (s.link_types.map (wOf E.dw)).sum) (htau : tau.length = st.qd.length)
    (lq : st₂.q.length = st.q.length) (lu : st₂.qd.length = st.qd.length) (lt : tau₂.length = tau.length)
    (hU : s.UnitQ E st.q) (hU₂ : s.UnitQ E st₂.q) (ea : State.AgreeOn E.toEnv s.link_types P st st₂)
    (et : SameOn E.dw s.link_types P tau tau₂) :
    ∃ z z₂, _semi_implicit_euler_integration E s st tau = .ok z ∧
      _semi_implicit_euler_integration E s₂ st₂ tau₂ = .ok z₂ ∧ State.AgreeOn E.toEnv s.link_types P z z₂ ∧
      z.q.length = st.q.length ∧ z₂.q.length = st.q.length ∧ z.qd.length = st.qd.length ∧
      z₂.qd.length = st.qd.length ∧ s.UnitQ E z.q ∧ s.UnitQ E z₂.q := by
  have hty := d.types
  have hdt₂ : s₂.dt = s.dt := by rw [d.rest]
  have hn₂ : 0 < s₂.link_parents.length := by rw [d.parents]; exact hn
  have hUi : ∀ q, s₂.UnitQ E q ↔ s.UnitQ E q := by
    intro q
    rw [d.rest]
    rfl
  have habs : |s.dt| < 1e8 := by rw [abs_of_nonneg hdt]; exact hdt'
  obtain ⟨w, z, a1, _, a2, a3, a4, a5, a6, a7⟩ := C28_semi_implicit hE h hb hn hq hu htau hU habs
  obtain ⟨w₂, z₂, b1, _, b2, b3, b4, b5, b6, b7⟩ := C28_semi_implicit hE h₂ hb₂ hn₂ (st := st₂) (tau := tau₂)
    (by rw [hty, lq]; exact hq) (by rw [hty, lu]; exact hu) (by omega) ((hUi _).2 hU₂) (by rw [hdt₂]; exact habs)
  obtain ⟨w', w₂', c1, c2, _, _, c3⟩ := d.forward_eq hE hP h h₂ hb hb₂ hn hs hs₂ hdt hq hu htau lq lu lt ea.q ea.qd et
  obtain rfl : w = w' := by rw [a1] at c1; exact (Except.ok.injEq _ _).mp c1
  obtain rfl : w₂ = w₂' := by rw [b1] at c2; exact (Except.ok.injEq _ _).mp c2
  have hqd : SameOn E.dw s.link_types P z.qd z₂.qd := by
    refine same_of_entries h (a4.trans hu) (by omega) fun r hr hPr => ?_
    have hr' : r < st.qd.length := by
      rw [hu, ← h.count]
      exact hr
    rw [a6 r hr', b6 r (by omega), c3 r hr hPr, entry_on h ea.qd hr hPr, hdt₂]
  refine ⟨z, z₂, a2, b2, ⟨?_, hqd, ?_⟩, a3, b3.trans lq, a4, b4.trans lu, a5, (hUi _).1 b5⟩
  · intro i hi hPi
    have k1 := (a7 i hi).1
    have k2 := (b7 i (by rw [hty]; exact hi)).1
    simp only [hty, hdt₂] at k2
    rw [hqd i hi hPi, ea.q i hi hPi] at k2
    refine linkStep_unique k2 k1 ?_ ?_
    · rw [ownSlice_length (b3.trans (lq.trans hq)) hi, ownSlice_length hq hi]
    · rw [ownSlice_length (a3.trans hq) hi, ownSlice_length hq hi]
  · intro i hPi
    rw [euler_x a2, euler_x b2]
    exact ea.x i hPi

/-- any number of substeps -/
theorem AgreeOn.step_loop_eq (hE : E.Std) {tau tau₂ : List ℝ} (n : Nat) : ∀ {s s₂ : System ℝ π'},
    AgreeOn E.toEnv P s s₂ → WholeTrees s.link_parents P → s.Simulable E → s₂.Simulable E → Solvable E s →
    Solvable E s₂ → 0 ≤ s.dt → s.dt < 1e8 → ∀ {st st₂ : State ℝ},
    st.q.length = (s.link_types.map (wOf E.qw)).sum → st.qd.length = (s.link_types.map (wOf E.dw)).sum →
    tau.length = st.qd.length → st₂.q.length = st.q.length → st₂.qd.length = st.qd.length →
    tau₂.length = tau.length → s.UnitQ E st.q → s.UnitQ E st₂.q → SameOn E.qw s.link_types P st.q st₂.q →
    SameOn E.dw s.link_types P st.qd st₂.qd → ((∀ i, P i → st₂.x[i]? = st.x[i]?) ∨ 0 < n) →
    SameOn E.dw s.link_types P tau tau₂ →
    ∃ z z₂, step_loop E tau n s st = .ok z ∧ step_loop E tau₂ n s₂ st₂ = .ok z₂ ∧
      State.AgreeOn E.toEnv s.link_types P z z₂ ∧
      z.q.length = st.q.length ∧ z₂.q.length = st.q.length ∧ z.qd.length = st.qd.length ∧
      z₂.qd.length = st.qd.length ∧ s.UnitQ E z.q ∧ s.UnitQ E z₂.q := by
  induction n with
  | zero =>
    intro s s₂ _ _ _ _ _ _ _ _ st st₂ hq hu _ lq lu _ hU hU₂ eq eu ex _
    refine ⟨st, st₂, rfl, rfl, ⟨eq, eu, ?_⟩, rfl, lq, rfl, lu, hU, hU₂⟩
    rcases ex with ex | ex
    · exact ex
    · omega
  | succ n ih =>
    intro s s₂ a hP h h₂ hs hs₂ hdt hdt' st st₂ hq hu htau lq lu lt hU hU₂ eq eu _ et
    have hty : s₂.link_types = s.link_types := by rw [a.rest]
    have hpa : s₂.link_parents = s.link_parents := by rw [a.rest]
    have hUi : ∀ q, s₂.UnitQ E q ↔ s.UnitQ E q := by
      intro q
      rw [a.rest]
      rfl
    have hq₂ : st₂.q.length = (s₂.link_types.map (wOf E.qw)).sum := by rw [hty, lq]; exact hq
    have d := a.dynOn h.wf eq
    have hfk := fk_filled hE h hq
    have hfk₂ := fk_filled hE h₂ hq₂
    obtain ⟨s', x, e1, same, hsim, hdyn, _⟩ := fk_simulable hE h hq hU
    obtain ⟨s₂', x₂, e2, same₂, hsim₂, hdyn₂, _⟩ := fk_simulable hE h₂ hq₂ ((hUi _).2 hU₂)
    obtain rfl : s' = filled E s st.q := by
      rw [hfk] at e1
      exact ((Prod.mk.injEq _ _ _ _).mp ((Except.ok.injEq _ _).mp e1)).1.symm
    obtain rfl : s₂' = filled E s₂ st₂.q := by
      rw [hfk₂] at e2
      exact ((Prod.mk.injEq _ _ _ _).mp ((Except.ok.injEq _ _).mp e2)).1.symm
    unfold step_loop
    rw [hfk, hfk₂]
    simp only [ok_bind]
    have hS : Solvable E (filled E s st.q) := ⟨hs.pi, hs.physical, hs.armature, hs.damping, hs.exact_inverse⟩
    have hS₂ : Solvable E (filled E s₂ st₂.q) :=
      ⟨hs₂.pi, hs₂.physical, hs₂.armature, hs₂.damping, hs₂.exact_inverse⟩
    obtain ⟨z, z₂, k1, k2, k3, k4, k5, k6, k7, k8, k9⟩ := d.euler_eq hE hP hdyn hdyn₂ hsim.builtin hsim₂.builtin
      hsim.nonempty hS hS₂ hdt hdt' (st := { st with x := (List.range s.link_parents.length).map (fkPose E s st.q) })
      (st₂ := { st₂ with x := (List.range s₂.link_parents.length).map (fkPose E s₂ st₂.q) }) (tau := tau)
      (tau₂ := tau₂) hq hu htau lq lu lt hU hU₂ ⟨eq, eu, fun i hPi => by
        dsimp only
        rw [hpa]
        by_cases hi : i < s.link_parents.length
        · simp [hi, a.pose h.wf hP.up eq hi hPi]
        · simp [hi]⟩ et
    rw [k1, k2]
    simp only [ok_bind]
    have a' : AgreeOn E.toEnv P (filled E s st.q) (filled E s₂ st₂.q) := by
      refine ⟨d.rest, fun i hPi => ?_, a.damping, a.armature, a.stiffness, a.zeropoint⟩
      obtain ⟨r1, r2⟩ := a.row i hPi
      unfold filled
      simp only [List.getElem?_mapIdx]
      cases h1 : s.links[i]? <;> cases h2 : s₂.links[i]? <;> simp [h1, h2] at r1 r2 ⊢
      exact ⟨r1, r2⟩
    obtain ⟨y, y₂, m1, m2, m3, m4, m5, m6, m7, m8, m9⟩ := ih a' hP hsim hsim₂ hS hS₂ hdt hdt' (st := z) (st₂ := z₂)
      (k4.trans hq) (k6.trans hu) (htau.trans k6.symm) (k5.trans k4.symm) (k7.trans k6.symm) lt k8 k9 k3.q k3.qd
      (Or.inl k3.x) et
    exact ⟨y, y₂, m1, m2, m3, m4.trans k4, m5.trans k4, m6.trans k6, m7.trans k6, m8, m9⟩

/-! ## C114 -/

/-- C114: the poses of the links of a tree depend on that tree alone. -/
theorem C114_poses (hE : E.Std) (a : AgreeOn E.toEnv P s s₂) (hP : WholeTrees s.link_parents P) (h : s.Simulable E)
    (h₂ : s₂.Simulable E) {q q₂ : List ℝ} (hq : q.length = (s.link_types.map (wOf E.qw)).sum)
    (lq : q₂.length = q.length) (eq : SameOn E.qw s.link_types P q q₂) :
    ∃ xs xs₂ f f₂, s.forward_kinematics_transforms E q = .ok (xs, f) ∧
      s₂.forward_kinematics_transforms E q₂ = .ok (xs₂, f₂) ∧ ∀ i, P i → xs₂[i]? = xs[i]? := by
  have hty : s₂.link_types = s.link_types := by rw [a.rest]
  have hpa : s₂.link_parents = s.link_parents := by rw [a.rest]
  refine ⟨_, _, _, _, fk_eq h.wf (h.jointed hE) hq, fk_eq h₂.wf (h₂.jointed hE) (by rw [hty, lq]; exact hq), ?_⟩
  intro i hPi
  rw [hpa]
  by_cases hi : i < s.link_parents.length
  · simp [hi, a.pose h.wf hP.up eq hi hPi]
  · simp [hi]

/-- C114: the torques that a motion needs, and the accelerations that torques cause, belong to the tree: at the joints of
a tree they depend on the coordinates, velocities, accelerations, torques, bodies, springs, dampers and armatures of that
tree alone. -/
theorem C114_dynamics_partial (hE : E.Std) (a : AgreeOn E.toEnv P s s₂) (hP : WholeTrees s.link_parents P) (h : s.Simulable E)
    (h₂ : s₂.Simulable E) (hs : Solvable E s) (hs₂ : Solvable E s₂) (hdt : 0 ≤ s.dt)
    {q u tau q₂ u₂ tau₂ : List ℝ} (hq : q.length = (s.link_types.map (wOf E.qw)).sum)
    (hu : u.length = (s.link_types.map (wOf E.dw)).sum) (htau : tau.length = u.length)
    (lq : q₂.length = q.length) (lu : u₂.length = u.length) (lt : tau₂.length = tau.length)
    (hU : s.UnitQ E q) (hU₂ : s.UnitQ E q₂) (eq : SameOn E.qw s.link_types P q q₂)
    (eu : SameOn E.dw s.link_types P u u₂) (et : SameOn E.dw s.link_types P tau tau₂) {xs xs₂ : List (Transform ℝ)}
    {f f₂ : System ℝ π'} (hf : s.forward_kinematics_transforms E q = .ok (xs, f))
    (hf₂ : s₂.forward_kinematics_transforms E q₂ = .ok (xs₂, f₂)) :
    (∃ w w₂, inverse_dynamics E f u tau = .ok w ∧ inverse_dynamics E f₂ u₂ tau₂ = .ok w₂ ∧
      SameOn E.dw s.link_types P w w₂) ∧
    ∃ w w₂, forward_dynamics E f q u tau = .ok w ∧ forward_dynamics E f₂ q₂ u₂ tau₂ = .ok w₂ ∧
      SameOn E.dw s.link_types P w w₂ := by
  have hty : s₂.link_types = s.link_types := by rw [a.rest]
  have hpa : s₂.link_parents = s.link_parents := by rw [a.rest]
  have hUi : s₂.UnitQ E q₂ := by
    rw [a.rest]
    exact hU₂
  have hq₂ : q₂.length = (s₂.link_types.map (wOf E.qw)).sum := by rw [hty, lq]; exact hq
  obtain ⟨_, hsim, hdyn⟩ := fk_same hE h hq hU hf
  obtain ⟨_, hsim₂, hdyn₂⟩ := fk_same hE h₂ hq₂ hUi hf₂
  obtain rfl : f = filled E s q := by
    rw [fk_eq h.wf (h.jointed hE) hq] at hf
    exact ((Prod.mk.injEq _ _ _ _).mp ((Except.ok.injEq _ _).mp hf)).2.symm
  obtain rfl : f₂ = filled E s₂ q₂ := by
    rw [fk_eq h₂.wf (h₂.jointed hE) hq₂] at hf₂
    exact ((Prod.mk.injEq _ _ _ _).mp ((Except.ok.injEq _ _).mp hf₂)).2.symm
  have d := a.dynOn h.wf eq
  have hS : Solvable E (filled E s q) := ⟨hs.pi, hs.physical, hs.armature, hs.damping, hs.exact_inverse⟩
  have hS₂ : Solvable E (filled E s₂ q₂) := ⟨hs₂.pi, hs₂.physical, hs₂.armature, hs₂.damping, hs₂.exact_inverse⟩
  constructor
  · refine ⟨_, _, inverse_dynamics_ok hdyn.wf hdyn.jointed hu (htau.trans hu) hsim.nonempty,
      inverse_dynamics_ok hdyn₂.wf hdyn₂.jointed (by rw [d.types, lu]; exact hu)
        (by rw [d.types, lt, htau]; exact hu) hsim₂.nonempty, ?_⟩
    have c : dofCount E (filled E s₂ q₂) = dofCount E (filled E s q) := by rw [d.rest]; rfl
    exact same_of_entries hdyn (by rw [torques_length]; exact hdyn.count) (by rw [torques_length, torques_length, c])
      fun r hr hPr => d.torques_eq hdyn hP.up hP.down (fun _ h => h) eu et hr hPr
  · obtain ⟨w, w₂, c1, c2, l1, l2, c3⟩ := d.forward_eq hE hP hdyn hdyn₂ hsim.builtin hsim₂.builtin hsim.nonempty hS hS₂
      hdt hq hu htau lq lu lt eq eu et
    exact ⟨w, w₂, c1, c2, same_of_entries hdyn (l1.trans hu) (by omega) c3⟩

/-- C114: a step of the simulation. The two runs may differ in everything outside of `P`. -/
theorem C114_step_partial (hE : E.Std) (a : AgreeOn E.toEnv P s s₂) (hP : WholeTrees s.link_parents P) (h : s.Simulable E)
    (h₂ : s₂.Simulable E) (hs : Solvable E s) (hs₂ : Solvable E s₂) (hdt : 0 ≤ s.dt) (hdt' : s.dt < 1e8) {n : Nat}
    (hn : 0 < n) {st st₂ : State ℝ} {o o₂ : Option (List ℝ)} (hq : st.q.length = (s.link_types.map (wOf E.qw)).sum)
    (hu : st.qd.length = (s.link_types.map (wOf E.dw)).sum) (lq : st₂.q.length = st.q.length)
    (lu : st₂.qd.length = st.qd.length) (hU : s.UnitQ E st.q) (hU₂ : s.UnitQ E st₂.q)
    (eq : SameOn E.qw s.link_types P st.q st₂.q) (eu : SameOn E.dw s.link_types P st.qd st₂.qd)
    (ht : TorquesOn E.toEnv s.link_types P st.qd.length o o₂) :
    ∃ z z₂, step E s st o n = .ok z ∧ step E s₂ st₂ o₂ n = .ok z₂ ∧ State.AgreeOn E.toEnv s.link_types P z z₂ ∧
      z.q.length = st.q.length ∧ z₂.q.length = st.q.length ∧ z.qd.length = st.qd.length ∧
      z₂.qd.length = st.qd.length ∧ s.UnitQ E z.q ∧ s.UnitQ E z₂.q := by
  have hty : s₂.link_types = s.link_types := by rw [a.rest]
  have hdt₂ : s₂.dt = s.dt := by rw [a.rest]
  have gl : ∀ (o : Option (List ℝ)), (∀ t ∈ o, t.length = st.qd.length) →
      (o.getD (List.replicate st.qd.length 0)).length = st.qd.length := by
    intro o ho
    cases o with
    | none => simp
    | some t => exact ho t rfl
  have same : ∀ z : System ℝ π', SameButCache z { z with dt := z.dt / n } := by
    intro z
    refine ⟨rfl, rfl, ?_⟩
    intro i h1 h2
    simp
  have hn1 : (1 : ℝ) ≤ n := by exact_mod_cast hn
  have a' : AgreeOn E.toEnv P { s with dt := s.dt / n } { s₂ with dt := s₂.dt / n } := by
    refine ⟨?_, a.row, a.damping, a.armature, a.stiffness, a.zeropoint⟩
    rw [a.rest]
  have key := AgreeOn.step_loop_eq hE (tau := o.getD (List.replicate st.qd.length 0))
    (tau₂ := o₂.getD (List.replicate st.qd.length 0)) n a' hP (Simulable.of_same h (same s))
    (Simulable.of_same h₂ (same s₂)) ⟨hs.pi, hs.physical, hs.armature, hs.damping, hs.exact_inverse⟩
    ⟨hs₂.pi, hs₂.physical, hs₂.armature, hs₂.damping, hs₂.exact_inverse⟩ (div_nonneg hdt (by linarith))
    (lt_of_le_of_lt (div_le_self hdt hn1) hdt') hq hu (gl o ht.len) lq lu ((gl o₂ ht.len₂).trans (gl o ht.len).symm) hU hU₂
    eq eu (Or.inr hn) ht.same
  obtain ⟨z, z₂, k1, k2, k3⟩ := key
  have run : ∀ {z : System ℝ π'} (hz : z.Simulable E) {a b : State ℝ} {o : Option (List ℝ)},
      a.q.length = (z.link_types.map (wOf E.qw)).sum →
      a.qd.length = (z.link_types.map (wOf E.dw)).sum → (o.getD (List.replicate a.qd.length 0)).length = a.qd.length →
      step_loop E (o.getD (List.replicate a.qd.length 0)) n { z with dt := z.dt / n } a = .ok b →
      step E z a o n = .ok b := by
    intro z hz a b o k1 k2 k3 k4
    have e : (a.qd.map fun _ => (0 : ℝ)) = List.replicate a.qd.length 0 := by simp
    unfold step
    simp only [q_size, qd_size, sumWidths_known (fun t ht => (hz.wf.known t ht).1),
      sumWidths_known (fun t ht => (hz.wf.known t ht).2), ok_bind]
    rw [pyAssert_true (p := _) k1.symm]
    simp only [ok_bind, e]
    rw [pyAssert_true (p := _) ⟨k2.symm, k3.symm⟩]
    simp only [ok_bind]
    rw [pyAssert_true (p := _) hz.method]
    simp only [ok_bind]
    rw [if_neg (by omega)]
    exact k4
  refine ⟨z, z₂, run h hq hu (gl o ht.len) k1, run h₂ (by rw [hty, lq]; exact hq) (by rw [hty, lu]; exact hu) ?_ ?_, k3⟩
  · rw [lu]
    exact gl o₂ ht.len₂
  · rw [lu]
    exact k2

/-- C114: any number of steps with any torques. After the first step the poses agree, too. -/
theorem C114_simulation_partial (hE : E.Std) (a : AgreeOn E.toEnv P s s₂) (hP : WholeTrees s.link_parents P) (h : s.Simulable E)
    (h₂ : s₂.Simulable E) (hs : Solvable E s) (hs₂ : Solvable E s₂) (hdt : 0 ≤ s.dt) (hdt' : s.dt < 1e8) {n : Nat}
    (hn : 0 < n) {ts ts₂ : List (Option (List ℝ))} : ∀ {st st₂ : State ℝ},
    List.Forall₂ (TorquesOn E.toEnv s.link_types P st.qd.length) ts ts₂ →
    st.q.length = (s.link_types.map (wOf E.qw)).sum → st.qd.length = (s.link_types.map (wOf E.dw)).sum →
    st₂.q.length = st.q.length → st₂.qd.length = st.qd.length → s.UnitQ E st.q → s.UnitQ E st₂.q →
    SameOn E.qw s.link_types P st.q st₂.q → SameOn E.dw s.link_types P st.qd st₂.qd →
    ∃ z z₂, simulate E s n st ts = .ok z ∧ simulate E s₂ n st₂ ts₂ = .ok z₂ ∧
      SameOn E.qw s.link_types P z.q z₂.q ∧ SameOn E.dw s.link_types P z.qd z₂.qd ∧
      (ts ≠ [] → ∀ i, P i → z₂.x[i]? = z.x[i]?) := by
  induction ts generalizing ts₂ with
  | nil =>
    intro st st₂ hts _ _ _ _ _ _ eq eu
    cases hts
    exact ⟨st, st₂, rfl, rfl, eq, eu, fun h => absurd rfl h⟩
  | cons o ts ih =>
    intro st st₂ hts hq hu lq lu hU hU₂ eq eu
    cases hts with
    | @cons _ o₂ _ ts₂ ho hts =>
      obtain ⟨y, y₂, k1, k2, k3, k4, k5, k6, k7, k8, k9⟩ := C114_step_partial hE a hP h h₂ hs hs₂ hdt hdt' hn hq hu lq lu hU hU₂
        eq eu ho
      obtain ⟨z, z₂, m1, m2, m3, m4, m5⟩ := ih (st := y) (st₂ := y₂) (by rw [k6]; exact hts) (k4.trans hq) (k6.trans hu)
        (k5.trans k4.symm) (k7.trans k6.symm) k8 k9 k3.q k3.qd
      refine ⟨z, z₂, ?_, ?_, m3, m4, ?_⟩
      · unfold simulate
        rw [k1]
        exact m1
      · unfold simulate
        rw [k2]
        exact m2
      · intro _
        by_cases ht : ts = []
        · subst ht
          cases hts
          have e1 := (Except.ok.injEq _ _).mp m1
          have e2 := (Except.ok.injEq _ _).mp m2
          rw [← e1, ← e2]
          exact k3.x
        · exact m5 ht

/-! ## the approximate inverse couples the trees -/

theorem frob_diag (x y : ℝ) : frob !![x, 0; 0, y] = √(x ^ 2 + y ^ 2) := by
  simp [frob, Fin.sum_univ_two]

theorem approx_light : _inv_approximate !![(1 / 2 : ℝ), 0; 0, 1] 1 1 = !![3 / 2, 0; 0, 1] := by
  have r0 : (1 - !![(1 / 2 : ℝ), 0; 0, 1] * 1 : Matrix (Fin 2) (Fin 2) ℝ) = !![1 / 2, 0; 0, 0] := by
    ext i j
    fin_cases i <;> fin_cases j <;> norm_num
  have n1 : (1 * (1 + !![(1 / 2 : ℝ), 0; 0, 0]) : Matrix (Fin 2) (Fin 2) ℝ) = !![3 / 2, 0; 0, 1] := by
    ext i j
    fin_cases i <;> fin_cases j <;> norm_num
  have r1 : (1 - !![(1 / 2 : ℝ), 0; 0, 1] * !![3 / 2, 0; 0, 1] : Matrix (Fin 2) (Fin 2) ℝ) = !![1 / 4, 0; 0, 0] := by
    ext i j
    fin_cases i <;> fin_cases j <;> norm_num
  unfold _inv_approximate inv_approximate_start
  rw [r0, frob_diag, if_neg, Function.iterate_one]
  · unfold inv_approximate_body
    dsimp only
    rw [n1, r1, frob_diag, if_pos]
    rw [Real.sqrt_lt' (by norm_num)]
    norm_num
  · rw [not_lt, Real.sqrt_le_left (by norm_num)]
    norm_num

theorem approx_heavy : _inv_approximate !![(1 / 2 : ℝ), 0; 0, 3] 1 1 = !![1 / 37, 0; 0, 6 / 37] := by
  have r0 : (1 - !![(1 / 2 : ℝ), 0; 0, 3] * 1 : Matrix (Fin 2) (Fin 2) ℝ) = !![1 / 2, 0; 0, -2] := by
    ext i j
    fin_cases i <;> fin_cases j <;> norm_num
  have st : ((1 / 2 : ℝ) • ((!![(1 / 2 : ℝ), 0; 0, 3] * (!![(1 / 2 : ℝ), 0; 0, 3]).transpose).trace⁻¹ •
      (!![(1 / 2 : ℝ), 0; 0, 3]).transpose) : Matrix (Fin 2) (Fin 2) ℝ) = !![1 / 37, 0; 0, 6 / 37] := by
    have : (!![(1 / 2 : ℝ), 0; 0, 3] * (!![(1 / 2 : ℝ), 0; 0, 3]).transpose).trace = 37 / 4 := by
      rw [Matrix.trace_fin_two, Matrix.mul_apply, Matrix.mul_apply, Fin.sum_univ_two, Fin.sum_univ_two]
      norm_num [Matrix.transpose_apply]
    rw [this]
    ext i j
    fin_cases i <;> fin_cases j <;> norm_num
  have n1 : (!![(1 / 37 : ℝ), 0; 0, 6 / 37] * (1 + !![(1 / 2 : ℝ), 0; 0, -2]) : Matrix (Fin 2) (Fin 2) ℝ) =
      !![3 / 74, 0; 0, - (6 / 37)] := by
    ext i j
    fin_cases i <;> fin_cases j <;> simp [Matrix.mul_apply, Fin.sum_univ_two] <;> norm_num
  have r1 : (1 - !![(1 / 2 : ℝ), 0; 0, 3] * !![3 / 74, 0; 0, - (6 / 37)] : Matrix (Fin 2) (Fin 2) ℝ) =
      !![145 / 148, 0; 0, 55 / 37] := by
    ext i j
    fin_cases i <;> fin_cases j <;> norm_num
  unfold _inv_approximate inv_approximate_start
  rw [r0, frob_diag, if_pos, st, Function.iterate_one]
  · unfold inv_approximate_body
    dsimp only
    rw [n1, r1, frob_diag, if_neg]
    rw [not_lt]
    apply Real.le_sqrt_of_sq_le
    norm_num
  · apply Real.lt_sqrt_of_sq_lt
    norm_num

/-! ### examples -/

noncomputable def twinRow (gs : List (Geometry ℝ)) (i : Nat) : LinkRow ℝ :=
  ⟨⟨⟨i, 0, 0⟩, unitQuat⟩, 0, ⟨1, 1, 1⟩, compute_inertia_per_link Real.pi gs i, .zero, .zero⟩

/-- two pendulums beside each other -/
noncomputable def twin (gs : List (Geometry ℝ)) (x y c d : ℝ) (it : Int) : System ℝ Unit :=
  { pendSys with
    link_parents := [-1, -1], links := [twinRow gs 0, twinRow gs 1], geoms := gs, link_armature := [x, y]
    link_damping := [c, d], mass_mat_iters := it }

theorem twin_widths (gs : List (Geometry ℝ)) (x y c d : ℝ) (it : Int) :
    (twin gs x y c d it).link_types.map (wOf stdEnv.qw) = [1, 1] ∧
    (twin gs x y c d it).link_types.map (wOf stdEnv.dw) = [1, 1] := pendSys_widths

theorem twin_simulable {gs : List (Geometry ℝ)} (hg : gs = [] ∨ gs = pendGeoms) (x y c d : ℝ) (it : Int) :
    (twin gs x y c d it).Simulable stdEnv where
  wf := {
    types_len := rfl
    links_len := rfl
    omc_len := rfl
    names_len := rfl
    names_nodup := pendSys_wf.names_nodup
    pos_ok := by
      intro l hl
      simp [twin] at hl
      rcases hl with rfl | rfl <;> simp [stdEnv, twinRow]
    geoms_ok := by rcases hg with rfl | rfl <;> simp [twin, pendGeoms]
    known := pendSys_wf.known
    damping_len := by rw [(twin_widths gs x y c d it).2]; rfl
    armature_len := by rw [(twin_widths gs x y c d it).2]; rfl
    stiffness_len := pendSys_wf.stiffness_len
    zeropoint_len := pendSys_wf.zeropoint_len
    unit_zero := pendSys_wf.unit_zero
    topo := by
      intro i hi
      have : i < 2 := hi
      match i, this with
      | 0, _ => simp [twin]
      | 1, _ => simp [twin]
    jp_keys := pendSys_wf.jp_keys
    jp_len := by simp [twin, pendSys]
    inertia_ok := by
      intro i hi
      have : i < 2 := hi
      match i, this with
      | 0, _ => rfl
      | 1, _ => rfl
    geoms_sorted := by rcases hg with rfl | rfl <;> simp [twin, pendGeoms] }
  default := pendSys_simulable.default
  widths := pendSys_simulable.widths
  builtin := pendSys_simulable.builtin
  nonempty := by simp [twin]
  unit := by
    intro l hl
    simp [twin] at hl
    rcases hl with rfl | rfl <;> simp [twinRow, Quat.normSq, unitQuat]
  geoms_unit := by
    intro g hg'
    rcases hg with rfl | rfl
    · simp [twin] at hg'
    · simp [twin, pendGeoms] at hg'
      rcases hg' with rfl | rfl <;> simp [Transform.zero, Quat.normSq, unitQuat]
  method := pendSys_simulable.method

theorem twin_trees (gs : List (Geometry ℝ)) (x y c d : ℝ) (it : Int) :
    WholeTrees (twin gs x y c d it).link_parents (· = 0) := by
  intro i p h
  exfalso
  match i with
  | 0 => simp [twin] at h
  | 1 => simp [twin] at h
  | k + 2 => simp [twin] at h

theorem twin_agree (gs : List (Geometry ℝ)) (x y y₂ c d d₂ : ℝ) (it : Int) :
    AgreeOn stdEnv.toEnv (· = 0) (twin gs x y c d it) (twin gs x y₂ c d₂ it) where
  rest := rfl
  row := fun i _ => ⟨rfl, rfl⟩
  damping := by
    intro i _ hi
    subst hi
    unfold ownSlice
    have : wOf stdEnv.dw "ry" = 1 := by decide
    simp [twin, pendSys, this]
  armature := by
    intro i _ hi
    subst hi
    unfold ownSlice
    have : wOf stdEnv.dw "ry" = 1 := by decide
    simp [twin, pendSys, this]
  stiffness := fun _ _ _ => rfl
  zeropoint := fun _ _ _ => rfl

theorem twin_unitQ (gs : List (Geometry ℝ)) (x y c d : ℝ) (it : Int) (q : List ℝ) :
    (twin gs x y c d it).UnitQ stdEnv q := pendSys_unitQ q

theorem same_first (a b b₂ : ℝ) : SameOn stdEnv.qw pendSys.link_types (· = 0) [a, b] [a, b₂] ∧
    SameOn stdEnv.dw pendSys.link_types (· = 0) [a, b] [a, b₂] := by
  constructor <;>
  · intro i _ hi
    subst hi
    unfold ownSlice
    have h1 : wOf stdEnv.dw "ry" = 1 := by decide
    have h2 : wOf stdEnv.qw "ry" = 1 := by decide
    simp [pendSys, h1, h2]

theorem twin_solvable {x y c d : ℝ} (hx : 0 ≤ x) (hy : 0 ≤ y) (hc : 0 ≤ c) (hd : 0 ≤ d) :
    Solvable stdEnv (twin pendGeoms x y c d 0) where
  pi := Real.pi_pos
  physical := pendSys_physical
  armature := by simp [twin, hx, hy]
  damping := by simp [twin, hc, hd]
  exact_inverse := rfl

/-- The second pendulum is driven and damped in one run and has another armature in the other: the first swings alike. -/
example : ∃ z z₂, simulate stdEnv (twin pendGeoms 0 1 1 0 0) 2 ⟨[1, 2], [7, 3], []⟩ [some [5, 0], none] = .ok z ∧
    simulate stdEnv (twin pendGeoms 0 4 1 2 0) 2 ⟨[1, 6], [7, -1], []⟩ [some [5, 8], some [0, 9]] = .ok z₂ ∧
    SameOn stdEnv.qw pendSys.link_types (· = 0) z.q z₂.q := by
  obtain ⟨z, z₂, h1, h2, h3, _⟩ := C114_simulation_partial stdEnv_std (twin_agree pendGeoms 0 1 4 1 0 2 0)
    (twin_trees _ _ _ _ _ _) (twin_simulable (Or.inr rfl) _ _ _ _ _) (twin_simulable (Or.inr rfl) _ _ _ _ _)
    (twin_solvable le_rfl zero_le_one zero_le_one le_rfl)
    (twin_solvable le_rfl (by norm_num) zero_le_one (by norm_num))
    (show (0 : ℝ) ≤ 1 / 100 by norm_num) (show (1 / 100 : ℝ) < 1e8 by norm_num) (n := 2) (by norm_num)
    (ts := [some [5, 0], none]) (ts₂ := [some [5, 8], some [0, 9]])
    (st := ⟨[1, 2], [7, 3], []⟩) (st₂ := ⟨[1, 6], [7, -1], []⟩)
    (.cons ⟨by simp, by simp, (same_first 5 0 8).2⟩ (.cons ⟨by simp, by simp, (same_first 0 0 9).2⟩ .nil))
    (by rw [(twin_widths _ _ _ _ _ _).1]; rfl) (by rw [(twin_widths _ _ _ _ _ _).2]; rfl) rfl rfl
    (twin_unitQ _ _ _ _ _ _ _) (twin_unitQ _ _ _ _ _ _ _) (same_first 1 2 6).1 (same_first 7 3 (-1)).2
  exact ⟨z, z₂, h1, h2, h3⟩

/-- the mass matrix of two rotors without a body -/
theorem rotors (x y : ℝ) {f : System ℝ Unit} {q : List ℝ} {xs : List (Transform ℝ)}
    (hq : q.length = 2) (hf : (twin [] x y 0 0 1).forward_kinematics_transforms stdEnv q = .ok (xs, f)) (v : List ℝ) :
    ∃ M, compute_mass_matrix stdEnv f = .ok M ∧
      mulVecL (mass_mat_inv f M) v = mulVecL (_inv_approximate !![x, 0; 0, y] 1 1) v := by
  have hs := twin_simulable (Or.inl rfl) x y 0 0 1
  have hq' : q.length = ((twin [] x y 0 0 1).link_types.map (wOf stdEnv.qw)).sum := by
    rw [(twin_widths _ _ _ _ _ _).1]; exact hq
  obtain ⟨same, _, hdyn⟩ := fk_same stdEnv_std hs hq' (twin_unitQ _ _ _ _ _ _ _) hf
  obtain ⟨M, hM, hsz, hen⟩ := mass_matrix_entries hdyn
  have hty : f.link_types = (twin [] x y 0 0 1).link_types := by rw [same.rest]
  have hsz2 : M.size = 2 := by rw [hsz, hty, (twin_widths _ _ _ _ _ _).2]; rfl
  refine ⟨M, hM, ?_⟩
  have hI : ∀ k, f.linkI k = 0 := by
    intro k
    rw [same_linkI same]
    have z : ∀ i : Nat, (twinRow [] i).inertia = 0 := fun i => by
      simp [twinRow, compute_inertia_per_link, _inertia_from_geometries]
    unfold linkI
    match k with
    | 0 => exact z 0
    | 1 => exact z 1
    | k + 2 => rfl
  have hm : ∀ r c, massEntry stdEnv f r c = 0 := by
    intro r c
    unfold massEntry energyForm
    apply Finset.sum_eq_zero
    intro k _
    rw [hI, inertia_zero_mul', motion_dot_zero_right]
  have harm : f.link_armature = [x, y] := by rw [same.rest]; rfl
  rw [mass_mat_inv_congr f (M := ⟨2, fun r c => if r = c then [x, y].getD r 0 else 0⟩) hsz2 (fun r c hr hc => by
    have hr : r < 2 := hr
    have hc : c < 2 := hc
    rw [hen r c (by omega) (by omega), hm, harm, zero_add])]
  have hit : f.mass_mat_iters = 1 := by rw [same.rest]; rfl
  unfold mass_mat_inv
  rw [if_neg (by rw [hit]; norm_num), hit]
  congr 2
  ext i j
  fin_cases i <;> fin_cases j <;> simp [SqMat.toMatrix]

/-- C114: with the approximate inverse of the mass matrix (`mass_mat_iters` is not zero) trees do influence each other.
Two rotors stand beside each other, the first is driven. How fast it accelerates depends on how heavy the other one is:
the starting guess of the iteration and the decision whether to accept an iterate take the matrix as a whole. -/
theorem C114_approximate_fails : ∃ (s s₂ f f₂ : System ℝ Unit) (xs xs₂ : List (Transform ℝ)) (tau w w₂ : List ℝ),
    s.Simulable stdEnv ∧ s₂.Simulable stdEnv ∧ WholeTrees s.link_parents (· = 0) ∧
    AgreeOn stdEnv.toEnv (· = 0) s s₂ ∧ s.forward_kinematics_transforms stdEnv [0, 0] = .ok (xs, f) ∧
    s₂.forward_kinematics_transforms stdEnv [0, 0] = .ok (xs₂, f₂) ∧
    forward_dynamics stdEnv f [0, 0] [0, 0] tau = .ok w ∧ forward_dynamics stdEnv f₂ [0, 0] [0, 0] tau = .ok w₂ ∧
    w.getD 0 0 = 3 / 2 ∧ w₂.getD 0 0 = 1 / 37 := by
  have hs := twin_simulable (Or.inl rfl) (1 / 2) 1 0 0 1
  have hs₂ := twin_simulable (Or.inl rfl) (1 / 2) 3 0 0 1
  have hq : [(0 : ℝ), 0].length = ((twin [] (1 / 2) 1 0 0 1).link_types.map (wOf stdEnv.qw)).sum := by
    rw [(twin_widths _ _ _ _ _ _).1]; rfl
  have hq₂ : [(0 : ℝ), 0].length = ((twin [] (1 / 2) 3 0 0 1).link_types.map (wOf stdEnv.qw)).sum := hq
  have hu : [(0 : ℝ), 0].length = ((twin [] (1 / 2) 1 0 0 1).link_types.map (wOf stdEnv.dw)).sum := by
    rw [(twin_widths _ _ _ _ _ _).2]; rfl
  obtain ⟨xs, hf⟩ : ∃ xs, (twin [] (1 / 2) 1 0 0 1).forward_kinematics_transforms stdEnv [0, 0] =
      .ok (xs, filled stdEnv (twin [] (1 / 2) 1 0 0 1) [0, 0]) := ⟨_, fk_eq hs.wf (hs.jointed stdEnv_std) hq⟩
  obtain ⟨xs₂, hf₂⟩ : ∃ xs, (twin [] (1 / 2) 3 0 0 1).forward_kinematics_transforms stdEnv [0, 0] =
      .ok (xs, filled stdEnv (twin [] (1 / 2) 3 0 0 1) [0, 0]) := ⟨_, fk_eq hs₂.wf (hs₂.jointed stdEnv_std) hq₂⟩
  obtain ⟨_, hsim, hdyn⟩ := fk_same stdEnv_std hs hq (twin_unitQ _ _ _ _ _ _ _) hf
  obtain ⟨_, hsim₂, hdyn₂⟩ := fk_same stdEnv_std hs₂ hq₂ (twin_unitQ _ _ _ _ _ _ _) hf₂
  obtain ⟨spring, hsp, hspl⟩ := spring_ok stdEnv_std hdyn.wf hsim.builtin hsim.nonempty hq
  have hsp₂ : _spring_force stdEnv (filled stdEnv (twin [] (1 / 2) 3 0 0 1) [0, 0]) [0, 0] = .ok spring := hsp
  set C := torques stdEnv (filled stdEnv (twin [] (1 / 2) 1 0 0 1) [0, 0]) [0, 0] [0, 0] with hC
  have hCl : C.length = 2 := by
    rw [hC, torques_length, hdyn.count]
    exact hu.symm
  have hspl : spring.length = 2 := hspl.trans hu.symm
  obtain ⟨c0, c1, hc⟩ : ∃ c0 c1, C = [c0, c1] := by
    match C, hCl with
    | [c0, c1], _ => exact ⟨c0, c1, rfl⟩
  obtain ⟨p0, p1, hp⟩ : ∃ p0 p1, spring = [p0, p1] := by
    match spring, hspl with
    | [p0, p1], _ => exact ⟨p0, p1, rfl⟩
  set rhs := ladd (lsub [1 + c0, 0] C) (ladd (lmul ([(0 : ℝ), 0].map fun x => -x) [0, 0]) (lmul [0, 3] spring)) with hrhs
  have hr : rhs.getD 0 0 = 1 := by
    rw [hrhs, hc, hp]
    simp [ladd, lsub, lmul]
  obtain ⟨M, hM, hMv⟩ := rotors (1 / 2) 1 rfl hf rhs
  obtain ⟨M₂, hM₂, hMv₂⟩ := rotors (1 / 2) 3 rfl hf₂ rhs
  have id1 := inverse_dynamics_ok hdyn.wf hdyn.jointed hu hu hsim.nonempty
  have id2 := inverse_dynamics_ok hdyn₂.wf hdyn₂.jointed hu hu hsim₂.nonempty
  refine ⟨_, _, _, _, _, _, [1 + c0, 0], mulVecL (_inv_approximate !![1 / 2, 0; 0, 1] 1 1) rhs,
    mulVecL (_inv_approximate !![1 / 2, 0; 0, 3] 1 1) rhs, hs, hs₂, twin_trees _ _ _ _ _ _,
    twin_agree [] (1 / 2) 1 3 0 0 0 1, hf, hf₂, ?_, ?_, ?_, ?_⟩
  · unfold forward_dynamics
    rw [hM, hsp]
    simp only [List.map_cons, List.map_nil]
    rw [id1]
    simp only [ok_bind]
    exact congrArg Except.ok hMv
  · unfold forward_dynamics
    rw [hM₂, hsp₂]
    simp only [List.map_cons, List.map_nil]
    rw [id2]
    simp only [ok_bind]
    exact congrArg Except.ok hMv₂
  · rw [approx_light]
    refine (mulVecL_getD _ rhs (0 : Fin 2)).trans ?_
    rw [Matrix.mulVec, dotProduct, Fin.sum_univ_two]
    simp only [Fin.val_zero, hr]
    simp
  · rw [approx_heavy]
    refine (mulVecL_getD _ rhs (0 : Fin 2)).trans ?_
    rw [Matrix.mulVec, dotProduct, Fin.sum_univ_two]
    simp only [Fin.val_zero, hr]
    simp

end RingLib
