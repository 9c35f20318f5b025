import Verif.Spec.Moved
import Verif.Props.EnergyBalance
import Verif.Model.Sensors

/-!
# C112: where a system is mounted does not matter for how it moves
-/

namespace RingLib
open maths jcalc algebra Finset _root_.RingLib.System

variable {π' : Type} {E : JEnv ℝ π'} {A : Nat → Transform ℝ} {s s₂ : System ℝ π'}

/-- The moved system can be simulated, too. -/
theorem Moved.simulable (m : Moved A s s₂) (h : s.Simulable E) : s₂.Simulable E := by
  obtain ⟨hr, hl, hrow, _, hu, _⟩ := m
  obtain ⟨lp, links, jp, lt, ld, la, lss, lsz, dt, geoms, gr, im, mi, ln, mn, omc⟩ := s
  obtain ⟨lp', links', jp', lt', ld', la', lss', lsz', dt', geoms', gr', im', mi', ln', mn', omc'⟩ := s₂
  simp only [System.mk.injEq, true_and] at hr hl hrow
  obtain ⟨rfl, rfl, rfl, rfl, rfl, rfl, rfl, rfl, rfl, rfl, rfl, rfl, rfl, rfl⟩ := hr
  have hw := h.wf
  exact {
    wf := {
      types_len := hw.types_len
      links_len := hl.trans hw.links_len
      omc_len := hw.omc_len
      names_len := hw.names_len
      names_nodup := hw.names_nodup
      pos_ok := by
        intro l hl'
        obtain ⟨i, hi, rfl⟩ := List.getElem_of_mem hl'
        have hi' : i < links.length := hl ▸ hi
        rw [(hrow i hi' hi).2.1, (hrow i hi' hi).2.2.1]
        exact hw.pos_ok _ (List.getElem_mem _)
      geoms_ok := hw.geoms_ok
      known := hw.known
      damping_len := hw.damping_len
      armature_len := hw.armature_len
      stiffness_len := hw.stiffness_len
      zeropoint_len := hw.zeropoint_len
      unit_zero := hw.unit_zero
      topo := hw.topo
      jp_keys := hw.jp_keys
      jp_len := hw.jp_len
      inertia_ok := by
        intro i hi
        have hi' : i < links.length := hl ▸ hi
        exact ((hrow i hi' hi).2.2.2).trans (hw.inertia_ok i hi')
      geoms_sorted := hw.geoms_sorted }
    default := h.default
    widths := h.widths
    builtin := h.builtin
    nonempty := h.nonempty
    unit := by
      intro l hl'
      obtain ⟨i, hi, rfl⟩ := List.getElem_of_mem hl'
      have hi' : i < links.length := hl ▸ hi
      rw [(hrow i hi' hi).1]
      have h1 := h.unit _ (List.getElem_mem hi')
      split
      · simp only [transform_mul, normSq_mul]
        rw [h1, hu i (lt_of_lt_of_eq hi' hw.links_len), one_mul]
      · exact h1
    geoms_unit := h.geoms_unit
    method := h.method }

theorem Moved.joint_eq (m : Moved A s s₂) (q : List ℝ) (i : Nat) : jointT E s₂ q i = jointT E s q i := by
  rw [m.rest]; rfl

theorem Moved.axes_eq (m : Moved A s s₂) (i : Nat) : s₂.axesAt E i = s.axesAt E i := by
  rw [m.rest]; rfl

theorem Moved.unitQ (m : Moved A s s₂) (q : List ℝ) : s₂.UnitQ E q ↔ s.UnitQ E q := by
  rw [m.rest]; rfl

/-- `s` with the joint transforms for the coordinates `q` filled in -/
noncomputable def filled (E : JEnv ℝ π') (s : System ℝ π') (q : List ℝ) : System ℝ π' :=
  { s with links := s.links.mapIdx fun i row => { row with
      transform := transform_mul (jointT E s q i) row.transform1
      transform2 := jointT E s q i } }

theorem Moved.fill (m : Moved A s s₂) (q : List ℝ) : Moved A (filled E s q) (filled E s₂ q) where
  rest := by
    conv_lhs => unfold RingLib.filled
    rw [m.rest]
    rfl
  len := by simp [RingLib.filled, m.len]
  row := by
    intro i h h₂
    simp only [RingLib.filled, List.length_mapIdx] at h h₂
    simpa [RingLib.filled] using m.row i h h₂
  along := m.along
  unit := m.unit
  gravity := m.gravity

/-- The poses move along with the trees. -/
theorem Moved.pose (m : Moved A s s₂) (h : s.WF E.toEnv) (q : List ℝ) (i : Nat) (hi : i < s.link_parents.length) :
    fkPose E s₂ q i = transform_mul (fkPose E s q i) (A i) := by
  have hp : s₂.link_parents = s.link_parents := by rw [m.rest]
  induction i using Nat.strong_induction_on with
  | _ i ih =>
    have hl : i < s.links.length := by rw [h.links_len]; exact hi
    have hl₂ : i < s₂.links.length := by rw [m.len]; exact hl
    have hd : s.link_parents.getD i (-1) = s.link_parents[i] := by simp [hi]
    obtain ⟨t1, t2⟩ := h.topo i hi
    have e₁ : fkPose E s q i = _ := treeVal_eq h.topo _ _ i hi
    have e₂ : fkPose E s₂ q i = _ := treeVal_eq (by rw [hp]; exact h.topo) _ _ i (by rw [hp]; exact hi)
    have f₁ : treeVal s.link_parents Transform.zero _ = fkPose E s q := rfl
    have f₂ : treeVal s₂.link_parents Transform.zero _ = fkPose E s₂ q := rfl
    rw [f₁] at e₁
    rw [f₂] at e₂
    rw [e₁, e₂]
    rw [m.joint_eq, List.getElem?_eq_getElem hl, List.getElem?_eq_getElem hl₂]
    simp only [Option.map_some, Option.getD_some, hp]
    rw [(m.row i hl hl₂).1, hd]
    unfold parentVal
    by_cases h0 : 0 ≤ s.link_parents[i]
    · rw [if_pos h0, if_neg (by omega), if_pos h0, ih _ (by omega) (by omega),
        m.along i s.link_parents[i].toNat (by rw [List.getElem?_eq_getElem hi]; congr 1; omega),
        ← transform_mul_assoc']
    · rw [if_neg h0, if_pos (by omega), if_neg h0]
      simp only [transform_mul_zero, transform_mul_assoc']

/-! ## dynamics

Only this is used of the moved system: the joint transforms differ at the roots alone, where gravity comes in as before.
-/

/-- The two systems look the same to the algorithms of dynamics. -/
structure DynSame (E : JEnv ℝ π') (s s₂ : System ℝ π') : Prop where
  rest : s₂ = { s with links := s₂.links, gravity := s₂.gravity }
  inertia : ∀ i, s₂.linkI i = s.linkI i
  inner : ∀ i (h : i < s.link_parents.length), 0 ≤ s.link_parents[i] → s₂.linkT i = s.linkT i
  root : ∀ i (h : i < s.link_parents.length), ¬ 0 ≤ s.link_parents[i] →
    rotate s₂.gravity (s₂.linkT i).rot = rotate s.gravity (s.linkT i).rot

theorem Moved.dynSame (m : Moved A s s₂) (h : s.WF E.toEnv) (q : List ℝ) :
    DynSame E (filled E s q) (filled E s₂ q) where
  rest := (m.fill q).rest
  inertia := by
    intro i
    unfold linkI
    by_cases hi : i < s.links.length
    · have hi₂ : i < s₂.links.length := by rw [m.len]; exact hi
      simp [filled, hi, hi₂, (m.row i hi hi₂).2.2.2]
    · have hi₂ : ¬ i < s₂.links.length := by rw [m.len]; exact hi
      simp [filled, hi, hi₂]
  inner := by
    intro i hi h0
    change i < s.link_parents.length at hi
    change 0 ≤ s.link_parents[i] at h0
    have hl : i < s.links.length := by rw [h.links_len]; exact hi
    have hl₂ : i < s₂.links.length := by rw [m.len]; exact hl
    have hd : ¬ s.link_parents.getD i (-1) = -1 := by
      have : s.link_parents.getD i (-1) = s.link_parents[i] := by simp [hi]
      omega
    unfold linkT
    have := (m.row i hl hl₂).1
    rw [if_neg hd] at this
    simp [filled, hl, hl₂, this, m.joint_eq]
  root := by
    intro i hi h0
    change i < s.link_parents.length at hi
    change ¬ 0 ≤ s.link_parents[i] at h0
    have hl : i < s.links.length := by rw [h.links_len]; exact hi
    have hl₂ : i < s₂.links.length := by rw [m.len]; exact hl
    have ht := (h.topo i hi).1
    have h1 : s.link_parents[i] = -1 := by omega
    have hd : s.link_parents.getD i (-1) = -1 := by
      rw [← h1]
      simp [hi]
    have := (m.row i hl hl₂).1
    rw [if_pos hd] at this
    have hg := m.gravity i (by rw [List.getElem?_eq_getElem hi, h1])
    have e₂ : ((filled E s₂ q).linkT i).rot = quat_mul (quat_mul (jointT E s q i).rot s.links[i].transform1.rot)
        (A i).rot := by
      unfold linkT
      simp [filled, hl₂, this, m.joint_eq, transform_mul, quat_mul_assoc']
    have e₁ : ((filled E s q).linkT i).rot = quat_mul (jointT E s q i).rot s.links[i].transform1.rot := by
      unfold linkT
      simp [filled, hl, transform_mul]
    rw [e₁, e₂, ← rotate_rotate]
    change rotate (rotate s₂.gravity (A i).rot) _ = rotate s.gravity _
    rw [hg]

section
variable (d : DynSame E s s₂)
include d

theorem DynSame.parents : s₂.link_parents = s.link_parents := by rw [d.rest]

theorem DynSame.types : s₂.link_types = s.link_types := by rw [d.rest]

theorem DynSame.axes (i : Nat) : s₂.axesAt E i = s.axesAt E i := by rw [d.rest]; rfl

theorem DynSame.jointVel_eq (u : List ℝ) (i : Nat) : jointVel E s₂ u i = jointVel E s u i := by
  rw [d.rest]; rfl

theorem DynSame.vel_eq (ht : Topological s.link_parents) (g : Nat → Motion ℝ) (i : Nat)
    (hi : i < s.link_parents.length) :
    vel s₂.link_parents s₂.linkT g i = vel s.link_parents s.linkT g i := by
  rw [d.parents]
  induction i using Nat.strong_induction_on with
  | _ i ih =>
    have t2 := (ht i hi).2
    rw [RingLib.vel_eq ht g hi, RingLib.vel_eq ht g hi]
    by_cases h0 : 0 ≤ s.link_parents[i]
    · rw [d.inner i hi h0]
      unfold parentVal
      rw [if_pos h0, if_pos h0, ih _ (by omega) (by omega)]
    · unfold parentVal
      rw [if_neg h0, if_neg h0, transform_motion_zero', transform_motion_zero']

theorem DynSame.linkVel_eq (ht : Topological s.link_parents) (u : List ℝ) (i : Nat)
    (hi : i < s.link_parents.length) : linkVel E s₂ u i = linkVel E s u i := by
  unfold linkVel
  rw [show jointVel E s₂ u = jointVel E s u from funext (d.jointVel_eq u)]
  exact d.vel_eq ht _ i hi

theorem DynSame.linkAcc_eq (ht : Topological s.link_parents) (u w : List ℝ) (i : Nat)
    (hi : i < s.link_parents.length) : linkAcc E s₂ u w i = linkAcc E s u w i := by
  induction i using Nat.strong_induction_on with
  | _ i ih =>
    have t2 := (ht i hi).2
    have e₁ : linkAcc E s u w i = _ := treeVal_eq ht _ _ i hi
    have e₂ : linkAcc E s₂ u w i = _ :=
      treeVal_eq (by rw [d.parents]; exact ht) _ _ i (by rw [d.parents]; exact hi)
    have f₁ : treeVal s.link_parents _ _ = linkAcc E s u w := rfl
    have f₂ : treeVal s₂.link_parents _ _ = linkAcc E s₂ u w := rfl
    rw [f₁] at e₁
    rw [f₂] at e₂
    rw [e₁, e₂]
    simp only [d.jointVel_eq, d.linkVel_eq ht u i hi, d.parents]
    congr 1
    unfold parentVal
    by_cases h0 : 0 ≤ s.link_parents[i]
    · rw [if_pos h0, if_pos h0, d.inner i hi h0, ih _ (by omega) (by omega)]
    · rw [if_neg h0, if_neg h0]
      have := d.root i hi h0
      have z : ∀ (p g : Vec3 ℝ), -(p.cross 0) + g = g := fun p g => by ext <;> simp
      simp only [transform_motion, z, this]
      congr 1
      ext <;> simp [rotate_x, rotate_y, rotate_z]

theorem DynSame.linkForce_eq (ht : Topological s.link_parents) (u w : List ℝ) (i : Nat)
    (hi : i < s.link_parents.length) : linkForce E s₂ u w i = linkForce E s u w i := by
  unfold linkForce
  rw [d.inertia, d.linkAcc_eq ht u w i hi, d.linkVel_eq ht u i hi]

theorem DynSame.force_eq (ht : Topological s.link_parents) {f f₂ : Nat → Force ℝ}
    (hf : ∀ i, i < s.link_parents.length → f₂ i = f i) (i : Nat) (hi : i < s.link_parents.length) :
    force s₂.link_parents s₂.linkT f₂ i = force s.link_parents s.linkT f i := by
  rw [d.parents]
  unfold force
  generalize hk : s.link_parents.length - i = k
  induction k using Nat.strong_induction_on generalizing i with
  | _ k ih =>
    rw [accum_eq ht, accum_eq ht, hf i hi]
    congr 1
    apply Finset.sum_congr rfl
    intro c hc
    rw [Finset.mem_range] at hc
    split
    · rename_i hp
      have hd : s.link_parents.getD c (-1) = s.link_parents[c] := by simp [hc]
      rw [hd] at hp
      have t2 := (ht c hc).2
      rw [d.inner c hc (by omega), ih (s.link_parents.length - c) (by omega) c hc rfl]
    · rfl

theorem DynSame.torques_eq (ht : Topological s.link_parents) (u w : List ℝ) :
    torques E s₂ u w = torques E s u w := by
  unfold torques
  rw [d.parents]
  apply List.flatMap_congr
  intro i hi
  rw [List.mem_range] at hi
  have := d.force_eq ht (d.linkForce_eq ht u w) i hi
  rw [d.parents] at this
  rw [this, d.axes]

theorem DynSame.massEntry_eq (ht : Topological s.link_parents) (r c : Nat) :
    massEntry E s₂ r c = massEntry E s r c := by
  have hd : ∀ c, dofMotion E s₂ c = dofMotion E s c := by
    intro c
    rw [d.rest]
    rfl
  unfold massEntry energyForm
  rw [hd, hd]
  rw [d.parents]
  apply Finset.sum_congr rfl
  intro k hk
  rw [Finset.mem_range] at hk
  have h1 := d.vel_eq ht (dofMotion E s r) k hk
  have h2 := d.vel_eq ht (dofMotion E s c) k hk
  rw [d.parents] at h1 h2
  rw [h1, h2, d.inertia]

/-! ## one step -/

theorem DynSame.mulVec_eq (h : s.Dynamic E) (h₂ : s₂.Dynamic E) {M M₂ : SqMat ℝ}
    (hM : compute_mass_matrix E s = .ok M) (hM₂ : compute_mass_matrix E s₂ = .ok M₂) :
    M₂.size = M.size ∧ (∀ r c, r < M.size → c < M.size → M₂.entry r c = M.entry r c) ∧
    ∀ v, mulVecL (mass_mat_inv s₂ M₂) v = mulVecL (mass_mat_inv s M) v := by
  obtain ⟨M', e1, sz, en⟩ := mass_matrix_entries h
  obtain ⟨M₂', e2, sz₂, en₂⟩ := mass_matrix_entries h₂
  obtain rfl : M = M' := by rw [hM] at e1; exact (Except.ok.injEq _ _).mp e1
  obtain rfl : M₂ = M₂' := by rw [hM₂] at e2; exact (Except.ok.injEq _ _).mp e2
  have hsz : M₂.size = M.size := by rw [sz, sz₂, d.types]
  have hen : ∀ r c, r < M.size → c < M.size → M₂.entry r c = M.entry r c := by
    intro r c hr hc
    rw [en r c hr hc, en₂ r c (by omega) (by omega), d.massEntry_eq h.wf.topo]
    congr 2
    rw [d.rest]
  refine ⟨hsz, hen, ?_⟩
  have e : mass_mat_inv s₂ M₂ = mass_mat_inv s M₂ := by
    rw [d.rest]; rfl
  rw [e]
  intro v
  clear e en en₂ sz sz₂ e1 e2 hM hM₂
  obtain ⟨n, f⟩ := M
  obtain ⟨n₂, f₂⟩ := M₂
  simp only at hsz hen
  subst hsz
  have : (SqMat.mk n₂ f₂).toMatrix = (SqMat.mk n₂ f).toMatrix := by
    ext i j
    exact hen i j i.2 j.2
  unfold mass_mat_inv
  rw [this]

theorem DynSame.forward_eq (h : s.Dynamic E) (h₂ : s₂.Dynamic E) (hn : 0 < s.link_parents.length)
    {q u : List ℝ} (tau : List ℝ) (hu : u.length = (s.link_types.map (wOf E.dw)).sum) :
    forward_dynamics E s₂ q u tau = forward_dynamics E s q u tau := by
  obtain ⟨M, hM, _⟩ := mass_matrix_entries h
  obtain ⟨M₂, hM₂, _⟩ := mass_matrix_entries h₂
  obtain ⟨_, _, hv⟩ := d.mulVec_eq h h₂ hM hM₂
  have hz : (u.map fun _ => (0 : ℝ)).length = (s.link_types.map (wOf E.dw)).sum := by simpa using hu
  unfold forward_dynamics
  rw [inverse_dynamics_ok h.wf h.jointed hu hz hn, inverse_dynamics_ok h₂.wf h₂.jointed (by rw [d.types]; exact hu)
    (by rw [d.types]; exact hz) (by rw [d.parents]; exact hn), hM, hM₂, d.torques_eq h.wf.topo]
  simp only [ok_bind, hv]
  rw [d.rest]
  rfl

theorem DynSame.euler_eq (h : s.Dynamic E) (h₂ : s₂.Dynamic E) (hn : 0 < s.link_parents.length)
    {st st₂ : State ℝ} (tau : List ℝ) (hu : st.qd.length = (s.link_types.map (wOf E.dw)).sum) (hq : st₂.q = st.q)
    (hd : st₂.qd = st.qd) :
    _semi_implicit_euler_integration E s₂ st₂ tau =
      (_semi_implicit_euler_integration E s st tau).map fun r => { r with x := st₂.x } := by
  unfold _semi_implicit_euler_integration
  rw [hq, hd, d.forward_eq h h₂ hn tau hu]
  cases forward_dynamics E s st.q st.qd tau with
  | error e => rfl
  | ok qdd =>
    simp only [ok_bind]
    have e : ∀ u, s₂.scan E.toEnv (fun _ _ a => pure (q_integrate s₂.dt a))
          ((argQ st.q).and <| (argD u).and (argL s₂.link_types)) =
        s.scan E.toEnv (fun _ _ a => pure (q_integrate s.dt a))
          ((argQ st.q).and <| (argD u).and (argL s.link_types)) := by
      intro u
      rw [d.rest]
      rfl
    rw [e, show s₂.dt = s.dt by rw [d.rest]]
    cases s.scan E.toEnv (fun _ _ a => pure (q_integrate s.dt a))
      ((argQ st.q).and <| (argD (ladd st.qd (qdd.map fun x => s.dt * x))).and (argL s.link_types)) with
    | error e => rfl
    | ok ps =>
      simp only [ok_bind]
      cases jnpConcatenate ps with
      | error e => rfl
      | ok q' => rfl

end

/-! ## C112 -/

theorem fk_filled (hE : E.Std) (h : s.Simulable E) {st : State ℝ}
    (hq : st.q.length = (s.link_types.map (wOf E.qw)).sum) :
    s.forward_kinematics E st = .ok (filled E s st.q,
      { st with x := (List.range s.link_parents.length).map (fkPose E s st.q) }) := by
  unfold forward_kinematics
  rw [fk_eq h.wf (h.jointed hE) hq]
  rfl

theorem Moved.poses (m : Moved A s s₂) (h : s.WF E.toEnv) (q : List ℝ) :
    (List.range s₂.link_parents.length).map (fkPose E s₂ q) =
      movedPoses A ((List.range s.link_parents.length).map (fkPose E s q)) := by
  have hp : s₂.link_parents = s.link_parents := by rw [m.rest]
  rw [hp]
  unfold movedPoses
  apply List.ext_getElem
  · simp
  · intro i h1 h2
    have hi : i < s.link_parents.length := by simpa using h1
    simp [m.pose h q i hi]

/-- C112: forward kinematics returns the poses moved along with the trees. -/
theorem C112_poses (hE : E.Std) (m : Moved A s s₂) (h : s.Simulable E) {q : List ℝ}
    (hq : q.length = (s.link_types.map (wOf E.qw)).sum) :
    ∃ xs s' s₂', s.forward_kinematics_transforms E q = .ok (xs, s') ∧
      s₂.forward_kinematics_transforms E q = .ok (movedPoses A xs, s₂') ∧ Moved A s' s₂' := by
  have ht : s₂.link_types = s.link_types := by rw [m.rest]
  refine ⟨_, _, _, fk_eq h.wf (h.jointed hE) hq, ?_, m.fill q⟩
  rw [fk_eq (m.simulable h).wf ((m.simulable h).jointed hE) (by rw [ht]; exact hq), m.poses h.wf]
  rfl

/-- C112: inverse dynamics, the mass matrix, the kinetic energy and forward dynamics are those of the system before it
was moved. -/
theorem C112_dynamics (hE : E.Std) (m : Moved A s s₂) (h : s.Simulable E) {q u w tau : List ℝ}
    (hq : q.length = (s.link_types.map (wOf E.qw)).sum) (hun : s.UnitQ E q)
    (hu : u.length = (s.link_types.map (wOf E.dw)).sum) (hw : w.length = u.length)
    {xs xs₂ : List (Transform ℝ)} {s' s₂' : System ℝ π'}
    (hf : s.forward_kinematics_transforms E q = .ok (xs, s'))
    (hf₂ : s₂.forward_kinematics_transforms E q = .ok (xs₂, s₂')) :
    inverse_dynamics E s₂' u w = inverse_dynamics E s' u w ∧
    (∃ M M₂, compute_mass_matrix E s' = .ok M ∧ compute_mass_matrix E s₂' = .ok M₂ ∧ M₂.size = M.size ∧
      ∀ r c, r < M.size → c < M.size → M₂.entry r c = M.entry r c) ∧
    kinetic_energy E s₂' u = kinetic_energy E s' u ∧
    forward_dynamics E s₂' q u tau = forward_dynamics E s' q u tau := by
  have h₂ := m.simulable h
  have ht : s₂.link_types = s.link_types := by rw [m.rest]
  have hq₂ : q.length = (s₂.link_types.map (wOf E.qw)).sum := by rw [ht]; exact hq
  obtain ⟨_, k, y⟩ := fk_same hE h hq hun hf
  obtain ⟨_, k₂, y₂⟩ := fk_same hE h₂ hq₂ ((m.unitQ q).2 hun) hf₂
  obtain rfl : s' = filled E s q := by
    rw [fk_eq h.wf (h.jointed hE) hq] at hf
    exact ((Prod.mk.injEq _ _ _ _).mp ((Except.ok.injEq _ _).mp hf)).2.symm
  obtain rfl : s₂' = filled E s₂ q := by
    rw [fk_eq h₂.wf (h₂.jointed hE) hq₂] at hf₂
    exact ((Prod.mk.injEq _ _ _ _).mp ((Except.ok.injEq _ _).mp hf₂)).2.symm
  have d := m.dynSame h.wf q
  have hu' : u.length = ((filled E s q).link_types.map (wOf E.dw)).sum := hu
  obtain ⟨M, hM, _⟩ := mass_matrix_entries y
  obtain ⟨M₂, hM₂, _⟩ := mass_matrix_entries y₂
  obtain ⟨e1, e2, _⟩ := d.mulVec_eq y y₂ hM hM₂
  refine ⟨?_, ⟨M, M₂, hM, hM₂, e1, e2⟩, ?_, d.forward_eq y y₂ k.nonempty tau hu'⟩
  · rw [inverse_dynamics_ok y.wf y.jointed hu' (hw.trans hu') k.nonempty,
      inverse_dynamics_ok y₂.wf y₂.jointed (by rw [d.types]; exact hu') (by rw [d.types]; exact hw.trans hu')
        k₂.nonempty, d.torques_eq y.wf.topo]
  · unfold kinetic_energy
    rw [hM, hM₂]
    simp only [ok_bind, e1]
    congr 3
    apply List.map_congr_left
    intro r hr
    congr 1
    apply List.map_congr_left
    intro c hc
    rw [e2 r c (List.mem_range.1 hr) (List.mem_range.1 hc)]

theorem Moved.step_loop_eq (hE : E.Std) {tau : List ℝ} (n : Nat) : ∀ {s s₂ : System ℝ π'}, Moved A s s₂ →
    s.Simulable E → |s.dt| < 1e8 → ∀ {st : State ℝ},
    st.q.length = (s.link_types.map (wOf E.qw)).sum → st.qd.length = (s.link_types.map (wOf E.dw)).sum →
    tau.length = st.qd.length → s.UnitQ E st.q →
    step_loop E tau n s₂ (st.moved A) = (step_loop E tau n s st).map (State.moved A) := by
  induction n with
  | zero => intro s s₂ _ _ _ st _ _ _ _; rfl
  | succ n ih =>
    intro s s₂ m h hdt st hq hqd htau hu
    have h₂ := m.simulable h
    have ht : s₂.link_types = s.link_types := by rw [m.rest]
    have hq₂ : (st.moved A).q.length = (s₂.link_types.map (wOf E.qw)).sum := by rw [ht]; exact hq
    have d := m.dynSame h.wf st.q
    have hfk := fk_filled hE h hq
    have hfk₂ := fk_filled hE h₂ hq₂
    obtain ⟨s', x, e1, same, hsim, hdyn, hdt'⟩ := fk_simulable hE h hq hu
    obtain ⟨s₂', x₂, e2, _, hsim₂, hdyn₂, _⟩ := fk_simulable hE h₂ hq₂ ((m.unitQ st.q).2 hu)
    obtain rfl : s' = filled E s st.q := by
      rw [hfk] at e1
      exact ((Prod.mk.injEq _ _ _ _).mp ((Except.ok.injEq _ _).mp e1)).1.symm
    obtain rfl : s₂' = filled E s₂ st.q := by
      rw [hfk₂] at e2
      exact ((Prod.mk.injEq _ _ _ _).mp ((Except.ok.injEq _ _).mp e2)).1.symm
    unfold step_loop
    rw [hfk, hfk₂]
    simp only [ok_bind]
    set xs := (List.range s.link_parents.length).map (fkPose E s st.q) with hxs
    obtain ⟨qdd, st1, _, _, hst, l1, l2, hu1, _⟩ := C28_semi_implicit hE hdyn hsim.builtin
      hsim.nonempty (st := { st with x := xs }) (tau := tau) hq hqd htau hu (by rw [hdt']; exact hdt)
    have hx1 : st1.x = xs := by
      unfold _semi_implicit_euler_integration at hst
      cases hfd : forward_dynamics E (filled E s st.q) st.q st.qd tau with
      | error e => simp [hfd, bind, Except.bind] at hst
      | ok a =>
        simp only [hfd, ok_bind] at hst
        revert hst
        cases (filled E s st.q).scan E.toEnv (fun _ _ a => pure (q_integrate (filled E s st.q).dt a))
          ((argQ st.q).and <| (argD (ladd st.qd (a.map fun x => (filled E s st.q).dt * x))).and
            (argL (filled E s st.q).link_types)) with
        | error e => intro hst; simp [bind, Except.bind] at hst
        | ok ps =>
          simp only [ok_bind]
          cases jnpConcatenate ps with
          | error e => intro hst; simp [bind, Except.bind] at hst
          | ok q' =>
            intro hst
            simp only [ok_bind] at hst
            rw [← (Except.ok.injEq _ _).mp hst]
    have hst₂ := d.euler_eq hdyn hdyn₂ hsim.nonempty (st := { st with x := xs })
      (st₂ := { st.moved A with x := (List.range s₂.link_parents.length).map (fkPose E s₂ st.q) }) tau hqd rfl rfl
    rw [hst] at hst₂ ⊢
    have e : ({ st1 with x := (List.range s₂.link_parents.length).map (fkPose E s₂ st.q) } : State ℝ) =
        st1.moved A := by
      unfold State.moved
      rw [m.poses h.wf, ← hxs, hx1]
    have hst₃ : _semi_implicit_euler_integration E (filled E s₂ st.q)
        { st.moved A with x := (List.range s₂.link_parents.length).map (fkPose E s₂ st.q) } tau =
        .ok (st1.moved A) := by
      rw [hst₂, ← e]
      rfl
    have hgoal := ih (m.fill (E := E) st.q) hsim (by rw [hdt']; exact hdt) (st := st1) (by rw [l1]; exact hq)
      (by rw [l2]; exact hqd) (htau.trans l2.symm) hu1
    change (_semi_implicit_euler_integration E (filled E s₂ st.q)
        { st.moved A with x := (List.range s₂.link_parents.length).map (fkPose E s₂ st.q) } tau >>= _) = _
    rw [hst₃]
    exact hgoal

/-- C112: one step, with any number of substeps and any torques, leads to the same coordinates and velocities; the poses
are moved along. -/
theorem C112_step (hE : E.Std) (m : Moved A s s₂) (h : s.Simulable E) (hdt : |s.dt| < 1e8) {st : State ℝ}
    {taus : Option (List ℝ)} {n : Nat} (hn : 0 < n)
    (hq : st.q.length = (s.link_types.map (wOf E.qw)).sum)
    (hqd : st.qd.length = (s.link_types.map (wOf E.dw)).sum)
    (htau : ∀ t ∈ taus, t.length = st.qd.length) (hu : s.UnitQ E st.q) :
    ∃ st', step E s st taus n = .ok st' ∧ step E s₂ (st.moved A) taus n = .ok (st'.moved A) := by
  have hl : (taus.getD (st.qd.map fun _ => 0)).length = st.qd.length := by
    cases taus with
    | none => simp
    | some t => exact htau t rfl
  have hr := m.rest
  have ht : s₂.link_types = s.link_types := by rw [hr]
  have same : SameButCache s { s with dt := s.dt / n } := by
    refine ⟨rfl, rfl, ?_⟩
    intro i h1 h2
    simp
  have md : Moved A { s with dt := s.dt / n } { s₂ with dt := s₂.dt / n } := by
    refine ⟨?_, m.len, m.row, m.along, m.unit, m.gravity⟩
    rw [hr]
  have hd : |({ s with dt := s.dt / n } : System ℝ π').dt| < 1e8 := by
    simp only [abs_div, Nat.abs_cast]
    apply lt_of_le_of_lt _ hdt
    apply div_le_self (abs_nonneg _)
    exact_mod_cast hn
  obtain ⟨st', h1, _⟩ := step_loop_ok hE (tau := taus.getD (st.qd.map fun _ => 0)) n
    (Simulable.of_same h same) hd hq hqd hl hu
  have h2 := md.step_loop_eq hE (tau := taus.getD (st.qd.map fun _ => 0)) n (Simulable.of_same h same) hd hq hqd hl hu
  rw [h1] at h2
  have run : ∀ {z : System ℝ π'} (hz : z.Simulable E) {a b : State ℝ}, a.q.length = (z.link_types.map (wOf E.qw)).sum →
      a.qd.length = (z.link_types.map (wOf E.dw)).sum → (taus.getD (a.qd.map fun _ => 0)).length = a.qd.length →
      step_loop E (taus.getD (a.qd.map fun _ => 0)) n { z with dt := z.dt / n } a = .ok b →
      step E z a taus n = .ok b := by
    intro z hz a b k1 k2 k3 k4
    unfold step
    simp only [q_size, qd_size, sumWidths_known (fun t ht => (hz.wf.known t ht).1),
      sumWidths_known (fun t ht => (hz.wf.known t ht).2), ok_bind]
    rw [pyAssert_true (p := _) k1.symm]
    simp only [ok_bind]
    rw [pyAssert_true (p := _) ⟨k2.symm, k3.symm⟩]
    simp only [ok_bind]
    rw [pyAssert_true (p := _) hz.method]
    simp only [ok_bind]
    rw [if_neg (by omega)]
    exact k4
  exact ⟨st', run h hq hqd hl h1, run (m.simulable h) (by rw [ht]; exact hq) (by rw [ht]; exact hqd) hl h2⟩

/-- C112: any number of steps with any torques. -/
theorem C112_simulation (hE : E.Std) (m : Moved A s s₂) (h : s.Simulable E) (hdt : |s.dt| < 1e8) {n : Nat}
    (hn : 0 < n) (ts : List (Option (List ℝ))) : ∀ {st : State ℝ},
    st.q.length = (s.link_types.map (wOf E.qw)).sum → st.qd.length = (s.link_types.map (wOf E.dw)).sum →
    (∀ o ∈ ts, ∀ t ∈ o, t.length = st.qd.length) → s.UnitQ E st.q →
    ∃ st', simulate E s n st ts = .ok st' ∧ simulate E s₂ n (st.moved A) ts = .ok (st'.moved A) := by
  induction ts with
  | nil => intro st _ _ _ _; exact ⟨st, rfl, rfl⟩
  | cons t ts ih =>
    intro st hq hqd ht hu
    obtain ⟨st1, h1, l1, l2, hu1⟩ := C28_step hE h hdt hn hq hqd (taus := t) (ht t (by simp)) hu
    obtain ⟨st1', h1', h2'⟩ := C112_step hE m h hdt hn hq hqd (taus := t) (ht t (by simp)) hu
    obtain rfl : st1 = st1' := by rw [h1] at h1'; exact (Except.ok.injEq _ _).mp h1'
    obtain ⟨st2, h2, h3⟩ := ih (st := st1) (l1.trans hq) (l2.trans hqd)
      (fun o ho t' ht' => (ht o (by simp [ho]) t' ht').trans l2.symm) hu1
    refine ⟨st2, ?_, ?_⟩
    · unfold simulate
      rw [h1]
      exact h2
    · unfold simulate
      rw [h2']
      exact h3

/-! ### sensors -/

open sensors

theorem dropEnd_map {α β : Type} (f : α → β) (l : List α) (k : Nat) : dropEnd (l.map f) k = (dropEnd l k).map f := by
  unfold dropEnd
  split
  · rfl
  · simp [List.map_take]

theorem takeEnd_map {α β : Type} (f : α → β) (l : List α) (k : Nat) : takeEnd (l.map f) k = (takeEnd l k).map f := by
  unfold takeEnd
  split
  · rfl
  · simp [List.map_drop]

theorem accInner_moved {G : Transform ℝ} (hG : G.rot.normSq = 1) {g g₂ : Vec3 ℝ} (hg : rotate g₂ G.rot = g)
    (pos : List (Vec3 ℝ)) (dt : ℝ) (n : Nat) :
    (accInner (pos.map fun p => G.pos + rotate p (quat_inv G.rot)) g₂ dt n).map (fun v => rotate v G.rot) =
      accInner pos g dt n := by
  unfold accInner
  rw [dropEnd_map, dropEnd_map, ← List.map_drop, ← List.map_drop, List.zipWith_map, List.zipWith_map_right,
    List.map_map, List.map_zipWith, List.map_zipWith]
  simp only [Function.comp_apply]
  generalize dropEnd pos (2 * n) = a
  generalize pos.drop (2 * n) = b
  generalize (dropEnd pos n).drop n = c
  have key : ∀ x y z : Vec3 ℝ, rotate ((1 / (n * dt) ^ 2 : ℝ) •
      ((G.pos + rotate x (quat_inv G.rot)) + (G.pos + rotate y (quat_inv G.rot)) -
        (2 : ℝ) • (G.pos + rotate z (quat_inv G.rot))) + g₂) G.rot =
      (1 / (n * dt) ^ 2 : ℝ) • (x + y - (2 : ℝ) • z) + g := by
    intro x y z
    have e : (1 / (n * dt) ^ 2 : ℝ) • ((G.pos + rotate x (quat_inv G.rot)) + (G.pos + rotate y (quat_inv G.rot)) -
        (2 : ℝ) • (G.pos + rotate z (quat_inv G.rot))) =
        rotate ((1 / (n * dt) ^ 2 : ℝ) • (x + y - (2 : ℝ) • z)) (quat_inv G.rot) := by
      have sm : ∀ (c : ℝ) (v : Vec3 ℝ), c • v = Vec3.smul c v := fun _ _ => rfl
      simp only [sm]
      ext <;> simp [rotate_x, rotate_y, rotate_z] <;> ring
    rw [e, rotate_add, rotate_rotate_inv hG, hg]
  induction a generalizing b c with
  | nil => simp
  | cons x a ih =>
    cases b with
    | nil => simp
    | cons y b =>
      cases c with
      | nil => simp
      | cons z c => simp only [List.zipWith_cons_cons, key, ih]

theorem broadcast2_map {α α' β β' γ : Type} (f : α → β → γ) (f' : α' → β' → γ) (φ : α' → α) (ψ : β → β')
    (h : ∀ x y, f' x (ψ y) = f (φ x) y) (a : List α') (b : List β) :
    broadcast2 f' a (b.map ψ) = broadcast2 f (a.map φ) b := by
  have hz : ∀ (a : List α') (b : List β), List.zipWith f' a (b.map ψ) = List.zipWith f (a.map φ) b := by
    intro a b
    rw [List.zipWith_map_right, List.zipWith_map_left]
    congr 1
    funext x y
    exact h x y
  match a, b with
  | [x], b => simp [broadcast2, h]
  | [], [] => rfl
  | [], [y] => rfl
  | [], y :: y' :: b => rfl
  | x :: x' :: a, [] => rfl
  | x :: x' :: a, [y] => simp [broadcast2, h]
  | x :: x' :: a, y :: y' :: b =>
    have := hz (x :: x' :: a) (y :: y' :: b)
    simp only [List.map_cons] at this
    simp only [broadcast2, List.map_cons, List.length_cons, List.length_map, this]

/-- C112: an IMU on a moved body reads what it read before: gravity and the magnetic field turn with the body. -/
theorem C112_sensors {G : Transform ℝ} (hG : G.rot.normSq = 1) {g g₂ b b₂ : Vec3 ℝ} (hg : rotate g₂ G.rot = g)
    (hb : rotate b₂ G.rot = b) (xs : List (Transform ℝ)) (dt : ℝ) (n : Nat) (second_order : Bool) :
    let ys := xs.map fun x => transform_mul x G
    accelerometer ys g₂ dt n = accelerometer xs g dt n ∧
    gyroscope (ys.map Transform.rot) dt second_order = gyroscope (xs.map Transform.rot) dt second_order ∧
    magnetometer (ys.map Transform.rot) b₂ = magnetometer (xs.map Transform.rot) b := by
  intro ys
  have hp : ys.map Transform.pos = (xs.map Transform.pos).map fun p => G.pos + rotate p (quat_inv G.rot) := by
    simp [ys, transform_mul, Function.comp_def]
  have hr : ys.map Transform.rot = (xs.map Transform.rot).map fun r => quat_mul r G.rot := by
    simp [ys, transform_mul, Function.comp_def]
  have hdq : ∀ a c : List (Quat ℝ), List.zipWith quat_mul (a.map fun r => quat_mul r G.rot)
      ((c.map fun r => quat_mul r G.rot).map quat_inv) = List.zipWith quat_mul a (c.map quat_inv) := by
    intro a c
    rw [List.map_map, List.zipWith_map, List.zipWith_map_right]
    congr 1
    funext x y
    simp only [Function.comp_apply, quat_inv_mul, quat_mul_assoc']
    rw [← quat_mul_assoc' G.rot, mul_inv_self hG, unit_mul]
  refine ⟨?_, ?_, ?_⟩
  · unfold accelerometer
    simp only
    rw [hp, hr, ← accInner_moved hG hg (xs.map Transform.pos) dt n]
    rw [broadcast2_map rotate rotate (fun v => rotate v G.rot) (fun r => quat_mul r G.rot)
      (fun x y => by rw [rotate_rotate])]
    rw [takeEnd_map, ← List.map_take, List.map_append, List.map_append]
  · rw [hr]
    unfold gyroscope
    simp only [dropEnd_map, ← List.map_drop, hdq]
  · rw [hr]
    unfold magnetometer
    rw [List.map_map]
    apply List.map_congr_left
    intro r _
    rw [Function.comp_apply, ← rotate_rotate, hb]

/-! ### examples -/

/-- one and two metres away, three metres up, tilted by about 106 degrees -/
noncomputable def tilt : Transform ℝ := ⟨⟨1, 2, 3⟩, ⟨3 / 5, 4 / 5, 0, 0⟩⟩

theorem tilt_unit : tilt.rot.normSq = 1 := by
  simp only [tilt, Quat.normSq]
  norm_num

/-- the double pendulum, mounted there -/
noncomputable def pendTilted : System ℝ Unit :=
  { pendSys with
    links := [{ pendRow 0 0 with transform1 := transform_mul (pendRow 0 0).transform1 tilt }, pendRow ⟨0, 0, 1⟩ 1]
    gravity := rotate pendSys.gravity (quat_inv tilt.rot) }

theorem pendTilted_moved : Moved (fun _ => tilt) pendSys pendTilted where
  rest := rfl
  len := rfl
  row := by
    intro i h h₂
    match i, h with
    | 0, _ => simp [pendTilted, pendSys]
    | 1, _ => simp [pendTilted, pendSys]
  along := fun _ _ _ => rfl
  unit := fun _ _ => tilt_unit
  gravity := fun _ _ => rotate_rotate_inv tilt_unit _

/-- the turned gravity is another vector -/
example : pendTilted.gravity ≠ pendSys.gravity := by
  intro h
  have := congrArg Vec3.z h
  simp [pendTilted, pendSys, rotate_z, tilt, quat_inv] at this
  norm_num at this

/-- 1000 steps of four substeps each, with a torque at the first hinge: the tilted pendulum swings alike -/
example : ∃ st', simulate stdEnv pendSys 4 ⟨[1, 2], [0, 3], []⟩ (List.replicate 1000 (some [5, 0])) = .ok st' ∧
    simulate stdEnv pendTilted 4 ⟨[1, 2], [0, 3], []⟩ (List.replicate 1000 (some [5, 0])) =
      .ok (st'.moved fun _ => tilt) := by
  refine C112_simulation stdEnv_std pendTilted_moved pendSys_simulable ?_ (by norm_num) _ (st := ⟨[1, 2], [0, 3], []⟩)
    ?_ ?_ ?_ (pendSys_unitQ _)
  · simp only [pendSys]
    norm_num [abs_of_pos]
  · rw [pendSys_widths.1]; rfl
  · rw [pendSys_widths.2]; rfl
  · intro o ho t ht
    rw [List.eq_of_mem_replicate ho] at ht
    simp only [Option.mem_def, Option.some.injEq] at ht
    subst ht
    rfl

/-- an accelerometer at rest on a tilted body -/
example (n : Nat) :
    accelerometer ((List.replicate 9 (⟨⟨5, 0, 0⟩, unitQuat⟩ : Transform ℝ)).map fun x => transform_mul x tilt)
      (rotate ⟨0, 0, 981 / 100⟩ (quat_inv tilt.rot)) (1 / 100) n =
    accelerometer (List.replicate 9 (⟨⟨5, 0, 0⟩, unitQuat⟩ : Transform ℝ)) ⟨0, 0, 981 / 100⟩ (1 / 100) n :=
  (C112_sensors tilt_unit (rotate_rotate_inv tilt_unit _) (b₂ := 0) rfl _ _ _ true).1

end RingLib
