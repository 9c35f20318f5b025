import Verif.Props.Branch
import Verif.Spec.Tempo

/-!
# C118: weight and motion

The torques that inverse dynamics returns are those that hold the weight of the links at rest plus those that the motion
would need without gravity. The latter grow with the square of the speed at which the motion is played, and so does the
kinetic energy.
-/

namespace RingLib
open maths jcalc algebra Finset _root_.RingLib.System

variable {π' : Type} {E : JEnv ℝ π'} {s : System ℝ π'}

theorem under_wf (h : s.WF E.toEnv) (g : Vec3 ℝ) : (s.under g).WF E.toEnv := { h with }

theorem under_jointed (h : s.Jointed E) (g : Vec3 ℝ) : (s.under g).Jointed E := ⟨h.known, h.default⟩

/-! ## scaling -/

theorem jointVel_scale (h : s.Dynamic E) (k : ℝ) (u : List ℝ) {i : Nat} (hi : i < s.link_parents.length) :
    jointVel E s (u.map (k * ·)) i = Motion.smul k (jointVel E s u i) := by
  rw [jointVel_eq h.wf h.jointed h.widths _ hi, jointVel_eq h.wf h.jointed h.widths _ hi]
  have hs : ∀ f : Nat → Motion ℝ, Motion.smul k (∑ c ∈ range (dofCount E s), f c) =
      ∑ c ∈ range (dofCount E s), Motion.smul k (f c) := fun f =>
    map_sum (AddMonoidHom.mk' (Motion.smul k) (motion_smul_add k)) f _
  rw [hs]
  apply Finset.sum_congr rfl
  intro c _
  have e : (u.map (k * ·)).getD c 0 = k * u.getD c 0 := by
    simp only [List.getD_eq_getElem?_getD, List.getElem?_map]
    cases u[c]? <;> simp
  rw [e]
  ext <;> simp <;> ring

theorem linkVel_scale (h : s.Dynamic E) (k : ℝ) (u : List ℝ) {i : Nat} (hi : i < s.link_parents.length) :
    linkVel E s (u.map (k * ·)) i = Motion.smul k (linkVel E s u i) := by
  have ht := h.wf.topo
  induction i using Nat.strong_induction_on with
  | _ i ih =>
    have t2 := (ht i hi).2
    have e₁ : linkVel E s u i = _ := RingLib.vel_eq ht _ hi
    have e₂ : linkVel E s (u.map (k * ·)) i = _ := RingLib.vel_eq ht _ hi
    rw [e₁, e₂, jointVel_scale h k u hi, motion_smul_add, ← transform_motion_smul]
    congr 2
    unfold parentVal
    by_cases h0 : 0 ≤ s.link_parents[i]
    · rw [if_pos h0, if_pos h0]
      exact ih _ (by omega) (by omega)
    · rw [if_neg h0, if_neg h0, motion_smul_zero]

theorem motion_cross_scale (k : ℝ) (a b : Motion ℝ) :
    motion_cross (Motion.smul k a) (Motion.smul k b) = Motion.smul (k * k) (motion_cross a b) := by
  ext <;> simp [motion_cross, Vec3.cross] <;> ring

theorem motion_cross_star_scale (k : ℝ) (a : Motion ℝ) (f : Force ℝ) :
    motion_cross_star (Motion.smul k a) (Force.smul k f) = Force.smul (k * k) (motion_cross_star a f) := by
  ext <;> simp [motion_cross_star, Vec3.cross] <;> ring

theorem linkAcc_scale (h : s.Dynamic E) (k : ℝ) (u w : List ℝ) {i : Nat} (hi : i < s.link_parents.length) :
    linkAcc E (s.under (.smul (k * k) s.gravity)) (u.map (k * ·)) (w.map (k * k * ·)) i =
      Motion.smul (k * k) (linkAcc E s u w i) := by
  have ht := h.wf.topo
  induction i using Nat.strong_induction_on with
  | _ i ih =>
    have t2 := (ht i hi).2
    have e₁ : linkAcc E s u w i = _ := treeVal_eq ht _ _ i hi
    have e₂ : linkAcc E (s.under (.smul (k * k) s.gravity)) (u.map (k * ·)) (w.map (k * k * ·)) i = _ :=
      treeVal_eq (parents := s.link_parents) ht _ _ i hi
    have j₁ : jointVel E (s.under (.smul (k * k) s.gravity)) (w.map (k * k * ·)) i = _ := jointVel_scale h (k * k) w hi
    have j₂ : jointVel E (s.under (.smul (k * k) s.gravity)) (u.map (k * ·)) i = _ := jointVel_scale h k u hi
    have v : linkVel E (s.under (.smul (k * k) s.gravity)) (u.map (k * ·)) i = _ := linkVel_scale h k u hi
    rw [e₁, e₂, j₁, j₂, v, motion_cross_scale, motion_smul_add, motion_smul_add, ← transform_motion_smul]
    congr 2
    unfold parentVal
    by_cases h0 : 0 ≤ s.link_parents[i]
    · rw [if_pos h0, if_pos h0]
      exact ih _ (by omega) (by omega)
    · rw [if_neg h0, if_neg h0]
      ext <;> simp [System.under]

theorem linkForce_scale (h : s.Dynamic E) (k : ℝ) (u w : List ℝ) {i : Nat} (hi : i < s.link_parents.length) :
    linkForce E (s.under (.smul (k * k) s.gravity)) (u.map (k * ·)) (w.map (k * k * ·)) i =
      Force.smul (k * k) (linkForce E s u w i) := by
  have v : linkVel E (s.under (.smul (k * k) s.gravity)) (u.map (k * ·)) i = _ := linkVel_scale h k u hi
  have I : (s.under (.smul (k * k) s.gravity)).linkI i = s.linkI i := rfl
  unfold linkForce
  rw [I, linkAcc_scale h k u w hi, v, inertia_mul_smul, inertia_mul_smul, motion_cross_star_scale]
  ext <;> simp <;> ring

theorem transform_force_smul (t : Transform ℝ) (k : ℝ) (f : Force ℝ) :
    transform_force t (.smul k f) = .smul k (transform_force t f) := by
  ext1
  · simp only [transform_force, Force.smul_ang, Force.smul_vel, ← rotate_smul]
    congr 1
    ext <;> simp <;> ring
  · simp only [transform_force, Force.smul_vel, rotate_smul]

theorem force_smul_add (k : ℝ) (a b : Force ℝ) : Force.smul k (a + b) = Force.smul k a + Force.smul k b := by
  ext <;> simp <;> ring

theorem force_scale (ht : Topological s.link_parents) (k : ℝ) {f f₂ : Nat → Force ℝ}
    (hf : ∀ i, i < s.link_parents.length → f₂ i = Force.smul k (f i)) {i : Nat} (hi : i < s.link_parents.length) :
    force s.link_parents s.linkT f₂ i = Force.smul k (force s.link_parents s.linkT f i) := by
  unfold force
  generalize hk : s.link_parents.length - i = n
  induction n using Nat.strong_induction_on generalizing i with
  | _ n ih =>
    have hs : ∀ g : Nat → Force ℝ, Force.smul k (∑ c ∈ range s.link_parents.length, g c) =
        ∑ c ∈ range s.link_parents.length, Force.smul k (g c) := fun g =>
      map_sum (AddMonoidHom.mk' (Force.smul k) (force_smul_add k)) g _
    rw [accum_eq ht, accum_eq ht, hf i hi, force_smul_add, hs]
    congr 1
    apply Finset.sum_congr rfl
    intro c hc
    rw [Finset.mem_range] at hc
    split
    · rename_i hp
      have hd : s.link_parents.getD c (-1) = s.link_parents[c] := by simp [hc]
      rw [hd] at hp
      have t2 := (ht c hc).2
      rw [ih (s.link_parents.length - c) (by omega) hc rfl, transform_force_smul]
    · ext <;> simp

theorem torques_scale (h : s.Dynamic E) (k : ℝ) (u w : List ℝ) :
    torques E (s.under (.smul (k * k) s.gravity)) (u.map (k * ·)) (w.map (k * k * ·)) =
      (torques E s u w).map (k * k * ·) := by
  unfold torques
  rw [List.map_flatMap]
  change (List.range s.link_parents.length).flatMap _ = _
  have e : ∀ i ∈ List.range s.link_parents.length, (s.axesAt E i).map (fun m => motion_dot m (force s.link_parents
      s.linkT (linkForce E (s.under (.smul (k * k) s.gravity)) (u.map (k * ·)) (w.map (k * k * ·))) i)) =
      ((s.axesAt E i).map fun m => motion_dot m (force s.link_parents s.linkT (linkForce E s u w) i)).map
        (k * k * ·) := by
    intro i hi
    rw [List.mem_range] at hi
    rw [List.map_map]
    apply List.map_congr_left
    intro m _
    rw [force_scale h.wf.topo (k * k) (fun i hi => linkForce_scale h k u w hi) hi, motion_dot_smul_right]
    rfl
  exact List.flatMap_congr e

/-- **C118**: a motion played `k` times as fast needs `k²` times the torques, when gravity is `k²` times as strong. -/
theorem C118_speed (h : s.Dynamic E) (hn : 0 < s.link_parents.length) (k : ℝ) {u w : List ℝ}
    (hu : u.length = (s.link_types.map (wOf E.dw)).sum) (hw : w.length = u.length) :
    ∃ tau, inverse_dynamics E s u w = .ok tau ∧
      inverse_dynamics E (s.under (.smul (k * k) s.gravity)) (u.map (k * ·)) (w.map (k * k * ·)) =
        .ok (tau.map (k * k * ·)) := by
  refine ⟨_, inverse_dynamics_ok h.wf h.jointed hu (hw.trans hu) hn, ?_⟩
  rw [← torques_scale h k u w]
  exact inverse_dynamics_ok (under_wf h.wf _) (under_jointed h.jointed _) (by rw [List.length_map]; exact hu)
    (by rw [List.length_map]; exact hw.trans hu) hn

/-- **C118**: and its kinetic energy is `k²` times as large. -/
theorem C118_energy (h : s.Dynamic E) (k : ℝ) (u : List ℝ) :
    ∃ T, kinetic_energy E s u = .ok T ∧ kinetic_energy E s (u.map (k * ·)) = .ok (k * k * T) := by
  obtain ⟨M, hM, _, _⟩ := mass_matrix_entries h
  unfold kinetic_energy
  rw [hM]
  refine ⟨_, rfl, ?_⟩
  rw [ok_bind, pure_ok]
  congr 1
  have e : ∀ c, (u.map (k * ·)).getD c 0 = k * u.getD c 0 := by
    intro c
    simp only [List.getD_eq_getElem?_getD, List.getElem?_map]
    cases u[c]? <;> simp
  simp only [e]
  rw [mul_left_comm]
  congr 1
  rw [← List.sum_map_mul_left]
  congr 1
  apply List.map_congr_left
  intro r _
  rw [← List.sum_map_mul_left]
  congr 1
  apply List.map_congr_left
  intro c _
  ring

/-! ## weight and motion -/

theorem linkAcc_weight (h : s.Dynamic E) (u w : List ℝ) (n : Nat) {i : Nat} (hi : i < s.link_parents.length) :
    linkAcc E s u w i = linkAcc E s (List.replicate n 0) (List.replicate n 0) i + linkAcc E (s.under 0) u w i := by
  have ht := h.wf.topo
  induction i using Nat.strong_induction_on with
  | _ i ih =>
    have t2 := (ht i hi).2
    have e₁ : linkAcc E s u w i = _ := treeVal_eq ht _ _ i hi
    have e₂ : linkAcc E (s.under 0) u w i = _ := treeVal_eq (parents := s.link_parents) ht _ _ i hi
    have e₃ : linkAcc E s (List.replicate n 0) (List.replicate n 0) i = _ := treeVal_eq ht _ _ i hi
    have j : ∀ x, jointVel E (s.under 0) x i = jointVel E s x i := fun _ => rfl
    have v : linkVel E (s.under 0) u i = linkVel E s u i := rfl
    have z : ∀ m : Motion ℝ, motion_cross m 0 = 0 := by
      intro m
      ext <;> simp [motion_cross, Vec3.cross]
    have T : (s.under 0).linkT i = s.linkT i := rfl
    rw [e₁, e₂, e₃, j, j, v, T, jointVel_zero, z, add_zero, add_zero]
    conv_rhs => rw [← add_assoc, ← transform_motion_add]
    congr 2
    unfold parentVal
    by_cases h0 : 0 ≤ s.link_parents[i]
    · rw [if_pos h0, if_pos h0, if_pos h0]
      exact ih _ (by omega) (by omega)
    · rw [if_neg h0, if_neg h0, if_neg h0]
      ext <;> simp [System.under]

theorem linkForce_weight (h : s.Dynamic E) (u w : List ℝ) (n : Nat) {i : Nat} (hi : i < s.link_parents.length) :
    linkForce E s u w i =
      linkForce E s (List.replicate n 0) (List.replicate n 0) i + linkForce E (s.under 0) u w i := by
  have v : linkVel E (s.under 0) u i = linkVel E s u i := rfl
  have I : (s.under 0).linkI i = s.linkI i := rfl
  have v0 : linkVel E s (List.replicate n 0) i = 0 :=
    vel_outside (P := fun _ => True) h.wf.topo (fun _ _ _ _ => trivial) (fun i _ _ => jointVel_zero n i) i hi trivial
  have z : ∀ f : Force ℝ, motion_cross_star 0 f = 0 := by
    intro f
    ext <;> simp [motion_cross_star, Vec3.cross]
  unfold linkForce
  rw [I, v, v0, z, add_zero, linkAcc_weight h u w n hi, inertia_mul_add, add_assoc]

theorem force_weight (ht : Topological s.link_parents) {f f₁ f₂ : Nat → Force ℝ}
    (hf : ∀ i, i < s.link_parents.length → f i = f₁ i + f₂ i) {i : Nat} (hi : i < s.link_parents.length) :
    force s.link_parents s.linkT f i = force s.link_parents s.linkT f₁ i + force s.link_parents s.linkT f₂ i := by
  unfold force
  generalize hk : s.link_parents.length - i = n
  induction n using Nat.strong_induction_on generalizing i with
  | _ n ih =>
    rw [accum_eq ht, accum_eq ht (f := f₁), accum_eq ht (f := f₂), hf i hi, add_add_add_comm, ← Finset.sum_add_distrib]
    congr 1
    apply Finset.sum_congr rfl
    intro c hc
    rw [Finset.mem_range] at hc
    split
    · rename_i hp
      have hd : s.link_parents.getD c (-1) = s.link_parents[c] := by simp [hc]
      rw [hd] at hp
      have t2 := (ht c hc).2
      rw [ih (s.link_parents.length - c) (by omega) hc rfl, transform_force_add]
    · rw [add_zero]

theorem torques_weight (h : s.Dynamic E) (u w : List ℝ) (n : Nat) :
    torques E s u w = List.zipWith (· + ·) (torques E s (List.replicate n 0) (List.replicate n 0))
      (torques E (s.under 0) u w) := by
  have key : ∀ L : List Nat, (∀ i ∈ L, i < s.link_parents.length) →
      (L.flatMap fun i => (s.axesAt E i).map fun m => motion_dot m (force s.link_parents s.linkT (linkForce E s u w) i)) =
      List.zipWith (· + ·)
        (L.flatMap fun i => (s.axesAt E i).map fun m => motion_dot m (force s.link_parents s.linkT
          (linkForce E s (List.replicate n 0) (List.replicate n 0)) i))
        (L.flatMap fun i => (s.axesAt E i).map fun m => motion_dot m (force s.link_parents s.linkT
          (linkForce E (s.under 0) u w) i)) := by
    intro L
    induction L with
    | nil => intro _; rfl
    | cons i L ih =>
      intro hL
      rw [List.flatMap_cons, List.flatMap_cons, List.flatMap_cons, List.zipWith_append (by simp),
        ih fun j hj => hL j (List.mem_cons_of_mem _ hj)]
      congr 1
      rw [List.zipWith_map, List.zipWith_self]
      apply List.map_congr_left
      intro m _
      rw [force_weight h.wf.topo (fun i hi => linkForce_weight h u w n hi) (hL i List.mem_cons_self), motion_dot_add_right]
  exact key _ fun i hi => List.mem_range.1 hi

/-- **C118**: the torques are those that hold the weight at rest plus those that the motion needs without gravity. -/
theorem C118_weight (h : s.Dynamic E) (hn : 0 < s.link_parents.length) {u w : List ℝ}
    (hu : u.length = (s.link_types.map (wOf E.dw)).sum) (hw : w.length = u.length) :
    ∃ hold move, inverse_dynamics E s (List.replicate u.length 0) (List.replicate u.length 0) = .ok hold ∧
      inverse_dynamics E (s.under 0) u w = .ok move ∧
      inverse_dynamics E s u w = .ok (List.zipWith (· + ·) hold move) := by
  refine ⟨_, _, inverse_dynamics_ok h.wf h.jointed (by rw [List.length_replicate]; exact hu)
      (by rw [List.length_replicate]; exact hu) hn,
    inverse_dynamics_ok (under_wf h.wf _) (under_jointed h.jointed _) hu (hw.trans hu) hn, ?_⟩
  rw [inverse_dynamics_ok h.wf h.jointed hu (hw.trans hu) hn, torques_weight h u w u.length]

/-- **C118**: at rest the motion needs no torque without gravity. -/
theorem C118_rest (h : s.Dynamic E) (hn : 0 < s.link_parents.length) :
    ∃ tau, inverse_dynamics E (s.under 0) (List.replicate (s.link_types.map (wOf E.dw)).sum 0)
      (List.replicate (s.link_types.map (wOf E.dw)).sum 0) = .ok tau ∧ ∀ x ∈ tau, x = 0 := by
  have hz : (s.under 0).Dynamic E :=
    ⟨under_wf h.wf _, under_jointed h.jointed _, h.widths, h.unit, h.geoms_unit⟩
  obtain ⟨tau, h1, h2⟩ := C118_speed hz hn 0 (u := List.replicate (s.link_types.map (wOf E.dw)).sum 0)
    (w := List.replicate (s.link_types.map (wOf E.dw)).sum 0) (by rw [List.length_replicate]; rfl) rfl
  have e : (s.under 0).under (.smul (0 * 0) (s.under 0).gravity) = s.under 0 := by
    have : (Vec3.smul (0 * 0) 0 : Vec3 ℝ) = 0 := by ext <;> simp
    unfold System.under
    rw [this]
  rw [e] at h2
  simp only [List.map_replicate, mul_zero] at h2
  refine ⟨_, h2, ?_⟩
  intro x hx
  obtain ⟨y, _, rfl⟩ := List.mem_map.1 hx
  ring

/-! ### examples -/

theorem kinSys_filled_dynamic (y : ℝ) {xs : List (Transform ℝ)} {f : System ℝ Unit}
    (hf : kinSys.forward_kinematics_transforms stdEnv [0, 1, 0, 0, 5, 6, 7, 1 / 2, y, 1, 0, 0, 0] = .ok (xs, f)) :
    f.Dynamic stdEnv ∧ f.link_parents = kinSys.link_parents ∧ f.link_types = kinSys.link_types := by
  have hq : ([0, 1, 0, 0, 5, 6, 7, 1 / 2, y, 1, 0, 0, 0] : List ℝ).length =
      (kinSys.link_types.map (wOf stdEnv.qw)).sum := by rw [kinSys_widths.1]; rfl
  obtain ⟨_, _, hdyn⟩ := fk_same stdEnv_std kinSys_simulable hq (kinSys_unitQ_slider y) hf
  obtain rfl : f = filled stdEnv kinSys [0, 1, 0, 0, 5, 6, 7, 1 / 2, y, 1, 0, 0, 0] := by
    rw [fk_eq kinSys_simulable.wf (kinSys_simulable.jointed stdEnv_std) hq] at hf
    exact ((Prod.mk.injEq _ _ _ _).mp ((Except.ok.injEq _ _).mp hf)).2.symm
  exact ⟨hdyn, rfl, rfl⟩

/-- played twice as fast the motion needs four times the torques -/
example (y : ℝ) {xs : List (Transform ℝ)} {f : System ℝ Unit}
    (hf : kinSys.forward_kinematics_transforms stdEnv [0, 1, 0, 0, 5, 6, 7, 1 / 2, y, 1, 0, 0, 0] = .ok (xs, f)) :
    ∃ tau, inverse_dynamics stdEnv f [1, 2, 3, 4, 5, 6, 7, 8, 9, 10, 11] [1, 1, 1, 1, 1, 1, 1, 1, 1, 1, 2] = .ok tau ∧
      inverse_dynamics stdEnv (f.under (.smul (2 * 2) f.gravity))
        ([1, 2, 3, 4, 5, 6, 7, 8, 9, 10, 11].map (2 * ·)) ([1, 1, 1, 1, 1, 1, 1, 1, 1, 1, 2].map (2 * 2 * ·)) =
        .ok (tau.map (2 * 2 * ·)) := by
  obtain ⟨hd, hp, hty⟩ := kinSys_filled_dynamic y hf
  exact C118_speed hd (by rw [hp]; decide) 2 (by rw [hty, kinSys_widths.2]; rfl) rfl

/-- weight and motion of the same system -/
example (y : ℝ) {xs : List (Transform ℝ)} {f : System ℝ Unit}
    (hf : kinSys.forward_kinematics_transforms stdEnv [0, 1, 0, 0, 5, 6, 7, 1 / 2, y, 1, 0, 0, 0] = .ok (xs, f)) :
    ∃ hold move, inverse_dynamics stdEnv f (List.replicate 11 0) (List.replicate 11 0) = .ok hold ∧
      inverse_dynamics stdEnv (f.under 0) [1, 2, 3, 4, 5, 6, 7, 8, 9, 10, 11] [1, 1, 1, 1, 1, 1, 1, 1, 1, 1, 2] =
        .ok move ∧
      inverse_dynamics stdEnv f [1, 2, 3, 4, 5, 6, 7, 8, 9, 10, 11] [1, 1, 1, 1, 1, 1, 1, 1, 1, 1, 2] =
        .ok (List.zipWith (· + ·) hold move) := by
  obtain ⟨hd, hp, hty⟩ := kinSys_filled_dynamic y hf
  exact C118_weight hd (by rw [hp]; decide) (u := [1, 2, 3, 4, 5, 6, 7, 8, 9, 10, 11])
    (by rw [hty, kinSys_widths.2]; rfl) rfl

/-- and the kinetic energy is four times as large; at rest without weight no torque is needed -/
example (y : ℝ) {xs : List (Transform ℝ)} {f : System ℝ Unit}
    (hf : kinSys.forward_kinematics_transforms stdEnv [0, 1, 0, 0, 5, 6, 7, 1 / 2, y, 1, 0, 0, 0] = .ok (xs, f)) :
    (∃ T, kinetic_energy stdEnv f [1, 2, 3, 4, 5, 6, 7, 8, 9, 10, 11] = .ok T ∧
      kinetic_energy stdEnv f ([1, 2, 3, 4, 5, 6, 7, 8, 9, 10, 11].map (2 * ·)) = .ok (2 * 2 * T)) ∧
    ∃ tau, inverse_dynamics stdEnv (f.under 0) (List.replicate (f.link_types.map (wOf stdEnv.dw)).sum 0)
      (List.replicate (f.link_types.map (wOf stdEnv.dw)).sum 0) = .ok tau ∧ ∀ x ∈ tau, x = 0 := by
  obtain ⟨hd, hp, _⟩ := kinSys_filled_dynamic y hf
  exact ⟨C118_energy hd 2 _, C118_rest hd (by rw [hp]; decide)⟩

end RingLib
