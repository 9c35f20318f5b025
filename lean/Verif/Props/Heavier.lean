import Verif.Props.Tempo
import Verif.Spec.Heavier

/-!
# C119: a heavier system needs stronger torques

With `c` times the mass in every body (and `c` times the armature) the same motion needs `c` times the torques and has
`c` times the kinetic energy, and the mass matrix is `c` times the old one.
-/

namespace RingLib
open maths jcalc algebra Finset _root_.RingLib.System

variable {π' : Type} {E : JEnv ℝ π'} {s : System ℝ π'}

/-! ## inertias -/

/-- `c` times an inertia -/
def Inertia.times (c : ℝ) (it : Inertia ℝ) : Inertia ℝ := ⟨Mat3.smul c it.it_3x3, .smul c it.h, c * it.mass⟩

theorem Inertia.times_add (c : ℝ) (a b : Inertia ℝ) : (a + b).times c = a.times c + b.times c := by
  unfold Inertia.times
  ext <;> simp [Mat3.smul, Mat3.add_def] <;> ring

theorem Inertia.times_zero (c : ℝ) : (0 : Inertia ℝ).times c = 0 := by
  ext <;> simp [Inertia.times, Mat3.smul, Mat3.zero_def]

theorem inertia_times_mul (c : ℝ) (it : Inertia ℝ) (m : Motion ℝ) :
    inertia_mul_motion (it.times c) m = Force.smul c (inertia_mul_motion it m) := by
  ext <;> simp [inertia_mul_motion, Inertia.times, Mat3.smul, Mat3.mulVec, Vec3.cross] <;> ring

theorem get_it_3x3_heavier (pi c : ℝ) (g : Geometry ℝ) :
    (g.heavier c).get_it_3x3 pi = Mat3.smul c (g.get_it_3x3 pi) := by
  unfold Geometry.get_it_3x3 Geometry.heavier
  cases g.shape <;> dsimp only <;> ext <;> simp [Mat3.smul, Mat3.diag, Mat3.eye, Mat3.zero_def] <;> ring

theorem create_times (c m : ℝ) (t : Transform ℝ) (it : Mat3 ℝ) :
    Inertia.create (c * m) t (Mat3.smul c it) = (Inertia.create m t it).times c := by
  unfold Inertia.create Inertia.times
  dsimp only [spatial.mcI, spatial.quadrants, rotate_matrix]
  generalize quat_to_3x3 (quat_inv t.rot) = R
  ext <;> simp [Mat3.smul, Mat3.mul, Mat3.transpose, spatial.cross, Mat3.sub_def] <;> ring

theorem inertia_per_link_heavier (pi c : ℝ) (gs : List (Geometry ℝ)) (i : Int) :
    compute_inertia_per_link pi (gs.map (Geometry.heavier c)) i = (compute_inertia_per_link pi gs i).times c := by
  unfold compute_inertia_per_link _inertia_from_geometries
  have key : ∀ (gs : List (Geometry ℝ)) (a : Inertia ℝ),
      ((gs.map (Geometry.heavier c)).filter fun g => g.link_idx == i).foldl
        (fun inertia geom => inertia + Inertia.create geom.mass geom.transform (geom.get_it_3x3 pi)) (a.times c) =
      ((gs.filter fun g => g.link_idx == i).foldl
        (fun inertia geom => inertia + Inertia.create geom.mass geom.transform (geom.get_it_3x3 pi)) a).times c := by
    intro gs
    induction gs with
    | nil => intro a; rfl
    | cons g gs ih =>
      intro a
      rw [List.map_cons, List.filter_cons, List.filter_cons]
      have e : (g.heavier c).link_idx = g.link_idx := rfl
      rw [e]
      by_cases hg : (g.link_idx == i) = true
      · rw [if_pos hg, if_pos hg, List.foldl_cons, List.foldl_cons, ← ih, Inertia.times_add, get_it_3x3_heavier,
          ← create_times]
        rfl
      · rw [if_neg hg, if_neg hg]
        exact ih a
  have := key gs 0
  rw [Inertia.times_zero] at this
  exact this

/-! ## the heavier system -/

theorem heavier_wf (h : s.WF E.toEnv) (c : ℝ) : (s.heavier E.pi c).WF E.toEnv where
  types_len := h.types_len
  links_len := by
    unfold System.heavier
    rw [List.length_mapIdx]
    exact h.links_len
  omc_len := h.omc_len
  names_len := h.names_len
  names_nodup := h.names_nodup
  pos_ok := by
    intro l hl
    have hl : l ∈ s.links.mapIdx _ := hl
    obtain ⟨i, hi, rfl⟩ := List.mem_mapIdx.1 hl
    exact h.pos_ok s.links[i] (List.getElem_mem hi)
  geoms_ok := by
    intro g hg
    obtain ⟨g, hg', rfl⟩ := List.mem_map.1 (show g ∈ s.geoms.map (Geometry.heavier c) from hg)
    exact h.geoms_ok g hg'
  known := h.known
  damping_len := h.damping_len
  armature_len := by
    unfold System.heavier
    rw [List.length_map]
    exact h.armature_len
  stiffness_len := h.stiffness_len
  zeropoint_len := h.zeropoint_len
  unit_zero := h.unit_zero
  topo := h.topo
  jp_keys := h.jp_keys
  jp_len := h.jp_len
  inertia_ok := by
    intro i hi
    simp only [System.heavier, List.getElem_mapIdx]
  geoms_sorted := by
    unfold System.heavier
    rw [List.pairwise_map]
    exact h.geoms_sorted

theorem heavier_dynamic (h : s.Dynamic E) (c : ℝ) : (s.heavier E.pi c).Dynamic E where
  wf := heavier_wf h.wf c
  jointed := ⟨h.jointed.known, h.jointed.default⟩
  widths := h.widths
  unit := by
    intro l hl
    have hl : l ∈ s.links.mapIdx _ := hl
    obtain ⟨i, hi, rfl⟩ := List.mem_mapIdx.1 hl
    exact h.unit s.links[i] (List.getElem_mem hi)
  geoms_unit := by
    intro g hg
    obtain ⟨g, hg', rfl⟩ := List.mem_map.1 (show g ∈ s.geoms.map (Geometry.heavier c) from hg)
    exact h.geoms_unit g hg'

theorem heavier_linkT (pi c : ℝ) : (s.heavier pi c).linkT = s.linkT := by
  funext i
  unfold linkT System.heavier
  simp only [List.getElem?_mapIdx]
  cases s.links[i]? <;> rfl

theorem heavier_linkI (h : s.WF E.toEnv) (c : ℝ) {i : Nat} (hi : i < s.link_parents.length) :
    (s.heavier E.pi c).linkI i = (s.linkI i).times c := by
  have hi' : i < s.links.length := by rw [h.links_len]; exact hi
  have hi₂ : i < (s.heavier E.pi c).links.length := by
    unfold System.heavier
    rw [List.length_mapIdx]
    exact hi'
  rw [linkI_eq hi', linkI_eq hi₂, h.inertia_ok i hi', (heavier_wf h c).inertia_ok i hi₂]
  exact inertia_per_link_heavier _ _ _ _

theorem heavier_linkVel (pi c : ℝ) (u : List ℝ) : linkVel E (s.heavier pi c) u = linkVel E s u := by
  unfold linkVel
  rw [heavier_linkT]
  rfl

theorem heavier_linkAcc (pi c : ℝ) (u w : List ℝ) : linkAcc E (s.heavier pi c) u w = linkAcc E s u w := by
  unfold linkAcc
  rw [heavier_linkT, heavier_linkVel]
  rfl

theorem heavier_linkForce (h : s.WF E.toEnv) (c : ℝ) (u w : List ℝ) {i : Nat} (hi : i < s.link_parents.length) :
    linkForce E (s.heavier E.pi c) u w i = Force.smul c (linkForce E s u w i) := by
  have hc : ∀ (m : Motion ℝ) (f : Force ℝ), motion_cross_star m (Force.smul c f) = Force.smul c (motion_cross_star m f) := by
    intro m f
    ext <;> simp [motion_cross_star, Vec3.cross] <;> ring
  unfold linkForce
  rw [heavier_linkI h c hi, heavier_linkAcc, heavier_linkVel, inertia_times_mul, inertia_times_mul, hc, force_smul_add]

theorem heavier_torques (h : s.Dynamic E) (c : ℝ) (u w : List ℝ) :
    torques E (s.heavier E.pi c) u w = (torques E s u w).map (c * ·) := by
  unfold torques
  rw [List.map_flatMap, heavier_linkT]
  refine List.flatMap_congr fun i hi => ?_
  have hi : i < s.link_parents.length := List.mem_range.1 hi
  rw [List.map_map]
  apply List.map_congr_left
  intro m _
  show motion_dot m (force s.link_parents s.linkT _ i) = c * motion_dot m _
  rw [force_scale h.wf.topo c (fun i hi => heavier_linkForce h.wf c u w hi) hi, motion_dot_smul_right]

/-- **C119**: a system of `c` times the mass needs `c` times the torques for the same motion. -/
theorem C119_torques (h : s.Dynamic E) (hn : 0 < s.link_parents.length) (c : ℝ) {u w : List ℝ}
    (hu : u.length = (s.link_types.map (wOf E.dw)).sum) (hw : w.length = u.length) :
    ∃ tau, inverse_dynamics E s u w = .ok tau ∧
      inverse_dynamics E (s.heavier E.pi c) u w = .ok (tau.map (c * ·)) := by
  refine ⟨_, inverse_dynamics_ok h.wf h.jointed hu (hw.trans hu) hn, ?_⟩
  rw [← heavier_torques h c u w]
  have d := heavier_dynamic h c
  exact inverse_dynamics_ok d.wf d.jointed hu (hw.trans hu) hn

theorem heavier_massEntry (h : s.Dynamic E) (c : ℝ) (r k : Nat) :
    massEntry E (s.heavier E.pi c) r k = c * massEntry E s r k := by
  unfold massEntry energyForm
  rw [heavier_linkT, Finset.mul_sum]
  apply Finset.sum_congr rfl
  intro i hi
  have hi : i < s.link_parents.length := Finset.mem_range.1 hi
  rw [heavier_linkI h.wf c hi, inertia_times_mul, motion_dot_smul_right]
  rfl

/-- **C119**: its mass matrix is `c` times the old one. -/
theorem C119_mass_matrix (h : s.Dynamic E) (c : ℝ) :
    ∃ M M₂, compute_mass_matrix E s = .ok M ∧ compute_mass_matrix E (s.heavier E.pi c) = .ok M₂ ∧ M₂.size = M.size ∧
      ∀ r k, r < M.size → k < M.size → M₂.entry r k = c * M.entry r k := by
  obtain ⟨M, hM, hs, he⟩ := mass_matrix_entries h
  obtain ⟨M₂, hM₂, hs₂, he₂⟩ := mass_matrix_entries (heavier_dynamic h c)
  have sz : M₂.size = M.size := hs₂.trans hs.symm
  refine ⟨M, M₂, hM, hM₂, sz, ?_⟩
  intro r k hr hk
  rw [he r k hr hk, he₂ r k (by rw [sz]; exact hr) (by rw [sz]; exact hk), heavier_massEntry h]
  have e : (s.heavier E.pi c).link_armature.getD r 0 = c * s.link_armature.getD r 0 := by
    unfold System.heavier
    simp only [List.getD_eq_getElem?_getD, List.getElem?_map]
    cases s.link_armature[r]? <;> simp
  rw [e]
  split <;> ring

/-- **C119**: and the kinetic energy `c` times the old one. -/
theorem C119_energy (h : s.Dynamic E) (c : ℝ) (u : List ℝ) :
    ∃ T, kinetic_energy E s u = .ok T ∧ kinetic_energy E (s.heavier E.pi c) u = .ok (c * T) := by
  obtain ⟨M, M₂, hM, hM₂, sz, he⟩ := C119_mass_matrix h c
  unfold kinetic_energy
  rw [hM, hM₂]
  refine ⟨_, rfl, ?_⟩
  rw [ok_bind, pure_ok, sz]
  congr 1
  rw [mul_left_comm]
  congr 1
  rw [← List.sum_map_mul_left]
  congr 1
  apply List.map_congr_left
  intro r hr
  rw [← List.sum_map_mul_left]
  congr 1
  apply List.map_congr_left
  intro k hk
  rw [he r k (List.mem_range.1 hr) (List.mem_range.1 hk)]
  ring

/-! ### example -/

/-- three times as heavy, three times the torques -/
example (y : ℝ) {xs : List (Transform ℝ)} {f : System ℝ Unit}
    (hf : kinSys.forward_kinematics_transforms stdEnv [0, 1, 0, 0, 5, 6, 7, 1 / 2, y, 1, 0, 0, 0] = .ok (xs, f)) :
    (∃ tau, inverse_dynamics stdEnv f [1, 2, 3, 4, 5, 6, 7, 8, 9, 10, 11] [1, 1, 1, 1, 1, 1, 1, 1, 1, 1, 2] = .ok tau ∧
      inverse_dynamics stdEnv (f.heavier stdEnv.pi 3) [1, 2, 3, 4, 5, 6, 7, 8, 9, 10, 11]
        [1, 1, 1, 1, 1, 1, 1, 1, 1, 1, 2] = .ok (tau.map (3 * ·))) ∧
    ∃ M M₂, compute_mass_matrix stdEnv f = .ok M ∧ compute_mass_matrix stdEnv (f.heavier stdEnv.pi 3) = .ok M₂ ∧
      M₂.size = M.size ∧ ∀ r k, r < M.size → k < M.size → M₂.entry r k = 3 * M.entry r k := by
  obtain ⟨hd, hp, hty⟩ := kinSys_filled_dynamic y hf
  exact ⟨C119_torques hd (by rw [hp]; decide) 3 (by rw [hty, kinSys_widths.2]; rfl) rfl, C119_mass_matrix hd 3⟩

end RingLib
