import Verif.Lemmas.Kinematics
import Verif.Lemmas.Trig
import Verif.Props.Trig

/-! # Properties C11, C22 – C25: kinematics -/

namespace RingLib
open System algebra
variable {α π : Type}

/-! ## a concrete system for the examples -/

/-- The registries with the built-in joints. -/
noncomputable def stdEnv : JEnv ℝ Unit where
  qw t := (jcalc.BuiltIn.ofName t).map (·.q_width)
  dw t := (jcalc.BuiltIn.ofName t).map (·.qd_width)
  pi := Real.pi
  ge x y := by classical exact decide (y ≤ x)
  unit4 z := by classical exact decide ((z.map fun x => x * x).sum = 1)
  nanLike x := x
  joints t := (jcalc.BuiltIn.ofName t).map (·.model)

theorem stdEnv_std : stdEnv.Std where
  joints b := by simp [stdEnv, jcalc.BuiltIn.ofName_name]
  qw b := by simp [stdEnv, jcalc.BuiltIn.ofName_name]
  dw b := by simp [stdEnv, jcalc.BuiltIn.ofName_name]

noncomputable def kinGeoms : List (Geometry ℝ) :=
  [⟨2, .zero, 0, .box 1 2 3, none, none⟩, ⟨1, .zero, 1, .sphere 1, none, none⟩]

noncomputable def kinRow (i : Int) : LinkRow ℝ :=
  ⟨⟨⟨1, 0, 2⟩, ⟨0, 1, 0, 0⟩⟩, 0, ⟨1, 1, 1⟩, compute_inertia_per_link Real.pi kinGeoms i,
    .zero, .zero⟩

/-- Four links: a free root, an `rx` hinge and a `py` slider below it, and a spherical joint below
the hinge. -/
noncomputable def kinSys : System ℝ Unit where
  link_parents := [-1, 0, 0, 1]
  links := [kinRow 0, kinRow 1, kinRow 2, kinRow 3]
  joint_params := [("default", [(), (), (), ()])]
  link_types := ["free", "rx", "py", "spherical"]
  link_damping := List.replicate 11 1
  link_armature := List.replicate 11 1
  link_spring_stiffness := List.replicate 11 1
  link_spring_zeropoint := [1, 0, 0, 0, 0, 0, 0, 0, 0, 1, 0, 0, 0]
  dt := 1 / 100
  geoms := kinGeoms
  gravity := ⟨0, 0, 981 / 100⟩
  integration_method := "semi_implicit_euler"
  mass_mat_iters := 0
  link_names := ["a", "b", "c", "d"]
  model_name := some "m"
  omc := [none, none, none, none]

theorem kinSys_widths : kinSys.link_types.map (wOf stdEnv.qw) = [7, 1, 1, 4] ∧
    kinSys.link_types.map (wOf stdEnv.dw) = [6, 1, 1, 3] := by
  refine ⟨?_, ?_⟩ <;> decide

theorem kinSys_consistent : kinSys.Consistent stdEnv.toEnv where
  types_len := rfl
  links_len := rfl
  omc_len := rfl
  names_len := rfl
  names_nodup := by show ["a", "b", "c", "d"].Nodup; decide
  pos_ok := by
    intro l hl
    have : ∃ i, l = kinRow i := by
      simp [kinSys] at hl
      rcases hl with rfl | rfl | rfl | rfl <;> exact ⟨_, rfl⟩
    obtain ⟨i, rfl⟩ := this
    simp [stdEnv, kinRow]
  geoms_ok := by simp [kinSys, kinGeoms]
  known := by
    intro t ht
    simp [kinSys] at ht
    rcases ht with rfl | rfl | rfl | rfl <;> constructor <;> decide
  damping_len := by rw [kinSys_widths.2]; simp [kinSys]
  armature_len := by rw [kinSys_widths.2]; simp [kinSys]
  stiffness_len := by rw [kinSys_widths.2]; simp [kinSys]
  zeropoint_len := by rw [kinSys_widths.1]; simp [kinSys]
  unit_zero := by
    intro i hi
    have : i < 4 := hi
    match i, this with
    | 0, _ =>
      intro _
      have h1 : wOf stdEnv.qw "free" = 7 := by decide
      have e : ownSlice stdEnv.qw kinSys.link_types kinSys.link_spring_zeropoint 0 =
          [1, 0, 0, 0, 0, 0, 0] := by simp [kinSys, ownSlice, h1]
      rw [e]
      simp [stdEnv]
    | 1, _ =>
      intro h
      have h : joint_type_is_free_or_cor_or_spherical "rx" = true := h
      exact absurd h (by decide)
    | 2, _ =>
      intro h
      have h : joint_type_is_free_or_cor_or_spherical "py" = true := h
      exact absurd h (by decide)
    | 3, _ =>
      intro _
      have h1 : wOf stdEnv.qw "free" = 7 := by decide
      have h2 : wOf stdEnv.qw "rx" = 1 := by decide
      have h3 : wOf stdEnv.qw "py" = 1 := by decide
      have h4 : wOf stdEnv.qw "spherical" = 4 := by decide
      have e : ownSlice stdEnv.qw kinSys.link_types kinSys.link_spring_zeropoint 3 =
          [1, 0, 0, 0] := by simp [kinSys, ownSlice, h1, h2, h3, h4]
      rw [e]
      simp [stdEnv]

theorem kinSys_wf : kinSys.WF stdEnv.toEnv where
  toConsistent := kinSys_consistent
  topo := by
    intro i hi
    have : i < 4 := hi
    match i, this with
    | 0, _ => simp [kinSys]
    | 1, _ => simp [kinSys]
    | 2, _ => simp [kinSys]
    | 3, _ => simp [kinSys]
  jp_keys := by simp [kinSys]
  jp_len := by simp [kinSys]
  inertia_ok := by
    intro i hi
    have : i < 4 := hi
    match i, this with
    | 0, _ => rfl
    | 1, _ => rfl
    | 2, _ => rfl
    | 3, _ => rfl
  geoms_sorted := by simp [kinSys, kinGeoms]

theorem kinSys_jointed : kinSys.Jointed stdEnv where
  known := by
    intro t ht
    simp [kinSys] at ht
    rcases ht with rfl | rfl | rfl | rfl
    · exact ⟨_, stdEnv_std.joints .free⟩
    · exact ⟨_, stdEnv_std.joints (.r .x)⟩
    · exact ⟨_, stdEnv_std.joints (.p .y)⟩
    · exact ⟨_, stdEnv_std.joints .spherical⟩
  default := by simp [kinSys]

/-! ## C22 -/

theorem poseAt_map_range [Zero α] [One α] {n : Nat} (X : Nat → Transform α) {p : Int} (h : p < n) :
    poseAt ((List.range n).map X) p = parentVal .zero X p := by
  unfold poseAt parentVal
  by_cases h0 : 0 ≤ p
  · rw [if_neg (by omega), if_pos h0]
    have : p.toNat < n := by omega
    simp [this]
  · rw [if_pos (by omega), if_neg h0]

/-- C22: forward kinematics succeeds for every well-formed system and every `q` of the system's
size; the pose of every link is its joint transform, then its fixed transform, then the pose of its
parent (the identity for the world), and the system returned carries these transforms. -/
theorem C22_forward [Field α] {E : JEnv α π} {s : System α π} (h : s.WF E.toEnv)
    (hj : s.Jointed E) {q : List α} (hq : q.length = (s.link_types.map (wOf E.qw)).sum) :
    ∃ xs s', s.forward_kinematics_transforms E q = .ok (xs, s') ∧ s.IsFK E q xs s' := by
  refine ⟨_, _, fk_eq h hj hq, ⟨by simp, by simp [h.links_len], rfl, ?_⟩⟩
  intro i hi row hrow
  refine ⟨jointT E s q i, (isJointTransform_iff h hj hi q _).2 rfl, ?_, ?_⟩
  · rw [poseAt_map_range _ (by have := (h.topo i hi).2; omega), List.getElem?_map,
      List.getElem?_range hi, Option.map_some]
    unfold fkPose
    rw [treeVal_eq h.topo _ _ i hi, hrow]
    rfl
  · simp [hrow]

theorem isFK_unique [Field α] {E : JEnv α π} {s : System α π} (h : s.WF E.toEnv)
    (hj : s.Jointed E) {q : List α} (hq : q.length = (s.link_types.map (wOf E.qw)).sum)
    {xs : List (Transform α)} {s' : System α π}
    (hf : s.forward_kinematics_transforms E q = .ok (xs, s')) : s.IsFK E q xs s' := by
  obtain ⟨xs1, s1, h1, h2⟩ := C22_forward h hj hq
  rw [h1] at hf
  cases hf
  exact h2

example : ∃ xs s', kinSys.forward_kinematics_transforms stdEnv
    [1, 0, 0, 0, 1, 2, 3, 1, 5, 0, 1, 0, 0] = .ok (xs, s') ∧
    kinSys.IsFK stdEnv [1, 0, 0, 0, 1, 2, 3, 1, 5, 0, 1, 0, 0] xs s' :=
  C22_forward kinSys_wf kinSys_jointed (by rw [kinSys_widths.1]; rfl)

/-- every link has a path to the world -/
theorem path_exists {parents : List Int} (ht : Topological parents) (i : Nat)
    (hi : i < parents.length) : ∃ l, Path parents i l := by
  induction i using Nat.strong_induction_on with
  | _ i ih =>
    obtain ⟨h1, h2⟩ := ht i hi
    by_cases h0 : parents[i] = -1
    · exact ⟨_, .root (by rw [List.getElem?_eq_getElem hi, h0])⟩
    · obtain ⟨l, hl⟩ := ih parents[i].toNat (by omega) (by omega)
      refine ⟨_, .step (p := parents[i].toNat) ?_ hl⟩
      rw [List.getElem?_eq_getElem hi]
      congr 1
      omega

/-- C22: the pose of a link is the ordered product of the link transforms along the path to the
world (and every link has such a path). -/
theorem C22_path [Field α] {E : JEnv α π} {s : System α π} (h : s.WF E.toEnv)
    (hj : s.Jointed E) {q : List α} (hq : q.length = (s.link_types.map (wOf E.qw)).sum)
    {xs : List (Transform α)} {s' : System α π}
    (hf : s.forward_kinematics_transforms E q = .ok (xs, s')) (i : Nat)
    (hi : i < s.link_parents.length) :
    ∃ l ts, Path s.link_parents i l ∧
      List.Forall₂ (fun j t => ∃ row, s'.links[j]? = some row ∧ row.transform = t) l ts ∧
      xs[i]? = some (ts.foldr transform_mul .zero) := by
  obtain ⟨l, hl⟩ := path_exists h.topo i hi
  have fk := isFK_unique h hj hq hf
  refine ⟨l, ?_⟩
  have key : ∀ j row, j < s.link_parents.length → s.links[j]? = some row →
      ∃ p, s.link_parents[j]? = some p ∧ ∃ r, s'.links[j]? = some r ∧
        xs[j]? = some (transform_mul r.transform (poseAt xs p)) := by
    intro j row hj' hrow
    obtain ⟨T, _, h2, h3⟩ := fk.pose j hj' row hrow
    exact ⟨_, List.getElem?_eq_getElem hj', _, h3, h2⟩
  have rowAt : ∀ j, j < s.link_parents.length → ∃ row, s.links[j]? = some row := fun j hj' =>
    ⟨_, List.getElem?_eq_getElem (by rw [h.links_len]; exact hj')⟩
  suffices H : ∃ ts, List.Forall₂ (fun j t => ∃ row, s'.links[j]? = some row ∧ row.transform = t)
      l ts ∧ xs[i]? = some (ts.foldr transform_mul .zero) by
    obtain ⟨ts, h1, h2⟩ := H
    exact ⟨ts, hl, h1, h2⟩
  clear hi
  induction hl with
  | @root i hp =>
    have hi : i < s.link_parents.length := (List.getElem?_eq_some_iff.1 hp).1
    obtain ⟨row, hrow⟩ := rowAt i hi
    obtain ⟨p, hp', r, hr, hx⟩ := key i row hi hrow
    rw [hp] at hp'
    cases hp'
    refine ⟨[r.transform], .cons ⟨r, hr, rfl⟩ .nil, ?_⟩
    rw [hx]
    rfl
  | @step i p l hp _ ih =>
    have hi : i < s.link_parents.length := (List.getElem?_eq_some_iff.1 hp).1
    obtain ⟨row, hrow⟩ := rowAt i hi
    obtain ⟨p', hp', r, hr, hx⟩ := key i row hi hrow
    rw [hp] at hp'
    cases hp'
    obtain ⟨ts, h1, h2⟩ := ih
    refine ⟨r.transform :: ts, .cons ⟨r, hr, rfl⟩ h1, ?_⟩
    rw [hx]
    congr 1
    show transform_mul _ (poseAt xs (p : Int)) = transform_mul _ (ts.foldr transform_mul .zero)
    congr 1
    unfold poseAt
    rw [if_neg (by omega)]
    simp [h2]

/-- C22: changing the coordinates of link `k` only leaves the poses of all links outside the subtree
of `k` where they are. -/
theorem C22_local [Field α] {E : JEnv α π} {s : System α π} (h : s.WF E.toEnv)
    (hj : s.Jointed E) {q q' : List α} (hq : q.length = (s.link_types.map (wOf E.qw)).sum)
    (hq' : q'.length = (s.link_types.map (wOf E.qw)).sum) (k : Nat)
    (heq : ∀ i, i ≠ k → ownSlice E.qw s.link_types q i = ownSlice E.qw s.link_types q' i)
    {xs xs' : List (Transform α)} {s1 s1' : System α π}
    (hf : s.forward_kinematics_transforms E q = .ok (xs, s1))
    (hf' : s.forward_kinematics_transforms E q' = .ok (xs', s1')) (i : Nat)
    (hi : ¬ Desc s.link_parents k i) : xs[i]? = xs'[i]? := by
  have fk := isFK_unique h hj hq hf
  have fk' := isFK_unique h hj hq' hf'
  induction i using Nat.strong_induction_on with
  | _ i ih =>
    by_cases hil : i < s.link_parents.length
    · have hrow : s.links[i]? = some (s.links[i]'(by rw [h.links_len]; exact hil)) :=
        List.getElem?_eq_getElem _
      obtain ⟨T, ⟨jm, p, hjm, hp, rfl⟩, hx, _⟩ := fk.pose i hil _ hrow
      obtain ⟨T', ⟨jm', p', hjm', hp', rfl⟩, hx', _⟩ := fk'.pose i hil _ hrow
      rw [hjm] at hjm'
      rw [hp] at hp'
      cases hjm'
      cases hp'
      rw [hx, hx', heq i (fun e => hi (e ▸ .self))]
      obtain ⟨h1, h2⟩ := h.topo i hil
      have : poseAt xs s.link_parents[i] = poseAt xs' s.link_parents[i] := by
        unfold poseAt
        split
        · rfl
        · have := ih s.link_parents[i].toNat (by omega) (fun hd => hi (.step (p := s.link_parents[i].toNat)
            (by rw [List.getElem?_eq_getElem hil]; congr 1; omega) hd))
          simp [List.getD, this]
      rw [this]
    · rw [List.getElem?_eq_none (by rw [fk.len]; omega),
        List.getElem?_eq_none (by rw [fk'.len]; omega)]

/-- C22: the links strictly below the changed link move rigidly: their pose relative to their parent
does not change. -/
theorem C22_rigid [Field α] {E : JEnv α π} {s : System α π} (h : s.WF E.toEnv)
    (hj : s.Jointed E) {q q' : List α} (hq : q.length = (s.link_types.map (wOf E.qw)).sum)
    (hq' : q'.length = (s.link_types.map (wOf E.qw)).sum) (k : Nat)
    (heq : ∀ i, i ≠ k → ownSlice E.qw s.link_types q i = ownSlice E.qw s.link_types q' i)
    {xs xs' : List (Transform α)} {s1 s1' : System α π}
    (hf : s.forward_kinematics_transforms E q = .ok (xs, s1))
    (hf' : s.forward_kinematics_transforms E q' = .ok (xs', s1')) (i : Nat) (hik : i ≠ k)
    (hi : i < s.link_parents.length) :
    ∃ t, xs[i]? = some (transform_mul t (poseAt xs s.link_parents[i])) ∧
      xs'[i]? = some (transform_mul t (poseAt xs' s.link_parents[i])) := by
  have fk := isFK_unique h hj hq hf
  have fk' := isFK_unique h hj hq' hf'
  have hrow : s.links[i]? = some (s.links[i]'(by rw [h.links_len]; exact hi)) :=
    List.getElem?_eq_getElem _
  obtain ⟨T, ⟨jm, p, hjm, hp, rfl⟩, hx, _⟩ := fk.pose i hi _ hrow
  obtain ⟨T', ⟨jm', p', hjm', hp', rfl⟩, hx', _⟩ := fk'.pose i hi _ hrow
  rw [hjm] at hjm'
  rw [hp] at hp'
  cases hjm'
  cases hp'
  rw [← heq i hik] at hx'
  exact ⟨_, hx, hx'⟩

/-- the hypotheses of `C22_local` can be met with a real change: only link 1 gets another angle -/
example : ∀ i, i ≠ 1 →
    ownSlice stdEnv.qw kinSys.link_types [1, 0, 0, 0, 1, 2, 3, 1, 5, 0, 1, 0, (0 : ℝ)] i =
    ownSlice stdEnv.qw kinSys.link_types [1, 0, 0, 0, 1, 2, 3, 2, 5, 0, 1, 0, (0 : ℝ)] i := by
  have h1 : wOf stdEnv.qw "free" = 7 := by decide
  have h2 : wOf stdEnv.qw "rx" = 1 := by decide
  have h3 : wOf stdEnv.qw "py" = 1 := by decide
  have h4 : wOf stdEnv.qw "spherical" = 4 := by decide
  have h5 : wOf stdEnv.qw "" = 0 := by decide
  intro i hi
  match i, hi with
  | 0, _ => simp [ownSlice, kinSys, h1]
  | 2, _ => simp [ownSlice, kinSys, h1, h2, h3]
  | 3, _ => simp [ownSlice, kinSys, h1, h2, h3, h4]
  | i + 4, _ => simp [ownSlice, kinSys, h5]

end RingLib
