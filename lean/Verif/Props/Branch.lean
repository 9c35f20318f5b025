import Verif.Props.Separate

/-!
# C117: a joint carries only what hangs at it

The torque at a joint depends on the links below it and, through their motion, on the links that carry it. Other branches
do not matter.
-/

namespace RingLib
open maths jcalc algebra Finset _root_.RingLib.System

variable {π' : Type} {E : JEnv ℝ π'} {s s₂ : System ℝ π'} {k : Nat}

theorem branch_up (parents : List Int) (k : Nat) : Upward parents (OnBranch parents k) := by
  rintro i p e (h | h)
  · cases h with
    | self => exact Or.inr (.step e .self)
    | step e' h =>
      rw [e] at e'
      obtain rfl := Int.ofNat_inj.mp ((Option.some.injEq _ _).mp e')
      exact Or.inl h
  · exact Or.inr (Desc.trans (.step e .self) h)

theorem below_down (parents : List Int) (k : Nat) : Downward parents (Desc parents k) := fun _ _ e h => .step e h

theorem outside_up (parents : List Int) (k : Nat) : Upward parents (fun i => ¬ Desc parents k i) :=
  fun _ _ e h h' => h (.step e h')

/-- C117: the pose of a link depends only on the links that carry it (and on itself). -/
theorem C117_poses (hE : E.Std) (a : AgreeOn E.toEnv (fun i => Desc s.link_parents i k) s s₂) (h : s.Simulable E)
    (h₂ : s₂.Simulable E) {q q₂ : List ℝ} (hq : q.length = (s.link_types.map (wOf E.qw)).sum) (lq : q₂.length = q.length)
    (eq : SameOn E.qw s.link_types (fun i => Desc s.link_parents i k) q q₂) :
    ∃ xs xs₂ f f₂, s.forward_kinematics_transforms E q = .ok (xs, f) ∧
      s₂.forward_kinematics_transforms E q₂ = .ok (xs₂, f₂) ∧ xs₂[k]? = xs[k]? := by
  have hty : s₂.link_types = s.link_types := by rw [a.rest]
  have hpa : s₂.link_parents = s.link_parents := by rw [a.rest]
  refine ⟨_, _, _, _, fk_eq h.wf (h.jointed hE) hq, fk_eq h₂.wf (h₂.jointed hE) (by rw [hty, lq]; exact hq), ?_⟩
  have hup : Upward s.link_parents (fun i => Desc s.link_parents i k) := fun i p e h => Desc.trans (.step e .self) h
  rw [hpa]
  by_cases hi : k < s.link_parents.length
  · simp [hi, a.pose h.wf hup eq hi .self]
  · simp [hi]

/-- C117: the torques that inverse dynamics returns for a link and those below it depend only on these links and on those
that carry them: on their coordinates, velocities, accelerations, mounting and bodies. -/
theorem C117_torques (hE : E.Std) (a : AgreeOn E.toEnv (OnBranch s.link_parents k) s s₂) (h : s.Simulable E)
    (h₂ : s₂.Simulable E) {q u w q₂ u₂ w₂ : List ℝ} (hq : q.length = (s.link_types.map (wOf E.qw)).sum)
    (hu : u.length = (s.link_types.map (wOf E.dw)).sum) (hw : w.length = u.length)
    (lq : q₂.length = q.length) (lu : u₂.length = u.length) (lw : w₂.length = w.length)
    (hU : s.UnitQ E q) (hU₂ : s.UnitQ E q₂) (eq : SameOn E.qw s.link_types (OnBranch s.link_parents k) q q₂)
    (eu : SameOn E.dw s.link_types (OnBranch s.link_parents k) u u₂)
    (ew : SameOn E.dw s.link_types (OnBranch s.link_parents k) w w₂) {xs xs₂ : List (Transform ℝ)}
    {f f₂ : System ℝ π'} (hf : s.forward_kinematics_transforms E q = .ok (xs, f))
    (hf₂ : s₂.forward_kinematics_transforms E q₂ = .ok (xs₂, f₂)) :
    ∃ tau tau₂, inverse_dynamics E f u w = .ok tau ∧ inverse_dynamics E f₂ u₂ w₂ = .ok tau₂ ∧
      SameOn E.dw s.link_types (Desc s.link_parents k) tau tau₂ := by
  have hty : s₂.link_types = s.link_types := by rw [a.rest]
  have hUi : s₂.UnitQ E q₂ := by
    rw [a.rest]
    exact hU₂
  have hq₂ : q₂.length = (s₂.link_types.map (wOf E.qw)).sum := by rw [hty, lq]; exact hq
  obtain ⟨_, hsim, hdyn⟩ := fk_same hE h hq hU hf
  obtain ⟨_, hsim₂, hdyn₂⟩ := fk_same hE h₂ hq₂ hUi hf₂
  obtain rfl : f = filled E s q := by
    rw [fk_eq h.wf (h.jointed hE) hq] at hf
    exact ((Prod.mk.injEq _ _ _ _).mp ((Except.ok.injEq _ _).mp hf)).2.symm
  obtain rfl : f₂ = filled E s₂ q₂ := by
    rw [fk_eq h₂.wf (h₂.jointed hE) hq₂] at hf₂
    exact ((Prod.mk.injEq _ _ _ _).mp ((Except.ok.injEq _ _).mp hf₂)).2.symm
  have d := a.dynOn h.wf eq
  refine ⟨_, _, inverse_dynamics_ok hdyn.wf hdyn.jointed hu (hw.trans hu) hsim.nonempty,
    inverse_dynamics_ok hdyn₂.wf hdyn₂.jointed (by rw [d.types, lu]; exact hu)
      (by rw [d.types, lw, hw]; exact hu) hsim₂.nonempty, ?_⟩
  have c : dofCount E (filled E s₂ q₂) = dofCount E (filled E s q) := by rw [d.rest]; rfl
  exact same_of_entries hdyn (by rw [torques_length]; exact hdyn.count) (by rw [torques_length, torques_length, c])
    fun r hr hPr => d.torques_eq hdyn (branch_up _ k) (below_down _ k) (fun _ h => Or.inl h) eu ew hr hPr

/-! ## the mass matrix -/

theorem massEntry_branch (ht : Topological s.link_parents) {r c : Nat}
    (hrc : ¬ OnBranch s.link_parents (dofLink E s r) (dofLink E s c)) : massEntry E s r c = 0 := by
  have out : ∀ r i, i < s.link_parents.length → ¬ Desc s.link_parents (dofLink E s r) i →
      vel s.link_parents s.linkT (dofMotion E s r) i = 0 := by
    intro r i hi hd
    refine vel_outside ht (outside_up _ (dofLink E s r)) (fun j _ hj => ?_) i hi hd
    unfold dofMotion single
    rw [if_neg]
    rintro rfl
    exact hj .self
  unfold massEntry energyForm
  apply Finset.sum_eq_zero
  intro i hi
  rw [Finset.mem_range] at hi
  by_cases h1 : Desc s.link_parents (dofLink E s r) i
  · by_cases h2 : Desc s.link_parents (dofLink E s c) i
    · exact absurd (Desc.comparable h1 h2) hrc
    · rw [out c i hi h2]
      simp [motion_dot_zero_right, inertia_mul_zero]
  · rw [out r i hi h1]
    simp [motion_dot_zero_left]

/-- the first degree of freedom of a link -/
theorem dofStart_widths (h : s.Dynamic E) {i : Nat} (hi : i < s.link_types.length) :
    dofStart E s i = ((s.link_types.take i).map (wOf E.dw)).sum := by
  have hm := theMap_d h.wf h.jointed h.widths hi
  unfold IdxMap.d theMap at hm
  simp only at hm
  rw [idxsFrom_getElem?, if_pos (by simpa using hi), Nat.zero_add] at hm
  simp only [Except.ok.injEq, Prod.mk.injEq] at hm
  rw [List.map_take, hm.1]
  rfl

/-- C117: the mass matrix couples two joints only if one of them carries the other. -/
theorem C117_mass_matrix (h : s.Dynamic E) :
    ∃ M, compute_mass_matrix E s = .ok M ∧ M.size = (s.link_types.map (wOf E.dw)).sum ∧
      ∀ i j a b, i < s.link_types.length → j < s.link_types.length → ¬ OnBranch s.link_parents i j →
        a < wOf E.dw (s.link_types.getD i "") → b < wOf E.dw (s.link_types.getD j "") →
        M.entry (((s.link_types.take i).map (wOf E.dw)).sum + a) (((s.link_types.take j).map (wOf E.dw)).sum + b) = 0 := by
  obtain ⟨M, hM, hs, he⟩ := mass_matrix_entries h
  refine ⟨M, hM, hs, ?_⟩
  intro i j a b hi hj hij ha hb
  have ax : ∀ {i a}, i < s.link_types.length → a < wOf E.dw (s.link_types.getD i "") → a < (s.axesAt E i).length ∧
      dofStart E s i + a < M.size := by
    intro i a hi ha
    have e : s.link_types.getD i "" = s.link_types[i] := by simp [hi]
    have h1 : a < (s.axesAt E i).length := by
      rw [axesAt_length h.wf h.jointed h.widths hi, ← e]
      exact ha
    refine ⟨h1, ?_⟩
    have h2 : dofStart E s (i + 1) ≤ dofCount E s := dofStart_mono (by rw [← h.wf.types_len]; omega)
    rw [dofStart_succ] at h2
    rw [hs, ← h.count]
    omega
  obtain ⟨a1, a2⟩ := ax hi ha
  obtain ⟨b1, b2⟩ := ax hj hb
  have hne : dofStart E s i + a ≠ dofStart E s j + b := by
    intro e
    have l1 := dofLink_eq (E := E) (s := s) (by rw [← h.wf.types_len]; exact hi) a1
    have l2 := dofLink_eq (E := E) (s := s) (by rw [← h.wf.types_len]; exact hj) b1
    rw [e, l2] at l1
    subst l1
    exact hij (Or.inl .self)
  rw [← dofStart_widths h hi, ← dofStart_widths h hj, he _ _ a2 b2, if_neg hne, add_zero]
  refine massEntry_branch h.wf.topo ?_
  rw [dofLink_eq (by rw [← h.wf.types_len]; exact hi) a1, dofLink_eq (by rw [← h.wf.types_len]; exact hj) b1]
  exact hij

/-! ### examples

The body `a` carries the arm `b` with the hand `d`, and the slider `c`. -/

theorem kinSys_unitQ_slider (y : ℝ) : kinSys.UnitQ stdEnv [0, 1, 0, 0, 5, 6, 7, 1 / 2, y, 1, 0, 0, 0] := by
  intro i hi hj
  have hi4 : i < 4 := hi
  have w := kinSys_widths.1
  have e := ownSlice_eq stdEnv.qw kinSys.link_types
    ([0, 1, 0, 0, 5, 6, 7, 1 / 2, y, 1, 0, 0, 0] : List ℝ) i hi
  rw [w] at e
  simp only [chunks, List.take_succ_cons, List.take_zero, List.drop_succ_cons, List.drop_zero] at e
  match i, hi4 with
  | 0, _ =>
    have e := Option.some.inj e
    simp only [← e]
    norm_num
  | 1, _ => simp [kinSys] at hj; exact absurd hj (by decide)
  | 2, _ => simp [kinSys] at hj; exact absurd hj (by decide)
  | 3, _ =>
    have e := Option.some.inj e
    simp only [← e]
    norm_num

/-- the slider is not on a branch through the arm -/
theorem slider_off_branch : ¬ OnBranch kinSys.link_parents 1 2 := by
  rintro (h | h)
  · cases h with
    | step e h =>
      cases e
      cases h with
      | step e _ => cases e
  · have := h.le kinSys_wf.topo
    omega

/-- vectors that differ only at the slider -/
theorem same_but_slider {w : String → Option Nat} {n0 n1 n3 : Nat} (hw : kinSys.link_types.map (wOf w) = [n0, n1, 1, n3])
    {x z : List ℝ} (hx : x.length = n0 + n1) (a b : ℝ) :
    SameOn w kinSys.link_types (OnBranch kinSys.link_parents 1) (x ++ a :: z) (x ++ b :: z) := by
  intro i hi hP
  have e1 := ownSlice_eq w kinSys.link_types (x ++ a :: z) i hi
  have e2 := ownSlice_eq w kinSys.link_types (x ++ b :: z) i hi
  rw [hw] at e1 e2
  have hi4 : i < 4 := hi
  have d : ∀ y : ℝ, ((x ++ y :: z).drop n0).drop n1 = y :: z := by
    intro y
    rw [List.drop_drop, ← hx, List.drop_left]
  have t0 : ∀ y : ℝ, (x ++ y :: z).take n0 = x.take n0 := by
    intro y
    rw [List.take_append_of_le_length (by omega)]
  have t1 : ∀ y : ℝ, ((x ++ y :: z).drop n0).take n1 = (x.drop n0).take n1 := by
    intro y
    rw [List.drop_append_of_le_length (by omega), List.take_append_of_le_length (by simp; omega)]
  simp only [chunks, d, t0, t1] at e1 e2
  match i, hi4 with
  | 0, _ => exact Option.some.inj (e2.symm.trans e1)
  | 1, _ => exact Option.some.inj (e2.symm.trans e1)
  | 2, _ => exact absurd hP slider_off_branch
  | 3, _ => exact Option.some.inj (e2.symm.trans e1)

/-- how the slider stands and moves makes no difference to the torques in the arm and the hand -/
example (y y₂ v v₂ c c₂ : ℝ) {xs xs₂ : List (Transform ℝ)} {f f₂ : System ℝ Unit}
    (hf : kinSys.forward_kinematics_transforms stdEnv [0, 1, 0, 0, 5, 6, 7, 1 / 2, y, 1, 0, 0, 0] = .ok (xs, f))
    (hf₂ : kinSys.forward_kinematics_transforms stdEnv [0, 1, 0, 0, 5, 6, 7, 1 / 2, y₂, 1, 0, 0, 0] = .ok (xs₂, f₂)) :
    ∃ tau tau₂, inverse_dynamics stdEnv f [1, 2, 3, 4, 5, 6, 7, v, 8, 9, 10] [1, 1, 1, 1, 1, 1, 1, c, 1, 1, 1] = .ok tau ∧
      inverse_dynamics stdEnv f₂ [1, 2, 3, 4, 5, 6, 7, v₂, 8, 9, 10] [1, 1, 1, 1, 1, 1, 1, c₂, 1, 1, 1] = .ok tau₂ ∧
      SameOn stdEnv.dw kinSys.link_types (Desc kinSys.link_parents 1) tau tau₂ := by
  have refl : AgreeOn stdEnv.toEnv (OnBranch kinSys.link_parents 1) kinSys kinSys :=
    ⟨rfl, fun _ _ => ⟨rfl, rfl⟩, fun _ _ _ => rfl, fun _ _ _ => rfl, fun _ _ _ => rfl, fun _ _ _ => rfl⟩
  exact C117_torques (q := [0, 1, 0, 0, 5, 6, 7, 1 / 2, y, 1, 0, 0, 0]) (q₂ := [0, 1, 0, 0, 5, 6, 7, 1 / 2, y₂, 1, 0, 0, 0])
    (u := [1, 2, 3, 4, 5, 6, 7, v, 8, 9, 10]) (u₂ := [1, 2, 3, 4, 5, 6, 7, v₂, 8, 9, 10])
    (w := [1, 1, 1, 1, 1, 1, 1, c, 1, 1, 1]) (w₂ := [1, 1, 1, 1, 1, 1, 1, c₂, 1, 1, 1]) stdEnv_std refl kinSys_simulable kinSys_simulable (by rw [kinSys_widths.1]; rfl)
    (by rw [kinSys_widths.2]; rfl) rfl rfl rfl rfl (kinSys_unitQ_slider y) (kinSys_unitQ_slider y₂)
    (same_but_slider (x := [0, 1, 0, 0, 5, 6, 7, 1 / 2]) kinSys_widths.1 rfl y y₂)
    (same_but_slider (x := [1, 2, 3, 4, 5, 6, 7]) kinSys_widths.2 rfl v v₂)
    (same_but_slider (x := [1, 1, 1, 1, 1, 1, 1]) kinSys_widths.2 rfl c c₂) hf hf₂

/-- the joint of the arm (degree of freedom 6) and that of the slider (7) are not coupled -/
example (y : ℝ) {xs : List (Transform ℝ)} {f : System ℝ Unit}
    (hf : kinSys.forward_kinematics_transforms stdEnv [0, 1, 0, 0, 5, 6, 7, 1 / 2, y, 1, 0, 0, 0] = .ok (xs, f)) :
    ∃ M, compute_mass_matrix stdEnv f = .ok M ∧ M.size = 11 ∧ M.entry 6 7 = 0 := by
  have hq : ([0, 1, 0, 0, 5, 6, 7, 1 / 2, y, 1, 0, 0, 0] : List ℝ).length =
      (kinSys.link_types.map (wOf stdEnv.qw)).sum := by rw [kinSys_widths.1]; rfl
  obtain ⟨_, _, hdyn⟩ := fk_same stdEnv_std kinSys_simulable hq (kinSys_unitQ_slider y) hf
  obtain rfl : f = filled stdEnv kinSys [0, 1, 0, 0, 5, 6, 7, 1 / 2, y, 1, 0, 0, 0] := by
    rw [fk_eq kinSys_simulable.wf (kinSys_simulable.jointed stdEnv_std) hq] at hf
    exact ((Prod.mk.injEq _ _ _ _).mp ((Except.ok.injEq _ _).mp hf)).2.symm
  obtain ⟨M, hM, hs, h⟩ := C117_mass_matrix hdyn
  have w : kinSys.link_types.map (wOf stdEnv.dw) = [6, 1, 1, 3] := kinSys_widths.2
  have w1 : (kinSys.link_types.take 1).map (wOf stdEnv.dw) = [6] := by rw [List.map_take, w]; rfl
  have w2 : (kinSys.link_types.take 2).map (wOf stdEnv.dw) = [6, 1] := by rw [List.map_take, w]; rfl
  have g : ∀ i, i < 4 → wOf stdEnv.dw (kinSys.link_types.getD i "") = [6, 1, 1, 3].getD i 0 := by
    intro i hi
    rw [← w]
    match i, hi with
    | 0, _ | 1, _ | 2, _ | 3, _ => rfl
  refine ⟨M, hM, hs.trans ?_, ?_⟩
  · show (kinSys.link_types.map (wOf stdEnv.dw)).sum = 11
    rw [w]
    rfl
  · have := h 1 2 0 0 (by show 1 < 4; omega) (by show 2 < 4; omega) slider_off_branch
      (by show 0 < wOf stdEnv.dw (kinSys.link_types.getD 1 ""); rw [g 1 (by omega)]; decide)
      (by show 0 < wOf stdEnv.dw (kinSys.link_types.getD 2 ""); rw [g 2 (by omega)]; decide)
    change M.entry (((kinSys.link_types.take 1).map (wOf stdEnv.dw)).sum + 0)
      (((kinSys.link_types.take 2).map (wOf stdEnv.dw)).sum + 0) = 0 at this
    rw [w1, w2] at this
    exact this

end RingLib
