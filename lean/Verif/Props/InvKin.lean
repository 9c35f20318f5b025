import Verif.Props.Kinematics

/-! # Property C23: inverse kinematics, and C11: valid coordinates -/

namespace RingLib
open System algebra maths jcalc Real
variable {π' : Type}

/-- the joints with a working inverse kinematics -/
def Invertible : BuiltIn → Prop
  | .free | .frozen | .spherical | .p3d | .r _ | .p _ => True
  | .free_2d | .cor | .saddle => False

/-- Admissible coordinates: unit quaternions, and hinge angles within one turn on either side of
zero (in particular all angles in `[-π, π)`). -/
def Admissible : BuiltIn → List ℝ → Prop
  | .free, c => c.getD 0 0 ^ 2 + c.getD 1 0 ^ 2 + c.getD 2 0 ^ 2 + c.getD 3 0 ^ 2 = 1
  | .spherical, c => c.getD 0 0 ^ 2 + c.getD 1 0 ^ 2 + c.getD 2 0 ^ 2 + c.getD 3 0 ^ 2 = 1
  | .r _, c => -(2 * π) ≤ c.getD 0 0 ∧ c.getD 0 0 < 2 * π
  | _, _ => True

theorem rxyz_rot (a : Axis) (φ : ℝ) :
    quat_rot_axis a.unit φ = rotQuat a.unit (-φ) := by
  rw [quat_rot_axis_eq, safe_normalize_of_unit (by cases a <;> simp [Axis.unit])]

/-- inverse kinematics of one joint -/
theorem joint_inv_kin {b : BuiltIn} (hb : Invertible b) {c : List ℝ} (hc : c.length = b.q_width)
    (ha : Admissible b c) (p : π') :
    ((b.model : JointModel ℝ π').transform c p).rot.normSq = 1 ∧
    ∃ f, (b.model : JointModel ℝ π').inv_kin = some f ∧ f (b.model.transform c p) p = .ok c := by
  cases b with
  | free =>
    match c, hc with
    | [a0, a1, a2, a3, a4, a5, a6], _ =>
      refine ⟨?_, _, rfl, rfl⟩
      simp [Admissible] at ha
      simp [BuiltIn.model, _free_transform, quatOf, Quat.normSq]
      linear_combination ha
  | frozen =>
    match c, hc with
    | [], _ => exact ⟨transform_zero_unit, _, rfl, rfl⟩
  | spherical =>
    match c, hc with
    | [a0, a1, a2, a3], _ =>
      refine ⟨?_, _, rfl, rfl⟩
      simp [Admissible] at ha
      simp [BuiltIn.model, _spherical_transform, quatOf, Quat.normSq]
      linear_combination ha
  | p3d =>
    match c, hc with
    | [a0, a1, a2], _ => exact ⟨transform_zero_unit, _, rfl, rfl⟩
  | r a =>
    match c, hc with
    | [φ], _ =>
      have hu : (a.unit : Vec3 ℝ).x ^ 2 + (a.unit : Vec3 ℝ).y ^ 2 + (a.unit : Vec3 ℝ).z ^ 2 = 1 := by
        cases a <;> simp [Axis.unit]
      refine ⟨?_, _, rfl, ?_⟩
      · simp only [BuiltIn.model, _rxyz_transform, rxyz_rot]
        exact rotQuat_unit hu _
      · simp only [Admissible, List.getD_cons_zero] at ha
        simp only [BuiltIn.model, _rxyz_transform, rxyz_rot, _inv_kin_rxyz, List.getD_cons_zero]
        have : atan2 ((rotQuat (a.unit : Vec3 ℝ) (-φ)).vec.dot a.unit)
            (rotQuat (a.unit : Vec3 ℝ) (-φ)).w = -φ / 2 := by
          apply atan2_unit
          · linarith
          · linarith
          · cases a <;> simp [Axis.unit, rotQuat, Quat.vec, Vec3.dot]
          · simp [rotQuat]
        rw [this]
        congr 2
        ring
  | p a =>
    match c, hc with
    | [d], _ =>
      refine ⟨transform_zero_unit, _, rfl, ?_⟩
      cases a <;> simp [BuiltIn.model, _pxyz_transform, _inv_kin_pxyz, Axis.unit, Vec3.smul]
  | free_2d => exact hb.elim
  | cor => exact hb.elim
  | saddle => exact hb.elim

theorem transform_mul_mul_inv {R : Type} [CommRing R] {t : Transform R} (h : t.rot.normSq = 1)
    (a : Transform R) : transform_mul (transform_mul a t) (transform_inv t) = a := by
  rw [transform_mul_assoc', transform_mul_inv h, transform_mul_zero]

theorem wOf_std {E : JEnv ℝ π'} (hE : E.Std) (b : BuiltIn) :
    wOf E.qw b.name = b.q_width ∧ wOf E.dw b.name = b.qd_width := by
  unfold wOf
  rw [hE.qw, hE.dw]
  exact ⟨rfl, rfl⟩

theorem ownSlice_length {β : Type} {w : String → Option Nat} {types : List String} {xs : List β}
    (h : xs.length = (types.map (wOf w)).sum) {i : Nat} (hi : i < types.length) :
    (ownSlice w types xs i).length = wOf w types[i] := (C01_partition w types xs h).2 i hi

theorem pyGet_nat {β : Type} {l : List β} {i : Nat} {x : β} (h : l[i]? = some x) :
    pyGet l (i : Int) = .ok x := by
  unfold pyGet
  simp only
  rw [if_neg (by omega), if_neg (by omega), Int.toNat_natCast, h]

/-- C23: inverse kinematics recovers the coordinates from the poses that forward kinematics
computed, exactly (not only up to the sign of quaternions), for systems of free, spherical, frozen,
translational (`p3d`, prismatic) and revolute joints. -/
theorem C23_inverse {E : JEnv ℝ π'} (hE : E.Std) {s : System ℝ π'} (h : s.WF E.toEnv)
    (hd : "default" ∈ s.joint_params.map (·.1)) (hpos : 0 < s.num_links)
    (hinv : s.JointsIn Invertible)
    (hunit : ∀ row ∈ s.links, row.transform1.rot.normSq = 1)
    {q : List ℝ} (hq : q.length = (s.link_types.map (wOf E.qw)).sum)
    (hadm : ∀ i b, s.link_types[i]? = some (BuiltIn.name b) →
      Admissible b (ownSlice E.qw s.link_types q i))
    (q0 qd : List ℝ) (x0 : List (Transform ℝ)) :
    ∃ s' state, s.forward_kinematics E ⟨q, qd, x0⟩ = .ok (s', state) ∧ state.q = q ∧
      s.inverse_kinematics E ⟨q0, qd, state.x⟩ = .ok ⟨q, qd, state.x⟩ ∧
      s'.inverse_kinematics E ⟨q0, qd, state.x⟩ = .ok ⟨q, qd, state.x⟩ := by
  have hj : s.Jointed E := ⟨fun t ht => by
    obtain ⟨b, _, rfl⟩ := hinv t ht
    exact ⟨_, hE.joints b⟩, hd⟩
  obtain ⟨xs, s', hf, fk⟩ := C22_forward h hj hq
  have bAt : ∀ i (hi : i < s.link_types.length), ∃ b : BuiltIn, Invertible b ∧
      s.link_types[i] = b.name := fun i hi => hinv _ (List.getElem_mem _)
  -- the joint transform of a link
  have jt : ∀ i (hi : i < s.link_parents.length), ∃ b : BuiltIn, ∃ p : π', Invertible b ∧
      s.link_types[i]? = some b.name ∧ s.jointParam i = some p ∧
      (ownSlice E.qw s.link_types q i).length = b.q_width ∧
      Admissible b (ownSlice E.qw s.link_types q i) ∧
      ∀ T, s.IsJointTransform E q i T →
        T = (b.model : JointModel ℝ π').transform (ownSlice E.qw s.link_types q i) p := by
    intro i hi
    have hi2 : i < s.link_types.length := by rw [h.types_len]; exact hi
    obtain ⟨b, hb, hbn⟩ := bAt i hi2
    obtain ⟨p, hp⟩ := jointParam_isSome h hj hi
    have ht : s.link_types[i]? = some b.name := by rw [List.getElem?_eq_getElem hi2, hbn]
    refine ⟨b, p, hb, ht, hp, ?_, hadm i b ht, ?_⟩
    · rw [ownSlice_length hq hi2, hbn, (wOf_std hE b).1]
    · rintro T ⟨jm, p', h1, h2, rfl⟩
      have : s.link_types.getD i "" = b.name := by simp [ht]
      rw [this, hE.joints] at h1
      rw [hp] at h2
      cases h1
      cases h2
      rfl
  -- all poses are unit
  have unit : ∀ (i : Nat) (x : Transform ℝ), xs[i]? = some x → x.rot.normSq = 1 := by
    intro i
    induction i using Nat.strong_induction_on with
    | _ i ih =>
      intro x hx
      have hi : i < s.link_parents.length := by
        rw [← fk.len]; exact (List.getElem?_eq_some_iff.1 hx).1
      have hrow : s.links[i]? = some (s.links[i]'(by rw [h.links_len]; exact hi)) :=
        List.getElem?_eq_getElem _
      obtain ⟨T, hT, hx', _⟩ := fk.pose i hi _ hrow
      rw [hx] at hx'
      obtain ⟨b, p, hb, _, _, hl, ha, hu⟩ := jt i hi
      obtain rfl := hu T hT
      rw [Option.some.inj hx']
      apply transform_mul_unit
      · exact transform_mul_unit (joint_inv_kin hb hl ha p).1 (hunit _ (List.getElem_mem _))
      · unfold poseAt
        split
        · exact transform_zero_unit
        · obtain ⟨h1, h2⟩ := h.topo i hi
          have hlt : s.link_parents[i].toNat < xs.length := by rw [fk.len]; omega
          apply ih s.link_parents[i].toNat (by omega)
          simp [hlt]
  have main : ∀ s2 : System ℝ π', s2.link_parents = s.link_parents → s2.link_types = s.link_types →
      s2.joint_params = s.joint_params →
      s2.links.map LinkRow.transform1 = s.links.map LinkRow.transform1 →
      s2.inverse_kinematics E ⟨q0, qd, xs⟩ = .ok ⟨q, qd, xs⟩ := by
    intro s2 e1 e2 e3 e4
    have e5 : s2.links.length = s.links.length := by simpa using congrArg List.length e4
    unfold inverse_kinematics
    have key := scan_inv (E := E.toEnv) (s := s2) (by rw [e2]; exact h.known)
      (by rw [e1, e2]; exact h.types_len)
      (arg := (argL (List.range s2.num_links)).and <| (argL xs).and <| (argL s2.linkRows).and <|
        (argL s2.link_parents).and (argL s2.link_types))
      (g := inverse_kinematics_link E xs)
      (by
        intro x hx
        simp only [ScanArg.and, argL, List.mem_append, List.mem_singleton, List.mem_cons,
          List.not_mem_nil, or_false] at hx
        rcases hx with rfl | rfl | rfl | rfl | rfl
        · simp [num_links]
        · simp only; rw [fk.len, e1]
        · simp [linkRows_length, e5, e1, h.links_len]
        · rfl
        · simp only; rw [e1, e2]; exact h.types_len)
      (rows_and (rows_argL _ _) (rows_and (rows_argL _ _) (rows_and (rows_argL _ _)
        (rows_and (rows_argL _ _) (rows_argL _ _)))))
      (by simp [linkRows_length, e5, h.links_len, h.types_len, num_links, e1, e2, fk.len])
      (chunks (s.link_types.map (wOf E.qw)) q) (by simp [h.types_len, e1])
      (by
        intro i hi
        have hi0 : i < s.link_parents.length := by rw [← e1]; exact hi
        have hi1 : i < s.links.length := by rw [h.links_len]; exact hi0
        have hi2 : i < s.link_types.length := by rw [h.types_len]; exact hi0
        have hrow : s.links[i]? = some s.links[i] := List.getElem?_eq_getElem hi1
        have hi3 : i < s2.links.length := by rw [e5]; exact hi1
        have e6 : (s2.links[i]'hi3).transform1 = s.links[i].transform1 := by
          have := congrArg (·[i]?) e4
          simpa [hi1, hi3] using this
        obtain ⟨T, hT, hx, _⟩ := fk.pose i hi0 _ hrow
        obtain ⟨b, p, hb, ht, hp, hl, ha, hu⟩ := jt i hi0
        obtain rfl := hu T hT
        obtain ⟨hTu, f, hf1, hf2⟩ := joint_inv_kin hb hl ha p
        rw [List.getElem?_eq_getElem (by rw [fk.len]; exact hi0)] at hx
        have hxi := Option.some.inj hx
        have ht2 : s.link_types[i] = b.name := by
          rw [List.getElem?_eq_getElem hi2] at ht; exact Option.some.inj ht
        have ep : s2.link_parents[i] = s.link_parents[i] := by simp only [e1]
        have et : s2.link_types[i]'(by rw [e2]; exact hi2) = s.link_types[i] := by simp only [e2]
        have hxp : poseOrWorld xs s.link_parents[i] = .ok (poseAt xs s.link_parents[i]) := by
          obtain ⟨h1, h2⟩ := h.topo i hi0
          unfold poseOrWorld poseAt
          by_cases h0 : s.link_parents[i] = -1
          · rw [if_pos h0, if_pos (by omega)]
          · rw [if_neg h0, if_neg (by omega)]
            have hlt : s.link_parents[i].toNat < xs.length := by rw [fk.len]; omega
            have hnn : s.link_parents[i] = (s.link_parents[i].toNat : Int) := by omega
            have := pyGet_nat (List.getElem?_eq_getElem hlt)
            rw [← hnn] at this
            rw [this]
            simp [hlt]
        have hup : (poseAt xs s.link_parents[i]).rot.normSq = 1 := by
          unfold poseAt
          split
          · exact transform_zero_unit
          · obtain ⟨h1, h2⟩ := h.topo i hi0
            have hlt : s.link_parents[i].toNat < xs.length := by rw [fk.len]; omega
            apply unit s.link_parents[i].toNat
            simp [hlt]
        have hpa : s2.paramsAt i = s.paramsAt i := by unfold paramsAt; rw [e3]
        have hls : jcalc._limit_scope_of_joint_params b.name (s.paramsAt i) = .ok p :=
          limit_scope (fun x hx => by rw [h.jp_len x hx]; exact hi0) ht hp
        unfold inverse_kinematics_link
        simp only [List.getElem_zip, linkRows_getElem, chunks_row, ep, et, hxp, ok_bind, hpa, ht2,
          hls, hxi, e6, jcalc.get_joint_model, hE.joints, hf1]
        rw [transform_mul_mul_inv hup, transform_mul_mul_inv (hunit _ (List.getElem_mem _))]
        exact hf2)
    simp only at key ⊢
    rw [key]
    have hne : s.link_types ≠ [] := by
      intro e
      have := h.types_len
      rw [e] at this
      unfold num_links at hpos
      simp at this
      omega
    have hc : jnpConcatenate (chunks (s.link_types.map (wOf E.qw)) q) = .ok q := by
      have := chunks_flatten _ _ hq
      cases hw : chunks (s.link_types.map (wOf E.qw)) q with
      | nil =>
        have := congrArg List.length hw
        simp at this
        exact absurd this hne
      | cons a l => rw [hw] at this; show Except.ok _ = _; rw [this]
    simp only [ok_bind, hc, q_size, e2, sumWidths_known (fun t ht => (h.known t ht).1), pure_ok]
    rw [pyAssert_true hq]
    rfl
  refine ⟨s', ⟨q, qd, xs⟩, ?_, rfl, main s rfl rfl rfl rfl, ?_⟩
  · unfold forward_kinematics
    simp only [hf]
    rfl
  · have er := fk.rest
    refine main s' ?_ ?_ ?_ ?_
    · rw [er]
    · rw [er]
    · rw [er]
    · apply List.ext_getElem
      · simp [fk.links_len, h.links_len]
      · intro i h1 h2
        have hi1 : i < s.links.length := by simpa using h2
        obtain ⟨T, _, _, hr⟩ := fk.pose i (by rw [← h.links_len]; exact hi1) _
          (List.getElem?_eq_getElem hi1)
        have h3 : i < s'.links.length := by simpa using h1
        rw [List.getElem?_eq_getElem h3] at hr
        simp [Option.some.inj hr]

/-- the hypotheses of `C23_inverse` are satisfiable: a free root, hinge, slider and ball joint -/
example : ∃ s' state, kinSys.forward_kinematics stdEnv
      ⟨[0, 1, 0, 0, 1, 2, 3, 1, 5, 0, 0, 1, 0], [], []⟩ = .ok (s', state) ∧
      state.q = [0, 1, 0, 0, 1, 2, 3, 1, 5, 0, 0, 1, 0] ∧
      kinSys.inverse_kinematics stdEnv ⟨[], [], state.x⟩ =
        .ok ⟨[0, 1, 0, 0, 1, 2, 3, 1, 5, 0, 0, 1, 0], [], state.x⟩ ∧
      s'.inverse_kinematics stdEnv ⟨[], [], state.x⟩ =
        .ok ⟨[0, 1, 0, 0, 1, 2, 3, 1, 5, 0, 0, 1, 0], [], state.x⟩ := by
  have h1 : wOf stdEnv.qw "free" = 7 := by decide
  have h2 : wOf stdEnv.qw "rx" = 1 := by decide
  have h3 : wOf stdEnv.qw "py" = 1 := by decide
  have h4 : wOf stdEnv.qw "spherical" = 4 := by decide
  refine C23_inverse stdEnv_std kinSys_wf kinSys_jointed.default (by simp [kinSys, num_links]) ?_ ?_
    (by rw [kinSys_widths.1]; rfl) ?_ [] [] []
  · intro t ht
    simp [kinSys] at ht
    rcases ht with rfl | rfl | rfl | rfl
    · exact ⟨.free, trivial, rfl⟩
    · exact ⟨.r .x, trivial, rfl⟩
    · exact ⟨.p .y, trivial, rfl⟩
    · exact ⟨.spherical, trivial, rfl⟩
  · intro row hrow
    have : ∃ i, row = kinRow i := by
      simp [kinSys] at hrow
      rcases hrow with rfl | rfl | rfl | rfl <;> exact ⟨_, rfl⟩
    obtain ⟨i, rfl⟩ := this
    simp [kinRow, Quat.normSq]
  · have name_inj : ∀ b b' : BuiltIn, b.name = b'.name → b = b' := fun b b' e => by
      have := BuiltIn.ofName_name b
      rw [e, BuiltIn.ofName_name] at this
      exact (Option.some.inj this).symm
    intro i b hb
    have hi : i < 4 := (List.getElem?_eq_some_iff.1 hb).1
    match i, hi with
    | 0, _ =>
      obtain rfl : b = .free := name_inj _ _ (Option.some.inj hb).symm
      simp [Admissible, ownSlice, kinSys, h1]
    | 1, _ =>
      obtain rfl : b = .r .x := name_inj _ _ (Option.some.inj hb).symm
      have := pi_gt_three
      simp [Admissible, ownSlice, kinSys, h1, h2]
      constructor <;> linarith
    | 2, _ =>
      obtain rfl : b = .p .y := name_inj _ _ (Option.some.inj hb).symm
      trivial
    | 3, _ =>
      obtain rfl : b = .spherical := name_inj _ _ (Option.some.inj hb).symm
      simp [Admissible, ownSlice, kinSys, h1, h2, h3, h4]

theorem scan_stateless_ok {O Y : Type} {α : Type} {E : Env α π'} {s : System α π'}
    (hk : E.Known s.link_types) (hl : s.link_types.length = s.link_parents.length)
    {g : O → Py Y} {arg : ScanArg O} (hp : PiecesOk E s arg.pieces)
    {rows : List O} (hr : Rows (theMap E s.link_types) arg rows)
    (hn : rows.length = s.link_parents.length) {ys : List Y}
    (h : s.scan E (fun _ _ o => g o) arg = .ok ys) :
    ys.length = rows.length ∧
      ∀ i (h : i < rows.length) (h' : i < ys.length), g rows[i] = .ok ys[i] := by
  rw [scan_forward hk hl _ hp hr hn] at h
  exact (foldSpec_ok_iff _ _ _ _ _).1 h

/-- C23, the joints that are missing: as soon as one joint of the system is `free_2d`, `cor` or
`saddle`, `inverse_kinematics` raises, for every state. -/
theorem C23_unsupported_fails {E : JEnv ℝ π'} (hE : E.Std) {s : System ℝ π'} (h : s.WF E.toEnv)
    {b : BuiltIn} (hb : ¬ Invertible b) (hmem : b.name ∈ s.link_types)
    (state : State ℝ) (hx : state.x.length = s.num_links) :
    ¬ ∃ r, s.inverse_kinematics E state = .ok r := by
  rintro ⟨r, hr⟩
  unfold inverse_kinematics at hr
  obtain ⟨i, hi, hib⟩ := List.getElem_of_mem hmem
  have hi0 : i < s.link_parents.length := by rw [← h.types_len]; exact hi
  cases hs : s.scan E.toEnv (fun _ _ a => inverse_kinematics_link E state.x a)
    ((argL (List.range s.num_links)).and <| (argL state.x).and <| (argL s.linkRows).and <|
      (argL s.link_parents).and (argL s.link_types)) with
  | error e => simp only [hs, error_bind] at hr; cases hr
  | ok ys =>
    obtain ⟨h1, h2⟩ := scan_stateless_ok h.known h.types_len (by
        intro x hx'
        simp only [ScanArg.and, argL, List.mem_append, List.mem_singleton, List.mem_cons,
          List.not_mem_nil, or_false] at hx'
        rcases hx' with rfl | rfl | rfl | rfl | rfl
        · simp [num_links]
        · exact hx
        · simp [linkRows_length, h.links_len]
        · rfl
        · exact h.types_len)
      (rows_and (rows_argL _ _) (rows_and (rows_argL _ _) (rows_and (rows_argL _ _)
        (rows_and (rows_argL _ _) (rows_argL _ _)))))
      (by simp [linkRows_length, h.links_len, h.types_len, hx, num_links]) hs
    have hl : ((List.range s.num_links).zip (state.x.zip (s.linkRows.zip
        (s.link_parents.zip s.link_types)))).length = s.link_parents.length := by
      simp [linkRows_length, h.links_len, h.types_len, hx, num_links]
    have := h2 i (by rw [hl]; exact hi0) (by rw [h1, hl]; exact hi0)
    unfold inverse_kinematics_link at this
    simp only [List.getElem_zip, hib, jcalc.get_joint_model, hE.joints] at this
    generalize poseOrWorld state.x s.link_parents[i] = e1 at this
    cases e1 with
    | error e => simp [error_bind] at this
    | ok a =>
      generalize _limit_scope_of_joint_params b.name _ = e2 at this
      cases e2 with
      | error e => simp [error_bind, ok_bind] at this
      | ok p =>
        cases b <;> first | exact hb trivial | (simp [ok_bind, BuiltIn.model] at this)

/-- a system with a single `saddle` joint -/
noncomputable def sadSys : System ℝ Unit where
  link_parents := [-1]
  links := [⟨.zero, 0, 0, 0, .zero, .zero⟩]
  joint_params := [("default", [()])]
  link_types := ["saddle"]
  link_damping := [0, 0]
  link_armature := [1, 1]
  link_spring_stiffness := [0, 0]
  link_spring_zeropoint := [0, 0]
  dt := 1 / 100
  geoms := []
  gravity := ⟨0, 0, 981 / 100⟩
  integration_method := "semi_implicit_euler"
  mass_mat_iters := 0
  link_names := ["a"]
  model_name := none
  omc := [none]

theorem sadSys_widths : sadSys.link_types.map (wOf stdEnv.qw) = [2] ∧
    sadSys.link_types.map (wOf stdEnv.dw) = [2] := by
  refine ⟨?_, ?_⟩ <;> decide

theorem sadSys_wf : sadSys.WF stdEnv.toEnv where
  types_len := rfl
  links_len := rfl
  omc_len := rfl
  names_len := rfl
  names_nodup := by simp [sadSys]
  pos_ok := by simp [sadSys, stdEnv]
  geoms_ok := by simp [sadSys]
  known := by
    intro t ht
    simp [sadSys] at ht
    subst ht
    constructor <;> decide
  damping_len := by rw [sadSys_widths.2]; simp [sadSys]
  armature_len := by rw [sadSys_widths.2]; simp [sadSys]
  stiffness_len := by rw [sadSys_widths.2]; simp [sadSys]
  zeropoint_len := by rw [sadSys_widths.1]; simp [sadSys]
  unit_zero := by
    intro i hi
    have : i < 1 := hi
    match i, this with
    | 0, _ =>
      intro h
      have h : joint_type_is_free_or_cor_or_spherical "saddle" = true := h
      exact absurd h (by decide)
  topo := by
    intro i hi
    have : i < 1 := hi
    match i, this with
    | 0, _ => simp [sadSys]
  jp_keys := by simp [sadSys]
  jp_len := by simp [sadSys]
  inertia_ok := by
    intro i hi
    have : i < 1 := hi
    match i, this with
    | 0, _ => rfl
  geoms_sorted := by simp [sadSys]

example : ¬ ∃ r, sadSys.inverse_kinematics stdEnv ⟨[], [], [.zero]⟩ = .ok r :=
  C23_unsupported_fails stdEnv_std sadSys_wf (b := .saddle) id (by simp [sadSys, BuiltIn.name])
    _ rfl

/-! ## C11 -/

/-- `c'` is the valid version of the coordinates `c` of a joint -/
def CoordSpec : BuiltIn → List ℝ → List ℝ → Prop
  | .free, c, c' | .cor, c, c' | .spherical, c, c' =>
    c'.drop 4 = c.drop 4 ∧
    ((∃ j, j < 4 ∧ 1e-8 < |c.getD j 0|) →
      (c'.getD 0 0 ^ 2 + c'.getD 1 0 ^ 2 + c'.getD 2 0 ^ 2 + c'.getD 3 0 ^ 2 = 1 ∧
        ∃ r > 0, ∀ j, j < 4 → c'.getD j 0 = r * c.getD j 0))
  | .r _, c, c' | .saddle, c, c' => ∀ j, j < c.length →
    -π ≤ c'.getD j 0 ∧ c'.getD j 0 < π ∧ ∃ k : ℤ, c'.getD j 0 = c.getD j 0 + k * (2 * π)
  | .free_2d, c, c' => c'.drop 1 = c.drop 1 ∧
    -π ≤ c'.getD 0 0 ∧ c'.getD 0 0 < π ∧ ∃ k : ℤ, c'.getD 0 0 = c.getD 0 0 + k * (2 * π)
  | .frozen, c, c' | .p3d, c, c' | .p _, c, c' => c' = c

theorem norm4_sq (q : Quat ℝ) : norm4 q ^ 2 = q.w ^ 2 + q.x ^ 2 + q.y ^ 2 + q.z ^ 2 :=
  sq_sqrt (by positivity)

theorem norm4_pos {q : Quat ℝ} (h : ¬ allclose0' q) : 0 < norm4 q := by
  by_contra hc
  have h0 : norm4 q = 0 := le_antisymm (not_lt.1 hc) (sqrt_nonneg _)
  have h1 := norm4_sq q
  rw [h0] at h1
  have hw : q.w = 0 := by nlinarith [sq_nonneg q.w, sq_nonneg q.x, sq_nonneg q.y, sq_nonneg q.z]
  have hx : q.x = 0 := by nlinarith [sq_nonneg q.w, sq_nonneg q.x, sq_nonneg q.y, sq_nonneg q.z]
  have hy : q.y = 0 := by nlinarith [sq_nonneg q.w, sq_nonneg q.x, sq_nonneg q.y, sq_nonneg q.z]
  have hz : q.z = 0 := by nlinarith [sq_nonneg q.w, sq_nonneg q.x, sq_nonneg q.y, sq_nonneg q.z]
  apply h
  unfold allclose0' isclose0
  rw [hw, hx, hy, hz]
  norm_num

theorem safe_normalize4_unit {q : Quat ℝ} (h : ¬ allclose0' q) :
    (safe_normalize4 q).w ^ 2 + (safe_normalize4 q).x ^ 2 + (safe_normalize4 q).y ^ 2 +
      (safe_normalize4 q).z ^ 2 = 1 := by
  unfold safe_normalize4
  rw [if_neg h]
  have h1 := norm4_pos h
  have h2 := norm4_sq q
  field_simp
  exact h2.symm

theorem safe_normalize4_of_unit {q : Quat ℝ} (h : q.w ^ 2 + q.x ^ 2 + q.y ^ 2 + q.z ^ 2 = 1) :
    safe_normalize4 q = q := by
  unfold safe_normalize4
  have hn : ¬ allclose0' q := by
    rintro ⟨h0, h1, h2, h3⟩
    unfold isclose0 at h0 h1 h2 h3
    have e : ∀ {x : ℝ}, |x| ≤ 1e-8 → x ^ 2 ≤ 1e-8 := by
      intro x hx
      have := abs_nonneg x
      rw [← sq_abs]
      nlinarith
    have := e h0; have := e h1; have := e h2; have := e h3
    norm_num at *
    linarith
  rw [if_neg hn]
  have : norm4 q = 1 := by unfold norm4; rw [h, sqrt_one]
  rw [this]
  simp

theorem safe_normalize4_zero : safe_normalize4 ⟨0, 0, 0, 0⟩ = ⟨0, 0, 0, 0⟩ := by
  unfold safe_normalize4
  rw [if_pos]
  unfold allclose0' isclose0
  norm_num

theorem safe_normalize4_idem (q : Quat ℝ) :
    safe_normalize4 (safe_normalize4 q) = safe_normalize4 q := by
  by_cases h : allclose0' q
  · have : safe_normalize4 q = ⟨0, 0, 0, 0⟩ := by unfold safe_normalize4; rw [if_pos h]
    rw [this, safe_normalize4_zero]
  · exact safe_normalize4_of_unit (safe_normalize4_unit h)

theorem wrap_idem (x : ℝ) : wrap_to_pi (wrap_to_pi x) = wrap_to_pi x :=
  wrap_id (wrap_mem x).1 (wrap_mem x).2

/-- the coordinate function of one joint -/
theorem joint_to_q (b : BuiltIn) {c : List ℝ} (hc : c.length = b.q_width) :
    ∃ f, (b.model : JointModel ℝ π').coordinate_vector_to_q = some f ∧
      (f c).length = b.q_width ∧ CoordSpec b c (f c) ∧ f (f c) = f c := by
  have quat : ∀ c : List ℝ, 4 ≤ c.length →
      (_coordinate_vector_to_q_free_spherical_cor c).length = c.length ∧
      (_coordinate_vector_to_q_free_spherical_cor c).drop 4 = c.drop 4 ∧
      ((∃ j, j < 4 ∧ 1e-8 < |c.getD j 0|) →
        (let c' := _coordinate_vector_to_q_free_spherical_cor c
         c'.getD 0 0 ^ 2 + c'.getD 1 0 ^ 2 + c'.getD 2 0 ^ 2 + c'.getD 3 0 ^ 2 = 1 ∧
          ∃ r > 0, ∀ j, j < 4 → c'.getD j 0 = r * c.getD j 0)) ∧
      _coordinate_vector_to_q_free_spherical_cor (_coordinate_vector_to_q_free_spherical_cor c) =
        _coordinate_vector_to_q_free_spherical_cor c := by
    intro c hc
    match c, hc with
    | a0 :: a1 :: a2 :: a3 :: l, _ =>
      refine ⟨by simp [_coordinate_vector_to_q_free_spherical_cor, quatList],
        by simp [_coordinate_vector_to_q_free_spherical_cor, quatList], ?_, ?_⟩
      · rintro ⟨j, hj, hlt⟩
        have hn : ¬ allclose0' ⟨a0, a1, a2, a3⟩ := by
          rintro ⟨h0, h1, h2, h3⟩
          unfold isclose0 at h0 h1 h2 h3
          have : j = 0 ∨ j = 1 ∨ j = 2 ∨ j = 3 := by omega
          rcases this with rfl | rfl | rfl | rfl <;> simp at hlt <;> simp at h0 h1 h2 h3 <;> linarith
        have hu := safe_normalize4_unit hn
        have hp := norm4_pos hn
        refine ⟨?_, (norm4 ⟨a0, a1, a2, a3⟩)⁻¹, inv_pos.2 hp, ?_⟩
        · simpa [_coordinate_vector_to_q_free_spherical_cor, quatList, quatOf] using hu
        · intro j hj
          have hd : safe_normalize4 ⟨a0, a1, a2, a3⟩ = ⟨a0 / norm4 ⟨a0, a1, a2, a3⟩,
            a1 / norm4 ⟨a0, a1, a2, a3⟩, a2 / norm4 ⟨a0, a1, a2, a3⟩,
            a3 / norm4 ⟨a0, a1, a2, a3⟩⟩ := by
            unfold safe_normalize4; rw [if_neg hn]
          have : j = 0 ∨ j = 1 ∨ j = 2 ∨ j = 3 := by omega
          rcases this with rfl | rfl | rfl | rfl <;>
            simp [_coordinate_vector_to_q_free_spherical_cor, quatList, quatOf, hd] <;>
            rw [div_eq_inv_mul]
      · simp only [_coordinate_vector_to_q_free_spherical_cor, quatOf, quatList, List.getD_cons_zero,
          List.getD_cons_succ, List.cons_append, List.nil_append, List.drop_succ_cons, List.drop_zero]
        rw [show (⟨(safe_normalize4 ⟨a0, a1, a2, a3⟩).w, (safe_normalize4 ⟨a0, a1, a2, a3⟩).x,
          (safe_normalize4 ⟨a0, a1, a2, a3⟩).y, (safe_normalize4 ⟨a0, a1, a2, a3⟩).z⟩ : Quat ℝ) =
          safe_normalize4 ⟨a0, a1, a2, a3⟩ from rfl, safe_normalize4_idem]
  have wrapL : ∀ c : List ℝ, ∀ j, j < c.length →
      -π ≤ (c.map wrap_to_pi).getD j 0 ∧ (c.map wrap_to_pi).getD j 0 < π ∧
        ∃ k : ℤ, (c.map wrap_to_pi).getD j 0 = c.getD j 0 + k * (2 * π) := by
    intro c j hj
    have e1 : (c.map wrap_to_pi).getD j 0 = wrap_to_pi c[j] := by simp [hj]
    have e2 : c.getD j 0 = c[j] := by simp [hj]
    rw [e1, e2]
    exact ⟨(wrap_mem _).1, (wrap_mem _).2, wrap_congr _⟩
  have wrapI : ∀ c : List ℝ, (c.map wrap_to_pi).map wrap_to_pi = c.map wrap_to_pi := by
    intro c
    rw [List.map_map]
    congr 1
    funext x
    exact wrap_idem x
  cases b with
  | free =>
    obtain ⟨h1, h2, h3, h4⟩ := quat c (by rw [hc]; decide)
    exact ⟨_, rfl, h1.trans hc, ⟨h2, h3⟩, h4⟩
  | cor =>
    obtain ⟨h1, h2, h3, h4⟩ := quat c (by rw [hc]; decide)
    exact ⟨_, rfl, h1.trans hc, ⟨h2, h3⟩, h4⟩
  | spherical =>
    obtain ⟨h1, h2, h3, h4⟩ := quat c (by rw [hc]; decide)
    exact ⟨_, rfl, h1.trans hc, ⟨h2, h3⟩, h4⟩
  | free_2d =>
    match c, hc with
    | [a, b, d], _ =>
      refine ⟨_, rfl, rfl, ⟨rfl, (wrap_mem _).1, (wrap_mem _).2, wrap_congr _⟩, ?_⟩
      simp [_coordinate_vector_to_q_free_2d, wrap_idem]
  | frozen => exact ⟨_, rfl, hc, rfl, rfl⟩
  | p3d => exact ⟨_, rfl, hc, rfl, rfl⟩
  | p a => exact ⟨_, rfl, hc, rfl, rfl⟩
  | r a => exact ⟨_, rfl, by simpa using hc, wrapL c, wrapI c⟩
  | saddle => exact ⟨_, rfl, by simpa using hc, wrapL c, wrapI c⟩

/-- the joint-wise map of `coordinate_vector_to_q` -/
noncomputable def toQ (t : String) (c : List ℝ) : List ℝ :=
  match BuiltIn.ofName t with
  | some b => ((b.model : JointModel ℝ Unit).coordinate_vector_to_q.getD id) c
  | none => c

theorem to_q_eq {E : JEnv ℝ π'} (hE : E.Std) {s : System ℝ π'} (h : s.Consistent E.toEnv)
    (hpos : 0 < s.num_links) (hb : s.JointsIn fun _ => True)
    {q : List ℝ} (hq : q.length = (s.link_types.map (wOf E.qw)).sum) :
    s.coordinate_vector_to_q E q = .ok (List.zipWith toQ s.link_types
      (chunks (s.link_types.map (wOf E.qw)) q)).flatten := by
  unfold coordinate_vector_to_q
  have key := scan_inv (E := E.toEnv) (s := s) h.known h.types_len
    (arg := (argL s.link_types).and (argQ q)) (g := to_q_link E fun _ => none)
    (by
      intro x hx
      simp only [ScanArg.and, argL, argQ, List.mem_append, List.mem_singleton, List.mem_cons,
        List.not_mem_nil, or_false] at hx
      rcases hx with rfl | rfl
      · exact h.types_len
      · exact hq)
    (rows_and (rows_argL _ _) (rows_argQ rfl q)) (by simp [h.types_len])
    (List.zipWith toQ s.link_types (chunks (s.link_types.map (wOf E.qw)) q))
    (by simp [h.types_len])
    (by
      intro i hi
      have hi2 : i < s.link_types.length := by rw [h.types_len]; exact hi
      obtain ⟨b, _, hbn⟩ := hb s.link_types[i] (List.getElem_mem _)
      obtain ⟨f, hf, _⟩ := joint_to_q (π' := π') b
        (c := ownSlice E.qw s.link_types q i) (by
          rw [ownSlice_length hq hi2, hbn, (wOf_std hE b).1])
      simp only [List.getElem_zip, to_q_link, hbn, jcalc.get_joint_model, hE.joints, ok_bind,
        List.getElem_zipWith, toQ, BuiltIn.ofName_name]
      cases b <;> rfl)
  rw [key]
  have : List.zipWith toQ s.link_types (chunks (s.link_types.map (wOf E.qw)) q) ≠ [] := by
    intro e
    have := congrArg List.length e
    unfold num_links at hpos
    rw [List.length_zipWith, chunks_length, List.length_map, h.types_len] at this
    simp at this
    rw [this] at hpos
    simp at hpos
  simp only [ok_bind]
  cases hz : List.zipWith toQ s.link_types (chunks (s.link_types.map (wOf E.qw)) q) with
  | nil => exact absurd hz this
  | cons a l => rfl

/-- C11: `coordinate_vector_to_q` succeeds, keeps the length, makes every joint's coordinates valid
(`CoordSpec`: quaternions normalised, hinge angles wrapped, translations untouched) and is
idempotent. -/
theorem C11_to_q {E : JEnv ℝ π'} (hE : E.Std) {s : System ℝ π'} (h : s.Consistent E.toEnv)
    (hpos : 0 < s.num_links) (hb : s.JointsIn fun _ => True)
    {q : List ℝ} (hq : q.length = (s.link_types.map (wOf E.qw)).sum) :
    ∃ q', s.coordinate_vector_to_q E q = .ok q' ∧ q'.length = q.length ∧
      (∀ i b, s.link_types[i]? = some (BuiltIn.name b) →
        CoordSpec b (ownSlice E.qw s.link_types q i) (ownSlice E.qw s.link_types q' i)) ∧
      s.coordinate_vector_to_q E q' = .ok q' := by
  have facts : ∀ i (hi : i < s.link_types.length), ∃ b : BuiltIn, s.link_types[i] = b.name ∧
      (toQ s.link_types[i] (ownSlice E.qw s.link_types q i)).length = wOf E.qw s.link_types[i] ∧
      CoordSpec b (ownSlice E.qw s.link_types q i)
        (toQ s.link_types[i] (ownSlice E.qw s.link_types q i)) ∧
      toQ s.link_types[i] (toQ s.link_types[i] (ownSlice E.qw s.link_types q i)) =
        toQ s.link_types[i] (ownSlice E.qw s.link_types q i) := by
    intro i hi
    obtain ⟨b, _, hbn⟩ := hb s.link_types[i] (List.getElem_mem _)
    have hlen : (ownSlice E.qw s.link_types q i).length = b.q_width := by
      rw [ownSlice_length hq hi, hbn, (wOf_std hE b).1]
    obtain ⟨f, hf, h1, h2, h3⟩ := joint_to_q (π' := Unit) b hlen
    have ht : ∀ c, toQ b.name c = f c := fun c => by
      simp only [toQ, BuiltIn.ofName_name, hf, Option.getD_some]
    refine ⟨b, hbn, ?_, ?_, ?_⟩
    · rw [hbn, ht, h1, (wOf_std hE b).1]
    · rw [hbn, ht]; exact h2
    · rw [hbn, ht, ht]; exact h3
  set blocks := List.zipWith toQ s.link_types (chunks (s.link_types.map (wOf E.qw)) q) with hbl
  have hlenb : blocks.map List.length = s.link_types.map (wOf E.qw) := by
    apply List.ext_getElem
    · simp [hbl]
    · intro i h1 h2
      have hi : i < s.link_types.length := by simpa using h2
      obtain ⟨b, _, h3, _⟩ := facts i hi
      simp only [hbl, List.getElem_map, List.getElem_zipWith, chunks_row]
      exact h3
  have hch : chunks (s.link_types.map (wOf E.qw)) blocks.flatten = blocks := by
    rw [← hlenb]; exact chunks_of_flatten _
  have hlen' : blocks.flatten.length = (s.link_types.map (wOf E.qw)).sum := by
    rw [List.length_flatten, hlenb]
  have hsl : ∀ i (hi : i < s.link_types.length),
      ownSlice E.qw s.link_types blocks.flatten i =
        toQ s.link_types[i] (ownSlice E.qw s.link_types q i) := by
    intro i hi
    have hi' : i < (chunks (s.link_types.map (wOf E.qw)) blocks.flatten).length := by simpa using hi
    rw [← chunks_row _ _ _ i hi']
    simp only [hch]
    simp only [hbl, List.getElem_zipWith, chunks_row]
  refine ⟨blocks.flatten, to_q_eq hE h hpos hb hq, by rw [hlen', hq], ?_, ?_⟩
  · intro i b hib
    obtain ⟨hi, hib'⟩ := List.getElem?_eq_some_iff.1 hib
    obtain ⟨b', hbn, _, h2, _⟩ := facts i hi
    have : b' = b := by
      have e := BuiltIn.ofName_name b'
      rw [← hbn, hib', BuiltIn.ofName_name] at e
      exact (Option.some.inj e).symm
    rw [hsl i hi, ← this]
    exact h2
  · rw [to_q_eq hE h hpos hb hlen', hch]
    congr 2
    apply List.ext_getElem
    · simp [hbl]
    · intro i h1 h2
      have hi : i < s.link_types.length := by
        have := congrArg List.length hlenb
        simp at this
        omega
      obtain ⟨b, _, _, _, h3⟩ := facts i hi
      simp only [hbl, List.getElem_zipWith, chunks_row]
      exact h3

/-- the hypotheses are satisfiable (a vector that is not yet valid) -/
example : ∃ q', kinSys.coordinate_vector_to_q stdEnv [2, 0, 0, 0, 1, 2, 3, 7, 5, 0, 0, 3, 0] = .ok q' ∧
    q'.length = 13 := by
  obtain ⟨q', h1, h2, _⟩ := C11_to_q stdEnv_std kinSys_consistent (by simp [kinSys, num_links])
    (by
      intro t ht
      simp [kinSys] at ht
      rcases ht with rfl | rfl | rfl | rfl
      · exact ⟨.free, trivial, rfl⟩
      · exact ⟨.r .x, trivial, rfl⟩
      · exact ⟨.p .y, trivial, rfl⟩
      · exact ⟨.spherical, trivial, rfl⟩)
    (q := [2, 0, 0, 0, 1, 2, 3, 7, 5, 0, 0, 3, 0]) (by rw [kinSys_widths.1]; rfl)
  exact ⟨q', h1, h2⟩

/-- C11, the dead zone: a non-zero quaternion all of whose entries are at most `1e-8` does not become
a unit quaternion, it becomes zero. -/
theorem C11_tiny_fails : (BuiltIn.spherical.model : JointModel ℝ Unit).coordinate_vector_to_q.map
    (fun f => f [1e-9, 0, 0, 0]) = some [0, 0, 0, 0] := by
  have : allclose0' (⟨1e-9, 0, 0, 0⟩ : Quat ℝ) := by
    unfold allclose0' isclose0
    norm_num [abs_of_pos]
  simp [BuiltIn.model, _coordinate_vector_to_q_free_spherical_cor, quatOf, quatList,
    safe_normalize4, this]

theorem flatten_set {β : Type} (bs : List (List β)) (i : Nat) (hi : i < bs.length) (v : β)
    (hpos : 0 < bs[i].length) :
    bs.flatten.set ((bs.take i).map List.length).sum v = (bs.set i (bs[i].set 0 v)).flatten := by
  induction bs generalizing i with
  | nil => simp at hi
  | cons b bs ih =>
    cases i with
    | zero =>
      simp only [List.getElem_cons_zero] at hpos
      simp [List.set_append, hpos]
    | succ i =>
      simp only [List.getElem_cons_succ] at hpos
      simp only [List.take_succ_cons, List.map_cons, List.sum_cons, List.flatten_cons,
        List.set_cons_succ, List.getElem_cons_succ]
      rw [List.set_append, if_neg (by omega), Nat.add_sub_cancel_left, ih i (by simpa using hi) hpos]

/-- C11: `State.create(sys)`: `q` and `qd` have the sizes of the system, the coordinates of every
quaternion joint are the unit quaternion followed by zeros, all others are zero, and all poses are
the identity. -/
theorem C11_create {α π' : Type} [Field α] {E : JEnv α π'} {s : System α π'} (h : s.Consistent E.toEnv)
    (hw : ∀ t ∈ s.link_types, joint_type_is_free_or_cor_or_spherical t = true → 0 < wOf E.qw t) :
    ∃ st, State.create E s = .ok st ∧
      st.q.length = (s.link_types.map (wOf E.qw)).sum ∧
      st.qd = List.replicate (s.link_types.map (wOf E.dw)).sum 0 ∧
      st.x = List.replicate s.link_parents.length Transform.zero ∧
      ∀ i t, s.link_types[i]? = some t →
        (joint_type_is_free_or_cor_or_spherical t = true →
          ∃ k, ownSlice E.qw s.link_types st.q i = 1 :: List.replicate k 0) ∧
        (joint_type_is_free_or_cor_or_spherical t = false →
          ∃ k, ownSlice E.qw s.link_types st.q i = List.replicate k 0) := by
  have hk := h.known
  set blk : Nat → List (List α) := fun n => s.link_types.mapIdx fun j t =>
    if j < n ∧ joint_type_is_free_or_cor_or_spherical t = true then
      (List.replicate (wOf E.qw t) 0).set 0 1 else List.replicate (wOf E.qw t) 0 with hblk
  have hlens : ∀ n, (blk n).map List.length = s.link_types.map (wOf E.qw) := by
    intro n
    apply List.ext_getElem
    · simp [hblk]
    · intro i h1 h2
      simp only [hblk, List.getElem_map, List.getElem_mapIdx]
      split <;> simp
  have key := scanState_forward_inv (E := E.toEnv) (s := s) hk h.types_len
    (f := replace_by_unit_quat (α := α))
    (arg := (argL s.link_types).and (argL (List.range s.num_links)))
    (by
      intro x hx
      simp only [ScanArg.and, argL, List.mem_append, List.mem_singleton, List.mem_cons,
        List.not_mem_nil, or_false] at hx
      rcases hx with rfl | rfl
      · exact h.types_len
      · simp [num_links])
    (rows_and (rows_argL _ _) (rows_argL _ _)) (by simp [h.types_len, num_links])
    (fun n => (blk n).flatten) (List.replicate s.link_parents.length ()) (by simp)
    (by
      intro i hi
      have hi2 : i < s.link_types.length := by rw [h.types_len]; exact hi
      simp only [List.getElem_zip, List.getElem_range, List.getElem_replicate]
      unfold replace_by_unit_quat
      by_cases hq : joint_type_is_free_or_cor_or_spherical s.link_types[i] = true
      · rw [if_pos hq]
        have hmap : (theMap E.toEnv s.link_types).q i =
            .ok (((s.link_types.map (wOf E.qw)).take i).sum,
              ((s.link_types.map (wOf E.qw)).take i).sum +
              (s.link_types.map (wOf E.qw)).getD i 0) := by
          simp only [IdxMap.q, theMap, idxsFrom_getElem?, List.length_map, hi2, if_true,
            Nat.zero_add]
        rw [hmap]
        simp only [ok_bind, pure_ok]
        have hib : i < (blk i).length := by simp [hblk, hi2]
        have hb0 : (blk i)[i] = List.replicate (wOf E.qw s.link_types[i]) 0 := by
          simp [hblk]
        have := flatten_set (blk i) i hib 1 (by
          rw [hb0, List.length_replicate]; exact hw _ (List.getElem_mem _) hq)
        rw [List.map_take, hlens] at this
        rw [this, hb0]
        congr 3
        apply List.ext_getElem
        · simp [hblk]
        · intro j h1 h2
          simp only [hblk, List.getElem_set, List.getElem_mapIdx]
          by_cases hji : i = j
          · subst hji
            rw [if_pos rfl, if_pos ⟨by omega, hq⟩]
          · rw [if_neg hji]
            have : (j < i) ↔ j < i + 1 := by omega
            simp only [this]
      · rw [if_neg hq, pure_ok]
        congr 3
        simp only [hblk]
        apply List.ext_getElem
        · simp
        · intro j h1 h2
          simp only [List.getElem_mapIdx]
          by_cases hji : j = i
          · subst hji
            rw [if_neg (fun hh => hq hh.2), if_neg (fun hh => hq hh.2)]
          · have : (j < i) ↔ j < i + 1 := by omega
            simp only [this])
  have h0 : (blk 0).flatten = List.replicate (s.link_types.map (wOf E.qw)).sum (0 : α) := by
    rw [List.eq_replicate_iff]
    refine ⟨by rw [List.length_flatten, hlens], ?_⟩
    intro b hb
    obtain ⟨l, hl, hbl⟩ := List.mem_flatten.1 hb
    obtain ⟨j, hj, rfl⟩ := List.getElem_of_mem hl
    simp only [hblk, List.getElem_mapIdx, Nat.not_lt_zero, false_and, if_false] at hbl
    exact (List.mem_replicate.1 hbl).2
  rw [h0] at key
  simp only [num_links] at key
  refine ⟨⟨(blk s.link_parents.length).flatten, _, _⟩, ?_, ?_, rfl, rfl, ?_⟩
  · unfold State.create State.init_q
    simp only [q_size, qd_size, sumWidths_known (fun t ht => (hk t ht).1),
      sumWidths_known (fun t ht => (hk t ht).2), ok_bind, pure_ok, Option.getD_none, num_links]
    rw [key]
    rfl
  · rw [List.length_flatten, hlens]
  · intro i t hit
    obtain ⟨hi, rfl⟩ := List.getElem?_eq_some_iff.1 hit
    have hch : chunks (s.link_types.map (wOf E.qw)) (blk s.link_parents.length).flatten =
        blk s.link_parents.length := by
      rw [← hlens s.link_parents.length]; exact chunks_of_flatten _
    have hsl : ownSlice E.qw s.link_types (blk s.link_parents.length).flatten i =
        (blk s.link_parents.length)[i]'(by simp [hblk, hi]) := by
      rw [← chunks_row E.qw s.link_types _ i (by simpa using hi)]
      simp only [hch]
    have hil : i < s.link_parents.length := by rw [← h.types_len]; exact hi
    constructor
    · intro hq
      have hp := hw _ (List.getElem_mem hi) hq
      refine ⟨wOf E.qw s.link_types[i] - 1, ?_⟩
      rw [hsl]
      simp only [hblk, List.getElem_mapIdx]
      rw [if_pos ⟨hil, hq⟩]
      obtain ⟨k, hk⟩ := Nat.exists_eq_add_of_lt hp
      rw [hk]
      simp [List.replicate_succ]
    · intro hq
      refine ⟨wOf E.qw s.link_types[i], ?_⟩
      rw [hsl]
      simp only [hblk, List.getElem_mapIdx]
      rw [if_neg (fun hh => by rw [hq] at hh; exact absurd hh.2 (by simp))]

example : ∃ st, State.create stdEnv kinSys = .ok st ∧ st.q.length = 13 := by
  obtain ⟨st, h1, h2, _⟩ := C11_create kinSys_consistent (by
    intro t ht _
    simp [kinSys] at ht
    rcases ht with rfl | rfl | rfl | rfl <;> decide)
  exact ⟨st, h1, by rw [h2, kinSys_widths.1]; rfl⟩

end RingLib
