import Verif.Props.MorphSystem
import Verif.Props.Simulation

/-!
# C72: morphed systems of built-in joints
-/

namespace RingLib
namespace morph
open System algebra maths jcalc
variable {π' : Type} {P : List Int}

/-! ## specification -/

/-- the joints whose inverse is a joint of the same type -/
def Reversible : BuiltIn → Prop
  | .free | .frozen | .spherical | .p3d | .r _ | .p _ => True
  | .free_2d | .cor | .saddle => False

/-! ## proofs -/

theorem rot_axis_zero (a : Axis) : quat_rot_axis (a.unit : Vec3 ℝ) 0 = unitQuat := by
  simp [quat_rot_axis, unitQuat]

theorem zero_vec : (⟨0, 0, 0⟩ : Vec3 ℝ) = 0 := rfl

theorem builtin_rest {b : BuiltIn} {q : List ℝ} {p : π'} (hq : RestCoords b.name q) :
    (b.model (π := π')).transform q p = .zero := by
  obtain ⟨k, rfl⟩ := hq
  have hz : ∀ i, (List.replicate k (0 : ℝ)).getD i 0 = 0 := by
    intro i
    rw [List.getD, List.getElem?_replicate]
    split <;> rfl
  have h0 : ((1 : ℝ) :: List.replicate k 0).getD 0 0 = 1 := rfl
  have hs : ∀ i, ((1 : ℝ) :: List.replicate k 0).getD (i + 1) 0 = 0 := fun i => hz i
  have hfree : ∀ q : List ℝ, q.getD 0 0 = 1 → (∀ i < 6, q.getD (i + 1) 0 = 0) →
      _free_transform q = .zero := by
    intro q h0 hs
    unfold _free_transform vecOf quatOf
    rw [h0, hs 0 (by omega), hs 1 (by omega), hs 2 (by omega), hs 3 (by omega), hs 4 (by omega), hs 5 (by omega)]
    rfl
  have hp3 : ∀ q : List ℝ, (∀ i, q.getD i 0 = 0) → _p3d_transform q = .zero := by
    intro q hq
    unfold _p3d_transform vecOf
    rw [hq, hq, hq]
    rfl
  cases b with
  | free =>
    rw [if_pos (by decide)]
    exact hfree _ h0 fun i _ => hs i
  | free_2d =>
    rw [if_neg (by decide)]
    show _free_2d_transform _ = _
    unfold _free_2d_transform
    rw [hz, hz, hz, show (⟨1, 0, 0⟩ : Vec3 ℝ) = Axis.unit .x from rfl, rot_axis_zero]
    rfl
  | frozen => rfl
  | spherical =>
    rw [if_pos (by decide)]
    show _spherical_transform _ = _
    unfold _spherical_transform quatOf
    rw [h0, hs 0, hs 1, hs 2]
    rfl
  | p3d =>
    rw [if_neg (by decide)]
    exact hp3 _ hz
  | cor =>
    rw [if_pos (by decide)]
    show transform_mul (_p3d_transform _) (_free_transform _) = _
    rw [hp3 _ fun i => ?_, hfree _ rfl fun i hi => ?_, transform_zero_mul]
    · rw [List.getD, List.getElem?_take, if_pos (by omega)]
      exact hs i
    · rw [List.getD, List.getElem?_drop, show 7 + i = (6 + i) + 1 by omega]
      exact hs (6 + i)
  | r a =>
    rw [if_neg (by cases a <;> decide)]
    show _rxyz_transform _ _ = _
    unfold _rxyz_transform
    rw [hz, rot_axis_zero]
    rfl
  | p a =>
    rw [if_neg (by cases a <;> decide)]
    show _pxyz_transform _ _ = _
    unfold _pxyz_transform
    rw [hz, show Vec3.smul 0 a.unit = (0 : Vec3 ℝ) by ext <;> simp]
    rfl
  | saddle =>
    rw [if_neg (by decide)]
    show _saddle_transform _ = _
    unfold _saddle_transform
    rw [hz, hz]
    simp [Transform.zero, euler_to_quat, quat_inv, unitQuat]

/-- Built-in joints do nothing in the state that `State.create` starts from. -/
theorem C72_resting {E : JEnv ℝ π'} (hE : E.Std) {s : System ℝ π'} (hb : s.JointsIn fun _ => True)
    (hu : ∀ row ∈ s.links, row.transform1.rot.normSq = 1) : Resting E s where
  quat := by
    intro t ht hq
    obtain ⟨b, -, rfl⟩ := hb t ht
    have : wOf E.qw b.name = b.q_width := by rw [wOf, hE.qw]; rfl
    rw [this]
    rcases b with _ | _ | _ | _ | _ | _ | a | a | _
    case r => cases a <;> exact absurd hq (by decide)
    case p => cases a <;> exact absurd hq (by decide)
    all_goals first | exact absurd hq (by decide) | decide
  joint := by
    intro t ht jm p q hjm hq
    obtain ⟨b, -, rfl⟩ := hb t ht
    rw [hE.joints] at hjm
    cases hjm
    exact builtin_rest hq
  unit := hu

/-- the coordinates of a free joint for a pose -/
def freeCoords (x : Transform ℝ) : List ℝ := jcalc.quatList x.rot ++ jcalc.vecList x.pos

theorem freeCoords_transform (x : Transform ℝ) : _free_transform (freeCoords x) = x := rfl

/-- the inverse of a reversible joint is a joint of the same type -/
theorem C72_reverse {b : BuiltIn} (hb : Reversible b) {q : List ℝ} (hq : q.length = b.q_width) (p : π')  :
    ∃ q', q'.length = b.q_width ∧ ∀ p' : π', (b.model (π := π')).transform q' p' =
      transform_inv ((b.model (π := π')).transform q p) := by
  cases b with
  | free => exact ⟨freeCoords (transform_inv (_free_transform q)), rfl, fun _ => freeCoords_transform _⟩
  | frozen => exact ⟨[], rfl, fun _ => transform_inv_zero.symm⟩
  | spherical =>
    refine ⟨jcalc.quatList (quat_inv (quatOf q)), rfl, fun _ => ?_⟩
    show (⟨0, quat_inv (quatOf q)⟩ : Transform ℝ) = ⟨rotate (-0) (quatOf q), quat_inv (quatOf q)⟩
    rw [neg_zero, rotate_zero]
  | p3d =>
    refine ⟨jcalc.vecList (-(vecOf q 0)), rfl, fun _ => ?_⟩
    show (⟨-(vecOf q 0), unitQuat⟩ : Transform ℝ) = ⟨rotate (-(vecOf q 0)) unitQuat, quat_inv unitQuat⟩
    rw [rotate_unit, quat_inv_unit]
  | r a =>
    refine ⟨[-(q.getD 0 0)], rfl, fun _ => ?_⟩
    show (⟨0, quat_rot_axis a.unit (-(q.getD 0 0))⟩ : Transform ℝ) =
      ⟨rotate (-0) (quat_rot_axis a.unit (q.getD 0 0)), quat_inv (quat_rot_axis a.unit (q.getD 0 0))⟩
    rw [neg_zero, rotate_zero, (C15_rot_axis_add (not_allclose0_unit a) (q.getD 0 0) 0).2]
  | p a =>
    refine ⟨[-(q.getD 0 0)], rfl, fun _ => ?_⟩
    show (⟨.smul (-(q.getD 0 0)) a.unit, unitQuat⟩ : Transform ℝ) =
      ⟨rotate (-(.smul (q.getD 0 0) a.unit)) unitQuat, quat_inv unitQuat⟩
    rw [rotate_unit, quat_inv_unit]
    congr 1
    ext <;> simp
  | free_2d => exact hb.elim
  | cor => exact hb.elim
  | saddle => exact hb.elim

section
variable {E : JEnv ℝ π'} {s s' : System ℝ π'} {r : Nat} {X : Nat → Transform ℝ} {l : List Nat}

theorem viewAt_type {v : LinkView ℝ π'} {i : Nat} (h : s.viewAt E.toEnv i = some v) :
    s.link_types[i]? = some v.type := by
  unfold viewAt at h
  obtain ⟨p, hp, h⟩ := Option.bind_eq_some_iff.1 h
  obtain ⟨t, ht, h⟩ := Option.bind_eq_some_iff.1 h
  obtain ⟨row, hrow, h⟩ := Option.bind_eq_some_iff.1 h
  obtain ⟨o, ho, h⟩ := Option.bind_eq_some_iff.1 h
  rw [ht, ← Option.some.inj h]

theorem Morphed.types (hM : Morphed E s P r X l s') (hl : l.length = s'.link_parents.length) :
    s'.link_types = l.map fun i => s.link_types.getD (owner s.link_parents P r i) "" := by
  apply List.ext_getElem?
  intro k
  cases hk : l[k]? with
  | none =>
    rw [List.getElem?_map, hk, Option.map_none, List.getElem?_eq_none_iff, hM.wf.types_len, ← hl,
      ← List.getElem?_eq_none_iff, hk]
  | some i =>
    obtain ⟨v, w, v', -, h2, h3, -, h4, -⟩ := hM.links k i hk
    rw [List.getElem?_map, hk, Option.map_some, viewAt_type h3, h4, getD_of_some (viewAt_type h2)]

theorem builtin_jointTransform (hE : E.Std) (h : s.WF E.toEnv) (hj : s.Jointed E) {i : Nat}
    (hi : i < s.link_parents.length) {b : BuiltIn} (hb : s.link_types.getD i "" = b.name) (q : List ℝ) :
    ∃ p, s.IsJointTransform E q i ((b.model (π := π')).transform (ownSlice E.qw s.link_types q i) p) := by
  obtain ⟨p, hp⟩ := jointParam_isSome h hj hi
  exact ⟨p, b.model, p, by rw [hb, hE.joints], hp, rfl⟩

/-- C72 (reach): In a system of built-in joints with a free joint at the first link, all configurations
can be reached after morphing, provided that the joints which are reversed can be: for all
coordinates of the system there are coordinates of the morphed system for which every link is where it
was. -/
theorem C72_reach (hE : E.Std) (h : s.WF E.toEnv) (hj : s.Jointed E) (hb : s.JointsIn fun _ => True)
    (hu : ∀ row ∈ s.links, row.transform1.rot.normSq = 1) (hrev : Reversal s.link_parents P)
    (hfree : s.link_types[0]? = some "free")
    (hre : ∀ i c : Nat, P[i]? = some (c : Int) → s.link_parents[i]? ≠ some (c : Int) →
      ∃ b, Reversible b ∧ s.link_types[c]? = some b.name)
    (hM : Morphed E s P 0 X l s') {q : List ℝ} (hq : q.length = (s.link_types.map (wOf E.qw)).sum)
    (huq : s.UnitQ E q) :
    ∃ q' xs ys s1 s1', q'.length = (s'.link_types.map (wOf E.qw)).sum ∧
      s.forward_kinematics_transforms E q = .ok (xs, s1) ∧
      s'.forward_kinematics_transforms E q' = .ok (ys, s1') ∧
      ∀ k i : Nat, l[k]? = some i →
        transform_mul (shift s P i) (ys.getD k .zero) = xs.getD i .zero := by
  have hr := C72_resting hE hb hu
  obtain ⟨xs, s1, hf, hx⟩ := C22_forward h hj hq
  have hlp : s'.link_parents.length = s.link_parents.length := hM.renumbered.len.trans hrev.len
  have hll : l.length = s.link_parents.length := by
    rw [hM.renumbered.bijection.length_eq, List.length_range, hrev.len]
  have hlt : ∀ {i : Nat}, i ∈ l → i < s.link_parents.length := by
    intro i hi
    have := hM.renumbered.bijection.mem_iff.1 hi
    rw [List.mem_range, hrev.len] at this
    exact this
  have hty := hM.types (hll.trans hlp.symm)
  have hbt : ∀ i < s.link_parents.length, ∃ b : BuiltIn, s.link_types[i]? = some b.name := by
    intro i hi
    have hi' : i < s.link_types.length := by rw [h.types_len]; exact hi
    obtain ⟨b, -, e⟩ := hb s.link_types[i] (List.getElem_mem _)
    exact ⟨b, by rw [List.getElem?_eq_getElem hi', e]⟩
  -- the joint transforms of the system
  have hJ : ∀ i < s.link_parents.length, s.IsJointTransform E q i (jointT E s q i) ∧
      (jointT E s q i).rot.normSq = 1 := by
    intro i hi
    refine ⟨(isJointTransform_iff h hj hi _ _).2 rfl, ?_⟩
    obtain ⟨b, hbi⟩ := hbt i hi
    obtain ⟨p, hp⟩ := builtin_jointTransform hE h hj hi (getD_of_some hbi "") q
    rw [← (isJointTransform_iff h hj hi _ _).1 hp]
    apply builtin_transform_unit
    intro hq4
    have hi' : i < s.link_types.length := by rw [h.types_len]; exact hi
    refine huq i hi' ?_
    have e : s.link_types[i] = b.name := (List.getElem?_eq_some_iff.1 hbi).2
    rw [e]
    rcases b with _ | _ | _ | _ | _ | _ | a | a | _
    case r => cases a <;> exact absurd hq4 (by decide)
    case p => cases a <;> exact absurd hq4 (by decide)
    all_goals first | exact absurd hq4 (by decide) | decide
  -- what the joints of the morphed system should do
  let J' : Nat → Transform ℝ := fun i =>
    if P.getD i 0 = -1 then
      transform_mul (xs.getD i .zero) (transform_inv (offset s.link_parents P X (T1 s) i))
    else if Moved s.link_parents P i then transform_inv (jointT E s q (P.getD i 0).toNat)
    else jointT E s q i
  have key : ∀ i, ∃ c : List ℝ, i < s.link_parents.length → ∃ b : BuiltIn,
      s.link_types[owner s.link_parents P 0 i]? = some b.name ∧ c.length = b.q_width ∧
      ∀ p : π', b.model.transform c p = J' i := by
    intro i
    by_cases hi : i < s.link_parents.length
    swap
    · exact ⟨[], fun h => absurd h hi⟩
    by_cases h1 : P.getD i 0 = -1
    · refine ⟨freeCoords (J' i), fun _ => ⟨.free, ?_, rfl, fun _ => rfl⟩⟩
      unfold owner
      rw [if_pos h1]
      exact hfree
    · by_cases h2 : Moved s.link_parents P i
      · have hPi : P[i]? = some (((P.getD i 0).toNat : Nat) : Int) := by
          have := hrev.rangeP hi
          rw [getD_some (by rw [hrev.len]; exact hi) 0]
          congr 1
          omega
        obtain ⟨b, hb1, hb2⟩ := hre i (P.getD i 0).toNat hPi (by
          intro e
          rw [← hPi] at e
          apply h2.1
          rw [List.getD, List.getD, e])
        have hc : (P.getD i 0).toNat < s.link_parents.length := by
          rw [← h.types_len]
          exact (List.getElem?_eq_some_iff.1 hb2).1
        obtain ⟨p, hp⟩ := builtin_jointTransform hE h hj hc (getD_of_some hb2 "") q
        obtain ⟨c, hc1, hc2⟩ := C72_reverse hb1 (q := ownSlice E.qw s.link_types q (P.getD i 0).toNat) (by
          rw [System.ownSlice_length hq (by rw [h.types_len]; exact hc), getD_of_some hb2, wOf, hE.qw]
          rfl) p
        refine ⟨c, fun _ => ⟨b, ?_, hc1, fun p' => ?_⟩⟩
        · unfold owner
          rw [if_neg h1, if_pos h2.1]
          exact hb2
        · rw [hc2, (isJointTransform_iff h hj hc _ _).1 hp]
          show _ = J' i
          simp only [J']
          rw [if_neg h1, if_pos h2]
      · obtain ⟨b, hbi⟩ := hbt i hi
        refine ⟨ownSlice E.qw s.link_types q i, fun _ => ⟨b, ?_, ?_, fun p' => ?_⟩⟩
        · unfold owner
          rw [if_neg h1, if_neg (fun e => h2 ⟨e, h1⟩)]
          exact hbi
        · rw [System.ownSlice_length hq (by rw [h.types_len]; exact hi), getD_of_some hbi, wOf, hE.qw]
          rfl
        · obtain ⟨p, hp⟩ := jointParam_isSome h hj hi
          have e : s.IsJointTransform E q i (b.model.transform (ownSlice E.qw s.link_types q i) p') := by
            refine ⟨b.model, p, by rw [getD_of_some hbi, hE.joints], hp, ?_⟩
            cases b <;> rfl
          rw [(isJointTransform_iff h hj hi _ _).1 e]
          simp only [J']
          rw [if_neg h1, if_neg h2]
  choose c hc using key
  have hpl : ∀ i ∈ l, (c i).length = wOf E.qw (s.link_types.getD (owner s.link_parents P 0 i) "") := by
    intro i hi
    obtain ⟨b, h1, h2, -⟩ := hc i (hlt hi)
    rw [h2, getD_of_some h1, wOf, hE.qw]
    rfl
  have hlen : (l.map c).flatten.length = (s'.link_types.map (wOf E.qw)).sum := by
    rw [hty]
    exact pieces_length l _ c hpl
  obtain ⟨ys, s1', hf', hy⟩ := C22_forward hM.wf hM.jointed hlen
  have hJ'k : ∀ k i : Nat, l[k]? = some i → s'.IsJointTransform E (l.map c).flatten k (J' i) := by
    intro k i hk
    obtain ⟨hkl, hki⟩ := List.getElem?_eq_some_iff.1 hk
    obtain ⟨b, h1, h2, h3⟩ := hc i (hlt (List.mem_of_getElem? hk))
    have ht : s'.link_types.getD k "" = b.name := by
      rw [hty]
      apply getD_of_some
      rw [List.getElem?_map, hk, Option.map_some, getD_of_some h1]
    obtain ⟨p, hp⟩ := builtin_jointTransform hE hM.wf hM.jointed (by omega) ht (l.map c).flatten
    have e : ownSlice E.qw s'.link_types (l.map c).flatten k = c i := by
      rw [hty, ownSlice_pieces l _ c hpl hkl, hki]
    rw [e, h3] at hp
    exact hp
  refine ⟨_, xs, ys, s1, s1', hlen, hf, hf', fun k i hk => ?_⟩
  refine C72_motion h hj hr hrev hM hx hy (J := jointT E s q) (J' := fun k => J' (l.getD k 0)) hJ ?_ ?_ ?_ ?_ hk
  · intro k hk
    exact hJ'k k _ (getD_some (by omega) 0)
  · intro k i hk hP
    have hkl := (List.getElem?_eq_some_iff.1 hk).1
    have hi := hlt (List.mem_of_getElem? hk)
    have hw := hM.renumbered.world k i hk (by rw [getD_some (by rw [hrev.len]; exact hi) 0, hP])
    have e := isFK_pose hM.wf hM.jointed hy (i := k) (by omega) (hJ'k k i hk)
    rw [getD_of_some hw, hM.T1 hk, show poseAt ys (-1) = .zero from rfl, transform_mul_zero] at e
    simp only [J'] at e
    have hun : (offset s.link_parents P X (T1 s) i).rot.normSq = 1 := by
      rw [← hM.T1 hk]
      exact T1_unit hM.resting k
    rw [if_pos hP, transform_mul_assoc', transform_inv_mul hun, transform_mul_zero] at e
    rw [getD_some (by rw [hy.len]; omega) .zero, getD_some (l := xs) (by rw [hx.len]; exact hi) .zero, e]
  · intro k i hk h1 h2
    simp only [J', getD_of_some hk]
    rw [if_neg h1, if_neg h2]
  · intro k i hk h2
    simp only [J', getD_of_some hk]
    rw [if_neg h2.2, if_pos h2]

end

/-! ## examples -/

theorem stdEnv_total : ∀ a b, stdEnv.ge a b = true ∨ stdEnv.ge b a = true := by
  intro a b
  simp only [stdEnv, decide_eq_true_eq]
  exact (le_total b a)

theorem kinSys_builtin : kinSys.JointsIn fun _ => True := by
  intro t ht
  simp [kinSys] at ht
  rcases ht with rfl | rfl | rfl | rfl
  · exact ⟨.free, trivial, rfl⟩
  · exact ⟨.r .x, trivial, rfl⟩
  · exact ⟨.p .y, trivial, rfl⟩
  · exact ⟨.spherical, trivial, rfl⟩

theorem kinSys_units : ∀ row ∈ kinSys.links, row.transform1.rot.normSq = 1 := by
  intro row hrow
  have : ∃ i, row = kinRow i := by
    simp [kinSys] at hrow
    rcases hrow with rfl | rfl | rfl | rfl <;> exact ⟨_, rfl⟩
  obtain ⟨i, rfl⟩ := this
  simp [kinRow, Quat.normSq]

theorem kinSys_resting : Resting stdEnv kinSys := C72_resting stdEnv_std kinSys_builtin kinSys_units

theorem kinReversal : Reversal kinSys.link_parents [1, -1, 0, 1] :=
  ⟨rfl, kinSys_wf.topo, kinHeld, kinHeld_reversed⟩

/-- the new parents, given by names and numbers -/
theorem kinMorphed : ∃ X perm s',
    morph_system stdEnv kinSys (.new_parents [.inr "b", .inl (-1), .inl 0, .inr "b"]) = .ok s' ∧
      RestPoses kinSys X ∧ Morphed stdEnv kinSys [1, -1, 0, 1] 0 X perm s' :=
  C72_morph kinSys_wf kinSys_jointed kinSys_resting stdEnv_total (by decide) rfl kinReversal

example : ∃ R X perm s', morph_system stdEnv kinSys (.new_anchor (.inr "d")) = .ok s' ∧
    Rerooted kinSys.link_parents 3 R ∧ RestPoses kinSys X ∧ Morphed stdEnv kinSys R 0 X perm s' :=
  C72_anchor kinSys_wf kinSys_jointed kinSys_resting stdEnv_total kinTree (by decide)
    (Or.inr ⟨"d", rfl, rfl⟩)

/-- link `d` cannot be moved below `c` -/
example (s' : System ℝ Unit) :
    morph_system stdEnv kinSys (.new_parents [.inl (-1), .inl 0, .inl 0, .inr "c"]) ≠ .ok s' :=
  C72_refuses (P := [-1, 0, 0, 2]) rfl (Or.inr (Or.inr fun h => by
    have h1 : kinSys.link_parents[2]? = some ((3 : Nat) : Int) := h 3 2 rfl (by decide)
    exact absurd h1 (by decide))) s'

/-- link `a` is reversed and gets the frame of `b` -/
example : Moved kinSys.link_parents [1, -1, 0, 1] 0 ∧
    owner kinSys.link_parents [1, -1, 0, 1] 0 0 = 1 ∧ owner kinSys.link_parents [1, -1, 0, 1] 0 1 = 0 := by
  decide

example : ∀ j < 4, ∃ i, (i < 4 ∧ owner kinSys.link_parents [1, -1, 0, 1] 0 i = j) ∧
    ∀ i', i' < 4 → owner kinSys.link_parents [1, -1, 0, 1] 0 i' = j → i' = i :=
  C72_joints kinReversal (a := 1) ⟨kinHeld, by
    intro i
    match i with
    | 0 => simp
    | 1 => simp
    | 2 => simp
    | 3 => simp
    | i + 4 => simp⟩

example : ∃ (X : Nat → Transform ℝ) (perm : List Nat) (s' : System ℝ Unit), ∃ st st' xs ys s1 s1',
    morph_system stdEnv kinSys (.new_parents [.inr "b", .inl (-1), .inl 0, .inr "b"]) = .ok s' ∧
    RestPoses kinSys X ∧ State.create stdEnv kinSys = .ok st ∧ State.create stdEnv s' = .ok st' ∧
    kinSys.forward_kinematics_transforms stdEnv st.q = .ok (xs, s1) ∧
    s'.forward_kinematics_transforms stdEnv st'.q = .ok (ys, s1') ∧
    ∀ k i : Nat, perm[k]? = some i →
      transform_mul (shift kinSys [1, -1, 0, 1] i) (ys.getD k .zero) = xs.getD i .zero := by
  obtain ⟨X, perm, s', h1, h2, h3⟩ := kinMorphed
  obtain ⟨st, st', xs, ys, s1, s1', h4⟩ := C72_rest kinSys_wf kinSys_jointed kinSys_resting kinReversal h2 h3
  exact ⟨X, perm, s', st, st', xs, ys, s1, s1', h1, h2, h4⟩

/-- coordinates of `kinSys` at which all joints are deflected -/
theorem kinSys_unitQ : kinSys.UnitQ stdEnv [1, 0, 0, 0, 1, 2, 3, 1, 5, 0, 1, 0, 0] := by
  have h1 : wOf stdEnv.qw "free" = 7 := by decide
  have h2 : wOf stdEnv.qw "rx" = 1 := by decide
  have h3 : wOf stdEnv.qw "py" = 1 := by decide
  have h4 : wOf stdEnv.qw "spherical" = 4 := by decide
  intro i hi hq
  have hi : i < 4 := hi
  match i, hi with
  | 0, _ => simp [ownSlice, kinSys, h1]
  | 1, _ =>
    have h : joint_type_is_free_or_cor_or_spherical "rx" = true := hq
    exact absurd h (by decide)
  | 2, _ =>
    have h : joint_type_is_free_or_cor_or_spherical "py" = true := hq
    exact absurd h (by decide)
  | 3, _ => simp [ownSlice, kinSys, h1, h2, h3, h4]

example : ∃ (X : Nat → Transform ℝ) (perm : List Nat) (s' : System ℝ Unit), ∃ q' xs ys s1 s1',
    morph_system stdEnv kinSys (.new_parents [.inr "b", .inl (-1), .inl 0, .inr "b"]) = .ok s' ∧
    RestPoses kinSys X ∧ q'.length = (s'.link_types.map (wOf stdEnv.qw)).sum ∧
    kinSys.forward_kinematics_transforms stdEnv [1, 0, 0, 0, 1, 2, 3, 1, 5, 0, 1, 0, 0] = .ok (xs, s1) ∧
    s'.forward_kinematics_transforms stdEnv q' = .ok (ys, s1') ∧
    ∀ k i : Nat, perm[k]? = some i →
      transform_mul (shift kinSys [1, -1, 0, 1] i) (ys.getD k .zero) = xs.getD i .zero := by
  obtain ⟨X, perm, s', h1, h2, h3⟩ := kinMorphed
  obtain ⟨q', xs, ys, s1, s1', h4⟩ := C72_reach stdEnv_std kinSys_wf kinSys_jointed kinSys_builtin
    kinSys_units kinReversal rfl (by
      intro i c hi hne
      match i with
      | 0 =>
        have : c = 1 := by have := Option.some.inj hi; omega
        subst this
        exact ⟨.r .x, trivial, rfl⟩
      | 1 => have := Option.some.inj hi; omega
      | 2 => exact absurd hi hne
      | 3 => exact absurd hi hne
      | i + 4 => simp at hi) h3 (by rw [kinSys_widths.1]; rfl) kinSys_unitQ
  exact ⟨X, perm, s', q', xs, ys, s1, s1', h1, h2, h4⟩

/-! ## several trees -/

noncomputable def twoRow : LinkRow ℝ :=
  ⟨⟨⟨1, 0, 2⟩, ⟨0, 1, 0, 0⟩⟩, 0, ⟨1, 1, 1⟩, compute_inertia_per_link Real.pi [] 0, .zero, .zero⟩

/-- a hinge and a slider, both attached to the world -/
noncomputable def twoSys : System ℝ Unit where
  link_parents := [-1, -1]
  links := [twoRow, twoRow]
  joint_params := [("default", [(), ()])]
  link_types := ["rx", "py"]
  link_damping := [1, 2]
  link_armature := [1, 2]
  link_spring_stiffness := [0, 0]
  link_spring_zeropoint := [0, 0]
  dt := 1 / 100
  geoms := []
  gravity := ⟨0, 0, 981 / 100⟩
  integration_method := "semi_implicit_euler"
  mass_mat_iters := 0
  link_names := ["a", "b"]
  model_name := none
  omc := [none, none]

theorem twoSys_widths : twoSys.link_types.map (wOf stdEnv.qw) = [1, 1] ∧
    twoSys.link_types.map (wOf stdEnv.dw) = [1, 1] := by
  refine ⟨?_, ?_⟩ <;> decide

theorem twoSys_wf : twoSys.WF stdEnv.toEnv where
  types_len := rfl
  links_len := rfl
  omc_len := rfl
  names_len := rfl
  names_nodup := by show ["a", "b"].Nodup; decide
  pos_ok := by
    intro l hl
    have : l = twoRow := by simpa [twoSys] using hl
    subst this
    simp [stdEnv, twoRow]
  geoms_ok := by simp [twoSys]
  known := by
    intro t ht
    simp [twoSys] at ht
    rcases ht with rfl | rfl <;> constructor <;> decide
  damping_len := by rw [twoSys_widths.2]; simp [twoSys]
  armature_len := by rw [twoSys_widths.2]; simp [twoSys]
  stiffness_len := by rw [twoSys_widths.2]; simp [twoSys]
  zeropoint_len := by rw [twoSys_widths.1]; simp [twoSys]
  unit_zero := by
    intro i hi
    have : i < 2 := hi
    match i, this with
    | 0, _ =>
      intro h
      have h : joint_type_is_free_or_cor_or_spherical "rx" = true := h
      exact absurd h (by decide)
    | 1, _ =>
      intro h
      have h : joint_type_is_free_or_cor_or_spherical "py" = true := h
      exact absurd h (by decide)
  topo := by
    intro i hi
    have : i < 2 := hi
    match i, this with
    | 0, _ => simp [twoSys]
    | 1, _ => simp [twoSys]
  jp_keys := by simp [twoSys]
  jp_len := by simp [twoSys]
  inertia_ok := by
    intro i hi
    have : i < 2 := hi
    match i, this with
    | 0, _ => rfl
    | 1, _ => rfl
  geoms_sorted := by simp [twoSys]

theorem twoSys_jointed : twoSys.Jointed stdEnv where
  known := by
    intro t ht
    simp [twoSys] at ht
    rcases ht with rfl | rfl
    · exact ⟨_, stdEnv_std.joints (.r .x)⟩
    · exact ⟨_, stdEnv_std.joints (.p .y)⟩
  default := by simp [twoSys]

/-- C72, what fails: when two links are attached to the world then both get the joint of the first one. A
hinge beside a slider, morphed with its own parents, becomes two hinges. -/
theorem C72_several_roots_fails : ∃ s', morph_system stdEnv twoSys (.new_parents [.inl (-1), .inl (-1)]) = .ok s' ∧
    twoSys.link_types = ["rx", "py"] ∧ s'.link_types = ["rx", "rx"] := by
  have hrev : Reversal twoSys.link_parents [-1, -1] := by
    refine ⟨rfl, twoSys_wf.topo, forest_iff.2 ?_, ?_⟩
    · intro i hi
      have : i = 0 ∨ i = 1 := by simp at hi; omega
      rcases this with rfl | rfl <;> exact ⟨_, .link (by rfl) .world⟩
    · intro i p hi hne
      exact absurd hi hne
  have hr : Resting stdEnv twoSys := by
    apply C72_resting stdEnv_std
    · intro t ht
      simp [twoSys] at ht
      rcases ht with rfl | rfl
      · exact ⟨.r .x, trivial, rfl⟩
      · exact ⟨.p .y, trivial, rfl⟩
    · intro row hrow
      have : row = twoRow := by simpa [twoSys] using hrow
      subst this
      simp [twoRow, Quat.normSq]
  obtain ⟨X, l, s', h1, h2, h3⟩ := C72_morph twoSys_wf twoSys_jointed hr stdEnv_total (by decide)
    (P := [-1, -1]) (new_parents := [.inl (-1), .inl (-1)]) rfl hrev
  refine ⟨s', h1, rfl, ?_⟩
  have hll : l.length = 2 := by
    rw [h3.renumbered.bijection.length_eq, List.length_range]
    rfl
  have hlp : s'.link_parents.length = 2 := h3.renumbered.len
  rw [h3.types (hll.trans hlp.symm)]
  have : ∀ i ∈ l, twoSys.link_types.getD (owner twoSys.link_parents [-1, -1] 0 i) "" = "rx" := by
    intro i hi
    have : i < 2 := by simpa using h3.renumbered.bijection.mem_iff.1 hi
    match i, this with
    | 0, _ => rfl
    | 1, _ => rfl
  rw [List.map_congr_left this]
  match l, hll with
  | [_, _], _ => rfl

end morph
end RingLib
