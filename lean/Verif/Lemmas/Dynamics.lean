import Verif.Lemmas.Kinematics
import Verif.Lemmas.Bodies
import Verif.Spec.Dynamics
import Verif.Model.Dynamics
import Verif.Props.Algebra
import Verif.Props.InvKin

/-! The scans of `Model.Dynamics` in terms of the tree sums of `Lemmas.Bodies`. -/

namespace RingLib
open System algebra Finset

variable {α π : Type}

/-! ## positions of the blocks -/

/-- start of block `i` when block `k` has `w k` entries -/
def offs (w : Nat → Nat) (i : Nat) : Nat := ∑ k ∈ range i, w k

theorem offs_succ (w : Nat → Nat) (i : Nat) : offs w (i + 1) = offs w i + w i :=
  Finset.sum_range_succ _ _

theorem offs_mono (w : Nat → Nat) {i j : Nat} (h : i ≤ j) : offs w i ≤ offs w j := by
  induction j, h using Nat.le_induction with
  | base => rfl
  | succ j _ ih => rw [offs_succ]; omega

theorem offs_cases (w : Nat → Nat) {n r : Nat} (h : r < offs w n) :
    ∃ i a, i < n ∧ a < w i ∧ r = offs w i + a := by
  induction n with
  | zero => simp [offs] at h
  | succ n ih =>
    rw [offs_succ] at h
    by_cases h1 : r < offs w n
    · obtain ⟨i, a, hi, ha, e⟩ := ih h1
      exact ⟨i, a, by omega, ha, e⟩
    · exact ⟨n, r - offs w n, by omega, by omega, by omega⟩

theorem flatMap_range_length {β : Type} (B : Nat → List β) (n : Nat) :
    ((List.range n).flatMap B).length = offs (fun k => (B k).length) n := by
  induction n with
  | zero => rfl
  | succ n ih =>
    rw [List.range_succ, List.flatMap_append, List.length_append, ih, offs_succ]
    simp

theorem flatMap_range_get {β : Type} (B : Nat → List β) {n i a : Nat} (hi : i < n)
    (ha : a < (B i).length) :
    ((List.range n).flatMap B)[offs (fun k => (B k).length) i + a]? = some (B i)[a] := by
  induction n with
  | zero => omega
  | succ n ih =>
    rw [List.range_succ, List.flatMap_append]
    by_cases h : i < n
    · rw [List.getElem?_append_left]
      · exact ih h
      · rw [flatMap_range_length]
        have := offs_mono (fun k => (B k).length) (show i + 1 ≤ n by omega)
        rw [offs_succ] at this
        omega
    · obtain rfl : i = n := by omega
      rw [List.getElem?_append_right (by rw [flatMap_range_length]; omega), flatMap_range_length]
      simp [ha]

theorem take_sum_eq (l : List Nat) {i : Nat} (hi : i ≤ l.length) :
    (l.take i).sum = offs (fun k => l.getD k 0) i := by
  induction i with
  | zero => simp [offs]
  | succ i ih =>
    rw [offs_succ, ← ih (by omega), List.take_add_one, List.getElem?_eq_getElem (by omega)]
    simp [show i < l.length by omega]

/-! ## joints -/

/-- the motion of a joint with axes `A` and coordinates `c` -/
def jointM [Ring α] (A : List (Motion α)) (c : List α) : Motion α :=
  (List.range A.length).foldl (fun m d => match A[d]? with
    | some ax => m + Motion.smul (c.getD d 0) ax
    | none => m) 0

theorem foldl_range_sum [CommRing α] (A : List (Motion α)) (c : List α) (k : Nat)
    (hk : k ≤ A.length) :
    (List.range k).foldl (fun m d => match A[d]? with
      | some ax => m + Motion.smul (c.getD d 0) ax
      | none => m) 0 = ∑ d ∈ range k, Motion.smul (c.getD d 0) (A.getD d 0) := by
  induction k with
  | zero => rfl
  | succ k ih =>
    rw [List.range_succ, List.foldl_append, ih (by omega), Finset.sum_range_succ]
    simp [show k < A.length by omega]

theorem jointM_eq [CommRing α] (A : List (Motion α)) (c : List α) :
    jointM A c = ∑ d ∈ range A.length, Motion.smul (c.getD d 0) (A.getD d 0) :=
  foldl_range_sum A c _ le_rfl

section
variable [Field α] {E : JEnv α π} {s : System α π} (h : s.WF E.toEnv) (hj : s.Jointed E)
include h hj

theorem axesAt_ok {i : Nat} (hi : i < s.link_types.length) :
    ∃ jm p, E.joints s.link_types[i] = some jm ∧ s.jointParam i = some p ∧
      s.axesAt E i = jm.motion.map (fun m => m p) ∧
      jcalc._limit_scope_of_joint_params s.link_types[i] (s.paramsAt i) = .ok p := by
  have hi' : i < s.link_parents.length := by rw [← h.types_len]; exact hi
  obtain ⟨p, hp⟩ := jointParam_isSome h hj hi'
  obtain ⟨jm, hjm⟩ := hj.known s.link_types[i] (List.getElem_mem _)
  have hd : s.link_types.getD i "" = s.link_types[i] := by simp [List.getD, hi]
  refine ⟨jm, p, hjm, hp, ?_,
    limit_scope (fun x hx => by rw [h.jp_len x hx]; exact hi') (List.getElem?_eq_getElem hi) hp⟩
  unfold axesAt
  rw [hd, hjm, hp]
  rfl

theorem jcalc_motion_ok {i : Nat} (hi : i < s.link_types.length) (c : List α) :
    jcalc.jcalc_motion E s.link_types[i] c (s.paramsAt i) = .ok (jointM (s.axesAt E i) c) := by
  obtain ⟨jm, p, hjm, hp, ha, hl⟩ := axesAt_ok h hj hi
  unfold jcalc.jcalc_motion jointM
  rw [hl, ha]
  simp only [ok_bind, jcalc.lookup_joint, hjm, pure_ok, List.length_map]
  congr 2
  funext m d
  rw [List.getElem?_map]
  cases jm.motion[d]? <;> rfl

theorem jcalc_tau_ok {i : Nat} (hi : i < s.link_types.length) (f : Force α) :
    jcalc.jcalc_tau E s.link_types[i] f (s.paramsAt i) =
      .ok ((s.axesAt E i).map fun m => motion_dot m f) := by
  obtain ⟨jm, p, hjm, hp, ha, hl⟩ := axesAt_ok h hj hi
  unfold jcalc.jcalc_tau
  rw [hl, ha]
  simp only [ok_bind, jcalc.lookup_joint, hjm, pure_ok, List.map_map]
  rfl

theorem motion_matrix_ok {i : Nat} (hi : i < s.link_types.length) :
    _jcalc_motion_matrix E s i = .ok ((s.axesAt E i).map Motion.as_matrix) := by
  obtain ⟨jm, p, hjm, hp, ha, hl⟩ := axesAt_ok h hj hi
  unfold _jcalc_motion_matrix
  have hi' : i < s.linkRows.length := by rw [linkRows_length, h.links_len, ← h.types_len]; exact hi
  rw [pyGet_nat (List.getElem?_eq_getElem hi'), pyGet_nat (List.getElem?_eq_getElem hi), ha]
  simp only [ok_bind, linkRows_getElem, hl, jcalc.get_joint_model, hjm, pure_ok, List.map_map]
  rfl

theorem axesAt_length (hw : E.MotionWidths) {i : Nat} (hi : i < s.link_types.length) :
    (s.axesAt E i).length = wOf E.dw s.link_types[i] := by
  obtain ⟨jm, p, hjm, hp, ha, hl⟩ := axesAt_ok h hj hi
  rw [ha, List.length_map, wOf, hw _ _ hjm]
  rfl

/-- start of the block of link `i` -/
theorem theMap_d (hw : E.MotionWidths) {i : Nat} (hi : i < s.link_types.length) :
    (theMap E.toEnv s.link_types).d i =
      .ok (offs (fun k => (s.axesAt E k).length) i,
        offs (fun k => (s.axesAt E k).length) i + (s.axesAt E i).length) := by
  unfold IdxMap.d theMap
  simp only
  rw [idxsFrom_getElem?, if_pos (by simpa using hi), Nat.zero_add, take_sum_eq _ (by simp; omega)]
  have e : ∀ k, k < s.link_types.length →
      (s.link_types.map (wOf E.dw)).getD k 0 = (s.axesAt E k).length := by
    intro k hk
    rw [axesAt_length h hj hw hk]
    simp [hk]
  rw [e i hi]
  have : offs (fun k => (s.link_types.map (wOf E.dw)).getD k 0) i =
      offs (fun k => (s.axesAt E k).length) i := by
    unfold offs
    apply Finset.sum_congr rfl
    intro k hk
    exact e k (by have := Finset.mem_range.1 hk; omega)
  rw [this]

theorem dofs_length (hw : E.MotionWidths) :
    (s.link_types.map (wOf E.dw)).sum =
      offs (fun k => (s.axesAt E k).length) s.link_parents.length := by
  have := take_sum_eq (s.link_types.map (wOf E.dw)) (le_refl _)
  rw [List.take_length, List.length_map] at this
  rw [this, ← h.types_len]
  unfold offs
  apply Finset.sum_congr rfl
  intro k hk
  have hk := Finset.mem_range.1 hk
  dsimp only
  rw [axesAt_length h hj hw hk]
  simp [hk]

theorem ownSlice_getD (hw : E.MotionWidths) {i : Nat} (hi : i < s.link_types.length) (u : List α)
    {d : Nat} (hd : d < (s.axesAt E i).length) :
    (ownSlice E.dw s.link_types u i).getD d 0 =
      u.getD (offs (fun k => (s.axesAt E k).length) i + d) 0 := by
  have hm := theMap_d h hj hw hi
  unfold IdxMap.d theMap at hm
  simp only at hm
  rw [idxsFrom_getElem?, if_pos (by simpa using hi), Nat.zero_add] at hm
  simp only [Except.ok.injEq, Prod.mk.injEq] at hm
  unfold ownSlice
  rw [axesAt_length h hj hw hi] at hd
  rw [← hm.1, ← List.map_take]
  have : s.link_types.getD i "" = s.link_types[i] := by simp [List.getD, hi]
  rw [this]
  simp only [List.getD_eq_getElem?_getD]
  rw [List.getElem?_take, if_pos hd, List.getElem?_drop]

end

/-! ## dictionaries -/

/-- the values of the first `i` links -/
def dictLt {T : Type} (X : Nat → T) (i : Nat) : Int → Option T :=
  fun k => if 0 ≤ k ∧ k < i then some (X k.toNat) else none

theorem dictLt_zero {T : Type} (X : Nat → T) : dictLt X 0 = fun _ => none := by
  funext k
  unfold dictLt
  rw [if_neg (by omega)]

theorem dictLt_succ {T : Type} (X : Nat → T) (i : Nat) :
    dictSet (dictLt X i) i (X i) = dictLt X (i + 1) := by
  funext k
  unfold dictLt dictSet
  by_cases h : k = i
  · subst h
    rw [if_pos rfl, if_pos (by omega), Int.toNat_natCast]
  · rw [if_neg h]
    dsimp only
    by_cases h2 : 0 ≤ k ∧ k < i
    · rw [if_pos h2, if_pos (by omega)]
    · rw [if_neg h2, if_neg (by omega)]

theorem dictLt_get {T : Type} (X : Nat → T) {i k : Nat} (h : k < i) :
    dictGet (dictLt X i) k = .ok (X k) := by
  unfold dictGet dictLt
  rw [if_pos (by omega), Int.toNat_natCast]

theorem dictLt_set {T : Type} (X : Nat → T) {n k : Nat} (h : k < n) (x : T) :
    dictSet (dictLt X n) k x = dictLt (Function.update X k x) n := by
  funext j
  unfold dictLt dictSet
  by_cases hj : j = k
  · subst hj
    rw [if_pos rfl, if_pos (by omega), Int.toNat_natCast, Function.update_self]
  · rw [if_neg hj]
    dsimp only
    split
    · rw [Function.update_of_ne (by omega)]
    · rfl

/-! ## inverse dynamics -/

section
variable [Field α] {E : JEnv α π} {s : System α π}

/-- motion contributed by the joint of link `i` for coordinates `u` -/
def jointVel (E : JEnv α π) (s : System α π) (u : List α) (i : Nat) : Motion α :=
  jointM (s.axesAt E i) (ownSlice E.dw s.link_types u i)

/-- velocity of link `i` -/
def linkVel (E : JEnv α π) (s : System α π) (qd : List α) : Nat → Motion α :=
  vel s.link_parents s.linkT (jointVel E s qd)

/-- acceleration of link `i` -/
def linkAcc (E : JEnv α π) (s : System α π) (qd qdd : List α) : Nat → Motion α :=
  treeVal s.link_parents ⟨0, s.gravity⟩ fun i a => transform_motion (s.linkT i) a +
    (jointVel E s qdd i + motion_cross (linkVel E s qd i) (jointVel E s qd i))

/-- force needed at link `i` -/
def linkForce (E : JEnv α π) (s : System α π) (qd qdd : List α) (i : Nat) : Force α :=
  inertia_mul_motion (s.linkI i) (linkAcc E s qd qdd i) +
    motion_cross_star (linkVel E s qd i) (inertia_mul_motion (s.linkI i) (linkVel E s qd i))

theorem motion_cross_self (m : Motion α) : motion_cross m m = 0 := by
  ext <;> simp [motion_cross, Vec3.cross] <;> ring

theorem link_vel_acc_ok (ht : Topological s.link_parents) (qd qdd : List α) {i : Nat}
    (hi : i < s.link_parents.length) (F : Int → Option (Force α)) :
    link_vel_acc ⟨0, s.gravity⟩
      ⟨dictLt (linkVel E s qd) i, dictLt (linkAcc E s qd qdd) i, F⟩ s.link_parents[i]
      (s.linkT i) (jointVel E s qd i) (jointVel E s qdd i) =
      .ok (linkVel E s qd i, linkAcc E s qd qdd i) := by
  obtain ⟨h1, h2⟩ := ht i hi
  have hv := vel_eq ht (X := s.linkT) (jointVel E s qd) hi
  have ha := treeVal_eq ht (⟨0, s.gravity⟩ : Motion α) (fun i a => transform_motion (s.linkT i) a +
    (jointVel E s qdd i + motion_cross (linkVel E s qd i) (jointVel E s qd i))) i hi
  change linkVel E s qd i = _ at hv
  change linkAcc E s qd qdd i = _ at ha
  unfold link_vel_acc
  by_cases hp : s.link_parents[i] = -1
  · rw [if_pos hp, pure_ok]
    unfold parentVal at hv ha
    rw [if_neg (by omega), transform_motion_zero', zero_add] at hv
    rw [if_neg (by omega), hv, motion_cross_self, add_zero] at ha
    rw [hv, ha]
  · rw [if_neg hp]
    obtain ⟨p, hp'⟩ := Int.eq_ofNat_of_zero_le (show 0 ≤ s.link_parents[i] by omega)
    unfold parentVal at hv ha
    rw [if_pos (by omega)] at hv ha
    rw [hp'] at hv ha h2 ⊢
    simp only [Int.toNat_natCast] at hv ha
    rw [dictLt_get _ (by omega), dictLt_get _ (by omega)]
    simp only [ok_bind, pure_ok]
    rw [hv, ha, hv]
    simp only [linkVel, linkAcc]
    rw [add_comm (jointVel E s qd i), add_assoc]

theorem linkT_eq {i : Nat} (hi : i < s.links.length) : s.linkT i = s.links[i].transform := by
  simp [linkT, hi]

theorem linkI_eq {i : Nat} (hi : i < s.links.length) : s.linkI i = s.links[i].inertia := by
  simp [linkI, hi]

/-- torque of every degree of freedom -/
def torques (E : JEnv α π) (s : System α π) (qd qdd : List α) : List α :=
  (List.range s.link_parents.length).flatMap fun i => (s.axesAt E i).map fun m =>
    motion_dot m (force s.link_parents s.linkT (linkForce E s qd qdd) i)

theorem inverse_dynamics_ok (h : s.WF E.toEnv) (hj : s.Jointed E) {qd qdd : List α}
    (hqd : qd.length = (s.link_types.map (wOf E.dw)).sum)
    (hqdd : qdd.length = (s.link_types.map (wOf E.dw)).sum) (hn : 0 < s.link_parents.length) :
    inverse_dynamics E s qd qdd = .ok (torques E s qd qdd) := by
  have hk := h.known
  have fwd := scanState_forward_inv (E := E.toEnv) (s := s) hk h.types_len
    (forward_scan E ⟨0, s.gravity⟩)
    (arg := (argL (List.range s.num_links)).and <| (argL s.link_parents).and <|
      (argL s.link_types).and <| (argD qd).and <| (argD qdd).and (argL s.linkRows))
    (by
      intro x hx
      simp only [ScanArg.and, argD, argL, List.mem_append, List.mem_singleton, List.mem_cons,
        List.not_mem_nil, or_false] at hx
      rcases hx with rfl | rfl | rfl | rfl | rfl | rfl
      · simp [num_links]
      · rfl
      · exact h.types_len
      · exact hqd
      · exact hqdd
      · simp [linkRows_length, h.links_len])
    (rows_and (rows_argL _ _) (rows_and (rows_argL _ _) (rows_and (rows_argL _ _)
      (rows_and (rows_argD rfl qd) (rows_and (rows_argD rfl qdd) (rows_argL _ _))))))
    (by simp [linkRows_length, h.links_len, h.types_len, num_links])
    (fun i => ⟨dictLt (linkVel E s qd) i, dictLt (linkAcc E s qd qdd) i,
      dictLt (linkForce E s qd qdd) i⟩)
    (List.replicate s.link_parents.length ()) (by simp)
    (by
      intro i hi
      have hi1 : i < s.links.length := by rw [h.links_len]; exact hi
      have hi2 : i < s.link_types.length := by rw [h.types_len]; exact hi
      unfold forward_scan
      simp only [List.getElem_zip, chunks_row, linkRows_getElem, List.getElem_range,
        jcalc_motion_ok h hj hi2, ok_bind, List.getElem_replicate]
      rw [← linkT_eq hi1, ← linkI_eq hi1,
        show jointM (s.axesAt E i) (ownSlice E.dw s.link_types qd i) = jointVel E s qd i from rfl,
        show jointM (s.axesAt E i) (ownSlice E.dw s.link_types qdd i) = jointVel E s qdd i from rfl,
        link_vel_acc_ok h.topo qd qdd hi]
      simp only [ok_bind, pure_ok, dictLt_succ]
      rw [← dictLt_succ (linkForce E s qd qdd)]
      rfl)
  have bwd := scanState_reverse_inv (E := E.toEnv) (s := s) hk h.types_len
    (backwards_scan E)
    (arg := (argL (List.range s.num_links)).and <| (argL s.link_parents).and <|
      (argL s.link_types).and <| (argL s.l_to_p).and (argL s.linkRows))
    (by
      intro x hx
      simp only [ScanArg.and, argD, argL, List.mem_append, List.mem_singleton, List.mem_cons,
        List.not_mem_nil, or_false] at hx
      rcases hx with rfl | rfl | rfl | rfl | rfl
      · simp [num_links]
      · rfl
      · exact h.types_len
      · simp [l_to_p, h.links_len]
      · simp [linkRows_length, h.links_len])
    (rows_and (rows_argL _ _) (rows_and (rows_argL _ _) (rows_and (rows_argL _ _)
      (rows_and (rows_argL _ _) (rows_argL _ _)))))
    (by simp [linkRows_length, h.links_len, h.types_len, num_links, l_to_p])
    (fun i => dictLt (accAux s.link_parents
      (fun i F => transform_force (transform_inv (s.linkT i)) F) (linkForce E s qd qdd)
      (s.link_parents.length - i)) s.link_parents.length)
    ((List.range s.link_parents.length).map fun i => (s.axesAt E i).map fun m =>
      motion_dot m (force s.link_parents s.linkT (linkForce E s qd qdd) i)) (by simp)
    (by
      intro i hi
      have hi1 : i < s.links.length := by rw [h.links_len]; exact hi
      have hi2 : i < s.link_types.length := by rw [h.types_len]; exact hi
      unfold backwards_scan
      simp only [List.getElem_zip, linkRows_getElem, List.getElem_range, List.getElem_map,
        jcalc_tau_ok h hj hi2, ok_bind, l_to_p]
      rw [dictLt_get _ hi]
      simp only [jcalc_tau_ok h hj hi2, ok_bind]
      have e : force s.link_parents s.linkT (linkForce E s qd qdd) i =
          accAux s.link_parents (fun i F => transform_force (transform_inv (s.linkT i)) F)
            (linkForce E s qd qdd) (s.link_parents.length - (i + 1)) i :=
        accAux_stable h.topo (by omega) (by omega) (by omega)
      rw [← e, ← linkT_eq hi1]
      have e2 : s.link_parents.length - i = s.link_parents.length - (i + 1) + 1 := by omega
      have e3 : s.link_parents.length - 1 - (s.link_parents.length - (i + 1)) = i := by omega
      have e4 : s.link_parents.getD i (-1) = s.link_parents[i] := by simp [hi]
      obtain ⟨h1, h2⟩ := h.topo i hi
      rw [e2]
      simp only [accAux]
      rw [e3, e4]
      by_cases hp : s.link_parents[i] = -1
      · rw [if_pos hp, if_neg (by omega), pure_ok]
      · rw [if_neg hp, if_pos (by omega)]
        obtain ⟨p, hp'⟩ := Int.eq_ofNat_of_zero_le (show 0 ≤ s.link_parents[i] by omega)
        rw [hp'] at h2 ⊢
        rw [dictLt_get _ (by omega)]
        simp only [ok_bind, pure_ok, Int.toNat_natCast]
        rw [dictLt_set _ (by omega), ← e])
  simp only [Nat.sub_self, accAux, Nat.sub_zero, dictLt_zero] at bwd fwd
  unfold inverse_dynamics
  simp only
  rw [fwd]
  simp only [ok_bind]
  rw [bwd]
  simp only [ok_bind, torques]
  unfold jnpConcatenate
  cases hh : (List.range s.link_parents.length).map fun i => (s.axesAt E i).map fun m =>
      motion_dot m (force s.link_parents s.linkT (linkForce E s qd qdd) i) with
  | nil => simp at hh; simp [hh] at hn
  | cons x xs => simp only [← hh, List.flatMap]

end

/-! ## dependence of the torques on the accelerations -/

theorem accAux_add {β : Type} [AddCommMonoid β] {parents : List Int} {T : Nat → β → β}
    (hT : ∀ i x y, T i (x + y) = T i x + T i y) (f g : Nat → β) (m k : Nat) :
    accAux parents T (fun k => f k + g k) m k = accAux parents T f m k + accAux parents T g m k := by
  induction m generalizing k with
  | zero => rfl
  | succ m ih =>
    simp only [accAux]
    split
    · simp only [Function.update_apply]
      split
      · rw [ih, ih, hT, add_add_add_comm]
      · exact ih k
    · exact ih k

theorem force_congr [Field α] {parents : List Int} {X : Nat → Transform α} {f g : Nat → Force α}
    (ht : Topological parents) (e : ∀ k, k < parents.length → f k = g k) {i : Nat}
    (hi : i < parents.length) : force parents X f i = force parents X g i := by
  have : ∀ m, m ≤ parents.length → ∀ k, k < parents.length →
      accAux parents (fun i F => transform_force (transform_inv (X i)) F) f m k =
      accAux parents (fun i F => transform_force (transform_inv (X i)) F) g m k := by
    intro m
    induction m with
    | zero => intro _ k hk; exact e k hk
    | succ m ih =>
      intro hm k hk
      simp only [accAux]
      have hi : parents.length - 1 - m < parents.length := by omega
      have hlt := (ht _ hi).2
      have hd : parents.getD (parents.length - 1 - m) (-1) = parents[parents.length - 1 - m] := by
        simp [hi]
      rw [hd]
      split
      · simp only [Function.update_apply]
        split
        · rw [ih (by omega) _ (by omega), ih (by omega) _ hi]
        · exact ih (by omega) k hk
      · exact ih (by omega) k hk
  exact this _ le_rfl i hi

theorem sum_offs {β : Type} [AddCommMonoid β] (w : Nat → Nat) (F : Nat → β) (n : Nat) :
    ∑ c ∈ range (offs w n), F c = ∑ i ∈ range n, ∑ a ∈ range (w i), F (offs w i + a) := by
  induction n with
  | zero => simp [offs]
  | succ n ih => rw [offs_succ, Finset.sum_range_add, ih, Finset.sum_range_succ]

section
variable [Field α]

/-- the degrees of freedom in order: link and motion axis -/
def dofs (E : JEnv α π) (s : System α π) : List (Nat × Motion α) :=
  (List.range s.link_parents.length).flatMap fun i => (s.axesAt E i).map fun m => (i, m)

/-- link of a degree of freedom -/
def dofLink (E : JEnv α π) (s : System α π) (c : Nat) : Nat := ((dofs E s).getD c (0, 0)).1
/-- axis of a degree of freedom -/
def dofAxis (E : JEnv α π) (s : System α π) (c : Nat) : Motion α := ((dofs E s).getD c (0, 0)).2

/-- first degree of freedom of link `i` -/
def dofStart (E : JEnv α π) (s : System α π) (i : Nat) : Nat :=
  offs (fun k => (s.axesAt E k).length) i

/-- number of degrees of freedom -/
def dofCount (E : JEnv α π) (s : System α π) : Nat := dofStart E s s.link_parents.length

variable {E : JEnv α π} {s : System α π}

theorem dofs_get {i a : Nat} (hi : i < s.link_parents.length) (ha : a < (s.axesAt E i).length) :
    (dofs E s)[dofStart E s i + a]? = some (i, (s.axesAt E i)[a]) := by
  have := flatMap_range_get (fun i => (s.axesAt E i).map fun m => (i, m)) hi (by simpa using ha)
  simp only [List.length_map, List.getElem_map] at this
  exact this

theorem dofLink_eq {i a : Nat} (hi : i < s.link_parents.length)
    (ha : a < (s.axesAt E i).length) : dofLink E s (dofStart E s i + a) = i := by
  unfold dofLink
  rw [List.getD_eq_getElem?_getD, dofs_get hi ha]
  rfl

theorem dofAxis_eq {i a : Nat} (hi : i < s.link_parents.length)
    (ha : a < (s.axesAt E i).length) :
    dofAxis E s (dofStart E s i + a) = (s.axesAt E i)[a] := by
  unfold dofAxis
  rw [List.getD_eq_getElem?_getD, dofs_get hi ha]
  rfl

theorem dof_cases {r : Nat} (h : r < dofCount E s) :
    ∃ i a, i < s.link_parents.length ∧ a < (s.axesAt E i).length ∧ r = dofStart E s i + a :=
  offs_cases _ h

theorem dofLink_lt {r : Nat} (h : r < dofCount E s) : dofLink E s r < s.link_parents.length := by
  obtain ⟨i, a, hi, ha, rfl⟩ := dof_cases h
  rw [dofLink_eq hi ha]
  exact hi

/-- the motion of a single degree of freedom -/
def dofMotion (E : JEnv α π) (s : System α π) (c : Nat) : Nat → Motion α :=
  single (dofLink E s c) (dofAxis E s c)

/-- entry of the mass matrix without armature -/
def massEntry (E : JEnv α π) (s : System α π) (r c : Nat) : α :=
  energyForm s.link_parents s.linkT s.linkI (dofMotion E s r) (dofMotion E s c)

theorem jointVel_eq (h : s.WF E.toEnv) (hj : s.Jointed E) (hw : E.MotionWidths) (u : List α)
    {k : Nat} (hk : k < s.link_parents.length) :
    jointVel E s u k = ∑ c ∈ range (dofCount E s), Motion.smul (u.getD c 0) (dofMotion E s c k) := by
  unfold dofCount dofStart
  rw [sum_offs, Finset.sum_eq_single k]
  · unfold jointVel
    rw [jointM_eq]
    apply Finset.sum_congr rfl
    intro d hd
    have hd := Finset.mem_range.1 hd
    rw [ownSlice_getD h hj hw (by rw [h.types_len]; exact hk) u hd]
    congr 1
    unfold dofMotion
    change _ = single (dofLink E s (dofStart E s k + d)) (dofAxis E s (dofStart E s k + d)) k
    rw [dofLink_eq hk hd, dofAxis_eq hk hd]
    unfold single
    rw [if_pos rfl]
    simp [hd]
  · intro i hi hne
    apply Finset.sum_eq_zero
    intro d hd
    have hi := Finset.mem_range.1 hi
    have hd := Finset.mem_range.1 hd
    unfold dofMotion
    change Motion.smul _ (single (dofLink E s (dofStart E s i + d)) _ k) = 0
    rw [dofLink_eq hi hd]
    unfold single
    rw [if_neg (Ne.symm hne), motion_smul_zero]
  · intro hk'
    simp only [Finset.mem_range] at hk'
    omega

theorem energyForm_congr (ht : Topological s.link_parents) {g g' f f' : Nat → Motion α}
    (hg : ∀ k, k < s.link_parents.length → g k = g' k)
    (hf : ∀ k, k < s.link_parents.length → f k = f' k) :
    energyForm s.link_parents s.linkT s.linkI g f =
      energyForm s.link_parents s.linkT s.linkI g' f' := by
  unfold energyForm
  apply Finset.sum_congr rfl
  intro k hk
  have hk := Finset.mem_range.1 hk
  rw [vel_congr ht hk (fun j hj => hg j (by omega)), vel_congr ht hk (fun j hj => hf j (by omega))]

/-- twice the kinetic energy as a quadratic form in the degrees of freedom -/
theorem energy_jointVel (h : s.WF E.toEnv) (hj : s.Jointed E) (hw : E.MotionWidths)
    (u v : List α) :
    energyForm s.link_parents s.linkT s.linkI (jointVel E s u) (jointVel E s v) =
      ∑ r ∈ range (dofCount E s), ∑ c ∈ range (dofCount E s),
        u.getD r 0 * massEntry E s r c * v.getD c 0 := by
  rw [energyForm_congr h.topo (fun k hk => jointVel_eq h hj hw u hk)
    (fun k hk => jointVel_eq h hj hw v hk), energyForm_sum_left h.topo]
  apply Finset.sum_congr rfl
  intro r _
  rw [energyForm_sum_right h.topo]
  apply Finset.sum_congr rfl
  intro c _
  rw [energyForm_smul_left h.topo, energyForm_smul_right h.topo]
  unfold massEntry
  ring

theorem jointVel_zero (n i : Nat) :
    jointVel E s (List.replicate n 0) i = 0 := by
  unfold jointVel
  rw [jointM_eq]
  apply Finset.sum_eq_zero
  intro d _
  have : (ownSlice E.dw s.link_types (List.replicate n (0 : α)) i).getD d 0 = 0 := by
    unfold ownSlice
    rw [List.drop_replicate, List.take_replicate]
    simp [List.getD_eq_getElem?_getD, List.getElem?_replicate]
    split <;> rfl
  rw [this]
  ext <;> simp [Motion.smul, Vec3.smul]

theorem linkAcc_split (ht : Topological s.link_parents) (qd u : List α) (n : Nat) {i : Nat}
    (hi : i < s.link_parents.length) :
    linkAcc E s qd u i = linkAcc E s qd (List.replicate n 0) i +
      vel s.link_parents s.linkT (jointVel E s u) i := by
  revert i
  suffices h' : ∀ i, i < s.link_parents.length → _ from fun {i} hi => h' i hi
  apply tree_induction
  intro i hi ih
  have h1 := treeVal_eq ht (⟨0, s.gravity⟩ : Motion α) (fun i a => transform_motion (s.linkT i) a +
    (jointVel E s u i + motion_cross (linkVel E s qd i) (jointVel E s qd i))) i hi
  have h2 := treeVal_eq ht (⟨0, s.gravity⟩ : Motion α) (fun i a => transform_motion (s.linkT i) a +
    (jointVel E s (List.replicate n 0) i +
      motion_cross (linkVel E s qd i) (jointVel E s qd i))) i hi
  have h3 := vel_eq ht (X := s.linkT) (jointVel E s u) hi
  change linkAcc E s qd u i = _ at h1
  change linkAcc E s qd (List.replicate n 0) i = _ at h2
  rw [h1, h2, h3, jointVel_zero, zero_add]
  have : parentVal ⟨0, s.gravity⟩ (linkAcc E s qd u) s.link_parents[i] =
      parentVal ⟨0, s.gravity⟩ (linkAcc E s qd (List.replicate n 0)) s.link_parents[i] +
        parentVal 0 (vel s.link_parents s.linkT (jointVel E s u)) s.link_parents[i] := by
    unfold parentVal
    split
    · rename_i h0
      obtain ⟨p, hp⟩ := Int.eq_ofNat_of_zero_le h0
      have h2 := (ht i hi).2
      rw [hp] at h2 ⊢
      exact ih p hp (by omega)
    · rw [add_zero]
  change transform_motion (s.linkT i) (parentVal ⟨0, s.gravity⟩ (linkAcc E s qd u) _) + _ =
    transform_motion (s.linkT i)
      (parentVal ⟨0, s.gravity⟩ (linkAcc E s qd (List.replicate n 0)) _) + _ + _
  rw [this, transform_motion_add]
  abel

theorem torques_get (qd u : List α) {i a : Nat} (hi : i < s.link_parents.length)
    (ha : a < (s.axesAt E i).length) :
    (torques E s qd u)[dofStart E s i + a]? =
      some (motion_dot (s.axesAt E i)[a]
        (force s.link_parents s.linkT (linkForce E s qd u) i)) := by
  have := flatMap_range_get (fun i => (s.axesAt E i).map fun m =>
    motion_dot m (force s.link_parents s.linkT (linkForce E s qd u) i)) hi (by simpa using ha)
  simp only [List.length_map, List.getElem_map] at this
  exact this

theorem torques_length (qd u : List α) : (torques E s qd u).length = dofCount E s := by
  unfold torques
  rw [flatMap_range_length]
  simp [dofCount, dofStart]

/-- The torques are affine in the accelerations, with the mass matrix as linear part. -/
theorem torques_affine (h : s.WF E.toEnv) (hj : s.Jointed E) (hw : E.MotionWidths)
    (hu : ∀ i, i < s.link_parents.length → (s.linkT i).rot.normSq = 1)
    (qd u : List α) (n : Nat) {r : Nat} (hr : r < dofCount E s) :
    (torques E s qd u).getD r 0 = (torques E s qd (List.replicate n 0)).getD r 0 +
      ∑ c ∈ range (dofCount E s), massEntry E s r c * u.getD c 0 := by
  obtain ⟨i, a, hi, ha, rfl⟩ := dof_cases hr
  simp only [List.getD_eq_getElem?_getD]
  rw [torques_get qd u hi ha, torques_get qd _ hi ha]
  simp only [Option.getD_some]
  have e1 : force s.link_parents s.linkT (linkForce E s qd u) i =
      force s.link_parents s.linkT (fun k => linkForce E s qd (List.replicate n 0) k +
        inertia_mul_motion (s.linkI k) (vel s.link_parents s.linkT (jointVel E s u) k)) i := by
    have key : ∀ k, k < s.link_parents.length → linkForce E s qd u k =
        linkForce E s qd (List.replicate n 0) k +
        inertia_mul_motion (s.linkI k) (vel s.link_parents s.linkT (jointVel E s u) k) := by
      intro k hk
      unfold linkForce
      rw [linkAcc_split h.topo qd u n hk, inertia_mul_add]
      abel
    exact force_congr h.topo key hi
  have e2 : force s.link_parents s.linkT (fun k => linkForce E s qd (List.replicate n 0) k +
        inertia_mul_motion (s.linkI k) (vel s.link_parents s.linkT (jointVel E s u) k)) i =
      force s.link_parents s.linkT (linkForce E s qd (List.replicate n 0)) i +
      force s.link_parents s.linkT (fun k => inertia_mul_motion (s.linkI k)
        (vel s.link_parents s.linkT (jointVel E s u) k)) i :=
    accAux_add (fun i x y => transform_force_add _ _ _) _ _ _ _
  rw [e1, e2, motion_dot_add_right, ← energyForm_single h.topo hu hi,
    energyForm_congr h.topo (fun _ _ => rfl) (fun k hk => jointVel_eq h hj hw u hk),
    energyForm_sum_right h.topo]
  congr 1
  apply Finset.sum_congr rfl
  intro c _
  rw [energyForm_smul_right h.topo, mul_comm]
  congr 1
  unfold massEntry
  rw [show dofMotion E s (dofStart E s i + a) = single i (s.axesAt E i)[a] by
    unfold dofMotion; rw [dofLink_eq hi ha, dofAxis_eq hi ha]]

end

end RingLib
