import Verif.Props.InvKin

/-! # Properties C24 and C25: poses in the world and relative to the parent -/

namespace RingLib
open System algebra maths
variable {α π : Type}

/-! ## C24 -/

/-- all rotations are unit quaternions -/
def UnitPoses [CommRing α] (xs : List (Transform α)) : Prop := ∀ x ∈ xs, x.rot.normSq = 1

theorem poseAt_unit [CommRing α] {xs : List (Transform α)} (h : UnitPoses xs) (p : Int) :
    (poseAt xs p).rot.normSq = 1 := by
  unfold poseAt
  split
  · exact transform_zero_unit
  · by_cases hp : p.toNat < xs.length
    · have := h (xs[p.toNat]) (List.getElem_mem _)
      simpa [hp] using this
    · simp [hp, transform_zero_unit]

/-- pose of link `i` relative to its parent -/
def relPose [CommRing α] (parents : List Int) (xs : List (Transform α)) (i : Nat) : Transform α :=
  transform_mul (xs.getD i .zero) (transform_inv (poseAt xs (parents.getD i (-1))))

theorem transform_inv_zero [CommRing α] : transform_inv (Transform.zero : Transform α) = .zero := by
  have := transform_mul_inv (t := (Transform.zero : Transform α)) transform_zero_unit
  rwa [transform_zero_mul] at this

theorem parentToLink_ok [CommRing α] {parents : List Int} (ht : Topological parents)
    {xs : List (Transform α)} (hx : xs.length = parents.length) {i : Nat} (hi : i < parents.length) :
    parentToLink xs (i, parents[i]) = .ok (relPose parents xs i) := by
  obtain ⟨h1, h2⟩ := ht i hi
  have hi' : i < xs.length := by omega
  unfold parentToLink relPose
  rw [pyGet_nat (List.getElem?_eq_getElem hi')]
  simp only [ok_bind, List.getD_eq_getElem?_getD, List.getElem?_eq_getElem hi',
    List.getElem?_eq_getElem hi, Option.getD_some]
  by_cases h0 : parents[i] = -1
  · rw [if_pos h0, h0]
    unfold poseAt
    rw [if_pos (by omega), transform_inv_zero, transform_mul_zero]
    rfl
  · rw [if_neg h0]
    have hlt : parents[i].toNat < xs.length := by omega
    have hnn : parents[i] = (parents[i].toNat : Int) := by omega
    have := pyGet_nat (List.getElem?_eq_getElem hlt)
    rw [← hnn] at this
    rw [this]
    unfold poseAt
    rw [if_neg (by omega)]
    simp [hlt, ok_bind, pure_ok]

theorem pieces_ll {E : Env α π} {s : System α π} :
    PiecesOk E s ((argL (List.range s.num_links)).and (argL s.link_parents)).pieces := by
  intro x hx
  simp only [ScanArg.and, argL, List.mem_append, List.mem_singleton, List.mem_cons,
    List.not_mem_nil, or_false] at hx
  rcases hx with rfl | rfl
  · simp [num_links]
  · rfl

theorem unzip_eq [CommRing α] {E : JEnv α π} {s : System α π} (h : s.Consistent E.toEnv)
    (ht : Topological s.link_parents) {xs : List (Transform α)}
    (hx : xs.length = s.link_parents.length) :
    s.unzip_xs E xs = .ok
      ((List.range s.link_parents.length).map fun i =>
        ⟨(relPose s.link_parents xs i).pos, maths.unitQuat⟩,
       (List.range s.link_parents.length).map fun i => ⟨0, (relPose s.link_parents xs i).rot⟩) := by
  unfold unzip_xs
  rw [pyAssert_true (p := xs.length = s.num_links) hx]
  have key := scan_inv (E := E.toEnv) (s := s) h.known h.types_len (g := unzip_link xs) pieces_ll
    (rows_and (rows_argL _ _) (rows_argL _ _)) (by simp [num_links])
    ((List.range s.link_parents.length).map fun i =>
      ((⟨(relPose s.link_parents xs i).pos, maths.unitQuat⟩ : Transform α),
        (⟨0, (relPose s.link_parents xs i).rot⟩ : Transform α))) (by simp)
    (by
      intro i hi
      simp only [List.getElem_zip, List.getElem_range, List.getElem_map, unzip_link,
        parentToLink_ok ht hx hi, ok_bind, pure_ok])
  simp only [ok_bind, key, pure_ok, List.map_map]
  rfl

/-- the poses obtained by composing relative poses -/
def composed [Ring α] (parents : List Int) (t1 t2 : List (Transform α)) : Nat → Transform α :=
  treeVal parents Transform.zero fun i par =>
    transform_mul (transform_mul (t2.getD i .zero) (t1.getD i .zero)) par

theorem zip_eq [Ring α] {E : JEnv α π} {s : System α π} (h : s.Consistent E.toEnv)
    (ht : Topological s.link_parents) {t1 t2 : List (Transform α)}
    (h1 : t1.length = s.link_parents.length) (h2 : t2.length = s.link_parents.length) :
    s.zip_xs E t1 t2 =
      .ok ((List.range s.link_parents.length).map (composed s.link_parents t1 t2)) := by
  unfold zip_xs
  rw [pyAssert_true (p := t1.length = s.num_links) h1,
    pyAssert_true (p := t2.length = s.num_links) h2]
  have key := scanState_forward_inv (E := E.toEnv) (s := s) h.known h.types_len
    (f := zip_link t1 t2) pieces_ll
    (rows_and (rows_argL _ _) (rows_argL _ _)) (by simp [num_links])
    (fun i => dictUpTo Transform.zero (composed s.link_parents t1 t2) i)
    ((List.range s.link_parents.length).map (composed s.link_parents t1 t2)) (by simp)
    (by
      intro i hi
      have hi1 : i < t1.length := by omega
      have hi2 : i < t2.length := by omega
      simp only [List.getElem_zip, List.getElem_range, List.getElem_map, zip_link,
        pyGet_nat (List.getElem?_eq_getElem hi1), pyGet_nat (List.getElem?_eq_getElem hi2), ok_bind,
        dictUpTo_get ht _ _ i hi, pure_ok]
      have : transform_mul (transform_mul t2[i] t1[i]) (parentVal Transform.zero
          (composed s.link_parents t1 t2) s.link_parents[i]) = composed s.link_parents t1 t2 i := by
        conv_rhs => unfold composed
        rw [treeVal_eq ht _ _ i hi]
        simp [hi1, hi2, composed]
      rw [this, dictUpTo_succ])
  rw [dictUpTo_zero] at key
  simp only [ok_bind, key, pure_ok]

/-- the composed poses satisfy the recursion -/
theorem composed_rec [Ring α] {parents : List Int} (ht : Topological parents)
    {t1 t2 : List (Transform α)} {i : Nat} (hi : i < parents.length) :
    composed parents t1 t2 i = transform_mul (transform_mul (t2.getD i .zero) (t1.getD i .zero))
      (poseAt ((List.range parents.length).map (composed parents t1 t2)) parents[i]) := by
  rw [poseAt_map_range _ (by have := (ht i hi).2; omega)]
  conv_lhs => unfold composed
  rw [treeVal_eq ht _ _ i hi]
  rfl

theorem transform_split [CommRing α] (r : Transform α) :
    transform_mul ⟨0, r.rot⟩ ⟨r.pos, maths.unitQuat⟩ = r := by
  unfold transform_mul
  obtain ⟨p, q⟩ := r
  congr 1
  · ext <;> simp [maths.rotate, maths.rotate_quat, maths.unitQuat, maths.quat_inv, maths.quat_mul]
  · ext <;> simp [maths.unitQuat, maths.quat_mul]

/-- two families of poses which satisfy the same recursion agree -/
theorem rec_unique [Ring α] {parents : List Int} (ht : Topological parents)
    {xs ys : List (Transform α)} (hx : xs.length = parents.length) (hy : ys.length = parents.length)
    (r : Nat → Transform α)
    (h1 : ∀ i (hi : i < parents.length), xs[i] = transform_mul (r i) (poseAt xs parents[i]))
    (h2 : ∀ i (hi : i < parents.length), ys[i] = transform_mul (r i) (poseAt ys parents[i])) :
    xs = ys := by
  apply List.ext_getElem (by omega)
  intro i
  induction i using Nat.strong_induction_on with
  | _ i ih =>
    intro hi hi'
    have hip : i < parents.length := by omega
    rw [h1 i hip, h2 i hip]
    congr 1
    obtain ⟨h3, h4⟩ := ht i hip
    unfold poseAt
    split
    · rfl
    · have hl1 : parents[i].toNat < xs.length := by omega
      have hl2 : parents[i].toNat < ys.length := by omega
      have := ih parents[i].toNat (by omega) hl1 hl2
      simp [hl1, hl2, this]

theorem relPose_rec [CommRing α] {parents : List Int} {xs : List (Transform α)}
    (hx : xs.length = parents.length) (hu : UnitPoses xs) {i : Nat} (hi : i < parents.length) :
    xs[i] = transform_mul (relPose parents xs i) (poseAt xs parents[i]) := by
  have hi' : i < xs.length := by omega
  unfold relPose
  simp only [List.getD_eq_getElem?_getD, List.getElem?_eq_getElem hi', List.getElem?_eq_getElem hi,
    Option.getD_some]
  rw [transform_mul_assoc', transform_inv_mul (poseAt_unit hu _), transform_mul_zero]

/-- C24: `unzip_xs` recovers the relative poses: composing what it returns (first the translation,
then the rotation) gives a transform which, applied after the pose of the parent, yields the pose
of the link. -/
theorem C24_unzip [CommRing α] {E : JEnv α π} {s : System α π} (h : s.Consistent E.toEnv)
    (ht : Topological s.link_parents) {xs : List (Transform α)}
    (hx : xs.length = s.link_parents.length) (hu : UnitPoses xs) :
    ∃ t1 t2, s.unzip_xs E xs = .ok (t1, t2) ∧ t1.length = xs.length ∧ t2.length = xs.length ∧
      (∀ t ∈ t1, t.rot = ⟨1, 0, 0, 0⟩) ∧ (∀ t ∈ t2, t.pos = 0) ∧
      ∀ i a b x (hi : i < s.link_parents.length), t1[i]? = some a → t2[i]? = some b →
        xs[i]? = some x → x = transform_mul (transform_mul b a) (poseAt xs s.link_parents[i]) := by
  refine ⟨_, _, unzip_eq h ht hx, by simp [hx], by simp [hx], ?_, ?_, ?_⟩
  · intro t ht'
    obtain ⟨i, _, rfl⟩ := List.mem_map.1 ht'
    rfl
  · intro t ht'
    obtain ⟨i, _, rfl⟩ := List.mem_map.1 ht'
    rfl
  · intro i a b x hi ha hb hxi
    simp [hi] at ha hb
    subst ha
    subst hb
    rw [transform_split, ← relPose_rec hx hu hi]
    rw [List.getElem?_eq_getElem (by omega)] at hxi
    exact (Option.some.inj hxi).symm

/-- C24: composing the split poses again gives the poses back. -/
theorem C24_zip_unzip [CommRing α] {E : JEnv α π} {s : System α π} (h : s.Consistent E.toEnv)
    (ht : Topological s.link_parents) {xs : List (Transform α)}
    (hx : xs.length = s.link_parents.length) (hu : UnitPoses xs) {t1 t2 : List (Transform α)}
    (hz : s.unzip_xs E xs = .ok (t1, t2)) : s.zip_xs E t1 t2 = .ok xs := by
  rw [unzip_eq h ht hx] at hz
  cases hz
  rw [zip_eq h ht (by simp) (by simp)]
  congr 1
  apply rec_unique ht (by simp) hx (relPose s.link_parents xs)
  · intro i hi
    simp only [List.getElem_map, List.getElem_range]
    rw [composed_rec ht hi]
    congr 1
    simp only [List.getD_eq_getElem?_getD, List.getElem?_map, List.getElem?_range hi,
      Option.map_some, Option.getD_some]
    exact transform_split _
  · intro i hi
    exact relPose_rec hx hu hi

/-- composition of unit transforms is unit -/
theorem composed_unit [CommRing α] {parents : List Int} (ht : Topological parents)
    {t1 t2 : List (Transform α)} (h1 : UnitPoses t1) (h2 : UnitPoses t2) :
    UnitPoses ((List.range parents.length).map (composed parents t1 t2)) := by
  have key : ∀ i, i < parents.length → (composed parents t1 t2 i).rot.normSq = 1 := by
    intro i
    induction i using Nat.strong_induction_on with
    | _ i ih =>
      intro hi
      have getD_unit : ∀ {t : List (Transform α)}, UnitPoses t → (t.getD i .zero).rot.normSq = 1 := by
        intro t hu
        by_cases hi' : i < t.length
        · have := hu t[i] (List.getElem_mem _)
          simpa [hi'] using this
        · simp [hi', transform_zero_unit]
      rw [composed_rec ht hi, poseAt_map_range _ (by have := (ht i hi).2; omega)]
      apply transform_mul_unit
      · exact transform_mul_unit (getD_unit h2) (getD_unit h1)
      · unfold parentVal
        split
        · have := (ht i hi).2
          exact ih _ (by omega) (by omega)
        · exact transform_zero_unit
  intro x hx
  obtain ⟨i, hi, rfl⟩ := List.mem_map.1 hx
  exact key i (List.mem_range.1 hi)

/-- relative poses of composed poses -/
theorem relPose_composed [CommRing α] {parents : List Int} (ht : Topological parents)
    {t1 t2 : List (Transform α)} (h1 : UnitPoses t1) (h2 : UnitPoses t2) {i : Nat}
    (hi : i < parents.length) :
    relPose parents ((List.range parents.length).map (composed parents t1 t2)) i =
      transform_mul (t2.getD i .zero) (t1.getD i .zero) := by
  unfold relPose
  simp only [List.getD_eq_getElem?_getD, List.getElem?_map, List.getElem?_range hi,
    Option.map_some, Option.getD_some, List.getElem?_eq_getElem hi]
  rw [composed_rec ht hi, transform_mul_mul_inv (poseAt_unit (composed_unit ht h1 h2) _)]
  simp only [List.getD_eq_getElem?_getD]

/-- C24: splitting composed poses gives the translations and rotations back. -/
theorem C24_unzip_zip [CommRing α] {E : JEnv α π} {s : System α π} (h : s.Consistent E.toEnv)
    (ht : Topological s.link_parents) {t1 t2 : List (Transform α)}
    (h1 : t1.length = s.link_parents.length) (h2 : t2.length = s.link_parents.length)
    (hr : ∀ t ∈ t1, t.rot = ⟨1, 0, 0, 0⟩) (hp : ∀ t ∈ t2, t.pos = 0) (hu : UnitPoses t2) :
    ∃ xs, s.zip_xs E t1 t2 = .ok xs ∧ s.unzip_xs E xs = .ok (t1, t2) := by
  have hu1 : UnitPoses t1 := fun t ht' => by rw [hr t ht']; simp [Quat.normSq]
  refine ⟨_, zip_eq h ht h1 h2, ?_⟩
  rw [unzip_eq h ht (by simp)]
  have rel : ∀ i (hi : i < s.link_parents.length),
      relPose s.link_parents ((List.range s.link_parents.length).map
        (composed s.link_parents t1 t2)) i =
      ⟨(t1[i]'(by omega)).pos, (t2[i]'(by omega)).rot⟩ := by
    intro i hi
    have hi1 : i < t1.length := by omega
    have hi2 : i < t2.length := by omega
    rw [relPose_composed ht hu1 hu hi]
    simp only [List.getD_eq_getElem?_getD, List.getElem?_eq_getElem hi1,
      List.getElem?_eq_getElem hi2, Option.getD_some]
    have e1 : t1[i] = ⟨t1[i].pos, maths.unitQuat⟩ := by
      have := hr t1[i] (List.getElem_mem _)
      show t1[i] = ⟨t1[i].pos, ⟨1, 0, 0, 0⟩⟩
      rw [← this]
    have e2 : t2[i] = ⟨0, t2[i].rot⟩ := by
      have := hp t2[i] (List.getElem_mem _)
      rw [← this]
    rw [e1, e2]
    exact transform_split ⟨t1[i].pos, t2[i].rot⟩
  congr 2
  · apply List.ext_getElem (by simp [h1])
    intro i hi hi'
    have hi0 : i < s.link_parents.length := by omega
    simp only [List.getElem_map, List.getElem_range, rel i hi0]
    have := hr t1[i] (List.getElem_mem _)
    show (⟨t1[i].pos, ⟨1, 0, 0, 0⟩⟩ : Transform α) = _
    rw [← this]
  · apply List.ext_getElem (by simp [h2])
    intro i hi hi'
    have hi0 : i < s.link_parents.length := by omega
    simp only [List.getElem_map, List.getElem_range, rel i hi0]
    have := hp t2[i] (List.getElem_mem _)
    rw [← this]

theorem unitPoses_set [CommRing α] {t : List (Transform α)} (h : UnitPoses t) {k : Nat}
    {x : Transform α} (hx : x.rot.normSq = 1) : UnitPoses (t.set k x) := by
  intro y hy
  rcases List.mem_or_eq_of_mem_set hy with hy | rfl
  · exact h y hy
  · exact hx

/-- Overwriting the pose of one link relative to its parent: that link gets the new relative pose,
all other links keep theirs. -/
theorem overwrite_eq [CommRing α] {E : JEnv α π} {s : System α π} (h : s.Consistent E.toEnv)
    (ht : Topological s.link_parents) {xs : List (Transform α)}
    (hx : xs.length = s.link_parents.length) (hu : UnitPoses xs) {k : Nat}
    (hk : k < s.link_parents.length) {x : Transform α} (hxu : x.rot.normSq = 1) :
    ∃ ys, s._overwrite_transform_of_link_then_update E xs x k = .ok ys ∧
      ys.length = s.link_parents.length ∧ UnitPoses ys ∧
      relPose s.link_parents ys k = x ∧
      ∀ i, i < s.link_parents.length → i ≠ k →
        relPose s.link_parents ys i = relPose s.link_parents xs i := by
  unfold _overwrite_transform_of_link_then_update
  rw [unzip_eq h ht hx]
  simp only [ok_bind]
  set t1 := ((List.range s.link_parents.length).map fun i =>
    (⟨(relPose s.link_parents xs i).pos, maths.unitQuat⟩ : Transform α)) with ht1
  set t2 := ((List.range s.link_parents.length).map fun i =>
    (⟨0, (relPose s.link_parents xs i).rot⟩ : Transform α)) with ht2
  have u1 : UnitPoses t1 := by
    intro t htm
    obtain ⟨i, _, rfl⟩ := List.mem_map.1 htm
    simp [maths.unitQuat, Quat.normSq]
  have u2 : UnitPoses t2 := by
    intro t htm
    obtain ⟨i, hi, rfl⟩ := List.mem_map.1 htm
    have hi' : i < xs.length := by rw [hx]; exact List.mem_range.1 hi
    show (relPose s.link_parents xs i).rot.normSq = 1
    unfold relPose
    apply transform_mul_unit
    · have := hu xs[i] (List.getElem_mem _)
      simpa [hi'] using this
    · exact transform_inv_unit (poseAt_unit hu _)
  have u1' := unitPoses_set (k := k) u1 hxu
  have u2' := unitPoses_set (k := k) u2 (transform_zero_unit (R := α))
  refine ⟨_, zip_eq h ht (by simp [ht1]) (by simp [ht2]), by simp, composed_unit ht u1' u2', ?_, ?_⟩
  · rw [relPose_composed ht u1' u2' hk]
    have e1 : (t1.set k x).getD k .zero = x := by simp [ht1, hk]
    have e2 : (t2.set k Transform.zero).getD k .zero = Transform.zero := by simp [ht2, hk]
    rw [e1, e2, transform_zero_mul]
  · intro i hi hik
    rw [relPose_composed ht u1' u2' hi]
    have e1 : (t1.set k x).getD i .zero = ⟨(relPose s.link_parents xs i).pos, maths.unitQuat⟩ := by
      simp [ht1, hi, List.getElem?_set, Ne.symm hik]
    have e2 : (t2.set k Transform.zero).getD i .zero = ⟨0, (relPose s.link_parents xs i).rot⟩ := by
      simp [ht2, hi, List.getElem?_set, Ne.symm hik]
    rw [e1, e2, transform_split]

theorem foldlM_inv {β σ : Type} {f : σ → β × Nat → Py σ} {l : List β} (n : Nat)
    {P : Nat → σ → Prop}
    (h : ∀ i (hi : i < l.length) x, P (n + i) x → ∃ y, f x (l[i], n + i) = .ok y ∧ P (n + i + 1) y)
    (x : σ) (hx : P n x) : ∃ y, (l.zipIdx n).foldlM f x = .ok y ∧ P (n + l.length) y := by
  induction l generalizing n x with
  | nil => exact ⟨x, rfl, hx⟩
  | cons a l ih =>
    obtain ⟨y, hy, hp⟩ := h 0 (by simp) x hx
    simp only [List.getElem_cons_zero, Nat.add_zero] at hy hp
    obtain ⟨z, hz, hpz⟩ := ih (n + 1) (fun i hi x hx => by
      have := h (i + 1) (by simpa using hi) x (by rw [show n + (i + 1) = n + 1 + i by omega]; exact hx)
      simpa [show n + (i + 1) = n + 1 + i by omega] using this) y hp
    refine ⟨z, ?_, by rw [List.length_cons, show n + (l.length + 1) = n + 1 + l.length by omega]; exact hpz⟩
    rw [List.zipIdx_cons, List.foldlM_cons, hy]
    exact hz

/-- C24: `delete_to_world_pos_rot` puts every root at the identity and keeps the pose of every other
link relative to its parent. -/
theorem C24_delete_to_world [CommRing α] {E : JEnv α π} {s : System α π} (h : s.Consistent E.toEnv)
    (ht : Topological s.link_parents) {xs : List (Transform α)}
    (hx : xs.length = s.link_parents.length) (hu : UnitPoses xs) :
    ∃ ys, s.delete_to_world_pos_rot E xs = .ok ys ∧ ys.length = xs.length ∧ UnitPoses ys ∧
      ∀ i (hi : i < s.link_parents.length),
        (s.link_parents[i] = -1 → ys[i]? = some .zero) ∧
        (s.link_parents[i] ≠ -1 → ∃ r,
          xs[i]? = some (transform_mul r (poseAt xs s.link_parents[i])) ∧
          ys[i]? = some (transform_mul r (poseAt ys s.link_parents[i]))) := by
  unfold delete_to_world_pos_rot
  rw [pyAssert_true (p := xs.length = s.num_links) hx]
  simp only [ok_bind]
  obtain ⟨ys, hys, h1, h2, h3⟩ := foldlM_inv (l := s.link_parents) 0
    (f := fun xs (x : Int × Nat) =>
      if x.1 = -1 then _overwrite_transform_of_link_then_update E s xs Transform.zero x.2
      else pure xs)
    (P := fun n ys => ys.length = s.link_parents.length ∧ UnitPoses ys ∧
      ∀ i (hi : i < s.link_parents.length),
        (s.link_parents[i] = -1 → i < n → relPose s.link_parents ys i = .zero) ∧
        (s.link_parents[i] ≠ -1 → relPose s.link_parents ys i = relPose s.link_parents xs i))
    (by
      intro k hk zs ⟨hl, hz, hrel⟩
      simp only [Nat.zero_add] at hrel ⊢
      by_cases h0 : s.link_parents[k] = -1
      · rw [if_pos h0]
        obtain ⟨ys, hys, hl', hu', hk', hother⟩ := overwrite_eq h ht hl hz hk
          (transform_zero_unit (R := α))
        refine ⟨ys, hys, hl', hu', ?_⟩
        intro i hi
        by_cases hik : i = k
        · subst hik
          exact ⟨fun _ _ => hk', fun hne => absurd h0 hne⟩
        · rw [hother i hi hik]
          exact ⟨fun hr hlt => (hrel i hi).1 hr (by omega), (hrel i hi).2⟩
      · rw [if_neg h0]
        refine ⟨zs, rfl, hl, hz, ?_⟩
        intro i hi
        refine ⟨fun hr hlt => (hrel i hi).1 hr ?_, (hrel i hi).2⟩
        have : i ≠ k := fun e => h0 (by subst e; exact hr)
        omega)
    xs ⟨hx, hu, fun i hi => ⟨fun _ hlt => absurd hlt (by omega), fun _ => rfl⟩⟩
  refine ⟨ys, hys, by omega, h2, ?_⟩
  intro i hi
  have hiy : i < ys.length := by omega
  have hix : i < xs.length := by omega
  have hrec := relPose_rec h1 h2 hi
  constructor
  · intro hr
    rw [(h3 i hi).1 hr (by simpa using hi), transform_zero_mul] at hrec
    rw [List.getElem?_eq_getElem hiy, hrec, hr]
    rfl
  · intro hr
    refine ⟨relPose s.link_parents xs i, ?_, ?_⟩
    · rw [List.getElem?_eq_getElem hix, ← relPose_rec hx hu hi]
    · rw [List.getElem?_eq_getElem hiy, ← (h3 i hi).2 hr, ← hrec]

/-- hypotheses of the theorems about `zip_xs`, `unzip_xs` and `delete_to_world_pos_rot` are met by
the example system and non-trivial unit poses -/
example : ([⟨⟨1, 2, 3⟩, ⟨0, 1, 0, 0⟩⟩, ⟨0, ⟨0, 0, 1, 0⟩⟩, .zero, ⟨⟨1, 0, 0⟩, ⟨0, 0, 0, 1⟩⟩] :
      List (Transform ℚ)).length = exSys.link_parents.length ∧
    UnitPoses ([⟨⟨1, 2, 3⟩, ⟨0, 1, 0, 0⟩⟩, ⟨0, ⟨0, 0, 1, 0⟩⟩, .zero, ⟨⟨1, 0, 0⟩, ⟨0, 0, 0, 1⟩⟩] :
      List (Transform ℚ)) ∧ Topological exSys.link_parents ∧
    kinSys.Consistent stdEnv.toEnv ∧ Topological kinSys.link_parents := by
  refine ⟨rfl, ?_, exSys_topological, kinSys_consistent, kinSys_wf.topo⟩
  intro x hx
  simp at hx
  rcases hx with rfl | rfl | rfl | rfl <;> simp [Quat.normSq, Transform.zero, maths.unitQuat]

/-! match_xs -/

theorem lookup_zip_names {β : Type} {names : List String} (hn : names.Nodup) {xs : List β}
    (hl : xs.length = names.length) {j : Nat} {n : String} (hj : names[j]? = some n) :
    (names.zip xs).lookup n = xs[j]? := by
  induction names generalizing xs j with
  | nil => simp at hj
  | cons a names ih =>
    cases xs with
    | nil => simp at hl
    | cons x xs =>
      rw [List.nodup_cons] at hn
      rw [List.zip_cons_cons, List.lookup_cons]
      cases j with
      | zero =>
        simp at hj
        subst hj
        simp
      | succ j =>
        simp only [List.getElem?_cons_succ] at hj ⊢
        have : n ≠ a := fun e => hn.1 (e ▸ List.mem_of_getElem? hj)
        rw [beq_eq_false_iff_ne.2 this]
        exact ih hn.2 (by simpa using hl) hj

theorem lookup_zip_none {β : Type} {names : List String} {xs : List β} {n : String}
    (hj : n ∉ names) : (names.zip xs).lookup n = none := by
  induction names generalizing xs with
  | nil => rfl
  | cons a names ih =>
    cases xs with
    | nil => rfl
    | cons x xs =>
      simp only [List.mem_cons, not_or] at hj
      rw [List.zip_cons_cons, List.lookup_cons, beq_eq_false_iff_ne.2 hj.1]
      exact ih hj.2

theorem match_dict {sx : System α π} (hn : sx.link_names.Nodup) {xs : List (Transform α)}
    (hl : xs.length = sx.link_names.length) :
    (sx.link_names.mapM fun name => do
      let i ← sx.name_to_idx name
      let x ← pyGet xs i
      pure (name, x) : Py _) = .ok (sx.link_names.zip xs) := by
  have hx : ∀ name ∈ sx.link_names, ∃ (i : Nat) (x : Transform α), sx.link_names[i]? = some name ∧ xs[i]? = some x := by
    intro name hm
    obtain ⟨i, hi, rfl⟩ := List.getElem_of_mem hm
    exact ⟨i, _, List.getElem?_eq_getElem hi, List.getElem?_eq_getElem (by omega)⟩
  by_cases hne : sx.link_names = []
  · rw [hne]; rfl
  · have hne' : xs ≠ [] := fun e => hne (by rw [e] at hl; exact List.length_eq_zero_iff.1 hl.symm)
    have := mapM_ok (f := fun name => do
        let i ← sx.name_to_idx name
        let x ← pyGet xs i
        pure (name, x)) (l := sx.link_names)
      (g := fun name => (name, ((sx.link_names.zip xs).lookup name).getD (xs.head hne'))) (by
        intro name hm
        obtain ⟨i, x, h1, h2⟩ := hx name hm
        rw [name_to_idx_of_nodup hn h1]
        simp only [ok_bind, pyGet_nat h2, pure_ok]
        rw [lookup_zip_names hn hl h1, h2]
        rfl)
    rw [this]
    congr 1
    apply List.ext_getElem (by simp [hl])
    intro i h1 h2
    have hi : i < sx.link_names.length := by simpa using h1
    simp only [List.getElem_map, List.getElem_zip]
    rw [lookup_zip_names hn hl (List.getElem?_eq_getElem hi),
      List.getElem?_eq_getElem (by omega)]
    rfl

/-- C24: `match_xs` returns for every link of the system, in the system's order, the pose recorded
under that link's name. -/
theorem C24_match_xs [CommRing α] {E : JEnv α π} {s sx : System α π} (h : s.Consistent E.toEnv)
    (hpos : 0 < s.num_links) (hx : sx.Consistent E.toEnv) {xs : List (Transform α)}
    (hl : xs.length = sx.num_links) (hsub : ∀ n ∈ s.link_names, n ∈ sx.link_names) :
    ∃ ys, s.match_xs E xs sx = .ok ys ∧ ys.length = s.num_links ∧
      ∀ (i j : Nat) n, s.link_names[i]? = some n → sx.link_names[j]? = some n → ys[i]? = xs[j]? := by
  have hl' : xs.length = sx.link_names.length := by rw [hx.names_len]; exact hl
  have at_ : ∀ i (hi : i < s.link_parents.length), ∃ (j : Nat) (x : Transform α),
      sx.link_names[j]? = some (s.link_names[i]'(by rw [h.names_len]; exact hi)) ∧
      xs[j]? = some x := by
    intro i hi
    obtain ⟨j, hj, e⟩ := List.getElem_of_mem (hsub _ (List.getElem_mem (l := s.link_names)
      (by rw [h.names_len]; exact hi)))
    exact ⟨j, _, by rw [List.getElem?_eq_getElem hj, e], List.getElem?_eq_getElem (by omega)⟩
  choose J X hJ hX using at_
  let outs := List.ofFn fun i : Fin s.link_parents.length => X i i.2
  have key := scan_inv (E := E.toEnv) (s := s) h.known h.types_len
    (arg := argL s.link_names)
    (g := xs_from_raw_link (sx.link_names.zip xs) false Transform.zero)
    (by
      intro x hx
      simp only [argL, List.mem_singleton] at hx
      subst hx
      exact h.names_len)
    (rows_argL _ _) h.names_len outs (by simp [outs])
    (by
      intro i hi
      unfold xs_from_raw_link pyDict
      rw [lookup_zip_names hx.names_nodup hl' (hJ i hi), hX i hi]
      simp only [ok_bind, pure_ok, Bool.false_eq_true, if_false]
      rw [transform_inv_zero, transform_mul_zero]
      simp [outs])
  refine ⟨outs, ?_, by simp [outs, num_links], ?_⟩
  · unfold match_xs
    rw [pyAssert_true hl]
    simp only [ok_bind]
    rw [match_dict hx.names_nodup hl']
    simp only [ok_bind, xs_from_raw, eps_transform, pure_ok, key]
    cases ho : outs with
    | nil =>
      have := congrArg List.length ho
      unfold num_links at hpos
      simp [outs] at this
      rw [this] at hpos
      simp at hpos
    | cons a l => rfl
  · intro i j n hi hj
    have hi' : i < s.link_parents.length := by
      rw [← h.names_len]; exact (List.getElem?_eq_some_iff.1 hi).1
    have e : s.link_names[i]'(by rw [h.names_len]; exact hi') = n := by
      rw [List.getElem?_eq_getElem (by rw [h.names_len]; exact hi')] at hi
      exact Option.some.inj hi
    have hJ' := hJ i hi'
    rw [e] at hJ'
    have hj1 := idxOf?_eq_of_nodup hx.names_nodup hJ'
    rw [idxOf?_eq_of_nodup hx.names_nodup hj] at hj1
    have ej : j = J i hi' := Option.some.inj hj1
    rw [ej, hX i hi']
    simp [outs, hi']

/-- C24: a link without recording makes `match_xs` raise. -/
theorem C24_match_missing [CommRing α] {E : JEnv α π} {s sx : System α π} (h : s.Consistent E.toEnv)
    (hx : sx.Consistent E.toEnv) {xs : List (Transform α)}
    (hl : xs.length = sx.num_links) {n : String} (hn : n ∈ s.link_names) (hn' : n ∉ sx.link_names) :
    s.match_xs E xs sx = .error .key := by
  have hl' : xs.length = sx.link_names.length := by rw [hx.names_len]; exact hl
  unfold match_xs
  rw [pyAssert_true hl]
  simp only [ok_bind]
  rw [match_dict hx.names_nodup hl']
  simp only [ok_bind, xs_from_raw, eps_transform, pure_ok]
  rw [scan_forward h.known h.types_len _ (by
      intro x hx
      simp only [argL, List.mem_singleton] at hx
      subst hx
      exact h.names_len) (rows_argL _ _) h.names_len,
    foldSpec_error none .key (by
      intro o _ e' he
      unfold xs_from_raw_link pyDict at he
      cases hlk : (sx.link_names.zip xs).lookup o with
      | none => rw [hlk] at he; simp only [error_bind] at he; cases he; rfl
      | some v => rw [hlk] at he; simp [ok_bind, pure_ok] at he)
      ⟨n, hn, by unfold xs_from_raw_link pyDict; rw [lookup_zip_none hn']; rfl⟩]
  rfl

/-- C24: with an `eps_frame` all poses are expressed in the frame of that segment at time zero: the
segment starts at the identity, and every pose composed with that frame gives the recorded pose. -/
theorem C24_xs_from_raw [CommRing α] {E : JEnv α π} {s : System α π} (h : s.Consistent E.toEnv)
    (hpos : 0 < s.num_links) {first raw : List (String × Transform α)} {eps : String}
    {e : Transform α} (he : first.lookup eps = some e) (hu : e.rot.normSq = 1)
    (hall : ∀ n ∈ s.link_names, ∃ x, raw.lookup n = some x) :
    ∃ ys, s.xs_from_raw E first raw (some eps) = .ok ys ∧ ys.length = s.num_links ∧
      (∀ (i : Nat) n x y, s.link_names[i]? = some n → raw.lookup n = some x → ys[i]? = some y →
        transform_mul y e = x) ∧
      (raw = first → ∀ i : Nat, s.link_names[i]? = some eps → ys[i]? = some .zero) := by
  have at_ : ∀ i (hi : i < s.link_parents.length), ∃ x : Transform α,
      raw.lookup (s.link_names[i]'(by rw [h.names_len]; exact hi)) = some x := fun i hi =>
    hall _ (List.getElem_mem _)
  choose X hX using at_
  let outs := List.ofFn fun i : Fin s.link_parents.length => transform_mul (X i i.2) (transform_inv e)
  have key := scan_inv (E := E.toEnv) (s := s) h.known h.types_len
    (arg := argL s.link_names)
    (g := xs_from_raw_link raw false e)
    (by
      intro x hx
      simp only [argL, List.mem_singleton] at hx
      subst hx
      exact h.names_len)
    (rows_argL _ _) h.names_len outs (by simp [outs])
    (by
      intro i hi
      unfold xs_from_raw_link pyDict
      rw [hX i hi]
      simp [ok_bind, pure_ok, outs])
  have get : ∀ (i : Nat) n, s.link_names[i]? = some n → ∃ (hi : i < s.link_parents.length),
      raw.lookup n = some (X i hi) ∧ outs[i]? = some (transform_mul (X i hi) (transform_inv e)) := by
    intro i n hn
    obtain ⟨h1, h2⟩ := List.getElem?_eq_some_iff.1 hn
    have hi : i < s.link_parents.length := by rw [← h.names_len]; exact h1
    refine ⟨hi, by rw [← hX i hi, h2], by simp [outs, hi]⟩
  refine ⟨outs, ?_, by simp [outs, num_links], ?_, ?_⟩
  · unfold xs_from_raw eps_transform pyDict
    dsimp only
    rw [he]
    simp only [ok_bind, pure_ok, Bool.false_eq_true, if_false, key]
    cases ho : outs with
    | nil =>
      have := congrArg List.length ho
      unfold num_links at hpos
      simp [outs] at this
      rw [this] at hpos
      simp at hpos
    | cons a l => rfl
  · intro i n x y hn hx hy
    obtain ⟨hi, h1, h2⟩ := get i n hn
    rw [h1] at hx
    rw [h2] at hy
    cases hx
    cases hy
    rw [transform_mul_assoc', transform_inv_mul hu, transform_mul_zero]
  · intro hr i hn
    obtain ⟨hi, h1, h2⟩ := get i eps hn
    rw [hr, he] at h1
    rw [h2, ← Option.some.inj h1, transform_mul_inv hu]

/-! ## C25 -/

/-- Specification of `rel_pose`: one entry for every link that has a parent, in order, holding
`q_parent · q_child⁻¹`, the poses being looked up by name. -/
structure IsRelPose [CommRing α] (s sx : System α π) (xs : List (Transform α))
    (y : List (String × Quat α)) : Prop where
  keys : y.map (·.1) =
    ((s.link_names.zip s.link_parents).filter fun x => decide (x.2 ≠ -1)).map (·.1)
  value : ∀ n q, (n, q) ∈ y → ∃ (i p i' p' : Nat) (m : String) (xi xp : Transform α),
    s.link_names[i]? = some n ∧ s.link_parents[i]? = some (p : Int) ∧ s.link_names[p]? = some m ∧
    sx.link_names[i']? = some n ∧ sx.link_names[p']? = some m ∧
    xs[i']? = some xi ∧ xs[p']? = some xp ∧
    q = maths.quat_mul xp.rot (maths.quat_inv xi.rot)

theorem filterMap_ofFn_keys {β γ : Type} (g : β → Option γ) (key : γ → String)
    (p : String × Int → Bool) :
    ∀ (l : List (String × Int)) (out : List (Option γ)), out.length = l.length →
      (∀ i (hi : i < l.length) (ho : i < out.length),
        (p l[i] = false → out[i] = none) ∧ (p l[i] = true → ∃ c, out[i] = some c ∧ key c = l[i].1)) →
      (out.filterMap id).map key = (l.filter p).map (·.1) := by
  intro l
  induction l with
  | nil => intro out h _; obtain rfl : out = [] := by simpa using h
           rfl
  | cons a l ih =>
    intro out h hp
    cases out with
    | nil => simp at h
    | cons o out =>
      have h0 := hp 0 (by simp) (by simp)
      simp only [List.getElem_cons_zero] at h0
      have ih' := ih out (by simpa using h) (fun i hi ho => by
        have := hp (i + 1) (by simpa using hi) (by simpa using ho)
        simpa using this)
      cases hpa : p a with
      | false =>
        rw [h0.1 hpa, List.filter_cons_of_neg (by simp [hpa])]
        exact ih'
      | true =>
        obtain ⟨c, hc, hk⟩ := h0.2 hpa
        rw [hc, List.filter_cons_of_pos hpa, List.map_cons]
        show key c :: (out.filterMap id).map key = _
        rw [hk, ih']

/-- C25: `rel_pose` returns exactly the orientations of the children relative to their parents. -/
theorem C25_rel_pose [CommRing α] {E : JEnv α π} {s sx : System α π} (h : s.Consistent E.toEnv)
    (ht : Topological s.link_parents) (hx : sx.Consistent E.toEnv) {xs : List (Transform α)}
    (hl : xs.length = sx.num_links) (hsub : ∀ n ∈ s.link_names, n ∈ sx.link_names) :
    ∃ y, s.rel_pose E xs (some sx) = .ok y ∧ IsRelPose s sx xs y ∧ (y.map (·.1)).Nodup := by
  have hl' : xs.length = sx.link_names.length := by rw [hx.names_len]; exact hl
  -- position of a name in the larger system
  have at_ : ∀ n ∈ s.link_names, ∃ (j : Nat) (x : Transform α),
      sx.link_names[j]? = some n ∧ xs[j]? = some x ∧
      sx.name_to_idx n = .ok j ∧ pyGet xs (j : Int) = .ok x := by
    intro n hn
    obtain ⟨j, hj, e⟩ := List.getElem_of_mem (hsub n hn)
    have h1 : sx.link_names[j]? = some n := by rw [List.getElem?_eq_getElem hj, e]
    have h2 : xs[j]? = some (xs[j]'(by omega)) := List.getElem?_eq_getElem (by omega)
    exact ⟨j, _, h1, h2, name_to_idx_of_nodup hx.names_nodup h1, pyGet_nat h2⟩
  have row : ∀ i (hi : i < s.link_parents.length), ∃ o,
      pose_child_to_parent s sx xs
        ((s.link_names[i]'(by rw [h.names_len]; exact hi)), s.link_parents[i]) = .ok o ∧
      (s.link_parents[i] = -1 → o = none) ∧
      (s.link_parents[i] ≠ -1 → ∃ q, o = some ((s.link_names[i]'(by rw [h.names_len]; exact hi)), q) ∧
        ∃ (p i' p' : Nat) (m : String) (xi xp : Transform α),
          s.link_parents[i]? = some (p : Int) ∧ s.link_names[p]? = some m ∧
          sx.link_names[i']? = some (s.link_names[i]'(by rw [h.names_len]; exact hi)) ∧
          sx.link_names[p']? = some m ∧ xs[i']? = some xi ∧ xs[p']? = some xp ∧
          q = maths.quat_mul xp.rot (maths.quat_inv xi.rot)) := by
    intro i hi
    unfold pose_child_to_parent
    by_cases h0 : s.link_parents[i] = -1
    · refine ⟨none, ?_, fun _ => rfl, fun hne => absurd h0 hne⟩
      simp only [h0, if_true]
      rfl
    · obtain ⟨h1, h2⟩ := ht i hi
      obtain ⟨p, hp⟩ : ∃ p : Nat, s.link_parents[i] = (p : Int) := ⟨s.link_parents[i].toNat, by omega⟩
      have hpl : p < s.link_names.length := by rw [h.names_len]; omega
      have hpn : s.link_names[p]? = some s.link_names[p] := List.getElem?_eq_getElem hpl
      obtain ⟨i', xi, a1, a2, a3, a4⟩ := at_ _ (List.getElem_mem (l := s.link_names)
        (n := i) (by rw [h.names_len]; exact hi))
      obtain ⟨p', xp, b1, b2, b3, b4⟩ := at_ _ (List.getElem_mem (l := s.link_names) hpl)
      refine ⟨some (_, maths.quat_mul xp.rot (maths.quat_inv xi.rot)), ?_, fun h => absurd h h0,
        fun _ => ⟨_, rfl, p, i', p', _, xi, xp, by rw [List.getElem?_eq_getElem hi, hp], hpn, a1, b1,
          a2, b2, rfl⟩⟩
      simp only [if_neg h0]
      rw [hp, idx_to_name_nat hpn]
      simp only [ok_bind, a3, b3, a4, b4, pure_ok]
  choose O hO hOn hOs using row
  let outs := List.ofFn fun i : Fin s.link_parents.length => O i i.2
  have key := scan_inv (E := E.toEnv) (s := s) h.known h.types_len
    (arg := (argL s.link_names).and (argL s.link_parents))
    (g := pose_child_to_parent s sx xs)
    (by
      intro x hx
      simp only [ScanArg.and, argL, List.mem_append, List.mem_singleton, List.mem_cons,
        List.not_mem_nil, or_false] at hx
      rcases hx with rfl | rfl
      · exact h.names_len
      · rfl)
    (rows_and (rows_argL _ _) (rows_argL _ _)) (by simp [h.names_len]) outs (by simp [outs])
    (by
      intro i hi
      simp only [List.getElem_zip]
      rw [hO i hi]
      simp [outs])
  have hkeys : (outs.filterMap id).map (·.1) =
      ((s.link_names.zip s.link_parents).filter fun x => decide (x.2 ≠ -1)).map (·.1) := by
    apply filterMap_ofFn_keys (β := Unit) (fun _ => none)
    · simp [outs, h.names_len]
    · intro i hi ho
      have hi' : i < s.link_parents.length := by simpa [outs] using ho
      simp only [List.getElem_zip, decide_eq_true_eq, decide_eq_false_iff_not, not_not]
      refine ⟨fun hp => ?_, fun hp => ?_⟩
      · simp [outs, hOn i hi' hp]
      · obtain ⟨q, hq, _⟩ := hOs i hi' hp
        exact ⟨_, by simp [outs]; exact hq, rfl⟩
  refine ⟨outs.filterMap id, ?_, ⟨hkeys, ?_⟩, ?_⟩
  · unfold rel_pose
    simp only [Option.getD_some]
    rw [pyAssert_true hl]
    simp only [ok_bind, key, pure_ok]
  · intro n q hm
    simp only [List.mem_filterMap, id] at hm
    obtain ⟨o, ho, e⟩ := hm
    subst e
    obtain ⟨i, hi⟩ := List.mem_ofFn.1 ho
    have h0 : s.link_parents[i] ≠ -1 := fun h0 => by
      rw [hOn i i.2 h0] at hi
      cases hi
    obtain ⟨q', hq, p, i', p', m, xi, xp, c1, c2, c3, c4, c5, c6, c7⟩ := hOs i i.2 h0
    rw [hq] at hi
    cases hi
    exact ⟨i, p, i', p', m, xi, xp, List.getElem?_eq_getElem _, c1, c2, c3, c4, c5, c6, c7⟩
  · rw [hkeys]
    have sub : List.Sublist (((s.link_names.zip s.link_parents).filter
        fun x => decide (x.2 ≠ -1)).map (·.1)) s.link_names := by
      have := (List.filter_sublist (p := fun x : String × Int => decide (x.2 ≠ -1))
        (l := s.link_names.zip s.link_parents)).map (·.1)
      rwa [List.map_fst_zip (by rw [h.names_len])] at this
    exact h.names_nodup.sublist sub

/-- C25: an entry of `rel_pose` maps the orientation of the child to that of the parent. -/
theorem C25_child_to_parent [CommRing α] {xp xi : Quat α} (h : xi.normSq = 1) :
    maths.quat_mul (maths.quat_mul xp (maths.quat_inv xi)) xi = xp := by
  unfold Quat.normSq at h
  ext <;> simp only [maths.quat_mul, maths.quat_inv]
  · linear_combination xp.w * h
  · linear_combination xp.x * h
  · linear_combination xp.y * h
  · linear_combination xp.z * h

theorem quat_rel_invariant [CommRing α] {p i g : Quat α} (h : g.normSq = 1) :
    maths.quat_mul (maths.quat_mul p g) (maths.quat_inv (maths.quat_mul i g)) =
      maths.quat_mul p (maths.quat_inv i) := by
  unfold Quat.normSq at h
  ext <;> simp only [maths.quat_mul, maths.quat_inv]
  · linear_combination (p.w * i.w + p.x * i.x + p.y * i.y + p.z * i.z) * h
  · linear_combination (-p.w * i.x + p.x * i.w - p.y * i.z + p.z * i.y) * h
  · linear_combination (-p.w * i.y + p.x * i.z + p.y * i.w - p.z * i.x) * h
  · linear_combination (-p.w * i.z - p.x * i.y + p.y * i.x + p.z * i.w) * h

theorem pyGet_map {β γ : Type} (f : β → γ) (l : List β) (i : Int) :
    pyGet (l.map f) i = (pyGet l i).map f := by
  unfold pyGet
  dsimp only
  rw [List.length_map]
  generalize (if i < 0 then i + (l.length : Int) else i) = j
  split
  · rfl
  · rw [List.getElem?_map]
    cases l[j.toNat]? <;> rfl

theorem py_bind_map {β γ δ : Type} (x : Py β) (f : β → γ) (g : γ → Py δ) :
    (x.map f : Py γ) >>= g = x >>= fun b => g (f b) := by
  cases x <;> rfl

/-- C25: the result does not change when the whole recording is expressed in another world frame. -/
theorem C25_invariant [CommRing α] (E : JEnv α π) (s : System α π) (sx : Option (System α π))
    (xs : List (Transform α)) {G : Transform α} (hG : G.rot.normSq = 1) :
    s.rel_pose E (xs.map fun x => transform_mul x G) sx = s.rel_pose E xs sx := by
  unfold rel_pose
  simp only [List.length_map]
  have : (fun (_ : Option (Option (String × Quat α))) (_ : IdxMap) a =>
      pose_child_to_parent s (sx.getD s) (xs.map fun x => transform_mul x G) a) =
      fun _ _ a => pose_child_to_parent s (sx.getD s) xs a := by
    funext _ _ a
    unfold pose_child_to_parent
    split
    · rfl
    · simp only [pyGet_map, py_bind_map]
      have e : ∀ xp xi : Transform α, maths.quat_mul (transform_mul xp G).rot
          (maths.quat_inv (transform_mul xi G).rot) = maths.quat_mul xp.rot (maths.quat_inv xi.rot) :=
        fun xp xi => quat_rel_invariant hG
      simp only [e]
  simp only [this]

/-- a rotation about x by 180 degrees and a shift is a change of frame as in `C25_invariant` -/
example : (⟨⟨1, 2, 3⟩, ⟨0, 1, 0, 0⟩⟩ : Transform ℚ).rot.normSq = 1 := by simp [Quat.normSq]

/-- the hypotheses of `C24_match_xs` and `C25_rel_pose` are met -/
example (xs : List (Transform ℝ)) (hl : xs.length = kinSys.num_links) :
    ∃ y, kinSys.rel_pose stdEnv xs (some kinSys) = .ok y ∧ IsRelPose kinSys kinSys xs y ∧
      (y.map (·.1)).Nodup :=
  C25_rel_pose kinSys_consistent kinSys_wf.topo kinSys_consistent hl fun _ h => h

end RingLib
