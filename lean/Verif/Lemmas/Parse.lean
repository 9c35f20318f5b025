import Verif.Lemmas.Scan

/-! `parse` succeeds exactly on consistent systems, and only updates derived data. -/

namespace RingLib
namespace System
variable {α π : Type}

/-- What a successful `parse` returns. -/
def normalised [Field α] (E : Env α π) (s : System α π) : System α π :=
  { s with
    links := List.zipWith (fun (l : LinkRow α) it => { l with inertia := it }) s.links
      ((List.range s.link_parents.length).map fun i : Nat =>
        compute_inertia_per_link E.pi s.geoms i)
    geoms := s.geoms.mergeSort (fun g h => g.link_idx ≤ h.link_idx) }

theorem ownSlice_eq {β : Type*} (w : String → Option Nat) (types : List String) (xs : List β)
    (i : Nat) (h : i < types.length) :
    (chunks (types.map (wOf w)) xs)[i]? = some (ownSlice w types xs i) := by
  rw [chunks_getElem?, if_pos (by simpa using h)]
  simp [ownSlice, h]

theorem check_ok_iff {E : Env α π} {t : String} {d a s z : List α}
    (hk : (E.qw t).isSome = true ∧ (E.dw t).isSome = true) :
    check_dasz_unitq E t d a s z = .ok () ↔
      d.length = wOf E.dw t ∧ a.length = wOf E.dw t ∧ s.length = wOf E.dw t ∧
      z.length = wOf E.qw t ∧
      (joint_type_is_free_or_cor_or_spherical t = true → E.unit4 (z.take 4) = true) := by
  unfold check_dasz_unitq
  simp only [width_known hk.1, width_known hk.2, ok_bind]
  by_cases h1 : d.length = a.length ∧ a.length = s.length ∧ s.length = wOf E.dw t
  · rw [pyAssert_true h1]
    by_cases h2 : z.length = wOf E.qw t
    · rw [pyAssert_true h2]
      simp only [ok_bind]
      by_cases h3 : joint_type_is_free_or_cor_or_spherical t = true
      · rw [if_pos h3]
        by_cases h4 : E.unit4 (z.take 4) = true
        · rw [pyAssert_true h4]; simp [h4]; omega
        · rw [pyAssert_false h4]; simp [h3, h4]
      · rw [if_neg h3]; simp [h3, pure_ok]; omega
    · rw [pyAssert_false h2]; simp [h2, error_bind, ok_bind]
  · rw [pyAssert_false h1]
    simp only [error_bind]
    constructor
    · intro h; cases h
    · intro h; exact absurd ⟨by omega, by omega, by omega⟩ h1

/-- Rows of the six-fold argument used by `parse` and joint replacement. -/
theorem rows_six {E : Env α π} {ts : List String} (ns : List String) (a b c d : List α) :
    Rows (theMap E ts)
      ((argL ns).and <| (argL ts).and <| (argD a).and <| (argD b).and <| (argD c).and (argQ d))
      (ns.zip <| ts.zip <| (chunks (ts.map (wOf E.dw)) a).zip <|
        (chunks (ts.map (wOf E.dw)) b).zip <| (chunks (ts.map (wOf E.dw)) c).zip
          (chunks (ts.map (wOf E.qw)) d)) := by
  refine rows_and (rows_argL _ _) (rows_and (rows_argL _ _) (rows_and ?_ (rows_and ?_
    (rows_and ?_ ?_))))
  · exact rows_argD rfl _
  · exact rows_argD rfl _
  · exact rows_argD rfl _
  · exact rows_argQ rfl _

theorem buildIdxs_known_of_ok {E : Env α π} {ts : List String} {a b : Nat} {m : IdxMap}
    (h : buildIdxs E a b ts = .ok m) : E.Known ts := by
  induction ts generalizing a b m with
  | nil => intro t ht; simp at ht
  | cons t ts ih =>
    simp only [buildIdxs, width] at h
    cases hq : E.qw t with
    | none => simp [hq, error_bind] at h
    | some wq =>
      cases hd : E.dw t with
      | none => simp [hq, hd, error_bind, ok_bind] at h
      | some wd =>
        simp only [hq, hd, ok_bind] at h
        cases hr : buildIdxs E (a + wq) (b + wd) ts with
        | error e => simp [hr] at h
        | ok r =>
          intro t' ht'
          rcases List.mem_cons.1 ht' with rfl | ht'
          · simp [hq, hd]
          · exact ih hr t' ht'

theorem scan_ok_known {O Y : Type} {E : Env α π} {s : System α π}
    {f : Option Y → IdxMap → O → Py Y} {arg : ScanArg O} {r : List Y}
    (hl : s.link_types.length = s.link_parents.length)
    (h : s.scan E f arg = .ok r) :
    E.Known s.link_types ∧ PiecesOk E s arg.pieces := by
  unfold scan num_links at h
  rw [List.take_of_length_le (by omega)] at h
  cases hc : checkPieces E s arg.pieces with
  | error e => simp [hc, error_bind] at h
  | ok u =>
    cases hb : buildIdxs E 0 0 s.link_types with
    | error e => simp [hc, hb, error_bind, ok_bind] at h
    | ok m =>
      have hk := buildIdxs_known_of_ok hb
      exact ⟨hk, (checkPieces_ok_iff hk).1 hc⟩

variable [Field α]

theorem pyAssert_bind_ok {p : Prop} [Decidable p] {β : Type} {f : Unit → Py β} {b : β}
    (h : (pyAssert p >>= f) = .ok b) : p ∧ f () = .ok b := by
  by_cases hp : p
  · rw [pyAssert_true hp] at h; exact ⟨hp, h⟩
  · rw [pyAssert_false hp] at h; cases h

theorem count_eq_one_iff_nodup {l : List String} :
    (∀ x ∈ l, l.count x = 1) ↔ l.Nodup := by
  rw [List.nodup_iff_count]
  constructor
  · intro h a
    by_cases ha : a ∈ l
    · exact (h a ha).le
    · rw [List.count_eq_zero_of_not_mem ha]; omega
  · intro h a ha
    have := h a
    have := List.one_le_count_iff.2 ha
    omega

omit [Field α] in
theorem posOk_iff {E : Env α π} {l : LinkRow α} : posOk E l = true ↔
    E.ge l.pos_max.x l.pos_min.x = true ∧ E.ge l.pos_max.y l.pos_min.y = true ∧
      E.ge l.pos_max.z l.pos_min.z = true := by
  simp [posOk, and_assoc]


omit [Field α] in
theorem scan_check_iff {E : Env α π} {s : System α π} (hk : E.Known s.link_types)
    (hl : s.link_types.length = s.link_parents.length)
    (hp : PiecesOk E s ((argL s.link_names).and <| (argL s.link_types).and <|
      (argD s.link_damping).and <| (argD s.link_armature).and <|
      (argD s.link_spring_stiffness).and (argQ s.link_spring_zeropoint)).pieces) :
    (∃ r, s.scan E
      (fun _ _ (x : String × String × List α × List α × List α × List α) =>
        check_dasz_unitq E x.2.1 x.2.2.1 x.2.2.2.1 x.2.2.2.2.1 x.2.2.2.2.2)
      ((argL s.link_names).and <| (argL s.link_types).and <| (argD s.link_damping).and <|
        (argD s.link_armature).and <| (argD s.link_spring_stiffness).and
          (argQ s.link_spring_zeropoint)) = .ok r) ↔
      ∀ i (h : i < s.link_types.length),
        joint_type_is_free_or_cor_or_spherical s.link_types[i] = true →
          E.unit4 ((ownSlice E.qw s.link_types s.link_spring_zeropoint i).take 4) = true := by
  have hn : s.link_names.length = s.link_parents.length := hp (.l, _) (by simp [ScanArg.and, argL])
  have hd : s.link_damping.length = (s.link_types.map (wOf E.dw)).sum :=
    hp (.d, _) (by simp [ScanArg.and, argL, argD])
  have ha : s.link_armature.length = (s.link_types.map (wOf E.dw)).sum :=
    hp (.d, _) (by simp [ScanArg.and, argL, argD])
  have hs : s.link_spring_stiffness.length = (s.link_types.map (wOf E.dw)).sum :=
    hp (.d, _) (by simp [ScanArg.and, argL, argD])
  have hz : s.link_spring_zeropoint.length = (s.link_types.map (wOf E.qw)).sum :=
    hp (.q, _) (by simp [ScanArg.and, argL, argD, argQ])
  rw [scan_forward hk hl _ hp (rows_six _ _ _ _ _)
    (by simp [hn, hl])]
  rw [foldSpec_unit_ok
    (fun x : String × String × List α × List α × List α × List α =>
        check_dasz_unitq E x.2.1 x.2.2.1 x.2.2.2.1 x.2.2.2.2.1 x.2.2.2.2.2)]
  have len : ∀ (w : String → Option Nat) (xs : List α),
      xs.length = (s.link_types.map (wOf w)).sum → ∀ i (h : i < s.link_types.length),
      ((chunks (s.link_types.map (wOf w)) xs)[i]'(by simpa using h)).length =
        wOf w s.link_types[i] := by
    intro w xs hx i h
    have := chunks_map_length _ _ hx
    have h2 := congrArg (·[i]?) this
    simp [h] at h2
    exact h2
  have own : ∀ i (h : i < s.link_types.length),
      (chunks (s.link_types.map (wOf E.qw)) s.link_spring_zeropoint)[i]'(by simpa using h) =
        ownSlice E.qw s.link_types s.link_spring_zeropoint i := by
    intro i h
    have := ownSlice_eq E.qw s.link_types s.link_spring_zeropoint i h
    rw [List.getElem?_eq_getElem (by simpa using h)] at this
    exact Option.some.inj this
  constructor
  · intro H i h hq
    have := H ((s.link_names.zip _)[i]'(by simp [hn, hl] at *; omega)) (List.getElem_mem _)
    simp only [List.getElem_zip] at this
    rw [check_ok_iff (hk _ (List.getElem_mem _))] at this
    have := this.2.2.2.2 hq
    rwa [own i h] at this
  · intro H o ho
    obtain ⟨i, hi, rfl⟩ := List.getElem_of_mem ho
    have hi' : i < s.link_types.length := by simp [hn, hl] at hi; omega
    simp only [List.getElem_zip]
    rw [check_ok_iff (hk _ (List.getElem_mem _))]
    refine ⟨len _ _ hd i hi', len _ _ ha i hi', len _ _ hs i hi', len _ _ hz i hi', ?_⟩
    rw [own i hi']
    exact H i hi'

theorem parse_ok {E : Env α π} {s : System α π} (h : s.Consistent E) :
    parse E s = .ok (s.normalised E) := by
  unfold parse
  rw [pyAssert_true (show _ ∧ _ from ⟨h.types_len.symm, h.types_len.trans h.links_len.symm⟩),
    pyAssert_true (show _ = s.num_links from h.omc_len),
    pyAssert_true (count_eq_one_iff_nodup.2 h.names_nodup),
    pyAssert_true (fun l hl => posOk_iff.2 (h.pos_ok l hl)),
    pyAssert_true (p := ∀ geom ∈ s.geoms, (0 ≤ geom.link_idx ∧ geom.link_idx < s.num_links) ∨
      geom.link_idx = -1) (fun g hg => by
        have := h.geoms_ok g hg
        simp only [num_links]; omega)]
  simp only [ok_bind]
  rw [scan_pure (g := fun i : Nat => compute_inertia_per_link E.pi s.geoms i) h.known h.types_len
    (by intro x hx; simp [argL, num_links] at hx; simp [hx]) (rows_argL _ _) (by simp [num_links])]
  simp only [ok_bind]
  obtain ⟨r, hr⟩ := (scan_check_iff (s := s.normalised E) (E := E) h.known h.types_len (by
    intro x hx
    simp [ScanArg.and, argL, argD, argQ, normalised] at hx
    rcases hx with rfl | rfl | rfl | rfl | rfl | rfl
    · exact h.names_len
    · exact h.types_len
    · exact h.damping_len
    · exact h.armature_len
    · exact h.stiffness_len
    · exact h.zeropoint_len)).2 h.unit_zero
  simp only [normalised, num_links] at hr ⊢
  rw [hr]
  rfl

theorem parse_inv {E : Env α π} {s s' : System α π} (h : parse E s = .ok s') :
    s.Consistent E ∧ s' = s.normalised E := by
  have hC : s.Consistent E := by
    unfold parse at h
    obtain ⟨h1, h⟩ := pyAssert_bind_ok h
    obtain ⟨h2, h⟩ := pyAssert_bind_ok h
    obtain ⟨h3, h⟩ := pyAssert_bind_ok h
    obtain ⟨h4, h⟩ := pyAssert_bind_ok h
    obtain ⟨h5, h⟩ := pyAssert_bind_ok h
    have hl : s.link_types.length = s.link_parents.length := h1.1.symm
    cases hs : s.scan E (fun _ _ (link_idx : Nat) =>
        (pure (compute_inertia_per_link E.pi s.geoms link_idx) : Py _))
        (argL (List.range s.num_links)) with
    | error e => rw [hs] at h; cases h
    | ok it =>
      rw [hs] at h
      simp only [ok_bind] at h
      have hk := (scan_ok_known hl hs).1
      rw [scan_pure (g := fun i : Nat => compute_inertia_per_link E.pi s.geoms i) hk hl
        (by intro x hx; simp [argL, num_links] at hx; simp [hx]) (rows_argL _ _)
        (by simp [num_links])] at hs
      cases hs
      set s1 := s.normalised E with hs1
      have hs1t : s1.link_types = s.link_types := rfl
      generalize hr : s1.scan E
          (fun _ _ (x : String × String × List α × List α × List α × List α) =>
            check_dasz_unitq E x.2.1 x.2.2.1 x.2.2.2.1 x.2.2.2.2.1 x.2.2.2.2.2)
          ((argL s1.link_names).and <| (argL s1.link_types).and <| (argD s1.link_damping).and <|
            (argD s1.link_armature).and <| (argD s1.link_spring_stiffness).and
              (argQ s1.link_spring_zeropoint)) = R
      have h' : (R >>= fun _ => (pure s1 : Py _)) = .ok s' := by rw [← hr]; exact h
      cases R with
      | error e => cases h'
      | ok r =>
        have hp := (scan_ok_known (s := s1) hl hr).2
        have hu := (scan_check_iff (s := s1) hk hl hp).1 ⟨r, hr⟩
        exact {
          types_len := hl
          links_len := h1.2.symm.trans hl
          omc_len := h2
          names_len := hp (.l, _) (by simp [ScanArg.and, argL]; exact Or.inl rfl)
          names_nodup := count_eq_one_iff_nodup.1 h3
          pos_ok := fun l hl => posOk_iff.1 (h4 l hl)
          geoms_ok := fun g hg => by
            have := h5 g hg
            simp only [num_links] at this; omega
          known := hk
          damping_len := hp (.d, s.link_damping.length) (by
            simp [ScanArg.and, argL, argD]; exact Or.inl rfl)
          armature_len := hp (.d, s.link_armature.length) (by
            simp [ScanArg.and, argL, argD]; exact Or.inr (Or.inl rfl))
          stiffness_len := hp (.d, s.link_spring_stiffness.length) (by
            simp [ScanArg.and, argL, argD]; exact Or.inr (Or.inr (Or.inl rfl)))
          zeropoint_len := hp (.q, s.link_spring_zeropoint.length) (by
            simp [ScanArg.and, argL, argD, argQ]; rfl)
          unit_zero := hu }
  refine ⟨hC, ?_⟩
  rw [parse_ok hC] at h
  exact (Except.ok.inj h).symm

theorem parse_error_of_not_consistent {E : Env α π} {s : System α π} (h : ¬ s.Consistent E) :
    ∃ e, parse E s = .error e := by
  cases hp : parse E s with
  | error e => exact ⟨e, rfl⟩
  | ok s' => exact absurd (parse_inv hp).1 h

end System
end RingLib
