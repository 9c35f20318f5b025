import Verif.Lemmas.Tree
import Verif.Spec.Kinematics

namespace RingLib
open System algebra

variable {α π : Type}

theorem lookup_filterMap_at {l : List (String × List π)} {i : Nat}
    (h : ∀ x ∈ l, i < x.2.length) (t : String) :
    (l.filterMap fun x => (x.2[i]?).map fun p => (x.1, p)).lookup t =
      (l.lookup t).bind (·[i]?) := by
  induction l with
  | nil => rfl
  | cons x l ih =>
    have hx := h x (by simp)
    rw [List.filterMap_cons, List.getElem?_eq_getElem hx]
    simp only [Option.map_some]
    obtain ⟨k, v⟩ := x
    rw [List.lookup_cons, List.lookup_cons, ih (fun x hx => h x (by simp [hx]))]
    cases hb : t == k
    · rfl
    · simp [List.getElem?_eq_getElem hx]

theorem keys_filterMap_at {l : List (String × List π)} {i : Nat}
    (h : ∀ x ∈ l, i < x.2.length) :
    (l.filterMap fun x => (x.2[i]?).map fun p => (x.1, p)).map (·.1) = l.map (·.1) := by
  induction l with
  | nil => rfl
  | cons x l ih =>
    have hx := h x (by simp)
    rw [List.filterMap_cons, List.getElem?_eq_getElem hx]
    simp only [Option.map_some, List.map_cons]
    rw [ih (fun x hx => h x (by simp [hx]))]

theorem lookup_isSome_iff {β : Type} (l : List (String × β)) (t : String) :
    (l.lookup t).isSome = true ↔ t ∈ l.map (·.1) := by
  induction l with
  | nil => simp
  | cons x l ih =>
    obtain ⟨k, v⟩ := x
    rw [List.lookup_cons]
    by_cases hb : t = k
    · subst hb; simp
    · have : (t == k) = false := by simpa using hb
      rw [this]
      simp only [List.map_cons, List.mem_cons, hb, false_or]
      exact ih

theorem jointParam_isSome [Field α] {E : JEnv α π} {s : System α π} (h : s.WF E.toEnv)
    (hj : s.Jointed E) {i : Nat} (hi : i < s.link_parents.length) :
    ∃ p, s.jointParam i = some p := by
  unfold jointParam
  have len : ∀ x ∈ s.joint_params, i < x.2.length := fun x hx => by rw [h.jp_len x hx]; exact hi
  have mem : ∀ {t v}, s.joint_params.lookup t = some v → i < v.length := fun {t v} hv => by
    rw [List.lookup_eq_some_iff] at hv
    obtain ⟨l1, l2, hl, _⟩ := hv
    exact len (t, v) (by rw [hl]; simp)
  cases hl : s.joint_params.lookup (s.link_types.getD i "") with
  | some ps => exact ⟨_, List.getElem?_eq_getElem (mem hl)⟩
  | none =>
    obtain ⟨v, hv⟩ := Option.isSome_iff_exists.1 ((lookup_isSome_iff _ _).2 hj.default)
    exact ⟨v[i]'(mem hv), by simp [hv, mem hv]⟩

theorem limit_scope {s : System α π} {i : Nat} {p : π}
    (hlen : ∀ x ∈ s.joint_params, i < x.2.length) {t : String}
    (ht : s.link_types[i]? = some t)
    (hp : s.jointParam i = some p) :
    jcalc._limit_scope_of_joint_params t (s.paramsAt i) = .ok p := by
  unfold jcalc._limit_scope_of_joint_params
  have ht' : s.link_types.getD i "" = t := by simp [ht]
  unfold jointParam at hp
  rw [ht'] at hp
  unfold paramsAt pyDict
  rw [keys_filterMap_at hlen, lookup_filterMap_at hlen, lookup_filterMap_at hlen]
  cases hl : s.joint_params.lookup t with
  | some v =>
    rw [hl] at hp
    rw [if_pos ((lookup_isSome_iff _ _).1 (by rw [hl]; rfl))]
    simp only at hp
    simp [hp]
  | none =>
    rw [hl] at hp
    rw [if_neg (fun hm => by
      have := (lookup_isSome_iff _ _).2 hm
      rw [hl] at this; cases this)]
    simp only at hp
    rw [hp]

/-- the joint transform as a function -/
noncomputable def jointT [Zero α] [One α] (E : JEnv α π) (s : System α π) (q : List α) (i : Nat) : Transform α :=
  ((E.joints (s.link_types.getD i "")).bind fun jm => (s.jointParam i).map fun p =>
    jm.transform (ownSlice E.qw s.link_types q i) p).getD .zero

theorem isJointTransform_iff [Field α] {E : JEnv α π} {s : System α π} (h : s.WF E.toEnv)
    (hj : s.Jointed E) {i : Nat} (hi : i < s.link_parents.length) (q : List α) (T : Transform α) :
    s.IsJointTransform E q i T ↔ T = jointT E s q i := by
  obtain ⟨p, hp⟩ := jointParam_isSome h hj hi
  have hi' : i < s.link_types.length := by rw [h.types_len]; exact hi
  obtain ⟨jm, hjm⟩ := hj.known s.link_types[i] (List.getElem_mem _)
  have hd : s.link_types.getD i "" = s.link_types[i] := by simp [List.getD, hi']
  unfold IsJointTransform jointT
  rw [hd, hjm, hp]
  simp only [Option.some.injEq, Option.bind_some, Option.map_some, Option.getD_some]
  constructor
  · rintro ⟨jm', p', rfl, rfl, rfl⟩; rfl
  · rintro rfl; exact ⟨jm, p, rfl, rfl, rfl⟩

theorem jcalc_transform_ok [Field α] {E : JEnv α π} {s : System α π} (h : s.WF E.toEnv)
    (hj : s.Jointed E) {i : Nat} (hi : i < s.link_types.length) (q : List α) :
    jcalc.jcalc_transform E s.link_types[i] (ownSlice E.qw s.link_types q i) (s.paramsAt i) =
      .ok (jointT E s q i) := by
  have hi' : i < s.link_parents.length := by rw [← h.types_len]; exact hi
  obtain ⟨p, hp⟩ := jointParam_isSome h hj hi'
  obtain ⟨jm, hjm⟩ := hj.known s.link_types[i] (List.getElem_mem _)
  have hd : s.link_types.getD i "" = s.link_types[i] := by simp [List.getD, hi]
  unfold jcalc.jcalc_transform jointT
  rw [limit_scope (fun x hx => by rw [h.jp_len x hx]; exact hi') (List.getElem?_eq_getElem hi) hp]
  simp only [ok_bind, jcalc.lookup_joint, hd, hjm, hp, pure_ok, Option.bind_some, Option.map_some, Option.getD_some]

theorem chunks_row {β : Type} (w : String → Option Nat) (types : List String) (xs : List β) (i : Nat)
    (hi : i < (chunks (types.map (wOf w)) xs).length) :
    (chunks (types.map (wOf w)) xs)[i] = ownSlice w types xs i := by
  have hi' : i < types.length := by simpa using hi
  have := ownSlice_eq w types xs i hi'
  rw [List.getElem?_eq_getElem hi] at this
  exact Option.some.inj this

/-- pose of every link -/
noncomputable def fkPose [Ring α] (E : JEnv α π) (s : System α π) (q : List α) : Nat → Transform α :=
  treeVal s.link_parents Transform.zero fun i par =>
    transform_mul (transform_mul (jointT E s q i)
      ((s.links[i]?.map LinkRow.transform1).getD .zero)) par

theorem fk_eq [Field α] {E : JEnv α π} {s : System α π} (h : s.WF E.toEnv)
    (hj : s.Jointed E) {q : List α} (hq : q.length = (s.link_types.map (wOf E.qw)).sum) :
    s.forward_kinematics_transforms E q =
      .ok ((List.range s.link_parents.length).map (fkPose E s q),
        { s with links := s.links.mapIdx fun i row => { row with
            transform := transform_mul (jointT E s q i) row.transform1
            transform2 := jointT E s q i } }) := by
  have hk := h.known
  unfold forward_kinematics_transforms
  have key := scanState_forward_inv (E := E.toEnv) (s := s) hk h.types_len
    (arg := (argQ q).and <| (argL s.linkRows).and <| (argL (List.range s.num_links)).and <|
      (argL s.link_parents).and (argL s.link_types))
    (f := (fun eps_to_l _
        (x : List α × (LinkRow α × List (String × π)) × Nat × Int × String) => do
      let (q, link, link_idx, parent_idx, joint_type) := x
      let transform2 ← jcalc.jcalc_transform E joint_type q link.2
      let transform := transform_mul transform2 link.1.transform1
      let parent ← dictGet eps_to_l parent_idx
      let pose := transform_mul transform parent
      pure ((pose, { link.1 with transform := transform, transform2 := transform2 }),
        dictSet eps_to_l link_idx pose)))
    (by
      intro x hx
      simp only [ScanArg.and, argQ, argL, List.mem_append, List.mem_singleton, List.mem_cons,
        List.not_mem_nil, or_false] at hx
      rcases hx with rfl | rfl | rfl | rfl | rfl
      · exact hq
      · simp [linkRows_length, h.links_len]
      · simp [num_links]
      · rfl
      · exact h.types_len)
    (rows_and (rows_argQ rfl q) (rows_and (rows_argL _ _) (rows_and (rows_argL _ _)
      (rows_and (rows_argL _ _) (rows_argL _ _)))))
    (by simp [linkRows_length, h.links_len, h.types_len, num_links])
    (fun i => dictUpTo Transform.zero (fkPose E s q) i)
    (s.links.mapIdx fun i row => (fkPose E s q i, { row with
            transform := transform_mul (jointT E s q i) row.transform1
            transform2 := jointT E s q i }))
    (by simp [h.links_len])
    (by
      intro i hi
      have hi1 : i < s.links.length := by rw [h.links_len]; exact hi
      have hi2 : i < s.link_types.length := by rw [h.types_len]; exact hi
      simp only [List.getElem_zip, chunks_row, linkRows_getElem, List.getElem_range,
        jcalc_transform_ok h hj hi2, ok_bind, dictUpTo_get h.topo _ _ i hi, pure_ok,
        List.getElem_mapIdx]
      have : transform_mul (transform_mul (jointT E s q i) s.links[i].transform1)
          (parentVal Transform.zero (fkPose E s q) s.link_parents[i]) = fkPose E s q i := by
        unfold fkPose
        rw [treeVal_eq h.topo _ _ i hi]
        simp [hi1]
      rw [this, dictUpTo_succ])
  rw [dictUpTo_zero] at key
  rw [key]
  simp only [ok_bind, pure_ok]
  congr 2
  · apply List.ext_getElem
    · simp [h.links_len]
    · intro i h1 h2
      simp
  · congr 1
    apply List.ext_getElem
    · simp
    · intro i h1 h2
      simp

end RingLib
