import Verif.Lemmas.MorphLinks
import Verif.Lemmas.Replace
import Verif.Lemmas.Inject

/-! Putting the morphed system together. -/

namespace RingLib
namespace morph
open System algebra
variable {α π : Type} {P : List Int}

/-- the joint of link `i` -/
def propsAt (E : Env α π) (s : System α π) (i : Nat) : JointProps α π where
  damp := ownSlice E.dw s.link_types s.link_damping i
  arma := ownSlice E.dw s.link_types s.link_armature i
  stiff := ownSlice E.dw s.link_types s.link_spring_stiffness i
  zero := ownSlice E.qw s.link_types s.link_spring_zeropoint i
  typ := s.link_types.getD i ""
  params := s.paramsAt i

theorem jointProperties_ok {E : Env α π} {s : System α π} (h : s.Consistent E) :
    jointProperties E s = .ok ((List.range s.link_parents.length).map (propsAt E s)) := by
  unfold jointProperties
  have hscan : s.scan E (fun _ _ (x : List α × List α × List α × List α) => pure x)
      ((argD s.link_damping).and <| (argD s.link_armature).and <|
        (argD s.link_spring_stiffness).and (argQ s.link_spring_zeropoint)) =
      .ok (((chunks (s.link_types.map (wOf E.dw)) s.link_damping).zip
        ((chunks (s.link_types.map (wOf E.dw)) s.link_armature).zip
        ((chunks (s.link_types.map (wOf E.dw)) s.link_spring_stiffness).zip
        (chunks (s.link_types.map (wOf E.qw)) s.link_spring_zeropoint)))).map id) := by
    apply scan_pure h.known h.types_len id
    · intro x hx
      simp [ScanArg.and, argD, argQ] at hx
      rcases hx with rfl | rfl | rfl | rfl
      · exact h.damping_len
      · exact h.armature_len
      · exact h.stiffness_len
      · exact h.zeropoint_len
    · exact rows_and (rows_argD rfl _) (rows_and (rows_argD rfl _) (rows_and (rows_argD rfl _)
        (rows_argQ rfl _)))
    · simp [h.types_len]
  rw [hscan, ok_bind]
  show Except.ok _ = Except.ok _
  congr 1
  apply List.ext_getElem
  · simp [h.types_len, num_links]
  · intro i h1 h2
    have hit : i < s.link_types.length := by rw [h.types_len]; simpa using h2
    simp only [List.getElem_map, List.getElem_zip, List.getElem_range, List.map_id, chunks_row, propsAt]
    congr 1
    exact (getD_of_some (List.getElem?_eq_getElem hit) "").symm

theorem owner_lt {lam : List Int} (hrev : Reversal lam P) {r i : Nat} (hr : r < lam.length)
    (hi : i < lam.length) : owner lam P r i < lam.length := by
  have := hrev.rangeP hi
  unfold owner
  split
  · exact hr
  · split
    · omega
    · exact hi

theorem swapWith_ok {lam : List Int} (hrev : Reversal lam P) (l : List Nat) {r : Nat}
    (hroot : FirstRoot lam r) {i : Nat} (hi : i < lam.length) :
    swapWith ((List.range lam.length).map (nodeOf lam P l)) (nodeOf lam P l i) =
      .ok (owner lam P r i : Int) := by
  have hP := hrev.rangeP hi
  unfold swapWith owner
  by_cases h1 : P.getD i 0 = -1
  · rw [if_pos (show (nodeOf lam P l i).new_parent_old_indices = -1 from h1), if_pos h1]
    have hrl : r < lam.length := (List.getElem?_eq_some_iff.1 (hroot.root)).1
    have hf : ((List.range lam.length).map (nodeOf lam P l)).find?
        (fun n => decide (n.old_parent_old_indices = -1)) = some (nodeOf lam P l r) := by
      rw [List.find?_map]
      have : (List.range lam.length).find?
          ((fun n : Node => decide (n.old_parent_old_indices = -1)) ∘ nodeOf lam P l) = some r := by
        rw [List.find?_eq_some_iff_append]
        refine ⟨by simp only [Function.comp, nodeOf, getD_of_some (hroot.root) 0, decide_true],
          List.range r, (List.range (lam.length - r)).tail.map (r + ·), ?_, ?_⟩
        · have e : lam.length = r + (lam.length - r) := by omega
          conv_lhs => rw [e, List.range_add]
          congr 1
          obtain ⟨k, hk⟩ : ∃ k, lam.length - r = k + 1 := ⟨lam.length - r - 1, by omega⟩
          rw [hk, List.range_succ_eq_map]
          simp
        · intro a ha
          have har := List.mem_range.1 ha
          rw [Bool.not_eq_true', Function.comp_apply, decide_eq_false_iff_not]
          intro e
          have e : lam.getD a 0 = -1 := e
          exact hroot.first a har (by rw [getD_some (by omega) 0, e])
      rw [this]
      rfl
    rw [hf]
    rfl
  · rw [if_neg (show (nodeOf lam P l i).new_parent_old_indices ≠ -1 from h1), if_neg h1]
    by_cases h2 : P.getD i 0 ≠ lam.getD i 0
    · rw [if_pos h2, if_pos (show (nodeOf lam P l i).parent_changed = true from decide_eq_true h2)]
      show Except.ok (P.getD i 0) = _
      congr 1
      omega
    · rw [if_neg h2, if_neg (show ¬ (nodeOf lam P l i).parent_changed = true from
        fun e => h2 (of_decide_eq_true e))]
      rfl

theorem swapped_ok {E : Env α π} {s : System α π} (h : s.Consistent E)
    (hrev : Reversal s.link_parents P) (l : List Nat) {r : Nat}
    (hroot : FirstRoot s.link_parents r) :
    _swapped_joint_properties E s ((List.range s.link_parents.length).map (nodeOf s.link_parents P l)) =
      .ok ((List.range s.link_parents.length).map fun i =>
        propsAt E s (owner s.link_parents P r i)) := by
  unfold _swapped_joint_properties
  rw [jointProperties_ok h, ok_bind, List.mapM_map]
  apply mapM_range_ok
  intro i hi
  have hrl : r < s.link_parents.length := (List.getElem?_eq_some_iff.1 (hroot.root)).1
  rw [Function.comp_apply, swapWith_ok hrev l hroot hi, ok_bind, pyGet_rangeMap _ (by omega)
    (by have := owner_lt hrev hrl hi; omega), Int.toNat_natCast]

theorem permuteArr_ok {β : Type} {l : List Nat} {obj : List β} {f : Nat → β}
    (hf : ∀ i ∈ l, obj[i]? = some (f i)) : permuteArr (l.map Int.ofNat) obj = .ok (l.map f) := by
  unfold permuteArr
  rw [List.mapM_map]
  exact mapM_ok fun i hi => pyGet_nat (hf i hi)

theorem permuteList_ok {β : Type} {l : List Nat} {obj : List β} {f : Nat → β}
    (hl : obj.length = l.length)
    (hf : ∀ i ∈ l, obj[i]? = some (f i)) : permuteList (l.map Int.ofNat) obj = .ok (l.map f) := by
  unfold permuteList
  rw [hl]
  have : l.map f = (List.range l.length).map fun k => f (l.getD k 0) := by
    apply List.ext_getElem
    · simp
    · intro i h1 h2
      have hi : i < l.length := by simpa using h1
      simp [hi]
  rw [this]
  apply mapM_range_ok
  intro k hk
  have e : (l.map Int.ofNat)[k]? = some ((l.getD k 0 : Nat) : Int) := by
    rw [List.getElem?_map, getD_some hk 0]; rfl
  rw [pyGet_nat e, ok_bind]
  apply pyGet_nat
  apply hf
  rw [List.getD, List.getElem?_eq_getElem hk, Option.getD_some]
  exact List.getElem_mem hk

theorem mapM_length {β γ : Type} {f : β → Py γ} : ∀ {l : List β} {r : List γ}, l.mapM f = .ok r →
    r.length = l.length
  | [], r, h => by
    cases h
    rfl
  | a :: l, r, h => by
    rw [List.mapM_cons] at h
    cases ha : f a with
    | error e => rw [ha] at h; cases h
    | ok b =>
      rw [ha, ok_bind] at h
      cases hl : l.mapM f with
      | error e => rw [hl] at h; cases h
      | ok bs =>
        rw [hl, ok_bind] at h
        cases h
        rw [List.length_cons, List.length_cons, mapM_length hl]

theorem mapM_filterMap {β γ : Type} {l : List β} {f : β → Py γ} {g : β → Option γ}
    (h : ∀ i ∈ l, ∃ p, f i = .ok p ∧ g i = some p) : l.mapM f = .ok (l.filterMap g) := by
  induction l with
  | nil => rfl
  | cons a l ih =>
    obtain ⟨p, h1, h2⟩ := h a (by simp)
    rw [List.mapM_cons, h1, ok_bind, ih fun i hi => h i (by simp [hi]), ok_bind, List.filterMap_cons, h2]
    rfl

theorem filterMap_mapM {β γ δ : Type} {l : List β} {f : β → Option γ} {g : γ → Py δ} {k : β → δ}
    (h : ∀ x ∈ l, ∃ p, f x = some p ∧ g p = .ok (k x)) : (l.filterMap f).mapM g = .ok (l.map k) := by
  induction l with
  | nil => rfl
  | cons a l ih =>
    obtain ⟨p, h1, h2⟩ := h a (by simp)
    rw [List.filterMap_cons, h1]
    dsimp only
    rw [List.mapM_cons, h2, ok_bind, ih fun i hi => h i (by simp [hi]), ok_bind]
    rfl

theorem lookup_self {β : Type} {l : List (String × β)} (hn : (l.map (·.1)).Nodup) {x : String × β}
    (hx : x ∈ l) : l.lookup x.1 = some x.2 := by
  induction l with
  | nil => simp at hx
  | cons y l ih =>
    obtain ⟨k, v⟩ := y
    rw [List.lookup_cons]
    simp only [List.map_cons, List.nodup_cons] at hn
    rcases List.mem_cons.1 hx with rfl | hx'
    · simp
    · have : x.1 ≠ k := by
        intro e
        exact hn.1 (List.mem_map.2 ⟨x, hx', e⟩)
      rw [beq_false_of_ne this]
      exact ih hn.2 hx'

theorem batchDicts_ok [Field α] {E : Env α π} {s : System α π} (h : s.WF E) {l : List Nat} (hl : l ≠ [])
    {o : Nat → Nat} (ho : ∀ i ∈ l, o i < s.link_parents.length) :
    batchDicts (l.map fun i => s.paramsAt (o i)) =
      .ok (s.joint_params.map fun x => (x.1, l.filterMap fun i => x.2[o i]?)) := by
  obtain ⟨a, l', rfl⟩ := List.exists_cons_of_ne_nil hl
  have hlook : ∀ i ∈ a :: l', ∀ x ∈ s.joint_params, ∃ p, pyDict (s.paramsAt (o i)) x.1 = .ok p ∧
      x.2[o i]? = some p := by
    intro i hi x hx
    have hlt : ∀ y ∈ s.joint_params, o i < y.2.length := fun y hy => by
      rw [h.jp_len y hy]; exact ho i hi
    refine ⟨x.2[o i]'(hlt x hx), ?_, List.getElem?_eq_getElem _⟩
    unfold pyDict paramsAt
    rw [lookup_filterMap_at hlt, lookup_self h.jp_keys hx, Option.bind_some,
      List.getElem?_eq_getElem (hlt x hx)]
  show (s.paramsAt (o a)).mapM _ = _
  unfold paramsAt
  apply filterMap_mapM
  intro x hx
  obtain ⟨p, hp1, hp2⟩ := hlook a (by simp) x hx
  refine ⟨(x.1, p), by rw [hp2]; rfl, ?_⟩
  dsimp only
  rw [show (List.map (fun i => List.filterMap (fun x : String × List π =>
    Option.map (fun p => (x.1, p)) x.2[o i]?) s.joint_params) (a :: l')) =
      (a :: l').map fun i => s.paramsAt (o i) from rfl, List.mapM_map,
    mapM_filterMap (f := (fun e => pyDict e x.1) ∘ fun i => s.paramsAt (o i))
      (g := fun i => x.2[o i]?) fun i hi => hlook i hi x hx]
  rfl

/-- a geometry in the new numbering -/
def renumGeom (l : List Nat) (g : Geometry α) : Geometry α :=
  if g.link_idx = -1 then g else { g with link_idx := l.idxOf g.link_idx.toNat }

theorem permute_geoms_ok {lam : List Int} {P : List Int} {l : List Nat} {gs : List (Geometry α)}
    (hg : ∀ g ∈ gs, -1 ≤ g.link_idx ∧ g.link_idx < lam.length) :
    _permute_modify_geoms gs ((List.range lam.length).map (nodeOf lam P l)) =
      .ok (gs.map (renumGeom l)) := by
  unfold _permute_modify_geoms
  apply mapM_ok
  intro g hgm
  have := hg g hgm
  unfold renumGeom
  by_cases e : g.link_idx = -1
  · rw [if_neg (not_not.2 e), if_pos e]
  · rw [if_pos e, if_neg e, pyGet_rangeMap _ (by omega) (by omega), ok_bind]
    rfl

section
variable [Field α]

/-- row of a link -/
def rowD (s : System α π) (i : Nat) : LinkRow α :=
  (s.links[i]?).getD ⟨.zero, 0, 0, .zero, .zero, .zero⟩

/-- the morphed system before `parse` -/
noncomputable def morphRaw (E : JEnv α π) (s : System α π) (P : List Int) (r : Nat) (X : Nat → Transform α)
    (l : List Nat) : System α π :=
  let o := owner s.link_parents P r
  { link_parents := l.map fun i => renum l (P.getD i 0)
    links := l.map fun i => newRow E s P X i (rowD s i)
    joint_params := s.joint_params.map fun x => (x.1, l.filterMap fun i => x.2[o i]?)
    link_types := l.map fun i => s.link_types.getD (o i) ""
    link_damping := (l.map fun i => ownSlice E.dw s.link_types s.link_damping (o i)).flatten
    link_armature := (l.map fun i => ownSlice E.dw s.link_types s.link_armature (o i)).flatten
    link_spring_stiffness :=
      (l.map fun i => ownSlice E.dw s.link_types s.link_spring_stiffness (o i)).flatten
    link_spring_zeropoint :=
      (l.map fun i => ownSlice E.qw s.link_types s.link_spring_zeropoint (o i)).flatten
    dt := s.dt
    geoms := (s.geoms.map (movedGeom s.link_parents P X)).map (renumGeom l)
    gravity := s.gravity
    integration_method := s.integration_method
    mass_mat_iters := s.mass_mat_iters
    link_names := l.map fun i => s.link_names.getD i ""
    model_name := s.model_name
    omc := l.map fun i => s.omc.getD i none }

theorem movedGeom_idx (lam P : List Int) (X : Nat → Transform α) (g : Geometry α) :
    (movedGeom lam P X g).link_idx = g.link_idx := by
  unfold movedGeom
  split <;> rfl

theorem concat_ok {β : Type} {ls : List (List β)} (h : ls ≠ []) : jnpConcatenate ls = .ok ls.flatten := by
  cases ls with
  | nil => exact absurd rfl h
  | cons a l => rfl

theorem morph_eq {E : JEnv α π} {s : System α π} (h : s.WF E.toEnv) (hj : s.Jointed E) (hr : Resting E s)
    {arg : MorphArg} {new_parents : List (Int ⊕ String)} (harg : parentsFor s arg = .ok new_parents)
    (hres : new_parents.mapM (resolveParent s) = .ok P) (hrev : Reversal s.link_parents P) {r : Nat}
    (hroot : FirstRoot s.link_parents r) :
    ∃ X l, RestPoses s X ∧ (∀ i, i ∈ l ↔ i < s.link_parents.length) ∧ l.Nodup ∧
      Renumbered P l (l.map fun i => renum l (P.getD i 0)) ∧
      morph_system E s arg = parse E.toEnv (morphRaw E s P r X l) := by
  obtain ⟨l, h1, h2, h3, h4⟩ := search_ok P
  have hmemP : ∀ i, i ∈ l ↔ i < P.length := fun i =>
    (h2 i).trans ⟨fun h => h.1, fun h => ⟨h, forest_iff.1 hrev.forest i h⟩⟩
  have hmem : ∀ i, i ∈ l ↔ i < s.link_parents.length := fun i => by rw [hmemP, hrev.len]
  have hid := identify_ok hres hrev.forest hrev.len
    (fun i hi => by have := h.topo i hi; omega) (checks := true) (fun _ => hrev.only) h1 hmemP
  obtain ⟨X, hX, hn⟩ := new_transform1_ok (gs := s.geoms) h (fun g hg => (h.geoms_ok g hg).2) hj hr hrev hmem
  obtain ⟨t, ht1, ht2, ht3⟩ := hn true none
  refine ⟨X, l, hX, hmem, h4, renumbered_of_search hrev.forest hmemP h3 h4, ?_⟩
  have hrl : r < s.link_parents.length := (List.getElem?_eq_some_iff.1 (hroot.root)).1
  have h0 : s.link_parents ≠ [] := by rintro e; rw [e] at hrl; simp at hrl
  have hl0 : l ≠ [] := by
    rintro rfl
    exact absurd ((hmem r).2 hrl) (by simp)
  have hll : l.length = s.link_parents.length := by
    have := (renumbered_of_search hrev.forest hmemP h3 h4).bijection.length_eq
    rw [List.length_range, hrev.len] at this
    exact this
  have hnp : new_parents.length = s.num_links := by
    have : P.length = new_parents.length := by
      have := mapM_length hres
      exact this
    exact this.symm.trans hrev.len
  set s' : System α π := { s with geoms := s.geoms.map (movedGeom s.link_parents P X) } with hs'
  have hg' : ∀ g ∈ s'.geoms, -1 ≤ g.link_idx ∧ g.link_idx < s'.link_parents.length := by
    intro g hg
    obtain ⟨g', hg', rfl⟩ := List.mem_map.1 hg
    rw [movedGeom_idx]
    exact h.geoms_ok g' hg'
  have hcons : s'.Consistent E.toEnv := { h.toConsistent with geoms_ok := hg' }
  have hlinks := newLinks_ok (s := s') (gs := s.geoms) (E := E) (P := P) (l := l) (t := t) (X := X) h
    (fun g hg => (hg' g hg).2) ⟨hj.known, hj.default⟩ ⟨hr.quat, hr.joint, hr.unit⟩ hrev hmem h0
    ⟨hX.eq, hX.unit⟩ ht2 (fun j hj => ht3 j hj (Or.inl rfl))
  have hsw := swapped_ok (s := s') hcons hrev l hroot
  unfold morph_system
  rw [harg, ok_bind, pyAssert_true hnp, ok_bind, hid, ok_bind]
  dsimp only
  rw [hrev.len]
  have ht1' : _new_transform1 E s (l.map Int.ofNat)
      (List.map (fun i : Nat => (⟨i, l.idxOf i, s.link_parents.getD i 0,
          renum l (s.link_parents.getD i 0), P.getD i 0, renum l (P.getD i 0),
          decide (P.getD i 0 ≠ s.link_parents.getD i 0)⟩ : Node)) (List.range s.link_parents.length))
      true true = .ok (s', t) := ht1
  rw [ht1', ok_bind]
  dsimp only
  have hlinks' : newLinks E s' (l.map Int.ofNat)
      (List.map (fun i : Nat => (⟨i, l.idxOf i, s.link_parents.getD i 0,
          renum l (s.link_parents.getD i 0), P.getD i 0, renum l (P.getD i 0),
          decide (P.getD i 0 ≠ s.link_parents.getD i 0)⟩ : Node)) (List.range s.link_parents.length)) t =
      .ok (s.links.mapIdx (newRow E s P X)) := hlinks
  rw [hlinks', ok_bind]
  have hsw' : _swapped_joint_properties E.toEnv s'
      (List.map (fun i : Nat => (⟨i, l.idxOf i, s.link_parents.getD i 0,
          renum l (s.link_parents.getD i 0), P.getD i 0, renum l (P.getD i 0),
          decide (P.getD i 0 ≠ s.link_parents.getD i 0)⟩ : Node)) (List.range s.link_parents.length)) =
      .ok ((List.range s.link_parents.length).map fun i =>
        propsAt E.toEnv s (owner s.link_parents P r i)) := hsw
  rw [hsw', ok_bind, permuteList_ok (f := fun i => propsAt E.toEnv s (owner s.link_parents P r i))
    (by simp [hll]) (fun i hi => by
      rw [List.getElem?_map, List.getElem?_range ((hmem i).1 hi)]; rfl), ok_bind]
  rw [permuteArr_ok (f := fun i => newRow E s P X i (rowD s i)) (fun i hi => by
    have hi' : i < s.links.length := by rw [h.links_len]; exact (hmem i).1 hi
    rw [List.getElem?_mapIdx, rowD, List.getElem?_eq_getElem hi']; rfl), ok_bind]
  have hb : batchDicts ((l.map fun i => propsAt E.toEnv s (owner s.link_parents P r i)).map (·.params)) =
      .ok (s.joint_params.map fun x => (x.1, l.filterMap fun i => x.2[owner s.link_parents P r i]?)) := by
    rw [List.map_map]
    exact batchDicts_ok h hl0 fun i hi => owner_lt hrev hrl ((hmem i).1 hi)
  rw [hb, ok_bind, concat_ok (by simpa using hl0), ok_bind, concat_ok (by simpa using hl0), ok_bind,
    concat_ok (by simpa using hl0), ok_bind, concat_ok (by simpa using hl0), ok_bind]
  have hpg : _permute_modify_geoms s'.geoms
      (List.map (fun i : Nat => (⟨i, l.idxOf i, s.link_parents.getD i 0,
          renum l (s.link_parents.getD i 0), P.getD i 0, renum l (P.getD i 0),
          decide (P.getD i 0 ≠ s.link_parents.getD i 0)⟩ : Node)) (List.range s.link_parents.length)) =
      .ok (s'.geoms.map (renumGeom l)) := permute_geoms_ok (lam := s.link_parents) (P := P) hg'
  rw [hpg, ok_bind, permuteList_ok (f := fun i => s.link_names.getD i "")
    (show s.link_names.length = _ by rw [h.names_len, hll])
    (fun i hi => getD_some (by
      show i < s.link_names.length
      rw [h.names_len]; exact (hmem i).1 hi) ""), ok_bind,
    permuteList_ok (f := fun i => s.omc.getD i none)
    (show s.omc.length = _ by rw [h.omc_len, hll])
    (fun i hi => getD_some (by
      show i < s.omc.length
      rw [h.omc_len]; exact (hmem i).1 hi) none), ok_bind]
  congr 1
  simp only [morphRaw, propsAt, List.map_map, hs']
  rfl

end
end morph
end RingLib
