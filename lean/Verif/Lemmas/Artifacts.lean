import Verif.Model.MotionArtifacts
import Verif.Props.Xml

/-! Lemmas about the steps of injecting and hiding. -/

namespace RingLib
namespace artifacts
open System
variable {α π K β : Type}

/-! ## writing a slice -/

theorem foldl_set_range' (v : List β) : ∀ (x : List β) (a : Nat), a + v.length ≤ x.length →
    ((List.range' a v.length).zip v).foldl (fun x iv => x.set iv.1 iv.2) x =
      x.take a ++ v ++ x.drop (a + v.length) := by
  induction v with
  | nil => intro x a _; simp
  | cons y v ih =>
    intro x a h
    simp only [List.length_cons] at h
    rw [List.length_cons, List.range'_succ, List.zip_cons_cons, List.foldl_cons]
    rw [ih (x.set a y) (a + 1) (by simpa using by omega)]
    have ha : a < x.length := by omega
    have h1 : (x.set a y).take (a + 1) = x.take a ++ [y] := by
      rw [List.take_add_one, List.take_set, List.set_eq_of_length_le (by simp)]
      simp [ha]
    have h2 : (x.set a y).drop (a + 1 + v.length) = x.drop (a + (v.length + 1)) := by
      rw [List.drop_set_of_lt (by omega)]
      congr 1; omega
    rw [h1, h2]
    simp

theorem chunks_replace (v : List β) : ∀ (ws : List Nat) (x : List β) (i : Nat),
    x.length = ws.sum → ws[i]? = some v.length →
    chunks ws (x.take (ws.take i).sum ++ v ++ x.drop ((ws.take i).sum + v.length)) =
      (chunks ws x).set i v
  | [], _, i, _, h => by simp at h
  | w :: ws, x, 0, hx, h => by
    simp only [List.getElem?_cons_zero, Option.some.injEq] at h
    subst h
    simp [chunks]
  | w :: ws, x, i + 1, hx, h => by
    simp only [List.getElem?_cons_succ] at h
    simp only [List.sum_cons] at hx
    have ih := chunks_replace v ws (x.drop w) i (by simp; omega) h
    simp only [List.take_succ_cons, List.sum_cons, chunks, List.set_cons_succ]
    have e : x.take (w + (ws.take i).sum) ++ v ++ x.drop (w + (ws.take i).sum + v.length) =
        x.take w ++ ((x.drop w).take (ws.take i).sum ++ v ++
          (x.drop w).drop ((ws.take i).sum + v.length)) := by
      rw [List.take_add, List.drop_drop]
      simp [Nat.add_assoc]
    rw [e]
    have hw : (x.take w).length = w := by simp; omega
    congr 1
    · rw [List.take_left' hw]
    · rw [List.drop_left' hw]
      exact ih

/-- Writing the slice of link `i`. -/
theorem atSet_slice {w : String → Option Nat} {types : List String} {x v : List β} {i : Nat}
    (hx : x.length = (types.map (wOf w)).sum) (hi : i < types.length)
    (hv : v.length = wOf w (types.getD i "")) :
    atSet x (sliceIdx (((types.take i).map (wOf w)).sum, ((types.take (i + 1)).map (wOf w)).sum)) v =
      .ok ((chunks (types.map (wOf w)) x).set i v).flatten := by
  have hget : types.getD i "" = types[i] := by simp [hi]
  rw [hget] at hv
  have e : ((types.take (i + 1)).map (wOf w)).sum =
      ((types.take i).map (wOf w)).sum + v.length := by
    rw [List.take_add_one, List.getElem?_eq_getElem hi, List.map_append, List.sum_append]
    simp [hv]
  have hws : (types.map (wOf w))[i]? = some v.length := by
    rw [List.getElem?_map, List.getElem?_eq_getElem hi, hv]; rfl
  have hle : ((types.take i).map (wOf w)).sum + v.length ≤ x.length := by
    rw [← e, hx]
    conv_rhs => rw [← List.take_append_drop (i + 1) types, List.map_append, List.sum_append]
    omega
  unfold atSet sliceIdx
  rw [e]
  simp only [Nat.add_sub_cancel_left, List.length_range', if_true]
  rw [foldl_set_range' _ _ _ hle]
  have := chunks_replace v (types.map (wOf w)) x i hx hws
  rw [← List.map_take] at this
  rw [← this, chunks_flatten]
  have hle' := hle
  simp only [List.length_append, List.length_take, List.length_drop]
  omega

/-- the slice of a link by name -/
theorem sliceOf_eq {w : String → Option Nat} {names types : List String} (hn : names.Nodup) {i : Nat}
    {n : String} (hi : names[i]? = some n) :
    sliceOf ((names.zipIdx).map fun x => (x.1, Idx.slice ((types.take x.2).map (wOf w)).sum
        ((types.take (x.2 + 1)).map (wOf w)).sum)) n =
      .ok (((types.take i).map (wOf w)).sum, ((types.take (i + 1)).map (wOf w)).sum) := by
  unfold sliceOf pyDict
  have : List.lookup n ((names.zipIdx).map fun x =>
      (x.1, Idx.slice ((types.take x.2).map (wOf w)).sum
        ((types.take (x.2 + 1)).map (wOf w)).sum)) =
      some (Idx.slice ((types.take i).map (wOf w)).sum
        ((types.take (i + 1)).map (wOf w)).sum) := by
    apply Dict.lookup_of_mem
    · unfold Dict.keys
      rw [List.map_map]
      have : (Prod.fst ∘ fun x : String × Nat => (x.1, Idx.slice
        ((types.take x.2).map (wOf w)).sum
        ((types.take (x.2 + 1)).map (wOf w)).sum)) = Prod.fst := rfl
      rw [this, List.zipIdx_map_fst]
      exact hn
    · rw [List.mem_map]
      exact ⟨(n, i), by rw [List.mem_zipIdx_iff_getElem?]; exact hi, rfl⟩
  rw [this]
  rfl

/-! ## setting stiffness and damping of one link -/

/-- new stiffness and damping for one link -/
def springLogic (name : String) (ls ld : List α) (link_name : String) (o : JointVals α) : JointVals α :=
  if link_name = name then { o with ls := ls, ld := ld } else o

theorem springs_eq {E : Env α π} {s : System α π} (h : s.Consistent E) {i : Nat} {name : String}
    (hi : s.link_names[i]? = some name) {ls ld : List α} :
    { s with
      link_spring_stiffness := ((chunks (s.link_types.map (wOf E.dw)) s.link_spring_stiffness).set i ls).flatten
      link_damping := ((chunks (s.link_types.map (wOf E.dw)) s.link_damping).set i ld).flatten } =
    s.replaceRaw E (springLogic name ls ld) := by
  have hil : i < s.link_names.length := (List.getElem?_eq_some_iff.1 hi).1
  have hnm : ∀ j < s.link_parents.length, (s.link_names.getD j "" = name ↔ j = i) := by
    intro j hj
    have hj' : j < s.link_names.length := h.names_len ▸ hj
    rw [List.getD_eq_getElem _ _ hj']
    constructor
    · intro e
      exact uniqueIdx h.names_nodup (by rw [List.getElem?_eq_getElem hj', e]) hi
    · rintro rfl
      rw [List.getElem?_eq_getElem hj'] at hi
      exact Option.some.inj hi
  have same : ∀ (w : String → Option Nat) (xs : List α), xs.length = (s.link_types.map (wOf w)).sum →
      ((List.range s.link_parents.length).map fun j => ownSlice w s.link_types xs j).flatten = xs := by
    intro w xs hx
    conv_rhs => rw [← chunks_flatten _ _ hx]
    congr 1
    apply List.ext_getElem?
    intro j
    rw [List.getElem?_map]
    by_cases hj : j < s.link_parents.length
    · rw [List.getElem?_range hj, ownSlice_eq _ _ _ _ (h.types_len ▸ hj)]
      rfl
    · rw [List.getElem?_eq_none (by simpa using hj), List.getElem?_eq_none (by simp [h.types_len]; omega)]
      rfl
  have new : ∀ (w : String → Option Nat) (xs v : List α),
      ((chunks (s.link_types.map (wOf w)) xs).set i v).flatten =
      ((List.range s.link_parents.length).map fun j =>
        if s.link_names.getD j "" = name then v else ownSlice w s.link_types xs j).flatten := by
    intro w xs v
    congr 1
    apply List.ext_getElem?
    intro j
    rw [List.getElem?_map]
    by_cases hj : j < s.link_parents.length
    · rw [List.getElem?_range hj, Option.map_some, List.getElem?_set]
      by_cases hji : j = i
      · rw [if_pos hji.symm, if_pos ((hnm j hj).2 hji), if_pos]
        simp [h.types_len]
        omega
      · rw [if_neg (Ne.symm hji), ownSlice_eq _ _ _ _ (h.types_len ▸ hj),
          if_neg (fun e => hji ((hnm j hj).1 e))]
    · rw [List.getElem?_eq_none (by simp [h.types_len]; omega), List.getElem?_eq_none (by simpa using hj)]
      rfl
  have types : ((List.range s.link_parents.length).map fun j => s.link_types.getD j "") = s.link_types := by
    apply List.ext_getElem?
    intro j
    rw [List.getElem?_map]
    by_cases hj : j < s.link_parents.length
    · have : j < s.link_types.length := h.types_len ▸ hj
      rw [List.getElem?_range hj]
      simp [this]
    · rw [List.getElem?_eq_none (by simpa using hj), List.getElem?_eq_none (by rw [h.types_len]; omega)]
      rfl
  have pick : ∀ {γ : Type} (f : JointVals α → γ) (g : Nat → γ),
      (∀ j, f (s.newVals E (springLogic name ls ld) j) = g j) →
      ((List.range s.link_parents.length).map (s.newVals E (springLogic name ls ld))).map f =
        (List.range s.link_parents.length).map g := by
    intro γ f g hfg
    rw [List.map_map]
    exact List.map_congr_left fun j _ => hfg j
  unfold replaceRaw
  simp only
  rw [pick (·.lt) (fun j => s.link_types.getD j "") (by
      intro j; unfold newVals springLogic; split <;> rfl),
    pick (·.la) (fun j => ownSlice E.dw s.link_types s.link_armature j) (by
      intro j; unfold newVals springLogic; split <;> rfl),
    pick (·.lz) (fun j => ownSlice E.qw s.link_types s.link_spring_zeropoint j) (by
      intro j; unfold newVals springLogic; split <;> rfl),
    pick (·.ls) (fun j => if s.link_names.getD j "" = name then ls else
        ownSlice E.dw s.link_types s.link_spring_stiffness j) (by
      intro j; unfold newVals springLogic; split <;> rfl),
    pick (·.ld) (fun j => if s.link_names.getD j "" = name then ld else
        ownSlice E.dw s.link_types s.link_damping j) (by
      intro j; unfold newVals springLogic; split <;> rfl),
    types, same _ _ h.armature_len, same _ _ h.zeropoint_len, new, new]

/-! ## changing the values of one link, by name -/

/-- `v` with other joint values -/
def withVals (v : LinkView α π) (n : JointVals α) : LinkView α π :=
  { v with type := n.lt, armature := n.la, damping := n.ld, stiffness := n.ls, zeropoint := n.lz }

def valsOf (v : LinkView α π) : JointVals α := ⟨v.type, v.armature, v.damping, v.stiffness, v.zeropoint⟩

variable [Field α]

omit [Field α] in
theorem newVals_of_view {E : Env α π} {s : System α π} {logic : String → JointVals α → JointVals α}
    {i : Nat} {n : String} {v : LinkView α π} (hi : s.link_names[i]? = some n)
    (hv : s.viewAt E i = some v) : s.newVals E logic i = logic n (valsOf v) := by
  have := viewAt_vals hv
  unfold newVals
  have e : s.link_names.getD i "" = n := by
    obtain ⟨h, e⟩ := List.getElem?_eq_some_iff.1 hi
    simp [h, e]
  rw [e]
  congr 1
  unfold valsOf
  rw [this.1, this.2.1, this.2.2.1, this.2.2.2.1, this.2.2.2.2]

/-- Replacing joint values link by link: what fits is accepted, and every link gets its new values. -/
theorem replace_view {E : Env α π} {s : System α π} (h : s.WF E) (h0 : s.link_parents ≠ [])
    {logic : String → JointVals α → JointVals α}
    (hf : ∀ n v, s.view E n = some v → Fits E (logic n (valsOf v))) :
    _update_sys_if_replace_joint_type E s logic = .ok (s.replaceRaw E logic) ∧
      (s.replaceRaw E logic).WF E ∧
      ∀ n v, s.view E n = some v →
        (s.replaceRaw E logic).view E n = some (withVals v (logic n (valsOf v))) := by
  have hat : ∀ i < s.link_parents.length, ∃ n v, s.link_names[i]? = some n ∧ s.viewAt E i = some v ∧
      s.view E n = some v := by
    intro i hi
    have hin : i < s.link_names.length := h.names_len ▸ hi
    obtain ⟨v, hv⟩ := viewAt_isSome h.toConsistent hi
    refine ⟨s.link_names[i], v, List.getElem?_eq_getElem hin, hv, ?_⟩
    rw [view_eq_viewAt h.toConsistent (List.getElem?_eq_getElem hin), hv]
  have hf' : ∀ i < s.link_parents.length, Fits E (s.newVals E logic i) := by
    intro i hi
    obtain ⟨n, v, h1, h2, h3⟩ := hat i hi
    rw [newVals_of_view h1 h2]
    exact hf n v h3
  obtain ⟨e, hwf⟩ := replace_ok h h0 hf'
  refine ⟨e, hwf, ?_⟩
  intro n v hv
  have hn : n ∈ s.link_names := by
    by_contra hc
    rw [view_none hc] at hv
    cases hv
  obtain ⟨i, hi, en⟩ := List.getElem_of_mem hn
  have hi' : s.link_names[i]? = some n := by rw [List.getElem?_eq_getElem hi, en]
  rw [view_eq_viewAt h.toConsistent hi'] at hv
  rw [view_eq_viewAt hwf.toConsistent (show (s.replaceRaw E logic).link_names[i]? = some n from hi'),
    replaceRaw_viewAt h.toConsistent hf', hv, Option.map_some, newVals_of_view hi' hv]
  rfl

theorem view_fits {E : Env α π} {s : System α π} (h : s.WF E) {n : String} {v : LinkView α π}
    (hv : s.view E n = some v) : Fits E (valsOf v) := by
  have hn : n ∈ s.link_names := by
    by_contra hc
    rw [view_none hc] at hv
    cases hv
  obtain ⟨i, hi, en⟩ := List.getElem_of_mem hn
  have hi' : s.link_names[i]? = some n := by rw [List.getElem?_eq_getElem hi, en]
  rw [view_eq_viewAt h.toConsistent hi'] at hv
  have := vals_fits h.toConsistent (i := i) (h.names_len ▸ hi)
  have e : s.vals E i = valsOf v := by
    have := viewAt_vals hv
    unfold valsOf
    rw [this.1, this.2.1, this.2.2.1, this.2.2.2.1, this.2.2.2.2]
  rw [← e]; exact this

/-! ## renaming -/

/-- one name replaced -/
def renameTo (old new n : String) : String := if n = old then new else n

theorem set_eq_map_rename {l : List String} (hn : l.Nodup) {i : Nat} {old new : String}
    (hi : l[i]? = some old) : l.set i new = l.map (renameTo old new) := by
  apply List.ext_getElem?
  intro j
  rw [List.getElem?_set, List.getElem?_map]
  by_cases hj : i = j
  · subst hj
    have := (List.getElem?_eq_some_iff.1 hi).1
    rw [if_pos rfl, if_pos this, hi]
    simp [renameTo]
  · rw [if_neg hj]
    cases e : l[j]? with
    | none => rfl
    | some n =>
      have : n ≠ old := by
        rintro rfl
        exact hj (uniqueIdx hn hi e)
      simp [renameTo, this]

theorem rename_view {E : Env α π} {s : System α π} (h : s.WF E) {old new : String}
    (ho : old ∈ s.link_names) (hnew : new ∉ s.link_names) :
    ∃ s', s.change_link_name old new = .ok s' ∧ s' = { s with link_names := s.link_names.map (renameTo old new) } ∧
      s'.WF E ∧ ∀ n v, s.view E n = some v →
        s'.view E (renameTo old new n) = some { v with parent := v.parent.map (renameTo old new) } := by
  obtain ⟨k, hk, ek⟩ := List.getElem_of_mem ho
  have hk' : s.link_names[k]? = some old := by rw [List.getElem?_eq_getElem hk, ek]
  have hinj : ∀ a ∈ s.link_names, ∀ b ∈ s.link_names, renameTo old new a = renameTo old new b → a = b := by
    intro a ha b hb e
    unfold renameTo at e
    split at e <;> split at e
    · rename_i h1 h2; rw [h1, h2]
    · exact absurd (e ▸ hb) hnew
    · exact absurd (e ▸ ha) hnew
    · exact e
  have hwf : ({ s with link_names := s.link_names.map (renameTo old new) } : System α π).WF E :=
    { h with
      names_len := by rw [List.length_map]; exact h.names_len
      names_nodup := List.Nodup.map_on hinj h.names_nodup }
  refine ⟨_, ?_, rfl, hwf, ?_⟩
  · unfold change_link_name name_to_idx pyIndex
    rw [idxOf?_eq_of_nodup h.names_nodup hk']
    simp only [ok_bind, pure_ok]
    rw [set_eq_map_rename h.names_nodup hk']
  · intro n v hv
    have hn : n ∈ s.link_names := by
      by_contra hc
      rw [view_none hc] at hv
      cases hv
    obtain ⟨i, hi, en⟩ := List.getElem_of_mem hn
    have hi' : s.link_names[i]? = some n := by rw [List.getElem?_eq_getElem hi, en]
    rw [view_eq_viewAt h.toConsistent hi'] at hv
    rw [view_eq_viewAt hwf.toConsistent (i := i) (by
      show (s.link_names.map _)[i]? = _
      rw [List.getElem?_map, hi']; rfl)]
    unfold viewAt at hv ⊢
    simp only at hv ⊢
    cases h1 : s.link_parents[i]? with
    | none => rw [h1] at hv; cases hv
    | some p =>
      cases h2 : s.link_types[i]? with
      | none => rw [h1, h2] at hv; cases hv
      | some t =>
        cases h3 : s.links[i]? with
        | none => rw [h1, h2, h3] at hv; cases hv
        | some r =>
          cases h4 : s.omc[i]? with
          | none => rw [h1, h2, h3, h4] at hv; cases hv
          | some o =>
            rw [h1, h2, h3, h4] at hv
            simp only [Option.bind_eq_bind, Option.bind_some, Option.pure_def,
              Option.some.injEq] at hv ⊢
            subst hv
            ext1 <;> try rfl
            simp only [System.nameAt]
            split
            · rfl
            · rw [List.getElem?_map]

/-! ## the injected body -/

section guest
variable [DecidableEq α]
open io

/-- a document with one body -/
def oneBody (a : Dict String) : Xml String :=
  .node "x_xy" [] [.node "worldbody" [] [.node "body" a []]]

omit [Field α] [DecidableEq α] in
theorem initial_setup_oneBody {T : Txt α} {a : Dict String}
    (hk : ∀ k ∈ Dict.keys a, k ∈ ["name", "pos", "pos_min", "pos_max", "quat", "euler", "joint", "armature",
      "damping", "spring_stiff", "spring_zero"]) :
    _initial_setup T (oneBody a) = .ok (convX T (oneBody a), .node "worldbody" []
      [.node "body" (conv T a) []]) := by
  have h1 : _assert_all_tags_attrs_valid (oneBody a) = .ok () := by
    show (checkElement ("x_xy", []) >>= fun _ => checkElement ("worldbody", []) >>= fun _ =>
      checkElement ("body", a) >>= fun _ => .ok ()) = _
    rw [checkElement_ok (valid := ["model"]) rfl keys_sub_nil, ok_bind,
      checkElement_ok (valid := []) rfl keys_sub_nil, ok_bind, checkElement_ok rfl hk, ok_bind]
  unfold _initial_setup
  rw [h1, ok_bind]
  dsimp only
  have h2 : _build_defaults_attributes (_convert_attrs_to_arrays T (oneBody a)) =
      .ok [("geom", []), ("body", [])] := rfl
  rw [h2, ok_bind]
  have h3 : _find_assert_unique (_convert_attrs_to_arrays T (oneBody a)) ["worldbody"] =
      .ok (some (.node "worldbody" [] [.node "body" (conv T a) []])) := rfl
  rw [h3, ok_bind]
  simp only [pure_ok]
  rw [mapAttrib_id _ mixIn_none]
  rfl

theorem load_oneBody {E : Env α π} {T : Txt α} {J : JointInit π K} {key : K} {a : Dict String}
    (hk : ∀ k ∈ Dict.keys a, k ∈ ["name", "pos", "pos_min", "pos_max", "quat", "euler", "joint", "armature",
      "damping", "spring_stiff", "spring_zero"]) {r : LinkRec α}
    (hr : readBody E T (conv T a) [] (-1) 0 = .ok r) (hg : r.geoms = []) :
    load_sys_from_str E T J key (oneBody a) = (do
      let s ← _init_joint_params J key
        { link_parents := [r.parent]
          links := [linkRow r]
          joint_params := []
          link_types := [r.typ]
          link_damping := r.damping
          link_armature := r.armature
          link_spring_stiffness := r.stiffness
          link_spring_zeropoint := r.zeropoint
          dt := 1 / 100
          geoms := []
          gravity := ⟨0, 0, 981 / 100⟩
          integration_method := "semi_implicit_euler"
          mass_mat_iters := 0
          link_names := [r.name]
          model_name := none
          omc := [r.omc] }
      parse E s) := by
  unfold load_sys_from_str
  rw [initial_setup_oneBody hk, ok_bind, pyAssert_true (show (oneBody a).tag = "x_xy" from rfl), ok_bind]
  have h1 : getModel (convX T (oneBody a)).attrib = .ok none := rfl
  have h2 : getOptions (convX T (oneBody a)) = .ok (1 / 100, ⟨0, 0, 981 / 100⟩) := rfl
  have h3 : process_bodies E T [.node "body" (conv T a) []] (-1) (-1, []) = .ok (0, [(0, r)]) := by
    rw [process_bodies, if_pos (show (Xml.node "body" (conv T a) []).tag = "body" from rfl), process_body]
    have : ((-1 : Int) + 1) = 0 := rfl
    simp only [this, hr, ok_bind, process_bodies]
    rfl
  simp only [h1, h2, ok_bind, Xml.children, h3]
  rw [pyAssert_true (by rfl), ok_bind]
  have h4 : _extract_geoms_from_body_xml E T [.node "body" (conv T a) []] (-1) = .ok [] := rfl
  simp only [List.map_cons, List.map_nil, h4, ok_bind]
  have h5 : pyGet [r] 0 = .ok r := rfl
  simp only [h5, ok_bind, jnpConcatenate, List.flatten_cons, List.flatten_nil, List.append_nil, hg]

omit [Field α] [DecidableEq α] in
theorem toAVal_thrice {T : Txt α} {w : String} {y : α} (hs : ' ' ∉ w.toList) (hw : T.num w = some y) :
    toAVal T (thrice w) = .arr [y, y, y] := by
  have e : pySplit (thrice w) = [w, w, w] := by
    unfold pySplit thrice
    have : (w ++ " " ++ w ++ " " ++ w).toList = w.toList ++ ' ' :: (w.toList ++ ' ' :: w.toList) := by
      simp [String.toList_append]
    rw [this, splitSp_append hs, splitSp_append hs, splitSp_word hs]
    simp
  unfold toAVal
  rw [e]
  simp [hw]

/-- What the joints and the numbers of the injected bodies must satisfy: the joints are registered with
their widths, the box of positions is not negative, and all numbers can be written and read. -/
structure ArtifactsOk (E : Env α π) (T : Txt α) (J : JointInit π K) (A : Artifacts α) : Prop where
  p3d : E.qw "p3d" = some 3 ∧ E.dw "p3d" = some 3 ∧ IsText T "p3d" ∧ J.init "p3d" ≠ none
  spherical : E.qw "spherical" = some 4 ∧ E.dw "spherical" = some 3 ∧ IsText T "spherical" ∧
    J.init "spherical" ≠ none
  frozen : E.qw "frozen" = some 0 ∧ E.dw "frozen" = some 0
  unit : E.unit4 [1, 0, 0, 0] = true
  size : E.ge A.pos_min_max 0 = true
  box : E.ge A.pos_min_max (-A.pos_min_max) = true
  box_ne : A.pos_min_max ≠ 0 → -A.pos_min_max ≠ A.pos_min_max
  neg : T.num ("-" ++ T.fmt A.pos_min_max) = some (-A.pos_min_max)
  printable : ∀ x ∈ [0, 1, A.pos_min_max, -A.pos_min_max, A.rotational_stif,
    A.rotational_stif * A.rotational_damp, A.translational_stif,
    A.translational_stif * A.translational_damp], Printable T x
  split : ∀ k n, (J.split k n).length = n

/-- the injected body: it moves along three axes around its parent -/
def bodyView (A : Artifacts α) (parent : Option String) (inertia : Inertia α) (jp : String → Option π)
    (geoms : List (GeomData α)) : LinkView α π where
  parent := parent
  type := "p3d"
  row := ⟨Transform.zero, ⟨-A.pos_min_max, -A.pos_min_max, -A.pos_min_max⟩,
    ⟨A.pos_min_max, A.pos_min_max, A.pos_min_max⟩, inertia, Transform.zero, Transform.zero⟩
  damping := List.replicate 3 (A.translational_stif * A.translational_damp)
  armature := List.replicate 3 0
  stiffness := List.replicate 3 A.translational_stif
  zeropoint := List.replicate 3 0
  joint_params := jp
  omc := none
  geoms := geoms

theorem factory_ok {E : Env α π} {T : Txt α} {J : JointInit π K} {A : Artifacts α}
    (h : ArtifactsOk E T J A) (key : K) {imu : String} (hn : ReadsName T imu) :
    ∃ t, _subsystem_factory E T J key imu A.pos_min_max A.translational_stif A.translational_damp = .ok t ∧
      t.WF E ∧ t.link_names = [imu] ∧ t.link_parents = [-1] ∧ t.worldGeoms = [] ∧
      ∃ it jp, t.view E imu = some (bodyView A none it jp []) := by
  obtain ⟨q3, d3, tx, hJ⟩ := h.p3d
  have hp : ∀ x ∈ [0, 1, A.pos_min_max, -A.pos_min_max, A.rotational_stif,
    A.rotational_stif * A.rotational_damp, A.translational_stif,
    A.translational_stif * A.translational_damp], Printable T x := h.printable
  have p1 := hp A.pos_min_max (by simp)
  have p2 := hp A.translational_stif (by simp)
  have p3 := hp (A.translational_stif * A.translational_damp) (by simp)
  have hneg : ' ' ∉ ("-" ++ T.fmt A.pos_min_max).toList := by
    simp [String.toList_append, p1.2]
  let a : Dict String := [("name", imu), ("joint", "p3d")] ++
      (if A.pos_min_max ≠ 0 then
        [("pos_min", thrice ("-" ++ T.fmt A.pos_min_max)), ("pos_max", thrice (T.fmt A.pos_min_max))]
        else []) ++
      [("spring_stiff", thrice (T.fmt A.translational_stif)),
        ("damping", thrice (T.fmt (A.translational_stif * A.translational_damp)))]
  have look : ∀ k, List.lookup k a =
      if k = "name" then some imu else if k = "joint" then some "p3d"
      else if k = "pos_min" ∧ A.pos_min_max ≠ 0 then some (thrice ("-" ++ T.fmt A.pos_min_max))
      else if k = "pos_max" ∧ A.pos_min_max ≠ 0 then some (thrice (T.fmt A.pos_min_max))
      else if k = "spring_stiff" then some (thrice (T.fmt A.translational_stif))
      else if k = "damping" then some (thrice (T.fmt (A.translational_stif * A.translational_damp)))
      else none := by
    intro k
    by_cases h0 : A.pos_min_max = 0
    · simp only [a, h0, ne_eq, not_true_eq_false, if_false, List.append_nil, List.cons_append,
        List.nil_append, Dict.lookup_if, List.lookup_nil, and_false]
    · simp only [a, h0, ne_eq, not_false_eq_true, if_true, List.cons_append,
        List.nil_append, Dict.lookup_if, List.lookup_nil, and_true]
  have hk : ∀ k ∈ Dict.keys a, k ∈ ["name", "pos", "pos_min", "pos_max", "quat", "euler", "joint",
      "armature", "damping", "spring_stiff", "spring_zero"] := by
    intro k hk
    by_cases h0 : A.pos_min_max = 0
    · simp only [a, h0, Dict.keys] at hk
      simp at hk
      rcases hk with rfl | rfl | rfl | rfl <;> simp
    · simp only [a, ne_eq, h0, not_false_eq_true, if_true, Dict.keys] at hk
      simp at hk
      rcases hk with rfl | rfl | rfl | rfl | rfl | rfl <;> simp
  let r : LinkRec α := ⟨-1, imu, "p3d", Transform.zero,
    ⟨-A.pos_min_max, -A.pos_min_max, -A.pos_min_max⟩,
    ⟨A.pos_min_max, A.pos_min_max, A.pos_min_max⟩, none,
    List.replicate 3 (A.translational_stif * A.translational_damp), List.replicate 3 0,
    List.replicate 3 A.translational_stif, List.replicate 3 0, []⟩
  have hr : readBody E T (conv T a) [] (-1) 0 = .ok r := by
    have c1 : getJoint (conv T a) = .ok "p3d" := by
      unfold getJoint pyDict
      rw [lookup_conv, look]
      simp only [String.reduceEq, if_false, if_true, Option.map_some, toAVal_text tx, ok_bind]
      rfl
    have c2 : getName T (conv T a) = .ok imu := by
      unfold getName pyDict
      rw [lookup_conv, look, if_pos rfl, Option.map_some]
      rcases hn with hn | ⟨b, x, k, c, d, e⟩
      · rw [toAVal_text hn]
        rfl
      · rw [toAVal_single b c]
        simp only [ok_bind, d, e]
        rfl
    have c3 : transFromXml T (conv T a) = .ok Transform.zero := by
      unfold transFromXml getPos _get_rotation
      simp only [lookup_conv, look, String.reduceEq, if_false, false_and, Option.map_none]
      rfl
    have c4 : posMinMaxFromXml (conv T a) (Transform.zero : Transform α).pos =
        .ok (⟨-A.pos_min_max, -A.pos_min_max, -A.pos_min_max⟩,
          ⟨A.pos_min_max, A.pos_min_max, A.pos_min_max⟩) := by
      unfold posMinMaxFromXml
      simp only [lookup_conv, look, String.reduceEq, if_false, false_and, true_and]
      by_cases h0 : A.pos_min_max = 0
      · simp only [h0, ne_eq, not_true_eq_false, if_false, Option.map_none, neg_zero]
        rfl
      · simp only [ne_eq, h0, not_false_eq_true, if_true, Option.map_some,
          toAVal_thrice hneg h.neg, toAVal_thrice p1.2 p1.1, AVal.vec3, ok_bind]
        rw [pyAssert_true (by
          intro e
          exact h.box_ne h0 (congrArg Vec3.x e))]
        rfl
    have c5 : dofFromXml (conv T a) 3 3 "p3d" = .ok
        (List.replicate 3 (A.translational_stif * A.translational_damp), List.replicate 3 0,
        List.replicate 3 A.translational_stif, List.replicate 3 0) := by
      unfold dofFromXml getDof
      simp only [lookup_conv, look, String.reduceEq, if_false, false_and, if_true, Option.map_some,
        Option.map_none, toAVal_thrice p2.2 p2.1, toAVal_thrice p3.2 p3.1, AVal.atleast_1d, ok_bind]
      rfl
    have w1 : width E.qw "p3d" = .ok 3 := by unfold width; rw [q3]
    have w2 : width E.dw "p3d" = .ok 3 := by unfold width; rw [d3]
    unfold readBody
    simp only [c1, c2, c3, c4, w1, w2, c5, ok_bind]
    rfl
  obtain ⟨jp, j1, j2, j3, j4⟩ := init_params_ok (J := J) (key := key)
    (s := ({ link_parents := [r.parent]
             links := [linkRow r]
             joint_params := []
             link_types := [r.typ]
             link_damping := r.damping
             link_armature := r.armature
             link_spring_stiffness := r.stiffness
             link_spring_zeropoint := r.zeropoint
             dt := 1 / 100
             geoms := []
             gravity := ⟨0, 0, 981 / 100⟩
             integration_method := "semi_implicit_euler"
             mass_mat_iters := 0
             link_names := [r.name]
             model_name := none
             omc := [r.omc] } : System α π)) ⟨by simpa [r] using hJ, h.split⟩
  have hw3 : ∀ {w : String → Option Nat}, w "p3d" = some 3 → wOf w "p3d" = 3 := by
    intro w hw; simp [wOf, hw]
  let t0 : System α π :=
           { link_parents := [r.parent]
             links := [linkRow r]
             joint_params := jp
             link_types := [r.typ]
             link_damping := r.damping
             link_armature := r.armature
             link_spring_stiffness := r.stiffness
             link_spring_zeropoint := r.zeropoint
             dt := 1 / 100
             geoms := []
             gravity := ⟨0, 0, 981 / 100⟩
             integration_method := "semi_implicit_euler"
             mass_mat_iters := 0
             link_names := [r.name]
             model_name := none
             omc := [r.omc] }
  have hc : t0.Consistent E :=
    { types_len := rfl
      links_len := rfl
      omc_len := rfl
      names_len := rfl
      names_nodup := by simp [t0]
      pos_ok := by
        intro l hl
        rw [List.mem_singleton.1 hl]
        exact ⟨h.box, h.box, h.box⟩
      geoms_ok := by simp [t0]
      known := by
        intro t ht
        rw [List.mem_singleton.1 ht]
        simp [r, q3, d3]
      damping_len := by simp [t0, r, hw3 d3]
      armature_len := by simp [t0, r, hw3 d3]
      stiffness_len := by simp [t0, r, hw3 d3]
      zeropoint_len := by simp [t0, r, hw3 q3]
      unit_zero := by
        intro i hi hq
        have : i = 0 := by simpa [t0] using hi
        subst this
        exact absurd hq (show ¬ joint_type_is_free_or_cor_or_spherical "p3d" = true by decide) }
  have htopo : Topological t0.link_parents := by
    intro i hi
    have : i = 0 := by simpa [t0] using hi
    subst this
    simp [t0, r]
  have hwf := normalised_wf hc htopo j3 j4
  refine ⟨t0.normalised E, ?_, hwf, rfl, rfl, ?_, compute_inertia_per_link E.pi t0.geoms 0,
    fun typ => (jp.lookup typ).bind (·[0]?), ?_⟩
  · unfold _subsystem_factory
    rw [pyAssert_true h.size, ok_bind]
    show load_sys_from_str E T J key (oneBody a) = _
    rw [load_oneBody hk hr rfl, j1, ok_bind]
    exact parse_ok hc
  · simp [worldGeoms, normalised, t0]
  · rw [view_eq_viewAt hwf.toConsistent (i := 0) rfl, normalised_viewAt hc]
    simp only [viewAt, t0, r, List.getElem?_cons_zero, Option.bind_eq_bind, Option.bind_some,
      Option.pure_def, Option.map_some, Option.some.injEq]
    ext1 <;> try rfl
    all_goals simp [ownSlice, bodyView, hw3 q3, hw3 d3]

end guest

end artifacts
end RingLib
