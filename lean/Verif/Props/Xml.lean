import Verif.Lemmas.XmlLoad
import Verif.Props.Reroot

/-!
# C08: saving and loading a system
-/

namespace RingLib
namespace io
open System morph
variable {α π K : Type} [Field α] [DecidableEq α]

/-! ## specification -/

/-- The joint parameters are drawn anew: one row per link for every joint type that has parameters. -/
structure FreshParams (J : JointInit π K) (types : List String) (n : Nat)
    (jp : List (String × List π)) : Prop where
  default : jp.lookup "default" = some (List.replicate n J.default)
  drawn : ∀ t ∈ types, t ≠ "default" → ∀ f, J.init t = some (some f) →
    ∃ ks : List K, ks.length = n ∧ jp.lookup t = some (ks.map f)
  others : ∀ t rows, t ≠ "default" → jp.lookup t = some rows →
    t ∈ types ∧ ∃ f, J.init t = some (some f)

/-- `s'` is the same mechanism as `s`, with the links numbered by `perm`. -/
structure Reloaded (E : Env α π) (J : JointInit π K) (s : System α π) (perm : List Nat)
    (s' : System α π) : Prop where
  wf : s'.WF E
  renumbered : Renumbered s.link_parents perm s'.link_parents
  names : ∀ j i : Nat, perm[j]? = some i → s'.link_names[j]? = s.link_names[i]?
  /-- parent (by name), joint type, transform, box of positions, inertia, damping, armature, stiffness,
  zero point, marker and geometries; only the poses of a state and the joint parameters are reset -/
  view : ∀ (j i : Nat) v, perm[j]? = some i → s.viewAt E i = some v → ∃ v', s'.viewAt E j = some v' ∧
    v' = { v with
      row := { v.row with transform2 := Transform.zero, transform := Transform.zero }
      joint_params := v'.joint_params }
  worldGeoms : s'.worldGeoms = []
  globals : s'.globals = (s.dt, s.gravity, "semi_implicit_euler", 0, s.model_name)
  params : FreshParams J s.link_types s.link_parents.length s'.joint_params

/-- what is known of the joints is complete -/
structure JointInit.Ok (J : JointInit π K) (types : List String) : Prop where
  known : ∀ t ∈ types, J.init t ≠ none
  split : ∀ k n, (J.split k n).length = n

/-! ## joint parameters -/

theorem initFns_spec {J : JointInit π K} (types : List String) (hk : ∀ t ∈ types, J.init t ≠ none) :
    ∃ fns, initFns J types = .ok fns ∧ (Dict.keys fns).Nodup ∧
      ∀ t f, List.lookup t fns = some f ↔ t ∈ types ∧ J.init t = some (some f) := by
  unfold initFns
  have main : ∀ (types done : List String) (d : Dict (K → π)), (∀ t ∈ types, J.init t ≠ none) →
      (Dict.keys d).Nodup → (∀ t f, List.lookup t d = some f ↔ t ∈ done ∧ J.init t = some (some f)) →
      ∃ fns, types.foldlM (fun d typ =>
        if typ ∈ Dict.keys d then .ok d
        else match J.init typ with
          | none => .error .key
          | some none => .ok d
          | some (some f) => .ok (d ++ [(typ, f)])) d = (.ok fns : Py _) ∧ (Dict.keys fns).Nodup ∧
        ∀ t f, List.lookup t fns = some f ↔ t ∈ done ++ types ∧ J.init t = some (some f) := by
    intro types
    induction types with
    | nil =>
      intro done d _ hn hd
      exact ⟨d, rfl, hn, by simpa using hd⟩
    | cons t ts ih =>
      intro done d hk hn hd
      rw [List.foldlM_cons]
      have key : ∀ d', (Dict.keys d').Nodup →
          (∀ t' f, List.lookup t' d' = some f ↔ t' ∈ done ++ [t] ∧ J.init t' = some (some f)) →
          ∃ fns, ts.foldlM (fun d typ =>
            if typ ∈ Dict.keys d then .ok d
            else match J.init typ with
              | none => .error .key
              | some none => .ok d
              | some (some f) => .ok (d ++ [(typ, f)])) d' = (.ok fns : Py _) ∧ (Dict.keys fns).Nodup ∧
            ∀ t' f, List.lookup t' fns = some f ↔
              t' ∈ done ++ t :: ts ∧ J.init t' = some (some f) := by
        intro d' h1 h2
        have := ih (done ++ [t]) d' (fun x hx => hk x (by simp [hx])) h1 h2
        simpa using this
      by_cases hmem : t ∈ Dict.keys d
      · rw [if_pos hmem, ok_bind]
        obtain ⟨f0, hf0⟩ := (Dict.lookup_isSome _ _).1 hmem
        refine key d hn fun t' f => ?_
        rw [hd]
        have := (hd t f0).1 hf0
        constructor
        · rintro ⟨a, b⟩
          exact ⟨by simp [a], b⟩
        · rintro ⟨a, b⟩
          rcases List.mem_append.1 a with a | a
          · exact ⟨a, b⟩
          · rw [List.mem_singleton.1 a] at b ⊢
            exact ⟨this.1, b⟩
      · rw [if_neg hmem]
        have hnone := (Dict.lookup_eq_none _ _).2 hmem
        match hJ : J.init t with
        | none => exact absurd hJ (hk t (by simp))
        | some none =>
          simp only [ok_bind]
          refine key d hn fun t' f => ?_
          rw [hd]
          constructor
          · rintro ⟨a, b⟩
            exact ⟨by simp [a], b⟩
          · rintro ⟨a, b⟩
            rcases List.mem_append.1 a with a | a
            · exact ⟨a, b⟩
            · rw [List.mem_singleton.1 a, hJ] at b
              simp at b
        | some (some g) =>
          simp only [ok_bind]
          refine key (d ++ [(t, g)]) ?_ fun t' f => ?_
          · rw [Dict.keys, List.map_append]
            simp only [List.map_cons, List.map_nil]
            rw [List.nodup_append]
            refine ⟨hn, by simp, ?_⟩
            rintro a ha b hb rfl
            rw [List.mem_singleton.1 hb] at ha
            exact hmem ha
          · rw [Dict.lookup_append]
            by_cases ht : t' = t
            · subst ht
              rw [hnone]
              simp [Dict.lookup_if, hJ]
            · have : (List.lookup t' d).or (List.lookup t' [(t, g)]) = List.lookup t' d := by
                rw [Dict.lookup_if, if_neg ht]
                simp
              rw [this, hd]
              simp [ht]
  obtain ⟨fns, h1, h2, h3⟩ := main types [] [] hk (by simp [Dict.keys]) (by simp)
  exact ⟨fns, h1, h2, by simpa using h3⟩

theorem drawParams_spec {J : JointInit π K} (hs : ∀ k n, (J.split k n).length = n) (n : Nat) :
    ∀ (fns : Dict (K → π)) (key : K), Dict.keys (drawParams J n key fns) = Dict.keys fns ∧
      (∀ t rows, List.lookup t (drawParams J n key fns) = some rows →
        ∃ f, List.lookup t fns = some f ∧ ∃ ks : List K, ks.length = n ∧ rows = ks.map f) ∧
      ∀ x ∈ drawParams J n key fns, x.2.length = n := by
  intro fns
  induction fns with
  | nil => intro key; simp [drawParams, Dict.keys]
  | cons a fns ih =>
    obtain ⟨t0, f0⟩ := a
    intro key
    obtain ⟨h1, h2, h3⟩ := ih ((J.split key (n + 1)).headD key)
    refine ⟨?_, ?_, ?_⟩
    · rw [drawParams]
      show t0 :: Dict.keys _ = t0 :: Dict.keys _
      rw [h1]
    · intro t rows
      rw [drawParams, Dict.lookup_if, Dict.lookup_if]
      by_cases ht : t = t0
      · rw [if_pos ht, if_pos ht]
        intro e
        refine ⟨f0, rfl, (J.split key (n + 1)).drop 1, ?_, (Option.some.inj e).symm⟩
        simp [hs]
      · rw [if_neg ht, if_neg ht]
        exact h2 t rows
    · intro x hx
      rw [drawParams, List.mem_cons] at hx
      rcases hx with rfl | hx
      · simp [hs]
      · exact h3 x hx

theorem init_params_ok {J : JointInit π K} {s : System α π} (hJ : J.Ok s.link_types) (key : K) :
    ∃ jp, _init_joint_params J key s = .ok { s with joint_params := jp } ∧
      FreshParams J s.link_types s.link_parents.length jp ∧ (jp.map (·.1)).Nodup ∧
      ∀ x ∈ jp, x.2.length = s.link_parents.length := by
  obtain ⟨fns, h1, h2, h3⟩ := initFns_spec s.link_types hJ.known
  obtain ⟨d1, d2, d3⟩ := drawParams_spec hJ.split s.link_parents.length fns key
  have hlen : ∀ x ∈ Dict.set (drawParams J s.link_parents.length key fns) "default"
      (List.replicate s.link_parents.length J.default), x.2.length = s.link_parents.length := by
    intro x hx
    unfold Dict.set at hx
    split at hx
    · obtain ⟨y, hy, e⟩ := List.mem_map.1 hx
      split at e
      · subst e; simp
      · subst e; exact d3 y hy
    · rcases List.mem_append.1 hx with hx | hx
      · exact d3 x hx
      · rw [List.mem_singleton.1 hx]; simp
  refine ⟨Dict.set (drawParams J s.link_parents.length key fns) "default"
    (List.replicate s.link_parents.length J.default), ?_, ⟨?_, ?_, ?_⟩, ?_, hlen⟩
  · unfold _init_joint_params
    rw [h1, ok_bind]
    rfl
  · rw [Dict.lookup_set, if_pos rfl]
  · intro t ht hd f hf
    rw [Dict.lookup_set, if_neg hd]
    have hl := (h3 t f).2 ⟨ht, hf⟩
    have hm : t ∈ Dict.keys (drawParams J s.link_parents.length key fns) := by
      rw [d1]
      exact (Dict.lookup_isSome _ _).2 ⟨f, hl⟩
    obtain ⟨rows, hr⟩ := (Dict.lookup_isSome _ _).1 hm
    obtain ⟨f', e1, ks, e2, e3⟩ := d2 t rows hr
    rw [hl] at e1
    obtain rfl := Option.some.inj e1
    exact ⟨ks, e2, by rw [hr, e3]⟩
  · intro t rows hd hr
    rw [Dict.lookup_set, if_neg hd] at hr
    obtain ⟨f, e1, -⟩ := d2 t rows hr
    exact ⟨((h3 t f).1 e1).1, f, ((h3 t f).1 e1).2⟩
  · apply Dict.keys_set_nodup
    rw [d1]
    exact h2

/-! ## the document -/

section
variable {E : Env α π} {T : Txt α} {J : JointInit π K} {s : System α π}

/-- what is saved -/
def docOf (E : Env α π) (T : Txt α) (s : System α π) (m : String) : Xml String :=
  .node "x_xy" [("model", m)]
    [.node "options" [("dt", T.fmt s.dt), ("gravity", strOfArr T (vecList s.gravity))] [],
      .node "worldbody" [] ((kidsOf s.link_parents (-1)).map (tree E T s s.link_parents.length))]

theorem save_eq (h : s.Consistent E) {m : String} (hm : s.model_name = some m) :
    save_sys_to_str E T s = .ok (docOf E T s m) := by
  have hx := C01_sizes_and_idx_map h.known h.types_len h.names_len
  unfold save_sys_to_str
  rw [hx.2.2.2.1, ok_bind, hx.2.2.2.2, ok_bind]
  have e : ((List.range s.link_parents.length).filter fun i => s.link_parents[i]? = some (-1)) =
      kidsOf s.link_parents (-1) := rfl
  rw [e, mapM_ok (g := tree E T s s.link_parents.length), ok_bind, hm]
  · rfl
  · intro c hc
    exact process_link_eq h hx.2.2.2.1 hx.2.2.2.2 _ 1 c (.link (mem_kidsOf.1 hc) .world) (by omega)

theorem setup_eq (m : String) : _initial_setup T (docOf E T s m) =
    .ok (convX T (docOf E T s m), .node "worldbody" [] (((kidsOf s.link_parents (-1)).map
      (tree E T s s.link_parents.length)).map (convX T))) := by
  unfold _initial_setup
  have hv : _assert_all_tags_attrs_valid (docOf E T s m) = .ok () := by
    unfold _assert_all_tags_attrs_valid
    have : ∀ l : List (String × Dict String), (∀ x ∈ l, checkElement x = .ok ()) →
        l.forM checkElement = .ok () := by
      intro l
      induction l with
      | nil => intro _; rfl
      | cons x l ih =>
        intro hl
        show (checkElement x >>= fun _ => l.forM checkElement) = _
        rw [hl x (by simp), ok_bind]
        exact ih fun y hy => hl y (by simp [hy])
    apply this
    intro x hx
    simp only [docOf, Xml.iter, Xml.iterList, List.mem_cons, List.append_nil, List.nil_append,
      List.cons_append, List.mem_append, List.not_mem_nil, or_false] at hx
    rcases hx with rfl | rfl | rfl | hx
    · exact checkElement_ok (valid := ["model"]) (by dsimp only; decide) (by simp [Dict.keys])
    · exact checkElement_ok (valid := ["gravity", "dt"]) (by dsimp only; decide)
        (by simp [Dict.keys])
    · exact checkElement_ok (valid := []) (by dsimp only; decide) (by simp [Dict.keys])
    · obtain ⟨c, hc, hx⟩ := mem_iterList.1 hx
      obtain ⟨j, -, rfl⟩ := List.mem_map.1 hc
      exact tree_valid _ _ x hx
  rw [hv, ok_bind]
  have hc : _convert_attrs_to_arrays T (docOf E T s m) = convX T (docOf E T s m) := rfl
  simp only [hc]
  have hd : ∀ t, defaultAttrib (convX T (docOf E T s m)) t = .ok [] := by
    intro t
    have : (convX T (docOf E T s m)).findall "defaults" = [] := by
      simp [docOf, convX, Xml.mapAttrib, Xml.mapAttribList, Xml.findall, Xml.children, Xml.tag]
    unfold defaultAttrib
    rw [_find_assert_unique]
    · rw [this]
      rfl
    · simp
  have hb : _build_defaults_attributes (convX T (docOf E T s m)) = .ok [("geom", []), ("body", [])] := by
    unfold _build_defaults_attributes
    rw [hd, hd]
    rfl
  have hw : _find_assert_unique (convX T (docOf E T s m)) ["worldbody"] =
      .ok (some (.node "worldbody" [] (((kidsOf s.link_parents (-1)).map
        (tree E T s s.link_parents.length)).map (convX T)))) := by
    rw [_find_assert_unique]
    have : (convX T (docOf E T s m)).findall "worldbody" = [.node "worldbody" []
        (((kidsOf s.link_parents (-1)).map (tree E T s s.link_parents.length)).map (convX T))] := by
      simp [docOf, convX, Xml.mapAttrib, Xml.mapAttribList, Xml.findall, Xml.children, Xml.tag,
        mapAttribList_eq, conv]
    rw [this]
  rw [hb, ok_bind, hw, ok_bind]
  simp only [mapAttrib_id _ mixIn_none]
  rfl

theorem options_eq (h : Savable E T s) (m : String) :
    getOptions (convX T (docOf E T s m)) = .ok (s.dt, s.gravity) := by
  unfold getOptions
  have hw : _find_assert_unique (convX T (docOf E T s m)) ["options"] =
      .ok (some (.node "options" (conv T [("dt", T.fmt s.dt),
        ("gravity", strOfArr T (vecList s.gravity))]) [])) := by
    rw [_find_assert_unique]
    have : (convX T (docOf E T s m)).findall "options" = [.node "options" (conv T [("dt", T.fmt s.dt),
        ("gravity", strOfArr T (vecList s.gravity))]) []] := by
      simp [docOf, convX, Xml.mapAttrib, Xml.mapAttribList, Xml.findall, Xml.children, Xml.tag]
    rw [this]
  rw [hw, ok_bind]
  simp only [Xml.attrib, lookup_conv, Dict.lookup_if, if_true, String.reduceEq, if_false,
    Option.map_some, toAVal_fmt h.dt, toAVal_vec h.gravity]
  rfl

/-! ## loading -/

/-- the system that is assembled from the bodies -/
def assembled (E : Env α π) (s : System α π) (l : List Nat) : System α π where
  link_parents := (l.map (lrec E s l)).map (·.parent)
  links := (l.map (lrec E s l)).map linkRow
  joint_params := []
  link_types := (l.map (lrec E s l)).map (·.typ)
  link_damping := ((l.map (lrec E s l)).map (·.damping)).flatten
  link_armature := ((l.map (lrec E s l)).map (·.armature)).flatten
  link_spring_stiffness := ((l.map (lrec E s l)).map (·.stiffness)).flatten
  link_spring_zeropoint := ((l.map (lrec E s l)).map (·.zeropoint)).flatten
  dt := s.dt
  geoms := ((l.map (lrec E s l)).map (·.geoms)).flatten
  gravity := s.gravity
  integration_method := "semi_implicit_euler"
  mass_mat_iters := 0
  link_names := (l.map (lrec E s l)).map (·.name)
  model_name := s.model_name
  omc := (l.map (lrec E s l)).map (·.omc)

/-- the system without what is not saved -/
def core (s : System α π) : System α π :=
  { s with
    links := s.links.map fun r => { r with transform2 := Transform.zero, transform := Transform.zero }
    joint_params := []
    geoms := s.geoms.filter fun g => 0 ≤ g.link_idx
    integration_method := "semi_implicit_euler"
    mass_mat_iters := 0 }

theorem concat_ok {L : List (List α)} (h : L ≠ []) : jnpConcatenate L = .ok L.flatten := by
  cases L with
  | nil => exact absurd rfl h
  | cons a l => rfl

theorem load_eq (h : Savable E T s) (hJ : J.Ok s.link_types) (key : K) {m : String}
    (hm : s.model_name = some m) (ht : IsText T m) {l : List Nat}
    (hmem : ∀ i, i ∈ l ↔ i < s.link_parents.length) (hl : l.Nodup)
    (hl2 : l = ((kidsOf s.link_parents (-1)).map (ord s.link_parents s.link_parents.length)).flatten) :
    ∃ jp, load_sys_from_str E T J key (docOf E T s m) =
        parse E { assembled E s l with joint_params := jp } ∧
      FreshParams J s.link_types s.link_parents.length jp ∧ (jp.map (·.1)).Nodup ∧
      ∀ x ∈ jp, x.2.length = s.link_parents.length := by
  have hlen : l.length = s.link_parents.length := by
    have : l.Perm (List.range s.link_parents.length) :=
      (List.perm_ext_iff_of_nodup hl List.nodup_range).2 fun i => by rw [hmem, List.mem_range]
    simpa using this.length_eq
  have hne : l ≠ [] := by
    rintro rfl
    exact h.nonempty (List.length_eq_zero_iff.1 hlen.symm)
  have htypes : ∀ t, t ∈ (assembled E s l).link_types ↔ t ∈ s.link_types := by
    have hc := h.wf.toConsistent
    intro t
    simp only [assembled, List.map_map, List.mem_map, Function.comp, lrec, typAt]
    constructor
    · rintro ⟨i, hi, rfl⟩
      have : i < s.link_types.length := hc.types_len ▸ (hmem i).1 hi
      rw [List.getD_eq_getElem _ _ this]
      exact List.getElem_mem this
    · intro ht
      obtain ⟨i, hi, rfl⟩ := List.getElem_of_mem ht
      exact ⟨i, (hmem i).2 (hc.types_len ▸ hi), List.getD_eq_getElem _ _ hi⟩
  obtain ⟨jp, j1, j2, j3, j4⟩ := init_params_ok (J := J) (s := assembled E s l)
    ⟨fun t ht => hJ.known t ((htypes t).1 ht), hJ.split⟩ key
  have hlp : (assembled E s l).link_parents.length = s.link_parents.length := by
    simp [assembled, hlen]
  refine ⟨jp, ?_, ⟨?_, ?_, ?_⟩, j3, fun x hx => (j4 x hx).trans hlp⟩
  · unfold load_sys_from_str
    rw [setup_eq, ok_bind, pyAssert_true (by rfl), ok_bind]
    have e1 : getModel (convX T (docOf E T s m)).attrib = .ok (some m) := by
      simp only [docOf, Xml.mapAttrib, Xml.attrib, getModel, lookup_conv, Dict.lookup_if, if_true,
        Option.map_some, toAVal_text ht]
    simp only [e1, ok_bind, options_eq h, Xml.children, process_bodies_eq h hl hl2]
    rw [pyAssert_true (p := _ = _), ok_bind]
    · have e2 : (List.map (fun j => ((l.idxOf j : Int), lrec E s l j)) l).map Prod.snd =
          l.map (lrec E s l) := by
        rw [List.map_map]; rfl
      have e3 : ∃ r, pyGet (l.map (lrec E s l)) 0 = .ok r := by
        cases l with
        | nil => exact absurd rfl hne
        | cons a l => exact ⟨_, rfl⟩
      obtain ⟨r, e3⟩ := e3
      have e4 : ∀ f : LinkRec α → List α, (l.map (lrec E s l)).map f ≠ [] := by
        intro f
        simpa using hne
      have e5 : _extract_geoms_from_body_xml E T (((kidsOf s.link_parents (-1)).map
          (tree E T s s.link_parents.length)).map (convX T)) (-1) = .ok [] := by
        unfold _extract_geoms_from_body_xml
        rw [filter_bodies _ (by decide)]
        · rfl
        · intro c hc
          simp only [List.map_map, List.mem_map] at hc
          obtain ⟨d, -, rfl⟩ := hc
          simp only [Function.comp, tag_mapAttrib, tree_tag]
      rw [e2, e3, ok_bind, concat_ok (e4 _), ok_bind, concat_ok (e4 _), ok_bind, concat_ok (e4 _),
        ok_bind, concat_ok (e4 _), ok_bind, e5, ok_bind, List.append_nil, ← hm]
      exact (congrArg (fun x => x >>= parse E) j1).trans (ok_bind _ _)
    · apply List.ext_getElem
      · simp
      · intro i h1 h2
        simp only [List.length_map] at h1
        simp only [List.getElem_map, List.getElem_range]
        rw [hl.idxOf_getElem]
        rfl
  · rw [← hlp]; exact j2.default
  · intro t ht hd f hf
    rw [← hlp]
    exact j2.drawn t ((htypes t).2 ht) hd f hf
  · intro t rows hd hr
    have := j2.others t rows hd hr
    exact ⟨(htypes t).1 this.1, this.2⟩

theorem sel_eq_map {β : Type} {l : List Nat} {xs : List β} (d : β) (h : ∀ i ∈ l, i < xs.length) :
    sel l xs = l.map fun i => xs.getD i d := by
  unfold sel
  rw [← List.filterMap_eq_map]
  apply List.filterMap_congr
  intro i hi
  simp [h i hi]

theorem selected_assembled (h : s.WF E) {l : List Nat}
    (hmem : ∀ i, i ∈ l ↔ i < s.link_parents.length) (hl : l.Nodup) :
    Selected E l (core s) (assembled E s l) := by
  have hlt : ∀ i ∈ l, i < s.link_parents.length := fun i hi => (hmem i).1 hi
  have htl : ∀ i ∈ l, i < s.link_types.length := fun i hi => h.types_len ▸ hlt i hi
  have hflat : ∀ (w : String → Option Nat) (xs : List α),
      (l.map fun i => ownSlice w s.link_types xs i).flatten =
        (sel l (chunks (s.link_types.map (wOf w)) xs)).flatten := by
    intro w xs
    congr 1
    unfold sel
    rw [← List.filterMap_eq_map]
    apply List.filterMap_congr
    intro i hi
    simp [System.ownSlice_eq w s.link_types xs i (htl i hi)]
  constructor
  · exact hlt
  · exact hl
  · intro i hi p hp
    have := h.topo i (hlt i hi)
    have hp' : s.link_parents[i]? = some (p : Int) := hp
    rw [List.getElem?_eq_getElem (hlt i hi)] at hp'
    have := Option.some.inj hp'
    have := hlt i hi
    rw [hmem]
    omega
  · simp only [assembled, core, List.map_map]
    rw [sel_eq_map "" fun i hi => h.names_len ▸ hlt i hi]
    rfl
  · simp only [assembled, core, List.map_map]
    rw [sel_eq_map "" htl]
    rfl
  · simp only [assembled, core, List.map_map]
    rw [sel_eq_map 0 hlt, List.map_map]
    apply List.map_congr_left
    intro i hi
    have := h.topo i (hlt i hi)
    simp only [Function.comp, lrec, renum, newIdx]
    rw [List.getD_eq_getElem _ _ (hlt i hi)]
    have hii := hlt i hi
    by_cases h0 : s.link_parents[i] = -1
    · rw [if_pos h0, if_pos (by omega)]
    · rw [if_neg h0, if_neg (by omega)]
  · simp only [assembled, core, List.map_map]
    rw [sel_eq_map none fun i hi => h.omc_len ▸ hlt i hi]
    rfl
  · simp [assembled]
  · intro j i r r' hj hr hr'
    simp only [core, List.getElem?_map] at hr
    simp only [assembled, List.map_map, List.getElem?_map, hj, Option.map_some, Function.comp] at hr'
    have hi : i < s.links.length := h.links_len ▸ hlt i (List.mem_of_getElem? hj)
    rw [List.getElem?_eq_getElem hi, Option.map_some] at hr
    rw [← Option.some.inj hr, ← Option.some.inj hr']
    simp [linkRow, lrec, rowAt, hi]
  · simp only [assembled, core, List.map_map]
    exact hflat E.dw s.link_damping
  · simp only [assembled, core, List.map_map]
    exact hflat E.dw s.link_armature
  · simp only [assembled, core, List.map_map]
    exact hflat E.dw s.link_spring_stiffness
  · simp only [assembled, core, List.map_map]
    exact hflat E.qw s.link_spring_zeropoint
  · intro typ i j _
    rfl
  · intro i j hj
    simp only [assembled, core, List.map_map, List.filter_flatten, List.filter_filter]
    obtain ⟨hjl, hji⟩ := List.getElem?_eq_some_iff.1 hj
    have hsplit : l = l.take j ++ i :: l.drop (j + 1) := by
      rw [← hji, List.getElem_cons_drop, List.take_append_drop]
    have hidx : ∀ x ∈ l, (l.idxOf x = j ↔ x = i) := by
      intro x hx
      have : l.idxOf i = j := by rw [← hji, hl.idxOf_getElem]
      rw [← this]
      exact List.idxOf_inj hx
    have hblock : ∀ x ∈ l, ((lrec E s l x).geoms.filter fun g => g.link_idx = (j : Int)) =
        if x = i then (lrec E s l x).geoms else [] := by
      intro x hx
      split
      · rename_i e
        rw [List.filter_eq_self]
        intro g hg
        obtain ⟨g', -, rfl⟩ := List.mem_map.1 hg
        have := (hidx x hx).2 e
        simp [this]
      · rename_i e
        rw [List.filter_eq_nil_iff]
        intro g hg
        obtain ⟨g', -, rfl⟩ := List.mem_map.1 hg
        have : ¬ l.idxOf x = j := fun e' => e ((hidx x hx).1 e')
        simpa using this
    have hmap : (l.map ((fun g : List (Geometry α) => g.filter fun g => g.link_idx = (j : Int)) ∘
        (fun r : LinkRec α => r.geoms) ∘ lrec E s l)).flatten = (lrec E s l i).geoms := by
      have e1 : l.map ((fun g : List (Geometry α) => g.filter fun g => g.link_idx = (j : Int)) ∘
          (fun r : LinkRec α => r.geoms) ∘ lrec E s l) =
          l.map fun x => if x = i then (lrec E s l x).geoms else [] := by
        apply List.map_congr_left
        intro x hx
        exact hblock x hx
      rw [e1]
      have hn := hl
      rw [hsplit, List.nodup_append] at hn
      have e2 : ∀ k : List Nat, (∀ x ∈ k, x ≠ i) →
          (k.map fun x => if x = i then (lrec E s l x).geoms else []).flatten = [] := by
        intro k hk
        rw [List.flatten_eq_nil_iff]
        intro y hy
        obtain ⟨x, hx, rfl⟩ := List.mem_map.1 hy
        rw [if_neg (hk x hx)]
      have e3 : (l.map fun x => if x = i then (lrec E s l x).geoms else []) =
          ((l.take j ++ i :: l.drop (j + 1)).map fun x =>
            if x = i then (lrec E s l x).geoms else []) := by rw [← hsplit]
      rw [e3, List.map_append, List.flatten_append, List.map_cons, List.flatten_cons, if_pos rfl, e2,
        e2]
      · simp
      · rintro x hx rfl
        exact (List.nodup_cons.1 hn.2.1).1 hx
      · intro x hx
        exact hn.2.2 x hx i (by simp)
    rw [hmap]
    simp only [lrec, List.map_map]
    rw [show (Geometry.data ∘ fun g : Geometry α => { g with link_idx := (l.idxOf i : Int) }) =
      Geometry.data from rfl]
    congr 1
    apply List.filter_congr
    intro g _
    by_cases hg : g.link_idx = (i : Int)
    · simp [hg]
    · simp [hg]

theorem core_wf (h : s.WF E) : (core s).WF E where
  types_len := h.types_len
  links_len := by simp [core, h.links_len]
  omc_len := h.omc_len
  names_len := h.names_len
  names_nodup := h.names_nodup
  pos_ok := by
    intro r hr
    obtain ⟨r', hr', rfl⟩ := List.mem_map.1 hr
    exact h.pos_ok r' hr'
  geoms_ok := fun g hg => h.geoms_ok g (List.mem_of_mem_filter hg)
  known := h.known
  damping_len := h.damping_len
  armature_len := h.armature_len
  stiffness_len := h.stiffness_len
  zeropoint_len := h.zeropoint_len
  unit_zero := h.unit_zero
  topo := h.topo
  jp_keys := by simp [core]
  jp_len := by simp [core]
  inertia_ok := by
    intro i hi
    have hi' : i < s.links.length := by simpa [core] using hi
    have e1 : (core s).links[i].inertia = s.links[i].inertia := by simp [core]
    rw [e1, h.inertia_ok i hi']
    apply inertia_of_data
    congr 1
    simp only [core, List.filter_filter]
    apply List.filter_congr
    intro g _
    by_cases hg : g.link_idx = (i : Int) <;> simp [hg]
  geoms_sorted := h.geoms_sorted.filter _

/-- Everything about the round trip. -/
theorem roundtrip_core (h : Savable E T s) (hJ : J.Ok s.link_types) (key : K) :
    ∃ (d : Xml String) (l : List Nat) (jp : List (String × List π)),
      save_sys_to_str E T s = .ok d ∧
      load_sys_from_str E T J key d =
        .ok { (assembled E s l).normalised E with joint_params := jp } ∧
      (∀ i, i ∈ l ↔ i < s.link_parents.length) ∧ l.Nodup ∧ l.Pairwise (Before s.link_parents) ∧
      ((assembled E s l).normalised E).WF E ∧ Selected E l (core s) (assembled E s l) ∧
      Selected E l (core s) ((assembled E s l).normalised E) ∧
      FreshParams J s.link_types s.link_parents.length jp ∧ (jp.map (·.1)).Nodup ∧
      ∀ x ∈ jp, x.2.length = s.link_parents.length := by
  obtain ⟨m, hm, ht⟩ := h.model
  have hwf := h.wf
  have hforest := Preorder.forest hwf.topo
  obtain ⟨l, h1, h2, h3, h4⟩ := search_ok s.link_parents
  have hmem : ∀ i, i ∈ l ↔ i < s.link_parents.length := fun i => by
    rw [h2]
    exact ⟨fun h => h.1, fun h => ⟨h, forest_iff.1 hforest i h⟩⟩
  have hl2 : l = ((kidsOf s.link_parents (-1)).map
      (ord s.link_parents s.link_parents.length)).flatten := by
    have := findChildsOf_ord (P := s.link_parents) s.link_parents.length 0 (-1) .world (by omega)
    rw [h1] at this
    exact Except.ok.inj this
  obtain ⟨jp, j1, j2, j3, j4⟩ := load_eq h hJ key hm ht hmem h4 hl2
  have hsel := selected_assembled (E := E) hwf hmem h4
  have hlen : (assembled E s l).link_parents.length = s.link_parents.length := by
    have : l.Perm (List.range s.link_parents.length) :=
      (List.perm_ext_iff_of_nodup h4 List.nodup_range).2 fun i => by rw [hmem, List.mem_range]
    have := this.length_eq
    simpa [assembled] using this
  have hcons : (assembled E s l).Consistent E := by
    apply selected_consistent (core_wf hwf).toConsistent hsel
    intro g hg
    rw [hlen]
    simp only [assembled, List.map_map, List.mem_flatten, List.mem_map, Function.comp] at hg
    obtain ⟨_, ⟨i, hi, rfl⟩, hg⟩ := hg
    obtain ⟨g', -, rfl⟩ := List.mem_map.1 hg
    have := List.idxOf_lt_length_of_mem hi
    have hll : l.length = s.link_parents.length := by rw [← hlen]; simp [assembled]
    simp only
    omega
  have hcons' : ({ assembled E s l with joint_params := jp } : System α π).Consistent E :=
    ⟨hcons.types_len, hcons.links_len, hcons.omc_len, hcons.names_len, hcons.names_nodup,
      hcons.pos_ok, hcons.geoms_ok, hcons.known, hcons.damping_len, hcons.armature_len,
      hcons.stiffness_len, hcons.zeropoint_len, hcons.unit_zero⟩
  have htopo : Topological (assembled E s l).link_parents := by
    have := (renumbered_of_search hforest hmem h3 h4).preorder.topo
    simpa [assembled, List.map_map, Function.comp_def, lrec] using this
  have hnorm := normalised_wf hcons htopo (by simp [assembled]) (by simp [assembled])
  refine ⟨docOf E T s m, l, jp, save_eq hwf.toConsistent hm, ?_, hmem, h4, h3, hnorm, hsel, ?_, j2, j3,
    j4⟩
  · rw [j1, parse_ok hcons']
    rfl
  · refine { hsel with links_len := ?_, links := ?_, geoms := ?_ }
    · rw [hnorm.links_len]
      exact hcons.links_len.symm.trans hsel.links_len
    · intro j i r r' hj hr hr'
      rw [normalised_links_getElem? E hcons.links_len] at hr'
      cases ha : (assembled E s l).links[j]? with
      | none => rw [ha] at hr'; cases hr'
      | some r0 =>
        rw [ha] at hr'
        rw [← Option.some.inj hr']
        exact hsel.links j i r r0 hj hr ha
    · intro i j hj
      rw [← hsel.geoms i j hj]
      simp only [normalised]
      rw [filter_mergeSort]

/-- C08: saving and loading gives the same mechanism, with the links in depth-first order.
Full statement: the same for every well-formed system. `Savable` leaves out systems that the code does
not keep: see the theorems `..._fails` below. -/
theorem C08_roundtrip_partial (h : Savable E T s) (hJ : J.Ok s.link_types) (key : K) :
    ∃ d s' perm, save_sys_to_str E T s = .ok d ∧ load_sys_from_str E T J key d = .ok s' ∧
      Reloaded E J s perm s' := by
  obtain ⟨d, l, jp, h1, h2, hmem, hnd, hpw, hwf, hsel0, hsel, j2, j3, j4⟩ := roundtrip_core h hJ key
  have hforest := Preorder.forest h.wf.topo
  have hren := renumbered_of_search hforest hmem hpw hnd
  have hpar : (assembled E s l).link_parents = l.map fun i => renum l (s.link_parents.getD i 0) := by
    simp [assembled, List.map_map, Function.comp_def, lrec]
  have hlen : (assembled E s l).link_parents.length = s.link_parents.length := by
    rw [hpar]; exact hren.len
  refine ⟨d, _, l, h1, h2, ?_, ?_, ?_, ?_, ?_, ?_, j2⟩
  · exact { hwf with
      jp_keys := j3
      jp_len := fun x hx => (j4 x hx).trans hlen.symm }
  · show Renumbered s.link_parents l (assembled E s l).link_parents
    rw [hpar]
    exact hren
  · intro j i hj
    show (assembled E s l).link_names[j]? = _
    rw [hsel0.names, sel_getElem? (fun i hi => h.wf.names_len ▸ hsel.lt i hi), hj]
    rfl
  · intro j i v hj hv
    have key := selected_viewAt (core_wf h.wf) hsel hwf hj
    have hi : i < s.link_parents.length := hsel.lt i (List.mem_of_getElem? hj)
    have hcore : (core s).viewAt E i = some { v with
        row := { v.row with transform2 := Transform.zero, transform := Transform.zero }
        joint_params := fun _ => none } := by
      have ht : i < s.link_types.length := h.wf.types_len ▸ hi
      have hr : i < s.links.length := h.wf.links_len ▸ hi
      have ho : i < s.omc.length := h.wf.omc_len ▸ hi
      have hg : (List.filter (fun g : Geometry α => g.link_idx = (i : Int))
          (s.geoms.filter fun g => 0 ≤ g.link_idx)) =
            s.geoms.filter fun g => g.link_idx = (i : Int) := by
        rw [List.filter_filter]
        apply List.filter_congr
        intro g _
        by_cases hg : g.link_idx = (i : Int) <;> simp [hg]
      unfold viewAt at hv ⊢
      simp only [core, List.getElem?_map, hg, List.getElem?_eq_getElem hi, List.getElem?_eq_getElem ht,
        List.getElem?_eq_getElem hr, List.getElem?_eq_getElem ho, Option.bind_eq_bind,
        Option.bind_some, Option.map_some, Option.pure_def, Option.some.injEq] at hv ⊢
      rw [← hv]
      rfl
    rw [hcore] at key
    refine ⟨{ v with
      row := { v.row with transform2 := Transform.zero, transform := Transform.zero }
      joint_params := fun typ => (jp.lookup typ).bind (·[j]?) }, ?_, rfl⟩
    have hset : ∀ (c : System α π) (w : LinkView α π), c.viewAt E j = some w →
        ({ c with joint_params := jp } : System α π).viewAt E j =
          some { w with joint_params := fun typ => (jp.lookup typ).bind (·[j]?) } := by
      intro c w hw
      unfold viewAt at hw ⊢
      simp only [Option.bind_eq_bind, Option.bind_eq_some_iff, Option.pure_def] at hw ⊢
      obtain ⟨p, hp, t, ht, row, hrow, o, ho, e⟩ := hw
      refine ⟨p, hp, t, ht, row, hrow, o, ho, ?_⟩
      rw [← Option.some.inj e]
      rfl
    exact hset _ _ key
  · have hperm := List.mergeSort_perm (assembled E s l).geoms fun g h =>
      decide (g.link_idx ≤ h.link_idx)
    unfold worldGeoms
    rw [List.map_eq_nil_iff, List.filter_eq_nil_iff]
    intro g hg
    have hg' : g ∈ (assembled E s l).geoms := hperm.mem_iff.1 hg
    simp only [assembled, List.map_map, List.mem_flatten, List.mem_map, Function.comp] at hg'
    obtain ⟨_, ⟨i, hi, rfl⟩, hg2⟩ := hg'
    obtain ⟨g', -, rfl⟩ := List.mem_map.1 hg2
    simp
  · rfl

theorem Reloaded.by_name {perm : List Nat} {s' : System α π} (h : s.WF E) (hr : Reloaded E J s perm s') :
    s'.link_names.Perm s.link_names ∧
      ∀ n v, s.view E n = some v → ∃ v', s'.view E n = some v' ∧
        v' = { v with
          row := { v.row with transform2 := Transform.zero, transform := Transform.zero }
          joint_params := v'.joint_params } := by
  have hp := hr.renumbered.bijection
  have hpl : perm.length = s.link_parents.length := by simpa using hp.length_eq
  have hnames : s'.link_names = perm.map fun i => s.link_names.getD i "" := by
    apply List.ext_getElem?
    intro j
    rw [List.getElem?_map]
    cases hj : perm[j]? with
    | none =>
      rw [List.getElem?_eq_none_iff] at hj
      rw [Option.map_none, List.getElem?_eq_none_iff, hr.wf.names_len, hr.renumbered.len, ← hpl]
      exact hj
    | some i =>
      rw [hr.names j i hj, Option.map_some]
      have : i < s.link_names.length := by
        rw [h.names_len]
        exact List.mem_range.1 (hp.mem_iff.1 (List.mem_of_getElem? hj))
      simp [this]
  refine ⟨?_, ?_⟩
  · rw [hnames]
    refine (hp.map _).trans ?_
    have : (List.range s.link_parents.length).map (fun i => s.link_names.getD i "") = s.link_names := by
      apply List.ext_getElem
      · simp [h.names_len]
      · intro i a b
        simp [b]
    rw [this]
  · intro n v hv
    unfold System.view at hv
    simp only [Option.bind_eq_bind, Option.bind_eq_some_iff] at hv
    obtain ⟨i, hi, hv⟩ := hv
    have hin : s.link_names[i]? = some n := by
      obtain ⟨hl, e, -⟩ := List.idxOf?_eq_some_iff.1 hi
      rw [List.getElem?_eq_getElem hl]
      exact congrArg some (by simpa using e)
    have hil : i < s.link_parents.length := by
      rw [← h.names_len]
      exact (List.getElem?_eq_some_iff.1 hin).1
    obtain ⟨j, hjl, hj⟩ := List.getElem_of_mem (hp.mem_iff.2 (List.mem_range.2 hil))
    have hj' : perm[j]? = some i := by rw [List.getElem?_eq_getElem hjl, hj]
    obtain ⟨v', e1, e2⟩ := hr.view j i v hj' hv
    refine ⟨v', ?_, e2⟩
    unfold System.view
    rw [idxOf?_eq_of_nodup hr.wf.names_nodup ((hr.names j i hj').trans hin)]
    exact e1

/-- C08: ... addressed by name -/
theorem C08_by_name_partial (h : Savable E T s) (hJ : J.Ok s.link_types) (key : K) :
    ∃ d s', save_sys_to_str E T s = .ok d ∧ load_sys_from_str E T J key d = .ok s' ∧
      s'.link_names.Perm s.link_names ∧
      ∀ n v, s.view E n = some v → ∃ v', s'.view E n = some v' ∧
        v' = { v with
          row := { v.row with transform2 := Transform.zero, transform := Transform.zero }
          joint_params := v'.joint_params } := by
  obtain ⟨d, s', perm, h1, h2, hr⟩ := C08_roundtrip_partial h hJ key
  exact ⟨d, s', h1, h2, hr.by_name h.wf⟩

omit [Field α] [DecidableEq α] in
theorem sorted_ext : ∀ {a b : List (Geometry α)}, a.Pairwise (fun g h => g.link_idx ≤ h.link_idx) →
    b.Pairwise (fun g h => g.link_idx ≤ h.link_idx) →
    (∀ k : Int, (a.filter fun g => g.link_idx = k) = b.filter fun g => g.link_idx = k) → a = b
  | [], [], _, _, _ => rfl
  | [], y :: b, _, _, h => by
    have := h y.link_idx
    simp at this
  | x :: a, [], _, _, h => by
    have := h x.link_idx
    simp at this
  | x :: a, y :: b, ha, hb, h => by
    rw [List.pairwise_cons] at ha hb
    have hx : x ∈ y :: b := by
      have : x ∈ (y :: b).filter fun g => g.link_idx = x.link_idx := by
        rw [← h]; simp
      exact List.mem_of_mem_filter this
    have hy : y ∈ x :: a := by
      have : y ∈ (x :: a).filter fun g => g.link_idx = y.link_idx := by
        rw [h]; simp
      exact List.mem_of_mem_filter this
    have h1 : y.link_idx ≤ x.link_idx := by
      rcases List.mem_cons.1 hx with rfl | hx
      · exact le_refl _
      · exact hb.1 x hx
    have h2 : x.link_idx ≤ y.link_idx := by
      rcases List.mem_cons.1 hy with rfl | hy
      · exact le_refl _
      · exact ha.1 y hy
    have hk : y.link_idx = x.link_idx := le_antisymm h1 h2
    have h3 := h x.link_idx
    simp only [List.filter_cons, decide_true, if_true, hk] at h3
    have hxy : x = y := (List.cons.inj h3).1
    subst hxy
    rw [sorted_ext ha.2 hb.2]
    intro k
    have := h k
    simp only [List.filter_cons] at this
    split at this
    · exact (List.cons.inj this).2
    · exact this

/-- C08: a system in depth-first order keeps its numbers: everything but the poses of a state, the joint
parameters, the geometries of the world and the integrator is as before. -/
theorem C08_identity_partial (h : Savable E T s) (hJ : J.Ok s.link_types)
    (hp : Preorder s.link_parents) (key : K) :
    ∃ d jp, save_sys_to_str E T s = .ok d ∧
      load_sys_from_str E T J key d = .ok { s with
        links := s.links.map fun r =>
          { r with transform2 := Transform.zero, transform := Transform.zero }
        joint_params := jp
        geoms := s.geoms.filter fun g => 0 ≤ g.link_idx
        integration_method := "semi_implicit_euler"
        mass_mat_iters := 0 } ∧
      FreshParams J s.link_types s.link_parents.length jp := by
  obtain ⟨d, l, jp, h1, h2, hmem, hnd, hpw, hwf, hsel0, hsel, j2, j3, j4⟩ := roundtrip_core h hJ key
  obtain rfl := preorder_search hp hmem hpw hnd
  refine ⟨d, jp, h1, ?_, j2⟩
  rw [h2]
  have hc := core_wf h.wf
  have hlen : ((assembled E s (List.range s.link_parents.length)).normalised E).link_parents.length =
      s.link_parents.length := by
    rw [hsel.parents, List.length_map, sel_length hsel.lt]
    simp
  have hflat : ∀ (w : String → Option Nat) (xs : List α),
      xs.length = (s.link_types.map (wOf w)).sum →
      (sel (List.range s.link_parents.length) (chunks (s.link_types.map (wOf w)) xs)).flatten = xs := by
    intro w xs hx
    have hcl : (chunks (s.link_types.map (wOf w)) xs).length = s.link_parents.length := by
      have := congrArg List.length (chunks_map_length _ _ hx)
      simpa [h.wf.types_len] using this
    rw [← hcl, sel_range]
    exact chunks_flatten _ _ hx
  have hid : ∀ {β : Type} (xs : List β), xs.length = s.link_parents.length →
      sel (List.range s.link_parents.length) xs = xs := by
    intro β xs hx
    rw [← hx, sel_range]
  have e1 := hsel.names.trans (hid _ h.wf.names_len)
  have e2 := hsel.types.trans (hid _ h.wf.types_len)
  have e3 := hsel.omc.trans (hid _ h.wf.omc_len)
  have e4 := hsel.damping.trans (hflat E.dw _ h.wf.damping_len)
  have e5 := hsel.armature.trans (hflat E.dw _ h.wf.armature_len)
  have e6 := hsel.stiffness.trans (hflat E.dw _ h.wf.stiffness_len)
  have e7 := hsel.zeropoint.trans (hflat E.qw _ h.wf.zeropoint_len)
  have e8 : ((assembled E s (List.range s.link_parents.length)).normalised E).link_parents =
      s.link_parents := by
    have hpc : (core s).link_parents = s.link_parents := rfl
    rw [hsel.parents, hpc, hid s.link_parents rfl]
    apply List.ext_getElem
    · simp
    · intro i a b
      have := h.wf.topo i b
      simp only [List.getElem_map, newIdx]
      by_cases h0 : s.link_parents[i] < 0
      · rw [if_pos h0]; omega
      · rw [if_neg h0]
        have hlt : s.link_parents[i].toNat < s.link_parents.length := by omega
        have hr : (List.range s.link_parents.length).idxOf s.link_parents[i].toNat =
            s.link_parents[i].toNat := by
          have := (List.nodup_range (n := s.link_parents.length)).idxOf_getElem
            s.link_parents[i].toNat (by simpa using hlt)
          simpa using this
        rw [hr]
        omega
  have hj : ∀ i < s.link_parents.length, (List.range s.link_parents.length)[i]? = some i := by
    intro i hi
    simp [hi]
  have e9 : ((assembled E s (List.range s.link_parents.length)).normalised E).geoms =
      s.geoms.filter fun g => 0 ≤ g.link_idx := by
    apply sorted_ext hwf.geoms_sorted (h.wf.geoms_sorted.filter _)
    intro k
    have hinj : ∀ {a b : List (Geometry α)}, (∀ g ∈ a, g.link_idx = k) → (∀ g ∈ b, g.link_idx = k) →
        a.map Geometry.data = b.map Geometry.data → a = b := by
      intro a
      induction a with
      | nil =>
        intro b _ _ e
        cases b with
        | nil => rfl
        | cons y b => simp at e
      | cons x a ih =>
        intro b ha hb e
        cases b with
        | nil => simp at e
        | cons y b =>
          simp only [List.map_cons, List.cons.injEq] at e
          rw [ih (fun g hg => ha g (by simp [hg])) (fun g hg => hb g (by simp [hg])) e.2]
          have hx := ha x (by simp)
          have hy := hb y (by simp)
          obtain ⟨m1, t1, i1, s1, c1, d1⟩ := x
          obtain ⟨m2, t2, i2, s2, c2, d2⟩ := y
          have := e.1
          simp only [Geometry.data, GeomData.mk.injEq] at this
          simp only at hx hy
          obtain ⟨r1, r2, r3, r4, r5⟩ := this
          subst r1 r2 r3 r4 r5 hx hy
          rfl
    apply hinj
    · intro g hg; simpa using (List.mem_filter.1 hg).2
    · intro g hg; simpa using (List.mem_filter.1 hg).2
    by_cases hk : 0 ≤ k ∧ k < s.link_parents.length
    · obtain ⟨i, rfl⟩ : ∃ i : Nat, k = i := ⟨k.toNat, by omega⟩
      exact hsel.geoms i i (hj i (by omega))
    · have ha : (((assembled E s (List.range s.link_parents.length)).normalised E).geoms.filter
          fun g => g.link_idx = k) = [] := by
        rw [List.filter_eq_nil_iff]
        intro g hg
        have hb := hwf.geoms_ok g hg
        rw [hlen] at hb
        have hg' := (List.mergeSort_perm _ _).mem_iff.1 hg
        simp only [assembled, List.map_map, List.mem_flatten, List.mem_map, Function.comp] at hg'
        obtain ⟨_, ⟨i, hi, rfl⟩, hg2⟩ := hg'
        obtain ⟨g', -, rfl⟩ := List.mem_map.1 hg2
        simp only [decide_eq_true_eq]
        simp only at hb
        omega
      have hb : ((s.geoms.filter fun g => 0 ≤ g.link_idx).filter fun g => g.link_idx = k) = [] := by
        rw [List.filter_eq_nil_iff]
        intro g hg
        have h1 := (List.mem_filter.1 hg).2
        have h2 := h.wf.geoms_ok g (List.mem_of_mem_filter hg)
        simp only [decide_eq_true_eq] at h1 ⊢
        omega
      rw [ha, hb]
  have e10 : ((assembled E s (List.range s.link_parents.length)).normalised E).links =
      s.links.map fun r => { r with transform2 := Transform.zero, transform := Transform.zero } := by
    apply List.ext_getElem
    · rw [hsel.links_len, List.length_map, h.wf.links_len]
      simp
    · intro i a b
      have hi : i < s.link_parents.length := by
        rw [← h.wf.links_len]
        simpa using b
      have e := hsel.links i i _ _ (hj i hi) (List.getElem?_eq_getElem (l := (core s).links) b)
        (List.getElem?_eq_getElem a)
      have i1 := hwf.inertia_ok i a
      have i2 := hc.inertia_ok i b
      have i3 := inertia_of_data E.pi (hsel.geoms i i (hj i hi))
      rw [i3, ← i2] at i1
      rw [← i1] at e
      exact e
  congr 1
  unfold normalised assembled at e1 e2 e3 e4 e5 e6 e7 e8 e9 e10 ⊢
  simp only at e1 e2 e3 e4 e5 e6 e7 e8 e9 e10 ⊢
  rw [e10, e1, e2, e3, e4, e5, e6, e7, e8, e9]
  rfl

/-! ## what is not kept -/

/-- C08 fails for systems without a model name (the default of `base.System`): they cannot be saved. -/
theorem C08_model_fails (h : s.Consistent E) (hm : s.model_name = none) :
    save_sys_to_str E T s = .error .type := by
  have hx := C01_sizes_and_idx_map h.known h.types_len h.names_len
  unfold save_sys_to_str
  rw [hx.2.2.2.1, ok_bind, hx.2.2.2.2, ok_bind]
  have e : ((List.range s.link_parents.length).filter fun i => s.link_parents[i]? = some (-1)) =
      kidsOf s.link_parents (-1) := rfl
  rw [e, mapM_ok (g := tree E T s s.link_parents.length), ok_bind, hm]
  intro c hc
  exact process_link_eq h hx.2.2.2.1 hx.2.2.2.2 _ 1 c (.link (mem_kidsOf.1 hc) .world) (by omega)

/-- C08 fails for `cor` joints: the saved body is refused. -/
theorem C08_cor_fails {i : Nat} (hc : typAt s i = "cor") (ht : IsText T "cor")
    (children : List (Xml (AVal α))) (p k : Int) :
    readBody E T (conv T (bodyDict E T s i)) children p k = .error .other := by
  have : getJoint (conv T (bodyDict E T s i)) = .error .other := by
    unfold getJoint pyDict
    rw [lookup_conv]
    simp only [bodyDict, dofToXml, lookup_setUnless, lookup_posMinMax, transToXml, Dict.lookup_set,
      String.reduceEq, false_and, if_false, if_true, Option.map_some, hc, toAVal_text ht, ok_bind]
  unfold readBody
  rw [this]
  rfl

/-- C08 fails for a box of positions that is a single point: it moves to the position of the link. -/
theorem C08_point_fails {i : Nat}
    (hp : (rowAt s i).pos_min = (rowAt s i).pos_max) (pos : Vec3 α) :
    posMinMaxFromXml (conv T (bodyDict E T s i)) pos = .ok (pos, pos) := by
  unfold posMinMaxFromXml
  rw [lookup_conv, lookup_conv]
  simp only [bodyDict, dofToXml, lookup_setUnless, lookup_posMinMax, transToXml, Dict.lookup_set,
      String.reduceEq, false_and, if_false, true_and, List.lookup_nil, hp, ne_eq, not_true_eq_false,
      Option.map_none]

/-- C08 fails for numeric names that are not integers: `"1.5"` becomes `"1"`. -/
theorem C08_name_fails {i : Nat} {x : α} {k : Int} (hs : ' ' ∉ (nameAt s i).toList)
    (hx : T.num (nameAt s i) = some x) (hk : T.toInt x = some k) :
    getName T (conv T (bodyDict E T s i)) = .ok (T.fmtInt k) := by
  unfold getName pyDict
  rw [lookup_conv]
  simp only [bodyDict, dofToXml, lookup_setUnless, lookup_posMinMax, transToXml, Dict.lookup_set,
    String.reduceEq, false_and, if_false, if_true, Option.map_some, ok_bind, toAVal_single hs hx, hk]
  rfl

/-- C08 fails for coordinate systems (`xyz`) with a transform, mass or colour: all of them are lost. -/
theorem C08_xyz_fails (hw : WordsOk T) {g : Geometry α} {d : α} (hg : g.shape = .xyz d)
    (hd : Printable T d ∧ E.ge 0 d = false) (j : Int) :
    geomFromXml E T j (conv T (geomToXml T g)) =
      .ok ⟨0, Transform.zero, j, .xyz d, none, none⟩ := by
  unfold geomFromXml geomToXml
  simp only [hg]
  have ht : pyDict (conv T (setUnless (Dict.set [] "type" "xyz") "dim" d 1 (T.fmt d))) "type" =
      .ok (.str "xyz") := by
    unfold pyDict
    rw [lookup_conv, lookup_setUnless, if_neg (by simp), Dict.lookup_set, if_pos rfl,
      Option.map_some, toAVal_text hw.2.2.2.2]
  rw [ht, ok_bind]
  simp only [xyzFromXml]
  have hs : getSize (conv T (setUnless (Dict.set [] "type" "xyz") "dim" d 1 (T.fmt d))) = .ok d := by
    unfold getSize
    rw [lookup_conv, lookup_setUnless, Dict.lookup_set, if_neg (show ¬ ("dim" = "type") by decide)]
    by_cases h1 : d = 1
    · simp [h1]
    · simp [h1, toAVal_fmt hd.1, AVal.float]
  rw [hs, ok_bind, pyAssert_true hd.2]
  rfl

end

/-! ## an example -/

/-- nonnegative numbers are written as tallies: `1`, `11`, `111`, ... -/
def tally (x : ℚ) : String := String.ofList (List.replicate (Encodable.encode x + 1) '1')

def untally (w : List Char) : Option ℚ :=
  if w ≠ [] ∧ (∀ c ∈ w, c = '1') then Encodable.decode (w.length - 1) else none

/-- negative numbers have a sign -/
def signed (x : ℚ) : String := if x < 0 then "-" ++ tally (-x) else tally x

/-- tallies for all rational numbers -/
def tallyTxt : Txt ℚ where
  fmt := signed
  num w := if w.toList.head? = some '-' then (untally w.toList.tail).map (fun x => -x) else untally w.toList
  fmtInt k := signed k
  toInt x := if x.den = 1 then some x.num else none
  euler _ := ⟨1, 0, 0, 0⟩

theorem untally_tally (x : ℚ) : untally (tally x).toList = some x := by
  unfold untally
  rw [if_pos]
  · simp [tally, Encodable.encodek]
  · constructor
    · simp [tally]
    · intro c hc
      simp only [tally, String.toList_ofList] at hc
      exact List.eq_of_mem_replicate hc

theorem tally_head (x : ℚ) : (tally x).toList.head? ≠ some '-' := by
  simp [tally, List.replicate_succ]

theorem tally_neg (x : ℚ) : tallyTxt.num ("-" ++ tally x) = some (-x) := by
  show (if _ then _ else _) = _
  rw [if_pos (by simp [String.toList_append])]
  rw [show ("-" ++ tally x).toList.tail = (tally x).toList by simp [String.toList_append], untally_tally]
  rfl

theorem tally_printable (x : ℚ) : Printable tallyTxt x := by
  have hsp : ∀ y, ' ' ∉ (tally y).toList := by
    intro y h
    simp only [tally, String.toList_ofList] at h
    exact absurd (List.eq_of_mem_replicate h) (by decide)
  show tallyTxt.num (signed x) = some x ∧ ' ' ∉ (signed x).toList
  unfold signed
  split
  · rw [tally_neg]
    refine ⟨by simp, ?_⟩
    simp [String.toList_append, hsp]
  · refine ⟨?_, hsp x⟩
    show (if _ then _ else _) = _
    rw [if_neg (tally_head x), untally_tally]

theorem tally_text {s : String} (h : splitSp s.toList = [s.toList])
    (h2 : ∃ c ∈ s.toList, c ≠ '1' ∧ c ≠ '-') : IsText tallyTxt s := by
  unfold IsText pySplit
  rw [h]
  obtain ⟨c, hc, hne, hne'⟩ := h2
  have : tallyTxt.num s = none := by
    show (if _ then _ else _) = _
    split
    · rename_i hd
      have : c ∈ s.toList.tail := by
        cases e : s.toList with
        | nil => rw [e] at hc; cases hc
        | cons a l =>
          rw [e] at hc hd
          rcases List.mem_cons.1 hc with rfl | h
          · exact absurd (Option.some.inj hd) hne'
          · exact h
      unfold untally
      rw [if_neg (fun h => hne (h.2 c this))]
      rfl
    · unfold untally
      rw [if_neg (fun h => hne (h.2 c hc))]
  simp [this]

/-- free, hinge about x, frozen, spherical and sliding joints -/
def xmlEnv : Env ℚ Unit where
  qw t := if t = "free" then some 7 else if t = "rx" then some 1 else if t = "frozen" then some 0
    else if t = "spherical" then some 4 else if t = "p3d" then some 3 else none
  dw t := if t = "free" then some 6 else if t = "rx" then some 1 else if t = "frozen" then some 0
    else if t = "spherical" then some 3 else if t = "p3d" then some 3 else none
  pi := 22 / 7
  ge x y := decide (x ≥ y)
  unit4 l := decide ((l.map fun x => x * x).sum = 1)
  nanLike x := x

/-- Four links with the given parents. -/
def xmlRaw (ps : List Int) : System ℚ Unit where
  link_parents := ps
  links := [
    ⟨⟨⟨1, 2, 3⟩, ⟨0, 1, 0, 0⟩⟩, ⟨1, 2, 3⟩, ⟨1, 2, 3⟩, Inertia.zero, Transform.zero, Transform.zero⟩,
    ⟨Transform.zero, ⟨-1, 0, 0⟩, ⟨1, 0, 1 / 2⟩, Inertia.zero, ⟨⟨1, 1, 1⟩, ⟨1, 0, 0, 0⟩⟩, Transform.zero⟩,
    ⟨⟨⟨0, 1, 0⟩, ⟨1, 0, 0, 0⟩⟩, ⟨0, 1, 0⟩, ⟨0, 1, 0⟩, Inertia.zero, Transform.zero, Transform.zero⟩,
    ⟨⟨⟨0, 0, 0⟩, ⟨1, 0, 0, 0⟩⟩, ⟨0, 0, 0⟩, ⟨0, 0, 0⟩, Inertia.zero, Transform.zero, Transform.zero⟩]
  joint_params := []
  link_types := ["free", "rx", "rx", "frozen"]
  link_damping := [1, 1, 1, 1, 1, 1, 0, 3]
  link_armature := [0, 0, 0, 0, 0, 0, 1 / 2, 0]
  link_spring_stiffness := [0, 0, 0, 0, 0, 0, 0, 5]
  link_spring_zeropoint := [1, 0, 0, 0, 0, 0, 0, 2, 0]
  dt := 1 / 100
  geoms := [
    ⟨1, Transform.zero, -1, .box 1 1 1, none, none⟩,
    ⟨0, Transform.zero, 0, .xyz 2, none, none⟩,
    ⟨7, ⟨⟨0, 0, 1⟩, ⟨1, 0, 0, 0⟩⟩, 2, .capsule 1 2, some "blue", none⟩,
    ⟨1 / 3, Transform.zero, 3, .box 1 2 3, none, some "red"⟩]
  gravity := ⟨0, 0, 981 / 100⟩
  integration_method := "other"
  mass_mat_iters := 3
  link_names := ["a", "b", "c", "imu"]
  model_name := some "robot"
  omc := [none, some ⟨"seg1", 4, ⟨0, 0, 1⟩⟩, none, none]

theorem xmlRaw_consistent {ps : List Int} (hps : ps.length = 4) :
    (xmlRaw ps).Consistent xmlEnv where
  types_len := hps.symm
  links_len := hps.symm
  omc_len := hps.symm
  names_len := hps.symm
  names_nodup := by simp [xmlRaw]
  pos_ok := by
    intro r hr
    simp only [xmlRaw, List.mem_cons, List.not_mem_nil, or_false] at hr
    rcases hr with rfl | rfl | rfl | rfl <;> simp [xmlEnv]
  geoms_ok := by
    intro g hg
    simp only [xmlRaw, List.mem_cons, List.not_mem_nil, or_false] at hg
    rcases hg with rfl | rfl | rfl | rfl <;> simp [xmlRaw, hps]
  known := by
    intro t ht
    simp only [xmlRaw, List.mem_cons, List.not_mem_nil, or_false] at ht
    rcases ht with rfl | rfl | rfl | rfl <;> decide
  damping_len := by simp [xmlRaw, xmlEnv, wOf]
  armature_len := by simp [xmlRaw, xmlEnv, wOf]
  stiffness_len := by simp [xmlRaw, xmlEnv, wOf]
  zeropoint_len := by simp [xmlRaw, xmlEnv, wOf]
  unit_zero := by
    intro i hi
    simp only [xmlRaw] at hi
    have hi : i < 4 := hi
    interval_cases i
    · intro _
      simp [xmlEnv, xmlRaw, ownSlice, wOf]
    · intro h; exact absurd h (by show ¬ joint_type_is_free_or_cor_or_spherical "rx" = true; decide)
    · intro h; exact absurd h (by show ¬ joint_type_is_free_or_cor_or_spherical "rx" = true; decide)
    · intro h; exact absurd h (by show ¬ joint_type_is_free_or_cor_or_spherical "frozen" = true; decide)

def xmlSys (ps : List Int) : System ℚ Unit := (xmlRaw ps).normalised xmlEnv

theorem xmlSys_wf {ps : List Int} (hps : ps.length = 4) (ht : Topological ps) :
    (xmlSys ps).WF xmlEnv :=
  normalised_wf (xmlRaw_consistent hps) ht (by simp [xmlRaw]) (by simp [xmlRaw])

theorem xmlSys_savable {ps : List Int} (hps : ps.length = 4) (ht : Topological ps) :
    Savable xmlEnv tallyTxt (xmlSys ps) where
  wf := xmlSys_wf hps ht
  nonempty := by
    intro h
    have : ps = [] := h
    simp [this] at hps
  words := ⟨tally_text (by decide) (by decide), tally_text (by decide) (by decide),
    tally_text (by decide) (by decide), tally_text (by decide) (by decide),
    tally_text (by decide) (by decide)⟩
  model := ⟨"robot", rfl, tally_text (by decide) (by decide)⟩
  names := by
    intro n hn
    have hn : n ∈ ["a", "b", "c", "imu"] := hn
    simp only [List.mem_cons, List.not_mem_nil, or_false] at hn
    rcases hn with rfl | rfl | rfl | rfl <;>
      exact Or.inl (tally_text (by decide) (by decide))
  types := by
    intro n hn
    have hn : n ∈ ["free", "rx", "rx", "frozen"] := hn
    simp only [List.mem_cons, List.not_mem_nil, or_false] at hn
    rcases hn with rfl | rfl | rfl | rfl <;>
      exact ⟨tally_text (by decide) (by decide), by decide⟩
  dt := tally_printable _
  gravity := ⟨tally_printable _, tally_printable _, tally_printable _⟩
  rows := by
    have hp : ∀ r ∈ (xmlSys ps).links, r.pos_min = r.pos_max → r.pos_min = r.transform1.pos := by
      intro r hr
      obtain ⟨i, hi, rfl⟩ := List.getElem_of_mem hr
      have := normalised_links_getElem? xmlEnv (xmlRaw_consistent hps).links_len i
      have hi4 : i < 4 := by
        have : (xmlSys ps).links.length = 4 := (xmlSys_wf hps ht).links_len.trans hps
        omega
      have e : (xmlSys ps).links[i]? = some (xmlSys ps).links[i] := List.getElem?_eq_getElem hi
      rw [show (xmlSys ps).links[i]? = ((xmlRaw ps).normalised xmlEnv).links[i]? from rfl, this] at e
      have hil : i < (xmlRaw ps).links.length := hi4
      rw [List.getElem?_eq_getElem hil, Option.map_some] at e
      have e' := (Option.some.inj e).symm
      generalize (xmlSys ps).links[i] = r at e'
      subst e'
      interval_cases i <;> simp [xmlRaw]
    intro r hr
    exact ⟨⟨⟨tally_printable _, tally_printable _, tally_printable _⟩, tally_printable _,
      tally_printable _, tally_printable _, tally_printable _⟩,
      ⟨tally_printable _, tally_printable _, tally_printable _⟩,
      ⟨tally_printable _, tally_printable _, tally_printable _⟩, hp r hr⟩
  damping := fun _ _ => tally_printable _
  armature := fun _ _ => tally_printable _
  stiffness := fun _ _ => tally_printable _
  zeropoint := fun _ _ => tally_printable _
  geoms := by
    intro g hg h0
    have hg : g ∈ (xmlRaw ps).geoms := (List.mergeSort_perm _ _).mem_iff.1 hg
    have ht : PrintableTransform tallyTxt g.transform :=
      ⟨⟨tally_printable _, tally_printable _, tally_printable _⟩, tally_printable _,
        tally_printable _, tally_printable _, tally_printable _⟩
    have hb : ReadsColor tallyTxt "blue" := Or.inl (tally_text (by decide) (by decide))
    have hr : ReadsColor tallyTxt "red" := Or.inl (tally_text (by decide) (by decide))
    have hd : (∀ x ∈ dimsOf g.shape, xmlEnv.ge 0 x = false) ∧ (∀ d, g.shape = .xyz d → g.mass = 0 ∧
        g.transform = Transform.zero ∧ g.color = none ∧ g.edge_color = none) ∧
        (∀ c, g.color = some c → ReadsColor tallyTxt c) ∧
        (∀ c, g.edge_color = some c → ReadsColor tallyTxt c) := by
      simp only [xmlRaw, List.mem_cons, List.not_mem_nil, or_false] at hg
      rcases hg with rfl | rfl | rfl | rfl <;>
        simp [dimsOf, xmlEnv, hb, hr]
    exact ⟨fun x hx => ⟨tally_printable _, hd.1 x hx⟩, hd.2.1, tally_printable _, ht, hd.2.2.1,
      hd.2.2.2⟩
  omc := by
    intro o ho
    have ho : some o ∈ [none, some ⟨"seg1", 4, ⟨0, 0, 1⟩⟩, none, none] := ho
    simp only [List.mem_cons, List.not_mem_nil, or_false, reduceCtorEq, false_or, Option.some.injEq]
      at ho
    subst ho
    exact ⟨tally_text (by decide) (by decide),
      ⟨tally_printable _, tally_printable _, tally_printable _⟩, (tally_printable _).2, 4,
      (tally_printable _).1, by decide⟩

/-- only hinges have parameters -/
def xmlInit : JointInit Unit Nat where
  init t := if t = "rx" then some (some fun _ => ()) else some none
  split k n := List.replicate n (k + 1)
  default := ()

theorem xmlInit_ok {ps : List Int} : xmlInit.Ok (xmlSys ps).link_types :=
  ⟨fun t _ => by unfold xmlInit; simp only; split <;> simp, fun _ _ => by simp [xmlInit]⟩

/-- not in depth-first order: `c` is below `a`, but `b` has a number between them -/
theorem xmlParents : Topological [-1, -1, 0, 1] := by
  intro i hi
  have : i = 0 ∨ i = 1 ∨ i = 2 ∨ i = 3 := by simp at hi; omega
  rcases this with rfl | rfl | rfl | rfl <;> simp

example : ∃ d s' perm, save_sys_to_str xmlEnv tallyTxt (xmlSys [-1, -1, 0, 1]) = .ok d ∧
    load_sys_from_str xmlEnv tallyTxt xmlInit 0 d = .ok s' ∧
    Reloaded xmlEnv xmlInit (xmlSys [-1, -1, 0, 1]) perm s' :=
  C08_roundtrip_partial (xmlSys_savable rfl xmlParents) xmlInit_ok 0

example : ∃ d jp, save_sys_to_str xmlEnv tallyTxt (xmlSys [-1, 0, 1, 0]) = .ok d ∧
    load_sys_from_str xmlEnv tallyTxt xmlInit 0 d = .ok { xmlSys [-1, 0, 1, 0] with
      links := (xmlSys [-1, 0, 1, 0]).links.map fun r =>
        { r with transform2 := Transform.zero, transform := Transform.zero }
      joint_params := jp
      geoms := (xmlSys [-1, 0, 1, 0]).geoms.filter fun g => 0 ≤ g.link_idx
      integration_method := "semi_implicit_euler"
      mass_mat_iters := 0 } ∧
    FreshParams xmlInit (xmlSys [-1, 0, 1, 0]).link_types 4 jp :=
  C08_identity_partial (xmlSys_savable rfl kinPreorder.topo) xmlInit_ok kinPreorder 0

example : save_sys_to_str xmlEnv tallyTxt { xmlRaw [-1, -1, 0, 1] with model_name := none } =
    .error .type :=
  C08_model_fails (by
    have h := xmlRaw_consistent (ps := [-1, -1, 0, 1]) rfl
    exact ⟨h.types_len, h.links_len, h.omc_len, h.names_len, h.names_nodup, h.pos_ok, h.geoms_ok,
      h.known, h.damping_len, h.armature_len, h.stiffness_len, h.zeropoint_len, h.unit_zero⟩) rfl

end io
end RingLib
