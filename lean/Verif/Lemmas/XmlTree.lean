import Verif.Lemmas.XmlBody
import Verif.Props.Morph

/-! Bodies and the tree of bodies are read as they were written. -/

namespace RingLib
namespace io
open System morph
variable {α π K V W : Type} [Field α] [DecidableEq α]

/-! ## specification -/

/-- a link name: not numeric, or an integer as the library writes it -/
def ReadsName (T : Txt α) (n : String) : Prop :=
  IsText T n ∨ (' ' ∉ n.toList ∧ ∃ x k, T.num n = some x ∧ T.toInt x = some k ∧ T.fmtInt k = n)

/-- The link is kept by saving and loading; a box of positions of a single point must be the position
of the link. -/
structure RowSavable (T : Txt α) (r : LinkRow α) : Prop where
  transform1 : PrintableTransform T r.transform1
  pos_min : PrintableVec T r.pos_min
  pos_max : PrintableVec T r.pos_max
  point : r.pos_min = r.pos_max → r.pos_min = r.transform1.pos

/-- What is needed of a system for saving and loading. -/
structure Savable (E : Env α π) (T : Txt α) (s : System α π) : Prop where
  wf : s.WF E
  nonempty : s.link_parents ≠ []
  words : WordsOk T
  model : ∃ m, s.model_name = some m ∧ IsText T m
  names : ∀ n ∈ s.link_names, ReadsName T n
  types : ∀ t ∈ s.link_types, IsText T t ∧ t ≠ "cor"
  dt : Printable T s.dt
  gravity : PrintableVec T s.gravity
  rows : ∀ r ∈ s.links, RowSavable T r
  damping : ∀ x ∈ s.link_damping, Printable T x
  armature : ∀ x ∈ s.link_armature, Printable T x
  stiffness : ∀ x ∈ s.link_spring_stiffness, Printable T x
  zeropoint : ∀ x ∈ s.link_spring_zeropoint, Printable T x
  geoms : ∀ g ∈ s.geoms, 0 ≤ g.link_idx → GeomSavable E T g
  omc : ∀ o, some o ∈ s.omc → OmcSavable T o

/-! ## the attributes of a body -/

/-- a row for links that do not exist -/
def noRow : LinkRow α :=
  ⟨Transform.zero, ⟨0, 0, 0⟩, ⟨0, 0, 0⟩, Inertia.zero, Transform.zero, Transform.zero⟩

def typAt (s : System α π) (i : Nat) : String := s.link_types.getD i ""
def nameAt (s : System α π) (i : Nat) : String := s.link_names.getD i ""
def rowAt (s : System α π) (i : Nat) : LinkRow α := s.links.getD i noRow

def bodyDict (E : Env α π) (T : Txt α) (s : System α π) (i : Nat) : Dict String :=
  dofToXml T (posMinMaxToXml T (transToXml T ((Dict.set [] "joint" (typAt s i)).set "name" (nameAt s i))
    (rowAt s i).transform1) (rowAt s i).pos_min (rowAt s i).pos_max)
    (ownSlice E.dw s.link_types s.link_damping i) (ownSlice E.dw s.link_types s.link_armature i)
    (ownSlice E.dw s.link_types s.link_spring_stiffness i)
    (ownSlice E.qw s.link_types s.link_spring_zeropoint i)
    (wOf E.qw (typAt s i)) (wOf E.dw (typAt s i)) (typAt s i)

section
variable {E : Env α π} {T : Txt α} {s : System α π}

theorem slicedBy_eq {w : String → Option Nat} (hn : s.link_names.Nodup) {i : Nat}
    (hi : i < s.link_types.length) (hi' : i < s.link_names.length) (xs : List α) :
    slicedBy ((s.link_names.zipIdx).map fun x => (x.1, Idx.slice ((s.link_types.take x.2).map (wOf w)).sum
        ((s.link_types.take (x.2 + 1)).map (wOf w)).sum)) (nameAt s i) xs =
      .ok (ownSlice w s.link_types xs i) := by
  unfold slicedBy pyDict
  have : List.lookup (nameAt s i) ((s.link_names.zipIdx).map fun x =>
      (x.1, Idx.slice ((s.link_types.take x.2).map (wOf w)).sum
        ((s.link_types.take (x.2 + 1)).map (wOf w)).sum)) =
      some (Idx.slice ((s.link_types.take i).map (wOf w)).sum
        ((s.link_types.take (i + 1)).map (wOf w)).sum) := by
    apply Dict.lookup_of_mem
    · unfold Dict.keys
      rw [List.map_map]
      have : (Prod.fst ∘ fun x : String × Nat => (x.1, Idx.slice
        ((s.link_types.take x.2).map (wOf w)).sum
        ((s.link_types.take (x.2 + 1)).map (wOf w)).sum)) = Prod.fst := rfl
      rw [this, List.zipIdx_map_fst]
      exact hn
    · rw [List.mem_map]
      refine ⟨(nameAt s i, i), ?_, rfl⟩
      rw [List.mem_zipIdx_iff_getElem?]
      simp [nameAt, hi']
  rw [this]
  simp only [ok_bind, pure_ok, pySlice, ownSlice]
  congr 1
  rw [List.take_add_one, List.map_append, List.sum_append, List.drop_take]
  simp [hi]

theorem bodyAttrib_eq (h : s.Consistent E) {i : Nat} (hi : i < s.link_parents.length) :
    ∃ qmap dmap, s.idx_map E .q = .ok qmap ∧ s.idx_map E .d = .ok dmap ∧
      bodyAttrib E T s qmap dmap i = .ok (bodyDict E T s i) := by
  have hm := C01_sizes_and_idx_map h.known h.types_len h.names_len
  refine ⟨_, _, hm.2.2.2.1, hm.2.2.2.2, ?_⟩
  have ht : i < s.link_types.length := h.types_len ▸ hi
  have hn : i < s.link_names.length := h.names_len ▸ hi
  have hr : i < s.links.length := h.links_len ▸ hi
  have hk := h.known (typAt s i) (by
    unfold typAt
    rw [List.getD_eq_getElem _ _ ht]
    exact List.getElem_mem ht)
  unfold bodyAttrib
  rw [pyGet_nat (x := rowAt s i) (by simp [rowAt, hr]), ok_bind,
    pyGet_nat (x := typAt s i) (by simp [typAt, ht]), ok_bind,
    pyGet_nat (x := nameAt s i) (by simp [nameAt, hn]), ok_bind]
  simp only [slicedBy_eq h.names_nodup ht hn, ok_bind, width_known hk.1, width_known hk.2]
  rfl

theorem lookup_posMinMax (d : Dict String) (a b : Vec3 α) (k : String) :
    List.lookup k (posMinMaxToXml T d a b) =
      if k = "pos_max" ∧ a ≠ b then some (strOfArr T (vecList b))
      else if k = "pos_min" ∧ a ≠ b then some (strOfArr T (vecList a)) else List.lookup k d := by
  unfold posMinMaxToXml
  by_cases h : a = b
  · simp [h]
  · simp [h, Dict.lookup_set]

theorem getDof_eq {d : Dict String} {key : String} {x dflt : List α} (hl : x.length = dflt.length)
    (hx : ∀ y ∈ x, Printable T y)
    (h : List.lookup key d = if x ≠ dflt then some (strOfArr T x) else none) :
    getDof (conv T d) key dflt = .ok x := by
  unfold getDof
  rw [lookup_conv, h]
  by_cases h0 : x = dflt
  · simp [h0]
  · have hne : x ≠ [] := by
      rintro rfl
      exact h0 (List.length_eq_zero_iff.1 hl.symm).symm
    simp only [ne_eq, h0, not_false_eq_true, if_true, Option.map_some, toAVal_strOfArr hne hx]
    match x, hne with
    | [a], _ => rfl
    | a :: b :: l, _ => rfl

theorem mem_ownSlice {β : Type} {w : String → Option Nat} {types : List String} {xs : List β} {i : Nat}
    {x : β} (h : x ∈ ownSlice w types xs i) : x ∈ xs :=
  List.mem_of_mem_drop (List.mem_of_mem_take h)

/-! ## the parts of a body -/

/-- the elements of the geometries and of the marker -/
def partsOf (T : Txt α) (s : System α π) (i : Nat) : List (Xml String) :=
  ((s.geoms.filter fun g => g.link_idx = (i : Int)).map fun g => Xml.node "geom" (geomToXml T g) []) ++
    ((s.omc.getD i none).toList.map fun o => Xml.node "omc" (omcToXml T o) [])

theorem bodyParts_eq (h : s.Consistent E) {i : Nat} (hi : i < s.link_parents.length) :
    bodyParts T s i = .ok (partsOf T s i) := by
  have ho : i < s.omc.length := h.omc_len ▸ hi
  unfold bodyParts
  rw [pyGet_nat (x := s.omc.getD i none) (by simp [ho]), ok_bind]
  rfl

theorem mapAttribList_eq (f : String → Dict V → Dict W) (l : List (Xml V)) :
    Xml.mapAttribList f l = l.map (Xml.mapAttrib f) := by
  induction l with
  | nil => rfl
  | cons x l ih => simp [Xml.mapAttribList, ih]

theorem tag_mapAttrib (f : String → Dict V → Dict W) (x : Xml V) :
    (x.mapAttrib f).tag = x.tag := by
  cases x
  rfl

/-- the converted element -/
abbrev convX (T : Txt α) (x : Xml String) : Xml (AVal α) := x.mapAttrib fun _ a => conv T a

/-- what is read of link `i` when the links are numbered as in `l` -/
def lrec (E : Env α π) (s : System α π) (l : List Nat) (i : Nat) : LinkRec α where
  parent := renum l (s.link_parents.getD i 0)
  name := nameAt s i
  typ := typAt s i
  transform := (rowAt s i).transform1
  pos_min := (rowAt s i).pos_min
  pos_max := (rowAt s i).pos_max
  omc := s.omc.getD i none
  damping := ownSlice E.dw s.link_types s.link_damping i
  armature := ownSlice E.dw s.link_types s.link_armature i
  stiffness := ownSlice E.dw s.link_types s.link_spring_stiffness i
  zeropoint := ownSlice E.qw s.link_types s.link_spring_zeropoint i
  geoms := (s.geoms.filter fun g => g.link_idx = (i : Int)).map fun g =>
    { g with link_idx := (l.idxOf i : Int) }

theorem filter_bodies {kids : List (Xml (AVal α))} (hk : ∀ c ∈ kids, c.tag = "body") {t : String}
    (ht : t ≠ "body") : (kids.filter fun c => c.tag = t) = [] := by
  rw [List.filter_eq_nil_iff]
  intro c hc
  rw [hk c hc]
  simpa using ht.symm

theorem readBody_eq (h : Savable E T s) {i : Nat} (hi : i < s.link_parents.length)
    {kids : List (Xml (AVal α))} (hk : ∀ c ∈ kids, c.tag = "body") (l : List Nat) :
    readBody E T (conv T (bodyDict E T s i)) ((partsOf T s i).map (convX T) ++ kids)
      (renum l (s.link_parents.getD i 0)) (l.idxOf i : Int) = .ok (lrec E s l i) := by
  have hc := h.wf.toConsistent
  have ht : i < s.link_types.length := hc.types_len ▸ hi
  have hn : i < s.link_names.length := hc.names_len ▸ hi
  have hr : i < s.links.length := hc.links_len ▸ hi
  have ho : i < s.omc.length := hc.omc_len ▸ hi
  have etyp : typAt s i = s.link_types[i] := by simp [typAt, ht]
  have ht2 := h.types (typAt s i) (by rw [etyp]; exact List.getElem_mem ht)
  have hn2 := h.names (nameAt s i) (by
    unfold nameAt
    rw [List.getD_eq_getElem _ _ hn]
    exact List.getElem_mem hn)
  have hr2 := h.rows (rowAt s i) (by
    unfold rowAt
    rw [List.getD_eq_getElem _ _ hr]
    exact List.getElem_mem hr)
  have hk2 := hc.known (typAt s i) (by rw [etyp]; exact List.getElem_mem ht)
  have c1 : getJoint (conv T (bodyDict E T s i)) = .ok (typAt s i) := by
    unfold getJoint pyDict
    rw [lookup_conv]
    simp only [bodyDict, dofToXml, lookup_setUnless, lookup_posMinMax, transToXml, Dict.lookup_set,
      String.reduceEq, false_and, if_false, if_true, Option.map_some, toAVal_text ht2.1, ok_bind]
    split
    · rename_i h0
      exact absurd (AVal.str.inj h0) ht2.2
    · rename_i h0
      rw [AVal.str.inj h0]
      rfl
    · rename_i h0 h1
      exact absurd rfl (h1 _)
  have c2 : getName T (conv T (bodyDict E T s i)) = .ok (nameAt s i) := by
    unfold getName pyDict
    rw [lookup_conv]
    simp only [bodyDict, dofToXml, lookup_setUnless, lookup_posMinMax, transToXml, Dict.lookup_set,
      String.reduceEq, false_and, if_false, if_true, Option.map_some, ok_bind]
    rcases hn2 with hn2 | ⟨a, x, k, b, c, d⟩
    · rw [toAVal_text hn2]
      rfl
    · rw [toAVal_single a b]
      simp only [ok_bind, c, d]
      rfl
  have c3 : transFromXml T (conv T (bodyDict E T s i)) = .ok (rowAt s i).transform1 := by
    apply transFromXml_eq hr2.transform1 <;>
    · simp only [bodyDict, dofToXml, lookup_setUnless, lookup_posMinMax, transToXml, Dict.lookup_set,
        String.reduceEq, false_and, if_false, true_and, List.lookup_nil]
  have c4 : posMinMaxFromXml (conv T (bodyDict E T s i)) (rowAt s i).transform1.pos =
      .ok ((rowAt s i).pos_min, (rowAt s i).pos_max) := by
    unfold posMinMaxFromXml
    rw [lookup_conv, lookup_conv]
    simp only [bodyDict, dofToXml, lookup_setUnless, lookup_posMinMax, transToXml, Dict.lookup_set,
        String.reduceEq, false_and, if_false, true_and, List.lookup_nil]
    by_cases h0 : (rowAt s i).pos_min = (rowAt s i).pos_max
    · simp only [ne_eq, h0, not_true_eq_false, if_false, Option.map_none]
      rw [← hr2.point h0, ← h0]
    · simp only [ne_eq, h0, not_false_eq_true, if_true, Option.map_some, toAVal_vec hr2.pos_min,
        toAVal_vec hr2.pos_max]
      simp only [AVal.vec3, vecList, ok_bind]
      rw [pyAssert_true h0]
      rfl
  have c5 : dofFromXml (conv T (bodyDict E T s i)) (wOf E.qw (typAt s i)) (wOf E.dw (typAt s i))
      (typAt s i) = .ok (ownSlice E.dw s.link_types s.link_damping i,
        ownSlice E.dw s.link_types s.link_armature i,
        ownSlice E.dw s.link_types s.link_spring_stiffness i,
        ownSlice E.qw s.link_types s.link_spring_zeropoint i) := by
    unfold dofFromXml
    rw [getDof_eq (x := ownSlice E.dw s.link_types s.link_damping i), ok_bind,
      getDof_eq (x := ownSlice E.dw s.link_types s.link_armature i), ok_bind,
      getDof_eq (x := ownSlice E.dw s.link_types s.link_spring_stiffness i), ok_bind,
      getDof_eq (x := ownSlice E.qw s.link_types s.link_spring_zeropoint i), ok_bind]
    · rfl
    · rw [ownSlice_length hc.zeropoint_len ht, etyp]
      unfold default_zeropoint
      split <;> simp
    · exact fun y hy => h.zeropoint y (mem_ownSlice hy)
    · simp only [bodyDict, dofToXml, lookup_setUnless, lookup_posMinMax, transToXml, Dict.lookup_set,
        String.reduceEq, false_and, if_false, true_and, List.lookup_nil]
    · rw [ownSlice_length hc.stiffness_len ht, etyp]
      simp [default_dof]
    · exact fun y hy => h.stiffness y (mem_ownSlice hy)
    · simp only [bodyDict, dofToXml, lookup_setUnless, lookup_posMinMax, transToXml, Dict.lookup_set,
        String.reduceEq, false_and, if_false, true_and, List.lookup_nil]
    · rw [ownSlice_length hc.armature_len ht, etyp]
      simp [default_dof]
    · exact fun y hy => h.armature y (mem_ownSlice hy)
    · simp only [bodyDict, dofToXml, lookup_setUnless, lookup_posMinMax, transToXml, Dict.lookup_set,
        String.reduceEq, false_and, if_false, true_and, List.lookup_nil]
    · rw [ownSlice_length hc.damping_len ht, etyp]
      simp [default_dof]
    · exact fun y hy => h.damping y (mem_ownSlice hy)
    · simp only [bodyDict, dofToXml, lookup_setUnless, lookup_posMinMax, transToXml, Dict.lookup_set,
        String.reduceEq, false_and, if_false, true_and, List.lookup_nil]
  have c6 : _extract_omc_from_body_xml T ((partsOf T s i).map (convX T) ++ kids) =
      .ok (s.omc.getD i none) := by
    unfold _extract_omc_from_body_xml
    rw [List.filter_append, filter_bodies hk (by decide), partsOf, List.map_append, List.filter_append]
    have e1 : ((List.map (convX T) ((s.geoms.filter fun g => g.link_idx = (i : Int)).map fun g =>
        Xml.node "geom" (geomToXml T g) [])).filter fun c => c.tag = "omc") = [] := by
      rw [List.filter_eq_nil_iff]
      intro c hc
      simp only [List.map_map, List.mem_map] at hc
      obtain ⟨g, -, rfl⟩ := hc
      simp [Xml.mapAttrib, Xml.tag]
    rw [e1]
    cases ho2 : s.omc.getD i none with
    | none => rfl
    | some o =>
      have := h.omc o (by
        rw [List.getD_eq_getElem _ _ ho] at ho2
        rw [← ho2]
        exact List.getElem_mem ho)
      simp only [Option.toList_some, List.map_cons, List.map_nil, List.append_nil, List.nil_append,
        Xml.mapAttrib, Xml.mapAttribList, Xml.tag, List.filter_cons, decide_true, if_true,
        List.filter_nil, Xml.attrib, omcFromXml_eq this]
      rfl
  have c7 : _extract_geoms_from_body_xml E T ((partsOf T s i).map (convX T) ++ kids)
      (l.idxOf i : Int) = .ok ((s.geoms.filter fun g => g.link_idx = (i : Int)).map fun g =>
        { g with link_idx := (l.idxOf i : Int) }) := by
    unfold _extract_geoms_from_body_xml
    rw [List.filter_append, filter_bodies hk (by decide), partsOf, List.map_append, List.filter_append]
    have e1 : ((List.map (convX T) ((s.omc.getD i none).toList.map fun o =>
        Xml.node "omc" (omcToXml T o) [])).filter fun c => c.tag = "geom") = [] := by
      rw [List.filter_eq_nil_iff]
      intro c hc
      simp only [List.map_map, List.mem_map] at hc
      obtain ⟨g, -, rfl⟩ := hc
      simp [Xml.mapAttrib, Xml.tag]
    have e2 : ((List.map (convX T) ((s.geoms.filter fun g => g.link_idx = (i : Int)).map fun g =>
        Xml.node "geom" (geomToXml T g) [])).filter fun c => c.tag = "geom") =
        (s.geoms.filter fun g => g.link_idx = (i : Int)).map fun g =>
          Xml.node "geom" (conv T (geomToXml T g)) [] := by
      rw [List.map_map, List.filter_eq_self.2]
      · rfl
      · intro c hc
        obtain ⟨g, -, rfl⟩ := List.mem_map.1 hc
        simp [Xml.mapAttrib, Xml.tag]
    rw [e1, e2, List.append_nil, List.append_nil, List.mapM_map]
    apply mapM_ok
    intro g hg
    rw [List.mem_filter] at hg
    exact geomFromXml_eq h.words (h.geoms g hg.1 (by have := hg.2; simp at this; omega)) _
  unfold readBody
  rw [c1, ok_bind, c2, ok_bind, c3, ok_bind, c4, ok_bind, c6, ok_bind, width_known hk2.1, ok_bind,
    width_known hk2.2, ok_bind, c5, ok_bind, c7, ok_bind]
  rfl

end
end io
end RingLib
