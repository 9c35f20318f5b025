import Verif.Lemmas.XmlText

/-! Geometries, markers and the attributes of bodies are read as they were written. -/

namespace RingLib
namespace io
open System
variable {α π K V W : Type} [Field α] [DecidableEq α]

/-! ## specification -/

def PrintableVec (T : Txt α) (v : Vec3 α) : Prop :=
  Printable T v.x ∧ Printable T v.y ∧ Printable T v.z

def PrintableTransform (T : Txt α) (t : Transform α) : Prop :=
  PrintableVec T t.pos ∧ Printable T t.rot.w ∧ Printable T t.rot.x ∧ Printable T t.rot.y ∧
    Printable T t.rot.z

/-- a colour: not numeric, or several numbers written as the library writes them -/
def ReadsColor (T : Txt α) (c : String) : Prop :=
  IsText T c ∨ ∃ l, (pySplit c).mapM T.num = some l ∧ l.length ≠ 1 ∧ strOfArr T l = c

/-- the numbers that describe a shape -/
def dimsOf : Shape α → List α
  | .box x y z => [x, y, z]
  | .sphere r => [r]
  | .cylinder r l => [r, l]
  | .capsule r l => [r, l]
  | .xyz d => [d]

/-- The geometry is kept by saving and loading. A coordinate system (`xyz`) is saved without mass,
transform and colours. -/
structure GeomSavable (E : Env α π) (T : Txt α) (g : Geometry α) : Prop where
  dims : ∀ x ∈ dimsOf g.shape, Printable T x ∧ E.ge 0 x = false
  xyz : ∀ d, g.shape = .xyz d → g.mass = 0 ∧ g.transform = Transform.zero ∧ g.color = none ∧
    g.edge_color = none
  mass : Printable T g.mass
  transform : PrintableTransform T g.transform
  color : ∀ c, g.color = some c → ReadsColor T c
  edge_color : ∀ c, g.edge_color = some c → ReadsColor T c

/-- a marker: its name is text and its number is read as that number -/
structure OmcSavable (T : Txt α) (o : MaxCoordOMC α) : Prop where
  name : IsText T o.coordinate_system_name
  pos : PrintableVec T o.pos_marker_constant_offset
  number : ' ' ∉ (T.fmtInt o.pos_marker_number).toList ∧
    ∃ x, T.num (T.fmtInt o.pos_marker_number) = some x ∧ T.toInt x = some o.pos_marker_number

/-- the words for the geometries are not numbers -/
def WordsOk (T : Txt α) : Prop :=
  IsText T "box" ∧ IsText T "sphere" ∧ IsText T "cylinder" ∧ IsText T "capsule" ∧ IsText T "xyz"

/-! ## proofs -/

theorem toAVal_vec {T : Txt α} {v : Vec3 α} (h : PrintableVec T v) :
    toAVal T (strOfArr T (vecList v)) = .arr (vecList v) := by
  rw [toAVal_strOfArr (by simp [vecList])]
  · rfl
  · intro x hx
    simp only [vecList, List.mem_cons, List.not_mem_nil, or_false] at hx
    rcases hx with rfl | rfl | rfl
    exacts [h.1, h.2.1, h.2.2]

theorem toAVal_quat {T : Txt α} {t : Transform α} (h : PrintableTransform T t) :
    toAVal T (strOfArr T (quatList t.rot)) = .arr (quatList t.rot) := by
  rw [toAVal_strOfArr (by simp [quatList])]
  · rfl
  · intro x hx
    simp only [quatList, List.mem_cons, List.not_mem_nil, or_false] at hx
    obtain ⟨-, h1, h2, h3, h4⟩ := h
    rcases hx with rfl | rfl | rfl | rfl
    exacts [h1, h2, h3, h4]

theorem getPos_eq {T : Txt α} {d : Dict String} {key : String} {v : Vec3 α} (hv : PrintableVec T v)
    (h : List.lookup key d = if v ≠ default_pos then some (strOfArr T (vecList v)) else none) :
    getPos (conv T d) key = .ok v := by
  unfold getPos
  rw [lookup_conv, h]
  by_cases h0 : v = default_pos
  · simp [h0]
  · simp only [ne_eq, h0, not_false_eq_true, if_true, Option.map_some, toAVal_vec hv]
    rfl

theorem transFromXml_eq {T : Txt α} {d : Dict String} {t : Transform α}
    (ht : PrintableTransform T t)
    (h1 : List.lookup "pos" d = if t.pos ≠ default_pos then some (strOfArr T (vecList t.pos)) else none)
    (h2 : List.lookup "quat" d =
      if t.rot ≠ default_quat then some (strOfArr T (quatList t.rot)) else none)
    (h3 : List.lookup "euler" d = none) : transFromXml T (conv T d) = .ok t := by
  unfold transFromXml _get_rotation
  rw [getPos_eq ht.1 h1, ok_bind, lookup_conv, lookup_conv, h2, h3]
  have h4 : "euler" ∉ Dict.keys (conv T d) := by
    rw [keys_conv]
    exact (Dict.lookup_eq_none _ _).1 h3
  by_cases h0 : t.rot = default_quat
  · simp only [h0, ne_eq, not_true_eq_false, if_false, Option.map_none, ok_bind]
    rw [← h0]
    rfl
  · simp only [ne_eq, h0, not_false_eq_true, if_true, Option.map_some, toAVal_quat ht]
    rw [pyAssert_true h4, ok_bind]
    rfl

theorem getColor_eq {T : Txt α} {d : Dict String} {key : String} {o : Option String}
    (h : List.lookup key d = o) (ho : ∀ c, o = some c → ReadsColor T c) :
    getColor T (conv T d) key = .ok o := by
  unfold getColor
  rw [lookup_conv, h]
  cases o with
  | none => rfl
  | some c =>
    rcases ho c rfl with hc | ⟨l, hl, hn, e⟩
    · rw [Option.map_some, toAVal_text hc]
    · have : toAVal T c = .arr l := by
        unfold toAVal
        rw [hl]
        match l, hn with
        | [], _ => rfl
        | x :: y :: zs, _ => rfl
      rw [Option.map_some, this]
      simp only [e]

theorem geom_common {T : Txt α} {g : Geometry α} {d : Dict String} (hm : Printable T g.mass)
    (ht : PrintableTransform T g.transform) (hc : ∀ c, g.color = some c → ReadsColor T c)
    (he : ∀ c, g.edge_color = some c → ReadsColor T c)
    (h : ∀ k ≠ "dim", List.lookup k d = List.lookup k (_to_xml_geom_processing T g)) :
    _from_xml_geom_attr_processing T (conv T d) =
      .ok (g.mass, g.transform, g.color, g.edge_color) := by
  unfold _from_xml_geom_attr_processing
  have h1 := h "mass" (by decide)
  have h2 := h "pos" (by decide)
  have h3 := h "quat" (by decide)
  have h4 := h "euler" (by decide)
  have h5 := h "color" (by decide)
  have h6 := h "edge_color" (by decide)
  simp only [_to_xml_geom_processing, transToXml, Dict.lookup_set, lookup_setUnless, lookup_setSome,
    List.lookup_nil, String.reduceEq, false_and, if_false, true_and, if_true] at h1 h2 h3 h4 h5 h6
  have e5 : List.lookup "color" d = g.color := by
    rw [h5]; cases g.color <;> simp
  have e6 : List.lookup "edge_color" d = g.edge_color := by
    rw [h6]; cases g.edge_color <;> simp
  rw [transFromXml_eq ht h2 h3 h4, getColor_eq e5 hc, getColor_eq e6 he]
  unfold pyDict
  rw [lookup_conv, h1, Option.map_some, toAVal_fmt hm]
  rfl

theorem geom_type {T : Txt α} {g : Geometry α} {d : Dict String} {s : String}
    (hs : geomIdentifier g.shape = s) (ht : IsText T s)
    (h : ∀ k ≠ "dim", List.lookup k d = List.lookup k (_to_xml_geom_processing T g)) :
    pyDict (conv T d) "type" = .ok (.str s) := by
  have h1 := h "type" (by decide)
  simp only [_to_xml_geom_processing, Dict.lookup_set, if_true] at h1
  unfold pyDict
  rw [lookup_conv, h1, Option.map_some, hs, toAVal_text ht]

theorem getDims_eq {E : Env α π} {T : Txt α} {d : Dict String} {l : List α} {n : Nat}
    (hn : l.length = n) (hl : 2 ≤ l.length) (h : List.lookup "dim" d = some (strOfArr T l))
    (hp : ∀ x ∈ l, Printable T x ∧ E.ge 0 x = false) :
    getDims E (conv T d) n = .ok l := by
  subst hn
  have h1 : pyDict (conv T d) "dim" = .ok (.arr l) := by
    unfold pyDict
    rw [lookup_conv, h, Option.map_some, toAVal_strOfArr (by rintro rfl; simp at hl)
      fun x hx => (hp x hx).1]
    match l, hl with
    | x :: y :: zs, _ => rfl
  unfold getDims
  rw [h1, ok_bind]
  have h2 : (List.range l.length).mapM (AVal.index (.arr l)) = .ok l := by
    have := mapM_ok (f := AVal.index (.arr l)) (g := fun i => l.getD i 0)
      (l := List.range l.length) ?_
    · rw [this]
      congr 1
      apply List.ext_getElem
      · simp
      · intro i h1 h2
        simp at h1 ⊢
        simp [h1]
    · intro i hi
      have hi' := List.mem_range.1 hi
      simp only [AVal.index]
      rw [pyGet_nat (List.getElem?_eq_getElem hi')]
      simp [hi']
  rw [h2, ok_bind, pyAssert_true fun x hx => (hp x hx).2]
  rfl

theorem geomFromXml_eq {E : Env α π} {T : Txt α} (hw : WordsOk T) {g : Geometry α}
    (hg : GeomSavable E T g) (j : Int) :
    geomFromXml E T j (conv T (geomToXml T g)) = .ok { g with link_idx := j } := by
  obtain ⟨mass, transform, idx, shape, color, edge⟩ := g
  have hd := hg.dims
  have key : ∀ (x : String) (k : String), k ≠ "dim" →
      List.lookup k ((_to_xml_geom_processing T ⟨mass, transform, idx, shape, color, edge⟩).set "dim" x)
        = List.lookup k (_to_xml_geom_processing T ⟨mass, transform, idx, shape, color, edge⟩) := by
    intro x k hk
    rw [Dict.lookup_set, if_neg hk]
  unfold geomFromXml
  cases shape with
  | box x y z =>
    simp only [geomToXml]
    have hk := key (strOfArr T [x, y, z])
    rw [geom_type (s := "box") rfl hw.1 hk, ok_bind]
    simp only [boxFromXml]
    rw [geom_common hg.mass hg.transform hg.color hg.edge_color hk, ok_bind,
      getDims_eq (l := [x, y, z]) (n := 3) rfl (by simp) (by rw [Dict.lookup_set, if_pos rfl]) hd]
    rfl
  | sphere r =>
    simp only [geomToXml]
    have hk := key (strOfArr T [r])
    rw [geom_type (s := "sphere") rfl hw.2.1 hk, ok_bind]
    simp only [sphereFromXml]
    rw [geom_common hg.mass hg.transform hg.color hg.edge_color hk, ok_bind]
    have hr := hd r (by simp [dimsOf])
    have : pyDict (conv T ((_to_xml_geom_processing T
        ⟨mass, transform, idx, Shape.sphere r, color, edge⟩).set "dim" (strOfArr T [r]))) "dim" =
          .ok (.scalar r) := by
      unfold pyDict
      rw [lookup_conv, Dict.lookup_set, if_pos rfl, Option.map_some,
        toAVal_strOfArr (by simp) (by simpa using hr.1)]
      rfl
    rw [this, ok_bind]
    simp only [AVal.float]
    rw [ok_bind, pyAssert_true hr.2]
    rfl
  | cylinder r l =>
    simp only [geomToXml]
    have hk := key (strOfArr T [r, l])
    rw [geom_type (s := "cylinder") rfl hw.2.2.1 hk, ok_bind]
    simp only [cylinderFromXml]
    rw [geom_common hg.mass hg.transform hg.color hg.edge_color hk, ok_bind,
      getDims_eq (l := [r, l]) (n := 2) rfl (by simp) (by rw [Dict.lookup_set, if_pos rfl]) hd]
    rfl
  | capsule r l =>
    simp only [geomToXml]
    have hk := key (strOfArr T [r, l])
    rw [geom_type (s := "capsule") rfl hw.2.2.2.1 hk, ok_bind]
    simp only [capsuleFromXml]
    rw [geom_common hg.mass hg.transform hg.color hg.edge_color hk, ok_bind,
      getDims_eq (l := [r, l]) (n := 2) rfl (by simp) (by rw [Dict.lookup_set, if_pos rfl]) hd]
    rfl
  | xyz size =>
    simp only [geomToXml]
    obtain ⟨h1, h2, h3, h4⟩ := hg.xyz size rfl
    simp only at h1 h2 h3 h4
    subst h1 h2 h3 h4
    have hr := hd size (by simp [dimsOf])
    have ht : pyDict (conv T (setUnless (Dict.set [] "type" "xyz") "dim" size 1 (T.fmt size))) "type" =
        .ok (.str "xyz") := by
      unfold pyDict
      rw [lookup_conv, lookup_setUnless, if_neg (by simp), Dict.lookup_set, if_pos rfl,
        Option.map_some, toAVal_text hw.2.2.2.2]
    rw [ht, ok_bind]
    simp only [xyzFromXml]
    have hs : getSize (conv T (setUnless (Dict.set [] "type" "xyz") "dim" size 1 (T.fmt size))) =
        .ok size := by
      unfold getSize
      rw [lookup_conv, lookup_setUnless, Dict.lookup_set, if_neg (show ¬ ("dim" = "type") by decide)]
      by_cases h1 : size = 1
      · simp [h1]
      · simp [h1, toAVal_fmt hr.1, AVal.float]
    rw [hs, ok_bind, pyAssert_true hr.2]
    rfl

theorem omcFromXml_eq {T : Txt α} {o : MaxCoordOMC α} (ho : OmcSavable T o) :
    omcFromXml T (conv T (omcToXml T o)) = .ok o := by
  obtain ⟨x, hx, hi⟩ := ho.number.2
  unfold omcFromXml
  have h1 : getPos (conv T (omcToXml T o)) "pos" = .ok o.pos_marker_constant_offset := by
    apply getPos_eq ho.pos
    simp only [omcToXml, Dict.lookup_set, lookup_setUnless, String.reduceEq, if_false, true_and,
      List.lookup_nil]
  have h2 : getMarker T (conv T (omcToXml T o)) = .ok o.pos_marker_number := by
    unfold getMarker
    rw [lookup_conv]
    simp only [omcToXml, Dict.lookup_set, if_true, Option.map_some, toAVal_single ho.number.1 hx, hi]
  have h3 : getCsName (conv T (omcToXml T o)) = .ok o.coordinate_system_name := by
    unfold getCsName
    rw [lookup_conv]
    simp only [omcToXml, Dict.lookup_set, String.reduceEq, if_false, if_true, Option.map_some,
      toAVal_text ho.name]
  rw [h1, h2, h3]
  rfl

end io
end RingLib
