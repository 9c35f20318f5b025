import Verif.Model.Compare
import Verif.Props.Sizes
import Mathlib.Tactic.Linarith
import Mathlib.Tactic.NormNum
import Mathlib.Data.List.GetD
import Mathlib.Algebra.BigOperators.Group.List.Basic

/-!
# C53: comparison of systems

`SysAlike R s t` is the specification: the two systems have the same structure and their numbers
are related by `R`.  `tree_equal` decides `SysAlike Near` on all consistent systems without raising.
`sys_compare` does so only on pairs of systems whose geometries match one by one.
-/

namespace RingLib
open System

namespace utils

/-! ## Specification -/

/-- Two numbers that count as equal: finite and within the tolerance, or the same infinity. -/
inductive Near : Fl ℝ → Fl ℝ → Prop
  | fin {x y : ℝ} (h : |x - y| ≤ 1 / 10 ^ 8 + 1 / 10 ^ 5 * |y|) : Near (.fin x) (.fin y)
  | posInf : Near .posInf .posInf
  | negInf : Near .negInf .negInf

section Spec
variable (R : Fl ℝ → Fl ℝ → Prop)

/-- entries related one by one -/
def VecRel (v w : Vec3 (Fl ℝ)) : Prop := R v.x w.x ∧ R v.y w.y ∧ R v.z w.z

/-- entries related one by one -/
def QuatRel (v w : Quat (Fl ℝ)) : Prop := R v.w w.w ∧ R v.x w.x ∧ R v.y w.y ∧ R v.z w.z

/-- entries related one by one -/
def MatRel (v w : Mat3 (Fl ℝ)) : Prop :=
  R v.a00 w.a00 ∧ R v.a01 w.a01 ∧ R v.a02 w.a02 ∧ R v.a10 w.a10 ∧ R v.a11 w.a11 ∧
    R v.a12 w.a12 ∧ R v.a20 w.a20 ∧ R v.a21 w.a21 ∧ R v.a22 w.a22

/-- entries related one by one -/
def TransformRel (a b : Transform (Fl ℝ)) : Prop := VecRel R a.pos b.pos ∧ QuatRel R a.rot b.rot

/-- entries related one by one -/
def InertiaRel (a b : Inertia (Fl ℝ)) : Prop :=
  MatRel R a.it_3x3 b.it_3x3 ∧ VecRel R a.h b.h ∧ R a.mass b.mass

/-- all numbers of a link related -/
def LinkRel (a b : LinkRow (Fl ℝ)) : Prop :=
  TransformRel R a.transform1 b.transform1 ∧ VecRel R a.pos_min b.pos_min ∧
    VecRel R a.pos_max b.pos_max ∧ InertiaRel R a.inertia b.inertia ∧
    TransformRel R a.transform2 b.transform2 ∧ TransformRel R a.transform b.transform

/-- the same kind of solid with related dimensions -/
def ShapeRel : Shape (Fl ℝ) → Shape (Fl ℝ) → Prop
  | .xyz a, .xyz b => R a b
  | .sphere a, .sphere b => R a b
  | .box a b c, .box a' b' c' => R a a' ∧ R b b' ∧ R c c'
  | .cylinder a b, .cylinder a' b' => R a a' ∧ R b b'
  | .capsule a b, .capsule a' b' => R a a' ∧ R b b'
  | _, _ => False

/-- the same kind of geometry at the same link in the same colours with related numbers -/
def GeomRel (a b : Geometry (Fl ℝ)) : Prop :=
  ShapeRel R a.shape b.shape ∧ a.link_idx = b.link_idx ∧ a.color = b.color ∧
    a.edge_color = b.edge_color ∧ R a.mass b.mass ∧ TransformRel R a.transform b.transform

/-- the same marker or none at all -/
def OMCRel : Option (MaxCoordOMC (Fl ℝ)) → Option (MaxCoordOMC (Fl ℝ)) → Prop
  | none, none => True
  | some a, some b => a.coordinate_system_name = b.coordinate_system_name ∧
      a.pos_marker_number = b.pos_marker_number ∧
      VecRel R a.pos_marker_constant_offset b.pos_marker_constant_offset
  | _, _ => False

/-- the same joint types have parameters, and these are related -/
def ParamsRel (d e : List (String × List (List (Fl ℝ)))) : Prop :=
  (∀ k, (d.lookup k).isSome = (e.lookup k).isSome) ∧
    ∀ k a b, d.lookup k = some a → e.lookup k = some b → List.Forall₂ (List.Forall₂ R) a b

/-- The two systems have the same structure, and related numbers. -/
structure SysAlike (s t : System (Fl ℝ) (List (Fl ℝ))) : Prop where
  parents : s.link_parents = t.link_parents
  types : s.link_types = t.link_types
  names : s.link_names = t.link_names
  model : s.model_name = t.model_name
  method : s.integration_method = t.integration_method
  iters : s.mass_mat_iters = t.mass_mat_iters
  dt : s.dt = t.dt ∧ s.dt ≠ .nan
  links : List.Forall₂ (LinkRel R) s.links t.links
  params : ParamsRel R s.joint_params t.joint_params
  damping : List.Forall₂ R s.link_damping t.link_damping
  armature : List.Forall₂ R s.link_armature t.link_armature
  stiffness : List.Forall₂ R s.link_spring_stiffness t.link_spring_stiffness
  zeropoint : List.Forall₂ R s.link_spring_zeropoint t.link_spring_zeropoint
  geoms : List.Forall₂ (GeomRel R) s.geoms t.geoms
  gravity : VecRel R s.gravity t.gravity
  omc : List.Forall₂ (OMCRel R) s.omc t.omc

end Spec

/-- The joint parameters are stacked arrays, one row per link; how long a row is depends on the
joint type only. -/
structure ParamsOk (w : String → Nat) (s : System (Fl ℝ) (List (Fl ℝ))) : Prop where
  keys : (s.joint_params.map (·.1)).Nodup
  len : ∀ x ∈ s.joint_params, x.2.length = s.link_parents.length
  width : ∀ x ∈ s.joint_params, ∀ r ∈ x.2, r.length = w x.1

/-- The computation ends without exception, and its outcome is whether `P` holds. -/
def Decides (p : Py Bool) (P : Prop) : Prop := ∃ b, p = .ok b ∧ (b = true ↔ P)

/-! ## Deciding -/

theorem Decides.iff {p : Py Bool} {P Q : Prop} (h : Decides p P) (hPQ : P ↔ Q) : Decides p Q := by
  obtain ⟨b, hb, h⟩ := h
  exact ⟨b, hb, h.trans hPQ⟩

theorem Decides.yes {P : Prop} (h : P) : Decides (.ok true) P := ⟨true, rfl, by simp [h]⟩

theorem Decides.no {P : Prop} (h : ¬ P) : Decides (.ok false) P := ⟨false, rfl, by simp [h]⟩

theorem Decides.ok {b : Bool} {P : Prop} (h : b = true ↔ P) : Decides (.ok b) P := ⟨b, rfl, h⟩

theorem Decides.seq {p q : Py Bool} {P Q : Prop} (hp : Decides p P) (hq : P → Decides q Q) :
    Decides (p >>= fun b => if b then q else .ok false) (P ∧ Q) := by
  obtain ⟨b, rfl, hb⟩ := hp
  cases b with
  | false =>
    refine ⟨false, rfl, ?_⟩
    have : ¬ P := fun h => by simpa using hb.2 h
    simp [this]
  | true =>
    have hP := hb.1 rfl
    obtain ⟨c, rfl, hc⟩ := hq hP
    exact ⟨c, rfl, by simp [hP, hc]⟩

theorem isclose_iff (x y : Fl ℝ) : isclose x y = true ↔ Near x y := by
  constructor
  · intro h
    cases x <;> cases y <;> simp [isclose] at h
    · exact .fin (by simpa using h)
    · exact .posInf
    · exact .negInf
  · rintro (h | _ | _)
    · simpa [isclose] using h
    · rfl
    · rfl

theorem broadcastRev_self (s : List Nat) : broadcastRev s s = .ok s := by
  induction s with
  | nil => rfl
  | cons a s ih => simp [broadcastRev, ih, ok_bind]

theorem flatIdx_self (s : List Nat) (k : Nat) (h : k < s.prod) : flatIdx s s k = k := by
  induction s generalizing k with
  | nil => simp [flatIdx] at h ⊢; omega
  | cons a s ih =>
    simp only [List.prod_cons] at h
    have ha : 0 < a := Nat.pos_of_ne_zero (by rintro rfl; simp at h)
    have hd : k / a < s.prod := Nat.div_lt_of_lt_mul h
    rw [flatIdx, ih _ hd]
    split
    · next h1 => subst h1; simp
    · exact Nat.mod_add_div k a

theorem allclose_same (s : List Nat) (a b : List (Fl ℝ)) (ha : a.length = s.prod)
    (hb : b.length = s.prod) : Decides (allclose s a s b) (List.Forall₂ Near a b) := by
  unfold allclose
  rw [broadcastRev_self, ok_bind]
  refine .ok ?_
  have hp : s.reverse.prod = s.prod := List.prod_reverse s
  rw [List.all_eq_true, List.forall₂_iff_get]
  constructor
  · intro h
    refine ⟨by omega, fun i h1 h2 => ?_⟩
    have := h i (by simpa [hp] using (by omega : i < s.prod))
    rw [flatIdx_self _ _ (by omega), isclose_iff] at this
    simpa [List.getD_eq_getElem, h1, h2] using this
  · rintro ⟨_, h⟩ k hk
    simp only [List.mem_range] at hk
    rw [flatIdx_self _ _ hk, isclose_iff]
    have := h k (by omega) (by omega)
    rw [List.getD_eq_getElem _ _ (by omega), List.getD_eq_getElem _ _ (by omega)]
    simpa using this

theorem arr_same (s : List Nat) (a b : List (Fl ℝ)) (ha : a.length = s.prod)
    (hb : b.length = s.prod) :
    Decides (tree_equal (.arr s a) (.arr s b)) (List.Forall₂ Near a b) := by
  rw [tree_equal]
  exact allclose_same s a b ha hb

theorem forall₂_flatMap {ρ : Type} (f : ρ → List (Fl ℝ)) (n : Nat) {l m : List ρ}
    (hf : ∀ r ∈ l, (f r).length = n) (hf' : ∀ r ∈ m, (f r).length = n)
    (h : l.length = m.length) :
    List.Forall₂ Near (l.flatMap f) (m.flatMap f) ↔
      List.Forall₂ (fun r q => List.Forall₂ Near (f r) (f q)) l m := by
  induction l generalizing m with
  | nil =>
    cases m with
    | nil => simp
    | cons => simp at h
  | cons a l ih =>
    cases m with
    | nil => simp at h
    | cons b m =>
      simp only [List.flatMap_cons, List.forall₂_cons]
      have hl : (f a).length = (f b).length := by
        rw [hf a (by simp), hf' b (by simp)]
      rw [← ih (fun r hr => hf r (by simp [hr])) (fun r hr => hf' r (by simp [hr]))
        (by simpa using h)]
      constructor
      · intro h
        have h1 := List.forall₂_take (f a).length h
        have h2 := List.forall₂_drop (f a).length h
        rw [List.take_left, hl, List.take_left] at h1
        rw [List.drop_left, hl, List.drop_left] at h2
        exact ⟨h1, h2⟩
      · rintro ⟨h1, h2⟩
        exact List.rel_append h1 h2

theorem flatMap_length {ρ : Type} (f : ρ → List (Fl ℝ)) (n : Nat) (l : List ρ)
    (hf : ∀ r ∈ l, (f r).length = n) : (l.flatMap f).length = l.length * n := by
  induction l with
  | nil => simp
  | cons a l ih =>
    rw [List.flatMap_cons, List.length_append, hf a (by simp), ih fun r hr => hf r (by simp [hr])]
    simp [Nat.succ_mul]; omega

theorem stack_same {ρ : Type} (f : ρ → List (Fl ℝ)) (sh : List Nat) {l m : List ρ}
    (hf : ∀ r ∈ l, (f r).length = sh.prod) (hf' : ∀ r ∈ m, (f r).length = sh.prod)
    (h : l.length = m.length) :
    Decides (tree_equal (stack l sh f) (stack m sh f))
      (List.Forall₂ (fun r q => List.Forall₂ Near (f r) (f q)) l m) := by
  unfold stack
  rw [← h]
  refine (arr_same _ _ _ ?_ ?_).iff (forall₂_flatMap f _ hf hf' h)
  · rw [flatMap_length f _ l hf]; simp
  · rw [flatMap_length f _ m hf']; simp [h]

theorem dict_cons {k : String} {v w : PVal} {d e : List (String × PVal)} {P Q : Prop}
    (hl : e.lookup k = some w) (hp : Decides (tree_equal v w) P)
    (hq : P → Decides (treeEqualDict d e) Q) : Decides (treeEqualDict ((k, v) :: d) e) (P ∧ Q) := by
  rw [treeEqualDict, hl]
  exact hp.seq hq

theorem dict_nil (e : List (String × PVal)) : Decides (treeEqualDict [] e) True := by
  rw [treeEqualDict]
  exact .yes trivial

theorem obj_same {c : String} {d e : List (String × PVal)} {P : Prop} (hk : sameKeys d e = true)
    (h : Decides (treeEqualDict d e) P) : Decides (tree_equal (.obj c d) (.obj c e)) P := by
  rw [tree_equal]
  simpa [hk] using h

theorem list_same {ρ : Type} (f : ρ → PVal) (R : ρ → ρ → Prop)
    (hR : ∀ a b, Decides (tree_equal (f a) (f b)) (R a b)) (l m : List ρ) :
    Decides (tree_equal (.list (l.map f)) (.list (m.map f))) (List.Forall₂ R l m) := by
  rw [tree_equal]
  by_cases h : l.length = m.length
  · rw [if_neg (by simpa using h)]
    induction l generalizing m with
    | nil =>
      cases m with
      | nil => rw [List.map_nil, treeEqualList]; exact .yes .nil
      | cons => simp at h
    | cons a l ih =>
      cases m with
      | nil => simp at h
      | cons b m =>
        rw [List.map_cons, List.map_cons, treeEqualList]
        refine ((hR a b).seq fun _ => ih m (by simpa using h)).iff ?_
        simp
  · rw [if_pos (by simpa using h)]
    exact .no fun hh => h hh.length_eq

theorem int_same (i j : Int) : Decides (tree_equal (.int i) (.int j)) (i = j) := by
  rw [tree_equal]
  exact .ok (by simp)

theorem str_same (i j : String) : Decides (tree_equal (.str i) (.str j)) (i = j) := by
  rw [tree_equal]
  exact .ok (by simp)

theorem optStr_same (i j : Option String) : Decides (tree_equal (optStr i) (optStr j)) (i = j) := by
  cases i <;> cases j
  · simp only [optStr]; rw [tree_equal]; exact (Decides.yes trivial).iff (by simp)
  · simp only [optStr]; rw [tree_equal] <;> first | exact .no (by simp) | simp
  · simp only [optStr]; rw [tree_equal] <;> first | exact .no (by simp) | simp
  · simp only [optStr]; exact (str_same _ _).iff (by simp)

theorem float_same (x y : Fl ℝ) :
    Decides (tree_equal (.float x) (.float y)) (x = y ∧ x ≠ .nan) := by
  rw [tree_equal]
  refine .ok ?_
  cases x <;> cases y <;> simp [floatEq]

theorem v3_iff (R : Fl ℝ → Fl ℝ → Prop) (a b : Vec3 (Fl ℝ)) :
    List.Forall₂ R (v3 a) (v3 b) ↔ VecRel R a b := by
  simp [v3, VecRel]

theorem q4_iff (R : Fl ℝ → Fl ℝ → Prop) (a b : Quat (Fl ℝ)) :
    List.Forall₂ R (q4 a) (q4 b) ↔ QuatRel R a b := by
  simp [q4, QuatRel]

theorem m9_iff (R : Fl ℝ → Fl ℝ → Prop) (a b : Mat3 (Fl ℝ)) :
    List.Forall₂ R (m9 a) (m9 b) ↔ MatRel R a b := by
  simp [m9, MatRel]

theorem forall₂_and {ρ : Type} {P Q : ρ → ρ → Prop} {l m : List ρ} :
    List.Forall₂ P l m ∧ List.Forall₂ Q l m ↔ List.Forall₂ (fun a b => P a b ∧ Q a b) l m := by
  constructor
  · rintro ⟨h1, h2⟩
    induction h1 with
    | nil => exact .nil
    | cons h _ ih =>
      cases h2 with
      | cons h' h2 => exact .cons ⟨h, h'⟩ (ih h2)
  · intro h
    exact ⟨h.imp fun _ _ h => h.1, h.imp fun _ _ h => h.2⟩

theorem forall₂_congr' {ρ : Type} {P Q : ρ → ρ → Prop} (h : ∀ a b, P a b ↔ Q a b) {l m : List ρ} :
    List.Forall₂ P l m ↔ List.Forall₂ Q l m :=
  ⟨fun hh => hh.imp fun a b => (h a b).1, fun hh => hh.imp fun a b => (h a b).2⟩

section Rows
variable {ρ : Type} {l m : List ρ} (h : l.length = m.length)
include h

theorem stack_v3 (f : ρ → Vec3 (Fl ℝ)) :
    Decides (tree_equal (stack l [3] fun r => v3 (f r)) (stack m [3] fun r => v3 (f r)))
      (List.Forall₂ (fun r q => VecRel Near (f r) (f q)) l m) :=
  (stack_same _ _ (fun _ _ => rfl) (fun _ _ => rfl) h).iff
    (forall₂_congr' fun _ _ => v3_iff Near _ _)

theorem stack_q4 (f : ρ → Quat (Fl ℝ)) :
    Decides (tree_equal (stack l [4] fun r => q4 (f r)) (stack m [4] fun r => q4 (f r)))
      (List.Forall₂ (fun r q => QuatRel Near (f r) (f q)) l m) :=
  (stack_same _ _ (fun _ _ => rfl) (fun _ _ => rfl) h).iff
    (forall₂_congr' fun _ _ => q4_iff Near _ _)

theorem transform_same (f : ρ → Transform (Fl ℝ)) :
    Decides (tree_equal (objTransform l f) (objTransform m f))
      (List.Forall₂ (fun r q => TransformRel Near (f r) (f q)) l m) := by
  refine (obj_same rfl (dict_cons rfl (stack_v3 h fun r => (f r).pos) fun _ =>
    dict_cons rfl (stack_q4 h fun r => (f r).rot) fun _ => dict_nil _)).iff ?_
  simp only [and_true, forall₂_and]
  exact forall₂_congr' fun _ _ => Iff.rfl

theorem inertia_same (f : ρ → Inertia (Fl ℝ)) :
    Decides (tree_equal (objInertia l f) (objInertia m f))
      (List.Forall₂ (fun r q => InertiaRel Near (f r) (f q)) l m) := by
  refine (obj_same rfl (dict_cons rfl
    ((stack_same _ _ (fun _ _ => rfl) (fun _ _ => rfl) h).iff
      (forall₂_congr' fun a b => m9_iff Near (f a).it_3x3 (f b).it_3x3)) fun _ =>
    dict_cons rfl (stack_v3 h fun r => (f r).h) fun _ =>
    dict_cons rfl (stack_same _ _ (fun _ _ => rfl) (fun _ _ => rfl) h) fun _ => dict_nil _)).iff ?_
  simp only [and_true, forall₂_and]
  exact forall₂_congr' fun _ _ => by simp [InertiaRel]

end Rows

theorem arr_v3 (a b : Vec3 (Fl ℝ)) :
    Decides (tree_equal (.arr [3] (v3 a)) (.arr [3] (v3 b))) (VecRel Near a b) :=
  (arr_same [3] _ _ rfl rfl).iff (v3_iff _ _ _)

theorem arr_q4 (a b : Quat (Fl ℝ)) :
    Decides (tree_equal (.arr [4] (q4 a)) (.arr [4] (q4 b))) (QuatRel Near a b) :=
  (arr_same [4] _ _ rfl rfl).iff (q4_iff _ _ _)

theorem arr_scalar (a b : Fl ℝ) :
    Decides (tree_equal (.arr [] [a]) (.arr [] [b])) (Near a b) :=
  (arr_same [] _ _ rfl rfl).iff (by simp)

theorem transform1_same (a b : Transform (Fl ℝ)) :
    Decides (tree_equal
      (.obj "Transform" [("pos", .arr [3] (v3 a.pos)), ("rot", .arr [4] (q4 a.rot))])
      (.obj "Transform" [("pos", .arr [3] (v3 b.pos)), ("rot", .arr [4] (q4 b.rot))]))
      (TransformRel Near a b) :=
  (obj_same rfl (dict_cons rfl (arr_v3 _ _) fun _ => dict_cons rfl (arr_q4 _ _) fun _ =>
    dict_nil _)).iff (by simp [TransformRel])

theorem shape_cls_of_rel {R : Fl ℝ → Fl ℝ → Prop} {a b : Shape (Fl ℝ)} (h : ShapeRel R a b) :
    shapeCls a = shapeCls b := by
  cases a <;> cases b <;> simp [ShapeRel] at h <;> rfl

/-- the fields of a geometry that all classes have -/
def geomHead (g : Geometry (Fl ℝ)) : List (String × PVal) :=
  [("mass", .arr [] [g.mass]),
    ("transform", .obj "Transform" [("pos", .arr [3] (v3 g.transform.pos)),
      ("rot", .arr [4] (q4 g.transform.rot))]),
    ("link_idx", .int g.link_idx), ("color", optStr g.color),
    ("edge_color", optStr g.edge_color)]

/-- the own fields of the class of a geometry -/
def geomTail (g : Geometry (Fl ℝ)) : List (String × PVal) :=
  (shapeDims g.shape).map fun x => (x.1, .arr [] [x.2])

theorem geom_tail_same (a b : Geometry (Fl ℝ)) (h : shapeCls a.shape = shapeCls b.shape) :
    Decides (treeEqualDict (geomTail a) (geomHead b ++ geomTail b))
      (ShapeRel Near a.shape b.shape) := by
  obtain ⟨ma, ta, ia, sa, ca, ea⟩ := a
  obtain ⟨mb, tb, ib, sb, cb, eb⟩ := b
  cases sa <;> cases sb <;> simp [shapeCls] at h
  · exact (dict_cons rfl (arr_scalar _ _) fun _ => dict_nil _).iff (by simp [ShapeRel])
  · exact (dict_cons rfl (arr_scalar _ _) fun _ => dict_nil _).iff (by simp [ShapeRel])
  · exact (dict_cons rfl (arr_scalar _ _) fun _ => dict_cons rfl (arr_scalar _ _) fun _ =>
      dict_cons rfl (arr_scalar _ _) fun _ => dict_nil _).iff (by simp [ShapeRel])
  · exact (dict_cons rfl (arr_scalar _ _) fun _ => dict_cons rfl (arr_scalar _ _) fun _ =>
      dict_nil _).iff (by simp [ShapeRel])
  · exact (dict_cons rfl (arr_scalar _ _) fun _ => dict_cons rfl (arr_scalar _ _) fun _ =>
      dict_nil _).iff (by simp [ShapeRel])

theorem geom_keys (a b : Geometry (Fl ℝ)) (h : shapeCls a.shape = shapeCls b.shape) :
    sameKeys (geomHead a ++ geomTail a) (geomHead b ++ geomTail b) = true := by
  obtain ⟨ma, ta, ia, sa, ca, ea⟩ := a
  obtain ⟨mb, tb, ib, sb, cb, eb⟩ := b
  cases sa <;> cases sb <;> simp [shapeCls] at h <;> rfl

theorem geom_same (a b : Geometry (Fl ℝ)) :
    Decides (tree_equal (objGeometry a) (objGeometry b)) (GeomRel Near a b) := by
  by_cases h : shapeCls a.shape = shapeCls b.shape
  · show Decides (tree_equal (.obj _ (geomHead a ++ geomTail a))
      (.obj _ (geomHead b ++ geomTail b))) _
    rw [h]
    refine (obj_same (geom_keys a b h) (dict_cons rfl (arr_scalar _ _) fun _ =>
      dict_cons rfl (transform1_same a.transform b.transform) fun _ =>
      dict_cons rfl (int_same _ _) fun _ => dict_cons rfl (optStr_same _ _) fun _ =>
      dict_cons rfl (optStr_same _ _) fun _ => geom_tail_same a b h)).iff ?_
    unfold GeomRel
    tauto
  · unfold objGeometry
    rw [tree_equal, if_pos h]
    exact .no fun hh => h (shape_cls_of_rel hh.1)

theorem omc_same (a b : Option (MaxCoordOMC (Fl ℝ))) :
    Decides (tree_equal (objOMC a) (objOMC b)) (OMCRel Near a b) := by
  cases a <;> cases b
  · simp only [objOMC]; rw [tree_equal]; exact .yes trivial
  · simp only [objOMC]; rw [tree_equal] <;> first | exact .no id | simp
  · simp only [objOMC]; rw [tree_equal] <;> first | exact .no id | simp
  · exact (obj_same rfl (dict_cons rfl (str_same _ _) fun _ => dict_cons rfl (int_same _ _) fun _ =>
      dict_cons rfl (arr_v3 _ _) fun _ => dict_nil _)).iff (by simp [OMCRel])

/-! ### Joint parameters -/

theorem lookup_cons_if {β : Type} (x : String × β) (d : List (String × β)) (k : String) :
    (x :: d).lookup k = if k = x.1 then some x.2 else d.lookup k := by
  rw [List.lookup_cons]
  by_cases hk : k = x.1
  · simp [hk]
  · have : (k == x.1) = false := by simpa using hk
    simp [this, hk]

theorem lookup_params (w : String → Nat) (d : List (String × List (List (Fl ℝ)))) (k : String) :
    (d.map fun x => (x.1, stack x.2 [w x.1] id)).lookup k =
      (d.lookup k).map fun r => stack r [w k] id := by
  induction d with
  | nil => rfl
  | cons x d ih =>
    simp only [List.map_cons, lookup_cons_if]
    by_cases hk : k = x.1
    · subst hk; simp
    · simp [hk, ih]

theorem lookup_mem {β : Type} {d : List (String × β)} {k : String} {v : β}
    (h : d.lookup k = some v) : (k, v) ∈ d := by
  induction d with
  | nil => simp at h
  | cons x d ih =>
    rw [lookup_cons_if] at h
    by_cases hk : k = x.1
    · subst hk
      simp at h
      simp [← h]
    · simp [hk] at h
      exact List.mem_cons_of_mem _ (ih h)

theorem lookup_of_mem {β : Type} {d : List (String × β)} (hn : (d.map (·.1)).Nodup) {k : String}
    {v : β} (h : (k, v) ∈ d) : d.lookup k = some v := by
  induction d with
  | nil => simp at h
  | cons x d ih =>
    simp only [List.map_cons, List.nodup_cons] at hn
    rw [lookup_cons_if]
    rcases List.mem_cons.1 h with rfl | h
    · simp
    · have : k ≠ x.1 := by
        rintro rfl
        exact hn.1 (List.mem_map.2 ⟨_, h, rfl⟩)
      simp [this, ih hn.2 h]

theorem lookup_isSome {β : Type} (d : List (String × β)) (k : String) :
    (d.lookup k).isSome = true ↔ ∃ v, (k, v) ∈ d := by
  induction d with
  | nil => simp
  | cons x d ih =>
    rw [lookup_cons_if]
    by_cases hk : k = x.1
    · subst hk
      simp only [if_true, Option.isSome_some, true_iff]
      exact ⟨x.2, by simp⟩
    · simp only [hk, if_false, ih, List.mem_cons]
      constructor
      · rintro ⟨v, hv⟩
        exact ⟨v, .inr hv⟩
      · rintro ⟨v, hv | hv⟩
        · exact absurd (congrArg Prod.fst hv) hk
        · exact ⟨v, hv⟩

theorem params_same (w : String → Nat) (n : Nat) (d e : List (String × List (List (Fl ℝ))))
    (hd : (d.map (·.1)).Nodup) (hdl : ∀ x ∈ d, x.2.length = n ∧ ∀ r ∈ x.2, r.length = w x.1)
    (hel : ∀ x ∈ e, x.2.length = n ∧ ∀ r ∈ x.2, r.length = w x.1) :
    Decides (tree_equal (.dict (d.map fun x => (x.1, stack x.2 [w x.1] id)))
      (.dict (e.map fun x => (x.1, stack x.2 [w x.1] id)))) (ParamsRel Near d e) := by
  have hkeys : sameKeys (d.map fun x => (x.1, stack x.2 [w x.1] id))
      (e.map fun x => (x.1, stack x.2 [w x.1] id)) = true ↔
      ∀ k, (d.lookup k).isSome = (e.lookup k).isSome := by
    unfold sameKeys
    simp only [Bool.and_eq_true, List.all_eq_true, List.mem_map, forall_exists_index, and_imp,
      lookup_params, Option.isSome_map, forall_apply_eq_imp_iff₂]
    constructor
    · rintro ⟨h1, h2⟩ k
      rw [Bool.eq_iff_iff]
      constructor
      · intro h
        obtain ⟨v, hv⟩ := (lookup_isSome d k).1 h
        exact h1 _ hv
      · intro h
        obtain ⟨v, hv⟩ := (lookup_isSome e k).1 h
        exact h2 _ hv
    · intro h
      exact ⟨fun x hx => by rw [← h]; exact (lookup_isSome _ _).2 ⟨x.2, hx⟩,
        fun x hx => by rw [h]; exact (lookup_isSome _ _).2 ⟨x.2, hx⟩⟩
  rw [tree_equal]
  by_cases hk : ∀ k, (d.lookup k).isSome = (e.lookup k).isSome
  · rw [if_pos (hkeys.2 hk)]
    have key : ∀ d' : List (String × List (List (Fl ℝ))), (∀ x ∈ d', x ∈ d) →
        Decides (treeEqualDict (d'.map fun x => (x.1, stack x.2 [w x.1] id))
          (e.map fun x => (x.1, stack x.2 [w x.1] id)))
          (∀ x ∈ d', ∀ b, e.lookup x.1 = some b → List.Forall₂ (List.Forall₂ Near) x.2 b) := by
      intro d'
      induction d' with
      | nil =>
        intro _
        exact (dict_nil _).iff (by simp)
      | cons x d' ih =>
        intro hs
        have hx := hs x (by simp)
        have : (e.lookup x.1).isSome = true := by
          rw [← hk]; exact (lookup_isSome _ _).2 ⟨x.2, hx⟩
        obtain ⟨b, hb⟩ := Option.isSome_iff_exists.1 this
        have hbm := hel _ (lookup_mem hb)
        have hxm := hdl _ hx
        refine (dict_cons (by rw [lookup_params, hb]; rfl)
          (stack_same (l := x.2) (m := b) id [w x.1] (fun r hr => by simp [hxm.2 r hr])
            (fun r hr => by simp [hbm.2 r hr]) (by rw [hxm.1, hbm.1]))
          fun _ => ih fun y hy => hs y (by simp [hy])).iff ?_
        simp [hb]
    refine (key d fun _ h => h).iff ?_
    constructor
    · intro h
      exact ⟨hk, fun k a b ha hb => h _ (lookup_mem ha) b hb⟩
    · rintro ⟨_, h⟩ x hx b hb
      exact h x.1 x.2 b (lookup_of_mem hd hx) hb
  · rw [if_neg (by simpa [hkeys] using hk)]
    exact .no fun h => hk h.1

/-! ### Links and systems -/

theorem link_same (w : String → Nat) {l m : List (LinkRow (Fl ℝ))} (h : l.length = m.length)
    {d e : List (String × List (List (Fl ℝ)))}
    (hd : (d.map (·.1)).Nodup) (hdl : ∀ x ∈ d, x.2.length = l.length ∧ ∀ r ∈ x.2, r.length = w x.1)
    (hel : ∀ x ∈ e, x.2.length = l.length ∧ ∀ r ∈ x.2, r.length = w x.1) :
    Decides (tree_equal (objLink w l d) (objLink w m e))
      (List.Forall₂ (LinkRel Near) l m ∧ ParamsRel Near d e) := by
  refine (obj_same rfl (dict_cons rfl (transform_same h _) fun _ =>
    dict_cons rfl (stack_v3 h _) fun _ => dict_cons rfl (stack_v3 h _) fun _ =>
    dict_cons rfl (params_same w l.length d e hd hdl hel) fun _ =>
    dict_cons rfl (inertia_same h _) fun _ => dict_cons rfl (transform_same h _) fun _ =>
    dict_cons rfl (transform_same h _) fun _ => dict_nil _)).iff ?_
  unfold LinkRel
  simp only [← forall₂_and]
  tauto

theorem arr_1d (a b : List (Fl ℝ)) (h : a.length = b.length) :
    Decides (tree_equal (.arr [a.length] a) (.arr [b.length] b)) (List.Forall₂ Near a b) := by
  rw [← h]
  exact arr_same _ _ _ (by simp) (by simp [h])

theorem forall₂_eq' {ρ : Type} {l m : List ρ} : List.Forall₂ (fun a b => a = b) l m ↔ l = m := by
  have := List.forall₂_eq_eq_eq (α := ρ)
  exact iff_of_eq (congrFun (congrFun this l) m)

/-- **C53.** On any two systems that pass the checks of `parse`, `tree_equal` ends without
exception, and its result says whether the systems have the same structure and, up to the
tolerance, the same numbers. -/
theorem C53_tree_equal {E : Env (Fl ℝ) (List (Fl ℝ))} {w : String → Nat}
    {s t : System (Fl ℝ) (List (Fl ℝ))} (hs : s.Consistent E) (ht : t.Consistent E)
    (hsp : ParamsOk w s) (htp : ParamsOk w t) :
    Decides (tree_equal (objSystem w s) (objSystem w t)) (SysAlike Near s t) := by
  have hnp : Decides (tree_equal (.list (s.link_parents.map .int)) (.list (t.link_parents.map .int)))
      (s.link_parents = t.link_parents) := (list_same _ _ int_same _ _).iff forall₂_eq'
  have hstr : ∀ l m : List String, Decides (tree_equal (.list (l.map .str)) (.list (m.map .str)))
      (l = m) := fun l m => (list_same _ _ str_same _ _).iff forall₂_eq'
  have hlen : s.link_parents = t.link_parents → s.links.length = t.links.length := fun h => by
    rw [hs.links_len, ht.links_len, h]
  refine (obj_same rfl (dict_cons rfl hnp fun h1 =>
    dict_cons rfl (link_same w (hlen h1) hsp.keys
      (fun x hx => ⟨by rw [hsp.len x hx, hs.links_len], hsp.width x hx⟩)
      (fun x hx => ⟨by rw [htp.len x hx, hs.links_len, h1], htp.width x hx⟩)) fun _ =>
    dict_cons rfl (hstr _ _) fun h2 =>
    dict_cons rfl (arr_1d _ _ (by rw [hs.damping_len, ht.damping_len, h2])) fun _ =>
    dict_cons rfl (arr_1d _ _ (by rw [hs.armature_len, ht.armature_len, h2])) fun _ =>
    dict_cons rfl (arr_1d _ _ (by rw [hs.stiffness_len, ht.stiffness_len, h2])) fun _ =>
    dict_cons rfl (arr_1d _ _ (by rw [hs.zeropoint_len, ht.zeropoint_len, h2])) fun _ =>
    dict_cons rfl (float_same _ _) fun _ =>
    dict_cons rfl (list_same _ _ geom_same _ _) fun _ =>
    dict_cons rfl (arr_v3 _ _) fun _ => dict_cons rfl (str_same _ _) fun _ =>
    dict_cons rfl (int_same _ _) fun _ => dict_cons rfl (hstr _ _) fun _ =>
    dict_cons rfl (optStr_same _ _) fun _ =>
    dict_cons rfl (list_same _ _ omc_same _ _) fun _ => dict_nil _)).iff ?_
  constructor
  · rintro ⟨h1, ⟨h2, h3⟩, h4, h5, h6, h7, h8, h9, h10, h11, h12, h13, h14, h15, h16, -⟩
    exact ⟨h1, h4, h14, h15, h12, h13, h9, h2, h3, h5, h6, h7, h8, h10, h11, h16⟩
  · rintro ⟨h1, h4, h14, h15, h12, h13, h9, h2, h3, h5, h6, h7, h8, h10, h11, h16⟩
    exact ⟨h1, ⟨h2, h3⟩, h4, h5, h6, h7, h8, h9, h10, h11, h12, h13, h14, h15, h16, trivial⟩

/-! ## `sys_compare` -/

theorem cmp_cons {k : String} {v w : PVal} {d e : List (String × PVal)} {P Q : Prop}
    (hl : e.lookup k = some w) (hp : Decides (compareVal v (.ok w)) P)
    (hq : P → Decides (compareDict d e) Q) : Decides (compareDict ((k, v) :: d) e) (P ∧ Q) := by
  rw [compareDict]
  unfold pyDict
  rw [hl]
  exact hp.seq hq

theorem cmp_nil (e : List (String × PVal)) : Decides (compareDict [] e) True := by
  rw [compareDict]
  exact .yes trivial

theorem cmp_eq (d e : List (String × PVal)) (h : ∀ x ∈ d, ∃ w, e.lookup x.1 = some w ∧
    compareVal x.2 (.ok w) = tree_equal x.2 w) : compareDict d e = treeEqualDict d e := by
  induction d with
  | nil => rw [compareDict, treeEqualDict]
  | cons x d ih =>
    obtain ⟨k, v⟩ := x
    obtain ⟨w, hl, hw⟩ := h (k, v) (by simp)
    dsimp only at hl hw
    rw [compareDict, treeEqualDict, ih fun y hy => h y (by simp [hy])]
    unfold pyDict
    rw [hl]
    dsimp only
    rw [hw]

theorem cmp_obj {c : String} {f g : List (String × PVal)} (hk : sameKeys f g = true)
    (h : compareDict f g = treeEqualDict f g) :
    compareVal (.obj c f) (.ok (.obj c g)) = tree_equal (.obj c f) (.obj c g) := by
  rw [compareVal, tree_equal]
  simp [asDict, ok_bind, hk, h]

theorem cmp_arr (s : List Nat) (a : List (Fl ℝ)) (w : PVal) :
    compareVal (.arr s a) (.ok w) = tree_equal (.arr s a) w := by
  rw [compareVal] <;> simp [ok_bind]

theorem cmp_dict (d : List (String × PVal)) (w : PVal) :
    compareVal (.dict d) (.ok w) = tree_equal (.dict d) w := by
  rw [compareVal] <;> simp [ok_bind]

theorem cmp_int (i : Int) (w : PVal) : compareVal (.int i) (.ok w) = tree_equal (.int i) w := by
  rw [compareVal] <;> simp [ok_bind]

theorem cmp_str (i : String) (w : PVal) : compareVal (.str i) (.ok w) = tree_equal (.str i) w := by
  rw [compareVal] <;> simp [ok_bind]

theorem cmp_float (i : Fl ℝ) (w : PVal) :
    compareVal (.float i) (.ok w) = tree_equal (.float i) w := by
  rw [compareVal] <;> simp [ok_bind]

theorem cmp_optStr (i : Option String) (w : PVal) :
    compareVal (optStr i) (.ok w) = tree_equal (optStr i) w := by
  cases i
  · simp only [optStr]; rw [compareVal] <;> simp [ok_bind]
  · exact cmp_str _ _

theorem cmp_list {ρ : Type} (f : ρ → PVal) (hf : ∀ a, isGeometry (f a) = false) {l : List ρ}
    (hl : l ≠ []) (w : PVal) :
    compareVal (.list (l.map f)) (.ok w) = tree_equal (.list (l.map f)) w := by
  cases l with
  | nil => exact absurd rfl hl
  | cons a l =>
    rw [List.map_cons, compareVal]
    simp [ok_bind, hf]

theorem cmp_transform {ρ : Type} (l m : List ρ) (f : ρ → Transform (Fl ℝ)) :
    compareVal (objTransform l f) (.ok (objTransform m f)) =
      tree_equal (objTransform l f) (objTransform m f) := by
  refine cmp_obj rfl (cmp_eq _ _ ?_)
  simp only [List.mem_cons, List.not_mem_nil, or_false]
  rintro x (rfl | rfl)
  · exact ⟨_, rfl, cmp_arr _ _ _⟩
  · exact ⟨_, rfl, cmp_arr _ _ _⟩

theorem cmp_inertia {ρ : Type} (l m : List ρ) (f : ρ → Inertia (Fl ℝ)) :
    compareVal (objInertia l f) (.ok (objInertia m f)) =
      tree_equal (objInertia l f) (objInertia m f) := by
  refine cmp_obj rfl (cmp_eq _ _ ?_)
  simp only [List.mem_cons, List.not_mem_nil, or_false]
  rintro x (rfl | rfl | rfl)
  · exact ⟨_, rfl, cmp_arr _ _ _⟩
  · exact ⟨_, rfl, cmp_arr _ _ _⟩
  · exact ⟨_, rfl, cmp_arr _ _ _⟩

theorem cmp_link (w : String → Nat) (l m : List (LinkRow (Fl ℝ)))
    (d e : List (String × List (List (Fl ℝ)))) :
    compareVal (objLink w l d) (.ok (objLink w m e)) =
      tree_equal (objLink w l d) (objLink w m e) := by
  refine cmp_obj rfl (cmp_eq _ _ ?_)
  simp only [List.mem_cons, List.not_mem_nil, or_false]
  rintro x (rfl | rfl | rfl | rfl | rfl | rfl | rfl)
  · exact ⟨_, rfl, cmp_transform _ _ _⟩
  · exact ⟨_, rfl, cmp_arr _ _ _⟩
  · exact ⟨_, rfl, cmp_arr _ _ _⟩
  · exact ⟨_, rfl, cmp_dict _ _⟩
  · exact ⟨_, rfl, cmp_inertia _ _ _⟩
  · exact ⟨_, rfl, cmp_transform _ _ _⟩
  · exact ⟨_, rfl, cmp_transform _ _ _⟩

/-- the same kind of solid -/
def SameKind (g h : Geometry (Fl ℝ)) : Prop := ShapeRel (fun _ _ => True) g.shape h.shape

theorem sameKind_cls {g h : Geometry (Fl ℝ)} (hk : SameKind g h) :
    shapeCls g.shape = shapeCls h.shape := shape_cls_of_rel hk

theorem cmp_geom_dict (g h : Geometry (Fl ℝ)) (hk : SameKind g h) :
    compareDict (geomHead g ++ geomTail g) (geomHead h ++ geomTail h) =
      treeEqualDict (geomHead g ++ geomTail g) (geomHead h ++ geomTail h) := by
  refine cmp_eq _ _ ?_
  have hT : compareVal (.obj "Transform" [("pos", .arr [3] (v3 g.transform.pos)),
      ("rot", .arr [4] (q4 g.transform.rot))]) (.ok (.obj "Transform"
        [("pos", .arr [3] (v3 h.transform.pos)), ("rot", .arr [4] (q4 h.transform.rot))])) =
      tree_equal (.obj "Transform" [("pos", .arr [3] (v3 g.transform.pos)),
        ("rot", .arr [4] (q4 g.transform.rot))]) (.obj "Transform"
        [("pos", .arr [3] (v3 h.transform.pos)), ("rot", .arr [4] (q4 h.transform.rot))]) := by
    refine cmp_obj rfl (cmp_eq _ _ ?_)
    simp only [List.mem_cons, List.not_mem_nil, or_false]
    rintro x (rfl | rfl)
    · exact ⟨_, rfl, cmp_arr _ _ _⟩
    · exact ⟨_, rfl, cmp_arr _ _ _⟩
  intro x hx
  rcases List.mem_append.1 hx with hx | hx
  · simp only [geomHead, List.mem_cons, List.not_mem_nil, or_false] at hx
    rcases hx with rfl | rfl | rfl | rfl | rfl
    · exact ⟨_, rfl, cmp_arr _ _ _⟩
    · exact ⟨_, rfl, hT⟩
    · exact ⟨_, rfl, cmp_int _ _⟩
    · exact ⟨_, rfl, cmp_optStr _ _⟩
    · exact ⟨_, rfl, cmp_optStr _ _⟩
  · obtain ⟨mg, tg, ig, sg, cg, eg⟩ := g
    obtain ⟨mh, th, ih, sh, ch, eh⟩ := h
    cases sg <;> cases sh <;> simp [SameKind, ShapeRel] at hk <;>
      simp only [geomTail, shapeDims, List.map_cons, List.map_nil, List.mem_cons,
        List.not_mem_nil, or_false] at hx
    · subst hx; exact ⟨_, rfl, cmp_arr _ _ _⟩
    · subst hx; exact ⟨_, rfl, cmp_arr _ _ _⟩
    · rcases hx with rfl | rfl | rfl <;> exact ⟨_, rfl, cmp_arr _ _ _⟩
    · rcases hx with rfl | rfl <;> exact ⟨_, rfl, cmp_arr _ _ _⟩
    · rcases hx with rfl | rfl <;> exact ⟨_, rfl, cmp_arr _ _ _⟩

theorem cmp_zip {l m : List (Geometry (Fl ℝ))} (h : List.Forall₂ SameKind l m) :
    compareZip (l.map objGeometry) (m.map objGeometry) =
      treeEqualList (l.map objGeometry) (m.map objGeometry) := by
  induction h with
  | nil =>
    rw [List.map_nil, compareZip, treeEqualList]
    simp
  | @cons a b l m hab _ ih =>
    rw [List.map_cons, List.map_cons, treeEqualList, compareZip, ih]
    have h1 := cmp_geom_dict a b hab
    have hc := sameKind_cls hab
    have h2 : tree_equal (objGeometry a) (objGeometry b) =
        treeEqualDict (geomHead a ++ geomTail a) (geomHead b ++ geomTail b) := by
      show tree_equal (.obj _ (geomHead a ++ geomTail a)) (.obj _ (geomHead b ++ geomTail b)) = _
      rw [tree_equal, if_neg (by simpa using hc), if_pos (geom_keys a b hc)]
    rw [h2, ← h1]
    rfl

theorem cmp_geoms {l m : List (Geometry (Fl ℝ))} (hl : l ≠ []) (h : List.Forall₂ SameKind l m) :
    compareVal (.list (l.map objGeometry)) (.ok (.list (m.map objGeometry))) =
      tree_equal (.list (l.map objGeometry)) (.list (m.map objGeometry)) := by
  have hz := cmp_zip h
  have hlen := h.length_eq
  rw [tree_equal, if_neg (by simpa using hlen), ← hz]
  cases l with
  | nil => exact absurd rfl hl
  | cons a l =>
    rw [List.map_cons, compareVal]
    have : isGeometry (objGeometry a) = true := by
      obtain ⟨mg, tg, ig, sg, cg, eg⟩ := a
      cases sg <;> simp [objGeometry, isGeometry, shapeCls]
    simp [ok_bind, this, asSeq]

/-- **C53.** `sys_compare` ends without exception and says whether the two systems have the same
structure and nearly the same numbers, provided that neither list of geometries is empty and the
geometries are of the same kinds one by one.  When the link parents or the joint types already
differ nothing is required of the geometries. -/
theorem C53_sys_compare_partial {E : Env (Fl ℝ) (List (Fl ℝ))} {w : String → Nat}
    {s t : System (Fl ℝ) (List (Fl ℝ))} (hs : s.Consistent E) (ht : t.Consistent E)
    (hsp : ParamsOk w s) (htp : ParamsOk w t) (hne : s.link_parents ≠ [])
    (hg : s.link_parents = t.link_parents → s.link_types = t.link_types →
      s.geoms ≠ [] ∧ List.Forall₂ SameKind s.geoms t.geoms) :
    Decides (sys_compare (objSystem w s) (objSystem w t)) (SysAlike Near s t) := by
  have hB := C53_tree_equal hs ht hsp htp
  have hne' : ∀ {β : Type} {l : List β}, l.length = s.link_parents.length → l ≠ [] := by
    rintro β l hl rfl
    exact hne (List.eq_nil_of_length_eq_zero hl.symm)
  have hnp : Decides (compareVal (.list (s.link_parents.map .int))
      (.ok (.list (t.link_parents.map .int)))) (s.link_parents = t.link_parents) := by
    rw [cmp_list _ (fun _ => rfl) hne]
    exact (list_same _ _ int_same _ _).iff forall₂_eq'
  have hstr : ∀ l m : List String, l ≠ [] →
      Decides (compareVal (.list (l.map .str)) (.ok (.list (m.map .str)))) (l = m) := by
    intro l m hl
    rw [cmp_list _ (fun _ => rfl) hl]
    exact (list_same _ _ str_same _ _).iff forall₂_eq'
  have hlen : s.link_parents = t.link_parents → s.links.length = t.links.length := fun h => by
    rw [hs.links_len, ht.links_len, h]
  have h1d : ∀ a b : List (Fl ℝ), a.length = b.length →
      Decides (compareVal (.arr [a.length] a) (.ok (.arr [b.length] b)))
        (List.Forall₂ Near a b) := by
    intro a b h
    rw [cmp_arr]
    exact arr_1d a b h
  have homc : Decides (compareVal (.list (s.omc.map objOMC)) (.ok (.list (t.omc.map objOMC))))
      (List.Forall₂ (OMCRel Near) s.omc t.omc) := by
    rw [cmp_list _ (fun a => by cases a <;> simp [objOMC, isGeometry]) (hne' hs.omc_len)]
    exact list_same _ _ omc_same _ _
  have hA : Decides (_sys_compare_unsafe (objSystem w s) (objSystem w t)) (SysAlike Near s t) := by
    unfold _sys_compare_unsafe
    simp only [objSystem, asDict, ok_bind]
    refine (cmp_cons rfl hnp fun h1 =>
      cmp_cons rfl (by
        rw [cmp_link]
        exact link_same w (hlen h1) hsp.keys
          (fun x hx => ⟨by rw [hsp.len x hx, hs.links_len], hsp.width x hx⟩)
          (fun x hx => ⟨by rw [htp.len x hx, hs.links_len, h1], htp.width x hx⟩)) fun _ =>
      cmp_cons rfl (hstr _ _ (hne' hs.types_len)) fun h2 =>
      cmp_cons rfl (h1d _ _ (by rw [hs.damping_len, ht.damping_len, h2])) fun _ =>
      cmp_cons rfl (h1d _ _ (by rw [hs.armature_len, ht.armature_len, h2])) fun _ =>
      cmp_cons rfl (h1d _ _ (by rw [hs.stiffness_len, ht.stiffness_len, h2])) fun _ =>
      cmp_cons rfl (h1d _ _ (by rw [hs.zeropoint_len, ht.zeropoint_len, h2])) fun _ =>
      cmp_cons rfl (by rw [cmp_float]; exact float_same _ _) fun _ =>
      cmp_cons rfl (by
        rw [cmp_geoms (hg h1 h2).1 (hg h1 h2).2]
        exact list_same _ _ geom_same _ _) fun _ =>
      cmp_cons rfl (by rw [cmp_arr]; exact arr_v3 _ _) fun _ =>
      cmp_cons rfl (by rw [cmp_str]; exact str_same _ _) fun _ =>
      cmp_cons rfl (by rw [cmp_int]; exact int_same _ _) fun _ =>
      cmp_cons rfl (hstr _ _ (hne' hs.names_len)) fun _ =>
      cmp_cons rfl (by rw [cmp_optStr]; exact optStr_same _ _) fun _ =>
      cmp_cons rfl homc fun _ => cmp_nil _).iff ?_
    constructor
    · rintro ⟨h1, ⟨h2, h3⟩, h4, h5, h6, h7, h8, h9, h10, h11, h12, h13, h14, h15, h16, -⟩
      exact ⟨h1, h4, h14, h15, h12, h13, h9, h2, h3, h5, h6, h7, h8, h10, h11, h16⟩
    · rintro ⟨h1, h4, h14, h15, h12, h13, h9, h2, h3, h5, h6, h7, h8, h10, h11, h16⟩
      exact ⟨h1, ⟨h2, h3⟩, h4, h5, h6, h7, h8, h9, h10, h11, h12, h13, h14, h15, h16, trivial⟩
  obtain ⟨a, ha, hPa⟩ := hA
  obtain ⟨b, hb, hPb⟩ := hB
  have hab : a = b := by rw [Bool.eq_iff_iff, hPa, hPb]
  refine ⟨a, ?_, hPa⟩
  unfold sys_compare
  rw [ha, hb, ok_bind, ok_bind, hab]
  simp [pyAssert_true, ok_bind]

/-! ## Identical systems, order of the arguments -/

section Mono
variable {R R' : Fl ℝ → Fl ℝ → Prop} (hR : ∀ x y, R x y → R' x y)
include hR

theorem VecRel.mono {a b : Vec3 (Fl ℝ)} (h : VecRel R a b) : VecRel R' a b :=
  ⟨hR _ _ h.1, hR _ _ h.2.1, hR _ _ h.2.2⟩

theorem QuatRel.mono {a b : Quat (Fl ℝ)} (h : QuatRel R a b) : QuatRel R' a b :=
  ⟨hR _ _ h.1, hR _ _ h.2.1, hR _ _ h.2.2.1, hR _ _ h.2.2.2⟩

theorem TransformRel.mono {a b : Transform (Fl ℝ)} (h : TransformRel R a b) :
    TransformRel R' a b := ⟨VecRel.mono hR h.1, QuatRel.mono hR h.2⟩

theorem MatRel.mono {a b : Mat3 (Fl ℝ)} (h : MatRel R a b) : MatRel R' a b := by
  obtain ⟨h1, h2, h3, h4, h5, h6, h7, h8, h9⟩ := h
  exact ⟨hR _ _ h1, hR _ _ h2, hR _ _ h3, hR _ _ h4, hR _ _ h5, hR _ _ h6, hR _ _ h7, hR _ _ h8,
    hR _ _ h9⟩

theorem LinkRel.mono {a b : LinkRow (Fl ℝ)} (h : LinkRel R a b) : LinkRel R' a b := by
  obtain ⟨h1, h2, h3, ⟨h4, h5, h6⟩, h7, h8⟩ := h
  exact ⟨h1.mono hR, h2.mono hR, h3.mono hR, ⟨h4.mono hR, h5.mono hR, hR _ _ h6⟩, h7.mono hR,
    h8.mono hR⟩

theorem ShapeRel.mono {a b : Shape (Fl ℝ)} (h : ShapeRel R a b) : ShapeRel R' a b := by
  cases a <;> cases b <;> simp only [ShapeRel] at h ⊢
  · exact hR _ _ h
  · exact hR _ _ h
  · exact ⟨hR _ _ h.1, hR _ _ h.2.1, hR _ _ h.2.2⟩
  · exact ⟨hR _ _ h.1, hR _ _ h.2⟩
  · exact ⟨hR _ _ h.1, hR _ _ h.2⟩

theorem GeomRel.mono {a b : Geometry (Fl ℝ)} (h : GeomRel R a b) : GeomRel R' a b := by
  obtain ⟨h1, h2, h3, h4, h5, h6⟩ := h
  exact ⟨h1.mono hR, h2, h3, h4, hR _ _ h5, h6.mono hR⟩

theorem OMCRel.mono {a b : Option (MaxCoordOMC (Fl ℝ))} (h : OMCRel R a b) : OMCRel R' a b := by
  cases a <;> cases b <;> simp only [OMCRel] at h ⊢
  exact ⟨h.1, h.2.1, h.2.2.mono hR⟩

theorem SysAlike.mono {s t : System (Fl ℝ) (List (Fl ℝ))} (h : SysAlike R s t) :
    SysAlike R' s t where
  parents := h.parents
  types := h.types
  names := h.names
  model := h.model
  method := h.method
  iters := h.iters
  dt := h.dt
  links := h.links.imp fun _ _ h => h.mono hR
  params := ⟨h.params.1, fun k a b ha hb => (h.params.2 k a b ha hb).imp fun _ _ h => h.imp hR⟩
  damping := h.damping.imp hR
  armature := h.armature.imp hR
  stiffness := h.stiffness.imp hR
  zeropoint := h.zeropoint.imp hR
  geoms := h.geoms.imp fun _ _ h => h.mono hR
  gravity := h.gravity.mono hR
  omc := h.omc.imp fun _ _ h => h.mono hR

end Mono

section Symm
variable {R : Fl ℝ → Fl ℝ → Prop} (hR : ∀ x y, R x y → R y x)
include hR

theorem forall₂_symm {ρ : Type} {P : ρ → ρ → Prop} (hP : ∀ x y, P x y → P y x) {l m : List ρ}
    (h : List.Forall₂ P l m) : List.Forall₂ P m l := by
  induction h with
  | nil => exact .nil
  | cons h _ ih => exact .cons (hP _ _ h) ih

theorem VecRel.symm {a b : Vec3 (Fl ℝ)} (h : VecRel R a b) : VecRel R b a :=
  ⟨hR _ _ h.1, hR _ _ h.2.1, hR _ _ h.2.2⟩

theorem QuatRel.symm {a b : Quat (Fl ℝ)} (h : QuatRel R a b) : QuatRel R b a :=
  ⟨hR _ _ h.1, hR _ _ h.2.1, hR _ _ h.2.2.1, hR _ _ h.2.2.2⟩

theorem TransformRel.symm {a b : Transform (Fl ℝ)} (h : TransformRel R a b) :
    TransformRel R b a := ⟨VecRel.symm hR h.1, QuatRel.symm hR h.2⟩

theorem MatRel.symm {a b : Mat3 (Fl ℝ)} (h : MatRel R a b) : MatRel R b a := by
  obtain ⟨h1, h2, h3, h4, h5, h6, h7, h8, h9⟩ := h
  exact ⟨hR _ _ h1, hR _ _ h2, hR _ _ h3, hR _ _ h4, hR _ _ h5, hR _ _ h6, hR _ _ h7, hR _ _ h8,
    hR _ _ h9⟩

theorem LinkRel.symm {a b : LinkRow (Fl ℝ)} (h : LinkRel R a b) : LinkRel R b a := by
  obtain ⟨h1, h2, h3, ⟨h4, h5, h6⟩, h7, h8⟩ := h
  exact ⟨h1.symm hR, h2.symm hR, h3.symm hR, ⟨h4.symm hR, h5.symm hR, hR _ _ h6⟩, h7.symm hR,
    h8.symm hR⟩

theorem ShapeRel.symm {a b : Shape (Fl ℝ)} (h : ShapeRel R a b) : ShapeRel R b a := by
  cases a <;> cases b <;> simp only [ShapeRel] at h ⊢
  · exact hR _ _ h
  · exact hR _ _ h
  · exact ⟨hR _ _ h.1, hR _ _ h.2.1, hR _ _ h.2.2⟩
  · exact ⟨hR _ _ h.1, hR _ _ h.2⟩
  · exact ⟨hR _ _ h.1, hR _ _ h.2⟩

theorem GeomRel.symm {a b : Geometry (Fl ℝ)} (h : GeomRel R a b) : GeomRel R b a := by
  obtain ⟨h1, h2, h3, h4, h5, h6⟩ := h
  exact ⟨h1.symm hR, h2.symm, h3.symm, h4.symm, hR _ _ h5, h6.symm hR⟩

theorem OMCRel.symm {a b : Option (MaxCoordOMC (Fl ℝ))} (h : OMCRel R a b) : OMCRel R b a := by
  cases a <;> cases b <;> simp only [OMCRel] at h ⊢
  exact ⟨h.1.symm, h.2.1.symm, h.2.2.symm hR⟩

theorem SysAlike.symm {s t : System (Fl ℝ) (List (Fl ℝ))} (h : SysAlike R s t) :
    SysAlike R t s where
  parents := h.parents.symm
  types := h.types.symm
  names := h.names.symm
  model := h.model.symm
  method := h.method.symm
  iters := h.iters.symm
  dt := ⟨h.dt.1.symm, h.dt.1 ▸ h.dt.2⟩
  links := forall₂_symm hR (fun _ _ h => LinkRel.symm hR h) h.links
  params := ⟨fun k => (h.params.1 k).symm, fun k a b ha hb =>
    forall₂_symm hR (fun _ _ h => forall₂_symm hR hR h) (h.params.2 k b a hb ha)⟩
  damping := forall₂_symm hR hR h.damping
  armature := forall₂_symm hR hR h.armature
  stiffness := forall₂_symm hR hR h.stiffness
  zeropoint := forall₂_symm hR hR h.zeropoint
  geoms := forall₂_symm hR (fun _ _ h => GeomRel.symm hR h) h.geoms
  gravity := h.gravity.symm hR
  omc := forall₂_symm hR (fun _ _ h => OMCRel.symm hR h) h.omc

end Symm

/-- the same number, and not `NaN` -/
def Same (x y : Fl ℝ) : Prop := x = y ∧ x ≠ .nan

theorem same_near {x y : Fl ℝ} (h : Same x y) : Near x y := by
  obtain ⟨rfl, h⟩ := h
  cases x with
  | fin x => exact .fin (by simp; positivity)
  | posInf => exact .posInf
  | negInf => exact .negInf
  | nan => exact absurd rfl h

/-- **C53.** Two systems with the same structure and the same numbers, none of them `NaN`, compare
equal. -/
theorem C53_identical {E : Env (Fl ℝ) (List (Fl ℝ))} {w : String → Nat}
    {s t : System (Fl ℝ) (List (Fl ℝ))} (hs : s.Consistent E) (ht : t.Consistent E)
    (hsp : ParamsOk w s) (htp : ParamsOk w t) (h : SysAlike Same s t) :
    tree_equal (objSystem w s) (objSystem w t) = .ok true := by
  obtain ⟨b, hb, hP⟩ := C53_tree_equal hs ht hsp htp
  rw [hb, hP.2 (h.mono fun _ _ => same_near)]

/-- Two systems that differ in structure, whatever their numbers. -/
def SameStructure (s t : System (Fl ℝ) (List (Fl ℝ))) : Prop := SysAlike (fun _ _ => True) s t

/-- **C53.** Two systems that differ in structure (number of links, parents, joint types, names,
kinds, number, place or colour of geometries, markers, joint parameters, settings) compare
different, in both orders. -/
theorem C53_different {E : Env (Fl ℝ) (List (Fl ℝ))} {w : String → Nat}
    {s t : System (Fl ℝ) (List (Fl ℝ))} (hs : s.Consistent E) (ht : t.Consistent E)
    (hsp : ParamsOk w s) (htp : ParamsOk w t) (h : ¬ SameStructure s t) :
    tree_equal (objSystem w s) (objSystem w t) = .ok false ∧
      tree_equal (objSystem w t) (objSystem w s) = .ok false := by
  obtain ⟨b, hb, hP⟩ := C53_tree_equal hs ht hsp htp
  obtain ⟨c, hc, hQ⟩ := C53_tree_equal ht hs htp hsp
  have h1 : b ≠ true := fun hh => h ((hP.1 hh).mono fun _ _ _ => trivial)
  have h2 : c ≠ true := fun hh =>
    h (((hQ.1 hh).mono (R' := fun _ _ => True) fun _ _ _ => trivial).symm fun _ _ h => h)
  rw [hb, hc, Bool.eq_false_of_not_eq_true h1, Bool.eq_false_of_not_eq_true h2]
  exact ⟨rfl, rfl⟩

/-- nearer than the tolerance of either order -/
def NearBoth (x y : Fl ℝ) : Prop := Near x y ∧ Near y x

/-- nearer than the tolerance of one of the orders -/
def NearOne (x y : Fl ℝ) : Prop := Near x y ∨ Near y x

/-- **C53.** The order of the arguments matters only where the distance of two numbers lies between
the tolerances relative to the one and to the other. -/
theorem C53_order_partial {E : Env (Fl ℝ) (List (Fl ℝ))} {w : String → Nat}
    {s t : System (Fl ℝ) (List (Fl ℝ))} (hs : s.Consistent E) (ht : t.Consistent E)
    (hsp : ParamsOk w s) (htp : ParamsOk w t) (h : SysAlike NearOne s t → SysAlike NearBoth s t) :
    tree_equal (objSystem w s) (objSystem w t) = tree_equal (objSystem w t) (objSystem w s) := by
  obtain ⟨b, hb, hP⟩ := C53_tree_equal hs ht hsp htp
  obtain ⟨c, hc, hQ⟩ := C53_tree_equal ht hs htp hsp
  have : b = c := by
    rw [Bool.eq_iff_iff, hP, hQ]
    constructor
    · intro hh
      have := h (hh.mono fun _ _ h => .inl h)
      exact (this.symm fun _ _ h => ⟨h.2, h.1⟩).mono fun _ _ h => h.1
    · intro hh
      have := hh.mono (R' := NearOne) fun _ _ h => .inl h
      exact (h (this.symm fun _ _ h => h.symm)).mono fun _ _ h => h.1
  rw [hb, hc, this]

/-! ## Where the comparison goes wrong -/

theorem Decides.eq_true {p : Py Bool} {P : Prop} (h : Decides p P) (hP : P) : p = .ok true := by
  obtain ⟨b, hb, h⟩ := h
  rw [hb, h.2 hP]

theorem cmp_step {k : String} {v w : PVal} {d e : List (String × PVal)}
    (hl : e.lookup k = some w) (hp : compareVal v (.ok w) = .ok true) :
    compareDict ((k, v) :: d) e = compareDict d e := by
  rw [compareDict]
  unfold pyDict
  rw [hl]
  dsimp only
  rw [hp, ok_bind]
  rfl

/-- Systems that agree in everything but the geometries: all depends on the loop over these. -/
theorem unsafe_geoms {E : Env (Fl ℝ) (List (Fl ℝ))} {w : String → Nat}
    {s t : System (Fl ℝ) (List (Fl ℝ))} (hs : s.Consistent E)
    (ht : t.Consistent E) (hsp : ParamsOk w s) (htp : ParamsOk w t) (hne : s.link_parents ≠ [])
    (h : SysAlike Near { s with geoms := [] } { t with geoms := [] }) :
    _sys_compare_unsafe (objSystem w s) (objSystem w t) =
      compareVal (.list (s.geoms.map objGeometry)) (.ok (.list (t.geoms.map objGeometry))) := by
  have hne' : ∀ {β : Type} {l : List β}, l.length = s.link_parents.length → l ≠ [] := by
    rintro β l hl rfl
    exact hne (List.eq_nil_of_length_eq_zero hl.symm)
  have h1 : s.link_parents = t.link_parents := h.parents
  have hstr : ∀ l m : List String, l ≠ [] → l = m →
      compareVal (.list (l.map .str)) (.ok (.list (m.map .str))) = .ok true := by
    intro l m hl hlm
    rw [cmp_list _ (fun _ => rfl) hl]
    exact (list_same _ _ str_same _ _).eq_true (forall₂_eq'.2 hlm)
  have h1d : ∀ a b : List (Fl ℝ), List.Forall₂ Near a b →
      compareVal (.arr [a.length] a) (.ok (.arr [b.length] b)) = .ok true := by
    intro a b h
    rw [cmp_arr]
    exact (arr_1d a b h.length_eq).eq_true h
  unfold _sys_compare_unsafe
  simp only [objSystem, asDict, ok_bind]
  rw [cmp_step rfl (by
      rw [cmp_list _ (fun _ => rfl) hne]
      exact (list_same _ _ int_same _ _).eq_true (forall₂_eq'.2 h1)),
    cmp_step rfl (by
      rw [cmp_link]
      exact (link_same w (by rw [hs.links_len, ht.links_len, h1]) hsp.keys
        (fun x hx => ⟨by rw [hsp.len x hx, hs.links_len], hsp.width x hx⟩)
        (fun x hx => ⟨by rw [htp.len x hx, hs.links_len, h1], htp.width x hx⟩)).eq_true
          ⟨h.links, h.params⟩),
    cmp_step rfl (hstr _ _ (hne' hs.types_len) h.types), cmp_step rfl (h1d _ _ h.damping),
    cmp_step rfl (h1d _ _ h.armature), cmp_step rfl (h1d _ _ h.stiffness),
    cmp_step rfl (h1d _ _ h.zeropoint),
    cmp_step rfl (by rw [cmp_float]; exact (float_same _ _).eq_true h.dt)]
  rw [compareDict, cmp_step rfl (by rw [cmp_arr]; exact (arr_v3 _ _).eq_true h.gravity),
    cmp_step rfl (by rw [cmp_str]; exact (str_same _ _).eq_true h.method),
    cmp_step rfl (by rw [cmp_int]; exact (int_same _ _).eq_true h.iters),
    cmp_step rfl (hstr _ _ (hne' hs.names_len) h.names),
    cmp_step rfl (by rw [cmp_optStr]; exact (optStr_same _ _).eq_true h.model),
    cmp_step rfl (by
      rw [cmp_list _ (fun a => by cases a <;> simp [objOMC, isGeometry]) (hne' hs.omc_len)]
      exact (list_same _ _ omc_same _ _).eq_true h.omc), compareDict]
  show (compareVal _ (.ok _) >>= _) = _
  generalize compareVal _ _ = r
  cases r with
  | error e => rfl
  | ok b => cases b <;> rfl

/-- A system without geometries cannot be compared, not even with itself. -/
theorem C53_empty_fails {E : Env (Fl ℝ) (List (Fl ℝ))} {w : String → Nat}
    {s : System (Fl ℝ) (List (Fl ℝ))} (hs : s.Consistent E) (hsp : ParamsOk w s)
    (hne : s.link_parents ≠ []) (hg : s.geoms = []) (h : SysAlike Same s s) :
    sys_compare (objSystem w s) (objSystem w s) = .error .index := by
  have hsame : SysAlike Near { s with geoms := [] } { s with geoms := [] } := by
    have := h.mono fun _ _ => same_near
    rw [← hg]
    exact this
  unfold sys_compare
  rw [unsafe_geoms hs hs hsp hsp hne hsame, hg, List.map_nil, compareVal]
  rfl

/-- A system compared with one that has some more geometries behind the same ones: instead of
`False` the result is an `AssertionError`. -/
theorem C53_count_fails {E : Env (Fl ℝ) (List (Fl ℝ))} {w : String → Nat}
    {s t : System (Fl ℝ) (List (Fl ℝ))} (hs : s.Consistent E) (ht : t.Consistent E)
    (hsp : ParamsOk w s) (htp : ParamsOk w t) (hne : s.link_parents ≠ [])
    (h : SysAlike Near { s with geoms := [] } { t with geoms := [] }) (hgs : s.geoms ≠ [])
    {front more : List (Geometry (Fl ℝ))} (hgt : t.geoms = front ++ more) (hm : more ≠ [])
    (hf : List.Forall₂ (GeomRel Near) s.geoms front) :
    sys_compare (objSystem w s) (objSystem w t) = .error .assertion := by
  have hk : List.Forall₂ SameKind s.geoms front :=
    hf.imp fun _ _ h => ShapeRel.mono (fun _ _ _ => trivial) h.1
  have hzip : ∀ {l m : List (Geometry (Fl ℝ))} (_ : List.Forall₂ SameKind l m),
      compareZip (l.map objGeometry) ((m ++ more).map objGeometry) =
        compareZip (l.map objGeometry) (m.map objGeometry) := by
    intro l m hlm
    induction hlm with
    | nil => rw [List.map_nil, compareZip, compareZip] <;> simp
    | cons _ _ ih =>
      rw [List.cons_append, List.map_cons, List.map_cons, List.map_cons, compareZip, compareZip,
        ih]
  have hA : _sys_compare_unsafe (objSystem w s) (objSystem w t) = .ok true := by
    rw [unsafe_geoms hs ht hsp htp hne h, hgt]
    have h1 := cmp_geoms hgs hk
    rw [(list_same _ _ geom_same _ _).eq_true hf] at h1
    cases hl : s.geoms with
    | nil => exact absurd hl hgs
    | cons a l =>
      rw [hl] at h1 hk
      have hz := hzip hk
      rw [List.map_cons] at h1 hz ⊢
      rw [compareVal] at h1 ⊢
      rw [ok_bind] at h1 ⊢
      have hg : isGeometry (objGeometry a) = true := by
        obtain ⟨mg, tg, ig, sg, cg, eg⟩ := a
        cases sg <;> simp [objGeometry, isGeometry, shapeCls]
      rw [if_pos hg] at h1 ⊢
      simp only [asSeq, ok_bind] at h1 ⊢
      rw [hz, h1]
  obtain ⟨b, hb, hP⟩ := C53_tree_equal hs ht hsp htp
  have hbf : b = false := by
    rw [← Bool.not_eq_true, hP]
    intro hh
    have h1 := hh.geoms.length_eq
    have h2 := hf.length_eq
    rw [hgt, List.length_append, h2] at h1
    have h3 : more.length ≠ 0 := fun h => hm (List.eq_nil_of_length_eq_zero h)
    omega
  unfold sys_compare
  rw [hA, hb, hbf, ok_bind, ok_bind]
  rfl

/-- A box compared with a sphere of the same mass, place and colour: instead of `False` the result
is a `KeyError`. -/
theorem C53_kind_fails {E : Env (Fl ℝ) (List (Fl ℝ))} {w : String → Nat}
    {s t : System (Fl ℝ) (List (Fl ℝ))} (hs : s.Consistent E) (ht : t.Consistent E)
    (hsp : ParamsOk w s) (htp : ParamsOk w t) (hne : s.link_parents ≠ [])
    (h : SysAlike Near { s with geoms := [] } { t with geoms := [] })
    {g : Geometry (Fl ℝ)} {a b c r : Fl ℝ} {l m : List (Geometry (Fl ℝ))}
    (hm : Same g.mass g.mass) (htr : TransformRel Same g.transform g.transform)
    (hgs : s.geoms = { g with shape := .box a b c } :: l)
    (hgt : t.geoms = { g with shape := .sphere r } :: m) :
    sys_compare (objSystem w s) (objSystem w t) = .error .key := by
  unfold sys_compare
  rw [unsafe_geoms hs ht hsp htp hne h, hgs, hgt, List.map_cons, List.map_cons, compareVal]
  have hg : isGeometry (objGeometry { g with shape := .box a b c }) = true := by
    simp [objGeometry, isGeometry, shapeCls]
  rw [ok_bind, if_pos hg]
  have hT : compareVal (.obj "Transform" [("pos", .arr [3] (v3 g.transform.pos)),
      ("rot", .arr [4] (q4 g.transform.rot))]) (.ok (.obj "Transform"
        [("pos", .arr [3] (v3 g.transform.pos)), ("rot", .arr [4] (q4 g.transform.rot))])) =
      .ok true := by
    rw [cmp_obj rfl (cmp_eq _ _ ?_)]
    · exact (transform1_same _ _).eq_true (htr.mono fun _ _ => same_near)
    · simp only [List.mem_cons, List.not_mem_nil, or_false]
      rintro x (rfl | rfl)
      · exact ⟨_, rfl, cmp_arr _ _ _⟩
      · exact ⟨_, rfl, cmp_arr _ _ _⟩
  have hd : compareDict (geomHead g ++ [("dim_x", .arr [] [a]), ("dim_y", .arr [] [b]),
      ("dim_z", .arr [] [c])]) (geomHead g ++ [("radius", .arr [] [r])]) = .error .key := by
    unfold geomHead
    simp only [List.cons_append, List.nil_append]
    rw [cmp_step rfl (by rw [cmp_arr]; exact (arr_scalar _ _).eq_true (same_near hm)),
      cmp_step rfl hT, cmp_step rfl (by rw [cmp_int]; exact (int_same _ _).eq_true rfl),
      cmp_step rfl (by rw [cmp_optStr]; exact (optStr_same _ _).eq_true rfl),
      cmp_step rfl (by rw [cmp_optStr]; exact (optStr_same _ _).eq_true rfl), compareDict]
    have : pyDict (("mass", PVal.arr [] [g.mass]) ::
        ("transform", .obj "Transform" [("pos", .arr [3] (v3 g.transform.pos)),
          ("rot", .arr [4] (q4 g.transform.rot))]) ::
        ("link_idx", .int g.link_idx) :: ("color", optStr g.color) ::
        ("edge_color", optStr g.edge_color) :: [("radius", PVal.arr [] [r])]) "dim_x" =
        .error .key := rfl
    rw [this, compareVal]
    · rfl
    all_goals simp
  simp only [asSeq, ok_bind]
  rw [compareZip]
  show (asDict _ >>= fun d2 => compareDict _ d2 >>= _) >>= _ = _
  have : asDict (objGeometry { g with shape := .sphere r }) =
      .ok (geomHead g ++ [("radius", .arr [] [r])]) := rfl
  rw [this, ok_bind]
  show ((compareDict (geomHead g ++ [("dim_x", .arr [] [a]), ("dim_y", .arr [] [b]),
      ("dim_z", .arr [] [c])]) (geomHead g ++ [("radius", .arr [] [r])]) >>= _) >>= _) = _
  rw [hd]
  rfl

/-! ## Examples -/

/-- An environment with one joint type of one degree of freedom. -/
def cmpEnv : Env (Fl ℝ) (List (Fl ℝ)) :=
  ⟨fun _ => some 1, fun _ => some 1, .fin 3, fun _ _ => true, fun _ => true, id⟩

/-- A transform between finite numbers. -/
def cmpT : Transform (Fl ℝ) :=
  ⟨⟨.fin 1, .fin 2, .fin 3⟩, ⟨.fin 1, .fin 0, .fin 0, .fin 0⟩⟩

/-- A link. -/
def cmpLink : LinkRow (Fl ℝ) :=
  ⟨cmpT, ⟨.fin 0, .fin 0, .fin 0⟩, ⟨.fin 0, .fin 0, .fin 0⟩,
    ⟨⟨.fin 1, .fin 0, .fin 0, .fin 0, .fin 1, .fin 0, .fin 0, .fin 0, .fin 1⟩,
      ⟨.fin 0, .fin 0, .fin 0⟩, .fin 2⟩, cmpT, cmpT⟩

/-- A system of two hinges with given geometries and gravity. -/
def cmpSys (geoms : List (Geometry (Fl ℝ))) (gz : Fl ℝ) : System (Fl ℝ) (List (Fl ℝ)) where
  link_parents := [-1, 0]
  links := [cmpLink, cmpLink]
  joint_params := [("default", [[], []]), ("rr", [[.fin 5], [.fin 6]])]
  link_types := ["rx", "ry"]
  link_damping := [.fin 1, .fin 2]
  link_armature := [.fin 1, .fin 2]
  link_spring_stiffness := [.fin 1, .fin 2]
  link_spring_zeropoint := [.fin 1, .fin 2]
  dt := .fin 1
  geoms := geoms
  gravity := ⟨.fin 0, .fin 0, gz⟩
  integration_method := "semi_implicit_euler"
  mass_mat_iters := 0
  link_names := ["a", "b"]
  model_name := none
  omc := [none, some ⟨"cs", 1, ⟨.fin 0, .fin 0, .fin 0⟩⟩]

/-- A geometry of a given shape. -/
def cmpGeom (shape : Shape (Fl ℝ)) : Geometry (Fl ℝ) := ⟨.fin 1, cmpT, 0, shape, some "red", none⟩

theorem cmpSys_consistent {shapes : List (Shape (Fl ℝ))} {gz : Fl ℝ} :
    (cmpSys (shapes.map cmpGeom) gz).Consistent cmpEnv where
  types_len := rfl
  links_len := rfl
  omc_len := rfl
  names_len := rfl
  names_nodup := by simp [cmpSys]
  pos_ok := fun _ _ => ⟨rfl, rfl, rfl⟩
  geoms_ok := by
    intro g hg
    obtain ⟨sh, -, rfl⟩ := List.mem_map.1 hg
    simp [cmpGeom, cmpSys]
  known := by simp [Env.Known, cmpEnv]
  damping_len := rfl
  armature_len := rfl
  stiffness_len := rfl
  zeropoint_len := rfl
  unit_zero := fun _ _ _ => rfl

theorem cmpSys_params (geoms : List (Geometry (Fl ℝ))) (gz : Fl ℝ) :
    ParamsOk (fun k => if k = "rr" then 1 else 0) (cmpSys geoms gz) where
  keys := by simp [cmpSys]
  len := by simp [cmpSys]
  width := by simp [cmpSys]

theorem same_fin (x : ℝ) : Same (.fin x) (.fin x) := ⟨rfl, by simp⟩

theorem cmpT_same : TransformRel Same cmpT cmpT := by
  simp [TransformRel, VecRel, QuatRel, cmpT, same_fin]

theorem cmpSys_rel (R : Fl ℝ → Fl ℝ → Prop) (hR : ∀ x, R (.fin x) (.fin x))
    {l m : List (Geometry (Fl ℝ))} {x y : ℝ} (hg : List.Forall₂ (GeomRel R) l m)
    (h : R (.fin x) (.fin y)) : SysAlike R (cmpSys l (.fin x)) (cmpSys m (.fin y)) := by
  have hT : TransformRel R cmpT cmpT := by
    simp [TransformRel, VecRel, QuatRel, cmpT, hR]
  have hL : LinkRel R cmpLink cmpLink := by
    refine ⟨hT, ?_, ?_, ?_, hT, hT⟩
    · simp [VecRel, cmpLink, hR]
    · simp [VecRel, cmpLink, hR]
    · simp [InertiaRel, MatRel, VecRel, cmpLink, hR]
  refine ⟨rfl, rfl, rfl, rfl, rfl, rfl, ⟨rfl, by simp [cmpSys]⟩, ?_, ⟨fun _ => rfl, ?_⟩, ?_, ?_, ?_,
    ?_, hg, ⟨hR _, hR _, h⟩, ?_⟩
  · exact .cons hL (.cons hL .nil)
  · intro k a b ha hb
    have hab : a = b := Option.some.inj (ha.symm.trans hb)
    subst hab
    have hmem := lookup_mem ha
    simp only [cmpSys, List.mem_cons, Prod.mk.injEq, List.not_mem_nil, or_false] at hmem
    rcases hmem with ⟨-, rfl⟩ | ⟨-, rfl⟩ <;> simp [hR]
  all_goals simp [cmpSys, hR, OMCRel, VecRel]

/-- two systems which are the same: they have two geometries -/
example : tree_equal
    (objSystem (fun k => if k = "rr" then 1 else 0)
      (cmpSys ([.sphere (.fin 1), .capsule (.fin 1) (.fin 2)].map cmpGeom) (.fin (-9))))
    (objSystem (fun k => if k = "rr" then 1 else 0)
      (cmpSys ([.sphere (.fin 1), .capsule (.fin 1) (.fin 2)].map cmpGeom) (.fin (-9)))) =
    .ok true := by
  refine C53_identical cmpSys_consistent cmpSys_consistent (cmpSys_params _ _) (cmpSys_params _ _)
    (cmpSys_rel _ same_fin ?_ (same_fin _))
  simp [GeomRel, ShapeRel, cmpGeom, same_fin, cmpT_same]

/-- a box and a sphere are of different structure -/
example : ¬ SameStructure (cmpSys ([.sphere (.fin 1)].map cmpGeom) (.fin 1))
    (cmpSys ([.box (.fin 1) (.fin 1) (.fin 1)].map cmpGeom) (.fin 1)) := by
  intro h
  have := h.geoms
  simp [cmpSys, cmpGeom, GeomRel, ShapeRel] at this

/-- the assumption of `C53_sys_compare_partial` -/
example : Decides (sys_compare
    (objSystem (fun k => if k = "rr" then 1 else 0)
      (cmpSys ([.sphere (.fin 1)].map cmpGeom) (.fin (-9))))
    (objSystem (fun k => if k = "rr" then 1 else 0)
      (cmpSys ([.sphere (.fin 2)].map cmpGeom) (.fin (-8)))))
    (SysAlike Near (cmpSys ([.sphere (.fin 1)].map cmpGeom) (.fin (-9)))
      (cmpSys ([.sphere (.fin 2)].map cmpGeom) (.fin (-8)))) := by
  refine C53_sys_compare_partial cmpSys_consistent cmpSys_consistent (cmpSys_params _ _)
    (cmpSys_params _ _) (by simp [cmpSys]) fun _ _ => ⟨by simp [cmpSys], ?_⟩
  simp [cmpSys, cmpGeom, SameKind, ShapeRel]

/-- without geometries -/
example : sys_compare
    (objSystem (fun k => if k = "rr" then 1 else 0) (cmpSys [] (.fin 1)))
    (objSystem (fun k => if k = "rr" then 1 else 0) (cmpSys [] (.fin 1))) = .error .index :=
  C53_empty_fails (cmpSys_consistent (shapes := [])) (cmpSys_params _ _) (by simp [cmpSys]) rfl
    (cmpSys_rel _ same_fin .nil (same_fin _))

/-- one geometry against two -/
example : sys_compare
    (objSystem (fun k => if k = "rr" then 1 else 0)
      (cmpSys ([.sphere (.fin 1)].map cmpGeom) (.fin 1)))
    (objSystem (fun k => if k = "rr" then 1 else 0)
      (cmpSys ([.sphere (.fin 1), .sphere (.fin 1)].map cmpGeom) (.fin 1))) =
    .error .assertion := by
  refine C53_count_fails cmpSys_consistent cmpSys_consistent (cmpSys_params _ _)
    (cmpSys_params _ _) (by simp [cmpSys])
    ((cmpSys_rel (l := []) (m := []) _ same_fin .nil (same_fin _)).mono fun _ _ => same_near)
    (by simp [cmpSys]) (front := [cmpGeom (.sphere (.fin 1))])
    (more := [cmpGeom (.sphere (.fin 1))]) rfl (by simp) ?_
  refine List.Forall₂.imp (fun _ _ h => GeomRel.mono (fun _ _ => same_near) h)
    (R := GeomRel Same) ?_
  simp [cmpSys, GeomRel, ShapeRel, cmpGeom, same_fin, cmpT_same]

/-- a box against a sphere -/
example : sys_compare
    (objSystem (fun k => if k = "rr" then 1 else 0)
      (cmpSys ([.box (.fin 1) (.fin 1) (.fin 1)].map cmpGeom) (.fin 1)))
    (objSystem (fun k => if k = "rr" then 1 else 0)
      (cmpSys ([.sphere (.fin 1)].map cmpGeom) (.fin 1))) = .error .key :=
  C53_kind_fails cmpSys_consistent cmpSys_consistent (cmpSys_params _ _)
    (cmpSys_params _ _) (by simp [cmpSys])
    ((cmpSys_rel (l := []) (m := []) _ same_fin .nil (same_fin _)).mono fun _ _ => same_near)
    (g := cmpGeom (.sphere (.fin 1))) (same_fin _) cmpT_same rfl rfl

/-- The order of the arguments matters: `tree_equal(a, b)` is true and `tree_equal(b, a)` false for
two systems that differ in gravity by a little more than the tolerance. -/
theorem C53_order_fails : ∃ (w : String → Nat) (s t : System (Fl ℝ) (List (Fl ℝ))),
    s.Consistent cmpEnv ∧ t.Consistent cmpEnv ∧ ParamsOk w s ∧ ParamsOk w t ∧
    tree_equal (objSystem w s) (objSystem w t) = .ok true ∧
    tree_equal (objSystem w t) (objSystem w s) = .ok false := by
  have hn : Near (.fin 1) (.fin (1 + (1001 / 10 ^ 8 + 1 / 10 ^ 11))) := by
    refine .fin ?_
    rw [abs_of_nonpos (by norm_num), abs_of_pos (by norm_num)]
    norm_num
  have hn' : ¬ Near (.fin (1 + (1001 / 10 ^ 8 + 1 / 10 ^ 11))) (.fin 1) := by
    rintro (h | _ | _)
    rw [abs_of_pos (by norm_num), abs_of_pos (by norm_num)] at h
    norm_num at h
  refine ⟨_, cmpSys ([].map cmpGeom) (.fin 1),
    cmpSys ([].map cmpGeom) (.fin (1 + (1001 / 10 ^ 8 + 1 / 10 ^ 11))),
    cmpSys_consistent, cmpSys_consistent, cmpSys_params _ _, cmpSys_params _ _, ?_, ?_⟩
  · exact (C53_tree_equal cmpSys_consistent cmpSys_consistent (cmpSys_params _ _)
      (cmpSys_params _ _)).eq_true (cmpSys_rel _ (fun x => same_near (same_fin x)) .nil hn)
  · obtain ⟨b, hb, hP⟩ := C53_tree_equal (cmpSys_consistent (shapes := [])
      (gz := .fin (1 + (1001 / 10 ^ 8 + 1 / 10 ^ 11)))) (cmpSys_consistent (shapes := [])
      (gz := .fin 1)) (cmpSys_params _ _) (cmpSys_params _ _)
    rw [hb]
    cases b
    · rfl
    · exact absurd (hP.1 rfl).gravity.2.2 hn'

/-- A system with a `NaN` is different from itself. -/
theorem C53_nan_fails : ∃ (w : String → Nat) (s : System (Fl ℝ) (List (Fl ℝ))),
    s.Consistent cmpEnv ∧ ParamsOk w s ∧ tree_equal (objSystem w s) (objSystem w s) = .ok false := by
  refine ⟨_, cmpSys ([].map cmpGeom) .nan, cmpSys_consistent, cmpSys_params _ _, ?_⟩
  obtain ⟨b, hb, hP⟩ := C53_tree_equal (cmpSys_consistent (shapes := []) (gz := .nan))
    cmpSys_consistent (cmpSys_params _ _) (cmpSys_params _ _)
  rw [hb]
  cases b
  · rfl
  · exact absurd (hP.1 rfl).gravity.2.2 (fun h => nomatch h)

/-- the assumption of `C53_order_partial` -/
example : SysAlike NearOne (cmpSys [] (.fin 1)) (cmpSys [] (.fin 1)) →
    SysAlike NearBoth (cmpSys [] (.fin 1)) (cmpSys [] (.fin 1)) := fun _ =>
  cmpSys_rel _ (fun x => ⟨same_near (same_fin x), same_near (same_fin x)⟩) .nil
    ⟨same_near (same_fin _), same_near (same_fin _)⟩

end utils
end RingLib
