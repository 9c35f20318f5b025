import Verif.Props.Xml

/-!
# C70: defaults when a system is loaded
-/

namespace RingLib
namespace io
open System morph
variable {α π V W : Type}

/-! ## specification -/

/-- The only child with a tag, or `none` if there is none. -/
def OnlyChild (x : Xml V) (t : String) : Option (Xml V) → Prop
  | none => ∀ c ∈ x.children, c.tag ≠ t
  | some y => ∃ a b, x.children = a ++ y :: b ∧ y.tag = t ∧ (∀ c ∈ a, c.tag ≠ t) ∧ ∀ c ∈ b, c.tag ≠ t

/-- the attributes of `<defaults><t ../></defaults>` -/
def IsDefaults (x : Xml V) (t : String) (a : Dict V) : Prop :=
  (OnlyChild x "defaults" none ∧ a = []) ∨
  ∃ d, OnlyChild x "defaults" (some d) ∧
    ((OnlyChild d t none ∧ a = []) ∨ ∃ y, OnlyChild d t (some y) ∧ a = y.attrib)

/-- The joints whose first four coordinates are a quaternion: `free`, `cor` and `spherical` and their
overwritten variants, but not `free_2d`. -/
def StartsWithQuat (typ : String) : Prop :=
  typ ≠ "free_2d" ∧ ∃ p ∈ ["free", "cor", "spherical"], p.toList <+: typ.toList

/-! ## proofs -/

theorem startsWithQuat_iff (typ : String) :
    joint_type_is_free_or_cor_or_spherical typ = true ↔ StartsWithQuat typ := by
  have hp : ∀ (p : String) (n : Nat), p.toList.length = n →
      (p.toList <+: typ.toList ↔ typ.toList.take n = p.toList) := by
    intro p n hn
    rw [List.prefix_iff_eq_take, hn, eq_comm]
  unfold StartsWithQuat joint_type_is_free_or_cor_or_spherical joint_type_simplification
  simp only [List.mem_cons, List.not_mem_nil, or_false, exists_eq_or_imp, exists_eq_left,
    hp "free" 4 rfl, hp "cor" 3 rfl, hp "spherical" 9 rfl, decide_eq_true_eq]
  by_cases h1 : typ.toList.take 4 = "free".toList
  · rw [if_pos h1]
    by_cases h2 : typ = "free_2d"
    · simp [h2]
    · simp [h1, h2]
  · rw [if_neg h1]
    have h2 : typ ≠ "free_2d" := by
      rintro rfl
      exact h1 (by decide)
    by_cases h3 : typ.toList.take 3 = "cor".toList
    · simp [h2, h3]
    · rw [if_neg h3]
      by_cases h4 : typ.toList.take 9 = "spherical".toList
      · simp [h2, h4]
      · rw [if_neg h4]
        refine iff_of_false ?_ (fun h => h.2.elim h1 fun h => h.elim h3 h4)
        rintro (rfl | rfl | rfl)
        · exact h1 (by decide)
        · exact h3 (by decide)
        · exact h4 (by decide)

mutual
theorem iter_mapAttrib (f : String → Dict V → Dict W) :
    ∀ x : Xml V, (x.mapAttrib f).iter = x.iter.map fun y => (y.1, f y.1 y.2)
  | .node t a cs => by
    rw [Xml.mapAttrib, Xml.iter, Xml.iter, List.map_cons, iterList_mapAttrib f cs]
theorem iterList_mapAttrib (f : String → Dict V → Dict W) :
    ∀ x : List (Xml V), Xml.iterList (Xml.mapAttribList f x) =
      (Xml.iterList x).map fun y => (y.1, f y.1 y.2)
  | [] => rfl
  | c :: cs => by
    rw [Xml.mapAttribList, Xml.iterList, Xml.iterList, List.map_append, iter_mapAttrib f c,
      iterList_mapAttrib f cs]
end

theorem findall_none {x : Xml V} {t : String} (h : x.findall t = []) : OnlyChild x t none := by
  intro c hc e
  unfold Xml.findall at h
  rw [List.filter_eq_nil_iff] at h
  exact h c hc (by simpa using e)

theorem findall_one {x y : Xml V} {t : String} (h : x.findall t = [y]) :
    OnlyChild x t (some y) := by
  unfold Xml.findall at h
  obtain ⟨a, b, e, ha, hy, hb⟩ := List.filter_eq_cons_iff.1 h
  refine ⟨a, b, e, by simpa using hy, fun c hc => by simpa using ha c hc, ?_⟩
  intro c hc
  have := List.filter_eq_nil_iff.1 hb c hc
  simpa using this

theorem find_unique_one {x : Xml V} {t : String} {o : Option (Xml V)}
    (h : _find_assert_unique x [t] = .ok o) : OnlyChild x t o := by
  rw [_find_assert_unique] at h
  split at h
  · rename_i e
    rw [← Except.ok.inj h]
    exact findall_none e
  · rename_i e
    rw [← Except.ok.inj h]
    exact findall_one e
  · cases h

theorem defaultAttrib_spec {x : Xml V} {t : String} {a : Dict V} (h : defaultAttrib x t = .ok a) :
    IsDefaults x t a := by
  unfold defaultAttrib at h
  rw [ml.bind_ok_iff] at h
  obtain ⟨o, ho, h⟩ := h
  unfold _find_assert_unique at ho
  split at ho
  · rename_i e
    rw [← Except.ok.inj ho] at h
    exact Or.inl ⟨findall_none e, (Except.ok.inj h).symm⟩
  · rename_i d e
    refine Or.inr ⟨d, findall_one e, ?_⟩
    have := find_unique_one ho
    cases o with
    | none => exact Or.inl ⟨this, (Except.ok.inj h).symm⟩
    | some y => exact Or.inr ⟨y, this, (Except.ok.inj h).symm⟩
  · cases ho

theorem lookup_mixFold (defs : Dict V) (hn : (Dict.keys defs).Nodup) (attr : Dict V) (k : String) :
    List.lookup k (defs.foldl (fun a x => if x.1 ∈ Dict.keys a then a else Dict.set a x.1 x.2) attr) =
      (List.lookup k attr).or (List.lookup k defs) := by
  induction defs generalizing attr with
  | nil => simp
  | cons x defs ih =>
    obtain ⟨kx, vx⟩ := x
    have hn' : kx ∉ Dict.keys defs ∧ (Dict.keys defs).Nodup := by simpa [Dict.keys] using hn
    rw [List.foldl_cons, ih hn'.2, Dict.lookup_if]
    by_cases hm : kx ∈ Dict.keys attr
    · rw [if_pos hm]
      by_cases hk : k = kx
      · subst hk
        obtain ⟨v, hv⟩ := (Dict.lookup_isSome _ _).1 hm
        simp [hv]
      · simp [hk]
    · rw [if_neg hm, Dict.lookup_set]
      by_cases hk : k = kx
      · subst hk
        rw [if_pos rfl, if_pos rfl, (Dict.lookup_eq_none _ _).2 hm]
        simp
      · simp [hk]

/-- C70: `<defaults>` fill in the attributes that bodies and geometries do not have themselves, at any
depth, and change nothing else. -/
theorem C70_defaults {T : Txt α} {x : Xml String} {tree wb : Xml (AVal α)}
    (h : _initial_setup T x = .ok (tree, wb))
    (hn : ∀ c ∈ tree.iter, (Dict.keys c.2).Nodup) :
    ∃ wb0 dg db, OnlyChild tree "worldbody" (some wb0) ∧ IsDefaults tree "geom" dg ∧
      IsDefaults tree "body" db ∧
      wb.iter.map Prod.fst = wb0.iter.map Prod.fst ∧
      ∀ (i : Nat) t a b, wb0.iter[i]? = some (t, a) → wb.iter[i]? = some (t, b) →
        ∀ k, List.lookup k b = (List.lookup k a).or
          (if t = "geom" then List.lookup k dg else if t = "body" then List.lookup k db else none) := by
  unfold _initial_setup at h
  rw [ml.bind_ok_iff] at h
  obtain ⟨-, -, h⟩ := h
  simp only at h
  rw [ml.bind_ok_iff] at h
  obtain ⟨defs, hdefs, h⟩ := h
  rw [ml.bind_ok_iff] at h
  obtain ⟨o, ho, h⟩ := h
  unfold _build_defaults_attributes at hdefs
  rw [ml.bind_ok_iff] at hdefs
  obtain ⟨dg, hdg, hdefs⟩ := hdefs
  rw [ml.bind_ok_iff] at hdefs
  obtain ⟨db, hdb, hdefs⟩ := hdefs
  have hd : defs = [("geom", dg), ("body", db)] := (Except.ok.inj hdefs).symm
  cases o with
  | none => cases h
  | some wb0 =>
    have h := Prod.mk.inj (Except.ok.inj h)
    rw [h.1] at hdg hdb ho
    obtain ⟨-, h⟩ := h
    have hg := defaultAttrib_spec hdg
    have hb := defaultAttrib_spec hdb
    have hsub : ∀ {x y : Xml (AVal α)} {t : String}, OnlyChild x t (some y) →
        ∀ c ∈ y.iter, c ∈ x.iter := by
      intro x y t ⟨a, b, e, _⟩ c hc
      cases x with
      | node t' a' cs =>
        rw [Xml.iter]
        refine List.mem_cons_of_mem _ ?_
        rw [mem_iterList]
        refine ⟨y, ?_, hc⟩
        have : cs = a ++ y :: b := e
        rw [this]; simp
    have hself : ∀ y : Xml (AVal α), (y.tag, y.attrib) ∈ y.iter := by
      intro y
      cases y with
      | node t a cs => simp [Xml.iter, Xml.tag, Xml.attrib]
    have hnd : ∀ {t a}, IsDefaults tree t a → (Dict.keys a).Nodup := by
      intro t a ha
      rcases ha with ⟨-, rfl⟩ | ⟨d, hd, ⟨-, rfl⟩ | ⟨y, hy, rfl⟩⟩
      · simp [Dict.keys]
      · simp [Dict.keys]
      · exact hn _ (hsub hd _ (hsub hy _ (hself y)))
    refine ⟨wb0, dg, db, find_unique_one ho, hg, hb, ?_, ?_⟩
    · rw [← h, iter_mapAttrib, List.map_map]
      rfl
    · intro i t a b h1 h2 k
      rw [← h, iter_mapAttrib, List.getElem?_map, h1, Option.map_some] at h2
      have h2 := (Prod.mk.inj (Option.some.inj h2)).2
      rw [← h2, hd]
      unfold mixIn
      rw [Dict.lookup_if, Dict.lookup_if]
      by_cases t1 : t = "geom"
      · simp only [t1, if_true]
        exact lookup_mixFold dg (hnd hg) a k
      · by_cases t2 : t = "body"
        · simp only [t2, if_true, if_false, String.reduceEq]
          exact lookup_mixFold db (hnd hb) a k
        · simp only [t1, t2, if_false]
          simp

variable [Field α] [DecidableEq α]

/-- C70: a body without the attributes starts at the origin, without rotation, damping, armature and
spring, and with the origin of its joint as zero point; where the joint starts with a rotation, that is
the identity. -/
theorem C70_missing {E : Env α π} {T : Txt α} {attr : Dict (AVal α)} {children : List (Xml (AVal α))}
    {p k : Int} {r : LinkRec α} (h : readBody E T attr children p k = .ok r)
    (hm : ∀ x ∈ ["pos", "quat", "euler", "pos_min", "pos_max", "damping", "armature", "spring_stiff",
      "spring_zero"], List.lookup x attr = none) :
    ∃ nq nd, E.qw r.typ = some nq ∧ E.dw r.typ = some nd ∧
      r.transform = ⟨⟨0, 0, 0⟩, ⟨1, 0, 0, 0⟩⟩ ∧ r.pos_min = ⟨0, 0, 0⟩ ∧ r.pos_max = ⟨0, 0, 0⟩ ∧
      r.damping = List.replicate nd 0 ∧ r.armature = List.replicate nd 0 ∧
      r.stiffness = List.replicate nd 0 ∧ r.zeropoint.length = nq ∧
      (∀ i < nq, i ≠ 0 → r.zeropoint[i]? = some 0) ∧
      (0 < nq → StartsWithQuat r.typ → r.zeropoint[0]? = some 1) ∧
      (0 < nq → ¬ StartsWithQuat r.typ → r.zeropoint[0]? = some 0) := by
  simp only [List.mem_cons, List.not_mem_nil, or_false, forall_eq_or_imp, forall_eq] at hm
  obtain ⟨m1, m2, m3, m4, m5, m6, m7, m8, m9⟩ := hm
  have c3 : transFromXml T attr = .ok ⟨⟨0, 0, 0⟩, ⟨1, 0, 0, 0⟩⟩ := by
    unfold transFromXml getPos _get_rotation
    rw [m1, m2, m3]
    rfl
  have c4 : ∀ pos, posMinMaxFromXml attr pos = .ok (pos, pos) := by
    intro pos
    unfold posMinMaxFromXml
    rw [m4, m5]
  have c5 : ∀ nq nd t, dofFromXml attr nq nd t =
      .ok (default_dof nd, default_dof nd, default_dof nd, default_zeropoint nq t) := by
    intro nq nd t
    unfold dofFromXml getDof
    rw [m6, m7, m8, m9]
    rfl
  have hw : ∀ {w : String → Option Nat} {t : String} {n : Nat}, width w t = .ok n → w t = some n := by
    intro w t n h
    unfold width at h
    split at h
    · rename_i e
      rw [e, Except.ok.inj h]
    · cases h
  unfold readBody at h
  simp only [c3, ok_bind, c4, c5, ml.bind_ok_iff] at h
  obtain ⟨typ, h1, name, h2, omc, h3, nq, h4, nd, h5, geoms, h6, h7⟩ := h
  rw [← Except.ok.inj h7]
  refine ⟨nq, nd, hw h4, hw h5, rfl, rfl, rfl, rfl, rfl, rfl, ?_, ?_⟩
  · simp only [default_zeropoint]
    split <;> simp
  · rw [← startsWithQuat_iff]
    simp only [default_zeropoint]
    by_cases ht : joint_type_is_free_or_cor_or_spherical typ = true
    · rw [if_pos ht]
      refine ⟨fun i hi h0 => ?_, fun hi _ => ?_, fun _ h => absurd ht h⟩
      · rw [List.getElem?_set_ne (Ne.symm h0)]
        simp [hi]
      · rw [List.getElem?_set_self (by simpa using hi)]
    · rw [if_neg ht]
      refine ⟨fun i hi h0 => ?_, fun _ h => absurd h ht, fun hi _ => ?_⟩ <;> simp [hi]

/-! ## an example -/

/-- a hinge and a box that leaves its mass to the defaults -/
def defaultsDoc : Xml String :=
  .node "x_xy" [("model", "m")] [
    .node "defaults" [] [.node "geom" [("mass", "1"), ("color", "red")] []],
    .node "worldbody" [] [.node "body" [("name", "a"), ("joint", "free")]
      [.node "geom" [("type", "box"), ("dim", "1 1 1"), ("color", "blue")] []]]]

def defaultsTree : Xml (AVal ℚ) :=
  .node "x_xy" [("model", .str "m")] [
    .node "defaults" [] [.node "geom" [("mass", .scalar 0), ("color", .str "red")] []],
    .node "worldbody" [] [.node "body" [("name", .str "a"), ("joint", .str "free")]
      [.node "geom" [("type", .str "box"), ("dim", .arr [0, 0, 0]), ("color", .str "blue")] []]]]

/-- the text of `0` is `1` in this code -/
def oneTxt : Txt ℚ := { tallyTxt with num := fun w => if w = "1" then some 0 else none }

example : ∃ tree wb, _initial_setup oneTxt defaultsDoc = .ok (tree, wb) ∧
    (∀ c ∈ tree.iter, (Dict.keys c.2).Nodup) ∧
    wb = .node "worldbody" [] [.node "body" [("name", .str "a"), ("joint", .str "free")]
      [.node "geom" [("type", .str "box"), ("dim", .arr [0, 0, 0]), ("color", .str "blue"),
        ("mass", .scalar 0)] []]] := by
  refine ⟨defaultsTree, _, rfl, ?_, rfl⟩
  intro c hc
  simp only [defaultsTree, Xml.iter, Xml.iterList, List.append_nil, List.cons_append, List.nil_append,
    List.mem_cons, List.not_mem_nil, or_false] at hc
  rcases hc with rfl | rfl | rfl | rfl | rfl | rfl <;> simp [Dict.keys]

example : ∃ r : LinkRec ℚ, readBody xmlEnv oneTxt [("name", .str "a"), ("joint", .str "free")] [] (-1) 0 =
    .ok r ∧ r.zeropoint = [1, 0, 0, 0, 0, 0, 0] := ⟨_, rfl, rfl⟩

end io
end RingLib
