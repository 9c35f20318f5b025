import Verif.Lemmas.XmlTree

/-! The recursion over the bodies. -/

namespace RingLib
namespace io
open System morph
variable {α π K V W : Type} [Field α] [DecidableEq α]

def kidsOf (P : List Int) (x : Int) : List Nat :=
  (List.range P.length).filter fun i => P[i]? = some x

theorem mem_kidsOf {P : List Int} {x : Int} {c : Nat} : c ∈ kidsOf P x ↔ P[c]? = some x := by
  simp only [kidsOf, List.mem_filter, List.mem_range, decide_eq_true_eq]
  exact ⟨fun h => h.2, fun h => ⟨(List.getElem?_eq_some_iff.1 h).1, h⟩⟩

/-- the links below `i` and `i` itself in the order of a depth-first search -/
def ord (P : List Int) : Nat → Nat → List Nat
  | 0, _ => []
  | fuel + 1, i => i :: ((kidsOf P (i : Int)).map (ord P fuel)).flatten

/-- the element of link `i` -/
def tree (E : Env α π) (T : Txt α) (s : System α π) : Nat → Nat → Xml String
  | 0, _ => .node "body" [] []
  | fuel + 1, i => .node "body" (bodyDict E T s i)
      (partsOf T s i ++ (kidsOf s.link_parents (i : Int)).map (tree E T s fuel))

theorem tree_tag (E : Env α π) (T : Txt α) (s : System α π) (fuel i : Nat) :
    (tree E T s fuel i).tag = "body" := by
  cases fuel <;> rfl

theorem findChildsOf_ord {P : List Int} : ∀ (fuel L : Nat) (x : Int), Level P L x →
    P.length + 1 ≤ L + (fuel + 1) →
    findChildsOf P (fuel + 1) x = .ok ((kidsOf P x).map (ord P fuel)).flatten := by
  intro fuel
  induction fuel with
  | zero =>
    intro L x h hf
    have hk : kidsOf P x = [] := by
      rw [List.eq_nil_iff_forall_not_mem]
      intro c hc
      have := (Level.link (mem_kidsOf.1 hc) h).le
      omega
    rw [findChildsOf]
    have hk' : ((List.range P.length).filter fun i => P[i]? = some x) = [] := hk
    rw [hk', hk]
    rfl
  | succ fuel ih =>
    intro L x h hf
    rw [findChildsOf]
    have : ((List.range P.length).filter fun i => P[i]? = some x) = kidsOf P x := rfl
    rw [this, mapM_ok (g := ord P (fuel + 1)), ok_bind]
    · rfl
    · intro c hc
      rw [ih (L + 1) c (.link (mem_kidsOf.1 hc) h) (by omega), ok_bind]
      rfl

section
variable {E : Env α π} {T : Txt α} {s : System α π}

theorem process_link_eq (h : s.Consistent E) {qmap dmap : List (String × Idx)}
    (hq : s.idx_map E .q = .ok qmap) (hd : s.idx_map E .d = .ok dmap) :
    ∀ (fuel L i : Nat), Level s.link_parents L (i : Int) → s.link_parents.length + 1 ≤ L + fuel →
      process_link E T s qmap dmap fuel i = .ok (tree E T s fuel i) := by
  intro fuel
  induction fuel with
  | zero =>
    intro L i h hf
    have := h.le
    omega
  | succ fuel ih =>
    intro L i hL hf
    have hi : i < s.link_parents.length := by
      generalize hx : (i : Int) = x at hL
      cases hL with
      | world => omega
      | @link L j p hp h =>
        have : i = j := by omega
        subst this
        exact (List.getElem?_eq_some_iff.1 hp).1
    obtain ⟨q', d', e1, e2, e3⟩ := bodyAttrib_eq (T := T) h hi
    rw [hq] at e1
    rw [hd] at e2
    obtain rfl := Except.ok.inj e1
    obtain rfl := Except.ok.inj e2
    rw [process_link, e3, ok_bind, bodyParts_eq h hi, ok_bind]
    have : ((List.range s.link_parents.length).filter fun j =>
        s.link_parents[j]? = some (i : Int)) = kidsOf s.link_parents (i : Int) := rfl
    rw [this, mapM_ok (g := tree E T s fuel), ok_bind]
    · rfl
    · intro c hc
      exact ih (L + 1) c (.link (mem_kidsOf.1 hc) hL) (by omega)

theorem process_bodies_skip (a b : List (Xml (AVal α))) (ha : ∀ c ∈ a, c.tag ≠ "body") (p : Int)
    (st : LoadState α) : process_bodies E T (a ++ b) p st = process_bodies E T b p st := by
  induction a with
  | nil => rfl
  | cons c a ih =>
    rw [List.cons_append, process_bodies, if_neg (ha c (by simp)), ih fun d hd => ha d (by simp [hd])]

theorem parts_tag (i : Nat) : ∀ c ∈ (partsOf T s i).map (convX T), c.tag ≠ "body" := by
  intro c hc
  simp only [partsOf, List.map_append, List.mem_append, List.map_map, List.mem_map] at hc
  rcases hc with ⟨g, -, rfl⟩ | ⟨g, -, rfl⟩ <;> simp [Xml.mapAttrib, Xml.tag]

theorem idxOf_append_cons {pre post : List Nat} {i : Nat} (h : (pre ++ i :: post).Nodup) :
    (pre ++ i :: post).idxOf i = pre.length := by
  have : i ∉ pre := by
    intro hi
    rw [List.nodup_append] at h
    exact h.2.2 i hi i (by simp) rfl
  rw [List.idxOf_append_of_notMem this]
  simp

theorem process_body_eq (h : Savable E T s) {l : List Nat} (hl : l.Nodup) :
    ∀ (fuel L i : Nat) (pre post : List Nat) (acc : List (Int × LinkRec α)),
      Level s.link_parents L (i : Int) → s.link_parents.length + 1 ≤ L + fuel →
      l = pre ++ ord s.link_parents fuel i ++ post →
      process_body E T (convX T (tree E T s fuel i)) (renum l (s.link_parents.getD i 0))
          ((pre.length : Int) - 1, acc) =
        .ok (((pre ++ ord s.link_parents fuel i).length : Int) - 1,
          acc ++ (ord s.link_parents fuel i).map fun j => ((l.idxOf j : Int), lrec E s l j)) := by
  intro fuel
  induction fuel with
  | zero =>
    intro L i _ _ _ h hf
    have := h.le
    omega
  | succ fuel ih =>
    intro L i pre post acc hL hf hpre
    have hi : i < s.link_parents.length := by
      generalize hx : (i : Int) = x at hL
      cases hL with
      | world => omega
      | @link L j p hp h =>
        have : i = j := by omega
        subst this
        exact (List.getElem?_eq_some_iff.1 hp).1
    have hidx : l.idxOf i = pre.length := by
      rw [hpre, ord, List.append_assoc, List.cons_append]
      apply idxOf_append_cons
      rw [hpre, ord, List.append_assoc, List.cons_append] at hl
      exact hl
    have main : ∀ (cs : List Nat) (pre post : List Nat) (acc : List (Int × LinkRec α)),
        (∀ c ∈ cs, s.link_parents[c]? = some (i : Int)) →
        l = pre ++ (cs.map (ord s.link_parents fuel)).flatten ++ post →
        process_bodies E T ((cs.map (tree E T s fuel)).map (convX T)) (l.idxOf i : Int)
            ((pre.length : Int) - 1, acc) =
          .ok (((pre ++ (cs.map (ord s.link_parents fuel)).flatten).length : Int) - 1,
            acc ++ (cs.map (ord s.link_parents fuel)).flatten.map fun j =>
              ((l.idxOf j : Int), lrec E s l j)) := by
      intro cs
      induction cs with
      | nil =>
        intro pre post acc _ _
        simp [process_bodies]
      | cons c cs ihc =>
        intro pre post acc hcs hpre
        rw [List.map_cons, List.map_cons, process_bodies,
          if_pos (by rw [tag_mapAttrib, tree_tag])]
        have hp : renum l (s.link_parents.getD c 0) = (l.idxOf i : Int) := by
          have := hcs c (by simp)
          obtain ⟨h1, h2⟩ := List.getElem?_eq_some_iff.1 this
          rw [List.getD_eq_getElem _ _ h1, h2, renum, if_neg (by omega), Int.toNat_natCast]
        rw [List.map_cons, List.flatten_cons] at hpre ⊢
        have h1 := ih (L + 1) c pre ((cs.map (ord s.link_parents fuel)).flatten ++ post) acc
          (.link (hcs c (by simp)) hL) (by omega) (by rw [hpre]; simp)
        rw [hp] at h1
        rw [h1, ok_bind]
        have h2 := ihc (pre ++ ord s.link_parents fuel c) post
          (acc ++ (ord s.link_parents fuel c).map fun j => ((l.idxOf j : Int), lrec E s l j))
          (fun d hd => hcs d (by simp [hd])) (by rw [hpre]; simp)
        rw [h2]
        simp
    have hr := readBody_eq h hi (kids := (((kidsOf s.link_parents (i : Int)).map
      (tree E T s fuel)).map (convX T))) (by
        intro c hc
        simp only [List.map_map, List.mem_map] at hc
        obtain ⟨d, -, rfl⟩ := hc
        simp only [Function.comp, tag_mapAttrib, tree_tag]) l
    simp only [tree, Xml.mapAttrib, mapAttribList_eq]
    rw [process_body]
    simp only []
    have e0 : (pre.length : Int) - 1 + 1 = (l.idxOf i : Int) := by rw [hidx]; omega
    rw [e0, List.map_append]
    rw [hr, ok_bind, process_bodies_skip _ _ (parts_tag i)]
    have := main (kidsOf s.link_parents (i : Int)) (pre ++ [i]) post
      (acc ++ [((l.idxOf i : Int), lrec E s l i)]) (fun c hc => mem_kidsOf.1 hc)
      (by rw [hpre, ord]; simp)
    rw [show (((pre ++ [i]).length : Int) - 1) = (l.idxOf i : Int) by rw [hidx]; simp] at this
    rw [this, ord]
    simp

/-- loading all bodies -/
theorem process_bodies_eq (h : Savable E T s) {l : List Nat} (hl : l.Nodup)
    (hl2 : l = ((kidsOf s.link_parents (-1)).map (ord s.link_parents s.link_parents.length)).flatten) :
    process_bodies E T (((kidsOf s.link_parents (-1)).map
        (tree E T s s.link_parents.length)).map (convX T)) (-1) (-1, []) =
      .ok ((l.length : Int) - 1, l.map fun j => ((l.idxOf j : Int), lrec E s l j)) := by
  have main : ∀ (cs : List Nat) (pre post : List Nat) (acc : List (Int × LinkRec α)),
      (∀ c ∈ cs, s.link_parents[c]? = some (-1)) →
      l = pre ++ (cs.map (ord s.link_parents s.link_parents.length)).flatten ++ post →
      process_bodies E T ((cs.map (tree E T s s.link_parents.length)).map (convX T)) (-1)
          ((pre.length : Int) - 1, acc) =
        .ok (((pre ++ (cs.map (ord s.link_parents s.link_parents.length)).flatten).length : Int) - 1,
          acc ++ (cs.map (ord s.link_parents s.link_parents.length)).flatten.map fun j =>
            ((l.idxOf j : Int), lrec E s l j)) := by
    intro cs
    induction cs with
    | nil =>
      intro pre post acc _ _
      simp [process_bodies]
    | cons c cs ihc =>
      intro pre post acc hcs hpre
      rw [List.map_cons, List.map_cons, process_bodies,
        if_pos (by rw [tag_mapAttrib, tree_tag])]
      have hp : renum l (s.link_parents.getD c 0) = -1 := by
        have := hcs c (by simp)
        obtain ⟨h1, h2⟩ := List.getElem?_eq_some_iff.1 this
        rw [List.getD_eq_getElem _ _ h1, h2, renum, if_pos rfl]
      rw [List.map_cons, List.flatten_cons] at hpre ⊢
      have h1 := process_body_eq h hl s.link_parents.length 1 c pre
        ((cs.map (ord s.link_parents s.link_parents.length)).flatten ++ post) acc
        (.link (hcs c (by simp)) .world) (by omega) (by rw [hpre]; simp)
      rw [hp] at h1
      rw [h1, ok_bind]
      have h2 := ihc (pre ++ ord s.link_parents s.link_parents.length c) post
        (acc ++ (ord s.link_parents s.link_parents.length c).map fun j =>
          ((l.idxOf j : Int), lrec E s l j))
        (fun d hd => hcs d (by simp [hd])) (by rw [hpre]; simp)
      rw [h2]
      simp
  have := main (kidsOf s.link_parents (-1)) [] [] [] (fun c hc => mem_kidsOf.1 hc) (by simp [← hl2])
  rw [← hl2] at this
  simpa using this

/-! ## the checks of the elements -/

theorem iterList_append (a b : List (Xml V)) :
    Xml.iterList (a ++ b) = Xml.iterList a ++ Xml.iterList b := by
  induction a with
  | nil => rfl
  | cons x a ih => rw [List.cons_append, Xml.iterList, Xml.iterList, ih, List.append_assoc]

theorem mem_iterList {l : List (Xml V)} {x : String × Dict V} :
    x ∈ Xml.iterList l ↔ ∃ c ∈ l, x ∈ c.iter := by
  induction l with
  | nil => simp [Xml.iterList]
  | cons c l ih => simp [Xml.iterList, ih]

theorem keys_sub_setUnless {β : Type} [DecidableEq β] {d : Dict String} {key : String} {x y : β}
    {text : String} {valid : List String} (h : ∀ a ∈ d.keys, a ∈ valid) (hk : key ∈ valid) :
    ∀ a ∈ (setUnless d key x y text).keys, a ∈ valid := by
  unfold setUnless
  intro a ha
  split at ha
  · exact h a ha
  · rcases mem_keys_set.1 ha with rfl | ha
    exacts [hk, h a ha]

theorem keys_sub_set {d : Dict String} {key : String} {text : String} {valid : List String}
    (h : ∀ a ∈ d.keys, a ∈ valid) (hk : key ∈ valid) : ∀ a ∈ (d.set key text).keys, a ∈ valid := by
  intro a ha
  rcases mem_keys_set.1 ha with rfl | ha
  exacts [hk, h a ha]

theorem keys_sub_setSome {d : Dict String} {key : String} {o : Option String} {valid : List String}
    (h : ∀ a ∈ d.keys, a ∈ valid) (hk : key ∈ valid) : ∀ a ∈ (setSome d key o).keys, a ∈ valid := by
  cases o with
  | none => exact h
  | some t => exact keys_sub_set h hk

theorem keys_sub_nil {valid : List String} : ∀ a ∈ Dict.keys ([] : Dict String), a ∈ valid := by
  simp [Dict.keys]

theorem checkElement_ok {x : String × Dict V} {valid : List String}
    (hv : List.lookup x.1 valid_attrs = some valid) (h : ∀ a ∈ x.2.keys, a ∈ valid) :
    checkElement x = .ok () := by
  unfold checkElement pyDict
  rw [pyAssert_true ((Dict.lookup_isSome _ _).2 ⟨_, hv⟩), ok_bind, hv, ok_bind, pyAssert_true h]

theorem geom_valid (g : Geometry α) : checkElement ("geom", geomToXml T g) = .ok () := by
  refine checkElement_ok (valid := ["type", "mass", "pos", "dim", "quat", "euler", "color", "edge_color"])
    (by dsimp only; decide) ?_
  have hp : ∀ a ∈ (_to_xml_geom_processing T g).keys, a ∈
      ["type", "mass", "pos", "dim", "quat", "euler", "color", "edge_color"] :=
    keys_sub_set (keys_sub_setSome (keys_sub_setSome (keys_sub_set (keys_sub_setUnless
      (keys_sub_setUnless keys_sub_nil (by decide)) (by decide)) (by decide)) (by decide))
      (by decide)) (by decide)
  unfold geomToXml
  split
  · exact keys_sub_set hp (by decide)
  · exact keys_sub_set hp (by decide)
  · exact keys_sub_set hp (by decide)
  · exact keys_sub_set hp (by decide)
  · exact keys_sub_setUnless (keys_sub_set keys_sub_nil (by decide)) (by decide)

theorem omc_valid (o : MaxCoordOMC α) : checkElement ("omc", omcToXml T o) = .ok () := by
  refine checkElement_ok (valid := ["name", "pos_marker", "pos"]) (by dsimp only; decide) ?_
  exact keys_sub_set (keys_sub_set (keys_sub_setUnless keys_sub_nil (by decide)) (by decide))
    (by decide)

theorem body_valid (i : Nat) : checkElement ("body", bodyDict E T s i) = .ok () := by
  refine checkElement_ok (valid := ["name", "pos", "pos_min", "pos_max", "quat", "euler", "joint",
    "armature", "damping", "spring_stiff", "spring_zero"]) (by dsimp only; decide) ?_
  refine keys_sub_setUnless (keys_sub_setUnless (keys_sub_setUnless (keys_sub_setUnless ?_
    (by decide)) (by decide)) (by decide)) (by decide)
  have h1 : ∀ a ∈ (transToXml T ((Dict.set [] "joint" (typAt s i)).set "name" (nameAt s i))
      (rowAt s i).transform1).keys, a ∈ ["name", "pos", "pos_min", "pos_max", "quat", "euler", "joint",
        "armature", "damping", "spring_stiff", "spring_zero"] :=
    keys_sub_setUnless (keys_sub_setUnless (keys_sub_set (keys_sub_set keys_sub_nil (by decide))
      (by decide)) (by decide)) (by decide)
  unfold posMinMaxToXml
  split
  · exact h1
  · exact keys_sub_set (keys_sub_set h1 (by decide)) (by decide)

theorem tree_valid : ∀ (fuel i : Nat), ∀ x ∈ (tree E T s fuel i).iter, checkElement x = .ok () := by
  intro fuel
  induction fuel with
  | zero =>
    intro i x hx
    simp only [tree, Xml.iter, Xml.iterList, List.mem_cons, List.not_mem_nil, or_false] at hx
    subst hx
    exact checkElement_ok (valid := ["name", "pos", "pos_min", "pos_max", "quat", "euler", "joint",
      "armature", "damping", "spring_stiff", "spring_zero"]) (by decide) keys_sub_nil
  | succ fuel ih =>
    intro i x hx
    rw [tree, Xml.iter, List.mem_cons, iterList_append, List.mem_append, mem_iterList, mem_iterList] at hx
    rcases hx with rfl | ⟨c, hc, hx⟩ | ⟨c, hc, hx⟩
    · exact body_valid i
    · simp only [partsOf, List.mem_append, List.mem_map] at hc
      rcases hc with ⟨g, -, rfl⟩ | ⟨o, -, rfl⟩
      · simp only [Xml.iter, Xml.iterList, List.mem_cons, List.not_mem_nil, or_false] at hx
        subst hx
        exact geom_valid g
      · simp only [Xml.iter, Xml.iterList, List.mem_cons, List.not_mem_nil, or_false] at hx
        subst hx
        exact omc_valid o
    · obtain ⟨j, -, rfl⟩ := List.mem_map.1 hc
      exact ih j x hx

/-! ## defaults -/

theorem mixIn_none (tag : String) (attr : Dict V) :
    mixIn [("geom", []), ("body", [])] tag attr = attr := by
  unfold mixIn
  rw [Dict.lookup_if, Dict.lookup_if]
  by_cases h1 : tag = "geom"
  · simp [h1]
  · by_cases h2 : tag = "body"
    · simp [h2]
    · simp [h1, h2]

mutual
theorem mapAttrib_id (f : String → Dict V → Dict V) (hf : ∀ t a, f t a = a) :
    ∀ x : Xml V, x.mapAttrib f = x
  | .node t a cs => by rw [Xml.mapAttrib, hf, mapAttribList_id f hf cs]
theorem mapAttribList_id (f : String → Dict V → Dict V) (hf : ∀ t a, f t a = a) :
    ∀ x : List (Xml V), Xml.mapAttribList f x = x
  | [] => rfl
  | c :: cs => by rw [Xml.mapAttribList, mapAttrib_id f hf c, mapAttribList_id f hf cs]
end

end
end io
end RingLib
