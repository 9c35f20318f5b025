import Verif.Lemmas.Anchors

/-!
# C73: every way to hold the trees of a system
-/

namespace RingLib
namespace randomize
open System algebra morph
variable {α π : Type} [Field α] {E : JEnv α π} {s r1 r2 : System α π}

/-! ## joining parts -/

/-- two views that differ at most in the inertia -/
structure Alike (v v' : LinkView α π) : Prop where
  parent : v'.parent = v.parent
  joint : v'.joint = v.joint
  omc : v'.omc = v.omc
  geoms : v'.geoms = v.geoms
  transform1 : v'.row.transform1 = v.row.transform1

omit [Field α] in
theorem withNaN_same {E : Env α π} (hk : ∀ t, t ∈ r1.joint_params.map (·.1) ↔ t ∈ r2.joint_params.map (·.1))
    (g : String → Option π) : withNaN E r1 r2 g = g := by
  funext t
  unfold withNaN
  split
  · rename_i rows e1 e2
    exfalso
    obtain ⟨l1, l2, e, _⟩ := List.lookup_eq_some_iff.1 e2
    have : t ∈ r1.joint_params.map (·.1) := (hk t).2 (by rw [e]; simp)
    obtain ⟨x, hx, rfl⟩ := List.mem_map.1 this
    rw [List.lookup_eq_none_iff] at e1
    exact absurd (e1 x hx) (by simp)
  · rfl

theorem heldAt_inject {part1 part2 : String → Prop} {as bs : List String} (h : s.WF E.toEnv)
    (h1 : s.HeldAt E part1 as r1) (h2 : s.HeldAt E part2 bs r2)
    (hd : ∀ m, part1 m → ¬ part2 m)
    (hsep : ∀ m n, s.Linked E.toEnv m n → part1 m → ¬ part2 n)
    (hn1 : r1.link_names ≠ []) (hn2 : r2.link_names ≠ []) :
    ∃ r, inject_system E.toEnv r1 r2 = .ok r ∧
      s.HeldAt E (fun m => part1 m ∨ part2 m) (as ++ bs) r ∧
      r.worldGeoms = r1.worldGeoms ++ r2.worldGeoms ∧ r.link_names ≠ [] := by
  have hdis : ∀ m ∈ r1.link_names, m ∉ r2.link_names := fun m hm hm' =>
    hd m ((h1.mem m).1 hm).2 ((h2.mem m).1 hm').2
  have hlen : ∀ {r : System α π}, r.WF E.toEnv → r.link_names ≠ [] → r.link_parents ≠ [] := by
    intro r hr hne e
    apply hne
    have := hr.names_len
    rw [e] at this
    exact List.length_eq_zero_iff.1 this
  obtain ⟨r, hok, hwf, hnames, hglob, hv1, hv2, hwg⟩ :=
    C04_inject (at_body := none) h1.wf h2.wf (hlen h1.wf hn1) (hlen h2.wf hn2) hdis (by simp)
  have hk12 : ∀ t, t ∈ r1.joint_params.map (·.1) ↔ t ∈ r2.joint_params.map (·.1) := fun t => by
    rw [h1.keys, h2.keys]
  have a1 : ∀ m v, r1.view E.toEnv m = some v → ∃ v', r.view E.toEnv m = some v' ∧ Alike v v' := by
    intro m v hv
    obtain ⟨w, it, hw, hw', -⟩ := hv1 m ((view_mem h1.wf).2 ⟨v, hv⟩)
    rw [hv] at hw
    cases hw
    refine ⟨_, hw', ⟨rfl, ?_, rfl, ?_, rfl⟩⟩
    · rw [withNaN_same hk12]; rfl
    · show v.geoms ++ landed r2 none m = v.geoms
      unfold landed
      rw [if_neg (by simp), List.append_nil]
  have a2 : ∀ m v, r2.view E.toEnv m = some v → ∃ v', r.view E.toEnv m = some v' ∧ Alike v v' := by
    intro m v hv
    obtain ⟨w, hw, hw'⟩ := hv2 m ((view_mem h2.wf).2 ⟨v, hv⟩)
    rw [hv] at hw
    cases hw
    refine ⟨_, hw', ⟨?_, ?_, rfl, rfl, rfl⟩⟩
    · show v.parent.or none = v.parent
      cases v.parent <;> rfl
    · rw [withNaN_same fun t => (hk12 t).symm]; rfl
  have hmem : ∀ m, m ∈ r.link_names ↔ m ∈ r1.link_names ∨ m ∈ r2.link_names := by
    intro m; rw [hnames, List.mem_append]
  have back : ∀ m v', r.view E.toEnv m = some v' →
      (∃ v, r1.view E.toEnv m = some v ∧ Alike v v') ∨ (∃ v, r2.view E.toEnv m = some v ∧ Alike v v') := by
    intro m v' hv'
    rcases (hmem m).1 ((view_mem hwf).2 ⟨v', hv'⟩) with hm | hm
    · obtain ⟨v, hv⟩ := (view_mem h1.wf).1 hm
      obtain ⟨w, hw, ha⟩ := a1 m v hv
      rw [hv'] at hw
      cases hw
      exact Or.inl ⟨v, hv, ha⟩
    · obtain ⟨v, hv⟩ := (view_mem h2.wf).1 hm
      obtain ⟨w, hw, ha⟩ := a2 m v hv
      rw [hv'] at hw
      cases hw
      exact Or.inr ⟨v, hv, ha⟩
  refine ⟨r, hok, ⟨hwf, ?_, ?_, ?_, ?_, ?_, ?_, ?_, ?_, ?_⟩, by rw [hwg]; rfl, ?_⟩
  · intro m
    rw [hmem, h1.mem, h2.mem]
    tauto
  · intro a ha
    rw [hmem]
    rcases List.mem_append.1 ha with ha | ha
    · exact Or.inl (h1.anchors_mem a ha)
    · exact Or.inr (h2.anchors_mem a ha)
  · intro m v' hv'
    rw [List.mem_append]
    rcases back m v' hv' with ⟨v, hv, ha⟩ | ⟨v, hv, ha⟩
    · rw [ha.parent, h1.world m v hv]
      constructor
      · exact Or.inl
      · rintro (e | e)
        · exact e
        · exact absurd (h2.anchors_mem m e) (hdis m ((view_mem h1.wf).2 ⟨v, hv⟩))
    · rw [ha.parent, h2.world m v hv]
      constructor
      · exact Or.inr
      · rintro (e | e)
        · exact absurd ((view_mem h2.wf).2 ⟨v, hv⟩) (hdis m (h1.anchors_mem m e))
        · exact e
  · have key : ∀ m n, r.Linked E.toEnv m n ↔ r1.Linked E.toEnv m n ∨ r2.Linked E.toEnv m n := by
      have half : ∀ m n, (∃ v, r.view E.toEnv m = some v ∧ v.parent = some n) ↔
          (∃ v, r1.view E.toEnv m = some v ∧ v.parent = some n) ∨
          (∃ v, r2.view E.toEnv m = some v ∧ v.parent = some n) := by
        intro m n
        constructor
        · rintro ⟨v', hv', hp⟩
          rcases back m v' hv' with ⟨v, hv, ha⟩ | ⟨v, hv, ha⟩
          · exact Or.inl ⟨v, hv, by rw [← ha.parent, hp]⟩
          · exact Or.inr ⟨v, hv, by rw [← ha.parent, hp]⟩
        · rintro (⟨v, hv, hp⟩ | ⟨v, hv, hp⟩)
          · obtain ⟨v', hv', ha⟩ := a1 m v hv
            exact ⟨v', hv', by rw [ha.parent, hp]⟩
          · obtain ⟨v', hv', ha⟩ := a2 m v hv
            exact ⟨v', hv', by rw [ha.parent, hp]⟩
      intro m n
      unfold System.Linked
      rw [half, half]
      exact or_or_or_comm
    have symm : ∀ m n, s.Linked E.toEnv m n → s.Linked E.toEnv n m := by
      intro m n hl
      exact Or.symm hl
    intro m n hm hn
    rw [key]
    constructor
    · rintro (hl | hl)
      · have := linked_mem h1.wf hl
        exact (h1.linked m n ((h1.mem m).1 this.1).2 ((h1.mem n).1 this.2).2).1 hl
      · have := linked_mem h2.wf hl
        exact (h2.linked m n ((h2.mem m).1 this.1).2 ((h2.mem n).1 this.2).2).1 hl
    · intro hl
      rcases hm with hm | hm <;> rcases hn with hn | hn
      · exact Or.inl ((h1.linked m n hm hn).2 hl)
      · exact absurd hn (hsep m n hl hm)
      · exact absurd hm (hsep n m (symm m n hl) hn)
      · exact Or.inr ((h2.linked m n hm hn).2 hl)
  · obtain ⟨l1, hl1, hm1, hp1⟩ := h1.joints
    obtain ⟨l2, hl2, hm2, hp2⟩ := h2.joints
    refine ⟨l1 ++ l2, ?_, ?_, ?_⟩
    · refine List.nodup_append.2 ⟨hl1, hl2, ?_⟩
      rintro m hm _ hm' rfl
      exact hd m ((hm1 m).1 hm).2 ((hm2 m).1 hm').2
    · intro m
      rw [List.mem_append, hm1, hm2]
      tauto
    · have e : r.jointsOf E.toEnv r.link_names =
          r1.jointsOf E.toEnv r1.link_names ++ r2.jointsOf E.toEnv r2.link_names := by
        unfold System.jointsOf
        rw [hnames, List.map_append]
        congr 1
        · refine List.map_congr_left fun m hm => ?_
          obtain ⟨v, hv⟩ := (view_mem h1.wf).1 hm
          obtain ⟨v', hv', ha⟩ := a1 m v hv
          rw [hv, hv', Option.map_some, Option.map_some, ha.joint]
        · refine List.map_congr_left fun m hm => ?_
          obtain ⟨v, hv⟩ := (view_mem h2.wf).1 hm
          obtain ⟨v', hv', ha⟩ := a2 m v hv
          rw [hv, hv', Option.map_some, Option.map_some, ha.joint]
      rw [e]
      unfold System.jointsOf at hp1 hp2 ⊢
      rw [List.map_append]
      exact hp1.append hp2
  · intro m v v' hv hv'
    rcases back m v' hv' with ⟨w, hw, ha⟩ | ⟨w, hw, ha⟩
    · rw [ha.omc, h1.omc m v w hv hw]
    · rw [ha.omc, h2.omc m v w hv hw]
  · intro X hX
    obtain ⟨X1, hX1, hg1⟩ := h1.scene X hX
    obtain ⟨X2, hX2, hg2⟩ := h2.scene X hX
    have hin1 : ∀ m ∈ r1.link_names, (if m ∈ r1.link_names then X1 m else X2 m) = X1 m := fun m hm => if_pos hm
    have hin2 : ∀ m ∈ r2.link_names, (if m ∈ r1.link_names then X1 m else X2 m) = X2 m := fun m hm =>
      if_neg fun hm' => hdis m hm' hm
    refine ⟨fun m => if m ∈ r1.link_names then X1 m else X2 m, ?_, ?_⟩
    · intro m v' hv'
      rcases back m v' hv' with ⟨v, hv, ha⟩ | ⟨v, hv, ha⟩
      · dsimp only
        rw [hin1 m ((view_mem h1.wf).2 ⟨v, hv⟩), ha.parent, ha.transform1, hX1 m v hv]
        congr 1
        cases hp : v.parent with
        | none => rfl
        | some n => exact (hin1 n (parent_mem h1.wf hv hp)).symm
      · dsimp only
        rw [hin2 m ((view_mem h2.wf).2 ⟨v, hv⟩), ha.parent, ha.transform1, hX2 m v hv]
        congr 1
        cases hp : v.parent with
        | none => rfl
        | some n => exact (hin2 n (parent_mem h2.wf hv hp)).symm
    · intro m v v' hv hv'
      dsimp only
      rcases back m v' hv' with ⟨w, hw, ha⟩ | ⟨w, hw, ha⟩
      · rw [ha.geoms, hin1 m ((view_mem h1.wf).2 ⟨w, hw⟩), hg1 m v w hv hw]
      · rw [ha.geoms, hin2 m ((view_mem h2.wf).2 ⟨w, hw⟩), hg2 m v w hv hw]
  · rw [hglob, h1.globals]
  · intro t
    obtain ⟨m, hm⟩ := List.exists_mem_of_ne_nil _ hn1
    obtain ⟨v, hv⟩ := (view_mem h1.wf).1 hm
    obtain ⟨v', hv', ha⟩ := a1 m v hv
    obtain ⟨i, -, hi⟩ := view_idx h1.wf hv
    obtain ⟨j, -, hj⟩ := view_idx hwf hv'
    have ej : v'.joint_params = v.joint_params := congrArg (fun j : Joint α π => j.2.2.2.2.2) ha.joint
    rw [← h1.keys, key_iff h1.wf hi, key_iff hwf hj, ej]
  · rw [hnames]
    intro e
    exact hn1 (List.append_eq_nil_iff.1 e).1

theorem HeldAt.congr {part part' : String → Prop} {as : List String} (h : s.WF E.toEnv)
    (h1 : s.HeldAt E part as r1) (hp : ∀ m ∈ s.link_names, (part m ↔ part' m)) :
    s.HeldAt E part' as r1 := by
  have hm : ∀ m, (m ∈ s.link_names ∧ part m) ↔ (m ∈ s.link_names ∧ part' m) := fun m =>
    ⟨fun x => ⟨x.1, (hp m x.1).1 x.2⟩, fun x => ⟨x.1, (hp m x.1).2 x.2⟩⟩
  refine ⟨h1.wf, fun m => (h1.mem m).trans (hm m), h1.anchors_mem, h1.world, ?_, ?_, h1.omc, h1.scene,
    h1.globals, h1.keys⟩
  · intro m n hm' hn'
    constructor
    · intro hl
      have := linked_mem h1.wf hl
      exact (h1.linked m n ((h1.mem m).1 this.1).2 ((h1.mem n).1 this.2).2).1 hl
    · intro hl
      have := linked_mem h hl
      exact (h1.linked m n ((hp m this.1).2 hm') ((hp n this.2).2 hn')).2 hl
  · obtain ⟨l, h2, h3, h4⟩ := h1.joints
    exact ⟨l, h2, fun m => (h3 m).trans (hm m), h4⟩

/-! ## trees -/

/-- the trees are separate -/
theorem root_unique {lam : List Int} {c c' i : Nat} (hc : lam[c]? = some (-1)) (hc' : lam[c']? = some (-1))
    (h1 : Desc lam c i) (h2 : Desc lam c' i) : c = c' := by
  have key : ∀ {a b : Nat}, lam[b]? = some (-1) → Desc lam a b → a = b := by
    intro a b hb hd
    cases hd with
    | self => rfl
    | step hp _ =>
      rw [hb] at hp
      have := Option.some.inj hp
      omega
  rcases h1.comparable h2 with h | h
  · exact key hc' h
  · exact (key hc h).symm

theorem mem_worldNames {E : Env α π} (h : s.WF E) {m : String} :
    m ∈ s.worldNames E ↔ ∃ i : Nat, s.link_names[i]? = some m ∧ s.link_parents[i]? = some (-1) := by
  unfold System.worldNames
  rw [List.mem_filter, decide_eq_true_eq]
  constructor
  · rintro ⟨hm, hp⟩
    obtain ⟨v, hv⟩ := (view_mem h).1 hm
    obtain ⟨i, hi, hvi⟩ := view_idx h hv
    rw [hv, Option.map_some] at hp
    exact ⟨i, hi, (parent_none h hvi).1 (Option.some.inj hp)⟩
  · rintro ⟨i, hi, hp⟩
    obtain ⟨v, hv, hvi⟩ := view_ex h hi
    exact ⟨List.mem_of_getElem? hi, by rw [hv, Option.map_some, (parent_none h hvi).2 hp]⟩

theorem isDesc_root_unique {E : Env α π} (h : s.WF E) {a b m : String} (ha : a ∈ s.worldNames E)
    (hb : b ∈ s.worldNames E) (h1 : s.IsDesc a m) (h2 : s.IsDesc b m) : a = b := by
  obtain ⟨i, hi, hp⟩ := (mem_worldNames h).1 ha
  obtain ⟨j, hj, hq⟩ := (mem_worldNames h).1 hb
  obtain ⟨i', k, hi', hk, hd⟩ := h1
  obtain ⟨j', k', hj', hk', hd'⟩ := h2
  have e1 := uniqueIdx h.names_nodup hi hi'
  have e2 := uniqueIdx h.names_nodup hj hj'
  have e3 := uniqueIdx h.names_nodup hk hk'
  subst e1 e2 e3
  have := root_unique hp hq hd hd'
  subst this
  rw [hi] at hj
  exact Option.some.inj hj

theorem isDesc_idx {E : Env α π} (h : s.WF E) {i j : Nat} {a m : String} (hi : s.link_names[i]? = some a)
    (hj : s.link_names[j]? = some m) : s.IsDesc a m ↔ Desc s.link_parents i j := by
  constructor
  · rintro ⟨i', j', hi', hj', hd⟩
    rw [uniqueIdx h.names_nodup hi hi', uniqueIdx h.names_nodup hj hj']
    exact hd
  · intro hd
    exact ⟨i, j, hi, hj, hd⟩

theorem root_exists {E : Env α π} (h : s.WF E) {m : String} (hm : m ∈ s.link_names) :
    ∃ root ∈ s.worldNames E, s.IsDesc root m := by
  obtain ⟨i, hi, e⟩ := List.getElem_of_mem hm
  have hi' : s.link_names[i]? = some m := by rw [List.getElem?_eq_getElem hi, e]
  have hil : i < s.link_parents.length := by rw [← h.names_len]; exact hi
  have hf := Preorder.forest h.topo
  obtain ⟨c, hc, hd⟩ := (rooted_iff_desc hil).1 (forest_iff.1 hf i hil)
  have hcl : c < s.link_names.length := by rw [h.names_len]; exact (List.getElem?_eq_some_iff.1 hc).1
  refine ⟨s.link_names[c], (mem_worldNames h).2 ⟨c, List.getElem?_eq_getElem hcl, hc⟩, ?_⟩
  exact ⟨c, i, List.getElem?_eq_getElem hcl, hi', hd⟩

/-! ## the code -/

theorem find_children_ok {lam : List Int} (h : Topological lam) {i : Nat} (hi : i < lam.length) :
    ∃ l, _find_children lam i = .ok l ∧ ∀ x, (x = i ∨ x ∈ l) ↔ Desc lam i x := by
  obtain ⟨L, hL⟩ := forest_iff.1 (Preorder.forest h) i hi
  obtain ⟨l, hl, hmem, -⟩ := findChildsOf_ok (lam.length + 1) L i hL (by omega)
  refine ⟨l, hl, fun x => ?_⟩
  rw [hmem]
  constructor
  · rintro (rfl | ⟨c, hc, hd⟩)
    · exact .self
    · exact Desc.trans (.step hc .self) hd
  · intro hd
    rcases hd.eq_or_child with e | ⟨c, hc, hd⟩
    · exact Or.inl e
    · exact Or.inr ⟨c, hc, hd⟩

omit [Field α] in
theorem zipIdx_roots (s : System α π) : (s.link_parents.zipIdx.filter fun x => x.1 = -1) =
    ((List.range s.link_parents.length).filter fun i => s.link_parents[i]? = some (-1)).map
      fun i => (-1, i) := by
  have e : s.link_parents.zipIdx = (List.range s.link_parents.length).map fun i =>
      (s.link_parents.getD i 0, i) := by
    apply List.ext_getElem?
    intro i
    rw [List.getElem?_map, List.getElem?_zipIdx]
    by_cases hi : i < s.link_parents.length
    · rw [List.getElem?_range hi, List.getElem?_eq_getElem hi, Option.map_some, Option.map_some,
        List.getD_eq_getElem _ _ hi, Nat.zero_add]
    · rw [List.getElem?_eq_none (by omega), List.getElem?_eq_none (by simpa using hi)]
      rfl
  rw [e, List.filter_map]
  have e2 : ((List.range s.link_parents.length).filter
      ((fun x : Int × Nat => decide (x.1 = -1)) ∘ fun i => (s.link_parents.getD i 0, i))) =
      (List.range s.link_parents.length).filter fun i => s.link_parents[i]? = some (-1) := by
    apply List.filter_congr
    intro i hi
    have hi := List.mem_range.1 hi
    simp only [Function.comp]
    rw [decide_eq_decide, List.getD_eq_getElem _ _ hi, List.getElem?_eq_getElem hi]
    simp
  rw [e2]
  apply List.map_congr_left
  intro i hi
  have := (List.mem_filter.1 hi).2
  rw [decide_eq_true_eq] at this
  rw [getD_of_some this]

theorem worldNames_eq {E : Env α π} (h : s.WF E) : s.worldNames E =
    ((List.range s.link_parents.length).filter fun i => s.link_parents[i]? = some (-1)).map
      fun i => s.link_names.getD i "" := by
  have e : s.link_names = (List.range s.link_parents.length).map fun i => s.link_names.getD i "" := by
    apply List.ext_getElem?
    intro i
    rw [List.getElem?_map]
    by_cases hi : i < s.link_parents.length
    · have hi' : i < s.link_names.length := by rw [h.names_len]; exact hi
      rw [List.getElem?_range hi, Option.map_some, List.getElem?_eq_getElem hi', List.getD_eq_getElem _ _ hi']
    · rw [List.getElem?_eq_none (by rw [h.names_len]; omega), List.getElem?_eq_none (by simpa using hi)]
      rfl
  unfold System.worldNames
  conv_lhs => rw [e, List.filter_map]
  congr 1
  apply List.filter_congr
  intro i hi
  have hi := List.mem_range.1 hi
  have hi' : i < s.link_names.length := by rw [h.names_len]; exact hi
  obtain ⟨v, hv, hvi⟩ := view_ex h (List.getElem?_eq_getElem hi')
  simp only [Function.comp]
  rw [decide_eq_decide, List.getD_eq_getElem _ _ hi', hv, Option.map_some, Option.some_inj, parent_none h hvi]

theorem roots_ok {E : Env α π} (h : s.WF E) :
    (s.findall_bodies_to_world.mapM fun (i : Nat) => s.idx_to_name i) = .ok (s.worldNames E) := by
  unfold findall_bodies_to_world
  rw [zipIdx_roots, List.map_map, worldNames_eq h]
  refine (mapM_ok (g := fun i : Nat => s.link_names.getD i "") fun i hi => ?_).trans ?_
  · have hi : i < s.link_names.length := by
      rw [h.names_len]
      simp at hi
      exact hi.1
    apply idx_to_name_nat
    rw [List.getElem?_eq_getElem hi, List.getD_eq_getElem _ _ hi]
  · congr 1
    rw [List.map_map]
    rfl

theorem findRoot_ok {E : Env α π} (h : s.WF E) {b c : Nat} {root : String} (hc : s.link_parents[c]? = some (-1))
    (hroot : s.link_names[c]? = some root) (hd : Desc s.link_parents c b) :
    ∀ l : List (Int × Nat), (∀ x ∈ l, s.link_parents[x.2]? = some x.1) → ((-1 : Int), c) ∈ l →
      findRoot s b l = .ok (some root) := by
  intro l
  induction l with
  | nil => intro _ hm; simp at hm
  | cons x l ih =>
    intro hl hm
    obtain ⟨p, i⟩ := x
    have hpi := hl (p, i) (by simp)
    simp only at hpi
    have hi := (List.getElem?_eq_some_iff.1 hpi).1
    have hl' : ∀ x ∈ l, s.link_parents[x.2]? = some x.1 := fun x hx => hl x (by simp [hx])
    unfold findRoot
    by_cases hp : p = -1
    · subst hp
      rw [if_pos rfl]
      obtain ⟨ch, hch, hmem⟩ := find_children_ok h.topo hi
      have hfound : inSubsys s b i = .ok (decide (b = i ∨ b ∈ ch)) := by
        unfold inSubsys
        by_cases hb : b = i
        · rw [if_pos hb, decide_eq_true (Or.inl hb)]
        · rw [if_neg hb, hch, ok_bind, pure_ok]
          congr 1
          rw [decide_eq_decide]
          simp [hb]
      rw [hfound, ok_bind]
      by_cases hdi : Desc s.link_parents i b
      · have e := root_unique hpi hc hdi hd
        subst e
        rw [decide_eq_true ((hmem b).2 hdi), if_pos rfl, idx_to_name_nat hroot]
        rfl
      · rw [decide_eq_false (fun hx => hdi ((hmem b).1 hx)), if_neg (by simp)]
        refine ih hl' ?_
        rcases List.mem_cons.1 hm with e | hm
        · have : c = i := congrArg Prod.snd e
          subst this
          exact absurd hd hdi
        · exact hm
    · rw [if_neg hp]
      refine ih hl' ?_
      rcases List.mem_cons.1 hm with e | hm
      · exact absurd (congrArg Prod.fst e).symm hp
      · exact hm

theorem find_root_ok {E : Env α π} (h : s.WF E) {root body : String} (hroot : root ∈ s.worldNames E)
    (hd : s.IsDesc root body) : _find_root_of_subsys_that_contains_body s body = .ok (some root) := by
  obtain ⟨c, hc, hp⟩ := (mem_worldNames h).1 hroot
  obtain ⟨c', b, hc', hb, hd⟩ := hd
  have e := uniqueIdx h.names_nodup hc hc'
  subst e
  unfold _find_root_of_subsys_that_contains_body
  rw [name_to_idx_of_nodup h.names_nodup hb, ok_bind]
  refine findRoot_ok h hp hc hd _ ?_ ?_
  · rintro ⟨p, i⟩ hx
    have := List.mem_zipIdx_iff_getElem?.1 hx
    simpa using this
  · rw [List.mem_zipIdx_iff_getElem?]
    simpa using hp

open Classical in
/-- the anchors of the tree of `root` -/
noncomputable def cand (s : System α π) (anchors : List String) (root : String) : List String :=
  if anchors.filter (fun a => s.IsDesc root a) = [] then [root] else anchors.filter (fun a => s.IsDesc root a)

open Classical in
omit [Field α] in
theorem mem_cand {anchors : List String} {root a : String} (hroot : s.IsDesc root root) :
    a ∈ cand s anchors root ↔ s.IsDesc root a ∧
      (a ∈ anchors ∨ (a = root ∧ ∀ x ∈ anchors, ¬ s.IsDesc root x)) := by
  unfold cand
  split
  · rename_i e
    rw [List.filter_eq_nil_iff] at e
    simp only [decide_eq_true_eq] at e
    rw [List.mem_singleton]
    constructor
    · rintro rfl
      exact ⟨hroot, Or.inr ⟨rfl, e⟩⟩
    · rintro ⟨hd, ha | ⟨ha, -⟩⟩
      · exact absurd hd (e a ha)
      · exact ha
  · rename_i e
    rw [List.mem_filter, decide_eq_true_eq]
    constructor
    · rintro ⟨ha, hd⟩
      exact ⟨hd, Or.inl ha⟩
    · rintro ⟨hd, ha | ⟨-, ha⟩⟩
      · exact ⟨ha, hd⟩
      · exfalso
        apply e
        rw [List.filter_eq_nil_iff]
        simpa using ha

theorem assign_ok {E : Env α π} (h : s.WF E) (anchors : List String) :
    _assign_anchors_to_subsys s anchors = .ok ((s.worldNames E).map (cand s anchors)) := by
  unfold _assign_anchors_to_subsys
  rw [zipIdx_roots]
  refine (mapM_ok (g := fun x : Int × Nat => cand s anchors (s.link_names.getD x.2 "")) fun x hx => ?_).trans ?_
  · obtain ⟨i, hi, rfl⟩ := List.mem_map.1 hx
    obtain ⟨hi, hp⟩ := List.mem_filter.1 hi
    have hi := List.mem_range.1 hi
    have hi' : i < s.link_names.length := by rw [h.names_len]; exact hi
    have hname : s.link_names[i]? = some (s.link_names.getD i "") := by
      rw [List.getElem?_eq_getElem hi', List.getD_eq_getElem _ _ hi']
    obtain ⟨ch, hch, hmem⟩ := find_children_ok h.topo hi
    have hlt : ∀ x ∈ i :: ch, Desc s.link_parents i x ∧ x < s.link_names.length := by
      intro x hx
      have hd := (hmem x).1 (List.mem_cons.1 hx)
      exact ⟨hd, by rw [h.names_len]; exact Desc.lt_length hi hd⟩
    have hnames : ((i :: ch).mapM fun (i : Nat) => s.idx_to_name i) =
        .ok ((i :: ch).map fun i => s.link_names.getD i "") := by
      refine mapM_ok fun x hx => ?_
      apply idx_to_name_nat
      have := (hlt x hx).2
      rw [List.getElem?_eq_getElem this, List.getD_eq_getElem _ _ this]
    have hsame : (anchors.filter fun name => decide (name ∈ (i :: ch).map fun i => s.link_names.getD i "")) =
        (open Classical in anchors.filter fun a => s.IsDesc (s.link_names.getD i "") a) := by
      apply List.filter_congr
      intro a _
      rw [decide_eq_decide, List.mem_map]
      constructor
      · rintro ⟨x, hx, rfl⟩
        have := (hlt x hx).2
        exact ⟨i, x, hname, by rw [List.getElem?_eq_getElem this, List.getD_eq_getElem _ _ this], (hlt x hx).1⟩
      · rintro ⟨i', x, hi', hx, hd⟩
        have e := uniqueIdx h.names_nodup hname hi'
        subst e
        exact ⟨x, List.mem_cons.2 ((hmem x).2 hd), getD_of_some hx ""⟩
    dsimp only
    rw [hch, ok_bind, hnames, ok_bind, hsame]
    unfold cand
    split
    · rename_i e
      rw [if_pos (List.length_eq_zero_iff.1 e), idx_to_name_nat hname]
      rfl
    · rename_i e
      rw [if_neg (fun e' => e (List.length_eq_zero_iff.2 e'))]
      rfl
  · rw [worldNames_eq h, List.map_map, List.map_map]
    rfl

theorem worldNames_nodup {E : Env α π} (h : s.WF E) : (s.worldNames E).Nodup := h.names_nodup.filter _

theorem worldNames_self {E : Env α π} (h : s.WF E) {root : String} (hr : root ∈ s.worldNames E) :
    s.IsDesc root root := by
  obtain ⟨c, hc, -⟩ := (mem_worldNames h).1 hr
  exact ⟨c, c, hc, hc, .self⟩

theorem deletions_world_geoms {E : Env α π} : ∀ (ns : List String) {s s' : System α π}, s.WF E → ns ≠ [] →
    (∀ x ∈ ns, x ∈ s.link_names) → (ns.Pairwise fun x y => ¬ s.IsDesc x y) →
    (∃ m ∈ s.link_names, ∀ x ∈ ns, ¬ s.IsDesc x m) →
    delete_subsystems E s ns true = .ok s' → s'.worldGeoms = [] := by
  intro ns
  induction ns using List.reverseRecOn with
  | nil => intro s s' _ hne; exact absurd rfl hne
  | append_singleton ns x _ =>
    intro s s' h _ hns hpw ⟨m, hm, hall⟩ hok
    have hpw' := (List.pairwise_append.1 hpw).1
    obtain ⟨s1, hok1, hrem⟩ := C03_list_strict h ns (fun y hy => hns y (by simp [hy])) hpw'
      ⟨m, hm, fun y hy => hall y (by simp [hy])⟩
    unfold delete_subsystems at hok hok1
    rw [List.foldlM_append, hok1, ok_bind, List.foldlM_cons] at hok
    obtain ⟨s2, h2, hok⟩ := ml.bind_ok_iff.1 hok
    cases hok
    exact C03_world_geoms_dropped hrem.wf (by simpa [delete_subsystem'] using h2)

theorem extract_ok (h : s.WF E.toEnv) (hj : s.Jointed E) (hr : Resting E s)
    (ht : ∀ a b, E.ge a b = true ∨ E.ge b a = true) {listed : List String → List String}
    (hl : ∀ l, (listed l).Perm l) {root anchor : String} (hroot : root ∈ s.worldNames E.toEnv)
    (hd : s.IsDesc root anchor) :
    ∃ r, _morph_extract_subsys E listed s anchor = .ok r ∧ s.HeldAt E (s.IsDesc root) [anchor] r ∧
      r.worldGeoms = (if (s.worldNames E.toEnv).length = 1 then s.worldGeoms else []) := by
  have hself := worldNames_self h hroot
  have hanch := (isDesc_mem hd).2
  generalize hns : listed ((s.worldNames E.toEnv).filter fun name => some name ≠ some root) = ns
  have hmemns : ∀ x, x ∈ ns ↔ x ∈ s.worldNames E.toEnv ∧ x ≠ root := by
    intro x
    rw [← hns, (hl _).mem_iff, List.mem_filter]
    simp
  have hin : ∀ x ∈ ns, x ∈ s.link_names := fun x hx =>
    (List.mem_filter.1 ((hmemns x).1 hx).1).1
  have hnd : ns.Nodup := by
    rw [← hns, (hl _).nodup_iff]
    exact (worldNames_nodup h).filter _
  have hpw : ns.Pairwise fun x y => ¬ s.IsDesc x y := by
    rw [List.nodup_iff_pairwise_ne] at hnd
    refine List.Pairwise.imp_of_mem ?_ hnd
    intro x y hx hy hne hxy
    have hx' := ((hmemns x).1 hx).1
    have hy' := ((hmemns y).1 hy).1
    exact hne (isDesc_root_unique h hx' hy' hxy (worldNames_self h hy'))
  have hsurv : ∃ m ∈ s.link_names, ∀ x ∈ ns, ¬ s.IsDesc x m := by
    refine ⟨anchor, hanch, fun x hx hxd => ?_⟩
    obtain ⟨h1, h2⟩ := (hmemns x).1 hx
    exact h2 (isDesc_root_unique h h1 hroot hxd hd)
  obtain ⟨s1, hok1, hrem⟩ := C03_list_strict h ns hin hpw hsurv
  have hpart : ∀ m ∈ s.link_names, (¬ (∃ x ∈ ns, s.IsDesc x m) ↔ s.IsDesc root m) := by
    intro m hm
    obtain ⟨c, hc, hcd⟩ := root_exists h hm
    constructor
    · intro hno
      by_cases e : c = root
      · rw [← e]; exact hcd
      · exact absurd ⟨c, (hmemns c).2 ⟨hc, e⟩, hcd⟩ hno
    · rintro hrd ⟨x, hx, hxd⟩
      obtain ⟨h1, h2⟩ := (hmemns x).1 hx
      exact h2 (isDesc_root_unique h h1 hroot hxd hrd)
  have hwn : ∀ m v, s.view E.toEnv m = some v → (v.parent = none ↔ m ∈ s.worldNames E.toEnv) := by
    intro m v hv
    obtain ⟨i, hi, hvi⟩ := view_idx h hv
    rw [parent_none h hvi, mem_worldNames h]
    constructor
    · intro hp; exact ⟨i, hi, hp⟩
    · rintro ⟨j, hj, hp⟩
      rw [uniqueIdx h.names_nodup hi hj]
      exact hp
  have hheld : s.HeldAt E (s.IsDesc root) [root] s1 := by
    refine heldAt_of_removed h hrem hpart ?_ ?_
    · intro a ha
      rw [List.mem_singleton.1 ha]
      exact ⟨(isDesc_mem hself).1, hself⟩
    · intro m v hm hv
      rw [hwn m v hv, List.mem_singleton]
      constructor
      · intro hw
        exact isDesc_root_unique h hw hroot (worldNames_self h hw) hm
      · rintro rfl; exact hroot
  -- what the subsystem is made of
  have hview : ∀ i, i < s1.link_parents.length → ∃ (j : Nat) (v : LinkView α π),
      s1.viewAt E.toEnv i = some v ∧ s.viewAt E.toEnv j = some v := by
    intro i hi
    have hi' : i < s1.link_names.length := by rw [hrem.wf.names_len]; exact hi
    have hi2 : s1.link_names[i]? = some s1.link_names[i] := List.getElem?_eq_getElem hi'
    obtain ⟨v, hv, hvi⟩ := view_ex hrem.wf hi2
    rw [hrem.view _ (List.getElem_mem hi')] at hv
    obtain ⟨j, -, hvj⟩ := view_idx h hv
    exact ⟨j, v, hvi, hvj⟩
  have htypes : ∀ t ∈ s1.link_types, t ∈ s.link_types := by
    intro t ht
    obtain ⟨i, hi, e⟩ := List.getElem_of_mem ht
    obtain ⟨j, v, hv, hv'⟩ := hview i (by rw [← hrem.wf.types_len]; exact hi)
    obtain ⟨-, -, -, e1, -⟩ := viewAt_fields hv
    obtain ⟨-, -, -, e2, -⟩ := viewAt_fields hv'
    rw [List.getElem?_eq_getElem hi, e] at e1
    rw [Option.some.inj e1]
    exact List.mem_of_getElem? e2
  have hj1 : s1.Jointed E := ⟨fun t ht => hj.known t (htypes t ht), by rw [hrem.keys]; exact hj.default⟩
  have hr1 : Resting E s1 := by
    refine ⟨fun t ht => hr.quat t (htypes t ht), fun t ht => hr.joint t (htypes t ht), ?_⟩
    intro row hrow
    obtain ⟨i, hi, e⟩ := List.getElem_of_mem hrow
    obtain ⟨j, v, hv, hv'⟩ := hview i (by rw [← hrem.wf.links_len]; exact hi)
    obtain ⟨-, -, -, -, e1, -⟩ := viewAt_fields hv
    obtain ⟨-, -, -, -, e2, -⟩ := viewAt_fields hv'
    rw [List.getElem?_eq_getElem hi, e] at e1
    rw [Option.some.inj e1]
    exact hr.unit _ (List.mem_of_getElem? e2)
  have hanch1 : anchor ∈ s1.link_names := (hheld.mem anchor).2 ⟨hanch, hd⟩
  obtain ⟨a, ha, ea⟩ := List.getElem_of_mem hanch1
  have ha' : s1.link_names[a]? = some anchor := by rw [List.getElem?_eq_getElem ha, ea]
  have hal : a < s1.link_parents.length := by rw [← hrem.wf.names_len]; exact ha
  have htree : Tree s1.link_parents 0 := by
    refine ⟨Preorder.forest hrem.wf.topo, ?_⟩
    have h0 := (firstRoot_zero hrem.wf.topo (by omega)).root
    have key : ∀ i : Nat, s1.link_parents[i]? = some (-1) → s1.link_names[i]? = some root := by
      intro i hi
      have hil := (List.getElem?_eq_some_iff.1 hi).1
      have hi' : i < s1.link_names.length := by rw [hrem.wf.names_len]; exact hil
      have hi2 : s1.link_names[i]? = some s1.link_names[i] := List.getElem?_eq_getElem hi'
      obtain ⟨v, hv, hvi⟩ := view_ex hrem.wf hi2
      have := (hheld.world _ v hv).1 ((parent_none hrem.wf hvi).2 hi)
      rw [hi2, List.mem_singleton.1 this]
    intro i
    constructor
    · intro hi
      exact uniqueIdx hrem.wf.names_nodup (key i hi) (key 0 h0)
    · rintro rfl; exact h0
  obtain ⟨R, X, perm, r, hok2, hR, hX, hM⟩ := C72_anchor hrem.wf hj1 hr1 ht htree hal
    (anchor := .inr anchor) (Or.inr ⟨anchor, rfl, ha'⟩)
  refine ⟨r, ?_, HeldAt.trans hheld (heldAt_of_morphed hrem.wf hr1 ha' hR hX hM), ?_⟩
  · unfold _morph_extract_subsys
    rw [find_root_ok h hroot hd, ok_bind, roots_ok h, ok_bind, hns, hok1, ok_bind, hok2]
  · rw [hM.worldGeoms]
    by_cases hne : ns = []
    · subst hne
      have e : delete_subsystems E.toEnv s [] true = .ok s := rfl
      rw [e] at hok1
      cases hok1
      have hall : ∀ x ∈ s.worldNames E.toEnv, x = root := by
        intro x hx
        by_contra hx'
        exact absurd ((hmemns x).2 ⟨hx, hx'⟩) (by simp)
      rw [if_pos]
      have := List.eq_replicate_of_mem hall
      have hnd := worldNames_nodup h
      rw [this, List.nodup_replicate] at hnd
      have := List.length_pos_of_mem hroot
      omega
    · rw [if_neg, deletions_world_geoms ns h hne hin hpw hsurv hok1]
      intro e
      obtain ⟨x, hx⟩ := List.exists_mem_of_ne_nil _ hne
      obtain ⟨h1, h2⟩ := (hmemns x).1 hx
      obtain ⟨y, hy⟩ := List.length_eq_one_iff.1 e
      rw [hy, List.mem_singleton] at h1 hroot
      exact h2 (h1.trans hroot.symm)

theorem fold_ok (h : s.WF E.toEnv) (hj : s.Jointed E) (hr : Resting E s)
    (ht : ∀ a b, E.ge a b = true ∨ E.ge b a = true) {listed : List String → List String}
    (hl : ∀ l, (listed l).Perm l) {roots cs : List String} (hf : List.Forall₂ (fun root a => s.IsDesc root a) roots cs) :
    ∀ (done as : List String) (acc : System α π), (done ++ roots).Nodup →
      (∀ x ∈ done ++ roots, x ∈ s.worldNames E.toEnv) →
      s.HeldAt E (fun m => ∃ root ∈ done, s.IsDesc root m) as acc → acc.link_names ≠ [] →
      ∃ r, cs.foldlM (fun sys_mod anchor_subsys => do
          let other ← _morph_extract_subsys E listed s anchor_subsys
          inject_system E.toEnv sys_mod other) acc = .ok r ∧
        s.HeldAt E (fun m => ∃ root ∈ done ++ roots, s.IsDesc root m) (as ++ cs) r ∧
        ((s.worldNames E.toEnv).length ≠ 1 → acc.worldGeoms = [] → r.worldGeoms = []) := by
  induction hf with
  | nil =>
    intro done as acc _ _ hacc _
    refine ⟨acc, rfl, ?_, fun _ e => e⟩
    rw [List.append_nil, List.append_nil]
    exact hacc
  | @cons root a roots cs hra hf ih =>
    intro done as acc hnd hw hacc hne
    have hroot := hw root (by simp)
    obtain ⟨r2, hok2, hheld2, hg2⟩ := extract_ok h hj hr ht hl hroot hra
    have hroot_done : root ∉ done := by
      intro hd
      exact (List.nodup_append.1 hnd).2.2 root hd root (by simp) rfl
    have hdis : ∀ m, (∃ root ∈ done, s.IsDesc root m) → ¬ s.IsDesc root m := by
      rintro m ⟨x, hx, hxm⟩ hrm
      have := isDesc_root_unique h (hw x (by simp [hx])) hroot hxm hrm
      exact hroot_done (this ▸ hx)
    obtain ⟨r, hok, hheld, hg, hne'⟩ := heldAt_inject h hacc hheld2 hdis (by
      rintro m n hl ⟨x, hx, hxm⟩ hrn
      obtain ⟨hm, hn⟩ := linked_mem h hl
      obtain ⟨i, hi, ei⟩ := List.getElem_of_mem hm
      obtain ⟨j, hj, ej⟩ := List.getElem_of_mem hn
      have hi' : s.link_names[i]? = some m := by rw [List.getElem?_eq_getElem hi, ei]
      have hj' : s.link_names[j]? = some n := by rw [List.getElem?_eq_getElem hj, ej]
      have hA := (linked_iff h hi' hj').1 hl
      obtain ⟨c, i2, hc, hi2, hd1⟩ := hxm
      obtain ⟨c', j2, hc', hj2, hd2⟩ := hrn
      have e1 := uniqueIdx h.names_nodup hi' hi2
      have e2 := uniqueIdx h.names_nodup hj' hj2
      subst e1 e2
      have hxw := hw x (by simp [hx])
      rcases hA with hA | hA
      · have : s.IsDesc root m := ⟨c', i, hc', hi', .step hA hd2⟩
        exact hdis m ⟨x, hx, c, i, hc, hi', hd1⟩ this
      · have : s.IsDesc x n := ⟨c, j, hc, hj', .step hA hd1⟩
        exact hdis n ⟨x, hx, this⟩ ⟨c', j, hc', hj', hd2⟩) hne (List.ne_nil_of_mem (hheld2.anchors_mem a (by simp)))
    have hheld' : s.HeldAt E (fun m => ∃ x ∈ done ++ [root], s.IsDesc x m) (as ++ [a]) r := by
      refine HeldAt.congr h hheld fun m _ => ?_
      simp only [List.mem_append, List.mem_singleton]
      constructor
      · rintro (⟨x, hx, hxm⟩ | hrm)
        · exact ⟨x, Or.inl hx, hxm⟩
        · exact ⟨root, Or.inr rfl, hrm⟩
      · rintro ⟨x, hx | rfl, hxm⟩
        · exact Or.inl ⟨x, hx, hxm⟩
        · exact Or.inr hxm
    have eapp : ∀ (l1 : List String) x (l2 : List String), l1 ++ [x] ++ l2 = l1 ++ x :: l2 := by
      intro l1 x l2; simp
    obtain ⟨r', hok', hh', hg'⟩ := ih (done ++ [root]) (as ++ [a]) r (by rw [eapp]; exact hnd)
      (by rw [eapp]; exact hw) hheld' hne'
    rw [eapp, eapp] at hh'
    refine ⟨r', ?_, hh', fun h1 h2 => hg' h1 ?_⟩
    · rw [List.foldlM_cons, hok2, ok_bind, hok, ok_bind, hok']
    · rw [hg, h2, hg2, if_neg h1, List.nil_append]

/-- holding the trees at chosen anchors -/
theorem hold_ok (h : s.WF E.toEnv) (hj : s.Jointed E) (hr : Resting E s)
    (ht : ∀ a b, E.ge a b = true ∨ E.ge b a = true) {listed : List String → List String}
    (hl : ∀ l, (listed l).Perm l) (hn : s.link_names ≠ []) {c : List String}
    (hf : List.Forall₂ (fun root a => s.IsDesc root a) (s.worldNames E.toEnv) c) :
    ∃ r, hold E listed s c = .ok r ∧ s.HeldAt E (fun _ => True) c r ∧
      r.worldGeoms = (if (s.worldNames E.toEnv).length = 1 then s.worldGeoms else []) := by
  generalize hw : s.worldNames E.toEnv = roots at hf
  have hnd : roots.Nodup := hw ▸ worldNames_nodup h
  have hall : ∀ m ∈ s.link_names, ((∃ root ∈ roots, s.IsDesc root m) ↔ True) := by
    intro m hm
    obtain ⟨x, hx, hd⟩ := root_exists h hm
    exact ⟨fun _ => trivial, fun _ => ⟨x, hw ▸ hx, hd⟩⟩
  cases hf with
  | nil =>
    obtain ⟨m, hm⟩ := List.exists_mem_of_ne_nil _ hn
    obtain ⟨x, hx, -⟩ := (hall m hm).2 trivial
    simp at hx
  | @cons root a roots cs hra hf =>
    have hroot : root ∈ s.worldNames E.toEnv := by rw [hw]; simp
    obtain ⟨r1, hok1, hheld1, hg1⟩ := extract_ok h hj hr ht hl hroot hra
    obtain ⟨r, hok, hheld, hg⟩ := fold_ok h hj hr ht hl hf [root] [a] r1 hnd (by rw [hw]; simp)
      (HeldAt.congr h hheld1 fun m _ => by simp) (List.ne_nil_of_mem (hheld1.anchors_mem a (by simp)))
    refine ⟨r, ?_, HeldAt.congr h hheld hall, ?_⟩
    · unfold hold
      rw [show (0 : Int) = ((0 : Nat) : Int) from rfl, pyGet_nat (i := 0) rfl, ok_bind, hok1, ok_bind]
      exact hok
    · rw [hw] at hg hg1
      split
      · rename_i e
        have e1 : roots = [] := by simpa using e
        subst e1
        cases hf
        cases hok
        rw [hg1, if_pos e]
      · rename_i e
        exact hg e (by rw [hg1, if_neg e])

omit [Field α] in
theorem mem_product {β : Type} {ls : List (List β)} {c : List β} :
    c ∈ product ls ↔ List.Forall₂ (fun l x => x ∈ l) ls c := by
  induction ls generalizing c with
  | nil =>
    unfold product
    rw [List.mem_singleton]
    constructor
    · rintro rfl; exact .nil
    · intro h; cases h; rfl
  | cons l ls ih =>
    unfold product
    simp only [List.mem_flatMap, List.mem_map]
    constructor
    · rintro ⟨x, hx, c, hc, rfl⟩
      exact .cons hx (ih.1 hc)
    · intro h
      cases h with
      | cons hx hc => exact ⟨_, hx, _, ih.2 hc, rfl⟩

theorem product_nodup {β : Type} {ls : List (List β)} (h : ∀ l ∈ ls, l.Nodup) : (product ls).Nodup := by
  induction ls with
  | nil => simp [product]
  | cons l ls ih =>
    unfold product
    have ih := ih fun l hl => h l (by simp [hl])
    rw [List.nodup_flatMap]
    refine ⟨fun x _ => ih.map fun a b e => (List.cons.inj e).2, ?_⟩
    have hl := h l (by simp)
    rw [List.nodup_iff_pairwise_ne] at hl
    refine hl.imp ?_
    intro a b hab
    rw [Function.onFun, List.disjoint_left]
    intro x hx hx'
    obtain ⟨y, -, rfl⟩ := List.mem_map.1 hx
    obtain ⟨z, -, e⟩ := List.mem_map.1 hx'
    exact hab (List.cons.inj e).1.symm

theorem mapM_forall₂ {β γ : Type} {f : β → Py γ} {P : β → γ → Prop} {l : List β}
    (h : ∀ x ∈ l, ∃ y, f x = .ok y ∧ P x y) : ∃ ys, l.mapM f = .ok ys ∧ List.Forall₂ P l ys := by
  induction l with
  | nil => exact ⟨[], rfl, .nil⟩
  | cons x l ih =>
    obtain ⟨y, hy, hP⟩ := h x (by simp)
    obtain ⟨ys, hys, hf⟩ := ih fun z hz => h z (by simp [hz])
    exact ⟨y :: ys, by rw [List.mapM_cons, hy, ok_bind, hys]; rfl, .cons hP hf⟩

theorem forall₂_imp_mem {β γ : Type} {P Q : β → γ → Prop} {l : List β} {l' : List γ} (h : List.Forall₂ P l l')
    (hPQ : ∀ x y, x ∈ l → P x y → Q x y) : List.Forall₂ Q l l' := by
  induction h with
  | nil => exact .nil
  | cons hP _ ih => exact .cons (hPQ _ _ (by simp) hP) (ih fun x y hx => hPQ x y (by simp [hx]))

/-- C73: `randomize_anchors` returns one system for every way to choose one anchor per tree; each of them
consists of the same links and joints, with the chosen links attached to the world. The geometries of the
world survive when there is only one tree. -/
theorem C73_anchors (h : s.WF E.toEnv) (hj : s.Jointed E) (hr : Resting E s)
    (ht : ∀ a b, E.ge a b = true ∨ E.ge b a = true) {listed : List String → List String}
    (hl : ∀ l, (listed l).Perm l) (hn : s.link_names ≠ []) (anchors : Option (List String)) :
    ∃ choices systems, randomize_anchors E listed s anchors = .ok systems ∧
      (∀ c, c ∈ choices ↔ s.IsChoice E.toEnv (anchors.getD s.findall_segments) c) ∧
      ((anchors.getD s.findall_segments).Nodup → choices.Nodup) ∧
      List.Forall₂ (fun c r => s.HeldAt E (fun _ => True) c r ∧
        r.worldGeoms = if (s.worldNames E.toEnv).length = 1 then s.worldGeoms else []) choices systems := by
  generalize hA : anchors.getD s.findall_segments = A
  have hmem : ∀ c, c ∈ product ((s.worldNames E.toEnv).map (cand s A)) ↔ s.IsChoice E.toEnv A c := by
    intro c
    rw [mem_product, List.forall₂_map_left_iff]
    unfold System.IsChoice
    constructor
    · intro hf
      refine forall₂_imp_mem hf ?_
      intro root a hroot ha
      exact (mem_cand (worldNames_self h hroot)).1 ha
    · intro hf
      refine forall₂_imp_mem hf ?_
      intro root a hroot ha
      exact (mem_cand (worldNames_self h hroot)).2 ha
  obtain ⟨systems, hok, hf⟩ := mapM_forall₂ (f := hold E listed s)
    (P := fun c r => s.HeldAt E (fun _ => True) c r ∧
        r.worldGeoms = if (s.worldNames E.toEnv).length = 1 then s.worldGeoms else [])
    (l := product ((s.worldNames E.toEnv).map (cand s A))) fun c hc =>
      hold_ok h hj hr ht hl hn (((hmem c).1 hc).imp fun _ _ hx => hx.1)
  refine ⟨_, systems, ?_, hmem, fun hnd => product_nodup ?_, hf⟩
  · unfold randomize_anchors
    dsimp only
    rw [hA, assign_ok h, ok_bind, hok]
  · intro l hl
    obtain ⟨root, -, rfl⟩ := List.mem_map.1 hl
    unfold cand
    split
    · simp
    · exact hnd.filter _

/-- C73 (the hypothesis of `scene`): there are poses at rest -/
theorem C73_rest (h : s.WF E.toEnv) (hj : s.Jointed E) (hr : Resting E s) :
    ∃ X, s.AtRest E.toEnv X := by
  obtain ⟨xs, -, hX⟩ := restPoses_ok h hj hr
  refine ⟨fun m => xs (s.link_names.idxOf m), fun m v hv => ?_⟩
  have hname : ∀ {i : Nat} {m : String}, s.link_names[i]? = some m → s.link_names.idxOf m = i := by
    intro i m hi
    obtain ⟨hil, rfl⟩ := List.getElem?_eq_some_iff.1 hi
    exact h.names_nodup.idxOf_getElem i hil
  obtain ⟨i, hi, hvi⟩ := view_idx h hv
  obtain ⟨p, hp, e, -, hrow, -⟩ := viewAt_fields hvi
  obtain ⟨hil, hpi⟩ := List.getElem?_eq_some_iff.1 hp
  have ht := h.topo i hil
  rw [hpi] at ht
  dsimp only
  rw [hname hi, hX.eq i hil, hpi, e]
  have e1 : T1 s i = v.row.transform1 := by
    unfold T1; rw [hrow]; rfl
  rw [e1]
  congr 1
  unfold nameAt parentVal
  split
  · have hl : p.toNat < s.link_names.length := by rw [h.names_len]; omega
    rw [List.getElem?_eq_getElem hl, if_neg (by omega)]
    show _ = xs _
    rw [hname (List.getElem?_eq_getElem hl)]
  · rw [if_pos (by omega)]
    rfl

/-- C73 (behaviour worth knowing): anchors that do not exist are ignored; without an existing anchor
nothing is re-anchored. -/
theorem C73_unknown (h : s.WF E.toEnv) {anchors c : List String} (hun : ∀ a ∈ anchors, a ∉ s.link_names) :
    s.IsChoice E.toEnv anchors c ↔ c = s.worldNames E.toEnv := by
  unfold System.IsChoice
  constructor
  · intro hf
    have : List.Forall₂ (fun root a => a = root) (s.worldNames E.toEnv) c :=
      hf.imp fun root a hx => by
        rcases hx.2 with ha | ha
        · exact absurd (isDesc_mem hx.1).2 (hun a ha)
        · exact ha.1
    have : List.Forall₂ (fun a b : String => a = b) (s.worldNames E.toEnv) c := this.imp fun _ _ hx => hx.symm
    exact (List.forall₂_eq_eq_eq ▸ this : s.worldNames E.toEnv = c).symm
  · rintro rfl
    rw [List.forall₂_same]
    intro root hroot
    exact ⟨worldNames_self h hroot, Or.inr ⟨rfl, fun x hx hd => hun x hx (isDesc_mem hd).2⟩⟩

/-! ## examples -/

noncomputable def floor : Geometry ℝ := ⟨0, .zero, -1, .box 10 10 1, none, none⟩

/-- a hinge and a slider on a floor -/
noncomputable def floorSys : System ℝ Unit := { twoSys with geoms := [floor] }

theorem floorSys_wf : floorSys.WF stdEnv.toEnv :=
  { twoSys_wf with
    geoms_ok := by
      intro g hg
      have : g = floor := by simpa [floorSys] using hg
      subst this
      simp [floor, floorSys, twoSys]
    geoms_sorted := by simp [floorSys]
    inertia_ok := by
      intro i hi
      have := twoSys_wf.inertia_ok i hi
      have e : compute_inertia_per_link stdEnv.pi floorSys.geoms i =
          compute_inertia_per_link stdEnv.pi twoSys.geoms i := by
        unfold compute_inertia_per_link
        congr 1
      rw [e]
      exact this }

theorem floorSys_jointed : floorSys.Jointed stdEnv := ⟨twoSys_jointed.known, twoSys_jointed.default⟩

theorem floorSys_resting : Resting stdEnv floorSys := by
  apply C72_resting stdEnv_std
  · intro t ht
    simp [floorSys, twoSys] at ht
    rcases ht with rfl | rfl
    · exact ⟨.r .x, trivial, rfl⟩
    · exact ⟨.p .y, trivial, rfl⟩
  · intro row hrow
    have : row = twoRow := by simpa [floorSys, twoSys] using hrow
    subst this
    simp [twoRow, Quat.normSq]

theorem floorSys_worldNames : floorSys.worldNames stdEnv.toEnv = ["a", "b"] := by
  rw [worldNames_eq floorSys_wf]
  rfl

/-- C73, what fails: when there are several trees the geometries of the world are lost, also in the systems
that keep their anchors -/
theorem C73_world_geoms_fails : ∃ systems, randomize_anchors stdEnv id floorSys none = .ok systems ∧
    systems ≠ [] ∧ floorSys.worldGeoms ≠ [] ∧ ∀ r ∈ systems, r.worldGeoms = [] := by
  obtain ⟨choices, systems, h1, h2, -, h4⟩ := C73_anchors floorSys_wf floorSys_jointed floorSys_resting
    stdEnv_total (listed := id) (fun l => .refl l) (by simp [floorSys, twoSys]) none
  refine ⟨systems, h1, ?_, ?_, ?_⟩
  · rintro rfl
    cases h4
    have ha : floorSys.IsChoice stdEnv.toEnv (Option.getD none floorSys.findall_segments) ["a", "b"] := by
      have hseg : Option.getD none floorSys.findall_segments = ["a", "b"] := by
        show (["a", "b"].filter fun name => name ∉ floorSys.findall_imus) = _
        rfl
      unfold System.IsChoice
      rw [floorSys_worldNames, hseg]
      exact .cons ⟨⟨0, 0, rfl, rfl, .self⟩, Or.inl (by simp)⟩
        (.cons ⟨⟨1, 1, rfl, rfl, .self⟩, Or.inl (by simp)⟩ .nil)
    exact absurd ((h2 _).2 ha) (by simp)
  · simp [floorSys, System.worldGeoms, floor]
  · intro r hr
    have : ∀ {cs rs}, List.Forall₂ (fun c r => floorSys.HeldAt stdEnv (fun _ => True) c r ∧
        r.worldGeoms = if (floorSys.worldNames stdEnv.toEnv).length = 1 then floorSys.worldGeoms else []) cs rs →
        ∀ r ∈ rs, r.worldGeoms = [] := by
      intro cs rs hf
      induction hf with
      | nil => intro r hr; simp at hr
      | cons hx _ ih =>
        intro r hr
        rcases List.mem_cons.1 hr with rfl | hr
        · rw [hx.2, floorSys_worldNames]
          rfl
        · exact ih r hr
    exact this h4 r hr

/-- one tree with four links: it can be held at any of them -/
example : ∃ choices systems, randomize_anchors stdEnv List.reverse kinSys (some ["b", "d"]) = .ok systems ∧
    (∀ c, c ∈ choices ↔ kinSys.IsChoice stdEnv.toEnv ["b", "d"] c) ∧
    List.Forall₂ (fun c r => kinSys.HeldAt stdEnv (fun _ => True) c r) choices systems := by
  obtain ⟨choices, systems, h1, h2, -, h4⟩ := C73_anchors kinSys_wf kinSys_jointed kinSys_resting
    stdEnv_total (listed := List.reverse) (fun l => List.reverse_perm l) (by simp [kinSys]) (some ["b", "d"])
  exact ⟨choices, systems, h1, h2, h4.imp fun _ _ h => h.1⟩

/-- `["d"]` is such a choice -/
example : kinSys.IsChoice stdEnv.toEnv ["b", "d"] ["d"] := by
  have e : kinSys.worldNames stdEnv.toEnv = ["a"] := by
    rw [worldNames_eq kinSys_wf]
    rfl
  unfold System.IsChoice
  rw [e]
  exact .cons ⟨⟨0, 3, rfl, rfl, .step (p := 1) rfl (.step (p := 0) rfl .self)⟩, Or.inl (by simp)⟩ .nil

example : ∃ X, kinSys.AtRest stdEnv.toEnv X := C73_rest kinSys_wf kinSys_jointed kinSys_resting

end randomize
end RingLib
