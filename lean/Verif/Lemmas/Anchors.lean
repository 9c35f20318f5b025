import Verif.Model.Anchors
import Verif.Spec.Anchors
import Verif.Props.MorphReach
import Verif.Props.Inject

namespace RingLib
namespace randomize
open System algebra morph
variable {α π : Type} [Field α] {E : JEnv α π} {s s1 s2 : System α π}

/-! ## names and numbers -/

omit [Field α] in
theorem viewAt_fields {E : Env α π} {i : Nat} {v : LinkView α π} (hv : s.viewAt E i = some v) :
    ∃ p, s.link_parents[i]? = some p ∧ v.parent = s.nameAt p ∧ s.link_types[i]? = some v.type ∧
      s.links[i]? = some v.row ∧ ∀ t, v.joint_params t = (s.joint_params.lookup t).bind (·[i]?) := by
  unfold viewAt at hv
  obtain ⟨p, hp, hv⟩ := Option.bind_eq_some_iff.1 hv
  obtain ⟨t, ht, hv⟩ := Option.bind_eq_some_iff.1 hv
  obtain ⟨row, hrow, hv⟩ := Option.bind_eq_some_iff.1 hv
  obtain ⟨o, ho, hv⟩ := Option.bind_eq_some_iff.1 hv
  have e := Option.some.inj hv
  subst e
  exact ⟨p, hp, rfl, ht, hrow, fun _ => rfl⟩

theorem view_idx {E : Env α π} (h : s.WF E) {m : String} {v : LinkView α π} (hv : s.view E m = some v) :
    ∃ i, s.link_names[i]? = some m ∧ s.viewAt E i = some v := by
  unfold view at hv
  obtain ⟨i, hi, hv⟩ := Option.bind_eq_some_iff.1 hv
  obtain ⟨hil, e, _⟩ := List.idxOf?_eq_some_iff.1 hi
  exact ⟨i, by rw [List.getElem?_eq_getElem hil, e], hv⟩

theorem view_ex {E : Env α π} (h : s.WF E) {m : String} {i : Nat} (hi : s.link_names[i]? = some m) :
    ∃ v, s.view E m = some v ∧ s.viewAt E i = some v := by
  have hl := (List.getElem?_eq_some_iff.1 hi).1
  rw [h.names_len] at hl
  obtain ⟨v, hv⟩ := viewAt_isSome h.toConsistent hl
  exact ⟨v, by rw [view_eq_viewAt h.toConsistent hi, hv], hv⟩

theorem view_mem {E : Env α π} (h : s.WF E) {m : String} : m ∈ s.link_names ↔ ∃ v, s.view E m = some v := by
  constructor
  · intro hm
    obtain ⟨i, hi, e⟩ := List.getElem_of_mem hm
    obtain ⟨v, hv, -⟩ := view_ex h (m := m) (i := i) (by rw [List.getElem?_eq_getElem hi, e])
    exact ⟨v, hv⟩
  · rintro ⟨v, hv⟩
    obtain ⟨i, hi, -⟩ := view_idx h hv
    exact List.mem_of_getElem? hi

theorem parent_none {E : Env α π} (h : s.WF E) {i : Nat} {v : LinkView α π} (hv : s.viewAt E i = some v) :
    v.parent = none ↔ s.link_parents[i]? = some (-1) := by
  obtain ⟨p, hp, e, -⟩ := viewAt_fields hv
  obtain ⟨hi, hpi⟩ := List.getElem?_eq_some_iff.1 hp
  have := h.topo i hi
  rw [hpi] at this
  rw [e, hp]
  unfold nameAt
  split
  · constructor
    · intro _; congr 1; omega
    · intro _; rfl
  · rw [List.getElem?_eq_getElem (by rw [h.names_len]; omega)]
    constructor
    · intro e; exact absurd e (by simp)
    · intro e; have := Option.some.inj e; omega

theorem parent_some {E : Env α π} (h : s.WF E) {i j : Nat} {n : String} {v : LinkView α π}
    (hv : s.viewAt E i = some v) (hj : s.link_names[j]? = some n) :
    v.parent = some n ↔ s.link_parents[i]? = some (j : Int) := by
  obtain ⟨p, hp, e, -⟩ := viewAt_fields hv
  rw [e, hp]
  unfold nameAt
  split
  · constructor
    · intro e; exact absurd e (by simp)
    · intro e; have := Option.some.inj e; omega
  · constructor
    · intro e
      have := uniqueIdx h.names_nodup e hj
      congr 1
      omega
    · intro e
      have := Option.some.inj e
      rw [this, Int.toNat_natCast, hj]

/-- the parent is a link of the system -/
theorem parent_mem {E : Env α π} (h : s.WF E) {m n : String} {v : LinkView α π}
    (hv : s.view E m = some v) (hp : v.parent = some n) : n ∈ s.link_names := by
  obtain ⟨i, hi, hv⟩ := view_idx h hv
  obtain ⟨p, hp', e, -⟩ := viewAt_fields hv
  rw [e] at hp
  unfold nameAt at hp
  split at hp
  · simp at hp
  · exact List.mem_of_getElem? hp

theorem linked_mem {E : Env α π} (h : s.WF E) {m n : String} (hl : s.Linked E m n) :
    m ∈ s.link_names ∧ n ∈ s.link_names := by
  rcases hl with ⟨v, hv, hp⟩ | ⟨v, hv, hp⟩
  · exact ⟨(view_mem h).2 ⟨v, hv⟩, parent_mem h hv hp⟩
  · exact ⟨parent_mem h hv hp, (view_mem h).2 ⟨v, hv⟩⟩

theorem linked_iff {E : Env α π} (h : s.WF E) {i j : Nat} {m n : String} (hi : s.link_names[i]? = some m)
    (hj : s.link_names[j]? = some n) : s.Linked E m n ↔ Adjacent s.link_parents i j := by
  obtain ⟨v, hv, hvi⟩ := view_ex h hi
  obtain ⟨w, hw, hwj⟩ := view_ex h hj
  unfold System.Linked Adjacent
  rw [hv, hw, ← parent_some h hvi hj, ← parent_some h hwj hi]
  simp

/-! ## composition -/

theorem HeldAt.trans {part : String → Prop} {as bs : List String} (h1 : s.HeldAt E part as s1)
    (h2 : s1.HeldAt E (fun _ => True) bs s2) : s.HeldAt E part bs s2 where
  wf := h2.wf
  mem m := by rw [h2.mem, h1.mem]; simp
  anchors_mem := h2.anchors_mem
  world := h2.world
  linked m n hm hn := by rw [h2.linked m n trivial trivial, h1.linked m n hm hn]
  joints := by
    obtain ⟨l2, hn2, hm2, hp2⟩ := h2.joints
    obtain ⟨l1, hn1, hm1, hp1⟩ := h1.joints
    refine ⟨l1, hn1, hm1, hp2.trans (List.Perm.trans ?_ hp1)⟩
    refine List.Perm.map _ ((List.perm_ext_iff_of_nodup hn2 h1.wf.names_nodup).2 fun m => ?_)
    rw [hm2]; simp
  omc m v v' hv hv' := by
    have hm : m ∈ s1.link_names := by
      have := (view_mem h2.wf).2 ⟨v', hv'⟩
      exact ((h2.mem m).1 this).1
    obtain ⟨w, hw⟩ := (view_mem h1.wf).1 hm
    rw [h2.omc m w v' hw hv', h1.omc m v w hv hw]
  scene X hX := by
    obtain ⟨X1, hX1, hg1⟩ := h1.scene X hX
    obtain ⟨X2, hX2, hg2⟩ := h2.scene X1 hX1
    refine ⟨X2, hX2, fun m v v' hv hv' => ?_⟩
    have hm : m ∈ s1.link_names := by
      have := (view_mem h2.wf).2 ⟨v', hv'⟩
      exact ((h2.mem m).1 this).1
    obtain ⟨w, hw⟩ := (view_mem h1.wf).1 hm
    rw [hg2 m w v' hw hv', hg1 m v w hv hw]
  globals := h2.globals.trans h1.globals
  keys t := by rw [h2.keys, h1.keys]

/-! ## deleting the other trees -/

theorem heldAt_of_removed (h : s.WF E.toEnv) {gone : String → Prop} {part : String → Prop} {as : List String}
    (hR : s.Removed E.toEnv gone s1) (hpart : ∀ m ∈ s.link_names, (¬ gone m ↔ part m))
    (has0 : ∀ a ∈ as, a ∈ s.link_names ∧ part a)
    (has : ∀ m v, part m → s.view E.toEnv m = some v → (v.parent = none ↔ m ∈ as)) :
    s.HeldAt E part as s1 := by
  have hmem : ∀ m, m ∈ s1.link_names ↔ m ∈ s.link_names ∧ part m := by
    intro m
    rw [hR.mem]
    constructor
    · rintro ⟨a, b⟩; exact ⟨a, (hpart m a).1 b⟩
    · rintro ⟨a, b⟩; exact ⟨a, (hpart m a).2 b⟩
  have hview : ∀ m v, s1.view E.toEnv m = some v → part m ∧ s.view E.toEnv m = some v := by
    intro m v hv
    have hm := (view_mem hR.wf).2 ⟨v, hv⟩
    exact ⟨((hmem m).1 hm).2, by rw [← hR.view m hm, hv]⟩
  have hview' : ∀ m v, part m → s.view E.toEnv m = some v → s1.view E.toEnv m = some v := by
    intro m v hp hv
    rw [hR.view m ((hmem m).2 ⟨(view_mem h).2 ⟨v, hv⟩, hp⟩), hv]
  refine ⟨hR.wf, hmem, fun a ha => (hmem a).2 (has0 a ha), ?_, ?_, ⟨s1.link_names, hR.wf.names_nodup, hmem, ?_⟩, ?_, ?_, hR.globals, ?_⟩
  · intro m v hv
    exact has m v (hview m v hv).1 (hview m v hv).2
  · intro m n hm hn
    unfold System.Linked
    constructor
    · rintro (⟨v, hv, hp⟩ | ⟨v, hv, hp⟩)
      · exact Or.inl ⟨v, (hview m v hv).2, hp⟩
      · exact Or.inr ⟨v, (hview n v hv).2, hp⟩
    · rintro (⟨v, hv, hp⟩ | ⟨v, hv, hp⟩)
      · exact Or.inl ⟨v, hview' m v hm hv, hp⟩
      · exact Or.inr ⟨v, hview' n v hn hv, hp⟩
  · refine List.Perm.of_eq (List.map_congr_left fun m hm => ?_)
    rw [hR.view m hm]
  · intro m v v' hv hv'
    rw [(hview m v' hv').2] at hv
    cases hv; rfl
  · intro X hX
    refine ⟨X, fun m v hv => hX m v (hview m v hv).2, fun m v v' hv hv' => ?_⟩
    rw [(hview m v' hv').2] at hv
    cases hv; rfl
  · intro t
    rw [hR.keys]

/-! ## morphing -/

/-- a key of the joint parameters is a parameter of every link -/
theorem key_iff {E : Env α π} (h : s.WF E) {i : Nat} {v : LinkView α π} (hv : s.viewAt E i = some v)
    (t : String) : t ∈ s.joint_params.map (·.1) ↔ (v.joint_params t).isSome = true := by
  obtain ⟨p, hp, -, -, -, e⟩ := viewAt_fields hv
  have hi := (List.getElem?_eq_some_iff.1 hp).1
  rw [e]
  constructor
  · intro ht
    obtain ⟨x, hx, rfl⟩ := List.mem_map.1 ht
    cases hl : s.joint_params.lookup x.1 with
    | none =>
      rw [List.lookup_eq_none_iff] at hl
      exact absurd (hl x hx) (by simp)
    | some rows =>
      obtain ⟨y, hy, e⟩ : ∃ y, (y, rows) ∈ s.joint_params ∧ y = x.1 := by
        obtain ⟨l1, l2, e, _⟩ := List.lookup_eq_some_iff.1 hl
        exact ⟨x.1, by rw [e]; simp, rfl⟩
      have := h.jp_len _ hy
      simp only at this
      rw [Option.bind_some, List.getElem?_eq_getElem (by rw [this]; exact hi)]
      rfl
  · intro hs
    cases hl : s.joint_params.lookup t with
    | none => rw [hl] at hs; simp at hs
    | some rows =>
      obtain ⟨l1, l2, e, _⟩ := List.lookup_eq_some_iff.1 hl
      rw [e]; simp

theorem restPoses_unique (h : s.WF E.toEnv) {X : Nat → Transform α} {Y : String → Transform α}
    (hX : RestPoses s X) (hY : s.AtRest E.toEnv Y) :
    ∀ i m, s.link_names[i]? = some m → Y m = X i := by
  intro i
  induction i using Nat.strong_induction_on with
  | _ i ih =>
    intro m hm
    have hi : i < s.link_parents.length := by
      rw [← h.names_len]; exact (List.getElem?_eq_some_iff.1 hm).1
    obtain ⟨v, hv, hvi⟩ := view_ex h hm
    obtain ⟨p, hp, e, -, hrow, -⟩ := viewAt_fields hvi
    have hpi := (List.getElem?_eq_some_iff.1 hp).2
    have ht := h.topo i hi
    rw [hY m v hv, hX.eq i hi, hpi]
    rw [hpi] at ht
    have e1 : T1 s i = v.row.transform1 := by
      unfold T1; rw [hrow]; rfl
    rw [e1, e]
    congr 1
    unfold nameAt parentVal
    split
    · rw [if_neg (by omega)]
      rfl
    · have hl : p.toNat < s.link_names.length := by rw [h.names_len]; omega
      rw [List.getElem?_eq_getElem hl, if_pos (by omega)]
      exact ih p.toNat (by omega) _ (List.getElem?_eq_getElem hl)

theorem heldAt_of_morphed (h : s.WF E.toEnv) (hr : Resting E s)
    {R : List Int} {a : Nat} {X : Nat → Transform α} {perm : List Nat} {anchor : String}
    (ha : s.link_names[a]? = some anchor)
    (hR : Rerooted s.link_parents a R) (hX : RestPoses s X) (hM : Morphed E s R 0 X perm s1) :
    s.HeldAt E (fun _ => True) [anchor] s1 := by
  have hrev := hR.reversal h.topo
  have hperm := hM.renumbered.bijection
  have hplen : perm.length = s.link_parents.length := by
    rw [hperm.length_eq, List.length_range, hR.len]
  have hnd : perm.Nodup := hperm.nodup_iff.2 List.nodup_range
  have hlt : ∀ {i : Nat}, i ∈ perm ↔ i < s.link_parents.length := by
    intro i
    rw [hperm.mem_iff, List.mem_range, hR.len]
  have hlen1 : s1.link_parents.length = perm.length := by
    rw [hM.renumbered.len, hplen, hR.len]
  have idx1 : ∀ {k : Nat} {m : String}, s1.link_names[k]? = some m →
      ∃ i, perm[k]? = some i ∧ s.link_names[i]? = some m := by
    intro k m hk
    have hkl := (List.getElem?_eq_some_iff.1 hk).1
    rw [hM.wf.names_len, hlen1] at hkl
    refine ⟨perm[k], List.getElem?_eq_getElem hkl, ?_⟩
    rw [← hM.names k _ (List.getElem?_eq_getElem hkl), hk]
  have idx2 : ∀ {i : Nat} {m : String}, s.link_names[i]? = some m →
      ∃ k : Nat, perm[k]? = some i ∧ s1.link_names[k]? = some m := by
    intro i m hi
    have hil := (List.getElem?_eq_some_iff.1 hi).1
    rw [h.names_len] at hil
    obtain ⟨k, hk, e⟩ := List.getElem_of_mem (hlt.2 hil)
    have hk' : perm[k]? = some i := by rw [List.getElem?_eq_getElem hk, e]
    exact ⟨k, hk', by rw [hM.names k i hk', hi]⟩
  have hmem : ∀ m, m ∈ s1.link_names ↔ m ∈ s.link_names := by
    intro m
    constructor
    · intro hm
      obtain ⟨k, hk, e⟩ := List.getElem_of_mem hm
      obtain ⟨i, -, hi⟩ := idx1 (k := k) (m := m) (by rw [List.getElem?_eq_getElem hk, e])
      exact List.mem_of_getElem? hi
    · intro hm
      obtain ⟨k, hk, e⟩ := List.getElem_of_mem hm
      obtain ⟨i, -, hi⟩ := idx2 (i := k) (m := m) (by rw [List.getElem?_eq_getElem hk, e])
      exact List.mem_of_getElem? hi
  have hview : ∀ {m : String} {v' : LinkView α π}, s1.view E.toEnv m = some v' →
      ∃ (k i : Nat) (v w : LinkView α π), perm[k]? = some i ∧ s.link_names[i]? = some m ∧
        s1.link_names[k]? = some m ∧
        i < s.link_parents.length ∧ s.viewAt E.toEnv i = some v ∧ s.view E.toEnv m = some v ∧
        s1.viewAt E.toEnv k = some v' ∧
        s.viewAt E.toEnv (owner s.link_parents R 0 i) = some w ∧
        v'.parent = s.nameAt (R.getD i 0) ∧ v'.joint = w.joint ∧ v'.omc = v.omc ∧
        v'.row.transform1 = offset s.link_parents R X (T1 s) i := by
    intro m v' hv'
    obtain ⟨k, hk, hvk⟩ := view_idx hM.wf hv'
    obtain ⟨i, hki, hi⟩ := idx1 hk
    obtain ⟨v, w, v2, h1, h2, h3, h4, h5, h6, h7, h8, h9, h10, h11, -, h13, -⟩ := hM.links k i hki
    rw [hvk] at h3
    cases h3
    refine ⟨k, i, v, w, hki, hi, hk, hlt.1 (List.mem_of_getElem? hki), h1,
      by rw [view_eq_viewAt h.toConsistent hi, h1], hvk, h2, h4, ?_, h11, h13⟩
    unfold LinkView.joint
    rw [h5, h6, h7, h8, h9, h10]
  refine ⟨hM.wf, fun m => by rw [hmem]; simp, fun b hb => by
    rw [List.mem_singleton.1 hb, hmem]; exact List.mem_of_getElem? ha, ?_, ?_, ?_, ?_, ?_, hM.globals, ?_⟩
  · -- the anchor
    intro m v' hv'
    obtain ⟨k, i, v, w, hki, hi, -, hil, -, -, -, -, hp, -⟩ := hview hv'
    have hRr := hrev.rangeP hil
    rw [hp, List.mem_singleton]
    have hroot := hR.tree.root i
    rw [getD_some (by rw [hR.len]; exact hil) 0] at hroot
    unfold nameAt
    split
    · have e : i = a := hroot.1 (by congr 1; omega)
      subst e
      rw [hi] at ha
      exact ⟨fun _ => Option.some.inj ha, fun _ => rfl⟩
    · rw [List.getElem?_eq_getElem (by rw [h.names_len]; omega)]
      constructor
      · intro e; exact absurd e (by simp)
      · intro e
        subst e
        have := uniqueIdx h.names_nodup hi ha
        have := Option.some.inj (hroot.2 this)
        omega
  · -- the connections
    intro m n _ _
    have key : ∀ m n, (∃ v, s1.view E.toEnv m = some v ∧ v.parent = some n) ↔
        ∃ i j : Nat, s.link_names[i]? = some m ∧ s.link_names[j]? = some n ∧ R[i]? = some (j : Int) := by
      intro m n
      constructor
      · rintro ⟨v', hv', hp'⟩
        obtain ⟨k, i, v, w, hki, hi, -, hil, -, -, -, -, hp, -⟩ := hview hv'
        rw [hp'] at hp
        have hRr := hrev.rangeP hil
        unfold nameAt at hp
        split at hp
        · simp at hp
        · refine ⟨i, (R.getD i 0).toNat, hi, hp.symm, ?_⟩
          rw [getD_some (by rw [hR.len]; exact hil) 0]
          congr 1
          omega
      · rintro ⟨i, j, hi, hj, hRi⟩
        obtain ⟨k, hki, hk⟩ := idx2 hi
        obtain ⟨v', hv', hvk⟩ := view_ex hM.wf hk
        refine ⟨v', hv', ?_⟩
        obtain ⟨k', i', v, w, hki', hi', -, hil, -, -, -, -, hp, -⟩ := hview hv'
        have := uniqueIdx h.names_nodup hi hi'
        subst this
        rw [hp, getD_of_some hRi]
        unfold nameAt
        rw [if_neg (by omega), Int.toNat_natCast, hj]
    have : s1.Linked E.toEnv m n ↔ ∃ i j : Nat, s.link_names[i]? = some m ∧ s.link_names[j]? = some n ∧
        Adjacent R i j := by
      unfold System.Linked Adjacent
      rw [key, key]
      constructor
      · rintro (⟨i, j, h1, h2, h3⟩ | ⟨i, j, h1, h2, h3⟩)
        · exact ⟨i, j, h1, h2, Or.inl h3⟩
        · exact ⟨j, i, h2, h1, Or.inr h3⟩
      · rintro ⟨i, j, h1, h2, h3 | h3⟩
        · exact Or.inl ⟨i, j, h1, h2, h3⟩
        · exact Or.inr ⟨j, i, h2, h1, h3⟩
    rw [this]
    constructor
    · rintro ⟨i, j, hi, hj, hA⟩
      exact (linked_iff h hi hj).2 ((hR.adjacent i j).1 hA)
    · intro hL
      obtain ⟨hm, hn⟩ := linked_mem h hL
      obtain ⟨i, hi, ei⟩ := List.getElem_of_mem hm
      obtain ⟨j, hj, ej⟩ := List.getElem_of_mem hn
      have hi' : s.link_names[i]? = some m := by rw [List.getElem?_eq_getElem hi, ei]
      have hj' : s.link_names[j]? = some n := by rw [List.getElem?_eq_getElem hj, ej]
      exact ⟨i, j, hi', hj', (hR.adjacent i j).2 ((linked_iff h hi' hj').1 hL)⟩
  · -- the joints
    refine ⟨s.link_names, h.names_nodup, fun m => by simp, ?_⟩
    have e1 : s1.jointsOf E.toEnv s1.link_names = perm.map fun i =>
        (s.viewAt E.toEnv (owner s.link_parents R 0 i)).map LinkView.joint := by
      unfold System.jointsOf
      apply List.ext_getElem?
      intro k
      rw [List.getElem?_map, List.getElem?_map]
      by_cases hk : k < perm.length
      · have hk1 : k < s1.link_names.length := by rw [hM.wf.names_len, hlen1]; exact hk
        rw [List.getElem?_eq_getElem hk, List.getElem?_eq_getElem hk1, Option.map_some, Option.map_some]
        congr 1
        have hk2 : s1.link_names[k]? = some s1.link_names[k] := List.getElem?_eq_getElem hk1
        obtain ⟨v', hv', hvk⟩ := view_ex hM.wf hk2
        obtain ⟨k', i, v, w, hki, hi, hk', hil, -, -, -, hw, -, hj, -⟩ := hview hv'
        have := uniqueIdx hM.wf.names_nodup hk2 hk'
        subst this
        rw [List.getElem?_eq_getElem hk] at hki
        rw [hv', Option.map_some, hj, Option.some.inj hki, hw, Option.map_some]
      · have := hM.wf.names_len
        rw [List.getElem?_eq_none (by omega), List.getElem?_eq_none (by omega)]
        rfl
    have e2 : s.jointsOf E.toEnv s.link_names = (List.range s.link_parents.length).map fun i =>
        (s.viewAt E.toEnv i).map LinkView.joint := by
      unfold System.jointsOf
      apply List.ext_getElem?
      intro i
      rw [List.getElem?_map, List.getElem?_map]
      by_cases hi : i < s.link_parents.length
      · have hi1 : i < s.link_names.length := by rw [h.names_len]; exact hi
        rw [List.getElem?_eq_getElem hi1, List.getElem?_range hi, Option.map_some, Option.map_some,
          view_eq_viewAt h.toConsistent (List.getElem?_eq_getElem hi1)]
      · rw [List.getElem?_eq_none (by rw [h.names_len]; omega), List.getElem?_eq_none (by simpa using hi)]
        rfl
    rw [e1, e2]
    have hown := C72_joints hrev hR.tree
    have e3 : (perm.map (owner s.link_parents R 0)).Perm (List.range s.link_parents.length) := by
      have hsub : ∀ j ∈ List.range s.link_parents.length, j ∈ perm.map (owner s.link_parents R 0) := by
        intro j hj
        obtain ⟨i, ⟨hi, e⟩, -⟩ := hown j (List.mem_range.1 hj)
        exact List.mem_map.2 ⟨i, hlt.2 hi, e⟩
      have := (List.subperm_of_subset List.nodup_range hsub)
      exact (this.perm_of_length_le (by simp [hplen])).symm
    have := e3.map fun i => (s.viewAt E.toEnv i).map LinkView.joint
    rw [List.map_map] at this
    exact this
  · intro m v v' hv hv'
    obtain ⟨k, i, v2, w, -, -, -, -, -, h2, -, -, -, -, h3, -⟩ := hview hv'
    rw [hv] at h2
    cases h2
    exact h3
  · -- the scene
    intro Y hY
    have hYX := restPoses_unique h hX hY
    have hname : ∀ {i : Nat} {m : String}, s.link_names[i]? = some m → s.link_names.idxOf m = i := by
      intro i m hi
      obtain ⟨hil, rfl⟩ := List.getElem?_eq_some_iff.1 hi
      exact h.names_nodup.idxOf_getElem i hil
    refine ⟨fun m => movedPose s.link_parents R X (s.link_names.idxOf m), ?_, ?_⟩
    · intro m v' hv'
      obtain ⟨k, i, v, w, hki, hi, -, hil, -, -, -, -, hp, -, -, ht⟩ := hview hv'
      have hRr := hrev.rangeP hil
      dsimp only
      rw [hname hi, ht, hp, ← newT_eq hr hrev hX hil]
      unfold newT
      have e : (s.nameAt (R.getD i 0)).elim Transform.zero
          (fun m => movedPose s.link_parents R X (s.link_names.idxOf m)) =
          parentVal .zero (movedPose s.link_parents R X) (R.getD i 0) := by
        unfold nameAt parentVal
        split
        · rw [if_neg (by omega)]
          rfl
        · have hl : (R.getD i 0).toNat < s.link_names.length := by rw [h.names_len]; omega
          rw [List.getElem?_eq_getElem hl, if_pos (by omega)]
          show movedPose s.link_parents R X _ = _
          rw [hname (List.getElem?_eq_getElem hl)]
      rw [e, transform_mul_assoc', transform_inv_mul, transform_mul_zero]
      refine parentVal_unit (n := s.link_parents.length) (fun j hj => ?_) hRr.2
      unfold movedPose
      split
      · rename_i hmv
        obtain ⟨c, hc, hc1, -⟩ := hrev.moved hj hmv
        exact hX.unit _ (by omega)
      · exact hX.unit j hj
    · intro m v v' hv hv'
      obtain ⟨k, i, v2, w, hki, hi, -, hil, h1, h2, h3, -⟩ := hview hv'
      rw [hv] at h2
      cases h2
      refine C72_geoms hM hki ?_ h1 h3
      dsimp only
      rw [hname hi, hYX i m hi]
      unfold movedPose morph.shift
      split
      · rename_i hmv
        obtain ⟨c, hc, hc1, -⟩ := hrev.moved hil hmv
        rw [← moved_rel hr hrev hX hil hmv, transform_mul_assoc', transform_inv_mul, transform_mul_zero]
        exact hX.unit _ (by omega)
      · exact transform_zero_mul _
  · -- the kinds of parameters
    intro t
    have ha' : a < s.link_parents.length := by
      rw [← h.names_len]; exact (List.getElem?_eq_some_iff.1 ha).1
    obtain ⟨k, hki, hk⟩ := idx2 ha
    obtain ⟨v', hv', hvk⟩ := view_ex hM.wf hk
    obtain ⟨k', i, v, w, hki', hi, hk', hil, -, -, -, hw, -, hj, -⟩ := hview hv'
    have ej : v'.joint_params = w.joint_params := congrArg (fun j : Joint α π => j.2.2.2.2.2) hj
    rw [key_iff hM.wf hvk, key_iff h hw, ej]

end randomize
end RingLib
