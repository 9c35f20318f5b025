import Verif.Lemmas.Desc
import Verif.Props.Inertia

/-! Selecting / renumbering links: the common core of deleting, injecting, re-rooting and reloading. -/

namespace RingLib
variable {β γ α π : Type}

/-- the entries of `l` at the positions `keep` -/
def sel (keep : List Nat) (l : List β) : List β := keep.filterMap fun i => l[i]?

theorem sel_getElem? {keep : List Nat} {l : List β} (h : ∀ i ∈ keep, i < l.length) (j : Nat) :
    (sel keep l)[j]? = keep[j]?.bind fun i => l[i]? := filterMap_getElem?_getElem? l keep h j

theorem sel_length {keep : List Nat} {l : List β} (h : ∀ i ∈ keep, i < l.length) :
    (sel keep l).length = keep.length := filterMap_getElem?_length l keep h

theorem sel_map (f : β → γ) (keep : List Nat) (l : List β) :
    sel keep (l.map f) = (sel keep l).map f := filterMap_getElem?_map f l keep

theorem sel_range (l : List β) : sel (List.range l.length) l = l := filterMap_range_self l

theorem mem_sel {keep : List Nat} {l : List β} {x : β} :
    x ∈ sel keep l ↔ ∃ i ∈ keep, l[i]? = some x := by
  simp [sel, List.mem_filterMap]

theorem sel_nodup {keep : List Nat} {l : List β} (hk : keep.Nodup) (hl : l.Nodup) :
    (sel keep l).Nodup := by
  apply List.Nodup.filterMap _ hk
  intro i j x hi hj
  simp at hi hj
  obtain ⟨h1, e1⟩ := List.getElem?_eq_some_iff.1 hi
  obtain ⟨h2, e2⟩ := List.getElem?_eq_some_iff.1 hj
  exact (hl.getElem_inj_iff (hi := h1) (hj := h2)).1 (e1.trans e2.symm)

/-- the widths and slices of a selection -/
theorem chunks_sel (w : String → Option Nat) {types : List String} {xs : List β} {keep : List Nat}
    (h : xs.length = (types.map (wOf w)).sum) :
    chunks ((sel keep types).map (wOf w)) (sel keep (chunks (types.map (wOf w)) xs)).flatten =
      sel keep (chunks (types.map (wOf w)) xs) := by
  have e : (sel keep types).map (wOf w) =
      (sel keep (chunks (types.map (wOf w)) xs)).map List.length := by
    rw [← sel_map, ← sel_map, chunks_map_length _ _ h]
  rw [e, chunks_of_flatten]

theorem flatten_sel_length (w : String → Option Nat) {types : List String} {xs : List β}
    {keep : List Nat} (h : xs.length = (types.map (wOf w)).sum) :
    (sel keep (chunks (types.map (wOf w)) xs)).flatten.length =
      ((sel keep types).map (wOf w)).sum := by
  rw [List.length_flatten, ← sel_map, ← sel_map, chunks_map_length _ _ h]

theorem ownSlice_sel (w : String → Option Nat) {types : List String} {xs : List β}
    {keep : List Nat} (h : xs.length = (types.map (wOf w)).sum)
    (hk : ∀ i ∈ keep, i < types.length) {i j : Nat} (hj : keep[j]? = some i) :
    ownSlice w (sel keep types) (sel keep (chunks (types.map (wOf w)) xs)).flatten j =
      ownSlice w types xs i := by
  have hi : i ∈ keep := List.mem_of_getElem? hj
  have hj' : j < (sel keep types).length := by
    rw [sel_length hk]; exact (List.getElem?_eq_some_iff.1 hj).1
  have h1 := ownSlice_eq w (sel keep types) (sel keep (chunks (types.map (wOf w)) xs)).flatten j hj'
  rw [chunks_sel w h, sel_getElem? (by simpa using hk), hj] at h1
  have h2 := ownSlice_eq w types xs i (hk i hi)
  simp only [Option.bind_some, h2] at h1
  exact (Option.some.inj h1).symm
where ownSlice_eq := @System.ownSlice_eq

/-- the new number of the old link `p` (`-1` stays `-1`) -/
def newIdx (keep : List Nat) (p : Int) : Int := if p < 0 then -1 else (keep.idxOf p.toNat : Int)

theorem newIdx_of_getElem? {keep : List Nat} (hn : keep.Nodup) {j i : Nat}
    (h : keep[j]? = some i) : newIdx keep i = j := by
  obtain ⟨hj, e⟩ := List.getElem?_eq_some_iff.1 h
  have : ¬ ((i : Int) < 0) := by omega
  simp only [newIdx, this, if_false, Int.toNat_natCast]
  rw [← e, hn.idxOf_getElem]

/-- `s'` consists of the links `keep` of `s` (in that order), renumbered. The inertias may differ. -/
structure Selected (E : Env α π) (keep : List Nat) (s s' : System α π) : Prop where
  lt : ∀ i ∈ keep, i < s.link_parents.length
  nodup : keep.Nodup
  closed : ∀ (i : Nat), i ∈ keep → ∀ p : Nat, s.link_parents[i]? = some (p : Int) → p ∈ keep
  names : s'.link_names = sel keep s.link_names
  types : s'.link_types = sel keep s.link_types
  parents : s'.link_parents = (sel keep s.link_parents).map (newIdx keep)
  omc : s'.omc = sel keep s.omc
  links_len : s'.links.length = keep.length
  links : ∀ (j i : Nat) (r r' : LinkRow α), keep[j]? = some i → s.links[i]? = some r →
    s'.links[j]? = some r' → { r' with inertia := r.inertia } = r
  damping : s'.link_damping = (sel keep (chunks (s.link_types.map (wOf E.dw)) s.link_damping)).flatten
  armature : s'.link_armature =
    (sel keep (chunks (s.link_types.map (wOf E.dw)) s.link_armature)).flatten
  stiffness : s'.link_spring_stiffness =
    (sel keep (chunks (s.link_types.map (wOf E.dw)) s.link_spring_stiffness)).flatten
  zeropoint : s'.link_spring_zeropoint =
    (sel keep (chunks (s.link_types.map (wOf E.qw)) s.link_spring_zeropoint)).flatten
  jp : ∀ (typ : String) (i j : Nat), keep[j]? = some i →
    (s'.joint_params.lookup typ).bind (·[j]?) = (s.joint_params.lookup typ).bind (·[i]?)
  geoms : ∀ (i j : Nat), keep[j]? = some i →
    (s'.geoms.filter fun g => g.link_idx = (j : Int)).map Geometry.data =
      (s.geoms.filter fun g => g.link_idx = (i : Int)).map Geometry.data

theorem inertia_of_data [Field α] (pi : α) {g1 g2 : List (Geometry α)} {i j : Int}
    (h : (g1.filter fun g => g.link_idx = i).map Geometry.data =
      (g2.filter fun g => g.link_idx = j).map Geometry.data) :
    compute_inertia_per_link pi g1 i = compute_inertia_per_link pi g2 j := by
  unfold compute_inertia_per_link
  have e : ∀ (l : List (Geometry α)) (k : Int),
      (l.filter fun g => g.link_idx == k) = l.filter fun g => g.link_idx = k := fun _ _ => rfl
  rw [e, e, inertia_from_eq_sum, inertia_from_eq_sum]
  have e2 : (fun g : Geometry α => Inertia.create g.mass g.transform (g.get_it_3x3 pi)) =
      (fun d : GeomData α => Inertia.create d.mass d.transform
        (Geometry.get_it_3x3 pi ⟨d.mass, d.transform, 0, d.shape, d.color, d.edge_color⟩)) ∘
        Geometry.data := rfl
  rw [e2, ← List.map_map, ← List.map_map, h]

namespace System

theorem filter_mergeSort (gs : List (Geometry α)) (i : Int) :
    ((gs.mergeSort fun g h => g.link_idx ≤ h.link_idx).filter fun g => g.link_idx = i) =
      gs.filter fun g => g.link_idx = i := by
  have perm := List.mergeSort_perm gs fun g h => decide (g.link_idx ≤ h.link_idx)
  have sub : List.Sublist (gs.filter fun g => g.link_idx = i)
      (gs.mergeSort fun g h => g.link_idx ≤ h.link_idx) := by
    apply List.sublist_mergeSort
    · intro a b c h1 h2; simp at *; omega
    · intro a b; simp; omega
    · refine List.pairwise_of_forall_mem_list ?_
      intro a ha b hb
      simp at ha hb
      simp [ha.2, hb.2]
    · exact List.filter_sublist
  have sub2 := sub.filter fun g => decide (g.link_idx = i)
  rw [List.filter_filter] at sub2
  simp only [Bool.and_self] at sub2
  exact (sub2.eq_of_length (perm.symm.filter _).length_eq).symm

theorem mergeSort_of_sorted {gs : List (Geometry α)}
    (h : gs.Pairwise fun g h => g.link_idx ≤ h.link_idx) :
    (gs.mergeSort fun g h => g.link_idx ≤ h.link_idx) = gs := by
  apply List.mergeSort_of_pairwise
  simpa using h

variable [Field α]

theorem normalised_links_getElem? (E : Env α π) {s : System α π}
    (hl : s.links.length = s.link_parents.length) (i : Nat) :
    (s.normalised E).links[i]? = (s.links[i]?).map fun l =>
      { l with inertia := compute_inertia_per_link E.pi s.geoms i } := by
  simp only [normalised, List.getElem?_zipWith, List.getElem?_map]
  by_cases h : i < s.links.length
  · rw [List.getElem?_eq_getElem h, List.getElem?_range (by omega)]
    rfl
  · rw [List.getElem?_eq_none (by omega)]
    rfl

theorem normalised_consistent {E : Env α π} {s : System α π} (h : s.Consistent E) :
    (s.normalised E).Consistent E where
  types_len := h.types_len
  links_len := by simp [normalised, h.links_len]
  omc_len := h.omc_len
  names_len := h.names_len
  names_nodup := h.names_nodup
  pos_ok := by
    intro l hl
    obtain ⟨i, hi, rfl⟩ := List.getElem_of_mem hl
    have := normalised_links_getElem? E h.links_len i
    rw [List.getElem?_eq_getElem hi] at this
    cases hs : s.links[i]? with
    | none => rw [hs] at this; cases this
    | some r =>
      rw [hs] at this
      rw [Option.some.inj this]
      exact h.pos_ok r (List.mem_of_getElem? hs)
  geoms_ok := fun g hg => h.geoms_ok g ((List.mergeSort_perm _ _).mem_iff.1 hg)
  known := h.known
  damping_len := h.damping_len
  armature_len := h.armature_len
  stiffness_len := h.stiffness_len
  zeropoint_len := h.zeropoint_len
  unit_zero := h.unit_zero

/-- `parse` makes a consistent, topologically numbered system well-formed. -/
theorem normalised_wf {E : Env α π} {s : System α π} (h : s.Consistent E)
    (ht : Topological s.link_parents) (hjk : (s.joint_params.map (·.1)).Nodup)
    (hjl : ∀ x ∈ s.joint_params, x.2.length = s.link_parents.length) :
    (s.normalised E).WF E where
  toConsistent := normalised_consistent h
  topo := ht
  jp_keys := hjk
  jp_len := hjl
  inertia_ok := by
    intro i hi
    have := normalised_links_getElem? E h.links_len i
    rw [List.getElem?_eq_getElem hi] at this
    cases hs : s.links[i]? with
    | none => rw [hs] at this; cases this
    | some r =>
      rw [hs] at this
      rw [Option.some.inj this]
      exact C21_order_independent E.pi (List.mergeSort_perm _ _).symm _
  geoms_sorted := by
    have := List.pairwise_mergeSort (l := s.geoms) (le := fun g h => g.link_idx ≤ h.link_idx)
      (by intro a b c h1 h2; simp at *; omega) (by intro a b; simp; omega)
    simpa [normalised] using this

theorem normalised_of_wf {E : Env α π} {s : System α π} (h : s.WF E) : s.normalised E = s := by
  have hg := mergeSort_of_sorted h.geoms_sorted
  have hl : (s.normalised E).links = s.links := by
    apply List.ext_getElem?
    intro i
    rw [normalised_links_getElem? E h.links_len]
    cases hs : s.links[i]? with
    | none => rfl
    | some r =>
      obtain ⟨hi, e⟩ := List.getElem?_eq_some_iff.1 hs
      have := h.inertia_ok i hi
      rw [e] at this
      simp [← this]
  unfold normalised at hl ⊢
  simp only at hl
  rw [hl, hg]

omit [Field α] in
/-- A selection of a consistent system is consistent (if its geometry pointers are). -/
theorem selected_consistent {E : Env α π} {s s' : System α π} {keep : List Nat}
    (h : s.Consistent E) (hs : Selected E keep s s')
    (hg : ∀ g ∈ s'.geoms, -1 ≤ g.link_idx ∧ g.link_idx < s'.link_parents.length) :
    s'.Consistent E := by
  have lp : s'.link_parents.length = keep.length := by
    rw [hs.parents, List.length_map, sel_length hs.lt]
  have ht : ∀ i ∈ keep, i < s.link_types.length := fun i hi => h.types_len ▸ hs.lt i hi
  exact {
    types_len := by rw [hs.types, sel_length ht, lp]
    links_len := by rw [hs.links_len, lp]
    omc_len := by rw [hs.omc, sel_length (fun i hi => h.omc_len ▸ hs.lt i hi), lp]
    names_len := by rw [hs.names, sel_length (fun i hi => h.names_len ▸ hs.lt i hi), lp]
    names_nodup := by rw [hs.names]; exact sel_nodup hs.nodup h.names_nodup
    pos_ok := by
      intro l hl
      obtain ⟨j, hj, rfl⟩ := List.getElem_of_mem hl
      have hj' : j < keep.length := hs.links_len ▸ hj
      have hi : keep[j] < s.links.length := h.links_len ▸ hs.lt _ (List.getElem_mem hj')
      have e := hs.links j keep[j] s.links[keep[j]] _ (List.getElem?_eq_getElem hj')
        (List.getElem?_eq_getElem hi) (List.getElem?_eq_getElem hj)
      have := h.pos_ok _ (List.getElem_mem hi)
      rw [← e] at this
      exact this
    geoms_ok := hg
    known := by
      intro t ht'
      rw [hs.types] at ht'
      obtain ⟨i, _, hi⟩ := mem_sel.1 ht'
      exact h.known t (List.mem_of_getElem? hi)
    damping_len := by rw [hs.damping, hs.types, flatten_sel_length E.dw h.damping_len]
    armature_len := by rw [hs.armature, hs.types, flatten_sel_length E.dw h.armature_len]
    stiffness_len := by rw [hs.stiffness, hs.types, flatten_sel_length E.dw h.stiffness_len]
    zeropoint_len := by rw [hs.zeropoint, hs.types, flatten_sel_length E.qw h.zeropoint_len]
    unit_zero := by
      intro j hj hq
      have hj' : j < keep.length := by
        rw [hs.types, sel_length ht] at hj; exact hj
      have hkj : keep[j]? = some keep[j] := List.getElem?_eq_getElem hj'
      have hi := ht _ (List.getElem_mem hj')
      have et : s'.link_types[j] = s.link_types[keep[j]] := by
        have : s'.link_types[j]? = some s.link_types[keep[j]] := by
          rw [hs.types, sel_getElem? ht, hkj]
          simp [hi]
        rw [List.getElem?_eq_getElem hj] at this
        exact Option.some.inj this
      rw [et] at hq
      have := h.unit_zero _ hi hq
      rw [hs.types, hs.zeropoint, ownSlice_sel E.qw h.zeropoint_len ht hkj]
      exact this }

/-- In a selection of a well-formed system (whose inertias are up to date as well) every link
looks as before. -/
theorem selected_viewAt {E : Env α π} {s s' : System α π} {keep : List Nat}
    (h : s.WF E) (hs : Selected E keep s s') (h' : s'.WF E) {i j : Nat} (hj : keep[j]? = some i) :
    s'.viewAt E j = s.viewAt E i := by
  have hi : i ∈ keep := List.mem_of_getElem? hj
  have hlt := hs.lt i hi
  have hjl : j < keep.length := (List.getElem?_eq_some_iff.1 hj).1
  have ht : ∀ i ∈ keep, i < s.link_types.length := fun i hi => h.types_len ▸ hs.lt i hi
  have ho : ∀ i ∈ keep, i < s.omc.length := fun i hi => h.omc_len ▸ hs.lt i hi
  have hnm : ∀ i ∈ keep, i < s.link_names.length := fun i hi => h.names_len ▸ hs.lt i hi
  have hti := ht i hi
  have hoi := ho i hi
  have hli : i < s.links.length := h.links_len ▸ hlt
  have e1 : s'.link_parents[j]? = some (newIdx keep s.link_parents[i]) := by
    rw [hs.parents, List.getElem?_map, sel_getElem? hs.lt, hj]
    simp [hlt]
  have e2 : s'.link_types[j]? = some s.link_types[i] := by
    rw [hs.types, sel_getElem? ht, hj]; simp [hti]
  have e3 : s'.omc[j]? = some s.omc[i] := by
    rw [hs.omc, sel_getElem? ho, hj]; simp [hoi]
  have hjl' : j < s'.links.length := hs.links_len ▸ hjl
  have e4 : s'.links[j]? = some s.links[i] := by
    have e := hs.links j i s.links[i] s'.links[j] hj (List.getElem?_eq_getElem hli)
      (List.getElem?_eq_getElem hjl')
    have i1 := h'.inertia_ok j hjl'
    have i2 := h.inertia_ok i hli
    have i3 := inertia_of_data E.pi (hs.geoms i j hj)
    rw [i3, ← i2] at i1
    rw [← i1] at e
    rw [List.getElem?_eq_getElem hjl', ← e]
  unfold viewAt
  rw [e1, e2, e3, e4, List.getElem?_eq_getElem hlt, List.getElem?_eq_getElem hti,
    List.getElem?_eq_getElem hoi, List.getElem?_eq_getElem hli]
  simp only [Option.bind_eq_bind, Option.bind_some, Option.pure_def, Option.some.injEq]
  ext1
  · -- parent
    simp only [nameAt]
    by_cases hp : s.link_parents[i] < 0
    · simp [newIdx, hp]
    · obtain ⟨p, hp'⟩ : ∃ p : Nat, s.link_parents[i] = p := ⟨s.link_parents[i].toNat, by omega⟩
      have hpk := hs.closed i hi p (by rw [List.getElem?_eq_getElem hlt, hp'])
      obtain ⟨jp, hjp, ejp⟩ := List.getElem_of_mem hpk
      have hjp' : keep[jp]? = some p := by rw [List.getElem?_eq_getElem hjp, ejp]
      rw [hp', newIdx_of_getElem? hs.nodup hjp']
      have : ¬ ((p : Int) < 0) := by omega
      have h2 : ¬ ((jp : Int) < 0) := by omega
      simp only [this, h2, if_false, Int.toNat_natCast, hs.names, sel_getElem? hnm, hjp',
        Option.bind_some]
  · rfl
  · rfl
  · simp only [hs.damping, hs.types]
    exact ownSlice_sel E.dw h.damping_len ht hj
  · simp only [hs.armature, hs.types]
    exact ownSlice_sel E.dw h.armature_len ht hj
  · simp only [hs.stiffness, hs.types]
    exact ownSlice_sel E.dw h.stiffness_len ht hj
  · simp only [hs.zeropoint, hs.types]
    exact ownSlice_sel E.qw h.zeropoint_len ht hj
  · funext typ
    exact hs.jp typ i j hj
  · rfl
  · exact hs.geoms i j hj

/-- ... also when addressed by name. -/
theorem selected_view {E : Env α π} {s s' : System α π} {keep : List Nat}
    (h : s.WF E) (hs : Selected E keep s s') (h' : s'.WF E) {m : String}
    (hm : m ∈ s'.link_names) : s'.view E m = s.view E m := by
  obtain ⟨j, hj, e⟩ := List.getElem_of_mem hm
  have hnm : ∀ i ∈ keep, i < s.link_names.length := fun i hi => h.names_len ▸ hs.lt i hi
  have hjn : s'.link_names[j]? = some m := by rw [List.getElem?_eq_getElem hj, e]
  have hjk : j < keep.length := by
    rw [hs.names, sel_length hnm] at hj; exact hj
  have hk : keep[j]? = some keep[j] := List.getElem?_eq_getElem hjk
  have hin : s.link_names[keep[j]]? = some m := by
    rw [hs.names, sel_getElem? hnm, hk] at hjn
    exact hjn
  unfold view
  rw [idxOf?_eq_of_nodup h'.names_nodup hjn, idxOf?_eq_of_nodup h.names_nodup hin]
  exact selected_viewAt h hs h' hk

end System
end RingLib
