import Verif.Lemmas.Delete

/-! Lemmas about `inject_system`. -/

namespace RingLib
namespace System
variable {α π β : Type}

theorem ownSlice_append_left (w : String → Option Nat) {t1 t2 : List String} {x1 x2 : List β}
    (h1 : x1.length = (t1.map (wOf w)).sum) {i : Nat} (hi : i < t1.length) :
    ownSlice w (t1 ++ t2) (x1 ++ x2) i = ownSlice w t1 x1 i := by
  have e1 := ownSlice_eq w (t1 ++ t2) (x1 ++ x2) i (by simp; omega)
  have e2 := ownSlice_eq w t1 x1 i hi
  rw [List.map_append, chunks_append _ _ _ _ h1, List.getElem?_append_left (by simpa using hi), e2]
    at e1
  exact (Option.some.inj e1).symm

theorem ownSlice_append_right (w : String → Option Nat) {t1 t2 : List String} {x1 x2 : List β}
    (h1 : x1.length = (t1.map (wOf w)).sum) {i : Nat} (hi : i < t2.length) :
    ownSlice w (t1 ++ t2) (x1 ++ x2) (t1.length + i) = ownSlice w t2 x2 i := by
  have e1 := ownSlice_eq w (t1 ++ t2) (x1 ++ x2) (t1.length + i) (by simp; omega)
  have e2 := ownSlice_eq w t2 x2 i hi
  have l : (chunks (t1.map (wOf w)) x1).length = t1.length := by simp
  rw [List.map_append, chunks_append _ _ _ _ h1, List.getElem?_append_right (by omega), l,
    Nat.add_sub_cancel_left, e2] at e1
  exact (Option.some.inj e1).symm

theorem idxOf?_none_of_not_mem {l : List String} {x : String} (h : x ∉ l) :
    l.idxOf? x = none := by
  rw [List.idxOf?_eq_none_iff]; exact h

/-! ### joint parameters -/

theorem lookup_append {κ γ : Type} [BEq κ] (l1 l2 : List (κ × γ)) (k : κ) :
    (l1 ++ l2).lookup k = (l1.lookup k).or (l2.lookup k) := by
  induction l1 with
  | nil => rfl
  | cons x l1 ih =>
    obtain ⟨a, b⟩ := x
    simp only [List.cons_append, List.lookup_cons, ih]
    split <;> simp

theorem lookup_isSome_iff {κ γ : Type} [BEq κ] [LawfulBEq κ] (l : List (κ × γ)) (k : κ) :
    (l.lookup k).isSome = true ↔ k ∈ l.map (·.1) := by
  induction l with
  | nil => simp
  | cons x l ih =>
    obtain ⟨a, b⟩ := x
    simp only [List.lookup_cons, List.map_cons, List.mem_cons]
    by_cases e : k = a
    · subst e; simp
    · have : (k == a) = false := by simpa using e
      rw [this]; simp [ih, e]

theorem lookup_eq_none_iff' {κ γ : Type} [BEq κ] [LawfulBEq κ] {l : List (κ × γ)} {k : κ} :
    l.lookup k = none ↔ k ∉ l.map (·.1) := by
  rw [← lookup_isSome_iff]; cases l.lookup k <;> simp

theorem lookup_filter {κ γ : Type} [BEq κ] [LawfulBEq κ] (p : κ → Bool) (l : List (κ × γ)) (k : κ) :
    (l.filter fun x => p x.1).lookup k = if p k = true then l.lookup k else none := by
  induction l with
  | nil => simp
  | cons x l ih =>
    obtain ⟨a, b⟩ := x
    by_cases e : k = a
    · subst e
      by_cases hp : p k = true
      · simp [hp]
      · rw [List.filter_cons_of_neg (by simpa using hp), ih, if_neg hp, if_neg hp]
    · have hne : (k == a) = false := by simpa using e
      by_cases hp : p a = true
      · simp [hp, List.lookup_cons, hne, ih]
      · simp only [List.filter_cons, hp, List.lookup_cons, hne]
        simp [ih]

/-- the joint parameters of the injected system -/
def jpUnion (E : Env α π) (s t : System α π) : List (String × List π) :=
  let u := unionJointParams E s.joint_params t.joint_params s.num_links t.num_links
  u.1.map fun x => (x.1, x.2 ++ (u.2.lookup x.1).getD [])

theorem concat_ok (E : Env α π) (s t : System α π) :
    concatJointParams
      (unionJointParams E s.joint_params t.joint_params s.num_links t.num_links).1
      (unionJointParams E s.joint_params t.joint_params s.num_links t.num_links).2 =
      .ok (jpUnion E s t) := by
  unfold concatJointParams
  rw [if_pos]
  · rfl
  · unfold unionJointParams
    constructor
    · intro x hx
      simp only at hx ⊢
      rw [List.map_append, List.mem_append]
      by_cases hk : x.1 ∈ t.joint_params.map (·.1)
      · exact Or.inl hk
      · refine Or.inr (List.mem_map.2 ⟨_, List.mem_map.2 ⟨x, List.mem_filter.2 ⟨hx, ?_⟩, rfl⟩, rfl⟩)
        simpa using hk
    · intro x hx
      simp only at hx ⊢
      rw [List.mem_append] at hx
      rcases hx with hx | hx
      · rw [List.map_append, List.mem_append]
        by_cases hk : x.1 ∈ s.joint_params.map (·.1)
        · exact Or.inl hk
        · exact Or.inr (List.mem_map.2 ⟨_, List.mem_map.2 ⟨x, List.mem_filter.2
            ⟨hx, by simpa using hk⟩, rfl⟩, rfl⟩)
      · obtain ⟨y, hy, rfl⟩ := List.mem_map.1 hx
        have := (List.mem_filter.1 hy).1
        exact List.mem_map.2 ⟨y, this, rfl⟩

theorem tree_nan_like_length (E : Env α π) {l : List π} (h : l ≠ []) (n : Nat) :
    (_tree_nan_like E l n).length = n := by
  cases l with
  | nil => exact absurd rfl h
  | cons x l => simp [_tree_nan_like]

/-- the entry of a link without parameters of its own -/
def nanEntry (E : Env α π) (rows : List π) : Option π := rows.head?.map E.nanLike

theorem tree_nan_like_getElem? (E : Env α π) (l : List π) {n i : Nat} (hi : i < n) :
    (_tree_nan_like E l n)[i]? = nanEntry E l := by
  cases l with
  | nil => simp [_tree_nan_like, nanEntry]
  | cons x l => simp [_tree_nan_like, nanEntry, hi]

variable [Field α]

omit [Field α] in
theorem jpUnion_lookup {E : Env α π} {s t : System α π} (typ : String) :
    (jpUnion E s t).lookup typ =
      match s.joint_params.lookup typ, t.joint_params.lookup typ with
      | none, none => none
      | some a, none => some (a ++ _tree_nan_like E a t.num_links)
      | none, some b => some (_tree_nan_like E b s.num_links ++ b)
      | some a, some b => some (a ++ b) := by
  unfold jpUnion
  simp only
  have hmap := fun (l : List (String × List π)) (g : String → List π → List π) =>
    show (l.map fun x => (x.1, g x.1 x.2)).lookup typ = (l.lookup typ).map (g typ) by
      induction l with
      | nil => rfl
      | cons x l ih =>
        obtain ⟨a, b⟩ := x
        simp only [List.map_cons, List.lookup_cons, ih]
        by_cases e : typ = a
        · subst e; simp
        · have : (typ == a) = false := by simpa using e
          rw [this]
  rw [hmap _ fun k v => v ++ ((unionJointParams E s.joint_params t.joint_params s.num_links
    t.num_links).2.lookup k).getD []]
  unfold unionJointParams
  simp only [lookup_append]
  rw [lookup_map_snd (fun v => _tree_nan_like E v s.num_links),
    lookup_map_snd (fun v => _tree_nan_like E v t.num_links),
    lookup_filter (fun k => decide (k ∉ s.joint_params.map (·.1))),
    lookup_filter (fun k => decide (k ∉ t.joint_params.map (·.1))), lookup_append,
    lookup_map_snd (fun v => _tree_nan_like E v s.num_links),
    lookup_filter (fun k => decide (k ∉ s.joint_params.map (·.1)))]
  cases h1 : s.joint_params.lookup typ with
  | none =>
    have n1 := lookup_eq_none_iff'.1 h1
    cases h2 : t.joint_params.lookup typ with
    | none =>
      have n2 := lookup_eq_none_iff'.1 h2
      simp
    | some b =>
      have n2 : typ ∈ t.joint_params.map (·.1) := (lookup_isSome_iff _ _).1 (by rw [h2]; rfl)
      simp only [n1, not_false_eq_true, decide_true, if_true]
      simp
  | some a =>
    have n1 : typ ∈ s.joint_params.map (·.1) := (lookup_isSome_iff _ _).1 (by rw [h1]; rfl)
    cases h2 : t.joint_params.lookup typ with
    | none =>
      have n2 := lookup_eq_none_iff'.1 h2
      simp only [n2, not_false_eq_true, decide_true, if_true]
      simp
    | some b => simp

theorem jpUnion_keys {E : Env α π} {s t : System α π} (hs : s.WF E) (ht : t.WF E) :
    ((jpUnion E s t).map (·.1)).Nodup := by
  unfold jpUnion unionJointParams
  simp only [List.map_map]
  have e : ((fun x : String × List π => x.1) ∘ fun x : String × List π => (x.1, x.2 ++
      (List.lookup x.1 (t.joint_params ++ List.map (fun x => (x.1, _tree_nan_like E x.2 t.num_links))
        (List.filter (fun x => decide (x.1 ∉ t.joint_params.map (·.1)))
          (s.joint_params ++ List.map (fun x => (x.1, _tree_nan_like E x.2 s.num_links))
            (List.filter (fun x => decide (x.1 ∉ s.joint_params.map (·.1)))
              t.joint_params))))).getD [])) = fun x => x.1 := rfl
  rw [e, List.map_append, List.map_map]
  rw [List.nodup_append]
  refine ⟨hs.jp_keys, ?_, ?_⟩
  · have : ((fun x : String × List π => x.1) ∘ fun x : String × List π =>
        (x.1, _tree_nan_like E x.2 s.num_links)) = fun x => x.1 := rfl
    rw [this]
    exact ht.jp_keys.sublist (List.filter_sublist.map _)
  · intro a ha b hb hab
    subst hab
    obtain ⟨x, hx, rfl⟩ := List.mem_map.1 hb
    have := (List.mem_filter.1 hx).2
    simp only [decide_eq_true_eq] at this
    exact this ha

theorem jpUnion_len {E : Env α π} {s t : System α π} (hs : s.WF E) (ht : t.WF E)
    (hs0 : s.link_parents ≠ []) (ht0 : t.link_parents ≠ []) :
    ∀ x ∈ jpUnion E s t, x.2.length = s.link_parents.length + t.link_parents.length := by
  intro x hx
  have hl : (jpUnion E s t).lookup x.1 = some x.2 := by
    have hk := jpUnion_keys hs ht
    generalize jpUnion E s t = l at hx hk
    induction l with
    | nil => simp at hx
    | cons y l ih =>
      obtain ⟨a, b⟩ := y
      simp only [List.map_cons, List.nodup_cons] at hk
      rcases List.mem_cons.1 hx with rfl | hx
      · simp
      · have : x.1 ≠ a := fun e => hk.1 (e ▸ List.mem_map.2 ⟨x, hx, rfl⟩)
        have : (x.1 == a) = false := by simpa using this
        rw [List.lookup_cons, this]
        exact ih hx hk.2
  rw [jpUnion_lookup] at hl
  have ne : ∀ {u : System α π}, u.WF E → u.link_parents ≠ [] → ∀ {k v},
      u.joint_params.lookup k = some v → v.length = u.link_parents.length ∧ v ≠ [] := by
    intro u hu hu0 k v hv
    have := hu.jp_len _ (lookup_mem hv)
    simp only at this
    refine ⟨this, ?_⟩
    rintro rfl
    exact hu0 (List.eq_nil_of_length_eq_zero this.symm)
  cases h1 : s.joint_params.lookup x.1 with
  | none =>
    cases h2 : t.joint_params.lookup x.1 with
    | none => simp [h1, h2] at hl
    | some b =>
      simp only [h1, h2, Option.some.injEq] at hl
      rw [← hl, List.length_append, tree_nan_like_length E (ne ht ht0 h2).2, (ne ht ht0 h2).1]; rfl
  | some a =>
    cases h2 : t.joint_params.lookup x.1 with
    | none =>
      simp only [h1, h2, Option.some.injEq] at hl
      rw [← hl, List.length_append, tree_nan_like_length E (ne hs hs0 h1).2, (ne hs hs0 h1).1]; rfl
    | some b =>
      simp only [h1, h2, Option.some.injEq] at hl
      rw [← hl, List.length_append, (ne ht ht0 h2).1, (ne hs hs0 h1).1]

/-! ### the injected system -/

/-- new index of the guest's link `p` (or of its world) -/
def shift (N : Nat) (w p : Int) : Int := if p ≠ -1 then p + N else w

/-- what `inject_system` hands to `parse` -/
def injectRaw (E : Env α π) (s t : System α π) (w : Int) : System α π where
  link_parents := s.link_parents ++ t.link_parents.map (shift s.num_links w)
  links := s.links ++ t.links
  joint_params := jpUnion E s t
  link_types := s.link_types ++ t.link_types
  link_damping := s.link_damping ++ t.link_damping
  link_armature := s.link_armature ++ t.link_armature
  link_spring_stiffness := s.link_spring_stiffness ++ t.link_spring_stiffness
  link_spring_zeropoint := s.link_spring_zeropoint ++ t.link_spring_zeropoint
  dt := s.dt
  geoms := s.geoms ++ t.geoms.map fun g => { g with link_idx := shift s.num_links w g.link_idx }
  gravity := s.gravity
  integration_method := s.integration_method
  mass_mat_iters := s.mass_mat_iters
  link_names := s.link_names ++ t.link_names
  model_name := s.model_name
  omc := s.omc ++ t.omc

omit [Field α] in
theorem inject_none_eq [Field α] (E : Env α π) (s t : System α π) :
    inject_system E s t none = parse E (s.injectRaw E t (-1)) := by
  unfold inject_system
  simp only [pure_ok, ok_bind]
  rw [concat_ok]
  rfl

omit [Field α] in
theorem inject_some_eq [Field α] (E : Env α π) (s t : System α π) {b : String} {w : Nat}
    (hb : s.name_to_idx b = .ok w) :
    inject_system E s t (some b) = parse E (s.injectRaw E t w) := by
  unfold inject_system
  simp only [pure_ok, ok_bind, hb]
  rw [concat_ok]
  rfl

/-- index at which the guest is attached -/
def Attach (s : System α π) (at_body : Option String) (w : Int) : Prop :=
  (at_body = none ∧ w = -1) ∨ ∃ b, ∃ k : Nat, at_body = some b ∧ s.link_names[k]? = some b ∧ w = k

theorem inject_eq {E : Env α π} {s t : System α π} (hs : s.Consistent E) {at_body : Option String}
    {w : Int} (hw : s.Attach at_body w) :
    inject_system E s t at_body = parse E (s.injectRaw E t w) := by
  rcases hw with ⟨rfl, rfl⟩ | ⟨b, k, rfl, hk, rfl⟩
  · exact inject_none_eq E s t
  · exact inject_some_eq E s t (name_to_idx_of_nodup hs.names_nodup hk)

omit [Field α] in
theorem attach_bounds {E : Env α π} {s : System α π} (hs : s.Consistent E)
    {at_body : Option String} {w : Int} (hw : s.Attach at_body w) :
    -1 ≤ w ∧ w < s.link_parents.length := by
  rcases hw with ⟨rfl, rfl⟩ | ⟨b, k, rfl, hk, rfl⟩
  · omega
  · have := (List.getElem?_eq_some_iff.1 hk).1
    rw [hs.names_len] at this
    omega

omit [Field α] in
theorem injectRaw_consistent {E : Env α π} {s t : System α π} (hs : s.Consistent E)
    (ht : t.Consistent E) (hd : ∀ m ∈ s.link_names, m ∉ t.link_names) {w : Int}
    (hw : -1 ≤ w ∧ w < s.link_parents.length) :
    (s.injectRaw E t w).Consistent E where
  types_len := by simp [injectRaw, hs.types_len, ht.types_len]
  links_len := by simp [injectRaw, hs.links_len, ht.links_len]
  omc_len := by simp [injectRaw, hs.omc_len, ht.omc_len]
  names_len := by simp [injectRaw, hs.names_len, ht.names_len]
  names_nodup := by
    show (s.link_names ++ t.link_names).Nodup
    rw [List.nodup_append]
    exact ⟨hs.names_nodup, ht.names_nodup, fun a ha b hb e => hd a ha (e ▸ hb)⟩
  pos_ok := by
    intro l hl
    rcases List.mem_append.1 hl with hl | hl
    · exact hs.pos_ok l hl
    · exact ht.pos_ok l hl
  geoms_ok := by
    intro g hg
    have hlen : (s.injectRaw E t w).link_parents.length =
        s.link_parents.length + t.link_parents.length := by simp [injectRaw]
    rw [hlen]
    rcases List.mem_append.1 hg with hg | hg
    · have := hs.geoms_ok g hg
      push_cast; omega
    · obtain ⟨g0, hg0, rfl⟩ := List.mem_map.1 hg
      have := ht.geoms_ok g0 hg0
      simp only [shift, num_links]
      push_cast
      split <;> omega
  known := by
    intro x hx
    rcases List.mem_append.1 hx with hx | hx
    · exact hs.known x hx
    · exact ht.known x hx
  damping_len := by simp [injectRaw, hs.damping_len, ht.damping_len]
  armature_len := by simp [injectRaw, hs.armature_len, ht.armature_len]
  stiffness_len := by simp [injectRaw, hs.stiffness_len, ht.stiffness_len]
  zeropoint_len := by simp [injectRaw, hs.zeropoint_len, ht.zeropoint_len]
  unit_zero := by
    intro i hi hq
    simp only [injectRaw] at hi hq ⊢
    by_cases h : i < s.link_types.length
    · rw [List.getElem_append_left h] at hq
      rw [ownSlice_append_left E.qw hs.zeropoint_len h]
      exact hs.unit_zero i h hq
    · obtain ⟨j, rfl⟩ := Nat.exists_eq_add_of_le (Nat.le_of_not_lt h)
      simp only [List.length_append, Nat.add_lt_add_iff_left] at hi
      rw [List.getElem_append_right (by omega)] at hq
      simp only [Nat.add_sub_cancel_left] at hq
      rw [ownSlice_append_right E.qw hs.zeropoint_len hi]
      exact ht.unit_zero j hi hq

omit [Field α] in
theorem injectRaw_topological {E : Env α π} {s t : System α π} (hs : Topological s.link_parents)
    (ht : Topological t.link_parents) {w : Int} (hw : -1 ≤ w ∧ w < s.link_parents.length) :
    Topological (s.injectRaw E t w).link_parents := by
  intro i hi
  simp only [injectRaw] at hi ⊢
  by_cases h : i < s.link_parents.length
  · rw [List.getElem_append_left h]
    exact hs i h
  · obtain ⟨j, rfl⟩ := Nat.exists_eq_add_of_le (Nat.le_of_not_lt h)
    simp only [List.length_append, List.length_map, Nat.add_lt_add_iff_left] at hi
    rw [List.getElem_append_right (by omega)]
    simp only [Nat.add_sub_cancel_left, List.getElem_map]
    have := ht j hi
    unfold shift num_links
    split <;> push_cast <;> omega

/-- the injected system -/
theorem inject_ok {E : Env α π} {s t : System α π} (hs : s.WF E) (ht : t.WF E)
    (hs0 : s.link_parents ≠ []) (ht0 : t.link_parents ≠ [])
    (hd : ∀ m ∈ s.link_names, m ∉ t.link_names) {at_body : Option String} {w : Int}
    (hw : s.Attach at_body w) :
    inject_system E s t at_body = .ok ((s.injectRaw E t w).normalised E) ∧
      ((s.injectRaw E t w).normalised E).WF E := by
  have hb := attach_bounds hs.toConsistent hw
  have hc := injectRaw_consistent hs.toConsistent ht.toConsistent hd hb
  refine ⟨by rw [inject_eq hs.toConsistent hw, parse_ok hc], ?_⟩
  apply normalised_wf hc (injectRaw_topological hs.topo ht.topo hb) (jpUnion_keys hs ht)
  intro x hx
  rw [jpUnion_len hs ht hs0 ht0 x hx]
  simp [injectRaw]

/-! ### views -/

theorem normalised_viewAt {E : Env α π} {s : System α π} (h : s.Consistent E) (i : Nat) :
    (s.normalised E).viewAt E i = (s.viewAt E i).map fun v =>
      { v with row := { v.row with inertia := compute_inertia_per_link E.pi s.geoms i } } := by
  unfold viewAt
  rw [normalised_links_getElem? E h.links_len]
  rw [show (s.normalised E).link_parents = s.link_parents from rfl,
    show (s.normalised E).link_types = s.link_types from rfl,
    show (s.normalised E).omc = s.omc from rfl]
  cases h1 : s.link_parents[i]? with
  | none => rfl
  | some p =>
    cases h2 : s.link_types[i]? with
    | none => rfl
    | some t =>
      cases h3 : s.links[i]? with
      | none => rfl
      | some r =>
        cases h4 : s.omc[i]? with
        | none => rfl
        | some o =>
          simp only [Option.map_some, Option.bind_eq_bind, Option.bind_some, Option.pure_def,
            Option.some.injEq]
          ext1
          all_goals first
            | rfl
            | (show List.map _ (List.filter _ (s.geoms.mergeSort _)) = _
               rw [filter_mergeSort])

/-- a view determines the inertia through its geometries -/
theorem view_inertia {E : Env α π} {s : System α π} (h : s.WF E) {i : Nat} {v : LinkView α π}
    (hv : s.viewAt E i = some v) :
    v.row.inertia = compute_inertia_per_link E.pi s.geoms i := by
  unfold viewAt at hv
  cases h1 : s.link_parents[i]? with
  | none => rw [h1] at hv; cases hv
  | some p =>
    cases h2 : s.link_types[i]? with
    | none => rw [h1, h2] at hv; cases hv
    | some t =>
      cases h3 : s.links[i]? with
      | none => rw [h1, h2, h3] at hv; cases hv
      | some r =>
        cases h4 : s.omc[i]? with
        | none => rw [h1, h2, h3, h4] at hv; cases hv
        | some o =>
          rw [h1, h2, h3, h4] at hv
          simp only [Option.bind_eq_bind, Option.bind_some, Option.pure_def,
            Option.some.injEq] at hv
          subst hv
          obtain ⟨hi, e⟩ := List.getElem?_eq_some_iff.1 h3
          have := h.inertia_ok i hi
          rw [e] at this
          exact this

end System
end RingLib
