import Verif.Lemmas.Select
import Verif.Model.Surgery

/-! Lemmas about `delete_subsystem`. -/

namespace RingLib
namespace System
variable {α π β : Type}

theorem find_aux {parents : List Int} (ht : Topological parents) (k : Nat) (t : List Int) (m : Nat)
    (acc : List Nat) (hpre : ∀ i : Nat, t[i]? = parents[m + i]?)
    (hacc : ∀ i, i ∈ acc ↔ Desc parents k i ∧ (i < m ∨ i = k)) :
    ∀ i, i ∈ (t.zipIdx m).foldl (fun subsys x =>
        if x.1 ∈ subsys.map (fun j : Nat => (j : Int)) then subsys ++ [x.2] else subsys) acc ↔
      Desc parents k i ∧ (i < m + t.length ∨ i = k) := by
  induction t generalizing m acc with
  | nil => simpa using hacc
  | cons p t ih =>
    simp only [List.zipIdx_cons, List.foldl_cons, List.length_cons]
    have hp : parents[m]? = some p := by have := hpre 0; simpa using this.symm
    obtain ⟨hm, em⟩ := List.getElem?_eq_some_iff.1 hp
    have htm := ht m hm
    rw [em] at htm
    have h1 := ih (m + 1) (if p ∈ acc.map (fun j : Nat => (j : Int)) then acc ++ [m] else acc)
      (by intro i; have := hpre (i + 1); simpa [Nat.add_comm, Nat.add_left_comm] using this) ?_
    · intro i
      rw [h1 i]
      constructor <;> rintro ⟨a, b⟩ <;> exact ⟨a, by omega⟩
    · intro i
      by_cases hc : p ∈ acc.map (fun j : Nat => (j : Int))
      · rw [if_pos hc]
        obtain ⟨j, hj, rfl⟩ := List.mem_map.1 hc
        have hd : Desc parents k m := .step hp ((hacc j).1 hj).1
        simp only [List.mem_append, List.mem_singleton, hacc]
        constructor
        · rintro (⟨a, b⟩ | rfl)
          · exact ⟨a, by omega⟩
          · exact ⟨hd, by omega⟩
        · rintro ⟨a, b⟩
          by_cases e : i = m
          · exact Or.inr e
          · exact Or.inl ⟨a, by omega⟩
      · rw [if_neg hc, hacc]
        constructor
        · rintro ⟨a, b⟩; exact ⟨a, by omega⟩
        · rintro ⟨a, b⟩
          refine ⟨a, ?_⟩
          by_cases e : i = m
          · subst e
            cases a with
            | self => exact Or.inr rfl
            | @step _ q hq hd =>
              exfalso
              rw [hp] at hq
              have hq := Option.some.inj hq
              subst hq
              exact hc (List.mem_map.2 ⟨q, (hacc q).2 ⟨hd, by omega⟩, rfl⟩)
          · omega

/-- The single pass finds exactly the link and its descendants. -/
theorem mem_find_subsystem {parents : List Int} (ht : Topological parents) {k : Nat}
    (hk : k < parents.length) (i : Nat) :
    i ∈ _find_subsystem_indices parents k ↔ Desc parents k i := by
  unfold _find_subsystem_indices
  rw [find_aux ht k parents 0 [k] (by simp) (by
    intro i; simp only [List.mem_singleton]
    exact ⟨fun h => ⟨h ▸ .self, Or.inr h⟩, fun h => by omega⟩)]
  constructor
  · exact fun h => h.1
  · exact fun h => ⟨h, Or.inl (by simpa using h.lt_length hk)⟩

theorem filter_range_mem (n : Nat) (p : Nat → Bool) :
    ((List.range n).filter fun i => decide (i ∈ (List.range n).filter p)) =
      (List.range n).filter p := by
  apply List.filter_congr
  intro i hi
  by_cases h : p i = true
  · simp [h] at *; exact hi
  · simp [h]

theorem takeKeep_eq (n : Nat) (p : Nat → Bool) (l : List β) (hl : l.length = n) :
    takeKeep ((List.range n).filter p) l = sel ((List.range n).filter p) l := by
  subst hl
  unfold takeKeep
  rw [zipIdx_filter_map_eq0 (fun i => decide (i ∈ (List.range l.length).filter p)),
    filter_range_mem]
  rfl

theorem filter_rows {f : β → Nat} {rows : List β} {n : Nat} (h : rows.map f = List.range n)
    (p : Nat → Bool) :
    rows.filter (fun x => p (f x)) = sel ((List.range n).filter p) rows := by
  have hn : rows.length = n := by have := congrArg List.length h; simpa using this
  have e := zipIdx_filter_map_eq0 p rows
  rw [hn] at e
  unfold sel
  rw [← e]
  have h1 : rows.zipIdx.filter (fun x => p x.2) = rows.zipIdx.filter (fun x => p (f x.1)) := by
    apply List.filter_congr
    rintro ⟨x, i⟩ hx
    have hx' := List.mem_zipIdx_iff_getElem?.1 hx
    have : (rows.map f)[i]? = some (f x) := by rw [List.getElem?_map, hx']; rfl
    rw [h] at this
    have := List.getElem?_eq_some_iff.1 this
    simp at this
    simp [this.2]
  rw [h1]
  conv_lhs => rw [show rows = rows.zipIdx.map (·.1) by simp]
  rw [List.filter_map]
  rfl

theorem filter_rows_map {γ : Type} {f : β → Nat} {rows : List β} {n : Nat}
    (h : rows.map f = List.range n) (p : Nat → Bool) (g : β → γ) :
    (rows.filter fun x => decide (f x ∈ (List.range n).filter p)).map g =
      sel ((List.range n).filter p) (rows.map g) := by
  rw [filter_rows h (fun i => decide (i ∈ (List.range n).filter p)), filter_range_mem, sel_map]

theorem jaxTake_eq {keep : List Nat} {l : List β} (h : ∀ i ∈ keep, i < l.length) :
    jaxTake l keep = sel keep l := by
  unfold jaxTake sel
  apply List.filterMap_congr
  intro i hi
  have := h i hi
  rw [Nat.min_eq_left (by omega)]

theorem jnpConcatenate_ok {ls : List (List β)} (h : ls ≠ []) :
    jnpConcatenate ls = .ok ls.flatten := by
  cases ls with
  | nil => exact absurd rfl h
  | cons a l => rfl

theorem lookup_idx_aux (keep : List Nat) (m i : Nat) (hi : i ∈ keep) :
    ((keep.zipIdx m).map fun x => ((x.1 : Int), (x.2 : Int))).lookup (i : Int) =
      some ((m + keep.idxOf i : Nat) : Int) := by
  induction keep generalizing m with
  | nil => simp at hi
  | cons a keep ih =>
    simp only [List.zipIdx_cons, List.map_cons, List.lookup_cons]
    by_cases e : i = a
    · subst e; simp
    · have hne : ((i : Int) == (a : Int)) = false := by simpa using e
      rw [hne]
      simp only
      rw [ih (m + 1) (by simpa [e] using hi)]
      rw [List.idxOf_cons_ne _ (fun h => e h.symm)]
      congr 1; push_cast; omega

theorem pyDict_idx_map {keep : List Nat} {p : Int} (h : p = -1 ∨ ∃ i ∈ keep, p = (i : Int)) :
    pyDict ((-1, -1) :: keep.zipIdx.map fun x => ((x.1 : Int), (x.2 : Int))) p =
      .ok (newIdx keep p) := by
  unfold pyDict
  rcases h with rfl | ⟨i, hi, rfl⟩
  · simp [newIdx]
  · have h1 : ((i : Int) == -1) = false := by simp
    have h2 : ¬ ((i : Int) < 0) := by omega
    rw [List.lookup_cons, h1]
    simp only
    rw [lookup_idx_aux keep 0 i hi]
    simp [newIdx, h2]

theorem lookup_map_snd {κ γ δ : Type} [BEq κ] (f : γ → δ) (l : List (κ × γ)) (k : κ) :
    (l.map fun x => (x.1, f x.2)).lookup k = (l.lookup k).map f := by
  induction l with
  | nil => rfl
  | cons x l ih =>
    obtain ⟨a, b⟩ := x
    simp only [List.map_cons, List.lookup_cons, ih]
    split <;> rfl

theorem lookup_mem {κ γ : Type} [BEq κ] [LawfulBEq κ] {l : List (κ × γ)} {k : κ} {v : γ}
    (h : l.lookup k = some v) : (k, v) ∈ l := by
  induction l with
  | nil => simp at h
  | cons x l ih =>
    obtain ⟨a, b⟩ := x
    rw [List.lookup_cons] at h
    split at h
    · rename_i e
      simp at h
      rw [eq_of_beq e, h]; simp
    · exact List.mem_cons_of_mem _ (ih h)

/-! ### a selection stays a selection under `parse` -/

theorem selected_normalised [Field α] {E : Env α π} {s s' : System α π} {keep : List Nat}
    (hs : Selected E keep s s') (hl : s'.links.length = s'.link_parents.length) :
    Selected E keep s (s'.normalised E) where
  lt := hs.lt
  nodup := hs.nodup
  closed := hs.closed
  names := hs.names
  types := hs.types
  parents := hs.parents
  omc := hs.omc
  links_len := by
    have := hs.links_len
    simp [normalised, ← hl, this]
  links := by
    intro j i r r' hj hr hr'
    rw [normalised_links_getElem? E hl] at hr'
    cases h : s'.links[j]? with
    | none => rw [h] at hr'; cases hr'
    | some q =>
      rw [h] at hr'
      have hr' := Option.some.inj hr'
      subst hr'
      exact hs.links j i r q hj hr h
  damping := hs.damping
  armature := hs.armature
  stiffness := hs.stiffness
  zeropoint := hs.zeropoint
  jp := hs.jp
  geoms := by
    intro i j hj
    show List.map _ (List.filter _ (s'.geoms.mergeSort _)) = _
    rw [filter_mergeSort]
    exact hs.geoms i j hj

theorem selected_parent {E : Env α π} {s s' : System α π} {keep : List Nat}
    (hs : Selected E keep s s') {i j : Nat} (hj : keep[j]? = some i) :
    s'.link_parents[j]? = some (newIdx keep (s.link_parents[i]'(hs.lt i (List.mem_of_getElem? hj)))) := by
  rw [hs.parents, List.getElem?_map, sel_getElem? hs.lt, hj]
  simp [hs.lt i (List.mem_of_getElem? hj)]

/-- Descendants are the same before and after selection. -/
theorem selected_desc {E : Env α π} {s s' : System α π} {keep : List Nat}
    (hs : Selected E keep s s') {a b i k : Nat} (ha : keep[a]? = some k) (hb : keep[b]? = some i) :
    Desc s'.link_parents a b ↔ Desc s.link_parents k i := by
  have len : s'.link_parents.length = keep.length := by
    rw [hs.parents, List.length_map, sel_length hs.lt]
  constructor
  · intro h
    induction h generalizing i with
    | self => rw [ha] at hb; rw [Option.some.inj hb]; exact .self
    | @step b p hp _ ih =>
      have hi := hs.lt i (List.mem_of_getElem? hb)
      have e := selected_parent hs hb
      rw [hp] at e
      have e := Option.some.inj e
      by_cases hneg : s.link_parents[i] < 0
      · simp [newIdx, hneg] at e
      · obtain ⟨q, hq⟩ : ∃ q : Nat, s.link_parents[i] = q := ⟨s.link_parents[i].toNat, by omega⟩
        have hqs : s.link_parents[i]? = some (q : Int) := by rw [List.getElem?_eq_getElem hi, hq]
        have hqk := hs.closed i (List.mem_of_getElem? hb) q hqs
        obtain ⟨jq, hjq, ejq⟩ := List.getElem_of_mem hqk
        have hjq' : keep[jq]? = some q := by rw [List.getElem?_eq_getElem hjq, ejq]
        rw [hq, newIdx_of_getElem? hs.nodup hjq'] at e
        have : p = jq := by exact_mod_cast e
        subst this
        exact .step hqs (ih hjq')
  · intro h
    induction h generalizing b with
    | self =>
      have : a = b := by
        obtain ⟨h1, e1⟩ := List.getElem?_eq_some_iff.1 ha
        obtain ⟨h2, e2⟩ := List.getElem?_eq_some_iff.1 hb
        exact (hs.nodup.getElem_inj_iff (hi := h1) (hj := h2)).1 (e1.trans e2.symm)
      rw [this]; exact .self
    | @step i p hp _ ih =>
      have hi := hs.lt i (List.mem_of_getElem? hb)
      have hpk := hs.closed i (List.mem_of_getElem? hb) p hp
      obtain ⟨jp, hjp, ejp⟩ := List.getElem_of_mem hpk
      have hjp' : keep[jp]? = some p := by rw [List.getElem?_eq_getElem hjp, ejp]
      have e := selected_parent hs hb
      have hp' : s.link_parents[i] = (p : Int) := by
        rw [List.getElem?_eq_getElem hi] at hp; exact Option.some.inj hp
      rw [hp', newIdx_of_getElem? hs.nodup hjp'] at e
      exact .step e (ih hjp')

/-- ... also when addressed by name. -/
theorem selected_isDesc {E : Env α π} {s s' : System α π} {keep : List Nat}
    (h : s.Consistent E) (hs : Selected E keep s s') {x m : String}
    (hx : x ∈ s'.link_names) (hm : m ∈ s'.link_names) :
    s'.IsDesc x m ↔ s.IsDesc x m := by
  have hnm : ∀ i ∈ keep, i < s.link_names.length := fun i hi => h.names_len ▸ hs.lt i hi
  have nd' : s'.link_names.Nodup := by rw [hs.names]; exact sel_nodup hs.nodup h.names_nodup
  have pos : ∀ y ∈ s'.link_names, ∃ j i : Nat, s'.link_names[j]? = some y ∧ keep[j]? = some i ∧
      s.link_names[i]? = some y := by
    intro y hy
    obtain ⟨j, hj, e⟩ := List.getElem_of_mem hy
    have hjk : j < keep.length := by
      rw [hs.names, sel_length hnm] at hj; exact hj
    refine ⟨j, keep[j], by rw [List.getElem?_eq_getElem hj, e], List.getElem?_eq_getElem hjk, ?_⟩
    have : s'.link_names[j]? = some y := by rw [List.getElem?_eq_getElem hj, e]
    rw [hs.names, sel_getElem? hnm, List.getElem?_eq_getElem hjk] at this
    exact this
  have uniq : ∀ {l : List String}, l.Nodup → ∀ {i j : Nat} {y : String}, l[i]? = some y →
      l[j]? = some y → i = j := by
    intro l hl i j y h1 h2
    obtain ⟨h1, e1⟩ := List.getElem?_eq_some_iff.1 h1
    obtain ⟨h2, e2⟩ := List.getElem?_eq_some_iff.1 h2
    exact (hl.getElem_inj_iff (hi := h1) (hj := h2)).1 (e1.trans e2.symm)
  obtain ⟨jx, ix, hx1, hx2, hx3⟩ := pos x hx
  obtain ⟨jm, im, hm1, hm2, hm3⟩ := pos m hm
  constructor
  · rintro ⟨a, b, ha, hb, hd⟩
    rw [uniq nd' ha hx1, uniq nd' hb hm1] at hd
    exact ⟨ix, im, hx3, hm3, (selected_desc hs hx2 hm2).1 hd⟩
  · rintro ⟨a, b, ha, hb, hd⟩
    rw [uniq h.names_nodup ha hx3, uniq h.names_nodup hb hm3] at hd
    exact ⟨jx, jm, hx1, hm1, (selected_desc hs hx2 hm2).2 hd⟩

/-! ### ascending selections -/

theorem newIdx_lt {keep : List Nat} (hk : keep.Pairwise (· < ·)) {i j p : Nat}
    (hj : keep[j]? = some i) (hp : p ∈ keep) (hlt : p < i) : newIdx keep p < j := by
  obtain ⟨jp, hjp, ejp⟩ := List.getElem_of_mem hp
  have hjp' : keep[jp]? = some p := by rw [List.getElem?_eq_getElem hjp, ejp]
  rw [newIdx_of_getElem? (hk.imp (fun h => Nat.ne_of_lt h)) hjp']
  by_contra hc
  obtain ⟨hj1, ej⟩ := List.getElem?_eq_some_iff.1 hj
  have hle : j ≤ jp := by omega
  rcases Nat.lt_or_eq_of_le hle with h | h
  · have := (List.pairwise_iff_getElem.1 hk) j jp hj1 hjp h
    omega
  · subst h; omega

theorem newIdx_mono {keep : List Nat} (hk : keep.Pairwise (· < ·)) {a b : Nat}
    (ha : a ∈ keep) (hb : b ∈ keep) (h : a ≤ b) : newIdx keep a ≤ newIdx keep b := by
  obtain ⟨j, hj, ej⟩ := List.getElem_of_mem hb
  have hj' : keep[j]? = some b := by rw [List.getElem?_eq_getElem hj, ej]
  rcases Nat.lt_or_eq_of_le h with h | h
  · rw [newIdx_of_getElem? (hk.imp (fun h => Nat.ne_of_lt h)) hj']
    exact (newIdx_lt hk hj' ha h).le
  · rw [h]

theorem selected_topological {E : Env α π} {s s' : System α π} {keep : List Nat}
    (ht : Topological s.link_parents) (hs : Selected E keep s s') (hk : keep.Pairwise (· < ·)) :
    Topological s'.link_parents := by
  intro j hj
  have len : s'.link_parents.length = keep.length := by
    rw [hs.parents, List.length_map, sel_length hs.lt]
  have hjk : j < keep.length := len ▸ hj
  have hkj : keep[j]? = some keep[j] := List.getElem?_eq_getElem hjk
  have e := selected_parent hs hkj
  rw [List.getElem?_eq_getElem hj] at e
  rw [Option.some.inj e]
  have hi := hs.lt _ (List.getElem_mem hjk)
  have hti := ht _ hi
  by_cases hneg : s.link_parents[keep[j]] < 0
  · have : newIdx keep s.link_parents[keep[j]] = -1 := by simp [newIdx, hneg]
    rw [this]; omega
  · obtain ⟨q, hq⟩ : ∃ q : Nat, s.link_parents[keep[j]] = q :=
      ⟨s.link_parents[keep[j]].toNat, by omega⟩
    have hqk := hs.closed _ (List.getElem_mem hjk) q (by rw [List.getElem?_eq_getElem hi, hq])
    rw [hq] at hti ⊢
    have h2 := newIdx_lt hk hkj hqk (by omega)
    refine ⟨?_, h2⟩
    unfold newIdx
    split <;> omega

/-! ### the result of `delete_subsystem` -/

/-- the links that stay -/
def survivors (s : System α π) (k : Nat) : List Nat :=
  (List.range s.link_parents.length).filter
    fun i => i ∉ _find_subsystem_indices s.link_parents k

theorem mem_survivors {s : System α π} (ht : Topological s.link_parents) {k : Nat}
    (hk : k < s.link_parents.length) (i : Nat) :
    i ∈ s.survivors k ↔ i < s.link_parents.length ∧ ¬ Desc s.link_parents k i := by
  simp [survivors, mem_find_subsystem ht hk]

theorem survivors_sorted (s : System α π) (k : Nat) : (s.survivors k).Pairwise (· < ·) :=
  List.pairwise_lt_range.filter _

/-- the system handed to `parse` by `delete_subsystem` -/
def deleteRaw (E : Env α π) (s : System α π) (k : Nat) : System α π where
  link_parents := (sel (s.survivors k) s.link_parents).map (newIdx (s.survivors k))
  links := sel (s.survivors k) s.links
  joint_params := s.joint_params.map fun x => (x.1, jaxTake x.2 (s.survivors k))
  link_types := sel (s.survivors k) s.link_types
  link_damping := (sel (s.survivors k) (chunks (s.link_types.map (wOf E.dw)) s.link_damping)).flatten
  link_armature :=
    (sel (s.survivors k) (chunks (s.link_types.map (wOf E.dw)) s.link_armature)).flatten
  link_spring_stiffness :=
    (sel (s.survivors k) (chunks (s.link_types.map (wOf E.dw)) s.link_spring_stiffness)).flatten
  link_spring_zeropoint :=
    (sel (s.survivors k) (chunks (s.link_types.map (wOf E.qw)) s.link_spring_zeropoint)).flatten
  dt := s.dt
  geoms := (s.geoms.filter fun geom =>
      geom.link_idx ∈ (s.survivors k).map fun j : Nat => (j : Int)).map
    fun geom => { geom with link_idx := newIdx (s.survivors k) geom.link_idx }
  gravity := s.gravity
  integration_method := s.integration_method
  mass_mat_iters := s.mass_mat_iters
  link_names := sel (s.survivors k) s.link_names
  model_name := s.model_name
  omc := sel (s.survivors k) s.omc

theorem delete_unknown [Field α] (E : Env α π) {s : System α π} {name : String}
    (h : name ∉ s.link_names) : delete_subsystem E s name = .error .assertion := by
  unfold delete_subsystem
  rw [pyAssert_false h]; rfl

theorem map_zip_fst {γ : Type} {a : List β} {b : List γ} (h : a.length = b.length) :
    (a.zip b).map (·.1) = a := List.map_fst_zip (by omega)

theorem map_zip_snd {γ : Type} {a : List β} {b : List γ} (h : a.length = b.length) :
    (a.zip b).map (·.2) = b := List.map_snd_zip (by omega)

/-- `delete_subsystem` up to the final `parse`. -/
theorem delete_eq [Field α] (E : Env α π) {s : System α π} (h : s.WF E) {name : String} {k : Nat}
    (hk : s.link_names[k]? = some name) :
    delete_subsystem E s name =
      if s.survivors k = [] then .error .value else parse E (s.deleteRaw E k) := by
  have hmem : name ∈ s.link_names := List.mem_of_getElem? hk
  have hkn : k < s.link_parents.length := h.names_len ▸ (List.getElem?_eq_some_iff.1 hk).1
  unfold delete_subsystem
  rw [pyAssert_true hmem, name_to_idx_of_nodup h.names_nodup hk]
  simp only [ok_bind]
  rw [show _idx_map_and_keepers s.link_parents (_find_subsystem_indices s.link_parents k) =
    ((-1, -1) :: (s.survivors k).zipIdx.map (fun x => ((x.1 : Int), (x.2 : Int))), s.survivors k)
    from rfl]
  simp only
  have hsl : ∀ i ∈ s.survivors k, i < s.link_parents.length := fun i hi =>
    ((mem_survivors h.topo hkn i).1 hi).1
  have clen : ∀ {γ : Type} (w : String → Option Nat) (xs : List γ),
      (chunks (s.link_types.map (wOf w)) xs).length = s.link_parents.length := by
    intro γ w xs; simp [h.types_len]
  -- the scan
  let c1 := chunks (s.link_types.map (wOf E.dw)) s.link_damping
  let c2 := chunks (s.link_types.map (wOf E.dw)) s.link_armature
  let c3 := chunks (s.link_types.map (wOf E.dw)) s.link_spring_stiffness
  let c4 := chunks (s.link_types.map (wOf E.qw)) s.link_spring_zeropoint
  let rows := c1.zip (c2.zip (c3.zip (c4.zip (List.range s.link_parents.length))))
  have l1 : c1.length = s.link_parents.length := clen _ _
  have l2 : c2.length = s.link_parents.length := clen _ _
  have l3 : c3.length = s.link_parents.length := clen _ _
  have l4 : c4.length = s.link_parents.length := clen _ _
  have hscan : s.scan E (fun _ _ (x : List α × List α × List α × List α × Nat) => pure x)
      ((argD s.link_damping).and <| (argD s.link_armature).and <|
      (argD s.link_spring_stiffness).and <| (argQ s.link_spring_zeropoint).and
        (argL (List.range s.num_links))) = .ok rows := by
    rw [scan_pure (rows := rows) h.known h.types_len (fun x => x)]
    · simp
    · intro x hx
      simp [ScanArg.and, argD, argQ, argL, num_links] at hx
      rcases hx with rfl | rfl | rfl | rfl | rfl
      · exact h.damping_len
      · exact h.armature_len
      · exact h.stiffness_len
      · exact h.zeropoint_len
      · rfl
    · exact rows_and (rows_argD rfl _) (rows_and (rows_argD rfl _) (rows_and (rows_argD rfl _)
        (rows_and (rows_argQ rfl _) (rows_argL _ _))))
    · simp [rows, l1, l2, l3, l4]
  rw [hscan]
  simp only [ok_bind]
  have m1 : rows.map (·.1) = c1 := map_zip_fst (by simp [l1, l2, l3, l4])
  have mt : rows.map (·.2) = _ := map_zip_snd (by simp [l1, l2, l3, l4])
  have m2 : rows.map (·.2.1) = c2 := by
    have := congrArg (List.map Prod.fst) mt
    rw [List.map_map] at this
    exact this.trans (map_zip_fst (by simp [l2, l3, l4]))
  have mt2 : rows.map (·.2.2) = c3.zip (c4.zip (List.range s.link_parents.length)) := by
    have := congrArg (List.map Prod.snd) mt
    rw [List.map_map] at this
    exact this.trans (map_zip_snd (by simp [l2, l3, l4]))
  have m3 : rows.map (·.2.2.1) = c3 := by
    have := congrArg (List.map Prod.fst) mt2
    rw [List.map_map] at this
    exact this.trans (map_zip_fst (by simp [l3, l4]))
  have mt3 : rows.map (·.2.2.2) = c4.zip (List.range s.link_parents.length) := by
    have := congrArg (List.map Prod.snd) mt2
    rw [List.map_map] at this
    exact this.trans (map_zip_snd (by simp [l3, l4]))
  have m4 : rows.map (·.2.2.2.1) = c4 := by
    have := congrArg (List.map Prod.fst) mt3
    rw [List.map_map] at this
    exact this.trans (map_zip_fst (by simp [l4]))
  have m5 : rows.map (·.2.2.2.2) = List.range s.link_parents.length := by
    have := congrArg (List.map Prod.snd) mt3
    rw [List.map_map] at this
    exact this.trans (map_zip_snd (by simp [l4]))
  have key : ∀ {γ : Type} (g : _ → γ), (rows.filter fun x => decide (x.2.2.2.2 ∈
      s.survivors k)).map g = sel (s.survivors k) (rows.map g) := fun g => filter_rows_map m5 _ g
  rw [key (fun x => x.1), key (fun x => x.2.1), key (fun x => x.2.2.1), key (fun x => x.2.2.2.1),
    m1, m2, m3, m4]
  by_cases hne : s.survivors k = []
  · rw [if_pos hne, hne]
    rfl
  · rw [if_neg hne]
    have ne : ∀ {γ : Type} (l : List (List γ)), l.length = s.link_parents.length →
        sel (s.survivors k) l ≠ [] := by
      intro γ l hl hc
      have := sel_length (l := l) (fun i hi => hl ▸ hsl i hi)
      rw [hc] at this
      exact hne (List.eq_nil_of_length_eq_zero this.symm)
    rw [jnpConcatenate_ok (ne _ l1), jnpConcatenate_ok (ne _ l2), jnpConcatenate_ok (ne _ l3),
      jnpConcatenate_ok (ne _ l4)]
    simp only [ok_bind]
    have tk : ∀ {γ : Type} (l : List γ), l.length = s.link_parents.length →
        takeKeep (s.survivors k) l = sel (s.survivors k) l := fun l hl => takeKeep_eq _ _ l hl
    have hre : _reindex_parent_array s.link_parents (_find_subsystem_indices s.link_parents k) =
        .ok ((sel (s.survivors k) s.link_parents).map (newIdx (s.survivors k))) := by
      unfold _reindex_parent_array
      simp only [_idx_map_and_keepers]
      rw [show (List.range s.link_parents.length).filter
        (fun i => decide (i ∉ _find_subsystem_indices s.link_parents k)) = s.survivors k from rfl,
        tk _ rfl]
      apply mapM_ok
      intro p hp
      apply pyDict_idx_map
      obtain ⟨i, hi, hpi⟩ := mem_sel.1 hp
      obtain ⟨hil, e⟩ := List.getElem?_eq_some_iff.1 hpi
      have hti := h.topo i hil
      rw [e] at hti
      by_cases hneg : p = -1
      · exact Or.inl hneg
      · right
        obtain ⟨q, hq⟩ : ∃ q : Nat, p = q := ⟨p.toNat, by omega⟩
        subst hq
        refine ⟨q, (mem_survivors h.topo hkn q).2 ⟨by omega, fun hd => ?_⟩, rfl⟩
        exact ((mem_survivors h.topo hkn i).1 hi).2 (.step hpi hd)
    rw [hre]
    have hgm : ((s.geoms.filter fun geom => decide (geom.link_idx ∈
        (s.survivors k).map fun j : Nat => (j : Int))).mapM
        fun geom => do
          let i ← pyDict ((-1, -1) :: (s.survivors k).zipIdx.map
              fun x => ((x.1 : Int), (x.2 : Int))) geom.link_idx
          pure { geom with link_idx := i } : Py (List (Geometry α))) =
        .ok (s.deleteRaw E k).geoms := by
      apply mapM_ok
      intro g hg
      have hg := (List.mem_filter.1 hg).2
      simp only [decide_eq_true_eq] at hg
      obtain ⟨j, hj, e⟩ := List.mem_map.1 hg
      rw [pyDict_idx_map (Or.inr ⟨j, hj, e.symm⟩)]
      rfl
    rw [hgm]
    simp only [ok_bind]
    rw [tk _ h.types_len, tk _ h.names_len, tk _ h.omc_len]
    have hjl : jaxTake s.links (s.survivors k) = sel (s.survivors k) s.links :=
      jaxTake_eq (fun i hi => h.links_len ▸ hsl i hi)
    rw [hjl]
    rfl

theorem deleteRaw_selected {E : Env α π} [Field α] {s : System α π} (h : s.WF E) {k : Nat}
    (hk : k < s.link_parents.length) :
    Selected E (s.survivors k) s (s.deleteRaw E k) := by
  have hsl : ∀ i ∈ s.survivors k, i < s.link_parents.length := fun i hi =>
    ((mem_survivors h.topo hk i).1 hi).1
  have hnd : (s.survivors k).Nodup := (survivors_sorted s k).imp fun h => Nat.ne_of_lt h
  exact {
    lt := hsl
    nodup := hnd
    closed := by
      intro i hi p hp
      have hil := hsl i hi
      have hti := h.topo i hil
      have e : s.link_parents[i] = (p : Int) := by
        rw [List.getElem?_eq_getElem hil] at hp; exact Option.some.inj hp
      rw [e] at hti
      exact (mem_survivors h.topo hk p).2 ⟨by omega, fun hd =>
        ((mem_survivors h.topo hk i).1 hi).2 (.step hp hd)⟩
    names := rfl
    types := rfl
    parents := rfl
    omc := rfl
    links_len := sel_length fun i hi => h.links_len ▸ hsl i hi
    links := by
      intro j i r r' hj hr hr'
      have : (s.deleteRaw E k).links[j]? = some r := by
        show (sel (s.survivors k) s.links)[j]? = _
        rw [sel_getElem? fun i hi => h.links_len ▸ hsl i hi, hj]
        exact hr
      rw [this] at hr'
      rw [← Option.some.inj hr']
    damping := rfl
    armature := rfl
    stiffness := rfl
    zeropoint := rfl
    jp := by
      intro typ i j hj
      show List.lookup typ (s.joint_params.map _) >>= _ = _
      rw [lookup_map_snd (fun l => jaxTake l (s.survivors k))]
      cases hl : s.joint_params.lookup typ with
      | none => rfl
      | some v =>
        have hv := h.jp_len _ (lookup_mem hl)
        simp only [Option.map_some, Option.bind_eq_bind, Option.bind_some]
        rw [jaxTake_eq (fun i hi => hv ▸ hsl i hi), sel_getElem? (fun i hi => hv ▸ hsl i hi), hj]
        rfl
    geoms := by
      intro i j hj
      have hi : i ∈ s.survivors k := List.mem_of_getElem? hj
      show List.map _ (List.filter _ (List.map _ (List.filter _ s.geoms))) = _
      rw [List.filter_map, List.map_map, List.filter_filter]
      have : (s.geoms.filter fun g => decide (g.link_idx = (i : Int))) = s.geoms.filter fun a =>
          (((fun g : Geometry α => decide (g.link_idx = (j : Int))) ∘ fun geom : Geometry α =>
            { geom with link_idx := newIdx (s.survivors k) geom.link_idx }) a &&
          decide (a.link_idx ∈ (s.survivors k).map fun j : Nat => (j : Int))) := by
        apply List.filter_congr
        intro g _
        by_cases hg : g.link_idx ∈ (s.survivors k).map fun j : Nat => (j : Int)
        · obtain ⟨q, hq, e⟩ := List.mem_map.1 hg
          rw [decide_eq_true hg, Bool.and_true]
          simp only [Function.comp, ← e]
          obtain ⟨jq, hjq, ejq⟩ := List.getElem_of_mem hq
          have hjq' : (s.survivors k)[jq]? = some q := by rw [List.getElem?_eq_getElem hjq, ejq]
          rw [newIdx_of_getElem? hnd hjq', decide_eq_decide]
          constructor
          · intro e
            have : q = i := by exact_mod_cast e
            subst this
            obtain ⟨hj1, ej⟩ := List.getElem?_eq_some_iff.1 hj
            exact congrArg _ ((hnd.getElem_inj_iff (hi := hjq) (hj := hj1)).1 (ejq.trans ej.symm))
          · intro e
            have : jq = j := by exact_mod_cast e
            subst this
            rw [hjq'] at hj
            exact congrArg _ (Option.some.inj hj)
        · have : g.link_idx ≠ (i : Int) := fun e => hg (List.mem_map.2 ⟨i, hi, e.symm⟩)
          simp [hg, this]
      rw [this]
      rfl }

/-- Deleting from a well-formed system (with survivors). -/
theorem delete_ok [Field α] {E : Env α π} {s : System α π} (h : s.WF E) {name : String} {k : Nat}
    (hk : s.link_names[k]? = some name) (hne : s.survivors k ≠ []) :
    ∃ s', delete_subsystem E s name = .ok s' ∧ s'.WF E ∧ Selected E (s.survivors k) s s' ∧
      s'.globals = s.globals ∧ s'.joint_params.map (·.1) = s.joint_params.map (·.1) ∧
      s'.geoms.filter (fun g => g.link_idx = -1) = [] := by
  have hkn : k < s.link_parents.length := h.names_len ▸ (List.getElem?_eq_some_iff.1 hk).1
  have hsel := deleteRaw_selected h hkn
  have plen : (s.deleteRaw E k).link_parents.length = (s.survivors k).length := by
    rw [hsel.parents, List.length_map, sel_length hsel.lt]
  have hgi : ∀ g ∈ (s.deleteRaw E k).geoms, 0 ≤ g.link_idx ∧
      g.link_idx < (s.deleteRaw E k).link_parents.length := by
    intro g hg
    obtain ⟨g0, hg0, rfl⟩ := List.mem_map.1 hg
    have hg0 := (List.mem_filter.1 hg0).2
    simp only [decide_eq_true_eq] at hg0
    obtain ⟨q, hq, e⟩ := List.mem_map.1 hg0
    obtain ⟨jq, hjq, ejq⟩ := List.getElem_of_mem hq
    have hjq' : (s.survivors k)[jq]? = some q := by rw [List.getElem?_eq_getElem hjq, ejq]
    show 0 ≤ newIdx (s.survivors k) g0.link_idx ∧ newIdx (s.survivors k) g0.link_idx < _
    rw [← e, newIdx_of_getElem? hsel.nodup hjq', plen]
    omega
  have hc := selected_consistent h.toConsistent hsel (fun g hg => by
    have := hgi g hg; omega)
  refine ⟨_, by rw [delete_eq E h hk, if_neg hne, parse_ok hc], ?_,
    selected_normalised hsel hc.links_len, rfl, ?_, ?_⟩
  · apply normalised_wf hc (selected_topological h.topo hsel (survivors_sorted s k))
    · show ((s.joint_params.map _).map _).Nodup
      rw [List.map_map]; exact h.jp_keys
    · intro x hx
      obtain ⟨y, hy, rfl⟩ := List.mem_map.1 hx
      have hv := h.jp_len y hy
      show (jaxTake y.2 (s.survivors k)).length = _
      rw [jaxTake_eq (fun i hi => hv ▸ hsel.lt i hi), sel_length (fun i hi => hv ▸ hsel.lt i hi),
        plen]
  · show (s.joint_params.map _).map _ = _
    rw [List.map_map]; rfl
  · show List.filter _ ((s.deleteRaw E k).geoms.mergeSort _) = []
    rw [filter_mergeSort, List.filter_eq_nil_iff]
    intro g hg
    have := hgi g hg
    simp; omega

end System
end RingLib
