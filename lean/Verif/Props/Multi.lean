import Verif.Props.Hdf5

/-!
# C51: loading rows from several files
-/

namespace RingLib
namespace hdf5
open System
variable {ρ : Type}

theorem mapM_rows (rows : List ρ) : ∀ ind : List Nat, (∀ i ∈ ind, i < rows.length) →
    ∃ out, (ind.mapM fun i => match rows[i]? with
      | some x => (.ok x : Py ρ)
      | none => .error .index) = .ok out ∧ out.map some = ind.map fun i : Nat => rows[i]? := by
  intro ind
  induction ind with
  | nil => intro _; exact ⟨[], rfl, rfl⟩
  | cons a as ih =>
    intro h
    obtain ⟨out, h1, h2⟩ := ih fun i hi => h i (by simp [hi])
    have ha := h a (by simp)
    refine ⟨rows[a] :: out, ?_, ?_⟩
    · rw [List.mapM_cons, List.getElem?_eq_getElem ha]
      dsimp only
      rw [ok_bind, h1, ok_bind]
      rfl
    · simp [h2, ha]

theorem loadRows_ok {rows : List ρ} {ind : List Nat} (hp : ind.Pairwise (· < ·))
    (h : ∀ i ∈ ind, i < rows.length) :
    ∃ out, loadRows rows ind = .ok out ∧ out.map some = ind.map fun i : Nat => rows[i]? := by
  obtain ⟨out, h1, h2⟩ := mapM_rows rows ind h
  refine ⟨out, ?_, h2⟩
  unfold loadRows takeRows
  rw [List.Pairwise.insertionSort_eq (hp.imp Nat.le_of_lt), if_neg (not_not.2 hp)]
  exact h1

/-- the borders of files that start at row `o` -/
def bordersFrom (o : Nat) (files : List (List ρ)) : List Nat :=
  ((files.map List.length).scanl (· + ·) o).tail

theorem bordersFrom_cons (o : Nat) (f : List ρ) (fs : List (List ρ)) :
    bordersFrom o (f :: fs) = (o + f.length) :: bordersFrom (o + f.length) fs := by
  unfold bordersFrom
  rw [List.map_cons, List.scanl_cons, List.tail_cons]
  cases fs with
  | nil => rfl
  | cons g gs => rw [List.map_cons, List.scanl_cons, List.tail_cons]

theorem bordersFrom_ge (fs : List (List ρ)) : ∀ o, ∀ b ∈ bordersFrom o fs, o ≤ b := by
  induction fs with
  | nil => intro o b hb; simp [bordersFrom] at hb
  | cons f fs ih =>
    intro o b hb
    rw [bordersFrom_cons] at hb
    rcases List.mem_cons.1 hb with rfl | hb
    · omega
    · have := ih _ b hb; omega

theorem belongsTo_cons_lt {o t : Nat} {f : List ρ} {fs : List (List ρ)} (h : t < o + f.length) :
    belongsTo (bordersFrom o (f :: fs)) t = 0 := by
  unfold belongsTo
  rw [List.countP_eq_zero]
  intro b hb
  rw [bordersFrom_cons] at hb
  have : o + f.length ≤ b := by
    rcases List.mem_cons.1 hb with rfl | hb
    · exact le_refl _
    · exact bordersFrom_ge _ _ b hb
  simp
  omega

theorem belongsTo_cons_ge {o t : Nat} {f : List ρ} {fs : List (List ρ)} (h : o + f.length ≤ t) :
    belongsTo (bordersFrom o (f :: fs)) t = 1 + belongsTo (bordersFrom (o + f.length) fs) t := by
  unfold belongsTo
  rw [bordersFrom_cons, List.countP_cons, if_pos (by simp; omega)]
  omega

/-- a list in increasing order is what is below `c` followed by the rest -/
theorem filter_split {s : List Nat} (hs : s.Pairwise (· < ·)) (c : Nat) :
    s = (s.filter fun t => t < c) ++ s.filter fun t => ¬ t < c := by
  induction s with
  | nil => rfl
  | cons a as ih =>
    rw [List.pairwise_cons] at hs
    by_cases h : a < c
    · rw [List.filter_cons, List.filter_cons]
      simp only [h, decide_true, if_true, not_true_eq_false, decide_false, Bool.false_eq_true,
        if_false, List.cons_append]
      rw [← ih hs.2]
    · have hall : ∀ t ∈ as, ¬ t < c := fun t ht => by have := hs.1 t ht; omega
      have h1 : (a :: as).filter (fun t => t < c) = [] := by
        rw [List.filter_eq_nil_iff]
        intro t ht
        rcases List.mem_cons.1 ht with rfl | ht
        · simpa using h
        · simpa using hall t ht
      have h2 : (a :: as).filter (fun t => ¬ t < c) = a :: as := by
        rw [List.filter_eq_self]
        intro t ht
        rcases List.mem_cons.1 ht with rfl | ht
        · simpa using h
        · simpa using hall t ht
      rw [h1, h2]
      rfl

/-- what is loaded from one file -/
def partOf (bel start : Nat → Nat) (s : List Nat) (x : List ρ × Nat) : Option (List ρ × List Nat) :=
  let indices_fp := (s.filter fun t => bel t = x.2).map fun t => t - start x.2
  if indices_fp = [] then none else some (x.1, indices_fp)

theorem parts_ok (bel start : Nat → Nat) : ∀ (files : List (List ρ)) (o k : Nat) (s : List Nat),
    s.Pairwise (· < ·) →
    (∀ t ∈ s, o ≤ t ∧ t < o + files.flatten.length) →
    (∀ t ∈ s, bel t = k + belongsTo (bordersFrom o files) t) →
    (∀ j < files.length, start (k + j) = o + ((files.take j).map List.length).sum) →
    ∃ trees, (((files.zipIdx k).filterMap (partOf bel start s)).mapM
        fun x => loadRows x.1 x.2) = .ok trees ∧
      trees.flatten.map some = s.map fun t : Nat => files.flatten[t - o]? := by
  intro files
  induction files with
  | nil =>
    intro o k s _ hr _ _
    have : s = [] := by
      rw [List.eq_nil_iff_forall_not_mem]
      intro t ht
      have := hr t ht
      simp at this
      omega
    subst this
    exact ⟨[], rfl, rfl⟩
  | cons f fs ih =>
    intro o k s hs hr hbel hstart
    have hsplit := filter_split hs (o + f.length)
    set s1 := s.filter fun t => t < o + f.length with hs1
    set s2 := s.filter fun t => ¬ t < o + f.length with hs2
    have m1 : ∀ t ∈ s1, t ∈ s ∧ t < o + f.length := fun t ht => by
      simpa using List.mem_filter.1 ht
    have m2 : ∀ t ∈ s2, t ∈ s ∧ o + f.length ≤ t := fun t ht => by
      have := List.mem_filter.1 ht
      simpa using this
    have b1 : ∀ t ∈ s1, bel t = k := fun t ht => by
      rw [hbel t (m1 t ht).1, belongsTo_cons_lt (m1 t ht).2]; rfl
    have b2 : ∀ t ∈ s2, bel t = k + 1 + belongsTo (bordersFrom (o + f.length) fs) t :=
      fun t ht => by rw [hbel t (m2 t ht).1, belongsTo_cons_ge (m2 t ht).2]; omega
    have p1 : s1.Pairwise (· < ·) := hs.sublist List.filter_sublist
    have p2 : s2.Pairwise (· < ·) := hs.sublist List.filter_sublist
    obtain ⟨trees, i1, i2⟩ := ih (o + f.length) (k + 1) s2 p2
      (fun t ht => ⟨(m2 t ht).2, by
        have := (hr t (m2 t ht).1).2
        simp at this ⊢
        omega⟩) b2
      (fun j hj => by
        have := hstart (j + 1) (by simpa using hj)
        rw [show k + 1 + j = k + (j + 1) by omega, this]
        simp [Nat.add_assoc])
    have hk0 : start k = o := by simpa using hstart 0 (by simp)
    -- the other files only see the later indices
    have htail : (fs.zipIdx (k + 1)).filterMap (partOf bel start s) =
        (fs.zipIdx (k + 1)).filterMap (partOf bel start s2) := by
      apply List.filterMap_congr
      intro x hx
      have hxk : k + 1 ≤ x.2 := (List.mk_mem_zipIdx_iff_le_and_getElem?_sub.1 hx).1
      unfold partOf
      have : (s.filter fun t => decide (bel t = x.2)) = s2.filter fun t => decide (bel t = x.2) := by
        rw [hsplit, List.filter_append]
        have : (s1.filter fun t => decide (bel t = x.2)) = [] := by
          rw [List.filter_eq_nil_iff]
          intro t ht
          have := b1 t ht
          simp
          omega
        rw [this, List.nil_append]
      rw [this]
    have hhead : (s.filter fun t => decide (bel t = k)) = s1 := by
      rw [hsplit, List.filter_append]
      have e1 : (s1.filter fun t => decide (bel t = k)) = s1 := by
        rw [List.filter_eq_self]
        intro t ht
        simpa using b1 t ht
      have e2 : (s2.filter fun t => decide (bel t = k)) = [] := by
        rw [List.filter_eq_nil_iff]
        intro t ht
        have := b2 t ht
        simp
        omega
      rw [e1, e2, List.append_nil]
    -- the rows of the later files
    have hrest : ∀ t ∈ s2, (f :: fs).flatten[t - o]? = fs.flatten[t - (o + f.length)]? := by
      intro t ht
      have := (m2 t ht).2
      rw [List.flatten_cons, List.getElem?_append_right (by omega)]
      congr 1
      omega
    have hfirst : ∀ t ∈ s1, (f :: fs).flatten[t - o]? = f[t - o]? := by
      intro t ht
      have h1 := (m1 t ht).2
      have h2 := (hr t (m1 t ht).1).1
      rw [List.flatten_cons, List.getElem?_append_left (by omega)]
    have hmap : (s.map fun t : Nat => (f :: fs).flatten[t - o]?) =
        (s1.map fun t : Nat => f[t - o]?) ++ s2.map fun t : Nat => fs.flatten[t - (o + f.length)]? := by
      conv_lhs => rw [hsplit]
      rw [List.map_append]
      congr 1
      · exact List.map_congr_left hfirst
      · exact List.map_congr_left hrest
    rw [List.zipIdx_cons, List.filterMap_cons, htail]
    by_cases hnil : s1 = []
    · have : partOf bel start s (f, k) = none := by
        unfold partOf
        dsimp only
        rw [hhead, hnil]
        rfl
      rw [this]
      refine ⟨trees, i1, ?_⟩
      rw [hmap, hnil, i2]
      rfl
    · have : partOf bel start s (f, k) = some (f, s1.map fun t => t - o) := by
        unfold partOf
        dsimp only
        rw [hhead, hk0, if_neg (by simpa using hnil)]
      rw [this]
      dsimp only
      obtain ⟨out, o1, o2⟩ := loadRows_ok (rows := f) (ind := s1.map fun t => t - o) (by
          rw [List.pairwise_map]
          refine (List.Pairwise.and_mem.1 p1).imp ?_
          rintro a b ⟨ha, hb, hab⟩
          have := (hr a (m1 a ha).1).1
          omega) (by
          intro i hi
          obtain ⟨t, ht, rfl⟩ := List.mem_map.1 hi
          have h1 := (m1 t ht).2
          have h2 := (hr t (m1 t ht).1).1
          omega)
      refine ⟨out :: trees, ?_, ?_⟩
      · rw [List.mapM_cons, o1, ok_bind, i1, ok_bind]
        rfl
      · rw [List.flatten_cons, List.map_append, i2, o2, hmap, List.map_map]
        rfl

theorem getLast_bordersFrom (files : List (List ρ)) : ∀ o, files ≠ [] →
    (bordersFrom o files).getLast? = some (o + files.flatten.length) := by
  induction files with
  | nil => intro o h; exact absurd rfl h
  | cons f fs ih =>
    intro o _
    rw [bordersFrom_cons]
    by_cases h : fs = []
    · subst h; simp [bordersFrom]
    · rw [List.getLast?_cons, ih _ h]
      simp [Nat.add_assoc]

theorem start_eq (files : List (List ρ)) : ∀ (o j : Nat), j < files.length →
    (o :: bordersFrom o files).getD j 0 = o + ((files.take j).map List.length).sum := by
  induction files with
  | nil => intro o j h; simp at h
  | cons f fs ih =>
    intro o j h
    cases j with
    | zero => simp
    | succ j =>
      rw [bordersFrom_cons, List.getD_cons_succ]
      rw [ih (o + f.length) j (by simpa using h)]
      simp [Nat.add_assoc]

/-- C51, partially: for distinct valid indices the rows of the concatenated files are returned, in
increasing order of the indices. Missing: the order of the indices as given, see `C51_order_fails`, and
repeated indices, see `C51_repeated_fails`. -/
theorem C51_partial {files : List (List ρ)} {indices s : List Nat} (hf : 1 < files.length)
    (hne : indices ≠ []) (hperm : s.Perm indices) (hs : s.Pairwise (· < ·))
    (hr : ∀ i ∈ indices, i < files.flatten.length) :
    ∃ out, load_from_multiple files indices = .ok out ∧
      out.map some = s.map fun i : Nat => files.flatten[i]? := by
  have hsort : indices.insertionSort (· ≤ ·) = s := by
    refine List.Perm.eq_of_pairwise' (r := (· ≤ ·)) ?_ (hs.imp Nat.le_of_lt)
      ((List.perm_insertionSort _ _).trans hperm.symm)
    exact List.pairwise_insertionSort _ _
  have hsne : s ≠ [] := by
    rintro rfl
    exact hne (List.nil_perm.1 hperm)
  have hb : cumsum (files.map List.length) = bordersFrom 0 files := rfl
  have hfne : files ≠ [] := by rintro rfl; simp at hf
  obtain ⟨trees, h1, h2⟩ := parts_ok (belongsTo (bordersFrom 0 files))
    (fun i => (0 :: bordersFrom 0 files).getD i 0) files 0 0 s hs
    (fun t ht => ⟨by omega, by simpa using hr t (hperm.subset ht)⟩)
    (fun t _ => by omega)
    (fun j hj => by rw [Nat.zero_add]; exact start_eq files 0 j hj)
  refine ⟨trees.flatten, ?_, by simpa using h2⟩
  unfold load_from_multiple
  rw [pyAssert_true (by simpa using hf), ok_bind]
  dsimp only
  rw [hsort, hb, List.getLast?_eq_getLast_of_ne_nil hsne]
  dsimp only
  rw [ok_bind, getLast_bordersFrom files 0 hfne, pyAssert_true, ok_bind]
  · have h1' : ((files.zipIdx.filterMap fun x =>
        let indices_fp := (s.filter fun t => belongsTo (bordersFrom 0 files) t = x.2).map
          fun t => t - (0 :: bordersFrom 0 files).getD x.2 0
        if indices_fp = [] then none else some (x.1, indices_fp)).mapM fun x => loadRows x.1 x.2) =
        .ok trees := h1
    rw [h1', ok_bind]
  · have := hr _ (hperm.subset (List.getLast_mem hsne))
    simpa using this

/-- C51 fails for the order: the rows come back sorted by index, not as asked for. -/
theorem C51_order_fails :
    load_from_multiple [["a", "b"], ["c"]] [2, 0] = .ok ["a", "c"] := by
  rfl

/-- C51 fails for repeated indices: they are refused. -/
theorem C51_repeated_fails :
    load_from_multiple [["a", "b"], ["c"]] [0, 0] = .error .type := by
  rfl

/-- C51: indices beyond the last row are refused. -/
theorem C51_out_of_range {files : List (List ρ)} {indices : List Nat} (hf : 1 < files.length)
    (h : ∃ i ∈ indices, files.flatten.length ≤ i) :
    load_from_multiple files indices = .error .assertion := by
  obtain ⟨i, hi, hge⟩ := h
  have hfne : files ≠ [] := by rintro rfl; simp at hf
  have hmem : i ∈ indices.insertionSort (· ≤ ·) := (List.mem_insertionSort _).2 hi
  have hne : indices.insertionSort (· ≤ ·) ≠ [] := List.ne_nil_of_mem hmem
  unfold load_from_multiple
  rw [pyAssert_true (by simpa using hf), ok_bind]
  dsimp only
  rw [show cumsum (files.map List.length) = bordersFrom 0 files from rfl,
    List.getLast?_eq_getLast_of_ne_nil hne]
  dsimp only
  rw [ok_bind, getLast_bordersFrom files 0 hfne, pyAssert_false]
  · rfl
  · have hp : (indices.insertionSort (· ≤ ·)).Pairwise (· ≤ ·) := List.pairwise_insertionSort _ _
    have hle : i ≤ (indices.insertionSort (· ≤ ·)).getLast hne := by
      have hd := List.dropLast_append_getLast hne
      rw [← hd] at hmem hp
      rcases List.mem_append.1 hmem with h | h
      · exact (List.pairwise_append.1 hp).2.2 i h _ (by simp)
      · simp at h; omega
    simp only [Nat.zero_add, Option.getD_some]
    omega

example : (1 < [["a", "b"], [], ["c", "d", "e"]].length) ∧ ([0, 3, 4] : List Nat) ≠ [] ∧
    ([0, 3, 4] : List Nat).Perm [4, 0, 3] ∧ ([0, 3, 4] : List Nat).Pairwise (· < ·) ∧
    (∀ i ∈ ([4, 0, 3] : List Nat), i < [["a", "b"], [], ["c", "d", "e"]].flatten.length) ∧
    load_from_multiple [["a", "b"], [], ["c", "d", "e"]] [4, 0, 3] = .ok ["a", "d", "e"] := by
  refine ⟨by decide, by decide, by decide, by decide, by decide, rfl⟩

end hdf5
end RingLib
