import Verif.Model.BaseOps
import Verif.Props.Flatten
import Mathlib.Data.List.Forall2

/-!
# C101: a batch is the list of its entries

The specification: `Holds t S l` says that the arrays `t` hold, along their first axis, the entries `l`,
each of which has arrays of the shapes `S`. The operations on batches are those on the lists.
-/

namespace RingLib.base
open System
set_option linter.unusedSectionVars false

variable {R : Type} [Inhabited R]

instance : Inhabited (Arr R) := ⟨⟨[], fun _ => default⟩⟩

/-! ## Specification -/

/-- the index is inside the shape -/
def InBounds (s i : List Nat) : Prop := List.Forall₂ (· < ·) i s

/-- the same shape and the same entries -/
def Arr.Same (a b : Arr R) : Prop := a.shape = b.shape ∧ ∀ i, InBounds a.shape i → a.get i = b.get i

/-- the same arrays -/
def SameTree (t o : Tree R) : Prop := List.Forall₂ Arr.Same t o

/-- array number `c` of each entry -/
def column (c : Nat) (l : List (Tree R)) : List (Arr R) := l.map fun e => e.getD c default

/-- the array holds `bs`, all of shape `s`, along its first axis -/
structure HoldsArr (a : Arr R) (s : List Nat) (bs : List (Arr R)) : Prop where
  shape : a.shape = bs.length :: s
  entries : ∀ b ∈ bs, b.shape = s
  get : ∀ i b, bs[i]? = some b → ∀ j, InBounds s j → a.get (i :: j) = b.get j

/-- the arrays hold the entries `l` -/
structure Holds (t : Tree R) (S : List (List Nat)) (l : List (Tree R)) : Prop where
  length : t.length = S.length
  lengths : ∀ e ∈ l, e.length = S.length
  arr : ∀ c a s, t[c]? = some a → S[c]? = some s → HoldsArr a s (column c l)

/-! ## Lemmas -/

theorem mapM_each {α β : Type} {f : α → Py β} {Q : Nat → β → Prop} : ∀ {l : List α},
    (∀ c a, l[c]? = some a → ∃ b, f a = .ok b ∧ Q c b) →
    ∃ m, l.mapM f = .ok m ∧ m.length = l.length ∧ ∀ c b, m[c]? = some b → Q c b := by
  intro l
  induction l generalizing Q with
  | nil => intro _; exact ⟨[], rfl, rfl, by simp⟩
  | cons a as ih =>
    intro h
    obtain ⟨b, e1, q1⟩ := h 0 a rfl
    obtain ⟨m, e2, l2, q2⟩ := ih (Q := fun c => Q (c + 1)) fun c a' h' => h (c + 1) a' (by simpa using h')
    refine ⟨b :: m, ?_, by simp [l2], ?_⟩
    · rw [List.mapM_cons, e1, ok_bind, e2]
      rfl
    · intro c b' hb
      cases c with
      | zero =>
        have : b = b' := by simpa using hb
        exact this ▸ q1
      | succ c => exact q2 c b' (by simpa using hb)

theorem shape_at {t : Tree R} {S : List (List Nat)} (h : t.length = S.length) {c : Nat} {a : Arr R}
    (ha : t[c]? = some a) : ∃ s, S[c]? = some s := by
  have := (List.getElem?_eq_some_iff.1 ha).1
  exact ⟨S[c]'(h ▸ this), by simp⟩

/-- an operation on every array -/
theorem holds_mapM {f : Arr R → Py (Arr R)} {t : Tree R} {S : List (List Nat)} {l l' : List (Tree R)}
    (h : Holds t S l) (hl : ∀ e ∈ l', e.length = S.length)
    (hf : ∀ c a s, t[c]? = some a → S[c]? = some s → HoldsArr a s (column c l) →
      ∃ b, f a = .ok b ∧ HoldsArr b s (column c l')) :
    ∃ t', t.mapM f = .ok t' ∧ Holds t' S l' := by
  obtain ⟨t', e, h1, h2⟩ := mapM_each (f := f) (l := t)
    (Q := fun c b => ∀ s, S[c]? = some s → HoldsArr b s (column c l')) (by
      intro c a ha
      obtain ⟨s, hs⟩ := shape_at h.length ha
      obtain ⟨b, h1, h2⟩ := hf c a s ha hs (h.arr c a s ha hs)
      refine ⟨b, h1, fun s' hs' => ?_⟩
      rw [hs] at hs'
      exact Option.some.inj hs' ▸ h2)
  exact ⟨t', e, ⟨h1.trans h.length, hl, fun c a s ha hs => h2 c a ha s hs⟩⟩

/-- an operation on every array of two values -/
theorem holds_map2 {f : Arr R → Arr R → Py (Arr R)} {t o : Tree R} {S : List (List Nat)}
    {l' : List (Tree R)} (h1 : t.length = S.length) (h2 : o.length = S.length)
    (hl : ∀ e ∈ l', e.length = S.length)
    (hf : ∀ c a b s, t[c]? = some a → o[c]? = some b → S[c]? = some s →
      ∃ r, f a b = .ok r ∧ HoldsArr r s (column c l')) :
    ∃ t', treeMap2 f t o = .ok t' ∧ Holds t' S l' := by
  obtain ⟨t', e, h3, h4⟩ := mapM_each (f := fun x : Arr R × Arr R => f x.1 x.2) (l := t.zip o)
    (Q := fun c b => ∀ s, S[c]? = some s → HoldsArr b s (column c l')) (by
      intro c x hx
      rw [List.getElem?_zip_eq_some] at hx
      obtain ⟨s, hs⟩ := shape_at h1 hx.1
      obtain ⟨r, h5, h6⟩ := hf c x.1 x.2 s hx.1 hx.2 hs
      refine ⟨r, h5, fun s' hs' => ?_⟩
      rw [hs] at hs'
      exact Option.some.inj hs' ▸ h6)
  refine ⟨t', ?_, ⟨?_, hl, fun c a s ha hs => h4 c a ha s hs⟩⟩
  · unfold treeMap2
    rw [if_pos (h1.trans h2.symm), e]
  · rw [h3, List.length_zip, h1, h2, Nat.min_self]

/-- an operation on every array of several values -/
theorem holds_mapN {f : List (Arr R) → Py (Arr R)} {t : Tree R} {ts : List (Tree R)}
    {S : List (List Nat)} {l' : List (Tree R)} (h : ∀ o ∈ t :: ts, o.length = S.length)
    (hl : ∀ e ∈ l', e.length = S.length)
    (hf : ∀ c s, S[c]? = some s → ∃ r, f (column c (t :: ts)) = .ok r ∧ HoldsArr r s (column c l')) :
    ∃ t', treeMapN f (t :: ts) = .ok t' ∧ Holds t' S l' := by
  have h0 := h t (by simp)
  have hcol : ∀ c, c < S.length → (t :: ts).filterMap (fun o => o[c]?) = column c (t :: ts) := by
    intro c hc
    generalize t :: ts = us at h
    induction us with
    | nil => rfl
    | cons u us ih =>
      have hu : c < u.length := by rw [h u (by simp)]; exact hc
      have : u[c]? = some (u.getD c default) := by simp [List.getD_eq_getElem?_getD, hu]
      rw [List.filterMap_cons, this, ih fun o ho => h o (by simp [ho])]
      rfl
  obtain ⟨t', e, h3, h4⟩ := mapM_each (f := fun c : Nat => f ((t :: ts).filterMap fun o => o[c]?))
    (l := List.range t.length) (Q := fun c b => ∀ s, S[c]? = some s → HoldsArr b s (column c l')) (by
      intro c x hx
      obtain ⟨hc, rfl⟩ := List.getElem?_eq_some_iff.1 hx
      rw [List.length_range, h0] at hc
      obtain ⟨r, h5, h6⟩ := hf c S[c] (by simp)
      refine ⟨r, ?_, fun s' hs' => ?_⟩
      · rw [List.getElem_range, hcol c hc, h5]
      · have : S[c] = s' := by simpa [hc] using hs'
        exact this ▸ h6)
  refine ⟨t', ?_, ⟨?_, hl, fun c a s ha hs => h4 c a ha s hs⟩⟩
  · unfold treeMapN
    dsimp only
    rw [if_pos (fun o ho => (h o ho).trans h0.symm), e]
  · rw [h3, List.length_range, h0]

theorem column_length (c : Nat) (l : List (Tree R)) : (column c l).length = l.length := by
  simp [column]

theorem column_get {c i : Nat} {l : List (Tree R)} {b : Arr R} :
    (column c l)[i]? = some b ↔ ∃ e, l[i]? = some e ∧ e.getD c default = b := by
  simp [column]

theorem entry_shape {t : Tree R} {S : List (List Nat)} {l : List (Tree R)} (h : Holds t S l) {e : Tree R}
    (he : e ∈ l) : e.map Arr.shape = S := by
  refine List.ext_getElem? fun c => ?_
  have hl := h.lengths e he
  by_cases hc : c < S.length
  · have hct : c < t.length := h.length ▸ hc
    have := (h.arr c t[c] S[c] (by simp) (by simp)).entries (e.getD c default)
      (List.mem_map_of_mem he)
    have hce : c < e.length := hl ▸ hc
    simp only [List.getD_eq_getElem?_getD, List.getElem?_eq_getElem hce, Option.getD_some] at this
    simp [hce, hc, this]
  · simp [hl, hc]

theorem inBounds_cons {n : Nat} {s i : List Nat} (h : InBounds (n :: s) i) :
    ∃ k j, i = k :: j ∧ k < n ∧ InBounds s j := by
  cases h with
  | cons h1 h2 => exact ⟨_, _, rfl, h1, h2⟩

theorem position_front {n k : Nat} (h : k < n) : position n (k : Int) = some k := by
  have e : (if (k : Int) < 0 then (k : Int) + n else k) = k := if_neg (by omega)
  unfold position
  simp only [e]
  rw [if_pos (by omega)]
  simp

theorem position_back {n k : Nat} (h : k < n) : position n ((k : Int) - n) = some k := by
  have e : (if (k : Int) - n < 0 then (k : Int) - n + n else k - n) = k := by
    rw [if_pos (by omega)]
    omega
  unfold position
  simp only [e]
  rw [if_pos (by omega)]
  simp

theorem position_outside {n : Nat} {i : Int} (h : (n : Int) ≤ i ∨ i < -n) : position n i = none := by
  unfold position
  refine if_neg ?_
  split_ifs <;> omega

/-! ## The number of entries -/

/-- C101: `len` is the number of entries. -/
theorem C101_len {t : Tree R} {S : List (List Nat)} {l : List (Tree R)} (h : Holds t S l) (hS : S ≠ []) :
    len t = .ok l.length := by
  have hm : t.mapM (fun a => pyGet a.shape (0 : Nat)) = .ok (t.map fun _ => l.length) := by
    refine generator.mapM_ok ?_
    intro a ha
    obtain ⟨c, hc⟩ := List.mem_iff_getElem?.1 ha
    obtain ⟨s, hs⟩ := shape_at h.length hc
    have := (h.arr c a s hc hs).shape
    rw [column_length] at this
    rw [this]
    rfl
  unfold len shapeOf
  rw [hm, ok_bind]
  have hd : (t.map fun _ => l.length).dedup = [l.length] := by
    have ht : t ≠ [] := fun e => hS (List.eq_nil_of_length_eq_zero (by rw [← h.length, e]; rfl))
    obtain ⟨a, as, rfl⟩ := List.exists_cons_of_ne_nil ht
    rw [List.map_const', List.length_cons, List.replicate_dedup (by omega)]
  rw [hd]

/-! ## Taking entries -/

/-- C101: an entry is taken by its index, counted from the end if negative. -/
theorem C101_take_partial (nan : R) {t : Tree R} {S : List (List Nat)} {l : List (Tree R)}
    (h : Holds t S l) {i : Int} {k : Nat} (hk : (i = k ∧ k < l.length) ∨ (i = k - l.length ∧ k < l.length))
    {e : Tree R} (he : l[k]? = some e) : ∃ t', take nan t i = .ok t' ∧ SameTree t' e := by
  have hpos : position l.length i = some k := by
    rcases hk with ⟨rfl, hk⟩ | ⟨rfl, hk⟩
    · exact position_front hk
    · exact position_back hk
  have hem : e ∈ l := List.mem_of_getElem? he
  obtain ⟨t', h1, h2, h3⟩ := mapM_each (f := takeOne nan i) (l := t)
    (Q := fun c b => Arr.Same b (e.getD c default)) (by
      intro c a ha
      obtain ⟨s, hs⟩ := shape_at h.length ha
      have hA := h.arr c a s ha hs
      have hsh := hA.shape
      rw [column_length] at hsh
      refine ⟨⟨s, fun j => a.get (k :: j)⟩, ?_, ?_, ?_⟩
      · unfold takeOne
        rw [hsh]
        simp only [hpos]
      · exact (hA.entries _ (List.mem_map_of_mem hem)).symm
      · intro j hj
        exact hA.get k _ (column_get.2 ⟨e, he, rfl⟩) j hj)
  refine ⟨t', h1, ?_⟩
  have hl : t'.length = e.length := by rw [h2, h.length, h.lengths e hem]
  refine List.forall₂_iff_get.2 ⟨hl, fun c hc hc' => ?_⟩
  have := h3 c t'[c] (by simp)
  simpa [List.getD_eq_getElem?_getD, hc'] using this

/-- C101 fails: an index outside the batch gives an entry of NaN and does not raise. -/
theorem C101_take_fails (nan : R) {t : Tree R} {S : List (List Nat)} {l : List (Tree R)}
    (h : Holds t S l) {i : Int} (hi : (l.length : Int) ≤ i ∨ i < -l.length) :
    take nan t i = .ok (S.map fun s => ⟨s, fun _ => nan⟩) := by
  have hpos : position l.length i = none := position_outside hi
  obtain ⟨t', h1, h2, h3⟩ := mapM_each (f := takeOne nan i) (l := t)
    (Q := fun c b => ∀ s, S[c]? = some s → b = ⟨s, fun _ => nan⟩) (by
      intro c a ha
      obtain ⟨s, hs⟩ := shape_at h.length ha
      have hsh := (h.arr c a s ha hs).shape
      rw [column_length] at hsh
      refine ⟨⟨s, fun _ => nan⟩, ?_, fun s' hs' => ?_⟩
      · unfold takeOne
        rw [hsh]
        simp only [hpos]
      · rw [hs] at hs'
        rw [Option.some.inj hs'])
  unfold take
  rw [h1]
  congr 1
  refine List.ext_getElem (by rw [h2, h.length, List.length_map]) fun c hc hc' => ?_
  have hcS : c < S.length := by simpa using hc'
  rw [h3 c t'[c] (by simp) S[c] (by simp)]
  simp

/-- C101: several entries are taken in the order of their indices. -/
theorem C101_takes_partial (nan : R) {t : Tree R} {S : List (List Nat)} {l : List (Tree R)}
    (h : Holds t S l) {ks : List Nat} {es : List (Tree R)}
    (hk : List.Forall₂ (fun (k : Nat) e => l[k]? = some e) ks es) :
    ∃ t', takes nan t (ks.map fun k : Nat => (k : Int)) = .ok t' ∧ Holds t' S es := by
  have hlen := hk.length_eq
  have hget : ∀ (i : Nat) (e : Tree R), es[i]? = some e → ∃ k : Nat, ks[i]? = some k ∧ l[k]? = some e := by
    intro i e he
    obtain ⟨hi, rfl⟩ := List.getElem?_eq_some_iff.1 he
    have hi' : i < ks.length := hlen ▸ hi
    exact ⟨ks[i], by simp, by simpa using (List.forall₂_iff_get.1 hk).2 i hi' hi⟩
  have hmem : ∀ e ∈ es, e ∈ l := by
    intro e he
    obtain ⟨i, hi⟩ := List.mem_iff_getElem?.1 he
    obtain ⟨k, _, h'⟩ := hget i e hi
    exact List.mem_of_getElem? h'
  refine holds_mapM h (fun e he => h.lengths e (hmem e he)) ?_
  intro c a s _ _ hA
  have hsh := hA.shape
  rw [column_length] at hsh
  refine ⟨_, by unfold takeMany; rw [hsh], ?_, ?_, ?_⟩
  · simp [column_length, hlen]
  · intro b hb
    obtain ⟨e, he, rfl⟩ := List.mem_map.1 hb
    exact hA.entries _ (List.mem_map_of_mem (hmem e he))
  · intro i b hb j hj
    obtain ⟨e, he, rfl⟩ := column_get.1 hb
    obtain ⟨k, h1, h2⟩ := hget i e he
    have hkl : k < l.length := (List.getElem?_eq_some_iff.1 h2).1
    have hpos : position l.length (k : Int) = some k := position_front hkl
    have hi : (ks.map fun k : Nat => (k : Int)).getD i 0 = k := by
      simp [List.getD_eq_getElem?_getD, h1]
    simp only [List.headD_cons, List.tail_cons, hi, hpos]
    exact hA.get k _ (column_get.2 ⟨e, h2, rfl⟩) j hj

/-! ## Slices -/

theorem slice_aux {t : Tree R} {S : List (List Nat)} {l : List (Tree R)} (h : Holds t S l)
    {beg fin : Int} {b e : Nat} (hb : bound l.length beg = b) (he : bound l.length fin = e)
    (hel : e ≤ l.length) : ∃ t', slice t beg fin = .ok t' ∧ Holds t' S ((l.take e).drop b) := by
  refine holds_mapM h (fun x hx => h.lengths x (List.mem_of_mem_take (List.mem_of_mem_drop hx))) ?_
  intro c a s _ _ hA
  have hsh := hA.shape
  rw [column_length] at hsh
  refine ⟨_, by unfold sliceArr; rw [hsh], ?_, ?_, ?_⟩
  · simp only [column_length, List.length_drop, List.length_take, hb, he]
    congr 1
    omega
  · intro x hx
    obtain ⟨y, hy, rfl⟩ := List.mem_map.1 hx
    exact hA.entries _ (List.mem_map_of_mem (List.mem_of_mem_take (List.mem_of_mem_drop hy)))
  · intro i x hx j hj
    obtain ⟨y, hy, rfl⟩ := column_get.1 hx
    rw [List.getElem?_drop, List.getElem?_take] at hy
    split_ifs at hy
    simp only [List.headD_cons, List.tail_cons, hb]
    exact hA.get _ _ (column_get.2 ⟨y, hy, rfl⟩) j hj

/-- C101: slicing a batch slices the list of its entries. -/
theorem C101_slice {t : Tree R} {S : List (List Nat)} {l : List (Tree R)} (h : Holds t S l) (b e : Nat) :
    ∃ t', slice t b e = .ok t' ∧ Holds t' S ((l.take e).drop b) := by
  have hb : ∀ m : Nat, bound l.length (m : Int) = min m l.length := by
    intro m
    unfold bound
    rw [if_neg (by omega)]
    simp
  obtain ⟨t', h1, h2⟩ := slice_aux h (hb b) (hb e) (by omega)
  refine ⟨t', h1, ?_⟩
  have e1 : l.take (min e l.length) = l.take e := by
    rcases Nat.le_total e l.length with h' | h'
    · rw [Nat.min_eq_left h']
    · rw [Nat.min_eq_right h', List.take_length, List.take_of_length_le h']
  have e2 : (l.take e).drop (min b l.length) = (l.take e).drop b := by
    rcases Nat.le_total b l.length with h' | h'
    · rw [Nat.min_eq_left h']
    · rw [Nat.min_eq_right h', List.drop_eq_nil_of_le (by simp), List.drop_eq_nil_of_le (by simp; omega)]
  rwa [e1, e2] at h2

/-- C101: a slice from a negative index keeps the last entries. -/
theorem C101_slice_last {t : Tree R} {S : List (List Nat)} {l : List (Tree R)} (h : Holds t S l) {k : Nat}
    (hk : 0 < k) (hkl : k ≤ l.length) :
    ∃ t', slice t (-(k : Int)) l.length = .ok t' ∧ Holds t' S (l.drop (l.length - k)) := by
  obtain ⟨t', h1, h2⟩ := slice_aux h (beg := -(k : Int)) (fin := l.length) (b := l.length - k)
    (e := l.length) (by unfold bound; rw [if_pos (by omega)]; omega)
    (by unfold bound; rw [if_neg (by omega)]; simp) le_rfl
  exact ⟨t', h1, by rwa [List.take_length] at h2⟩

/-! ## Joining -/

theorem pickFirst_holds {s : List Nat} : ∀ {as : List (Arr R)} {bss : List (List (Arr R))},
    List.Forall₂ (fun a bs => HoldsArr a s bs) as bss →
    ∀ (i : Nat) (b : Arr R), bss.flatten[i]? = some b → ∀ j, InBounds s j →
      pickFirst as i j = b.get j := by
  intro as bss h
  induction h with
  | nil => intro i b hb; simp at hb
  | @cons a bs as bss h1 _ ih =>
    intro i b hb j hj
    rw [List.flatten_cons, List.getElem?_append] at hb
    unfold pickFirst
    rw [h1.shape, List.headD_cons]
    split_ifs at hb ⊢ with hi
    · exact h1.get i b hb j hj
    · exact ih _ b hb j hj

/-- joining arrays that hold entries -/
theorem concatFirst_holds {s : List Nat} {as : List (Arr R)} {bss : List (List (Arr R))} (hne : as ≠ [])
    (h : List.Forall₂ (fun a bs => HoldsArr a s bs) as bss) :
    ∃ r, concatFirst as = .ok r ∧ HoldsArr r s bss.flatten := by
  have hsh : ∀ a ∈ as, a.shape ≠ [] ∧ a.shape.tail = s := by
    intro a ha
    obtain ⟨i, hi⟩ := List.mem_iff_getElem?.1 ha
    obtain ⟨hi', rfl⟩ := List.getElem?_eq_some_iff.1 hi
    have := (List.forall₂_iff_get.1 h).2 i hi' (h.length_eq ▸ hi')
    have e := this.shape
    simp only [List.get_eq_getElem] at e
    rw [e]
    simp
  have hsum : (as.map fun b => b.shape.headD 0).sum = bss.flatten.length := by
    clear hsh hne
    induction h with
    | nil => rfl
    | cons h1 _ ih =>
      rw [List.map_cons, List.sum_cons, ih, h1.shape, List.flatten_cons, List.length_append]
      rfl
  have hent : ∀ b ∈ bss.flatten, b.shape = s := by
    intro b hb
    obtain ⟨bs, h1, h2⟩ := List.mem_flatten.1 hb
    obtain ⟨i, hi⟩ := List.mem_iff_getElem?.1 h1
    obtain ⟨hi', rfl⟩ := List.getElem?_eq_some_iff.1 hi
    exact ((List.forall₂_iff_get.1 h).2 i (h.length_eq ▸ hi') hi').entries b h2
  obtain ⟨a, as', rfl⟩ := List.exists_cons_of_ne_nil hne
  have ha := hsh a (by simp)
  refine ⟨⟨bss.flatten.length :: s, fun j => pickFirst (a :: as') (j.headD 0) j.tail⟩, ?_, rfl, hent, ?_⟩
  · unfold concatFirst
    dsimp only
    rw [if_pos ⟨ha.1, fun b hb => ⟨(hsh b hb).1, (hsh b hb).2.trans ha.2.symm⟩⟩, hsum, ha.2]
  · intro i b hb j hj
    exact pickFirst_holds h i b hb j hj

theorem forall₂_column {s : List Nat} {c : Nat} {S : List (List Nat)} (hs : S[c]? = some s) :
    ∀ {ts : List (Tree R)} {ls : List (List (Tree R))}, List.Forall₂ (fun t l => Holds t S l) ts ls →
    List.Forall₂ (fun a bs => HoldsArr a s bs) (column c ts) (ls.map (column c)) := by
  intro ts ls h
  induction h with
  | nil => exact List.Forall₂.nil
  | @cons t l ts ls h1 _ ih =>
    refine List.Forall₂.cons ?_ ih
    have hc : c < t.length := by
      rw [h1.length]
      exact (List.getElem?_eq_some_iff.1 hs).1
    exact h1.arr c _ s (by simp [List.getD_eq_getElem?_getD, hc]) hs

theorem column_flatten (c : Nat) (ls : List (List (Tree R))) :
    (ls.map (column c)).flatten = column c ls.flatten := by
  unfold column
  rw [List.map_flatten]

theorem lengths_of_forall₂ {S : List (List Nat)} : ∀ {ts : List (Tree R)} {ls : List (List (Tree R))},
    List.Forall₂ (fun t l => Holds t S l) ts ls →
    (∀ t ∈ ts, t.length = S.length) ∧ ∀ e ∈ ls.flatten, e.length = S.length := by
  intro ts ls h
  induction h with
  | nil => simp
  | cons h1 _ ih =>
    refine ⟨?_, ?_⟩
    · intro t ht
      rcases List.mem_cons.1 ht with rfl | ht
      · exact h1.length
      · exact ih.1 t ht
    · intro e he
      rw [List.flatten_cons, List.mem_append] at he
      rcases he with he | he
      · exact h1.lengths e he
      · exact ih.2 e he

/-- C101: concatenating batches appends the lists of their entries. -/
theorem C101_concatenate {t : Tree R} {ts : List (Tree R)} {S : List (List Nat)}
    {ls : List (List (Tree R))} (h : List.Forall₂ (fun t l => Holds t S l) (t :: ts) ls) :
    (∃ t', concatenate t ts = .ok t' ∧ Holds t' S ls.flatten) ∧
    batch t ts true = concatenate t ts := by
  refine ⟨?_, rfl⟩
  obtain ⟨h1, h2⟩ := lengths_of_forall₂ h
  refine holds_mapN h1 h2 fun c s hs => ?_
  obtain ⟨r, e, hr⟩ := concatFirst_holds (by simp [column]) (forall₂_column hs h)
  exact ⟨r, e, by rwa [column_flatten] at hr⟩

theorem expandFirst_holds (a : Arr R) : HoldsArr (expandFirst a) a.shape [a] where
  shape := rfl
  entries := by simp
  get := by
    intro i b hb j _
    cases i with
    | zero =>
      have : a = b := by simpa using hb
      subst this
      rfl
    | succ i => simp at hb

theorem singletons_flatten {α : Type} (l : List α) : (l.map fun a => [a]).flatten = l := by
  induction l with
  | nil => rfl
  | cons a l ih => simp [ih]

theorem entries_column {S : List (List Nat)} {es : List (Tree R)} (h : ∀ e ∈ es, e.map Arr.shape = S)
    {c : Nat} {s : List Nat} (hs : S[c]? = some s) : ∀ a ∈ column c es, a.shape = s := by
  intro a ha
  obtain ⟨e, he, rfl⟩ := List.mem_map.1 ha
  have h' := congrArg (fun l : List (List Nat) => l[c]?) (h e he)
  simp only [List.getElem?_map, hs, Option.map_eq_some_iff] at h'
  obtain ⟨a, h1, h2⟩ := h'
  simp [List.getD_eq_getElem?_getD, h1, h2]

theorem singles_holds {s : List Nat} : ∀ {l : List (Arr R)}, (∀ a ∈ l, a.shape = s) →
    List.Forall₂ (fun a bs => HoldsArr a s bs) (l.map expandFirst) (l.map fun a => [a]) := by
  intro l
  induction l with
  | nil => intro _; exact List.Forall₂.nil
  | cons a l ih =>
    intro h
    refine List.Forall₂.cons ?_ (ih fun b hb => h b (by simp [hb]))
    have := expandFirst_holds a
    rwa [h a (by simp)] at this

/-- C101: batching entries gives the batch of these entries. -/
theorem C101_batch {e : Tree R} {es : List (Tree R)} {S : List (List Nat)}
    (h : ∀ o ∈ e :: es, o.map Arr.shape = S) :
    ∃ t', batch e es = .ok t' ∧ Holds t' S (e :: es) := by
  have hl : ∀ o ∈ e :: es, o.length = S.length := fun o ho => by rw [← h o ho, List.length_map]
  refine holds_mapN hl hl fun c s hs => ?_
  obtain ⟨r, e1, hr⟩ := concatFirst_holds (as := (column c (e :: es)).map expandFirst) (by simp [column])
    (singles_holds (entries_column h hs))
  exact ⟨r, e1, by rwa [singletons_flatten] at hr⟩

/-- C101: `vstack` of values whose arrays are vectors batches them. -/
theorem C101_vstack_entries {e : Tree R} {es : List (Tree R)} {S : List (List Nat)}
    (h : ∀ o ∈ e :: es, o.map Arr.shape = S) (hS : ∀ s ∈ S, s.length = 1) :
    ∃ t', vstack e es = .ok t' ∧ Holds t' S (e :: es) := by
  have hl : ∀ o ∈ e :: es, o.length = S.length := fun o ho => by rw [← h o ho, List.length_map]
  refine holds_mapN hl hl fun c s hs => ?_
  have hcol := entries_column h hs
  have h1 := hS s (List.mem_of_getElem? hs)
  have e2 : (column c (e :: es)).map atleast_2d = (column c (e :: es)).map expandFirst := by
    refine List.map_congr_left fun a ha => ?_
    have hsa := hcol a ha
    have hne : a.shape ≠ [] := by
      intro e'
      rw [← hsa, e'] at h1
      simp at h1
    unfold atleast_2d atleast_1d
    rw [if_pos (by rw [hsa, h1]; omega), if_neg hne]
  obtain ⟨r, e1, hr⟩ := concatFirst_holds (as := (column c (e :: es)).map expandFirst) (by simp [column])
    (singles_holds hcol)
  exact ⟨r, by rw [e2, e1], by rwa [singletons_flatten] at hr⟩

/-- C101: `vstack` of batches concatenates them, if the arrays of an entry have axes. -/
theorem C101_vstack_batches {t : Tree R} {ts : List (Tree R)} {S : List (List Nat)}
    {ls : List (List (Tree R))} (h : List.Forall₂ (fun t l => Holds t S l) (t :: ts) ls)
    (hS : ∀ s ∈ S, s ≠ []) : ∃ t', vstack t ts = .ok t' ∧ Holds t' S ls.flatten := by
  obtain ⟨h1, h2⟩ := lengths_of_forall₂ h
  refine holds_mapN h1 h2 fun c s hs => ?_
  have hc := forall₂_column hs h
  have hsn := hS s (List.mem_of_getElem? hs)
  have e2 : (column c (t :: ts)).map atleast_2d = column c (t :: ts) := by
    conv_rhs => rw [← List.map_id (column c (t :: ts))]
    refine List.map_congr_left fun a ha => ?_
    obtain ⟨i, hi⟩ := List.mem_iff_getElem?.1 ha
    obtain ⟨hi', rfl⟩ := List.getElem?_eq_some_iff.1 hi
    have := ((List.forall₂_iff_get.1 hc).2 i hi' (hc.length_eq ▸ hi')).shape
    simp only [List.get_eq_getElem] at this
    unfold atleast_2d
    rw [if_neg]
    · rfl
    · rw [this, List.length_cons]
      have := List.length_pos_iff.2 hsn
      omega
  obtain ⟨r, e, hr⟩ := concatFirst_holds (by simp [column]) hc
  exact ⟨r, by rw [e2, e], by rwa [column_flatten] at hr⟩

/-- C101: repeating repeats every entry in its place. -/
theorem C101_repeat {t : Tree R} {S : List (List Nat)} {l : List (Tree R)} (h : Holds t S l) {n : Nat}
    (hn : 0 < n) :
    ∃ t', repeatTree t n = .ok t' ∧ Holds t' S (l.flatMap fun e => List.replicate n e) := by
  have hget : ∀ (l : List (Tree R)) (i : Nat) (e : Tree R),
      (l.flatMap fun e => List.replicate n e)[i]? = some e → l[i / n]? = some e := by
    intro l
    induction l with
    | nil => intro i e he; simp at he
    | cons a l ih =>
      intro i e he
      rw [List.flatMap_cons, List.getElem?_append, List.length_replicate] at he
      split_ifs at he with hi
      · rw [Nat.div_eq_of_lt hi]
        rw [List.getElem?_replicate, if_pos hi] at he
        simpa using he
      · have := ih _ e he
        have hd : i / n = (i - n) / n + 1 := by
          rw [Nat.div_eq_sub_div hn (by omega)]
        rw [hd, List.getElem?_cons_succ]
        exact this
  have hmem : ∀ e ∈ l.flatMap fun e => List.replicate n e, e ∈ l := by
    intro e he
    obtain ⟨a, h1, h2⟩ := List.mem_flatMap.1 he
    rw [(List.mem_replicate.1 h2).2]
    exact h1
  refine holds_mapM h (fun e he => h.lengths e (hmem e he)) ?_
  intro c a s _ _ hA
  have hsh := hA.shape
  rw [column_length] at hsh
  refine ⟨⟨l.length * n :: s, fun j => a.get (j.headD 0 / n :: j.tail)⟩, by rw [hsh], ?_, ?_, ?_⟩
  · simp [column_length]
  · intro b hb
    obtain ⟨e, he, rfl⟩ := List.mem_map.1 hb
    exact hA.entries _ (List.mem_map_of_mem (hmem e he))
  · intro i b hb j hj
    obtain ⟨e, he, rfl⟩ := column_get.1 hb
    exact hA.get _ _ (column_get.2 ⟨e, hget l i e he, rfl⟩) j hj

/-! ## Updates -/

theorem updateAt_holds {f : R → R → R} {a o : Arr R} {s : List Nat} {bs : List (Arr R)} {k : Nat} {b : Arr R}
    (hA : HoldsArr a s bs) (hb : bs[k]? = some b) (ho : o.shape = s) {i : Int}
    (hi : position bs.length i = some k) :
    ∃ r, updateAt f i a o = .ok r ∧
      HoldsArr r s (bs.set k ⟨s, fun j => f (b.get j) (o.get j)⟩) := by
  refine ⟨⟨bs.length :: s, fun j => if position bs.length i = some (j.headD 0)
    then f (a.get j) (o.get j.tail) else a.get j⟩, ?_, ?_, ?_, ?_⟩
  · unfold updateAt
    rw [hA.shape]
    dsimp only
    rw [if_pos ho]
  · simp
  · intro x hx
    rcases List.mem_or_eq_of_mem_set hx with hx | rfl
    · exact hA.entries x hx
    · rfl
  · intro m x hx j hj
    simp only [List.headD_cons, List.tail_cons, hi]
    by_cases hmk : k = m
    · subst hmk
      have hkl : k < bs.length := (List.getElem?_eq_some_iff.1 hb).1
      rw [if_pos rfl]
      rw [List.getElem?_set_self hkl] at hx
      have := Option.some.inj hx
      subst this
      rw [hA.get k b hb j hj]
    · rw [if_neg (fun e => hmk (Option.some.inj e))]
      rw [List.getElem?_set_ne hmk] at hx
      exact hA.get m x hx j hj

theorem HoldsArr.congr {a : Arr R} {s : List Nat} {bs bs' : List (Arr R)} (h : HoldsArr a s bs)
    (h' : List.Forall₂ Arr.Same bs bs') : HoldsArr a s bs' where
  shape := by rw [h.shape, h'.length_eq]
  entries := by
    intro b hb
    obtain ⟨i, hi⟩ := List.mem_iff_getElem?.1 hb
    obtain ⟨hi', rfl⟩ := List.getElem?_eq_some_iff.1 hi
    have hi2 : i < bs.length := h'.length_eq ▸ hi'
    have hs := ((List.forall₂_iff_get.1 h').2 i hi2 hi').1
    exact hs.symm.trans (h.entries _ (List.getElem_mem hi2))
  get := by
    intro i b hb j hj
    obtain ⟨hi', rfl⟩ := List.getElem?_eq_some_iff.1 hb
    have hi2 : i < bs.length := h'.length_eq ▸ hi'
    have hs := (List.forall₂_iff_get.1 h').2 i hi2 hi'
    rw [h.get i bs[i] (by simp) j hj]
    refine hs.2 j ?_
    have : bs[i].shape = s := h.entries _ (List.getElem_mem hi2)
    simpa [this] using hj

theorem Arr.Same.refl (a : Arr R) : a.Same a := ⟨rfl, fun _ _ => rfl⟩

theorem forall₂_same_refl : ∀ l : List (Arr R), List.Forall₂ Arr.Same l l
  | [] => List.Forall₂.nil
  | a :: l => List.Forall₂.cons (Arr.Same.refl a) (forall₂_same_refl l)

theorem forall₂_same_set {a b : Arr R} (h : a.Same b) : ∀ (l : List (Arr R)) (k : Nat),
    List.Forall₂ Arr.Same (l.set k a) (l.set k b)
  | [], _ => by simp
  | x :: l, 0 => List.Forall₂.cons h (forall₂_same_refl l)
  | x :: l, k + 1 => List.Forall₂.cons (Arr.Same.refl x) (forall₂_same_set h l k)

theorem column_set (c k : Nat) (l : List (Tree R)) (e : Tree R) :
    column c (l.set k e) = (column c l).set k (e.getD c default) := by
  unfold column
  rw [List.map_set]

/-- an update of one entry -/
theorem update_holds {f : R → R → R} {t o : Tree R} {S : List (List Nat)} {l : List (Tree R)}
    (h : Holds t S l) (ho : o.map Arr.shape = S) {i : Int} {k : Nat}
    (hi : position l.length i = some k) {e e' : Tree R} (he : l[k]? = some e)
    (he' : List.Forall₂ Arr.Same (List.zipWith (fun a b => (⟨a.shape, fun j => f (a.get j) (b.get j)⟩ : Arr R)) e o)
      e') :
    ∃ t', treeMap2 (updateAt f i) t o = .ok t' ∧ Holds t' S (l.set k e') := by
  have hol : o.length = S.length := by rw [← ho, List.length_map]
  have hel : e.length = S.length := h.lengths e (List.mem_of_getElem? he)
  have hel' : e'.length = S.length := by
    rw [← he'.length_eq, List.length_zipWith, hel, hol, Nat.min_self]
  refine holds_map2 h.length hol ?_ ?_
  · intro x hx
    rcases List.mem_or_eq_of_mem_set hx with hx | rfl
    · exact h.lengths x hx
    · exact hel'
  · intro c a b s ha hb hs
    have hA := h.arr c a s ha hs
    have hcS : c < S.length := (List.getElem?_eq_some_iff.1 hs).1
    have hbs : b.shape = s := by
      have := congrArg (fun l : List (List Nat) => l[c]?) ho
      simp only [List.getElem?_map, hb, hs, Option.map_some, Option.some.injEq] at this
      exact this
    obtain ⟨r, h1, h2⟩ := updateAt_holds (f := f) hA (k := k) (column_get.2 ⟨e, he, rfl⟩) hbs (i := i)
      (by rw [column_length]; exact hi)
    refine ⟨r, h1, ?_⟩
    rw [column_set]
    refine h2.congr (forall₂_same_set ?_ _ _)
    have hz := (List.forall₂_iff_get.1 he').2 c (by simp [hel, hol, hcS]) (hel' ▸ hcS)
    have hbo : o[c]'(hol ▸ hcS) = b := by
      have := List.getElem?_eq_some_iff.1 hb
      exact this.2
    have hes : (e[c]'(hel ▸ hcS)).shape = s := by
      have := hA.entries (e.getD c default) (List.mem_map_of_mem (List.mem_of_getElem? he))
      simpa [List.getD_eq_getElem?_getD, hel, hcS] using this
    simp only [List.get_eq_getElem, List.getElem_zipWith, hbo, hes] at hz
    simpa [List.getD_eq_getElem?_getD, hel, hel', hcS] using hz

/-- C101: setting an entry replaces it in the list. -/
theorem C101_index_set_partial {t o : Tree R} {S : List (List Nat)} {l : List (Tree R)}
    (h : Holds t S l) (ho : o.map Arr.shape = S) {k : Nat} (hk : k < l.length) :
    ∃ t', index_set t k o = .ok t' ∧ Holds t' S (l.set k o) := by
  have he : l[k]? = some l[k] := by simp
  have hel : l[k].map Arr.shape = S := entry_shape h (List.getElem_mem hk)
  refine update_holds h ho (position_front hk) he ?_
  have hl1 : l[k].length = S.length := by rw [← hel, List.length_map]
  have hl2 : o.length = S.length := by rw [← ho, List.length_map]
  refine List.forall₂_iff_get.2 ⟨by rw [List.length_zipWith, hl1, hl2, Nat.min_self], fun c hc hc' => ?_⟩
  have hc1 : c < l[k].length := by rw [hl1, ← hl2]; exact hc'
  have hsh : (l[k][c]).shape = (o[c]).shape := by
    have := congrArg (fun l : List (List Nat) => l[c]?) (hel.trans ho.symm)
    simpa [hc1, hc'] using this
  simp only [List.get_eq_getElem, List.getElem_zipWith]
  exact ⟨hsh, fun _ _ => rfl⟩

/-- C101: adding to an entry replaces it by the sum. -/
theorem C101_index_sum_partial [Add R] {t o : Tree R} {S : List (List Nat)} {l : List (Tree R)}
    (h : Holds t S l) (ho : o.map Arr.shape = S) {k : Nat} (hk : k < l.length) :
    ∃ e, add l[k] o = .ok e ∧ ∃ t', index_sum t k o = .ok t' ∧ Holds t' S (l.set k e) := by
  have hel : l[k].map Arr.shape = S := entry_shape h (List.getElem_mem hk)
  have hl1 : l[k].length = S.length := by rw [← hel, List.length_map]
  have hl2 : o.length = S.length := by rw [← ho, List.length_map]
  refine ⟨List.zipWith (fun a b => ⟨a.shape, fun j => a.get j + b.get j⟩) l[k] o, ?_,
    update_holds h ho (position_front hk) (by simp) (forall₂_same_refl _)⟩
  unfold add treeMap2
  rw [if_pos (hl1.trans hl2.symm)]
  have : List.zipWith (fun a b => (⟨a.shape, fun j => a.get j + b.get j⟩ : Arr R)) l[k] o =
      (l[k].zip o).map fun x => (⟨x.1.shape, fun j => x.1.get j + x.2.get j⟩ : Arr R) := by
    rw [List.zip, List.map_zipWith]
  rw [this]
  refine generator.mapM_ok ?_
  intro x hx
  obtain ⟨c, hc⟩ := List.mem_iff_getElem?.1 hx
  rw [List.getElem?_zip_eq_some] at hc
  have := congrArg (fun l : List (List Nat) => l[c]?) (hel.trans ho.symm)
  simp only [List.getElem?_map, hc.1, hc.2, Option.map_some, Option.some.injEq] at this
  exact if_pos this

/-- C101 fails: an update outside the batch is dropped and does not raise. -/
theorem C101_index_set_fails {t o : Tree R} {S : List (List Nat)} {l : List (Tree R)}
    (h : Holds t S l) (ho : o.map Arr.shape = S) {i : Int} (hi : (l.length : Int) ≤ i ∨ i < -l.length) :
    ∃ t', index_set t i o = .ok t' ∧ Holds t' S l := by
  have hol : o.length = S.length := by rw [← ho, List.length_map]
  refine holds_map2 h.length hol h.lengths ?_
  intro c a b s ha hb hs
  have hA := h.arr c a s ha hs
  have hsh := hA.shape
  rw [column_length] at hsh
  have hbs : b.shape = s := by
    have := congrArg (fun l : List (List Nat) => l[c]?) ho
    simp only [List.getElem?_map, hb, hs, Option.map_some, Option.some.injEq] at this
    exact this
  refine ⟨⟨l.length :: s, a.get⟩, ?_, ?_, hA.entries, hA.get⟩
  · unfold updateAt
    rw [hsh]
    simp only [hbs, if_true, position_outside hi]
    simp
  · rw [column_length]

/-! ## Arithmetic -/

theorem zipWith_column (g : Arr R → Arr R → Arr R) (c : Nat) {n : Nat} (hc : c < n) :
    ∀ {l l' : List (Tree R)}, (∀ e ∈ l, e.length = n) → (∀ e ∈ l', e.length = n) →
    column c (List.zipWith (List.zipWith g) l l') = List.zipWith g (column c l) (column c l') := by
  intro l
  induction l with
  | nil => intro l' _ _; simp [column]
  | cons a l ih =>
    intro l' h h'
    cases l' with
    | nil => simp [column]
    | cons b l' =>
      have ha := h a (by simp)
      have hb := h' b (by simp)
      have := ih (l' := l') (fun e he => h e (by simp [he])) (fun e he => h' e (by simp [he]))
      unfold column at this ⊢
      rw [List.zipWith_cons_cons, List.map_cons, this, List.map_cons, List.map_cons, List.zipWith_cons_cons]
      simp [List.getD_eq_getElem?_getD, ha, hb, hc]

theorem arith_holds (f : R → R → R) {t o : Tree R} {S : List (List Nat)} {l l' : List (Tree R)}
    (h : Holds t S l) (h' : Holds o S l') (hl : l.length = l'.length) :
    ∃ t', treeMap2 (pointwise2 f) t o = .ok t' ∧ Holds t' S
      (List.zipWith (List.zipWith fun a b => ⟨a.shape, fun j => f (a.get j) (b.get j)⟩) l l') := by
  refine holds_map2 h.length h'.length ?_ ?_
  · intro e he
    obtain ⟨i, hi⟩ := List.mem_iff_getElem?.1 he
    obtain ⟨x, y, h1, h2, rfl⟩ := List.getElem?_zipWith_eq_some.1 hi
    rw [List.length_zipWith, h.lengths x (List.mem_of_getElem? h1), h'.lengths y (List.mem_of_getElem? h2),
      Nat.min_self]
  · intro c a b s ha hb hs
    have hA := h.arr c a s ha hs
    have hB := h'.arr c b s hb hs
    have hsa := hA.shape
    have hsb := hB.shape
    rw [column_length] at hsa hsb
    refine ⟨⟨a.shape, fun i => f (a.get i) (b.get i)⟩, if_pos (by rw [hsa, hsb, hl]), ?_⟩
    rw [zipWith_column _ c (List.getElem?_eq_some_iff.1 hs).1 h.lengths h'.lengths]
    refine ⟨?_, ?_, ?_⟩
    · simp [hsa, column_length, hl]
    · intro x hx
      obtain ⟨i, hi⟩ := List.mem_iff_getElem?.1 hx
      obtain ⟨y, z, h1, _, rfl⟩ := List.getElem?_zipWith_eq_some.1 hi
      exact hA.entries y (List.mem_of_getElem? h1)
    · intro i x hx j hj
      obtain ⟨y, z, h1, h2, rfl⟩ := List.getElem?_zipWith_eq_some.1 hx
      dsimp only
      rw [hA.get i y h1 j hj, hB.get i z h2 j hj]

/-- C101: sum and difference of two batches are those of their entries. -/
theorem C101_add_sub [Add R] [Sub R] {t o : Tree R} {S : List (List Nat)} {l l' : List (Tree R)}
    (h : Holds t S l) (h' : Holds o S l') (hl : l.length = l'.length) :
    (∃ t', add t o = .ok t' ∧ Holds t' S
      (List.zipWith (List.zipWith fun a b => ⟨a.shape, fun j => a.get j + b.get j⟩) l l')) ∧
    ∃ t', sub t o = .ok t' ∧ Holds t' S
      (List.zipWith (List.zipWith fun a b => ⟨a.shape, fun j => a.get j - b.get j⟩) l l') :=
  ⟨arith_holds _ h h' hl, arith_holds _ h h' hl⟩

theorem map_holds (f : R → R) {t : Tree R} {S : List (List Nat)} {l : List (Tree R)} (h : Holds t S l) :
    Holds (t.map fun a => ⟨a.shape, fun i => f (a.get i)⟩) S
      (l.map (List.map fun a => ⟨a.shape, fun i => f (a.get i)⟩)) where
  length := by rw [List.length_map, h.length]
  lengths := by
    intro e he
    obtain ⟨x, hx, rfl⟩ := List.mem_map.1 he
    rw [List.length_map, h.lengths x hx]
  arr := by
    intro c a s ha hs
    rw [List.getElem?_map, Option.map_eq_some_iff] at ha
    obtain ⟨a, ha, rfl⟩ := ha
    have hA := h.arr c a s ha hs
    have hcS : c < S.length := (List.getElem?_eq_some_iff.1 hs).1
    have hcol : column c (l.map (List.map fun a : Arr R => (⟨a.shape, fun i => f (a.get i)⟩ : Arr R))) =
        (column c l).map fun a => ⟨a.shape, fun i => f (a.get i)⟩ := by
      unfold column
      rw [List.map_map, List.map_map]
      refine List.map_congr_left fun e he => ?_
      have := h.lengths e he
      simp [List.getD_eq_getElem?_getD, this, hcS]
    rw [hcol]
    refine ⟨?_, ?_, ?_⟩
    · simpa using hA.shape
    · intro b hb
      obtain ⟨x, hx, rfl⟩ := List.mem_map.1 hb
      exact hA.entries x hx
    · intro i b hb j hj
      rw [List.getElem?_map, Option.map_eq_some_iff] at hb
      obtain ⟨x, hx, rfl⟩ := hb
      exact congrArg f (hA.get i x hx j hj)

/-- C101: multiples, negatives and quotients of a batch are those of its entries. -/
theorem C101_scale [Mul R] [Neg R] [Div R] {t : Tree R} {S : List (List Nat)} {l : List (Tree R)}
    (h : Holds t S l) (x : R) :
    Holds (mul t x) S (l.map fun e => mul e x) ∧ Holds (neg t) S (l.map neg) ∧
    Holds (truediv t x) S (l.map fun e => truediv e x) :=
  ⟨map_holds (· * x) h, map_holds (fun y => -y) h, map_holds (· / x) h⟩

/-! ## Operations that do not keep batches -/

/-- C101: a batch of one entry is squeezed to its entry, if that has no axis of length one. -/
theorem C101_squeeze_one {t : Tree R} {S : List (List Nat)} {e : Tree R} (h : Holds t S [e])
    (hS : ∀ s ∈ S, 1 ∉ s) : SameTree (squeeze t) e := by
  have hl : e.length = S.length := h.lengths e (by simp)
  have huns : ∀ (s i : List Nat), 1 ∉ s → InBounds s i → unsqueeze s i = i := by
    intro s
    induction s with
    | nil => intro i _ hi; cases hi; rfl
    | cons n s ih =>
      intro i hn hi
      obtain ⟨k, j, rfl, _, hj⟩ := inBounds_cons hi
      rw [List.mem_cons, not_or] at hn
      unfold unsqueeze
      rw [if_neg (fun e => hn.1 e.symm), List.tail_cons, ih j hn.2 hj]
      rfl
  refine List.forall₂_iff_get.2 ⟨by rw [squeeze, List.length_map, h.length, hl], fun c hc hc' => ?_⟩
  have hct : c < t.length := by simpa [squeeze] using hc
  have hcS : c < S.length := h.length ▸ hct
  have hA := h.arr c t[c] S[c] (by simp) (by simp)
  have hne := hS S[c] (List.getElem_mem hcS)
  have hsh : t[c].shape = 1 :: S[c] := hA.shape
  have hce : c < e.length := hl ▸ hcS
  have hes : e[c].shape = S[c] := by
    have := hA.entries (e.getD c default) (by simp [column])
    simpa [List.getD_eq_getElem?_getD, hce] using this
  have hfil : (1 :: S[c]).filter (· ≠ 1) = S[c] := by
    rw [List.filter_cons_of_neg (by simp), List.filter_eq_self]
    intro a ha
    simp only [ne_eq, decide_eq_true_eq]
    exact fun e => hne (e ▸ ha)
  simp only [squeeze, List.get_eq_getElem, List.getElem_map]
  refine ⟨?_, ?_⟩
  · show (squeezeArr t[c]).shape = _
    unfold squeezeArr
    rw [hsh, hfil, hes]
  · intro i hi
    have hi' : InBounds S[c] i := by
      have : (squeezeArr t[c]).shape = S[c] := by
        unfold squeezeArr
        rw [hsh, hfil]
      rwa [this] at hi
    show t[c].get (unsqueeze t[c].shape i) = _
    rw [hsh]
    unfold unsqueeze
    rw [if_pos rfl, huns _ _ hne hi']
    have := hA.get 0 (e.getD c default) (by simp [column]) i hi'
    simpa [List.getD_eq_getElem?_getD, hce] using this

/-- the shapes of the arrays of a transform -/
def transformShapes : List (List Nat) := [[3], [4]]

theorem transform_arrays {t : Tree R} {l : List (Tree R)} (h : Holds t transformShapes l) :
    ∃ p q, t = [p, q] ∧ p.shape = [l.length, 3] ∧ q.shape = [l.length, 4] := by
  have hl : t.length = 2 := h.length
  obtain ⟨p, q, rfl⟩ := List.length_eq_two.1 hl
  refine ⟨p, q, rfl, ?_, ?_⟩
  · have := (h.arr 0 p [3] rfl rfl).shape
    rwa [column_length] at this
  · have := (h.arr 1 q [4] rfl rfl).shape
    rwa [column_length] at this

/-- C101 fails: `T` of a batch of transforms has no length any more. -/
theorem C101_T_fails {t : Tree R} {l : List (Tree R)} (h : Holds t transformShapes l) :
    len (transposeAll t) = .error .assertion := by
  obtain ⟨p, q, rfl, hp, hq⟩ := transform_arrays h
  unfold len shapeOf transposeAll
  simp only [List.map_cons, List.map_nil, hp, hq]
  rfl

/-- C101 fails: squeezing a batch of one transform leaves something without a length. -/
theorem C101_squeeze_fails {t : Tree R} {e : Tree R} (h : Holds t transformShapes [e]) :
    len (squeeze t) = .error .assertion ∧ len (squeeze_1d t) = .error .assertion := by
  obtain ⟨p, q, rfl, hp, hq⟩ := transform_arrays h
  have hp' : p.shape = [1, 3] := hp
  have hq' : q.shape = [1, 4] := hq
  constructor
  · unfold len shapeOf squeeze squeezeArr
    simp only [List.map_cons, List.map_nil, hp', hq']
    rfl
  · unfold len shapeOf squeeze_1d squeezeArr atleast_1d
    simp only [List.map_cons, List.map_nil, hp', hq']
    rfl

/-- C101 fails: a batch of transforms cannot be reshaped to any given shape. -/
theorem C101_reshape_fails {t : Tree R} {l : List (Tree R)} (h : Holds t transformShapes l) (hl : l ≠ [])
    (shape : List Nat) : reshape t shape = .error .type := by
  obtain ⟨p, q, rfl, hp, hq⟩ := transform_arrays h
  have hpos : 0 < l.length := List.length_pos_iff.2 hl
  unfold reshape
  rw [List.mapM_cons, List.mapM_cons]
  by_cases h3 : p.shape.prod = shape.prod
  · have h4 : ¬ q.shape.prod = shape.prod := by
      rw [← h3, hp, hq]
      simp
      omega
    rw [if_pos h3, if_neg h4]
    rfl
  · rw [if_neg h3]
    rfl

/-- C101 fails: `hstack` of two batches of transforms puts positions beside positions, the result holds no
transforms. -/
theorem C101_hstack_fails {t o : Tree R} {l l' : List (Tree R)} (h : Holds t transformShapes l)
    (h' : Holds o transformShapes l') (hl : l.length = l'.length) :
    ∃ p q, hstack t [o] = .ok [p, q] ∧ p.shape = [l.length, 6] ∧ q.shape = [l.length, 8] := by
  obtain ⟨p, q, rfl, hp, hq⟩ := transform_arrays h
  obtain ⟨p', q', rfl, hp', hq'⟩ := transform_arrays h'
  rw [← hl] at hp' hq'
  have key : ∀ (a b : Arr R) (m : Nat), a.shape = [l.length, m] → b.shape = [l.length, m] →
      ∃ r, hstackArr [a, b] = .ok r ∧ r.shape = [l.length, m + m] := by
    intro a b m ha hb
    have e1 : atleast_1d a = a := if_neg (by rw [ha]; simp)
    have e2 : atleast_1d b = b := if_neg (by rw [hb]; simp)
    have s1 : (swapAxes a).shape = [m, l.length] := by unfold swapAxes; rw [ha]
    have s2 : (swapAxes b).shape = [m, l.length] := by unfold swapAxes; rw [hb]
    have hc : concatFirst [swapAxes a, swapAxes b] = .ok ⟨[m + m, l.length],
        fun j => pickFirst [swapAxes a, swapAxes b] (j.headD 0) j.tail⟩ := by
      unfold concatFirst
      dsimp only
      rw [if_pos (by simp [s1, s2])]
      simp [s1, s2]
    refine ⟨swapAxes ⟨[m + m, l.length], fun j => pickFirst [swapAxes a, swapAxes b] (j.headD 0) j.tail⟩,
      ?_, rfl⟩
    unfold hstackArr
    simp only [List.map_cons, List.map_nil, e1, e2, List.head?_cons, Option.map_some, ha]
    rw [if_neg (by simp)]
    unfold concatSecond
    rw [if_pos (by simp [ha, hb])]
    simp only [List.map_cons, List.map_nil, hc]
    rfl
  obtain ⟨r1, h1, h2⟩ := key p p' 3 hp hp'
  obtain ⟨r2, h3, h4⟩ := key q q' 4 hq hq'
  refine ⟨r1, r2, ?_, h2, h4⟩
  have e : hstack [p, q] [[p', q']] = (do
      let a ← hstackArr [p, p']
      let b ← hstackArr [q, q']
      pure [a, b]) := by
    unfold hstack treeMapN
    dsimp only
    rw [if_pos (by simp)]
    simp [List.range_succ]
  rw [e, h1, ok_bind, h3, ok_bind]
  rfl

/-- C101: values cannot be iterated over. -/
theorem C101_iter (t : Tree R) : iter t = .error .notImplemented := rfl

/-! ## Creation -/

/-- C101: a created transform has the given arrays, the missing one being zero positions or unit
quaternions of the same batch shape; given arrays of different batch shapes raise, and so does giving
none. -/
theorem C101_transform_create [Zero R] [One R] (p q : Arr R) :
    (∃ q', transformCreate (some p) none = .ok [p, q'] ∧ q'.shape = p.shape.dropLast ++ [4] ∧
      ∀ i k, q'.get (i ++ [k]) = if k = 0 then 1 else 0) ∧
    (∃ p', transformCreate none (some q) = .ok [p', q] ∧ p'.shape = q.shape.dropLast ++ [3] ∧
      ∀ i, p'.get i = 0) ∧
    (p.shape.dropLast = q.shape.dropLast → transformCreate (some p) (some q) = .ok [p, q]) ∧
    (p.shape.dropLast ≠ q.shape.dropLast →
      transformCreate (some p) (some q) = .error .assertion) ∧
    transformCreate (R := R) none none = .error .assertion := by
  refine ⟨⟨unitQuats p.shape.dropLast, ?_, rfl, ?_⟩, ⟨zeros3 q.shape.dropLast, ?_, rfl, fun _ => rfl⟩,
    ?_, ?_, rfl⟩
  · simp [transformCreate, pyAssert, unitQuats, bind, Except.bind, pure, Except.pure]
  · intro i k
    simp [unitQuats]
  · simp [transformCreate, pyAssert, zeros3, bind, Except.bind, pure, Except.pure]
  · intro h
    simp [transformCreate, pyAssert, h, bind, Except.bind, pure, Except.pure]
  · intro h
    simp [transformCreate, pyAssert, h, bind, Except.bind]

/-- C101: a created motion or force has the given arrays, and zero for a missing one. -/
theorem C101_motion_create [Zero R] (w v : Arr R) :
    motionCreate (some w) (some v) = .ok [w, v] ∧
    (∃ v', motionCreate (some w) none = .ok [w, v'] ∧ v'.shape = [3] ∧ ∀ i, v'.get i = 0) ∧
    (∃ w', motionCreate none (some v) = .ok [w', v] ∧ w'.shape = [3] ∧ ∀ i, w'.get i = 0) ∧
    motionCreate (R := R) none none = .error .assertion :=
  ⟨rfl, ⟨zeros3 [], rfl, rfl, fun _ => rfl⟩, ⟨zeros3 [], rfl, rfl, fun _ => rfl⟩, rfl⟩

/-- C101 fails: a motion created from a batch of angular velocities alone is no batch. -/
theorem C101_motion_create_fails [Zero R] {w : Arr R} {n : Nat} (hw : w.shape = [n, 3]) (hn : n ≠ 3) :
    ∃ t, motionCreate (some w) none = .ok t ∧ len t = .error .assertion := by
  refine ⟨_, rfl, ?_⟩
  have e : [w, zeros3 (R := R) []].mapM (fun a => pyGet a.shape (0 : Nat)) = .ok [n, 3] := by
    simp only [List.mapM_cons, List.mapM_nil, hw]
    rfl
  show len [w, zeros3 []] = _
  unfold len shapeOf
  rw [e, ok_bind]
  have : ([n, 3] : List Nat).dedup = [n, 3] := List.dedup_eq_self.2 (by simp [hn])
  rw [this]

/-! ## Example -/

/-- a transform that moves along x -/
def moveX (x : Int) : Tree Int :=
  [⟨[3], fun i => if i = [0] then x else 0⟩, ⟨[4], fun i => if i = [0] then 1 else 0⟩]

/-- Two transforms are batched, the last is taken, and one more is set. -/
example : ∃ t, batch (moveX 1) [moveX 2] = .ok t ∧ Holds t transformShapes [moveX 1, moveX 2] ∧
    len t = .ok 2 ∧ (∃ e, take 0 t (-1) = .ok e ∧ SameTree e (moveX 2)) ∧
    ∃ t', index_set t 0 (moveX 7) = .ok t' ∧ Holds t' transformShapes [moveX 7, moveX 2] := by
  obtain ⟨t, h1, h2⟩ := C101_batch (e := moveX 1) (es := [moveX 2]) (S := transformShapes) (by
    intro o ho
    simp only [List.mem_cons, List.not_mem_nil, or_false] at ho
    rcases ho with rfl | rfl <;> rfl)
  refine ⟨t, h1, h2, C101_len h2 (by simp [transformShapes]),
    C101_take_partial 0 h2 (k := 1) (Or.inr ⟨rfl, by simp⟩) rfl, ?_⟩
  exact C101_index_set_partial h2 (o := moveX 7) rfl (k := 0) (by simp)

end RingLib.base
