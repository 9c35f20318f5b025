import Verif.Model.Hdf5
import Verif.Props.Files

/-!
# C50 and C51: hdf5 files
-/

namespace RingLib
namespace hdf5
open System
variable {α ρ : Type}

/-! ## C50 -/

/-- Two trees with the same structure and the same leaves at the same places. For dictionaries the
order of the items plays no role; named tuples have the same fields in the same order. -/
inductive Same : PyTree α → PyTree α → Prop
  | arr (a : α) : Same (.arr a) (.arr a)
  | list {l l' : List (PyTree α)} (hlen : l.length = l'.length)
      (h : ∀ (i : Nat) (t t' : PyTree α), l[i]? = some t → l'[i]? = some t' → Same t t') :
      Same (.list l) (.list l')
  | tuple {l l' : List (PyTree α)} (hlen : l.length = l'.length)
      (h : ∀ (i : Nat) (t t' : PyTree α), l[i]? = some t → l'[i]? = some t' → Same t t') :
      Same (.tuple l) (.tuple l')
  | dict {d d' : List (String × PyTree α)} (hkeys : (d.map Prod.fst).Perm (d'.map Prod.fst))
      (h : ∀ (k : String) (t t' : PyTree α), (k, t) ∈ d → (k, t') ∈ d' → Same t t') :
      Same (.dict d) (.dict d')
  | ntuple {name : String} {f f' : List (String × PyTree α)}
      (hkeys : f.map Prod.fst = f'.map Prod.fst)
      (h : ∀ (k : String) (t t' : PyTree α), (k, t) ∈ f → (k, t') ∈ f' → Same t t') :
      Same (.ntuple name f) (.ntuple name f')

/-- The trees that survive: nothing but arrays as leaves, at most ten elements per list or tuple,
distinct keys, and named tuples with fields in alphabetical order. -/
inductive Savable : PyTree α → Prop
  | arr (a : α) : Savable (.arr a)
  | list {l : List (PyTree α)} (hlen : l.length ≤ 10) (h : ∀ t ∈ l, Savable t) : Savable (.list l)
  | tuple {l : List (PyTree α)} (hlen : l.length ≤ 10) (h : ∀ t ∈ l, Savable t) :
      Savable (.tuple l)
  | dict {d : List (String × PyTree α)} (hnd : (d.map Prod.fst).Nodup)
      (h : ∀ k t, (k, t) ∈ d → Savable t) : Savable (.dict d)
  | ntuple {name : String} {f : List (String × PyTree α)} (hnd : (f.map Prod.fst).Nodup)
      (hname : name ≠ "dict" ∧ name ≠ "list" ∧ name ≠ "tuple")
      (hsorted : (f.map Prod.fst).Pairwise (· ≤ ·))
      (h : ∀ k t, (k, t) ∈ f → Savable t) : Savable (.ntuple name f)

/-- what is shown for a tree -/
def Survives (t : PyTree α) : Prop :=
  ∃ h, _savetree t = .ok h ∧ ∃ t', _lazy_tree_map .ok h = .ok t' ∧ Same t t'

theorem saveSeq_ok : ∀ (l : List (PyTree α)) (k : Nat), (∀ t ∈ l, Survives t) →
    ∃ hs, saveSeq k l = .ok hs ∧ ∃ ts, mapItems .ok hs = .ok ts ∧
      ts.map Prod.fst = (List.range l.length).map (fun i : Nat => "arr" ++ toString (k + i)) ∧
      ∀ (i : Nat) (t t' : PyTree α), l[i]? = some t → (ts.map Prod.snd)[i]? = some t' →
        Same t t' := by
  intro l
  induction l with
  | nil =>
    intro k _
    refine ⟨[], by rw [saveSeq], [], by rw [mapItems], rfl, ?_⟩
    intro i t t' h; simp at h
  | cons a as ih =>
    intro k hl
    obtain ⟨h, h1, t', h2, h3⟩ := hl a (by simp)
    obtain ⟨hs, i1, ts, i2, i3, i4⟩ := ih (k + 1) (fun t ht => hl t (by simp [ht]))
    refine ⟨("arr" ++ toString k, h) :: hs, ?_, ("arr" ++ toString k, t') :: ts, ?_, ?_, ?_⟩
    · rw [saveSeq, h1, ok_bind, i1, ok_bind]
    · rw [mapItems, h2, ok_bind, i2, ok_bind]
    · rw [List.map_cons, i3, List.length_cons, List.range_succ_eq_map, List.map_cons, List.map_map]
      congr 1
      apply List.map_congr_left
      intro i _
      show "arr" ++ toString (k + 1 + i) = "arr" ++ toString (k + (i + 1))
      rw [show k + 1 + i = k + (i + 1) by omega]
    · intro i t u ht hu
      cases i with
      | zero =>
        simp at ht hu
        subst ht; subst hu; exact h3
      | succ i => exact i4 i t u (by simpa using ht) (by simpa using hu)

theorem saveDict_ok : ∀ (d : List (String × PyTree α)), (∀ k t, (k, t) ∈ d → Survives t) →
    ∃ hs, saveDict d = .ok hs ∧ ∃ ts, mapItems .ok hs = .ok ts ∧
      ts.map Prod.fst = d.map Prod.fst ∧
      ((d.map Prod.fst).Nodup → ∀ k t t', (k, t) ∈ d → (k, t') ∈ ts → Same t t') := by
  intro d
  induction d with
  | nil =>
    intro _
    refine ⟨[], by rw [saveDict], [], by rw [mapItems], rfl, ?_⟩
    intro _ k t t' h; simp at h
  | cons a as ih =>
    obtain ⟨k, a⟩ := a
    intro hl
    obtain ⟨h, h1, t', h2, h3⟩ := hl k a (by simp)
    obtain ⟨hs, i1, ts, i2, i3, i4⟩ := ih (fun k t ht => hl k t (by simp [ht]))
    refine ⟨(k, h) :: hs, ?_, (k, t') :: ts, ?_, by simp [i3], ?_⟩
    · rw [saveDict, h1, ok_bind, i1, ok_bind]
    · rw [mapItems, h2, ok_bind, i2, ok_bind]
    · intro hnd k' t u ht hu
      rw [List.map_cons, List.nodup_cons] at hnd
      rcases List.mem_cons.1 ht with e1 | e1 <;> rcases List.mem_cons.1 hu with e2 | e2
      · cases e1; cases e2; exact h3
      · cases e1
        have := List.mem_map_of_mem (f := Prod.fst) e2
        rw [i3] at this
        exact absurd this hnd.1
      · cases e2
        exact absurd (List.mem_map_of_mem (f := Prod.fst) e1) hnd.1
      · exact i4 hnd.2 k' t u e1 e2

theorem byName_sorted {β : Type} {items : List (String × β)}
    (h : (items.map Prod.fst).Pairwise (· ≤ ·)) : byName items = items := by
  unfold byName
  apply List.Pairwise.insertionSort_eq
  exact List.pairwise_map.1 h

theorem arr_sorted (n : Nat) (hn : n ≤ 10) :
    ((List.range n).map fun i : Nat => "arr" ++ toString (0 + i)).Pairwise (· ≤ ·) := by
  have h10 : ((List.range 10).map fun i : Nat => "arr" ++ toString (0 + i)).Pairwise (· ≤ ·) := by
    decide
  exact h10.sublist ((List.range_sublist.2 hn).map _)

/-- every tree that is `Savable` survives -/
theorem survives {t : PyTree α} (ht : Savable t) : Survives t := by
  induction ht with
  | arr a => exact ⟨.dataset a, by rw [_savetree], .arr a, by rw [_lazy_tree_map]; rfl, .arr a⟩
  | @list l hlen _ ih =>
    obtain ⟨hs, h1, ts, h2, h3, h4⟩ := saveSeq_ok l 0 ih
    refine ⟨.group "list" hs, by rw [_savetree, h1, ok_bind], .list (ts.map Prod.snd), ?_, ?_⟩
    · rw [_lazy_tree_map, h2, ok_bind, byName_sorted (by rw [h3]; exact arr_sorted _ hlen)]
      rfl
    · refine .list ?_ h4
      have := congrArg List.length h3
      simpa using this.symm
  | @tuple l hlen _ ih =>
    obtain ⟨hs, h1, ts, h2, h3, h4⟩ := saveSeq_ok l 0 ih
    refine ⟨.group "tuple" hs, by rw [_savetree, h1, ok_bind], .tuple (ts.map Prod.snd), ?_, ?_⟩
    · rw [_lazy_tree_map, h2, ok_bind, byName_sorted (by rw [h3]; exact arr_sorted _ hlen)]
      rfl
    · refine .tuple ?_ h4
      have := congrArg List.length h3
      simpa using this.symm
  | @dict d hnd _ ih =>
    obtain ⟨hs, h1, ts, h2, h3, h4⟩ := saveDict_ok d ih
    refine ⟨.group "dict" hs, by rw [_savetree, h1, ok_bind], .dict (byName ts), ?_, ?_⟩
    · rw [_lazy_tree_map, h2, ok_bind]
      rfl
    · have hp := List.perm_insertionSort (fun x y : String × PyTree α => x.1 ≤ y.1) ts
      refine .dict ?_ ?_
      · rw [← h3]
        exact (hp.map Prod.fst).symm
      · intro k t t' ht ht'
        exact h4 hnd k t t' ht (hp.subset ht')
  | @ntuple name f hnd hname hsorted _ ih =>
    obtain ⟨hs, h1, ts, h2, h3, h4⟩ := saveDict_ok f ih
    refine ⟨.group name hs, by rw [_savetree, h1, ok_bind], .ntuple name ts, ?_, ?_⟩
    · rw [_lazy_tree_map, h2, ok_bind, byName_sorted (by rw [h3]; exact hsorted)]
      unfold ofGroup
      rw [if_neg hname.1, if_neg hname.2.1, if_neg hname.2.2]
    · exact .ntuple h3.symm (fun k t t' => h4 hnd k t t')

/-- C50, partially: a tree is loaded as it was saved. Missing: lists and tuples with more than ten
elements, see `C50_order_fails`, and named tuples whose fields are not in alphabetical order, see
`C50_fields_fails`. -/
theorem C50_partial {fs fs' : FS (Content α)} {path : FPath} {t : PyTree α} {ow : Bool}
    (ht : Savable t) (h : save fs path t ow = (.ok (), fs')) :
    ∃ t', load fs' path = .ok t' ∧ Same t t' := by
  obtain ⟨h5, h1, t', h2, h3⟩ := survives ht
  refine ⟨t', ?_, h3⟩
  unfold save at h
  rcases hp : _parse_path fs path "h5" ow with e | p
  · rw [hp] at h; cases h
  · rw [hp] at h
    dsimp only at h
    have hw : path.with_suffix (utils.dotted "h5") = .ok p := by
      unfold _parse_path at hp
      rcases hw : path.with_suffix (utils.dotted "h5") with e | p'
      · rw [hw] at hp; cases hp
      · rw [hw, ok_bind] at hp
        split at hp
        · cases hp
        · rw [Except.ok.inj hp]
    rcases hwr : fs.write p none with ⟨r, fs1⟩
    rw [hwr, h1] at h
    cases r with
    | error e => cases h
    | ok u =>
      cases h
      unfold load _parse_path
      rw [hw]
      simp only [ok_bind]
      rw [if_neg (by simp), ok_bind]
      simp only [FS.set, if_true]
      exact h2

/-- C50: a tree with anything else than arrays as leaves is refused. -/
theorem C50_rejected {t : PyTree α} {fs fs' : FS (Content α)} {path : FPath} {ow : Bool} {r : Py Unit}
    (h : _savetree t = .error .value) (hs : save fs path t ow = (r, fs')) : r ≠ .ok () := by
  rintro rfl
  unfold save at hs
  rcases hp : _parse_path fs path "h5" ow with e | p
  · rw [hp] at hs; cases hs
  · rw [hp] at hs
    dsimp only at hs
    rcases hwr : fs.write p none with ⟨r, fs1⟩
    rw [hwr, h] at hs
    cases r <;> cases hs

example : _savetree (.dict [("a", .arr 1), ("b", .list [.other])] : PyTree Nat) = .error .value := by
  rfl

/-- C50 fails for long lists: the eleventh element is loaded as the third. -/
theorem C50_order_fails :
    (_savetree (.list ((List.range 11).map PyTree.arr) : PyTree Nat)).bind (_lazy_tree_map .ok) =
      .ok (.list ([0, 1, 10, 2, 3, 4, 5, 6, 7, 8, 9].map PyTree.arr)) := by
  rfl

/-- C50 fails for named tuples: the fields are loaded in alphabetical order, so that positions change. -/
theorem C50_fields_fails :
    (_savetree (.ntuple "Point" [("y", .arr 1), ("x", .arr 2)] : PyTree Nat)).bind
      (_lazy_tree_map .ok) = .ok (.ntuple "Point" [("x", .arr 2), ("y", .arr 1)]) := by
  rfl

/-- a batch of training data -/
def exTree : PyTree Nat :=
  .tuple [.dict [("seg3", .dict [("gyr", .arr 1), ("acc", .arr 2)]), ("dt", .arr 3)],
    .list [.arr 4, .tuple [], .ntuple "State" [("q", .arr 5), ("qd", .arr 6)]]]

example : Savable exTree := by
  refine .tuple (by decide) ?_
  intro t ht
  simp at ht
  rcases ht with rfl | rfl
  · refine .dict (by decide) ?_
    intro k t ht
    simp at ht
    rcases ht with ⟨rfl, rfl⟩ | ⟨rfl, rfl⟩
    · refine .dict (by decide) ?_
      intro k t ht
      simp at ht
      rcases ht with ⟨rfl, rfl⟩ | ⟨rfl, rfl⟩ <;> exact .arr _
    · exact .arr _
  · refine .list (by decide) ?_
    intro t ht
    simp at ht
    rcases ht with rfl | rfl | rfl
    · exact .arr _
    · exact .tuple (by decide) (by simp)
    · refine .ntuple (by decide) (by decide) (by decide) ?_
      intro k t ht
      simp at ht
      rcases ht with ⟨rfl, rfl⟩ | ⟨rfl, rfl⟩ <;> exact .arr _

example : ∃ fs', save (fun _ => none) ⟨false, ["batch"]⟩ exTree false = (.ok (), fs') ∧
    (fs' ⟨false, ["batch.h5"]⟩).isSome = true := ⟨_, rfl, rfl⟩

/-- C52: saving an hdf5 file without permission to overwrite leaves everything that existed as it was;
a file that is created has a name ending in `.h5`. -/
theorem C52_hdf5 {fs fs' : FS (Content α)} {path : FPath} {t : PyTree α} {r : Py Unit}
    (h : save fs path t false = (r, fs')) :
    (∀ q n, fs q = some n → fs' q = some n) ∧
    ∀ q, fs' q ≠ fs q → fs q = none ∧ q.parent = path.parent ∧
      q.name.toList = FPath.stem path.name.toList ++ ".h5".toList := by
  unfold save at h
  rcases hp : _parse_path fs path "h5" false with e | p
  · rw [hp] at h; cases h
    exact ⟨fun _ _ h => h, fun q h => absurd rfl h⟩
  · rw [hp] at h
    dsimp only at h
    have hw : path.with_suffix (utils.dotted "h5") = .ok p ∧ fs.exists? p = false := by
      unfold _parse_path at hp
      rcases hw : path.with_suffix (utils.dotted "h5") with e | p'
      · rw [hw] at hp; cases hp
      · rw [hw, ok_bind] at hp
        split at hp
        · cases hp
        · rename_i hex
          rw [Except.ok.inj hp] at hex ⊢
          exact ⟨rfl, by simpa using hex⟩
    have hnone : fs p = none := by
      have := hw.2
      unfold FS.exists? at this
      simp at this
      exact this.2
    obtain ⟨w1, w2, w3⟩ := FPath.with_suffix_ok hw.1
    have hpq : p.parent = path.parent ∧
        p.name.toList = FPath.stem path.name.toList ++ ".h5".toList := by
      refine ⟨?_, ?_⟩
      · rw [w2, FPath.parent_append]; rfl
      · rw [w3]; congr 1
    have key : ∀ n : Node (Content α), (∀ q m, fs q = some m → (fs.set p n) q = some m) ∧
        ∀ q, (fs.set p n) q ≠ fs q → fs q = none ∧ q.parent = path.parent ∧
          q.name.toList = FPath.stem path.name.toList ++ ".h5".toList := by
      intro n
      constructor
      · intro q m hq
        have : q ≠ p := by rintro rfl; rw [hnone] at hq; cases hq
        simp [FS.set, this, hq]
      · intro q hq
        have : q = p := by
          by_contra hc
          simp [FS.set, hc] at hq
        subst this
        exact ⟨hnone, hpq⟩
    by_cases hwr : fs.isDir p = true ∨ fs.isDir p.parent = false
    · have : fs.write p none = (.error .other, fs) := by rw [FS.write, if_pos hwr]
      rw [this] at h
      cases h
      exact ⟨fun _ _ h => h, fun q h => absurd rfl h⟩
    · have : fs.write p none = (.ok (), fs.set p (.file none)) := by rw [FS.write, if_neg hwr]
      rw [this] at h
      dsimp only at h
      rcases hs : _savetree t with e | h5
      · rw [hs] at h; cases h
        exact key _
      · rw [hs] at h; cases h
        have : ((fs.set p (.file none)).set p (.file (some h5))) = fs.set p (.file (some h5)) := by
          funext q
          unfold FS.set
          split <;> rfl
        rw [this]
        exact key _

end hdf5
end RingLib
