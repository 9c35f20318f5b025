import Verif.Model.Hdf5Trees
import Verif.Props.Multi

/-!
# C51 for trees of arrays in several files
-/

namespace RingLib
namespace hdf5
namespace Trees
open System
variable {α β ρ : Type}

/-- the structure of a tree without its arrays -/
def shape (t : PyTree α) : PyTree Unit := treeMap (fun _ => ()) t

mutual
theorem leaves_treeMap (g : α → β) : ∀ t : PyTree α, leaves (treeMap g t) = (leaves t).map g
  | .arr a => by simp [treeMap, leaves]
  | .list l => by simp [treeMap, leaves, leaves_treeMapList g l]
  | .tuple l => by simp [treeMap, leaves, leaves_treeMapList g l]
  | .dict d => by simp [treeMap, leaves, leaves_treeMapItems g d]
  | .ntuple _ d => by simp [treeMap, leaves, leaves_treeMapItems g d]
  | .other => by simp [treeMap, leaves]
theorem leaves_treeMapList (g : α → β) : ∀ l : List (PyTree α),
    leavesList (treeMapList g l) = (leavesList l).map g
  | [] => by simp [treeMapList, leavesList]
  | t :: ts => by simp [treeMapList, leavesList, leaves_treeMap g t, leaves_treeMapList g ts]
theorem leaves_treeMapItems (g : α → β) : ∀ l : List (String × PyTree α),
    leavesItems (treeMapItems g l) = (leavesItems l).map g
  | [] => by simp [treeMapItems, leavesItems]
  | (_, t) :: ts => by simp [treeMapItems, leavesItems, leaves_treeMap g t, leaves_treeMapItems g ts]
end

mutual
theorem treeMap_treeMap {γ : Type} (g : α → β) (f : β → γ) : ∀ t : PyTree α,
    treeMap f (treeMap g t) = treeMap (fun a => f (g a)) t
  | .arr a => by simp [treeMap]
  | .list l => by simp [treeMap, treeMapList_treeMapList g f l]
  | .tuple l => by simp [treeMap, treeMapList_treeMapList g f l]
  | .dict d => by simp [treeMap, treeMapItems_treeMapItems g f d]
  | .ntuple _ d => by simp [treeMap, treeMapItems_treeMapItems g f d]
  | .other => by simp [treeMap]
theorem treeMapList_treeMapList {γ : Type} (g : α → β) (f : β → γ) : ∀ l : List (PyTree α),
    treeMapList f (treeMapList g l) = treeMapList (fun a => f (g a)) l
  | [] => by simp [treeMapList]
  | t :: ts => by simp [treeMapList, treeMap_treeMap g f t, treeMapList_treeMapList g f ts]
theorem treeMapItems_treeMapItems {γ : Type} (g : α → β) (f : β → γ) :
    ∀ l : List (String × PyTree α),
    treeMapItems f (treeMapItems g l) = treeMapItems (fun a => f (g a)) l
  | [] => by simp [treeMapItems]
  | (_, t) :: ts => by simp [treeMapItems, treeMap_treeMap g f t, treeMapItems_treeMapItems g f ts]
end

theorem shape_treeMap (g : α → β) (t : PyTree α) : shape (treeMap g t) = shape t := by
  unfold shape; rw [treeMap_treeMap]

mutual
theorem leaves_length : ∀ {a : PyTree α} {b : PyTree β}, treeMap (fun _ => ()) a = treeMap (fun _ => ()) b →
    (leaves a).length = (leaves b).length := by
  intro a b h
  have := congrArg (fun t => (leaves t).length) h
  simpa [leaves_treeMap] using this
theorem leavesList_length : ∀ {a : List (PyTree α)} {b : List (PyTree β)},
    treeMapList (fun _ => ()) a = treeMapList (fun _ => ()) b →
    (leavesList a).length = (leavesList b).length := by
  intro a b h
  have := congrArg (fun t => (leavesList t).length) h
  simpa [leaves_treeMapList] using this
end

mutual
/-- a tree is given by its structure and its leaves -/
theorem tree_ext : ∀ a b : PyTree α, treeMap (fun _ => ()) a = treeMap (fun _ => ()) b →
    leaves a = leaves b → a = b
  | .arr a, b => by cases b <;> simp [treeMap, leaves]
  | .list l, b => by
    cases b <;> simp only [treeMap, leaves, reduceCtorEq, false_imp_iff, PyTree.list.injEq]
    exact tree_ext_list _ _
  | .tuple l, b => by
    cases b <;> simp only [treeMap, leaves, reduceCtorEq, false_imp_iff, PyTree.tuple.injEq]
    exact tree_ext_list _ _
  | .dict l, b => by
    cases b <;> simp only [treeMap, leaves, reduceCtorEq, false_imp_iff, PyTree.dict.injEq]
    exact tree_ext_items _ _
  | .ntuple n l, b => by
    cases b <;> simp only [treeMap, leaves, reduceCtorEq, false_imp_iff, PyTree.ntuple.injEq]
    rintro ⟨h1, h2⟩ h3
    exact ⟨h1, tree_ext_items _ _ h2 h3⟩
  | .other, b => by cases b <;> simp [treeMap, leaves]
theorem tree_ext_list : ∀ a b : List (PyTree α),
    treeMapList (fun _ => ()) a = treeMapList (fun _ => ()) b → leavesList a = leavesList b → a = b
  | [], b => by cases b <;> simp [treeMapList]
  | t :: ts, b => by
    cases b with
    | nil => simp [treeMapList]
    | cons u us =>
      simp only [treeMapList, leavesList, List.cons.injEq]
      rintro ⟨h1, h2⟩ h3
      have h4 := List.append_inj h3 (leaves_length h1)
      exact ⟨tree_ext _ _ h1 h4.1, tree_ext_list _ _ h2 h4.2⟩
theorem tree_ext_items : ∀ a b : List (String × PyTree α),
    treeMapItems (fun _ => ()) a = treeMapItems (fun _ => ()) b → leavesItems a = leavesItems b → a = b
  | [], b => by
    cases b with
    | nil => simp
    | cons u us => obtain ⟨m, u⟩ := u; simp [treeMapItems]
  | (k, t) :: ts, b => by
    cases b with
    | nil => simp [treeMapItems]
    | cons u us =>
      obtain ⟨m, u⟩ := u
      simp only [treeMapItems, leavesItems, List.cons.injEq, Prod.mk.injEq]
      rintro ⟨⟨h0, h1⟩, h2⟩ h3
      have h4 := List.append_inj h3 (leaves_length h1)
      exact ⟨⟨h0, tree_ext _ _ h1 h4.1⟩, tree_ext_items _ _ h2 h4.2⟩
end

/-! ## loading -/

theorem bind_eq_ok {β γ : Type} {x : Py β} {f : β → Py γ} {r : γ} :
    (x >>= f) = .ok r ↔ ∃ b, x = .ok b ∧ f b = .ok r := by
  cases x with
  | error e => constructor
               · intro h; cases h
               · rintro ⟨b, h, _⟩; cases h
  | ok b => simp [ok_bind]

theorem treeMapItems_eq (g : α → β) (l : List (String × PyTree α)) :
    treeMapItems g l = l.map fun x => (x.1, treeMap g x.2) := by
  induction l with
  | nil => simp [treeMapItems]
  | cons x xs ih => obtain ⟨k, t⟩ := x; simp [treeMapItems, ih]

theorem treeMapList_eq (g : α → β) (l : List (PyTree α)) : treeMapList g l = l.map (treeMap g) := by
  induction l with
  | nil => simp [treeMapList]
  | cons x xs ih => simp [treeMapList, ih]

theorem mem_leavesItems {a : α} {l : List (String × PyTree α)} :
    a ∈ leavesItems l ↔ ∃ x ∈ l, a ∈ leaves x.2 := by
  induction l with
  | nil => simp [leavesItems]
  | cons x xs ih => obtain ⟨k, t⟩ := x; simp [leavesItems, ih]

theorem mem_leavesList {a : α} {l : List (PyTree α)} :
    a ∈ leavesList l ↔ ∃ x ∈ l, a ∈ leaves x := by
  induction l with
  | nil => simp [leavesList]
  | cons x xs ih => simp [leavesList, ih]

theorem mem_leaves_ofGroup {a : α} {type : String} {items : List (String × PyTree α)} :
    a ∈ leaves (ofGroup type items) ↔ ∃ x ∈ items, a ∈ leaves x.2 := by
  unfold ofGroup
  split_ifs
  · rw [leaves, mem_leavesItems]
  · rw [leaves, mem_leavesList]
    constructor
    · rintro ⟨x, hx, h⟩
      obtain ⟨y, hy, rfl⟩ := List.mem_map.1 hx
      exact ⟨y, hy, h⟩
    · rintro ⟨y, hy, h⟩
      exact ⟨y.2, List.mem_map_of_mem hy, h⟩
  · rw [leaves, mem_leavesList]
    constructor
    · rintro ⟨x, hx, h⟩
      obtain ⟨y, hy, rfl⟩ := List.mem_map.1 hx
      exact ⟨y, hy, h⟩
    · rintro ⟨y, hy, h⟩
      exact ⟨y.2, List.mem_map_of_mem hy, h⟩
  · rw [leaves, mem_leavesItems]

theorem treeMap_ofGroup (g : α → β) (type : String) (items : List (String × PyTree α)) :
    treeMap g (ofGroup type items) = ofGroup type (items.map fun x => (x.1, treeMap g x.2)) := by
  unfold ofGroup
  split_ifs <;> simp [treeMap, treeMapItems_eq, treeMapList_eq]

theorem byName_map {γ : Type} (f : β → γ) (l : List (String × β)) :
    byName (l.map fun x => (x.1, f x.2)) = (byName l).map fun x => (x.1, f x.2) := by
  unfold byName
  exact (List.map_insertionSort (r := fun x y : String × β => x.1 ≤ y.1)
    (s := fun x y : String × γ => x.1 ≤ y.1) (fun x : String × β => (x.1, f x.2)) l
    (by intro a _ b _; rfl)).symm

theorem mem_byName {x : String × β} {l : List (String × β)} : x ∈ byName l ↔ x ∈ l :=
  List.mem_insertionSort _

mutual
theorem lazy_map {func : α → Py α} {g : α → α} : ∀ (h : H5 α) (t : PyTree α),
    _lazy_tree_map .ok h = .ok t → (∀ a ∈ leaves t, func a = .ok (g a)) →
    _lazy_tree_map func h = .ok (treeMap g t)
  | .dataset a, t => by
    intro h hf
    rw [_lazy_tree_map, ok_bind] at h
    cases h
    rw [_lazy_tree_map, hf a (by simp [leaves]), ok_bind]
    simp [treeMap]
  | .group type items, t => by
    intro h hf
    rw [_lazy_tree_map, bind_eq_ok] at h
    obtain ⟨its, h1, h2⟩ := h
    cases h2
    rw [_lazy_tree_map, lazy_mapItems items its h1 (fun a x hx ha => hf a
      (mem_leaves_ofGroup.2 ⟨x, mem_byName.2 hx, ha⟩)), ok_bind, treeMap_ofGroup, byName_map]
theorem lazy_mapItems {func : α → Py α} {g : α → α} : ∀ (h : List (String × H5 α))
    (t : List (String × PyTree α)),
    mapItems .ok h = .ok t → (∀ a, ∀ x ∈ t, a ∈ leaves x.2 → func a = .ok (g a)) →
    mapItems func h = .ok (t.map fun x => (x.1, treeMap g x.2))
  | [], t => by
    intro h _
    rw [mapItems] at h
    cases h
    rfl
  | (k, h) :: hs, t => by
    intro h hf
    rw [mapItems, bind_eq_ok] at h
    obtain ⟨u, h1, h2⟩ := h
    rw [bind_eq_ok] at h2
    obtain ⟨us, h3, h4⟩ := h2
    cases h4
    rw [mapItems, lazy_map _ u h1 (fun a ha => hf a _ (List.mem_cons_self) ha), ok_bind,
      lazy_mapItems hs us h3 (fun a x hx ha => hf a x (List.mem_cons_of_mem _ hx) ha), ok_bind]
    rfl
end

/-- the rows with the given numbers -/
def pick (idx : List Nat) (rows : List ρ) : List ρ := idx.filterMap fun i => rows[i]?

theorem pick_of_map {idx : List Nat} {rows out : List ρ}
    (h : out.map some = idx.map fun i : Nat => rows[i]?) : out = pick idx rows := by
  unfold pick
  have : (idx.map fun i : Nat => rows[i]?).filterMap id = (out.map some).filterMap id := by rw [h]
  rw [List.filterMap_map, List.filterMap_map] at this
  simpa using this.symm

theorem load_ok {h : H5 (Leaf ρ)} {t : PyTree (Leaf ρ)} {idx : List Nat} {n : Nat}
    (ht : _lazy_tree_map .ok h = .ok t) (hl : ∀ a ∈ leaves t, a.length = .ok n)
    (hp : idx.Pairwise (· < ·)) (hi : ∀ i ∈ idx, i < n) :
    load h idx = .ok (treeMap (fun a => .rows (pick idx (atleast_1d a))) t) := by
  unfold load
  refine lazy_map h t ht ?_
  intro a ha
  have hn := hl a ha
  cases a with
  | scalar x => cases hn
  | rows l =>
    have hn : l.length = n := by simpa [Leaf.length] using hn
    obtain ⟨out, h1, h2⟩ := loadRows_ok (rows := l) hp (by rw [hn]; exact hi)
    unfold loadRows at h1
    rw [takeLeaf, h1, ok_bind, pick_of_map h2]
    rfl

theorem load_length_ok {h : H5 (Leaf ρ)} {t : PyTree (Leaf ρ)} {n : Nat}
    (ht : _lazy_tree_map .ok h = .ok t) (hl : ∀ a ∈ leaves t, a.length = .ok n) (hne : leaves t ≠ []) :
    load_length h = .ok n := by
  unfold load_length
  rw [ht, ok_bind]
  cases hh : leaves t with
  | nil => exact absurd hh hne
  | cons a as => exact hl a (by rw [hh]; simp)

/-! ## concatenating -/

mutual
/-- a tree without named tuples -/
def Plain : PyTree α → Prop
  | .arr _ => True
  | .list l => PlainList l
  | .tuple l => PlainList l
  | .dict d => PlainItems d
  | .ntuple _ _ => False
  | .other => False
/-- a list of trees without named tuples -/
def PlainList : List (PyTree α) → Prop
  | [] => True
  | t :: ts => Plain t ∧ PlainList ts
/-- a dictionary of trees without named tuples -/
def PlainItems : List (String × PyTree α) → Prop
  | [] => True
  | (_, t) :: ts => Plain t ∧ PlainItems ts
end

mutual
theorem join_ok : ∀ a b : PyTree (List ρ), Plain a → treeMap (fun _ => ()) a = treeMap (fun _ => ()) b →
    ∃ c, join a b = .ok c ∧ treeMap (fun _ => ()) c = treeMap (fun _ => ()) a ∧ Plain c ∧
      leaves c = (leaves a).zipWith (· ++ ·) (leaves b)
  | .arr a, b => by cases b <;> simp [treeMap, leaves, join, Plain]
  | .list l, b => by
    cases b <;> simp only [treeMap, leaves, reduceCtorEq, false_imp_iff, PyTree.list.injEq, Plain,
      implies_true, join]
    intro hp h
    obtain ⟨c, h1, h2, h3, h4⟩ := join_ok_list _ _ hp h
    exact ⟨.list c, by rw [h1]; rfl, by simp [treeMap, h2], by simpa [Plain] using h3,
      by simpa [leaves] using h4⟩
  | .tuple l, b => by
    cases b <;> simp only [treeMap, leaves, reduceCtorEq, false_imp_iff, PyTree.tuple.injEq, Plain,
      implies_true, join]
    intro hp h
    obtain ⟨c, h1, h2, h3, h4⟩ := join_ok_list _ _ hp h
    exact ⟨.tuple c, by rw [h1]; rfl, by simp [treeMap, h2], by simpa [Plain] using h3,
      by simpa [leaves] using h4⟩
  | .dict l, b => by
    cases b <;> simp only [treeMap, leaves, reduceCtorEq, false_imp_iff, PyTree.dict.injEq, Plain,
      implies_true, join]
    intro hp h
    obtain ⟨c, h1, h2, h3, h4⟩ := join_ok_items _ _ hp h
    exact ⟨.dict c, by rw [h1]; rfl, by simp [treeMap, h2], by simpa [Plain] using h3,
      by simpa [leaves] using h4⟩
  | .ntuple n l, b => by simp [Plain]
  | .other, b => by simp [Plain]
theorem join_ok_list : ∀ a b : List (PyTree (List ρ)), PlainList a →
    treeMapList (fun _ => ()) a = treeMapList (fun _ => ()) b →
    ∃ c, joinList a b = .ok c ∧ treeMapList (fun _ => ()) c = treeMapList (fun _ => ()) a ∧
      PlainList c ∧ leavesList c = (leavesList a).zipWith (· ++ ·) (leavesList b)
  | [], b => by cases b <;> simp [treeMapList, leavesList, joinList, PlainList]
  | t :: ts, b => by
    cases b with
    | nil => simp [treeMapList]
    | cons u us =>
      simp only [treeMapList, leavesList, List.cons.injEq, PlainList]
      rintro ⟨hp, hps⟩ ⟨h1, h2⟩
      obtain ⟨c, a1, a2, a3, a4⟩ := join_ok _ _ hp h1
      obtain ⟨cs, b1, b2, b3, b4⟩ := join_ok_list _ _ hps h2
      refine ⟨c :: cs, by rw [joinList, a1, ok_bind, b1, ok_bind], by simp [treeMapList, a2, b2],
        by simp [PlainList, a3, b3], ?_⟩
      rw [leavesList, a4, b4, List.zipWith_append (leaves_length h1)]
theorem join_ok_items : ∀ a b : List (String × PyTree (List ρ)), PlainItems a →
    treeMapItems (fun _ => ()) a = treeMapItems (fun _ => ()) b →
    ∃ c, joinItems a b = .ok c ∧ treeMapItems (fun _ => ()) c = treeMapItems (fun _ => ()) a ∧
      PlainItems c ∧ leavesItems c = (leavesItems a).zipWith (· ++ ·) (leavesItems b)
  | [], b => by
    cases b with
    | nil => simp [treeMapItems, leavesItems, joinItems, PlainItems]
    | cons u us => obtain ⟨m, u⟩ := u; simp [treeMapItems]
  | (k, t) :: ts, b => by
    cases b with
    | nil => simp [treeMapItems]
    | cons u us =>
      obtain ⟨m, u⟩ := u
      simp only [treeMapItems, leavesItems, List.cons.injEq, Prod.mk.injEq, PlainItems]
      rintro ⟨hp, hps⟩ ⟨⟨h0, h1⟩, h2⟩
      obtain ⟨c, a1, a2, a3, a4⟩ := join_ok _ _ hp h1
      obtain ⟨cs, b1, b2, b3, b4⟩ := join_ok_items _ _ hps h2
      refine ⟨(k, c) :: cs, by rw [joinItems, if_pos h0, a1, ok_bind, b1, ok_bind],
        by simp [treeMapItems, a2, b2], by simp [PlainItems, a3, b3], ?_⟩
      rw [leavesItems, a4, b4, List.zipWith_append (leaves_length h1)]
end

mutual
theorem plain_shape : ∀ a : PyTree α, Plain (treeMap (fun _ => ()) a) ↔ Plain a
  | .arr a => by simp [treeMap, Plain]
  | .list l => by simp [treeMap, Plain, plain_shape_list l]
  | .tuple l => by simp [treeMap, Plain, plain_shape_list l]
  | .dict d => by simp [treeMap, Plain, plain_shape_items d]
  | .ntuple _ d => by simp [treeMap, Plain]
  | .other => by simp [treeMap, Plain]
theorem plain_shape_list : ∀ a : List (PyTree α), PlainList (treeMapList (fun _ => ()) a) ↔ PlainList a
  | [] => by simp [treeMapList, PlainList]
  | t :: ts => by simp [treeMapList, PlainList, plain_shape t, plain_shape_list ts]
theorem plain_shape_items : ∀ a : List (String × PyTree α),
    PlainItems (treeMapItems (fun _ => ()) a) ↔ PlainItems a
  | [] => by simp [treeMapItems, PlainItems]
  | (_, t) :: ts => by simp [treeMapItems, PlainItems, plain_shape t, plain_shape_items ts]
end

/-- trees with the same structure whose leaf `j` is `r j x` are concatenated leaf by leaf -/
theorem foldl_join {γ : Type} {S : PyTree Unit} (hS : Plain S) {m : Nat} (r : Nat → γ → List ρ)
    (T : γ → PyTree (List ρ)) :
    ∀ (xs : List γ) (t : PyTree (List ρ)) (c : Nat → List ρ), shape t = S →
    leaves t = (List.range m).map c →
    (∀ x ∈ xs, shape (T x) = S ∧ leaves (T x) = (List.range m).map fun j => r j x) →
    ∃ R, (xs.map T).foldlM join t = .ok R ∧ shape R = S ∧
      leaves R = (List.range m).map fun j => c j ++ (xs.map (r j)).flatten := by
  intro xs
  induction xs with
  | nil => intro t c h1 h2 _; exact ⟨t, rfl, h1, by simpa using h2⟩
  | cons x xs ih =>
    intro t c h1 h2 hx
    have hx0 := hx x (by simp)
    have hpt : Plain t := by
      rw [← plain_shape]
      unfold shape at h1
      rwa [h1]
    obtain ⟨u, a1, a2, a3, a4⟩ := join_ok t (T x) hpt (h1.trans hx0.1.symm)
    obtain ⟨R, b1, b2, b3⟩ := ih u (fun j => c j ++ r j x) (a2.trans h1) (by
      rw [a4, h2, hx0.2, List.zipWith_map_left, List.zipWith_map_right, List.zipWith_self])
      (fun y hy => hx y (by simp [hy]))
    refine ⟨R, ?_, b2, ?_⟩
    · rw [List.map_cons, List.foldlM_cons, a1, ok_bind, b1]
    · rw [b3]; simp

theorem mapM_eq_map {γ δ : Type} {f : γ → Py δ} {g : γ → δ} : ∀ (l : List γ),
    (∀ x ∈ l, f x = .ok (g x)) → l.mapM f = .ok (l.map g) := by
  intro l
  induction l with
  | nil => intro _; rfl
  | cons a as ih =>
    intro h
    rw [List.mapM_cons, h a (by simp), ok_bind, ih (fun x hx => h x (by simp [hx])), ok_bind]
    rfl

/-! ## several files -/

theorem part_map {γ δ : Type} (bel start : Nat → Nat) (s : List Nat) (f : γ → List δ) (x : γ × Nat) :
    partOf bel start s (f x.1, x.2) = (part bel start s x).map fun y => (f y.1, y.2) := by
  unfold partOf part
  dsimp only
  split_ifs <;> rfl

/-- what is loaded from every file, for files with the rows `f x` -/
theorem parts_map {γ δ : Type} (bel start : Nat → Nat) (s : List Nat) (f : γ → List δ) :
    ∀ (files : List γ) (k : Nat),
    ((files.map f).zipIdx k).filterMap (partOf bel start s) =
      ((files.zipIdx k).filterMap (part bel start s)).map fun y => (f y.1, y.2) := by
  intro files
  induction files with
  | nil => intro k; rfl
  | cons x xs ih =>
    intro k
    rw [List.map_cons, List.zipIdx_cons, List.zipIdx_cons, List.filterMap_cons, List.filterMap_cons,
      ih, part_map bel start s f (x, k)]
    cases part bel start s (x, k) <;> rfl

/-- the indices of a part lie in its file -/
theorem part_lt {γ : Type} (n : γ → Nat) : ∀ (files : List γ) (o k : Nat) (bel start : Nat → Nat)
    (s : List Nat), s.Pairwise (· < ·) →
    (∀ t ∈ s, o ≤ t ∧ t < o + (files.map n).sum) →
    (∀ t ∈ s, bel t = k + belongsTo (bordersFrom o (files.map fun f => List.replicate (n f) ())) t) →
    (∀ j < files.length, start (k + j) = o + ((files.take j).map n).sum) →
    ∀ x ∈ (files.zipIdx k).filterMap (part bel start s),
      x.1 ∈ files ∧ x.2.Pairwise (· < ·) ∧ ∀ i ∈ x.2, i < n x.1 := by
  intro files
  induction files with
  | nil => intro o k bel start s _ _ _ _ x hx; simp at hx
  | cons f fs ih =>
    intro o k bel start s hs hr hb hst x hx
    have hk0 : start k = o := by simpa using hst 0 (by simp)
    have hlen : (List.replicate (n f) ()).length = n f := by simp
    have low : ∀ t ∈ s, bel t = k → t < o + n f := by
      intro t ht he
      by_contra hc
      have h1 := hb t ht
      rw [List.map_cons, belongsTo_cons_ge (by rw [hlen]; omega)] at h1
      omega
    have high : ∀ t ∈ s, k + 1 ≤ bel t → o + n f ≤ t := by
      intro t ht he
      by_contra hc
      have h1 := hb t ht
      rw [List.map_cons, belongsTo_cons_lt (by rw [hlen]; omega)] at h1
      omega
    rw [List.zipIdx_cons, List.filterMap_cons] at hx
    have hrec : x ∈ (fs.zipIdx (k + 1)).filterMap (part bel start s) →
        x.1 ∈ f :: fs ∧ x.2.Pairwise (· < ·) ∧ ∀ i ∈ x.2, i < n x.1 := by
      intro hx
      have hcongr : (fs.zipIdx (k + 1)).filterMap (part bel start s) =
          (fs.zipIdx (k + 1)).filterMap (part bel start (s.filter fun t => k + 1 ≤ bel t)) := by
        apply List.filterMap_congr
        intro y hy
        have hyk : k + 1 ≤ y.2 := (List.mk_mem_zipIdx_iff_le_and_getElem?_sub.1 hy).1
        unfold part
        rw [List.filter_filter]
        have : (s.filter fun t => decide (bel t = y.2)) =
            s.filter fun t => decide (bel t = y.2) && decide (k + 1 ≤ bel t) := by
          apply List.filter_congr
          intro t _
          by_cases h : bel t = y.2
          · simp [h, hyk]
          · simp [h]
        rw [this]
      rw [hcongr] at hx
      have := ih (o + n f) (k + 1) bel start (s.filter fun t => k + 1 ≤ bel t)
        (hs.sublist List.filter_sublist) (by
          intro t ht
          obtain ⟨h1, h2⟩ := List.mem_filter.1 ht
          have h2 : k + 1 ≤ bel t := by simpa using h2
          have := (hr t h1).2
          have := high t h1 h2
          simp at *
          omega) (by
          intro t ht
          obtain ⟨h1, h2⟩ := List.mem_filter.1 ht
          have h2 : k + 1 ≤ bel t := by simpa using h2
          rw [hb t h1, List.map_cons, belongsTo_cons_ge (by rw [hlen]; exact high t h1 h2), hlen]
          omega) (by
          intro j hj
          have := hst (j + 1) (by simpa using hj)
          rw [show k + 1 + j = k + (j + 1) by omega, this]
          simp [Nat.add_assoc]) x hx
      exact ⟨by simp [this.1], this.2⟩
    cases hp : part bel start s (f, k) with
    | none => rw [hp] at hx; exact hrec hx
    | some y =>
      rw [hp] at hx
      dsimp only at hx
      rcases List.mem_cons.1 hx with he | hx
      · subst he
        unfold part at hp
        dsimp only at hp
        split_ifs at hp
        cases hp
        dsimp only
        rw [hk0]
        refine ⟨by simp, ?_, ?_⟩
        · rw [List.pairwise_map]
          refine (List.Pairwise.and_mem.1 (hs.sublist List.filter_sublist)).imp ?_
          rintro a b ⟨ha, hb, hab⟩
          have := (hr a (List.mem_filter.1 ha).1).1
          omega
        · intro i hi
          obtain ⟨t, ht, rfl⟩ := List.mem_map.1 hi
          obtain ⟨h1, h2⟩ := List.mem_filter.1 ht
          have h3 := low t h1 (by simpa using h2)
          have h4 := (hr t h1).1
          omega
      · exact hrec hx

theorem borders_congr {a : List (List α)} {b : List (List β)} (h : a.map List.length = b.map List.length)
    (o : Nat) : bordersFrom o a = bordersFrom o b := by
  unfold bordersFrom
  rw [h]

/-- C51 for trees, partially: the tree that is returned has the structure of the trees in the files, and
each of its arrays has the rows that the indices, in increasing order, select from the concatenation of
the arrays at its place. `r j f` are the rows of array number `j` in the file `f`, and `big` is the tree
of the concatenated arrays. Missing: named tuples, see `C51_namedtuple_fails`, arrays of different
lengths in one file, see `C51_lengths_fails`, and what is missing in `C51_partial`. -/
theorem C51_trees_partial {files : List (H5 (Leaf ρ))} {indices s : List Nat}
    {T : H5 (Leaf ρ) → PyTree (Leaf ρ)} {n : H5 (Leaf ρ) → Nat} {m : Nat}
    {r : Nat → H5 (Leaf ρ) → List ρ} {big : PyTree (List ρ)}
    (hf : 1 < files.length) (hne : indices ≠ []) (hperm : s.Perm indices) (hs : s.Pairwise (· < ·))
    (hT : ∀ f ∈ files, _lazy_tree_map .ok f = .ok (T f))
    (hshape : ∀ f ∈ files, shape (T f) = shape big)
    (hleaves : ∀ f ∈ files, leaves (T f) = (List.range m).map fun j => .rows (r j f))
    (hn : ∀ f ∈ files, ∀ j < m, (r j f).length = n f) (hm : 0 < m)
    (hbig : leaves big = (List.range m).map fun j => (files.map (r j)).flatten)
    (hplain : Plain big) (hr : ∀ i ∈ indices, i < (files.map n).sum) :
    ∃ R, load_from_multiple files indices = .ok R ∧
      treeMap (List.map some) R = treeMap (fun rows => s.map fun i : Nat => rows[i]?) big := by
  have hsort : indices.insertionSort (· ≤ ·) = s := by
    refine List.Perm.eq_of_pairwise' (r := (· ≤ ·)) ?_ (hs.imp Nat.le_of_lt)
      ((List.perm_insertionSort _ _).trans hperm.symm)
    exact List.pairwise_insertionSort _ _
  have hsne : s ≠ [] := by
    rintro rfl
    exact hne (List.nil_perm.1 hperm)
  have hfne : files ≠ [] := by rintro rfl; simp at hf
  have hlen : ∀ f ∈ files, ∀ a ∈ leaves (T f), a.length = .ok (n f) := by
    intro f hff a ha
    rw [hleaves f hff] at ha
    obtain ⟨j, hj, rfl⟩ := List.mem_map.1 ha
    rw [Leaf.length, hn f hff j (List.mem_range.1 hj)]
  have hlengths : files.mapM load_length = .ok (files.map n) :=
    mapM_eq_map files fun f hff => load_length_ok (hT f hff) (hlen f hff) (by
      rw [hleaves f hff]
      simp
      omega)
  set B := bordersFrom 0 (files.map fun f => List.replicate (n f) ()) with hB
  have hb : cumsum (files.map n) = B := by
    rw [hB]
    unfold cumsum bordersFrom
    simp [Function.comp_def]
  have hBr : ∀ j < m, bordersFrom 0 (files.map (r j)) = B := fun j hj => by
    rw [hB]
    apply borders_congr
    rw [List.map_map, List.map_map]
    apply List.map_congr_left
    intro f hff
    simp [hn f hff j hj]
  have hrep : ((files.map fun f => List.replicate (n f) ()).flatten).length = (files.map n).sum := by
    simp [Function.comp_def]
  have hstart : ∀ j < files.length,
      (0 :: B).getD (0 + j) 0 = 0 + ((files.take j).map n).sum := fun j hj => by
    rw [Nat.zero_add, hB, start_eq _ 0 j (by simpa using hj), ← List.map_take, List.map_map]
    simp [Function.comp_def]
  set parts := files.zipIdx.filterMap (part (belongsTo B) (fun i => (0 :: B).getD i 0) s) with hparts
  have hpart := part_lt n files 0 0 (belongsTo B) (fun i => (0 :: B).getD i 0) s hs
    (fun t ht => ⟨by omega, by rw [Nat.zero_add]; exact hr t (hperm.subset ht)⟩)
    (fun t _ => by rw [← hB]; omega) hstart
  -- what is loaded from the files
  have htrees : (parts.mapM fun x => load x.1 x.2) =
      .ok (parts.map fun x => treeMap (fun a => .rows (pick x.2 (atleast_1d a))) (T x.1)) := by
    refine mapM_eq_map parts fun x hx => ?_
    obtain ⟨h1, h2, h3⟩ := hpart x hx
    exact load_ok (hT _ h1) (hlen _ h1) h2 h3
  -- the rows of one array
  have hrows : ∀ j < m, ((parts.map fun x => pick x.2 (r j x.1)).flatten).map some =
      s.map fun t : Nat => (files.map (r j)).flatten[t]? := by
    intro j hj
    obtain ⟨trees, h1, h2⟩ := parts_ok (belongsTo B) (fun i => (0 :: B).getD i 0)
      (files.map (r j)) 0 0 s hs
      (fun t ht => ⟨by omega, by
        have := hr t (hperm.subset ht)
        rw [List.length_flatten, List.map_map]
        have he : files.map (List.length ∘ r j) = files.map n :=
          List.map_congr_left fun f hff => hn f hff j hj
        rw [he]
        omega⟩)
      (fun t _ => by rw [hBr j hj]; omega)
      (fun i hi => by
        have hi : i < files.length := by simpa using hi
        rw [hstart i hi, ← List.map_take, List.map_map]
        congr 2
        exact List.map_congr_left fun f hff => (hn f (List.mem_of_mem_take hff) j hj).symm)
    rw [parts_map, ← hparts, List.mapM_map] at h1
    have h3 : (parts.mapM fun x => loadRows (r j x.1) x.2) =
        .ok (parts.map fun x => pick x.2 (r j x.1)) := by
      refine mapM_eq_map parts fun x hx => ?_
      obtain ⟨a1, a2, a3⟩ := hpart x hx
      obtain ⟨out, o1, o2⟩ := loadRows_ok (rows := r j x.1) a2 (by rw [hn _ a1 j hj]; exact a3)
      rw [o1, pick_of_map o2]
    have h4 : trees = parts.map fun x => pick x.2 (r j x.1) := by
      have := h1.symm.trans h3
      cases this
      rfl
    rw [← h4]
    simpa using h2
  -- the trees have the same structure
  have hTx : ∀ x ∈ parts,
      shape (treeMap atleast_1d (treeMap (fun a => Leaf.rows (pick x.2 (atleast_1d a))) (T x.1))) =
        shape big ∧
      leaves (treeMap atleast_1d (treeMap (fun a => Leaf.rows (pick x.2 (atleast_1d a))) (T x.1))) =
        (List.range m).map fun j => pick x.2 (r j x.1) := by
    intro x hx
    have h1 := (hpart x hx).1
    refine ⟨by rw [shape_treeMap, shape_treeMap, hshape _ h1], ?_⟩
    rw [leaves_treeMap, leaves_treeMap, hleaves _ h1, List.map_map, List.map_map]
    rfl
  have hpne : parts ≠ [] := by
    intro h0
    have h1 := hrows 0 hm
    rw [h0] at h1
    have := congrArg List.length h1
    simp at this
    exact hsne (List.length_eq_zero_iff.1 this.symm)
  have hconcat : ∃ R, _tree_concat (parts.map fun x =>
        treeMap (fun a => Leaf.rows (pick x.2 (atleast_1d a))) (T x.1)) = .ok R ∧ shape R = shape big ∧
      leaves R = (List.range m).map fun j => (parts.map fun x => pick x.2 (r j x.1)).flatten := by
    unfold _tree_concat
    rw [List.map_map]
    obtain ⟨p, ps, hps⟩ := List.exists_cons_of_ne_nil hpne
    rw [hps] at hTx ⊢
    have h0 := hTx p (by simp)
    obtain ⟨R, a1, a2, a3⟩ := foldl_join (S := shape big) ((plain_shape big).2 hplain) (m := m)
      (fun j (x : H5 (Leaf ρ) × List Nat) => pick x.2 (r j x.1))
      (fun x => treeMap atleast_1d (treeMap (fun a => Leaf.rows (pick x.2 (atleast_1d a))) (T x.1)))
      ps _ (fun j => pick p.2 (r j p.1)) h0.1 h0.2 (fun x hx => hTx x (by simp [hx]))
    exact ⟨R, a1, a2, by simpa using a3⟩
  obtain ⟨R, c1, c2, c3⟩ := hconcat
  refine ⟨R, ?_, ?_⟩
  · unfold load_from_multiple
    rw [pyAssert_true (by simpa using hf), ok_bind, hlengths, ok_bind]
    dsimp only
    rw [hsort, hb, List.getLast?_eq_getLast_of_ne_nil hsne]
    dsimp only
    rw [ok_bind, hB, getLast_bordersFrom _ 0 (by simpa using hfne), ← hB, pyAssert_true, ok_bind,
      ← hparts, htrees, ok_bind, c1]
    have := hr _ (hperm.subset (List.getLast_mem hsne))
    rw [← hrep] at this
    simpa using this
  · apply tree_ext
    · have h1 := shape_treeMap (List.map some) R
      have h2 := shape_treeMap (fun rows : List ρ => s.map fun i : Nat => rows[i]?) big
      exact h1.trans (c2.trans h2.symm)
    · rw [leaves_treeMap, leaves_treeMap, c3, hbig, List.map_map, List.map_map]
      apply List.map_congr_left
      intro j hj
      exact hrows j (List.mem_range.1 hj)

/-- two files with the same tree of arrays -/
def exFile (x y : List Nat) : H5 (Leaf Nat) :=
  .group "dict" [("X", .group "tuple" [("arr0", .dataset (.rows x))]), ("y", .dataset (.rows y))]

example : load_from_multiple [exFile [1, 2] [10, 20], exFile [3] [30]] [2, 0] =
    .ok (.dict [("X", .tuple [.arr [1, 3]]), ("y", .arr [10, 30])]) := by rfl

/-- the hypotheses of `C51_trees_partial` are met by these files -/
example : ∃ R, load_from_multiple [exFile [1, 2] [10, 20], exFile [3] [30]] [2, 0] = .ok R ∧
    treeMap (List.map some) R = treeMap (fun rows => [0, 2].map fun i : Nat => rows[i]?)
      (.dict [("X", .tuple [.arr [1, 2, 3]]), ("y", .arr [10, 20, 30])]) := by
  refine C51_trees_partial (m := 2)
    (T := fun f => match _lazy_tree_map .ok f with | .ok t => t | .error _ => .other)
    (n := fun f => match load_length f with | .ok k => k | .error _ => 0)
    (r := fun j f => match _lazy_tree_map .ok f with
      | .ok t => ((leaves t).map atleast_1d).getD j []
      | .error _ => [])
    (by decide) (by simp) (by decide) (by decide) ?_ ?_ ?_ ?_ (by decide) rfl ?_ ?_
  · intro f hf; fin_cases hf <;> rfl
  · intro f hf; fin_cases hf <;> rfl
  · intro f hf; fin_cases hf <;> rfl
  · intro f hf j hj; fin_cases hf <;> interval_cases j <;> rfl
  · simp [Plain, PlainItems, PlainList]
  · intro i hi
    have : ([exFile [1, 2] [10, 20], exFile [3] [30]].map fun f => match load_length f with
      | .ok k => k | .error _ => 0).sum = 3 := rfl
    rw [this]
    fin_cases hi <;> decide

/-- C51 fails for named tuples: the same named tuple in two files cannot be loaded from both, whatever is
in it, because each file is loaded with a type of its own. -/
theorem C51_namedtuple_fails (name name' : String) (a b : List (String × PyTree (Leaf ρ)))
    (ts : List (PyTree (Leaf ρ))) :
    _tree_concat (.ntuple name a :: .ntuple name' b :: ts) = .error .value := by
  unfold _tree_concat
  rw [List.map_cons, List.map_cons]
  dsimp only [treeMap]
  rw [List.foldlM_cons, join]
  · rfl
  all_goals intros; simp_all

example : load_from_multiple
    [H5.group "State" [("q", .dataset (.rows [1, 2]))], .group "State" [("q", .dataset (.rows [3]))]]
      [0, 2] = .error .value := by rfl

/-- C51 fails if the arrays of a file have different lengths: the length of the first one counts. The row
with index 2 of `y` in the concatenation is 12, but 13 is returned. -/
theorem C51_lengths_fails :
    load_from_multiple [exFile [1, 2] [10, 11, 12], exFile [3, 4] [13, 14, 15]] [2] =
      .ok (.dict [("X", .tuple [.arr [3]]), ("y", .arr [13])]) := by
  rfl

mutual
theorem join_shape : ∀ a b c : PyTree (List ρ), join a b = .ok c →
    treeMap (fun _ => ()) a = treeMap (fun _ => ()) b ∧
      treeMap (fun _ => ()) c = treeMap (fun _ => ()) a
  | .arr a, b, c => by
    cases b <;> simp only [join, reduceCtorEq, false_imp_iff]
    intro h; cases h; simp [treeMap]
  | .list l, b, c => by
    cases b <;> simp only [join, reduceCtorEq, false_imp_iff]
    intro h
    obtain ⟨d, h1, h2⟩ := bind_eq_ok.1 h
    cases h2
    simpa [treeMap] using join_shape_list _ _ _ h1
  | .tuple l, b, c => by
    cases b <;> simp only [join, reduceCtorEq, false_imp_iff]
    intro h
    obtain ⟨d, h1, h2⟩ := bind_eq_ok.1 h
    cases h2
    simpa [treeMap] using join_shape_list _ _ _ h1
  | .dict l, b, c => by
    cases b <;> simp only [join, reduceCtorEq, false_imp_iff]
    intro h
    obtain ⟨d, h1, h2⟩ := bind_eq_ok.1 h
    cases h2
    simpa [treeMap] using join_shape_items _ _ _ h1
  | .ntuple n l, b, c => by simp [join]
  | .other, b, c => by simp [join]
theorem join_shape_list : ∀ a b c : List (PyTree (List ρ)), joinList a b = .ok c →
    treeMapList (fun _ => ()) a = treeMapList (fun _ => ()) b ∧
      treeMapList (fun _ => ()) c = treeMapList (fun _ => ()) a
  | [], b, c => by
    cases b <;> simp only [joinList, reduceCtorEq, false_imp_iff]
    intro h; cases h; simp [treeMapList]
  | t :: ts, b, c => by
    cases b <;> simp only [joinList, reduceCtorEq, false_imp_iff]
    intro h
    obtain ⟨d, h1, h⟩ := bind_eq_ok.1 h
    obtain ⟨ds, h2, h⟩ := bind_eq_ok.1 h
    cases h
    have a1 := join_shape _ _ _ h1
    have a2 := join_shape_list _ _ _ h2
    simp [treeMapList, a1, a2]
theorem join_shape_items : ∀ a b c : List (String × PyTree (List ρ)), joinItems a b = .ok c →
    treeMapItems (fun _ => ()) a = treeMapItems (fun _ => ()) b ∧
      treeMapItems (fun _ => ()) c = treeMapItems (fun _ => ()) a
  | [], b, c => by
    cases b <;> simp only [joinItems, reduceCtorEq, false_imp_iff]
    intro h; cases h; simp [treeMapItems]
  | (k, t) :: ts, b, c => by
    cases b with
    | nil => simp [joinItems]
    | cons u us =>
      obtain ⟨m, u⟩ := u
      rw [joinItems]
      split_ifs with hk
      · intro h
        obtain ⟨d, h1, h⟩ := bind_eq_ok.1 h
        obtain ⟨ds, h2, h⟩ := bind_eq_ok.1 h
        cases h
        have a1 := join_shape _ _ _ h1
        have a2 := join_shape_items _ _ _ h2
        simp [treeMapItems, a1, a2, hk]
      · simp
end

theorem foldl_shape : ∀ (ts : List (PyTree (List ρ))) (t R : PyTree (List ρ)),
    ts.foldlM join t = .ok R → shape t = shape R ∧ ∀ u ∈ ts, shape u = shape R := by
  intro ts
  induction ts with
  | nil => intro t R h; cases h; simp
  | cons u us ih =>
    intro t R h
    rw [List.foldlM_cons] at h
    obtain ⟨v, h1, h2⟩ := bind_eq_ok.1 h
    have a := join_shape _ _ _ h1
    have b := ih v R h2
    have hv : shape v = shape t := a.2
    have hu : shape t = shape u := a.1
    refine ⟨hv.symm.trans b.1, ?_⟩
    intro w hw
    rcases List.mem_cons.1 hw with he | hw
    · rw [he, ← hu, ← hv]; exact b.1
    · exact b.2 w hw

/-- C51: whatever is concatenated has one structure; files with other structures are refused if rows of
several files are asked for. -/
theorem C51_structure {trees : List (PyTree (Leaf ρ))} {R : PyTree (List ρ)} (hne : trees ≠ [])
    (h : _tree_concat trees = .ok R) : ∀ t ∈ trees, shape t = shape R := by
  obtain ⟨u, us, rfl⟩ := List.exists_cons_of_ne_nil hne
  unfold _tree_concat at h
  rw [List.map_cons] at h
  have := foldl_shape _ _ _ h
  intro t ht
  rcases List.mem_cons.1 ht with he | ht
  · rw [he, ← shape_treeMap atleast_1d]; exact this.1
  · rw [← shape_treeMap atleast_1d]; exact this.2 _ (List.mem_map_of_mem ht)

example : ∃ R, _tree_concat [.list [.arr (.rows [1])], .list [.arr (Leaf.scalar 2)]] = .ok R :=
  ⟨.list [.arr [1, 2]], rfl⟩

/-- C51: files without arrays have no length and are refused. -/
theorem C51_no_arrays {f : H5 (Leaf ρ)} {t : PyTree (Leaf ρ)} {files : List (H5 (Leaf ρ))}
    {indices : List Nat} (ht : _lazy_tree_map .ok f = .ok t) (hl : leaves t = []) (hne : files ≠ []) :
    load_length f = .error .index ∧ load_from_multiple (f :: files) indices = .error .index := by
  have h1 : load_length f = .error .index := by
    unfold load_length
    rw [ht, ok_bind, hl]
    rfl
  refine ⟨h1, ?_⟩
  unfold load_from_multiple
  have : 0 < files.length := List.length_pos_iff.2 hne
  rw [pyAssert_true (by simpa using this), ok_bind, List.mapM_cons, h1]
  rfl

example : _lazy_tree_map .ok (.group "dict" [("a", .group "list" [])] : H5 (Leaf Nat)) =
    .ok (.dict [("a", .list [])]) := by rfl

/-- C51: an array without axes makes the file unreadable by index: it is refused. -/
theorem C51_scalar (x : ρ) (indices : List Nat) :
    load (.dataset (.scalar x)) indices = .error .index ∧
      load_length (.dataset (.scalar x)) = .error .index := by
  constructor <;> rfl

end Trees
end hdf5
end RingLib
