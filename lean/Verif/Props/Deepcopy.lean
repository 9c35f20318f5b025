import Verif.Model.Deepcopy
import Verif.Props.Flatten
import Mathlib.Data.List.Forall2
import Mathlib.Data.Set.Insert

/-!
# C102: what is done to a copied tree does not reach the original

The specification speaks about paths: `follow h a p` is the object that is reached in the memory `h` from the
object `a` along the keys `p`, `seen h a p` is what is found there (kind, data, keys). `Run` is any program
that holds some objects and reads, allocates and writes.
-/

namespace RingLib.deepcopy
open System
set_option linter.unusedSectionVars false

variable {D : Type}

/-! ## Specification -/

/-- the address reached along a path -/
def follow (h : Heap D) : Nat → List String → Option Nat
  | a, [] => if a < h.length then some a else none
  | a, k :: p => (h[a]?).bind fun o => (o.kids.lookup k).bind fun c => follow h c p

/-- what is found at the end of a path: kind, data, keys in order -/
def seen (h : Heap D) (a : Nat) (p : List String) : Option (Kind × D × List String) :=
  (follow h a p).bind fun b => (h[b]?).map fun o => (o.kind, o.data, o.kids.map Prod.fst)

/-- kinds without children -/
def Kind.leaf : Kind → Prop
  | .number | .jax | .npArray | .npScalar | .text => True
  | _ => False

/-- kinds that can be changed in place -/
def Kind.mutable : Kind → Prop
  | .npArray | .list | .dict => True
  | _ => False

/-- a memory: children exist and have distinct keys, leaves have none -/
structure WF (h : Heap D) : Prop where
  lt : ∀ (i : Nat) (o : Obj D), h[i]? = some o → ∀ x ∈ o.kids, x.2 < h.length
  nodup : ∀ (i : Nat) (o : Obj D), h[i]? = some o → (o.kids.map Prod.fst).Nodup
  leaf : ∀ (i : Nat) (o : Obj D), h[i]? = some o → o.kind.leaf → o.kids = []

/-- no object of the kind is reached from `a` -/
def Without (k : Kind) (h : Heap D) (a : Nat) : Prop :=
  ∀ p d, seen h a p ≠ some (k, d)

/-- the same data and keys, and the same kind, but for named tuples -/
def Like (x y : Kind × D × List String) : Prop :=
  x.2 = y.2 ∧ (x.1 = y.1 ∨ x.1 = .namedTuple ∧ y.1 = .tuple)

/-- one step of a program that holds the objects `K` -/
inductive Step : Heap D × Set Nat → Heap D × Set Nat → Prop where
  /-- read a child of an object it holds -/
  | load {h : Heap D} {K : Set Nat} {b : Nat} {o : Obj D} {x : String × Nat} (hb : b ∈ K) (ho : h[b]? = some o)
      (hx : x ∈ o.kids) : Step (h, K) (h, insert x.2 K)
  /-- make a new object, from objects it holds -/
  | new {h : Heap D} {K : Set Nat} (o : Obj D) (hk : ∀ x ∈ o.kids, x.2 ∈ K) :
      Step (h, K) (h ++ [o], insert h.length K)
  /-- change an object it holds, putting in objects it holds -/
  | write {h : Heap D} {K : Set Nat} {b : Nat} {o : Obj D} (hb : b ∈ K) (ho : h[b]? = some o) (hm : o.kind.mutable)
      (d : D) (kids : List (String × Nat)) (hk : ∀ x ∈ kids, x.2 ∈ K) :
      Step (h, K) (h.set b ⟨o.kind, d, kids⟩, K)

/-- any program -/
inductive Run : Heap D × Set Nat → Heap D × Set Nat → Prop where
  | done (s : Heap D × Set Nat) : Run s s
  | step {s t u : Heap D × Set Nat} (h : Step s t) (r : Run t u) : Run s u

/-! ## Paths -/

theorem get_pre {h h' : Heap D} (hp : h <+: h') {a : Nat} (ha : a < h.length) : h'[a]? = h[a]? := by
  obtain ⟨t, rfl⟩ := hp
  exact List.getElem?_append_left ha

theorem lookup_mem {l : List (String × Nat)} {k : String} {c : Nat} (h : l.lookup k = some c) : (k, c) ∈ l := by
  induction l with
  | nil => simp at h
  | cons x r ih =>
    rw [List.lookup_cons] at h
    split at h
    · rename_i hk
      have hk' : k = x.1 := by simpa using hk
      injection h with h
      subst hk' h
      exact List.mem_cons_self
    · exact List.mem_cons_of_mem _ (ih h)

theorem follow_lt {h : Heap D} : ∀ (p : List String) (a b : Nat), follow h a p = some b → b < h.length
  | [], a, b, e => by
    rw [follow] at e
    split at e
    · rename_i hl; injection e with e; omega
    · cases e
  | k :: p, a, b, e => by
    rw [follow] at e
    cases ho : h[a]? with
    | none => rw [ho] at e; cases e
    | some o =>
      rw [ho, Option.bind_some] at e
      cases hc : o.kids.lookup k with
      | none => rw [hc] at e; cases e
      | some c => rw [hc, Option.bind_some] at e; exact follow_lt p c b e

/-- objects of the old memory reach the same as before -/
theorem follow_pre {h h' : Heap D} (hp : h <+: h') (hw : WF h) :
    ∀ (p : List String) (a : Nat), a < h.length → follow h' a p = follow h a p
  | [], a, ha => by
    have := hp.length_le
    rw [follow, follow, if_pos ha, if_pos (by omega)]
  | k :: p, a, ha => by
    rw [follow, follow, get_pre hp ha]
    cases ho : h[a]? with
    | none => rfl
    | some o =>
      rw [Option.bind_some, Option.bind_some]
      cases hc : o.kids.lookup k with
      | none => rfl
      | some c => exact follow_pre hp hw p c (hw.lt a o ho _ (lookup_mem hc))

theorem seen_pre {h h' : Heap D} (hp : h <+: h') (hw : WF h) (p : List String) (a : Nat) (ha : a < h.length) :
    seen h' a p = seen h a p := by
  rw [seen, seen, follow_pre hp hw p a ha]
  cases hf : follow h a p with
  | none => rfl
  | some b => rw [Option.bind_some, Option.bind_some, get_pre hp (follow_lt p a b hf)]

theorem wf_alloc {h : Heap D} (hw : WF h) (o : Obj D) (hl : ∀ x ∈ o.kids, x.2 < h.length)
    (hn : (o.kids.map Prod.fst).Nodup) (hf : o.kind.leaf → o.kids = []) : WF (h ++ [o]) := by
  have key : ∀ (i : Nat) (u : Obj D), (h ++ [o])[i]? = some u → h[i]? = some u ∨ u = o := by
    intro i u hu
    rw [List.getElem?_append] at hu
    split at hu
    · exact Or.inl hu
    · right
      have := List.mem_of_getElem? hu
      simpa using this
  refine ⟨fun i u hu x hx => ?_, fun i u hu => ?_, fun i u hu hk => ?_⟩
  · rw [List.length_append]
    rcases key i u hu with e | rfl
    · have := hw.lt i u e x hx; omega
    · have := hl x hx; omega
  · rcases key i u hu with e | rfl
    · exact hw.nodup i u e
    · exact hn
  · rcases key i u hu with e | rfl
    · exact hw.leaf i u e hk
    · exact hf hk

theorem follow_leaf {h : Heap D} {a : Nat} {o : Obj D} (ho : h[a]? = some o) (hk : o.kids = [])
    (p : List String) (b : Nat) (hf : follow h a p = some b) : p = [] ∧ b = a := by
  cases p with
  | nil =>
    rw [follow] at hf
    split at hf
    · injection hf with hf; exact ⟨rfl, hf.symm⟩
    · cases hf
  | cons k p => rw [follow, ho, Option.bind_some, hk] at hf; cases hf

theorem seen_leaf {h h' : Heap D} {a a' : Nat} {o : Obj D} (ho : h[a]? = some o) (ho' : h'[a']? = some o)
    (hk : o.kids = []) (p : List String) : seen h a p = seen h' a' p := by
  cases p with
  | nil =>
    have e : a < h.length := (List.getElem?_eq_some_iff.mp ho).1
    have e' : a' < h'.length := (List.getElem?_eq_some_iff.mp ho').1
    rw [seen, seen, follow, follow, if_pos e, if_pos e', Option.bind_some, Option.bind_some, ho, ho']
  | cons k p =>
    rw [seen, seen, follow, follow, ho, ho', Option.bind_some, Option.bind_some, hk]
    rfl

/-! ## The invariant -/

theorem Like.refl (x : Kind × D × List String) : Like x x := ⟨rfl, Or.inl rfl⟩

theorem orel_refl (x : Option (Kind × D × List String)) : Option.Rel Like x x := by
  cases x
  · exact Option.Rel.none
  · exact Option.Rel.some (Like.refl _)

/-- the kinds `pytree_deepcopy` returns as they are -/
def Kind.kept : Kind → Prop
  | .number | .jax | .base => True
  | _ => False

/-- on the path there is an object that is not copied -/
def Kept (h : Heap D) (a : Nat) (p : List String) : Prop :=
  ∃ q l, q <+: p ∧ seen h a q = some l ∧ l.1.kept

/-- the first `m` objects only have children among themselves -/
def Closed (h : Heap D) (m : Nat) : Prop := ∀ (i : Nat) (o : Obj D), i < m → h[i]? = some o → ∀ x ∈ o.kids, x.2 < m

/-- `a'` is, in the memory `h'`, a copy of `a` made in the memory `h` of which the first `m` objects are the
original ones -/
structure IsCopy (m : Nat) (h : Heap D) (a : Nat) (h' : Heap D) (a' : Nat) : Prop where
  lt : a' < h'.length
  same : ∀ p, Option.Rel Like (seen h a p) (seen h' a' p)
  rng : ∀ p b, follow h' a' p = some b → b < m ∨ h.length ≤ b
  own : ∀ p b, follow h' a' p = some b → b < m → Kept h' a' p
  tree : ∀ p q b, m ≤ b → follow h' a' p = some b → follow h' a' q = some b → p = q

theorem closed_pre {h h' : Heap D} (hp : h <+: h') {m : Nat} (hm : m ≤ h.length) (hc : Closed h m) :
    Closed h' m := by
  intro i o hi ho
  rw [get_pre hp (by omega)] at ho
  exact hc i o hi ho

/-- what is reached from the first `m` objects is among them -/
theorem follow_closed {h : Heap D} {m : Nat} (hc : Closed h m) :
    ∀ (p : List String) (a b : Nat), a < m → follow h a p = some b → b < m
  | [], a, b, ha, e => by
    rw [follow] at e
    split at e
    · injection e with e; omega
    · cases e
  | k :: p, a, b, ha, e => by
    rw [follow] at e
    cases ho : h[a]? with
    | none => rw [ho] at e; cases e
    | some o =>
      rw [ho, Option.bind_some] at e
      cases hl : o.kids.lookup k with
      | none => rw [hl] at e; cases e
      | some c =>
        rw [hl, Option.bind_some] at e
        exact follow_closed hc p c b (hc a o ha ho _ (lookup_mem hl)) e

/-- an object that is kept is a copy of itself -/
theorem isCopy_kept {m : Nat} {h : Heap D} (hm : m ≤ h.length) (hc : Closed h m) {a : Nat} (ha : a < m) {o : Obj D}
    (ho : h[a]? = some o) (hk : o.kind.kept) : IsCopy m h a h a := by
  refine ⟨by omega, fun p => orel_refl _, fun p b e => Or.inl (follow_closed hc p a b ha e), fun p b e _ => ?_,
    fun p q b hb e _ => ?_⟩
  · refine ⟨[], (o.kind, o.data, o.kids.map Prod.fst), List.nil_prefix, ?_, hk⟩
    rw [seen, follow, if_pos (by omega), Option.bind_some, ho, Option.map_some]
  · have := follow_closed hc p a b ha e
    omega

/-- a leaf that is copied -/
theorem isCopy_leaf {m : Nat} {h : Heap D} (hm : m ≤ h.length) {a : Nat} {o : Obj D}
    (ho : h[a]? = some o) (hk : o.kids = []) : IsCopy m h a (h ++ [o]) h.length := by
  have ho' : (h ++ [o])[h.length]? = some o := by simp
  refine ⟨by simp, fun p => ?_, fun p b e => ?_, fun p b e hb => ?_, fun p q b hb e e' => ?_⟩
  · rw [seen_leaf ho ho' hk p]; exact orel_refl _
  · have := (follow_leaf ho' hk p b e).2; omega
  · have := (follow_leaf ho' hk p b e).2; omega
  · rw [(follow_leaf ho' hk p b e).1, (follow_leaf ho' hk q b e').1]

/-- copies stay copies when more is allocated -/
theorem IsCopy.mono {m : Nat} {h : Heap D} {a : Nat} {h' : Heap D} {a' : Nat} (c : IsCopy m h a h' a') (hw : WF h')
    {h'' : Heap D} (hp : h' <+: h'') : IsCopy m h a h'' a' := by
  have hf := fun p => follow_pre hp hw p a' c.lt
  refine ⟨lt_of_lt_of_le c.lt hp.length_le, fun p => ?_, fun p b e => ?_, fun p b e hb => ?_,
    fun p q b hb e e' => ?_⟩
  · rw [seen_pre hp hw p a' c.lt]; exact c.same p
  · rw [hf] at e; exact c.rng p b e
  · rw [hf] at e
    obtain ⟨q, l, hq, hs, hl⟩ := c.own p b e hb
    exact ⟨q, l, hq, by rw [seen_pre hp hw q a' c.lt]; exact hs, hl⟩
  · rw [hf] at e e'
    exact c.tree p q b hb e e'

/-- a copy made from a later memory is one made from the earlier memory -/
theorem IsCopy.back {m : Nat} {h : Heap D} {a : Nat} {h' : Heap D} {a' : Nat} (c : IsCopy m h a h' a')
    {h0 : Heap D} (hw : WF h0) (hp : h0 <+: h) (ha : a < h0.length) : IsCopy m h0 a h' a' := by
  refine ⟨c.lt, fun p => ?_, fun p b e => ?_, c.own, c.tree⟩
  · rw [← seen_pre hp hw p a ha]; exact c.same p
  · have := hp.length_le
    rcases c.rng p b e with e1 | e1
    · exact Or.inl e1
    · exact Or.inr (by omega)

/-- two copies share nothing but what was there before -/
def Apart (m : Nat) (h : Heap D) (x y : String × Nat) : Prop :=
  ∀ p q b, m ≤ b → follow h x.2 p = some b → follow h y.2 q = some b → False

/-- what `copyKids` does, if each call does what is claimed -/
structure KidsCopy (m : Nat) (h : Heap D) (ks : List (String × Nat)) (h' : Heap D) (ks' : List (String × Nat)) :
    Prop where
  pre : h <+: h'
  wf : WF h'
  each : List.Forall₂ (fun x y => x.1 = y.1 ∧ IsCopy m h x.2 h' y.2) ks ks'
  apart : ks'.Pairwise (Apart m h')

theorem forall₂_right {β γ : Type} {R : β → γ → Prop} {l : List β} {r : List γ} (h : List.Forall₂ R l r) :
    ∀ y ∈ r, ∃ x ∈ l, R x y := by
  induction h with
  | nil => simp
  | cons hx _ ih =>
    intro y hy
    rcases List.mem_cons.mp hy with rfl | hy
    · exact ⟨_, List.mem_cons_self, hx⟩
    · obtain ⟨x, hm, hr⟩ := ih y hy
      exact ⟨x, List.mem_cons_of_mem _ hm, hr⟩

theorem copyKids_ok {m : Nat} (f : Heap D → Nat → Py (Heap D × Nat))
    (hf : ∀ (h : Heap D) (a : Nat) (h' : Heap D) (a' : Nat), WF h → m ≤ h.length → Closed h m → a < m →
      f h a = .ok (h', a') → h <+: h' ∧ WF h' ∧ IsCopy m h a h' a') :
    ∀ (ks : List (String × Nat)) (h h' : Heap D) (ks' : List (String × Nat)), WF h → m ≤ h.length → Closed h m →
      (∀ x ∈ ks, x.2 < m) → copyKids f h ks = .ok (h', ks') → KidsCopy m h ks h' ks'
  | [], h, h', ks', hw, _, _, _, e => by
    rw [copyKids] at e
    injection e with e
    obtain ⟨rfl, rfl⟩ := Prod.mk.inj e
    exact ⟨List.prefix_refl _, hw, List.Forall₂.nil, List.Pairwise.nil⟩
  | x :: r, h, h', ks', hw, hm, hc, hl, e => by
    rw [copyKids, bind_ok_iff] at e
    obtain ⟨⟨h1, a1⟩, e1, e⟩ := e
    rw [bind_ok_iff] at e
    obtain ⟨⟨h2, r2⟩, e2, e⟩ := e
    injection e with e
    obtain ⟨rfl, rfl⟩ := Prod.mk.inj e
    obtain ⟨p1, w1, c1⟩ := hf h x.2 h1 a1 hw hm hc (hl x List.mem_cons_self) e1
    have hle := p1.length_le
    have hc1 := closed_pre p1 hm hc
    have ih := copyKids_ok f hf r h1 h2 r2 w1 (by omega) hc1 (fun y hy => hl y (List.mem_cons_of_mem _ hy)) e2
    refine ⟨p1.trans ih.pre, ih.wf, List.Forall₂.cons ⟨rfl, c1.mono w1 ih.pre⟩ ?_, List.Pairwise.cons ?_ ih.apart⟩
    · have : List.Forall₂ (fun (x y : String × Nat) => x.2 < h.length ∧ (x.1 = y.1 ∧ IsCopy m h1 x.2 h2 y.2)) r r2 := by
        rw [List.forall₂_and_left]
        exact ⟨fun y hy => by have := hl y (List.mem_cons_of_mem _ hy); omega, ih.each⟩
      exact this.imp fun u v huv => ⟨huv.2.1, huv.2.2.back hw p1 huv.1⟩
    · intro y hy p q b hb fp fq
      obtain ⟨u, _, -, hu⟩ := forall₂_right ih.each y hy
      rw [follow_pre ih.pre w1 p a1 c1.lt] at fp
      have h1 := follow_lt p a1 b fp
      rcases hu.rng q b fq with h2 | h2 <;> omega

theorem lookup_forall₂ {R : Nat → Nat → Prop} {l r : List (String × Nat)}
    (h : List.Forall₂ (fun x y => x.1 = y.1 ∧ R x.2 y.2) l r) (k : String) :
    Option.Rel R (l.lookup k) (r.lookup k) := by
  induction h with
  | nil => exact Option.Rel.none
  | @cons x y l r hx _ ih =>
    rw [List.lookup_cons, List.lookup_cons, ← hx.1]
    split
    · exact Option.Rel.some hx.2
    · exact ih

theorem forall₂_keys {R : Nat → Nat → Prop} {l r : List (String × Nat)}
    (h : List.Forall₂ (fun x y => x.1 = y.1 ∧ R x.2 y.2) l r) : r.map Prod.fst = l.map Prod.fst := by
  induction h with
  | nil => rfl
  | cons hx _ ih => rw [List.map_cons, List.map_cons, ih, hx.1]

theorem pairwise_mem {β : Type} {R : β → β → Prop} {l : List β} (h : l.Pairwise R) {x y : β} (hx : x ∈ l) (hy : y ∈ l)
    (hne : x ≠ y) : R x y ∨ R y x := by
  induction h with
  | nil => cases hx
  | @cons a l ha _ ih =>
    rcases List.mem_cons.mp hx with ex | hx'
    · rcases List.mem_cons.mp hy with ey | hy'
      · exact absurd (ex.trans ey.symm) hne
      · exact Or.inl (ex ▸ ha y hy')
    · rcases List.mem_cons.mp hy with ey | hy'
      · exact Or.inr (ey ▸ ha x hx')
      · exact ih hx' hy'

theorem follow_cons {h : Heap D} {a : Nat} {o : Obj D} (ho : h[a]? = some o) (k : String) (p : List String) :
    follow h a (k :: p) = (o.kids.lookup k).bind fun c => follow h c p := by
  rw [follow, ho, Option.bind_some]

theorem seen_cons {h : Heap D} {a : Nat} {o : Obj D} (ho : h[a]? = some o) (k : String) (p : List String) :
    seen h a (k :: p) = (o.kids.lookup k).bind fun c => seen h c p := by
  rw [seen, follow_cons ho]
  cases o.kids.lookup k <;> rfl

theorem seen_nil {h : Heap D} {a : Nat} {o : Obj D} (ho : h[a]? = some o) :
    seen h a [] = some (o.kind, o.data, o.kids.map Prod.fst) := by
  have e : a < h.length := (List.getElem?_eq_some_iff.mp ho).1
  rw [seen, follow, if_pos e, Option.bind_some, ho, Option.map_some]

theorem rebuilt_leaf {k : Kind} (hk : ¬ k.leaf) : ¬ (rebuilt k).leaf := by
  cases k <;> simp_all [Kind.leaf, rebuilt]

/-- a container of copies of the children is a copy of the container -/
theorem isCopy_node {m : Nat} {h : Heap D} (hw : WF h) (hm : m ≤ h.length) {a : Nat} {o : Obj D}
    (ho : h[a]? = some o) (hk : ¬ o.kind.leaf) {h1 : Heap D} {ks : List (String × Nat)}
    (hc : KidsCopy m h o.kids h1 ks) :
    WF (h1 ++ [⟨rebuilt o.kind, o.data, ks⟩]) ∧
      IsCopy m h a (h1 ++ [⟨rebuilt o.kind, o.data, ks⟩]) h1.length := by
  have hlt : ∀ x ∈ ks, x.2 < h1.length := by
    intro x hx
    obtain ⟨u, -, -, hu⟩ := forall₂_right hc.each x hx
    exact hu.lt
  have hkeys := forall₂_keys (R := fun a b => IsCopy m h a h1 b) hc.each
  have hle := hc.pre.length_le
  have hn : (ks.map Prod.fst).Nodup := by rw [hkeys]; exact hw.nodup a o ho
  have hwf : WF (h1 ++ [⟨rebuilt o.kind, o.data, ks⟩]) :=
    wf_alloc hc.wf ⟨rebuilt o.kind, o.data, ks⟩ hlt hn (fun hf => absurd hf (rebuilt_leaf hk))
  have ho' : (h1 ++ [(⟨rebuilt o.kind, o.data, ks⟩ : Obj D)])[h1.length]? = some ⟨rebuilt o.kind, o.data, ks⟩ := by
    simp
  have hpre : h1 <+: h1 ++ [(⟨rebuilt o.kind, o.data, ks⟩ : Obj D)] := List.prefix_append _ _
  -- what is below the new object
  have below : ∀ k p b, follow (h1 ++ [(⟨rebuilt o.kind, o.data, ks⟩ : Obj D)]) h1.length (k :: p) = some b →
      ∃ x ∈ ks, x.1 = k ∧ ks.lookup k = some x.2 ∧ follow h1 x.2 p = some b := by
    intro k p b e
    rw [follow_cons ho'] at e
    cases hl : ks.lookup k with
    | none => rw [hl] at e; cases e
    | some c =>
      rw [hl, Option.bind_some] at e
      have hmem := lookup_mem hl
      exact ⟨(k, c), hmem, rfl, rfl, by rw [← follow_pre hpre hc.wf p c (hlt _ hmem)]; exact e⟩
  have root : ∀ b, follow (h1 ++ [(⟨rebuilt o.kind, o.data, ks⟩ : Obj D)]) h1.length [] = some b → b = h1.length := by
    intro b e
    rw [follow] at e
    split at e
    · injection e with e; exact e.symm
    · cases e
  refine ⟨hwf, ⟨by simp, ?_, ?_, ?_, ?_⟩⟩
  · intro p
    cases p with
    | nil =>
      rw [seen_nil ho, seen_nil ho']
      refine Option.Rel.some ⟨?_, ?_⟩
      · dsimp only; rw [hkeys]
      · dsimp only
        cases o.kind <;> simp [rebuilt]
    | cons k p =>
      rw [seen_cons ho, seen_cons ho']
      have := lookup_forall₂ (R := fun a b => IsCopy m h a h1 b) hc.each k
      cases hl : o.kids.lookup k with
      | none =>
        rw [hl] at this
        cases hl' : ks.lookup k with
        | none => exact Option.Rel.none
        | some c => rw [hl'] at this; cases this
      | some c =>
        rw [hl] at this
        cases hl' : ks.lookup k with
        | none => rw [hl'] at this; cases this
        | some c' =>
          rw [hl'] at this
          cases this with
          | some hcc =>
            rw [Option.bind_some, Option.bind_some, seen_pre hpre hc.wf p c' hcc.lt]
            exact hcc.same p
  · intro p b e
    cases p with
    | nil => rw [root b e]; exact Or.inr hle
    | cons k p =>
      obtain ⟨x, hx, -, -, hf⟩ := below k p b e
      obtain ⟨u, -, -, hu⟩ := forall₂_right hc.each x hx
      exact hu.rng p b hf
  · intro p b e hb
    cases p with
    | nil => rw [root b e] at hb; omega
    | cons k p =>
      obtain ⟨x, hx, -, hlk, hf⟩ := below k p b e
      obtain ⟨u, -, -, hu⟩ := forall₂_right hc.each x hx
      obtain ⟨q, l, hq, hs, hl⟩ := hu.own p b hf hb
      refine ⟨k :: q, l, List.cons_prefix_cons.mpr ⟨rfl, hq⟩, ?_, hl⟩
      rw [seen_cons ho']
      dsimp only
      rw [hlk, Option.bind_some, seen_pre hpre hc.wf q x.2 hu.lt, hs]
  · intro p q b hb e e'
    cases p with
    | nil =>
      have hbe := root b e
      cases q with
      | nil => rfl
      | cons k q =>
        obtain ⟨x, hx, -, -, hf⟩ := below k q b e'
        have := follow_lt q x.2 b hf
        omega
    | cons k p =>
      obtain ⟨x, hx, hxk, hxl, hf⟩ := below k p b e
      cases q with
      | nil =>
        have hbe := root b e'
        have := follow_lt p x.2 b hf
        omega
      | cons k' q =>
        obtain ⟨y, hy, hyk, hyl, hf'⟩ := below k' q b e'
        by_cases hxy : x = y
        · subst hxy
          obtain ⟨u, -, -, hu⟩ := forall₂_right hc.each x hx
          rw [← hxk, ← hyk, hu.tree p q b hb hf hf']
        · rcases pairwise_mem hc.apart hx hy hxy with h2 | h2
          · exact (h2 p q b hb hf hf').elim
          · exact (h2 q p b hb hf' hf).elim

theorem deepcopy_ok {m : Nat} : ∀ (n : Nat) (h : Heap D) (a : Nat) (h' : Heap D) (a' : Nat), WF h → m ≤ h.length →
    Closed h m → a < m → pytree_deepcopy n h a = .ok (h', a') → h <+: h' ∧ WF h' ∧ IsCopy m h a h' a'
  | 0, h, a, h', a', _, _, _, _, e => by rw [pytree_deepcopy] at e; cases e
  | n + 1, h, a, h', a', hw, hm, hc, ha, e => by
    rw [pytree_deepcopy] at e
    cases ho : h[a]? with
    | none => rw [ho] at e; cases e
    | some o =>
      rw [ho] at e
      dsimp only at e
      have node : ¬ o.kind.leaf → (do
          let s ← copyKids (pytree_deepcopy n) h o.kids
          .ok (alloc s.1 ⟨rebuilt o.kind, o.data, s.2⟩) : Py (Heap D × Nat)) = .ok (h', a') →
          h <+: h' ∧ WF h' ∧ IsCopy m h a h' a' := by
        intro hk e
        rw [bind_ok_iff] at e
        obtain ⟨⟨h1, ks⟩, e1, e⟩ := e
        injection e with e
        obtain ⟨rfl, rfl⟩ := Prod.mk.inj e
        have hkc := copyKids_ok (pytree_deepcopy n) (fun h a h' a' => deepcopy_ok n h a h' a') o.kids h h1 ks hw hm hc
          (hc a o ha ho) e1
        obtain ⟨w, c⟩ := isCopy_node hw hm ho hk hkc
        exact ⟨hkc.pre.trans (List.prefix_append _ _), w, c⟩
      have kept : o.kind.kept → (.ok (h, a) : Py (Heap D × Nat)) = .ok (h', a') →
          h <+: h' ∧ WF h' ∧ IsCopy m h a h' a' := by
        intro hk e
        injection e with e
        obtain ⟨rfl, rfl⟩ := Prod.mk.inj e
        exact ⟨List.prefix_refl _, hw, isCopy_kept hm hc ha ho hk⟩
      have leaf : o.kind.leaf → (.ok (alloc h o) : Py (Heap D × Nat)) = .ok (h', a') →
          h <+: h' ∧ WF h' ∧ IsCopy m h a h' a' := by
        intro hk e
        injection e with e
        obtain ⟨rfl, rfl⟩ := Prod.mk.inj e
        have hkk := hw.leaf a o ho hk
        exact ⟨List.prefix_append _ _, wf_alloc hw o (by simp [hkk]) (by simp [hkk]) (fun _ => hkk),
          isCopy_leaf hm ho hkk⟩
      cases hk : o.kind <;> rw [hk] at e node kept leaf <;> dsimp only at e
      case number => exact kept trivial e
      case jax => exact kept trivial e
      case base => exact kept trivial e
      case npArray => exact leaf trivial e
      case npScalar => exact leaf trivial e
      case text => cases e
      case other => cases e
      case list => exact node (fun h => h) e
      case tuple => exact node (fun h => h) e
      case namedTuple => exact node (fun h => h) e
      case dict => exact node (fun h => h) e

theorem closed_all {h : Heap D} (hw : WF h) : Closed h h.length := fun i o _ ho x hx => hw.lt i o ho x hx

theorem deepcopy_isCopy {n : Nat} {h : Heap D} {a : Nat} {h' : Heap D} {a' : Nat} (hw : WF h) (ha : a < h.length)
    (e : pytree_deepcopy n h a = .ok (h', a')) : h <+: h' ∧ WF h' ∧ IsCopy h.length h a h' a' :=
  deepcopy_ok n h a h' a' hw le_rfl (closed_all hw) ha e

/-! ## Programs -/

/-- what a program that holds `K` can get at -/
inductive Reach (h : Heap D) (K : Set Nat) : Nat → Prop where
  | held {b : Nat} (hb : b ∈ K) : Reach h K b
  | kid {b : Nat} {o : Obj D} {x : String × Nat} (hb : Reach h K b) (ho : h[b]? = some o) (hx : x ∈ o.kids) :
      Reach h K x.2

theorem lookup_nodup {l : List (String × Nat)} (hn : (l.map Prod.fst).Nodup) {x : String × Nat} (hx : x ∈ l) :
    l.lookup x.1 = some x.2 := by
  induction l with
  | nil => cases hx
  | cons y r ih =>
    rw [List.map_cons, List.nodup_cons] at hn
    rw [List.lookup_cons]
    rcases List.mem_cons.mp hx with rfl | hx'
    · simp
    · have hne : x.1 ≠ y.1 := fun e => hn.1 (e ▸ List.mem_map_of_mem hx')
      have : (x.1 == y.1) = false := by simpa using hne
      rw [this]
      exact ih hn.2 hx'

/-- what is reached along a child of what is reached along a path -/
theorem follow_snoc {h : Heap D} (hw : WF h) : ∀ (p : List String) (a b : Nat) (o : Obj D) (x : String × Nat),
    follow h a p = some b → h[b]? = some o → x ∈ o.kids → follow h a (p ++ [x.1]) = some x.2
  | [], a, b, o, x, e, ho, hx => by
    rw [follow] at e
    split at e
    · injection e with e
      subst e
      rw [List.nil_append, follow_cons ho, lookup_nodup (hw.nodup a o ho) hx, Option.bind_some, follow,
        if_pos (hw.lt a o ho x hx)]
    · cases e
  | k :: p, a, b, o, x, e, ho, hx => by
    rw [List.cons_append, follow]
    rw [follow] at e
    cases ho' : h[a]? with
    | none => rw [ho'] at e; cases e
    | some o' =>
      rw [ho', Option.bind_some] at e
      rw [Option.bind_some]
      cases hl : o'.kids.lookup k with
      | none => rw [hl] at e; cases e
      | some c =>
        rw [hl, Option.bind_some] at e
        rw [Option.bind_some]
        exact follow_snoc hw p c b o x e ho hx

theorem reach_follow {h : Heap D} (hw : WF h) {a : Nat} (ha : a < h.length) {b : Nat} (hr : Reach h {a} b) :
    ∃ p, follow h a p = some b := by
  induction hr with
  | held hb => exact ⟨[], by rw [Set.mem_singleton_iff.mp hb, follow, if_pos ha]⟩
  | @kid b o x _ ho hx ih =>
    obtain ⟨p, hp⟩ := ih
    exact ⟨p ++ [x.1], follow_snoc hw p a b o x hp ho hx⟩

/-- the program can get at the first objects only where they cannot be changed and have no children -/
def Safe (h0 : Heap D) (s : Heap D × Set Nat) : Prop :=
  h0 <+: s.1 ∧ ∀ b, Reach s.1 s.2 b → b < h0.length → ∃ o, h0[b]? = some o ∧ ¬ o.kind.mutable ∧ o.kids = []

theorem safe_step {h0 : Heap D} {s t : Heap D × Set Nat} (hs : Safe h0 s) (hst : Step s t)
    (hdef : ∀ b ∈ s.2, b < s.1.length) : Safe h0 t ∧ ((∀ (i : Nat) (o : Obj D), s.1[i]? = some o → ∀ x ∈ o.kids, x.2 < s.1.length) →
      (∀ b ∈ t.2, b < t.1.length) ∧ ∀ (i : Nat) (o : Obj D), t.1[i]? = some o → ∀ x ∈ o.kids, x.2 < t.1.length) := by
  cases hst with
  | @load h K b o x hb ho hx =>
    refine ⟨⟨hs.1, fun c hc hl => hs.2 c ?_ hl⟩, fun hk => ⟨?_, hk⟩⟩
    · dsimp only at hc ⊢
      clear hl
      induction hc with
      | held hb' =>
        rcases Set.mem_insert_iff.mp hb' with rfl | h2
        · exact Reach.kid (Reach.held hb) ho hx
        · exact Reach.held h2
      | kid _ ho' hx' ih => exact Reach.kid ih ho' hx'
    · intro c hc
      rcases Set.mem_insert_iff.mp hc with rfl | h2
      · exact hk b o ho x hx
      · exact hdef c h2
  | @new h K o hk =>
    have hlen : h0.length ≤ h.length := hs.1.length_le
    have key : ∀ c, Reach (h ++ [o]) (insert h.length K) c → c = h.length ∨ Reach h K c := by
      intro c hc
      induction hc with
      | held hb' => exact (Set.mem_insert_iff.mp hb').imp id Reach.held
      | @kid c o' x _ ho' hx' ih =>
        rcases ih with rfl | ih
        · have : o' = o := by simpa using ho'.symm
          subst this
          exact Or.inr (Reach.held (hk x hx'))
        · rw [List.getElem?_append] at ho'
          split at ho'
          · exact Or.inr (Reach.kid ih ho' hx')
          · have : o' = o := by simpa using List.mem_of_getElem? ho'
            subst this
            exact Or.inr (Reach.held (hk x hx'))
    refine ⟨⟨hs.1.trans (List.prefix_append _ _), fun c hc hl => ?_⟩, fun hk' => ⟨?_, ?_⟩⟩
    · rcases key c hc with rfl | h2
      · omega
      · exact hs.2 c h2 hl
    · intro c hc
      rw [List.length_append]
      rcases Set.mem_insert_iff.mp hc with rfl | h2
      · simp
      · have := hdef c h2; dsimp only at this; omega
    · intro i o' ho' x hx
      dsimp only at ho' ⊢
      rw [List.length_append]
      rw [List.getElem?_append] at ho'
      split at ho'
      · have := hk' i o' ho' x hx; dsimp only at this; omega
      · have : o' = o := by simpa using List.mem_of_getElem? ho'
        subst this
        have := hdef x.2 (hk x hx); dsimp only at this; omega
  | @write h K b o hb ho hm d kids hk =>
    have hb0 : h0.length ≤ b := by
      by_contra hlt
      obtain ⟨o', ho', hm', -⟩ := hs.2 b (Reach.held hb) (by omega)
      have : h[b]? = h0[b]? := get_pre hs.1 (by omega)
      rw [ho, ho'] at this
      injection this with this
      exact hm' (this ▸ hm)
    have hset : ∀ (i : Nat) (o' : Obj D), (h.set b ⟨o.kind, d, kids⟩)[i]? = some o' →
        h[i]? = some o' ∨ o' = ⟨o.kind, d, kids⟩ := by
      intro i o' ho'
      rw [List.getElem?_set] at ho'
      split at ho'
      · split at ho'
        · injection ho' with ho'; exact Or.inr ho'.symm
        · cases ho'
      · exact Or.inl ho'
    have key : ∀ c, Reach (h.set b ⟨o.kind, d, kids⟩) K c → Reach h K c := by
      intro c hc
      induction hc with
      | held hb' => exact Reach.held hb'
      | @kid c o' x _ ho' hx' ih =>
        rcases hset c o' ho' with h2 | rfl
        · exact Reach.kid ih h2 hx'
        · exact Reach.held (hk x hx')
    refine ⟨⟨?_, fun c hc hl => hs.2 c (key c hc) hl⟩, fun hk' => ⟨?_, ?_⟩⟩
    · obtain ⟨t, ht⟩ := hs.1
      dsimp only at ht ⊢
      subst ht
      refine ⟨t.set (b - h0.length) ⟨o.kind, d, kids⟩, ?_⟩
      rw [List.set_append, if_neg (by omega)]
    · intro c hc
      rw [List.length_set]
      exact hdef c hc
    · intro i o' ho' x hx
      rw [List.length_set]
      rcases hset i o' ho' with h2 | rfl
      · exact hk' i o' h2 x hx
      · exact hdef x.2 (hk x hx)

theorem safe_run {h0 : Heap D} {s t : Heap D × Set Nat} (r : Run s t) (hs : Safe h0 s)
    (hdef : ∀ b ∈ s.2, b < s.1.length) (hk : ∀ (i : Nat) (o : Obj D), s.1[i]? = some o → ∀ x ∈ o.kids, x.2 < s.1.length) :
    Safe h0 t := by
  induction r with
  | done s => exact hs
  | step h _ ih =>
    obtain ⟨h1, h2⟩ := safe_step hs h hdef
    exact ih h1 (h2 hk).1 (h2 hk).2

/-! ## What is proved -/

variable {n : Nat} {h : Heap D} {a : Nat} {h' : Heap D} {a' : Nat}

/-- C102: making the copy changes no object. -/
theorem C102_keeps (hw : WF h) (ha : a < h.length) (e : pytree_deepcopy n h a = .ok (h', a')) (b : Nat)
    (hb : b < h.length) (p : List String) : h'[b]? = h[b]? ∧ seen h' b p = seen h b p := by
  obtain ⟨hp, -, -⟩ := deepcopy_isCopy hw ha e
  exact ⟨get_pre hp hb, seen_pre hp hw p b hb⟩

/-- C102: along every path the copy has the data, keys and kind of the original, but for named tuples, which
become tuples. -/
theorem C102_like (hw : WF h) (ha : a < h.length) (e : pytree_deepcopy n h a = .ok (h', a')) (p : List String) :
    Option.Rel Like (seen h a p) (seen h' a' p) :=
  (deepcopy_isCopy hw ha e).2.2.same p

/-- C102: without named tuples the copy is the same along every path. Partial: the copy of a named tuple is none
(`C102_namedtuple_fails`). -/
theorem C102_same_partial (hw : WF h) (ha : a < h.length) (e : pytree_deepcopy n h a = .ok (h', a'))
    (hn : Without .namedTuple h a) (p : List String) : seen h' a' p = seen h a p := by
  have := C102_like hw ha e p
  cases hs : seen h a p with
  | none =>
    rw [hs] at this
    cases hs' : seen h' a' p with
    | none => rfl
    | some y => rw [hs'] at this; cases this
  | some x =>
    rw [hs] at this
    cases hs' : seen h' a' p with
    | none => rw [hs'] at this; cases this
    | some y =>
      rw [hs'] at this
      cases this with
      | some hl =>
        rcases hl.2 with h1 | h1
        · rw [Prod.ext_iff.mpr ⟨h1, hl.1⟩]
        · exact absurd (hs.trans (by rw [← h1.1])) (hn p x.2)

/-- C102: the copy of a tree without `_Base` shares with the memory before only numbers and arrays of jax, which
cannot be changed. Partial: a `_Base` is shared with all below it (`C102_base_fails`). -/
theorem C102_fresh_partial (hw : WF h) (ha : a < h.length) (e : pytree_deepcopy n h a = .ok (h', a'))
    (hn : Without .base h a) (p : List String) (b : Nat) (hf : follow h' a' p = some b) (hb : b < h.length) :
    ∃ d, seen h' a' p = some (.number, d) ∨ seen h' a' p = some (.jax, d) := by
  obtain ⟨hp, hw', c⟩ := deepcopy_isCopy hw ha e
  obtain ⟨q, l, ⟨t, ht⟩, hs, hk⟩ := c.own p b hf hb
  have hl : l.1 = .number ∨ l.1 = .jax := by
    obtain ⟨k, d⟩ := l
    have := c.same q
    rw [hs] at this
    cases hs' : seen h a q with
    | none => rw [hs'] at this; cases this
    | some x =>
      rw [hs'] at this
      cases this with
      | some hl =>
        cases k <;> first | exact Or.inl rfl | exact Or.inr rfl | exact hk.elim | skip
        rcases hl.2 with h1 | h1
        · exact absurd (hs'.trans (congrArg some (Prod.ext h1 hl.1))) (hn q d)
        · cases h1.2
  have hq : follow h' a' q = some b ∧ q = p := by
    rw [seen] at hs
    cases hfq : follow h' a' q with
    | none => rw [hfq] at hs; cases hs
    | some c' =>
      rw [hfq, Option.bind_some] at hs
      cases ho : h'[c']? with
      | none => rw [ho] at hs; cases hs
      | some o =>
        rw [ho, Option.map_some] at hs
        injection hs with hs
        have hok : o.kind = l.1 := by rw [← hs]
        have hkids : o.kids = [] := hw'.leaf c' o ho (by rw [hok]; rcases hl with h2 | h2 <;> rw [h2] <;> trivial)
        have ht0 : t = [] := by
          by_contra hne
          have hfp : follow h' a' (q ++ t) = follow h' c' t := by
            clear hf hb ht hs hn
            clear hp c
            have : ∀ (q : List String) (a : Nat), follow h' a q = some c' → follow h' a (q ++ t) = follow h' c' t := by
              intro q
              induction q with
              | nil =>
                intro a e
                rw [follow] at e
                split at e
                · injection e with e; rw [e]; rfl
                · cases e
              | cons k q ih =>
                intro a e
                rw [follow] at e
                rw [List.cons_append, follow]
                cases ho' : h'[a]? with
                | none => rw [ho'] at e; cases e
                | some o' =>
                  rw [ho', Option.bind_some] at e
                  rw [Option.bind_some]
                  cases hl : o'.kids.lookup k with
                  | none => rw [hl] at e; cases e
                  | some c1 =>
                    rw [hl, Option.bind_some] at e
                    rw [Option.bind_some]
                    exact ih c1 e
            exact this q a' hfq
          rw [ht, hf] at hfp
          exact hne (follow_leaf ho hkids t b hfp.symm).1
        rw [ht0, List.append_nil] at ht
        rw [ht] at hfq
        rw [hf] at hfq
        exact ⟨by rw [hfq], ht⟩
  rw [hq.2] at hs
  obtain ⟨k, d⟩ := l
  exact ⟨d, hl.imp (fun e => by rw [hs]; dsimp only at e; rw [e]) (fun e => by rw [hs]; dsimp only at e; rw [e])⟩

/-- C102: in the copy nothing new is reached along two paths, even if the original has one object in two places. -/
theorem C102_unshared (hw : WF h) (ha : a < h.length) (e : pytree_deepcopy n h a = .ok (h', a')) (p q : List String)
    (b : Nat) (hb : h.length ≤ b) (hp : follow h' a' p = some b) (hq : follow h' a' q = some b) : p = q :=
  (deepcopy_isCopy hw ha e).2.2.tree p q b hb hp hq

/-- C102: whatever a program that gets the copy of a tree without `_Base` does, no object of the memory before
changes. Partial: with a `_Base` it can (`C102_base_fails`). -/
theorem C102_frame_partial (hw : WF h) (ha : a < h.length) (e : pytree_deepcopy n h a = .ok (h', a'))
    (hn : Without .base h a) (t : Heap D × Set Nat) (r : Run (h', {a'}) t) (b : Nat) (hb : b < h.length)
    (p : List String) : t.1[b]? = h[b]? ∧ seen t.1 b p = seen h b p := by
  obtain ⟨hp, hw', c⟩ := deepcopy_isCopy hw ha e
  have hs : Safe h (h', {a'}) := by
    refine ⟨hp, fun b hr hb => ?_⟩
    obtain ⟨p, hf⟩ := reach_follow hw' c.lt hr
    obtain ⟨d, hd⟩ := C102_fresh_partial hw ha e hn p b hf hb
    obtain ⟨o, ho⟩ : ∃ o, h[b]? = some o := ⟨h[b], List.getElem?_eq_getElem hb⟩
    have ho' : h'[b]? = some o := by rw [get_pre hp hb, ho]
    rw [seen, hf, Option.bind_some, ho', Option.map_some] at hd
    refine ⟨o, ho, ?_, ?_⟩
    · rcases hd with hd | hd <;> injection hd with hd <;> rw [(Prod.mk.inj hd).1] <;> exact fun h => h
    · refine hw.leaf b o ho ?_
      rcases hd with hd | hd <;> injection hd with hd <;> rw [(Prod.mk.inj hd).1] <;> trivial
  have := safe_run r hs (fun b hb => by rw [Set.mem_singleton_iff.mp hb]; exact c.lt) hw'.lt
  exact ⟨get_pre this.1 hb, seen_pre this.1 hw p b hb⟩

theorem follow_snoc' {k : String} {c : Nat} {o : Obj D} (ho : h[a]? = some o) (hx : o.kids.lookup k = some c)
    (p : List String) : follow h a (k :: p) = follow h c p ∧ seen h a (k :: p) = seen h c p := by
  constructor
  · rw [follow_cons ho, hx, Option.bind_some]
  · rw [seen_cons ho, hx, Option.bind_some]

/-- trees of objects with a copy -/
def Copyable (n : Nat) (h : Heap D) (a : Nat) : Prop :=
  (∀ p b, follow h a p = some b → p.length < n) ∧
    ∀ p l, seen h a p = some l → l.1 ≠ .text ∧ l.1 ≠ .other

theorem copyKids_total (f : Heap D → Nat → Py (Heap D × Nat)) (h0 : Heap D)
    (hf : ∀ (h : Heap D) (a : Nat) (h' : Heap D) (a' : Nat), WF h → h0.length ≤ h.length → Closed h h0.length →
      a < h0.length → f h a = .ok (h', a') → h <+: h' ∧ WF h' ∧ IsCopy h0.length h a h' a') :
    ∀ (ks : List (String × Nat)) (h : Heap D), WF h → h0 <+: h → Closed h h0.length → (∀ x ∈ ks, x.2 < h0.length) →
      (∀ x ∈ ks, ∀ g : Heap D, WF g → h0 <+: g → ∃ r, f g x.2 = .ok r) → ∃ r, copyKids f h ks = .ok r
  | [], h, _, _, _, _, _ => ⟨_, rfl⟩
  | x :: r, h, hw, hp, hc, hl, ht => by
    obtain ⟨⟨h1, a1⟩, e1⟩ := ht x List.mem_cons_self h hw hp
    obtain ⟨p1, w1, -⟩ := hf h x.2 h1 a1 hw hp.length_le hc (hl x List.mem_cons_self) e1
    obtain ⟨⟨h2, r2⟩, e2⟩ := copyKids_total f h0 hf r h1 w1 (hp.trans p1) (closed_pre p1 hp.length_le hc)
      (fun y hy => hl y (List.mem_cons_of_mem _ hy)) (fun y hy => ht y (List.mem_cons_of_mem _ hy))
    exact ⟨_, by rw [copyKids, e1, ok_bind, e2, ok_bind]⟩

theorem deepcopy_total {h0 : Heap D} (hw0 : WF h0) : ∀ (n : Nat) (h : Heap D) (a : Nat), WF h → h0 <+: h →
    a < h0.length → Copyable n h0 a → ∃ r, pytree_deepcopy n h a = .ok r
  | 0, h, a, _, _, ha, hc => by
    have := hc.1 [] a (by rw [follow, if_pos ha])
    simp at this
  | n + 1, h, a, hw, hp, ha, hc => by
    obtain ⟨o, ho⟩ : ∃ o, h0[a]? = some o := ⟨h0[a], List.getElem?_eq_getElem ha⟩
    have ho' : h[a]? = some o := by rw [get_pre hp ha, ho]
    have hk := hc.2 [] _ (seen_nil ho)
    have hcl : Closed h h0.length := closed_pre hp le_rfl (closed_all hw0)
    have node : ∃ r, (do
        let s ← copyKids (pytree_deepcopy n) h o.kids
        .ok (alloc s.1 ⟨rebuilt o.kind, o.data, s.2⟩) : Py (Heap D × Nat)) = .ok r := by
      obtain ⟨s, hs⟩ := copyKids_total (pytree_deepcopy n) h0 (fun h a h' a' => deepcopy_ok n h a h' a') o.kids h hw hp
        hcl (fun x hx => hw0.lt a o ho x hx) (fun x hx g hg hpg => by
          have hlk := lookup_nodup (hw0.nodup a o ho) hx
          refine deepcopy_total hw0 n g x.2 hg hpg (hw0.lt a o ho x hx) ⟨fun p b hf => ?_, fun p l hs => ?_⟩
          · have := hc.1 (x.1 :: p) b (by rw [(follow_snoc' ho hlk p).1]; exact hf)
            rw [List.length_cons] at this
            omega
          · exact hc.2 (x.1 :: p) l (by rw [(follow_snoc' ho hlk p).2]; exact hs))
      exact ⟨_, by rw [hs, ok_bind]⟩
    rw [pytree_deepcopy, ho']
    dsimp only
    cases hk' : o.kind <;> rw [hk'] at hk node <;> dsimp only
    case text => exact absurd rfl hk.1
    case other => exact absurd rfl hk.2
    case list => exact node
    case tuple => exact node
    case namedTuple => exact node
    case dict => exact node
    all_goals exact ⟨_, rfl⟩

/-- C102: a tree that is not deeper than the recursion limit, of numbers, arrays, lists, tuples, dictionaries and
`_Base`, has a copy. Partial: strings and other objects have none (`C102_text_fails`), nor have cycles
(`C102_cycle_fails`). -/
theorem C102_total_partial (hw : WF h) (ha : a < h.length) (hc : Copyable n h a) :
    ∃ r, pytree_deepcopy n h a = .ok r :=
  deepcopy_total hw n h a hw (List.prefix_refl _) ha hc

/-- C102: strings and other objects raise. -/
theorem C102_text_fails (o : Obj D) (ho : h[a]? = some o) :
    (o.kind = .text → pytree_deepcopy (n + 1) h a = .error .attribute) ∧
      (o.kind = .other → pytree_deepcopy (n + 1) h a = .error .notImplemented) := by
  constructor <;> intro hk <;> rw [pytree_deepcopy, ho] <;> dsimp only <;> rw [hk]

/-- C102: a list that contains itself has no copy, whatever the recursion limit. -/
theorem C102_cycle_fails (d : D) : ∀ n : Nat, pytree_deepcopy n [⟨.list, d, [("0", 0)]⟩] 0 = .error .recursion
  | 0 => rfl
  | n + 1 => by
    rw [pytree_deepcopy]
    have : copyKids (pytree_deepcopy n) [(⟨.list, d, [("0", 0)]⟩ : Obj D)] [("0", 0)] = .error .recursion := by
      rw [copyKids, C102_cycle_fails d n]; rfl
    show (do
      let s ← copyKids (pytree_deepcopy n) [(⟨.list, d, [("0", 0)]⟩ : Obj D)] [("0", 0)]
      .ok (alloc s.1 ⟨rebuilt .list, d, s.2⟩) : Py (Heap D × Nat)) = _
    rw [this]; rfl

/-- C102: the copy of a named tuple is not a named tuple. -/
theorem C102_namedtuple_fails (hw : WF h) (o : Obj D) (ho : h[a]? = some o) (hk : o.kind = .namedTuple)
    (e : pytree_deepcopy n h a = .ok (h', a')) : seen h' a' [] = some (.tuple, o.data, o.kids.map Prod.fst) := by
  cases n with
  | zero => rw [pytree_deepcopy] at e; cases e
  | succ n =>
    have ha : a < h.length := (List.getElem?_eq_some_iff.mp ho).1
    have hl := C102_like hw ha e []
    rw [pytree_deepcopy, ho] at e
    dsimp only at e
    rw [hk] at e
    dsimp only at e
    rw [bind_ok_iff] at e
    obtain ⟨s, -, e⟩ := e
    injection e with e
    obtain ⟨rfl, rfl⟩ := Prod.mk.inj e
    rw [seen_nil ho, seen_nil (o := ⟨rebuilt .namedTuple, o.data, s.2⟩) (by simp)] at hl
    rw [seen_nil (o := ⟨rebuilt .namedTuple, o.data, s.2⟩) (by simp)]
    cases hl with
    | some hl =>
      have h2 : o.kids.map Prod.fst = s.2.map Prod.fst := (Prod.mk.inj hl.1).2
      rw [h2]; rfl

/-- C102: what is done to the copy of a `_Base` that holds arrays of numpy is done to the original. -/
theorem C102_base_fails : ∃ (h h' : Heap Nat) (a a' : Nat) (t : Heap Nat × Set Nat), WF h ∧
    pytree_deepcopy 5 h a = .ok (h', a') ∧ Run (h', {a'}) t ∧ seen t.1 a ["pos"] ≠ seen h a ["pos"] := by
  let h : Heap Nat := [⟨.npArray, 1, []⟩, ⟨.base, 0, [("pos", 0)]⟩]
  refine ⟨h, h, 1, 1, (h.set 0 ⟨.npArray, 2, []⟩, insert 0 {1}), ?_, rfl, ?_, ?_⟩
  · refine ⟨?_, ?_, ?_⟩ <;> intro i o ho <;> rcases i with _ | _ | i <;> simp [h] at ho <;> subst ho <;>
      simp [h, Kind.leaf]
  · refine Run.step (Step.load (b := 1) (o := ⟨.base, 0, [("pos", 0)]⟩) (x := ("pos", 0)) rfl rfl (by simp))
      (Run.step ?_ (Run.done _))
    exact Step.write (o := ⟨.npArray, 1, []⟩) (Set.mem_insert _ _) rfl trivial 2 [] (by simp)
  · decide

/-- the hypotheses are met: a dictionary with an array of numpy in two places and a number, in a memory with another
list that also holds the array -/
def exHeap : Heap Nat :=
  [⟨.npArray, 7, []⟩, ⟨.number, 3, []⟩, ⟨.dict, 0, [("x", 0), ("y", 0), ("dt", 1)]⟩, ⟨.list, 0, [("0", 0)]⟩]

theorem exHeap_wf : WF exHeap := by
  refine ⟨?_, ?_, ?_⟩ <;> intro i o ho <;> rcases i with _ | _ | _ | _ | i <;> simp [exHeap] at ho <;> subst ho <;>
    simp [exHeap, Kind.leaf]

theorem exHeap_follow (p : List String) (b : Nat) (hf : follow exHeap 2 p = some b) :
    p = [] ∧ b = 2 ∨ p.length = 1 ∧ (b = 0 ∨ b = 1) := by
  cases p with
  | nil => left; simpa [follow, exHeap, eq_comm] using hf
  | cons k p =>
    right
    rw [follow_cons (o := ⟨.dict, 0, [("x", 0), ("y", 0), ("dt", 1)]⟩) rfl] at hf
    cases hl : ([("x", 0), ("y", 0), ("dt", 1)] : List (String × Nat)).lookup k with
    | none => rw [hl] at hf; cases hf
    | some c =>
      rw [hl, Option.bind_some] at hf
      have hm := lookup_mem hl
      simp only [List.mem_cons, Prod.mk.injEq, List.not_mem_nil, or_false] at hm
      rcases hm with ⟨-, rfl⟩ | ⟨-, rfl⟩ | ⟨-, rfl⟩
      · obtain ⟨rfl, rfl⟩ := follow_leaf (o := ⟨.npArray, 7, []⟩) rfl rfl p b hf
        exact ⟨rfl, Or.inl rfl⟩
      · obtain ⟨rfl, rfl⟩ := follow_leaf (o := ⟨.npArray, 7, []⟩) rfl rfl p b hf
        exact ⟨rfl, Or.inl rfl⟩
      · obtain ⟨rfl, rfl⟩ := follow_leaf (o := ⟨.number, 3, []⟩) rfl rfl p b hf
        exact ⟨rfl, Or.inr rfl⟩

theorem exHeap_seen (p : List String) (l : Kind × Nat × List String) (hs : seen exHeap 2 p = some l) :
    l.1 = .dict ∨ l.1 = .npArray ∨ l.1 = .number := by
  rw [seen] at hs
  cases hf : follow exHeap 2 p with
  | none => rw [hf] at hs; cases hs
  | some b =>
    rw [hf, Option.bind_some] at hs
    rcases exHeap_follow p b hf with ⟨-, rfl⟩ | ⟨-, rfl | rfl⟩ <;> injection hs with hs <;> subst hs <;> simp

/-- The copy has two arrays; the program changes the first, by which neither the second nor the list changes. -/
example : ∃ (h' : Heap Nat) (t : Heap Nat × Set Nat), WF exHeap ∧ 2 < exHeap.length ∧ Copyable 2 exHeap 2 ∧
    Without .base exHeap 2 ∧ Without .namedTuple exHeap 2 ∧ pytree_deepcopy 2 exHeap 2 = .ok (h', 6) ∧
    Run (h', {6}) t ∧ seen t.1 6 ["x"] = some (.npArray, 8, []) ∧ seen t.1 6 ["y"] = some (.npArray, 7, []) ∧
    seen t.1 3 ["0"] = some (.npArray, 7, []) := by
  let h' : Heap Nat := exHeap ++ [⟨.npArray, 7, []⟩, ⟨.npArray, 7, []⟩, ⟨.dict, 0, [("x", 4), ("y", 5), ("dt", 1)]⟩]
  refine ⟨h', (h'.set 4 ⟨.npArray, 8, []⟩, insert 4 {6}), exHeap_wf, by simp [exHeap], ⟨?_, ?_⟩, ?_, ?_, rfl, ?_,
    by decide, by decide, by decide⟩
  · intro p b hf
    rcases exHeap_follow p b hf with ⟨rfl, -⟩ | ⟨hl, -⟩
    · simp
    · omega
  · intro p l hs
    rcases exHeap_seen p l hs with h2 | h2 | h2 <;> rw [h2] <;> exact ⟨by decide, by decide⟩
  · intro p d hs
    have := exHeap_seen p _ hs
    simp at this
  · intro p d hs
    have := exHeap_seen p _ hs
    simp at this
  · refine Run.step (Step.load (b := 6) (o := ⟨.dict, 0, [("x", 4), ("y", 5), ("dt", 1)]⟩) (x := ("x", 4)) rfl rfl
      (by simp)) (Run.step ?_ (Run.done _))
    exact Step.write (o := ⟨.npArray, 7, []⟩) (Set.mem_insert _ _) rfl trivial 8 [] (by simp)

end RingLib.deepcopy
