import Verif.Lemmas.Forest
import Verif.Props.InvKin
import Verif.Props.Filters

/-!
# C06: `identify_system` renumbers a tree depth-first
-/

namespace RingLib
namespace morph
open System
variable {α π : Type} {P : List Int}

/-! ## specification -/

/-- Depth-first preorder: every link is followed directly by the links below it. -/
structure Preorder (P : List Int) : Prop where
  topo : Topological P
  block : ∀ a b c, a ≤ b → b ≤ c → Desc P a c → Desc P a b

/-- `perm` lists the links of the forest `P` in depth-first preorder with siblings in the order of their
numbers, and `np` are the parents in the new numbering. -/
structure Renumbered (P : List Int) (perm : List Nat) (np : List Int) : Prop where
  /-- every link gets exactly one new number -/
  bijection : perm.Perm (List.range P.length)
  len : np.length = P.length
  /-- the parents are those asked for -/
  world : ∀ k i : Nat, perm[k]? = some i → P[i]? = some (-1) → np[k]? = some (-1)
  parent : ∀ k i p : Nat, perm[k]? = some i → P[i]? = some (p : Int) →
    ∃ m : Nat, np[k]? = some (m : Int) ∧ perm[m]? = some p
  preorder : Preorder np
  siblings : ∀ (j k x y : Nat) (p : Int), np[j]? = some p → np[k]? = some p → j < k →
    perm[j]? = some x → perm[k]? = some y → x < y

/-- a link whose parent changes becomes the child of one of its former children, or of the world -/
def OnlyReversed (lam P : List Int) : Prop :=
  ∀ i p : Nat, P[i]? = some (p : Int) → lam[i]? ≠ some (p : Int) → lam[p]? = some (i : Int)

/-! ## proofs -/

theorem pyGet_snoc_last (l : List Int) : pyGet (l ++ [-1]) (-1) = .ok (-1) := by
  unfold pyGet
  have h1 : ¬ ((-1 : Int) + ((l ++ [-1]).length : Int) < 0) := by simp
  have h2 : ((-1 : Int) + ((l ++ [-1]).length : Int)).toNat = l.length := by simp
  simp only [show (-1 : Int) < 0 by omega, if_true, if_neg h1, h2]
  simp

theorem pyGet_snoc (l : List Int) {i : Nat} {x : Int} (h : l[i]? = some x) :
    pyGet (l ++ [-1]) (i : Int) = .ok x := by
  apply pyGet_nat
  rw [List.getElem?_append_left (List.getElem?_eq_some_iff.1 h).1, h]

theorem pyIndex_search {l : List Nat} {x : Nat} (h : x ∈ l) :
    pyIndex (l.map Int.ofNat ++ [-1]) (x : Int) = .ok (l.idxOf x) := by
  have : (l.map Int.ofNat ++ [-1]).idxOf? (x : Int) = some (l.idxOf x) := by
    rw [List.idxOf?_eq_some_iff]
    have hl := List.idxOf_lt_length_of_mem h
    refine ⟨by simp; omega, ?_, ?_⟩
    · rw [List.getElem_append_left (by simpa using hl), List.getElem_map, List.getElem_idxOf hl]
      rfl
    · intro j hj
      have hj' : j < l.length := by omega
      rw [List.getElem_append_left (by simpa using hj'), List.getElem_map]
      intro e
      have e' : l[j] = x := by simpa using e
      have := List.not_of_lt_findIdx (p := (· == x)) (xs := l) (i := j) hj
      simp only [beq_eq_false_iff_ne, ne_eq] at this
      exact this e'
  unfold pyIndex
  rw [this]

theorem pyIndex_absent {l : List Nat} {x : Nat} (h : x ∉ l) :
    pyIndex (l.map Int.ofNat ++ [-1]) (x : Int) = .error .value := by
  have : (l.map Int.ofNat ++ [-1]).idxOf? (x : Int) = none := by
    rw [List.idxOf?_eq_none_iff]
    simp only [List.mem_append, List.mem_map, List.mem_singleton, not_or, not_exists, not_and]
    refine ⟨?_, by omega⟩
    rintro y hy e
    have : y = x := by simpa using e
    subst this
    exact h hy
  unfold pyIndex
  rw [this]

/-- C06: if the parents asked for are not a forest (they contain a cycle, or are not links at all), an
error is raised. -/
theorem C06_cycle (s : System α π) (checks : Bool) {new_parents : List (Int ⊕ String)}
    (hres : new_parents.mapM (resolveParent s) = .ok P) (h : ¬ Forest P) :
    identify_system s new_parents checks = .error .value := by
  obtain ⟨l, h1, h2, -, -⟩ := search_ok P
  have hbad : ∃ i < P.length, i ∉ l := by
    by_contra hc
    push Not at hc
    exact h (forest_iff.2 fun i hi => ((h2 i).1 (hc i hi)).2)
  have ho : _old_to_new_indices P = .error .value := by
    unfold _old_to_new_indices _new_to_old_indices
    rw [h1]
    simp only [ok_bind, pure_ok]
    have key : ∀ r : List Nat, (∃ i ∈ r, i ∉ l) →
        (r.mapM fun new : Nat => pyIndex (l.map Int.ofNat ++ [-1]) (new : Int)) = .error .value := by
      intro r
      induction r with
      | nil => rintro ⟨i, hi, -⟩; cases hi
      | cons a r ih =>
        rintro ⟨i, hi, hil⟩
        rw [List.mapM_cons]
        by_cases ha : a ∈ l
        · rw [pyIndex_search ha, ok_bind, ih ?_]
          · rfl
          · rcases List.mem_cons.1 hi with rfl | hi
            · exact absurd ha hil
            · exact ⟨i, hi, hil⟩
        · rw [pyIndex_absent ha]
          rfl
    obtain ⟨i, hi, hil⟩ := hbad
    rw [key _ ⟨i, List.mem_range.2 hi, hil⟩]
    rfl
  unfold identify_system
  rw [hres, ok_bind]
  have hn : _new_to_old_indices P = .ok (l.map Int.ofNat ++ [-1]) := by
    unfold _new_to_old_indices
    rw [h1]
    rfl
  rw [hn, ok_bind, ho]
  rfl

/-- the new number of the parent `p` -/
def renum (l : List Nat) (p : Int) : Int := if p = -1 then -1 else (l.idxOf p.toNat : Int)

theorem identify_ok {s : System α π} {checks : Bool} {new_parents : List (Int ⊕ String)}
    (hres : new_parents.mapM (resolveParent s) = .ok P) (h : Forest P)
    (hlen : P.length = s.num_links)
    (hlam : ∀ i (h : i < s.link_parents.length), -1 ≤ s.link_parents[i] ∧
      s.link_parents[i] < s.link_parents.length)
    (hchk : checks = true → OnlyReversed s.link_parents P) {l : List Nat}
    (hl : findChildsOf P (P.length + 1) (-1) = .ok l) (hmem : ∀ i, i ∈ l ↔ i < P.length) :
    identify_system s new_parents checks = .ok
      ((List.range P.length).map fun i : Nat => ⟨i, l.idxOf i, s.link_parents.getD i 0,
          renum l (s.link_parents.getD i 0), P.getD i 0, renum l (P.getD i 0),
          decide (P.getD i 0 ≠ s.link_parents.getD i 0)⟩,
        l.map Int.ofNat, l.map fun i => renum l (P.getD i 0)) := by
  have hn : _new_to_old_indices P = .ok (l.map Int.ofNat ++ [-1]) := by
    unfold _new_to_old_indices
    rw [hl]
    rfl
  have ho : _old_to_new_indices P =
      .ok (((List.range P.length).map l.idxOf).map Int.ofNat ++ [-1]) := by
    unfold _old_to_new_indices
    rw [hn, ok_bind, mapM_ok (g := l.idxOf) (fun x hx => pyIndex_search
      ((hmem x).2 (List.mem_range.1 hx))), ok_bind]
    rfl
  have hget : ∀ p : Int, -1 ≤ p → p < P.length →
      pyGet (((List.range P.length).map l.idxOf).map Int.ofNat ++ [-1]) p = .ok (renum l p) := by
    intro p h1 h2
    unfold renum
    by_cases h0 : p = -1
    · rw [if_pos h0, h0, pyGet_snoc_last]
    · rw [if_neg h0]
      obtain ⟨k, rfl⟩ : ∃ k : Nat, p = (k : Int) := ⟨p.toNat, by omega⟩
      apply pyGet_snoc
      have hk : k < P.length := by omega
      rw [List.getElem?_eq_getElem (by simpa using hk)]
      simp
  have hnl : s.link_parents.length = P.length := hlen.symm
  have hP : ∀ i < P.length, P[i]? = some (P.getD i 0) := by
    intro i hi
    rw [List.getD, List.getElem?_eq_getElem hi, Option.getD_some]
  have hL : ∀ i < P.length, s.link_parents[i]? = some (s.link_parents.getD i 0) := by
    intro i hi
    have hi' : i < s.link_parents.length := by omega
    rw [List.getD, List.getElem?_eq_getElem hi', Option.getD_some]
  have hPr : ∀ i < P.length, -1 ≤ P.getD i 0 ∧ P.getD i 0 < P.length := by
    intro i hi
    rw [List.getD, List.getElem?_eq_getElem hi, Option.getD_some]
    exact h.range i hi
  have hLr : ∀ i < P.length, -1 ≤ s.link_parents.getD i 0 ∧ s.link_parents.getD i 0 < P.length := by
    intro i hi
    have hi' : i < s.link_parents.length := by omega
    rw [List.getD, List.getElem?_eq_getElem hi', Option.getD_some]
    have := hlam i hi'
    omega
  unfold identify_system
  rw [hres, ok_bind, hn, ok_bind, ho, ok_bind]
  rw [← hlen, mapM_ok (l := List.range P.length) (g := fun i : Nat => (⟨i, l.idxOf i,
    s.link_parents.getD i 0, renum l (s.link_parents.getD i 0), P.getD i 0, renum l (P.getD i 0),
    decide (P.getD i 0 ≠ s.link_parents.getD i 0)⟩ : Node)), ok_bind]
  · dsimp only
    rw [List.dropLast_concat, mapM_ok (g := fun p : Int => P.getD p.toNat 0), ok_bind, mapM_ok
      (g := renum l), ok_bind]
    · simp only [List.map_map]
      rfl
    · intro p hp
      obtain ⟨x, hx, rfl⟩ := List.mem_map.1 hp
      obtain ⟨y, hy, rfl⟩ := List.mem_map.1 hx
      have hy' := (hmem y).1 hy
      have := hPr y hy'
      exact hget _ (by simpa using this.1) (by simpa using this.2)
    · intro p hp
      obtain ⟨y, hy, rfl⟩ := List.mem_map.1 hp
      exact pyGet_nat (hP y ((hmem y).1 hy))
  · intro i hi
    have hi' := List.mem_range.1 hi
    unfold identifyLink
    rw [pyGet_nat (hL i hi'), ok_bind, pyGet_nat (hP i hi'), ok_bind,
      hget i (by omega) (by omega), ok_bind, hget _ (hLr i hi').1 (hLr i hi').2, ok_bind,
      hget _ (hPr i hi').1 (hPr i hi').2, ok_bind]
    have e : renum l (i : Int) = (l.idxOf i : Int) := by
      unfold renum
      rw [if_neg (by omega)]
      simp
    rw [e]
    have hc : checkParent s checks (⟨i, l.idxOf i, s.link_parents.getD i 0,
        renum l (s.link_parents.getD i 0), P.getD i 0, renum l (P.getD i 0),
        decide (P.getD i 0 ≠ s.link_parents.getD i 0)⟩ : Node) = .ok () := by
      unfold checkParent
      split
      · rename_i hc
        obtain ⟨c1, c2, c3⟩ := hc
        dsimp only at c2 c3 ⊢
        rw [decide_eq_true_eq] at c2
        have hr := hPr i hi'
        obtain ⟨k, hk⟩ : ∃ k : Nat, P.getD i 0 = (k : Int) := ⟨(P.getD i 0).toNat, by omega⟩
        have := hchk c1 i k (by rw [hP i hi', hk]) (by
          rw [hL i hi']
          intro e
          have := Option.some.inj e
          exact c2 (by rw [hk, this]))
        rw [hk, pyGet_nat this, ok_bind, pyAssert_true rfl]
      · rfl
    dsimp only
    rw [hc]
    rfl

/-- transport to the new numbering -/
theorem renumbered_of_search (h : Forest P) {l : List Nat} (hmem : ∀ i, i ∈ l ↔ i < P.length)
    (hpw : l.Pairwise (Before P)) (hnd : l.Nodup) :
    Renumbered P l (l.map fun i => renum l (P.getD i 0)) := by
  have hroot : ∀ i < P.length, Rooted P i := forest_iff.1 h
  have hperm : l.Perm (List.range P.length) :=
    (List.perm_ext_iff_of_nodup hnd List.nodup_range).2 fun i => by rw [hmem, List.mem_range]
  have hlen : l.length = P.length := by simpa using hperm.length_eq
  set np := l.map fun i => renum l (P.getD i 0) with hnp
  have hnplen : np.length = P.length := by rw [hnp, List.length_map, hlen]
  have hP : ∀ i < P.length, P[i]? = some (P.getD i 0) := by
    intro i hi
    rw [List.getD, List.getElem?_eq_getElem hi, Option.getD_some]
  have hli : ∀ {k i : Nat}, l[k]? = some i → i < P.length := fun hk => (hmem _).1 (List.mem_of_getElem? hk)
  have hnpk : ∀ {k i : Nat}, l[k]? = some i → np[k]? = some (renum l (P.getD i 0)) := by
    intro k i hk
    rw [hnp, List.getElem?_map, hk]
    rfl
  have hidx : ∀ {k i : Nat}, l[k]? = some i → l.idxOf i = k := by
    intro k i hk
    obtain ⟨hkl, rfl⟩ := List.getElem?_eq_some_iff.1 hk
    exact hnd.idxOf_getElem k hkl
  have hat : ∀ i < P.length, l[l.idxOf i]? = some i := by
    intro i hi
    have := List.idxOf_lt_length_of_mem ((hmem i).2 hi)
    rw [List.getElem?_eq_getElem this, List.getElem_idxOf this]
  -- parents in both numberings
  have hpar : ∀ {k i m j : Nat}, l[k]? = some i → l[m]? = some j →
      (np[k]? = some (m : Int) ↔ P[i]? = some (j : Int)) := by
    intro k i m j hk hm
    rw [hnpk hk, hP i (hli hk)]
    unfold renum
    have hr : -1 ≤ P.getD i 0 ∧ P.getD i 0 < P.length := by
      have := h.range i (hli hk)
      rw [List.getD, List.getElem?_eq_getElem (hli hk), Option.getD_some]
      exact this
    constructor
    · intro e
      have e := Option.some.inj e
      split at e
      · omega
      · have e1 : l.idxOf (P.getD i 0).toNat = m := by omega
        have e2 := hat (P.getD i 0).toNat (by omega)
        rw [e1, hm] at e2
        have := Option.some.inj e2
        congr 1
        omega
    · intro e
      have e := Option.some.inj e
      rw [e, if_neg (by omega)]
      congr 2
      simpa using hidx hm
  have hworld : ∀ {k i : Nat}, l[k]? = some i → (np[k]? = some (-1) ↔ P[i]? = some (-1)) := by
    intro k i hk
    rw [hnpk hk, hP i (hli hk)]
    unfold renum
    constructor
    · intro e
      have e := Option.some.inj e
      split at e
      · rename_i h0; rw [h0]
      · omega
    · intro e
      rw [Option.some.inj e, if_pos rfl]
  have hex : ∀ k < P.length, ∃ i, l[k]? = some i := fun k hk =>
    ⟨l[k]'(by omega), List.getElem?_eq_getElem (by omega)⟩
  -- descendants in both numberings
  have hd1 : ∀ {a b : Nat}, Desc np a b → ∀ {x y : Nat}, l[a]? = some x → l[b]? = some y → Desc P x y := by
    intro a b hd
    induction hd with
    | self =>
      intro x y hx hy
      rw [hx] at hy
      cases hy
      exact .self
    | @step i p hp hd ih =>
      intro x y hx hy
      have hpl : p < P.length := by
        have := hd.lt_length (by rw [hnplen, ← hlen]; exact (List.getElem?_eq_some_iff.1 hx).1)
        omega
      obtain ⟨z, hz⟩ := hex p hpl
      exact .step ((hpar hy hz).1 hp) (ih hx hz)
  have hd2 : ∀ {x y : Nat}, Desc P x y → ∀ {a b : Nat}, l[a]? = some x → l[b]? = some y → Desc np a b := by
    intro x y hd
    induction hd with
    | self =>
      intro a b hx hy
      have := hidx hx
      rw [hidx hy] at this
      subst this
      exact .self
    | @step i p hp hd ih =>
      intro a b hx hy
      have hpl : p < P.length := hd.lt_length (hli hx)
      have hz := hat p hpl
      exact .step ((hpar hy hz).2 hp) (ih hx hz)
  have hord : ∀ {a b x y : Nat}, l[a]? = some x → l[b]? = some y → Before P x y → a < b := by
    intro a b x y ha hb hxy
    rcases Nat.lt_trichotomy a b with h1 | h1 | h1
    · exact h1
    · subst h1
      rw [ha] at hb
      cases hb
      exact (hxy.irrefl (hroot _ (hli ha))).elim
    · exfalso
      obtain ⟨hbl, rfl⟩ := List.getElem?_eq_some_iff.1 hb
      obtain ⟨hal, rfl⟩ := List.getElem?_eq_some_iff.1 ha
      have := List.pairwise_iff_getElem.1 hpw b a hbl hal h1
      exact this.asymm (hroot _ (hli hb)) (hroot _ (hli ha)) hxy
  have hord' : ∀ {a b x y : Nat}, l[a]? = some x → l[b]? = some y → a < b → Before P x y := by
    intro a b x y ha hb hlt
    obtain ⟨hbl, rfl⟩ := List.getElem?_eq_some_iff.1 hb
    obtain ⟨hal, rfl⟩ := List.getElem?_eq_some_iff.1 ha
    exact List.pairwise_iff_getElem.1 hpw a b hal hbl hlt
  have hnpr : ∀ k (hk : k < np.length), np[k] = -1 ∨ ∃ m : Nat, m < P.length ∧ np[k] = (m : Int) := by
    intro k hk
    obtain ⟨i, hi⟩ := hex k (by omega)
    have e := hnpk hi
    rw [List.getElem?_eq_getElem hk] at e
    have e := Option.some.inj e
    unfold renum at e
    split at e
    · exact Or.inl e
    · refine Or.inr ⟨_, ?_, e⟩
      have hr : -1 ≤ P.getD i 0 ∧ P.getD i 0 < P.length := by
        have := h.range i (hli hi)
        rw [List.getD, List.getElem?_eq_getElem (hli hi), Option.getD_some]
        exact this
      have := List.idxOf_lt_length_of_mem ((hmem (P.getD i 0).toNat).2 (by omega))
      omega
  refine ⟨hperm, hnplen, fun k i hk h0 => (hworld hk).2 h0, ?_, ⟨?_, ?_⟩, ?_⟩
  · intro k i p hk hp
    have hpl : p < P.length := by
      have := h.range i (hli hk)
      rw [List.getElem?_eq_getElem (hli hk)] at hp
      have := Option.some.inj hp
      omega
    exact ⟨l.idxOf p, (hpar hk (hat p hpl)).2 hp, hat p hpl⟩
  · -- parents precede their children
    intro k hk
    rcases hnpr k hk with e | ⟨m, hm, e⟩
    · omega
    · obtain ⟨i, hi⟩ := hex k (by omega)
      obtain ⟨j, hj⟩ := hex m hm
      have hp : P[i]? = some (j : Int) := (hpar hi hj).1 (by rw [List.getElem?_eq_getElem hk, e])
      have hne : j ≠ i := by
        rintro rfl
        exact h.acyclic ⟨j, j, hp, .self⟩
      have := hord hj hi (Or.inl ⟨hne, .step hp .self⟩)
      omega
  · -- subtrees are contiguous
    intro a b c hab hbc hd
    rcases hab.eq_or_lt with rfl | hab
    · exact .self
    rcases hbc.eq_or_lt with rfl | hbc
    · exact hd
    rcases Nat.lt_or_ge a P.length with ha | ha
    · have hc : c < P.length := by
        have := hd.lt_length (by rw [hnplen]; exact ha)
        omega
      obtain ⟨x, hx⟩ := hex a ha
      obtain ⟨z, hz⟩ := hex b (by omega)
      obtain ⟨y, hy⟩ := hex c hc
      have hxy := hd1 hd hx hy
      have hxz := hord' hx hz hab
      have hzy := hord' hz hy hbc
      have hrx := hroot x (hli hx)
      have hrz := hroot z (hli hz)
      refine hd2 (x := x) (y := z) ?_ hx hz
      rcases hzy with ⟨hne, hzy⟩ | ⟨e, e', p, he, he', hlt, hez, hey⟩
      · rcases hxy.comparable hzy with h1 | h1
        · exact h1
        · by_cases hzx : z = x
          · subst hzx; exact .self
          · exact (hxz.asymm hrx hrz (Or.inl ⟨hzx, h1⟩)).elim
      · rcases hxy.comparable hey with h1 | h1
        · by_cases hxe : x = e'
          · subst hxe
            exact (hxz.asymm hrx hrz (Or.inr ⟨e, x, p, he, he', hlt, hez, .self⟩)).elim
          · cases h1 with
            | self => exact absurd rfl hxe
            | @step _ r hr h1 =>
              rw [he'] at hr
              cases hr
              exact Desc.trans (.step he h1) hez
        · exact (hxz.asymm hrx hrz (Or.inr ⟨e, e', p, he, he', hlt, hez, h1⟩)).elim
    · -- there is nothing outside of the array
      have hcl : c = a := by
        cases hd with
        | self => rfl
        | @step _ q hq hd =>
          exfalso
          have hcl := (List.getElem?_eq_some_iff.1 hq).1
          omega
      omega
  · -- siblings
    intro j k x y p hj hk hlt hx hy
    by_contra hge
    have hq : ∀ {j x : Nat}, np[j]? = some p → l[j]? = some x →
        P[x]? = some (if p = -1 then -1 else ((l.getD p.toNat 0 : Nat) : Int)) := by
      intro j x hj hx
      obtain ⟨hjl, e⟩ := List.getElem?_eq_some_iff.1 hj
      rcases hnpr j hjl with h0 | ⟨m, h1, h2⟩
      · rw [if_pos (by omega)]
        exact (hworld hx).1 (by rw [List.getElem?_eq_getElem hjl, h0])
      · obtain ⟨z, hz⟩ := hex m h1
        rw [if_neg (by omega), show p.toNat = m by omega, List.getD_eq_getElem?_getD, hz]
        exact (hpar hx hz).1 (by rw [List.getElem?_eq_getElem hjl, h2])
    have hPx := hq hj hx
    have hPy := hq hk hy
    have hne : x ≠ y := by
      rintro rfl
      have := hidx hx
      rw [hidx hy] at this
      omega
    have := hord hy hx (Or.inr ⟨y, x, _, hPy, hPx, by omega, .self, .self⟩)
    omega

/-- C06: for every forest of parents the links are renumbered depth-first; the nodes that are returned
give the old and the new number of every link and of its old and new parent. -/
theorem C06_identify {s : System α π} {checks : Bool} {new_parents : List (Int ⊕ String)}
    (hres : new_parents.mapM (resolveParent s) = .ok P) (h : Forest P)
    (hlen : P.length = s.num_links)
    (hlam : ∀ i (h : i < s.link_parents.length), -1 ≤ s.link_parents[i] ∧
      s.link_parents[i] < s.link_parents.length)
    (hchk : checks = true → OnlyReversed s.link_parents P) :
    ∃ st perm np, identify_system s new_parents checks = .ok (st, perm.map Int.ofNat, np) ∧
      Renumbered P perm np ∧ st.length = s.num_links ∧
      ∀ k i : Nat, perm[k]? = some i → ∃ node, st[i]? = some node ∧
        node.link_idx_old_indices = i ∧ node.link_idx_new_indices = k ∧
        some node.old_parent_old_indices = s.link_parents[i]? ∧
        some node.new_parent_old_indices = P[i]? ∧
        (node.parent_changed = true ↔ P[i]? ≠ s.link_parents[i]?) ∧
        some node.new_parent_new_indices = np[k]? ∧
        (s.link_parents[i]? = some (-1) → node.old_parent_new_indices = -1) ∧
        ∀ p : Nat, s.link_parents[i]? = some (p : Int) →
          ∃ m : Nat, node.old_parent_new_indices = m ∧ perm[m]? = some p := by
  obtain ⟨l, h1, h2, h3, h4⟩ := search_ok P
  have hroot : ∀ i < P.length, Rooted P i := forest_iff.1 h
  have hmem : ∀ i, i ∈ l ↔ i < P.length := fun i =>
    (h2 i).trans ⟨fun h => h.1, fun h => ⟨h, hroot i h⟩⟩
  refine ⟨_, l, _, identify_ok hres h hlen hlam hchk h1 hmem, renumbered_of_search h hmem h3 h4,
    by simp [hlen], ?_⟩
  intro k i hk
  have hi : i < P.length := (hmem i).1 (List.mem_of_getElem? hk)
  have hi' : i < s.link_parents.length := by
    have : s.link_parents.length = P.length := hlen.symm
    omega
  have hPi : P[i]? = some (P.getD i 0) := by
    rw [List.getD, List.getElem?_eq_getElem hi, Option.getD_some]
  have hLi : s.link_parents[i]? = some (s.link_parents.getD i 0) := by
    rw [List.getD, List.getElem?_eq_getElem hi', Option.getD_some]
  have hidx : l.idxOf i = k := by
    obtain ⟨hkl, rfl⟩ := List.getElem?_eq_some_iff.1 hk
    exact h4.idxOf_getElem k hkl
  refine ⟨_, by rw [List.getElem?_map, List.getElem?_range hi]; rfl, rfl, by dsimp only; rw [hidx], hLi.symm,
    hPi.symm, ?_, ?_, ?_, ?_⟩
  · rw [hPi, hLi]
    simp
  · rw [List.getElem?_map, hk]
    rfl
  · intro e
    rw [hLi] at e
    dsimp only
    rw [Option.some.inj e]
    rfl
  · intro p e
    rw [hLi] at e
    have e := Option.some.inj e
    refine ⟨l.idxOf p, ?_, ?_⟩
    · dsimp only
      rw [e]
      unfold renum
      rw [if_neg (by omega)]
      simp
    · have hp : p < P.length := by
        have := (hlam i hi').2
        have e' : s.link_parents[i] = (p : Int) := by
          rw [List.getElem?_eq_getElem hi'] at hLi
          rw [Option.some.inj hLi, e]
        have : s.link_parents.length = P.length := hlen.symm
        omega
      have := List.idxOf_lt_length_of_mem ((hmem p).2 hp)
      rw [List.getElem?_eq_getElem this, List.getElem_idxOf this]

/-- the checks refuse everything but the reversal of connections -/
theorem C06_checks {s : System α π} {new_parents : List (Int ⊕ String)}
    (hres : new_parents.mapM (resolveParent s) = .ok P) (h : Forest P)
    (hlen : P.length = s.num_links) {i p : Nat} (hi : P[i]? = some (p : Int))
    (hne : s.link_parents[i]? ≠ some (p : Int)) (hnr : s.link_parents[p]? ≠ some (i : Int)) :
    ∀ r, identify_system s new_parents true ≠ .ok r := by
  intro r hr
  unfold identify_system at hr
  rw [hres, ok_bind] at hr
  obtain ⟨n2o, -, hr⟩ := ml.bind_ok_iff.1 hr
  obtain ⟨o2n, -, hr⟩ := ml.bind_ok_iff.1 hr
  obtain ⟨st, hst, -⟩ := ml.bind_ok_iff.1 hr
  have hil : i < P.length := (List.getElem?_eq_some_iff.1 hi).1
  have hpl : p < P.length := by
    have := (h.range i hil).2
    rw [List.getElem?_eq_getElem hil] at hi
    have := Option.some.inj hi
    omega
  have key : ∀ (l : List Nat) (st : List Node), l.mapM (identifyLink s true P o2n) = .ok st → i ∈ l →
      ∃ node, identifyLink s true P o2n i = .ok node := by
    intro l
    induction l with
    | nil => intro st _ h; cases h
    | cons a l ih =>
      intro st hst hil
      rw [List.mapM_cons] at hst
      obtain ⟨n, hn, hst⟩ := ml.bind_ok_iff.1 hst
      obtain ⟨ns, hns, -⟩ := ml.bind_ok_iff.1 hst
      rcases List.mem_cons.1 hil with rfl | h
      · exact ⟨n, hn⟩
      · exact ih ns hns h
  obtain ⟨node, hnode⟩ := key _ _ hst (List.mem_range.2 (by omega))
  unfold identifyLink at hnode
  obtain ⟨a, ha, hnode⟩ := ml.bind_ok_iff.1 hnode
  rw [pyGet_nat hi, ok_bind] at hnode
  obtain ⟨b, -, hnode⟩ := ml.bind_ok_iff.1 hnode
  obtain ⟨c, -, hnode⟩ := ml.bind_ok_iff.1 hnode
  obtain ⟨d, -, hnode⟩ := ml.bind_ok_iff.1 hnode
  obtain ⟨u, hu, -⟩ := ml.bind_ok_iff.1 hnode
  have hi' : i < s.link_parents.length := by
    have : s.link_parents.length = P.length := hlen.symm
    omega
  have hp' : p < s.link_parents.length := by
    have : s.link_parents.length = P.length := hlen.symm
    omega
  rw [pyGet_nat (List.getElem?_eq_getElem hi')] at ha
  cases ha
  unfold checkParent at hu
  rw [if_pos] at hu
  · dsimp only at hu
    rw [pyGet_nat (List.getElem?_eq_getElem hp'), ok_bind, pyAssert_false] at hu
    · cases hu
    · intro e
      exact hnr (by rw [List.getElem?_eq_getElem hp', e])
  · refine ⟨rfl, ?_, by dsimp only; omega⟩
    dsimp only
    rw [decide_eq_true_eq]
    intro e
    exact hne (by rw [List.getElem?_eq_getElem hi', e])

theorem Preorder.forest {lam : List Int} (h : Topological lam) : Forest lam := by
  constructor
  · intro i hi
    have := h i hi
    omega
  · rintro ⟨i, p, hp, hd⟩
    have := hd.le h
    obtain ⟨hi, e⟩ := List.getElem?_eq_some_iff.1 hp
    have := (h i hi).2
    omega

theorem preorder_search {lam : List Int} (h : Preorder lam) {l : List Nat}
    (hmem : ∀ i, i ∈ l ↔ i < lam.length) (hpw : l.Pairwise (Before lam)) (hnd : l.Nodup) :
    l = List.range lam.length := by
  have hf := Preorder.forest h.topo
  have hroot : ∀ i < lam.length, Rooted lam i := forest_iff.1 hf
  have hperm : l.Perm (List.range lam.length) :=
    (List.perm_ext_iff_of_nodup hnd List.nodup_range).2 fun i => by rw [hmem, List.mem_range]
  -- in a preorder array smaller numbers come first
  have key : ∀ i j : Nat, i < j → j < lam.length → Before lam i j := by
    intro i j hlt hj
    by_cases hij : Desc lam i j
    · exact Or.inl ⟨by omega, hij⟩
    -- the highest link above `j` that is not above `i`
    have climb : ∀ c : Nat, Desc lam c j → ¬ Desc lam c i → ∃ c' : Nat, Desc lam c' j ∧ ¬ Desc lam c' i ∧
        (lam[c']? = some (-1) ∨ ∃ p : Nat, lam[c']? = some (p : Int) ∧ Desc lam p i) := by
      intro c
      induction c using Nat.strong_induction_on with
      | _ c ih =>
        intro hcj hci
        have hcl : c < lam.length := by
          have := hcj.le h.topo
          omega
        have hr := h.topo c hcl
        by_cases h0 : lam[c] = -1
        · exact ⟨c, hcj, hci, Or.inl (by rw [List.getElem?_eq_getElem hcl, h0])⟩
        · have hc' : lam[c]? = some ((lam[c].toNat : Nat) : Int) := by
            rw [List.getElem?_eq_getElem hcl]; congr 1; omega
          by_cases hd : Desc lam lam[c].toNat i
          · exact ⟨c, hcj, hci, Or.inr ⟨_, hc', hd⟩⟩
          · exact ih _ (by omega) (Desc.trans (.step hc' .self) hcj) hd
    obtain ⟨c, hcj, hci, hc⟩ := climb j .self fun hd => by
      have := hd.le h.topo
      omega
    have hfin : ∀ e : Nat, lam[e]? = lam[c]? → Desc lam e i → Before lam i j := by
      intro e he hei
      have hcl : c < lam.length := by
        have := hcj.le h.topo
        omega
      rw [List.getElem?_eq_getElem hcl] at he
      refine Or.inr ⟨e, c, lam[c], he, List.getElem?_eq_getElem hcl, ?_, hei, hcj⟩
      rcases Nat.lt_trichotomy e c with h1 | rfl | h1
      · exact h1
      · exact absurd hei hci
      · have := hei.le h.topo
        exact absurd (h.block c i j (by omega) (by omega) hcj) hci
    rcases hc with h0 | ⟨p, hp, hd⟩
    · obtain ⟨e, he, hd⟩ := (rooted_iff_desc (by omega)).1 (hroot i (by omega))
      exact hfin e (by rw [he, h0]) hd
    · rcases hd.eq_or_child with e | ⟨e, he, hd'⟩
      · subst e
        exact absurd (Desc.trans (.step hp .self) hcj) hij
      · exact hfin e (by rw [he, hp]) hd'
  refine hperm.eq_of_pairwise (le := Before lam) ?_ hpw ?_
  · intro a b ha hb h1 h2
    exact (h1.asymm (hroot a ((hmem a).1 ha)) (hroot b (List.mem_range.1 hb)) h2).elim
  · rw [List.pairwise_iff_getElem]
    intro i j hi hj hlt
    simp only [List.getElem_range]
    exact key i j hlt (by simpa using hj)

/-- C06: a system whose links are already in depth-first order keeps its numbering when no parent
changes. -/
theorem C06_identity {s : System α π} {checks : Bool} {new_parents : List (Int ⊕ String)}
    (hres : new_parents.mapM (resolveParent s) = .ok s.link_parents) (h : Preorder s.link_parents) :
    ∃ st, identify_system s new_parents checks =
      .ok (st, (List.range s.num_links).map Int.ofNat, s.link_parents) := by
  obtain ⟨l, h1, h2, h3, h4⟩ := search_ok s.link_parents
  have hf := Preorder.forest h.topo
  have hroot := forest_iff.1 hf
  have hmem : ∀ i, i ∈ l ↔ i < s.link_parents.length := fun i =>
    (h2 i).trans ⟨fun h => h.1, fun h => ⟨h, hroot i h⟩⟩
  have hl := preorder_search h hmem h3 h4
  have hid := (identify_ok (checks := checks) hres hf rfl hf.range (fun _ i p e ne => absurd e ne) h1 hmem)
  have e1 : s.num_links = s.link_parents.length := rfl
  have e2 : (l.map fun i => renum l (s.link_parents.getD i 0)) = s.link_parents := by
    apply List.ext_getElem
    · rw [List.length_map, hl, List.length_range]
    · intro k hk hk'
      rw [List.getElem_map]
      have hlk : l[k]'(by simpa using hk) = k := by simp only [hl, List.getElem_range]
      rw [hlk, List.getD_eq_getElem?_getD, List.getElem?_eq_getElem hk', Option.getD_some]
      unfold renum
      split
      · rename_i h0; rw [h0]
      · have hr := hf.range k hk'
        have : l.idxOf s.link_parents[k].toNat = s.link_parents[k].toNat := by
          have hlt : s.link_parents[k].toNat < l.length := by
            rw [hl, List.length_range]; omega
          have := h4.idxOf_getElem s.link_parents[k].toNat hlt
          have e3 : l[s.link_parents[k].toNat] = s.link_parents[k].toNat := by
            simp only [hl, List.getElem_range]
          rwa [e3] at this
        omega
  rw [e2] at hid
  rw [e1, ← hl]
  exact ⟨_, hid⟩

end morph
end RingLib
