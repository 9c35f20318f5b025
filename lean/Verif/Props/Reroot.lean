import Verif.Props.Kinematics
import Verif.Props.Morph

/-!
# C07: re-rooting a tree at a new anchor
-/

namespace RingLib
namespace morph
open System
variable {α π : Type} {lam R : List Int}

/-! ## specification -/

/-- two links are connected -/
def Adjacent (P : List Int) (i j : Nat) : Prop := P[i]? = some (j : Int) ∨ P[j]? = some (i : Int)

/-- a tree: a forest with one link that is attached to the world -/
structure Tree (P : List Int) (root : Nat) : Prop where
  forest : Forest P
  root : ∀ i : Nat, P[i]? = some (-1) ↔ i = root

/-- `R` is the tree `lam` when it is held at `a`. -/
structure Rerooted (lam : List Int) (a : Nat) (R : List Int) : Prop where
  len : R.length = lam.length
  /-- it is a tree of which the anchor is the only child of the world -/
  tree : Tree R a
  /-- the connections between links are kept -/
  adjacent : ∀ i j : Nat, Adjacent R i j ↔ Adjacent lam i j
  /-- nothing changes off the path from the old root to the anchor -/
  off_path : ∀ i : Nat, ¬ Desc lam i a → R[i]? = lam[i]?
  /-- and on the path the connections are turned around -/
  on_path : ∀ i p : Nat, Desc lam i a → lam[i]? = some (p : Int) → R[p]? = some (i : Int)

/-! ## proofs -/

/-- `exclude` is the parent of `body` -/
def Excludes (R : List Int) (body : Nat) (exclude : Option Nat) : Prop :=
  ∀ i : Nat, exclude = some i ↔ R[body]? = some (i : Int)

theorem connected_ok (hlen : R.length = lam.length)
    (hadj : ∀ i j : Nat, Adjacent R i j ↔ Adjacent lam i j) {i b : Nat} (hb : b < lam.length) :
    connected lam i b = .ok (decide (R[i]? = some (b : Int) ∨ R[b]? = some (i : Int))) := by
  have h := hadj i b
  unfold Adjacent at h
  unfold connected
  split
  · rename_i hi
    rw [decide_eq_true (h.2 (Or.inl hi))]
  · rename_i hi
    rw [pyGet_nat (List.getElem?_eq_getElem hb), ok_bind, pure_ok]
    congr 1
    rw [decide_eq_decide, h]
    constructor
    · intro e; exact Or.inr (by rw [List.getElem?_eq_getElem hb, e])
    · rintro (e | e)
      · exact absurd e hi
      · rw [List.getElem?_eq_getElem hb] at e
        exact Option.some.inj e

theorem connections_ok (hlen : R.length = lam.length) (hR : Forest R)
    (hadj : ∀ i j : Nat, Adjacent R i j ↔ Adjacent lam i j) :
    ∀ (fuel L b : Nat) (ex : Option Nat) (d : List (Nat × Int)), Level R L (b : Int) →
      R.length + 1 ≤ L + fuel → Excludes R b ex →
      (∀ c x : Nat, R[c]? = some (b : Int) → Desc R c x → x ∉ d.map Prod.fst) →
      ∃ e, connections lam fuel b ex d = .ok (d ++ e) ∧
        (∀ i, i ∈ e.map Prod.fst ↔ ∃ c : Nat, R[c]? = some (b : Int) ∧ Desc R c i) ∧
        ∀ i v, (i, v) ∈ e → R[i]? = some v := by
  intro fuel
  induction fuel with
  | zero =>
    intro L b ex d h hf
    have := h.le
    omega
  | succ fuel ih =>
    intro L b ex d hL hf hex hd
    have hb : b < lam.length := by
      generalize hx : (b : Int) = x at hL
      cases hL with
      | world => omega
      | @link L j p hp h =>
        have : b = j := by omega
        subst this
        rw [← hlen]
        exact (List.getElem?_eq_some_iff.1 hp).1
    unfold connections
    have key : ∀ (r : List Nat) (d : List (Nat × Int)), r.Nodup →
        (∀ c ∈ r, R[c]? = some (b : Int) → ∀ x, Desc R c x → x ∉ d.map Prod.fst) →
        ∃ e, r.foldlM (fun d i =>
          if ex = some i then .ok d
          else do
            let c ← connected lam i b
            if c then do
              pyAssert (i ∉ d.map Prod.fst)
              connections lam fuel i (some b) (d ++ [(i, (b : Int))])
            else .ok d) d = .ok (d ++ e) ∧
          (∀ i, i ∈ e.map Prod.fst ↔ ∃ c ∈ r, R[c]? = some (b : Int) ∧ Desc R c i) ∧
          ∀ i v, (i, v) ∈ e → R[i]? = some v := by
      intro r
      induction r with
      | nil =>
        intro d _ _
        exact ⟨[], by simp [pure_ok], by simp, by simp⟩
      | cons i r ihr =>
        intro d hnd hdr
        obtain ⟨hir, hnd⟩ := List.nodup_cons.1 hnd
        rw [List.foldlM_cons]
        by_cases hi : R[i]? = some (b : Int)
        · -- a child
          have hnex : ex ≠ some i := by
            intro e
            have := (hex i).1 e
            exact hR.acyclic ⟨i, b, hi, .step this .self⟩
          rw [if_neg hnex, connected_ok hlen hadj hb, decide_eq_true (Or.inl hi), ok_bind,
            if_pos rfl, pyAssert_true (hdr i (by simp) hi i .self), ok_bind]
          obtain ⟨e1, h1, h2, h3⟩ := ih (L + 1) i (some b) (d ++ [(i, (b : Int))]) (.link hi hL)
            (by omega) (fun j => by
              rw [hi]
              simp only [Option.some.injEq]
              omega) (by
              intro c x hc hx
              rw [List.map_append, List.mem_append]
              rintro (hm | hm)
              · exact hdr i (by simp) hi x (Desc.trans (.step hc .self) hx) hm
              · simp at hm
                subst hm
                exact hR.acyclic ⟨c, x, hc, hx⟩)
          rw [h1, ok_bind]
          have hmem1 : ∀ x, x ∈ ((d ++ [(i, (b : Int))]) ++ e1).map Prod.fst →
              x ∈ d.map Prod.fst ∨ Desc R i x := by
            intro x hx
            rw [List.map_append, List.map_append, List.mem_append, List.mem_append] at hx
            rcases hx with (hx | hx) | hx
            · exact Or.inl hx
            · simp at hx
              subst hx
              exact Or.inr .self
            · obtain ⟨c, hc, hcx⟩ := (h2 x).1 hx
              exact Or.inr (Desc.trans (.step hc .self) hcx)
          obtain ⟨e2, g1, g2, g3⟩ := ihr ((d ++ [(i, (b : Int))]) ++ e1) hnd (by
            intro c hc hcb x hx hm
            rcases hmem1 x hm with hm | hm
            · exact hdr c (List.mem_cons_of_mem _ hc) hcb x hx hm
            · have hrx : Rooted R x := forest_iff.1 hR x (by
                have := hx.lt_length (List.getElem?_eq_some_iff.1 hcb).1
                exact this)
              have := sibling_eq hrx hcb hi hx hm
              subst this
              exact hir hc)
          refine ⟨[(i, (b : Int))] ++ e1 ++ e2, by rw [g1]; simp, ?_, ?_⟩
          · intro x
            rw [List.map_append, List.map_append, List.mem_append, List.mem_append, h2, g2]
            constructor
            · rintro ((hx | ⟨c, hc, hcx⟩) | ⟨c, hc, hcb, hcx⟩)
              · simp at hx
                subst hx
                exact ⟨x, by simp, hi, .self⟩
              · exact ⟨i, by simp, hi, Desc.trans (.step hc .self) hcx⟩
              · exact ⟨c, List.mem_cons_of_mem _ hc, hcb, hcx⟩
            · rintro ⟨c, hc, hcb, hcx⟩
              rcases List.mem_cons.1 hc with rfl | hc
              · rcases hcx.eq_or_child with e | ⟨c', hc', hcx⟩
                · subst e; exact Or.inl (Or.inl (by simp))
                · exact Or.inl (Or.inr ⟨c', hc', hcx⟩)
              · exact Or.inr ⟨c, hc, hcb, hcx⟩
          · intro x v hx
            rw [List.mem_append, List.mem_append] at hx
            rcases hx with (hx | hx) | hx
            · simp at hx
              obtain ⟨rfl, rfl⟩ := hx
              exact hi
            · exact h3 x v hx
            · exact g3 x v hx
        · -- the parent, or no neighbour
          have hskip : (if ex = some i then (.ok d : Py (List (Nat × Int)))
              else do
                let c ← connected lam i b
                if c then do
                  pyAssert (i ∉ d.map Prod.fst)
                  connections lam fuel i (some b) (d ++ [(i, (b : Int))])
                else .ok d) = .ok d := by
            split
            · rfl
            · rename_i hne
              have : ¬ (R[i]? = some (b : Int) ∨ R[b]? = some (i : Int)) := by
                rintro (h | h)
                · exact hi h
                · exact hne ((hex i).2 h)
              rw [connected_ok hlen hadj hb, decide_eq_false this, ok_bind]
              rfl
          rw [hskip, ok_bind]
          obtain ⟨e2, g1, g2, g3⟩ := ihr d hnd fun c hc => hdr c (List.mem_cons_of_mem _ hc)
          refine ⟨e2, g1, ?_, g3⟩
          intro x
          rw [g2]
          constructor
          · rintro ⟨c, hc, h⟩
            exact ⟨c, List.mem_cons_of_mem _ hc, h⟩
          · rintro ⟨c, hc, h⟩
            rcases List.mem_cons.1 hc with rfl | hc
            · exact absurd h.1 hi
            · exact ⟨c, hc, h⟩
    obtain ⟨e, h1, h2, h3⟩ := key (List.range lam.length) d List.nodup_range
      fun c _ hc x hx => hd c x hc hx
    refine ⟨e, h1, ?_, h3⟩
    intro i
    rw [h2]
    constructor
    · rintro ⟨c, -, h⟩
      exact ⟨c, h⟩
    · rintro ⟨c, hc, h⟩
      exact ⟨c, List.mem_range.2 (by rw [← hlen]; exact (List.getElem?_eq_some_iff.1 hc).1), hc, h⟩

/-- the dictionary of new parents -/
theorem anchor_dict (hlen : R.length = lam.length) (hR : Forest R)
    (hadj : ∀ i j : Nat, Adjacent R i j ↔ Adjacent lam i j) {a : Nat} (ha : R[a]? = some (-1)) :
    ∃ d : List (Nat × Int), connections lam (lam.length + 1) a none [(a, -1)] = .ok d ∧
      (∀ i, i ∈ d.map Prod.fst ↔ Desc R a i) ∧ ∀ i v, (i, v) ∈ d → R[i]? = some v := by
  obtain ⟨e, h1, h2, h3⟩ := connections_ok hlen hR hadj (lam.length + 1) 1 a none [(a, -1)]
    (.link ha .world) (by omega) (fun i => by
      rw [ha]
      simp only [Option.some.injEq]
      constructor
      · intro h; cases h
      · intro h; omega) (by
      intro c x hc hx hm
      simp at hm
      subst hm
      exact hR.acyclic ⟨c, x, hc, hx⟩)
  refine ⟨_, h1, ?_, ?_⟩
  · intro i
    rw [List.map_append, List.mem_append, h2]
    constructor
    · rintro (h | ⟨c, hc, h⟩)
      · simp at h
        subst h
        exact .self
      · exact Desc.trans (.step hc .self) h
    · intro h
      rcases h.eq_or_child with e | ⟨c, hc, h⟩
      · subst e; exact Or.inl (by simp)
      · exact Or.inr ⟨c, hc, h⟩
  · intro i v h
    rcases List.mem_append.1 h with h | h
    · simp at h
      obtain ⟨rfl, rfl⟩ := h
      exact ha
    · exact h3 i v h

theorem pyDict_ok {d : List (Nat × Int)} {i : Nat} {v : Int} (h1 : i ∈ d.map Prod.fst)
    (h2 : ∀ w, (i, w) ∈ d → w = v) : pyDict d i = .ok v := by
  unfold pyDict
  cases hl : d.lookup i with
  | none =>
    rw [List.lookup_eq_none_iff] at hl
    obtain ⟨p, hp, rfl⟩ := List.mem_map.1 h1
    have := hl p hp
    simp at this
  | some w =>
    obtain ⟨l1, l2, e, -⟩ := List.lookup_eq_some_iff.1 hl
    have : (i, w) ∈ d := by rw [e]; simp
    rw [h2 w this]

theorem pyDict_absent {d : List (Nat × Int)} {i : Nat} (h1 : i ∉ d.map Prod.fst) :
    pyDict d i = .error .key := by
  unfold pyDict
  have : d.lookup i = none := by
    rw [List.lookup_eq_none_iff]
    intro p hp
    have hne : i ≠ p.1 := by
      rintro rfl
      exact h1 (List.mem_map_of_mem hp)
    simpa using hne
  rw [this]

theorem autodetermine_eq (hlen : R.length = lam.length) {a : Nat} (hR : Tree R a)
    (hadj : ∀ i j : Nat, Adjacent R i j ↔ Adjacent lam i j) :
    _autodetermine_new_parents lam a = .ok R := by
  have ha := (hR.root a).2 rfl
  obtain ⟨d, h1, h2, h3⟩ := anchor_dict hlen hR.forest hadj ha
  unfold _autodetermine_new_parents
  rw [h1, ok_bind, mapM_ok (g := fun i => R.getD i 0)]
  · congr 1
    apply List.ext_getElem
    · simp [hlen]
    · intro i hi hi'
      rw [List.getElem_map, List.getElem_range, List.getD_eq_getElem?_getD,
        List.getElem?_eq_getElem hi', Option.getD_some]
  · intro i hi
    have hi' : i < R.length := by rw [hlen]; exact List.mem_range.1 hi
    apply pyDict_ok
    · rw [h2]
      obtain ⟨c, hc, hd⟩ := (rooted_iff_desc hi').1 (forest_iff.1 hR.forest i hi')
      rw [hR.root] at hc
      subst hc
      exact hd
    · intro w hw
      have := h3 i w hw
      rw [List.getD_eq_getElem?_getD, this]
      rfl

/-! ### the tree held at the anchor -/

/-- a forest held at `a`, where `r` is the root above `a` -/
structure Held (lam : List Int) (r a : Nat) (R : List Int) : Prop where
  len : R.length = lam.length
  forest : Forest R
  root : ∀ i : Nat, R[i]? = some (-1) ↔ i = a ∨ (i ≠ r ∧ lam[i]? = some (-1))
  adjacent : ∀ i j : Nat, Adjacent R i j ↔ Adjacent lam i j
  off_path : ∀ i : Nat, ¬ Desc lam i a → R[i]? = lam[i]?
  on_path : ∀ i p : Nat, Desc lam i a → lam[i]? = some (p : Int) → R[p]? = some (i : Int)

theorem held_exists (hF : Forest lam) {r a : Nat} (hr : lam[r]? = some (-1)) (hd : Desc lam r a) :
    ∃ R, Held lam r a R := by
  induction hd with
  | self =>
    refine ⟨lam, rfl, hF, ?_, fun _ _ => Iff.rfl, fun _ _ => rfl, ?_⟩
    · intro i
      constructor
      · intro h
        by_cases e : i = r
        · exact Or.inl e
        · exact Or.inr ⟨e, h⟩
      · rintro (rfl | h)
        · exact hr
        · exact h.2
    · intro i p hi hp
      have : i = r := by
        cases hi with
        | self => rfl
        | step h _ => rw [hr] at h; simp at h
      subst this
      rw [hr] at hp
      have := Option.some.inj hp
      omega
  | @step i p hp hd ih =>
    obtain ⟨R, h⟩ := ih
    have hil : i < lam.length := (List.getElem?_eq_some_iff.1 hp).1
    have hpl : p < lam.length := by
      have := hF.range i hil
      obtain ⟨_, e⟩ := List.getElem?_eq_some_iff.1 hp
      omega
    have hip : i ≠ p := by
      rintro rfl
      exact hF.acyclic ⟨i, i, hp, .self⟩
    have hnd : ¬ Desc lam i p := fun hd => hF.acyclic ⟨i, p, hp, hd⟩
    have hRi : R[i]? = some (p : Int) := by rw [h.off_path i hnd, hp]
    have hRp : R[p]? = some (-1) := (h.root p).2 (Or.inl rfl)
    set R' := (R.set p (i : Int)).set i (-1) with hR'
    have hx : ∀ x : Nat, R'[x]? = if x = i then some (-1) else if x = p then some (i : Int)
        else R[x]? := by
      intro x
      rw [hR', List.getElem?_set, List.getElem?_set]
      have hl1 : i < (R.set p (i : Int)).length := by rw [List.length_set, h.len]; exact hil
      have hl2 : p < R.length := by rw [h.len]; exact hpl
      by_cases e1 : i = x
      · subst e1
        simp [h.len, hil]
      · rw [if_neg e1, if_neg (Ne.symm e1)]
        by_cases e2 : p = x
        · subst e2
          simp [h.len, hpl]
        · rw [if_neg e2, if_neg (Ne.symm e2)]
    have hlen' : R'.length = R.length := by rw [hR', List.length_set, List.length_set]
    have hi1 : Level R' 1 (i : Int) := .link (by rw [hx, if_pos rfl]) .world
    refine ⟨R', hlen'.trans h.len, ?_, ?_, ?_, ?_, ?_⟩
    · -- still a forest
      rw [forest_iff]
      have key : ∀ (L : Nat) (z : Int), Level R L z → ∀ x : Nat, z = (x : Int) →
          ∃ L, Level R' L (x : Int) := by
        intro L z hL
        induction hL with
        | world => intro x e; omega
        | @link L y q hq hL ihL =>
          intro x e
          have : y = x := by omega
          subst this
          by_cases e1 : y = i
          · subst e1; exact ⟨1, hi1⟩
          · by_cases e2 : y = p
            · exact ⟨2, .link (by rw [hx, if_neg e1, if_pos e2]) hi1⟩
            · have hq' : R'[y]? = some q := by rw [hx, if_neg e1, if_neg e2, hq]
              cases hL with
              | world => exact ⟨1, .link hq' .world⟩
              | @link L z q' hz _ =>
                obtain ⟨L', hL'⟩ := ihL z rfl
                exact ⟨_, .link hq' hL'⟩
      intro x hxl
      rw [hlen'] at hxl
      obtain ⟨L, hL⟩ := forest_iff.1 h.forest x hxl
      exact key L _ hL x rfl
    · intro x
      rw [hx]
      by_cases e1 : x = i
      · subst e1; simp
      · rw [if_neg e1]
        by_cases e2 : x = p
        · subst e2
          rw [if_pos rfl]
          constructor
          · intro e; have := Option.some.inj e; omega
          · rintro (e | ⟨hne, e⟩)
            · exact absurd e e1
            · exfalso
              apply hne
              cases hd with
              | self => rfl
              | step hq _ =>
                rw [hq] at e
                have := Option.some.inj e
                omega
        · rw [if_neg e2, h.root]
          constructor
          · rintro (e | h)
            · exact absurd e e2
            · exact Or.inr h
          · rintro (e | h)
            · exact absurd e e1
            · exact Or.inr h
    · intro x y
      rw [← h.adjacent]
      unfold Adjacent
      have hsome : ∀ u v : Nat, R'[u]? = some (v : Int) ↔
          (u = p ∧ v = i) ∨ (u ≠ i ∧ u ≠ p ∧ R[u]? = some (v : Int)) := by
        intro u v
        rw [hx]
        by_cases e1 : u = i
        · subst e1
          simp only [if_true, Option.some.injEq]
          constructor
          · intro e; omega
          · rintro (⟨e, -⟩ | ⟨e, -⟩)
            · exact absurd e hip
            · exact absurd rfl e
        · rw [if_neg e1]
          by_cases e2 : u = p
          · subst e2
            simp only [if_true, Option.some.injEq]
            constructor
            · intro e; exact Or.inl ⟨trivial, by omega⟩
            · rintro (⟨-, e⟩ | ⟨-, e, -⟩)
              · omega
              · exact absurd rfl e
          · rw [if_neg e2]
            constructor
            · intro e; exact Or.inr ⟨e1, e2, e⟩
            · rintro (⟨e, -⟩ | ⟨-, -, e⟩)
              · exact absurd e e2
              · exact e
      have hold : ∀ u v : Nat, R[u]? = some (v : Int) ↔
          (u = i ∧ v = p) ∨ (u ≠ i ∧ u ≠ p ∧ R[u]? = some (v : Int)) := by
        intro u v
        by_cases e1 : u = i
        · subst e1
          rw [hRi]
          simp only [Option.some.injEq]
          constructor
          · intro e; exact Or.inl ⟨trivial, by omega⟩
          · rintro (⟨-, e⟩ | ⟨e, -⟩)
            · omega
            · exact absurd rfl e
        · by_cases e2 : u = p
          · subst e2
            rw [hRp]
            simp only [Option.some.injEq]
            constructor
            · intro e; omega
            · rintro (⟨e, -⟩ | ⟨-, e, -⟩)
              · exact absurd e e1
              · exact absurd rfl e
          · constructor
            · intro e; exact Or.inr ⟨e1, e2, e⟩
            · rintro (⟨e, -⟩ | ⟨-, -, e⟩)
              · exact absurd e e1
              · exact e
      rw [hsome x y, hsome y x, hold x y, hold y x]
      tauto
    · intro x hnx
      have e1 : x ≠ i := by rintro rfl; exact hnx .self
      have e2 : x ≠ p := by rintro rfl; exact hnx (.step hp .self)
      rw [hx, if_neg e1, if_neg e2]
      exact h.off_path x fun hd => hnx (.step hp hd)
    · intro x q hxd hq
      by_cases e1 : x = i
      · subst e1
        rw [hp] at hq
        have : q = p := by have := Option.some.inj hq; omega
        subst this
        rw [hx, if_neg (Ne.symm hip), if_pos rfl]
      · have hxp : Desc lam x p := by
          cases hxd with
          | self => exact absurd rfl e1
          | @step _ p' hp' hxd =>
            rw [hp] at hp'
            have : p' = p := by have := Option.some.inj hp'; omega
            subst this
            exact hxd
        have e2 : q ≠ i := by
          rintro rfl
          exact hnd (Desc.trans (.step hq .self) hxp)
        have e3 : q ≠ p := by
          rintro rfl
          exact hF.acyclic ⟨x, q, hq, hxp⟩
        rw [hx, if_neg e2, if_neg e3]
        exact h.on_path x q hxp hq

theorem Tree.desc {r i : Nat} (h : Tree lam r) (hi : i < lam.length) : Desc lam r i := by
  obtain ⟨c, hc, hd⟩ := (rooted_iff_desc hi).1 (forest_iff.1 h.forest i hi)
  rw [h.root] at hc
  subst hc
  exact hd

/-- C07: for every tree and every link the new parents are those of the tree held at that link. -/
theorem C07_reroot {r a : Nat} (h : Tree lam r) (ha : a < lam.length) :
    ∃ R, _autodetermine_new_parents lam a = .ok R ∧ Rerooted lam a R := by
  obtain ⟨R, hR⟩ := held_exists h.forest ((h.root r).2 rfl) (h.desc ha)
  have ht : Tree R a := ⟨hR.forest, fun i => by
    rw [hR.root, h.root]
    constructor
    · rintro (e | ⟨e, e'⟩)
      · exact e
      · exact absurd e' e
    · exact Or.inl⟩
  exact ⟨R, autodetermine_eq hR.len ht hR.adjacent, hR.len, ht, hR.adjacent, hR.off_path, hR.on_path⟩

/-- C07: re-rooting back at the old root restores the parents. -/
theorem C07_restore {r a : Nat} (h : Tree lam r) (ha : a < lam.length) :
    ∃ R, _autodetermine_new_parents lam a = .ok R ∧ _autodetermine_new_parents R r = .ok lam := by
  obtain ⟨R, h1, h2⟩ := C07_reroot h ha
  exact ⟨R, h1, autodetermine_eq h2.len.symm h fun i j => (h2.adjacent i j).symm⟩

/-- more generally only the last anchor matters -/
theorem C07_compose {r a b : Nat} (h : Tree lam r) (ha : a < lam.length) (hb : b < lam.length) :
    ∃ R, _autodetermine_new_parents lam a = .ok R ∧
      _autodetermine_new_parents R b = _autodetermine_new_parents lam b := by
  obtain ⟨R, h1, h2⟩ := C07_reroot h ha
  obtain ⟨R', h3, h4⟩ := C07_reroot h hb
  exact ⟨R, h1, by
    rw [h3]
    exact autodetermine_eq (h4.len.trans h2.len.symm) h4.tree fun i j =>
      (h4.adjacent i j).trans (h2.adjacent i j).symm⟩

/-- a system of several trees has no new parents -/
theorem C07_several_roots (h : Forest lam) {r r' a : Nat} (hr : lam[r]? = some (-1))
    (hr' : lam[r']? = some (-1)) (hne : r ≠ r') (ha : a < lam.length) :
    _autodetermine_new_parents lam a = .error .key := by
  obtain ⟨c, hc, hd⟩ := (rooted_iff_desc ha).1 (forest_iff.1 h a ha)
  obtain ⟨R, hR⟩ := held_exists h hc hd
  obtain ⟨d, h1, h2, -⟩ := anchor_dict hR.len hR.forest hR.adjacent ((hR.root a).2 (Or.inl rfl))
  -- one of the two roots is not above the anchor
  obtain ⟨q, hq, hqc⟩ : ∃ q : Nat, lam[q]? = some (-1) ∧ q ≠ c := by
    by_cases e : r = c
    · exact ⟨r', hr', fun e' => hne (e.trans e'.symm)⟩
    · exact ⟨r, hr, e⟩
  have hRq : R[q]? = some (-1) := (hR.root q).2 (Or.inr ⟨hqc, hq⟩)
  have hqa : q ≠ a := by
    rintro rfl
    cases hd with
    | self => exact hqc rfl
    | step h' _ => rw [hq] at h'; have := Option.some.inj h'; omega
  have hnd : q ∉ d.map Prod.fst := by
    rw [h2]
    intro hd'
    cases hd' with
    | self => exact hqa rfl
    | step h' _ => rw [hRq] at h'; have := Option.some.inj h'; omega
  have hkeys : ∀ i ∈ d.map Prod.fst, ∃ v, pyDict d i = .ok v := by
    intro i hi
    obtain ⟨p, hp, rfl⟩ := List.mem_map.1 hi
    unfold pyDict
    cases hl : d.lookup p.1 with
    | none =>
      rw [List.lookup_eq_none_iff] at hl
      have := hl p hp
      simp at this
    | some w => exact ⟨w, rfl⟩
  have key : ∀ l : List Nat, q ∈ l → (l.mapM fun i => pyDict d i) = .error .key := by
    intro l
    induction l with
    | nil => intro h; cases h
    | cons i l ih =>
      intro hm
      rw [List.mapM_cons]
      by_cases hi : i ∈ d.map Prod.fst
      · obtain ⟨v, hv⟩ := hkeys i hi
        rw [hv, ok_bind, ih ?_]
        · rfl
        · rcases List.mem_cons.1 hm with rfl | hm
          · exact absurd hi hnd
          · exact hm
      · rw [pyDict_absent hi]
        rfl
  unfold _autodetermine_new_parents
  rw [h1, ok_bind]
  exact key _ (List.mem_range.2 (List.getElem?_eq_some_iff.1 hq).1)

/-! ## examples -/

/-- the tree of `kinSys` -/
theorem kinTree : Tree [-1, 0, 0, 1] 0 := by
  refine ⟨Preorder.forest ?_, ?_⟩
  · intro i hi
    have : i = 0 ∨ i = 1 ∨ i = 2 ∨ i = 3 := by simp at hi; omega
    rcases this with rfl | rfl | rfl | rfl <;> simp
  · intro i
    match i with
    | 0 => simp
    | 1 => simp
    | 2 => simp
    | 3 => simp
    | n + 4 => simp

/-- a tree in no particular numbering -/
theorem wildTree : Tree [2, 0, -1, 1, 2] 2 := by
  refine ⟨forest_iff.2 ?_, ?_⟩
  · have h2 : Level [2, 0, -1, 1, 2] 1 (2 : Nat) := .link (by rfl) .world
    have h0 : Level [2, 0, -1, 1, 2] 2 (0 : Nat) := .link (by rfl) h2
    have h1 : Level [2, 0, -1, 1, 2] 3 (1 : Nat) := .link (by rfl) h0
    intro i hi
    have : i = 0 ∨ i = 1 ∨ i = 2 ∨ i = 3 ∨ i = 4 := by simp at hi; omega
    rcases this with rfl | rfl | rfl | rfl | rfl
    · exact ⟨_, h0⟩
    · exact ⟨_, h1⟩
    · exact ⟨_, h2⟩
    · exact ⟨4, .link (by rfl) h1⟩
    · exact ⟨2, .link (by rfl) h2⟩
  · intro i
    match i with
    | 0 => simp
    | 1 => simp
    | 2 => simp
    | 3 => simp
    | 4 => simp
    | n + 5 => simp

example : ∃ R, _autodetermine_new_parents [2, 0, -1, 1, 2] 1 = .ok R ∧
    Rerooted [2, 0, -1, 1, 2] 1 R := C07_reroot wildTree (by simp)

example : _autodetermine_new_parents [2, 0, -1, 1, 2] 1 = .ok [1, -1, 0, 1, 2] := by rfl

example : ∃ R, _autodetermine_new_parents [2, 0, -1, 1, 2] 3 = .ok R ∧
    _autodetermine_new_parents R 2 = .ok [2, 0, -1, 1, 2] := C07_restore wildTree (by simp)

example : ∃ R, _autodetermine_new_parents [2, 0, -1, 1, 2] 3 = .ok R ∧
    _autodetermine_new_parents R 4 = _autodetermine_new_parents [2, 0, -1, 1, 2] 4 :=
  C07_compose wildTree (by simp) (by simp)

example : _autodetermine_new_parents [-1, 0, -1] 1 = .error .key :=
  C07_several_roots (r := 0) (r' := 2) (Preorder.forest (by
    intro i hi
    have : i = 0 ∨ i = 1 ∨ i = 2 := by simp at hi; omega
    rcases this with rfl | rfl | rfl <;> simp)) (by rfl) (by rfl) (by omega) (by simp)

/-- the four links of `kinSys`, held at the second one -/
theorem kinHeld : Forest [1, -1, 0, 1] := by
  have h1 : Level [1, -1, 0, 1] 1 (1 : Nat) := .link (by rfl) .world
  have h0 : Level [1, -1, 0, 1] 2 (0 : Nat) := .link (by rfl) h1
  refine forest_iff.2 ?_
  intro i hi
  have : i = 0 ∨ i = 1 ∨ i = 2 ∨ i = 3 := by simp at hi; omega
  rcases this with rfl | rfl | rfl | rfl
  · exact ⟨_, h0⟩
  · exact ⟨_, h1⟩
  · exact ⟨3, .link (by rfl) h0⟩
  · exact ⟨2, .link (by rfl) h1⟩

theorem kinHeld_reversed : OnlyReversed kinSys.link_parents [1, -1, 0, 1] := by
  intro i p hi hne
  match i with
  | 0 =>
    have : p = 1 := by have := Option.some.inj hi; omega
    subst this
    rfl
  | 1 => have := Option.some.inj hi; omega
  | 2 => have : (0 : Int) = p := Option.some.inj hi; exact absurd (by rw [← this]; rfl) hne
  | 3 => have : (1 : Int) = p := Option.some.inj hi; exact absurd (by rw [← this]; rfl) hne
  | n + 4 => cases hi

example : ∃ st perm np, identify_system kinSys [.inr "b", .inl (-1), .inl 0, .inr "b"] true =
    .ok (st, perm.map Int.ofNat, np) ∧ Renumbered [1, -1, 0, 1] perm np := by
  obtain ⟨st, perm, np, h1, h2, -⟩ := C06_identify (checks := true) (s := kinSys)
    (new_parents := [.inr "b", .inl (-1), .inl 0, .inr "b"]) (P := [1, -1, 0, 1]) (by rfl) kinHeld rfl
    kinTree.forest.range (fun _ => kinHeld_reversed)
  exact ⟨st, perm, np, h1, h2⟩

theorem kinPreorder : Preorder [-1, 0, 1, 0] := by
  have ht : Topological [-1, 0, 1, 0] := by
    intro i hi
    have : i = 0 ∨ i = 1 ∨ i = 2 ∨ i = 3 := by simp at hi; omega
    rcases this with rfl | rfl | rfl | rfl <;> simp
  refine ⟨ht, ?_⟩
  intro a b c hab hbc hd
  rcases Nat.lt_or_ge c 4 with hc | hc
  · have h10 : Desc [-1, 0, 1, 0] 0 1 := .step (p := 0) (by rfl) .self
    have h21 : Desc [-1, 0, 1, 0] 1 2 := .step (p := 1) (by rfl) .self
    have h20 : Desc [-1, 0, 1, 0] 0 2 := .step (p := 1) (by rfl) h10
    have h30 : Desc [-1, 0, 1, 0] 0 3 := .step (p := 0) (by rfl) .self
    have hn : ∀ a : Nat, 0 < a → a < 3 → ¬ Desc [-1, 0, 1, 0] a 3 := by
      intro a h0 h3 hd
      cases hd with
      | self => omega
      | @step _ p hp hd =>
        have : (0 : Int) = p := Option.some.inj hp
        have : p = 0 := by omega
        subst this
        have := hd.le ht
        omega
    have hb : b < 4 := by omega
    have ha : a < 4 := by omega
    have ha4 : a = 0 ∨ a = 1 ∨ a = 2 ∨ a = 3 := by omega
    have hb4 : b = 0 ∨ b = 1 ∨ b = 2 ∨ b = 3 := by omega
    rcases ha4 with rfl | rfl | rfl | rfl <;> rcases hb4 with rfl | rfl | rfl | rfl <;>
      first
      | exact .self
      | assumption
      | omega
      | (have : c = 3 := by omega
         subst this
         exact absurd hd (hn _ (by omega) (by omega)))
  · cases hd with
    | self =>
      have : a = b := by omega
      subst this
      exact .self
    | step hp _ =>
      have := (List.getElem?_eq_some_iff.1 hp).1
      simp at this
      omega

example : ∃ st, identify_system { kinSys with link_parents := [-1, 0, 1, 0] }
    [.inl (-1), .inl 0, .inl 1, .inl 0] = .ok (st, [0, 1, 2, 3], [-1, 0, 1, 0]) :=
  C06_identity (s := { kinSys with link_parents := [-1, 0, 1, 0] }) (by rfl) kinPreorder

example : identify_system kinSys [.inl 1, .inl 0, .inl (-1), .inl 1] = .error .value :=
  C06_cycle kinSys true (P := [1, 0, -1, 1]) (by rfl) fun h =>
    h.acyclic ⟨0, 1, by rfl, .step (p := 0) (by rfl) .self⟩

example : ∀ r, identify_system kinSys [.inl (-1), .inl 0, .inl 0, .inl 2] true ≠ .ok r :=
  C06_checks (P := [-1, 0, 0, 2]) (by rfl) (Preorder.forest (by
    intro i hi
    have : i = 0 ∨ i = 1 ∨ i = 2 ∨ i = 3 := by simp at hi; omega
    rcases this with rfl | rfl | rfl | rfl <;> simp)) rfl (i := 3) (p := 2) (by rfl)
    (by intro h; have := Option.some.inj h; omega) (by intro h; have := Option.some.inj h; omega)

end morph
end RingLib
