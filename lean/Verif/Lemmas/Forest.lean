import Mathlib.Data.Fintype.Card
import Mathlib.Data.Fintype.EquivFin
import Mathlib.Data.List.Perm.Basic
import Verif.Lemmas.Desc
import Verif.Lemmas.Scan
import Verif.Model.Morph

/-! Forests given by arrays of parents, in any numbering, and the order in which a depth-first search
meets their links. -/

namespace RingLib
namespace morph
open System
variable {P : List Int}

/-- some link is above its own parent -/
def HasCycle (P : List Int) : Prop := ∃ i p : Nat, P[i]? = some (p : Int) ∧ Desc P i p

/-- every parent is the world or a link, and there are no cycles -/
structure Forest (P : List Int) : Prop where
  range : ∀ i (h : i < P.length), -1 ≤ P[i] ∧ P[i] < P.length
  acyclic : ¬ HasCycle P

/-- the number of steps from the world -/
inductive Level (P : List Int) : Nat → Int → Prop
  | world : Level P 0 (-1)
  | link {L i : Nat} {p : Int} : P[i]? = some p → Level P L p → Level P (L + 1) (i : Int)

theorem Level.unique {L L' : Nat} {x : Int} (h : Level P L x) (h' : Level P L' x) : L = L' := by
  induction h generalizing L' with
  | world =>
    generalize hx : (-1 : Int) = x at h'
    cases h' with
    | world => rfl
    | link _ _ => omega
  | @link L i p hp h ih =>
    generalize hx : (i : Int) = x at h'
    cases h' with
    | world => omega
    | @link L' i' p' hp' h' =>
      have : i = i' := by omega
      subst this
      rw [hp] at hp'
      cases hp'
      rw [ih h']

theorem Level.lower {L : Nat} {x : Int} (h : Level P L x) : ∀ k, 1 ≤ k → k ≤ L →
    ∃ i : Nat, i < P.length ∧ Level P k (i : Int) := by
  induction h with
  | world => intro k h1 h2; omega
  | @link L i p hp h ih =>
    intro k h1 h2
    by_cases hk : k = L + 1
    · subst hk
      exact ⟨i, (List.getElem?_eq_some_iff.1 hp).1, .link hp h⟩
    · exact ih k h1 (by omega)

theorem Level.le {L : Nat} {x : Int} (h : Level P L x) : L ≤ P.length := by
  choose f hf hl using fun k : Fin L => h.lower (k + 1) (by omega) (by omega)
  have hinj : Function.Injective fun k : Fin L => (⟨f k, hf k⟩ : Fin P.length) := by
    intro a b hab
    have e : f a = f b := by simpa using hab
    have h1 := hl a
    rw [e] at h1
    have := h1.unique (hl b)
    ext
    omega
  simpa using Fintype.card_le_of_injective _ hinj

theorem Level.ge_neg_one {L : Nat} {x : Int} (h : Level P L x) : -1 ≤ x := by
  cases h <;> omega

/-- going down increases the level -/
theorem Level.desc {L : Nat} {k i : Nat} (h : Level P L (k : Int)) (hd : Desc P k i) :
    ∃ L', L ≤ L' ∧ Level P L' (i : Int) := by
  induction hd with
  | self => exact ⟨L, le_rfl, h⟩
  | step hp _ ih =>
    obtain ⟨L', h1, h2⟩ := ih
    exact ⟨L' + 1, by omega, .link hp h2⟩

theorem Level.desc_up {L : Nat} {k i : Nat} (h : Level P L (i : Int)) (hd : Desc P k i) :
    ∃ L', L' ≤ L ∧ Level P L' (k : Int) := by
  induction hd generalizing L with
  | self => exact ⟨L, le_rfl, h⟩
  | @step i p hp _ ih =>
    generalize hx : (i : Int) = x at h
    cases h with
    | world => omega
    | @link L i' p' hp' h' =>
      have : i = i' := by omega
      subst this
      rw [hp] at hp'
      cases hp'
      obtain ⟨L', h1, h2⟩ := ih h'
      exact ⟨L', by omega, h2⟩

/-- a link with a level is not above its own parent -/
theorem Level.no_cycle {L i p : Nat} (h : Level P L (i : Int)) (hp : P[i]? = some (p : Int))
    (hd : Desc P i p) : False := by
  generalize hx : (i : Int) = x at h
  cases h with
  | world => omega
  | @link L i' p' hp' h' =>
    have : i = i' := by omega
    subst this
    rw [hp] at hp'
    cases hp'
    obtain ⟨L', h1, h2⟩ := (Level.link hp h').desc hd
    have := h'.unique h2
    omega

/-- a forest is an array of parents in which every link has a level -/
theorem forest_iff : Forest P ↔ ∀ i < P.length, ∃ L, Level P L (i : Int) := by
  constructor
  · intro h
    let r : Fin P.length → Fin P.length → Prop := fun a b => P[b.1]? = some ((a.1 : Nat) : Int)
    have hd : ∀ {a b}, Relation.ReflTransGen r a b → Desc P a.1 b.1 := by
      intro a b hab
      induction hab with
      | refl => exact .self
      | tail _ hbc ih => exact .step hbc ih
    have hirr : ∀ a, ¬ Relation.TransGen r a a := by
      intro a ha
      rw [Relation.TransGen.tail'_iff] at ha
      obtain ⟨b, hab, hba⟩ := ha
      exact h.acyclic ⟨a.1, b.1, hba, hd hab⟩
    haveI : Std.Irrefl (Relation.TransGen r) := ⟨hirr⟩
    have wf := Finite.wellFounded_of_trans_of_irrefl (Relation.TransGen r)
    have key : ∀ i : Fin P.length, ∃ L, Level P L ((i.1 : Nat) : Int) := by
      intro i
      induction i using wf.induction with
      | _ i ih =>
        obtain ⟨h1, h2⟩ := h.range i.1 i.2
        by_cases h0 : P[i.1] = -1
        · exact ⟨1, .link (by rw [List.getElem?_eq_getElem i.2, h0]) .world⟩
        · have hp : P[i.1].toNat < P.length := by omega
          have hp' : P[i.1]? = some ((P[i.1].toNat : Nat) : Int) := by
            rw [List.getElem?_eq_getElem i.2]; congr 1; omega
          obtain ⟨L, hL⟩ := ih ⟨_, hp⟩ (Relation.TransGen.single hp')
          exact ⟨L + 1, .link hp' hL⟩
    exact fun i hi => key ⟨i, hi⟩
  · intro h
    constructor
    · intro i hi
      obtain ⟨L, hL⟩ := h i hi
      generalize hx : (i : Int) = x at hL
      cases hL with
      | world => omega
      | @link L i' p hp hL =>
        have : i = i' := by omega
        subst this
        rw [List.getElem?_eq_getElem hi] at hp
        rw [Option.some.inj hp]
        cases hL with
        | world => constructor <;> omega
        | link hp' _ =>
          have := (List.getElem?_eq_some_iff.1 hp').1
          constructor <;> omega
    · rintro ⟨i, p, hp, hd⟩
      obtain ⟨L, hL⟩ := h i (List.getElem?_eq_some_iff.1 hp).1
      exact hL.no_cycle hp hd

/-! ## the order of a depth-first search -/

/-- `x` comes before `y`: it is above `y`, or they are in the subtrees of two siblings of which the one
above `x` has the smaller number -/
def Before (P : List Int) (x y : Nat) : Prop :=
  (x ≠ y ∧ Desc P x y) ∨ ∃ (c c' : Nat) (p : Int), P[c]? = some p ∧ P[c']? = some p ∧ c < c' ∧
    Desc P c x ∧ Desc P c' y

/-- links with a level -/
def Rooted (P : List Int) (i : Nat) : Prop := ∃ L, Level P L (i : Int)

theorem Rooted.up {k i : Nat} (h : Rooted P i) (hd : Desc P k i) : Rooted P k := by
  obtain ⟨L, hL⟩ := h
  obtain ⟨L', -, h'⟩ := hL.desc_up hd
  exact ⟨L', h'⟩

theorem sibling_eq {c c' x : Nat} {p : Int} (hx : Rooted P x) (hc : P[c]? = some p)
    (hc' : P[c']? = some p) (h : Desc P c x) (h' : Desc P c' x) : c = c' := by
  have aux : ∀ {c c' : Nat}, Rooted P c → P[c]? = some p → P[c']? = some p → Desc P c c' → c = c' := by
    intro c c' ⟨L, hL⟩ hc hc' hd
    cases hd with
    | self => rfl
    | @step _ q hq hd =>
      rw [hc'] at hq
      cases hq
      exact (hL.no_cycle hc hd).elim
  rcases h.comparable h' with hd | hd
  · exact aux (hx.up h) hc hc' hd
  · exact (aux (hx.up h') hc' hc hd).symm

theorem desc_antisymm {x y : Nat} (hx : Rooted P x) (h : Desc P x y) (h' : Desc P y x) : x = y := by
  cases h with
  | self => rfl
  | @step _ p hp hd =>
    obtain ⟨L, hL⟩ := hx.up h'
    exact (hL.no_cycle hp (h'.trans hd)).elim

theorem Before.asymm {x y : Nat} (hx : Rooted P x) (hy : Rooted P y) (h : Before P x y)
    (h' : Before P y x) : False := by
  rcases h with ⟨hne, hd⟩ | ⟨c, c', p, hc, hc', hlt, hcx, hcy⟩
  · rcases h' with ⟨-, hd'⟩ | ⟨e, e', q, he, he', hlt', hey, hex⟩
    · exact hne (desc_antisymm hx hd hd')
    · have := sibling_eq hy he he' hey (hex.trans hd)
      omega
  · rcases h' with ⟨hne, hd⟩ | ⟨e, e', q, he, he', hlt', hey, hex⟩
    · have := sibling_eq hx hc hc' hcx (hcy.trans hd)
      omega
    · -- two pairs of siblings
      rcases hcx.comparable hex with hd | hd
      · -- `c` is above `e'`
        by_cases hce : c = e'
        · subst hce
          rw [hc] at he'
          cases he'
          have := sibling_eq hy hc' he hcy hey
          omega
        · have hd' : Desc P c e := by
            cases hd with
            | self => exact absurd rfl hce
            | @step _ r hr hd =>
              rw [he'] at hr
              cases hr
              exact .step he hd
          have := sibling_eq hy hc hc' (hd'.trans hey) hcy
          omega
      · by_cases hce : e' = c
        · subst hce
          rw [hc] at he'
          cases he'
          have := sibling_eq hy hc' he hcy hey
          omega
        · have hd' : Desc P e' c' := by
            cases hd with
            | self => exact absurd rfl hce
            | @step _ r hr hd =>
              rw [hc] at hr
              cases hr
              exact .step hc' hd
          have := sibling_eq hy he he' hey (hd'.trans hcy)
          omega

theorem Before.irrefl {x : Nat} (hx : Rooted P x) (h : Before P x x) : False := h.asymm hx hx h

/-- the search finds the links below, in that order -/
theorem findChildsOf_ok : ∀ (fuel L : Nat) (x : Int), Level P L x → P.length + 1 ≤ L + fuel →
    ∃ l, findChildsOf P fuel x = .ok l ∧
      (∀ i, i ∈ l ↔ ∃ c : Nat, P[c]? = some x ∧ Desc P c i) ∧ l.Pairwise (Before P) := by
  intro fuel
  induction fuel with
  | zero =>
    intro L x h hf
    have := h.le
    omega
  | succ fuel ih =>
    intro L x h hf
    let cs := (List.range P.length).filter fun i => P[i]? = some x
    have hcs : ∀ c, c ∈ cs ↔ P[c]? = some x := by
      intro c
      simp only [cs, List.mem_filter, List.mem_range, decide_eq_true_eq]
      exact ⟨fun h => h.2, fun h => ⟨(List.getElem?_eq_some_iff.1 h).1, h⟩⟩
    have hsub : ∀ c ∈ cs, ∃ l, findChildsOf P fuel (c : Int) = .ok l ∧
        (∀ i, i ∈ l ↔ ∃ c' : Nat, P[c']? = some (c : Int) ∧ Desc P c' i) ∧ l.Pairwise (Before P) :=
      fun c hc => ih (L + 1) c (.link ((hcs c).1 hc) h) (by omega)
    choose! f hf1 hf2 hf3 using hsub
    refine ⟨(cs.map fun c => c :: f c).flatten, ?_, ?_, ?_⟩
    · rw [findChildsOf]
      rw [mapM_ok (g := fun c => c :: f c) (fun c hc => by rw [hf1 c hc, ok_bind]; rfl), ok_bind]
      rfl
    · intro i
      simp only [List.mem_flatten, List.mem_map]
      constructor
      · rintro ⟨_, ⟨c, hc, rfl⟩, hi⟩
        rcases List.mem_cons.1 hi with rfl | hi
        · exact ⟨i, (hcs i).1 hc, .self⟩
        · obtain ⟨c', h1, h2⟩ := (hf2 c hc i).1 hi
          exact ⟨c, (hcs c).1 hc, Desc.trans (.step h1 .self) h2⟩
      · rintro ⟨c, hc, hd⟩
        refine ⟨_, ⟨c, (hcs c).2 hc, rfl⟩, ?_⟩
        rcases hd.eq_or_child with rfl | h'
        · simp
        · exact List.mem_cons_of_mem _ ((hf2 c ((hcs c).2 hc) i).2 h')
    · have hblock : ∀ c ∈ cs, ∀ i ∈ c :: f c, Desc P c i := by
        intro c hc i hi
        rcases List.mem_cons.1 hi with rfl | hi
        · exact .self
        · obtain ⟨c', h1, h2⟩ := (hf2 c hc i).1 hi
          exact Desc.trans (.step h1 .self) h2
      rw [List.pairwise_flatten]
      constructor
      · intro l hl
        obtain ⟨c, hc, rfl⟩ := List.mem_map.1 hl
        rw [List.pairwise_cons]
        refine ⟨?_, hf3 c hc⟩
        intro i hi
        obtain ⟨c', h1, h2⟩ := (hf2 c hc i).1 hi
        refine Or.inl ⟨?_, Desc.trans (.step h1 .self) h2⟩
        rintro rfl
        exact (Level.link h1 (.link ((hcs c).1 hc) h)).no_cycle h1 h2
      · rw [List.pairwise_map]
        have hlt : cs.Pairwise (· < ·) := List.Pairwise.filter _ List.pairwise_lt_range
        refine List.Pairwise.imp_of_mem ?_ hlt
        intro c c' hc hc' hcc x hx y hy
        exact Or.inr ⟨c, c', _, (hcs c).1 hc, (hcs c').1 hc', hcc, hblock c hc x hx,
          hblock c' hc' y hy⟩

theorem rooted_iff_desc {i : Nat} (hi : i < P.length) :
    Rooted P i ↔ ∃ c : Nat, P[c]? = some (-1) ∧ Desc P c i := by
  constructor
  · rintro ⟨L, hL⟩
    generalize hx : (i : Int) = x at hL
    induction hL generalizing i with
    | world => omega
    | @link L j p hp h ih =>
      have : i = j := by omega
      subst this
      cases h with
      | world => exact ⟨i, hp, .self⟩
      | @link L k q hq h =>
        obtain ⟨c, h1, h2⟩ := ih (i := k) (List.getElem?_eq_some_iff.1 hq).1 rfl
        exact ⟨c, h1, .step hp h2⟩
  · rintro ⟨c, hc, hd⟩
    obtain ⟨L, -, h⟩ := (Level.link hc .world).desc hd
    exact ⟨L, h⟩

/-- what a search from the world finds -/
theorem search_ok (P : List Int) : ∃ l, findChildsOf P (P.length + 1) (-1) = .ok l ∧
    (∀ i, i ∈ l ↔ i < P.length ∧ Rooted P i) ∧ l.Pairwise (Before P) ∧ l.Nodup := by
  obtain ⟨l, h1, h2, h3⟩ := findChildsOf_ok (P := P) (P.length + 1) 0 (-1) .world (by omega)
  have hmem : ∀ i, i ∈ l ↔ i < P.length ∧ Rooted P i := by
    intro i
    rw [h2]
    constructor
    · rintro ⟨c, hc, hd⟩
      have := hd.lt_length (List.getElem?_eq_some_iff.1 hc).1
      exact ⟨this, (rooted_iff_desc this).2 ⟨c, hc, hd⟩⟩
    · rintro ⟨hi, hr⟩
      exact (rooted_iff_desc hi).1 hr
  refine ⟨l, h1, hmem, h3, ?_⟩
  rw [List.nodup_iff_pairwise_ne]
  refine List.Pairwise.imp_of_mem ?_ h3
  intro a b ha _ hab hne
  subst hne
  exact hab.irrefl ((hmem a).1 ha).2

end morph
end RingLib
