import Mathlib.Data.List.Nodup
import Verif.Lemmas.Parse

/-! Descendants in a topologically numbered parent array. -/

namespace RingLib
variable {parents : List Int}

theorem Desc.le (ht : Topological parents) {k i : Nat} (h : Desc parents k i) : k ≤ i := by
  induction h with
  | self => exact le_rfl
  | @step i p hp _ ih =>
    obtain ⟨hi, e⟩ := List.getElem?_eq_some_iff.1 hp
    have := (ht i hi).2
    omega

theorem Desc.lt_length {k i : Nat} (hk : k < parents.length) (h : Desc parents k i) :
    i < parents.length := by
  cases h with
  | self => exact hk
  | step hp _ => exact (List.getElem?_eq_some_iff.1 hp).1

theorem Desc.trans {a b c : Nat} (h1 : Desc parents a b) (h2 : Desc parents b c) :
    Desc parents a c := by
  induction h2 with
  | self => exact h1
  | step hp _ ih => exact .step hp ih

/-- ancestors of a common descendant are comparable -/
theorem Desc.comparable {a b i : Nat} (h1 : Desc parents a i) (h2 : Desc parents b i) :
    Desc parents a b ∨ Desc parents b a := by
  induction h1 with
  | self => exact Or.inr h2
  | @step i p hp h ih =>
    cases h2 with
    | self => exact Or.inl (.step hp h)
    | @step _ p' hp' h' =>
      have : (p : Int) = p' := Option.some.inj (hp.symm.trans hp')
      have : p = p' := by omega
      subst this
      exact ih h'

theorem Desc.eq_or_child {k i : Nat} (h : Desc parents k i) :
    i = k ∨ ∃ c : Nat, parents[c]? = some (k : Int) ∧ Desc parents c i := by
  induction h with
  | self => exact Or.inl rfl
  | @step i p hp h ih =>
    right
    rcases ih with rfl | ⟨c, hc, hd⟩
    · exact ⟨i, hp, .self⟩
    · exact ⟨c, hc, .step hp hd⟩

theorem Desc.proper_iff (ht : Topological parents) {k i : Nat} :
    (Desc parents k i ∧ i ≠ k) ↔ ∃ c : Nat, parents[c]? = some (k : Int) ∧ Desc parents c i := by
  constructor
  · rintro ⟨h, hne⟩
    exact h.eq_or_child.resolve_left hne
  · rintro ⟨c, hc, hd⟩
    refine ⟨Desc.trans (.step hc .self) hd, ?_⟩
    obtain ⟨hi, e⟩ := List.getElem?_eq_some_iff.1 hc
    have := (ht c hi).2
    have := hd.le ht
    omega

/-- different children of one link have disjoint subtrees -/
theorem Desc.siblings_disjoint (ht : Topological parents) {k c c' i : Nat}
    (hc : parents[c]? = some (k : Int)) (hc' : parents[c']? = some (k : Int))
    (h : Desc parents c i) (h' : Desc parents c' i) : c = c' := by
  have lt : ∀ {c c' : Nat}, parents[c]? = some (k : Int) → parents[c']? = some (k : Int) →
      Desc parents c c' → c = c' := by
    intro c c' hc hc' hd
    obtain ⟨hi, e⟩ := List.getElem?_eq_some_iff.1 hc
    have h1 := (ht c hi).2
    cases hd with
    | self => rfl
    | @step _ p hp h =>
      have : (p : Int) = k := Option.some.inj (hp.symm.trans hc')
      have := h.le ht
      omega
  rcases h.comparable h' with h | h
  · exact lt hc hc' h
  · exact (lt hc' hc h).symm

namespace System
variable {α π : Type}

theorem children_eq {s : System α π} {name : String} {k : Nat}
    (hk : s.name_to_idx name = .ok k) :
    s.children name = .ok ((List.range s.link_parents.length).filter
      fun i => s.link_parents[i]? = some (k : Int)) := by
  unfold children
  rw [hk]
  simp only [ok_bind, pure_ok]
  congr 1
  have : ∀ (l : List Int) (n : Nat), ((l.zipIdx n).filter fun x => x.1 = (k : Int)).map (·.2) =
      (List.range' n l.length).filter fun i => l[i - n]? = some (k : Int) := by
    intro l
    induction l with
    | nil => intro n; simp
    | cons a l ih =>
      intro n
      simp only [List.zipIdx_cons, List.length_cons, List.range'_succ, List.filter_cons]
      have e : ((List.range' (n+1) l.length).filter fun i => (a :: l)[i - n]? = some (k : Int)) =
          (List.range' (n+1) l.length).filter fun i => l[i - (n + 1)]? = some (k : Int) := by
        apply List.filter_congr
        intro i hi
        rw [List.mem_range'_1] at hi
        obtain ⟨j, rfl⟩ : ∃ j, i = n + 1 + j := ⟨i - (n+1), by omega⟩
        rw [show n + 1 + j - n = j + 1 by omega, show n + 1 + j - (n+1) = j by omega]
        simp
      rw [e]
      by_cases h : a = (k : Int)
      · simp [h, ih]
      · simp [h, ih]
  have := this s.link_parents 0
  simpa [List.range_eq_range'] using this

theorem idxOf?_eq_of_nodup {l : List String} (hn : l.Nodup) {i : Nat} {x : String}
    (h : l[i]? = some x) : l.idxOf? x = some i := by
  obtain ⟨hi, e⟩ := List.getElem?_eq_some_iff.1 h
  rw [List.idxOf?_eq_some_iff]
  refine ⟨hi, e, ?_⟩
  intro j hj e'
  have := (hn.getElem_inj_iff (i := j) (j := i) (hi := by omega) (hj := hi)).1 (e'.trans e.symm)
  omega

theorem name_to_idx_of_nodup {s : System α π} (hn : s.link_names.Nodup) {i : Nat} {x : String}
    (h : s.link_names[i]? = some x) : s.name_to_idx x = .ok i := by
  simp [name_to_idx, pyIndex, idxOf?_eq_of_nodup hn h]

theorem name_to_idx_ok {s : System α π} {i : Nat} {x : String}
    (h : s.name_to_idx x = .ok i) : s.link_names[i]? = some x := by
  unfold name_to_idx pyIndex at h
  cases hx : s.link_names.idxOf? x with
  | none => simp [hx] at h
  | some j =>
    simp [hx] at h
    subst h
    obtain ⟨hi, e, _⟩ := List.idxOf?_eq_some_iff.1 hx
    rw [List.getElem?_eq_getElem hi, e]

theorem idx_to_name_nat {s : System α π} {i : Nat} {x : String}
    (h : s.link_names[i]? = some x) : s.idx_to_name i = .ok x := by
  unfold idx_to_name
  rw [if_neg (by simp), pyAssert_true (by omega)]
  simp only [ok_bind, pyGet]
  have : ¬ ((i : Int) < 0) := by omega
  simp [this, h]

theorem mapM_ok {β γ : Type} {f : β → Py γ} {g : β → γ} {l : List β}
    (h : ∀ x ∈ l, f x = .ok (g x)) : l.mapM f = .ok (l.map g) := by
  induction l with
  | nil => rfl
  | cons x l ih =>
    rw [List.mapM_cons, h x (by simp), ih (fun y hy => h y (by simp [hy]))]
    rfl

end System
end RingLib
