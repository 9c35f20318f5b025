import Verif.Lemmas.MorphRest

/-! The new offsets, in terms of the old ones. -/

namespace RingLib
namespace morph
open System algebra
variable {α π : Type} {lam P : List Int}

theorem getD_some {β : Type} {l : List β} {i : Nat} (h : i < l.length) (d : β) :
    l[i]? = some (l.getD i d) := by
  rw [List.getD, List.getElem?_eq_getElem h, Option.getD_some]

theorem getD_of_some {β : Type} {l : List β} {i : Nat} {x : β} (h : l[i]? = some x) (d : β) :
    l.getD i d = x := by
  rw [List.getD, h, Option.getD_some]

namespace Reversal

theorem rangeP (h : Reversal lam P) {i : Nat} (hi : i < lam.length) :
    -1 ≤ P.getD i 0 ∧ P.getD i 0 < lam.length := by
  have hi' : i < P.length := by rw [h.len]; exact hi
  have := h.forest.range i hi'
  rw [List.getD, List.getElem?_eq_getElem hi', Option.getD_some]
  rw [h.len] at this
  exact this

theorem rangeL (h : Reversal lam P) {i : Nat} (hi : i < lam.length) :
    -1 ≤ lam.getD i 0 ∧ lam.getD i 0 < i := by
  have := h.topo i hi
  rw [List.getD, List.getElem?_eq_getElem hi, Option.getD_some]
  exact this

/-- a moved link gets one of its children as parent -/
theorem moved (h : Reversal lam P) {i : Nat} (hi : i < lam.length) (hm : Moved lam P i) :
    ∃ c : Nat, c < lam.length ∧ P.getD i 0 = c ∧ lam.getD c 0 = i := by
  have hr := h.rangeP hi
  have h2 := hm.2
  refine ⟨(P.getD i 0).toNat, by omega, by omega, ?_⟩
  have hi' : i < P.length := by rw [h.len]; exact hi
  have := h.only i (P.getD i 0).toNat (by rw [getD_some hi' 0]; congr 1; omega) (by
    rw [getD_some hi 0]
    intro e
    exact hm.1 (by have := Option.some.inj e; omega))
  exact getD_of_some this 0

/-- which is moved, too, or becomes a root -/
theorem moved_parent (h : Reversal lam P) {i c : Nat} (hi : i < lam.length) (hc : c < lam.length)
    (hP : P.getD i 0 = c) (hl : lam.getD c 0 = i) (hne : P.getD c 0 ≠ -1) : Moved lam P c := by
  refine ⟨?_, hne⟩
  rw [hl]
  intro e
  have hi' : i < P.length := by rw [h.len]; exact hi
  have hc' : c < P.length := by rw [h.len]; exact hc
  refine h.forest.acyclic ⟨i, c, by rw [getD_some hi' 0, hP], .step (p := i) ?_ .self⟩
  rw [getD_some hc' 0, e]

end Reversal

theorem rel_inv [Field α] {a b t : Transform α} (hb : b.rot.normSq = 1) (ht : t.rot.normSq = 1)
    (h : b = transform_mul t a) : transform_mul a (transform_inv b) = transform_inv t := by
  have e : transform_mul (transform_inv t) b = a := by
    rw [h, ← transform_mul_assoc', transform_inv_mul ht, transform_zero_mul]
  rw [← e, transform_mul_assoc', transform_mul_inv hb, transform_mul_zero]

section
variable [Field α] {s : System α π} {X : Nat → Transform α}

theorem RestPoses.child (hX : RestPoses s X) {i : Nat} {p : Nat} (hi : i < s.link_parents.length)
    (hp : s.link_parents.getD i 0 = p) : X i = transform_mul (T1 s i) (X p) := by
  have e : s.link_parents[i] = (p : Int) := by
    rw [List.getD, List.getElem?_eq_getElem hi, Option.getD_some] at hp
    exact hp
  rw [hX.eq i hi, e]
  simp [parentVal]

theorem RestPoses.parent (hX : RestPoses s X) {i : Nat} (hi : i < s.link_parents.length) :
    X i = transform_mul (T1 s i) (parentVal .zero X (s.link_parents.getD i 0)) := by
  have e : s.link_parents.getD i 0 = s.link_parents[i] := by
    rw [List.getD, List.getElem?_eq_getElem hi, Option.getD_some]
  rw [e]
  exact hX.eq i hi

theorem newT_eq {E : JEnv α π} (hr : Resting E s) (h : Reversal s.link_parents P)
    (hX : RestPoses s X) {i : Nat} (hi : i < s.link_parents.length) :
    newT s.link_parents P X i = offset s.link_parents P X (T1 s) i := by
  have hrP := h.rangeP hi
  have hrL := h.rangeL hi
  unfold newT offset
  by_cases h1 : P.getD i 0 = -1
  · have hm : ¬ Moved s.link_parents P i := fun hm => hm.2 h1
    rw [if_pos h1, h1]
    have e : parentVal Transform.zero (movedPose s.link_parents P X) (-1) = (.zero : Transform α) := rfl
    rw [e, transform_inv_zero, transform_mul_zero]
    unfold movedPose
    rw [if_neg hm]
    exact hX.parent hi
  rw [if_neg h1]
  obtain ⟨p, hp⟩ : ∃ p : Nat, P.getD i 0 = p := ⟨(P.getD i 0).toNat, by omega⟩
  have hpl : p < s.link_parents.length := by omega
  have e : parentVal Transform.zero (movedPose s.link_parents P X) (P.getD i 0) =
      movedPose s.link_parents P X p := by
    rw [hp]; simp [parentVal]
  have et : (P.getD i 0).toNat = p := by omega
  rw [e, et]
  by_cases h2 : P.getD i 0 = s.link_parents.getD i 0
  · have hm : ¬ Moved s.link_parents P i := fun hm => hm.1 h2
    rw [if_pos h2]
    unfold movedPose
    rw [if_neg hm]
    have hXi := hX.child hi (h2.symm.trans hp)
    by_cases hmp : Moved s.link_parents P p
    · rw [if_pos hmp, if_pos hmp]
      obtain ⟨c, hc, hc1, hc2⟩ := h.moved hpl hmp
      have ec : (P.getD p 0).toNat = c := by omega
      rw [ec, hXi, transform_mul_assoc', rel_inv (hX.unit c hc) (T1_unit hr c) (hX.child hc hc2)]
    · rw [if_neg hmp, if_neg hmp, hXi, transform_mul_assoc', transform_mul_inv (hX.unit p hpl),
        transform_mul_zero]
  · have hm : Moved s.link_parents P i := ⟨h2, h1⟩
    rw [if_neg h2]
    have e1 : movedPose s.link_parents P X i = X p := by
      unfold movedPose
      rw [if_pos hm, et]
    rw [e1]
    obtain ⟨c, hc, hc1, hc2⟩ := h.moved hi hm
    have hcp : c = p := by omega
    subst hcp
    unfold movedPose
    by_cases h3 : P.getD c 0 = -1
    · rw [if_pos h3, if_neg (fun hm => hm.2 h3), transform_mul_inv (hX.unit c hc)]
    · have hmc := h.moved_parent hi hc hc1 hc2 h3
      rw [if_neg h3, if_pos hmc]
      obtain ⟨g, hg, hg1, hg2⟩ := h.moved hc hmc
      have eg : (P.getD c 0).toNat = g := by omega
      rw [eg, rel_inv (hX.unit g hg) (T1_unit hr g) (hX.child hg hg2)]

/-- the pose of a moved link relative to its new parent -/
theorem moved_rel {E : JEnv α π} (hr : Resting E s) (h : Reversal s.link_parents P)
    (hX : RestPoses s X) {i : Nat} (hi : i < s.link_parents.length) (hm : Moved s.link_parents P i) :
    transform_mul (X i) (transform_inv (X (P.getD i 0).toNat)) =
      transform_inv (T1 s (P.getD i 0).toNat) := by
  obtain ⟨c, hc, hc1, hc2⟩ := h.moved hi hm
  have ec : (P.getD i 0).toNat = c := by omega
  rw [ec]
  exact rel_inv (hX.unit c hc) (T1_unit hr c) (hX.child hc hc2)

end
end morph
end RingLib
