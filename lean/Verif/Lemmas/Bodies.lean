import Mathlib.Algebra.BigOperators.Group.Finset.Basic
import Mathlib.Algebra.BigOperators.Ring.Finset
import Verif.Lemmas.Tree

/-!
# Rigid bodies on a tree

Velocities propagated from the root to the leaves, forces and inertias accumulated from the leaves
to the root, and the principle of virtual power which links the two.
-/

namespace RingLib
open algebra System
open Finset (range)

section accumulate
variable {β : Type} [AddCommMonoid β] (parents : List Int) (T : Nat → β → β) (f : Nat → β)

/-- Values after the last `m` links have handed their value on to their parent. -/
def accAux : Nat → Nat → β
  | 0 => f
  | m + 1 =>
    let D := accAux m
    let i := parents.length - 1 - m
    let p := parents.getD i (-1)
    if 0 ≤ p then Function.update D p.toNat (D p.toNat + T i (D i)) else D

/-- Values after all links have handed their value on. -/
def accum : Nat → β := accAux parents T f parents.length

variable {parents T f}

theorem accAux_stable (ht : Topological parents) {m m' c : Nat} (h1 : m ≤ m')
    (h2 : m' ≤ parents.length) (hc : parents.length ≤ m + 1 + c) :
    accAux parents T f m' c = accAux parents T f m c := by
  induction m', h1 using Nat.le_induction with
  | base => rfl
  | succ m' hm ih =>
    rw [← ih (by omega)]
    simp only [accAux]
    have hi : parents.length - 1 - m' < parents.length := by omega
    obtain ⟨h3, h4⟩ := ht _ hi
    have e : parents.getD (parents.length - 1 - m') (-1) = parents[parents.length - 1 - m'] := by
      simp [hi]
    rw [e]
    split
    · rw [Function.update_of_ne (by omega)]
    · rfl

theorem accAux_sum (ht : Topological parents) {m : Nat} (hm : m ≤ parents.length) (k : Nat) :
    accAux parents T f m k = f k + ∑ c ∈ range parents.length,
      if parents.length ≤ m + c ∧ parents.getD c (-1) = (k : Int) then
        T c (accum parents T f c) else 0 := by
  induction m with
  | zero =>
    rw [Finset.sum_eq_zero, add_zero]
    · rfl
    · intro c hc
      rw [Finset.mem_range] at hc
      rw [if_neg (by omega)]
  | succ m ih =>
    have ih := ih (by omega)
    simp only [accAux]
    set i := parents.length - 1 - m with hi
    have hil : i < parents.length := by omega
    obtain ⟨h3, h4⟩ := ht i hil
    have e : parents.getD i (-1) = parents[i] := by simp [hil]
    have hval : accum parents T f i = accAux parents T f m i :=
      accAux_stable ht (by omega) le_rfl (by omega)
    have hsplit : (∑ c ∈ range parents.length,
        if parents.length ≤ m + 1 + c ∧ parents.getD c (-1) = (k : Int) then
          T c (accum parents T f c) else 0) =
        (∑ c ∈ range parents.length,
          if parents.length ≤ m + c ∧ parents.getD c (-1) = (k : Int) then
            T c (accum parents T f c) else 0) +
        if parents[i] = (k : Int) then T i (accum parents T f i) else 0 := by
      rw [← Finset.add_sum_erase (s := range parents.length) (a := i)
          (f := fun c => if parents.length ≤ m + 1 + c ∧ parents.getD c (-1) = (k : Int) then
            T c (accum parents T f c) else 0) (Finset.mem_range.2 hil),
        ← Finset.add_sum_erase (s := range parents.length) (a := i)
          (f := fun c => if parents.length ≤ m + c ∧ parents.getD c (-1) = (k : Int) then
            T c (accum parents T f c) else 0) (Finset.mem_range.2 hil)]
      have n1 : ¬ (parents.length ≤ m + i ∧ parents.getD i (-1) = (k : Int)) := fun h => by omega
      rw [if_neg n1, zero_add, e, add_comm]
      congr 1
      · apply Finset.sum_congr rfl
        intro c hc
        rw [Finset.mem_erase] at hc
        have := hc.1
        congr 1
        apply propext
        constructor
        · rintro ⟨ha, hb⟩; exact ⟨by omega, hb⟩
        · rintro ⟨ha, hb⟩; exact ⟨by omega, hb⟩
      · congr 1
        apply propext
        exact ⟨fun h => h.2, fun h => ⟨by omega, h⟩⟩
    rw [hsplit, ← add_assoc, ← ih, e, hval]
    by_cases h0 : 0 ≤ parents[i]
    · rw [if_pos h0]
      by_cases hk : parents[i] = (k : Int)
      · have hk' : parents[i].toNat = k := by omega
        rw [if_pos hk, hk', Function.update_self]
      · rw [if_neg hk, Function.update_of_ne (by omega), add_zero]
    · rw [if_neg h0, if_neg (by omega), add_zero]

/-- The accumulated value of a link is its own value plus what its children hand on. -/
theorem accum_eq (ht : Topological parents) (k : Nat) :
    accum parents T f k = f k + ∑ c ∈ range parents.length,
      if parents.getD c (-1) = (k : Int) then T c (accum parents T f c) else 0 := by
  have := accAux_sum (T := T) (f := f) ht (le_refl parents.length) k
  unfold accum at this ⊢
  rw [this]
  congr 1
  apply Finset.sum_congr rfl
  intro c _
  congr 1
  apply propext
  exact ⟨fun h => h.2, fun h => ⟨by omega, h⟩⟩

end accumulate

/-! ## Linear maps -/

section lin
variable {R : Type} [CommRing R]

theorem transform_motion_zero' (t : Transform R) : transform_motion t 0 = 0 := by
  have := transform_motion_add t 0 0
  rw [add_zero] at this
  exact left_eq_add.1 this

theorem transform_force_zero' (t : Transform R) : transform_force t 0 = 0 := by
  have := transform_force_add t 0 0
  rw [add_zero] at this
  exact left_eq_add.1 this

theorem inertia_mul_zero (it : Inertia R) : inertia_mul_motion it 0 = 0 := by
  have := inertia_mul_add it 0 0
  rw [add_zero] at this
  exact left_eq_add.1 this

theorem inertia_zero_mul' (a : Motion R) : inertia_mul_motion 0 a = 0 := by
  have := inertia_add_mul 0 0 a
  rw [add_zero] at this
  exact left_eq_add.1 this

theorem motion_smul_zero (s : R) : Motion.smul s 0 = 0 := by
  ext <;> simp [Motion.smul]

theorem motion_smul_add (s : R) (a b : Motion R) :
    Motion.smul s (a + b) = Motion.smul s a + Motion.smul s b := by
  ext <;> simp [Motion.smul] <;> ring

theorem motion_dot_sum {ι : Type} (s : Finset ι) (m : Motion R) (f : ι → Force R) :
    motion_dot m (∑ i ∈ s, f i) = ∑ i ∈ s, motion_dot m (f i) :=
  map_sum (AddMonoidHom.mk' (motion_dot m) (motion_dot_add_right m)) f s

theorem sum_motion_dot {ι : Type} (s : Finset ι) (m : ι → Motion R) (f : Force R) :
    motion_dot (∑ i ∈ s, m i) f = ∑ i ∈ s, motion_dot (m i) f :=
  map_sum (AddMonoidHom.mk' (fun m => motion_dot m f) (fun a b => motion_dot_add a b f)) m s

theorem inertia_mul_sum {ι : Type} (s : Finset ι) (it : Inertia R) (m : ι → Motion R) :
    inertia_mul_motion it (∑ i ∈ s, m i) = ∑ i ∈ s, inertia_mul_motion it (m i) :=
  map_sum (AddMonoidHom.mk' (inertia_mul_motion it) (inertia_mul_add it)) m s

theorem inertia_sum_mul {ι : Type} (s : Finset ι) (it : ι → Inertia R) (a : Motion R) :
    inertia_mul_motion (∑ i ∈ s, it i) a = ∑ i ∈ s, inertia_mul_motion (it i) a := by
  induction s using Finset.cons_induction with
  | empty => simp [inertia_zero_mul']
  | cons i s h ih => rw [Finset.sum_cons, Finset.sum_cons, inertia_add_mul, ih]

theorem transform_force_sum {ι : Type} (s : Finset ι) (t : Transform R) (f : ι → Force R) :
    transform_force t (∑ i ∈ s, f i) = ∑ i ∈ s, transform_force t (f i) :=
  map_sum (AddMonoidHom.mk' (transform_force t) (transform_force_add t)) f s

end lin

/-! ## Velocities, forces, composite inertias -/

section bodies
variable {R : Type} [Field R] (parents : List Int) (X : Nat → Transform R) (I : Nat → Inertia R)

/-- velocity of every link, given the motion `g` contributed by every joint -/
def vel (g : Nat → Motion R) : Nat → Motion R :=
  treeVal parents 0 fun i v => transform_motion (X i) v + g i

/-- forces accumulated towards the root -/
def force (f : Nat → Force R) : Nat → Force R :=
  accum parents (fun i F => transform_force (transform_inv (X i)) F) f

/-- composite inertias -/
def composite : Nat → Inertia R :=
  accum parents (fun i J => transform_inertia (transform_inv (X i)) J) I

/-- motion `w` at joint `j`, none at the others -/
def single (j : Nat) (w : Motion R) : Nat → Motion R := fun k => if k = j then w else 0

/-- sum over the links of `v_k(g) · I_k v_k(h)`: twice the kinetic energy for `g = h` -/
def energyForm (g h : Nat → Motion R) : R :=
  ∑ k ∈ range parents.length,
    motion_dot (vel parents X g k) (inertia_mul_motion (I k) (vel parents X h k))

variable {parents X I}

theorem vel_eq (ht : Topological parents) (g : Nat → Motion R) {i : Nat}
    (hi : i < parents.length) :
    vel parents X g i =
      transform_motion (X i) (parentVal 0 (vel parents X g) parents[i]) + g i :=
  treeVal_eq ht _ _ i hi

theorem parentVal_add (u v : Nat → Motion R) (p : Int) :
    parentVal 0 (fun k => u k + v k) p = parentVal 0 u p + parentVal 0 v p := by
  unfold parentVal
  split
  · rfl
  · rw [add_zero]

/-- induction along the tree -/
theorem tree_induction {P : Nat → Prop}
    (h : ∀ i (hi : i < parents.length), (∀ p : Nat, parents[i] = (p : Int) → p < i → P p) → P i) :
    ∀ i, i < parents.length → P i := by
  intro i
  induction i using Nat.strong_induction_on with
  | _ i ih =>
    intro hi
    apply h i hi
    intro p _ hlt
    exact ih p hlt (by omega)

theorem vel_add (ht : Topological parents) (g h : Nat → Motion R) {i : Nat}
    (hi : i < parents.length) :
    vel parents X (fun k => g k + h k) i = vel parents X g i + vel parents X h i := by
  revert i
  suffices h' : ∀ i, i < parents.length → _ from fun {i} hi => h' i hi
  apply tree_induction
  intro i hi ih
  rw [vel_eq ht _ hi, vel_eq ht g hi, vel_eq ht h hi]
  have : parentVal 0 (vel parents X fun k => g k + h k) parents[i] =
      parentVal 0 (vel parents X g) parents[i] + parentVal 0 (vel parents X h) parents[i] := by
    have h2 := (ht i hi).2
    unfold parentVal
    split
    · exact ih _ (by omega) (by omega)
    · rw [add_zero]
  rw [this, transform_motion_add]
  abel

theorem vel_smul (ht : Topological parents) (c : R) (g : Nat → Motion R) {i : Nat}
    (hi : i < parents.length) :
    vel parents X (fun k => Motion.smul c (g k)) i = Motion.smul c (vel parents X g i) := by
  revert i
  suffices h' : ∀ i, i < parents.length → _ from fun {i} hi => h' i hi
  apply tree_induction
  intro i hi ih
  rw [vel_eq ht _ hi, vel_eq ht g hi]
  have : parentVal 0 (vel parents X fun k => Motion.smul c (g k)) parents[i] =
      Motion.smul c (parentVal 0 (vel parents X g) parents[i]) := by
    have h2 := (ht i hi).2
    unfold parentVal
    split
    · exact ih _ (by omega) (by omega)
    · rw [motion_smul_zero]
  rw [this, transform_motion_smul, motion_smul_add]

theorem vel_zero (ht : Topological parents) {i : Nat} (hi : i < parents.length) :
    vel parents X (fun _ => 0) i = 0 := by
  revert i
  suffices h' : ∀ i, i < parents.length → _ from fun {i} hi => h' i hi
  apply tree_induction
  intro i hi ih
  rw [vel_eq ht _ hi, add_zero]
  have : parentVal 0 (vel parents X fun _ => (0 : Motion R)) parents[i] = 0 := by
    have h2 := (ht i hi).2
    unfold parentVal
    split
    · exact ih _ (by omega) (by omega)
    · rfl
  rw [this, transform_motion_zero']

theorem vel_sum (ht : Topological parents) {ι : Type} (s : Finset ι) (g : ι → Nat → Motion R)
    {i : Nat} (hi : i < parents.length) :
    vel parents X (fun k => ∑ j ∈ s, g j k) i = ∑ j ∈ s, vel parents X (g j) i := by
  induction s using Finset.cons_induction with
  | empty => simpa using vel_zero ht hi
  | cons a s h ih =>
    simp only [Finset.sum_cons]
    rw [vel_add ht _ _ hi, ih]

/-- the velocity depends only on the joint motions -/
theorem vel_congr (ht : Topological parents) {g h : Nat → Motion R} {i : Nat}
    (hi : i < parents.length) (e : ∀ k, k ≤ i → g k = h k) :
    vel parents X g i = vel parents X h i := by
  revert i
  intro i
  induction i using Nat.strong_induction_on with
  | _ i ih =>
    intro hi e
    rw [vel_eq ht _ hi, vel_eq ht h hi, e i le_rfl]
    congr 2
    have h2 := (ht i hi).2
    unfold parentVal
    split
    · exact ih _ (by omega) (by omega) fun k hk => e k (by omega)
    · rfl

theorem vel_single_lt (ht : Topological parents) {i j : Nat} (w : Motion R)
    (hi : i < parents.length) (h : i < j) : vel parents X (single j w) i = 0 := by
  rw [vel_congr ht hi (h := fun _ => 0), vel_zero ht hi]
  intro k hk
  unfold single
  rw [if_neg (by omega)]

theorem vel_single_self (ht : Topological parents) {j : Nat} (w : Motion R)
    (hj : j < parents.length) : vel parents X (single j w) j = w := by
  rw [vel_eq ht _ hj]
  have : parentVal 0 (vel parents X (single j w)) parents[j] = 0 := by
    have h2 := (ht j hj).2
    unfold parentVal
    split
    · exact vel_single_lt ht w (by omega) (by omega)
    · rfl
  rw [this, transform_motion_zero', zero_add]
  simp [single]

/-- below a link `j` on the way to the root only the velocity of `j` matters -/
theorem vel_through (ht : Topological parents) {i j : Nat} (hj : j < parents.length)
    (hd : Desc parents j i) {h : Nat → Motion R} (hz : ∀ m, j < m → h m = 0) :
    vel parents X h i = vel parents X (single j (vel parents X h j)) i := by
  induction hd with
  | self => rw [vel_single_self ht _ hj]
  | @step i p hp hd ih =>
    obtain ⟨hi, e⟩ := List.getElem?_eq_some_iff.1 hp
    have hle := hd.le ht
    have hlt := (ht i hi).2
    have hpi : p < i := by rw [e] at hlt; omega
    rw [vel_eq ht _ hi, vel_eq ht _ hi, e]
    unfold parentVal
    rw [if_pos (by omega), if_pos (by omega), Int.toNat_natCast, ih, hz i (by omega)]
    congr 1
    unfold single
    rw [if_neg (by omega)]

/-- velocities caused by a joint which is not on the way from `i` to the root vanish -/
theorem vel_single_between (ht : Topological parents) {i j k : Nat} (hj : j < parents.length)
    (hd : Desc parents j i) (hk : k < j) (hp : parents[j] < (k : Int)) (w : Motion R) :
    vel parents X (single k w) i = 0 := by
  rw [vel_through ht hj hd (by intro m hm; unfold single; rw [if_neg (by omega)])]
  have : vel parents X (single k w) j = 0 := by
    rw [vel_eq ht _ hj]
    have e : parentVal 0 (vel parents X (single k w)) parents[j] = 0 := by
      unfold parentVal
      split
      · exact vel_single_lt ht w (by omega) (by omega)
      · rfl
    rw [e, transform_motion_zero', zero_add]
    unfold single
    rw [if_neg (by omega)]
  rw [this]
  have hi : i < parents.length := hd.lt_length hj
  rw [vel_congr ht hi (h := fun _ => 0), vel_zero ht hi]
  intro m _
  unfold single
  split <;> rfl

/-- moving the cause from the parent to the child -/
theorem vel_single_parent (ht : Topological parents) {i j p : Nat} (hj : j < parents.length)
    (hd : Desc parents j i) (hp : parents[j] = (p : Int)) (w : Motion R) :
    vel parents X (single p w) i = vel parents X (single j (transform_motion (X j) w)) i := by
  have hlt := (ht j hj).2
  have hpj : p < j := by rw [hp] at hlt; omega
  rw [vel_through ht hj hd (by intro m hm; unfold single; rw [if_neg (by omega)])]
  congr 2
  rw [vel_eq ht _ hj, hp]
  unfold parentVal
  rw [if_pos (by omega), Int.toNat_natCast, vel_single_self ht w (by omega)]
  have : single p w j = 0 := by unfold single; rw [if_neg (by omega)]
  rw [this, add_zero]

theorem force_eq (ht : Topological parents) (f : Nat → Force R) (k : Nat) :
    force parents X f k = f k + ∑ c ∈ range parents.length,
      if parents.getD c (-1) = (k : Int) then
        transform_force (transform_inv (X c)) (force parents X f c) else 0 := accum_eq ht k

theorem composite_eq (ht : Topological parents) (k : Nat) :
    composite parents X I k = I k + ∑ c ∈ range parents.length,
      if parents.getD c (-1) = (k : Int) then
        transform_inertia (transform_inv (X c)) (composite parents X I c) else 0 := accum_eq ht k

theorem power_inv {t : Transform R} (h : t.rot.normSq = 1) (m : Motion R) (f : Force R) :
    motion_dot m (transform_force (transform_inv t) f) = motion_dot (transform_motion t m) f := by
  have := power_invariant (transform_inv_unit h) (transform_motion t m) f
  rwa [transform_motion_inv_left h] at this

/-- Principle of virtual power: the power of the forces on the links equals the power of the
accumulated forces at the joints. -/
theorem virtual_power (ht : Topological parents)
    (hu : ∀ i, i < parents.length → (X i).rot.normSq = 1) (g : Nat → Motion R)
    (f : Nat → Force R) :
    ∑ k ∈ range parents.length, motion_dot (vel parents X g k) (f k) =
      ∑ k ∈ range parents.length, motion_dot (g k) (force parents X f k) := by
  have h1 : ∀ k, motion_dot (vel parents X g k) (force parents X f k) =
      motion_dot (vel parents X g k) (f k) + ∑ c ∈ range parents.length,
        if parents.getD c (-1) = (k : Int) then motion_dot (vel parents X g k)
          (transform_force (transform_inv (X c)) (force parents X f c)) else 0 := by
    intro k
    rw [force_eq ht f k, motion_dot_add_right, motion_dot_sum]
    congr 1
    apply Finset.sum_congr rfl
    intro c _
    split
    · rfl
    · exact motion_dot_zero _
  have h2 : ∀ k ∈ range parents.length, motion_dot (vel parents X g k) (force parents X f k) =
      motion_dot (transform_motion (X k) (parentVal 0 (vel parents X g) (parents.getD k (-1))))
        (force parents X f k) + motion_dot (g k) (force parents X f k) := by
    intro k hk
    have hk' := Finset.mem_range.1 hk
    conv_lhs => rw [vel_eq ht g hk', motion_dot_add]
    simp [hk']
  have h3 : (∑ k ∈ range parents.length, ∑ c ∈ range parents.length,
        if parents.getD c (-1) = (k : Int) then motion_dot (vel parents X g k)
          (transform_force (transform_inv (X c)) (force parents X f c)) else 0) =
      ∑ k ∈ range parents.length, motion_dot
        (transform_motion (X k) (parentVal 0 (vel parents X g) (parents.getD k (-1))))
        (force parents X f k) := by
    rw [Finset.sum_comm]
    apply Finset.sum_congr rfl
    intro c hc
    have hc' := Finset.mem_range.1 hc
    obtain ⟨h4, h5⟩ := ht c hc'
    have e : parents.getD c (-1) = parents[c] := by simp [hc']
    rw [e]
    unfold parentVal
    by_cases h0 : 0 ≤ parents[c]
    · rw [if_pos h0, Finset.sum_eq_single parents[c].toNat]
      · rw [if_pos (by omega), power_inv (hu c hc')]
      · intro b _ hb
        rw [if_neg (by omega)]
      · intro hn
        rw [Finset.mem_range] at hn
        omega
    · rw [if_neg h0, transform_motion_zero', zero_motion_dot]
      apply Finset.sum_eq_zero
      intro b _
      rw [if_neg (by omega)]
  have h4 : ∑ k ∈ range parents.length, motion_dot (vel parents X g k) (force parents X f k) =
      ∑ k ∈ range parents.length, motion_dot (vel parents X g k) (f k) +
      ∑ k ∈ range parents.length, motion_dot
        (transform_motion (X k) (parentVal 0 (vel parents X g) (parents.getD k (-1))))
        (force parents X f k) := by
    rw [← h3, ← Finset.sum_add_distrib]
    exact Finset.sum_congr rfl fun k _ => h1 k
  rw [Finset.sum_congr rfl h2, Finset.sum_add_distrib, add_comm] at h4
  exact (add_right_cancel h4).symm

theorem energyForm_eq (ht : Topological parents)
    (hu : ∀ i, i < parents.length → (X i).rot.normSq = 1) (g h : Nat → Motion R) :
    energyForm parents X I g h = ∑ k ∈ range parents.length, motion_dot (g k)
      (force parents X (fun k => inertia_mul_motion (I k) (vel parents X h k)) k) :=
  virtual_power ht hu g _

theorem energyForm_single (ht : Topological parents)
    (hu : ∀ i, i < parents.length → (X i).rot.normSq = 1) {i : Nat} (hi : i < parents.length)
    (u : Motion R) (h : Nat → Motion R) :
    energyForm parents X I (single i u) h = motion_dot u
      (force parents X (fun k => inertia_mul_motion (I k) (vel parents X h k)) i) := by
  rw [energyForm_eq ht hu, Finset.sum_eq_single i]
  · simp [single]
  · intro b _ hb
    unfold single
    rw [if_neg hb, zero_motion_dot]
  · intro hn
    exact absurd (Finset.mem_range.2 hi) hn

theorem energyForm_symm (hs : ∀ i, i < parents.length → (I i).it_3x3.IsSymm)
    (g h : Nat → Motion R) : energyForm parents X I g h = energyForm parents X I h g := by
  unfold energyForm
  apply Finset.sum_congr rfl
  intro k hk
  exact inertia_symm (hs k (Finset.mem_range.1 hk)) _ _

theorem energyForm_sum_left (ht : Topological parents) {ι : Type} (s : Finset ι)
    (g : ι → Nat → Motion R) (h : Nat → Motion R) :
    energyForm parents X I (fun k => ∑ j ∈ s, g j k) h = ∑ j ∈ s, energyForm parents X I (g j) h := by
  unfold energyForm
  rw [Finset.sum_comm]
  apply Finset.sum_congr rfl
  intro k hk
  rw [vel_sum ht _ _ (Finset.mem_range.1 hk), sum_motion_dot]

theorem energyForm_sum_right (ht : Topological parents) {ι : Type} (s : Finset ι)
    (g : Nat → Motion R) (h : ι → Nat → Motion R) :
    energyForm parents X I g (fun k => ∑ j ∈ s, h j k) = ∑ j ∈ s, energyForm parents X I g (h j) := by
  unfold energyForm
  rw [Finset.sum_comm]
  apply Finset.sum_congr rfl
  intro k hk
  rw [vel_sum ht _ _ (Finset.mem_range.1 hk), inertia_mul_sum, motion_dot_sum]

theorem motion_dot_smul_right (s : R) (m : Motion R) (f : Force R) :
    motion_dot m (.smul s f) = s * motion_dot m f := by
  simp [motion_dot, Vec3.dot]; ring

theorem energyForm_smul_left (ht : Topological parents) (c : R) (g h : Nat → Motion R) :
    energyForm parents X I (fun k => Motion.smul c (g k)) h = c * energyForm parents X I g h := by
  unfold energyForm
  rw [Finset.mul_sum]
  apply Finset.sum_congr rfl
  intro k hk
  rw [vel_smul ht _ _ (Finset.mem_range.1 hk), motion_dot_smul]

theorem energyForm_smul_right (ht : Topological parents) (c : R) (g h : Nat → Motion R) :
    energyForm parents X I g (fun k => Motion.smul c (h k)) = c * energyForm parents X I g h := by
  unfold energyForm
  rw [Finset.mul_sum]
  apply Finset.sum_congr rfl
  intro k hk
  rw [vel_smul ht _ _ (Finset.mem_range.1 hk), inertia_mul_smul, motion_dot_smul_right]

/-- A subtree that moves rigidly with its root `i` needs the force `composite inertia × velocity`. -/
theorem force_rigid (ht : Topological parents)
    (hu : ∀ i, i < parents.length → (X i).rot.normSq = 1) {h : Nat → Motion R} {i : Nat}
    (hi : i < parents.length) (hz : ∀ k, i < k → h k = 0) :
    force parents X (fun k => inertia_mul_motion (I k) (vel parents X h k)) i =
      inertia_mul_motion (composite parents X I i) (vel parents X h i) := by
  -- downward induction
  obtain ⟨m, hm⟩ : ∃ m, m = parents.length - i := ⟨_, rfl⟩
  induction m using Nat.strong_induction_on generalizing i with
  | _ m ih =>
    rw [force_eq ht, composite_eq ht, inertia_add_mul, inertia_sum_mul]
    congr 1
    apply Finset.sum_congr rfl
    intro c hc
    have hc' := Finset.mem_range.1 hc
    have e : parents.getD c (-1) = parents[c] := by simp [hc']
    rw [e]
    by_cases hp : parents[c] = (i : Int)
    · have hlt := (ht c hc').2
      have hic : i < c := by omega
      rw [if_pos hp, if_pos hp, ih (parents.length - c) (by omega) hc'
        (fun k hk => hz k (by omega)) rfl]
      have hv : vel parents X h c = transform_motion (X c) (vel parents X h i) := by
        rw [vel_eq ht h hc', hz c hic, add_zero, hp]
        unfold parentVal
        rw [if_pos (by omega), Int.toNat_natCast]
      rw [← inertia_congruence (transform_inv_unit (hu c hc')), hv,
        transform_motion_inv_left (hu c hc')]
    · rw [if_neg hp, if_neg hp, inertia_zero_mul']

/-- the energy form at two joints, the second not below the first -/
theorem energyForm_single_single (ht : Topological parents)
    (hu : ∀ i, i < parents.length → (X i).rot.normSq = 1)
    (hs : ∀ i, i < parents.length → (I i).it_3x3.IsSymm) {i j : Nat} (hi : i < parents.length)
    (hj : j ≤ i) (u w : Motion R) :
    energyForm parents X I (single i u) (single j w) =
      motion_dot (vel parents X (single j w) i)
        (inertia_mul_motion (composite parents X I i) u) := by
  have key : ∀ (j : Nat) (u w : Motion R), j ≤ i →
      energyForm parents X I (single i u) (single j w) = motion_dot u
        (inertia_mul_motion (composite parents X I i) (vel parents X (single j w) i)) := by
    intro j u w hj
    rw [energyForm_single ht hu hi, force_rigid ht hu hi]
    intro k hk
    unfold single
    rw [if_neg (by omega)]
  have symm : ∀ a b : Motion R, motion_dot a (inertia_mul_motion (composite parents X I i) b) =
      motion_dot b (inertia_mul_motion (composite parents X I i) a) := by
    intro a b
    have h1 := key i a b le_rfl
    have h2 := key i b a le_rfl
    rw [vel_single_self ht _ hi] at h1 h2
    rw [← h1, ← h2, energyForm_symm hs]
  rw [key j u w hj, symm]

end bodies
end RingLib
