import Verif.Model.MorphSystem
import Verif.Spec.Morph
import Verif.Props.InvKin
import Verif.Props.Poses

/-! The new offsets that `_new_transform1` computes. -/

namespace RingLib
namespace morph
open System algebra
variable {α π : Type}

theorem T1_unit [Field α] {E : JEnv α π} {s : System α π} (hr : Resting E s) (i : Nat) :
    (T1 s i).rot.normSq = 1 := by
  unfold T1
  cases h : s.links[i]? with
  | none => simp [Transform.zero, maths.unitQuat, Quat.normSq]
  | some row => exact hr.unit row (List.mem_of_getElem? h)

theorem parentVal_unit [Field α] {X : Nat → Transform α} {n : Nat}
    (h : ∀ i < n, (X i).rot.normSq = 1) {p : Int} (hp : p < n) :
    (parentVal Transform.zero X p).rot.normSq = 1 := by
  unfold parentVal
  split
  · exact h _ (by omega)
  · simp [Transform.zero, maths.unitQuat, Quat.normSq]

theorem jointT_rest [Field α] {E : JEnv α π} {s : System α π} (h : s.WF E.toEnv) (hj : s.Jointed E)
    (hr : Resting E s) {q : List α}
    (hq : ∀ i t, s.link_types[i]? = some t →
        (joint_type_is_free_or_cor_or_spherical t = true →
          ∃ k, ownSlice E.qw s.link_types q i = 1 :: List.replicate k 0) ∧
        (joint_type_is_free_or_cor_or_spherical t = false →
          ∃ k, ownSlice E.qw s.link_types q i = List.replicate k 0)) {i : Nat}
    (hi : i < s.link_parents.length) : jointT E s q i = .zero := by
  obtain ⟨jm, p, h1, h2, h3⟩ := (isJointTransform_iff h hj hi q _).2 rfl
  have hit : i < s.link_types.length := by rw [h.types_len]; exact hi
  have hd : s.link_types.getD i "" = s.link_types[i] := by simp [List.getD, hit]
  rw [hd] at h1
  rw [h3]
  apply hr.joint _ (List.getElem_mem hit) _ _ _ h1
  obtain ⟨a, b⟩ := hq i _ (List.getElem?_eq_getElem hit)
  unfold RestCoords
  cases hc : joint_type_is_free_or_cor_or_spherical s.link_types[i]
  · obtain ⟨k, hk⟩ := b hc
    exact ⟨k, by rw [hk]; simp⟩
  · obtain ⟨k, hk⟩ := a hc
    exact ⟨k, by rw [hk]; simp⟩

theorem restPoses_ok [Field α] {E : JEnv α π} {s : System α π} (h : s.WF E.toEnv) (hj : s.Jointed E)
    (hr : Resting E s) :
    ∃ X, restPoses E s = .ok ((List.range s.link_parents.length).map X) ∧ RestPoses s X := by
  obtain ⟨st, h1, h2, -, -, h5⟩ := C11_create h.toConsistent hr.quat
  have heq : ∀ i (hi : i < s.link_parents.length), fkPose E s st.q i =
      transform_mul (T1 s i) (parentVal .zero (fkPose E s st.q) s.link_parents[i]) := by
    intro i hi
    unfold fkPose
    rw [treeVal_eq h.topo _ _ i hi, jointT_rest h hj hr h5 hi, transform_zero_mul]
    rfl
  refine ⟨fkPose E s st.q, ?_, heq, ?_⟩
  · unfold restPoses forward_kinematics
    rw [h1, ok_bind, fk_eq h hj h2]
    rfl
  · intro i
    induction i using Nat.strong_induction_on with
    | _ i ih =>
      intro hi
      rw [heq i hi]
      refine transform_mul_unit (T1_unit hr i) (parentVal_unit (n := i) (fun j hji => ih j hji (by omega)) ?_)
      exact (h.topo i hi).2

/-! ## moving frames -/

/-- the node of link `i` -/
def nodeOf (lam P : List Int) (l : List Nat) (i : Nat) : Node :=
  ⟨i, l.idxOf i, lam.getD i 0, renum l (lam.getD i 0), P.getD i 0, renum l (P.getD i 0),
    decide (P.getD i 0 ≠ lam.getD i 0)⟩

/-- the frames after moving -/
def movedPose (lam P : List Int) (X : Nat → Transform α) (i : Nat) : Transform α :=
  if Moved lam P i then X (P.getD i 0).toNat else X i

/-- the geometries after moving -/
def movedGeom [Ring α] (lam P : List Int) (X : Nat → Transform α) (g : Geometry α) : Geometry α :=
  if 0 ≤ g.link_idx ∧ Moved lam P g.link_idx.toNat then
    { g with transform := transform_mul g.transform (transform_mul (X g.link_idx.toNat)
        (transform_inv (X (P.getD g.link_idx.toNat 0).toNat))) }
  else g

theorem pyGet_rangeMap {β : Type} (X : Nat → β) {n : Nat} {p : Int} (h0 : 0 ≤ p) (hp : p < n) :
    pyGet ((List.range n).map X) p = .ok (X p.toNat) := by
  obtain ⟨k, rfl⟩ : ∃ k : Nat, p = (k : Int) := ⟨p.toNat, by omega⟩
  have : k < n := by omega
  exact pyGet_nat (by simp [List.getElem?_map, List.getElem?_range this])

theorem moveUp_ok [Ring α] {lam P : List Int} {n : Nat} (hP : P.length = n)
    (hrange : ∀ i < n, -1 ≤ P.getD i 0 ∧ P.getD i 0 < n) (X : Nat → Transform α) (l : List Nat)
    (mg : Bool) (gs : List (Geometry α)) :
    ((List.range n).map (nodeOf lam P l)).foldlM (moveUp mg ((List.range n).map X))
        ((List.range n).map X, gs) =
      .ok ((List.range n).map (movedPose lam P X),
        if mg then gs.map fun g : Geometry α => if g.link_idx < (n : Int) then movedGeom lam P X g else g else gs) := by
  have key : ∀ m ≤ n, ((List.range m).map (nodeOf lam P l)).foldlM (moveUp mg ((List.range n).map X))
      ((List.range n).map X, gs) =
      .ok ((List.range n).map (fun i => if i < m then movedPose lam P X i else X i),
        if mg then gs.map fun g : Geometry α => if g.link_idx < (m : Int) then movedGeom lam P X g else g else gs) := by
    intro m
    induction m with
    | zero =>
      intro _
      have : (fun g : Geometry α => if g.link_idx < ((0 : Nat) : Int) then movedGeom lam P X g else g) =
          id := by
        funext g
        unfold movedGeom
        split
        · rw [if_neg (by omega)]; rfl
        · rfl
      rw [this]
      simp
      rfl
    | succ m ih =>
      intro hm
      rw [List.range_succ, List.map_append, List.foldlM_append, ih (by omega)]
      simp only [List.map_cons, List.map_nil, List.foldlM_cons, List.foldlM_nil, bind_pure]
      show moveUp mg _ _ _ = _
      unfold moveUp
      have hr := hrange m (by omega)
      have hc : (nodeOf lam P l m).parent_changed = true ∧ (nodeOf lam P l m).new_parent_old_indices ≠ -1 ↔
          Moved lam P m := by
        simp only [nodeOf, Moved, decide_eq_true_eq]
      by_cases hmv : Moved lam P m
      · rw [if_pos (hc.2 hmv)]
        dsimp only [nodeOf]
        rw [pyGet_rangeMap X (by omega) (by omega), ok_bind,
          pyGet_rangeMap X (by have := hmv.2; omega) (by omega), ok_bind]
        show Except.ok _ = Except.ok _
        congr 2
        · apply List.ext_getElem
          · simp
          · intro i h1 h2
            simp only [List.getElem_set, List.getElem_map, List.getElem_range, Int.toNat_natCast]
            by_cases e : m = i
            · subst e
              rw [if_pos rfl, if_pos (by omega)]
              unfold movedPose
              rw [if_pos hmv]
            · rw [if_neg e]
              have : i < m ↔ i < m + 1 := by omega
              simp only [this]
        · cases mg
          · rfl
          · simp only [if_true, List.map_map]
            apply List.map_congr_left
            intro g _
            simp only [Function.comp, compensate]
            by_cases e : g.link_idx = (m : Int)
            · rw [if_neg (show ¬ g.link_idx < (m : Int) by omega), if_pos e,
                if_pos (show g.link_idx < ((m + 1 : Nat) : Int) by omega)]
              unfold movedGeom
              rw [e, Int.toNat_natCast, if_pos ⟨by omega, hmv⟩]
            · have hlt : g.link_idx < (m : Int) ↔ g.link_idx < ((m + 1 : Nat) : Int) := by omega
              simp only [hlt]
              have h3 : (if g.link_idx < ((m + 1 : Nat) : Int) then movedGeom lam P X g else g).link_idx =
                  g.link_idx := by
                split
                · unfold movedGeom; split <;> rfl
                · rfl
              rw [if_neg (by rw [h3]; exact e)]
      · rw [if_neg (fun h => hmv (hc.1 h))]
        congr 2
        · apply List.map_congr_left
          intro i _
          by_cases e : i = m
          · subst e
            rw [if_neg (by omega), if_pos (by omega)]
            unfold movedPose
            rw [if_neg hmv]
          · have : i < m ↔ i < m + 1 := by omega
            simp only [this]
        · cases mg
          · rfl
          · simp only [if_true]
            apply List.map_congr_left
            intro g _
            by_cases e : g.link_idx = (m : Int)
            · rw [if_neg (by omega), if_pos (by omega)]
              unfold movedGeom
              rw [e, Int.toNat_natCast, if_neg (fun h => hmv h.2)]
            · have hlt : g.link_idx < (m : Int) ↔ g.link_idx < ((m + 1 : Nat) : Int) := by omega
              simp only [hlt]
  rw [key n le_rfl]
  congr 2
  apply List.map_congr_left
  intro i hi
  rw [if_pos (List.mem_range.1 hi)]

/-! ## new offsets -/

/-- the new offset of link `i` -/
def newT [Ring α] (lam P : List Int) (X : Nat → Transform α) (i : Nat) : Transform α :=
  transform_mul (movedPose lam P X i)
    (transform_inv (parentVal .zero (movedPose lam P X) (P.getD i 0)))

theorem setTransforms_ok [Ring α] {lam P : List Int} {n : Nat}
    (hrange : ∀ i < n, -1 ≤ P.getD i 0 ∧ P.getD i 0 < n) (X : Nat → Transform α) (l : List Nat)
    (brk : Option Nat) : ∀ (rest : List Nat) (t : List (Transform α)), (∀ i ∈ rest, i < n) →
      t.length = n →
      ∃ t', setTransforms ((List.range n).map (nodeOf lam P l))
          ((List.range n).map (movedPose lam P X)) brk (rest.map Int.ofNat) t = .ok t' ∧
        t'.length = n ∧ (∀ j, j ∉ rest → t'[j]? = t[j]?) ∧
        (∀ j ∈ rest, brk = none ∨ brk = some j → t'[j]? = some (newT lam P X j)) := by
  intro rest
  induction rest with
  | nil => intro t _ ht; exact ⟨t, rfl, ht, fun _ _ => rfl, fun j hj => by simp at hj⟩
  | cons i rest ih =>
    intro t hr ht
    have hi : i < n := hr i (by simp)
    have hpi := hrange i hi
    have hpo : poseOrWorld ((List.range n).map (movedPose lam P X)) (P.getD i 0) =
        .ok (parentVal .zero (movedPose lam P X) (P.getD i 0)) := by
      unfold poseOrWorld parentVal
      by_cases e : P.getD i 0 = -1
      · rw [if_pos e, if_neg (by omega)]
      · rw [if_neg e, if_pos (by omega), pyGet_rangeMap _ (by omega) (by omega)]
    have hset : ∀ (j : Nat), (t.set i (newT lam P X i))[j]? =
        if j = i then some (newT lam P X i) else t[j]? := by
      intro j
      by_cases e : j = i
      · subst e; simp [List.getElem?_set, ht, hi]
      · rw [if_neg e, List.getElem?_set_ne (Ne.symm e)]
    have hstep : setTransforms ((List.range n).map (nodeOf lam P l))
          ((List.range n).map (movedPose lam P X)) brk ((i :: rest).map Int.ofNat) t =
        if brk = some i then .ok (t.set i (newT lam P X i)) else
          setTransforms ((List.range n).map (nodeOf lam P l))
          ((List.range n).map (movedPose lam P X)) brk (rest.map Int.ofNat) (t.set i (newT lam P X i)) := by
      rw [List.map_cons, setTransforms, pyGet_rangeMap _ (by simp) (by simpa using hi), ok_bind]
      simp only [Int.ofNat_eq_natCast, Int.toNat_natCast]
      show (poseOrWorld _ (P.getD i 0) >>= _) = _
      rw [hpo, ok_bind, pyGet_rangeMap _ (by omega) (by omega), ok_bind, Int.toNat_natCast]
      have : (Option.map Int.ofNat brk = some (i : Int)) ↔ brk = some i := by
        cases brk with
        | none => simp
        | some b => simp
      simp only [this]
      rfl
    rw [hstep]
    by_cases hb : brk = some i
    · rw [if_pos hb]
      refine ⟨_, rfl, by simp [ht], ?_, ?_⟩
      · intro j hj
        rw [hset, if_neg (by rintro rfl; simp at hj)]
      · intro j _ hj
        rw [hb] at hj
        rcases hj with hj | hj
        · cases hj
        · obtain rfl := Option.some.inj hj
          rw [hset, if_pos rfl]
    · rw [if_neg hb]
      obtain ⟨t', h1, h2, h3, h4⟩ := ih (t.set i (newT lam P X i)) (fun j hj => hr j (by simp [hj]))
        (by simp [ht])
      refine ⟨t', h1, h2, ?_, ?_⟩
      · intro j hj
        rw [h3 j (by simp at hj; exact hj.2), hset, if_neg (by rintro rfl; simp at hj)]
      · intro j hj hbj
        by_cases hjr : j ∈ rest
        · exact h4 j hjr hbj
        · obtain rfl : j = i := by
            rcases List.mem_cons.1 hj with h | h
            · exact h
            · exact absurd h hjr
          rw [h3 j hjr, hset, if_pos rfl]

end morph
end RingLib
