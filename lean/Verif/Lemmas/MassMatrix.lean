import Verif.Lemmas.Dynamics
import Verif.Lemmas.Desc

/-! The loops of `compute_mass_matrix`. -/

namespace RingLib
open System algebra Finset

variable {α π : Type} [Field α] {E : JEnv α π} {s : System α π}

/-! ## composite inertias -/

theorem pySet_nat {β : Type} {l : List β} {i : Nat} (h : i < l.length) (x : β) :
    pySet l (i : Int) x = .ok (l.set i x) := by
  unfold pySet
  simp only
  rw [if_neg (by omega), if_neg (by omega), Int.toNat_natCast]

theorem getElem?_map_range {β : Type} (F : Nat → β) {n k : Nat} (h : k < n) :
    ((List.range n).map F)[k]? = some (F k) := by
  simp [h]

theorem map_range_set {β : Type} (F : Nat → β) {n k : Nat} (x : β) :
    ((List.range n).map F).set k x = (List.range n).map (Function.update F k x) := by
  apply List.ext_getElem
  · simp
  · intro i h1 h2
    simp only [List.getElem_set, List.getElem_map, List.getElem_range, Function.update_apply]
    split <;> split <;> first | rfl | omega

theorem composite_scan (h : s.WF E.toEnv) :
    s.scanState E.toEnv (accumulate_inertias s.l_to_p) (s.links.map LinkRow.inertia)
      ((argL (List.range s.num_links)).and (argL s.link_parents)) true =
    .ok ((List.range s.link_parents.length).map (composite s.link_parents s.linkT s.linkI),
      (List.range s.link_parents.length).map (composite s.link_parents s.linkT s.linkI)) := by
  have key := scanState_reverse_inv (E := E.toEnv) (s := s) h.known h.types_len
    (accumulate_inertias s.l_to_p)
    (arg := (argL (List.range s.num_links)).and (argL s.link_parents))
    (by
      intro x hx
      simp only [ScanArg.and, argL, List.mem_append, List.mem_singleton] at hx
      rcases hx with rfl | rfl
      · simp [num_links]
      · rfl)
    (rows_and (rows_argL _ _) (rows_argL _ _)) (by simp [num_links])
    (fun i => (List.range s.link_parents.length).map (accAux s.link_parents
      (fun i J => transform_inertia (transform_inv (s.linkT i)) J) s.linkI
      (s.link_parents.length - i)))
    ((List.range s.link_parents.length).map (composite s.link_parents s.linkT s.linkI))
    (by simp)
    (by
      intro i hi
      have hi1 : i < s.links.length := by rw [h.links_len]; exact hi
      unfold accumulate_inertias
      simp only [List.getElem_zip, List.getElem_range, List.getElem_map]
      have e : composite s.link_parents s.linkT s.linkI i =
          accAux s.link_parents (fun i J => transform_inertia (transform_inv (s.linkT i)) J)
            s.linkI (s.link_parents.length - (i + 1)) i :=
        accAux_stable h.topo (by omega) (by omega) (by omega)
      have e2 : s.link_parents.length - i = s.link_parents.length - (i + 1) + 1 := by omega
      have e3 : s.link_parents.length - 1 - (s.link_parents.length - (i + 1)) = i := by omega
      have e4 : s.link_parents.getD i (-1) = s.link_parents[i] := by simp [hi]
      obtain ⟨h1, h2⟩ := h.topo i hi
      rw [e2]
      simp only [accAux]
      rw [e3, e4]
      rw [pyGet_nat (getElem?_map_range _ hi)]
      by_cases hp : s.link_parents[i] = -1
      · rw [if_pos hp, if_neg (by omega)]
        simp only [ok_bind, pure_ok, ← e]
      · rw [if_neg hp, if_pos (by omega)]
        obtain ⟨p, hp'⟩ := Int.eq_ofNat_of_zero_le (show 0 ≤ s.link_parents[i] by omega)
        rw [hp'] at h2 ⊢
        have ht : s.l_to_p[i]? = some (transform_inv (s.linkT i)) := by
          simp [l_to_p, linkT, hi1]
        rw [pyGet_nat (getElem?_map_range _ (by omega)), pyGet_nat ht]
        simp only [ok_bind, Int.toNat_natCast]
        rw [pySet_nat (by simp; omega), map_range_set]
        simp only [ok_bind]
        rw [pyGet_nat (getElem?_map_range _ hi)]
        simp only [ok_bind, pure_ok, ← e]
        rw [Function.update_of_ne (by omega), ← e])
  simp only [Nat.sub_self, accAux, Nat.sub_zero] at key
  have e0 : (List.range s.link_parents.length).map s.linkI = s.links.map LinkRow.inertia := by
    apply List.ext_getElem
    · simp [h.links_len]
    · intro i h1 h2
      simp only [List.length_map] at h2
      simp [linkI, h2]
  rw [e0] at key
  exact key

/-! ## the blocks -/

theorem dot_as_matrix (f : Force α) (m : Motion α) :
    f.as_matrix.dot m.as_matrix = motion_dot m f := by
  simp only [Force.as_matrix, Motion.as_matrix, Vec6.dot, motion_dot, Vec3.dot]
  ring

/-- the entries of the matrix once the links from `i` on are done -/
def doneFrom (E : JEnv α π) (s : System α π) (i : Nat) : Nat → Nat → α := fun r c =>
  if dofStart E s i ≤ r ∧ r < dofCount E s ∧ c ≤ r then massEntry E s r c else 0

/-- the entries while link `i` is treated and its ancestor `j` is done -/
def doneTo (E : JEnv α π) (s : System α π) (i j : Nat) : Nat → Nat → α := fun r c =>
  if dofStart E s i ≤ r ∧ r < dofStart E s (i + 1) then
    if dofStart E s j ≤ c ∧ c ≤ r then massEntry E s r c else 0
  else doneFrom E s (i + 1) r c

theorem dofStart_succ (i : Nat) :
    dofStart E s (i + 1) = dofStart E s i + (s.axesAt E i).length := offs_succ _ _

theorem dofStart_mono {i j : Nat} (h : i ≤ j) : dofStart E s i ≤ dofStart E s j := offs_mono _ h

theorem dofMotion_eq {i a : Nat} (hi : i < s.link_parents.length)
    (ha : a < (s.axesAt E i).length) :
    dofMotion E s (dofStart E s i + a) = single i (s.axesAt E i)[a] := by
  unfold dofMotion
  rw [dofLink_eq hi ha, dofAxis_eq hi ha]

/-- `F` represents the force that the composite body of link `i` exerts on link `j`, when moved
along `u` -/
def Carries (s : System α π) (i j : Nat) (u : Motion α) (F : Force α) : Prop :=
  ∀ w, motion_dot (vel s.link_parents s.linkT (single j w) i)
    (inertia_mul_motion (composite s.link_parents s.linkT s.linkI i) u) = motion_dot w F

theorem massEntry_block (h : s.WF E.toEnv)
    (hu : ∀ i, i < s.link_parents.length → (s.linkT i).rot.normSq = 1)
    (hs : ∀ i, i < s.link_parents.length → (s.linkI i).it_3x3.IsSymm)
    {i j a b : Nat} (hi : i < s.link_parents.length) (hji : j ≤ i)
    (ha : a < (s.axesAt E i).length) (hb : b < (s.axesAt E j).length) {F : Force α}
    (hF : Carries s i j (s.axesAt E i)[a] F) :
    massEntry E s (dofStart E s i + a) (dofStart E s j + b) = motion_dot (s.axesAt E j)[b] F := by
  unfold massEntry
  rw [dofMotion_eq hi ha, dofMotion_eq (by omega) hb,
    energyForm_single_single h.topo hu hs hi hji, hF]

/-- columns of links strictly between `j` and its parent are zero -/
theorem massEntry_between (h : s.WF E.toEnv)
    (hu : ∀ i, i < s.link_parents.length → (s.linkT i).rot.normSq = 1)
    (hs : ∀ i, i < s.link_parents.length → (s.linkI i).it_3x3.IsSymm)
    {i j k a b : Nat} (hi : i < s.link_parents.length) (hj : j < s.link_parents.length)
    (hd : Desc s.link_parents j i) (hk : k < j) (hp : s.link_parents[j] < (k : Int))
    (ha : a < (s.axesAt E i).length) (hb : b < (s.axesAt E k).length) :
    massEntry E s (dofStart E s i + a) (dofStart E s k + b) = 0 := by
  have hji : j ≤ i := hd.le h.topo
  unfold massEntry
  rw [dofMotion_eq hi ha, dofMotion_eq (by omega) hb,
    energyForm_single_single h.topo hu hs hi (by omega), vel_single_between h.topo hj hd hk hp]
  simp [motion_dot, Vec3.dot]

theorem dof_before {j c : Nat} (h : c < dofStart E s j) :
    ∃ k b, k < j ∧ b < (s.axesAt E k).length ∧ c = dofStart E s k + b := offs_cases _ h

theorem massEntry_gap (h : s.WF E.toEnv)
    (hu : ∀ i, i < s.link_parents.length → (s.linkT i).rot.normSq = 1)
    (hs : ∀ i, i < s.link_parents.length → (s.linkI i).it_3x3.IsSymm)
    {i j q r c : Nat} (hi : i < s.link_parents.length) (hj : j < s.link_parents.length)
    (hd : Desc s.link_parents j i) (hp : s.link_parents[j] < (q : Int))
    (hr1 : dofStart E s i ≤ r) (hr2 : r < dofStart E s (i + 1))
    (hc1 : dofStart E s q ≤ c) (hc2 : c < dofStart E s j) : massEntry E s r c = 0 := by
  obtain ⟨k, b, hk, hb, rfl⟩ := dof_before hc2
  obtain ⟨a, rfl⟩ := Nat.exists_eq_add_of_le hr1
  rw [dofStart_succ] at hr2
  have hkq : q ≤ k := by
    by_contra hle
    have := dofStart_mono (E := E) (s := s) (show k + 1 ≤ q by omega)
    rw [dofStart_succ k] at this
    omega
  exact massEntry_between h hu hs hi hj hd hk (by omega) (by omega) hb

theorem S_get (hlen : s.link_types.length = s.link_parents.length) {i : Nat}
    (hi : i < s.link_parents.length) :
    pyGet ((List.range s.link_parents.length).map
      fun i => (s.axesAt E i).map Motion.as_matrix) (i : Int) =
      .ok ((s.axesAt E i).map Motion.as_matrix) :=
  pyGet_nat (getElem?_map_range _ hi)

theorem matmulT_get (Fs : List (Force α)) (A : List (Motion α)) {a b : Nat} (ha : a < Fs.length)
    (hb : b < A.length) :
    ((matmulT (Fs.map Force.as_matrix) (A.map Motion.as_matrix)).getD a []).getD b 0 =
      motion_dot A[b] Fs[a] := by
  simp [matmulT, List.getD_eq_getElem?_getD, ha, hb, dot_as_matrix]

theorem populate_loop_ok (h : s.WF E.toEnv) (hjt : s.Jointed E) (hw : E.MotionWidths)
    (hu : ∀ i, i < s.link_parents.length → (s.linkT i).rot.normSq = 1)
    (hs : ∀ i, i < s.link_parents.length → (s.linkI i).it_3x3.IsSymm)
    {i : Nat} (hi : i < s.link_parents.length) (fuel : Nat) : ∀ (j : Nat) (Fs : List (Force α)),
    j < fuel → j < s.link_parents.length → Desc s.link_parents j i →
    Fs.length = (s.axesAt E i).length →
    (∀ a (h1 : a < Fs.length) (h2 : a < (s.axesAt E i).length),
      Carries s i j (s.axesAt E i)[a] Fs[a]) →
    populate_loop s ((List.range s.link_parents.length).map
        fun i => (s.axesAt E i).map Motion.as_matrix) (theMap E.toEnv s.link_types)
      (dofStart E s i, dofStart E s (i + 1)) fuel j (Fs.map Force.as_matrix) (doneTo E s i j) =
      .ok (doneFrom E s i) := by
  induction fuel with
  | zero => intro j Fs hf; omega
  | succ fuel ih =>
    intro j Fs hf hj hd hlen hF
    have hji : j ≤ i := hd.le h.topo
    have hj1 : j < s.links.length := by rw [h.links_len]; exact hj
    obtain ⟨h1, h2⟩ := h.topo j hj
    unfold populate_loop
    rw [pyGet_nat (List.getElem?_eq_getElem hj)]
    simp only [ok_bind]
    by_cases hp : s.link_parents[j] = -1
    · rw [if_pos hp, pure_ok]
      congr 1
      funext r c
      unfold doneTo doneFrom
      by_cases hr : dofStart E s i ≤ r ∧ r < dofStart E s (i + 1)
      · rw [if_pos hr]
        have hr3 : dofStart E s (i + 1) ≤ dofCount E s := dofStart_mono (by omega)
        by_cases hc : c ≤ r
        · rw [if_pos (show dofStart E s i ≤ r ∧ r < dofCount E s ∧ c ≤ r by omega)]
          by_cases hc2 : dofStart E s j ≤ c
          · rw [if_pos ⟨hc2, hc⟩]
          · rw [if_neg (by omega)]
            exact (massEntry_gap h hu hs hi hj hd (q := 0) (by omega) hr.1 hr.2
              (Nat.zero_le _) (by omega)).symm
        · rw [if_neg (by omega), if_neg (by omega)]
      · rw [if_neg hr]
        have := dofStart_mono (E := E) (s := s) (show i ≤ i + 1 by omega)
        by_cases hc : dofStart E s (i + 1) ≤ r ∧ r < dofCount E s ∧ c ≤ r
        · rw [if_pos hc, if_pos (by omega)]
        · rw [if_neg hc, if_neg (by omega)]
    · rw [if_neg hp]
      obtain ⟨p, hp'⟩ := Int.eq_ofNat_of_zero_le (show 0 ≤ s.link_parents[j] by omega)
      have hpj : p < j := by rw [hp'] at h2; omega
      have ht : s.l_to_p[j]? = some (transform_inv (s.linkT j)) := by
        simp [l_to_p, linkT, hj1]
      rw [pyGet_nat ht, hp', S_get h.types_len (by omega)]
      simp only [ok_bind]
      -- the forces seen from the parent
      have eF : (Fs.map Force.as_matrix).map (transform_force6 (transform_inv (s.linkT j))) =
          (Fs.map (transform_force (transform_inv (s.linkT j)))).map Force.as_matrix := by
        rw [List.map_map, List.map_map]
        rfl
      have hdp : Desc s.link_parents p i := by
        refine Desc.trans (Desc.step (p := p) ?_ Desc.self) hd
        rw [List.getElem?_eq_getElem hj, hp']
      have hF' : ∀ a (h1 : a < (Fs.map (transform_force (transform_inv (s.linkT j)))).length)
          (h2 : a < (s.axesAt E i).length), Carries s i p (s.axesAt E i)[a]
            (Fs.map (transform_force (transform_inv (s.linkT j))))[a] := by
        intro a h1 h2 w
        rw [vel_single_parent h.topo hj hd hp', hF a (by simpa using h1) h2, List.getElem_map,
          power_inv (hu j hj)]
      have ih' := ih p (Fs.map (transform_force (transform_inv (s.linkT j)))) (by omega) (by omega)
        hdp (by simpa using hlen) hF'
      rw [eF]
      have hpr : p < s.link_types.length := by rw [h.types_len]; omega
      have hstart : dofStart E s (p + 1) ≤ dofStart E s j := dofStart_mono (by omega)
      have hstart2 : dofStart E s j ≤ dofStart E s i := dofStart_mono (by omega)
      have hsucc := dofStart_succ (E := E) (s := s) p
      have zero_between : ∀ r c, dofStart E s i ≤ r → r < dofStart E s (i + 1) →
          dofStart E s (p + 1) ≤ c → c < dofStart E s j → massEntry E s r c = 0 := by
        intro r c hr1 hr2 hc1 hc2
        exact massEntry_gap h hu hs hi hj hd (q := p + 1) (by rw [hp']; omega) hr1 hr2 hc1 hc2
      by_cases hS : s.axesAt E p = []
      · rw [if_pos (by rw [hS]; rfl)]
        have e : doneTo E s i j = doneTo E s i p := by
          funext r c
          unfold doneTo
          by_cases hr : dofStart E s i ≤ r ∧ r < dofStart E s (i + 1)
          · rw [if_pos hr, if_pos hr]
            rw [hS, List.length_nil, Nat.add_zero] at hsucc
            by_cases hc : dofStart E s j ≤ c ∧ c ≤ r
            · rw [if_pos hc, if_pos (by omega)]
            · rw [if_neg hc]
              by_cases hc2 : dofStart E s p ≤ c ∧ c ≤ r
              · rw [if_pos hc2, zero_between r c hr.1 hr.2 (by omega) (by omega)]
              · rw [if_neg hc2]
          · rw [if_neg hr, if_neg hr]
        rw [e]
        exact ih'
      · rw [if_neg (by simpa using hS), Int.toNat_natCast, theMap_d h hjt hw hpr]
        simp only [ok_bind]
        have e : setBlock (doneTo E s i j) (dofStart E s i, dofStart E s (i + 1))
            (offs (fun k => (s.axesAt E k).length) p,
              offs (fun k => (s.axesAt E k).length) p + (s.axesAt E p).length)
            (matmulT ((Fs.map (transform_force (transform_inv (s.linkT j)))).map Force.as_matrix)
              ((s.axesAt E p).map Motion.as_matrix)) = doneTo E s i p := by
          funext r c
          unfold setBlock
          simp only
          rw [show offs (fun k => (s.axesAt E k).length) p = dofStart E s p from rfl]
          by_cases hr : dofStart E s i ≤ r ∧ r < dofStart E s (i + 1)
          · by_cases hc : dofStart E s p ≤ c ∧ c < dofStart E s p + (s.axesAt E p).length
            · rw [if_pos ⟨hr.1, hr.2, hc.1, hc.2⟩]
              unfold doneTo
              rw [if_pos hr, if_pos (by omega)]
              obtain ⟨a, rfl⟩ := Nat.exists_eq_add_of_le hr.1
              obtain ⟨b, rfl⟩ := Nat.exists_eq_add_of_le hc.1
              have ha : a < (s.axesAt E i).length := by rw [dofStart_succ] at hr; omega
              have hb : b < (s.axesAt E p).length := by omega
              rw [Nat.add_sub_cancel_left, Nat.add_sub_cancel_left,
                matmulT_get _ _ (by rw [List.length_map, hlen]; exact ha) hb]
              exact (massEntry_block h hu hs hi (by omega) ha hb (hF' a _ ha)).symm
            · rw [if_neg (by omega)]
              unfold doneTo
              rw [if_pos hr, if_pos hr]
              by_cases hc1 : dofStart E s j ≤ c ∧ c ≤ r
              · rw [if_pos hc1, if_pos (by omega)]
              · rw [if_neg hc1]
                by_cases hc2 : dofStart E s p ≤ c ∧ c ≤ r
                · rw [if_pos hc2, zero_between r c hr.1 hr.2 (by omega) (by omega)]
                · rw [if_neg hc2]
          · rw [if_neg (by omega)]
            unfold doneTo
            rw [if_neg hr, if_neg hr]
        rw [e]
        exact ih'

theorem carries_self (h : s.WF E.toEnv) {i : Nat} (hi : i < s.link_parents.length)
    (u : Motion α) :
    Carries s i i u (inertia_mul_motion (composite s.link_parents s.linkT s.linkI i) u) := by
  intro w
  rw [vel_single_self h.topo w hi]

theorem populate_H_ok (h : s.WF E.toEnv) (hjt : s.Jointed E) (hw : E.MotionWidths)
    (hu : ∀ i, i < s.link_parents.length → (s.linkT i).rot.normSq = 1)
    (hs : ∀ i, i < s.link_parents.length → (s.linkI i).it_3x3.IsSymm)
    {i : Nat} (hi : i < s.link_parents.length) :
    populate_H s ((List.range s.link_parents.length).map
        fun i => (s.axesAt E i).map Motion.as_matrix)
      (((List.range s.link_parents.length).map
        (composite s.link_parents s.linkT s.linkI)).map Inertia.as_matrix)
      (doneFrom E s (i + 1)) (theMap E.toEnv s.link_types) i = .ok ((), doneFrom E s i) := by
  have hi2 : i < s.link_types.length := by rw [h.types_len]; exact hi
  have hsucc := dofStart_succ (E := E) (s := s) i
  have hcount : dofStart E s (i + 1) ≤ dofCount E s := dofStart_mono (by omega)
  unfold populate_H
  rw [S_get h.types_len hi]
  simp only [ok_bind]
  by_cases hS : s.axesAt E i = []
  · rw [if_pos (by rw [hS]; rfl), pure_ok]
    rw [hS, List.length_nil, Nat.add_zero] at hsucc
    unfold doneFrom
    rw [hsucc]
    rfl
  · rw [if_neg (by simpa using hS), List.map_map, pyGet_nat (getElem?_map_range _ hi),
      theMap_d h hjt hw hi2]
    simp only [ok_bind]
    rw [show offs (fun k => (s.axesAt E k).length) i = dofStart E s i from rfl, ← hsucc]
    set Ic := composite s.link_parents s.linkT s.linkI i with hIc
    have eF : ((s.axesAt E i).map Motion.as_matrix).map
        ((Inertia.as_matrix ∘ composite s.link_parents s.linkT s.linkI) i).mulVec =
        ((s.axesAt E i).map (inertia_mul_motion Ic)).map Force.as_matrix := by
      rw [List.map_map, List.map_map]
      apply List.map_congr_left
      intro m _
      exact C20_as_matrix Ic m
    rw [eF]
    have e : setBlock (doneFrom E s (i + 1)) (dofStart E s i, dofStart E s (i + 1))
        (dofStart E s i, dofStart E s (i + 1))
        (tril (matmulT (((s.axesAt E i).map (inertia_mul_motion Ic)).map Force.as_matrix)
          ((s.axesAt E i).map Motion.as_matrix))) = doneTo E s i i := by
      funext r c
      unfold setBlock doneTo
      simp only
      by_cases hr : dofStart E s i ≤ r ∧ r < dofStart E s (i + 1)
      · rw [if_pos hr]
        obtain ⟨a, rfl⟩ := Nat.exists_eq_add_of_le hr.1
        have ha : a < (s.axesAt E i).length := by omega
        by_cases hc : dofStart E s i ≤ c ∧ c < dofStart E s (i + 1)
        · rw [if_pos ⟨hr.1, hr.2, hc.1, hc.2⟩]
          obtain ⟨b, rfl⟩ := Nat.exists_eq_add_of_le hc.1
          have hb : b < (s.axesAt E i).length := by omega
          rw [Nat.add_sub_cancel_left, Nat.add_sub_cancel_left]
          have := matmulT_get ((s.axesAt E i).map (inertia_mul_motion Ic)) (s.axesAt E i)
            (a := a) (b := b) (by simpa using ha) hb
          have e2 : ((tril (matmulT (((s.axesAt E i).map (inertia_mul_motion Ic)).map
              Force.as_matrix) ((s.axesAt E i).map Motion.as_matrix))).getD a []).getD b 0 =
              if b ≤ a then motion_dot (s.axesAt E i)[b]
                (inertia_mul_motion Ic (s.axesAt E i)[a]) else 0 := by
            simp [tril, matmulT, List.getD_eq_getElem?_getD, ha, hb, dot_as_matrix]
          rw [e2]
          by_cases hab : b ≤ a
          · rw [if_pos hab, if_pos (by omega)]
            exact (massEntry_block h hu hs hi le_rfl ha hb (carries_self h hi _)).symm
          · rw [if_neg hab, if_neg (by omega)]
        · rw [if_neg (by omega), if_neg (by omega)]
          unfold doneFrom
          rw [if_neg (by omega)]
      · rw [if_neg (by omega), if_neg hr]
    rw [e, populate_loop_ok h hjt hw hu hs hi (s.num_links + 1) i
      ((s.axesAt E i).map (inertia_mul_motion Ic)) (by simp [num_links]; omega) hi Desc.self
      (by simp) (by
        intro a h1 h2
        rw [List.getElem_map]
        exact carries_self h hi _)]
    rfl

theorem mapM_range_ok {β : Type} (n : Nat) (f : Nat → Py β) (g : Nat → β)
    (h : ∀ i, i < n → f i = .ok (g i)) :
    (List.range n).mapM f = .ok ((List.range n).map g) :=
  mapM_ok (fun i hi => h i (List.mem_range.1 hi))

/-- the mass matrix that the composite rigid body algorithm computes -/
theorem compute_mass_matrix_ok (h : s.WF E.toEnv) (hjt : s.Jointed E) (hw : E.MotionWidths)
    (hu : ∀ i, i < s.link_parents.length → (s.linkT i).rot.normSq = 1)
    (hs : ∀ i, i < s.link_parents.length → (s.linkI i).it_3x3.IsSymm) :
    compute_mass_matrix E s =
      .ok ⟨dofCount E s, fill_upper (doneFrom E s 0) s.link_armature⟩ := by
  unfold compute_mass_matrix
  rw [composite_scan h]
  simp only [ok_bind]
  rw [show s.num_links = s.link_parents.length from rfl,
    mapM_range_ok _ _ (fun i => (s.axesAt E i).map Motion.as_matrix)
      (fun i hi => motion_matrix_ok h hjt (by rw [h.types_len]; exact hi))]
  have key := scanState_reverse_inv (E := E.toEnv) (s := s) h.known h.types_len
    (populate_H s ((List.range s.link_parents.length).map
        fun i => (s.axesAt E i).map Motion.as_matrix)
      (((List.range s.link_parents.length).map
        (composite s.link_parents s.linkT s.linkI)).map Inertia.as_matrix))
    (arg := argL (List.range s.link_parents.length))
    (by
      intro x hx
      simp only [argL, List.mem_singleton] at hx
      rcases hx with rfl
      simp)
    (rows_argL _ _) (by simp)
    (doneFrom E s) (List.replicate s.link_parents.length ()) (by simp)
    (by
      intro i hi
      rw [List.getElem_range, List.getElem_replicate]
      exact populate_H_ok h hjt hw hu hs hi)
  have e0 : doneFrom E s s.link_parents.length = fun _ _ => 0 := by
    funext r c
    unfold doneFrom
    rw [if_neg]
    rw [show dofStart E s s.link_parents.length = dofCount E s from rfl]
    omega
  rw [e0] at key
  simp only [ok_bind]
  rw [qd_size, sumWidths_known (fun t ht => (h.known t ht).2)]
  simp only [ok_bind]
  rw [key, dofs_length h hjt hw]
  rfl

theorem fill_upper_entry
    (hs : ∀ i, i < s.link_parents.length → (s.linkI i).it_3x3.IsSymm) (ar : List α) {r c : Nat}
    (hr : r < dofCount E s) (hc : c < dofCount E s) :
    fill_upper (doneFrom E s 0) ar r c =
      massEntry E s r c + if r = c then ar.getD r 0 else 0 := by
  unfold fill_upper doneFrom
  have h0 : dofStart E s 0 = 0 := rfl
  rw [h0]
  congr 1
  by_cases h1 : c ≤ r
  · rw [if_pos (by omega), if_neg (by omega), add_zero]
  · rw [if_neg (by omega), if_pos (by omega), if_pos (by omega), zero_add]
    exact energyForm_symm hs _ _

end RingLib
