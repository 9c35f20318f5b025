import Verif.Props.Finalize

/-!
# C45: joint axes

One entry per link, zero for the links connected to the world. Axes measured from the motion of a
hinge joint are the axis of the hinge, up to sign.
-/

namespace RingLib
namespace sensors
open System maths
variable {π K : Type}

/-! ## random rotations are rotations -/

theorem rescaled_unit (q : Quat ℝ) (m : ℝ) :
    (quat_rot_axis (quat_to_rot_axis q).1 ((quat_to_rot_axis q).2 * m / Real.pi)).normSq = 1 := by
  unfold quat_to_rot_axis
  dsimp only
  rw [quat_rot_axis_eq]
  by_cases h : allclose0 q.vec
  · have e1 : safe_normalize (safe_normalize q.vec) = 0 := by
      rw [safe_normalize_zero h]
      apply safe_normalize_zero
      unfold allclose0 isclose0
      refine ⟨?_, ?_, ?_⟩ <;> show |(0 : ℝ)| ≤ _ <;> norm_num
    have e2 : quat_angle q = 0 := by
      unfold quat_angle
      rw [safe_norm_zero h]
      unfold atan2
      have e3 : (⟨q.w, 0⟩ : ℂ) = ((q.w : ℝ) : ℂ) := by apply Complex.ext <;> simp
      rw [e3]
      rcases le_or_gt 0 q.w with hw | hw
      · rw [Complex.arg_ofReal_of_nonneg hw]
        simpa using wrap_id (φ := 0) (by linarith [Real.pi_pos]) Real.pi_pos
      · rw [Complex.arg_ofReal_of_neg hw]
        exact wrap_eq_of (by linarith [Real.pi_pos]) Real.pi_pos (k := -1) (by push_cast; ring)
    rw [e1, e2]
    unfold rotQuat Quat.normSq
    simp
  · apply rotQuat_unit
    have hu := safe_normalize_unit h
    rw [safe_normalize_of_unit hu]
    exact hu

theorem quat_random1_unit (R : Rng K) (key : K) {m : ℝ} (hm : m ≠ Real.pi) :
    (quat_random1 R key m).normSq = 1 := by
  unfold quat_random1
  dsimp only
  rw [if_neg hm]
  exact rescaled_unit _ _

theorem quat_randomN_unit (R : Rng K) (key : K) (N : Nat) {m : ℝ} (hm : m ≠ Real.pi) :
    ∀ q ∈ quat_randomN R key N m, q.normSq = 1 := by
  unfold quat_randomN
  intro q hq
  rw [List.mem_map] at hq
  obtain ⟨t, -, rfl⟩ := hq
  dsimp only
  rw [if_neg hm]
  exact rescaled_unit _ _

/-! ## axes given by the joint -/

/-- The axis of link `i` according to its joint: the letter of a hinge, the parameter of an `rr` or
`rr_imp` joint, and `x` for all other joints. -/
inductive SysAxis (axesOf : π → Py (Vec3 ℝ)) (s : System ℝ π) (i : Nat) : Vec3 ℝ → Prop
  | x : s.link_types[i]? = some "rx" → SysAxis axesOf s i ⟨1, 0, 0⟩
  | y : s.link_types[i]? = some "ry" → SysAxis axesOf s i ⟨0, 1, 0⟩
  | z : s.link_types[i]? = some "rz" → SysAxis axesOf s i ⟨0, 0, 1⟩
  | param {t : String} {rows : List π} {p : π} {v : Vec3 ℝ} : s.link_types[i]? = some t →
      (t = "rr" ∨ "rr_imp".toList <+: t.toList) → s.joint_params.lookup t = some rows →
      rows[i]? = some p → axesOf p = .ok v → SysAxis axesOf s i v
  | other {t : String} : s.link_types[i]? = some t → t ∉ ["rx", "ry", "rz", "rr"] →
      ¬ "rr_imp".toList <+: t.toList → SysAxis axesOf s i ⟨1, 0, 0⟩

theorem lookup_paramsAt {s : System ℝ π} {t : String} {rows : List π} {i : Nat} {p : π}
    (h1 : s.joint_params.lookup t = some rows) (h2 : rows[i]? = some p) :
    (s.paramsAt i).lookup t = some p := by
  unfold paramsAt
  induction hl : s.joint_params generalizing s with
  | nil => rw [hl] at h1; simp at h1
  | cons a l ih =>
    rw [hl] at h1
    obtain ⟨k, r⟩ := a
    rw [Dict.lookup_if] at h1
    by_cases hk : t = k
    · rw [if_pos hk] at h1
      cases h1
      rw [List.filterMap_cons_some (b := (k, p)) (by simp [h2]), Dict.lookup_if, if_pos hk]
    · rw [if_neg hk] at h1
      have ih := ih (s := { s with joint_params := l }) h1 rfl
      cases hr : r[i]? with
      | none =>
        rw [List.filterMap_cons_none (by simp [hr])]
        exact ih
      | some p' =>
        rw [List.filterMap_cons_some (b := (k, p')) (by simp [hr]), Dict.lookup_if, if_neg hk]
        exact ih

theorem take6_iff (t : String) : t.toList.take 6 = "rr_imp".toList ↔ "rr_imp".toList <+: t.toList := by
  constructor
  · intro h
    rw [← h]
    exact List.take_prefix _ _
  · rintro ⟨l, hl⟩
    rw [← hl]
    rfl

theorem axis_from_link_ok {axesOf : π → Py (Vec3 ℝ)} {s : System ℝ π} {i : Nat} {v : Vec3 ℝ}
    (h : SysAxis axesOf s i v) {t : String} (ht : s.link_types[i]? = some t) (name : String)
    (row : LinkRow ℝ) :
    axis_from_link axesOf (name, t, (row, s.paramsAt i)) = .ok (name, v) := by
  unfold axis_from_link
  dsimp only
  cases h with
  | x h => rw [ht] at h; cases h; rfl
  | y h => rw [ht] at h; cases h; rfl
  | z h => rw [ht] at h; cases h; rfl
  | @param t' rows p _ h ho h1 h2 h3 =>
    rw [ht] at h
    cases h
    have hlk := lookup_paramsAt h1 h2
    have hne : t ∉ ["rx", "ry", "rz"] := by
      intro hm
      rcases ho with rfl | ho
      · revert hm; decide
      · rw [← take6_iff] at ho
        simp only [List.mem_cons, List.not_mem_nil, or_false] at hm
        rcases hm with rfl | rfl | rfl <;> revert ho <;> decide
    rw [if_neg hne]
    by_cases hrr : t = "rr"
    · subst hrr
      rw [if_pos rfl]
      unfold pyDict
      rw [hlk]
      simp only [ok_bind, h3]
      rfl
    · rw [if_neg hrr, if_pos ((take6_iff t).2 (ho.resolve_left hrr))]
      unfold pyDict
      rw [hlk]
      simp only [ok_bind, h3]
      rfl
  | @other t' h h1 h2 =>
    rw [ht] at h
    cases h
    rw [if_neg (by
        intro hm
        apply h1
        simp only [List.mem_cons, List.not_mem_nil, or_false] at hm ⊢
        tauto), if_neg (by rintro rfl; exact h1 (by simp)), if_neg (by rw [take6_iff]; exact h2)]
    rfl

theorem update_nil {β : Type} : ∀ {d e : Dict β}, (d.keys ++ e.keys).Nodup → d.update e = d ++ e := by
  intro d e
  induction e generalizing d with
  | nil => intro _; simp [Dict.update]
  | cons a e ih =>
    intro h
    have h1 : a.1 ∉ d.keys := by
      intro hm
      rw [List.nodup_append] at h
      exact h.2.2 _ hm a.1 (by simp [Dict.keys]) rfl
    have e1 : Dict.update d (a :: e) = Dict.update (d.set a.1 a.2) e := rfl
    have e2 : d.set a.1 a.2 = d ++ [a] := by
      unfold Dict.set
      rw [if_neg h1]
    rw [e1, e2, ih, List.append_assoc]
    · rfl
    · simpa [Dict.keys, List.append_assoc] using h

/-- what the joints say -/
theorem from_sys_ok {E : JEnv ℝ π} {axesOf : π → Py (Vec3 ℝ)} {s : System ℝ π}
    (h : s.Consistent E.toEnv) (N : Nat) {V : Nat → Vec3 ℝ}
    (hV : ∀ i < s.link_parents.length, SysAxis axesOf s i (V i)) :
    ∃ X, _joint_axes_from_sys E axesOf s N = .ok X ∧ X.keys = s.link_names ∧
      ∀ (i : Nat) n, s.link_names[i]? = some n → List.lookup n X = some (List.replicate N (V i)) := by
  have hnl : s.link_names.length = s.link_parents.length := h.names_len
  let outs : List (String × Vec3 ℝ) := nameDict s.link_names V s.link_names.length
  have ho : outs.length = s.link_parents.length := by simp [outs, nameDict, hnl]
  have key := scan_inv (E := E.toEnv) (s := s) h.known h.types_len
    (arg := (argL s.link_names).and ((argL s.link_types).and (argL s.linkRows)))
    (g := axis_from_link axesOf)
    (by
      intro x hx
      simp only [ScanArg.and, argL, List.mem_append, List.mem_singleton, List.mem_cons,
        List.not_mem_nil, or_false] at hx
      rcases hx with rfl | rfl | rfl
      · exact h.names_len
      · exact h.types_len
      · simp [linkRows, h.links_len])
    (rows_and (rows_argL _ _) (rows_and (rows_argL _ _) (rows_argL _ _)))
    (by simp [hnl, h.types_len, linkRows, h.links_len]) outs ho
    (by
      intro i hi
      simp only [List.getElem_zip, linkRows, List.getElem_mapIdx]
      rw [axis_from_link_ok (hV i hi) (List.getElem?_eq_getElem (by rw [h.types_len]; exact hi))]
      simp [outs, nameDict, hnl, hi])
  have hk : Dict.keys outs = s.link_names := by
    rw [nameDict_keys _ _ le_rfl, List.take_length]
  have hu : Dict.update [] outs = outs := by
    rw [update_nil (by rw [hk]; simpa [Dict.keys] using h.names_nodup)]
    rfl
  refine ⟨outs.map fun x => (x.1, List.replicate N x.2), ?_, ?_, ?_⟩
  · unfold _joint_axes_from_sys
    rw [key, ok_bind, hu]
    rfl
  · rw [← hk]
    simp [Dict.keys]
  · intro i n hn
    apply Dict.lookup_of_mem
    · have : Dict.keys (outs.map fun x => (x.1, List.replicate N x.2)) = Dict.keys outs := by
        simp [Dict.keys]
      rw [this, hk]
      exact h.names_nodup
    · rw [List.mem_map]
      exact ⟨(n, V i), Dict.lookup_mem (nameDict_lookup h.names_nodup V hn), rfl⟩

/-! ## axes measured from the motion -/

theorem IsSeries.eq_map {sx : System ℝ π} (hn : sx.link_names.Nodup)
    {xs : List (List (Transform ℝ))} {n : String} {ts : List (Transform ℝ)}
    (h : IsSeries sx xs n ts) {j : Nat} (hj : sx.link_names[j]? = some n)
    (hl : ∀ row ∈ xs, j < row.length) : ts = xs.map (·.getD j .zero) := by
  refine IsSeries.unique hn h ⟨j, hj, ?_⟩
  rw [List.map_map]
  apply List.map_congr_left
  intro row hr
  simp only [Function.comp]
  rw [List.getD, List.getElem?_eq_getElem (hl row hr), Option.getD_some]

theorem zipWith_map_self {β γ : Type} (f : γ → γ → β) {δ : Type} (a b : δ → γ) (l : List δ) :
    List.zipWith f (l.map a) (l.map b) = l.map fun x => f (a x) (b x) := by
  induction l with
  | nil => rfl
  | cons x l ih => simp [ih]

/-- The relative orientations of the link `n` at all times: those of the link composed with the
inverse of those of its parent `m`. -/
def IsRelative (sx : System ℝ π) (xs : List (List (Transform ℝ))) (n m : String)
    (qs : List (Quat ℝ)) : Prop :=
  ∃ tn tm, IsSeries sx xs n tn ∧ IsSeries sx xs m tm ∧
    qs = List.zipWith (fun xn xm => quat_mul xn.rot (quat_inv xm.rot)) tn tm

theorem from_xs_ok {E : JEnv ℝ π} {s sx : System ℝ π} (h : s.Consistent E.toEnv)
    (hpos : 0 < s.num_links) (ht : Topological s.link_parents) (hx : sx.Consistent E.toEnv)
    {xs : List (List (Transform ℝ))} (hl : PosesOf sx xs)
    (hsub : ∀ n ∈ s.link_names, n ∈ sx.link_names) :
    ∃ X, _joint_axes_from_xs E s xs sx = .ok X ∧ X.keys = s.link_names ∧
      (∀ n ∈ s.link_names, ∃ v, List.lookup n X = some v ∧ v.length = xs.length) ∧
      ∀ n m, IsParent s n m → ∃ qs, IsRelative sx xs n m qs ∧
        List.lookup n X = some (averageAxis (ensure_axis_convention qs)) := by
  have hnl : s.link_names.length = s.link_parents.length := h.names_len
  have hxl : sx.link_names.length = sx.num_links := hx.names_len
  have hm : ∀ row, row ∈ xs → ∃ ys : List (Transform ℝ), s.match_xs E row sx = .ok ys ∧
      ys.length = s.num_links ∧ ∀ (i j : Nat) n, s.link_names[i]? = some n →
        sx.link_names[j]? = some n → ys[i]? = row[j]? := fun row hr =>
    C24_match_xs h hpos hx (hl row hr) hsub
  choose! F hF1 hF2 hF3 using hm
  have e1 : xs.mapM (fun row => s.match_xs E row sx) = .ok (xs.map F) := mapM_ok hF1
  let G : List (Transform ℝ) → List (Transform ℝ) := fun ys =>
    (List.range s.link_parents.length).map fun i => ⟨0, (relPose s.link_parents ys i).rot⟩
  have e2 : (xs.map F).mapM (fun row => do
      let z ← s.unzip_xs E row
      pure z.2) = .ok ((xs.map F).map G) := by
    apply mapM_ok
    intro ys hys
    obtain ⟨row, hr, rfl⟩ := List.mem_map.1 hys
    rw [unzip_eq h ht (hF2 row hr)]
    rfl
  let A : Nat → List (Vec3 ℝ) := fun i => averageAxis (ensure_axis_convention
    (xs.map fun row => (relPose s.link_parents (F row) i).rot))
  have e3 : s.link_names.mapM (fun name => do
      let i ← s.name_to_idx name
      let ts ← takeLink ((xs.map F).map G) i
      pure (name, averageAxis (ensure_axis_convention (ts.map Transform.rot)))) =
        .ok (nameDict s.link_names A s.link_names.length) := by
    have e4 : nameDict s.link_names A s.link_names.length =
        s.link_names.map fun n => (n, A (s.link_names.idxOf n)) := by
      apply List.ext_getElem
      · simp [nameDict]
      · intro i h1 h2
        have hi : i < s.link_names.length := by simpa using h2
        simp [nameDict, hi, h.names_nodup.idxOf_getElem]
    rw [e4]
    apply mapM_ok
    intro n hn
    obtain ⟨i, hi, rfl⟩ := List.getElem_of_mem hn
    rw [name_to_idx_of_nodup h.names_nodup (List.getElem?_eq_getElem hi), ok_bind,
      h.names_nodup.idxOf_getElem]
    have e5 : takeLink ((xs.map F).map G) i =
        .ok (((xs.map F).map G).map fun w => w.getD i .zero) := by
      apply mapM_ok
      intro w hw
      obtain ⟨ys, hys, rfl⟩ := List.mem_map.1 hw
      have hi' : i < (G ys).length := by simp [G]; omega
      rw [pyGet_nat (List.getElem?_eq_getElem hi'), List.getD, List.getElem?_eq_getElem hi',
        Option.getD_some]
    rw [e5, ok_bind]
    simp only [pure_ok, A, List.map_map]
    congr 5
    funext row
    have hi' : i < s.link_parents.length := by omega
    simp [G, hi']
  have hk : (nameDict s.link_names A s.link_names.length).keys = s.link_names := by
    rw [nameDict_keys _ _ le_rfl, List.take_length]
  refine ⟨nameDict s.link_names A s.link_names.length, ?_, hk, ?_, ?_⟩
  · unfold _joint_axes_from_xs
    rw [e1, ok_bind, e2, ok_bind, e3, ok_bind,
      update_nil (by rw [hk]; simpa [Dict.keys] using h.names_nodup)]
    rfl
  · intro n hn
    obtain ⟨i, hi, rfl⟩ := List.getElem_of_mem hn
    refine ⟨A i, nameDict_lookup h.names_nodup A (List.getElem?_eq_getElem hi), ?_⟩
    simp [A, averageAxis, ensure_axis_convention]
  · rintro n m ⟨i, p, f1, f2, f3⟩
    obtain ⟨j, tn, a1, -, -, a4⟩ := series_at hx hl (hsub n (List.mem_of_getElem? f1))
    obtain ⟨k, tm, b1, -, -, b4⟩ := series_at hx hl (hsub m (List.mem_of_getElem? f3))
    refine ⟨_, ⟨tn, tm, a4, b4, rfl⟩, ?_⟩
    rw [nameDict_lookup h.names_nodup A f1]
    have hlen : ∀ (a : Nat) (b : String), sx.link_names[a]? = some b →
        ∀ row ∈ xs, a < row.length := fun a b e row hr => by
      rw [hl row hr, ← hxl]
      exact (List.getElem?_eq_some_iff.1 e).1
    rw [a4.eq_map hx.names_nodup a1 (hlen j n a1), b4.eq_map hx.names_nodup b1 (hlen k m b1),
      zipWith_map_self]
    simp only [A]
    congr 3
    apply List.map_congr_left
    intro row hr
    unfold relPose poseAt
    have g1 := hF3 row hr i j n f1 a1
    have g2 := hF3 row hr p k m f3 b1
    have g3 : s.link_parents.getD i (-1) = (p : Int) := by simp [List.getD, f2]
    rw [g3, if_neg (by omega), Int.toNat_natCast]
    simp only [List.getD, g1, g2]
    rfl

/-! ## noise, the world, random signs -/

theorem deg_ne_pi {x : ℝ} (hx : x ≠ 180) : deg2rad x ≠ Real.pi := by
  unfold deg2rad
  intro h
  apply hx
  have := Real.pi_pos
  have h2 : x * Real.pi = 180 * Real.pi := by linarith
  exact mul_right_cancel₀ this.ne' h2

/-- noise rotates every axis -/
theorem axesNoise_ok (R : Rng K) (N : Nat) : ∀ (X : Dict (List (Vec3 ℝ))) (key : K),
    (axesNoise R N X key).1.keys = X.keys ∧
    ∀ n v, List.lookup n X = some v → ∃ dist : List (Quat ℝ), dist.length = N ∧
      (∀ d ∈ dist, d.normSq = 1) ∧
      List.lookup n (axesNoise R N X key).1 = some (List.zipWith rotate v dist) := by
  intro X
  induction X with
  | nil => intro key; exact ⟨rfl, fun n v h => by simp at h⟩
  | cons a X ih =>
    obtain ⟨name, w⟩ := a
    intro key
    obtain ⟨ih1, ih2⟩ := ih (R.split key 3 0)
    refine ⟨by simp only [axesNoise, Dict.keys, List.map_cons] at ih1 ⊢; rw [ih1], ?_⟩
    intro n v hv
    rw [Dict.lookup_if] at hv
    by_cases hn : n = name
    · rw [if_pos hn] at hv
      cases hv
      refine ⟨_, ?_, ?_, by simp only [axesNoise]; rw [Dict.lookup_if, if_pos hn]⟩
      · simp [quat_randomN]
      · intro d hd
        obtain ⟨q, hq, rfl⟩ := List.mem_map.1 hd
        rw [normSq_mul, quat_randomN_unit R _ N (deg_ne_pi (by norm_num)) q hq,
          quat_random1_unit R _ (deg_ne_pi (by norm_num)), one_mul]
    · rw [if_neg hn] at hv
      obtain ⟨dist, h1, h2, h3⟩ := ih2 n v hv
      exact ⟨dist, h1, h2, by simp only [axesNoise]; rw [Dict.lookup_if, if_neg hn]; exact h3⟩

theorem one_smul_vec (v : List (Vec3 ℝ)) : v.map ((1 : ℝ) • ·) = v := by
  conv_rhs => rw [← List.map_id v]
  apply List.map_congr_left
  intro a _
  simp

theorem set_keys_of_mem {β : Type} {d : Dict β} {k : String} (h : k ∈ d.keys) (v : β) :
    (d.set k v).keys = d.keys := by rw [Dict.keys_set, if_pos h]

/-- the last loop writes zeros for the links connected to the world and signs for the others -/
theorem world_ok (R : Rng K) (N : Nat) (flip : Bool) : ∀ (l : List (String × Int))
    (X : Dict (List (Vec3 ℝ))) (key : Option K), (l.map Prod.fst).Nodup →
    (∀ a ∈ l, a.1 ∈ X.keys) → (flip = true → key.isSome) →
    ∃ X' key', l.foldlM (axesWorldStep R N flip) (X, key) = .ok (X', key') ∧ X'.keys = X.keys ∧
      (∀ n, n ∉ l.map Prod.fst → List.lookup n X' = List.lookup n X) ∧
      (∀ n, (n, (-1 : Int)) ∈ l → List.lookup n X' = some (List.replicate N 0)) ∧
      ∀ n p v, (n, p) ∈ l → p ≠ -1 → List.lookup n X = some v →
        ∃ sign : ℝ, (sign = 1 ∨ (flip = true ∧ sign = -1)) ∧
          List.lookup n X' = some (v.map (sign • ·)) := by
  intro l
  induction l with
  | nil =>
    intro X key _ _ _
    exact ⟨X, key, rfl, rfl, fun _ _ => rfl, fun n h => by simp at h, fun n p v h => by simp at h⟩
  | cons a l ih =>
    obtain ⟨a, p⟩ := a
    intro X key hnd hin hf
    obtain ⟨v, hv⟩ := (Dict.lookup_isSome _ _).1 (hin (a, p) (List.mem_cons_self ..))
    rw [List.map_cons, List.nodup_cons] at hnd
    obtain ⟨hna, hnd⟩ := hnd
    have ha : a ∈ X.keys := hin (a, p) (List.mem_cons_self ..)
    have hstep : ∃ w X1 key1, axesWorldStep R N flip (X, key) (a, p) = .ok (X1, key1) ∧
        X1.keys = X.keys ∧ (∀ n, List.lookup n X1 = if n = a then some w else List.lookup n X) ∧
        (flip = true → key1.isSome) ∧ (p = -1 → w = List.replicate N 0) ∧
        (p ≠ -1 → ∃ sign : ℝ, (sign = 1 ∨ (flip = true ∧ sign = -1)) ∧ w = v.map (sign • ·)) := by
      unfold axesWorldStep pyDict
      dsimp only
      rw [hv]
      simp only [ok_bind]
      by_cases hp : p = -1
      · rw [if_pos hp]
        exact ⟨_, _, _, rfl, set_keys_of_mem ha _, Dict.lookup_set _ _ _, hf, fun _ => rfl,
          fun h => absurd hp h⟩
      · rw [if_neg hp]
        cases flip with
        | true =>
          rw [if_pos rfl]
          obtain ⟨k, rfl⟩ := Option.isSome_iff_exists.1 (hf rfl)
          refine ⟨_, _, _, rfl, set_keys_of_mem ha _, Dict.lookup_set _ _ _, fun _ => rfl,
            fun h => absurd h hp, fun _ => ⟨_, ?_, rfl⟩⟩
          split
          · exact Or.inl rfl
          · exact Or.inr ⟨rfl, rfl⟩
        | false =>
          rw [if_neg (by simp)]
          refine ⟨v, X, key, rfl, rfl, ?_, fun h => by simp at h, fun h => absurd h hp,
            fun _ => ⟨1, Or.inl rfl, (one_smul_vec v).symm⟩⟩
          intro n
          split
          · rename_i h; rw [h, hv]
          · rfl
    obtain ⟨w, X1, key1, e1, hk, hX1, hk1, hw1, hw2⟩ := hstep
    obtain ⟨X', key', i1, i2, i3, i4, i5⟩ := ih X1 key1 hnd (by
      intro b hb
      rw [hk]
      exact hin b (List.mem_cons_of_mem _ hb)) hk1
    refine ⟨X', key', ?_, by rw [i2, hk], ?_, ?_, ?_⟩
    · rw [List.foldlM_cons, e1, ok_bind, i1]
    · intro n hn
      rw [List.map_cons, List.mem_cons, not_or] at hn
      rw [i3 n hn.2, hX1, if_neg hn.1]
    · intro n hn
      rcases List.mem_cons.1 hn with h | h
      · cases h
        rw [i3 _ hna, hX1, if_pos rfl, hw1 rfl]
      · exact i4 n h
    · intro n p' v' hn hp' hv'
      rcases List.mem_cons.1 hn with h | h
      · cases h
        rw [hv] at hv'
        cases hv'
        obtain ⟨sign, hs, hw⟩ := hw2 hp'
        exact ⟨sign, hs, by rw [i3 _ hna, hX1, if_pos rfl, hw]⟩
      · apply i5 n p' v' h hp'
        rw [hX1, if_neg, hv']
        rintro rfl
        exact hna (List.mem_map.2 ⟨_, h, rfl⟩)

/-! ## the theorems -/

/-- The axis of every link before noise and random signs. -/
def BaseAxes (E : JEnv ℝ π) (axesOf : π → Py (Vec3 ℝ)) (s sx : System ℝ π)
    (xs : List (List (Transform ℝ))) (from_sys : Bool) (n : String) (base : List (Vec3 ℝ)) : Prop :=
  if from_sys then
    ∃ (i : Nat) (v : Vec3 ℝ), s.link_names[i]? = some n ∧ SysAxis axesOf s i v ∧
      base = List.replicate xs.length v
  else
    ∃ m qs, IsParent s n m ∧ IsRelative sx xs n m qs ∧ base = averageAxis (ensure_axis_convention qs)

/-- C45, joint axes: there is an entry for every link. It is zero if the link is connected to the
world. Otherwise it is the axis of the joint (given by the joint, or measured from the relative
orientations), rotated by some unit quaternions if `noisy`, and negated or not if `randomly_flip`. -/
theorem C45_joint_axes {E : JEnv ℝ π} {axesOf : π → Py (Vec3 ℝ)} {s sx : System ℝ π}
    (h : s.Consistent E.toEnv)
    (hpos : 0 < s.num_links) (ht : Topological s.link_parents) (hx : sx.Consistent E.toEnv)
    {xs : List (List (Transform ℝ))} (hl : PosesOf sx xs)
    (hsub : ∀ n ∈ s.link_names, n ∈ sx.link_names) (R : Rng K) (key : Option K) (o : AxesArgs)
    (hkey : o.noisy = true ∨ o.randomly_flip = true → key.isSome)
    (hax : o.from_sys = true → ∀ i < s.link_parents.length, ∃ v, SysAxis axesOf s i v) :
    ∃ X, sensors.joint_axes E R axesOf s xs sx key o = .ok X ∧ X.keys = s.link_names ∧
      (∀ n, IsRoot s n → List.lookup n X = some (List.replicate xs.length 0)) ∧
      ∀ n ∈ s.link_names, ¬ IsRoot s n → ∃ (base : List (Vec3 ℝ)) (dist : List (Quat ℝ)) (sign : ℝ),
        BaseAxes E axesOf s sx xs o.from_sys n base ∧ base.length = xs.length ∧
        dist.length = xs.length ∧ (∀ d ∈ dist, d.normSq = 1) ∧
        (o.noisy = false → dist = List.replicate xs.length unitQuat) ∧
        (sign = 1 ∨ (o.randomly_flip = true ∧ sign = -1)) ∧
        List.lookup n X = some ((List.zipWith rotate base dist).map (sign • ·)) := by
  have hnl : s.link_names.length = s.link_parents.length := h.names_len
  -- the parent of a link that is not connected to the world
  have hpar : ∀ n ∈ s.link_names, ¬ IsRoot s n → ∃ m, IsParent s n m := by
    intro n hn hr
    obtain ⟨i, hi, e⟩ := List.getElem_of_mem hn
    have hi' : i < s.link_parents.length := by omega
    have e1 : s.link_names[i]? = some n := by rw [List.getElem?_eq_getElem hi, e]
    have h0 : s.link_parents[i] ≠ -1 := fun h0 =>
      hr ⟨i, e1, by rw [List.getElem?_eq_getElem hi', h0]⟩
    obtain ⟨h1, h2⟩ := ht i hi'
    have hp : s.link_parents[i].toNat < s.link_names.length := by omega
    exact ⟨_, i, s.link_parents[i].toNat, e1, by rw [List.getElem?_eq_getElem hi']; congr 1; omega,
      List.getElem?_eq_getElem hp⟩
  -- the first dictionary
  have hbase : ∃ X, (if o.from_sys then _joint_axes_from_sys E axesOf s xs.length
      else _joint_axes_from_xs E s xs sx) = .ok X ∧ X.keys = s.link_names ∧
      ∀ n ∈ s.link_names, ¬ IsRoot s n → ∃ base, BaseAxes E axesOf s sx xs o.from_sys n base ∧
        base.length = xs.length ∧ List.lookup n X = some base := by
    cases hfs : o.from_sys with
    | true =>
      choose V hV using hax hfs
      let V' : Nat → Vec3 ℝ := fun i => if hi : i < s.link_parents.length then V i hi else 0
      obtain ⟨X, e1, e2, e3⟩ := from_sys_ok (V := V') h xs.length (fun i hi => by
        simp only [V', dif_pos hi]; exact hV i hi)
      refine ⟨X, by rw [if_pos rfl]; exact e1, e2, ?_⟩
      intro n hn _
      obtain ⟨i, hi, e⟩ := List.getElem_of_mem hn
      have hi' : i < s.link_parents.length := by omega
      have e4 : s.link_names[i]? = some n := by rw [List.getElem?_eq_getElem hi, e]
      refine ⟨_, ?_, ?_, e3 i n e4⟩
      · unfold BaseAxes
        rw [if_pos rfl]
        exact ⟨i, V i hi', e4, hV i hi', by simp only [V', dif_pos hi']⟩
      · simp
    | false =>
      obtain ⟨X, e1, e2, e3, e4⟩ := from_xs_ok h hpos ht hx hl hsub
      refine ⟨X, by rw [if_neg (by simp)]; exact e1, e2, ?_⟩
      intro n hn hr
      obtain ⟨m, hm⟩ := hpar n hn hr
      obtain ⟨qs, hq, hlk⟩ := e4 n m hm
      refine ⟨_, ?_, ?_, hlk⟩
      · unfold BaseAxes
        rw [if_neg (by simp)]
        exact ⟨m, qs, hm, hq, rfl⟩
      · obtain ⟨v, hv, hvl⟩ := e3 n hn
        rw [hlk] at hv
        cases hv
        exact hvl
  obtain ⟨X0, b1, b2, b3⟩ := hbase
  -- noise
  have hnoise : ∃ (X1 : Dict (List (Vec3 ℝ))) (key1 : Option K),
      addAxesNoise R xs.length o.noisy X0 key = (X1, key1) ∧ X1.keys = s.link_names ∧
      (o.randomly_flip = true → key1.isSome) ∧
      ∀ n v, List.lookup n X0 = some v → v.length = xs.length → ∃ dist : List (Quat ℝ),
        dist.length = xs.length ∧ (∀ d ∈ dist, d.normSq = 1) ∧
        (o.noisy = false → dist = List.replicate xs.length unitQuat) ∧
        List.lookup n X1 = some (List.zipWith rotate v dist) := by
    cases hno : o.noisy with
    | true =>
      obtain ⟨k, rfl⟩ := Option.isSome_iff_exists.1 (hkey (Or.inl hno))
      obtain ⟨n1, n2⟩ := axesNoise_ok R xs.length X0 k
      refine ⟨_, _, rfl, n1.trans b2, fun _ => rfl, ?_⟩
      intro n v hv _
      obtain ⟨dist, d1, d2, d3⟩ := n2 n v hv
      exact ⟨dist, d1, d2, fun h => by simp at h, d3⟩
    | false =>
      refine ⟨X0, key, rfl, b2, fun hf => hkey (Or.inr hf), ?_⟩
      intro n v hv hvl
      refine ⟨List.replicate xs.length unitQuat, by simp, ?_, fun _ => rfl, ?_⟩
      · intro d hd
        rw [List.eq_of_mem_replicate hd]
        simp [unitQuat, Quat.normSq]
      · rw [hv]
        congr 1
        apply List.ext_getElem
        · simp [hvl]
        · intro i h1 h2
          simp [rotate_unit]
  obtain ⟨X1, key1, n1, n2, n3, n4⟩ := hnoise
  obtain ⟨X2, key2, w1, w2, w3, w4, w5⟩ := world_ok R xs.length o.randomly_flip
    (s.link_names.zip s.link_parents) X1 key1
    (by rw [List.map_fst_zip (by omega)]; exact h.names_nodup)
    (by
      intro a ha
      rw [n2]
      exact (List.of_mem_zip ha).1) n3
  have hzip : ∀ (i : Nat) n p, s.link_names[i]? = some n → s.link_parents[i]? = some p →
      (n, p) ∈ s.link_names.zip s.link_parents := by
    intro i n p e1 e2
    apply List.mem_of_getElem? (i := i)
    rw [List.getElem?_zip_eq_some]
    exact ⟨e1, e2⟩
  refine ⟨X2, ?_, w2.trans n2, ?_, ?_⟩
  · unfold sensors.joint_axes
    rw [pyAssert_true (by
      by_cases hk : o.noisy = true ∨ o.randomly_flip = true
      · exact Or.inl (hkey hk)
      · rw [not_or] at hk
        exact Or.inr ⟨by simpa using hk.1, by simpa using hk.2⟩), ok_bind]
    dsimp only
    split <;> rename_i hfs
    · rw [if_pos hfs] at b1
      rw [b1, ok_bind, n1, w1]
      rfl
    · rw [if_neg hfs] at b1
      rw [b1, ok_bind, n1, w1]
      rfl
  · rintro n ⟨i, e1, e2⟩
    exact w4 n (hzip i n _ e1 e2)
  · intro n hn hr
    obtain ⟨base, c1, c2, c3⟩ := b3 n hn hr
    obtain ⟨dist, d1, d2, d3, d4⟩ := n4 n base c3 c2
    obtain ⟨m, i, p, e1, e2, -⟩ := hpar n hn hr
    obtain ⟨sign, s1, s2⟩ := w5 n p _ (hzip i n _ e1 e2) (by omega) d4
    exact ⟨base, dist, sign, c1, c2, d1, d2, d3, s1, s2⟩

/-! ## hinges -/

theorem norm3_smul_unit {e : Vec3 ℝ} (he : e.x ^ 2 + e.y ^ 2 + e.z ^ 2 = 1) (a : ℝ) :
    norm3 (a • e) = |a| := by
  unfold norm3
  have : (a • e).x ^ 2 + (a • e).y ^ 2 + (a • e).z ^ 2 = a ^ 2 := by
    show (a * e.x) ^ 2 + (a * e.y) ^ 2 + (a * e.z) ^ 2 = a ^ 2
    linear_combination a ^ 2 * he
  rw [this, Real.sqrt_sq_eq_abs]

theorem sum_smul {e : Vec3 ℝ} (l : List ℝ) : (l.map (· • e)).sum = l.sum • e := by
  induction l with
  | nil => simp
  | cons a l ih => simp [ih, add_smul]

/-- C45, hinges: if a link turns about a fixed axis relative to its parent, and is turned at the first
sample, then the measured axis is that axis or its opposite. -/
theorem C45_hinge {e : Vec3 ℝ} (he : e.x ^ 2 + e.y ^ 2 + e.z ^ 2 = 1) (cs : ℝ × ℝ)
    (l : List (ℝ × ℝ)) (h0 : cs.2 ≠ 0) :
    averageAxis (ensure_axis_convention
      ((cs :: l).map fun c => (⟨c.1, c.2 * e.x, c.2 * e.y, c.2 * e.z⟩ : Quat ℝ))) =
      List.replicate (l.length + 1) ((SignType.sign cs.2 : ℝ) • e) := by
  let f : ℝ → ℝ := fun s => s / (|s| + 1e-6)
  have hden : ∀ s : ℝ, 0 < |s| + 1e-6 := fun s => by positivity
  have hvec : ∀ c : ℝ × ℝ, (1 / (norm3 (⟨c.1, c.2 * e.x, c.2 * e.y, c.2 * e.z⟩ : Quat ℝ).vec + 1e-6)) •
      (⟨c.1, c.2 * e.x, c.2 * e.y, c.2 * e.z⟩ : Quat ℝ).vec = f c.2 • e := by
    intro c
    have : (⟨c.1, c.2 * e.x, c.2 * e.y, c.2 * e.z⟩ : Quat ℝ).vec = c.2 • e := rfl
    rw [this, norm3_smul_unit he, smul_smul]
    congr 1
    simp only [f]
    ring
  let g : ℝ → ℝ := fun a => if |f cs.2 - a| > |f cs.2 + a| then -a else a
  have hens : ensure_axis_convention
      ((cs :: l).map fun c => (⟨c.1, c.2 * e.x, c.2 * e.y, c.2 * e.z⟩ : Quat ℝ)) =
      ((cs :: l).map fun c => g (f c.2)).map (· • e) := by
    unfold ensure_axis_convention
    dsimp only
    rw [List.map_map (l := cs :: l), show ((cs :: l).map ((fun q : Quat ℝ => (1 / (norm3 q.vec + 1e-6)) • q.vec) ∘
      fun c : ℝ × ℝ => (⟨c.1, c.2 * e.x, c.2 * e.y, c.2 * e.z⟩ : Quat ℝ))) =
        (cs :: l).map fun c => f c.2 • e from List.map_congr_left fun c _ => hvec c]
    have hh : ((cs :: l).map fun c => f c.2 • e).headD 0 = f cs.2 • e := rfl
    rw [hh, List.map_map, List.map_map]
    apply List.map_congr_left
    intro c _
    simp only [Function.comp]
    rw [← sub_smul, ← add_smul, norm3_smul_unit he, norm3_smul_unit he]
    simp only [g]
    split
    · rw [neg_smul]
    · rfl
  rw [hens]
  unfold averageAxis
  dsimp only
  have hsm : ∀ (a b : ℝ), a • b • e = (a * b) • e := fun a b => smul_smul a b e
  rw [sum_smul, hsm, norm3_smul_unit he, hsm]
  have hlen : (((cs :: l).map fun c => g (f c.2)).map (· • e)).length = l.length + 1 := by simp
  rw [hlen]
  congr 2
  -- all summands have the sign of the first one
  have hf0 : f cs.2 ≠ 0 := div_ne_zero h0 (hden _).ne'
  have hsgn : ∀ a, 0 ≤ f cs.2 * g a := by
    intro a
    simp only [g]
    split
    · rename_i h
      rw [gt_iff_lt, ← sq_lt_sq] at h
      nlinarith
    · rename_i h
      rw [gt_iff_lt, ← sq_lt_sq, not_lt] at h
      nlinarith
  have hg0 : g (f cs.2) = f cs.2 := by
    simp only [g]
    rw [if_neg]
    rw [sub_self, abs_zero]
    exact not_lt.2 (abs_nonneg _)
  have hsum : ∀ l : List (ℝ × ℝ), 0 ≤ f cs.2 * (l.map fun c => g (f c.2)).sum := by
    intro l
    induction l with
    | nil => simp
    | cons a l ih =>
      simp only [List.map_cons, List.sum_cons, mul_add]
      exact add_nonneg (hsgn _) ih
  have hS : 0 < f cs.2 * ((cs :: l).map fun c => g (f c.2)).sum := by
    simp only [List.map_cons, List.sum_cons, mul_add, hg0]
    have := hsum l
    have h2 : 0 < f cs.2 * f cs.2 := mul_self_pos.2 hf0
    linarith
  generalize ((cs :: l).map fun c => g (f c.2)).sum = S at hS
  have hn : (0 : ℝ) < 1 / ((l.length + 1 : ℕ) : ℝ) := by positivity
  generalize 1 / ((l.length + 1 : ℕ) : ℝ) = n at hn
  have hfs : 0 < f cs.2 ↔ 0 < cs.2 := by
    simp only [f]
    rw [div_pos_iff_of_pos_right (hden _)]
  rcases lt_or_gt_of_ne h0 with hneg | hpos
  · have hf : f cs.2 < 0 := lt_of_le_of_ne (not_lt.1 fun h => by linarith [hfs.1 h]) hf0
    have hS' : S < 0 := by nlinarith
    rw [sign_neg hneg, abs_of_neg (mul_neg_of_pos_of_neg hn hS')]
    have : n * S ≠ 0 := (mul_neg_of_pos_of_neg hn hS').ne
    rw [SignType.coe_neg_one, one_div, inv_neg, neg_mul, inv_mul_cancel₀ this]
  · have hf : 0 < f cs.2 := hfs.2 hpos
    have hS' : 0 < S := by nlinarith
    rw [sign_pos hpos, abs_of_pos (mul_pos hn hS')]
    have : n * S ≠ 0 := (mul_pos hn hS').ne'
    rw [SignType.coe_one, one_div, inv_mul_cancel₀ this]

end sensors
end RingLib
