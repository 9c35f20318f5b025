import Verif.Model.Setup
import Verif.Lemmas.Random
import Verif.Lemmas.Desc
import Verif.Props.Trig
import Verif.Props.InvKin
import Verif.Props.DrawQ

/-!
# C35 and C66: what the setup functions randomise
-/

namespace RingLib
namespace generator
open System maths
open Real (cos sin)

variable {K π : Type} {R : Rng K}

/-- Component-wise in the box `[lo, hi]`. -/
def InBox (lo hi p : Vec3 ℝ) : Prop :=
  (lo.x ≤ p.x ∧ p.x ≤ hi.x) ∧ (lo.y ≤ p.y ∧ p.y ≤ hi.y) ∧ (lo.z ≤ p.z ∧ p.z ≤ hi.z)

/-- A box that is not empty. -/
def BoxOk (lo hi : Vec3 ℝ) : Prop := lo.x ≤ hi.x ∧ lo.y ≤ hi.y ∧ lo.z ≤ hi.z

theorem draw_pos_inBox (hR : R.Ok) (k : K) {lo hi : Vec3 ℝ} (h : BoxOk lo hi) :
    InBox lo hi (_draw_pos_uniform R k lo hi).2 := by
  obtain ⟨hx, hy, hz⟩ := h
  refine ⟨⟨scaleU_ge _ _ _, ?_⟩, ⟨scaleU_ge _ _ _, ?_⟩, ⟨scaleU_ge _ _ _, ?_⟩⟩
  · exact scaleU_le (hR.uniform _).1 (hR.uniform _).2 hx
  · exact scaleU_le (hR.uniform _).1 (hR.uniform _).2 hy
  · exact scaleU_le (hR.uniform _).1 (hR.uniform _).2 hz

/-- the key before link `i` is drawn -/
def posKey (R : Rng K) (key : K) (i : Nat) : K := (fun k => R.split k 4 0)^[i] key

theorem pyGet_nat {β : Type} {l : List β} {i : Nat} (h : i < l.length) :
    pyGet l (i : Int) = .ok l[i] := by
  unfold pyGet
  have h1 : ¬ ((i : Int) < 0) := by omega
  dsimp only
  rw [if_neg h1, if_neg h1, Int.toNat_natCast, List.getElem?_eq_getElem h]

theorem randomize_fold (links : List (LinkRow ℝ)) (key : K) (n : Nat) (hn : n ≤ links.length) :
    ∃ ts : List (Transform ℝ), (List.range n).foldlM (randomizePosition R links)
        (key, links.map (·.transform1)) = .ok (posKey R key n, ts) ∧ ts.length = links.length ∧
      ∀ i (h : i < links.length) (h' : i < ts.length), ts[i] =
        if i < n then { links[i].transform1 with
            pos := (_draw_pos_uniform R (posKey R key i) links[i].pos_min links[i].pos_max).2 }
        else links[i].transform1 := by
  induction n with
  | zero =>
    refine ⟨links.map (·.transform1), rfl, by simp, ?_⟩
    intro i h h'
    simp
  | succ n ih =>
    obtain ⟨ts, e, hl, ht⟩ := ih (by omega)
    have hnl : n < links.length := by omega
    refine ⟨ts.set n { ts[n] with pos := (_draw_pos_uniform R (posKey R key n)
      links[n].pos_min links[n].pos_max).2 }, ?_, by simpa using hl, ?_⟩
    · rw [List.range_succ, List.foldlM_append, e, ok_bind]
      simp only [List.foldlM_cons, List.foldlM_nil, randomizePosition]
      rw [pyGet_nat hnl, pyGet_nat (l := ts) (by omega)]
      simp only [ok_bind, posKey, Function.iterate_succ_apply', _draw_pos_uniform]
      rfl
    · intro i h h'
      rw [List.getElem_set]
      by_cases hi : n = i
      · subst hi
        rw [if_pos rfl, if_pos (by omega), ht n hnl (by omega), if_neg (by omega)]
      · rw [if_neg hi, ht i h (by omega)]
        by_cases hin : i < n
        · rw [if_pos hin, if_pos (by omega)]
        · rw [if_neg hin, if_neg (by omega)]

/-- C35: randomising the positions never fails, replaces only `transform1.pos` of the links, and
every new position lies in the box of its link. Link `i` is drawn with its own key. -/
theorem C35_positions (hR : R.Ok) (key : K) (s : System ℝ π)
    (hl : s.links.length = s.link_parents.length)
    (hbox : ∀ l ∈ s.links, BoxOk l.pos_min l.pos_max) :
    ∃ s', _setup_fn_randomize_positions R key s = .ok s' ∧ { s' with links := s.links } = s ∧
      s'.links.length = s.links.length ∧
      ∀ i (h : i < s.links.length) (h' : i < s'.links.length),
        InBox s.links[i].pos_min s.links[i].pos_max s'.links[i].transform1.pos ∧
        s'.links[i] = { s.links[i] with
          transform1 := ⟨s'.links[i].transform1.pos, s.links[i].transform1.rot⟩ } := by
  obtain ⟨ts, e, hlen, ht⟩ := randomize_fold (R := R) s.links key s.num_links
    (by rw [hl]; exact le_refl _)
  refine ⟨setTransform1 s ts, ?_, rfl, ?_, ?_⟩
  · unfold _setup_fn_randomize_positions
    rw [e]
    rfl
  · simp [setTransform1, hlen]
  · intro i h h'
    have hi : i < s.num_links := by unfold num_links; omega
    have e1 : (setTransform1 s ts).links[i] = { s.links[i] with transform1 := ts[i] } := by
      simp [setTransform1]
    rw [e1, ht i h (by omega), if_pos hi]
    refine ⟨?_, ?_⟩
    · exact draw_pos_inBox hR _ (hbox _ (List.getElem_mem h))
    · rfl

/-- C35: a link whose box is a point is put there. -/
theorem C35_exact (hR : R.Ok) (key : K) (s s' : System ℝ π)
    (hl : s.links.length = s.link_parents.length)
    (h : _setup_fn_randomize_positions R key s = .ok s')
    (hbox : ∀ l ∈ s.links, BoxOk l.pos_min l.pos_max) {i : Nat} {l l' : LinkRow ℝ}
    (hi : s.links[i]? = some l) (hi' : s'.links[i]? = some l') (heq : l.pos_min = l.pos_max) :
    l'.transform1.pos = l.pos_min := by
  obtain ⟨t, e, _, hlen, ht⟩ := C35_positions hR key s hl hbox
  rw [h] at e
  obtain rfl : s' = t := Except.ok.inj e
  obtain ⟨hi1, rfl⟩ := List.getElem?_eq_some_iff.1 hi
  obtain ⟨hi2, rfl⟩ := List.getElem?_eq_some_iff.1 hi'
  obtain ⟨⟨⟨a1, a2⟩, ⟨b1, b2⟩, c1, c2⟩, _⟩ := ht i hi1 hi2
  rw [← heq] at a2 b2 c2
  ext
  · exact le_antisymm a2 a1
  · exact le_antisymm b2 b1
  · exact le_antisymm c2 c1

/-! ## random rotations -/

theorem pow_unit {q : Quat ℝ} (h : q.w ^ 2 + q.x ^ 2 + q.y ^ 2 + q.z ^ 2 = 1) : q.IsUnit := by
  show q.w * q.w + q.x * q.x + q.y * q.y + q.z * q.z = 1
  linarith [h, sq q.w, sq q.x, sq q.y, sq q.z]

theorem quat_angle_mem (q : Quat ℝ) : -Real.pi ≤ quat_angle q ∧ quat_angle q < Real.pi :=
  wrap_mem _

/-- scaling the angle of a unit quaternion by `maxval / π` -/
theorem scaled_unit {q : Quat ℝ} (hq : q.IsUnit) {m : ℝ} (h0 : 0 ≤ m) (h1 : m ≤ Real.pi) :
    (quat_rot_axis (quat_to_rot_axis q).1 ((quat_to_rot_axis q).2 * m / Real.pi)).IsUnit ∧
    cos (m / 2) ≤ (quat_rot_axis (quat_to_rot_axis q).1
      ((quat_to_rot_axis q).2 * m / Real.pi)).w := by
  have hpi := Real.pi_pos
  by_cases hn : allclose0 q.vec
  · have ha : quat_angle q = 0 := quat_angle_negligible hq hn
    have he : quat_rot_axis (quat_to_rot_axis q).1 ((quat_to_rot_axis q).2 * m / Real.pi) =
        ⟨1, 0, 0, 0⟩ := by
      unfold quat_to_rot_axis
      rw [ha, safe_normalize_zero hn, quat_rot_axis_eq]
      have : safe_normalize (0 : Vec3 ℝ) = 0 := by
        apply safe_normalize_zero
        simp [allclose0, isclose0]
        norm_num
      rw [this]
      ext <;> simp [rotQuat]
    rw [he]
    refine ⟨?_, Real.cos_le_one _⟩
    show (1 : ℝ) * 1 + 0 * 0 + 0 * 0 + 0 * 0 = 1
    norm_num
  · have hk := safe_normalize_unit hn
    unfold quat_to_rot_axis
    rw [quat_rot_axis_eq, safe_normalize_of_unit hk]
    refine ⟨rotQuat_unit hk _, ?_⟩
    obtain ⟨ha, hb⟩ := quat_angle_mem q
    show cos (m / 2) ≤ cos (-(quat_angle q * -1 * m / Real.pi) / 2)
    rw [← Real.cos_abs (-(quat_angle q * -1 * m / Real.pi) / 2)]
    apply Real.cos_le_cos_of_nonneg_of_le_pi (abs_nonneg _) (by linarith)
    have e : -(quat_angle q * -1 * m / Real.pi) / 2 = quat_angle q * (m / 2 / Real.pi) := by ring
    rw [e, abs_mul, abs_of_nonneg (show 0 ≤ m / 2 / Real.pi by positivity)]
    have : |quat_angle q| ≤ Real.pi := abs_le.2 ⟨ha, hb.le⟩
    calc |quat_angle q| * (m / 2 / Real.pi) ≤ Real.pi * (m / 2 / Real.pi) := by
          apply mul_le_mul_of_nonneg_right this (by positivity)
      _ = m / 2 := by field_simp

/-- The draw of row `i` is not (numerically) the zero vector. -/
def DrawnNonzero (R : Rng K) (key : K) (n i : Nat) : Prop :=
  ∃ c < 4, 1e-8 < |R.normal key (n * 4) (4 * i + c)|

theorem quat_random_ok (key : K) (n : Nat) {m : ℝ} (h0 : 0 ≤ m) (h1 : m ≤ Real.pi)
    (hd : ∀ i < n, DrawnNonzero R key n i) :
    (quat_random R key n m).length = n ∧
    ∀ q ∈ quat_random R key n m, q.IsUnit ∧ cos (m / 2) ≤ |q.w| := by
  have hu : ∀ q ∈ ((List.range n).map fun i : Nat => safe_normalize4
      ⟨R.normal key (n * 4) (4 * i), R.normal key (n * 4) (4 * i + 1),
        R.normal key (n * 4) (4 * i + 2), R.normal key (n * 4) (4 * i + 3)⟩), q.IsUnit := by
    intro q hq
    obtain ⟨i, hi, rfl⟩ := List.mem_map.1 hq
    apply pow_unit
    apply safe_normalize4_unit
    obtain ⟨c, hc, hlt⟩ := hd i (List.mem_range.1 hi)
    rintro ⟨a0, a1, a2, a3⟩
    unfold isclose0 at a0 a1 a2 a3
    dsimp only at a0 a1 a2 a3
    interval_cases c
    · exact absurd hlt (not_lt.2 a0)
    · exact absurd hlt (not_lt.2 a1)
    · exact absurd hlt (not_lt.2 a2)
    · exact absurd hlt (not_lt.2 a3)
  unfold quat_random
  dsimp only
  by_cases hm : m = Real.pi
  · rw [if_pos hm]
    refine ⟨by simp, fun q hq => ⟨hu q hq, ?_⟩⟩
    rw [hm, Real.cos_pi_div_two]
    exact abs_nonneg _
  · rw [if_neg hm]
    refine ⟨by simp, fun q hq => ?_⟩
    obtain ⟨p, hp, rfl⟩ := List.mem_map.1 hq
    have := scaled_unit (hu p hp) h0 h1
    exact ⟨this.1, this.2.trans (le_abs_self _)⟩

theorem set_imus (s : System ℝ π) (hn : s.link_names.Nodup) (names : List String)
    (hsub : ∀ x ∈ names, x ∈ s.link_names) (rot : List (Quat ℝ)) :
    ∃ rot', names.foldlM (fun (rot : List (Quat ℝ)) imu => do
        let i ← s.name_to_idx imu
        pure (rot.set i unitQuat)) rot = (.ok rot' : Py _) ∧ rot'.length = rot.length ∧
      ∀ i (h : i < rot.length) (h' : i < rot'.length), rot'[i] =
        if ∃ x ∈ names, s.link_names[i]? = some x then unitQuat else rot[i] := by
  induction names generalizing rot with
  | nil => exact ⟨rot, rfl, rfl, fun i h h' => by simp⟩
  | cons a as ih =>
    obtain ⟨j, hj, e⟩ := List.getElem_of_mem (hsub a (by simp))
    have hja : s.link_names[j]? = some a := by rw [List.getElem?_eq_getElem hj, e]
    obtain ⟨rot', e', hl, hr⟩ := ih (fun x hx => hsub x (by simp [hx])) (rot.set j unitQuat)
    refine ⟨rot', ?_, by simpa using hl, ?_⟩
    · rw [List.foldlM_cons, name_to_idx_of_nodup hn hja]
      simpa [ok_bind] using e'
    · intro i h h'
      rw [hr i (by simpa using h) h', List.getElem_set]
      by_cases h1 : ∃ x ∈ as, s.link_names[i]? = some x
      · obtain ⟨x, hx, ex⟩ := h1
        rw [if_pos ⟨x, hx, ex⟩, if_pos ⟨x, by simp [hx], ex⟩]
      · rw [if_neg h1]
        by_cases h2 : j = i
        · subst h2
          rw [if_pos rfl, if_pos ⟨a, by simp, hja⟩]
        · rw [if_neg h2, if_neg]
          rintro ⟨x, hx, ex⟩
          rcases List.mem_cons.1 hx with rfl | hx
          · have := idxOf?_eq_of_nodup hn ex
            rw [idxOf?_eq_of_nodup hn hja] at this
            exact h2 (Option.some.inj this)
          · exact h1 ⟨x, hx, ex⟩

/-- C66: randomising the mounting rotations never fails and replaces only `transform1.rot` of the
links; every new rotation is a unit quaternion that turns by at most `maxval` (its scalar part is at
least `cos (maxval / 2)` in absolute value), and links whose name starts with `imu` are not turned
unless this is asked for. -/
theorem C66_rotations (key : K) (s : System ℝ π) {maxval : ℝ} (not_imus : Bool)
    (hl : s.links.length = s.link_parents.length)
    (hnl : s.link_names.length = s.link_parents.length) (hn : s.link_names.Nodup)
    (h0 : 0 ≤ maxval) (h1 : maxval ≤ Real.pi)
    (hd : ∀ i < s.link_parents.length, DrawnNonzero R key s.link_parents.length i) :
    ∃ s', _setup_fn_randomize_transform1_rot R key s maxval not_imus = .ok s' ∧
      { s' with links := s.links } = s ∧ s'.links.length = s.links.length ∧
      ∀ i (h : i < s.links.length) (h' : i < s'.links.length),
        s'.links[i] = { s.links[i] with
          transform1 := ⟨s.links[i].transform1.pos, s'.links[i].transform1.rot⟩ } ∧
        s'.links[i].transform1.rot.IsUnit ∧ cos (maxval / 2) ≤ |s'.links[i].transform1.rot.w| ∧
        (not_imus = true → ∀ r, s.link_names[i]? = some ("imu" ++ r) →
          s'.links[i].transform1.rot = ⟨1, 0, 0, 0⟩) := by
  obtain ⟨hql, hqu⟩ := quat_random_ok (R := R) key s.num_links h0 h1 hd
  have hunit : (unitQuat : Quat ℝ).IsUnit ∧ cos (maxval / 2) ≤ |(unitQuat : Quat ℝ).w| := by
    refine ⟨?_, ?_⟩
    · show (1 : ℝ) * 1 + 0 * 0 + 0 * 0 + 0 * 0 = 1
      norm_num
    · show _ ≤ |(1 : ℝ)|
      rw [abs_one]
      exact Real.cos_le_one _
  obtain ⟨rot, e, hrl, hr⟩ : ∃ rot : List (Quat ℝ),
      resetImus s not_imus (quat_random R key s.num_links maxval) = .ok rot ∧
      rot.length = s.num_links ∧ ∀ i (h : i < rot.length),
        rot[i].IsUnit ∧ cos (maxval / 2) ≤ |rot[i].w| ∧
        (not_imus = true → ∀ r, s.link_names[i]? = some ("imu" ++ r) → rot[i] = ⟨1, 0, 0, 0⟩) := by
    cases not_imus with
    | false =>
      refine ⟨_, rfl, hql, fun i h => ⟨(hqu _ (List.getElem_mem h)).1,
        (hqu _ (List.getElem_mem h)).2, fun h => by cases h⟩⟩
    | true =>
      obtain ⟨rot, e, hrl, hr⟩ := set_imus s hn (s.link_names.filter isImuName)
        (fun x hx => (List.mem_filter.1 hx).1) (quat_random R key s.num_links maxval)
      refine ⟨rot, by simpa [resetImus] using e, by rw [hrl, hql], ?_⟩
      intro i h
      have hi : i < (quat_random R key s.num_links maxval).length := by omega
      rw [hr i hi h]
      refine ⟨?_, ?_, ?_⟩
      · split
        · exact hunit.1
        · exact (hqu _ (List.getElem_mem hi)).1
      · split
        · exact hunit.2
        · exact (hqu _ (List.getElem_mem hi)).2
      · intro _ r hr'
        rw [if_pos]
        · rfl
        · refine ⟨_, List.mem_filter.2 ⟨List.mem_of_getElem? hr', ?_⟩, hr'⟩
          simp [isImuName, String.toList_append]
  refine ⟨setTransform1 s (List.zipWith (fun (l : LinkRow ℝ) r =>
    { l.transform1 with rot := r }) s.links rot), ?_, rfl, ?_, ?_⟩
  · unfold _setup_fn_randomize_transform1_rot
    rw [e]
    rfl
  · have : rot.length = s.links.length := by rw [hrl, hl]; rfl
    simp [setTransform1, this]
  · intro i h h'
    have hri : i < rot.length := by rw [hrl]; unfold num_links; omega
    have e1 : (setTransform1 s (List.zipWith (fun (l : LinkRow ℝ) r =>
        { l.transform1 with rot := r }) s.links rot)).links[i] =
        { s.links[i] with transform1 := ⟨s.links[i].transform1.pos, rot[i]⟩ } := by
      simp [setTransform1]
    rw [e1]
    obtain ⟨a, b, c⟩ := hr i hri
    exact ⟨rfl, a, b, c⟩

/-! ## examples -/

/-- links in a box of 1 m × 2 m × 0 m -/
noncomputable def boxSys : System ℝ Unit :=
  { kinSys with
    links := kinSys.links.map fun l => { l with pos_min := ⟨0, -1, 3⟩, pos_max := ⟨1, 1, 3⟩ }
    link_names := ["a", "imu_b", "c", "imu"] }

/-- The conditions of `C35_positions` and `C35_exact` can be met. -/
example : ∃ s', _setup_fn_randomize_positions pathRng [] boxSys = .ok s' ∧
    ∀ l ∈ s'.links, l.transform1.pos.z = 3 := by
  have hb : ∀ l ∈ boxSys.links, BoxOk l.pos_min l.pos_max := by
    intro l hl
    obtain ⟨a, _, rfl⟩ := List.mem_map.1 hl
    unfold BoxOk
    norm_num
  have hz : ∀ i (h : i < boxSys.links.length), boxSys.links[i].pos_min.z = 3 ∧
      boxSys.links[i].pos_max.z = 3 := by
    intro i h
    obtain ⟨a, _, e⟩ := List.mem_map.1 (List.getElem_mem h)
    rw [← e]
    exact ⟨rfl, rfl⟩
  obtain ⟨s', e, _, hl, h⟩ := C35_positions pathRng_ok [] boxSys rfl hb
  refine ⟨s', e, ?_⟩
  intro l hm
  obtain ⟨i, hi, rfl⟩ := List.getElem_of_mem hm
  obtain ⟨⟨_, _, h1, h2⟩, _⟩ := h i (by omega) hi
  rw [(hz i (by omega)).1] at h1
  rw [(hz i (by omega)).2] at h2
  exact le_antisymm h2 h1

/-- The conditions of `C66_rotations` can be met. -/
example : ∃ s', _setup_fn_randomize_transform1_rot pathRng [] boxSys (Real.pi / 2) = .ok s' ∧
    s'.links[1]?.map (·.transform1.rot) = some ⟨1, 0, 0, 0⟩ := by
  have hp := Real.pi_pos
  obtain ⟨s', e, _, hl, h⟩ := C66_rotations (R := pathRng) [] boxSys (maxval := Real.pi / 2) true rfl
    rfl (by show ["a", "imu_b", "c", "imu"].Nodup; decide) (by linarith) (by linarith) (by
      intro i _
      refine ⟨1, by norm_num, ?_⟩
      have : pathRng.normal [] (boxSys.link_parents.length * 4) (4 * i + 1) = 1 := by
        simp [pathRng]
      rw [this]
      norm_num)
  have h1 : 1 < s'.links.length := by rw [hl]; show 1 < 4; norm_num
  refine ⟨s', e, ?_⟩
  rw [List.getElem?_eq_getElem h1]
  obtain ⟨-, -, -, h2⟩ := h 1 (by show 1 < 4; norm_num) h1
  rw [Option.map_some, h2 rfl "_b" (by show some "imu_b" = _; decide)]

end generator
end RingLib
