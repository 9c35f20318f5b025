import Verif.Model.Suntay
import Verif.Props.Twist
import Verif.Props.Draw
import Verif.Props.CustomJoints

/-! # The knee joint of Grood and Suntay -/

namespace RingLib
open maths jcalc algebra random suntay

variable {K P ν γ : Type}

/-! ## restricting values to an interval -/

theorem foldr_min_le (a : ℝ) (l : List ℝ) : l.foldr min a ≤ a ∧ ∀ y ∈ l, l.foldr min a ≤ y := by
  induction l with
  | nil => simp
  | cons b l ih =>
    simp only [List.foldr_cons]
    refine ⟨(min_le_right _ _).trans ih.1, fun y hy => ?_⟩
    rcases List.mem_cons.1 hy with rfl | hy
    · exact min_le_left _ _
    · exact (min_le_right _ _).trans (ih.2 y hy)

theorem le_foldr_max (a : ℝ) (l : List ℝ) : a ≤ l.foldr max a ∧ ∀ y ∈ l, y ≤ l.foldr max a := by
  induction l with
  | nil => simp
  | cons b l ih =>
    simp only [List.foldr_cons]
    refine ⟨ih.1.trans (le_max_right _ _), fun y hy => ?_⟩
    rcases List.mem_cons.1 hy with rfl | hy
    · exact le_max_left _ _
    · exact (ih.2 y hy).trans (le_max_right _ _)

theorem lowest_le (a : Option ℝ) (ys : List ℝ) : ∀ y ∈ ys, lowest a ys ≤ y := by
  cases a with
  | some a => exact (foldr_min_le a ys).2
  | none =>
    cases ys with
    | nil => simp
    | cons y ys =>
      intro z hz
      rcases List.mem_cons.1 hz with rfl | hz
      · exact (foldr_min_le _ _).1
      · exact (foldr_min_le _ _).2 z hz

theorem le_highest (a : Option ℝ) (ys : List ℝ) : ∀ y ∈ ys, y ≤ highest a ys := by
  cases a with
  | some a => exact (le_foldr_max a ys).2
  | none =>
    cases ys with
    | nil => simp
    | cons y ys =>
      intro z hz
      rcases List.mem_cons.1 hz with rfl | hz
      · exact (le_foldr_max _ _).1
      · exact (le_foldr_max _ _).2 z hz

/-- if all values are within the given bounds, these are the bounds used -/
theorem lowest_some {a : ℝ} {ys : List ℝ} (h : ∀ y ∈ ys, a ≤ y) : lowest (some a) ys = a := by
  show ys.foldr min a = a
  induction ys with
  | nil => rfl
  | cons y ys ih =>
    rw [List.foldr_cons, ih fun z hz => h z (by simp [hz]), min_eq_right (h y (by simp))]

theorem highest_some {a : ℝ} {ys : List ℝ} (h : ∀ y ∈ ys, y ≤ a) : highest (some a) ys = a := by
  show ys.foldr max a = a
  induction ys with
  | nil => rfl
  | cons y ys ih =>
    rw [List.foldr_cons, ih fun z hz => h z (by simp [hz]), max_eq_right (h y (by simp))]

theorem shift_unit {y a b : ℝ} (h1 : a ≤ y) (h2 : y ≤ b) : 0 ≤ _shift y a b ∧ _shift y a b ≤ 1 := by
  unfold _shift
  rcases eq_or_lt_of_le (h1.trans h2) with rfl | h
  · simp
  · have : 0 < b - a := sub_pos.2 h
    exact ⟨div_nonneg (by linarith) this.le, (div_le_one this).2 (by linarith)⟩

theorem shift_inv_bounds {t mn mx : ℝ} (h : mn ≤ mx) (h0 : 0 ≤ t) (h1 : t ≤ 1) :
    mn ≤ _shift_inv t mn mx ∧ _shift_inv t mn mx ≤ mx := by
  unfold _shift_inv
  constructor <;> nlinarith

theorem sigmoid_unit (x : ℝ) : 0 < suntay.sigmoid x ∧ suntay.sigmoid x < 1 := by
  have := Real.exp_pos (-x)
  unfold suntay.sigmoid
  exact ⟨by positivity, (div_lt_one (by positivity)).2 (by linarith)⟩

theorem clamp_bounds {t mi mx : ℝ} (h : mi ≤ mx) (h0 : 0 ≤ t) (h1 : t ≤ 1) :
    mi ≤ mi + (mx - mi) * t ∧ mi + (mx - mi) * t ≤ mx := by
  constructor <;> nlinarith

/-- no division by zero (which would make NaN) happens -/
def suntay.Method.Regular (m : Method) (ys : List ℝ) (mn mx : ℝ) (amin amax : Option ℝ) : Prop :=
  match m with
  | .minmax | .sigmoid _ => lowest amin ys < highest amax ys
  | .clip => True
  | .smoothclamp | .sigmoidclamp => mn < mx

theorem regular_of {m : Method} {ys : List ℝ} {mn mx a b : ℝ} (h : mn < mx) (hab : a < b) :
    m.Regular ys mn mx (some a) (some b) := by
  have : lowest (some a) ys < highest (some b) ys :=
    ((foldr_min_le a ys).1.trans_lt hab).trans_le (le_foldr_max b ys).1
  cases m <;> first | exact this | exact h | trivial

/-- C80: whatever the method, restricted values lie in the given interval, one for each value. -/
theorem C80_restrict (m : Method) (ys : List ℝ) {mn mx : ℝ} (h : mn ≤ mx)
    (amin amax : Option ℝ) (_hr : m.Regular ys mn mx amin amax) :
    (restrict ys mn mx amin amax m).length = ys.length ∧
    ∀ y ∈ restrict ys mn mx amin amax m, mn ≤ y ∧ y ≤ mx := by
  cases m with
  | minmax =>
    refine ⟨by simp [restrict, _normalize], fun y hy => ?_⟩
    simp only [restrict, _normalize, List.map_map, List.mem_map, Function.comp] at hy
    obtain ⟨z, hz, rfl⟩ := hy
    obtain ⟨a, b⟩ := shift_unit (lowest_le amin ys z hz) (le_highest amax ys z hz)
    exact shift_inv_bounds h a b
  | clip =>
    refine ⟨by simp [restrict], fun y hy => ?_⟩
    simp only [restrict, List.mem_map] at hy
    obtain ⟨z, hz, rfl⟩ := hy
    exact ⟨le_min (le_max_right _ _) h, min_le_right _ _⟩
  | smoothclamp =>
    refine ⟨by simp [restrict], fun y hy => ?_⟩
    simp only [restrict, List.mem_map] at hy
    obtain ⟨z, hz, rfl⟩ := hy
    unfold _smoothclamp
    dsimp only
    apply clamp_bounds h
    · split_ifs with h1 h2
      · exact le_rfl
      · have := not_lt.1 h1
        nlinarith [sq_nonneg ((z - mn) / (mx - mn))]
      · norm_num
    · split_ifs with h1 h2
      · norm_num
      · have := not_lt.1 h1
        set t := (z - mn) / (mx - mn)
        nlinarith [sq_nonneg (1 - t), mul_nonneg this (sq_nonneg (1 - t))]
      · exact le_rfl
  | sigmoidclamp =>
    refine ⟨by simp [restrict], fun y hy => ?_⟩
    simp only [restrict, List.mem_map] at hy
    obtain ⟨z, hz, rfl⟩ := hy
    unfold _sigmoidclamp
    dsimp only
    have : (0 : ℝ) < 200 ^ (-((z - mn) / (mx - mn)) + 0.5) := Real.rpow_pos_of_pos (by norm_num) _
    exact clamp_bounds h (by positivity) (inv_le_one_of_one_le₀ (by linarith))
  | sigmoid s =>
    refine ⟨by simp [restrict, _normalize], fun y hy => ?_⟩
    simp only [restrict, List.mem_map] at hy
    obtain ⟨z, ⟨w, -, rfl⟩, rfl⟩ := hy
    obtain ⟨a, b⟩ := sigmoid_unit w
    exact shift_inv_bounds h a.le b.le

/-- C80: values within the declared actual bounds are scaled linearly from these to the new bounds by
the method `minmax`, so their order is kept and the ends are reached. -/
theorem C80_minmax {ys : List ℝ} {mn mx a b : ℝ} (hab : a < b) (h : ∀ y ∈ ys, a ≤ y ∧ y ≤ b) :
    restrict ys mn mx (some a) (some b) .minmax =
      ys.map fun y => mn + (mx - mn) * ((y - a) / (b - a)) := by
  unfold restrict _normalize
  dsimp only
  rw [lowest_some fun y hy => (h y hy).1, highest_some fun y hy => (h y hy).2, List.map_map]
  apply List.map_congr_left
  intro y _
  simp only [Function.comp, _shift, _shift_inv]
  ring

/-- C80: `clip` keeps what is already in the interval. -/
theorem C80_clip {ys : List ℝ} {mn mx : ℝ} (h : ∀ y ∈ ys, mn ≤ y ∧ y ≤ mx) (a b : Option ℝ) :
    restrict ys mn mx a b .clip = ys := by
  unfold restrict
  dsimp only
  conv_rhs => rw [← List.map_id ys]
  apply List.map_congr_left
  intro y hy
  rw [max_eq_left (h y hy).1, min_eq_left (h y hy).2]
  rfl

/-- C80: the five names are the only methods. -/
theorem C80_method (method : String) (s : ℝ) : (∃ m, Method.ofName method s = .ok m) ↔
    method ∈ ["minmax", "clip", "smoothclamp", "sigmoidclamp", "sigmoid"] := by
  unfold Method.ofName
  constructor
  · rintro ⟨m, h⟩
    split_ifs at h <;> simp_all
  · intro h
    split_ifs with h1 h2 h3 h4 h5
    · exact ⟨_, rfl⟩
    · exact ⟨_, rfl⟩
    · exact ⟨_, rfl⟩
    · exact ⟨_, rfl⟩
    · exact ⟨_, rfl⟩
    · simp_all

theorem restrict1_bounds (m : Method) (y : ℝ) {mn mx : ℝ} (h : mn ≤ mx) (amin amax : Option ℝ)
    (hr : m.Regular [y] mn mx amin amax) :
    mn ≤ restrict1 y mn mx amin amax m ∧ restrict1 y mn mx amin amax m ≤ mx := by
  obtain ⟨h1, h2⟩ := C80_restrict m [y] h amin amax hr
  unfold restrict1
  match restrict [y] mn mx amin amax m, h1, h2 with
  | [z], _, h2 => exact h2 z (by simp)

/-! ## randomly drawn functions -/

theorem interp_eq {x : ℝ} {xp fp : List ℝ} (hx : ¬ x < jaxGet 0 xp 0) : interp x xp fp =
    interpWith (two_point_interp .linear) (fun _ a => a) x xp fp := by
  unfold interp interpWith
  dsimp only
  rw [if_neg hx]
  rfl

theorem interp_bounds {xp fp : List ℝ} (hs : xp.Pairwise (· ≤ ·)) (hl : fp.length = xp.length)
    (h0 : 0 < xp.length) (x : ℝ) {lo hi : ℝ} (hb : ∀ y ∈ fp, lo ≤ y ∧ y ≤ hi) :
    lo ≤ interp x xp fp ∧ interp x xp fp ≤ hi := by
  by_cases hx : x < jaxGet 0 xp 0
  · have e : interp x xp fp = jaxGet 0 fp 0 := by
      unfold interp
      dsimp only
      rw [if_pos hx]
    rw [e]
    exact hb _ (jaxGet_mem 0 fp 0 (by rintro rfl; simp at hl; omega))
  · rw [interp_eq hx]
    have hx' : xp[0] ≤ x := by
      have : jaxGet 0 xp 0 = xp[0] := jaxGet_nat 0 xp h0
      rw [this] at hx
      exact not_lt.1 hx
    exact interpWith_bounds _ (two_point_interp_twoPoint .linear) _ (fun _ => UnitMap.id) xp fp hs hl
      h0 x lo hi hx' hb

/-- C80: the grid of flexion angles is increasing, begins at the minimum and ends at the maximum. -/
theorem linspace_spec {a b : ℝ} (h : a < b) {n : Nat} (hn : 2 ≤ n) :
    (linspace a b n).length = n ∧ (linspace a b n).Pairwise (· < ·) ∧
      (linspace a b n).head? = some a ∧ (linspace a b n).getLast? = some b := by
  have hn' : (0 : ℝ) < n - 1 := by
    have : (2 : ℝ) ≤ n := by exact_mod_cast hn
    linarith
  refine ⟨by simp [linspace], ?_, ?_, ?_⟩
  · unfold linspace
    rw [List.pairwise_map]
    refine List.pairwise_lt_range.imp ?_
    intro i j hij
    have h1 : (i : ℝ) < j := by exact_mod_cast hij
    have h2 : 0 < (b - a) / ((n : ℝ) - 1) := div_pos (by linarith) hn'
    nlinarith
  · obtain ⟨k, rfl⟩ : ∃ k, n = k + 1 := ⟨n - 1, by omega⟩
    simp [linspace, List.range_succ_eq_map]
  · obtain ⟨k, rfl⟩ : ∃ k, n = k + 1 := ⟨n - 1, by omega⟩
    have hk : (k : ℝ) ≠ 0 := by
      have : 1 ≤ k := by omega
      exact_mod_cast (by omega : k ≠ 0)
    simp [linspace, List.range_succ]
    field_simp
    ring

/-- C80: a function drawn from a Gaussian process stays within its bounds at every angle, also
outside the flexion range. -/
theorem C80_gp {mvn : K → List ℝ → List (List ℝ) → List ℝ}
    (hm : ∀ k m c, (mvn k m c).length = m.length) (l : ℝ) {g : ℝ} (hg : 0 < g) {xs : List ℝ}
    (hx : xs.Pairwise (· < ·)) (h0 : 0 < xs.length) {mn mx : ℝ} (h : mn < mx) (m : Cells) (key : K)
    (q : ℝ) :
    let f := (GP_DrawFnPair mvn l g xs mn mx m).1
    mn ≤ f.apply (f.init key) q ∧ f.apply (f.init key) q ≤ mx := by
  show mn ≤ interp q xs (_gp_draw_and_rom mvn key xs none l mn mx (-g) g) ∧
    interp q xs (_gp_draw_and_rom mvn key xs none l mn mx (-g) g) ≤ mx
  obtain ⟨h1, h2⟩ := C80_restrict .minmax (_gp_draw mvn key xs none l) h.le (some (-g)) (some g)
    (regular_of h (by linarith))
  refine interp_bounds (hx.imp le_of_lt) ?_ h0 q h2
  refine h1.trans ?_
  simp [_gp_draw, hm]

/-- C80: the covariances of the process are symmetric, one on the diagonal, and between zero and
one. -/
theorem C80_gp_covariance (xs : List ℝ) (l : ℝ) {i j : Nat} (hi : i < xs.length)
    (hj : j < xs.length) :
    let c := fun i j => ((_gp_K (fun a b => _rbf_kernel a b l) xs 0).getD i []).getD j 0
    c i j = c j i ∧ c i i = 1 ∧ 0 < c i j ∧ c i j ≤ 1 := by
  have e : ∀ {i j : Nat}, i < xs.length → j < xs.length →
      ((_gp_K (fun a b => _rbf_kernel a b l) xs 0).getD i []).getD j 0 =
        _rbf_kernel (xs.getD i 0) (xs.getD j 0) l := by
    intro i j hi hj
    simp [_gp_K, List.getD_eq_getElem?_getD, hi, hj]
  dsimp only
  rw [e hi hj, e hj hi, e hi hi]
  unfold _rbf_kernel
  refine ⟨by congr 2; ring, by simp, Real.exp_pos _, ?_⟩
  rw [Real.exp_le_one_iff]
  exact div_nonpos_of_nonpos_of_nonneg (by nlinarith [sq_nonneg (xs.getD i 0 - xs.getD j 0)])
    (by positivity)

/-- the bounds of a drawn polynomial differ -/
theorem poly_init_regular (R : Rng K) {scale : K → ℝ} (hs : ∀ k, 0 < scale k)
    (powers : List Nat) {xs : List ℝ} (hx : xs ≠ []) (a b : ℝ) (key : K) :
    (poly_init R scale powers xs a b key).amin < (poly_init R scale powers xs a b key).amax := by
  unfold poly_init
  dsimp only
  set values := xs.map fun x => _apply_poly_factors powers _ (x - _)
  have hle : lowest none values ≤ highest none values := by
    obtain ⟨x, l, rfl⟩ := List.exists_cons_of_ne_nil hx
    have : values ≠ [] := by simp [values]
    obtain ⟨y, hy⟩ := List.exists_mem_of_ne_nil _ this
    exact (lowest_le none values y hy).trans (le_highest none values y hy)
  have := hs (R.split key 3 2)
  have : 0 < (highest none values + 1e-6 - lowest none values) * scale (R.split key 3 2) :=
    mul_pos (by linarith) this
  linarith

theorem poly_apply_bounds {powers : List Nat} {mn mx : ℝ} (h : mn < mx) (method : Method)
    {p : PolyParams} (hp : p.amin < p.amax) (q : ℝ) :
    mn ≤ poly_apply powers mn mx method p q ∧ poly_apply powers mn mx method p q ≤ mx :=
  restrict1_bounds _ _ h.le _ _ (regular_of h hp)

/-- C80: a polynomial that is not centred stays within its bounds at every angle. -/
theorem C80_poly (R : Rng K) {scale : K → ℝ} (hs : ∀ k, 0 < scale k) (cell order : Nat)
    (include_bias : Bool) {xs : List ℝ} (hx : xs ≠ []) {mn mx : ℝ} (h : mn < mx) (m : Cells)
    (key : K) (q : ℝ) :
    let f := (Polynomial_DrawnFnPair R scale cell order false include_bias xs mn mx m).1
    mn ≤ f.apply (f.init key) q ∧ f.apply (f.init key) q ≤ mx :=
  poly_apply_bounds h _ (poly_init_regular R hs _ hx _ _ key) q

/-- the centre that a factory uses -/
noncomputable def centreIn (m : Cells) (cell : Nat) (a b : ℝ) : ℝ := (m cell).getD ((a + b) / 2)

theorem centreOf_fst (m : Cells) (cell : Nat) (a b : ℝ) :
    (centreOf cell a b m).1 = centreIn m cell a b := by
  unfold centreOf centreIn
  cases m cell <;> rfl

/-- C80: a centred polynomial is zero at the centre, and its size is at most the width of the bounds;
this is all that the bounds mean then. -/
theorem C80_poly_centred (R : Rng K) {scale : K → ℝ} (hs : ∀ k, 0 < scale k) (cell order : Nat)
    (include_bias : Bool) {xs : List ℝ} (hx : xs ≠ []) {mn mx : ℝ} (h : mn < mx) (m : Cells)
    (key : K) :
    let f := (Polynomial_DrawnFnPair R scale cell order true include_bias xs mn mx m).1
    f.apply (f.init key) (centreIn m cell (lowest none xs) (highest none xs)) = 0 ∧
      ∀ q, |f.apply (f.init key) q| ≤ mx - mn := by
  have e : ∀ q, (Polynomial_DrawnFnPair R scale cell order true include_bias xs mn mx m).1.apply
      ((Polynomial_DrawnFnPair R scale cell order true include_bias xs mn mx m).1.init key) q =
      poly_apply (powersOf order include_bias) mn mx (if order = 0 then Method.clip else .minmax)
        (poly_init R scale (powersOf order include_bias) xs (if order = 0 then mn else -1)
          (if order = 0 then mx else 1) key) q -
      poly_apply (powersOf order include_bias) mn mx (if order = 0 then Method.clip else .minmax)
        (poly_init R scale (powersOf order include_bias) xs (if order = 0 then mn else -1)
          (if order = 0 then mx else 1) key)
          (centreOf cell (lowest none xs) (highest none xs) m).1 := fun q => rfl
  dsimp only
  refine ⟨?_, fun q => ?_⟩
  · rw [e, centreOf_fst, sub_self]
  · rw [e]
    have hr := poly_init_regular R hs (powersOf order include_bias) hx (if order = 0 then mn else -1)
      (if order = 0 then mx else 1) key
    have h1 := poly_apply_bounds (powers := powersOf order include_bias) h
      (if order = 0 then Method.clip else .minmax) hr q
    have h2 := poly_apply_bounds (powers := powersOf order include_bias) h
      (if order = 0 then Method.clip else .minmax) hr
      (centreOf cell (lowest none xs) (highest none xs) m).1
    rw [abs_le]
    constructor <;> linarith [h1.1, h1.2, h2.1, h2.2]

/-- C80: the network stays strictly within its bounds; centred, it is zero at the centre and smaller
than the width of the bounds. -/
theorem C80_mlp (mlp_init : K → P) (mlp : P → ℝ → ℝ) (cell : Nat) (xs : List ℝ) {mn mx : ℝ}
    (h : mn < mx) (m : Cells) (p : P) :
    (∀ q, mn < (MLP_DrawnFnPair mlp_init mlp cell false xs mn mx m).1.apply p q ∧
      (MLP_DrawnFnPair mlp_init mlp cell false xs mn mx m).1.apply p q < mx) ∧
    (MLP_DrawnFnPair mlp_init mlp cell true xs mn mx m).1.apply p
      (centreIn m cell (lowest none xs) (highest none xs)) = 0 ∧
    ∀ q, |(MLP_DrawnFnPair mlp_init mlp cell true xs mn mx m).1.apply p q| < mx - mn := by
  have hb : ∀ y, mn < _shift_inv (suntay.sigmoid y) mn mx ∧
      _shift_inv (suntay.sigmoid y) mn mx < mx := by
    intro y
    obtain ⟨h1, h2⟩ := sigmoid_unit y
    unfold _shift_inv
    constructor <;> nlinarith
  have e : ∀ q, (MLP_DrawnFnPair mlp_init mlp cell true xs mn mx m).1.apply p q =
      _shift_inv (suntay.sigmoid (mlp p (_shift q (lowest none xs) (highest none xs) - 0.5))) mn mx -
      _shift_inv (suntay.sigmoid (mlp p (_shift (centreOf cell (lowest none xs) (highest none xs) m).1
        (lowest none xs) (highest none xs) - 0.5))) mn mx := fun q => rfl
  refine ⟨fun q => hb _, ?_, fun q => ?_⟩
  · rw [e, centreOf_fst, sub_self]
  · rw [e, abs_lt]
    constructor <;> linarith [(hb (mlp p (_shift q (lowest none xs) (highest none xs) - 0.5))).1,
      (hb (mlp p (_shift q (lowest none xs) (highest none xs) - 0.5))).2,
      (hb (mlp p (_shift (centreOf cell (lowest none xs) (highest none xs) m).1
        (lowest none xs) (highest none xs) - 0.5))).1,
      (hb (mlp p (_shift (centreOf cell (lowest none xs) (highest none xs) m).1
        (lowest none xs) (highest none xs) - 0.5))).2]

theorem sigmoid_lt {a b : ℝ} (h : a < b) : suntay.sigmoid a < suntay.sigmoid b := by
  unfold suntay.sigmoid
  have := Real.exp_lt_exp.2 (neg_lt_neg h)
  exact one_div_lt_one_div_of_lt (by positivity) (by linarith)

/-- C80 fails for centred functions: a centred network with bounds 0 and 1 is negative. -/
theorem C80_centred_fails : ∃ q : ℝ,
    (MLP_DrawnFnPair (K := Unit) (fun _ => ()) (fun _ x => x) 0 true [0, 1] 0 1
      (fun _ => none)).1.apply () q < 0 := by
  refine ⟨0, ?_⟩
  have e : (MLP_DrawnFnPair (K := Unit) (fun _ => ()) (fun _ x => x) 0 true [0, 1] 0 1
      (fun _ => none)).1.apply () 0 =
      _shift_inv (suntay.sigmoid (_shift 0 (lowest none [0, 1]) (highest none [0, 1]) - 0.5)) 0 1 -
      _shift_inv (suntay.sigmoid (_shift ((lowest none [0, 1] + highest none [0, 1]) / 2)
        (lowest none [0, 1]) (highest none [0, 1]) - 0.5)) 0 1 := rfl
  have h1 : lowest none [0, 1] = 0 := by simp [lowest]
  have h2 : highest none [0, 1] = 1 := by simp [highest]
  rw [e, h1, h2]
  have := sigmoid_lt (a := _shift 0 0 1 - 0.5) (b := _shift ((0 + 1) / 2) 0 1 - 0.5)
    (by unfold _shift; norm_num)
  unfold _shift_inv
  linarith

/-- C80 fails for constant functions: the bounds are ignored. -/
theorem C80_constant_fails (mn mx : ℝ) : ∃ v : ℝ, ∀ (xs : List ℝ) (m : Cells) (q : ℝ),
    mx < (ConstantValue_DrawnFnPair (K := Unit) v xs mn mx m).1.apply () q :=
  ⟨mx + 1, fun _ _ _ => by show mx < mx + 1; linarith⟩

theorem C80_constant (v : ℝ) (xs : List ℝ) (mn mx : ℝ) (m : Cells) (q : ℝ) :
    (ConstantValue_DrawnFnPair (K := K) v xs mn mx m).1.apply () q = v := rfl

/-- C80: the first call of a factory centres at the middle of its flexion range. -/
theorem C80_centre_first (mlp_init : K → P) (mlp : P → ℝ → ℝ) (cell : Nat) (xs : List ℝ) (mn mx : ℝ)
    {m : Cells} (hm : m cell = none) (p : P) :
    (MLP_DrawnFnPair mlp_init mlp cell true xs mn mx m).1.apply p
      ((lowest none xs + highest none xs) / 2) = 0 ∧
    (MLP_DrawnFnPair mlp_init mlp cell true xs mn mx m).2 cell =
      some ((lowest none xs + highest none xs) / 2) := by
  have e : centreOf cell (lowest none xs) (highest none xs) m =
      ((lowest none xs + highest none xs) / 2, fun i => if i = cell then
        some ((lowest none xs + highest none xs) / 2) else m i) := by
    simp [centreOf, hm]
  have e1 : (MLP_DrawnFnPair mlp_init mlp cell true xs mn mx m).2 =
    (centreOf cell (lowest none xs) (highest none xs) m).2 := rfl
  constructor
  · have e2 : ∀ q, (MLP_DrawnFnPair mlp_init mlp cell true xs mn mx m).1.apply p q =
      _shift_inv (suntay.sigmoid (mlp p (_shift q (lowest none xs) (highest none xs) - 0.5))) mn mx -
      _shift_inv (suntay.sigmoid (mlp p (_shift (centreOf cell (lowest none xs) (highest none xs) m).1
        (lowest none xs) (highest none xs) - 0.5))) mn mx := fun q => rfl
    rw [e2, e, sub_self]
  · rw [e1, e]
    simp

/-- C80 fails for a factory that is used for two joints: the second joint, whose flexion range is
2 to 3, is not centred at 2.5, because the factory kept the centre of the first, 0.5. -/
theorem C80_centre_fails :
    let fac := MLP_DrawnFnPair (K := Unit) (fun _ => ()) (fun _ x => x) 0 true
    let m := (fac [0, 1] 0 1 (fun _ => none)).2
    (fac [2, 3] 0 1 m).1.apply () 2.5 ≠ 0 ∧ (fac [2, 3] 0 1 m).1.apply () 0.5 = 0 := by
  have h1 : lowest none [0, 1] = 0 := by simp [lowest]
  have h2 : highest none [0, 1] = 1 := by simp [highest]
  have h3 : lowest none [2, 3] = 2 := by
    simp [lowest]; norm_num
  have h4 : highest none [2, 3] = 3 := by
    simp [highest]; norm_num
  have e2 : ∀ q, (MLP_DrawnFnPair (K := Unit) (fun _ => ()) (fun _ x => x) 0 true [2, 3] 0 1
      (MLP_DrawnFnPair (K := Unit) (fun _ => ()) (fun _ x => x) 0 true [0, 1] 0 1
        (fun _ => none)).2).1.apply () q =
      _shift_inv (suntay.sigmoid (_shift q (lowest none [2, 3]) (highest none [2, 3]) - 0.5)) 0 1 -
      _shift_inv (suntay.sigmoid (_shift ((lowest none [0, 1] + highest none [0, 1]) / 2)
        (lowest none [2, 3]) (highest none [2, 3]) - 0.5)) 0 1 := fun q => rfl
  dsimp only
  rw [e2, e2, h1, h2, h3, h4]
  constructor
  · have := sigmoid_lt (a := _shift ((0 + 1) / 2) 2 3 - 0.5) (b := _shift 2.5 2 3 - 0.5)
      (by unfold _shift; norm_num)
    unfold _shift_inv
    intro h
    linarith
  · rw [show ((0 : ℝ) + 1) / 2 = 0.5 by norm_num, sub_self]

/-- C80: the factor by which the bounds of a polynomial are widened: at least one with "normal";
positive with "uniform", but then it can be smaller than one; other names are an error. -/
theorem C80_scale {R : Rng K} (hR : R.Ok) (method : String) (key : K) :
    (method = "normal" → ∃ x, _scale_delta R method key = .ok x ∧ 1 ≤ x) ∧
    (method = "uniform" → ∃ x, _scale_delta R method key = .ok x ∧ 100 / 101 < x ∧ x ≤ 100) ∧
    (method ≠ "normal" → method ≠ "uniform" → _scale_delta R method key = .error .notImplemented) := by
  refine ⟨?_, ?_, ?_⟩
  · rintro rfl
    exact ⟨_, rfl, le_max_right _ _⟩
  · rintro rfl
    refine ⟨_, rfl, ?_, ?_⟩
    · obtain ⟨h1, h2⟩ := hR.uniform key
      rw [lt_div_iff₀ (by norm_num; linarith)]
      norm_num
      linarith
    · obtain ⟨h1, h2⟩ := hR.uniform key
      rw [div_le_iff₀ (by norm_num; linarith)]
      norm_num
      linarith
  · intro h1 h2
    unfold _scale_delta
    rw [if_neg h1, if_neg h2]

/-- C80: the parameters of a joint have the keys of the functions, and every function gets a key of
its own: the second half of what the functions before it left. -/
theorem C80_params (R : Rng K) (sconfig : SuntayConfig K P) (m : Cells) (key : K) :
    ∃ s1 beta s2 gamma s3 : DrawnFnPair K P,
      (draw_fn_pairs sconfig m).1 =
        [("ys_S1", s1), ("ys_beta", beta), ("ys_S2", s2), ("ys_gamma", gamma), ("ys_S3", s3)] ∧
      _init_joint_params_suntay R (draw_fn_pairs sconfig m).1 key =
        let next := fun k => R.split k 2 0
        let use := fun k => R.split k 2 1
        [("ys_S1", s1.init (use key)), ("ys_beta", beta.init (use (next key))),
          ("ys_S2", s2.init (use (next (next key)))),
          ("ys_gamma", gamma.init (use (next (next (next key))))),
          ("ys_S3", s3.init (use (next (next (next (next key))))))] :=
  ⟨_, _, _, _, _, rfl, rfl⟩

/-- functions of the factory stay within their bounds -/
def suntay.Bounded (fac : DrawnFnPairFactory K P) : Prop :=
  ∀ (xs : List ℝ), xs.Pairwise (· < ·) → 0 < xs.length → ∀ (mn mx : ℝ), mn < mx →
    ∀ (m : Cells) (key : K) (q : ℝ),
      let f := (fac xs mn mx m).1
      mn ≤ f.apply (f.init key) q ∧ f.apply (f.init key) q ≤ mx

/-- C80: with bounded functions, every drawn joint has translations and angles within the bounds of
its config, at every flexion angle; adduction is the negated drawn angle. -/
theorem C80_ranges (R : Rng K) (c : SuntayConfig K P) (m : Cells) (key : K) (q : ℝ)
    (h1 : suntay.Bounded c.flexion_pos_factory) (h2 : suntay.Bounded c.abduction_rot_factory)
    (h3 : suntay.Bounded c.abduction_pos_factory) (h4 : suntay.Bounded c.external_rot_factory)
    (h5 : suntay.Bounded c.external_pos_factory)
    (hf : c.flexion_rot_min < c.flexion_rot_max) (hn : 2 ≤ c.num_points)
    (b1 : c.flexion_pos_min < c.flexion_pos_max) (b2 : c.abduction_rot_min < c.abduction_rot_max)
    (b3 : c.abduction_pos_min < c.abduction_pos_max) (b4 : c.external_rot_min < c.external_rot_max)
    (b5 : c.external_pos_min < c.external_pos_max) :
    let pairs := (draw_fn_pairs c m).1
    let (alpha, beta, gamma, S) :=
      _alpha_beta_gamma_S pairs [q] (_init_joint_params_suntay R pairs key)
    alpha = q ∧
    (c.flexion_pos_min ≤ S.x ∧ S.x ≤ c.flexion_pos_max) ∧
    (c.abduction_rot_min ≤ Real.pi / 2 - beta ∧ Real.pi / 2 - beta ≤ c.abduction_rot_max) ∧
    (c.abduction_pos_min ≤ S.y ∧ S.y ≤ c.abduction_pos_max) ∧
    (c.external_rot_min ≤ gamma ∧ gamma ≤ c.external_rot_max) ∧
    (c.external_pos_min ≤ S.z ∧ S.z ≤ c.external_pos_max) := by
  obtain ⟨l1, l2, -, -⟩ := linspace_spec hf hn
  have l3 : 0 < (linspace c.flexion_rot_min c.flexion_rot_max c.num_points).length := by omega
  refine ⟨rfl, h1 _ l2 l3 _ _ b1 _ _ q, ?_, h3 _ l2 l3 _ _ b3 _ _ q, h4 _ l2 l3 _ _ b4 _ _ q,
    h5 _ l2 l3 _ _ b5 _ _ q⟩
  have := h2 _ l2 l3 _ _ b2
    ((c.flexion_pos_factory (linspace c.flexion_rot_min c.flexion_rot_max c.num_points)
      c.flexion_pos_min c.flexion_pos_max m).2) (R.split (R.split key 2 0) 2 1) q
  dsimp only at this
  constructor
  · refine this.1.trans (le_of_eq ?_)
    show _ = Real.pi / 2 - (Real.pi / 2 + -_)
    rw [sub_add_cancel_left, neg_neg]
    rfl
  · refine le_trans (le_of_eq ?_) this.2
    show Real.pi / 2 - (Real.pi / 2 + -_) = _
    rw [sub_add_cancel_left, neg_neg]
    rfl

/-- the three bounded kinds of functions -/
theorem gp_bounded {mvn : K → List ℝ → List (List ℝ) → List ℝ}
    (hm : ∀ k m c, (mvn k m c).length = m.length) (l : ℝ) {g : ℝ} (hg : 0 < g) :
    suntay.Bounded (GP_DrawFnPair mvn l g) :=
  fun _ hx h0 _ _ h m key q => C80_gp hm l hg hx h0 h m key q

theorem poly_bounded (R : Rng K) {scale : K → ℝ} (hs : ∀ k, 0 < scale k) (cell order : Nat)
    (b : Bool) : suntay.Bounded (Polynomial_DrawnFnPair R scale cell order false b) :=
  fun _ _ h0 _ _ h m key q => C80_poly R hs cell order b (List.length_pos_iff.1 h0) h m key q

theorem mlp_bounded (mlp_init : K → P) (mlp : P → ℝ → ℝ) (cell : Nat) :
    suntay.Bounded (MLP_DrawnFnPair mlp_init mlp cell false) :=
  fun xs _ _ _ _ h m key q =>
    ⟨((C80_mlp mlp_init mlp cell xs h m (mlp_init key)).1 q).1.le,
      ((C80_mlp mlp_init mlp cell xs h m (mlp_init key)).1 q).2.le⟩

/-- the defaults of the config, with networks -/
noncomputable def netConfig : SuntayConfig Unit Unit where
  flexion_pos_factory := MLP_DrawnFnPair (fun _ => ()) (fun _ x => x) 0 false
  abduction_rot_factory := MLP_DrawnFnPair (fun _ => ()) (fun _ x => x) 1 false
  abduction_pos_factory := MLP_DrawnFnPair (fun _ => ()) (fun _ x => x) 2 false
  external_rot_factory := MLP_DrawnFnPair (fun _ => ()) (fun _ x => x) 3 false
  external_pos_factory := MLP_DrawnFnPair (fun _ => ()) (fun _ x => x) 4 false

/-- they meet the hypotheses of `C80_ranges` -/
example (R : Rng Unit) (q : ℝ) := C80_ranges R netConfig (fun _ => none) () q
  (mlp_bounded (K := Unit) (P := Unit) (fun _ => ()) (fun _ x => x) 0)
  (mlp_bounded (K := Unit) (P := Unit) (fun _ => ()) (fun _ x => x) 1)
  (mlp_bounded (K := Unit) (P := Unit) (fun _ => ()) (fun _ x => x) 2)
  (mlp_bounded (K := Unit) (P := Unit) (fun _ => ()) (fun _ x => x) 3)
  (mlp_bounded (K := Unit) (P := Unit) (fun _ => ()) (fun _ x => x) 4)
  (by simp only [netConfig, suntay.deg2rad]; nlinarith [Real.pi_pos]) (by norm_num [netConfig])
  (by norm_num [netConfig])
  (by simp only [netConfig, suntay.deg2rad]; nlinarith [Real.pi_pos]) (by norm_num [netConfig])
  (by simp only [netConfig, suntay.deg2rad]; nlinarith [Real.pi_pos]) (by norm_num [netConfig])

/-! ## the rotation -/

/-- right-handed rotations about the three axes -/
noncomputable def suntay.Rx (φ : ℝ) : Mat3 ℝ :=
  ⟨1, 0, 0, 0, Real.cos φ, -Real.sin φ, 0, Real.sin φ, Real.cos φ⟩

noncomputable def suntay.Ry (φ : ℝ) : Mat3 ℝ :=
  ⟨Real.cos φ, 0, Real.sin φ, 0, 1, 0, -Real.sin φ, 0, Real.cos φ⟩

noncomputable def suntay.Rz (φ : ℝ) : Mat3 ℝ :=
  ⟨Real.cos φ, -Real.sin φ, 0, Real.sin φ, Real.cos φ, 0, 0, 0, 1⟩

/-- C80: the matrix turns by flexion about x, then by `β - π/2` about y, then by external rotation
about z. -/
theorem C80_rotation (alpha beta gamma : ℝ) :
    _suntay_rotation_matrix_R_transpose_eq26 alpha beta gamma =
      (suntay.Rz gamma).mul ((suntay.Ry (beta - Real.pi / 2)).mul (suntay.Rx alpha)) := by
  unfold _suntay_rotation_matrix_R_transpose_eq26 suntay.Rz suntay.Ry suntay.Rx
  simp only [Mat3.transpose, Mat3.mul, Real.cos_sub_pi_div_two, Real.sin_sub_pi_div_two]
  ext <;> simp <;> ring

/-- the quaternion of the three rotations; `a` is the abduction angle `β - π/2` -/
noncomputable def suntay.turns (alpha a gamma : ℝ) : Quat ℝ :=
  quat_mul (quat_mul (rotQuat ⟨0, 0, 1⟩ gamma) (rotQuat ⟨0, 1, 0⟩ a)) (rotQuat ⟨1, 0, 0⟩ alpha)

theorem rotQuat_isUnit {k : Vec3 ℝ} (hk : k.x ^ 2 + k.y ^ 2 + k.z ^ 2 = 1) (φ : ℝ) :
    (rotQuat k φ).IsUnit := by
  show (rotQuat k φ).normSq = 1
  simp only [Quat.normSq, rotQuat]
  linear_combination (Real.sin (φ / 2)) ^ 2 * hk + Real.sin_sq_add_cos_sq (φ / 2)

theorem half_cos (φ : ℝ) : Real.cos φ = Real.cos (φ / 2) ^ 2 - Real.sin (φ / 2) ^ 2 := by
  have := Real.cos_two_mul' (φ / 2)
  rwa [show 2 * (φ / 2) = φ by ring] at this

theorem half_sin (φ : ℝ) : Real.sin φ = 2 * Real.sin (φ / 2) * Real.cos (φ / 2) := by
  have := Real.sin_two_mul (φ / 2)
  rwa [show 2 * (φ / 2) = φ by ring] at this

theorem matrix_x (φ : ℝ) : quat_to_3x3 (rotQuat ⟨1, 0, 0⟩ φ) = suntay.Rx φ := by
  rw [to3x3_of_unit (rotQuat_isUnit (by norm_num) φ)]
  have h := Real.sin_sq_add_cos_sq (φ / 2)
  unfold suntay.Rx
  rw [half_cos φ, half_sin φ]
  ext <;> simp [rotQuat] <;> first | ring1 | linear_combination -h

theorem matrix_y (φ : ℝ) : quat_to_3x3 (rotQuat ⟨0, 1, 0⟩ φ) = suntay.Ry φ := by
  rw [to3x3_of_unit (rotQuat_isUnit (by norm_num) φ)]
  have h := Real.sin_sq_add_cos_sq (φ / 2)
  unfold suntay.Ry
  rw [half_cos φ, half_sin φ]
  ext <;> simp [rotQuat] <;> first | ring1 | linear_combination -h

theorem matrix_z (φ : ℝ) : quat_to_3x3 (rotQuat ⟨0, 0, 1⟩ φ) = suntay.Rz φ := by
  rw [to3x3_of_unit (rotQuat_isUnit (by norm_num) φ)]
  have h := Real.sin_sq_add_cos_sq (φ / 2)
  unfold suntay.Rz
  rw [half_cos φ, half_sin φ]
  ext <;> simp [rotQuat] <;> first | ring1 | linear_combination -h

theorem turns_unit (alpha a gamma : ℝ) : (suntay.turns alpha a gamma).IsUnit :=
  (C12_unit_closed (C12_unit_closed (rotQuat_isUnit (by norm_num) _)
    (rotQuat_isUnit (by norm_num) _)).1 (rotQuat_isUnit (by norm_num) _)).1

theorem mat_assoc (A B C : Mat3 ℝ) : (A.mul B).mul C = A.mul (B.mul C) := by
  simp only [Mat3.mul]
  ext <;> simp <;> ring

/-- C80: the matrix is the one of the quaternion of the three rotations; it is orthogonal with
determinant one. -/
theorem C80_rotation_matrix (alpha beta gamma : ℝ) :
    _suntay_rotation_matrix_R_transpose_eq26 alpha beta gamma =
      quat_to_3x3 (suntay.turns alpha (beta - Real.pi / 2) gamma) ∧
    (_suntay_rotation_matrix_R_transpose_eq26 alpha beta gamma).IsRotation := by
  have e : _suntay_rotation_matrix_R_transpose_eq26 alpha beta gamma =
      quat_to_3x3 (suntay.turns alpha (beta - Real.pi / 2) gamma) := by
    rw [C80_rotation, suntay.turns, (C13_matrix_mul (C12_unit_closed
      (rotQuat_isUnit (by norm_num) _) (rotQuat_isUnit (by norm_num) _)).1
      (rotQuat_isUnit (by norm_num) _)).1, (C13_matrix_mul (rotQuat_isUnit (by norm_num) _)
      (rotQuat_isUnit (by norm_num) _)).1, matrix_x, matrix_y, matrix_z, mat_assoc]
  refine ⟨e, ?_⟩
  rw [e]
  exact C13_matrix_is_rotation (turns_unit _ _ _)

theorem turns_w (alpha a gamma : ℝ) : (suntay.turns alpha a gamma).w =
    Real.cos (gamma / 2) * (Real.cos (alpha / 2) * Real.cos (a / 2)) +
      Real.sin (gamma / 2) * (Real.sin (alpha / 2) * Real.sin (a / 2)) := by
  simp [suntay.turns, quat_mul, rotQuat]
  ring

/-- the turn is less than half if flexion and abduction are together, and external rotation is at
most a quarter -/
theorem turns_w_pos {alpha a gamma : ℝ} (h : |alpha| + |a| < Real.pi) (hg : |gamma| ≤ Real.pi / 2) :
    0 < (suntay.turns alpha a gamma).w := by
  have hp := Real.pi_pos
  rw [turns_w]
  have ha := abs_nonneg alpha
  have ha' := abs_nonneg a
  have e1 : Real.cos (|alpha| / 2) = Real.cos (alpha / 2) := by
    rw [← Real.cos_abs (alpha / 2), abs_div, abs_of_pos (by norm_num : (0 : ℝ) < 2)]
  have e2 : Real.cos (|a| / 2) = Real.cos (a / 2) := by
    rw [← Real.cos_abs (a / 2), abs_div, abs_of_pos (by norm_num : (0 : ℝ) < 2)]
  have sabs : ∀ x : ℝ, |x| ≤ Real.pi → Real.sin (|x| / 2) = |Real.sin (x / 2)| := by
    intro x hx
    have h0 : 0 ≤ Real.sin (|x| / 2) :=
      Real.sin_nonneg_of_nonneg_of_le_pi (by positivity) (by linarith [abs_nonneg x])
    rcases abs_cases x with ⟨hx', _⟩ | ⟨hx', _⟩
    · rw [hx'] at h0 ⊢; rw [abs_of_nonneg h0]
    · rw [hx'] at h0 ⊢
      rw [show -x / 2 = -(x / 2) by ring, Real.sin_neg] at h0 ⊢
      rw [abs_of_nonpos (by linarith)]
  have hlt : |Real.sin (alpha / 2) * Real.sin (a / 2)| < Real.cos (alpha / 2) * Real.cos (a / 2) := by
    have := Real.cos_pos_of_mem_Ioo (x := |alpha| / 2 + |a| / 2) ⟨by linarith, by linarith⟩
    rw [Real.cos_add, e1, e2, sabs _ (by linarith), sabs _ (by linarith), ← abs_mul] at this
    linarith
  have hc : |Real.sin (gamma / 2)| ≤ Real.cos (gamma / 2) := by
    have hgn := abs_nonneg gamma
    rw [← sabs _ (by linarith), ← Real.cos_abs (gamma / 2), abs_div,
      abs_of_pos (by norm_num : (0 : ℝ) < 2), ← Real.sin_pi_div_two_sub]
    exact Real.sin_le_sin_of_le_of_le_pi_div_two (by linarith) (by linarith) (by linarith)
  have hcp : 0 < Real.cos (gamma / 2) := by
    have := abs_le.1 hg
    exact Real.cos_pos_of_mem_Ioo ⟨by linarith, by linarith⟩
  have h1 : |Real.sin (gamma / 2) * (Real.sin (alpha / 2) * Real.sin (a / 2))| <
      Real.cos (gamma / 2) * (Real.cos (alpha / 2) * Real.cos (a / 2)) := by
    rw [abs_mul]
    calc _ ≤ Real.cos (gamma / 2) * |Real.sin (alpha / 2) * Real.sin (a / 2)| :=
          mul_le_mul_of_nonneg_right hc (abs_nonneg _)
      _ < _ := mul_lt_mul_of_pos_left hlt hcp
  linarith [neg_abs_le (Real.sin (gamma / 2) * (Real.sin (alpha / 2) * Real.sin (a / 2)))]

/-- C80: while flexion and abduction together stay below half a turn and external rotation within a
quarter, the transform is a unit transform with the three rotations. -/
theorem C80_transform (pairs : Dict (DrawnFnPair K P)) (params : Dict P) (q : ℝ)
    (h : |q| + |applyAt pairs params "ys_beta" q| < Real.pi)
    (hg : |applyAt pairs params "ys_gamma" q| ≤ Real.pi / 2) :
    (_transform_suntay pairs [q] params).rot =
      suntay.turns q (-applyAt pairs params "ys_beta" q) (applyAt pairs params "ys_gamma" q) ∧
    (_transform_suntay pairs [q] params).IsUnit := by
  have e : (_transform_suntay pairs [q] params).rot =
      suntay.turns q (-applyAt pairs params "ys_beta" q) (applyAt pairs params "ys_gamma" q) := by
    show quat_from_3x3 (_suntay_rotation_matrix_R_transpose_eq26 q
      (Real.pi / 2 + -applyAt pairs params "ys_beta" q) (applyAt pairs params "ys_gamma" q)) = _
    rw [(C80_rotation_matrix _ _ _).1, add_sub_cancel_left]
    have hw := turns_w_pos (alpha := q) (a := -applyAt pairs params "ys_beta" q)
      (gamma := applyAt pairs params "ys_gamma" q) (by rwa [abs_neg]) hg
    rw [C13_from_to (turns_unit _ _ _) hw.ne', if_pos hw]
  refine ⟨e, ?_⟩
  show (_transform_suntay pairs [q] params).rot.IsUnit
  rw [e]
  exact turns_unit _ _ _

/-- C80 fails at a flexion of half a turn: the quaternion is not one (in the code it is NaN). -/
theorem C80_transform_fails (pairs : Dict (DrawnFnPair K P)) (params : Dict P)
    (hb : applyAt pairs params "ys_beta" Real.pi = 0)
    (hg : applyAt pairs params "ys_gamma" Real.pi = 0) :
    ¬ (_transform_suntay pairs [Real.pi] params).IsUnit := by
  have e : (_transform_suntay pairs [Real.pi] params).rot =
      quat_from_3x3 (quat_to_3x3 (suntay.turns Real.pi 0 0)) := by
    show quat_from_3x3 (_suntay_rotation_matrix_R_transpose_eq26 Real.pi
      (Real.pi / 2 + -applyAt pairs params "ys_beta" Real.pi)
      (applyAt pairs params "ys_gamma" Real.pi)) = _
    rw [(C80_rotation_matrix _ _ _).1, hb, hg]
    norm_num
  have hw := (C13_from_to_half_turn (turns_unit Real.pi 0 0) (by rw [turns_w]; simp)).1
  intro hu
  have hu' : (_transform_suntay pairs [Real.pi] params).rot.normSq = 1 := hu
  rw [e] at hu'
  generalize quat_to_3x3 (suntay.turns Real.pi 0 0) = m at hw hu'
  have hw' : √(1 + m.a00 + m.a11 + m.a22) / 2 = 0 := hw
  unfold quat_from_3x3 at hu'
  simp [hw', Quat.normSq] at hu'

/-! ## clinical angles and translations -/

/-- C80: the angles are the clinical ones. In femur coordinates, `i = (1, 0, 0)` is the femoral axis,
`k` the third axis of the tibia, and the floating axis `e2` is perpendicular to both: flexion is the
angle from the femoral y axis to the floating axis, `β` the angle between `i` and `k`, and external
rotation the angle from the floating axis to the y axis of the tibia. -/
theorem C80_angles (alpha beta gamma : ℝ) :
    let toFemur := (_suntay_rotation_matrix_R_transpose_eq26 alpha beta gamma).transpose
    let i : Vec3 ℝ := ⟨1, 0, 0⟩
    let k := toFemur.mulVec ⟨0, 0, 1⟩
    let e2 : Vec3 ℝ := ⟨0, Real.cos alpha, -Real.sin alpha⟩
    k.cross i = .smul (Real.sin beta) e2 ∧ e2.dot e2 = 1 ∧ k.dot k = 1 ∧
    e2.dot ⟨0, 1, 0⟩ = Real.cos alpha ∧ e2.dot ⟨0, 0, 1⟩ = -Real.sin alpha ∧
    i.dot k = Real.cos beta ∧
    e2.dot (toFemur.mulVec ⟨0, 1, 0⟩) = Real.cos gamma ∧
    e2.dot (toFemur.mulVec ⟨1, 0, 0⟩) = -Real.sin gamma := by
  have ha := Real.sin_sq_add_cos_sq alpha
  have hb := Real.sin_sq_add_cos_sq beta
  simp only [_suntay_rotation_matrix_R_transpose_eq26, Mat3.transpose, Mat3.mulVec, Vec3.dot,
    Vec3.cross, Vec3.smul]
  refine ⟨?_, ?_, ?_, ?_, ?_, ?_, ?_, ?_⟩
  · ext <;> simp <;> ring
  · linear_combination ha
  · linear_combination hb + Real.sin beta ^ 2 * ha
  · ring
  · ring
  · ring
  · linear_combination Real.cos gamma * ha
  · linear_combination -Real.sin gamma * ha

/-- C80: the translation is S1 along the femoral axis, S2 along the floating axis and S3 along the
third axis of the tibia, and the components of Q are its projections on these axes. -/
theorem C80_translations (pairs : Dict (DrawnFnPair K P)) (params : Dict P) (q : List ℝ) :
    let (alpha, beta, gamma, S) := _alpha_beta_gamma_S pairs q params
    let (Q, S', H, _) := _Q_S_H_alpha_beta_gamma pairs params q
    let i : Vec3 ℝ := ⟨1, 0, 0⟩
    let e2 : Vec3 ℝ := ⟨0, Real.cos alpha, -Real.sin alpha⟩
    let k := (_suntay_rotation_matrix_R_transpose_eq26 alpha beta gamma).transpose.mulVec ⟨0, 0, 1⟩
    H = .smul S.x i + .smul S.y e2 + .smul S.z k ∧
    (_transform_suntay pairs q params).pos = H ∧ S' = S ∧
    Q.x = H.dot i ∧ Q.y = H.dot e2 ∧ Q.z = -(H.dot k) := by
  simp only [_Q_S_H_alpha_beta_gamma, _transform_suntay]
  generalize _alpha_beta_gamma_S pairs q params = t
  obtain ⟨alpha, beta, gamma, S⟩ := t
  have ha := Real.sin_sq_add_cos_sq alpha
  have hb := Real.sin_sq_add_cos_sq beta
  simp only [_suntay_rotation_matrix_R_transpose_eq26, _suntay_translation_vector_H_eq9,
    Mat3.transpose, Mat3.mulVec, Vec3.dot]
  refine ⟨?_, trivial, trivial, ?_, ?_, ?_⟩
  · ext <;> simp [Vec3.smul] <;> ring
  · ring
  · linear_combination -S.y * ha
  · linear_combination S.z * (hb + Real.sin beta ^ 2 * ha)

/-- C80: at zero flexion with all functions zero the joint is the identity. -/
theorem C80_home (pairs : Dict (DrawnFnPair K P)) (params : Dict P)
    (h : ∀ key, applyAt pairs params key 0 = 0) :
    _transform_suntay pairs [0] params = ⟨⟨0, 0, 0⟩, ⟨1, 0, 0, 0⟩⟩ := by
  have hr := (C80_transform pairs params 0 (by simp [h, Real.pi_pos])
    (by simp [h]; linarith [Real.pi_pos])).1
  have hp : (_transform_suntay pairs [0] params).pos = ⟨0, 0, 0⟩ := by
    simp [_transform_suntay, _alpha_beta_gamma_S, h, _suntay_translation_vector_H_eq9, Mat3.mulVec]
  rw [h, h] at hr
  have : suntay.turns 0 (-0) 0 = ⟨1, 0, 0, 0⟩ := by
    simp [suntay.turns, rotQuat, quat_mul]
  rw [this] at hr
  calc _ = (⟨(_transform_suntay pairs [0] params).pos, (_transform_suntay pairs [0] params).rot⟩ :
        Transform ℝ) := rfl
    _ = _ := by rw [hp, hr]

/-! ## velocity -/

/-- C80: how the joint moves when it is a hinge, i.e. when the functions do not depend on flexion and
there is neither abduction nor external rotation: it turns about the negative x axis. -/
theorem C80_motion (pairs : Dict (DrawnFnPair K P)) (params : Dict P) {c1 c2 c3 : ℝ}
    (hb : ∀ q, applyAt pairs params "ys_beta" q = 0)
    (hg : ∀ q, applyAt pairs params "ys_gamma" q = 0)
    (h1 : ∀ q, applyAt pairs params "ys_S1" q = c1) (h2 : ∀ q, applyAt pairs params "ys_S2" q = c2)
    (h3 : ∀ q, applyAt pairs params "ys_S3" q = c3) {α : ℝ → ℝ} {u t : ℝ}
    (hα : ∀ s, |α s| < Real.pi) (h : HasDerivAt α u t) :
    HasTwist (fun s => _transform_suntay pairs [α s] params)
      ⟨⟨-u, 0, 0⟩, ⟨0, u * c3, -(u * c2)⟩⟩ t := by
  have hr : ∀ s, (_transform_suntay pairs [α s] params).rot = rotQuat ⟨1, 0, 0⟩ (α s) := by
    intro s
    rw [(C80_transform pairs params (α s) (by rw [hb]; simpa using hα s)
      (by rw [hg]; simp; linarith [Real.pi_pos])).1, hb, hg]
    ext <;> simp [suntay.turns, quat_mul, rotQuat]
  have hp : ∀ s, (_transform_suntay pairs [α s] params).pos =
      ⟨c1, c2 * Real.cos (α s) + c3 * Real.sin (α s),
        -(c2 * Real.sin (α s)) + c3 * Real.cos (α s)⟩ := by
    intro s
    simp only [_transform_suntay, _alpha_beta_gamma_S, _suntay_translation_vector_H_eq9, Mat3.mulVec,
      List.getD_cons_zero, h1, h2, h3, hb]
    ext <;> simp <;> ring
  have rate : QRate (fun s => rotQuat ⟨1, 0, 0⟩ (α s)) ⟨-u, 0, 0⟩ t := by
    have := rate_rotQuat (k := ⟨1, 0, 0⟩) (by norm_num) h.neg
    simp only [Pi.neg_apply, neg_neg] at this
    convert this using 1
    ext <;> simp [Vec3.smul]
  have dp : Vec3.HasDeriv (fun s => (⟨c1, c2 * Real.cos (α s) + c3 * Real.sin (α s),
        -(c2 * Real.sin (α s)) + c3 * Real.cos (α s)⟩ : Vec3 ℝ))
      ⟨0, u * (-(c2 * Real.sin (α t)) + c3 * Real.cos (α t)),
        u * (-(c2 * Real.cos (α t)) - c3 * Real.sin (α t))⟩ t := by
    refine ⟨hasDerivAt_const _ _, ?_, ?_⟩
    · refine ((h.cos.const_mul c2).add (h.sin.const_mul c3)).congr_deriv ?_
      ring
    · refine ((h.sin.const_mul c2).neg.add (h.cos.const_mul c3)).congr_deriv ?_
      ring
  refine twist_congr (twist_of_rate rate dp) (fun s => ?_) ?_
  · rw [← hr, ← hp]
  · have hs := Real.sin_sq_add_cos_sq (α t)
    rw [← C13_matrix_action (rotQuat_isUnit (by norm_num) _), matrix_x]
    unfold suntay.Rx Mat3.mulVec
    ext
    · rfl
    · rfl
    · rfl
    · simp
    · simp
      linear_combination u * c3 * hs
    · simp
      linear_combination -u * c2 * hs

/-- C80 fails for the declared velocity: the joint is declared to turn about x, but it turns the
other way, and its translations along the floating axis and the tibia are velocities which are not
declared at all. The declaration is right only at rest. -/
theorem C80_motion_fails (R : Rng K) (sconfig : SuntayConfig K P) (pairs : Dict (DrawnFnPair K P))
    (params : Dict P) {c1 c2 c3 : ℝ} (hb : ∀ q, applyAt pairs params "ys_beta" q = 0)
    (hg : ∀ q, applyAt pairs params "ys_gamma" q = 0)
    (h1 : ∀ q, applyAt pairs params "ys_S1" q = c1) (h2 : ∀ q, applyAt pairs params "ys_S2" q = c2)
    (h3 : ∀ q, applyAt pairs params "ys_S3" q = c3) {α : ℝ → ℝ} {u t : ℝ}
    (hα : ∀ s, |α s| < Real.pi) (h : HasDerivAt α u t) :
    (HasTwist (fun s => (suntay_model R sconfig pairs).transform [α s] params)
      ((suntay_model R sconfig pairs).declared params [u]) t ↔ u = 0) ∧
    (u ≠ 0 → (HasTwist (fun s => (suntay_model R sconfig pairs).transform [α s] params)
      ((suntay_model R sconfig pairs).declared params [-u]) t ↔ c2 = 0 ∧ c3 = 0)) := by
  have hd : ∀ v, (suntay_model R sconfig pairs).declared params [v] = ⟨⟨v, 0, 0⟩, 0⟩ := by
    intro v
    ext <;> simp [JointModel.declared, suntay_model, mr, Motion.smul, Axis.unit]
  have hm := C80_motion pairs params hb hg h1 h2 h3 hα h
  have hu : (_transform_suntay pairs [α t] params).IsUnit :=
    (C80_transform pairs params (α t) (by rw [hb]; simpa using hα t)
      (by rw [hg]; simp; linarith [Real.pi_pos])).2
  rw [hd, hd]
  refine ⟨⟨fun h' => ?_, ?_⟩, fun hu0 => ⟨fun h' => ?_, ?_⟩⟩
  · have := congrArg (fun m : Motion ℝ => m.ang.x) (twist_unique hu h' hm)
    simp at this
    linarith
  · rintro rfl
    refine twist_congr hm (fun _ => rfl) ?_
    ext <;> simp
  · have e := twist_unique hu h' hm
    have e2 := congrArg (fun m : Motion ℝ => m.vel.y) e
    have e3 := congrArg (fun m : Motion ℝ => m.vel.z) e
    simp [hu0] at e2 e3
    exact ⟨e3, e2⟩
  · rintro ⟨rfl, rfl⟩
    refine twist_congr hm (fun _ => rfl) ?_
    ext <;> simp

/-- functions with the given values -/
noncomputable def constPairs (c1 c2 c3 : ℝ) : Dict (DrawnFnPair Unit Unit) :=
  [("ys_S1", ((ConstantValue_DrawnFnPair c1 [] 0 0 : StateM Cells _) fun _ => none).1),
    ("ys_beta", ((ConstantValue_DrawnFnPair 0 [] 0 0 : StateM Cells _) fun _ => none).1),
    ("ys_S2", ((ConstantValue_DrawnFnPair c2 [] 0 0 : StateM Cells _) fun _ => none).1),
    ("ys_gamma", ((ConstantValue_DrawnFnPair 0 [] 0 0 : StateM Cells _) fun _ => none).1),
    ("ys_S3", ((ConstantValue_DrawnFnPair c3 [] 0 0 : StateM Cells _) fun _ => none).1)]

def unitParams : Dict Unit :=
  [("ys_S1", ()), ("ys_beta", ()), ("ys_S2", ()), ("ys_gamma", ()), ("ys_S3", ())]

/-- constant functions meet the hypotheses, with a flexion of `sin t` -/
example (R : Rng Unit) (s : SuntayConfig Unit Unit) := C80_motion_fails R s (constPairs 1 2 3)
  unitParams (c1 := 1) (c2 := 2) (c3 := 3) (α := Real.sin) (u := 1) (t := 0) (fun _ => rfl)
  (fun _ => rfl) (fun _ => rfl) (fun _ => rfl) (fun _ => rfl)
  (fun s => (Real.abs_sin_le_one s).trans_lt (by linarith [Real.pi_gt_three]))
  (by simpa using Real.hasDerivAt_sin 0)

/-- `C80_home` and `C80_transform` apply to zero functions -/
example : _transform_suntay (constPairs 0 0 0) [0] unitParams = ⟨⟨0, 0, 0⟩, ⟨1, 0, 0, 0⟩⟩ := by
  apply C80_home
  intro key
  unfold applyAt
  split
  · rename_i f p h1 h2
    simp only [constPairs, List.lookup] at h1
    repeat' split at h1
    all_goals cases h1
    all_goals rfl
  · rfl

/-! ## drawn motion, coordinates, registration -/

theorem apply_rom_spec (s : SuntayConfig K P) (h : s.flexion_rot_min < s.flexion_rot_max)
    (ys : List ℝ) : (_apply_rom s ys).length = ys.length ∧
      ∀ y ∈ _apply_rom s ys, s.flexion_rot_min ≤ y ∧ y ≤ s.flexion_rot_max :=
  C80_restrict _ _ h.le _ _ (regular_of h (by linarith [Real.pi_pos]))

/-- C80: the drawn flexion angles are within the flexion range, one for every time step, provided
that interpolation is not randomized; else drawing is an error. The config of the joint, if given,
takes precedence over the one of the generator. -/
theorem C80_draw_partial (R : Rng K) {s : SuntayConfig K P}
    (h : s.flexion_rot_min < s.flexion_rot_max) (pairs : Dict (DrawnFnPair K P)) (c : MotionConfig)
    {dt : ℝ} (hc : Drawable (s.mconfig.getD c) dt) (kt kv : K) (N : Option Nat) :
    ((s.mconfig.getD c).randomized_interpolation_angle = false →
      ∃ rows, (suntay_model R s pairs).rcmg_draw_fn c kt kv dt N = .ok (some rows) ∧
        rows.length = numSteps (s.mconfig.getD c).T dt N ∧
        ∀ row ∈ rows, row.length = 1 ∧ s.flexion_rot_min ≤ row.getD 0 0 ∧
          row.getD 0 0 ≤ s.flexion_rot_max) ∧
    ((s.mconfig.getD c).randomized_interpolation_angle = true →
      (suntay_model R s pairs).rcmg_draw_fn c kt kv dt N = .error .type) := by
  have e : (suntay_model R s pairs).rcmg_draw_fn c kt kv dt N =
    (_draw_flexion_angle R s c kt kv dt N).map (Option.map column) := rfl
  rw [e]
  unfold _draw_flexion_angle
  dsimp only
  refine ⟨fun hf => ?_, fun hf => by rw [if_pos hf]; rfl⟩
  rw [if_neg (by simp [hf])]
  obtain ⟨kn, q, -, h2, h3, -⟩ := angle_draw R (flexionArgs (s.mconfig.getD c)
    (wrap_to_pi (R.uniformIn (R.split kv 2 1) (s.mconfig.getD c).ang0_min
      (s.mconfig.getD c).ang0_max)) dt N) hc.t_min hc.T hc.dt (by show 1 ≤ 5; norm_num)
      (fun k hk => by cases hk) kt (R.split kv 2 0)
  rw [h2]
  generalize hq : (if (flexionArgs (s.mconfig.getD c) _ dt N).range_of_motion = true then q else _) = q'
  have hl : q'.length = q.length := by rw [← hq]; split <;> simp
  obtain ⟨h4, h5⟩ := apply_rom_spec s h q'
  refine ⟨column (_apply_rom s q'), rfl, ?_, ?_⟩
  · rw [show (column (_apply_rom s q')).length = (_apply_rom s q').length by simp [column], h4, hl]
    exact h3
  · intro row hr
    obtain ⟨y, hy, rfl⟩ := List.mem_map.1 hr
    exact ⟨rfl, h5 y hy⟩

/-- The range of motion is half a radian to both sides of 0. -/
noncomputable def halfConfig : MotionConfig :=
  { T := 1.5, t_min := 1, t_max := .const 3, ang0_min := 0, ang0_max := 0
    dang_min := .const 0, dang_max := .const 2, delta_ang_max := .const 10
    rom_halfsize := .const 0.5 }

/-- a joint whose flexion range is the whole circle -/
noncomputable def roundConfig : SuntayConfig Unit Unit :=
  { netConfig with flexion_rot_min := -Real.pi, flexion_rot_max := Real.pi }

theorem halfConfig_drawn :
    random_angle_over_time (constRng 0.5 true) (flexionArgs halfConfig 0 1 none) () () =
      some [0, Real.pi / 4] := by
  have hpi := Real.pi_gt_three
  have hpi' := Real.pi_le_four
  set A := flexionArgs halfConfig 0 1 none with hA
  obtain ⟨kn, key, h1, h2⟩ := angle_knots_eq (constRng 0.5 true) A
    (by show (0 : ℝ) < 1; norm_num) (by show (0 : ℝ) ≤ 1.5; norm_num) () ()
  have hkn := two_knots (Real.pi / 2) h1 rfl (by
    rintro y ⟨_, _, e1, e2⟩
    have hdt : (constRng 0.5 true).uniformIn () (1 : ℝ) 3 = 2 := by
      show scaleU 0.5 1 3 = 2
      unfold scaleU
      norm_num
    have e1' : y.1 = 2 := by
      rw [e1]
      show (0 : ℝ) + (constRng 0.5 true).uniformIn () 1 3 = 2
      rw [hdt]
      norm_num
    have e2' : y.2 = Real.pi / 2 := by
      rw [e2]
      show _next_phi (constRng 0.5 true) (A.at 0) 0 ()
        ((constRng 0.5 true).uniformIn () 1 3) = _
      rw [hdt]
      show scaleU 0.5 (max (min (_clip_to_pi (0 + 1 * 0 * 2)) (_clip_to_pi (0 + 1 * 2 * 2)))
        (0 - ((5 : Nat) : ℝ))) (min (max (_clip_to_pi (0 + 1 * 0 * 2)) (_clip_to_pi (0 + 1 * 2 * 2)))
        (0 + ((5 : Nat) : ℝ))) = _
      have c1 : _clip_to_pi (0 + 1 * 0 * 2) = 0 := by
        rw [clip_id] <;> linarith
      have c2 : _clip_to_pi (0 + 1 * 2 * 2) = Real.pi := by
        unfold _clip_to_pi
        rw [max_eq_left (by linarith), min_eq_right (by linarith)]
      have m1 : min (0 : ℝ) Real.pi = 0 := min_eq_left (by linarith)
      have m2 : max (0 : ℝ) Real.pi = Real.pi := max_eq_right (by linarith)
      have m3 : max (0 : ℝ) (0 - ((5 : Nat) : ℝ)) = 0 := max_eq_left (by norm_num)
      have m4 : min Real.pi (0 + ((5 : Nat) : ℝ)) = Real.pi := min_eq_left (by norm_num; linarith)
      rw [c1, c2, m1, m2, m3, m4]
      unfold scaleU
      rw [max_eq_right (by linarith)]
      ring
    ext
    · exact e1'
    · exact e2')
  unfold random_angle_over_time
  rw [h2, hkn]
  show some ((sample_times 1.5 1 none).map _) = _
  rw [sample_times_two]
  have := knotRow_two (Real.pi / 2)
  show some (([0, 1] : List ℝ).map fun t => cosInterpolate t
    ((layout (⌊(1.5 : ℝ) / 1⌋.toNat + 1)
      (([(0, 0), (2, Real.pi / 2)] : List (ℝ × ℝ)).map (knotRow 1))).map (·.1))
    ((layout (⌊(1.5 : ℝ) / 1⌋.toNat + 1)
      (([(0, 0), (2, Real.pi / 2)] : List (ℝ × ℝ)).map (knotRow 1))).map (·.2))) = _
  rw [this]
  have h0 := (C33_cos [0, 2] [0, Real.pi / 2] (by norm_num) rfl).knot 0 (by simp) (by simp)
  have h1 := cosInterpolate_mid (Real.pi / 2)
  simp only [List.getElem_cons_zero] at h0
  simp only [List.map_cons, List.map_nil, h0, h1]
  ring_nf

/-- C80 fails for the range of motion: the call does not pass `rom_halfsize`, so the number of bins is
taken for it. With a half-size of 0.5 around 0 the joint, whose flexion range is the whole circle,
reaches π/4. -/
theorem C80_draw_fails (pairs : Dict (DrawnFnPair Unit Unit)) :
    (constRng 0.5 true).Ok ∧ Drawable halfConfig 1 ∧ halfConfig.range_of_motion_hinge = true ∧
    (∀ t, halfConfig.rom_halfsize.at t = 0.5) ∧
    halfConfig.ang0_min = 0 ∧ halfConfig.ang0_max = 0 ∧
    (suntay_model (constRng 0.5 true) roundConfig pairs).rcmg_draw_fn halfConfig () () 1 none =
      .ok (some [[0], [Real.pi / 4]]) ∧ 0.5 < Real.pi / 4 := by
  have hpi := Real.pi_gt_three
  refine ⟨constRng_ok 0.5 true (by norm_num) (by norm_num), ?_, rfl, fun _ => rfl, rfl, rfl, ?_,
    by linarith⟩
  · constructor <;> norm_num [halfConfig]
    intro k hk
    cases hk
  · have e : (suntay_model (constRng 0.5 true) roundConfig pairs).rcmg_draw_fn halfConfig () () 1
        none = (_draw_flexion_angle (constRng 0.5 true) roundConfig halfConfig () () 1 none).map
          (Option.map column) := rfl
    rw [e]
    unfold _draw_flexion_angle
    dsimp only
    have e1 : (roundConfig.mconfig.getD halfConfig) = halfConfig := rfl
    have e0 : (constRng 0.5 true).uniformIn () halfConfig.ang0_min halfConfig.ang0_max = 0 := by
      show scaleU 0.5 0 0 = 0
      unfold scaleU
      norm_num
    rw [e1, if_neg (by simp [halfConfig]), show (constRng 0.5 true).split () 2 1 = () from rfl, e0,
      wrap_id (by linarith) (by linarith), halfConfig_drawn]
    have : _apply_rom roundConfig [0, Real.pi / 4] = [0, Real.pi / 4] := by
      unfold _apply_rom
      show restrict [0, Real.pi / 4] (-Real.pi) Real.pi (some (-Real.pi)) (some Real.pi) .minmax = _
      rw [C80_minmax (by linarith) (by
        intro y hy
        simp at hy
        rcases hy with rfl | rfl <;> constructor <;> linarith)]
      have h2 : Real.pi - -Real.pi ≠ 0 := by linarith
      simp only [List.map_cons, List.map_nil, mul_div_cancel₀ _ h2]
      congr 1
      · ring
      · congr 1
        ring
    show Except.ok (some (column (_apply_rom roundConfig [0, Real.pi / 4]))) = _
    rw [this]
    rfl

/-- C80: coordinates from a coordinate vector are within the flexion range. -/
theorem C80_coords (s : SuntayConfig K P) (h : s.flexion_rot_min < s.flexion_rot_max)
    (q : List ℝ) : (coordinate_vector_to_q_suntay s q).length = q.length ∧
      ∀ y ∈ coordinate_vector_to_q_suntay s q, s.flexion_rot_min ≤ y ∧ y ≤ s.flexion_rot_max := by
  obtain ⟨h1, h2⟩ := apply_rom_spec s h (q.map wrap_to_pi)
  exact ⟨h1.trans (by simp), h2⟩

/-- C80: with the method "clip", angles which are in the flexion range already are kept. -/
theorem C80_coords_clip (s : SuntayConfig K P) (hm : s.flexion_rot_restrict_method = .clip)
    {q : List ℝ} (h : ∀ y ∈ q, s.flexion_rot_min ≤ y ∧ y ≤ s.flexion_rot_max)
    (hpi : ∀ y ∈ q, -Real.pi ≤ y ∧ y < Real.pi) : coordinate_vector_to_q_suntay s q = q := by
  have e : q.map wrap_to_pi = q := by
    conv_rhs => rw [← List.map_id q]
    exact List.map_congr_left fun y hy => wrap_id (hpi y hy).1 (hpi y hy).2
  unfold coordinate_vector_to_q_suntay _apply_rom
  dsimp only
  rw [e, hm]
  exact C80_clip h _ _

/-- C80 fails with the defaults: a flexion of 0, which is in the range, becomes one of 45 degrees, so
the coordinate vector is not projected but scaled from the whole circle. -/
theorem C80_coords_fails : netConfig.flexion_rot_min < 0 ∧ 0 < netConfig.flexion_rot_max ∧
    coordinate_vector_to_q_suntay netConfig [0] = [suntay.deg2rad 45] ∧
    suntay.deg2rad 45 ≠ 0 := by
  have hpi := Real.pi_pos
  refine ⟨by norm_num [netConfig, suntay.deg2rad], by norm_num [netConfig, suntay.deg2rad], ?_,
    by norm_num [suntay.deg2rad]⟩
  unfold coordinate_vector_to_q_suntay _apply_rom
  simp only [List.map_cons, List.map_nil, wrap_id (by linarith : -Real.pi ≤ 0) hpi]
  show restrict [0] (-suntay.deg2rad 5) (suntay.deg2rad 95) (some (-Real.pi)) (some Real.pi) .minmax = _
  rw [C80_minmax (by linarith) (by intro y hy; simp at hy; subst hy; constructor <;> linarith)]
  have e : (0 - -Real.pi) / (Real.pi - -Real.pi) = 1 / 2 := by
    field_simp
    ring
  simp only [List.map_cons, List.map_nil, e]
  congr 1
  norm_num [suntay.deg2rad]

/-- C80: registering makes the joint known under the name, with one coordinate and one velocity, and
changes nothing else. -/
theorem C80_register (R : Rng K) (s : SuntayConfig K P) {name : String} (hn : name ≠ "default")
    (m : Cells) {r : Registry ℝ (Dict P) MotionConfig (suntay.DrawFn K) ν γ} (hr : r.Consistent) :
    ∃ r', register_suntay R s name m r = (.ok (), r') ∧
      r'.Knows name 1 1 (suntay_model R s (draw_fn_pairs s m).1) ∧
      (∀ t ≠ name, r.SameAt r' t) ∧ r'.Consistent :=
  register_overwrite hr hn _ 1 none rfl

/-- C80: a joint is found exactly if one link and no other has the type, and it is that link. -/
theorem C80_find (name n : String) (names types : List String) :
    _utils_find_suntay_joint name names types = .ok n ↔
      ∃ before after, names.zip types = before ++ (n, name) :: after ∧
        (∀ l ∈ before, l.2 ≠ name) ∧ ∀ l ∈ after, l.2 ≠ name := by
  have key : ((names.zip types).filter (·.2 = name)).map (·.1) = [n] ↔
      ∃ before after, names.zip types = before ++ (n, name) :: after ∧
        (∀ l ∈ before, l.2 ≠ name) ∧ ∀ l ∈ after, l.2 ≠ name := by
    rw [List.map_eq_singleton_iff]
    constructor
    · rintro ⟨⟨n', t⟩, h, rfl⟩
      rw [List.filter_eq_cons_iff] at h
      obtain ⟨l1, l2, e, h1, h2, h3⟩ := h
      simp at h2
      subst h2
      rw [List.filter_eq_nil_iff] at h3
      exact ⟨l1, l2, e, fun l hl => by simpa using h1 l hl, fun l hl => by simpa using h3 l hl⟩
    · rintro ⟨l1, l2, e, h1, h2⟩
      refine ⟨(n, name), ?_, rfl⟩
      rw [List.filter_eq_cons_iff]
      refine ⟨l1, l2, e, fun l hl => by simpa using h1 l hl, by simp, ?_⟩
      rw [List.filter_eq_nil_iff]
      exact fun l hl => by simpa using h2 l hl
  rw [← key]
  unfold _utils_find_suntay_joint
  split
  · rename_i h
    rw [h]; simp
  · rename_i n' h
    rw [h]; simp
  · rename_i h
    rw [h]; simp

example : _utils_find_suntay_joint "suntay" ["a", "b"] ["rx", "suntay"] = .ok "b" :=
  (C80_find _ _ _ _).2 ⟨[("a", "rx")], [], rfl, by simp, by simp⟩

example (pairs : Dict (DrawnFnPair Unit Unit)) := C80_draw_partial (constRng 0.5 true)
  (s := roundConfig) (by show -Real.pi < Real.pi; linarith [Real.pi_pos]) pairs halfConfig (dt := 1)
  (C80_draw_fails pairs).2.1 () () none

/-! ## order and middle of restricted values -/

theorem smooth_mono : Monotone fun t : ℝ =>
    if t < 0 then (0 : ℝ) else if t ≤ 1 then 3 * t ^ 2 - 2 * t ^ 3 else 1 := by
  intro s t h
  dsimp only
  have hb : ∀ x : ℝ, 0 ≤ x → x ≤ 1 → 0 ≤ 3 * x ^ 2 - 2 * x ^ 3 ∧ 3 * x ^ 2 - 2 * x ^ 3 ≤ 1 := by
    intro x h0 h1
    constructor
    · nlinarith [mul_nonneg (sq_nonneg x) (by linarith : 0 ≤ 3 - 2 * x)]
    · nlinarith [mul_nonneg (sq_nonneg (1 - x)) (by linarith : 0 ≤ 1 + 2 * x)]
  by_cases h1 : s < 0
  · rw [if_pos h1]
    split_ifs with h2 h3
    · exact le_refl _
    · exact (hb t (not_lt.1 h2) h3).1
    · norm_num
  · rw [if_neg h1]
    have h1' := not_lt.1 h1
    rw [if_neg (by linarith : ¬ t < 0)]
    by_cases h3 : t ≤ 1
    · rw [if_pos (h.trans h3), if_pos h3]
      have h5 : 0 ≤ 3 * (t + s) - 2 * (t ^ 2 + t * s + s ^ 2) := by
        nlinarith [mul_nonneg h1' (by linarith : 0 ≤ 1 - t), mul_nonneg (h1'.trans h) (by linarith : 0 ≤ 1 - t),
          mul_nonneg h1' (by linarith : 0 ≤ 1 - s), mul_nonneg (h1'.trans h) (by linarith : 0 ≤ 1 - s)]
      nlinarith [mul_nonneg (by linarith : 0 ≤ t - s) h5]
    · rw [if_neg h3]
      split_ifs with h4
      · exact (hb s h1' h4).2
      · exact le_refl _

/-- C80: whatever the method, restricting keeps the order of the values. -/
theorem C80_order (m : Method) (ys : List ℝ) {mn mx : ℝ} (h : mn < mx) (amin amax : Option ℝ)
    (hr : m.Regular ys mn mx amin amax) (hs : ∀ s, m = .sigmoid s → 0 ≤ s) :
    ∃ f : ℝ → ℝ, Monotone f ∧ restrict ys mn mx amin amax m = ys.map f := by
  have hd : 0 < mx - mn := by linarith
  have shift_mono : ∀ {a b : ℝ}, a < b → Monotone fun y => _shift y a b := by
    intro a b hab x y hxy
    exact div_le_div_of_nonneg_right (by linarith) (by linarith)
  have inv_mono : ∀ {a b : ℝ}, a ≤ b → Monotone fun y => _shift_inv y a b := by
    intro a b hab x y hxy
    simp only [_shift_inv]
    nlinarith
  cases m with
  | minmax =>
    refine ⟨(fun y => _shift_inv y mn mx) ∘ fun y => _shift y (lowest amin ys) (highest amax ys),
      (inv_mono h.le).comp (shift_mono hr), ?_⟩
    simp [restrict, _normalize, Function.comp_def]
  | clip =>
    refine ⟨fun y => min (max y mn) mx, fun x y hxy => ?_, rfl⟩
    exact min_le_min_right _ (max_le_max_right _ hxy)
  | smoothclamp =>
    refine ⟨fun y => _smoothclamp y mn mx, fun x y hxy => ?_, rfl⟩
    have := smooth_mono (shift_mono h hxy)
    have := mul_le_mul_of_nonneg_left this hd.le
    exact add_le_add_right this mn
  | sigmoidclamp =>
    refine ⟨fun y => _sigmoidclamp y mn mx, fun x y hxy => ?_, rfl⟩
    have h1 := shift_mono h hxy
    simp only [_shift] at h1
    have h2 : (200 : ℝ) ^ (-((y - mn) / (mx - mn)) + 0.5) ≤
        (200 : ℝ) ^ (-((x - mn) / (mx - mn)) + 0.5) :=
      Real.rpow_le_rpow_of_exponent_le (by norm_num) (by linarith)
    have h3 : (1 + (200 : ℝ) ^ (-((x - mn) / (mx - mn)) + 0.5))⁻¹ ≤
        (1 + (200 : ℝ) ^ (-((y - mn) / (mx - mn)) + 0.5))⁻¹ := by
      have := Real.rpow_pos_of_pos (by norm_num : (0 : ℝ) < 200) (-((y - mn) / (mx - mn)) + 0.5)
      exact inv_anti₀ (by linarith) (by linarith)
    have := mul_le_mul_of_nonneg_left h3 hd.le
    simp only [_sigmoidclamp]
    linarith
  | sigmoid s =>
    have hs' := hs s rfl
    refine ⟨(fun y => _shift_inv y mn mx) ∘ suntay.sigmoid ∘ (fun y => _shift_inv y (-s) s) ∘
      fun y => _shift y (lowest amin ys) (highest amax ys), ?_, ?_⟩
    · refine (inv_mono h.le).comp (Monotone.comp ?_ ((inv_mono (by linarith)).comp (shift_mono hr)))
      intro x y hxy
      rcases eq_or_lt_of_le hxy with rfl | hlt
      · exact le_refl _
      · exact (sigmoid_lt hlt).le
    · simp [restrict, _normalize, Function.comp_def]

theorem sigmoid_neg (x : ℝ) : suntay.sigmoid (-x) = 1 - suntay.sigmoid x := by
  unfold suntay.sigmoid
  have h := Real.exp_pos x
  rw [neg_neg, Real.exp_neg]
  field_simp
  ring

/-- C80: with the method "sigmoid", the middle stays the middle, and the stepness `s` decides how
close to the bounds the extreme values come: the rest is the fraction `1 / (1 + exp s)` on both
sides. -/
theorem C80_sigmoid (s : ℝ) {mn mx a b : ℝ} (hab : a < b) :
    restrict [a, (a + b) / 2, b] mn mx (some a) (some b) (.sigmoid s) =
      [mn + (mx - mn) / (1 + Real.exp s), (mn + mx) / 2, mx - (mx - mn) / (1 + Real.exp s)] := by
  unfold restrict _normalize
  dsimp only
  rw [lowest_some (by intro y hy; simp at hy; rcases hy with rfl | rfl | rfl <;> linarith),
    highest_some (by intro y hy; simp at hy; rcases hy with rfl | rfl | rfl <;> linarith)]
  have hne : b - a ≠ 0 := by linarith
  have e1 : _shift a a b = 0 := by simp [_shift]
  have e2 : _shift ((a + b) / 2) a b = 1 / 2 := by unfold _shift; field_simp; ring
  have e3 : _shift b a b = 1 := by unfold _shift; field_simp
  have f1 : _shift_inv 0 (-s) s = -s := by unfold _shift_inv; ring
  have f2 : _shift_inv (1 / 2) (-s) s = 0 := by unfold _shift_inv; ring
  have f3 : _shift_inv 1 (-s) s = s := by unfold _shift_inv; ring
  have g : suntay.sigmoid 0 = 1 / 2 := by norm_num [suntay.sigmoid]
  have g' : suntay.sigmoid (-s) = 1 / (1 + Real.exp s) := by simp [suntay.sigmoid]
  have g'' : suntay.sigmoid s = 1 - 1 / (1 + Real.exp s) := by
    rw [← g', sigmoid_neg]; ring
  simp only [List.map_cons, List.map_nil, e1, e2, e3, f1, f2, f3, g, g', g'']
  unfold _shift_inv
  congr 1
  · ring
  · congr 1
    · ring
    · congr 1
      ring

/-- C80: the two clamps keep the middle of the interval; the smooth one also the ends, beyond which
it is constant. -/
theorem C80_clamp {mn mx : ℝ} (h : mn < mx) (a b : Option ℝ) :
    restrict [(mn + mx) / 2] mn mx a b .smoothclamp = [(mn + mx) / 2] ∧
    restrict [(mn + mx) / 2] mn mx a b .sigmoidclamp = [(mn + mx) / 2] ∧
    (∀ y ≤ mn, restrict [y] mn mx a b .smoothclamp = [mn]) ∧
    ∀ y ≥ mx, restrict [y] mn mx a b .smoothclamp = [mx] := by
  have hd : 0 < mx - mn := by linarith
  have e : ((mn + mx) / 2 - mn) / (mx - mn) = 1 / 2 := by field_simp; ring
  refine ⟨?_, ?_, fun y hy => ?_, fun y hy => ?_⟩
  · simp only [restrict, List.map_cons, List.map_nil, _smoothclamp, e]
    congr 1
    norm_num
    ring
  · simp only [restrict, List.map_cons, List.map_nil, _sigmoidclamp, e]
    congr 1
    norm_num
    ring
  · have : (y - mn) / (mx - mn) ≤ 0 := div_nonpos_of_nonpos_of_nonneg (by linarith) hd.le
    simp only [restrict, List.map_cons, List.map_nil, _smoothclamp]
    congr 1
    rcases eq_or_lt_of_le this with h0 | h0
    · rw [h0]; norm_num
    · rw [if_pos h0]; ring
  · have : 1 ≤ (y - mn) / (mx - mn) := by rw [le_div_iff₀ hd]; linarith
    simp only [restrict, List.map_cons, List.map_nil, _smoothclamp]
    congr 1
    rw [if_neg (by linarith)]
    rcases eq_or_lt_of_le this with h0 | h0
    · rw [← h0]; norm_num
    · rw [if_neg (by linarith)]; ring

end RingLib
