import Verif.Lemmas.Knots

/-!
# One drawing step of angles and positions
-/

namespace RingLib
namespace random
open Real
variable {K : Type} (R : Rng K)

/-! ## angles -/

/-- one step from knot `a` to knot `b` -/
def AngStep (A : AngleArgs) (a b : ℝ × ℝ) : Prop :=
  ∃ key key' : K, b.1 = a.1 + R.uniformIn key A.t_min (A.t_max a.1) ∧
    b.2 = _next_phi R (A.at a.1) a.2 key' (R.uniformIn key A.t_min (A.t_max a.1))

theorem resolve_ok (A : RomArgs) (prev_phi : ℝ) (key_t key_ang : K) :
    ∃ key key', _resolve_range_of_motion R A prev_phi key_t key_ang =
      some (R.uniformIn key A.t_min A.t_max,
        _next_phi R A prev_phi key' (R.uniformIn key A.t_min A.t_max)) := by
  have hend := whileLoop_ends (cond := rom_cond A prev_phi) (body := rom_body R A prev_phi)
    (s := ⟨key_t, key_ang, 1, prev_phi, 0⟩) (fun _ => True) (fun s => (s.i : ℝ)) A.max_iter 1
    one_pos trivial (fun _ _ _ => trivial) (by
      intro s _ _
      simp [rom_body]) (by
      intro s _ hc
      unfold rom_cond at hc
      simp only at hc
      rcases hc with h | h
      · simp [h]
      · push Not at h
        exact_mod_cast h.2)
  obtain ⟨s', hs'⟩ := hend
  have h0 : rom_cond A prev_phi (⟨key_t, key_ang, 1, prev_phi, 0⟩ : RomVal K) := Or.inl rfl
  obtain ⟨⟨key, key', h1, h2⟩, -⟩ := whileLoop_inv1 (fun s => ∃ key key' : K,
    s.dt = R.uniformIn key A.t_min A.t_max ∧
    s.next_phi = _next_phi R A prev_phi key' (R.uniformIn key A.t_min A.t_max)) hs' h0
    ⟨_, _, rfl, rfl⟩ (fun s _ _ => ⟨_, _, rfl, rfl⟩)
  refine ⟨key, key', ?_⟩
  unfold _resolve_range_of_motion
  rw [hs', Option.map_some, h1, h2]

/-- The knots of `random_angle_over_time`. -/
theorem angle_knots_eq (A : AngleArgs) (ht : 0 < A.t_min) (hT : 0 ≤ A.T) (key_t key_ang : K) :
    ∃ kn key, IsKnots (AngStep R A) A.ANG_0 A.T kn ∧ angle_knots R A key_t key_ang =
      some (layout (⌊A.T / A.t_min⌋.toNat + 1) (kn.map (knotRow A.Ts)), key) := by
  have hstep : ∀ s : AngVal K, ∃ key key' : K, ∃ kt ka, ang_body R A s =
      ⟨s.i + 1, s.t + R.uniformIn key A.t_min (A.t_max s.t),
        _next_phi R (A.at s.t) s.phi key' (R.uniformIn key A.t_min (A.t_max s.t)), kt, ka,
        jaxSet s.ANG s.i (floorTo (s.t + R.uniformIn key A.t_min (A.t_max s.t)) A.Ts,
          _next_phi R (A.at s.t) s.phi key' (R.uniformIn key A.t_min (A.t_max s.t)))⟩ := by
    intro s
    obtain ⟨key, key', h⟩ := resolve_ok R (A.at s.t) s.phi (R.split s.key_t 2 1)
      (R.split s.key_ang 2 1)
    refine ⟨key, key', R.split s.key_t 2 0, R.split s.key_ang 2 0, ?_⟩
    unfold ang_body
    simp only [h]
    rfl
  obtain ⟨s', kn, h1, -, h2, -, h3⟩ := knot_loop (ang_body R A) (fun s => s.t) (fun s => s.i)
    (fun s => s.phi) (fun s => s.ANG) (fun _ => True) (AngStep R A) A.T A.t_min A.Ts A.ANG_0
    (⌊A.T / A.t_min⌋.toNat + 1) (by omega) ht hT (by
      rintro a b ⟨key, key', e1, -⟩
      rw [e1]
      have := scaleU_ge (R.uniform key) A.t_min (A.t_max a.1)
      unfold Rng.uniformIn
      linarith)
    ⟨1, 0, A.ANG_0, key_t, key_ang, prealloc A.T A.t_min A.ANG_0⟩ trivial rfl rfl rfl
    (by exact bufOf_start _ _) (by
      intro s _ _
      obtain ⟨key, key', kt, ka, h⟩ := hstep s
      rw [h]
      exact ⟨trivial, ⟨key, key', rfl, rfl⟩, rfl, rfl⟩)
  refine ⟨kn, s'.key_ang, h2, ?_⟩
  unfold angle_knots
  rw [h1]
  show some (fill_rest s'.ANG s'.i, s'.key_ang) = _
  rw [h3]

theorem angStep_gap (A : AngleArgs) (a b : ℝ × ℝ) (h : AngStep R A a b) :
    a.1 + A.t_min ≤ b.1 := by
  obtain ⟨key, key', e1, -⟩ := h
  rw [e1]
  have := scaleU_ge (R.uniform key) A.t_min (A.t_max a.1)
  unfold Rng.uniformIn
  linarith

/-- bounds on the next angle -/
theorem next_phi_ge_rom (A : RomArgs) (prev_phi : ℝ) (key : K) (dt : ℝ) :
    A.rom_lower ≤ _next_phi R A prev_phi key dt := by
  unfold _next_phi Rng.uniformIn
  exact (le_max_right _ _).trans (scaleU_ge _ _ _)

theorem clip_ge (x : ℝ) : -π ≤ _clip_to_pi x := by
  unfold _clip_to_pi
  exact le_min (le_max_right _ _) (by linarith [Real.pi_pos])

theorem clip_le (x : ℝ) : _clip_to_pi x ≤ π := min_le_right _ _

theorem next_phi_pi (hR : R.Ok) (A : RomArgs) (hr : A.range_of_motion = true)
    (hlow : A.rom_lower ≤ π) (prev_phi : ℝ) (key : K) (dt : ℝ) :
    -π ≤ _next_phi R A prev_phi key dt ∧ _next_phi R A prev_phi key dt ≤ π := by
  unfold _next_phi Rng.uniformIn
  simp only [hr, if_true]
  constructor
  · refine le_trans ?_ (scaleU_ge _ _ _)
    exact le_max_of_le_left (le_min (clip_ge _) (clip_ge _))
  · refine (scaleU_le_max (hR.uniform _).1 (hR.uniform _).2).trans ?_
    refine max_le (max_le (min_le_of_left_le (clip_le _)) hlow) ?_
    exact min_le_of_left_le (max_le (clip_le _) (clip_le _))

theorem clip_mono {x y : ℝ} (h : x ≤ y) : _clip_to_pi x ≤ _clip_to_pi y := by
  unfold _clip_to_pi
  exact min_le_min_right _ (max_le_max_right _ h)

theorem clip_id {x : ℝ} (h0 : -π ≤ x) (h1 : x ≤ π) : _clip_to_pi x = x := by
  unfold _clip_to_pi
  rw [max_eq_left h0, min_eq_left h1]

/-- Without a minimal speed the next angle stays below the upper end too. -/
theorem next_phi_le_rom (hR : R.Ok) (A : RomArgs) (h0 : A.dang_min = 0)
    (prev_phi : ℝ) (hpi : A.range_of_motion = true → -π ≤ prev_phi ∧ prev_phi ≤ π)
    (hup : prev_phi ≤ A.rom_upper) (hlu : A.rom_lower ≤ A.rom_upper) (key : K) (dt : ℝ) :
    _next_phi R A prev_phi key dt ≤ A.rom_upper := by
  unfold _next_phi Rng.uniformIn
  refine (scaleU_le_max (hR.uniform _).1 (hR.uniform _).2).trans ?_
  refine max_le (max_le ?_ hlu) (min_le_right _ _)
  apply min_le_of_left_le
  rw [h0, mul_zero, zero_mul, add_zero]
  split
  · rename_i h
    rw [clip_id (hpi h).1 (hpi h).2]
    exact hup
  · exact hup

/-! ## positions -/

/-- the position drawn with `key` from knot `a` for time `t` -/
noncomputable def posCand (A : PosArgs) (a : ℝ × ℝ) (t : ℝ) (key : K) : ℝ :=
  a.2 + (if R.choice (R.split key 3 1) (1 / 2) then (-1 : ℝ) else 1) *
    R.uniformIn (R.split key 3 2) (A.dpos_min a.1) (A.dpos_max a.1) * (t - a.1)

/-- the keys of the rejection loop -/
def posKey (key : K) (j : Nat) : K := (fun k => R.split k 3 0)^[j] key

/-- position `b` is acceptable after `a` -/
def PosOk (A : PosArgs) (a b : ℝ × ℝ) : Prop :=
  |(b.2 - a.2) / (b.1 - a.1)| < A.dpos_max a.1 ∧ |(b.2 - a.2) / (b.1 - a.1)| > A.dpos_min a.1 ∧
    b.2 ≥ A.pos_min a.1 ∧ b.2 ≤ A.pos_max a.1

/-- one step from knot `a` to knot `b`: either an accepted draw, or, when all `max_it + 1` draws were
rejected, the last of them -/
def PosStep (A : PosArgs) (a b : ℝ × ℝ) : Prop :=
  ∃ key key' : K, b.1 = a.1 + R.uniformIn key A.t_min (A.t_max a.1) ∧
    ((PosOk A a b ∧ (b.2 = a.2 ∨ ∃ j, j ≤ A.max_it ∧ b.2 = posCand R A a b.1 (posKey R key' j))) ∨
     ((∀ j, j ≤ A.max_it → ¬ PosOk A a (b.1, posCand R A a b.1 (posKey R key' j))) ∧
      b.2 = posCand R A a b.1 (posKey R key' A.max_it)))

theorem posStep_gap (A : PosArgs) (a b : ℝ × ℝ) (h : PosStep R A a b) : a.1 + A.t_min ≤ b.1 := by
  obtain ⟨key, key', e1, -⟩ := h
  rw [e1]
  have := scaleU_ge (R.uniform key) A.t_min (A.t_max a.1)
  unfold Rng.uniformIn
  linarith

theorem pos_inner_iter (A : PosArgs) (a : ℝ × ℝ) (t : ℝ) (key : K) (n : Nat)
    (hn : n ≤ A.max_it + 1) :
    (pos_body_inner R A)^[n] ⟨0, t, a.1, a.2, a.2, key⟩ =
      ⟨n, t, a.1, if n = 0 then a.2 else posCand R A a t (posKey R key (n - 1)), a.2,
        posKey R key n⟩ := by
  induction n with
  | zero => rfl
  | succ n ih =>
    rw [Function.iterate_succ_apply', ih (by omega)]
    unfold pos_body_inner
    rw [if_neg (by simp only; omega)]
    simp only [Nat.add_sub_cancel, Nat.succ_ne_zero, if_false]
    unfold posKey
    rw [Function.iterate_succ_apply']
    rfl

theorem pos_accept_iff (A : PosArgs) (i : Nat) (a : ℝ × ℝ) (t x : ℝ) (key : K) :
    pos_accept A ⟨i, t, a.1, x, a.2, key⟩ ↔ PosOk A a (t, x) := Iff.rfl

/-- The rejection loop ends with an accepted draw or with the last rejected one. -/
theorem pos_inner_ok (A : PosArgs) (a : ℝ × ℝ) (t : ℝ) (key : K) :
    ∃ x i key', whileLoop (pos_cond_inner A) (pos_body_inner R A) ⟨0, t, a.1, a.2, a.2, key⟩ =
        some ⟨i, t, a.1, x, a.2, key'⟩ ∧
      ((PosOk A a (t, x) ∧ (x = a.2 ∨ ∃ j, j ≤ A.max_it ∧ x = posCand R A a t (posKey R key j))) ∨
       ((∀ j, j ≤ A.max_it → ¬ PosOk A a (t, posCand R A a t (posKey R key j))) ∧
        x = posCand R A a t (posKey R key A.max_it))) := by
  obtain ⟨s', hs'⟩ := whileLoop_isSome (cond := pos_cond_inner A) (body := pos_body_inner R A)
    (s := ⟨0, t, a.1, a.2, a.2, key⟩) (A.max_it + 1) (by
      rw [pos_inner_iter R A a t key _ le_rfl]
      unfold pos_cond_inner
      intro h
      apply h
      right
      show A.max_it + 1 > A.max_it
      omega)
  obtain ⟨n, e, hc, hk⟩ := whileLoop_spec hs'
  have hn : n ≤ A.max_it + 1 := by
    by_contra hn
    have := hk (A.max_it + 1) (by omega)
    rw [pos_inner_iter R A a t key _ le_rfl] at this
    apply this
    right
    show A.max_it + 1 > A.max_it
    omega
  rw [pos_inner_iter R A a t key n hn] at e
  refine ⟨_, _, _, by rw [hs', e], ?_⟩
  rw [e] at hc
  unfold pos_cond_inner at hc
  rw [not_not] at hc
  by_cases hacc : PosOk A a (t, if n = 0 then a.2 else posCand R A a t (posKey R key (n - 1)))
  · left
    refine ⟨hacc, ?_⟩
    by_cases h0 : n = 0
    · left; rw [if_pos h0]
    · right
      exact ⟨n - 1, by omega, by rw [if_neg h0]⟩
  · right
    rw [pos_accept_iff] at hc
    have hgt : n > A.max_it := by
      rcases hc with h | h
      · exact absurd h hacc
      · exact h
    have hne : n = A.max_it + 1 := by omega
    subst hne
    rw [if_neg (by omega), Nat.add_sub_cancel] at hacc ⊢
    refine ⟨?_, rfl⟩
    intro j hj
    rcases hj.lt_or_eq with hj | hj
    · have := hk (j + 1) (by omega)
      rw [pos_inner_iter R A a t key _ (by omega)] at this
      unfold pos_cond_inner at this
      rw [pos_accept_iff, if_neg (by omega), Nat.add_sub_cancel] at this
      intro h
      exact this (Or.inl h)
    · rw [hj]
      exact hacc

/-- The knots of `random_position_over_time`. -/
theorem position_knots_eq (A : PosArgs) (ht : 0 < A.t_min) (hT : 0 ≤ A.T) (key : K) :
    ∃ kn key', IsKnots (PosStep R A) A.POS_0 A.T kn ∧ position_knots R A key =
      some (layout (⌊A.T / A.t_min⌋.toNat + 1) (kn.map (knotRow A.Ts)), key') := by
  obtain ⟨s', kn, h1, -, h2, -, h3⟩ := knot_loop (pos_body R A) (fun s => s.t) (fun s => s.i)
    (fun s => s.x) (fun s => s.POS) (fun s => s.t_pre = s.t ∧ s.x_pre = s.x) (PosStep R A) A.T
    A.t_min A.Ts A.POS_0 (⌊A.T / A.t_min⌋.toNat + 1) (by omega) ht hT (posStep_gap R A)
    ⟨1, 0, 0, A.POS_0, A.POS_0, key, prealloc A.T A.t_min A.POS_0⟩ ⟨rfl, rfl⟩ rfl rfl rfl
    (by exact bufOf_start _ _) (by
      rintro s ⟨e1, e2⟩ -
      obtain ⟨x, i, key', h1, h2⟩ := pos_inner_ok R A (s.t, s.x)
        (s.t + R.uniformIn (R.split s.key 2 1) A.t_min (A.t_max s.t)) (R.split s.key 2 0)
      unfold pos_body
      simp only [e1, e2] at h1 ⊢
      rw [h1]
      exact ⟨⟨rfl, rfl⟩, ⟨R.split s.key 2 1, R.split s.key 2 0, rfl, h2⟩, rfl, rfl⟩)
  refine ⟨kn, s'.key, h2, ?_⟩
  unfold position_knots
  rw [h1]
  show some (fill_rest s'.POS s'.i, s'.key) = _
  rw [h3]

/-! ## resampling -/

theorem sample_times_nonneg {T Ts : ℝ} (hTs : 0 < Ts) {N : Option Nat} {t : ℝ}
    (h : t ∈ sample_times T Ts N) : 0 ≤ t := by
  unfold sample_times at h
  rw [List.mem_map] at h
  obtain ⟨k, -, rfl⟩ := h
  exact mul_nonneg (Nat.cast_nonneg k) hTs.le

/-- Any bounds on the knots are bounds on the resampled trajectory, which has one value per sample
time. -/
theorem resample_bounds (ri : Bool) (n : Nat) (m : Option Nat) (hn : 1 ≤ n) (hm : ∀ k ∈ m, n ≤ k)
    (method : InterpMethod) {T Ts : ℝ} (hTs : 0 < Ts) (N : Option Nat) {Q} {x0 t_min : ℝ}
    {kn : List (ℝ × ℝ)} (h : IsKnots Q x0 T kn) (hQ : ∀ a b, Q a b → a.1 + t_min ≤ b.1)
    (ht : 0 < t_min) (hT : 0 ≤ T) (L : Nat) (hL : 0 < L) (key : K) (lo hi : ℝ)
    (hb : ∀ k ∈ kn, lo ≤ k.2 ∧ k.2 ≤ hi) :
    ∃ q, resample R ri n m method T Ts N (layout L (kn.map (knotRow Ts))) key = some q ∧
      q.length = (sample_times T Ts N).length ∧ ∀ y ∈ q, lo ≤ y ∧ y ≤ hi := by
  have h2 := IsKnots.two_le h hT
  set buf := layout L (kn.map (knotRow Ts)) with hbuf
  have hlen : buf.length = L := layout_length _ _
  have hsort := layout_sorted h hQ ht hT hTs L
  rw [← hbuf] at hsort
  have hfp : ∀ y ∈ buf.map (·.2), lo ≤ y ∧ y ≤ hi := by
    intro y hy
    obtain ⟨k, hk, rfl⟩ := layout_mem (by omega) hy
    exact hb k hk
  have key_bound : ∀ (g : ℝ → ℝ → ℝ → ℝ) (_ : TwoPoint g) (w : Int → ℝ → ℝ)
      (_ : ∀ i, UnitMap (w i)) (t : ℝ), 0 ≤ t →
      lo ≤ interpWith g w t (buf.map (·.1)) (buf.map (·.2)) ∧
      interpWith g w t (buf.map (·.1)) (buf.map (·.2)) ≤ hi := by
    intro g hg w hw t ht0
    rcases Nat.lt_or_ge 1 L with hL2 | hL2
    · refine interpWith_bounds g hg w hw _ _ hsort (by simp) (by simpa [hlen] using hL) t lo hi ?_
        hfp
      obtain ⟨j, hj, e, hj'⟩ := layout_getElem L Ts kn (by omega) 0
        (by rw [layout_length]; exact hL)
      rw [if_pos (by omega)] at hj'
      have hj0 : j = 0 := by omega
      subst hj0
      have hstart := h.start
      rw [List.head?_eq_getElem?, List.getElem?_eq_getElem hj] at hstart
      rw [List.getElem_map]
      rw [e, Option.some.inj hstart]
      simpa [knotRow, floorTo] using ht0
    · have hL1 : buf.length = 1 := by omega
      obtain ⟨r, hr⟩ := List.length_eq_one_iff.mp hL1
      rw [hr] at hfp ⊢
      simp only [List.map_cons, List.map_nil]
      rw [interpWith_one]
      exact hfp _ (by simp)
  cases ri with
  | false =>
    refine ⟨_, rfl, by simp, ?_⟩
    intro y hy
    rw [List.mem_map] at hy
    obtain ⟨t, htm, rfl⟩ := hy
    rw [cosInterpolate_eq]
    exact key_bound _ cos_twoPoint _ (fun _ => UnitMap.id) t (sample_times_nonneg hTs htm)
  | true =>
    obtain ⟨w, hw, he⟩ := interpolate_eq R n m hn hm method (buf.map (·.1)) (buf.map (·.2)) key
    refine ⟨(sample_times T Ts N).map fun t => interpWith (two_point_interp method) w t
      (buf.map (·.1)) (buf.map (·.2)), ?_, by simp, ?_⟩
    · unfold resample
      rw [if_pos rfl]
      simp only [he]
      exact List.mapM_pure (m := Option)
    · intro y hy
      rw [List.mem_map] at hy
      obtain ⟨t, htm, rfl⟩ := hy
      exact key_bound _ (two_point_interp_twoPoint method) _ hw t (sample_times_nonneg hTs htm)

end random
end RingLib
