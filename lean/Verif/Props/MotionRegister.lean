import Verif.Model.MotionRegister
import Verif.Props.DrawQ

/-!
# C109: what is called feasible, and the register of motions
-/

namespace RingLib
namespace jcalc
open random System generator

/-! ## Specification -/

/-- there is a move: a time and a change within their bounds, at a speed within its bounds -/
def Move (t_min t_max v_min v_max d_min d_max : ℝ) : Prop :=
  ∃ t d, t_min ≤ t ∧ t ≤ t_max ∧ d_min ≤ d ∧ d ≤ d_max ∧ v_min * t ≤ d ∧ d ≤ v_max * t

/-- a motion can start: hinges and free joints have a first move, positions start inside their boxes, and within the range
of motion there are angles further apart than the smallest change -/
structure CanStart (c : MotionConfig) : Prop where
  hinge : Move c.t_min (c.t_max.at 0) (c.dang_min.at 0) (c.dang_max.at 0) (c.delta_ang_min.at 0) (c.delta_ang_max.at 0)
  free : Move c.t_min (c.t_max.at 0) (c.dang_min_free_spherical.at 0) (c.dang_max_free_spherical.at 0)
    (c.delta_ang_min_free_spherical.at 0) (c.delta_ang_max_free_spherical.at 0)
  pos : ∀ x, c.pos0_min ≤ x → x ≤ c.pos0_max → c.pos_min.at 0 ≤ x ∧ x ≤ c.pos_max.at 0
  x : ∀ x, c.pos0_min_p3d_x ≤ x → x ≤ c.pos0_max_p3d_x → c.pos_min_p3d_x.at 0 ≤ x ∧ x ≤ c.pos_max_p3d_x.at 0
  y : ∀ x, c.pos0_min_p3d_y ≤ x → x ≤ c.pos0_max_p3d_y → c.pos_min_p3d_y.at 0 ≤ x ∧ x ≤ c.pos_max_p3d_y.at 0
  z : ∀ x, c.pos0_min_p3d_z ≤ x → x ≤ c.pos0_max_p3d_z → c.pos_min_p3d_z.at 0 ≤ x ∧ x ≤ c.pos_max_p3d_z.at 0
  rom : ∃ a b, |a| ≤ c.rom_halfsize.at 0 ∧ |b| ≤ c.rom_halfsize.at 0 ∧ c.delta_ang_min.at 0 < |a - b|

/-- the bounds of a configuration are in order -/
structure Ordered (c : MotionConfig) : Prop where
  t_min : 0 < c.t_min
  t : c.t_min ≤ c.t_max.at 0
  v0 : 0 ≤ c.dang_min.at 0
  v : c.dang_min.at 0 ≤ c.dang_max.at 0
  vf0 : 0 ≤ c.dang_min_free_spherical.at 0
  vf : c.dang_min_free_spherical.at 0 ≤ c.dang_max_free_spherical.at 0
  d0 : 0 ≤ c.delta_ang_min.at 0
  d : c.delta_ang_min.at 0 ≤ c.delta_ang_max.at 0
  df0 : 0 ≤ c.delta_ang_min_free_spherical.at 0
  df : c.delta_ang_min_free_spherical.at 0 ≤ c.delta_ang_max_free_spherical.at 0
  pos0 : c.pos0_min ≤ c.pos0_max
  x0 : c.pos0_min_p3d_x ≤ c.pos0_max_p3d_x
  y0 : c.pos0_min_p3d_y ≤ c.pos0_max_p3d_y
  z0 : c.pos0_min_p3d_z ≤ c.pos0_max_p3d_z

/-! ## Proofs -/

theorem check_iff {t_min t_max : ℝ} {v_min v_max d_min d_max : TDF} (ht : 0 < t_min) (ht' : t_min ≤ t_max)
    (hv0 : 0 ≤ v_min.at 0) (hv : v_min.at 0 ≤ v_max.at 0) (hd0 : 0 ≤ d_min.at 0) (hd : d_min.at 0 ≤ d_max.at 0) :
    dx_deltax_check t_min t_max v_min v_max d_min d_max ↔
      Move t_min t_max (v_min.at 0) (v_max.at 0) (d_min.at 0) (d_max.at 0) := by
  unfold dx_deltax_check
  have htm : 0 < t_max := ht.trans_le ht'
  rw [not_lt, gt_iff_lt, not_lt, le_div_iff₀ ht, div_le_iff₀ htm]
  generalize v_min.at 0 = v1 at *
  generalize v_max.at 0 = v2 at *
  generalize d_min.at 0 = d1 at *
  generalize d_max.at 0 = d2 at *
  constructor
  · rintro ⟨h1, h2⟩
    by_cases hslow : d1 ≤ v2 * t_min
    · -- the shortest time
      refine ⟨t_min, max d1 (v1 * t_min), le_rfl, ht', le_max_left _ _, max_le hd h1, le_max_right _ _, ?_⟩
      exact max_le hslow (mul_le_mul_of_nonneg_right hv ht.le)
    · push Not at hslow
      have hv2 : 0 < v2 := by
        by_contra hc
        push Not at hc
        nlinarith
      refine ⟨d1 / v2, d1, ?_, ?_, le_rfl, hd, ?_, ?_⟩
      · rw [le_div_iff₀ hv2]; linarith
      · rw [div_le_iff₀ hv2]; linarith
      · rw [mul_div_assoc', div_le_iff₀ hv2]
        nlinarith
      · rw [mul_div_cancel₀ _ hv2.ne']
  · rintro ⟨t, d, a1, a2, b1, b2, c1, c2⟩
    constructor
    · nlinarith
    · nlinarith

theorem box_iff {lo hi a b : ℝ} (h : a ≤ b) :
    inside_box_checks lo hi a b ↔ ∀ x, a ≤ x → x ≤ b → lo ≤ x ∧ x ≤ hi :=
  ⟨fun ⟨h1, h2⟩ _ hx hx' => ⟨le_trans h1 hx, le_trans hx' h2⟩, fun hh => ⟨(hh a le_rfl h).1, (hh b h le_rfl).2⟩⟩

theorem rom_iff {d h : ℝ} (hd : 0 ≤ d) : d < 2 * h ↔ ∃ a b, |a| ≤ h ∧ |b| ≤ h ∧ d < |a - b| := by
  constructor
  · intro hh
    have h0 : 0 < h := by linarith
    refine ⟨h, -h, (abs_of_pos h0).le, by rw [abs_neg, abs_of_pos h0], ?_⟩
    rw [sub_neg_eq_add, abs_of_pos (by linarith)]
    linarith
  · rintro ⟨a, b, h1, h2, h3⟩
    have := abs_sub a b
    linarith

/-! ## C109 -/

/-- **C109**: a configuration with bounds in order is called feasible if and only if the motion can start. -/
theorem C109_feasible {c : MotionConfig} (h : Ordered c) : _is_feasible_config1 c ↔ CanStart c := by
  have e1 := check_iff (v_min := c.dang_min) (v_max := c.dang_max) (d_min := c.delta_ang_min) (d_max := c.delta_ang_max)
    h.t_min h.t h.v0 h.v h.d0 h.d
  have e2 := check_iff (v_min := c.dang_min_free_spherical) (v_max := c.dang_max_free_spherical)
    (d_min := c.delta_ang_min_free_spherical) (d_max := c.delta_ang_max_free_spherical) h.t_min h.t h.vf0 h.vf h.df0 h.df
  unfold _is_feasible_config1
  rw [e1, e2, box_iff h.pos0, box_iff h.x0, box_iff h.y0, box_iff h.z0, rom_iff h.d0]
  exact ⟨fun ⟨a, b, c, d, e, f, g⟩ => ⟨a, b, c, d, e, f, g⟩, fun ⟨a, b, c, d, e, f, g⟩ => ⟨a, b, c, d, e, f, g⟩⟩

/-- what is needed to draw motions at every rate -/
structure Good (c : MotionConfig) : Prop where
  ordered : Ordered c
  starts : CanStart c
  drawable : ∀ dt, 0 < dt → Drawable c dt
  rom : ∀ t, 0 ≤ c.rom_halfsize.at t

theorem check_of {t_min t_max : ℝ} {v_min v_max d_min d_max : TDF} (ht : 0 < t_min) (ht' : 0 < t_max)
    (h1 : v_min.at 0 * t_min ≤ d_max.at 0) (h2 : d_min.at 0 ≤ v_max.at 0 * t_max) :
    dx_deltax_check t_min t_max v_min v_max d_min d_max := by
  unfold dx_deltax_check
  rw [not_lt, gt_iff_lt, not_lt, le_div_iff₀ ht, div_le_iff₀ ht']
  exact ⟨h1, h2⟩

theorem good_of {c : MotionConfig} (h : Ordered c) (f : _is_feasible_config1 c) (hT : 0 ≤ c.T) (hc : 0 < c.cor_t_min)
    (hb : 1 ≤ c.cdf_bins_min) (hb' : ∀ k ∈ c.cdf_bins_max, c.cdf_bins_min ≤ k) (hr : ∀ t, 0 ≤ c.rom_halfsize.at t) :
    Good c :=
  ⟨h, (C109_feasible h).1 f, fun _ hdt => ⟨hT, hdt, h.t_min, hc, hb, hb'⟩, hr⟩

/-- the configuration of free and cor joints in the slow variants -/
noncomputable def slowed (c : MotionConfig) (dang dpos : ℝ) : MotionConfig :=
  { _joint_specific_overwrites_free_cor c dang dpos with
    dang_max_free_spherical := .const dang
    dpos_max := .const dpos
    cor_dpos_max := .const dpos
    t_min := 1.5
    t_max := .const 15 }

theorem slowed_eq (c : MotionConfig) (dang dpos : ℝ) :
    replace_fields (_joint_specific_overwrites_free_cor c dang dpos) (changes_free_cor dang dpos) =
      .ok (slowed c dang dpos) := by
  rfl

macro "good" : tactic => `(tactic| (
  have p3 := Real.pi_gt_three
  have p4 := Real.pi_le_four
  apply good_of
  · constructor <;>
      simp only [hinUndHer, langsam, standard, expFast, expSlow, expFastNoSig, expSlowNoSig, verySlow, deg2rad, TDF.at,
        slowed, _joint_specific_overwrites_free_cor] <;> norm_num <;> linarith
  · refine ⟨check_of ?_ ?_ ?_ ?_, check_of ?_ ?_ ?_ ?_, ⟨?_, ?_⟩, ⟨?_, ?_⟩, ⟨?_, ?_⟩, ⟨?_, ?_⟩, ?_⟩ <;>
      simp only [hinUndHer, langsam, standard, expFast, expSlow, expFastNoSig, expSlowNoSig, verySlow, deg2rad, TDF.at,
        slowed, _joint_specific_overwrites_free_cor] <;> norm_num <;> linarith
  · norm_num [hinUndHer, langsam, standard, expFast, expSlow, expFastNoSig, expSlowNoSig, verySlow,
      slowed, _joint_specific_overwrites_free_cor]
  · norm_num [hinUndHer, langsam, standard, expFast, expSlow, expFastNoSig, expSlowNoSig, verySlow,
      slowed, _joint_specific_overwrites_free_cor]
  · norm_num [hinUndHer, langsam, standard, expFast, expSlow, expFastNoSig, expSlowNoSig, verySlow,
      slowed, _joint_specific_overwrites_free_cor]
  · intro k hk
    simp only [hinUndHer, langsam, standard, expFast, expSlow, expFastNoSig, expSlowNoSig, verySlow,
      slowed, _joint_specific_overwrites_free_cor, Option.mem_def] at hk ⊢
    cases hk <;> norm_num
  · intro t
    simp only [hinUndHer, langsam, standard, expFast, expSlow, expFastNoSig, expSlowNoSig, verySlow, TDF.at,
      slowed, _joint_specific_overwrites_free_cor]
    linarith))

theorem good_registered0 {name : String} {c : MotionConfig} (h : (name, c) ∈ registered0) : Good c := by
  simp only [registered0, List.mem_cons, Prod.mk.injEq, List.not_mem_nil, or_false] at h
  rcases h with ⟨-, rfl⟩ | ⟨-, rfl⟩ | ⟨-, rfl⟩ | ⟨-, rfl⟩ | ⟨-, rfl⟩ | ⟨-, rfl⟩ | ⟨-, rfl⟩ | ⟨-, rfl⟩ <;> good

theorem good_slowed {c : MotionConfig} (hc : c = hinUndHer ∨ c = standard ∨ c = expFast ∨ c = expSlow) {dang : ℝ}
    (h1 : 0.1 ≤ dang) (dpos : ℝ) :
    Good (_joint_specific_overwrites_free_cor c dang dpos) ∧ Good (slowed c dang dpos) := by
  rcases hc with rfl | rfl | rfl | rfl <;> constructor <;> good

theorem lookup_mem {name : String} {c : MotionConfig} {d : Dict MotionConfig} (h : d.lookup name = some c) :
    (name, c) ∈ d := by
  induction d with
  | nil => cases h
  | cons x xs ih =>
    obtain ⟨n, v⟩ := x
    rw [List.lookup_cons] at h
    by_cases e : name == n
    · rw [e] at h
      obtain rfl : v = c := Option.some.inj h
      rw [beq_iff_eq.1 e]
      exact List.mem_cons_self
    · rw [Bool.not_eq_true] at e
      rw [e] at h
      exact List.mem_cons_of_mem _ (ih h)

theorem linkConfig_none {c : MotionConfig} (h : c.joint_type_specific_overwrites = []) (t : String) :
    IsLinkConfig c t c := by
  unfold IsLinkConfig
  rw [h]
  rfl

theorem linkConfig_slowed {c : MotionConfig} {dang dpos : ℝ} (t : String) :
    IsLinkConfig (_joint_specific_overwrites_free_cor c dang dpos) t
      (if t = "free" ∨ t = "cor" then slowed c dang dpos else _joint_specific_overwrites_free_cor c dang dpos) := by
  have e : (_joint_specific_overwrites_free_cor c dang dpos).joint_type_specific_overwrites =
    [("free", changes_free_cor dang dpos), ("cor", changes_free_cor dang dpos)] := rfl
  unfold IsLinkConfig
  rw [e]
  by_cases h1 : t = "free"
  · subst h1
    rw [if_pos (.inl rfl)]
    exact slowed_eq c dang dpos
  · by_cases h2 : t = "cor"
    · subst h2
      rw [if_pos (.inr rfl)]
      exact slowed_eq c dang dpos
    · rw [if_neg (by tauto)]
      have b1 : (t == "free") = false := beq_eq_false_iff_ne.2 h1
      have b2 : (t == "cor") = false := beq_eq_false_iff_ne.2 h2
      rw [List.lookup_cons, b1]
      dsimp only
      rw [List.lookup_cons, b2]
      rfl

/-- **C109**: every motion in the register is feasible, its bounds are in order and it can be drawn at every rate, and so
is what it becomes for every joint type. -/
theorem C109_register {name : String} {config : MotionConfig} (h : from_register name = .ok config) :
    Good config ∧ _is_feasible_config1 config ∧
      ∀ t, ∃ c, IsLinkConfig config t c ∧ Good c ∧ _is_feasible_config1 c := by
  have key : Good config ∧ ∀ t, ∃ c, IsLinkConfig config t c ∧ Good c := by
    unfold from_register at h
    cases e : registered.lookup name with
    | none => rw [e] at h; cases h
    | some c =>
      rw [e] at h
      obtain rfl : c = config := Except.ok.inj h
      have hm := lookup_mem e
      have slow : ∀ {c : MotionConfig} {dang dpos : ℝ}, c = hinUndHer ∨ c = standard ∨ c = expFast ∨ c = expSlow →
          0.1 ≤ dang → Good (_joint_specific_overwrites_free_cor c dang dpos) ∧
            ∀ t, ∃ c', IsLinkConfig (_joint_specific_overwrites_free_cor c dang dpos) t c' ∧ Good c' := by
        intro c dang dpos hc hd
        obtain ⟨g1, g2⟩ := good_slowed hc hd dpos
        refine ⟨g1, fun t => ⟨_, linkConfig_slowed t, ?_⟩⟩
        split
        · exact g2
        · exact g1
      unfold registered at hm
      rw [List.mem_append, List.mem_append] at hm
      rcases hm with (hm | hm) | hm
      · have hg := good_registered0 hm
        refine ⟨hg, fun t => ⟨_, linkConfig_none ?_ t, hg⟩⟩
        simp only [registered0, List.mem_cons, Prod.mk.injEq, List.not_mem_nil, or_false] at hm
        rcases hm with ⟨-, rfl⟩ | ⟨-, rfl⟩ | ⟨-, rfl⟩ | ⟨-, rfl⟩ | ⟨-, rfl⟩ | ⟨-, rfl⟩ | ⟨-, rfl⟩ | ⟨-, rfl⟩ <;> rfl
      · simp only [List.mem_cons, Prod.mk.injEq, List.not_mem_nil, or_false] at hm
        rcases hm with ⟨-, rfl⟩ | ⟨-, rfl⟩ | ⟨-, rfl⟩ | ⟨-, rfl⟩ <;> exact slow (by simp) (by norm_num)
      · simp only [List.mem_cons, Prod.mk.injEq, List.not_mem_nil, or_false] at hm
        rcases hm with ⟨-, rfl⟩ | ⟨-, rfl⟩ | ⟨-, rfl⟩ | ⟨-, rfl⟩ <;> exact slow (by simp) (by norm_num)
  refine ⟨key.1, (C109_feasible key.1.ordered).2 key.1.starts, fun t => ?_⟩
  obtain ⟨c, h1, h2⟩ := key.2 t
  exact ⟨c, h1, h2, (C109_feasible h2.ordered).2 h2.starts⟩

/-- the names in the register -/
def registeredNames : List String :=
  ["hinUndHer", "langsam", "standard", "expFast", "expSlow", "expFastNoSig", "expSlowNoSig", "verySlow",
   "expSlow-S", "expFast-S", "hinUndHer-S", "standard-S", "expSlow-S+", "expFast-S+", "hinUndHer-S+", "standard-S+"]

/-- **C109**: these names are known, all others raise `KeyError`. -/
theorem C109_names (name : String) :
    (name ∈ registeredNames → ∃ c, from_register name = .ok c) ∧
      (name ∉ registeredNames → from_register name = .error .key) := by
  have hk : registered.map (·.1) = registeredNames := rfl
  have key : ∀ d : Dict MotionConfig, (name ∈ d.map (·.1) → ∃ c, d.lookup name = some c) ∧
      (name ∉ d.map (·.1) → d.lookup name = none) := by
    intro d
    induction d with
    | nil => simp
    | cons x xs ih =>
      obtain ⟨n, v⟩ := x
      rw [List.lookup_cons, List.map_cons]
      by_cases e : name = n
      · subst e
        simp
      · have b : (name == n) = false := beq_eq_false_iff_ne.2 e
        rw [b]
        simpa [e] using ih
  rw [← hk]
  unfold from_register
  constructor
  · intro h
    obtain ⟨c, hc⟩ := (key registered).1 h
    rw [hc]
    exact ⟨c, rfl⟩
  · intro h
    rw [(key registered).2 h]

/-- **C109**: every motion in the register is drawn for every system of built-in joints. -/
theorem C109_draw {K π : Type} {E : JEnv ℝ π} {R : Rng K} {draw : DrawEnv K π} {s : System ℝ π} {name : String}
    {config : MotionConfig} (h : from_register name = .ok config) (std : E.Std) (hd : DrawStd R draw)
    (wf : s.WF E.toEnv) (hp : "default" ∈ s.joint_params.map (·.1)) (hb : s.JointsIn fun _ => True)
    (hn : 0 < s.link_parents.length) (hR : R.Ok) (hdt : 0 < s.dt) (key : K) (n : Nat) :
    ∃ key' q, draw_random_q E.toEnv R draw key s config (some n) = .ok (key', q) ∧ q.length = n ∧
      ∀ row ∈ q, row.length = (s.link_types.map (wOf E.qw)).sum ∧ s.UnitQ E row := by
  obtain ⟨q, h1, h2, h3, -⟩ := C65_draw (E := E) (R := R) (draw := draw) (s := s) (config := config)
    ⟨std, hd, wf, hp, hb, hn, hR, fun t _ => by
      obtain ⟨c, a, b, -⟩ := (C109_register h).2.2 t
      exact ⟨c, a, b.drawable _ hdt, b.rom⟩⟩ key n
  exact ⟨_, q, h1, h2, h3⟩

/-! ## What does not hold -/

/-- a configuration that from half a second on asks for no speed at all, but for a change -/
noncomputable def stops : MotionConfig :=
  { standard with
    dang_min := .const 0
    dang_max := .fn fun t => if t < 1 / 2 then 3 else 0
    delta_ang_min := .const 0.1 }

/-- **C109 fails** for bounds that depend on time: only the start is looked at. -/
theorem C109_later_fails : Ordered stops ∧ _is_feasible_config1 stops ∧
    ¬ Move stops.t_min (stops.t_max.at 1) (stops.dang_min.at 1) (stops.dang_max.at 1) (stops.delta_ang_min.at 1)
      (stops.delta_ang_max.at 1) := by
  have p3 := Real.pi_gt_three
  refine ⟨?_, ?_, ?_⟩
  · constructor <;> simp only [stops, standard, TDF.at] <;> norm_num <;> linarith
  · refine ⟨check_of ?_ ?_ ?_ ?_, check_of ?_ ?_ ?_ ?_, ⟨?_, ?_⟩, ⟨?_, ?_⟩, ⟨?_, ?_⟩, ⟨?_, ?_⟩, ?_⟩ <;>
      simp only [stops, standard, TDF.at] <;> norm_num <;> linarith
  · rintro ⟨t, d, -, -, h3, -, -, h6⟩
    simp only [stops, standard, TDF.at] at h3 h6
    norm_num at h3 h6
    linarith

/-- **C109 fails** for the fields of single joint types and of the centre of rotation: feasibility does not depend on
them, so a feasible configuration can be infeasible for free joints, and can start a centre of rotation outside its box. -/
theorem C109_overwrites_fails (c : MotionConfig) (hc : _is_feasible_config1 c) :
    ∃ c', _is_feasible_config1 c' ∧ c'.cor_pos0_min < c'.cor_pos_min.at 0 ∧
      ∃ f, IsLinkConfig c' "free" f ∧ ¬ _is_feasible_config1 f := by
  refine ⟨{ c with
    cor_pos0_min := c.cor_pos_min.at 0 - 1
    joint_type_specific_overwrites := [("free", [("pos0_min", c.pos_min.at 0 - 1)])] }, hc, ?_, ?_⟩
  · show c.cor_pos_min.at 0 - 1 < c.cor_pos_min.at 0
    linarith
  · refine ⟨{ c with
      cor_pos0_min := c.cor_pos_min.at 0 - 1
      joint_type_specific_overwrites := [("free", [("pos0_min", c.pos_min.at 0 - 1)])]
      pos0_min := c.pos_min.at 0 - 1 }, rfl, ?_⟩
    intro hf
    have : c.pos_min.at 0 - 1 ≥ c.pos_min.at 0 := hf.2.2.1.1
    linarith

/-- **C64, C109 fail** for motions with overwrites: without motion, the slow variants still let free joints move. -/
theorem C109_nomotion_fails : ∃ config n f, from_register "standard-S" = .ok config ∧
    config.to_nomotion_config = .ok n ∧ IsLinkConfig n "free" f ∧ f.dang_max_free_spherical = .const 0.2 ∧
    f.dpos_max = .const 0.1 := by
  classical
  have p3 := Real.pi_gt_three
  have hr : from_register "standard-S" = .ok (_joint_specific_overwrites_free_cor standard 0.2 0.1) := rfl
  set n : MotionConfig := { _joint_specific_overwrites_free_cor standard 0.2 0.1 with
    dang_min := .const 0
    dang_max := .const 0
    delta_ang_min := .const 0
    dang_min_free_spherical := .const 0
    dang_max_free_spherical := .const 0
    delta_ang_min_free_spherical := .const 0
    dpos_min := .const 0
    dpos_max := .const 0 } with hn
  have hf : _is_feasible_config1 n := by
    refine ⟨check_of ?_ ?_ ?_ ?_, check_of ?_ ?_ ?_ ?_, ⟨?_, ?_⟩, ⟨?_, ?_⟩, ⟨?_, ?_⟩, ⟨?_, ?_⟩, ?_⟩ <;>
      simp only [hn, standard, TDF.at, _joint_specific_overwrites_free_cor] <;> norm_num <;> linarith
  have h2 : (_joint_specific_overwrites_free_cor standard 0.2 0.1).to_nomotion_config = .ok n := by
    unfold MotionConfig.to_nomotion_config
    dsimp only
    rw [pyAssert_true (show _is_feasible_config1 n from hf)]
    rfl
  exact ⟨_, n, { n with
    dang_max_free_spherical := .const 0.2
    dpos_max := .const 0.1
    cor_dpos_max := .const 0.1
    t_min := 1.5
    t_max := .const 15 }, hr, h2, rfl, rfl, rfl⟩

/-! ## Examples -/

example : ∃ c, from_register "expSlow-S+" = .ok c ∧ Good c ∧ _is_feasible_config1 c := by
  obtain ⟨c, hc⟩ := (C109_names "expSlow-S+").1 (by decide)
  exact ⟨c, hc, (C109_register hc).1, (C109_register hc).2.1⟩

example : from_register "fast" = .error .key := (C109_names "fast").2 (by decide)

/-- a system of four links moves slowly -/
example : ∃ c key' q, from_register "standard-S" = .ok c ∧ draw_random_q stdEnv.toEnv pathRng
      (fun t => (BuiltIn.ofName t).map fun b => some fun c kt kv dt N _ => b.draw pathRng c kt kv dt N)
      [] kinSys c (some 100) = .ok (key', q) ∧ q.length = 100 := by
  obtain ⟨c, hc⟩ := (C109_names "standard-S").1 (by decide)
  obtain ⟨k, q, h1, h2, -⟩ := C109_draw hc stdEnv_std (R := pathRng)
    (draw := fun t => (BuiltIn.ofName t).map fun b => some fun c kt kv dt N _ => b.draw pathRng c kt kv dt N)
    (fun b => by simp [BuiltIn.ofName_name]) kinSys_wf kinSys_jointed.default kinSys_builtin (by decide) pathRng_ok
    (by rw [show kinSys.dt = 1 / 100 from rfl]; norm_num) [] 100
  exact ⟨c, k, q, hc, h1, h2⟩

/-- too fast for its range: not feasible, and no move -/
example : ¬ Move 1 2 5 6 0 4 := by
  rintro ⟨t, d, h1, h2, h3, h4, h5, h6⟩
  linarith

end jcalc
end RingLib
