import Verif.Model.DrawQ
import Verif.Props.Draw
import Verif.Props.Simulation
import Verif.Lemmas.Replace

/-!
# C63, C65: the coordinates drawn for a whole system
-/

namespace RingLib
open jcalc random System generator

/-- the configuration used for a joint type: with the overwrites for that type, if there are any -/
def IsLinkConfig (config : MotionConfig) (t : String) (c : MotionConfig) : Prop :=
  match config.joint_type_specific_overwrites.lookup t with
  | none => c = config
  | some changes => replace_fields config changes = .ok c

/-- the draw functions of the built-in joint types -/
def DrawStd {K π : Type} (R : Rng K) (draw : DrawEnv K π) : Prop :=
  ∀ b : BuiltIn, draw b.name = some (some fun c kt kv dt N _ => b.draw R c kt kv dt N)

/-- the key used for link number `i` -/
def keyAt {K : Type} (R : Rng K) (key : K) (i : Nat) : K := (fun k => R.split k 3 0)^[i] key

theorem keyAt_succ {K : Type} (R : Rng K) (key : K) (i : Nat) :
    keyAt R key (i + 1) = R.split (keyAt R key i) 3 0 := Function.iterate_succ_apply' _ _ _

theorem concatenate1_ok {l : List (List (List ℝ))} (hl : l ≠ []) {n : Nat}
    (h : ∀ a ∈ l, a.length = n) :
    concatenate1 l = .ok ((List.range n).map fun k => (l.map (·.getD k [])).flatten) := by
  obtain ⟨a, as, rfl⟩ := List.exists_cons_of_ne_nil hl
  unfold concatenate1
  dsimp only
  have ha := h a (by simp)
  rw [if_pos (by simpa [ha] using fun x hx => h x (by simp [hx])), ha]

/-- the conditions of `C65_draw` -/
structure DrawOk {K π : Type} (E : JEnv ℝ π) (R : Rng K) (draw : DrawEnv K π) (s : System ℝ π)
    (config : MotionConfig) : Prop where
  std : E.Std
  draw : DrawStd R draw
  wf : s.WF E.toEnv
  default : "default" ∈ s.joint_params.map (·.1)
  builtin : s.JointsIn fun _ => True
  nonempty : 0 < s.link_parents.length
  rng : R.Ok
  config : ∀ t ∈ s.link_types, ∃ c, IsLinkConfig config t c ∧ Drawable c s.dt ∧
    ∀ t, 0 ≤ c.rom_halfsize.at t

theorem DrawOk.jointed {K π : Type} {E : JEnv ℝ π} {R : Rng K} {draw : DrawEnv K π} {s : System ℝ π}
    {config : MotionConfig} (h : DrawOk E R draw s config) : s.Jointed E :=
  ⟨fun t ht => by
    obtain ⟨b, -, rfl⟩ := h.builtin t ht
    exact ⟨_, h.std.joints b⟩, h.default⟩

/-- All joints are drawn for `n` time steps: `N`, or `T / dt` rounded up if `N` is not given. In the
latter case and with a frozen joint `T / dt` is whole, see `C63_frozen_fails`. -/
def StepsAre {π : Type} (s : System ℝ π) (config : MotionConfig) (N : Option Nat) (n : Nat) : Prop :=
  ∀ t ∈ s.link_types, ∀ c, IsLinkConfig config t c → numSteps c.T s.dt N = n ∧
    (t = "frozen" → N = none → ∃ m : ℤ, c.T / s.dt = m)

theorem stepsAre_some {π : Type} (s : System ℝ π) (config : MotionConfig) (n : Nat) :
    StepsAre s config (some n) n := fun _ _ _ _ => ⟨rfl, by simp⟩

/-- what is drawn for one link -/
structure LinkDraw {K π : Type} (E : JEnv ℝ π) (R : Rng K) (s : System ℝ π) (config : MotionConfig)
    (key : K) (N : Option Nat) (n i : Nat) (rows : List (List ℝ)) : Prop where
  length : rows.length = n
  rows : ∃ (b : BuiltIn) (c : MotionConfig), s.link_types[i]? = some b.name ∧
    IsLinkConfig config b.name c ∧
    b.draw R c (R.split (keyAt R key i) 3 1) (R.split (keyAt R key i) 3 2) s.dt N = some rows ∧
    ∀ r ∈ rows, r.length = b.q_width ∧ RowOk b r

theorem link_draw {K π : Type} {E : JEnv ℝ π} {R : Rng K} {draw : DrawEnv K π} {s : System ℝ π}
    {config : MotionConfig} (h : DrawOk E R draw s config) (key : K) {N : Option Nat} {n : Nat}
    (hN : StepsAre s config N n) (i : Nat) (hi : i < s.link_parents.length) :
    ∃ rows, LinkDraw E R s config key N n i rows ∧ ∀ m,
      draw_q R draw config s.dt N (keyAt R key i) m
        (s.link_types[i]'(by rw [h.wf.types_len]; exact hi),
          s.linkRows[i]'(by rw [linkRows_length, h.wf.links_len]; exact hi)) =
        .ok (rows, keyAt R key (i + 1)) := by
  have hi' : i < s.link_types.length := by rw [h.wf.types_len]; exact hi
  obtain ⟨b, -, hb⟩ := h.builtin _ (List.getElem_mem hi')
  obtain ⟨c, hc, hd, hh⟩ := h.config _ (List.getElem_mem hi')
  obtain ⟨hn, hf⟩ := hN _ (List.getElem_mem hi') c hc
  rw [hb] at hc hf
  obtain ⟨rows, h1, h2, h3⟩ := C63_rows R hd h.rng hh (R.split (keyAt R key i) 3 1)
    (R.split (keyAt R key i) 3 2) N b (by rintro rfl; exact hf rfl)
  rw [hn] at h2
  refine ⟨rows, ⟨h2, b, c, by rw [List.getElem?_eq_getElem hi', hb], hc, h1, h3⟩, ?_⟩
  intro m
  obtain ⟨p, hp⟩ := jointParam_isSome h.wf h.jointed hi
  have hls := limit_scope (fun x hx => by rw [h.wf.jp_len x hx]; exact hi)
    (List.getElem?_eq_getElem hi') hp
  unfold draw_q
  dsimp only
  rw [linkRows_getElem]
  dsimp only
  rw [hls, hb, ok_bind, h.draw b]
  simp only [ok_bind]
  unfold IsLinkConfig at hc
  split at hc
  · rename_i he
    rw [he, ← hc]
    simp only [h1]
    rw [keyAt_succ]
    rfl
  · rename_i he
    rw [he]
    simp only [hc, ok_bind, h1]
    rw [keyAt_succ]
    rfl
theorem rowOk_unit {b : BuiltIn} {r : List ℝ} (h : RowOk b r)
    (hq : joint_type_is_free_or_cor_or_spherical b.name = true) :
    r.getD 0 0 ^ 2 + r.getD 1 0 ^ 2 + r.getD 2 0 ^ 2 + r.getD 3 0 ^ 2 = 1 := by
  rw [is_quat_name] at hq
  cases h <;> first | simpa | simp [isFreeOrCor, isSpherical] at hq

/-- **C63, C65.** `draw_random_q` draws, with a key of its own for every link, what the draw function
of the type of the link returns for the configuration of that type, and puts the coordinates of each
link into the columns that belong to the link. This is so if the number of time steps is given and if
it follows from the duration. -/
theorem C65_draw_steps {K π : Type} {E : JEnv ℝ π} {R : Rng K} {draw : DrawEnv K π} {s : System ℝ π}
    {config : MotionConfig} (h : DrawOk E R draw s config) (key : K) {N : Option Nat} {n : Nat}
    (hN : StepsAre s config N n) :
    ∃ q, draw_random_q E.toEnv R draw key s config N =
        .ok (keyAt R key s.link_parents.length, q) ∧ q.length = n ∧
      (∀ row ∈ q, row.length = (s.link_types.map (wOf E.qw)).sum ∧ s.UnitQ E row) ∧
      ∀ i, i < s.link_parents.length → ∃ rows, LinkDraw E R s config key N n i rows ∧
        ∀ k, ∀ hk : k < q.length, ∀ hk' : k < rows.length,
          ownSlice E.qw s.link_types q[k] i = rows[k] := by
  choose X hX using fun i : Fin s.link_parents.length => link_draw h key hN i i.2
  have hscan := scanState_forward_inv (E := E.toEnv) (s := s) h.wf.known h.wf.types_len
    (arg := (argL s.link_types).and (argL s.linkRows)) (f := draw_q R draw config s.dt N)
    (by
      intro x hx
      simp only [ScanArg.and, argL, List.mem_append, List.mem_cons,
        List.not_mem_nil, or_false] at hx
      rcases hx with rfl | rfl
      · exact h.wf.types_len
      · simp [linkRows_length, h.wf.links_len])
    (rows_and (rows_argL _ _) (rows_argL _ _))
    (by simp [linkRows_length, h.wf.links_len, h.wf.types_len])
    (keyAt R key) (List.ofFn X) (by simp)
    (by
      intro i hi
      have := (hX ⟨i, hi⟩).2 (theMap E.toEnv s.link_types)
      simpa using this)
  have hlen : ∀ a ∈ List.ofFn X, a.length = n := by
    intro a ha
    obtain ⟨i, rfl⟩ := List.mem_ofFn.mp ha
    exact (hX i).1.length
  have hne : List.ofFn X ≠ [] := by
    intro e
    have e := congrArg List.length e
    have := h.nonempty
    simp only [List.length_ofFn, List.length_nil] at e
    omega
  have hq : draw_random_q E.toEnv R draw key s config N =
      .ok (keyAt R key s.link_parents.length,
        (List.range n).map fun k => ((List.ofFn X).map (·.getD k [])).flatten) := by
    unfold draw_random_q
    have : keyAt R key 0 = key := rfl
    rw [this] at hscan
    rw [hscan]
    simp only [ok_bind]
    rw [concatenate1_ok hne hlen]
    rfl
  -- the pieces of one row
  have hwid : ∀ k, k < n → ∀ i : Fin s.link_parents.length,
      ((X i).getD k []).length = wOf E.qw (s.link_types.getD i "") := by
    intro k hk i
    obtain ⟨b, c, hb, -, -, hr⟩ := (hX i).1.rows
    have hk' : k < (X i).length := by rw [(hX i).1.length]; exact hk
    have := (hr (X i)[k] (List.getElem_mem _)).1
    rw [List.getD_eq_getElem?_getD, List.getElem?_eq_getElem hk', Option.getD_some, this,
      List.getD_eq_getElem?_getD, hb, Option.getD_some, wOf, h.std.qw b]
    rfl
  have htypes : (List.finRange s.link_parents.length).map
      (fun i : Fin s.link_parents.length => s.link_types.getD i "") = s.link_types := by
    apply List.ext_getElem
    · simp [h.wf.types_len]
    · intro i h1 h2
      simp [List.getD_eq_getElem?_getD, List.getElem?_eq_getElem h2]
  have hrow : ∀ k, ((List.ofFn X).map (·.getD k [])).flatten =
      ((List.finRange s.link_parents.length).map fun i => (X i).getD k []).flatten := by
    intro k
    rw [List.ofFn_eq_map, List.map_map]
    rfl
  have hslice : ∀ k, k < n → ∀ i : Fin s.link_parents.length,
      ownSlice E.qw s.link_types ((List.ofFn X).map (·.getD k [])).flatten i = (X i).getD k [] := by
    intro k hk i
    have := ownSlice_pieces (w := E.qw) (List.finRange s.link_parents.length)
      (fun i : Fin s.link_parents.length => s.link_types.getD i "") (fun i => (X i).getD k [])
      (fun i _ => hwid k hk i) (i := i) (by simp)
    rw [htypes] at this
    rw [hrow, this]
    simp
  refine ⟨_, hq, by simp, ?_, ?_⟩
  · intro row hrow'
    obtain ⟨k, hk, rfl⟩ := List.mem_map.mp hrow'
    rw [List.mem_range] at hk
    constructor
    · rw [hrow, List.length_flatten, List.map_map]
      conv_rhs => rw [← htypes, List.map_map]
      congr 1
      apply List.map_congr_left
      intro i _
      exact hwid k hk i
    · intro i hi hq
      have hi' : i < s.link_parents.length := by rw [← h.wf.types_len]; exact hi
      show _ = _
      rw [hslice k hk ⟨i, hi'⟩]
      obtain ⟨b, c, hb, -, -, hr⟩ := (hX ⟨i, hi'⟩).1.rows
      have hk' : k < (X ⟨i, hi'⟩).length := by rw [(hX _).1.length]; exact hk
      rw [List.getD_eq_getElem?_getD (l := X ⟨i, hi'⟩), List.getElem?_eq_getElem hk',
        Option.getD_some]
      have hrow := (hr (X ⟨i, hi'⟩)[k] (List.getElem_mem _)).2
      have hb' : s.link_types[i] = b.name := by
        rw [List.getElem?_eq_getElem hi] at hb
        exact Option.some.inj hb
      rw [hb'] at hq
      generalize (X ⟨i, hi'⟩)[k] = r at hrow
      exact rowOk_unit hrow hq
  · intro i hi
    refine ⟨X ⟨i, hi⟩, (hX ⟨i, hi⟩).1, ?_⟩
    intro k hk hk'
    simp only [List.length_map, List.length_range] at hk
    simp only [List.getElem_map, List.getElem_range]
    rw [hslice k hk ⟨i, hi⟩, List.getD_eq_getElem?_getD, List.getElem?_eq_getElem hk',
      Option.getD_some]

/-- **C63, C65** with a given number of time steps. -/
theorem C65_draw {K π : Type} {E : JEnv ℝ π} {R : Rng K} {draw : DrawEnv K π} {s : System ℝ π}
    {config : MotionConfig} (h : DrawOk E R draw s config) (key : K) (n : Nat) :
    ∃ q, draw_random_q E.toEnv R draw key s config (some n) =
        .ok (keyAt R key s.link_parents.length, q) ∧ q.length = n ∧
      (∀ row ∈ q, row.length = (s.link_types.map (wOf E.qw)).sum ∧ s.UnitQ E row) ∧
      ∀ i, i < s.link_parents.length → ∃ rows, LinkDraw E R s config key (some n) n i rows ∧
        ∀ k, ∀ hk : k < q.length, ∀ hk' : k < rows.length,
          ownSlice E.qw s.link_types q[k] i = rows[k] :=
  C65_draw_steps h key (stepsAre_some s config n)

/-! ## fresh keys -/

/-- a splitting in which no two keys coincide: different splits give different keys, and a new key is
one level deeper than the key it comes from -/
structure NoCollision {K : Type} (R : Rng K) : Prop where
  inj : ∀ {k n j k' n' j'}, R.split k n j = R.split k' n' j' → k = k' ∧ n = n' ∧ j = j'
  depth : ∃ d : K → Nat, ∀ k n j, d (R.split k n j) = d k + 1

/-- **C65.** If splitting never produces the same key twice, then the keys handed to the draw functions
of all links and the key that is returned are all different. -/
theorem C65_fresh {K : Type} (R : Rng K) (hR : NoCollision R) (key : K) (n : Nat) :
    (keyAt R key n :: (List.range n).flatMap fun i =>
      [R.split (keyAt R key i) 3 1, R.split (keyAt R key i) 3 2]).Nodup := by
  obtain ⟨d, hd⟩ := hR.depth
  have hdk : ∀ i, d (keyAt R key i) = d key + i := by
    intro i
    induction i with
    | zero => rfl
    | succ i ih => rw [keyAt_succ, hd, ih]; omega
  have hinj : ∀ i j, keyAt R key i = keyAt R key j → i = j := by
    intro i j h
    have := congrArg d h
    rw [hdk, hdk] at this
    omega
  rw [List.nodup_cons]
  constructor
  · intro h
    obtain ⟨i, -, hi⟩ := List.mem_flatMap.mp h
    cases n with
    | zero =>
      rcases i with _ | i <;> simp at h
    | succ n =>
      rw [keyAt_succ] at hi
      simp only [List.mem_cons, List.not_mem_nil, or_false] at hi
      rcases hi with hi | hi
      · exact absurd (hR.inj hi).2.2 (by norm_num)
      · exact absurd (hR.inj hi).2.2 (by norm_num)
  · rw [List.nodup_flatMap]
    constructor
    · intro i _
      rw [List.nodup_cons]
      refine ⟨?_, by simp⟩
      simp only [List.mem_singleton]
      intro h
      exact absurd (hR.inj h).2.2 (by norm_num)
    · refine List.nodup_range.imp ?_
      intro i j hij x hx hy
      simp only [List.mem_cons, List.not_mem_nil, or_false] at hx hy
      apply hij
      rcases hx with rfl | rfl <;> rcases hy with hy | hy <;> exact hinj _ _ (hR.inj hy).1

/-- keys that remember how they came about -/
def pathRng : Rng (List (Nat × Nat)) :=
  ⟨fun k n j => (n, j) :: k, fun _ => 0, fun _ _ _ => 0, fun _ _ => true, fun _ lo _ => lo,
    fun _ _ j => j, fun _ _ j => if j % 4 = 0 then 0 else 1⟩

theorem pathRng_noCollision : NoCollision pathRng where
  inj h := by
    simp only [pathRng, List.cons.injEq, Prod.mk.injEq] at h
    exact ⟨h.2, h.1.1, h.1.2⟩
  depth := ⟨List.length, fun _ _ _ => rfl⟩

theorem pathRng_ok : pathRng.Ok :=
  ⟨fun _ => ⟨le_rfl, one_pos⟩, fun _ _ _ => ⟨le_rfl, one_pos⟩, fun _ _ _ h => ⟨le_rfl, h⟩,
    fun _ _ _ h => h, fun _ _ _ _ _ _ h => h⟩

/-- The conditions of `C65_draw` can be met: a free, a hinge, a sliding and a spherical joint, with an
overwrite for the hinge. -/
example : ∃ q, draw_random_q stdEnv.toEnv pathRng
      (fun t => (BuiltIn.ofName t).map fun b => some fun c kt kv dt N _ => b.draw pathRng c kt kv dt N)
      [] kinSys { joint_type_specific_overwrites := [("rx", [("t_min", 0.1), ("dang_max", 1)])] }
      (some 100) = .ok (keyAt pathRng [] 4, q) ∧ q.length = 100 := by
  have hstd : ∀ t, 0 ≤ (({ } : MotionConfig).rom_halfsize).at t := by
    intro t
    show (0 : ℝ) ≤ 2 * Real.pi
    linarith [Real.pi_pos]
  obtain ⟨q, h1, h2, -⟩ := C65_draw (E := stdEnv) (R := pathRng) (s := kinSys)
    (draw := fun t => (BuiltIn.ofName t).map fun b => some fun c kt kv dt N _ =>
      b.draw pathRng c kt kv dt N)
    (config := { joint_type_specific_overwrites := [("rx", [("t_min", 0.1), ("dang_max", 1)])] })
    { std := stdEnv_std
      draw := fun b => by simp [BuiltIn.ofName_name]
      wf := kinSys_wf
      default := kinSys_jointed.default
      builtin := kinSys_builtin
      nonempty := by decide
      rng := pathRng_ok
      config := by
        intro t ht
        have hdt : kinSys.dt = 1 / 100 := rfl
        by_cases hx : t = "rx"
        · subst hx
          refine ⟨{ t_min := 0.1, dang_max := .const 1, joint_type_specific_overwrites :=
            [("rx", [("t_min", 0.1), ("dang_max", 1)])] }, ?_, ?_, hstd⟩
          · rfl
          · rw [hdt]
            constructor <;> norm_num
            intro k hk
            cases hk
        · refine ⟨{ joint_type_specific_overwrites := [("rx", [("t_min", 0.1), ("dang_max", 1)])] },
            ?_, ?_, hstd⟩
          · unfold IsLinkConfig
            have : List.lookup t [("rx", [("t_min", (0.1 : ℝ)), ("dang_max", 1)])] = none := by
              have hx' : (t == "rx") = false := by simpa using hx
              simp [List.lookup, hx']
            simp only [this]
          · rw [hdt]
            constructor <;> norm_num
            intro k hk
            cases hk }
    [] 100
  exact ⟨q, h1, h2⟩

end RingLib
