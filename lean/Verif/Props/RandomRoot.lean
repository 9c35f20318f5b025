import Verif.Props.Scale
import Verif.Props.Kinematics

/-! # C74, second part: `randomize_to_world_pos_rot` -/

namespace RingLib
open System maths algebra jcalc generator
variable {K π : Type}

/-- what the random motion of the root needs -/
structure RootDrawOk (E : JEnv ℝ π) (R : Rng K) (draw : DrawEnv K π) (p : π) (config c : MotionConfig) :
    Prop where
  std : E.Std
  draw : DrawStd R draw
  wf : (freeSys p).WF E.toEnv
  rng : R.Ok
  feasible : _is_feasible_config1 config
  link : IsLinkConfig config "free" c
  drawable : Drawable c 0.01
  rom : ∀ t, 0 ≤ c.rom_halfsize.at t

theorem freeSys_jointed {E : JEnv ℝ π} (h : E.Std) (p : π) : (freeSys p).Jointed E where
  known t ht := by
    simp only [freeSys, List.mem_singleton] at ht
    subst ht
    exact ⟨_, h.joints .free⟩
  default := by simp [freeSys]

theorem draw_q_free {E : JEnv ℝ π} {R : Rng K} {draw : DrawEnv K π} {p : π} {config c : MotionConfig}
    (h : RootDrawOk E R draw p config c) (key : K) {rows : List (List ℝ)}
    (hr : BuiltIn.free.draw R c (R.split key 3 1) (R.split key 3 2) 0.01 none = some rows)
    (link : LinkRow ℝ × List (String × π)) (hl : link.2 = [("default", p)]) (m : IdxMap) :
    draw_q R draw config 0.01 none key m ("free", link) = .ok (rows, R.split key 3 0) := by
  have hd := h.draw .free
  have hname : BuiltIn.free.name = "free" := rfl
  rw [hname] at hd
  have hc := h.link
  unfold IsLinkConfig at hc
  have hls : _limit_scope_of_joint_params "free" [("default", p)] = .ok p := rfl
  unfold draw_q
  dsimp only
  rw [hl, hls, ok_bind, hd]
  simp only [ok_bind]
  split at hc
  · rename_i he
    rw [he, ← hc]
    simp only [hr, ok_bind]
    rfl
  · rename_i he
    rw [he]
    simp only [hc, ok_bind, hr]
    rfl

theorem free_draw {E : JEnv ℝ π} {R : Rng K} {draw : DrawEnv K π} {p : π} {config c : MotionConfig}
    (h : RootDrawOk E R draw p config c) (key : K) {rows : List (List ℝ)}
    (hr : BuiltIn.free.draw R c (R.split key 3 1) (R.split key 3 2) 0.01 none = some rows) :
    draw_random_q E.toEnv R draw key (freeSys p) config none = .ok (R.split key 3 0, rows) := by
  have hscan := scanState_forward_inv (E := E.toEnv) (s := freeSys p) h.wf.known h.wf.types_len
    (arg := (argL (freeSys p).link_types).and (argL (freeSys p).linkRows))
    (f := draw_q R draw config (freeSys p).dt none)
    (by
      intro x hx
      simp only [ScanArg.and, argL, List.mem_append, List.mem_cons,
        List.not_mem_nil, or_false] at hx
      rcases hx with rfl | rfl
      · rfl
      · rfl)
    (rows_and (rows_argL _ _) (rows_argL _ _)) rfl
    (fun i => if i = 0 then key else R.split key 3 0) [rows] rfl
    (by
      intro i hi
      have : i = 0 := by simpa [freeSys] using hi
      subst this
      exact draw_q_free h key hr _ rfl _)
  unfold draw_random_q
  rw [show (if (0 : Nat) = 0 then key else R.split key 3 0) = key from rfl] at hscan
  rw [hscan, ok_bind]
  have hc := concatenate1_ok (l := [rows]) (by simp) (n := rows.length) (by simp)
  rw [show (freeSys p).link_parents.length = 1 from rfl]
  simp only [hc, ok_bind, if_neg (Nat.one_ne_zero), pure_ok]
  congr 2
  apply List.ext_getElem (by simp)
  intro i h1 h2
  simp [h2]

theorem freeMotion_ok {E : JEnv ℝ π} {R : Rng K} {draw : DrawEnv K π} {p : π} {config c : MotionConfig}
    (h : RootDrawOk E R draw p config c) (key : K) :
    ∃ rows, BuiltIn.free.draw R c (R.split key 3 1) (R.split key 3 2) 0.01 none = some rows ∧
      freeMotion E R draw p key config = .ok (rows.map _free_transform) ∧
      rows.length = numSteps c.T 0.01 none ∧
      ∀ r ∈ rows, r.length = 7 ∧ (_free_transform r).rot.normSq = 1 := by
  obtain ⟨rows, h1, h2, h3⟩ := C63_rows R h.drawable h.rng h.rom (R.split key 3 1) (R.split key 3 2)
    none .free (by simp)
  have hunit : ∀ r ∈ rows, r.length = 7 ∧ (_free_transform r).rot.normSq = 1 := by
    intro r hr
    obtain ⟨a, b⟩ := h3 r hr
    refine ⟨a, ?_⟩
    cases b with
    | free hq => simp only [_free_transform, quatOf, Quat.normSq, List.getD_cons_zero,
        List.getD_cons_succ]; linarith [sq_nonneg (0:ℝ)]
  refine ⟨rows, h1, ?_, h2, hunit⟩
  unfold freeMotion
  rw [@pyAssert_true _ (_) h.feasible]
  simp only [ok_bind, free_draw h key h1]
  have hqw : wOf E.qw "free" = 7 := by
    have := h.std.qw .free
    rw [show BuiltIn.free.name = "free" from rfl] at this
    simp [wOf, this, BuiltIn.q_width]
  have hfk : ∀ q : List ℝ, q.length = 7 →
      ∃ s', (freeSys p).forward_kinematics_transforms E q = .ok ([_free_transform q], s') := by
    intro q hq
    obtain ⟨xs, s', he, hF⟩ := C22_forward (q := q) h.wf (freeSys_jointed h.std p)
      (by show q.length = ([wOf E.qw "free"]).sum; simp [hqw, hq])
    refine ⟨s', ?_⟩
    rw [he]
    obtain ⟨T, ⟨jm, p', hjm, hp', hT⟩, hx, -⟩ := hF.pose 0 (by simp [freeSys]) _ rfl
    have hlen : xs.length = 1 := hF.len
    have hsl : ownSlice E.qw (freeSys p).link_types q 0 = q := by
      show (q.drop 0).take (wOf E.qw "free") = q
      rw [hqw]; simp [← hq]
    rw [show (freeSys p).link_types.getD 0 "" = BuiltIn.free.name from rfl, h.std.joints] at hjm
    cases hjm
    rw [hsl] at hT
    have hT' : T = _free_transform q := hT
    rw [hT'] at hx
    obtain ⟨x, rfl⟩ := List.length_eq_one_iff.1 hlen
    simp only [List.getElem?_cons_zero, Option.some.injEq] at hx
    rw [hx]
    have : (poseAt [x] ((freeSys p).link_parents[0]'(by simp [freeSys]))) = .zero := rfl
    rw [this]
    show Except.ok ([transform_mul (transform_mul (_free_transform q) Transform.zero) Transform.zero], s') = _
    rw [transform_mul_zero, transform_mul_zero]
  have : Nonempty (System ℝ π) := ⟨freeSys p⟩
  choose! g hg using hfk
  rw [mapM_ok (g := fun q => ([_free_transform q], g q)) (fun q hq => hg q (hunit q hq).1)]
  simp only [ok_bind]
  have hn : (freeSys p).name_to_idx "free" = .ok 0 :=
    name_to_idx_of_nodup (s := freeSys p) (by simp [freeSys]) rfl
  rw [hn]
  simp only [ok_bind]
  rw [mapM_ok (g := fun x => x.1.getD 0 .zero)]
  · simp [Function.comp_def]
  · intro x hx
    obtain ⟨q, -, rfl⟩ := List.mem_map.1 hx
    rfl

theorem count_one {l : List Int} {a : Int} {r : Nat} (h : ∀ i : Nat, l[i]? = some a ↔ i = r) :
    l.count a = 1 := by
  apply le_antisymm
  · by_contra hc
    have hd := List.duplicate_iff_two_le_count.2 (show 2 ≤ l.count a by omega)
    obtain ⟨n, m, hnm, hn, hm⟩ := List.duplicate_iff_exists_distinct_get.1 hd
    have e1 := (h n).1 (by rw [List.getElem?_eq_getElem n.2]; simpa using hn.symm)
    have e2 := (h m).1 (by rw [List.getElem?_eq_getElem m.2]; simpa using hm.symm)
    have : (n : Nat) < m := hnm
    omega
  · exact List.one_le_count_iff.2 (List.mem_of_getElem? ((h r).2 rfl))

theorem pyIndex_exists {l : List Int} {a : Int} (h : a ∈ l) : ∃ i, pyIndex l a = .ok i := by
  unfold pyIndex
  cases he : l.idxOf? a with
  | some i => exact ⟨i, rfl⟩
  | none => exact absurd h (List.idxOf?_eq_none_iff.1 he)

theorem pyIndex_one {l : List Int} {a : Int} {r : Nat} (h : ∀ i : Nat, l[i]? = some a ↔ i = r) :
    pyIndex l a = .ok r := by
  unfold pyIndex
  cases he : l.idxOf? a with
  | none => exact absurd (List.mem_of_getElem? ((h r).2 rfl)) (List.idxOf?_eq_none_iff.1 he)
  | some i =>
    rw [List.idxOf?_eq_some_iff] at he
    obtain ⟨hi, hv, -⟩ := he
    rw [(h i).1 (by rw [List.getElem?_eq_getElem hi]; simpa using hv)]

/-- **C74.** `randomize_to_world_pos_rot` moves the whole system: at every time step the root gets a
randomly drawn pose, and every other link keeps its pose relative to its parent. -/
theorem C74_randomize_partial {E : JEnv ℝ π} {R : Rng K} {draw : DrawEnv K π} {p : π} {config c : MotionConfig}
    (h : RootDrawOk E R draw p config c) {s : System ℝ π} (hs : s.Consistent E.toEnv)
    (ht : Topological s.link_parents) {r : Nat} (hroot : ∀ i : Nat, s.link_parents[i]? = some (-1) ↔ i = r)
    {xs : List (List (Transform ℝ))}
    (hx : ∀ row ∈ xs, row.length = s.link_parents.length ∧ UnitPoses row)
    (hT : numSteps c.T 0.01 none = xs.length) (key : K) :
    ∃ rows ys, BuiltIn.free.draw R c (R.split key 3 1) (R.split key 3 2) 0.01 none = some rows ∧
      s.randomize_to_world_pos_rot E R draw p key xs config = .ok ys ∧ ys.length = xs.length ∧
      ∀ (n : Nat) row q, xs[n]? = some row → rows[n]? = some q → ∃ out, ys[n]? = some out ∧
        out.length = row.length ∧ UnitPoses out ∧ out[r]? = some (_free_transform q) ∧
        ∀ i (hi : i < s.link_parents.length), i ≠ r → ∃ T,
          row[i]? = some (transform_mul T (poseAt row s.link_parents[i])) ∧
          out[i]? = some (transform_mul T (poseAt out s.link_parents[i])) := by
  obtain ⟨rows, h1, h2, h3, h4⟩ := freeMotion_ok h key
  have hr := (hroot r).2 rfl
  obtain ⟨hrl, hrv⟩ := List.getElem?_eq_some_iff.1 hr
  have hcount : s.link_parents.count (-1) = 1 := count_one hroot
  have hidx : pyIndex s.link_parents (-1) = .ok r := pyIndex_one hroot
  have hbs : broadcastSteps xs.length (rows.map _free_transform) = .ok (rows.map _free_transform) := by
    unfold broadcastSteps
    rw [if_pos (by rw [List.length_map, h3, hT])]
  have hchk : s._checks_time_series_of_xs xs = .ok () :=
    pyAssert_true (p := ∀ row ∈ xs, row.length = s.num_links) fun row hr => (hx row hr).1
  have hover : ∀ z ∈ xs.zip (rows.map _free_transform), ∃ out,
      s._overwrite_transform_of_link_then_update E z.1 z.2 r = .ok out ∧
      out.length = s.link_parents.length ∧ UnitPoses out ∧
      relPose s.link_parents out r = z.2 ∧
      ∀ i, i < s.link_parents.length → i ≠ r →
        relPose s.link_parents out i = relPose s.link_parents z.1 i := by
    intro z hz
    obtain ⟨a, b⟩ := List.of_mem_zip hz
    obtain ⟨q, hq, he⟩ := List.mem_map.1 b
    exact overwrite_eq hs ht (hx _ a).1 (hx _ a).2 hrl (he ▸ (h4 q hq).2)
  choose! g hg using hover
  refine ⟨rows, (xs.zip (rows.map _free_transform)).map g, h1, ?_, ?_, ?_⟩
  · unfold randomize_to_world_pos_rot overwriteSeq
    rw [pyAssert_true hcount]
    simp only [hchk, ok_bind, h2, hidx, hbs]
    exact mapM_ok fun z hz => (hg z hz).1
  · simp [h3, hT]
  · intro n row q hrow hq
    have hz : (xs.zip (rows.map _free_transform))[n]? = some (row, _free_transform q) := by
      rw [List.getElem?_zip_eq_some]
      exact ⟨hrow, by rw [List.getElem?_map, hq]; rfl⟩
    obtain ⟨-, e1, e2, e3, e4⟩ := hg _ (List.mem_of_getElem? hz)
    obtain ⟨hl, hu⟩ := hx row (List.mem_of_getElem? hrow)
    refine ⟨_, by rw [List.getElem?_map, hz]; rfl, e1.trans hl.symm, e2, ?_, ?_⟩
    · rw [List.getElem?_eq_getElem (by rw [e1]; exact hrl), relPose_rec e1 e2 hrl, e3, hrv]
      congr 1
      exact transform_mul_zero _
    · intro i hi hne
      refine ⟨relPose s.link_parents row i, ?_, ?_⟩
      · rw [List.getElem?_eq_getElem (by omega), ← relPose_rec hl hu hi]
      · rw [List.getElem?_eq_getElem (by omega), ← e4 i hi hne, ← relPose_rec e1 e2 hi]

/-- **C74.** A system with several roots, or none, is refused. -/
theorem C74_randomize_roots {E : JEnv ℝ π} {R : Rng K} {draw : DrawEnv K π} {p : π}
    {config : MotionConfig} {s : System ℝ π} {xs : List (List (Transform ℝ))}
    (h : s.link_parents.count (-1) ≠ 1) (key : K) :
    s.randomize_to_world_pos_rot E R draw p key xs config = .error .assertion := by
  unfold randomize_to_world_pos_rot _checks_time_series_of_xs
  by_cases hx : ∀ row ∈ xs, row.length = s.num_links
  · rw [pyAssert_true hx, pyAssert_false h]; rfl
  · rw [pyAssert_false hx]; rfl

/-- **C74 fails** for recordings which are not sampled at 100 Hz: the random motion always has
`T / 0.01` time steps, so a recording of the same duration `T` with another number of time steps
cannot be randomised. -/
theorem C74_rate_fails {E : JEnv ℝ π} {R : Rng K} {draw : DrawEnv K π} {p : π} {config c : MotionConfig}
    (h : RootDrawOk E R draw p config c) {s : System ℝ π}
    (hroot : s.link_parents.count (-1) = 1)
    {xs : List (List (Transform ℝ))} (hx : ∀ row ∈ xs, row.length = s.link_parents.length)
    (hlen : (xs.length : ℝ) * s.dt = c.T) (hdt : s.dt ≠ 0.01) (hT : 0.01 < c.T)
    (hwhole : ∃ n : ℕ, (n : ℝ) * 0.01 = c.T) (key : K) :
    s.randomize_to_world_pos_rot E R draw p key xs config = .error .value := by
  obtain ⟨rows, h1, h2, h3, h4⟩ := freeMotion_ok h key
  obtain ⟨n, hn⟩ := hwhole
  have hsteps : numSteps c.T 0.01 none = n := by
    unfold numSteps
    rw [← hn, mul_div_cancel_right₀ _ (by norm_num)]
    simp
  have hn1 : 1 < n := by
    by_contra hc
    have : (n : ℝ) ≤ 1 := by exact_mod_cast not_lt.1 hc
    nlinarith
  have hne : rows.length ≠ xs.length := by
    rw [h3, hsteps]
    intro he
    rw [← he, ← hn] at hlen
    have : (n : ℝ) ≠ 0 := by positivity
    exact hdt (mul_left_cancel₀ this hlen)
  obtain ⟨i, hi⟩ := pyIndex_exists (List.one_le_count_iff.1 hroot.ge)
  unfold randomize_to_world_pos_rot overwriteSeq
  have hchk : s._checks_time_series_of_xs xs = .ok () :=
    pyAssert_true (p := ∀ row ∈ xs, row.length = s.num_links) hx
  have hb : broadcastSteps xs.length (rows.map _free_transform) = .error .value := by
    unfold broadcastSteps
    rw [if_neg (by rwa [List.length_map])]
    have hl : (rows.map _free_transform).length = n := by rw [List.length_map, h3, hsteps]
    split
    · rename_i v hv
      rw [hv] at hl
      simp at hl
      omega
    · rfl
  rw [pyAssert_true hroot]
  simp only [hchk, ok_bind, h2, hi, hb]
  rfl

/-! ## the conditions can be met -/

theorem freeSys_wf : (freeSys ()).WF stdEnv.toEnv where
  types_len := rfl
  links_len := rfl
  omc_len := rfl
  names_len := rfl
  names_nodup := by simp [freeSys]
  pos_ok := by simp [freeSys, stdEnv]
  geoms_ok := by simp [freeSys]
  known := by
    intro t ht
    simp [freeSys] at ht
    subst ht
    constructor <;> decide
  damping_len := rfl
  armature_len := rfl
  stiffness_len := rfl
  zeropoint_len := rfl
  unit_zero := by
    intro i hi _
    have : i = 0 := by simpa [freeSys] using hi
    subst this
    have h1 : wOf stdEnv.qw "free" = 7 := by decide
    have e : ownSlice stdEnv.qw (freeSys ()).link_types (freeSys ()).link_spring_zeropoint 0 =
        [1, 0, 0, 0, 0, 0, 0] := by simp [freeSys, ownSlice, h1]
    rw [e]
    simp [stdEnv]
  topo := by
    intro i hi
    have : i = 0 := by simpa [freeSys] using hi
    subst this
    simp [freeSys]
  jp_keys := by simp [freeSys]
  jp_len := by simp [freeSys]
  inertia_ok := by
    intro i hi
    have : i = 0 := by simpa [freeSys] using hi
    subst this
    rfl
  geoms_sorted := by simp [freeSys]

/-- the standard draw functions -/
noncomputable def stdDraw (R : Rng K) : DrawEnv K Unit := fun t =>
  (BuiltIn.ofName t).map fun b => some fun c kt kv dt N _ => b.draw R c kt kv dt N

theorem rootDrawOk_std : RootDrawOk stdEnv pathRng (stdDraw pathRng) () {} {} where
  std := stdEnv_std
  draw b := by simp [stdDraw, BuiltIn.ofName_name]
  wf := freeSys_wf
  rng := pathRng_ok
  feasible := by
    simp only [_is_feasible_config1, dx_deltax_check, inside_box_checks, TDF.at, ge_iff_le, not_lt]
    have := Real.pi_gt_three
    refine ⟨⟨?_, ?_⟩, ⟨?_, ?_⟩, ?_, ?_, ?_, ?_, ?_⟩ <;> first | norm_num | skip
    · rw [le_div_iff₀ (by norm_num)]; linarith
    · rw [le_div_iff₀ (by norm_num)]; linarith
    · linarith
  link := by simp [IsLinkConfig]
  drawable := standard_drawable
  rom t := by
    show (0 : ℝ) ≤ 2 * Real.pi
    linarith [Real.pi_pos]

/-- `C74_randomize_partial`: 6000 time steps of a system of four links, the first of which is its root -/
example : (∀ i : Nat, kinSys.link_parents[i]? = some (-1) ↔ i = 0) ∧
    numSteps ({} : MotionConfig).T 0.01 none =
      (List.replicate 6000 (List.replicate 4 (Transform.zero : Transform ℝ))).length ∧
    ∀ row ∈ List.replicate 6000 (List.replicate 4 (Transform.zero : Transform ℝ)),
      row.length = kinSys.link_parents.length ∧ UnitPoses row := by
  refine ⟨?_, ?_, ?_⟩
  · intro i
    rcases i with _ | _ | _ | _ | i <;> simp [kinSys]
  · unfold numSteps
    norm_num
    rfl
  · intro row hr
    rw [List.eq_of_mem_replicate hr]
    refine ⟨rfl, ?_⟩
    intro x hx
    rw [List.eq_of_mem_replicate hx]
    exact transform_zero_unit

/-- `C74_rate_fails`: 60 seconds, sampled at 40 Hz -/
example : ∃ (s : System ℝ Unit) (xs : List (List (Transform ℝ))), s.link_parents.count (-1) = 1 ∧
    (∀ row ∈ xs, row.length = s.link_parents.length) ∧
    (xs.length : ℝ) * s.dt = ({} : MotionConfig).T ∧ s.dt ≠ 0.01 ∧
    ∃ n : ℕ, (n : ℝ) * 0.01 = ({} : MotionConfig).T := by
  refine ⟨{ kinSys with dt := 0.025 }, List.replicate 2400 (List.replicate 4 Transform.zero), ?_, ?_,
    ?_, ?_, 6000, ?_⟩
  · simp [kinSys]
  · intro row hr
    rw [List.eq_of_mem_replicate hr]
    rfl
  · norm_num
  · norm_num
  · norm_num

end RingLib
