import Mathlib.Algebra.Field.Rat
import Mathlib.Tactic.NormNum
import Verif.Lemmas.Desc

/-!
# C01 (scan), C02 (names and indices), C10 (children and descendants)
-/

namespace RingLib
open RingLib.System
variable {α π O P Y : Type}

/-! ## An example environment and system

Joint widths as in `/repo/src/ring/base.py:369-400` for three of the joint types; numbers are
rationals. -/

def exEnv : Env ℚ Unit where
  qw t := if t = "free" then some 7 else if t = "spherical" then some 4 else
    if t = "rx" then some 1 else if t = "frozen" then some 0 else
    if t = "cor" then some 10 else none
  dw t := if t = "free" then some 6 else if t = "spherical" then some 3 else
    if t = "rx" then some 1 else if t = "frozen" then some 0 else
    if t = "cor" then some 9 else none
  pi := 22 / 7
  ge x y := decide (y ≤ x)
  unit4 z := (z.map fun x => x * x).sum = 1
  nanLike x := x

def exRow : LinkRow ℚ := ⟨.zero, 0, ⟨1, 1, 1⟩, 0, .zero, .zero⟩

/-- Four links: a spherical root, two children of it (`rx` and `frozen`) and a second root. -/
def exSys : System ℚ Unit where
  link_parents := [-1, 0, 0, -1]
  links := [exRow, exRow, exRow, exRow]
  joint_params := [("rx", [(), (), (), ()])]
  link_types := ["spherical", "rx", "frozen", "rx"]
  link_damping := [1, 2, 3, 4, 5]
  link_armature := [6, 7, 8, 9, 10]
  link_spring_stiffness := [11, 12, 13, 14, 15]
  link_spring_zeropoint := [0, 1, 0, 0, 16, 17]
  dt := 1 / 100
  geoms := []
  gravity := ⟨0, 0, 981 / 100⟩
  integration_method := "semi_implicit_euler"
  mass_mat_iters := 0
  link_names := ["a", "b", "c", "d"]
  model_name := some "m"
  omc := [none, none, none, none]

theorem exSys_consistent : exSys.Consistent exEnv where
  types_len := rfl
  links_len := rfl
  omc_len := rfl
  names_len := rfl
  names_nodup := by decide
  pos_ok := by
    intro l hl
    have : l = exRow := by simpa [exSys] using hl
    subst this
    simp [exEnv, exRow]
  geoms_ok := by simp [exSys]
  known := by
    intro t ht
    simp [exSys] at ht
    rcases ht with rfl | rfl | rfl | rfl <;> simp [exEnv]
  damping_len := by simp [exSys, exEnv, wOf]
  armature_len := by simp [exSys, exEnv, wOf]
  stiffness_len := by simp [exSys, exEnv, wOf]
  zeropoint_len := by simp [exSys, exEnv, wOf]
  unit_zero := by
    intro i hi
    have : i < 4 := hi
    match i, this with
    | 0, _ => intro _; simp [exSys, exEnv, ownSlice, wOf]
    | 1, _ =>
      intro h
      have h : joint_type_is_free_or_cor_or_spherical "rx" = true := h
      exact absurd h (by decide)
    | 2, _ =>
      intro h
      have h : joint_type_is_free_or_cor_or_spherical "frozen" = true := h
      exact absurd h (by decide)
    | 3, _ =>
      intro h
      have h : joint_type_is_free_or_cor_or_spherical "rx" = true := h
      exact absurd h (by decide)

theorem exSys_topological : Topological exSys.link_parents := by
  intro i hi
  have : i < 4 := hi
  match i, this with
  | 0, _ => simp [exSys]
  | 1, _ => simp [exSys]
  | 2, _ => simp [exSys]
  | 3, _ => simp [exSys]

theorem exSys_wf : exSys.WF exEnv where
  toConsistent := exSys_consistent
  topo := exSys_topological
  jp_keys := by simp [exSys]
  jp_len := by simp [exSys]
  inertia_ok := by
    intro i hi
    have : ∀ l ∈ exSys.links, l = exRow := by simp [exSys]
    have := this _ (List.getElem_mem hi)
    rw [this]
    rfl
  geoms_sorted := by simp [exSys]

/-! ## C01 -/

/-- C01: the slices that belong to the links are adjacent, disjoint and cover the array exactly
(their concatenation in link order is the array), and each has its joint type's width. -/
theorem C01_partition {β : Type} (w : String → Option Nat) (types : List String) (xs : List β)
    (h : xs.length = (types.map (wOf w)).sum) :
    ((List.range types.length).map (ownSlice w types xs)).flatten = xs ∧
    ∀ i (hi : i < types.length), (ownSlice w types xs i).length = wOf w types[i] := by
  have e : (List.range types.length).map (ownSlice w types xs) = chunks (types.map (wOf w)) xs := by
    apply List.ext_getElem?
    intro i
    by_cases hi : i < types.length
    · rw [ownSlice_eq w types xs i hi]; simp [hi]
    · rw [List.getElem?_eq_none (by simpa using hi), List.getElem?_eq_none (by simpa using hi)]
  rw [e]
  refine ⟨chunks_flatten _ _ h, ?_⟩
  intro i hi
  have h1 := congrArg (·[i]?) (chunks_map_length _ _ h)
  simp only [List.getElem?_map, ownSlice_eq w types xs i hi] at h1
  simpa [hi] using h1

theorem foldSpec_ok_iff (f : Option Y → IdxMap → O → Py Y) (m : IdxMap) (y : Option Y)
    (os : List O) (ys : List Y) :
    foldSpec f m y os = .ok ys ↔ ys.length = os.length ∧
      ∀ i (h : i < os.length) (h' : i < ys.length),
        f (if i = 0 then y else ys[i - 1]?) m os[i] = .ok ys[i] := by
  induction os generalizing y ys with
  | nil =>
    cases ys <;> simp [foldSpec]
  | cons o os ih =>
    simp only [foldSpec]
    constructor
    · intro h
      cases hf : f y m o with
      | error e => simp [hf, error_bind] at h
      | ok y' =>
        cases hr : foldSpec f m (some y') os with
        | error e => simp [hf, hr, ok_bind] at h
        | ok ys' =>
          simp only [hf, hr, ok_bind, pure_ok] at h
          cases h
          obtain ⟨h1, h2⟩ := (ih (some y') ys').1 hr
          refine ⟨by simp [h1], ?_⟩
          intro i hi hi'
          cases i with
          | zero => simpa using hf
          | succ i =>
            have := h2 i (by simpa using hi) (by simpa using hi')
            cases i with
            | zero => simpa using this
            | succ i => simpa using this
    · rintro ⟨h1, h2⟩
      cases ys with
      | nil => simp at h1
      | cons y' ys' =>
        have h0 := h2 0 (by simp) (by simp)
        simp at h0
        rw [h0]
        simp only [ok_bind]
        rw [(ih (some y') ys').2]
        · rfl
        · refine ⟨by simpa using h1, ?_⟩
          intro i hi hi'
          have := h2 (i + 1) (by simpa using hi) (by simpa using hi')
          cases i with
          | zero => simpa using this
          | succ i => simpa using this

/-- What a link receives for an `l`, `q`, `d` argument or for several arguments, for a system
with registered joint types. -/
theorem C01_arguments (E : Env α π) (ts : List String) {β : Type} (xs : List β) (i : Nat)
    (hi : i < ts.length) :
    (i < xs.length → (argL xs).get (theMap E ts) i = pyGet xs i) ∧
    (argQ xs).get (theMap E ts) i = .ok (ownSlice E.qw ts xs i) ∧
    (argD xs).get (theMap E ts) i = .ok (ownSlice E.dw ts xs i) := by
  refine ⟨fun _ => rfl, ?_, ?_⟩
  · have h := rows_argQ (m := theMap E ts) (ws := ts.map (wOf E.qw)) rfl xs i (by simpa using hi)
    rw [h]
    have := ownSlice_eq E.qw ts xs i hi
    rw [List.getElem?_eq_getElem (by simpa using hi)] at this
    rw [Option.some.inj this]
  · have h := rows_argD (m := theMap E ts) (ws := ts.map (wOf E.dw)) rfl xs i (by simpa using hi)
    rw [h]
    have := ownSlice_eq E.dw ts xs i hi
    rw [List.getElem?_eq_getElem (by simpa using hi)] at this
    rw [Option.some.inj this]

theorem rows_three (E : Env α π) (ts : List String) {A B C : Type} (a : List A) (b : List B)
    (c : List C) : Rows (theMap E ts) ((argL a).and ((argQ b).and (argD c)))
      (a.zip ((chunks (ts.map (wOf E.qw)) b).zip (chunks (ts.map (wOf E.dw)) c))) :=
  rows_and (rows_argL _ _) (rows_and (rows_argQ rfl _) (rows_argD rfl _))

theorem rows_three_get (E : Env α π) (ts : List String) {A B C : Type} (a : List A) (b : List B)
    (c : List C) (i : Nat) (ha : i < a.length) (hi : i < ts.length)
    (h : i < (a.zip ((chunks (ts.map (wOf E.qw)) b).zip
      (chunks (ts.map (wOf E.dw)) c))).length) :
    (a.zip ((chunks (ts.map (wOf E.qw)) b).zip (chunks (ts.map (wOf E.dw)) c)))[i] =
      (a[i], ownSlice E.qw ts b i, ownSlice E.dw ts c i) := by
  simp only [List.getElem_zip]
  have h1 := ownSlice_eq E.qw ts b i hi
  have h2 := ownSlice_eq E.dw ts c i hi
  rw [List.getElem?_eq_getElem (by simpa using hi)] at h1 h2
  rw [Option.some.inj h1, Option.some.inj h2]

/-- C01: forward scan. With one argument of each kind, `scan` returns `ys` exactly when `ys` has
one entry per link and the `i`-th entry is what `f` returns for link `i`'s own data, given the
result of the previous link (`None` for the first). -/
theorem C01_scan_forward {E : Env α π} {s : System α π} (hk : E.Known s.link_types)
    (hl : s.link_types.length = s.num_links) {A B C : Type}
    (f : Option Y → IdxMap → A × List B × List C → Py Y)
    (a : List A) (b : List B) (c : List C) (ha : a.length = s.num_links)
    (hb : b.length = (s.link_types.map (wOf E.qw)).sum)
    (hc : c.length = (s.link_types.map (wOf E.dw)).sum) (ys : List Y) :
    s.scan E f ((argL a).and ((argQ b).and (argD c))) = .ok ys ↔
      ys.length = s.num_links ∧
      ∀ i (h : i < s.num_links) (h' : i < ys.length),
        f (if i = 0 then none else ys[i - 1]?) (theMap E s.link_types)
          (a[i], ownSlice E.qw s.link_types b i, ownSlice E.dw s.link_types c i) = .ok ys[i] := by
  have hlen : (a.zip ((chunks (s.link_types.map (wOf E.qw)) b).zip
      (chunks (s.link_types.map (wOf E.dw)) c))).length = s.num_links := by
    simp [ha, hl]
  rw [scan_forward hk hl f (by
    intro x hx
    simp [ScanArg.and, argL, argD, argQ] at hx
    rcases hx with rfl | rfl | rfl
    · exact ha
    · exact hb
    · exact hc) (rows_three E _ a b c) hlen, foldSpec_ok_iff]
  constructor
  · rintro ⟨h1, h2⟩
    refine ⟨h1.trans hlen, fun i h h' => ?_⟩
    have := h2 i (by omega) h'
    rwa [rows_three_get E _ a b c i (by omega) (by omega)] at this
  · rintro ⟨h1, h2⟩
    refine ⟨h1.trans hlen.symm, fun i h h' => ?_⟩
    rw [rows_three_get E _ a b c i (by omega) (by omega)]
    exact h2 i (by omega) h'

/-- C01: reverse scan. The visiting order is reversed (`f` sees the result of the *next* link),
but the results are stacked in link order and every link still gets its own data. -/
theorem C01_scan_reverse {E : Env α π} {s : System α π} (hk : E.Known s.link_types)
    (hl : s.link_types.length = s.num_links) {A B C : Type}
    (f : Option Y → IdxMap → A × List B × List C → Py Y)
    (a : List A) (b : List B) (c : List C) (ha : a.length = s.num_links)
    (hb : b.length = (s.link_types.map (wOf E.qw)).sum)
    (hc : c.length = (s.link_types.map (wOf E.dw)).sum) (ys : List Y) :
    s.scan E f ((argL a).and ((argQ b).and (argD c))) true = .ok ys ↔
      ys.length = s.num_links ∧
      ∀ i (h : i < s.num_links) (h' : i < ys.length),
        f ys[i + 1]? (theMap E s.link_types)
          (a[i], ownSlice E.qw s.link_types b i, ownSlice E.dw s.link_types c i) = .ok ys[i] := by
  have hlen : (a.zip ((chunks (s.link_types.map (wOf E.qw)) b).zip
      (chunks (s.link_types.map (wOf E.dw)) c))).length = s.num_links := by
    simp [ha, hl]
  rw [scan_reverse hk hl f (by
    intro x hx
    simp [ScanArg.and, argL, argD, argQ] at hx
    rcases hx with rfl | rfl | rfl
    · exact ha
    · exact hb
    · exact hc) (rows_three E _ a b c) hlen]
  have e : ∀ r : Py (List Y), (List.reverse <$> r = .ok ys) ↔ r = .ok ys.reverse := by
    intro r
    cases r with
    | error e => exact ⟨fun h => (by cases h), fun h => (by cases h)⟩
    | ok v =>
      show (Except.ok v.reverse = Except.ok ys) ↔ _
      constructor
      · intro h; cases h; simp
      · intro h; cases h; simp
  rw [e, foldSpec_ok_iff]
  simp only [List.length_reverse, hlen]
  constructor
  · rintro ⟨h1, h2⟩
    refine ⟨h1, fun i h h' => ?_⟩
    have := h2 (s.num_links - 1 - i) (by omega) (by omega)
    rw [List.getElem_reverse, List.getElem_reverse, rows_three_get E _ a b c _ (by omega) (by omega)]
      at this
    simp only [hlen, h1] at this
    have e1 : s.num_links - 1 - (s.num_links - 1 - i) = i := by omega
    simp only [e1] at this
    by_cases hi : i + 1 = s.num_links
    · rw [if_pos (by omega)] at this
      rw [List.getElem?_eq_none (by omega)]
      exact this
    · rw [if_neg (by omega), List.getElem?_reverse (by omega)] at this
      rw [show ys.length - 1 - (s.num_links - 1 - i - 1) = i + 1 by omega] at this
      exact this
  · rintro ⟨h1, h2⟩
    refine ⟨h1, fun i h h' => ?_⟩
    rw [List.getElem_reverse, List.getElem_reverse, rows_three_get E _ a b c _ (by omega) (by omega)]
    simp only [hlen, h1]
    have := h2 (s.num_links - 1 - i) (by omega) (by omega)
    by_cases hi : i = 0
    · subst hi
      rw [List.getElem?_eq_none (by omega)] at this
      simpa using this
    · rw [if_neg hi, List.getElem?_reverse (by omega)]
      rw [show ys.length - 1 - (i - 1) = s.num_links - 1 - i + 1 by omega]
      exact this

/-- C01: an argument of the wrong length is rejected. -/
theorem C01_wrong_length {E : Env α π} {s : System α π} (hk : E.Known s.link_types)
    (f : Option Y → IdxMap → O → Py Y) (arg : ScanArg O) (rev : Bool) (t : InType) (B : Nat)
    (hmem : (t, B) ∈ arg.pieces)
    (hB : (t = .l → B ≠ s.num_links) ∧ (t = .q → B ≠ (s.link_types.map (wOf E.qw)).sum) ∧
      (t = .d → B ≠ (s.link_types.map (wOf E.dw)).sum)) :
    ∃ e, s.scan E f arg rev = .error e := by
  unfold scan
  cases h : checkPieces E s arg.pieces with
  | error e => exact ⟨e, rfl⟩
  | ok u =>
    have := (checkPieces_ok_iff hk).1 h (t, B) hmem
    cases t
    · exact absurd this (hB.1 rfl)
    · exact absurd this (hB.2.1 rfl)
    · exact absurd this (hB.2.2 rfl)

/-- C01: `q_size`, `qd_size` are the sums of the widths, and `idx_map('q')`, `idx_map('d')`,
`idx_map('l')` assign to each name the boundaries of its own slice / its index. -/
theorem C01_sizes_and_idx_map {E : Env α π} {s : System α π} (hk : E.Known s.link_types)
    (hl : s.link_types.length = s.num_links) (hn : s.link_names.length = s.num_links) :
    s.q_size E = .ok (s.link_types.map (wOf E.qw)).sum ∧
    s.qd_size E = .ok (s.link_types.map (wOf E.dw)).sum ∧
    s.idx_map E .l = .ok ((s.link_names.zipIdx).map fun x => (x.1, Idx.at x.2)) ∧
    s.idx_map E .q = .ok ((s.link_names.zipIdx).map fun x =>
      (x.1, Idx.slice ((s.link_types.take x.2).map (wOf E.qw)).sum
        ((s.link_types.take (x.2 + 1)).map (wOf E.qw)).sum)) ∧
    s.idx_map E .d = .ok ((s.link_names.zipIdx).map fun x =>
      (x.1, Idx.slice ((s.link_types.take x.2).map (wOf E.dw)).sum
        ((s.link_types.take (x.2 + 1)).map (wOf E.dw)).sum)) := by
  refine ⟨sumWidths_known fun t ht => (hk t ht).1, sumWidths_known fun t ht => (hk t ht).2, ?_⟩
  have hz : s.link_names.zip (List.range s.num_links) = s.link_names.zipIdx := by
    rw [← hn, List.range_eq_range', List.zipIdx_eq_zip_range']
  have hrows : Rows (theMap E s.link_types)
      ((argL s.link_names).and (argL (List.range s.num_links))) s.link_names.zipIdx := by
    rw [← hz]
    exact rows_and (rows_argL _ _) (rows_argL _ _)
  have hp : PiecesOk E s ((argL s.link_names).and (argL (List.range s.num_links))).pieces := by
    intro x hx
    simp [ScanArg.and, argL] at hx
    rcases hx with rfl | rfl
    · exact hn
    · rfl
  have main : ∀ (f : Option (String × Idx) → IdxMap → String × Nat → Py (String × Idx))
      (g : String × Nat → String × Idx),
      (∀ y x, x ∈ s.link_names.zipIdx → f y (theMap E s.link_types) x = .ok (g x)) →
      s.scan E f ((argL s.link_names).and (argL (List.range s.num_links))) =
        .ok (s.link_names.zipIdx.map g) := by
    intro f g hfg
    rw [scan_forward hk hl f hp hrows (by simpa [num_links] using hn)]
    revert hfg
    generalize s.link_names.zipIdx = os
    generalize (none : Option (String × Idx)) = y
    intro hfg
    induction os generalizing y with
    | nil => rfl
    | cons o os ih =>
      simp only [foldSpec, hfg y o (by simp), ok_bind]
      rw [ih _ (fun y x hx => hfg y x (by simp [hx]))]
      rfl
  have lt : ∀ x ∈ s.link_names.zipIdx, x.2 < s.link_types.length := by
    intro x hx
    have := List.snd_lt_of_mem_zipIdx hx
    omega
  refine ⟨?_, ?_, ?_⟩
  · exact main _ _ fun y x hx => rfl
  · apply main
    intro y x hx
    simp only [IdxMap.q, theMap, idxsFrom_getElem?, List.length_map, lt x hx, if_true, ok_bind,
      pure_ok, Nat.zero_add, List.map_take]
    rw [List.take_add_one]
    simp [lt x hx]
  · apply main
    intro y x hx
    simp only [IdxMap.d, theMap, idxsFrom_getElem?, List.length_map, lt x hx, if_true, ok_bind,
      pure_ok, Nat.zero_add, List.map_take]
    rw [List.take_add_one]
    simp [lt x hx]

example : exEnv.Known exSys.link_types ∧ exSys.link_types.length = exSys.num_links :=
  ⟨exSys_consistent.known, rfl⟩
example : ownSlice exEnv.dw exSys.link_types exSys.link_damping 1 = [4] := by
  simp [ownSlice, exSys, wOf, exEnv]

/-! ## C02 -/

/-- C02: with unique names, `name_to_idx` and `idx_to_name` are mutually inverse. -/
theorem C02_inverse {s : System α π} (hn : s.link_names.Nodup) (i : Nat) (x : String) :
    s.name_to_idx x = .ok i ↔ s.idx_to_name i = .ok x := by
  constructor
  · intro h
    exact idx_to_name_nat (name_to_idx_ok h)
  · intro h
    apply name_to_idx_of_nodup hn
    cases hi : s.link_names[i]? with
    | some y => rw [idx_to_name_nat hi] at h; exact congrArg some (Except.ok.inj h)
    | none =>
      unfold idx_to_name at h
      rw [if_neg (by simp), pyAssert_true (by omega)] at h
      have : ¬ ((i : Int) < 0) := by omega
      simp [ok_bind, pyGet, this, hi] at h

/-- C02: names that exist are found, names that do not exist raise (`ValueError`) instead of
giving a wrong index; indices outside the range raise. -/
theorem C02_missing (s : System α π) (x : String) (i : Int) (aw : Bool) :
    (x ∈ s.link_names → ∃ i, s.name_to_idx x = .ok i ∧ s.link_names[i]? = some x) ∧
    (x ∉ s.link_names → s.name_to_idx x = .error .value) ∧
    ((s.link_names.length : Int) ≤ i → s.idx_to_name i aw = .error .index) ∧
    (i < -1 → s.idx_to_name i aw = .error .assertion) := by
  refine ⟨?_, ?_, ?_, ?_⟩
  · intro h
    cases hx : s.link_names.idxOf? x with
    | none => exact absurd h (List.idxOf?_eq_none_iff.1 hx)
    | some i =>
      have : s.name_to_idx x = .ok i := by simp [name_to_idx, pyIndex, hx]
      exact ⟨i, this, name_to_idx_ok this⟩
  · intro h
    simp [name_to_idx, pyIndex, List.idxOf?_eq_none_iff.2 h]
  · intro h
    unfold idx_to_name
    have h0 : ¬ (aw = true ∧ i = -1) := by omega
    have h1 : ¬ i < 0 := by omega
    rw [if_neg h0, pyAssert_true (by omega)]
    have h2 : s.link_names[i.toNat]? = none := List.getElem?_eq_none (by omega)
    simp [ok_bind, pyGet, h1, h2]
  · intro h
    unfold idx_to_name
    have h0 : ¬ (aw = true ∧ i = -1) := by omega
    rw [if_neg h0, pyAssert_false (by omega)]
    rfl

/-- C02: the world index `-1` is accepted exactly with `allow_world`. -/
theorem C02_world (s : System α π) :
    s.idx_to_name (-1) true = .ok "world" ∧ s.idx_to_name (-1) false = .error .assertion := by
  constructor
  · simp [idx_to_name]
  · unfold idx_to_name
    rw [if_neg (by simp), pyAssert_false (by omega)]
    rfl

/-- C02: `idx_map('l')` agrees with `name_to_idx`. -/
theorem C02_idx_map {E : Env α π} {s : System α π} (h : s.Consistent E) (x : String) (i : Nat) :
    (∃ d, s.idx_map E .l = .ok d ∧ (x, Idx.at i) ∈ d) ↔ s.name_to_idx x = .ok i := by
  have hm := (C01_sizes_and_idx_map h.known h.types_len h.names_len).2.2.1
  rw [hm]
  constructor
  · rintro ⟨d, hd, hx⟩
    cases hd
    rw [List.mem_map] at hx
    obtain ⟨⟨y, j⟩, hy, e⟩ := hx
    simp only [Prod.mk.injEq, Idx.at.injEq] at e
    obtain ⟨rfl, rfl⟩ := e
    exact name_to_idx_of_nodup h.names_nodup (List.mem_zipIdx_iff_getElem?.1 hy)
  · intro hx
    exact ⟨_, rfl, List.mem_map.2 ⟨(x, i), List.mem_zipIdx_iff_getElem?.2 (name_to_idx_ok hx), rfl⟩⟩

/-- C02: a consistent system with unique names is exactly one that `parse` accepts; in particular
`parse` rejects duplicate names. -/
theorem C02_parse_rejects_duplicates [Field α] {E : Env α π} {s : System α π}
    (h : ¬ s.link_names.Nodup) : ∃ e, parse E s = .error e :=
  parse_error_of_not_consistent fun hc => h hc.names_nodup

example : exSys.link_names.Nodup ∧ exSys.name_to_idx "c" = .ok 2 := by decide

/-! ## C10 -/

/-- C10: `children` returns exactly the links whose parent is the given link, in link order; an
unknown name raises. -/
theorem C10_children {s : System α π} {name : String} {k : Nat}
    (hk : s.name_to_idx name = .ok k) :
    ∃ cs, s.children name = .ok cs ∧ cs.Pairwise (· < ·) ∧
      ∀ i, i ∈ cs ↔ s.link_parents[i]? = some (k : Int) := by
  refine ⟨_, children_eq hk, List.Pairwise.filter _ List.pairwise_lt_range, ?_⟩
  intro i
  simp only [List.mem_filter, List.mem_range, decide_eq_true_eq, and_iff_right_iff_imp]
  intro h
  exact (List.getElem?_eq_some_iff.1 h).1

theorem C10_children_unknown (s : System α π) {name : String} (h : name ∉ s.link_names) :
    s.children name = .error .value ∧ ∀ fuel, s.findall_bodies_subsystem (fuel + 1) name =
      .error .value := by
  have := (C02_missing s name 0 false).2.1 h
  constructor
  · simp [children, this]
  · intro fuel
    simp [findall_bodies_subsystem, children_names, children, this, error_bind]

theorem subsystem_aux {s : System α π} (hn : s.link_names.Nodup)
    (hl : s.link_names.length = s.link_parents.length) (ht : Topological s.link_parents) :
    ∀ (fuel k : Nat) (name : String), s.link_names[k]? = some name →
      s.link_parents.length ≤ k + fuel →
      ∃ bs, s.findall_bodies_subsystem fuel name = .ok bs ∧ bs.Nodup ∧
        ∀ m, m ∈ bs ↔ ∃ i, s.link_names[i]? = some m ∧ Desc s.link_parents k i ∧ i ≠ k := by
  intro fuel
  induction fuel with
  | zero =>
    intro k name hk hf
    have := (List.getElem?_eq_some_iff.1 hk).1
    omega
  | succ fuel ih =>
    intro k name hk hf
    have hidx := name_to_idx_of_nodup hn hk
    set cs := (List.range s.link_parents.length).filter
      (fun i => s.link_parents[i]? = some (k : Int)) with hcs
    have hmem : ∀ i, i ∈ cs ↔ s.link_parents[i]? = some (k : Int) := by
      intro i
      simp only [hcs, List.mem_filter, List.mem_range, decide_eq_true_eq, and_iff_right_iff_imp]
      exact fun h => (List.getElem?_eq_some_iff.1 h).1
    have hlt : ∀ i ∈ cs, i < s.link_names.length ∧ k < i := by
      intro i hi
      obtain ⟨h1, h2⟩ := List.getElem?_eq_some_iff.1 ((hmem i).1 hi)
      have := (ht i h1).2
      omega
    let nm : Nat → String := fun i => s.link_names.getD i ""
    have hnm : ∀ i ∈ cs, s.link_names[i]? = some (nm i) := by
      intro i hi
      have := (hlt i hi).1
      simp [nm, this]
    have hch : s.children_names name = .ok (cs.map nm) := by
      unfold children_names
      rw [children_eq hidx]
      simp only [ok_bind]
      exact mapM_ok fun i hi => idx_to_name_nat (hnm i hi)
    have hsub : ∀ i, ∃ bs, i ∈ cs → s.findall_bodies_subsystem fuel (nm i) = .ok bs ∧ bs.Nodup ∧
        ∀ m, m ∈ bs ↔ ∃ j, s.link_names[j]? = some m ∧ Desc s.link_parents i j ∧ j ≠ i := by
      intro i
      by_cases hi : i ∈ cs
      · obtain ⟨bs, hbs⟩ := ih i (nm i) (hnm i hi) (by have := (hlt i hi).2; omega)
        exact ⟨bs, fun _ => hbs⟩
      · exact ⟨[], fun h => absurd h hi⟩
    choose sub hsub using hsub
    have hgr : (cs.map nm).mapM (s.findall_bodies_subsystem fuel) = .ok (cs.map sub) := by
      rw [List.mapM_map]
      exact mapM_ok fun i hi => (hsub i hi).1
    refine ⟨cs.map nm ++ (cs.map sub).flatten, ?_, ?_, ?_⟩
    · simp only [findall_bodies_subsystem, hch, ok_bind, hgr, pure_ok]
    · have inj : ∀ (i j : Nat) (m : String), s.link_names[i]? = some m → s.link_names[j]? = some m →
          i = j := by
        intro i j m h1 h2
        have := (name_to_idx_of_nodup hn h1).symm.trans (name_to_idx_of_nodup hn h2)
        exact Except.ok.inj this
      have hcsn : cs.Nodup := List.Nodup.filter _ List.nodup_range
      rw [List.nodup_append]
      refine ⟨?_, ?_, ?_⟩
      · rw [List.nodup_map_iff_inj_on hcsn]
        intro i hi j hj e
        exact inj i j _ (hnm i hi) (e ▸ hnm j hj)
      · rw [List.nodup_flatten]
        refine ⟨?_, ?_⟩
        · intro l hl
          obtain ⟨i, hi, rfl⟩ := List.mem_map.1 hl
          exact (hsub i hi).2.1
        · rw [List.pairwise_map]
          refine List.Pairwise.imp_of_mem ?_ hcsn
          intro i j hi hj hne m hmi hmj
          obtain ⟨a, ha, hda, _⟩ := ((hsub i hi).2.2 m).1 hmi
          obtain ⟨b, hb, hdb, _⟩ := ((hsub j hj).2.2 m).1 hmj
          have := inj a b m ha hb
          subst this
          exact hne (Desc.siblings_disjoint ht ((hmem i).1 hi) ((hmem j).1 hj) hda hdb)
      · intro m hm m' hm' e
        subst e
        obtain ⟨i, hi, rfl⟩ := List.mem_map.1 hm
        rw [List.mem_flatten] at hm'
        obtain ⟨l, hl, hml⟩ := hm'
        obtain ⟨j, hj, rfl⟩ := List.mem_map.1 hl
        obtain ⟨a, ha, hda, hne⟩ := ((hsub j hj).2.2 _).1 hml
        have := inj a i _ ha (hnm i hi)
        subst this
        exact hne (Desc.siblings_disjoint ht ((hmem a).1 hi) ((hmem j).1 hj) .self hda)
    · intro m
      rw [List.mem_append, List.mem_map, List.mem_flatten]
      constructor
      · rintro (⟨i, hi, rfl⟩ | ⟨l, hl, hml⟩)
        · refine ⟨i, hnm i hi, .step ((hmem i).1 hi) .self, ?_⟩
          have := (hlt i hi).2
          omega
        · obtain ⟨j, hj, rfl⟩ := List.mem_map.1 hl
          obtain ⟨a, ha, hda, _⟩ := ((hsub j hj).2.2 _).1 hml
          have h1 := (Desc.proper_iff ht).2 ⟨j, (hmem j).1 hj, hda⟩
          exact ⟨a, ha, h1.1, h1.2⟩
      · rintro ⟨i, hi, hd, hne⟩
        obtain ⟨c, hc, hdc⟩ := (Desc.proper_iff ht).1 ⟨hd, hne⟩
        have hc' := (hmem c).2 hc
        by_cases h : i = c
        · subst h
          left
          exact ⟨i, hc', Option.some.inj ((hnm i hc').symm.trans hi)⟩
        · right
          exact ⟨sub c, List.mem_map.2 ⟨c, hc', rfl⟩, ((hsub c hc').2.2 m).2 ⟨i, hi, hdc, h⟩⟩

/-- C10: `findall_bodies_subsystem` returns every proper descendant exactly once and nothing
else. A recursion budget of the number of links suffices. -/
theorem C10_subsystem {E : Env α π} {s : System α π} (h : s.Consistent E)
    (ht : Topological s.link_parents) {name : String} (hname : name ∈ s.link_names)
    {fuel : Nat} (hf : s.num_links ≤ fuel) :
    ∃ bs, s.findall_bodies_subsystem fuel name = .ok bs ∧ bs.Nodup ∧
      ∀ m, m ∈ bs ↔ s.IsDesc name m ∧ m ≠ name := by
  obtain ⟨k, hk, e⟩ := List.getElem_of_mem hname
  have hk' : s.link_names[k]? = some name := by rw [List.getElem?_eq_getElem hk, e]
  obtain ⟨bs, h1, h2, h3⟩ := subsystem_aux h.names_nodup h.names_len ht fuel k name hk'
    (by unfold num_links at hf; omega)
  have inj : ∀ (i j : Nat) (m : String), s.link_names[i]? = some m → s.link_names[j]? = some m →
      i = j := by
    intro i j m h1 h2
    have := (name_to_idx_of_nodup h.names_nodup h1).symm.trans
      (name_to_idx_of_nodup h.names_nodup h2)
    exact Except.ok.inj this
  refine ⟨bs, h1, h2, fun m => (h3 m).trans ?_⟩
  constructor
  · rintro ⟨i, hi, hd, hne⟩
    refine ⟨⟨k, i, hk', hi, hd⟩, ?_⟩
    rintro rfl
    exact hne (inj i k _ hi hk')
  · rintro ⟨⟨k', i, hk'', hi, hd⟩, hne⟩
    have := inj k' k _ hk'' hk'
    subst this
    refine ⟨i, hi, hd, ?_⟩
    rintro rfl
    exact hne (Option.some.inj (hi.symm.trans hk''))

/-- C10: the order of the result: the children in link order, then child by child the result for
that child (not link order; a tree may be numbered so that this differs from link order). -/
theorem C10_subsystem_order {s : System α π} {name : String} {fuel : Nat} {bs : List String}
    (h : s.findall_bodies_subsystem (fuel + 1) name = .ok bs) :
    ∃ cs subs, s.children_names name = .ok cs ∧
      cs.mapM (s.findall_bodies_subsystem fuel) = .ok subs ∧ bs = cs ++ subs.flatten := by
  simp only [findall_bodies_subsystem] at h
  cases hc : s.children_names name with
  | error e => simp [hc, error_bind] at h
  | ok cs =>
    cases hg : cs.mapM (s.findall_bodies_subsystem fuel) with
    | error e => simp [hc, hg, ok_bind] at h
    | ok subs =>
      simp only [hc, hg, ok_bind, pure_ok] at h
      exact ⟨cs, subs, rfl, hg, (Except.ok.inj h).symm⟩

/-- C10: the bodies connected to the world are exactly the links with parent `-1`. -/
theorem C10_world_children (s : System α π) :
    (∀ i, i ∈ s.findall_bodies_to_world ↔ s.link_parents[i]? = some (-1)) ∧
    s.findall_bodies_to_world.Nodup ∧
    (∀ r, s.find_body_to_world = .ok r ↔ s.findall_bodies_to_world = [r]) := by
  refine ⟨?_, ?_, ?_⟩
  · intro i
    simp only [findall_bodies_to_world, List.mem_map, List.mem_filter, decide_eq_true_eq]
    constructor
    · rintro ⟨x, ⟨h1, h2⟩, rfl⟩
      have := List.mem_zipIdx_iff_getElem?.1 h1
      rw [this, h2]
    · intro h
      exact ⟨(-1, i), ⟨List.mem_zipIdx_iff_getElem?.2 h, rfl⟩, rfl⟩
  · have : (s.link_parents.zipIdx.map (·.2)).Nodup := by
      simp [List.zipIdx_map_snd, List.nodup_range']
    exact this.sublist (List.Sublist.map _ List.filter_sublist)
  · intro r
    unfold find_body_to_world
    by_cases h : s.findall_bodies_to_world.length = 1
    · simp only [pyAssert_true h, ok_bind]
      obtain ⟨a, ha⟩ := List.length_eq_one_iff.1 h
      rw [ha]
      simp [pyGet]
    · simp only [pyAssert_false h]
      constructor
      · intro h'; cases h'
      · intro h'; rw [h'] at h; simp at h

example : exSys.findall_bodies_subsystem 4 "a" = .ok ["b", "c"] := by decide
example : exSys.children "a" = .ok [1, 2] := by decide

end RingLib
