import Verif.Model.Exports
import Verif.Props.Eager
import Verif.Props.Sizes
import Verif.Props.Files
import Verif.Props.Nan

/-!
# C106: every export of a generator holds the same sequences
-/

namespace RingLib
namespace generator
open utils System
variable {K β : Type}

theorem to_list_calls (M : Machine) (split : K → Nat → Nat → K) (gens : List (BatchedGen K β))
    (c : Nat) (sizes : Sizes) (key : K) :
    to_list M split gens c sizes key = (callbackCalls M split gens c sizes key).map List.flatten := by
  unfold to_list callbackCalls
  cases _generators_ncalls M split gens c sizes with
  | error e => rfl
  | ok r =>
    rw [ok_bind, ok_bind]
    cases generators_eager split r.1 r.2 key <;> rfl

/-! ## no call is empty -/

theorem lazy_single_pos {M : Machine} {split : K → Nat → Nat → K} {g G : BatchedGen K β} {r : Nat}
    (h : generators_lazy M split [g] [r] = .ok G) : 0 < r := by
  rcases Nat.eq_zero_or_pos r with rfl | hr
  · exfalso
    have hbl := build_batch_matrix_length [0]
    simp only [List.sum_cons, List.sum_nil, Nat.add_zero] at hbl
    cases hd : distribute_batchsize M 0 with
    | error e =>
      unfold generators_lazy at h
      dsimp only at h
      rw [hbl, hd] at h
      cases h
    | ok pv =>
      obtain ⟨p, v⟩ := pv
      have hpv : p * v = 0 := C42_product hd
      obtain ⟨rows, e1, -⟩ := reshape2_ok (arr := _build_batch_matrix [0]) (a := p) (b := v)
        (by rw [hbl, hpv])
      unfold generators_lazy at h
      dsimp only at h
      rw [hbl, hd, ok_bind, e1, ok_bind] at h
      dsimp only at h
      rw [if_pos (Or.inl rfl)] at h
      cases h
  · exact hr

theorem eager_nonempty (split : K → Nat → Nat → K) : ∀ (l : List (BatchedGen K β × Nat))
    (st st' : K × List (List β)), (∀ x ∈ l, ∃ out, Returns x.1 out ∧ 0 < x.1.size) →
    l.foldlM (fun st x => eagerCalls split x.1 x.2 st) st = .ok st' →
    (∀ d ∈ st.2, d ≠ []) → ∀ d ∈ st'.2, d ≠ [] := by
  intro l
  induction l with
  | nil =>
    intro st st' _ h hst
    have := Except.ok.inj h
    rw [← this]
    exact hst
  | cons x xs ih =>
    intro st st' hx h hst
    obtain ⟨out, hr, hp⟩ := hx x (by simp)
    obtain ⟨k, calls, e, -, hc⟩ := eagerCalls_ok split hr x.2 st
    rw [List.foldlM_cons, e, ok_bind] at h
    refine ih _ _ (fun y hy => hx y (by simp [hy])) h ?_
    intro d hd
    rcases List.mem_append.1 hd with hd | hd
    · exact hst d hd
    · obtain ⟨k, rfl⟩ := hc d hd
      intro h0
      have := hr.size k
      rw [h0] at this
      simp at this
      omega

/-- Generators of size `c > 0` that return: the callback is never called with an empty list. -/
theorem calls_nonempty {M : Machine} {split : K → Nat → Nat → K} {gens : List (BatchedGen K β)}
    {outs : List (K → List β)} {c : Nat} {sizes : Sizes} {key : K} {calls : List (List β)}
    (hc : 0 < c) (hlen : gens.length = outs.length)
    (hgens : ∀ i (h : i < gens.length) (h' : i < outs.length),
      Returns gens[i] outs[i] ∧ gens[i].size = c)
    (h : callbackCalls M split gens c sizes key = .ok calls) : ∀ d ∈ calls, d ≠ [] := by
  unfold callbackCalls at h
  cases hr : _generators_ncalls M split gens c sizes with
  | error e => rw [hr] at h; cases h
  | ok r =>
    rw [hr, ok_bind] at h
    unfold generators_eager at h
    cases hf : (r.1.zip r.2).foldlM (fun st x => eagerCalls split x.1 x.2 st) (key, []) with
    | error e => rw [hf] at h; cases h
    | ok st' =>
      rw [hf, ok_bind] at h
      have h := Except.ok.inj h
      subst h
      refine eager_nonempty split _ _ _ ?_ hf (by simp)
      intro x hx
      have hx1 : x.1 ∈ r.1 := (List.of_mem_zip hx).1
      unfold _generators_ncalls at hr
      cases h1 : _compute_repeats c gens.length sizes with
      | error e => rw [h1] at hr; cases hr
      | ok reps =>
        rw [h1, ok_bind] at hr
        cases h2 : reps.mapM (ncall M c) with
        | error e => rw [h2] at hr; cases hr
        | ok rs =>
          rw [h2, ok_bind] at hr
          cases h3 : (gens.zip rs).mapM (fun x => generators_lazy M split [x.1] [x.2.2]) with
          | error e => rw [h3] at hr; cases hr
          | ok lg =>
            rw [h3, ok_bind] at hr
            have hr := Except.ok.inj hr
            subst hr
            obtain ⟨l1, l2⟩ := mapM_inv h3
            obtain ⟨i, hi, he⟩ := List.mem_iff_getElem.1 hx1
            dsimp only at hi he
            have hi' : i < (gens.zip rs).length := by rw [← l1]; exact hi
            have hg := l2 i hi' hi
            have hig : i < gens.length := by
              rw [List.length_zip] at hi'; omega
            rw [he, List.getElem_zip] at hg
            dsimp only at hg
            obtain ⟨hret, hs⟩ := hgens i hig (by omega)
            obtain ⟨a1, a2⟩ := lazy_single hret hg
            refine ⟨_, a1, ?_⟩
            rw [a2, hs]
            exact Nat.mul_pos (lazy_single_pos hg) hc

/-! ## the folder -/

theorem toFolderLoop_append (path : FPath) (ow : Bool) (pre : String)
    (save_fn : FS β → β → FPath → Py Unit × FS β) : ∀ (a b : List β) (fs : FS β) (i : Nat),
    toFolderLoop path ow pre save_fn fs i (a ++ b) =
      match toFolderLoop path ow pre save_fn fs i a with
      | (.error e, fs) => (.error e, fs)
      | (.ok i, fs) => toFolderLoop path ow pre save_fn fs i b := by
  intro a
  induction a with
  | nil => intro b fs i; rfl
  | cons d ds ih =>
    intro b fs i
    rw [List.cons_append, toFolderLoop, toFolderLoop]
    rcases parse_path fs path [⟨false, [pre ++ toString i]⟩] none ow true false with ⟨r, fs1⟩
    cases r with
    | error e => rfl
    | ok file =>
      dsimp only
      rcases save_fn fs1 d file with ⟨r, fs2⟩
      cases r with
      | error e => rfl
      | ok u => exact ih b fs2 (i + 1)

/-- every call of the callback writes the sequences of that call, replaced -/
def Writes (isnan : β → Bool) (choice : Nat → Nat → Nat → Nat) : Nat → List (List β) → List (List β) →
    Prop
  | _, [], out => out = []
  | c, d :: ds, out => ∃ o os, out = o :: os ∧
      replace_elements_w_nans isnan (choice c) d none = some (.ok o) ∧ Writes isnan choice (c + 1) ds os

theorem folderCalls_eq (isnan : β → Bool) (choice : Nat → Nat → Nat → Nat) (path : FPath) (ow : Bool)
    (pre : String) (save_fn : FS β → β → FPath → Py Unit × FS β) : ∀ (calls outs : List (List β))
    (c i : Nat) (fs : FS β), Writes isnan choice c calls outs →
    folderCalls isnan choice path ow pre save_fn fs c i calls =
      some (toFolderLoop path ow pre save_fn fs i outs.flatten) := by
  intro calls
  induction calls with
  | nil =>
    intro outs c i fs h
    have : outs = [] := h
    subst this
    rfl
  | cons d ds ih =>
    intro outs c i fs h
    obtain ⟨o, os, rfl, h1, h2⟩ := h
    rw [folderCalls, h1, List.flatten_cons, toFolderLoop_append]
    dsimp only
    rcases toFolderLoop path ow pre save_fn fs i o with ⟨r, fs1⟩
    cases r with
    | error e => rfl
    | ok j => exact ih os (c + 1) j fs1 h2

theorem mem_allowed_all {data : List β} {i : Nat} (h : i < data.length) :
    (i : Int) ∈ allowedOf data none := by
  simp only [allowedOf, Option.getD_none, List.mem_map, List.mem_range]
  exact ⟨i, h, rfl⟩

theorem writes_exist {isnan : β → Bool} {choice : Nat → Nat → Nat → Nat} : ∀ (calls : List (List β))
    (c : Nat), (∀ d ∈ calls, ∃ x ∈ d, isnan x = false) →
    (∀ c n p, p < n → ∀ t, ∃ t' ≥ t, choice c t' n = p) →
    ∃ outs, Writes isnan choice c calls outs := by
  intro calls
  induction calls with
  | nil => intro c _ _; exact ⟨[], rfl⟩
  | cons d ds ih =>
    intro c hg hf
    obtain ⟨os, hos⟩ := ih (c + 1) (fun d hd => hg d (by simp [hd])) hf
    obtain ⟨x, hx, hxn⟩ := hg d (by simp)
    obtain ⟨i, hi, rfl⟩ := List.mem_iff_getElem.1 hx
    obtain ⟨o, ho⟩ := C49_ends (isnan := isnan) (choice := choice c) (data := d) (incl := none)
      (by
        intro j hj
        simp only [allowedOf, Option.getD_none, List.mem_map, List.mem_range] at hj
        obtain ⟨k, hk, rfl⟩ := hj
        omega)
      ⟨i, mem_allowed_all hi, d[i], by simp, hxn⟩ (hf c)
    exact ⟨o :: os, o, os, rfl, ho, hos⟩

/-- What is written in place of the sequences `data`: as many sequences, none with NaNs, the good ones
at their place, and all of them from `data`. -/
structure Cleaned (isnan : β → Bool) (data written : List β) : Prop where
  length : written.length = data.length
  good : ∀ y ∈ written, isnan y = false ∧ y ∈ data
  kept : ∀ (i : Nat) x, data[i]? = some x → isnan x = false → written[i]? = some x

theorem Cleaned.append {isnan : β → Bool} {a a' b b' : List β} (ha : Cleaned isnan a a')
    (hb : Cleaned isnan b b') : Cleaned isnan (a ++ b) (a' ++ b') := by
  refine ⟨by simp [ha.length, hb.length], ?_, ?_⟩
  · intro y hy
    rcases List.mem_append.1 hy with hy | hy
    · exact ⟨(ha.good y hy).1, by simp [(ha.good y hy).2]⟩
    · exact ⟨(hb.good y hy).1, by simp [(hb.good y hy).2]⟩
  · intro i x hx hn
    by_cases hi : i < a.length
    · rw [List.getElem?_append_left hi] at hx
      rw [List.getElem?_append_left (by rw [ha.length]; exact hi)]
      exact ha.kept i x hx hn
    · rw [List.getElem?_append_right (by omega)] at hx
      rw [List.getElem?_append_right (by rw [ha.length]; omega), ha.length]
      exact hb.kept _ x hx hn

theorem Replaced.cleaned {isnan : β → Bool} {data out : List β} {al : List Int}
    (h : Replaced isnan data al out) : Cleaned isnan data out := by
  obtain ⟨hl, h⟩ := h
  refine ⟨hl, ?_, ?_⟩
  · intro y hy
    obtain ⟨i, hi, rfl⟩ := List.mem_iff_getElem.1 hy
    obtain ⟨y, h1, h2, h3, h4⟩ := h i data[i] (by simp [← hl, hi])
    rw [List.getElem?_eq_getElem hi] at h1
    have h1 := Option.some.inj h1
    rw [h1]
    refine ⟨h2, ?_⟩
    cases hn : isnan data[i] with
    | false => rw [h3 hn]; exact List.getElem_mem _
    | true =>
      obtain ⟨j, -, -, hj⟩ := h4 hn
      exact List.mem_of_getElem? hj
  · intro i x hx hn
    obtain ⟨y, h1, -, h3, -⟩ := h i x hx
    rw [h1, h3 hn]

theorem Writes.cleaned {isnan : β → Bool} {choice : Nat → Nat → Nat → Nat} :
    ∀ {calls outs : List (List β)} {c : Nat}, Writes isnan choice c calls outs →
    Cleaned isnan calls.flatten outs.flatten := by
  intro calls
  induction calls with
  | nil =>
    intro outs c h
    have : outs = [] := h
    subst this
    exact ⟨rfl, by simp, by simp⟩
  | cons d ds ih =>
    intro outs c h
    obtain ⟨o, os, rfl, h1, h2⟩ := h
    rw [List.flatten_cons, List.flatten_cons]
    exact (Replaced.cleaned (C49_partial h1)).append (ih h2)

/-- C106, partially: if every call of a generator returns some sequence without NaNs, the folder has as
many files as the list has sequences; file `i` holds sequence `i` of the list unless that one has NaNs,
and another sequence of the list without NaNs then. Missing: sequences with NaNs, see `C106_nan_fails`
and `C106_all_nan_fails`. -/
theorem C106_folder_partial {isnan : β → Bool} {choice : Nat → Nat → Nat → Nat} {M : Machine}
    {split : K → Nat → Nat → K} {gens : List (BatchedGen K β)} {c : Nat} {sizes : Sizes} {key : K}
    {calls : List (List β)} (h : callbackCalls M split gens c sizes key = .ok calls)
    (hne : calls ≠ []) (hgood : ∀ d ∈ calls, ∃ x ∈ d, isnan x = false)
    (hfair : ∀ c n p, p < n → ∀ t, ∃ t' ≥ t, choice c t' n = p)
    {path : FPath} {pre : String} (hd : '.' ∉ pre.toList) {ow : Bool} {fs fs1 : FS β}
    (hmk : fs.mkdir path = (.ok (), fs1))
    (hnew : ow = false → ∀ j, fs (seqPath path pre j) = none)
    (hdir : ∀ j, fs (seqFile path pre j) ≠ some .dir) :
    ∃ data written fs', to_list M split gens c sizes key = .ok data ∧ Cleaned isnan data written ∧
      to_folder_of isnan choice M split gens c sizes key path ow pre default_save_fn fs =
        some (.ok data.length, fs') ∧
      (∀ i x, written[i]? = some x → fs' (seqFile path pre i) = some (.file x)) ∧
      (∀ q, (∀ i < data.length, q ≠ seqFile path pre i) →
        fs' q = fs q ∨ (fs q = none ∧ fs' q = some .dir ∧ q.parts.length ≤ path.parts.length)) := by
  obtain ⟨outs, ho⟩ := writes_exist (choice := choice) calls 0 hgood hfair
  have hcl := ho.cleaned
  have hne' : outs.flatten ≠ [] := by
    intro h0
    have hl := hcl.length
    rw [h0] at hl
    obtain ⟨d, ds, rfl⟩ := List.exists_cons_of_ne_nil hne
    obtain ⟨x, hx, -⟩ := hgood d (by simp)
    have := List.length_pos_of_mem hx
    simp at hl
    omega
  obtain ⟨fs', e, h1, -, h3, -⟩ := C67_to_folder_partial hd hne' hmk hnew hdir
  refine ⟨calls.flatten, outs.flatten, fs', by rw [to_list_calls, h]; rfl, hcl, ?_, h1, ?_⟩
  · unfold to_folder_of
    rw [h]
    dsimp only
    rw [folderCalls_eq _ _ _ _ _ _ _ _ _ _ _ ho, ← hcl.length]
    exact congrArg some e
  · rw [← hcl.length]
    exact h3

/-- C106: without NaNs the folder holds the list: file `i` is sequence `i`. -/
theorem C106_folder {isnan : β → Bool} {choice : Nat → Nat → Nat → Nat} {M : Machine}
    {split : K → Nat → Nat → K} {gens : List (BatchedGen K β)} {outs : List (K → List β)} {c : Nat}
    {sizes : Sizes} {key : K} {data : List β} (hc : 0 < c) (hlen : gens.length = outs.length)
    (hgens : ∀ i (h : i < gens.length) (h' : i < outs.length),
      Returns gens[i] outs[i] ∧ gens[i].size = c)
    (h : to_list M split gens c sizes key = .ok data) (hne : data ≠ [])
    (hnan : ∀ x ∈ data, isnan x = false)
    (hfair : ∀ c n p, p < n → ∀ t, ∃ t' ≥ t, choice c t' n = p)
    {path : FPath} {pre : String} (hd : '.' ∉ pre.toList) {ow : Bool} {fs fs1 : FS β}
    (hmk : fs.mkdir path = (.ok (), fs1))
    (hnew : ow = false → ∀ j, fs (seqPath path pre j) = none)
    (hdir : ∀ j, fs (seqFile path pre j) ≠ some .dir) :
    ∃ fs', to_folder_of isnan choice M split gens c sizes key path ow pre default_save_fn fs =
        some (.ok data.length, fs') ∧
      ∀ i x, data[i]? = some x → fs' (seqFile path pre i) = some (.file x) := by
  rw [to_list_calls] at h
  cases hcalls : callbackCalls M split gens c sizes key with
  | error e => rw [hcalls] at h; cases h
  | ok calls =>
    rw [hcalls] at h
    have h := Except.ok.inj h
    subst h
    have hnb := calls_nonempty hc hlen hgens hcalls
    obtain ⟨data, written, fs', e1, e2, e3, e4, -⟩ := C106_folder_partial (isnan := isnan)
      (choice := choice) hcalls (by rintro rfl; exact hne rfl)
      (by
        intro d hd
        obtain ⟨x, xs, rfl⟩ := List.exists_cons_of_ne_nil (hnb d hd)
        exact ⟨x, by simp, hnan x (List.mem_flatten.2 ⟨_, hd, by simp⟩)⟩)
      hfair hd hmk hnew hdir
    rw [to_list_calls, hcalls] at e1
    have e1 := Except.ok.inj e1
    subst e1
    refine ⟨fs', e3, ?_⟩
    intro i x hx
    exact e4 i x (e2.kept i x hx (hnan x (List.mem_of_getElem? hx)))

/-- a generator of two sequences, the first of which has NaNs (`none`) -/
def exNan : BatchedGen (List Nat) (Option Nat) := ⟨2, fun _ => .ok [none, some 1]⟩

theorem exNan_ncalls : ∃ G, _generators_ncalls ⟨1, 1, 4⟩ (fun k _ i => i :: k) [exNan] 2 (.int 2) =
    .ok ([G], [1]) ∧ Returns G (fun _ => [none, some 1]) := by
  have hrep : _compute_repeats 2 1 (.int 2) = .ok [1] := by decide
  have hp : primes 2 = [2] := by decide
  have hex : _number_of_executions_required ⟨1, 1, 4⟩ 2 = .ok 1 := by
    unfold _number_of_executions_required
    rw [distribute_one rfl, ok_bind, hp]
    simp [executionsLoop]
    norm_num
  have hnc : ncall ⟨1, 1, 4⟩ 2 1 = .ok (1, 1) := by
    unfold ncall
    rw [hex, ok_bind]
    simp [utils.gcd]
    rfl
  have hr : Returns exNan (fun _ => [none, some 1]) := ⟨fun _ => rfl, fun _ => rfl⟩
  obtain ⟨G, hG⟩ : ∃ G, generators_lazy ⟨1, 1, 4⟩ (fun (k : List Nat) _ i => i :: k) [exNan] [1] =
      .ok G := ⟨_, rfl⟩
  refine ⟨G, ?_, ?_⟩
  · unfold _generators_ncalls
    rw [show [exNan].length = 1 from rfl, hrep, ok_bind, List.mapM_cons, hnc, ok_bind, List.mapM_nil]
    change ([(exNan, (1, 1))].mapM (fun x : BatchedGen (List Nat) (Option Nat) × Nat × Nat =>
      generators_lazy ⟨1, 1, 4⟩ (fun (k : List Nat) _ i => i :: k) [x.1] [x.2.2]) >>= fun g =>
        pure (g, [1])) = _
    rw [List.mapM_cons, hG, ok_bind, List.mapM_nil]
    rfl
  · simpa [List.range_succ] using (lazy_single hr hG).1

theorem exNan_calls : callbackCalls ⟨1, 1, 4⟩ (fun k _ i => i :: k) [exNan] 2 (.int 2) [] =
    .ok [[none, some 1]] := by
  obtain ⟨G, h1, h2⟩ := exNan_ncalls
  unfold callbackCalls
  rw [h1, ok_bind]
  unfold generators_eager
  simp [eagerCalls, h2.run]

/-- C106 fails for sequences with NaNs: the list has one with NaNs, the file of the same number another
sequence. -/
theorem C106_nan_fails {choice : Nat → Nat → Nat → Nat}
    (hfair : ∀ c n p, p < n → ∀ t, ∃ t' ≥ t, choice c t' n = p) :
    to_list ⟨1, 1, 4⟩ (fun k _ i => i :: k) [exNan] 2 (.int 2) [] = .ok [none, some 1] ∧
    ∃ fs', to_folder_of (fun x : Option Nat => x.isNone) choice ⟨1, 1, 4⟩ (fun k _ i => i :: k) [exNan] 2
        (.int 2) [] ⟨false, ["data"]⟩ true "seq" default_save_fn (fun _ => none) = some (.ok 2, fs') ∧
      fs' ⟨false, ["data", "seq0.pickle"]⟩ = some (.file (some 1)) ∧
      fs' ⟨false, ["data", "seq1.pickle"]⟩ = some (.file (some 1)) := by
  have hl : to_list ⟨1, 1, 4⟩ (fun k _ i => i :: k) [exNan] 2 (.int 2) [] = .ok [none, some 1] := by
    rw [to_list_calls, exNan_calls]; rfl
  refine ⟨hl, ?_⟩
  obtain ⟨data, written, fs', h1, h2, h3, h4, -⟩ := C106_folder_partial
    (isnan := fun x : Option Nat => x.isNone) (choice := choice) exNan_calls (by simp) (by simp) hfair
    (path := ⟨false, ["data"]⟩) (pre := "seq") (by decide) (ow := true) (fs := fun _ => none)
    (fs1 := FS.set (fun _ => none) ⟨false, ["data"]⟩ .dir) rfl (by simp) (by simp)
  rw [hl] at h1
  have h1 := Except.ok.inj h1
  subst h1
  refine ⟨fs', h3, ?_⟩
  have hall : ∀ y ∈ written, y = some 1 := by
    intro y hy
    obtain ⟨g1, g2⟩ := h2.good y hy
    simp at g2
    rcases g2 with rfl | rfl
    · simp at g1
    · rfl
  have hlen : written.length = 2 := h2.length
  have hget : ∀ i < 2, written[i]? = some (some 1) := by
    intro i hi
    rw [List.getElem?_eq_getElem (by omega)]
    exact congrArg some (hall _ (List.getElem_mem _))
  exact ⟨h4 0 _ (hget 0 (by omega)), h4 1 _ (hget 1 (by omega))⟩

theorem folderCalls_all_nan {isnan : β → Bool} {choice : Nat → Nat → Nat → Nat} {path : FPath}
    {ow : Bool} {pre : String} {save_fn : FS β → β → FPath → Py Unit × FS β} :
    ∀ {calls : List (List β)} {c i : Nat} {fs fs' : FS β} {n : Nat},
    (∃ d ∈ calls, ∀ x ∈ d, isnan x = true) →
    folderCalls isnan choice path ow pre save_fn fs c i calls ≠ some (.ok n, fs') := by
  intro calls
  induction calls with
  | nil => rintro c i fs fs' n ⟨d, hd, -⟩; simp at hd
  | cons d ds ih =>
    rintro c i fs fs' n ⟨b, hb, hx⟩
    rw [folderCalls]
    rcases List.mem_cons.1 hb with rfl | hb
    · obtain ⟨e, he⟩ := C49_rejected (isnan := isnan) (choice := choice c) (data := b) (incl := none)
        (Or.inl hx)
      rw [he]
      simp
    · split
      · simp
      · simp
      · split
        · simp
        · exact ih ⟨b, hb, hx⟩

/-- C106 fails if all sequences of one call have NaNs: the folder is not completed, whatever the other
calls return, while the list is. -/
theorem C106_all_nan_fails {isnan : β → Bool} {choice : Nat → Nat → Nat → Nat} {M : Machine}
    {split : K → Nat → Nat → K} {gens : List (BatchedGen K β)} {c : Nat} {sizes : Sizes} {key : K}
    {calls : List (List β)} (h : callbackCalls M split gens c sizes key = .ok calls)
    (hbad : ∃ d ∈ calls, ∀ x ∈ d, isnan x = true) (path : FPath) (ow : Bool) (pre : String)
    (save_fn : FS β → β → FPath → Py Unit × FS β) (fs : FS β) :
    to_list M split gens c sizes key = .ok calls.flatten ∧
    ∀ n fs', to_folder_of isnan choice M split gens c sizes key path ow pre save_fn fs ≠
      some (.ok n, fs') := by
  refine ⟨by rw [to_list_calls, h]; rfl, fun n fs' => ?_⟩
  unfold to_folder_of
  rw [h]
  exact folderCalls_all_nan hbad

/-- drawing in turn -/
theorem fair_mod : ∀ c n p : Nat, p < n → ∀ t, ∃ t' ≥ t, (fun _ t n => t % n : Nat → Nat → Nat → Nat) c t' n = p := by
  intro _ n p hp t
  refine ⟨p + n * t, ?_, ?_⟩
  · have : t ≤ n * t := Nat.le_mul_of_pos_left t (by omega)
    omega
  · show (p + n * t) % n = p
    rw [Nat.add_mul_mod_self_left, Nat.mod_eq_of_lt hp]

example : ∃ fs', to_folder_of (fun x : Option Nat => x.isNone) (fun _ t n => t % n) ⟨1, 1, 4⟩
    (fun k _ i => i :: k) [exNan] 2 (.int 2) [] ⟨false, ["data"]⟩ true "seq" default_save_fn
    (fun _ => none) = some (.ok 2, fs') :=
  let ⟨fs', h, _⟩ := (C106_nan_fails fair_mod).2
  ⟨fs', h⟩

/-- the same sequences, none of them with NaNs -/
example : ∃ fs', to_folder_of (fun _ : Option Nat => false) (fun _ t n => t % n) ⟨1, 1, 4⟩
    (fun k _ i => i :: k) [exNan] 2 (.int 2) [] ⟨false, ["data"]⟩ true "seq" default_save_fn
    (fun _ => none) = some (.ok 2, fs') ∧
    ∀ i x, [none, some 1][i]? = some x →
      fs' (seqFile ⟨false, ["data"]⟩ "seq" i) = some (.file x) :=
  C106_folder (outs := [fun _ => [none, some 1]]) (by decide) rfl (by
      intro i h h'
      have : i = 0 := by simpa using h
      subst this
      exact ⟨⟨fun _ => rfl, fun _ => rfl⟩, rfl⟩)
    (C106_nan_fails fair_mod).1 (by simp) (by simp) fair_mod (by decide)
    (fs1 := FS.set (fun _ => none) ⟨false, ["data"]⟩ .dir) rfl (by simp) (by simp)

/-- all sequences of the only call have NaNs -/
example : ∃ d ∈ [[none, some 1]], ∀ x ∈ d, (fun _ : Option Nat => true) x = true :=
  ⟨_, List.mem_singleton.2 rfl, fun _ _ => rfl⟩

/-! ## the pickle and the eager generator -/

/-- C106: the file saved by `to_pickle` is loaded as the sequences of the list, in their order. -/
theorem C106_pickle {M : Machine} {split : K → Nat → Nat → K} {gens : List (BatchedGen K β)} {c : Nat}
    {sizes : Sizes} {key : K} {data : List β} (h : to_list M split gens c sizes key = .ok data)
    (hne : data ≠ []) {fs fs1 : FS (List β)} {path : FPath} {ow : Bool} (hn : path.name ≠ "")
    (how : ow = false → fs (pickleFile path) = none) (hmk : fs.mkdir path.parent = (.ok (), fs1))
    (hdir : fs1 (pickleFile path) ≠ some .dir) :
    ∃ fs', to_pickle M split gens c sizes key path ow fs = (.ok (), fs') ∧
      pickle_load fs' path = (.ok data, fs') := by
  obtain ⟨d, ds, rfl⟩ := List.exists_cons_of_ne_nil hne
  obtain ⟨fs', h1, h2⟩ := C52_roundtrip (obj := d :: ds) hn how hmk hdir
  refine ⟨fs', ?_, h2⟩
  unfold to_pickle
  rw [h]
  exact h1

/-- C106: without `overwrite` a file that is there makes `to_pickle` raise, and nothing changes. -/
theorem C106_pickle_kept (M : Machine) (split : K → Nat → Nat → K) (gens : List (BatchedGen K β))
    (c : Nat) (sizes : Sizes) (key : K) {fs : FS (List β)} {path : FPath} (hn : path.name ≠ "")
    {n : Node (List β)} (hex : fs (pickleFile path) = some n) :
    ∃ e, to_pickle M split gens c sizes key path false fs = (.error e, fs) := by
  unfold to_pickle
  split
  · exact ⟨_, rfl⟩
  · exact ⟨_, rfl⟩
  · exact ⟨_, C52_exists hn hex⟩

/-- C106: the eager generator hands out the sequences of the list in epochs. Batch sizes larger than the
list are refused. -/
theorem C106_eager {M : Machine} {split : K → Nat → Nat → K} {gens : List (BatchedGen K β)} {c : Nat}
    {sizes : Sizes} {key : K} {data : List β} (h : to_list M split gens c sizes key = .ok data)
    {shuf : Nat → List β → List β} (hs : ∀ k l, (shuf k l).Perm l) (shuffle : Bool) (bs n : Nat)
    (hbs : 0 < bs) :
    (bs ≤ data.length → ∃ st B batches st', to_eager_gen M split gens c sizes key bs = .ok (st, B) ∧
      B = data.length / bs ∧ eagerRun shuf shuffle bs B n st = .ok (batches, st') ∧
      batches.length = n ∧ ∀ e, (e + 1) * B ≤ n →
        IsEpoch data bs ((batches.drop (e * B)).take B) ∧
        ((batches.drop (e * B)).take B).flatten =
          (epochData shuf shuffle data (e + 1)).take (data.length - data.length % bs)) ∧
    (data.length < bs → to_eager_gen M split gens c sizes key bs = .error .assertion) := by
  constructor
  · intro hd
    obtain ⟨st, B, batches, st', h1, h2, h3, h4, -, h5⟩ := C43_epochs hs shuffle data bs n hbs hd
    refine ⟨st, B, batches, st', ?_, h2, h3, h4, h5⟩
    unfold to_eager_gen
    rw [h, ok_bind, pyAssert_true (by simpa using hd), ok_bind]
    exact h1
  · intro hd
    unfold to_eager_gen
    rw [h, ok_bind, pyAssert_false (by simpa using hd)]
    rfl

example : ∃ fs', to_pickle ⟨1, 1, 4⟩ (fun k _ i => i :: k) [exNan] 2 (.int 2) []
    ⟨false, ["data", "all"]⟩ false (fun _ => none) = (.ok (), fs') ∧
    pickle_load fs' ⟨false, ["data", "all"]⟩ = (.ok [none, some 1], fs') :=
  C106_pickle (C106_nan_fails fair_mod).1 (by simp) (by decide) (fun _ => rfl)
    (fs1 := FS.set (fun _ => none) ⟨false, ["data"]⟩ .dir) rfl (by
      rw [show pickleFile ⟨false, ["data", "all"]⟩ = ⟨false, ["data", "all.pickle"]⟩ from rfl]
      simp [FS.set])

example : to_eager_gen ⟨1, 1, 4⟩ (fun k _ i => i :: k) [exNan] 2 (.int 2) [] 3 = .error .assertion :=
  (C106_eager (C106_nan_fails fair_mod).1 (shuf := fun _ l => l) (fun _ _ => List.Perm.refl _) true 3 0
    (by decide)).2 (by decide)

end generator
end RingLib
