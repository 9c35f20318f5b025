import Verif.Model.EvalXy
import Verif.Props.TrainStep
import Verif.Props.Metrics

/-!
# C100: what is evaluated on data held out

The specification: `slice i y` is link `i` of every time step of every sequence, and a filter acts per
sequence (`ActsPerSequence`) if what it returns for a batch is what it returns for each of its sequences.
-/

namespace RingLib.ml
open utils System

variable {P ξ η ψ : Type}

/-! ## Specification -/

/-- link `i` of every time step of every sequence -/
def slice {F : Type} [Inhabited F] (i : Nat) (y : List (List (List F))) : List (List F) :=
  y.map (List.map fun row => row[i]?.getD default)

/-- what the filter returns for a batch is what `f` returns for each sequence of it -/
def ActsPerSequence (apply : P → List (List (List ξ)) → List (List (List η)) → Py (List (List (List ψ))))
    (f : P → List (List ξ) → List (List η) → List (List ψ)) : Prop :=
  ∀ params X y, X.length = y.length → apply params X y = .ok (List.zipWith (f params) X y)

/-- the estimate for the whole batch -/
def estimate (f : P → List (List ξ) → List (List η) → List (List ψ)) (params : P)
    (X : List (List (List ξ))) (y : List (List (List η))) : List (List (List ψ)) :=
  List.zipWith (f params) X y

/-! ## Lemmas -/

theorem linkColumn_slice {F : Type} [Inhabited F] (i : Nat) (y : List (List (List F))) :
    linkColumn i y = slice i y := by
  simp [linkColumn, slice, List.getD_eq_getElem?_getD]

theorem flatten_zipWith {α β γ : Type} (g : α → β → γ) (A : List (List α)) (B : List (List β)) (v : Nat)
    (hA : ∀ r ∈ A, r.length = v) (hB : ∀ r ∈ B, r.length = v) :
    ((A.zip B).map fun d => List.zipWith g d.1 d.2).flatten = List.zipWith g A.flatten B.flatten := by
  have h := congrArg (List.map fun x : α × β => g x.1 x.2) (generator.flatten_zip A B v hA hB)
  rw [List.map_flatten, List.map_map] at h
  have e : ∀ (l : List α) (m : List β), (l.zip m).map (fun x => g x.1 x.2) = List.zipWith g l m := by
    intro l m
    rw [List.zip, List.map_zipWith]
  rw [e] at h
  rw [← h]
  congr 1
  apply List.map_congr_left
  intro d _
  exact (e d.1 d.2).symm

theorem keys_named {β : Type} (g : Nat → β) : ∀ (names : List String) (k : Nat) (d : Dict β),
    names.Nodup → (∀ n ∈ names, n ∉ d.keys) →
    ((names.zipIdx k).foldl (fun d x => d.set x.1 (g x.2)) d).keys = d.keys ++ names := by
  intro names
  induction names with
  | nil => intro k d _ _; simp
  | cons a as ih =>
    intro k d hnd hd
    rw [List.nodup_cons] at hnd
    have ha := hd a (by simp)
    rw [List.zipIdx_cons, List.foldl_cons, ih _ _ hnd.2, Dict.keys_set, if_neg ha]
    · simp
    · intro n hn
      rw [Dict.keys_set, if_neg ha]
      simp only [List.mem_append, List.mem_singleton, not_or]
      exact ⟨hd n (by simp [hn]), fun e => hnd.1 (e ▸ hn)⟩

/-- the metrics as a dictionary, without the loop -/
noncomputable def metricItems [Inhabited η] [Inhabited ψ] (N : Nat) (names : List String)
    (y : List (List (List η))) (yhat : List (List (List ψ)))
    (ms : List (String × (List (List η) → List (List ψ) → ℝ))) : Dict (Metric ℝ) :=
  ms.map fun m => (m.1, .node (namedValues names
    ((List.range N).map fun i : Nat => m.2 (slice i y) (slice i yhat))))

theorem metricStep_fold [Inhabited η] [Inhabited ψ] {N : Nat} {names : List String}
    {y : List (List (List η))} {yhat : List (List (List ψ))}
    (hN : ∀ seq ∈ yhat, ∀ row ∈ seq, row.length = N) :
    ∀ (ms : List (String × (List (List η) → List (List ψ) → ℝ))) (d : Dict (Metric ℝ)),
      (ms.map Prod.fst).Nodup → (∀ m ∈ ms, m.1 ∉ d.keys) →
      ms.foldlM (metricStep N names y yhat) d = .ok (d ++ metricItems N names y yhat ms) := by
  intro ms
  induction ms with
  | nil => intro d _ _; simp [metricItems]; rfl
  | cons m ms ih =>
    intro d hnd hd
    rw [List.map_cons, List.nodup_cons] at hnd
    have hm := hd m (by simp)
    have step : metricStep N names y yhat d m = .ok (d ++ [(m.1, .node (namedValues names
        ((List.range N).map fun i : Nat => m.2 (slice i y) (slice i yhat))))]) := by
      unfold metricStep vmapLinks
      rw [pyAssert_true (by simpa using hm), ok_bind, if_pos hN, ok_bind]
      simp only [linkColumn_slice, Dict.set, if_neg hm]
      rfl
    rw [List.foldlM_cons, step, ok_bind, ih _ hnd.2]
    · simp [metricItems]
    · intro m' hm'
      simp only [Dict.keys, List.map_append, List.map_cons, List.map_nil, List.mem_append,
        List.mem_singleton, not_or]
      refine ⟨hd m' (by simp [hm']), fun e => hnd.1 ?_⟩
      rw [← e]
      exact List.mem_map_of_mem hm'

/-- What the callback computes, whatever the devices are. -/
theorem evalXyInit_eq [Inhabited η] [Inhabited ψ] {M : Machine}
    {apply : P → List (List (List ξ)) → List (List (List η)) → Py (List (List (List ψ)))}
    {f : P → List (List ξ) → List (List η) → List (List ψ)} (hf : ActsPerSequence apply f)
    {ms : List (String × (List (List η) → List (List ψ) → ℝ))} (hms : (ms.map Prod.fst).Nodup)
    {X : List (List (List ξ))} {y : List (List (List η))} (hXy : X.length = y.length) {N : Nat}
    (hN : ∀ params, ∀ seq ∈ estimate f params X y, ∀ row ∈ seq, row.length = N) {p v : Nat}
    (hM : distribute_batchsize M X.length = .ok (p, v)) (names : Option (List String)) :
    evalXyInit M apply ms X y N names = .ok fun params => .ok (.node
      (metricItems N (names.getD (_unknown_link_names N)) y (estimate f params X y) ms)) := by
  have hpv : X.length = p * v := (C42_product hM).symm
  obtain ⟨Xs, eX, lX, rX, fX⟩ := reshape2_ok hpv
  obtain ⟨ys, ey, ly, ry, fy⟩ := reshape2_ok (hXy ▸ hpv : y.length = p * v)
  unfold evalXyInit expand_batchsize
  rw [hM, ok_bind]
  dsimp only
  rw [eX, ok_bind, ey, ok_bind]
  unfold _build_eval_fn2 merge_batchsize
  rw [if_pos (by rw [fy, ← hXy, hpv]), ok_bind, fy]
  refine congrArg Except.ok (funext fun params => ?_)
  unfold evalFn2 merge_batchsize
  have hmap : (Xs.zip ys).mapM (fun d => apply params d.1 d.2) =
      .ok ((Xs.zip ys).map fun d => List.zipWith (f params) d.1 d.2) := by
    refine generator.mapM_ok ?_
    intro d hd
    refine hf params d.1 d.2 ?_
    obtain ⟨h1, h2⟩ := List.of_mem_zip (show (d.1, d.2) ∈ Xs.zip ys from hd)
    rw [rX _ h1, ry _ h2]
  have hflat := flatten_zipWith (f params) Xs ys v rX ry
  rw [fX, fy] at hflat
  rw [hmap, ok_bind, hflat, if_pos (by rw [List.length_zipWith, ← hXy, Nat.min_self, hpv]), ok_bind,
    metricStep_fold (yhat := List.zipWith (f params) X y) (hN params) ms [] hms (by simp [Dict.keys]),
    ok_bind]
  rfl

theorem lookup_items {β γ : Type} (g : String × β → γ) : ∀ {ms : List (String × β)},
    (ms.map Prod.fst).Nodup → ∀ m ∈ ms,
    List.lookup m.1 (ms.map fun m => (m.1, g m)) = some (g m) := by
  intro ms
  induction ms with
  | nil => intro _ m h; simp at h
  | cons a as ih =>
    intro hnd m hm
    rw [List.map_cons, List.nodup_cons] at hnd
    rw [List.map_cons, List.lookup_cons]
    rcases List.mem_cons.1 hm with rfl | h
    · simp
    · have : (m.1 == a.1) = false := by
        rw [beq_eq_false_iff_ne]
        intro e
        exact hnd.1 (e ▸ List.mem_map_of_mem h)
      rw [this]
      exact ih hnd.2 m h

theorem lookup_namedValues {names : List String} (hnd : names.Nodup) {value : List ℝ}
    (hl : names.length ≤ value.length) {i : Nat} {name : String} (h : names[i]? = some name) :
    (namedValues names value).lookup name = some (.leaf (value.getD i 0)) := by
  have hi : i < names.length := (List.getElem?_eq_some_iff.1 h).1
  unfold namedValues
  rw [lookup_named (fun j => Metric.leaf (value.getD (min j (value.length - 1)) 0)) names 0 [] hnd i
    name h, show min (0 + i) (value.length - 1) = i by omega]

theorem keys_namedValues {names : List String} (hnd : names.Nodup) (value : List ℝ) :
    (namedValues names value).keys = names := by
  have h := keys_named (fun j => Metric.leaf (value.getD (min j (value.length - 1)) 0)) names 0 [] hnd
    (by simp [Dict.keys])
  exact h.trans (List.nil_append _)

theorem unknown_names_nodup (N : Nat) : (_unknown_link_names N).Nodup := by
  unfold _unknown_link_names
  refine List.Nodup.map_on ?_ List.nodup_range
  intro a _ b _ hab
  have := congrArg String.toList hab
  rw [String.toList_append, String.toList_append] at this
  exact generator.toString_nat_inj (String.toList_inj.1 (List.append_cancel_left this))

/-! ## Theorems -/

/-- C100: what is read under the name of a metric and of a link is that metric of that link's truth and
estimate for the whole batch, for every number of devices that accepts the batch; there are no other
metrics and no other links. -/
theorem C100_value_partial [Inhabited η] [Inhabited ψ] {M : Machine}
    {apply : P → List (List (List ξ)) → List (List (List η)) → Py (List (List (List ψ)))}
    {f : P → List (List ξ) → List (List η) → List (List ψ)} (hf : ActsPerSequence apply f)
    {ms : List (String × (List (List η) → List (List ψ) → ℝ))} (hms : (ms.map Prod.fst).Nodup)
    {X : List (List (List ξ))} {y : List (List (List η))} (hXy : X.length = y.length) {N : Nat}
    (hN : ∀ params, ∀ seq ∈ estimate f params X y, ∀ row ∈ seq, row.length = N) {p v : Nat}
    (hM : distribute_batchsize M X.length = .ok (p, v)) {names : List String}
    (hl : names.length = N) (hnd : names.Nodup) :
    ∃ eval_fn, evalXyInit M apply ms X y N (some names) = .ok eval_fn ∧ ∀ params, ∃ d : Dict (Metric ℝ),
      eval_fn params = .ok (.node d) ∧ d.keys = ms.map Prod.fst ∧ ∀ m ∈ ms,
        (∃ e : Dict (Metric ℝ), d.lookup m.1 = some (.node e) ∧ e.keys = names) ∧
        ∀ (i : Nat) (name : String), names[i]? = some name →
          _zoom_into_metrices (.node d) [m.1, name] =
            .ok (m.2 (slice i y) (slice i (estimate f params X y))) := by
  refine ⟨_, evalXyInit_eq hf hms hXy hN hM (some names), fun params => ⟨_, rfl, ?_, ?_⟩⟩
  · simp [metricItems, Dict.keys]
  · intro m hm
    have hlook : (metricItems N names y (estimate f params X y) ms).lookup m.1 = some (.node
        (namedValues names ((List.range N).map fun i : Nat =>
          m.2 (slice i y) (slice i (estimate f params X y))))) :=
      lookup_items (fun m : String × (List (List η) → List (List ψ) → ℝ) => Metric.node
        (namedValues names ((List.range N).map fun i : Nat =>
          m.2 (slice i y) (slice i (estimate f params X y))))) hms m hm
    refine ⟨⟨_, hlook, ?_⟩, ?_⟩
    · exact keys_namedValues hnd _
    · intro i name h
      have hi : i < N := by
        rw [← hl]
        exact (List.getElem?_eq_some_iff.1 h).1
      have hv := lookup_namedValues hnd (value := (List.range N).map fun i : Nat =>
        m.2 (slice i y) (slice i (estimate f params X y))) (by simp [hl]) h
      simp only [Option.getD_some, _zoom_into_metrices, hlook, hv]
      simp [hi]

/-- C100: without names the links are numbered. -/
theorem C100_default [Inhabited η] [Inhabited ψ] (M : Machine)
    (apply : P → List (List (List ξ)) → List (List (List η)) → Py (List (List (List ψ))))
    (ms : List (String × (List (List η) → List (List ψ) → ℝ)))
    (X : List (List (List ξ))) (y : List (List (List η))) (N : Nat) :
    ∃ names : List String, evalXyInit M apply ms X y N none = evalXyInit M apply ms X y N (some names) ∧
      names.length = N ∧ names.Nodup ∧ ∀ i, i < N → names[i]? = some ("link" ++ toString i) :=
  ⟨_unknown_link_names N, rfl, by simp [_unknown_link_names], unknown_names_nodup N,
    fun i hi => by simp [_unknown_link_names, hi]⟩

/-- C100: the result does not depend on the devices. -/
theorem C100_devices_partial [Inhabited η] [Inhabited ψ] {M M' : Machine}
    {apply : P → List (List (List ξ)) → List (List (List η)) → Py (List (List (List ψ)))}
    {f : P → List (List ξ) → List (List η) → List (List ψ)} (hf : ActsPerSequence apply f)
    {ms : List (String × (List (List η) → List (List ψ) → ℝ))} (hms : (ms.map Prod.fst).Nodup)
    {X : List (List (List ξ))} {y : List (List (List η))} (hXy : X.length = y.length) {N : Nat}
    (hN : ∀ params, ∀ seq ∈ estimate f params X y, ∀ row ∈ seq, row.length = N) {r r' : Nat × Nat}
    (hM : distribute_batchsize M X.length = .ok r) (hM' : distribute_batchsize M' X.length = .ok r')
    (names : Option (List String)) :
    evalXyInit M apply ms X y N names = evalXyInit M' apply ms X y N names := by
  rw [evalXyInit_eq hf hms hXy hN (p := r.1) (v := r.2) hM names,
    evalXyInit_eq hf hms hXy hN (p := r'.1) (v := r'.2) hM' names]

/-- C100: arrays that are not batched are a batch of one sequence, which every machine accepts. -/
theorem C100_unbatched [Inhabited η] [Inhabited ψ] {M : Machine} (hM : 1 ≤ M.vmap_size_min)
    {apply : P → List (List (List ξ)) → List (List (List η)) → Py (List (List (List ψ)))}
    {f : P → List (List ξ) → List (List η) → List (List ψ)} (hf : ActsPerSequence apply f)
    {ms : List (String × (List (List η) → List (List ψ) → ℝ))} (hms : (ms.map Prod.fst).Nodup)
    {X : List (List ξ)} {y : List (List η)} {N : Nat}
    (hN : ∀ params, ∀ row ∈ f params X y, row.length = N) {names : List String}
    (hl : names.length = N) (hnd : names.Nodup) :
    ∃ eval_fn, evalXyInit3 M apply ms X y N (some names) = .ok eval_fn ∧ ∀ params, ∃ r,
      eval_fn params = .ok r ∧ ∀ m ∈ ms, ∀ (i : Nat) (name : String), names[i]? = some name →
        _zoom_into_metrices r [m.1, name] =
          .ok (m.2 [y.map fun row => row[i]?.getD default]
            [(f params X y).map fun row => row[i]?.getD default]) := by
  have hd : distribute_batchsize M [X].length = .ok (1, 1) := by
    unfold distribute_batchsize
    rw [if_pos (by simpa using hM)]
    rfl
  obtain ⟨ev, h1, h2⟩ := C100_value_partial hf hms (X := [X]) (y := [y]) rfl (N := N)
    (by intro params seq hs; simp only [estimate, List.zipWith_cons_cons, List.zipWith_nil_left,
          List.mem_singleton] at hs; subst hs; exact hN params) hd hl hnd
  refine ⟨ev, h1, fun params => ?_⟩
  obtain ⟨d, h3, _, h4⟩ := h2 params
  exact ⟨_, h3, fun m hm i name h => (h4 m hm).2 i name h⟩

/-- C100 fails: the number of devices decides whether a batch is accepted, a batch above the threshold
that they do not divide raises. -/
theorem C100_divide_fails [Inhabited η] [Inhabited ψ] {M : Machine} (hd : 0 < M.n_devices)
    (apply : P → List (List (List ξ)) → List (List (List η)) → Py (List (List (List ψ))))
    (ms : List (String × (List (List η) → List (List ψ) → ℝ)))
    {X : List (List (List ξ))} (y : List (List (List η))) (N : Nat) (names : Option (List String))
    (h : M.vmap_size_min < X.length) (h' : ¬ M.n_devices ∣ X.length) :
    evalXyInit M apply ms X y N names = .error .assertion := by
  unfold evalXyInit
  rw [(C42_distribute M X.length hd).2.2 h h']
  rfl

/-- C100: a truth with another number of sequences raises. -/
theorem C100_lengths [Inhabited η] [Inhabited ψ] {M : Machine}
    (apply : P → List (List (List ξ)) → List (List (List η)) → Py (List (List (List ψ))))
    (ms : List (String × (List (List η) → List (List ψ) → ℝ)))
    {X : List (List (List ξ))} {y : List (List (List η))} (N : Nat) (names : Option (List String))
    {r : Nat × Nat} (hM : distribute_batchsize M X.length = .ok r) (h : X.length ≠ y.length) :
    evalXyInit M apply ms X y N names = .error .type := by
  have hpv : X.length = r.1 * r.2 := (C42_product (p := r.1) (v := r.2) hM).symm
  unfold evalXyInit expand_batchsize
  rw [hM, ok_bind]
  obtain ⟨Xs, eX, _⟩ := reshape2_ok hpv
  rw [eX, ok_bind]
  unfold reshape2
  rw [if_neg (by rw [← hpv]; exact fun e => h e.symm)]
  rfl

/-- C100: an estimate with another number of links raises. -/
theorem C100_links_mismatch [Inhabited η] [Inhabited ψ]
    (metric_fn : List (List η) → List (List ψ) → ℝ) {N : Nat} (y : List (List (List η)))
    {yhat : List (List (List ψ))} {seq : List (List ψ)} {row : List ψ} (h1 : seq ∈ yhat) (h2 : row ∈ seq)
    (h : row.length ≠ N) (name : String) (names : List String) :
    metricStep N names y yhat [] (name, metric_fn) = .error .value := by
  unfold metricStep vmapLinks
  rw [pyAssert_true (by simp [Dict.keys]), ok_bind, if_neg (fun hN => h (hN _ h1 _ h2))]
  rfl

/-- C100 fails: a name too many is given the metric of the last link, a name too few drops a link, and a
name used twice loses one; none of this raises. -/
theorem C100_names_fails (a b : ℝ) :
    namedValues ["x", "y", "z"] [a, b] = [("x", .leaf a), ("y", .leaf b), ("z", .leaf b)] ∧
    namedValues ["x"] [a, b] = [("x", .leaf a)] ∧
    namedValues ["x", "x"] [a, b] = [("x", .leaf b)] := by
  refine ⟨?_, ?_, ?_⟩ <;> simp [namedValues, Dict.set, Dict.keys]

/-! ## Examples -/

/-- a filter that multiplies by its parameter -/
def scaleFilter (k : ℝ) (X : List (List (List ℝ))) (_ : List (List (List ℝ))) :
    Py (List (List (List ℝ))) := .ok (X.map (List.map (List.map (k * ·))))

/-- the sum of the estimate -/
def sumHat (_ yhat : List (List ℝ)) : ℝ := (yhat.map List.sum).sum

theorem scaleFilter_perSequence :
    ActsPerSequence scaleFilter fun k x _ => x.map (List.map (k * ·)) := by
  intro k X y h
  unfold scaleFilter
  congr 1
  induction X generalizing y with
  | nil => simp
  | cons a as ih =>
    cases y with
    | nil => simp at h
    | cons b bs => simp [ih bs (by simpa using h)]

/-- Two sequences of one time step and two links, on two devices. -/
example : ∃ eval_fn, evalXyInit ⟨2, 1, 4⟩ scaleFilter [("sum", sumHat)] [[[1, 2]], [[3, 4]]]
    [[[0, 0]], [[0, 0]]] 2 (some ["a", "b"]) = .ok eval_fn ∧ ∃ r, eval_fn 10 = .ok r ∧
      _zoom_into_metrices r ["sum", "b"] = .ok 60 := by
  obtain ⟨ev, h1, h2⟩ := C100_value_partial (M := ⟨2, 1, 4⟩) scaleFilter_perSequence
    (ms := [("sum", sumHat)]) (by simp) (X := [[[1, 2]], [[3, 4]]]) (y := [[[0, 0]], [[0, 0]]]) rfl
    (N := 2) (by simp [estimate]) (p := 2) (v := 1) rfl (names := ["a", "b"]) rfl (by simp)
  obtain ⟨d, h3, _, h4⟩ := h2 10
  refine ⟨ev, h1, _, h3, ?_⟩
  refine ((h4 ("sum", sumHat) (by simp)).2 1 "b" rfl).trans ?_
  simp [sumHat, slice, estimate]
  norm_num

/-- a filter that centres each batch: it does not act per sequence -/
noncomputable def centreFilter (_ : Unit) (X : List (List (List ℝ))) (_ : List (List (List ℝ))) :
    Py (List (List (List ℝ))) :=
  .ok (X.map (List.map (List.map (· - (X.flatten.flatten).sum / X.length))))

/-- C100 fails for a filter that does not act per sequence: then the result depends on the devices. -/
theorem C100_coupled_fails : ∃ ev ev' r r',
    evalXyInit ⟨1, 1, 4⟩ centreFilter [("sum", fun _ yhat => ((yhat.map List.sum).headD 0))]
      [[[1]], [[3]]] [[[0]], [[0]]] 1 (some ["a"]) = .ok ev ∧ ev () = .ok r ∧
    evalXyInit ⟨2, 1, 4⟩ centreFilter [("sum", fun _ yhat => ((yhat.map List.sum).headD 0))]
      [[[1]], [[3]]] ([[[0]], [[0]]] : List (List (List ℝ))) 1 (some ["a"]) = .ok ev' ∧ ev' () = .ok r' ∧
    _zoom_into_metrices r ["sum", "a"] = .ok (-1) ∧ _zoom_into_metrices r' ["sum", "a"] = .ok 0 := by
  refine ⟨_, _, .node [("sum", .node [("a", .leaf (-1))])], .node [("sum", .node [("a", .leaf 0)])],
    rfl, ?_, rfl, ?_, ?_, ?_⟩
  · have e : ((1 : ℝ) - (1 + 3) / 2) = -1 := by norm_num
    simp [evalFn2, centreFilter, merge_batchsize, metricStep, vmapLinks, linkColumn, namedValues, Dict.set,
      Dict.keys, pyAssert, List.range_succ, pure, Except.pure, bind, Except.bind, e]
  · simp [evalFn2, centreFilter, merge_batchsize, metricStep, vmapLinks, linkColumn, namedValues, Dict.set,
      Dict.keys, pyAssert, List.range_succ, pure, Except.pure, bind, Except.bind]
  · simp [_zoom_into_metrices]
  · simp [_zoom_into_metrices]

end RingLib.ml
