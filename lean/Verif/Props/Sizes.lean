import Verif.Props.Batch
import Mathlib.Tactic.FieldSimp

/-!
# C40: the requested number of sequences is what is generated
-/

namespace RingLib
namespace generator
open utils System

/-! ## repeats -/

/-- C40: a size that is a positive multiple of the number of (system, motion configuration) pairs
gives every generator the same number of repeats, so that every pair contributes `k` sequences. -/
theorem C40_int (c n k : Nat) (hc : 0 < c) (hn : 0 < n) (hk : 0 < k) :
    _compute_repeats c n (.int (k * (n * c))) = .ok (List.replicate n k) := by
  unfold _compute_repeats
  have hS : (List.replicate n c).sum = n * c := by simp
  have hpos : 0 < n * c := Nat.mul_pos hn hc
  dsimp only
  rw [hS, if_neg (by omega), Nat.mul_div_cancel _ hpos, Nat.mul_mod_left,
    pyAssert_true (by simpa using hk), ok_bind, pyAssert_true (by simp), ok_bind]
  simp
  rfl

/-- C40: every other size is rejected. -/
theorem C40_int_rejected (c n size : Nat) (hc : 0 < c) (hn : 0 < n)
    (h : ¬ ∃ k, 0 < k ∧ size = k * (n * c)) :
    _compute_repeats c n (.int size) = .error .assertion := by
  unfold _compute_repeats
  have hS : (List.replicate n c).sum = n * c := by simp
  have hpos : 0 < n * c := Nat.mul_pos hn hc
  dsimp only
  rw [hS, if_neg (by omega)]
  by_cases h1 : size / (n * c) > 0
  · rw [pyAssert_true (by simpa using h1), ok_bind]
    by_cases h2 : size % (n * c) = 0
    · exfalso
      apply h
      exact ⟨size / (n * c), h1, (Nat.div_mul_cancel (Nat.dvd_of_mod_eq_zero h2)).symm⟩
    · rw [pyAssert_false (by simpa using h2)]
      rfl
  · rw [pyAssert_false (by simpa using h1)]
    rfl

theorem forM_assert {α : Type} (P : α → Prop) [DecidablePred P] : ∀ (l : List α),
    (l.forM fun x => pyAssert (P x)) = if ∀ x ∈ l, P x then .ok () else .error .assertion := by
  intro l
  induction l with
  | nil => rfl
  | cons a as ih =>
    rw [List.forM_eq_forM] at ih ⊢
    rw [List.forM_cons]
    by_cases ha : P a
    · rw [pyAssert_true (by simpa using ha), ok_bind, ih]
      simp [ha]
    · rw [pyAssert_false (by simpa using ha), if_neg (fun h => ha (h a (by simp)))]
      rfl

/-- C40, partially: an accepted list of sizes has one entry per system, and every system contributes
what was asked for. Missing: that divisible requests are accepted, see `C40_list_fails`. -/
theorem C40_list_partial {c n : Nat} {sizes repeats : List Nat}
    (h : _compute_repeats c n (.list sizes) = .ok repeats) :
    sizes.length = n ∧ repeats.map (· * c) = sizes ∧ 0 ∉ repeats := by
  unfold _compute_repeats at h
  dsimp only at h
  rw [forM_assert] at h
  by_cases h1 : ∀ s ∈ sizes, c ∈ primes s
  · rw [if_pos h1, ok_bind] at h
    by_cases h2 : sizes.length = n
    · rw [pyAssert_true (by simpa using h2), ok_bind] at h
      by_cases h3 : 0 ∉ List.zipWith (· / ·) sizes (List.replicate n c)
      · rw [pyAssert_true (by simpa using h3), ok_bind] at h
        have h := Except.ok.inj h
        rw [← h]
        refine ⟨h2, ?_, h3⟩
        apply List.ext_getElem
        · simp [h2]
        · intro i hi1 hi2
          simp only [List.getElem_map, List.getElem_zipWith, List.getElem_replicate]
          have hm := h1 _ (List.getElem_mem hi2)
          apply Nat.div_mul_cancel
          rcases Nat.eq_zero_or_pos sizes[i] with h0 | h0
          · rw [h0]; exact dvd_zero c
          · have := (C47_primes h0).1
            conv_rhs => rw [← this]
            exact List.dvd_prod hm
      · rw [pyAssert_false (by simpa using h3)] at h
        cases h
    · rw [pyAssert_false (by simpa using h2)] at h
      cases h
  · rw [if_neg h1] at h
    cases h

/-- C40: a list of sizes with an entry that is not divisible by the number of configurations, or of
the wrong length, is rejected. -/
theorem C40_list_rejected {c n : Nat} {sizes : List Nat}
    (h : sizes.length ≠ n ∨ ∃ s ∈ sizes, ¬ c ∣ s) :
    _compute_repeats c n (.list sizes) = .error .assertion := by
  have hall : ∀ r, _compute_repeats c n (.list sizes) ≠ .ok r := by
    intro r hr
    obtain ⟨h1, h2, h3⟩ := C40_list_partial hr
    rcases h with h | ⟨s, hs, hd⟩
    · exact h h1
    · rw [← h2] at hs
      obtain ⟨x, _, rfl⟩ := List.mem_map.1 hs
      exact hd (Dvd.intro_left x rfl)
  unfold _compute_repeats at hall ⊢
  dsimp only at hall ⊢
  rw [forM_assert] at hall ⊢
  by_cases h1 : ∀ s ∈ sizes, c ∈ primes s
  · rw [if_pos h1, ok_bind] at hall ⊢
    by_cases h2 : sizes.length = n
    · rw [pyAssert_true (by simpa using h2), ok_bind] at hall ⊢
      by_cases h3 : 0 ∉ List.zipWith (· / ·) sizes (List.replicate n c)
      · rw [pyAssert_true (by simpa using h3), ok_bind] at hall
        exact absurd rfl (hall _)
      · rw [pyAssert_false (by simpa using h3)]
        rfl
    · rw [pyAssert_false (by simpa using h2)]
      rfl
  · rw [if_neg h1]
    rfl

/-- C40 fails for lists of sizes: the check compares the number of configurations with the prime
factors of the size. With a single configuration every list is rejected, and so is any composite
number of configurations, though the sizes are divisible. -/
theorem C40_list_fails :
    (∀ n s, _compute_repeats 1 n (.list [s]) = .error .assertion) ∧
    _compute_repeats 4 2 (.list [8, 12]) = .error .assertion ∧
    _compute_repeats 2 2 (.list [8, 12]) = .ok [4, 6] := by
  refine ⟨?_, by decide, by decide⟩
  intro n s
  unfold _compute_repeats
  dsimp only
  rw [forM_assert, if_neg]
  · rfl
  · intro h
    have h1 := h s (by simp)
    rcases Nat.eq_zero_or_pos s with rfl | h0
    · revert h1; decide
    · exact Nat.not_prime_one ((C47_primes h0).2.1 1 h1)

/-! ## splitting into calls -/

theorem executionsLoop_ok (th : Nat) (hth : 1 ≤ th) : ∀ (ps : List Nat) (n v : Nat),
    (∀ p ∈ ps, p.Prime) → ps.prod = v →
    ∃ n' k, executionsLoop th ps n v = .ok n' ∧ n' = n * k ∧ k ∣ v ∧ v / k ≤ th := by
  intro ps
  induction ps with
  | nil =>
    intro n v _ hv
    have hv1 : v = 1 := by simpa using hv.symm
    subst hv1
    refine ⟨n, 1, ?_, by simp, dvd_rfl, by simpa using hth⟩
    unfold executionsLoop
    rw [if_neg]
    push_cast
    exact not_lt.2 (by exact_mod_cast hth)
  | cons p ps ih =>
    intro n v hp hv
    unfold executionsLoop
    by_cases hc : (v : ℚ) > th
    · rw [if_pos hc]
      have hp0 := (hp p (by simp)).pos
      have e : (v : ℚ) / p = ((ps.prod : Nat) : ℚ) := by
        rw [← hv, List.prod_cons]
        push_cast
        have : (p : ℚ) ≠ 0 := by exact_mod_cast hp0.ne'
        field_simp
      rw [e]
      obtain ⟨n', k, h1, h2, h3, h4⟩ := ih (n * p) ps.prod (fun q hq => hp q (by simp [hq])) rfl
      refine ⟨n', p * k, h1, by rw [h2, mul_assoc], ?_, ?_⟩
      · rw [← hv, List.prod_cons]
        exact Nat.mul_dvd_mul_left p h3
      · rw [← hv, List.prod_cons, Nat.mul_div_mul_left _ _ hp0]
        exact h4
    · rw [if_neg hc]
      refine ⟨n, 1, rfl, by simp, one_dvd v, ?_⟩
      rw [Nat.div_one]
      exact_mod_cast not_lt.1 hc

/-- C40: the number of executions divides what one device has to do and brings it down to the
threshold; the primes never run out. -/
theorem C40_executions (M : Machine) (hth : 1 ≤ M.eager_threshold) {size p v : Nat}
    (hs : 0 < size) (hd : distribute_batchsize M size = .ok (p, v)) :
    ∃ n, _number_of_executions_required M size = .ok n ∧ n ∣ v ∧ v / n ≤ M.eager_threshold ∧
      0 < n := by
  have hv : 0 < v := by
    have := C42_product hd
    rcases Nat.eq_zero_or_pos v with rfl | h
    · omega
    · exact h
  obtain ⟨h1, h2, -⟩ := C47_primes hv
  obtain ⟨n', k, e, h3, h4, h5⟩ := executionsLoop_ok M.eager_threshold hth (primes v) 1 v h2 h1
  refine ⟨n', ?_, ?_, ?_, ?_⟩
  · unfold _number_of_executions_required
    rw [hd, ok_bind]
    exact e
  · rw [h3, one_mul]; exact h4
  · rw [h3, one_mul]; exact h5
  · rw [h3, one_mul]; exact Nat.pos_of_dvd_of_pos h4 hv

/-- C40: splitting into calls keeps the product. -/
theorem C40_split {M : Machine} {c r g r' : Nat} (h : ncall M c r = .ok (g, r')) : g * r' = r := by
  unfold ncall at h
  cases hx : _number_of_executions_required M (r * c) with
  | error e => rw [hx] at h; cases h
  | ok n =>
    rw [hx, ok_bind] at h
    dsimp only at h
    by_cases h0 : utils.gcd n r = 0
    · rw [if_pos h0] at h; cases h
    · rw [if_neg h0] at h
      have := Except.ok.inj h
      simp only [Prod.mk.injEq] at this
      rw [← this.1, ← this.2]
      exact Nat.mul_div_cancel' (C47_gcd n r).2.1

/-! ## to_list -/

theorem eagerCalls_ok {K β : Type} (split : K → Nat → Nat → K) {g : BatchedGen K β}
    {out : K → List β} (hg : Returns g out) : ∀ (n : Nat) (st : K × List (List β)),
    ∃ k calls, eagerCalls split g n st = .ok (k, st.2 ++ calls) ∧ calls.length = n ∧
      ∀ c ∈ calls, ∃ k, c = out k := by
  intro n
  induction n with
  | zero => intro st; exact ⟨st.1, [], by simp [eagerCalls]; rfl, rfl, by simp⟩
  | succ n ih =>
    intro st
    obtain ⟨k, calls, e, hl, hc⟩ := ih (split st.1 2 0, st.2 ++ [out (split st.1 2 1)])
    refine ⟨k, out (split st.1 2 1) :: calls, ?_, by simp [hl], ?_⟩
    · rw [eagerCalls, hg.run, ok_bind, e]
      simp
    · intro c hc'
      rcases List.mem_cons.1 hc' with rfl | hc'
      · exact ⟨_, rfl⟩
      · exact hc c hc'

/-- parts in order: part `i` has the length given and consists of sequences of generator `i` -/
structure Parts {K β : Type} (outs : List (K → List β)) (lens : List Nat)
    (parts : List (List β)) : Prop where
  outs_len : outs.length = parts.length
  lens_eq : parts.map List.length = lens
  from_gen : ∀ i (h : i < parts.length) (h' : i < outs.length), ∀ x ∈ parts[i],
    ∃ k, x ∈ outs[i] k

theorem Parts.nil {K β : Type} : Parts ([] : List (K → List β)) [] [] :=
  ⟨rfl, rfl, fun i h => by simp at h⟩

theorem Parts.cons {K β : Type} {outs : List (K → List β)} {lens : List Nat}
    {parts : List (List β)} (h : Parts outs lens parts) {out : K → List β} {part : List β}
    (hp : ∀ x ∈ part, ∃ k, x ∈ out k) :
    Parts (out :: outs) (part.length :: lens) (part :: parts) := by
  refine ⟨by simp [h.outs_len], by simp [h.lens_eq], ?_⟩
  intro i hi hi'
  cases i with
  | zero => exact hp
  | succ i => exact h.from_gen i (by simpa using hi) (by simpa using hi')

theorem eager_fold {K β : Type} (split : K → Nat → Nat → K) : ∀ (gens : List (BatchedGen K β))
    (outs : List (K → List β)) (n_calls : List Nat), gens.length = outs.length →
    n_calls.length = gens.length →
    (∀ i (h : i < gens.length) (h' : i < outs.length), Returns gens[i] outs[i]) →
    ∀ (st : K × List (List β)), ∃ k calls parts,
      (gens.zip n_calls).foldlM (fun st x => eagerCalls split x.1 x.2 st) st =
        .ok (k, st.2 ++ calls) ∧ calls.flatten = parts.flatten ∧
      Parts outs (List.zipWith (fun g n => n * BatchedGen.size g) gens n_calls) parts := by
  intro gens
  induction gens with
  | nil =>
    intro outs n_calls h1 h2 _ st
    have : outs = [] := List.eq_nil_of_length_eq_zero h1.symm
    subst this
    refine ⟨st.1, [], [], ?_, rfl, ?_⟩
    · simp; rfl
    · exact Parts.nil
  | cons g gs ih =>
    intro outs n_calls h1 h2 h3 st
    cases outs with
    | nil => simp at h1
    | cons out outs =>
      cases n_calls with
      | nil => simp at h2
      | cons n ns =>
        obtain ⟨k1, c1, e1, hl1, hc1⟩ := eagerCalls_ok split (h3 0 (by simp) (by simp)) n st
        obtain ⟨k2, c2, parts, e2, hf, hp⟩ := ih outs ns (by simpa using h1) (by simpa using h2)
          (fun i h h' => h3 (i + 1) (by simpa using h) (by simpa using h')) (k1, st.2 ++ c1)
        refine ⟨k2, c1 ++ c2, c1.flatten :: parts, ?_, ?_, ?_⟩
        · rw [List.zip_cons_cons, List.foldlM_cons]
          dsimp only [List.getElem_cons_zero] at e1
          rw [e1, ok_bind, e2]
          simp
        · rw [List.flatten_append, List.flatten_cons, hf]
        · have hlen : c1.flatten.length = n * g.size := by
            rw [List.length_flatten, List.map_congr_left (g := fun _ => g.size), List.map_const',
              List.sum_replicate, hl1, smul_eq_mul]
            intro c hc
            obtain ⟨k, rfl⟩ := hc1 c hc
            exact (h3 0 (by simp) (by simp)).size k
          have := hp.cons (out := out) (part := c1.flatten) (by
            intro x hx
            obtain ⟨c, hc, hx⟩ := List.mem_flatten.1 hx
            obtain ⟨k, rfl⟩ := hc1 c hc
            exact ⟨k, hx⟩)
          rw [hlen] at this
          exact this

theorem mapM_inv {α β : Type} {f : α → Py β} : ∀ {l : List α} {r : List β},
    l.mapM f = .ok r → r.length = l.length ∧ ∀ i (h : i < l.length) (h' : i < r.length),
      f l[i] = .ok r[i] := by
  intro l
  induction l with
  | nil =>
    intro r h
    have : r = [] := by
      have := Except.ok.inj h
      exact this.symm
    subst this
    exact ⟨rfl, fun i h => by simp at h⟩
  | cons a as ih =>
    intro r h
    rw [List.mapM_cons] at h
    cases hx : f a with
    | error e => rw [hx] at h; cases h
    | ok b =>
      rw [hx, ok_bind] at h
      cases hy : as.mapM f with
      | error e => rw [hy] at h; cases h
      | ok bs =>
        rw [hy, ok_bind] at h
        have := Except.ok.inj h
        subst this
        obtain ⟨h1, h2⟩ := ih hy
        refine ⟨by simp [h1], ?_⟩
        intro i hi hi'
        cases i with
        | zero => exact hx
        | succ i => exact h2 i (by simpa using hi) (by simpa using hi')

/-- what a combination of a single generator returns, if there is one -/
theorem lazy_single {K β : Type} {M : Machine} {split : K → Nat → Nat → K} {g G : BatchedGen K β}
    {out : K → List β} (hg : Returns g out) {r : Nat}
    (h : generators_lazy M split [g] [r] = .ok G) :
    Returns G (fun key => ((List.range r).map fun j : Nat => out (split key r j)).flatten) ∧
      G.size = r * g.size := by
  have hbl := build_batch_matrix_length [r]
  simp only [List.sum_cons, List.sum_nil, Nat.add_zero] at hbl
  cases hd : distribute_batchsize M r with
  | error e =>
    unfold generators_lazy at h
    dsimp only at h
    rw [hbl, hd] at h
    cases h
  | ok pv =>
    obtain ⟨p, v⟩ := pv
    rcases Nat.eq_zero_or_pos r with rfl | hr
    · have hpv : p * v = 0 := C42_product hd
      obtain ⟨rows, e1, -⟩ := reshape2_ok (arr := _build_batch_matrix [0]) (a := p) (b := v)
        (by rw [hbl, hpv])
      unfold generators_lazy at h
      dsimp only at h
      rw [hbl, hd, ok_bind, e1, ok_bind] at h
      dsimp only at h
      rw [if_pos (Or.inl rfl)] at h
      cases h
    · obtain ⟨G', e, h1, h2⟩ := C41_layout M split [g] [r] (fun _ => out) g.size p v rfl
        (by simpa using hr) (by
          intro i hi
          have : i = 0 := by simpa using hi
          subst this
          exact ⟨hg, rfl⟩) (by simpa using hd)
      rw [h] at e
      have e := Except.ok.inj e
      subst e
      refine ⟨?_, by simpa using h2⟩
      have : (fun key => ((List.range [g].length).map fun i : Nat =>
          (freshSamples split (fun _ => out) key [r].sum i ([r].take i).sum
            ([r].getD i 0)).flatten).flatten) =
          fun key => ((List.range r).map fun j : Nat => out (split key r j)).flatten := by
        funext key
        simp [freshSamples, List.range_succ]
      rw [← this]
      exact h1

/-- The number of sequences asked of each of `n` systems. -/
def requested (n : Nat) : Sizes → List Nat
  | .int size => List.replicate n (size / n)
  | .list sizes => sizes

theorem repeats_requested {c n : Nat} (hc : 0 < c) (hn : 0 < n) {sizes : Sizes} {repeats : List Nat}
    (h : _compute_repeats c n sizes = .ok repeats) :
    repeats.length = n ∧ repeats.map (· * c) = requested n sizes := by
  cases sizes with
  | list sizes =>
    obtain ⟨h1, h2, -⟩ := C40_list_partial h
    refine ⟨?_, h2⟩
    rw [← h1, ← h2, List.length_map]
  | int size =>
    by_cases hk : ∃ k, 0 < k ∧ size = k * (n * c)
    · obtain ⟨k, hk, rfl⟩ := hk
      rw [C40_int c n k hc hn hk] at h
      have := Except.ok.inj h
      subst this
      refine ⟨by simp, ?_⟩
      simp only [requested, List.map_replicate]
      congr 1
      rw [show k * (n * c) = n * (k * c) by ring, Nat.mul_div_cancel_left _ hn]
    · rw [C40_int_rejected c n size hc hn hk] at h
      cases h

/-- C40: the list of sequences that is generated consists of one part per system, in order; each part
has exactly the requested number of sequences, all from that system's generator. -/
theorem C40_to_list {K β : Type} {M : Machine} {split : K → Nat → Nat → K}
    {gens : List (BatchedGen K β)} {outs : List (K → List β)} {c : Nat} {sizes : Sizes} {key : K}
    {data : List β} (hc : 0 < c) (hn : 0 < gens.length) (hlen : gens.length = outs.length)
    (hgens : ∀ i (h : i < gens.length) (h' : i < outs.length),
      Returns gens[i] outs[i] ∧ gens[i].size = c)
    (h : to_list M split gens c sizes key = .ok data) :
    ∃ parts, data = parts.flatten ∧ Parts outs (requested gens.length sizes) parts := by
  unfold to_list _generators_ncalls at h
  cases hr : _compute_repeats c gens.length sizes with
  | error e => rw [hr] at h; cases h
  | ok repeats =>
    rw [hr, ok_bind] at h
    obtain ⟨hrl, hreq⟩ := repeats_requested hc hn hr
    cases hs : repeats.mapM (ncall M c) with
    | error e => rw [hs] at h; cases h
    | ok rs =>
      rw [hs, ok_bind] at h
      obtain ⟨hsl, hs'⟩ := mapM_inv hs
      cases hg : (gens.zip rs).mapM fun x => generators_lazy M split [x.1] [x.2.2] with
      | error e => rw [hg] at h; cases h
      | ok lgens =>
        rw [hg, ok_bind] at h
        obtain ⟨hgl, hg'⟩ := mapM_inv hg
        have hgl' : lgens.length = gens.length := by
          rw [hgl, List.length_zip]
          omega
        rw [pure_ok, ok_bind] at h
        dsimp only at h
        have hret : ∀ i (hi : i < lgens.length) (h1 : i < gens.length) (h2 : i < outs.length)
            (h3 : i < rs.length),
            Returns lgens[i] (fun key => ((List.range rs[i].2).map fun j : Nat =>
              outs[i] (split key rs[i].2 j)).flatten) ∧ lgens[i].size = rs[i].2 * c := by
          intro i hi h1 h2 h3
          have := hg' i (by rw [List.length_zip]; omega) hi
          simp only [List.getElem_zip] at this
          have h4 := lazy_single (hgens i h1 h2).1 this
          rw [(hgens i h1 h2).2] at h4
          exact h4
        obtain ⟨k, calls, parts, e, hf, hp⟩ := eager_fold split lgens
          ((List.range outs.length).map fun (i : Nat) (key : K) =>
            ((List.range (rs.getD i (0, 0)).2).map fun j : Nat =>
              (outs.getD i (fun _ => [])) (split key (rs.getD i (0, 0)).2 j)).flatten)
          (rs.map (·.1)) (by simp; omega) (by simp; omega) (by
            intro i hi hi'
            have h2 : i < outs.length := by simpa using hi'
            have h3 : i < rs.length := by omega
            have := (hret i hi (by omega) h2 h3).1
            simpa [List.getD_eq_getElem?_getD, h2, h3] using this) (key, [])
        have hdata : data = parts.flatten := by
          unfold generators_eager at h
          rw [e, ok_bind] at h
          have h : (([] : List (List β)) ++ calls).flatten = data := Except.ok.inj h
          rw [← h, ← hf]
          simp
        refine ⟨parts, hdata, ?_, ?_, ?_⟩
        · have := hp.outs_len
          simpa using this
        · rw [hp.lens_eq, ← hreq]
          apply List.ext_getElem
          · simp; omega
          · intro i hi1 hi2
            have hi : i < repeats.length := by simpa using hi2
            simp only [List.getElem_zipWith, List.getElem_map]
            rw [(hret i (by omega) (by omega) (by omega) (by omega)).2, ← mul_assoc]
            congr 1
            exact C40_split (hs' i hi (by omega))
        · intro i hi hi' x hx
          obtain ⟨k, hk⟩ := hp.from_gen i hi (by simpa using hi') x hx
          simp only [List.getElem_map, List.getElem_range] at hk
          obtain ⟨l, hl, hx'⟩ := List.mem_flatten.1 hk
          obtain ⟨j, _, rfl⟩ := List.mem_map.1 hl
          rw [List.getD_eq_getElem?_getD, List.getElem?_eq_getElem hi'] at hx'
          exact ⟨_, hx'⟩

theorem distribute_one {M : Machine} (h1 : M.n_devices = 1) (n : Nat) :
    distribute_batchsize M n = .ok (1, n) := by
  have h := C42_distribute M n (by omega)
  rcases Nat.lt_or_ge M.vmap_size_min n with hn | hn
  · have := h.2.1 hn n (by rw [h1, one_mul])
    rwa [h1] at this
  · exact h.1 hn

/-- C40: on one device every positive multiple of the number of pairs is generated. -/
theorem C40_succeeds {K β : Type} {M : Machine} (split : K → Nat → Nat → K)
    {gens : List (BatchedGen K β)} {outs : List (K → List β)} {c k : Nat} (key : K)
    (h1 : M.n_devices = 1) (hth : 1 ≤ M.eager_threshold)
    (hc : 0 < c) (hn : 0 < gens.length) (hk : 0 < k) (hlen : gens.length = outs.length)
    (hgens : ∀ i (h : i < gens.length) (h' : i < outs.length),
      Returns gens[i] outs[i] ∧ gens[i].size = c) :
    ∃ data, to_list M split gens c (.int (k * (gens.length * c))) key = .ok data ∧
      data.length = k * (gens.length * c) := by
  obtain ⟨n, hn1, -, -, hn0⟩ := C40_executions M hth (size := k * c) (Nat.mul_pos hk hc)
    (distribute_one h1 (k * c))
  obtain ⟨g, r, hnc, hg, hr⟩ : ∃ g r, ncall M c k = .ok (g, r) ∧ 0 < g ∧ 0 < r := by
    have hg : utils.gcd n k ≠ 0 := by
      intro h0
      have := (C47_gcd n k).1
      rw [h0] at this
      have := Nat.eq_zero_of_zero_dvd this
      omega
    have e : ncall M c k = .ok (utils.gcd n k, k / utils.gcd n k) := by
      unfold ncall
      rw [hn1, ok_bind]
      dsimp only
      rw [if_neg hg]
      rfl
    refine ⟨_, _, e, Nat.pos_of_ne_zero hg, ?_⟩
    have := C40_split e
    rcases Nat.eq_zero_or_pos (k / utils.gcd n k) with h0 | h0
    · rw [h0] at this; omega
    · exact h0
  have hs : (List.replicate gens.length k).mapM (ncall M c) =
      .ok ((List.replicate gens.length k).map fun _ => (g, r)) := by
    apply mapM_ok
    intro x hx
    rw [(List.mem_replicate.1 hx).2]
    exact hnc
  have hl : ∀ i (h : i < gens.length) (h' : i < outs.length),
      ∃ G, generators_lazy M split [gens[i]] [r] = .ok G := by
    intro i h h'
    obtain ⟨G, e, -⟩ := C41_layout M split [gens[i]] [r] (fun _ => outs[i]) c 1 r rfl
      (by simpa using hr) (by
        intro j hj
        have : j = 0 := by simpa using hj
        subst this
        exact hgens i h h') (by simpa using distribute_one h1 r)
    exact ⟨G, e⟩
  have hex : ∃ lgens, ((gens.zip ((List.replicate gens.length k).map fun _ => (g, r))).mapM
      fun x => generators_lazy M split [x.1] [x.2.2]) = .ok lgens := by
    refine ⟨_, mapM_ok (g := fun x => match generators_lazy M split [x.1] [x.2.2] with
      | .ok G => G
      | .error _ => ⟨0, fun _ => .ok []⟩) ?_⟩
    intro x hx
    obtain ⟨h2, h3⟩ := List.of_mem_zip hx
    obtain ⟨i, hi, e⟩ := List.getElem_of_mem h2
    obtain ⟨G, hG⟩ := hl i hi (by omega)
    have h4 : x.2 = (g, r) := by
      obtain ⟨_, _, h⟩ := List.mem_map.1 h3
      exact h.symm
    rw [h4, ← e]
    dsimp only
    rw [hG]
  obtain ⟨lgens, hlg⟩ := hex
  obtain ⟨hgl, hg'⟩ := mapM_inv hlg
  have hgl' : lgens.length = gens.length := by simp at hgl; exact hgl
  have hdata : ∃ data, to_list M split gens c (.int (k * (gens.length * c))) key = .ok data := by
    unfold to_list _generators_ncalls
    rw [C40_int c gens.length k hc hn hk, ok_bind, hs, ok_bind, hlg, ok_bind, pure_ok, ok_bind]
    dsimp only
    obtain ⟨k', calls, parts, e, -⟩ := eager_fold split lgens
      (outs.map fun (out : K → List β) (key : K) =>
        ((List.range r).map fun j : Nat => out (split key r j)).flatten)
      (((List.replicate gens.length k).map fun _ => (g, r)).map (·.1))
      (by simp; omega) (by simp; omega) (by
        intro i hi hi'
        have h2 : i < outs.length := by simpa using hi'
        have := hg' i (by simp; omega) hi
        simp only [List.getElem_zip, List.getElem_map] at this
        simpa using (lazy_single (hgens i (by omega) h2).1 this).1) (key, [])
    unfold generators_eager
    rw [e]
    exact ⟨_, rfl⟩
  obtain ⟨data, hd⟩ := hdata
  refine ⟨data, hd, ?_⟩
  obtain ⟨parts, rfl, hp⟩ := C40_to_list hc hn hlen hgens hd
  rw [List.length_flatten, hp.lens_eq]
  simp only [requested, List.sum_replicate, smul_eq_mul]
  rw [show k * (gens.length * c) = gens.length * (k * c) by ring, Nat.mul_div_cancel_left _ hn]

/-- The conditions can be met: two systems, three configurations, 60 sequences each, on a CPU where at
most four sequences are made at once; each system is called 20 times with one repeat. -/
example : ncall ⟨1, 1, 4⟩ 3 20 = .ok (20, 1) ∧
    _compute_repeats 3 2 (.int 120) = .ok [20, 20] := by
  refine ⟨?_, by decide⟩
  have h : primes 60 = [2, 2, 3, 5] := by decide
  have e : _number_of_executions_required ⟨1, 1, 4⟩ 60 = .ok 60 := by
    unfold _number_of_executions_required
    rw [distribute_one rfl, ok_bind, h]
    simp [executionsLoop]
    norm_num
  unfold ncall
  rw [e, ok_bind]
  simp [utils.gcd]
  rfl

example : ∃ data, to_list ⟨1, 1, 4⟩ pathRng.split
    [⟨3, fun k => .ok [(0, k), (1, k), (2, k)]⟩, ⟨3, fun k => .ok [(10, k), (11, k), (12, k)]⟩] 3
    (.int 120) [] = .ok data ∧ data.length = 120 :=
  C40_succeeds (M := ⟨1, 1, 4⟩) pathRng.split (c := 3) (k := 20)
    (outs := [fun k => [(0, k), (1, k), (2, k)], fun k => [(10, k), (11, k), (12, k)]]) [] rfl
    (by decide) (by decide) (by simp) (by decide) rfl (by
      intro i h h'
      have hi : i = 0 ∨ i = 1 := by simp at h; omega
      rcases hi with rfl | rfl
      · exact ⟨⟨fun _ => rfl, fun _ => rfl⟩, rfl⟩
      · exact ⟨⟨fun _ => rfl, fun _ => rfl⟩, rfl⟩)

end generator
end RingLib
