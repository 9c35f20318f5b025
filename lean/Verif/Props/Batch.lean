import Verif.Props.Primes
import Verif.Props.DrawQ
import Verif.Lemmas.Scan

/-!
# C40, C41, C42: sizes, repeats and the layout of batches
-/

namespace RingLib
namespace utils
open System

/-! ## reshaping -/

theorem flatten_pieces {β : Type} (arr : List β) (a b : Nat) (h : arr.length = a * b) :
    ((List.range a).map fun i : Nat => (arr.drop (i * b)).take b).flatten = arr := by
  induction a generalizing arr with
  | zero =>
    have : arr = [] := List.eq_nil_of_length_eq_zero (by simpa using h)
    simp [this]
  | succ a ih =>
    rw [List.range_succ_eq_map, List.map_cons, List.flatten_cons, List.map_map]
    have e : ((List.range a).map ((fun i : Nat => (arr.drop (i * b)).take b) ∘ Nat.succ)) =
        (List.range a).map fun i : Nat => ((arr.drop b).drop (i * b)).take b := by
      apply List.map_congr_left
      intro i _
      simp only [Function.comp, List.drop_drop, Nat.succ_mul]
      rw [Nat.add_comm]
    rw [e, ih (arr.drop b) (by rw [List.length_drop, h, Nat.succ_mul]; omega)]
    simp [List.take_append_drop]

theorem reshape2_ok {β : Type} {arr : List β} {a b : Nat} (h : arr.length = a * b) :
    ∃ rows, reshape2 arr a b = .ok rows ∧ rows.length = a ∧ (∀ r ∈ rows, r.length = b) ∧
      rows.flatten = arr := by
  refine ⟨_, if_pos h, by simp, ?_, flatten_pieces arr a b h⟩
  intro r hr
  obtain ⟨i, hi, rfl⟩ := List.mem_map.1 hr
  rw [List.length_take, List.length_drop, h]
  have hi := List.mem_range.1 hi
  have : (i + 1) * b ≤ a * b := Nat.mul_le_mul_right b hi
  rw [Nat.succ_mul] at this
  omega

/-! ## C42 -/

/-- C42: if a batch can be distributed, the product of the two sizes is the batch size. -/
theorem C42_product {M : Machine} {n p v : Nat} (h : distribute_batchsize M n = .ok (p, v)) :
    p * v = n := by
  unfold distribute_batchsize at h
  by_cases hn : n ≤ M.vmap_size_min
  · rw [if_pos hn] at h
    have := Except.ok.inj h
    simp only [Prod.mk.injEq] at this
    rw [← this.1, ← this.2, one_mul]
  · rw [if_neg hn] at h
    by_cases hd : n % M.n_devices = 0
    · rw [pyAssert_true (by simpa using hd), ok_bind] at h
      dsimp only at h
      by_cases hv : n / M.n_devices = 0
      · rw [if_pos hv] at h; cases h
      · rw [if_neg hv] at h
        have := Except.ok.inj h
        simp only [Prod.mk.injEq] at this
        rw [← this.1, ← this.2]
        exact Nat.div_mul_cancel (Nat.div_dvd_of_dvd (Nat.dvd_of_mod_eq_zero hd))
    · rw [pyAssert_false (by simpa using hd)] at h
      cases h

/-- C42: a small batch stays on one device; a larger one is spread over all devices if their number
divides it and rejected otherwise. -/
theorem C42_distribute (M : Machine) (n : Nat) (hd : 0 < M.n_devices) :
    (n ≤ M.vmap_size_min → distribute_batchsize M n = .ok (1, n)) ∧
    (M.vmap_size_min < n → ∀ k, n = M.n_devices * k →
      distribute_batchsize M n = .ok (M.n_devices, k)) ∧
    (M.vmap_size_min < n → ¬ M.n_devices ∣ n → distribute_batchsize M n = .error .assertion) := by
  unfold distribute_batchsize
  refine ⟨fun h => by rw [if_pos h]; rfl, ?_, ?_⟩
  · intro h k hk
    have hk0 : 0 < k := by
      rcases Nat.eq_zero_or_pos k with rfl | h'
      · omega
      · exact h'
    have e1 : n % M.n_devices = 0 := by rw [hk]; exact Nat.mul_mod_right _ _
    have e2 : n / M.n_devices = k := by rw [hk]; exact Nat.mul_div_cancel_left _ hd
    have e3 : n / k = M.n_devices := by rw [hk]; exact Nat.mul_div_cancel _ hk0
    rw [if_neg (by omega), pyAssert_true (by simpa using e1), ok_bind]
    dsimp only
    rw [e2, e3, if_neg (by omega)]
    rfl
  · intro h hnd
    have e1 : ¬ n % M.n_devices = 0 := fun h' => hnd (Nat.dvd_of_mod_eq_zero h')
    rw [if_neg (by omega), pyAssert_false (by simpa using e1)]
    rfl

/-- C42: expanding splits the batch into `p` rows of `v` entries whose concatenation is the batch, and
merging gives the batch back. -/
theorem C42_expand_merge {β : Type} (arr : List β) (p v : Nat) (h : arr.length = p * v) :
    ∃ rows, expand_batchsize arr p v = .ok rows ∧ rows.length = p ∧ (∀ r ∈ rows, r.length = v) ∧
      (∀ i j, i < p → j < v → ∃ r, rows[i]? = some r ∧ r[j]? = arr[i * v + j]?) ∧
      merge_batchsize rows p v = .ok arr := by
  obtain ⟨rows, e, h1, h2, h3⟩ := reshape2_ok h
  refine ⟨rows, e, h1, h2, ?_, ?_⟩
  · intro i j hi hj
    have e' : rows = (List.range p).map fun i : Nat => (arr.drop (i * v)).take v := by
      have : reshape2 arr p v = .ok _ := if_pos h
      rw [this] at e
      exact (Except.ok.inj e).symm
    refine ⟨(arr.drop (i * v)).take v, ?_, ?_⟩
    · rw [e']
      simp [hi]
    · rw [List.getElem?_take_of_lt hj, List.getElem?_drop]
  · unfold merge_batchsize
    rw [h3, if_pos h]

/-- C42: merging and then expanding is the identity too. -/
theorem C42_merge_expand {β : Type} (rows : List (List β)) (p v : Nat) (h1 : rows.length = p)
    (h2 : ∀ r ∈ rows, r.length = v) :
    ∃ arr, merge_batchsize rows p v = .ok arr ∧ expand_batchsize arr p v = .ok rows := by
  have hl : rows.flatten.length = p * v := by
    rw [List.length_flatten, List.map_congr_left (g := fun _ => v) h2, List.map_const',
      List.sum_replicate, h1, smul_eq_mul]
  refine ⟨rows.flatten, if_pos hl, ?_⟩
  unfold expand_batchsize reshape2
  rw [if_pos hl]
  congr 1
  clear hl
  subst h1
  induction rows with
  | nil => rfl
  | cons r rs ih =>
    rw [List.length_cons, List.range_succ_eq_map, List.map_cons, List.map_map]
    have hr : r.length = v := h2 r (by simp)
    congr 1
    · simp [hr]
    · refine Eq.trans ?_ (ih (fun r hr => h2 r (by simp [hr])))
      apply List.map_congr_left
      intro i _
      simp only [Function.comp, List.flatten_cons, Nat.succ_mul]
      rw [Nat.add_comm, ← List.drop_drop]
      congr 2
      rw [← hr, List.drop_left]

example : distribute_batchsize ⟨4, 8, 32⟩ 24 = .ok (4, 6) ∧
    distribute_batchsize ⟨4, 8, 32⟩ 6 = .ok (1, 6) ∧
    distribute_batchsize ⟨4, 8, 32⟩ 30 = .error .assertion := by decide
example : expand_batchsize [0, 1, 2, 3, 4, 5] 2 3 = .ok [[0, 1, 2], [3, 4, 5]] := by decide

end utils

namespace generator
open utils System

/-! ## C41 -/

theorem build_batch_matrix_eq (repeats : List Nat) : _build_batch_matrix repeats =
    (repeats.zipIdx.map fun il => List.replicate il.1 il.2).flatten := by
  unfold _build_batch_matrix
  have : ∀ (l : List (Nat × Nat)) (acc : List Nat),
      l.foldl (fun arr il => arr ++ List.replicate il.1 il.2) acc =
        acc ++ (l.map fun il => List.replicate il.1 il.2).flatten := by
    intro l
    induction l with
    | nil => simp
    | cons a as ih => intro acc; simp [ih]
  rw [this, List.nil_append]

theorem build_batch_matrix_length (repeats : List Nat) :
    (_build_batch_matrix repeats).length = repeats.sum := by
  rw [build_batch_matrix_eq, List.length_flatten, List.map_map]
  have : ∀ (l : List Nat) (k : Nat),
      ((l.zipIdx k).map (List.length ∘ fun il : Nat × Nat => List.replicate il.1 il.2)).sum =
        l.sum := by
    intro l
    induction l with
    | nil => intro k; rfl
    | cons a as ih => intro k; simp [List.zipIdx_cons, ih]
  exact this repeats 0

theorem flatten_zip {α β : Type} : ∀ (A : List (List α)) (B : List (List β)) (v : Nat),
    (∀ r ∈ A, r.length = v) → (∀ r ∈ B, r.length = v) →
    ((A.zip B).map fun x => x.1.zip x.2).flatten = A.flatten.zip B.flatten := by
  intro A
  induction A with
  | nil => simp
  | cons a as ih =>
    intro B v hA hB
    cases B with
    | nil => simp
    | cons b bs =>
      simp only [List.zip_cons_cons, List.map_cons, List.flatten_cons]
      rw [ih bs v (fun r h => hA r (by simp [h])) (fun r h => hB r (by simp [h]))]
      rw [List.zip_append]
      rw [hA a (by simp), hB b (by simp)]

theorem mapM_ok {α β : Type} {f : α → Py β} {g : α → β} : ∀ {l : List α},
    (∀ x ∈ l, f x = .ok (g x)) → l.mapM f = .ok (l.map g) := by
  intro l
  induction l with
  | nil => intro _; rfl
  | cons a as ih =>
    intro h
    rw [List.mapM_cons, h a (by simp), ok_bind, ih (fun x hx => h x (by simp [hx]))]
    rfl

/-- the samples of generator `i`, in order, drawn with the keys from number `off` on -/
def freshSamples {K β : Type} (split : K → Nat → Nat → K) (out : Nat → K → List β) (key : K)
    (total i off r : Nat) : List (List β) :=
  (List.range r).map fun j : Nat => out i (split key total (off + j))

theorem zip_layout {K β : Type} (split : K → Nat → Nat → K) (out : Nat → K → List β) (key : K)
    (total : Nat) : ∀ (repeats : List Nat) (s o : Nat),
    (((List.range' o repeats.sum).map fun i : Nat => split key total i).zip
        ((repeats.zipIdx s).map fun il => List.replicate il.1 il.2).flatten).map
          (fun x => out x.2 x.1) =
      ((List.range repeats.length).map fun i : Nat =>
        freshSamples split out key total (s + i) (o + (repeats.take i).sum)
          (repeats.getD i 0)).flatten := by
  intro repeats
  induction repeats with
  | nil => intro s o; rfl
  | cons r rs ih =>
    intro s o
    rw [List.length_cons, List.range_succ_eq_map, List.map_cons, List.map_map, List.flatten_cons,
      List.zipIdx_cons, List.map_cons, List.flatten_cons, List.sum_cons, ← List.range'_append_1,
      List.map_append, List.zip_append (by simp), List.map_append, ih (s + 1) (o + r)]
    congr 1
    · unfold freshSamples
      apply List.ext_getElem
      · simp
      · intro i h1 h2
        simp
    · congr 1
      apply List.map_congr_left
      intro i _
      simp only [Function.comp, List.take_succ_cons, List.sum_cons, List.getD_cons_succ]
      congr 1 <;> omega

/-- What a generator returns: for every key a list of `size` sequences. -/
structure Returns {K β : Type} (g : BatchedGen K β) (out : K → List β) : Prop where
  run : ∀ k, g.run k = .ok (out k)
  size : ∀ k, (out k).length = g.size

/-- C41: a lazily combined generator returns, for generators of equal size `m` with repeats
`r_0, …, r_{n-1}`, for `i = 0, …, n-1` in turn, `r_i` samples of generator `i`; sample number `j` of
generator `i` is drawn with key number `r_0 + … + r_{i-1} + j` of as many keys as there are samples.
Nothing else is returned. -/
theorem C41_layout {K β : Type} (M : Machine) (split : K → Nat → Nat → K)
    (gens : List (BatchedGen K β)) (repeats : List Nat) (out : Nat → K → List β) (m p v : Nat)
    (hlen : repeats.length = gens.length) (hpos : 0 < repeats.sum)
    (hgens : ∀ i (h : i < gens.length), Returns gens[i] (out i) ∧ gens[i].size = m)
    (hdist : distribute_batchsize M repeats.sum = .ok (p, v)) :
    ∃ G, generators_lazy M split gens repeats = .ok G ∧
      Returns G (fun key => ((List.range gens.length).map fun i : Nat =>
        (freshSamples split out key repeats.sum i (repeats.take i).sum
          (repeats.getD i 0)).flatten).flatten) ∧ G.size = repeats.sum * m := by
  have hbl := build_batch_matrix_length repeats
  have hpv : p * v = repeats.sum := C42_product hdist
  obtain ⟨rows, e1, hr1, hr2, hr3⟩ := reshape2_ok (arr := _build_batch_matrix repeats)
    (a := p) (b := v) (by rw [hbl, hpv])
  have hne : 0 < gens.length := by
    rw [← hlen]
    rcases Nat.eq_zero_or_pos repeats.length with h | h
    · rw [List.eq_nil_of_length_eq_zero h] at hpos
      simp at hpos
    · exact h
  have hsz : ∀ g ∈ gens, g.size = m := by
    intro g hg
    obtain ⟨i, hi, rfl⟩ := List.getElem_of_mem hg
    exact (hgens i hi).2
  have hG : generators_lazy M split gens repeats =
      .ok ⟨repeats.sum * m, lazyRun split gens rows repeats.sum p v m⟩ := by
    cases gens with
    | nil => simp at hne
    | cons g gs =>
      unfold generators_lazy
      dsimp only
      rw [hbl, hdist, ok_bind, e1, ok_bind]
      have h1 : gs.all (·.size = g.size) = true := by
        rw [List.all_eq_true]
        intro x hx
        rw [hsz x (by simp [hx]), hsz g (by simp)]
        simp
      have h2 : ¬ (repeats.sum = 0 ∨ ¬ gs.all (·.size = g.size) = true) := by
        rw [h1]
        simp
        omega
      dsimp only
      rw [if_neg h2, hsz g (by simp)]
      rfl
  have hrun : ∀ key, lazyRun split gens rows repeats.sum p v m key = .ok
      (((List.range gens.length).map fun i : Nat =>
        (freshSamples split out key repeats.sum i (repeats.take i).sum
          (repeats.getD i 0)).flatten).flatten) ∧
      (((List.range gens.length).map fun i : Nat =>
        (freshSamples split out key repeats.sum i (repeats.take i).sum
          (repeats.getD i 0)).flatten).flatten).length = repeats.sum * m := by
    intro key
    obtain ⟨krows, e2, hk1, hk2, hk3⟩ := reshape2_ok
      (arr := (List.range repeats.sum).map fun i : Nat => split key repeats.sum i)
      (a := p) (b := v) (by simp [hpv])
    have hmem : ∀ w ∈ _build_batch_matrix repeats, w < gens.length := by
      intro w hw
      rw [build_batch_matrix_eq] at hw
      obtain ⟨l, hl, hw⟩ := List.mem_flatten.1 hw
      obtain ⟨il, hil, rfl⟩ := List.mem_map.1 hl
      rw [(List.mem_replicate.1 hw).2, ← hlen]
      have := List.snd_lt_of_mem_zipIdx hil
      simpa using this
    have hsw : ∀ w k, w < gens.length → switch gens w k = .ok (out w k) := by
      intro w k hw
      unfold switch
      rw [min_eq_left (by omega), List.getElem?_eq_getElem hw]
      exact (hgens w hw).1.run k
    have hdata : (krows.zip rows).mapM (switchRow gens) =
        .ok ((krows.zip rows).map fun x => (x.1.zip x.2).map fun y => out y.2 y.1) := by
      apply mapM_ok
      intro x hx
      unfold switchRow
      apply mapM_ok
      intro y hy
      apply hsw
      apply hmem
      rw [← hr3]
      exact List.mem_flatten.2 ⟨x.2, (List.of_mem_zip hx).2, (List.of_mem_zip hy).2⟩
    have hflat : (((krows.zip rows).map fun x =>
          (x.1.zip x.2).map fun y => out y.2 y.1).flatten) =
        ((List.range gens.length).map fun i : Nat =>
          freshSamples split out key repeats.sum i (repeats.take i).sum
            (repeats.getD i 0)).flatten := by
      have h1 := zip_layout split out key repeats.sum repeats 0 0
      simp only [Nat.zero_add] at h1
      rw [← hlen, ← h1, ← build_batch_matrix_eq, ← List.range_eq_range', ← hk3]
      conv_rhs => rw [← hr3]
      rw [← flatten_zip krows rows v hk2 hr2, List.map_flatten, List.map_map]
      rfl
    have hspec : (((List.range gens.length).map fun i : Nat =>
          freshSamples split out key repeats.sum i (repeats.take i).sum
            (repeats.getD i 0)).flatten).flatten = ((List.range gens.length).map fun i : Nat =>
        (freshSamples split out key repeats.sum i (repeats.take i).sum
          (repeats.getD i 0)).flatten).flatten := by
      rw [List.flatten_flatten, List.map_map]
      rfl
    have hcount : ((((krows.zip rows).map fun x =>
          (x.1.zip x.2).map fun y => out y.2 y.1).flatten).flatten).length = p * v * m := by
      have h1 : ((krows.zip rows).map fun x =>
          (x.1.zip x.2).map fun y => out y.2 y.1).flatten =
          ((((List.range repeats.sum).map fun i : Nat => split key repeats.sum i).zip
            (_build_batch_matrix repeats)).map fun y => out y.2 y.1) := by
        rw [← hk3]
        conv_rhs => rw [← hr3]
        rw [← flatten_zip krows rows v hk2 hr2, List.map_flatten, List.map_map]
        rfl
      rw [h1, List.length_flatten, List.map_map]
      have h2 : ∀ x ∈ ((List.range repeats.sum).map fun i : Nat => split key repeats.sum i).zip
          (_build_batch_matrix repeats),
          (List.length ∘ fun y : K × Nat => out y.2 y.1) x = m := by
        intro x hx
        have hw := hmem _ (List.of_mem_zip hx).2
        show (out x.2 x.1).length = m
        rw [(hgens _ hw).1.size, (hgens _ hw).2]
      rw [List.map_congr_left (g := fun _ => m) h2, List.map_const', List.sum_replicate]
      simp [hbl, hpv]
    refine ⟨?_, ?_⟩
    · unfold lazyRun
      rw [e2, ok_bind, hdata, ok_bind]
      unfold merge_batchsize3
      rw [if_pos hcount, hflat, hspec]
    · rw [← hspec, ← hflat, hcount, hpv]
  refine ⟨_, hG, ⟨fun k => (hrun k).1, fun k => (hrun k).2⟩, rfl⟩

/-- C41: with a random stream whose keys do not collide, different samples use different keys. -/
theorem C41_fresh {K : Type} {R : Rng K} (hR : NoCollision R) (key : K) (total i j : Nat)
    (h : R.split key total i = R.split key total j) : i = j := (hR.inj h).2.2

end generator
end RingLib
