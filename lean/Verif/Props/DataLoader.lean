import Verif.Model.DataLoader
import Verif.Props.Eager
import Verif.Props.Files

/-! # Datasets of pickle files -/

namespace RingLib
open utils dataloader generator System

variable {γ β ω : Type}

/-! ## batches of an order -/

theorem chunk_flatten (bs : Nat) : ∀ (n : Nat) (l : List Nat),
    ((List.range n).map fun i => (l.drop (i * bs)).take bs).flatten = l.take (n * bs) := by
  intro n
  induction n with
  | zero => intro l; simp
  | succ n ih =>
    intro l
    rw [List.range_succ, List.map_append, List.flatten_append, ih]
    simp only [List.map_cons, List.map_nil, List.flatten_cons, List.flatten_nil, List.append_nil]
    rw [Nat.succ_mul, List.take_add]

/-- number of batches -/
def numBatches (bs : Nat) (drop_last : Bool) (N : Nat) : Nat :=
  if drop_last then N / bs else (N + bs - 1) / bs

theorem batches_length (bs : Nat) (d : Bool) (l : List Nat) :
    (batches bs d l).length = numBatches bs d l.length := by simp [batches, numBatches]

theorem ceil_mul {N bs : Nat} (h : 0 < bs) : N ≤ (N + bs - 1) / bs * bs := by
  have h1 := Nat.div_add_mod (N + bs - 1) bs
  have h2 := Nat.mod_lt (N + bs - 1) h
  rw [mul_comm] at h1
  omega

/-- the batches of an order, one after the other, are the order; with `drop_last` an incomplete last
batch is left out -/
theorem batches_flatten {bs : Nat} (h : 0 < bs) (l : List Nat) :
    (batches bs false l).flatten = l ∧
      (batches bs true l).flatten = l.take (l.length - l.length % bs) := by
  unfold batches
  rw [chunk_flatten, chunk_flatten]
  simp only [Bool.false_eq_true, if_false, if_true]
  refine ⟨List.take_of_length_le (ceil_mul h), ?_⟩
  congr 1
  have := Nat.div_add_mod l.length bs
  rw [mul_comm] at this
  omega

/-- the sizes of the batches of `N` elements: as many full ones as there are, and the rest unless it is
dropped -/
def batchSizes (bs : Nat) (drop_last : Bool) (N : Nat) : List Nat :=
  List.replicate (N / bs) bs ++ if drop_last = true ∨ N % bs = 0 then [] else [N % bs]

theorem batches_sizes {bs : Nat} (h : 0 < bs) (d : Bool) (l : List Nat) :
    (batches bs d l).map List.length = batchSizes bs d l.length := by
  have hdm := Nat.div_add_mod l.length bs
  have hlt := Nat.mod_lt l.length h
  have hlen : ∀ i, ((l.drop (i * bs)).take bs).length = min bs (l.length - i * bs) := by
    intro i; simp
  have hfull : ((List.range (l.length / bs)).map fun i => ((l.drop (i * bs)).take bs).length) =
      List.replicate (l.length / bs) bs := by
    apply List.ext_getElem
    · simp
    · intro i h1 h2
      have hi : i < l.length / bs := by simpa using h2
      have h3 : (i + 1) * bs ≤ l.length / bs * bs := Nat.mul_le_mul_right _ hi
      rw [Nat.succ_mul] at h3
      rw [mul_comm] at hdm
      simp
      omega
  unfold batches batchSizes
  rw [List.map_map]
  show (List.map (fun i => ((l.drop (i * bs)).take bs).length) _) = _
  cases d with
  | true => simpa using hfull
  | false =>
    simp only [Bool.false_eq_true, if_false, false_or]
    by_cases hr : l.length % bs = 0
    · have : (l.length + bs - 1) / bs = l.length / bs := by
        rw [hr, Nat.add_zero] at hdm
        apply Nat.div_eq_of_lt_le
        · rw [mul_comm]; omega
        · rw [Nat.succ_mul, mul_comm]; omega
      rw [this, if_pos hr, List.append_nil, hfull]
    · have : (l.length + bs - 1) / bs = l.length / bs + 1 := by
        apply Nat.div_eq_of_lt_le
        · rw [Nat.succ_mul, mul_comm]; omega
        · rw [Nat.succ_mul, Nat.succ_mul, mul_comm]; omega
      rw [this, if_neg hr, List.range_succ, List.map_append, hfull, List.map_cons, List.map_nil, hlen]
      rw [mul_comm] at hdm
      congr 2
      omega

/-! ## epochs of the torch generator -/

/-- what is loaded for batches of indices, the first random number generator being number `d` -/
def loaded (f : Nat → ω → β) (entropy : Nat → ω) : Nat → List (List Nat) → List (List β)
  | _, [] => []
  | d, b :: bs => (b.zipIdx d).map (fun x => f x.1 (entropy x.2)) :: loaded f entropy (d + b.length) bs

theorem loaded_length (f : Nat → ω → β) (entropy : Nat → ω) (d : Nat) (bs : List (List Nat)) :
    (loaded f entropy d bs).length = bs.length := by
  induction bs generalizing d with
  | nil => rfl
  | cons b bs ih => simp [loaded, ih]

theorem loaded_flatten (f : Nat → ω → β) (entropy : Nat → ω) (d : Nat) (bs : List (List Nat)) :
    (loaded f entropy d bs).flatten = (bs.flatten.zipIdx d).map fun x => f x.1 (entropy x.2) := by
  induction bs generalizing d with
  | nil => rfl
  | cons b bs ih => simp [loaded, ih, List.zipIdx_append]

theorem loaded_sizes (f : Nat → ω → β) (entropy : Nat → ω) (d : Nat) (bs : List (List Nat)) :
    (loaded f entropy d bs).map List.length = bs.map List.length := by
  induction bs generalizing d with
  | nil => rfl
  | cons b bs ih => simp [loaded, ih]

theorem loadBatch_ok {get : Nat → ω → Py β} {f : Nat → ω → β} {entropy : Nat → ω} {b : List Nat}
    (h : ∀ i ∈ b, ∀ r, get i r = .ok (f i r)) (d : Nat) :
    loadBatch get entropy d b = .ok ((b.zipIdx d).map fun x => f x.1 (entropy x.2)) := by
  induction b generalizing d with
  | nil => rfl
  | cons i b ih =>
    unfold loadBatch
    rw [h i (by simp), ok_bind, ih (fun j hj => h j (by simp [hj])), ok_bind]
    rfl

theorem torchRun_rest (A : TorchArgs) {get : Nat → ω → Py β} {f : Nat → ω → β} (entropy : Nat → ω)
    (e : Nat) (rest : List (List Nat)) (h : ∀ b ∈ rest, ∀ i ∈ b, ∀ r, get i r = .ok (f i r)) (d : Nat) :
    torchRun A get entropy rest.length ⟨e, rest, d⟩ =
      .ok (loaded f entropy d rest, ⟨e, [], d + rest.flatten.length⟩) := by
  induction rest generalizing d with
  | nil => rfl
  | cons b rest ih =>
    rw [List.length_cons]
    unfold torchRun torchStep
    simp only [reduceCtorEq, if_false]
    rw [loadBatch_ok (h b (by simp)), ok_bind]
    show (torchRun A get entropy rest.length ⟨e, rest, d + b.length⟩ >>= _) = _
    rw [ih (fun c hc => h c (by simp [hc])), ok_bind]
    simp [loaded, Nat.add_assoc]
    rfl

theorem torchRun_add (A : TorchArgs) (get : Nat → ω → Py β) (entropy : Nat → ω) (m n : Nat)
    (st : TorchState) : torchRun A get entropy (m + n) st = (do
      let r ← torchRun A get entropy m st
      let r' ← torchRun A get entropy n r.2
      pure (r.1 ++ r'.1, r'.2)) := by
  induction m generalizing st with
  | zero =>
    rw [Nat.zero_add]
    show _ = (torchRun A get entropy n st >>= fun r' => .ok ([] ++ r'.1, r'.2))
    cases torchRun A get entropy n st <;> rfl
  | succ m ih =>
    have hs : ∀ k (st : TorchState), torchRun A get entropy (k + 1) st = (do
        let r ← torchStep A get entropy st
        let rs ← torchRun A get entropy k r.2
        pure (r.1 :: rs.1, rs.2)) := fun _ _ => rfl
    rw [show m + 1 + n = (m + n) + 1 by omega, hs, hs]
    cases h : torchStep A get entropy st with
    | error e => rfl
    | ok r =>
      rw [ok_bind, ok_bind, ih]
      cases h' : torchRun A get entropy m r.2 with
      | error e => rfl
      | ok r' =>
        show _ = (torchRun A get entropy n r'.2 >>= fun x => pure (r.1 :: r'.1 ++ x.1, x.2))
        rw [ok_bind]
        cases h2 : torchRun A get entropy n r'.2 <;> rfl

theorem torchRun_renew (A : TorchArgs) (get : Nat → ω → Py β) (entropy : Nat → ω) (e d n : Nat)
    (h : A.iter (e + 1) ≠ []) (hn : 0 < n) : torchRun A get entropy n ⟨e, [], d⟩ =
      torchRun A get entropy n ⟨e + 1, A.iter (e + 1), d⟩ := by
  obtain ⟨n, rfl⟩ : ∃ k, n = k + 1 := ⟨n - 1, by omega⟩
  unfold torchRun torchStep
  simp [h]

/-- the orders are permutations of the dataset -/
def dataloader.TorchArgs.Fair (A : TorchArgs) : Prop := ∀ e, (A.perm e).Perm (List.range A.N)

theorem order_perm {A : TorchArgs} (h : A.Fair) (e : Nat) : (A.order e).Perm (List.range A.N) := by
  unfold TorchArgs.order
  split
  · exact h e
  · exact List.Perm.refl _

theorem order_length {A : TorchArgs} (h : A.Fair) (e : Nat) : (A.order e).length = A.N := by
  rw [(order_perm h e).length_eq, List.length_range]

/-- C81: the torch generator goes on for ever, and every epoch hands out the whole dataset: its batches
one after the other are the elements in the order of the epoch, each loaded and transformed anew; all
batches but the last have the batch size, and with `drop_last` the incomplete last one is left out. -/
theorem C81_torch {A : TorchArgs} (hA : A.Fair) (hbs : 0 < A.batch_size) (hN : 0 < A.N)
    (hd : A.drop_last = true → A.batch_size ≤ A.N) {get : Nat → ω → Py β} {f : Nat → ω → β}
    (hg : ∀ i < A.N, ∀ r, get i r = .ok (f i r)) (entropy : Nat → ω) (E : Nat) :
    ∃ st st' out, torchInit A = .ok st ∧
      torchRun A get entropy (E * numBatches A.batch_size A.drop_last A.N) st = .ok (out, st') ∧
      out.length = E * numBatches A.batch_size A.drop_last A.N ∧
      ∀ e < E,
        let B := numBatches A.batch_size A.drop_last A.N
        let n := if A.drop_last then A.N - A.N % A.batch_size else A.N
        ((out.drop (e * B)).take B).flatten =
          (((A.order e).take n).zipIdx (e * n)).map (fun x => f x.1 (entropy x.2)) ∧
        ((out.drop (e * B)).take B).map List.length =
          batchSizes A.batch_size A.drop_last A.N := by
  set B := numBatches A.batch_size A.drop_last A.N with hB
  set n := if A.drop_last then A.N - A.N % A.batch_size else A.N with hn
  have hB0 : 0 < B := by
    rw [hB]
    unfold numBatches
    split
    · exact Nat.div_pos (hd (by assumption)) hbs
    · exact Nat.div_pos (by omega) hbs
  have hlen : ∀ e, (A.iter e).length = B := by
    intro e
    unfold TorchArgs.iter
    rw [batches_length, order_length hA]
  have hne : ∀ e, A.iter e ≠ [] := by
    intro e h
    have := hlen e
    rw [h] at this
    simp at this
    omega
  have hflat : ∀ e, (A.iter e).flatten = (A.order e).take n := by
    intro e
    unfold TorchArgs.iter
    rw [hn]
    cases hdl : A.drop_last with
    | true => simp only [if_true]; rw [(batches_flatten hbs _).2, order_length hA]
    | false =>
      simp only [Bool.false_eq_true, if_false]
      rw [(batches_flatten hbs _).1, ← order_length hA e, List.take_length]
  have hnN : n ≤ A.N := by rw [hn]; split <;> omega
  have hfl : ∀ e, (A.iter e).flatten.length = n := by
    intro e
    rw [hflat, List.length_take, order_length hA]
    omega
  have hget : ∀ e, ∀ b ∈ A.iter e, ∀ i ∈ b, ∀ r, get i r = .ok (f i r) := by
    intro e b hb i hi
    apply hg
    have h1 : i ∈ (A.iter e).flatten := List.mem_flatten.2 ⟨b, hb, hi⟩
    rw [hflat] at h1
    have h2 := (order_perm hA e).mem_iff.1 (List.mem_of_mem_take h1)
    simpa using h2
  have h0 : torchInit A = .ok ⟨0, A.iter 0, 0⟩ := by
    unfold torchInit
    rw [if_neg (by omega), if_neg (by omega)]
  have main : ∀ E, ∃ st', torchRun A get entropy (E * B) ⟨0, A.iter 0, 0⟩ =
      .ok ((List.range E).flatMap (fun e => loaded f entropy (e * n) (A.iter e)), st') ∧
      (E = 0 → st' = ⟨0, A.iter 0, 0⟩) ∧ (0 < E → st' = ⟨E - 1, [], E * n⟩) := by
    intro E
    induction E with
    | zero => exact ⟨⟨0, A.iter 0, 0⟩, by simp; rfl, fun _ => rfl, fun h => by omega⟩
    | succ E ih =>
      obtain ⟨st', h1, h2, h3⟩ := ih
      have hstep : torchRun A get entropy B st' =
          .ok (loaded f entropy (E * n) (A.iter E), ⟨E, [], (E + 1) * n⟩) := by
        have hr := torchRun_rest A entropy E (A.iter E) (hget E) (E * n)
        rw [hlen, hfl, ← Nat.succ_mul] at hr
        rcases Nat.eq_zero_or_pos E with h | h
        · rw [h2 h]
          subst h
          simpa using hr
        · rw [h3 h, torchRun_renew A get entropy _ _ _ (hne _) hB0,
            show E - 1 + 1 = E by omega]
          exact hr
      refine ⟨⟨E, [], (E + 1) * n⟩, ?_, fun h => by omega, fun _ => rfl⟩
      rw [Nat.succ_mul, torchRun_add, h1, ok_bind, hstep, ok_bind, List.range_succ,
        List.flatMap_append]
      simp
      rfl
  obtain ⟨st', h1, -, -⟩ := main E
  refine ⟨_, st', _, h0, h1, ?_, ?_⟩
  · simp [List.length_flatMap, loaded_length, hlen]
  · intro e he
    dsimp only
    have hslice : (((List.range E).flatMap fun e => loaded f entropy (e * n) (A.iter e)).drop
        (e * B)).take B = loaded f entropy (e * n) (A.iter e) := by
      have hsplit : List.range E = List.range e ++ e :: (List.range' (e + 1) (E - e - 1)) := by
        rw [List.range_eq_range', List.range_eq_range', ← List.range'_succ]
        rw [show E - e - 1 + 1 = E - e by omega]
        have := List.range'_append (s := 0) (m := e) (n := E - e) (step := 1)
        simp at this
        rw [this]
        congr 1
        omega
      rw [hsplit, List.flatMap_append, List.flatMap_cons]
      rw [List.drop_append_of_le_length (by simp [List.length_flatMap, loaded_length, hlen])]
      rw [List.drop_of_length_le (by simp [List.length_flatMap, loaded_length, hlen]),
        List.nil_append, List.take_append_of_le_length (by rw [loaded_length, hlen]),
        List.take_of_length_le (by rw [loaded_length, hlen])]
    rw [hslice]
    refine ⟨?_, ?_⟩
    · rw [loaded_flatten, hflat]
    · rw [loaded_sizes, ← order_length hA e]
      exact batches_sizes hbs _ _

/-- C81: without a transform, every epoch hands out every element of the dataset exactly once. -/
theorem C81_torch_once {A : TorchArgs} (hA : A.Fair) (hbs : 0 < A.batch_size) (hN : 0 < A.N)
    (hd : A.drop_last = false) {get : Nat → ω → Py β} {f : Nat → β}
    (hg : ∀ i < A.N, ∀ r, get i r = .ok (f i)) (entropy : Nat → ω) (E : Nat) :
    ∃ st st' out, torchInit A = .ok st ∧
      torchRun A get entropy (E * ((A.N + A.batch_size - 1) / A.batch_size)) st = .ok (out, st') ∧
      ∀ e < E,
        let B := (A.N + A.batch_size - 1) / A.batch_size
        ((out.drop (e * B)).take B).flatten.Perm ((List.range A.N).map f) := by
  obtain ⟨st, st', out, h1, h2, -, h3⟩ := C81_torch hA hbs hN (by simp [hd])
    (f := fun i _ => f i) hg entropy E
  simp only [numBatches, hd, Bool.false_eq_true, if_false] at h2 h3
  refine ⟨st, st', out, h1, h2, fun e he => ?_⟩
  dsimp only
  rw [(h3 e he).1, List.take_of_length_le (by rw [order_length hA])]
  have : (List.map (fun x : Nat × Nat => f x.1) ((A.order e).zipIdx (e * A.N))) =
      (A.order e).map f := by
    rw [show (fun x : Nat × Nat => f x.1) = f ∘ Prod.fst from rfl, ← List.map_map,
      List.zipIdx_map_fst]
  rw [this]
  exact (order_perm hA e).map f

/-- C81: if `drop_last` leaves nothing, or if the dataset is empty, the first call raises. -/
theorem C81_torch_none {A : TorchArgs} (hA : A.Fair) (hbs : 0 < A.batch_size)
    (h : A.N = 0 ∨ A.drop_last = true ∧ A.N < A.batch_size) (get : Nat → ω → Py β) (entropy : Nat → ω)
    (n : Nat) : (torchInit A >>= torchRun A get entropy (n + 1)) =
      .error (if A.shuffle = true ∧ A.N = 0 then .value else .other) := by
  have hi : ∀ e, A.iter e = [] := by
    intro e
    apply List.eq_nil_of_length_eq_zero
    unfold TorchArgs.iter
    rw [batches_length, order_length hA]
    unfold numBatches
    rcases h with h | ⟨h, h'⟩
    · rw [h]
      split
      · simp
      · exact Nat.div_eq_of_lt (by omega)
    · rw [if_pos h]
      exact Nat.div_eq_of_lt h'
  unfold torchInit
  rw [if_neg (by omega)]
  split
  · rfl
  · rw [ok_bind]
    unfold torchRun torchStep
    simp [hi]
    rfl

/-! ## the files of a dataset -/

/-- `path / name` -/
def fileIn (path : FPath) (name : String) : FPath := ⟨path.absolute, path.parts ++ [name]⟩

/-- `names` is what `os.listdir(path)` may give: every name in the folder once, in any order -/
def IsListing (fs : FS γ) (path : FPath) (names : List String) : Prop :=
  names.Nodup ∧ ∀ n, n ∈ names ↔ fs (fileIn path n) ≠ none

/-- a file name with the extension `.pickle` -/
def IsPickle (name : String) : Prop := ∃ s : String, s ≠ "" ∧ name = s ++ ".pickle"

theorem fileIn_parent (path : FPath) (name : String) : (fileIn path name).parent = path :=
  FPath.parent_append _ _ _

theorem pickleFile_fileIn {path : FPath} {name : String} (h : IsPickle name) :
    pickleFile (fileIn path name) = fileIn path name := by
  obtain ⟨s, hs, rfl⟩ := h
  unfold pickleFile
  have hn : (fileIn path (s ++ ".pickle")).name = s ++ ".pickle" := FPath.name_append _ _ _
  rw [hn]
  have hst : FPath.stem (s ++ ".pickle").toList = s.toList := by
    apply (FPath.C52_stem _).1
    refine ⟨fun h => hs (String.toList_inj.1 (by rw [h]; rfl)), "pickle".toList, by decide, by decide,
      ?_⟩
    rw [String.toList_append]
    rfl
  rw [hst, ← String.toList_append, String.ofList_toList]
  simp [fileIn]

theorem IsPickle.ne {name : String} (h : IsPickle name) : name ≠ "" := by
  obtain ⟨s, hs, rfl⟩ := h
  intro h
  have h := congrArg String.toList h
  rw [String.toList_append] at h
  simp at h

theorem listdir_ok {fs : FS γ} {path : FPath} (h : fs.Has path) (names : List String) :
    listdir fs path names = .ok (names.map (fileIn path)) := by
  unfold listdir
  apply System.mapM_ok
  intro n _
  unfold parse_path
  have hj : ([⟨false, [n]⟩] : List FPath).foldl FPath.joinpath path = fileIn path n := rfl
  rw [hj]
  dsimp only
  rw [if_neg (by simp), fileIn_parent]
  simp only [if_true, FS.mkdir_done h]
  simp

theorem load_ok {fs : FS γ} {path : FPath} (h : fs.Has path) {name : String} (hn : name ≠ "") {c : γ}
    (hc : fs (pickleFile (fileIn path name)) = some (.file c)) :
    pickle_load fs (fileIn path name) = (.ok c, fs) := by
  have hname : (fileIn path name).name = name := FPath.name_append _ _ _
  unfold pickle_load parse_path
  simp only [List.foldl_nil]
  rw [with_suffix_pickle (by rw [hname]; exact hn)]
  dsimp only
  rw [if_neg (by simp), pickleFile_parent, fileIn_parent]
  simp only [if_true, FS.mkdir_done h]
  rw [if_neg]
  · simp [hc]
  · simp [FS.isFile, hc]

theorem dedup_const {l : List Nat} {N : Nat} (h : ∀ n ∈ l, n = N) (hl : l ≠ []) : l.dedup = [N] := by
  induction l with
  | nil => exact absurd rfl hl
  | cons a l ih =>
    have ha := h a (by simp)
    subst ha
    by_cases h' : l = []
    · subst h'; rfl
    · have e := ih (fun n hn => h n (by simp [hn])) h'
      obtain ⟨b, hb⟩ := List.exists_mem_of_ne_nil l h'
      rw [List.dedup_cons_of_mem (by have := h b (by simp [hb]); rwa [this] at hb), e]

/-- C81: a dataset is made if and only if there is at least one folder and all folders have the same
number of files. It has one element per file of a folder. -/
theorem C81_dataset {fs : FS γ} {paths : List (FPath × List String)} (hp : ∀ p ∈ paths, fs.Has p.1) :
    (∀ N, paths ≠ [] → (∀ p ∈ paths, p.2.length = N) →
      Dataset.init fs paths = .ok ⟨paths.map fun p => p.2.map (fileIn p.1), paths.length, N⟩) ∧
    ((¬ ∃ N, paths ≠ [] ∧ ∀ p ∈ paths, p.2.length = N) →
      Dataset.init fs paths = .error .assertion) := by
  have hm : (paths.mapM fun p => listdir fs p.1 p.2) =
      (.ok (paths.map fun p => p.2.map (fileIn p.1)) : Py _) :=
    System.mapM_ok fun p h => listdir_ok (hp p h) p.2
  constructor
  · intro N hne hN
    unfold Dataset.init
    rw [hm, ok_bind]
    dsimp only
    rw [dedup_const (N := N)]
    · simp [pyAssert]
    · intro n hn
      obtain ⟨fs, h1, rfl⟩ := List.mem_map.1 hn
      obtain ⟨p, h2, rfl⟩ := List.mem_map.1 h1
      simpa using hN p h2
    · simpa using hne
  · intro h
    unfold Dataset.init
    rw [hm, ok_bind]
    dsimp only
    have : ¬ (List.map List.length (paths.map fun p => p.2.map (fileIn p.1))).dedup.length = 1 := by
      intro hl
      apply h
      obtain ⟨N, hN⟩ := List.length_eq_one_iff.1 hl
      refine ⟨N, ?_, ?_⟩
      · rintro rfl
        simp at hN
      · intro p hp'
        have : p.2.length ∈ (List.map List.length (paths.map fun p => p.2.map (fileIn p.1))).dedup := by
          rw [List.mem_dedup]
          exact List.mem_map.2 ⟨_, List.mem_map.2 ⟨p, hp', rfl⟩, by simp⟩
        rw [hN] at this
        simpa using this
    unfold pyAssert
    rw [if_neg this]
    rfl

theorem pyGet_cast {α : Type} (l : List α) (i : Nat) :
    pyGet l (i : Int) = match l[i]? with | some x => .ok x | none => .error .index := by
  have h : ¬ (i : Int) < 0 := by omega
  unfold pyGet
  dsimp only
  rw [if_neg h, if_neg h, Int.toNat_natCast]
  rfl

/-- C81: element `i` consists of the contents of the `i`-th listed file of every folder; past the last
one there is an `IndexError`. -/
theorem C81_element {fs : FS γ} {paths : List (FPath × List String)} (hp : ∀ p ∈ paths, fs.Has p.1)
    {ds : Dataset} (hds : Dataset.init fs paths = .ok ds) {c : FPath → String → γ}
    (hc : ∀ p ∈ paths, ∀ n ∈ p.2, IsPickle n ∧ fs (fileIn p.1 n) = some (.file (c p.1 n))) (i : Nat) :
    (i < ds.N → ds.load fs i = .ok (paths.map fun p => c p.1 (p.2.getD i ""))) ∧
    (ds.N ≤ i → ds.load fs i = .error .index) := by
  have hN : ∃ N, paths ≠ [] ∧ ∀ p ∈ paths, p.2.length = N := by
    by_contra h
    rw [(C81_dataset hp).2 h] at hds
    cases hds
  obtain ⟨N, hne, hN⟩ := hN
  rw [(C81_dataset hp).1 N hne hN] at hds
  cases hds
  dsimp only
  have hget : ∀ k (hk : k < paths.length), (do
      let files ← pyGet (paths.map fun p => p.2.map (fileIn p.1)) (k : Int)
      let file ← pyGet files (i : Int)
      (pickle_load fs file).1) = (if h : i < N then
        .ok (c paths[k].1 (paths[k].2.getD i "")) else .error .index : Py γ) := by
    intro k hk
    have hmem : paths[k] ∈ paths := List.getElem_mem hk
    rw [pyGet_cast, List.getElem?_map, List.getElem?_eq_getElem hk, Option.map_some]
    dsimp only
    rw [ok_bind, pyGet_cast, List.getElem?_map]
    have hl := hN _ hmem
    split
    · rename_i file hfile
      have hi : i < N := by
        by_contra h
        rw [List.getElem?_eq_none (by omega)] at hfile
        cases hfile
      rw [dif_pos hi]
      rw [List.getElem?_eq_getElem (by omega), Option.map_some, Option.some_inj] at hfile
      subst hfile
      have hn := hc _ hmem _ (List.getElem_mem (show i < paths[k].2.length by omega))
      rw [ok_bind, load_ok (hp _ hmem) hn.1.ne (by rw [pickleFile_fileIn hn.1]; exact hn.2)]
      simp [List.getD_eq_getElem?_getD, List.getElem?_eq_getElem (show i < paths[k].2.length by omega)]
    · rename_i hfile
      have hi : ¬ i < N := by
        intro h
        rw [List.getElem?_eq_getElem (by omega)] at hfile
        cases hfile
      rw [dif_neg hi]
      rfl
  constructor
  · intro hi
    unfold Dataset.load
    dsimp only
    rw [System.mapM_ok (g := fun k => c (paths.getD k (⟨false, []⟩, [])).1
      ((paths.getD k (⟨false, []⟩, [])).2.getD i ""))]
    · congr 1
      apply List.ext_getElem
      · simp
      · intro k h1 h2
        have hk : k < paths.length := by simpa using h2
        simp [List.getD_eq_getElem?_getD, List.getElem?_eq_getElem hk]
    · intro k hk
      have hk := List.mem_range.1 hk
      rw [hget k hk, dif_pos hi]
      simp [List.getD_eq_getElem?_getD, List.getElem?_eq_getElem hk]
  · intro hi
    unfold Dataset.load
    dsimp only
    obtain ⟨m, hm⟩ : ∃ m, paths.length = m + 1 :=
      ⟨paths.length - 1, by have := List.length_pos_iff.2 hne; omega⟩
    rw [hm, List.range_succ_eq_map, List.mapM_cons]
    have := hget 0 (by omega)
    rw [dif_neg (by omega)] at this
    rw [this]
    rfl

/-- C81, partially: if all folders list the same names in the same order, an element consists of the
files of one name. Missing: `os.listdir` gives the names in any order, see `C81_pairing_fails`. -/
theorem C81_pairing_partial {fs : FS γ} {paths : List FPath} {names : List String}
    (hp : ∀ p ∈ paths, fs.Has p) (hne : paths ≠ []) {c : FPath → String → γ}
    (hc : ∀ p ∈ paths, ∀ n ∈ names, IsPickle n ∧ fs (fileIn p n) = some (.file (c p n))) :
    ∃ ds, Dataset.init fs (paths.map fun p => (p, names)) = .ok ds ∧ ds.N = names.length ∧
      ∀ i n, names[i]? = some n → ds.load fs i = .ok (paths.map fun p => c p n) := by
  have hp' : ∀ p ∈ paths.map (fun p => (p, names)), fs.Has p.1 := by
    intro p h
    obtain ⟨q, hq, rfl⟩ := List.mem_map.1 h
    exact hp q hq
  have hi := (C81_dataset hp').1 names.length (by simpa using hne) (by
    intro p h
    obtain ⟨q, hq, rfl⟩ := List.mem_map.1 h
    rfl)
  refine ⟨_, hi, rfl, ?_⟩
  intro i n hn
  have hlt : i < names.length := (List.getElem?_eq_some_iff.1 hn).1
  rw [(C81_element hp' hi (c := c) (by
    intro p h
    obtain ⟨q, hq, rfl⟩ := List.mem_map.1 h
    exact hc q hq) i).1 hlt]
  simp [Function.comp_def, List.getD_eq_getElem?_getD, hn]

/-- two folders with the measurements and the labels of two subjects -/
def subjects : FS String := fun q =>
  if q = ⟨false, ["X"]⟩ ∨ q = ⟨false, ["Y"]⟩ then some .dir
  else if q = ⟨false, ["X", "s0.pickle"]⟩ then some (.file "X of s0")
  else if q = ⟨false, ["X", "s1.pickle"]⟩ then some (.file "X of s1")
  else if q = ⟨false, ["Y", "s0.pickle"]⟩ then some (.file "Y of s0")
  else if q = ⟨false, ["Y", "s1.pickle"]⟩ then some (.file "Y of s1") else none

theorem subjects_listing (d : String) (hd : d = "X" ∨ d = "Y") (names : List String)
    (h : names = ["s0.pickle", "s1.pickle"] ∨ names = ["s1.pickle", "s0.pickle"]) :
    IsListing subjects ⟨false, [d]⟩ names := by
  refine ⟨by rcases h with rfl | rfl <;> decide, fun n => ?_⟩
  have : subjects (fileIn ⟨false, [d]⟩ n) ≠ none ↔ n = "s0.pickle" ∨ n = "s1.pickle" := by
    unfold subjects fileIn
    rcases hd with rfl | rfl <;>
      by_cases h0 : n = "s0.pickle" <;> by_cases h1 : n = "s1.pickle" <;> simp [h0, h1]
  rw [this]
  rcases h with rfl | rfl <;> simp [or_comm]

/-- C81 fails if the operating system lists two folders with the same names in different orders: an
element then pairs the measurements of one subject with the labels of another. -/
theorem C81_pairing_fails :
    IsListing subjects ⟨false, ["X"]⟩ ["s0.pickle", "s1.pickle"] ∧
    IsListing subjects ⟨false, ["Y"]⟩ ["s1.pickle", "s0.pickle"] ∧
    ∃ ds, Dataset.init subjects [(⟨false, ["X"]⟩, ["s0.pickle", "s1.pickle"]),
        (⟨false, ["Y"]⟩, ["s1.pickle", "s0.pickle"])] = .ok ds ∧
      ds.load subjects 0 = .ok ["X of s0", "Y of s1"] ∧
      ds.load subjects 1 = .ok ["X of s1", "Y of s0"] :=
  ⟨subjects_listing _ (.inl rfl) _ (.inl rfl), subjects_listing _ (.inr rfl) _ (.inr rfl), _, rfl, rfl,
    rfl⟩

/-- a folder with a sequence and a note about it -/
def noted : FS String := fun q =>
  if q = ⟨false, ["X"]⟩ then some .dir
  else if q = ⟨false, ["X", "seq0.pickle"]⟩ then some (.file "sequence")
  else if q = ⟨false, ["X", "seq0.json"]⟩ then some (.file "note") else none

/-- C81 fails in folders with other files: `pickle_load` replaces the extension, so that a file next to
a sequence adds the sequence a second time. -/
theorem C81_foreign_fails :
    IsListing noted ⟨false, ["X"]⟩ ["seq0.pickle", "seq0.json"] ∧
    ∃ ds, Dataset.init noted [(⟨false, ["X"]⟩, ["seq0.pickle", "seq0.json"])] = .ok ds ∧ ds.N = 2 ∧
      ds.load noted 0 = .ok ["sequence"] ∧ ds.load noted 1 = .ok ["sequence"] := by
  refine ⟨⟨by decide, fun n => ?_⟩, _, rfl, rfl, rfl, rfl⟩
  unfold noted fileIn
  by_cases h0 : n = "seq0.pickle" <;> by_cases h1 : n = "seq0.json" <;> simp [h0, h1]

theorem fileIn_inj {path : FPath} {m n : String} (h : fileIn path m = fileIn path n) : m = n := by
  unfold fileIn at h
  simpa using h

/-- C81: what `to_folder` has written to a new folder is what the dataset of the folder contains: every
sequence once, whatever the order in which the folder is listed. -/
theorem C81_roundtrip {path : FPath} {file_prefix : String} (hd : '.' ∉ file_prefix.toList) {ow : Bool}
    {data : List γ} (hne : data ≠ []) {fs fs1 : FS γ} (hmk : fs.mkdir path = (.ok (), fs1))
    (hnew : ∀ n, fs (fileIn path n) = none) :
    ∃ fs', to_folder fs path ow file_prefix default_save_fn data = (.ok data.length, fs') ∧
      ∀ names, IsListing fs' path names → ∃ ds elements,
        Dataset.init fs' [(path, names)] = .ok ds ∧ ds.N = data.length ∧
        (List.range ds.N).mapM (ds.load fs') = .ok elements ∧
        elements.Perm (data.map fun x => [x]) := by
  have hseq : ∀ i, seqFile path file_prefix i =
      fileIn path (file_prefix ++ toString i ++ ".pickle") := fun i => rfl
  obtain ⟨fs', h1, h2, h3, h4, hhas⟩ := C67_to_folder_partial hd (ow := ow) hne hmk
    (fun _ j => hnew _) (fun j => by rw [hseq, hnew]; simp)
  refine ⟨fs', h1, ?_⟩
  intro names hl
  set nm : Nat → String := fun i => file_prefix ++ toString i ++ ".pickle" with hnm
  have hpk : ∀ i, IsPickle (nm i) := by
    intro i
    refine ⟨file_prefix ++ toString i, ?_, rfl⟩
    intro h
    have h := congrArg String.toList h
    rw [String.toList_append] at h
    have h2 : (toString i).toList = [] := (List.append_eq_nil_iff.1 h).2
    exact toString_ne_empty i (String.toList_inj.1 (by rw [h2]; rfl))
  have hex : ∀ n, fs' (fileIn path n) ≠ none ↔ ∃ i < data.length, n = nm i := by
    intro n
    constructor
    · intro h
      by_contra hc
      push Not at hc
      rcases h4 (fileIn path n) (fun i hi h' => hc i hi (fileIn_inj h')) with h5 | ⟨-, -, h5⟩
      · exact h (by rw [h5, hnew])
      · simp [fileIn] at h5
    · rintro ⟨i, hi, rfl⟩
      rw [← hseq, h2 i _ (List.getElem?_eq_getElem hi)]
      simp
  have hinj : Function.Injective nm := fun i j h => h3 i j (by rw [hseq, hseq]; exact congrArg _ h)
  have hperm : names.Perm ((List.range data.length).map nm) := by
    rw [List.perm_ext_iff_of_nodup hl.1 (List.nodup_range.map hinj)]
    intro n
    rw [hl.2, hex]
    simp only [List.mem_map, List.mem_range]
    exact ⟨fun ⟨i, hi, h⟩ => ⟨i, hi, h.symm⟩, fun ⟨i, hi, h⟩ => ⟨i, hi, h.symm⟩⟩
  set c : String → γ := fun n => match fs' (fileIn path n) with
    | some (.file x) => x
    | _ => data.head hne with hcdef
  have hcn : ∀ i (hi : i < data.length), fs' (fileIn path (nm i)) = some (.file data[i]) := by
    intro i hi
    rw [← hseq, h2 i _ (List.getElem?_eq_getElem hi)]
  have hcv : ∀ i (hi : i < data.length), c (nm i) = data[i] := by
    intro i hi
    rw [hcdef]
    dsimp only
    rw [hcn i hi]
  have hN : names.length = data.length := by rw [hperm.length_eq]; simp
  have hp' : ∀ p ∈ [(path, names)], fs'.Has p.1 := by
    intro p h
    rw [List.mem_singleton.1 h]
    exact hhas
  have hi := (C81_dataset hp').1 data.length (by simp) (by
    intro p h
    rw [List.mem_singleton.1 h]
    exact hN)
  refine ⟨_, (List.range data.length).map fun i => [c (names.getD i "")], hi, rfl, ?_, ?_⟩
  · apply System.mapM_ok
    intro i hlt
    have hlt := List.mem_range.1 hlt
    rw [(C81_element hp' hi (c := fun _ n => c n) (by
      intro p h n hn
      rw [List.mem_singleton.1 h] at hn ⊢
      obtain ⟨j, hj, rfl⟩ := List.mem_map.1 (hperm.mem_iff.1 hn)
      have hj := List.mem_range.1 hj
      dsimp only
      exact ⟨hpk j, by rw [hcv j hj]; exact hcn j hj⟩) i).1 hlt]
    rfl
  · have e1 : ((List.range data.length).map fun i => [c (names.getD i "")]) =
        names.map fun n => [c n] := by
      apply List.ext_getElem
      · simp [hN]
      · intro i _ h
        have : i < names.length := by simpa using h
        simp [List.getD_eq_getElem?_getD, List.getElem?_eq_getElem this]
    have e2 : ((List.range data.length).map nm).map (fun n => [c n]) = data.map fun x => [x] := by
      apply List.ext_getElem
      · simp
      · intro i _ h
        have : i < data.length := by simpa using h
        simp [hcv i this]
    rw [e1, ← e2]
    exact hperm.map _

/-! ## transforms and backends -/

/-- C81: the eager generator transforms every element once, when it is made, and then hands out epochs
of the transformed elements: the augmentation is not repeated. -/
theorem C81_eager {fs : FS γ} {paths : List (FPath × List String)} {ds : Dataset}
    (hds : Dataset.init fs paths = .ok ds) {element : Nat → List γ}
    (he : ∀ i < ds.N, ds.load fs i = .ok (element i)) (transform : Option (dataloader.Transform γ ω))
    (entropy : Nat → ω) {bs : Nat} (hbs : 0 < bs) (hN : bs ≤ ds.N)
    {shuf : Nat → List (List γ) → List (List γ)} (hs : ∀ k l, (shuf k l).Perm l) (shuffle : Bool)
    (n : Nat) :
    let data := (List.range ds.N).map fun i => match transform with
      | none => element i
      | some t => t (element i) (entropy i)
    ∃ st B out st', eager_generator fs paths bs transform entropy = .ok (st, B) ∧ B = ds.N / bs ∧
      eagerRun shuf shuffle bs B n st = .ok (out, st') ∧ out.length = n ∧
      ∀ e, (e + 1) * B ≤ n → IsEpoch data bs ((out.drop (e * B)).take B) := by
  intro data
  have hlen : data.length = ds.N := by simp [data]
  obtain ⟨st, B, out, st', h1, h2, h3, h4, -, h5⟩ :=
    C43_epochs hs shuffle data bs n hbs (by rw [hlen]; exact hN)
  refine ⟨st, B, out, st', ?_, by rw [h2, hlen], h3, h4, fun e h => (h5 e h).1⟩
  unfold eager_generator eager_data
  rw [hds, ok_bind, System.mapM_ok (g := fun i => match transform with
      | none => element i
      | some t => t (element i) (entropy i)), ok_bind]
  · exact h1
  · intro i hi
    unfold Dataset.get
    rw [he i (List.mem_range.1 hi), ok_bind]
    cases transform <;> rfl

/-- C81: the torch backend transforms an element anew whenever it is handed out. -/
theorem C81_torch_transform {fs : FS γ} {ds : Dataset} {element : Nat → List γ}
    (he : ∀ i < ds.N, ds.load fs i = .ok (element i)) (transform : Option (dataloader.Transform γ ω)) :
    ∀ i < ds.N, ∀ r, ds.get fs transform i r = .ok (match transform with
      | none => element i
      | some t => t (element i) r) := by
  intro i hi r
  unfold Dataset.get
  rw [he i hi, ok_bind]
  cases transform <;> rfl

/-- C81: the torch backend over folders of pickle files: it never ends, and without a transform every
epoch consists of all elements of the dataset. -/
theorem C81_pytorch {fs : FS γ} {paths : List (FPath × List String)} {ds : Dataset}
    (hds : Dataset.init fs paths = .ok ds) {element : Nat → List γ}
    (he : ∀ i < ds.N, ds.load fs i = .ok (element i)) {bs : Nat} (hbs : 0 < bs) (hN : 0 < ds.N)
    (shuffle : Bool) {perm : Nat → List Nat} (hperm : ∀ e, (perm e).Perm (List.range ds.N))
    (entropy : Nat → ω) (E : Nat) :
    let B := (ds.N + bs - 1) / bs
    ∃ A st st' out, pytorch_generator fs paths bs shuffle false perm = .ok (ds, A, st) ∧
      torchRun A (ds.get fs none) entropy (E * B) st = .ok (out, st') ∧
      ∀ e < E, ((out.drop (e * B)).take B).flatten.Perm ((List.range ds.N).map element) ∧
        (shuffle = false → ((out.drop (e * B)).take B).flatten = (List.range ds.N).map element) := by
  intro B
  set A : TorchArgs := ⟨ds.N, bs, shuffle, false, perm⟩ with hA
  have hfair : A.Fair := hperm
  obtain ⟨st, st', out, h1, h2, -, h3⟩ := C81_torch (A := A) hfair hbs hN (by simp [hA])
    (f := fun i _ => element i) (C81_torch_transform he none) entropy E
  simp only [numBatches, hA, Bool.false_eq_true, if_false] at h2 h3
  refine ⟨A, st, st', out, ?_, h2, fun e hlt => ?_⟩
  · unfold pytorch_generator
    rw [hds, ok_bind]
    show (torchInit A >>= fun st => pure (ds, A, st)) = _
    rw [h1]
    rfl
  · have h4 := (h3 e hlt).1
    rw [List.take_of_length_le (l := TorchArgs.order _ e) (le_of_eq (order_length hfair e))] at h4
    have h5 : (List.map (fun x : Nat × Nat => element x.1) ((A.order e).zipIdx (e * ds.N))) =
        (A.order e).map element := by
      rw [show (fun x : Nat × Nat => element x.1) = element ∘ Prod.fst from rfl, ← List.map_map,
        List.zipIdx_map_fst]
    have h6 := h4.trans h5
    refine ⟨by rw [h6]; exact (order_perm hfair e).map _, fun hsh => ?_⟩
    rw [h6]
    unfold TorchArgs.order
    simp [hA, hsh]

/-- C81: the dataset of one folder hands out the contents of its files, transformed. -/
theorem C81_folder {fs : FS γ} {path : FPath} (hp : fs.Has path) {names : List String}
    {c : String → γ} (hc : ∀ n ∈ names, IsPickle n ∧ fs (fileIn path n) = some (.file (c n)))
    (transform : Option (γ → γ)) :
    ∃ files, folderDataset fs path names = .ok files ∧ files.length = names.length ∧
      ∀ i, folderGet fs files transform i = match names[i]? with
        | none => .error .index
        | some n => .ok (match transform with
          | none => c n
          | some t => t (c n)) := by
  refine ⟨_, listdir_ok hp names, by simp, fun i => ?_⟩
  unfold folderGet
  rw [pyGet_cast, List.getElem?_map]
  cases h : names[i]? with
  | none => rfl
  | some n =>
    have hn := hc n (List.mem_of_getElem? h)
    dsimp only [Option.map_some]
    rw [ok_bind, load_ok hp hn.1.ne (by rw [pickleFile_fileIn hn.1]; exact hn.2)]
    cases transform <;> rfl

/-- C81 fails: the seed does not determine the data. The generators of the transforms are made without
a seed, so that two runs with the same arguments differ. -/
theorem C81_seed_fails : ∃ (fs : FS Nat) (paths : List (FPath × List String))
    (transform : dataloader.Transform Nat Nat) (entropy entropy' : Nat → Nat) (data data' : List (List Nat)),
    eager_data fs paths (some transform) entropy = .ok data ∧
    eager_data fs paths (some transform) entropy' = .ok data' ∧ data ≠ data' :=
  ⟨exFolder, [(⟨false, ["data"]⟩, ["seq0.pickle"])], fun l r => l.map (· + r), fun _ => 1, fun _ => 2,
    [[8]], [[9]], rfl, rfl, by decide⟩

/-- C81 fails: the grain backend cannot do without a transform, although `None` is its default; with
one, it applies it. -/
theorem C81_grain_none_fails (element : List γ) (rng : ω) (t : dataloader.Transform γ ω) :
    random_map none element rng = .error .type ∧ random_map (some t) element rng = .ok (t element rng) ∧
    transformTransform none element rng = element :=
  ⟨rfl, rfl, rfl⟩

/-- C81: the backends are chosen by their names, and others are refused. -/
theorem C81_backend (s : String) : (s = "grain" → backendOf s = .ok .grain) ∧
    (s = "torch" → backendOf s = .ok .torch) ∧ (s = "eager" → backendOf s = .ok .eager) ∧
    (s ≠ "grain" ∧ s ≠ "torch" ∧ s ≠ "eager" → backendOf s = .error .notImplemented) ∧
    backendOf = .ok .eager := by
  refine ⟨?_, ?_, ?_, ?_, rfl⟩
  · rintro rfl; rfl
  · rintro rfl; rfl
  · rintro rfl; rfl
  · rintro ⟨h1, h2, h3⟩
    simp [backendOf, h1, h2, h3]

/-! ### examples -/

/-- five elements in batches of two, every epoch in another order -/
def exTorch : TorchArgs where
  N := 5
  batch_size := 2
  perm := fun e => if e = 0 then [3, 0, 4, 1, 2] else [2, 1, 0, 4, 3]

theorem exTorch_fair : exTorch.Fair := by
  intro e
  show (if e = 0 then [3, 0, 4, 1, 2] else [2, 1, 0, 4, 3] : List Nat).Perm (List.range 5)
  split <;> decide

example : 0 < exTorch.batch_size ∧ 0 < exTorch.N ∧ exTorch.drop_last = false ∧
    (torchRun exTorch (fun i r => .ok (10 * i + r)) (fun k => k) 7 ⟨0, exTorch.iter 0, 0⟩).map (·.1) =
      .ok [[30, 1], [42, 13], [24], [25, 16], [7, 48], [39], [30, 21]] := by
  refine ⟨by decide, by decide, rfl, by decide⟩

example : subjects.Has ⟨false, ["X"]⟩ ∧ subjects.Has ⟨false, ["Y"]⟩ ∧ IsPickle "s0.pickle" ∧
    subjects (fileIn ⟨false, ["Y"]⟩ "s0.pickle") = some (.file "Y of s0") := by
  have h : ∀ d : String, d = "X" ∨ d = "Y" → subjects.Has ⟨false, [d]⟩ := by
    intro d hd k hk
    have : k = 0 := by simpa using hk
    subst this
    rcases hd with rfl | rfl <;> rfl
  exact ⟨h _ (.inl rfl), h _ (.inr rfl), ⟨"s0", by decide, by decide⟩, rfl⟩

example : ∃ fs1, FS.mkdir (fun _ => none : FS Nat) ⟨false, ["out"]⟩ = (.ok (), fs1) ∧
    '.' ∉ "seq".toList := ⟨_, rfl, by decide⟩

end RingLib
