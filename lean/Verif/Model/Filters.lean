import Verif.Model.Sensors

/-!
# Filters and filter wrappers

`/repo/src/ring/ml/base.py` and the class `RING`, `/repo/src/ring/ml/ringnet.py:202-297`.

* An array is its shape and its entries in row-major order; `reshape` changes the shape only.
* A pytree of states is the list of its leaves; the empty list stands for `None` as a result.
* A wrapped filter is given by its `apply` and by what `search_attr("lam")` returns.
* `print`, names, saving and loading are left out, `jit` is transparent.
-/

namespace RingLib.ml
open maths

/-- An array: shape and entries in row-major order. -/
structure NDArr where
  shape : List Nat
  data : List ℝ

namespace NDArr

/-- `arr.ndim` -/
def ndim (a : NDArr) : Nat := a.shape.length

/-- `arr.shape[-1]` -/
def lastDim (a : NDArr) : Nat := a.shape.getLastD 0

/-- `k` consecutive blocks of `n` entries -/
def chunks (n k : Nat) (l : List ℝ) : List (List ℝ) :=
  (List.range k).map fun i => (l.drop (i * n)).take n

/-- Apply `f` to every vector along the last axis; the results have length `F'`. -/
def mapLast (f : List ℝ → List ℝ) (F' : Nat) (a : NDArr) : NDArr :=
  ⟨a.shape.dropLast ++ [F'], (chunks a.lastDim a.shape.dropLast.prod a.data).flatMap f⟩

/-- Combine corresponding blocks formed by the last two axes; the shape is that of the second. -/
def zipLast2 (g : List ℝ → List ℝ → List ℝ) (a b : NDArr) : NDArr :=
  let lead := b.shape.dropLast.dropLast.prod
  let n := b.shape.dropLast.getLastD 0 * b.lastDim
  ⟨b.shape, (List.zipWith g (chunks n lead a.data) (chunks n lead b.data)).flatten⟩

/-- `arr[i]` for an index in range -/
def lead (a : NDArr) (i : Nat) : NDArr :=
  ⟨a.shape.tail, (a.data.drop (i * a.shape.tail.prod)).take a.shape.tail.prod⟩

/-- `arr[None]` -/
def expand (a : NDArr) : NDArr := ⟨1 :: a.shape, a.data⟩

/-- `jnp.stack`: at least one array, all of the same shape. -/
def stack (l : List NDArr) : Py NDArr :=
  match l with
  | [] => .error .value
  | a :: _ =>
    if ∀ b ∈ l, b.shape = a.shape then .ok ⟨l.length :: a.shape, l.flatMap NDArr.data⟩
    else .error .value

/-- `arr.reshape(shape)` -/
def reshape (a : NDArr) (shape : List Nat) : Py NDArr :=
  if a.shape.prod = shape.prod then .ok ⟨shape, a.data⟩ else .error .type

/-- `arr.reshape((*shape, -1))` -/
def reshapeRest (a : NDArr) (shape : List Nat) : Py NDArr :=
  if shape.prod = 0 then .error .zeroDivision
  else if a.shape.prod % shape.prod = 0 then
    .ok ⟨shape ++ [a.shape.prod / shape.prod], a.data⟩
  else .error .type

end NDArr

open NDArr

/-- a pytree of arrays, given by its leaves -/
abbrev Tree := List NDArr

/-- `tree_utils.tree_batch(ys)`: stack corresponding leaves. -/
def stackTree (l : List Tree) : Py Tree :=
  match l with
  | [] => .error .value
  | t :: _ =>
    if ∀ b ∈ l, b.length = t.length then
      (List.range t.length).mapM fun j => stack (l.map fun b => b.getD j ⟨[], []⟩)
    else .error .value

variable {P : Type}

/-- the type of `apply`: `X, params, state, y, lam` to `yhat, state` -/
abbrev Apply (P : Type) :=
  NDArr → Option P → Option Tree → Option NDArr → Option (List Int) → Py (NDArr × Tree)

/-- A filter, as far as wrappers use it. -/
structure Filter (P : Type) where
  apply : Apply P
  /-- `search_attr("lam")` -/
  lam : Py (Option (List Int))

/-- `/repo/src/ring/ml/base.py:13-16` `_to_3d` -/
def _to_3d (t : Tree) : Tree := t.map expand

/-- `/repo/src/ring/ml/base.py:19-22` `_to_2d` -/
def _to_2d (t : Tree) (i : Nat := 0) : Tree := t.map (lead · i)

/-- `/repo/src/ring/ml/base.py:26-31` `AbstractFilter._apply_unbatched` -/
def _apply_unbatched (_apply_batched : Apply P) : Apply P := fun X params state y lam => do
  let r ← _apply_batched (expand X) params (state.map _to_3d) (y.map expand) lam
  pure (lead r.1 0, _to_2d r.2)

/-- `/repo/src/ring/ml/base.py:41-47` `AbstractFilter.apply` -/
def filterApply (_apply_batched _apply_unbatched : Apply P) : Apply P := fun X params state y lam => do
  pyAssert (X.ndim = 3 ∨ X.ndim = 4)
  if X.ndim = 4 then _apply_batched X params state y lam
  else _apply_unbatched X params state y lam

/-- `/repo/src/ring/ml/base.py:90-99` `AbstractFilterUnbatched._apply_batched` -/
def loopBatched (_apply_unbatched : Apply P) : Apply P := fun X params state y lam => do
  let N := X.shape.headD 0
  let ys ← (List.range N).mapM fun i =>
    _apply_unbatched (lead X i) params (state.map (_to_2d · i)) (y.map (lead · i)) lam
  let Y ← stack (ys.map Prod.fst)
  let S ← stackTree (ys.map Prod.snd)
  pure (Y, S)

/-- A filter derived from `AbstractFilterUnbatched`, `/repo/src/ring/ml/base.py:85-99`. -/
def unbatchedFilter (_apply_unbatched : Apply P) (lam : Py (Option (List Int))) : Filter P :=
  ⟨filterApply (loopBatched _apply_unbatched) _apply_unbatched, lam⟩

/-! ## RING -/

/-- The class `RING`: the transformed network and the attributes. -/
structure RING (P : Type) where
  /-- `self.forward_lam_factory(lam=lam).apply` for a single sequence -/
  forward : List Int → P → Tree → NDArr → NDArr × Tree
  /-- `self.forward_lam_factory(lam=lam).init(key, X)` -/
  init : List Int → NDArr → P × Tree
  params : Option P
  lam : Option (List Int)

/-- `jax.vmap(f, in_axes=(None, 0, 0))(params, state, X)`; axes of different lengths are an error. -/
def vmapForward (f : Tree → NDArr → NDArr × Tree) (state : Tree) (X : NDArr) : Py (NDArr × Tree) := do
  let B := X.shape.headD 0
  if ∀ s ∈ state, s.shape.head? = some B then pure () else .error .value
  let ys := (List.range B).map fun i => f (_to_2d state i) (lead X i)
  let Y ← stack (ys.map Prod.fst)
  let S ← stackTree (ys.map Prod.snd)
  pure (Y, S)

/-- `jnp.repeat(arr[None], bs, axis=0)` -/
def repeatBatch (bs : Nat) (t : Tree) : Tree :=
  t.map fun a => ⟨bs :: a.shape, (List.replicate bs a.data).flatten⟩

/-- `/repo/src/ring/ml/ringnet.py:228-253` `RING.init` for a batch `X`, with `bs = X.shape[0]` -/
def RING.initBatch (r : RING P) (X : NDArr) (lam : List Int) : P × Tree :=
  let X1 := lead X 0
  let X1 : NDArr := ⟨1 :: X1.shape.tail, X1.data.take X1.shape.tail.prod⟩
  let ps := r.init lam X1
  (ps.1, repeatBatch (X.shape.headD 0) ps.2)

/-- `/repo/src/ring/ml/ringnet.py:255-273` `RING._apply_batched` -/
def RING.applyBatched (r : RING P) (lam : List Int) (X : NDArr) (params : Option P)
    (state : Option Tree) : Py (NDArr × Tree) :=
  let params := (params.orElse fun _ => r.params).getD (r.initBatch X lam).1
  let state := state.getD (r.initBatch X lam).2
  vmapForward (r.forward lam params) state X

/-- `/repo/src/ring/ml/ringnet.py:221-226` `RING.apply` -/
def RING.apply (r : RING P) : Apply P := fun X params state y lam =>
  match lam.orElse fun _ => r.lam with
  | none => .error .assertion
  | some lam =>
    let batched : Apply P := fun X params state _ _ => r.applyBatched lam X params state
    filterApply batched (_apply_unbatched batched) X params state y (some lam)

/-- the class as a filter -/
def RING.filter (r : RING P) : Filter P := ⟨r.apply, .ok r.lam⟩

/-! ## Wrappers -/

/-- `val * factor` -/
noncomputable def scaleBy (c : ℝ) (l : List ℝ) : List ℝ := l.map (· * c)

/-- `self._factors[key]` for the features of an input with `F` features, and the scaled features in
the order in which `batch_concat_acme` concatenates a dictionary (sorted by key),
`/repo/src/ring/ml/base.py:248-264`. -/
noncomputable def scaleRow (F : Nat) (factors : Dict ℝ) : Py (List ℝ → List ℝ) :=
  if F = 6 then do
    let a ← pyDict factors "acc"
    let g ← pyDict factors "gyr"
    pure fun x => scaleBy a (x.take 3) ++ scaleBy g (x.drop 3)
  else if F = 9 then do
    let a ← pyDict factors "acc"
    let g ← pyDict factors "gyr"
    let j ← pyDict factors "joint_axes"
    pure fun x => scaleBy a (x.take 3) ++ scaleBy g ((x.take 6).drop 3) ++ scaleBy j (x.drop 6)
  else if F = 10 then do
    let a ← pyDict factors "acc"
    let g ← pyDict factors "gyr"
    let j ← pyDict factors "joint_axes"
    let d ← pyDict factors "dt"
    pure fun x => scaleBy a (x.take 3) ++ scaleBy d ((x.take 10).drop 9)
      ++ scaleBy g ((x.take 6).drop 3) ++ scaleBy j ((x.take 9).drop 6)
  else .error .other

/-- `/repo/src/ring/ml/base.py:234` `_default_factors` -/
noncomputable def _default_factors : Dict ℝ :=
  [("gyr", 1 / 2.2), ("acc", 1 / 9.81), ("joint_axes", 1 / 0.57), ("dt", 10)]

/-- `/repo/src/ring/ml/base.py:237-264` `ScaleX_FilterWrapper` -/
noncomputable def ScaleX (factors : Dict ℝ) (f : Filter P) : Filter P where
  apply X params state y lam := do
    let row ← scaleRow X.lastDim factors
    f.apply (mapLast row X.lastDim X) params state y lam
  lam := f.lam

/-- `/repo/src/ring/ml/base.py:312-319` `_add_Ts` -/
noncomputable def _add_Ts (Ts : Option ℝ) (X : NDArr) : Py NDArr :=
  match Ts with
  | none => do
    pyAssert (X.lastDim = 10)
    pure X
  | some Ts => do
    pyAssert (X.lastDim = 9)
    pure (mapLast (· ++ [Ts]) 10 X)

/-- `/repo/src/ring/ml/base.py:305-325` `AddTs_FilterWrapper` -/
noncomputable def AddTs (Ts : Option ℝ) (f : Filter P) : Filter P where
  apply X params state y lam := do
    let X ← _add_Ts Ts X
    f.apply X params state y lam
  lam := f.lam

/-- A vector along an axis of length four, as a quaternion. -/
def toQuat (l : List ℝ) : Quat ℝ := ⟨l.getD 0 0, l.getD 1 0, l.getD 2 0, l.getD 3 0⟩

/-- and back -/
def ofQuat (q : Quat ℝ) : List ℝ := [q.w, q.x, q.y, q.z]

/-- `/repo/src/ring/ml/base.py:298-300` -/
noncomputable def normalizeLast (b : Bool) (yhat : NDArr) : Py NDArr :=
  if b then do
    pyAssert (yhat.lastDim = 4)
    pure (mapLast (fun q => ofQuat (safe_normalize4 (toQuat q))) 4 yhat)
  else .ok yhat

/-- `/repo/src/ring/ml/base.py:285-296`: the shapes given to the inner filter and restored after it -/
def noGraphShapes (X : NDArr) : Py (List Nat × List Nat) :=
  match X.shape with
  | [B, T, N, F] => .ok ([B, T, 1, N * F], [B, T, N])
  | [T, N, F] => .ok ([T, 1, N * F], [T, N])
  | _ => .error .value

/-- `/repo/src/ring/ml/base.py:267-302` `NoGraph_FilterWrapper` -/
noncomputable def NoGraph (quat_normalize : Bool) (f : Filter P) : Filter P where
  apply X params state y _ := do
    let sh ← noGraphShapes X
    let X ← X.reshape sh.1
    let r ← f.apply X params state y (some [-1])
    let yhat ← r.1.reshapeRest sh.2
    let yhat ← normalizeLast quat_normalize yhat
    pure (yhat, r.2)
  lam := f.lam

/-- `yhat.at[i, :].set(quat_transfer_heading(y[i, :], yhat[i, :]))` on one block of bodies; an index
out of range changes nothing. -/
noncomputable def setHeading (i : Nat) (y yhat : List ℝ) : List ℝ :=
  if 4 * i + 4 ≤ yhat.length then
    yhat.take (4 * i)
      ++ ofQuat (quat_transfer_heading (toQuat (y.drop (4 * i))) (toQuat (yhat.drop (4 * i))))
      ++ yhat.drop (4 * i + 4)
  else yhat

/-- The loop of `transfer_ground_truth_heading`, `/repo/src/ring/ml/base.py:224-230`. -/
noncomputable def headingLoop (y : NDArr) : Nat → List Int → NDArr → NDArr
  | _, [], yhat => yhat
  | i, p :: lam, yhat =>
    headingLoop y (i + 1) lam (if p = -1 then zipLast2 (setHeading i) y yhat else yhat)

/-- `/repo/src/ring/ml/base.py:219-231` `transfer_ground_truth_heading`.  Simplified: estimate and
truth are required to have the same shape, with last axis four. -/
noncomputable def transfer_ground_truth_heading (lam : Option (List Int)) (y : Option NDArr)
    (yhat : NDArr) : Py NDArr :=
  match y with
  | none => .ok yhat
  | some y =>
    match lam with
    | none => .error .assertion
    | some lam =>
      if y.shape = yhat.shape ∧ yhat.lastDim = 4 then .ok (headingLoop y 0 lam yhat)
      else .error .value

/-- `lam`, or the attribute, `/repo/src/ring/ml/base.py:214-215` -/
def lamOr (lam : Option (List Int)) (attr : Py (Option (List Int))) : Py (Option (List Int)) :=
  match lam with
  | some l => .ok (some l)
  | none => attr

/-- `/repo/src/ring/ml/base.py:205-231` `GroundTruthHeading_FilterWrapper` -/
noncomputable def GroundTruthHeading (f : Filter P) : Filter P where
  apply X params state y lam := do
    let r ← f.apply X params state y lam
    let lam ← lamOr lam f.lam
    let yhat ← transfer_ground_truth_heading lam y r.1
    pure (yhat, r.2)
  lam := f.lam

/-- The sampling rate of a single sequence, `/repo/src/ring/ml/base.py:172-178`; reading from an empty
array is an error. -/
noncomputable def sampFreq (samp_freq : Option ℝ) (X : NDArr) : Py ℝ :=
  match samp_freq with
  | some s => .ok s
  | none => do
    pyAssert (X.lastDim = 10)
    match X.data[9]? with
    | some dt => pure (1 / dt)
    | none => .error .index

/-- the rates of all sequences of a batch, `/repo/src/ring/ml/base.py:164-171` -/
noncomputable def sampFreqs (samp_freq : Option ℝ) (X : NDArr) : Py (List ℝ) :=
  (List.range (X.shape.headD 0)).mapM fun b => sampFreq samp_freq (lead X b)

/-- the rows `quat_lowpassfilter(yhat[:, n])`, all bodies, `/repo/src/ring/ml/base.py:194-201` -/
noncomputable def lpfBodies (cutoff_freq : ℝ) (filtfilt : Bool) (samp_freq : ℝ) (T N : Nat)
    (data : List ℝ) : Py (List (List (Quat ℝ))) :=
  (List.range N).mapM fun n => quat_lowpassfilter
    ((List.range T).map fun t => toQuat (data.drop ((t * N + n) * 4))) cutoff_freq samp_freq filtfilt

/-- The filter over the bodies of one sequence, `/repo/src/ring/ml/base.py:194-201`. -/
noncomputable def lpfSeq (cutoff_freq : ℝ) (filtfilt : Bool) (samp_freq : ℝ) (yhat : NDArr) :
    Py NDArr :=
  match yhat.shape with
  | [T, N, 4] => do
    let qs ← lpfBodies cutoff_freq filtfilt samp_freq T N yhat.data
    pure ⟨[T, N, 4], (List.range T).flatMap fun t => (List.range N).flatMap fun n =>
      ofQuat ((qs.getD n []).getD t ⟨0, 0, 0, 0⟩)⟩
  | _ => .error .value

/-- the sampling rates: one, or one per sequence, `/repo/src/ring/ml/base.py:164-178` -/
noncomputable def lpfRates (samp_freq : Option ℝ) (X : NDArr) : Py (List ℝ) :=
  if X.ndim = 4 then sampFreqs samp_freq X
  else do
    let s ← sampFreq samp_freq X
    pure [s]

/-- `/repo/src/ring/ml/base.py:183-201` -/
noncomputable def lpfOut (cutoff_freq : ℝ) (filtfilt : Bool) (rates : List ℝ) (yhat : NDArr) :
    Py NDArr :=
  if yhat.ndim = 4 then do
    let ys ← (List.range (yhat.shape.headD 0)).mapM fun b =>
      lpfSeq cutoff_freq filtfilt (rates.getD b 0) (lead yhat b)
    stack ys
  else lpfSeq cutoff_freq filtfilt (rates.getD 0 0) yhat

/-- `/repo/src/ring/ml/base.py:148-202` `LPF_FilterWrapper` -/
noncomputable def LPF (cutoff_freq : ℝ) (samp_freq : Option ℝ) (filtfilt : Bool) (f : Filter P) :
    Filter P where
  apply X params state y lam := do
    let rates ← lpfRates samp_freq X
    let r ← f.apply X params state y lam
    let yhat ← lpfOut cutoff_freq filtfilt rates r.1
    pure (yhat, r.2)
  lam := f.lam

end RingLib.ml
