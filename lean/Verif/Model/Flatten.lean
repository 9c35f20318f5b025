import Verif.Model.Finalize

/-!
# From dictionaries of segments to one array

`_flatten`, `_expand_dt`, `_expand_then_flatten`, `GeneratorTrafoLambda` and
`GeneratorTrafoExpandFlatten` of `/repo/src/ring/algorithms/generator/finalize_fns.py`,
`randomize_hz_finalize_fn_factory` of `/repo/src/ring/utils/randomize_sys.py`.

* An array is its shape with its entries by index.
* `tree_batch`, `batch_concat_acme` and `add_batch_dim` are functions of the library `tree_utils`,
  which is not part of the repository. They are modelled by what they are documented to do: stack along
  a new first axis; flatten all axes but the first ones and concatenate along the last; add a first axis
  of length one.
* `X` maps links to dictionaries of arrays, and possibly `"dt"` to an array. `y` maps links to arrays.
* The dictionaries handed in are changed by `_expand_dt`; the model returns the changed one.
-/

namespace RingLib
namespace generator
open System utils

/-- an array -/
structure ND where
  shape : List Nat
  get : List Nat → ℝ

namespace ND

/-- `arr[None]` -/
def expand (a : ND) : ND := ⟨1 :: a.shape, fun i => a.get i.tail⟩

/-- `arr[0]` -/
def first (a : ND) : Py ND :=
  match a.shape with
  | [] => .error .index
  | 0 :: _ => .error .index
  | _ :: s => .ok ⟨s, fun i => a.get (0 :: i)⟩

/-- `stack`: along a new first axis -/
def stack (l : List ND) : Py ND :=
  match l with
  | [] => .error .value
  | a :: _ =>
    if ∀ b ∈ l, b.shape = a.shape then
      .ok ⟨l.length :: a.shape, fun i => ((l[i.headD 0]?).map fun b => b.get i.tail).getD 0⟩
    else .error .value

/-- the index of entry number `k` in row-major order -/
def unravel : List Nat → Nat → List Nat
  | [], _ => []
  | _ :: s, k => k / s.prod :: unravel s (k % s.prod)

/-- `arr.reshape(arr.shape[:k] + (-1,))` -/
def flattenFrom (k : Nat) (a : ND) : Py ND :=
  if (a.shape.take k).prod = 0 then .error .zeroDivision
  else .ok ⟨a.shape.take k ++ [(a.shape.drop k).prod],
    fun i => a.get (i.take k ++ unravel (a.shape.drop k) (i.getD k 0))⟩

/-- entry number `f` of the last axis of a concatenation -/
def pick : List ND → List Nat → Nat → ℝ
  | [], _, _ => 0
  | a :: l, i, f => if f < a.shape.getLastD 0 then a.get (i ++ [f]) else pick l i (f - a.shape.getLastD 0)

/-- `concatenate(…, axis=-1)` -/
def concatLast (l : List ND) : Py ND :=
  match l with
  | [] => .error .value
  | a :: _ =>
    if ∀ b ∈ l, b.shape.dropLast = a.shape.dropLast then
      .ok ⟨a.shape.dropLast ++ [(l.map fun b => b.shape.getLastD 0).sum],
        fun i => pick l i.dropLast (i.getLastD 0)⟩
    else .error .value

/-- `arr.transpose((1, 2, 0, 3))` -/
def segmentsThird (a : ND) : Py ND :=
  match a.shape with
  | [n, b, t, f] => .ok ⟨[b, t, n, f], fun i => a.get [i.getD 2 0, i.getD 0 0, i.getD 1 0, i.getD 3 0]⟩
  | _ => .error .value

/-- `repeat(arr[:, None, :], T, axis=1)` -/
def repeatTime (a : ND) (T : Nat) : Py ND :=
  match a.shape with
  | b :: c :: s => .ok ⟨b :: T :: c :: s, fun i => a.get (i.headD 0 :: i.drop 2)⟩
  | _ => .error .index

end ND

/-- `tree_utils.tree_batch` of a list of tuples: all of the same length -/
def tree_batch (seq : List (List ND)) : Py (List ND) :=
  match seq with
  | [] => .error .value
  | s :: _ =>
    if ∀ t ∈ seq, t.length = s.length then
      (List.range s.length).mapM fun c => ND.stack (seq.filterMap fun t => t[c]?)
    else .error .value

/-- `/repo/src/ring/algorithms/generator/finalize_fns.py:269-272` `_flatten`; an array is a tuple of
length one -/
def _flatten (seq : List (List ND)) : Py ND := do
  let tree ← tree_batch seq
  let flat ← tree.mapM (ND.flattenFrom 3)
  let arr ← ND.concatLast flat
  arr.segmentsThird

/-- one pass of the loop `/repo/src/ring/algorithms/generator/finalize_fns.py:283-284` -/
def setDt (dt : ND) (x : String × Entry ND) : Py (String × Entry ND) :=
  match x.2 with
  | .leaf _ => .error .type
  | .dict d => .ok (x.1, .dict (d.set "dt" dt))

/-- `/repo/src/ring/algorithms/generator/finalize_fns.py:275-285` `_expand_dt` -/
def _expand_dt (X : Dict (Entry ND)) (T : Nat) : Py (Dict (Entry ND)) :=
  match List.lookup "dt" X with
  | none => .ok X
  | some (.dict _) => .error .type
  | some (.leaf dt) => do
    let dt ← dt.repeatTime T
    (X.del "dt").mapM (setDt dt)

/-- `X[k1][k2]` -/
def getSub (X : Dict (Entry ND)) (k1 k2 : String) : Py ND := do
  match ← pyDict X k1 with
  | .leaf _ => .error .index
  | .dict d => pyDict d k2

/-- `/repo/src/ring/algorithms/generator/finalize_fns.py:301-307` `dict_to_tuple` -/
def dict_to_tuple (e : Entry ND) : Py (List ND) :=
  match e with
  | .leaf _ => .error .index
  | .dict d => do
    let acc ← pyDict d "acc"
    let gyr ← pyDict d "gyr"
    pure ([acc, gyr] ++ (List.lookup "joint_axes" d).toList ++ (List.lookup "dt" d).toList)

/-- `tree_utils.add_batch_dim` -/
def addBatchDim (e : Entry ND) : Entry ND :=
  match e with
  | .leaf a => .leaf a.expand
  | .dict d => .dict (d.map fun x => (x.1, x.2.expand))

/-- lines `/repo/src/ring/algorithms/generator/finalize_fns.py:297-312`, for arrays with batch
dimension; `T` is `gyr.shape[-2]` -/
def flattenBatched (X : Dict (Entry ND)) (y : Dict ND) (T : Nat) : Py (ND × ND) := do
  let X ← _expand_dt X T
  let N := X.length
  let Xs ← (List.range N).mapM fun i => do
    let e ← pyDict X (toString i)
    dict_to_tuple e
  let ys ← (List.range N).mapM fun i => do
    let a ← pyDict y (toString i)
    pure [a]
  let X ← _flatten Xs
  let y ← _flatten ys
  pure (X, y)

/-- `/repo/src/ring/algorithms/generator/finalize_fns.py:288-315` `_expand_then_flatten` -/
def _expand_then_flatten (X : Dict (Entry ND)) (y : Dict ND) : Py (ND × ND) := do
  let gyr ← getSub X "0" "gyr"
  if gyr.shape.length < 2 then .error .index
  else
    let T := gyr.shape.dropLast.getLastD 0
    if gyr.shape.length = 2 then do
      let r ← flattenBatched (X.map fun x => (x.1, addBatchDim x.2))
        (y.map fun x => (x.1, x.2.expand)) T
      let X ← r.1.first
      let y ← r.2.first
      pure (X, y)
    else flattenBatched X y T

/-- `/repo/src/ring/algorithms/generator/finalize_fns.py:318-334, 337-340`
`GeneratorTrafoExpandFlatten`; `jit` makes no difference -/
def GeneratorTrafoExpandFlatten {K : Type} (gen : K → Py (Dict (Entry ND) × Dict ND)) (key : K) :
    Py (ND × ND) := do
  let Xy ← gen key
  _expand_then_flatten Xy.1 Xy.2

/-- `/repo/src/ring/utils/randomize_sys.py:108-119` `randomize_hz_finalize_fn_factory`; the user's
function gets the same arguments, and `dt` is the time step of the system -/
def randomize_hz_finalize_fn (finalize_fn_user : Option (Py (Dict (Entry ND) × Dict ND))) (dt : ℝ) :
    Py (Dict (Entry ND) × Dict ND) := do
  let Xy ← finalize_fn_user.getD (.ok ([], []))
  pyAssert ("dt" ∉ Dict.keys Xy.1)
  pure (Xy.1 ++ [("dt", .leaf ⟨[1], fun _ => dt⟩)], Xy.2)

end generator
end RingLib
