import Verif.Model.Py
import Verif.Model.Random

/-!
# Dictionaries and lists of samples

`dict_union`, `dict_to_nested` and `replace_elements_w_nans` of `/repo/src/ring/utils/utils.py`,
`_rename_links` of `/repo/src/ring/algorithms/generator/finalize_fns.py`.

* A python dictionary is the list of its items in insertion order.
* `pytree_deepcopy` (`/repo/src/ring/utils/utils.py:115-130`) is the identity on values; that the
  arguments of a function which copies them first are left alone is built into the model.
* Warnings and printing are not modelled.
-/

namespace RingLib

/-! ## python dictionaries -/

/-- a dictionary with its items in insertion order -/
abbrev Dict (β : Type _) := List (String × β)

namespace Dict
variable {β : Type _}

/-- `list(d.keys())` -/
def keys (d : Dict β) : List String := d.map Prod.fst

/-- `d[k] = v`: a key that is present keeps its place -/
def set (d : Dict β) (k : String) (v : β) : Dict β :=
  if k ∈ d.keys then d.map fun x => if x.1 = k then (k, v) else x else d ++ [(k, v)]

/-- `d.update(e)` -/
def update (d e : Dict β) : Dict β := e.foldl (fun d x => d.set x.1 x.2) d

/-- `del d[k]` -/
def del (d : Dict β) (k : String) : Dict β := d.filter fun x => x.1 ≠ k

/-- `d.pop(k)`, the value and what is left -/
def pop (d : Dict β) (k : String) : Py (β × Dict β) := do
  let v ← pyDict d k
  .ok (v, d.del k)

end Dict

namespace utils
variable {β : Type}

/-! ## unions of nested dictionaries -/

/-- A value of a dictionary of depth at most two: an array or a dictionary of arrays. -/
inductive Entry (β : Type) where
  | leaf (x : β)
  | dict (d : Dict β)

/-- One pass of the loop of `dict_union`, `/repo/src/ring/utils/utils.py:81-94`. -/
def unionStep (overwrite : Bool) (d1 : Dict (Entry β)) (x : String × Entry β) :
    Py (Dict (Entry β)) :=
  match d1.lookup x.1 with
  | none => .ok (d1.set x.1 x.2)
  | some (.dict n1) =>
    match x.2 with
    | .dict n2 => do
      if overwrite then .ok () else n2.forM fun y => pyAssert (y.1 ∉ n1.keys)
      .ok (d1.set x.1 (.dict (n1.update n2)))
    | .leaf _ => .error .other
  | some (.leaf _) => .error .other

/-- `/repo/src/ring/utils/utils.py:71-95` `dict_union`. -/
def dict_union (d1 d2 : Dict (Entry β)) (overwrite : Bool := false) : Py (Dict (Entry β)) :=
  d2.foldlM (unionStep overwrite) d1

/-- `/repo/src/ring/utils/utils.py:98-102` `dict_to_nested`. -/
def dict_to_nested (d : Dict β) (add_key : String) : Dict (Entry β) :=
  d.map fun x => (x.1, .dict [(add_key, x.2)])

/-! ## NaN samples -/

/-- What `random.choice(include_elements)` points at on its `t`-th call, where `choice t n` is the
position drawn among `n`. -/
def chosen (choice : Nat → Nat → Nat) (list_of_data : List β) (include_elements : List Nat)
    (t : Nat) : Option β :=
  (include_elements[choice t include_elements.length]?).bind fun j => list_of_data[j]?

/-- The `while True` loop, `/repo/src/ring/utils/utils.py:221-226`: the element found and the number
of calls of `random.choice` made so far; `none` if the loop does not end. -/
noncomputable def findGood (isnan : β → Bool) (choice : Nat → Nat → Nat) (list_of_data : List β)
    (include_elements : List Nat) (t : Nat) : Option (β × Nat) :=
  (whileLoop (fun t : Nat => ∀ x, chosen choice list_of_data include_elements t = some x →
    isnan x = true) (fun t => t + 1) t).bind fun t =>
  (chosen choice list_of_data include_elements t).map fun x => (x, t + 1)

/-- The loop over all elements, `/repo/src/ring/utils/utils.py:218-227`. -/
noncomputable def replaceLoop (isnan : β → Bool) (choice : Nat → Nat → Nat) (list_of_data : List β)
    (include_elements : List Nat) : List β → Nat → Option (List β)
  | [], _ => some []
  | ele :: rest, t =>
    if isnan ele = true then
      (findGood isnan choice list_of_data include_elements t).bind fun r =>
      (replaceLoop isnan choice list_of_data include_elements rest r.2).map (r.1 :: ·)
    else (replaceLoop isnan choice list_of_data include_elements rest t).map (ele :: ·)

/-- `/repo/src/ring/utils/utils.py:188-228` `replace_elements_w_nans`. `isnan` tells whether a sample
contains a NaN; the outer `none` stands for a loop without end. -/
noncomputable def replace_elements_w_nans (isnan : β → Bool) (choice : Nat → Nat → Nat)
    (list_of_data : List β) (include_elements : Option (List Int)) : Option (Py (List β)) :=
  let include_elements := include_elements.getD
    ((List.range list_of_data.length).map fun i : Nat => (i : Int))
  if include_elements = [] then some (.error .value)
  else if ¬ ∀ i ∈ include_elements, 0 ≤ i then some (.error .assertion)
  else if ¬ ∀ i ∈ include_elements, i < list_of_data.length then some (.error .assertion)
  else
    let n_isnan := list_of_data.countP fun x => isnan x
    if 2 * list_of_data.length ≤ 100 * n_isnan ∧ n_isnan = list_of_data.length then
      some (.error .assertion)
    else (replaceLoop isnan choice list_of_data (include_elements.map Int.toNat) list_of_data 0).map
      .ok

end utils

namespace generator
variable {β : Type}

/-! ## links by number -/

/-- One pass of the loop of `_rename_links`,
`/repo/src/ring/algorithms/generator/finalize_fns.py:30-37`. -/
def renameStep (names : List String) (d : Dict β) (key : String) : Py (Dict β) :=
  if key ∈ names then do
    let r ← d.pop key
    .ok (r.2.set (toString (names.idxOf key)) r.1)
  else .ok d

/-- `/repo/src/ring/algorithms/generator/finalize_fns.py:29-39` `_rename_links`. -/
def _rename_links (d : Dict β) (names : List String) : Py (Dict β) :=
  d.keys.foldlM (renameStep names) d

/-- `/repo/src/ring/algorithms/generator/finalize_fns.py:42-50` `Names2Indices`; `link_names` are those
of the system without IMUs. -/
def Names2Indices (link_names : List String) (X y : Dict β) : Py (Dict β × Dict β) := do
  let X ← _rename_links X link_names
  let y ← _rename_links y link_names
  .ok (X, y)

end generator
end RingLib
