import Verif.Model.System

/-!
# `/repo/src/ring/sys_composer/morph_sys.py`: the tree

Functions that call themselves get fuel; with the fuel given here it never runs out, see
`findChildsOf_ok` and `C07_reroot`. (python itself stops at a depth of about a thousand calls.)
-/

namespace RingLib
namespace morph
open System
variable {α π : Type}

/-! ## re-rooting -/

/-- `lam[i] == body or lam[body] == i`, `/repo/src/ring/sys_composer/morph_sys.py:21` -/
def connected (lam : List Int) (i body : Nat) : Py Bool :=
  if lam[i]? = some (body : Int) then .ok true
  else do
    let p ← pyGet lam (body : Int)
    pure (decide (p = (i : Int)))

/-- `_connections`, `/repo/src/ring/sys_composer/morph_sys.py:16-24`; the dictionary `new_lam` is passed
along. -/
def connections (lam : List Int) : Nat → Nat → Option Nat → List (Nat × Int) → Py (List (Nat × Int))
  | 0, _, _, _ => .error .recursion
  | fuel + 1, body, exclude, new_lam =>
    (List.range lam.length).foldlM (fun d i =>
      if exclude = some i then .ok d
      else do
        let c ← connected lam i body
        if c then do
          pyAssert (i ∉ d.map Prod.fst)
          connections lam fuel i (some body) (d ++ [(i, (body : Int))])
        else .ok d) new_lam

/-- `/repo/src/ring/sys_composer/morph_sys.py:11-27` `_autodetermine_new_parents`; `new_anchor` is
not negative. -/
def _autodetermine_new_parents (lam : List Int) (new_anchor : Nat) : Py (List Int) := do
  let new_lam ← connections lam (lam.length + 1) new_anchor none [(new_anchor, -1)]
  (List.range lam.length).mapM fun i => pyDict new_lam i

/-! ## renumbering -/

/-- `find_childs_of`, `/repo/src/ring/sys_composer/morph_sys.py:36-40`: the indices that are appended -/
def findChildsOf (new_parents : List Int) : Nat → Int → Py (List Nat)
  | 0, _ => .error .recursion
  | fuel + 1, parent => do
    let ls ← ((List.range new_parents.length).filter fun i => new_parents[i]? = some parent).mapM
      fun (i : Nat) => do
        let l ← findChildsOf new_parents fuel (i : Int)
        pure (i :: l)
    pure ls.flatten

/-- `/repo/src/ring/sys_composer/morph_sys.py:30-43` `_new_to_old_indices` -/
def _new_to_old_indices (new_parents : List Int) : Py (List Int) := do
  let new_indices ← findChildsOf new_parents (new_parents.length + 1) (-1)
  pure (new_indices.map Int.ofNat ++ [-1])

/-- `/repo/src/ring/sys_composer/morph_sys.py:46-51` `_old_to_new_indices` -/
def _old_to_new_indices (new_parents : List Int) : Py (List Int) := do
  let new_to_old_indices ← _new_to_old_indices new_parents
  let old_to_new_indices ← (List.range new_parents.length).mapM fun (new : Nat) =>
    pyIndex new_to_old_indices (new : Int)
  pure (old_to_new_indices.map Int.ofNat ++ [-1])

/-- `/repo/src/ring/sys_composer/morph_sys.py:54-61` `Node` -/
structure Node where
  link_idx_old_indices : Int
  link_idx_new_indices : Int
  old_parent_old_indices : Int
  old_parent_new_indices : Int
  new_parent_old_indices : Int
  new_parent_new_indices : Int
  parent_changed : Bool

/-- `/repo/src/ring/sys_composer/morph_sys.py:67-69`: names are replaced by numbers -/
def resolveParent (s : System α π) : Int ⊕ String → Py Int
  | .inl i => .ok i
  | .inr name => do
    let i ← s.name_to_idx name
    pure (i : Int)

/-- the check of one link, `/repo/src/ring/sys_composer/morph_sys.py:90-97` -/
def checkParent (s : System α π) (checks : Bool) (node : Node) : Py Unit :=
  if checks = true ∧ node.parent_changed = true ∧ node.new_parent_old_indices ≠ -1 then do
    let p ← pyGet s.link_parents node.new_parent_old_indices
    pyAssert (p = node.link_idx_old_indices)
  else .ok ()

/-- One pass of the loop of `identify_system`, `/repo/src/ring/sys_composer/morph_sys.py:74-97` -/
def identifyLink (s : System α π) (checks : Bool) (new_parents_old_indices old_to_new : List Int)
    (link_idx_old_indices : Nat) : Py Node := do
  let old_parent_old_indices ← pyGet s.link_parents (link_idx_old_indices : Int)
  let new_parent_old_indices ← pyGet new_parents_old_indices (link_idx_old_indices : Int)
  let a ← pyGet old_to_new (link_idx_old_indices : Int)
  let b ← pyGet old_to_new old_parent_old_indices
  let c ← pyGet old_to_new new_parent_old_indices
  let node : Node := ⟨link_idx_old_indices, a, old_parent_old_indices, b, new_parent_old_indices, c,
    decide (new_parent_old_indices ≠ old_parent_old_indices)⟩
  checkParent s checks node
  pure node

/-- `/repo/src/ring/sys_composer/morph_sys.py:64-108` `identify_system` -/
def identify_system (s : System α π) (new_parents : List (Int ⊕ String)) (checks : Bool := true) :
    Py (List Node × List Int × List Int) := do
  let new_parents_old_indices ← new_parents.mapM (resolveParent s)
  let new_to_old ← _new_to_old_indices new_parents_old_indices
  let old_to_new ← _old_to_new_indices new_parents_old_indices
  let structure_ ← (List.range s.num_links).mapM
    (identifyLink s checks new_parents_old_indices old_to_new)
  let permutation := new_to_old.dropLast
  let new_parents_array_old_indices ← permutation.mapM fun i => pyGet new_parents_old_indices i
  let np ← new_parents_array_old_indices.mapM fun p => pyGet old_to_new p
  pure (structure_, permutation, np)

end morph
end RingLib
