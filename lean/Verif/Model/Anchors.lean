import Verif.Model.MorphSystem
import Verif.Model.Surgery

/-!
# `/repo/src/ring/utils/randomize_sys.py`: every way to hold the trees of a system
-/

namespace RingLib
namespace randomize
open System
variable {α π : Type}

/-- `/repo/src/ring/utils/randomize_sys.py:15-26` `_find_children`; the recursion is the one of
`find_childs_of` in `morph_sys.py` -/
def _find_children (lam : List Int) (body : Int) : Py (List Nat) :=
  morph.findChildsOf lam (lam.length + 1) body

/-- the condition `/repo/src/ring/utils/randomize_sys.py:33` -/
def inSubsys (s : System α π) (body_i i : Nat) : Py Bool :=
  if body_i = i then .ok true
  else do
    let l ← _find_children s.link_parents i
    pure (decide (body_i ∈ l))

/-- the loop `/repo/src/ring/utils/randomize_sys.py:31-34`; it may end without a `return` -/
def findRoot (s : System α π) (body_i : Nat) : List (Int × Nat) → Py (Option String)
  | [] => .ok none
  | (p, i) :: rest =>
    if p = -1 then do
      let found ← inSubsys s body_i i
      if found then do
        let name ← s.idx_to_name i
        pure (some name)
      else findRoot s body_i rest
    else findRoot s body_i rest

/-- `/repo/src/ring/utils/randomize_sys.py:29-34` `_find_root_of_subsys_that_contains_body` -/
def _find_root_of_subsys_that_contains_body (s : System α π) (body : String) : Py (Option String) := do
  let body_i ← s.name_to_idx body
  findRoot s body_i s.link_parents.zipIdx

/-- `/repo/src/ring/utils/randomize_sys.py:37-49` `_assign_anchors_to_subsys` -/
def _assign_anchors_to_subsys (s : System α π) (anchors : List String) : Py (List (List String)) :=
  (s.link_parents.zipIdx.filter fun x => x.1 = -1).mapM fun x => do
    let children ← _find_children s.link_parents x.2
    let link_idxs_subsys := x.2 :: children
    let link_names_subsys ← link_idxs_subsys.mapM fun (i : Nat) => s.idx_to_name i
    let anchors_this_subsys := anchors.filter fun name => name ∈ link_names_subsys
    if anchors_this_subsys.length = 0 then do
      let name ← s.idx_to_name x.2
      pure [name]
    else pure anchors_this_subsys

/-- `/repo/src/ring/utils/randomize_sys.py:52-56` `_morph_extract_subsys`. The names of links are different,
so `set(roots)` is the list; python lists a set in an order `listed` that it does not specify. -/
def _morph_extract_subsys [Field α] (E : JEnv α π) (listed : List String → List String)
    (s : System α π) (anchor : String) : Py (System α π) := do
  let root ← _find_root_of_subsys_that_contains_body s anchor
  let roots ← s.findall_bodies_to_world.mapM fun (i : Nat) => s.idx_to_name i
  let subsys ← delete_subsystems E.toEnv s (listed (roots.filter fun name => some name ≠ root))
  morph.morph_system E subsys (.new_anchor (.inr anchor))

/-- `itertools.product`: the last entry changes fastest -/
def product {β : Type} : List (List β) → List (List β)
  | [] => [[]]
  | l :: ls => l.flatMap fun x => (product ls).map fun xs => x :: xs

/-- one pass of the loop `/repo/src/ring/utils/randomize_sys.py:68-72` -/
def hold [Field α] (E : JEnv α π) (listed : List String → List String) (s : System α π)
    (anchors_subsys : List String) : Py (System α π) := do
  let first ← pyGet anchors_subsys 0
  let sys_mod ← _morph_extract_subsys E listed s first
  (anchors_subsys.drop 1).foldlM (fun sys_mod anchor_subsys => do
    let other ← _morph_extract_subsys E listed s anchor_subsys
    inject_system E.toEnv sys_mod other) sys_mod

/-- `/repo/src/ring/utils/randomize_sys.py:59-74` `randomize_anchors` -/
def randomize_anchors [Field α] (E : JEnv α π) (listed : List String → List String) (s : System α π)
    (anchors : Option (List String) := none) : Py (List (System α π)) := do
  let anchors := anchors.getD s.findall_segments
  let anchors ← _assign_anchors_to_subsys s anchors
  (product anchors).mapM (hold E listed s)

end randomize
end RingLib
