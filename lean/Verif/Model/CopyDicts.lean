import Verif.Model.Utils
import Verif.Model.System

/-!
# The options of a generator are copied: `_copy_dicts` of `/repo/src/ring/algorithms/generator/base.py`

A generator is built for every system of the list, all from the same option dicts. The builder writes into one of them. To
speak about this, dicts are objects in a heap: a value is an object's address or something else (`atom`: systems, numbers,
functions, lists of names). Objects are never removed. Only what the builder does with dicts is modelled here; what it
builds is in `Rcmg.lean`.
-/

namespace RingLib
namespace generator
open System

/-- a python value: a dict (its address) or anything else -/
inductive PVal where
  | atom (n : Int)
  | ref (a : Nat)
deriving DecidableEq, Repr

/-- the dicts that exist, and the address of the next one -/
structure Heap where
  next : Nat
  objs : Nat → Dict PVal

/-- a new dict -/
def Heap.alloc (h : Heap) (d : Dict PVal) : Nat × Heap :=
  (h.next, ⟨h.next + 1, fun a => if a = h.next then d else h.objs a⟩)

/-- `obj[k] = v` for the dict at `a` -/
def Heap.setitem (h : Heap) (a : Nat) (k : String) (v : PVal) : Heap :=
  ⟨h.next, fun b => if b = a then (h.objs a).set k v else h.objs b⟩

/-- `/repo/src/ring/algorithms/generator/base.py:266` `_copy` -/
def _copy (h : Heap) : PVal → PVal × Heap
  | .ref a => let r := h.alloc (h.objs a); (.ref r.1, r.2)
  | .atom n => (.atom n, h)

/-- `/repo/src/ring/algorithms/generator/base.py:268` `{k: _copy(v) for k, v in kwargs.items()}` -/
def copyKwargs (h : Heap) : Dict PVal → Dict PVal × Heap
  | [] => ([], h)
  | (k, v) :: rest =>
    let c := _copy h v
    let r := copyKwargs c.2 rest
    ((k, c.1) :: r.1, r.2)

/-- a function of keyword arguments that may change dicts -/
abbrev PyFun (β : Type) := Dict PVal → Heap → Py β × Heap

/-- `/repo/src/ring/algorithms/generator/base.py:264-271` `_copy_dicts`; the function that it decorates is only called with
keyword arguments -/
def _copy_dicts {β : Type} (f : PyFun β) : PyFun β := fun kwargs h =>
  let r := copyKwargs h kwargs
  f r.1 r.2

/-- `kwargs[k]` as the address of a dict -/
def dictArg (kwargs : Dict PVal) (k : String) : Py Nat :=
  match kwargs.lookup k with
  | some (.ref a) => .ok a
  | _ => .error .type

/-- `/repo/src/ring/algorithms/generator/base.py:312-318` what the builder does with its option dicts: with motion artifacts
it notes the names of the bodies that are not actuated. Returns the dict that the finalize function of the generator will
read (line 356). `unactuated` are the names, as given by `sys` (line 315). -/
def buildOptions (imu_motion_artifacts dynamic_simulation : Bool) (unactuated : PVal → PVal) : PyFun Nat := fun kwargs h =>
  match kwargs.lookup "sys", dictArg kwargs "dynamic_simulation_kwargs" with
  | some sys, .ok a =>
    if imu_motion_artifacts then
      if dynamic_simulation = false then (.error .assertion, h)
      else if "unactuated_subsystems" ∈ (h.objs a).keys then (.error .assertion, h)
      else (.ok a, h.setitem a "unactuated_subsystems" (unactuated sys))
    else (.ok a, h)
  | _, _ => (.error .type, h)

/-- `/repo/src/ring/algorithms/generator/base.py:63-95` the loop over the systems, with any function that builds;
`options` are the other keyword arguments -/
def buildAll {β : Type} (build : PyFun β) (options : Dict PVal) : List PVal → Heap → Py (List β) × Heap
  | [], h => (.ok [], h)
  | s :: ss, h =>
    match build (("sys", s) :: options) h with
    | (.error e, h) => (.error e, h)
    | (.ok b, h) =>
      match buildAll build options ss h with
      | (.error e, h) => (.error e, h)
      | (.ok bs, h) => (.ok (b :: bs), h)

end generator
end RingLib
