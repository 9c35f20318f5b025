/-!
# Python primitives

Exceptions are values: a python function which may raise is a function into `Py`.
-/

namespace RingLib

/-- The exception classes that occur in the modelled code (messages are not modelled). -/
inductive PyErr where
  | assertion | key | value | index | type | attribute | notImplemented | recursion
  | zeroDivision | runtime | invalidSystem | fileExists | other
deriving DecidableEq, Repr

abbrev Py (α : Type _) := Except PyErr α

/-- `assert p` -/
def pyAssert (p : Prop) [Decidable p] : Py Unit := if p then .ok () else .error .assertion

/-- `l[i]` on a python list: negative indices count from the end, out of range raises
`IndexError`. -/
def pyGet {β : Type _} (l : List β) (i : Int) : Py β :=
  let j := if i < 0 then i + l.length else i
  if j < 0 then .error .index
  else match l[j.toNat]? with
    | some x => .ok x
    | none => .error .index

/-- `l.index(x)`: first position, `ValueError` when absent. -/
def pyIndex {β : Type _} [DecidableEq β] (l : List β) (x : β) : Py Nat :=
  match l.idxOf? x with
  | some i => .ok i
  | none => .error .value

/-- `d[k]` on a dictionary given as association list (first match). -/
def pyDict {κ β : Type _} [DecidableEq κ] (d : List (κ × β)) (k : κ) : Py β :=
  match d.lookup k with
  | some v => .ok v
  | none => .error .key

/-- `x[idx]` for a jax array and an integer index array: out-of-range indices are clamped (an
empty array yields nothing). -/
def jaxTake {β : Type _} (l : List β) (idxs : List Nat) : List β :=
  idxs.filterMap fun i => l[min i (l.length - 1)]?

/-- `jnp.concatenate`: raises `ValueError` on an empty sequence. -/
def jnpConcatenate {β : Type _} (ls : List (List β)) : Py (List β) :=
  match ls with
  | [] => .error .value
  | _ => .ok ls.flatten

end RingLib
