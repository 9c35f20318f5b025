import Verif.Model.Files
import Verif.Model.Filters

/-!
# Filters as objects: names, attributes, saving and loading

`/repo/src/ring/ml/base.py:25-145` and the class `RING`, `/repo/src/ring/ml/ringnet.py:202-297`.

Methods that change the object return the changed object besides their result. `None` is an object
here, because a wrapper can come to contain it. What pickles cannot contain, a compiled `apply`, is the
flag `jit`.
-/

namespace RingLib.ml
open utils

variable {P W V : Type}

/-- A filter, a wrapper, or `None`. -/
inductive FObj (P W : Type) where
  /-- a `RING`, `/repo/src/ring/ml/ringnet.py:202-219` -/
  | ring (r : RING P) (jit : Bool) (name : Option String)
  /-- a filter that overrides neither `nojit` nor `_pre_save` nor `_post_load`; `name` is the attribute
  `_name`, if there is one. -/
  | plain (f : Filter P) (name : Option (Option String))
  /-- a wrapper with its own attributes `w`, `/repo/src/ring/ml/base.py:102-105` -/
  | wrapper (w : W) (name : Option String) (filter : FObj P W)
  | none

namespace FObj

/-- `/repo/src/ring/ml/base.py:49-56` `AbstractFilter.name`, of the attribute `_name` -/
def ownName (name : Option (Option String)) : Py String :=
  match name with
  | Option.none => .error .notImplemented
  | some Option.none => .error .runtime
  | some (some name) => .ok name

/-- the property `name`, `/repo/src/ring/ml/base.py:49-56`, `/repo/src/ring/ml/base.py:139-141` -/
def name : FObj P W → Py String
  | ring _ _ n => ownName (some n)
  | plain _ n => ownName n
  | wrapper _ n filter => do
    let inner ← filter.name
    let own ← ownName (some n)
    pure (inner ++ " ->\n" ++ own)
  | none => .error .attribute

/-- `nojit`, `/repo/src/ring/ml/base.py:58-59`, `/repo/src/ring/ml/base.py:120-122`,
`/repo/src/ring/ml/ringnet.py:282-285`: the result, and the object afterwards -/
def nojit : FObj P W → Py (FObj P W × FObj P W)
  | ring r jit n => .ok (ring r false Option.none, ring r jit n)
  | plain f n => .ok (plain f n, plain f n)
  | wrapper w n filter => do
    let inner ← filter.nojit
    pure (wrapper w n inner.1, wrapper w n inner.1)
  | none => .error .attribute

/-- the arguments of `save`: `params` and `lam`, `None` if not given -/
structure SaveArgs (P : Type) where
  params : Option P := Option.none
  lam : Option (List Int) := Option.none

/-- `_pre_save`, `/repo/src/ring/ml/base.py:61-62`, `/repo/src/ring/ml/base.py:129-130`,
`/repo/src/ring/ml/ringnet.py:287-291`: the object afterwards -/
def _pre_save (args : SaveArgs P) : FObj P W → Py (FObj P W)
  | ring r jit n => .ok (ring { r with
      params := args.params.orElse fun _ => r.params
      lam := args.lam.orElse fun _ => r.lam } jit n)
  | plain f n => .ok (plain f n)
  | wrapper w n filter => do
    let inner ← filter._pre_save args
    pure (wrapper w n inner)
  | none => .error .attribute

/-- `/repo/src/ring/ml/base.py:64-66` `save`: the file system and the object afterwards -/
def save (fs : FS (FObj P W)) (path : FPath) (args : SaveArgs P) (self : FObj P W) :
    Py (FS (FObj P W) × FObj P W) := do
  let self ← self._pre_save args
  let r ← self.nojit
  match pickle_save fs r.1 path true with
  | (.error e, _) => .error e
  | (.ok _, fs) => pure (fs, r.2)

/-- The classes on which `load` is called. -/
inductive Cls | ring | wrapper | plain
deriving DecidableEq

/-- the class of an object, as far as `_post_load` is concerned -/
def cls : FObj P W → Option Cls
  | ring .. => some .ring
  | plain .. => some .plain
  | wrapper .. => some .wrapper
  | none => Option.none

/-- `_post_load` of the object's own class, `/repo/src/ring/ml/base.py:68-70`,
`/repo/src/ring/ml/base.py:132-137`, `/repo/src/ring/ml/ringnet.py:293-297`; `AbstractFilter._post_load`
returns `None`. -/
def _post_load (jit : Bool) : FObj P W → Py (FObj P W)
  | ring r j n => .ok (ring r (jit || j) n)
  | plain _ _ => .ok none
  | wrapper w n filter => do
    let inner ← filter._post_load jit
    pure (wrapper w n inner)
  | none => .error .attribute

/-- `cls._post_load(filter)`: the method of the class on which `load` was called, which need not be that
of the object. A wrapper whose `apply` is compiled by `RING._post_load` works as before. -/
def postLoadAs (c : Cls) (jit : Bool) (filter : FObj P W) : Py (FObj P W) :=
  match c, filter with
  | .plain, _ => .ok none
  | .ring, ring r j n => .ok (ring r (jit || j) n)
  | .ring, none => if jit then .error .attribute else .ok none
  | .ring, filter => .ok filter
  | .wrapper, wrapper w n filter => do
    let inner ← filter._post_load jit
    pure (wrapper w n inner)
  | .wrapper, _ => .error .attribute

/-- `/repo/src/ring/ml/base.py:72-75` `load` -/
def load (fs : FS (FObj P W)) (c : Cls) (path : FPath) (jit : Bool := true) : Py (FObj P W) := do
  let filter ← (pickle_load fs path).1
  postLoadAs c jit filter

/-- `search_attr`, `/repo/src/ring/ml/base.py:77-78`, `/repo/src/ring/ml/base.py:124-127`; `attr` gives
the object's own attribute. -/
def search_attr (attr : FObj P W → Option V) : FObj P W → Py V
  | wrapper w n filter => match attr (wrapper w n filter) with
    | some v => .ok v
    | Option.none => filter.search_attr attr
  | o => match attr o with
    | some v => .ok v
    | Option.none => .error .attribute

/-- `unwrapped_deep`, `/repo/src/ring/ml/base.py:80-82`, `/repo/src/ring/ml/base.py:143-145` -/
def unwrapped_deep : FObj P W → Py (FObj P W)
  | wrapper _ _ filter => filter.unwrapped_deep
  | none => .error .attribute
  | o => .ok o

/-- what the object does as a filter; `wrap` is what the wrapper makes of a filter. -/
def filter (wrap : W → Filter P → Filter P) : FObj P W → Option (Filter P)
  | ring r _ _ => some r.filter
  | plain f _ => some f
  | wrapper w _ o => (o.filter wrap).map (wrap w)
  | none => Option.none

end FObj
end RingLib.ml
