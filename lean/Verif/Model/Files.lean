import Verif.Model.Utils

/-!
# Paths and files

`/repo/src/ring/utils/path.py`, `pickle_save` of `/repo/src/ring/utils/utils.py`, `_parse_path` of
`/repo/src/ring/utils/hdf5.py` and `RCMG.to_folder` of
`/repo/src/ring/algorithms/generator/base.py`.

* A path is the list of its components; `os.path.expanduser` and the parsing of strings into components
  are not modelled (paths are given home-expanded and parsed).
* A file system maps paths to files or directories; permissions, links, a full disk and other processes
  are not modelled. The working directory and the root exist.
* A function that touches the file system returns its result together with the new file system, also
  when it raises.
-/

namespace RingLib

/-- `pathlib.Path` -/
structure FPath where
  absolute : Bool
  parts : List String
deriving DecidableEq

namespace FPath

/-- `path.name` -/
def name (p : FPath) : String := p.parts.getLast?.getD ""

/-- `path.parent` -/
def parent (p : FPath) : FPath := { p with parts := p.parts.dropLast }

/-- `path.joinpath(q)` -/
def joinpath (p q : FPath) : FPath := if q.absolute then q else { p with parts := p.parts ++ q.parts }

/-- what follows the last dot -/
def afterDot (name : List Char) : List Char := (name.reverse.takeWhile (· ≠ '.')).reverse

/-- Position of the dot that starts the suffix, if there is one: the last dot, unless it is the first
or the last character. -/
def suffixStart (name : List Char) : Option Nat :=
  let n := (afterDot name).length
  if n = name.length ∨ n = 0 ∨ n + 1 = name.length then none else some (name.length - 1 - n)

/-- the name without its suffix -/
def stem (name : List Char) : List Char :=
  match suffixStart name with
  | none => name
  | some i => name.take i

/-- `path.with_suffix(suffix)` -/
def with_suffix (p : FPath) (suffix : String) : Py FPath :=
  if '/' ∈ suffix.toList then .error .value
  else if suffix ≠ "" ∧ suffix.toList.head? ≠ some '.' ∨ suffix = "." then .error .value
  else if p.name = "" then .error .value
  else .ok { p with parts := p.parts.dropLast ++ [String.ofList (stem p.name.toList ++ suffix.toList)] }

end FPath

/-- what a path may point at -/
inductive Node (γ : Type) where
  | file (content : γ)
  | dir

/-- a file system -/
abbrev FS (γ : Type) := FPath → Option (Node γ)

namespace FS
variable {γ : Type}

/-- put something at a path -/
def set (fs : FS γ) (p : FPath) (n : Node γ) : FS γ := fun q => if q = p then some n else fs q

/-- `path.is_dir()` -/
def isDir (fs : FS γ) (p : FPath) : Bool :=
  p.parts = [] || match fs p with
    | some .dir => true
    | _ => false

/-- `path.is_file()` -/
def isFile (fs : FS γ) (p : FPath) : Bool :=
  match fs p with
  | some (.file _) => true
  | _ => false

/-- `os.path.exists(path)` -/
def exists? (fs : FS γ) (p : FPath) : Bool := p.parts = [] || (fs p).isSome

/-- `path.mkdir(parents=True, exist_ok=True)`: `todo` are the components still to be walked down from
the existing directory `done`. -/
def mkdirFrom (fs : FS γ) (absolute : Bool) : List String → List String → Py Unit × FS γ
  | _, [] => (.ok (), fs)
  | done, c :: todo =>
    let p : FPath := ⟨absolute, done ++ [c]⟩
    match fs p with
    | some .dir => mkdirFrom fs absolute (done ++ [c]) todo
    | some (.file _) => (.error .fileExists, fs)
    | none => mkdirFrom (fs.set p .dir) absolute (done ++ [c]) todo

/-- `path.mkdir(parents=True, exist_ok=True)` -/
def mkdir (fs : FS γ) (p : FPath) : Py Unit × FS γ := mkdirFrom fs p.absolute [] p.parts

/-- `open(path, "wb")` and writing -/
def write (fs : FS γ) (p : FPath) (content : γ) : Py Unit × FS γ :=
  if fs.isDir p = true ∨ fs.isDir p.parent = false then (.error .other, fs)
  else (.ok (), fs.set p (.file content))

end FS

namespace utils
variable {γ : Type}

/-- The extension with its dot, `/repo/src/ring/utils/path.py:39-40`. -/
def dotted (extension : String) : String :=
  if extension ≠ "" then
    if extension.toList.head? ≠ some '.' then "." ++ extension else extension
  else extension

/-- `/repo/src/ring/utils/path.py:7-62` `parse_path` -/
def parse_path (fs : FS γ) (path : FPath) (join_paths : List FPath) (extension : Option String)
    (file_exists_ok mkdir require_is_file : Bool) : Py FPath × FS γ :=
  let path := join_paths.foldl FPath.joinpath path
  match (match extension with
    | some extension => path.with_suffix (dotted extension)
    | none => .ok path) with
  | .error e => (.error e, fs)
  | .ok path =>
    if file_exists_ok = false ∧ fs.exists? path = true then (.error .fileExists, fs)
    else match (if mkdir then fs.mkdir path.parent else (.ok (), fs)) with
      | (.error e, fs) => (.error e, fs)
      | (.ok _, fs) =>
        if require_is_file = true ∧ fs.isFile path = false then (.error .assertion, fs)
        else (.ok path, fs)

/-- `/repo/src/ring/utils/utils.py:153-156` `pickle_save` -/
def pickle_save (fs : FS γ) (obj : γ) (path : FPath) (overwrite : Bool) : Py Unit × FS γ :=
  match parse_path fs path [] (some "pickle") overwrite true false with
  | (.error e, fs) => (.error e, fs)
  | (.ok path, fs) => fs.write path obj

/-- `/repo/src/ring/utils/utils.py:159-165` `pickle_load` -/
def pickle_load (fs : FS γ) (path : FPath) : Py γ × FS γ :=
  match parse_path fs path [] (some "pickle") true true true with
  | (.error e, fs) => (.error e, fs)
  | (.ok path, fs) =>
    match fs path with
    | some (.file c) => (.ok c, fs)
    | _ => (.error .other, fs)

end utils

namespace generator
variable {γ : Type}

/-- The loop over the sequences of one call of the callback in `to_folder`,
`/repo/src/ring/algorithms/generator/base.py:205-210`; `i` counts the files. Sequences with NaNs have
been replaced before; `file_prefix` contains no slash. -/
def toFolderLoop (path : FPath) (overwrite : Bool) (file_prefix : String)
    (save_fn : FS γ → γ → FPath → Py Unit × FS γ) : FS γ → Nat → List γ → Py Nat × FS γ
  | fs, i, [] => (.ok i, fs)
  | fs, i, d :: data =>
    match utils.parse_path fs path [⟨false, [file_prefix ++ toString i]⟩] none overwrite true false with
    | (.error e, fs) => (.error e, fs)
    | (.ok file, fs) =>
      match save_fn fs d file with
      | (.error e, fs) => (.error e, fs)
      | (.ok _, fs) => toFolderLoop path overwrite file_prefix save_fn fs (i + 1) data

/-- `/repo/src/ring/algorithms/generator/base.py:187-213` `RCMG.to_folder`, given the sequences of all
calls of the generators one after the other. The default `save_fn` is
`partial(utils.pickle_save, overwrite=True)`. -/
def to_folder (fs : FS γ) (path : FPath) (overwrite : Bool) (file_prefix : String)
    (save_fn : FS γ → γ → FPath → Py Unit × FS γ) (data : List γ) : Py Nat × FS γ :=
  toFolderLoop path overwrite file_prefix save_fn fs 0 data

/-- the default of the argument `save_fn` of `to_folder`,
`/repo/src/ring/algorithms/generator/base.py:194-196` -/
def default_save_fn (fs : FS γ) (d : γ) (file : FPath) : Py Unit × FS γ :=
  utils.pickle_save fs d file true

end generator
end RingLib
