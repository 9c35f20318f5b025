import Verif.Model.Files
import Verif.Model.Xml

/-!
# Systems in files

`System.create`, `from_xml`, `from_str`, `to_xml` of `/repo/src/ring/base.py`, the functions of
`/repo/src/ring/io/xml/from_xml.py` and `to_xml.py` that touch files, the comments of a model file, and
`/repo/src/ring/io/examples.py`.

* `ElementTree.fromstring` and `toprettyxml` are parameters (`XmlText`); so are `jax.random.PRNGKey` and
  the joints (`JointInit`).
* `os.path.expanduser` replaces a first component `~` by the home directory; `~name` is left alone.
* A name longer than the system allows is a path that does not exist: `System.create` catches the
  `OSError` and goes on as if it did not.
* `os.listdir` is a function from directories to names; `set` and `sort` of names are `dedup` and a sort
  by `<` on strings.
* Warnings are not modelled.
-/

namespace RingLib

/-- `s.split(c)` for a single character -/
def splitChar (c : Char) : List Char → List (List Char)
  | [] => [[]]
  | x :: xs =>
    if x = c then [] :: splitChar c xs
    else match splitChar c xs with
      | [] => [[x]]
      | w :: ws => (x :: w) :: ws

/-- `s.split(c)` on strings -/
def pySplitChar (c : Char) (s : String) : List String := (splitChar c s.toList).map String.ofList

/-- `pathlib.Path(s)`: empty components and `.` are dropped. -/
def FPath.ofStr (s : String) : FPath :=
  ⟨decide (s.toList.head? = some '/'), (pySplitChar '/' s).filter fun c => c ≠ "" ∧ c ≠ "."⟩

/-- `os.path.expanduser(path)` -/
def FPath.expanduser (home p : FPath) : FPath :=
  match p.absolute, p.parts with
  | false, "~" :: rest => home.joinpath ⟨false, rest⟩
  | _, _ => p

namespace io
open System
variable {α π K : Type} [Field α] [DecidableEq α]

/-- The library around the code: `ElementTree.fromstring`, `toprettyxml`, `jax.random.PRNGKey`, the home
directory. -/
structure XmlText (K : Type) where
  fromstring : String → Py (Xml String)
  topretty : Xml String → String
  prngKey : Int → K
  home : FPath

variable (E : Env α π) (T : Txt α) (J : JointInit π K) (L : XmlText K)

/-- `/repo/src/ring/base.py:786-787` `System.from_str`,
`/repo/src/ring/io/xml/from_xml.py:130-259` from the text -/
def from_str (xml : String) (seed : Int := 1) : Py (System α π) := do
  let tree ← L.fromstring xml
  load_sys_from_str E T J (L.prngKey seed) tree

/-- `open(path, "r")` and reading -/
def readText (fs : FS String) (p : FPath) : Py String :=
  match fs p with
  | some (.file c) => .ok c
  | _ => .error .other

/-- `/repo/src/ring/io/xml/from_xml.py:266-270` `_load_xml` -/
def _load_xml (fs : FS String) (xml_path : FPath) : Py String × FS String :=
  match utils.parse_path fs (FPath.expanduser L.home xml_path) [] (some "xml") true true false with
  | (.error e, fs) => (.error e, fs)
  | (.ok xml_path, fs) => (readText fs xml_path, fs)

/-- `/repo/src/ring/base.py:782-783` `System.from_xml`,
`/repo/src/ring/io/xml/from_xml.py:262-263` `load_sys_from_xml` -/
def from_xml (fs : FS String) (path : FPath) (seed : Int := 1) : Py (System α π) × FS String :=
  match _load_xml L fs path with
  | (.error e, fs) => (.error e, fs)
  | (.ok xml, fs) => (from_str E T J L xml seed, fs)

/-- `/repo/src/ring/base.py:789-790` `System.to_str` -/
def to_str (s : System α π) : Py String := do
  let x_xy ← save_sys_to_str E T s
  pure (L.topretty x_xy)

/-- `/repo/src/ring/base.py:792-793` `System.to_xml`,
`/repo/src/ring/io/xml/to_xml.py:91-94` `save_sys_to_xml`. The text is made before the file is opened. -/
def to_xml (fs : FS String) (s : System α π) (path : FPath) : Py Unit × FS String :=
  match to_str E T L s with
  | .error e => (.error e, fs)
  | .ok xml => fs.write path xml

/-- `/repo/src/ring/base.py:796-809` `System.create` -/
def create (fs : FS String) (path_or_str : String) (seed : Int := 1) : Py (System α π) × FS String :=
  match (FPath.ofStr path_or_str).with_suffix ".xml" with
  | .error e => (.error e, fs)
  | .ok path =>
    if fs.exists? path then from_xml E T J L fs path seed
    else (from_str E T J L path_or_str, fs)

/-- `/repo/src/ring/base.py:466-479` `change_model_name`; adding to `None` raises `TypeError`. -/
def change_model_name (s : System α π) (new_name pre suffix : Option String := none) :
    Py (System α π) :=
  match (match new_name with
    | some n => some n
    | none => s.model_name) with
  | none => .error .type
  | some n => .ok { s with model_name := some (pre.getD "" ++ n ++ suffix.getD "") }

/-! ## comments -/

/-- `key, value = pair.split("=")` -/
def keyValue (pair : String) : Py (String × String) :=
  match pySplitChar '=' pair with
  | [k, v] => .ok (k, v)
  | _ => .error .value

/-- the loop over the pairs of one comment, `/repo/src/ring/io/xml/from_xml.py:298-301` -/
def commentDict : List String → Dict String → Py (Dict String)
  | [], d => .ok d
  | pair :: comment, d => do
    let kv ← keyValue pair
    commentDict comment (Dict.set d kv.1 kv.2)

/-- `/repo/src/ring/io/xml/from_xml.py:287-303` `load_comments_from_str`, given the texts of the comments
in the order of the document. -/
def load_comments (comments : List String) (key : String) : Py (List (Dict String)) :=
  let filtered := (comments.filter fun s => (pySplitChar ' ' s).head? = some key).map
    fun s => (pySplitChar ' ' s).tail
  filtered.mapM fun comment => commentDict comment []

/-- `/repo/src/ring/io/xml/from_xml.py:273-284` `load_comments_from_xml`; `texts` are the comments of a
text. -/
def load_comments_from_xml (texts : String → Py (List String)) (fs : FS String) (xml_path : FPath)
    (key : String) : Py (List (Dict String)) × FS String :=
  match _load_xml L fs xml_path with
  | (.error e, fs) => (.error e, fs)
  | (.ok xml, fs) => ((do
      let comments ← texts xml
      load_comments comments key), fs)

/-! ## examples -/

/-- `/repo/src/ring/io/examples.py:8` -/
def FOLDERS : List String := ["", "test_morph_system"]

/-- `/repo/src/ring/io/examples.py:9` -/
def EXCLUDE_FOLDERS : List String := ["exclude"]

/-- `/repo/src/ring/io/examples.py:12-16` `load_example`; the path is parsed here and again by
`from_xml`. -/
def load_example (dir : FPath) (fs : FS String) (name : String) : Py (System α π) × FS String :=
  match utils.parse_path fs (FPath.expanduser L.home dir) [FPath.ofStr name] (some "xml") true true
    false with
  | (.error e, fs) => (.error e, fs)
  | (.ok xml_path, fs) => from_xml E T J L fs xml_path

/-- `/repo/src/ring/io/examples.py:22-23` `list_of_examples_in_folder`; `listdir` is `os.listdir` -/
def list_of_examples_in_folder (listdir : FPath → List String) (folder : FPath) : List String :=
  (listdir folder).map fun ex => (pySplitChar '.' ex).headD ""

/-- the names found in one folder, `/repo/src/ring/io/examples.py:27-29` -/
def examplesOfFolder (dir : FPath) (listdir : FPath → List String) (folder : String) : List String :=
  let example_folder := list_of_examples_in_folder listdir (dir.joinpath (FPath.ofStr folder))
  if folder.length > 0 then example_folder.map fun ex => folder ++ "/" ++ ex else example_folder

/-- `/repo/src/ring/io/examples.py:19-37` `list_examples` -/
def list_examples (dir : FPath) (listdir : FPath → List String) : List String :=
  let examples := FOLDERS.flatMap (examplesOfFolder dir listdir)
  (examples.dedup.filter fun ex => ex ∉ FOLDERS ∧ ex ∉ EXCLUDE_FOLDERS).mergeSort fun a b => a ≤ b

/-- `list(list_load_examples())`, `/repo/src/ring/io/examples.py:40-42` -/
def loadExamples (dir : FPath) : List String → FS String → Py (List (System α π)) × FS String
  | [], fs => (.ok [], fs)
  | ex :: examples, fs =>
    match load_example E T J L dir fs ex with
    | (.error e, fs) => (.error e, fs)
    | (.ok s, fs) =>
      match loadExamples dir examples fs with
      | (.error e, fs) => (.error e, fs)
      | (.ok l, fs) => (.ok (s :: l), fs)

end io
end RingLib
