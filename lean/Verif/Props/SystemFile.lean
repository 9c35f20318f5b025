import Verif.Model.SystemFile
import Verif.Props.Files
import Verif.Props.Xml

/-!
# C98: systems in files
-/

namespace RingLib
namespace io
open System

/-- the file that a path stands for when a system is loaded: its extension is replaced by `.xml` -/
def xmlFile (p : FPath) : FPath :=
  ⟨p.absolute, p.parts.dropLast ++ [String.ofList (FPath.stem p.name.toList ++ ".xml".toList)]⟩

theorem with_suffix_xml {p : FPath} (h : p.name ≠ "") : p.with_suffix ".xml" = .ok (xmlFile p) := by
  unfold FPath.with_suffix
  rw [if_neg (by decide), if_neg (by decide), if_neg h]
  rfl

theorem dotted_xml : utils.dotted "xml" = ".xml" := by decide

theorem xmlFile_parent (p : FPath) : (xmlFile p).parent = p.parent := by
  simp [xmlFile, FPath.parent]

theorem xmlFile_nonroot (p : FPath) : (xmlFile p).parts ≠ [] := by simp [xmlFile]

theorem xmlFile_name (p : FPath) :
    (xmlFile p).name = String.ofList (FPath.stem p.name.toList ++ ".xml".toList) := by
  simp [xmlFile, FPath.name]

theorem xmlFile_name_ne (p : FPath) : (xmlFile p).name ≠ "" := by
  rw [xmlFile_name]
  intro h
  have := congrArg String.toList h
  simp at this

theorem stem_xml {st : List Char} (h : st ≠ []) : FPath.stem (st ++ ".xml".toList) = st :=
  (FPath.C52_stem _).1 _ ⟨h, ['x', 'm', 'l'], by decide, by decide, by simp⟩

/-- replacing the extension once more changes nothing -/
theorem xmlFile_idem {p : FPath} (h : p.name ≠ "") : xmlFile (xmlFile p) = xmlFile p := by
  have hst : FPath.stem p.name.toList ≠ [] := FPath.stem_ne_nil (by
    intro hn; exact h (String.toList_inj.1 (by rw [hn]; rfl)))
  have hd : (xmlFile p).parts.dropLast = p.parts.dropLast := by simp [xmlFile]
  show (⟨_, (xmlFile p).parts.dropLast ++ _⟩ : FPath) = _
  rw [hd, xmlFile_name, String.toList_ofList, stem_xml hst]
  rfl

theorem parse_xml {γ : Type} {fs fs1 : FS γ} {p : FPath} (hn : p.name ≠ "")
    (hmk : fs.mkdir p.parent = (.ok (), fs1)) :
    utils.parse_path fs p [] (some "xml") true true false = (.ok (xmlFile p), fs1) := by
  unfold utils.parse_path
  simp only [List.foldl_nil, dotted_xml]
  rw [with_suffix_xml hn]
  dsimp only
  rw [if_neg (by simp), xmlFile_parent]
  simp only [if_true, hmk]
  simp

variable {α π K : Type} [Field α] [DecidableEq α]
variable {E : Env α π} {T : Txt α} {J : JointInit π K} {L : XmlText K}

/-- what is at a path, as a system -/
def systemAt (E : Env α π) (T : Txt α) (J : JointInit π K) (L : XmlText K) (fs : FS String) (p : FPath)
    (seed : Int) : Py (System α π) :=
  match fs p with
  | some (.file c) => from_str E T J L c seed
  | _ => .error .other

theorem from_xml_eq {fs fs1 : FS String} {p : FPath} {seed : Int}
    (hn : (FPath.expanduser L.home p).name ≠ "")
    (hmk : fs.mkdir (FPath.expanduser L.home p).parent = (.ok (), fs1)) :
    from_xml E T J L fs p seed =
      (systemAt E T J L fs1 (xmlFile (FPath.expanduser L.home p)) seed, fs1) := by
  unfold from_xml _load_xml
  rw [parse_xml hn hmk]
  dsimp only
  unfold readText systemAt
  split
  · rename_i h; split at h <;> simp_all
  · rename_i h; split at h <;> simp_all

/-- C98: loading from a path whose folder exists reads the file whose name has the extension replaced by
`.xml`, and changes nothing. -/
theorem C98_load {fs : FS String} {p : FPath} {seed : Int}
    (hn : (FPath.expanduser L.home p).name ≠ "") (hd : fs.Has (FPath.expanduser L.home p).parent) :
    from_xml E T J L fs p seed =
      (systemAt E T J L fs (xmlFile (FPath.expanduser L.home p)) seed, fs) :=
  from_xml_eq hn (FS.mkdir_done hd)

/-- C98: `System.create` given the name of an existing file loads that file, with the given seed. -/
theorem C98_create_file {fs : FS String} {str : String} {seed : Int}
    (hn : (FPath.ofStr str).name ≠ "") (hx : fs.exists? (xmlFile (FPath.ofStr str)) = true)
    (hh : FPath.expanduser L.home (xmlFile (FPath.ofStr str)) = xmlFile (FPath.ofStr str))
    (hd : fs.Has (FPath.ofStr str).parent) :
    create E T J L fs str seed = (systemAt E T J L fs (xmlFile (FPath.ofStr str)) seed, fs) := by
  unfold create
  rw [with_suffix_xml hn]
  dsimp only
  rw [if_pos hx, C98_load (by rw [hh]; exact xmlFile_name_ne _) (by rw [hh, xmlFile_parent]; exact hd),
    hh, xmlFile_idem hn]

/-- C98: `System.create` given anything that is not the name of a file reads the string itself. -/
theorem C98_create_text_partial {fs : FS String} {str : String} {seed : Int}
    (hn : (FPath.ofStr str).name ≠ "") (hx : fs.exists? (xmlFile (FPath.ofStr str)) = false) :
    create E T J L fs str seed = (from_str E T J L str 1, fs) := by
  unfold create
  rw [with_suffix_xml hn]
  dsimp only
  rw [if_neg (by simp [hx])]

/-- C98: neither loading nor creating touches what exists: at most missing folders are made. -/
theorem C98_loading_keeps {fs fs' : FS String} {p : FPath} {str : String} {seed : Int}
    {r : Py (System α π)} :
    (from_xml E T J L fs p seed = (r, fs') → FS.DirsAdded fs fs') ∧
      (create E T J L fs str seed = (r, fs') → FS.DirsAdded fs fs') := by
  have key : ∀ (p : FPath) (fs' : FS String) (r : Py (System α π)),
      from_xml E T J L fs p seed = (r, fs') → FS.DirsAdded fs fs' := by
    intro p fs' r h
    unfold from_xml _load_xml at h
    rcases hp : utils.parse_path fs (FPath.expanduser L.home p) [] (some "xml") true true false with
      ⟨r', fs1⟩
    rw [hp] at h
    have hd := (utils.parse_path_spec hp).1
    cases r' with
    | error e => cases h; exact hd
    | ok q =>
      dsimp only at h
      split at h
      · rename_i h2
        obtain ⟨-, rfl⟩ := Prod.mk.inj h2
        cases h
        exact hd
      · rename_i h2
        obtain ⟨-, rfl⟩ := Prod.mk.inj h2
        cases h
        exact hd
  refine ⟨key p fs' r, fun h => ?_⟩
  unfold create at h
  split at h
  · cases h; exact FS.DirsAdded.refl _
  · split at h
    · exact key _ _ _ h
    · cases h; exact FS.DirsAdded.refl _

theorem write_ok {γ : Type} {fs : FS γ} {p : FPath} {c : γ} (hp : p.parts ≠ [])
    (hdir : fs p ≠ some .dir) (hd : fs.Has p.parent) :
    fs.write p c = (.ok (), fs.set p (.file c)) := by
  unfold FS.write
  rw [if_neg]
  rintro (h | h)
  · unfold FS.isDir at h
    rw [decide_eq_false hp, Bool.false_or] at h
    split at h
    · rename_i h'; exact hdir h'
    · cases h
  · rw [hd.isDir] at h
    cases h

/-- C98: saving touches no path but the one given. -/
theorem C98_saving_keeps {fs fs' : FS String} {s : System α π} {p : FPath} {r : Py Unit}
    (h : to_xml E T L fs s p = (r, fs')) :
    (∀ q, q ≠ p → fs' q = fs q) ∧ ((∃ e, r = .error e) → fs' = fs) := by
  unfold to_xml at h
  split at h
  · cases h; exact ⟨fun _ _ => rfl, fun _ => rfl⟩
  · unfold FS.write at h
    split at h
    · cases h; exact ⟨fun _ _ => rfl, fun _ => rfl⟩
    · cases h
      refine ⟨fun q hq => by simp [FS.set, hq], ?_⟩
      rintro ⟨e, he⟩
      cases he

/-- C98: a system saved under a name that ends in `.xml`, in a folder that exists, is loaded again from
there, by `from_xml` and by `create` and for every seed. (Full statement: for every path; see
`C98_extension_fails` and `C98_home_fails`. `Savable` and `Reloaded` are those of C08.) -/
theorem C98_roundtrip_partial {fs : FS String} {s : System α π} {p : FPath} {seed : Int}
    (hs : Savable E T s) (hJ : J.Ok s.link_types)
    (hL : ∀ d, save_sys_to_str E T s = .ok d → L.fromstring (L.topretty d) = .ok d)
    (hn : p.name ≠ "") (hx : xmlFile p = p) (hh : FPath.expanduser L.home p = p)
    (hdir : fs p ≠ some .dir) (hd : fs.Has p.parent) :
    ∃ fs' s' perm, to_xml E T L fs s p = (.ok (), fs') ∧
      from_xml E T J L fs' p seed = (.ok s', fs') ∧
      (∀ str, FPath.ofStr str = p → create E T J L fs' str seed = (.ok s', fs')) ∧
      Reloaded E J s perm s' := by
  obtain ⟨d, s', perm, h1, h2, h3⟩ := C08_roundtrip_partial hs hJ (L.prngKey seed)
  have hp : p.parts ≠ [] := by rw [← hx]; exact xmlFile_nonroot p
  have hne : p.parent ≠ p := by
    intro h
    have := congrArg (fun q : FPath => q.parts.length) h
    simp only [FPath.parent, List.length_dropLast] at this
    have := List.length_pos_iff.2 hp
    omega
  have hsave : to_xml E T L fs s p = (.ok (), fs.set p (.file (L.topretty d))) := by
    unfold to_xml to_str
    rw [h1]
    exact write_ok hp hdir hd
  have hd' : (fs.set p (.file (L.topretty d))).Has p.parent := by
    apply hd.set
    simp only [FPath.parent, List.length_dropLast]
    have := List.length_pos_iff.2 hp
    omega
  have hat : systemAt E T J L (fs.set p (.file (L.topretty d))) p seed = .ok s' := by
    unfold systemAt from_str
    simp only [FS.set, if_true, hL d h1]
    exact h2
  refine ⟨_, s', perm, hsave, ?_, ?_, h3⟩
  · rw [C98_load (by rw [hh]; exact hn) (by rw [hh]; exact hd'), hh, hx, hat]
  · intro str hstr
    rw [C98_create_file (by rw [hstr]; exact hn) (by rw [hstr, hx]; simp [FS.exists?, FS.set])
      (by rw [hstr, hx, hh]) (by rw [hstr]; exact hd'), hstr, hx, hat]

/-- C98 fails: a system saved under a name without `.xml` is not found when it is loaded from there:
whatever was saved, the result is that of loading before. -/
theorem C98_extension_fails {fs fs' : FS String} {s : System α π} {p : FPath} {seed : Int} {r : Py Unit}
    (h : to_xml E T L fs s p = (r, fs')) (hn : p.name ≠ "") (hx : xmlFile p ≠ p)
    (hh : FPath.expanduser L.home p = p) (hd : fs.Has p.parent) :
    (from_xml E T J L fs' p seed).1 = (from_xml E T J L fs p seed).1 ∧
      (fs (xmlFile p) = none → (from_xml E T J L fs' p seed).1 = .error .other) := by
  have hk := (C98_saving_keeps h).1
  have hp : p.parts ≠ [] := by
    intro h0
    apply hn
    simp [FPath.name, h0]
  have hd' : fs'.Has p.parent := by
    unfold to_xml at h
    split at h
    · cases h; exact hd
    · unfold FS.write at h
      split at h
      · cases h; exact hd
      · cases h
        apply hd.set
        simp only [FPath.parent, List.length_dropLast]
        have := List.length_pos_iff.2 hp
        omega
  rw [C98_load (by rw [hh]; exact hn) (by rw [hh]; exact hd'),
    C98_load (by rw [hh]; exact hn) (by rw [hh]; exact hd), hh]
  have : systemAt E T J L fs' (xmlFile p) seed = systemAt E T J L fs (xmlFile p) seed := by
    unfold systemAt
    rw [hk _ hx]
  refine ⟨this, fun h0 => ?_⟩
  show systemAt E T J L fs' (xmlFile p) seed = _
  rw [this]
  unfold systemAt
  rw [h0]

/-- C98 fails: loading expands `~`, saving does not: a path in the home directory that can be loaded
cannot be saved to unless the working directory has a folder called `~`. -/
theorem C98_home_fails {fs : FS String} {s : System α π} {file : String} {seed : Int}
    (hno : fs ⟨false, ["~"]⟩ = none) (hfile : file ≠ "") (hd : fs.Has L.home) (hh : L.home.absolute = true) :
    (∃ e, to_xml E T L fs s ⟨false, ["~", file]⟩ = (.error e, fs)) ∧
      from_xml E T J L fs ⟨false, ["~", file]⟩ seed =
        (systemAt E T J L fs (xmlFile ⟨true, L.home.parts ++ [file]⟩) seed, fs) := by
  constructor
  · unfold to_xml
    split
    · exact ⟨_, rfl⟩
    · refine ⟨.other, ?_⟩
      unfold FS.write
      rw [if_pos]
      right
      simp [FS.isDir, FPath.parent, hno]
  · have he : FPath.expanduser L.home ⟨false, ["~", file]⟩ = ⟨true, L.home.parts ++ [file]⟩ := by
      simp [FPath.expanduser, FPath.joinpath, hh]
    rw [C98_load (by rw [he]; simp [FPath.name, hfile]) (by
      rw [he]
      have : (⟨true, L.home.parts ++ [file]⟩ : FPath).parent = L.home := by
        have h0 : L.home = ⟨L.home.absolute, L.home.parts⟩ := rfl
        rw [h0, hh]; simp [FPath.parent]
      rw [this]; exact hd), he]

/-- C98 fails: the seed given to `System.create` together with a text is not used. -/
theorem C98_seed_fails {fs : FS String} {str : String} (seed seed' : Int)
    (hx : fs.exists? (xmlFile (FPath.ofStr str)) = false) :
    create E T J L fs str seed = create E T J L fs str seed' := by
  by_cases hn : (FPath.ofStr str).name = ""
  · unfold create FPath.with_suffix
    rw [if_neg (by decide), if_neg (by decide), if_pos hn]
  · rw [C98_create_text_partial hn hx, C98_create_text_partial hn hx]

/-- C98 fails: given the name of an existing file with another extension, `System.create` does not look
at it: it loads the file of that name with `.xml` if there is one, and otherwise takes the name for the
text of a system. -/
theorem C98_suffix_fails {fs : FS String} {str c : String} {seed : Int}
    (hn : (FPath.ofStr str).name ≠ "") (hx : xmlFile (FPath.ofStr str) ≠ FPath.ofStr str)
    (hh : FPath.expanduser L.home (xmlFile (FPath.ofStr str)) = xmlFile (FPath.ofStr str))
    (hd : fs.Has (FPath.ofStr str).parent) (hp : (FPath.ofStr str).parts ≠ []) :
    create E T J L (fs.set (FPath.ofStr str) (.file c)) str seed =
      (match fs (xmlFile (FPath.ofStr str)) with
        | some (.file c') => from_str E T J L c' seed
        | some .dir => .error .other
        | none => from_str E T J L str 1, fs.set (FPath.ofStr str) (.file c)) := by
  have hd' : (fs.set (FPath.ofStr str) (.file c)).Has (FPath.ofStr str).parent := by
    apply hd.set
    simp only [FPath.parent, List.length_dropLast]
    have := List.length_pos_iff.2 hp
    omega
  have hkeep : (fs.set (FPath.ofStr str) (.file c)) (xmlFile (FPath.ofStr str)) =
      fs (xmlFile (FPath.ofStr str)) := by simp [FS.set, hx]
  rcases hf : fs (xmlFile (FPath.ofStr str)) with _ | (c' | _)
  · rw [C98_create_text_partial hn]
    simp [FS.exists?, hkeep, hf, xmlFile_nonroot]
  · rw [C98_create_file hn (by simp [FS.exists?, hkeep, hf]) hh hd']
    unfold systemAt
    rw [hkeep, hf]
  · rw [C98_create_file hn (by simp [FS.exists?, hkeep, hf]) hh hd']
    unfold systemAt
    rw [hkeep, hf]

/-- C98 fails: the empty string, `.` and `/` have no name to put an extension to: `ValueError`. -/
theorem C98_empty_fails (fs : FS String) (seed : Int) :
    ∀ str ∈ ["", ".", "/"], create E T J L fs str seed = (.error .value, fs) := by
  intro str hs
  have hn : (FPath.ofStr str).name = "" := by
    simp only [List.mem_cons, List.not_mem_nil, or_false] at hs
    rcases hs with rfl | rfl | rfl <;> decide
  unfold create FPath.with_suffix
  rw [if_neg (by decide), if_neg (by decide), if_pos hn]

/-- C98 fails: loading a system from a folder that does not exist makes the folder and then raises. -/
theorem C98_mkdir_fails {fs : FS String} {folder file : String} {seed : Int} (hf : folder ≠ "~")
    (hfile : file ≠ "") (hno : fs ⟨false, [folder]⟩ = none)
    (hno' : fs (xmlFile ⟨false, [folder, file]⟩) = none) :
    from_xml E T J L fs ⟨false, [folder, file]⟩ seed =
      (.error .other, fs.set ⟨false, [folder]⟩ .dir) := by
  have hh : FPath.expanduser L.home ⟨false, [folder, file]⟩ = ⟨false, [folder, file]⟩ := by
    unfold FPath.expanduser
    split
    · rename_i h1 h2
      exact absurd (List.cons.inj h2).1 hf
    · rfl
  have hmk : fs.mkdir (⟨false, [folder, file]⟩ : FPath).parent =
      (.ok (), fs.set ⟨false, [folder]⟩ .dir) := by
    simp [FS.mkdir, FPath.parent, FS.mkdirFrom, hno]
  rw [from_xml_eq (by rw [hh]; simpa [FPath.name] using hfile) (by rw [hh]; exact hmk), hh]
  unfold systemAt
  have : (fs.set ⟨false, [folder]⟩ .dir) (xmlFile ⟨false, [folder, file]⟩) = none := by
    unfold FS.set
    rw [if_neg, hno']
    intro h
    have := congrArg (fun q : FPath => q.parts.length) h
    simp [xmlFile] at this
  rw [this]

omit [Field α] [DecidableEq α] in
/-- C98: renaming a model puts the prefix before and the suffix after the new name, or the old one if no
new name is given, and keeps everything else; a model without a name cannot get only a prefix. -/
theorem C98_rename (s : System α π) (new_name pre suffix : Option String) :
    (∀ n, (new_name = some n ∨ new_name = none ∧ s.model_name = some n) →
      change_model_name s new_name pre suffix =
        .ok { s with model_name := some (pre.getD "" ++ n ++ suffix.getD "") }) ∧
      (new_name = none → s.model_name = none →
        change_model_name s new_name pre suffix = .error .type) := by
  constructor
  · rintro n (rfl | ⟨rfl, h⟩)
    · rfl
    · unfold change_model_name
      rw [h]
  · rintro rfl h
    unfold change_model_name
    rw [h]

/-! ## examples -/

/-- a library that knows one document -/
def oneDoc (d : Xml String) : XmlText Nat where
  fromstring t := if t = "doc" then .ok d else .error .other
  topretty _ := "doc"
  prngKey seed := seed.toNat
  home := ⟨true, ["home"]⟩

example : ∃ d fs' s' perm, to_xml xmlEnv tallyTxt (oneDoc d) (fun _ => none) (xmlSys [-1, -1, 0, 1])
      ⟨false, ["robot.xml"]⟩ = (.ok (), fs') ∧
    from_xml xmlEnv tallyTxt xmlInit (oneDoc d) fs' ⟨false, ["robot.xml"]⟩ 3 = (.ok s', fs') ∧
    create xmlEnv tallyTxt xmlInit (oneDoc d) fs' "robot.xml" 3 = (.ok s', fs') ∧
    Reloaded xmlEnv xmlInit (xmlSys [-1, -1, 0, 1]) perm s' := by
  obtain ⟨d, -, -, hd, -, -⟩ := C08_roundtrip_partial (J := xmlInit) (K := Nat)
    (xmlSys_savable (ps := [-1, -1, 0, 1]) rfl xmlParents) xmlInit_ok 0
  obtain ⟨fs', s', perm, h1, h2, h3, h4⟩ := C98_roundtrip_partial (L := oneDoc d) (seed := 3)
    (fs := fun _ => none) (p := ⟨false, ["robot.xml"]⟩)
    (xmlSys_savable (ps := [-1, -1, 0, 1]) rfl xmlParents) xmlInit_ok
    (by intro d' hd'; rw [hd] at hd'; cases hd'; rfl) (by decide) (by decide) rfl
    (by simp) (by simp [FS.Has, FPath.parent])
  exact ⟨d, fs', s', perm, h1, h2, h3 "robot.xml" (by decide), h4⟩

/-- `robot.v2` stands for `robot.xml` -/
example : xmlFile (FPath.ofStr "robots/robot.v2") = FPath.ofStr "robots//./robot.xml" ∧
    xmlFile (FPath.ofStr "robots/robot.v2") ≠ FPath.ofStr "robots/robot.v2" := by decide

/-- a text is not the name of a file -/
example (d : Xml String) (seed : Int) : create xmlEnv tallyTxt xmlInit (oneDoc d) (fun _ => none) "doc"
    seed = (load_sys_from_str xmlEnv tallyTxt xmlInit 1 d, fun _ => none) := by
  rw [C98_create_text_partial (by decide) (by simp [FS.exists?, xmlFile_nonroot])]
  rfl

end io
end RingLib
