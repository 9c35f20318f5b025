import Mathlib.Data.String.Basic
import Verif.Props.SystemFile

/-!
# C99: the comments of a model file, and the examples that come with the package
-/

namespace RingLib
namespace io
open System

/-! ## splitting -/

theorem splitChar_none {c : Char} {w : List Char} (h : c ∉ w) : splitChar c w = [w] := by
  induction w with
  | nil => rfl
  | cons x w ih =>
    have hx : x ≠ c := fun e => h (by simp [e])
    rw [splitChar, if_neg hx, ih (fun hc => h (List.mem_cons_of_mem _ hc))]

theorem splitChar_append {c : Char} {w rest : List Char} (h : c ∉ w) :
    splitChar c (w ++ c :: rest) = w :: splitChar c rest := by
  induction w with
  | nil => simp [splitChar]
  | cons x w ih =>
    have hx : x ≠ c := fun e => h (by simp [e])
    rw [List.cons_append, splitChar, if_neg hx, ih (fun hc => h (List.mem_cons_of_mem _ hc))]

theorem splitChar_ne (c : Char) (l : List Char) : splitChar c l ≠ [] := by
  cases l with
  | nil => simp [splitChar]
  | cons x l =>
    rw [splitChar]
    split
    · simp
    · split <;> simp

/-- words with a character between them -/
def joinChar (c : Char) : List (List Char) → List Char
  | [] => []
  | [w] => w
  | w :: ws => w ++ c :: joinChar c ws

theorem splitChar_join {c : Char} {ws : List (List Char)} (hne : ws ≠ []) (h : ∀ w ∈ ws, c ∉ w) :
    splitChar c (joinChar c ws) = ws := by
  induction ws with
  | nil => exact absurd rfl hne
  | cons w ws ih =>
    cases ws with
    | nil => exact splitChar_none (h w (by simp))
    | cons v ws =>
      rw [joinChar, splitChar_append (h w (by simp)), ih (by simp) fun x hx => h x (by simp [hx])]
      simp

/-! ## comments -/

/-- a word `key=value` -/
def pairText (kv : String × String) : List Char := kv.1.toList ++ '=' :: kv.2.toList

/-- the text of a comment: its name and the words `key=value`, one space between them -/
def commentText (c : String × List (String × String)) : String :=
  String.ofList (joinChar ' ' (c.1.toList :: c.2.map pairText))

/-- no space and no equals sign where they would be misread -/
def PlainComment (c : String × List (String × String)) : Prop :=
  ' ' ∉ c.1.toList ∧ ∀ kv ∈ c.2, ' ' ∉ kv.1.toList ∧ '=' ∉ kv.1.toList ∧ ' ' ∉ kv.2.toList ∧
    '=' ∉ kv.2.toList

theorem split_comment {c : String × List (String × String)} (h : PlainComment c) :
    pySplitChar ' ' (commentText c) = c.1 :: c.2.map fun kv => String.ofList (pairText kv) := by
  unfold pySplitChar commentText
  rw [String.toList_ofList, splitChar_join (by simp)]
  · simp [List.map_map, Function.comp_def]
  · intro w hw
    rcases List.mem_cons.1 hw with rfl | hw
    · exact h.1
    · obtain ⟨kv, hkv, rfl⟩ := List.mem_map.1 hw
      have := h.2 kv hkv
      simp [pairText, this.1, this.2.2.1]

theorem keyValue_pair {kv : String × String} (h : '=' ∉ kv.1.toList) (h' : '=' ∉ kv.2.toList) :
    keyValue (String.ofList (pairText kv)) = .ok kv := by
  have : pySplitChar '=' (String.ofList (pairText kv)) = [kv.1, kv.2] := by
    unfold pySplitChar pairText
    rw [String.toList_ofList, splitChar_append h, splitChar_none h']
    simp
  unfold keyValue
  rw [this]

theorem commentDict_eq {l : List (String × String)}
    (h : ∀ kv ∈ l, '=' ∉ kv.1.toList ∧ '=' ∉ kv.2.toList) (d : Dict String) :
    commentDict (l.map fun kv => String.ofList (pairText kv)) d = .ok (Dict.update d l) := by
  induction l generalizing d with
  | nil => rfl
  | cons kv l ih =>
    have h0 := h kv (by simp)
    rw [List.map_cons, commentDict, keyValue_pair h0.1 h0.2]
    exact ih (fun x hx => h x (by simp [hx])) _

/-- C99: of the comments of a file, those with the given name are returned, in their order, each as the
dictionary of its pairs; a key that is given twice keeps its last value. -/
theorem C99_comments {cs : List (String × List (String × String))} (h : ∀ c ∈ cs, PlainComment c)
    (key : String) :
    load_comments (cs.map commentText) key =
      .ok ((cs.filter fun c => c.1 = key).map fun c => Dict.update [] c.2) := by
  have h1 : ((cs.map commentText).filter fun s => (pySplitChar ' ' s).head? = some key).map
      (fun s => (pySplitChar ' ' s).tail) =
        (cs.filter fun c => c.1 = key).map fun c => c.2.map fun kv => String.ofList (pairText kv) := by
    induction cs with
    | nil => rfl
    | cons c cs ih =>
      have hc := split_comment (h c (by simp))
      have ih := ih fun x hx => h x (by simp [hx])
      simp only [List.map_cons, List.filter_cons, hc, List.head?_cons, Option.some.injEq]
      by_cases hk : c.1 = key
      · simp [hk, hc, ih]
      · simp [hk, ih]
  unfold load_comments
  dsimp only
  rw [h1, List.mapM_map]
  apply System.mapM_ok
  intro c hc
  have := h c (List.mem_of_mem_filter hc)
  exact commentDict_eq (fun kv hkv => ⟨(this.2 kv hkv).2.1, (this.2 kv hkv).2.2.2⟩) []

/-- C99: the comments of a file are those of its text, in the order of the text; nothing is changed. -/
theorem C99_file {K : Type} {L : XmlText K} {texts : String → Py (List String)}
    {fs : FS String} {p : FPath} {content : String} {cs : List (String × List (String × String))} (hn : (FPath.expanduser L.home p).name ≠ "")
    (hd : fs.Has (FPath.expanduser L.home p).parent)
    (hfile : fs (xmlFile (FPath.expanduser L.home p)) = some (.file content))
    (htexts : texts content = .ok (cs.map commentText)) (h : ∀ c ∈ cs, PlainComment c) (key : String) :
    load_comments_from_xml L texts fs p key =
      (.ok ((cs.filter fun c => c.1 = key).map fun c => Dict.update [] c.2), fs) := by
  unfold load_comments_from_xml _load_xml
  rw [parse_xml hn (FS.mkdir_done hd)]
  dsimp only
  unfold readText
  rw [hfile]
  dsimp only
  rw [htexts, ok_bind, C99_comments h]

example (L : XmlText Unit) : (load_comments_from_xml L
    (fun _ => .ok ["seg mass=1 length=2", "imu mass=3", "seg mass=4"])
    (fun p => if p.parts = [] then some .dir else some (.file "<x_xy/>"))
    ⟨true, ["arm"]⟩ "seg").1 = .ok [[("mass", "1"), ("length", "2")], [("mass", "4")]] := by
  have := C99_file (L := L) (texts := fun _ => .ok ["seg mass=1 length=2", "imu mass=3", "seg mass=4"])
    (fs := fun p => if p.parts = [] then some .dir else some (.file "<x_xy/>"))
    (p := ⟨true, ["arm"]⟩) (content := "<x_xy/>")
    (cs := [("seg", [("mass", "1"), ("length", "2")]), ("imu", [("mass", "3")]), ("seg", [("mass", "4")])])
    (show ("arm" : String) ≠ "" by decide) (by intro k; simp [FPath.expanduser, FPath.parent]) rfl
    (by decide) (by unfold PlainComment; decide) "seg"
  rw [this]
  rfl

/-- C98: only a first component `~` of a relative path stands for the home directory. -/
theorem C98_expanduser (home p : FPath) :
    (p.absolute = true ∨ p.parts.head? ≠ some "~" → FPath.expanduser home p = p) ∧
      ∀ rest, FPath.expanduser home ⟨false, "~" :: rest⟩ = ⟨home.absolute, home.parts ++ rest⟩ := by
  refine ⟨fun h => ?_, fun rest => rfl⟩
  obtain ⟨a, ps⟩ := p
  unfold FPath.expanduser
  dsimp only at h ⊢
  split
  · simp at h
  · rfl

/-- C99 fails: a comment that begins with a space, as comments usually do, is never found. -/
theorem C99_space_fails {rest key : String} {cs : List String} (hk : key ≠ "") :
    load_comments ((" " ++ rest) :: cs) key = load_comments cs key := by
  have : (pySplitChar ' ' (" " ++ rest)).head? = some "" := by
    unfold pySplitChar
    rw [String.toList_append]
    show ((splitChar ' ' (' ' :: rest.toList)).map String.ofList).head? = _
    rw [splitChar, if_pos rfl]
    simp
  unfold load_comments
  simp only [List.filter_cons, this, Option.some.injEq]
  rw [if_neg (by simp [Ne.symm hk])]

theorem commentDict_error {ws : List String} {w : String} (hw : w ∈ ws)
    (h : ∀ kv, keyValue w ≠ .ok kv) (d : Dict String) : commentDict ws d = .error .value := by
  induction ws generalizing d with
  | nil => cases hw
  | cons x ws ih =>
    rw [commentDict]
    rcases hx : keyValue x with e | kv
    · have : e = .value := by
        unfold keyValue at hx
        split at hx
        · cases hx
        · cases hx; rfl
      rw [this]
      rfl
    · rcases List.mem_cons.1 hw with rfl | hw
      · exact absurd hx (h kv)
      · exact ih hw _

/-- C99 fails: two spaces in a row, or a value that contains an equals sign, raise `ValueError`. -/
theorem C99_equals_fails {name k v : String} {before : List (String × String)}
    (hn : ' ' ∉ name.toList) (hb : ∀ kv ∈ before, ' ' ∉ kv.1.toList ∧ ' ' ∉ kv.2.toList)
    (hk : ' ' ∉ k.toList ∧ '=' ∉ k.toList) (hv : ' ' ∉ v.toList ∧ '=' ∈ v.toList) :
    load_comments [commentText (name, before ++ [(k, v)])] name = .error .value ∧
      load_comments [String.ofList (joinChar ' ' (name.toList :: (before.map pairText ++ [[]])))] name =
        .error .value := by
  have main : ∀ (ws : List (List Char)) (w : List Char), w ∈ ws → (∀ w ∈ ws, ' ' ∉ w) →
      (∀ kv, keyValue (String.ofList w) ≠ .ok kv) →
      load_comments [String.ofList (joinChar ' ' (name.toList :: ws))] name = .error .value := by
    intro ws w hw hsp hbad
    have hs : pySplitChar ' ' (String.ofList (joinChar ' ' (name.toList :: ws))) =
        name :: ws.map String.ofList := by
      unfold pySplitChar
      rw [String.toList_ofList, splitChar_join (by simp)]
      · simp
      · intro x hx
        rcases List.mem_cons.1 hx with rfl | hx
        · exact hn
        · exact hsp x hx
    unfold load_comments
    simp only [List.filter_cons, hs, List.head?_cons, if_true, List.filter_nil, List.map_cons,
      List.map_nil, List.tail_cons, decide_true]
    rw [List.mapM_cons, commentDict_error (List.mem_map_of_mem hw) hbad]
    rfl
  have hbefore : ∀ w ∈ before.map pairText, ' ' ∉ w := by
    intro w hw
    obtain ⟨kv, hkv, rfl⟩ := List.mem_map.1 hw
    simp [pairText, (hb kv hkv).1, (hb kv hkv).2]
  constructor
  · show load_comments [String.ofList (joinChar ' ' (name.toList ::
      (before ++ [(k, v)]).map pairText))] name = _
    apply main _ (pairText (k, v)) (by simp)
    · intro w hw
      rw [List.map_append] at hw
      rcases List.mem_append.1 hw with hw | hw
      · exact hbefore w hw
      · simp only [List.map_cons, List.map_nil, List.mem_singleton] at hw
        subst hw
        simp [pairText, hk.1, hv.1]
    · intro kv hkv
      unfold keyValue pySplitChar pairText at hkv
      obtain ⟨a, b, hab⟩ := List.append_of_mem hv.2
      rw [String.toList_ofList, splitChar_append hk.2] at hkv
      dsimp only at hkv
      have h2 : 2 ≤ (splitChar '=' v.toList).length := by
        rw [hab]
        clear hab hkv
        induction a with
        | nil =>
          rw [List.nil_append, splitChar, if_pos rfl]
          have := List.length_pos_iff.2 (splitChar_ne '=' b)
          simp; omega
        | cons x a ih =>
          rw [List.cons_append, splitChar]
          split
          · have := List.length_pos_iff.2 (splitChar_ne '=' (a ++ '=' :: b))
            simp; omega
          · split
            · rename_i h; rw [h] at ih; simp at ih
            · rename_i h; rw [h] at ih; simpa using ih
      split at hkv
      · rename_i h
        have := congrArg List.length h
        simp at this
        omega
      · cases hkv
  · apply main _ [] (by simp)
    · intro w hw
      rcases List.mem_append.1 hw with hw | hw
      · exact hbefore w hw
      · simp at hw
        subst hw
        simp
    · intro kv hkv
      have : keyValue (String.ofList []) = .error .value := by decide
      rw [this] at hkv
      cases hkv

example : load_comments ["knee side=left angle=3", "hip side=left", "knee side=right"] "knee" =
    .ok [[("side", "left"), ("angle", "3")], [("side", "right")]] := by decide

example : PlainComment ("knee", [("side", "left"), ("angle", "3")]) ∧
    commentText ("knee", [("side", "left"), ("angle", "3")]) = "knee side=left angle=3" := by
  refine ⟨⟨by decide, ?_⟩, by decide⟩
  intro kv hkv
  simp only [List.mem_cons, List.not_mem_nil, or_false] at hkv
  rcases hkv with rfl | rfl <;> decide

/-! ## examples -/

section
variable {α π K : Type} [Field α] [DecidableEq α]
variable {E : Env α π} {T : Txt α} {J : JointInit π K} {L : XmlText K}

/-- the file an example is loaded from -/
def exampleFile (dir : FPath) (name : String) : FPath := xmlFile (dir.joinpath (FPath.ofStr name))

/-- the folder of the examples for morphing -/
def morphDir (dir : FPath) : FPath := dir.joinpath ⟨false, ["test_morph_system"]⟩

/-- a name without dots and slashes -/
def Plain (b : String) : Prop := b ≠ "" ∧ '.' ∉ b.toList ∧ '/' ∉ b.toList

/-- How the folder of the examples looks like: model files `name.xml`, and the folders
`test_morph_system` and `exclude`. -/
structure Tidy (dir : FPath) (listdir : FPath → List String) : Prop where
  top : ∀ n ∈ listdir dir, n = "test_morph_system" ∨ n = "exclude" ∨
    ∃ b, Plain b ∧ b ≠ "test_morph_system" ∧ b ≠ "exclude" ∧ n = b ++ ".xml"
  sub : ∀ n ∈ listdir (morphDir dir), ∃ b, Plain b ∧ n = b ++ ".xml"

theorem ofStr_plain {b : String} (h : Plain b) : FPath.ofStr b = ⟨false, [b]⟩ := by
  have hh : b.toList.head? ≠ some '/' := by
    intro h0
    exact h.2.2 (List.mem_of_mem_head? h0)
  have hd : b ≠ "." := by
    rintro rfl
    exact h.2.1 (by decide)
  unfold FPath.ofStr pySplitChar
  rw [splitChar_none h.2.2]
  simp [hh, h.1, hd]

theorem ofStr_sub {b : String} (h : Plain b) :
    FPath.ofStr ("test_morph_system" ++ "/" ++ b) = ⟨false, ["test_morph_system", b]⟩ := by
  have hd : b ≠ "." := by
    rintro rfl
    exact h.2.1 (by decide)
  have hsplit : pySplitChar '/' ("test_morph_system" ++ "/" ++ b) = ["test_morph_system", b] := by
    unfold pySplitChar
    have : ("test_morph_system" ++ "/" ++ b).toList =
        "test_morph_system".toList ++ '/' :: b.toList := by simp [String.toList_append]
    rw [this, splitChar_append (by decide), splitChar_none h.2.2]
    simp
  unfold FPath.ofStr
  rw [hsplit]
  simp [h.1, hd]

theorem split_xml {b : String} (h : Plain b) : (pySplitChar '.' (b ++ ".xml")).headD "" = b := by
  unfold pySplitChar
  have : (b ++ ".xml").toList = b.toList ++ '.' :: ['x', 'm', 'l'] := by simp [String.toList_append]
  rw [this, splitChar_append h.2.1]
  simp

theorem xmlFile_plain {dir : FPath} {ps : List String} {b : String} (h : Plain b) :
    xmlFile ⟨dir.absolute, dir.parts ++ (ps ++ [b])⟩ = ⟨dir.absolute, dir.parts ++ (ps ++ [b ++ ".xml"])⟩ := by
  have hn : (⟨dir.absolute, dir.parts ++ (ps ++ [b])⟩ : FPath).name = b := by
    rw [← List.append_assoc]; exact FPath.name_append _ _ _
  unfold xmlFile
  rw [hn, (FPath.C52_stem _).2]
  · simp
  · rintro ⟨s, -, e, -, -, he⟩
    exact h.2.1 (by rw [he]; simp)

theorem exampleFile_top {dir : FPath} {b : String} (h : Plain b) :
    exampleFile dir b = ⟨dir.absolute, dir.parts ++ [b ++ ".xml"]⟩ := by
  unfold exampleFile
  rw [ofStr_plain h]
  exact xmlFile_plain (ps := []) h

theorem exampleFile_sub {dir : FPath} {b : String} (h : Plain b) :
    exampleFile dir ("test_morph_system" ++ "/" ++ b) =
      ⟨dir.absolute, dir.parts ++ ["test_morph_system", b ++ ".xml"]⟩ := by
  unfold exampleFile
  rw [ofStr_sub h]
  exact xmlFile_plain (ps := ["test_morph_system"]) h

theorem mem_list_examples {dir : FPath} {listdir : FPath → List String} {ex : String} :
    ex ∈ list_examples dir listdir ↔ (ex ∈ examplesOfFolder dir listdir "" ∨
      ex ∈ examplesOfFolder dir listdir "test_morph_system") ∧
      ex ≠ "" ∧ ex ≠ "test_morph_system" ∧ ex ≠ "exclude" := by
  unfold list_examples
  simp [FOLDERS, EXCLUDE_FOLDERS, List.mem_mergeSort]
  tauto

theorem joinpath_empty (dir : FPath) : dir.joinpath (FPath.ofStr "") = dir := by
  have : FPath.ofStr "" = ⟨false, []⟩ := by decide
  rw [this]
  simp [FPath.joinpath]

theorem joinpath_morph (dir : FPath) : dir.joinpath (FPath.ofStr "test_morph_system") = morphDir dir := by
  have : FPath.ofStr "test_morph_system" = ⟨false, ["test_morph_system"]⟩ := by decide
  rw [this]
  rfl

theorem examples_top {dir : FPath} {listdir : FPath → List String} :
    examplesOfFolder dir listdir "" = (listdir dir).map fun ex => (pySplitChar '.' ex).headD "" := by
  unfold examplesOfFolder list_of_examples_in_folder
  rw [joinpath_empty]
  rfl

theorem examples_sub {dir : FPath} {listdir : FPath → List String} :
    examplesOfFolder dir listdir "test_morph_system" = (listdir (morphDir dir)).map fun ex =>
      "test_morph_system" ++ "/" ++ (pySplitChar '.' ex).headD "" := by
  unfold examplesOfFolder list_of_examples_in_folder
  rw [joinpath_morph]
  dsimp only
  rw [if_pos (by decide), List.map_map]
  rfl

/-- C99: the examples are listed in order and once each; they are the model files of the folder and of
`test_morph_system`: every example is loaded from one of those files and every such file belongs to
exactly one example. -/
theorem C99_examples_partial {dir : FPath} {listdir : FPath → List String} (h : Tidy dir listdir) :
    (list_examples dir listdir).Pairwise (· < ·) ∧
    (∀ ex ∈ list_examples dir listdir,
      (∃ n ∈ listdir dir, exampleFile dir ex = dir.joinpath ⟨false, [n]⟩) ∨
      (∃ n ∈ listdir (morphDir dir), exampleFile dir ex = (morphDir dir).joinpath ⟨false, [n]⟩)) ∧
    (∀ n ∈ listdir dir, n ≠ "test_morph_system" → n ≠ "exclude" →
      ∃! ex, ex ∈ list_examples dir listdir ∧ exampleFile dir ex = dir.joinpath ⟨false, [n]⟩) ∧
    (∀ n ∈ listdir (morphDir dir),
      ∃! ex, ex ∈ list_examples dir listdir ∧
        exampleFile dir ex = (morphDir dir).joinpath ⟨false, [n]⟩) := by
  have hdesc : ∀ ex, ex ∈ list_examples dir listdir ↔
      (∃ b, Plain b ∧ b ≠ "test_morph_system" ∧ b ≠ "exclude" ∧ b ++ ".xml" ∈ listdir dir ∧ ex = b) ∨
      (∃ b, Plain b ∧ b ++ ".xml" ∈ listdir (morphDir dir) ∧
        ex = "test_morph_system" ++ "/" ++ b) := by
    intro ex
    rw [mem_list_examples, examples_top, examples_sub]
    constructor
    · rintro ⟨hm | hm, h1, h2, h3⟩
      · obtain ⟨n, hn, rfl⟩ := List.mem_map.1 hm
        left
        rcases h.top n hn with rfl | rfl | ⟨b, hb, hb1, hb2, rfl⟩
        · exact absurd (by decide) h2
        · exact absurd (by decide) h3
        · exact ⟨b, hb, hb1, hb2, hn, split_xml hb⟩
      · obtain ⟨n, hn, rfl⟩ := List.mem_map.1 hm
        right
        obtain ⟨b, hb, rfl⟩ := h.sub n hn
        exact ⟨b, hb, hn, by rw [split_xml hb]⟩
    · rintro (⟨b, hb, hb1, hb2, hn, rfl⟩ | ⟨b, hb, hn, rfl⟩)
      · exact ⟨Or.inl (List.mem_map.2 ⟨_, hn, split_xml hb⟩), hb.1, hb1, hb2⟩
      · have hs : '/' ∈ ("test_morph_system" ++ "/" ++ b).toList := by simp [String.toList_append]
        refine ⟨Or.inr (List.mem_map.2 ⟨_, hn, by rw [split_xml hb]⟩), ?_, ?_, ?_⟩
        · intro h0; rw [h0] at hs; exact absurd hs (by decide)
        · intro h0; rw [h0] at hs; exact absurd hs (by decide)
        · intro h0; rw [h0] at hs; exact absurd hs (by decide)
  refine ⟨?_, ?_, ?_, ?_⟩
  · have hs : (list_examples dir listdir).Pairwise (· ≤ ·) := by
      have := List.pairwise_mergeSort (le := fun a b : String => decide (a ≤ b))
        (fun a b c hab hbc => by simp only [decide_eq_true_eq] at *; exact le_trans hab hbc)
        (fun a b => by simp only [Bool.or_eq_true, decide_eq_true_eq]; exact le_total a b)
        (((FOLDERS.flatMap (examplesOfFolder dir listdir)).dedup.filter
          fun ex => ex ∉ FOLDERS ∧ ex ∉ EXCLUDE_FOLDERS))
      exact this.imp fun h => by simpa using h
    have hnd : (list_examples dir listdir).Nodup := by
      unfold list_examples
      exact (List.mergeSort_perm _ _).nodup_iff.2 ((List.nodup_dedup _).filter _)
    exact (hs.and hnd).imp fun h => lt_of_le_of_ne h.1 h.2
  · intro ex hex
    rcases (hdesc ex).1 hex with ⟨b, hb, -, -, hn, rfl⟩ | ⟨b, hb, hn, rfl⟩
    · left
      exact ⟨_, hn, by rw [exampleFile_top hb]; simp [FPath.joinpath]⟩
    · right
      exact ⟨_, hn, by rw [exampleFile_sub hb]; simp [FPath.joinpath, morphDir]⟩
  · intro n hn h1 h2
    rcases h.top n hn with rfl | rfl | ⟨b, hb, hb1, hb2, rfl⟩
    · exact absurd rfl h1
    · exact absurd rfl h2
    refine ⟨b, ⟨(hdesc b).2 (Or.inl ⟨b, hb, hb1, hb2, hn, rfl⟩), by
      rw [exampleFile_top hb]; simp [FPath.joinpath]⟩, ?_⟩
    rintro ex ⟨hex, hf⟩
    rcases (hdesc ex).1 hex with ⟨b', hb', -, -, -, rfl⟩ | ⟨b', hb', -, rfl⟩
    · rw [exampleFile_top hb'] at hf
      simp only [FPath.joinpath, Bool.false_eq_true, if_false, FPath.mk.injEq, List.append_cancel_left_eq,
        List.cons.injEq, and_true, true_and] at hf
      simpa [← String.toList_inj] using hf
    · rw [exampleFile_sub hb'] at hf
      simp [FPath.joinpath] at hf
  · intro n hn
    obtain ⟨b, hb, rfl⟩ := h.sub n hn
    refine ⟨"test_morph_system" ++ "/" ++ b, ⟨(hdesc _).2 (Or.inr ⟨b, hb, hn, rfl⟩), by
      rw [exampleFile_sub hb]; simp [FPath.joinpath, morphDir]⟩, ?_⟩
    rintro ex ⟨hex, hf⟩
    rcases (hdesc ex).1 hex with ⟨b', hb', -, -, -, rfl⟩ | ⟨b', hb', -, rfl⟩
    · rw [exampleFile_top hb'] at hf
      simp [FPath.joinpath, morphDir] at hf
    · rw [exampleFile_sub hb'] at hf
      have : b' ++ ".xml" = b ++ ".xml" := by simpa [FPath.joinpath, morphDir] using hf
      have : b' = b := by simpa [← String.toList_inj] using this
      rw [this]

/-- C99: loading examples one after the other gives the systems of their files, and changes nothing. -/
theorem C99_load_examples {dir : FPath} {fs : FS String} {exs : List String}
    (hh : FPath.expanduser L.home dir = dir) (ha : dir.absolute = true)
    (hex : ∀ ex ∈ exs, (dir.joinpath (FPath.ofStr ex)).name ≠ "" ∧
      fs.Has (dir.joinpath (FPath.ofStr ex)).parent) :
    loadExamples E T J L dir exs fs = (exs.mapM fun ex => systemAt E T J L fs (exampleFile dir ex) 1, fs) := by
  induction exs with
  | nil => rfl
  | cons ex exs ih =>
    obtain ⟨hn, hd⟩ := hex ex (by simp)
    have habs : ∀ q : FPath, q.absolute = true → FPath.expanduser L.home q = q := by
      intro q hq
      unfold FPath.expanduser
      rw [hq]
    have hja : (dir.joinpath (FPath.ofStr ex)).absolute = true := by
      unfold FPath.joinpath
      split
      · assumption
      · exact ha
    have hxa : (exampleFile dir ex).absolute = true := hja
    have hp : utils.parse_path fs dir [FPath.ofStr ex] (some "xml") true true false =
        (.ok (exampleFile dir ex), fs) := by
      have := parse_xml (fs := fs) (p := dir.joinpath (FPath.ofStr ex)) hn (FS.mkdir_done hd)
      unfold utils.parse_path at this ⊢
      exact this
    have h1 : load_example E T J L dir fs ex = (systemAt E T J L fs (exampleFile dir ex) 1, fs) := by
      unfold load_example
      rw [hh, hp]
      dsimp only
      rw [C98_load (by rw [habs _ hxa]; exact xmlFile_name_ne _)
        (by rw [habs _ hxa]; unfold exampleFile; rw [xmlFile_parent]; exact hd), habs _ hxa]
      unfold exampleFile
      rw [xmlFile_idem hn]
    rw [loadExamples, h1, List.mapM_cons]
    rcases hs : systemAt E T J L fs (exampleFile dir ex) 1 with e | s
    · rfl
    · dsimp only
      rw [ih fun x hx => hex x (by simp [hx])]
      rcases hr : exs.mapM (fun ex => systemAt E T J L fs (exampleFile dir ex) 1) with e | l
      · rfl
      · rfl

/-- C99 fails: any other file in the folder is listed as an example too, and loading it raises; a model
file that is called like one of the folders is never listed. -/
theorem C99_other_files_fails {dir : FPath} {listdir : FPath → List String} :
    ("README.md" ∈ listdir dir → "README" ∈ list_examples dir listdir) ∧
      "exclude" ∉ list_examples dir listdir ∧ "test_morph_system" ∉ list_examples dir listdir ∧
      (∀ fs : FS String, fs (exampleFile dir "README") = none →
        systemAt E T J L fs (exampleFile dir "README") 1 = .error .other) := by
  refine ⟨fun h => ?_, ?_, ?_, fun fs h => ?_⟩
  · rw [mem_list_examples, examples_top]
    exact ⟨Or.inl (List.mem_map.2 ⟨_, h, by decide⟩), by decide, by decide, by decide⟩
  · rw [mem_list_examples]; simp
  · rw [mem_list_examples]; simp
  · unfold systemAt
    rw [h]

end

/-- a folder with one model, one model for morphing and the two folders -/
def tidyDir : FPath → List String := fun p =>
  if p = ⟨true, ["ring", "examples"]⟩ then ["free.xml", "exclude", "test_morph_system", "branched.xml"]
  else if p = ⟨true, ["ring", "examples", "test_morph_system"]⟩ then ["four_seg.xml"]
  else if p = ⟨true, ["ring", "examples", "exclude"]⟩ then ["knee.xml"] else []

example : Tidy ⟨true, ["ring", "examples"]⟩ tidyDir where
  top := by
    intro n hn
    have : n ∈ ["free.xml", "exclude", "test_morph_system", "branched.xml"] := hn
    simp only [List.mem_cons, List.not_mem_nil, or_false] at this
    rcases this with rfl | rfl | rfl | rfl
    · exact Or.inr (Or.inr ⟨"free", by unfold Plain; decide, by decide, by decide, by decide⟩)
    · exact Or.inr (Or.inl rfl)
    · exact Or.inl rfl
    · exact Or.inr (Or.inr ⟨"branched", by unfold Plain; decide, by decide, by decide, by decide⟩)
  sub := by
    intro n hn
    have : n ∈ ["four_seg.xml"] := hn
    simp only [List.mem_singleton] at this
    subst this
    exact ⟨"four_seg", by unfold Plain; decide, by decide⟩

/-- the listing of that folder -/
example : (list_examples ⟨true, ["ring", "examples"]⟩ tidyDir).Perm
    ["free", "branched", "test_morph_system/four_seg"] := by
  unfold list_examples
  refine (List.mergeSort_perm _ _).trans ?_
  decide

/-- loading of two of them from a file system that holds the folders and one of the files -/
example (d : Xml String) : ∃ fs : FS String,
    loadExamples xmlEnv tallyTxt xmlInit (oneDoc d) ⟨true, ["ring"]⟩ ["free", "free"] fs =
      ((do
        let s ← load_sys_from_str xmlEnv tallyTxt xmlInit 1 d
        pure [s, s]), fs) := by
  refine ⟨fun p => if p = ⟨true, ["ring"]⟩ then some .dir
    else if p = ⟨true, ["ring", "free.xml"]⟩ then some (.file "doc") else none, ?_⟩
  rw [C99_load_examples rfl rfl]
  · have : exampleFile ⟨true, ["ring"]⟩ "free" = ⟨true, ["ring", "free.xml"]⟩ := by decide
    have hs : ∀ fs : FS String, fs ⟨true, ["ring", "free.xml"]⟩ = some (.file "doc") →
        systemAt xmlEnv tallyTxt xmlInit (oneDoc d) fs ⟨true, ["ring", "free.xml"]⟩ 1 =
          load_sys_from_str xmlEnv tallyTxt xmlInit 1 d := by
      intro fs h
      unfold systemAt
      rw [h]
      rfl
    simp only [List.mapM_cons, List.mapM_nil, this]
    rw [hs _ (by rw [if_neg (by decide), if_pos rfl])]
    rcases load_sys_from_str xmlEnv tallyTxt xmlInit 1 d with e | s
    · rfl
    · rfl
  · intro ex hex
    simp only [List.mem_cons, List.not_mem_nil, or_false, or_self] at hex
    subst hex
    refine ⟨by decide, ?_⟩
    have : ((⟨true, ["ring"]⟩ : FPath).joinpath (FPath.ofStr "free")).parent = ⟨true, ["ring"]⟩ := by
      decide
    rw [this]
    intro k hk
    obtain rfl : k = 0 := by simpa using hk
    exact if_pos rfl

end io
end RingLib
