import Verif.Model.Files
import Verif.Props.Rename

/-!
# C52 and C67: files
-/

namespace RingLib
open System

/-! ## names -/

namespace FPath

theorem afterDot_append (s e : List Char) (he : '.' ∉ e) : afterDot (s ++ '.' :: e) = e := by
  unfold afterDot
  rw [List.reverse_append, List.reverse_cons, List.append_assoc,
    List.takeWhile_append_of_pos]
  · simp
  · intro c hc
    have : c ≠ '.' := by rintro rfl; exact he (List.mem_reverse.1 hc)
    simpa using this

theorem afterDot_none (name : List Char) (h : '.' ∉ name) : afterDot name = name := by
  unfold afterDot
  have := List.takeWhile_append_of_pos (p := fun c => decide (c ≠ '.')) (l₁ := name.reverse)
    (l₂ := []) (by
      intro c hc
      have : c ≠ '.' := by rintro rfl; exact h (List.mem_reverse.1 hc)
      simpa using this)
  rw [List.append_nil, List.takeWhile_nil, List.append_nil] at this
  rw [this, List.reverse_reverse]

/-- every name with a dot splits at its last dot -/
theorem split_last_dot (name : List Char) (h : '.' ∈ name) :
    ∃ s e, name = s ++ '.' :: e ∧ '.' ∉ e := by
  induction name with
  | nil => simp at h
  | cons c cs ih =>
    by_cases h' : '.' ∈ cs
    · obtain ⟨s, e, rfl, he⟩ := ih h'
      exact ⟨c :: s, e, rfl, he⟩
    · have hc : c = '.' := by
        rcases List.mem_cons.1 h with h | h
        · exact h.symm
        · exact absurd h h'
      exact ⟨[], cs, by rw [hc]; rfl, h'⟩

/-- `name` is `s` followed by an extension. -/
def HasStem (name s : List Char) : Prop :=
  s ≠ [] ∧ ∃ e, e ≠ [] ∧ '.' ∉ e ∧ name = s ++ '.' :: e

theorem suffixStart_split {s e : List Char} (he : '.' ∉ e) :
    suffixStart (s ++ '.' :: e) = if s = [] ∨ e = [] then none else some s.length := by
  unfold suffixStart
  rw [afterDot_append s e he]
  dsimp only
  simp only [List.length_append, List.length_cons]
  by_cases h : s = [] ∨ e = []
  · rw [if_pos h, if_pos]
    rcases h with rfl | rfl
    · right; right; simp
    · right; left; rfl
  · rw [if_neg h, if_neg]
    · congr 1; omega
    · push Not at h
      have h1 := List.length_pos_iff.2 h.1
      have h2 := List.length_pos_iff.2 h.2
      omega

/-- C52: what precedes the new extension is the old name without its extension, the part from the last
dot on; names that only start or end with a dot have no extension. -/
theorem C52_stem (name : List Char) :
    (∀ s, HasStem name s → stem name = s) ∧ ((¬ ∃ s, HasStem name s) → stem name = name) := by
  constructor
  · rintro s ⟨hs, e, he, hd, rfl⟩
    unfold stem
    rw [suffixStart_split hd, if_neg (by simp [hs, he])]
    simp
  · intro h
    unfold stem
    by_cases hd : '.' ∈ name
    · obtain ⟨s, e, rfl, he⟩ := split_last_dot name hd
      rw [suffixStart_split he, if_pos]
      by_contra hc
      push Not at hc
      exact h ⟨s, hc.1, e, hc.2, he, rfl⟩
    · have : suffixStart name = none := by
        unfold suffixStart
        rw [afterDot_none name hd]
        simp
      rw [this]

theorem stem_ne_nil {name : List Char} (h : name ≠ []) : stem name ≠ [] := by
  by_cases hs : ∃ s, HasStem name s
  · obtain ⟨s, hs⟩ := hs
    rw [(C52_stem name).1 s hs]
    exact hs.1
  · rw [(C52_stem name).2 hs]
    exact h

theorem name_append (a : Bool) (ps : List String) (n : String) : (⟨a, ps ++ [n]⟩ : FPath).name = n := by
  simp [name]

theorem parent_append (a : Bool) (ps : List String) (n : String) :
    (⟨a, ps ++ [n]⟩ : FPath).parent = ⟨a, ps⟩ := by
  simp [parent]

theorem with_suffix_ok {p p' : FPath} {s : String} (h : p.with_suffix s = .ok p') :
    p.name ≠ "" ∧ p' = ⟨p.absolute, p.parent.parts ++ [p'.name]⟩ ∧
      p'.name.toList = stem p.name.toList ++ s.toList := by
  unfold with_suffix at h
  split at h
  · cases h
  split at h
  · cases h
  split at h
  · cases h
  rename_i hn
  have h := Except.ok.inj h
  subst h
  refine ⟨hn, ?_, ?_⟩
  · simp [name, parent]
  · simp [name]

end FPath

/-! ## directories -/

namespace FS
variable {γ : Type}

/-- nothing that existed has changed, and only directories have been made -/
def DirsAdded (fs fs' : FS γ) : Prop :=
  ∀ q, fs' q = fs q ∨ (fs q = none ∧ fs' q = some .dir)

theorem DirsAdded.refl (fs : FS γ) : DirsAdded fs fs := fun _ => Or.inl rfl

theorem DirsAdded.trans {a b c : FS γ} (h1 : DirsAdded a b) (h2 : DirsAdded b c) :
    DirsAdded a c := by
  intro q
  rcases h1 q with h | ⟨h, h'⟩ <;> rcases h2 q with g | ⟨g, g'⟩
  · left; rw [g, h]
  · right; exact ⟨h ▸ g, g'⟩
  · right; exact ⟨h, g.trans h'⟩
  · rw [h'] at g; cases g

theorem DirsAdded.keep {fs fs' : FS γ} (h : DirsAdded fs fs') {q : FPath} {n : Node γ}
    (hq : fs q = some n) : fs' q = some n := by
  rcases h q with h | ⟨h, _⟩
  · rw [h, hq]
  · rw [hq] at h; cases h

theorem mkdirFrom_spec (a : Bool) : ∀ (todo done : List String) (fs fs' : FS γ) (r : Py Unit),
    mkdirFrom fs a done todo = (r, fs') → DirsAdded fs fs' ∧
      (∀ q, fs' q ≠ fs q → q.absolute = a ∧ q.parts.length ≤ (done ++ todo).length) ∧
      (r = .ok () → ∀ k < todo.length, fs' ⟨a, done ++ todo.take (k + 1)⟩ = some .dir) := by
  intro todo
  induction todo with
  | nil =>
    intro done fs fs' r h
    cases h
    exact ⟨DirsAdded.refl _, fun q h => absurd rfl h, fun _ k hk => by simp at hk⟩
  | cons c cs ih =>
    intro done fs fs' r h
    unfold mkdirFrom at h
    dsimp only at h
    rcases hp : fs ⟨a, done ++ [c]⟩ with _ | ⟨f⟩ | _
    · rw [hp] at h
      dsimp only at h
      obtain ⟨i1, i2, i3⟩ := ih _ _ _ _ h
      have hstep : DirsAdded fs (fs.set ⟨a, done ++ [c]⟩ .dir) := by
        intro q
        by_cases hq : q = ⟨a, done ++ [c]⟩
        · subst hq; right; exact ⟨hp, by simp [set]⟩
        · left; simp [set, hq]
      refine ⟨hstep.trans i1, ?_, ?_⟩
      · intro q hq
        by_cases hqp : q = ⟨a, done ++ [c]⟩
        · subst hqp; simp
        · have := i2 q (by simpa [set, hqp] using hq)
          simpa using this
      · intro hr k hk
        cases k with
        | zero =>
          have : (fs.set ⟨a, done ++ [c]⟩ .dir) ⟨a, done ++ [c]⟩ = some .dir := by simp [set]
          simpa using i1.keep this
        | succ k => simpa using i3 hr k (by simpa using hk)
    · rw [hp] at h
      cases h
      exact ⟨DirsAdded.refl _, fun q h => absurd rfl h, fun hr => by cases hr⟩
    · rw [hp] at h
      dsimp only at h
      obtain ⟨i1, i2, i3⟩ := ih _ _ _ _ h
      refine ⟨i1, ?_, ?_⟩
      · intro q hq
        simpa using i2 q hq
      · intro hr k hk
        cases k with
        | zero => simpa using i1.keep hp
        | succ k => simpa using i3 hr k (by simpa using hk)

theorem mkdirFrom_done (a : Bool) : ∀ (todo done : List String) (fs : FS γ),
    (∀ k < todo.length, fs ⟨a, done ++ todo.take (k + 1)⟩ = some .dir) →
    mkdirFrom fs a done todo = (.ok (), fs) := by
  intro todo
  induction todo with
  | nil => intro done fs _; rfl
  | cons c cs ih =>
    intro done fs h
    unfold mkdirFrom
    dsimp only
    have h0 : fs ⟨a, done ++ [c]⟩ = some .dir := by simpa using h 0 (by simp)
    rw [h0]
    dsimp only
    apply ih
    intro k hk
    simpa using h (k + 1) (by simpa using hk)

/-- every directory on the way to `p`, including `p`, exists -/
def Has (fs : FS γ) (p : FPath) : Prop :=
  ∀ k < p.parts.length, fs ⟨p.absolute, p.parts.take (k + 1)⟩ = some .dir

theorem mkdir_ok {fs fs' : FS γ} {p : FPath} (h : fs.mkdir p = (.ok (), fs')) : fs'.Has p := by
  intro k hk
  simpa using (mkdirFrom_spec _ _ _ _ _ _ h).2.2 rfl k hk

theorem mkdir_done {fs : FS γ} {p : FPath} (h : fs.Has p) : fs.mkdir p = (.ok (), fs) :=
  mkdirFrom_done _ _ _ _ (fun k hk => by simpa using h k hk)

theorem Has.isDir {fs : FS γ} {p : FPath} (h : fs.Has p) : fs.isDir p = true := by
  unfold FS.isDir
  by_cases hp : p.parts = []
  · simp [hp]
  · have hl := List.length_pos_iff.2 hp
    have := h (p.parts.length - 1) (by omega)
    rw [show p.parts.length - 1 + 1 = p.parts.length by omega, List.take_length] at this
    rw [show (⟨p.absolute, p.parts⟩ : FPath) = p from rfl] at this
    rw [this]
    simp

theorem Has.set {fs : FS γ} {p q : FPath} {n : Node γ} (h : fs.Has p)
    (hq : p.parts.length < q.parts.length) : (fs.set q n).Has p := by
  intro k hk
  unfold FS.set
  rw [if_neg]
  · exact h k hk
  · rintro rfl
    simp at hq

end FS

namespace utils
open FS
variable {γ : Type}

theorem dotted_ends (e : String) :
    (dotted e).toList = e.toList ∨ (dotted e).toList = '.' :: e.toList := by
  unfold dotted
  split
  · split
    · right; simp
    · left; rfl
  · left; rfl

/-- C52: with an extension the name of the parsed path ends in it, after a nonempty stem; the folder is
that of the joined path. -/
theorem C52_extension {fs fs' : FS γ} {path p : FPath} {join : List FPath} {e : String}
    {ok mk req : Bool} (h : parse_path fs path join (some e) ok mk req = (.ok p, fs')) :
    ∃ st, st ≠ [] ∧ st = FPath.stem (join.foldl FPath.joinpath path).name.toList ∧
      p = ⟨(join.foldl FPath.joinpath path).absolute,
        (join.foldl FPath.joinpath path).parent.parts ++ [p.name]⟩ ∧
      (p.name.toList = st ++ e.toList ∨ p.name.toList = st ++ '.' :: e.toList) := by
  unfold parse_path at h
  dsimp only at h
  rcases hw : (join.foldl FPath.joinpath path).with_suffix (dotted e) with err | p'
  · rw [hw] at h; cases h
  · rw [hw] at h
    dsimp only at h
    have hp : p' = p := by
      split at h
      · cases h
      · split at h
        · cases h
        · split at h
          · cases h
          · exact Except.ok.inj (Prod.mk.inj h).1
    subst hp
    obtain ⟨h1, h2, h3⟩ := FPath.with_suffix_ok hw
    refine ⟨_, FPath.stem_ne_nil ?_, rfl, h2, ?_⟩
    · intro hn
      exact h1 (String.toList_inj.1 (by rw [hn]; rfl))
    · rcases dotted_ends e with hd | hd
      · left; rw [h3, hd]
      · right; rw [h3, hd]

/-- What parsing a path does to the file system: it may make directories, and refuses paths that exist
unless that is allowed. -/
theorem parse_path_spec {fs fs' : FS γ} {path : FPath} {join : List FPath} {e : Option String}
    {ok mk req : Bool} {r : Py FPath} (h : parse_path fs path join e ok mk req = (r, fs')) :
    DirsAdded fs fs' ∧ (∀ p, r = .ok p → (ok = false → fs.exists? p = false) ∧
      (mk = true → fs'.Has p.parent ∧
        ∀ q, fs' q ≠ fs q → q.parts.length ≤ p.parent.parts.length)) := by
  unfold parse_path at h
  dsimp only at h
  split at h
  · cases h
    exact ⟨DirsAdded.refl _, fun p hp => by cases hp⟩
  · split at h
    · cases h
      exact ⟨DirsAdded.refl _, fun p hp => by cases hp⟩
    · rename_i p' _ hex
      cases mk with
      | false =>
        simp only [Bool.false_eq_true, if_false] at h
        split at h
        · cases h
          exact ⟨DirsAdded.refl _, fun p hp => by cases hp⟩
        · cases h
          refine ⟨DirsAdded.refl _, fun p hp => ?_⟩
          cases hp
          exact ⟨fun ho => by simpa [ho] using hex, fun hm => by simp at hm⟩
      | true =>
        simp only [if_true] at h
        rcases hmk : fs.mkdir p'.parent with ⟨r', fs1⟩
        obtain ⟨m1, m2, -⟩ := mkdirFrom_spec _ _ _ _ _ _ hmk
        rw [hmk] at h
        cases r' with
        | error e =>
          cases h
          exact ⟨m1, fun p hp => by cases hp⟩
        | ok u =>
          dsimp only at h
          split at h
          · cases h
            exact ⟨m1, fun p hp => by cases hp⟩
          · cases h
            refine ⟨m1, fun p hp => ?_⟩
            cases hp
            exact ⟨fun ho => by simpa [ho] using hex, fun _ => ⟨mkdir_ok hmk, fun q hq => by
              simpa using (m2 q hq).2⟩⟩

/-- C52: saving without permission to overwrite leaves everything that existed as it was, whether it
succeeds or raises; a success stores the object in a file that did not exist, whose name ends in
`.pickle`. -/
theorem C52_pickle {fs fs' : FS γ} {obj : γ} {path : FPath} {r : Py Unit}
    (h : pickle_save fs obj path false = (r, fs')) :
    (∀ q n, fs q = some n → fs' q = some n) ∧
    (r = .ok () → ∃ p, p.parent = path.parent ∧
      p.name.toList = FPath.stem path.name.toList ++ ".pickle".toList ∧ fs p = none ∧
      fs' p = some (.file obj) ∧ ∀ q c, q ≠ p → (fs' q = some (.file c) ↔ fs q = some (.file c))) ∧
    (∀ e, r = .error e → ∀ q c, fs' q = some (.file c) → fs q = some (.file c)) := by
  unfold pickle_save at h
  rcases hp : parse_path fs path [] (some "pickle") false true false with ⟨r1, fs1⟩
  obtain ⟨p1, p2⟩ := parse_path_spec hp
  have hfile : ∀ q c, fs1 q = some (.file c) → fs q = some (.file c) := by
    intro q c hq
    rcases p1 q with h' | ⟨_, h'⟩
    · rw [← h', hq]
    · rw [h'] at hq; cases hq
  rw [hp] at h
  cases r1 with
  | error e =>
    cases h
    exact ⟨fun q n hq => p1.keep hq, fun hr => (by cases hr), fun _ _ => hfile⟩
  | ok p =>
    dsimp only at h
    unfold FS.write at h
    have hnew : fs.exists? p = false := (p2 p rfl).1 rfl
    have hnone : fs p = none := by
      unfold FS.exists? at hnew
      simp at hnew
      exact hnew.2
    split at h
    · cases h
      exact ⟨fun q n hq => p1.keep hq, fun hr => (by cases hr), fun _ _ => hfile⟩
    · cases h
      obtain ⟨st, -, hst, hpp, hname⟩ := C52_extension hp
      refine ⟨?_, fun _ => ⟨p, ?_, ?_, hnone, by simp [FS.set], ?_⟩, fun e he => (by cases he)⟩
      · intro q n hq
        have : q ≠ p := by rintro rfl; rw [hnone] at hq; cases hq
        simp only [FS.set, if_neg this]
        exact p1.keep hq
      · rw [hpp, FPath.parent_append]
        rfl
      · unfold parse_path at hp
        dsimp only at hp
        rcases hw : FPath.with_suffix ([].foldl FPath.joinpath path) (dotted "pickle") with e | p'
        · rw [hw] at hp; cases hp
        · rw [hw] at hp
          dsimp only at hp
          have : p' = p := by
            split at hp
            · cases hp
            · split at hp
              · cases hp
              · split at hp
                · cases hp
                · exact Except.ok.inj (Prod.mk.inj hp).1
          subst this
          exact (FPath.with_suffix_ok hw).2.2
      · intro q c hq
        simp only [FS.set, if_neg hq]
        exact ⟨hfile q c, fun h => p1.keep h⟩

/-- the file a pickle is stored in -/
def pickleFile (path : FPath) : FPath :=
  ⟨path.absolute, path.parts.dropLast ++
    [String.ofList (FPath.stem path.name.toList ++ ".pickle".toList)]⟩

theorem with_suffix_pickle {path : FPath} (h : path.name ≠ "") :
    path.with_suffix (dotted "pickle") = .ok (pickleFile path) := by
  have hd : dotted "pickle" = ".pickle" := by decide
  rw [hd]
  unfold FPath.with_suffix
  rw [if_neg (by decide), if_neg (by decide), if_neg h]
  rfl

theorem pickleFile_parent (path : FPath) : (pickleFile path).parent = path.parent := by
  simp [pickleFile, FPath.parent]

theorem pickleFile_nonroot (path : FPath) : (pickleFile path).parts ≠ [] := by
  simp [pickleFile]

theorem pickleFile_length (path : FPath) :
    (pickleFile path).parent.parts.length < (pickleFile path).parts.length := by
  simp [pickleFile, FPath.parent]

theorem parse_pickle {fs fs1 : FS γ} {path : FPath} {ow : Bool} (hn : path.name ≠ "")
    (how : ow = false → fs (pickleFile path) = none)
    (hmk : fs.mkdir path.parent = (.ok (), fs1)) :
    parse_path fs path [] (some "pickle") ow true false = (.ok (pickleFile path), fs1) := by
  unfold parse_path
  simp only [List.foldl_nil]
  rw [with_suffix_pickle hn]
  dsimp only
  rw [if_neg, pickleFile_parent]
  · simp only [if_true, hmk]
    simp
  · rintro ⟨h, h'⟩
    simp [FS.exists?, how h, pickleFile_nonroot] at h'

theorem pickle_save_eq {fs fs1 : FS γ} {obj : γ} {path : FPath} {ow : Bool} (hn : path.name ≠ "")
    (how : ow = false → fs (pickleFile path) = none)
    (hmk : fs.mkdir path.parent = (.ok (), fs1))
    (hdir : fs1 (pickleFile path) ≠ some .dir) :
    pickle_save fs obj path ow = (.ok (), fs1.set (pickleFile path) (.file obj)) := by
  unfold pickle_save
  rw [parse_pickle hn how hmk]
  dsimp only
  unfold FS.write
  rw [if_neg]
  rintro (h | h)
  · unfold FS.isDir at h
    rw [decide_eq_false (pickleFile_nonroot path), Bool.false_or] at h
    split at h
    · rename_i hd; exact hdir hd
    · cases h
  · rw [pickleFile_parent, (mkdir_ok hmk).isDir] at h
    cases h

/-- C52: a file or directory at the target is an error, and nothing is touched. -/
theorem C52_exists {fs : FS γ} {obj : γ} {path : FPath} {n : Node γ} (hn : path.name ≠ "")
    (h : fs (pickleFile path) = some n) :
    pickle_save fs obj path false = (.error .fileExists, fs) := by
  unfold pickle_save parse_path
  simp only [List.foldl_nil]
  rw [with_suffix_pickle hn]
  dsimp only
  rw [if_pos ⟨trivial, by simp [FS.exists?, h]⟩]

/-- C52: with permission to overwrite only the target and missing folders on the way to it change. -/
theorem C52_overwrite {fs fs' : FS γ} {obj : γ} {path : FPath} {r : Py Unit}
    (h : pickle_save fs obj path true = (r, fs')) (q : FPath) (hq : q ≠ pickleFile path) :
    fs' q = fs q ∨ (fs q = none ∧ fs' q = some .dir) := by
  unfold pickle_save at h
  rcases hp : parse_path fs path [] (some "pickle") true true false with ⟨r1, fs1⟩
  obtain ⟨p1, p2⟩ := parse_path_spec hp
  rw [hp] at h
  cases r1 with
  | error e => cases h; exact p1 q
  | ok p =>
    dsimp only at h
    unfold FS.write at h
    split at h
    · cases h; exact p1 q
    · cases h
      have : p = pickleFile path := by
        have hn : path.name ≠ "" := by
          rintro hn
          have : path.with_suffix (dotted "pickle") = .error .value := by
            have hd : dotted "pickle" = ".pickle" := by decide
            rw [hd]
            unfold FPath.with_suffix
            rw [if_neg (by decide), if_neg (by decide), if_pos hn]
          unfold parse_path at hp
          simp only [List.foldl_nil] at hp
          rw [this] at hp
          cases hp
        unfold parse_path at hp
        simp only [List.foldl_nil] at hp
        rw [with_suffix_pickle hn] at hp
        dsimp only at hp
        split at hp
        · cases hp
        · split at hp
          · cases hp
          · split at hp
            · cases hp
            · exact (Except.ok.inj (Prod.mk.inj hp).1).symm
      subst this
      simp only [FS.set, if_neg hq]
      exact p1 q

/-- C52: what was saved is what is loaded from the same path. -/
theorem C52_roundtrip {fs fs1 : FS γ} {obj : γ} {path : FPath} {ow : Bool} (hn : path.name ≠ "")
    (how : ow = false → fs (pickleFile path) = none)
    (hmk : fs.mkdir path.parent = (.ok (), fs1))
    (hdir : fs1 (pickleFile path) ≠ some .dir) :
    ∃ fs', pickle_save fs obj path ow = (.ok (), fs') ∧ pickle_load fs' path = (.ok obj, fs') := by
  refine ⟨_, pickle_save_eq hn how hmk hdir, ?_⟩
  have hhas : (fs1.set (pickleFile path) (.file obj)).Has path.parent := by
    apply (mkdir_ok hmk).set
    have := pickleFile_length path
    rwa [pickleFile_parent] at this
  unfold pickle_load parse_path
  simp only [List.foldl_nil]
  rw [with_suffix_pickle hn]
  dsimp only
  rw [if_neg (by simp), pickleFile_parent]
  simp only [if_true, mkdir_done hhas]
  rw [if_neg]
  · simp [FS.set]
  · simp [FS.isFile, FS.set]

end utils

namespace generator
open FS utils
variable {γ : Type}

/-! ## C67: folders -/

/-- the file of the `i`-th sequence -/
def seqFile (path : FPath) (file_prefix : String) (i : Nat) : FPath :=
  ⟨path.absolute, path.parts ++ [file_prefix ++ toString i ++ ".pickle"]⟩

/-- `path / (prefix + str(i))`, the path that is checked -/
def seqPath (path : FPath) (file_prefix : String) (i : Nat) : FPath :=
  ⟨path.absolute, path.parts ++ [file_prefix ++ toString i]⟩

theorem no_dot_toString (i : Nat) : '.' ∉ (toString i).toList := by
  rw [Nat.toString_eq_repr, Nat.toList_repr]
  intro h
  have := Nat.isDigit_of_mem_toDigits (by norm_num) (by norm_num) h
  exact absurd this (by decide)

theorem toString_ne_empty (i : Nat) : toString i ≠ "" := by
  rw [Nat.toString_eq_repr]
  exact Nat.repr_ne_empty

theorem seqPath_name (path : FPath) (file_prefix : String) (i : Nat) :
    (seqPath path file_prefix i).name = file_prefix ++ toString i := FPath.name_append _ _ _

theorem seqPath_name_ne (path : FPath) (file_prefix : String) (i : Nat) :
    (seqPath path file_prefix i).name ≠ "" := by
  rw [seqPath_name]
  intro h
  have h := congrArg String.toList h
  rw [String.toList_append] at h
  have h2 : (toString i).toList = [] := (List.append_eq_nil_iff.1 h).2
  exact toString_ne_empty i (String.toList_inj.1 (by rw [h2]; rfl))

theorem pickleFile_seqPath {path : FPath} {file_prefix : String} (hd : '.' ∉ file_prefix.toList)
    (i : Nat) : pickleFile (seqPath path file_prefix i) = seqFile path file_prefix i := by
  unfold pickleFile seqFile
  rw [seqPath_name]
  have hnd : '.' ∉ (file_prefix ++ toString i).toList := by
    rw [String.toList_append]
    intro h
    rcases List.mem_append.1 h with h | h
    · exact hd h
    · exact no_dot_toString i h
  have hst : FPath.stem (file_prefix ++ toString i).toList = (file_prefix ++ toString i).toList := by
    apply (FPath.C52_stem _).2
    rintro ⟨s, _, e, _, _, h⟩
    apply hnd
    rw [h]
    simp
  rw [hst, ← String.toList_append, String.ofList_toList]
  simp [seqPath]

theorem seqFile_inj {path : FPath} {file_prefix : String} {i j : Nat}
    (h : seqFile path file_prefix i = seqFile path file_prefix j) : i = j := by
  unfold seqFile at h
  have h := (FPath.mk.inj h).2
  have h := List.append_cancel_left h
  have h := (List.cons.inj h).1
  have h := congrArg String.toList h
  simp only [String.toList_append] at h
  have h := List.append_cancel_right h
  have h := List.append_cancel_left h
  exact toString_nat_inj (String.toList_inj.1 h)

theorem to_folder_loop {path : FPath} {file_prefix : String} (hd : '.' ∉ file_prefix.toList)
    (ow : Bool) : ∀ (data : List γ) (fs : FS γ) (i : Nat), fs.Has path →
    (ow = false → ∀ j, fs (seqPath path file_prefix j) = none) →
    (∀ j, fs (seqFile path file_prefix j) ≠ some .dir) →
    ∃ fs', toFolderLoop path ow file_prefix default_save_fn fs i data = (.ok (i + data.length), fs') ∧
      (∀ j x, data[j]? = some x → fs' (seqFile path file_prefix (i + j)) = some (.file x)) ∧
      (∀ q, (∀ j < data.length, q ≠ seqFile path file_prefix (i + j)) → fs' q = fs q) := by
  intro data
  induction data with
  | nil =>
    intro fs i _ _ _
    exact ⟨fs, rfl, fun j x h => by simp at h, fun q _ => rfl⟩
  | cons d ds ih =>
    intro fs i hhas hnew hdir
    have hjoin : ([⟨false, [file_prefix ++ toString i]⟩] : List FPath).foldl FPath.joinpath path =
        seqPath path file_prefix i := rfl
    have hpar : (seqPath path file_prefix i).parent = path := FPath.parent_append _ _ _
    have hparse : parse_path fs path [⟨false, [file_prefix ++ toString i]⟩] none ow true false =
        (.ok (seqPath path file_prefix i), fs) := by
      unfold parse_path
      rw [hjoin]
      dsimp only
      rw [if_neg, hpar]
      · simp only [if_true, mkdir_done hhas]
        simp
      · rintro ⟨h, h'⟩
        have : (seqPath path file_prefix i).parts ≠ [] := by simp [seqPath]
        simp [FS.exists?, hnew h i, this] at h'
    have hsave : default_save_fn fs d (seqPath path file_prefix i) =
        (.ok (), fs.set (seqFile path file_prefix i) (.file d)) := by
      unfold default_save_fn
      rw [pickle_save_eq (fs1 := fs) (seqPath_name_ne _ _ _) (fun h => by cases h)
        (by rw [hpar]; exact mkdir_done hhas)
        (by rw [pickleFile_seqPath hd]; exact hdir i), pickleFile_seqPath hd]
    unfold toFolderLoop
    rw [hparse]
    dsimp only
    rw [hsave]
    dsimp only
    have hhas' : (fs.set (seqFile path file_prefix i) (.file d)).Has path :=
      hhas.set (by simp [seqFile])
    have hne : ∀ j, seqPath path file_prefix j ≠ seqFile path file_prefix i := by
      intro j h
      unfold seqPath seqFile at h
      have h := (FPath.mk.inj h).2
      have h := List.append_cancel_left h
      have h := (List.cons.inj h).1
      have h := congrArg String.toList h
      have hnd : '.' ∉ (file_prefix ++ toString j).toList := by
        rw [String.toList_append]
        intro h
        rcases List.mem_append.1 h with h | h
        · exact hd h
        · exact no_dot_toString j h
      apply hnd
      rw [h]
      simp
    obtain ⟨fs', e1, e2, e3⟩ := ih (fs.set (seqFile path file_prefix i) (.file d)) (i + 1) hhas'
      (fun h j => by
        unfold FS.set
        rw [if_neg (hne j)]
        exact hnew h j)
      (fun j => by
        unfold FS.set
        split
        · simp
        · exact hdir j)
    refine ⟨fs', ?_, ?_, ?_⟩
    · rw [e1, List.length_cons]
      congr 2
      omega
    · intro j x hx
      cases j with
      | zero =>
        simp at hx; subst hx
        rw [e3]
        · simp [FS.set]
        · intro j _ h
          have := seqFile_inj h
          omega
      | succ j =>
        have := e2 j x (by simpa using hx)
        rwa [show i + 1 + j = i + (j + 1) by omega] at this
    · intro q hq
      rw [e3]
      · unfold FS.set
        rw [if_neg]
        exact hq 0 (by simp)
      · intro j hj
        have := hq (j + 1) (by simpa using hj)
        rwa [show i + (j + 1) = i + 1 + j by omega] at this

/-- C67, partially: writing sequences to a folder stores the `i`-th one in the file numbered `i`, every
one in a file of its own, and touches nothing else but the folder, which exists then. Missing: prefixes with a dot, see
`C67_prefix_fails`. -/
theorem C67_to_folder_partial {path : FPath} {file_prefix : String}
    (hd : '.' ∉ file_prefix.toList) {ow : Bool} {data : List γ} (hne : data ≠ []) {fs fs1 : FS γ}
    (hmk : fs.mkdir path = (.ok (), fs1))
    (hnew : ow = false → ∀ j, fs (seqPath path file_prefix j) = none)
    (hdir : ∀ j, fs (seqFile path file_prefix j) ≠ some .dir) :
    ∃ fs', to_folder fs path ow file_prefix default_save_fn data = (.ok data.length, fs') ∧
      (∀ i x, data[i]? = some x → fs' (seqFile path file_prefix i) = some (.file x)) ∧
      (∀ i j, seqFile path file_prefix i = seqFile path file_prefix j → i = j) ∧
      (∀ q, (∀ i < data.length, q ≠ seqFile path file_prefix i) →
        fs' q = fs q ∨ (fs q = none ∧ fs' q = some .dir ∧ q.parts.length ≤ path.parts.length)) ∧
      fs'.Has path := by
  obtain ⟨m1, m2, -⟩ := mkdirFrom_spec _ _ _ _ _ _ hmk
  have hlong : ∀ q : FPath, path.parts.length < q.parts.length → fs1 q = fs q := by
    intro q hq
    by_contra hc
    have := (m2 q hc).2
    simp at this
    omega
  have hs1 : ∀ j, fs1 (seqPath path file_prefix j) = fs (seqPath path file_prefix j) := fun j =>
    hlong _ (by simp [seqPath])
  have hs2 : ∀ j, fs1 (seqFile path file_prefix j) = fs (seqFile path file_prefix j) := fun j =>
    hlong _ (by simp [seqFile])
  obtain ⟨fs', e1, e2, e3⟩ := to_folder_loop hd ow data fs1 0 (mkdir_ok hmk)
    (fun h j => by rw [hs1]; exact hnew h j) (fun j => by rw [hs2]; exact hdir j)
  -- the first pass makes the folder
  have hfirst : toFolderLoop path ow file_prefix default_save_fn fs 0 data =
      toFolderLoop path ow file_prefix default_save_fn fs1 0 data := by
    obtain ⟨d, ds, rfl⟩ := List.exists_cons_of_ne_nil hne
    have hjoin : ([⟨false, [file_prefix ++ toString 0]⟩] : List FPath).foldl FPath.joinpath path =
        seqPath path file_prefix 0 := rfl
    have hpar : (seqPath path file_prefix 0).parent = path := FPath.parent_append _ _ _
    have hp : ∀ fs0 : FS γ, fs0.mkdir path = (.ok (), fs1) →
        (ow = false → fs0 (seqPath path file_prefix 0) = none) →
        parse_path fs0 path [⟨false, [file_prefix ++ toString 0]⟩] none ow true false =
        (.ok (seqPath path file_prefix 0), fs1) := by
      intro fs0 h0 h0'
      unfold parse_path
      rw [hjoin]
      dsimp only
      rw [if_neg, hpar]
      · simp only [if_true, h0]
        simp
      · rintro ⟨h, h'⟩
        have : (seqPath path file_prefix 0).parts ≠ [] := by simp [seqPath]
        simp [FS.exists?, h0' h, this] at h'
    unfold toFolderLoop
    rw [hp fs hmk (fun h => hnew h 0), hp fs1 (mkdir_done (mkdir_ok hmk))
      (fun h => by rw [hs1]; exact hnew h 0)]
  refine ⟨fs', ?_, ?_, fun i j h => seqFile_inj h, ?_, ?_⟩
  · unfold to_folder
    rw [hfirst, e1, Nat.zero_add]
  · intro i x hx
    have := e2 i x hx
    rwa [Nat.zero_add] at this
  · intro q hq
    have := e3 q (fun j hj => by rw [Nat.zero_add]; exact hq j hj)
    rw [this]
    rcases m1 q with h | ⟨h, h'⟩
    · exact Or.inl h
    · refine Or.inr ⟨h, h', ?_⟩
      have := (m2 q (by rw [h, h']; simp)).2
      simpa using this
  · intro k hk
    rw [e3 _ (fun j hj h => by
      have := congrArg (fun q : FPath => q.parts.length) h
      simp [seqFile] at this
      omega)]
    exact mkdir_ok hmk k hk

/-- the folder `data` with the pickle of sequence 0 -/
def exFolder : FS Nat := fun q =>
  if q = ⟨false, ["data"]⟩ then some .dir
  else if q = ⟨false, ["data", "seq0.pickle"]⟩ then some (.file 7) else none

/-- C52 fails for folders: with `overwrite=False` the file of an earlier run is replaced, because the
path without the extension is checked and the default `save_fn` overwrites. -/
theorem C52_folder_fails :
    exFolder ⟨false, ["data", "seq0.pickle"]⟩ = some (.file 7) ∧
    ∃ fs', to_folder exFolder ⟨false, ["data"]⟩ false "seq" default_save_fn [8] = (.ok 1, fs') ∧
      fs' ⟨false, ["data", "seq0.pickle"]⟩ = some (.file 8) := by
  refine ⟨rfl, ?_⟩
  have hmk : exFolder.mkdir ⟨false, ["data"]⟩ = (.ok (), exFolder) := mkdir_done (by
    intro k hk
    have : k = 0 := by simpa using hk
    subst this
    rfl)
  have hle : ∀ (s : String) (j : Nat), "seq" ++ toString j ≠ "seq0.pickle" := by
    intro s j h
    have h := congrArg String.toList h
    rw [String.toList_append] at h
    have : '.' ∈ "seq".toList ++ (toString j).toList := by rw [h]; decide
    rcases List.mem_append.1 this with h | h
    · revert h; decide
    · exact no_dot_toString j h
  obtain ⟨fs', h1, h2, -, -⟩ := C67_to_folder_partial (path := ⟨false, ["data"]⟩)
    (file_prefix := "seq") (by decide) (ow := false) (data := [8]) (by simp) hmk
    (by
      intro _ j
      unfold exFolder seqPath
      rw [if_neg (by simp), if_neg]
      intro h
      simp at h
      exact hle "" j h)
    (by
      intro j
      unfold exFolder seqFile
      rw [if_neg (by simp)]
      split <;> simp)
  exact ⟨fs', h1, h2 0 8 rfl⟩

/-- C67 fails for prefixes with a dot: what follows the dot, including the number, is taken for an
extension and replaced, so that all sequences end up in one file. -/
theorem C67_prefix_fails :
    ∃ fs', to_folder (fun _ => none) ⟨false, ["data"]⟩ true "v1.0_" default_save_fn [1, 2, 3] =
      (.ok 3, fs') ∧ fs' ⟨false, ["data", "v1.pickle"]⟩ = some (.file 3) ∧
      ∀ q c, fs' q = some (.file c) → q = ⟨false, ["data", "v1.pickle"]⟩ := by
  refine ⟨(((FS.set (fun _ => none) ⟨false, ["data"]⟩ .dir).set
    ⟨false, ["data", "v1.pickle"]⟩ (.file 1)).set ⟨false, ["data", "v1.pickle"]⟩ (.file 2)).set
    ⟨false, ["data", "v1.pickle"]⟩ (.file 3), rfl, rfl, ?_⟩
  intro q c h
  by_contra hq
  unfold FS.set at h
  rw [if_neg hq, if_neg hq, if_neg hq] at h
  split at h <;> cases h

/-! ### examples -/

example : (⟨false, ["out", "run.v2.tar"]⟩ : FPath).name ≠ "" ∧
    pickleFile ⟨false, ["out", "run.v2.tar"]⟩ = ⟨false, ["out", "run.v2.pickle"]⟩ ∧
    exFolder (pickleFile ⟨false, ["data", "seq0"]⟩) = some (.file 7) := by
  refine ⟨by decide, by decide, rfl⟩

example : ∃ fs1, exFolder.mkdir (⟨false, ["data", "a", "b"]⟩ : FPath).parent = (.ok (), fs1) ∧
    fs1 (pickleFile ⟨false, ["data", "a", "b"]⟩) = none := ⟨_, rfl, rfl⟩

end generator
end RingLib
