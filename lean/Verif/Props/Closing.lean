import Verif.Model.Closing
import Verif.Props.Files
import Verif.Props.Metrics
import Verif.Props.Pipeline

/-!
# C84: loggers and the end of a run
-/

namespace RingLib.ml
open FS utils

variable {R P O L γ σ : Type}

/-! ## The series of the logger -/

/-- The number of parameters is the number of all entries of all arrays. -/
theorem C84_n_params (params : Leaves R) : n_params params = params.flatten.length := by
  rw [n_params, List.length_flatten]

/-- What one call logs under a key: the flattened metric of that name, if it is finite. -/
def loggedAt (m : Metrices R) (k : String) : Option (Fl R) :=
  ((_flatten_dict m).lookup k).filter fun v => v.notFinite = false

theorem lookup_filter_snd (p : Fl R → Bool) (k : String) : ∀ {l : Dict (Fl R)}, l.keys.Nodup →
    (l.filter fun x => p x.2).lookup k = (l.lookup k).filter p := by
  intro l
  induction l with
  | nil => intro _; rfl
  | cons x xs ih =>
    intro h
    obtain ⟨a, v⟩ := x
    rw [Dict.keys, List.map_cons, List.nodup_cons] at h
    have ih := ih h.2
    by_cases hk : k = a
    · subst hk
      have hnone : xs.lookup k = none := by
        rw [List.lookup_eq_none_iff]
        intro y hy
        have : k ≠ y.1 := fun e => h.1 (List.mem_map.2 ⟨y, hy, e.symm⟩)
        simpa using this
      by_cases hp : p v = true
      · rw [List.filter_cons_of_pos (by simpa using hp)]
        simp [Option.filter, hp]
      · rw [List.filter_cons_of_neg (by simpa using hp), ih, hnone]
        simp [Option.filter, hp]
    · have hk' : (k == a) = false := by simpa using hk
      by_cases hp : p v = true
      · rw [List.filter_cons_of_pos (by simpa using hp)]
        simp [List.lookup_cons, hk', ih]
      · rw [List.filter_cons_of_neg (by simpa using hp), ih]
        simp [List.lookup_cons, hk']

theorem logItems (k : String) : ∀ (items : Dict (Fl R)) (logs : Dict (List (Fl R))),
    items.keys.Nodup →
    (((items.foldl (fun logs x => DictLogger.log_key_value logs x.1 x.2) logs).lookup k).getD [] =
      (logs.lookup k).getD [] ++ (items.lookup k).toList) ∧
    ((items.foldl (fun logs x => DictLogger.log_key_value logs x.1 x.2) logs).lookup k = none ↔
      logs.lookup k = none ∧ items.lookup k = none) := by
  intro items
  induction items with
  | nil => intro logs _; simp
  | cons x xs ih =>
    intro logs h
    obtain ⟨a, v⟩ := x
    rw [Dict.keys, List.map_cons, List.nodup_cons] at h
    rw [List.foldl_cons]
    obtain ⟨h1, h2⟩ := ih (DictLogger.log_key_value logs a v) h.2
    have hset : (DictLogger.log_key_value logs a v).lookup k =
        if k = a then some ((logs.lookup a).getD [] ++ [v]) else logs.lookup k :=
      Dict.lookup_set _ _ _ _
    rw [hset] at h1 h2
    by_cases hk : k = a
    · subst hk
      have hnone : xs.lookup k = none := by
        rw [List.lookup_eq_none_iff]
        intro y hy
        have : k ≠ y.1 := fun e => h.1 (List.mem_map.2 ⟨y, hy, e.symm⟩)
        simpa using this
      rw [if_pos rfl] at h1 h2
      refine ⟨?_, ?_⟩
      · rw [h1, hnone]; simp
      · rw [h2]; simp
    · have hk' : (k == a) = false := by simpa using hk
      rw [if_neg hk] at h1 h2
      refine ⟨?_, ?_⟩
      · rw [h1]; simp [List.lookup_cons, hk']
      · rw [h2]; simp [List.lookup_cons, hk']

theorem flatten_nodup {β : Type} (m : Dict (Metric β)) : (_flatten_dict m).keys.Nodup :=
  Dict.keys_update_nodup _ List.nodup_nil

theorem log_lookup (logs : Dict (List (Fl R))) (m : Metrices R) (k : String) :
    ((DictLogger.log logs m).lookup k).getD [] = (logs.lookup k).getD [] ++ (loggedAt m k).toList ∧
    ((DictLogger.log logs m).lookup k = none ↔ logs.lookup k = none ∧ loggedAt m k = none) := by
  have hn : (_flatten_convert_filter_nested_dict m).keys.Nodup := by
    rw [_flatten_convert_filter_nested_dict, if_pos rfl]
    exact (flatten_nodup m).sublist (List.Sublist.map _ List.filter_sublist)
  have hl : (_flatten_convert_filter_nested_dict m).lookup k = loggedAt m k := by
    rw [_flatten_convert_filter_nested_dict, if_pos rfl]
    exact lookup_filter_snd (fun v => decide (v.notFinite = false)) k (flatten_nodup m)
  have := logItems k _ logs hn
  rw [hl] at this
  exact this

/-- C84: under every key the logger has the finite values of the calls that had one, in the order of the
calls; a key exists if there is such a value. -/
theorem C84_series (ms : List (Metrices R)) (k : String) :
    ((DictLogger.logAll ms).lookup k).getD [] = ms.filterMap (fun m => loggedAt m k) ∧
    ((DictLogger.logAll ms).lookup k = none ↔ ∀ m ∈ ms, loggedAt m k = none) := by
  have key : ∀ (ms : List (Metrices R)) (logs : Dict (List (Fl R))),
      (((ms.foldl DictLogger.log logs).lookup k).getD [] =
        (logs.lookup k).getD [] ++ ms.filterMap (fun m => loggedAt m k)) ∧
      ((ms.foldl DictLogger.log logs).lookup k = none ↔
        logs.lookup k = none ∧ ∀ m ∈ ms, loggedAt m k = none) := by
    intro ms
    induction ms with
    | nil => intro logs; simp
    | cons m ms ih =>
      intro logs
      obtain ⟨h1, h2⟩ := ih (DictLogger.log logs m)
      obtain ⟨h3, h4⟩ := log_lookup logs m k
      rw [List.foldl_cons, h1, h2, h3, h4]
      refine ⟨?_, by simp [and_assoc]⟩
      rw [List.filterMap_cons]
      cases loggedAt m k <;> simp
  have := key ms []
  simpa [DictLogger.logAll] using this

/-- C84: if the metric is finite in every episode, the value of episode `i` is entry `i`. -/
theorem C84_series_partial (ms : List (Metrices R)) (k : String) (v : Metrices R → Fl R)
    (h : ∀ m ∈ ms, loggedAt m k = some (v m)) :
    ((DictLogger.logAll ms).lookup k).getD [] = ms.map v := by
  rw [(C84_series ms k).1, List.filterMap_congr h]
  exact List.filterMap_eq_map' ▸ rfl

/-- C84: after an episode whose loss is not a number, the entries of the series no longer belong to the
episodes: entry 1 of the loss is that of episode 2. -/
theorem C84_series_fails :
    DictLogger.logAll (R := Nat)
        [[("loss", .leaf (.fin 5)), ("i_episode", .leaf (.fin 0))],
         [("loss", .leaf .nan), ("i_episode", .leaf (.fin 1))],
         [("loss", .leaf (.fin 7)), ("i_episode", .leaf (.fin 2))]] =
      [("loss", [.fin 5, .fin 7]), ("i_episode", [.fin 0, .fin 1, .fin 2])] := by
  simp [DictLogger.logAll, DictLogger.log, DictLogger.log_key_value,
    _flatten_convert_filter_nested_dict, _flatten_dict, flattenItems, flattenItem, Dict.update,
    Dict.set, Dict.keys, Fl.notFinite, List.lookup]

/-- C84: a logger with an output path never stores its logs: saving always raises, because the path
of the file has been made a directory (or was a file before). -/
theorem C84_logs_fails (fs : FS γ) (path : FPath) (logs : γ) :
    (∃ e, (DictLogger.close (some path) logs fs).1 = .error e) ∧
    ∀ q c, (DictLogger.close (some path) logs fs).2 q = some (.file c) → fs q = some (.file c) := by
  unfold DictLogger.close DictLogger.save
  dsimp only
  rcases hw : path.with_suffix ".pickle" with e | p
  · exact ⟨⟨e, rfl⟩, fun q c h => h⟩
  · dsimp only
    rcases hm : fs.mkdir p with ⟨r, fs1⟩
    have hadd : DirsAdded fs fs1 := (mkdirFrom_spec _ _ _ _ _ _ hm).1
    have hfile : ∀ q c, fs1 q = some (.file c) → fs q = some (.file c) := by
      intro q c h
      rcases hadd q with h' | ⟨_, h'⟩
      · rw [← h', h]
      · rw [h'] at h; cases h
    cases r with
    | error e => exact ⟨⟨e, rfl⟩, hfile⟩
    | ok u =>
      cases u
      have hd : fs1.isDir p = true := (mkdir_ok hm).isDir
      dsimp only
      unfold FS.write
      rw [if_pos (Or.inl hd)]
      exact ⟨⟨_, rfl⟩, hfile⟩

/-- C84: without an output path nothing is written. -/
theorem C84_logs_none (fs : FS γ) (logs : γ) : DictLogger.close none logs fs = (.ok (), fs) := rfl

/-! ## Uploads -/

theorem uploadLoop_eq (file : FPath) : ∀ (loggers : List Bool) (j : Nat) (success : Bool)
    (s : Closing γ),
    (uploadLoop file loggers j success s).fs = s.fs ∧
    (uploadLoop file loggers j success s).uploads =
      s.uploads ++ ((loggers.zipIdx j).filter (·.1)).map (fun x => (x.2, file)) ∧
    (uploadLoop file loggers j success s).warnings =
      s.warnings + if success then 0 else (loggers.takeWhile (!·)).length := by
  intro loggers
  induction loggers with
  | nil => intro j success s; simp [uploadLoop]
  | cons b bs ih =>
    intro j success s
    unfold uploadLoop
    dsimp only
    cases b <;> cases success <;>
      simp [ih, List.zipIdx_cons, Nat.add_comm, Nat.add_left_comm]

/-- C84: a file is uploaded once by every logger that can; the number of warnings is the number of
loggers before the first one that can. -/
theorem C84_upload (file : FPath) (loggers : List Bool) (s : Closing γ) :
    (uploadLoop file loggers 0 false s).fs = s.fs ∧
    (uploadLoop file loggers 0 false s).uploads =
      s.uploads ++ ((loggers.zipIdx).filter (·.1)).map (fun x => (x.2, file)) ∧
    (uploadLoop file loggers 0 false s).warnings =
      s.warnings + (loggers.takeWhile (!·)).length := by
  simpa using uploadLoop_eq file loggers 0 false s

/-- C84: the warning that no logger can upload is given although one can (and did), and is not given if
there is no logger at all. -/
theorem C84_warning_fails (file : FPath) (fs : FS γ) :
    ((uploadLoop file [false, true] 0 false ⟨fs, [], 0⟩).uploads = [(1, file)] ∧
      (uploadLoop file [false, true] 0 false ⟨fs, [], 0⟩).warnings = 1) ∧
    ((uploadLoop file [] 0 false ⟨fs, [], 0⟩).uploads = [] ∧
      (uploadLoop file [] 0 false ⟨fs, [], 0⟩).warnings = 0) := by
  simp [uploadLoop]

/-! ## Saving the parameters -/

theorem stem_of_noDot {n : List Char} (h : '.' ∉ n) : FPath.stem n = n := by
  apply (FPath.C52_stem _).2
  rintro ⟨s, _, e, _, _, h'⟩
  exact h (by rw [h']; simp)

/-- The text that tells the parameter sets apart. -/
def elementText (fmt : R → String) (ele : QueueElement R P) : String :=
  "_episode=" ++ toString ele.episode ++ "_value=" ++ fmt ele.value

/-- The file of an element of a queue of length `n` if the name without extension is `stem`. -/
def targetFile (fmt : R → String) (folder : FPath) (stem : String) (n : Nat)
    (ele : QueueElement R P) : FPath :=
  ⟨folder.absolute, folder.parts ++
    [if n = 1 then stem ++ ".pickle" else stem ++ elementText fmt ele ++ ".pickle"]⟩

theorem pickleFile_mk (a : Bool) (ps : List String) (n : String) :
    pickleFile ⟨a, ps ++ [n]⟩ =
      ⟨a, ps ++ [String.ofList (FPath.stem n.toList ++ ".pickle".toList)]⟩ := by
  unfold pickleFile
  rw [FPath.name_append]
  simp

theorem pickleFile_pickle (a : Bool) (ps : List String) (s : String) (hs : s ≠ "") :
    pickleFile ⟨a, ps ++ [s ++ ".pickle"]⟩ = ⟨a, ps ++ [s ++ ".pickle"]⟩ := by
  have hst : FPath.stem (s ++ ".pickle").toList = s.toList := by
    refine (FPath.C52_stem _).1 _ ⟨?_, "pickle".toList, by decide, by decide, ?_⟩
    · intro h; exact hs (String.toList_inj.1 (by rw [h]; rfl))
    · rw [String.toList_append]; rfl
  rw [pickleFile_mk, hst, ← String.toList_append, String.ofList_toList]

theorem with_suffix_empty {path : FPath} (h : path.name ≠ "") :
    path.with_suffix "" = .ok ⟨path.absolute, path.parts.dropLast ++
      [String.ofList (FPath.stem path.name.toList)]⟩ := by
  unfold FPath.with_suffix
  rw [if_neg (by decide), if_neg (by decide), if_neg h]
  simp

theorem elementPath_eq (fmt : R → String) {path : FPath} (h : path.name ≠ "")
    (ele : QueueElement R P) :
    elementPath fmt path ele = .ok ⟨path.absolute, path.parent.parts ++
      [String.ofList (FPath.stem path.name.toList) ++ elementText fmt ele]⟩ := by
  unfold elementPath
  rw [with_suffix_empty h]
  simp [FPath.name, FPath.parent, elementText]

/-- the path handed to `parse_path` -/
def parsedPath (fmt : R → String) (path : FPath) (n : Nat) (ele : QueueElement R P) : FPath :=
  if n = 1 then path else ⟨path.absolute, path.parent.parts ++
      [String.ofList (FPath.stem path.name.toList) ++ elementText fmt ele]⟩

theorem elementFile_eq (fmt : R → String) {path : FPath} (h : path.name ≠ "") (n : Nat)
    (ele : QueueElement R P) (fs : FS γ) :
    elementFile fmt path n ele fs =
      parse_path fs (parsedPath fmt path n ele) [] (some "pickle") true true false := by
  unfold elementFile parsedPath
  split
  · rfl
  · rw [elementPath_eq fmt h]

theorem parsedPath_name (fmt : R → String) {path : FPath} (h : path.name ≠ "") (n : Nat)
    (ele : QueueElement R P) : (parsedPath fmt path n ele).name ≠ "" := by
  unfold parsedPath
  split
  · exact h
  · rw [FPath.name_append]
    intro h'
    have := congrArg String.toList h'
    simp [elementText] at this

theorem parsedPath_parent (fmt : R → String) (path : FPath) (n : Nat)
    (ele : QueueElement R P) : (parsedPath fmt path n ele).parent = path.parent := by
  unfold parsedPath
  split
  · rfl
  · rw [FPath.parent_append]; rfl

theorem pickleFile_name_ne (p : FPath) : (pickleFile p).name ≠ "" := by
  unfold pickleFile
  rw [FPath.name_append]
  intro h
  have := congrArg String.toList h
  simp at this

theorem pickleFile_idem {p : FPath} (h : p.name ≠ "") : pickleFile (pickleFile p) = pickleFile p := by
  have hs : String.ofList (FPath.stem p.name.toList) ≠ "" := by
    intro h'
    have := congrArg String.toList h'
    rw [String.toList_ofList] at this
    refine FPath.stem_ne_nil (name := p.name.toList) ?_ this
    intro h''; exact h (String.toList_inj.1 (by rw [h'']; rfl))
  have he : pickleFile p = ⟨p.absolute, p.parts.dropLast ++
      [String.ofList (FPath.stem p.name.toList) ++ ".pickle"]⟩ := by
    unfold pickleFile
    rw [String.ofList_append, String.ofList_toList]
  rw [he, pickleFile_pickle _ _ _ hs]

/-- saving one element whose file does not exist -/
theorem saveOne {fs fs1 : FS γ} {obj : γ} {p : FPath} (hn : p.name ≠ "")
    (hmk : fs.mkdir p.parent = (.ok (), fs1)) (hnew : fs1 (pickleFile p) = none) :
    parse_path fs p [] (some "pickle") true true false = (.ok (pickleFile p), fs1) ∧
    pickle_save fs1 obj (pickleFile p) false =
      (.ok (), fs1.set (pickleFile p) (.file obj)) := by
  refine ⟨parse_pickle hn (by simp) hmk, ?_⟩
  have := pickle_save_eq (fs := fs1) (fs1 := fs1) (obj := obj) (path := pickleFile p) (ow := false)
    (pickleFile_name_ne p) (by rw [pickleFile_idem hn]; exact fun _ => hnew)
    (by rw [pickleFile_parent]; exact mkdir_done (mkdir_ok hmk))
    (by rw [pickleFile_idem hn, hnew]; simp)
  rwa [pickleFile_idem hn] at this

/-- a file that exists is not overwritten -/
theorem saveOne_exists {fs fs1 : FS γ} {obj : γ} {p : FPath} (hn : p.name ≠ "") {x : Node γ}
    (hmk : fs.mkdir p.parent = (.ok (), fs1)) (hold : fs1 (pickleFile p) = some x) :
    parse_path fs p [] (some "pickle") true true false = (.ok (pickleFile p), fs1) ∧
    pickle_save fs1 obj (pickleFile p) false = (.error .fileExists, fs1) := by
  refine ⟨parse_pickle hn (by simp) hmk, ?_⟩
  exact C52_exists (pickleFile_name_ne p) (by rw [pickleFile_idem hn]; exact hold)

theorem mkdir_keep {fs fs1 : FS γ} {p : FPath} (h : fs.mkdir p = (.ok (), fs1)) {q : FPath}
    (hq : p.parts.length < q.parts.length) : fs1 q = fs q := by
  by_contra hne
  have := ((mkdirFrom_spec _ _ _ _ _ _ h).2.1 q hne).2
  rw [List.nil_append] at this
  omega

theorem closeLoop_ok (wrap : P → γ) (fmt : R → String) {path : FPath} (hn : path.name ≠ "") (n : Nat)
    (upload : Bool) (loggers : List Bool) : ∀ (q : List (QueueElement R P)) (done : List FPath)
    (s : Closing γ), s.fs.Has path.parent →
    (∀ e ∈ q, s.fs (pickleFile (parsedPath fmt path n e)) = none) →
    (q.map fun e => pickleFile (parsedPath fmt path n e)).Nodup →
    ∃ s', closeLoop wrap fmt path n upload loggers q done s =
        (.ok (done ++ q.map fun e => pickleFile (parsedPath fmt path n e)), s') ∧
      (∀ e ∈ q, s'.fs (pickleFile (parsedPath fmt path n e)) = some (.file (wrap e.params))) ∧
      (∀ p, (∀ e ∈ q, p ≠ pickleFile (parsedPath fmt path n e)) → s'.fs p = s.fs p) ∧
      s'.uploads = s.uploads ++ (if upload then q.flatMap fun e =>
        ((loggers.zipIdx).filter (·.1)).map fun x => (x.2, pickleFile (parsedPath fmt path n e))
        else []) := by
  intro q
  induction q with
  | nil =>
    intro done s _ _ _
    exact ⟨s, by simp [closeLoop], by simp, fun _ _ => rfl, by simp⟩
  | cons e es ih =>
    intro done s hhas hnew hnd
    rw [List.map_cons, List.nodup_cons] at hnd
    set f := pickleFile (parsedPath fmt path n e) with hf
    have hpn := parsedPath_name fmt hn n e
    obtain ⟨h1, h2⟩ := saveOne (obj := wrap e.params) hpn
      (by rw [parsedPath_parent]; exact mkdir_done hhas) (hnew e (by simp))
    rw [← hf] at h1 h2
    obtain ⟨s1, hs1, hfs1, hup⟩ : ∃ s1 : Closing γ,
        s1 = (if upload then uploadLoop f loggers 0 false
          { s with fs := s.fs.set f (.file (wrap e.params)) }
          else { s with fs := s.fs.set f (.file (wrap e.params)) }) ∧
        s1.fs = s.fs.set f (.file (wrap e.params)) ∧
        s1.uploads = s.uploads ++ (if upload then
          ((loggers.zipIdx).filter (·.1)).map fun x => (x.2, f) else []) := by
      refine ⟨_, rfl, ?_, ?_⟩
      · split
        · rw [(C84_upload _ _ _).1]
        · rfl
      · split
        · rw [(C84_upload _ _ _).2.1]
        · simp
    have hlen : path.parent.parts.length < f.parts.length := by
      have := pickleFile_length (parsedPath fmt path n e)
      rwa [pickleFile_parent, parsedPath_parent] at this
    have hne : ∀ e' ∈ es, pickleFile (parsedPath fmt path n e') ≠ f := fun e' he' h =>
      hnd.1 (List.mem_map.2 ⟨e', he', h⟩)
    obtain ⟨s', h3, h4, h5, h6⟩ := ih (done ++ [f]) s1 (by rw [hfs1]; exact hhas.set hlen)
      (by
        intro e' he'
        rw [hfs1]
        unfold FS.set
        rw [if_neg (hne e' he')]
        exact hnew e' (by simp [he'])) hnd.2
    refine ⟨s', ?_, ?_, ?_, ?_⟩
    · unfold closeLoop
      rw [elementFile_eq fmt hn, h1]
      dsimp only
      rw [h2]
      dsimp only
      rw [← hs1, h3]
      simp [hf]
    · intro e' he'
      rcases List.mem_cons.1 he' with rfl | he'
      · rw [h5 _ (fun e'' he'' h => hne e'' he'' h.symm), hfs1]
        simp [FS.set, hf]
      · exact h4 e' he'
    · intro p hp
      rw [h5 p (fun e' he' => hp e' (by simp [he'])), hfs1]
      unfold FS.set
      rw [if_neg (hp e (by simp))]
    · rw [h6, hup]
      cases upload <;> simp [hf]

theorem append_sep_inj {a b x y : List Char} {c : Char} (ha : c ∉ a) (hb : c ∉ b)
    (h : a ++ c :: x = b ++ c :: y) : a = b := by
  induction a generalizing b with
  | nil =>
    cases b with
    | nil => rfl
    | cons d ds =>
      simp only [List.nil_append, List.cons_append] at h
      exact absurd (by rw [(List.cons.inj h).1]; simp) hb
  | cons d ds ih =>
    cases b with
    | nil =>
      simp only [List.nil_append, List.cons_append] at h
      exact absurd (by rw [(List.cons.inj h).1]; simp) ha
    | cons d' ds' =>
      simp only [List.cons_append] at h
      obtain ⟨h1, h2⟩ := List.cons.inj h
      rw [h1, ih (fun hc => ha (by simp [hc])) (fun hc => hb (by simp [hc])) h2]

theorem no_underscore_toString (i : Nat) : '_' ∉ (toString i).toList := by
  rw [Nat.toString_eq_repr, Nat.toList_repr]
  intro h
  have := Nat.isDigit_of_mem_toDigits (by norm_num) (by norm_num) h
  exact absurd this (by decide)

/-- different episodes have different texts -/
theorem elementText_inj (fmt : R → String) {e e' : QueueElement R P} {s t : String}
    (h : s ++ elementText fmt e ++ t = s ++ elementText fmt e' ++ t) : e.episode = e'.episode := by
  have h := congrArg String.toList h
  simp only [elementText, String.toList_append, List.append_assoc] at h
  have h := List.append_cancel_left (List.append_cancel_left h)
  have e1 : "_value=".toList = '_' :: "value=".toList := by decide
  rw [e1, List.cons_append, List.cons_append] at h
  exact generator.toString_nat_inj (String.toList_inj.1
    (append_sep_inj (no_underscore_toString _) (no_underscore_toString _) h))

/-- the file that is written, if the name without its extension contains no dot -/
theorem pickleFile_parsed (fmt : R → String) {path : FPath} {stem : String}
    (hst : FPath.stem path.name.toList = stem.toList) {n : Nat} {e : QueueElement R P}
    (hdot : n ≠ 1 → '.' ∉ stem.toList ∧ '.' ∉ (fmt e.value).toList) :
    pickleFile (parsedPath fmt path n e) = targetFile fmt path.parent stem n e := by
  unfold parsedPath targetFile
  by_cases h1 : n = 1
  · rw [if_pos h1, if_pos h1]
    unfold pickleFile
    rw [hst, ← String.toList_append, String.ofList_toList]
    rfl
  · rw [if_neg h1, if_neg h1, hst, String.ofList_toList, pickleFile_mk]
    have hnd : '.' ∉ (stem ++ elementText fmt e).toList := by
      simp only [elementText, String.toList_append, List.mem_append, not_or]
      exact ⟨(hdot h1).1, ⟨⟨by decide, generator.no_dot_toString _⟩, by decide⟩, (hdot h1).2⟩
    rw [stem_of_noDot hnd, ← String.toList_append, String.ofList_toList]
    rfl

/-- C84: closing saves every parameter set of the queue under its own name, and changes no other file.
`stem` is the name of the file without its extension; if several sets are saved it must not contain a
dot.  None of the files may exist before. -/
theorem C84_saved_partial (wrap : P → γ) (fmt : R → String) {path : FPath} (hn : path.name ≠ "")
    {stem : String} (hst : FPath.stem path.name.toList = stem.toList) (upload : Bool)
    (loggers : List Bool) (q : List (QueueElement R P)) (s : Closing γ)
    (hdot : q.length ≠ 1 → '.' ∉ stem.toList ∧ ∀ e ∈ q, '.' ∉ (fmt e.value).toList)
    (hep : (q.map (·.episode)).Nodup) (hhas : s.fs.Has path.parent)
    (hnew : ∀ e ∈ q, s.fs (targetFile fmt path.parent stem q.length e) = none) :
    ∃ s', saveParamsClose wrap fmt path upload loggers q s =
        (.ok (q.map (targetFile fmt path.parent stem q.length)), s') ∧
      (q.map (targetFile fmt path.parent stem q.length)).Nodup ∧
      (∀ e ∈ q, s'.fs (targetFile fmt path.parent stem q.length e) =
        some (.file (wrap e.params))) ∧
      (∀ p, (∀ e ∈ q, p ≠ targetFile fmt path.parent stem q.length e) → s'.fs p = s.fs p) ∧
      s'.uploads = s.uploads ++ (if upload then q.flatMap fun e =>
        ((loggers.zipIdx).filter (·.1)).map fun x =>
          (x.2, targetFile fmt path.parent stem q.length e) else []) := by
  have hfile : ∀ e ∈ q, pickleFile (parsedPath fmt path q.length e) =
      targetFile fmt path.parent stem q.length e := fun e he =>
    pickleFile_parsed fmt hst fun h => ⟨(hdot h).1, (hdot h).2 e he⟩
  have hmap : (q.map fun e => pickleFile (parsedPath fmt path q.length e)) =
      q.map (targetFile fmt path.parent stem q.length) := List.map_congr_left hfile
  have hnd : (q.map (targetFile fmt path.parent stem q.length)).Nodup := by
    by_cases h1 : q.length = 1
    · obtain ⟨e, rfl⟩ := List.length_eq_one_iff.1 h1
      simp
    · refine List.Nodup.map_on ?_ (List.Nodup.of_map _ hep)
      intro e he e' he' h
      unfold targetFile at h
      rw [if_neg h1, if_neg h1] at h
      have h := (List.cons.inj (List.append_cancel_left (FPath.mk.inj h).2)).1
      exact List.inj_on_of_nodup_map hep he he' (elementText_inj fmt h)
  obtain ⟨s', h1, h2, h3, h4⟩ := closeLoop_ok wrap fmt hn q.length upload loggers q [] s hhas
    (fun e he => by rw [hfile e he]; exact hnew e he) (by rw [hmap]; exact hnd)
  refine ⟨s', ?_, hnd, ?_, ?_, ?_⟩
  · unfold saveParamsClose
    rw [h1, List.nil_append, hmap]
  · intro e he
    rw [← hfile e he]; exact h2 e he
  · intro p hp
    exact h3 p fun e he => by rw [hfile e he]; exact hp e he
  · rw [h4]
    cases upload
    · rfl
    · simp only [if_true]
      congr 1
      refine List.flatMap_congr fun e he => ?_
      rw [hfile e he]

/-- C84: a name with a further dot: all parameter sets are to be written to the same file, so that closing
fails at the second one and only the best is stored (under a shortened name). -/
theorem C84_dots_fails (wrap : P → γ) (fmt : R → String) {path : FPath} {a b : List Char}
    (ha : a ≠ []) (hb : '.' ∉ b) (hst : FPath.stem path.name.toList = a ++ '.' :: b)
    (hn : path.name ≠ "") (upload : Bool) (loggers : List Bool) (e e' : QueueElement R P)
    (q : List (QueueElement R P)) (hfmt : ∀ x ∈ e :: e' :: q, '.' ∉ (fmt x.value).toList)
    (s : Closing γ) (hhas : s.fs.Has path.parent)
    (hnew : s.fs ⟨path.absolute, path.parent.parts ++ [String.ofList a ++ ".pickle"]⟩ = none) :
    ∃ s', saveParamsClose wrap fmt path upload loggers (e :: e' :: q) s =
        (.error .fileExists, s') ∧
      s'.fs = s.fs.set ⟨path.absolute, path.parent.parts ++ [String.ofList a ++ ".pickle"]⟩
        (.file (wrap e.params)) := by
  set n := (e :: e' :: q).length with hlen
  have hne : n ≠ 1 := by rw [hlen]; simp
  set f : FPath := ⟨path.absolute, path.parent.parts ++ [String.ofList a ++ ".pickle"]⟩ with hf
  have hfile : ∀ x ∈ e :: e' :: q, pickleFile (parsedPath fmt path n x) = f := by
    intro x hx
    unfold parsedPath
    rw [if_neg hne, pickleFile_mk, hst]
    have : FPath.stem (String.ofList (a ++ '.' :: b) ++ elementText fmt x).toList = a := by
      refine (FPath.C52_stem _).1 _ ⟨ha, b ++ (elementText fmt x).toList, ?_, ?_, ?_⟩
      · simp [elementText]
      · simp only [elementText, String.toList_append, List.mem_append, not_or]
        exact ⟨hb, ⟨⟨by decide, generator.no_dot_toString _⟩, by decide⟩, hfmt x hx⟩
      · simp
    rw [this, hf, String.ofList_append, String.ofList_toList]
  obtain ⟨h1, h2⟩ := saveOne (obj := wrap e.params) (parsedPath_name fmt hn n e)
    (by rw [parsedPath_parent]; exact mkdir_done hhas)
    (by rw [hfile e (by simp)]; exact hnew)
  rw [hfile e (by simp)] at h1 h2
  have hl : path.parent.parts.length < f.parts.length := by
    rw [hf]; simp
  obtain ⟨s1, hs1, hfs1⟩ : ∃ s1 : Closing γ,
      s1 = (if upload then uploadLoop f loggers 0 false
        { s with fs := s.fs.set f (.file (wrap e.params)) }
        else { s with fs := s.fs.set f (.file (wrap e.params)) }) ∧
      s1.fs = s.fs.set f (.file (wrap e.params)) := by
    refine ⟨_, rfl, ?_⟩
    split
    · rw [(C84_upload _ _ _).1]
    · rfl
  have hhas1 : s1.fs.Has path.parent := by rw [hfs1]; exact hhas.set hl
  obtain ⟨h3, h4⟩ := saveOne_exists (fs := s1.fs) (obj := wrap e'.params)
    (x := .file (wrap e.params)) (parsedPath_name fmt hn n e')
    (by rw [parsedPath_parent]; exact mkdir_done hhas1)
    (by rw [hfile e' (by simp), hfs1]; simp [FS.set])
  rw [hfile e' (by simp)] at h3 h4
  refine ⟨{ s1 with fs := s1.fs }, ?_, hfs1⟩
  unfold saveParamsClose
  rw [← hlen]
  unfold closeLoop
  rw [elementFile_eq fmt hn, h1]
  dsimp only
  rw [h2]
  dsimp only
  rw [← hs1]
  unfold closeLoop
  rw [elementFile_eq fmt hn, h3]
  dsimp only
  rw [h4]

/-- C84: if the file exists already, what was trained is not saved. -/
theorem C84_exists_fails (wrap : P → γ) (fmt : R → String) {path : FPath} (hn : path.name ≠ "")
    (upload : Bool) (loggers : List Bool) (e : QueueElement R P) (s : Closing γ)
    (hhas : s.fs.Has path.parent) {x : Node γ} (hold : s.fs (pickleFile path) = some x) :
    saveParamsClose wrap fmt path upload loggers [e] s = (.error .fileExists, s) := by
  obtain ⟨h1, h2⟩ := saveOne_exists (obj := wrap e.params) hn (mkdir_done hhas) hold
  unfold saveParamsClose closeLoop
  rw [elementFile_eq fmt hn]
  unfold parsedPath
  simp only [List.length_singleton, if_true]
  rw [h1]
  dsimp only
  rw [h2]

/-! ## Checkpoints -/

/-- C84: a run that was not killed writes no checkpoint; one that was killed before its first episode
cannot. -/
theorem C84_checkpoint_none (home : FPath) (unique_id : String) (last : Option (P × O))
    (fs : FS (Content P O L)) :
    checkpointClose home unique_id false last fs = (.ok (), fs) ∧
    ∃ e, (checkpointClose (P := P) (O := O) home unique_id true none fs).1 = .error e := by
  refine ⟨rfl, ?_⟩
  unfold checkpointClose
  rw [if_pos rfl]
  rcases parse_path fs _ _ _ _ _ _ with ⟨e | p, fs1⟩
  · exact ⟨e, rfl⟩
  · exact ⟨_, rfl⟩

/-- `load_checkpoint` of a path whose file is a checkpoint -/
theorem loadCheckpoint_ok {fs : FS (Content P O L)} {path : FPath} (hn : path.name ≠ "")
    (hhas : fs.Has path.parent) {p : P} {o : O}
    (hfile : fs (pickleFile path) = some (.file (.checkpoint p o))) :
    loadCheckpoint fs path = (.ok (p, o), fs) := by
  have hw : path.with_suffix ".pickle" = .ok (pickleFile path) := with_suffix_pickle hn
  have hl : pickle_load fs (pickleFile path) = (.ok (.checkpoint p o), fs) := by
    unfold pickle_load parse_path
    simp only [List.foldl_nil]
    rw [with_suffix_pickle (pickleFile_name_ne path)]
    dsimp only
    rw [if_neg (by simp), pickleFile_parent, pickleFile_parent]
    simp only [if_true, mkdir_done hhas]
    rw [pickleFile_idem hn, if_neg]
    · simp [hfile]
    · simp [FS.isFile, hfile]
  unfold loadCheckpoint
  rw [hw]
  dsimp only
  rw [hl]

/-- what closing does to the files -/
theorem checkpointClose_eq (home : FPath) {unique_id : String} (hid : unique_id ≠ "") (p : P) (o : O)
    {fs fs1 : FS (Content P O L)}
    (hmk : fs.mkdir ⟨home.absolute, home.parts ++ [".ring_checkpoints"]⟩ = (.ok (), fs1))
    (hdir : fs (pickleFile (checkpointPath home unique_id)) ≠ some .dir) :
    checkpointClose home unique_id true (some (p, o)) fs =
      (.ok (), fs1.set (pickleFile (checkpointPath home unique_id)) (.file (.checkpoint p o))) := by
  have hn : (checkpointPath home unique_id).name ≠ "" := by
    unfold checkpointPath; rw [FPath.name_append]; exact hid
  have hpar : (checkpointPath home unique_id).parent =
      ⟨home.absolute, home.parts ++ [".ring_checkpoints"]⟩ := FPath.parent_append _ _ _
  have hjoin : parse_path fs ⟨home.absolute, home.parts ++ [".ring_checkpoints"]⟩
      [⟨false, [unique_id]⟩] (some "pickle") true true false =
      parse_path fs (checkpointPath home unique_id) [] (some "pickle") true true false := rfl
  have hkeep : fs1 (pickleFile (checkpointPath home unique_id)) =
      fs (pickleFile (checkpointPath home unique_id)) := by
    refine mkdir_keep hmk ?_
    have := pickleFile_length (checkpointPath home unique_id)
    rwa [pickleFile_parent, hpar] at this
  unfold checkpointClose
  rw [if_pos rfl, hjoin, parse_pickle hn (by simp) (by rw [hpar]; exact hmk)]
  dsimp only
  have := pickle_save_eq (fs := fs1) (fs1 := fs1) (obj := (Content.checkpoint p o : Content P O L))
    (path := pickleFile (checkpointPath home unique_id)) (ow := true)
    (pickleFile_name_ne _) (by simp)
    (by rw [pickleFile_parent, hpar]; exact mkdir_done (mkdir_ok hmk))
    (by rw [pickleFile_idem hn, hkeep]; exact hdir)
  rw [pickleFile_idem hn] at this
  exact this

/-- C84: the checkpoint of a killed run gives back its last parameters and optimizer state, whatever
checkpoint was there before, and no other file is changed. -/
theorem C84_checkpoint (home : FPath) {unique_id : String} (hid : unique_id ≠ "") (p : P) (o : O)
    {fs fs1 : FS (Content P O L)}
    (hmk : fs.mkdir ⟨home.absolute, home.parts ++ [".ring_checkpoints"]⟩ = (.ok (), fs1))
    (hdir : fs (pickleFile (checkpointPath home unique_id)) ≠ some .dir) :
    ∃ fs', checkpointClose home unique_id true (some (p, o)) fs = (.ok (), fs') ∧
      loadCheckpoint fs' (checkpointPath home unique_id) = (.ok (p, o), fs') ∧
      ∀ q c, q ≠ pickleFile (checkpointPath home unique_id) →
        (fs' q = some (.file c) ↔ fs q = some (.file c)) := by
  have hn : (checkpointPath home unique_id).name ≠ "" := by
    unfold checkpointPath; rw [FPath.name_append]; exact hid
  have hpar : (checkpointPath home unique_id).parent =
      ⟨home.absolute, home.parts ++ [".ring_checkpoints"]⟩ := FPath.parent_append _ _ _
  refine ⟨_, checkpointClose_eq home hid p o hmk hdir, ?_, ?_⟩
  · refine loadCheckpoint_ok hn ?_ (by simp [FS.set])
    rw [hpar]
    refine (mkdir_ok hmk).set ?_
    have := pickleFile_length (checkpointPath home unique_id)
    rwa [pickleFile_parent, hpar] at this
  · intro q c hq
    have hadd : DirsAdded fs fs1 := (mkdirFrom_spec _ _ _ _ _ _ hmk).1
    unfold FS.set
    rw [if_neg hq]
    constructor
    · intro h
      rcases hadd q with h' | ⟨_, h'⟩
      · rw [← h', h]
      · rw [h'] at h; cases h
    · intro h
      exact hadd.keep h

/-- C84: two runs whose ids differ only after the last dot share their checkpoint: the first is resumed
with the parameters of the second. -/
theorem C84_checkpoint_fails (home : FPath) {id1 id2 : String} {a b1 b2 : List Char} (ha : a ≠ [])
    (hb1 : b1 ≠ []) (hb2 : b2 ≠ []) (hd1 : '.' ∉ b1) (hd2 : '.' ∉ b2)
    (h1 : id1.toList = a ++ '.' :: b1) (h2 : id2.toList = a ++ '.' :: b2) (p p' : P) (o o' : O)
    {fs fs1 : FS (Content P O L)}
    (hmk : fs.mkdir ⟨home.absolute, home.parts ++ [".ring_checkpoints"]⟩ = (.ok (), fs1))
    (hdir : fs (pickleFile (checkpointPath home id1)) ≠ some .dir) :
    ∃ fs' fs'', checkpointClose home id1 true (some (p, o)) fs = (.ok (), fs') ∧
      checkpointClose home id2 true (some (p', o')) fs' = (.ok (), fs'') ∧
      loadCheckpoint fs'' (checkpointPath home id1) = (.ok (p', o'), fs'') := by
  have hne : ∀ {i : String} {b : List Char}, i.toList = a ++ '.' :: b → i ≠ "" := by
    rintro i b h rfl
    simp at h
  have hfile : pickleFile (checkpointPath home id1) = pickleFile (checkpointPath home id2) := by
    unfold checkpointPath
    rw [pickleFile_mk, pickleFile_mk, (FPath.C52_stem _).1 a ⟨ha, b1, hb1, hd1, h1⟩,
      (FPath.C52_stem _).1 a ⟨ha, b2, hb2, hd2, h2⟩]
  have hpar : ∀ i, (checkpointPath home i).parent =
      ⟨home.absolute, home.parts ++ [".ring_checkpoints"]⟩ := fun i => FPath.parent_append _ _ _
  have hlen : (⟨home.absolute, home.parts ++ [".ring_checkpoints"]⟩ : FPath).parts.length <
      (pickleFile (checkpointPath home id1)).parts.length := by
    have := pickleFile_length (checkpointPath home id1)
    rwa [pickleFile_parent, hpar] at this
  have hhas := (mkdir_ok hmk).set (n := .file (Content.checkpoint p o : Content P O L)) hlen
  refine ⟨_, _, checkpointClose_eq home (hne h1) p o hmk hdir,
    checkpointClose_eq home (hne h2) p' o' (mkdir_done hhas) ?_, ?_⟩
  · rw [← hfile]; simp [FS.set]
  · refine loadCheckpoint_ok ?_ ?_ ?_
    · unfold checkpointPath; rw [FPath.name_append]; exact hne h1
    · rw [hpar, ← hfile]
      exact hhas.set hlen
    · rw [hfile]; simp [FS.set]

/-! ## Closing everything -/

/-- Everything in the list was closed, one after the other, without exception. -/
inductive Closed : List (σ → Py Unit × σ) → σ → σ → Prop where
  | nil (s : σ) : Closed [] s s
  | cons {c : σ → Py Unit × σ} {cs : List (σ → Py Unit × σ)} {s s1 s2 : σ} :
      c s = (.ok (), s1) → Closed cs s1 s2 → Closed (c :: cs) s s2

theorem closeAll_ok : ∀ (cs : List (σ → Py Unit × σ)) (s s' : σ),
    closeAll cs s = (.ok (), s') ↔ Closed cs s s' := by
  intro cs
  induction cs with
  | nil =>
    intro s s'
    constructor
    · intro h; cases h; exact .nil s
    · intro h; cases h; rfl
  | cons c cs ih =>
    intro s s'
    unfold closeAll
    constructor
    · intro h
      rcases hc : c s with ⟨e | u, s1⟩
      · rw [hc] at h; cases h
      · rw [hc] at h
        exact .cons hc ((ih _ _).1 h)
    · intro h
      cases h with
      | cons hc hr =>
        rw [hc]
        exact (ih _ _).2 hr

theorem closeAll_error : ∀ (cs : List (σ → Py Unit × σ)) (s s' : σ) (e : PyErr),
    closeAll cs s = (.error e, s') ↔ ∃ pre c post s1, cs = pre ++ c :: post ∧ Closed pre s s1 ∧
      c s1 = (.error e, s') := by
  intro cs
  induction cs with
  | nil =>
    intro s s' e
    constructor
    · intro h; cases h
    · rintro ⟨pre, c, post, s1, h, _⟩; simp at h
  | cons c cs ih =>
    intro s s' e
    unfold closeAll
    constructor
    · intro h
      rcases hc : c s with ⟨e' | u, s1⟩
      · rw [hc] at h
        cases h
        exact ⟨[], c, cs, s, rfl, .nil s, hc⟩
      · rw [hc] at h
        obtain ⟨pre, c', post, s2, rfl, h1, h2⟩ := (ih _ _ _).1 h
        exact ⟨c :: pre, c', post, s2, rfl, .cons hc h1, h2⟩
    · rintro ⟨pre, c', post, s1, h, h1, h2⟩
      cases h1 with
      | nil =>
        simp only [List.nil_append, List.cons.injEq] at h
        rw [h.1, h2]
      | cons hc hr =>
        simp only [List.cons_append, List.cons.injEq] at h
        rw [h.1, hc]
        exact (ih _ _ _).2 ⟨_, c', post, s1, h.2, hr, h2⟩

theorem close_append (callbacks loggers : List (σ → Py Unit × σ)) (s : σ) :
    TrainingLoop.close callbacks loggers s = closeAll (callbacks ++ loggers) s := by
  unfold TrainingLoop.close
  induction callbacks generalizing s with
  | nil => rfl
  | cons c cs ih =>
    have hc : ∀ (ds : List (σ → Py Unit × σ)), closeAll (c :: ds) s = (match c s with
        | (.error e, s) => (.error e, s)
        | (.ok _, s) => closeAll ds s : Py Unit × σ) := fun _ => rfl
    rw [List.cons_append, hc, hc]
    rcases c s with ⟨e | u, s1⟩
    · rfl
    · exact ih s1

/-- C84: closing the loop without exception has closed all callbacks and then all loggers, in their
order; an exception is that of the first that raises, and those after it are not closed. -/
theorem C84_close (callbacks loggers : List (σ → Py Unit × σ)) (s s' : σ) :
    (TrainingLoop.close callbacks loggers s = (.ok (), s') ↔ Closed (callbacks ++ loggers) s s') ∧
    ∀ e, (TrainingLoop.close callbacks loggers s = (.error e, s') ↔
      ∃ pre c post s1, callbacks ++ loggers = pre ++ c :: post ∧ Closed pre s s1 ∧
        c s1 = (.error e, s')) := by
  rw [close_append]
  exact ⟨closeAll_ok _ _ _, fun e => closeAll_error _ _ _ e⟩

/-- The callback that saves parameters as something to be closed. -/
def saveCloser (fmt : R → String) (path : FPath) (q : List (QueueElement R P))
    (s : FS (Content P O L)) : Py Unit × FS (Content P O L) :=
  match saveParamsClose .params fmt path false [] q ⟨s, [], 0⟩ with
  | (.error e, s) => (.error e, s.fs)
  | (.ok _, s) => (.ok (), s.fs)

/-- C84: if the file of the parameters exists at the end of a killed run, neither the parameters nor the
checkpoint that `train_fn` closes afterwards are written. -/
theorem C84_close_fails (fmt : R → String) {path : FPath} (hn : path.name ≠ "")
    (e : QueueElement R P) (home : FPath) (unique_id : String) (last : Option (P × O))
    (loggers : List (FS (Content P O L) → Py Unit × FS (Content P O L)))
    (fs : FS (Content P O L)) (hhas : fs.Has path.parent) {x : Node (Content P O L)}
    (hold : fs (pickleFile path) = some x) :
    TrainingLoop.close [saveCloser fmt path [e], checkpointClose home unique_id true last] loggers
      fs = (.error .fileExists, fs) := by
  have h := C84_exists_fails (.params : P → Content P O L) fmt hn false [] e ⟨fs, [], 0⟩ hhas hold
  unfold TrainingLoop.close closeAll saveCloser
  rw [h]

/-! ## Examples -/

/-- A queue of two parameter sets. -/
def exQueue : List (QueueElement Nat String) := [⟨3, "best", 10⟩, ⟨4, "second", 5⟩]

/-- the parameters are saved in the working directory -/
def exEmpty : FS (Content String Nat Nat) := fun _ => none

example : ∃ s', saveParamsClose Content.params (fun v : Nat => toString v) ⟨false, ["run.pickle"]⟩
      true [true] exQueue ⟨exEmpty, [], 0⟩ =
    (.ok [⟨false, ["run_episode=10_value=3.pickle"]⟩, ⟨false, ["run_episode=5_value=4.pickle"]⟩],
      s') := by
  obtain ⟨s', h, _⟩ := C84_saved_partial (Content.params (O := Nat) (L := Nat))
    (fun v : Nat => toString v)
    (path := ⟨false, ["run.pickle"]⟩) (by decide) (stem := "run") (by decide) true [true] exQueue
    ⟨exEmpty, [], 0⟩ (fun _ => ⟨by decide, fun e _ => generator.no_dot_toString _⟩)
    (by decide) (fun k hk => by simp [FPath.parent] at hk) (fun _ _ => rfl)
  exact ⟨s', h⟩

example : ∃ s', saveParamsClose Content.params (fun v : Nat => toString v) ⟨false, ["run.2.pickle"]⟩
      true [true] exQueue ⟨exEmpty, [], 0⟩ = (.error .fileExists, s') := by
  obtain ⟨s', h, _⟩ := C84_dots_fails (Content.params (O := Nat) (L := Nat))
    (fun v : Nat => toString v)
    (path := ⟨false, ["run.2.pickle"]⟩) (a := "run".toList) (b := "2".toList) (by decide) (by decide)
    (by decide) (by decide) true [true] ⟨3, "best", 10⟩ ⟨4, "second", 5⟩ []
    (fun x _ => generator.no_dot_toString _) ⟨exEmpty, [], 0⟩
    (fun k hk => by simp [FPath.parent] at hk) rfl
  exact ⟨s', h⟩

example : ∃ fs1, exEmpty.mkdir ⟨true, ["root"] ++ [".ring_checkpoints"]⟩ = (.ok (), fs1) ∧
    exEmpty (pickleFile (checkpointPath ⟨true, ["root"]⟩ "0x1f")) ≠ some .dir :=
  ⟨_, rfl, by simp [exEmpty]⟩

example : loggedAt (R := Nat) [("loss", .leaf (.fin 5))] "loss" = some (.fin 5) := by
  simp [loggedAt, _flatten_dict, flattenItems, flattenItem, Dict.update, Dict.set, Dict.keys,
    Fl.notFinite, List.lookup, Option.filter]

example : FS.Has (fun q => if q = ⟨false, ["run.pickle"]⟩ then some (.file (Content.params "old"))
      else none : FS (Content String Nat Nat)) (⟨false, ["run.pickle"]⟩ : FPath).parent :=
  fun k hk => by simp [FPath.parent] at hk

end RingLib.ml
