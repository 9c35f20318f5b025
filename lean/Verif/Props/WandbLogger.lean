import Verif.Model.WandbLogger
import Verif.Props.Closing

/-!
# C105: the logger for `wandb`
-/

namespace RingLib.ml
open System
variable {R : Type}

/-! ## rows -/

/-- C105: every finite metric becomes one row, which holds its value under its name and, if the metrics
have one, the number of the episode; rows that exist stay. -/
theorem C105_rows_partial (rows : List (Dict (Metric (Fl R)))) (metrics : Metrices R) :
    ∃ new, WandbLogger.log rows metrics = rows ++ new ∧
      List.Forall₂ (fun (x : String × Fl R) row =>
        (x.1 ≠ "i_episode" → row.lookup x.1 = some (.leaf x.2)) ∧
        (x.1 ≠ "i_episode" → row.lookup "i_episode" = metrics.lookup "i_episode") ∧
        (∀ step, metrics.lookup "i_episode" = some step → row.lookup "i_episode" = some step) ∧
        ∀ k, k ≠ x.1 → k ≠ "i_episode" → row.lookup k = none)
        (_flatten_convert_filter_nested_dict metrics) new := by
  refine ⟨_, rfl, ?_⟩
  rw [List.forall₂_map_right_iff, List.forall₂_same]
  intro x _
  unfold WandbLogger.log_key_value STEP_METRIC_NAME
  have hl : ∀ k : String, ([(x.1, Metric.leaf x.2)] : Dict (Metric (Fl R))).lookup k =
      if k = x.1 then some (.leaf x.2) else none := by
    intro k
    rw [List.lookup_cons]
    by_cases h : k = x.1
    · simp [h]
    · have : (k == x.1) = false := by simpa using h
      rw [this, if_neg h]
      rfl
  cases hm : metrics.lookup "i_episode" with
  | none =>
    dsimp only
    refine ⟨fun _ => by rw [hl, if_pos rfl], fun h => by rw [hl, if_neg (Ne.symm h)], ?_, ?_⟩
    · intro step h; cases h
    · intro k h _; rw [hl, if_neg h]
  | some step =>
    dsimp only
    refine ⟨fun h => ?_, fun _ => ?_, ?_, ?_⟩
    · rw [Dict.lookup_set, if_neg h, hl, if_pos rfl]
    · rw [Dict.lookup_set, if_pos rfl]
    · intro s h; rw [Dict.lookup_set, if_pos rfl]; exact h
    · intro k h h'; rw [Dict.lookup_set, if_neg h', hl, if_neg h]

example : WandbLogger.log [] ([("i_episode", .leaf (.fin 3)), ("mae", .node [("seg1", .leaf (.fin 5)),
      ("seg2", .leaf .nan)])] : Metrices Int) =
    [[("i_episode", .leaf (.fin 3))], [("mae_seg1", .leaf (.fin 5)), ("i_episode", .leaf (.fin 3))]] := by
  simp [WandbLogger.log, WandbLogger.log_key_value, STEP_METRIC_NAME, Fl.notFinite,
    _flatten_convert_filter_nested_dict, _flatten_dict, flattenItems, flattenItem, Dict.update, Dict.set,
    Dict.keys, List.lookup]

/-- C105 fails for metrics whose joined name is that of the step: their value is replaced by the number of
the episode. -/
theorem C105_step_fails (v n : R) :
    WandbLogger.log [] ([("i", .node [("episode", .leaf (.fin v))]), ("i_episode", .leaf (.fin n))] :
      Metrices R) = [[("i_episode", .leaf (.fin n))]] := by
  simp [WandbLogger.log, WandbLogger.log_key_value, STEP_METRIC_NAME, Fl.notFinite,
    _flatten_convert_filter_nested_dict, _flatten_dict, flattenItems, flattenItem, Dict.update, Dict.set,
    Dict.keys, List.lookup]

/-! ## files -/

theorem wandbSave_file {w : Stored} {path : FPath} {c : String} (h : w.fs path = some (.file c)) :
    wandbSave w path = { w with stored := w.stored.set (storedName path) c } := by
  unfold wandbSave
  rw [h]

/-- C105: with a connection, saving a file stores its content under its name and changes nothing else. -/
theorem C105_online {run : WandbRun} {w : Stored} {path : FPath} {c : String}
    (hr : run.offline = false) (h : w.fs path = some (.file c)) :
    ∃ w', wandb_save (some run) w path = (.ok (), w') ∧ w'.fs = w.fs ∧
      ∀ k, w'.stored.lookup k = if k = storedName path then some c else w.stored.lookup k := by
  refine ⟨{ w with stored := w.stored.set (storedName path) c }, ?_, rfl,
    fun k => Dict.lookup_set w.stored (storedName path) c k⟩
  unfold wandb_save
  dsimp only
  rw [if_neg (by simp [hr]), wandbSave_file h]

theorem copiedFile_name (run : WandbRun) (path : FPath) : (copiedFile run path).name = path.name := by
  unfold copiedFile FPath.joinpath
  simp [FPath.name]

theorem copiedFile_parts (run : WandbRun) (path : FPath) : (copiedFile run path).parts ≠ [] := by
  unfold copiedFile FPath.joinpath
  simp

theorem copiedFile_absolute (run : WandbRun) (path : FPath) :
    (copiedFile run path).absolute = run.dir.absolute := by
  unfold copiedFile FPath.joinpath
  simp

/-- C105: without a connection, saving a file whose directory can be made stores its content under its
name and puts a copy into the directory of the run; everything else that exists stays as it was. -/
theorem C105_offline {run : WandbRun} {w : Stored} {path : FPath} {c : String} {fs1 : FS String}
    (hr : run.offline = true) (ha : run.dir.absolute = true)
    (hmk : w.fs.mkdir (copiedFile run path).parent = (.ok (), fs1))
    (h : w.fs path = some (.file c)) (hself : path ≠ copiedFile run path)
    (hdir : fs1 (copiedFile run path) ≠ some .dir) :
    ∃ w', wandb_save (some run) w path = (.ok (), w') ∧
      w'.fs (copiedFile run path) = some (.file c) ∧
      (∀ q n, q ≠ copiedFile run path → w.fs q = some n → w'.fs q = some n) ∧
      ∀ k, w'.stored.lookup k = if k = path.name then some c else w.stored.lookup k := by
  have hadd : FS.DirsAdded w.fs fs1 := (FS.mkdirFrom_spec _ _ _ _ _ _ hmk).1
  have hhas := FS.mkdir_ok hmk
  have hwr : fs1.write (copiedFile run path) c =
      (.ok (), fs1.set (copiedFile run path) (.file c)) := by
    unfold FS.write
    rw [if_neg]
    rintro (h1 | h1)
    · unfold FS.isDir at h1
      rw [Bool.or_eq_true] at h1
      rcases h1 with h1 | h1
      · exact copiedFile_parts run path (by simpa using h1)
      · split at h1
        · rename_i h2; exact hdir h2
        · cases h1
    · rw [hhas.isDir] at h1; cases h1
  have hnew : (fs1.set (copiedFile run path) (.file c)) (copiedFile run path) = some (.file c) := by
    unfold FS.set; rw [if_pos rfl]
  refine ⟨{ fs := fs1.set (copiedFile run path) (.file c),
            stored := w.stored.set path.name c }, ?_, hnew, ?_, ?_⟩
  · unfold wandb_save
    dsimp only
    rw [if_pos hr, hmk]
    dsimp only
    rw [hadd.keep h]
    dsimp only
    rw [if_neg hself, hwr]
    dsimp only
    rw [wandbSave_file hnew]
    unfold storedName
    rw [if_pos ((copiedFile_absolute run path).trans ha), copiedFile_name]
  · intro q n hq hn
    show (fs1.set (copiedFile run path) (.file c)) q = some n
    unfold FS.set
    rw [if_neg hq]
    exact hadd.keep hn
  · intro k
    exact Dict.lookup_set w.stored path.name c k

/-- C105 fails for files that do not exist: without a connection it raises, with one nothing is stored
and nothing is said. -/
theorem C105_missing_fails {run : WandbRun} {w : Stored} {path : FPath}
    (h : ∀ c, w.fs path ≠ some (.file c)) :
    (run.offline = false → wandb_save (some run) w path = (.ok (), w)) ∧
      (run.offline = true → (wandb_save (some run) w path).1 ≠ .ok ()) := by
  constructor
  · intro hr
    unfold wandb_save
    dsimp only
    rw [if_neg (by simp [hr])]
    unfold wandbSave
    split
    · rename_i c hc; exact absurd hc (h c)
    · rfl
  · intro hr
    unfold wandb_save
    dsimp only
    rw [if_pos hr]
    rcases hmk : w.fs.mkdir (copiedFile run path).parent with ⟨r, fs1⟩
    cases r with
    | error e => simp
    | ok _ =>
      dsimp only
      have hadd : FS.DirsAdded w.fs fs1 := (FS.mkdirFrom_spec _ _ _ _ _ _ hmk).1
      split
      · rename_i c hc
        rcases hadd path with h1 | ⟨_, h1⟩
        · exact absurd (h1 ▸ hc) (h c)
        · rw [h1] at hc; cases hc
      · simp

/-- C105 fails for files of the same name in different folders: what was stored first is lost. -/
theorem C105_name_fails {run : WandbRun} {w : Stored} {p q : FPath} {c d : String}
    (hr : run.offline = false) (hp : p.absolute = true) (hq : q.absolute = true)
    (hname : p.name = q.name) (hc : w.fs p = some (.file c)) (hd : w.fs q = some (.file d)) :
    ∃ w1 w2, wandb_save (some run) w p = (.ok (), w1) ∧ wandb_save (some run) w1 q = (.ok (), w2) ∧
      w1.stored.lookup p.name = some c ∧ w2.stored.lookup p.name = some d := by
  obtain ⟨w1, h1, h2, h3⟩ := C105_online hr hc
  obtain ⟨w2, g1, _, g3⟩ := C105_online (w := w1) hr (h2 ▸ hd)
  refine ⟨w1, w2, h1, g1, ?_, ?_⟩
  · rw [h3, storedName, if_pos hp, if_pos rfl]
  · rw [g3, storedName, if_pos hq, if_pos hname]

/-! ## commands -/

theorem commandFile_parent (command : String) : (commandFile command).parent = ⟨false, []⟩ := rfl

theorem storedName_command (command : String) :
    storedName (commandFile command) = (commandFile command).name := rfl

theorem shellAppend_none {fs : FS String} {command out : String}
    (h : fs (commandFile command) = none) :
    shellAppend fs (commandFile command) out = fs.set (commandFile command) (.file out) := by
  unfold shellAppend
  rw [if_neg, h]
  rintro (h1 | h1)
  · unfold FS.isDir at h1
    rw [h] at h1
    simp [commandFile] at h1
  · rw [commandFile_parent] at h1
    simp [FS.isDir] at h1

theorem shellAppend_some {fs : FS String} {command out c : String}
    (h : fs (commandFile command) = some (.file c)) :
    shellAppend fs (commandFile command) out = fs.set (commandFile command) (.file (c ++ out)) := by
  unfold shellAppend
  rw [if_neg, h]
  rintro (h1 | h1)
  · unfold FS.isDir at h1
    rw [h] at h1
    simp [commandFile] at h1
  · rw [commandFile_parent] at h1
    simp [FS.isDir] at h1

theorem shellRm_set {fs : FS String} {p : FPath} {c : String} :
    shellRm (fs.set p (.file c)) p = fun q => if q = p then none else fs q := by
  unfold shellRm
  rw [if_pos (by simp [FS.isFile, FS.set])]
  funext q
  by_cases h : q = p
  · simp [h]
  · simp [h, FS.set]

/-- what is left of the files and what is stored after a command, with a connection -/
theorem command_online {run : WandbRun} {w : Stored} {command c : String} {output : String → String}
    (hr : run.offline = false)
    (ha : shellAppend w.fs (commandFile command) (output command) =
      w.fs.set (commandFile command) (.file c)) :
    log_command_output (some run) output w command =
      (.ok (), { fs := fun q => if q = commandFile command then none else w.fs q,
                 stored := w.stored.set (commandFile command).name c }) := by
  unfold log_command_output
  dsimp only
  rw [ha]
  have hf : ({ w with fs := w.fs.set (commandFile command) (.file c) } : Stored).fs
      (commandFile command) = some (.file c) := by
    show (w.fs.set _ _) _ = _
    unfold FS.set; rw [if_pos rfl]
  unfold wandb_save
  dsimp only
  rw [if_neg (by simp [hr]), wandbSave_file hf]
  dsimp only
  rw [shellRm_set, storedName_command]

/-- C105: if there is no file of that name in the working directory, the output of a command is stored
and the files are as they were. -/
theorem C105_command_partial {run : WandbRun} {w : Stored} {command : String}
    {output : String → String} (hr : run.offline = false) (h : w.fs (commandFile command) = none) :
    ∃ w', log_command_output (some run) output w command = (.ok (), w') ∧ w'.fs = w.fs ∧
      ∀ k, w'.stored.lookup k =
        if k = (commandFile command).name then some (output command) else w.stored.lookup k := by
  refine ⟨_, command_online hr (shellAppend_none h), ?_, fun k => Dict.lookup_set _ _ _ k⟩
  funext q
  by_cases hq : q = commandFile command
  · simp [hq, h]
  · simp [hq]

/-- C105 fails if there is a file of that name: it is removed, and what was in it is stored before the
output. -/
theorem C105_command_fails {run : WandbRun} {w : Stored} {command c : String}
    {output : String → String} (hr : run.offline = false)
    (h : w.fs (commandFile command) = some (.file c)) :
    ∃ w', log_command_output (some run) output w command = (.ok (), w') ∧
      w'.fs (commandFile command) = none ∧
      w'.stored.lookup (commandFile command).name = some (c ++ output command) := by
  refine ⟨_, command_online hr (shellAppend_some h), ?_, ?_⟩
  · simp
  · rw [Dict.lookup_set, if_pos rfl]

theorem commandFile_pip : commandFile "pip list" = ⟨false, ["pip_list.txt"]⟩ := by decide
theorem commandFile_conda : commandFile "conda list" = ⟨false, ["conda_list.txt"]⟩ := by decide
theorem commandFile_smi : commandFile "nvidia-smi" = ⟨false, ["nvidia-smi.txt"]⟩ := by decide

/-- C105: making the logger stores the packages and the graphics card, and leaves the files as they were
if none of the three files exists. -/
theorem C105_environment_partial {run : WandbRun} {w : Stored} {output : String → String}
    (hr : run.offline = false) (h1 : w.fs ⟨false, ["pip_list.txt"]⟩ = none)
    (h2 : w.fs ⟨false, ["conda_list.txt"]⟩ = none) (h3 : w.fs ⟨false, ["nvidia-smi.txt"]⟩ = none) :
    ∃ w', WandbLogger.init (some run) output w = (.ok (), w') ∧ w'.fs = w.fs ∧
      w'.stored.lookup "pip_list.txt" = some (output "pip list") ∧
      w'.stored.lookup "conda_list.txt" = some (output "conda list") ∧
      w'.stored.lookup "nvidia-smi.txt" = some (output "nvidia-smi") ∧
      ∀ k, k ∉ ["pip_list.txt", "conda_list.txt", "nvidia-smi.txt"] →
        w'.stored.lookup k = w.stored.lookup k := by
  obtain ⟨w1, a1, a2, a3⟩ := C105_command_partial (w := w) (command := "pip list") (output := output) hr
    (by rw [commandFile_pip]; exact h1)
  obtain ⟨w2, b1, b2, b3⟩ := C105_command_partial (w := w1) (command := "conda list") (output := output)
    hr (by rw [commandFile_conda, a2]; exact h2)
  obtain ⟨w3, c1, c2, c3⟩ := C105_command_partial (w := w2) (command := "nvidia-smi") (output := output)
    hr (by rw [commandFile_smi, b2, a2]; exact h3)
  rw [commandFile_pip] at a3
  rw [commandFile_conda] at b3
  rw [commandFile_smi] at c3
  have e1 : (⟨false, ["pip_list.txt"]⟩ : FPath).name = "pip_list.txt" := rfl
  have e2 : (⟨false, ["conda_list.txt"]⟩ : FPath).name = "conda_list.txt" := rfl
  have e3 : (⟨false, ["nvidia-smi.txt"]⟩ : FPath).name = "nvidia-smi.txt" := rfl
  rw [e1] at a3
  rw [e2] at b3
  rw [e3] at c3
  refine ⟨w3, ?_, c2.trans (b2.trans a2), ?_, ?_, ?_, ?_⟩
  · unfold WandbLogger.init environmentCommands
    simp only [logCommands, a1, b1, c1]
  · rw [c3, if_neg (by decide), b3, if_neg (by decide), a3, if_pos rfl]
  · rw [c3, if_neg (by decide), b3, if_pos rfl]
  · rw [c3, if_pos rfl]
  · intro k hk
    simp only [List.mem_cons, List.not_mem_nil, or_false, not_or] at hk
    rw [c3, if_neg hk.2.2, b3, if_neg hk.2.1, a3, if_neg hk.1]

/-- a machine with some files, and the run on it -/
def exStored : Stored :=
  { fs := fun p => if p = ⟨true, ["home", "a", "params.pickle"]⟩ then some (.file "A")
      else if p = ⟨true, ["home", "b", "params.pickle"]⟩ then some (.file "B")
      else if p = ⟨false, ["pip_list.txt"]⟩ then some (.file "my notes ") else none,
    stored := [] }

def exRun (offline : Bool) : WandbRun := ⟨offline, ⟨true, ["wandb"]⟩⟩

example : (wandb_save (some (exRun true)) exStored ⟨true, ["home", "a", "params.pickle"]⟩).2.stored =
    [("params.pickle", "A")] := by rfl

/-- the hypotheses of `C105_offline` are met -/
example : ∃ fs1, exStored.fs.mkdir
      (copiedFile (exRun true) ⟨true, ["home", "a", "params.pickle"]⟩).parent = (.ok (), fs1) ∧
    fs1 (copiedFile (exRun true) ⟨true, ["home", "a", "params.pickle"]⟩) ≠ some .dir ∧
    (⟨true, ["home", "a", "params.pickle"]⟩ : FPath) ≠
      copiedFile (exRun true) ⟨true, ["home", "a", "params.pickle"]⟩ := by
  refine ⟨_, rfl, ?_, by decide⟩
  intro h
  have : (none : Option (Node String)) = some .dir := h
  cases this

example : (WandbLogger.init (some (exRun false)) (fun c => c ++ "!") exStored).2.stored =
    [("pip_list.txt", "my notes pip list!"), ("conda_list.txt", "conda list!"),
      ("nvidia-smi.txt", "nvidia-smi!")] := by rfl

example : (WandbLogger.init (some (exRun false)) (fun c => c ++ "!") exStored).2.fs
    ⟨false, ["pip_list.txt"]⟩ = none := by rfl

/-- C105 fails without a run: making the logger raises, nothing is stored, and the output of the first
command is left behind in the working directory. -/
theorem C105_no_run_fails {w : Stored} {output : String → String}
    (h : w.fs ⟨false, ["pip_list.txt"]⟩ = none) :
    ∃ e w', WandbLogger.init none output w = (.error e, w') ∧ w'.stored = w.stored ∧
      w'.fs ⟨false, ["pip_list.txt"]⟩ = some (.file (output "pip list")) ∧
      ∀ q, q ≠ ⟨false, ["pip_list.txt"]⟩ → w'.fs q = w.fs q := by
  refine ⟨.other, { w with fs := w.fs.set (commandFile "pip list") (.file (output "pip list")) }, ?_, rfl,
    ?_, ?_⟩
  · rw [← commandFile_pip] at h
    unfold WandbLogger.init environmentCommands logCommands log_command_output
    dsimp only
    rw [shellAppend_none h]
    rfl
  · rw [← commandFile_pip]
    simp [FS.set]
  · intro q hq
    rw [← commandFile_pip] at hq
    simp [FS.set, hq]

example : exStored.fs ⟨false, ["conda_list.txt"]⟩ = none ∧
    ({ exStored with fs := fun _ => none } : Stored).fs ⟨false, ["pip_list.txt"]⟩ = none := ⟨rfl, rfl⟩

end RingLib.ml
