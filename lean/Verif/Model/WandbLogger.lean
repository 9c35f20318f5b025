import Verif.Model.Closing

/-!
# The logger for `wandb`, `/repo/src/ring/ml/ml_utils.py`

* `wandb.save(path)` stores the content the file has at the time of the call, under its name if the path
  is absolute and under the whole path if it is relative; a path without a file is ignored, and without a
  run it raises. When the upload happens and the pauses around it are not modelled.
* `wandb.log` appends a row. `define_metric` has no effect on rows; without a run it raises.
* A shell command that is run with `>>` appends its output to a file, which is made if there is none,
  and does not run if the file cannot be opened. `rm` removes files and complains about the rest.
* Relative paths are not identified with absolute ones.
-/

namespace RingLib.ml
variable {R : Type}

/-- `/repo/src/ring/ml/ml_utils.py:20` -/
def STEP_METRIC_NAME : String := "i_episode"

/-! ## rows -/

/-- `/repo/src/ring/ml/ml_utils.py:104-108` `WandbLogger.log_key_value`: the row given to `wandb.log` -/
def WandbLogger.log_key_value (key : String) (value : Fl R) (step : Option (Metric (Fl R))) :
    Dict (Metric (Fl R)) :=
  let data : Dict (Metric (Fl R)) := [(key, .leaf value)]
  match step with
  | some step => data.set STEP_METRIC_NAME step
  | none => data

/-- `/repo/src/ring/ml/ml_utils.py:53-56` `MixinLogger.log` of a `WandbLogger`: the rows after the call -/
def WandbLogger.log (rows : List (Dict (Metric (Fl R)))) (metrics : Metrices R) :
    List (Dict (Metric (Fl R))) :=
  let step := metrics.lookup STEP_METRIC_NAME
  rows ++ (_flatten_convert_filter_nested_dict metrics).map
    fun x => WandbLogger.log_key_value x.1 x.2 step

/-! ## files -/

/-- `wandb.run`: whether it is offline, and its directory -/
structure WandbRun where
  offline : Bool
  dir : FPath

/-- the files of the machine, and what `wandb` has stored -/
structure Stored where
  fs : FS String
  stored : Dict String

/-- the name under which `wandb.save` stores a file -/
def storedName (path : FPath) : String :=
  if path.absolute then path.name else "/".intercalate path.parts

/-- `wandb.save(path)` during a run -/
def wandbSave (w : Stored) (path : FPath) : Stored :=
  match w.fs path with
  | some (.file content) => { w with stored := w.stored.set (storedName path) content }
  | _ => w

/-- `os.path.join(wandb.run.dir, "copied_files", os.path.basename(path))`,
`/repo/src/ring/ml/ml_utils.py:147, 151` -/
def copiedFile (run : WandbRun) (path : FPath) : FPath :=
  run.dir.joinpath ⟨false, ["copied_files", path.name]⟩

/-- `/repo/src/ring/ml/ml_utils.py:143-157` `WandbLogger.wandb_save`; `shutil.copy2` raises if there is no
file, if it is its own copy, and if the copy cannot be written. -/
def wandb_save (run : Option WandbRun) (w : Stored) (path : FPath) : Py Unit × Stored :=
  match run with
  | none => (.error .other, w)
  | some run =>
    if run.offline then
      match w.fs.mkdir (copiedFile run path).parent with
      | (.error e, fs) => (.error e, { w with fs })
      | (.ok _, fs) =>
        match fs path with
        | some (.file content) =>
          if path = copiedFile run path then (.error .other, { w with fs })
          else match fs.write (copiedFile run path) content with
            | (.error e, fs) => (.error e, { w with fs })
            | (.ok _, fs) => (.ok (), wandbSave { w with fs } (copiedFile run path))
        | _ => (.error .other, { w with fs })
    else (.ok (), wandbSave w path)

/-- `os.system(f"{command} >> {path}")` for a command with the given output -/
def shellAppend (fs : FS String) (path : FPath) (output : String) : FS String :=
  if fs.isDir path = true ∨ fs.isDir path.parent = false then fs
  else match fs path with
    | some (.file content) => fs.set path (.file (content ++ output))
    | _ => fs.set path (.file output)

/-- `os.system(f"rm {path}")` -/
def shellRm (fs : FS String) (path : FPath) : FS String :=
  if fs.isFile path then fun q => if q = path then none else fs q else fs

/-- `command.replace(" ", "_") + ".txt"`, `/repo/src/ring/ml/ml_utils.py:62` -/
def commandFile (command : String) : FPath :=
  ⟨false, [String.ofList (command.toList.map fun c => if c = ' ' then '_' else c) ++ ".txt"]⟩

/-- `/repo/src/ring/ml/ml_utils.py:61-65` `MixinLogger.log_command_output` with
`/repo/src/ring/ml/ml_utils.py:133-137` `WandbLogger.log_txt`, for commands without slashes -/
def log_command_output (run : Option WandbRun) (output : String → String) (w : Stored)
    (command : String) : Py Unit × Stored :=
  let path := commandFile command
  match wandb_save run { w with fs := shellAppend w.fs path (output command) } path with
  | (.error e, w) => (.error e, w)
  | (.ok _, w) => (.ok (), { w with fs := shellRm w.fs path })

/-- the commands of `/repo/src/ring/ml/ml_utils.py:70-73` `MixinLogger._log_environment` -/
def environmentCommands : List String := ["pip list", "conda list", "nvidia-smi"]

/-- commands one after the other, until one raises -/
def logCommands (run : Option WandbRun) (output : String → String) :
    List String → Stored → Py Unit × Stored
  | [], w => (.ok (), w)
  | c :: cs, w =>
    match log_command_output run output w c with
    | (.error e, w) => (.error e, w)
    | (.ok _, w) => logCommands run output cs w

/-- `/repo/src/ring/ml/ml_utils.py:100-102` `WandbLogger.__init__`; without a run the first command has
raised already. -/
def WandbLogger.init (run : Option WandbRun) (output : String → String) (w : Stored) :
    Py Unit × Stored :=
  logCommands run output environmentCommands w

end RingLib.ml
