import Verif.Model.Files
import Verif.Model.TrainingLoop

/-!
# Loggers and the end of a run

`DictLogger` of `/repo/src/ring/ml/ml_utils.py`, the `close` methods of
`/repo/src/ring/ml/callbacks.py` and of `/repo/src/ring/ml/training_loop.py`, and the part of
`/repo/src/ring/ml/train.py` that loads a checkpoint.

* Files are those of `Verif/Model/Files.lean`; the home directory is a parameter and paths are given
  home-expanded.
* `"{:.2f}".format(value).replace(".", ",")` is a parameter of the model.
* A logger either implements `log_params` or raises `NotImplementedError`; an upload is recorded.
* The metrics are numbers; `cleanup=True` of `SaveParamsTrainingLoopCallback`, `wandb` and the texts of
  warnings are not modelled.
-/

namespace RingLib.ml

/-- What the files written by a run contain. -/
inductive Content (P O L : Type) where
  | params (p : P)
  | checkpoint (p : P) (o : O)
  | logs (l : L)

variable {R P O L γ σ : Type}

/-! ## The logger -/

/-- `/repo/src/ring/ml/ml_utils.py:28-31` `Logger.n_params` -/
def n_params (params : Leaves R) : Nat := (params.map List.length).sum

/-- `/repo/src/ring/ml/ml_utils.py:81-82` `DictLogger.log_key_value`; `_logs` is a
`defaultdict(lambda: [])`. -/
def DictLogger.log_key_value (logs : Dict (List (Fl R))) (key : String) (value : Fl R) :
    Dict (List (Fl R)) :=
  logs.set key ((logs.lookup key).getD [] ++ [value])

/-- `/repo/src/ring/ml/ml_utils.py:53-56` `MixinLogger.log` of a `DictLogger`, which ignores `step`. -/
def DictLogger.log (logs : Dict (List (Fl R))) (metrices : Metrices R) : Dict (List (Fl R)) :=
  (_flatten_convert_filter_nested_dict metrices).foldl
    (fun logs x => DictLogger.log_key_value logs x.1 x.2) logs

/-- The logs after a number of calls of `log`; `/repo/src/ring/ml/ml_utils.py:77-79`
`DictLogger.__init__` starts with none. -/
def DictLogger.logAll (ms : List (Metrices R)) : Dict (List (Fl R)) :=
  ms.foldl DictLogger.log []

/-- `/repo/src/ring/ml/ml_utils.py:89-93` `DictLogger.save` -/
def DictLogger.save (fs : FS γ) (path : FPath) (logs : γ) : Py Unit × FS γ :=
  match path.with_suffix ".pickle" with
  | .error e => (.error e, fs)
  | .ok path =>
    match fs.mkdir path with
    | (.error e, fs) => (.error e, fs)
    | (.ok _, fs) => fs.write path logs

/-- `/repo/src/ring/ml/ml_utils.py:84-87` `DictLogger.close` -/
def DictLogger.close (output_path : Option FPath) (logs : γ) (fs : FS γ) : Py Unit × FS γ :=
  match output_path with
  | none => (.ok (), fs)
  | some path => DictLogger.save fs path logs

/-! ## Saving the parameters at the end -/

/-- The files, the uploads (number of the logger and file) and the number of warnings. -/
structure Closing (γ : Type) where
  fs : FS γ
  uploads : List (Nat × FPath) := []
  warnings : Nat := 0

/-- The loop over the loggers, `/repo/src/ring/ml/callbacks.py:255-266`; `j` is the number of the
logger. -/
def uploadLoop (file : FPath) : List Bool → Nat → Bool → Closing γ → Closing γ
  | [], _, _, s => s
  | implements :: rest, j, success, s =>
    let s := if implements then { s with uploads := s.uploads ++ [(j, file)] } else s
    let success := if implements then true else success
    let s := if success then s else { s with warnings := s.warnings + 1 }
    uploadLoop file rest (j + 1) success s

/-- The path that is parsed if several parameter sets are saved,
`/repo/src/ring/ml/callbacks.py:246-249`: text is appended to the last component. -/
def elementPath (fmt : R → String) (path : FPath) (ele : QueueElement R P) : Py FPath :=
  match path.with_suffix "" with
  | .error e => .error e
  | .ok p => .ok { p with parts := p.parts.dropLast ++
      [p.name ++ ("_episode=" ++ toString ele.episode ++ "_value=" ++ fmt ele.value)] }

/-- `/repo/src/ring/ml/callbacks.py:243-251`, the name of the file of an element -/
def elementFile (fmt : R → String) (path : FPath) (n : Nat) (ele : QueueElement R P) (fs : FS γ) :
    Py FPath × FS γ :=
  if n = 1 then utils.parse_path fs path [] (some "pickle") true true false
  else match elementPath fmt path ele with
    | .error e => (.error e, fs)
    | .ok p => utils.parse_path fs p [] (some "pickle") true true false

/-- The loop of `SaveParamsTrainingLoopCallback.close`, `/repo/src/ring/ml/callbacks.py:241-268`; `n` is
the length of the queue, `loggers` tells which loggers implement `log_params`. -/
def closeLoop (wrap : P → γ) (fmt : R → String) (path : FPath) (n : Nat) (upload : Bool)
    (loggers : List Bool) : List (QueueElement R P) → List FPath → Closing γ →
    Py (List FPath) × Closing γ
  | [], filenames, s => (.ok filenames, s)
  | ele :: rest, filenames, s =>
    match elementFile fmt path n ele s.fs with
    | (.error e, fs) => (.error e, { s with fs := fs })
    | (.ok filename, fs) =>
      match utils.pickle_save fs (wrap ele.params) filename false with
      | (.error e, fs) => (.error e, { s with fs := fs })
      | (.ok _, fs) =>
        let s := { s with fs := fs }
        let s := if upload then uploadLoop filename loggers 0 false s else s
        closeLoop wrap fmt path n upload loggers rest (filenames ++ [filename]) s

/-- `/repo/src/ring/ml/callbacks.py:240-268` `SaveParamsTrainingLoopCallback.close` with
`cleanup=False`; `wrap` is how parameters are stored. -/
def saveParamsClose (wrap : P → γ) (fmt : R → String) (path_to_file : FPath) (upload : Bool)
    (loggers : List Bool) (queue : List (QueueElement R P)) (s : Closing γ) :
    Py (List FPath) × Closing γ :=
  closeLoop wrap fmt path_to_file queue.length upload loggers queue [] s

/-! ## Checkpoints -/

/-- `"~/.ring_checkpoints"` and the id of the run, `/repo/src/ring/ml/callbacks.py:407-409` -/
def checkpointPath (home : FPath) (unique_id : String) : FPath :=
  ⟨home.absolute, home.parts ++ [".ring_checkpoints"] ++ [unique_id]⟩

/-- `/repo/src/ring/ml/callbacks.py:404-415` `CheckpointCallback.close`; `last` are the attributes set by
`after_training_step`, missing before the first episode. The id of the run contains no slash. -/
def checkpointClose (home : FPath) (unique_id : String) (kill : Bool) (last : Option (P × O))
    (fs : FS (Content P O L)) : Py Unit × FS (Content P O L) :=
  if kill then
    match utils.parse_path fs ⟨home.absolute, home.parts ++ [".ring_checkpoints"]⟩
      [⟨false, [unique_id]⟩] (some "pickle") true true false with
    | (.error e, fs) => (.error e, fs)
    | (.ok path, fs) =>
      match last with
      | none => (.error .attribute, fs)
      | some l => utils.pickle_save fs (.checkpoint l.1 l.2) path true
  else (.ok (), fs)

/-- `/repo/src/ring/ml/train.py:146-151`: the parameters and the optimizer state of a checkpoint. A file
of parameters has no such keys. -/
def loadCheckpoint (fs : FS (Content P O L)) (checkpoint : FPath) :
    Py (P × O) × FS (Content P O L) :=
  match checkpoint.with_suffix ".pickle" with
  | .error e => (.error e, fs)
  | .ok p =>
    match utils.pickle_load fs p with
    | (.error e, fs) => (.error e, fs)
    | (.ok (.checkpoint p o), fs) => (.ok (p, o), fs)
    | (.ok _, fs) => (.error .key, fs)

/-! ## Closing everything -/

/-- A loop that closes one after the other; an exception leaves the loop,
`/repo/src/ring/ml/training_loop.py:127-128`. -/
def closeAll : List (σ → Py Unit × σ) → σ → Py Unit × σ
  | [], s => (.ok (), s)
  | c :: cs, s =>
    match c s with
    | (.error e, s) => (.error e, s)
    | (.ok _, s) => closeAll cs s

/-- `/repo/src/ring/ml/training_loop.py:126-131` `TrainingLoop.close` -/
def TrainingLoop.close (callbacks loggers : List (σ → Py Unit × σ)) (s : σ) : Py Unit × σ :=
  match closeAll callbacks s with
  | (.error e, s) => (.error e, s)
  | (.ok _, s) => closeAll loggers s

end RingLib.ml
