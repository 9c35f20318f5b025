import Verif.Model.Closing

/-!
# The training function

`train_fn` of `/repo/src/ring/ml/train.py`, `WandbKillRun` and `TimingKillRunCallback` of
`/repo/src/ring/ml/callbacks.py`.

* The generator, the filter, the optimizer, the step function, the evaluation and the user's callbacks
  are parameters. The step function keeps no state here (`Verif/Model/TrainStep.lean` has it).
* Files are those of `Verif/Model/Files.lean`; `wandb` is reduced to whether a run is active, to the tags
  of that run and to the uploads.
* The list that is the default of `loggers` is one object for all calls; it is part of the world.
* Loggers raise only if they need a run of `wandb` and there is none. `DictLogger` has no output path.
* Tracked metrics are numbers: `num` converts what is logged.
* Closing user callbacks does not change the kill-run flag.
-/

namespace RingLib.ml
open utils

variable {R K S O G υ L : Type}

/-! ## Arguments -/

/-- `callback_save_params: bool | str`, or `None` -/
inductive SaveArg where
  | no
  | yes
  | path (p : FPath)
  | none
deriving DecidableEq

/-- A logger; `log_params` tells whether it implements that method. -/
inductive LoggerKind where
  | wandb
  | other (n : Nat) (log_params : Bool)
deriving DecidableEq

/-- whether the logger implements `log_params`, `/repo/src/ring/ml/ml_utils.py:110-111` -/
def LoggerKind.uploads : LoggerKind → Bool
  | wandb => true
  | other _ b => b

/-- The arguments of `train_fn`, `/repo/src/ring/ml/train.py:100-122`; `callbacks` is the number of the
user's callbacks, `metrices` tells whether there are metrics. -/
structure TrainArgs (R : Type) where
  n_episodes : Nat
  loggers : Option (List LoggerKind) := Option.none
  callbacks : Nat := 0
  checkpoint : Option FPath := Option.none
  seed_network : Nat := 1
  seed_generator : Nat := 2
  save_params : SaveArg := .no
  track_metrices : Option (List (List String)) := Option.none
  kill_if_grads_larger : Option R := Option.none
  kill_if_nan : Bool := false
  kill_after_episode : Option Int := Option.none
  kill_after_seconds : Option R := Option.none
  kill_tag : Option String := Option.none
  create_checkpoint : Bool := true
  metrices : Bool := true

/-- Files and uploads, whether a run of `wandb` is active, and the default of `loggers`. -/
structure TrainWorld (R O L : Type) where
  files : Closing (Content (Leaves R) O L)
  wandb : Bool
  default_loggers : List LoggerKind

/-- What `train_fn` calls. -/
structure FnEnv (R K S O G υ L : Type) where
  generator : G → K → Py (S × G)
  prngKey : Nat → K
  split : K → K × K
  /-- `filter.search_attr("params")` -/
  filter_params : Py (Option (Leaves R))
  /-- `filter.init(X=X, seed=seed)[0]` -/
  filter_init : S → Nat → Py (Leaves R)
  /-- `optimizer.init(params)` -/
  optimizer_init : Leaves R → O
  step_fn : Leaves R → O → S → Py (Leaves R × O × Metrices R × List (Leaves R))
  eval_fn : Leaves R → S → Py (Metrices R)
  /-- `after_training_step` of the user's callbacks -/
  user : Nat → Callback R S O υ
  /-- `close` of the user's callbacks -/
  userClose : Nat → υ × TrainWorld R O L → Py Unit × (υ × TrainWorld R O L)
  /-- the tags of the run of `wandb` in an episode -/
  tags : Int → List String
  /-- `time.time() - ring._TRAIN_TIMING_START` in an episode -/
  runtime : Int → R
  sqrt : R → R
  num : Fl R → R
  fmt : R → String
  home : FPath
  unique_id : String

/-! ## Where training starts -/

/-- `/repo/src/ring/ml/train.py:144-161`: the parameters, the state of the optimizer and the generator
afterwards -/
def trainStart (env : FnEnv R K S O G υ L) (args : TrainArgs R) (g : G)
    (fs : FS (Content (Leaves R) O L)) :
    Py (Leaves R × O × G) × FS (Content (Leaves R) O L) :=
  match args.checkpoint with
  | some checkpoint =>
    match loadCheckpoint fs checkpoint with
    | (.error e, fs) => (.error e, fs)
    | (.ok (p, o), fs) => (.ok (p, o, g), fs)
  | Option.none =>
    (do
      match ← env.filter_params with
      | some p => .ok (p, env.optimizer_init p, g)
      | Option.none => do
        let r ← env.generator g (env.prngKey 1)
        let p ← env.filter_init r.1 args.seed_network
        .ok (p, env.optimizer_init p, r.2), fs)

/-! ## The callbacks -/

/-- The callbacks of a run. A path is `none` if it is not a string. -/
inductive CbKind (R : Type) where
  | logEpisode (kill_after_episode : Option Int)
  | evalFn
  | wandbKill (tag : String)
  | save (path : Option FPath)
  | logGrads (kill_if_larger : R)
  | nanKill
  | timing (max_run_time_seconds : R)
  | checkpoint
  | user (j : Nat)
  | saveTracked (path : Option FPath) (track : List (List String))

/-- `f"~/params/{ml_utils.unique_id()}.pickle"` and paths that are strings,
`/repo/src/ring/ml/train.py:181-186` -/
def savePath (env : FnEnv R K S O G υ L) : SaveArg → Option FPath
  | .yes => some ⟨env.home.absolute, env.home.parts ++ ["params", env.unique_id ++ ".pickle"]⟩
  | .path p => some p
  | .no => Option.none
  | .none => Option.none

/-- `default_callbacks`, `/repo/src/ring/ml/train.py:170-205` -/
def defaultCallbacks (env : FnEnv R K S O G υ L) (args : TrainArgs R) : List (CbKind R) :=
  [.logEpisode args.kill_after_episode]
  ++ (if args.metrices then [.evalFn] else [])
  ++ (match args.kill_tag with
    | some tag => [.wandbKill tag]
    | Option.none => [])
  ++ (if args.save_params = .no then [] else [.save (savePath env args.save_params)])
  ++ (match args.kill_if_grads_larger with
    | some bound => [.logGrads bound]
    | Option.none => [])
  ++ (if args.kill_if_nan then [.nanKill] else [])
  ++ (match args.kill_after_seconds with
    | some s => [.timing s]
    | Option.none => [])
  ++ (if args.create_checkpoint then [.checkpoint] else [])

/-- `callbacks_all`, `/repo/src/ring/ml/train.py:206-222` -/
def trainCallbacks (env : FnEnv R K S O G υ L) (args : TrainArgs R) : Py (List (CbKind R)) :=
  let callbacks_all := defaultCallbacks env args ++ (List.range args.callbacks).map CbKind.user
  match args.track_metrices with
  | Option.none => .ok callbacks_all
  | some track =>
    if args.save_params = .none then .error .assertion
    else .ok (callbacks_all ++ [.saveTracked (savePath env args.save_params) track])

/-- The attributes of the callbacks. -/
structure CbState (R O υ : Type) where
  saved : SaveParams R (Leaves R)
  tracked : SaveParams R (Leaves R)
  window : List Bool
  last : Option (Leaves R × O)
  user : υ

/-- The attributes of newly made callbacks, `/repo/src/ring/ml/train.py:184-186`,
`/repo/src/ring/ml/train.py:215-222`, `/repo/src/ring/ml/callbacks.py:289`. -/
def CbState.init [Zero R] (track : Option (List (List String))) (u : υ) : CbState R O υ :=
  ⟨SaveParams.init, SaveParams.init 3 track, [], Option.none, u⟩

mutual
/-- metrics of converted numbers -/
def Metric.map {β δ : Type} (f : β → δ) : Metric β → Metric δ
  | .leaf x => .leaf (f x)
  | .node d => .node (Metric.mapItems f d)

/-- metrics of converted numbers -/
def Metric.mapItems {β δ : Type} (f : β → δ) :
    List (String × Metric β) → List (String × Metric δ)
  | [] => []
  | x :: rest => (x.1, Metric.map f x.2) :: Metric.mapItems f rest
end

/-- What a callback does after a training step: `/repo/src/ring/ml/train.py:303-317`
`_DefaultEvalFnCallback`, `/repo/src/ring/ml/callbacks.py:422-439` `WandbKillRun`,
`/repo/src/ring/ml/callbacks.py:373-387` `TimingKillRunCallback`,
`/repo/src/ring/ml/callbacks.py:391-402` `CheckpointCallback`, and those of
`Verif/Model/Callbacks.lean` and `Verif/Model/TrainingLoop.lean`. `wandb` tells whether a run is
active. -/
def CbKind.callback [Field R] [LinearOrder R] (env : FnEnv R K S O G υ L) (wandb : Bool) :
    CbKind R → Callback R S O (CbState R O υ)
  | .logEpisode kill_after_episode => logEpisodeCallback kill_after_episode
  | .evalFn => fun args st => do
    let m ← env.eval_fn args.params args.sample_eval
    .ok (st.1, st.2.1, Dict.update st.2.2 m)
  | .wandbKill tag => fun args st =>
    .ok (st.1, if wandb = true ∧ tag ∈ env.tags args.i_episode then true else st.2.1, st.2.2)
  | .save _ => fun args st => do
    let c ← st.1.saved.after_training_step args.i_episode.toNat
      (Metric.map env.num (.node st.2.2)) args.params
    .ok ({ st.1 with saved := c }, st.2)
  | .logGrads bound =>
    logGradsCallback env.sqrt bound 18 CbState.window fun st w => { st with window := w }
  | .nanKill => nanKillCallback
  | .timing s => fun args st =>
    .ok (st.1, if s < env.runtime args.i_episode then true else st.2.1, st.2.2)
  | .checkpoint => fun args st =>
    .ok ({ st.1 with last := some (args.params, args.opt_state) }, st.2)
  | .user j => fun args st => do
    let r ← env.user j args (st.1.user, st.2)
    .ok ({ st.1 with user := r.1 }, r.2)
  | .saveTracked _ _ => fun args st => do
    let c ← st.1.tracked.after_training_step args.i_episode.toNat
      (Metric.map env.num (.node st.2.2)) args.params
    .ok ({ st.1 with tracked := c }, st.2)

/-! ## Closing -/

/-- `/repo/src/ring/ml/callbacks.py:240-268` `SaveParamsTrainingLoopCallback.close` of the callbacks of
`train_fn`: a path that is not a string raises `TypeError` as soon as there is something to save. -/
def saveClose (env : FnEnv R K S O G υ L) (loggers : List LoggerKind) (path : Option FPath)
    (queue : List (QueueElement R (Leaves R))) (s : υ × TrainWorld R O L) :
    Py Unit × (υ × TrainWorld R O L) :=
  match path with
  | Option.none => if queue.isEmpty then (.ok (), s) else (.error .type, s)
  | some path =>
    match saveParamsClose .params env.fmt path true (loggers.map LoggerKind.uploads) queue
      s.2.files with
    | (.error e, files) => (.error e, s.1, { s.2 with files := files })
    | (.ok _, files) => (.ok (), s.1, { s.2 with files := files })

/-- `close` of the callbacks; `kill` is the kill-run flag and `st` their attributes.
`/repo/src/ring/ml/training_loop.py:36-37`, `/repo/src/ring/ml/callbacks.py:404-415` -/
def CbKind.close (env : FnEnv R K S O G υ L) (loggers : List LoggerKind) (kill : Bool)
    (st : CbState R O υ) : CbKind R → υ × TrainWorld R O L → Py Unit × (υ × TrainWorld R O L)
  | .save path => saveClose env loggers path st.saved.queue
  | .saveTracked path _ => saveClose env loggers path st.tracked.queue
  | .checkpoint => fun s =>
    match checkpointClose env.home env.unique_id kill st.last s.2.files.fs with
    | (r, fs) => (r, s.1, { s.2 with files := { s.2.files with fs := fs } })
  | .user j => env.userClose j
  | _ => fun s => (.ok (), s)

/-- `close` of the loggers, `/repo/src/ring/ml/ml_utils.py:35-36`,
`/repo/src/ring/ml/ml_utils.py:139-140`: a finished run of `wandb` is no longer active. -/
def LoggerKind.close : LoggerKind → υ × TrainWorld R O L → Py Unit × (υ × TrainWorld R O L)
  | .wandb => fun s =>
    if s.2.wandb then (.ok (), s.1, { s.2 with wandb := false }) else (.error .attribute, s)
  | .other _ _ => fun s => (.ok (), s)

/-! ## The run -/

/-- `/repo/src/ring/ml/train.py:224-231`: the list of loggers afterwards -/
def addWandb (wandb : Bool) (loggers : List LoggerKind) : List LoggerKind :=
  if wandb = true ∧ LoggerKind.wandb ∉ loggers then loggers ++ [.wandb] else loggers

/-- The list is changed in place, `/repo/src/ring/ml/train.py:231`: the default of `loggers` is changed if it
is the list that was used, `/repo/src/ring/ml/train.py:106`. -/
def storeLoggers (given : Option (List LoggerKind)) (loggers : List LoggerKind)
    (w : TrainWorld R O L) : TrainWorld R O L :=
  match given with
  | Option.none => { w with default_loggers := loggers }
  | some _ => w

/-- The loop of `train_fn`, `/repo/src/ring/ml/train.py:233-241`. -/
def trainEnv [Field R] [LinearOrder R] (env : FnEnv R K S O G υ L) (wandb : Bool)
    (kinds : List (CbKind R)) : LoopEnv R K S O G (CbState R O υ) Unit where
  generator := env.generator
  step_fn := env.step_fn
  callbacks := kinds.map (CbKind.callback env wandb)
  close c := .ok c
  prngKey := env.prngKey
  split := env.split
  shuffle r l := (l, r)

/-- What is left when `train_fn` ends: the world, the list of loggers, the state of the user's callbacks
and that of the loop, if it was made. -/
structure TrainEnd (R K S O G υ L : Type) where
  world : TrainWorld R O L
  loggers : List LoggerKind
  user : υ
  loop : Option (LoopState R K S O G (CbState R O υ) Unit)

/-- The end of `run`, `/repo/src/ring/ml/training_loop.py:92-95`: everything is closed and the flag is
returned. -/
def trainClose (env : FnEnv R K S O G υ L) (kinds : List (CbKind R)) (loggers : List LoggerKind)
    (w : TrainWorld R O L) (s : LoopState R K S O G (CbState R O υ) Unit) :
    Py Bool × TrainEnd R K S O G υ L :=
  match TrainingLoop.close (kinds.map (CbKind.close env loggers s.kill s.cb))
    (loggers.map LoggerKind.close) (s.cb.user, w) with
  | (.error e, u, w) => (.error e, ⟨w, loggers, u, some s⟩)
  | (.ok _, u, w) => (.ok s.kill, ⟨w, loggers, u, some s⟩)

/-- `/repo/src/ring/ml/train.py:233-243`: the loop is made, which logs, and run. The global kill-run flag
is reset by `run`. -/
def trainRun [Field R] [LinearOrder R] (env : FnEnv R K S O G υ L) (args : TrainArgs R)
    (kinds : List (CbKind R)) (loggers : List LoggerKind) (p : Leaves R) (o : O) (g : G) (u : υ)
    (w : TrainWorld R O L) : Py Bool × TrainEnd R K S O G υ L :=
  match TrainingLoop.init (trainEnv env w.wandb kinds) (env.prngKey args.seed_generator) p o
    Option.none g () (CbState.init args.track_metrices u) false with
  | .error e => (.error e, ⟨w, loggers, u, Option.none⟩)
  | .ok s0 =>
    if w.wandb = false ∧ LoggerKind.wandb ∈ loggers then (.error .other, ⟨w, loggers, u, Option.none⟩)
    else
      match TrainingLoop.run (trainEnv env w.wandb kinds) args.n_episodes false s0 with
      | .error e => (.error e, ⟨w, loggers, u, Option.none⟩)
      | .ok (_, s) => trainClose env kinds loggers w s

/-- `/repo/src/ring/ml/train.py:100-243` `train_fn`; `u` is the state of the user's callbacks and `g` that
of the generator. -/
def train_fn [Field R] [LinearOrder R] (env : FnEnv R K S O G υ L) (args : TrainArgs R) (u : υ) (g : G)
    (w : TrainWorld R O L) : Py Bool × TrainEnd R K S O G υ L :=
  let loggers := args.loggers.getD w.default_loggers
  match trainStart env args g w.files.fs with
  | (.error e, fs) =>
    (.error e, ⟨{ w with files := { w.files with fs := fs } }, loggers, u, Option.none⟩)
  | (.ok (p, o, g), fs) =>
    let w := { w with files := { w.files with fs := fs } }
    match trainCallbacks env args with
    | .error e => (.error e, ⟨w, loggers, u, Option.none⟩)
    | .ok kinds =>
      let loggers := addWandb w.wandb loggers
      trainRun env args kinds loggers p o g u (storeLoggers args.loggers loggers w)

end RingLib.ml
