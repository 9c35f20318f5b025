import Verif.Model.Optimizer

/-!
# The training loop and the callbacks that end a run

`/repo/src/ring/ml/training_loop.py` and the kill-run callbacks of
`/repo/src/ring/ml/callbacks.py`.

* The generator, the step function, the callbacks and python's `random.shuffle` are parameters; the
  generator and the callbacks may have state, everything may raise.
* The global variable `_KILL_RUN` is part of the state of the loop.
* The calls to the generator, the step function and the callbacks are recorded in `trace`.
* Loggers, timing, printing and `wandb` are not modelled.
-/

namespace RingLib.ml

/-- The metrics of an episode. -/
abbrev Metrices (R : Type) := Dict (Metric (Fl R))

/-- What a callback is handed besides the metrics, `/repo/src/ring/ml/training_loop.py:24-34`. -/
structure CallArgs (R S O : Type) where
  i_episode : Int
  params : Leaves R
  grads : List (Leaves R)
  sample_eval : S
  opt_state : O

/-- A callback: it may change the state of the callbacks `Γ`, the kill-run flag and the metrics. -/
abbrev Callback (R S O Γ : Type) :=
  CallArgs R S O → Γ × Bool × Metrices R → Py (Γ × Bool × Metrices R)

/-- What the loop calls. -/
structure LoopEnv (R K S O G Γ Rnd : Type) where
  generator : G → K → Py (S × G)
  step_fn : Leaves R → O → S → Py (Leaves R × O × Metrices R × List (Leaves R))
  callbacks : List (Callback R S O Γ)
  close : Γ × Bool → Py (Γ × Bool)
  prngKey : Nat → K
  split : K → K × K
  shuffle : Rnd → List Nat → List Nat × Rnd

/-- The calls the loop makes. -/
inductive Event (K S : Type) where
  /-- the generator was called with a key and returned a sample -/
  | generated (key : K) (sample : S)
  /-- a training step used the sample -/
  | trained (sample : S)
  /-- the callback with this number was called in this episode and saw the sample -/
  | callback (number : Nat) (i_episode : Int) (sample_eval : S)
deriving DecidableEq

/-- The attributes of `TrainingLoop`, the global kill-run flag and the record of calls. -/
structure LoopState (R K S O G Γ Rnd : Type) where
  key : K
  i_episode : Int
  params : Leaves R
  opt_state : O
  seeds : Option (List Nat)
  sample_eval : S
  gen : G
  rnd : Rnd
  cb : Γ
  kill : Bool
  trace : List (Event K S)

variable {R K S O G Γ Rnd : Type}

/-- `/repo/src/ring/ml/training_loop.py:41-69` `TrainingLoop.__init__`; `rnd` is python's random
state after `random.seed(1)`. -/
def TrainingLoop.init (env : LoopEnv R K S O G Γ Rnd) (key : K) (params : Leaves R) (opt_state : O)
    (cycle_seed : Option Nat) (gen : G) (rnd : Rnd) (cb : Γ) (kill : Bool) :
    Py (LoopState R K S O G Γ Rnd) := do
  let seeds := match cycle_seed with
    | none => none
    | some 0 => none
    | some (n + 1) => some (List.range (n + 1))
  let r ← env.generator gen (env.prngKey 0)
  .ok ⟨key, -1, params, opt_state, seeds, r.1, r.2, rnd, cb, kill,
    [.generated (env.prngKey 0) r.1]⟩

/-- `/repo/src/ring/ml/training_loop.py:71-80` `TrainingLoop.key`. -/
def TrainingLoop.nextKey (env : LoopEnv R K S O G Γ Rnd) (s : LoopState R K S O G Γ Rnd) :
    Py (K × LoopState R K S O G Γ Rnd) :=
  match s.seeds with
  | some seeds =>
    let seed_idx := s.i_episode % (seeds.length : Int)
    let r := if seed_idx = 0 then env.shuffle s.rnd seeds else (seeds, s.rnd)
    match pyGet r.1 seed_idx with
    | .error e => .error e
    | .ok seed => .ok (env.prngKey seed, { s with seeds := some r.1, rnd := r.2 })
  | none => .ok ((env.split s.key).2, { s with key := (env.split s.key).1 })

/-- The loop over the callbacks, `/repo/src/ring/ml/training_loop.py:110-119`. -/
def callLoop (args : CallArgs R S O) : List (Callback R S O Γ) → Nat →
    Γ × Bool × Metrices R → List (Event K S) → Py ((Γ × Bool × Metrices R) × List (Event K S))
  | [], _, st, trace => .ok (st, trace)
  | c :: cs, j, st, trace => do
    let st ← c args st
    callLoop args cs (j + 1) st (trace ++ [.callback j args.i_episode args.sample_eval])

/-- `/repo/src/ring/ml/training_loop.py:97-124` `TrainingLoop.step`. -/
def TrainingLoop.step (env : LoopEnv R K S O G Γ Rnd) (s : LoopState R K S O G Γ Rnd) :
    Py (LoopState R K S O G Γ Rnd) := do
  let s := { s with i_episode := s.i_episode + 1 }
  let sample_train := s.sample_eval
  let k ← TrainingLoop.nextKey env s
  let g ← env.generator k.2.gen k.1
  let t ← env.step_fn k.2.params k.2.opt_state sample_train
  let c ← callLoop ⟨k.2.i_episode, t.1, t.2.2.2, g.1, t.2.1⟩ env.callbacks 0
    (k.2.cb, k.2.kill, Dict.update [] t.2.2.1)
    (k.2.trace ++ [.generated k.1 g.1, .trained sample_train])
  .ok { k.2 with
    sample_eval := g.1, gen := g.2, params := t.1, opt_state := t.2.1, cb := c.1.1,
    kill := c.1.2.1, trace := c.2 }

/-- The loop of `run`, `/repo/src/ring/ml/training_loop.py:86-90`. -/
def runLoop (env : LoopEnv R K S O G Γ Rnd) :
    Nat → LoopState R K S O G Γ Rnd → Py (LoopState R K S O G Γ Rnd)
  | 0, s => .ok s
  | n + 1, s => do
    let s ← TrainingLoop.step env s
    if s.kill then .ok s else runLoop env n s

/-- `/repo/src/ring/ml/training_loop.py:82-95` `TrainingLoop.run`. -/
def TrainingLoop.run (env : LoopEnv R K S O G Γ Rnd) (n_episodes : Nat) (close_afterwards : Bool)
    (s : LoopState R K S O G Γ Rnd) : Py (Bool × LoopState R K S O G Γ Rnd) := do
  let s ← runLoop env n_episodes { s with kill := false }
  if close_afterwards then
    let c ← env.close (s.cb, s.kill)
    .ok (c.2, { s with cb := c.1, kill := c.2 })
  else .ok (s.kill, s)

/-! ## Callbacks -/

/-- `deque(maxlen=...)`: append and forget the oldest. -/
def dequeAppend {β : Type} (maxlen : Nat) (d : List β) (x : β) : List β :=
  (d ++ [x]).drop ((d ++ [x]).length - maxlen)

/-- `jnp.linalg.norm(grads_flat)` with the square root as parameter,
`/repo/src/ring/ml/callbacks.py:303-305`. -/
def gradsNorm [Semiring R] (sqrt : R → R) (g : Leaves R) : Fl R :=
  match Fl.sum (g.flatten.map Fl.sq) with
  | .fin x => .fin (sqrt x)
  | y => y

/-- The decisions of `LogGradsTrainingLoopCallBack` for the norms of an episode,
`/repo/src/ring/ml/callbacks.py:302-312`: the window of the last comparisons and the flag. -/
def logGradsLoop [LinearOrder R] (kill_if_larger : R) (consecutive_larger : Nat) :
    List (Fl R) → List Bool × Bool → List Bool × Bool
  | [], s => s
  | norm :: rest, s =>
    let last_larger := dequeAppend consecutive_larger s.1 (Fl.lt (.fin kill_if_larger) norm)
    logGradsLoop kill_if_larger consecutive_larger rest
      (last_larger, if last_larger.all id then true else s.2)

/-- `/repo/src/ring/ml/callbacks.py:291-316`
`LogGradsTrainingLoopCallBack.after_training_step`; `get` and `put` give access to the window
inside the state of the callbacks.  The logged metrics are not modelled. -/
def logGradsCallback [Semiring R] [LinearOrder R] (sqrt : R → R) (kill_if_larger : R)
    (consecutive_larger : Nat) (get : Γ → List Bool) (put : Γ → List Bool → Γ) :
    Callback R S O Γ := fun args st =>
  let r := logGradsLoop kill_if_larger consecutive_larger (args.grads.map (gradsNorm sqrt))
    (get st.1, st.2.1)
  .ok (put st.1 r.1, r.2, st.2.2)

/-- `/repo/src/ring/ml/callbacks.py:326-345` `NanKillRunCallback.after_training_step`. -/
def nanKillCallback : Callback R S O Γ := fun args st =>
  .ok (st.1, if args.params.flatten.any Fl.isNan then true else st.2.1, st.2.2)

/-- `/repo/src/ring/ml/callbacks.py:352-366` `LogEpisodeTrainingLoopCallback.after_training_step`. -/
def logEpisodeCallback [IntCast R] (kill_after_episode : Option Int) : Callback R S O Γ :=
  fun args st =>
    let kill := match kill_after_episode with
      | some e => if e ≤ args.i_episode then true else st.2.1
      | none => st.2.1
    .ok (st.1, kill, st.2.2.set "i_episode" (.leaf (.fin (args.i_episode : R))))

end RingLib.ml
