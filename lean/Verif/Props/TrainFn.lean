import Verif.Model.TrainFn
import Verif.Props.Closing
import Verif.Props.Queue
import Verif.Props.TrainingLoop

/-!
# The training function (C86)
-/

namespace RingLib.ml
open System utils

variable {R K S O G υ L : Type}

/-! ## Specification -/

/-- The order of the callbacks: the episode is logged first, metrics come before what the user adds, and
what tracks metrics comes last. -/
def CbKind.rank : CbKind R → Nat
  | .logEpisode _ => 0
  | .evalFn => 1
  | .wandbKill _ => 2
  | .save _ => 3
  | .logGrads _ => 4
  | .nanKill => 5
  | .timing _ => 6
  | .checkpoint => 7
  | .user _ => 8
  | .saveTracked _ _ => 9

/-- `a` is called before `b`; the user's callbacks in the order in which they were given. -/
def CbKind.Before (a b : CbKind R) : Prop :=
  a.rank < b.rank ∨ ∃ i j, a = .user i ∧ b = .user j ∧ i < j

/-- Which callbacks the arguments ask for. -/
def CbKind.Wanted (args : TrainArgs R) (path : Option FPath) : CbKind R → Prop
  | .logEpisode e => e = args.kill_after_episode
  | .evalFn => args.metrices = true
  | .wandbKill tag => args.kill_tag = some tag
  | .save p => args.save_params ≠ .no ∧ p = path
  | .logGrads bound => args.kill_if_grads_larger = some bound
  | .nanKill => args.kill_if_nan = true
  | .timing s => args.kill_after_seconds = some s
  | .checkpoint => args.create_checkpoint = true
  | .user j => j < args.callbacks
  | .saveTracked p track => p = path ∧ args.track_metrices = some track

/-- Everything that was there is still there. -/
def Grows {γ : Type} (fs fs' : FS γ) : Prop := ∀ q n, fs q = some n → fs' q = some n

/-- The user's callbacks leave the files that exist as they are when they are closed, and do not touch the
default of `loggers`. -/
def FnEnv.Tame (env : FnEnv R K S O G υ L) : Prop :=
  ∀ j s s', env.userClose j s = (.ok (), s') →
    Grows s.2.files.fs s'.2.files.fs ∧ s'.2.default_loggers = s.2.default_loggers

/-! ## Where training starts -/

/-- C86: training starts with the parameters and the optimizer state of the checkpoint if there is one,
whatever the parameters of the filter are; otherwise with the parameters of the filter; otherwise with new
ones.  Only the last needs a sample. -/
theorem C86_start (env : FnEnv R K S O G υ L) (args : TrainArgs R) (g : G)
    (fs : FS (Content (Leaves R) O L)) :
    (∀ path p o, args.checkpoint = some path → path.name ≠ "" → fs.Has path.parent →
      fs (pickleFile path) = some (.file (.checkpoint p o)) →
      trainStart env args g fs = (.ok (p, o, g), fs)) ∧
    (∀ p, args.checkpoint = none → env.filter_params = .ok (some p) →
      trainStart env args g fs = (.ok (p, env.optimizer_init p, g), fs)) ∧
    (∀ X g' p, args.checkpoint = none → env.filter_params = .ok none →
      env.generator g (env.prngKey 1) = .ok (X, g') → env.filter_init X args.seed_network = .ok p →
      trainStart env args g fs = (.ok (p, env.optimizer_init p, g'), fs)) := by
  refine ⟨?_, ?_, ?_⟩
  · intro path p o hc hn hhas hfile
    unfold trainStart
    rw [hc]
    dsimp only
    rw [loadCheckpoint_ok hn hhas hfile]
  · intro p hc hp
    unfold trainStart
    rw [hc]
    dsimp only
    rw [hp]
    rfl
  · intro X g' p hc hp hg hi
    unfold trainStart
    rw [hc]
    dsimp only
    rw [hp, ok_bind]
    dsimp only
    rw [hg, ok_bind, hi]
    rfl

/-- loading a checkpoint may make directories, nothing else -/
theorem loadCheckpoint_dirs {fs fs' : FS (Content (Leaves R) O L)} {path : FPath}
    {r : Py (Leaves R × O)} (h : loadCheckpoint fs path = (r, fs')) : FS.DirsAdded fs fs' := by
  unfold loadCheckpoint at h
  split at h
  · cases h; exact FS.DirsAdded.refl _
  · rename_i p _
    have hl : ∀ r1 fs1, pickle_load fs p = (r1, fs1) → FS.DirsAdded fs fs1 := by
      intro r1 fs1 hl
      unfold pickle_load at hl
      rcases hp : parse_path fs p [] (some "pickle") true true true with ⟨r2, fs2⟩
      have := (parse_path_spec hp).1
      rw [hp] at hl
      cases r2 with
      | error e => cases hl; exact this
      | ok q =>
        dsimp only at hl
        split at hl <;> (cases hl; exact this)
    rcases hp : pickle_load fs p with ⟨r1, fs1⟩
    have := hl _ _ hp
    rw [hp] at h
    split at h <;> rename_i heq <;> (cases heq; cases h; exact this)

theorem trainStart_dirs {env : FnEnv R K S O G υ L} {args : TrainArgs R} {g : G}
    {fs fs' : FS (Content (Leaves R) O L)} {r : Py (Leaves R × O × G)}
    (h : trainStart env args g fs = (r, fs')) : FS.DirsAdded fs fs' := by
  unfold trainStart at h
  split at h
  · split at h <;> rename_i heq <;> (cases h; exact loadCheckpoint_dirs heq)
  · cases h; exact FS.DirsAdded.refl _

/-! ## The list of callbacks -/

theorem before_snoc {A B : List (CbKind R)} {n : Nat} (hA : A.Pairwise CbKind.Before)
    (hr : ∀ a ∈ A, a.rank < n) (hB : B.Pairwise CbKind.Before) (hB' : ∀ b ∈ B, b.rank = n) :
    (A ++ B).Pairwise CbKind.Before ∧ ∀ a ∈ A ++ B, a.rank < n + 1 := by
  refine ⟨List.pairwise_append.2 ⟨hA, hB, fun a ha b hb => .inl ?_⟩, fun a ha => ?_⟩
  · rw [hB' b hb]; exact hr a ha
  · rcases List.mem_append.1 ha with ha | ha
    · have := hr a ha; omega
    · rw [hB' a ha]; omega

/-- C86: the callbacks of a run are exactly those asked for, each once, in this order: the episode, the
metrics, the other callbacks of the library, those of the user, and last the one that tracks metrics. -/
theorem C86_order {env : FnEnv R K S O G υ L} {args : TrainArgs R} {kinds : List (CbKind R)}
    (h : trainCallbacks env args = .ok kinds) :
    kinds.Pairwise CbKind.Before ∧
      ∀ k, k ∈ kinds ↔ k.Wanted args (savePath env args.save_params) := by
  have hd : (defaultCallbacks env args).Pairwise CbKind.Before ∧
      ∀ a ∈ defaultCallbacks env args, a.rank < 7 + 1 := by
    unfold defaultCallbacks
    have h0 : ([CbKind.logEpisode args.kill_after_episode] : List (CbKind R)).Pairwise CbKind.Before ∧
        ∀ a ∈ ([CbKind.logEpisode args.kill_after_episode] : List (CbKind R)), a.rank < 0 + 1 := by
      simp [CbKind.rank]
    have h1 := before_snoc h0.1 h0.2 (B := if args.metrices then [.evalFn] else [])
      (by split <;> simp) (by split <;> simp [CbKind.rank])
    have h2 := before_snoc h1.1 h1.2 (B := match args.kill_tag with
      | some tag => [.wandbKill tag]
      | Option.none => []) (by split <;> simp) (by split <;> simp [CbKind.rank])
    have h3 := before_snoc h2.1 h2.2
      (B := if args.save_params = .no then [] else [.save (savePath env args.save_params)])
      (by split <;> simp) (by split <;> simp [CbKind.rank])
    have h4 := before_snoc h3.1 h3.2 (B := match args.kill_if_grads_larger with
      | some bound => [.logGrads bound]
      | Option.none => []) (by split <;> simp) (by split <;> simp [CbKind.rank])
    have h5 := before_snoc h4.1 h4.2 (B := if args.kill_if_nan then [.nanKill] else [])
      (by split <;> simp) (by split <;> simp [CbKind.rank])
    have h6 := before_snoc h5.1 h5.2 (B := match args.kill_after_seconds with
      | some s => [.timing s]
      | Option.none => []) (by split <;> simp) (by split <;> simp [CbKind.rank])
    exact before_snoc h6.1 h6.2 (B := if args.create_checkpoint then [.checkpoint] else [])
      (by split <;> simp) (by split <;> simp [CbKind.rank])
  have hmem : ∀ k, k ∈ defaultCallbacks env args ↔
      k.rank < 8 ∧ k.Wanted args (savePath env args.save_params) := by
    intro k
    unfold defaultCallbacks
    simp only [List.mem_append, List.mem_singleton]
    rcases ht : args.kill_tag with _ | tag <;>
      rcases hg : args.kill_if_grads_larger with _ | b <;>
      rcases hs : args.kill_after_seconds with _ | sec <;>
      cases k <;> first
        | (simp [CbKind.rank, CbKind.Wanted, ht, hg, hs]; done)
        | (simp [CbKind.rank, CbKind.Wanted, ht, hg, hs]; exact eq_comm)
  have hu := before_snoc hd.1 hd.2 (B := (List.range args.callbacks).map CbKind.user)
    (by
      rw [List.pairwise_map]
      exact List.pairwise_lt_range.imp fun {a b} hab => .inr ⟨a, b, rfl, rfl, hab⟩)
    (by simp [CbKind.rank])
  unfold trainCallbacks at h
  dsimp only at h
  rcases ht : args.track_metrices with _ | track
  · rw [ht] at h
    have := Except.ok.inj h
    subst this
    refine ⟨hu.1, fun k => ?_⟩
    rw [List.mem_append, hmem]
    cases k <;> simp [CbKind.rank, CbKind.Wanted, ht]
  · rw [ht] at h
    dsimp only at h
    split at h
    · cases h
    · have := Except.ok.inj h
      subst this
      refine ⟨(before_snoc hu.1 hu.2 (B := [.saveTracked (savePath env args.save_params) track])
        (by simp) (by simp [CbKind.rank])).1, fun k => ?_⟩
      rw [List.mem_append, List.mem_append, hmem]
      cases k <;> simp [CbKind.rank, CbKind.Wanted, ht]
      exact fun _ => eq_comm

/-- splitting the list at a callback that is no user's: no other of its kind is left -/
theorem split_kinds {env : FnEnv R K S O G υ L} {args : TrainArgs R} {kinds : List (CbKind R)}
    (h : trainCallbacks env args = .ok kinds) {k : CbKind R} (hk : k ∈ kinds) (hr : k.rank ≠ 8) :
    ∃ a b, kinds = a ++ k :: b ∧ (∀ x ∈ a, x.rank < k.rank) ∧ (∀ x ∈ b, k.rank < x.rank) := by
  obtain ⟨a, b, rfl⟩ := List.append_of_mem hk
  obtain ⟨hp, -⟩ := C86_order h
  obtain ⟨-, h2, h3⟩ := List.pairwise_append.1 hp
  refine ⟨a, b, rfl, fun x hx => ?_, fun x hx => ?_⟩
  · rcases h3 x hx k (by simp) with hh | ⟨i, j, rfl, rfl, -⟩
    · exact hh
    · exact absurd rfl hr
  · rcases (List.pairwise_cons.1 h2).1 x hx with hh | ⟨i, j, rfl, rfl, -⟩
    · exact hh
    · exact absurd rfl hr

/-! ## What the callbacks do in an episode -/

section loop
variable [Field R] [LinearOrder R]

omit [Field R] [LinearOrder R] in
theorem callLoop_append {Γ : Type} {args : CallArgs R S O} : ∀ (a b : List (Callback R S O Γ)) (j : Nat)
    (st : Γ × Bool × Metrices R) (tr : List (Event K S)),
    callLoop args (a ++ b) j st tr =
      (callLoop args a j st tr >>= fun r => callLoop args b (j + a.length) r.1 r.2)
  | [], b, j, st, tr => rfl
  | c :: a, b, j, st, tr => by
    rw [List.cons_append, callLoop, callLoop]
    rcases hc : c args st with e | st'
    · rfl
    · rw [ok_bind, ok_bind, callLoop_append a b, List.length_cons]
      rw [show j + 1 + a.length = j + (a.length + 1) by omega]

/-- each callback keeps its attributes to itself -/
theorem callback_frame {env : FnEnv R K S O G υ L} {wandb : Bool} {k : CbKind R}
    {args : CallArgs R S O} {st st' : CbState R O υ × Bool × Metrices R}
    (h : k.callback env wandb args st = .ok st') :
    (k.rank ≠ 3 → st'.1.saved = st.1.saved) ∧ (k.rank ≠ 9 → st'.1.tracked = st.1.tracked) ∧
      (k.rank ≠ 7 → st'.1.last = st.1.last) := by
  cases k with
  | logEpisode e => have := Except.ok.inj h; subst this; exact ⟨fun _ => rfl, fun _ => rfl, fun _ => rfl⟩
  | evalFn =>
    replace h : (env.eval_fn args.params args.sample_eval >>= fun m =>
      (.ok (st.1, st.2.1, Dict.update st.2.2 m) : Py (CbState R O υ × Bool × Metrices R))) = .ok st' := h
    rcases hm : env.eval_fn args.params args.sample_eval with e | m
    · rw [hm, error_bind] at h; cases h
    · rw [hm, ok_bind] at h
      have := Except.ok.inj h
      subst this
      exact ⟨fun _ => rfl, fun _ => rfl, fun _ => rfl⟩
  | wandbKill tag => have := Except.ok.inj h; subst this; exact ⟨fun _ => rfl, fun _ => rfl, fun _ => rfl⟩
  | save p =>
    replace h : (st.1.saved.after_training_step args.i_episode.toNat
      (Metric.map env.num (.node st.2.2)) args.params >>= fun c =>
      (.ok ({ st.1 with saved := c }, st.2) : Py (CbState R O υ × Bool × Metrices R))) = .ok st' := h
    rcases hm : st.1.saved.after_training_step args.i_episode.toNat
      (Metric.map env.num (.node st.2.2)) args.params with e | m
    · rw [hm, error_bind] at h; cases h
    · rw [hm, ok_bind] at h
      have := Except.ok.inj h
      subst this
      exact ⟨fun hh => absurd rfl hh, fun _ => rfl, fun _ => rfl⟩
  | logGrads b => have := Except.ok.inj h; subst this; exact ⟨fun _ => rfl, fun _ => rfl, fun _ => rfl⟩
  | nanKill => have := Except.ok.inj h; subst this; exact ⟨fun _ => rfl, fun _ => rfl, fun _ => rfl⟩
  | timing t => have := Except.ok.inj h; subst this; exact ⟨fun _ => rfl, fun _ => rfl, fun _ => rfl⟩
  | checkpoint =>
    have := Except.ok.inj h; subst this; exact ⟨fun _ => rfl, fun _ => rfl, fun hh => absurd rfl hh⟩
  | user j =>
    replace h : (env.user j args (st.1.user, st.2) >>= fun r =>
      (.ok ({ st.1 with user := r.1 }, r.2) : Py (CbState R O υ × Bool × Metrices R))) = .ok st' := h
    rcases hm : env.user j args (st.1.user, st.2) with e | m
    · rw [hm, error_bind] at h; cases h
    · rw [hm, ok_bind] at h
      have := Except.ok.inj h
      subst this
      exact ⟨fun _ => rfl, fun _ => rfl, fun _ => rfl⟩
  | saveTracked p t =>
    replace h : (st.1.tracked.after_training_step args.i_episode.toNat
      (Metric.map env.num (.node st.2.2)) args.params >>= fun c =>
      (.ok ({ st.1 with tracked := c }, st.2) : Py (CbState R O υ × Bool × Metrices R))) = .ok st' := h
    rcases hm : st.1.tracked.after_training_step args.i_episode.toNat
      (Metric.map env.num (.node st.2.2)) args.params with e | m
    · rw [hm, error_bind] at h; cases h
    · rw [hm, ok_bind] at h
      have := Except.ok.inj h
      subst this
      exact ⟨fun _ => rfl, fun hh => absurd rfl hh, fun _ => rfl⟩

theorem callLoop_frame {X : Type} (π : CbState R O υ → X) {env : FnEnv R K S O G υ L} {wandb : Bool}
    {args : CallArgs R S O} : ∀ (ks : List (CbKind R)) {j : Nat}
    {st : CbState R O υ × Bool × Metrices R} {tr : List (Event K S)}
    {r : (CbState R O υ × Bool × Metrices R) × List (Event K S)},
    (∀ k ∈ ks, ∀ st st', k.callback env wandb args st = .ok st' → π st'.1 = π st.1) →
    callLoop args (ks.map (CbKind.callback env wandb)) j st tr = .ok r → π r.1.1 = π st.1
  | [], j, st, tr, r, _, h => by
    have := Except.ok.inj h
    subst this
    rfl
  | k :: ks, j, st, tr, r, hk, h => by
    rw [List.map_cons, callLoop] at h
    rcases hc : k.callback env wandb args st with e | st'
    · rw [hc, error_bind] at h; cases h
    · rw [hc, ok_bind] at h
      rw [callLoop_frame π ks (fun k' hk' => hk k' (by simp [hk'])) h, hk k (by simp) st st' hc]

/-- the callbacks of a step of the loop -/
theorem step_cb {env : FnEnv R K S O G υ L} {wandb : Bool} {kinds : List (CbKind R)}
    {s s' : LoopState R K S O G (CbState R O υ) Unit}
    (h : TrainingLoop.step (trainEnv env wandb kinds) s = .ok s') :
    s'.i_episode = s.i_episode + 1 ∧ ∃ grads sample loss tr c,
      env.step_fn s.params s.opt_state s.sample_eval = .ok (s'.params, s'.opt_state, loss, grads) ∧
      callLoop (K := K) ⟨s.i_episode + 1, s'.params, grads, sample, s'.opt_state⟩
        (kinds.map (CbKind.callback env wandb)) 0 (s.cb, s.kill, Dict.update [] loss) tr = .ok c ∧
      s'.cb = c.1.1 ∧ s'.kill = c.1.2.1 := by
  obtain ⟨k, g, t, c, hk, _, ht, hc, rfl⟩ := step_ok h
  have hf := nextKey_frame hk
  have h1 : k.2.i_episode = s.i_episode + 1 := by rw [hf]
  have h2 : k.2.cb = s.cb := by rw [hf]
  have h3 : k.2.kill = s.kill := by rw [hf]
  have h4 : k.2.params = s.params := by rw [hf]
  have h5 : k.2.opt_state = s.opt_state := by rw [hf]
  rw [h4, h5] at ht
  rw [h1, h2, h3] at hc
  exact ⟨h1, t.2.2.2, g.1, t.2.2.1, _, c, ht, hc, rfl, rfl⟩

/-- what one callback of a step sees and does -/
theorem step_one {X : Type} (π : CbState R O υ → X) {env : FnEnv R K S O G υ L} {wandb : Bool}
    {a b : List (CbKind R)} {k : CbKind R} {s s' : LoopState R K S O G (CbState R O υ) Unit}
    (hab : ∀ x ∈ a ++ b, ∀ (args : CallArgs R S O) st st', x.callback env wandb args st = .ok st' →
      π st'.1 = π st.1)
    (h : TrainingLoop.step (trainEnv env wandb (a ++ k :: b)) s = .ok s') :
    ∃ grads sample st1 st2, π st1.1 = π s.cb ∧
      k.callback env wandb ⟨s.i_episode + 1, s'.params, grads, sample, s'.opt_state⟩ st1 = .ok st2 ∧
      π s'.cb = π st2.1 := by
  obtain ⟨hi, grads, sample, loss, tr, c, hst, hc, h1, h2⟩ := step_cb h
  rw [List.map_append, callLoop_append] at hc
  rcases ha : callLoop ⟨s.i_episode + 1, s'.params, grads, sample, s'.opt_state⟩
    (a.map (CbKind.callback env wandb)) 0 (s.cb, s.kill, Dict.update [] loss) tr with e | r1
  · rw [ha, error_bind] at hc; cases hc
  rw [ha, ok_bind, List.map_cons, callLoop] at hc
  rcases hk : k.callback env wandb ⟨s.i_episode + 1, s'.params, grads, sample, s'.opt_state⟩ r1.1
    with e | st2
  · rw [hk, error_bind] at hc; cases hc
  rw [hk, ok_bind] at hc
  refine ⟨grads, sample, r1.1, st2, ?_, hk, ?_⟩
  · exact callLoop_frame π a (fun x hx st st' => hab x (by simp [hx]) _ st st') ha
  · rw [h1]
    exact callLoop_frame π b (fun x hx st st' => hab x (by simp [hx]) _ st st') hc

theorem callback_save {env : FnEnv R K S O G υ L} {wandb : Bool} {p : Option FPath}
    {args : CallArgs R S O} {st st' : CbState R O υ × Bool × Metrices R}
    (h : (CbKind.save p).callback env wandb args st = .ok st') :
    st.1.saved.after_training_step args.i_episode.toNat
      (Metric.map env.num (.node st.2.2)) args.params = .ok st'.1.saved := by
  replace h : (st.1.saved.after_training_step args.i_episode.toNat
    (Metric.map env.num (.node st.2.2)) args.params >>= fun c =>
    (.ok ({ st.1 with saved := c }, st.2) : Py (CbState R O υ × Bool × Metrices R))) = .ok st' := h
  rcases hm : st.1.saved.after_training_step args.i_episode.toNat
    (Metric.map env.num (.node st.2.2)) args.params with e | m
  · rw [hm, error_bind] at h; cases h
  · rw [hm, ok_bind] at h
    have := Except.ok.inj h
    subst this
    rfl

theorem callback_tracked {env : FnEnv R K S O G υ L} {wandb : Bool} {p : Option FPath}
    {t : List (List String)} {args : CallArgs R S O} {st st' : CbState R O υ × Bool × Metrices R}
    (h : (CbKind.saveTracked p t).callback env wandb args st = .ok st') :
    st.1.tracked.after_training_step args.i_episode.toNat
      (Metric.map env.num (.node st.2.2)) args.params = .ok st'.1.tracked := by
  replace h : (st.1.tracked.after_training_step args.i_episode.toNat
    (Metric.map env.num (.node st.2.2)) args.params >>= fun c =>
    (.ok ({ st.1 with tracked := c }, st.2) : Py (CbState R O υ × Bool × Metrices R))) = .ok st' := h
  rcases hm : st.1.tracked.after_training_step args.i_episode.toNat
    (Metric.map env.num (.node st.2.2)) args.params with e | m
  · rw [hm, error_bind] at h; cases h
  · rw [hm, ok_bind] at h
    have := Except.ok.inj h
    subst this
    rfl

/-- C86: the callback that tracks metrics is given the parameters of the episode and the metrics as all
other callbacks, those of the user included, have left them. -/
theorem C86_tracked {env : FnEnv R K S O G υ L} {args : TrainArgs R} {wandb : Bool}
    {kinds : List (CbKind R)} (h : trainCallbacks env args = .ok kinds) {p : Option FPath}
    {track : List (List String)} (hk : .saveTracked p track ∈ kinds)
    {s s' : LoopState R K S O G (CbState R O υ) Unit}
    (hs : TrainingLoop.step (trainEnv env wandb kinds) s = .ok s') :
    ∃ (others : List (CbKind R)) (grads : _) (sample : _) (loss : _) (tr : _) (c : _),
      kinds = others ++ [.saveTracked p track] ∧
      env.step_fn s.params s.opt_state s.sample_eval = .ok (s'.params, s'.opt_state, loss, grads) ∧
      callLoop (K := K) ⟨s.i_episode + 1, s'.params, grads, sample, s'.opt_state⟩
        (others.map (CbKind.callback env wandb)) 0 (s.cb, s.kill, Dict.update [] loss) tr = .ok c ∧
      s.cb.tracked.after_training_step s'.i_episode.toNat (Metric.map env.num (.node c.1.2.2))
        s'.params = .ok s'.cb.tracked := by
  obtain ⟨a, b, rfl, ha, hb⟩ := split_kinds h hk (by simp [CbKind.rank])
  have hb0 : b = [] := by
    rcases b with _ | ⟨x, b⟩
    · rfl
    · have := hb x (by simp)
      cases x <;> simp [CbKind.rank] at this
  subst hb0
  obtain ⟨hi, grads, sample, loss, tr, c, hst, hc, h1, h2⟩ := step_cb hs
  rw [List.map_append, callLoop_append] at hc
  rcases hca : callLoop ⟨s.i_episode + 1, s'.params, grads, sample, s'.opt_state⟩
    (a.map (CbKind.callback env wandb)) 0 (s.cb, s.kill, Dict.update [] loss) tr with e | r1
  · rw [hca, error_bind] at hc; cases hc
  rw [hca, ok_bind, List.map_cons, callLoop] at hc
  rcases hcb : (CbKind.saveTracked p track).callback env wandb
    ⟨s.i_episode + 1, s'.params, grads, sample, s'.opt_state⟩ r1.1 with e | st2
  · rw [hcb, error_bind] at hc; cases hc
  rw [hcb, ok_bind] at hc
  have := Except.ok.inj hc
  subst this
  have h3 := callback_tracked hcb
  have h4 : r1.1.1.tracked = s.cb.tracked :=
    callLoop_frame CbState.tracked a (fun x hx st st' hh => (callback_frame hh).2.1 (by
      have := ha x hx
      simp only [CbKind.rank] at this ⊢
      cases x <;> simp_all [CbKind.rank])) hca
  refine ⟨a, grads, sample, loss, tr, r1, rfl, hst, hca, ?_⟩
  rw [hi, h1, ← h4]
  exact h3

/-! ## The attributes of the callbacks after some episodes -/

theorem after_untracked [IsStrictOrderedRing R] {P : Type} {c c' : SaveParams R P} {i : Nat}
    {m : Metric R} {p : P}
    (h1 : c.last_n_params = 1) (ht : c.track_metrices = none)
    (hq : c.queue = [] ∨ ∃ e, c.queue = [e] ∧ e.value = c.value)
    (h : c.after_training_step i m p = .ok c') :
    c'.last_n_params = 1 ∧ c'.track_metrices = none ∧ ∃ e, c'.queue = [e] ∧ e.value = c'.value ∧
      e.params = p ∧ e.episode = i := by
  have hi : Queue.insert c.last_n_params c.queue ⟨c.value - 1, p, i⟩ =
      .ok [⟨c.value - 1, p, i⟩] := by
    unfold Queue.insert
    rw [h1]
    rcases hq with hq | ⟨e, hq, he⟩
    · rw [hq]
      simp [Queue.sort]
    · rw [hq]
      have : c.value - 1 < e.value := by rw [he]; linarith
      simp [Queue.sort, this]
  unfold SaveParams.after_training_step at h
  rw [ht] at h
  dsimp only at h
  rw [hi, ok_bind] at h
  have := Except.ok.inj h
  subst this
  exact ⟨h1, rfl, _, rfl, rfl, rfl, rfl⟩

theorem after_tracked_nonempty {P : Type} {c c' : SaveParams R P} {i : Nat} {m : Metric R} {p : P}
    (h : c.after_training_step i m p = .ok c') : c'.queue ≠ [] ∧ c'.last_n_params = c.last_n_params ∧
      (c.last_n_params ≠ 1 → c.queue = [] → ∃ e, c'.queue = [e] ∧ e.params = p ∧ e.episode = i) := by
  have hi : ∀ q (v : R), Queue.insert c.last_n_params c.queue ⟨v, p, i⟩ = .ok q → q ≠ [] ∧
      (c.queue = [] → q = [⟨v, p, i⟩]) := by
    intro q v hq
    unfold Queue.insert at hq
    split at hq
    · have := Except.ok.inj hq
      subst this
      refine ⟨?_, fun h0 => by rw [h0]; simp [Queue.sort]⟩
      intro h0
      have := congrArg List.length h0
      simp [Queue.sort] at this
    · split at hq
      · cases hq
      · rename_i last hl
        have hne : c.queue ≠ [] := by rintro h0; rw [h0] at hl; cases hl
        split at hq
        · have := Except.ok.inj hq
          subst this
          refine ⟨?_, fun h0 => absurd h0 hne⟩
          intro h0
          have := congrArg List.length h0
          simp [Queue.sort] at this
        · have := Except.ok.inj hq
          subst this
          exact ⟨hne, fun h0 => absurd h0 hne⟩
  unfold SaveParams.after_training_step at h
  split at h
  · rcases hq : Queue.insert c.last_n_params c.queue ⟨c.value - 1, p, i⟩ with e | q
    · rw [hq, error_bind] at h; cases h
    · rw [hq, ok_bind] at h
      have := Except.ok.inj h
      subst this
      exact ⟨(hi q _ hq).1, rfl, fun _ h0 => ⟨_, (hi q _ hq).2 h0, rfl, rfl⟩⟩
  · rename_i track _
    rcases hv : trackedValue c.eval_every i m track with e | v
    · rw [hv, error_bind] at h; cases h
    rw [hv, ok_bind] at h
    rcases hq : Queue.insert c.last_n_params c.queue ⟨v, p, i⟩ with e | q
    · rw [hq, error_bind] at h; cases h
    · rw [hq, ok_bind] at h
      have := Except.ok.inj h
      subst this
      exact ⟨(hi q _ hq).1, rfl, fun _ h0 => ⟨_, (hi q _ hq).2 h0, rfl, rfl⟩⟩

/-- what is known about the loop after some steps -/
structure LoopInv (kinds : List (CbKind R)) (m : Nat)
    (s : LoopState R K S O G (CbState R O υ) Unit) : Prop where
  episode : s.i_episode = (m : Int) - 1
  saved : (∃ p, .save p ∈ kinds) → s.cb.saved.last_n_params = 1 ∧
    s.cb.saved.track_metrices = none ∧
    ((m = 0 ∧ s.cb.saved.queue = []) ∨ ∃ e, s.cb.saved.queue = [e] ∧ e.value = s.cb.saved.value ∧
      e.params = s.params ∧ e.episode + 1 = m)
  tracked : (∃ p t, .saveTracked p t ∈ kinds) → (m = 0 → s.cb.tracked.queue = []) ∧
    (0 < m → s.cb.tracked.queue ≠ []) ∧
    (m = 1 → ∃ e, s.cb.tracked.queue = [e] ∧ e.params = s.params ∧ e.episode = 0)
  last : .checkpoint ∈ kinds → 0 < m → s.cb.last = some (s.params, s.opt_state)

theorem loopInv_step [IsStrictOrderedRing R] {env : FnEnv R K S O G υ L} {args : TrainArgs R}
    {wandb : Bool} {kinds : List (CbKind R)} (h : trainCallbacks env args = .ok kinds) {m : Nat}
    {s s' : LoopState R K S O G (CbState R O υ) Unit} (hinv : LoopInv kinds m s)
    (h3 : s.cb.tracked.last_n_params = 3)
    (hs : TrainingLoop.step (trainEnv env wandb kinds) s = .ok s') :
    LoopInv kinds (m + 1) s' ∧ s'.cb.tracked.last_n_params = 3 := by
  have hi := (step_cb hs).1
  have hit : (s.i_episode + 1).toNat = m := by rw [hinv.episode]; omega
  have hframe : ∀ {a b : List (CbKind R)} {k : CbKind R} {n : Nat}, k.rank = n →
      (∀ x ∈ a, x.rank < k.rank) → (∀ x ∈ b, k.rank < x.rank) → ∀ x ∈ a ++ b, x.rank ≠ n := by
    intro a b k n hk ha hb x hx
    rcases List.mem_append.1 hx with hx | hx
    · have := ha x hx; omega
    · have := hb x hx; omega
  refine ⟨⟨by rw [hi, hinv.episode]; push_cast; ring, ?_, ?_, ?_⟩, ?_⟩
  · rintro ⟨p, hk⟩
    obtain ⟨a, b, rfl, ha, hb⟩ := split_kinds h hk (by simp [CbKind.rank])
    obtain ⟨g, x, st1, st2, e1, e2, e3⟩ := step_one CbState.saved
      (fun x hx _ _ _ hh => (callback_frame hh).1 (hframe rfl ha hb x hx)) hs
    have hc := callback_save e2
    dsimp only at hc
    rw [e1, ← e3, hit] at hc
    obtain ⟨i1, i2, i3⟩ := hinv.saved ⟨p, hk⟩
    obtain ⟨c1, c2, e, c3, c4, c5, c6⟩ := after_untracked i1 i2 (i3.imp (·.2) fun ⟨e, q1, q2, _⟩ =>
      ⟨e, q1, q2⟩) hc
    exact ⟨c1, c2, .inr ⟨e, c3, c4, c5, by rw [c6]⟩⟩
  · rintro ⟨p, t, hk⟩
    obtain ⟨a, b, rfl, ha, hb⟩ := split_kinds h hk (by simp [CbKind.rank])
    obtain ⟨g, x, st1, st2, e1, e2, e3⟩ := step_one CbState.tracked
      (fun x hx _ _ _ hh => (callback_frame hh).2.1 (hframe rfl ha hb x hx)) hs
    have hc := callback_tracked e2
    dsimp only at hc
    rw [e1, ← e3, hit] at hc
    obtain ⟨i1, i2, i3⟩ := hinv.tracked ⟨p, t, hk⟩
    obtain ⟨q1, q2, q3⟩ := after_tracked_nonempty hc
    refine ⟨by omega, fun _ => q1, fun hm => ?_⟩
    have hm : m = 0 := by omega
    obtain ⟨e, r1, r2, r3⟩ := q3 (by omega) (i1 hm)
    exact ⟨e, r1, r2, by omega⟩
  · intro hk _
    obtain ⟨a, b, rfl, ha, hb⟩ := split_kinds h hk (by simp [CbKind.rank])
    obtain ⟨g, x, st1, st2, e1, e2, e3⟩ := step_one CbState.last
      (fun x hx _ _ _ hh => (callback_frame hh).2.2 (hframe rfl ha hb x hx)) hs
    have := Except.ok.inj e2
    rw [e3, ← this]
  · by_cases hk : ∃ p t, CbKind.saveTracked p t ∈ kinds
    · obtain ⟨p, t, hk⟩ := hk
      obtain ⟨a, b, rfl, ha, hb⟩ := split_kinds h hk (by simp [CbKind.rank])
      obtain ⟨g, x, st1, st2, e1, e2, e3⟩ := step_one CbState.tracked
        (fun x hx _ _ _ hh => (callback_frame hh).2.1 (hframe rfl ha hb x hx)) hs
      have hc := callback_tracked e2
      dsimp only at hc
      rw [e1, ← e3] at hc
      rw [(after_tracked_nonempty hc).2.1, h3]
    · obtain ⟨hi, grads, sample, loss, tr, c, hst, hc, h1, h2⟩ := step_cb hs
      have := callLoop_frame CbState.tracked kinds (fun x hx st st' hh => (callback_frame hh).2.1 (by
        intro hr
        cases x with
        | saveTracked p t => exact hk ⟨p, t, hx⟩
        | _ => simp [CbKind.rank] at hr)) hc
      rw [h1, this, h3]

theorem loopInv_steps [IsStrictOrderedRing R] {env : FnEnv R K S O G υ L} {args : TrainArgs R}
    {wandb : Bool} {kinds : List (CbKind R)} (h : trainCallbacks env args = .ok kinds) {n : Nat}
    {s : LoopState R K S O G (CbState R O υ) Unit} (hinv : LoopInv kinds n s)
    (h3 : s.cb.tracked.last_n_params = 3) : ∀ {m : Nat}
    {s' : LoopState R K S O G (CbState R O υ) Unit},
    steps (trainEnv env wandb kinds) m s = .ok s' →
    LoopInv kinds (n + m) s' ∧ s'.cb.tracked.last_n_params = 3
  | 0, s', hs => by
    have := Except.ok.inj hs
    subst this
    exact ⟨hinv, h3⟩
  | m + 1, s', hs => by
    rw [steps] at hs
    rcases hu : steps (trainEnv env wandb kinds) m s with er | u
    · rw [hu, error_bind] at hs; cases hs
    rw [hu, ok_bind] at hs
    obtain ⟨a, b⟩ := loopInv_steps h hinv h3 hu
    exact loopInv_step h a b hs

/-! ## A run that ends without an exception -/

/-- what is known if `train_fn` returns -/
theorem train_ok {env : FnEnv R K S O G υ L} {args : TrainArgs R} {u : υ} {g : G}
    {w : TrainWorld R O L} {killed : Bool} {e : TrainEnd R K S O G υ L}
    (h : train_fn env args u g w = (.ok killed, e)) :
    ∃ kinds p o g' fs w1 s0 s m, trainStart env args g w.files.fs = (.ok (p, o, g'), fs) ∧
      trainCallbacks env args = .ok kinds ∧ w1.files = { w.files with fs := fs } ∧
      w1.wandb = w.wandb ∧ e.loggers = addWandb w.wandb (args.loggers.getD w.default_loggers) ∧
      (args.loggers = none → w1.default_loggers = e.loggers) ∧
      TrainingLoop.init (trainEnv env w.wandb kinds) (env.prngKey args.seed_generator) p o none g' ()
        (CbState.init args.track_metrices u) false = .ok s0 ∧
      (w.wandb = false → LoggerKind.wandb ∉ e.loggers) ∧
      runLoop (trainEnv env w.wandb kinds) args.n_episodes { s0 with kill := false } = .ok s ∧
      m ≤ args.n_episodes ∧
      steps (trainEnv env w.wandb kinds) m { s0 with kill := false } = .ok s ∧
      (m < args.n_episodes → s.kill = true) ∧ (0 < args.n_episodes → 0 < m) ∧ killed = s.kill ∧
      e.loop = some s ∧
      Closed (kinds.map (CbKind.close env e.loggers s.kill s.cb) ++ e.loggers.map LoggerKind.close)
        (s.cb.user, w1) (e.user, e.world) := by
  unfold train_fn at h
  dsimp only at h
  rcases hst : trainStart env args g w.files.fs with ⟨er | ⟨p, o, g'⟩, fs⟩
  · rw [hst] at h; cases h
  rw [hst] at h
  dsimp only at h
  rcases hcb : trainCallbacks env args with er | kinds
  · rw [hcb] at h; cases h
  rw [hcb] at h
  dsimp only at h
  generalize hlog : addWandb w.wandb (args.loggers.getD w.default_loggers) = loggers at h
  generalize hw1 : storeLoggers args.loggers loggers
    { w with files := { w.files with fs := fs } } = w1 at h
  have f1 : w1.files = { w.files with fs := fs } := by rw [← hw1]; unfold storeLoggers; split <;> rfl
  have f2 : w1.wandb = w.wandb := by rw [← hw1]; unfold storeLoggers; split <;> rfl
  have f3 : args.loggers = none → w1.default_loggers = loggers := by
    intro hn; rw [← hw1, hn]; rfl
  unfold trainRun at h
  rw [f2] at h
  rcases hin : TrainingLoop.init (trainEnv env w.wandb kinds) (env.prngKey args.seed_generator) p o none
    g' () (CbState.init args.track_metrices u) false with er | s0
  · rw [hin] at h; cases h
  rw [hin] at h
  dsimp only at h
  split at h
  · cases h
  rename_i hwb
  unfold TrainingLoop.run at h
  rcases hrun : runLoop (trainEnv env w.wandb kinds) args.n_episodes { s0 with kill := false }
    with er | s
  · rw [hrun, error_bind] at h; cases h
  rw [hrun, ok_bind, if_neg (by simp)] at h
  dsimp only at h
  obtain ⟨m, hm, h1, h2, h3, h4⟩ := runLoop_ok _ _ _ _ hrun
  unfold trainClose at h
  rcases hcl : TrainingLoop.close (kinds.map (CbKind.close env loggers s.kill s.cb))
    (loggers.map LoggerKind.close) (s.cb.user, w1) with ⟨er | _, u', w'⟩
  · rw [hcl] at h; cases h
  rw [hcl] at h
  cases h
  exact ⟨kinds, p, o, g', fs, w1, s0, s, m, rfl, rfl, f1, f2, rfl, f3, hin,
    fun hf hmem => hwb ⟨hf, hmem⟩, hrun, hm, h1, h2, h3, rfl, rfl, (C84_close _ _ _ _).1.1 hcl⟩

theorem loopInv_init {env : FnEnv R K S O G υ L} {args : TrainArgs R} {wandb : Bool}
    {kinds : List (CbKind R)} {key : K} {p : Leaves R} {o : O} {g : G} {u : υ}
    {s0 : LoopState R K S O G (CbState R O υ) Unit}
    (h : TrainingLoop.init (trainEnv env wandb kinds) key p o none g ()
      (CbState.init args.track_metrices u) false = .ok s0) :
    LoopInv kinds 0 { s0 with kill := false } ∧ s0.cb.tracked.last_n_params = 3 := by
  have hi := (init_ok h).1
  have hcb : s0.cb = CbState.init args.track_metrices u := by
    unfold TrainingLoop.init at h
    dsimp only at h
    rcases hg : (trainEnv env wandb kinds).generator g ((trainEnv env wandb kinds).prngKey 0)
      with er | r
    · rw [hg, error_bind] at h; cases h
    rw [hg, ok_bind] at h
    have := Except.ok.inj h
    subst this
    rfl
  refine ⟨⟨by simpa using hi, fun _ => ?_, fun _ => ?_, fun _ hm => absurd hm (by omega)⟩, ?_⟩
  · rw [hcb]
    exact ⟨rfl, rfl, .inl ⟨rfl, rfl⟩⟩
  · rw [hcb]
    exact ⟨fun _ => rfl, fun hm => absurd hm (by omega), fun hm => absurd hm (by omega)⟩
  · rw [hcb]
    rfl

/-! ## What is tracked -/

theorem run_snoc {P : Type} (x : Metric R × P) : ∀ (l : List (Metric R × P)) (c : SaveParams R P) (i : Nat),
    c.run i (l ++ [x]) = c.run i l >>= fun c => c.after_training_step (i + l.length) x.1 x.2
  | [], c, i => by
    show (c.after_training_step i x.1 x.2 >>= fun c => .ok c) = _
    rcases h : c.after_training_step i x.1 x.2 with e | c1
    · show _ = c.after_training_step i x.1 x.2
      rw [h]; rfl
    · show _ = c.after_training_step i x.1 x.2
      rw [h]; rfl
  | y :: l, c, i => by
    rw [List.cons_append, SaveParams.run, SaveParams.run]
    rcases h : c.after_training_step i y.1 y.2 with e | c1
    · rfl
    · rw [ok_bind, ok_bind, run_snoc x l c1 (i + 1), List.length_cons]
      congr 1
      funext c2
      rw [show i + 1 + l.length = i + (l.length + 1) by omega]

/-- What the callback that tracks metrics sees in an episode: `x` are the metrics as all other callbacks
have left them and the parameters after the step from `s` to `s'`. -/
def Seen (env : FnEnv R K S O G υ L) (wandb : Bool) (others : List (CbKind R))
    (s s' : LoopState R K S O G (CbState R O υ) Unit) (x : Metric R × Leaves R) : Prop :=
  x.2 = s'.params ∧ ∃ (grads : _) (sample : _) (loss : _) (tr : _) (c : _),
    env.step_fn s.params s.opt_state s.sample_eval = .ok (s'.params, s'.opt_state, loss, grads) ∧
    callLoop (K := K) ⟨s'.i_episode, s'.params, grads, sample, s'.opt_state⟩
      (others.map (CbKind.callback env wandb)) 0 (s.cb, s.kill, Dict.update [] loss) tr = .ok c ∧
    x.1 = Metric.map env.num (.node c.1.2.2)

theorem steps_tracked {env : FnEnv R K S O G υ L} {args : TrainArgs R} {wandb : Bool}
    {kinds others : List (CbKind R)} (h : trainCallbacks env args = .ok kinds) {p : Option FPath}
    {track : List (List String)} (hk : kinds = others ++ [.saveTracked p track])
    {s : LoopState R K S O G (CbState R O υ) Unit} (hi : s.i_episode = -1) : ∀ {m : Nat}
    {s' : LoopState R K S O G (CbState R O υ) Unit},
    steps (trainEnv env wandb kinds) m s = .ok s' →
    s'.i_episode = (m : Int) - 1 ∧
    ∃ items : List (Metric R × Leaves R), items.length = m ∧
      s.cb.tracked.run 0 items = .ok s'.cb.tracked ∧
      ∀ (i : Nat) x, items[i]? = some x → ∃ a b, steps (trainEnv env wandb kinds) i s = .ok a ∧
        TrainingLoop.step (trainEnv env wandb kinds) a = .ok b ∧ Seen env wandb others a b x
  | 0, s', hs => by
    have := Except.ok.inj hs
    subst this
    exact ⟨by rw [hi]; rfl, [], rfl, rfl, fun i x hx => by simp at hx⟩
  | m + 1, s', hs => by
    rw [steps] at hs
    rcases hu : steps (trainEnv env wandb kinds) m s with er | u
    · rw [hu, error_bind] at hs; cases hs
    rw [hu, ok_bind] at hs
    obtain ⟨hm, items, hl, hr, hsee⟩ := steps_tracked h hk hi hu
    have hie := (step_cb hs).1
    obtain ⟨o2, grads, sample, loss, tr, c, e1, e2, e3, e4⟩ :=
      C86_tracked (p := p) (track := track) h (by rw [hk]; simp) hs
    have ho : o2 = others := by
      rw [hk] at e1
      exact (List.append_inj_left' e1 rfl).symm
    subst ho
    refine ⟨by rw [hie, hm]; push_cast; ring,
      items ++ [(Metric.map env.num (.node c.1.2.2), s'.params)], by simp [hl], ?_, ?_⟩
    · rw [run_snoc, hr, ok_bind, hl, Nat.zero_add]
      have : s'.i_episode.toNat = m := by rw [hie, hm]; omega
      rw [this] at e4
      exact e4
    · intro i x hx
      rcases Nat.lt_or_ge i items.length with hlt | hge
      · rw [List.getElem?_append_left hlt] at hx
        exact hsee i x hx
      · rw [List.getElem?_append_right hge] at hx
        rcases Nat.eq_zero_or_pos (i - items.length) with h0 | h0
        · rw [h0] at hx
          have hx := Option.some.inj hx
          subst hx
          have : i = m := by omega
          subst this
          refine ⟨u, s', hu, hs, rfl, grads, sample, loss, tr, c, e2, ?_, rfl⟩
          rw [hie]
          exact e3
        · rw [List.getElem?_eq_none (by simp; omega)] at hx
          cases hx

/-- C86: metrics given to `train_fn` to be tracked are: what has been collected at the end is what a
callback for three parameter sets and these metrics makes of the metrics, as all other callbacks have left
them, and the parameters of each episode.  (C54 says which parameters these are.) -/
theorem C86_history {env : FnEnv R K S O G υ L} {args : TrainArgs R} {u : υ} {g : G}
    {w : TrainWorld R O L} {killed : Bool} {e : TrainEnd R K S O G υ L}
    (h : train_fn env args u g w = (.ok killed, e)) {track : List (List String)}
    (htr : args.track_metrices = some track) :
    ∃ s others kinds s0, ∃ m : Nat, e.loop = some s ∧ s.i_episode = (m : Int) - 1 ∧
      trainCallbacks env args = .ok kinds ∧
      kinds = others ++ [.saveTracked (savePath env args.save_params) track] ∧
      steps (trainEnv env w.wandb kinds) m s0 = .ok s ∧
      ∃ items : List (Metric R × Leaves R), items.length = m ∧
        (SaveParams.init 3 (some track) 5).run 0 items = .ok s.cb.tracked ∧
        ∀ (i : Nat) x, items[i]? = some x → ∃ a b, steps (trainEnv env w.wandb kinds) i s0 = .ok a ∧
          TrainingLoop.step (trainEnv env w.wandb kinds) a = .ok b ∧ Seen env w.wandb others a b x := by
  obtain ⟨kinds, _, _, _, _, _, s0, s, m, _, b2, _, _, _, _, b7, _, _, _, b11, _, _, _, b15, _⟩ :=
    train_ok h
  have hk : CbKind.saveTracked (savePath env args.save_params) track ∈ kinds :=
    ((C86_order b2).2 _).2 ⟨rfl, htr⟩
  obtain ⟨a, b, hab, ha, hb⟩ := split_kinds b2 hk (by simp [CbKind.rank])
  have hb0 : b = [] := by
    rcases b with _ | ⟨x, b⟩
    · rfl
    · have := hb x (by simp)
      cases x <;> simp [CbKind.rank] at this
  rw [hb0] at hab
  have hi := (init_ok b7).1
  have hcb : s0.cb = CbState.init args.track_metrices u := by
    unfold TrainingLoop.init at b7
    dsimp only at b7
    rcases hg : (trainEnv env w.wandb kinds).generator _ ((trainEnv env w.wandb kinds).prngKey 0)
      with er | r
    · rw [hg, error_bind] at b7; cases b7
    rw [hg, ok_bind] at b7
    have := Except.ok.inj b7
    subst this
    rfl
  obtain ⟨c1, items, c2, c3, c4⟩ := steps_tracked (s := { s0 with kill := false }) b2 hab hi b11
  refine ⟨s, a, kinds, _, m, b15, c1, b2, hab, b11, items, c2, ?_, c4⟩
  rw [← c3]
  show _ = s0.cb.tracked.run 0 items
  rw [hcb, htr]
  rfl

/-- C86: `train_fn` trains for the number of episodes asked for, unless the run was killed, which is what
it returns; it trains at least one episode if one is asked for.  Every step starts from what the one before
has left, the first from where training starts. -/
theorem C86_run {env : FnEnv R K S O G υ L} {args : TrainArgs R} {u : υ} {g : G}
    {w : TrainWorld R O L} {killed : Bool} {e : TrainEnd R K S O G υ L}
    (h : train_fn env args u g w = (.ok killed, e)) :
    ∃ s, ∃ m : Nat, ∃ p o g' fs, e.loop = some s ∧ trainStart env args g w.files.fs = (.ok (p, o, g'), fs) ∧
      s.i_episode = (m : Int) - 1 ∧ m ≤ args.n_episodes ∧ (m < args.n_episodes → killed = true) ∧
      (0 < args.n_episodes → 0 < m) ∧ killed = s.kill ∧
      ∃ (samples : Nat → S) (ps : Nat → Leaves R) (os : Nat → O), ps 0 = p ∧ os 0 = o ∧
        ps m = s.params ∧ os m = s.opt_state ∧
        ∀ i < m, ∃ loss grads,
          env.step_fn (ps i) (os i) (samples i) = .ok (ps (i + 1), os (i + 1), loss, grads) := by
  obtain ⟨kinds, p, o, g', fs, w1, s0, s, m, h1, h2, h3, h4, h5, h6, h7, h8, h9, h10, h11, h12, h13, h14,
    h15, h16⟩ := train_ok h
  obtain ⟨hi, ht, _, _, _, hp, ho⟩ := init_ok h7
  have ha := after_steps m (After.start.between s0.cb false) h11
  rw [Nat.zero_add] at ha
  obtain ⟨keys, samples, ps, os, _, hep, _, _, p0, o0, pk, ok, hst⟩ := record_inv hi ht ha
  exact ⟨s, m, p, o, g', fs, h15, h1, hep, h10, fun hm => by rw [h14]; exact h12 hm, h13, h14, samples, ps,
    os, p0.trans hp, o0.trans ho, pk, ok, hst⟩

/-! ## Closing -/

theorem Closed.split {σ : Type} {a b : List (σ → Py Unit × σ)} {c : σ → Py Unit × σ} {s s' : σ}
    (h : Closed (a ++ c :: b) s s') :
    ∃ s1 s2, Closed a s s1 ∧ c s1 = (.ok (), s2) ∧ Closed b s2 s' := by
  induction a generalizing s with
  | nil =>
    cases h with
    | cons h1 h2 => exact ⟨_, _, .nil _, h1, h2⟩
  | cons x a ih =>
    cases h with
    | cons h1 h2 =>
      obtain ⟨s1, s2, i1, i2, i3⟩ := ih h2
      exact ⟨s1, s2, .cons h1 i1, i2, i3⟩

theorem Closed.keep {σ : Type} {P : σ → Prop} {cs : List (σ → Py Unit × σ)} {s s' : σ}
    (h : Closed cs s s') (hc : ∀ c ∈ cs, ∀ s s', c s = (.ok (), s') → P s → P s') (hP : P s) :
    P s' := by
  induction h with
  | nil s => exact hP
  | cons h1 _ ih => exact ih (fun c hc' => hc c (by simp [hc'])) (hc _ (by simp) _ _ h1 hP)

theorem uploadLoop_fs {γ : Type} (file : FPath) : ∀ (loggers : List Bool) (j : Nat) (success : Bool)
    (s : Closing γ), (uploadLoop file loggers j success s).fs = s.fs
  | [], _, _, _ => rfl
  | b :: rest, j, success, s => by
    unfold uploadLoop
    rw [uploadLoop_fs file rest]
    split <;> split <;> rfl

/-- the file in which a pickle is stored -/
theorem parse_ok {γ : Type} {fs fs1 : FS γ} {path q : FPath} {ow : Bool}
    (h : parse_path fs path [] (some "pickle") ow true false = (.ok q, fs1)) :
    path.name ≠ "" ∧ q = pickleFile path ∧ (ow = false → fs (pickleFile path) = none) ∧
      fs1.Has path.parent := by
  have hs := parse_path_spec h
  have hn : path.name ≠ "" := by
    rintro hn
    have : path.with_suffix (dotted "pickle") = .error .value := by
      have hd : dotted "pickle" = ".pickle" := by decide
      rw [hd]
      unfold FPath.with_suffix
      rw [if_neg (by decide), if_neg (by decide), if_pos hn]
    unfold parse_path at h
    simp only [List.foldl_nil] at h
    rw [this] at h
    cases h
  have hq : q = pickleFile path := by
    unfold parse_path at h
    simp only [List.foldl_nil] at h
    rw [with_suffix_pickle hn] at h
    dsimp only at h
    split at h
    · cases h
    · split at h
      · cases h
      · split at h
        · cases h
        · exact (Except.ok.inj (Prod.mk.inj h).1).symm
  refine ⟨hn, hq, fun ho => ?_, ?_⟩
  · have := (hs.2 q rfl).1 ho
    rw [hq] at this
    unfold FS.exists? at this
    simp at this
    exact this.2
  · have := ((hs.2 q rfl).2 rfl).1
    rwa [hq, pickleFile_parent] at this

theorem save_ok {γ : Type} {fs fs1 : FS γ} {obj : γ} {path : FPath} {ow : Bool}
    (h : pickle_save fs obj path ow = (.ok (), fs1)) :
    path.name ≠ "" ∧ fs1 (pickleFile path) = some (.file obj) ∧
      (ow = false → fs (pickleFile path) = none) ∧ fs1.Has path.parent := by
  unfold pickle_save at h
  rcases hp : parse_path fs path [] (some "pickle") ow true false with ⟨r1, fs2⟩
  rw [hp] at h
  cases r1 with
  | error e => cases h
  | ok p =>
    obtain ⟨p1, p2, p3, p4⟩ := parse_ok hp
    subst p2
    dsimp only at h
    unfold FS.write at h
    split at h
    · cases h
    · cases h
      refine ⟨p1, by simp [FS.set], p3, p4.set ?_⟩
      have := pickleFile_length path
      rwa [pickleFile_parent] at this

omit [Field R] [LinearOrder R] in
theorem closeLoop_grows {P γ : Type} (wrap : P → γ) (fmt : R → String) (path : FPath) (n : Nat)
    (upload : Bool) (loggers : List Bool) : ∀ (q : List (QueueElement R P)) (done : List FPath)
    (s s' : Closing γ) (r : List FPath),
    closeLoop wrap fmt path n upload loggers q done s = (.ok r, s') → Grows s.fs s'.fs
  | [], done, s, s', r, h => by
    cases h
    exact fun _ _ hq => hq
  | ele :: rest, done, s, s', r, h => by
    unfold closeLoop at h
    rcases he : elementFile fmt path n ele s.fs with ⟨er | f, fs1⟩
    · rw [he] at h; cases h
    have g1 : Grows s.fs fs1 := by
      have : ∃ pp, parse_path s.fs pp [] (some "pickle") true true false = (.ok f, fs1) := by
        unfold elementFile at he
        split at he
        · exact ⟨_, he⟩
        · split at he
          · cases he
          · exact ⟨_, he⟩
      obtain ⟨pp, hpp⟩ := this
      exact fun _ _ hq => (parse_path_spec hpp).1.keep hq
    rw [he] at h
    dsimp only at h
    rcases hs : pickle_save fs1 (wrap ele.params) f false with ⟨er | _, fs2⟩
    · rw [hs] at h; cases h
    have g2 : Grows fs1 fs2 := (C52_pickle hs).1
    rw [hs] at h
    dsimp only at h
    have := closeLoop_grows wrap fmt path n upload loggers rest _ _ _ _ h
    intro q nd hq
    refine this q nd ?_
    have h2 := g2 q nd (g1 q nd hq)
    split
    · rw [uploadLoop_fs]; exact h2
    · exact h2

omit [Field R] [LinearOrder R] in
/-- saving keeps everything that is there -/
theorem saveClose_grows {env : FnEnv R K S O G υ L} {loggers : List LoggerKind} {path : Option FPath}
    {q : List (QueueElement R (Leaves R))} {s s' : υ × TrainWorld R O L}
    (h : saveClose env loggers path q s = (.ok (), s')) :
    Grows s.2.files.fs s'.2.files.fs ∧ s'.2.default_loggers = s.2.default_loggers := by
  unfold saveClose at h
  cases path with
  | none =>
    dsimp only at h
    split at h
    · cases h; exact ⟨fun _ _ hq => hq, rfl⟩
    · cases h
  | some p =>
    dsimp only at h
    split at h
    · cases h
    · rename_i files heq
      cases h
      exact ⟨closeLoop_grows _ _ _ _ _ _ _ _ _ _ _ heq, rfl⟩

omit [Field R] [LinearOrder R] in
/-- saving one set of parameters needs a new file and writes it -/
theorem saveClose_one {env : FnEnv R K S O G υ L} {loggers : List LoggerKind} {p : FPath}
    {e : QueueElement R (Leaves R)} {s s' : υ × TrainWorld R O L}
    (h : saveClose env loggers (some p) [e] s = (.ok (), s')) :
    s.2.files.fs (pickleFile p) = none ∧
      s'.2.files.fs (pickleFile p) = some (.file (.params e.params)) := by
  unfold saveClose at h
  dsimp only at h
  split at h
  · cases h
  rename_i files heq
  cases h
  unfold saveParamsClose closeLoop at heq
  have hef : elementFile env.fmt p [e].length e s.2.files.fs =
      parse_path s.2.files.fs p [] (some "pickle") true true false := rfl
  rw [hef] at heq
  rcases hp : parse_path s.2.files.fs p [] (some "pickle") true true false with ⟨er | f, fs1⟩
  · rw [hp] at heq; cases heq
  rw [hp] at heq
  dsimp only at heq
  obtain ⟨p1, rfl, -, -⟩ := parse_ok hp
  rcases hs : pickle_save fs1 (Content.params e.params : Content (Leaves R) O L) (pickleFile p) false
    with ⟨er | _, fs2⟩
  · rw [hs] at heq; cases heq
  rw [hs] at heq
  dsimp only at heq
  obtain ⟨q1, q2, q3, q4⟩ := save_ok hs
  rw [pickleFile_idem p1] at q2 q3
  refine ⟨?_, ?_⟩
  · rcases (parse_path_spec hp).1 (pickleFile p) with hh | ⟨hh, _⟩
    · rw [← hh]; exact q3 rfl
    · exact hh
  · simp only [closeLoop] at heq
    have := (Prod.mk.inj heq).2
    rw [← this]
    dsimp only
    split
    · rw [uploadLoop_fs]; exact q2
    · exact q2

omit [Field R] [LinearOrder R] in
theorem checkpointClose_keep {home : FPath} {unique_id : String} {kill : Bool}
    {last : Option (Leaves R × O)} {fs fs' : FS (Content (Leaves R) O L)} {r : Py Unit}
    (h : checkpointClose home unique_id kill last fs = (r, fs')) {q : FPath}
    (hq : q ≠ pickleFile (checkpointPath home unique_id)) {n : Node (Content (Leaves R) O L)}
    (hn : fs q = some n) : fs' q = some n := by
  unfold checkpointClose at h
  split at h
  · have hjoin : parse_path fs ⟨home.absolute, home.parts ++ [".ring_checkpoints"]⟩
      [⟨false, [unique_id]⟩] (some "pickle") true true false =
      parse_path fs (checkpointPath home unique_id) [] (some "pickle") true true false := rfl
    rw [hjoin] at h
    rcases hp : parse_path fs (checkpointPath home unique_id) [] (some "pickle") true true false
      with ⟨er | p, fs1⟩
    · rw [hp] at h
      cases h
      exact (parse_path_spec hp).1.keep hn
    · rw [hp] at h
      dsimp only at h
      have k1 := (parse_path_spec hp).1.keep hn
      obtain ⟨p1, p2, -, -⟩ := parse_ok hp
      subst p2
      cases last with
      | none => cases h; exact k1
      | some l =>
        dsimp only at h
        rcases C52_overwrite h q (by rwa [pickleFile_idem p1]) with hh | ⟨hh, _⟩
        · rw [hh, k1]
        · rw [k1] at hh; cases hh
  · cases h; exact hn

omit [Field R] [LinearOrder R] in
theorem checkpointClose_ok {home : FPath} {unique_id : String}
    {last : Option (Leaves R × O)} {fs fs' : FS (Content (Leaves R) O L)}
    (h : checkpointClose home unique_id true last fs = (.ok (), fs')) :
    ∃ p o, last = some (p, o) ∧ (checkpointPath home unique_id).name ≠ "" ∧
      fs' (pickleFile (checkpointPath home unique_id)) = some (.file (.checkpoint p o)) ∧
      fs'.Has (checkpointPath home unique_id).parent := by
  unfold checkpointClose at h
  rw [if_pos rfl] at h
  have hjoin : parse_path fs ⟨home.absolute, home.parts ++ [".ring_checkpoints"]⟩
    [⟨false, [unique_id]⟩] (some "pickle") true true false =
    parse_path fs (checkpointPath home unique_id) [] (some "pickle") true true false := rfl
  rw [hjoin] at h
  rcases hp : parse_path fs (checkpointPath home unique_id) [] (some "pickle") true true false
    with ⟨er | p, fs1⟩
  · rw [hp] at h; cases h
  rw [hp] at h
  dsimp only at h
  obtain ⟨p1, p2, -, -⟩ := parse_ok hp
  subst p2
  cases last with
  | none => cases h
  | some l =>
    dsimp only at h
    obtain ⟨q1, q2, q3, q4⟩ := save_ok h
    rw [pickleFile_idem p1] at q2
    rw [pickleFile_parent] at q4
    exact ⟨l.1, l.2, rfl, p1, q2, q4⟩

omit [Field R] [LinearOrder R] in
/-- closing a callback keeps what is there, except that a checkpoint is overwritten -/
theorem close_keep {env : FnEnv R K S O G υ L} (ht : env.Tame) {loggers : List LoggerKind} {kill : Bool}
    {st : CbState R O υ} {k : CbKind R} {s s' : υ × TrainWorld R O L}
    (h : k.close env loggers kill st s = (.ok (), s')) :
    (∀ q n, (k.rank = 7 → q ≠ pickleFile (checkpointPath env.home env.unique_id)) →
      s.2.files.fs q = some n → s'.2.files.fs q = some n) ∧
    s'.2.default_loggers = s.2.default_loggers := by
  cases k with
  | save p =>
    obtain ⟨a, b⟩ := saveClose_grows (env := env) h
    exact ⟨fun q n _ => a q n, b⟩
  | saveTracked p t =>
    obtain ⟨a, b⟩ := saveClose_grows (env := env) h
    exact ⟨fun q n _ => a q n, b⟩
  | checkpoint =>
    replace h : (match checkpointClose env.home env.unique_id kill st.last s.2.files.fs with
      | (r, fs) => (r, s.1, { s.2 with files := { s.2.files with fs := fs } }) :
        Py Unit × (υ × TrainWorld R O L)) = (.ok (), s') := h
    rcases hc : checkpointClose env.home env.unique_id kill st.last s.2.files.fs with ⟨r, fs⟩
    rw [hc] at h
    cases h
    exact ⟨fun q n hq hn => checkpointClose_keep hc (hq rfl) hn, rfl⟩
  | user j =>
    obtain ⟨a, b⟩ := ht j s s' h
    exact ⟨fun q n _ => a q n, b⟩
  | logEpisode e => cases h; exact ⟨fun _ _ _ hq => hq, rfl⟩
  | evalFn => cases h; exact ⟨fun _ _ _ hq => hq, rfl⟩
  | wandbKill t => cases h; exact ⟨fun _ _ _ hq => hq, rfl⟩
  | logGrads b => cases h; exact ⟨fun _ _ _ hq => hq, rfl⟩
  | nanKill => cases h; exact ⟨fun _ _ _ hq => hq, rfl⟩
  | timing t => cases h; exact ⟨fun _ _ _ hq => hq, rfl⟩

omit [Field R] [LinearOrder R] in
theorem loggerClose_ok {l : LoggerKind} {s s' : υ × TrainWorld R O L}
    (h : l.close s = (.ok (), s')) : s'.2.files = s.2.files ∧
      s'.2.default_loggers = s.2.default_loggers ∧ (s.2.wandb = false → s'.2.wandb = false) ∧
      (l = .wandb → s'.2.wandb = false) := by
  cases l with
  | wandb =>
    replace h : (if s.2.wandb then (.ok (), s.1, { s.2 with wandb := false })
      else (.error .attribute, s) : Py Unit × (υ × TrainWorld R O L)) = (.ok (), s') := h
    split at h
    · cases h; exact ⟨rfl, rfl, fun _ => rfl, fun _ => rfl⟩
    · cases h
  | other n b =>
    cases h
    exact ⟨rfl, rfl, fun hh => hh, fun hh => by cases hh⟩

omit [Field R] [LinearOrder R] in
/-- everything that is closed after the checkpoint, or that is no checkpoint, keeps what is there -/
theorem closed_keep {env : FnEnv R K S O G υ L} (ht : env.Tame) {ks : List (CbKind R)}
    {loggers : List LoggerKind} {kill : Bool} {st : CbState R O υ} {s s' : υ × TrainWorld R O L}
    (h : Closed (ks.map (CbKind.close env loggers kill st) ++ loggers.map LoggerKind.close) s s')
    {q : FPath} {n : Node (Content (Leaves R) O L)}
    (hq : ∀ k ∈ ks, k.rank = 7 → q ≠ pickleFile (checkpointPath env.home env.unique_id))
    (hn : s.2.files.fs q = some n) : s'.2.files.fs q = some n := by
  refine Closed.keep (P := fun s => s.2.files.fs q = some n) h ?_ hn
  intro c hc s s' hs hh
  rcases List.mem_append.1 hc with hc | hc
  · obtain ⟨k, hk, rfl⟩ := List.mem_map.1 hc
    exact (close_keep ht hs).1 q n (hq k hk) hh
  · obtain ⟨l, _, rfl⟩ := List.mem_map.1 hc
    rw [(loggerClose_ok hs).1]
    exact hh

/-- C86: if `train_fn` returns and was asked to save the parameters, then the parameters after the last
episode are in the file.  The file must not be that of the checkpoint. -/
theorem C86_params [IsStrictOrderedRing R] {env : FnEnv R K S O G υ L} (ht : env.Tame)
    {args : TrainArgs R} {u : υ} {g : G} {w : TrainWorld R O L} {killed : Bool}
    {e : TrainEnd R K S O G υ L} (h : train_fn env args u g w = (.ok killed, e)) {p : FPath}
    (hno : args.save_params ≠ .no) (hp : savePath env args.save_params = some p)
    (hn : 0 < args.n_episodes)
    (hne : args.create_checkpoint = true →
      pickleFile p ≠ pickleFile (checkpointPath env.home env.unique_id)) :
    ∃ s, e.loop = some s ∧ e.world.files.fs (pickleFile p) = some (.file (.params s.params)) := by
  obtain ⟨kinds, _, o, g', fs, w1, s0, s, m, h1, h2, h3, h4, h5, h6, h7, h8, h9, h10, h11, h12, h13, h14,
    h15, h16⟩ := train_ok h
  refine ⟨s, h15, ?_⟩
  have hinv := (loopInv_steps h2 (loopInv_init h7).1 (loopInv_init h7).2 h11).1
  have hk : CbKind.save (some p) ∈ kinds := ((C86_order h2).2 _).2 ⟨hno, hp.symm⟩
  obtain ⟨i1, i2, i3⟩ := hinv.saved ⟨_, hk⟩
  have hm := h13 hn
  obtain ⟨ele, q1, q2, q3, q4⟩ := i3.resolve_left (by omega)
  obtain ⟨a, b, rfl, ha, hb⟩ := split_kinds h2 hk (by simp [CbKind.rank])
  rw [List.map_append, List.map_cons, List.append_assoc, List.cons_append] at h16
  obtain ⟨s1, s2, c1, c2, c3⟩ := h16.split
  replace c2 : saveClose env e.loggers (some p) s.cb.saved.queue s1 = (.ok (), s2) := c2
  rw [q1] at c2
  have := (saveClose_one c2).2
  rw [q3] at this
  refine closed_keep ht c3 (fun k hkb hr => hne ?_) this
  have hkk : k ∈ a ++ CbKind.save (some p) :: b := by simp [hkb]
  have := ((C86_order h2).2 k).1 hkk
  cases k <;> simp [CbKind.rank] at hr
  exact this

/-- C86: asked to save the parameters without a name for the file, they are in the directory `params` of
the home directory, in a file named after the run. -/
theorem C86_params_default [IsStrictOrderedRing R] {env : FnEnv R K S O G υ L} (ht : env.Tame)
    {args : TrainArgs R} {u : υ} {g : G} {w : TrainWorld R O L} {killed : Bool}
    {e : TrainEnd R K S O G υ L} (h : train_fn env args u g w = (.ok killed, e))
    (hy : args.save_params = .yes) (hid : env.unique_id ≠ "") (hn : 0 < args.n_episodes) :
    ∃ s, e.loop = some s ∧
      e.world.files.fs ⟨env.home.absolute, env.home.parts ++ ["params", env.unique_id ++ ".pickle"]⟩ =
        some (.file (.params s.params)) := by
  have hp : pickleFile ⟨env.home.absolute,
      env.home.parts ++ ["params", env.unique_id ++ ".pickle"]⟩ =
      ⟨env.home.absolute, env.home.parts ++ ["params", env.unique_id ++ ".pickle"]⟩ := by
    have := pickleFile_pickle env.home.absolute (env.home.parts ++ ["params"]) env.unique_id hid
    rwa [List.append_assoc] at this
  obtain ⟨s, h1, h2⟩ := C86_params ht h (by rw [hy]; decide) (by rw [hy]; rfl) hn (fun _ heq => by
    rw [hp] at heq
    have := congrArg FPath.parts heq
    unfold pickleFile checkpointPath at this
    dsimp only at this
    rw [List.dropLast_concat, List.append_assoc] at this
    have := List.append_cancel_left this
    simp at this)
  rw [hp] at h2
  exact ⟨s, h1, h2⟩

/-- C86: if a run was killed and checkpoints are asked for, the checkpoint holds the parameters and the
state of the optimizer after the last episode, and a later call that is given this checkpoint continues
with them. -/
theorem C86_resume [IsStrictOrderedRing R] {env : FnEnv R K S O G υ L} (ht : env.Tame)
    {args : TrainArgs R} {u : υ} {g : G} {w : TrainWorld R O L}
    {e : TrainEnd R K S O G υ L} (h : train_fn env args u g w = (.ok true, e))
    (hc : args.create_checkpoint = true) :
    ∃ s, e.loop = some s ∧
      e.world.files.fs (pickleFile (checkpointPath env.home env.unique_id)) =
        some (.file (.checkpoint s.params s.opt_state)) ∧
      ∀ (env' : FnEnv R K S O G υ L) args' g',
        args'.checkpoint = some (checkpointPath env.home env.unique_id) →
        trainStart env' args' g' e.world.files.fs =
          (.ok (s.params, s.opt_state, g'), e.world.files.fs) := by
  obtain ⟨kinds, _, o, g', fs, w1, s0, s, m, h1, h2, h3, h4, h5, h6, h7, h8, h9, h10, h11, h12, h13, h14,
    h15, h16⟩ := train_ok h
  have hinv := (loopInv_steps h2 (loopInv_init h7).1 (loopInv_init h7).2 h11).1
  have hk : CbKind.checkpoint ∈ kinds := ((C86_order h2).2 _).2 hc
  obtain ⟨a, b, rfl, ha, hb⟩ := split_kinds h2 hk (by simp [CbKind.rank])
  rw [List.map_append, List.map_cons, List.append_assoc, List.cons_append] at h16
  obtain ⟨s1, s2, c1, c2, c3⟩ := h16.split
  replace c2 : (match checkpointClose env.home env.unique_id s.kill s.cb.last s1.2.files.fs with
    | (r, fs) => (r, s1.1, { s1.2 with files := { s1.2.files with fs := fs } }) :
      Py Unit × (υ × TrainWorld R O L)) = (.ok (), s2) := c2
  rcases hcc : checkpointClose env.home env.unique_id s.kill s.cb.last s1.2.files.fs with ⟨r, fs1⟩
  rw [hcc] at c2
  cases c2
  rw [← h14] at hcc
  obtain ⟨p, o, k1, k2, k3, k4⟩ := checkpointClose_ok hcc
  have hm : 0 < m := by
    rcases Nat.eq_zero_or_pos m with rfl | hm
    · have := Except.ok.inj h11
      rw [← this] at h14
      cases h14
    · exact hm
  have hlast := hinv.last hk (by omega)
  rw [k1] at hlast
  cases hlast
  have hkeep : ∀ q n, fs1 q = some n → e.world.files.fs q = some n := by
    intro q n hq
    refine closed_keep ht c3 (fun k hkb hr => ?_) hq
    have := hb k hkb
    have h7 : (CbKind.checkpoint : CbKind R).rank = 7 := rfl
    omega
  have hfile := hkeep _ _ k3
  refine ⟨s, h15, hfile, fun env' args' g'' ha' => ?_⟩
  exact (C86_start env' args' g'' _).1 _ _ _ ha' k2 (fun i hi => hkeep _ _ (k4 i hi)) hfile

/-- the keys of the data -/
theorem train_keys {env : FnEnv R K S O G υ L} {args : TrainArgs R} {u : υ} {g : G}
    {w : TrainWorld R O L} {killed : Bool} {e : TrainEnd R K S O G υ L}
    (h : train_fn env args u g w = (.ok killed, e)) {s : LoopState R K S O G (CbState R O υ) Unit}
    (hs : e.loop = some s) : ∃ m : Nat, s.i_episode = (m : Int) - 1 ∧ genKeys s.trace =
      env.prngKey 0 :: (List.range m).map fun i =>
        (keyChain env.split (env.prngKey args.seed_generator) i).2 := by
  obtain ⟨kinds, p, o, g', fs, w1, s0, s, m, h1, h2, h3, h4, h5, h6, h7, h8, h9, h10, h11, h12, h13, h14,
    h15, h16⟩ := train_ok h
  rw [h15] at hs
  cases hs
  have ha := after_steps m (After.start.between s0.cb false) h11
  rw [Nat.zero_add] at ha
  obtain ⟨hi, ht, _⟩ := init_ok h7
  obtain ⟨_, _, _, _, _, hep, _⟩ := record_inv hi ht ha
  exact ⟨m, hep, C57_keys h7 ha⟩

/-- C86: a resumed run does not continue with the data, it starts again: the keys from which the data of
two calls are made are the same, whatever checkpoint was given. -/
theorem C86_resume_fails {env : FnEnv R K S O G υ L} {args args' : TrainArgs R} {u u' : υ} {g g' : G}
    {w w' : TrainWorld R O L} {killed killed' : Bool} {e e' : TrainEnd R K S O G υ L}
    (h : train_fn env args u g w = (.ok killed, e))
    (h' : train_fn env args' u' g' w' = (.ok killed', e'))
    (hseed : args'.seed_generator = args.seed_generator)
    {s s' : LoopState R K S O G (CbState R O υ) Unit} (hs : e.loop = some s) (hs' : e'.loop = some s')
    (hle : s.i_episode ≤ s'.i_episode) : genKeys s.trace <+: genKeys s'.trace := by
  obtain ⟨m, h1, h2⟩ := train_keys h hs
  obtain ⟨m', h1', h2'⟩ := train_keys h' hs'
  rw [h2, h2', hseed]
  refine List.cons_prefix_cons.2 ⟨rfl, List.IsPrefix.map _ ?_⟩
  refine ⟨(List.range (m' - m)).map (m + ·), ?_⟩
  have : m' = m + (m' - m) := by omega
  conv_rhs => rw [this, List.range_add]

/-! ## What is lost -/

/-- C86: parameters to be tracked but no file to save them in, the default: the assertion that should
prevent this does not, and every run fails when it ends, after all the training. -/
theorem C86_track_fails [IsStrictOrderedRing R] (env : FnEnv R K S O G υ L) (args : TrainArgs R) (u : υ)
    (g : G) (w : TrainWorld R O L) {track : List (List String)}
    (hno : args.save_params = .no) (htr : args.track_metrices = some track)
    (hn : 0 < args.n_episodes) :
    (∃ kinds, trainCallbacks env args = .ok kinds) ∧
    ∃ er, (train_fn env args u g w).1 = .error er := by
  refine ⟨⟨defaultCallbacks env args ++ (List.range args.callbacks).map CbKind.user ++
    [.saveTracked (savePath env args.save_params) track], ?_⟩, ?_⟩
  · unfold trainCallbacks
    rw [htr, hno]
    rfl
  rcases hr : train_fn env args u g w with ⟨er | killed, e⟩
  · exact ⟨er, rfl⟩
  exfalso
  obtain ⟨kinds, p, o, g', fs, w1, s0, s, m, h1, h2, h3, h4, h5, h6, h7, h8, h9, h10, h11, h12, h13, h14,
    h15, h16⟩ := train_ok hr
  have hinv := (loopInv_steps h2 (loopInv_init h7).1 (loopInv_init h7).2 h11).1
  have hk : CbKind.saveTracked none track ∈ kinds :=
    ((C86_order h2).2 _).2 ⟨by rw [hno]; rfl, htr⟩
  have hq := (hinv.tracked ⟨_, _, hk⟩).2.1 (by have := h13 hn; omega)
  obtain ⟨a, b, rfl, ha, hb⟩ := split_kinds h2 hk (by simp [CbKind.rank])
  rw [List.map_append, List.map_cons, List.append_assoc, List.cons_append] at h16
  obtain ⟨s1, s2, c1, c2, c3⟩ := h16.split
  replace c2 : saveClose env e.loggers none s.cb.tracked.queue s1 = (.ok (), s2) := c2
  unfold saveClose at c2
  dsimp only at c2
  rw [if_neg (by simpa using hq)] at c2
  cases c2

/-- C86: `None` as the file has the same effect. -/
theorem C86_none_fails [IsStrictOrderedRing R] (env : FnEnv R K S O G υ L) (args : TrainArgs R) (u : υ)
    (g : G) (w : TrainWorld R O L) (hno : args.save_params = .none) (hn : 0 < args.n_episodes) :
    ∃ er, (train_fn env args u g w).1 = .error er := by
  rcases hr : train_fn env args u g w with ⟨er | killed, e⟩
  · exact ⟨er, rfl⟩
  exfalso
  obtain ⟨kinds, p, o, g', fs, w1, s0, s, m, h1, h2, h3, h4, h5, h6, h7, h8, h9, h10, h11, h12, h13, h14,
    h15, h16⟩ := train_ok hr
  have hinv := (loopInv_steps h2 (loopInv_init h7).1 (loopInv_init h7).2 h11).1
  have hk : CbKind.save none ∈ kinds :=
    ((C86_order h2).2 _).2 ⟨by rw [hno]; simp, by rw [hno]; rfl⟩
  have hm := h13 hn
  obtain ⟨ele, q1, -⟩ := (hinv.saved ⟨_, hk⟩).2.2.resolve_left (by omega)
  obtain ⟨a, b, rfl, ha, hb⟩ := split_kinds h2 hk (by simp [CbKind.rank])
  rw [List.map_append, List.map_cons, List.append_assoc, List.cons_append] at h16
  obtain ⟨s1, s2, c1, c2, c3⟩ := h16.split
  replace c2 : saveClose env e.loggers none s.cb.saved.queue s1 = (.ok (), s2) := c2
  rw [q1] at c2
  cases c2

/-- C86: the parameters of the last episode and the tracked ones share one file if there is one episode
only, so that such a run always fails when it ends. -/
theorem C86_share_fails [IsStrictOrderedRing R] {env : FnEnv R K S O G υ L} (ht : env.Tame)
    (args : TrainArgs R) (u : υ) (g : G) (w : TrainWorld R O L) {track : List (List String)} {p : FPath}
    (hno : args.save_params ≠ .no) (hp : savePath env args.save_params = some p)
    (htr : args.track_metrices = some track) (hn : args.n_episodes = 1)
    (hne : args.create_checkpoint = true →
      pickleFile p ≠ pickleFile (checkpointPath env.home env.unique_id)) :
    ∃ er, (train_fn env args u g w).1 = .error er := by
  rcases hr : train_fn env args u g w with ⟨er | killed, e⟩
  · exact ⟨er, rfl⟩
  exfalso
  obtain ⟨kinds, _, o, g', fs, w1, s0, s, m, h1, h2, h3, h4, h5, h6, h7, h8, h9, h10, h11, h12, h13, h14,
    h15, h16⟩ := train_ok hr
  have hinv := (loopInv_steps h2 (loopInv_init h7).1 (loopInv_init h7).2 h11).1
  have hm : 0 + m = 1 := by have := h13 (by omega); omega
  have hk : CbKind.save (some p) ∈ kinds := ((C86_order h2).2 _).2 ⟨hno, hp.symm⟩
  have hk' : CbKind.saveTracked (some p) track ∈ kinds :=
    ((C86_order h2).2 _).2 ⟨hp.symm, htr⟩
  obtain ⟨ele, q1, -⟩ := (hinv.saved ⟨_, hk⟩).2.2.resolve_left (by omega)
  obtain ⟨ele', q2, -⟩ := (hinv.tracked ⟨_, _, hk'⟩).2.2 hm
  obtain ⟨a, b, rfl, ha, hb⟩ := split_kinds h2 hk (by simp [CbKind.rank])
  have hkb : CbKind.saveTracked (some p) track ∈ b := by
    rcases List.mem_append.1 hk' with hh | hh
    · have := ha _ hh; simp [CbKind.rank] at this
    · rcases List.mem_cons.1 hh with hh | hh
      · cases hh
      · exact hh
  obtain ⟨b1, b2, rfl⟩ := List.append_of_mem hkb
  rw [List.map_append, List.map_cons, List.append_assoc, List.cons_append] at h16
  obtain ⟨s1, s2, c1, c2, c3⟩ := h16.split
  rw [List.map_append, List.map_cons, List.append_assoc, List.cons_append] at c3
  obtain ⟨s3, s4, d1, d2, d3⟩ := c3.split
  replace c2 : saveClose env e.loggers (some p) s.cb.saved.queue s1 = (.ok (), s2) := c2
  replace d2 : saveClose env e.loggers (some p) s.cb.tracked.queue s3 = (.ok (), s4) := d2
  rw [q1] at c2
  rw [q2] at d2
  have hfile := (saveClose_one c2).2
  have hnone := (saveClose_one d2).1
  have hmid : s3.2.files.fs (pickleFile p) = some (.file (.params ele.params)) := by
    refine Closed.keep (P := fun s => s.2.files.fs (pickleFile p) =
      some (.file (.params ele.params))) d1 ?_ hfile
    intro c hc x x' hx hh
    obtain ⟨k, hkk, rfl⟩ := List.mem_map.1 hc
    refine (close_keep ht hx).1 _ _ (fun hr => hne ?_) hh
    have := ((C86_order h2).2 k).1 (by simp [hkk])
    cases k <;> simp [CbKind.rank] at hr
    exact this
  rw [hmid] at hnone
  cases hnone

/-- C86: an exception before the end of the training loses everything: no file is written, neither the
parameters nor a checkpoint. -/
theorem C86_exception_fails (env : FnEnv R K S O G υ L) (args : TrainArgs R) (u : υ)
    (g : G) (w : TrainWorld R O L) (h : (train_fn env args u g w).2.loop = none) (q : FPath)
    (c : Content (Leaves R) O L) :
    (train_fn env args u g w).2.world.files.fs q = some (.file c) ↔
      w.files.fs q = some (.file c) := by
  have hd : ∀ {fs fs' : FS (Content (Leaves R) O L)}, FS.DirsAdded fs fs' →
      (fs' q = some (.file c) ↔ fs q = some (.file c)) := by
    intro fs fs' hd
    refine ⟨fun hh => ?_, fun hh => hd.keep hh⟩
    rcases hd q with h' | ⟨_, h'⟩
    · rw [← h', hh]
    · rw [h'] at hh; cases hh
  revert h
  unfold train_fn
  dsimp only
  rcases hst : trainStart env args g w.files.fs with ⟨er | ⟨p, o, g'⟩, fs⟩
  · intro _; exact hd (trainStart_dirs hst)
  dsimp only
  have hdir := trainStart_dirs hst
  rcases hcb : trainCallbacks env args with er | kinds
  · intro _; exact hd hdir
  dsimp only
  generalize hlog : addWandb w.wandb (args.loggers.getD w.default_loggers) = loggers
  generalize hw1 : storeLoggers args.loggers loggers
    { w with files := { w.files with fs := fs } } = w1
  have f1 : w1.files = { w.files with fs := fs } := by rw [← hw1]; unfold storeLoggers; split <;> rfl
  have hw : w1.files.fs q = some (.file c) ↔ w.files.fs q = some (.file c) := by
    rw [f1]; exact hd hdir
  unfold trainRun
  split
  · intro _; exact hw
  · split
    · intro _; exact hw
    · split
      · intro _; exact hw
      · unfold trainClose
        split <;> (intro h; cases h)

/-- C86: with a run of `wandb`, the logger for it is appended to the list of the caller, once. -/
theorem C86_loggers {env : FnEnv R K S O G υ L} {args : TrainArgs R} {u : υ} {g : G}
    {w : TrainWorld R O L} {killed : Bool} {e : TrainEnd R K S O G υ L}
    (h : train_fn env args u g w = (.ok killed, e)) {given : List LoggerKind}
    (hg : args.loggers.getD w.default_loggers = given) :
    (e.loggers = given ∧ (w.wandb = true ↔ .wandb ∈ given)) ∨
      (e.loggers = given ++ [.wandb] ∧ w.wandb = true ∧ .wandb ∉ given) := by
  obtain ⟨kinds, p, o, g', fs, w1, s0, s, m, h1, h2, h3, h4, h5, h6, h7, h8, h9, h10, h11, h12, h13, h14,
    h15, h16⟩ := train_ok h
  rw [hg] at h5
  unfold addWandb at h5
  split at h5
  · rename_i hh
    exact .inr ⟨h5, hh⟩
  · rename_i hh
    refine .inl ⟨h5, fun hw => by_contra fun hn => hh ⟨hw, hn⟩, fun hm => ?_⟩
    by_contra hw
    exact h8 (by simpa using hw) (by rw [h5]; exact hm)

/-- C86: the default of `loggers` is one list for all calls: after a run with `wandb`, a call without it
and without loggers fails before it trains. -/
theorem C86_default_fails {env env' : FnEnv R K S O G υ L} (ht : env.Tame) {args args' : TrainArgs R}
    {u u' : υ} {g g' : G} {w : TrainWorld R O L} {killed : Bool} {e : TrainEnd R K S O G υ L}
    (h : train_fn env args u g w = (.ok killed, e)) (hw : w.wandb = true)
    (hl : args.loggers = none) (hl' : args'.loggers = none) :
    e.world.wandb = false ∧ ∃ er, (train_fn env' args' u' g' e.world).1 = .error er := by
  obtain ⟨kinds, p, o, g'', fs, w1, s0, s, m, h1, h2, h3, h4, h5, h6, h7, h8, h9, h10, h11, h12, h13, h14,
    h15, h16⟩ := train_ok h
  have hmem : LoggerKind.wandb ∈ e.loggers := by
    rw [h5]
    unfold addWandb
    split
    · simp
    · rename_i hh
      by_contra hn
      exact hh ⟨hw, hn⟩
  have hdef : e.world.default_loggers = e.loggers := by
    refine Closed.keep (P := fun s => s.2.default_loggers = e.loggers) h16 ?_ (h6 hl)
    intro c hc x x' hx hh
    rcases List.mem_append.1 hc with hc | hc
    · obtain ⟨k, _, rfl⟩ := List.mem_map.1 hc
      rw [(close_keep ht hx).2]; exact hh
    · obtain ⟨l, _, rfl⟩ := List.mem_map.1 hc
      rw [(loggerClose_ok hx).2.1]; exact hh
  have hoff : e.world.wandb = false := by
    obtain ⟨a, b, hab⟩ := List.append_of_mem hmem
    rw [hab, List.map_append, List.map_cons, ← List.append_assoc] at h16
    obtain ⟨s1, s2, c1, c2, c3⟩ := h16.split
    refine Closed.keep (P := fun s => s.2.wandb = false) c3 ?_ ((loggerClose_ok c2).2.2.2 rfl)
    intro c hc x x' hx hh
    obtain ⟨l, _, rfl⟩ := List.mem_map.1 hc
    exact (loggerClose_ok hx).2.2.1 hh
  refine ⟨hoff, ?_⟩
  rcases hr : train_fn env' args' u' g' e.world with ⟨er | killed', e'⟩
  · exact ⟨er, rfl⟩
  exfalso
  rcases C86_loggers hr rfl with ⟨h1, h2⟩ | ⟨h1, h2, h3⟩
  · rw [hl', Option.getD_none, hdef, hoff] at h2
    exact absurd (h2.2 hmem) (by simp)
  · rw [hoff] at h2; cases h2

/-! ## The end of a run -/

theorem keepsSignal_kind {env : FnEnv R K S O G υ L} (hu : ∀ j, KeepsSignal (env.user j)) (wandb : Bool)
    (k : CbKind R) : KeepsSignal (k.callback env wandb) := by
  intro args st st' h hk
  cases k with
  | logEpisode e => exact keepsSignal_episode e args st st' h hk
  | evalFn =>
    replace h : (env.eval_fn args.params args.sample_eval >>= fun m =>
      (.ok (st.1, st.2.1, Dict.update st.2.2 m) : Py (CbState R O υ × Bool × Metrices R))) = .ok st' := h
    rcases hm : env.eval_fn args.params args.sample_eval with e | m
    · rw [hm, error_bind] at h; cases h
    · rw [hm, ok_bind] at h
      have := Except.ok.inj h
      subst this
      exact hk
  | wandbKill tag => have := Except.ok.inj h; subst this; simp [hk]
  | save p =>
    replace h : (st.1.saved.after_training_step args.i_episode.toNat
      (Metric.map env.num (.node st.2.2)) args.params >>= fun c =>
      (.ok ({ st.1 with saved := c }, st.2) : Py (CbState R O υ × Bool × Metrices R))) = .ok st' := h
    rcases hm : st.1.saved.after_training_step args.i_episode.toNat
      (Metric.map env.num (.node st.2.2)) args.params with e | m
    · rw [hm, error_bind] at h; cases h
    · rw [hm, ok_bind] at h
      have := Except.ok.inj h
      subst this
      exact hk
  | logGrads b =>
    exact keepsSignal_grads env.sqrt b 18 CbState.window (fun st w => { st with window := w })
      args st st' h hk
  | nanKill => exact keepsSignal_nan args st st' h hk
  | timing t => have := Except.ok.inj h; subst this; simp [hk]
  | checkpoint => have := Except.ok.inj h; subst this; exact hk
  | user j =>
    replace h : (env.user j args (st.1.user, st.2) >>= fun r =>
      (.ok ({ st.1 with user := r.1 }, r.2) : Py (CbState R O υ × Bool × Metrices R))) = .ok st' := h
    rcases hm : env.user j args (st.1.user, st.2) with e | m
    · rw [hm, error_bind] at h; cases h
    · rw [hm, ok_bind] at h
      have := Except.ok.inj h
      subst this
      exact hu j args _ _ hm hk
  | saveTracked p t =>
    replace h : (st.1.tracked.after_training_step args.i_episode.toNat
      (Metric.map env.num (.node st.2.2)) args.params >>= fun c =>
      (.ok ({ st.1 with tracked := c }, st.2) : Py (CbState R O υ × Bool × Metrices R))) = .ok st' := h
    rcases hm : st.1.tracked.after_training_step args.i_episode.toNat
      (Metric.map env.num (.node st.2.2)) args.params with e | m
    · rw [hm, error_bind] at h; cases h
    · rw [hm, ok_bind] at h
      have := Except.ok.inj h
      subst this
      exact hk

/-- C86: with a limit on the episodes none after the limit is trained, if the user's callbacks do not take
the signal back. -/
theorem C86_limit {env : FnEnv R K S O G υ L} (hu : ∀ j, KeepsSignal (env.user j))
    {args : TrainArgs R} {u : υ} {g : G}
    {w : TrainWorld R O L} {killed : Bool} {e : TrainEnd R K S O G υ L}
    (h : train_fn env args u g w = (.ok killed, e)) {lim : Int}
    (hlim : args.kill_after_episode = some lim) :
    ∃ s, e.loop = some s ∧ s.i_episode ≤ max 0 lim := by
  obtain ⟨kinds, p, o, g', fs, w1, s0, s, m, h1, h2, h3, h4, h5, h6, h7, h8, h9, h10, h11, h12, h13, h14,
    h15, h16⟩ := train_ok h
  refine ⟨s, h15, ?_⟩
  have hmem : CbKind.logEpisode (some lim) ∈ kinds := ((C86_order h2).2 _).2 hlim.symm
  refine C56_episode (env := trainEnv env w.wandb kinds) (n := args.n_episodes) (close := false)
    (killed := s.kill) ?_ (List.mem_map.2 ⟨_, hmem, rfl⟩) h7 ?_
  · intro c hc
    obtain ⟨k, _, rfl⟩ := List.mem_map.1 hc
    exact keepsSignal_kind hu _ _
  · unfold TrainingLoop.run
    rw [h9, ok_bind, if_neg (by simp)]

/-- a callback that does not end runs leaves the kill-run flag as it is -/
theorem quiet_kind {env : FnEnv R K S O G υ L} {args : TrainArgs R} {path : Option FPath}
    (hu : ∀ j a st st', env.user j a st = .ok st' → st'.2.1 = st.2.1)
    (h1 : args.kill_after_episode = none) (h2 : args.kill_tag = none)
    (h3 : args.kill_if_grads_larger = none) (h4 : args.kill_if_nan = false)
    (h5 : args.kill_after_seconds = none) {wandb : Bool} {k : CbKind R} (hk : k.Wanted args path)
    {a : CallArgs R S O} {st st' : CbState R O υ × Bool × Metrices R}
    (h : k.callback env wandb a st = .ok st') : st'.2.1 = st.2.1 := by
  cases k with
  | logEpisode e =>
    have he : e = none := by rw [← h1]; exact hk
    subst he
    have := Except.ok.inj h
    subst this
    rfl
  | evalFn =>
    replace h : (env.eval_fn a.params a.sample_eval >>= fun m =>
      (.ok (st.1, st.2.1, Dict.update st.2.2 m) : Py (CbState R O υ × Bool × Metrices R))) = .ok st' := h
    rcases hm : env.eval_fn a.params a.sample_eval with e | m
    · rw [hm, error_bind] at h; cases h
    · rw [hm, ok_bind] at h
      have := Except.ok.inj h
      subst this
      rfl
  | wandbKill tag => exact absurd (show args.kill_tag = some tag from hk) (by simp [h2])
  | save p =>
    replace h : (st.1.saved.after_training_step a.i_episode.toNat
      (Metric.map env.num (.node st.2.2)) a.params >>= fun c =>
      (.ok ({ st.1 with saved := c }, st.2) : Py (CbState R O υ × Bool × Metrices R))) = .ok st' := h
    rcases hm : st.1.saved.after_training_step a.i_episode.toNat
      (Metric.map env.num (.node st.2.2)) a.params with e | m
    · rw [hm, error_bind] at h; cases h
    · rw [hm, ok_bind] at h
      have := Except.ok.inj h
      subst this
      rfl
  | logGrads b => exact absurd (show args.kill_if_grads_larger = some b from hk) (by simp [h3])
  | nanKill => exact absurd (show args.kill_if_nan = true from hk) (by simp [h4])
  | timing t => exact absurd (show args.kill_after_seconds = some t from hk) (by simp [h5])
  | checkpoint => have := Except.ok.inj h; subst this; rfl
  | user j =>
    replace h : (env.user j a (st.1.user, st.2) >>= fun r =>
      (.ok ({ st.1 with user := r.1 }, r.2) : Py (CbState R O υ × Bool × Metrices R))) = .ok st' := h
    rcases hm : env.user j a (st.1.user, st.2) with e | m
    · rw [hm, error_bind] at h; cases h
    · rw [hm, ok_bind] at h
      have := Except.ok.inj h
      subst this
      exact hu _ _ _ _ hm
  | saveTracked p track =>
    replace h : (st.1.tracked.after_training_step a.i_episode.toNat
      (Metric.map env.num (.node st.2.2)) a.params >>= fun c =>
      (.ok ({ st.1 with tracked := c }, st.2) : Py (CbState R O υ × Bool × Metrices R))) = .ok st' := h
    rcases hm : st.1.tracked.after_training_step a.i_episode.toNat
      (Metric.map env.num (.node st.2.2)) a.params with e | m
    · rw [hm, error_bind] at h; cases h
    · rw [hm, ok_bind] at h
      have := Except.ok.inj h
      subst this
      rfl

theorem callLoop_quiet {env : FnEnv R K S O G υ L} {wandb : Bool} {args : CallArgs R S O} :
    ∀ (ks : List (CbKind R)) {j : Nat} {st : CbState R O υ × Bool × Metrices R}
    {tr : List (Event K S)} {r : (CbState R O υ × Bool × Metrices R) × List (Event K S)},
    (∀ k ∈ ks, ∀ st st', k.callback env wandb args st = .ok st' → st'.2.1 = st.2.1) →
    callLoop args (ks.map (CbKind.callback env wandb)) j st tr = .ok r → r.1.2.1 = st.2.1
  | [], j, st, tr, r, _, h => by
    have := Except.ok.inj h
    subst this
    rfl
  | k :: ks, j, st, tr, r, hk, h => by
    rw [List.map_cons, callLoop] at h
    rcases hc : k.callback env wandb args st with e | st'
    · rw [hc, error_bind] at h; cases h
    · rw [hc, ok_bind] at h
      rw [callLoop_quiet ks (fun k' hk' => hk k' (by simp [hk'])) h, hk k (by simp) st st' hc]

theorem steps_quiet {env : FnEnv R K S O G υ L} {wandb : Bool} {ks : List (CbKind R)}
    (hk : ∀ k ∈ ks, ∀ (args : CallArgs R S O) st st', k.callback env wandb args st = .ok st' →
      st'.2.1 = st.2.1) {s : LoopState R K S O G (CbState R O υ) Unit} : ∀ {m : Nat}
    {s' : LoopState R K S O G (CbState R O υ) Unit},
    steps (trainEnv env wandb ks) m s = .ok s' → s'.kill = s.kill
  | 0, s', hs => by
    have := Except.ok.inj hs
    subst this
    rfl
  | m + 1, s', hs => by
    rw [steps] at hs
    rcases hu : steps (trainEnv env wandb ks) m s with er | u
    · rw [hu, error_bind] at hs; cases hs
    rw [hu, ok_bind] at hs
    obtain ⟨_, grads, sample, loss, tr, c, _, hc, _, h2⟩ := step_cb hs
    rw [h2, callLoop_quiet ks (fun k hkk => hk k hkk _) hc]
    exact steps_quiet hk hu

/-- C86: a run that was not asked to end early, neither by an argument nor by the user's callbacks, trains
all its episodes, and `train_fn` returns that it was not killed. -/
theorem C86_whole {env : FnEnv R K S O G υ L}
    (hu : ∀ j a st st', env.user j a st = .ok st' → st'.2.1 = st.2.1)
    {args : TrainArgs R} (h1 : args.kill_after_episode = none) (h2 : args.kill_tag = none)
    (h3 : args.kill_if_grads_larger = none) (h4 : args.kill_if_nan = false)
    (h5 : args.kill_after_seconds = none) {u : υ} {g : G}
    {w : TrainWorld R O L} {killed : Bool} {e : TrainEnd R K S O G υ L}
    (h : train_fn env args u g w = (.ok killed, e)) :
    killed = false ∧ ∃ s, e.loop = some s ∧ s.i_episode = (args.n_episodes : Int) - 1 := by
  obtain ⟨s, m, p, o, g', fs, a1, a2, a3, a4, a5, a6, a7, _⟩ := C86_run h
  obtain ⟨kinds, _, _, _, _, _, s0, s1, m1, _, b2, _, _, _, _, _, _, _, _, b11, _, _, b14, b15, _⟩ :=
    train_ok h
  have hq := steps_quiet (fun k hk (a : CallArgs R S O) st st' hh =>
    quiet_kind hu h1 h2 h3 h4 h5 (((C86_order b2).2 k).1 hk) hh) b11
  have hf : killed = false := by rw [b14, hq]
  refine ⟨hf, s, a1, ?_⟩
  have : ¬ m < args.n_episodes := fun hm => by simp [a5 hm] at hf
  rw [a3]
  omega

end loop

/-! ## Examples -/

/-- the keys are the samples, a step adds the sample to the parameter and counts -/
def exFn : FnEnv ℚ Nat Nat Nat Unit Unit Unit where
  generator g k := .ok (k, g)
  prngKey n := n
  split k := (k + 1, k + 100)
  filter_params := .ok none
  filter_init X seed := .ok [[.fin ((X + seed : Nat) : ℚ)]]
  optimizer_init _ := 0
  step_fn p o X := .ok (p.map fun l => l.map fun x => Fl.add x (.fin (X : ℚ)), o + 1, [], [])
  eval_fn _ _ := .ok [("mae", .leaf (.fin 1))]
  user _ _ s := .ok s
  userClose _ s := (.ok (), s)
  tags _ := []
  runtime _ := 0
  sqrt x := x
  num _ := 0
  fmt _ := "0"
  home := ⟨true, ["root"]⟩
  unique_id := "0x1f"

/-- a world without files -/
def exFnWorld (wandb : Bool) : TrainWorld ℚ Nat Unit := ⟨⟨fun _ => none, [], 0⟩, wandb, []⟩

example : exFn.Tame := by
  intro j s s' h
  cases h
  exact ⟨fun _ _ h => h, rfl⟩

example : ∃ e, train_fn exFn { n_episodes := 5, kill_after_episode := some 1, callbacks := 1 } () ()
    (exFnWorld false) = (.ok true, e) ∧ ∃ s, e.loop = some s ∧ s.i_episode = 1 ∧ s.opt_state = 2 := by
  refine ⟨_, rfl, _, rfl, rfl, rfl⟩

example : ∃ e, train_fn exFn { n_episodes := 5 } () ()
    (exFnWorld true) = (.ok false, e) ∧ e.loggers = [.wandb] ∧ ∃ s, e.loop = some s ∧ s.i_episode = 4 := by
  refine ⟨_, rfl, rfl, _, rfl, rfl⟩

/-- a queue of one element -/
theorem insert_empty (x : QueueElement ℚ (Leaves ℚ)) : Queue.insert 1 [] x = .ok [x] := by
  simp [Queue.insert, Queue.sort]

/-- a queue of one element -/
theorem insert_one (x y : QueueElement ℚ (Leaves ℚ)) (h : x.value < y.value) :
    Queue.insert 1 [y] x = .ok [x] := by
  simp [Queue.insert, Queue.sort, h]

example : ∃ e, train_fn exFn { n_episodes := 2, save_params := .yes } () ()
    (exFnWorld false) = (.ok false, e) ∧ ∃ s, e.loop = some s ∧ s.i_episode = 1 ∧ s.opt_state = 2 := by
  simp [train_fn, trainStart, exFn, trainCallbacks, defaultCallbacks, trainRun, TrainingLoop.init, trainEnv,
    storeLoggers, exFnWorld, addWandb, TrainingLoop.run, runLoop, TrainingLoop.step, TrainingLoop.nextKey,
    callLoop, CbKind.callback, logEpisodeCallback, SaveParams.after_training_step, CbState.init,
    SaveParams.init, insert_empty, insert_one, bind, Except.bind]
  exact ⟨_, rfl, _, rfl, rfl, rfl⟩

example : ∃ e, train_fn exFn { n_episodes := 1, track_metrices := some [["mae"]] } () ()
    (exFnWorld false) = (.error .type, e) ∧ ∃ s, e.loop = some s ∧ s.i_episode = 0 := by
  have h (x : QueueElement ℚ (Leaves ℚ)) : Queue.insert 3 [] x = .ok [x] := by
    simp [Queue.insert, Queue.sort]
  simp [train_fn, trainStart, exFn, trainCallbacks, defaultCallbacks, trainRun, TrainingLoop.init, trainEnv,
    storeLoggers, exFnWorld, addWandb, TrainingLoop.run, runLoop, TrainingLoop.step, TrainingLoop.nextKey,
    callLoop, CbKind.callback, logEpisodeCallback, SaveParams.after_training_step, CbState.init,
    SaveParams.init, bind, Except.bind, trackedValue, meanTracked, h, List.mapM_cons, _zoom_into_metrices, Dict.update,
    Dict.set, Dict.keys, Metric.map, Metric.mapItems, pure, Except.pure, List.lookup]
  exact ⟨_, rfl, _, rfl, rfl⟩

end RingLib.ml
