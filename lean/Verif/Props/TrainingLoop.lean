import Verif.Model.TrainingLoop
import Verif.Props.Dict
import Mathlib.Data.Rat.Floor
import Mathlib.Tactic.NormNum
import Mathlib.Tactic.Ring

/-!
# The training loop (C56, C57)
-/

namespace RingLib.ml
open System

variable {R K S O G Γ Rnd : Type}

/-! ## Specification -/

/-- The calls of episode `i`, if `samples j` is the `j`-th generated sample, generated with
`keys j`, and there are `nc` callbacks: the next sample is generated, the network is trained on the
current one, and the callbacks see the next one. -/
def episodeCalls (nc : Nat) (keys : Nat → K) (samples : Nat → S) (i : Nat) : List (Event K S) :=
  .generated (keys (i + 1)) (samples (i + 1)) :: .trained (samples i) ::
    (List.range nc).map fun j => .callback j i (samples (i + 1))

/-- The calls of creating the loop and `k` episodes. -/
def allCalls (nc : Nat) (keys : Nat → K) (samples : Nat → S) (k : Nat) : List (Event K S) :=
  .generated (keys 0) (samples 0) :: (List.range k).flatMap (episodeCalls nc keys samples)

/-- States of a loop that was created in state `s0` and has made `k` training steps.  Between steps
runs may end and start, which changes the flag and the state of the callbacks. -/
inductive After (env : LoopEnv R K S O G Γ Rnd) (s0 : LoopState R K S O G Γ Rnd) :
    Nat → LoopState R K S O G Γ Rnd → Prop
  | start : After env s0 0 s0
  | step {k s s'} : After env s0 k s → TrainingLoop.step env s = .ok s' → After env s0 (k + 1) s'
  | between {k s} (cb : Γ) (kill : Bool) : After env s0 k s →
      After env s0 k { s with cb := cb, kill := kill }

/-- The keys the generator was called with, in order. -/
def genKeys (trace : List (Event K S)) : List K :=
  trace.filterMap fun e => match e with
    | .generated key _ => some key
    | _ => none

/-- Steps in a row. -/
def steps (env : LoopEnv R K S O G Γ Rnd) :
    Nat → LoopState R K S O G Γ Rnd → Py (LoopState R K S O G Γ Rnd)
  | 0, s => .ok s
  | n + 1, s => do
    let t ← steps env n s
    TrainingLoop.step env t

/-! ## One step -/

theorem callLoop_trace {args : CallArgs R S O} : ∀ {cs : List (Callback R S O Γ)} {j : Nat}
    {st : Γ × Bool × Metrices R} {trace : List (Event K S)}
    {r : (Γ × Bool × Metrices R) × List (Event K S)}, callLoop args cs j st trace = .ok r →
    r.2 = trace ++ (List.range cs.length).map
      fun i => .callback (j + i) args.i_episode args.sample_eval
  | [], j, st, trace, r, h => by
    have : (st, trace) = r := Except.ok.inj h
    subst this
    simp
  | c :: cs, j, st, trace, r, h => by
    rw [callLoop] at h
    rcases hc : c args st with er | st'
    · rw [hc, error_bind] at h; cases h
    · rw [hc, ok_bind] at h
      rw [callLoop_trace h, List.append_assoc]
      congr 1
      rw [List.length_cons, List.range_succ_eq_map, List.map_cons, List.map_map,
        List.singleton_append]
      refine congrArg₂ _ (by simp) ?_
      refine List.map_congr_left fun i _ => ?_
      simp only [Function.comp, Nat.succ_eq_add_one]
      rw [show j + 1 + i = j + (i + 1) by omega]

/-- What a successful step does. -/
theorem step_ok {env : LoopEnv R K S O G Γ Rnd} {s s' : LoopState R K S O G Γ Rnd}
    (h : TrainingLoop.step env s = .ok s') :
    ∃ k g t c, TrainingLoop.nextKey env { s with i_episode := s.i_episode + 1 } = .ok k ∧
      env.generator k.2.gen k.1 = .ok g ∧
      env.step_fn k.2.params k.2.opt_state s.sample_eval = .ok t ∧
      callLoop ⟨k.2.i_episode, t.1, t.2.2.2, g.1, t.2.1⟩ env.callbacks 0
        (k.2.cb, k.2.kill, Dict.update [] t.2.2.1)
        (k.2.trace ++ [.generated k.1 g.1, .trained s.sample_eval]) = .ok c ∧
      s' = { k.2 with
        sample_eval := g.1, gen := g.2, params := t.1, opt_state := t.2.1, cb := c.1.1,
        kill := c.1.2.1, trace := c.2 } := by
  unfold TrainingLoop.step at h
  dsimp only at h
  rcases hk : TrainingLoop.nextKey env { s with i_episode := s.i_episode + 1 } with er | k
  · rw [hk, error_bind] at h; cases h
  rw [hk, ok_bind] at h
  rcases hg : env.generator k.2.gen k.1 with er | g
  · rw [hg, error_bind] at h; cases h
  rw [hg, ok_bind] at h
  rcases ht : env.step_fn k.2.params k.2.opt_state s.sample_eval with er | t
  · rw [ht, error_bind] at h; cases h
  rw [ht, ok_bind] at h
  rcases hc : callLoop ⟨k.2.i_episode, t.1, t.2.2.2, g.1, t.2.1⟩ env.callbacks 0
      (k.2.cb, k.2.kill, Dict.update [] t.2.2.1)
      (k.2.trace ++ [.generated k.1 g.1, .trained s.sample_eval]) with er | c
  · rw [hc, error_bind] at h; cases h
  rw [hc, ok_bind] at h
  exact ⟨k, g, t, c, rfl, hg, ht, hc, (Except.ok.inj h).symm⟩

/-- Choosing a key only touches the key, the seeds and the random state. -/
theorem nextKey_frame {env : LoopEnv R K S O G Γ Rnd} {s : LoopState R K S O G Γ Rnd}
    {k : K × LoopState R K S O G Γ Rnd} (h : TrainingLoop.nextKey env s = .ok k) :
    k.2 = { s with key := k.2.key, seeds := k.2.seeds, rnd := k.2.rnd } := by
  unfold TrainingLoop.nextKey at h
  split at h
  · rename_i seeds hs
    dsimp only at h
    split at h
    · cases h
    · rw [← Except.ok.inj h]
  · rw [← Except.ok.inj h]

theorem step_trace {env : LoopEnv R K S O G Γ Rnd} {s s' : LoopState R K S O G Γ Rnd}
    (h : TrainingLoop.step env s = .ok s') :
    ∃ key, s'.i_episode = s.i_episode + 1 ∧
      s'.trace = s.trace ++ (.generated key s'.sample_eval :: .trained s.sample_eval ::
        (List.range env.callbacks.length).map
          fun j => .callback j (s.i_episode + 1) s'.sample_eval) := by
  obtain ⟨k, g, t, c, hk, _, _, hc, rfl⟩ := step_ok h
  have hf := nextKey_frame hk
  have hi : k.2.i_episode = s.i_episode + 1 := by rw [hf]
  have htr : k.2.trace = s.trace := by rw [hf]
  refine ⟨k.1, hi, ?_⟩
  dsimp only
  rw [callLoop_trace hc, htr, hi, List.append_assoc]
  simp

/-! ## The record of calls -/

theorem episodeCalls_congr {nc : Nat} {keys keys' : Nat → K} {samples samples' : Nat → S} {i : Nat}
    (hk : keys (i + 1) = keys' (i + 1)) (hs : samples (i + 1) = samples' (i + 1))
    (hs' : samples i = samples' i) :
    episodeCalls nc keys samples i = episodeCalls nc keys' samples' i := by
  rw [episodeCalls, episodeCalls, hk, hs, hs']

theorem allCalls_congr {nc : Nat} {keys keys' : Nat → K} {samples samples' : Nat → S} {k : Nat}
    (hk : ∀ i ≤ k, keys i = keys' i) (hs : ∀ i ≤ k, samples i = samples' i) :
    allCalls nc keys samples k = allCalls nc keys' samples' k := by
  rw [allCalls, allCalls, hk 0 (Nat.zero_le _), hs 0 (Nat.zero_le _)]
  congr 1
  refine List.flatMap_congr fun i hi => ?_
  have hi := List.mem_range.1 hi
  exact episodeCalls_congr (hk _ (by omega)) (hs _ (by omega)) (hs _ (by omega))

theorem allCalls_succ (nc : Nat) (keys : Nat → K) (samples : Nat → S) (k : Nat) :
    allCalls nc keys samples (k + 1) =
      allCalls nc keys samples k ++ episodeCalls nc keys samples k := by
  rw [allCalls, allCalls, List.range_succ, List.flatMap_append]
  simp

theorem init_ok {env : LoopEnv R K S O G Γ Rnd} {key : K} {params : Leaves R} {opt_state : O}
    {cycle_seed : Option Nat} {gen : G} {rnd : Rnd} {cb : Γ} {kill : Bool}
    {s0 : LoopState R K S O G Γ Rnd}
    (h : TrainingLoop.init env key params opt_state cycle_seed gen rnd cb kill = .ok s0) :
    s0.i_episode = -1 ∧ s0.trace = [.generated (env.prngKey 0) s0.sample_eval] ∧ s0.key = key ∧
      (∀ n, cycle_seed = some (n + 1) → s0.seeds = some (List.range (n + 1))) ∧
      (cycle_seed = none → s0.seeds = none) ∧ s0.params = params ∧ s0.opt_state = opt_state := by
  unfold TrainingLoop.init at h
  dsimp only at h
  rcases hg : env.generator gen (env.prngKey 0) with er | g
  · rw [hg, error_bind] at h; cases h
  rw [hg, ok_bind] at h
  have := Except.ok.inj h
  subst this
  exact ⟨rfl, rfl, rfl, fun n hn => by subst hn; rfl, fun hn => by subst hn; rfl, rfl, rfl⟩

theorem record_inv {env : LoopEnv R K S O G Γ Rnd} {s0 : LoopState R K S O G Γ Rnd} {key0 : K}
    (hi : s0.i_episode = -1) (ht : s0.trace = [.generated key0 s0.sample_eval]) {k : Nat}
    {s : LoopState R K S O G Γ Rnd} (h : After env s0 k s) :
    ∃ (keys : Nat → K) (samples : Nat → S) (ps : Nat → Leaves R) (os : Nat → O),
      keys 0 = key0 ∧ s.i_episode = (k : Int) - 1 ∧
      s.sample_eval = samples k ∧
      s.trace = allCalls env.callbacks.length keys samples k ∧
      ps 0 = s0.params ∧ os 0 = s0.opt_state ∧ ps k = s.params ∧ os k = s.opt_state ∧
      ∀ i < k, ∃ loss grads,
        env.step_fn (ps i) (os i) (samples i) = .ok (ps (i + 1), os (i + 1), loss, grads) := by
  induction h with
  | start =>
    refine ⟨fun _ => key0, fun _ => s0.sample_eval, fun _ => s0.params, fun _ => s0.opt_state, rfl,
      by simpa using hi, rfl, ?_, rfl, rfl, rfl, rfl, by simp⟩
    rw [ht, allCalls]
    rfl
  | between cb kill _ ih => exact ih
  | @step k s s' _ hs ih =>
    obtain ⟨keys, samples, ps, os, h0, h1, h2, h3, p0, o0, pk, ok, hst⟩ := ih
    obtain ⟨key, g1, g2⟩ := step_trace hs
    obtain ⟨loss, grads, hfn⟩ : ∃ loss grads, env.step_fn s.params s.opt_state s.sample_eval =
        .ok (s'.params, s'.opt_state, loss, grads) := by
      obtain ⟨kk, g, t, c, hk, _, hstep, _, rfl⟩ := step_ok hs
      have hf := nextKey_frame hk
      have e1 : kk.2.params = s.params := by rw [hf]
      have e2 : kk.2.opt_state = s.opt_state := by rw [hf]
      rw [e1, e2] at hstep
      exact ⟨_, _, hstep⟩
    refine ⟨fun i => if i = k + 1 then key else keys i,
      fun i => if i = k + 1 then s'.sample_eval else samples i,
      fun i => if i = k + 1 then s'.params else ps i,
      fun i => if i = k + 1 then s'.opt_state else os i, ?_, ?_, ?_, ?_, ?_, ?_, ?_, ?_, ?_⟩
    · simp [h0]
    · rw [g1, h1]; push_cast; ring
    · simp
    · rw [g2, h3, allCalls_succ, h2, h1]
      congr 1
      · refine allCalls_congr (fun i hi => ?_) (fun i hi => ?_)
        · rw [if_neg (by omega)]
        · rw [if_neg (by omega)]
      · rw [episodeCalls]
        simp
    · simp [p0]
    · simp [o0]
    · simp
    · simp
    · intro i hi
      dsimp only
      rw [if_neg (by omega), if_neg (by omega), if_neg (by omega)]
      by_cases hik : i = k
      · subst hik
        rw [if_pos rfl, if_pos rfl, pk, ok, ← h2]
        exact ⟨loss, grads, hfn⟩
      · rw [if_neg (by omega), if_neg (by omega)]
        exact hst i (by omega)

/-- C57: whatever the generator, the step function and the callbacks do, after `k` training steps the
calls made are exactly these: one sample is generated when the loop is created; in episode `i` a new
sample is generated, the network is trained on the `i`-th generated sample (counted from zero), and
then every callback is called once, in order, with the sample generated last, which is the one the
next episode trains on.  The parameters and the optimizer state are handed from one training step to
the next. -/
theorem C57_record {env : LoopEnv R K S O G Γ Rnd} {key : K} {params : Leaves R} {opt_state : O}
    {cycle_seed : Option Nat} {gen : G} {rnd : Rnd} {cb : Γ} {kill : Bool}
    {s0 s : LoopState R K S O G Γ Rnd} {k : Nat}
    (h0 : TrainingLoop.init env key params opt_state cycle_seed gen rnd cb kill = .ok s0)
    (h : After env s0 k s) :
    ∃ (keys : Nat → K) (samples : Nat → S) (ps : Nat → Leaves R) (os : Nat → O),
      keys 0 = env.prngKey 0 ∧
      s.trace = allCalls env.callbacks.length keys samples k ∧
      ps 0 = params ∧ os 0 = opt_state ∧ ps k = s.params ∧ os k = s.opt_state ∧
      ∀ i < k, ∃ loss grads,
        env.step_fn (ps i) (os i) (samples i) = .ok (ps (i + 1), os (i + 1), loss, grads) := by
  obtain ⟨hi, ht, _, _, _, hp, ho⟩ := init_ok h0
  obtain ⟨keys, samples, ps, os, h1, _, _, h2, p0, o0, pk, ok, hst⟩ := record_inv hi ht h
  exact ⟨keys, samples, ps, os, h1, h2, p0.trans hp, o0.trans ho, pk, ok, hst⟩

/-! ## Runs -/

theorem steps_succ' (env : LoopEnv R K S O G Γ Rnd) : ∀ (n : Nat)
    (s s1 : LoopState R K S O G Γ Rnd), TrainingLoop.step env s = .ok s1 →
    steps env (n + 1) s = steps env n s1
  | 0, s, s1, h => by
    show (Except.ok s >>= fun t => TrainingLoop.step env t) = _
    rw [ok_bind, h]
    rfl
  | n + 1, s, s1, h => by
    rw [steps, steps_succ' env n s s1 h]
    rfl

theorem runLoop_ok (env : LoopEnv R K S O G Γ Rnd) : ∀ (n : Nat)
    (s t : LoopState R K S O G Γ Rnd), runLoop env n s = .ok t →
    ∃ m ≤ n, steps env m s = .ok t ∧ (m < n → t.kill = true) ∧ (0 < n → 0 < m) ∧
      ∀ j, 0 < j → j < m → ∃ u, steps env j s = .ok u ∧ u.kill = false
  | 0, s, t, h => ⟨0, le_refl _, h, by simp, by simp, fun j _ hj => by omega⟩
  | n + 1, s, t, h => by
    rw [runLoop] at h
    rcases hs : TrainingLoop.step env s with er | s1
    · rw [hs, error_bind] at h; cases h
    rw [hs, ok_bind] at h
    by_cases hk : s1.kill = true
    · rw [if_pos hk] at h
      have := Except.ok.inj h
      subst this
      refine ⟨1, by omega, ?_, fun _ => hk, fun _ => by omega, fun j h1 h2 => by omega⟩
      rw [steps_succ' env 0 s s1 hs]
      rfl
    · rw [if_neg hk] at h
      obtain ⟨m, hm, h1, h2, h3, h4⟩ := runLoop_ok env n s1 t h
      refine ⟨m + 1, by omega, ?_, fun hlt => h2 (by omega), fun _ => by omega, ?_⟩
      · rw [steps_succ' env m s s1 hs, h1]
      · intro j hj1 hj2
        obtain ⟨j, rfl⟩ : ∃ j', j = j' + 1 := ⟨j - 1, by omega⟩
        rw [steps_succ' env j s s1 hs]
        rcases Nat.eq_zero_or_pos j with rfl | hj
        · exact ⟨s1, rfl, by simpa using hk⟩
        · exact h4 j hj (by omega)

/-- C56/C57: a run makes `m` training steps, where `m` is the number of episodes asked for or the
first step after which the kill-run flag is set: no step follows it. -/
theorem C57_run {env : LoopEnv R K S O G Γ Rnd} {n : Nat} {close : Bool}
    {s s' : LoopState R K S O G Γ Rnd} {killed : Bool}
    (h : TrainingLoop.run env n close s = .ok (killed, s')) :
    ∃ m ≤ n, ∃ t, steps env m { s with kill := false } = .ok t ∧
      s'.trace = t.trace ∧ s'.params = t.params ∧ s'.opt_state = t.opt_state ∧
      s'.i_episode = t.i_episode ∧ (close = false → killed = t.kill) ∧
      (m < n → t.kill = true) ∧ (0 < n → 0 < m) ∧
      ∀ j, 0 < j → j < m → ∃ u, steps env j { s with kill := false } = .ok u ∧ u.kill = false := by
  unfold TrainingLoop.run at h
  rcases hr : runLoop env n { s with kill := false } with er | t
  · rw [hr, error_bind] at h; cases h
  rw [hr, ok_bind] at h
  obtain ⟨m, hm, h1, h2, h3, h4⟩ := runLoop_ok env n _ t hr
  refine ⟨m, hm, t, h1, ?_⟩
  cases close with
  | false =>
    rw [if_neg (by simp)] at h
    have := Prod.mk.inj (Except.ok.inj h)
    rw [← this.2, ← this.1]
    exact ⟨rfl, rfl, rfl, rfl, fun _ => rfl, h2, h3, h4⟩
  | true =>
    rw [if_pos rfl] at h
    rcases hc : env.close (t.cb, t.kill) with er | c
    · rw [hc, error_bind] at h; cases h
    rw [hc, ok_bind] at h
    have := Prod.mk.inj (Except.ok.inj h)
    rw [← this.2]
    exact ⟨rfl, rfl, rfl, rfl, by simp, h2, h3, h4⟩

theorem after_steps {env : LoopEnv R K S O G Γ Rnd} {s0 : LoopState R K S O G Γ Rnd} :
    ∀ (m : Nat) {k : Nat} {s t : LoopState R K S O G Γ Rnd}, After env s0 k s →
    steps env m s = .ok t → After env s0 (k + m) t
  | 0, k, s, t, h, hs => by
    have : s = t := Except.ok.inj hs
    exact this ▸ h
  | m + 1, k, s, t, h, hs => by
    rw [steps] at hs
    rcases hu : steps env m s with er | u
    · rw [hu, error_bind] at hs; cases hs
    rw [hu, ok_bind] at hs
    exact .step (after_steps m h hu) hs

/-- C57: after a run the loop has made between none and `n` further steps. -/
theorem C57_after {env : LoopEnv R K S O G Γ Rnd} {s0 s s' : LoopState R K S O G Γ Rnd} {k n : Nat}
    {close killed : Bool} (hs : After env s0 k s)
    (h : TrainingLoop.run env n close s = .ok (killed, s')) :
    ∃ m ≤ n, After env s0 (k + m) s' := by
  unfold TrainingLoop.run at h
  rcases hr : runLoop env n { s with kill := false } with er | t
  · rw [hr, error_bind] at h; cases h
  rw [hr, ok_bind] at h
  obtain ⟨m, hm, h1, _⟩ := runLoop_ok env n _ t hr
  have ht := after_steps m (hs.between s.cb false) h1
  refine ⟨m, hm, ?_⟩
  cases close with
  | false =>
    rw [if_neg (by simp)] at h
    rw [← (Prod.mk.inj (Except.ok.inj h)).2]
    exact ht
  | true =>
    rw [if_pos rfl] at h
    rcases hc : env.close (t.cb, t.kill) with er | c
    · rw [hc, error_bind] at h; cases h
    rw [hc, ok_bind] at h
    rw [← (Prod.mk.inj (Except.ok.inj h)).2]
    exact ht.between c.1 c.2

/-! ## Seeds -/

theorem genKeys_append (a b : List (Event K S)) : genKeys (a ++ b) = genKeys a ++ genKeys b := by
  simp [genKeys]

theorem genKeys_callbacks (n : Nat) (i : Int) (x : S) :
    genKeys ((List.range n).map fun j => (Event.callback j i x : Event K S)) = [] := by
  simp [genKeys]

theorem step_keys {env : LoopEnv R K S O G Γ Rnd} {s s' : LoopState R K S O G Γ Rnd}
    (h : TrainingLoop.step env s = .ok s') :
    ∃ k, TrainingLoop.nextKey env { s with i_episode := s.i_episode + 1 } = .ok k ∧
      s'.i_episode = s.i_episode + 1 ∧ s'.key = k.2.key ∧ s'.seeds = k.2.seeds ∧
      genKeys s'.trace = genKeys s.trace ++ [k.1] := by
  obtain ⟨k, g, t, c, hk, _, _, hc, rfl⟩ := step_ok h
  have hf := nextKey_frame hk
  have hi : k.2.i_episode = s.i_episode + 1 := by rw [hf]
  have htr : k.2.trace = s.trace := by rw [hf]
  refine ⟨k, hk, hi, rfl, rfl, ?_⟩
  dsimp only
  rw [callLoop_trace hc, htr, genKeys_append, genKeys_append]
  simp [genKeys]

/-- Progress through the seeds after `k` steps: `ks` are the keys used. -/
structure SeedInv (prngKey : Nat → K) (L k : Nat) (seeds : List Nat) (ks : List K) : Prop where
  perm : seeds.Perm (List.range L)
  length : ks.length = k
  blocks : ∀ b, (b + 1) * L ≤ k →
    ((ks.drop (b * L)).take L).Perm ((List.range L).map prngKey)
  current : ks.drop (k / L * L) = (seeds.take (k % L)).map prngKey

theorem seedInv_step {prngKey : Nat → K} {L k : Nat} (hL : 0 < L) {seeds seeds' : List Nat}
    {ks : List K} (h : SeedInv prngKey L k seeds ks)
    (hp : seeds'.Perm seeds) (hsame : k % L ≠ 0 → seeds' = seeds) {seed : Nat}
    (hget : seeds'[k % L]? = some seed) :
    SeedInv prngKey L (k + 1) seeds' (ks ++ [prngKey seed]) := by
  have hlen : seeds'.length = L := by simpa using (hp.trans h.perm).length_eq
  have hmod := Nat.mod_lt k hL
  have hdiv := Nat.div_add_mod k L
  have hcur : ks.drop (k / L * L) = (seeds'.take (k % L)).map prngKey := by
    rw [h.current]
    by_cases hz : k % L = 0
    · simp [hz]
    · rw [hsame hz]
  have hle : k / L * L ≤ ks.length := by rw [h.length]; exact Nat.div_mul_le_self k L
  have hnew : (ks ++ [prngKey seed]).drop (k / L * L) =
      (seeds'.take (k % L + 1)).map prngKey := by
    rw [List.drop_append_of_le_length hle, hcur, List.take_add_one, hget]
    simp
  refine ⟨hp.trans h.perm, by simp [h.length], ?_, ?_⟩
  · intro b hb
    rcases Nat.lt_or_ge k ((b + 1) * L) with hlt | hge
    · -- the block that has just been completed
      have hk1 : k + 1 = (b + 1) * L := by omega
      have hkb : k / L = b := by
        rw [Nat.div_eq_iff hL]
        have : (b + 1) * L = b * L + L := by ring
        constructor <;> omega
      have hkm : k % L + 1 = L := by
        have h1 : (b + 1) * L = b * L + L := by ring
        rw [hkb, Nat.mul_comm] at hdiv
        omega
      rw [hkb, hkm, List.take_of_length_le (by omega : seeds'.length ≤ L)] at hnew
      rw [hnew, List.take_of_length_le (by simp [hlen])]
      exact (hp.trans h.perm).map _
    · have h1 : (b + 1) * L = b * L + L := by ring
      rw [List.drop_append_of_le_length (by rw [h.length]; omega),
        List.take_append_of_le_length (by rw [List.length_drop, h.length]; omega)]
      exact h.blocks b hge
  · by_cases hfull : k % L + 1 = L
    · have hm0 : (k + 1) % L = 0 := by
        rw [← Nat.mod_add_mod, hfull, Nat.mod_self]
      rw [hm0]
      have h2 := Nat.div_mul_cancel (Nat.dvd_of_mod_eq_zero hm0)
      rw [h2, List.drop_of_length_le (by simp [h.length])]
      simp
    · have hm1 : (k + 1) % L = k % L + 1 := by
        rw [← Nat.mod_add_mod, Nat.mod_eq_of_lt (by omega)]
      have hd1 : (k + 1) / L = k / L := by
        have := Nat.div_add_mod (k + 1) L
        rw [hm1] at this
        have h3 : L * ((k + 1) / L) = L * (k / L) := by omega
        exact Nat.eq_of_mul_eq_mul_left hL h3
      rw [hm1, hd1, hnew]

theorem seeds_inv {env : LoopEnv R K S O G Γ Rnd} (hsh : ∀ r l, (env.shuffle r l).1.Perm l)
    {s0 : LoopState R K S O G Γ Rnd} {L : Nat} (hL : 0 < L)
    (hi : s0.i_episode = -1) {key0 : K} (ht : genKeys s0.trace = [key0])
    (hs0 : s0.seeds = some (List.range L)) {k : Nat} {s : LoopState R K S O G Γ Rnd}
    (h : After env s0 k s) :
    s.i_episode = (k : Int) - 1 ∧ ∃ seeds ks, s.seeds = some seeds ∧
      genKeys s.trace = key0 :: ks ∧ SeedInv env.prngKey L k seeds ks := by
  induction h with
  | start =>
    refine ⟨by simpa using hi, List.range L, [], hs0, ht, .refl _, rfl, ?_, ?_⟩
    · intro b hb
      have : (b + 1) * L = b * L + L := by ring
      omega
    · simp
  | between cb kill _ ih => exact ih
  | @step k s s' _ hs ih =>
    obtain ⟨h1, seeds, ks, h2, h3, h4⟩ := ih
    obtain ⟨kk, g1, g2, _, g3, g4⟩ := step_keys hs
    have hep : s.i_episode + 1 = (k : Int) := by rw [h1]; ring
    refine ⟨by rw [g2, h1]; push_cast; ring, ?_⟩
    unfold TrainingLoop.nextKey at g1
    rw [h2] at g1
    dsimp only at g1
    have hlen : seeds.length = L := by simpa using h4.perm.length_eq
    rw [hep, hlen] at g1
    have hidx : ((k : Int) % (L : Int)) = ((k % L : Nat) : Int) := (Int.natCast_mod k L).symm
    rw [hidx] at g1
    generalize hr : (if ((k % L : Nat) : Int) = 0 then env.shuffle s.rnd seeds else (seeds, s.rnd))
      = r at g1
    have hperm : r.1.Perm seeds := by
      rw [← hr]
      split
      · exact hsh _ _
      · exact .refl _
    have hsame : k % L ≠ 0 → r.1 = seeds := by
      intro hz
      rw [← hr, if_neg (by exact_mod_cast hz)]
    rcases hget : pyGet r.1 ((k % L : Nat) : Int) with er | seed
    · rw [hget] at g1; cases g1
    rw [hget] at g1
    have g1 := Except.ok.inj g1
    have hg : r.1[k % L]? = some seed := by
      unfold pyGet at hget
      dsimp only at hget
      rw [if_neg (by omega), if_neg (by omega), Int.toNat_natCast] at hget
      split at hget
      · rename_i x hx
        rw [hx, Except.ok.inj hget]
      · cases hget
    refine ⟨r.1, ks ++ [env.prngKey seed], ?_, ?_, seedInv_step hL h4 hperm hsame hg⟩
    · rw [g3, ← g1]
    · rw [g4, h3, ← g1]
      rfl

/-- C57: with `cycle_seed = L > 0` every window of `L` consecutive episodes that starts at a multiple
of `L` uses each of the `L` seeds exactly once, however python shuffles. -/
theorem C57_seeds {env : LoopEnv R K S O G Γ Rnd} (hsh : ∀ r l, (env.shuffle r l).1.Perm l)
    {key : K} {params : Leaves R} {opt_state : O} {L : Nat} (hL : 0 < L)
    {gen : G} {rnd : Rnd} {cb : Γ} {kill : Bool} {s0 s : LoopState R K S O G Γ Rnd} {k : Nat}
    (h0 : TrainingLoop.init env key params opt_state (some L) gen rnd cb kill = .ok s0)
    (h : After env s0 k s) (b : Nat) (hb : (b + 1) * L ≤ k) :
    (((genKeys s.trace).tail.drop (b * L)).take L).Perm ((List.range L).map env.prngKey) := by
  obtain ⟨n, rfl⟩ : ∃ n, L = n + 1 := ⟨L - 1, by omega⟩
  obtain ⟨hi, ht, _, hs, _⟩ := init_ok h0
  obtain ⟨_, seeds, ks, _, h3, h4⟩ := seeds_inv hsh hL hi (key0 := env.prngKey 0)
    (by rw [ht]; rfl) (hs n rfl) h
  rw [h3]
  exact h4.blocks b hb

/-- The keys that are consumed one after the other without `cycle_seed`. -/
def keyChain (split : K → K × K) (key : K) : Nat → K × K
  | 0 => split key
  | n + 1 => split (keyChain split key n).1

/-- C57: without `cycle_seed` every episode uses a fresh key split off the key of the loop. -/
theorem C57_keys {env : LoopEnv R K S O G Γ Rnd} {key : K} {params : Leaves R} {opt_state : O}
    {gen : G} {rnd : Rnd} {cb : Γ} {kill : Bool} {s0 s : LoopState R K S O G Γ Rnd} {k : Nat}
    (h0 : TrainingLoop.init env key params opt_state none gen rnd cb kill = .ok s0)
    (h : After env s0 k s) :
    genKeys s.trace =
      env.prngKey 0 :: (List.range k).map fun i => (keyChain env.split key i).2 := by
  obtain ⟨hi, ht, hk0, _, hs0, _⟩ := init_ok h0
  have hs0 := hs0 rfl
  suffices hh : genKeys s.trace =
      env.prngKey 0 :: (List.range k).map (fun i => (keyChain env.split key i).2) ∧
      s.seeds = none ∧ env.split s.key = keyChain env.split key k from hh.1
  clear h0
  induction h with
  | start => exact ⟨by rw [ht]; rfl, hs0, by rw [hk0]; rfl⟩
  | between cb kill _ ih => exact ih
  | @step k s s' _ hs ih =>
    obtain ⟨h1, h2, h3⟩ := ih
    obtain ⟨kk, g1, g2, g3, g4, g5⟩ := step_keys hs
    unfold TrainingLoop.nextKey at g1
    rw [h2] at g1
    dsimp only at g1
    have g1 := Except.ok.inj g1
    refine ⟨?_, ?_, ?_⟩
    · rw [g5, h1, ← g1, List.range_succ, List.map_append, h3]
      rfl
    · rw [g4, ← g1]
    · rw [g3, ← g1]
      dsimp only
      rw [h3]
      rfl

/-! ## Callbacks that end a run -/

/-- The norm is above the bound. -/
def Larger [LinearOrder R] (bound : R) (x : Fl R) : Prop :=
  x = .posInf ∨ ∃ y, x = .fin y ∧ bound < y

theorem lt_iff_larger [LinearOrder R] (bound : R) (x : Fl R) :
    Fl.lt (.fin bound) x = true ↔ Larger bound x := by
  cases x <;> simp [Fl.lt, Larger]

/-- The last `c` elements, or all if there are fewer. -/
def lastN {β : Type} (c : Nat) (l : List β) : List β := l.drop (l.length - c)

theorem lastN_append {β : Type} (c : Nat) (l : List β) (x : β) :
    dequeAppend c (lastN c l) x = lastN c (l ++ [x]) := by
  rw [dequeAppend, lastN, lastN]
  rcases Nat.lt_or_ge l.length c with h | h
  · rw [show l.length - c = 0 by omega, List.drop_zero]
  · have : l.drop (l.length - c) ++ [x] = (l ++ [x]).drop (l.length - c) := by
      rw [List.drop_append_of_le_length (by omega)]
    rw [this, List.drop_drop]
    congr 1
    simp only [List.length_drop, List.length_append, List.length_singleton]
    omega

theorem lastN_map {β γ : Type} (f : β → γ) (c : Nat) (l : List β) :
    lastN c (l.map f) = (lastN c l).map f := by
  simp [lastN, List.map_drop]

theorem logGradsLoop_spec [LinearOrder R] (bound : R) (c : Nat) :
    ∀ (norms hist : List (Fl R)) (flag : Bool),
    (logGradsLoop bound c norms (lastN c (hist.map (Fl.lt (.fin bound))), flag)).1 =
        lastN c ((hist ++ norms).map (Fl.lt (.fin bound))) ∧
      ((logGradsLoop bound c norms (lastN c (hist.map (Fl.lt (.fin bound))), flag)).2 = true ↔
        flag = true ∨ ∃ j, 0 < j ∧ j ≤ norms.length ∧
          ∀ x ∈ lastN c (hist ++ norms.take j), Larger bound x)
  | [], hist, flag => by
    rw [logGradsLoop, List.append_nil]
    refine ⟨rfl, ?_⟩
    constructor
    · exact .inl
    · rintro (h | ⟨j, h1, h2, _⟩)
      · exact h
      · simp at h2; omega
  | x :: norms, hist, flag => by
    rw [logGradsLoop]
    dsimp only
    rw [lastN_append, show hist.map (Fl.lt (.fin bound)) ++ [Fl.lt (.fin bound) x] =
      (hist ++ [x]).map (Fl.lt (.fin bound)) by simp]
    have hall : ((lastN c ((hist ++ [x]).map (Fl.lt (.fin bound)))).all id = true) ↔
        ∀ y ∈ lastN c (hist ++ [x]), Larger bound y := by
      rw [lastN_map, List.all_map, List.all_eq_true]
      simp only [Function.comp, id, lt_iff_larger]
    obtain ⟨h1, h2⟩ := logGradsLoop_spec bound c norms (hist ++ [x])
      (if (lastN c ((hist ++ [x]).map (Fl.lt (.fin bound)))).all id = true then true else flag)
    refine ⟨by rw [h1]; simp, h2.trans ?_⟩
    constructor
    · rintro (h | ⟨j, hj1, hj2, hj3⟩)
      · split at h
        · rename_i hh
          exact .inr ⟨1, by omega, by simp, by simpa using hall.1 hh⟩
        · exact .inl h
      · exact .inr ⟨j + 1, by omega, by simpa using hj2, by simpa using hj3⟩
    · rintro (h | ⟨j, hj1, hj2, hj3⟩)
      · left
        split
        · rfl
        · exact h
      · obtain ⟨j, rfl⟩ : ∃ j', j = j' + 1 := ⟨j - 1, by omega⟩
        rcases Nat.eq_zero_or_pos j with rfl | hj
        · left
          rw [if_pos]
          rw [hall]
          simpa using hj3
        · exact .inr ⟨j, hj, by simpa using hj2, by simpa using hj3⟩

/-- C56, gradients.  `hist` are the norms of all earlier gradients, `norms` those of this episode.
Once the number of gradients seen has reached `c`, the callback sets the kill-run flag exactly if at
some gradient of this episode the last `c` gradients in a row were all too large.
Missing: the same for the first `c - 1` gradients, see `C56_first_fails`. -/
theorem C56_grads_partial [LinearOrder R] (bound : R) {c : Nat} (hist norms : List (Fl R))
    (flag : Bool) (hc : c ≤ hist.length + 1) :
    (logGradsLoop bound c norms (lastN c (hist.map (Fl.lt (.fin bound))), flag)).2 = true ↔
      flag = true ∨ ∃ j pre run, 0 < j ∧ j ≤ norms.length ∧ hist ++ norms.take j = pre ++ run ∧
        run.length = c ∧ ∀ x ∈ run, Larger bound x := by
  rw [(logGradsLoop_spec bound c norms hist flag).2]
  refine or_congr Iff.rfl (exists_congr fun j => ?_)
  constructor
  · rintro ⟨h1, h2, h3⟩
    refine ⟨_, _, h1, h2, (List.take_append_drop ((hist ++ norms.take j).length - c) _).symm, ?_, h3⟩
    simp only [List.length_drop, List.length_append, List.length_take]
    omega
  · rintro ⟨pre, run, h1, h2, h3, h4, h5⟩
    refine ⟨h1, h2, ?_⟩
    rw [h3, lastN]
    have : (pre ++ run).length - c = pre.length := by simp [h4]
    rw [this, List.drop_left]
    exact h5

/-- The window kept by the callback always consists of the comparisons of the last `c` gradients, so
that the description above applies in every episode. -/
theorem C56_window [LinearOrder R] (bound : R) (c : Nat) (hist norms : List (Fl R)) (flag : Bool) :
    (logGradsLoop bound c norms (lastN c (hist.map (Fl.lt (.fin bound))), flag)).1 =
      lastN c ((hist ++ norms).map (Fl.lt (.fin bound))) :=
  (logGradsLoop_spec bound c norms hist flag).1

example : (logGradsLoop (1 : ℚ) 2 [.fin 3, .fin 2] (lastN 2 ([.fin 0].map (Fl.lt (.fin 1))), false)).2
    = true := by
  refine (C56_grads_partial (1 : ℚ) [.fin 0] [.fin 3, .fin 2] false (by decide)).2 ?_
  refine .inr ⟨2, [.fin 0], [.fin 3, .fin 2], by decide, by decide, rfl, rfl, ?_⟩
  intro x hx
  simp only [List.mem_cons, List.not_mem_nil, or_false] at hx
  rcases hx with rfl | rfl
  · exact .inr ⟨3, rfl, by norm_num⟩
  · exact .inr ⟨2, rfl, by norm_num⟩

/-- C56 fails at the beginning: the very first gradient, if too large, ends the run although 18
consecutive large gradients are demanded (the value used by `train_fn`). -/
theorem C56_first_fails :
    logGradsLoop (1 : ℚ) 18 [.fin 2] ([], false) = ([true], true) := by
  simp [logGradsLoop, dequeAppend, Fl.lt]

/-- C56: the `NaN` callback sets the flag exactly if some parameter is `NaN`. -/
theorem C56_nan (args : CallArgs R S O) (st : Γ × Bool × Metrices R) :
    ∃ flag, nanKillCallback args st = .ok (st.1, flag, st.2.2) ∧
      (flag = true ↔ st.2.1 = true ∨ ∃ leaf ∈ args.params, Fl.nan ∈ leaf) := by
  refine ⟨_, rfl, ?_⟩
  have : (args.params.flatten.any Fl.isNan = true) ↔ ∃ leaf ∈ args.params, Fl.nan ∈ leaf := by
    rw [List.any_eq_true]
    constructor
    · rintro ⟨x, hx, hn⟩
      obtain ⟨leaf, hl, hxl⟩ := List.mem_flatten.1 hx
      refine ⟨leaf, hl, ?_⟩
      cases x <;> simp [Fl.isNan] at hn
      exact hxl
    · rintro ⟨leaf, hl, hn⟩
      exact ⟨.nan, List.mem_flatten.2 ⟨leaf, hl, hn⟩, rfl⟩
  by_cases h : args.params.flatten.any Fl.isNan = true
  · rw [if_pos h]
    exact ⟨fun _ => .inr (this.1 h), fun _ => rfl⟩
  · rw [if_neg h]
    exact ⟨.inl, fun hh => hh.elim id fun hh => absurd (this.2 hh) h⟩

/-- A callback that never takes a kill-run signal back; all callbacks of the library are like this. -/
def KeepsSignal (c : Callback R S O Γ) : Prop :=
  ∀ args st st', c args st = .ok st' → st.2.1 = true → st'.2.1 = true

theorem keepsSignal_nan : KeepsSignal (nanKillCallback : Callback R S O Γ) := by
  intro args st st' h hk
  have := Except.ok.inj h
  subst this
  simp [hk]

theorem keepsSignal_episode [IntCast R] (e : Option Int) :
    KeepsSignal (logEpisodeCallback e : Callback R S O Γ) := by
  intro args st st' h hk
  have := Except.ok.inj h
  subst this
  cases e <;> simp [hk]

theorem keepsSignal_grads [Semiring R] [LinearOrder R] (sqrt : R → R) (bound : R) (c : Nat)
    (get : Γ → List Bool) (put : Γ → List Bool → Γ) :
    KeepsSignal (logGradsCallback sqrt bound c get put : Callback R S O Γ) := by
  intro args st st' h hk
  have := Except.ok.inj h
  subst this
  dsimp only
  generalize args.grads.map (gradsNorm sqrt) = norms
  rw [hk]
  generalize get st.1 = w
  induction norms generalizing w with
  | nil => rfl
  | cons x norms ih =>
    rw [logGradsLoop]
    dsimp only
    rw [ite_self]
    exact ih _

theorem callLoop_keeps {args : CallArgs R S O} : ∀ {cs : List (Callback R S O Γ)} {j : Nat}
    {st : Γ × Bool × Metrices R} {trace : List (Event K S)}
    {r : (Γ × Bool × Metrices R) × List (Event K S)}, (∀ c ∈ cs, KeepsSignal c) →
    callLoop args cs j st trace = .ok r → st.2.1 = true → r.1.2.1 = true
  | [], j, st, trace, r, _, h, hk => by
    have := Except.ok.inj h
    subst this
    exact hk
  | c :: cs, j, st, trace, r, hc, h, hk => by
    rw [callLoop] at h
    rcases hh : c args st with er | st'
    · rw [hh, error_bind] at h; cases h
    rw [hh, ok_bind] at h
    exact callLoop_keeps (fun c hc' => hc c (List.mem_cons_of_mem _ hc')) h
      (hc c (by simp) args st st' hh hk)

theorem callLoop_episode [IntCast R] {args : CallArgs R S O} {e : Int} (he : e ≤ args.i_episode) :
    ∀ {cs : List (Callback R S O Γ)} {j : Nat}
    {st : Γ × Bool × Metrices R} {trace : List (Event K S)}
    {r : (Γ × Bool × Metrices R) × List (Event K S)}, (∀ c ∈ cs, KeepsSignal c) →
    logEpisodeCallback (some e) ∈ cs → callLoop args cs j st trace = .ok r → r.1.2.1 = true
  | [], _, _, _, _, _, hm, _ => by simp at hm
  | c :: cs, j, st, trace, r, hc, hm, h => by
    rw [callLoop] at h
    rcases hh : c args st with er | st'
    · rw [hh, error_bind] at h; cases h
    rw [hh, ok_bind] at h
    have hc' : ∀ c ∈ cs, KeepsSignal c := fun c hc' => hc c (List.mem_cons_of_mem _ hc')
    rcases List.mem_cons.1 hm with rfl | hm
    · refine callLoop_keeps hc' h ?_
      have := Except.ok.inj hh
      rw [← this]
      dsimp only
      rw [if_pos he]
    · exact callLoop_episode he hc' hm h

/-- C56: with a limit `e` on the episodes, a run from the start makes at most `e + 1` training steps
(and at least one), if no callback takes the signal back. -/
theorem C56_episode [IntCast R] {env : LoopEnv R K S O G Γ Rnd} {key : K} {params : Leaves R}
    {opt_state : O} {cycle_seed : Option Nat} {gen : G} {rnd : Rnd} {cb : Γ} {kill : Bool}
    {s0 s : LoopState R K S O G Γ Rnd} {n : Nat} {close killed : Bool} {e : Int}
    (hkeep : ∀ c ∈ env.callbacks, KeepsSignal c)
    (hmem : logEpisodeCallback (some e) ∈ env.callbacks)
    (h0 : TrainingLoop.init env key params opt_state cycle_seed gen rnd cb kill = .ok s0)
    (h : TrainingLoop.run env n close s0 = .ok (killed, s)) :
    s.i_episode ≤ max 0 e := by
  obtain ⟨hi, ht, _⟩ := init_ok h0
  obtain ⟨m, _, t, h1, _, _, _, h2, _, _, _, h3⟩ := C57_run h
  have hafter : ∀ j u, steps env j { s0 with kill := false } = .ok u → u.i_episode = (j : Int) - 1 := by
    intro j u hu
    have := after_steps j (After.start.between s0.cb false) hu
    obtain ⟨_, _, _, _, _, hh, _⟩ := record_inv hi ht this
    rw [hh]
    simp
  rw [h2, hafter m t h1]
  rcases Nat.lt_or_ge 1 m with hm | hm
  · obtain ⟨u, hu, hk⟩ := h3 (m - 1) (by omega) (by omega)
    -- the last but one step would have set the flag
    have : ¬ e ≤ u.i_episode := by
      intro hle
      obtain ⟨p, hp⟩ : ∃ p, m - 1 = p + 1 := ⟨m - 2, by omega⟩
      rw [hp, steps] at hu
      rcases hv : steps env p { s0 with kill := false } with er | v
      · rw [hv, error_bind] at hu; cases hu
      rw [hv, ok_bind] at hu
      obtain ⟨kk, g, tt, c, _, _, _, hc, rfl⟩ := step_ok hu
      have := callLoop_episode (e := e) hle hkeep hmem hc
      dsimp only at hk
      rw [hk] at this
      cases this
    have hu' := hafter _ _ hu
    have hm1 : ((m - 1 : Nat) : Int) = (m : Int) - 1 := by omega
    rw [hu', hm1] at this
    rw [le_max_iff]
    right
    omega
  · rw [le_max_iff]
    left
    omega

/-- The episode callback sets the flag exactly in the episodes from the limit on. -/
theorem C56_episode_exact [IntCast R] (e : Int) (args : CallArgs R S O)
    (st : Γ × Bool × Metrices R) :
    ∃ flag d, logEpisodeCallback (some e) args st = .ok (st.1, flag, d) ∧
      (flag = true ↔ st.2.1 = true ∨ e ≤ args.i_episode) := by
  refine ⟨_, _, rfl, ?_⟩
  by_cases h : e ≤ args.i_episode
  · simp [h]
  · simp [h]

/-! ## An example -/

/-- A loop over numbers: keys and samples are numbers, training adds one to the only parameter, the
run is ended after episode 1. -/
def exEnv : LoopEnv ℚ Nat Nat Unit Unit Unit Unit where
  generator g k := .ok (10 * k, g)
  step_fn p o _ := .ok (p.map fun l => l.map fun x => Fl.add x (.fin 1), o, [], [])
  callbacks := [logEpisodeCallback (some 1), nanKillCallback]
  close c := .ok c
  prngKey n := n
  split k := (k + 1, k + 100)
  shuffle r l := (l.reverse, r)

example : ∀ c ∈ exEnv.callbacks, KeepsSignal c := by
  intro c hc
  simp only [exEnv, List.mem_cons, List.not_mem_nil, or_false] at hc
  rcases hc with rfl | rfl
  · exact keepsSignal_episode _
  · exact keepsSignal_nan

example : ∃ s0 s, TrainingLoop.init exEnv 5 [[.fin 0]] () (some 2) () () () false = .ok s0 ∧
    TrainingLoop.run exEnv 7 true s0 = .ok (true, s) ∧ s.i_episode = 1 ∧
    s.trace = [.generated 0 0, .generated 1 10, .trained 0, .callback 0 0 10, .callback 1 0 10,
      .generated 0 0, .trained 10, .callback 0 1 0, .callback 1 1 0] := by
  refine ⟨_, _, rfl, rfl, rfl, rfl⟩

end RingLib.ml
