import Verif.Model.TrainStep
import Verif.Props.Batch
import Verif.Props.Pipeline
import Verif.Props.Rename
import Mathlib.Tactic.Linarith
import Mathlib.Analysis.InnerProductSpace.PiL2

/-!
# C85: the training step
-/

namespace RingLib.ml
open utils System

variable {V S ξ η ψ O F : Type}

/-! ## Specification -/

/-- One sequence of the batch together with the state of the filter. -/
abbrev SeqItem (S ξ η : Type) := S × List ξ × List η

/-- A filter that treats the sequences of a batch independently, `f` for one sequence. -/
structure PerSequence (env : TrainEnv V S ξ η ψ O)
    (f : V → S → List ξ → List η → List ψ × S) : Prop where
  ok : ∀ (p : V) (l : List (SeqItem S ξ η)),
    env.apply p (l.map fun z => z.1) (l.map fun z => z.2.1) (l.map fun z => z.2.2) =
      .ok (l.map fun z => (f p z.1 z.2.1 z.2.2).1, l.map fun z => (f p z.1 z.2.1 z.2.2).2)

/-- The loss of one sequence. -/
def seqLoss (env : TrainEnv V S ξ η ψ O) (f : V → S → List ξ → List η → List ψ × S) (p : V)
    (z : SeqItem S ξ η) : ℝ :=
  env.metric z.2.2 (f p z.1 z.2.1 z.2.2).1

/-- The mean loss of a batch. -/
noncomputable def batchLoss (env : TrainEnv V S ξ η ψ O)
    (f : V → S → List ξ → List η → List ψ × S) (p : V) (l : List (SeqItem S ξ η)) : ℝ :=
  (l.map (seqLoss env f p)).sum / l.length

/-- Steps `k * len` to `(k + 1) * len` of a sequence. -/
def timeChunk (len k : Nat) (z : SeqItem S ξ η) : SeqItem S ξ η :=
  (z.1, (z.2.1.drop (k * len)).take len, (z.2.2.drop (k * len)).take len)

/-- The sequence with the state in which the filter is after the chunk. -/
def advance (f : V → S → List ξ → List η → List ψ × S) (len k : Nat) (p : V) (z : SeqItem S ξ η) :
    SeqItem S ξ η :=
  ((f p z.1 (timeChunk len k z).2.1 (timeChunk len k z).2.2).2, z.2)

section
variable [NormedAddCommGroup V] [InnerProductSpace ℝ V] [CompleteSpace V]

/-- Truncated backpropagation through time on one device: for one chunk after the other the parameters
are updated with the gradient of the mean loss of the chunk, and the filter continues from the state in
which the parameters before the update left it.  The result are the parameters, the state of the
optimizer, the losses and the gradients. -/
noncomputable def tbptt (env : TrainEnv V S ξ η ψ O) (f : V → S → List ξ → List η → List ψ × S)
    (len : Nat) : List Nat → V → O → List (SeqItem S ξ η) → V × O × List ℝ × List V
  | [], p, o, _ => (p, o, [], [])
  | k :: ks, p, o, batch =>
    let g := gradient (fun p' => batchLoss env f p' (batch.map (timeChunk len k))) p
    let u := env.update g o p
    let r := tbptt env f len ks (p + u.1) u.2 (batch.map (advance f len k p))
    (r.1, r.2.1, batchLoss env f p (batch.map (timeChunk len k)) :: r.2.2.1, g :: r.2.2.2)
end

section
variable [NormedAddCommGroup V] [InnerProductSpace ℝ V] [CompleteSpace V]

/-- The losses are differentiable at the parameters met on the way. -/
def DiffAlong (env : TrainEnv V S ξ η ψ O) (f : V → S → List ξ → List η → List ψ × S)
    (len : Nat) : List Nat → V → O → List (SeqItem S ξ η) → Prop
  | [], _, _, _ => True
  | k :: ks, p, o, batch =>
    let u := env.update (gradient (fun p' => batchLoss env f p' (batch.map (timeChunk len k))) p) o p
    (∀ z ∈ batch.map (timeChunk len k), DifferentiableAt ℝ (fun p' => seqLoss env f p' z) p) ∧
      DiffAlong env f len ks (p + u.1) u.2 (batch.map (advance f len k p))
end

/-! ## Means -/

theorem sum_flatten_real (L : List (List ℝ)) : L.flatten.sum = (L.map List.sum).sum := by
  induction L with
  | nil => rfl
  | cons l L ih => simp [ih]

/-- the mean of the means of rows of equal length is the mean of all entries -/
theorem meanR_rows {L : List (List ℝ)} {v : Nat} (h : ∀ l ∈ L, l.length = v) :
    meanR (L.map meanR) = meanR L.flatten := by
  have h1 : L.map meanR = L.map fun l => l.sum / (v : ℝ) :=
    List.map_congr_left fun l hl => by rw [meanR, h l hl]
  have h2 : L.flatten.length = L.length * v := by
    rw [List.length_flatten, List.map_congr_left (g := fun _ => v) h, List.map_const',
      List.sum_replicate, smul_eq_mul]
  have h3 : (L.map fun l => l.sum / (v : ℝ)).sum = (L.map List.sum).sum / v := by
    clear h h1 h2
    induction L with
    | nil => simp
    | cons l L ih => rw [List.map_cons, List.sum_cons, ih, List.map_cons, List.sum_cons, add_div]
  rw [h1, meanR, meanR, h3, sum_flatten_real, h2, List.length_map, Nat.cast_mul, div_div, mul_comm]

section
variable [NormedAddCommGroup V] [InnerProductSpace ℝ V] [CompleteSpace V]

theorem gradient_listSum {ι : Type} {g : ι → V → ℝ} {p : V} : ∀ {l : List ι},
    (∀ i ∈ l, DifferentiableAt ℝ (g i) p) →
    HasGradientAt (fun p' => (l.map fun i => g i p').sum) (l.map fun i => gradient (g i) p).sum p := by
  intro l
  induction l with
  | nil =>
    intro _
    simpa using hasGradientAt_const p (0 : ℝ)
  | cons i l ih =>
    intro h
    have h1 := (h i (by simp)).hasGradientAt
    have h2 := ih fun j hj => h j (by simp [hj])
    have h3 : HasGradientAt (fun p' => g i p' + (l.map fun i => g i p').sum)
        (gradient (g i) p + (l.map fun i => gradient (g i) p).sum) p := by
      rw [hasGradientAt_iff_hasFDerivAt] at h1 h2 ⊢
      rw [map_add]
      exact h1.add h2
    simpa using h3

theorem gradient_div {h : V → ℝ} {p g : V} (hg : HasGradientAt h g p) (c : ℝ) :
    HasGradientAt (fun p' => h p' / c) (c⁻¹ • g) p := by
  rw [hasGradientAt_iff_hasFDerivAt] at hg ⊢
  have := hg.const_mul c⁻¹
  rw [map_smulₛₗ]
  simp only [div_eq_inv_mul]
  simpa using this

theorem hasGradient_batchLoss {env : TrainEnv V S ξ η ψ O}
    {f : V → S → List ξ → List η → List ψ × S} {p : V} {l : List (SeqItem S ξ η)}
    (h : ∀ z ∈ l, DifferentiableAt ℝ (fun p' => seqLoss env f p' z) p) :
    HasGradientAt (fun p' => batchLoss env f p' l)
      ((l.length : ℝ)⁻¹ • (l.map fun z => gradient (fun p' => seqLoss env f p' z) p).sum) p :=
  gradient_div (gradient_listSum h) _

/-! ## Devices -/

theorem deviceLoss_eq {env : TrainEnv V S ξ η ψ O} {f : V → S → List ξ → List η → List ψ × S}
    (hf : PerSequence env f) (p : V) (l : List (SeqItem S ξ η)) :
    deviceLoss env p (l.map fun z => z.1) (l.map fun z => z.2.1) (l.map fun z => z.2.2) =
      .ok (batchLoss env f p l, l.map fun z => (f p z.1 z.2.1 z.2.2).2) := by
  unfold deviceLoss
  rw [hf.ok, ok_bind]
  dsimp only
  rw [List.zipWith_map, List.zipWith_self, meanR, List.length_map]
  rfl

theorem valueAndGrad_eq {env : TrainEnv V S ξ η ψ O} {f : V → S → List ξ → List η → List ψ × S}
    (hf : PerSequence env f) (p : V) (l : List (SeqItem S ξ η)) :
    valueAndGrad env p (l.map fun z => z.1) (l.map fun z => z.2.1) (l.map fun z => z.2.2) =
      .ok ((batchLoss env f p l, l.map fun z => (f p z.1 z.2.1 z.2.2).2),
        gradient (fun p' => batchLoss env f p' l) p) := by
  unfold valueAndGrad
  rw [deviceLoss_eq hf, ok_bind]
  simp only [deviceLoss_eq hf]
  rfl

theorem sum_map_smul {ι : Type} (c : ℝ) (g : ι → V) (l : List ι) :
    (l.map fun i => c • g i).sum = c • (l.map g).sum := by
  induction l with
  | nil => simp
  | cons i l ih => simp [ih, smul_add]

theorem sum_flatten_vec (L : List (List V)) : L.flatten.sum = (L.map List.sum).sum := by
  induction L with
  | nil => rfl
  | cons l L ih => simp [ih]

/-- all devices together compute the loss and the gradient of the whole batch -/
theorem pmappedLoss_eq {env : TrainEnv V S ξ η ψ O} {f : V → S → List ξ → List η → List ψ × S}
    (hf : PerSequence env f) (p : V) {D : List (List (SeqItem S ξ η))} {v : Nat}
    (hv : ∀ d ∈ D, d.length = v)
    (hd : ∀ z ∈ D.flatten, DifferentiableAt ℝ (fun p' => seqLoss env f p' z) p) :
    pmappedLoss env p (D.map fun d => d.map fun z => z.1) (D.map fun d => d.map fun z => z.2.1)
        (D.map fun d => d.map fun z => z.2.2) =
      .ok ((batchLoss env f p D.flatten, D.map fun d => d.map fun z => (f p z.1 z.2.1 z.2.2).2),
        gradient (fun p' => batchLoss env f p' D.flatten) p) := by
  have hzip : (D.map fun d => d.map fun z => z.1).zip ((D.map fun d => d.map fun z => z.2.1).zip
      (D.map fun d => d.map fun z => z.2.2)) =
      D.map fun d => (d.map fun z => z.1, d.map fun z => z.2.1, d.map fun z => z.2.2) := by
    rw [List.zip_map', List.zip_map']
  have hmap : (D.map fun d => (d.map fun z => z.1, d.map fun z => z.2.1,
      d.map fun z => z.2.2)).mapM (fun d => valueAndGrad env p d.1 d.2.1 d.2.2) =
      .ok (D.map fun d => ((batchLoss env f p d, d.map fun z => (f p z.1 z.2.1 z.2.2).2),
        gradient (fun p' => batchLoss env f p' d) p)) := by
    clear hv hd hzip
    induction D with
    | nil => rfl
    | cons d D ih =>
      rw [List.map_cons, List.mapM_cons, valueAndGrad_eq hf, ok_bind, ih]
      rfl
  have hlen : D.flatten.length = D.length * v := by
    rw [List.length_flatten, List.map_congr_left (g := fun _ => v) hv, List.map_const',
      List.sum_replicate, smul_eq_mul]
  unfold pmappedLoss
  rw [if_pos (by simp), hzip, hmap, ok_bind]
  simp only [List.map_map, Function.comp_def, List.length_map]
  congr 2
  · congr 1
    have h1 : (D.map fun d => batchLoss env f p d) =
        (D.map fun d => d.map (seqLoss env f p)).map meanR := by
      rw [List.map_map]
      refine List.map_congr_left fun d _ => ?_
      simp [batchLoss, meanR]
    rw [h1, meanR_rows (v := v) (by
      intro l hl
      obtain ⟨d, hd', rfl⟩ := List.mem_map.1 hl
      rw [List.length_map, hv d hd']), ← List.map_flatten, meanR, List.length_map]
    rfl
  · rw [(hasGradient_batchLoss hd).gradient, hlen]
    have h1 : (D.map fun d => gradient (fun p' => batchLoss env f p' d) p) =
        D.map fun d => (v : ℝ)⁻¹ • (d.map fun z => gradient (fun p' => seqLoss env f p' z) p).sum := by
      refine List.map_congr_left fun d hd' => ?_
      rw [(hasGradient_batchLoss fun z hz => hd z (List.mem_flatten.2 ⟨d, hd', hz⟩)).gradient,
        hv d hd']
    rw [h1, sum_map_smul, smul_smul, List.map_flatten, sum_flatten_vec, List.map_map, Nat.cast_mul,
      mul_inv]
    rfl

/-! ## Chunks -/

theorem stepLoop_eq {env : TrainEnv V S ξ η ψ O} {f : V → S → List ξ → List η → List ψ × S}
    (hf : PerSequence env f) (len v : Nat) :
    ∀ (ks : List Nat) (D : List (List (SeqItem S ξ η))) (p : V) (o : O) (loss : Option ℝ)
      (grads : List V), (∀ d ∈ D, d.length = v) → DiffAlong env f len ks p o D.flatten →
    stepLoop env (ks.map fun k : Nat =>
        ((D.map fun d => d.map fun z => z.2.1).map fun d => d.map fun s =>
            (s.drop (k * len)).take len,
         (D.map fun d => d.map fun z => z.2.2).map fun d => d.map fun s =>
            (s.drop (k * len)).take len)) (D.map fun d => d.map fun z => z.1) p o loss grads =
      match (tbptt env f len ks p o D.flatten).2.2.1.getLast?.or loss with
      | none => .error .other
      | some l => .ok ((tbptt env f len ks p o D.flatten).1,
          (tbptt env f len ks p o D.flatten).2.1, l,
          grads ++ (tbptt env f len ks p o D.flatten).2.2.2) := by
  intro ks
  induction ks with
  | nil =>
    intro D p o loss grads _ _
    cases loss <;> simp [stepLoop, tbptt]
  | cons k ks ih =>
    intro D p o loss grads hv hd
    have hp := pmappedLoss_eq hf p (D := D.map fun d => d.map (timeChunk len k)) (v := v)
      (by
        intro d hd'
        obtain ⟨d', h1, rfl⟩ := List.mem_map.1 hd'
        rw [List.length_map, hv d' h1]) (by rw [← List.map_flatten]; exact hd.1)
    simp only [List.map_map, Function.comp_def, timeChunk, ← List.map_flatten] at hp
    have hst : ∀ (c : List (List (List ξ)) × List (List (List η))) cs st l,
        stepLoop env (c :: cs) st p o l grads = (pmappedLoss env p st c.1 c.2 >>= fun r =>
          stepLoop env cs r.1.2 (p + (env.update r.2 o p).1) (env.update r.2 o p).2 (some r.1.1)
            (grads ++ [r.2])) := fun _ _ _ _ => rfl
    rw [List.map_cons, hst]
    simp only [List.map_map, Function.comp_def]
    rw [hp, ok_bind]
    dsimp only
    have ih := ih (D.map fun d => d.map (advance f len k p))
      (p + (env.update (gradient (fun p' => batchLoss env f p'
        (D.flatten.map (timeChunk len k))) p) o p).1)
      (env.update (gradient (fun p' => batchLoss env f p'
        (D.flatten.map (timeChunk len k))) p) o p).2
      (some (batchLoss env f p (D.flatten.map (timeChunk len k))))
      (grads ++ [gradient (fun p' => batchLoss env f p' (D.flatten.map (timeChunk len k))) p])
      (by
        intro d hd'
        obtain ⟨d', h1, rfl⟩ := List.mem_map.1 hd'
        rw [List.length_map, hv d' h1]) (by rw [← List.map_flatten]; exact hd.2)
    simp only [List.map_map, Function.comp_def, ← List.map_flatten] at ih
    have ht : tbptt env f len (k :: ks) p o D.flatten = _ := rfl
    refine Eq.trans ?_ (ih.trans ?_)
    · rfl
    · conv_rhs => rw [tbptt]
      dsimp only
      generalize tbptt env f len ks _ _ (D.flatten.map (advance f len k p)) = r
      obtain ⟨a, b, L, gs⟩ := r
      dsimp only
      rcases List.eq_nil_or_concat L with rfl | ⟨L', l, rfl⟩
      · simp
      · simp [List.getLast?_cons]

/-! ## The step -/

theorem expand_map {α β : Type} (g : α → β) (l : List α) (p v : Nat) (h : l.length = p * v) :
    expand_batchsize (l.map g) p v =
      .ok (((List.range p).map fun i : Nat => (l.drop (i * v)).take v).map fun d => d.map g) := by
  unfold expand_batchsize reshape2
  rw [if_pos (by rw [List.length_map, h]), List.map_map]
  simp [Function.comp_def, List.map_take, List.map_drop]

theorem pieces_length {α : Type} {l : List α} {p v : Nat} (h : l.length = p * v) :
    ∀ d ∈ (List.range p).map fun i : Nat => (l.drop (i * v)).take v, d.length = v := by
  obtain ⟨rows, h1, _, h2, _⟩ := reshape2_ok h
  have : reshape2 l p v = .ok _ := if_pos h
  rw [this] at h1
  rw [Except.ok.inj h1]
  exact h2

/-- the sequences of the batch with their initial states -/
def items (s0 : List S) (X : List (List ξ)) (y : List (List η)) : List (SeqItem S ξ η) :=
  s0.zip (X.zip y)

/-- The state in which the filter starts: that of the first call. -/
def StartsFrom (env : TrainEnv V S ξ η ψ O) (cache : Option (List (List S))) (X : List (List ξ))
    (p v : Nat) (s0 : List S) : Prop :=
  (cache = none ∧ s0 = env.init X) ∨ ∃ c, cache = some c ∧ expand_batchsize s0 p v = .ok c

/-- C85: a training step is truncated backpropagation through time over `T / tbp` chunks of equal length
with the gradients of the whole batch, however many devices there are; the loss is that of the last
chunk.  The initial state is the one of the first call and the same in every call. -/
theorem C85_step {env : TrainEnv V S ξ η ψ O} {f : V → S → List ξ → List η → List ψ × S}
    (hf : PerSequence env f) {cache : Option (List (List S))} {params : V} {opt_state : O}
    {X : List (List ξ)} {y : List (List η)} {s0 : List S} {T n p v : Nat}
    (hpv : distribute_batchsize env.machine X.length = .ok (p, v))
    (hT : (X.headD []).length = T) (hn : n = T / env.tbp) (hn0 : n ≠ 0) (hdiv : n ∣ T)
    (hy : y.length = X.length) (hs : s0.length = X.length)
    (hcache : StartsFrom env cache X p v s0)
    (hd : DiffAlong env f (T / n) (List.range n) params opt_state (items s0 X y)) :
    ∃ c loss, (tbptt env f (T / n) (List.range n) params opt_state (items s0 X y)).2.2.1.getLast? =
        some loss ∧
      expand_batchsize s0 p v = .ok c ∧
      step_fn env cache params opt_state X y =
        .ok (((tbptt env f (T / n) (List.range n) params opt_state (items s0 X y)).1,
          (tbptt env f (T / n) (List.range n) params opt_state (items s0 X y)).2.1, loss,
          (tbptt env f (T / n) (List.range n) params opt_state (items s0 X y)).2.2.2), some c) := by
  have hB : X.length = p * v := (C42_product hpv).symm
  set Z := items s0 X y with hZ
  have hZl : Z.length = p * v := by
    rw [hZ, items, List.length_zip, List.length_zip, hs, hy, hB]; simp
  have e1 : s0 = Z.map fun z => z.1 := by
    rw [hZ, items]
    exact (List.map_fst_zip (by rw [List.length_zip, hs, hy]; simp)).symm
  have e23 : X.zip y = Z.map fun z => z.2 := by
    rw [hZ, items]
    exact (List.map_snd_zip (by rw [List.length_zip, hs, hy]; simp)).symm
  have e2 : X = Z.map fun z => z.2.1 := by
    have : X = (X.zip y).map Prod.fst := (List.map_fst_zip (by rw [hy])).symm
    rw [e23, List.map_map] at this
    exact this
  have e3 : y = Z.map fun z => z.2.2 := by
    have : y = (X.zip y).map Prod.snd := (List.map_snd_zip (by rw [hy])).symm
    rw [e23, List.map_map] at this
    exact this
  set D := (List.range p).map fun i : Nat => (Z.drop (i * v)).take v with hD
  have hDv : ∀ d ∈ D, d.length = v := pieces_length hZl
  have hDf : D.flatten = Z := flatten_pieces Z p v hZl
  have x1 : expand_batchsize s0 p v = .ok (D.map fun d => d.map fun z => z.1) := by
    conv_lhs => rw [e1]
    exact expand_map _ _ _ _ hZl
  have x2 : expand_batchsize X p v = .ok (D.map fun d => d.map fun z => z.2.1) := by
    conv_lhs => rw [e2]
    exact expand_map _ _ _ _ hZl
  have x3 : expand_batchsize y p v = .ok (D.map fun d => d.map fun z => z.2.2) := by
    conv_lhs => rw [e3]
    exact expand_map _ _ _ _ hZl
  have hloop := stepLoop_eq hf (T / n) v (List.range n) D params opt_state none [] hDv
    (by rw [hDf]; exact hd)
  rw [hDf] at hloop
  have hne : (tbptt env f (T / n) (List.range n) params opt_state Z).2.2.1 ≠ [] := by
    obtain ⟨m, rfl⟩ := Nat.exists_eq_succ_of_ne_zero hn0
    rw [List.range_succ_eq_map, tbptt]
    simp
  obtain ⟨loss, hloss⟩ : ∃ l, (tbptt env f (T / n) (List.range n) params opt_state Z).2.2.1.getLast? =
      some l := ⟨_, List.getLast?_eq_some_getLast hne⟩
  refine ⟨_, loss, hloss, x1, ?_⟩
  rw [hloss] at hloop
  unfold step_fn
  dsimp only
  rw [hpv, ok_bind]
  dsimp only
  rw [hT, ← hn]
  rcases hcache with ⟨rfl, rfl⟩ | ⟨c, rfl, hc⟩
  all_goals
    first
      | rw [show expand_batchsize (env.init X) p v = _ from x1]
      | rw [show c = D.map fun d => d.map fun z => z.1 from by
          rw [x1] at hc; exact (Except.ok.inj hc).symm]
    simp only [ok_bind]
    rw [x2, ok_bind, x3, ok_bind]
    unfold splitTime
    rw [if_neg hn0, if_neg (by simpa using Nat.mod_eq_zero_of_dvd hdiv), ok_bind, hloop]
    simp [ok_bind]

/-- C85: one update for each chunk. -/
theorem C85_updates (env : TrainEnv V S ξ η ψ O) (f : V → S → List ξ → List η → List ψ × S)
    (len : Nat) : ∀ (ks : List Nat) (p : V) (o : O) (batch : List (SeqItem S ξ η)),
    (tbptt env f len ks p o batch).2.2.1.length = ks.length ∧
      (tbptt env f len ks p o batch).2.2.2.length = ks.length := by
  intro ks
  induction ks with
  | nil => intro p o batch; exact ⟨rfl, rfl⟩
  | cons k ks ih =>
    intro p o batch
    rw [tbptt]
    dsimp only
    rw [List.length_cons, List.length_cons, List.length_cons, (ih _ _ _).1, (ih _ _ _).2]
    exact ⟨rfl, rfl⟩

theorem tbptt_machine (env : TrainEnv V S ξ η ψ O) (M : Machine)
    (f : V → S → List ξ → List η → List ψ × S) (len : Nat) : ∀ (ks : List Nat) (p : V) (o : O)
    (batch : List (SeqItem S ξ η)),
    tbptt { env with machine := M } f len ks p o batch = tbptt env f len ks p o batch ∧
      (DiffAlong env f len ks p o batch → DiffAlong { env with machine := M } f len ks p o batch) := by
  intro ks
  induction ks with
  | nil => intro p o batch; exact ⟨rfl, id⟩
  | cons k ks ih =>
    intro p o batch
    refine ⟨?_, fun h => ⟨h.1, (ih _ _ _).2 h.2⟩⟩
    rw [tbptt, tbptt]
    dsimp only
    exact congrArg (fun r : V × O × List ℝ × List V => (r.1, r.2.1,
      batchLoss env f p (batch.map (timeChunk len k)) :: r.2.2.1,
      gradient (fun p' => batchLoss env f p' (batch.map (timeChunk len k))) p :: r.2.2.2))
      (ih _ _ _).1

/-- C85: the result does not depend on the number of devices. -/
theorem C85_devices {env : TrainEnv V S ξ η ψ O} {f : V → S → List ξ → List η → List ψ × S}
    (hf : PerSequence env f) {params : V} {opt_state : O} {X : List (List ξ)} {y : List (List η)}
    {T n p v p' v' : Nat} {M : Machine}
    (hpv : distribute_batchsize env.machine X.length = .ok (p, v))
    (hpv' : distribute_batchsize M X.length = .ok (p', v'))
    (hT : (X.headD []).length = T) (hn : n = T / env.tbp) (hn0 : n ≠ 0) (hdiv : n ∣ T)
    (hy : y.length = X.length) (hs : (env.init X).length = X.length)
    (hd : DiffAlong env f (T / n) (List.range n) params opt_state (items (env.init X) X y)) :
    ∃ r c c', step_fn env none params opt_state X y = .ok (r, c) ∧
      step_fn { env with machine := M } none params opt_state X y = .ok (r, c') := by
  obtain ⟨c, loss, h1, _, h3⟩ := C85_step hf hpv hT hn hn0 hdiv hy hs (Or.inl ⟨rfl, rfl⟩) hd
  obtain ⟨c', loss', h1', _, h3'⟩ := C85_step (env := { env with machine := M }) (f := f) ⟨hf.ok⟩
    hpv' hT hn hn0 hdiv hy hs (Or.inl ⟨rfl, rfl⟩) ((tbptt_machine env M f _ _ _ _ _).2 hd)
  rw [(tbptt_machine env M f _ _ _ _ _).1] at h1' h3'
  rw [h1] at h1'
  cases h1'
  exact ⟨_, _, _, h3, h3'⟩

/-! ## Lengths -/

omit [NormedAddCommGroup V] [InnerProductSpace ℝ V] [CompleteSpace V] in
/-- C85: the chunks are at least `tbp` long, less than twice as long, and together they are the
sequence. -/
theorem C85_chunks {α : Type} {T tbp : Nat} (h0 : 0 < tbp) (h : tbp ≤ T) :
    tbp ≤ T / (T / tbp) ∧ T / (T / tbp) < 2 * tbp ∧
    (T / tbp ∣ T → ∀ s : List α, s.length = T →
      ((List.range (T / tbp)).map fun k : Nat =>
        (s.drop (k * (T / (T / tbp)))).take (T / (T / tbp))).flatten = s) := by
  have hq : 0 < T / tbp := Nat.div_pos h h0
  refine ⟨?_, ?_, ?_⟩
  · rw [Nat.le_div_iff_mul_le hq]
    exact Nat.mul_div_le T tbp
  · rw [Nat.div_lt_iff_lt_mul hq]
    have h1 : T < tbp * (T / tbp) + tbp := by
      have := Nat.div_add_mod T tbp
      have := Nat.mod_lt T h0
      omega
    have h2 : tbp ≤ tbp * (T / tbp) := Nat.le_mul_of_pos_right _ hq
    calc T < tbp * (T / tbp) + tbp := h1
      _ ≤ tbp * (T / tbp) + tbp * (T / tbp) := by omega
      _ = 2 * tbp * (T / tbp) := by rw [Nat.mul_assoc, Nat.two_mul]
  · intro hd s hs
    exact flatten_pieces s _ _ (by rw [hs, Nat.mul_div_cancel' hd])

omit [NormedAddCommGroup V] [InnerProductSpace ℝ V] [CompleteSpace V] in
/-- C85: chunks need not be as long as asked for: sequences of `2 * tbp - 1` steps are a single chunk. -/
theorem C85_length_fails {tbp : Nat} (h : 0 < tbp) : (2 * tbp - 1) / tbp = 1 ∧
    (2 * tbp - 1) / ((2 * tbp - 1) / tbp) = 2 * tbp - 1 := by
  have h1 : (2 * tbp - 1) / tbp = 1 := by
    apply Nat.div_eq_of_lt_le <;> omega
  rw [h1]
  exact ⟨rfl, Nat.div_one _⟩

/-- the step up to the chunks -/
theorem step_split {env : TrainEnv V S ξ η ψ O} {cache : Option (List (List S))} {params : V}
    {opt_state : O} {X : List (List ξ)} {y : List (List η)} {T p v : Nat} {e : PyErr}
    (hpv : distribute_batchsize env.machine X.length = .ok (p, v))
    (hT : (X.headD []).length = T) (hy : y.length = X.length)
    (hs : (env.init X).length = X.length)
    (h : ∀ (A : List (List (List ξ))) (B : List (List (List η))),
      splitTime (T / env.tbp) T A B = .error e) :
    step_fn env cache params opt_state X y = .error e := by
  have hB : X.length = p * v := (C42_product hpv).symm
  obtain ⟨r1, h1, _⟩ := reshape2_ok (arr := env.init X) (hs.trans hB)
  obtain ⟨r2, h2, _⟩ := reshape2_ok hB
  obtain ⟨r3, h3, _⟩ := reshape2_ok (hy.trans hB)
  unfold step_fn
  dsimp only
  rw [hpv, ok_bind]
  dsimp only
  unfold expand_batchsize
  rw [hT, h1, h2, h3]
  cases cache <;> simp only [ok_bind, h] <;> rfl

/-- C85: sequences shorter than `tbp` cannot be trained on. -/
theorem C85_short_fails {env : TrainEnv V S ξ η ψ O} {cache : Option (List (List S))} {params : V}
    {opt_state : O} {X : List (List ξ)} {y : List (List η)} {p v : Nat}
    (hpv : distribute_batchsize env.machine X.length = .ok (p, v))
    (hT : (X.headD []).length < env.tbp) (hy : y.length = X.length)
    (hs : (env.init X).length = X.length) :
    step_fn env cache params opt_state X y = .error .zeroDivision :=
  step_split hpv rfl hy hs fun A B => by
    unfold splitTime
    rw [if_pos (Nat.div_eq_of_lt hT)]

/-- C85: neither can those whose length the number of chunks does not divide. -/
theorem C85_divide_fails {env : TrainEnv V S ξ η ψ O} {cache : Option (List (List S))} {params : V}
    {opt_state : O} {X : List (List ξ)} {y : List (List η)} {p v : Nat}
    (hpv : distribute_batchsize env.machine X.length = .ok (p, v))
    (h0 : (X.headD []).length / env.tbp ≠ 0)
    (hT : ¬ (X.headD []).length / env.tbp ∣ (X.headD []).length) (hy : y.length = X.length)
    (hs : (env.init X).length = X.length) :
    step_fn env cache params opt_state X y = .error .value :=
  step_split hpv rfl hy hs fun A B => by
    unfold splitTime
    rw [if_neg h0, if_pos fun h => hT (Nat.dvd_of_mod_eq_zero h)]

example : ¬ 2501 / 1000 ∣ 2501 := by decide

/-! ## The cached state -/

theorem mapM_error {α β : Type} {g : α → Py β} : ∀ {l : List α},
    (∃ a ∈ l, ∃ e, g a = .error e) → ∃ e, l.mapM g = .error e := by
  intro l
  induction l with
  | nil => rintro ⟨a, h, _⟩; simp at h
  | cons a l ih =>
    intro h
    rw [List.mapM_cons]
    rcases ha : g a with e | b
    · exact ⟨e, rfl⟩
    · have : ∃ a ∈ l, ∃ e, g a = .error e := by
        obtain ⟨a', h1, e, h2⟩ := h
        rcases List.mem_cons.1 h1 with rfl | h1
        · rw [ha] at h2; cases h2
        · exact ⟨a', h1, e, h2⟩
      obtain ⟨e, he⟩ := ih this
      refine ⟨e, ?_⟩
      rw [ok_bind, he]
      rfl

theorem pmapped_sizes {env : TrainEnv V S ξ η ψ O}
    (hsize : ∀ p st (X : List (List ξ)) (y : List (List η)), st.length ≠ X.length →
      ∃ e, env.apply p st X y = .error e) {params : V} {c : List (List S)}
    {A : List (List (List ξ))} {B : List (List (List η))} {v : Nat} (hA : ∀ d ∈ A, d.length = v)
    (hc : c.flatten.length ≠ A.flatten.length) : ∃ e, pmappedLoss env params c A B = .error e := by
  unfold pmappedLoss
  by_cases hl : c.length = A.length ∧ A.length = B.length
  · rw [if_pos hl]
    have hrow : ∃ d ∈ c.zip (A.zip B), d.1.length ≠ d.2.1.length := by
      by_contra hno
      push Not at hno
      apply hc
      have e1 : c = (c.zip (A.zip B)).map fun d => d.1 :=
        (List.map_fst_zip (by rw [List.length_zip, hl.1, hl.2]; simp)).symm
      have e2 : A = (c.zip (A.zip B)).map fun d => d.2.1 := by
        have h1 : A.zip B = (c.zip (A.zip B)).map Prod.snd :=
          (List.map_snd_zip (by rw [List.length_zip, hl.1, hl.2]; simp)).symm
        have h2 : A = (A.zip B).map Prod.fst := (List.map_fst_zip (by rw [hl.2])).symm
        rw [h1, List.map_map] at h2
        exact h2
      rw [List.length_flatten, List.length_flatten]
      congr 1
      conv_lhs => rw [e1]
      conv_rhs => rw [e2]
      rw [List.map_map, List.map_map]
      exact List.map_congr_left fun d hd => hno d hd
    obtain ⟨d, hd, hne⟩ := hrow
    obtain ⟨e, he⟩ := hsize params d.1 d.2.1 d.2.2 hne
    obtain ⟨e', he'⟩ := mapM_error (g := fun d : List S × List (List ξ) × List (List η) =>
      valueAndGrad env params d.1 d.2.1 d.2.2) ⟨d, hd, e, by
        unfold valueAndGrad deviceLoss
        rw [he]
        rfl⟩
    exact ⟨e', by rw [he']; rfl⟩
  · exact ⟨.value, if_neg hl⟩

/-- C85: after a first batch, a batch of another size raises, although the filter could be trained on
it. -/
theorem C85_batchsize_fails {env : TrainEnv V S ξ η ψ O}
    (hsize : ∀ p st (X : List (List ξ)) (y : List (List η)), st.length ≠ X.length →
      ∃ e, env.apply p st X y = .error e)
    {c : List (List S)} {params : V} {opt_state : O} {X : List (List ξ)} {y : List (List η)}
    {p v : Nat} (hpv : distribute_batchsize env.machine X.length = .ok (p, v))
    (hc : c.flatten.length ≠ X.length) (hy : y.length = X.length) :
    ∃ e, step_fn env (some c) params opt_state X y = .error e := by
  have hB : X.length = p * v := (C42_product hpv).symm
  obtain ⟨r2, h2, _, hv2, hf2⟩ := reshape2_ok hB
  obtain ⟨r3, h3, _⟩ := reshape2_ok (hy.trans hB)
  unfold step_fn
  dsimp only
  rw [hpv, ok_bind]
  dsimp only
  unfold expand_batchsize
  rw [h2, h3]
  simp only [ok_bind]
  unfold splitTime
  split
  · exact ⟨_, rfl⟩
  · rename_i hn
    split
    · exact ⟨_, rfl⟩
    · obtain ⟨m, hm⟩ := Nat.exists_eq_succ_of_ne_zero hn
      rw [hm, List.range_succ_eq_map, List.map_cons, ok_bind]
      obtain ⟨e, he⟩ := pmapped_sizes hsize (params := params) (c := c)
        (A := r2.map fun d => d.map fun s =>
          (s.drop (0 * ((X.headD []).length / (m + 1)))).take ((X.headD []).length / (m + 1)))
        (B := r3.map fun d => d.map fun s =>
          (s.drop (0 * ((X.headD []).length / (m + 1)))).take ((X.headD []).length / (m + 1)))
        (v := v) (by
          intro d hd
          obtain ⟨d', h1, rfl⟩ := List.mem_map.1 hd
          rw [List.length_map, hv2 d' h1]) (by
          rw [← List.map_flatten, List.length_map, hf2]
          exact hc)
      refine ⟨e, ?_⟩
      have hst : ∀ (ch : List (List (List ξ)) × List (List (List η))) cs,
          stepLoop env (ch :: cs) c params opt_state none [] =
          (pmappedLoss env params c ch.1 ch.2 >>= fun r =>
            stepLoop env cs r.1.2 (params + (env.update r.2 opt_state params).1)
              (env.update r.2 opt_state params).2 (some r.1.1) ([] ++ [r.2])) := fun _ _ => rfl
      rw [hst]
      dsimp only
      rw [show pmappedLoss env params c _ _ = Except.error e from he]
      rfl

end

/-! ## Continuing from chunk to chunk -/

/-- A filter that reads its input from the beginning to the end. -/
structure Recurrent (f : V → S → List ξ → List η → List ψ × S) : Prop where
  nil : ∀ p s, f p s [] [] = ([], s)
  append : ∀ p s x x' y y', x.length = y.length →
    f p s (x ++ x') (y ++ y') =
      ((f p s x y).1 ++ (f p (f p s x y).2 x' y').1, (f p (f p s x y).2 x' y').2)

/-- The predictions for one chunk after the other, and the state at the end. -/
def chunkwise (f : V → S → List ξ → List η → List ψ × S) (len : Nat) (p : V) :
    List Nat → SeqItem S ξ η → List ψ × S
  | [], z => ([], z.1)
  | k :: ks, z =>
    let r := chunkwise f len p ks (advance f len k p z)
    ((f p z.1 (timeChunk len k z).2.1 (timeChunk len k z).2.2).1 ++ r.1, r.2)

/-- C85: with the parameters fixed, a recurrent filter predicts for the chunks what it predicts for the
whole sequence. -/
theorem C85_carry {f : V → S → List ξ → List η → List ψ × S} (hf : Recurrent f) (len : Nat) (p : V)
    (n : Nat) (z : SeqItem S ξ η) (hx : z.2.1.length = n * len) (hy : z.2.2.length = n * len) :
    chunkwise f len p (List.range n) z = f p z.1 z.2.1 z.2.2 := by
  have key : ∀ (m k : Nat) (z : SeqItem S ξ η), z.2.1.length = (k + m) * len →
      z.2.2.length = (k + m) * len →
      chunkwise f len p (List.range' k m) z =
        f p z.1 (z.2.1.drop (k * len)) (z.2.2.drop (k * len)) := by
    intro m
    induction m with
    | zero =>
      intro k z hx hy
      rw [List.drop_of_length_le (by rw [hx]; simp), List.drop_of_length_le (by rw [hy]; simp),
        hf.nil]
      rfl
    | succ m ih =>
      intro k z hx hy
      rw [List.range'_succ, chunkwise]
      have e1 : (k + 1 + m) * len = (k + (m + 1)) * len := by congr 1; omega
      rw [ih (k + 1) _ (by rw [e1]; exact hx) (by rw [e1]; exact hy)]
      have split : ∀ {α : Type} (l : List α), l.drop (k * len) =
          (l.drop (k * len)).take len ++ l.drop ((k + 1) * len) := by
        intro α l
        rw [Nat.succ_mul, ← List.drop_drop, List.take_append_drop]
      rw [split z.2.1, split z.2.2, hf.append _ _ _ _ _ _ (by simp [hx, hy])]
      rfl
  have := key n 0 z (by simpa using hx) (by simpa using hy)
  simpa [List.range_eq_range'] using this

/-! ## Evaluation -/

/-- C85: if the metric is reduced by a mean (in other units), evaluating on several devices gives the
mean over the whole batch. `D` are the devices, `v` sequences of `T` steps on each. -/
theorem C85_eval_partial (metric_fn : F → F → ℝ) (c : ℝ) {D : List (List (List F × List F))}
    {v T : Nat} (hv : ∀ d ∈ D, d.length = v)
    (hT : ∀ d ∈ D, ∀ z ∈ d, z.1.length = T ∧ z.2.length = T) :
    pmappedEval metric_fn (fun L => c * meanR L.flatten) (D.map fun d => d.map fun z => z.1)
        (D.map fun d => d.map fun z => z.2) =
      pipe metric_fn (fun L => c * meanR L.flatten) (D.flatten.map fun z => z.1)
        (D.flatten.map fun z => z.2) := by
  have hp : ∀ l : List (List F × List F), pipe metric_fn (fun L => c * meanR L.flatten)
      (l.map fun z => z.1) (l.map fun z => z.2) =
      c * meanR (l.map fun z => List.zipWith metric_fn z.1 z.2).flatten := by
    intro l
    unfold pipe
    rw [List.zipWith_map, List.zipWith_self]
  have hc : ∀ l : List ℝ, meanR (l.map fun x => c * x) = c * meanR l := by
    intro l
    unfold meanR
    rw [List.sum_map_mul_left, List.length_map, List.map_id', mul_div_assoc]
  have h1 : List.zipWith (pipe metric_fn fun L => c * meanR L.flatten)
      (D.map fun d => d.map fun z => z.1) (D.map fun d => d.map fun z => z.2) =
      ((D.map fun d => (d.map fun z => List.zipWith metric_fn z.1 z.2).flatten).map meanR).map
        fun x => c * x := by
    rw [List.zipWith_map, List.zipWith_self, List.map_map, List.map_map]
    exact List.map_congr_left fun d _ => hp d
  unfold pmappedEval
  rw [h1, hc, meanR_rows (v := v * T), hp]
  · congr 2
    rw [List.map_flatten, List.flatten_flatten, List.map_map]
    rfl
  · intro l hl
    obtain ⟨d, hd, rfl⟩ := List.mem_map.1 hl
    rw [List.length_flatten, List.map_map, List.map_congr_left (g := fun _ => T), List.map_const',
      List.sum_replicate, hv d hd, smul_eq_mul]
    intro z hz
    simp [(hT d hd z hz).1, (hT d hd z hz).2]

/-- C85: for other reductions the result depends on the devices: the largest error 3 of a batch of two
becomes 2 on two devices. -/
theorem C85_eval_fails :
    let worst : List (List ℝ) → ℝ := fun L => L.flatten.foldl max 0
    let dist : ℝ → ℝ → ℝ := fun q qhat => |q - qhat|
    pipe dist worst [[0], [0]] [[1], [3]] = 3 ∧
      pmappedEval dist worst [[[0]], [[0]]] [[[1]], [[3]]] = 2 := by
  constructor
  · simp [pipe]
  · simp [pmappedEval, pipe, meanR]
    norm_num

theorem lookup_named {β : Type} (g : Nat → β) : ∀ (names : List String) (k : Nat) (d : Dict β),
    names.Nodup → ∀ i name, names[i]? = some name →
    ((names.zipIdx k).foldl (fun d x => d.set x.1 (g x.2)) d).lookup name = some (g (k + i)) := by
  have keep : ∀ (names : List String) (k : Nat) (d : Dict β) (name : String), name ∉ names →
      ((names.zipIdx k).foldl (fun d x => d.set x.1 (g x.2)) d).lookup name = d.lookup name := by
    intro names
    induction names with
    | nil => intro k d name _; rfl
    | cons a as ih =>
      intro k d name h
      rw [List.zipIdx_cons, List.foldl_cons, ih _ _ _ (fun h' => h (by simp [h'])), Dict.lookup_set,
        if_neg (fun e => h (by simp [e]))]
  intro names
  induction names with
  | nil => intro k d _ i name h; simp at h
  | cons a as ih =>
    intro k d hnd i name h
    rw [List.nodup_cons] at hnd
    rw [List.zipIdx_cons, List.foldl_cons]
    cases i with
    | zero =>
      have : a = name := by simpa using h
      subst this
      rw [keep _ _ _ _ hnd.1, Dict.lookup_set, if_pos rfl]
      rfl
    | succ i =>
      rw [ih (k + 1) _ hnd.2 i name (by simpa using h)]
      congr 2
      omega

/-- C85: if there are as many different names as links, each name has the data of its link. -/
theorem C85_links_partial [Inhabited F] {N : Nat} (y : List (List (List F))) {names : List String}
    (hN : names.length = N) (hnd : names.Nodup) {i : Nat} {name : String}
    (h : names[i]? = some name) :
    (_arr_to_dict N y (some names)).lookup name =
      some (y.map fun seq => seq.map fun row => row.getD i default) := by
  have hi : i < N := by
    rw [← hN]
    exact (List.getElem?_eq_some_iff.1 h).1
  unfold _arr_to_dict
  rw [Option.getD_some, lookup_named (fun j => y.map fun seq => seq.map fun row =>
    row.getD (min j (N - 1)) default) names 0 [] hnd i name h]
  congr 1
  rw [show min (0 + i) (N - 1) = i by omega]

/-- C85: without names the links are numbered. -/
theorem C85_links_default [Inhabited F] (N : Nat) (y : List (List (List F))) {i : Nat} (h : i < N) :
    (_arr_to_dict N y none).lookup ("link" ++ toString i) =
      some (y.map fun seq => seq.map fun row => row.getD i default) := by
  have e : _arr_to_dict N y none = _arr_to_dict N y (some (_unknown_link_names N)) := rfl
  rw [e]
  refine C85_links_partial y (by simp [_unknown_link_names]) ?_ (by simp [_unknown_link_names, h])
  unfold _unknown_link_names
  refine List.Nodup.map_on ?_ List.nodup_range
  intro a _ b _ hab
  have := congrArg String.toList hab
  rw [String.toList_append, String.toList_append] at this
  exact generator.toString_nat_inj (String.toList_inj.1 (List.append_cancel_left this))

/-- C85: a name too many is given the data of the last link, a name too few drops a link, and a name
used twice loses one; none of this raises. -/
theorem C85_links_fails :
    _arr_to_dict (F := Nat) 2 [[[10, 20]]] (some ["a", "b", "c"]) =
      [("a", [[10]]), ("b", [[20]]), ("c", [[20]])] ∧
    _arr_to_dict (F := Nat) 2 [[[10, 20]]] (some ["a"]) = [("a", [[10]])] ∧
    _arr_to_dict (F := Nat) 2 [[[10, 20]]] (some ["a", "a"]) = [("a", [[20]])] := by
  refine ⟨?_, ?_, ?_⟩ <;> simp [_arr_to_dict, Dict.set, Dict.keys]

/-! ## Example: a filter that adds up its input -/

/-- The running sum times the parameter. -/
def sumFilter (p s : ℝ) : List ℝ → List ℝ × ℝ
  | [] => ([], s)
  | x :: xs => let r := sumFilter p (s + x) xs
    (p * (s + x) :: r.1, r.2)

/-- Gradient descent on the squared error at the end of the chunk. -/
noncomputable def sumEnv : TrainEnv ℝ ℝ ℝ ℝ ℝ Nat where
  machine := ⟨2, 1, 4⟩
  apply p st X _ := if st.length = X.length then
    .ok ((List.zipWith (sumFilter p) st X).map Prod.fst, (List.zipWith (sumFilter p) st X).map Prod.snd)
    else .error .value
  init X := X.map fun _ => 0
  metric y yhat := (y.getLastD 0 - yhat.getLastD 0) ^ 2
  update g o _ := (-g, o + 1)
  tbp := 2

theorem sumEnv_perSequence : PerSequence sumEnv fun p s x _ => sumFilter p s x where
  ok p l := by
    unfold sumEnv
    dsimp only
    rw [if_pos (by simp), List.zipWith_map, List.zipWith_self, List.map_map, List.map_map]
    rfl

theorem sumFilter_append (p : ℝ) (x x' : List ℝ) : ∀ s, sumFilter p s (x ++ x') =
    ((sumFilter p s x).1 ++ (sumFilter p (sumFilter p s x).2 x').1,
      (sumFilter p (sumFilter p s x).2 x').2) := by
  induction x with
  | nil => intro s; rfl
  | cons a x ih => intro s; simp [sumFilter, ih]

example : Recurrent fun p s x (_ : List ℝ) => sumFilter p s x where
  nil _ _ := rfl
  append p s x x' _ _ _ := sumFilter_append p x x' s

theorem sumFilter_linear (x : List ℝ) : ∀ s, ∃ a : ℝ, ∀ p, (sumFilter p s x).1.getLastD 0 = p * a := by
  induction x with
  | nil => intro s; exact ⟨0, fun p => by simp [sumFilter]⟩
  | cons b x ih =>
    intro s
    cases x with
    | nil => exact ⟨s + b, fun p => by simp [sumFilter]⟩
    | cons b' x =>
      obtain ⟨a, ha⟩ := ih (s + b)
      refine ⟨a, fun p => ?_⟩
      rw [← ha p]
      simp [sumFilter]

theorem sumEnv_diff (z : SeqItem ℝ ℝ ℝ) (p : ℝ) :
    DifferentiableAt ℝ (fun p' => seqLoss sumEnv (fun p s x _ => sumFilter p s x) p' z) p := by
  obtain ⟨a, ha⟩ := sumFilter_linear z.2.1 z.1
  have : (fun p' => seqLoss sumEnv (fun p s x _ => sumFilter p s x) p' z) =
      fun p' => (z.2.2.getLastD 0 - p' * a) ^ 2 := by
    funext p'
    show (z.2.2.getLastD 0 - (sumFilter p' z.1 z.2.1).1.getLastD 0) ^ 2 = _
    rw [ha]
  rw [this]
  fun_prop

theorem diffAlong_of_all {V : Type} [NormedAddCommGroup V] [InnerProductSpace ℝ V] [CompleteSpace V]
    {env : TrainEnv V S ξ η ψ O} {f : V → S → List ξ → List η → List ψ × S}
    (h : ∀ z p, DifferentiableAt ℝ (fun p' => seqLoss env f p' z) p) (len : Nat) :
    ∀ (ks : List Nat) (p : V) (o : O) (batch : List (SeqItem S ξ η)),
      DiffAlong env f len ks p o batch := by
  intro ks
  induction ks with
  | nil => intro _ _ _; trivial
  | cons k ks ih => intro p o batch; exact ⟨fun z _ => h z p, ih _ _ _⟩

/-- Two sequences of four steps on two devices, in two chunks. -/
example : ∃ c loss, step_fn sumEnv none 1 0 [[1, 2, 3, 4], [5, 6, 7, 8]] [[1, 2, 3, 4], [5, 6, 7, 8]] =
    .ok (((tbptt sumEnv (fun p s x _ => sumFilter p s x) 2 [0, 1] 1 0
        (items [0, 0] [[1, 2, 3, 4], [5, 6, 7, 8]] [[1, 2, 3, 4], [5, 6, 7, 8]])).1,
      (tbptt sumEnv (fun p s x _ => sumFilter p s x) 2 [0, 1] 1 0
        (items [0, 0] [[1, 2, 3, 4], [5, 6, 7, 8]] [[1, 2, 3, 4], [5, 6, 7, 8]])).2.1, loss,
      (tbptt sumEnv (fun p s x _ => sumFilter p s x) 2 [0, 1] 1 0
        (items [0, 0] [[1, 2, 3, 4], [5, 6, 7, 8]] [[1, 2, 3, 4], [5, 6, 7, 8]])).2.2.2), some c) := by
  obtain ⟨c, loss, _, _, h⟩ := C85_step (cache := none) (params := (1 : ℝ)) (opt_state := 0)
    (X := [[1, 2, 3, 4], [5, 6, 7, 8]]) (y := [[1, 2, 3, 4], [5, 6, 7, 8]]) (s0 := [0, 0])
    (T := 4) (n := 2) (p := 2) (v := 1) sumEnv_perSequence rfl rfl rfl (by decide) (by decide) rfl rfl
    (Or.inl ⟨rfl, rfl⟩) (diffAlong_of_all sumEnv_diff _ _ _ _ _)
  exact ⟨c, loss, h⟩

example (p : ℝ) (st : List ℝ) (X y : List (List ℝ)) (h : st.length ≠ X.length) :
    ∃ e, sumEnv.apply p st X y = .error e := ⟨.value, if_neg h⟩

end RingLib.ml
