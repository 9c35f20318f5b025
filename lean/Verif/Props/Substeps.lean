import Verif.Props.Separate

/-!
# C115: substeps are steps

`step` divides its time step, carries the system with the transforms of the previous substep along and returns poses that
lag behind. None of this changes what is simulated.
-/

namespace RingLib
open maths jcalc algebra _root_.RingLib.System

variable {π' : Type} {E : JEnv ℝ π'} {s s₂ : System ℝ π'}

theorem cache_joint (c : SameButCache s s₂) (q : List ℝ) (i : Nat) : jointT E s₂ q i = jointT E s q i := by
  rw [c.rest]
  rfl

/-- what forward kinematics fills in does not depend on what was there -/
theorem cache_filled (c : SameButCache s s₂) (hdt : s₂.dt = s.dt) (q : List ℝ) : filled E s₂ q = filled E s q := by
  have hl : (filled E s₂ q).links = (filled E s q).links := by
    apply List.ext_getElem
    · simp [filled, c.len]
    · intro i h1 h2
      have k1 : i < s₂.links.length := by simpa [filled] using h1
      have k2 : i < s.links.length := by simpa [filled] using h2
      obtain ⟨r1, r2, r3, r4⟩ := c.row i k2 k1
      simp [filled, r1, r2, r3, r4, cache_joint c]
  have hr : filled E s₂ q = { s with links := (filled E s₂ q).links, dt := s₂.dt } := by
    conv_lhs => unfold filled
    rw [c.rest]
    rfl
  rw [hr, hl, hdt]
  rfl

theorem cache_pose (c : SameButCache s s₂) (h : s.WF E.toEnv) (q : List ℝ) {i : Nat} (hi : i < s.link_parents.length) :
    fkPose E s₂ q i = fkPose E s q i := by
  have hp : s₂.link_parents = s.link_parents := by rw [c.rest]
  induction i using Nat.strong_induction_on with
  | _ i ih =>
    have t2 := (h.topo i hi).2
    have k : i < s.links.length := by rw [h.links_len]; exact hi
    have k₂ : i < s₂.links.length := by rw [c.len]; exact k
    have e₁ : fkPose E s q i = _ := treeVal_eq h.topo _ _ i hi
    have e₂ : fkPose E s₂ q i = _ := treeVal_eq (by rw [hp]; exact h.topo) _ _ i (by rw [hp]; exact hi)
    have f₁ : treeVal s.link_parents Transform.zero _ = fkPose E s q := rfl
    have f₂ : treeVal s₂.link_parents Transform.zero _ = fkPose E s₂ q := rfl
    rw [f₁] at e₁
    rw [f₂] at e₂
    rw [e₁, e₂, cache_joint c, List.getElem?_eq_getElem k, List.getElem?_eq_getElem k₂]
    simp only [Option.map_some, Option.getD_some, hp, (c.row i k k₂).1]
    congr 1
    unfold parentVal
    by_cases h0 : 0 ≤ s.link_parents[i]
    · rw [if_pos h0, if_pos h0, ih _ (by omega) (by omega)]
    · rw [if_neg h0, if_neg h0]

theorem cache_fk (hE : E.Std) (h : s.Simulable E) (c : SameButCache s s₂) (hdt : s₂.dt = s.dt) {st : State ℝ}
    (hq : st.q.length = (s.link_types.map (wOf E.qw)).sum) : s₂.forward_kinematics E st = s.forward_kinematics E st := by
  have hty : s₂.link_types = s.link_types := by rw [c.rest]
  have hpa : s₂.link_parents = s.link_parents := by rw [c.rest]
  rw [fk_filled hE h hq, fk_filled hE (Simulable.of_same h c) (by rw [hty]; exact hq), cache_filled c hdt, hpa]
  congr 3
  apply List.map_congr_left
  intro i hi
  exact cache_pose c h.wf st.q (List.mem_range.1 hi)

theorem cache_step_loop (hE : E.Std) (h : s.Simulable E) (c : SameButCache s s₂) (hdt : s₂.dt = s.dt) {st : State ℝ}
    (hq : st.q.length = (s.link_types.map (wOf E.qw)).sum) (tau : List ℝ) (n : Nat) :
    step_loop E tau n s₂ st = step_loop E tau n s st := by
  cases n with
  | zero => rfl
  | succ n =>
    unfold step_loop
    rw [cache_fk hE h c hdt hq]

/-- C115: what is stored in `transform` and `transform2` of the links when a step begins makes no difference, and neither
do the poses in the state. -/
theorem C115_cache (hE : E.Std) (h : s.Simulable E) (c : SameButCache s s₂) (hdt : s₂.dt = s.dt) {st : State ℝ}
    (hq : st.q.length = (s.link_types.map (wOf E.qw)).sum) (taus : Option (List ℝ)) (n : Nat) (x : List (Transform ℝ)) :
    step E s₂ { st with x := x } taus n = step E s st taus n := by
  have hty : s₂.link_types = s.link_types := by rw [c.rest]
  have same : ∀ z : System ℝ π', SameButCache z { z with dt := z.dt / n } := fun z =>
    ⟨rfl, rfl, fun i h1 h2 => ⟨rfl, rfl, rfl, rfl⟩⟩
  have hloop : ∀ tau, step_loop E tau n { s₂ with dt := s₂.dt / n } { st with x := x } =
      step_loop E tau n { s with dt := s.dt / n } { st with x := x } := fun tau =>
    cache_step_loop (s := { s with dt := s.dt / n }) (s₂ := { s₂ with dt := s₂.dt / n }) hE
      (Simulable.of_same h (same s)) ⟨by rw [c.rest], c.len, c.row⟩ (by rw [hdt]) (st := { st with x := x }) hq tau n
  have hx : n ≠ 0 → ∀ tau, step_loop E tau n { s with dt := s.dt / n } { st with x := x } =
      step_loop E tau n { s with dt := s.dt / n } st := by
    intro h0 tau
    cases n with
    | zero => exact absurd rfl h0
    | succ n =>
      unfold step_loop
      unfold forward_kinematics
      rfl
  have e1 : s₂.q_size E.toEnv = s.q_size E.toEnv := by unfold q_size; rw [hty]
  have e2 : s₂.qd_size E.toEnv = s.qd_size E.toEnv := by unfold qd_size; rw [hty]
  have e3 : s₂.integration_method = s.integration_method := by rw [c.rest]
  unfold step
  simp only [hloop]
  simp only [e1, e2, e3]
  by_cases h0 : n = 0
  · simp only [h0, if_true]
  · simp only [h0, if_false, hx h0]

/-- a loop of `a + b` rounds -/
theorem step_loop_add (hE : E.Std) {tau : List ℝ} (a b : Nat) : ∀ {s : System ℝ π'}, s.Simulable E → |s.dt| < 1e8 →
    ∀ {st : State ℝ}, st.q.length = (s.link_types.map (wOf E.qw)).sum →
    st.qd.length = (s.link_types.map (wOf E.dw)).sum → tau.length = st.qd.length → s.UnitQ E st.q →
    step_loop E tau (a + b) s st = step_loop E tau a s st >>= step_loop E tau b s := by
  induction a with
  | zero =>
    intro s _ _ st _ _ _ _
    rw [Nat.zero_add]
    rfl
  | succ a ih =>
    intro s h hdt st hq hqd htau hu
    obtain ⟨s', x, hfk, same, hsim, hdyn, hdt'⟩ := fk_simulable hE h hq hu
    have e1 : s'.link_types = s.link_types := by rw [same.rest]
    have hu' : ∀ q, s'.UnitQ E q ↔ s.UnitQ E q := by
      intro q
      rw [same.rest]
      rfl
    obtain ⟨qdd, st1, _, _, hst, l1, l2, hu1, _⟩ := C28_semi_implicit hE hdyn hsim.builtin
      hsim.nonempty (st := { st with x := x }) (tau := tau) (by rw [e1]; exact hq)
      (by rw [e1]; exact hqd) htau ((hu' _).2 hu) (by rw [hdt']; exact hdt)
    have hq1 : st1.q.length = (s'.link_types.map (wOf E.qw)).sum := by rw [e1, l1]; exact hq
    have hd1 : st1.qd.length = (s'.link_types.map (wOf E.dw)).sum := by rw [e1, l2]; exact hqd
    have key := ih hsim (by rw [hdt']; exact hdt) hq1 hd1 (htau.trans l2.symm) hu1
    obtain ⟨st2, h2, l3, l4, hu2⟩ := step_loop_ok hE (tau := tau) a hsim (by rw [hdt']; exact hdt) (st := st1) hq1 hd1
      (htau.trans l2.symm) hu1
    have one : ∀ k, step_loop E tau (k + 1) s st = step_loop E tau k s' st1 := by
      intro k
      conv_lhs => unfold step_loop
      rw [hfk]
      simp only [ok_bind]
      rw [hst]
      rfl
    rw [show a + 1 + b = (a + b) + 1 by omega, one, one, key, h2]
    simp only [ok_bind]
    refine cache_step_loop hE h same hdt' ?_ tau b
    rw [l3, l1]
    exact hq

/-- `step` for arguments of the right sizes -/
theorem step_eq_loop (h : s.Simulable E) {st : State ℝ} {taus : Option (List ℝ)} {n : Nat} (hn : 0 < n)
    (hq : st.q.length = (s.link_types.map (wOf E.qw)).sum) (hqd : st.qd.length = (s.link_types.map (wOf E.dw)).sum)
    (hl : (taus.getD (st.qd.map fun _ => 0)).length = st.qd.length) :
    step E s st taus n = step_loop E (taus.getD (st.qd.map fun _ => 0)) n { s with dt := s.dt / n } st := by
  unfold step
  simp only [q_size, qd_size, sumWidths_known (fun t ht => (h.wf.known t ht).1),
    sumWidths_known (fun t ht => (h.wf.known t ht).2), ok_bind]
  rw [pyAssert_true (p := _) hq.symm]
  simp only [ok_bind]
  rw [pyAssert_true (p := _) ⟨hqd.symm, hl.symm⟩]
  simp only [ok_bind]
  rw [pyAssert_true (p := _) h.method]
  simp only [ok_bind]
  rw [if_neg (by omega)]

/-- C115: one step with `m * n` substeps is `m` steps of an `m`-th of the step size with `n` substeps each, under the same
torques. (`n = 1`: substeps are steps.) -/
theorem C115_split (hE : E.Std) (h : s.Simulable E) (hdt : |s.dt| < 1e8) {m n : Nat} (hm : 0 < m) (hn : 0 < n)
    {st : State ℝ} {taus : Option (List ℝ)} (hq : st.q.length = (s.link_types.map (wOf E.qw)).sum)
    (hqd : st.qd.length = (s.link_types.map (wOf E.dw)).sum) (htau : ∀ t ∈ taus, t.length = st.qd.length)
    (hu : s.UnitQ E st.q) :
    ∃ z, step E s st taus (m * n) = .ok z ∧
      simulate E { s with dt := s.dt / m } n st (List.replicate m taus) = .ok z := by
  have same : ∀ d : ℝ, SameButCache s { s with dt := d } := fun d =>
    ⟨rfl, rfl, fun i h1 h2 => ⟨rfl, rfl, rfl, rfl⟩⟩
  have hsim : ∀ d : ℝ, ({ s with dt := d } : System ℝ π').Simulable E := fun d => Simulable.of_same h (same d)
  have hmn : 0 < m * n := Nat.mul_pos hm hn
  have len : ∀ st : State ℝ, (∀ t ∈ taus, t.length = st.qd.length) →
      (taus.getD (st.qd.map fun _ => 0)).length = st.qd.length := by
    intro st h
    cases taus with
    | none => simp
    | some t => exact h t rfl
  have small : |s.dt / (m * n : Nat)| < 1e8 := by
    rw [abs_div, Nat.abs_cast]
    refine lt_of_le_of_lt (div_le_self (abs_nonneg _) ?_) hdt
    exact_mod_cast hmn
  obtain ⟨z, hz, _⟩ := C28_step hE h hdt hmn hq hqd htau hu
  refine ⟨z, hz, ?_⟩
  rw [step_eq_loop h hmn hq hqd (len st htau)] at hz
  -- the torques stay the same
  set tau := taus.getD (st.qd.map fun _ => 0) with htaudef
  have hd : s.dt / (m : ℝ) / (n : ℝ) = s.dt / (m * n : Nat) := by
    rw [div_div, Nat.cast_mul]
  have main : ∀ k, ∀ y : State ℝ, y.q.length = st.q.length → y.qd.length = st.qd.length → s.UnitQ E y.q →
      simulate E { s with dt := s.dt / m } n y (List.replicate k taus) =
        step_loop E tau (k * n) { s with dt := s.dt / (m * n : Nat) } y := by
    intro k
    induction k with
    | zero =>
      intro y _ _ _
      rw [Nat.zero_mul]
      rfl
    | succ k ih =>
      intro y l1 l2 hy
      have ht : taus.getD (y.qd.map fun _ => 0) = tau := by
        rw [htaudef]
        congr 1
        simp [l2]
      have hty : tau.length = y.qd.length := by rw [l2]; exact len st htau
      have hq' : y.q.length = (s.link_types.map (wOf E.qw)).sum := l1.trans hq
      have hqd' : y.qd.length = (s.link_types.map (wOf E.dw)).sum := l2.trans hqd
      rw [List.replicate_succ, show (k + 1) * n = n + k * n by ring,
        step_loop_add hE n (k * n) (hsim _) small hq' hqd' hty hy]
      unfold simulate
      have hs := step_eq_loop (s := { s with dt := s.dt / m }) (taus := taus) (hsim _) hn hq' hqd' (by rw [ht]; exact hty)
      dsimp only at hs
      rw [ht, hd] at hs
      rw [hs]
      obtain ⟨y', e, l3, l4, hy'⟩ := step_loop_ok hE (tau := tau) n (hsim (s.dt / (m * n : Nat))) small (st := y) hq' hqd'
        hty hy
      rw [e]
      simp only [ok_bind]
      exact ih y' (l3.trans l1) (l4.trans l2) hy'
  rw [main m st rfl rfl hu]
  exact hz

/-- C115: the poses in the state after a step with `n + 1` substeps are those of the configuration before the last
substep: they lag one substep behind. -/
theorem C115_lag (hE : E.Std) (h : s.Simulable E) (hdt : |s.dt| < 1e8) {n : Nat} {st z : State ℝ}
    {taus : Option (List ℝ)} (hq : st.q.length = (s.link_types.map (wOf E.qw)).sum)
    (hqd : st.qd.length = (s.link_types.map (wOf E.dw)).sum) (htau : ∀ t ∈ taus, t.length = st.qd.length)
    (hu : s.UnitQ E st.q) (hz : step E s st taus (n + 1) = .ok z) :
    ∃ y f, simulate E { s with dt := s.dt / (n + 1 : Nat) } 1 st (List.replicate n taus) = .ok y ∧
      s.forward_kinematics_transforms E y.q = .ok (z.x, f) := by
  have same : ∀ d : ℝ, SameButCache s { s with dt := d } := fun d =>
    ⟨rfl, rfl, fun i h1 h2 => ⟨rfl, rfl, rfl, rfl⟩⟩
  have hsim : ∀ d : ℝ, ({ s with dt := d } : System ℝ π').Simulable E := fun d => Simulable.of_same h (same d)
  obtain ⟨z', e1, e2⟩ := C115_split hE h hdt (m := n + 1) (n := 1) (by omega) (by omega) hq hqd htau hu
  rw [Nat.mul_one, hz] at e1
  obtain rfl : z = z' := (Except.ok.injEq _ _).mp e1
  set s' : System ℝ π' := { s with dt := s.dt / (n + 1 : Nat) } with hs'
  have small : |s'.dt| < 1e8 := by
    change |s.dt / (n + 1 : Nat)| < 1e8
    rw [abs_div, Nat.abs_cast]
    refine lt_of_le_of_lt (div_le_self (abs_nonneg _) ?_) hdt
    exact_mod_cast Nat.succ_pos n
  -- a simulation of `k + 1` steps ends with one step
  have last : ∀ k (st : State ℝ), st.q.length = (s.link_types.map (wOf E.qw)).sum →
      st.qd.length = (s.link_types.map (wOf E.dw)).sum → (∀ t ∈ taus, t.length = st.qd.length) → s.UnitQ E st.q →
      simulate E s' 1 st (List.replicate (k + 1) taus) = .ok z →
      ∃ y, simulate E s' 1 st (List.replicate k taus) = .ok y ∧ step E s' y taus 1 = .ok z ∧
        y.q.length = (s.link_types.map (wOf E.qw)).sum ∧ y.qd.length = (s.link_types.map (wOf E.dw)).sum ∧
        (∀ t ∈ taus, t.length = y.qd.length) := by
    intro k
    induction k with
    | zero =>
      intro st hq hqd ht _ e
      refine ⟨st, rfl, ?_, hq, hqd, ht⟩
      have e : (step E s' st taus 1 >>= fun y => pure y) = .ok z := e
      cases hc : step E s' st taus 1 with
      | error err => rw [hc] at e; cases e
      | ok y => rw [hc] at e; exact e
    | succ k ih =>
      intro st hq hqd ht hu e
      obtain ⟨y, hy, l1, l2, hu'⟩ := C28_step hE (hsim _) small (n := 1) (by omega) hq hqd ht hu
      rw [List.replicate_succ] at e ⊢
      unfold simulate at e ⊢
      rw [hy] at e ⊢
      simp only [ok_bind] at e ⊢
      exact ih y (l1.trans hq) (l2.trans hqd) (fun t h => (ht t h).trans l2.symm) hu' e
  obtain ⟨y, h1, h2, h3, h4, h5⟩ := last n st hq hqd htau hu e2
  have hl : (taus.getD (y.qd.map fun _ => 0)).length = y.qd.length := by
    cases taus with
    | none => simp
    | some t => exact h5 t rfl
  refine ⟨y, filled E s y.q, h1, ?_⟩
  have hs := step_eq_loop (s := s') (taus := taus) (n := 1) (hsim _) (by omega) h3 h4 hl
  rw [hs] at h2
  have hf := fk_filled (s := { s' with dt := s'.dt / (1 : Nat) }) hE (hsim _) (st := y) h3
  unfold step_loop at h2
  rw [hf] at h2
  simp only [ok_bind] at h2
  have hx : z.x = (List.range s.link_parents.length).map (fkPose E s y.q) := by
    revert h2
    generalize hA : _semi_implicit_euler_integration E _ _ _ = A
    intro h2
    cases A with
    | error e => cases h2
    | ok w =>
      have := (Except.ok.injEq _ _).mp h2
      subst this
      rw [euler_x hA]
      rfl
  rw [hx]
  exact fk_eq h.wf (h.jointed hE) h3

/-! ### examples -/

/-- the double pendulum with nonsense in the cached transforms and the poses -/
example (n : Nat) (f g : Transform ℝ) : step stdEnv
    { pendSys with links := pendSys.links.map fun l => { l with transform := f, transform2 := g } }
    ⟨[1, 2], [7, 3], [g]⟩ (some [5, 0]) n = step stdEnv pendSys ⟨[1, 2], [7, 3], []⟩ (some [5, 0]) n := by
  refine C115_cache (s₂ := { pendSys with links := pendSys.links.map fun l => { l with transform := f, transform2 := g } })
    stdEnv_std pendSys_simulable ⟨rfl, by simp, ?_⟩ rfl (st := ⟨[1, 2], [7, 3], []⟩) ?_ (some [5, 0]) n [g]
  · intro i h1 h2
    simp
  · rw [pendSys_widths.1]; rfl

/-- the double pendulum: the poses after a step with one substep are those from before the step -/
example {z : State ℝ} (hz : step stdEnv pendSys ⟨[1, 2], [7, 3], []⟩ none 1 = .ok z) :
    ∃ f, pendSys.forward_kinematics_transforms stdEnv [1, 2] = .ok (z.x, f) := by
  obtain ⟨y, f, h1, h2⟩ := C115_lag (n := 0) stdEnv_std pendSys_simulable (by
      change |(1 / 100 : ℝ)| < 1e8
      rw [abs_of_pos (by norm_num)]
      norm_num) (by rw [pendSys_widths.1]; rfl) (by rw [pendSys_widths.2]; rfl) (by rintro t ⟨⟩) (pendSys_unitQ _) hz
  cases h1
  exact ⟨f, h2⟩

/-- the double pendulum: six substeps are three steps with two substeps -/
example : ∃ z, step stdEnv pendSys ⟨[1, 2], [7, 3], []⟩ (some [5, 0]) (3 * 2) = .ok z ∧
    simulate stdEnv { pendSys with dt := pendSys.dt / (3 : Nat) } 2 ⟨[1, 2], [7, 3], []⟩
      (List.replicate 3 (some [5, 0])) = .ok z := by
  refine C115_split stdEnv_std pendSys_simulable ?_ (by norm_num) (by norm_num) (st := ⟨[1, 2], [7, 3], []⟩) ?_ ?_ ?_
    (pendSys_unitQ _)
  · change |(1 / 100 : ℝ)| < 1e8
    rw [abs_of_pos (by norm_num)]
    norm_num
  · rw [pendSys_widths.1]; rfl
  · rw [pendSys_widths.2]; rfl
  · intro t ht
    cases ht
    rfl

end RingLib
