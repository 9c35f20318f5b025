import Verif.Model.MotionConfig
import Verif.Props.Random
import Verif.Lemmas.Scan

/-!
# C34: joining motion configurations
-/

namespace RingLib
open jcalc random System

/-- `t` lies in interval number `i`: exactly the first `i` boundaries are not later than `t`. -/
def InInterval (boundaries : List ℝ) (t : ℝ) (i : Nat) : Prop :=
  i ≤ boundaries.length ∧ ∀ j, ∀ h : j < boundaries.length, boundaries[j] ≤ t ↔ j < i

theorem find_interval_eq (boundaries : List ℝ) (t : ℝ) (i : Nat) (h : InInterval boundaries t i) :
    _find_interval t boundaries = i := by
  unfold _find_interval
  induction boundaries generalizing i with
  | nil =>
    have := h.1
    simp at this
    simp [this]
  | cons b bs ih =>
    obtain ⟨h1, h2⟩ := h
    have hb := h2 0 (by simp)
    simp only [List.getElem_cons_zero] at hb
    simp only [List.map_cons, List.sum_cons]
    cases i with
    | zero =>
      have : ¬ t ≥ b := by simpa using hb
      rw [if_neg this, ih 0 ⟨by simp, fun j hj => ?_⟩]
      have := h2 (j + 1) (by simpa using hj)
      simpa using this
    | succ i =>
      have : t ≥ b := hb.mpr (by omega)
      rw [if_pos this, ih i ⟨by simpa using h1, fun j hj => ?_⟩]
      · omega
      have := h2 (j + 1) (by simpa using hj)
      simpa using this

/-- Sorted boundaries cut the time axis: every time lies in exactly one interval. -/
theorem existsUnique_interval (boundaries : List ℝ) (hs : boundaries.Pairwise (· ≤ ·)) (t : ℝ) :
    ∃! i, InInterval boundaries t i := by
  have huniq : ∀ i j, InInterval boundaries t i → InInterval boundaries t j → i = j := by
    intro i j hi hj
    rw [← find_interval_eq _ _ _ hi, ← find_interval_eq _ _ _ hj]
  have hex : ∃ i, InInterval boundaries t i := by
    clear huniq
    induction boundaries with
    | nil => exact ⟨0, by simp, by simp⟩
    | cons b bs ih =>
      obtain ⟨i, h1, h2⟩ := ih (List.pairwise_cons.mp hs).2
      by_cases hb : b ≤ t
      · refine ⟨i + 1, by simpa using h1, ?_⟩
        intro j hj
        cases j with
        | zero => simpa using hb
        | succ j => simpa using h2 j (by simpa using hj)
      · refine ⟨0, by simp, ?_⟩
        intro j hj
        cases j with
        | zero => simpa using hb
        | succ j =>
          have := (List.pairwise_cons.mp hs).1 (bs[j]'(by simpa using hj)) (List.getElem_mem _)
          simp only [List.getElem_cons_succ, Nat.not_lt_zero, iff_false, not_le]
          push Not at hb
          linarith
  obtain ⟨i, hi⟩ := hex
  exact ⟨i, hi, fun j hj => huniq j i hj hi⟩

/-- **C34.** The two tables and the dictionary of overwrites are all there is in a configuration. -/
theorem C34_fields_complete (c d : MotionConfig) (h1 : ∀ f ∈ plainFields, f c = f d)
    (h2 : ∀ f ∈ timeDependentFields, f.get c = f.get d)
    (h3 : c.joint_type_specific_overwrites = d.joint_type_specific_overwrites) : c = d := by
  obtain ⟨⟩ := c
  obtain ⟨⟩ := d
  simp only [plainFields, timeDependentFields, List.forall_mem_cons, FVal.num.injEq, FVal.int.injEq,
    FVal.bool.injEq, FVal.interp.injEq, FVal.rom.injEq, Option.some.injEq] at h1 h2 h3
  simp_all

/-- every time-dependent field is a number, not a function -/
def NumberFields (c : MotionConfig) : Prop := ∀ f ∈ timeDependentFields, ∃ x, f.get c = .const x

theorem new_value_ok (configs : List MotionConfig) (boundaries : List ℝ) (get : MotionConfig → TDF)
    (h : ∀ c ∈ configs, ∃ x, get c = .const x) :
    new_value configs boundaries get = .ok (.fn fun t =>
      jaxGet 0 (configs.map fun c => (get c).at t) (_find_interval t boundaries)) := by
  have key : ∀ t, (configs.mapM fun c => (get c).number) = .ok (configs.map fun c => (get c).at t) := by
    intro t
    induction configs with
    | nil => rfl
    | cons c cs ih =>
      obtain ⟨x, hx⟩ := h c (by simp)
      rw [List.mapM_cons, ih fun c hc => h c (by simp [hc]), hx, List.map_cons, hx]
      rfl
  unfold new_value
  rw [key 0]
  have : ∀ t, (configs.map fun c => (get c).at t) = configs.map fun c => (get c).at 0 := by
    intro t
    apply List.map_congr_left
    intro c hc
    obtain ⟨x, hx⟩ := h c hc
    rw [hx]
    rfl
  simp only [this]
  rfl

theorem new_fields_ok (configs : List MotionConfig) (boundaries : List ℝ) (c : MotionConfig)
    (h : ∀ c ∈ configs, NumberFields c) :
    ∃ d, new_fields configs boundaries timeDependentFields c = .ok d ∧
      (∀ f ∈ timeDependentFields, ∀ t, (f.get d).at t =
        jaxGet 0 (configs.map fun c => (f.get c).at t) (_find_interval t boundaries)) ∧
      (∀ f ∈ plainFields, f d = f c) ∧
      d.joint_type_specific_overwrites = c.joint_type_specific_overwrites := by
  have hv : ∀ f ∈ timeDependentFields, new_value configs boundaries f.get = .ok (.fn fun t =>
      jaxGet 0 (configs.map fun c => (f.get c).at t) (_find_interval t boundaries)) :=
    fun f hf => new_value_ok _ _ _ fun c hc => h c hc f hf
  have hstep : ∀ fs : List TDField, (∀ f ∈ fs, f ∈ timeDependentFields) → ∀ c,
      new_fields configs boundaries fs c = .ok (fs.foldl (fun c f => f.set (.fn fun t =>
        jaxGet 0 (configs.map fun c => (f.get c).at t) (_find_interval t boundaries)) c) c) := by
    intro fs hfs
    induction fs with
    | nil => intro c; rfl
    | cons f fs ih =>
      intro c
      rw [new_fields, hv f (hfs f (by simp))]
      exact ih (fun g hg => hfs g (by simp [hg])) _
  refine ⟨_, hstep _ (fun _ h => h) c, ?_, ?_, rfl⟩
  · simp only [timeDependentFields, List.forall_mem_cons, List.foldl_cons, List.foldl_nil]
    refine ⟨?_, ?_, ?_, ?_, ?_, ?_, ?_, ?_, ?_, ?_, ?_, ?_, ?_, ?_, ?_, ?_, ?_, ?_, ?_, ?_, ?_, ?_, ?_,
      ?_, ?_, ?_⟩
    on_goal 26 => intro f hf; simp at hf
    all_goals exact fun t => rfl
  · simp only [plainFields, List.forall_mem_cons]
    refine ⟨rfl, rfl, rfl, rfl, rfl, rfl, rfl, rfl, rfl, rfl, rfl, rfl, rfl, rfl, rfl, rfl, rfl, rfl,
      rfl, rfl, rfl, rfl, ?_⟩
    intro f hf; simp at hf

theorem forM_checks_ok (configs : List MotionConfig) (fs : List (MotionConfig → FVal))
    (h : ∀ f ∈ fs, check_field configs f = .ok ()) : fs.forM (check_field configs) = .ok () := by
  induction fs with
  | nil => rfl
  | cons f fs ih =>
    rw [List.forM_eq_forM, List.forM_cons, h f (by simp)]
    exact ih fun g hg => h g (by simp [hg])

theorem forM_checks_error (configs : List MotionConfig) (fs : List (MotionConfig → FVal))
    (h : ∃ f ∈ fs, check_field configs f ≠ .ok ()) :
    ∃ e, fs.forM (check_field configs) = .error e ∧ ∃ f ∈ fs, check_field configs f = .error e := by
  induction fs with
  | nil => simp at h
  | cons f fs ih =>
    cases hf : check_field configs f with
    | error e => exact ⟨e, by rw [List.forM_eq_forM, List.forM_cons, hf]; rfl, f, by simp, hf⟩
    | ok u =>
      obtain ⟨g, hg, hg'⟩ := h
      rcases List.mem_cons.mp hg with rfl | hg
      · rw [hf] at hg'; exact absurd rfl hg'
      · obtain ⟨e, he, g', hg', he'⟩ := ih ⟨g, hg, hg'⟩
        refine ⟨e, ?_, g', by simp [hg'], he'⟩
        rw [List.forM_eq_forM, List.forM_cons, hf]
        exact he

theorem check_field_dict (configs : List MotionConfig) (hc : configs ≠ []) :
    check_field configs (fun c => .dict c.joint_type_specific_overwrites) = .error .type := by
  unfold check_field
  rw [if_neg]
  obtain ⟨c, cs, rfl⟩ := List.exists_cons_of_ne_nil hc
  simp [FVal.hashable]

theorem plain_hashable (c : MotionConfig) : ∀ f ∈ plainFields, (f c).hashable = true := by
  simp [plainFields, FVal.hashable]

theorem check_field_ok_iff (configs : List MotionConfig) (hc : configs ≠ [])
    (f : MotionConfig → FVal) (hf : f ∈ plainFields) :
    check_field configs f = .ok () ↔ ∀ c ∈ configs, ∀ d ∈ configs, f c = f d := by
  classical
  unfold check_field
  rw [if_pos (by simpa using fun c _ => plain_hashable c f hf)]
  constructor
  · intro h c hcc d hd
    by_contra hne
    rw [pyAssert_false] at h
    · cases h
    rintro ⟨v, -, hv⟩
    rw [hv _ (List.mem_map_of_mem hcc), hv _ (List.mem_map_of_mem hd)] at hne
    exact hne rfl
  · intro h
    rw [pyAssert_true]
    obtain ⟨c, hcc⟩ := List.exists_mem_of_ne_nil _ hc
    refine ⟨f c, List.mem_map_of_mem hcc, ?_⟩
    intro w hw
    obtain ⟨d, hd, rfl⟩ := List.mem_map.mp hw
    exact h d hd c hcc

theorem check_field_error (configs : List MotionConfig) (f : MotionConfig → FVal)
    (hf : f ∈ plainFields) (h : check_field configs f ≠ .ok ()) :
    check_field configs f = .error .assertion := by
  classical
  unfold check_field at h ⊢
  rw [if_pos (by simpa using fun c _ => plain_hashable c f hf)] at h ⊢
  by_cases hp : ∃ v, v ∈ configs.map f ∧ ∀ w ∈ configs.map f, w = v
  · exact absurd (pyAssert_true hp) h
  · exact pyAssert_false hp

/-- **C34, the part that does not hold.** `join_motionconfigs` never returns: putting the dictionary
`joint_type_specific_overwrites` into a `set` raises `TypeError`, whatever is joined (unless another
check fails before). -/
theorem C34_join_fails (configs : List MotionConfig) (boundaries : List ℝ) :
    ∃ e, join_motionconfigs configs boundaries = .error e := by
  unfold join_motionconfigs join_on
  by_cases hl : configs.length = boundaries.length + 1
  · rw [pyAssert_true hl]
    have hc : configs ≠ [] := by rintro rfl; simp at hl
    obtain ⟨e, he, -⟩ := forM_checks_error configs timeIndependentFields
      ⟨fun c => .dict c.joint_type_specific_overwrites, by simp [timeIndependentFields], by rw [check_field_dict configs hc]; simp⟩
    refine ⟨e, ?_⟩
    rw [ok_bind, he]
    rfl
  · exact ⟨.assertion, by rw [pyAssert_false hl]; rfl⟩

/-- **C34.** Joining even one configuration with itself raises `TypeError`. -/
theorem C34_join_self_fails (c : MotionConfig) :
    join_motionconfigs [c, c] [0] = .error .type := by
  unfold join_motionconfigs join_on
  rw [pyAssert_true (by simp), ok_bind]
  obtain ⟨e, he, f, hf, hfe⟩ := forM_checks_error [c, c] timeIndependentFields
    ⟨fun c => .dict c.joint_type_specific_overwrites, by simp [timeIndependentFields], by rw [check_field_dict _ (by simp)]; simp⟩
  have : e = .type := by
    rcases List.mem_append.mp hf with hf | hf
    · rw [(check_field_ok_iff [c, c] (by simp) f hf).mpr (by simp)] at hfe
      cases hfe
    · rw [List.mem_singleton.mp hf, check_field_dict _ (by simp)] at hfe
      cases hfe
      rfl
  rw [he, this]
  rfl

/-- **C34 (partial).** Were the dictionary not compared, the joined configuration would be right: at
time `t` every time-dependent field has the value of the configuration whose interval contains `t`
(a boundary belongs to the later interval), the other fields are the common ones. -/
theorem C34_switch_partial (configs : List MotionConfig) (boundaries : List ℝ)
    (hl : configs.length = boundaries.length + 1) (hn : ∀ c ∈ configs, NumberFields c)
    (ha : ∀ c ∈ configs, ∀ d ∈ configs, ∀ f ∈ plainFields, f c = f d) :
    ∃ c, join_on plainFields configs boundaries = .ok c ∧
      (∀ t i, InInterval boundaries t i → ∀ hi : i < configs.length,
        ∀ f ∈ timeDependentFields, (f.get c).at t = (f.get configs[i]).at t) ∧
      ∀ d ∈ configs, ∀ f ∈ plainFields, f c = f d := by
  unfold join_on
  have hc : configs ≠ [] := by rintro rfl; simp at hl
  rw [pyAssert_true hl, ok_bind, forM_checks_ok _ _ fun f hf =>
    (check_field_ok_iff configs hc f hf).mpr fun c hcc d hd => ha c hcc d hd f hf, ok_bind]
  obtain ⟨c0, cs, rfl⟩ := List.exists_cons_of_ne_nil hc
  obtain ⟨d, hd, h1, h2, -⟩ := new_fields_ok (c0 :: cs) boundaries c0 hn
  refine ⟨d, hd, ?_, ?_⟩
  · intro t i hti hi f hf
    rw [h1 f hf t, find_interval_eq _ _ _ hti, jaxGet_nat _ _ (by simpa using hi), List.getElem_map]
  · intro e he f hf
    rw [h2 f hf]
    exact ha _ (by simp) e he f hf

/-- **C34.** Configurations that disagree in a time-independent field are rejected. -/
theorem C34_rejects (configs : List MotionConfig) (boundaries : List ℝ) (c d : MotionConfig)
    (hc : c ∈ configs) (hd : d ∈ configs) (f : MotionConfig → FVal) (hf : f ∈ plainFields)
    (hne : f c ≠ f d) :
    join_on plainFields configs boundaries = .error .assertion ∧
      join_motionconfigs configs boundaries = .error .assertion := by
  have hnn : configs ≠ [] := by rintro rfl; simp at hc
  have hbad : ∃ f ∈ plainFields, check_field configs f ≠ .ok () :=
    ⟨f, hf, fun h => hne ((check_field_ok_iff configs hnn f hf).mp h c hc d hd)⟩
  obtain ⟨e, he, g, hg, hge⟩ := forM_checks_error configs plainFields hbad
  have hee : e = .assertion := by
    rw [check_field_error configs g hg (by rw [hge]; simp)] at hge
    cases hge
    rfl
  rw [hee] at he
  have he2 : timeIndependentFields.forM (check_field configs) = .error .assertion := by
    unfold timeIndependentFields
    rw [List.forM_eq_forM] at he ⊢
    rw [List.forM_append, he]
    rfl
  unfold join_motionconfigs join_on
  by_cases hl : configs.length = boundaries.length + 1
  · rw [pyAssert_true hl, ok_bind, he, he2]
    exact ⟨rfl, rfl⟩
  · rw [pyAssert_false hl]
    exact ⟨rfl, rfl⟩

theorem standard_numberFields : NumberFields {} := by
  simp only [NumberFields, timeDependentFields, List.forall_mem_cons]
  refine ⟨⟨_, rfl⟩, ⟨_, rfl⟩, ⟨_, rfl⟩, ⟨_, rfl⟩, ⟨_, rfl⟩, ⟨_, rfl⟩, ⟨_, rfl⟩, ⟨_, rfl⟩, ⟨_, rfl⟩,
    ⟨_, rfl⟩, ⟨_, rfl⟩, ⟨_, rfl⟩, ⟨_, rfl⟩, ⟨_, rfl⟩, ⟨_, rfl⟩, ⟨_, rfl⟩, ⟨_, rfl⟩, ⟨_, rfl⟩, ⟨_, rfl⟩,
    ⟨_, rfl⟩, ⟨_, rfl⟩, ⟨_, rfl⟩, ⟨_, rfl⟩, ⟨_, rfl⟩, ⟨_, rfl⟩, ?_⟩
  intro f hf
  simp at hf

/-- Two configurations with different top speeds, switched after ten seconds. -/
example : ∃ c, join_on plainFields [{}, { dang_max := .const 5 }] [10] = .ok c ∧
    c.dang_max.at 9 = 3 ∧ c.dang_max.at 10 = 5 ∧ c.T = 60 := by
  obtain ⟨c, hc, h1, h2⟩ := C34_switch_partial [{}, { dang_max := .const 5 }] [10] rfl (by
      intro c hc
      simp only [List.mem_cons, List.not_mem_nil, or_false] at hc
      rcases hc with rfl | rfl
      · exact standard_numberFields
      · simp only [NumberFields, timeDependentFields, List.forall_mem_cons]
        simp) (by
      intro c hc d hd f hf
      simp only [List.mem_cons, List.not_mem_nil, or_false] at hc hd
      simp only [plainFields, List.mem_cons, List.not_mem_nil, or_false] at hf
      rcases hc with rfl | rfl <;> rcases hd with rfl | rfl <;> (try rfl) <;>
        (rcases hf with rfl | rfl | rfl | rfl | rfl | rfl | rfl | rfl | rfl | rfl | rfl | rfl | rfl |
          rfl | rfl | rfl | rfl | rfl | rfl | rfl | rfl | rfl) <;> rfl)
  have hf : (⟨"dang_max", (·.dang_max), fun v c => { c with dang_max := v }⟩ : TDField) ∈ timeDependentFields := by
    simp [timeDependentFields]
  refine ⟨c, hc, ?_, ?_, ?_⟩
  · exact h1 9 0 ⟨by simp, by simp <;> norm_num⟩ (by simp) _ hf
  · exact h1 10 1 ⟨by simp, by simp⟩ (by simp) _ hf
  · have := h2 {} (by simp) (fun c => .num c.T) (by simp [plainFields])
    simpa using this

end RingLib
