import Verif.Model.Package
import Verif.Props.Registry
import Mathlib.Data.List.Infix

/-!
# C103: setting up the package again; C104: the number of host devices

C103 speaks about the state after any history of calls of `setup`, of which some may raise. C104 speaks about
the words of the environment variable, `Words`, which is stated without `split`.
-/

namespace RingLib.package
open RingLib.jcalc System
set_option linter.unusedSectionVars false

variable {α π χ ρ ν γ T I : Type}

/-! ## C103: specification -/

/-- the last value that is given -/
def lastGiven {β : Type} (l : List (Option β)) : Option β := l.reverse.findSome? id

/-- `w'` comes from `w` by calls of `setup`, of which `l` are those that did not raise -/
inductive After (w : World α π χ ρ ν γ T I) : List (Call α π χ ρ T I) → World α π χ ρ ν γ T I → Prop where
  | none : After w [] w
  | ok {l : List (Call α π χ ρ T I)} {w1 w2 : World α π χ ρ ν γ T I} (c : Call α π χ ρ T I) (h : After w l w1)
      (e : setup c w1 = (.ok (), w2)) : After w (l ++ [c]) w2
  | raised {l : List (Call α π χ ρ T I)} {w1 w2 : World α π χ ρ ν γ T I} (c : Call α π χ ρ T I) (err : PyErr)
      (h : After w l w1) (e : setup c w1 = (.error err, w2)) : After w l w2

/-- the joints of a call -/
def Call.joints (c : Call α π χ ρ T I) : List (JointReg α π χ ρ) :=
  [c.rr, c.rr_imp, c.rsaddle, c.suntay].filterMap id

/-- a joint that can be registered -/
def JointReg.Valid (j : JointReg α π χ ρ) : Prop :=
  j.name ≠ "default" ∧ j.model.motion.length = j.qd_width.getD j.q_width

/-! ## C103: proofs -/

theorem lastGiven_snoc {β : Type} (l : List (Option β)) (x : Option β) :
    lastGiven (l ++ [x]) = x.or (lastGiven l) := by
  rw [lastGiven, List.reverse_append, List.reverse_singleton, List.singleton_append, List.findSome?_cons]
  cases x <;> rfl

/-- the four registrations -/
def registrations (c : Call α π χ ρ T I) : Glob (Registry α π χ ρ ν γ) Unit := do
  registerIf c.rr
  registerIf c.rr_imp
  registerIf c.rsaddle
  registerIf c.suntay

theorem setup_run (c : Call α π χ ρ T I) (w : World α π χ ρ ν γ T I) :
    setup c w = match registrations c w.reg with
      | (.error e, r) => (.error e, { w with reg := r })
      | (.ok _, r) => (.ok (), ⟨r, c.train_timing_start.or (w.start.or (some c.time)),
          c.unique_id.or (w.uid.or (some c.hash))⟩) := by
  unfold setup registrations
  simp only [bind_run, liftReg]
  rcases h1 : registerIf c.rr w.reg with ⟨_ | _, r1⟩
  · rfl
  dsimp only
  rcases h2 : registerIf c.rr_imp r1 with ⟨_ | _, r2⟩
  · rfl
  dsimp only
  rcases h3 : registerIf c.rsaddle r2 with ⟨_ | _, r3⟩
  · rfl
  dsimp only
  rcases h4 : registerIf c.suntay r3 with ⟨_ | _, r4⟩
  · rfl
  dsimp only [Glob.modify]
  obtain ⟨r, s, u⟩ := w
  cases s <;> cases u <;> cases c.train_timing_start <;> cases c.unique_id <;> rfl

/-- C103: after any history of calls, the start of the training is the last one that was given, otherwise the one
from before, otherwise the time of the first call; the unique id alike. Calls that raise count for nothing. -/
theorem C103_history {w w' : World α π χ ρ ν γ T I} {l : List (Call α π χ ρ T I)} (h : After w l w') :
    w'.start = (lastGiven (l.map Call.train_timing_start)).or (w.start.or (l.head?.map Call.time)) ∧
    w'.uid = (lastGiven (l.map Call.unique_id)).or (w.uid.or (l.head?.map Call.hash)) := by
  induction h with
  | none =>
    constructor
    · cases w.start <;> rfl
    · cases w.uid <;> rfl
  | @raised l w1 w2 c err _ e ih =>
    rw [setup_run] at e
    split at e
    · rw [← (Prod.mk.inj e).2]; exact ih
    · cases (Prod.mk.inj e).1
  | @ok l w1 w2 c _ e ih =>
    rw [setup_run] at e
    split at e
    · cases (Prod.mk.inj e).1
    · rw [← (Prod.mk.inj e).2, ih.1, ih.2, List.map_append, List.map_append, List.map_singleton, List.map_singleton,
        lastGiven_snoc, lastGiven_snoc]
      dsimp only
      constructor
      · cases c.train_timing_start with
        | some t => rfl
        | none =>
          rw [Option.none_or, Option.none_or]
          cases lastGiven (l.map Call.train_timing_start) with
          | some t => rfl
          | none =>
            cases w.start with
            | some t => rfl
            | none => cases l <;> rfl
      · cases c.unique_id with
        | some t => rfl
        | none =>
          rw [Option.none_or, Option.none_or]
          cases lastGiven (l.map Call.unique_id) with
          | some t => rfl
          | none =>
            cases w.uid with
            | some t => rfl
            | none => cases l <;> rfl

theorem registerIf_run {r : Registry α π χ ρ ν γ} (hr : r.Consistent) (j : Option (JointReg α π χ ρ))
    (hj : ∀ x ∈ j, x.Valid) :
    ∃ r', registerIf j r = (.ok (), r') ∧ r'.Consistent ∧
      (∀ x ∈ j, r'.Knows x.name x.q_width (x.qd_width.getD x.q_width) x.model) ∧
      (∀ t, (∀ x ∈ j, t ≠ x.name) → r.SameAt r' t) ∧ r'.changes = r.changes ∧ r'.P_gains = r.P_gains := by
  cases j with
  | none => exact ⟨r, rfl, hr, by simp, fun t _ => .refl _ _, rfl, rfl⟩
  | some j =>
    obtain ⟨hd, hm⟩ := hj j rfl
    have hs := register_state hr j.name j.model j.q_width j.qd_width true
    have hrun : (register_new_joint_type j.name j.model j.q_width j.qd_width true r).1 = .ok () := by
      rw [register_run hr, if_neg hd, if_neg (by simp)]
      dsimp only
      rw [if_pos hm]
    have he : register_new_joint_type j.name j.model j.q_width j.qd_width true r =
        (.ok (), (register_new_joint_type j.name j.model j.q_width j.qd_width true r).2) := Prod.ext hrun rfl
    refine ⟨_, he, hs.1, ?_, fun t ht => hs.2.1 t (ht j rfl), hs.2.2.1, hs.2.2.2⟩
    intro x hx
    cases hx
    exact (C61_success hr he).1

theorem mem_joints (c : Call α π χ ρ T I) (j : JointReg α π χ ρ) :
    j ∈ c.joints ↔ j ∈ c.rr ∨ j ∈ c.rr_imp ∨ j ∈ c.rsaddle ∨ j ∈ c.suntay := by
  simp [Call.joints, eq_comm]

/-- joints of different arguments have different names -/
theorem names_ne (c : Call α π χ ρ T I) (hn : (c.joints.map JointReg.name).Nodup) (x y : JointReg α π χ ρ)
    (h : (x ∈ c.rr ∧ (y ∈ c.rr_imp ∨ y ∈ c.rsaddle ∨ y ∈ c.suntay)) ∨
      (x ∈ c.rr_imp ∧ (y ∈ c.rsaddle ∨ y ∈ c.suntay)) ∨ (x ∈ c.rsaddle ∧ y ∈ c.suntay)) : x.name ≠ y.name := by
  obtain ⟨a1, a2, a3, a4, b1, b2, b3, b4⟩ := c
  dsimp only at h
  simp only [Option.mem_def] at h
  rcases h with ⟨h1, h2 | h2 | h2⟩ | ⟨h1, h2 | h2⟩ | ⟨h1, h2⟩ <;> subst h1 h2 <;>
    (try cases a1) <;> (try cases a2) <;> (try cases a3) <;> (try cases a4) <;> simp_all [Call.joints]

/-- C103: `setup` with joints of distinct names that have one motion axis per velocity coordinate succeeds; afterwards
each of them is registered as given, all other types are as before, and so are the changes noted for joint types and
the gains. -/
theorem C103_joints {w : World α π χ ρ ν γ T I} (hw : w.reg.Consistent) (c : Call α π χ ρ T I)
    (hv : ∀ j ∈ c.joints, j.Valid) (hn : (c.joints.map JointReg.name).Nodup) :
    ∃ w', setup c w = (.ok (), w') ∧ w'.reg.Consistent ∧
      (∀ j ∈ c.joints, w'.reg.Knows j.name j.q_width (j.qd_width.getD j.q_width) j.model) ∧
      (∀ t, t ∉ c.joints.map JointReg.name → w.reg.SameAt w'.reg t) ∧
      w'.reg.changes = w.reg.changes ∧ w'.reg.P_gains = w.reg.P_gains := by
  obtain ⟨r1, e1, c1, k1, s1, ch1, g1⟩ := registerIf_run hw c.rr (fun x hx => hv x ((mem_joints c x).mpr (Or.inl hx)))
  obtain ⟨r2, e2, c2, k2, s2, ch2, g2⟩ := registerIf_run c1 c.rr_imp
    (fun x hx => hv x ((mem_joints c x).mpr (Or.inr (Or.inl hx))))
  obtain ⟨r3, e3, c3, k3, s3, ch3, g3⟩ := registerIf_run c2 c.rsaddle
    (fun x hx => hv x ((mem_joints c x).mpr (Or.inr (Or.inr (Or.inl hx)))))
  obtain ⟨r4, e4, c4, k4, s4, ch4, g4⟩ := registerIf_run c3 c.suntay
    (fun x hx => hv x ((mem_joints c x).mpr (Or.inr (Or.inr (Or.inr hx)))))
  have hrun : registrations c w.reg = (.ok (), r4) := by
    unfold registrations
    rw [bind_run_ok e1, bind_run_ok e2, bind_run_ok e3, e4]
  have hset := setup_run c w
  rw [hrun] at hset
  refine ⟨_, hset, c4, ?_, ?_, by dsimp only; rw [ch4, ch3, ch2, ch1], by dsimp only; rw [g4, g3, g2, g1]⟩
  · -- names of different arguments differ
    have hne := names_ne c hn
    intro j hj
    rcases (mem_joints c j).mp hj with h | h | h | h
    · exact (s4 _ fun x hx => hne j x (Or.inl ⟨h, Or.inr (Or.inr hx)⟩)).knows
        ((s3 _ fun x hx => hne j x (Or.inl ⟨h, Or.inr (Or.inl hx)⟩)).knows
          ((s2 _ fun x hx => hne j x (Or.inl ⟨h, Or.inl hx⟩)).knows (k1 j h)))
    · exact (s4 _ fun x hx => hne j x (Or.inr (Or.inl ⟨h, Or.inr hx⟩))).knows
        ((s3 _ fun x hx => hne j x (Or.inr (Or.inl ⟨h, Or.inl hx⟩))).knows (k2 j h))
    · exact (s4 _ fun x hx => hne j x (Or.inr (Or.inr ⟨h, hx⟩))).knows (k3 j h)
    · exact k4 j h
  · intro t ht
    have hnot : ∀ x, x ∈ c.rr ∨ x ∈ c.rr_imp ∨ x ∈ c.rsaddle ∨ x ∈ c.suntay → t ≠ x.name :=
      fun x hx e => ht (e ▸ List.mem_map_of_mem ((mem_joints c x).mpr hx))
    exact (((s1 t fun x hx => hnot x (Or.inl hx)).trans (s2 t fun x hx => hnot x (Or.inr (Or.inl hx)))).trans
      (s3 t fun x hx => hnot x (Or.inr (Or.inr (Or.inl hx))))).trans
      (s4 t fun x hx => hnot x (Or.inr (Or.inr (Or.inr hx))))

/-- C103: calling `setup` again undoes what `MotionConfig.overwrite_for_joint_type` has changed for a custom joint, and
the change cannot be made again. -/
theorem C103_undone_fails (replace : χ → Dict ν → χ) {w : World α π χ ρ ν γ T I} (hw : w.reg.Consistent)
    (c : Call α π χ ρ T I) (hv : ∀ j ∈ c.joints, j.Valid) (hn : (c.joints.map JointReg.name).Nodup)
    {j : JointReg α π χ ρ} (hj : j ∈ c.joints) (ch : String × ν)
    (hk : w.reg.Knows j.name j.q_width (j.qd_width.getD j.q_width) j.model)
    (hc : w.reg.changes.lookup j.name = none) :
    ∃ r1 w2 r3, overwrite_for_joint_type replace j.name [ch] w.reg = (.ok (), r1) ∧
      r1.Knows j.name j.q_width (j.qd_width.getD j.q_width)
        { j.model with rcmg_draw_fn := fun config => j.model.rcmg_draw_fn (replace config [ch]) } ∧
      setup c { w with reg := r1 } = (.ok (), w2) ∧
      w2.reg.Knows j.name j.q_width (j.qd_width.getD j.q_width) j.model ∧
      overwrite_for_joint_type replace j.name [ch] w2.reg = (.error .assertion, r3) := by
  obtain ⟨r1, e1, k1, -⟩ := C61_overwrite replace hw hk (hv j hj).1 [ch] (by rw [hc]; simp [Dict.keys])
  have hcons : r1.Consistent := by
    have := (overwrite_joint_state replace hw j.name [ch]).1
    rw [e1] at this
    exact this
  obtain ⟨w2, e2, -, k2, -, hch, -⟩ := C103_joints (w := { w with reg := r1 }) hcons c hv hn
  have hnote : ch.1 ∈ Dict.keys ((r1.changes.lookup j.name).getD []) := by
    have hrun := overwrite_joint_run replace w.reg j.name [ch]
    rw [hc, if_pos (by simp [Dict.keys]), hk.model, hk.q, hk.qd] at hrun
    dsimp only at hrun
    have h1 : r1.changes = (w.reg.note j.name [ch]).changes := by
      have hst := (register_state (r := w.reg.note j.name [ch]) (consistent_changes hw _) j.name
        (RegModel.withChanges replace [ch] j.model) j.q_width (some (j.qd_width.getD j.q_width)) true).2.2.1
      rw [← hrun, e1] at hst
      exact hst
    rw [h1]
    unfold Registry.note
    dsimp only
    simp only [Dict.lookup_set, hc]
    simp [Dict.update, Dict.keys, Dict.set]
  obtain ⟨r3, e3, -⟩ := C61_overwrite_twice replace w2.reg j.name [ch] (c := ch) (by simp) (by rw [hch]; exact hnote)
  exact ⟨r1, w2, r3, e1, k1, e2, k2 j hj, e3⟩

/-- The hypotheses are met: the package is imported, where it registers three joints; then `setup` is called again with a
start of the training. -/
example (draw : BuiltIn → χ → ρ) (d : χ → ρ) :
    ∃ (c1 c2 : Call ℝ Unit χ ρ Nat String) (w1 w2 : World ℝ Unit χ ρ ν Unit Nat String),
      setup c1 ⟨initial draw [], none, none⟩ = (.ok (), w1) ∧ setup c2 w1 = (.ok (), w2) ∧
      After ⟨initial draw [], none, none⟩ [c1, c2] w2 ∧
      w1.start = some 100 ∧ w2.start = some 7 ∧ w2.uid = some "0x1" ∧
      w2.reg.Knows "rr" 1 1 { (BuiltIn.r .x).model with rcmg_draw_fn := d } ∧ w1.reg.changes.lookup "rr" = none := by
  let rr : JointReg ℝ Unit χ ρ := ⟨"rr", { (BuiltIn.r .x).model with rcmg_draw_fn := d }, 1, none⟩
  let rr_imp : JointReg ℝ Unit χ ρ := ⟨"rr_imp", { BuiltIn.saddle.model with rcmg_draw_fn := d }, 2, some 2⟩
  let rsaddle : JointReg ℝ Unit χ ρ := ⟨"rsaddle", { BuiltIn.saddle.model with rcmg_draw_fn := d }, 2, none⟩
  let c1 : Call ℝ Unit χ ρ Nat String := ⟨some rr, some rr_imp, some rsaddle, none, none, none, 100, "0x1"⟩
  let c2 : Call ℝ Unit χ ρ Nat String := ⟨some rr, some rr_imp, some rsaddle, none, some 7, none, 200, "0x2"⟩
  have hj1 : c1.joints = [rr, rr_imp, rsaddle] := rfl
  have hj2 : c2.joints = [rr, rr_imp, rsaddle] := rfl
  have hv : ∀ j ∈ [rr, rr_imp, rsaddle], j.Valid := by
    intro j hj
    simp only [List.mem_cons, List.not_mem_nil, or_false] at hj
    rcases hj with rfl | rfl | rfl
    · exact ⟨show "rr" ≠ "default" by decide, rfl⟩
    · exact ⟨show "rr_imp" ≠ "default" by decide, rfl⟩
    · exact ⟨show "rsaddle" ≠ "default" by decide, rfl⟩
  have hn : ([rr, rr_imp, rsaddle].map JointReg.name).Nodup := by
    show ["rr", "rr_imp", "rsaddle"].Nodup
    decide
  obtain ⟨w1, e1, k1, -, -, h1, -⟩ := C103_joints (ν := ν) (w := ⟨initial draw ([] : Dict Unit), none, none⟩)
    (C61_initial draw []) c1 (by rw [hj1]; exact hv) (by rw [hj1]; exact hn)
  obtain ⟨w2, e2, -, k2, -⟩ := C103_joints k1 c2 (by rw [hj2]; exact hv) (by rw [hj2]; exact hn)
  have a1 := After.ok c1 (After.none (w := ⟨initial draw ([] : Dict Unit), none, none⟩)) e1
  have a2 := After.ok c2 a1 e2
  refine ⟨c1, c2, w1, w2, e1, e2, a2, (C103_history a1).1, (C103_history a2).1, (C103_history a2).2,
    k2 rr (by rw [hj2]; simp), ?_⟩
  rw [h1]
  rfl

/-! ## C104: specification -/

/-- `s` begins with white space or is empty -/
def Ends (ws : Char → Bool) (s : List Char) : Prop := ∀ c r, s = c :: r → ws c = true

/-- a word -/
def Word (ws : Char → Bool) (w : List Char) : Prop := w ≠ [] ∧ ∀ c ∈ w, ws c = false

/-- `l` are the words of `s`, in order -/
inductive Words (ws : Char → Bool) : List Char → List (List Char) → Prop where
  | nil : Words ws [] []
  | space {c : Char} {s : List Char} {l : List (List Char)} (hc : ws c = true) (h : Words ws s l) : Words ws (c :: s) l
  | word {w s : List Char} {l : List (List Char)} (hw : Word ws w) (he : Ends ws s) (h : Words ws s l) :
      Words ws (w ++ s) (w :: l)

/-- the word is a flag for the number of devices -/
def IsCount (w : List Char) : Prop := flag <+: w ∧ w ≠ flag

/-! ## C104: proofs -/

theorem matchesFlag_iff (ws : Char → Bool) (s : List Char) :
    matchesFlag ws s = true ↔ ∃ c r, s = flag ++ c :: r ∧ ws c = false := by
  rw [matchesFlag, Bool.and_eq_true, List.isPrefixOf_iff_prefix]
  constructor
  · rintro ⟨⟨t, rfl⟩, h⟩
    rw [List.drop_left] at h
    cases t with
    | nil => cases h
    | cons c r => exact ⟨c, r, rfl, by simpa using h⟩
  · rintro ⟨c, r, rfl, h⟩
    refine ⟨List.prefix_append _ _, ?_⟩
    rw [List.drop_left]
    simpa using h

variable {ws : Char → Bool}

theorem matches_append (hf : ∀ c ∈ flag, ws c = false) {w s : List Char} (he : Ends ws s) :
    matchesFlag ws (w ++ s) = matchesFlag ws w := by
  rw [Bool.eq_iff_iff, matchesFlag_iff, matchesFlag_iff]
  constructor
  · rintro ⟨c, r, e, hc⟩
    rcases List.append_eq_append_iff.mp e with ⟨x, h1, h2⟩ | ⟨x, h1, h2⟩
    · cases x with
      | nil =>
        rw [List.nil_append] at h2
        have := he c r h2
        rw [hc] at this; cases this
      | cons d x =>
        have := he d _ h2
        rw [hf d (by rw [h1]; simp)] at this
        cases this
    · cases x with
      | nil =>
        rw [List.nil_append] at h2
        have := he c r h2.symm
        rw [hc] at this; cases this
      | cons d x =>
        rw [List.cons_append] at h2
        injection h2 with h3 h4
        subst h3
        exact ⟨c, x, h1, hc⟩
  · rintro ⟨c, r, rfl, hc⟩
    exact ⟨c, r ++ s, by simp, hc⟩

theorem flag_ne : flag ≠ [] := by decide

theorem reSub_ends (hf : ∀ c ∈ flag, ws c = false) {s : List Char} (he : Ends ws s) (b : Bool) :
    reSub ws b s = reSub ws false s := by
  cases b with
  | false => rfl
  | true =>
    cases s with
    | nil => rfl
    | cons c r =>
      have hm : matchesFlag ws (c :: r) = false := by
        have := matches_append hf (w := []) he
        rw [List.nil_append] at this
        rw [this]
        rw [← Bool.not_eq_true, matchesFlag_iff]
        rintro ⟨c, r, e, -⟩
        simp at e
      rw [reSub, reSub, if_pos (he c r rfl), if_neg (by rw [hm]; simp)]

theorem reSub_append (hf : ∀ c ∈ flag, ws c = false) {s : List Char} (he : Ends ws s) :
    ∀ (w : List Char) (b : Bool), (∀ c ∈ w, ws c = false) → reSub ws b (w ++ s) = reSub ws b w ++ reSub ws false s
  | [], b, _ => by
    rw [List.nil_append, reSub_ends hf he b]
    cases b <;> rfl
  | c :: w, true, hw => by
    have h1 := hw c List.mem_cons_self
    rw [List.cons_append, reSub, reSub, if_neg (by rw [h1]; simp), if_neg (by rw [h1]; simp)]
    exact reSub_append hf he w true fun d hd => hw d (List.mem_cons_of_mem _ hd)
  | c :: w, false, hw => by
    have hm := matches_append hf (w := c :: w) he
    rw [List.cons_append] at hm ⊢
    rw [reSub, reSub, hm]
    split
    · exact reSub_append hf he w true fun d hd => hw d (List.mem_cons_of_mem _ hd)
    · rw [reSub_append hf he w false fun d hd => hw d (List.mem_cons_of_mem _ hd), List.cons_append]

theorem mem_reSub : ∀ (s : List Char) (b : Bool) (c : Char), c ∈ reSub ws b s → c ∈ s
  | [], b, c, h => by cases b <;> cases h
  | d :: r, true, c, h => by
    rw [reSub] at h
    split at h
    · rcases List.mem_cons.mp h with rfl | h
      · exact List.mem_cons_self
      · exact List.mem_cons_of_mem _ (mem_reSub r false c h)
    · exact List.mem_cons_of_mem _ (mem_reSub r true c h)
  | d :: r, false, c, h => by
    rw [reSub] at h
    split at h
    · exact List.mem_cons_of_mem _ (mem_reSub r true c h)
    · rcases List.mem_cons.mp h with rfl | h
      · exact List.mem_cons_self
      · exact List.mem_cons_of_mem _ (mem_reSub r false c h)

theorem ends_reSub (hf : ∀ c ∈ flag, ws c = false) {s : List Char} (he : Ends ws s) : Ends ws (reSub ws false s) := by
  cases s with
  | nil => intro c r e; cases e
  | cons c r =>
    have := he c r rfl
    rw [← reSub_ends hf he true, reSub, if_pos this]
    rintro d t e
    injection e with e1 e2
    rw [← e1]; exact this

theorem words_reSub (hf : ∀ c ∈ flag, ws c = false) {s : List Char} {l : List (List Char)} (h : Words ws s l) :
    Words ws (reSub ws false s) ((l.map (reSub ws false)).filter (· ≠ [])) := by
  induction h with
  | nil => exact Words.nil
  | @space c s l hc _ ih =>
    have he : Ends ws (c :: s) := by
      rintro d t e
      injection e with e1 e2
      rw [← e1]; exact hc
    rw [← reSub_ends hf he true, reSub, if_pos hc]
    exact Words.space hc ih
  | @word w s l hw he _ ih =>
    rw [reSub_append hf he w false hw.2, List.map_cons]
    by_cases h0 : reSub ws false w = []
    · rw [h0, List.nil_append, List.filter_cons_of_neg (by simp)]
      exact ih
    · rw [List.filter_cons_of_pos (by simpa using h0)]
      exact Words.word ⟨h0, fun c hc => hw.2 c (mem_reSub w false c hc)⟩ (ends_reSub hf he) ih

theorem splitAux_word {w : List Char} (hw : ∀ c ∈ w, ws c = false) : ∀ (acc s : List Char),
    splitAux ws acc (w ++ s) = splitAux ws (acc ++ w) s := by
  induction w with
  | nil => intro acc s; rw [List.nil_append, List.append_nil]
  | cons c w ih =>
    intro acc s
    have h1 := hw c List.mem_cons_self
    rw [List.cons_append, splitAux, if_neg (by rw [h1]; simp), ih fun d hd => hw d (List.mem_cons_of_mem _ hd),
      List.append_assoc, List.singleton_append]

theorem splitAux_ends {s acc : List Char} (he : Ends ws s) (ha : acc ≠ []) :
    splitAux ws acc s = acc :: splitAux ws [] s := by
  cases s with
  | nil => rw [splitAux, splitAux, if_neg ha, if_pos rfl]
  | cons c r =>
    have := he c r rfl
    rw [splitAux, splitAux, if_pos this, if_pos this, if_neg ha, if_pos rfl]

theorem words_split {s : List Char} {l : List (List Char)} (h : Words ws s l) : split ws s = l := by
  induction h with
  | nil => rfl
  | @space c s l hc _ ih => rw [split, splitAux, if_pos hc, if_pos rfl]; exact ih
  | @word w s l hw he _ ih =>
    rw [split, splitAux_word hw.2, List.nil_append, splitAux_ends he hw.1]
    rw [split] at ih
    rw [ih]

/-- the words of a text are unique -/
theorem words_unique {s : List Char} {l l' : List (List Char)} (h : Words ws s l) (h' : Words ws s l') : l = l' :=
  (words_split h).symm.trans (words_split h')

/-- every text has words -/
theorem words_exists : ∀ s : List Char, ∃ l, Words ws s l
  | [] => ⟨_, Words.nil⟩
  | c :: r => by
    obtain ⟨l, h⟩ := words_exists r
    cases hc : ws c with
    | true => exact ⟨l, Words.space hc h⟩
    | false =>
      cases h with
      | nil => exact ⟨_, Words.word (w := [c]) ⟨by simp, by simpa using hc⟩ (by rintro d t e; cases e) Words.nil⟩
      | @space d s l hd h =>
        exact ⟨_, Words.word (w := [c]) ⟨by simp, by simpa using hc⟩
          (by rintro e t e'; injection e' with e1; rw [← e1]; exact hd) (Words.space hd h)⟩
      | @word w s l hw he h =>
        exact ⟨_, Words.word (w := c :: w) ⟨by simp, by
          intro d hd
          rcases List.mem_cons.mp hd with rfl | hd
          · exact hc
          · exact hw.2 d hd⟩ he h⟩

theorem words_join (hsp : ws ' ' = true) : ∀ l : List (List Char), (∀ w ∈ l, Word ws w) → Words ws (join l) l
  | [], _ => Words.nil
  | [w], h => by
    have := Words.word (h w List.mem_cons_self) (s := []) (by rintro d t e; cases e) Words.nil
    rw [List.append_nil] at this
    exact this
  | w :: v :: r, h => by
    refine Words.word (h w List.mem_cons_self) ?_ (Words.space hsp (words_join hsp (v :: r)
      fun u hu => h u (List.mem_cons_of_mem _ hu)))
    rintro d t e
    injection e with e1
    rw [← e1]; exact hsp

theorem words_all {s : List Char} {l : List (List Char)} (h : Words ws s l) : ∀ w ∈ l, Word ws w := by
  induction h with
  | nil => simp
  | space _ _ ih => exact ih
  | word hw _ _ ih =>
    intro v hv
    rcases List.mem_cons.mp hv with rfl | hv
    · exact hw
    · exact ih v hv

theorem reSub_no {w : List Char} (h : ∀ c r, ¬ (flag ++ c :: r) <:+ w) : reSub ws false w = w := by
  induction w with
  | nil => rfl
  | cons c w ih =>
    rw [reSub, if_neg, ih]
    · intro d r hs
      exact h d r (hs.trans (List.suffix_cons _ _))
    · rw [matchesFlag_iff]
      rintro ⟨d, r, e, -⟩
      exact h d r (e ▸ List.suffix_refl _)

theorem reSub_inside : ∀ w : List Char, (∀ c ∈ w, ws c = false) → reSub ws true w = []
  | [], _ => rfl
  | c :: w, h => by
    rw [reSub, if_neg (by rw [h c List.mem_cons_self]; simp)]
    exact reSub_inside w fun d hd => h d (List.mem_cons_of_mem _ hd)

theorem reSub_count {w : List Char} (hw : ∀ c ∈ w, ws c = false) (hc : IsCount w) : reSub ws false w = [] := by
  obtain ⟨⟨t, rfl⟩, hne⟩ := hc
  cases t with
  | nil => exact absurd (List.append_nil _) hne
  | cons c r =>
    have hm : matchesFlag ws (flag ++ c :: r) = true :=
      (matchesFlag_iff ws _).mpr ⟨c, r, rfl, hw c (by simp)⟩
    cases hfl : flag ++ c :: r with
    | nil => exact absurd hfl (by simp)
    | cons d s =>
      rw [hfl] at hm hw
      rw [reSub, if_pos hm]
      exact reSub_inside s fun e he => hw e (List.mem_cons_of_mem _ he)

open Classical in
/-- C104: the words of the new environment variable are the flag with the given number and then, in order, those of the
old one which are not flags for the number of devices; if in the old one this flag only occurs at the beginning of
words. Partial: a word that contains the flag further back is cut (`C104_inside_fails`). -/
theorem C104_flags_partial (hsp : ws ' ' = true) (hf : ∀ c ∈ flag, ws c = false) {n old : List Char}
    (hn : ∀ c ∈ n, ws c = false) {l : List (List Char)} (hl : Words ws old l)
    (hb : ∀ w ∈ l, flag <:+: w → flag <+: w) :
    Words ws (set_host_device_count ws n (some old)) ((flag ++ n) :: l.filter fun w => ¬ IsCount w) := by
  rw [set_host_device_count, Option.getD_some]
  have h1 := words_reSub hf hl
  rw [words_split h1]
  have key : (l.map (reSub ws false)).filter (· ≠ []) = l.filter fun w => ¬ IsCount w := by
    have hall := words_all hl
    clear h1 hl
    induction l with
    | nil => rfl
    | cons w l ih =>
      have hw := hall w List.mem_cons_self
      have ih := ih (fun v hv => hb v (List.mem_cons_of_mem _ hv)) (fun v hv => hall v (List.mem_cons_of_mem _ hv))
      rw [List.map_cons]
      by_cases hc : IsCount w
      · rw [reSub_count hw.2 hc, List.filter_cons_of_neg (by simp), List.filter_cons_of_neg (by simpa using hc), ih]
      · have hno : ∀ c r, ¬ (flag ++ c :: r) <:+ w := by
          rintro c r ⟨p, hp⟩
          have hin : flag <:+: w := ⟨p, c :: r, by rw [← hp, List.append_assoc]⟩
          refine hc ⟨hb w List.mem_cons_self hin, fun e => ?_⟩
          rw [e] at hp
          have := congrArg List.length hp
          simp at this
          omega
        rw [reSub_no hno, List.filter_cons_of_pos (by simpa using hw.1), List.filter_cons_of_pos (by simpa using hc), ih]
  rw [key]
  refine words_join hsp _ ?_
  intro w hw
  rcases List.mem_cons.mp hw with rfl | hw
  · refine ⟨by simp [flag_ne], fun c hc => ?_⟩
    rcases List.mem_append.mp hc with h2 | h2
    · exact hf c h2
    · exact hn c h2
  · exact words_all hl w (List.mem_filter.mp hw).1

/-- C104: if the environment variable is not set, it becomes the flag. -/
theorem C104_unset (n : List Char) : set_host_device_count ws n none = flag ++ n := rfl

/-- C104: after the call the flag for the number of devices occurs once as a word with a number, and it is the given
one. Partial as `C104_flags_partial`. -/
theorem C104_number_partial (hsp : ws ' ' = true) (hf : ∀ c ∈ flag, ws c = false) {n old : List Char}
    (hn : Word ws n) {l : List (List Char)} (hl : Words ws old l) (hb : ∀ w ∈ l, flag <:+: w → flag <+: w)
    {new : List (List Char)} (hnew : Words ws (set_host_device_count ws n (some old)) new) (w : List Char) :
    w ∈ new ∧ IsCount w ↔ w = flag ++ n := by
  classical
  rw [words_unique hnew (C104_flags_partial hsp hf hn.2 hl hb), List.mem_cons, List.mem_filter]
  constructor
  · rintro ⟨rfl | ⟨-, h⟩, hc⟩
    · rfl
    · simp only [decide_eq_true_eq] at h; exact absurd hc h
  · rintro rfl
    refine ⟨Or.inl rfl, List.prefix_append _ _, ?_⟩
    intro e
    exact hn.1 (by simpa using e)

/-- C104: a second call replaces the first: the words are as if only the second had been made. Partial as
`C104_flags_partial`. -/
theorem C104_twice_partial (hsp : ws ' ' = true) (hf : ∀ c ∈ flag, ws c = false) {n m old : List Char}
    (hn : Word ws n) (hm : Word ws m) {l : List (List Char)} (hl : Words ws old l)
    (hb : ∀ w ∈ l, flag <:+: w → flag <+: w) (new : List (List Char)) :
    Words ws (set_host_device_count ws m (some (set_host_device_count ws n (some old)))) new ↔
      Words ws (set_host_device_count ws m (some old)) new := by
  classical
  have h1 := C104_flags_partial hsp hf hn.2 hl hb
  have h2 := C104_flags_partial hsp hf hm.2 hl hb
  have h3 := C104_flags_partial hsp hf hm.2 h1 (by
    intro w hw hin
    rcases List.mem_cons.mp hw with rfl | hw
    · exact List.prefix_append _ _
    · exact hb w (List.mem_filter.mp hw).1 hin)
  have hc : IsCount (flag ++ n) := ⟨List.prefix_append _ _, fun e => hn.1 (by simpa using e)⟩
  rw [List.filter_cons_of_neg (by simpa using hc), List.filter_filter] at h3
  simp only [Bool.and_self] at h3
  exact ⟨fun h => words_unique h3 h ▸ h2, fun h => words_unique h2 h ▸ h3⟩

/-- C104: a flag that ends in a flag for the number of devices, as in quotes, is cut. -/
theorem C104_inside_fails (hsp : ws ' ' = true) (hf : ∀ c ∈ flag, ws c = false) {n : List Char} (hn : Word ws n) :
    Words ws (set_host_device_count ws n (some ('"' :: flag ++ n))) [flag ++ n, ['"']] ∨ ws '"' = true := by
  cases hq : ws '"' with
  | true => exact Or.inr rfl
  | false =>
    left
    have hm : matchesFlag ws ('"' :: flag ++ n) = false := by
      rw [← Bool.not_eq_true, matchesFlag_iff]
      rintro ⟨c, r, e, -⟩
      have : flag = '-' :: flag.tail := by decide
      rw [this] at e
      injection e with e1
      exact absurd e1 (by decide)
    have hcut : reSub ws false ('"' :: flag ++ n) = ['"'] := by
      rw [List.cons_append] at hm ⊢
      rw [reSub, if_neg (by rw [hm]; simp), reSub_count]
      · intro c hc
        rcases List.mem_append.mp hc with h | h
        · exact hf c h
        · exact hn.2 c h
      · exact ⟨List.prefix_append _ _, fun e => hn.1 (by simpa using e)⟩
    rw [set_host_device_count, Option.getD_some, hcut]
    have hs : split ws ['"'] = [['"']] := by
      rw [split, splitAux, if_neg (by rw [hq]; simp)]
      rfl
    rw [hs]
    refine words_join hsp _ ?_
    intro w hw
    rcases List.mem_cons.mp hw with rfl | hw
    · refine ⟨by simp [flag_ne], fun c hc => ?_⟩
      rcases List.mem_append.mp hc with h | h
      · exact hf c h
      · exact hn.2 c h
    · rw [List.mem_singleton.mp hw]
      exact ⟨by simp, by simpa using hq⟩

/-- The hypotheses are met. -/
example : Words (· == ' ') (set_host_device_count (· == ' ') ['8'] (some ("--a=1 ".toList ++ flag ++ "4  --b".toList)))
    [flag ++ ['8'], "--a=1".toList, "--b".toList] := by
  classical
  have hl : Words (· == ' ') ("--a=1 ".toList ++ flag ++ "4  --b".toList)
      ["--a=1".toList, flag ++ ['4'], "--b".toList] := by
    have hb : Words (· == ' ') "--b".toList ["--b".toList] :=
      Words.word (w := "--b".toList) (s := []) ⟨by decide, by decide⟩ (by rintro c r e; cases e) Words.nil
    have h1 : Ends (· == ' ') (' ' :: ' ' :: "--b".toList) := by rintro c r e; injection e with e; subst e; rfl
    have h2 : Ends (· == ' ') (' ' :: (flag ++ "4  --b".toList)) := by rintro c r e; injection e with e; subst e; rfl
    exact Words.word (w := "--a=1".toList) ⟨by decide, by decide⟩ h2 (Words.space rfl
      (Words.word (w := flag ++ ['4']) ⟨by decide, by decide⟩ h1 (Words.space rfl (Words.space rfl hb))))
  have h := C104_flags_partial (ws := (· == ' ')) (n := ['8']) rfl (by decide) (by decide) hl (by decide)
  have hf : ["--a=1".toList, flag ++ ['4'], "--b".toList].filter (fun w => ¬ IsCount w)
      = ["--a=1".toList, "--b".toList] := by
    have a1 : ¬ IsCount "--a=1".toList := by unfold IsCount; decide
    have a2 : IsCount (flag ++ ['4']) := by unfold IsCount; decide
    have a3 : ¬ IsCount "--b".toList := by unfold IsCount; decide
    rw [List.filter_cons_of_pos (by simpa using a1), List.filter_cons_of_neg (by simpa using a2),
      List.filter_cons_of_pos (by simpa using a3), List.filter_nil]
  rw [hf] at h
  exact h

end RingLib.package
