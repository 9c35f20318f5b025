import Verif.Model.Registry
import Verif.Props.Dict
import Verif.Props.System
import Verif.Props.Batch
import Verif.Props.Kinematics

/-!
# Registration of joint types (C61)
-/

namespace RingLib.jcalc
open System

variable {α π χ ρ ν γ σ β : Type}

/-! ## Programs with global state -/

theorem bind_run {β' : Type} (m : Glob σ β) (f : β → Glob σ β') (s : σ) :
    (m >>= f) s = match m s with
      | (.ok b, s') => f b s'
      | (.error e, s') => (.error e, s') := rfl

theorem bind_run_ok {β' : Type} {m : Glob σ β} {f : β → Glob σ β'} {s s' : σ} {b : β}
    (h : m s = (.ok b, s')) : (m >>= f) s = f b s' := by rw [bind_run, h]

theorem bind_run_error {β' : Type} {m : Glob σ β} {f : β → Glob σ β'} {s s' : σ} {e : PyErr}
    (h : m s = (.error e, s')) : (m >>= f) s = (.error e, s') := by rw [bind_run, h]

theorem bind_run_inv {β' : Type} {m : Glob σ β} {f : β → Glob σ β'} {s s' : σ} {c : β'}
    (h : (m >>= f) s = (.ok c, s')) : ∃ b s1, m s = (.ok b, s1) ∧ f b s1 = (.ok c, s') := by
  rw [bind_run] at h
  rcases hm : m s with ⟨_ | b, s1⟩
  · rw [hm] at h; cases h
  · rw [hm] at h; exact ⟨b, s1, rfl, h⟩

theorem read_inv {f : σ → Py β} {s s' : σ} {b : β} (h : Glob.read f s = (.ok b, s')) :
    f s = .ok b ∧ s = s' := by
  unfold Glob.read at h
  exact ⟨(Prod.mk.inj h).1, (Prod.mk.inj h).2⟩

/-- `I` holds after `m` whether or not `m` raises. -/
def Keeps (I : σ → Prop) (m : Glob σ β) : Prop := ∀ s, I s → I (m s).2

theorem Keeps.bind {β' : Type} {I : σ → Prop} {m : Glob σ β} {f : β → Glob σ β'} (hm : Keeps I m)
    (hf : ∀ b, Keeps I (f b)) : Keeps I (m >>= f) := by
  intro s hs
  rw [bind_run]
  rcases e : m s with ⟨_ | b, s1⟩
  · have := hm s hs; rw [e] at this; exact this
  · have := hm s hs; rw [e] at this; exact hf b s1 this

theorem Keeps.read {I : σ → Prop} (f : σ → Py β) : Keeps I (Glob.read f) := fun _ h => h

theorem Keeps.each {ι : Type} {I : σ → Prop} {f : ι → Glob σ Unit} (hf : ∀ x, Keeps I (f x)) :
    ∀ xs, Keeps I (Glob.each f xs)
  | [] => fun _ h => h
  | x :: xs => (hf x).bind fun _ => Keeps.each hf xs

/-! ## Specification -/

/-- The three dictionaries agree on the type `t`. -/
structure Registry.Knows (r : Registry α π χ ρ ν γ) (t : String) (q qd : Nat)
    (jm : RegModel α π χ ρ) : Prop where
  model : r.joint_types.lookup t = some jm
  q : r.Q_WIDTHS.lookup t = some q
  qd : r.QD_WIDTHS.lookup t = some qd

/-- None of the three dictionaries has the type `t`. -/
structure Registry.Lacks (r : Registry α π χ ρ ν γ) (t : String) : Prop where
  model : r.joint_types.lookup t = none
  q : r.Q_WIDTHS.lookup t = none
  qd : r.QD_WIDTHS.lookup t = none

/-- Every type is either unknown to all three dictionaries, or it has a joint model, both widths, and
one motion axis per velocity coordinate. -/
def Registry.Consistent (r : Registry α π χ ρ ν γ) : Prop :=
  ∀ t, r.Lacks t ∨ ∃ q qd jm, r.Knows t q qd jm ∧ jm.motion.length = qd

/-- Nothing about the type `t` differs. -/
structure Registry.SameAt (r r' : Registry α π χ ρ ν γ) (t : String) : Prop where
  model : r'.joint_types.lookup t = r.joint_types.lookup t
  q : r'.Q_WIDTHS.lookup t = r.Q_WIDTHS.lookup t
  qd : r'.QD_WIDTHS.lookup t = r.QD_WIDTHS.lookup t

theorem Registry.SameAt.refl (r : Registry α π χ ρ ν γ) (t : String) : r.SameAt r t :=
  ⟨rfl, rfl, rfl⟩

theorem Registry.SameAt.trans {r r' r'' : Registry α π χ ρ ν γ} {t : String} (h : r.SameAt r' t)
    (h' : r'.SameAt r'' t) : r.SameAt r'' t :=
  ⟨h'.model.trans h.model, h'.q.trans h.q, h'.qd.trans h.qd⟩

theorem Registry.SameAt.knows {r r' : Registry α π χ ρ ν γ} {t : String} (h : r.SameAt r' t)
    {q qd : Nat} {jm : RegModel α π χ ρ} (hk : r.Knows t q qd jm) : r'.Knows t q qd jm :=
  ⟨h.model.trans hk.model, h.q.trans hk.q, h.qd.trans hk.qd⟩

theorem Registry.SameAt.knows' {r r' : Registry α π χ ρ ν γ} {t : String} (h : r.SameAt r' t)
    {q qd : Nat} {jm : RegModel α π χ ρ} (hk : r'.Knows t q qd jm) : r.Knows t q qd jm :=
  ⟨h.model ▸ hk.model, h.q ▸ hk.q, h.qd ▸ hk.qd⟩

/-! ## One registration -/

/-- the registry without the type -/
def Registry.without (r : Registry α π χ ρ ν γ) (t : String) : Registry α π χ ρ ν γ :=
  { r with
    joint_types := r.joint_types.del t, Q_WIDTHS := r.Q_WIDTHS.del t,
    QD_WIDTHS := r.QD_WIDTHS.del t }

/-- the registry with the type -/
def Registry.withType (r : Registry α π χ ρ ν γ) (t : String) (q qd : Nat)
    (jm : RegModel α π χ ρ) : Registry α π χ ρ ν γ :=
  { r with
    joint_types := r.joint_types.set t jm, Q_WIDTHS := r.Q_WIDTHS.set t q,
    QD_WIDTHS := r.QD_WIDTHS.set t qd }

theorem popType_run {r : Registry α π χ ρ ν γ} {t : String} {q qd : Nat} {jm : RegModel α π χ ρ}
    (h : r.Knows t q qd jm) : popType t r = (.ok (), r.without t) := by
  unfold popType
  simp [bind_run, Glob.read, Glob.modify, Dict.pop, pyDict, h.model, h.q, h.qd, ok_bind,
    Registry.without]

theorem register_run {r : Registry α π χ ρ ν γ} (hr : r.Consistent) (t : String)
    (jm : RegModel α π χ ρ) (q : Nat) (qd : Option Nat) (ow : Bool) :
    register_new_joint_type t jm q qd ow r =
      if t = "default" then (.error .assertion, r)
      else if t ∈ r.joint_types.keys ∧ ow = false then (.error .assertion, r)
      else
        let r0 := if t ∈ r.joint_types.keys then r.without t else r
        if jm.motion.length = qd.getD q then (.ok (), r0.withType t q (qd.getD q) jm)
        else (.error .assertion, r0) := by
  unfold register_new_joint_type
  by_cases h1 : t = "default"
  · simp [bind_run, Glob.read, pyAssert, h1]
  rw [if_neg h1, bind_run_ok (b := ()) (s' := r) (by simp [Glob.read, pyAssert, h1])]
  by_cases h2 : t ∈ r.joint_types.keys
  · obtain ⟨q', qd', jm', hk, _⟩ := (hr t).resolve_left (by
      rintro ⟨h, _, _⟩
      exact (Dict.lookup_eq_none _ _).1 h h2)
    rw [bind_run_ok (b := true) (s' := r) (by simp [Glob.read, h2])]
    cases ow with
    | false =>
      simp [bind_run, Glob.read, pyAssert, h2]
    | true =>
      rw [if_pos (show (true && true) = true from rfl), if_neg (by simp), if_pos h2,
        bind_run_ok (popType_run hk)]
      by_cases h3 : jm.motion.length = qd.getD q
      · simp [bind_run, Glob.read, pyAssert, Glob.modify, h3, Registry.withType]
      · simp [bind_run, Glob.read, pyAssert, h3]
  · rw [bind_run_ok (b := false) (s' := r) (by simp [Glob.read, h2])]
    rw [if_neg (show ¬ (false && ow) = true by simp)]
    by_cases h3 : jm.motion.length = qd.getD q
    · simp [bind_run, Glob.read, pyAssert, Glob.modify, h2, h3, Registry.withType]
    · simp [bind_run, Glob.read, pyAssert, h2, h3]

theorem without_lacks (r : Registry α π χ ρ ν γ) (t : String) : (r.without t).Lacks t :=
  ⟨by simp [Registry.without, Dict.lookup_del], by simp [Registry.without, Dict.lookup_del],
    by simp [Registry.without, Dict.lookup_del]⟩

theorem without_same (r : Registry α π χ ρ ν γ) {t t' : String} (h : t' ≠ t) :
    r.SameAt (r.without t) t' :=
  ⟨by simp [Registry.without, Dict.lookup_del, h], by simp [Registry.without, Dict.lookup_del, h],
    by simp [Registry.without, Dict.lookup_del, h]⟩

theorem withType_knows (r : Registry α π χ ρ ν γ) (t : String) (q qd : Nat)
    (jm : RegModel α π χ ρ) : (r.withType t q qd jm).Knows t q qd jm :=
  ⟨by simp [Registry.withType, Dict.lookup_set], by simp [Registry.withType, Dict.lookup_set],
    by simp [Registry.withType, Dict.lookup_set]⟩

theorem withType_same (r : Registry α π χ ρ ν γ) {t t' : String} (q qd : Nat)
    (jm : RegModel α π χ ρ) (h : t' ≠ t) : r.SameAt (r.withType t q qd jm) t' :=
  ⟨by simp [Registry.withType, Dict.lookup_set, h], by simp [Registry.withType, Dict.lookup_set, h],
    by simp [Registry.withType, Dict.lookup_set, h]⟩

theorem Registry.Lacks.of_same {r r' : Registry α π χ ρ ν γ} {t : String} (h : r.SameAt r' t)
    (hl : r.Lacks t) : r'.Lacks t :=
  ⟨h.model.trans hl.model, h.q.trans hl.q, h.qd.trans hl.qd⟩

theorem Registry.Consistent.of_same {r r' : Registry α π χ ρ ν γ} (hr : r.Consistent) (t : String)
    (hs : ∀ t' ≠ t, r.SameAt r' t')
    (ht : r'.Lacks t ∨ ∃ q qd jm, r'.Knows t q qd jm ∧ jm.motion.length = qd) : r'.Consistent := by
  intro t'
  by_cases h : t' = t
  · exact h ▸ ht
  · rcases hr t' with h' | ⟨q, qd, jm, hk, hl⟩
    · exact Or.inl (h'.of_same (hs t' h))
    · exact Or.inr ⟨q, qd, jm, (hs t' h).knows hk, hl⟩

/-- What a registration leaves behind, whether or not it raises. -/
theorem register_state {r : Registry α π χ ρ ν γ} (hr : r.Consistent) (t : String)
    (jm : RegModel α π χ ρ) (q : Nat) (qd : Option Nat) (ow : Bool) :
    (register_new_joint_type t jm q qd ow r).2.Consistent ∧
    (∀ t' ≠ t, r.SameAt (register_new_joint_type t jm q qd ow r).2 t') ∧
    (register_new_joint_type t jm q qd ow r).2.changes = r.changes ∧
    (register_new_joint_type t jm q qd ow r).2.P_gains = r.P_gains := by
  rw [register_run hr]
  split
  · exact ⟨hr, fun _ _ => .refl _ _, rfl, rfl⟩
  split
  · exact ⟨hr, fun _ _ => .refl _ _, rfl, rfl⟩
  have h0 : ∀ t' ≠ t, r.SameAt (if t ∈ r.joint_types.keys then r.without t else r) t' := by
    intro t' h
    split
    · exact without_same r h
    · exact .refl _ _
  have hl : (if t ∈ r.joint_types.keys then r.without t else r).Lacks t := by
    split
    · exact without_lacks r t
    · rename_i h
      rcases hr t with h' | ⟨q, qd, jm, hk, _⟩
      · exact h'
      · exact absurd ((Dict.lookup_isSome _ _).2 ⟨_, hk.model⟩) h
  have hc : (if t ∈ r.joint_types.keys then r.without t else r).changes = r.changes ∧
      (if t ∈ r.joint_types.keys then r.without t else r).P_gains = r.P_gains := by
    split <;> exact ⟨rfl, rfl⟩
  dsimp only
  split
  · rename_i hm
    refine ⟨hr.of_same t (fun t' h => (h0 t' h).trans (withType_same _ _ _ _ h))
      (Or.inr ⟨q, _, jm, withType_knows _ _ _ _ _, hm⟩),
      fun t' h => (h0 t' h).trans (withType_same _ _ _ _ h), hc.1, hc.2⟩
  · exact ⟨hr.of_same t h0 (Or.inl hl), h0, hc.1, hc.2⟩

/-! ## Theorems on registrations -/

/-- **C61.** A registration that succeeds enters exactly the given model and widths; the model has one
motion axis per velocity coordinate, and no other type is touched. -/
theorem C61_success {r r' : Registry α π χ ρ ν γ} (hr : r.Consistent) {t : String}
    {jm : RegModel α π χ ρ} {q : Nat} {qd : Option Nat} {ow : Bool}
    (h : register_new_joint_type t jm q qd ow r = (.ok (), r')) :
    r'.Knows t q (qd.getD q) jm ∧ jm.motion.length = qd.getD q ∧
      (∀ t' ≠ t, r.SameAt r' t') ∧ (r.Lacks t ∨ ow = true) ∧ t ≠ "default" := by
  have hs := (register_state hr t jm q qd ow).2.1
  rw [h] at hs
  rw [register_run hr] at h
  split at h
  · cases h
  rename_i hd
  split at h
  · cases h
  rename_i he
  dsimp only at h
  split at h
  · rename_i hm
    cases h
    refine ⟨withType_knows _ _ _ _ _, hm, hs, ?_, hd⟩
    cases ow with
    | true => exact Or.inr rfl
    | false =>
      rcases hr t with h' | ⟨q, qd, jm, hk, _⟩
      · exact Or.inl h'
      · exact absurd ⟨(Dict.lookup_isSome _ _).2 ⟨_, hk.model⟩, rfl⟩ he
  · cases h

/-- **C61.** Registering a name that exists fails without `overwrite` and changes nothing. -/
theorem C61_exists {r : Registry α π χ ρ ν γ} (hr : r.Consistent) {t : String}
    (ht : ¬ r.Lacks t) (jm : RegModel α π χ ρ) (q : Nat) (qd : Option Nat) :
    register_new_joint_type t jm q qd false r = (.error .assertion, r) := by
  obtain ⟨q', qd', jm', hk, _⟩ := (hr t).resolve_left ht
  rw [register_run hr]
  split
  · rfl
  · rw [if_pos ⟨(Dict.lookup_isSome _ _).2 ⟨_, hk.model⟩, rfl⟩]

/-- **C61** (partial: without `overwrite`, or for a name that is not registered). A failed registration
leaves the registry unchanged. -/
theorem C61_atomic_partial {r r' : Registry α π χ ρ ν γ} (hr : r.Consistent) {t : String}
    {jm : RegModel α π χ ρ} {q : Nat} {qd : Option Nat} {ow : Bool} {e : PyErr}
    (how : ow = false ∨ r.Lacks t)
    (h : register_new_joint_type t jm q qd ow r = (.error e, r')) : r' = r := by
  rw [register_run hr] at h
  split at h
  · exact (Prod.mk.inj h).2.symm
  split at h
  · exact (Prod.mk.inj h).2.symm
  rename_i he
  have hk : t ∉ r.joint_types.keys := by
    rcases how with rfl | hl
    · exact fun h' => he ⟨h', rfl⟩
    · exact (Dict.lookup_eq_none _ _).1 hl.model
  dsimp only at h
  split at h
  · cases h
  · have := (Prod.mk.inj h).2.symm
    first
      | exact this
      | exact this.trans (if_neg hk)

/-- **C61.** When a registration fails, no type other than the one in question is affected. -/
theorem C61_others {r r' : Registry α π χ ρ ν γ} (hr : r.Consistent) {t : String}
    {jm : RegModel α π χ ρ} {q : Nat} {qd : Option Nat} {ow : Bool} {e : PyErr}
    (h : register_new_joint_type t jm q qd ow r = (.error e, r')) {t' : String} (ht : t' ≠ t) :
    r.SameAt r' t' := by
  have := (register_state hr t jm q qd ow).2.1 t' ht
  rw [h] at this
  exact this

/-- **C61 fails** for `overwrite=True`: a registration with the wrong number of motion axes raises,
and the type that existed before is gone. -/
theorem C61_atomic_fails {r : Registry α π χ ρ ν γ} (hr : r.Consistent) {t : String}
    (ht : ¬ r.Lacks t) (hd : t ≠ "default") (jm : RegModel α π χ ρ) (q : Nat)
    (hm : jm.motion.length ≠ q) :
    ∃ r', register_new_joint_type t jm q none true r = (.error .assertion, r') ∧ r'.Lacks t := by
  obtain ⟨q', qd', jm', hk, _⟩ := (hr t).resolve_left ht
  refine ⟨r.without t, ?_, without_lacks r t⟩
  rw [register_run hr, if_neg hd, if_neg (by simp)]
  dsimp only [Option.getD_none]
  rw [if_neg hm, if_pos ((Dict.lookup_isSome _ _).2 ⟨_, hk.model⟩)]

/-! ## Overwriting the drawing of a type -/

/-- the model drawing with a changed config -/
def RegModel.withChanges (replace : χ → Dict ν → χ) (changes : Dict ν) (jm : RegModel α π χ ρ) :
    RegModel α π χ ρ :=
  { jm with rcmg_draw_fn := fun config => jm.rcmg_draw_fn (replace config changes) }

theorem same_changes (r : Registry α π χ ρ ν γ) (c : Dict (Dict ν)) (t : String) :
    r.SameAt { r with changes := c } t := ⟨rfl, rfl, rfl⟩

theorem consistent_changes {r : Registry α π χ ρ ν γ} (hr : r.Consistent) (c : Dict (Dict ν)) :
    Registry.Consistent { r with changes := c } :=
  hr.of_same "" (fun t _ => same_changes r c t) (by
    rcases hr "" with h | ⟨q, qd, jm, hk, hl⟩
    · exact Or.inl (h.of_same (same_changes r c _))
    · exact Or.inr ⟨q, qd, jm, (same_changes r c _).knows hk, hl⟩)

/-- the state after the changes of a type have been noted -/
def Registry.note (r : Registry α π χ ρ ν γ) (t : String) (changes : Dict ν) :
    Registry α π χ ρ ν γ :=
  { r with
    changes := (r.changes.set t ((r.changes.lookup t).getD [])).set t
      (Dict.update ((r.changes.lookup t).getD []) changes) }

theorem overwrite_joint_run (replace : χ → Dict ν → χ) (r : Registry α π χ ρ ν γ) (t : String)
    (changes : Dict ν) :
    overwrite_for_joint_type replace t changes r =
      if ∀ c ∈ changes, c.1 ∉ Dict.keys ((r.changes.lookup t).getD []) then
        match r.joint_types.lookup t, r.Q_WIDTHS.lookup t, r.QD_WIDTHS.lookup t with
        | some jm, some q, some qd =>
          register_new_joint_type t (jm.withChanges replace changes) q (some qd) true
            (r.note t changes)
        | none, _, _ => (.error .assertion, r.note t changes)
        | some _, _, _ => (.error .key, r.note t changes)
      else (.error .assertion,
        { r with changes := r.changes.set t ((r.changes.lookup t).getD []) }) := by
  unfold overwrite_for_joint_type
  have hf : ∀ (cs : Dict ν) (ks : List String), (cs.forM fun c => pyAssert (c.1 ∉ ks))
      = if ∀ c ∈ cs, c.1 ∉ ks then (Except.ok () : Py Unit) else .error .assertion := by
    intro cs ks
    induction cs with
    | nil => simp; rfl
    | cons c cs ih =>
      rw [List.forM_eq_forM, List.forM_cons]
      rw [List.forM_eq_forM] at ih
      by_cases h : c.1 ∉ ks
      · rw [pyAssert_true h, ok_bind, ih]
        congr 1
        simp only [List.forall_mem_cons, eq_iff_iff]
        exact ⟨fun h' => ⟨h, h'⟩, fun h' => h'.2⟩
      · rw [pyAssert_false h, error_bind, if_neg (fun h' => h (h' c (by simp)))]
  simp only [bind_run, Glob.modify, Glob.read, Dict.lookup_set, if_true, Option.getD_some, hf]
  by_cases h : ∀ c ∈ changes, c.1 ∉ Dict.keys ((r.changes.lookup t).getD [])
  · simp only [if_pos h]
    unfold get_model Glob.read pyDict
    simp only [Registry.note, Dict.lookup_set, if_true, Option.getD_some]
    cases r.joint_types.lookup t with
    | none => rfl
    | some jm =>
      dsimp only
      cases r.Q_WIDTHS.lookup t with
      | none => rfl
      | some q =>
        dsimp only
        cases r.QD_WIDTHS.lookup t with
        | none => rfl
        | some qd => rfl
  · simp only [if_neg h]

theorem overwrite_joint_state (replace : χ → Dict ν → χ) {r : Registry α π χ ρ ν γ}
    (hr : r.Consistent) (t : String) (changes : Dict ν) :
    (overwrite_for_joint_type replace t changes r).2.Consistent ∧
    (∀ t' ≠ t, r.SameAt (overwrite_for_joint_type replace t changes r).2 t') ∧
    (overwrite_for_joint_type replace t changes r).2.P_gains = r.P_gains := by
  rw [overwrite_joint_run]
  have hn : (r.note t changes).Consistent := consistent_changes hr _
  split
  · split
    · rename_i jm q qd _ _ _
      obtain ⟨h1, h2, _, h4⟩ := register_state hn t (RegModel.withChanges replace changes jm) q
        (some qd) true
      exact ⟨h1, fun t' h => (same_changes r _ t').trans (h2 t' h), h4⟩
    · exact ⟨hn, fun _ _ => same_changes r _ _, rfl⟩
    · exact ⟨hn, fun _ _ => same_changes r _ _, rfl⟩
  · exact ⟨consistent_changes hr _, fun _ _ => same_changes r _ _, rfl⟩

/-- **C61.** Overwriting the motion config of a registered type, with changes not made before, succeeds;
only the drawing function differs afterwards, and only for this type. -/
theorem C61_overwrite (replace : χ → Dict ν → χ) {r : Registry α π χ ρ ν γ} (hr : r.Consistent)
    {t : String} {q qd : Nat} {jm : RegModel α π χ ρ} (hk : r.Knows t q qd jm) (hd : t ≠ "default")
    (changes : Dict ν)
    (hc : ∀ c ∈ changes, c.1 ∉ Dict.keys ((r.changes.lookup t).getD [])) :
    ∃ r', overwrite_for_joint_type replace t changes r = (.ok (), r') ∧
      r'.Knows t q qd
        { jm with rcmg_draw_fn := fun config => jm.rcmg_draw_fn (replace config changes) } ∧
      ∀ t' ≠ t, r.SameAt r' t' := by
  have hn : (r.note t changes).Consistent := consistent_changes hr _
  have hl : jm.motion.length = qd := by
    rcases hr t with h | ⟨q', qd', jm', hk', hl⟩
    · exact absurd (hk.model.symm.trans h.model) (by simp)
    · have e1 := hk.model.symm.trans hk'.model
      have e2 := hk.qd.symm.trans hk'.qd
      cases e1; cases e2; exact hl
  have hrun := overwrite_joint_run replace r t changes
  rw [if_pos hc, hk.model, hk.q, hk.qd] at hrun
  dsimp only at hrun
  rw [register_run hn, if_neg hd, if_neg (by simp)] at hrun
  dsimp only [Option.getD_some] at hrun
  rw [if_pos (by exact hl)] at hrun
  refine ⟨_, hrun, withType_knows _ _ _ _ _, fun t' h => ?_⟩
  have := (overwrite_joint_state replace hr t changes).2.1 t' h
  rw [hrun] at this
  exact this

/-- **C61.** The same change of the same type cannot be made twice; nothing happens. -/
theorem C61_overwrite_twice (replace : χ → Dict ν → χ) (r : Registry α π χ ρ ν γ) (t : String)
    (changes : Dict ν) {c : String × ν} (hc : c ∈ changes)
    (hp : c.1 ∈ Dict.keys ((r.changes.lookup t).getD [])) :
    ∃ r', overwrite_for_joint_type replace t changes r = (.error .assertion, r') ∧
      ∀ t', r.SameAt r' t' := by
  rw [overwrite_joint_run, if_neg fun h => h c hc hp]
  exact ⟨_, rfl, fun _ => same_changes r _ _⟩

/-- **C61 fails** for the notes on changes: overwriting an unknown type raises, but the changes are
noted, and are refused once the type has been registered. -/
theorem C61_note_fails (replace : χ → Dict ν → χ) {r : Registry α π χ ρ ν γ} (hr : r.Consistent)
    {t : String} (ht : r.Lacks t) (hd : t ≠ "default") (hn : r.changes.lookup t = none)
    (c : String × ν) (jm : RegModel α π χ ρ) :
    ∃ r1 r2 r3, overwrite_for_joint_type replace t [c] r = (.error .assertion, r1) ∧
      register_new_joint_type t jm jm.motion.length none false r1 = (.ok (), r2) ∧
      overwrite_for_joint_type replace t [c] r2 = (.error .assertion, r3) := by
  have h1 : overwrite_for_joint_type replace t [c] r = (.error .assertion, r.note t [c]) := by
    rw [overwrite_joint_run, hn, if_pos (by simp [Dict.keys]), ht.model]
  have hc : (r.note t [c]).Consistent := consistent_changes hr _
  have hl : (r.note t [c]).Lacks t := ht.of_same (same_changes r _ _)
  have hk : t ∉ (r.note t [c]).joint_types.keys := (Dict.lookup_eq_none _ _).1 hl.model
  have h2 := register_run hc t jm jm.motion.length none false
  rw [if_neg hd, if_neg (by simp [hk])] at h2
  dsimp only [Option.getD_none] at h2
  rw [if_pos rfl, if_neg hk] at h2
  refine ⟨_, _, _, h1, h2, (overwrite_joint_run replace _ t [c]).trans (if_neg ?_)⟩
  intro h
  refine h c (by simp) ?_
  dsimp only [Registry.withType, Registry.note]
  rw [Dict.lookup_set, if_pos rfl, hn]
  simp [Dict.update, Dict.set, Dict.keys]

/-! ## Specialising the types of a subsystem -/

theorem keys_postfix_inj {a b p : String} (h : a ++ p = b ++ p) : a = b := by
  have := congrArg String.toList h
  simp only [String.toList_append] at this
  exact String.toList_injective (List.append_cancel_right this)

theorem specialise_state (replace : χ → Dict ν → χ) (pf : String) (changes : Dict ν) (t : String) :
    Keeps (Registry.Consistent (α := α) (π := π) (χ := χ) (ρ := ρ) (ν := ν) (γ := γ))
      (specialise replace pf changes t) := by
  unfold specialise
  refine .bind (.read _) fun jm => .bind (.read _) fun q => .bind (.read _) fun qd => .bind ?_
    fun _ => .bind ?_ fun _ => .bind (.read _) fun g => ?_
  · exact fun r hr => (register_state hr _ _ _ _ _).1
  · exact fun r hr => (overwrite_joint_state replace hr _ _).1
  · intro r hr
    exact hr.of_same "" (fun t _ => ⟨rfl, rfl, rfl⟩) (by
      rcases hr "" with h | ⟨q, qd, jm, hk, hl⟩
      · exact Or.inl ⟨h.model, h.q, h.qd⟩
      · exact Or.inr ⟨q, qd, jm, ⟨hk.model, hk.q, hk.qd⟩, hl⟩)

/-- What a successful pass of the loop has done. -/
theorem specialise_ok (replace : χ → Dict ν → χ) {pf : String} {changes : Dict ν} {t : String}
    {r r' : Registry α π χ ρ ν γ} (hr : r.Consistent)
    (h : specialise replace pf changes t r = (.ok (), r')) :
    r'.Consistent ∧ r.Lacks (t ++ pf) ∧
    (∃ q qd jm g, r.Knows t q qd jm ∧ r'.Knows (t ++ pf) q qd (jm.withChanges replace changes) ∧
      r.P_gains.lookup t = some g ∧ r'.P_gains.lookup (t ++ pf) = some g) ∧
    ∀ t' ≠ t ++ pf, r.SameAt r' t' ∧ r'.P_gains.lookup t' = r.P_gains.lookup t' := by
  have hcons : r'.Consistent := by
    have := specialise_state (α := α) (π := π) (ρ := ρ) (γ := γ) replace pf changes t r hr
    rw [h] at this
    exact this
  unfold specialise at h
  obtain ⟨jm, _, h1, h⟩ := bind_run_inv h
  obtain ⟨e1, rfl⟩ := read_inv h1
  obtain ⟨q, _, h1, h⟩ := bind_run_inv h
  obtain ⟨e2, rfl⟩ := read_inv h1
  obtain ⟨qd, _, h1, h⟩ := bind_run_inv h
  obtain ⟨e3, rfl⟩ := read_inv h1
  obtain ⟨_, r1, h1, h⟩ := bind_run_inv h
  obtain ⟨_, r2, h2, h⟩ := bind_run_inv h
  obtain ⟨g, _, h3, h⟩ := bind_run_inv h
  obtain ⟨e4, rfl⟩ := read_inv h3
  have hk : _ := (C61_success hr h1)
  obtain ⟨hk1, hm, hs1, hl, hd⟩ := hk
  have hl := hl.resolve_right (by simp)
  have hst := register_state hr (t ++ pf) jm q (some qd) false
  rw [h1] at hst
  have ho := overwrite_joint_run replace r1 (t ++ pf) changes
  rw [h2] at ho
  have hso := overwrite_joint_state replace hst.1 (t ++ pf) changes
  rw [h2] at hso
  dsimp only [Option.getD_some] at hk1
  rw [hk1.model, hk1.q, hk1.qd] at ho
  split at ho
  swap
  · cases ho
  dsimp only at ho
  have hk2 := (C61_success (consistent_changes hst.1 _) ho.symm).1
  dsimp only [Option.getD_some] at hk2
  have eg : r2.P_gains = r.P_gains := hso.2.2.trans hst.2.2.2
  have hknow : r.Knows t q qd jm := by
    refine ⟨?_, ?_, ?_⟩
    · cases hx : r.joint_types.lookup t with
      | none => rw [hx] at e1; cases e1
      | some x => rw [hx] at e1; cases e1; rfl
    · unfold pyDict at e2
      cases hx : r.Q_WIDTHS.lookup t with
      | none => rw [hx] at e2; cases e2
      | some x => rw [hx] at e2; cases e2; rfl
    · unfold pyDict at e3
      cases hx : r.QD_WIDTHS.lookup t with
      | none => rw [hx] at e3; cases e3
      | some x => rw [hx] at e3; cases e3; rfl
  have hgain : r.P_gains.lookup t = some g := by
    unfold pyDict at e4
    rw [eg] at e4
    cases hx : r.P_gains.lookup t with
    | none => rw [hx] at e4; cases e4
    | some x => rw [hx] at e4; cases e4; rfl
  unfold Glob.modify at h
  obtain ⟨_, rfl⟩ := Prod.mk.inj h
  refine ⟨hcons, hl, ⟨q, qd, jm, g, hknow, ⟨hk2.model, hk2.q, hk2.qd⟩, hgain,
    by simp [Dict.lookup_set]⟩, ?_⟩
  intro t' ht
  have h' := (hs1 t' ht).trans (hso.2.1 t' ht)
  exact ⟨⟨h'.model, h'.q, h'.qd⟩, by simp [Dict.lookup_set, ht, eg]⟩

theorem each_specialise (replace : χ → Dict ν → χ) {pf : String} {changes : Dict ν} :
    ∀ {ts : List String} {r r' : Registry α π χ ρ ν γ}, r.Consistent → ts.Nodup →
    (∀ t ∈ ts, ¬ r.Lacks t) → Glob.each (specialise replace pf changes) ts r = (.ok (), r') →
    (∀ t ∈ ts, r.Lacks (t ++ pf) ∧
      ∃ q qd jm g, r.Knows t q qd jm ∧ r'.Knows (t ++ pf) q qd (jm.withChanges replace changes) ∧
        r.P_gains.lookup t = some g ∧ r'.P_gains.lookup (t ++ pf) = some g) ∧
    ∀ t', (∀ t ∈ ts, t' ≠ t ++ pf) →
      r.SameAt r' t' ∧ r'.P_gains.lookup t' = r.P_gains.lookup t' := by
  intro ts
  induction ts with
  | nil =>
    intro r r' _ _ _ h
    unfold Glob.each Glob.pure at h
    obtain ⟨_, rfl⟩ := Prod.mk.inj h
    exact ⟨by simp, fun _ _ => ⟨.refl _ _, rfl⟩⟩
  | cons a as ih =>
    intro r r' hr hn hreg h
    obtain ⟨_, r1, h1, h2⟩ := bind_run_inv (m := specialise replace pf changes a)
      (f := fun _ => Glob.each (specialise replace pf changes) as) h
    obtain ⟨hc1, hl1, ⟨q, qd, jm, g, k1, k2, g1, g2⟩, hs1⟩ := specialise_ok replace hr h1
    have hne : ∀ t ∈ as, t ≠ a ++ pf := by
      rintro t ht rfl
      exact hreg _ (by simp [ht]) hl1
    have hinj : ∀ t ∈ as, t ++ pf ≠ a ++ pf := by
      intro t ht e
      have := keys_postfix_inj e
      subst this
      exact (List.nodup_cons.1 hn).1 ht
    obtain ⟨H1, H2⟩ := ih hc1 (List.nodup_cons.1 hn).2 (by
      intro t ht hl
      have e := (hs1 t (hne t ht)).1
      exact hreg t (by simp [ht]) ⟨e.model ▸ hl.model, e.q ▸ hl.q, e.qd ▸ hl.qd⟩) h2
    constructor
    · intro t ht
      rcases List.mem_cons.1 ht with rfl | ht
      · have hs := H2 (t ++ pf) (fun u hu e => hinj u hu e.symm)
        exact ⟨hl1, q, qd, jm, g, k1, hs.1.knows k2, g1, hs.2.trans g2⟩
      · obtain ⟨hl, q, qd, jm, g, k1, k2, g1, g2⟩ := H1 t ht
        have e := hs1 (t ++ pf) (hinj t ht)
        have e' := hs1 t (hne t ht)
        exact ⟨⟨e.1.model ▸ hl.model, e.1.q ▸ hl.q, e.1.qd ▸ hl.qd⟩, q, qd, jm, g,
          e'.1.knows' k1, k2, e'.2 ▸ g1, g2⟩
    · intro t' ht'
      have e := hs1 t' (ht' a (by simp))
      have e' := H2 t' fun t ht => ht' t (by simp [ht])
      exact ⟨e.1.trans e'.1, e'.2.trans e.2⟩


theorem mem_subsystemBodies {s : System α π} (hn : s.link_names.Nodup)
    (hl : s.link_names.length = s.link_parents.length) (ht : Topological s.link_parents)
    {name : String} {k : Nat} (hk : s.link_names[k]? = some name) {fuel : Nat}
    (hf : s.num_links ≤ fuel) :
    ∃ bs, subsystemBodies s fuel name = .ok bs ∧ ∀ i, i ∈ bs ↔ Desc s.link_parents k i := by
  obtain ⟨names, e, _, hm⟩ := subsystem_aux hn hl ht fuel k name hk (by
    unfold System.num_links at hf; omega)
  have hk' : k < s.link_names.length := (List.getElem?_eq_some_iff.1 hk).1
  have hidx : ∀ i n, s.link_names[i]? = some n → s.name_to_idx n = .ok i := fun i n h =>
    name_to_idx_of_nodup hn h
  have hmap : names.mapM s.name_to_idx = .ok (names.map fun n => s.link_names.idxOf n) := by
    apply mapM_ok
    intro n hn'
    obtain ⟨i, hi, _, _⟩ := (hm n).1 hn'
    rw [hidx i n hi]
    have : s.link_names.idxOf n = i := by
      obtain ⟨h1, h2⟩ := List.getElem?_eq_some_iff.1 hi
      rw [← h2, hn.idxOf_getElem]
    rw [this]
  refine ⟨names.map (fun n => s.link_names.idxOf n) ++ [k], ?_, ?_⟩
  · unfold subsystemBodies
    rw [e, ok_bind, hmap, ok_bind, hidx k name hk, ok_bind]
    rfl
  · intro i
    simp only [List.mem_append, List.mem_map, List.mem_singleton]
    constructor
    · rintro (⟨n, hn', rfl⟩ | rfl)
      · obtain ⟨i, hi, hd, _⟩ := (hm n).1 hn'
        have : s.link_names.idxOf n = i := by
          obtain ⟨h1, h2⟩ := List.getElem?_eq_some_iff.1 hi
          rw [← h2, hn.idxOf_getElem]
        rw [this]
        exact hd
      · exact .self
    · intro hd
      by_cases h : i = k
      · exact Or.inr h
      · left
        have hi : i < s.link_names.length := by
          cases hd with
          | self => exact absurd rfl h
          | step hp _ =>
            rw [hl]
            exact (List.getElem?_eq_some_iff.1 hp).1
        refine ⟨s.link_names[i], (hm _).2 ⟨i, List.getElem?_eq_getElem hi, hd, h⟩, ?_⟩
        rw [hn.idxOf_getElem]

/-- The widths as the system code sees them. -/
def Registry.env (r : Registry α π χ ρ ν γ) (E : Env α π) : Env α π :=
  { E with qw := fun t => r.Q_WIDTHS.lookup t, dw := fun t => r.QD_WIDTHS.lookup t }

theorem sumWidths_congr {w w' : String → Option Nat} : ∀ {ts ts' : List String},
    List.Forall₂ (fun t t' => w' t' = w t) ts ts' → sumWidths w' ts' = sumWidths w ts
  | _, _, .nil => rfl
  | _, _, .cons h hs => by
    unfold sumWidths width
    rw [h, sumWidths_congr hs]

/-- **C61.** Specialising a subsystem: exactly the joints of the subsystem below the link (other than
frozen ones) get the type with the name of the link appended.  The new type has the widths, the
transform, the motion axes and the gains of the old one and differs in the drawing only; the types
that existed are as before, and the system keeps the sizes of its coordinates. -/
theorem C61_subsystem (replace : χ → Dict ν → χ) {order : List String → List String}
    (hord : ∀ l, (order l).Perm l) {r r' : Registry α π χ ρ ν γ} (hr : r.Consistent)
    {sys sys' : System α π} (hn : sys.link_names.Nodup)
    (hl : sys.link_names.length = sys.link_parents.length) (ht : Topological sys.link_parents)
    (hreg : ∀ t ∈ sys.link_types, ¬ r.Lacks t) {name : String} {k : Nat}
    (hk : sys.link_names[k]? = some name) {fuel : Nat} (hf : sys.num_links ≤ fuel)
    {changes : Dict ν}
    (h : overwrite_for_subsystem replace order fuel sys name changes r = (.ok sys', r')) :
    sys' = { sys with link_types := sys'.link_types } ∧
    sys'.link_types.length = sys.link_types.length ∧
    (∀ (i : Nat) (t : String), sys.link_types[i]? = some t →
      Desc sys.link_parents k i ∧ t ≠ "frozen" →
      sys'.link_types[i]? = some (t ++ ("_" ++ name)) ∧ r.Lacks (t ++ ("_" ++ name)) ∧
      ∃ q qd jm g, r.Knows t q qd jm ∧ r'.Knows (t ++ ("_" ++ name)) q qd
          { jm with rcmg_draw_fn := fun config => jm.rcmg_draw_fn (replace config changes) } ∧
        r.P_gains.lookup t = some g ∧ r'.P_gains.lookup (t ++ ("_" ++ name)) = some g) ∧
    (∀ (i : Nat) (t : String), sys.link_types[i]? = some t →
      ¬ (Desc sys.link_parents k i ∧ t ≠ "frozen") → sys'.link_types[i]? = some t) ∧
    (∀ t, ¬ r.Lacks t → r.SameAt r' t) ∧
    (∀ E : Env α π, sys'.q_size (r'.env E) = sys.q_size (r.env E) ∧
      sys'.qd_size (r'.env E) = sys.qd_size (r.env E)) := by
  obtain ⟨bs, hb, hmem⟩ := mem_subsystemBodies hn hl ht hk hf
  unfold overwrite_for_subsystem at h
  obtain ⟨bs', r0, h1, h⟩ := bind_run_inv h
  obtain ⟨e1, rfl⟩ := read_inv h1
  cases e1.symm.trans hb
  obtain ⟨_, r1, h2, h⟩ := bind_run_inv h
  obtain ⟨hs, rfl⟩ := Prod.mk.inj h
  cases hs
  have hmt : ∀ t, t ∈ subsystemTypes sys order bs ↔
      t ≠ "frozen" ∧ ∃ i, Desc sys.link_parents k i ∧ sys.link_types[i]? = some t := by
    intro t
    unfold subsystemTypes
    rw [(hord _).mem_iff]
    simp only [List.mem_filter, List.mem_dedup, List.mem_filterMap, decide_eq_true_eq, hmem]
    tauto
  have hnd : (subsystemTypes sys order bs).Nodup := by
    unfold subsystemTypes
    exact (hord _).nodup_iff.2 ((List.nodup_dedup _).filter _)
  obtain ⟨H1, H2⟩ := each_specialise replace hr hnd (by
    intro t htm
    obtain ⟨_, i, _, hi⟩ := (hmt t).1 htm
    exact hreg t (List.mem_of_getElem? hi)) h2
  have hget : ∀ (i : Nat) (t : String), sys.link_types[i]? = some t →
      (renameTypes sys bs ("_" ++ name))[i]? = some
        (if i ∈ bs ∧ t ≠ "frozen" then t ++ ("_" ++ name) else t) := by
    intro i t hi
    unfold renameTypes
    rw [List.getElem?_map, List.getElem?_zipIdx, hi]
    simp
  have hsame : ∀ t, ¬ r.Lacks t → r.SameAt r1 t := by
    intro t hlk
    refine (H2 t ?_).1
    rintro u hu rfl
    exact hlk (H1 u hu).1
  have hin : ∀ (i : Nat) (t : String), sys.link_types[i]? = some t →
      Desc sys.link_parents k i ∧ t ≠ "frozen" →
      (renameTypes sys bs ("_" ++ name))[i]? = some (t ++ ("_" ++ name)) ∧
        r.Lacks (t ++ ("_" ++ name)) ∧
      ∃ q qd jm g, r.Knows t q qd jm ∧ r1.Knows (t ++ ("_" ++ name)) q qd
          (jm.withChanges replace changes) ∧
        r.P_gains.lookup t = some g ∧ r1.P_gains.lookup (t ++ ("_" ++ name)) = some g := by
    rintro i t hi ⟨hd, hfr⟩
    obtain ⟨a1, a2⟩ := H1 t ((hmt t).2 ⟨hfr, i, hd, hi⟩)
    refine ⟨?_, a1, a2⟩
    rw [hget i t hi, if_pos ⟨(hmem i).2 hd, hfr⟩]
  have hout : ∀ (i : Nat) (t : String), sys.link_types[i]? = some t →
      ¬ (Desc sys.link_parents k i ∧ t ≠ "frozen") →
      (renameTypes sys bs ("_" ++ name))[i]? = some t := by
    intro i t hi hnot
    rw [hget i t hi, if_neg (by rwa [hmem])]
  have hlen : (renameTypes sys bs ("_" ++ name)).length = sys.link_types.length := by
    unfold renameTypes
    simp
  refine ⟨rfl, hlen, hin, hout, hsame, fun E => ?_⟩
  have hw : List.Forall₂ (fun t t' => r1.Q_WIDTHS.lookup t' = r.Q_WIDTHS.lookup t ∧
      r1.QD_WIDTHS.lookup t' = r.QD_WIDTHS.lookup t) sys.link_types
        (renameTypes sys bs ("_" ++ name)) := by
    rw [List.forall₂_iff_get]
    refine ⟨hlen.symm, fun i hi hi' => ?_⟩
    have e := List.getElem?_eq_getElem hi
    by_cases hd : Desc sys.link_parents k i ∧ sys.link_types[i] ≠ "frozen"
    · obtain ⟨e', _, q, qd, jm, g, k1, k2, _⟩ := hin i _ e hd
      rw [List.getElem?_eq_getElem hi'] at e'
      simp only [List.get_eq_getElem]
      rw [Option.some.inj e']
      exact ⟨k2.q.trans k1.q.symm, k2.qd.trans k1.qd.symm⟩
    · have e' := hout i _ e hd
      rw [List.getElem?_eq_getElem hi'] at e'
      simp only [List.get_eq_getElem]
      rw [Option.some.inj e']
      have := hsame _ (hreg _ (List.getElem_mem hi))
      exact ⟨this.q, this.qd⟩
  exact ⟨sumWidths_congr (hw.imp fun _ _ h => h.1), sumWidths_congr (hw.imp fun _ _ h => h.2)⟩

theorem specialise_succeeds (replace : χ → Dict ν → χ) {pf : String} (changes : Dict ν) {t : String}
    {r : Registry α π χ ρ ν γ} (hr : r.Consistent) {q qd : Nat} {jm : RegModel α π χ ρ}
    (hk : r.Knows t q qd jm) (hl : r.Lacks (t ++ pf)) (hd : t ++ pf ≠ "default")
    (hc : r.changes.lookup (t ++ pf) = none) {g : γ} (hg : r.P_gains.lookup t = some g) :
    ∃ r', specialise replace pf changes t r = (.ok (), r') ∧
      ∀ t' ≠ t ++ pf, r'.changes.lookup t' = r.changes.lookup t' := by
  have hm : jm.motion.length = qd := by
    rcases hr t with h | ⟨q', qd', jm', hk', hl⟩
    · exact absurd (hk.model.symm.trans h.model) (by simp)
    · have e1 := hk.model.symm.trans hk'.model
      have e2 := hk.qd.symm.trans hk'.qd
      cases e1; cases e2; exact hl
  have hnk : t ++ pf ∉ r.joint_types.keys := (Dict.lookup_eq_none _ _).1 hl.model
  have h1 := register_run hr (t ++ pf) jm q (some qd) false
  rw [if_neg hd, if_neg (by simp [hnk])] at h1
  dsimp only [Option.getD_some] at h1
  rw [if_pos hm, if_neg hnk] at h1
  have hst := register_state hr (t ++ pf) jm q (some qd) false
  rw [h1] at hst
  have hk1 := withType_knows r (t ++ pf) q qd jm
  have h2 := overwrite_joint_run replace (r.withType (t ++ pf) q qd jm) (t ++ pf) changes
  rw [if_pos (by rw [hst.2.2.1, hc]; simp [Dict.keys]), hk1.model, hk1.q, hk1.qd] at h2
  dsimp only at h2
  have hn := consistent_changes hst.1 ((Registry.note (r.withType (t ++ pf) q qd jm) (t ++ pf)
    changes).changes)
  have h3 := register_run hn (t ++ pf) (jm.withChanges replace changes) q (some qd) true
  rw [if_neg hd, if_neg (by simp)] at h3
  dsimp only [Option.getD_some] at h3
  rw [if_pos (show (jm.withChanges replace changes).motion.length = qd from hm)] at h3
  have hst3 := register_state hn (t ++ pf) (jm.withChanges replace changes) q (some qd) true
  rw [h3] at hst3
  obtain ⟨S, h2, hch, hgs⟩ : ∃ S, overwrite_for_joint_type replace (t ++ pf) changes
      (r.withType (t ++ pf) q qd jm) = (.ok (), S) ∧ S.changes = (Registry.note
        (r.withType (t ++ pf) q qd jm) (t ++ pf) changes).changes ∧ S.P_gains = r.P_gains :=
    ⟨_, h2.trans h3, hst3.2.2.1, hst3.2.2.2⟩
  refine ⟨{ S with P_gains := S.P_gains.set (t ++ pf) g }, ?_, ?_⟩
  · unfold specialise
    have e1 : get_model t r = (.ok jm, r) := by unfold get_model Glob.read; dsimp only; rw [hk.model]
    have e2 : Glob.read (fun r : Registry α π χ ρ ν γ => pyDict r.Q_WIDTHS t) r = (.ok q, r) := by
      unfold Glob.read pyDict; dsimp only; rw [hk.q]
    have e3 : Glob.read (fun r : Registry α π χ ρ ν γ => pyDict r.QD_WIDTHS t) r = (.ok qd, r) := by
      unfold Glob.read pyDict; dsimp only; rw [hk.qd]
    have e4 : Glob.read (fun r : Registry α π χ ρ ν γ => pyDict r.P_gains t) S = (.ok g, S) := by
      unfold Glob.read pyDict
      dsimp only
      rw [show S.P_gains = r.P_gains from hgs, hg]
    rw [bind_run_ok e1, bind_run_ok e2, bind_run_ok e3, bind_run_ok h1, bind_run_ok h2,
      bind_run_ok e4]
    rfl
  · intro t' ht'
    show S.changes.lookup t' = _
    rw [show S.changes = _ from hch]
    dsimp only [Registry.note]
    rw [Dict.lookup_set, if_neg ht', Dict.lookup_set, if_neg ht', hst.2.2.1]

theorem each_specialise_succeeds (replace : χ → Dict ν → χ) {pf : String} (changes : Dict ν) :
    ∀ {ts : List String} {r : Registry α π χ ρ ν γ}, r.Consistent → ts.Nodup →
    (∀ t ∈ ts, ¬ r.Lacks t ∧ r.Lacks (t ++ pf) ∧ t ++ pf ≠ "default" ∧
      r.changes.lookup (t ++ pf) = none ∧ ∃ g, r.P_gains.lookup t = some g) →
    ∃ r', Glob.each (specialise replace pf changes) ts r = (.ok (), r') := by
  intro ts
  induction ts with
  | nil => intro r _ _ _; exact ⟨r, rfl⟩
  | cons a as ih =>
    intro r hr hn H
    obtain ⟨h1, h2, h3, h4, g, h5⟩ := H a (by simp)
    obtain ⟨q, qd, jm, hk, _⟩ := (hr a).resolve_left h1
    obtain ⟨r1, e1, hch⟩ := specialise_succeeds replace changes hr hk h2 h3 h4 h5
    obtain ⟨hc1, _, _, hs1⟩ := specialise_ok replace hr e1
    obtain ⟨r', e'⟩ := ih hc1 (List.nodup_cons.1 hn).2 (by
      intro t ht
      obtain ⟨a1, a2, a3, a4, g', a5⟩ := H t (by simp [ht])
      have hne : t ≠ a ++ pf := by rintro rfl; exact a1 h2
      have hinj : t ++ pf ≠ a ++ pf := by
        intro e
        have := keys_postfix_inj e
        subst this
        exact (List.nodup_cons.1 hn).1 ht
      have s1 := hs1 t hne
      refine ⟨fun hl => a1 ⟨s1.1.model ▸ hl.model, s1.1.q ▸ hl.q, s1.1.qd ▸ hl.qd⟩,
        a2.of_same (hs1 _ hinj).1, a3, (hch _ hinj).trans a4, g', s1.2.trans a5⟩)
    exact ⟨r', (bind_run_ok (f := fun _ => Glob.each (specialise replace pf changes) as) e1).trans
      e'⟩

/-- **C61.** Specialising succeeds when all types of the subsystem are registered and have gains, and
the new names are free and were never overwritten. -/
theorem C61_subsystem_ok (replace : χ → Dict ν → χ) {order : List String → List String}
    (hord : ∀ l, (order l).Perm l) {r : Registry α π χ ρ ν γ} (hr : r.Consistent)
    {sys : System α π} (hn : sys.link_names.Nodup)
    (hl : sys.link_names.length = sys.link_parents.length) (ht : Topological sys.link_parents)
    {name : String} {k : Nat} (hk : sys.link_names[k]? = some name) {fuel : Nat}
    (hf : sys.num_links ≤ fuel) (changes : Dict ν)
    (H : ∀ t ∈ sys.link_types, t ≠ "frozen" → ¬ r.Lacks t ∧ r.Lacks (t ++ ("_" ++ name)) ∧
      t ++ ("_" ++ name) ≠ "default" ∧ r.changes.lookup (t ++ ("_" ++ name)) = none ∧
      ∃ g, r.P_gains.lookup t = some g) :
    ∃ sys' r', overwrite_for_subsystem replace order fuel sys name changes r = (.ok sys', r') := by
  obtain ⟨bs, hb, hmem⟩ := mem_subsystemBodies hn hl ht hk hf
  obtain ⟨r', e⟩ := each_specialise_succeeds replace changes hr
    (ts := subsystemTypes sys order bs) (pf := "_" ++ name)
    ((hord _).nodup_iff.2 ((List.nodup_dedup _).filter _)) (by
      intro t htm
      unfold subsystemTypes at htm
      rw [(hord _).mem_iff] at htm
      simp only [List.mem_filter, List.mem_dedup, List.mem_filterMap, decide_eq_true_eq] at htm
      obtain ⟨⟨i, _, hi⟩, hfr⟩ := htm
      exact H t (List.mem_of_getElem? hi) hfr)
  refine ⟨{ sys with link_types := renameTypes sys bs ("_" ++ name) }, r', ?_⟩
  unfold overwrite_for_subsystem
  rw [bind_run_ok (b := bs) (s' := r) (by unfold Glob.read; rw [hb]), bind_run_ok e]
  rfl

/-! ## Histories -/

/-- One use of the registry. -/
inductive Use (α π χ ρ ν : Type) where
  | register (t : String) (jm : RegModel α π χ ρ) (q : Nat) (qd : Option Nat) (overwrite : Bool)
  | overwriteType (t : String) (changes : Dict ν)
  | overwriteSubsystem (order : List String → List String) (fuel : Nat) (sys : System α π)
      (name : String) (changes : Dict ν)

/-- The registry a use leaves behind, whether it raises or not. -/
def Use.after (replace : χ → Dict ν → χ) (r : Registry α π χ ρ ν γ) :
    Use α π χ ρ ν → Registry α π χ ρ ν γ
  | .register t jm q qd ow => (register_new_joint_type t jm q qd ow r).2
  | .overwriteType t changes => (overwrite_for_joint_type replace t changes r).2
  | .overwriteSubsystem order fuel sys name changes =>
    (overwrite_for_subsystem replace order fuel sys name changes r).2

/-- **C61.** After any history of registrations, overwritings and specialisations, failed or not,
every registered type has a joint model with one motion axis per velocity coordinate, and both
widths. -/
theorem C61_history (replace : χ → Dict ν → χ) (uses : List (Use α π χ ρ ν))
    {r : Registry α π χ ρ ν γ} (hr : r.Consistent) :
    (uses.foldl (Use.after replace) r).Consistent := by
  induction uses generalizing r with
  | nil => exact hr
  | cons u us ih =>
    refine ih ?_
    cases u with
    | register t jm q qd ow => exact (register_state hr t jm q qd ow).1
    | overwriteType t changes => exact (overwrite_joint_state replace hr t changes).1
    | overwriteSubsystem order fuel sys name changes =>
      unfold Use.after overwrite_for_subsystem
      exact ((Keeps.read _).bind fun _ => (Keeps.each (specialise_state replace _ _) _).bind
        fun _ => fun _ h => h) r hr

/-! ## The registry of the package -/

/-- all built-in joints -/
def allBuiltIn : List BuiltIn :=
  [.free, .free_2d, .frozen, .spherical, .p3d, .cor, .r .x, .r .y, .r .z, .p .x, .p .y, .p .z,
    .saddle]

/-- The registry after import: the dictionaries of `/repo/src/ring/algorithms/jcalc.py:934-1050` and
`/repo/src/ring/base.py:369-400`. -/
noncomputable def initial (draw : BuiltIn → χ → ρ) (gains : Dict γ) : Registry ℝ π χ ρ ν γ where
  joint_types := allBuiltIn.map fun b => (b.name, { b.model with rcmg_draw_fn := draw b })
  Q_WIDTHS := allBuiltIn.map fun b => (b.name, b.q_width)
  QD_WIDTHS := allBuiltIn.map fun b => (b.name, b.qd_width)
  changes := []
  P_gains := gains

theorem lookup_map_pair {ι δ : Type} (l : List ι) (name : ι → String) (f : ι → δ) (t : String) :
    (l.map fun b => (name b, f b)).lookup t = (l.find? fun b => t = name b).map f := by
  induction l with
  | nil => rfl
  | cons a l ih =>
    rw [List.map_cons, Dict.lookup_if, List.find?_cons]
    by_cases h : t = name a
    · simp [h]
    · simp [h, ih]

/-- **C61.** The registry is consistent from the start. -/
theorem C61_initial (draw : BuiltIn → χ → ρ) (gains : Dict γ) :
    (initial draw gains : Registry ℝ π χ ρ ν γ).Consistent := by
  intro t
  cases h : allBuiltIn.find? fun b => t = b.name with
  | none =>
    left
    constructor <;> (dsimp only [initial]; rw [lookup_map_pair, h]; rfl)
  | some b =>
    right
    refine ⟨b.q_width, b.qd_width, { b.model with rcmg_draw_fn := draw b }, ⟨?_, ?_, ?_⟩, ?_⟩
    · dsimp only [initial]; rw [lookup_map_pair, h]; rfl
    · dsimp only [initial]; rw [lookup_map_pair, h]; rfl
    · dsimp only [initial]; rw [lookup_map_pair, h]; rfl
    · rcases b with _ | _ | _ | _ | _ | _ | a | a | _ <;> rfl

/-- A new type with one axis can be registered, after which it cannot be registered again. -/
example (draw : BuiltIn → χ → ρ) (d : χ → ρ) :
    ∃ r', register_new_joint_type "my" { (BuiltIn.r .x).model with rcmg_draw_fn := d } 1 none false
        (initial draw [] : Registry ℝ Unit χ ρ ν Unit) = (.ok (), r') ∧
      register_new_joint_type "my" { (BuiltIn.r .x).model with rcmg_draw_fn := d } 1 none false r'
        = (.error .assertion, r') := by
  have hc := C61_initial (π := Unit) (ν := ν) draw ([] : Dict Unit)
  have hl : "my" ∉ (initial draw [] : Registry ℝ Unit χ ρ ν Unit).joint_types.keys := by
    simp [initial, Dict.keys, allBuiltIn, BuiltIn.name]
  have h := register_run hc "my" { (BuiltIn.r .x).model with rcmg_draw_fn := d } 1 none false
  rw [if_neg (by decide), if_neg (by simp [hl])] at h
  dsimp only [Option.getD_none] at h
  rw [if_pos (show (BuiltIn.r .x).model.motion.length = 1 from rfl), if_neg hl] at h
  refine ⟨_, h, C61_exists ?_ ?_ _ _ _⟩
  · have := (register_state hc "my" { (BuiltIn.r .x).model with rcmg_draw_fn := d } 1 none false).1
    rw [h] at this
    exact this
  · rintro ⟨h1, _, _⟩
    simp [Registry.withType, Dict.lookup_set] at h1

/-- Replacing a built-in type by a model with too few axes removes it. -/
example (draw : BuiltIn → χ → ρ) (d : χ → ρ) :
    ∃ r', register_new_joint_type "free" { (BuiltIn.r .x).model with rcmg_draw_fn := d } 7 none true
        (initial draw [] : Registry ℝ Unit χ ρ ν Unit) = (.error .assertion, r') ∧
      r'.Lacks "free" := by
  refine C61_atomic_fails (C61_initial draw []) ?_ (by decide) _ _
    (show (BuiltIn.r .x).model.motion.length ≠ 7 by simp [BuiltIn.model])
  rintro ⟨h, _, _⟩
  simp [initial, allBuiltIn, BuiltIn.name] at h

/-- The joints of the subtree below `b` of the example system can be given their own config. -/
example (draw : BuiltIn → χ → ρ) (replace : χ → Dict ν → χ) (changes : Dict ν) :
    ∃ sys' r', overwrite_for_subsystem replace id 4 kinSys "b" changes
      (initial draw [("free", 1), ("rx", 2), ("py", 3), ("spherical", 4)] : Registry ℝ Unit χ ρ ν Nat)
        = (.ok sys', r') := by
  refine C61_subsystem_ok replace (fun l => .refl l) (C61_initial draw _) (k := 1) (by simp [kinSys])
    rfl kinSys_wf.topo rfl (by simp [kinSys, System.num_links]) changes ?_
  intro t ht _
  simp only [kinSys, List.mem_cons, List.not_mem_nil, or_false] at ht
  rcases ht with rfl | rfl | rfl | rfl <;>
    refine ⟨?_, ⟨?_, ?_, ?_⟩, by decide, rfl, ?_⟩ <;>
    first
      | (rintro ⟨h, _, _⟩; simp [initial, allBuiltIn, BuiltIn.name] at h; done)
      | (simp [initial, allBuiltIn, BuiltIn.name]; done)
      | (exact ⟨_, rfl⟩)

end RingLib.jcalc
