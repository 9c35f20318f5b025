import Verif.Props.Dict

/-!
# C45: links by number
-/

namespace RingLib
namespace generator
open System Dict
variable {β : Type}

theorem toString_nat_inj {m n : Nat} (h : toString m = toString n) : m = n := by
  have h1 := congrArg String.toList h
  rw [Nat.toString_eq_repr, Nat.toString_eq_repr, Nat.toList_repr, Nat.toList_repr] at h1
  rw [← @Nat.ofDigitChars_ten_toDigits m, h1, Nat.ofDigitChars_ten_toDigits]

theorem perm_del {d : Dict β} {k : String} {v : β} (hn : d.keys.Nodup) (h : (k, v) ∈ d) :
    d.Perm ((k, v) :: d.del k) := by
  induction d with
  | nil => simp at h
  | cons a as ih =>
    obtain ⟨ka, va⟩ := a
    have hn' : ka ∉ keys as ∧ (keys as).Nodup := by simpa [keys] using hn
    rcases List.mem_cons.1 h with h1 | h1
    · obtain ⟨rfl, rfl⟩ := Prod.mk.inj h1
      have : del ((k, v) :: as) k = as := by
        unfold del
        rw [List.filter_cons]
        simp only [ne_eq, not_true_eq_false, decide_false, Bool.false_eq_true, if_false]
        rw [List.filter_eq_self]
        intro x hx
        have : x.1 ≠ k := by
          rintro rfl
          exact hn'.1 (List.mem_map_of_mem (f := Prod.fst) hx)
        simpa using this
      rw [this]
    · have hk : ka ≠ k := by
        rintro rfl
        exact hn'.1 (List.mem_map_of_mem (f := Prod.fst) h1)
      have : del ((ka, va) :: as) k = (ka, va) :: del as k := by
        unfold del
        rw [List.filter_cons]
        simp [hk]
      rw [this]
      exact ((ih hn'.2 h1).cons _).trans (List.Perm.swap _ _ _)

/-- The name of a link when links are numbered. -/
def newName (names : List String) (k : String) : String :=
  if k ∈ names then toString (names.idxOf k) else k

/-- No link to be renamed gets a number that is already in use as another key. -/
def NumbersFree (names keys : List String) : Prop :=
  ∀ k ∈ keys, k ∈ names → toString (names.idxOf k) ∈ keys → toString (names.idxOf k) = k

theorem newName_inj {names keys : List String} (h : NumbersFree names keys) {k k' : String}
    (hk : k ∈ keys) (hk' : k' ∈ keys) (he : newName names k = newName names k') : k = k' := by
  unfold newName at he
  by_cases h1 : k ∈ names <;> by_cases h2 : k' ∈ names
  · rw [if_pos h1, if_pos h2] at he
    exact (List.idxOf_inj h1).1 (toString_nat_inj he)
  · rw [if_pos h1, if_neg h2] at he
    have := h k hk h1 (by rw [he]; exact hk')
    rw [← this, he]
  · rw [if_neg h1, if_pos h2] at he
    have := h k' hk' h2 (by rw [← he]; exact hk)
    rw [← this, he]
  · rw [if_neg h1, if_neg h2] at he
    exact he

theorem rename_fold {names : List String} {d : Dict β} (hd : d.keys.Nodup)
    (hfree : NumbersFree names d.keys) : ∀ (todo done : List String) (c : Dict β),
    d.keys = done ++ todo →
    c.Perm (d.map fun x => (if x.1 ∈ done then newName names x.1 else x.1, x.2)) →
    c.keys.Nodup →
    ∃ c', todo.foldlM (renameStep names) c = .ok c' ∧
      c'.Perm (d.map fun x => (newName names x.1, x.2)) ∧ c'.keys.Nodup := by
  intro todo
  induction todo with
  | nil =>
    intro done c hk hp hn
    refine ⟨c, rfl, ?_, hn⟩
    refine hp.trans (List.Perm.of_eq (List.map_congr_left ?_))
    intro x hx
    have : x.1 ∈ done := by
      have : x.1 ∈ d.keys := List.mem_map_of_mem (f := Prod.fst) hx
      simpa [hk] using this
    rw [if_pos this]
  | cons k ks ih =>
    intro done c hk hp hn
    have hkd : k ∈ d.keys := by rw [hk]; simp
    have hknd : k ∉ done := by
      have := hd
      rw [hk, List.nodup_append] at this
      intro h
      exact this.2.2 k h k (by simp) rfl
    rw [List.foldlM_cons]
    unfold renameStep
    by_cases hkn : k ∈ names
    · rw [if_pos hkn]
      obtain ⟨v, hv⟩ := (lookup_isSome _ _).1 hkd
      have hvm := Dict.lookup_mem hv
      have hvc : (k, v) ∈ c := hp.symm.subset (List.mem_map.2 ⟨(k, v), hvm, by simp [hknd]⟩)
      have hpop : c.pop k = .ok (v, c.del k) := by
        unfold Dict.pop pyDict
        rw [Dict.lookup_of_mem hn hvc]
        rfl
      rw [hpop, ok_bind]
      dsimp only
      set s := toString (names.idxOf k) with hs
      have hnew : newName names k = s := by rw [newName, if_pos hkn]
      have hsc : s ∉ (c.del k).keys := by
        intro hmem
        obtain ⟨x, hx, hxs⟩ := List.mem_map.1 hmem
        unfold Dict.del at hx
        rw [List.mem_filter] at hx
        have hxk : x.1 ≠ k := by simpa using hx.2
        obtain ⟨y, hy, hyx⟩ := List.mem_map.1 (hp.subset hx.1)
        have hyd : y.1 ∈ d.keys := List.mem_map_of_mem (f := Prod.fst) hy
        have hyx : (if y.1 ∈ done then newName names y.1 else y.1) = x.1 := congrArg Prod.fst hyx
        rw [hxs] at hyx
        by_cases hyd' : y.1 ∈ done
        · rw [if_pos hyd', ← hnew] at hyx
          have := newName_inj hfree hyd hkd hyx
          exact hknd (this ▸ hyd')
        · rw [if_neg hyd'] at hyx
          have := hfree k hkd hkn (by rw [← hs, ← hyx]; exact hyd)
          exact hxk (hxs.trans this)
      have hset : (c.del k).set s v = c.del k ++ [(s, v)] := by
        unfold Dict.set
        rw [if_neg hsc]
      rw [hset, ok_bind]
      have hdel : (c.del k).Perm ((d.del k).map fun x =>
          (if x.1 ∈ done then newName names x.1 else x.1, x.2)) := by
        have h1 := (perm_del hn hvc).symm.trans (hp.trans ((perm_del hd hvm).map _))
        rw [List.map_cons] at h1
        simp only [hknd, if_false] at h1
        exact (List.perm_cons _).1 h1
      refine ih (done ++ [k]) _ (by rw [hk]; simp) ?_ ?_
      · refine (List.perm_append_singleton _ _).trans ?_
        refine List.Perm.trans ?_ ((perm_del hd hvm).map _).symm
        rw [List.map_cons]
        simp only [List.mem_append, List.mem_singleton, or_true, if_true, hnew]
        refine List.Perm.cons _ (hdel.trans (List.Perm.of_eq (List.map_congr_left ?_)))
        intro x hx
        have : x.1 ≠ k := by
          unfold Dict.del at hx
          rw [List.mem_filter] at hx
          simpa using hx.2
        simp [this]
      · unfold Dict.keys
        rw [List.map_append, List.nodup_append]
        refine ⟨?_, by simp, ?_⟩
        · have : (c.del k).Sublist c := List.filter_sublist
          exact hn.sublist (this.map _)
        · intro a ha b hb
          simp at hb
          rintro rfl
          exact hsc (hb ▸ ha)
    · rw [if_neg hkn, ok_bind]
      refine ih (done ++ [k]) c (by rw [hk]; simp) (hp.trans (List.Perm.of_eq ?_)) hn
      apply List.map_congr_left
      intro x _
      by_cases hx : x.1 = k
      · have h1 : x.1 ∉ done := by rw [hx]; exact hknd
        rw [if_neg h1, if_pos (by simp [hx])]
        simp [newName, hx, hkn]
      · simp [hx]

/-- C45, partially: renaming keeps every value, stores the data of the `i`-th link under the number `i`
and leaves other keys alone; different keys stay different. Missing: links whose name is the number of
another link, see `C45_rename_fails`. -/
theorem C45_rename_partial {names : List String} {d : Dict β} (hd : d.keys.Nodup)
    (hfree : NumbersFree names d.keys) :
    ∃ d', _rename_links d names = .ok d' ∧ d'.keys.Nodup ∧ d'.length = d.length ∧
      (∀ i (hi : i < names.length) v, names.Nodup → (names[i], v) ∈ d → (toString i, v) ∈ d') ∧
      (∀ k v, k ∉ names → (k, v) ∈ d → (k, v) ∈ d') ∧
      (∀ k' v, (k', v) ∈ d' → ∃ k, (k, v) ∈ d ∧ k' = newName names k) := by
  obtain ⟨d', h1, h2, h3⟩ := rename_fold hd hfree d.keys [] d (by simp)
    (List.Perm.of_eq (by simp)) hd
  have hin : ∀ k v, (k, v) ∈ d → (newName names k, v) ∈ d' := fun k v h =>
    h2.symm.subset (List.mem_map.2 ⟨(k, v), h, rfl⟩)
  refine ⟨d', h1, h3, by simpa using h2.length_eq, ?_, ?_, ?_⟩
  · intro i hi v hnn h
    have := hin _ _ h
    rw [newName, if_pos (List.getElem_mem hi), hnn.idxOf_getElem] at this
    exact this
  · intro k v hk h
    have := hin _ _ h
    rwa [newName, if_neg hk] at this
  · intro k' v h
    obtain ⟨x, hx, hxe⟩ := List.mem_map.1 (h2.subset h)
    obtain ⟨rfl, rfl⟩ := Prod.mk.inj hxe
    exact ⟨x.1, hx, rfl⟩

/-- C45 fails if the name of a link is the number of another one: the data of the link named `0` is
lost, and the data of `a`, the first link, is stored under the number of the second. -/
theorem C45_rename_fails :
    _rename_links [("a", 10), ("0", (20 : Nat))] ["a", "0"] = .ok [("1", 10)] := by
  rfl

example : (Dict.keys [("thigh", (1 : Nat)), ("shank", 2), ("dt", 3)]).Nodup ∧
    NumbersFree ["pelvis", "thigh", "shank"] (Dict.keys [("thigh", (1 : Nat)), ("shank", 2),
      ("dt", 3)]) ∧
    _rename_links [("thigh", (1 : Nat)), ("shank", 2), ("dt", 3)] ["pelvis", "thigh", "shank"] =
      .ok [("dt", 3), ("1", 1), ("2", 2)] := by
  refine ⟨by decide, ?_, by rfl⟩
  unfold NumbersFree Dict.keys
  decide

end generator
end RingLib
