import Verif.Model.Utils
import Verif.Props.Sizes

/-!
# C48 and the renaming of C45: dictionaries
-/

namespace RingLib

/-! ## lemmas on python dictionaries -/

namespace Dict
variable {β : Type}

theorem lookup_if (k k' : String) (v : β) (d : Dict β) :
    List.lookup k ((k', v) :: d) = if k = k' then some v else List.lookup k d := by
  rw [List.lookup_cons]
  by_cases h : k = k'
  · simp [h]
  · have : (k == k') = false := by simpa using h
    rw [this, if_neg h]

theorem lookup_map_set (d : Dict β) (k : String) (v : β) (k' : String) :
    List.lookup k' (d.map fun x => if x.1 = k then (k, v) else x) =
      if k' = k then (List.lookup k' d).map fun _ => v else List.lookup k' d := by
  induction d with
  | nil => simp
  | cons a as ih =>
    obtain ⟨ka, va⟩ := a
    by_cases h : ka = k <;> by_cases h' : k' = ka <;>
      simp_all [lookup_if] <;> grind

theorem lookup_eq_none (d : Dict β) (k : String) : List.lookup k d = none ↔ k ∉ d.keys := by
  induction d with
  | nil => simp [keys]
  | cons a as ih =>
    obtain ⟨ka, va⟩ := a
    unfold keys at ih ⊢
    by_cases h : k = ka <;> simp_all [lookup_if]

theorem lookup_isSome (d : Dict β) (k : String) : k ∈ d.keys ↔ ∃ v, List.lookup k d = some v := by
  rw [← not_iff_not, ← lookup_eq_none]
  cases List.lookup k d <;> simp

theorem lookup_append (d e : Dict β) (k : String) :
    List.lookup k (d ++ e) = (List.lookup k d).or (List.lookup k e) := by
  induction d with
  | nil => simp
  | cons a as ih =>
    obtain ⟨ka, va⟩ := a
    by_cases h : k = ka <;> simp_all [lookup_if]

theorem lookup_set (d : Dict β) (k : String) (v : β) (k' : String) :
    List.lookup k' (d.set k v) = if k' = k then some v else List.lookup k' d := by
  unfold set
  by_cases hk : k ∈ d.keys
  · rw [if_pos hk, lookup_map_set]
    obtain ⟨w, hw⟩ := (lookup_isSome _ _).1 hk
    by_cases h : k' = k
    · subst h; simp [hw]
    · simp [h]
  · rw [if_neg hk, lookup_append]
    have := (lookup_eq_none _ _).2 hk
    by_cases h : k' = k
    · subst h; simp [this, lookup_if]
    · simp [h, lookup_if]

theorem keys_set (d : Dict β) (k : String) (v : β) :
    (d.set k v).keys = if k ∈ d.keys then d.keys else d.keys ++ [k] := by
  unfold set
  split
  · unfold keys
    rw [List.map_map]
    apply List.map_congr_left
    intro x _
    by_cases h : x.1 = k <;> simp [h]
  · simp [keys]

theorem lookup_del (d : Dict β) (k k' : String) :
    List.lookup k' (d.del k) = if k' = k then none else List.lookup k' d := by
  unfold del
  induction d with
  | nil => simp
  | cons a as ih =>
    obtain ⟨ka, va⟩ := a
    by_cases h : ka = k <;> by_cases h' : k' = ka <;>
      simp_all [lookup_if, List.filter_cons] <;> grind

theorem lookup_update (d e : Dict β) (he : e.keys.Nodup) (k : String) :
    List.lookup k (d.update e) = (List.lookup k e).or (List.lookup k d) := by
  unfold update
  induction e generalizing d with
  | nil => simp
  | cons a as ih =>
    obtain ⟨ka, va⟩ := a
    have hn : ka ∉ keys as ∧ (keys as).Nodup := by simpa [keys] using he
    rw [List.foldl_cons, ih _ hn.2, lookup_set]
    by_cases h : k = ka
    · subst h
      simp [(lookup_eq_none _ _).2 hn.1, lookup_if]
    · simp [h, lookup_if]

theorem lookup_mem {d : Dict β} {k : String} {v : β} (h : List.lookup k d = some v) :
    (k, v) ∈ d := by
  induction d with
  | nil => simp at h
  | cons a as ih =>
    obtain ⟨ka, va⟩ := a
    by_cases hk : k = ka
    · simp_all [lookup_if]
    · rw [lookup_if, if_neg hk] at h
      exact List.mem_cons_of_mem _ (ih h)

theorem lookup_of_mem {d : Dict β} (hn : d.keys.Nodup) {k : String} {v : β} (h : (k, v) ∈ d) :
    List.lookup k d = some v := by
  induction d with
  | nil => simp at h
  | cons a as ih =>
    obtain ⟨ka, va⟩ := a
    have hn' : ka ∉ keys as ∧ (keys as).Nodup := by simpa [keys] using hn
    rcases List.mem_cons.1 h with h | h2
    · obtain ⟨rfl, rfl⟩ := Prod.mk.inj h
      simp [lookup_if]
    · have hk : k ≠ ka := by
        rintro rfl
        exact hn'.1 (List.mem_map_of_mem (f := Prod.fst) h2)
      rw [lookup_if, if_neg hk]
      exact ih hn'.2 h2

end Dict

namespace utils
open System Dict generator
variable {β : Type}

/-! ## C48 -/

/-- `v` is stored in `d` at the given path of keys. -/
inductive At (d : Dict (Entry β)) : List String → β → Prop
  | leaf {k : String} {v : β} (h : List.lookup k d = some (.leaf v)) : At d [k] v
  | nested {k k' : String} {n : Dict β} {v : β} (h : List.lookup k d = some (.dict n))
      (h' : List.lookup k' n = some v) : At d [k, k'] v

/-- the keys of a python dictionary are distinct, also in the dictionaries it contains -/
def KeysDistinct (d : Dict (Entry β)) : Prop :=
  d.keys.Nodup ∧ ∀ k n, (k, Entry.dict n) ∈ d → n.keys.Nodup

/-- what a key of the union holds -/
def merged : Option (Entry β) → Option (Entry β) → Option (Entry β)
  | none, e => e
  | e, none => e
  | some (.dict n1), some (.dict n2) => some (.dict (n1.update n2))
  | some (.leaf v), some _ => some (.leaf v)
  | some (.dict n), some (.leaf _) => some (.dict n)

/-- `d1` and `d2` have something at the same place that may not be merged. -/
def Conflict (overwrite : Bool) (d1 d2 : Dict (Entry β)) : Prop :=
  ∃ k e1 e2, List.lookup k d1 = some e1 ∧ List.lookup k d2 = some e2 ∧
    ((∃ v, e1 = .leaf v) ∨ (∃ v, e2 = .leaf v) ∨
      (overwrite = false ∧ ∃ n1 n2 k' v1 v2, e1 = .dict n1 ∧ e2 = .dict n2 ∧
        List.lookup k' n1 = some v1 ∧ List.lookup k' n2 = some v2))

theorem unionStep_error {ow : Bool} {d1 : Dict (Entry β)} {k : String} {e2 : Entry β} :
    (∃ err, unionStep ow d1 (k, e2) = .error err) ↔ Conflict ow d1 [(k, e2)] := by
  unfold unionStep Conflict
  dsimp only
  rcases h1 : List.lookup k d1 with _ | e1
  · constructor
    · rintro ⟨err, h⟩; cases h
    · rintro ⟨k', e1, e2', h1', h2', -⟩
      by_cases hk : k' = k
      · subst hk; simp [h1] at h1'
      · simp [lookup_if, hk] at h2'
  · have key : ∀ P : Entry β → Entry β → Prop,
        (∃ k' e1' e2', List.lookup k' d1 = some e1' ∧ List.lookup k' [(k, e2)] = some e2' ∧
          P e1' e2') ↔ P e1 e2 := by
      intro P
      constructor
      · rintro ⟨k', e1', e2', h1', h2', hP⟩
        by_cases hk : k' = k
        · subst hk
          rw [h1] at h1'
          simp [lookup_if] at h2'
          cases h1'; subst h2'; exact hP
        · simp [lookup_if, hk] at h2'
      · intro hP
        exact ⟨k, e1, e2, h1, by simp [lookup_if], hP⟩
    rw [key fun e1 e2 => _ ∨ _ ∨ _]
    cases e1 with
    | leaf v => simp
    | dict n1 =>
      cases e2 with
      | leaf v => simp
      | dict n2 =>
        cases ow with
        | true => simp [ok_bind]
        | false =>
          dsimp only
          simp only [Bool.false_eq_true, if_false]
          rw [forM_assert (fun y : String × β => y.1 ∉ n1.keys)]
          constructor
          · rintro ⟨err, h⟩
            refine Or.inr (Or.inr ?_)
            split at h
            · simp [ok_bind] at h
            · rename_i hno
              push Not at hno
              obtain ⟨y, hy, hk⟩ := hno
              obtain ⟨v1, hv1⟩ := (lookup_isSome _ _).1 hk
              obtain ⟨v2, hv2⟩ := (lookup_isSome n2 y.1).1 (List.mem_map_of_mem (f := Prod.fst) hy)
              exact ⟨by simp, n1, n2, y.1, v1, v2, rfl, rfl, hv1, hv2⟩
          · rintro (⟨v, h⟩ | ⟨v, h⟩ | ⟨_, m1, m2, k', v1, v2, h1, h2, hv1, hv2⟩)
            · cases h
            · cases h
            · cases h1; cases h2
              rw [if_neg]
              · exact ⟨_, rfl⟩
              · intro h
                exact h _ (Dict.lookup_mem hv2) ((lookup_isSome _ _).2 ⟨_, hv1⟩)

theorem unionStep_ok {ow : Bool} {d1 d : Dict (Entry β)} {k : String} {e2 : Entry β}
    (h : unionStep ow d1 (k, e2) = .ok d) :
    d.keys = (if k ∈ d1.keys then d1.keys else d1.keys ++ [k]) ∧
    ∀ k', List.lookup k' d = if k' = k then merged (List.lookup k d1) (some e2)
      else List.lookup k' d1 := by
  unfold unionStep at h
  dsimp only at h
  rcases h1 : List.lookup k d1 with _ | e1
  · rw [h1] at h
    have h := (Except.ok.inj h).symm
    subst h
    exact ⟨keys_set _ _ _, fun k' => by rw [lookup_set]; rfl⟩
  · rw [h1] at h
    cases e1 with
    | leaf v => simp at h
    | dict n1 =>
      cases e2 with
      | leaf v => simp at h
      | dict n2 =>
        dsimp only at h
        have : d = d1.set k (.dict (n1.update n2)) := by
          cases ow with
          | true =>
            simp only [if_true, ok_bind] at h
            exact (Except.ok.inj h).symm
          | false =>
            simp only [Bool.false_eq_true, if_false] at h
            rw [forM_assert (fun y : String × β => y.1 ∉ n1.keys)] at h
            split at h
            · rw [ok_bind] at h; exact (Except.ok.inj h).symm
            · simp [System.error_bind] at h
        subst this
        exact ⟨keys_set _ _ _, fun k' => by rw [lookup_set]; rfl⟩

theorem union_fold (ow : Bool) : ∀ (d2 d1 : Dict (Entry β)), d2.keys.Nodup →
    ((∃ e, dict_union d1 d2 ow = .error e) ↔ Conflict ow d1 d2) ∧
    (∀ d, dict_union d1 d2 ow = .ok d →
      d.keys = d1.keys ++ d2.keys.filter (fun k => k ∉ d1.keys) ∧
      ∀ k, List.lookup k d = merged (List.lookup k d1) (List.lookup k d2)) := by
  intro d2
  induction d2 with
  | nil =>
    intro d1 _
    constructor
    · constructor
      · rintro ⟨e, h⟩; cases h
      · rintro ⟨k, e1, e2, _, h, _⟩; cases h
    · intro d h
      have h := Except.ok.inj h
      subst h
      refine ⟨by simp [keys], fun k => ?_⟩
      cases List.lookup k d1 with
      | none => rfl
      | some e => cases e <;> rfl
  | cons a as ih =>
    obtain ⟨k, e2⟩ := a
    intro d1 hn
    have hn' : k ∉ keys as ∧ (keys as).Nodup := by simpa [keys] using hn
    have hnone : List.lookup k as = none := (lookup_eq_none _ _).2 hn'.1
    have hunf : dict_union d1 ((k, e2) :: as) ow =
        (unionStep ow d1 (k, e2)).bind fun d => dict_union d as ow := rfl
    have hc : Conflict ow d1 ((k, e2) :: as) ↔
        Conflict ow d1 [(k, e2)] ∨ Conflict ow d1 as := by
      constructor
      · rintro ⟨k', f1, f2, h1, h2, h⟩
        rw [lookup_if] at h2
        by_cases hk : k' = k
        · left; exact ⟨k', f1, f2, h1, by rw [lookup_if, if_pos hk]; simpa [hk] using h2, h⟩
        · right; exact ⟨k', f1, f2, h1, by simpa [hk] using h2, h⟩
      · rintro (⟨k', f1, f2, h1, h2, h⟩ | ⟨k', f1, f2, h1, h2, h⟩)
        · rw [lookup_if] at h2
          by_cases hk : k' = k
          · exact ⟨k', f1, f2, h1, by rw [lookup_if, if_pos hk]; simpa [hk] using h2, h⟩
          · simp [hk] at h2
        · have hk : k' ≠ k := by rintro rfl; simp [hnone] at h2
          exact ⟨k', f1, f2, h1, by rw [lookup_if, if_neg hk]; exact h2, h⟩
    rw [hunf, hc, ← unionStep_error]
    rcases hs : unionStep ow d1 (k, e2) with err | d'
    · refine ⟨⟨fun _ => Or.inl ⟨_, rfl⟩, fun _ => ⟨err, rfl⟩⟩, fun d h => ?_⟩
      cases h
    · obtain ⟨hk, hl⟩ := unionStep_ok hs
      obtain ⟨i1, i2⟩ := ih d' hn'.2
      have hsame : ∀ k', k' ≠ k → List.lookup k' d' = List.lookup k' d1 := fun k' h => by
        rw [hl, if_neg h]
      constructor
      · change (∃ e, dict_union d' as ow = .error e) ↔ _
        rw [i1]
        constructor
        · rintro ⟨k', f1, f2, h1, h2, h⟩
          have hkk : k' ≠ k := by rintro rfl; simp [hnone] at h2
          exact Or.inr ⟨k', f1, f2, by rw [← hsame k' hkk]; exact h1, h2, h⟩
        · rintro (⟨e, h⟩ | ⟨k', f1, f2, h1, h2, h⟩)
          · cases h
          · have hkk : k' ≠ k := by rintro rfl; simp [hnone] at h2
            exact ⟨k', f1, f2, by rw [hsame k' hkk]; exact h1, h2, h⟩
      · intro d h
        obtain ⟨j1, j2⟩ := i2 d h
        constructor
        · rw [j1, hk]
          have e1 : keys ((k, e2) :: as) = k :: keys as := rfl
          rw [e1]
          by_cases hkd : k ∈ d1.keys
          · simp [hkd]
          · rw [if_neg hkd, List.append_assoc, List.filter_cons]
            simp only [hkd, not_false_eq_true, decide_true, if_true, List.singleton_append]
            congr 2
            apply List.filter_congr
            intro x hx
            have : x ≠ k := by rintro rfl; exact hn'.1 hx
            simp [this]
        · intro k'
          rw [j2, hl, lookup_if]
          by_cases hkk : k' = k
          · subst hkk
            rw [if_pos rfl, if_pos rfl, hnone]
            rcases List.lookup k' d1 with _ | (_ | _) <;> rcases e2 with _ | _ <;> rfl
          · rw [if_neg hkk, if_neg hkk]

theorem at_leaf {d : Dict (Entry β)} {k : String} {v : β} :
    At d [k] v ↔ List.lookup k d = some (.leaf v) :=
  ⟨fun h => by cases h; assumption, .leaf⟩

theorem at_nested {d : Dict (Entry β)} {k k' : String} {v : β} :
    At d [k, k'] v ↔ ∃ n, List.lookup k d = some (.dict n) ∧ List.lookup k' n = some v :=
  ⟨fun h => by cases h with | nested h h' => exact ⟨_, h, h'⟩, fun ⟨_, h, h'⟩ => .nested h h'⟩

theorem at_other {d : Dict (Entry β)} {p : List String} {v : β} (h : At d p v) :
    (∃ k, p = [k]) ∨ ∃ k k', p = [k, k'] := by
  cases h
  · exact Or.inl ⟨_, rfl⟩
  · exact Or.inr ⟨_, _, rfl⟩

/-- C48: a union holds exactly what the second argument holds, and what the first argument holds at
places where the second one has nothing; the keys are those of the first argument followed by the new
ones of the second, and they remain distinct. -/
theorem C48_union {ow : Bool} {d1 d2 d : Dict (Entry β)} (hd1 : KeysDistinct d1)
    (hd2 : KeysDistinct d2) (h : dict_union d1 d2 ow = .ok d) :
    (∀ p v, At d p v ↔ At d2 p v ∨ (At d1 p v ∧ ∀ w, ¬ At d2 p w)) ∧
    d.keys = d1.keys ++ d2.keys.filter (fun k => k ∉ d1.keys) ∧ d.keys.Nodup := by
  obtain ⟨hk, hl⟩ := (union_fold ow d2 d1 hd2.1).2 d h
  have hnc : ¬ Conflict ow d1 d2 := by
    rw [← (union_fold ow d2 d1 hd2.1).1, h]
    rintro ⟨e, he⟩; cases he
  refine ⟨?_, hk, ?_⟩
  · intro p v
    constructor
    · intro hp
      rcases at_other hp with ⟨k, rfl⟩ | ⟨k, k', rfl⟩
      · simp only [at_leaf] at hp ⊢
        rw [hl] at hp
        rcases h1 : List.lookup k d1 with _ | e1 <;> rcases h2 : List.lookup k d2 with _ | e2
        · rw [h1, h2] at hp; cases hp
        · rw [h1, h2] at hp; exact Or.inl hp
        · rw [h1, h2] at hp
          refine Or.inr ⟨?_, by simp⟩
          cases e1 <;> exact hp
        · exfalso
          apply hnc
          refine ⟨k, e1, e2, h1, h2, ?_⟩
          rw [h1, h2] at hp
          cases e1 with
          | leaf v => exact Or.inl ⟨_, rfl⟩
          | dict n => cases e2 with
            | leaf v => exact Or.inr (Or.inl ⟨_, rfl⟩)
            | dict n => cases hp
      · simp only [at_nested] at hp ⊢
        rw [hl] at hp
        obtain ⟨n, hn, hv⟩ := hp
        rcases h1 : List.lookup k d1 with _ | e1 <;> rcases h2 : List.lookup k d2 with _ | e2
        · rw [h1, h2] at hn; cases hn
        · rw [h1, h2] at hn; exact Or.inl ⟨n, hn, hv⟩
        · rw [h1, h2] at hn
          refine Or.inr ⟨⟨n, ?_, hv⟩, by simp⟩
          cases e1 <;> exact hn
        · rw [h1, h2] at hn
          cases e1 with
          | leaf v => exact absurd ⟨k, _, _, h1, h2, Or.inl ⟨_, rfl⟩⟩ hnc
          | dict n1 => cases e2 with
            | leaf v => exact absurd ⟨k, _, _, h1, h2, Or.inr (Or.inl ⟨_, rfl⟩)⟩ hnc
            | dict n2 =>
              have hn := Option.some.inj hn
              have hn := Entry.dict.inj hn
              subst hn
              rw [lookup_update _ _ (hd2.2 _ _ (Dict.lookup_mem h2))] at hv
              rcases h3 : List.lookup k' n2 with _ | w
              · rw [h3] at hv
                refine Or.inr ⟨⟨n1, rfl, by simpa using hv⟩, ?_⟩
                rintro w ⟨m, hm, hw⟩
                cases hm
                rw [h3] at hw; cases hw
              · rw [h3] at hv
                exact Or.inl ⟨n2, rfl, by rw [h3]; simpa using hv⟩
    · intro hp
      rcases hp with hp | ⟨hp, hno⟩
      · rcases at_other hp with ⟨k, rfl⟩ | ⟨k, k', rfl⟩
        · simp only [at_leaf] at hp ⊢
          rw [hl, hp]
          rcases h1 : List.lookup k d1 with _ | e1
          · rfl
          · exact absurd ⟨k, _, _, h1, hp, Or.inr (Or.inl ⟨_, rfl⟩)⟩ hnc
        · simp only [at_nested] at hp ⊢
          obtain ⟨n2, h2, hv⟩ := hp
          rw [hl, h2]
          rcases h1 : List.lookup k d1 with _ | e1
          · exact ⟨n2, rfl, hv⟩
          · cases e1 with
            | leaf v => exact absurd ⟨k, _, _, h1, h2, Or.inl ⟨_, rfl⟩⟩ hnc
            | dict n1 =>
              refine ⟨_, rfl, ?_⟩
              rw [lookup_update _ _ (hd2.2 _ _ (Dict.lookup_mem h2)), hv]
              rfl
      · rcases at_other hp with ⟨k, rfl⟩ | ⟨k, k', rfl⟩
        · simp only [at_leaf] at hp hno ⊢
          rw [hl, hp]
          rcases h2 : List.lookup k d2 with _ | e2
          · rfl
          · exact absurd ⟨k, _, _, hp, h2, Or.inl ⟨_, rfl⟩⟩ hnc
        · simp only [at_nested] at hp hno ⊢
          obtain ⟨n1, h1, hv⟩ := hp
          rw [hl, h1]
          rcases h2 : List.lookup k d2 with _ | e2
          · exact ⟨n1, rfl, hv⟩
          · cases e2 with
            | leaf v => exact absurd ⟨k, _, _, h1, h2, Or.inr (Or.inl ⟨_, rfl⟩)⟩ hnc
            | dict n2 =>
              refine ⟨_, rfl, ?_⟩
              rw [lookup_update _ _ (hd2.2 _ _ (Dict.lookup_mem h2))]
              rcases h3 : List.lookup k' n2 with _ | w
              · simpa using hv
              · exact absurd ⟨n2, h2, h3⟩ (hno w)
  · rw [hk, List.nodup_append]
    refine ⟨hd1.1, hd2.1.filter _, ?_⟩
    intro a ha b hb
    simp at hb
    rintro rfl
    exact hb.2 ha

/-- C48: without `overwrite` nothing is lost: the union holds exactly what either argument holds. -/
theorem C48_no_overwrite {d1 d2 d : Dict (Entry β)} (hd1 : KeysDistinct d1)
    (hd2 : KeysDistinct d2) (h : dict_union d1 d2 = .ok d) (p : List String) (v : β) :
    At d p v ↔ At d1 p v ∨ At d2 p v := by
  have hnc : ¬ Conflict false d1 d2 := by
    rw [← (union_fold false d2 d1 hd2.1).1, h]
    rintro ⟨e, he⟩; cases he
  rw [(C48_union hd1 hd2 h).1]
  constructor
  · rintro (h | ⟨h, -⟩)
    · exact Or.inr h
    · exact Or.inl h
  · rintro (h1 | h2)
    · refine Or.inr ⟨h1, fun w h2 => hnc ?_⟩
      cases h1 with
      | leaf h1 => cases h2 with
        | leaf h2 => exact ⟨_, _, _, h1, h2, Or.inl ⟨_, rfl⟩⟩
      | nested h1 h1' => cases h2 with
        | nested h2 h2' =>
          exact ⟨_, _, _, h1, h2, Or.inr (Or.inr ⟨rfl, _, _, _, _, _, rfl, rfl, h1', h2'⟩)⟩
    · exact Or.inl h2

/-- C48: an error is raised exactly if a key of both arguments holds an array in one of them, or,
without `overwrite`, if both have a value at the same place two levels down. -/
theorem C48_error {ow : Bool} {d1 d2 : Dict (Entry β)} (hd2 : KeysDistinct d2) :
    (∃ e, dict_union d1 d2 ow = .error e) ↔
    (∃ k, k ∈ d1.keys ∧ k ∈ d2.keys ∧ ((∃ v, At d1 [k] v) ∨ ∃ v, At d2 [k] v)) ∨
    (ow = false ∧ ∃ k k' v w, At d1 [k, k'] v ∧ At d2 [k, k'] w) := by
  rw [(union_fold ow d2 d1 hd2.1).1]
  simp only [at_leaf, at_nested]
  constructor
  · rintro ⟨k, e1, e2, h1, h2, h⟩
    rcases h with ⟨v, rfl⟩ | ⟨v, rfl⟩ | ⟨how, n1, n2, k', v1, v2, rfl, rfl, h3, h4⟩
    · exact Or.inl ⟨k, (lookup_isSome _ _).2 ⟨_, h1⟩, (lookup_isSome _ _).2 ⟨_, h2⟩,
        Or.inl ⟨v, h1⟩⟩
    · exact Or.inl ⟨k, (lookup_isSome _ _).2 ⟨_, h1⟩, (lookup_isSome _ _).2 ⟨_, h2⟩,
        Or.inr ⟨v, h2⟩⟩
    · exact Or.inr ⟨how, k, k', v1, v2, ⟨n1, h1, h3⟩, ⟨n2, h2, h4⟩⟩
  · rintro (⟨k, h1, h2, h⟩ | ⟨how, k, k', v, w, ⟨n1, h1, h3⟩, ⟨n2, h2, h4⟩⟩)
    · obtain ⟨e1, h1⟩ := (lookup_isSome _ _).1 h1
      obtain ⟨e2, h2⟩ := (lookup_isSome _ _).1 h2
      refine ⟨k, e1, e2, h1, h2, ?_⟩
      rcases h with ⟨v, h⟩ | ⟨v, h⟩
      · rw [h1] at h; exact Or.inl ⟨v, Option.some.inj h⟩
      · rw [h2] at h; exact Or.inr (Or.inl ⟨v, Option.some.inj h⟩)
    · exact ⟨k, _, _, h1, h2, Or.inr (Or.inr ⟨how, n1, n2, k', v, w, rfl, rfl, h3, h4⟩)⟩

/-- C48 fails for arrays at the first level: there the second argument does not win with
`overwrite`, the union is refused. -/
theorem C48_overwrite_leaf_fails :
    dict_union [("a", .leaf 1)] [("a", .leaf (2 : Nat))] true = .error .other := by
  rfl

/-- C48: nesting puts every entry one level down under the given key. -/
theorem C48_nested (d : Dict β) (key : String) (k k' : String) (v : β) :
    At (dict_to_nested d key) [k, k'] v ↔ k' = key ∧ List.lookup k d = some v := by
  have hl : List.lookup k (dict_to_nested d key) =
      (List.lookup k d).map fun v => .dict [(key, v)] := by
    unfold dict_to_nested
    induction d with
    | nil => rfl
    | cons a as ih =>
      obtain ⟨ka, va⟩ := a
      rw [List.map_cons, lookup_if, lookup_if, ih]
      by_cases h : k = ka <;> simp [h]
  rw [at_nested, hl]
  constructor
  · rintro ⟨n, hn, hv⟩
    obtain ⟨w, hw, hn⟩ := Option.map_eq_some_iff.1 hn
    have hn := Entry.dict.inj hn
    subst hn
    rw [lookup_if] at hv
    by_cases h : k' = key
    · rw [if_pos h] at hv
      exact ⟨h, by rw [hw, hv]⟩
    · rw [if_neg h] at hv; cases hv
  · rintro ⟨rfl, h⟩
    exact ⟨_, by rw [h]; rfl, by rw [lookup_if, if_pos rfl]⟩

/-! ### examples -/

/-- measurements of two segments -/
def exX : Dict (Entry Nat) := [("seg1", .dict [("acc", 1), ("gyr", 2)]), ("dt", .leaf 5)]

/-- joint axes of two segments -/
def exAxes : Dict (Entry Nat) := [("seg2", .dict [("joint_axes", 3)]),
  ("seg1", .dict [("joint_axes", 4)])]

example : KeysDistinct exX ∧ KeysDistinct exAxes ∧ dict_union exX exAxes =
    .ok [("seg1", .dict [("acc", 1), ("gyr", 2), ("joint_axes", 4)]), ("dt", .leaf 5),
      ("seg2", .dict [("joint_axes", 3)])] := by
  refine ⟨⟨by decide, ?_⟩, ⟨by decide, ?_⟩, rfl⟩
  · intro k n h
    simp [exX] at h
    rw [h.2]; decide
  · intro k n h
    simp [exAxes] at h
    rcases h with ⟨_, rfl⟩ | ⟨_, rfl⟩ <;> decide

example : dict_union exX [("seg1", .dict [("acc", 7)])] = .error .assertion := by rfl

example : dict_union exX [("seg1", .dict [("acc", 7)])] true =
    .ok [("seg1", .dict [("acc", 7), ("gyr", 2)]), ("dt", .leaf 5)] := by rfl

end utils
end RingLib
