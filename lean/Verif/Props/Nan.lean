import Verif.Props.Dict
import Verif.Lemmas.Random

/-!
# C49: samples with NaNs are replaced
-/

namespace RingLib
namespace utils
variable {β : Type}

theorem succ_iterate (n t : Nat) : (fun t => t + 1)^[n] t = t + n := by
  induction n generalizing t with
  | zero => rfl
  | succ n ih => rw [Function.iterate_succ_apply, ih]; omega

theorem findGood_some {isnan : β → Bool} {choice : Nat → Nat → Nat} {data : List β}
    {incl : List Nat} {t : Nat} {r : β × Nat}
    (h : findGood isnan choice data incl t = some r) :
    isnan r.1 = false ∧ ∃ j ∈ incl, data[j]? = some r.1 := by
  unfold findGood at h
  obtain ⟨t', h1, h2⟩ := Option.bind_eq_some_iff.1 h
  obtain ⟨x, hx, rfl⟩ := Option.map_eq_some_iff.1 h2
  obtain ⟨n, rfl, hc, -⟩ := whileLoop_spec h1
  constructor
  · push Not at hc
    obtain ⟨y, hy, hb⟩ := hc
    rw [hx] at hy
    cases hy
    simpa using hb
  · unfold chosen at hx
    obtain ⟨j, hj, hd⟩ := Option.bind_eq_some_iff.1 hx
    exact ⟨j, List.mem_of_getElem? hj, hd⟩

theorem findGood_isSome {isnan : β → Bool} {choice : Nat → Nat → Nat} {data : List β}
    {incl : List Nat} {t : Nat}
    (h : ∃ t' ≥ t, ∃ x, chosen choice data incl t' = some x ∧ isnan x = false) :
    ∃ r, findGood isnan choice data incl t = some r := by
  obtain ⟨t', ht, x, hx, hb⟩ := h
  obtain ⟨s, hs⟩ := whileLoop_isSome (cond := fun t : Nat => ∀ x, chosen choice data incl t = some x →
    isnan x = true) (body := fun t => t + 1) (s := t) (t' - t) (by
      rw [succ_iterate]
      intro hc
      have := hc x (by rw [show t + (t' - t) = t' by omega]; exact hx)
      rw [hb] at this; cases this)
  obtain ⟨n, rfl, hc, -⟩ := whileLoop_spec hs
  push Not at hc
  obtain ⟨y, hy, -⟩ := hc
  refine ⟨(y, (fun t => t + 1)^[n] t + 1), ?_⟩
  unfold findGood
  rw [hs, Option.bind_some, hy]
  rfl

/-- `out` is `data` with every NaN sample replaced by a good sample of the allowed ones. -/
def Replaced (isnan : β → Bool) (data : List β) (allowed : List Int) (out : List β) : Prop :=
  out.length = data.length ∧
  ∀ (i : Nat) (x : β), data[i]? = some x → ∃ y, out[i]? = some y ∧ isnan y = false ∧
    (isnan x = false → y = x) ∧
    (isnan x = true → ∃ j ∈ allowed, 0 ≤ j ∧ data[j.toNat]? = some y)

theorem replaceLoop_some {isnan : β → Bool} {choice : Nat → Nat → Nat} {data : List β}
    {incl : List Nat} : ∀ (l : List β) (t : Nat) (out : List β),
    replaceLoop isnan choice data incl l t = some out →
    out.length = l.length ∧ ∀ (i : Nat) (x : β), l[i]? = some x → ∃ y, out[i]? = some y ∧ isnan y = false ∧
      (isnan x = false → y = x) ∧ (isnan x = true → ∃ j ∈ incl, data[j]? = some y) := by
  intro l
  induction l with
  | nil =>
    intro t out h
    cases h
    simp
  | cons a as ih =>
    intro t out h
    unfold replaceLoop at h
    by_cases ha : isnan a = true
    · rw [if_pos ha] at h
      obtain ⟨r, hr, h2⟩ := Option.bind_eq_some_iff.1 h
      obtain ⟨rest, hrest, rfl⟩ := Option.map_eq_some_iff.1 h2
      obtain ⟨i1, i2⟩ := ih _ _ hrest
      obtain ⟨hg, hj⟩ := findGood_some hr
      refine ⟨by simp [i1], ?_⟩
      intro i x hx
      cases i with
      | zero =>
        simp at hx; subst hx
        exact ⟨r.1, by simp, hg, fun h => by simp [ha] at h, fun _ => hj⟩
      | succ i => simpa using i2 i x (by simpa using hx)
    · rw [if_neg ha] at h
      obtain ⟨rest, hrest, rfl⟩ := Option.map_eq_some_iff.1 h
      obtain ⟨i1, i2⟩ := ih _ _ hrest
      refine ⟨by simp [i1], ?_⟩
      intro i x hx
      cases i with
      | zero =>
        simp at hx; subst hx
        exact ⟨a, by simp, by simpa using ha, fun _ => rfl, fun h => absurd h ha⟩
      | succ i => simpa using i2 i x (by simpa using hx)

theorem replaceLoop_isSome {isnan : β → Bool} {choice : Nat → Nat → Nat} {data : List β}
    {incl : List Nat}
    (hgood : ∀ t, ∃ t' ≥ t, ∃ x, chosen choice data incl t' = some x ∧ isnan x = false) :
    ∀ (l : List β) (t : Nat), ∃ out, replaceLoop isnan choice data incl l t = some out := by
  intro l
  induction l with
  | nil => intro t; exact ⟨[], rfl⟩
  | cons a as ih =>
    intro t
    unfold replaceLoop
    by_cases ha : isnan a = true
    · rw [if_pos ha]
      obtain ⟨r, hr⟩ := findGood_isSome (hgood t)
      obtain ⟨out, ho⟩ := ih r.2
      exact ⟨r.1 :: out, by rw [hr, Option.bind_some, ho]; rfl⟩
    · rw [if_neg ha]
      obtain ⟨out, ho⟩ := ih t
      exact ⟨a :: out, by rw [ho]; rfl⟩

/-- the indices that may be drawn from; all if none are given -/
def allowedOf (data : List β) (incl : Option (List Int)) : List Int :=
  incl.getD ((List.range data.length).map fun i : Nat => (i : Int))

/-- C49, partially: whatever is returned has the length of the input, contains no NaN sample, keeps
every good sample at its place, and replaces a NaN sample by a good sample of the allowed ones. Missing:
that something is returned, see `C49_hangs_fails` and `C49_ends`. -/
theorem C49_partial {isnan : β → Bool} {choice : Nat → Nat → Nat} {data : List β}
    {incl : Option (List Int)} {out : List β}
    (h : replace_elements_w_nans isnan choice data incl = some (.ok out)) :
    Replaced isnan data (allowedOf data incl) out := by
  unfold replace_elements_w_nans at h
  dsimp only at h
  change (if allowedOf data incl = [] then _ else _) = _ at h
  split at h
  · cases h
  split at h
  · cases h
  rename_i hne h0
  split at h
  · cases h
  split at h
  · cases h
  obtain ⟨o, ho, h2⟩ := Option.map_eq_some_iff.1 h
  cases h2
  obtain ⟨h3, h4⟩ := replaceLoop_some _ _ _ ho
  refine ⟨h3, fun i x hx => ?_⟩
  obtain ⟨y, y1, y2, y3, y4⟩ := h4 i x hx
  refine ⟨y, y1, y2, y3, fun hb => ?_⟩
  obtain ⟨j, hj, hd⟩ := y4 hb
  obtain ⟨z, hz, rfl⟩ := List.mem_map.1 hj
  push Not at h0
  exact ⟨z, hz, h0 z hz, hd⟩

/-- C49: if the allowed indices are valid, a good sample is among the allowed ones and every position is
drawn again and again, the function returns. -/
theorem C49_ends {isnan : β → Bool} {choice : Nat → Nat → Nat} {data : List β}
    {incl : Option (List Int)}
    (hvalid : ∀ i ∈ allowedOf data incl, 0 ≤ i ∧ i < data.length)
    (hgood : ∃ i ∈ allowedOf data incl, ∃ x, data[i.toNat]? = some x ∧ isnan x = false)
    (hfair : ∀ n p, p < n → ∀ t, ∃ t' ≥ t, choice t' n = p) :
    ∃ out, replace_elements_w_nans isnan choice data incl = some (.ok out) := by
  obtain ⟨i, hi, x, hx, hb⟩ := hgood
  unfold replace_elements_w_nans
  dsimp only
  change ∃ out, (if allowedOf data incl = [] then _ else
    if ¬ ∀ i ∈ allowedOf data incl, 0 ≤ i then _ else
    if ¬ ∀ i ∈ allowedOf data incl, i < data.length then _ else _) = _
  rw [if_neg (List.ne_nil_of_mem hi), if_neg (not_not.2 fun i hi => (hvalid i hi).1),
    if_neg (not_not.2 fun i hi => (hvalid i hi).2)]
  rw [if_neg]
  · obtain ⟨out, ho⟩ := replaceLoop_isSome (isnan := isnan) (choice := choice) (data := data)
      (incl := (allowedOf data incl).map Int.toNat) (by
        intro t
        obtain ⟨p, hp, hpe⟩ := List.getElem_of_mem (List.mem_map_of_mem (f := Int.toNat) hi)
        obtain ⟨t', ht, hc⟩ := hfair _ p hp t
        refine ⟨t', ht, x, ?_, hb⟩
        unfold chosen
        rw [hc, List.getElem?_eq_getElem hp, Option.bind_some, hpe, hx]) data 0
    exact ⟨out, by rw [show incl.getD _ = allowedOf data incl from rfl, ho]; rfl⟩
  · rintro ⟨-, hcount⟩
    rw [List.countP_eq_length] at hcount
    have := hcount x (List.mem_of_getElem? hx)
    rw [hb] at this; cases this

/-- C49: lists in which every sample is NaN, and invalid allowed indices, are refused. -/
theorem C49_rejected {isnan : β → Bool} {choice : Nat → Nat → Nat} {data : List β}
    {incl : Option (List Int)}
    (h : (∀ x ∈ data, isnan x = true) ∨ ∃ i ∈ allowedOf data incl, i < 0 ∨ data.length ≤ i) :
    ∃ e, replace_elements_w_nans isnan choice data incl = some (.error e) := by
  unfold replace_elements_w_nans
  dsimp only
  change ∃ e, (if allowedOf data incl = [] then _ else
    if ¬ ∀ i ∈ allowedOf data incl, 0 ≤ i then _ else
    if ¬ ∀ i ∈ allowedOf data incl, i < data.length then _ else _) = _
  split
  · exact ⟨_, rfl⟩
  split
  · exact ⟨_, rfl⟩
  rename_i h1
  split
  · exact ⟨_, rfl⟩
  rename_i h2
  rw [not_not] at h1 h2
  rcases h with h | ⟨i, hi, h⟩
  · rw [if_pos]
    · exact ⟨_, rfl⟩
    · have : (data.countP fun x => isnan x) = data.length := List.countP_eq_length.2 h
      rw [this]
      exact ⟨by omega, rfl⟩
  · have := h1 i hi
    have := h2 i hi
    omega

/-- C49 fails to terminate: if all allowed samples are NaN while another one is good, the function
loops forever. -/
theorem C49_hangs_fails (choice : Nat → Nat → Nat) :
    replace_elements_w_nans (fun x : Option Nat => x.isNone) choice [none, some 1] (some [0]) =
      none := by
  unfold replace_elements_w_nans
  dsimp only
  rw [if_neg (by simp), if_neg (by simp), if_neg (by simp), if_neg (by simp)]
  rw [Option.map_eq_none_iff]
  unfold replaceLoop
  rw [if_pos (by rfl), Option.bind_eq_none_iff]
  intro r hr
  exfalso
  obtain ⟨hg, j, hj, hd⟩ := findGood_some hr
  simp at hj
  subst hj
  simp at hd
  rw [← hd] at hg
  cases hg

/-- drawing in turn hits every position again and again -/
example : ∃ choice : Nat → Nat → Nat, (∀ n p, p < n → ∀ t, ∃ t' ≥ t, choice t' n = p) ∧
    (∀ i ∈ allowedOf [some 1, none, some (3 : Nat)] none, 0 ≤ i ∧
      i < ([some 1, none, some (3 : Nat)].length : Int)) ∧
    ∃ i ∈ allowedOf [some 1, none, some (3 : Nat)] none, ∃ x,
      [some 1, none, some (3 : Nat)][i.toNat]? = some x ∧ x.isNone = false := by
  refine ⟨fun t n => t % n, fun n p hp t => ⟨p + n * t, ?_, ?_⟩, ?_, 2, by decide, some 3, rfl, rfl⟩
  · have : t ≤ n * t := Nat.le_mul_of_pos_left t (by omega)
    omega
  · show (p + n * t) % n = p
    rw [Nat.add_mul_mod_self_left, Nat.mod_eq_of_lt hp]
  · decide

end utils
end RingLib
