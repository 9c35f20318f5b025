import Verif.Model.Hz
import Verif.Props.DrawQ
import Verif.Props.Sizes

/-!
# C44: random sampling rates keep the number of samples
-/

namespace RingLib
namespace generator
open System jcalc

variable {π : Type}

/-- the triples (system, configuration, rate) in the order in which they are visited -/
def triples {α β γ : Type} (as : List α) (bs : List β) (cs : List γ) : List (α × β × γ) :=
  as.flatMap fun a => bs.flatMap fun b => cs.map fun c => (a, b, c)

theorem triples_length {α β γ : Type} (as : List α) (bs : List β) (cs : List γ) :
    (triples as bs cs).length = as.length * (bs.length * cs.length) := by
  simp [triples, List.length_flatMap]

theorem flatMap_getElem? {α β : Type} {f : α → List β} {m : Nat} : ∀ (l : List α),
    (∀ a ∈ l, (f a).length = m) → ∀ (i k : Nat), k < m →
    (l.flatMap f)[i * m + k]? = (l[i]?).bind fun a => (f a)[k]? := by
  intro l
  induction l with
  | nil => intro _ i k _; simp
  | cons a as ih =>
    intro h i k hk
    have ha := h a (by simp)
    rw [List.flatMap_cons]
    cases i with
    | zero =>
      rw [Nat.zero_mul, Nat.zero_add, List.getElem?_append_left (by omega)]
      rfl
    | succ i =>
      rw [List.getElem?_append_right (by rw [ha, Nat.succ_mul]; omega), ha,
        show (i + 1) * m + k - m = i * m + k by rw [Nat.succ_mul]; omega,
        ih (fun a ha => h a (by simp [ha])) i k hk]
      rfl

theorem triples_getElem? {α β γ : Type} (as : List α) (bs : List β) (cs : List γ) {i j k : Nat}
    (hi : i < as.length) (hj : j < bs.length) (hk : k < cs.length) :
    (triples as bs cs)[(i * bs.length + j) * cs.length + k]? = some (as[i], bs[j], cs[k]) := by
  unfold triples
  have e : (i * bs.length + j) * cs.length + k =
      i * (bs.length * cs.length) + (j * cs.length + k) := by ring
  have hlt : j * cs.length + k < bs.length * cs.length := by
    have := Nat.mul_le_mul_right cs.length (Nat.succ_le_of_lt hj)
    rw [Nat.succ_mul] at this
    omega
  rw [e, flatMap_getElem? as (by intro a _; simp [List.length_flatMap]) i _ hlt,
    List.getElem?_eq_getElem hi, Option.bind_some,
    flatMap_getElem? bs (by intro b _; simp) j k hk, List.getElem?_eq_getElem hj, Option.bind_some]
  simp [hk]

theorem foldlM_append {α γ : Type} {f : List γ → α → Py (List γ)} {g : α → List γ}
    : ∀ (l : List α) (out : List γ), (∀ a ∈ l, ∀ out, f out a = .ok (out ++ g a)) →
      l.foldlM f out = .ok (out ++ l.flatMap g) := by
  intro l
  induction l with
  | nil => intro out _; simp; rfl
  | cons a as ih =>
    intro out h
    rw [List.foldlM_cons, h a (by simp), ok_bind, ih _ (fun x hx => h x (by simp [hx]))]
    simp

theorem foldlM_append2 {α γ δ : Type} {f : List γ × List δ → α → Py (List γ × List δ)}
    {g : α → List (γ × δ)} : ∀ (l : List α) (out : List γ × List δ),
      (∀ a ∈ l, ∀ out, f out a =
        .ok (out.1 ++ (g a).map (·.1), out.2 ++ (g a).map (·.2))) →
      l.foldlM f out =
        .ok (out.1 ++ (l.flatMap g).map (·.1), out.2 ++ (l.flatMap g).map (·.2)) := by
  intro l
  induction l with
  | nil => intro out _; simp; rfl
  | cons a as ih =>
    intro out h
    rw [List.foldlM_cons, h a (by simp), ok_bind, ih _ (fun x hx => h x (by simp [hx]))]
    simp

/-- C44: for every system, every configuration and every rate there is one entry, in this nesting; its
time step is one over the rate, its duration is such that the number of samples is the one of the
original system and the first configuration's duration; nothing else changes. -/
theorem C44_randomize_hz {sys : List (System ℝ π)} {configs : List MotionConfig} {rates : List ℝ}
    {c0 : MotionConfig} (h0 : configs.head? = some c0) (hr : ∀ r ∈ rates, 0 < r)
    (hs : ∀ s ∈ sys, 0 < s.dt) :
    ∃ so co, randomize_hz sys configs rates = .ok (so, co) ∧
      so.length = sys.length * (configs.length * rates.length) ∧ co.length = so.length ∧
      ∀ i j k (hi : i < sys.length) (hj : j < configs.length) (hk : k < rates.length),
        ∃ s c, so[(i * configs.length + j) * rates.length + k]? = some s ∧
          co[(i * configs.length + j) * rates.length + k]? = some c ∧
          s = { sys[i] with dt := 1 / rates[k] } ∧ c = { configs[j] with T := c.T } ∧
          c.T / s.dt = c0.T / sys[i].dt ∧
          numSteps c.T s.dt none = numSteps c0.T sys[i].dt none := by
  obtain ⟨cs, rfl⟩ : ∃ cs, configs = c0 :: cs := by
    cases configs with
    | nil => cases h0
    | cons a as =>
      simp at h0
      exact ⟨as, by rw [h0]⟩
  have key : randomize_hz sys (c0 :: cs) rates =
      .ok ((triples sys (c0 :: cs) rates).map fun x => { x.1 with dt := 1 / x.2.2 },
        (triples sys (c0 :: cs) rates).map fun x =>
          { x.2.1 with T := c0.T / x.1.dt * (1 / x.2.2) }) := by
    unfold randomize_hz
    dsimp only
    rw [pyAssert_true (by simp), ok_bind]
    have : pyGet ((c0 :: cs).map (·.T)) 0 = .ok c0.T := rfl
    rw [this, ok_bind]
    rw [foldlM_append2 (g := fun s => (c0 :: cs).flatMap fun c => rates.flatMap fun r =>
      [(({ s with dt := 1 / r } : System ℝ π),
        ({ c with T := c0.T / s.dt * (1 / r) } : MotionConfig))])]
    · simp only [List.nil_append, triples, List.map_flatMap, List.flatMap_map, List.map_map,
        List.map_cons, List.map_nil]
      congr 1
      simp only [Prod.mk.injEq]
      constructor
      · congr 1
        funext s
        congr 1
        funext c
        exact List.map_eq_flatMap.symm
      · congr 1
        funext s
        congr 1
        funext c
        exact List.map_eq_flatMap.symm
    · intro s hsm out
      rw [foldlM_append2 (g := fun c => rates.flatMap fun r =>
        [(({ s with dt := 1 / r } : System ℝ π),
          ({ c with T := c0.T / s.dt * (1 / r) } : MotionConfig))])]
      intro c _ out
      rw [foldlM_append2 (g := fun r =>
        [(({ s with dt := 1 / r } : System ℝ π),
          ({ c with T := c0.T / s.dt * (1 / r) } : MotionConfig))])]
      intro r hrm out
      unfold hzStep
      rw [if_neg (hr r hrm).ne', if_neg (hs s hsm).ne']
      rfl
  refine ⟨_, _, key, by simp [triples_length], by simp, ?_⟩
  intro i j k hi hj hk
  have hg := triples_getElem? sys (c0 :: cs) rates hi hj hk
  have hdt : 0 < sys[i].dt := hs _ (List.getElem_mem hi)
  have hrk : 0 < rates[k] := hr _ (List.getElem_mem hk)
  refine ⟨{ sys[i] with dt := 1 / rates[k] },
    { (c0 :: cs)[j] with T := c0.T / sys[i].dt * (1 / rates[k]) }, ?_, ?_, rfl, rfl, ?_, ?_⟩
  · rw [List.getElem?_map, hg]; rfl
  · rw [List.getElem?_map, hg]; rfl
  · dsimp only
    field_simp
  · dsimp only
    unfold numSteps
    congr 3
    field_simp

/-- C44 fails for configurations of different durations: they are not rejected, and the durations of
all but the first are replaced. Here a 30 s configuration becomes a 60 s one. -/
theorem C44_unequal_fails (s : System ℝ π) (hs : s.dt = 1 / 100) (a b : MotionConfig)
    (ha : a.T = 60) (hb : b.T = 30) :
    a.T ≠ b.T ∧ ∃ so co, randomize_hz [s] [a, b] [100] = .ok (so, co) ∧
      co.map (·.T) = [60, 60] := by
  refine ⟨by rw [ha, hb]; norm_num, ?_⟩
  obtain ⟨so, co, e, hl, hl', h⟩ := C44_randomize_hz (sys := [s]) (c0 := a)
    (configs := [a, b]) (rates := [100]) rfl (by simp)
    (by intro x hx; rw [List.mem_singleton.1 hx, hs]; norm_num)
  refine ⟨so, co, e, ?_⟩
  obtain ⟨s1, c1, -, h1, h2, -, h3, -⟩ := h 0 0 0 (by simp) (by simp) (by simp)
  obtain ⟨s2, c2, -, h4, h5, -, h6, -⟩ := h 0 1 0 (by simp) (by simp) (by simp)
  have d1 : s1.dt = 1 / 100 := by rw [h2]; rfl
  have d2 : s2.dt = 1 / 100 := by rw [h5]; rfl
  have d3 : [s][0].dt = 1 / 100 := hs
  rw [d1, d3, ha] at h3
  rw [d2, d3, ha] at h6
  have e1 : c1.T = 60 := by linarith
  have e2 : c2.T = 60 := by linarith
  have hlen : co.length = 2 := by rw [hl', hl]; rfl
  obtain ⟨x, y, rfl⟩ := List.length_eq_two.1 hlen
  have hx : x = c1 := Option.some.inj h1
  have hy : y = c2 := Option.some.inj h4
  rw [hx, hy, List.map_cons, List.map_cons, List.map_nil, e1, e2]

theorem foldl_min_spec : ∀ (l : List ℝ) (a : ℝ), l.foldl min a ∈ a :: l ∧
    ∀ x ∈ a :: l, l.foldl min a ≤ x := by
  intro l
  induction l with
  | nil => intro a; simp
  | cons b bs ih =>
    intro a
    obtain ⟨h1, h2⟩ := ih (min a b)
    rw [List.foldl_cons]
    refine ⟨?_, ?_⟩
    · rcases List.mem_cons.1 h1 with h | h
      · rw [h]
        rcases min_choice a b with h' | h' <;> rw [h'] <;> simp
      · simp [h]
    · intro x hx
      have h0 := h2 (min a b) (by simp)
      rcases List.mem_cons.1 hx with rfl | hx
      · exact h0.trans (min_le_left _ _)
      · rcases List.mem_cons.1 hx with rfl | hx
        · exact h0.trans (min_le_right _ _)
        · exact h2 x (by simp [hx])

theorem dedup_const {l : List ℝ} {T : ℝ} (hne : l ≠ []) (h : ∀ x ∈ l, x = T) :
    l.dedup.length = 1 := by
  have h1 : ∀ x ∈ l.dedup, x = T := fun x hx => h x (List.mem_dedup.1 hx)
  have h2 := List.nodup_dedup l
  have h3 : l.dedup ≠ [] := by simpa using hne
  match hd : l.dedup with
  | [] => exact absurd hd h3
  | [a] => rfl
  | a :: b :: t =>
    rw [hd] at h1 h2
    have e1 := h1 a (by simp)
    have e2 := h1 b (by simp)
    simp [e1, e2] at h2

/-- C44: in the generator itself, the number of samples is the largest that fits into the common
duration at the lowest rate; it is the same for every rate that may be drawn, and no rate makes the
sequence longer than `T`. -/
theorem C44_generator {K : Type} {R : Rng K} (hR : R.Ok) {hzs : List ℝ} {config : List MotionConfig}
    {T : ℝ} (hT : 0 ≤ T) (hne : config ≠ []) (hzne : hzs ≠ []) (hpos : ∀ h ∈ hzs, 0 < h)
    (hall : ∀ c ∈ config, c.T = T) :
    ∃ n : Nat, hzSamples hzs config = .ok n ∧
      (∃ h ∈ hzs, (∀ h' ∈ hzs, h ≤ h') ∧ n ≤ h * T ∧ h * T < n + 1) ∧
      ∀ key, 1 / hzDt R key hzs ∈ hzs ∧ 0 < hzDt R key hzs ∧ n * hzDt R key hzs ≤ T ∧
        n ≤ numSteps T (hzDt R key hzs) none := by
  obtain ⟨a, as, rfl⟩ := List.exists_cons_of_ne_nil hzne
  obtain ⟨c, cs, rfl⟩ := List.exists_cons_of_ne_nil hne
  obtain ⟨hm1, hm2⟩ := foldl_min_spec as a
  set m := as.foldl min a with hm
  have hm0 : 0 < m := hpos _ hm1
  have hmT : 0 ≤ m * T := by positivity
  have hcT : c.T = T := hall c (by simp)
  have hfl : ((⌊m * T⌋.toNat : Nat) : ℝ) = (⌊m * T⌋ : ℝ) := by
    have : ((⌊m * T⌋.toNat : Nat) : Int) = ⌊m * T⌋ := Int.toNat_of_nonneg (Int.floor_nonneg.2 hmT)
    exact_mod_cast this
  have hle : ((⌊m * T⌋.toNat : Nat) : ℝ) ≤ m * T := by rw [hfl]; exact Int.floor_le _
  refine ⟨⌊m * T⌋.toNat, ?_, ⟨m, hm1, hm2, hle, ?_⟩, ?_⟩
  · unfold hzSamples
    have hd : (((c :: cs).map (·.T)).dedup.length) = 1 :=
      dedup_const (T := T) (by simp) (by
        intro x hx
        obtain ⟨c', hc', rfl⟩ := List.mem_map.1 hx
        exact hall c' hc')
    have hg : pyGet ((c :: cs).map (·.T)) 0 = .ok c.T := rfl
    rw [pyAssert_true (by simpa using hd), ok_bind]
    unfold pyMin
    rw [ok_bind, hg, ok_bind, hcT, ← hm]
    unfold pyInt
    rw [if_pos hmT, Int.toNat_of_nonneg (Int.floor_nonneg.2 hmT)]
    rfl
  · rw [hfl]; exact Int.lt_floor_add_one _
  · intro key
    have hidx := (hR.randint key 0 (a :: as).length (by simp)).2
    set j := R.randint key 0 (a :: as).length with hj
    have hget : (a :: as).getD j 0 = (a :: as)[j] := by
      rw [List.getD_eq_getElem?_getD, List.getElem?_eq_getElem hidx]; rfl
    have hmem : (a :: as)[j] ∈ a :: as := List.getElem_mem hidx
    have hdt : hzDt R key (a :: as) = 1 / (a :: as)[j] := by
      unfold hzDt
      rw [← hj, hget]
    have hp := hpos _ hmem
    rw [hdt]
    have hm3 := hm2 _ hmem
    set r := (a :: as)[j]
    have hrT : ((⌊m * T⌋.toNat : Nat) : ℝ) ≤ r * T :=
      hle.trans (mul_le_mul_of_nonneg_right hm3 hT)
    refine ⟨by rw [one_div_one_div]; exact hmem, by positivity, ?_, ?_⟩
    · rw [mul_one_div, div_le_iff₀ hp]
      linarith
    · unfold numSteps
      simp only [Option.getD_none]
      rw [div_div_eq_mul_div, div_one, Int.le_toNat (Int.ceil_nonneg (by positivity))]
      have h1 := Int.le_ceil (T * r)
      have : ((⌊m * T⌋.toNat : Nat) : ℝ) ≤ (⌈T * r⌉ : ℝ) := by
        rw [mul_comm T r] at h1 ⊢
        exact hrT.trans h1
      exact_mod_cast this

/-- C44: configurations of different durations are rejected by the generator. -/
theorem C44_rejected {hzs : List ℝ} {config : List MotionConfig} {c c' : MotionConfig}
    (h : c ∈ config) (h' : c' ∈ config) (hne : c.T ≠ c'.T) :
    hzSamples hzs config = .error .assertion := by
  unfold hzSamples
  rw [pyAssert_false]
  · rfl
  · have h1 : c.T ∈ (config.map (·.T)).dedup := List.mem_dedup.2 (List.mem_map_of_mem h)
    have h2 : c'.T ∈ (config.map (·.T)).dedup := List.mem_dedup.2 (List.mem_map_of_mem h')
    intro hl
    have hl : (config.map (·.T)).dedup.length = 1 := by simpa using hl
    obtain ⟨x, hx⟩ := List.length_eq_one_iff.1 hl
    rw [hx] at h1 h2
    exact hne ((List.mem_singleton.1 h1).trans (List.mem_singleton.1 h2).symm)

/-- The conditions can be met: 60 s at 40, 100 or 200 Hz are 2400 samples. -/
example : ∃ n : Nat, hzSamples [100, 40, 200] [{ T := 60 }, { T := 60, t_min := 0.1 }] = .ok n ∧
    n = 2400 := by
  obtain ⟨n, e, ⟨h, hh, hmin, h1, h2⟩, -⟩ := C44_generator (R := pathRng) pathRng_ok
    (hzs := [100, 40, 200]) (config := [{ T := 60 }, { T := 60, t_min := 0.1 }]) (T := 60)
    (by norm_num) (by simp) (by simp) (by simp) (by simp)
  refine ⟨n, e, ?_⟩
  have h40 : h = 40 := by
    have := hmin 40 (by simp)
    simp at hh
    rcases hh with rfl | rfl | rfl
    · norm_num at this
    · rfl
    · norm_num at this
  rw [h40] at h1 h2
  have a1 : n ≤ 2400 := by
    have : (n : ℝ) ≤ 2400 := by linarith
    exact_mod_cast this
  have a2 : 2400 < n + 1 := by
    have : (2400 : ℝ) < n + 1 := by linarith
    exact_mod_cast this
  omega

example : kinSys.dt = 1 / 100 ∧ (0 : ℝ) < kinSys.dt := ⟨rfl, by norm_num [kinSys]⟩

end generator
end RingLib
