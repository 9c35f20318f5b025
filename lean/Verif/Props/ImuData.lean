import Verif.Props.Finalize

/-!
# C45: the measurements of the IMUs

They are stored under the name of the segment the IMU is attached to.
-/

namespace RingLib
namespace generator
open System sensors maths utils
variable {π K : Type}

/-! ## specification -/

/-- the link is an IMU: its name starts with `imu` -/
def IsImu (n : String) : Prop := "imu".toList <+: n.toList

/-- the link is an IMU or hangs below one -/
def BelowImu (s : System ℝ π) (n : String) : Prop := ∃ x, IsImu x ∧ s.IsDesc x n

/-- IMUs sit on links, and not on one another -/
structure ImusOnLinks (s : System ℝ π) : Prop where
  parent : ∀ x ∈ s.link_names, IsImu x → ∃ m, IsParent s x m
  apart : ∀ x y, IsImu x → IsImu y → s.IsDesc x y → x = y

/-- `x` is the IMU of the segment `m`; of several ones on the same segment it is the last -/
def ImuOf (s : System ℝ π) (m x : String) : Prop :=
  ∃ p q, s.link_names = p ++ x :: q ∧ IsImu x ∧ IsParent s x m ∧
    ∀ y ∈ q, IsImu y → ¬ IsParent s y m

/-! ## proofs -/

theorem mem_findall_imus {s : System ℝ π} {n : String} :
    n ∈ s.findall_imus ↔ n ∈ s.link_names ∧ IsImu n := by
  unfold findall_imus IsImu
  rw [List.mem_filter, List.prefix_iff_eq_take]
  have : "imu".toList.length = 3 := rfl
  rw [this]
  rw [decide_eq_true_eq, @eq_comm _ "imu".toList]

theorem isParent_unique {s : System ℝ π} (hn : s.link_names.Nodup) {n m m' : String}
    (h : IsParent s n m) (h' : IsParent s n m') : m = m' := by
  obtain ⟨i, p, e1, e2, e3⟩ := h
  obtain ⟨i', p', e1', e2', e3'⟩ := h'
  have := uniqueIdx hn e1 e1'
  subst this
  rw [e2] at e2'
  have : p = p' := by
    have := Option.some.inj e2'
    omega
  subst this
  rw [e3] at e3'
  exact Option.some.inj e3'

theorem parent_name_ok {s : System ℝ π} (hn : s.link_names.Nodup) {n m : String}
    (h : IsParent s n m) : s.parent_name n = .ok m := by
  obtain ⟨i, p, e1, e2, e3⟩ := h
  unfold parent_name
  rw [name_to_idx_of_nodup hn e1, ok_bind, pyGet_nat e2, ok_bind, idx_to_name_nat e3]

/-- C03: all IMUs are removed at once, and it is known what they were attached to. -/
theorem C03_make_sys_noimu {E : Env ℝ π} {s : System ℝ π} (h : s.WF E) (hi : ImusOnLinks s) :
    ∃ (s' : System ℝ π) (par : String → String), make_sys_noimu E s = .ok (s', s.findall_imus.map fun x => (x, par x)) ∧
      (∀ x ∈ s.findall_imus, IsParent s x (par x)) ∧ s.Removed E (BelowImu s) s' := by
  choose! par hpar using hi.parent
  have hp : ∀ x ∈ s.findall_imus, IsParent s x (par x) := fun x hx =>
    hpar x (mem_findall_imus.1 hx).1 (mem_findall_imus.1 hx).2
  have hn := h.names_nodup
  have hgone : ∀ m, (∃ x ∈ s.findall_imus, s.IsDesc x m) ↔ BelowImu s m := by
    intro m
    constructor
    · rintro ⟨x, hx, hd⟩
      exact ⟨x, (mem_findall_imus.1 hx).2, hd⟩
    · rintro ⟨x, hx, hd⟩
      exact ⟨x, mem_findall_imus.2 ⟨(isDesc_mem hd).1, hx⟩, hd⟩
  have hdel : ∃ s', delete_subsystems E s s.findall_imus = .ok s' ∧
      s.Removed E (fun m => ∃ x ∈ s.findall_imus, s.IsDesc x m) s' := by
    rcases hl : s.findall_imus with _ | ⟨x, l⟩
    · exact ⟨s, rfl, removed_none h (by simp)⟩
    · rw [← hl]
      have hx : x ∈ s.findall_imus := by rw [hl]; simp
      apply C03_list_strict h _ (fun y hy => (mem_findall_imus.1 hy).1)
      · have hnd : s.findall_imus.Nodup := hn.filter _
        refine List.Pairwise.imp_of_mem ?_ hnd
        intro a b ha hb hab hd
        exact hab (hi.apart a b (mem_findall_imus.1 ha).2 (mem_findall_imus.1 hb).2 hd)
      · obtain ⟨i, p, e1, e2, e3⟩ := hp x hx
        refine ⟨par x, List.mem_of_getElem? e3, ?_⟩
        intro y hy hd
        obtain ⟨k, j, f1, f2, f3⟩ := hd
        have := uniqueIdx hn f2 e3
        subst this
        obtain ⟨hil, e2'⟩ := List.getElem?_eq_some_iff.1 e2
        have hd' : s.IsDesc y x := ⟨k, i, f1, e1, Desc.step e2 f3⟩
        have := hi.apart y x (mem_findall_imus.1 hy).2 (mem_findall_imus.1 hx).2 hd'
        subst this
        have := uniqueIdx hn f1 e1
        subst this
        have h1 := f3.le h.topo
        have h2 := h.topo k hil
        omega
  obtain ⟨s', e, hr⟩ := hdel
  refine ⟨s', par, ?_, hp, ?_⟩
  · unfold make_sys_noimu
    simp only [Option.getD_none]
    rw [mapM_ok (g := fun x => (x, par x)) (fun x hx => by rw [parent_name_ok hn (hp x hx), ok_bind]; rfl),
      ok_bind, e, ok_bind]
    rfl
  · have : (fun m => ∃ x ∈ s.findall_imus, s.IsDesc x m) = BelowImu s := by
      funext m
      exact propext (hgone m)
    rwa [this] at hr

/-- the value of a key after assignments: that of the last one -/
theorem lookup_update_last (l : List String) (f : String → String) (d : Dict String) (k : String) :
    List.lookup k (Dict.update d (l.map fun x => (f x, x))) =
      match (l.filter fun x => f x = k).getLast? with
      | some x => some x
      | none => List.lookup k d := by
  induction l generalizing d with
  | nil => simp [Dict.update]
  | cons a l ih =>
    have : Dict.update d ((a :: l).map fun x => (f x, x)) =
      Dict.update (d.set (f a) a) (l.map fun x => (f x, x)) := rfl
    rw [this, ih, Dict.lookup_set, List.filter_cons]
    by_cases hk : f a = k
    · subst hk
      simp only [decide_true, if_true]
      rcases hg : (l.filter fun x => f x = f a).getLast? with _ | x
      · rw [List.getLast?_eq_none_iff] at hg
        simp [hg]
      · rw [List.getLast?_cons, hg]
        simp
    · have hk' : k ≠ f a := fun e => hk e.symm
      simp [hk, hk']

theorem getLast?_filter_some {l : List String} {P : String → Bool} {x : String} :
    (l.filter P).getLast? = some x ↔ ∃ p q, l = p ++ x :: q ∧ P x = true ∧ ∀ y ∈ q, P y = false := by
  induction l using List.reverseRecOn with
  | nil => simp
  | append_singleton l a ih =>
    rw [List.filter_append, List.filter_singleton]
    by_cases ha : P a = true
    · rw [ha, cond_true, List.getLast?_append]
      simp only [List.getLast?_singleton, Option.some_or, Option.some.injEq]
      constructor
      · rintro rfl
        exact ⟨l, [], rfl, ha, by simp⟩
      · rintro ⟨p, q, e, hx, hq⟩
        rcases List.eq_nil_or_concat q with rfl | ⟨q', b, rfl⟩
        · have := List.append_inj_right' e rfl
          simpa using this
        · have e' : l ++ [a] = (p ++ x :: q') ++ [b] := by rw [e]; simp
          have := List.append_inj_right' e' rfl
          have hb : a = b := by simpa using this
          subst hb
          rw [hq a (by simp)] at ha
          cases ha
    · rw [Bool.eq_false_iff.2 ha, cond_false, List.append_nil, ih]
      constructor
      · rintro ⟨p, q, rfl, hx, hq⟩
        refine ⟨p, q ++ [a], by simp, hx, ?_⟩
        intro y hy
        rcases List.mem_append.1 hy with h | h
        · exact hq y h
        · rw [List.mem_singleton.1 h]
          simpa using ha
      · rintro ⟨p, q, e, hx, hq⟩
        rcases List.eq_nil_or_concat q with rfl | ⟨q', b, rfl⟩
        · have := List.append_inj_right' e rfl
          have hb : a = x := by simpa using this
          subst hb
          exact absurd hx ha
        · have e' : l ++ [a] = (p ++ x :: q') ++ [b] := by rw [e]; simp
          exact ⟨p, q', List.append_inj_left' e' rfl, hx, fun y hy => hq y (by simp [hy])⟩

/-- the dictionary from segments to IMUs -/
theorem attachment_lookup {s : System ℝ π} (hn : s.link_names.Nodup) {par : String → String}
    (hp : ∀ x ∈ s.findall_imus, IsParent s x (par x)) (m x : String) :
    List.lookup m (Dict.update [] ((s.findall_imus.map fun x => (x, par x)).map fun x => (x.2, x.1))) =
      some x ↔ ImuOf s m x := by
  rw [List.map_map]
  have e : ((fun x : String × String => (x.2, x.1)) ∘ fun x => (x, par x)) = fun x => (par x, x) := rfl
  rw [e, lookup_update_last]
  have hpm : ∀ y ∈ s.findall_imus, par y = m ↔ IsParent s y m := fun y hy =>
    ⟨fun e => e ▸ hp y hy, fun h => isParent_unique hn (hp y hy) h⟩
  have h1 : (match (s.findall_imus.filter fun x => par x = m).getLast? with
      | some x => some x
      | none => List.lookup m []) = (s.findall_imus.filter fun x => par x = m).getLast? := by
    cases (s.findall_imus.filter fun x => par x = m).getLast? <;> rfl
  rw [h1]
  have h2 : (s.findall_imus.filter fun x => par x = m) = s.link_names.filter fun y =>
      decide (y ∈ s.findall_imus) && decide (par y = m) := by
    have : s.findall_imus = s.link_names.filter fun y => decide (y ∈ s.findall_imus) := by
      conv_lhs => unfold findall_imus
      apply List.filter_congr
      intro y hy
      simp [findall_imus, hy]
    conv_lhs => rw [this]
    rw [List.filter_filter]
    apply List.filter_congr
    intro y hy
    rw [Bool.and_comm]
  rw [h2, getLast?_filter_some]
  unfold ImuOf
  have hP : ∀ y ∈ s.link_names, (decide (y ∈ s.findall_imus) && decide (par y = m)) = true ↔
      IsImu y ∧ IsParent s y m := by
    intro y hy
    rw [Bool.and_eq_true, decide_eq_true_iff, decide_eq_true_iff]
    constructor
    · rintro ⟨a, b⟩
      exact ⟨(mem_findall_imus.1 a).2, (hpm y a).1 b⟩
    · rintro ⟨a, b⟩
      have := mem_findall_imus.2 ⟨hy, a⟩
      exact ⟨this, (hpm y this).2 b⟩
  constructor
  · rintro ⟨p, q, e, hx, hq⟩
    have hmem : ∀ y, y ∈ p ++ x :: q → y ∈ s.link_names := fun y hy => by rw [e]; exact hy
    have := (hP x (hmem x (by simp))).1 hx
    refine ⟨p, q, e, this.1, this.2, ?_⟩
    intro y hy h1 h2
    have := (hP y (hmem y (by simp [hy]))).2 ⟨h1, h2⟩
    rw [hq y hy] at this
    cases this
  · rintro ⟨p, q, e, h1, h2, hq⟩
    have hmem : ∀ y, y ∈ p ++ x :: q → y ∈ s.link_names := fun y hy => by rw [e]; exact hy
    refine ⟨p, q, e, (hP x (hmem x (by simp))).2 ⟨h1, h2⟩, ?_⟩
    intro y hy
    rw [← Bool.not_eq_true, hP y (hmem y (by simp [hy]))]
    rintro ⟨a, b⟩
    exact hq y hy a b

/-- the channels of an IMU -/
def imuChannels (a : ImuArgs K) : List String :=
  ["acc", "gyr"] ++ if a.has_magnetometer then ["mag"] else []

/-- the options of an IMU that go with trajectories of the given length -/
structure ImuArgsOk (a : ImuArgs K) (N : Nat) : Prop where
  samples : 3 ≤ N
  window : 0 < a.acc_xinyuyi_n
  samples' : 3 * a.acc_xinyuyi_n ≤ N
  smooth : ∀ w, a.smoothen_degree = some w → w % 2 = 1 ∧ 1 < w

/-- what an entry of the measurements holds: the simulated measurements of the IMU of the segment, or
zeros if there is none. The IMU that comes `j`-th has its own random key. -/
def SegmentData (R : Rng K) (key : K) (xs : List (List (Transform ℝ))) (sx : System ℝ π)
    (a : ImuArgs K) (x : Option String) (j : Nat) (d : Dict (List (Vec3 ℝ))) : Prop :=
  match x with
  | some x => ∃ ts, IsSeries sx xs x ts ∧ imu R ts sx.gravity sx.dt
      { a with key := some (R.split ((fun k => R.split k 2 0)^[j] key) 2 1) } = .ok d ∧
      Channels (imuChannels a) xs.length d
  | none => d = [("acc", List.replicate xs.length 0), ("gyr", List.replicate xs.length 0)]

theorem imuLoop_ok {E : JEnv ℝ π} {sx : System ℝ π} (hx : sx.Consistent E.toEnv) (R : Rng K)
    (hR : R.Ok) {xs : List (List (Transform ℝ))} (hl : PosesOf sx xs) {a : ImuArgs K}
    (ha : ImuArgsOk a xs.length) (inv : Dict String)
    (hinv : ∀ m x, List.lookup m inv = some x → x ∈ sx.link_names) :
    ∀ (segs : List String) (key : K) (X0 : Dict (Dict (List (Vec3 ℝ)))), segs.Nodup →
      (∀ n ∈ segs, n ∉ X0.keys) →
      ∃ X, imuLoop R xs sx a inv segs key X0 = .ok X ∧ X.keys = X0.keys ++ segs ∧
        (∀ n, n ∉ segs → List.lookup n X = List.lookup n X0) ∧
        ∀ p m q, segs = p ++ m :: q → ∃ d, List.lookup m X = some d ∧
          SegmentData R key xs sx a (List.lookup m inv)
            (p.countP fun n => (List.lookup n inv).isSome) d := by
  intro segs
  induction segs with
  | nil =>
    intro key X0 _ _
    exact ⟨X0, rfl, by simp, fun _ _ => rfl, by intro p m q h; simp at h⟩
  | cons m segs ih =>
    intro key X0 hnd hX0
    rw [List.nodup_cons] at hnd
    have hm0 : m ∉ X0.keys := hX0 m (by simp)
    have hkeys : ∀ v, (X0.set m v).keys = X0.keys ++ [m] := by
      intro v
      rw [Dict.keys_set, if_neg hm0]
    have step : ∀ (v : Dict (List (Vec3 ℝ))) (key' : K), ∃ X,
        imuLoop R xs sx a inv segs key' (X0.set m v) = .ok X ∧ X.keys = X0.keys ++ m :: segs ∧
        (∀ n, n ∉ m :: segs → List.lookup n X = List.lookup n X0) ∧
        List.lookup m X = some v ∧
        ∀ p m' q, segs = p ++ m' :: q → ∃ d, List.lookup m' X = some d ∧
          SegmentData R key' xs sx a (List.lookup m' inv)
            (p.countP fun n => (List.lookup n inv).isSome) d := by
      intro v key'
      obtain ⟨X, e1, e2, e3, e4⟩ := ih key' (X0.set m v) hnd.2 (by
        intro n hn
        rw [hkeys]
        intro hc
        rcases List.mem_append.1 hc with hc | hc
        · exact hX0 n (by simp [hn]) hc
        · rw [List.mem_singleton.1 hc] at hn
          exact hnd.1 hn)
      refine ⟨X, e1, by rw [e2, hkeys]; simp, ?_, ?_, e4⟩
      · intro n hn
        simp only [List.mem_cons, not_or] at hn
        rw [e3 n hn.2, Dict.lookup_set, if_neg hn.1]
      · rw [e3 m hnd.1, Dict.lookup_set, if_pos rfl]
    rcases hm : List.lookup m inv with _ | x
    · obtain ⟨X, e1, e2, e3, e4, e5⟩ := step
        [("acc", List.replicate xs.length 0), ("gyr", List.replicate xs.length 0)] key
      refine ⟨X, ?_, e2, e3, ?_⟩
      · unfold imuLoop
        rw [hm]
        exact e1
      · intro p m' q hpq
        rcases p with _ | ⟨b, p⟩
        · obtain ⟨rfl, rfl⟩ := List.cons.inj hpq
          refine ⟨_, e4, ?_⟩
          rw [hm]
          rfl
        · obtain ⟨rfl, hpq'⟩ := List.cons.inj hpq
          obtain ⟨d, d1, d2⟩ := e5 p m' q hpq'
          refine ⟨d, d1, ?_⟩
          rw [List.countP_cons, hm]
          exact d2
    · obtain ⟨j, ts, s1, s2, s3, s4⟩ := series_at hx hl (hinv m x hm)
      obtain ⟨v, hv, hc⟩ := C69_imu R hR ts sx.gravity sx.dt { a with key := some (R.split key 2 1) }
        (by rw [s4.length]; exact ha.samples) ha.window (by rw [s4.length]; exact ha.samples')
        (fun _ => rfl) ha.smooth
      obtain ⟨X, e1, e2, e3, e4, e5⟩ := step v (R.split key 2 0)
      refine ⟨X, ?_, e2, e3, ?_⟩
      · unfold imuLoop
        rw [hm]
        dsimp only
        rw [s2, ok_bind, s3, ok_bind, hv, ok_bind]
        exact e1
      · intro p m' q hpq
        rcases p with _ | ⟨b, p⟩
        · obtain ⟨rfl, rfl⟩ := List.cons.inj hpq
          refine ⟨_, e4, ?_⟩
          rw [hm]
          refine ⟨ts, s4, hv, ?_⟩
          rw [s4.length] at hc
          exact hc
        · obtain ⟨rfl, hpq'⟩ := List.cons.inj hpq
          obtain ⟨d, d1, d2⟩ := e5 p m' q hpq'
          refine ⟨d, d1, ?_⟩
          rw [List.countP_cons, hm]
          simp only [Option.isSome_some, if_true]
          unfold SegmentData at d2 ⊢
          rcases hm' : List.lookup m' inv with _ | x'
          · rw [hm'] at d2
            exact d2
          · rw [hm'] at d2
            rw [Function.iterate_succ]
            exact d2

open Classical in
/-- C45, measurements: there is one entry per link that is neither an IMU nor below one, in the order
of the links; it holds what the IMU attached to this very link measures, and zeros if there is no
IMU. -/
theorem C45_imu {E : JEnv ℝ π} {sx : System ℝ π} (h : sx.WF E.toEnv) (hi : ImusOnLinks sx)
    (R : Rng K) (hR : R.Ok) (key : K) {xs : List (List (Transform ℝ))} (hl : PosesOf sx xs)
    {a : ImuArgs K} (ha : ImuArgsOk a xs.length) :
    ∃ X, _imu_data E R key xs sx a = .ok X ∧
      X.keys = sx.link_names.filter (fun n => ¬ BelowImu sx n) ∧
      ∀ p m q, X.keys = p ++ m :: q → ∃ d x, List.lookup m X = some d ∧
        (∀ y, ImuOf sx m y ↔ x = some y) ∧
        SegmentData R key xs sx a x (p.countP fun n => ∃ y, ImuOf sx n y) d := by
  obtain ⟨s', par, e, hp, hr⟩ := C03_make_sys_noimu h hi
  have hlk := attachment_lookup h.names_nodup hp
  obtain ⟨X, e1, e2, -, e4⟩ := imuLoop_ok h.toConsistent R hR hl ha
    (Dict.update [] ((sx.findall_imus.map fun x => (x, par x)).map fun x => (x.2, x.1)))
    (by
      intro m x hm
      obtain ⟨p, q, e, -⟩ := (hlk m x).1 hm
      rw [e]; simp)
    s'.link_names key [] hr.wf.names_nodup (by simp [Dict.keys])
  have e2 : X.keys = s'.link_names := by rw [e2]; simp [Dict.keys]
  refine ⟨X, ?_, ?_, ?_⟩
  · unfold _imu_data
    rw [e, ok_bind]
    exact e1
  · rw [e2]
    have h1 := hr.order
    have h2 : s'.link_names = s'.link_names.filter (fun n => ¬ BelowImu sx n) := by
      rw [List.filter_eq_self.2]
      intro n hn
      simpa using ((hr.mem n).1 hn).2
    have h3 : List.Sublist s'.link_names (sx.link_names.filter (fun n => ¬ BelowImu sx n)) := by
      rw [h2]
      exact h1.filter _
    refine (h3.eq_of_length_le ?_)
    refine ((h.names_nodup.filter _).subperm ?_).length_le
    intro n hn
    rw [List.mem_filter] at hn
    exact (hr.mem n).2 ⟨hn.1, by simpa using hn.2⟩
  · intro p m q hpq
    rw [e2] at hpq
    obtain ⟨d, d1, d2⟩ := e4 p m q hpq
    refine ⟨d, _, d1, fun y => (hlk m y).symm, ?_⟩
    have : (p.countP fun n => (List.lookup n (Dict.update []
        ((sx.findall_imus.map fun x => (x, par x)).map fun x => (x.2, x.1)))).isSome) =
        p.countP fun n => ∃ y, ImuOf sx n y := by
      apply List.countP_congr
      intro n _
      rw [Option.isSome_iff_exists, decide_eq_true_iff]
      simp only [hlk]
    rw [this] at d2
    exact d2

end generator
end RingLib
