import Verif.Model.Factories
import Verif.Props.FilterWrappers
import Verif.Props.Dict
import Verif.Props.Ringnet
import Verif.Props.InvKin

/-!
# What the ready-made filters compute (C90)
-/

namespace RingLib.ml
open System maths NDArr

variable {P : Type}

/-! ## Specification -/

/-- The features of every body, scaled: accelerations, rates, joint axes. -/
def Scaled (T N F : Nat) (X X' : NDArr) : Prop :=
  X'.HasShape [T, N, F] ∧ ∀ t < T, ∀ n < N, ∀ k < F, ∀ v, X.entry N F t n k = some v →
    X'.entry N F t n k = some (v * if k < 3 then 1 / 9.81 else if k < 6 then 1 / 2.2 else 1 / 0.57)

/-- Nine features of every body and the sampling time `dt`, scaled, in the order acceleration, sampling time, rate,
joint axis.  The array `X` has `F` features per body. -/
def ScaledWithTime (T N F : Nat) (dt : Nat → Nat → ℝ) (X X' : NDArr) : Prop :=
  X'.HasShape [T, N, 10] ∧ ∀ t < T, ∀ n < N, ∃ x0 x1 x2 x3 x4 x5 x6 x7 x8 : ℝ,
    (List.range 9).map (X.entry N F t n) = [x0, x1, x2, x3, x4, x5, x6, x7, x8].map some ∧
    (List.range 10).map (X'.entry N 10 t n) =
      [x0 / 9.81, x1 / 9.81, x2 / 9.81, dt t n * 10, x3 / 2.2, x4 / 2.2, x5 / 2.2, x6 / 0.57, x7 / 0.57,
        x8 / 0.57].map some

/-- An estimate with the heading of the truth, if there is a truth and the body is a root. -/
noncomputable def aligned (N : Nat) (l : List Int) (y : Option NDArr) (t n : Nat) (q : Quat ℝ) : Quat ℝ :=
  match y with
  | some y => if l[n]? = some (-1) then quat_transfer_heading (y.quat N t n) q else q
  | none => q

/-- From the estimates `raw` of the network to the results `Y`: low-pass filtered forwards and backwards per body (if
`lpf`), the heading of roots taken from the truth `y` (if given); unit quaternions. -/
def Estimates (T N : Nat) (l : List Int) (y : Option NDArr) (lpf : Bool) (cutoff rate : ℝ) (raw : Nat → Nat → Quat ℝ)
    (Y : NDArr) : Prop :=
  Y.HasShape [T, N, 4] ∧ (∀ t < T, ∀ n < N, (Y.quat N t n).IsUnit) ∧
  ∃ q : Nat → Nat → Quat ℝ,
    (∀ n < N, if lpf = true then
        quat_lowpassfilter ((List.range T).map fun t => raw t n) cutoff rate true = .ok ((List.range T).map fun t => q t n)
      else ∀ t < T, q t n = raw t n) ∧
    ∀ t < T, ∀ n < N, Y.quat N t n = aligned N l y t n (q t n)

/-! ## The common part -/

theorem transfer_heading_unit {p q : Quat ℝ} (hp : p.IsUnit) (hq : q.IsUnit) : (quat_transfer_heading p q).IsUnit := by
  have hk : (⟨0, 0, 1⟩ : Vec3 ℝ).x ^ 2 + (⟨0, 0, 1⟩ : Vec3 ℝ).y ^ 2 + (⟨0, 0, 1⟩ : Vec3 ℝ).z ^ 2 = 1 := by
    norm_num
  exact (C12_unit_closed (C16_decompose hq hk).2.2.1 (C16_decompose hp hk).2.1).1

/-- heading, with the parents given or stored -/
theorem heading_apply (f : Filter P) (X : NDArr) (p : Option P) (s : Option Tree) (lam : Option (List Int))
    (l : List Int) (hl : lamOr lam f.lam = .ok (some l)) (Y : NDArr) (St : Tree) {T N : Nat} (hY : Y.HasShape [T, N, 4])
    (y : Option NDArr) (hy : ∀ a, y = some a → a.HasShape [T, N, 4])
    (hf : f.apply X p s y lam = .ok (Y, St)) :
    ∃ Y' : NDArr, (GroundTruthHeading f).apply X p s y lam = .ok (Y', St) ∧ Y'.HasShape [T, N, 4] ∧
      ∀ t < T, ∀ n < N, Y'.quat N t n = aligned N l y t n (Y.quat N t n) := by
  cases y with
  | none =>
    refine ⟨Y, ?_, hY, fun _ _ _ _ => rfl⟩
    simp only [GroundTruthHeading, hf, ok_bind, hl, transfer_ground_truth_heading]
    rfl
  | some y =>
    have hy' := hy y rfl
    refine ⟨headingLoop y 0 l Y, ?_, headingLoop_shape (sh := [T]) hy' l 0 hY, fun t ht n hn => ?_⟩
    · simp only [GroundTruthHeading, hf, ok_bind, hl, transfer_ground_truth_heading]
      rw [if_pos ⟨by rw [hy'.1, hY.1], lastDim_of (sh := [T, N]) hY⟩, ok_bind]
      rfl
    · rw [headingLoop_quat hy' l 0 hY ht hn]
      simp [aligned]

theorem estimates_core (f : Filter P) (lpf : Bool) (c rate : ℝ) (fs : Option ℝ) (hlam : Option (List Int))
    (hattr : f.lam = .ok hlam) {T N F : Nat} (hT : 0 < T) (X : NDArr) (hX : X.HasShape [T, N, F]) (p : Option P)
    (s : Option Tree) (y : Option NDArr) (hy : ∀ a, y = some a → a.HasShape [T, N, 4] ∧ ∀ t < T, ∀ n < N, (a.quat N t n).IsUnit)
    (lam : Option (List Int)) (l : List Int) (hl : (lam.orElse fun _ => hlam) = some l) (Y : NDArr) (St : Tree)
    (hY : Y.HasShape [T, N, 4]) (hu : ∀ t < T, ∀ n < N, (Y.quat N t n).IsUnit)
    (hf : f.apply X p s y lam = .ok (Y, St))
    (hrate : lpf = true → fs = some rate ∨ (fs = none ∧ F = 10 ∧ ∃ dt, X.entry N F 0 0 9 = some dt ∧ rate = 1 / dt)) :
    ∃ Y' : NDArr, (GroundTruthHeading (if lpf then LPF c fs true f else f)).apply X p s y lam = .ok (Y', St) ∧
      Estimates T N l y lpf c rate (fun t n => Y.quat N t n) Y' := by
  have hl' : lamOr lam f.lam = .ok (some l) := by
    rw [hattr]
    cases lam with
    | none => simpa [lamOr] using hl
    | some m => simpa [lamOr] using hl
  have hl'' : ∀ c fs, lamOr lam (LPF c fs true f).lam = .ok (some l) := fun c fs => hl'
  -- after the low-pass filter
  obtain ⟨Z, hZ, hZs, q, hq, hZq, hqu⟩ : ∃ Z : NDArr, (if lpf then LPF c fs true f else f).apply X p s y lam = .ok (Z, St) ∧
      Z.HasShape [T, N, 4] ∧ ∃ q : Nat → Nat → Quat ℝ,
        (∀ n < N, if lpf = true then
          quat_lowpassfilter ((List.range T).map fun t => Y.quat N t n) c rate true = .ok ((List.range T).map fun t => q t n)
          else ∀ t < T, q t n = Y.quat N t n) ∧ (∀ t < T, ∀ n < N, Z.quat N t n = q t n) ∧
        ∀ t < T, ∀ n < N, (q t n).IsUnit := by
    cases lpf with
    | false => exact ⟨Y, hf, hY, fun t n => Y.quat N t n, fun n _ => by simp, fun _ _ _ _ => rfl, hu⟩
    | true =>
      have hex : ∀ n, ∃ out : List (Quat ℝ), n < N →
          quat_lowpassfilter ((List.range T).map fun t => Y.quat N t n) c rate true = .ok out ∧ out.length = T ∧
            ∀ q ∈ out, q.IsUnit := by
        intro n
        by_cases hn : n < N
        · obtain ⟨out, e, hlen, hun⟩ := sensors.C38_quat_unit ((List.range T).map fun t => Y.quat N t n)
            (by intro h; have := congrArg List.length h; simp at this; omega) (by
              intro q hq
              obtain ⟨t, ht, rfl⟩ := List.mem_map.1 hq
              exact hu t (List.mem_range.1 ht) n hn) c rate true
          exact ⟨out, fun _ => ⟨e, by simpa using hlen, hun⟩⟩
        · exact ⟨[], fun h => absurd h hn⟩
      choose out hout using hex
      have hrange : ∀ n < N, (List.range T).map (fun t => (out n).getD t ⟨0, 0, 0, 0⟩) = out n := by
        intro n hn
        apply List.ext_getElem
        · simp [(hout n hn).2.1]
        · intro i h1 h2
          simp [h2]
      have hq : ∀ n < N, quat_lowpassfilter ((List.range T).map fun t => Y.quat N t n) c rate true
          = .ok ((List.range T).map fun t => (out n).getD t ⟨0, 0, 0, 0⟩) := by
        intro n hn
        rw [hrange n hn]
        exact (hout n hn).1
      obtain ⟨Z, h1, h2, h3⟩ := C59_lpf c fs true f X hX p s y lam Y St hY hf rate (hrate rfl)
        (fun t n => (out n).getD t ⟨0, 0, 0, 0⟩) hq
      refine ⟨Z, h1, h2, _, fun n hn => ?_, h3, fun t ht n hn => ?_⟩
      · rw [if_pos rfl]
        exact hq n hn
      · have ho := hout n hn
        apply ho.2.2
        rw [List.getD_eq_getElem _ _ (by rw [ho.2.1]; exact ht)]
        exact List.getElem_mem _
  have hl3 : lamOr lam (if lpf then LPF c fs true f else f).lam = .ok (some l) := by
    cases lpf
    · exact hl'
    · exact hl'' c fs
  obtain ⟨Y', e1, e2, e3⟩ := heading_apply _ X p s lam l hl3 Z St hZs y (fun a h => (hy a h).1) hZ
  refine ⟨Y', e1, e2, ?_, q, hq, ?_⟩
  · intro t ht n hn
    rw [e3 t ht n hn, hZq t ht n hn]
    cases y with
    | none => exact hqu t ht n hn
    | some a =>
      unfold aligned
      dsimp only
      split
      · exact transfer_heading_unit ((hy a rfl).2 t ht n hn) (hqu t ht n hn)
      · exact hqu t ht n hn
  · intro t ht n hn
    rw [e3 t ht n hn, hZq t ht n hn]

/-! ## `ring.RING` -/

/-- a keyword argument, or its default -/
def option {α : Type} (kwargs : Dict KwVal) (key : String) (read : KwVal → α) (default : α) : α :=
  ((kwargs.lookup key).map read).getD default

theorem ringFactory_ok (net : Net P) (w : String → P) (lam : Option (List Int)) (Ts : Option ℝ) (hTs : Ts ≠ some 0)
    (kwargs : Dict KwVal) (hk : kwargs.keys.Nodup) :
    ∃ warned, rateWarning Ts = .ok warned ∧ ringFactory net (fun name => .ok (w name)) lam Ts kwargs = .ok
      (ringWrap Ts (option kwargs "use_lpf" KwVal.truthy true) (option kwargs "lpf_cutoff_freq" KwVal.toNum 10)
        (ringParams Ts (option kwargs "use_100Hz_RING" KwVal.truthy true)).2
        (net.ring (some (w (ringParams Ts (option kwargs "use_100Hz_RING" KwVal.truthy true)).1)) lam).filter, warned) := by
  obtain ⟨warned, hw⟩ : ∃ warned, rateWarning Ts = .ok warned := by
    cases Ts with
    | none => exact ⟨_, rfl⟩
    | some ts =>
      have : ts ≠ 0 := fun h => hTs (by rw [h])
      unfold rateWarning
      dsimp only
      split
      · exact ⟨_, rfl⟩
      · exact ⟨_, rfl⟩
  have hget : ∀ key v, List.lookup key [("use_100Hz_RING", KwVal.bool true), ("use_lpf", .bool true),
      ("lpf_cutoff_freq", .num _LPF_CUTOFF_FREQ)] = some v →
      pyDict (ringConfig kwargs) key = .ok ((kwargs.lookup key).getD v) := by
    intro key v h
    unfold pyDict ringConfig
    rw [Dict.lookup_update _ _ hk, h]
    cases kwargs.lookup key <;> rfl
  have h1 := hget "use_100Hz_RING" (.bool true) rfl
  have h2 := hget "use_lpf" (.bool true) rfl
  have h3 := hget "lpf_cutoff_freq" (.num _LPF_CUTOFF_FREQ) rfl
  have e : ∀ {α : Type} (key : String) (read : KwVal → α) (v : KwVal),
      read ((kwargs.lookup key).getD v) = option kwargs key read (read v) := by
    intro α key read v
    unfold option
    cases kwargs.lookup key <;> rfl
  refine ⟨warned, hw, ?_⟩
  have e1 := e "use_100Hz_RING" KwVal.truthy (.bool true)
  have e2 := e "use_lpf" KwVal.truthy (.bool true)
  have e3 := e "lpf_cutoff_freq" KwVal.toNum (.num _LPF_CUTOFF_FREQ)
  unfold ringFactory
  dsimp only
  rw [hw, ok_bind, h1, ok_bind, ok_bind, h2, ok_bind, h3, ok_bind, e1, e2, e3]
  rfl

theorem scale_factors : _default_factors.lookup "acc" = some (1 / 9.81) ∧ _default_factors.lookup "gyr" = some (1 / 2.2) ∧
    _default_factors.lookup "joint_axes" = some (1 / 0.57) ∧ _default_factors.lookup "dt" = some 10 :=
  ⟨rfl, rfl, rfl, rfl⟩

/-- The network, used by the filter: parameters given or loaded, states given or initial, on the features `X'`. -/
def Net.run (net : Net P) (l : List Int) (params : P) (p : Option P) (s : Option Tree) (X' : NDArr) : NDArr × Tree :=
  net.forward l (p.getD params) (s.getD (net.init l X'.first).2) X'

theorem scaled_run (net : Net P) (params : P) (hr : ∀ q lam, (net.ring q lam).Ok) {T N F : Nat} (hT : 0 < T)
    (X' : NDArr) (hX' : X'.HasShape [T, N, F]) (p : Option P) (s : Option Tree) (hs : StateOk s) (y : Option NDArr)
    (lam0 lam : Option (List Int)) (l : List Int) (hl : (lam.orElse fun _ => lam0) = some l) :
    (net.ring (some params) lam0).filter.apply X' p s y lam = .ok (net.run l params p s X') := by
  have := C59_ring_single (net.ring (some params) lam0) (hr _ _) hT X' hX' p s hs y lam l hl
  show (net.ring (some params) lam0).apply X' p s y lam = _
  rw [this]
  unfold RING.paramsFor Net.run Net.ring
  cases p <;> rfl

/-- **C90.** At 100 Hz (unless switched off) the filter runs the network that was trained at 100 Hz on the nine scaled
features, and then filters and aligns its estimates. -/
theorem C90_ring_100Hz (net : Net P) (w : String → P) (hr : ∀ q lam, (net.ring q lam).Ok) (lam0 : Option (List Int))
    (kwargs : Dict KwVal) (hk : kwargs.keys.Nodup) (h100 : option kwargs "use_100Hz_RING" KwVal.truthy true = true)
    {T N : Nat} (hT : 0 < T) (X : NDArr) (hX : X.HasShape [T, N, 9]) (p : Option P) (s : Option Tree) (hs : StateOk s)
    (y : Option NDArr) (hy : ∀ a, y = some a → a.HasShape [T, N, 4] ∧ ∀ t < T, ∀ n < N, (a.quat N t n).IsUnit)
    (lam : Option (List Int)) (l : List Int) (hl : (lam.orElse fun _ => lam0) = some l) :
    ∃ f, ringFactory net (fun name => .ok (w name)) lam0 (some 0.01) kwargs = .ok (f, []) ∧
      ∃ X' : NDArr, Scaled T N 9 X X' ∧ ∀ raw St, net.run l (w "ml/params/0x1d76628065a71e0f.pickle") p s X' = (raw, St) →
        raw.HasShape [T, N, 4] → (∀ t < T, ∀ n < N, (raw.quat N t n).IsUnit) →
        ∃ Y, f.apply X p s y lam = .ok (Y, St) ∧
          Estimates T N l y (option kwargs "use_lpf" KwVal.truthy true) (option kwargs "lpf_cutoff_freq" KwVal.toNum 10)
            100 (fun t n => raw.quat N t n) Y := by
  obtain ⟨warned, hw, hf⟩ := ringFactory_ok net w lam0 (some 0.01) (by norm_num) kwargs hk
  have hw : warned = [] := by
    unfold rateWarning at hw
    dsimp only at hw
    rw [if_neg (by norm_num)] at hw
    exact (Except.ok.inj hw).symm
  subst hw
  have hc : ringParams (some 0.01) (option kwargs "use_100Hz_RING" KwVal.truthy true)
      = ("ml/params/0x1d76628065a71e0f.pickle", false) := by
    unfold ringParams
    rw [h100, if_pos ⟨rfl, rfl⟩]
  rw [hc] at hf
  refine ⟨_, hf, ?_⟩
  obtain ⟨X', e1, e2, e3⟩ := C59_scale _default_factors
    (net.ring (some (w "ml/params/0x1d76628065a71e0f.pickle")) lam0).filter (F := 9) (Or.inr rfl) X hX _ _ _
    scale_factors.1 scale_factors.2.1 scale_factors.2.2.1 p s y lam
  refine ⟨X', ⟨e2, e3⟩, fun raw St hrun hraw hun => ?_⟩
  rw [scaled_run net _ hr hT X' e2 p s hs y lam0 lam l hl, hrun] at e1
  obtain ⟨Y, h1, h2⟩ := estimates_core (ScaleX _default_factors _) (option kwargs "use_lpf" KwVal.truthy true)
    (option kwargs "lpf_cutoff_freq" KwVal.toNum 10) 100 (some (1 / 0.01)) lam0 rfl hT X hX p s y hy lam l hl raw St hraw
    hun e1 (fun _ => Or.inl (by norm_num))
  exact ⟨Y, h1, h2⟩

/-- **C90.** At every other sampling time: the network trained on many rates gets ten features, the sampling time
included. -/
theorem C90_ring_Ts (net : Net P) (w : String → P) (hr : ∀ q lam, (net.ring q lam).Ok) (lam0 : Option (List Int))
    (kwargs : Dict KwVal) (hk : kwargs.keys.Nodup) (Ts : ℝ) (hTs : Ts ≠ 0)
    (h100 : Ts ≠ 0.01 ∨ option kwargs "use_100Hz_RING" KwVal.truthy true = false)
    {T N : Nat} (hT : 0 < T) (X : NDArr) (hX : X.HasShape [T, N, 9]) (p : Option P) (s : Option Tree) (hs : StateOk s)
    (y : Option NDArr) (hy : ∀ a, y = some a → a.HasShape [T, N, 4] ∧ ∀ t < T, ∀ n < N, (a.quat N t n).IsUnit)
    (lam : Option (List Int)) (l : List Int) (hl : (lam.orElse fun _ => lam0) = some l) :
    ∃ f warned, ringFactory net (fun name => .ok (w name)) lam0 (some Ts) kwargs = .ok (f, warned) ∧
      ∃ X' : NDArr, ScaledWithTime T N 9 (fun _ _ => Ts) X X' ∧
        ∀ raw St, net.run l (w "ml/params/0x13e3518065c21cd8.pickle") p s X' = (raw, St) →
        raw.HasShape [T, N, 4] → (∀ t < T, ∀ n < N, (raw.quat N t n).IsUnit) →
        ∃ Y, f.apply X p s y lam = .ok (Y, St) ∧
          Estimates T N l y (option kwargs "use_lpf" KwVal.truthy true) (option kwargs "lpf_cutoff_freq" KwVal.toNum 10)
            (1 / Ts) (fun t n => raw.quat N t n) Y := by
  obtain ⟨warned, -, hf⟩ := ringFactory_ok net w lam0 (some Ts) (by simpa using hTs) kwargs hk
  have hc : ringParams (some Ts) (option kwargs "use_100Hz_RING" KwVal.truthy true)
      = ("ml/params/0x13e3518065c21cd8.pickle", true) := by
    unfold ringParams
    rw [if_neg]
    rintro ⟨h1, h2⟩
    rcases h100 with h | h
    · exact h (Option.some.inj h1)
    · rw [h] at h2; cases h2
  rw [hc] at hf
  refine ⟨_, warned, hf, ?_⟩
  generalize hinner : (net.ring (some (w "ml/params/0x13e3518065c21cd8.pickle")) lam0).filter = inner
  obtain ⟨X1, a1, a2, a3⟩ := C59_addTs Ts (GroundTruthHeading (if option kwargs "use_lpf" KwVal.truthy true then
    LPF (option kwargs "lpf_cutoff_freq" KwVal.toNum 10) (some (1 / Ts)) true (ScaleX _default_factors inner)
    else ScaleX _default_factors inner)) X hX p s y lam
  obtain ⟨X', e1, e2, e3⟩ := C59_scale10 _default_factors inner X1 a2 _ _ _ _
    scale_factors.1 scale_factors.2.1 scale_factors.2.2.1 scale_factors.2.2.2 p s y lam
  refine ⟨X', ⟨e2, fun t ht n hn => ?_⟩, fun raw St hrun hraw hun => ?_⟩
  · obtain ⟨x0, x1, x2, x3, x4, x5, x6, x7, x8, x9, f1, f2⟩ := e3 t ht n hn
    obtain ⟨g1, g2⟩ := a3 t ht n hn
    have hlast : x9 = Ts := by
      have := congrArg (fun l : List (Option ℝ) => l[9]?) f1
      simp [g2] at this
      exact this.symm
    subst hlast
    refine ⟨x0, x1, x2, x3, x4, x5, x6, x7, x8, ?_, ?_⟩
    · have : (List.range 9).map (X.entry N 9 t n) = (List.range 9).map (X1.entry N 10 t n) :=
        List.map_congr_left fun k hk => (g1 k (List.mem_range.1 hk)).symm
      rw [this]
      have := congrArg (List.take 9) f1
      simpa [List.range_succ] using this
    · rw [f2]
      simp only [div_eq_mul_inv, one_mul]
  · rw [← hinner, scaled_run net _ hr hT X' e2 p s hs y lam0 lam l hl, hrun, hinner] at e1
    obtain ⟨Y, h1, h2⟩ := estimates_core (ScaleX _default_factors inner) (option kwargs "use_lpf" KwVal.truthy true)
      (option kwargs "lpf_cutoff_freq" KwVal.toNum 10) (1 / Ts) (some (1 / Ts)) lam0 (by rw [← hinner]; rfl) hT X1 a2 p s y
      hy lam l hl raw St hraw hun e1 (fun _ => Or.inl rfl)
    exact ⟨Y, a1.trans h1, h2⟩

/-- **C90.** Without sampling time: it is the tenth feature; the low-pass filter takes that of the first body at the
first time. -/
theorem C90_ring_None (net : Net P) (w : String → P) (hr : ∀ q lam, (net.ring q lam).Ok) (lam0 : Option (List Int))
    (kwargs : Dict KwVal) (hk : kwargs.keys.Nodup)
    {T N : Nat} (hT : 0 < T) (X : NDArr) (hX : X.HasShape [T, N, 10]) (dt : Nat → Nat → ℝ)
    (hdt : ∀ t < T, ∀ n < N, X.entry N 10 t n 9 = some (dt t n)) (hN : 0 < N)
    (p : Option P) (s : Option Tree) (hs : StateOk s)
    (y : Option NDArr) (hy : ∀ a, y = some a → a.HasShape [T, N, 4] ∧ ∀ t < T, ∀ n < N, (a.quat N t n).IsUnit)
    (lam : Option (List Int)) (l : List Int) (hl : (lam.orElse fun _ => lam0) = some l) :
    ∃ f, ringFactory net (fun name => .ok (w name)) lam0 none kwargs = .ok (f, []) ∧
      ∃ X' : NDArr, ScaledWithTime T N 10 dt X X' ∧
        ∀ raw St, net.run l (w "ml/params/0x13e3518065c21cd8.pickle") p s X' = (raw, St) →
        raw.HasShape [T, N, 4] → (∀ t < T, ∀ n < N, (raw.quat N t n).IsUnit) →
        ∃ Y, f.apply X p s y lam = .ok (Y, St) ∧
          Estimates T N l y (option kwargs "use_lpf" KwVal.truthy true) (option kwargs "lpf_cutoff_freq" KwVal.toNum 10)
            (1 / dt 0 0) (fun t n => raw.quat N t n) Y := by
  obtain ⟨warned, hw, hf⟩ := ringFactory_ok net w lam0 none (by simp) kwargs hk
  have hw : warned = [] := (Except.ok.inj hw).symm
  subst hw
  have hc : ringParams none (option kwargs "use_100Hz_RING" KwVal.truthy true)
      = ("ml/params/0x13e3518065c21cd8.pickle", true) := by
    unfold ringParams
    rw [if_neg]
    rintro ⟨h1, -⟩
    cases h1
  rw [hc] at hf
  refine ⟨_, hf, ?_⟩
  generalize hinner : (net.ring (some (w "ml/params/0x13e3518065c21cd8.pickle")) lam0).filter = inner
  obtain ⟨X', e1, e2, e3⟩ := C59_scale10 _default_factors inner X hX _ _ _ _
    scale_factors.1 scale_factors.2.1 scale_factors.2.2.1 scale_factors.2.2.2 p s y lam
  refine ⟨X', ⟨e2, fun t ht n hn => ?_⟩, fun raw St hrun hraw hun => ?_⟩
  · obtain ⟨x0, x1, x2, x3, x4, x5, x6, x7, x8, x9, f1, f2⟩ := e3 t ht n hn
    have hlast : x9 = dt t n := by
      have := congrArg (fun l : List (Option ℝ) => l[9]?) f1
      simp [hdt t ht n hn] at this
      exact this.symm
    subst hlast
    refine ⟨x0, x1, x2, x3, x4, x5, x6, x7, x8, ?_, ?_⟩
    · have := congrArg (List.take 9) f1
      simpa [List.range_succ] using this
    · rw [f2]
      simp only [div_eq_mul_inv, one_mul]
  · rw [← hinner, scaled_run net _ hr hT X' e2 p s hs y lam0 lam l hl, hrun, hinner] at e1
    obtain ⟨Y, h1, h2⟩ := estimates_core (ScaleX _default_factors inner) (option kwargs "use_lpf" KwVal.truthy true)
      (option kwargs "lpf_cutoff_freq" KwVal.toNum 10) (1 / dt 0 0) none lam0 (by rw [← hinner]; rfl) hT X hX p s y
      hy lam l hl raw St hraw hun e1 (fun _ => Or.inr ⟨rfl, rfl, dt 0 0, hdt 0 hT 0 hN, rfl⟩)
    refine ⟨Y, ?_, h2⟩
    rw [← h1]
    simp only [ringWrap, AddTs, _add_Ts]
    rw [if_pos trivial]
    dsimp only
    rw [pyAssert_true (lastDim_of (sh := [T, N]) hX)]
    rfl

/-- an example: a network that returns the identity for every body -/
def exNet : Net Unit where
  forward _ _ _ X := (⟨[X.shape.getD 0 0, X.shape.getD 1 0, 4],
    (List.replicate (X.shape.getD 0 0 * X.shape.getD 1 0) [1, 0, 0, 0]).flatten⟩, [])
  init _ _ := ((), [])

theorem exNet_ok (q : Option Unit) (lam : Option (List Int)) : (exNet.ring q lam).Ok where
  forward lam p T N F tsh := ⟨[T, N, 4], [], rfl, fun s X hX _ => by
    have : X.shape = [T, N, F] := hX.1
    refine ⟨⟨?_, ?_⟩, .nil⟩ <;> simp [Net.ring, exNet, this, Nat.mul_assoc]⟩
  init _ _ _ _ _ _ := rfl
  state _ _ := ⟨[], .nil⟩

/-- the hypotheses of `C90_ring_100Hz` can be met: one body, two times, no movement -/
example : ∃ f, ringFactory exNet (fun _ => .ok ()) (some [-1]) (some 0.01) [] = .ok (f, []) ∧
    ∃ Y St, f.apply ⟨[2, 1, 9], List.replicate 18 0⟩ none none none none = .ok (Y, St) ∧ Y.HasShape [2, 1, 4] ∧
      ∀ t < 2, (Y.quat 1 t 0).IsUnit := by
  obtain ⟨f, h1, X', h2, h3⟩ := C90_ring_100Hz exNet (fun _ => ()) exNet_ok (some [-1]) [] (by simp [Dict.keys]) rfl
    (T := 2) (N := 1) (by omega) ⟨[2, 1, 9], List.replicate 18 0⟩ ⟨rfl, by simp⟩ none none (by intro t h; cases h) none
    (by simp) none [-1] rfl
  have hX' : X'.shape = [2, 1, 9] := h2.1.1
  obtain ⟨Y, e1, e2, e3, -⟩ := h3 _ _ rfl ⟨by simp [Net.run, exNet, hX'], by simp [Net.run, exNet, hX']⟩ (by
    intro t ht n hn
    have : n = 0 := by omega
    subst this
    interval_cases t <;> simp [Net.run, exNet, hX', NDArr.quat, toQuat, Quat.IsUnit, Quat.normSq])
  exact ⟨f, h1, Y, _, e1, e2, fun t ht => e3 t ht 0 (by omega)⟩

/-- and those of `C90_ring_Ts` and `C90_ring_None` -/
example : ((1 : ℝ) / 50 ≠ 0 ∧ ((1 : ℝ) / 50 ≠ 0.01)) ∧
    (∀ t < 1, ∀ n < 1, (⟨[1, 1, 10], [1, 2, 3, 4, 5, 6, 7, 8, 9, 0.02]⟩ : NDArr).entry 1 10 t n 9 = some 0.02) := by
  refine ⟨by norm_num, fun t ht n hn => ?_⟩
  have h1 : t = 0 := by omega
  have h2 : n = 0 := by omega
  subst h1 h2
  rfl

/-- **C90.** The filter treats a batch like its sequences one by one. -/
theorem C90_ring_batch (net : Net P) (load : String → Py P) (hr : ∀ q lam, (net.ring q lam).Ok)
    (lam0 : Option (List Int)) (Ts : Option ℝ) (kwargs : Dict KwVal) (f : Filter P) (warned : List ℝ)
    (hf : ringFactory net load lam0 Ts kwargs = .ok (f, warned)) : Transparent f := by
  have hwrap : ∀ (r : RING P) b c a, Wrapped r.filter (ringWrap Ts b c a r.filter) := by
    intro r b c a
    unfold ringWrap
    cases b <;> cases a <;> simp only [if_true, Bool.false_eq_true, if_false]
    · exact .heading (.scale _ .base)
    · exact .addTs _ (.heading (.scale _ .base))
    · exact .heading (.lpf _ _ _ (.scale _ .base))
    · exact .addTs _ (.heading (.lpf _ _ _ (.scale _ .base)))
  unfold ringFactory at hf
  dsimp only at hf
  cases h1 : rateWarning Ts with
  | error e => rw [h1] at hf; cases hf
  | ok wn =>
    rw [h1, ok_bind] at hf
    cases h2 : pyDict (ringConfig kwargs) "use_100Hz_RING" with
    | error e => rw [h2] at hf; cases hf
    | ok u =>
      rw [h2, ok_bind] at hf
      cases h3 : load (ringParams Ts u.truthy).1 with
      | error e => rw [h3] at hf; cases hf
      | ok ps =>
        rw [h3, ok_bind] at hf
        cases h4 : pyDict (ringConfig kwargs) "use_lpf" with
        | error e => rw [h4] at hf; cases hf
        | ok b =>
          rw [h4, ok_bind] at hf
          cases h5 : pyDict (ringConfig kwargs) "lpf_cutoff_freq" with
          | error e => rw [h5] at hf; cases hf
          | ok c =>
            rw [h5, ok_bind] at hf
            cases hf
            exact C59_tower _ (hr _ _) _ (hwrap _ _ _ _)

/-- **C90.** The warning: exactly outside 40 to 200 Hz, with the rate; a sampling time of zero raises. -/
theorem C90_warning (net : Net P) (w : String → P) (lam0 : Option (List Int)) (kwargs : Dict KwVal)
    (hk : kwargs.keys.Nodup) (Ts : ℝ) :
    (0 < Ts → ∃ f warned, ringFactory net (fun name => .ok (w name)) lam0 (some Ts) kwargs = .ok (f, warned) ∧
      (40 ≤ 1 / Ts ∧ 1 / Ts ≤ 200 → warned = []) ∧ (1 / Ts < 40 ∨ 200 < 1 / Ts → warned = [1 / Ts])) ∧
    (Ts = 0 → ringFactory net (fun name => .ok (w name)) lam0 (some Ts) kwargs = .error .zeroDivision) := by
  constructor
  · intro hpos
    obtain ⟨warned, hrate, hf⟩ := ringFactory_ok net w lam0 (some Ts) (by simpa using hpos.ne') kwargs hk
    refine ⟨_, warned, hf, ?_⟩
    unfold rateWarning at hrate
    dsimp only at hrate
    constructor
    · rintro ⟨h1, h2⟩
      rw [le_div_iff₀ hpos] at h1
      rw [div_le_iff₀ hpos] at h2
      rw [if_neg (by rintro (h | h) <;> linarith)] at hrate
      exact (Except.ok.inj hrate).symm
    · intro h
      rw [div_lt_iff₀ hpos, lt_div_iff₀ hpos] at h
      rw [if_pos (by rcases h with h | h; · left; linarith
                     · right; linarith), if_neg hpos.ne'] at hrate
      exact (Except.ok.inj hrate).symm
  · rintro rfl
    unfold ringFactory rateWarning
    dsimp only
    rw [if_pos (by norm_num), if_pos rfl, error_bind]

/-- **C90.** Only three keyword arguments have an effect. -/
theorem C90_keywords (net : Net P) (load : String → Py P) (lam0 : Option (List Int)) (Ts : Option ℝ)
    (kwargs kwargs' : Dict KwVal) (hk : kwargs.keys.Nodup) (hk' : kwargs'.keys.Nodup)
    (h : ∀ key ∈ ["use_100Hz_RING", "use_lpf", "lpf_cutoff_freq"], kwargs.lookup key = kwargs'.lookup key) :
    ringFactory net load lam0 Ts kwargs = ringFactory net load lam0 Ts kwargs' := by
  have e : ∀ key ∈ ["use_100Hz_RING", "use_lpf", "lpf_cutoff_freq"],
      pyDict (ringConfig kwargs) key = pyDict (ringConfig kwargs') key := by
    intro key hkey
    unfold pyDict ringConfig
    rw [Dict.lookup_update _ _ hk, Dict.lookup_update _ _ hk', h key hkey]
  unfold ringFactory
  dsimp only
  rw [e "use_100Hz_RING" (by simp), e "use_lpf" (by simp), e "lpf_cutoff_freq" (by simp)]

/-- **C90 fails** for misspelt keyword arguments: they are accepted and change nothing. -/
theorem C90_misspelt_fails (net : Net P) (w : String → P) (lam0 : Option (List Int)) (Ts : Option ℝ)
    (hTs : Ts ≠ some 0) (key : String) (hkey : key ∉ ["use_100Hz_RING", "use_lpf", "lpf_cutoff_freq"]) (v : KwVal) :
    ∃ r, ringFactory net (fun name => .ok (w name)) lam0 Ts [(key, v)] = .ok r ∧
      ringFactory net (fun name => .ok (w name)) lam0 Ts [] = .ok r := by
  obtain ⟨warned, -, hf⟩ := ringFactory_ok net w lam0 Ts hTs [] (by simp [Dict.keys])
  refine ⟨_, ?_, hf⟩
  rw [← hf]
  apply C90_keywords
  · simp [Dict.keys]
  · simp [Dict.keys]
  · intro k hk
    have : k ≠ key := fun h => hkey (h ▸ hk)
    rw [Dict.lookup_if, if_neg this]

example : "use_lfp" ∉ ["use_100Hz_RING", "use_lpf", "lpf_cutoff_freq"] := by decide

/-- **C90 fails** for the parent array of the quickstart example, `[0, 1, 2]` (`/repo/readme.md:33`,
`/repo/src/ring/__init__.py:41`): every body is its own parent, no body is connected to another, and the estimates of
the middle body, which has no sensor, are the same whatever the sensors of the others measure. -/
theorem C90_quickstart_fails {X M V Y : Type} [AddCommMonoid M] (w : RingWeights X M V Y) (zero : X)
    (xs xs' : List (X × X)) (hlen : xs.length = xs'.length) (s : List (List V)) (hs : s.length = 3) :
    (unroll w [0, 1, 2] (xs.map fun x => [x.1, zero, x.2]) s).1.map (fun y => y[1]?)
      = (unroll w [0, 1, 2] (xs'.map fun x => [x.1, zero, x.2]) s).1.map (fun y => y[1]?) := by
  have hl : ([0, 1, 2] : List Int).length = 3 := rfl
  have hp : ∀ p ∈ ([0, 1, 2] : List Int), -1 ≤ p := by decide
  have hx : ∀ xs : List (X × X), ∀ x ∈ xs.map (fun x => [x.1, zero, x.2]), x.length = 3 := by
    intro xs x hx
    obtain ⟨a, -, rfl⟩ := List.mem_map.1 hx
    rfl
  have hconn : ∀ j, Connected [0, 1, 2] 1 j → j = 1 := by
    intro j h
    induction h with
    | refl => rfl
    | @tail b c _ h ih =>
      subst ih
      rcases h with h | h
      · simp at h; omega
      · match c, h with
        | 0, h => simp at h
        | 1, _ => rfl
        | 2, h => simp at h
        | n + 3, h => simp at h
  have len := fun xs => C58_shape w [0, 1, 2] hl (xs.map fun x : X × X => [x.1, zero, x.2]) (hx xs) s hs
  apply List.ext_getElem?
  intro t
  by_cases ht : t < xs.length
  · have := C58_component w [0, 1, 2] hl hp (xs.map fun x => [x.1, zero, x.2]) (xs'.map fun x => [x.1, zero, x.2])
      (hx xs) (hx xs') s s hs hs 1 t (by simpa using ht) (by simpa [← hlen] using ht)
      (fun u hu x x' h h' j hj => by
        obtain rfl := hconn j hj
        rw [List.getElem?_map] at h h'
        obtain ⟨a, -, rfl⟩ := Option.map_eq_some_iff.1 h
        obtain ⟨b, -, rfl⟩ := Option.map_eq_some_iff.1 h'
        rfl)
      (fun _ _ => rfl)
    rw [List.getElem?_map, List.getElem?_map]
    have h1 : t < (unroll w [0, 1, 2] (xs.map fun x => [x.1, zero, x.2]) s).1.length := by
      rw [(len xs).1]; simpa using ht
    have h2 : t < (unroll w [0, 1, 2] (xs'.map fun x => [x.1, zero, x.2]) s).1.length := by
      rw [(len xs').1]; simpa [← hlen] using ht
    rw [List.getElem?_eq_getElem h1, List.getElem?_eq_getElem h2] at this ⊢
    simpa using this
  · rw [List.getElem?_eq_none (by rw [List.length_map, (len xs).1]; simpa using ht),
      List.getElem?_eq_none (by rw [List.length_map, (len xs').1]; simpa [← hlen] using ht)]

/-! ## RNNO -/

/-- **C90.** The arguments of the network: RNNO without graph has no messages and no normalisation of its own, and the
given output dimension; what the caller gives in addition is kept; arguments that RNNO sets itself are rejected. -/
theorem C90_rnno_kwargs {A : Type} (ν : KwEmbed A) (output_dim : Nat) (kwargs : Dict A) (hk : kwargs.keys.Nodup) :
    (("message_dim" ∈ kwargs.keys ∨ "link_output_normalize" ∈ kwargs.keys ∨ "link_output_dim" ∈ kwargs.keys) →
      ∀ v1, rnnoKwargs ν output_dim v1 kwargs = .error .assertion) ∧
    ("message_dim" ∉ kwargs.keys → "link_output_normalize" ∉ kwargs.keys → "link_output_dim" ∉ kwargs.keys →
      (∃ kw : Dict A, rnnoKwargs ν output_dim false kwargs = .ok kw ∧ kw.lookup "message_dim" = some (ν.nat 0) ∧
        kw.lookup "link_output_normalize" = some (ν.bool false) ∧ kw.lookup "link_output_dim" = some (ν.nat output_dim) ∧
        ∀ key ∉ ["message_dim", "link_output_normalize", "link_output_dim"], kw.lookup key = kwargs.lookup key) ∧
      ∃ kw : Dict A, rnnoKwargs ν output_dim true kwargs = .ok kw ∧
        kw.lookup "forward_factory" = some ν.rnno_v1_forward_factory ∧ kw.lookup "output_dim" = some (ν.nat output_dim) ∧
        ∀ key ∉ ["forward_factory", "output_dim"], kw.lookup key = kwargs.lookup key) := by
  constructor
  · intro h v1
    unfold rnnoKwargs
    by_cases h1 : "message_dim" ∈ kwargs.keys
    · rw [pyAssert_false (by simpa using h1), error_bind]
    · rw [pyAssert_true h1, ok_bind]
      by_cases h2 : "link_output_normalize" ∈ kwargs.keys
      · rw [pyAssert_false (by simpa using h2), error_bind]
      · rw [pyAssert_true h2, ok_bind]
        have h3 : "link_output_dim" ∈ kwargs.keys := by tauto
        rw [pyAssert_false (by simpa using h3), error_bind]
  · intro h1 h2 h3
    have e : ∀ v1, rnnoKwargs ν output_dim v1 kwargs = if v1 then
        .ok (kwargs.update [("forward_factory", ν.rnno_v1_forward_factory), ("output_dim", ν.nat output_dim)])
        else .ok (kwargs.update [("message_dim", ν.nat 0), ("link_output_normalize", ν.bool false),
          ("link_output_dim", ν.nat output_dim)]) := by
      intro v1
      unfold rnnoKwargs
      rw [pyAssert_true h1, ok_bind, pyAssert_true h2, ok_bind, pyAssert_true h3, ok_bind]
    have n1 : (Dict.keys [("message_dim", ν.nat 0), ("link_output_normalize", ν.bool false),
          ("link_output_dim", ν.nat output_dim)]).Nodup := by simp [Dict.keys]
    have n2 : (Dict.keys [("forward_factory", ν.rnno_v1_forward_factory), ("output_dim", ν.nat output_dim)]).Nodup := by
      simp [Dict.keys]
    refine ⟨⟨_, (e false).trans rfl, ?_, ?_, ?_, ?_⟩, ⟨_, (e true).trans rfl, ?_, ?_, ?_⟩⟩
    · rw [Dict.lookup_update _ _ n1]; rfl
    · rw [Dict.lookup_update _ _ n1]; rfl
    · rw [Dict.lookup_update _ _ n1]; rfl
    · intro key hkey
      simp only [List.mem_cons, List.not_mem_nil, or_false, not_or] at hkey
      rw [Dict.lookup_update _ _ n1, Dict.lookup_if, if_neg hkey.1, Dict.lookup_if, if_neg hkey.2.1, Dict.lookup_if,
        if_neg hkey.2.2]
      rfl
    · rw [Dict.lookup_update _ _ n2]; rfl
    · rw [Dict.lookup_update _ _ n2]; rfl
    · intro key hkey
      simp only [List.mem_cons, List.not_mem_nil, or_false, not_or] at hkey
      rw [Dict.lookup_update _ _ n2, Dict.lookup_if, if_neg hkey.1, Dict.lookup_if, if_neg hkey.2]
      rfl

/-- The features of all bodies side by side, as those of one body, scaled. -/
def Flattened (T N F : Nat) (scale : Nat → ℝ) (X X' : NDArr) : Prop :=
  X'.HasShape [T, 1, N * F] ∧ ∀ t < T, ∀ n < N, ∀ k < F, ∀ v, X.entry N F t n k = some v →
    X'.entry 1 (N * F) t 0 (n * F + k) = some (v * scale k)

/-- the scaling by RNNO -/
noncomputable def rnnoScale (scale_X : Bool) (k : Nat) : ℝ :=
  if scale_X = true then (if k < 3 then 1 / 9.81 else if k < 6 then 1 / 2.2 else 1 / 0.57) else 1

theorem noGraph_quat (f : Filter P) {T N F : Nat} (hTN : T * N ≠ 0) (X : NDArr)
    (hX : X.HasShape [T, N, F]) (p : Option P) (s : Option Tree) (y : Option NDArr)
    (lam : Option (List Int)) (Y : NDArr) (St : Tree)
    (hin : f.apply ⟨[T, 1, N * F], X.data⟩ p s y (some [-1]) = .ok (Y, St)) (hY : Y.HasShape [T, 1, N * 4]) :
    ∃ Y' : NDArr, (NoGraph true f).apply X p s y lam = .ok (Y', St) ∧ Y'.HasShape [T, N, 4] ∧
      ∀ t < T, ∀ n < N, Y'.quat N t n = safe_normalize4 (Y.quat N t n) := by
  have hs : (⟨[T, N, 4], Y.data⟩ : NDArr).HasShape [T, N, 4] := ⟨rfl, by rw [hY.2]; simp⟩
  refine ⟨mapLast (fun q => ofQuat (safe_normalize4 (toQuat q))) 4 ⟨[T, N, 4], Y.data⟩, ?_,
    mapLast_shape (sh := [T, N]) hs fun _ _ => rfl, ?_⟩
  · simp only [NoGraph, noGraphShapes, reshape, hX.1]
    rw [ok_bind]
    dsimp only
    rw [if_pos (by simp), ok_bind, hin, ok_bind]
    dsimp only
    unfold reshapeRest
    rw [hY.1]
    have e1 : ([T, N] : List Nat).prod = T * N := by simp
    have e2 : ([T, 1, N * 4] : List Nat).prod = T * N * 4 := by simp; ring
    rw [e1, e2, if_neg hTN, Nat.mul_mod_right, if_pos rfl,
      Nat.mul_div_cancel_left _ (Nat.pos_of_ne_zero hTN), ok_bind]
    unfold normalizeLast
    rw [if_pos rfl, pyAssert_true (by simp [lastDim])]
    rfl
  · intro t ht n hn
    have hent : ∀ j < 4, (mapLast (fun q => ofQuat (safe_normalize4 (toQuat q))) 4 ⟨[T, N, 4], Y.data⟩).entry N 4 t n j
        = (ofQuat (safe_normalize4 (Y.quat N t n)))[j]? := by
      intro j hj
      rw [mapLast_entry (F' := 4) (f := fun q => ofQuat (safe_normalize4 (toQuat q))) hs (fun _ _ => rfl) ht hn hj]
      congr 3
      unfold NDArr.quat
      rw [toQuat_drop]
      simp [toQuat, NDArr.entry, List.range_succ, List.getD_eq_getElem?_getD]
    have h0 := hent 0 (by omega)
    have h1 := hent 1 (by omega)
    have h2 := hent 2 (by omega)
    have h3 := hent 3 (by omega)
    unfold NDArr.entry at h0 h1 h2 h3
    rw [Nat.add_zero] at h0
    unfold NDArr.quat at h0 h1 h2 h3 ⊢
    rw [toQuat_drop, List.getD_eq_getElem?_getD, List.getD_eq_getElem?_getD, List.getD_eq_getElem?_getD,
      List.getD_eq_getElem?_getD, h0, h1, h2, h3]
    rfl

/-- the inner part of RNNO on one sequence -/
theorem rnno_inner (r : RING P) (hr : r.Ok) (scale_X : Bool) {T N F : Nat} (hT : 0 < T)
    (hF : scale_X = true → F = 6 ∨ F = 9) (X : NDArr) (hX : X.HasShape [T, N, F]) (p : Option P) (s : Option Tree)
    (hs : StateOk s) (y : Option NDArr) (lam : Option (List Int)) (b : Bool) :
    ∃ X1 : NDArr, X1.HasShape [T, N, F] ∧ Flattened T N F (rnnoScale scale_X) X ⟨[T, 1, N * F], X1.data⟩ ∧
      (if scale_X then ScaleX _default_factors (NoGraph b r.filter) else NoGraph b r.filter).apply X p s y lam
        = (NoGraph b r.filter).apply X1 p s y lam ∧
      r.filter.apply ⟨[T, 1, N * F], X1.data⟩ p s y (some [-1]) = .ok (r.forward [-1]
        (r.paramsFor [-1] p (NDArr.first ⟨[T, 1, N * F], X1.data⟩))
        (s.getD (r.init [-1] (NDArr.first ⟨[T, 1, N * F], X1.data⟩)).2) ⟨[T, 1, N * F], X1.data⟩) := by
  have hflat : ∀ X1 : NDArr, X1.HasShape [T, N, F] → (⟨[T, 1, N * F], X1.data⟩ : NDArr).HasShape [T, 1, N * F] :=
    fun X1 h => ⟨rfl, by rw [h.2]; simp⟩
  have hidx : ∀ (X1 : NDArr) t n k, (⟨[T, 1, N * F], X1.data⟩ : NDArr).entry 1 (N * F) t 0 (n * F + k) = X1.entry N F t n k := by
    intro X1 t n k
    unfold NDArr.entry
    dsimp only
    congr 1
    ring
  obtain ⟨X1, h1, h2, h3⟩ : ∃ X1 : NDArr, X1.HasShape [T, N, F] ∧
      (∀ t < T, ∀ n < N, ∀ k < F, ∀ v, X.entry N F t n k = some v →
        X1.entry N F t n k = some (v * rnnoScale scale_X k)) ∧
      (if scale_X then ScaleX _default_factors (NoGraph b r.filter) else NoGraph b r.filter).apply X p s y lam
        = (NoGraph b r.filter).apply X1 p s y lam := by
    cases scale_X with
    | false => exact ⟨X, hX, fun t _ n _ k _ v hv => by simp [rnnoScale, hv], rfl⟩
    | true =>
      obtain ⟨X1, e1, e2, e3⟩ := C59_scale _default_factors (NoGraph b r.filter) (hF rfl) X hX _ _ _ scale_factors.1
        scale_factors.2.1 scale_factors.2.2.1 p s y lam
      exact ⟨X1, e2, fun t ht n hn k hk v hv => by rw [e3 t ht n hn k hk v hv]; simp [rnnoScale], e1⟩
  refine ⟨X1, h1, ⟨hflat X1 h1, fun t ht n hn k hk v hv => ?_⟩, h3, ?_⟩
  · rw [hidx]
    exact h2 t ht n hn k hk v hv
  · exact C59_ring_single r hr hT _ (hflat X1 h1) p s hs y (some [-1]) [-1] rfl

/-- **C90.** RNNO for orientations: one body with the features of all, its outputs cut into quaternions and normalised,
then filtered (in evaluation) and aligned. -/
theorem C90_rnno_quats {A : Type} (ν : KwEmbed A) (cls : Option P → Dict A → Py (RING P)) (output_dim : Nat)
    (params : Option P) (eval : Bool) (rate : ℝ) (v1 scale_X : Bool) (kwargs kw : Dict A) (r : RING P)
    (hkw : rnnoKwargs ν output_dim v1 kwargs = .ok kw) (hcls : cls params kw = .ok r) (hr : r.Ok)
    {T N F : Nat} (hT : 0 < T) (hN : 0 < N) (hF : scale_X = true → F = 6 ∨ F = 9) (X : NDArr) (hX : X.HasShape [T, N, F])
    (p : Option P) (s : Option Tree) (hs : StateOk s) (y : Option NDArr)
    (hy : ∀ a, y = some a → a.HasShape [T, N, 4] ∧ ∀ t < T, ∀ n < N, (a.quat N t n).IsUnit)
    (lam : Option (List Int)) (l : List Int) (hl : (lam.orElse fun _ => r.lam) = some l) :
    ∃ f, RNNO ν cls output_dim true params eval (some rate) v1 scale_X kwargs = .ok f ∧
      ∃ X' : NDArr, Flattened T N F (rnnoScale scale_X) X X' ∧
        ∀ raw St, r.forward [-1] (r.paramsFor [-1] p X'.first) (s.getD (r.init [-1] X'.first).2) X' = (raw, St) →
        raw.HasShape [T, 1, N * 4] → (∀ t < T, ∀ n < N, ¬ allclose0' (raw.quat N t n)) →
        ∃ Y, f.apply X p s y lam = .ok (Y, St) ∧
          Estimates T N l y eval 10 rate (fun t n => safe_normalize4 (raw.quat N t n)) Y := by
  refine ⟨rnnoWrap true eval scale_X (some rate) r.filter, ?_, ?_⟩
  · unfold RNNO
    rw [hkw, ok_bind, hcls, ok_bind]
  obtain ⟨X1, h1, h2, h3, h4⟩ := rnno_inner r hr scale_X hT hF X hX p s hs y lam true
  refine ⟨_, h2, fun raw St hrun hraw hne => ?_⟩
  rw [hrun] at h4
  have hTN : T * N ≠ 0 := (Nat.mul_pos hT hN).ne'
  obtain ⟨Z, e1, e2, e3⟩ := noGraph_quat r.filter hTN X1 h1 p s y lam raw St h4 hraw
  rw [e1] at h3
  have hattr : (if scale_X then ScaleX _default_factors (NoGraph true r.filter) else NoGraph true r.filter).lam
      = .ok r.lam := by cases scale_X <;> rfl
  obtain ⟨Y, f1, f2⟩ := estimates_core _ eval 10 rate (some rate) r.lam hattr hT X hX p s y hy lam l hl Z St e2
    (fun t ht n hn => by
      rw [e3 t ht n hn]
      have := safe_normalize4_unit (hne t ht n hn)
      unfold Quat.IsUnit
      linear_combination this) h3 (fun _ => Or.inl rfl)
  refine ⟨Y, ?_, ?_⟩
  · rw [← f1]
    unfold rnnoWrap
    rw [Bool.and_true]
    rfl
  · obtain ⟨g1, g2, q, g3, g4⟩ := f2
    refine ⟨g1, g2, q, fun n hn => ?_, g4⟩
    have := g3 n hn
    have ec : (List.range T).map (fun t => Z.quat N t n) = (List.range T).map fun t => safe_normalize4 (raw.quat N t n) :=
      List.map_congr_left fun t ht => e3 t (List.mem_range.1 ht) n hn
    cases eval with
    | true => simpa [ec] using this
    | false =>
      simp only [Bool.false_eq_true, if_false] at this ⊢
      intro t ht
      rw [this t ht, e3 t ht n hn]

/-- the hypotheses can be met: one body, one time -/
example : ∃ f, RNNO (P := Unit) (A := Nat) ⟨id, fun b => b.toNat, 7⟩ (fun q _ => .ok (exNet.ring q (some [-1]))) 4 true
      none true (some 100) false true [("hidden_state_dim", 20)] = .ok f ∧
    ∃ Y St, f.apply ⟨[1, 1, 6], [1, 2, 3, 4, 5, 6]⟩ none none none none = .ok (Y, St) ∧ Y.HasShape [1, 1, 4] := by
  obtain ⟨kw, hkw, -⟩ := ((C90_rnno_kwargs (A := Nat) ⟨id, fun b => b.toNat, 7⟩ 4 [("hidden_state_dim", 20)]
    (by simp [Dict.keys])).2 (by simp [Dict.keys]) (by simp [Dict.keys]) (by simp [Dict.keys])).1
  obtain ⟨f, h1, X', h2, h3⟩ := C90_rnno_quats (P := Unit) _ (fun q _ => .ok (exNet.ring q (some [-1]))) 4 none true 100
    false true _ kw _ hkw rfl (exNet_ok _ _) (T := 1) (N := 1) (F := 6) (by omega) (by omega) (fun _ => Or.inl rfl)
    ⟨[1, 1, 6], [1, 2, 3, 4, 5, 6]⟩ ⟨rfl, by simp⟩ none none (by intro t h; cases h) none (by simp) none [-1] rfl
  have hX' : X'.shape = [1, 1, 6] := h2.1.1
  obtain ⟨Y, e1, e2, -⟩ := h3 _ _ rfl ⟨by simp [Net.ring, exNet, hX'], by simp [Net.ring, exNet, hX']⟩ (by
    intro t ht n hn
    have h1 : t = 0 := by omega
    have h2 : n = 0 := by omega
    subst h1 h2
    rintro ⟨h, -⟩
    simp [Net.ring, exNet, hX', NDArr.quat, toQuat, isclose0] at h
    norm_num at h)
  exact ⟨f, h1, Y, _, e1, e2⟩

/-- **C90.** RNNO for other outputs: the outputs of the one body, cut into those of the bodies. -/
theorem C90_rnno_plain {A : Type} (ν : KwEmbed A) (cls : Option P → Dict A → Py (RING P)) (output_dim : Nat)
    (params : Option P) (eval : Bool) (fs : Option ℝ) (v1 scale_X : Bool) (kwargs kw : Dict A) (r : RING P)
    (hkw : rnnoKwargs ν output_dim v1 kwargs = .ok kw) (hcls : cls params kw = .ok r) (hr : r.Ok)
    {T N F O : Nat} (hT : 0 < T) (hN : 0 < N) (hF : scale_X = true → F = 6 ∨ F = 9) (X : NDArr)
    (hX : X.HasShape [T, N, F]) (p : Option P) (s : Option Tree) (hs : StateOk s) (y : Option NDArr)
    (lam : Option (List Int)) :
    ∃ f, RNNO ν cls output_dim false params eval fs v1 scale_X kwargs = .ok f ∧
      ∃ X' : NDArr, Flattened T N F (rnnoScale scale_X) X X' ∧
        ∀ raw St, r.forward [-1] (r.paramsFor [-1] p X'.first) (s.getD (r.init [-1] X'.first).2) X' = (raw, St) →
        raw.HasShape [T, 1, N * O] →
        ∃ Y, f.apply X p s y lam = .ok (Y, St) ∧ Y.HasShape [T, N, O] ∧
          ∀ t n o, Y.entry N O t n o = raw.entry 1 (N * O) t 0 (n * O + o) := by
  refine ⟨rnnoWrap false eval scale_X fs r.filter, ?_, ?_⟩
  · unfold RNNO
    rw [hkw, ok_bind, hcls, ok_bind]
  obtain ⟨X1, h1, h2, h3, h4⟩ := rnno_inner r hr scale_X hT hF X hX p s hs y lam false
  refine ⟨_, h2, fun raw St hrun hraw => ?_⟩
  rw [hrun] at h4
  have hTN : T * N ≠ 0 := (Nat.mul_pos hT hN).ne'
  obtain ⟨Z, e1, e2, e3⟩ := C59_noGraph r.filter (O := O) hTN X1 h1 p s y lam ⟨[T, 1, N * F], X1.data⟩ raw St h2.1
    (by
      intro t _ n _ k _
      unfold NDArr.entry
      dsimp only
      congr 1
      ring) h4 hraw
  refine ⟨Z, ?_, e2, e3⟩
  rw [← e1, ← h3]
  unfold rnnoWrap
  rw [Bool.and_false]
  rfl

/-- **C90.** RNNO treats a batch like its sequences one by one. -/
theorem C90_rnno_batch {A : Type} (ν : KwEmbed A) (cls : Option P → Dict A → Py (RING P))
    (hr : ∀ q kw r, cls q kw = .ok r → r.Ok) (output_dim : Nat) (return_quats : Bool) (params : Option P) (eval : Bool)
    (fs : Option ℝ) (v1 scale_X : Bool) (kwargs : Dict A) (f : Filter P)
    (hf : RNNO ν cls output_dim return_quats params eval fs v1 scale_X kwargs = .ok f) : Transparent f := by
  unfold RNNO at hf
  cases h1 : rnnoKwargs ν output_dim v1 kwargs with
  | error e => rw [h1] at hf; cases hf
  | ok kw =>
    rw [h1, ok_bind] at hf
    cases h2 : cls params kw with
    | error e => rw [h2] at hf; cases hf
    | ok r =>
      rw [h2, ok_bind] at hf
      cases hf
      refine C59_tower r (hr _ _ _ h2) _ ?_
      unfold rnnoWrap
      cases return_quats <;> cases eval <;> cases scale_X <;>
        simp only [Bool.and_false, Bool.and_true, if_true, Bool.false_eq_true, if_false]
      · exact .noGraph _ .base
      · exact .scale _ (.noGraph _ .base)
      · exact .noGraph _ .base
      · exact .scale _ (.noGraph _ .base)
      · exact .heading (.noGraph _ .base)
      · exact .heading (.scale _ (.noGraph _ .base))
      · exact .heading (.lpf _ _ _ (.noGraph _ .base))
      · exact .heading (.lpf _ _ _ (.scale _ (.noGraph _ .base)))

/-- **C90 fails** for RNNO with orientations and otherwise default arguments: without `samp_freq` the filter raises for
features without sampling time. -/
theorem C90_rnno_default_fails {A : Type} (ν : KwEmbed A) (cls : Option P → Dict A → Py (RING P)) (output_dim : Nat)
    (params : Option P) (v1 scale_X : Bool) (kwargs : Dict A) (f : Filter P)
    (hf : RNNO ν cls output_dim (return_quats := true) params (v1 := v1) (scale_X := scale_X) (kwargs := kwargs) = .ok f)
    {T N F : Nat} (hF : F ≠ 10) (X : NDArr) (hX : X.HasShape [T, N, F]) (p : Option P) (s : Option Tree)
    (y : Option NDArr) (lam : Option (List Int)) :
    f.apply X p s y lam = .error .assertion := by
  unfold RNNO at hf
  cases h1 : rnnoKwargs ν output_dim v1 kwargs with
  | error e => rw [h1] at hf; cases hf
  | ok kw =>
    rw [h1, ok_bind] at hf
    cases h2 : cls params kw with
    | error e => rw [h2] at hf; cases hf
    | ok r =>
      rw [h2, ok_bind] at hf
      cases hf
      have hs : sampFreq none X = .error .assertion := by
        unfold sampFreq
        dsimp only
        rw [pyAssert_false (by rw [lastDim_of (sh := [T, N]) hX]; exact hF), error_bind]
      have hrates : lpfRates none X = .error .assertion := by
        unfold lpfRates
        rw [if_neg (by unfold ndim; rw [hX.1]; simp), hs, error_bind]
      unfold rnnoWrap
      simp only [Bool.and_true, if_true, GroundTruthHeading, LPF, hrates, error_bind]

/-- **C90.** The truth requires the parent array: RNNO has none unless it is given. -/
theorem C90_rnno_truth {A : Type} (ν : KwEmbed A) (cls : Option P → Dict A → Py (RING P)) (output_dim : Nat)
    (params : Option P) (v1 scale_X eval : Bool) (fs : Option ℝ) (kwargs kw : Dict A) (r : RING P)
    (hkw : rnnoKwargs ν output_dim v1 kwargs = .ok kw) (hcls : cls params kw = .ok r) (hlam : r.lam = none) :
    ∃ f, RNNO ν cls output_dim true params eval fs v1 scale_X kwargs = .ok f ∧
      ∀ X p s y r', f.apply X p s (some y) none ≠ .ok r' := by
  refine ⟨rnnoWrap true eval scale_X fs r.filter, ?_, ?_⟩
  · unfold RNNO
    rw [hkw, ok_bind, hcls, ok_bind]
  intro X p s y r'
  unfold rnnoWrap
  rw [Bool.and_true, if_pos rfl]
  generalize hg : (if eval = true then LPF _LPF_CUTOFF_FREQ fs true (if scale_X = true then ScaleX _default_factors
    (NoGraph true r.filter) else NoGraph true r.filter) else if scale_X = true then ScaleX _default_factors
    (NoGraph true r.filter) else NoGraph true r.filter) = g
  have hgl : g.lam = .ok none := by
    rw [← hg, ← hlam]
    cases eval <;> cases scale_X <;> rfl
  simp only [GroundTruthHeading, hgl, lamOr, transfer_ground_truth_heading, ok_bind]
  cases g.apply X p s (some y) none with
  | error e => rw [error_bind]; intro h; cases h
  | ok v => rw [ok_bind, error_bind]; intro h; cases h

end RingLib.ml
