import Verif.Model.Sensors
import Verif.Props.Noise

/-!
# The simulated IMU as a whole (C69)
-/

namespace RingLib.sensors
open System maths Real

variable {K : Type}

/-! ## The spring-damper mounting -/

section
variable {V : Type} [AddCommGroup V] [Module ℝ V]

theorem qpScan_length (d s dt : ℝ) (p v : V) (zs : List (V × V)) :
    (qpScan d s dt p v zs).length = zs.length := by
  induction zs generalizing p v with
  | nil => rfl
  | cons z zs ih => simp [qpScan, ih]

theorem quasi_length (pos : List V) (hne : pos ≠ []) (dt : ℝ) :
    ∃ out, _quasi_physical_simulation pos dt = .ok out ∧ out.length = pos.length := by
  match pos, hne with
  | p0 :: pos, _ =>
    refine ⟨_, rfl, ?_⟩
    simp [qpScan_length, diff]

theorem qpScan_const (d s dt : ℝ) (p : V) (n : Nat) :
    qpScan d s dt p 0 (List.replicate n (p, 0)) = List.replicate n p := by
  induction n with
  | zero => rfl
  | succ n ih =>
    rw [List.replicate_succ, qpScan]
    simp only [sub_self, smul_zero, add_zero]
    rw [ih, List.replicate_succ]

/-- **C69.** A sensor mounted on a body at rest stays at rest. -/
theorem C69_quasi_const (p : V) (n : Nat) (hn : 0 < n) (dt : ℝ) :
    _quasi_physical_simulation (List.replicate n p) dt = .ok (List.replicate n p) := by
  obtain ⟨m, rfl⟩ : ∃ m, n = m + 1 := ⟨n - 1, by omega⟩
  rw [List.replicate_succ]
  show Except.ok _ = _
  congr 1
  have h1 : diff (p :: List.replicate m p) = List.replicate m (0 : V) := by
    unfold diff
    apply List.ext_getElem
    · simp
    · intro i h1 h2
      have e : p :: List.replicate m p = List.replicate (m + 1) p := rfl
      simp [e]
  rw [h1]
  have h2 : (0 : V) :: (List.replicate m (0 : V)).map ((1 / dt) • ·) = List.replicate (m + 1) 0 := by
    simp [List.replicate_succ]
  rw [h2, ← List.replicate_succ]
  have h3 : List.zip (List.replicate (m + 1) p) (List.replicate (m + 1) (0 : V))
      = List.replicate (m + 1) (p, 0) := by simp
  rw [h3, qpScan_const]

theorem qpScan_linear (d s dt a b : ℝ) (p v q w : V) (zs ys : List (V × V)) :
    qpScan d s dt (a • p + b • q) (a • v + b • w)
        (List.zipWith (fun z y => (a • z.1 + b • y.1, a • z.2 + b • y.2)) zs ys)
      = List.zipWith (fun u v => a • u + b • v) (qpScan d s dt p v zs) (qpScan d s dt q w ys) := by
  induction zs generalizing ys p v q w with
  | nil => simp [qpScan]
  | cons z zs ih =>
    cases ys with
    | nil => simp [qpScan]
    | cons y ys =>
      simp only [List.zipWith_cons_cons, qpScan]
      have e1 : a • v + b • w + dt • (d • (a • z.2 + b • y.2 - (a • v + b • w))
            + s • (a • z.1 + b • y.1 - (a • p + b • q)))
          = a • (v + dt • (d • (z.2 - v) + s • (z.1 - p)))
            + b • (w + dt • (d • (y.2 - w) + s • (y.1 - q))) := by module
      rw [e1]
      have e2 : ∀ v' w' : V, a • p + b • q + dt • (a • v' + b • w')
          = a • (p + dt • v') + b • (q + dt • w') := by intro v' w'; module
      rw [e2, ih]

/-- **C69.** The mounting responds linearly to the motion of the body. -/
theorem C69_quasi_linear (a b dt : ℝ) (x y : List V) (hxy : x.length = y.length) (hx : x ≠ []) :
    ∃ ox oy, _quasi_physical_simulation x dt = .ok ox ∧ _quasi_physical_simulation y dt = .ok oy ∧
      ox.length = x.length ∧ oy.length = y.length ∧
      _quasi_physical_simulation (List.zipWith (fun u v => a • u + b • v) x y) dt
        = .ok (List.zipWith (fun u v => a • u + b • v) ox oy) := by
  match x, y, hxy, hx with
  | x0 :: xs, y0 :: ys, hxy, _ =>
    refine ⟨_, _, rfl, rfl, ?_, ?_, ?_⟩
    · simp [qpScan_length, diff]
    · simp [qpScan_length, diff]
    · rw [← qpScan_linear]
      rw [List.zipWith_cons_cons]
      show Except.ok _ = _
      congr 1
      have e0 : a • (0 : V) + b • (0 : V) = 0 := by simp
      rw [e0]
      congr 1
      rw [← List.zipWith_cons_cons (f := fun u v => a • u + b • v)]
      apply List.ext_getElem
      · simp [diff] at hxy ⊢
      · intro t h1 h2
        simp only [List.getElem_zip, List.getElem_zipWith, Prod.mk.injEq, true_and]
        match t with
        | 0 => simp
        | t + 1 =>
          simp only [List.getElem_cons_succ, List.getElem_map, diff, List.getElem_zipWith,
            List.getElem_drop]
          module

end

/-! ## Every stage keeps the number of samples -/

theorem replacePos_length (xs : List (Transform ℝ)) (pos : List (Vec3 ℝ))
    (h : pos.length = xs.length) : (replacePos xs pos).length = xs.length := by
  simp [replacePos, h]

theorem replaceRot_length (xs : List (Transform ℝ)) (rot : List (Quat ℝ))
    (h : rot.length = xs.length) : (replaceRot xs rot).length = xs.length := by
  simp [replaceRot, h]

theorem lowpassScan_length (alpha : ℝ) (y : Quat ℝ) (xs : List (Quat ℝ)) :
    (lowpassScan alpha y xs).length = xs.length := by
  induction xs generalizing y with
  | nil => rfl
  | cons x xs ih => simp [lowpassScan, ih]

theorem imuOri_length (R : Rng K) (o : Option ℝ) (key : Option K) (xs : List (Transform ℝ))
    (h : o = none ∨ key.isSome) :
    ∃ xs' key', imuOri R o key xs = .ok (xs', key') ∧ xs'.length = xs.length ∧
      key'.isSome = key.isSome := by
  cases o with
  | none => exact ⟨xs, key, rfl, rfl, rfl⟩
  | some m =>
    cases key with
    | none => simp at h
    | some k => exact ⟨_, _, rfl, by simp, rfl⟩

theorem imuQuasi_length (b : Bool) (dt : ℝ) (xs : List (Transform ℝ)) (hne : xs ≠ []) :
    ∃ xs', imuQuasi b dt xs = .ok xs' ∧ xs'.length = xs.length := by
  cases b with
  | false => exact ⟨xs, rfl, rfl⟩
  | true =>
    obtain ⟨pos, e, l⟩ := quasi_length (xs.map Transform.pos) (by simpa using hne) dt
    refine ⟨replacePos xs pos, ?_, replacePos_length _ _ (by simpa using l)⟩
    unfold imuQuasi
    rw [if_pos rfl, e]
    rfl

theorem imuLowpassPos_length (f : Option ℝ) (dt : ℝ) (xs : List (Transform ℝ))
    (h : 3 ≤ xs.length) :
    ∃ xs', imuLowpassPos f dt xs = .ok xs' ∧ xs'.length = xs.length := by
  cases f with
  | none => exact ⟨xs, rfl, rfl⟩
  | some f =>
    obtain ⟨pos, e, l⟩ := C38_length_partial (xs.map Transform.pos) (1 / dt) f (by simpa using h)
    refine ⟨replacePos xs pos, ?_, replacePos_length _ _ (by simpa using l)⟩
    unfold imuLowpassPos
    dsimp only
    rw [e]
    rfl

theorem imuLowpassRot_length (f : Option ℝ) (dt : ℝ) (xs : List (Transform ℝ)) (hne : xs ≠ []) :
    ∃ xs', imuLowpassRot f dt xs = .ok xs' ∧ xs'.length = xs.length := by
  cases f with
  | none => exact ⟨xs, rfl, rfl⟩
  | some f =>
    obtain ⟨rot, e, l⟩ : ∃ rot, quat_lowpassfilter (xs.map Transform.rot) f (1 / dt) = .ok rot ∧
        rot.length = xs.length := by
      match xs, hne with
      | x :: xs, _ => exact ⟨_, rfl, by simp [lowpassScan_length]⟩
    refine ⟨replaceRot xs rot, ?_, replaceRot_length _ _ l⟩
    unfold imuLowpassRot
    dsimp only
    rw [e]
    rfl

theorem acc_length (xs : List (Transform ℝ)) (g : Vec3 ℝ) (dt : ℝ) (n : Nat) (hn : 0 < n)
    (hN : 3 * n ≤ xs.length) :
    ∃ acc, accelerometer xs g dt n = .ok acc ∧ acc.length = xs.length := by
  have := C37_acc (fun t => (xs.map Transform.pos).getD t 0)
    (fun t => (xs.map Transform.rot).getD t ⟨0, 0, 0, 0⟩) g dt n xs.length hn hN
  rw [traj_all xs] at this
  exact ⟨_, this, by simp⟩

theorem gyr_length (rot : List (Quat ℝ)) (dt : ℝ) (b : Bool) (h : 3 ≤ rot.length) :
    ∃ gyr, gyroscope rot dt b = .ok gyr ∧ gyr.length = rot.length := by
  have e : (List.range rot.length).map (fun t => rot.getD t ⟨0, 0, 0, 0⟩) = rot := by
    apply List.ext_getElem
    · simp
    · intro t h1 h2
      simp only [List.getElem_map, List.getElem_range]
      rw [List.getD_eq_getElem _ _ h2]
  cases b with
  | false =>
    have := C37_gyr_first (fun t => rot.getD t ⟨0, 0, 0, 0⟩) dt (rot.length - 2)
    rw [show rot.length - 2 + 2 = rot.length by omega, e] at this
    exact ⟨_, this, by simp⟩
  | true =>
    have := C37_gyr_second (fun t => rot.getD t ⟨0, 0, 0, 0⟩) dt (rot.length - 3)
    rw [show rot.length - 3 + 3 = rot.length by omega, e] at this
    exact ⟨_, this, by simp⟩

/-- the channels have these names, and as many samples as there are -/
def Channels (names : List String) (N : Nat) (m : Dict (List (Vec3 ℝ))) : Prop :=
  m.map Prod.fst = names ∧ ∀ kv ∈ m, kv.2.length = N

theorem imuMag_length (R : Rng K) (has : Bool) (magvec : Option (Vec3 ℝ)) (key : Option K)
    (xs : List (Transform ℝ)) (h : has = true → magvec = none → key.isSome) :
    ∃ m key', imuMag R has magvec key xs = .ok (m, key') ∧
      Channels (if has then ["mag"] else []) xs.length m ∧ key'.isSome = key.isSome := by
  cases has with
  | false => exact ⟨[], key, rfl, ⟨rfl, by simp⟩, rfl⟩
  | true =>
    cases magvec with
    | some v => exact ⟨_, _, rfl, ⟨rfl, by simp [magnetometer]⟩, rfl⟩
    | none =>
      cases key with
      | none => simp at h
      | some k => exact ⟨_, _, rfl, ⟨rfl, by simp [magnetometer]⟩, rfl⟩

theorem mapChannels_length (f : List (Vec3 ℝ) → Py (List (Vec3 ℝ))) (N : Nat)
    (hf : ∀ arr, arr.length = N → ∃ out, f arr = .ok out ∧ out.length = N)
    (names : List String) (m : Dict (List (Vec3 ℝ))) (hm : Channels names N m) :
    ∃ m', mapChannels f m = .ok m' ∧ Channels names N m' := by
  induction m generalizing names with
  | nil => exact ⟨[], rfl, hm⟩
  | cons kv m ih =>
    obtain ⟨m', e, h⟩ := ih (m.map Prod.fst) ⟨rfl, fun x hx => hm.2 x (by simp [hx])⟩
    obtain ⟨out, eo, lo⟩ := hf kv.2 (hm.2 kv (by simp))
    refine ⟨(kv.1, out) :: m', ?_, ?_, ?_⟩
    · unfold mapChannels at e ⊢
      rw [List.mapM_cons, eo, ok_bind, pure_ok, ok_bind, e]
      rfl
    · rw [← hm.1, List.map_cons, List.map_cons, h.1]
    · intro x hx
      rcases List.mem_cons.1 hx with rfl | hx
      · exact lo
      · exact h.2 x hx

theorem imuSmooth_length (w d : Option Nat) (N : Nat) (hN : 0 < N)
    (hw : ∀ x, w = some x → x % 2 = 1 ∧ 1 < x) (names : List String) (m : Dict (List (Vec3 ℝ)))
    (hm : Channels names N m) :
    ∃ m' d', imuSmooth w d m = .ok (m', d') ∧ Channels names N m' := by
  cases w with
  | none => exact ⟨m, d, rfl, hm⟩
  | some w =>
    obtain ⟨h1, h2⟩ := hw w rfl
    obtain ⟨h, rfl⟩ : ∃ h, w = 2 * h + 1 := ⟨w / 2, by omega⟩
    obtain ⟨m', e, hm'⟩ := mapChannels_length (_moving_average · (2 * h + 1)) N
      (fun arr ha => by
        obtain ⟨out, eo, lo, _⟩ := C36_average arr
          (by intro e; rw [e, List.length_nil] at ha; omega) h (by omega)
        exact ⟨out, eo, lo.trans ha⟩) names m hm
    refine ⟨m', some (d.getD ((2 * h + 1 - 1) / 2)), ?_, hm'⟩
    unfold imuSmooth
    dsimp only
    rw [e]
    rfl

theorem imuDelay_length (d : Option Nat) (N : Nat) (names : List String) (m : Dict (List (Vec3 ℝ)))
    (hm : Channels names N m) : Channels names N (imuDelay d m) := by
  cases d with
  | none => exact hm
  | some d =>
    unfold imuDelay
    dsimp only
    split
    · rename_i hd
      constructor
      · rw [← hm.1]; simp
      · intro kv hkv
        obtain ⟨a, ha, rfl⟩ := List.mem_map.1 hkv
        rw [(C36_delay a.2 d hd).1]
        exact hm.2 a ha
    · exact hm

theorem imuNoise_length (R : Rng K) (hR : R.Ok) (noisy : Bool) (key : Option K)
    (h : noisy = true → key.isSome) (N : Nat) (names : List String)
    (hnames : ∀ s ∈ names, KnownSensor s) (m : Dict (List (Vec3 ℝ))) (hm : Channels names N m) :
    ∃ m', imuNoise R noisy key m = .ok m' ∧ Channels names N m' := by
  cases noisy with
  | false => exact ⟨m, rfl, hm⟩
  | true =>
    cases key with
    | none => simp at h
    | some k =>
      have hb : ∀ s b, levelFor none BIAS_LEVELS s = some b → 0 ≤ b := by
        intro s b hs
        have hpi := pi_pos
        unfold levelFor BIAS_LEVELS at hs
        simp only [Option.getD_none, List.lookup] at hs
        by_cases h1 : s = "acc"
        · subst h1
          simp at hs
          rw [← hs]; norm_num
        · by_cases h2 : s = "gyr"
          · subst h2
            simp at hs
            rw [← hs]; positivity
          · by_cases h3 : s = "mag"
            · subst h3
              simp at hs
              rw [← hs]
            · simp [beq_false_of_ne h1, beq_false_of_ne h2, beq_false_of_ne h3] at hs
      obtain ⟨out, e, h⟩ := C39_noise R hR k m
        (fun kv hkv => hnames kv.1 (by rw [← hm.1]; exact List.mem_map_of_mem hkv)) none none hb
      refine ⟨out, e, ?_⟩
      have key : ∀ (m out : Dict (List (Vec3 ℝ))), List.Forall₂ (fun (a b : String × List (Vec3 ℝ)) =>
          b.1 = a.1 ∧ b.2.length = a.2.length) m out →
          out.map Prod.fst = m.map Prod.fst ∧
          ((∀ kv ∈ m, kv.2.length = N) → ∀ kv ∈ out, kv.2.length = N) := by
        intro m out h
        induction h with
        | nil => exact ⟨rfl, fun h => h⟩
        | cons h _ ih =>
          refine ⟨by rw [List.map_cons, List.map_cons, h.1, ih.1], fun hm kv hkv => ?_⟩
          rcases List.mem_cons.1 hkv with rfl | hkv
          · rw [h.2]; exact hm _ (by simp)
          · exact ih.2 (fun x hx => hm x (by simp [hx])) kv hkv
      have := key m out (h.imp fun a b hab => by
        obtain ⟨h1, _, _, _, h2, _⟩ := hab
        exact ⟨h1, h2.1⟩)
      exact ⟨this.1.trans hm.1, this.2 hm.2⟩

/-- **C69.** For every combination of options, given a key where randomness is asked for and a valid
smoothing window, a trajectory of at least three samples (and at least three times the step of the
accelerometer) yields exactly the channels `acc`, `gyr` and, if asked for, `mag`, with one value per
sample. -/
theorem C69_imu (R : Rng K) (hR : R.Ok) (xs : List (Transform ℝ)) (gravity : Vec3 ℝ) (dt : ℝ)
    (a : ImuArgs K) (hN : 3 ≤ xs.length) (hn : 0 < a.acc_xinyuyi_n)
    (hNn : 3 * a.acc_xinyuyi_n ≤ xs.length)
    (hkey : (a.random_s2s_ori.isSome ∨ a.noisy = true ∨
      (a.has_magnetometer = true ∧ a.magvec = none)) → a.key.isSome)
    (hw : ∀ w, a.smoothen_degree = some w → w % 2 = 1 ∧ 1 < w) :
    ∃ m, imu R xs gravity dt a = .ok m ∧
      Channels (["acc", "gyr"] ++ if a.has_magnetometer then ["mag"] else []) xs.length m := by
  obtain ⟨x1, k1, e1, l1, s1⟩ := imuOri_length R a.random_s2s_ori a.key xs (by
    cases h : a.random_s2s_ori with
    | none => exact Or.inl rfl
    | some m => exact Or.inr (hkey (Or.inl (by rw [h]; rfl))))
  obtain ⟨x2, e2, l2⟩ := imuQuasi_length a.quasi_physical dt x1
    (by intro e; rw [e, List.length_nil] at l1; omega)
  obtain ⟨x3, e3, l3⟩ := imuLowpassPos_length a.low_pass_filter_pos_f_cutoff dt x2 (by omega)
  obtain ⟨x4, e4, l4⟩ := imuLowpassRot_length a.low_pass_filter_rot_cutoff dt x3
    (by intro e; rw [e, List.length_nil] at l3; omega)
  obtain ⟨acc, ea, la⟩ := acc_length x4 gravity dt a.acc_xinyuyi_n hn (by omega)
  obtain ⟨gyr, eg, lg⟩ := gyr_length (x4.map Transform.rot) dt a.gyro_second_order
    (by rw [List.length_map]; omega)
  obtain ⟨mag, k2, em, hm, s2⟩ := imuMag_length R a.has_magnetometer a.magvec k1 x4
    (fun h1 h2 => by rw [s1]; exact hkey (Or.inr (Or.inr ⟨h1, h2⟩)))
  have l : x4.length = xs.length := by omega
  have hch : Channels (["acc", "gyr"] ++ if a.has_magnetometer then ["mag"] else []) xs.length
      ([("acc", acc), ("gyr", gyr)] ++ mag) := by
    constructor
    · rw [List.map_append, hm.1]
      rfl
    · intro kv hkv
      rcases List.mem_append.1 hkv with h | h
      · simp only [List.mem_cons, List.not_mem_nil, or_false] at h
        rcases h with rfl | rfl
        · exact la.trans l
        · simp only [List.length_map] at lg
          exact lg.trans l
      · rw [hm.2 kv h, l]
  obtain ⟨m5, d5, e5, h5⟩ := imuSmooth_length a.smoothen_degree a.delay xs.length (by omega) hw _ _
    hch
  have h6 := imuDelay_length d5 _ _ _ h5
  obtain ⟨m7, e7, h7⟩ := imuNoise_length R hR a.noisy k2
    (fun h => by rw [s2, s1]; exact hkey (Or.inr (Or.inl h))) xs.length _
    (by
      intro s hs
      rcases List.mem_append.1 hs with h | h
      · simp only [List.mem_cons, List.not_mem_nil, or_false] at h
        rcases h with rfl | rfl
        · exact Or.inl rfl
        · exact Or.inr (Or.inl rfl)
      · split at h
        · simp only [List.mem_cons, List.not_mem_nil, or_false] at h
          exact Or.inr (Or.inr h)
        · simp at h) _ h6
  refine ⟨if a.natural_units then rescale_natural_units m7 else m7, ?_, ?_⟩
  · unfold imu
    rw [e1, ok_bind]
    dsimp only
    rw [e2, ok_bind, e3, ok_bind, e4, ok_bind, ea, ok_bind, eg, ok_bind, em, ok_bind]
    dsimp only
    rw [e5, ok_bind]
    dsimp only
    rw [e7, ok_bind]
    rfl
  · by_cases hu : a.natural_units = true
    · rw [if_pos hu]
      constructor
      · rw [← h7.1]; simp [rescale_natural_units]
      · intro kv hkv
        obtain ⟨b, hb, rfl⟩ := List.mem_map.1 hkv
        simpa using h7.2 b hb
    · rw [if_neg hu]
      exact h7

/-- **C69.** Without any option the readings are those of the ideal accelerometer and gyroscope. -/
theorem C69_ideal (R : Rng K) (xs : List (Transform ℝ)) (gravity : Vec3 ℝ) (dt : ℝ)
    (acc gyr : List (Vec3 ℝ)) (ha : accelerometer xs gravity dt 1 = .ok acc)
    (hg : gyroscope (xs.map Transform.rot) dt false = .ok gyr) :
    imu R xs gravity dt ({} : ImuArgs K) = .ok [("acc", acc), ("gyr", gyr)] := by
  unfold imu
  have e1 : imuOri R ({} : ImuArgs K).random_s2s_ori ({} : ImuArgs K).key xs = .ok (xs, none) := rfl
  have e2 : imuQuasi ({} : ImuArgs K).quasi_physical dt xs = .ok xs := rfl
  have e3 : imuLowpassPos ({} : ImuArgs K).low_pass_filter_pos_f_cutoff dt xs = .ok xs := rfl
  have e4 : imuLowpassRot ({} : ImuArgs K).low_pass_filter_rot_cutoff dt xs = .ok xs := rfl
  rw [e1, ok_bind]
  dsimp only
  rw [e2, ok_bind, e3, ok_bind, e4, ok_bind, ha, ok_bind, hg, ok_bind]
  rfl

/-- **C69.** A random mounting orientation turns the frame of the sensor by one and the same rotation
in every sample and leaves its position alone; the key that is left over is a fresh one. -/
theorem C69_orientation (R : Rng K) (k : K) (m : ℝ) (xs : List (Transform ℝ)) :
    imuOri R (some m) (some k) xs
      = .ok (xs.map (fun x => ⟨x.pos, quat_mul (quat_random1 R (R.split k 2 1) m) x.rot⟩),
          some (R.split k 2 0)) := by
  unfold imuOri
  dsimp only
  congr 3
  funext x
  unfold algebra.transform_mul
  simp [rotate_zero]

/-- Two seconds at rest, all options. -/
example : ∃ m, imu (constRng 0 true) (List.replicate 200 ⟨0, ⟨1, 0, 0, 0⟩⟩) ⟨0, 0, 9.81⟩ 0.01
      { key := some (), noisy := true, smoothen_degree := some 7, quasi_physical := true,
        low_pass_filter_pos_f_cutoff := some 13, has_magnetometer := true, natural_units := true }
      = .ok m ∧ Channels ["acc", "gyr", "mag"] 200 m := by
  have := C69_imu (constRng 0 true) (constRng_ok 0 true (by norm_num) (by norm_num))
    (List.replicate 200 ⟨0, ⟨1, 0, 0, 0⟩⟩) ⟨0, 0, 9.81⟩ 0.01
    { key := some (), noisy := true, smoothen_degree := some 7, quasi_physical := true,
      low_pass_filter_pos_f_cutoff := some 13, has_magnetometer := true, natural_units := true }
    (by rw [List.length_replicate]; norm_num) (by norm_num) (by rw [List.length_replicate]; norm_num)
    (fun _ => rfl) (by intro w hw; cases hw; norm_num)
  rw [List.length_replicate] at this
  exact this

end RingLib.sensors
