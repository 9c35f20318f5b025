import Verif.Model.Sensors
import Verif.Props.Sizes
import Verif.Props.Lowpass
import Verif.Props.Smooth

/-!
# Sensor noise (C39) and the whole sensor (C69)
-/

namespace RingLib.sensors
open System maths Real

variable {K : Type}

/-! ## Specification -/

/-- `noisy` is the signal `arr` with a noise term per sample and one bias for all samples. -/
def Perturbed (noise : Nat → Vec3 ℝ) (bias : Vec3 ℝ) (arr noisy : List (Vec3 ℝ)) : Prop :=
  noisy.length = arr.length ∧
  ∀ t a, arr[t]? = some a → noisy[t]? = some (a + noise t + bias)

/-- all components of `v` are at most `b` in absolute value -/
def BoundedBy (v : Vec3 ℝ) (b : ℝ) : Prop := |v.x| ≤ b ∧ |v.y| ≤ b ∧ |v.z| ≤ b

/-- the sensors known to the library -/
def KnownSensor (s : String) : Prop := s = "acc" ∨ s = "gyr" ∨ s = "mag"

theorem levelOf_known (levels : Dict (Option ℝ)) (defaults : Dict (Option ℝ)) (s : String)
    (h : (defaults.lookup s).isSome) :
    levelOf levels defaults s
      = .ok ((levels.lookup s).getD ((defaults.lookup s).getD none)) := by
  unfold levelOf pyDict
  obtain ⟨d, hd⟩ := Option.isSome_iff_exists.1 h
  rw [hd]
  rfl

theorem noise_known {s : String} (h : KnownSensor s) :
    (NOISE_LEVELS.lookup s).isSome ∧ (BIAS_LEVELS.lookup s).isSome := by
  rcases h with rfl | rfl | rfl <;> simp [NOISE_LEVELS, BIAS_LEVELS, List.lookup]

theorem scaleU_bound {u b : ℝ} (hu : 0 ≤ u ∧ u < 1) (hb : 0 ≤ b) : |scaleU u (-b) b| ≤ b := by
  unfold scaleU
  rw [abs_le]
  constructor
  · exact le_max_left _ _
  · apply max_le
    · linarith
    · nlinarith [hu.1, hu.2]

theorem biasRow_bound (R : Rng K) (hR : R.Ok) (c : K) (b : ℝ) (hb : 0 ≤ b) :
    BoundedBy (biasRow R c (some b)) b :=
  ⟨scaleU_bound (hR.uniformN c 3 0) hb, scaleU_bound (hR.uniformN c 3 1) hb,
    scaleU_bound (hR.uniformN c 3 2) hb⟩

/-- the level in force for a sensor: the one given, else the default -/
noncomputable def levelFor (levels : Option (Dict (Option ℝ))) (defaults : Dict (Option ℝ))
    (s : String) : Option ℝ :=
  match (levels.getD []).lookup s with
  | some l => l
  | none => (defaults.lookup s).getD none

theorem levelFor_eq (levels : Option (Dict (Option ℝ))) (defaults : Dict (Option ℝ)) (s : String)
    (h : (defaults.lookup s).isSome) :
    levelOf (levels.getD []) defaults s = .ok (levelFor levels defaults s) := by
  rw [levelOf_known _ _ _ h]
  unfold levelFor
  cases (levels.getD []).lookup s <;> rfl

/-- **C39.** For measurements of the known sensors `add_noise_bias` keeps names, order and lengths of
the channels, and adds to each channel a term per sample, scaled by the noise level in force, and
one bias, constant over time and at most the bias level in force in each component.  Without a level
nothing is added. -/
theorem C39_noise (R : Rng K) (hR : R.Ok) (key : K) (imu : Dict (List (Vec3 ℝ)))
    (hk : ∀ kv ∈ imu, KnownSensor kv.1) (nl bl : Option (Dict (Option ℝ)))
    (hb : ∀ s b, levelFor bl BIAS_LEVELS s = some b → 0 ≤ b) :
    ∃ out, add_noise_bias R key imu nl bl = .ok out ∧
      List.Forall₂ (fun (a b : String × List (Vec3 ℝ)) => b.1 = a.1 ∧
        ∃ (z : Nat → Vec3 ℝ) (noise : Nat → Vec3 ℝ) (bias : Vec3 ℝ),
          Perturbed noise bias a.2 b.2 ∧
          (∀ s, levelFor nl NOISE_LEVELS a.1 = some s → ∀ t, noise t = s • z t) ∧
          (levelFor nl NOISE_LEVELS a.1 = none → ∀ t, noise t = 0) ∧
          (∀ m, levelFor bl BIAS_LEVELS a.1 = some m → BoundedBy bias m) ∧
          (levelFor bl BIAS_LEVELS a.1 = none → bias = 0)) imu out := by
  unfold add_noise_bias
  induction imu generalizing key with
  | nil => exact ⟨[], rfl, .nil⟩
  | cons kv imu ih =>
    obtain ⟨sensor, arr⟩ := kv
    obtain ⟨out, e, h⟩ := ih (R.split key 3 0) fun x hx => hk x (by simp [hx])
    have hs : KnownSensor sensor := hk (sensor, arr) (by simp)
    refine ⟨(sensor, arr.mapIdx fun t a =>
        a + noiseRow R (R.split key 3 1) arr.length (levelFor nl NOISE_LEVELS sensor) t
          + biasRow R (R.split key 3 2) (levelFor bl BIAS_LEVELS sensor)) :: out, ?_,
      .cons ⟨rfl, fun t => ⟨R.normal (R.split key 3 1) (3 * arr.length) (3 * t),
        R.normal (R.split key 3 1) (3 * arr.length) (3 * t + 1),
        R.normal (R.split key 3 1) (3 * arr.length) (3 * t + 2)⟩,
        noiseRow R (R.split key 3 1) arr.length (levelFor nl NOISE_LEVELS sensor),
        biasRow R (R.split key 3 2) (levelFor bl BIAS_LEVELS sensor), ⟨?_, ?_⟩, ?_, ?_, ?_, ?_⟩ h⟩
    · unfold noiseLoop
      dsimp only
      rw [levelFor_eq nl _ _ (noise_known hs).1, ok_bind, levelFor_eq bl _ _ (noise_known hs).2,
        ok_bind, e, ok_bind]
      rfl
    · simp
    · intro t a ha
      simp only [List.getElem?_mapIdx, ha]
      rfl
    · intro s h t; rw [h]; rfl
    · intro h t; rw [h]; rfl
    · intro m h
      have := hb _ _ h
      rw [h]
      exact biasRow_bound R hR _ m this
    · intro h; rw [h]; rfl

/-- **C39.** Another sensor name is an error. -/
theorem C39_unknown (R : Rng K) (key : K) (s : String) (arr : List (Vec3 ℝ))
    (rest : Dict (List (Vec3 ℝ))) (hs : ¬ KnownSensor s) (nl bl : Option (Dict (Option ℝ))) :
    add_noise_bias R key ((s, arr) :: rest) nl bl = .error .key := by
  have : NOISE_LEVELS.lookup s = none := by
    unfold KnownSensor at hs
    push Not at hs
    simp [NOISE_LEVELS, List.lookup, beq_false_of_ne hs.1, beq_false_of_ne hs.2.1,
      beq_false_of_ne hs.2.2]
  unfold add_noise_bias noiseLoop levelOf pyDict
  rw [this]
  rfl

/-- a level which adds nothing -/
def ZeroLevel (l : Option ℝ) : Prop := l = none ∨ l = some 0

/-- **C39.** With zero (or no) levels the measurements are unchanged. -/
theorem C39_identity (R : Rng K) (key : K) (imu : Dict (List (Vec3 ℝ)))
    (hk : ∀ kv ∈ imu, KnownSensor kv.1) (nl bl : Option (Dict (Option ℝ)))
    (hn : ∀ kv ∈ imu, ZeroLevel (levelFor nl NOISE_LEVELS kv.1))
    (hb : ∀ kv ∈ imu, ZeroLevel (levelFor bl BIAS_LEVELS kv.1)) :
    add_noise_bias R key imu nl bl = .ok imu := by
  unfold add_noise_bias
  induction imu generalizing key with
  | nil => rfl
  | cons kv imu ih =>
    obtain ⟨sensor, arr⟩ := kv
    have hs : KnownSensor sensor := hk (sensor, arr) (by simp)
    unfold noiseLoop
    dsimp only
    rw [levelFor_eq nl _ _ (noise_known hs).1, ok_bind, levelFor_eq bl _ _ (noise_known hs).2,
      ok_bind, ih _ (fun x hx => hk x (by simp [hx])) (fun x hx => hn x (by simp [hx]))
      (fun x hx => hb x (by simp [hx])), ok_bind]
    have h1 : ∀ t, noiseRow R (R.split key 3 1) arr.length (levelFor nl NOISE_LEVELS sensor) t = 0 := by
      intro t
      rcases hn (sensor, arr) (by simp) with h | h
      · simp only at h; rw [h]; rfl
      · simp only at h; rw [h]; exact zero_smul _ _
    have h2 : biasRow R (R.split key 3 2) (levelFor bl BIAS_LEVELS sensor) = 0 := by
      rcases hb (sensor, arr) (by simp) with h | h
      · simp only at h; rw [h]; rfl
      · simp only at h; rw [h]
        ext <;> simp [biasRow, scaleU]
    simp only [h1, h2, add_zero]
    have h3 : arr.mapIdx (fun _ a => a) = arr := by
      apply List.ext_getElem?
      intro i
      simp
    rw [h3]
    rfl

/-- The default bias of the magnetometer is zero, that of the accelerometer is bounded by 0.5. -/
example : levelFor none BIAS_LEVELS "mag" = some 0 ∧ levelFor none BIAS_LEVELS "acc" = some 0.5 :=
  ⟨rfl, rfl⟩

/-- Levels that add nothing. -/
example : ∀ s, KnownSensor s →
    ZeroLevel (levelFor (some [("acc", some 0), ("gyr", none), ("mag", some 0)]) NOISE_LEVELS s) := by
  rintro s (rfl | rfl | rfl)
  · exact Or.inr rfl
  · exact Or.inl rfl
  · exact Or.inr rfl

end RingLib.sensors
