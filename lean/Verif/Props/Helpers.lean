import Mathlib.Analysis.Real.Pi.Bounds
import Verif.Model.Batch
import Verif.Props.Algebra
import Verif.Props.Batch
import Verif.Props.Flatten
import Verif.Props.ImuPipeline
import Verif.Props.InvKin
import Verif.Props.HideBodies
import Verif.Props.MotionConfig
import Verif.Props.Random
import Verif.Props.Rename
import Verif.Props.Sizes

/-!
# Small functions beside the large ones

Theorems about the functions that the proofs of the other files do not touch; they belong to the
properties of the areas they come from.
-/

namespace RingLib
open maths

/-! ## spatial algebra -/

section
variable {R : Type*}

/-- C19: `X_transform` moves the point of reference by `r` and then turns the axes with `E`. -/
theorem C19_X_transform [CommRing R] (E : Mat3 R) (r w v : Vec3 R) :
    (spatial.X_transform E r).mulVec ⟨w, v⟩ = ⟨E.mulVec w, E.mulVec (v + -(r.cross w))⟩ := by
  simp only [spatial.X_transform, spatial._rotxyz, spatial.xlt, spatial.quadrants, Mat6.mulVec, Mat6.mul,
    Option.getD, Mat3.add_mulVec, Mat3.mul_mulVec, Mat3.zero_mulVec, Mat3.eye_mulVec, Mat3.neg_mulVec,
    spatial.cross_mulVec, add_zero, zero_add]
  ext <;> simp [Mat3.mulVec, Vec3.cross] <;> ring

theorem Mat3sub [Sub R] (A B : Mat3 R) : A - B = ⟨A.a00 - B.a00, A.a01 - B.a01, A.a02 - B.a02,
    A.a10 - B.a10, A.a11 - B.a11, A.a12 - B.a12, A.a20 - B.a20, A.a21 - B.a21, A.a22 - B.a22⟩ := rfl

theorem Mat3neg [Neg R] (A : Mat3 R) : -A = ⟨-A.a00, -A.a01, -A.a02, -A.a10, -A.a11, -A.a12, -A.a20,
    -A.a21, -A.a22⟩ := rfl

/-- C20: `mcI` gives the momentum of a body with mass `m` whose centre is at `c`: the linear momentum is
that of the centre, the angular momentum is that about the centre and that of the centre. -/
theorem C20_mcI [CommRing R] (m : R) (c : Vec3 R) (Ic : Mat3 R) (w v : Vec3 R) :
    (spatial.mcI m c Ic).mulVec ⟨w, v⟩ =
      ⟨Ic.mulVec w + c.cross (.smul m (v + w.cross c)), .smul m (v + w.cross c)⟩ := by
  simp only [spatial.mcI, spatial.quadrants, spatial.cross, Mat6.mulVec, Option.getD]
  ext <;> simp [Mat3sub, Mat3.mulVec, Mat3.mul, Mat3.smul, Mat3.eye, Vec3.cross, Vec3.smul] <;> ring

/-- C20: the matrix of a created inertia is `mcI` of its turned inertia. -/
theorem C20_create_matrix [Field R] (m : R) (t : Transform R) (it : Mat3 R) :
    (Inertia.create m t it).as_matrix =
      spatial.mcI m t.pos (maths.rotate_matrix it (maths.quat_inv t.rot)) := by
  simp only [Inertia.create, Inertia.as_matrix, spatial.mcI, spatial.quadrants, spatial.cross, Option.getD]
  ext <;> simp [Mat3neg, Mat3.smul, Vec3.smul]

/-- C19: with the matrix of a unit quaternion it is the matrix of the transform. -/
theorem C19_X_transform_as_matrix [Field R] (t : Transform R) :
    spatial.X_transform (quat_to_3x3 t.rot) t.pos = t.as_matrix := rfl

/-- C12: `ensure_positive_w` gives the representative of a rotation with non-negative real part: the
rotation is the same, and both representatives of it give the same. -/
theorem C12_ensure_positive_w [CommRing R] [LinearOrder R] [IsStrictOrderedRing R] (q : Quat R) :
    0 ≤ (ensure_positive_w q).w ∧ (∀ v, rotate v (ensure_positive_w q) = rotate v q) ∧
      (q.w ≠ 0 → ensure_positive_w (-q) = ensure_positive_w q) ∧
      (0 ≤ q.w → ensure_positive_w q = q) := by
  have hw : (-q).w = -q.w := rfl
  have hnn : - -q = q := by ext <;> simp
  unfold ensure_positive_w
  rw [hw]
  by_cases h : q.w < 0
  · have h' : ¬ -q.w < 0 := by linarith
    rw [if_pos h, if_neg h', hw]
    exact ⟨by linarith, fun v => C12_rotate_neg v q, fun _ => rfl, fun h0 => absurd h (not_lt.2 h0)⟩
  · rw [if_neg h]
    refine ⟨not_lt.1 h, fun _ => rfl, fun h0 => ?_, fun _ => rfl⟩
    rw [if_pos (by have := lt_of_le_of_ne (not_lt.1 h) (Ne.symm h0); linarith), hnn]

example : ensure_positive_w (⟨-1, 2, 0, 0⟩ : Quat ℚ) = ⟨1, -2, 0, 0⟩ := by decide

/-- C87: `unit_vectors` gives the axes of a right-handed frame, and raises for all other letters. -/
theorem C87_unit_vectors :
    ∃ ex ey ez : Vec3 ℝ, unit_vectors 'x' = .ok ex ∧ unit_vectors 'y' = .ok ey ∧
      unit_vectors 'z' = .ok ez ∧ ex.cross ey = ez ∧ ey.cross ez = ex ∧ ez.cross ex = ey ∧
      (∀ v : Vec3 ℝ, v.dot ex = v.x ∧ v.dot ey = v.y ∧ v.dot ez = v.z) ∧
      ∀ c, c ≠ 'x' → c ≠ 'y' → c ≠ 'z' → unit_vectors c = .error .key := by
  refine ⟨⟨1, 0, 0⟩, ⟨0, 1, 0⟩, ⟨0, 0, 1⟩, by simp [unit_vectors], by simp [unit_vectors],
    by simp [unit_vectors], by ext <;> simp [Vec3.cross], by ext <;> simp [Vec3.cross],
    by ext <;> simp [Vec3.cross], fun v => by simp [Vec3.dot], fun c h1 h2 h3 => ?_⟩
  simp [unit_vectors, h1, h2, h3]

end

/-! ## systems -/

section
open System jcalc
variable {α π : Type}

/-- C10: the links found by `findall_bodies_with_jointtype` are exactly those with that joint, in
order. -/
theorem C10_jointtype (s : System α π) (typ : String) :
    (∀ i, i ∈ s.findall_bodies_with_jointtype typ ↔ s.link_types[i]? = some typ) ∧
      (s.findall_bodies_with_jointtype typ).Pairwise (· < ·) := by
  unfold System.findall_bodies_with_jointtype
  constructor
  · intro i
    simp only [List.mem_map, List.mem_filter, decide_eq_true_eq, Prod.exists]
    constructor
    · rintro ⟨a, j, ⟨hm, rfl⟩, rfl⟩
      exact (List.mem_zipIdx_iff_getElem?).1 hm
    · intro h
      exact ⟨typ, i, ⟨(List.mem_zipIdx_iff_getElem?).2 h, rfl⟩, rfl⟩
  · have h : (s.link_types.zipIdx.map (·.2)).Pairwise (· < ·) := by
      rw [List.zipIdx_map_snd]
      exact List.pairwise_lt_range'
    exact (h.sublist (List.filter_sublist.map _))

/-- C11: the state created with a key holds valid joint coordinates: those `coordinate_vector_to_q` makes
of the sample, at rest and with poses not yet computed. -/
theorem C11_create_key {E : JEnv ℝ π} (hE : E.Std) {s : System ℝ π} (h : s.Consistent E.toEnv)
    (hpos : 0 < s.num_links) (hb : s.JointsIn fun _ => True)
    {z : List ℝ} (hz : z.length = (s.link_types.map (wOf E.qw)).sum) :
    ∃ st, State.create_key E s z = .ok st ∧ st.q.length = z.length ∧
      (∀ i b, s.link_types[i]? = some (BuiltIn.name b) →
        CoordSpec b (ownSlice E.qw s.link_types z i) (ownSlice E.qw s.link_types st.q i)) ∧
      s.coordinate_vector_to_q E st.q = .ok st.q ∧
      st.qd = List.replicate (s.link_types.map (wOf E.dw)).sum 0 ∧
      st.x = List.replicate s.link_parents.length Transform.zero := by
  obtain ⟨q, h1, h2, h3, h4⟩ := C11_to_q hE h hpos hb hz
  obtain ⟨-, z2, -⟩ := C01_sizes_and_idx_map h.known h.types_len h.names_len
  refine ⟨⟨q, List.replicate (s.link_types.map (wOf E.dw)).sum 0,
    List.replicate s.link_parents.length Transform.zero⟩, ?_, h2, h3, h4, rfl, rfl⟩
  unfold State.create_key
  rw [h1]
  show State.create E s (some q) = _
  unfold State.create
  rw [z2]
  rfl

end

/-! ## generators -/

namespace generator
open utils

/-- C42: below the smallest batch that is split over devices lies no larger threshold for generating at
once; backends other than cpu and gpu raise. -/
theorem C42_thresholds :
    (∀ b r, batchsize_thresholds b = .ok r → (b = "cpu" ∧ r = (1, 4) ∨ b = "gpu" ∧ r = (8, 32)) ∧
      r.1 < r.2) ∧
    ∀ b, b ≠ "cpu" → b ≠ "gpu" → ∃ e, batchsize_thresholds b = .error e := by
  constructor
  · intro b r h
    unfold batchsize_thresholds at h
    split at h
    · cases h; exact ⟨Or.inl ⟨by assumption, rfl⟩, by decide⟩
    · split at h
      · cases h; exact ⟨Or.inr ⟨by assumption, rfl⟩, by decide⟩
      · cases h
  · intro b h1 h2
    exact ⟨.other, by simp [batchsize_thresholds, h1, h2]⟩

/-- C41: the lazy generator with the sizes asked for: the blocks of the systems one after the other, of
as many sequences as asked for, every call of a generator with a key of its own. -/
theorem C41_to_lazy_gen {K β : Type} (M : Machine) (split : K → Nat → Nat → K)
    (gens : List (BatchedGen K β)) (out : Nat → K → List β) (c k p v : Nat) (hc : 0 < c) (hk : 0 < k)
    (hn : 0 < gens.length)
    (hgens : ∀ i (h : i < gens.length), Returns gens[i] (out i) ∧ gens[i].size = c)
    (hdist : distribute_batchsize M (gens.length * k) = .ok (p, v)) :
    ∃ G, to_lazy_gen M split gens c (.int (k * (gens.length * c))) = .ok G ∧
      Returns G (fun key => ((List.range gens.length).map fun i : Nat =>
        (freshSamples split out key (gens.length * k) i (i * k) k).flatten).flatten) ∧
      G.size = k * (gens.length * c) := by
  have hs : (List.replicate gens.length k).sum = gens.length * k := by simp
  obtain ⟨G, h1, h2, h3⟩ := C41_layout M split gens (List.replicate gens.length k) out c p v (by simp)
    (by rw [hs]; exact Nat.mul_pos hn hk) hgens (by rw [hs]; exact hdist)
  refine ⟨G, ?_, ?_, ?_⟩
  · unfold to_lazy_gen
    rw [C40_int c gens.length k hc hn hk]
    exact h1
  · have e : (fun key => ((List.range gens.length).map fun i : Nat =>
        (freshSamples split out key (List.replicate gens.length k).sum i
          ((List.replicate gens.length k).take i).sum
          ((List.replicate gens.length k).getD i 0)).flatten).flatten) =
        fun key => ((List.range gens.length).map fun i : Nat =>
        (freshSamples split out key (gens.length * k) i (i * k) k).flatten).flatten := by
      funext key
      congr 1
      apply List.map_congr_left
      intro i hi
      have hi := List.mem_range.1 hi
      rw [hs, List.take_replicate, Nat.min_eq_left hi.le]
      simp [hi]
    rw [← e]
    exact h2
  · rw [h3, hs]; ring

/-- two generators of two sequences each, twelve sequences in total on two devices -/
example : ∃ G : BatchedGen Nat Nat, to_lazy_gen ⟨2, 1, 4⟩ (fun k n i => k * n + i)
    [⟨2, fun k => .ok [k, k]⟩, ⟨2, fun k => .ok [k, 0]⟩] 2 (.int 12) = .ok G ∧ G.size = 12 := by
  obtain ⟨G, h1, -, h3⟩ := C41_to_lazy_gen (K := Nat) (β := Nat) ⟨2, 1, 4⟩ (fun k n i => k * n + i)
    [⟨2, fun k => .ok [k, k]⟩, ⟨2, fun k => .ok [k, 0]⟩]
    (fun i k => if i = 0 then [k, k] else [k, 0]) 2 3 2 3 (by decide) (by decide) (by decide) (by
      intro i h
      have hi : i = 0 ∨ i = 1 := by simp at h; omega
      rcases hi with rfl | rfl <;> exact ⟨⟨fun _ => rfl, fun _ => rfl⟩, rfl⟩) rfl
  exact ⟨G, h1, h3⟩

/-- C45: `Names2Indices` renames the links in `X` and in `y`, each by its number. -/
theorem C45_names2indices {β : Type} {names : List String} {X y : Dict β} (hX : X.keys.Nodup)
    (hy : y.keys.Nodup) (hnX : NumbersFree names X.keys) (hny : NumbersFree names y.keys)
    (hnn : names.Nodup) :
    ∃ X' y', Names2Indices names X y = .ok (X', y') ∧ X'.length = X.length ∧ y'.length = y.length ∧
      (∀ i (hi : i < names.length) v, ((names[i], v) ∈ X → (toString i, v) ∈ X') ∧
        ((names[i], v) ∈ y → (toString i, v) ∈ y')) ∧
      ∀ k v, k ∉ names → ((k, v) ∈ X → (k, v) ∈ X') ∧ ((k, v) ∈ y → (k, v) ∈ y') := by
  obtain ⟨X', e1, -, l1, a1, b1, -⟩ := C45_rename_partial hX hnX
  obtain ⟨y', e2, -, l2, a2, b2, -⟩ := C45_rename_partial hy hny
  refine ⟨X', y', ?_, l1, l2, fun i hi v => ⟨a1 i hi v hnn, a2 i hi v hnn⟩,
    fun k v hk => ⟨b1 k v hk, b2 k v hk⟩⟩
  unfold Names2Indices
  rw [e1]
  show (do let y ← _rename_links y names; .ok (X', y)) = _
  rw [e2]
  rfl

/-- **C76.** The transformed generator flattens what the generator returns for the same key. -/
theorem C76_generator {K : Type} {gen : K → Py (Dict (Entry ND) × Dict ND)} {key : K} :
    (∀ X y, gen key = .ok (X, y) → GeneratorTrafoExpandFlatten gen key = _expand_then_flatten X y) ∧
      ∀ e, gen key = .error e → GeneratorTrafoExpandFlatten gen key = .error e := by
  unfold GeneratorTrafoExpandFlatten
  constructor
  · intro X y h
    rw [h]
    rfl
  · intro e h
    rw [h]
    rfl

end generator

/-! ## random motion -/

section
open Real random

/-- C31: with which probability an angle goes up: a probability; as likely as going down from the opposite
angle; with `uniform` and `sigmoid` less likely the further up it is, and impossible at the upper end. -/
theorem C31_direction (method : RomMethod) {φ : ℝ} (h1 : -π ≤ φ) (h2 : φ ≤ π) :
    (0 ≤ rom_prob method φ ∧ rom_prob method φ ≤ 1) ∧
      rom_prob method φ + rom_prob method (-φ) = 1 ∧
      (method = .coinflip → rom_prob method φ = 1 / 2) ∧
      (method = .uniform → rom_prob method φ = (π - φ) / (2 * π)) ∧
      ∀ scale, method = .sigmoid scale → 0 < scale →
        (0 < φ → rom_prob method φ < 1 / 2) ∧ (φ = π → rom_prob method φ = 0) ∧
        (|φ| ≤ π - 0.01 → rom_prob method φ = 1 / (1 + exp (scale * φ))) := by
  have hpi := Real.pi_gt_three
  have hp0 := Real.pi_pos
  cases method with
  | coinflip =>
    refine ⟨by constructor <;> norm_num [rom_prob], by norm_num [rom_prob], fun _ => rfl, ?_, ?_⟩
    · intro h; cases h
    · intro s h; cases h
  | uniform =>
    have e : ∀ φ : ℝ, rom_prob .uniform φ = (π - φ) / (2 * π) := by
      intro φ
      unfold rom_prob
      field_simp
    refine ⟨?_, ?_, ?_, fun _ => e φ, ?_⟩
    · rw [e]
      exact ⟨div_nonneg (by linarith) (by linarith), (div_le_one (by linarith)).2 (by linarith)⟩
    · rw [e, e]; field_simp; ring
    · intro h; cases h
    · intro s h; cases h
  | sigmoid sc =>
    have hmid : ∀ ψ : ℝ, ψ ≤ π - 0.01 → -(π - 0.01) ≤ ψ →
        rom_prob (.sigmoid sc) ψ = 1 / (1 + exp (sc * ψ)) := by
      intro ψ a b
      unfold rom_prob
      dsimp only
      rw [if_neg (not_lt.2 a), if_neg (not_lt.2 b)]
      ring_nf
    have hup : ∀ ψ : ℝ, π - 0.01 < ψ → rom_prob (.sigmoid sc) ψ = 0 := by
      intro ψ a
      unfold rom_prob
      dsimp only
      rw [if_pos a]
    have hdn : ∀ ψ : ℝ, ψ < -(π - 0.01) → rom_prob (.sigmoid sc) ψ = 1 := by
      intro ψ a
      unfold rom_prob
      dsimp only
      rw [if_neg (by intro h; linarith), if_pos a]
    refine ⟨?_, ?_, ?_, ?_, ?_⟩
    · rcases lt_or_ge (π - 0.01) φ with a | a
      · rw [hup φ a]; norm_num
      rcases lt_or_ge φ (-(π - 0.01)) with b | b
      · rw [hdn φ b]; norm_num
      rw [hmid φ a b]
      have := exp_pos (sc * φ)
      exact ⟨by positivity, (div_le_one (by linarith)).2 (by linarith)⟩
    · rcases lt_or_ge (π - 0.01) φ with a | a
      · rw [hup φ a, hdn (-φ) (by linarith)]; norm_num
      rcases lt_or_ge φ (-(π - 0.01)) with b | b
      · rw [hdn φ b, hup (-φ) (by linarith)]; norm_num
      rw [hmid φ a b, hmid (-φ) (by linarith) (by linarith), mul_neg, exp_neg]
      have := exp_pos (sc * φ)
      field_simp
      ring
    · intro h; cases h
    · intro h; cases h
    · rintro s h hs
      cases h
      refine ⟨fun h0 => ?_, fun h0 => ?_, fun h0 => ?_⟩
      · rcases lt_or_ge (π - 0.01) φ with a | a
        · rw [hup φ a]; norm_num
        rw [hmid φ a (by linarith)]
        have : 1 < exp (sc * φ) := one_lt_exp_iff.2 (mul_pos hs h0)
        exact one_div_lt_one_div_of_lt (by norm_num) (by linarith)
      · rw [hup φ (by rw [h0]; norm_num)]
      · have := abs_le.1 h0
        exact hmid φ this.2 this.1

example : rom_prob .uniform (π / 2) = 1 / 4 := by
  rw [(C31_direction .uniform (by linarith [Real.pi_pos]) (by linarith [Real.pi_pos])).2.2.2.1 rfl]
  have := Real.pi_pos
  field_simp
  norm_num

end

/-! ## sensors -/

namespace sensors
open Real System
variable {K : Type}

/-- C69: the magnetic field that is drawn points north and down, without a part to the east, by at least
50 and at most 85 degrees; its strength is between those of the weakest and the strongest field on earth,
in units of 40 µT. -/
theorem C69_magvec (R : Rng K) (hR : R.Ok) (key : K) :
    ∃ norm dip : ℝ, _draw_random_magvec R key = ⟨0, norm * cos dip, -(norm * sin dip)⟩ ∧
      15 / 40 ≤ norm ∧ norm ≤ 65 / 40 ∧ 50 * π / 180 ≤ dip ∧ dip ≤ 85 * π / 180 ∧
      0 < (_draw_random_magvec R key).y ∧ (_draw_random_magvec R key).z < 0 := by
  have hp := Real.pi_pos
  have d1 := scaleU_ge (R.uniform (R.split key 2 0)) (-85) (-50)
  have d2 := scaleU_le (a := -85) (b := -50) (hR.uniform (R.split key 2 0)).1
    (hR.uniform (R.split key 2 0)).2 (by norm_num)
  have n1 := scaleU_ge (R.uniform (R.split key 2 1)) (15e-6 / 40e-6) (65e-6 / 40e-6)
  have n2 := scaleU_le (a := 15e-6 / 40e-6) (b := 65e-6 / 40e-6) (hR.uniform (R.split key 2 1)).1
    (hR.uniform (R.split key 2 1)).2 (by norm_num)
  set u := scaleU (R.uniform (R.split key 2 0)) (-85) (-50) with hu
  set w := scaleU (R.uniform (R.split key 2 1)) (15e-6 / 40e-6) (65e-6 / 40e-6) with hw
  have e : _draw_random_magvec R key = w • ⟨0, cos (u * π / 180), sin (u * π / 180)⟩ := rfl
  have e2 : _draw_random_magvec R key = ⟨0, w * cos (-u * π / 180), -(w * sin (-u * π / 180))⟩ := by
    rw [e, show -u * π / 180 = -(u * π / 180) by ring, cos_neg, sin_neg]
    ext
    · exact mul_zero w
    · rfl
    · show w * _ = -(w * -_)
      ring
  have b1 : 50 * π / 180 ≤ -u * π / 180 := by nlinarith
  have b2 : -u * π / 180 ≤ 85 * π / 180 := by nlinarith
  have w1 : 15 / 40 ≤ w := by norm_num at n1 ⊢; linarith
  refine ⟨w, -u * π / 180, e2, w1, by norm_num at n2 ⊢; linarith, b1, b2, ?_, ?_⟩
  · rw [e2]
    exact mul_pos (by linarith) (cos_pos_of_mem_Ioo ⟨by linarith, by linarith⟩)
  · rw [e2]
    exact neg_neg_of_pos (mul_pos (by linarith) (sin_pos_of_pos_of_lt_pi (by linarith) (by linarith)))

/-- C69: natural units change nothing but the units: the acceleration is counted in multiples of gravity,
the angular velocity in half turns per second, everything else is left as it is. -/
theorem C69_natural_units (R : Rng K) (xs : List (Transform ℝ)) (gravity : Vec3 ℝ) (dt : ℝ)
    (a : ImuArgs K) {m : Dict (List (Vec3 ℝ))}
    (h : imu R xs gravity dt { a with natural_units := false } = .ok m) :
    ∃ f : String → ℝ, f "acc" * 9.81 = 1 ∧ f "gyr" * π = 1 ∧ (∀ s, s ≠ "acc" → s ≠ "gyr" → f s = 1) ∧
      imu R xs gravity dt { a with natural_units := true } =
        .ok (m.map fun kv => (kv.1, kv.2.map (f kv.1 • ·))) := by
  refine ⟨unitFactor, by rw [unitFactor, if_neg (by decide), if_pos rfl]; norm_num, ?_, ?_, ?_⟩
  · have := Real.pi_pos
    simp only [unitFactor, if_true]
    field_simp
  · intro s h1 h2
    simp [unitFactor, h1, h2]
  · unfold imu at h ⊢
    dsimp only at h ⊢
    obtain ⟨o, e1, h⟩ := bind_ok_iff.1 h
    obtain ⟨x1, e2, h⟩ := bind_ok_iff.1 h
    obtain ⟨x2, e3, h⟩ := bind_ok_iff.1 h
    obtain ⟨x3, e4, h⟩ := bind_ok_iff.1 h
    obtain ⟨acc, e5, h⟩ := bind_ok_iff.1 h
    obtain ⟨gyr, e6, h⟩ := bind_ok_iff.1 h
    obtain ⟨mag, e7, h⟩ := bind_ok_iff.1 h
    obtain ⟨sm, e8, h⟩ := bind_ok_iff.1 h
    obtain ⟨m', e9, h⟩ := bind_ok_iff.1 h
    cases h
    rw [e1, ok_bind, e2, ok_bind, e3, ok_bind, e4, ok_bind, e5, ok_bind, e6, ok_bind, e7, ok_bind, e8,
      ok_bind, e9]
    rfl

end sensors

/-! ## motion artifacts -/

namespace artifacts
open System io
variable {α π K : Type} [Field α] [DecidableEq α]

omit [DecidableEq α] in
/-- C46: the links that are not actuated are the new joints between the IMUs and their bodies: one for
every IMU, which hangs from it, and none of the links that were there before. -/
theorem C46_unactuated {E : Env α π} {T : Txt α} {A : Artifacts α} {s r : System α π} (hs : s.Consistent E)
    (hI : Injectable E T s) (h : Injected E A s r) :
    (∀ x ∈ unactuated_subsystem s, x ∉ s.link_names ∧ ∃ v, r.view E x = some v ∧ v.type = "spherical") ∧
      ∀ n ∈ s.link_names, IsImu n → ∃ x ∈ unactuated_subsystem s, ∃ v, r.view E n = some v ∧
        v.parent = some x ∧ v.type = "p3d" := by
  have hm : ∀ n, n ∈ s.findall_imus ↔ n ∈ s.link_names ∧ IsImu n := by
    intro n
    unfold System.findall_imus
    rw [List.mem_filter, decide_eq_true_eq, isImu_iff]
  constructor
  · intro x hx
    obtain ⟨n, hn, rfl⟩ := List.mem_map.1 hx
    obtain ⟨h1, h2⟩ := (hm n).1 hn
    obtain ⟨_, v, _, _, hv⟩ := view_of_mem hs h1
    obtain ⟨v', e1, e2⟩ := h.socket n v hv h2
    exact ⟨hI.fresh n h1 h2, v', e1, by rw [e2]⟩
  · intro n hn hi
    obtain ⟨_, v, _, _, hv⟩ := view_of_mem hs hn
    obtain ⟨v', e1, e2⟩ := h.body n v hv hi
    refine ⟨imu_reference_link_name n, List.mem_map.2 ⟨n, (hm n).2 ⟨hn, hi⟩, rfl⟩, v', e1, ?_, ?_⟩
    · rw [e2]; rfl
    · rw [e2]; rfl

end artifacts

/-! ## motion configurations -/

section
open jcalc

/-- the numbers among the fields that are not time-dependent -/
def numberFields : List (String × (MotionConfig → ℝ)) :=
  [("T", (·.T)), ("t_min", (·.t_min)), ("ang0_min", (·.ang0_min)), ("ang0_max", (·.ang0_max)),
   ("pos0_min", (·.pos0_min)), ("pos0_max", (·.pos0_max)),
   ("pos0_min_p3d_x", (·.pos0_min_p3d_x)), ("pos0_max_p3d_x", (·.pos0_max_p3d_x)),
   ("pos0_min_p3d_y", (·.pos0_min_p3d_y)), ("pos0_max_p3d_y", (·.pos0_max_p3d_y)),
   ("pos0_min_p3d_z", (·.pos0_min_p3d_z)), ("pos0_max_p3d_z", (·.pos0_max_p3d_z)),
   ("cor_t_min", (·.cor_t_min)), ("cor_pos0_min", (·.cor_pos0_min)), ("cor_pos0_max", (·.cor_pos0_max))]

theorem replace_td_eq (c : MotionConfig) (v : ℝ) : ∀ f ∈ timeDependentFields,
    replace_field c f.name v = .ok (f.set (.const v) c) ∧ f.get (f.set (.const v) c) = .const v ∧
      (f.set (.const v) c).joint_type_specific_overwrites = c.joint_type_specific_overwrites := by
  intro f hf
  simp only [timeDependentFields, List.mem_cons, List.not_mem_nil, or_false] at hf
  rcases hf with rfl | rfl | rfl | rfl | rfl | rfl | rfl | rfl | rfl | rfl | rfl | rfl | rfl | rfl | rfl | rfl | rfl | rfl | rfl | rfl | rfl | rfl | rfl | rfl | rfl <;>
  exact ⟨rfl, rfl, rfl⟩

theorem replace_td_plain (c : MotionConfig) (v : ℝ) : ∀ f ∈ timeDependentFields,
    ∀ g ∈ plainFields, g (f.set (.const v) c) = g c := by
  intro f hf
  simp only [timeDependentFields, List.mem_cons, List.not_mem_nil, or_false] at hf
  rcases hf with rfl | rfl | rfl | rfl | rfl | rfl | rfl | rfl | rfl | rfl | rfl | rfl | rfl | rfl | rfl | rfl | rfl | rfl | rfl | rfl | rfl | rfl | rfl | rfl | rfl <;>
  simp only [plainFields, List.forall_mem_cons, List.not_mem_nil, false_implies, implies_true, and_self]

set_option maxHeartbeats 1000000 in
theorem replace_td_other (c : MotionConfig) (v : ℝ) : ∀ f ∈ timeDependentFields,
    ∀ g ∈ timeDependentFields, g.name ≠ f.name → g.get (f.set (.const v) c) = g.get c := by
  intro f hf
  simp only [timeDependentFields, List.mem_cons, List.not_mem_nil, or_false] at hf
  rcases hf with rfl | rfl | rfl | rfl | rfl | rfl | rfl | rfl | rfl | rfl | rfl | rfl | rfl | rfl | rfl | rfl | rfl | rfl | rfl | rfl | rfl | rfl | rfl | rfl | rfl <;>
  simp [timeDependentFields]

set_option maxHeartbeats 1000000 in
theorem replace_number (c : MotionConfig) (v : ℝ) : ∀ f ∈ numberFields,
    ∃ c', replace_field c f.1 v = .ok c' ∧ f.2 c' = v ∧
      (∀ g ∈ numberFields, g.1 ≠ f.1 → g.2 c' = g.2 c) ∧
      (∀ g ∈ timeDependentFields, g.get c' = g.get c) ∧
      c'.joint_type_specific_overwrites = c.joint_type_specific_overwrites := by
  intro f hf
  simp only [numberFields, List.mem_cons, List.not_mem_nil, or_false] at hf
  rcases hf with rfl | rfl | rfl | rfl | rfl | rfl | rfl | rfl | rfl | rfl | rfl | rfl | rfl | rfl | rfl <;>
  exact ⟨_, rfl, rfl, by simp [numberFields], by simp [timeDependentFields], rfl⟩

/-- C34: replacing a field by a number changes that field and no other; a field that does not exist
raises. -/
theorem C34_replace (c : MotionConfig) (v : ℝ) :
    (∀ f ∈ timeDependentFields, ∃ c', replace_field c f.name v = .ok c' ∧ f.get c' = .const v ∧
      (∀ g ∈ timeDependentFields, g.name ≠ f.name → g.get c' = g.get c) ∧
      (∀ g ∈ plainFields, g c' = g c) ∧
      c'.joint_type_specific_overwrites = c.joint_type_specific_overwrites) ∧
    (∀ f ∈ numberFields, ∃ c', replace_field c f.1 v = .ok c' ∧ f.2 c' = v ∧
      (∀ g ∈ numberFields, g.1 ≠ f.1 → g.2 c' = g.2 c) ∧
      (∀ g ∈ timeDependentFields, g.get c' = g.get c) ∧
      c'.joint_type_specific_overwrites = c.joint_type_specific_overwrites) ∧
    ∀ name, name ∉ timeDependentFields.map (·.name) → name ∉ numberFields.map (·.1) →
      replace_field c name v = .error .type := by
  refine ⟨fun f hf => ⟨_, (replace_td_eq c v f hf).1, (replace_td_eq c v f hf).2.1,
    replace_td_other c v f hf, replace_td_plain c v f hf, (replace_td_eq c v f hf).2.2⟩,
    replace_number c v, ?_⟩
  · intro name h1 h2
    unfold replace_field
    rw [List.find?_eq_none.2]
    · dsimp only
      have : floatFields.lookup name = none := by
        rw [List.lookup_eq_none_iff]
        intro x hx
        have : floatFields.map (·.1) = numberFields.map (·.1) := rfl
        have hx : x.1 ∈ floatFields.map (·.1) := List.mem_map_of_mem hx
        rw [this] at hx
        simp only [bne_iff_ne, ne_eq]
        rintro rfl
        exact h2 hx
      rw [this]
    · intro f hf
      simp only [decide_eq_true_eq]
      rintro rfl
      exact h1 (List.mem_map_of_mem hf)

end

end RingLib
