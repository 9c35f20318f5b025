import Verif.Props.PdControl
import Verif.Props.Lowpass
import Verif.Props.Filters

/-! # C62: the simulation under P-control -/

namespace RingLib
namespace System
open maths jcalc ml
variable {π : Type} {E : JEnv ℝ π} {s sref : System ℝ π}

/-! ### the built-in control terms -/

theorem p_control_length (b : BuiltIn) {P : Type} {f : List ℝ → List ℝ → List ℝ}
    (hf : (b.model : JointModel ℝ P).p_control_term = some f) {q r : List ℝ}
    (hq : q.length = b.q_width) (hr : r.length = b.q_width) : (f q r).length = b.qd_width := by
  cases b <;> simp only [BuiltIn.model, Option.some.injEq] at hf <;> subst hf <;>
    simp [BuiltIn.q_width] at hq hr <;>
    simp [_p_control_term_free, _p_control_term_free_2d, _p_control_term_frozen,
      _p_control_quaternion, _p_control_term_pxyz_p3d, _p_control_term_rxyz, vecList,
      BuiltIn.qd_width, hq, hr]

theorem exists_of_mem_zipWith' {α β γ : Type} {f : α → β → γ} {l : List α} {m : List β} {c : γ}
    (h : c ∈ List.zipWith f l m) : ∃ a b, (a, b) ∈ l.zip m ∧ f a b = c := by
  rw [← List.map_uncurry_zip_eq_zipWith] at h
  obtain ⟨⟨a, b⟩, h1, h2⟩ := List.mem_map.1 h
  exact ⟨a, b, h1, h2⟩

theorem qd_quat_rows (qs : List (List ℝ)) (dt : ℝ) :
    ∀ v ∈ _qd_from_q_quaternion qs dt, v.length = 3 := by
  intro v hv
  unfold _qd_from_q_quaternion at hv
  simp only [List.cons_append, List.mem_cons, List.mem_append, List.not_mem_nil, or_false] at hv
  rcases hv with rfl | hv | rfl
  · rfl
  · obtain ⟨a, b, _, rfl⟩ := exists_of_mem_zipWith' hv
    simp [_p_control_quaternion, vecList]
  · rfl

theorem qd_cart_rows {qs : List (List ℝ)} {w : Nat} (h0 : qs ≠ []) (h : ∀ q ∈ qs, q.length = w)
    (dt : ℝ) : ∀ v ∈ _qd_from_q_cartesian qs dt, v.length = w := by
  have hh : (qs.headD []).length = w := by
    cases qs with
    | nil => exact absurd rfl h0
    | cons a l => exact h a (by simp)
  intro v hv
  unfold _qd_from_q_cartesian at hv
  simp only [List.cons_append, List.mem_cons, List.mem_append, List.not_mem_nil, or_false] at hv
  rcases hv with rfl | hv | rfl
  · rw [List.length_map, hh]
  · obtain ⟨a, b, hab, rfl⟩ := exists_of_mem_zipWith' hv
    have h1 := h a (List.mem_of_mem_drop (List.of_mem_zip hab).1)
    have h2 := h b (List.mem_of_mem_take (List.of_mem_zip hab).2)
    simp [h1, h2]
  · rw [List.length_map, hh]

theorem qd_from_q_rows (b : BuiltIn) {qs : List (List ℝ)} (h0 : qs ≠ [])
    (h : ∀ q ∈ qs, q.length = b.q_width) (dt : ℝ) :
    b.qd_from_q qs dt ≠ [] ∧ ∀ v ∈ b.qd_from_q qs dt, v.length = b.qd_width := by
  have free : ∀ w, (∀ q ∈ qs, q.length = w) →
      _qd_from_q_free qs dt ≠ [] ∧ ∀ v ∈ _qd_from_q_free qs dt, v.length = 3 + (w - 4) := by
    intro w hw
    constructor
    · simp [_qd_from_q_free, _qd_from_q_quaternion, _qd_from_q_cartesian]
    · intro v hv
      obtain ⟨a, c, hac, rfl⟩ := exists_of_mem_zipWith' hv
      rw [List.length_append, qd_quat_rows _ _ a (List.of_mem_zip hac).1,
        qd_cart_rows (w := w - 4) (by simpa using h0) (by
          intro q hq
          obtain ⟨q', hq', rfl⟩ := List.mem_map.1 hq
          simp [hw q' hq']) dt c (List.of_mem_zip hac).2]
  have cart : ∀ w, (∀ q ∈ qs, q.length = w) →
      _qd_from_q_cartesian qs dt ≠ [] ∧ ∀ v ∈ _qd_from_q_cartesian qs dt, v.length = w := by
    intro w hw
    exact ⟨by simp [_qd_from_q_cartesian], qd_cart_rows h0 hw dt⟩
  cases b with
  | free => exact free 7 h
  | cor => exact free 10 h
  | spherical => exact ⟨by simp [BuiltIn.qd_from_q, _qd_from_q_quaternion], qd_quat_rows qs dt⟩
  | free_2d => exact cart 3 h
  | frozen => exact cart 0 h
  | p3d => exact cart 3 h
  | r a => exact cart 1 h
  | p a => exact cart 1 h
  | saddle => exact cart 2 h

theorem p_control_quaternion_self {q : List ℝ} (h : (quatOf q).normSq = 1) :
    _p_control_quaternion q q = [0, 0, 0] := by
  have hu : (unitQuat : Quat ℝ).IsUnit := by simp [Quat.IsUnit, unitQuat]
  have hn : Negligible (unitQuat : Quat ℝ) := by
    refine ⟨?_, ?_, ?_⟩ <;> simp [unitQuat] <;> norm_num
  have h2 : (quat_to_rot_axis (unitQuat : Quat ℝ)).2 = 0 := by
    unfold quat_to_rot_axis
    rw [quat_angle_negligible hu hn]
    simp
  unfold _p_control_quaternion qrel
  rw [mul_inv_self h]
  simp only [h2, vecList, Vec3.smul, zero_mul]

theorem rxyz_self (q : List ℝ) : _p_control_term_rxyz q q = List.replicate q.length 0 := by
  unfold _p_control_term_rxyz
  rw [List.zipWith_self, List.eq_replicate_iff]
  refine ⟨by simp, ?_⟩
  intro b hb
  obtain ⟨a, _, rfl⟩ := List.mem_map.1 hb
  obtain ⟨k, hk⟩ := wrap_congr a
  rw [hk, show a - (a + k * (2 * Real.pi)) = 0 + ((-k : ℤ) : ℝ) * (2 * Real.pi) by
    push_cast; ring, wrap_add]
  exact wrap_id (by linarith [Real.pi_pos]) Real.pi_pos

theorem cart_self (q : List ℝ) : _p_control_term_pxyz_p3d q q = List.replicate q.length 0 := by
  unfold _p_control_term_pxyz_p3d
  rw [List.zipWith_self, List.eq_replicate_iff]
  refine ⟨by simp, ?_⟩
  intro b hb
  obtain ⟨a, _, rfl⟩ := List.mem_map.1 hb
  ring

/-- C62: for every built-in joint the control error between identical state and reference is zero
(the quaternion of joints that have one must be normalised). -/
theorem C62_zero_error (b : BuiltIn) {P : Type} {f : List ℝ → List ℝ → List ℝ}
    (hf : (b.model : JointModel ℝ P).p_control_term = some f) {q : List ℝ}
    (hq : q.length = b.q_width)
    (hu : joint_type_is_free_or_cor_or_spherical b.name = true →
      q.getD 0 0 ^ 2 + q.getD 1 0 ^ 2 + q.getD 2 0 ^ 2 + q.getD 3 0 ^ 2 = 1) :
    f q q = List.replicate b.qd_width 0 := by
  have hfree : ∀ w, q.length = w + 4 → q.getD 0 0 ^ 2 + q.getD 1 0 ^ 2 + q.getD 2 0 ^ 2 + q.getD 3 0 ^ 2 = 1 →
      _p_control_term_free q q = List.replicate (3 + w) 0 := by
    intro w hw h1
    unfold _p_control_term_free
    rw [p_control_quaternion_self, cart_self]
    · simp [hw, List.replicate_add, List.replicate_succ]
    · match q, hw with
      | a :: b :: c :: d :: l, _ =>
        simp [quatOf, Quat.normSq] at h1 ⊢
        linarith
  rw [is_quat_name] at hu
  cases b with
  | free =>
    simp only [BuiltIn.model, Option.some.injEq] at hf; subst hf
    exact hfree 3 hq (hu (by decide))
  | cor =>
    simp only [BuiltIn.model, Option.some.injEq] at hf; subst hf
    exact hfree 6 hq (hu (by decide))
  | spherical =>
    simp only [BuiltIn.model, Option.some.injEq] at hf; subst hf
    rw [p_control_quaternion_self]
    · rfl
    · have h1 := hu (by decide)
      match q, hq with
      | [a, b, c, d], _ =>
        simp [quatOf, Quat.normSq] at h1 ⊢
        linarith
  | free_2d =>
    simp only [BuiltIn.model, Option.some.injEq] at hf; subst hf
    unfold _p_control_term_free_2d
    rw [rxyz_self, cart_self]
    simp [hq, BuiltIn.q_width, BuiltIn.qd_width, List.replicate_succ]
  | frozen => simp only [BuiltIn.model, Option.some.injEq] at hf; subst hf; rfl
  | p3d =>
    simp only [BuiltIn.model, Option.some.injEq] at hf; subst hf
    rw [cart_self, hq]; rfl
  | r a =>
    simp only [BuiltIn.model, Option.some.injEq] at hf; subst hf
    rw [rxyz_self, hq]; rfl
  | p a =>
    simp only [BuiltIn.model, Option.some.injEq] at hf; subst hf
    rw [cart_self, hq]; rfl
  | saddle =>
    simp only [BuiltIn.model, Option.some.injEq] at hf; subst hf
    rw [rxyz_self, hq]; rfl

/-! ### the loop -/

/-- The torques after clipping to `[-c, c]`. -/
noncomputable def clipped (clip_taus : Option ℝ) (taus : List ℝ) : List ℝ :=
  match clip_taus with
  | none => taus
  | some c => taus.map fun x => if x < -c then -c else if c < x then c else x

/-- `states` is a simulation from `st0`: the `k`-th state comes from the previous one by a step with
torques that drive every link by row `k` of its own columns of the reference. -/
def Simulated (E : JEnv ℝ π) (qd_from_q : String → Option (List (List ℝ) → ℝ → List (List ℝ)))
    (s sref : System ℝ π) (q_ref : List (List ℝ)) (P : List ℝ) (D : Option (List ℝ))
    (clip_taus : Option ℝ) (k0 : Nat) (st0 : State ℝ) (states : List (State ℝ)) : Prop :=
  ∀ (k : Nat) (prev next : State ℝ), (st0 :: states)[k]? = some prev → states[k]? = some next →
    ∃ taus, DrivenBy E qd_from_q s sref q_ref P D (k0 + k) prev.q prev.qd taus ∧
      step E s prev (some (clipped clip_taus taus)) = .ok next

theorem clipTaus_ok {clip_taus : Option ℝ} (h : ∀ c ∈ clip_taus, 0 < c) (taus : List ℝ) :
    clipTaus clip_taus taus = .ok (clipped clip_taus taus) := by
  cases clip_taus with
  | none => rfl
  | some c =>
    have hc := h c rfl
    unfold clipTaus clipped
    simp only
    rw [pyAssert_true hc]
    simp only [ok_bind, pure_ok]
    congr 1
    apply List.map_congr_left
    intro x _
    split
    · rename_i h1
      rw [max_eq_right h1.le, min_eq_left (by linarith)]
    · rename_i h1
      rw [max_eq_left (not_lt.1 h1)]
      split
      · rename_i h2; exact min_eq_right h2.le
      · rename_i h2; exact min_eq_left (not_lt.1 h2)

theorem clipped_length (clip_taus : Option ℝ) (taus : List ℝ) :
    (clipped clip_taus taus).length = taus.length := by
  cases clip_taus <;> simp [clipped]

theorem pdLoop_ok (hE : E.Std) (hs : s.Simulable E) (hdt : |s.dt| < 1e8)
    {qd_from_q : String → Option (List (List ℝ) → ℝ → List (List ℝ))}
    {q_ref : List (List ℝ)} {P : List ℝ} {D : Option (List ℝ)}
    (h : PdOk E qd_from_q s sref q_ref P D) {clip_taus : Option ℝ}
    (hc : ∀ c ∈ clip_taus, 0 < c) {cs : PDControllerState}
    (hcs : pd_control_init E qd_from_q P D sref q_ref = .ok cs) (n : Nat) : ∀ (k : Nat) {st : State ℝ},
    st.q.length = (s.link_types.map (wOf E.qw)).sum →
    st.qd.length = (s.link_types.map (wOf E.dw)).sum → s.UnitQ E st.q →
    ∃ states, pdLoop E s clip_taus n st { cs with i := k } = .ok states ∧ states.length = n ∧
      Simulated E qd_from_q s sref q_ref P D clip_taus k st states ∧
      ∀ st' ∈ states, s.UnitQ E st'.q ∧
        st'.q.length = (s.link_types.map (wOf E.qw)).sum ∧
        st'.qd.length = (s.link_types.map (wOf E.dw)).sum := by
  induction n with
  | zero =>
    intro k st _ _ _
    exact ⟨[], rfl, rfl, fun k prev next _ h => by simp at h, by simp⟩
  | succ n ih =>
    intro k st hq hqd hu
    obtain ⟨taus, h1, hdr⟩ := C62_apply h hcs k hq hqd
    obtain ⟨st1, h2, l1, l2, hu1⟩ := C28_step hE hs hdt (n := 1) (by omega) hq hqd
      (taus := some (clipped clip_taus taus)) (by
        intro t ht
        obtain rfl := Option.some.inj ht
        rw [clipped_length, hdr.length, hqd]) hu
    obtain ⟨rest, h3, l3, hsim, hall⟩ := ih (k + 1) (l1.trans hq) (l2.trans hqd) hu1
    refine ⟨st1 :: rest, ?_, by simp [l3], ?_, ?_⟩
    · unfold pdLoop
      rw [h1]
      simp only [ok_bind]
      rw [clipTaus_ok hc]
      simp only [ok_bind]
      rw [h2]
      simp only [ok_bind]
      rw [h3]
      rfl
    · intro j prev next hp hn
      cases j with
      | zero =>
        obtain rfl : st = prev := by simpa using hp
        obtain rfl : st1 = next := by simpa using hn
        exact ⟨taus, hdr, h2⟩
      | succ j =>
        obtain ⟨t, a, b⟩ := hsim j prev next (by simpa using hp) (by simpa using hn)
        refine ⟨t, ?_, b⟩
        rw [show k + (j + 1) = k + 1 + j by omega]
        exact a
    · intro st' hst'
      rcases List.mem_cons.1 hst' with rfl | hst'
      · exact ⟨hu1, l1.trans hq, l2.trans hqd⟩
      · exact hall st' hst'

/-- the system without gravity -/
def weightless (s : System ℝ π) (nograv : Bool) : System ℝ π :=
  if nograv then { s with gravity := ⟨0, 0, 0⟩ } else s

theorem Simulable.weightless (h : s.Simulable E) (b : Bool) : (s.weightless b).Simulable E := by
  cases b with
  | false => exact h
  | true =>
    have hw := h.wf
    exact {
      wf := {
        types_len := hw.types_len
        links_len := hw.links_len
        omc_len := hw.omc_len
        names_len := hw.names_len
        names_nodup := hw.names_nodup
        pos_ok := hw.pos_ok
        geoms_ok := hw.geoms_ok
        known := hw.known
        damping_len := hw.damping_len
        armature_len := hw.armature_len
        stiffness_len := hw.stiffness_len
        zeropoint_len := hw.zeropoint_len
        unit_zero := hw.unit_zero
        topo := hw.topo
        jp_keys := hw.jp_keys
        jp_len := hw.jp_len
        inertia_ok := hw.inertia_ok
        geoms_sorted := hw.geoms_sorted }
      default := h.default
      widths := h.widths
      builtin := h.builtin
      nonempty := h.nonempty
      unit := h.unit
      geoms_unit := h.geoms_unit
      method := h.method }

theorem quat_width (hE : E.Std) (hs : s.Simulable E) : ∀ t ∈ s.link_types,
    joint_type_is_free_or_cor_or_spherical t = true → 0 < wOf E.qw t := by
  intro t ht hq
  obtain ⟨b, _, rfl⟩ := hs.builtin t ht
  rw [(wOf_builtin hE b).1]
  rw [is_quat_name] at hq
  cases b <;> simp_all [BuiltIn.q_width, isFreeOrCor, isSpherical]

/-- a default coordinate of a joint with quaternion is a unit quaternion -/
theorem unit_default {c : List ℝ} {k : Nat} (h : c = 1 :: List.replicate k 0) :
    c.getD 0 0 ^ 2 + c.getD 1 0 ^ 2 + c.getD 2 0 ^ 2 + c.getD 3 0 ^ 2 = 1 := by
  have z : ∀ i, ((1 : ℝ) :: List.replicate k 0).getD (i + 1) 0 = 0 := by
    intro i
    rw [List.getD_cons_succ]
    simp only [List.getD, List.getElem?_replicate]
    split <;> rfl
  rw [h, z 0, z 1, z 2]
  norm_num

/-- C62: the P-controlled simulation runs through; it starts at the reference (or at rest), yields
one state per row of the reference, and state `k` arises from its predecessor by a step whose torques
drive every link by row `k` of the columns of the link of the same name; links without reference get
zero torque.  Orientations stay normalised. -/
theorem C62_unroll (hE : E.Std) (hs : s.Simulable E) (hdt : |s.dt| < 1e8)
    {qd_from_q : String → Option (List (List ℝ) → ℝ → List (List ℝ))}
    {q_ref : List (List ℝ)} {q0 : List ℝ} {P : List ℝ} {D : Option (List ℝ)}
    (h : PdOk E qd_from_q s sref q_ref P D) (h0 : q_ref[0]? = some q0)
    (hsub : ∀ n ∈ sref.link_names, n ∈ s.link_names) (hu : sref.UnitQ E q0)
    {clip_taus : Option ℝ} (hc : ∀ c ∈ clip_taus, 0 < c) (nograv zeros : Bool) :
    ∃ st0 states, _unroll_dynamics_pd_control E qd_from_q s q_ref P D nograv (some sref) zeros
        clip_taus = .ok states ∧
      (zeros = false → _initial_q_is_q_ref E s sref q0 = .ok st0) ∧
      (zeros = true → State.create E s = .ok st0) ∧
      states.length = q_ref.length ∧
      Simulated E qd_from_q (s.weightless nograv) sref q_ref P D clip_taus 0 st0 states ∧
      ∀ st' ∈ states, s.UnitQ E st'.q := by
  have hwf := hs.wf
  have hs' := hs.weightless nograv
  have en : (s.weightless nograv).link_names = s.link_names := by cases nograv <;> rfl
  have et : (s.weightless nograv).link_types = s.link_types := by cases nograv <;> rfl
  have ep : (s.weightless nograv).link_parents = s.link_parents := by cases nograv <;> rfl
  have ed : (s.weightless nograv).dt = s.dt := by cases nograv <;> rfl
  have h' : PdOk E qd_from_q (s.weightless nograv) sref q_ref P D := {
    sys := hs'.wf.toConsistent
    ref := h.ref
    nonempty := h.nonempty
    rows := h.rows
    P_len := h.P_len
    D_len := h.D_len
    same := by rw [en, et]; exact h.same
    term := h.term
    vel := h.vel }
  obtain ⟨cs, hcs, hi0, _⟩ := C62_init h
  have hcs0 : cs = { cs with i := 0 } := by rw [← hi0]
  have uq : ∀ q, (s.weightless nograv).UnitQ E q ↔ s.UnitQ E q := by
    intro q; cases nograv <;> exact Iff.rfl
  have hq0 : q0.length = (sref.link_types.map (wOf E.qw)).sum :=
    h.rows q0 (List.mem_of_getElem? h0)
  have hini := C62_initial (s := s.weightless nograv) hs'.wf.toConsistent h.ref (quat_width hE hs')
    (by rw [en]; exact hsub) h'.same hq0
  have hini0 : _initial_q_is_q_ref E (s.weightless nograv) sref q0 = _initial_q_is_q_ref E s sref q0 := by
    cases nograv <;> rfl
  have hcr0 : State.create E (s.weightless nograv) = State.create E s := by
    cases nograv <;> rfl
  obtain ⟨st0, hst0, hlq, hlqd, huq⟩ : ∃ st0, (if zeros then State.create E (s.weightless nograv)
      else _initial_q_is_q_ref E (s.weightless nograv) sref q0) = .ok st0 ∧
      st0.q.length = (s.link_types.map (wOf E.qw)).sum ∧
      st0.qd.length = (s.link_types.map (wOf E.dw)).sum ∧ s.UnitQ E st0.q := by
    cases zeros with
    | true =>
      obtain ⟨st0, a, b, c, _, d⟩ := C11_create hwf.toConsistent (quat_width hE hs)
      refine ⟨st0, by rw [if_pos rfl, hcr0, a], b, by simp [c], ?_⟩
      intro i hi hq
      obtain ⟨k, hk⟩ := (d i _ (List.getElem?_eq_getElem hi)).1 hq
      exact unit_default hk
    | false =>
      obtain ⟨st0, a, b, c, _, d⟩ := hini
      rw [et] at b c
      refine ⟨st0, by rw [if_neg (by simp), a], b, by simp [c], ?_⟩
      intro i hi hq
      have hi1 : i < s.link_names.length := by rw [hwf.names_len, ← hwf.types_len]; exact hi
      obtain ⟨d1, d2, _⟩ := d i s.link_names[i] s.link_types[i] (by rw [en]; simp [hi1])
        (by rw [et]; simp [hi])
      rw [et] at d1 d2
      by_cases hm : s.link_names[i] ∈ sref.link_names
      · obtain ⟨j, hj1, hj⟩ := List.getElem_of_mem hm
        have gj : sref.link_names[j]? = some s.link_names[i] := by
          rw [List.getElem?_eq_getElem hj1, hj]
        rw [d1 j gj]
        have ht := h.sameType (List.getElem?_eq_getElem hi1) (List.getElem?_eq_getElem hi) gj
        obtain ⟨hj2, ej⟩ := List.getElem?_eq_some_iff.1 ht
        exact hu j hj2 (by rw [ej]; exact hq)
      · obtain ⟨k, hk⟩ := d2 hm hq
        exact unit_default hk
  obtain ⟨states, h1, h2, h3, h4⟩ := pdLoop_ok hE hs' (by rw [ed]; exact hdt) h' hc hcs q_ref.length 0
    (st := st0) (by rw [et]; exact hlq) (by rw [et]; exact hlqd) ((uq _).2 huq)
  refine ⟨st0, states, ?_, ?_, ?_, h2, h3, ?_⟩
  · unfold _unroll_dynamics_pd_control
    simp only [Option.getD_some]
    have hsw : (if nograv = true then { s with gravity := s.gravity.smul 0 } else s) =
        s.weightless nograv := by
      cases nograv
      · rfl
      · simp [weightless, Vec3.smul]
    rw [hsw]
    have hget : pyGet q_ref 0 = .ok q0 := by
      simp [pyGet, h0]
    rw [hget]
    simp only [ok_bind]
    cases zeros with
    | true =>
      rw [if_pos rfl] at hst0
      simp only [if_true]
      rw [hst0]
      simp only [ok_bind]
      rw [hcs]
      simp only [ok_bind]
      rw [hcs0]
      exact h1
    | false =>
      rw [if_neg (by simp)] at hst0
      simp only [Bool.false_eq_true, if_false]
      rw [hst0]
      simp only [ok_bind]
      rw [hcs]
      simp only [ok_bind]
      rw [hcs0]
      exact h1
  · rintro rfl
    rw [← hini0]
    simpa using hst0
  · rintro rfl
    rw [← hcr0]
    simpa using hst0
  · intro st' hst'
    exact (uq _).1 (h4 st' hst').1

/-- C62: the poses stored in a state of the simulation are those of the coordinates *before* the step,
not those of the coordinates stored in the same state: `states.x` lags `states.q` by one time step. -/
theorem C62_lag (hE : E.Std) (hs : s.Simulable E) {prev next : State ℝ} {taus : Option (List ℝ)}
    (h : step E s prev taus = .ok next) :
    ∃ sys', s.forward_kinematics_transforms E prev.q = .ok (next.x, sys') := by
  have hk := hs.wf.known
  unfold step at h
  simp only [q_size, qd_size, sumWidths_known (fun t ht => (hk t ht).1),
    sumWidths_known (fun t ht => (hk t ht).2), ok_bind] at h
  by_cases h1 : (s.link_types.map (wOf E.qw)).sum = prev.q.length
  · rw [pyAssert_true (p := _) h1] at h
    obtain ⟨_, _, h⟩ := bind_ok_iff.1 h
    obtain ⟨_, _, h⟩ := bind_ok_iff.1 h
    obtain ⟨_, _, h⟩ := bind_ok_iff.1 h
    rw [if_neg (by omega)] at h
    unfold step_loop at h
    obtain ⟨r, h2, h⟩ := bind_ok_iff.1 h
    obtain ⟨st1, h3, h⟩ := bind_ok_iff.1 h
    unfold step_loop at h
    obtain rfl := Except.ok.inj h
    have hx : st1.x = r.2.x := by
      unfold _semi_implicit_euler_integration at h3
      obtain ⟨_, _, h3⟩ := bind_ok_iff.1 h3
      obtain ⟨_, _, h3⟩ := bind_ok_iff.1 h3
      obtain ⟨_, _, h3⟩ := bind_ok_iff.1 h3
      obtain rfl := Except.ok.inj h3
      rfl
    rw [hx, fk_eq hs.wf (hs.jointed hE) h1.symm]
    have hs2 : ({ s with dt := s.dt / ((1 : Nat) : ℝ) } : System ℝ π).Simulable E := by
      refine Simulable.of_same hs ⟨rfl, rfl, ?_⟩
      intro i h1 h2
      simp
    unfold forward_kinematics at h2
    rw [fk_eq hs2.wf (hs2.jointed hE) (q := prev.q) h1.symm] at h2
    obtain rfl := Except.ok.inj h2
    exact ⟨_, rfl⟩
  · rw [pyAssert_false (p := _) h1] at h
    cases h

/-! ### `DynamicalSimulation` -/

/-- A built-in table of control terms is fit for the controller. -/
theorem PdOk.ofStd (hE : E.Std) {qd_from_q : String → Option (List (List ℝ) → ℝ → List (List ℝ))}
    (hg : ∀ b : BuiltIn, qd_from_q b.name = some b.qd_from_q) (hs : s.Consistent E.toEnv)
    (hr : sref.Consistent E.toEnv) (hb : sref.JointsIn fun _ => True)
    {q_ref : List (List ℝ)} {P : List ℝ} {D : Option (List ℝ)} (hne : q_ref ≠ [])
    (hrows : ∀ row ∈ q_ref, row.length = (sref.link_types.map (wOf E.qw)).sum)
    (hP : P.length = (sref.link_types.map (wOf E.dw)).sum)
    (hD : ∀ Dg ∈ D, Dg.length = (sref.link_types.map (wOf E.dw)).sum)
    (hsame : ∀ (i j : Nat) (n : String), s.link_names[i]? = some n → sref.link_names[j]? = some n →
      s.link_types[i]? = sref.link_types[j]?) :
    PdOk E qd_from_q s sref q_ref P D where
  sys := hs
  ref := hr
  nonempty := hne
  rows := hrows
  P_len := hP
  D_len := hD
  same := hsame
  term := by
    intro t ht
    obtain ⟨b, _, rfl⟩ := hb t ht
    have : ∃ f, (b.model : JointModel ℝ π).p_control_term = some f := by
      cases b <;> exact ⟨_, rfl⟩
    obtain ⟨f, hf⟩ := this
    refine ⟨_, f, hE.joints b, hf, ?_⟩
    rw [(wOf_builtin hE b).1, (wOf_builtin hE b).2]
    intro q r hq hr
    exact p_control_length b hf hq hr
  vel := by
    intro _ t ht
    obtain ⟨b, _, rfl⟩ := hb t ht
    refine ⟨_, hg b, ?_⟩
    rw [(wOf_builtin hE b).1, (wOf_builtin hE b).2]
    intro qs h0 h1
    exact qd_from_q_rows b h0 h1 _

/-- C62: the default gains have the right size for every built-in joint. -/
theorem C62_gains (b : BuiltIn) :
    ∃ g, List.lookup b.name _P_gains = some g ∧ g.length = b.qd_width := by
  rcases b with _ | _ | _ | _ | _ | _ | (_ | _ | _) | (_ | _ | _) | _ <;>
    exact ⟨_, rfl, rfl⟩

/-- the gains of a joint type: custom ones first -/
noncomputable def gainOf (o : DynSim) (t : String) : List ℝ :=
  ((o.custom_P_gains.lookup t).or (_P_gains.lookup t)).getD []

theorem removed_type {gone : String → Prop} (hs : s.WF E.toEnv) (hr : s.Removed E.toEnv gone sref)
    {i j : Nat} {n : String} (hi : s.link_names[i]? = some n) (hj : sref.link_names[j]? = some n) :
    s.link_types[i]? = sref.link_types[j]? := by
  have hi1 : i < s.link_parents.length := by
    rw [← hs.names_len]; exact (List.getElem?_eq_some_iff.1 hi).1
  have hj1 : j < sref.link_parents.length := by
    rw [← hr.wf.names_len]; exact (List.getElem?_eq_some_iff.1 hj).1
  have hv := hr.view n (List.mem_of_getElem? hj)
  rw [view_eq_viewAt hs.toConsistent hi, view_eq_viewAt hr.wf.toConsistent hj] at hv
  obtain ⟨v, hv1⟩ := viewAt_isSome hs.toConsistent hi1
  have e1 := (viewAt_vals hv1).1
  have e2 := (viewAt_vals (hv.trans hv1)).1
  have hi2 : i < s.link_types.length := by rw [hs.types_len]; exact hi1
  have hj2 : j < sref.link_types.length := by rw [hr.wf.types_len]; exact hj1
  have e1 : v.type = s.link_types.getD i "" := e1
  have e2 : v.type = sref.link_types.getD j "" := e2
  rw [List.getElem?_eq_getElem hi2, List.getElem?_eq_getElem hj2]
  have := e1.symm.trans e2
  simpa [hi2, hj2] using this

/-- C62: in a dynamical simulation without the subsystems that are not actuated, each remaining link
is driven by the columns of the trajectory that belong to it in the full system and by the gains of
its joint type; everything removed gets no reference (hence zero torque, `C62_unactuated`). -/
theorem C62_dynsim (hE : E.Std) (hs : s.Simulable E) (hdt : |s.dt| < 1e8)
    {qd_from_q : String → Option (List (List ℝ) → ℝ → List (List ℝ))}
    (hg : ∀ b : BuiltIn, qd_from_q b.name = some b.qd_from_q) {o : DynSim}
    (ho : o.overwrite_q_ref = none)
    (hcustom : ∀ t g, o.custom_P_gains.lookup t = some g → g.length = wOf E.dw t)
    (hclip : ∀ c ∈ o.clip_taus, 0 < c)
    (hns : ∀ x ∈ o.unactuated_links, x ∈ s.link_names)
    (hpw : o.unactuated_links.Pairwise fun x y => ¬ s.IsDesc x y)
    (hsurv : ∃ m ∈ s.link_names, ∀ x ∈ o.unactuated_links, ¬ s.IsDesc x m)
    {q : List (List ℝ)} {q0 : List ℝ} (h0 : q[0]? = some q0)
    (hrows : ∀ row ∈ q, row.length = (s.link_types.map (wOf E.qw)).sum) (hu : s.UnitQ E q0) :
    ∃ sref q_ref P, s.Removed E.toEnv (fun m => ∃ x ∈ o.unactuated_links, s.IsDesc x m) sref ∧
      q_ref.length = q.length ∧
      (∀ (i j : Nat) (n : String), s.link_names[i]? = some n → sref.link_names[j]? = some n →
        refOf E sref q_ref j = refOf E s q i) ∧
      (∀ (j : Nat) (t : String), sref.link_types[j]? = some t →
        ownSlice E.dw sref.link_types P j = gainOf o t) ∧
      ((∀ Dg ∈ o.D, Dg.length = (sref.link_types.map (wOf E.dw)).sum) →
        ∃ st0 states, DynSim.call E qd_from_q o q s = .ok (q_ref, states) ∧
          (o.initial_sim_state_is_zeros = true → State.create E s = .ok st0) ∧
          (o.initial_sim_state_is_zeros = false → ∀ (i : Nat) (n : String),
            s.link_names[i]? = some n → n ∈ sref.link_names →
            ownSlice E.qw s.link_types st0.q i = ownSlice E.qw s.link_types q0 i) ∧
          states.length = q.length ∧
          Simulated E qd_from_q (s.weightless o.nograv) sref q_ref P o.D o.clip_taus 0 st0 states ∧
          ∀ st' ∈ states, s.UnitQ E st'.q) := by
  have hwf := hs.wf
  obtain ⟨sref, hdel, hrem⟩ := C03_list_strict hwf o.unactuated_links hns hpw hsurv
  have hc := hrem.wf.toConsistent
  have hb : sref.JointsIn fun _ => True := by
    intro t ht
    obtain ⟨j, hj, rfl⟩ := List.getElem_of_mem ht
    have hj1 : j < sref.link_names.length := by rw [hc.names_len, ← hc.types_len]; exact hj
    obtain ⟨i, hi1, hi⟩ := List.getElem_of_mem ((hrem.mem _).1 (List.getElem_mem hj1)).1
    have := removed_type hwf hrem (n := sref.link_names[j]) (i := i) (j := j)
      (by rw [List.getElem?_eq_getElem hi1, hi]) (List.getElem?_eq_getElem hj1)
    rw [List.getElem?_eq_getElem hj] at this
    exact hs.builtin _ (List.mem_of_getElem? this)
  have hgain : ∀ t ∈ sref.link_types, (gainOf o t).length = wOf E.dw t ∧
      ((o.custom_P_gains.lookup t).or (_P_gains.lookup t)) = some (gainOf o t) := by
    intro t ht
    unfold gainOf
    cases h : o.custom_P_gains.lookup t with
    | some g => exact ⟨hcustom t g h, rfl⟩
    | none =>
      obtain ⟨b, _, rfl⟩ := hb t ht
      obtain ⟨g, h1, h2⟩ := C62_gains b
      simp only [Option.none_or]
      rw [h1]
      exact ⟨by rw [(wOf_builtin hE b).2]; exact h2, rfl⟩
  -- where the links of the reference system are in the full system
  have hpos : ∀ j (hj : j < sref.link_names.length), ∃ i : Nat,
      s.link_names[i]? = some sref.link_names[j] := by
    intro j hj
    obtain ⟨i, hi1, hi⟩ := List.getElem_of_mem ((hrem.mem _).1 (List.getElem_mem hj)).1
    exact ⟨i, by rw [List.getElem?_eq_getElem hi1, hi]⟩
  set pos : Nat → Nat := fun j => s.link_names.idxOf (sref.link_names.getD j "") with hposd
  have hposj : ∀ j (hj : j < sref.link_names.length),
      s.link_names[pos j]? = some sref.link_names[j] := by
    intro j hj
    obtain ⟨i, hi⟩ := hpos j hj
    obtain ⟨hi1, e⟩ := List.getElem?_eq_some_iff.1 hi
    have : pos j = i := by
      simp only [hposd]
      rw [show sref.link_names.getD j "" = s.link_names[i] by simp [hj, e]]
      exact hwf.names_nodup.idxOf_getElem _ _
    rw [this]; exact hi
  obtain ⟨m, hm, hlook⟩ : ∃ m, s.idx_map E.toEnv .q = .ok m ∧ ∀ (i : Nat) (n : String),
      s.link_names[i]? = some n → ∀ hi2 : i < s.link_types.length,
      List.lookup n m = some (Idx.slice
        ((s.link_types.map (wOf E.qw)).take i).sum
        (((s.link_types.map (wOf E.qw)).take i).sum + wOf E.qw s.link_types[i])) := by
    refine ⟨_, (C01_sizes_and_idx_map hwf.known hwf.types_len hwf.names_len).2.2.2.1, ?_⟩
    intro i n hn hi2
    obtain ⟨m', h1, h2⟩ := idx_map_q_lookup hwf.toConsistent hn hi2
    rw [(C01_sizes_and_idx_map hwf.known hwf.types_len hwf.names_len).2.2.2.1] at h1
    rw [Except.ok.inj h1]
    exact h2
  set sl : Nat → Nat × Nat := fun i => (((s.link_types.map (wOf E.qw)).take i).sum,
    ((s.link_types.map (wOf E.qw)).take i).sum + wOf E.qw (s.link_types.getD i "")) with hsl
  have hslice : ∀ (row : List ℝ) (i : Nat), pySlice row (sl i) = ownSlice E.qw s.link_types row i := by
    intro row i
    simp only [hsl, pySlice_eq, ownSlice, List.map_take]
  set pieces : List ((Nat × Nat) × List ℝ) := (List.range sref.link_parents.length).map fun j =>
    (sl (pos j), gainOf o (sref.link_types.getD j "")) with hpieces
  have hscan : sref.scan E.toEnv (fun _ _ a => build_q_ref E o m a)
      ((argL sref.link_names).and (argL sref.link_types)) = .ok pieces := by
    apply scan_inv hc.known hc.types_len (rows := sref.link_names.zip sref.link_types)
    · intro x hx
      simp only [ScanArg.and, argL, List.mem_append, List.mem_cons, List.not_mem_nil,
        or_false] at hx
      rcases hx with rfl | rfl
      · exact hc.names_len
      · exact hc.types_len
    · exact rows_and (rows_argL _ _) (rows_argL _ _)
    · intro j hj
      have hj1 : j < sref.link_names.length := by rw [hc.names_len]; exact hj
      have hj2 : j < sref.link_types.length := by rw [hc.types_len]; exact hj
      obtain ⟨hi1, _⟩ := List.getElem?_eq_some_iff.1 (hposj j hj1)
      have hi2 : pos j < s.link_types.length := by rw [hwf.types_len, ← hwf.names_len]; exact hi1
      simp only [List.getElem_zip, hpieces, List.getElem_map, List.getElem_range]
      unfold build_q_ref
      simp only [pyDict, hlook _ _ (hposj j hj1) hi2, ok_bind]
      obtain ⟨g1, g2⟩ := hgain _ (List.getElem_mem hj2)
      have hw := width_known (hc.known _ (List.getElem_mem hj2)).2
      have d1 : sref.link_types.getD j "" = sref.link_types[j] := by simp [hj2]
      have d2 : s.link_types.getD (pos j) "" = s.link_types[pos j] := by simp [hi2]
      have fin : ∀ g, g = gainOf o sref.link_types[j] → (do
          let required_qd_size ← width E.dw sref.link_types[j]
          pyAssert (required_qd_size = g.length)
          pure (idxSlice (Idx.slice ((s.link_types.map (wOf E.qw)).take (pos j)).sum
            (((s.link_types.map (wOf E.qw)).take (pos j)).sum + wOf E.qw s.link_types[pos j])), g) :
            Py ((Nat × Nat) × List ℝ)) =
          .ok (sl (pos j), gainOf o (sref.link_types.getD j "")) := by
        rintro g rfl
        rw [hw]
        simp only [ok_bind]
        rw [pyAssert_true g1.symm]
        simp only [ok_bind, pure_ok, idxSlice, hsl, d1, d2]
      cases h : o.custom_P_gains.lookup sref.link_types[j] with
      | some g =>
        rw [h] at g2
        simp only [Option.some_or, Option.some.injEq] at g2
        exact fin g g2
      | none =>
        rw [h, Option.none_or] at g2
        simp only [g2]
        exact fin _ rfl
    · simp [hc.names_len, hc.types_len]
    · simp [hpieces]
  set q_ref : List (List ℝ) := q.map fun row => (pieces.map fun x => pySlice row x.1).flatten
    with hq_ref
  set P : List ℝ := (pieces.map (·.2)).flatten with hP
  have types_at : ∀ j (hj : j < sref.link_types.length),
      s.link_types[pos j]? = some sref.link_types[j] := by
    intro j hj
    have hj1 : j < sref.link_names.length := by rw [hc.names_len, ← hc.types_len]; exact hj
    rw [removed_type hwf hrem (hposj j hj1) (List.getElem?_eq_getElem hj1)]
    exact List.getElem?_eq_getElem hj
  have hrowlens : ∀ row ∈ q, (pieces.map fun x => pySlice row x.1).map List.length =
      sref.link_types.map (wOf E.qw) := by
    intro row hrow
    apply List.ext_getElem
    · simp [hpieces, hc.types_len]
    · intro j h1 h2
      have hj : j < sref.link_types.length := by simpa using h2
      have ht := types_at j hj
      obtain ⟨hi2, e⟩ := List.getElem?_eq_some_iff.1 ht
      simp only [hpieces, List.getElem_map, List.getElem_range, hslice]
      rw [ownSlice_length (hrows row hrow) hi2]
      simp [ht]
  have hPlens : (pieces.map (·.2)).map List.length = sref.link_types.map (wOf E.dw) := by
    apply List.ext_getElem
    · simp [hpieces, hc.types_len]
    · intro j h1 h2
      have hj : j < sref.link_types.length := by simpa using h2
      simp only [hpieces, List.getElem_map, List.getElem_range]
      rw [show sref.link_types.getD j "" = sref.link_types[j] by simp [hj]]
      exact (hgain _ (List.getElem_mem hj)).1
  have hcols : ∀ (i j : Nat) (n : String), s.link_names[i]? = some n →
      sref.link_names[j]? = some n → ∀ row ∈ q,
      ownSlice E.qw sref.link_types (pieces.map fun x => pySlice row x.1).flatten j =
        ownSlice E.qw s.link_types row i := by
    intro i j n hi hj row hrow
    obtain ⟨hj1, ej⟩ := List.getElem?_eq_some_iff.1 hj
    obtain ⟨hi1, ei⟩ := List.getElem?_eq_some_iff.1 hi
    have hj' : j < sref.link_parents.length := by rw [← hc.names_len]; exact hj1
    rw [ownSlice_flatten (hrowlens row hrow) (by simpa [hpieces] using hj')]
    simp only [hpieces, List.getElem_map, List.getElem_range, hslice]
    have : pos j = i := by
      simp only [hposd]
      rw [show sref.link_names.getD j "" = s.link_names[i] by simp [hj1, ej, ei]]
      exact hwf.names_nodup.idxOf_getElem _ _
    rw [this]
  have hne : q ≠ [] := by
    rintro rfl
    simp at h0
  have hq_ref0 : q_ref[0]? = some ((pieces.map fun x => pySlice q0 x.1).flatten) := by
    rw [hq_ref, List.getElem?_map, h0]
    rfl
  have hq0mem : q0 ∈ q := List.mem_of_getElem? h0
  have hsame := fun (i j : Nat) (n : String) (hi : s.link_names[i]? = some n)
    (hj : sref.link_names[j]? = some n) => removed_type hwf hrem hi hj
  refine ⟨sref, q_ref, P, hrem, by simp [hq_ref], ?_, ?_, ?_⟩
  · intro i j n hi hj
    unfold refOf
    rw [hq_ref, List.map_map]
    apply List.map_congr_left
    intro row hrow
    exact hcols i j n hi hj row hrow
  · intro j t ht
    obtain ⟨hj, e⟩ := List.getElem?_eq_some_iff.1 ht
    rw [hP, ownSlice_flatten hPlens (by simpa [hpieces, ← hc.types_len] using hj)]
    simp only [hpieces, List.getElem_map, List.getElem_range]
    rw [show sref.link_types.getD j "" = t by simp [ht]]
  · intro hD
    have hok : PdOk E qd_from_q s sref q_ref P o.D := by
      refine PdOk.ofStd hE hg hwf.toConsistent hc hb ?_ ?_ ?_ hD hsame
      · rw [hq_ref]; simpa using hne
      · intro row hrow
        rw [hq_ref] at hrow
        obtain ⟨r, hr, rfl⟩ := List.mem_map.1 hrow
        rw [List.length_flatten, hrowlens r hr]
      · rw [hP, List.length_flatten, hPlens]
    have hsub : ∀ n ∈ sref.link_names, n ∈ s.link_names := fun n hn => ((hrem.mem n).1 hn).1
    have huref : sref.UnitQ E ((pieces.map fun x => pySlice q0 x.1).flatten) := by
      intro j hj hq
      have hj1 : j < sref.link_names.length := by rw [hc.names_len, ← hc.types_len]; exact hj
      rw [hcols (pos j) j _ (hposj j hj1) (List.getElem?_eq_getElem hj1) q0 hq0mem]
      obtain ⟨hi2, e⟩ := List.getElem?_eq_some_iff.1 (types_at j hj)
      exact hu (pos j) hi2 (by rw [e]; exact hq)
    obtain ⟨st0, states, h1, h2, h3, h4, h5, h6⟩ := C62_unroll hE hs hdt hok hq_ref0 hsub huref hclip
      o.nograv o.initial_sim_state_is_zeros
    refine ⟨st0, states, ?_, h3, ?_, by rw [h4, hq_ref, List.length_map], h5, h6⟩
    · unfold DynSim.call
      rw [hm]
      simp only [ok_bind, ho, pure_ok]
      have hpne : 0 < (pieces.map (·.2)).length := by
        obtain ⟨n, hn, hn2⟩ := hsurv
        have : n ∈ sref.link_names := (hrem.mem n).2 ⟨hn, by
          rintro ⟨x, hx, hx2⟩
          exact hn2 x hx hx2⟩
        have := List.length_pos_of_mem this
        rw [hc.names_len] at this
        simpa [hpieces] using this
      split
      · rw [hdel]
        simp only [ok_bind]
        rw [hscan]
        simp only [ok_bind]
        rw [jnpConcatenate_ok (List.length_pos_iff.1 hpne)]
        simp only [ok_bind]
        rw [h1]
        rfl
      · rename_i hz
        have hnil : o.unactuated_links = [] := by
          cases hl : o.unactuated_links with
          | nil => rfl
          | cons a l => rw [hl] at hz; simp at hz
        rw [hnil] at hdel
        have hsr : s = sref := Except.ok.inj hdel
        rw [← hsr] at hscan h1
        rw [hscan]
        simp only [ok_bind]
        rw [jnpConcatenate_ok (List.length_pos_iff.1 hpne)]
        simp only [ok_bind]
        rw [h1]
        rfl
    · intro hz i n hi hn
      obtain ⟨st1, g1, _, _, _, g2⟩ := C62_initial hwf.toConsistent hc (quat_width hE hs) hsub hsame
        (q0 := (pieces.map fun x => pySlice q0 x.1).flatten) (by
          rw [List.length_flatten, hrowlens q0 hq0mem])
      have h2 := h2 hz
      rw [g1] at h2
      obtain rfl := Except.ok.inj h2
      obtain ⟨j, hj1, hj⟩ := List.getElem_of_mem hn
      have gj : sref.link_names[j]? = some n := by rw [List.getElem?_eq_getElem hj1, hj]
      have hi2 : i < s.link_types.length := by
        rw [hwf.types_len, ← hwf.names_len]; exact (List.getElem?_eq_some_iff.1 hi).1
      rw [(g2 i n s.link_types[i] hi (List.getElem?_eq_getElem hi2)).1 j gj,
        hcols i j n hi gj q0 hq0mem]

/-- C62: the links of a subsystem that is not actuated get zero torque, always. -/
theorem C62_unactuated {qd_from_q : String → Option (List (List ℝ) → ℝ → List (List ℝ))}
    {ns : List String} {q_ref : List (List ℝ)} {P : List ℝ} {D : Option (List ℝ)} {k : Nat}
    {q qd taus : List ℝ}
    (hr : s.Removed E.toEnv (fun m => ∃ x ∈ ns, s.IsDesc x m) sref)
    (h : DrivenBy E qd_from_q s sref q_ref P D k q qd taus) {i : Nat} {x n t : String}
    (hn : s.link_names[i]? = some n) (ht : s.link_types[i]? = some t) (hx : x ∈ ns)
    (hd : s.IsDesc x n) : ownSlice E.dw s.link_types taus i = List.replicate (wOf E.dw t) 0 :=
  h.unreferenced i n t hn ht fun hm => ((hr.mem n).1 hm).2 ⟨x, hx, hd⟩

/-! ### example: the branch at `b` of the example system is not actuated -/

/-- the table of velocities of the built-in joints -/
noncomputable def stdVel : String → Option (List (List ℝ) → ℝ → List (List ℝ))
  | "free" => some BuiltIn.free.qd_from_q
  | "cor" => some BuiltIn.cor.qd_from_q
  | "spherical" => some BuiltIn.spherical.qd_from_q
  | _ => some _qd_from_q_cartesian

theorem stdVel_builtin (b : BuiltIn) : stdVel b.name = some b.qd_from_q := by
  rcases b with _ | _ | _ | _ | _ | _ | (_ | _ | _) | (_ | _ | _) | _ <;> rfl

theorem kinSys_not_desc : ¬ kinSys.IsDesc "b" "a" := by
  rintro ⟨k, i, hk, hi, h⟩
  have ei : i = 0 := by
    match i, hi with
    | 0, _ => rfl
    | 1, hi => simp [kinSys] at hi
    | 2, hi => simp [kinSys] at hi
    | 3, hi => simp [kinSys] at hi
    | n + 4, hi => simp [kinSys] at hi
  subst ei
  cases h with
  | self => simp [kinSys] at hk
  | step h1 _ => simp [kinSys] at h1

/-- fifty steps with clipped torques and without gravity -/
example : ∃ sref q_ref states, DynSim.call stdEnv stdVel
      { custom_P_gains := [("py", [7])], unactuated_links := ["b"], overwrite_q_ref := none, D := none,
        nograv := true, initial_sim_state_is_zeros := false, clip_taus := some 3 }
      (List.replicate 50 [0, 1, 0, 0, 5, 6, 7, 1 / 2, 3, 1, 0, 0, 0]) kinSys = .ok (q_ref, states) ∧
    states.length = 50 ∧ "c" ∈ sref.link_names ∧ "d" ∉ sref.link_names ∧
    ∃ P st0, Simulated stdEnv stdVel (kinSys.weightless true) sref q_ref P none (some 3) 0 st0 states := by
  have hs : ∃ m ∈ kinSys.link_names, ∀ x ∈ ["b"], ¬ kinSys.IsDesc x m :=
    ⟨"a", by simp [kinSys], by simpa using kinSys_not_desc⟩
  obtain ⟨sref, q_ref, P, hrem, _, _, _, hrun⟩ := C62_dynsim (E := stdEnv) (s := kinSys) stdEnv_std
    kinSys_simulable (by simp [kinSys]; norm_num [abs_of_pos]) stdVel_builtin
    (o := { custom_P_gains := [("py", [7])], unactuated_links := ["b"], overwrite_q_ref := none,
            D := none, nograv := true, initial_sim_state_is_zeros := false, clip_taus := some 3 })
    rfl
    (by
      intro t g h
      simp only [List.lookup] at h
      split at h
      · rename_i ht
        obtain rfl : t = "py" := by simpa using ht
        obtain rfl := Option.some.inj h
        rfl
      · cases h)
    (by intro c hc; obtain rfl := Option.some.inj hc; norm_num)
    (by simp [kinSys]) (by simp) hs
    (q := List.replicate 50 [0, 1, 0, 0, 5, 6, 7, 1 / 2, 3, 1, 0, 0, 0])
    (q0 := [0, 1, 0, 0, 5, 6, 7, 1 / 2, 3, 1, 0, 0, 0]) (by simp)
    (by
      intro row hrow
      rw [kinSys_widths.1, (List.mem_replicate.1 hrow).2]
      rfl) kinSys_unitQ
  obtain ⟨st0, states, h1, _, _, h2, h3, _⟩ := hrun (by simp)
  refine ⟨sref, q_ref, states, h1, by simpa using h2, ?_, ?_, P, st0, h3⟩
  · rw [hrem.mem]
    refine ⟨by simp [kinSys], ?_⟩
    rintro ⟨x, hx, k, i, hk, hi, h⟩
    obtain rfl : x = "b" := by simpa using hx
    have ei : i = 2 := by
      match i, hi with
      | 0, hi => simp [kinSys] at hi
      | 1, hi => simp [kinSys] at hi
      | 2, _ => rfl
      | 3, hi => simp [kinSys] at hi
      | n + 4, hi => simp [kinSys] at hi
    subst ei
    cases h with
    | self => simp [kinSys] at hk
    | step h1 h2 =>
      rename_i p
      obtain rfl : p = 0 := by simpa [kinSys, eq_comm] using h1
      cases h2 with
      | self => simp [kinSys] at hk
      | step h1 _ => simp [kinSys] at h1
  · rw [hrem.mem]
    rintro ⟨_, h⟩
    exact h ⟨"b", by simp, 1, 3, rfl, rfl, .step (p := 1) rfl .self⟩

end System
end RingLib
