import Verif.Props.HideBodies
import Verif.Lemmas.Random
import Verif.Props.Kinematics
import Verif.Props.Random

/-!
# Random stiffness and damping of IMUs (C71)
-/

namespace RingLib
namespace artifacts
open System io
variable {π K : Type}

/-! ## specification -/

/-- a rigidly mounted joint: three times the same stiffness, a fifth of it as damping -/
def RigidSpring (k : ℝ) (stiffness damping : List ℝ) : Prop :=
  stiffness = [k, k, k] ∧ damping = [k / 5, k / 5, k / 5]

/-- a flexible joint: stiffness between the limits, damping between 5% and 50% of the stiffness -/
def FlexSpring (lo hi : ℝ) (stiffness damping : List ℝ) : Prop :=
  stiffness.length = 3 ∧ damping.length = 3 ∧
    (∀ k ∈ stiffness, lo ≤ k ∧ k ≤ hi) ∧
    ∀ (i : Nat) (k d : ℝ), stiffness[i]? = some k → damping[i]? = some d → k / 20 ≤ d ∧ d ≤ k / 2

/-- a joint of an IMU that is rigid or flexible -/
def SpringOk (rigid : Bool) (k lo hi : ℝ) (stiffness damping : List ℝ) : Prop :=
  if rigid then RigidSpring k stiffness damping else FlexSpring lo hi stiffness damping

/-- `v'` is `v` up to its spring, which is of the given kind -/
structure Sprung (rigid : Bool) (k lo hi : ℝ) (v v' : LinkView ℝ π) : Prop where
  same : v' = { v with stiffness := v'.stiffness, damping := v'.damping }
  spring : SpringOk rigid k lo hi v'.stiffness v'.damping

/-- every IMU has a link with three degrees of freedom below another such one, its reference link -/
structure Mounted (E : Env ℝ π) (s : System ℝ π) : Prop where
  wf : s.WF E
  pair : ∀ n ∈ s.link_names, IsImu n → imu_reference_link_name n ∈ s.link_names ∧
    ∀ m v, m = n ∨ m = imu_reference_link_name n → s.view E m = some v → wOf E.dw v.type = 3

/-- the options are accepted -/
structure OptsOk (o : RigidOpts) (imus : List String) : Prop where
  lo : 0 ≤ o.prob_rigid
  hi : o.prob_rigid < 1
  none : o.prob_rigid = 0 → o.imus_surely_rigid = []
  nodup : o.imus_surely_rigid.Nodup
  known : ∀ n ∈ o.imus_surely_rigid, n ∈ imus

/-- what the function does; `kind` says which IMUs are rigid -/
structure Randomized (E : Env ℝ π) (o : RigidOpts) (s r : System ℝ π) (kind : String → Bool) : Prop where
  wf : r.WF E
  rest : r = { s with link_spring_stiffness := r.link_spring_stiffness, link_damping := r.link_damping }
  other : ∀ n, ¬ IsImu n → (∀ m ∈ s.findall_imus, n ≠ imu_reference_link_name m) →
    r.view E n = s.view E n
  socket : ∀ n ∈ s.findall_imus, ∃ v v', s.view E (imu_reference_link_name n) = some v ∧
    r.view E (imu_reference_link_name n) = some v' ∧ Sprung (kind n) 200 (1 / 5) 10 v v'
  body : ∀ n ∈ s.findall_imus, ∃ v v', s.view E n = some v ∧
    r.view E n = some v' ∧ Sprung (kind n) 20000 25 1000 v v'
  surely : ∀ n ∈ s.findall_imus, n ∈ o.imus_surely_rigid → kind n = true
  never : o.prob_rigid = 0 → ∀ n ∈ s.findall_imus, kind n = false
  together : o.all_imus_either_rigid_or_flex = true → ∀ m ∈ s.findall_imus, ∀ n ∈ s.findall_imus,
    m ∉ o.imus_surely_rigid → n ∉ o.imus_surely_rigid → kind m = kind n

/-! ## the draws -/

theorem logUniform_ok {R : Rng K} (hR : R.Ok) (key : K) (n : Nat) {lo hi : ℝ} (h0 : 0 < lo) (h : lo ≤ hi) :
    ∃ l, _log_uniform R key n lo hi = .ok l ∧ l.length = n ∧ ∀ x ∈ l, lo ≤ x ∧ x ≤ hi := by
  have hlog : Real.log lo ≤ Real.log hi := Real.log_le_log h0 h
  unfold _log_uniform
  rw [pyAssert_true ⟨h0.le, h⟩]
  refine ⟨_, rfl, by simp, ?_⟩
  intro x hx
  obtain ⟨j, -, rfl⟩ := List.mem_map.1 hx
  have hu := hR.uniformN key n j
  constructor
  · calc lo = Real.exp (Real.log lo) := (Real.exp_log h0).symm
      _ ≤ _ := Real.exp_le_exp.2 (scaleU_ge _ _ _)
  · calc _ ≤ Real.exp (Real.log hi) := Real.exp_le_exp.2 (scaleU_le hu.1 hu.2 hlog)
      _ = hi := Real.exp_log (h0.trans_le h)

theorem flex_of {lo hi : ℝ} (h0 : 0 < lo) {s f : List ℝ} (hs : s.length = 3) (hf : f.length = 3)
    (h1 : ∀ x ∈ s, lo ≤ x ∧ x ≤ hi) (h2 : ∀ x ∈ f, 1 / 20 ≤ x ∧ x ≤ 1 / 2) :
    FlexSpring lo hi s (List.zipWith (· * ·) s f) := by
  refine ⟨hs, by simp [hs, hf], h1, ?_⟩
  intro i k d hk hd
  rw [List.getElem?_zipWith, hk] at hd
  have hi : i < f.length := by
    have := (List.getElem?_eq_some_iff.1 hk).1
    omega
  rw [List.getElem?_eq_getElem hi] at hd
  have hd : k * f[i] = d := by simpa using hd
  have hf := h2 _ (List.getElem_mem hi)
  have hk := (h1 k (List.mem_of_getElem? hk)).1
  subst hd
  have : 0 < k := h0.trans_le hk
  constructor <;> nlinarith [hf.1, hf.2]

/-- six values for the two joints of an IMU -/
structure PairOk (rigid : Bool) (d : List ℝ × List ℝ) : Prop where
  split : ∃ a b a' b', d = (a ++ b, a' ++ b') ∧ a.length = 3 ∧ b.length = 3 ∧ a'.length = 3 ∧
    b'.length = 3 ∧ SpringOk rigid 200 (1 / 5) 10 a a' ∧ SpringOk rigid 20000 25 1000 b b'

theorem rigid_ok : PairOk true stif_damp_rigid := by
  refine ⟨⟨[200, 200, 200], [20000, 20000, 20000], [40, 40, 40], [4000, 4000, 4000], ?_, rfl, rfl, rfl, rfl,
    ?_, ?_⟩⟩
  · unfold stif_damp_rigid
    simp only [List.replicate, List.cons_append, List.nil_append, List.map]
    norm_num
  · norm_num [SpringOk, RigidSpring]
  · norm_num [SpringOk, RigidSpring]

theorem flex_ok {R : Rng K} (hR : R.Ok) (key : K) :
    ∃ d, stif_damp_nonrigid R key = .ok d ∧ PairOk false d := by
  obtain ⟨a, ha, la, ba⟩ := logUniform_ok hR (R.split key 3 0) 3 (lo := 1 / 5) (hi := 10) (by norm_num)
    (by norm_num)
  obtain ⟨b, hb, lb, bb⟩ := logUniform_ok hR (R.split key 3 1) 3 (lo := 25) (hi := 1000) (by norm_num)
    (by norm_num)
  obtain ⟨f, hf, lf, bf⟩ := logUniform_ok hR (R.split key 3 2) 6 (lo := 1 / 20) (hi := 1 / 2) (by norm_num)
    (by norm_num)
  unfold stif_damp_nonrigid
  rw [ha, ok_bind, hb, ok_bind, hf, ok_bind]
  refine ⟨_, rfl, a, b, List.zipWith (· * ·) a (f.take 3), List.zipWith (· * ·) b (f.drop 3), ?_, la, lb,
    by simp [la, lf], by simp [lb, lf], ?_, ?_⟩
  · rw [← List.zipWith_append (by simp [la, lf]), List.take_append_drop]
  · exact flex_of (by norm_num) la (by simp [lf]) ba fun x hx => bf x (List.mem_of_mem_take hx)
  · exact flex_of (by norm_num) lb (by simp [lf]) bb fun x hx => bf x (List.mem_of_mem_drop hx)

/-- The draw of one IMU. -/
theorem drawStif_ok {R : Rng K} (hR : R.Ok) (o : RigidOpts) (st : RandState K) (imu : String) (c1 c2 : K) :
    ∃ d kind, drawStif R o st imu c1 c2 = .ok d ∧ PairOk kind d.1 ∧
      (0 < o.prob_rigid → imu ∈ o.imus_surely_rigid → kind = true) ∧
      (o.prob_rigid ≤ 0 → kind = false) ∧
      (o.all_imus_either_rigid_or_flex = true → d.2.1 = st.is_rigid) ∧
      (o.all_imus_either_rigid_or_flex = true → 0 < o.prob_rigid → imu ∉ o.imus_surely_rigid →
        kind = st.is_rigid) ∧
      (0 < o.prob_rigid → d.2.2 = st.triggered ++ if imu ∈ o.imus_surely_rigid then [imu] else []) ∧
      (o.prob_rigid ≤ 0 → d.2.2 = st.triggered) := by
  obtain ⟨f, hf, hok⟩ := flex_ok hR c2
  unfold drawStif
  by_cases h : 0 < o.prob_rigid
  · rw [if_pos h]
    by_cases hm : imu ∈ o.imus_surely_rigid
    · rw [if_pos hm]
      refine ⟨_, true, rfl, rigid_ok, fun _ _ => rfl, fun h' => absurd h (not_lt.2 h'), fun _ => rfl,
        fun _ _ h' => absurd hm h', fun _ => by rw [if_pos hm], fun h' => absurd h (not_lt.2 h')⟩
    · rw [if_neg hm]
      simp only [hf, ok_bind]
      refine ⟨_, (if o.all_imus_either_rigid_or_flex then st.is_rigid else bernoulli R c1 o.prob_rigid), rfl, ?_,
        fun _ h' => absurd h' hm, fun h' => absurd h (not_lt.2 h'), ?_, ?_, ?_, fun h' => absurd h (not_lt.2 h')⟩
      · dsimp only
        generalize (if o.all_imus_either_rigid_or_flex then st.is_rigid
          else bernoulli R c1 o.prob_rigid) = b
        cases b
        · exact hok
        · exact rigid_ok
      · intro e; simp [e]
      · intro e _ _; simp [e]
      · intro _; simp [hm]
  · rw [if_neg h, hf, ok_bind]
    exact ⟨_, false, rfl, hok, fun h' => absurd h' h, fun _ => rfl, fun _ => rfl, fun _ h' => absurd h' h,
      fun h' => absurd h' h, fun _ => rfl⟩

/-! ## writing the values -/

theorem atSet_append {β : Type} (x : List β) {i j : List Nat} {u v : List β} (h1 : i.length = u.length)
    (h2 : j.length = v.length) :
    atSet x (i ++ j) (u ++ v) = (atSet x i u >>= fun y => atSet y j v) := by
  unfold atSet
  rw [if_pos (by simp [h1, h2]), if_pos h1, ok_bind, if_pos h2, List.zip_append h1, List.foldl_append]

/-- the spring arrays of a system -/
def withSprings (s : System ℝ π) (stiffness damping : List ℝ) : System ℝ π :=
  { s with link_spring_stiffness := stiffness, link_damping := damping }

theorem springs_view {E : Env ℝ π} {s : System ℝ π} (h : s.WF E) (h0 : s.link_parents ≠ []) {i : Nat}
    {name : String} {v : LinkView ℝ π} (hi : s.link_names[i]? = some name) (hv : s.view E name = some v)
    {ls ld : List ℝ} (hls : ls.length = wOf E.dw v.type) (hld : ld.length = wOf E.dw v.type) :
    ∃ a b, atSet s.link_spring_stiffness (sliceIdx (((s.link_types.take i).map (wOf E.dw)).sum,
        ((s.link_types.take (i + 1)).map (wOf E.dw)).sum)) ls = .ok a ∧
      atSet s.link_damping (sliceIdx (((s.link_types.take i).map (wOf E.dw)).sum,
        ((s.link_types.take (i + 1)).map (wOf E.dw)).sum)) ld = .ok b ∧
      (withSprings s a b).WF E ∧
      (withSprings s a b).view E name = some { v with stiffness := ls, damping := ld } ∧
      ∀ n, n ≠ name → (withSprings s a b).view E n = s.view E n := by
  have hil : i < s.link_types.length := by
    rw [h.types_len, ← h.names_len]
    exact (List.getElem?_eq_some_iff.1 hi).1
  have ht : s.link_types.getD i "" = v.type := by
    have hv' := hv
    rw [view_eq_viewAt h.toConsistent hi] at hv'
    exact (viewAt_vals hv').1 |>.symm ▸ rfl
  refine ⟨_, _, atSet_slice h.stiffness_len hil (by rw [ht, hls]), atSet_slice h.damping_len hil
    (by rw [ht, hld]), ?_⟩
  unfold withSprings
  rw [springs_eq h.toConsistent hi]
  have hfit : ∀ n w, s.view E n = some w → Fits E (springLogic name ls ld n (valsOf w)) := by
    intro n w hw
    have hw' := view_fits h hw
    unfold springLogic
    split
    · rename_i e
      subst e
      rw [hv] at hw
      cases hw
      exact ⟨hw'.known, hw'.la, hld, hls, hw'.lz, hw'.unit⟩
    · exact hw'
  obtain ⟨-, h2, h3⟩ := replace_view h h0 hfit
  refine ⟨h2, ?_, ?_⟩
  · rw [h3 name v hv]
    unfold springLogic
    rw [if_pos rfl]
    rfl
  · intro n hn
    cases hw : s.view E n with
    | some w =>
      rw [h3 n w hw]
      unfold springLogic
      rw [if_neg hn]
      rfl
    | none =>
      apply view_none
      intro hm
      obtain ⟨i, w, -, -, hw'⟩ := view_of_mem h.toConsistent (show n ∈ s.link_names from hm)
      rw [hw] at hw'
      cases hw'

/-! ## the loop -/

/-- the IMUs `done` have been given their springs -/
structure SpringStage (E : Env ℝ π) (o : RigidOpts) (s : System ℝ π) (is0 : Bool) (done : List String)
    (st : RandState K) (kind : String → Bool) : Prop where
  wf : (withSprings s st.stiffness st.damping).WF E
  other : ∀ n, n ∉ done → (∀ m ∈ done, n ≠ imu_reference_link_name m) →
    (withSprings s st.stiffness st.damping).view E n = s.view E n
  socket : ∀ n ∈ done, ∃ v v', s.view E (imu_reference_link_name n) = some v ∧
    (withSprings s st.stiffness st.damping).view E (imu_reference_link_name n) = some v' ∧
      Sprung (kind n) 200 (1 / 5) 10 v v'
  body : ∀ n ∈ done, ∃ v v', s.view E n = some v ∧
    (withSprings s st.stiffness st.damping).view E n = some v' ∧ Sprung (kind n) 20000 25 1000 v v'
  surely : 0 < o.prob_rigid → ∀ n ∈ done, n ∈ o.imus_surely_rigid → kind n = true
  never : o.prob_rigid ≤ 0 → ∀ n ∈ done, kind n = false
  same : o.all_imus_either_rigid_or_flex = true → st.is_rigid = is0
  together : o.all_imus_either_rigid_or_flex = true → 0 < o.prob_rigid → ∀ n ∈ done,
    n ∉ o.imus_surely_rigid → kind n = is0
  triggered : 0 < o.prob_rigid → st.triggered = done.filter fun n => n ∈ o.imus_surely_rigid
  untriggered : o.prob_rigid ≤ 0 → st.triggered = []

theorem randomizeImu_ok {E : Env ℝ π} {R : Rng K} (hR : R.Ok) {o : RigidOpts} {s : System ℝ π}
    (hM : Mounted E s) {is0 : Bool} {done : List String} (hdone : ∀ n ∈ done, IsImu n) {st : RandState K}
    {kind : String → Bool} (h : SpringStage E o s is0 done st kind) {imu : String} (hn : imu ∈ s.link_names)
    (hi : IsImu imu) (hd : imu ∉ done) :
    ∃ st' kind', randomizeImu R o ((s.link_names.zipIdx).map fun x =>
        (x.1, Idx.slice ((s.link_types.take x.2).map (wOf E.dw)).sum
          ((s.link_types.take (x.2 + 1)).map (wOf E.dw)).sum)) st imu = .ok st' ∧
      SpringStage E o s is0 (done ++ [imu]) st' kind' := by
  obtain ⟨hr, hw3⟩ := hM.pair imu hn hi
  obtain ⟨i1, v1, hi1, -, hv1⟩ := view_of_mem hM.wf.toConsistent hr
  obtain ⟨i2, v2, hi2, -, hv2⟩ := view_of_mem hM.wf.toConsistent hn
  have w1 := hw3 _ _ (Or.inr rfl) hv1
  have w2 := hw3 _ _ (Or.inl rfl) hv2
  have hne : imu ≠ imu_reference_link_name imu := fun e => ref_not_imu imu (e ▸ hi)
  have hrd : imu_reference_link_name imu ∉ done := fun hm => ref_not_imu imu (hdone _ hm)
  have h0 : s.link_parents ≠ [] := by
    intro e
    have : s.link_names.length = 0 := by rw [hM.wf.names_len, e]; rfl
    rw [List.eq_nil_of_length_eq_zero this] at hn
    cases hn
  obtain ⟨d, k, hdr, ⟨a, b, a', b', hd1, la, lb, la', lb', ok1, ok2⟩, k1, k2, k3, k4, k5, k6⟩ :=
    drawStif_ok hR o st imu (R.split st.key 3 1) (R.split st.key 3 2)
  have hx1 : (withSprings s st.stiffness st.damping).view E (imu_reference_link_name imu) = some v1 := by
    rw [h.other _ hrd (fun m hm e => hd (ref_inj e ▸ hm)), hv1]
  have hx2 : (withSprings s st.stiffness st.damping).view E imu = some v2 := by
    rw [h.other _ hd (fun m _ e => ref_not_imu m (e ▸ hi)), hv2]
  obtain ⟨p, p', hp, hp', pwf, pv, po⟩ := springs_view h.wf h0 (ls := a) (ld := a') hi1 hx1
    (by rw [la, w1]) (by rw [la', w1])
  obtain ⟨q, q', hq, hq', qwf, qv, qo⟩ := springs_view (name := imu) (v := v2) (ls := b) (ld := b') pwf h0 hi2
    (by rw [po _ hne, hx2]) (by rw [lb, w2]) (by rw [lb', w2])
  have len : ∀ {i : Nat} {m : String} {v : LinkView ℝ π}, s.link_names[i]? = some m →
      s.view E m = some v → wOf E.dw v.type = 3 →
      (sliceIdx (((s.link_types.take i).map (wOf E.dw)).sum,
        ((s.link_types.take (i + 1)).map (wOf E.dw)).sum)).length = 3 := by
    intro i m v hi hv hw
    have hil : i < s.link_types.length := by
      rw [hM.wf.types_len, ← hM.wf.names_len]
      exact (List.getElem?_eq_some_iff.1 hi).1
    have ht : s.link_types.getD i "" = v.type := by
      rw [view_eq_viewAt hM.wf.toConsistent hi] at hv
      exact (viewAt_vals hv).1 |>.symm ▸ rfl
    have hget : s.link_types.getD i "" = s.link_types[i] := by simp [hil]
    unfold sliceIdx
    rw [List.length_range', List.take_add_one, List.getElem?_eq_getElem hil, List.map_append,
      List.sum_append]
    rw [ht] at hget
    simp [← hget, hw]
  have l1 := len hi1 hv1 w1
  have l2 := len hi2 hv2 w2
  refine ⟨⟨R.split st.key 3 0, d.2.1, d.2.2, q, q'⟩, fun n => if n = imu then k else kind n, ?_, ?_⟩
  · unfold randomizeImu
    rw [sliceOf_eq hM.wf.names_nodup hi1, ok_bind, sliceOf_eq hM.wf.names_nodup hi2, ok_bind]
    dsimp only
    rw [hdr, ok_bind, hd1]
    dsimp only
    rw [atSet_append _ (by rw [l1, la]) (by rw [l2, lb]), atSet_append _ (by rw [l1, la']) (by rw [l2, lb'])]
    simp only [withSprings] at hp hq hp' hq'
    rw [hp, ok_bind, hq, ok_bind, hp', ok_bind, hq', ok_bind]
    rfl
  · have qo' : ∀ n, n ≠ imu → (withSprings s q q').view E n = (withSprings s p p').view E n := qo
    have po' : ∀ n, n ≠ imu_reference_link_name imu →
        (withSprings s p p').view E n = (withSprings s st.stiffness st.damping).view E n := po
    exact {
      wf := qwf
      other := by
        intro n h1 h2
        have h1 : n ∉ done ∧ n ≠ imu := by simpa using h1
        show (withSprings s q q').view E n = _
        rw [qo' n h1.2, po' n (h2 imu (by simp)), h.other n h1.1 fun m hm => h2 m (by simp [hm])]
      socket := by
        intro n hm
        show ∃ v v', _ ∧ (withSprings s q q').view E _ = _ ∧ _
        rcases List.mem_append.1 hm with hm | hm
        · have hni : n ≠ imu := fun e => hd (e ▸ hm)
          rw [qo' (imu_reference_link_name n) (fun e => ref_not_imu n (e ▸ hi)), po' _ (fun e => hni (ref_inj e)), if_neg hni]
          exact h.socket n hm
        · have : n = imu := by simpa using hm
          subst this
          rw [if_pos rfl]
          refine ⟨v1, _, hv1, by rw [qo' _ hne.symm]; exact pv, rfl, ok1⟩
      body := by
        intro n hm
        show ∃ v v', _ ∧ (withSprings s q q').view E _ = _ ∧ _
        rcases List.mem_append.1 hm with hm | hm
        · have hni : n ≠ imu := fun e => hd (e ▸ hm)
          rw [qo' _ hni, po' _ (fun e => ref_not_imu imu (e ▸ hdone n hm)), if_neg hni]
          exact h.body n hm
        · have : n = imu := by simpa using hm
          subst this
          rw [if_pos rfl]
          refine ⟨v2, _, hv2, qv, rfl, ok2⟩
      surely := by
        intro hp n hm hs
        by_cases e : n = imu
        · subst e; simp only [if_pos]; exact k1 hp hs
        · simp only [if_neg e]
          exact h.surely hp n (by simpa [e] using hm) hs
      never := by
        intro hp n hm
        by_cases e : n = imu
        · subst e; simp only [if_pos]; exact k2 hp
        · simp only [if_neg e]
          exact h.never hp n (by simpa [e] using hm)
      same := fun ha => (k3 ha).trans (h.same ha)
      together := by
        intro ha hp n hm hs
        by_cases e : n = imu
        · subst e; simp only [if_pos]; rw [k4 ha hp hs]; exact h.same ha
        · simp only [if_neg e]
          exact h.together ha hp n (by simpa [e] using hm) hs
      triggered := by
        intro hp
        show d.2.2 = _
        rw [k5 hp, h.triggered hp, List.filter_append]
        congr 1
        by_cases e : imu ∈ o.imus_surely_rigid <;> simp [e]
      untriggered := fun hp => (k6 hp).trans (h.untriggered hp) }

theorem randomizeLoop_ok {E : Env ℝ π} {R : Rng K} (hR : R.Ok) {o : RigidOpts} {s : System ℝ π}
    (hM : Mounted E s) {is0 : Bool} : ∀ (todo : List String) {done : List String}
    (_ : ∀ n ∈ done, IsImu n) {st : RandState K} {kind : String → Bool}
    (_ : SpringStage E o s is0 done st kind) (_ : ∀ n ∈ todo, n ∈ s.link_names ∧ IsImu n)
    (_ : (done ++ todo).Nodup),
    ∃ st' kind', todo.foldlM (randomizeImu R o ((s.link_names.zipIdx).map fun x =>
        (x.1, Idx.slice ((s.link_types.take x.2).map (wOf E.dw)).sum
          ((s.link_types.take (x.2 + 1)).map (wOf E.dw)).sum))) st = .ok st' ∧
      SpringStage E o s is0 (done ++ todo) st' kind'
  | [], done, _, st, kind, h, _, _ => ⟨st, kind, rfl, by simpa using h⟩
  | imu :: todo, done, hd, st, kind, h, ht, hnd => by
    have hnot : imu ∉ done := by
      intro hm
      exact (List.nodup_append.1 hnd).2.2 imu hm imu (by simp) rfl
    have hi := ht imu (by simp)
    obtain ⟨st1, kind1, e1, h1⟩ := randomizeImu_ok hR hM hd h hi.1 hi.2 hnot
    obtain ⟨st2, kind2, e2, h2⟩ := randomizeLoop_ok hR hM todo (done := done ++ [imu])
      (by
        intro n hn
        rcases List.mem_append.1 hn with hn | hn
        · exact hd n hn
        · have : n = imu := by simpa using hn
          exact this ▸ hi.2) h1 (fun n hn => ht n (by simp [hn])) (by simpa using hnd)
    refine ⟨st2, kind2, ?_, by simpa using h2⟩
    rw [List.foldlM_cons, e1, ok_bind, e2]

theorem loop_stage {E : Env ℝ π} {R : Rng K} (hR : R.Ok) (o : RigidOpts) (key : K) {s : System ℝ π}
    (hM : Mounted E s) : ∃ st kind, s.findall_imus.foldlM (randomizeImu R o ((s.link_names.zipIdx).map fun x =>
        (x.1, Idx.slice ((s.link_types.take x.2).map (wOf E.dw)).sum
          ((s.link_types.take (x.2 + 1)).map (wOf E.dw)).sum)))
        ⟨R.split key 2 0, bernoulli R (R.split key 2 1) o.prob_rigid, [], s.link_spring_stiffness,
          s.link_damping⟩ = .ok st ∧
      SpringStage E o s (bernoulli R (R.split key 2 1) o.prob_rigid) s.findall_imus st kind := by
  have hnd : s.findall_imus.Nodup := hM.wf.names_nodup.filter _
  obtain ⟨st, kind, h1, h2⟩ := randomizeLoop_ok hR hM (o := o) s.findall_imus (done := [])
    (is0 := bernoulli R (R.split key 2 1) o.prob_rigid)
    (st := ⟨R.split key 2 0, bernoulli R (R.split key 2 1) o.prob_rigid, [], s.link_spring_stiffness,
      s.link_damping⟩) (kind := fun _ => false)
    (by simp)
    { wf := hM.wf
      other := fun _ _ _ => rfl
      socket := by simp
      body := by simp
      surely := by simp
      never := by simp
      same := fun _ => rfl
      together := by simp
      triggered := by simp
      untriggered := fun _ => rfl }
    (fun n hn => mem_imus.1 hn) (by simpa using hnd)
  exact ⟨st, kind, h1, by simpa using h2⟩

/-! ## the claim -/

/-- C71: accepted options give every IMU springs within the limits and change nothing else. -/
theorem C71_randomize {E : Env ℝ π} {R : Rng K} (hR : R.Ok) {o : RigidOpts} (key : K) {s : System ℝ π}
    (hM : Mounted E s) (ho : OptsOk o s.findall_imus) :
    ∃ r kind, setup_fn_randomize_damping_stiffness E R o key s = .ok r ∧ Randomized E o s r kind := by
  obtain ⟨st, kind, h1, h2⟩ := loop_stage hR o key hM
  obtain ⟨-, -, -, -, z⟩ := C01_sizes_and_idx_map hM.wf.known hM.wf.types_len hM.wf.names_len
  have hsub : o.imus_surely_rigid.Perm st.triggered := by
    rcases ho.lo.lt_or_eq with hp | hp
    · rw [h2.triggered hp]
      have hnd : s.findall_imus.Nodup := hM.wf.names_nodup.filter _
      rw [List.perm_ext_iff_of_nodup ho.nodup (hnd.filter _)]
      intro n
      simp only [List.mem_filter, decide_eq_true_eq]
      exact ⟨fun h => ⟨ho.known n h, h⟩, fun h => h.2⟩
    · rw [ho.none hp.symm, h2.untriggered hp.ge]
  refine ⟨withSprings s st.stiffness st.damping, kind, ?_, ?_⟩
  · unfold setup_fn_randomize_damping_stiffness
    rw [pyAssert_true ⟨ho.lo, ho.hi.le⟩, ok_bind, pyAssert_true ho.hi.ne, ok_bind]
    rw [pyAssert_true (fun e => by rw [ho.none e]; rfl), ok_bind, z, ok_bind]
    dsimp only
    rw [h1, ok_bind]
    rw [pyAssert_true hsub.length_eq, ok_bind,
      pyAssert_true (show ∀ imu ∈ o.imus_surely_rigid, imu ∈ st.triggered from fun n hn => hsub.mem_iff.1 hn),
      ok_bind]
    rfl
  · exact {
      wf := h2.wf
      rest := rfl
      other := by
        intro n hn hr
        exact h2.other n (fun hm => hn (mem_imus.1 hm).2) hr
      socket := h2.socket
      body := h2.body
      surely := by
        intro n hn hs
        rcases ho.lo.lt_or_eq with hp | hp
        · exact h2.surely hp n hn hs
        · rw [ho.none hp.symm] at hs
          cases hs
      never := fun hp => h2.never hp.le
      together := by
        intro ha m hm n hn sm sn
        rcases ho.lo.lt_or_eq with hp | hp
        · rw [h2.together ha hp m hm sm, h2.together ha hp n hn sn]
        · rw [h2.never hp.ge m hm, h2.never hp.ge n hn] }

/-- C71: all other options are refused. -/
theorem C71_refused {E : Env ℝ π} {R : Rng K} (hR : R.Ok) {o : RigidOpts} (key : K) {s : System ℝ π}
    (hM : Mounted E s) (ho : ¬ OptsOk o s.findall_imus) :
    setup_fn_randomize_damping_stiffness E R o key s = .error .assertion := by
  obtain ⟨st, kind, h1, h2⟩ := loop_stage hR o key hM
  obtain ⟨-, -, -, -, z⟩ := C01_sizes_and_idx_map hM.wf.known hM.wf.types_len hM.wf.names_len
  unfold setup_fn_randomize_damping_stiffness
  by_cases hp : 0 ≤ o.prob_rigid ∧ o.prob_rigid ≤ 1
  swap
  · rw [pyAssert_false hp]
    rfl
  rw [pyAssert_true hp, ok_bind]
  by_cases hp1 : o.prob_rigid ≠ 1
  swap
  · rw [pyAssert_false hp1]
    rfl
  rw [pyAssert_true hp1, ok_bind]
  by_cases hp0 : o.prob_rigid = 0
  · by_cases hl : o.imus_surely_rigid.length = 0
    · have := List.eq_nil_of_length_eq_zero hl
      exact absurd ⟨hp.1, lt_of_le_of_ne hp.2 hp1, fun _ => this, by simp [this], by simp [this]⟩ ho
    · rw [pyAssert_false (fun h => hl (h hp0))]
      rfl
  rw [pyAssert_true (fun e => absurd e hp0), ok_bind, z, ok_bind]
  dsimp only
  rw [h1, ok_bind]
  have hpos : 0 < o.prob_rigid := lt_of_le_of_ne hp.1 (Ne.symm hp0)
  by_cases hl : o.imus_surely_rigid.length = st.triggered.length
  swap
  · rw [pyAssert_false hl]
    rfl
  rw [pyAssert_true hl, ok_bind]
  rw [pyAssert_false]
  · rfl
  intro hall
  apply ho
  have htr := h2.triggered hpos
  refine ⟨hp.1, lt_of_le_of_ne hp.2 hp1, fun e => absurd e hp0, ?_, ?_⟩
  · have hn0 : s.findall_imus.Nodup := hM.wf.names_nodup.filter _
    have hnd : st.triggered.Nodup := by rw [htr]; exact hn0.filter _
    have hsub : st.triggered ⊆ o.imus_surely_rigid := by
      rw [htr]
      intro n hn
      simpa using (List.mem_filter.1 hn).2
    exact ((List.subperm_of_subset hnd hsub).perm_of_length_le hl.le).nodup hnd
  · intro n hn
    have := hall n hn
    rw [htr] at this
    exact (List.mem_filter.1 this).1

/-- Injected bodies are mounted. -/
theorem Injected.mounted {E : Env ℝ π} {A : Artifacts ℝ} {s r : System ℝ π} (hs : s.WF E)
    (hp : wOf E.dw "p3d" = 3) (hq : wOf E.dw "spherical" = 3) (h : Injected E A s r) : Mounted E r where
  wf := h.wf
  pair := by
    intro n hn hi
    have hn' : n ∈ s.findall_imus := (h.imus n).1 (mem_imus.2 ⟨hn, hi⟩)
    obtain ⟨i, v, -, -, hv⟩ := view_of_mem hs.toConsistent (mem_imus.1 hn').1
    obtain ⟨v1, h1, e1⟩ := h.socket n v hv hi
    obtain ⟨v2, h2, e2⟩ := h.body n v hv hi
    refine ⟨view_mem h1, ?_⟩
    rintro m w (rfl | rfl) hw
    · rw [h2] at hw
      cases hw
      rw [e2]
      exact hp
    · rw [h1] at hw
      cases hw
      rw [e1]
      exact hq

/-! ## examples -/

/-- a hinge with an IMU below it, its bodies already injected -/
noncomputable def springSys : System ℝ Unit where
  link_parents := [-1, 0, 1]
  links := [kinRow 0, kinRow 1, kinRow 2]
  joint_params := [("default", [(), (), ()])]
  link_types := ["rx", "spherical", "p3d"]
  link_damping := List.replicate 7 1
  link_armature := List.replicate 7 1
  link_spring_stiffness := List.replicate 7 1
  link_spring_zeropoint := [0, 1, 0, 0, 0, 0, 0, 0]
  dt := 1 / 100
  geoms := kinGeoms
  gravity := ⟨0, 0, 981 / 100⟩
  integration_method := "semi_implicit_euler"
  mass_mat_iters := 0
  link_names := ["seg", "_imu1", "imu1"]
  model_name := some "m"
  omc := [none, none, none]

theorem springSys_widths : springSys.link_types.map (wOf stdEnv.qw) = [1, 4, 3] ∧
    springSys.link_types.map (wOf stdEnv.dw) = [1, 3, 3] := by
  refine ⟨?_, ?_⟩ <;> decide

theorem springSys_wf : springSys.WF stdEnv.toEnv where
  types_len := rfl
  links_len := rfl
  omc_len := rfl
  names_len := rfl
  names_nodup := by show ["seg", "_imu1", "imu1"].Nodup; decide
  pos_ok := by
    intro l hl
    have : ∃ i, l = kinRow i := by
      simp [springSys] at hl
      rcases hl with rfl | rfl | rfl <;> exact ⟨_, rfl⟩
    obtain ⟨i, rfl⟩ := this
    simp [stdEnv, kinRow]
  geoms_ok := by simp [springSys, kinGeoms]
  known := by
    intro t ht
    simp [springSys] at ht
    rcases ht with rfl | rfl | rfl <;> constructor <;> decide
  damping_len := by rw [springSys_widths.2]; simp [springSys]
  armature_len := by rw [springSys_widths.2]; simp [springSys]
  stiffness_len := by rw [springSys_widths.2]; simp [springSys]
  zeropoint_len := by rw [springSys_widths.1]; simp [springSys]
  unit_zero := by
    intro i hi
    have : i < 3 := hi
    match i, this with
    | 0, _ =>
      intro h
      have h : joint_type_is_free_or_cor_or_spherical "rx" = true := h
      exact absurd h (by decide)
    | 1, _ =>
      intro _
      have h1 : wOf stdEnv.qw "rx" = 1 := by decide
      have h2 : wOf stdEnv.qw "spherical" = 4 := by decide
      have e : ownSlice stdEnv.qw springSys.link_types springSys.link_spring_zeropoint 1 =
          [1, 0, 0, 0] := by simp [springSys, ownSlice, h1, h2]
      rw [e]
      simp [stdEnv]
    | 2, _ =>
      intro h
      have h : joint_type_is_free_or_cor_or_spherical "p3d" = true := h
      exact absurd h (by decide)
  topo := by
    intro i hi
    have : i < 3 := hi
    match i, this with
    | 0, _ => simp [springSys]
    | 1, _ => simp [springSys]
    | 2, _ => simp [springSys]
  jp_keys := by simp [springSys]
  jp_len := by simp [springSys]
  inertia_ok := by
    intro i hi
    have : i < 3 := hi
    match i, this with
    | 0, _ => rfl
    | 1, _ => rfl
    | 2, _ => rfl
  geoms_sorted := by simp [springSys, kinGeoms]

theorem springSys_mounted : Mounted stdEnv.toEnv springSys where
  wf := springSys_wf
  pair := by
    intro n hn hi
    have hn : n ∈ ["seg", "_imu1", "imu1"] := hn
    simp only [List.mem_cons, List.not_mem_nil, or_false] at hn
    have : n = "imu1" := by
      rcases hn with rfl | rfl | rfl
      · exact absurd hi (by decide)
      · exact absurd hi (by decide)
      · rfl
    subst this
    refine ⟨by show "_imu1" ∈ ["seg", "_imu1", "imu1"]; decide, ?_⟩
    rintro m v (rfl | rfl) hv
    · rw [view_eq_viewAt springSys_wf.toConsistent (i := 2) rfl] at hv
      rw [(viewAt_vals hv).1]
      show wOf stdEnv.dw "p3d" = 3
      decide
    · rw [view_eq_viewAt springSys_wf.toConsistent (m := imu_reference_link_name "imu1") (i := 1) rfl] at hv
      rw [(viewAt_vals hv).1]
      show wOf stdEnv.dw "spherical" = 3
      decide

/-- half of the IMUs rigid, `imu1` surely -/
example : ∃ r kind, setup_fn_randomize_damping_stiffness stdEnv.toEnv (constRng 0 true)
      ⟨1 / 2, true, ["imu1"]⟩ () springSys = .ok r ∧
    Randomized stdEnv.toEnv ⟨1 / 2, true, ["imu1"]⟩ springSys r kind :=
  C71_randomize (constRng_ok 0 true (by norm_num) (by norm_num)) () springSys_mounted
    ⟨by norm_num, by norm_num, by norm_num, by simp, by
      intro n hn
      have : n = "imu1" := by simpa using hn
      subst this
      show "imu1" ∈ (["seg", "_imu1", "imu1"].filter _)
      decide⟩

/-- `imu2` does not exist -/
example : setup_fn_randomize_damping_stiffness stdEnv.toEnv (constRng 0 true)
      ⟨1 / 2, true, ["imu2"]⟩ () springSys = .error .assertion :=
  C71_refused (constRng_ok 0 true (by norm_num) (by norm_num)) () springSys_mounted fun h => by
    have := h.known "imu2" (by simp)
    revert this
    show ¬ "imu2" ∈ (["seg", "_imu1", "imu1"].filter _)
    decide

end artifacts
end RingLib
