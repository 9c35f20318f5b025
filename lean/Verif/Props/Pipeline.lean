import Verif.Props.ImuData
import Verif.Props.JointAxes

/-!
# C45: all parts of `X` and `y` together
-/

namespace RingLib

namespace Dict
variable {β : Type}

theorem keys_set_nodup {d : Dict β} (hd : d.keys.Nodup) (k : String) (v : β) :
    (d.set k v).keys.Nodup := by
  rw [keys_set]
  split
  · exact hd
  · rename_i hk
    rw [List.nodup_append]
    refine ⟨hd, by simp, ?_⟩
    intro x hx y hy
    simp only [List.mem_singleton] at hy
    subst hy
    rintro rfl
    exact hk hx

theorem keys_update_nodup : ∀ (e : Dict β) {d : Dict β}, d.keys.Nodup → (d.update e).keys.Nodup := by
  intro e
  induction e with
  | nil => intro d hd; exact hd
  | cons a e ih => intro d hd; exact ih (keys_set_nodup hd _ _)

theorem lookup_mapVals {γ : Type} (f : β → γ) (d : Dict β) (k : String) :
    List.lookup k (d.map fun x => (x.1, f x.2)) = (List.lookup k d).map f := by
  induction d with
  | nil => rfl
  | cons a d ih =>
    obtain ⟨a1, a2⟩ := a
    rw [List.map_cons, lookup_if, lookup_if, ih]
    split <;> rfl

theorem keys_mapVals {γ : Type} (f : β → γ) (d : Dict β) :
    keys (d.map fun x => (x.1, f x.2)) = keys d := by
  unfold keys
  rw [List.map_map]
  rfl

end Dict

namespace utils
open System Dict
variable {β : Type}

/-- the union of dictionaries that do not collide -/
theorem union_ok {d1 d2 : Dict (Entry β)} (h1 : KeysDistinct d1) (h2 : KeysDistinct d2)
    (hno : ∀ k ∈ d1.keys, k ∈ d2.keys → ∃ n1 n2, List.lookup k d1 = some (.dict n1) ∧
      List.lookup k d2 = some (.dict n2) ∧ ∀ k' ∈ n1.keys, k' ∉ n2.keys) :
    ∃ d, dict_union d1 d2 = .ok d ∧ KeysDistinct d ∧ (∀ p v, At d p v ↔ At d1 p v ∨ At d2 p v) ∧
      (∀ k, k ∈ d.keys ↔ k ∈ d1.keys ∨ k ∈ d2.keys) ∧
      ∀ k, List.lookup k d = merged (List.lookup k d1) (List.lookup k d2) := by
  rcases hd : dict_union d1 d2 with e | d
  · exfalso
    rcases (C48_error h2).1 ⟨e, hd⟩ with ⟨k, k1, k2, hk⟩ | ⟨-, k, k', v, w, a1, a2⟩
    · obtain ⟨n1, n2, e1, e2, -⟩ := hno k k1 k2
      rcases hk with ⟨v, hv⟩ | ⟨v, hv⟩
      · rw [at_leaf, e1] at hv; cases hv
      · rw [at_leaf, e2] at hv; cases hv
    · rw [at_nested] at a1 a2
      obtain ⟨m1, b1, b2⟩ := a1
      obtain ⟨m2, c1, c2⟩ := a2
      obtain ⟨n1, n2, e1, e2, hn⟩ := hno k ((lookup_isSome _ _).2 ⟨_, b1⟩)
        ((lookup_isSome _ _).2 ⟨_, c1⟩)
      rw [e1] at b1
      rw [e2] at c1
      cases b1
      cases c1
      exact hn k' ((lookup_isSome _ _).2 ⟨_, b2⟩) ((lookup_isSome _ _).2 ⟨_, c2⟩)
  · obtain ⟨-, hk, hnd⟩ := C48_union h1 h2 hd
    obtain ⟨-, hl⟩ := (union_fold false d2 d1 h2.1).2 d hd
    refine ⟨d, rfl, ⟨hnd, ?_⟩, C48_no_overwrite h1 h2 hd, ?_, hl⟩
    · intro k n hn
      have := lookup_of_mem hnd hn
      rw [hl] at this
      rcases e1 : List.lookup k d1 with _ | (v1 | n1) <;> rcases e2 : List.lookup k d2 with _ | (v2 | n2)
        <;> rw [e1, e2] at this <;> simp only [merged] at this <;> try cases this
      · exact h2.2 _ _ (Dict.lookup_mem e2)
      · exact h1.2 _ _ (Dict.lookup_mem e1)
      · exact h1.2 _ _ (Dict.lookup_mem e1)
      · exact keys_update_nodup _ (h1.2 _ _ (Dict.lookup_mem e1))
    · intro k
      rw [hk, List.mem_append, List.mem_filter]
      by_cases hk1 : k ∈ d1.keys <;> simp [hk1]

end utils

namespace generator
open System sensors maths utils Dict
variable {π K : Type}

/-! ## the parts as dictionaries of arrays -/

theorem at_quatData {d : Dict (List (Quat ℝ))} {p : List String} {v : Arr} :
    At (quatData d) p v ↔ ∃ n u, p = [n] ∧ v = .quat u ∧ List.lookup n d = some u := by
  have hl : ∀ k, List.lookup k (quatData d) = (List.lookup k d).map fun u => .leaf (.quat u) :=
    fun k => lookup_mapVals (fun u => Entry.leaf (Arr.quat u)) d k
  constructor
  · intro h
    cases h with
    | leaf h =>
      rename_i k
      rw [hl] at h
      obtain ⟨u, h1, h2⟩ := Option.map_eq_some_iff.1 h
      exact ⟨k, u, rfl, by cases h2; rfl, h1⟩
    | nested h h' =>
      rw [hl] at h
      obtain ⟨u, h1, h2⟩ := Option.map_eq_some_iff.1 h
      cases h2
  · rintro ⟨n, u, rfl, rfl, h⟩
    exact at_leaf.2 (by rw [hl, h]; rfl)

theorem quatData_distinct {d : Dict (List (Quat ℝ))} (h : d.keys.Nodup) :
    KeysDistinct (quatData d) ∧ (quatData d).keys = d.keys := by
  have e : (quatData d).keys = d.keys := keys_mapVals (fun u => Entry.leaf (Arr.quat u)) d
  refine ⟨⟨by rw [e]; exact h, ?_⟩, e⟩
  intro k n hn
  unfold quatData at hn
  rw [List.mem_map] at hn
  obtain ⟨x, -, hx⟩ := hn
  cases (Prod.mk.inj hx).2

theorem axesData_lookup (d : Dict (List (Vec3 ℝ))) (k : String) : List.lookup k (axesData d) =
    (List.lookup k d).map fun u => .dict [("joint_axes", .vec u)] :=
  lookup_mapVals (fun u => Entry.dict [("joint_axes", Arr.vec u)]) d k

theorem axesData_keys (d : Dict (List (Vec3 ℝ))) : (axesData d).keys = d.keys :=
  keys_mapVals (fun u => Entry.dict [("joint_axes", Arr.vec u)]) d

theorem at_axesData {d : Dict (List (Vec3 ℝ))} {p : List String} {v : Arr} :
    At (axesData d) p v ↔ ∃ n u, p = [n, "joint_axes"] ∧ v = .vec u ∧ List.lookup n d = some u := by
  constructor
  · intro h
    cases h with
    | leaf h =>
      rw [axesData_lookup] at h
      obtain ⟨u, h1, h2⟩ := Option.map_eq_some_iff.1 h
      cases h2
    | nested h h' =>
      rename_i k k' n
      rw [axesData_lookup] at h
      obtain ⟨u, h1, h2⟩ := Option.map_eq_some_iff.1 h
      cases h2
      rw [lookup_if] at h'
      split at h'
      · rename_i hk
        subst hk
        cases h'
        exact ⟨k, u, rfl, rfl, h1⟩
      · cases h'
  · rintro ⟨n, u, rfl, rfl, h⟩
    exact at_nested.2 ⟨[("joint_axes", .vec u)], by rw [axesData_lookup, h]; rfl, rfl⟩

theorem axesData_distinct {d : Dict (List (Vec3 ℝ))} (h : d.keys.Nodup) :
    KeysDistinct (axesData d) := by
  refine ⟨by rw [axesData_keys]; exact h, ?_⟩
  intro k n hn
  unfold axesData at hn
  rw [List.mem_map] at hn
  obtain ⟨x, -, hx⟩ := hn
  cases (Prod.mk.inj hx).2
  simp [keys]

theorem imuDataEntry_lookup (d : Dict (Dict (List (Vec3 ℝ)))) (k : String) :
    List.lookup k (imuDataEntry d) =
      (List.lookup k d).map fun u => .dict (u.map fun y => (y.1, .vec y.2)) :=
  lookup_mapVals (fun u : Dict (List (Vec3 ℝ)) => Entry.dict (u.map fun y : String × List (Vec3 ℝ) => (y.1, Arr.vec y.2))) d k

theorem imuDataEntry_keys (d : Dict (Dict (List (Vec3 ℝ)))) : (imuDataEntry d).keys = d.keys :=
  keys_mapVals (fun u : Dict (List (Vec3 ℝ)) => Entry.dict (u.map fun y : String × List (Vec3 ℝ) => (y.1, Arr.vec y.2))) d

theorem at_imuDataEntry {d : Dict (Dict (List (Vec3 ℝ)))} {p : List String} {v : Arr} :
    At (imuDataEntry d) p v ↔ ∃ n ch m u, p = [n, ch] ∧ v = .vec u ∧ List.lookup n d = some m ∧
      List.lookup ch m = some u := by
  constructor
  · intro h
    cases h with
    | leaf h =>
      rw [imuDataEntry_lookup] at h
      obtain ⟨u, h1, h2⟩ := Option.map_eq_some_iff.1 h
      cases h2
    | nested h h' =>
      rename_i k k' n
      rw [imuDataEntry_lookup] at h
      obtain ⟨m, h1, h2⟩ := Option.map_eq_some_iff.1 h
      cases h2
      rw [lookup_mapVals (fun u => Arr.vec u)] at h'
      obtain ⟨u, g1, g2⟩ := Option.map_eq_some_iff.1 h'
      exact ⟨k, k', m, u, rfl, g2.symm, h1, g1⟩
  · rintro ⟨n, ch, m, u, rfl, rfl, h1, h2⟩
    exact at_nested.2 ⟨_, by rw [imuDataEntry_lookup, h1]; rfl,
      by rw [lookup_mapVals (fun u => Arr.vec u), h2]; rfl⟩

theorem imuDataEntry_distinct {d : Dict (Dict (List (Vec3 ℝ)))} (h : d.keys.Nodup)
    (h' : ∀ n m, List.lookup n d = some m → m.keys.Nodup) : KeysDistinct (imuDataEntry d) := by
  refine ⟨by rw [imuDataEntry_keys]; exact h, ?_⟩
  intro k n hn
  have hnd : (imuDataEntry d).keys.Nodup := by rw [imuDataEntry_keys]; exact h
  have := lookup_of_mem hnd hn
  rw [imuDataEntry_lookup] at this
  obtain ⟨m, h1, h2⟩ := Option.map_eq_some_iff.1 this
  cases h2
  rw [keys_mapVals (fun u => Arr.vec u)]
  exact h' k m h1

theorem segmentData_keys {R : Rng K} {key : K} {xs : List (List (Transform ℝ))} {sx : System ℝ π}
    {a : ImuArgs K} {x : Option String} {j : Nat} {d : Dict (List (Vec3 ℝ))}
    (h : SegmentData R key xs sx a x j d) : d.keys.Nodup ∧ "joint_axes" ∉ d.keys := by
  cases x with
  | none =>
    cases h
    simp [keys]
  | some x =>
    obtain ⟨ts, -, -, hc, -⟩ := h
    have : d.keys = imuChannels a := hc
    rw [this]
    unfold imuChannels
    split <;> simp

/-! ## the pipeline -/

theorem sysNoImu_ok {E : JEnv ℝ π} {s : System ℝ π} (h : s.WF E.toEnv) (hi : ImusOnLinks s)
    {p : FinalizeOpts K π}
    (hp : p.add_X_jointaxes.isSome ∨ p.add_y_relpose = true ∨ p.add_y_rootincl.isSome) :
    ∃ s', sysNoImu E s p = .ok (some s') ∧ s.Removed E.toEnv (BelowImu s) s' := by
  unfold sysNoImu
  rw [if_pos hp]
  by_cases h0 : s.findall_imus.length > 0
  · rw [if_pos h0]
    obtain ⟨s', par, e, -, hr⟩ := C03_make_sys_noimu h hi
    exact ⟨s', by rw [e]; rfl, hr⟩
  · rw [if_neg h0]
    refine ⟨s, rfl, removed_none h ?_⟩
    rintro m hm ⟨x, hx, hd⟩
    have := mem_findall_imus.2 ⟨(isDesc_mem hd).1, hx⟩
    have := List.length_pos_of_mem this
    omega

/-- all parts switched on -/
def allParts (a : ImuArgs K) (o : AxesArgs) (full c : Bool) : FinalizeOpts K π where
  add_X_imus := some a
  add_X_jointaxes := some o
  add_y_relpose := true
  add_y_rootincl := if full then none else some c
  add_y_rootfull := if full then some c else none

/-- C45: with all parts switched on, `X` holds what it held before (the sampling interval), the
measurements of the IMUs under the names of the segments and the joint axes, and nothing else; `y`
holds exactly one orientation per link that is not an IMU: relative to the parent if there is one, else
that (of the inclination) of the link. Nothing is overwritten. -/
theorem C45_pipeline {E : JEnv ℝ π} {axesOf : π → Py (Vec3 ℝ)} {sml sx : System ℝ π}
    (hml : sml.WF E.toEnv) (himl : ImusOnLinks sml) (hx : sx.WF E.toEnv) (hix : ImusOnLinks sx)
    (hpos : ∃ n ∈ sml.link_names, ¬ BelowImu sml n)
    (hsub : ∀ n ∈ sml.link_names, ¬ BelowImu sml n → n ∈ sx.link_names)
    (R : Rng K) (hR : R.Ok) (key : K) (q : List (List ℝ)) {xs : List (List (Transform ℝ))}
    (hl : PosesOf sx xs) {a : ImuArgs K} (ha : ImuArgsOk a xs.length) (o : AxesArgs)
    (hax : o.from_sys = true → ∀ s, sml.Removed E.toEnv (BelowImu sml) s →
      ∀ i < s.link_parents.length, ∃ v, SysAxis axesOf s i v)
    (full c : Bool) {X0 : Data} (hX0 : KeysDistinct X0) (hX0' : ∀ k ∈ X0.keys, k ∉ sx.link_names) :
    ∃ s Xi Xa yr yo X y key',
      sml.Removed E.toEnv (BelowImu sml) s ∧
      _imu_data E R (R.split key 2 1) xs sx a = .ok Xi ∧
      joint_axes E R axesOf s xs sx (some (R.split (R.split key 2 0) 2 1)) o = .ok Xa ∧
      rel_pose E s xs sx = .ok yr ∧
      (if full then root_full E s xs sx c else root_incl E s xs sx c) = .ok yo ∧
      _finalize_fn E R axesOf sml (allParts a o full c) ((X0, []), ⟨key, q, xs, sx⟩) = .ok ((X, y), ⟨key', q, xs, sx⟩) ∧
      (∀ p v, At X p v ↔ At X0 p v ∨
        (∃ n ch m u, p = [n, ch] ∧ v = .vec u ∧ List.lookup n Xi = some m ∧
          List.lookup ch m = some u) ∨
        ∃ n u, p = [n, "joint_axes"] ∧ v = .vec u ∧ List.lookup n Xa = some u) ∧
      (∀ p v, At y p v ↔ ∃ n u, p = [n] ∧ v = .quat u ∧
        (List.lookup n yr = some u ∨ List.lookup n yo = some u)) ∧
      X.keys.Nodup ∧ (∀ n, n ∈ X.keys ↔ n ∈ X0.keys ∨
        (n ∈ sx.link_names ∧ ¬ BelowImu sx n) ∨ (n ∈ sml.link_names ∧ ¬ BelowImu sml n)) ∧
      y.keys.Nodup ∧ (∀ n, n ∈ y.keys ↔ n ∈ sml.link_names ∧ ¬ BelowImu sml n) := by
  obtain ⟨s, es, hr⟩ := sysNoImu_ok hml himl 
    (p := (allParts a o full c : FinalizeOpts K π)) (Or.inl rfl)
  have hsub' : ∀ n ∈ s.link_names, n ∈ sx.link_names := fun n hn =>
    hsub n ((hr.mem n).1 hn).1 ((hr.mem n).1 hn).2
  have hc := hr.wf.toConsistent
  have hcx := hx.toConsistent
  have hnum : 0 < s.num_links := by
    obtain ⟨n, h1, h2⟩ := hpos
    have := List.length_pos_of_mem ((hr.mem n).2 ⟨h1, h2⟩)
    rw [hc.names_len] at this
    exact this
  obtain ⟨Xi, i1, i2, i3⟩ := C45_imu hx hix R hR (R.split key 2 1) hl ha
  have hXi : ∀ n m, List.lookup n Xi = some m → m.keys.Nodup ∧ "joint_axes" ∉ m.keys := by
    intro n m hn
    obtain ⟨p, q, hpq⟩ := List.append_of_mem ((lookup_isSome _ _).2 ⟨_, hn⟩)
    obtain ⟨d, x, e1, -, e3⟩ := i3 p n q hpq
    rw [hn] at e1
    cases e1
    exact segmentData_keys e3
  obtain ⟨Xa, a1, a2, -, -⟩ := C45_joint_axes hc hnum hr.wf.topo hcx hl hsub' R
    (some (R.split (R.split key 2 0) 2 1)) o (fun _ => rfl) (fun h => hax h s hr)
  obtain ⟨yr, r1, r2, r3, -⟩ := C45_rel_pose hc hr.wf.topo hcx hl hsub'
  have hyo : ∃ yo, (if full then root_full E s xs sx c else root_incl E s xs sx c) = .ok yo ∧
      yo.keys.Nodup ∧ ∀ n, n ∈ yo.keys ↔ IsRoot s n := by
    cases full with
    | true =>
      obtain ⟨yo, o1, o2, o3, -⟩ := C45_root_full hc hcx hl hsub' c
      exact ⟨yo, by simpa using o1, o2, o3⟩
    | false =>
      obtain ⟨yo, o1, o2, o3, -⟩ := C45_root_incl hc hcx hl hsub' c
      exact ⟨yo, by simpa using o1, o2, o3⟩
  obtain ⟨yo, o1, o2, o3⟩ := hyo
  have hmem : ∀ n, n ∈ s.link_names ↔ n ∈ sml.link_names ∧ ¬ BelowImu sml n := hr.mem
  have hXik : ∀ n, n ∈ Xi.keys ↔ n ∈ sx.link_names ∧ ¬ BelowImu sx n := by
    intro n
    rw [i2, List.mem_filter]
    simp
  have hXin : Xi.keys.Nodup := by rw [i2]; exact hx.names_nodup.filter _
  -- X0 ∪ Xi
  obtain ⟨X1, u1, u2, u3, u4, u5⟩ := union_ok hX0 (imuDataEntry_distinct hXin fun n m h => (hXi n m h).1)
    (by
      intro k hk hk'
      rw [imuDataEntry_keys, hXik] at hk'
      exact absurd hk'.1 (hX0' k hk))
  -- … ∪ Xa
  have hXan : Xa.keys.Nodup := by rw [a2]; exact hc.names_nodup
  obtain ⟨X, v1, v2, v3, v4, -⟩ := union_ok u2 (axesData_distinct hXan)
    (by
      intro k hk hk'
      rw [axesData_keys, a2] at hk'
      have hkx := hsub' k hk'
      rw [u4, imuDataEntry_keys] at hk
      rcases hk with hk | hk
      · exact absurd hkx (hX0' k hk)
      · have hk0 : k ∉ X0.keys := fun h => hX0' k h hkx
        obtain ⟨m, hm⟩ := (lookup_isSome _ _).1 hk
        rw [← a2] at hk'
        obtain ⟨u, hu⟩ := (lookup_isSome _ _).1 hk'
        refine ⟨m.map fun y => (y.1, .vec y.2), [("joint_axes", .vec u)], ?_, ?_, ?_⟩
        · rw [u5, (lookup_eq_none _ _).2 hk0, imuDataEntry_lookup, hm]
          rfl
        · rw [axesData_lookup, hu]
          rfl
        · intro k' h1 h2
          rw [keys_mapVals (fun u => Arr.vec u)] at h1
          simp only [keys, List.map_cons, List.map_nil, List.mem_singleton] at h2
          subst h2
          exact (hXi k m hm).2 h1)
  -- y
  obtain ⟨q1, q2⟩ := quatData_distinct r2
  obtain ⟨q3, q4⟩ := quatData_distinct o2
  have hnil : KeysDistinct ([] : Data) := ⟨by simp [keys], by simp⟩
  obtain ⟨y1, w1, w2, w3, w4, -⟩ := union_ok hnil q1 (by simp [keys])
  obtain ⟨y, z1, z2, z3, z4, -⟩ := union_ok w2 q3 (by
    intro k hk hk'
    rw [w4, q2] at hk
    rw [q4, o3] at hk'
    rcases hk with hk | hk
    · simp [keys] at hk
    · exact absurd hk' ((r3 k).1 hk).2)
  refine ⟨s, Xi, Xa, yr, yo, X, y, R.split (R.split key 2 0) 2 0, hr, i1, a1, r1, o1, ?_, ?_, ?_, v2.1,
    ?_, z2.1, ?_⟩
  · unfold _finalize_fn
    rw [es, ok_bind]
    have hpipe : finalizePipe E R axesOf (some s) (allParts a o full c : FinalizeOpts K π) =
        .ok [IMU E R a, JointAxisSensor E R axesOf s o, RelPose E s,
          if full then RootFull E s c else RootIncl E s c] := by
      cases full <;> rfl
    rw [hpipe, ok_bind]
    simp only [List.foldlM_cons, List.foldlM_nil]
    have t1 : IMU E R a ((X0, []), ⟨key, q, xs, sx⟩) =
        .ok ((X1, []), ⟨R.split key 2 0, q, xs, sx⟩) := by
      unfold IMU
      dsimp only
      rw [i1, ok_bind, u1, ok_bind]
      rfl
    have t2 : JointAxisSensor E R axesOf s o ((X1, []), ⟨R.split key 2 0, q, xs, sx⟩) =
        .ok ((X, []), ⟨R.split (R.split key 2 0) 2 0, q, xs, sx⟩) := by
      unfold JointAxisSensor
      dsimp only
      rw [a1, ok_bind, v1, ok_bind]
      rfl
    have t3 : RelPose E s ((X, []), ⟨R.split (R.split key 2 0) 2 0, q, xs, sx⟩) =
        .ok ((X, y1), ⟨R.split (R.split key 2 0) 2 0, q, xs, sx⟩) := by
      unfold RelPose
      dsimp only
      rw [r1, ok_bind, w1, ok_bind]
      rfl
    have t4 : (if full then RootFull E s c else RootIncl E s c)
        ((X, y1), ⟨R.split (R.split key 2 0) 2 0, q, xs, sx⟩) =
        .ok ((X, y), ⟨R.split (R.split key 2 0) 2 0, q, xs, sx⟩) := by
      cases full with
      | true =>
        simp only [if_true] at o1 ⊢
        unfold RootFull
        dsimp only
        rw [o1, ok_bind, z1, ok_bind]
        rfl
      | false =>
        simp only [Bool.false_eq_true, if_false] at o1 ⊢
        unfold RootIncl
        dsimp only
        rw [o1, ok_bind, z1, ok_bind]
        rfl
    rw [t1, ok_bind, t2, ok_bind, t3, ok_bind, t4]
    rfl
  · intro p v
    rw [v3, u3, at_imuDataEntry, at_axesData, or_assoc]
  · intro p v
    rw [z3, w3, at_quatData, at_quatData]
    constructor
    · rintro ((h | ⟨n, u, h1, h2, h3⟩) | ⟨n, u, h1, h2, h3⟩)
      · cases h with
        | leaf h => cases h
        | nested h _ => cases h
      · exact ⟨n, u, h1, h2, Or.inl h3⟩
      · exact ⟨n, u, h1, h2, Or.inr h3⟩
    · rintro ⟨n, u, h1, h2, h3 | h3⟩
      · exact Or.inl (Or.inr ⟨n, u, h1, h2, h3⟩)
      · exact Or.inr ⟨n, u, h1, h2, h3⟩
  · intro n
    rw [v4, u4, imuDataEntry_keys, axesData_keys, a2, hXik, hmem, or_assoc]
  · intro n
    rw [z4, w4, q2, q4, r3, o3, ← hmem]
    constructor
    · rintro ((h | h) | ⟨i, h, -⟩)
      · simp [keys] at h
      · exact h.1
      · exact List.mem_of_getElem? h
    · intro h
      by_cases hroot : IsRoot s n
      · exact Or.inr hroot
      · exact Or.inl (Or.inr ⟨h, hroot⟩)

/-- C45 fails for the whole orientation of the roots alone: without joint axes, relative poses or
inclination the system without IMUs is not there, and building the targets raises always. The same
holds for links by number. -/
theorem C45_rootfull_fails (E : JEnv ℝ π) (R : Rng K) (axesOf : π → Py (Vec3 ℝ)) (sml : System ℝ π)
    (p : FinalizeOpts K π) (h1 : p.add_X_jointaxes = none) (h2 : p.add_y_relpose = false)
    (h3 : p.add_y_rootincl = none) (h4 : p.add_y_rootfull.isSome ∨ p.use_link_number_in_Xy = true)
    (o : Out K π) : _finalize_fn E R axesOf sml p o = .error .other := by
  have e : sysNoImu E sml p = .ok none := by
    unfold sysNoImu
    rw [h1, h2, h3]
    simp
  unfold _finalize_fn
  rw [e, ok_bind]
  have : finalizePipe E R axesOf none p = .error .other := by
    unfold finalizePipe axesStage relStage inclStage fullStage numberStage
    rw [h1, h2, h3]
    simp only [ok_bind, Bool.false_eq_true, if_false]
    rcases h5 : p.add_y_rootfull with _ | c
    · rcases h4 with h | h
      · rw [h5] at h; cases h
      · rw [h]; rfl
    · rfl
  rw [this]
  rfl

/-! ## a system with an IMU -/

/-- the fourth link is an IMU, it sits on the second -/
noncomputable def imuSys : System ℝ Unit := { kinSys with link_names := ["a", "b", "c", "imu"] }

theorem imuSys_consistent : imuSys.Consistent stdEnv.toEnv :=
  { kinSys_consistent with
    names_len := rfl
    names_nodup := by show ["a", "b", "c", "imu"].Nodup; decide }

theorem imuSys_wf : imuSys.WF stdEnv.toEnv :=
  { kinSys_wf with toConsistent := imuSys_consistent }

theorem imuSys_name {i : Nat} (h : imuSys.link_names[i]? = some "imu") : i = 3 := by
  match i, h with
  | 0, h => simp [imuSys] at h
  | 1, h => simp [imuSys] at h
  | 2, h => simp [imuSys] at h
  | 3, _ => rfl
  | n + 4, h => simp [imuSys] at h

theorem imuSys_imu {x : String} (hx : x ∈ imuSys.link_names) (h : IsImu x) : x = "imu" := by
  simp [imuSys] at hx
  rcases hx with rfl | rfl | rfl | rfl
  · exact absurd h (by unfold IsImu; decide)
  · exact absurd h (by unfold IsImu; decide)
  · exact absurd h (by unfold IsImu; decide)
  · rfl

theorem imuSys_below {n : String} : BelowImu imuSys n ↔ n = "imu" := by
  constructor
  · rintro ⟨x, hx, hd⟩
    have hxi := imuSys_imu (isDesc_mem hd).1 hx
    subst hxi
    obtain ⟨k, i, h1, h2, h3⟩ := hd
    have hk := imuSys_name h1
    subst hk
    have hle := h3.le imuSys_wf.topo
    have hi : i < 4 := (List.getElem?_eq_some_iff.1 h2).1
    obtain rfl : i = 3 := by omega
    simpa [imuSys] using h2.symm
  · rintro rfl
    exact ⟨"imu", by unfold IsImu; decide, 3, 3, rfl, rfl, .self⟩

theorem imuSys_onLinks : ImusOnLinks imuSys where
  parent := by
    intro x hx h
    obtain rfl := imuSys_imu hx h
    exact ⟨"b", 3, 1, rfl, rfl, rfl⟩
  apart := by
    intro x y hx hy hd
    rw [imuSys_imu (isDesc_mem hd).1 hx, imuSys_imu (isDesc_mem hd).2 hy]

/-- the IMU sits on `b` -/
example : ImuOf imuSys "b" "imu" :=
  ⟨["a", "b", "c"], [], rfl, by unfold IsImu; decide, ⟨3, 1, rfl, rfl, rfl⟩, by simp⟩

example : ∃ (s' : System ℝ Unit) (par : String → String), make_sys_noimu stdEnv.toEnv imuSys =
    .ok (s', imuSys.findall_imus.map fun x => (x, par x)) ∧ par "imu" = "b" ∧
    ∀ n, n ∈ s'.link_names ↔ n = "a" ∨ n = "b" ∨ n = "c" := by
  obtain ⟨s', par, h1, h2, h3⟩ := C03_make_sys_noimu imuSys_wf imuSys_onLinks
  refine ⟨s', par, h1, ?_, ?_⟩
  · exact isParent_unique imuSys_wf.names_nodup
      (h2 "imu" (mem_findall_imus.2 ⟨by simp [imuSys], by unfold IsImu; decide⟩))
      ⟨3, 1, rfl, rfl, rfl⟩
  · intro n
    rw [h3.mem, imuSys_below]
    constructor
    · rintro ⟨a, b⟩
      simp [imuSys] at a
      tauto
    · rintro (rfl | rfl | rfl) <;> simp [imuSys]

/-- everything at rest, five samples -/
noncomputable def restPoses : List (List (Transform ℝ)) :=
  List.replicate 5 (List.replicate 4 ⟨0, ⟨1, 0, 0, 0⟩⟩)

theorem restPoses_of (s : System ℝ Unit) (h : s.num_links = 4) : PosesOf s restPoses := by
  intro row hrow
  rw [List.eq_of_mem_replicate hrow, List.length_replicate, h]

/-- the hypotheses of `C45_pipeline` can be met; two of its consequences -/
example : ∃ X y e, _finalize_fn stdEnv (constRng 0 true) (fun _ => .ok ⟨1, 0, 0⟩) imuSys
      (allParts { acc_xinyuyi_n := 1, noisy := true } { from_sys := false, noisy := true } false true)
      (([("dt", .leaf (.num (1 / 100)))], []), ⟨(), [], restPoses, imuSys⟩) = .ok ((X, y), e) ∧
    (∀ n, n ∈ X.keys ↔ n = "dt" ∨ n = "a" ∨ n = "b" ∨ n = "c") ∧
    (∀ n, n ∈ y.keys ↔ n = "a" ∨ n = "b" ∨ n = "c") := by
  have hnames : ∀ n, n ∈ imuSys.link_names ∧ ¬ BelowImu imuSys n ↔ n = "a" ∨ n = "b" ∨ n = "c" := by
    intro n
    rw [imuSys_below]
    constructor
    · rintro ⟨a, b⟩
      simp [imuSys] at a
      tauto
    · rintro (rfl | rfl | rfl) <;> simp [imuSys]
  obtain ⟨s, Xi, Xa, yr, yo, X, y, k, -, -, -, -, -, h1, -, -, -, h2, -, h3⟩ :=
    C45_pipeline (E := stdEnv) (axesOf := fun _ => .ok ⟨1, 0, 0⟩) imuSys_wf imuSys_onLinks imuSys_wf
      imuSys_onLinks ⟨"a", (hnames "a").2 (Or.inl rfl)⟩ (fun n h _ => h) (constRng 0 true)
      (constRng_ok 0 true (by norm_num) (by norm_num)) () [] (restPoses_of imuSys rfl)
      (a := { acc_xinyuyi_n := 1, noisy := true })
      ⟨by simp [restPoses], by norm_num, by simp [restPoses], by intro w hw; cases hw⟩
      { from_sys := false, noisy := true } (fun h => by cases h) false true
      (X0 := [("dt", .leaf (.num (1 / 100)))]) ⟨by simp [keys], by simp⟩
      (by intro k hk; simp [keys] at hk; subst hk; simp [imuSys])
  refine ⟨X, y, _, h1, ?_, ?_⟩
  · intro n
    rw [h2, hnames, or_self]
    simp [keys]
  · intro n
    rw [h3, hnames]

example : averageAxis (ensure_axis_convention
    [⟨3 / 5, 0, -4 / 5, 0⟩, ⟨1, 0, 0, 0⟩, ⟨4 / 5, 0, 3 / 5, 0⟩]) = List.replicate 3 (⟨0, -1, 0⟩ : Vec3 ℝ) := by
  have := C45_hinge (e := ⟨0, 1, 0⟩) (by norm_num) (3 / 5, -4 / 5) [(1, 0), (4 / 5, 3 / 5)] (by norm_num)
  rw [sign_neg (by norm_num)] at this
  simp only [List.map_cons, List.map_nil, mul_zero, mul_one, List.length_cons, List.length_nil,
    SignType.coe_neg_one] at this
  rw [this]
  congr 1
  ext <;> simp

end generator
end RingLib
