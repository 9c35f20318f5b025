import Verif.Spec.Alike
import Verif.Props.Inject
import Verif.Props.ImuData
import Verif.Props.Kinematics
import Verif.Lemmas.Anchors

/-!
# C116: cutting and joining systems does not move the links

Forward kinematics before and after a link is deleted, the IMUs are removed or a system is injected.
-/

namespace RingLib
open jcalc algebra _root_.RingLib.System

variable {α π : Type} [Field α] {E : JEnv α π} {s s' t r : System α π}

/-- The links in `M` are in both systems, have the same joint there and are mounted alike; those that are roots in `s` are
attached to `base` in `s'`. -/
structure Alike (base : Option String) (M : String → Prop) (s s' : System α π) : Prop where
  mem : ∀ n, M n → n ∈ s'.link_names
  type : ∀ n (i i' : Nat), M n → s.link_names[i]? = some n → s'.link_names[i']? = some n →
    s'.link_types[i']? = s.link_types[i]?
  row : ∀ n (i i' : Nat), M n → s.link_names[i]? = some n → s'.link_names[i']? = some n →
    s'.links[i']?.map LinkRow.transform1 = s.links[i]?.map LinkRow.transform1
  param : ∀ n (i i' : Nat), M n → s.link_names[i]? = some n → s'.link_names[i']? = some n →
    s'.jointParam i' = s.jointParam i
  parent : ∀ n (i i' : Nat) p p', M n → s.link_names[i]? = some n → s'.link_names[i']? = some n →
    s.link_parents[i]? = some p → s'.link_parents[i']? = some p' → s'.nameAt p' = (s.nameAt p).or base
  closed : ∀ n (i : Nat) p m, M n → s.link_names[i]? = some n → s.link_parents[i]? = some p → s.nameAt p = some m → M m

omit [Field α] in
theorem nameAt_some {p : Int} {m : String} (h : s.nameAt p = some m) : 0 ≤ p ∧ s.link_names[p.toNat]? = some m := by
  unfold nameAt at h
  split at h
  · cases h
  · exact ⟨by omega, h⟩

theorem nameAt_none (h : s.WF E.toEnv) {i : Nat} (hi : i < s.link_parents.length) (hn : s.nameAt s.link_parents[i] = none) :
    s.link_parents[i] < 0 := by
  by_contra hp
  unfold nameAt at hn
  rw [if_neg hp, List.getElem?_eq_none_iff, h.names_len] at hn
  have := (h.topo i hi).2
  omega

theorem Alike.pose {base : Option String} {M : String → Prop} (a : Alike base M s s') (h : s.WF E.toEnv)
    (h' : s'.WF E.toEnv) {q q' : List α} (hq : CoordsByName E.toEnv s s' q q') {T : Transform α}
    (hT : (base = none ∧ T = Transform.zero) ∨ ∃ b k, base = some b ∧ s'.link_names[k]? = some b ∧ T = fkPose E s' q' k) :
    ∀ (i : Nat) n (i' : Nat), M n → s.link_names[i]? = some n → s'.link_names[i']? = some n →
      fkPose E s' q' i' = transform_mul (fkPose E s q i) T := by
  intro i
  induction i using Nat.strong_induction_on with
  | _ i ih =>
    intro n i' hM hn hn'
    have hi : i < s.link_parents.length := h.names_len ▸ (List.getElem?_eq_some_iff.1 hn).1
    have hi' : i' < s'.link_parents.length := h'.names_len ▸ (List.getElem?_eq_some_iff.1 hn').1
    have e₁ : fkPose E s q i = _ := treeVal_eq h.topo _ _ i hi
    have e₂ : fkPose E s' q' i' = _ := treeVal_eq h'.topo _ _ i' hi'
    have f₁ : treeVal s.link_parents Transform.zero _ = fkPose E s q := rfl
    have f₂ : treeVal s'.link_parents Transform.zero _ = fkPose E s' q' := rfl
    rw [f₁] at e₁
    rw [f₂] at e₂
    have hj : jointT E s' q' i' = jointT E s q i := by
      unfold jointT
      rw [a.param n i i' hM hn hn', hq n i i' hn hn', List.getD_eq_getElem?_getD, a.type n i i' hM hn hn',
        ← List.getD_eq_getElem?_getD]
    have hpar := a.parent n i i' _ _ hM hn hn' (List.getElem?_eq_getElem hi) (List.getElem?_eq_getElem hi')
    rw [e₁, e₂, hj, a.row n i i' hM hn hn', transform_mul_assoc' _ _ T]
    congr 1
    cases hc : s.nameAt s.link_parents[i] with
    | none =>
      have hp := nameAt_none h hi hc
      rw [hc, Option.none_or] at hpar
      have e0 : parentVal Transform.zero (fkPose E s q) s.link_parents[i] = Transform.zero := by
        unfold parentVal
        rw [if_neg (by omega)]
      have e1 : transform_mul Transform.zero T = T := (C18_mul_zero T).1
      rw [e0, e1]
      rcases hT with ⟨hb, rfl⟩ | ⟨b, k, hb, hk, rfl⟩
      · rw [hb] at hpar
        have := nameAt_none h' hi' hpar
        unfold parentVal
        rw [if_neg (by omega)]
      · rw [hb] at hpar
        obtain ⟨hp0, hp1⟩ := nameAt_some hpar
        unfold parentVal
        rw [if_pos hp0, uniqueIdx h'.names_nodup hk hp1]
    | some m =>
      rw [hc, Option.some_or] at hpar
      obtain ⟨p0, p1⟩ := nameAt_some hc
      obtain ⟨p0', p1'⟩ := nameAt_some hpar
      unfold parentVal
      rw [if_pos p0, if_pos p0']
      have := (h.topo i hi).2
      exact ih _ (by omega) m _ (a.closed n i _ m hM hn (List.getElem?_eq_getElem hi) hc) p1 p1'

/-- the poses as forward kinematics returns them -/
theorem poseOf_iff (h : s.WF E.toEnv) {q : List α} {n : String} {T : Transform α} :
    s.NamedPose ((List.range s.link_parents.length).map (fkPose E s q)) n T ↔
      ∃ i, s.link_names[i]? = some n ∧ T = fkPose E s q i := by
  constructor
  · rintro ⟨i, h1, h2⟩
    refine ⟨i, h1, ?_⟩
    obtain ⟨_, h3⟩ := List.getElem?_eq_some_iff.1 h2
    rw [← h3]
    simp
  · rintro ⟨i, h1, rfl⟩
    have hi : i < s.link_parents.length := h.names_len ▸ (List.getElem?_eq_some_iff.1 h1).1
    exact ⟨i, h1, by simp [hi]⟩

theorem Alike.poseOf {base : Option String} {M : String → Prop} (a : Alike base M s s') (h : s.WF E.toEnv)
    (h' : s'.WF E.toEnv) (hj : s.Jointed E) (hj' : s'.Jointed E) {q q' : List α}
    (hl : q.length = (s.link_types.map (wOf E.qw)).sum) (hl' : q'.length = (s'.link_types.map (wOf E.qw)).sum)
    (hq : CoordsByName E.toEnv s s' q q') :
    ∃ xs xs' f f', s.forward_kinematics_transforms E q = .ok (xs, f) ∧
      s'.forward_kinematics_transforms E q' = .ok (xs', f') ∧
      ∀ B, (base = none ∧ B = Transform.zero) ∨ (∃ b, base = some b ∧ s'.NamedPose xs' b B) →
        ∀ n T, M n → s.NamedPose xs n T → s'.NamedPose xs' n (transform_mul T B) := by
  refine ⟨_, _, _, _, fk_eq h hj hl, fk_eq h' hj' hl', ?_⟩
  intro B hB n T hM hT
  obtain ⟨i, hi, rfl⟩ := (poseOf_iff h).1 hT
  obtain ⟨i', hi', e'⟩ := List.getElem_of_mem (a.mem n hM)
  have hn' : s'.link_names[i']? = some n := by rw [List.getElem?_eq_getElem hi', e']
  refine (poseOf_iff h').2 ⟨i', hn', ?_⟩
  refine (a.pose h h' hq ?_ i n i' hM hi hn').symm
  rcases hB with hB | ⟨b, hb, hB⟩
  · exact Or.inl hB
  · obtain ⟨k, hk, e⟩ := (poseOf_iff h').1 hB
    exact Or.inr ⟨b, k, hb, hk, e⟩

/-- the joint parameters of a link, read off its view -/
theorem jointParam_view (h : s.WF E.toEnv) {i : Nat} {v : LinkView α π} (hv : s.viewAt E.toEnv i = some v) :
    s.jointParam i = (v.joint_params v.type).or (v.joint_params "default") := by
  obtain ⟨p, hp, -, ht, -, hjp⟩ := randomize.viewAt_fields hv
  have hi : i < s.link_parents.length := (List.getElem?_eq_some_iff.1 hp).1
  have mem : ∀ {t v}, s.joint_params.lookup t = some v → i < v.length := fun {t v} hv => by
    rw [List.lookup_eq_some_iff] at hv
    obtain ⟨l1, l2, hl, _⟩ := hv
    rw [h.jp_len (t, v) (by rw [hl]; simp)]
    exact hi
  unfold jointParam
  rw [hjp, hjp, List.getD_eq_getElem?_getD, ht, Option.getD_some]
  cases hl : s.joint_params.lookup v.type with
  | none => simp
  | some ps =>
    simp only [Option.bind_some]
    rw [List.getElem?_eq_getElem (mem hl), Option.some_or]

/-- links whose views agree are alike -/
theorem alike_of_views {base : Option String} {M : String → Prop} (h : s.WF E.toEnv) (h' : s'.WF E.toEnv)
    (hv : ∀ n, M n → ∃ v v', s.view E.toEnv n = some v ∧ s'.view E.toEnv n = some v' ∧ v'.type = v.type ∧
      v'.row.transform1 = v.row.transform1 ∧ v'.parent = v.parent.or base ∧
      (v'.joint_params v'.type).or (v'.joint_params "default") = (v.joint_params v.type).or (v.joint_params "default") ∧
      ∀ m, v.parent = some m → M m) : Alike base M s s' := by
  have get : ∀ n (i i' : Nat), M n → s.link_names[i]? = some n → s'.link_names[i']? = some n →
      ∃ v v', s.viewAt E.toEnv i = some v ∧ s'.viewAt E.toEnv i' = some v' ∧ v'.type = v.type ∧
      v'.row.transform1 = v.row.transform1 ∧ v'.parent = v.parent.or base ∧
      (v'.joint_params v'.type).or (v'.joint_params "default") = (v.joint_params v.type).or (v.joint_params "default") ∧
      ∀ m, v.parent = some m → M m := by
    intro n i i' hM hi hi'
    obtain ⟨v, v', h1, h2, h3⟩ := hv n hM
    rw [view_eq_viewAt h.toConsistent hi] at h1
    rw [view_eq_viewAt h'.toConsistent hi'] at h2
    exact ⟨v, v', h1, h2, h3⟩
  constructor
  · intro n hM
    obtain ⟨v, v', -, h2, -⟩ := hv n hM
    unfold System.view at h2
    obtain ⟨i, hi, -⟩ := Option.bind_eq_some_iff.1 h2
    by_contra hn
    rw [idxOf?_none_of_not_mem hn] at hi
    cases hi
  · intro n i i' hM hi hi'
    obtain ⟨v, v', h1, h2, h3, -⟩ := get n i i' hM hi hi'
    obtain ⟨p, -, -, ht, -⟩ := randomize.viewAt_fields h1
    obtain ⟨p', -, -, ht', -⟩ := randomize.viewAt_fields h2
    rw [ht, ht', h3]
  · intro n i i' hM hi hi'
    obtain ⟨v, v', h1, h2, -, h3, -⟩ := get n i i' hM hi hi'
    obtain ⟨p, -, -, -, ht, -⟩ := randomize.viewAt_fields h1
    obtain ⟨p', -, -, -, ht', -⟩ := randomize.viewAt_fields h2
    rw [ht, ht', Option.map_some, Option.map_some, h3]
  · intro n i i' hM hi hi'
    obtain ⟨v, v', h1, h2, -, -, -, h3, -⟩ := get n i i' hM hi hi'
    rw [jointParam_view h h1, jointParam_view h' h2, h3]
  · intro n i i' p p' hM hi hi' hp hp'
    obtain ⟨v, v', h1, h2, -, -, h3, -⟩ := get n i i' hM hi hi'
    obtain ⟨p1, hp1, e1, -⟩ := randomize.viewAt_fields h1
    obtain ⟨p2, hp2, e2, -⟩ := randomize.viewAt_fields h2
    rw [hp] at hp1
    rw [hp'] at hp2
    cases hp1
    cases hp2
    rw [← e1, ← e2, h3]
  · intro n i p m hM hi hp hm
    obtain ⟨v, v', h1, -, -, -, -, -, h3⟩ := hv n hM
    rw [view_eq_viewAt h.toConsistent hi] at h1
    obtain ⟨p1, hp1, e1, -⟩ := randomize.viewAt_fields h1
    rw [hp] at hp1
    cases hp1
    exact h3 m (e1.trans hm)

omit [Field α] in
theorem view_parent_mem {n m : String} {v : LinkView α π} (hv : s.view E.toEnv n = some v)
    (hp : v.parent = some m) : m ∈ s.link_names := by
  unfold System.view at hv
  obtain ⟨i, -, hv⟩ := Option.bind_eq_some_iff.1 hv
  obtain ⟨p, -, e, -⟩ := randomize.viewAt_fields hv
  exact List.mem_of_getElem? (nameAt_some (e.symm.trans hp)).2

/-! ### deletion -/

theorem removed_alike (h : s.WF E.toEnv) {gone : String → Prop} (hr : s.Removed E.toEnv gone s') :
    Alike none (· ∈ s'.link_names) s s' := by
  refine alike_of_views h hr.wf ?_
  intro n hn
  obtain ⟨i, hi, e⟩ := List.getElem_of_mem hn
  obtain ⟨v, hv⟩ := viewAt_isSome hr.wf.toConsistent (hr.wf.names_len ▸ hi)
  have hv' : s'.view E.toEnv n = some v := by
    rw [view_eq_viewAt hr.wf.toConsistent (by rw [List.getElem?_eq_getElem hi, e]), hv]
  exact ⟨v, v, by rw [← hr.view n hn]; exact hv', hv', rfl, rfl, by simp, rfl, fun m hm => view_parent_mem hv' hm⟩

theorem removed_jointed (h : s.WF E.toEnv) (hj : s.Jointed E) {gone : String → Prop} (hr : s.Removed E.toEnv gone s') :
    s'.Jointed E := by
  refine ⟨?_, by rw [hr.keys]; exact hj.default⟩
  intro t ht
  obtain ⟨i', hi', e'⟩ := List.getElem_of_mem ht
  have hl' : i' < s'.link_names.length := by rw [hr.wf.names_len, ← hr.wf.types_len]; exact hi'
  have hn' := List.getElem?_eq_getElem hl'
  obtain ⟨i, hi, e⟩ := List.getElem_of_mem ((hr.mem _).1 (List.getElem_mem hl')).1
  have hn : s.link_names[i]? = some s'.link_names[i'] := by rw [List.getElem?_eq_getElem hi, e]
  have := (removed_alike h hr).type _ i i' (List.getElem_mem hl') hn hn'
  rw [List.getElem?_eq_getElem hi', e'] at this
  exact hj.known t (List.mem_of_getElem? this.symm)

/-- the links of a system from which something was removed stand where they stood -/
theorem removed_poses (h : s.WF E.toEnv) (hj : s.Jointed E) {gone : String → Prop} (hr : s.Removed E.toEnv gone s')
    {q q' : List α} (hl : q.length = (s.link_types.map (wOf E.qw)).sum)
    (hl' : q'.length = (s'.link_types.map (wOf E.qw)).sum) (hq : CoordsByName E.toEnv s s' q q') :
    ∃ xs xs' f f', s.forward_kinematics_transforms E q = .ok (xs, f) ∧
      s'.forward_kinematics_transforms E q' = .ok (xs', f') ∧
      ∀ n T, n ∈ s'.link_names → s.NamedPose xs n T → s'.NamedPose xs' n T := by
  obtain ⟨xs, xs', f, f', h1, h2, h3⟩ := (removed_alike h hr).poseOf h hr.wf hj (removed_jointed h hj hr) hl hl' hq
  refine ⟨xs, xs', f, f', h1, h2, ?_⟩
  intro n T hn hT
  have := h3 Transform.zero (Or.inl ⟨rfl, rfl⟩) n T hn hT
  rwa [show transform_mul T Transform.zero = T from (C18_mul_zero T).2] at this

/-- C116: deleting a link and its descendants moves none of the other links. -/
theorem C116_delete (h : s.WF E.toEnv) (hj : s.Jointed E) {name : String} (hn : name ∈ s.link_names)
    (hs' : delete_subsystem E.toEnv s name = .ok s')
    {q q' : List α} (hl : q.length = (s.link_types.map (wOf E.qw)).sum)
    (hl' : q'.length = (s'.link_types.map (wOf E.qw)).sum) (hq : CoordsByName E.toEnv s s' q q') :
    ∃ xs xs' f f', s.forward_kinematics_transforms E q = .ok (xs, f) ∧
      s'.forward_kinematics_transforms E q' = .ok (xs', f') ∧
      ∀ n T, n ∈ s.link_names → ¬ s.IsDesc name n → s.NamedPose xs n T → s'.NamedPose xs' n T := by
  have hsurv : ∃ m ∈ s.link_names, ¬ s.IsDesc name m := by
    by_contra hc
    push Not at hc
    have := C03_delete_everything h hn hc true
    unfold delete_subsystem' at this
    rw [hs'] at this
    simp at this
  obtain ⟨s1, h1, hr⟩ := C03_delete h hn hsurv
  rw [hs'] at h1
  cases h1
  obtain ⟨xs, xs', f, f', h1, h2, h3⟩ := removed_poses h hj hr hl hl' hq
  exact ⟨xs, xs', f, f', h1, h2, fun n T hn hd hT => h3 n T ((hr.mem n).2 ⟨hn, hd⟩) hT⟩

/-- C116: deleting a list of links moves none of the links that are left. -/
theorem C116_delete_list (h : s.WF E.toEnv) (hj : s.Jointed E) (ns : List String)
    (hsurv : ∃ m ∈ s.link_names, ∀ x ∈ ns, ¬ s.IsDesc x m) :
    ∃ s', delete_subsystems E.toEnv s ns false = .ok s' ∧
      (∀ m, m ∈ s'.link_names ↔ m ∈ s.link_names ∧ ¬ ∃ x ∈ ns, s.IsDesc x m) ∧
      ∀ q q' : List α, q.length = (s.link_types.map (wOf E.qw)).sum → q'.length = (s'.link_types.map (wOf E.qw)).sum →
        CoordsByName E.toEnv s s' q q' →
        ∃ xs xs' f f', s.forward_kinematics_transforms E q = .ok (xs, f) ∧
          s'.forward_kinematics_transforms E q' = .ok (xs', f') ∧
          ∀ n T, n ∈ s'.link_names → s.NamedPose xs n T → s'.NamedPose xs' n T := by
  obtain ⟨s', h1, hr⟩ := C03_list_lenient h ns hsurv
  exact ⟨s', h1, hr.mem, fun q q' hl hl' hq => removed_poses h hj hr hl hl' hq⟩

/-- C116: removing the IMUs (as for training data without them) moves none of the segments. -/
theorem C116_noimu {E : JEnv ℝ π} {s : System ℝ π} (h : s.WF E.toEnv) (hj : s.Jointed E) (hi : generator.ImusOnLinks s) :
    ∃ (s' : System ℝ π) (par : String → String),
      make_sys_noimu E.toEnv s = .ok (s', s.findall_imus.map fun x => (x, par x)) ∧
      ∀ q q' : List ℝ, q.length = (s.link_types.map (wOf E.qw)).sum → q'.length = (s'.link_types.map (wOf E.qw)).sum →
        CoordsByName E.toEnv s s' q q' →
        ∃ xs xs' f f', s.forward_kinematics_transforms E q = .ok (xs, f) ∧
          s'.forward_kinematics_transforms E q' = .ok (xs', f') ∧
          ∀ n T, n ∈ s.link_names → ¬ generator.BelowImu s n → s.NamedPose xs n T → s'.NamedPose xs' n T := by
  obtain ⟨s', par, h1, -, hr⟩ := generator.C03_make_sys_noimu h hi
  refine ⟨s', par, h1, ?_⟩
  intro q q' hl hl' hq
  obtain ⟨xs, xs', f, f', h2, h3, h4⟩ := removed_poses h hj hr hl hl' hq
  exact ⟨xs, xs', f, f', h2, h3, fun n T hn hb hT => h4 n T ((hr.mem n).2 ⟨hn, hb⟩) hT⟩

/-! ### injection -/

/-- Links whose joint type has parameters in the other system have such parameters in their own. -/
def OwnParams (s t : System α π) : Prop :=
  ∀ typ ∈ s.link_types, typ ∈ t.joint_params.map (·.1) → typ ∈ s.joint_params.map (·.1)

omit [Field α] in
theorem withNaN_keys {E : Env α π} {g : String → Option π} {typ : String}
    (h : typ ∈ t.joint_params.map (·.1) → typ ∈ s.joint_params.map (·.1)) : withNaN E s t g typ = g typ := by
  unfold withNaN
  cases h1 : s.joint_params.lookup typ with
  | some _ => rfl
  | none =>
    cases h2 : t.joint_params.lookup typ with
    | none => rfl
    | some _ =>
      have := (lookup_isSome_iff _ _).2 (h ((lookup_isSome_iff _ _).1 (by rw [h2]; rfl)))
      rw [h1] at this
      cases this

omit [Field α] in
theorem view_type_mem {n : String} {v : LinkView α π} (hv : s.view E.toEnv n = some v) : v.type ∈ s.link_types := by
  unfold System.view at hv
  obtain ⟨i, -, hv⟩ := Option.bind_eq_some_iff.1 hv
  obtain ⟨p, -, -, ht, -⟩ := randomize.viewAt_fields hv
  exact List.mem_of_getElem? ht

omit [Field α] in
/-- the parameters a link uses are not touched by those of the other system -/
theorem withNaN_used (hj : s.Jointed E) (ho : OwnParams s t) {n : String} {v : LinkView α π}
    (hv : s.view E.toEnv n = some v) :
    (withNaN E.toEnv s t v.joint_params v.type).or (withNaN E.toEnv s t v.joint_params "default") =
      (v.joint_params v.type).or (v.joint_params "default") := by
  rw [withNaN_keys (ho _ (view_type_mem hv)), withNaN_keys fun _ => hj.default]

/-- C116: injecting a system moves no link of the host, and the links of the guest stand relative to the body at which the
guest is attached (or to the world) as they stood relative to the world. -/
theorem C116_inject (hs : s.WF E.toEnv) (ht : t.WF E.toEnv) (hs0 : s.link_parents ≠ []) (ht0 : t.link_parents ≠ [])
    (hjs : s.Jointed E) (hjt : t.Jointed E) (ho : OwnParams s t) (ho' : OwnParams t s)
    (hd : ∀ m ∈ s.link_names, m ∉ t.link_names) {at_body : Option String}
    (hat : ∀ b, at_body = some b → b ∈ s.link_names) (hr : inject_system E.toEnv s t at_body = .ok r)
    {qs qt q : List α} (hls : qs.length = (s.link_types.map (wOf E.qw)).sum)
    (hlt : qt.length = (t.link_types.map (wOf E.qw)).sum) (hl : q.length = (r.link_types.map (wOf E.qw)).sum)
    (hqs : CoordsByName E.toEnv s r qs q) (hqt : CoordsByName E.toEnv t r qt q) :
    ∃ xs xt x f g h, s.forward_kinematics_transforms E qs = .ok (xs, f) ∧
      t.forward_kinematics_transforms E qt = .ok (xt, g) ∧ r.forward_kinematics_transforms E q = .ok (x, h) ∧
      (∀ n T, n ∈ s.link_names → s.NamedPose xs n T → r.NamedPose x n T) ∧
      (at_body = none → ∀ n T, n ∈ t.link_names → t.NamedPose xt n T → r.NamedPose x n T) ∧
      ∀ b B, at_body = some b → s.NamedPose xs b B → ∀ n T, n ∈ t.link_names → t.NamedPose xt n T →
        r.NamedPose x n (transform_mul T B) := by
  obtain ⟨r', e, hwf, hnames, -, hhost, hguest, -⟩ := C04_inject hs ht hs0 ht0 hd hat
  rw [hr] at e
  cases e
  have a1 : Alike none (· ∈ s.link_names) s r := by
    refine alike_of_views hs hwf ?_
    intro n hn
    obtain ⟨v, it, h1, h2, -⟩ := hhost n hn
    exact ⟨v, _, h1, h2, rfl, rfl, by simp, withNaN_used hjs ho h1, fun m hm => view_parent_mem h1 hm⟩
  have a2 : Alike at_body (· ∈ t.link_names) t r := by
    refine alike_of_views ht hwf ?_
    intro n hn
    obtain ⟨v, h1, h2⟩ := hguest n hn
    exact ⟨v, _, h1, h2, rfl, rfl, rfl, withNaN_used hjt ho' h1, fun m hm => view_parent_mem h1 hm⟩
  have hjr : r.Jointed E := by
    constructor
    · intro typ htyp
      obtain ⟨i', hi', e'⟩ := List.getElem_of_mem htyp
      have hl' : i' < r.link_names.length := by rw [hwf.names_len, ← hwf.types_len]; exact hi'
      have hm := List.getElem_mem hl'
      have find : ∀ {u : System α π} {b}, Alike b (· ∈ u.link_names) u r → r.link_names[i'] ∈ u.link_names →
          typ ∈ u.link_types := by
        intro u b a hu
        obtain ⟨i, hi, e⟩ := List.getElem_of_mem hu
        have := a.type _ i i' hu (by rw [List.getElem?_eq_getElem hi, e]) (List.getElem?_eq_getElem hl')
        rw [List.getElem?_eq_getElem hi', e'] at this
        exact List.mem_of_getElem? this.symm
      have hor : r.link_names[i'] ∈ s.link_names ∨ r.link_names[i'] ∈ t.link_names := by
        rw [← List.mem_append, ← hnames]
        exact hm
      rcases hor with hm | hm
      · exact hjs.known typ (find a1 hm)
      · exact hjt.known typ (find a2 hm)
    · obtain ⟨n, hn⟩ : ∃ n, n ∈ s.link_names := by
        apply List.exists_mem_of_length_pos
        rw [hs.names_len]
        exact List.length_pos_iff.2 hs0
      obtain ⟨v, it, h1, h2, -⟩ := hhost n hn
      unfold System.view at h1 h2
      obtain ⟨i, -, h1⟩ := Option.bind_eq_some_iff.1 h1
      obtain ⟨j, -, h2⟩ := Option.bind_eq_some_iff.1 h2
      obtain ⟨p, hp, -, -, -, e1⟩ := randomize.viewAt_fields h1
      obtain ⟨_, -, -, -, -, e2⟩ := randomize.viewAt_fields h2
      have e2 := e2 "default"
      dsimp only at e2
      rw [withNaN_keys fun _ => hjs.default, e1] at e2
      rw [← lookup_isSome_iff]
      obtain ⟨w, hw⟩ := Option.isSome_iff_exists.1 ((lookup_isSome_iff _ _).2 hjs.default)
      have hlen : i < w.length := by
        rw [List.lookup_eq_some_iff] at hw
        obtain ⟨l1, l2, hl, _⟩ := hw
        rw [hs.jp_len ("default", w) (by rw [hl]; simp)]
        exact (List.getElem?_eq_some_iff.1 hp).1
      rw [hw, Option.bind_some, List.getElem?_eq_getElem hlen] at e2
      obtain ⟨y, hy, -⟩ := Option.bind_eq_some_iff.1 e2.symm
      rw [hy]
      rfl
  obtain ⟨xs, x, f, h, k1, k2, k3⟩ := a1.poseOf hs hwf hjs hjr hls hl hqs
  obtain ⟨xt, x', g, h', m1, m2, m3⟩ := a2.poseOf ht hwf hjt hjr hlt hl hqt
  rw [k2] at m2
  cases m2
  have z : ∀ T : Transform α, transform_mul T Transform.zero = T := fun T => (C18_mul_zero T).2
  have host : ∀ n T, n ∈ s.link_names → s.NamedPose xs n T → r.NamedPose x n T := by
    intro n T hn hT
    have := k3 Transform.zero (Or.inl ⟨rfl, rfl⟩) n T hn hT
    rwa [z] at this
  refine ⟨xs, xt, x, f, g, h, k1, m1, k2, host, ?_, ?_⟩
  · intro hb n T hn hT
    have := m3 Transform.zero (Or.inl ⟨hb, rfl⟩) n T hn hT
    rwa [z] at this
  · intro b B hb hB n T hn hT
    exact m3 B (Or.inr ⟨b, hb, host b B (hat b hb) hB⟩) n T hn hT

/-- the coordinates of the result of an injection are those of the host followed by those of the guest -/
theorem inject_coords (hs : s.WF E.toEnv) (ht : t.WF E.toEnv) (hs0 : s.link_parents ≠ []) (ht0 : t.link_parents ≠ [])
    (hd : ∀ m ∈ s.link_names, m ∉ t.link_names) {at_body : Option String}
    (hat : ∀ b, at_body = some b → b ∈ s.link_names) (hr : inject_system E.toEnv s t at_body = .ok r)
    {qs qt : List α} (hls : qs.length = (s.link_types.map (wOf E.qw)).sum)
    (hlt : qt.length = (t.link_types.map (wOf E.qw)).sum) :
    (qs ++ qt).length = (r.link_types.map (wOf E.qw)).sum ∧ CoordsByName E.toEnv s r qs (qs ++ qt) ∧
      CoordsByName E.toEnv t r qt (qs ++ qt) := by
  obtain ⟨w, hw⟩ : ∃ w, s.Attach at_body w := by
    cases at_body with
    | none => exact ⟨-1, Or.inl ⟨rfl, rfl⟩⟩
    | some b =>
      obtain ⟨k, hk, e⟩ := List.getElem_of_mem (hat b rfl)
      exact ⟨k, Or.inr ⟨b, k, rfl, by rw [List.getElem?_eq_getElem hk, e], rfl⟩⟩
  obtain ⟨hok, hwf⟩ := inject_ok hs ht hs0 ht0 hd hw
  rw [hr] at hok
  have hok := (Except.ok.injEq _ _).mp hok
  have htypes : r.link_types = s.link_types ++ t.link_types := by rw [hok]; rfl
  have hnames : r.link_names = s.link_names ++ t.link_names := by rw [hok]; rfl
  rw [← hok] at hwf
  refine ⟨by simp [htypes, hls, hlt], ?_, ?_⟩
  · intro n i i' hi hi'
    have hil : i < s.link_names.length := (List.getElem?_eq_some_iff.1 hi).1
    have e : i' = i := uniqueIdx hwf.names_nodup hi' (by rw [hnames, List.getElem?_append_left hil, hi])
    rw [e, htypes]
    exact ownSlice_append_left _ hls (by rw [hs.types_len, ← hs.names_len]; exact hil)
  · intro n i i' hi hi'
    have hil : i < t.link_names.length := (List.getElem?_eq_some_iff.1 hi).1
    have e : i' = s.link_types.length + i := by
      refine uniqueIdx hwf.names_nodup hi' ?_
      have hl : s.link_names.length = s.link_types.length := by rw [hs.types_len, hs.names_len]
      rw [hnames, List.getElem?_append_right (by omega), hl, Nat.add_sub_cancel_left, hi]
    rw [e, htypes]
    exact ownSlice_append_right _ hls (by rw [ht.types_len, ← ht.names_len]; exact hil)

/-- there are coordinates for what is left after a deletion -/
theorem removed_coords (h : s.WF E.toEnv) {gone : String → Prop} (hr : s.Removed E.toEnv gone s')
    {q : List α} (hl : q.length = (s.link_types.map (wOf E.qw)).sum) :
    ∃ q', q'.length = (s'.link_types.map (wOf E.qw)).sum ∧ CoordsByName E.toEnv s s' q q' := by
  have a := removed_alike h hr
  have hlen : s'.link_names.length = s'.link_types.length := by rw [hr.wf.types_len, hr.wf.names_len]
  let pc : Nat → List α := fun k => ownSlice E.qw s.link_types q (s.link_names.idxOf (s'.link_names.getD k ""))
  have hty : s'.link_types = (List.range s'.link_types.length).map fun k => s'.link_types.getD k "" := by
    apply List.ext_getElem
    · simp
    · intro k h1 h2
      simp [h1]
  have at' : ∀ k, k < s'.link_types.length → ∃ n, s'.link_names[k]? = some n ∧ s.link_names[s.link_names.idxOf n]? = some n ∧
      n ∈ s'.link_names := by
    intro k hk
    have hk' : k < s'.link_names.length := by omega
    have hm := List.getElem_mem hk'
    have hs := ((hr.mem _).1 hm).1
    refine ⟨_, List.getElem?_eq_getElem hk', ?_, hm⟩
    rw [List.getElem?_eq_getElem (List.idxOf_lt_length_of_mem hs), List.getElem_idxOf]
  have fits : ∀ k ∈ List.range s'.link_types.length, (pc k).length = wOf E.qw (s'.link_types.getD k "") := by
    intro k hk
    obtain ⟨n, h1, h2, h3⟩ := at' k (List.mem_range.1 hk)
    have ht := a.type n _ k h3 h2 h1
    have hlt : s.link_names.idxOf n < s.link_types.length := by
      rw [h.types_len, ← h.names_len]
      exact (List.getElem?_eq_some_iff.1 h2).1
    change (ownSlice E.qw s.link_types q (s.link_names.idxOf (s'.link_names.getD k ""))).length = _
    rw [List.getD_eq_getElem?_getD, h1, Option.getD_some, ownSlice_length hl hlt, List.getD_eq_getElem?_getD, ht,
      List.getElem?_eq_getElem hlt, Option.getD_some]
  refine ⟨((List.range s'.link_types.length).map pc).flatten, ?_, ?_⟩
  · conv_rhs => rw [hty]
    rw [List.length_flatten, List.map_map, List.map_map]
    congr 1
    apply List.map_congr_left
    intro k hk
    exact fits k hk
  · intro n i i' hi hi'
    have hk : i' < s'.link_types.length := hlen ▸ (List.getElem?_eq_some_iff.1 hi').1
    have e := ownSlice_pieces (w := E.qw) (List.range s'.link_types.length) (fun k => s'.link_types.getD k "") pc fits
      (i := i') (by simpa using hk)
    rw [← hty] at e
    rw [e]
    have : s.link_names.idxOf n = i := by
      obtain ⟨m, h1, h2, -⟩ := at' i' hk
      rw [hi'] at h1
      cases h1
      exact uniqueIdx h.names_nodup h2 hi
    simp only [List.getElem_range, pc]
    rw [List.getD_eq_getElem?_getD, hi', Option.getD_some, this]

/-! ### examples -/

/-- without the arm `b` (and what hangs at it) the body `a` and the arm `c` stand where they stood -/
example {q : List ℝ} (hl : q.length = (kinSys.link_types.map (wOf stdEnv.qw)).sum) :
    ∃ s' q' xs xs' f f', delete_subsystem stdEnv.toEnv kinSys "b" = .ok s' ∧
      kinSys.forward_kinematics_transforms stdEnv q = .ok (xs, f) ∧
      s'.forward_kinematics_transforms stdEnv q' = .ok (xs', f') ∧
      ∀ T, kinSys.NamedPose xs "c" T → s'.NamedPose xs' "c" T := by
  have hc : ¬ kinSys.IsDesc "b" "c" := by
    rintro ⟨a, b, ha, hb, hd⟩
    obtain rfl := uniqueIdx kinSys_wf.names_nodup ha (show kinSys.link_names[1]? = some "b" from rfl)
    obtain rfl := uniqueIdx kinSys_wf.names_nodup hb (show kinSys.link_names[2]? = some "c" from rfl)
    cases hd with
    | step hp hd =>
      cases hp
      cases hd with
      | step hp _ => cases hp
  obtain ⟨s', h1, hr⟩ := C03_delete kinSys_wf (name := "b") (by simp [kinSys]) ⟨"c", by simp [kinSys], hc⟩
  obtain ⟨q', hl', hq⟩ := removed_coords kinSys_wf hr hl
  obtain ⟨xs, xs', f, f', h2, h3, h4⟩ := C116_delete kinSys_wf kinSys_jointed (by simp [kinSys]) h1 hl hl' hq
  exact ⟨s', q', xs, xs', f, f', h1, h2, h3, fun T hT => h4 "c" T (by simp [kinSys]) hc hT⟩

/-- the same arms with other names -/
noncomputable def kinGuest : System ℝ Unit := { kinSys with link_names := ["e", "f", "g", "h"] }

theorem kinGuest_wf : kinGuest.WF stdEnv.toEnv :=
  { kinSys_wf with
    names_len := rfl
    names_nodup := by simp [kinGuest] }

/-- a second body at the arm `d` of the first -/
example {qs qt : List ℝ} (hs : qs.length = (kinSys.link_types.map (wOf stdEnv.qw)).sum)
    (ht : qt.length = (kinGuest.link_types.map (wOf stdEnv.qw)).sum) :
    ∃ r xs xt x f g h, inject_system stdEnv.toEnv kinSys kinGuest (some "d") = .ok r ∧
      kinSys.forward_kinematics_transforms stdEnv qs = .ok (xs, f) ∧
      kinGuest.forward_kinematics_transforms stdEnv qt = .ok (xt, g) ∧
      r.forward_kinematics_transforms stdEnv (qs ++ qt) = .ok (x, h) ∧
      ∀ B T, kinSys.NamedPose xs "d" B → kinGuest.NamedPose xt "h" T → r.NamedPose x "h" (transform_mul T B) := by
  have hd : ∀ m ∈ kinSys.link_names, m ∉ kinGuest.link_names := by simp [kinSys, kinGuest]
  have hat : ∀ b, some "d" = some b → b ∈ kinSys.link_names := by
    intro b hb
    cases hb
    simp [kinSys]
  have ho : OwnParams kinSys kinGuest := by
    intro typ _ h
    exact h
  have ho' : OwnParams kinGuest kinSys := by
    intro typ _ h
    exact h
  obtain ⟨r, hr, -⟩ := C04_inject kinSys_wf kinGuest_wf (by simp [kinSys]) (by simp [kinGuest, kinSys]) hd hat
  obtain ⟨c1, c2, c3⟩ := inject_coords kinSys_wf kinGuest_wf (by simp [kinSys]) (by simp [kinGuest, kinSys]) hd hat hr hs ht
  obtain ⟨xs, xt, x, f, g, h, h1, h2, h3, -, -, h4⟩ := C116_inject kinSys_wf kinGuest_wf (by simp [kinSys])
    (by simp [kinGuest, kinSys]) kinSys_jointed ⟨kinSys_jointed.known, kinSys_jointed.default⟩ ho ho' hd hat hr hs ht c1 c2 c3
  exact ⟨r, xs, xt, x, f, g, h, hr, h1, h2, h3, fun B T hB hT => h4 "d" B rfl hB "h" T (by simp [kinGuest]) hT⟩

end RingLib
