import Verif.Model.EndEffector
import Verif.Props.Simulation
import Verif.Props.Setup

/-!
# C77: inverse kinematics of an end effector
-/

namespace RingLib
namespace System
open algebra maths jcalc Real

variable {π' : Type}

/-- Specification: how far the pose `y` is from the wanted pose `x`: the weighted sum of the angle of
rotation between them and of the distance between their origins. -/
noncomputable def poseError (wr wp : ℝ) (x y : Transform ℝ) : ℝ :=
  wr * angle_error x.rot y.rot +
    wp * √((x.pos.x - y.pos.x) ^ 2 + (x.pos.y - y.pos.y) ^ 2 + (x.pos.z - y.pos.z) ^ 2)

/-- Specification: the link called `name` has the pose `y` in the joint configuration `q`. -/
def PoseOf (E : JEnv ℝ π') (s : System ℝ π') (name : String) (q : List ℝ) (y : Transform ℝ) : Prop :=
  ∃ (i : Nat) (xs : List (Transform ℝ)) (s' : System ℝ π'), s.link_names[i]? = some name ∧
    s.IsFK E q xs s' ∧ xs[i]? = some y

/-- What is assumed of an optimiser: it returns as many numbers as it gets, as long as the objective
can be evaluated; and it evaluates the objective at the initial value. -/
structure Solver.Ok (solver : Solver) : Prop where
  total : ∀ (f : List ℝ → Py ℝ) (q0 : List ℝ), (∀ q : List ℝ, q.length = q0.length → ∃ v, f q = .ok v) →
    ∃ r, solver f q0 = .ok r ∧ ∀ p, r = some p → p.length = q0.length
  raises : ∀ (f : List ℝ → Py ℝ) (q0 : List ℝ) (e : PyErr), f q0 = .error e → solver f q0 = .error e

/-- an optimiser that does not make it worse -/
def Solver.Descends (solver : Solver) : Prop :=
  ∀ (f : List ℝ → Py ℝ) (q0 p : List ℝ) (v0 v : ℝ), solver f q0 = .ok (some p) → f q0 = .ok v0 →
    f p = .ok v → v ≤ v0

theorem py_bind {β γ : Type} {a : Py β} {f : β → Py γ} {c : γ} (h : (a >>= f) = .ok c) :
    ∃ b, a = .ok b ∧ f b = .ok c := by
  cases a with
  | error e => cases h
  | ok b => exact ⟨b, rfl, h⟩

theorem pyGet_some {β : Type} {l : List β} {i : Nat} {y : β} (h : pyGet l (i : Int) = .ok y) :
    l[i]? = some y := by
  unfold pyGet at h
  have h1 : ¬ ((i : Int) < 0) := by omega
  simp only [h1, if_false, Int.toNat_natCast] at h
  cases e : l[i]? with
  | none => rw [e] at h; cases h
  | some z => rw [e] at h; rw [Except.ok.inj h]

theorem mapM_mem {β γ : Type} {f : β → Py γ} : ∀ {l : List β} {r : List γ}, l.mapM f = .ok r →
    ∀ b ∈ r, ∃ a ∈ l, f a = .ok b := by
  intro l
  induction l with
  | nil =>
    intro r h
    obtain rfl := Except.ok.inj h
    simp
  | cons a l ih =>
    intro r h
    rw [List.mapM_cons] at h
    obtain ⟨b, h1, h⟩ := py_bind h
    obtain ⟨bs, h2, h⟩ := py_bind h
    obtain rfl := Except.ok.inj h
    intro c hc
    rcases List.mem_cons.1 hc with rfl | hc
    · exact ⟨a, by simp, h1⟩
    · obtain ⟨a', ha', e⟩ := ih h2 c hc
      exact ⟨a', by simp [ha'], e⟩

/-! ## The objective -/

theorem objective_iff {E : JEnv ℝ π'} {s : System ℝ π'} {name : String} {x : Transform ℝ} {wr wp : ℝ}
    {cj : String → Option (List ℝ → List ℝ)} {q : List ℝ} {v : ℝ} :
    ik_objective E s name x wr wp cj q = .ok v ↔
      ∃ (q' : List ℝ) (xs : List (Transform ℝ)) (s' : System ℝ π') (i : Nat) (y : Transform ℝ),
        s.coordinate_vector_to_q E q cj = .ok q' ∧
        s.forward_kinematics_transforms E q' = .ok (xs, s') ∧ s.name_to_idx name = .ok i ∧
        pyGet xs (i : Int) = .ok y ∧ v = poseError wr wp x y := by
  unfold ik_objective
  constructor
  · intro h
    cases h1 : s.coordinate_vector_to_q E q cj with
    | error e => rw [h1] at h; cases h
    | ok q' =>
      rw [h1] at h
      simp only [ok_bind] at h
      cases h2 : s.forward_kinematics_transforms E q' with
      | error e => rw [h2] at h; cases h
      | ok r =>
        obtain ⟨xs, s'⟩ := r
        rw [h2] at h
        simp only [ok_bind] at h
        cases h3 : s.name_to_idx name with
        | error e => rw [h3] at h; cases h
        | ok i =>
          rw [h3] at h
          simp only [ok_bind] at h
          cases h4 : pyGet xs (i : Int) with
          | error e => rw [h4] at h; cases h
          | ok y =>
            rw [h4] at h
            exact ⟨q', xs, s', i, y, rfl, h2, rfl, h4, (Except.ok.inj h).symm⟩
  · rintro ⟨q', xs, s', i, y, h1, h2, h3, h4, rfl⟩
    simp only [h1, h2, h3, h4, ok_bind]
    rfl

theorem jointed_of {E : JEnv ℝ π'} (hE : E.Std) {s : System ℝ π'}
    (hd : "default" ∈ s.joint_params.map (·.1)) (hb : s.JointsIn fun _ => True) : s.Jointed E :=
  ⟨fun t ht => by
    obtain ⟨b, _, rfl⟩ := hb t ht
    exact ⟨_, hE.joints b⟩, hd⟩

/-- What is assumed of the system: well-formed, built-in joints. -/
structure Reachable (E : JEnv ℝ π') (s : System ℝ π') : Prop where
  std : E.Std
  wf : s.WF E.toEnv
  default : "default" ∈ s.joint_params.map (·.1)
  builtin : s.JointsIn fun _ => True
  nonempty : 0 < s.num_links

theorem Reachable.jointed {E : JEnv ℝ π'} {s : System ℝ π'} (h : Reachable E s) : s.Jointed E :=
  jointed_of h.std h.default h.builtin

/-- the objective at a vector of the right size is the error of the pose in the configuration that
belongs to the vector -/
theorem objective_ok {E : JEnv ℝ π'} {s : System ℝ π'} (h : Reachable E s) {name : String}
    (hn : name ∈ s.link_names) (x : Transform ℝ) (wr wp : ℝ) {q : List ℝ}
    (hq : q.length = (s.link_types.map (wOf E.qw)).sum) :
    ∃ (q' : List ℝ) (y : Transform ℝ), s.coordinate_vector_to_q E q = .ok q' ∧
      q'.length = q.length ∧ PoseOf E s name q' y ∧
      ik_objective E s name x wr wp (fun _ => none) q = .ok (poseError wr wp x y) := by
  obtain ⟨q', h1, h2, _, _⟩ := C11_to_q h.std h.wf.toConsistent h.nonempty h.builtin hq
  obtain ⟨xs, s', h3, h4⟩ := C22_forward h.wf h.jointed (h2.trans hq)
  obtain ⟨i, hi, rfl⟩ := List.getElem_of_mem hn
  have hi' : s.link_names[i]? = some s.link_names[i] := List.getElem?_eq_getElem _
  have h5 : s.name_to_idx s.link_names[i] = .ok i := name_to_idx_of_nodup h.wf.names_nodup hi'
  have hx : i < xs.length := by rw [h4.len, ← h.wf.names_len]; exact hi
  have hx' : xs[i]? = some xs[i] := List.getElem?_eq_getElem _
  exact ⟨q', xs[i], h1, h2, ⟨i, xs, s', hi', h4, hx'⟩,
    objective_iff.2 ⟨q', xs, s', i, xs[i], h1, h3, h5, pyGet_nat hx', rfl⟩⟩

/-- forward kinematics determines the poses -/
theorem isFK_xs_unique {E : JEnv ℝ π'} {s : System ℝ π'} (h : Reachable E s) {q : List ℝ}
    {xs ys : List (Transform ℝ)} {s1 s2 : System ℝ π'} (h1 : s.IsFK E q xs s1)
    (h2 : s.IsFK E q ys s2) : xs = ys := by
  have key : ∀ i, i < s.link_parents.length → xs[i]? = ys[i]? := by
    intro i
    induction i using Nat.strong_induction_on with
    | _ i ih =>
      intro hi
      have hrow : s.links[i]? = some (s.links[i]'(by rw [h.wf.links_len]; exact hi)) :=
        List.getElem?_eq_getElem _
      obtain ⟨T, hT, hx, _⟩ := h1.pose i hi _ hrow
      obtain ⟨T', hT', hy, _⟩ := h2.pose i hi _ hrow
      rw [isJointTransform_iff h.wf h.jointed hi] at hT hT'
      rw [hx, hy, hT, hT']
      congr 2
      unfold poseAt
      split
      · rfl
      · have := (h.wf.topo i hi).2
        have h0 := (h.wf.topo i hi).1
        have := ih s.link_parents[i].toNat (by omega) (by omega)
        simp only [List.getD_eq_getElem?_getD, this]
  apply List.ext_getElem?
  intro i
  by_cases hi : i < s.link_parents.length
  · exact key i hi
  · rw [List.getElem?_eq_none (by rw [h1.len]; omega), List.getElem?_eq_none (by rw [h2.len]; omega)]

/-- the pose of a link in a configuration is unique -/
theorem poseOf_unique {E : JEnv ℝ π'} {s : System ℝ π'} (h : Reachable E s) {name : String}
    {q : List ℝ} {y y' : Transform ℝ}
    (h1 : PoseOf E s name q y) (h2 : PoseOf E s name q y') : y = y' := by
  obtain ⟨i, xs, s1, hi, hf, hx⟩ := h1
  obtain ⟨j, ys, s2, hj, hf', hy⟩ := h2
  have hij : i = j := by
    obtain ⟨a, ha⟩ := List.getElem?_eq_some_iff.1 hi
    obtain ⟨b, hb⟩ := List.getElem?_eq_some_iff.1 hj
    exact (List.Nodup.getElem_inj_iff h.wf.names_nodup).1 (ha.trans hb.symm)
  subst hij
  rw [isFK_xs_unique h hf hf'] at hx
  rw [hx] at hy
  exact Option.some.inj hy

/-- all poses are rigid if the quaternions of the configuration are unit quaternions -/
theorem poseOf_unit {E : JEnv ℝ π'} {s : System ℝ π'} (h : Reachable E s)
    (ht : ∀ l ∈ s.links, l.transform1.rot.normSq = 1) {name : String} {q : List ℝ}
    (hu : s.UnitQ E q) {y : Transform ℝ} (hy : PoseOf E s name q y) : y.rot.normSq = 1 := by
  obtain ⟨i, xs, s1, -, hf, hx⟩ := hy
  have key : ∀ (i : Nat) (y : Transform ℝ), xs[i]? = some y → y.rot.normSq = 1 := by
    intro i
    induction i using Nat.strong_induction_on with
    | _ i ih =>
      intro y hx
      have hi : i < s.link_parents.length := by
        rw [← hf.len]; exact (List.getElem?_eq_some_iff.1 hx).1
      have hi2 : i < s.link_types.length := by rw [h.wf.types_len]; exact hi
      have hrow : s.links[i]? = some (s.links[i]'(by rw [h.wf.links_len]; exact hi)) :=
        List.getElem?_eq_getElem _
      obtain ⟨T, hT, hy, _⟩ := hf.pose i hi _ hrow
      rw [hx] at hy
      rw [Option.some.inj hy]
      obtain ⟨b, _, hb⟩ := h.builtin s.link_types[i] (List.getElem_mem _)
      obtain ⟨jm, p, e1, e2, rfl⟩ := hT
      have hd : s.link_types.getD i "" = b.name := by simp [List.getD, hi2, hb]
      rw [hd, h.std.joints] at e1
      cases e1
      apply transform_mul_unit
      · refine transform_mul_unit (builtin_transform_unit b ?_ p) (ht _ (List.getElem_mem _))
        intro hq
        exact hu i hi2 (by rw [hb, is_quat_name]; exact hq)
      · unfold poseAt
        split
        · simp [Transform.zero, unitQuat, Quat.normSq]
        · have := (h.wf.topo i hi).2
          have h0 := (h.wf.topo i hi).1
          have hlt : s.link_parents[i].toNat < xs.length := by rw [hf.len]; omega
          rw [List.getD_eq_getElem?_getD, List.getElem?_eq_getElem hlt, Option.getD_some]
          exact ih _ (by omega) _ (List.getElem?_eq_getElem _)
  exact key i y hx

/-! ## `argmin` -/

theorem argmin_fold : ∀ (l : List ℝ) (k : Nat) (b : ℝ) (bi : Nat), bi < k →
    ∃ (v : ℝ) (i : Nat), ((l.map Fl.fin).zipIdx k).foldl
        (fun (best : Fl ℝ × Nat) w => if flLt w.1 best.1 then w else best) (.fin b, bi) =
          (.fin v, i) ∧
      ((v = b ∧ i = bi ∧ ∀ x ∈ l, b ≤ x) ∨
        (v < b ∧ k ≤ i ∧ l[i - k]? = some v ∧ (∀ x ∈ l, v ≤ x) ∧
          ∀ j x, j < i - k → l[j]? = some x → v < x)) := by
  intro l
  induction l with
  | nil => intro k b bi _; exact ⟨b, bi, rfl, .inl ⟨rfl, rfl, by simp⟩⟩
  | cons a l ih =>
    intro k b bi hb
    simp only [List.map_cons, List.zipIdx_cons, List.foldl_cons, flLt]
    by_cases hab : a < b
    · simp only [hab, decide_true, if_true]
      obtain ⟨v, i, h1, h2⟩ := ih (k + 1) a k (by omega)
      refine ⟨v, i, h1, .inr ?_⟩
      rcases h2 with ⟨rfl, rfl, h3⟩ | ⟨h3, h4, h5, h6, h7⟩
      · refine ⟨hab, le_refl _, by simp, ?_, by intro j x hj; omega⟩
        intro x hx
        rcases List.mem_cons.1 hx with rfl | hx
        · exact le_refl _
        · exact h3 x hx
      · refine ⟨h3.trans hab, by omega, ?_, ?_, ?_⟩
        · rw [show i - k = (i - (k + 1)) + 1 by omega]; simpa using h5
        · intro x hx
          rcases List.mem_cons.1 hx with rfl | hx
          · exact h3.le
          · exact h6 x hx
        · intro j x hj hx
          cases j with
          | zero => simp at hx; exact hx ▸ h3
          | succ j => exact h7 j x (by omega) (by simpa using hx)
    · simp only [hab, decide_false, Bool.false_eq_true, if_false]
      obtain ⟨v, i, h1, h2⟩ := ih (k + 1) b bi (by omega)
      refine ⟨v, i, h1, ?_⟩
      rcases h2 with ⟨rfl, rfl, h3⟩ | ⟨h3, h4, h5, h6, h7⟩
      · refine .inl ⟨rfl, rfl, ?_⟩
        intro x hx
        rcases List.mem_cons.1 hx with rfl | hx
        · exact not_lt.1 hab
        · exact h3 x hx
      · refine .inr ⟨h3, by omega, ?_, ?_, ?_⟩
        · rw [show i - k = (i - (k + 1)) + 1 by omega]; simpa using h5
        · intro x hx
          rcases List.mem_cons.1 hx with rfl | hx
          · exact h3.le.trans (not_lt.1 hab)
          · exact h6 x hx
        · intro j x hj hx
          cases j with
          | zero => simp at hx; exact hx ▸ h3.trans_le (not_lt.1 hab)
          | succ j => exact h7 j x (by omega) (by simpa using hx)

/-- without NaNs, `argmin` is the first minimum -/
theorem argmin_fin {l : List ℝ} (hl : l ≠ []) : ∃ (i : Nat) (v : ℝ),
    argmin (l.map Fl.fin) = .ok i ∧ l[i]? = some v ∧ (∀ x ∈ l, v ≤ x) ∧
      ∀ j x, j < i → l[j]? = some x → v < x := by
  match l, hl with
  | a :: l, _ =>
    have hnan : (Fl.fin a :: l.map Fl.fin).findIdx? Fl.isNan = none := by
      rw [List.findIdx?_eq_none_iff]
      intro x hx
      rcases List.mem_cons.1 hx with rfl | hx
      · rfl
      · obtain ⟨y, _, rfl⟩ := List.mem_map.1 hx; rfl
    obtain ⟨v, i, h1, h2⟩ := argmin_fold l 1 a 0 (by omega)
    refine ⟨i, v, ?_, ?_⟩
    · simp only [List.map_cons, argmin, hnan, h1]
    · rcases h2 with ⟨rfl, rfl, h3⟩ | ⟨h3, h4, h5, h6, h7⟩
      · refine ⟨rfl, ?_, by intro j x hj; omega⟩
        intro x hx
        rcases List.mem_cons.1 hx with rfl | hx
        · exact le_refl _
        · exact h3 x hx
      · refine ⟨?_, ?_, ?_⟩
        · obtain ⟨i, rfl⟩ : ∃ k, i = k + 1 := ⟨i - 1, by omega⟩
          simpa using h5
        · intro x hx
          rcases List.mem_cons.1 hx with rfl | hx
          · exact h3.le
          · exact h6 x hx
        · intro j x hj hx
          cases j with
          | zero => simp at hx; exact hx ▸ h3
          | succ j => exact h7 j x (by omega) (by simpa using hx)

/-- a NaN is the minimum -/
theorem argmin_nan {l : List (Fl ℝ)} (hl : Fl.nan ∈ l) :
    ∃ i : Nat, argmin l = .ok i ∧ l[i]? = some .nan := by
  cases l with
  | nil => cases hl
  | cons v vs =>
    cases hf : (v :: vs).findIdx? Fl.isNan with
    | none =>
      rw [List.findIdx?_eq_none_iff] at hf
      have := hf _ hl
      simp [Fl.isNan] at this
    | some i =>
      refine ⟨i, by simp only [argmin, hf], ?_⟩
      obtain ⟨h, h1, _⟩ := List.findIdx?_eq_some_iff_getElem.1 hf
      rw [List.getElem?_eq_getElem h]
      cases e : (v :: vs)[i] <;> rw [e] at h1 <;> simp [Fl.isNan] at h1 ⊢

/-! ## One initial value -/

/-- Specification: `q` with residual `v` is the answer that belongs to the vector `p` found by the
optimiser: valid joint values, and the error of the pose that the end effector has with them. -/
structure Answer (E : JEnv ℝ π') (s : System ℝ π') (name : String) (x : Transform ℝ) (wr wp : ℝ)
    (p q : List ℝ) (v : ℝ) : Prop where
  len : q.length = (s.link_types.map (wOf E.qw)).sum
  coords : ∀ i b, s.link_types[i]? = some (BuiltIn.name b) →
    CoordSpec b (ownSlice E.qw s.link_types p i) (ownSlice E.qw s.link_types q i)
  conf : s.coordinate_vector_to_q E p = .ok q
  valid : s.coordinate_vector_to_q E q = .ok q
  value : ∃ y, PoseOf E s name q y ∧ v = poseError wr wp x y

theorem answer_of {E : JEnv ℝ π'} {s : System ℝ π'} (h : Reachable E s) {name : String}
    (hn : name ∈ s.link_names) (x : Transform ℝ) (wr wp : ℝ) {p : List ℝ}
    (hp : p.length = (s.link_types.map (wOf E.qw)).sum) :
    ∃ q v, s.coordinate_vector_to_q E p = .ok q ∧
      ik_objective E s name x wr wp (fun _ => none) p = .ok v ∧ Answer E s name x wr wp p q v := by
  obtain ⟨q, y, h1, h2, h3, h4⟩ := objective_ok h hn x wr wp hp
  obtain ⟨q', g1, g2, g3, g4⟩ := C11_to_q h.std h.wf.toConsistent h.nonempty h.builtin hp
  rw [h1] at g1
  cases g1
  exact ⟨q, _, h1, h4, ⟨h2.trans hp, g3, h1, g4, y, h3, rfl⟩⟩

theorem run_ok {E : JEnv ℝ π'} {s : System ℝ π'} (h : Reachable E s) {solver : Solver}
    (hs : solver.Ok) {name : String} (hn : name ∈ s.link_names) (x : Transform ℝ) (wr wp : ℝ)
    {q0 : List ℝ} (hq : q0.length = (s.link_types.map (wOf E.qw)).sum) :
    (solver (ik_objective E s name x wr wp fun _ => none) q0 = .ok none ∧
      ik_run E s solver name x wr wp (fun _ => none) q0 = .ok (none, .nan, none)) ∨
    ∃ p q v, solver (ik_objective E s name x wr wp fun _ => none) q0 = .ok (some p) ∧
      ik_run E s solver name x wr wp (fun _ => none) q0 = .ok (some q, .fin v, some p) ∧
      ik_objective E s name x wr wp (fun _ => none) p = .ok v ∧
      Answer E s name x wr wp p q v := by
  obtain ⟨r, hr, hl⟩ := hs.total (ik_objective E s name x wr wp fun _ => none) q0 (by
    intro q hq'
    obtain ⟨_, v, _, hv, _⟩ := answer_of h hn x wr wp (hq'.trans hq)
    exact ⟨v, hv⟩)
  unfold ik_run
  cases r with
  | none => exact .inl ⟨hr, by simp only [hr, ok_bind]; rfl⟩
  | some p =>
    obtain ⟨q, v, h1, h2, h3⟩ := answer_of h hn x wr wp ((hl p rfl).trans hq)
    exact .inr ⟨p, q, v, hr, by simp only [hr, h1, h2, ok_bind]; rfl, h2, h3⟩

theorem q_size_ok {E : JEnv ℝ π'} {s : System ℝ π'} (h : Reachable E s) :
    s.q_size E.toEnv = .ok (s.link_types.map (wOf E.qw)).sum := by
  unfold q_size
  exact sumWidths_known fun t ht => (h.wf.known t ht).1

/-- **C77.** From one initial value: if the optimiser ends with a vector then valid joint values are
returned, together with the error of the pose that the end effector has with exactly these joint
values. -/
theorem C77_single {K : Type} (R : Rng K) {E : JEnv ℝ π'} {s : System ℝ π'} (h : Reachable E s)
    {solver : Solver} (hs : solver.Ok) {name : String} (hn : name ∈ s.link_names) (x : Transform ℝ)
    (wr wp : ℝ) {q0 : List ℝ} (hq : q0.length = (s.link_types.map (wOf E.qw)).sum) (key : Option K) :
    ∃ out, s.inverse_kinematics_endeffector R E solver name x wr wp (some q0) none key = .ok out ∧
      ((solver (ik_objective E s name x wr wp fun _ => none) q0 = .ok none ∧
          out = ⟨none, .nan, [none]⟩) ∨
        ∃ p q v, solver (ik_objective E s name x wr wp fun _ => none) q0 = .ok (some p) ∧
          out = ⟨some q, .fin v, [some p]⟩ ∧ Answer E s name x wr wp p q v) := by
  unfold inverse_kinematics_endeffector
  simp only [q_size_ok h, ok_bind, Option.isSome_none, Bool.false_eq_true, if_false, pure_ok]
  rw [pyAssert_true (by simpa using hq)]
  simp only [ok_bind]
  rcases run_ok h hs hn x wr wp hq with ⟨h1, h2⟩ | ⟨p, q, v, h1, h2, _, h3⟩
  · exact ⟨_, by simp only [h2, ok_bind], .inl ⟨h1, rfl⟩⟩
  · exact ⟨_, by simp only [h2, ok_bind], .inr ⟨p, q, v, h1, rfl, h3⟩⟩

/-- **C77.** Without initial value and without random starts the optimisation begins at the rest
configuration: unit quaternions, all other joint values zero. -/
theorem C77_default {K : Type} (R : Rng K) {E : JEnv ℝ π'} {s : System ℝ π'} (h : Reachable E s)
    (solver : Solver) (name : String) (x : Transform ℝ) (wr wp : ℝ) (key : Option K)
    (cj : String → Option (List ℝ → List ℝ)) :
    ∃ q0 : List ℝ, q0.length = (s.link_types.map (wOf E.qw)).sum ∧
      (∀ i t, s.link_types[i]? = some t →
        (joint_type_is_free_or_cor_or_spherical t = true →
          ∃ k, ownSlice E.qw s.link_types q0 i = 1 :: List.replicate k 0) ∧
        (joint_type_is_free_or_cor_or_spherical t = false →
          ∃ k, ownSlice E.qw s.link_types q0 i = List.replicate k 0)) ∧
      s.inverse_kinematics_endeffector R E solver name x wr wp none none key cj =
        s.inverse_kinematics_endeffector R E solver name x wr wp (some q0) none key cj := by
  obtain ⟨st, h1, h2, _, _, h3⟩ := C11_create h.wf.toConsistent (by
    intro t ht hq
    obtain ⟨b, _, rfl⟩ := h.builtin t ht
    rw [(wOf_std h.std b).1]
    rw [is_quat_name] at hq
    cases b <;> simp [isFreeOrCor, isSpherical] at hq <;> decide)
  refine ⟨st.q, h2, h3, ?_⟩
  unfold inverse_kinematics_endeffector
  simp only [q_size_ok h, ok_bind, Option.isSome_none, Bool.false_eq_true, if_false, pure_ok, h1]
  rw [pyAssert_true (by simpa using h2)]
  rfl

/-! ## Several initial values -/

/-- row `i` of the `n` random initial values -/
noncomputable def startAt {K : Type} (R : Rng K) (key : K) (n m i : Nat) : List ℝ :=
  (List.range m).map fun j => R.normal key (n * m) (i * m + j)

/-- **C77.** With random starts there is one run per start, each from its own row of the sample. If
none of them ends with NaNs then the returned joint values are those of the best run (of the first
one, if there are several), with its residual. If one of them ends with NaNs, NaNs are returned. -/
theorem C77_best {K : Type} (R : Rng K) {E : JEnv ℝ π'} {s : System ℝ π'} (h : Reachable E s)
    {solver : Solver} (hs : solver.Ok) {name : String} (hn : name ∈ s.link_names) (x : Transform ℝ)
    (wr wp : ℝ) {n : Nat} (hpos : 0 < n) (key : K) :
    ∃ out, s.inverse_kinematics_endeffector R E solver name x wr wp none (some n) (some key) =
        .ok out ∧
      out.results.length = n ∧
      (∀ i r, out.results[i]? = some r → solver (ik_objective E s name x wr wp fun _ => none)
        (startAt R key n (s.link_types.map (wOf E.qw)).sum i) = .ok r) ∧
      (none ∉ out.results → ∃ (i : Nat) (p q : List ℝ) (v : ℝ), out.results[i]? = some (some p) ∧
        out.q = some q ∧ out.value = .fin v ∧ Answer E s name x wr wp p q v ∧
        ∀ (j : Nat) (p' q' : List ℝ) (v' : ℝ), out.results[j]? = some (some p') →
          Answer E s name x wr wp p' q' v' → v ≤ v' ∧ (j < i → v < v')) ∧
      (none ∈ out.results → out.q = none ∧ out.value = .nan) := by
  set m := (s.link_types.map (wOf E.qw)).sum with hm
  set f := ik_objective E s name x wr wp fun _ => none with hf
  have hrun : ∀ i, ∃ r, ik_run E s solver name x wr wp (fun _ => none) (startAt R key n m i) =
      .ok r ∧ solver f (startAt R key n m i) = .ok r.2.2 ∧
      ((r = (none, .nan, none)) ∨ ∃ p q v, r = (some q, .fin v, some p) ∧ f p = .ok v ∧
        Answer E s name x wr wp p q v) := by
    intro i
    rcases run_ok h hs hn x wr wp (q0 := startAt R key n m i) (by simp [startAt, hm]) with
      ⟨h1, h2⟩ | ⟨p, q, v, h1, h2, h3, h4⟩
    · exact ⟨_, h2, h1, .inl rfl⟩
    · exact ⟨_, h2, h1, .inr ⟨p, q, v, rfl, h3, h4⟩⟩
  choose r hr1 hr2 hr3 using hrun
  have hmap : (((List.range n).map fun i => startAt R key n m i).mapM fun q0 => do
      pyAssert (q0.length = m)
      ik_run E s solver name x wr wp (fun _ => none) q0) = .ok ((List.range n).map r) := by
    rw [List.mapM_map, mapM_ok]
    intro i _
    simp only [Function.comp]
    rw [pyAssert_true (by simp [startAt])]
    exact hr1 i
  have hunf : ∀ (i : Nat), argmin (((List.range n).map r).map fun r => r.2.1) = .ok i → i < n →
      s.inverse_kinematics_endeffector R E solver name x wr wp none (some n) (some key) =
        .ok ⟨(r i).1, (r i).2.1, ((List.range n).map r).map fun r => r.2.2⟩ := by
    intro i hi hlt
    unfold inverse_kinematics_endeffector
    simp only [q_size_ok h, ok_bind, Option.isSome_some, Option.isNone_none, if_true]
    simp only [pyAssert_true trivial, ok_bind]
    have hmap' := hmap
    simp only [startAt] at hmap'
    rw [hmap']
    simp only [ok_bind, hi]
    rw [pyGet_nat (x := r i) (by simp [hlt])]
    rfl
  have hres : ∀ i (a : Option (List ℝ)), (((List.range n).map r).map fun r => r.2.2)[i]? = some a →
      i < n ∧ a = (r i).2.2 := by
    intro i a ha
    obtain ⟨hi, ha⟩ := List.getElem?_eq_some_iff.1 ha
    simp at hi ha
    exact ⟨hi, ha.symm⟩
  by_cases hnone : none ∈ ((List.range n).map r).map fun r => r.2.2
  · obtain ⟨i, hi, hv⟩ := argmin_nan (l := ((List.range n).map r).map fun r => r.2.1) (by
      obtain ⟨a, ha, e⟩ := List.mem_map.1 hnone
      obtain ⟨i, hi, rfl⟩ := List.mem_map.1 ha
      refine List.mem_map.2 ⟨r i, ha, ?_⟩
      rcases hr3 i with e' | ⟨p, q, v, e', _⟩
      · rw [e']
      · rw [e'] at e; cases e)
    have hlt : i < n := by
      have := (List.getElem?_eq_some_iff.1 hv).1
      simpa using this
    have hv' : (r i).2.1 = .nan := by
      obtain ⟨_, e⟩ := List.getElem?_eq_some_iff.1 hv
      simpa using e
    have hri : r i = (none, .nan, none) := by
      rcases hr3 i with e' | ⟨p, q, v, e', _⟩
      · exact e'
      · rw [e'] at hv'; cases hv'
    refine ⟨_, hunf i hi hlt, by simp, ?_, fun hc => absurd hnone hc, fun _ => ?_⟩
    · intro j a ha
      obtain ⟨_, rfl⟩ := hres j a ha
      exact hr2 j
    · rw [hri]; exact ⟨rfl, rfl⟩
  · have hsome : ∀ i, i < n → ∃ p q v, r i = (some q, .fin v, some p) ∧ f p = .ok v ∧
        Answer E s name x wr wp p q v := by
      intro i hi
      rcases hr3 i with e | e
      · exfalso
        apply hnone
        refine List.mem_map.2 ⟨r i, List.mem_map.2 ⟨i, List.mem_range.2 hi, rfl⟩, by rw [e]⟩
      · exact e
    choose! p q v hv1 hv2 hv3 using hsome
    have hvals : (((List.range n).map r).map fun r => r.2.1) = ((List.range n).map v).map Fl.fin := by
      apply List.ext_getElem
      · simp
      · intro i h1 h2
        have hi : i < n := by simpa using h1
        simp [hv1 i hi]
    obtain ⟨i, v0, hi, hvi, hmin, hfirst⟩ := argmin_fin (l := (List.range n).map v) (by
      intro e
      have := congrArg List.length e
      simp at this
      omega)
    have hlt : i < n := by
      have := (List.getElem?_eq_some_iff.1 hvi).1
      simpa using this
    have hvi' : v i = v0 := by
      obtain ⟨_, e⟩ := List.getElem?_eq_some_iff.1 hvi
      simpa using e
    refine ⟨_, hunf i (by rw [hvals]; exact hi) hlt, by simp, ?_, fun _ => ?_,
      fun hc => absurd hc hnone⟩
    · intro j a ha
      obtain ⟨_, rfl⟩ := hres j a ha
      exact hr2 j
    · refine ⟨i, p i, q i, v i, ?_, by rw [hv1 i hlt], by rw [hv1 i hlt], hv3 i hlt, ?_⟩
      · simp [hlt, hv1 i hlt]
      · intro j p' q' v' hj ha
        obtain ⟨hjn, e⟩ := hres j _ hj
        rw [hv1 j hjn] at e
        cases e
        have hvv : v' = v j := by
          obtain ⟨y, hy, rfl⟩ := ha.value
          obtain ⟨y', hy', e⟩ := (hv3 j hjn).value
          have hq := ha.conf
          rw [(hv3 j hjn).conf] at hq
          rw [Except.ok.inj hq] at hy'
          rw [e, poseOf_unique h hy hy']
        subst hvv
        rw [hvi']
        refine ⟨hmin _ (List.mem_map.2 ⟨j, List.mem_range.2 hjn, rfl⟩), fun hji => ?_⟩
        exact hfirst j _ hji (by simp [hjn])

/-! ## The residual -/

theorem poseError_nonneg {wr wp : ℝ} (hr : 0 ≤ wr) (hp : 0 ≤ wp) (x y : Transform ℝ) :
    0 ≤ poseError wr wp x y := by
  unfold poseError angle_error
  positivity

/-- the quaternions found by the optimiser are not negligibly small -/
def NotTiny (E : JEnv ℝ π') (s : System ℝ π') (p : List ℝ) : Prop :=
  ∀ i (_ : i < s.link_types.length), joint_type_is_free_or_cor_or_spherical s.link_types[i] = true →
    ∃ j, j < 4 ∧ 1e-8 < |(ownSlice E.qw s.link_types p i).getD j 0|

theorem Answer.unitQ {E : JEnv ℝ π'} {s : System ℝ π'} (h : Reachable E s) {name : String}
    {x : Transform ℝ} {wr wp : ℝ} {p q : List ℝ} {v : ℝ} (ha : Answer E s name x wr wp p q v)
    (hp : NotTiny E s p) : s.UnitQ E q := by
  intro i hi hq
  obtain ⟨b, _, hb⟩ := h.builtin s.link_types[i] (List.getElem_mem _)
  have hc := ha.coords i b (by rw [List.getElem?_eq_getElem hi, hb])
  have ht := hp i hi hq
  rw [hb, is_quat_name] at hq
  cases b <;> simp [isFreeOrCor, isSpherical] at hq <;> exact (hc.2 ht).1

/-- **C77.** The residual is not negative. It is zero exactly if the end effector sits at the wanted
position and is oriented as wanted (up to the tolerance of `angle_error`, a rotation by at most
`1e-7`, the sign of the quaternion being irrelevant) -/
theorem C77_residual {E : JEnv ℝ π'} {s : System ℝ π'} (h : Reachable E s)
    (ht : ∀ l ∈ s.links, l.transform1.rot.normSq = 1) {name : String} {x : Transform ℝ}
    (hx : x.rot.normSq = 1) {wr wp : ℝ} (hr : 0 < wr) (hp : 0 < wp) {p q : List ℝ} {v : ℝ}
    (ha : Answer E s name x wr wp p q v) (htiny : NotTiny E s p) :
    ∃ y, PoseOf E s name q y ∧ 0 ≤ v ∧
      (v = 0 → y.pos = x.pos ∧ 2 * arccos |x.rot.w * y.rot.w + x.rot.x * y.rot.x +
        x.rot.y * y.rot.y + x.rot.z * y.rot.z| ≤ 1e-7) ∧
      (y.pos = x.pos → y.rot = x.rot ∨ y.rot = -x.rot → v = 0) := by
  obtain ⟨y, hy, rfl⟩ := ha.value
  have hyu : y.rot.normSq = 1 := poseOf_unit h ht (ha.unitQ h htiny) hy
  have hx' : x.rot.IsUnit := hx
  have hy' : y.rot.IsUnit := hyu
  refine ⟨y, hy, poseError_nonneg hr.le hp.le x y, ?_, ?_⟩
  · intro hv
    unfold poseError at hv
    have h1 : 0 ≤ wr * angle_error x.rot y.rot := mul_nonneg hr.le (abs_nonneg _)
    have h2 : 0 ≤ wp * √((x.pos.x - y.pos.x) ^ 2 + (x.pos.y - y.pos.y) ^ 2 +
      (x.pos.z - y.pos.z) ^ 2) := mul_nonneg hp.le (sqrt_nonneg _)
    have h3 : angle_error x.rot y.rot = 0 := by
      have : wr * angle_error x.rot y.rot = 0 := by linarith
      rcases mul_eq_zero.1 this with h | h
      · exact absurd h hr.ne'
      · exact h
    have h4 : √((x.pos.x - y.pos.x) ^ 2 + (x.pos.y - y.pos.y) ^ 2 + (x.pos.z - y.pos.z) ^ 2) = 0 := by
      have : wp * √((x.pos.x - y.pos.x) ^ 2 + (x.pos.y - y.pos.y) ^ 2 +
        (x.pos.z - y.pos.z) ^ 2) = 0 := by linarith
      rcases mul_eq_zero.1 this with h | h
      · exact absurd h hp.ne'
      · exact h
    constructor
    · rw [sqrt_eq_zero (by positivity)] at h4
      have e1 : x.pos.x - y.pos.x = 0 := by
        nlinarith [sq_nonneg (x.pos.x - y.pos.x), sq_nonneg (x.pos.y - y.pos.y),
          sq_nonneg (x.pos.z - y.pos.z)]
      have e2 : x.pos.y - y.pos.y = 0 := by
        nlinarith [sq_nonneg (x.pos.x - y.pos.x), sq_nonneg (x.pos.y - y.pos.y),
          sq_nonneg (x.pos.z - y.pos.z)]
      have e3 : x.pos.z - y.pos.z = 0 := by
        nlinarith [sq_nonneg (x.pos.x - y.pos.x), sq_nonneg (x.pos.y - y.pos.y),
          sq_nonneg (x.pos.z - y.pos.z)]
      ext <;> linarith
    · by_cases hn : Negligible (quat_mul (quat_inv x.rot) y.rot)
      · exact ((C14_angle_error hx' hy').2 hn).2
      · rw [← (C14_angle_error hx' hy').1 hn, h3]; norm_num
  · intro h1 h2
    have h3 : angle_error x.rot y.rot = 0 := by
      obtain ⟨_, _, e1, e2, _⟩ := C14_angle_error_laws hx' hx' hx'
      rcases h2 with h2 | h2
      · rw [h2]; exact e1
      · rw [h2]; exact e2
    unfold poseError
    rw [h3, h1]
    simp

/-- **C77.** The sign of the quaternion of the wanted pose is irrelevant. -/
theorem C77_sign {E : JEnv ℝ π'} {s : System ℝ π'} (h : Reachable E s)
    (ht : ∀ l ∈ s.links, l.transform1.rot.normSq = 1) {name : String} {x : Transform ℝ}
    (hx : x.rot.normSq = 1) {wr wp : ℝ} {p q : List ℝ} {v : ℝ} (htiny : NotTiny E s p) :
    Answer E s name x wr wp p q v → Answer E s name ⟨x.pos, -x.rot⟩ wr wp p q v := by
  intro ha
  obtain ⟨y, hy, rfl⟩ := ha.value
  refine ⟨ha.len, ha.coords, ha.conf, ha.valid, y, hy, ?_⟩
  have hyu : y.rot.IsUnit := poseOf_unit h ht (ha.unitQ h htiny) hy
  have hxu : x.rot.IsUnit := hx
  have := (C14_angle_error_laws hxu hyu hxu).2.2.2.2.1
  unfold poseError
  rw [this]

/-- **C77.** An optimiser that does not increase its objective gives a residual that is at most the
error of the pose in the initial configuration. -/
theorem C77_descent {K : Type} (R : Rng K) {E : JEnv ℝ π'} {s : System ℝ π'} (h : Reachable E s)
    {solver : Solver} (hs : solver.Ok) (hd : solver.Descends) {name : String}
    (hn : name ∈ s.link_names) (x : Transform ℝ) (wr wp : ℝ) {q0 : List ℝ}
    (hq : q0.length = (s.link_types.map (wOf E.qw)).sum) (key : Option K) {out : IKOut}
    (ho : s.inverse_kinematics_endeffector R E solver name x wr wp (some q0) none key = .ok out)
    {v : ℝ} (hv : out.value = .fin v) :
    ∃ q1 y0, s.coordinate_vector_to_q E q0 = .ok q1 ∧ PoseOf E s name q1 y0 ∧
      v ≤ poseError wr wp x y0 := by
  obtain ⟨q1, y0, h1, _, h2, h3⟩ := objective_ok h hn x wr wp hq
  refine ⟨q1, y0, h1, h2, ?_⟩
  obtain ⟨out', ho', hc⟩ := C77_single R h hs hn x wr wp hq key
  rw [ho] at ho'
  cases ho'
  rcases hc with ⟨_, rfl⟩ | ⟨p, q, v', e1, rfl, ha⟩
  · cases hv
  · cases hv
    obtain ⟨q', v'', e2, e3, ha'⟩ := answer_of h hn x wr wp (p := p) (by
      obtain ⟨r, hr, hl⟩ := hs.total (ik_objective E s name x wr wp fun _ => none) q0 (by
        intro q hq'
        obtain ⟨_, v, _, hv, _⟩ := answer_of h hn x wr wp (hq'.trans hq)
        exact ⟨v, hv⟩)
      rw [e1] at hr
      cases hr
      exact (hl p rfl).trans hq)
    have : v'' = v := by
      obtain ⟨y, hy, rfl⟩ := ha.value
      obtain ⟨y', hy', rfl⟩ := ha'.value
      rw [ha.conf] at e2
      cases e2
      rw [poseOf_unique h hy hy']
    subst this
    exact hd _ _ _ _ _ e1 h3 e3

/-- **C77.** With user supplied functions for some joints, and for every system: the residual is the
error of the pose that forward kinematics gives for the returned joint values. -/
theorem C77_value {K : Type} (R : Rng K) {E : JEnv ℝ π'} {s : System ℝ π'} {solver : Solver}
    {name : String} {x : Transform ℝ} {wr wp : ℝ} {q0 : Option (List ℝ)} {n : Option Nat}
    {key : Option K} {cj : String → Option (List ℝ → List ℝ)} {out : IKOut}
    (ho : s.inverse_kinematics_endeffector R E solver name x wr wp q0 n key cj = .ok out) :
    (out.q = none ∧ out.value = .nan) ∨
    ∃ (q p : List ℝ) (xs : List (Transform ℝ)) (s' : System ℝ π') (i : Nat) (y : Transform ℝ),
      out.q = some q ∧ some p ∈ out.results ∧ s.coordinate_vector_to_q E p cj = .ok q ∧
      s.forward_kinematics_transforms E q = .ok (xs, s') ∧ s.link_names[i]? = some name ∧
      xs[i]? = some y ∧ out.value = .fin (poseError wr wp x y) := by
  have run : ∀ q0 r, ik_run E s solver name x wr wp cj q0 = .ok r →
      (r.1 = none ∧ r.2.1 = .nan) ∨
      ∃ (q p : List ℝ) (xs : List (Transform ℝ)) (s' : System ℝ π') (i : Nat) (y : Transform ℝ),
        r.1 = some q ∧ r.2.2 = some p ∧ s.coordinate_vector_to_q E p cj = .ok q ∧
        s.forward_kinematics_transforms E q = .ok (xs, s') ∧ s.link_names[i]? = some name ∧
        xs[i]? = some y ∧ r.2.1 = .fin (poseError wr wp x y) := by
    intro q0 r hr
    unfold ik_run at hr
    simp only at hr
    cases h1 : solver (ik_objective E s name x wr wp cj) q0 with
    | error e => rw [h1] at hr; cases hr
    | ok a =>
      rw [h1] at hr
      simp only [ok_bind] at hr
      cases a with
      | none => obtain rfl := Except.ok.inj hr; exact .inl ⟨rfl, rfl⟩
      | some p =>
        simp only at hr
        cases h2 : s.coordinate_vector_to_q E p cj with
        | error e => rw [h2] at hr; cases hr
        | ok q =>
          cases h3 : ik_objective E s name x wr wp cj p with
          | error e => rw [h2, h3] at hr; cases hr
          | ok v =>
            rw [h2, h3] at hr
            obtain rfl := Except.ok.inj hr
            obtain ⟨q', xs, s', i, y, e1, e2, e3, e4, rfl⟩ := objective_iff.1 h3
            rw [h2] at e1
            cases e1
            refine .inr ⟨q, p, xs, s', i, y, rfl, rfl, h2, e2, name_to_idx_ok e3, ?_, rfl⟩
            exact pyGet_some e4
  have single : ∀ q0, ((do
      let r ← ik_run E s solver name x wr wp cj q0
      pure (⟨r.1, r.2.1, [r.2.2]⟩ : IKOut)) : Py IKOut) = .ok out →
      (out.q = none ∧ out.value = .nan) ∨
      ∃ (q p : List ℝ) (xs : List (Transform ℝ)) (s' : System ℝ π') (i : Nat) (y : Transform ℝ),
        out.q = some q ∧ some p ∈ out.results ∧ s.coordinate_vector_to_q E p cj = .ok q ∧
        s.forward_kinematics_transforms E q = .ok (xs, s') ∧ s.link_names[i]? = some name ∧
        xs[i]? = some y ∧ out.value = .fin (poseError wr wp x y) := by
    intro q0 h
    obtain ⟨r, h1, h2⟩ := py_bind h
    obtain rfl := Except.ok.inj h2
    rcases run q0 r h1 with h | ⟨q, p, xs, s', i, y, e1, e2, e3⟩
    · exact .inl h
    · exact .inr ⟨q, p, xs, s', i, y, e1, by simp [e2], e3⟩
  unfold inverse_kinematics_endeffector at ho
  dsimp only at ho
  match q0, n, key, ho with
  | none, none, _, ho =>
    obtain ⟨st, -, ho⟩ := py_bind ho
    exact single _ ho
  | none, some n, some key, ho =>
    obtain ⟨_, -, ho⟩ := py_bind ho
    obtain ⟨_, -, ho⟩ := py_bind ho
    obtain ⟨m, -, ho⟩ := py_bind ho
    obtain ⟨rs, h1, ho⟩ := py_bind ho
    obtain ⟨i, -, ho⟩ := py_bind ho
    obtain ⟨best, h2, ho⟩ := py_bind ho
    obtain rfl := Except.ok.inj ho
    have hb := pyGet_some h2
    have hmem : best ∈ rs := List.mem_of_getElem? hb
    obtain ⟨q0, -, h3⟩ := mapM_mem h1 best hmem
    obtain ⟨_, -, h3⟩ := py_bind h3
    rcases run q0 best h3 with h | ⟨q, p, xs, s', i, y, e1, e2, e3⟩
    · exact .inl h
    · exact .inr ⟨q, p, xs, s', i, y, e1, List.mem_map.2 ⟨best, hmem, e2⟩, e3⟩
  | none, some n, none, ho => cases ho
  | some q0, some n, _, ho => cases ho
  | some q0, none, _, ho =>
    obtain ⟨m, -, ho⟩ := py_bind ho
    obtain ⟨_, -, ho⟩ := py_bind ho
    exact single _ ho

/-! ## Arguments -/

/-- **C77.** Contradicting or incomplete arguments are refused: initial value together with random
starts, random starts without key, an initial value of the wrong size, zero random starts, and a link
that does not exist. -/
theorem C77_arguments {K : Type} (R : Rng K) {E : JEnv ℝ π'} {s : System ℝ π'} (h : Reachable E s)
    {solver : Solver} (hs : solver.Ok) (name : String) (x : Transform ℝ) (wr wp : ℝ) :
    (∀ q0 n key cj, s.inverse_kinematics_endeffector R E solver name x wr wp (some q0) (some n) key cj =
      .error .assertion) ∧
    (∀ n cj, s.inverse_kinematics_endeffector R E solver name x wr wp none (some n) none cj =
      .error .assertion) ∧
    (∀ (q0 : List ℝ) key cj, q0.length ≠ (s.link_types.map (wOf E.qw)).sum →
      s.inverse_kinematics_endeffector R E solver name x wr wp (some q0) none key cj =
        .error .assertion) ∧
    (∀ key cj, s.inverse_kinematics_endeffector R E solver name x wr wp none (some 0) (some key) cj =
      .error .value) ∧
    (name ∉ s.link_names → ∀ (q0 : List ℝ) key, q0.length = (s.link_types.map (wOf E.qw)).sum →
      s.inverse_kinematics_endeffector R E solver name x wr wp (some q0) none key = .error .value) := by
  refine ⟨fun _ _ _ _ => rfl, fun _ _ => rfl, ?_, ?_, ?_⟩
  · intro q0 key cj hq
    unfold inverse_kinematics_endeffector
    simp only [q_size_ok h, ok_bind, Option.isSome_none, Bool.false_eq_true, if_false]
    rw [pyAssert_false (by simpa using hq)]
    rfl
  · intro key cj
    unfold inverse_kinematics_endeffector
    simp only [q_size_ok h, ok_bind, Option.isSome_some, Option.isNone_none, if_true,
      pyAssert_true trivial]
    rfl
  · intro hn q0 key hq
    unfold inverse_kinematics_endeffector
    simp only [q_size_ok h, ok_bind, Option.isSome_none, Bool.false_eq_true, if_false]
    rw [pyAssert_true (by simpa using hq)]
    obtain ⟨q', h1, h2, _, _⟩ := C11_to_q h.std h.wf.toConsistent h.nonempty h.builtin hq
    obtain ⟨xs, s', h3, h4⟩ := C22_forward h.wf h.jointed (h2.trans hq)
    have h5 : s.name_to_idx name = .error .value := by
      simp [name_to_idx, pyIndex, List.idxOf?_eq_none_iff.2 hn]
    have h6 : ik_objective E s name x wr wp (fun _ => none) q0 = .error .value := by
      unfold ik_objective
      simp only [h1, h3, h5, ok_bind]
      rfl
    unfold ik_run
    simp only [hs.raises _ _ _ h6, ok_bind]
    rfl

/-! ## Witnesses -/

/-- an optimiser that stops at once -/
def idSolver : Solver := fun f q0 => do
  let _ ← f q0
  pure (some q0)

theorem idSolver_ok : Solver.Ok idSolver where
  total f q0 h := by
    obtain ⟨v, hv⟩ := h q0 rfl
    exact ⟨some q0, by simp only [idSolver, hv, ok_bind]; rfl, fun p hp => by cases hp; rfl⟩
  raises f q0 e h := by simp only [idSolver, h]; rfl

theorem idSolver_descends : Solver.Descends idSolver := by
  intro f q0 p v0 v h h0 hv
  simp only [idSolver, h0, ok_bind] at h
  cases h
  rw [h0] at hv
  cases hv
  exact le_refl _

theorem kinSys_reachable : Reachable stdEnv kinSys where
  std := stdEnv_std
  wf := kinSys_wf
  default := kinSys_jointed.default
  builtin := kinSys_builtin
  nonempty := by simp [kinSys, num_links]

/-- the root of `kinSys` -/
theorem kinSys_root {q : List ℝ} (a b c d e f g : ℝ) (r : List ℝ)
    (hq : q = [a, b, c, d, e, f, g] ++ r) {y : Transform ℝ} (hy : PoseOf stdEnv kinSys "a" q y) :
    y = transform_mul ⟨⟨e, f, g⟩, ⟨a, b, c, d⟩⟩ ⟨⟨1, 0, 2⟩, ⟨0, 1, 0, 0⟩⟩ := by
  obtain ⟨i, xs, s', hi, hf, hx⟩ := hy
  have hi0 : i = 0 := by
    obtain ⟨h1, h2⟩ := List.getElem?_eq_some_iff.1 hi
    have h1' : i < 4 := h1
    match i, h1' with
    | 0, _ => rfl
    | 1, _ => simp [kinSys] at h2
    | 2, _ => simp [kinSys] at h2
    | 3, _ => simp [kinSys] at h2
  subst hi0
  obtain ⟨T, ⟨jm, p, e1, e2, rfl⟩, hx', _⟩ := hf.pose 0 (by simp [kinSys]) (kinRow 0) rfl
  rw [hx] at hx'
  have hn : kinSys.link_types.getD 0 "" = BuiltIn.name .free := rfl
  rw [hn, stdEnv_std.joints] at e1
  cases e1
  rw [Option.some.inj hx']
  have h7 : wOf stdEnv.qw "free" = 7 := by decide
  subst hq
  have hs : ownSlice stdEnv.qw kinSys.link_types ([a, b, c, d, e, f, g] ++ r) 0 =
      [a, b, c, d, e, f, g] := by
    simp [ownSlice, kinSys, h7]
  rw [hs]
  simp [poseAt, kinSys, kinRow, BuiltIn.model, _free_transform, quatOf]
  rw [transform_mul_zero]
  simp [vecOf]

theorem wrap_zero : wrap_to_pi 0 = 0 := by
  unfold wrap_to_pi pyMod
  have hp := pi_pos
  have : ⌊(0 + π) / (2 * π)⌋ = 0 := by
    rw [Int.floor_eq_iff]
    rw [zero_add, show π / (2 * π) = 1 / 2 by field_simp]
    norm_num
  rw [this]; simp

/-- the configuration that belongs to a vector for `kinSys` with vanishing or normalised root -/
theorem kinSys_to_q (a : ℝ) (ha : a = 0 ∨ a = 1) :
    kinSys.coordinate_vector_to_q stdEnv (a :: List.replicate 12 0) =
      .ok (a :: List.replicate 12 0) := by
  have hl : (a :: List.replicate 12 (0 : ℝ)).length = (kinSys.link_types.map (wOf stdEnv.qw)).sum := by
    rw [kinSys_widths.1]; rfl
  rw [to_q_eq stdEnv_std kinSys_consistent (by simp [kinSys, num_links]) kinSys_builtin hl,
    kinSys_widths.1]
  have h0 : allclose0' (⟨0, 0, 0, 0⟩ : Quat ℝ) := by
    unfold allclose0' isclose0; norm_num
  have h1 : ¬ allclose0' (⟨1, 0, 0, 0⟩ : Quat ℝ) := by
    unfold allclose0' isclose0; norm_num
  have hw := wrap_zero
  have e1 : BuiltIn.ofName "free" = some .free := BuiltIn.ofName_name .free
  have e2 : BuiltIn.ofName "rx" = some (.r .x) := BuiltIn.ofName_name (.r .x)
  have e3 : BuiltIn.ofName "py" = some (.p .y) := BuiltIn.ofName_name (.p .y)
  have e4 : BuiltIn.ofName "spherical" = some .spherical := BuiltIn.ofName_name .spherical
  congr 1
  rcases ha with rfl | rfl
  · simp [kinSys, chunks, toQ, e1, e2, e3, e4, BuiltIn.model,
      _coordinate_vector_to_q_free_spherical_cor, quatOf, quatList, safe_normalize4, h0, hw,
      List.replicate]
  · simp [kinSys, chunks, toQ, e1, e2, e3, e4, BuiltIn.model,
      _coordinate_vector_to_q_free_spherical_cor, quatOf, quatList, safe_normalize4, h0, h1, hw,
      norm4, List.replicate]

/-- the hypotheses are satisfiable: from the rest position, `d` towards some pose -/
example (R : Rng Unit) : ∃ out, kinSys.inverse_kinematics_endeffector R stdEnv idSolver "d"
    ⟨⟨1, 2, 3⟩, ⟨0, 0, 1, 0⟩⟩ 1 2 (some (1 :: List.replicate 12 0)) = .ok out ∧ out.q ≠ none := by
  obtain ⟨out, h1, h2⟩ := C77_single R kinSys_reachable idSolver_ok (name := "d")
    (by simp [kinSys]) ⟨⟨1, 2, 3⟩, ⟨0, 0, 1, 0⟩⟩ 1 2 (q0 := 1 :: List.replicate 12 0)
    (by rw [kinSys_widths.1]; rfl) none
  refine ⟨out, h1, ?_⟩
  rcases h2 with ⟨h2, _⟩ | ⟨p, q, v, _, rfl, _⟩
  · exfalso
    unfold idSolver at h2
    obtain ⟨_, _, h2⟩ := py_bind h2
    cases h2
  · simp

/-- **C77, violated.** A quaternion that vanishes (for instance because the initial value is a vector
of zeros, the first one a user might think of) stays zero, and its error of rotation is zero whatever
the wanted orientation is: an invalid configuration with residual zero is returned. -/
theorem C77_zero_fails {K : Type} (R : Rng K) (r : Quat ℝ) :
    kinSys.inverse_kinematics_endeffector R stdEnv idSolver "a" ⟨⟨1, 0, 2⟩, r⟩ 1 1
      (some (List.replicate 13 0)) = .ok ⟨some (List.replicate 13 0), .fin 0,
        [some (List.replicate 13 0)]⟩ := by
  obtain ⟨out, h1, h2⟩ := C77_single R kinSys_reachable idSolver_ok (name := "a")
    (by simp [kinSys]) ⟨⟨1, 0, 2⟩, r⟩ 1 1 (q0 := List.replicate 13 0)
    (by rw [kinSys_widths.1]; rfl) none
  rw [h1]
  rcases h2 with ⟨h2, _⟩ | ⟨p, q, v, h2, rfl, ha⟩
  · exfalso
    unfold idSolver at h2
    obtain ⟨_, _, h2⟩ := py_bind h2
    cases h2
  · unfold idSolver at h2
    obtain ⟨_, _, h2⟩ := py_bind h2
    obtain rfl := Option.some.inj (Except.ok.inj h2)
    have hq := ha.conf
    rw [show List.replicate 13 (0 : ℝ) = 0 :: List.replicate 12 0 from rfl,
      kinSys_to_q 0 (.inl rfl)] at hq
    obtain rfl := Except.ok.inj hq
    obtain ⟨y, hy, rfl⟩ := ha.value
    have hy' := kinSys_root 0 0 0 0 0 0 0 (List.replicate 6 0) rfl hy
    subst hy'
    have hw : quat_angle (⟨0, 0, 0, 0⟩ : Quat ℝ) = 0 := by
      unfold quat_angle
      have : safe_norm (⟨0, 0, 0, 0⟩ : Quat ℝ).vec = 0 := by
        unfold safe_norm allclose0 isclose0 Quat.vec
        norm_num
      rw [this]
      simp only [atan2]
      rw [show (⟨0, 0⟩ : ℂ) = 0 from rfl, Complex.arg_zero, mul_zero]
      exact wrap_zero
    have he : poseError 1 1 ⟨⟨1, 0, 2⟩, r⟩ (transform_mul ⟨⟨0, 0, 0⟩, ⟨0, 0, 0, 0⟩⟩
        ⟨⟨1, 0, 2⟩, ⟨0, 1, 0, 0⟩⟩) = 0 := by
      simp [poseError, angle_error, transform_mul, quat_mul, hw]
      simp [rotate, rotate_quat, quat_mul]
    rw [he]
    rfl

open Classical in
/-- an optimiser that ends with NaNs if the first number is negative, and else stops at once -/
noncomputable def nanSolver : Solver := fun f q0 => do
  let _ ← f q0
  pure (if q0.getD 0 0 < 0 then none else some q0)

theorem nanSolver_ok : Solver.Ok nanSolver where
  total f q0 h := by
    obtain ⟨v, hv⟩ := h q0 rfl
    refine ⟨_, by simp only [nanSolver, hv, ok_bind]; rfl, fun p hp => ?_⟩
    split at hp
    · cases hp
    · cases hp; rfl
  raises f q0 e h := by simp only [nanSolver, h]; rfl

/-- two initial values: one that begins with `-1`, and the rest position of the root -/
def twoStarts : Rng Unit where
  split k _ _ := k
  uniform _ := 0
  uniformN _ _ _ := 0
  choice _ _ := true
  randint _ lo _ := lo
  perm _ _ j := j
  normal _ _ j := if j = 0 then -1 else if j = 13 then 1 else 0

theorem twoStarts_second : startAt twoStarts () 2 13 1 = 1 :: List.replicate 12 0 := by
  simp [startAt, twoStarts, List.range_succ, List.replicate]

/-- **C77, violated.** The best of several starts is lost as soon as one of the others ends with
NaNs: the second start of two alone reaches the wanted pose exactly, both together return NaN. -/
theorem C77_diverged_fails :
    (∃ out, kinSys.inverse_kinematics_endeffector twoStarts stdEnv nanSolver "a"
        ⟨⟨1, 0, 2⟩, ⟨0, 1, 0, 0⟩⟩ 1 1 (some (startAt twoStarts () 2 13 1)) = .ok out ∧
        out.value = .fin 0 ∧ out.q ≠ none) ∧
    (∃ out, kinSys.inverse_kinematics_endeffector twoStarts stdEnv nanSolver "a"
        ⟨⟨1, 0, 2⟩, ⟨0, 1, 0, 0⟩⟩ 1 1 none (some 2) (some ()) = .ok out ∧
        out.value = .nan ∧ out.q = none) := by
  have hm : (kinSys.link_types.map (wOf stdEnv.qw)).sum = 13 := by rw [kinSys_widths.1]; rfl
  have hs : ∀ f q0 r, nanSolver f q0 = .ok r → r = if q0.getD 0 0 < 0 then none else some q0 := by
    intro f q0 r h
    obtain ⟨_, _, h⟩ := py_bind h
    exact (Except.ok.inj h).symm
  constructor
  · rw [twoStarts_second]
    obtain ⟨out, h1, h2⟩ := C77_single twoStarts kinSys_reachable nanSolver_ok (name := "a")
      (by simp [kinSys]) ⟨⟨1, 0, 2⟩, ⟨0, 1, 0, 0⟩⟩ 1 1 (q0 := 1 :: List.replicate 12 0)
      (by rw [hm]; rfl) none
    refine ⟨out, h1, ?_⟩
    rcases h2 with ⟨h2, _⟩ | ⟨p, q, v, h2, rfl, ha⟩
    · exfalso
      have := hs _ _ _ h2
      rw [if_neg (by norm_num)] at this
      cases this
    · have := hs _ _ _ h2
      rw [if_neg (by norm_num)] at this
      obtain rfl := Option.some.inj this
      have hq := ha.conf
      rw [kinSys_to_q 1 (.inr rfl)] at hq
      obtain rfl := Except.ok.inj hq
      obtain ⟨y, hy, rfl⟩ := ha.value
      have hy' := kinSys_root 1 0 0 0 0 0 0 (List.replicate 6 0) rfl hy
      have e : transform_mul ⟨⟨0, 0, 0⟩, ⟨1, 0, 0, 0⟩⟩ (⟨⟨1, 0, 2⟩, ⟨0, 1, 0, 0⟩⟩ : Transform ℝ) =
          ⟨⟨1, 0, 2⟩, ⟨0, 1, 0, 0⟩⟩ := transform_zero_mul _
      rw [e] at hy'
      subst hy'
      have hu : (⟨0, 1, 0, 0⟩ : Quat ℝ).IsUnit := by simp [Quat.IsUnit]
      have h0 : angle_error (⟨0, 1, 0, 0⟩ : Quat ℝ) ⟨0, 1, 0, 0⟩ = 0 :=
        (C14_angle_error_laws hu hu hu).2.2.1
      refine ⟨?_, by simp⟩
      simp [poseError, h0]
  · obtain ⟨out, h1, h2, h3, _, h5⟩ := C77_best twoStarts kinSys_reachable nanSolver_ok (name := "a")
      (by simp [kinSys]) ⟨⟨1, 0, 2⟩, ⟨0, 1, 0, 0⟩⟩ 1 1 (n := 2) (by omega) ()
    refine ⟨out, h1, ?_⟩
    have h0 : out.results[0]? = some out.results[0] := List.getElem?_eq_getElem _
    have e := hs _ _ _ (h3 0 _ h0)
    rw [hm, if_pos (by simp [startAt, twoStarts, List.range_succ])] at e
    have := h5 (by rw [← e]; exact List.getElem_mem _)
    exact ⟨this.2, this.1⟩

/-- the hypotheses of `C77_residual` and `C77_descent` are satisfiable -/
example : NotTiny stdEnv kinSys [1, 0, 0, 0, 1, 2, 3, 7, 5, 0, 0, 3, 0] := by
  intro i hi hq
  have h1 : wOf stdEnv.qw "free" = 7 := by decide
  have h2 : wOf stdEnv.qw "rx" = 1 := by decide
  have h3 : wOf stdEnv.qw "py" = 1 := by decide
  have h4 : wOf stdEnv.qw "spherical" = 4 := by decide
  have hi' : i < 4 := hi
  match i, hi' with
  | 0, _ => exact ⟨0, by omega, by simp [ownSlice, kinSys, h1]; norm_num⟩
  | 1, _ => exact absurd hq (by
      show ¬ joint_type_is_free_or_cor_or_spherical "rx" = true; decide)
  | 2, _ => exact absurd hq (by
      show ¬ joint_type_is_free_or_cor_or_spherical "py" = true; decide)
  | 3, _ => exact ⟨2, by omega, by simp [ownSlice, kinSys, h1, h2, h3, h4]; norm_num⟩

end System
end RingLib
