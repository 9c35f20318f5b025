import Verif.Props.MotionArtifacts
import Verif.Props.Delete

/-!
# C46: hiding the injected bodies
-/

namespace RingLib
namespace artifacts
open System io
variable {α π K β : Type} [Field α] [DecidableEq α]

/-! ## the bodies are leaves -/

theorem Injected.mem {E : Env α π} {A : Artifacts α} {s r : System α π} (h : Injected E A s r)
    (m : String) : m ∈ r.link_names ↔
      (m ∈ s.link_names) ∨ ∃ n ∈ s.link_names, IsImu n ∧ imu_reference_link_name n = m := by
  rw [h.names.mem_iff, List.mem_append, List.mem_map]
  constructor
  · rintro (⟨n, hn, e⟩ | hm)
    · unfold underscore at e
      split at e
      · rename_i hi
        exact Or.inr ⟨n, hn, (mem_imus.1 hi).2, e⟩
      · exact Or.inl (e ▸ hn)
    · exact Or.inl (mem_imus.1 hm).1
  · rintro (hm | ⟨n, hn, hi, e⟩)
    · by_cases hi : IsImu m
      · exact Or.inr (mem_imus.2 ⟨hm, hi⟩)
      · refine Or.inl ⟨m, hm, ?_⟩
        unfold underscore
        rw [if_neg fun h => hi (mem_imus.1 h).2]
    · refine Or.inl ⟨n, hn, ?_⟩
      unfold underscore
      rw [if_pos (mem_imus.2 ⟨hn, hi⟩), e]

theorem Injected.imus {E : Env α π} {A : Artifacts α} {s r : System α π} (h : Injected E A s r)
    (m : String) : m ∈ r.findall_imus ↔ m ∈ s.findall_imus := by
  rw [mem_imus, mem_imus, h.mem]
  constructor
  · rintro ⟨hm | ⟨n, -, -, e⟩, hi⟩
    · exact ⟨hm, hi⟩
    · exact absurd (e ▸ hi) (ref_not_imu n)
  · rintro ⟨hm, hi⟩
    exact ⟨Or.inl hm, hi⟩

theorem Injected.parent_not_imu {E : Env α π} {A : Artifacts α} {s r : System α π} (hs : s.Consistent E)
    (h : Injected E A s r) {m p : String} {v : LinkView α π} (hv : r.view E m = some v)
    (hp : v.parent = some p) : ¬ IsImu p := by
  have up : ∀ w : LinkView α π, s.view E m = some w ∨ True →
      ∀ o : Option String, (o.map (underscore s.findall_imus)) = some p → (∀ q, o = some q →
        q ∈ s.link_names) → ¬ IsImu p := by
    intro w _ o ho hq hi
    cases o with
    | none => cases ho
    | some q =>
      have e : underscore s.findall_imus q = p := Option.some.inj ho
      unfold underscore at e
      split at e
      · exact ref_not_imu q (e ▸ hi)
      · rename_i hn
        subst e
        exact hn (mem_imus.2 ⟨hq q rfl, hi⟩)
  have par : ∀ n w, s.view E n = some w → ∀ q, w.parent = some q → q ∈ s.link_names := by
    intro n w hw q hq
    obtain ⟨k, w', h1, h2, h3⟩ := view_of_mem hs (view_mem hw)
    obtain rfl := Option.some.inj (hw.symm.trans h3)
    have hk : k < s.link_parents.length := hs.names_len ▸ (List.getElem?_eq_some_iff.1 h1).1
    have := (viewAt_fields hs hk h2).1
    rw [hq] at this
    unfold System.nameAt at this
    split at this
    · cases this
    · exact List.mem_of_getElem? this
  rcases (h.mem m).1 (view_mem hv) with hm | ⟨n, hn, hi, e⟩
  · obtain ⟨-, w, -, -, hw⟩ := view_of_mem hs hm
    by_cases hi : IsImu m
    · obtain ⟨v', h1, h2⟩ := h.body m w hw hi
      obtain rfl := Option.some.inj (hv.symm.trans h1)
      rw [h2] at hp
      have : imu_reference_link_name m = p := Option.some.inj hp
      rw [← this]
      exact ref_not_imu m
    · obtain ⟨v', h1, h2⟩ := h.other m w hw hi
      obtain rfl := Option.some.inj (hv.symm.trans h1)
      rw [h2] at hp
      exact up w (Or.inr trivial) _ hp (par m w hw)
  · obtain ⟨-, w, -, -, hw⟩ := view_of_mem hs hn
    obtain ⟨v', h1, h2⟩ := h.socket n w hw hi
    rw [e] at h1
    obtain rfl := Option.some.inj (hv.symm.trans h1)
    rw [h2] at hp
    exact up w (Or.inr trivial) _ hp (par n w hw)

theorem Injected.leaf {E : Env α π} {A : Artifacts α} {s r : System α π} (hs : s.Consistent E)
    (h : Injected E A s r) {x m : String} (hx : IsImu x) : r.IsDesc x m ↔ m = x ∧ x ∈ r.link_names := by
  constructor
  · rintro ⟨k, i, hk, hi, hd⟩
    have : i = k := by
      clear hi
      induction hd with
      | self => rfl
      | step hp hd ih =>
        rename_i j p
        subst ih
        have hj : j < r.link_parents.length := (List.getElem?_eq_some_iff.1 hp).1
        have hjn : j < r.link_names.length := h.wf.names_len ▸ hj
        obtain ⟨v, hv⟩ := viewAt_isSome h.wf.toConsistent hj
        have hpar := (viewAt_fields h.wf.toConsistent hj hv).1
        rw [← view_eq_viewAt h.wf.toConsistent (List.getElem?_eq_getElem hjn)] at hv
        have : r.link_parents[j] = (p : Int) := by
          rw [List.getElem?_eq_getElem hj] at hp
          exact Option.some.inj hp
        rw [this] at hpar
        unfold System.nameAt at hpar
        rw [if_neg (by omega)] at hpar
        simp only [Int.toNat_natCast] at hpar
        rw [hk] at hpar
        exact absurd hx (h.parent_not_imu hs hv hpar.symm)
    subst this
    rw [hk] at hi
    exact ⟨(Option.some.inj hi).symm, List.mem_of_getElem? hk⟩
  · rintro ⟨rfl, hm⟩
    obtain ⟨k, hk, e⟩ := List.getElem_of_mem hm
    have hk' : r.link_names[k]? = some m := by rw [List.getElem?_eq_getElem hk, e]
    exact ⟨k, k, hk', hk', .self⟩

/-! ## the loop -/

/-- a link of `s` while the sockets `todo` still have to be turned into IMUs -/
def hiddenView (A : Artifacts α) (todo : List String) (n : String) (v : LinkView α π)
    (jp : String → Option π) : LinkView α π :=
  if IsImu n then
    { (if n ∈ todo then withVals v (sphericalVals A) else v) with
      parent := v.parent.map (underscore todo)
      row := { v.row with
        inertia := Inertia.zero
        transform2 := Transform.zero
        transform := Transform.zero }
      geoms := []
      joint_params := jp }
  else
    { v with
      parent := v.parent.map (underscore todo)
      row := { v.row with transform2 := Transform.zero, transform := Transform.zero }
      joint_params := jp }

structure HideStage (E : Env α π) (A : Artifacts α) (s : System α π) (todo : List String)
    (c : System α π) : Prop where
  wf : c.WF E
  names : c.link_names.Perm (s.link_names.map (underscore todo))
  globals : c.globals = (s.dt, s.gravity, "semi_implicit_euler", 0, s.model_name)
  view : ∀ n v, s.view E n = some v → ∃ jp, c.view E (underscore todo n) = some (hiddenView A todo n v jp)

theorem view_parent_mem {E : Env α π} {s : System α π} (hs : s.Consistent E) {n q : String}
    {w : LinkView α π} (hw : s.view E n = some w) (hq : w.parent = some q) : q ∈ s.link_names := by
  obtain ⟨k, w', h1, h2, h3⟩ := view_of_mem hs (view_mem hw)
  obtain rfl := Option.some.inj (hw.symm.trans h3)
  have hk : k < s.link_parents.length := hs.names_len ▸ (List.getElem?_eq_some_iff.1 h1).1
  have := (viewAt_fields hs hk h2).1
  rw [hq] at this
  unfold System.nameAt at this
  split at this
  · cases this
  · exact List.mem_of_getElem? this

theorem hideImu_ok {E : Env α π} {T : Txt α} {J : JointInit π K} {A : Artifacts α}
    (hA : ArtifactsOk E T J A) {s c : System α π} {imu : String} {todo : List String}
    (hs : s.WF E) (hI : Injectable E T s) (hi : imu ∈ s.link_names) (himu : IsImu imu)
    (hnd : imu ∉ todo) (hc : HideStage E A s (imu :: todo) c) :
    ∃ c', hideImu E c imu = .ok c' ∧ HideStage E A s todo c' := by
  have hmem : ∀ m, m ∈ c.link_names ↔ ∃ n ∈ s.link_names, underscore (imu :: todo) n = m := by
    intro m
    rw [hc.names.mem_iff, List.mem_map]
  have hold : imu_reference_link_name imu ∈ c.link_names :=
    (hmem _).2 ⟨imu, hi, by simp [underscore]⟩
  have hnew : imu ∉ c.link_names := by
    intro h
    obtain ⟨n, hn, e⟩ := (hmem _).1 h
    unfold underscore at e
    split at e
    · exact ref_not_imu n (e ▸ himu)
    · rename_i h; subst e; simp at h
  have hstep : ∀ n ∈ s.link_names, renameTo (imu_reference_link_name imu) imu
      (underscore (imu :: todo) n) = underscore todo n := by
    intro n hn
    have h1 : n ≠ imu_reference_link_name imu := fun e => hI.fresh imu hi himu (e ▸ hn)
    by_cases hni : n = imu
    · subst hni
      simp [underscore, renameTo, hnd]
    · by_cases hnt : n ∈ todo
      · have h2 : imu_reference_link_name n ≠ imu_reference_link_name imu := fun e => hni (ref_inj e)
        simp [underscore, renameTo, hnt, h2]
      · simp [underscore, renameTo, hnt, hni, h1]
  obtain ⟨c1, e1, e2, e3, e4⟩ := rename_view hc.wf hold hnew
  have h0 : c1.link_parents ≠ [] := by
    rw [e2]
    show c.link_parents ≠ []
    intro e
    have := hc.wf.names_len
    rw [e] at this
    rw [List.length_eq_zero_iff.1 this] at hold
    cases hold
  obtain ⟨u1, u2, u3⟩ := change_joint_view e3 (name := imu) (t := "frozen") hA.frozen.1 hA.frozen.2 h0
    (fun h => absurd h (by decide))
  refine ⟨c1.replaceRaw E (changeLogic imu "frozen" 0 0 none none none none), ?_, ?_⟩
  · unfold hideImu
    rw [e1, ok_bind, u1]
  · have hn1 : c1.link_names = c.link_names.map (renameTo (imu_reference_link_name imu) imu) := by rw [e2]
    exact
    { wf := u2
      names := by
        show c1.link_names.Perm _
        rw [hn1]
        refine (hc.names.map _).trans ?_
        rw [List.map_map]
        exact List.Perm.of_eq (List.map_congr_left fun n hn => hstep n hn)
      globals := by
        rw [← hc.globals, e2]
        rfl
      view := by
        intro n v hv
        obtain ⟨jp, h1⟩ := hc.view n v hv
        have h2 := e4 _ _ h1
        rw [hstep n (view_mem hv)] at h2
        have h3 := u3 _ _ h2
        refine ⟨jp, ?_⟩
        rw [h3, Option.some.injEq]
        have hpar : (v.parent.map (underscore (imu :: todo))).map
            (renameTo (imu_reference_link_name imu) imu) = v.parent.map (underscore todo) := by
          cases hp : v.parent with
          | none => rfl
          | some q =>
            simp only [Option.map_some]
            rw [hstep q (view_parent_mem hs.toConsistent hv hp)]
        have hparv : ((hiddenView A (imu :: todo) n v jp).parent.map
            (renameTo (imu_reference_link_name imu) imu)) = v.parent.map (underscore todo) := by
          unfold hiddenView
          split <;> exact hpar
        by_cases hni : n = imu
        · subst hni
          have hu : underscore todo n = n := by simp [underscore, hnd]
          have hf := view_fits hs hv
          have hty := hI.frozen n v hv himu
          have f1 : v.armature = [] := by
            have := hf.la
            simp only [valsOf, hty, wOf, hA.frozen.2, Option.getD_some] at this
            exact List.length_eq_zero_iff.1 this
          have f2 : v.damping = [] := by
            have := hf.ld
            simp only [valsOf, hty, wOf, hA.frozen.2, Option.getD_some] at this
            exact List.length_eq_zero_iff.1 this
          have f3 : v.stiffness = [] := by
            have := hf.ls
            simp only [valsOf, hty, wOf, hA.frozen.2, Option.getD_some] at this
            exact List.length_eq_zero_iff.1 this
          have f4 : v.zeropoint = [] := by
            have := hf.lz
            simp only [valsOf, hty, wOf, hA.frozen.1, Option.getD_some] at this
            exact List.length_eq_zero_iff.1 this
          rw [hparv, hu]
          ext1 <;> simp [hiddenView, himu, hnd, withVals, changeLogic, hty, f1, f2, f3, f4]
        · have hu : underscore todo n ≠ imu := by
            unfold underscore
            split
            · exact fun e => ref_not_imu n (e ▸ himu)
            · exact hni
          have e : changeLogic imu "frozen" 0 0 none none none none (underscore todo n)
              (valsOf { hiddenView A (imu :: todo) n v jp with
                parent := (hiddenView A (imu :: todo) n v jp).parent.map
                  (renameTo (imu_reference_link_name imu) imu) }) =
              valsOf { hiddenView A (imu :: todo) n v jp with
                parent := (hiddenView A (imu :: todo) n v jp).parent.map
                  (renameTo (imu_reference_link_name imu) imu) } := by
            unfold changeLogic
            rw [if_neg hu]
          rw [e, hparv]
          by_cases hin : IsImu n
          · by_cases hnt : n ∈ todo
            · ext1 <;> simp [hiddenView, hin, hnt, withVals, valsOf]
            · ext1 <;> simp [hiddenView, hin, hnt, hni, withVals, valsOf]
          · ext1 <;> simp [hiddenView, hin, withVals, valsOf] }

theorem hideLoop_ok {E : Env α π} {T : Txt α} {J : JointInit π K} {A : Artifacts α}
    (hA : ArtifactsOk E T J A) {s : System α π} (hs : s.WF E) (hI : Injectable E T s) :
    ∀ (todo : List String) (c : System α π), todo.Nodup → (∀ n ∈ todo, n ∈ s.link_names ∧ IsImu n) →
      HideStage E A s todo c → ∃ c', todo.foldlM (hideImu E) c = .ok c' ∧ HideStage E A s [] c'
  | [], c, _, _, hc => ⟨c, rfl, hc⟩
  | imu :: todo, c, hnd, hall, hc => by
    rw [List.nodup_cons] at hnd
    obtain ⟨c1, h1, h2⟩ := hideImu_ok hA hs hI (hall imu (by simp)).1 (hall imu (by simp)).2 hnd.1 hc
    obtain ⟨c', h3, h4⟩ := hideLoop_ok hA hs hI todo c1 hnd.2 (fun n hn => hall n (by simp [hn])) h2
    exact ⟨c', by rw [List.foldlM_cons, h1]; exact h3, h4⟩

theorem hide_sys {E : Env α π} {T : Txt α} {J : JointInit π K} {A : Artifacts α}
    (hA : ArtifactsOk E T J A) {s r : System α π} (hs : s.WF E) (h0 : s.link_parents ≠ [])
    (hI : Injectable E T s) (h : Injected E A s r) :
    ∃ c out, delete_subsystems E r r.findall_imus = .ok c ∧
      r.findall_imus.foldlM (hideImu E) c = .ok out ∧ HideStage E A s [] out := by
  have hleaf : ∀ x ∈ r.findall_imus, ∀ m, r.IsDesc x m ↔ m = x := by
    intro x hx m
    rw [h.leaf hs.toConsistent (mem_imus.1 hx).2]
    exact and_iff_left (mem_imus.1 hx).1
  have hnd : r.findall_imus.Nodup := h.wf.names_nodup.filter _
  obtain ⟨n0, hn0⟩ : ∃ n, n ∈ s.link_names := by
    cases hn : s.link_names with
    | nil =>
      have := hs.names_len
      rw [hn] at this
      exact absurd (List.length_eq_zero_iff.1 this.symm) h0
    | cons a l => exact ⟨a, by simp⟩
  obtain ⟨c, c1, c2⟩ := C03_list_strict h.wf r.findall_imus (fun x hx => (mem_imus.1 hx).1)
    (by
      refine List.Pairwise.imp_of_mem ?_ hnd
      intro a b ha hb hab hd
      exact hab ((hleaf a ha b).1 hd).symm)
    (by
      by_cases hi : IsImu n0
      · refine ⟨imu_reference_link_name n0, (h.mem _).2 (Or.inr ⟨n0, hn0, hi, rfl⟩), ?_⟩
        intro x hx hd
        have := (hleaf x hx _).1 hd
        exact ref_not_imu n0 (this ▸ (mem_imus.1 hx).2)
      · refine ⟨n0, (h.mem _).2 (Or.inl hn0), ?_⟩
        intro x hx hd
        have := (hleaf x hx _).1 hd
        exact hi (this ▸ (mem_imus.1 hx).2))
  have hgone : ∀ m, (∃ x ∈ r.findall_imus, r.IsDesc x m) ↔ m ∈ r.findall_imus := by
    intro m
    constructor
    · rintro ⟨x, hx, hd⟩
      rw [(hleaf x hx m).1 hd]; exact hx
    · intro hm
      exact ⟨m, hm, (hleaf m hm m).2 rfl⟩
  have hus : ∀ n ∈ s.link_names, underscore r.findall_imus n = underscore s.findall_imus n := by
    intro n _
    unfold underscore
    simp only [h.imus]
  have hmemu : ∀ n ∈ s.link_names, underscore r.findall_imus n ∈ c.link_names := by
    intro n hn
    rw [c2.mem, hgone]
    unfold underscore
    split
    · rename_i hi
      exact ⟨(h.mem _).2 (Or.inr ⟨n, hn, (mem_imus.1 hi).2, rfl⟩), fun hx => ref_not_imu n (mem_imus.1 hx).2⟩
    · rename_i hi
      exact ⟨(h.mem _).2 (Or.inl hn), hi⟩
  have hinj : ∀ a ∈ s.link_names, ∀ b ∈ s.link_names,
      underscore r.findall_imus a = underscore r.findall_imus b → a = b := by
    intro a ha b hb e
    unfold underscore at e
    split at e <;> split at e
    · exact ref_inj e
    · rename_i h1 _
      exact absurd (e ▸ hb) (hI.fresh a ha (mem_imus.1 h1).2)
    · rename_i _ h1
      exact absurd (e ▸ ha) (hI.fresh b hb (mem_imus.1 h1).2)
    · exact e
  have hstage : HideStage E A s r.findall_imus c :=
    { wf := c2.wf
      names := by
        rw [List.perm_ext_iff_of_nodup c2.wf.names_nodup (List.Nodup.map_on hinj hs.names_nodup)]
        intro m
        rw [List.mem_map]
        constructor
        · intro hm
          rw [c2.mem, hgone] at hm
          rcases (h.mem m).1 hm.1 with h1 | ⟨n, hn, hi, e⟩
          · refine ⟨m, h1, ?_⟩
            unfold underscore
            rw [if_neg hm.2]
          · refine ⟨n, hn, ?_⟩
            unfold underscore
            rw [if_pos ((h.imus n).2 (mem_imus.2 ⟨hn, hi⟩)), e]
        · rintro ⟨n, hn, rfl⟩
          exact hmemu n hn
      globals := by rw [c2.globals, h.globals]
      view := by
        intro n v hv
        have hn := view_mem hv
        have hpar : v.parent.map (underscore s.findall_imus) = v.parent.map (underscore r.findall_imus) := by
          cases hp : v.parent with
          | none => rfl
          | some q =>
            simp only [Option.map_some]
            rw [hus q (view_parent_mem hs.toConsistent hv hp)]
        rw [c2.view _ (hmemu n hn)]
        by_cases hi : IsImu n
        · have hni : n ∈ r.findall_imus := (h.imus n).2 (mem_imus.2 ⟨hn, hi⟩)
          obtain ⟨v', h1, h2⟩ := h.socket n v hv hi
          refine ⟨v'.joint_params, ?_⟩
          have : underscore r.findall_imus n = imu_reference_link_name n := by simp [underscore, hni]
          rw [this, h1, h2, hpar]
          simp [hiddenView, hi, hni, withVals, sphericalVals]
        · have hni : n ∉ r.findall_imus := fun hx => hi (mem_imus.1 hx).2
          obtain ⟨v', h1, h2⟩ := h.other n v hv hi
          refine ⟨v'.joint_params, ?_⟩
          have : underscore r.findall_imus n = n := by simp [underscore, hni]
          rw [this, h1, h2, hpar]
          simp [hiddenView, hi] }
  obtain ⟨out, o1, o2⟩ := hideLoop_ok hA hs hI r.findall_imus c hnd
    (fun n hn => mem_imus.1 ((h.imus n).1 hn)) hstage
  exact ⟨c, out, c1, o1, o2⟩

/-! ## coordinates and poses -/

theorem foldSpec_ok {O Y : Type} {f : O → Py Y} {g : O → Y} (m : IdxMap) :
    ∀ (y : Option Y) (os : List O), (∀ o ∈ os, f o = .ok (g o)) →
      foldSpec (fun _ _ o => f o) m y os = .ok (os.map g)
  | _, [], _ => rfl
  | y, o :: os, h => by
    simp only [foldSpec, h o (by simp), ok_bind]
    rw [foldSpec_ok m (some (g o)) os fun x hx => h x (by simp [hx])]
    rfl

/-- The coordinates `q'` and the poses `x'` of `small` are those of the links of the same name in `large`,
at every time step; `skip` are the links without coordinates. -/
structure ByName {X : Type} (E : Env α π) (small large : System α π) (skip : List String)
    (q : List (List α)) (x : List (List X)) (q' : List (List α)) (x' : List (List X)) : Prop where
  q_len : q'.length = q.length
  x_len : x'.length = x.length
  q_row : ∀ row' ∈ q', row'.length = (small.link_types.map (wOf E.qw)).sum
  x_row : ∀ row' ∈ x', row'.length = small.link_parents.length
  q_link : ∀ (t : Nat) (row row' : List α), q[t]? = some row → q'[t]? = some row' →
    ∀ (j i : Nat) n, small.link_names[j]? = some n → large.link_names[i]? = some n → n ∉ skip →
      ownSlice E.qw small.link_types row' j = ownSlice E.qw large.link_types row i
  x_link : ∀ (t : Nat) (row row' : List X), x[t]? = some row → x'[t]? = some row' →
    ∀ (j i : Nat) n, small.link_names[j]? = some n → large.link_names[i]? = some n → row'[j]? = row[i]?

/-- Coordinates and poses are selected by name: `skip` are the links that have no coordinates in the small
system. -/
theorem match_ok {X : Type} {E : Env α π} {small large : System α π} (hs : small.Consistent E)
    (hl : large.Consistent E) {skip : List String} {q : List (List α)} {x : List (List X)}
    (hq : ∀ row ∈ q, row.length = (large.link_types.map (wOf E.qw)).sum)
    (hx : ∀ row ∈ x, row.length = large.link_parents.length)
    (hn : ∀ n ∈ small.link_names, n ∈ large.link_names)
    (hty : ∀ (j i : Nat) n, small.link_names[j]? = some n → large.link_names[i]? = some n →
      n ∉ skip → small.link_types[j]? = large.link_types[i]?)
    (hskip : ∀ (j : Nat) n t, small.link_names[j]? = some n → n ∈ skip → small.link_types[j]? = some t →
      E.qw t = some 0)
    (hsome : ∃ n ∈ small.link_names, n ∉ skip) :
    ∃ q' x', _match_q_x_between_sys E small q x large skip = .ok (q', x') ∧
      ByName E small large skip q x q' x' := by
  obtain ⟨z1, -, -, z2, -⟩ := C01_sizes_and_idx_map hl.known hl.types_len hl.names_len
  let idx : String → Nat := fun n => large.link_names.idxOf n
  have hidx : ∀ n ∈ large.link_names, large.link_names[idx n]? = some n := by
    intro n hn
    show large.link_names[large.link_names.idxOf n]? = some n
    rw [List.getElem?_eq_getElem (List.idxOf_lt_length_of_mem hn)]
    simp
  let sl : String → Nat × Nat := fun n => (((large.link_types.take (idx n)).map (wOf E.qw)).sum,
    ((large.link_types.take (idx n + 1)).map (wOf E.qw)).sum)
  let g : String → Nat × Option (Nat × Nat) := fun n => (idx n, if n ∈ skip then none else some (sl n))
  have hg : ∀ n ∈ small.link_names, matchLink large ((large.link_names.zipIdx).map fun x =>
      (x.1, Idx.slice ((large.link_types.take x.2).map (wOf E.qw)).sum
        ((large.link_types.take (x.2 + 1)).map (wOf E.qw)).sum)) skip n = .ok (g n) := by
    intro n hns
    have h1 := hidx n (hn n hns)
    unfold matchLink name_to_idx pyIndex
    rw [idxOf?_eq_of_nodup hl.names_nodup h1, ok_bind]
    simp only [g]
    split
    · rfl
    · rw [sliceOf_eq hl.names_nodup h1]
      rfl
  have hscan : small.scan E (fun _ _ name => matchLink large ((large.link_names.zipIdx).map fun x =>
      (x.1, Idx.slice ((large.link_types.take x.2).map (wOf E.qw)).sum
        ((large.link_types.take (x.2 + 1)).map (wOf E.qw)).sum)) skip name) (argL small.link_names) =
      .ok (small.link_names.map g) := by
    rw [scan_forward hs.known hs.types_len _ (rows := small.link_names) (by
        intro y hy
        have : y = (.l, small.link_names.length) := by simpa [argL] using hy
        rw [this]
        exact hs.names_len) (rows_argL _ _) hs.names_len]
    exact foldSpec_ok _ _ _ hg
  have hxs : (small.link_names.map g).map Prod.fst = small.link_names.map idx := by
    rw [List.map_map]; rfl
  have hqs : (small.link_names.map g).filterMap Prod.snd =
      (small.link_names.filter fun n => n ∉ skip).map sl := by
    rw [List.filterMap_map, ← List.filterMap_eq_map, List.filterMap_filter]
    apply List.filterMap_congr
    intro n _
    by_cases hns : n ∈ skip <;> simp [g, hns]
  have hne : (small.link_names.filter fun n => n ∉ skip).map sl ≠ [] := by
    obtain ⟨n, h1, h2⟩ := hsome
    intro e
    have : n ∈ small.link_names.filter fun n => n ∉ skip := List.mem_filter.2 ⟨h1, by simpa using h2⟩
    rw [List.map_eq_nil_iff.1 e] at this
    cases this
  let piece : List α → String → List α := fun row n => if n ∈ skip then [] else pySlice row (sl n)
  have hflat : ∀ row : List α, (((small.link_names.filter fun n => n ∉ skip).map sl).map
      (pySlice row)).flatten = (small.link_names.map (piece row)).flatten := by
    intro row
    induction small.link_names with
    | nil => rfl
    | cons n l ih =>
      by_cases hns : n ∈ skip
      · rw [List.filter_cons_of_neg (by simpa using hns), ih]
        simp [piece, hns]
      · rw [List.filter_cons_of_pos (by simpa using hns)]
        simp only [List.map_cons, List.flatten_cons, ih]
        simp [piece, hns]
  refine ⟨q.map fun row => (small.link_names.map (piece row)).flatten,
    x.map fun row => jaxTake row (small.link_names.map idx), ?_, ?_⟩
  · unfold _match_q_x_between_sys
    rw [z1, ok_bind, pyAssert_true hq, ok_bind, pyAssert_true (show ∀ row ∈ x, row.length = large.num_links from hx), ok_bind, z2, ok_bind, hscan, ok_bind]
    simp only [hxs, hqs]
    simp only [← hflat]
    cases hc : (small.link_names.filter fun n => n ∉ skip).map sl with
    | nil => exact absurd hc hne
    | cons a l => rfl
  have hQ : ∀ (t : Nat) (row row' : List α), q[t]? = some row →
      (q.map fun row => (small.link_names.map (piece row)).flatten)[t]? = some row' →
      row'.length = (small.link_types.map (wOf E.qw)).sum ∧
        ∀ (j i : Nat) n, small.link_names[j]? = some n → large.link_names[i]? = some n → n ∉ skip →
          ownSlice E.qw small.link_types row' j = ownSlice E.qw large.link_types row i := by
    intro t row row' hr hr'
    rw [List.getElem?_map, hr] at hr'
    obtain rfl := Option.some.inj hr'
    have hrl := hq row (List.mem_of_getElem? hr)
    have hslice : ∀ n ∈ large.link_names, pySlice row (sl n) = ownSlice E.qw large.link_types row (idx n) := by
      intro n hnl
      have hi : idx n < large.link_types.length := by
        rw [hl.types_len, ← hl.names_len]
        exact (List.getElem?_eq_some_iff.1 (hidx n hnl)).1
      have e : ((large.link_types.take (idx n + 1)).map (wOf E.qw)).sum =
          ((large.link_types.take (idx n)).map (wOf E.qw)).sum +
            wOf E.qw (large.link_types.getD (idx n) "") := by
        rw [List.take_add_one, List.getElem?_eq_getElem hi, List.map_append, List.sum_append]
        simp [hi]
      show pySlice row (_, ((large.link_types.take (idx n + 1)).map (wOf E.qw)).sum) = _
      rw [e, pySlice_eq]
      rfl
    -- link by link
    let ty : Nat → String := fun j => small.link_types.getD j ""
    let pc : Nat → List α := fun j => piece row (small.link_names.getD j "")
    have e1 : (List.range small.link_parents.length).map ty = small.link_types := by
      apply List.ext_getElem
      · simp [hs.types_len]
      · intro i _ h2; simp [ty, h2]
    have e2 : (List.range small.link_parents.length).map pc = small.link_names.map (piece row) := by
      apply List.ext_getElem
      · simp [hs.names_len]
      · intro i _ h2
        have : i < small.link_names.length := by simpa using h2
        simp [pc, this]
    have hw : ∀ j ∈ List.range small.link_parents.length, (pc j).length = wOf E.qw (ty j) := by
      intro j hj
      have hj := List.mem_range.1 hj
      have hjn : j < small.link_names.length := hs.names_len ▸ hj
      have hjt : j < small.link_types.length := hs.types_len ▸ hj
      have g1 : small.link_names[j]? = some (small.link_names.getD j "") := by simp [hjn]
      have g2 : small.link_types[j]? = some (ty j) := by simp [ty, hjt]
      show (piece row _).length = _
      simp only [piece]
      split
      · rename_i hsk
        simp [wOf, hskip j _ _ g1 hsk g2]
      · rename_i hsk
        have hnl := hn _ (List.mem_of_getElem? g1)
        have hi : idx (small.link_names.getD j "") < large.link_types.length := by
          rw [hl.types_len, ← hl.names_len]
          exact (List.getElem?_eq_some_iff.1 (hidx _ hnl)).1
        rw [hslice _ hnl, ownSlice_length hrl hi]
        have := hty j _ _ g1 (hidx _ hnl) hsk
        rw [g2, List.getElem?_eq_getElem hi] at this
        rw [Option.some.inj this]
    constructor
    · dsimp only
      rw [← e1, ← e2, List.length_flatten, List.map_map, List.map_map]
      congr 1
      exact List.map_congr_left hw
    · intro j i n hj hi hns
      have hjl : j < small.link_parents.length := hs.names_len ▸ (List.getElem?_eq_some_iff.1 hj).1
      have := ownSlice_pieces (w := E.qw) (List.range small.link_parents.length) ty pc hw (i := j)
        (by simpa using hjl)
      rw [e1, e2] at this
      dsimp only
      rw [this]
      have hname : small.link_names.getD j "" = n := by
        obtain ⟨h1, h2⟩ := List.getElem?_eq_some_iff.1 hj
        simp [h1, h2]
      simp only [List.getElem_range, pc, hname, piece, if_neg hns]
      rw [hslice n (List.mem_of_getElem? hi), uniqueIdx hl.names_nodup (hidx n (List.mem_of_getElem? hi)) hi]
  have hX : ∀ (t : Nat) (row row' : List X), x[t]? = some row →
      (x.map fun row => jaxTake row (small.link_names.map idx))[t]? = some row' →
        row'.length = small.link_parents.length ∧
        ∀ (j i : Nat) n, small.link_names[j]? = some n → large.link_names[i]? = some n →
          row'[j]? = row[i]? := by
    intro t row row' hr hr'
    rw [List.getElem?_map, hr] at hr'
    obtain rfl := Option.some.inj hr'
    have hrl := hx row (List.mem_of_getElem? hr)
    have hall : ∀ n ∈ small.link_names, idx n < row.length := by
      intro n hns
      rw [hrl, ← hl.names_len]
      exact (List.getElem?_eq_some_iff.1 (hidx n (hn n hns))).1
    have htake : ∀ l : List String, (∀ n ∈ l, idx n < row.length) →
        (jaxTake row (l.map idx)).map some = l.map fun n => row[idx n]? := by
      intro l hl
      induction l with
      | nil => rfl
      | cons n l ih =>
        have h1 := hl n (by simp)
        have h2 : min (idx n) (row.length - 1) = idx n := by omega
        have ih := ih fun m hm => hl m (by simp [hm])
        unfold jaxTake at ih ⊢
        rw [List.map_cons, List.filterMap_cons, h2, List.getElem?_eq_getElem h1]
        simp only [List.map_cons, ih, List.getElem?_eq_getElem h1]
    have ht := htake small.link_names hall
    constructor
    · have := congrArg List.length ht
      simpa [hs.names_len] using this
    · intro j i n hj hi
      have := congrArg (·[j]?) ht
      simp only [List.getElem?_map, hj, Option.map_some] at this
      rw [uniqueIdx hl.names_nodup (hidx n (List.mem_of_getElem? hi)) hi] at this
      cases hc : (jaxTake row (small.link_names.map idx))[j]? with
      | none => rw [hc] at this; cases this
      | some y =>
        rw [hc] at this
        exact Option.some.inj this
  have row : ∀ {Y Z : Type} {l : List Y} {f : Y → Z} {z : Z}, z ∈ l.map f →
      ∃ (t : Nat) (y : Y), l[t]? = some y ∧ (l.map f)[t]? = some z := by
    intro Y Z l f z hz
    obtain ⟨y, hy, rfl⟩ := List.mem_map.1 hz
    obtain ⟨t, ht, rfl⟩ := List.getElem_of_mem hy
    exact ⟨t, _, List.getElem?_eq_getElem ht, by rw [List.getElem?_map, List.getElem?_eq_getElem ht]; rfl⟩
  exact
  { q_len := by simp
    x_len := by simp
    q_row := by
      intro row' h
      obtain ⟨t, y, h1, h2⟩ := row h
      exact (hQ t y row' h1 h2).1
    x_row := by
      intro row' h
      obtain ⟨t, y, h1, h2⟩ := row h
      exact (hX t y row' h1 h2).1
    q_link := fun t row row' h1 h2 => (hQ t row row' h1 h2).2
    x_link := fun t row row' h1 h2 => (hX t row row' h1 h2).2 }

/-! ## C46 -/

/-- What hiding gives back of `s`: the same links with their parents, joint types and numbers. The poses
and joint parameters are reset, and the IMUs have lost their geometries (and so their inertia). -/
structure Restored (E : Env α π) (s out : System α π) : Prop where
  wf : out.WF E
  names : out.link_names.Perm s.link_names
  other : ∀ n v, s.view E n = some v → ¬ IsImu n → ∃ v', out.view E n = some v' ∧
    v' = { v with
      row := { v.row with transform2 := Transform.zero, transform := Transform.zero }
      joint_params := v'.joint_params }
  imu : ∀ n v, s.view E n = some v → IsImu n → ∃ v', out.view E n = some v' ∧
    v' = { v with
      row := { v.row with
        inertia := Inertia.zero
        transform2 := Transform.zero
        transform := Transform.zero }
      geoms := []
      joint_params := v'.joint_params }
  globals : out.globals = (s.dt, s.gravity, "semi_implicit_euler", 0, s.model_name)

omit [DecidableEq α] in
theorem restored_of_stage {E : Env α π} {A : Artifacts α} {s out : System α π}
    (h : HideStage E A s [] out) : Restored E s out := by
  have hid : underscore [] = id := by funext n; simp [underscore]
  exact
  { wf := h.wf
    names := by
      have := h.names
      rw [hid, List.map_id] at this
      exact this
    other := by
      intro n v hv hn
      obtain ⟨jp, h1⟩ := h.view n v hv
      rw [hid] at h1
      refine ⟨_, h1, ?_⟩
      simp [hiddenView, hn, hid]
    imu := by
      intro n v hv hn
      obtain ⟨jp, h1⟩ := h.view n v hv
      rw [hid] at h1
      refine ⟨_, h1, ?_⟩
      simp [hiddenView, hn, hid]
    globals := h.globals }

/-- C46: injecting the bodies succeeds; and hiding them again, with the coordinates and poses of the larger
system, gives back the links of the system, with coordinates and poses selected by name. The pose of an
IMU is the pose of the body that was injected for it. -/
theorem C46_inject_hide {X : Type} {E : Env α π} {T : Txt α} {J : JointInit π K} {A : Artifacts α}
    (hA : ArtifactsOk E T J A) (key : K) (zeroLike : π → π) {s : System α π} (hs : Savable E T s)
    (hJ : J.Ok s.link_types) (hI : Injectable E T s) (hsome : ∃ n ∈ s.link_names, ¬ IsImu n) :
    ∃ r, inject_subsystems E T J key zeroLike A s = .ok r ∧ Injected E A s r ∧
      ∀ (q : List (List α)) (x : List (List X)),
        (∀ row ∈ q, row.length = (r.link_types.map (wOf E.qw)).sum) →
        (∀ row ∈ x, row.length = r.link_parents.length) →
        ∃ q' x' out, HideInjectedBodies E q x r = .ok (q', x', out) ∧ Restored E s out ∧
          ByName E out r s.findall_imus q x q' x' := by
  obtain ⟨r, hr, h⟩ := C46_inject hA key zeroLike hs hJ hI
  refine ⟨r, hr, h, ?_⟩
  intro q x hq hx
  obtain ⟨c, out, h1, h2, h3⟩ := hide_sys hA hs.wf hs.nonempty hI h
  have hR := restored_of_stage h3
  have hmem : ∀ n, n ∈ out.link_names ↔ n ∈ s.link_names := fun n => hR.names.mem_iff
  have hsk : ∀ n, n ∈ r.findall_imus ↔ n ∈ s.findall_imus := h.imus
  have htype : ∀ {t : System α π} (ht : t.Consistent E) {j : Nat} {n : String} {v : LinkView α π},
      t.link_names[j]? = some n → t.view E n = some v → t.link_types[j]? = some v.type := by
    intro t ht j n v hj hv
    have hl : j < t.link_parents.length := ht.names_len ▸ (List.getElem?_eq_some_iff.1 hj).1
    rw [view_eq_viewAt ht hj] at hv
    exact (viewAt_fields ht hl hv).2.1
  obtain ⟨q', x', m1, m2⟩ := match_ok (skip := r.findall_imus) hR.wf.toConsistent h.wf.toConsistent hq hx
    (fun n hn => (h.mem n).2 (Or.inl ((hmem n).1 hn)))
    (by
      intro j i n hj hi hns
      have hn := (hmem n).1 (List.mem_of_getElem? hj)
      have hni : ¬ IsImu n := fun hx => hns ((hsk n).2 (mem_imus.2 ⟨hn, hx⟩))
      obtain ⟨-, w, -, -, hw⟩ := view_of_mem hs.wf.toConsistent hn
      obtain ⟨v1, a1, a2⟩ := hR.other n w hw hni
      obtain ⟨v2, b1, b2⟩ := h.other n w hw hni
      rw [htype hR.wf.toConsistent hj a1, htype h.wf.toConsistent hi b1, a2, b2])
    (by
      intro j n t hj hns ht
      have hn := (hmem n).1 (List.mem_of_getElem? hj)
      have hni : IsImu n := (mem_imus.1 hns).2
      obtain ⟨-, w, -, -, hw⟩ := view_of_mem hs.wf.toConsistent hn
      obtain ⟨v1, a1, a2⟩ := hR.imu n w hw hni
      have := htype hR.wf.toConsistent hj a1
      rw [ht, a2] at this
      rw [Option.some.inj this, hI.frozen n w hw hni]
      exact hA.frozen.1)
    (by
      obtain ⟨n, hn, hni⟩ := hsome
      exact ⟨n, (hmem n).2 hn, fun hx => hni (mem_imus.1 hx).2⟩)
  refine ⟨q', x', out, ?_, hR, ?_⟩
  · unfold HideInjectedBodies
    simp only [h1, ok_bind, h2, m1]
    rfl
  · exact { m2 with
      q_link := fun t row row' a b j i n c d e => m2.q_link t row row' a b j i n c d
        fun hx => e ((hsk n).1 hx) }

/-- C46 fails for geometries: those of an IMU are on the injected body and are lost with it. -/
theorem C46_geoms_fails {E : Env α π} {s out : System α π} (h : Restored E s out) {n : String}
    {v : LinkView α π} (hv : s.view E n = some v) (hi : IsImu n) (hg : v.geoms ≠ []) :
    out.view E n ≠ some v ∧ (out.view E n).map LinkView.geoms = some [] := by
  obtain ⟨v', h1, h2⟩ := h.imu n v hv hi
  have hg' : v'.geoms = [] := by rw [h2]
  refine ⟨?_, by rw [h1, Option.map_some, hg']⟩
  intro e
  rw [h1] at e
  rw [Option.some.inj e] at hg'
  exact hg hg'

/-- C46 fails for systems of IMUs only: their coordinates cannot be put together. -/
theorem C46_only_imus_fails {X : Type} {E : Env α π} {T : Txt α} {J : JointInit π K} {A : Artifacts α}
    (hA : ArtifactsOk E T J A) {s r : System α π} (hs : Savable E T s) (hI : Injectable E T s)
    (h : Injected E A s r) (hall : ∀ n ∈ s.link_names, IsImu n) (q : List (List α)) (x : List (List X))
    (hq : ∀ row ∈ q, row.length = (r.link_types.map (wOf E.qw)).sum)
    (hx : ∀ row ∈ x, row.length = r.link_parents.length) :
    HideInjectedBodies E q x r = .error .value := by
  obtain ⟨c, out, h1, h2, h3⟩ := hide_sys hA hs.wf hs.nonempty hI h
  have hR := restored_of_stage h3
  obtain ⟨z1, -, -, z2, -⟩ := C01_sizes_and_idx_map h.wf.known h.wf.types_len h.wf.names_len
  have hmem : ∀ n ∈ out.link_names, n ∈ r.findall_imus := by
    intro n hn
    have hn := hR.names.mem_iff.1 hn
    exact (h.imus n).2 (mem_imus.2 ⟨hn, hall n hn⟩)
  unfold HideInjectedBodies
  simp only [h1, ok_bind, h2]
  unfold _match_q_x_between_sys
  rw [z1, ok_bind, pyAssert_true hq, ok_bind,
    pyAssert_true (show ∀ row ∈ x, row.length = r.num_links from hx), ok_bind, z2, ok_bind]
  have hscan : out.scan E (fun _ _ name => matchLink r ((r.link_names.zipIdx).map fun x =>
      (x.1, Idx.slice ((r.link_types.take x.2).map (wOf E.qw)).sum
        ((r.link_types.take (x.2 + 1)).map (wOf E.qw)).sum)) r.findall_imus name) (argL out.link_names) =
      .ok (out.link_names.map fun n => (r.link_names.idxOf n, none)) := by
    rw [scan_forward hR.wf.known hR.wf.types_len _ (rows := out.link_names) (by
        intro y hy
        have : y = (.l, out.link_names.length) := by simpa [argL] using hy
        rw [this]
        exact hR.wf.names_len) (rows_argL _ _) hR.wf.names_len]
    apply foldSpec_ok
    intro n hn
    have hr : n ∈ r.link_names := (mem_imus.1 (hmem n hn)).1
    have hr' : r.link_names[r.link_names.idxOf n]? = some n := by
      rw [List.getElem?_eq_getElem (List.idxOf_lt_length_of_mem hr)]
      simp
    unfold matchLink name_to_idx pyIndex
    rw [idxOf?_eq_of_nodup h.wf.names_nodup hr', ok_bind, if_pos (hmem n hn)]
    rfl
  rw [hscan, ok_bind]
  have : (out.link_names.map fun n => ((r.link_names.idxOf n, none) : Nat × Option (Nat × Nat))).filterMap
      Prod.snd = [] := by
    rw [List.filterMap_map]
    simp
  simp only [this]
  rfl

/-! ## examples -/

def artA : Artifacts ℚ := ⟨1 / 10, 3 / 10, 1 / 10, 50, 1 / 10⟩

theorem artA_ok : ArtifactsOk xmlEnv tallyTxt xmlInit artA where
  p3d := ⟨by decide, by decide, tally_text (by decide) (by decide), by decide⟩
  spherical := ⟨by decide, by decide, tally_text (by decide) (by decide), by decide⟩
  frozen := ⟨by decide, by decide⟩
  unit := by simp [xmlEnv]
  size := by simp [xmlEnv, artA]
  box := by norm_num [xmlEnv, artA]
  box_ne := by norm_num [artA]
  neg := by
    have : tallyTxt.fmt artA.pos_min_max = tally artA.pos_min_max := by
      show signed _ = _
      unfold signed
      rw [if_neg (by norm_num [artA])]
    rw [this, tally_neg]
  printable := fun _ _ => tally_printable _
  split := fun _ _ => by simp [xmlInit]

theorem xmlSys_injectable : Injectable xmlEnv tallyTxt (xmlSys [-1, -1, 0, 1]) where
  frozen := by
    intro n v hv hi
    have hwf := (xmlSys_wf (ps := [-1, -1, 0, 1]) rfl xmlParents).toConsistent
    have hn : n ∈ ["a", "b", "c", "imu"] := view_mem hv
    have : n = "imu" := by
      simp only [List.mem_cons, List.not_mem_nil, or_false] at hn
      rcases hn with rfl | rfl | rfl | rfl
      · exact absurd hi (by decide)
      · exact absurd hi (by decide)
      · exact absurd hi (by decide)
      · rfl
    subst this
    rw [view_eq_viewAt hwf (i := 3) rfl] at hv
    have := (viewAt_fields hwf (i := 3) (by decide) hv).2.1
    exact (Option.some.inj this).symm
  fresh := by
    intro n hn hi
    have hn : n ∈ ["a", "b", "c", "imu"] := hn
    show imu_reference_link_name n ∉ ["a", "b", "c", "imu"]
    simp only [List.mem_cons, List.not_mem_nil, or_false] at hn
    rcases hn with rfl | rfl | rfl | rfl <;> decide
  text := by
    intro n hn hi
    have hn : n ∈ ["a", "b", "c", "imu"] := hn
    simp only [List.mem_cons, List.not_mem_nil, or_false] at hn
    rcases hn with rfl | rfl | rfl | rfl <;>
      exact ⟨Or.inl (tally_text (by decide) (by decide)), Or.inl (tally_text (by decide) (by decide))⟩

example : ∃ r, inject_subsystems xmlEnv tallyTxt xmlInit 0 id artA (xmlSys [-1, -1, 0, 1]) = .ok r ∧
    Injected xmlEnv artA (xmlSys [-1, -1, 0, 1]) r ∧
    ∀ (q : List (List ℚ)) (x : List (List Nat)),
      (∀ row ∈ q, row.length = (r.link_types.map (wOf xmlEnv.qw)).sum) →
      (∀ row ∈ x, row.length = r.link_parents.length) →
      ∃ q' x' out, HideInjectedBodies xmlEnv q x r = .ok (q', x', out) ∧
        Restored xmlEnv (xmlSys [-1, -1, 0, 1]) out ∧
        ByName xmlEnv out r (xmlSys [-1, -1, 0, 1]).findall_imus q x q' x' :=
  C46_inject_hide artA_ok 0 id (xmlSys_savable rfl xmlParents) xmlInit_ok xmlSys_injectable
    ⟨"a", by decide, by decide⟩

/-- the IMU of the example has a geometry, so it is not restored -/
example {out : System ℚ Unit} (h : Restored xmlEnv (xmlSys [-1, -1, 0, 1]) out) :
    (out.view xmlEnv "imu").map LinkView.geoms = some [] ∧
      ∃ v, (xmlSys [-1, -1, 0, 1]).view xmlEnv "imu" = some v ∧ v.geoms ≠ [] := by
  have hwf := (xmlSys_wf (ps := [-1, -1, 0, 1]) rfl xmlParents).toConsistent
  obtain ⟨v, hv⟩ := viewAt_isSome hwf (i := 3) (by decide)
  have hg : v.geoms ≠ [] := by
    rw [(viewAt_fields hwf (i := 3) (by decide) hv).2.2.2.2.2.2.2.2]
    show (((xmlRaw [-1, -1, 0, 1]).geoms.mergeSort _).filter _).map _ ≠ []
    rw [filter_mergeSort]
    decide
  rw [← view_eq_viewAt hwf (m := "imu") rfl] at hv
  exact ⟨(C46_geoms_fails h hv (by decide) hg).2, v, hv, hg⟩

/-- a single IMU -/
def loneRaw : System ℚ Unit where
  link_parents := [-1]
  links := [⟨⟨⟨1, 2, 3⟩, ⟨0, 1, 0, 0⟩⟩, ⟨1, 2, 3⟩, ⟨1, 2, 3⟩, Inertia.zero, Transform.zero, Transform.zero⟩]
  joint_params := []
  link_types := ["frozen"]
  link_damping := []
  link_armature := []
  link_spring_stiffness := []
  link_spring_zeropoint := []
  dt := 1 / 100
  geoms := []
  gravity := ⟨0, 0, 981 / 100⟩
  integration_method := "other"
  mass_mat_iters := 3
  link_names := ["imu"]
  model_name := some "robot"
  omc := [none]

theorem loneRaw_consistent : loneRaw.Consistent xmlEnv where
  types_len := rfl
  links_len := rfl
  omc_len := rfl
  names_len := rfl
  names_nodup := by simp [loneRaw]
  pos_ok := by
    intro r hr
    simp only [loneRaw, List.mem_cons, List.not_mem_nil, or_false] at hr
    subst hr
    simp [xmlEnv]
  geoms_ok := by
    intro g hg
    cases hg
  known := by
    intro t ht
    simp only [loneRaw, List.mem_cons, List.not_mem_nil, or_false] at ht
    subst ht
    decide
  damping_len := by simp [loneRaw, xmlEnv, wOf]
  armature_len := by simp [loneRaw, xmlEnv, wOf]
  stiffness_len := by simp [loneRaw, xmlEnv, wOf]
  zeropoint_len := by simp [loneRaw, xmlEnv, wOf]
  unit_zero := by
    intro i hi
    have hi : i < 1 := hi
    interval_cases i
    intro h; exact absurd h (by show ¬ joint_type_is_free_or_cor_or_spherical "frozen" = true; decide)

def loneSys : System ℚ Unit := loneRaw.normalised xmlEnv

theorem loneSys_savable : Savable xmlEnv tallyTxt loneSys where
  wf := normalised_wf loneRaw_consistent (by
    intro i hi
    have : i = 0 := by simp [loneRaw] at hi; omega
    subst this
    simp [loneRaw]) (by simp [loneRaw]) (by simp [loneRaw])
  nonempty := by
    intro h
    cases h
  words := ⟨tally_text (by decide) (by decide), tally_text (by decide) (by decide),
    tally_text (by decide) (by decide), tally_text (by decide) (by decide),
    tally_text (by decide) (by decide)⟩
  model := ⟨"robot", rfl, tally_text (by decide) (by decide)⟩
  names := by
    intro n hn
    have hn : n ∈ ["imu"] := hn
    simp only [List.mem_cons, List.not_mem_nil, or_false] at hn
    subst hn
    exact Or.inl (tally_text (by decide) (by decide))
  types := by
    intro n hn
    have hn : n ∈ ["frozen"] := hn
    simp only [List.mem_cons, List.not_mem_nil, or_false] at hn
    subst hn
    exact ⟨tally_text (by decide) (by decide), by decide⟩
  dt := tally_printable _
  gravity := ⟨tally_printable _, tally_printable _, tally_printable _⟩
  rows := by
    have hp : ∀ r ∈ loneSys.links, r.pos_min = r.pos_max → r.pos_min = r.transform1.pos := by
      intro r hr
      obtain ⟨i, hi, rfl⟩ := List.getElem_of_mem hr
      have := normalised_links_getElem? xmlEnv loneRaw_consistent.links_len i
      have hi1 : i < loneRaw.links.length := by
        have h : loneSys.links.length = 1 := (normalised_consistent loneRaw_consistent).links_len
        show i < 1
        omega
      have e : loneSys.links[i]? = some loneSys.links[i] := List.getElem?_eq_getElem hi
      rw [show loneSys.links[i]? = (loneRaw.normalised xmlEnv).links[i]? from rfl, this] at e
      rw [List.getElem?_eq_getElem hi1, Option.map_some] at e
      have e' := (Option.some.inj e).symm
      generalize loneSys.links[i] = r at e'
      subst e'
      have hi1 : i < 1 := hi1
      interval_cases i
      simp [loneRaw]
    intro r hr
    exact ⟨⟨⟨tally_printable _, tally_printable _, tally_printable _⟩, tally_printable _,
      tally_printable _, tally_printable _, tally_printable _⟩,
      ⟨tally_printable _, tally_printable _, tally_printable _⟩,
      ⟨tally_printable _, tally_printable _, tally_printable _⟩, hp r hr⟩
  damping := fun _ _ => tally_printable _
  armature := fun _ _ => tally_printable _
  stiffness := fun _ _ => tally_printable _
  zeropoint := fun _ _ => tally_printable _
  geoms := by
    intro g hg
    have hg : g ∈ loneRaw.geoms := (List.mergeSort_perm _ _).mem_iff.1 hg
    cases hg
  omc := by
    intro o ho
    have ho : some o ∈ [none] := ho
    simp at ho

theorem loneSys_injectable : Injectable xmlEnv tallyTxt loneSys where
  frozen := by
    intro n v hv _
    have hwf := loneSys_savable.wf.toConsistent
    have hn : n ∈ ["imu"] := view_mem hv
    simp only [List.mem_cons, List.not_mem_nil, or_false] at hn
    subst hn
    rw [view_eq_viewAt hwf (i := 0) rfl] at hv
    have := (viewAt_fields hwf (i := 0) (by decide) hv).2.1
    exact (Option.some.inj this).symm
  fresh := by
    intro n hn hi
    have hn : n ∈ ["imu"] := hn
    show imu_reference_link_name n ∉ ["imu"]
    simp only [List.mem_cons, List.not_mem_nil, or_false] at hn
    subst hn
    decide
  text := by
    intro n hn hi
    have hn : n ∈ ["imu"] := hn
    simp only [List.mem_cons, List.not_mem_nil, or_false] at hn
    subst hn
    exact ⟨Or.inl (tally_text (by decide) (by decide)), Or.inl (tally_text (by decide) (by decide))⟩

/-- the bodies of a lone IMU can be injected but not hidden again -/
example : ∃ r, inject_subsystems xmlEnv tallyTxt xmlInit 0 id artA loneSys = .ok r ∧
    ∀ (q : List (List ℚ)) (x : List (List Nat)),
      (∀ row ∈ q, row.length = (r.link_types.map (wOf xmlEnv.qw)).sum) →
      (∀ row ∈ x, row.length = r.link_parents.length) →
      HideInjectedBodies xmlEnv q x r = .error .value := by
  obtain ⟨r, h1, h2⟩ := C46_inject artA_ok 0 id loneSys_savable
    (⟨fun t _ => by unfold xmlInit; simp only; split <;> simp, fun _ _ => by simp [xmlInit]⟩ :
      xmlInit.Ok loneSys.link_types) loneSys_injectable
  refine ⟨r, h1, fun q x => C46_only_imus_fails artA_ok loneSys_savable loneSys_injectable h2 ?_ q x⟩
  intro n hn
  have hn : n ∈ ["imu"] := hn
  simp only [List.mem_cons, List.not_mem_nil, or_false] at hn
  subst hn
  decide

end artifacts
end RingLib
