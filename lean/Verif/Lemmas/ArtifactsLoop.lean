import Verif.Lemmas.Artifacts
import Verif.Props.Inject

/-! The loop over the IMUs. -/

namespace RingLib
namespace artifacts
open System io
variable {α π K β : Type}

/-! ## names -/

/-- the names of IMUs start with `imu` -/
def IsImu (n : String) : Prop := "imu".toList <+: n.toList

instance (n : String) : Decidable (IsImu n) := by unfold IsImu; infer_instance

theorem isImu_iff (n : String) : n.toList.take 3 = "imu".toList ↔ IsImu n := by
  unfold IsImu
  rw [List.prefix_iff_eq_take, eq_comm]
  rfl

theorem mem_imus {s : System α π} {n : String} : n ∈ s.findall_imus ↔ n ∈ s.link_names ∧ IsImu n := by
  unfold findall_imus
  simp only [List.mem_filter, decide_eq_true_eq, isImu_iff]

theorem ref_not_imu (n : String) : ¬ IsImu (imu_reference_link_name n) := by
  rintro ⟨t, ht⟩
  have := congrArg List.head? ht
  simp [imu_reference_link_name, String.toList_append] at this

theorem ref_inj {m n : String} (h : imu_reference_link_name m = imu_reference_link_name n) : m = n := by
  apply String.toList_injective
  have := congrArg String.toList h
  simpa [imu_reference_link_name, String.toList_append] using this

/-- the names of the given links get an underscore -/
def underscore (done : List String) (n : String) : String :=
  if n ∈ done then imu_reference_link_name n else n

theorem underscore_step {done : List String} {imu : String} (hi : IsImu imu) (hd : imu ∉ done)
    (n : String) : renameTo imu (imu_reference_link_name imu) (underscore done n) =
      underscore (done ++ [imu]) n := by
  unfold underscore renameTo
  by_cases h : n ∈ done
  · have h1 : imu_reference_link_name n ≠ imu := fun e => ref_not_imu n (e ▸ hi)
    simp [h, h1]
  · by_cases h1 : n = imu
    · subst h1; simp [h]
    · simp [h, h1]

/-! ## views -/

/-- a spherical joint with the given spring -/
def sphericalVals [Field α] (A : Artifacts α) : JointVals α where
  lt := "spherical"
  la := List.replicate 3 0
  ld := List.replicate 3 (A.rotational_stif * A.rotational_damp)
  ls := List.replicate 3 A.rotational_stif
  lz := [1, 0, 0, 0]

/-- a link of the original system when the IMUs `done` have been replaced -/
def hostView [Field α] (A : Artifacts α) (done : List String) (n : String) (v : LinkView α π)
    (jp : String → Option π) : LinkView α π :=
  { (if n ∈ done then withVals v (sphericalVals A) else v) with
    parent := v.parent.map (underscore done)
    joint_params := jp }

variable [Field α] [DecidableEq α]

/-- the IMUs `done` of `s` have been replaced -/
structure Stage (E : Env α π) (A : Artifacts α) (s : System α π) (done : List String)
    (r : System α π) : Prop where
  wf : r.WF E
  names : r.link_names = s.link_names.map (underscore done) ++ done
  globals : r.globals = s.globals
  worldGeoms : r.worldGeoms = s.worldGeoms
  host : ∀ n v, s.view E n = some v → ∃ jp,
    r.view E (underscore done n) = some (hostView A done n v jp)
  body : ∀ n ∈ done, ∃ it jp,
    r.view E n = some (bodyView A (some (imu_reference_link_name n)) it jp [])

/-- What is needed of the system: the IMUs are frozen and the new names are free and readable. -/
structure Injectable (E : Env α π) (T : Txt α) (s : System α π) : Prop where
  frozen : ∀ n v, s.view E n = some v → IsImu n → v.type = "frozen"
  fresh : ∀ n ∈ s.link_names, IsImu n → imu_reference_link_name n ∉ s.link_names
  text : ∀ n ∈ s.link_names, IsImu n → ReadsName T n ∧ ReadsName T (imu_reference_link_name n)

omit [DecidableEq α] in
theorem view_mem {E : Env α π} {s : System α π} {n : String} {v : LinkView α π}
    (hv : s.view E n = some v) : n ∈ s.link_names := by
  by_contra hc
  rw [view_none hc] at hv
  cases hv

omit [DecidableEq α] in
theorem view_of_mem {E : Env α π} {s : System α π} (h : s.Consistent E) {n : String}
    (hn : n ∈ s.link_names) : ∃ i v, s.link_names[i]? = some n ∧ s.viewAt E i = some v ∧
      s.view E n = some v := by
  obtain ⟨i, hi, e⟩ := List.getElem_of_mem hn
  have hi' : s.link_names[i]? = some n := by rw [List.getElem?_eq_getElem hi, e]
  obtain ⟨v, hv⟩ := viewAt_isSome h (i := i) (h.names_len ▸ hi)
  exact ⟨i, v, hi', hv, by rw [view_eq_viewAt h hi', hv]⟩

/-- changing the joint of one link to one without further parameters -/
theorem change_joint_view {E : Env α π} {s : System α π} (h : s.WF E) {name t : String} {nq nd : Nat}
    (hq : E.qw t = some nq) (hd : E.dw t = some nd) (h0 : s.link_parents ≠ [])
    (hu : joint_type_is_free_or_cor_or_spherical t = true →
      E.unit4 (((changeLogic name t nq nd none none none none name ⟨t, [], [], [], []⟩ :
        JointVals α).lz).take 4) = true) :
    change_joint_type E s name t = .ok (s.replaceRaw E (changeLogic name t nq nd none none none none)) ∧
      (s.replaceRaw E (changeLogic name t nq nd none none none none)).WF E ∧
      ∀ n v, s.view E n = some v →
        (s.replaceRaw E (changeLogic name t nq nd none none none none)).view E n =
          some (withVals v (changeLogic name t nq nd none none none none n (valsOf v))) := by
  have w1 : width E.qw t = .ok nq := by unfold width; rw [hq]
  have w2 : width E.dw t = .ok nd := by unfold width; rw [hd]
  obtain ⟨e1, e2, e3⟩ := replace_view h h0 (logic := changeLogic name t nq nd none none none none) (by
    intro n v hv
    by_cases hn : n = name
    · have e : changeLogic name t nq nd none none none none n (valsOf v) =
          (changeLogic name t nq nd none none none none name ⟨t, [], [], [], []⟩ : JointVals α) := by
        unfold changeLogic
        simp [hn]
      rw [e]
      exact
        { known := by unfold changeLogic; simp [hq, hd]
          la := by unfold changeLogic; simp [wOf, hd]
          ld := by unfold changeLogic; simp [wOf, hd]
          ls := by unfold changeLogic; simp [wOf, hd]
          lz := by
            unfold changeLogic
            simp only [if_true]
            split <;> simp [wOf, hq]
          unit := by
            intro hx
            apply hu
            simpa [changeLogic] using hx }
    · have e : changeLogic name t nq nd none none none none n (valsOf v) = valsOf v := by
        unfold changeLogic
        rw [if_neg hn]
      rw [e]
      exact view_fits h hv)
  refine ⟨?_, e2, e3⟩
  unfold change_joint_type
  rw [w1, ok_bind, w2, ok_bind, e1]

theorem injectImu_ok {E : Env α π} {T : Txt α} {J : JointInit π K} {A : Artifacts α}
    (hA : ArtifactsOk E T J A) (key : K) {s r : System α π} {done : List String} {imu : String}
    (hs : s.Consistent E) (hI : Injectable E T s) (hr : Stage E A s done r)
    (hdone : ∀ n ∈ done, n ∈ s.link_names ∧ IsImu n)
    (hi : imu ∈ s.link_names) (himu : IsImu imu) (hnd : imu ∉ done) :
    ∃ r', injectImu E T J key A r imu = .ok r' ∧ Stage E A s (done ++ [imu]) r' := by
  obtain ⟨q4, d4, -, -⟩ := hA.spherical
  have hund : underscore done imu = imu := by simp [underscore, hnd]
  obtain ⟨i0, v0, -, -, hv0⟩ := view_of_mem hs hi
  obtain ⟨jp0, hv⟩ := hr.host imu v0 hv0
  rw [hund] at hv
  have hfroz : (hostView A done imu v0 jp0).type = "frozen" := by
    simp [hostView, hnd, hI.frozen imu v0 hv0 himu]
  obtain ⟨i, v', hi1, hi2, hi3⟩ := view_of_mem hr.wf.toConsistent (view_mem hv)
  have hv' : v' = hostView A done imu v0 jp0 := by
    rw [hv] at hi3
    exact (Option.some.inj hi3).symm
  rw [hv'] at hi2
  have hil : i < r.link_names.length := (List.getElem?_eq_some_iff.1 hi1).1
  have hip : i < r.link_parents.length := hr.wf.names_len ▸ hil
  have h0 : r.link_parents ≠ [] := by
    intro e; rw [e] at hip; exact absurd hip (by simp)
  -- unfreeze
  have hu := change_joint_view hr.wf (name := imu) q4 d4 h0 (by
    intro _
    have : ((changeLogic imu "spherical" 4 3 none none none none imu ⟨"spherical", [], [], [], []⟩ :
        JointVals α).lz).take 4 = [1, 0, 0, 0] := by
      simp [changeLogic, List.replicate]
    rw [this]
    exact hA.unit)
  obtain ⟨u1, u2, u3⟩ := hu
  set r1 := r.replaceRaw E (changeLogic imu "spherical" 4 3 none none none none) with hr1
  have hunf : unfreeze E r imu "spherical" = .ok r1 := by
    unfold unfreeze name_to_idx pyIndex
    rw [idxOf?_eq_of_nodup hr.wf.names_nodup hi1, ok_bind]
    have ht : r.link_types[i]? = some "frozen" := by
      have := (viewAt_vals hi2).1
      rw [hfroz] at this
      have hit : i < r.link_types.length := hr.wf.types_len ▸ hip
      rw [List.getElem?_eq_getElem hit]
      simpa [vals, hit] using this.symm
    rw [pyGet_nat ht, ok_bind, pyAssert_true rfl, ok_bind, pyAssert_true (by decide), ok_bind, u1]
  have hr1n : r1.link_names = r.link_names := rfl
  have hr1p : r1.link_parents = r.link_parents := rfl
  -- stiffness and damping
  have hx := C01_sizes_and_idx_map u2.known u2.types_len u2.names_len
  have hi1' : r1.link_names[i]? = some imu := hi1
  have hit1 : i < r1.link_types.length := u2.types_len ▸ hip
  have htyp1 : r1.link_types.getD i "" = "spherical" := by
    obtain ⟨v1, hv1⟩ := viewAt_isSome u2.toConsistent (i := i) hip
    have e1 := u3 imu _ hv
    rw [view_eq_viewAt u2.toConsistent hi1', hv1] at e1
    have := (viewAt_vals hv1).1
    rw [Option.some.inj e1] at this
    rw [show r1.link_types.getD i "" = (r1.vals E i).lt from rfl, ← this]
    simp [withVals, changeLogic]
  have hslice := sliceOf_eq (w := E.dw) (types := r1.link_types) u2.names_nodup hi1'
  have hlen3 : ∀ x : α, (List.replicate 3 x).length = wOf E.dw (r1.link_types.getD i "") := by
    intro x; rw [htyp1]; simp [wOf, d4]
  have hst := atSet_slice (v := List.replicate 3 A.rotational_stif) u2.stiffness_len hit1 (hlen3 _)
  have hda := atSet_slice (v := (List.replicate 3 A.rotational_stif).map (· * A.rotational_damp))
    u2.damping_len hit1 (by rw [List.map_replicate]; exact hlen3 _)
  have hsp := springs_eq u2.toConsistent hi1' (ls := List.replicate 3 A.rotational_stif)
    (ld := (List.replicate 3 A.rotational_stif).map (· * A.rotational_damp))
  obtain ⟨-, w2, w3⟩ := replace_view u2 h0
    (logic := springLogic imu (List.replicate 3 A.rotational_stif)
      ((List.replicate 3 A.rotational_stif).map (· * A.rotational_damp))) (by
    intro n v hvn
    unfold springLogic
    have hf := view_fits u2 hvn
    by_cases hn : n = imu
    · rw [if_pos hn]
      subst hn
      have e1 := u3 n _ hv
      rw [hvn] at e1
      have et : v.type = "spherical" := by
        rw [Option.some.inj e1]
        simp [withVals, changeLogic]
      exact { hf with
        ld := by
          rw [List.map_replicate, List.length_replicate]
          show 3 = wOf E.dw v.type
          rw [et]; simp [wOf, d4]
        ls := by
          rw [List.length_replicate]
          show 3 = wOf E.dw v.type
          rw [et]; simp [wOf, d4] }
    · rw [if_neg hn]
      exact hf)
  rw [← hsp] at w2 w3
  set r2 : System α π := { r1 with
      link_spring_stiffness := ((chunks (r1.link_types.map (wOf E.dw)) r1.link_spring_stiffness).set i
        (List.replicate 3 A.rotational_stif)).flatten
      link_damping := ((chunks (r1.link_types.map (wOf E.dw)) r1.link_damping).set i
        ((List.replicate 3 A.rotational_stif).map (· * A.rotational_damp))).flatten } with hr2
  -- the new name
  have hmemr : imu ∈ r.link_names := view_mem hv
  have hrefr : imu_reference_link_name imu ∉ r.link_names := by
    rw [hr.names]
    intro hm
    rcases List.mem_append.1 hm with hm | hm
    · obtain ⟨m, hm1, hm2⟩ := List.mem_map.1 hm
      unfold underscore at hm2
      split at hm2
      · rename_i hmd
        exact hnd (ref_inj hm2 ▸ hmd)
      · exact hI.fresh imu hi himu (hm2 ▸ hm1)
    · exact ref_not_imu imu (hdone _ hm).2
  obtain ⟨r3, c1, c2, c3, c4⟩ := rename_view w2 (old := imu) (new := imu_reference_link_name imu)
    (show imu ∈ r2.link_names from hmemr) hrefr
  have hr3n : r3.link_names = s.link_names.map (underscore (done ++ [imu])) ++ done := by
    rw [c2]
    show r.link_names.map _ = _
    rw [hr.names, List.map_append, List.map_map]
    congr 1
    · exact List.map_congr_left fun n _ => underscore_step himu hnd n
    · conv_rhs => rw [← List.map_id done]
      apply List.map_congr_left
      intro n hn
      have : n ≠ imu := fun e => hnd (e ▸ hn)
      simp [renameTo, this]
  -- the body
  obtain ⟨t, f1, f2, f3, f4, f5, it, jpt, f6⟩ := factory_ok hA key (hI.text imu hi himu).1
  have hr3i : imu ∉ r3.link_names := by
    rw [hr3n]
    intro hm
    rcases List.mem_append.1 hm with hm | hm
    · obtain ⟨m, hm1, hm2⟩ := List.mem_map.1 hm
      unfold underscore at hm2
      split at hm2
      · exact ref_not_imu m (hm2 ▸ himu)
      · rename_i h
        subst hm2
        simp at h
    · exact hnd hm
  have hr3ref : imu_reference_link_name imu ∈ r3.link_names := by
    rw [hr3n]
    refine List.mem_append_left _ (List.mem_map.2 ⟨imu, hi, ?_⟩)
    simp [underscore]
  obtain ⟨r', g1, g2, g3, g4, g5, g6, g7⟩ := C04_inject c3 f2 (by
      rw [c2]; exact h0) (by rw [f4]; simp) (at_body := some (imu_reference_link_name imu)) (by
      intro m hm
      rw [f3]
      intro e
      rw [List.mem_singleton.1 e] at hm
      exact hr3i hm) (by
      intro b hb
      rw [← Option.some.inj hb]
      exact hr3ref)
  refine ⟨r', ?_, ?_⟩
  · unfold injectImu
    simp only [hunf, ok_bind, hx.2.2.2.2, hslice, hst, hda]
    rw [show r2.change_link_name imu (imu_reference_link_name imu) = .ok r3 from c1, ok_bind, f1, ok_bind,
      g1]
  · have hostg : ∀ m v, r3.view E m = some v → ∃ jp, r'.view E m = some { v with joint_params := jp } := by
      intro m v hm
      obtain ⟨v1, it1, k1, k2, k3⟩ := g5 m (view_mem hm)
      rw [hm] at k1
      obtain rfl := Option.some.inj k1
      have hl : landed t (some (imu_reference_link_name imu)) m = [] := landed_eq_nil f5 _ _
      refine ⟨withNaN E r3 t v.joint_params, ?_⟩
      rw [k2, k3 hl, hl, List.append_nil]
    exact
    { wf := g2
      names := by rw [g3, hr3n, f3, List.append_assoc]
      globals := by
        rw [g4, c2, ← hr.globals]
        rfl
      worldGeoms := by
        rw [g7, c2, ← hr.worldGeoms]
        simp [worldGeoms]
        rfl
      host := by
        intro n v hn
        obtain ⟨jp, hj⟩ := hr.host n v hn
        have k := c4 _ _ (w3 _ _ (u3 _ _ hj))
        rw [underscore_step himu hnd] at k
        obtain ⟨jp', k'⟩ := hostg _ _ k
        refine ⟨jp', ?_⟩
        rw [k', Option.some.injEq]
        have hpar : (v.parent.map (underscore done)).map
            (renameTo imu (imu_reference_link_name imu)) = v.parent.map (underscore (done ++ [imu])) := by
          rw [Option.map_map]
          congr 1
          funext m
          exact underscore_step himu hnd m
        by_cases hn1 : n = imu
        · subst hn1
          rw [hund]
          ext1 <;> simp [hostView, hnd, withVals, valsOf, springLogic, changeLogic, sphericalVals]
          · rw [← Option.map_map]; exact hpar
        · have hu' : underscore done n ≠ imu := by
            unfold underscore
            split
            · exact fun e => ref_not_imu n (e ▸ himu)
            · exact hn1
          by_cases hnd' : n ∈ done
          · ext1 <;> simp [hostView, hnd', hu', hn1, withVals, valsOf, springLogic, changeLogic, sphericalVals]
            · rw [← Option.map_map]; exact hpar
          · ext1 <;> simp [hostView, hnd', hu', hn1, withVals, valsOf, springLogic, changeLogic]
            · rw [← Option.map_map]; exact hpar
      body := by
        intro n hn
        rcases List.mem_append.1 hn with hn | hn
        · obtain ⟨it1, jp, hj⟩ := hr.body n hn
          have hne : n ≠ imu := fun e => hnd (e ▸ hn)
          have k := c4 _ _ (w3 _ _ (u3 _ _ hj))
          have e : renameTo imu (imu_reference_link_name imu) n = n := by simp [renameTo, hne]
          rw [e] at k
          obtain ⟨jp', k'⟩ := hostg _ _ k
          refine ⟨it1, jp', ?_⟩
          rw [k', Option.some.injEq]
          have h1 : imu_reference_link_name n ≠ imu := fun e => ref_not_imu n (e ▸ himu)
          ext1 <;> simp [bodyView, withVals, valsOf, springLogic, changeLogic, hne, renameTo, h1]
        · rw [List.mem_singleton.1 hn]
          obtain ⟨v1, k1, k2⟩ := g6 imu (by rw [f3]; simp)
          rw [f6] at k1
          obtain rfl := Option.some.inj k1
          exact ⟨it, _, k2⟩ }

end artifacts
end RingLib
