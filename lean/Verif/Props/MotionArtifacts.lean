import Verif.Lemmas.ArtifactsReload

/-!
# C46: injecting the IMU bodies and hiding them again
-/

namespace RingLib
namespace artifacts
open System io
variable {α π K β : Type} [Field α] [DecidableEq α]

/-- What injecting makes of `s`, by name: the IMUs get an underscore and a spherical joint with the given
spring, below each of them is a new body with the name, the geometries and the inertia of the IMU that
moves along three axes; all other links are unchanged (apart from the reset of poses and joint
parameters). -/
structure Injected (E : Env α π) (A : Artifacts α) (s r : System α π) : Prop where
  wf : r.WF E
  names : r.link_names.Perm (s.link_names.map (underscore s.findall_imus) ++ s.findall_imus)
  other : ∀ n v, s.view E n = some v → ¬ IsImu n → ∃ v', r.view E n = some v' ∧
    v' = { v with
      parent := v.parent.map (underscore s.findall_imus)
      row := { v.row with transform2 := Transform.zero, transform := Transform.zero }
      joint_params := v'.joint_params }
  socket : ∀ n v, s.view E n = some v → IsImu n → ∃ v', r.view E (imu_reference_link_name n) = some v' ∧
    v' = { v with
      parent := v.parent.map (underscore s.findall_imus)
      type := "spherical"
      row := { v.row with
        inertia := Inertia.zero
        transform2 := Transform.zero
        transform := Transform.zero }
      damping := List.replicate 3 (A.rotational_stif * A.rotational_damp)
      armature := List.replicate 3 0
      stiffness := List.replicate 3 A.rotational_stif
      zeropoint := [1, 0, 0, 0]
      geoms := []
      joint_params := v'.joint_params }
  body : ∀ n v, s.view E n = some v → IsImu n → ∃ v', r.view E n = some v' ∧
    v' = bodyView A (some (imu_reference_link_name n)) v.row.inertia v'.joint_params v.geoms
  worldGeoms : r.worldGeoms = []
  globals : r.globals = (s.dt, s.gravity, "semi_implicit_euler", 0, s.model_name)

theorem bodyView_savable {E : Env α π} {T : Txt α} {J : JointInit π K} {A : Artifacts α}
    (hA : ArtifactsOk E T J A) {p : Option String} {it : Inertia α} {jp : String → Option π}
    {gs : List (GeomData α)} (hg : ∀ d ∈ gs, GeomSavable E T (ofData d)) :
    ViewSavable E T (bodyView A p it jp gs) where
  type := ⟨hA.p3d.2.2.1, by simp [bodyView]⟩
  row :=
    { transform1 := by
        have h0 := hA.printable 0 (by simp)
        have h1 := hA.printable 1 (by simp)
        exact ⟨⟨h0, h0, h0⟩, h1, h0, h0, h0⟩
      pos_min := by
        have := hA.printable (-A.pos_min_max) (by simp)
        exact ⟨this, this, this⟩
      pos_max := by
        have := hA.printable A.pos_min_max (by simp)
        exact ⟨this, this, this⟩
      point := by
        intro e
        have e1 : -A.pos_min_max = A.pos_min_max := congrArg Vec3.x e
        have e0 : A.pos_min_max = 0 := by
          by_contra h
          exact hA.box_ne h e1
        simp only [bodyView, e0, neg_zero]
        rfl }
  damping := by
    intro x hx
    rw [List.eq_of_mem_replicate hx]
    exact hA.printable _ (by simp)
  armature := by
    intro x hx
    rw [List.eq_of_mem_replicate hx]
    exact hA.printable _ (by simp)
  stiffness := by
    intro x hx
    rw [List.eq_of_mem_replicate hx]
    exact hA.printable _ (by simp)
  zeropoint := by
    intro x hx
    rw [List.eq_of_mem_replicate hx]
    exact hA.printable _ (by simp)
  geoms := hg
  omc := by intro o ho; cases ho

theorem C46_inject {E : Env α π} {T : Txt α} {J : JointInit π K} {A : Artifacts α}
    (hA : ArtifactsOk E T J A) (key : K) (zeroLike : π → π) {s : System α π} (hs : Savable E T s)
    (hJ : J.Ok s.link_types) (hI : Injectable E T s) :
    ∃ r, inject_subsystems E T J key zeroLike A s = .ok r ∧ Injected E A s r := by
  obtain ⟨r, l1, hr⟩ := loop_ok hA key hs.wf hI
  obtain ⟨m, gs, m1, m2, m3, m4, m5⟩ := reattach_ok hs.wf hr
  have hc : ({ r with geoms := gs } : System α π).Consistent E :=
    { hr.wf.toConsistent with geoms_ok := m3 }
  have hwf := normalised_wf hc hr.wf.topo hr.wf.jp_keys hr.wf.jp_len
  set r1 : System α π := { r with geoms := gs } with hr1
  let jp0 : List (String × List π) := r.joint_params.map fun x => (x.1, x.2.map zeroLike)
  let r2 : System α π := { r1.normalised E with joint_params := jp0 }
  have hwf2 : r2.WF E :=
    { hwf with
      jp_keys := by
        show (jp0.map (·.1)).Nodup
        rw [List.map_map]
        exact hr.wf.jp_keys
      jp_len := by
        intro x hx
        obtain ⟨y, hy, rfl⟩ := List.mem_map.1 hx
        rw [List.length_map]
        exact hr.wf.jp_len y hy }
  have h0 : r.link_parents ≠ [] := by
    intro e
    have h1 := hr.wf.names_len
    rw [e, hr.names] at h1
    have : s.link_names.length = 0 := by simp at h1; simp [h1.1]
    rw [hs.wf.names_len] at this
    exact hs.nonempty (List.length_eq_zero_iff.1 this)
  -- the views of the system that is saved
  have hat2 : ∀ (k : Nat) v, r.viewAt E k = some v → ∃ jp, r2.viewAt E k = some { v with
      row := { v.row with inertia := compute_inertia_per_link E.pi gs k }
      geoms := (gs.filter fun g => g.link_idx = (k : Int)).map Geometry.data
      joint_params := jp } := by
    intro k v hv
    have e1 : r1.viewAt E k = some { v with
        geoms := (gs.filter fun g => g.link_idx = (k : Int)).map Geometry.data } := by
      unfold viewAt at hv ⊢
      cases h1 : r.link_parents[k]? with
      | none => rw [h1] at hv; cases hv
      | some p =>
        cases h2 : r.link_types[k]? with
        | none => rw [h1, h2] at hv; cases hv
        | some t =>
          cases h3 : r.links[k]? with
          | none => rw [h1, h2, h3] at hv; cases hv
          | some w =>
            cases h4 : r.omc[k]? with
            | none => rw [h1, h2, h3, h4] at hv; cases hv
            | some o =>
              rw [h1, h2, h3, h4] at hv
              simp only [hr1, h1, h2, h3, h4, Option.bind_eq_bind, Option.bind_some, Option.pure_def,
                Option.some.injEq] at hv ⊢
              subst hv
              rfl
    have e2 := normalised_viewAt hc k
    rw [e1, Option.map_some] at e2
    refine ⟨fun typ => (jp0.lookup typ).bind (·[k]?), ?_⟩
    unfold viewAt at e2 ⊢
    cases h1 : (r1.normalised E).link_parents[k]? with
    | none => rw [h1] at e2; cases e2
    | some p =>
      cases h2 : (r1.normalised E).link_types[k]? with
      | none => rw [h1, h2] at e2; cases e2
      | some t =>
        cases h3 : (r1.normalised E).links[k]? with
        | none => rw [h1, h2, h3] at e2; cases e2
        | some w =>
          cases h4 : (r1.normalised E).omc[k]? with
          | none => rw [h1, h2, h3, h4] at e2; cases e2
          | some o =>
            rw [h1, h2, h3, h4] at e2
            simp only [r2, h1, h2, h3, h4, Option.bind_eq_bind, Option.bind_some, Option.pure_def,
              Option.some.injEq, LinkView.mk.injEq] at e2 ⊢
            refine ⟨e2.1, e2.2.1, e2.2.2.1, e2.2.2.2.1, e2.2.2.2.2.1, e2.2.2.2.2.2.1,
              e2.2.2.2.2.2.2.1, trivial, e2.2.2.2.2.2.2.2.2.1, e2.2.2.2.2.2.2.2.2.2⟩
  have hwas : ∀ n v, s.view E n = some v → ∃ k, s.link_names[k]? = some n ∧ s.viewAt E k = some v ∧
      v.row.inertia = compute_inertia_per_link E.pi s.geoms k ∧
      v.geoms = (s.geoms.filter fun g => g.link_idx = (k : Int)).map Geometry.data := by
    intro n v hv
    obtain ⟨k, v', h1, h2, h3⟩ := view_of_mem hs.wf.toConsistent (view_mem hv)
    obtain rfl : v = v' := Option.some.inj (hv.symm.trans h3)
    have hk : k < s.link_parents.length := hs.wf.names_len ▸ (List.getElem?_eq_some_iff.1 h1).1
    exact ⟨k, h1, h2, view_inertia hs.wf h2, (viewAt_fields hs.wf.toConsistent hk h2).2.2.2.2.2.2.2.2⟩
  have himu : ∀ n, n ∈ s.link_names → (n ∈ s.findall_imus ↔ IsImu n) := by
    intro n hn
    rw [mem_imus]; exact and_iff_right hn
  have hother : ∀ n v, s.view E n = some v → ¬ IsImu n → ∃ jp, r2.view E n = some { v with
      parent := v.parent.map (underscore s.findall_imus)
      joint_params := jp } := by
    intro n v hv hn
    obtain ⟨ks, -, -, hin, hge⟩ := hwas n v hv
    have hni : n ∉ s.findall_imus := fun h => hn (mem_imus.1 h).2
    have hnr : n ∉ s.findall_imus.map imu_reference_link_name := by
      intro h
      obtain ⟨a, h1, h2⟩ := List.mem_map.1 h
      exact hI.fresh a (mem_imus.1 h1).1 (mem_imus.1 h1).2 (h2 ▸ view_mem hv)
    obtain ⟨jp, h1⟩ := hr.host n v hv
    have hu : underscore s.findall_imus n = n := by simp [underscore, hni]
    rw [hu] at h1
    obtain ⟨k, v1, k1, k2, k3⟩ := view_of_mem hr.wf.toConsistent (view_mem h1)
    obtain rfl := Option.some.inj (h1.symm.trans k3)
    obtain ⟨jp', k4⟩ := hat2 k _ k2
    have hg := m5 k n k1
    rw [if_neg hni, if_neg hnr, h1] at hg
    refine ⟨jp', ?_⟩
    rw [view_eq_viewAt hwf2.toConsistent (show r2.link_names[k]? = some n from k1), k4, hg]
    have hi : compute_inertia_per_link E.pi gs k = v.row.inertia := by
      rw [hin]
      apply inertia_of_data
      rw [hg, ← hge]
      simp [hostView, hni]
    rw [hi]
    simp [hostView, hni]
  have hsocket : ∀ n v, s.view E n = some v → IsImu n → ∃ jp,
      r2.view E (imu_reference_link_name n) = some { v with
        parent := v.parent.map (underscore s.findall_imus)
        type := "spherical"
        row := { v.row with inertia := Inertia.zero }
        damping := List.replicate 3 (A.rotational_stif * A.rotational_damp)
        armature := List.replicate 3 0
        stiffness := List.replicate 3 A.rotational_stif
        zeropoint := [1, 0, 0, 0]
        geoms := []
        joint_params := jp } := by
    intro n v hv hn
    have hni : n ∈ s.findall_imus := (himu n (view_mem hv)).2 hn
    obtain ⟨jp, h1⟩ := hr.host n v hv
    have hu : underscore s.findall_imus n = imu_reference_link_name n := by simp [underscore, hni]
    rw [hu] at h1
    obtain ⟨k, v1, k1, k2, k3⟩ := view_of_mem hr.wf.toConsistent (view_mem h1)
    obtain rfl := Option.some.inj (h1.symm.trans k3)
    obtain ⟨jp', k4⟩ := hat2 k _ k2
    have hg := m5 k _ k1
    rw [if_neg (fun h => ref_not_imu n (mem_imus.1 h).2), if_pos (List.mem_map.2 ⟨n, hni, rfl⟩)] at hg
    refine ⟨jp', ?_⟩
    rw [view_eq_viewAt hwf2.toConsistent (show r2.link_names[k]? = some _ from k1), k4, hg]
    have hi : compute_inertia_per_link E.pi gs k = Inertia.zero := by
      have : compute_inertia_per_link E.pi gs k = compute_inertia_per_link E.pi [] 0 := by
        apply inertia_of_data
        rw [hg]; rfl
      rw [this]
      rfl
    rw [hi]
    simp [hostView, hni, withVals, sphericalVals]
  have hbody : ∀ n v, s.view E n = some v → IsImu n → ∃ jp, r2.view E n =
      some (bodyView A (some (imu_reference_link_name n)) v.row.inertia jp v.geoms) := by
    intro n v hv hn
    have hni : n ∈ s.findall_imus := (himu n (view_mem hv)).2 hn
    obtain ⟨ks, -, -, hin, hge⟩ := hwas n v hv
    obtain ⟨it, jp, h1⟩ := hr.body n hni
    obtain ⟨k, v1, k1, k2, k3⟩ := view_of_mem hr.wf.toConsistent (view_mem h1)
    obtain rfl := Option.some.inj (h1.symm.trans k3)
    obtain ⟨jp', k4⟩ := hat2 k _ k2
    have hg := m5 k _ k1
    obtain ⟨jp1, h2⟩ := hr.host n v hv
    have hu : underscore s.findall_imus n = imu_reference_link_name n := by simp [underscore, hni]
    rw [hu] at h2
    rw [if_pos hni, h2] at hg
    have hg' : (gs.filter fun g => g.link_idx = (k : Int)).map Geometry.data = v.geoms := by
      rw [hg]; simp [hostView, hni, withVals]
    refine ⟨jp', ?_⟩
    rw [view_eq_viewAt hwf2.toConsistent (show r2.link_names[k]? = some _ from k1), k4, hg']
    have hi : compute_inertia_per_link E.pi gs k = v.row.inertia := by
      rw [hin]
      apply inertia_of_data
      rw [hg', ← hge]
    rw [hi]
    rfl
  -- all views of the system that is saved
  have hall : ∀ m v, r2.view E m = some v → (∃ n w, s.view E n = some w ∧ ¬ IsImu n ∧ n = m ∧
        ∃ jp, v = { w with
          parent := w.parent.map (underscore s.findall_imus)
          joint_params := jp }) ∨
      (∃ n w, s.view E n = some w ∧ IsImu n ∧ imu_reference_link_name n = m ∧ ∃ jp,
        v = { w with
          parent := w.parent.map (underscore s.findall_imus)
          type := "spherical"
          row := { w.row with inertia := Inertia.zero }
          damping := List.replicate 3 (A.rotational_stif * A.rotational_damp)
          armature := List.replicate 3 0
          stiffness := List.replicate 3 A.rotational_stif
          zeropoint := [1, 0, 0, 0]
          geoms := []
          joint_params := jp }) ∨
      (∃ w, s.view E m = some w ∧ IsImu m ∧ ∃ jp,
        v = bodyView A (some (imu_reference_link_name m)) w.row.inertia jp w.geoms) := by
    intro m v hv
    have hm : m ∈ r.link_names := view_mem (s := r2) hv
    rw [hr.names, List.mem_append] at hm
    rcases hm with hm | hm
    · obtain ⟨n, hn, e⟩ := List.mem_map.1 hm
      obtain ⟨-, w, -, -, hw⟩ := view_of_mem hs.wf.toConsistent hn
      by_cases hi : IsImu n
      · right; left
        have e' : imu_reference_link_name n = m := by
          rw [← e]; simp [underscore, (himu n hn).2 hi]
        obtain ⟨jp, h1⟩ := hsocket n w hw hi
        rw [e', hv] at h1
        exact ⟨n, w, hw, hi, e', jp, Option.some.inj h1⟩
      · left
        have e' : n = m := by
          have hi' : n ∉ s.findall_imus := fun h => hi ((himu n hn).1 h)
          rw [← e]; simp [underscore, hi']
        obtain ⟨jp, h1⟩ := hother n w hw hi
        rw [e', hv] at h1
        exact ⟨n, w, hw, hi, e', jp, Option.some.inj h1⟩
    · right; right
      obtain ⟨hm1, hm2⟩ := mem_imus.1 hm
      obtain ⟨-, w, -, -, hw⟩ := view_of_mem hs.wf.toConsistent hm1
      obtain ⟨jp, h1⟩ := hbody m w hw hm2
      rw [hv] at h1
      exact ⟨w, hw, hm2, jp, Option.some.inj h1⟩
  have hglob : (r.dt, r.gravity, r.integration_method, r.mass_mat_iters, r.model_name) =
    (s.dt, s.gravity, s.integration_method, s.mass_mat_iters, s.model_name) := hr.globals
  simp only [Prod.mk.injEq] at hglob
  obtain ⟨g1, g2, -, -, g5⟩ := hglob
  have hsav : Savable E T r2 := by
    refine savable_of_views hwf2 h0 hs.words ?_ ?_ ?_ ?_
    · show ∃ m, r.model_name = some m ∧ _
      rw [g5]; exact hs.model
    · show Printable T r.dt
      rw [g1]; exact hs.dt
    · show PrintableVec T r.gravity
      rw [g2]; exact hs.gravity
    · intro m v hv
      rcases hall m v hv with ⟨n, w, hw, -, rfl, jp, rfl⟩ | ⟨n, w, hw, hi, rfl, jp, rfl⟩ |
        ⟨w, hw, hi, jp, rfl⟩
      · obtain ⟨h1, h2⟩ := Savable.view hs hw
        exact ⟨h1, ⟨h2.type, h2.row, h2.damping, h2.armature, h2.stiffness, h2.zeropoint, h2.geoms, h2.omc⟩⟩
      · obtain ⟨h1, h2⟩ := Savable.view hs hw
        refine ⟨(hI.text n (view_mem hw) hi).2, ?_⟩
        exact
        { type := ⟨hA.spherical.2.2.1, by simp⟩
          row := ⟨h2.row.transform1, h2.row.pos_min, h2.row.pos_max, h2.row.point⟩
          damping := by
            intro x hx
            rw [List.eq_of_mem_replicate hx]
            exact hA.printable _ (by simp)
          armature := by
            intro x hx
            rw [List.eq_of_mem_replicate hx]
            exact hA.printable _ (by simp)
          stiffness := by
            intro x hx
            rw [List.eq_of_mem_replicate hx]
            exact hA.printable _ (by simp)
          zeropoint := by
            intro x hx
            simp only [List.mem_cons, List.not_mem_nil, or_false] at hx
            rcases hx with rfl | rfl | rfl | rfl <;> exact hA.printable _ (by simp)
          geoms := by simp
          omc := h2.omc }
      · obtain ⟨h1, h2⟩ := Savable.view hs hw
        exact ⟨h1, bodyView_savable hA h2.geoms⟩
  have hJ2 : J.Ok r2.link_types := by
    refine ⟨?_, hJ.split⟩
    intro t ht
    obtain ⟨i, hi, rfl⟩ := List.getElem_of_mem ht
    have hip : i < r2.link_parents.length := hwf2.types_len ▸ hi
    have hin : i < r2.link_names.length := hwf2.names_len ▸ hip
    obtain ⟨v, hv⟩ := viewAt_isSome hwf2.toConsistent hip
    have ht := (viewAt_fields hwf2.toConsistent hip hv).2.1
    rw [List.getElem?_eq_getElem hi] at ht
    rw [Option.some.inj ht]
    rw [← view_eq_viewAt hwf2.toConsistent (List.getElem?_eq_getElem hin)] at hv
    rcases hall _ v hv with ⟨n, w, hw, -, -, jp, rfl⟩ | ⟨n, w, hw, hi, -, jp, rfl⟩ |
        ⟨w, hw, hi, jp, rfl⟩
    · obtain ⟨k, -, hk, -⟩ := hwas n w hw
      have hkl : k < s.link_parents.length := by
        by_contra h
        unfold viewAt at hk
        rw [List.getElem?_eq_none (by omega)] at hk
        cases hk
      exact hJ.known _ (List.mem_of_getElem? (viewAt_fields hs.wf.toConsistent hkl hk).2.1)
    · exact hA.spherical.2.2.2
    · exact hA.p3d.2.2.2
  obtain ⟨d, r', perm, d1, d2, d3⟩ := C08_roundtrip_partial hsav hJ2 key
  obtain ⟨p1, p2⟩ := d3.by_name hwf2
  refine ⟨r', ?_, ?_⟩
  · unfold inject_subsystems
    rw [m1, ok_bind, l1, ok_bind, m2, ok_bind]
    show (parse E r1 >>= _) = _
    rw [parse_ok hc, ok_bind]
    show (save_sys_to_str E T r2 >>= _) = _
    rw [d1, ok_bind, d2]
  · exact
    { wf := d3.wf
      names := by
        rw [show r2.link_names = s.link_names.map (underscore s.findall_imus) ++ s.findall_imus from
          hr.names] at p1
        exact p1
      other := by
        intro n v hv hn
        obtain ⟨jp, h1⟩ := hother n v hv hn
        obtain ⟨v', h2, h3⟩ := p2 n _ h1
        exact ⟨v', h2, h3⟩
      socket := by
        intro n v hv hn
        obtain ⟨jp, h1⟩ := hsocket n v hv hn
        obtain ⟨v', h2, h3⟩ := p2 _ _ h1
        exact ⟨v', h2, h3⟩
      body := by
        intro n v hv hn
        obtain ⟨jp, h1⟩ := hbody n v hv hn
        obtain ⟨v', h2, h3⟩ := p2 _ _ h1
        exact ⟨v', h2, h3⟩
      worldGeoms := d3.worldGeoms
      globals := by
        rw [d3.globals]
        show (r.dt, r.gravity, "semi_implicit_euler", (0 : Int), r.model_name) = _
        rw [g1, g2, g5] }

end artifacts
end RingLib
