import Verif.Lemmas.ArtifactsLoop

/-! Re-attaching the geometries and loading the system again. -/

namespace RingLib
namespace artifacts
open System io
variable {α π K β : Type}

/-! ## savable, link by link -/

/-- a geometry with the given data -/
def ofData (d : GeomData α) : Geometry α := ⟨d.mass, d.transform, 0, d.shape, d.color, d.edge_color⟩

variable [Field α] [DecidableEq α]

/-- what is needed of one link for saving and loading -/
structure ViewSavable (E : Env α π) (T : Txt α) (v : LinkView α π) : Prop where
  type : IsText T v.type ∧ v.type ≠ "cor"
  row : RowSavable T v.row
  damping : ∀ x ∈ v.damping, Printable T x
  armature : ∀ x ∈ v.armature, Printable T x
  stiffness : ∀ x ∈ v.stiffness, Printable T x
  zeropoint : ∀ x ∈ v.zeropoint, Printable T x
  geoms : ∀ d ∈ v.geoms, GeomSavable E T (ofData d)
  omc : ∀ o, v.omc = some o → OmcSavable T o

omit [DecidableEq α] in
theorem geomSavable_data {E : Env α π} {T : Txt α} {g : Geometry α} :
    GeomSavable E T (ofData g.data) ↔ GeomSavable E T g :=
  ⟨fun h => ⟨h.dims, h.xyz, h.mass, h.transform, h.color, h.edge_color⟩,
    fun h => ⟨h.dims, h.xyz, h.mass, h.transform, h.color, h.edge_color⟩⟩

omit [DecidableEq α] in
theorem viewAt_fields {E : Env α π} {s : System α π} (h : s.Consistent E) {i : Nat}
    (hi : i < s.link_parents.length) {v : LinkView α π} (hv : s.viewAt E i = some v) :
    s.nameAt (s.link_parents[i]) = v.parent ∧ s.link_types[i]? = some v.type ∧
      s.links[i]? = some v.row ∧ s.omc[i]? = some v.omc ∧
      v.damping = ownSlice E.dw s.link_types s.link_damping i ∧
      v.armature = ownSlice E.dw s.link_types s.link_armature i ∧
      v.stiffness = ownSlice E.dw s.link_types s.link_spring_stiffness i ∧
      v.zeropoint = ownSlice E.qw s.link_types s.link_spring_zeropoint i ∧
      v.geoms = (s.geoms.filter fun g => g.link_idx = (i : Int)).map Geometry.data := by
  have hit : i < s.link_types.length := h.types_len ▸ hi
  have hil : i < s.links.length := h.links_len ▸ hi
  have hio : i < s.omc.length := h.omc_len ▸ hi
  unfold viewAt at hv
  rw [List.getElem?_eq_getElem hi, List.getElem?_eq_getElem hit,
    List.getElem?_eq_getElem hil, List.getElem?_eq_getElem hio] at hv
  simp only [Option.bind_eq_bind, Option.bind_some, Option.pure_def, Option.some.injEq] at hv
  subst hv
  simp [hit, hil, hio]

theorem Savable.view {E : Env α π} {T : Txt α} {s : System α π} (h : Savable E T s) {n : String}
    {v : LinkView α π} (hv : s.view E n = some v) : ReadsName T n ∧ ViewSavable E T v := by
  have hn := view_mem hv
  obtain ⟨i, v', hi, hvi, hv'⟩ := view_of_mem h.wf.toConsistent hn
  obtain rfl : v = v' := Option.some.inj (hv.symm.trans hv')
  have hil : i < s.link_parents.length := h.wf.names_len ▸ (List.getElem?_eq_some_iff.1 hi).1
  obtain ⟨-, f1, f2, f3, f4, f5, f6, f7, f8⟩ := viewAt_fields h.wf.toConsistent hil hvi
  refine ⟨h.names n hn, ?_⟩
  exact
  { type := h.types _ (List.mem_of_getElem? f1)
    row := h.rows _ (List.mem_of_getElem? f2)
    damping := fun x hx => h.damping x (mem_ownSlice (f4 ▸ hx))
    armature := fun x hx => h.armature x (mem_ownSlice (f5 ▸ hx))
    stiffness := fun x hx => h.stiffness x (mem_ownSlice (f6 ▸ hx))
    zeropoint := fun x hx => h.zeropoint x (mem_ownSlice (f7 ▸ hx))
    geoms := by
      intro d hd
      rw [f8] at hd
      obtain ⟨g, hg, rfl⟩ := List.mem_map.1 hd
      obtain ⟨hg1, hg2⟩ := List.mem_filter.1 hg
      exact geomSavable_data.2 (h.geoms g hg1 (by
        have : g.link_idx = (i : Int) := by simpa using hg2
        omega))
    omc := fun o ho => h.omc o (by rw [← ho]; exact List.mem_of_getElem? f3) }

omit [Field α] [DecidableEq α] in
theorem mem_of_flat {w : String → Option Nat} {types : List String} {xs : List β}
    (h : xs.length = (types.map (wOf w)).sum) {x : β} (hx : x ∈ xs) :
    ∃ i < types.length, x ∈ ownSlice w types xs i := by
  rw [← (C01_partition w types xs h).1] at hx
  obtain ⟨l, hl, hxl⟩ := List.mem_flatten.1 hx
  obtain ⟨i, hi, rfl⟩ := List.mem_map.1 hl
  exact ⟨i, List.mem_range.1 hi, hxl⟩

theorem savable_of_views {E : Env α π} {T : Txt α} {s : System α π} (wf : s.WF E)
    (h0 : s.link_parents ≠ []) (words : WordsOk T) (model : ∃ m, s.model_name = some m ∧ IsText T m)
    (dt : Printable T s.dt) (gravity : PrintableVec T s.gravity)
    (hv : ∀ n v, s.view E n = some v → ReadsName T n ∧ ViewSavable E T v) : Savable E T s := by
  have at' : ∀ i < s.link_parents.length, ∃ v, s.viewAt E i = some v ∧ ViewSavable E T v := by
    intro i hi
    have hin : i < s.link_names.length := wf.names_len ▸ hi
    obtain ⟨v, hvi⟩ := viewAt_isSome wf.toConsistent hi
    refine ⟨v, hvi, (hv s.link_names[i] v ?_).2⟩
    rw [view_eq_viewAt wf.toConsistent (List.getElem?_eq_getElem hin), hvi]
  exact
  { wf := wf
    nonempty := h0
    words := words
    model := model
    names := by
      intro n hn
      obtain ⟨i, v, -, -, h⟩ := view_of_mem wf.toConsistent hn
      exact (hv n v h).1
    types := by
      intro t ht
      obtain ⟨i, hi, rfl⟩ := List.getElem_of_mem ht
      obtain ⟨v, h1, h2⟩ := at' i (wf.types_len ▸ hi)
      have := (viewAt_fields wf.toConsistent (wf.types_len ▸ hi) h1).2.1
      rw [List.getElem?_eq_getElem hi] at this
      rw [Option.some.inj this]
      exact h2.type
    dt := dt
    gravity := gravity
    rows := by
      intro r hr
      obtain ⟨i, hi, rfl⟩ := List.getElem_of_mem hr
      obtain ⟨v, h1, h2⟩ := at' i (wf.links_len ▸ hi)
      have := (viewAt_fields wf.toConsistent (wf.links_len ▸ hi) h1).2.2.1
      rw [List.getElem?_eq_getElem hi] at this
      rw [Option.some.inj this]
      exact h2.row
    damping := by
      intro x hx
      obtain ⟨i, hi, hxi⟩ := mem_of_flat wf.damping_len hx
      obtain ⟨v, h1, h2⟩ := at' i (wf.types_len ▸ hi)
      rw [← (viewAt_fields wf.toConsistent (wf.types_len ▸ hi) h1).2.2.2.2.1] at hxi
      exact h2.damping x hxi
    armature := by
      intro x hx
      obtain ⟨i, hi, hxi⟩ := mem_of_flat wf.armature_len hx
      obtain ⟨v, h1, h2⟩ := at' i (wf.types_len ▸ hi)
      rw [← (viewAt_fields wf.toConsistent (wf.types_len ▸ hi) h1).2.2.2.2.2.1] at hxi
      exact h2.armature x hxi
    stiffness := by
      intro x hx
      obtain ⟨i, hi, hxi⟩ := mem_of_flat wf.stiffness_len hx
      obtain ⟨v, h1, h2⟩ := at' i (wf.types_len ▸ hi)
      rw [← (viewAt_fields wf.toConsistent (wf.types_len ▸ hi) h1).2.2.2.2.2.2.1] at hxi
      exact h2.stiffness x hxi
    zeropoint := by
      intro x hx
      obtain ⟨i, hi, hxi⟩ := mem_of_flat wf.zeropoint_len hx
      obtain ⟨v, h1, h2⟩ := at' i (wf.types_len ▸ hi)
      rw [← (viewAt_fields wf.toConsistent (wf.types_len ▸ hi) h1).2.2.2.2.2.2.2.1] at hxi
      exact h2.zeropoint x hxi
    geoms := by
      intro g hg h0
      have hb := (wf.geoms_ok g hg).2
      obtain ⟨k, hk⟩ := Int.eq_ofNat_of_zero_le h0
      have hk' : k < s.link_parents.length := by omega
      obtain ⟨v, h1, h2⟩ := at' k hk'
      apply geomSavable_data.1
      apply h2.geoms
      rw [(viewAt_fields wf.toConsistent hk' h1).2.2.2.2.2.2.2.2]
      exact List.mem_map.2 ⟨g, List.mem_filter.2 ⟨hg, by simpa using hk⟩, rfl⟩
    omc := by
      intro o ho
      obtain ⟨i, hi, e⟩ := List.getElem_of_mem ho
      obtain ⟨v, h1, h2⟩ := at' i (wf.omc_len ▸ hi)
      have := (viewAt_fields wf.toConsistent (wf.omc_len ▸ hi) h1).2.2.2.1
      rw [List.getElem?_eq_getElem hi, e] at this
      exact h2.omc o (Option.some.inj this).symm }

/-! ## the loop over the IMUs -/

theorem loop_ok {E : Env α π} {T : Txt α} {J : JointInit π K} {A : Artifacts α}
    (hA : ArtifactsOk E T J A) (key : K) {s : System α π} (hs : s.WF E) (hI : Injectable E T s) :
    ∃ r, s.findall_imus.foldlM (injectImu E T J key A) s = .ok r ∧ Stage E A s s.findall_imus r := by
  have main : ∀ (todo done : List String) (r : System α π), (done ++ todo).Nodup →
      (∀ n ∈ done ++ todo, n ∈ s.link_names ∧ IsImu n) → Stage E A s done r →
      ∃ r', todo.foldlM (injectImu E T J key A) r = .ok r' ∧ Stage E A s (done ++ todo) r' := by
    intro todo
    induction todo with
    | nil =>
      intro done r _ _ hr
      exact ⟨r, rfl, by simpa using hr⟩
    | cons imu todo ih =>
      intro done r hnd hall hr
      have hi := hall imu (by simp)
      have hd : imu ∉ done := by
        rw [List.nodup_append] at hnd
        intro hm
        exact hnd.2.2 imu hm imu (by simp) rfl
      obtain ⟨r1, h1, h2⟩ := injectImu_ok hA key hs.toConsistent hI hr
        (fun n hn => hall n (List.mem_append_left _ hn)) hi.1 hi.2 hd
      have e : done ++ imu :: todo = (done ++ [imu]) ++ todo := by simp
      rw [e] at hnd hall
      obtain ⟨r', h3, h4⟩ := ih (done ++ [imu]) r1 hnd hall h2
      refine ⟨r', ?_, ?_⟩
      · rw [List.foldlM_cons, h1]
        exact h3
      · rw [e]; exact h4
  have := main s.findall_imus [] s (by
      rw [List.nil_append]
      exact hs.names_nodup.filter _) (by
      intro n hn
      exact mem_imus.1 (by simpa using hn))
    { wf := hs
      names := by
        have : (fun n => underscore [] n) = id := by funext n; simp [underscore]
        rw [show underscore [] = id from this]; simp
      globals := rfl
      worldGeoms := rfl
      host := by
        intro n v hv
        refine ⟨v.joint_params, ?_⟩
        have e : underscore [] = id := by funext n; simp [underscore]
        simp [hostView, e, hv]
      body := by simp }
  simpa using this

/-! ## moving the geometries -/

theorem lookup_pairs {l : List String} {f : String → Int}
    (hf : ∀ x ∈ l, ∀ y ∈ l, f x = f y → x = y) (k : Int) (x : String) :
    (l.map fun x => (f x, x)).lookup k = some x ↔ x ∈ l ∧ f x = k := by
  induction l with
  | nil => simp
  | cons a l ih =>
    rw [List.map_cons, List.lookup_cons]
    have ih := ih fun x hx y hy => hf x (by simp [hx]) y (by simp [hy])
    by_cases hk : k = f a
    · subst hk
      simp only [beq_self_eq_true, if_true, Option.some.injEq]
      constructor
      · rintro rfl; simp
      · rintro ⟨h1, h2⟩
        exact (hf x h1 a (by simp) h2).symm
    · have : (k == f a) = false := by simpa using hk
      rw [this]
      simp only [ih, List.mem_cons]
      constructor
      · rintro ⟨h1, h2⟩; exact ⟨Or.inr h1, h2⟩
      · rintro ⟨h1 | h1, h2⟩
        · subst h1; exact absurd h2.symm hk
        · exact ⟨h1, h2⟩

/-- Moving the geometries: those of an IMU go to the injected body, the others stay. -/
theorem reattach_ok {E : Env α π} {A : Artifacts α} {s r : System α π} (hs : s.WF E)
    (hr : Stage E A s s.findall_imus r) :
    ∃ m gs, s.findall_imus.mapM (fun imu => do
        let i ← s.name_to_idx imu
        pure ((i : Int), imu)) = (.ok m : Py _) ∧
      r.geoms.mapM (reattach r m) = .ok gs ∧
      (∀ g ∈ gs, -1 ≤ g.link_idx ∧ g.link_idx < r.link_parents.length) ∧
      ((gs.filter fun g => g.link_idx = -1).map Geometry.data = r.worldGeoms) ∧
      ∀ (k : Nat) n, r.link_names[k]? = some n →
        (gs.filter fun g => g.link_idx = (k : Int)).map Geometry.data =
          if n ∈ s.findall_imus then
            ((r.view E (imu_reference_link_name n)).map LinkView.geoms).getD []
          else if n ∈ s.findall_imus.map imu_reference_link_name then []
          else ((r.view E n).map LinkView.geoms).getD [] := by
  have hidx : ∀ {t : System α π} {n : String}, n ∈ t.link_names →
      t.name_to_idx n = .ok (t.link_names.idxOf n) ∧ t.link_names[t.link_names.idxOf n]? = some n := by
    intro t n hn
    have h2 : t.link_names[t.link_names.idxOf n]? = some n := by
      rw [List.getElem?_eq_getElem (List.idxOf_lt_length_of_mem hn)]
      simp
    refine ⟨?_, h2⟩
    unfold name_to_idx pyIndex
    have : t.link_names.idxOf? n = some (t.link_names.idxOf n) := by
      rw [List.idxOf?_eq_some_iff]
      refine ⟨List.idxOf_lt_length_of_mem hn, by simp, ?_⟩
      intro j hj
      have := List.not_of_lt_findIdx (xs := t.link_names) (p := (· == n)) (i := j) (by
        simpa [List.idxOf] using hj)
      simpa using this
    rw [this]
  let m : List (Int × String) := s.findall_imus.map fun imu => ((s.link_names.idxOf imu : Int), imu)
  have hm1 : s.findall_imus.mapM (fun imu => do
        let i ← s.name_to_idx imu
        pure ((i : Int), imu)) = (.ok m : Py _) := by
    apply mapM_ok
    intro imu hi
    rw [(hidx (mem_imus.1 hi).1).1]
    rfl
  have hlook : ∀ (j : Int) imu, m.lookup j = some imu ↔
      imu ∈ s.findall_imus ∧ ∃ i : Nat, j = i ∧ s.link_names[i]? = some imu := by
    intro j imu
    rw [lookup_pairs]
    · constructor
      · rintro ⟨h1, h2⟩
        exact ⟨h1, _, h2.symm, (hidx (mem_imus.1 h1).1).2⟩
      · rintro ⟨h1, i, rfl, h2⟩
        refine ⟨h1, ?_⟩
        rw [uniqueIdx hs.names_nodup (hidx (mem_imus.1 h1).1).2 h2]
    · intro x hx y hy e
      have e' : s.link_names.idxOf x = s.link_names.idxOf y := by exact_mod_cast e
      have h1 := (hidx (mem_imus.1 hx).1).2
      rw [e', (hidx (mem_imus.1 hy).1).2] at h1
      exact (Option.some.inj h1).symm
  have hr1 : ∀ (i : Nat) n, s.link_names[i]? = some n →
      r.link_names[i]? = some (underscore s.findall_imus n) := by
    intro i n hi
    have hl := (List.getElem?_eq_some_iff.1 hi).1
    rw [hr.names, List.getElem?_append_left (by simpa using hl), List.getElem?_map, hi]
    rfl
  have hrm : ∀ {n}, n ∈ s.findall_imus → n ∈ r.link_names := by
    intro n hn
    rw [hr.names]; exact List.mem_append_right _ hn
  let moved : Geometry α → Geometry α := fun g =>
    match m.lookup g.link_idx with
    | none => g
    | some imu => { g with link_idx := (r.link_names.idxOf imu : Nat) }
  have hmoved : r.geoms.mapM (reattach r m) = .ok (r.geoms.map moved) := by
    apply mapM_ok
    intro g _
    unfold reattach
    simp only [moved]
    cases hl : m.lookup g.link_idx with
    | none => rfl
    | some imu =>
      simp only
      rw [(hidx (hrm ((hlook _ _).1 hl).1)).1]
      rfl
  have hdata : ∀ g, (moved g).data = g.data := by
    intro g
    simp only [moved]
    split <;> rfl
  have hpart : ∀ (k k' : Int), (∀ g ∈ r.geoms, (moved g).link_idx = k ↔ g.link_idx = k') →
      ((r.geoms.map moved).filter fun g => g.link_idx = k).map Geometry.data =
        (r.geoms.filter fun g => g.link_idx = k').map Geometry.data := by
    intro k k' h
    rw [List.filter_map, List.map_map]
    have : (Geometry.data ∘ moved) = (Geometry.data : Geometry α → GeomData α) := funext hdata
    rw [this]
    congr 1
    apply List.filter_congr
    intro g hg
    simpa using h g hg
  have hgeoms : ∀ {k : Nat} {n : String}, r.link_names[k]? = some n →
      ((r.view E n).map LinkView.geoms).getD [] =
        (r.geoms.filter fun g => g.link_idx = (k : Int)).map Geometry.data := by
    intro k n hk
    have hkl : k < r.link_parents.length := hr.wf.names_len ▸ (List.getElem?_eq_some_iff.1 hk).1
    obtain ⟨v, hv⟩ := viewAt_isSome hr.wf.toConsistent hkl
    rw [view_eq_viewAt hr.wf.toConsistent hk, hv]
    exact (viewAt_fields hr.wf.toConsistent hkl hv).2.2.2.2.2.2.2.2
  -- where geometries go
  have hcase : ∀ g, (m.lookup g.link_idx = none ∧ moved g = g) ∨
      ∃ imu ∈ s.findall_imus, ∃ i : Nat, g.link_idx = i ∧ s.link_names[i]? = some imu ∧
        (moved g).link_idx = (r.link_names.idxOf imu : Nat) := by
    intro g
    cases hl : m.lookup g.link_idx with
    | none => left; exact ⟨rfl, by simp only [moved, hl]⟩
    | some imu =>
      right
      obtain ⟨h1, i, h2, h3⟩ := (hlook _ _).1 hl
      exact ⟨imu, h1, i, h2, h3, by simp only [moved, hl]⟩
  refine ⟨m, r.geoms.map moved, hm1, hmoved, ?_, ?_, ?_⟩
  · intro g' hg'
    obtain ⟨g, hg, rfl⟩ := List.mem_map.1 hg'
    rcases hcase g with ⟨-, e⟩ | ⟨imu, h1, i, -, -, h2⟩
    · rw [e]; exact hr.wf.geoms_ok g hg
    · rw [h2]
      have := List.idxOf_lt_length_of_mem (hrm h1)
      rw [hr.wf.names_len] at this
      omega
  · apply hpart
    intro g hg
    rcases hcase g with ⟨-, e⟩ | ⟨imu, h1, i, h2, -, h3⟩
    · rw [e]
    · rw [h2, h3]; omega
  · intro k n hk
    have hself : ∀ imu ∈ s.findall_imus, r.link_names.idxOf imu = k → imu = n := by
      intro imu hi e
      have := (hidx (hrm hi)).2
      rw [e, hk] at this
      exact (Option.some.inj this).symm
    have hkn : ∀ imu ∈ s.findall_imus, ∀ i : Nat, s.link_names[i]? = some imu → i = k →
        n = imu_reference_link_name imu := by
      intro imu hi i h1 e
      have := hr1 i imu h1
      rw [e, hk] at this
      rw [Option.some.inj this]
      simp [underscore, hi]
    by_cases hn : n ∈ s.findall_imus
    · rw [if_pos hn]
      obtain ⟨i, hi, e⟩ := List.getElem_of_mem (mem_imus.1 hn).1
      have hi' : s.link_names[i]? = some n := by rw [List.getElem?_eq_getElem hi, e]
      have href : r.link_names[i]? = some (imu_reference_link_name n) := by
        rw [hr1 i n hi']; simp [underscore, hn]
      rw [hgeoms href]
      obtain ⟨it, jp, hbody⟩ := hr.body n hn
      have hnone : (r.geoms.filter fun g => g.link_idx = (k : Int)) = [] := by
        have := hgeoms hk
        rw [hbody] at this
        exact List.map_eq_nil_iff.1 this.symm
      apply hpart
      intro g hg
      rcases hcase g with ⟨h0, e⟩ | ⟨imu, h1, j, h2, h3, h4⟩
      · rw [e]
        constructor
        · intro h
          have : g ∈ r.geoms.filter fun g => g.link_idx = (k : Int) :=
            List.mem_filter.2 ⟨hg, by simpa using h⟩
          rw [hnone] at this
          cases this
        · intro h
          have := (hlook g.link_idx n).2 ⟨hn, i, h, hi'⟩
          rw [h0] at this
          cases this
      · rw [h4, h2]
        constructor
        · intro h
          have := hself imu h1 (by exact_mod_cast h)
          subst this
          exact_mod_cast uniqueIdx hs.names_nodup h3 hi'
        · intro h
          have : j = i := by exact_mod_cast h
          subst this
          rw [h3] at hi'
          rw [Option.some.inj hi']
          have := uniqueIdx hr.wf.names_nodup (hidx (hrm hn)).2 hk
          exact_mod_cast this
    · rw [if_neg hn]
      by_cases hn' : n ∈ s.findall_imus.map imu_reference_link_name
      · rw [if_pos hn']
        obtain ⟨n0, hn0, e0⟩ := List.mem_map.1 hn'
        rw [List.map_eq_nil_iff, List.filter_eq_nil_iff]
        intro g' hg'
        obtain ⟨g, hg, rfl⟩ := List.mem_map.1 hg'
        simp only [decide_eq_true_eq]
        intro h
        rcases hcase g with ⟨h0, e⟩ | ⟨imu, h1, j, h2, h3, h4⟩
        · rw [e] at h
          obtain ⟨i, hi, e⟩ := List.getElem_of_mem (mem_imus.1 hn0).1
          have hi' : s.link_names[i]? = some n0 := by rw [List.getElem?_eq_getElem hi, e]
          have h5 := hr1 i n0 hi'
          rw [show underscore s.findall_imus n0 = n by simp [underscore, hn0, e0]] at h5
          have h6 := uniqueIdx hr.wf.names_nodup h5 hk
          have := (hlook g.link_idx n0).2 ⟨hn0, i, by rw [h, h6], hi'⟩
          rw [h0] at this
          cases this
        · rw [h4] at h
          exact hn (hself imu h1 (by exact_mod_cast h) ▸ h1)
      · rw [if_neg hn', hgeoms hk]
        apply hpart
        intro g hg
        rcases hcase g with ⟨h0, e⟩ | ⟨imu, h1, j, h2, h3, h4⟩
        · rw [e]
        · rw [h4, h2]
          constructor
          · intro h
            exact absurd (hself imu h1 (by exact_mod_cast h) ▸ h1) hn
          · intro h
            exact absurd (List.mem_map.2 ⟨imu, h1, (hkn imu h1 j h3 (by exact_mod_cast h)).symm⟩) hn'

end artifacts
end RingLib
