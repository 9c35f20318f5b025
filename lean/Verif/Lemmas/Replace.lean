import Verif.Lemmas.Inject

/-! Lemmas about `_update_sys_if_replace_joint_type`. -/

namespace RingLib
namespace System
variable {α π β : Type}

/-- the five values of link `i` -/
def vals (E : Env α π) (s : System α π) (i : Nat) : JointVals α where
  lt := s.link_types.getD i ""
  la := ownSlice E.dw s.link_types s.link_armature i
  ld := ownSlice E.dw s.link_types s.link_damping i
  ls := ownSlice E.dw s.link_types s.link_spring_stiffness i
  lz := ownSlice E.qw s.link_types s.link_spring_zeropoint i

/-- the replaced values of link `i` -/
def newVals (E : Env α π) (s : System α π) (logic : String → JointVals α → JointVals α) (i : Nat) :
    JointVals α := logic (s.link_names.getD i "") (s.vals E i)

/-- the system handed to `parse` -/
def replaceRaw (E : Env α π) (s : System α π) (logic : String → JointVals α → JointVals α) :
    System α π :=
  let vs := (List.range s.link_parents.length).map (s.newVals E logic)
  { s with
    link_types := vs.map (·.lt), link_armature := (vs.map (·.la)).flatten,
    link_damping := (vs.map (·.ld)).flatten,
    link_spring_stiffness := (vs.map (·.ls)).flatten,
    link_spring_zeropoint := (vs.map (·.lz)).flatten }

theorem replace_eq [Field α] {E : Env α π} {s : System α π} (h : s.Consistent E)
    (h0 : s.link_parents ≠ []) (logic : String → JointVals α → JointVals α) :
    _update_sys_if_replace_joint_type E s logic = parse E (s.replaceRaw E logic) := by
  have clen : ∀ {γ : Type} (w : String → Option Nat) (xs : List γ),
      (chunks (s.link_types.map (wOf w)) xs).length = s.link_parents.length := by
    intro γ w xs; simp [h.types_len]
  let rows := s.link_names.zip (s.link_types.zip
    ((chunks (s.link_types.map (wOf E.dw)) s.link_armature).zip
    ((chunks (s.link_types.map (wOf E.dw)) s.link_damping).zip
    ((chunks (s.link_types.map (wOf E.dw)) s.link_spring_stiffness).zip
    (chunks (s.link_types.map (wOf E.qw)) s.link_spring_zeropoint)))))
  have rlen : rows.length = s.link_parents.length := by
    simp [rows, h.types_len, h.names_len]
  let f : String × String × List α × List α × List α × List α → JointVals α := fun x =>
    logic x.1 ⟨x.2.1, x.2.2.1, x.2.2.2.1, x.2.2.2.2.1, x.2.2.2.2.2⟩
  have hscan : s.scan E
    (fun _ _ (x : String × String × List α × List α × List α × List α) =>
      pure (logic x.1 ⟨x.2.1, x.2.2.1, x.2.2.2.1, x.2.2.2.2.1, x.2.2.2.2.2⟩))
    ((argL s.link_names).and <| (argL s.link_types).and <| (argD s.link_armature).and <|
      (argD s.link_damping).and <| (argD s.link_spring_stiffness).and
        (argQ s.link_spring_zeropoint)) = .ok (rows.map f) := by
    apply scan_pure h.known h.types_len f
    · intro x hx
      simp [ScanArg.and, argD, argQ, argL] at hx
      rcases hx with rfl | rfl | rfl | rfl | rfl | rfl
      · exact h.names_len
      · exact h.types_len
      · exact h.armature_len
      · exact h.damping_len
      · exact h.stiffness_len
      · exact h.zeropoint_len
    · exact rows_six _ _ _ _ _
    · exact rlen
  have hrows : rows.map f = (List.range s.link_parents.length).map (s.newVals E logic) := by
    apply List.ext_getElem
    · simp [rlen]
    · intro i h1 h2
      have hi : i < s.link_parents.length := by simpa using h2
      have hit : i < s.link_types.length := h.types_len ▸ hi
      have hin : i < s.link_names.length := h.names_len ▸ hi
      have ch : ∀ {γ : Type} (w : String → Option Nat) (xs : List γ)
          (hh : i < (chunks (s.link_types.map (wOf w)) xs).length),
          (chunks (s.link_types.map (wOf w)) xs)[i] = ownSlice w s.link_types xs i := by
        intro γ w xs hh
        have := ownSlice_eq w s.link_types xs i hit
        rw [List.getElem?_eq_getElem hh] at this
        exact Option.some.inj this
      simp only [List.getElem_map, List.getElem_range, rows, List.getElem_zip, f, newVals, vals, ch]
      simp [hit, hin]
  unfold _update_sys_if_replace_joint_type
  rw [hscan]
  simp only [ok_bind]
  rw [hrows]
  have ne : ∀ {γ : Type} (g : JointVals α → γ),
      ((List.range s.link_parents.length).map (s.newVals E logic)).map g ≠ [] := by
    intro γ g hc
    simp at hc
    exact h0 hc
  rw [jnpConcatenate_ok (ne _), jnpConcatenate_ok (ne _), jnpConcatenate_ok (ne _),
    jnpConcatenate_ok (ne _)]
  rfl

/-- the replaced values fit their joint type -/
structure Fits (E : Env α π) (v : JointVals α) : Prop where
  known : (E.qw v.lt).isSome = true ∧ (E.dw v.lt).isSome = true
  la : v.la.length = wOf E.dw v.lt
  ld : v.ld.length = wOf E.dw v.lt
  ls : v.ls.length = wOf E.dw v.lt
  lz : v.lz.length = wOf E.qw v.lt
  unit : joint_type_is_free_or_cor_or_spherical v.lt = true → E.unit4 (v.lz.take 4) = true

theorem ownSlice_length {w : String → Option Nat} {types : List String} {xs : List β}
    (h : xs.length = (types.map (wOf w)).sum) {i : Nat} (hi : i < types.length) :
    (ownSlice w types xs i).length = wOf w (types.getD i "") := by
  have e := chunks_map_length _ _ h
  have e1 := ownSlice_eq w types xs i hi
  have : ((chunks (types.map (wOf w)) xs).map List.length)[i]? =
      some (ownSlice w types xs i).length := by rw [List.getElem?_map, e1]; rfl
  rw [e, List.getElem?_map, List.getElem?_eq_getElem hi] at this
  simp only [Option.map_some, Option.some.injEq] at this
  simp [hi, this]

theorem vals_fits {E : Env α π} {s : System α π} (h : s.Consistent E) {i : Nat}
    (hi : i < s.link_parents.length) : Fits E (s.vals E i) := by
  have hit : i < s.link_types.length := h.types_len ▸ hi
  have e : s.link_types.getD i "" = s.link_types[i] := by simp [hit]
  exact {
    known := by
      show (E.qw (s.link_types.getD i "")).isSome = true ∧ (E.dw (s.link_types.getD i "")).isSome = true
      rw [e]; exact h.known _ (List.getElem_mem hit)
    la := ownSlice_length h.armature_len hit
    ld := ownSlice_length h.damping_len hit
    ls := ownSlice_length h.stiffness_len hit
    lz := ownSlice_length h.zeropoint_len hit
    unit := by
      intro hq
      apply h.unit_zero i hit
      rw [← e]; exact hq }

theorem ownSlice_pieces {γ : Type} {w : String → Option Nat} (vs : List γ) (ty : γ → String)
    (pc : γ → List β) (hv : ∀ v ∈ vs, (pc v).length = wOf w (ty v)) {i : Nat}
    (hi : i < vs.length) :
    ownSlice w (vs.map ty) (vs.map pc).flatten i = pc vs[i] := by
  have e := ownSlice_eq w (vs.map ty) (vs.map pc).flatten i (by simpa using hi)
  have : (vs.map ty).map (wOf w) = (vs.map pc).map List.length := by
    rw [List.map_map, List.map_map]
    apply List.map_congr_left
    intro v hvm
    exact (hv v hvm).symm
  rw [this, chunks_of_flatten, List.getElem?_map, List.getElem?_eq_getElem hi] at e
  exact (Option.some.inj e).symm

theorem pieces_length {γ : Type} {w : String → Option Nat} (vs : List γ) (ty : γ → String)
    (pc : γ → List β) (hv : ∀ v ∈ vs, (pc v).length = wOf w (ty v)) :
    (vs.map pc).flatten.length = ((vs.map ty).map (wOf w)).sum := by
  rw [List.length_flatten, List.map_map, List.map_map]
  congr 1
  apply List.map_congr_left
  intro v hvm
  exact hv v hvm

theorem replaceRaw_consistent {E : Env α π} {s : System α π} (h : s.Consistent E)
    {logic : String → JointVals α → JointVals α}
    (hf : ∀ i < s.link_parents.length, Fits E (s.newVals E logic i)) :
    (s.replaceRaw E logic).Consistent E := by
  have hf' : ∀ v ∈ (List.range s.link_parents.length).map (s.newVals E logic), Fits E v := by
    intro v hv
    obtain ⟨i, hi, rfl⟩ := List.mem_map.1 hv
    exact hf i (by simpa using hi)
  exact {
    types_len := by simp [replaceRaw]
    links_len := h.links_len
    omc_len := h.omc_len
    names_len := h.names_len
    names_nodup := h.names_nodup
    pos_ok := h.pos_ok
    geoms_ok := h.geoms_ok
    known := by
      intro t ht
      obtain ⟨v, hv, rfl⟩ := List.mem_map.1 ht
      exact (hf' v hv).known
    damping_len := pieces_length _ _ _ fun v hv => (hf' v hv).ld
    armature_len := pieces_length _ _ _ fun v hv => (hf' v hv).la
    stiffness_len := pieces_length _ _ _ fun v hv => (hf' v hv).ls
    zeropoint_len := pieces_length _ _ _ fun v hv => (hf' v hv).lz
    unit_zero := by
      intro i hi hq
      have hi' : i < ((List.range s.link_parents.length).map (s.newVals E logic)).length := by
        simpa [replaceRaw] using hi
      have hfi := hf' _ (List.getElem_mem hi')
      show E.unit4 ((ownSlice E.qw (List.map _ _) (List.map _ _).flatten i).take 4) = true
      rw [ownSlice_pieces _ _ _ (fun v hv => (hf' v hv).lz) hi']
      apply hfi.unit
      simpa [replaceRaw] using hq }

variable [Field α]

theorem replace_ok {E : Env α π} {s : System α π} (h : s.WF E) (h0 : s.link_parents ≠ [])
    {logic : String → JointVals α → JointVals α}
    (hf : ∀ i < s.link_parents.length, Fits E (s.newVals E logic i)) :
    _update_sys_if_replace_joint_type E s logic = .ok (s.replaceRaw E logic) ∧
      (s.replaceRaw E logic).WF E := by
  have hc := replaceRaw_consistent h.toConsistent hf
  have hwf : (s.replaceRaw E logic).WF E :=
    { toConsistent := hc, topo := h.topo, jp_keys := h.jp_keys, jp_len := h.jp_len,
      inertia_ok := h.inertia_ok, geoms_sorted := h.geoms_sorted }
  refine ⟨?_, hwf⟩
  rw [replace_eq h.toConsistent h0, parse_ok hc, normalised_of_wf hwf]

omit [Field α] in
theorem replaceRaw_viewAt {E : Env α π} {s : System α π} (h : s.Consistent E)
    {logic : String → JointVals α → JointVals α}
    (hf : ∀ i < s.link_parents.length, Fits E (s.newVals E logic i)) (i : Nat) :
    (s.replaceRaw E logic).viewAt E i = (s.viewAt E i).map fun v =>
      let n := s.newVals E logic i
      { v with type := n.lt, armature := n.la, damping := n.ld, stiffness := n.ls,
               zeropoint := n.lz } := by
  have hf' : ∀ v ∈ (List.range s.link_parents.length).map (s.newVals E logic), Fits E v := by
    intro v hv
    obtain ⟨i, hi, rfl⟩ := List.mem_map.1 hv
    exact hf i (by simpa using hi)
  unfold viewAt
  by_cases hi : i < s.link_parents.length
  · have hit : i < s.link_types.length := h.types_len ▸ hi
    have hil : i < s.links.length := h.links_len ▸ hi
    have hio : i < s.omc.length := h.omc_len ▸ hi
    have hi' : i < ((List.range s.link_parents.length).map (s.newVals E logic)).length := by
      simpa using hi
    have ty : (s.replaceRaw E logic).link_types[i]? = some (s.newVals E logic i).lt := by
      simp [replaceRaw, hi]
    rw [ty, List.getElem?_eq_getElem hi, List.getElem?_eq_getElem hit,
      List.getElem?_eq_getElem hil, List.getElem?_eq_getElem hio,
      show (s.replaceRaw E logic).link_parents = s.link_parents from rfl,
      show (s.replaceRaw E logic).links = s.links from rfl,
      show (s.replaceRaw E logic).omc = s.omc from rfl,
      List.getElem?_eq_getElem hi, List.getElem?_eq_getElem hil, List.getElem?_eq_getElem hio]
    simp only [Option.bind_eq_bind, Option.bind_some, Option.pure_def, Option.map_some,
      Option.some.injEq]
    have e : ((List.range s.link_parents.length).map (s.newVals E logic))[i] =
        s.newVals E logic i := by simp
    ext1
    · rfl
    · rfl
    · rfl
    · exact (ownSlice_pieces _ _ _ (fun v hv => (hf' v hv).ld) hi').trans (congrArg _ e)
    · exact (ownSlice_pieces _ _ _ (fun v hv => (hf' v hv).la) hi').trans (congrArg _ e)
    · exact (ownSlice_pieces _ _ _ (fun v hv => (hf' v hv).ls) hi').trans (congrArg _ e)
    · exact (ownSlice_pieces _ _ _ (fun v hv => (hf' v hv).lz) hi').trans (congrArg _ e)
    · rfl
    · rfl
    · rfl
  · rw [show (s.replaceRaw E logic).link_parents = s.link_parents from rfl,
      List.getElem?_eq_none (by omega)]
    rfl

omit [Field α] in
/-- the view of link `i` shows its values -/
theorem viewAt_vals {E : Env α π} {s : System α π} {i : Nat} {v : LinkView α π}
    (hv : s.viewAt E i = some v) :
    v.type = (s.vals E i).lt ∧ v.armature = (s.vals E i).la ∧ v.damping = (s.vals E i).ld ∧
      v.stiffness = (s.vals E i).ls ∧ v.zeropoint = (s.vals E i).lz := by
  unfold viewAt at hv
  cases h1 : s.link_parents[i]? with
  | none => rw [h1] at hv; cases hv
  | some p =>
    cases h2 : s.link_types[i]? with
    | none => rw [h1, h2] at hv; cases hv
    | some t =>
      cases h3 : s.links[i]? with
      | none => rw [h1, h2, h3] at hv; cases hv
      | some r =>
        cases h4 : s.omc[i]? with
        | none => rw [h1, h2, h3, h4] at hv; cases hv
        | some o =>
          rw [h1, h2, h3, h4] at hv
          simp only [Option.bind_eq_bind, Option.bind_some, Option.pure_def,
            Option.some.injEq] at hv
          subst hv
          simp [vals, h2]

omit [Field α] in
theorem viewAt_isSome {E : Env α π} {s : System α π} (h : s.Consistent E) {i : Nat}
    (hi : i < s.link_parents.length) : ∃ v, s.viewAt E i = some v := by
  have hit : i < s.link_types.length := h.types_len ▸ hi
  have hil : i < s.links.length := h.links_len ▸ hi
  have hio : i < s.omc.length := h.omc_len ▸ hi
  unfold viewAt
  rw [List.getElem?_eq_getElem hi, List.getElem?_eq_getElem hit,
    List.getElem?_eq_getElem hil, List.getElem?_eq_getElem hio]
  exact ⟨_, rfl⟩

omit [Field α] in
theorem view_eq_viewAt {E : Env α π} {s : System α π} (h : s.Consistent E) {i : Nat} {m : String}
    (hi : s.link_names[i]? = some m) : s.view E m = s.viewAt E i := by
  unfold view
  rw [idxOf?_eq_of_nodup h.names_nodup hi]
  rfl

omit [Field α] in
theorem view_none {E : Env α π} {s : System α π} {m : String}
    (hm : m ∉ s.link_names) : s.view E m = none := by
  unfold view
  rw [idxOf?_none_of_not_mem hm]
  rfl

end System
end RingLib
