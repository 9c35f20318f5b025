import Verif.Lemmas.Replace
import Verif.Props.System

/-!
# C09: changing, freezing, unfreezing joints
-/

namespace RingLib
open RingLib.System
variable {α π : Type} [Field α]

/-! ## Specification -/

/-- Everything but the joint types and the four per-dof arrays is unchanged. -/
def System.SameBody (s s' : System α π) : Prop :=
  s' = { s with
    link_types := s'.link_types
    link_armature := s'.link_armature
    link_damping := s'.link_damping
    link_spring_stiffness := s'.link_spring_stiffness
    link_spring_zeropoint := s'.link_spring_zeropoint }

/-- The joint of a link is replaced. -/
def LinkView.withJoint (v : LinkView α π) (typ : String) (arma damp stif zero : List α) :
    LinkView α π :=
  { v with type := typ, armature := arma, damping := damp, stiffness := stif, zeropoint := zero }

/-- The default zero point of a joint: zeros, but the unit quaternion for joints that start with a
quaternion. -/
def defaultZero (typ : String) (n : Nat) : List α :=
  if typ ∈ ["spherical", "free", "cor"] then (List.replicate n 0).set 0 1 else List.replicate n 0

/-! ## Lemmas -/

theorem replace_views {E : Env α π} {s : System α π} (h : s.WF E) (h0 : s.link_parents ≠ [])
    {logic : String → JointVals α → JointVals α}
    (hf : ∀ i < s.link_parents.length, Fits E (s.newVals E logic i)) :
    ∃ s', _update_sys_if_replace_joint_type E s logic = .ok s' ∧ s'.WF E ∧ s.SameBody s' ∧
      ∀ m, s'.view E m = (s.view E m).map fun v =>
        let n := logic m ⟨v.type, v.armature, v.damping, v.stiffness, v.zeropoint⟩
        v.withJoint n.lt n.la n.ld n.ls n.lz := by
  obtain ⟨hok, hwf⟩ := replace_ok h h0 hf
  refine ⟨_, hok, hwf, rfl, ?_⟩
  intro m
  by_cases hm : m ∈ s.link_names
  · obtain ⟨i, hi, e⟩ := List.getElem_of_mem hm
    have him : s.link_names[i]? = some m := by rw [List.getElem?_eq_getElem hi, e]
    have him' : (s.replaceRaw E logic).link_names[i]? = some m := him
    rw [view_eq_viewAt hwf.toConsistent him', view_eq_viewAt h.toConsistent him,
      replaceRaw_viewAt h.toConsistent hf]
    obtain ⟨v, hv⟩ := viewAt_isSome h.toConsistent (h.names_len ▸ hi)
    rw [hv, Option.map_some, Option.map_some]
    obtain ⟨h1, h2, h3, h4, h5⟩ := viewAt_vals hv
    have : s.newVals E logic i =
        logic m ⟨v.type, v.armature, v.damping, v.stiffness, v.zeropoint⟩ := by
      unfold newVals
      rw [h1, h2, h3, h4, h5]
      congr 1
      simp [him]
    rw [this]
    rfl
  · have hm' : m ∉ (s.replaceRaw E logic).link_names := hm
    rw [view_none hm', view_none hm]
    rfl

theorem width_of_some {w : String → Option Nat} {t : String} {n : Nat} (h : w t = some n) :
    width w t = .ok n := by
  unfold width; rw [h]

/-! ## C09 -/

/-- C09: `change_joint_type` sets the joint type and the per-dof entries (given, or zeros and the
identity quaternion) of the addressed link and leaves every other link, and everything else,
untouched. -/
theorem C09_change [DecidableEq α] {E : Env α π} {s : System α π} (h : s.WF E) {name typ : String}
    (hn : name ∈ s.link_names) {nq nd : Nat} (hq : E.qw typ = some nq) (hd : E.dw typ = some nd)
    {arma damp stif zero : Option (List α)}
    (ha : ∀ a, arma = some a → a.length = nd) (hda : ∀ a, damp = some a → a.length = nd)
    (hst : ∀ a, stif = some a → a.length = nd) (hz : ∀ a, zero = some a → a.length = nq)
    (hu : joint_type_is_free_or_cor_or_spherical typ = true →
      E.unit4 ((zero.getD (defaultZero typ nq)).take 4) = true) :
    ∃ s', change_joint_type E s name typ arma damp stif zero = .ok s' ∧ s'.WF E ∧ s.SameBody s' ∧
      (∀ m, m ≠ name → s'.view E m = s.view E m) ∧
      s'.view E name = (s.view E name).map fun v => v.withJoint typ
        (arma.getD (List.replicate nd 0)) (damp.getD (List.replicate nd 0))
        (stif.getD (List.replicate nd 0)) (zero.getD (defaultZero typ nq)) := by
  have h0 : s.link_parents ≠ [] := by
    intro e
    have := h.names_len
    rw [e] at this
    rw [List.eq_nil_of_length_eq_zero this] at hn
    simp at hn
  have hl : ∀ o : JointVals α, changeLogic name typ nq nd arma damp stif zero name o =
      ⟨typ, arma.getD (List.replicate nd 0), damp.getD (List.replicate nd 0),
        stif.getD (List.replicate nd 0), zero.getD (defaultZero typ nq)⟩ := by
    intro o
    unfold changeLogic defaultZero
    rw [if_pos rfl]
    cases zero <;> simp
  have hl' : ∀ m, m ≠ name → ∀ o : JointVals α,
      changeLogic name typ nq nd arma damp stif zero m o = o := by
    intro m hm o
    unfold changeLogic
    rw [if_neg hm]
  have glen : ∀ {x : Option (List α)} {n : Nat} {d : List α}, d.length = n →
      (∀ a, x = some a → a.length = n) → (x.getD d).length = n := by
    intro x n d hd hx
    cases x with
    | none => exact hd
    | some a => exact hx a rfl
  have hf : ∀ i < s.link_parents.length,
      Fits E (s.newVals E (changeLogic name typ nq nd arma damp stif zero) i) := by
    intro i hi
    unfold newVals
    by_cases hm : s.link_names.getD i "" = name
    · rw [hm, hl]
      exact {
        known := by simp [hq, hd]
        la := by rw [glen (n := nd) (by simp) ha]; simp [wOf, hd]
        ld := by rw [glen (n := nd) (by simp) hda]; simp [wOf, hd]
        ls := by rw [glen (n := nd) (by simp) hst]; simp [wOf, hd]
        lz := by
          rw [glen (n := nq) (by unfold defaultZero; split <;> simp) hz]; simp [wOf, hq]
        unit := hu }
    · rw [hl' _ hm]
      exact vals_fits h.toConsistent hi
  obtain ⟨s', hok, hwf, hsame, hv⟩ := replace_views h h0 hf
  refine ⟨s', ?_, hwf, hsame, ?_, ?_⟩
  · unfold change_joint_type
    rw [width_of_some hq, width_of_some hd]
    exact hok
  · intro m hm
    rw [hv m]
    cases s.view E m with
    | none => rfl
    | some v => rw [Option.map_some, hl' m hm]; rfl
  · rw [hv name]
    cases s.view E name with
    | none => rfl
    | some v => rw [Option.map_some, Option.map_some, hl]

/-- C09: an array of the wrong size is rejected. -/
theorem C09_wrong_size [DecidableEq α] {E : Env α π} {s : System α π} (h : s.WF E)
    {name typ : String} (hn : name ∈ s.link_names) {nq nd : Nat} (hq : E.qw typ = some nq)
    (hd : E.dw typ = some nd) {arma damp stif zero : Option (List α)}
    (hbad : (∃ a, arma = some a ∧ a.length ≠ nd) ∨ (∃ a, damp = some a ∧ a.length ≠ nd) ∨
      (∃ a, stif = some a ∧ a.length ≠ nd) ∨ (∃ a, zero = some a ∧ a.length ≠ nq)) :
    ∃ e, change_joint_type E s name typ arma damp stif zero = .error e := by
  have h0 : s.link_parents ≠ [] := by
    intro e
    have := h.names_len
    rw [e] at this
    rw [List.eq_nil_of_length_eq_zero this] at hn
    simp at hn
  obtain ⟨k, hk, hke⟩ := List.getElem_of_mem hn
  unfold change_joint_type
  rw [width_of_some hq, width_of_some hd]
  show ∃ e, _update_sys_if_replace_joint_type E s
    (changeLogic name typ nq nd arma damp stif zero) = .error e
  rw [replace_eq h.toConsistent h0]
  apply parse_error_of_not_consistent
  intro hc
  have hkp : k < s.link_parents.length := h.names_len ▸ hk
  set L := changeLogic name typ nq nd arma damp stif zero with hL
  -- one piece of wrong length makes the total length wrong
  have key : ∀ (w : String → Option Nat) (pc : JointVals α → List α),
      (∀ i < s.link_parents.length, i ≠ k →
        (pc (s.newVals E L i)).length = wOf w (s.newVals E L i).lt) →
      ((((List.range s.link_parents.length).map (s.newVals E L)).map pc).flatten).length =
        ((((List.range s.link_parents.length).map (s.newVals E L)).map (·.lt)).map (wOf w)).sum →
      (pc (s.newVals E L k)).length = wOf w (s.newVals E L k).lt := by
    intro w pc hfit hsum
    have hr : List.range s.link_parents.length =
        List.range k ++ k :: ((List.range (s.link_parents.length - k - 1)).map (k + 1 + ·)) := by
      have e1 : s.link_parents.length = k + (1 + (s.link_parents.length - k - 1)) := by omega
      conv_lhs => rw [e1, List.range_add]
      congr 1
      rw [Nat.add_comm 1, List.range_succ_eq_map]
      simp [Function.comp_def]
      intros; omega
    rw [List.length_flatten, List.map_map, List.map_map, List.map_map, List.map_map, hr] at hsum
    simp only [List.map_append, List.map_cons, List.sum_append, List.sum_cons] at hsum
    have s1 : ((List.range k).map (List.length ∘ pc ∘ s.newVals E L)).sum =
        ((List.range k).map (wOf w ∘ (fun x : JointVals α => x.lt) ∘ s.newVals E L)).sum := by
      congr 1
      apply List.map_congr_left
      intro i hi
      simp only [List.mem_range] at hi
      exact hfit i (by omega) (by omega)
    have s2 : (((List.range (s.link_parents.length - k - 1)).map (k + 1 + ·)).map
          (List.length ∘ pc ∘ s.newVals E L)).sum =
        (((List.range (s.link_parents.length - k - 1)).map (k + 1 + ·)).map
          (wOf w ∘ (fun x : JointVals α => x.lt) ∘ s.newVals E L)).sum := by
      congr 1
      apply List.map_congr_left
      intro i hi
      obtain ⟨j, hj, rfl⟩ := List.mem_map.1 hi
      simp only [List.mem_range] at hj
      exact hfit _ (by omega) (by omega)
    simp only [Function.comp_def] at hsum s1 s2
    omega
  have hother : ∀ i < s.link_parents.length, i ≠ k → Fits E (s.newVals E L i) := by
    intro i hi hik
    have hne : s.link_names.getD i "" ≠ name := by
      intro e
      have hi' : i < s.link_names.length := h.names_len ▸ hi
      apply hik
      have e' : s.link_names[i] = s.link_names[k] := by
        rw [hke]; simpa [hi'] using e
      exact (List.Nodup.getElem_inj_iff h.names_nodup).1 e'
    unfold newVals
    rw [hL]
    unfold changeLogic
    rw [if_neg hne]
    exact vals_fits h.toConsistent hi
  have hthis : s.newVals E L k = L name (s.vals E k) := by
    unfold newVals
    congr 1
    simp [hk, hke]
  have hlt : (s.newVals E L k).lt = typ := by
    rw [hthis, hL]; unfold changeLogic; rw [if_pos rfl]
  have wd : wOf E.dw typ = nd := by simp [wOf, hd]
  have wq : wOf E.qw typ = nq := by simp [wOf, hq]
  rcases hbad with ⟨a, rfl, hl⟩ | ⟨a, rfl, hl⟩ | ⟨a, rfl, hl⟩ | ⟨a, rfl, hl⟩
  · have := key E.dw (·.la) (fun i hi hik => (hother i hi hik).la) hc.armature_len
    rw [hlt, wd, hthis, hL] at this
    unfold changeLogic at this
    rw [if_pos rfl] at this
    exact hl this
  · have := key E.dw (·.ld) (fun i hi hik => (hother i hi hik).ld) hc.damping_len
    rw [hlt, wd, hthis, hL] at this
    unfold changeLogic at this
    rw [if_pos rfl] at this
    exact hl this
  · have := key E.dw (·.ls) (fun i hi hik => (hother i hi hik).ls) hc.stiffness_len
    rw [hlt, wd, hthis, hL] at this
    unfold changeLogic at this
    rw [if_pos rfl] at this
    exact hl this
  · have := key E.qw (·.lz) (fun i hi hik => (hother i hi hik).lz) hc.zeropoint_len
    rw [hlt, wq, hthis, hL] at this
    unfold changeLogic at this
    rw [if_pos rfl] at this
    apply hl
    simpa using this

/-- C09: a joint type that is not registered raises `KeyError`. -/
theorem C09_unknown_type [DecidableEq α] {E : Env α π} {s : System α π} {name typ : String}
    (hq : E.qw typ = none) (arma damp stif zero : Option (List α)) :
    change_joint_type E s name typ arma damp stif zero = .error .key := by
  unfold change_joint_type width
  rw [hq]
  rfl

/-- C09: `freeze` makes the addressed link a frozen joint without degrees of freedom and leaves all
other links untouched. -/
theorem C09_freeze {E : Env α π} {s : System α π} (h : s.WF E) {name : String}
    (hn : name ∈ s.link_names) (hq : E.qw "frozen" = some 0) (hd : E.dw "frozen" = some 0) :
    ∃ s', freeze E s name = .ok s' ∧ s'.WF E ∧ s.SameBody s' ∧
      (∀ m, m ≠ name → s'.view E m = s.view E m) ∧
      s'.view E name = (s.view E name).map fun v => v.withJoint "frozen" [] [] [] [] := by
  have h0 : s.link_parents ≠ [] := by
    intro e
    have := h.names_len
    rw [e] at this
    rw [List.eq_nil_of_length_eq_zero this] at hn
    simp at hn
  have hf : ∀ i < s.link_parents.length, Fits E (s.newVals E (fun link_name o =>
      if link_name = name then ⟨"frozen", [], [], [], []⟩ else o) i) := by
    intro i hi
    unfold newVals
    dsimp only
    split
    · exact {
        known := by simp [hq, hd]
        la := by simp [wOf, hd]
        ld := by simp [wOf, hd]
        ls := by simp [wOf, hd]
        lz := by simp [wOf, hq]
        unit := fun hu => absurd hu
          (show ¬ joint_type_is_free_or_cor_or_spherical "frozen" = true by decide) }
    · exact vals_fits h.toConsistent hi
  obtain ⟨s', hok, hwf, hsame, hv⟩ := replace_views h h0 hf
  refine ⟨s', hok, hwf, hsame, ?_, ?_⟩
  · intro m hm
    rw [hv m]
    simp only [if_neg hm]
    cases s.view E m <;> rfl
  · rw [hv name]
    simp only [if_true]

/-- C09: freezing a list of links freezes exactly the listed ones. -/
theorem C09_freeze_list {E : Env α π} {s : System α π} (h : s.WF E) {names : List String}
    (hn : ∀ n ∈ names, n ∈ s.link_names) (hq : E.qw "frozen" = some 0)
    (hd : E.dw "frozen" = some 0) :
    ∃ s', freezeList E s names = .ok s' ∧ s'.WF E ∧ s.SameBody s' ∧
      (∀ m, m ∉ names → s'.view E m = s.view E m) ∧
      (∀ m ∈ names,
        s'.view E m = (s.view E m).map fun v => v.withJoint "frozen" [] [] [] []) := by
  induction names generalizing s with
  | nil => exact ⟨s, rfl, h, rfl, fun _ _ => rfl, by simp⟩
  | cons n names ih =>
    obtain ⟨s1, hok1, hwf1, hs1, ho1, hv1⟩ := C09_freeze h (hn n (by simp)) hq hd
    have hnames : s1.link_names = s.link_names := by rw [hs1]
    obtain ⟨s2, hok2, hwf2, hs2, ho2, hv2⟩ := ih hwf1
      (fun m hm => by rw [hnames]; exact hn m (by simp [hm]))
    refine ⟨s2, ?_, hwf2, ?_, ?_, ?_⟩
    · unfold freezeList
      rw [List.foldlM_cons, hok1]
      exact hok2
    · unfold System.SameBody at hs1 hs2 ⊢
      rw [hs2, hs1]
    · intro m hm
      rw [List.mem_cons, not_or] at hm
      rw [ho2 m hm.2, ho1 m hm.1]
    · intro m hm
      by_cases hmn : m ∈ names
      · rw [hv2 m hmn]
        by_cases he : m = n
        · rw [he, hv1]
          cases s.view E n <;> rfl
        · rw [ho1 m he]
      · have he : m = n := by
          rcases List.mem_cons.1 hm with h | h
          · exact h
          · exact absurd h hmn
        rw [ho2 m hmn, he, hv1]

/-- C09: a name that is no link of the system changes nothing (silently). -/
theorem C09_freeze_unknown {E : Env α π} {s : System α π} (h : s.WF E)
    (h0 : s.link_parents ≠ []) {name : String} (hn : name ∉ s.link_names) :
    ∃ s', freeze E s name = .ok s' ∧ s'.WF E ∧ s.SameBody s' ∧
      ∀ m, s'.view E m = s.view E m := by
  have hne : ∀ i < s.link_parents.length, s.link_names.getD i "" ≠ name := by
    intro i hi e
    have hi' : i < s.link_names.length := h.names_len ▸ hi
    apply hn
    rw [← e]
    simp [hi']
  have hf : ∀ i < s.link_parents.length, Fits E (s.newVals E (fun link_name o =>
      if link_name = name then ⟨"frozen", [], [], [], []⟩ else o) i) := by
    intro i hi
    unfold newVals
    dsimp only
    rw [if_neg (hne i hi)]
    exact vals_fits h.toConsistent hi
  obtain ⟨s', hok, hwf, hsame, hv⟩ := replace_views h h0 hf
  refine ⟨s', hok, hwf, hsame, ?_⟩
  intro m
  rw [hv m]
  by_cases hm : m ∈ s.link_names
  · have : m ≠ name := fun e => hn (e ▸ hm)
    simp only [if_neg this]
    cases s.view E m <;> rfl
  · rw [view_none hm]; rfl

/-- C09: `unfreeze` refuses links that are not frozen and the new type `frozen`; otherwise it is
`change_joint_type` with default arrays. -/
theorem C09_unfreeze [DecidableEq α] {E : Env α π} {s : System α π} (h : s.WF E)
    {name typ : String} {v : LinkView α π} (hv : s.view E name = some v) :
    (v.type ≠ "frozen" ∨ typ = "frozen" → unfreeze E s name typ = .error .assertion) ∧
    (v.type = "frozen" → typ ≠ "frozen" →
      unfreeze E s name typ = change_joint_type E s name typ) := by
  have hn : name ∈ s.link_names := by
    by_contra hc
    rw [view_none hc] at hv
    cases hv
  obtain ⟨i, hi, e⟩ := List.getElem_of_mem hn
  have him : s.link_names[i]? = some name := by rw [List.getElem?_eq_getElem hi, e]
  rw [view_eq_viewAt h.toConsistent him] at hv
  obtain ⟨h1, _⟩ := viewAt_vals hv
  have hit : i < s.link_types.length := by rw [h.types_len, ← h.names_len]; exact hi
  have hty : v.type = s.link_types[i] := by rw [h1]; simp [vals, hit]
  have hidx : s.name_to_idx name = .ok i := by
    unfold name_to_idx pyIndex
    rw [idxOf?_eq_of_nodup h.names_nodup him]
  have hget : pyGet s.link_types i = .ok v.type := by
    rw [hty]
    unfold pyGet
    have h3 : ¬ ((i : Int) < 0) := by omega
    simp [h3, hit]
  unfold unfreeze
  rw [hidx]
  simp only [ok_bind]
  rw [hget]
  simp only [ok_bind]
  constructor
  · intro hc
    unfold pyAssert
    by_cases hf : v.type = "frozen"
    · have : typ = "frozen" := by
        rcases hc with hc | hc
        · exact absurd hf hc
        · exact hc
      simp [hf, this, ok_bind, error_bind]
    · simp [hf, error_bind]
  · intro hf ht
    unfold pyAssert
    simp [hf, ht, ok_bind]

/-- C09: `_replace_free_with_cor` needs a free joint at exactly the roots; then each free joint
becomes a cor joint whose translational entries are duplicated, and all other links stay. -/
theorem C09_free_to_cor {E : Env α π} {s : System α π} (h : s.WF E) (h0 : s.link_parents ≠ [])
    (hq1 : E.qw "free" = some 7) (hd1 : E.dw "free" = some 6)
    (hq2 : E.qw "cor" = some 10) (hd2 : E.dw "cor" = some 9)
    (hroots : ∀ m ∈ s.link_names, ∀ v, s.view E m = some v → (v.parent = none ↔ v.type = "free")) :
    ∃ s', _replace_free_with_cor E s = .ok s' ∧ s'.WF E ∧ s.SameBody s' ∧
      ∀ m, s'.view E m = (s.view E m).map fun v =>
        if v.type = "free" then
          v.withJoint "cor" (v.armature ++ v.armature.drop 3) (v.damping ++ v.damping.drop 3)
            (v.stiffness ++ v.stiffness.drop 3) (v.zeropoint ++ v.zeropoint.drop 4)
        else v := by
  have hf : ∀ i < s.link_parents.length, Fits E (s.newVals E corLogic i) := by
    intro i hi
    have hv := vals_fits h.toConsistent hi
    unfold newVals corLogic
    split
    · rename_i hfree
      have hla := hv.la
      have hld := hv.ld
      have hls := hv.ls
      have hlz := hv.lz
      rw [hfree] at hla hld hls hlz
      simp only [wOf, hd1, hq1, Option.getD_some] at hla hld hls hlz
      exact {
        known := by simp [hq2, hd2]
        la := by simp [wOf, hd2, hla]
        ld := by simp [wOf, hd2, hld]
        ls := by simp [wOf, hd2, hls]
        lz := by simp [wOf, hq2, hlz]
        unit := by
          intro _
          have := hv.unit (by rw [hfree]; decide)
          rw [List.take_append_of_le_length (by omega)]
          exact this }
    · exact hv
  obtain ⟨s', hok, hwf, hsame, hv⟩ := replace_views h h0 hf
  refine ⟨s', ?_, hwf, hsame, ?_⟩
  · unfold _replace_free_with_cor
    rw [if_neg, hok]
    intro hany
    rw [List.any_eq_true] at hany
    obtain ⟨x, hx, hbad⟩ := hany
    obtain ⟨i, hi, hxe⟩ := List.getElem_of_mem hx
    have hip : i < s.link_parents.length := by
      rw [List.length_zip] at hi; omega
    have hit : i < s.link_types.length := h.types_len ▸ hip
    have hin : i < s.link_names.length := h.names_len ▸ hip
    have hx1 : x.1 = s.link_parents[i] := by rw [← hxe]; simp
    have hx2 : x.2 = s.link_types[i] := by rw [← hxe]; simp
    obtain ⟨v, hv⟩ := viewAt_isSome h.toConsistent hip
    have him : s.link_names[i]? = some s.link_names[i] := List.getElem?_eq_getElem hin
    have hr := hroots _ (List.getElem_mem hin) v
      (by rw [view_eq_viewAt h.toConsistent him]; exact hv)
    have hty : v.type = s.link_types[i] := by
      rw [(viewAt_vals hv).1]; simp [vals, hit]
    have hpar : v.parent = none ↔ s.link_parents[i] = -1 := by
      have hb := h.topo i hip
      have hp : v.parent = s.nameAt s.link_parents[i] := by
        unfold viewAt at hv
        rw [List.getElem?_eq_getElem hip, List.getElem?_eq_getElem hit] at hv
        cases h3 : s.links[i]? with
        | none => rw [h3] at hv; cases hv
        | some r =>
          cases h4 : s.omc[i]? with
          | none => rw [h3, h4] at hv; cases hv
          | some o =>
            rw [h3, h4] at hv
            simp only [Option.bind_eq_bind, Option.bind_some, Option.pure_def,
              Option.some.injEq] at hv
            subst hv
            rfl
      rw [hp]
      unfold nameAt
      by_cases hneg : s.link_parents[i] < 0
      · simp only [hneg, if_true, true_iff]
        omega
      · have hlt : s.link_parents[i].toNat < s.link_names.length := by omega
        simp only [hneg, if_false, List.getElem?_eq_getElem hlt]
        constructor
        · intro h; cases h
        · intro h; omega
    rw [hx1, hx2] at hbad
    rw [hty, hpar] at hr
    simp only [decide_eq_true_eq] at hbad
    rcases hbad with ⟨h1, h2⟩ | ⟨h1, h2⟩
    · exact h2 (hr.1 h1)
    · exact h2 (hr.2 h1)
  · intro m
    rw [hv m]
    congr 1
    funext v
    unfold corLogic
    simp only
    split <;> rfl

/-! ## Examples -/

example : ∃ s', change_joint_type exEnv exSys "b" "spherical" none (some [7, 8, 9]) = .ok s' ∧
    s'.WF exEnv ∧ s'.view exEnv "d" = exSys.view exEnv "d" := by
  obtain ⟨s', h1, h2, _, h4, _⟩ := C09_change exSys_wf (name := "b") (typ := "spherical")
    (by simp [exSys]) (nq := 4) (nd := 3) rfl rfl (arma := none) (damp := some [7, 8, 9])
    (stif := none) (zero := none) (by simp) (by simp) (by simp) (by simp)
    (by intro _; simp [exEnv, defaultZero, List.replicate])
  exact ⟨s', h1, h2, h4 "d" (by decide)⟩

example : ∃ e, change_joint_type exEnv exSys "b" "spherical" none (some [7, 8]) = .error e :=
  C09_wrong_size exSys_wf (name := "b") (by simp [exSys]) (nq := 4) (nd := 3) rfl rfl
    (.inr (.inl ⟨[7, 8], rfl, by simp⟩))

example : ∃ s', freezeList exEnv exSys ["a", "d"] = .ok s' ∧ s'.WF exEnv := by
  obtain ⟨s', h1, h2, _⟩ := C09_freeze_list exSys_wf (names := ["a", "d"]) (by simp [exSys]) rfl rfl
  exact ⟨s', h1, h2⟩

example : unfreeze exEnv exSys "b" "spherical" = .error .assertion := by
  have hv := viewAt_isSome exSys_wf.toConsistent (i := 1) (by simp [exSys])
  obtain ⟨v, hv⟩ := hv
  have h1 : exSys.view exEnv "b" = some v := by
    rw [view_eq_viewAt exSys_wf.toConsistent (i := 1) rfl]; exact hv
  refine (C09_unfreeze exSys_wf h1).1 (.inl ?_)
  rw [(viewAt_vals hv).1]
  simp [vals, exSys]

/-- A free floating link with a hinge. -/
def exFree : System ℚ Unit where
  link_parents := [-1, 0]
  links := [exRow, exRow]
  joint_params := []
  link_types := ["free", "rx"]
  link_damping := [1, 2, 3, 4, 5, 6, 7]
  link_armature := [6, 7, 8, 9, 10, 11, 12]
  link_spring_stiffness := [11, 12, 13, 14, 15, 16, 17]
  link_spring_zeropoint := [0, 1, 0, 0, 16, 17, 18, 19]
  dt := 1 / 100
  geoms := []
  gravity := ⟨0, 0, 981 / 100⟩
  integration_method := "semi_implicit_euler"
  mass_mat_iters := 0
  link_names := ["a", "b"]
  model_name := some "m"
  omc := [none, none]

theorem exFree_wf : exFree.WF exEnv where
  types_len := rfl
  links_len := rfl
  omc_len := rfl
  names_len := rfl
  names_nodup := by decide
  pos_ok := by
    intro l hl
    have : l = exRow := by simpa [exFree] using hl
    subst this
    simp [exEnv, exRow]
  geoms_ok := by simp [exFree]
  known := by
    intro t ht
    simp [exFree] at ht
    rcases ht with rfl | rfl <;> simp [exEnv]
  damping_len := by simp [exFree, exEnv, wOf]
  armature_len := by simp [exFree, exEnv, wOf]
  stiffness_len := by simp [exFree, exEnv, wOf]
  zeropoint_len := by simp [exFree, exEnv, wOf]
  unit_zero := by
    intro i hi
    have : i < 2 := hi
    match i, this with
    | 0, _ => intro _; simp [exFree, exEnv, ownSlice, wOf]
    | 1, _ =>
      intro h
      have h : joint_type_is_free_or_cor_or_spherical "rx" = true := h
      exact absurd h (by decide)
  topo := by
    intro i hi
    have : i < 2 := hi
    match i, this with
    | 0, _ => simp [exFree]
    | 1, _ => simp [exFree]
  jp_keys := by simp [exFree]
  jp_len := by simp [exFree]
  inertia_ok := by
    intro i hi
    have : i < 2 := hi
    match i, this with
    | 0, _ => rfl
    | 1, _ => rfl
  geoms_sorted := by simp [exFree]

example : ∃ s', _replace_free_with_cor exEnv exFree = .ok s' ∧ s'.WF exEnv := by
  obtain ⟨s', h1, h2, _⟩ := C09_free_to_cor exFree_wf (by simp [exFree]) rfl rfl rfl rfl (by
    intro m hm v hv
    have hm : m = "a" ∨ m = "b" := by simpa [exFree] using hm
    rcases hm with rfl | rfl
    · rw [view_eq_viewAt exFree_wf.toConsistent (i := 0) rfl] at hv
      simp only [viewAt, exFree, List.getElem?_cons_zero, Option.bind_eq_bind, Option.bind_some,
        Option.pure_def, Option.some.injEq] at hv
      subst hv
      simp [nameAt]
    · rw [view_eq_viewAt exFree_wf.toConsistent (i := 1) rfl] at hv
      simp only [viewAt, exFree, List.getElem?_cons_zero, List.getElem?_cons_succ,
        Option.bind_eq_bind, Option.bind_some, Option.pure_def, Option.some.injEq] at hv
      subst hv
      simp [nameAt])
  exact ⟨s', h1, h2⟩

end RingLib
