import Verif.Lemmas.Delete
import Verif.Props.System

/-!
# C03: `delete_subsystem` removes exactly the link and its descendants
-/

namespace RingLib
open RingLib.System
variable {α π : Type} [Field α]

omit [Field α] in
theorem uniqueIdx {l : List String} (hl : l.Nodup) {i j : Nat} {y : String} (h1 : l[i]? = some y)
    (h2 : l[j]? = some y) : i = j := by
  obtain ⟨h1, e1⟩ := List.getElem?_eq_some_iff.1 h1
  obtain ⟨h2, e2⟩ := List.getElem?_eq_some_iff.1 h2
  exact (hl.getElem_inj_iff (hi := h1) (hj := h2)).1 (e1.trans e2.symm)

omit [Field α] in
theorem isDesc_trans {s : System α π} (hn : s.link_names.Nodup) {x y z : String}
    (h1 : s.IsDesc x y) (h2 : s.IsDesc y z) : s.IsDesc x z := by
  obtain ⟨a, b, ha, hb, hd⟩ := h1
  obtain ⟨b', c, hb', hc, hd'⟩ := h2
  rw [uniqueIdx hn hb' hb] at hd'
  exact ⟨a, c, ha, hc, hd.trans hd'⟩

/-- what is known about the links that stay -/
theorem delete_removed {E : Env α π} {s : System α π} (h : s.WF E) {name : String}
    (hn : name ∈ s.link_names) (hsurv : ∃ m ∈ s.link_names, ¬ s.IsDesc name m) :
    ∃ s' keep, delete_subsystem E s name = .ok s' ∧ s.Removed E (s.IsDesc name) s' ∧
      Selected E keep s s' ∧ s'.worldGeoms = [] := by
  obtain ⟨k, hk, e⟩ := List.getElem_of_mem hn
  have hk' : s.link_names[k]? = some name := by rw [List.getElem?_eq_getElem hk, e]
  have hkn : k < s.link_parents.length := h.names_len ▸ hk
  have isDesc_iff : ∀ {m : String} {i : Nat}, s.link_names[i]? = some m →
      (s.IsDesc name m ↔ Desc s.link_parents k i) := by
    intro m i hi
    constructor
    · rintro ⟨a, b, ha, hb, hd⟩
      rw [uniqueIdx h.names_nodup ha hk', uniqueIdx h.names_nodup hb hi] at hd
      exact hd
    · intro hd
      exact ⟨k, i, hk', hi, hd⟩
  have hne : s.survivors k ≠ [] := by
    obtain ⟨m, hm, hnd⟩ := hsurv
    obtain ⟨i, hi, ei⟩ := List.getElem_of_mem hm
    have hi' : s.link_names[i]? = some m := by rw [List.getElem?_eq_getElem hi, ei]
    apply List.ne_nil_of_mem (a := i)
    rw [mem_survivors h.topo hkn]
    exact ⟨h.names_len ▸ hi, fun hd => hnd ((isDesc_iff hi').2 hd)⟩
  obtain ⟨s', hok, hwf, hsel, hg, hj, hw⟩ := delete_ok h hk' hne
  refine ⟨s', _, hok, ⟨hwf, ?_, ?_, fun m hm => selected_view h hsel hwf hm, hg, hj⟩, hsel, ?_⟩
  · intro m
    rw [hsel.names, mem_sel]
    constructor
    · rintro ⟨i, hi, him⟩
      rw [mem_survivors h.topo hkn] at hi
      exact ⟨List.mem_of_getElem? him, fun hd => hi.2 ((isDesc_iff him).1 hd)⟩
    · rintro ⟨hm, hnd⟩
      obtain ⟨i, hi, ei⟩ := List.getElem_of_mem hm
      have hi' : s.link_names[i]? = some m := by rw [List.getElem?_eq_getElem hi, ei]
      exact ⟨i, (mem_survivors h.topo hkn i).2 ⟨h.names_len ▸ hi,
        fun hd => hnd ((isDesc_iff hi').2 hd)⟩, hi'⟩
  · rw [hsel.names]
    have : s.link_names = sel (List.range s.link_names.length) s.link_names := (sel_range _).symm
    conv_rhs => rw [this]
    have hsub : (s.survivors k).Sublist (List.range s.link_names.length) := by
      rw [h.names_len]; exact List.filter_sublist
    exact hsub.filterMap _
  · unfold System.worldGeoms
    rw [hw]; rfl

/-- C03: deleting a link from a well-formed system (which has a link that is not below it)
succeeds and removes precisely that link and its descendants; every other link looks as before
(`Removed`), including its geometries; the result is well-formed. -/
theorem C03_delete {E : Env α π} {s : System α π} (h : s.WF E) {name : String}
    (hn : name ∈ s.link_names) (hsurv : ∃ m ∈ s.link_names, ¬ s.IsDesc name m) :
    ∃ s', delete_subsystem E s name = .ok s' ∧ s.Removed E (s.IsDesc name) s' := by
  obtain ⟨s', _, h1, h2, _⟩ := delete_removed h hn hsurv
  exact ⟨s', h1, h2⟩

/-- C03 (behaviour worth knowing): geometries that are attached to the world are dropped by every
deletion. -/
theorem C03_world_geoms_dropped {E : Env α π} {s s' : System α π} (h : s.WF E) {name : String}
    (hok : delete_subsystem E s name = .ok s') : s'.worldGeoms = [] := by
  by_cases hn : name ∈ s.link_names
  · by_cases hsurv : ∃ m ∈ s.link_names, ¬ s.IsDesc name m
    · obtain ⟨s'', _, h1, _, _, h2⟩ := delete_removed h hn hsurv
      rw [hok] at h1
      cases h1
      exact h2
    · obtain ⟨k, hk, e⟩ := List.getElem_of_mem hn
      have hk' : s.link_names[k]? = some name := by rw [List.getElem?_eq_getElem hk, e]
      have hkn : k < s.link_parents.length := h.names_len ▸ hk
      rw [delete_eq E h hk'] at hok
      have : s.survivors k = [] := by
        rw [List.eq_nil_iff_forall_not_mem]
        intro i hi
        rw [mem_survivors h.topo hkn] at hi
        have hin : i < s.link_names.length := h.names_len ▸ hi.1
        apply hsurv
        refine ⟨s.link_names[i], List.getElem_mem hin, ?_⟩
        rintro ⟨a, b, ha, hb, hd⟩
        rw [uniqueIdx h.names_nodup ha hk',
          uniqueIdx h.names_nodup hb (List.getElem?_eq_getElem hin)] at hd
        exact hi.2 hd
      rw [if_pos this] at hok
      cases hok
  · rw [delete_unknown E hn] at hok
    cases hok

/-- C03 (behaviour worth knowing): a deletion that would leave no link raises, under both values
of `strict`. -/
theorem C03_delete_everything {E : Env α π} {s : System α π} (h : s.WF E) {name : String}
    (hn : name ∈ s.link_names) (hall : ∀ m ∈ s.link_names, s.IsDesc name m) (strict : Bool) :
    delete_subsystem' E s name strict = .error .value := by
  obtain ⟨k, hk, e⟩ := List.getElem_of_mem hn
  have hk' : s.link_names[k]? = some name := by rw [List.getElem?_eq_getElem hk, e]
  have hkn : k < s.link_parents.length := h.names_len ▸ hk
  have : s.survivors k = [] := by
    rw [List.eq_nil_iff_forall_not_mem]
    intro i hi
    rw [mem_survivors h.topo hkn] at hi
    have hin : i < s.link_names.length := h.names_len ▸ hi.1
    obtain ⟨a, b, ha, hb, hd⟩ := hall _ (List.getElem_mem hin)
    rw [uniqueIdx h.names_nodup ha hk',
      uniqueIdx h.names_nodup hb (List.getElem?_eq_getElem hin)] at hd
    exact hi.2 hd
  have : delete_subsystem E s name = .error .value := by
    rw [delete_eq E h hk', if_pos this]
  unfold delete_subsystem'
  rw [this]
  cases strict <;> rfl

/-- C03: deleting an unknown name raises under `strict` ... -/
theorem C03_unknown_strict (E : Env α π) {s : System α π} {name : String}
    (hn : name ∉ s.link_names) : delete_subsystem' E s name true = .error .assertion :=
  delete_unknown E hn

/-- C03: ... and is the identity otherwise. -/
theorem C03_unknown_lenient (E : Env α π) {s : System α π} {name : String}
    (hn : name ∉ s.link_names) : delete_subsystem' E s name false = .ok s := by
  simp [delete_subsystem', delete_unknown E hn]

omit [Field α] in
theorem isDesc_mem {s : System α π} {x m : String} (h : s.IsDesc x m) :
    x ∈ s.link_names ∧ m ∈ s.link_names := by
  obtain ⟨a, b, ha, hb, _⟩ := h
  exact ⟨List.mem_of_getElem? ha, List.mem_of_getElem? hb⟩

theorem removed_step {E : Env α π} {s s1 s2 : System α π} (h : s.WF E) {x : String}
    {ns : List String} {keep : List Nat} (hsel : Selected E keep s s1)
    (h1 : s.Removed E (s.IsDesc x) s1)
    (h2 : s1.Removed E (fun m => ∃ y ∈ ns, s1.IsDesc y m) s2) :
    s.Removed E (fun m => ∃ y ∈ x :: ns, s.IsDesc y m) s2 where
  wf := h2.wf
  mem := by
    intro m
    rw [h2.mem, h1.mem]
    constructor
    · rintro ⟨⟨hm, hnx⟩, hns⟩
      refine ⟨hm, ?_⟩
      rintro ⟨y, hy, hd⟩
      rcases List.mem_cons.1 hy with rfl | hy
      · exact hnx hd
      · have hm1 : m ∈ s1.link_names := (h1.mem m).2 ⟨hm, hnx⟩
        have hy1 : y ∈ s1.link_names := (h1.mem y).2 ⟨(isDesc_mem hd).1,
          fun hxy => hnx (isDesc_trans h.names_nodup hxy hd)⟩
        exact hns ⟨y, hy, (selected_isDesc h.toConsistent hsel hy1 hm1).2 hd⟩
    · rintro ⟨hm, hns⟩
      have hnx : ¬ s.IsDesc x m := fun hd => hns ⟨x, by simp, hd⟩
      refine ⟨⟨hm, hnx⟩, ?_⟩
      rintro ⟨y, hy, hd⟩
      have := isDesc_mem hd
      exact hns ⟨y, by simp [hy], (selected_isDesc h.toConsistent hsel this.1 this.2).1 hd⟩
  order := h2.order.trans h1.order
  view := fun m hm => (h2.view m hm).trans (h1.view m ((h2.mem m).1 hm).1)
  globals := h2.globals.trans h1.globals
  keys := h2.keys.trans h1.keys

omit [Field α] in
theorem removed_none [Field α] {E : Env α π} {s : System α π} (h : s.WF E) {gone : String → Prop}
    (hg : ∀ m ∈ s.link_names, ¬ gone m) : s.Removed E gone s :=
  ⟨h, fun m => ⟨fun hm => ⟨hm, hg m hm⟩, fun hm => hm.1⟩, List.Sublist.refl _,
    fun _ _ => rfl, rfl, rfl⟩

/-- C03, a list of names with `strict=False`: exactly the named links and their descendants
disappear; names that do not exist (any more) are ignored. -/
theorem C03_list_lenient {E : Env α π} {s : System α π} (h : s.WF E) (ns : List String)
    (hsurv : ∃ m ∈ s.link_names, ∀ x ∈ ns, ¬ s.IsDesc x m) :
    ∃ s', delete_subsystems E s ns false = .ok s' ∧
      s.Removed E (fun m => ∃ x ∈ ns, s.IsDesc x m) s' := by
  induction ns generalizing s with
  | nil =>
    exact ⟨s, rfl, removed_none h (by simp)⟩
  | cons x ns ih =>
    obtain ⟨m, hm, hall⟩ := hsurv
    by_cases hx : x ∈ s.link_names
    · obtain ⟨s1, keep, hok, hrem, hsel, _⟩ :=
        delete_removed h hx ⟨m, hm, hall x (by simp)⟩
      have hm1 : m ∈ s1.link_names := (hrem.mem m).2 ⟨hm, hall x (by simp)⟩
      obtain ⟨s2, hok2, hrem2⟩ := ih (s := s1) hrem.wf ⟨m, hm1, fun y hy hd =>
        hall y (by simp [hy])
          ((selected_isDesc h.toConsistent hsel (isDesc_mem hd).1 hm1).1 hd)⟩
      refine ⟨s2, ?_, removed_step h hsel hrem hrem2⟩
      unfold delete_subsystems at hok2 ⊢
      have : delete_subsystem' E s x false = .ok s1 := by simp [delete_subsystem', hok]
      rw [List.foldlM_cons, this]
      exact hok2
    · obtain ⟨s2, hok2, hrem2⟩ := ih h ⟨m, hm, fun y hy => hall y (by simp [hy])⟩
      refine ⟨s2, ?_, ?_⟩
      · unfold delete_subsystems at hok2 ⊢
        rw [List.foldlM_cons, C03_unknown_lenient E hx]
        exact hok2
      · have e : (fun m => ∃ y ∈ x :: ns, s.IsDesc y m) = fun m => ∃ y ∈ ns, s.IsDesc y m := by
          funext m
          simp only [List.mem_cons, exists_eq_or_imp, eq_iff_iff, or_iff_right_iff_imp]
          exact fun hd => absurd (isDesc_mem hd).1 hx
        rw [e]; exact hrem2

/-- C03, a list of names with `strict=True`: if no name is unknown, repeated or below an earlier
one, exactly the named links and their descendants disappear. -/
theorem C03_list_strict {E : Env α π} {s : System α π} (h : s.WF E) (ns : List String)
    (hns : ∀ x ∈ ns, x ∈ s.link_names) (hpw : ns.Pairwise fun x y => ¬ s.IsDesc x y)
    (hsurv : ∃ m ∈ s.link_names, ∀ x ∈ ns, ¬ s.IsDesc x m) :
    ∃ s', delete_subsystems E s ns true = .ok s' ∧
      s.Removed E (fun m => ∃ x ∈ ns, s.IsDesc x m) s' := by
  induction ns generalizing s with
  | nil =>
    exact ⟨s, rfl, removed_none h (by simp)⟩
  | cons x ns ih =>
    obtain ⟨m, hm, hall⟩ := hsurv
    have hx : x ∈ s.link_names := hns x (by simp)
    obtain ⟨s1, keep, hok, hrem, hsel, _⟩ :=
      delete_removed h hx ⟨m, hm, hall x (by simp)⟩
    have hm1 : m ∈ s1.link_names := (hrem.mem m).2 ⟨hm, hall x (by simp)⟩
    rw [List.pairwise_cons] at hpw
    have hns1 : ∀ y ∈ ns, y ∈ s1.link_names := fun y hy =>
      (hrem.mem y).2 ⟨hns y (by simp [hy]), hpw.1 y hy⟩
    obtain ⟨s2, hok2, hrem2⟩ := ih (s := s1) hrem.wf hns1
      (List.Pairwise.imp_of_mem (fun {a b} ha hb hab hd =>
        hab ((selected_isDesc h.toConsistent hsel (hns1 a ha) (hns1 b hb)).1 hd)) hpw.2)
      ⟨m, hm1, fun y hy hd =>
        hall y (by simp [hy])
          ((selected_isDesc h.toConsistent hsel (isDesc_mem hd).1 hm1).1 hd)⟩
    refine ⟨s2, ?_, removed_step h hsel hrem hrem2⟩
    unfold delete_subsystems at hok2 ⊢
    have : delete_subsystem' E s x true = .ok s1 := by simp [delete_subsystem', hok]
    rw [List.foldlM_cons, this]
    exact hok2

/-- C03, `strict=True`: a list with an unknown name, or with a name below an earlier one, raises
`AssertionError` (as long as links remain). -/
theorem C03_list_strict_raises {E : Env α π} {s : System α π} (h : s.WF E) (ns : List String)
    (hbad : (∃ x ∈ ns, x ∉ s.link_names) ∨ ¬ ns.Pairwise fun x y => ¬ s.IsDesc x y)
    (hsurv : ∃ m ∈ s.link_names, ∀ x ∈ ns, ¬ s.IsDesc x m) :
    delete_subsystems E s ns true = .error .assertion := by
  induction ns generalizing s with
  | nil =>
    rcases hbad with ⟨x, hx, _⟩ | h
    · simp at hx
    · exact absurd List.Pairwise.nil h
  | cons x ns ih =>
    obtain ⟨m, hm, hall⟩ := hsurv
    unfold delete_subsystems
    rw [List.foldlM_cons]
    by_cases hx : x ∈ s.link_names
    · obtain ⟨s1, keep, hok, hrem, hsel, _⟩ :=
        delete_removed h hx ⟨m, hm, hall x (by simp)⟩
      have hm1 : m ∈ s1.link_names := (hrem.mem m).2 ⟨hm, hall x (by simp)⟩
      have : delete_subsystem' E s x true = .ok s1 := by simp [delete_subsystem', hok]
      rw [this]
      apply ih hrem.wf
      · by_cases hun : ∃ y ∈ ns, y ∉ s1.link_names
        · exact Or.inl hun
        · right
          have hns1 : ∀ y ∈ ns, y ∈ s1.link_names := by
            intro y hy
            by_contra hc
            exact hun ⟨y, hy, hc⟩
          intro hpw
          rcases hbad with ⟨y, hy, hny⟩ | hb
          · rcases List.mem_cons.1 hy with rfl | hy
            · exact hny hx
            · exact hny ((hrem.mem y).1 (hns1 y hy)).1
          · apply hb
            rw [List.pairwise_cons]
            refine ⟨fun y hy => ((hrem.mem y).1 (hns1 y hy)).2, ?_⟩
            exact List.Pairwise.imp_of_mem (fun {a b} ha hb hab hd =>
              hab ((selected_isDesc h.toConsistent hsel (hns1 a ha) (hns1 b hb)).2 hd)) hpw
      · exact ⟨m, hm1, fun y hy hd => hall y (by simp [hy])
          ((selected_isDesc h.toConsistent hsel (isDesc_mem hd).1 hm1).1 hd)⟩
    · rw [C03_unknown_strict E hx]
      rfl

/-! A concrete case: deleting the root `a` of `exSys` removes `a`, `b`, `c` and keeps `d`. -/
omit [Field α] in
theorem exSys_not_desc : ¬ exSys.IsDesc "a" "d" := by
  rintro ⟨a, b, ha, hb, hd⟩
  rw [uniqueIdx exSys_consistent.names_nodup ha (i := a) (j := 0) rfl,
    uniqueIdx exSys_consistent.names_nodup hb (i := b) (j := 3) rfl] at hd
  cases hd with
  | step hp _ => simp [exSys] at hp

omit [Field α] in
theorem exSys_not_desc' : ¬ exSys.IsDesc "b" "d" := by
  rintro ⟨a, b, ha, hb, hd⟩
  rw [uniqueIdx exSys_consistent.names_nodup ha (i := a) (j := 1) rfl,
    uniqueIdx exSys_consistent.names_nodup hb (i := b) (j := 3) rfl] at hd
  cases hd with
  | step hp _ => simp [exSys] at hp

example : ∃ s', delete_subsystem exEnv exSys "a" = .ok s' ∧
    exSys.Removed exEnv (exSys.IsDesc "a") s' :=
  C03_delete exSys_wf (by simp [exSys]) ⟨"d", by simp [exSys], exSys_not_desc⟩

example : ∃ s', delete_subsystems exEnv exSys ["a", "b", "nope"] false = .ok s' ∧
    exSys.Removed exEnv (fun m => ∃ x ∈ ["a", "b", "nope"], exSys.IsDesc x m) s' :=
  C03_list_lenient exSys_wf _ ⟨"d", by simp [exSys], by
    intro x hx
    simp at hx
    rcases hx with rfl | rfl | rfl
    · exact exSys_not_desc
    · exact exSys_not_desc'
    · intro h; have := (isDesc_mem h).1; simp [exSys] at this⟩

example : delete_subsystems exEnv exSys ["a", "b"] true = .error .assertion :=
  C03_list_strict_raises exSys_wf _ (Or.inr (by
    simp only [List.pairwise_cons, List.mem_singleton, forall_eq]
    intro h
    exact h.1 ⟨0, 1, rfl, rfl, .step (p := 0) rfl .self⟩))
    ⟨"d", by simp [exSys], by
      intro x hx
      simp at hx
      rcases hx with rfl | rfl
      · exact exSys_not_desc
      · exact exSys_not_desc'⟩

example : ∃ s', delete_subsystems exEnv exSys ["b", "c"] true = .ok s' ∧
    exSys.Removed exEnv (fun m => ∃ x ∈ ["b", "c"], exSys.IsDesc x m) s' := by
  have hbc : ¬ exSys.IsDesc "b" "c" := by
    rintro ⟨a, b, ha, hb, hd⟩
    rw [uniqueIdx exSys_consistent.names_nodup ha (i := a) (j := 1) rfl,
      uniqueIdx exSys_consistent.names_nodup hb (i := b) (j := 2) rfl] at hd
    have := (Desc.proper_iff exSys_topological).1 ⟨hd, by decide⟩
    obtain ⟨c, hc, _⟩ := this
    match c with
    | 0 | 1 | 2 | 3 => simp [exSys] at hc
    | n + 4 => simp [exSys] at hc
  have hcd : ¬ exSys.IsDesc "c" "d" := by
    rintro ⟨a, b, ha, hb, hd⟩
    rw [uniqueIdx exSys_consistent.names_nodup ha (i := a) (j := 2) rfl,
      uniqueIdx exSys_consistent.names_nodup hb (i := b) (j := 3) rfl] at hd
    cases hd with
    | step hp _ => simp [exSys] at hp
  exact C03_list_strict exSys_wf _ (by simp [exSys]) (by simpa using hbc)
    ⟨"d", by simp [exSys], by
      intro x hx
      simp at hx
      rcases hx with rfl | rfl
      · exact exSys_not_desc'
      · exact hcd⟩

end RingLib
