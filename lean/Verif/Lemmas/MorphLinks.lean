import Verif.Lemmas.MorphOffset

/-! The rows of the links of the morphed system. -/

namespace RingLib
namespace morph
open System algebra
variable {α π : Type} {P : List Int}

theorem mapM_range_ok {β : Type} {n : Nat} {f : Nat → Py β} {g : Nat → β}
    (h : ∀ i < n, f i = .ok (g i)) : (List.range n).mapM f = .ok ((List.range n).map g) :=
  mapM_ok fun x hx => h x (List.mem_range.1 hx)

section
variable [Field α] {E : JEnv α π} {s : System α π}

/-- the system with other geometries -/
def withGeoms (s : System α π) (gs : List (Geometry α)) : System α π := { s with geoms := gs }

theorem restPoses_geoms (s : System α π) (gs : List (Geometry α)) :
    restPoses E (withGeoms s gs) = restPoses E s := by
  unfold restPoses forward_kinematics forward_kinematics_transforms
  simp only [bind_assoc, pure_bind]
  rfl

variable {gs : List (Geometry α)}

theorem new_transform1_ok (h : (withGeoms s gs).WF E.toEnv)
    (hg : ∀ g ∈ s.geoms, g.link_idx < s.link_parents.length) (hj : s.Jointed E) (hr : Resting E s)
    (hrev : Reversal s.link_parents P) {l : List Nat} (hmem : ∀ i, i ∈ l ↔ i < s.link_parents.length) :
    ∃ X, RestPoses s X ∧ ∀ (mg : Bool) (brk : Option Nat), ∃ t,
      _new_transform1 E s (l.map Int.ofNat)
          ((List.range s.link_parents.length).map (nodeOf s.link_parents P l)) mg true brk =
        .ok ({ s with geoms := if mg then s.geoms.map (movedGeom s.link_parents P X) else s.geoms }, t) ∧
      t.length = s.link_parents.length ∧
      ∀ j < s.link_parents.length, brk = none ∨ brk = some j →
        t[j]? = some (newT s.link_parents P X j) := by
  obtain ⟨X, h1, h2⟩ := restPoses_ok h (show (withGeoms s gs).Jointed E from ⟨hj.known, hj.default⟩)
    (show Resting E (withGeoms s gs) from ⟨hr.quat, hr.joint, hr.unit⟩)
  rw [restPoses_geoms] at h1
  have hll : s.links.length = s.link_parents.length := h.links_len
  refine ⟨X, ⟨h2.eq, h2.unit⟩, fun mg brk => ?_⟩
  have hrange : ∀ i < s.link_parents.length, -1 ≤ P.getD i 0 ∧ P.getD i 0 < s.link_parents.length :=
    fun i hi => hrev.rangeP hi
  obtain ⟨t, ht1, ht2, -, ht4⟩ := setTransforms_ok (lam := s.link_parents) hrange X l brk l
    (s.links.map (·.transform1)) (fun i hi => (hmem i).1 hi) (by simp [hll])
  refine ⟨t, ?_, ht2, fun j hj => ht4 j ((hmem j).2 hj)⟩
  unfold _new_transform1
  rw [h1, ok_bind, if_pos rfl]
  show ((List.range s.link_parents.length).map _).foldlM _ _ >>= _ = _
  rw [show (withGeoms s gs).link_parents = s.link_parents from rfl, moveUp_ok hrev.len hrange, ok_bind]
  dsimp only
  rw [ht1, ok_bind]
  show Except.ok _ = Except.ok _
  congr 3
  cases mg
  · rfl
  · simp only [if_true]
    apply List.map_congr_left
    intro g hgm
    rw [if_pos (hg g hgm)]

/-- link `u` moved to `v` -/
def setPos (s : System α π) (u : Nat) (v : Vec3 α) : System α π :=
  { s with links := s.links.modify u fun row =>
      { row with transform1 := { row.transform1 with pos := v } } }

theorem setPos_mem {u : Nat} {v : Vec3 α} {row : LinkRow α} (h : row ∈ (setPos s u v).links) :
    ∃ row' ∈ s.links, row.pos_min = row'.pos_min ∧ row.pos_max = row'.pos_max ∧
      row.transform1.rot = row'.transform1.rot ∧ row.inertia = row'.inertia := by
  obtain ⟨i, hi, rfl⟩ := List.getElem_of_mem h
  have hi' : i < s.links.length := by simpa [setPos] using hi
  refine ⟨s.links[i], List.getElem_mem _, ?_⟩
  simp only [setPos, List.getElem_modify]
  split <;> simp

theorem setPos_wf (h : s.WF E.toEnv) (u : Nat) (v : Vec3 α) : (setPos s u v).WF E.toEnv where
  types_len := h.types_len
  links_len := by simp [setPos, h.links_len]
  omc_len := h.omc_len
  names_len := h.names_len
  names_nodup := h.names_nodup
  pos_ok := by
    intro row hrow
    obtain ⟨row', hm, e1, e2, -⟩ := setPos_mem hrow
    rw [e1, e2]
    exact h.pos_ok row' hm
  geoms_ok := h.geoms_ok
  known := h.known
  damping_len := h.damping_len
  armature_len := h.armature_len
  stiffness_len := h.stiffness_len
  zeropoint_len := h.zeropoint_len
  unit_zero := h.unit_zero
  topo := h.topo
  jp_keys := h.jp_keys
  jp_len := h.jp_len
  inertia_ok := by
    intro i hi
    have hi' : i < s.links.length := by simpa [setPos] using hi
    have := h.inertia_ok i hi'
    simp only [setPos, List.getElem_modify]
    split <;> exact this
  geoms_sorted := h.geoms_sorted

theorem setPos_resting (hr : Resting E s) (u : Nat) (v : Vec3 α) : Resting E (setPos s u v) where
  quat := hr.quat
  joint := hr.joint
  unit := by
    intro row hrow
    obtain ⟨row', hm, -, -, e3, -⟩ := setPos_mem hrow
    rw [e3]
    exact hr.unit row' hm

theorem setPos_T1 {u : Nat} (hu : u < s.links.length) (v : Vec3 α) :
    T1 (setPos s u v) = offsetsWith s u v := by
  funext i
  unfold T1 offsetsWith setPos
  simp only [List.getElem?_modify]
  by_cases e : i = u
  · subst e
    simp [T1, hu]
  · rw [if_neg e]
    simp [T1, Ne.symm e]

theorem restPoses_agree {X Y : Nat → Transform α} {u : Nat} {v : Vec3 α} (ht : Topological s.link_parents)
    (hu : u < s.links.length)
    (hX : RestPoses s X) (hY : RestPoses (setPos s u v) Y) : ∀ i < s.link_parents.length, i < u → Y i = X i := by
  intro i
  induction i using Nat.strong_induction_on with
  | _ i ih =>
    intro hi hiu
    rw [hX.eq i hi, hY.eq i hi, setPos_T1 hu]
    have e : offsetsWith s u v i = T1 s i := by
      unfold offsetsWith
      rw [if_neg (by omega)]
    rw [e]
    congr 1
    have := ht i hi
    show parentVal _ Y s.link_parents[i] = parentVal _ X s.link_parents[i]
    unfold parentVal
    split
    · exact ih _ (by omega) (by omega) (by omega)
    · rfl

theorem useLink_ok {lam : List Int} (hrev : Reversal lam P) (l : List Nat) {i : Nat}
    (hi : i < lam.length) :
    useLink ((List.range lam.length).map (nodeOf lam P l)) i =
      .ok (if Moved lam P i ∧ P.getD (P.getD i 0).toNat 0 = -1 then none
        else some (hinge lam P i : Int)) := by
  unfold useLink
  rw [pyGet_rangeMap _ (by omega) (by omega), ok_bind, Int.toNat_natCast]
  have hc : (nodeOf lam P l i).parent_changed = true ∧ (nodeOf lam P l i).new_parent_old_indices ≠ -1 ↔
      Moved lam P i := by
    simp only [nodeOf, Moved, decide_eq_true_eq]
  by_cases hm : Moved lam P i
  · obtain ⟨c, hcl, hc1, hc2⟩ := hrev.moved hi hm
    have ec : (P.getD i 0).toNat = c := by omega
    rw [if_pos (hc.2 hm)]
    dsimp only [nodeOf]
    rw [pyGet_rangeMap _ (by omega) (by omega), ok_bind, ec]
    show Except.ok _ = Except.ok _
    congr 1
    rw [show (nodeOf lam P l c).new_parent_old_indices = P.getD c 0 from rfl]
    unfold hinge
    rw [ec]
    have hr := hrev.rangeP hcl
    by_cases e : P.getD c 0 = -1
    · rw [if_neg (not_not.2 e), if_pos ⟨hm, e⟩]
    · rw [if_pos e, if_neg (fun h => e h.2), if_pos hm]
      congr 1
      omega
  · rw [if_neg (fun h => hm (hc.1 h)), if_neg (fun h => hm h.1)]
    unfold hinge
    rw [if_neg hm]
    rfl

theorem hinge_lt {lam : List Int} (hrev : Reversal lam P) {i : Nat} (hi : i < lam.length) :
    hinge lam P i < lam.length := by
  unfold hinge
  split
  · rename_i hm
    obtain ⟨c, hcl, hc1, hc2⟩ := hrev.moved hi hm
    have ec : (P.getD i 0).toNat = c := by omega
    rw [ec]
    have := hrev.rangeP hcl
    omega
  · exact hi

theorem cornerOf_ok (h : (withGeoms s gs).WF E.toEnv)
    (hgs : ∀ g ∈ s.geoms, g.link_idx < s.link_parents.length) (hj : s.Jointed E) (hr : Resting E s)
    (hrev : Reversal s.link_parents P) {l : List Nat} (hmem : ∀ i, i ∈ l ↔ i < s.link_parents.length)
    {X : Nat → Transform α} (hX : RestPoses s X) {old : List (Vec3 α)}
    (hold : old.length = s.link_parents.length) {i : Nat} (hi : i < s.link_parents.length) :
    cornerOf E s (l.map Int.ofNat) ((List.range s.link_parents.length).map (nodeOf s.link_parents P l))
      old i = .ok (corner s P X old i) := by
  have hll : s.links.length = s.link_parents.length := h.links_len
  unfold cornerOf
  rw [useLink_ok hrev l hi, ok_bind]
  by_cases hc : Moved s.link_parents P i ∧ P.getD (P.getD i 0).toNat 0 = -1
  · rw [if_pos hc]
    obtain ⟨Y, hY, hn⟩ := new_transform1_ok h hgs hj hr hrev hmem
    obtain ⟨t, h1, h2, h3⟩ := hn false (some i)
    unfold withPos
    rw [ok_bind, h1, ok_bind, pyGet_nat (h3 i hi (Or.inr rfl)), ok_bind]
    show Except.ok _ = Except.ok _
    congr 1
    rw [newT_eq hr hrev hY hi]
    unfold corner offset
    rw [if_neg hc.1.2, if_neg hc.1.1, if_pos hc.2, if_neg hc.1.2, if_neg hc.1.1, if_pos hc.2]
  · rw [if_neg hc]
    set u := hinge s.link_parents P i with hu
    have hul : u < s.link_parents.length := hinge_lt hrev hi
    have hul' : u < s.links.length := by rw [hll]; exact hul
    have hg : pyGet old (u : Int) = .ok (old.getD u 0) := pyGet_nat (getD_some (by rw [hold]; exact hul) 0)
    have hw : withPos s old (some (u : Int)) = .ok (setPos s u (old.getD u 0)) := by
      show (pyGet old (u : Int) >>= _) = _
      rw [hg, ok_bind, Int.toNat_natCast]
      rfl
    rw [hw, ok_bind]
    have hrs := setPos_resting (u := u) (v := old.getD u 0) hr
    obtain ⟨Y, hY, hn⟩ := new_transform1_ok (s := setPos s u (old.getD u 0)) (gs := gs)
      (setPos_wf h u (old.getD u 0)) hgs (show (setPos s u (old.getD u 0)).Jointed E from ⟨hj.known, hj.default⟩) hrs
      (show Reversal (setPos s u (old.getD u 0)).link_parents P from hrev) hmem
    obtain ⟨t, h1, h2, h3⟩ := hn false (some i)
    have h1' : _new_transform1 E (setPos s u (old.getD u 0)) (l.map Int.ofNat)
        ((List.range s.link_parents.length).map (nodeOf s.link_parents P l))
        (breakearly := some i) = _ := h1
    rw [h1', ok_bind, pyGet_nat (h3 i hi (Or.inr rfl)), ok_bind]
    show Except.ok _ = Except.ok _
    congr 1
    have e := newT_eq hrs (show Reversal (setPos s u (old.getD u 0)).link_parents P from hrev) hY hi
    rw [e, setPos_T1 hul']
    unfold corner
    rw [← hu]
    congr 1
    show offset s.link_parents P Y _ i = _
    unfold offset
    by_cases h0 : P.getD i 0 = -1
    · rw [if_pos h0, if_pos h0]
      congr 1
      have hui : u = i := by
        rw [hu]
        unfold hinge
        rw [if_neg fun hm => hm.2 h0]
      have := hrev.rangeL hi
      unfold parentVal
      split
      · exact restPoses_agree (s := s) h.topo hul' hX hY _ (by omega) (by omega)
      · rfl
    · rw [if_neg h0, if_neg h0]

/-- the row of link `i` -/
noncomputable def newRow (E : JEnv α π) (s : System α π) (P : List Int) (X : Nat → Transform α) (i : Nat)
    (row : LinkRow α) : LinkRow α :=
  { row with
    transform1 := offset s.link_parents P X (T1 s) i
    pos_min := lower E.toEnv (corner s P X (s.links.map (·.pos_min)) i)
      (corner s P X (s.links.map (·.pos_max)) i)
    pos_max := upper E.toEnv (corner s P X (s.links.map (·.pos_min)) i)
      (corner s P X (s.links.map (·.pos_max)) i) }

theorem newLinks_ok (h : (withGeoms s gs).WF E.toEnv)
    (hgs : ∀ g ∈ s.geoms, g.link_idx < s.link_parents.length) (hj : s.Jointed E) (hr : Resting E s)
    (hrev : Reversal s.link_parents P) {l : List Nat} (hmem : ∀ i, i ∈ l ↔ i < s.link_parents.length)
    (h0 : s.link_parents ≠ []) {X : Nat → Transform α} (hX : RestPoses s X) {t : List (Transform α)}
    (htl : t.length = s.link_parents.length)
    (ht : ∀ j < s.link_parents.length, t[j]? = some (newT s.link_parents P X j)) :
    newLinks E s (l.map Int.ofNat) ((List.range s.link_parents.length).map (nodeOf s.link_parents P l)) t =
      .ok (s.links.mapIdx (newRow E s P X)) := by
  have hmm : ∀ old : List (Vec3 α), old.length = s.link_parents.length →
      _new_pos_min_max E s (l.map Int.ofNat)
        ((List.range s.link_parents.length).map (nodeOf s.link_parents P l)) old =
      .ok ((List.range s.link_parents.length).map (corner s P X old)) := by
    intro old hold
    unfold _new_pos_min_max
    rw [show s.num_links = s.link_parents.length from rfl,
      mapM_range_ok fun i hi => cornerOf_ok h hgs hj hr hrev hmem hX hold hi, ok_bind]
    unfold vstack
    rw [if_neg]
    intro e
    have := congrArg List.length e
    simp at this
    exact h0 this
  have hll : s.links.length = s.link_parents.length := h.links_len
  unfold newLinks
  rw [hmm _ (by simp [hll]), ok_bind, hmm _ (by simp [hll]), ok_bind]
  show Except.ok _ = Except.ok _
  congr 1
  apply List.ext_getElem
  · simp [hll, htl]
  · intro i h1 h2
    have hi : i < s.link_parents.length := by rw [← hll]; simpa using h2
    have hti : i < t.length := by omega
    have := ht i hi
    rw [List.getElem?_eq_getElem hti] at this
    have := Option.some.inj this
    simp only [List.getElem_map, List.getElem_zip, List.getElem_range, List.getElem_mapIdx, this,
      newT_eq hr hrev hX hi]
    rfl

end
end morph
end RingLib
