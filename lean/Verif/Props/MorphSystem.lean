import Mathlib.Data.Fintype.EquivFin
import Verif.Lemmas.MorphAssemble
import Verif.Props.Poses

/-!
# C72: morphing a system
-/

namespace RingLib
namespace morph
open System algebra
variable {α π : Type} {P : List Int}

section
variable [Field α] {E : JEnv α π} {s : System α π} {r : Nat} {X : Nat → Transform α} {l : List Nat}

theorem corners_lower_upper (ht : ∀ a b, E.ge a b = true ∨ E.ge b a = true) (a b : Vec3 α) :
    Corners E.toEnv a b (lower E.toEnv a b) (upper E.toEnv a b) := by
  have key : ∀ a b : α, E.ge (if E.ge b a = true then b else a) (if E.ge b a = true then a else b) = true ∧
      (((if E.ge b a = true then a else b) = a ∧ (if E.ge b a = true then b else a) = b) ∨
      ((if E.ge b a = true then a else b) = b ∧ (if E.ge b a = true then b else a) = a)) := by
    intro a b
    by_cases h : E.ge b a = true
    · simp [h]
    · have := (ht a b).resolve_right h
      simp [h, this]
  exact ⟨key _ _, key _ _, key _ _⟩

theorem newRow_pos (ht : ∀ a b, E.ge a b = true ∨ E.ge b a = true) (i : Nat) (row : LinkRow α) :
    Corners E.toEnv (corner s P X (s.links.map (·.pos_min)) i)
      (corner s P X (s.links.map (·.pos_max)) i) (newRow E s P X i row).pos_min
      (newRow E s P X i row).pos_max := corners_lower_upper ht _ _

theorem morphRaw_consistent (h : s.WF E.toEnv) (hrev : Reversal s.link_parents P)
    (hroot : FirstRoot s.link_parents r) (ht : ∀ a b, E.ge a b = true ∨ E.ge b a = true)
    (hmem : ∀ i, i ∈ l ↔ i < s.link_parents.length) (hnd : l.Nodup) :
    (morphRaw E s P r X l).Consistent E.toEnv := by
  have hrl : r < s.link_parents.length := (List.getElem?_eq_some_iff.1 hroot.root).1
  have hown : ∀ i ∈ l, owner s.link_parents P r i < s.link_types.length := fun i hi => by
    rw [h.types_len]; exact owner_lt hrev hrl ((hmem i).1 hi)
  have hpl : ∀ (xs : List α) (w : String → Option Nat), xs.length = (s.link_types.map (wOf w)).sum →
      ∀ i ∈ l, (ownSlice w s.link_types xs (owner s.link_parents P r i)).length =
        wOf w (s.link_types.getD (owner s.link_parents P r i) "") := by
    intro xs w hx i hi
    exact System.ownSlice_length hx (hown i hi)
  exact {
    types_len := by simp [morphRaw]
    links_len := by simp [morphRaw]
    omc_len := by simp [morphRaw]
    names_len := by simp [morphRaw]
    names_nodup := by
      refine List.Nodup.map_on ?_ hnd
      intro a ha b hb e
      have ha' : a < s.link_names.length := by rw [h.names_len]; exact (hmem a).1 ha
      have hb' : b < s.link_names.length := by rw [h.names_len]; exact (hmem b).1 hb
      have e' : s.link_names[a] = s.link_names[b] := by
        simpa [List.getD, ha', hb'] using e
      exact (h.names_nodup.getElem_inj_iff).1 e'
    pos_ok := by
      intro row hrow
      obtain ⟨i, -, rfl⟩ := List.mem_map.1 hrow
      have := newRow_pos (s := s) (P := P) (X := X) ht i (rowD s i)
      exact ⟨this.x.1, this.y.1, this.z.1⟩
    geoms_ok := by
      intro g hg
      obtain ⟨g1, hg1, rfl⟩ := List.mem_map.1 hg
      obtain ⟨g2, hg2, rfl⟩ := List.mem_map.1 hg1
      have hgo := h.geoms_ok g2 hg2
      unfold renumGeom
      rw [movedGeom_idx]
      split
      · rename_i e
        rw [movedGeom_idx, e]
        exact ⟨by omega, by omega⟩
      · have hm := (hmem g2.link_idx.toNat).2 (by omega)
        have := List.idxOf_lt_length_of_mem hm
        simp only [morphRaw, List.length_map]
        omega
    known := by
      intro t ht
      obtain ⟨i, hi, rfl⟩ := List.mem_map.1 ht
      rw [List.getD, List.getElem?_eq_getElem (hown i hi), Option.getD_some]
      exact h.known _ (List.getElem_mem _)
    damping_len := pieces_length l _ _ (hpl _ _ h.damping_len)
    armature_len := pieces_length l _ _ (hpl _ _ h.armature_len)
    stiffness_len := pieces_length l _ _ (hpl _ _ h.stiffness_len)
    zeropoint_len := pieces_length l _ _ (hpl _ _ h.zeropoint_len)
    unit_zero := by
      intro k hk hq
      have hkl : k < l.length := by simpa [morphRaw] using hk
      have e1 : ownSlice E.qw (morphRaw E s P r X l).link_types
          (morphRaw E s P r X l).link_spring_zeropoint k =
          ownSlice E.qw s.link_types s.link_spring_zeropoint (owner s.link_parents P r l[k]) :=
        ownSlice_pieces l (fun i => s.link_types.getD (owner s.link_parents P r i) "") _
          (hpl _ _ h.zeropoint_len) hkl
      rw [e1]
      have ho := hown l[k] (List.getElem_mem _)
      apply h.unit_zero _ ho
      simp only [morphRaw, List.getElem_map] at hq
      rw [List.getD, List.getElem?_eq_getElem ho, Option.getD_some] at hq
      exact hq }

theorem lookup_map_snd {β γ : Type} (f : β → γ) (l : List (String × β)) (t : String) :
    (l.map fun x => (x.1, f x.2)).lookup t = (l.lookup t).map f := by
  induction l with
  | nil => rfl
  | cons x l ih =>
    rw [List.map_cons, List.lookup_cons, List.lookup_cons, ih]
    cases t == x.1 <;> rfl

theorem filterMap_total {β γ : Type} {l : List β} {g : β → Option γ} (h : ∀ i ∈ l, (g i).isSome = true)
    (k : Nat) : (l.filterMap g)[k]? = l[k]?.bind g := by
  induction l generalizing k with
  | nil => simp
  | cons a l ih =>
    obtain ⟨b, hb⟩ := Option.isSome_iff_exists.1 (h a (by simp))
    rw [List.filterMap_cons, hb]
    cases k with
    | zero => simp [hb]
    | succ k => simpa using ih (fun i hi => h i (by simp [hi])) k

theorem idxOf_of_getElem? {l : List Nat} (hnd : l.Nodup) {k i : Nat} (hk : l[k]? = some i) :
    l.idxOf i = k := by
  obtain ⟨hkl, rfl⟩ := List.getElem?_eq_some_iff.1 hk
  exact hnd.idxOf_getElem k hkl

/-- the geometries of link `k` of the morphed system -/
theorem morphRaw_geoms (h : s.WF E.toEnv)
    (hmem : ∀ i, i ∈ l ↔ i < s.link_parents.length) (hnd : l.Nodup) {k i : Nat}
    (hk : l[k]? = some i) :
    ((morphRaw E s P r X l).geoms.filter fun g => g.link_idx = (k : Int)) =
      ((s.geoms.filter fun g => g.link_idx = (i : Int)).map (movedGeom s.link_parents P X)).map
        (renumGeom l) := by
  simp only [morphRaw]
  rw [List.filter_map, List.filter_map]
  congr 2
  apply List.filter_congr
  intro g hg
  have hgo := h.geoms_ok g hg
  simp only [Function.comp]
  rw [decide_eq_decide]
  unfold renumGeom
  rw [movedGeom_idx]
  have hki := idxOf_of_getElem? hnd hk
  by_cases e : g.link_idx = -1
  · rw [if_pos e, movedGeom_idx, e]
    constructor <;> intro h <;> omega
  · rw [if_neg e]
    constructor
    · intro h1
      have h1 : ((l.idxOf g.link_idx.toNat : Nat) : Int) = (k : Int) := h1
      have hm := (hmem g.link_idx.toNat).2 (by omega)
      have h2 : l[k]? = some g.link_idx.toNat := by
        have : l.idxOf g.link_idx.toNat = k := by omega
        rw [← this, List.getElem?_eq_getElem (List.idxOf_lt_length_of_mem hm),
          List.getElem_idxOf (List.idxOf_lt_length_of_mem hm)]
      rw [hk] at h2
      have := Option.some.inj h2
      omega
    · intro h1
      show ((l.idxOf g.link_idx.toNat : Nat) : Int) = (k : Int)
      rw [h1, Int.toNat_natCast, hki]

theorem movedGeom_data (hr : Resting E s) (hrev : Reversal s.link_parents P) (hX : RestPoses s X)
    {i : Nat} (hi : i < s.link_parents.length) {g : Geometry α} (hg : g.link_idx = (i : Int)) :
    (renumGeom l (movedGeom s.link_parents P X g)).data = GeomData.shifted (shift s P i) g.data := by
  have e : (renumGeom l (movedGeom s.link_parents P X g)).data =
      (movedGeom s.link_parents P X g).data := by
    unfold renumGeom
    split <;> rfl
  rw [e]
  unfold movedGeom shift GeomData.shifted
  rw [hg, Int.toNat_natCast]
  by_cases hm : Moved s.link_parents P i
  · rw [if_pos ⟨by omega, hm⟩, if_pos hm, moved_rel hr hrev hX hi hm]
    rfl
  · rw [if_neg (fun h => hm h.2), if_neg hm, transform_mul_zero]

theorem offset_unit (hr : Resting E s) (hrev : Reversal s.link_parents P) (hX : RestPoses s X) {i : Nat}
    (hi : i < s.link_parents.length) :
    (offset s.link_parents P X (T1 s) i).rot.normSq = 1 := by
  rw [← newT_eq hr hrev hX hi]
  have hm : ∀ j < s.link_parents.length, (movedPose s.link_parents P X j).rot.normSq = 1 := by
    intro j hj
    unfold movedPose
    split
    · rename_i hmv
      have := hrev.rangeP hj
      have h2 := hmv.2
      exact hX.unit _ (by omega)
    · exact hX.unit j hj
  exact transform_mul_unit (hm i hi) (transform_inv_unit (parentVal_unit hm (hrev.rangeP hi).2))

theorem morphRaw_view (h : s.WF E.toEnv) (hr : Resting E s) (hrev : Reversal s.link_parents P)
    (hroot : FirstRoot s.link_parents r) (ht : ∀ a b, E.ge a b = true ∨ E.ge b a = true)
    (hX : RestPoses s X)
    (hmem : ∀ i, i ∈ l ↔ i < s.link_parents.length) (hnd : l.Nodup) {k i : Nat} (hk : l[k]? = some i) :
    ∃ v w v', s.viewAt E.toEnv i = some v ∧
    s.viewAt E.toEnv (owner s.link_parents P r i) = some w ∧
    ((morphRaw E s P r X l).normalised E.toEnv).viewAt E.toEnv k = some v' ∧
    v'.parent = s.nameAt (P.getD i 0) ∧
    v'.type = w.type ∧ v'.damping = w.damping ∧ v'.armature = w.armature ∧
    v'.stiffness = w.stiffness ∧ v'.zeropoint = w.zeropoint ∧ v'.joint_params = w.joint_params ∧
    v'.omc = v.omc ∧ v'.geoms = v.geoms.map (GeomData.shifted (shift s P i)) ∧
    v'.row.transform1 = offset s.link_parents P X (T1 s) i ∧
    Corners E.toEnv (corner s P X (s.links.map (·.pos_min)) i)
      (corner s P X (s.links.map (·.pos_max)) i) v'.row.pos_min v'.row.pos_max := by
  have hc := morphRaw_consistent (X := X) h hrev hroot ht hmem hnd
  have hrl : r < s.link_parents.length := (List.getElem?_eq_some_iff.1 hroot.root).1
  have hkl : k < l.length := (List.getElem?_eq_some_iff.1 hk).1
  have hlk : l[k] = i := (List.getElem?_eq_some_iff.1 hk).2
  have hi : i < s.link_parents.length := (hmem i).1 (List.mem_of_getElem? hk)
  have hown : ∀ i ∈ l, owner s.link_parents P r i < s.link_types.length := fun i hi => by
    rw [h.types_len]; exact owner_lt hrev hrl ((hmem i).1 hi)
  have hoi := owner_lt hrev hrl hi
  have hpl : ∀ (xs : List α) (w : String → Option Nat), xs.length = (s.link_types.map (wOf w)).sum →
      ∀ i ∈ l, (ownSlice w s.link_types xs (owner s.link_parents P r i)).length =
        wOf w (s.link_types.getD (owner s.link_parents P r i) "") := by
    intro xs w hx i hi
    exact System.ownSlice_length hx (hown i hi)
  have hsl : ∀ (xs : List α) (w : String → Option Nat), xs.length = (s.link_types.map (wOf w)).sum →
      ownSlice w (morphRaw E s P r X l).link_types
        (l.map fun i => ownSlice w s.link_types xs (owner s.link_parents P r i)).flatten k =
      ownSlice w s.link_types xs (owner s.link_parents P r i) := by
    intro xs w hx
    have := ownSlice_pieces l (fun i => s.link_types.getD (owner s.link_parents P r i) "") _
          (hpl xs w hx) hkl
    rw [hlk] at this
    exact this
  -- the views
  have e1 : s.viewAt E.toEnv i = some {
      parent := s.nameAt (s.link_parents.getD i 0), type := s.link_types.getD i "", row := rowD s i
      damping := ownSlice E.dw s.link_types s.link_damping i
      armature := ownSlice E.dw s.link_types s.link_armature i
      stiffness := ownSlice E.dw s.link_types s.link_spring_stiffness i
      zeropoint := ownSlice E.qw s.link_types s.link_spring_zeropoint i
      joint_params := fun typ => (s.joint_params.lookup typ).bind (·[i]?)
      omc := s.omc.getD i none
      geoms := (s.geoms.filter fun g => g.link_idx = (i : Int)).map Geometry.data } := by
    unfold viewAt rowD
    rw [getD_some hi 0, getD_some (by rw [h.types_len]; exact hi) "",
      List.getElem?_eq_getElem (by rw [h.links_len]; exact hi),
      getD_some (by rw [h.omc_len]; exact hi) none]
    rfl
  have e2 : s.viewAt E.toEnv (owner s.link_parents P r i) = some {
      parent := s.nameAt (s.link_parents.getD (owner s.link_parents P r i) 0)
      type := s.link_types.getD (owner s.link_parents P r i) ""
      row := rowD s (owner s.link_parents P r i)
      damping := ownSlice E.dw s.link_types s.link_damping (owner s.link_parents P r i)
      armature := ownSlice E.dw s.link_types s.link_armature (owner s.link_parents P r i)
      stiffness := ownSlice E.dw s.link_types s.link_spring_stiffness (owner s.link_parents P r i)
      zeropoint := ownSlice E.qw s.link_types s.link_spring_zeropoint (owner s.link_parents P r i)
      joint_params := fun typ => (s.joint_params.lookup typ).bind (·[owner s.link_parents P r i]?)
      omc := s.omc.getD (owner s.link_parents P r i) none
      geoms := (s.geoms.filter fun g =>
        g.link_idx = (owner s.link_parents P r i : Int)).map Geometry.data } := by
    unfold viewAt rowD
    rw [getD_some hoi 0, getD_some (by rw [h.types_len]; exact hoi) "",
      List.getElem?_eq_getElem (by rw [h.links_len]; exact hoi),
      getD_some (by rw [h.omc_len]; exact hoi) none]
    rfl
  have f1 : (morphRaw E s P r X l).link_parents[k]? = some (renum l (P.getD i 0)) := by
    simp [morphRaw, hk]
  have f2 : (morphRaw E s P r X l).link_types[k]? =
      some (s.link_types.getD (owner s.link_parents P r i) "") := by
    simp only [morphRaw, List.getElem?_map, hk, Option.map_some]
  have f3 : (morphRaw E s P r X l).links[k]? = some (newRow E s P X i (rowD s i)) := by
    simp only [morphRaw, List.getElem?_map, hk, Option.map_some]
  have f4 : (morphRaw E s P r X l).omc[k]? = some (s.omc.getD i none) := by
    simp only [morphRaw, List.getElem?_map, hk, Option.map_some]
  have e3 : (morphRaw E s P r X l).viewAt E.toEnv k = some {
      parent := (morphRaw E s P r X l).nameAt (renum l (P.getD i 0))
      type := s.link_types.getD (owner s.link_parents P r i) ""
      row := newRow E s P X i (rowD s i)
      damping := ownSlice E.dw (morphRaw E s P r X l).link_types (morphRaw E s P r X l).link_damping k
      armature := ownSlice E.dw (morphRaw E s P r X l).link_types (morphRaw E s P r X l).link_armature k
      stiffness := ownSlice E.dw (morphRaw E s P r X l).link_types
        (morphRaw E s P r X l).link_spring_stiffness k
      zeropoint := ownSlice E.qw (morphRaw E s P r X l).link_types
        (morphRaw E s P r X l).link_spring_zeropoint k
      joint_params := fun typ => ((morphRaw E s P r X l).joint_params.lookup typ).bind (·[k]?)
      omc := s.omc.getD i none
      geoms := ((morphRaw E s P r X l).geoms.filter fun g => g.link_idx = (k : Int)).map
        Geometry.data } := by
    unfold viewAt
    rw [f1, f2, f3, f4]
    rfl
  have e4 := normalised_viewAt hc k
  rw [e3, Option.map_some] at e4
  refine ⟨_, _, _, e1, e2, e4, ?_, rfl, hsl _ _ h.damping_len,
    hsl _ _ h.armature_len, hsl _ _ h.stiffness_len, hsl _ _ h.zeropoint_len, ?_, rfl, ?_, rfl,
    newRow_pos ht i (rowD s i)⟩
  · have hP := hrev.rangeP hi
    dsimp only
    unfold nameAt renum
    by_cases e : P.getD i 0 = -1
    · rw [if_pos e, e]
      rfl
    · have hp : (P.getD i 0).toNat < s.link_parents.length := by omega
      have hpm := (hmem _).2 hp
      have hpl := List.idxOf_lt_length_of_mem hpm
      rw [if_neg e, if_neg (by omega), if_neg (by omega), Int.toNat_natCast]
      simp only [morphRaw, List.getElem?_map]
      rw [List.getElem?_eq_getElem hpl, List.getElem_idxOf hpl, Option.map_some,
        ← getD_some (by rw [h.names_len]; exact hp) ""]
  · funext typ
    have hj : (morphRaw E s P r X l).joint_params.lookup typ =
        (s.joint_params.lookup typ).map fun (ps : List π) =>
          l.filterMap fun i => ps[owner s.link_parents P r i]? :=
      lookup_map_snd (fun ps : List π => l.filterMap fun i => ps[owner s.link_parents P r i]?) _ _
    dsimp only
    rw [hj]
    cases hlk2 : s.joint_params.lookup typ with
    | none => rfl
    | some ps =>
      simp only [Option.map_some, Option.bind_some]
      rw [filterMap_total (fun j hj => by
        have hmem' : (typ, ps) ∈ s.joint_params := by
          rw [List.lookup_eq_some_iff] at hlk2
          obtain ⟨l1, l2, e, -⟩ := hlk2
          rw [e]; simp
        rw [List.getElem?_eq_getElem (by
          rw [h.jp_len _ hmem']; exact owner_lt hrev hrl ((hmem j).1 hj))]
        rfl), hk, Option.bind_some]
  · dsimp only
    rw [morphRaw_geoms h hmem hnd hk, List.map_map, List.map_map, List.map_map]
    apply List.map_congr_left
    intro g hg
    have hgi : g.link_idx = (i : Int) := by simpa using (List.mem_filter.1 hg).2
    exact movedGeom_data hr hrev hX hi hgi

theorem morphed (h : s.WF E.toEnv) (hj : s.Jointed E) (hr : Resting E s)
    (hrev : Reversal s.link_parents P)
    (hroot : FirstRoot s.link_parents r) (ht : ∀ a b, E.ge a b = true ∨ E.ge b a = true)
    (hX : RestPoses s X)
    (hmem : ∀ i, i ∈ l ↔ i < s.link_parents.length) (hnd : l.Nodup)
    (hren : Renumbered P l (l.map fun i => renum l (P.getD i 0))) :
    Morphed E s P r X l ((morphRaw E s P r X l).normalised E.toEnv) := by
  have hc := morphRaw_consistent (X := X) h hrev hroot ht hmem hnd
  have hrl : r < s.link_parents.length := (List.getElem?_eq_some_iff.1 hroot.root).1
  have hty : ∀ t ∈ (morphRaw E s P r X l).link_types, t ∈ s.link_types := by
    intro t htm
    obtain ⟨i, hi, rfl⟩ := List.mem_map.1 htm
    have : owner s.link_parents P r i < s.link_types.length := by
      rw [h.types_len]; exact owner_lt hrev hrl ((hmem i).1 hi)
    rw [List.getD, List.getElem?_eq_getElem this, Option.getD_some]
    exact List.getElem_mem _
  have hkeys : (morphRaw E s P r X l).joint_params.map (·.1) = s.joint_params.map (·.1) := by
    simp only [morphRaw, List.map_map]
    rfl
  exact {
    wf := by
      apply normalised_wf hc hren.preorder.topo
      · rw [hkeys]; exact h.jp_keys
      · intro x hx
        obtain ⟨y, hy, rfl⟩ := List.mem_map.1 hx
        have : (l.filterMap fun i => y.2[owner s.link_parents P r i]?).length = l.length := by
          have key : ∀ i ∈ l, (y.2[owner s.link_parents P r i]?).isSome = true := fun i hi => by
            rw [List.getElem?_eq_getElem (by
              rw [h.jp_len _ hy]; exact owner_lt hrev hrl ((hmem i).1 hi))]
            rfl
          clear hren hmem hnd hty hkeys hc hx
          induction l with
          | nil => rfl
          | cons a l ih =>
            obtain ⟨b, hb⟩ := Option.isSome_iff_exists.1 (key a (by simp))
            rw [List.filterMap_cons, hb]
            simp only [List.length_cons]
            rw [ih fun i hi => key i (by simp [hi])]
        rw [this]
        simp [morphRaw]
    jointed := ⟨fun t htm => hj.known t (hty t htm), by
      show _ ∈ (morphRaw E s P r X l).joint_params.map (·.1)
      rw [hkeys]; exact hj.default⟩
    resting := by
      refine ⟨fun t htm => hr.quat t (hty t htm), fun t htm => hr.joint t (hty t htm), ?_⟩
      intro row hrow
      obtain ⟨k, hkl, rfl⟩ := List.getElem_of_mem hrow
      have e := normalised_links_getElem? E.toEnv hc.links_len k
      rw [List.getElem?_eq_getElem hkl] at e
      cases hk : l[k]? with
      | none =>
        have : (morphRaw E s P r X l).links[k]? = none := by simp [morphRaw, hk]
        rw [this] at e
        cases e
      | some i =>
        have : (morphRaw E s P r X l).links[k]? = some (newRow E s P X i (rowD s i)) := by
          simp [morphRaw, hk]
        rw [this] at e
        rw [Option.some.inj e]
        exact offset_unit hr hrev hX ((hmem i).1 (List.mem_of_getElem? hk))
    globals := rfl
    worldGeoms := by
      unfold worldGeoms
      show List.map _ (List.filter _ ((morphRaw E s P r X l).geoms.mergeSort _)) = _
      rw [filter_mergeSort]
      simp only [morphRaw]
      rw [List.filter_map, List.filter_map, List.map_map, List.map_map]
      have : ∀ g ∈ s.geoms, (((fun g : Geometry α => decide (g.link_idx = -1)) ∘ renumGeom l) ∘
          movedGeom s.link_parents P X) g = decide (g.link_idx = -1) := by
        intro g hg
        simp only [Function.comp]
        rw [decide_eq_decide]
        unfold renumGeom
        rw [movedGeom_idx]
        by_cases e : g.link_idx = -1
        · rw [if_pos e, movedGeom_idx]
        · rw [if_neg e]
          constructor
          · intro h
            have h : ((l.idxOf g.link_idx.toNat : Nat) : Int) = -1 := h
            omega
          · intro h; exact absurd h e
      rw [List.filter_congr this]
      apply List.map_congr_left
      intro g hg
      have hgi : g.link_idx = -1 := by simpa using (List.mem_filter.1 hg).2
      simp only [Function.comp]
      unfold movedGeom
      rw [if_neg (by omega)]
      unfold renumGeom
      rw [if_pos hgi]
    renumbered := hren
    names := by
      intro k i hk
      have hi : i < s.link_names.length := by
        rw [h.names_len]; exact (hmem i).1 (List.mem_of_getElem? hk)
      show (morphRaw E s P r X l).link_names[k]? = _
      simp only [morphRaw, List.getElem?_map, hk, Option.map_some]
      exact (getD_some hi "").symm
    links := fun k i hk => morphRaw_view h hr hrev hroot ht hX hmem hnd hk }

/-! ## motion -/

/-- the offset of a link that is not attached to the world, up to the old frame of its new parent -/
theorem offset_shift (hrev : Reversal s.link_parents P) {i m : Nat} (hi : i < s.link_parents.length)
    (hm : P.getD i 0 = m) :
    offset s.link_parents P X (T1 s) i =
      if Moved s.link_parents P i then shift s P m else transform_mul (T1 s i) (shift s P m) := by
  have hmt : (P.getD i 0).toNat = m := by omega
  unfold offset
  rw [if_neg (by omega), hmt]
  by_cases hmv : Moved s.link_parents P i
  · obtain ⟨c, hc, hc1, hc2⟩ := hrev.moved hi hmv
    obtain rfl : c = m := by omega
    rw [if_neg hmv.1, if_pos hmv]
    unfold shift
    by_cases e : P.getD c 0 = -1
    · rw [if_pos e, if_neg (fun h => h.2 e)]
    · rw [if_neg e, if_pos (hrev.moved_parent hi hc hc1 hc2 e)]
  · have e : P.getD i 0 = s.link_parents.getD i 0 := by
      by_contra e
      exact hmv ⟨e, by omega⟩
    rw [if_pos e, if_neg hmv]
    unfold shift
    by_cases h2 : Moved s.link_parents P m
    · rw [if_pos h2, if_pos h2]
    · rw [if_neg h2, if_neg h2, transform_mul_zero]

theorem T1_row (h : s.WF E.toEnv) {i : Nat} (hi : i < s.link_parents.length) :
    ∃ row, s.links[i]? = some row ∧ T1 s i = row.transform1 := by
  have hl : i < s.links.length := by rw [h.links_len]; exact hi
  refine ⟨s.links[i], List.getElem?_eq_getElem hl, ?_⟩
  unfold T1
  rw [List.getElem?_eq_getElem hl]
  rfl

theorem isFK_pose (h : s.WF E.toEnv) (hj : s.Jointed E) {q : List α} {xs : List (Transform α)} {s1 : System α π}
    (hx : s.IsFK E q xs s1) {i : Nat} (hi : i < s.link_parents.length) {J : Transform α}
    (hJ : s.IsJointTransform E q i J) :
    xs.getD i .zero = transform_mul J (transform_mul (T1 s i)
      (poseAt xs (s.link_parents.getD i 0))) := by
  obtain ⟨row, h1, h2⟩ := T1_row h hi
  obtain ⟨T, h3, h4, -⟩ := hx.pose i hi row h1
  have e := ((isJointTransform_iff h hj hi q _).1 h3).trans ((isJointTransform_iff h hj hi q _).1 hJ).symm
  rw [getD_of_some h4, e, h2, transform_mul_assoc']
  congr 3
  rw [List.getD, List.getElem?_eq_getElem hi, Option.getD_some]

theorem Morphed.T1 {s' : System α π} (hM : Morphed E s P r X l s') {k i : Nat} (hk : l[k]? = some i) :
    T1 s' k = offset s.link_parents P X (T1 s) i := by
  obtain ⟨v, w, v', h1, h2, h3, -, -, -, -, -, -, -, -, -, h4, -⟩ := hM.links k i hk
  unfold viewAt at h3
  obtain ⟨p, hp, h3⟩ := Option.bind_eq_some_iff.1 h3
  obtain ⟨t, ht, h3⟩ := Option.bind_eq_some_iff.1 h3
  obtain ⟨row, hrow, h3⟩ := Option.bind_eq_some_iff.1 h3
  obtain ⟨o, ho, h3⟩ := Option.bind_eq_some_iff.1 h3
  have e := Option.some.inj h3
  rw [← h4, ← e]
  show ((s'.links[k]?).map LinkRow.transform1).getD .zero = row.transform1
  rw [hrow]
  rfl

/-- C72 (motion): the morphed system can move as the given one. Let the system be at `q` and the morphed
system at `q'`, where every joint of the morphed system does what its original does, joints between
links whose connection is reversed do the inverse, and links attached to the world have the right
pose. Then every link is where it was; `shift` accounts for the frames that were moved. -/
theorem C72_motion (h : s.WF E.toEnv) (hj : s.Jointed E) (hr : Resting E s)
    (hrev : Reversal s.link_parents P) {s' : System α π} (hM : Morphed E s P r X l s')
    {q q' : List α} {xs ys : List (Transform α)} {s1 s1' : System α π}
    (hx : s.IsFK E q xs s1) (hy : s'.IsFK E q' ys s1') {J J' : Nat → Transform α}
    (hJ : ∀ i < s.link_parents.length, s.IsJointTransform E q i (J i) ∧ (J i).rot.normSq = 1)
    (hJ' : ∀ k < s.link_parents.length, s'.IsJointTransform E q' k (J' k))
    (hroot : ∀ k i : Nat, l[k]? = some i → P.getD i 0 = -1 → ys[k]? = xs[i]?)
    (hsame : ∀ k i : Nat, l[k]? = some i → P.getD i 0 ≠ -1 → ¬ Moved s.link_parents P i → J' k = J i)
    (hinv : ∀ k i : Nat, l[k]? = some i → Moved s.link_parents P i →
      J' k = transform_inv (J (P.getD i 0).toNat))
    {k i : Nat} (hk : l[k]? = some i) :
    transform_mul (shift s P i) (ys.getD k .zero) = xs.getD i .zero := by
  have hlen : P.length = s.link_parents.length := hrev.len
  have hlt : ∀ {k i : Nat}, l[k]? = some i → i < s.link_parents.length := by
    intro k i hk
    have := hM.renumbered.bijection.mem_iff.1 (List.mem_of_getElem? hk)
    rw [List.mem_range] at this
    omega
  have hll : l.length = s.link_parents.length := by
    rw [hM.renumbered.bijection.length_eq, List.length_range, hlen]
  have hlp : s'.link_parents.length = s.link_parents.length := hM.renumbered.len.trans hlen
  have hi := hlt hk
  obtain ⟨L, hL⟩ := forest_iff.1 hrev.forest i (by omega)
  induction L generalizing k i with
  | zero => cases hL
  | succ L ih =>
    obtain ⟨p, hp, hLp⟩ : ∃ p, P[i]? = some p ∧ Level P L p := by
      generalize hz : (i : Int) = z at hL
      cases hL with
      | link h1 h2 =>
        obtain rfl : i = _ := Int.ofNat.inj hz
        exact ⟨_, h1, h2⟩
    have hpD := getD_of_some hp 0
    have hkn : k < s'.link_parents.length := by
      have := (List.getElem?_eq_some_iff.1 hk).1
      omega
    by_cases hw : p = -1
    · subst hw
      unfold shift
      rw [if_neg (fun hm => hm.2 hpD), transform_zero_mul, List.getD, List.getD, hroot k i hk hpD]
    · have hpr := hrev.rangeP hi
      obtain ⟨m, rfl⟩ : ∃ m : Nat, p = m := ⟨p.toNat, by omega⟩
      obtain ⟨m', hm1, hm2⟩ := hM.renumbered.parent k i m hk hp
      have hpi := ih hm2 (hlt hm2) hLp
      have hpose : poseAt ys (s'.link_parents.getD k 0) = ys.getD m' .zero := by
        rw [getD_of_some hm1, poseAt, if_neg (by omega), Int.toNat_natCast]
      have hyk := isFK_pose hM.wf hM.jointed hy hkn (hJ' k (by omega))
      rw [hpose, hM.T1 hk, offset_shift hrev hi hpD] at hyk
      by_cases hmv : Moved s.link_parents P i
      · obtain ⟨c, hc, hc1, hc2⟩ := hrev.moved hi hmv
        obtain rfl : c = m := by omega
        have hxc := isFK_pose h hj hx hc (hJ c hc).1
        have hpx : poseAt xs (s.link_parents.getD c 0) = xs.getD i .zero := by
          rw [hc2, poseAt, if_neg (by omega), Int.toNat_natCast]
        have ec : (P.getD i 0).toNat = c := by omega
        rw [hyk, if_pos hmv, hpi, hinv k i hk hmv, hxc, hpx, ec, ← transform_mul_assoc' (transform_inv (J c)),
          transform_inv_mul (hJ c hc).2, transform_zero_mul]
        unfold shift
        rw [if_pos hmv, ec, ← transform_mul_assoc', transform_inv_mul (T1_unit hr c), transform_zero_mul]
      · have e : P.getD i 0 = s.link_parents.getD i 0 := by
          by_contra e
          exact hmv ⟨e, by omega⟩
        have hxi := isFK_pose h hj hx hi (hJ i hi).1
        have hpx : poseAt xs (s.link_parents.getD i 0) = xs.getD m .zero := by
          rw [← e, hpD, poseAt, if_neg (by omega), Int.toNat_natCast]
        rw [hpx] at hxi
        unfold shift
        rw [if_neg hmv, transform_zero_mul, hyk, if_neg hmv, hsame k i hk (by omega) hmv, hxi, ← hpi,
          transform_mul_assoc']

/-- C72 (geometries): a link that is where it was carries its geometries where they were -/
theorem C72_geoms {s' : System α π} (hM : Morphed E s P r X l s') {k i : Nat} (hk : l[k]? = some i)
    {x y : Transform α} (hxy : transform_mul (shift s P i) y = x) {v v' : LinkView α π}
    (hv : s.viewAt E.toEnv i = some v) (hv' : s'.viewAt E.toEnv k = some v') :
    v'.geoms.map (GeomData.shifted y) = v.geoms.map (GeomData.shifted x) := by
  obtain ⟨v1, w, v2, h1, -, h3, -, -, -, -, -, -, -, -, h4, -⟩ := hM.links k i hk
  rw [hv] at h1
  rw [hv'] at h3
  cases h1
  cases h3
  rw [h4, List.map_map]
  apply List.map_congr_left
  intro g _
  simp only [Function.comp, GeomData.shifted, ← hxy, transform_mul_assoc']

theorem firstRoot_zero (ht : Topological s.link_parents) (hn : 0 < s.link_parents.length) :
    FirstRoot s.link_parents 0 := by
  refine ⟨?_, fun i hi => absurd hi (Nat.not_lt_zero _)⟩
  have := ht 0 hn
  rw [List.getElem?_eq_getElem hn]
  congr 1
  omega

/-- C72: morphing succeeds for every way to reverse connections of a tree, and the result is the morphed
system. (The first link of a well-formed system is attached to the world; `owner` hands its joint to the
links that are attached to the world in the new system.) -/
theorem C72_morph (h : s.WF E.toEnv) (hj : s.Jointed E) (hr : Resting E s)
    (ht : ∀ a b, E.ge a b = true ∨ E.ge b a = true) (hn : 0 < s.link_parents.length)
    {new_parents : List (Int ⊕ String)}
    (hres : new_parents.mapM (resolveParent s) = .ok P) (hrev : Reversal s.link_parents P) :
    ∃ X perm s', morph_system E s (.new_parents new_parents) = .ok s' ∧ RestPoses s X ∧
      Morphed E s P 0 X perm s' := by
  have hroot := firstRoot_zero h.topo hn
  obtain ⟨X, l, hX, hmem, hnd, hren, he⟩ := morph_eq h hj hr (arg := .new_parents new_parents) rfl hres hrev hroot
  exact ⟨X, l, _, he.trans (parse_ok (morphRaw_consistent h hrev hroot ht hmem hnd)), hX,
    morphed h hj hr hrev hroot ht hX hmem hnd hren⟩

theorem Rerooted.reversal {lam R : List Int} {a : Nat} (ht : Topological lam) (hR : Rerooted lam a R) :
    Reversal lam R := by
  refine ⟨hR.len, ht, hR.tree.forest, ?_⟩
  intro i p hi hne
  rcases (hR.adjacent i p).1 (Or.inl hi) with e | e
  · exact absurd e hne
  · exact e

theorem resolve_inl (s : System α π) (R : List Int) :
    (R.map Sum.inl).mapM (resolveParent s) = .ok R := by
  rw [List.mapM_map]
  exact (mapM_ok (g := fun i : Int => i) fun i _ => rfl).trans (by rw [List.map_id'])

/-- C72 (anchor): a system that is one tree can be held at every link, given by number or by name -/
theorem C72_anchor (h : s.WF E.toEnv) (hj : s.Jointed E) (hr : Resting E s)
    (ht : ∀ a b, E.ge a b = true ∨ E.ge b a = true) {root : Nat} (htree : Tree s.link_parents root)
    {a : Nat} (ha : a < s.link_parents.length) {anchor : Nat ⊕ String}
    (hanchor : anchor = .inl a ∨ ∃ name, anchor = .inr name ∧ s.link_names[a]? = some name) :
    ∃ R X perm s', morph_system E s (.new_anchor anchor) = .ok s' ∧ Rerooted s.link_parents a R ∧
      RestPoses s X ∧ Morphed E s R 0 X perm s' := by
  obtain ⟨R, hR, hre⟩ := C07_reroot htree ha
  have hrev := hre.reversal h.topo
  have hroot := firstRoot_zero h.topo (by omega)
  have harg : parentsFor s (.new_anchor anchor) = .ok (R.map .inl) := by
    unfold parentsFor
    rcases hanchor with rfl | ⟨name, rfl, hname⟩
    · simp only [pure_ok, ok_bind, hR]
    · have : s.name_to_idx name = .ok a := name_to_idx_of_nodup h.names_nodup hname
      simp only [this, pure_ok, ok_bind, hR]
  obtain ⟨X, l, hX, hmem, hnd, hren, he⟩ := morph_eq h hj hr harg (resolve_inl s R) hrev hroot
  exact ⟨R, X, l, _, he.trans (parse_ok (morphRaw_consistent h hrev hroot ht hmem hnd)), hre, hX,
    morphed h hj hr hrev hroot ht hX hmem hnd hren⟩

/-- C72 (rest): in the states that `State.create` starts from all links are where they were -/
theorem C72_rest (h : s.WF E.toEnv) (hj : s.Jointed E) (hr : Resting E s)
    (hrev : Reversal s.link_parents P) {s' : System α π} (hX : RestPoses s X) (hM : Morphed E s P r X l s') :
    ∃ st st' xs ys s1 s1', State.create E s = .ok st ∧ State.create E s' = .ok st' ∧
      s.forward_kinematics_transforms E st.q = .ok (xs, s1) ∧
      s'.forward_kinematics_transforms E st'.q = .ok (ys, s1') ∧
      ∀ k i : Nat, l[k]? = some i →
        transform_mul (shift s P i) (ys.getD k .zero) = xs.getD i .zero := by
  obtain ⟨st, h1, h2, -, -, h5⟩ := C11_create h.toConsistent hr.quat
  obtain ⟨st', h1', h2', -, -, h5'⟩ := C11_create hM.wf.toConsistent hM.resting.quat
  obtain ⟨xs, s1, hf, hx⟩ := C22_forward h hj h2
  obtain ⟨ys, s1', hf', hy⟩ := C22_forward hM.wf hM.jointed h2'
  have hlp : s'.link_parents.length = s.link_parents.length := hM.renumbered.len.trans hrev.len
  have hll : l.length = s.link_parents.length := by
    rw [hM.renumbered.bijection.length_eq, List.length_range, hrev.len]
  have hJ : ∀ i < s.link_parents.length, s.IsJointTransform E st.q i .zero := fun i hi =>
    (isJointTransform_iff h hj hi _ _).2 (jointT_rest h hj hr h5 hi).symm
  have hJ' : ∀ i < s.link_parents.length, s'.IsJointTransform E st'.q i .zero := fun i hi =>
    (isJointTransform_iff hM.wf hM.jointed (by omega) _ _).2
      (jointT_rest hM.wf hM.jointed hM.resting h5' (by omega)).symm
  have hxX : ∀ i < s.link_parents.length, xs.getD i .zero = X i := by
    intro i
    induction i using Nat.strong_induction_on with
    | _ i ih =>
      intro hi
      have e := isFK_pose h hj hx hi (hJ i hi)
      rw [e, hX.parent hi, transform_zero_mul]
      congr 1
      have := hrev.rangeL hi
      unfold poseAt parentVal
      by_cases h0 : 0 ≤ s.link_parents.getD i 0
      · rw [if_neg (by omega), if_pos h0]
        exact ih _ (by omega) (by omega)
      · rw [if_pos (by omega), if_neg h0]
  refine ⟨st, st', xs, ys, s1, s1', h1, h1', hf, hf', fun k i hk => ?_⟩
  refine C72_motion h hj hr hrev hM hx hy (J := fun _ => .zero) (J' := fun _ => .zero)
    (fun i hi => ⟨hJ i hi, transform_zero_unit⟩) hJ' ?_ (fun _ _ _ _ _ => rfl)
    (fun _ _ _ _ => transform_inv_zero.symm) hk
  intro k i hk hP
  have hkn := (List.getElem?_eq_some_iff.1 hk).1
  have hi : i < s.link_parents.length := by
    have := hM.renumbered.bijection.mem_iff.1 (List.mem_of_getElem? hk)
    rw [List.mem_range, hrev.len] at this
    exact this
  have hw := hM.renumbered.world k i hk (by rw [getD_some (by rw [hrev.len]; exact hi) 0, hP])
  have e := isFK_pose hM.wf hM.jointed hy (i := k) (by omega) (hJ' k (by omega))
  rw [getD_of_some hw, hM.T1 hk, transform_zero_mul, show poseAt ys (-1) = .zero from rfl,
    transform_mul_zero] at e
  unfold offset at e
  rw [if_pos hP, ← hX.parent hi, ← hxX i hi] at e
  rw [getD_some (by rw [hy.len]; omega) .zero, getD_some (l := xs) (by rw [hx.len]; exact hi) .zero, e]

/-- C72 (joints): when one link is attached to the world in the new system then every joint is taken
over by exactly one link. -/
theorem C72_joints (hrev : Reversal s.link_parents P) {a : Nat} (htree : Tree P a) :
    ∀ j < s.link_parents.length, ∃ i, (i < s.link_parents.length ∧ owner s.link_parents P 0 i = j) ∧
      ∀ i', i' < s.link_parents.length → owner s.link_parents P 0 i' = j → i' = i := by
  have hroot : ∀ i < s.link_parents.length, P.getD i 0 = -1 → i = a := by
    intro i hi e
    exact (htree.root i).1 (by rw [getD_some (by rw [hrev.len]; exact hi) 0, e])
  have hl0 : ∀ i < s.link_parents.length, s.link_parents.getD 0 0 = -1 := by
    intro i hi
    have := hrev.rangeL (i := 0) (by omega)
    omega
  have key : ∀ i < s.link_parents.length, ∀ j < s.link_parents.length, P.getD i 0 ≠ -1 →
      P.getD i 0 ≠ s.link_parents.getD i 0 →
      owner s.link_parents P 0 j = (P.getD i 0).toNat → j = i := by
    intro i hi j hj h1 h2 ho
    obtain ⟨c, hc, hc1, hc2⟩ := hrev.moved hi ⟨h2, h1⟩
    have ec : (P.getD i 0).toNat = c := by omega
    rw [ec] at ho
    unfold owner at ho
    split at ho
    · have := hl0 i hi
      subst ho
      omega
    · rename_i h3
      split at ho
      · rename_i h4
        obtain ⟨c', hc', hc1', hc2'⟩ := hrev.moved hj ⟨h4, h3⟩
        have : c' = c := by omega
        subst this
        omega
      · rename_i h4
        subst ho
        exact absurd (hrev.moved_parent hi hc hc1 hc2 h3).1 (by simpa using h4)
  have hinj : ∀ i < s.link_parents.length, ∀ j < s.link_parents.length,
      owner s.link_parents P 0 i = owner s.link_parents P 0 j → i = j := by
    intro i hi j hj ho
    by_cases hi1 : P.getD i 0 = -1
    · by_cases hj1 : P.getD j 0 = -1
      · rw [hroot i hi hi1, hroot j hj hj1]
      · by_cases hj2 : P.getD j 0 = s.link_parents.getD j 0
        · unfold owner at ho
          rw [if_pos hi1, if_neg hj1, if_neg (by simpa using hj2)] at ho
          subst ho
          exact absurd (hj2.trans (hl0 i hi)) hj1
        · exact key j hj i hi hj1 hj2 (ho.trans (by unfold owner; rw [if_neg hj1, if_pos hj2]))
    · by_cases hi2 : P.getD i 0 = s.link_parents.getD i 0
      · by_cases hj1 : P.getD j 0 = -1
        · unfold owner at ho
          rw [if_pos hj1, if_neg hi1, if_neg (by simpa using hi2)] at ho
          subst ho
          exact absurd (hi2.trans (hl0 j hj)) hi1
        · by_cases hj2 : P.getD j 0 = s.link_parents.getD j 0
          · unfold owner at ho
            rw [if_neg hj1, if_neg hi1, if_neg (by simpa using hi2), if_neg (by simpa using hj2)] at ho
            exact ho
          · exact key j hj i hi hj1 hj2 (ho.trans (by unfold owner; rw [if_neg hj1, if_pos hj2]))
      · exact (key i hi j hj hi1 hi2
          (ho.symm.trans (by unfold owner; rw [if_neg hi1, if_pos hi2]))).symm
  intro j hj
  let f : Fin s.link_parents.length → Fin s.link_parents.length := fun i =>
    ⟨owner s.link_parents P 0 i, owner_lt hrev (by omega) i.2⟩
  have hf : Function.Injective f := fun x y hxy => Fin.ext (hinj x x.2 y y.2 (Fin.mk.inj hxy))
  obtain ⟨i, hi⟩ := Finite.surjective_of_injective hf ⟨j, hj⟩
  have e : owner s.link_parents P 0 i = j := Fin.mk.inj hi
  exact ⟨i, ⟨i.2, e⟩, fun i' hi' e' => hinj i' hi' i i.2 (e'.trans e.symm)⟩

/-- C72 (refusal): a list of parents of the wrong length, one that is not a forest, or one that does more than
reverse connections is refused -/
theorem C72_refuses {new_parents : List (Int ⊕ String)}
    (hres : new_parents.mapM (resolveParent s) = .ok P)
    (hbad : new_parents.length ≠ s.link_parents.length ∨ ¬ Forest P ∨ ¬ OnlyReversed s.link_parents P)
    (s' : System α π) : morph_system E s (.new_parents new_parents) ≠ .ok s' := by
  intro hm
  unfold morph_system at hm
  obtain ⟨n, hn, hm⟩ := ml.bind_ok_iff.1 hm
  cases hn
  obtain ⟨u, hu, hm⟩ := ml.bind_ok_iff.1 hm
  obtain ⟨x, hx, hm⟩ := ml.bind_ok_iff.1 hm
  by_cases hlen : new_parents.length = s.link_parents.length
  · by_cases hf : Forest P
    · have hor := (hbad.resolve_left (fun h => h hlen)).resolve_left (fun h => h hf)
      unfold OnlyReversed at hor
      push Not at hor
      obtain ⟨i, p, h1, h2, h3⟩ := hor
      have hPl : P.length = s.num_links := (mapM_length hres).trans hlen
      exact C06_checks hres hf hPl h1 h2 h3 _ hx
    · rw [C06_cycle s true hres hf] at hx
      cases hx
  · rw [pyAssert_false (show ¬ new_parents.length = s.num_links from hlen)] at hu
    cases hu

end
end morph
end RingLib
