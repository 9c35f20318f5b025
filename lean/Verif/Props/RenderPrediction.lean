import Verif.Model.RenderPrediction
import Verif.Props.Pipeline
import Verif.Props.Inject

/-!
# C95: a prediction drawn beside the truth

The truth is drawn where it is; the predicted body hangs together by the predicted rotations and the true lengths.
-/

namespace RingLib.rendering
open System algebra maths sensors generator
variable {π : Type}

/-! ## Specification -/

/-- the pose of the link that is called `n` -/
def poseNamed (s : System ℝ π) (xs : List (Transform ℝ)) (n : String) : Option (Transform ℝ) :=
  (s.link_names.idxOf? n).bind fun i => xs[i]?

/-- moved by `o` -/
def movedBy (o : Vec3 ℝ) (t : Transform ℝ) : Transform ℝ := ⟨t.pos + o, t.rot⟩

/-- the links of the predicted body: no IMU, and not below one -/
def IsSegment (s : System ℝ π) (n : String) : Prop := n ∈ s.link_names ∧ ¬ BelowImu s n

/-- no link is already called like a link of the predicted body -/
def HatsFree (s : System ℝ π) : Prop := ∀ n, IsSegment s n → "hat_" ++ n ∉ s.link_names

/-- a geometry in the colour of the prediction, a light blue: 78, 163, 243 of 255, opaque -/
def inHatColor (g : GeomData ℝ) : GeomData ℝ :=
  { g with color := some "(0.3058823529411765, 0.6392156862745098, 0.9529411764705882, 1.0)" }

/-- what is drawn: `tru` are the poses of the truth, `draw` those of the drawing, `yhat` the prediction -/
structure Drawn (s : System ℝ π) (tru draw : String → Option (Transform ℝ)) (yhat : String → Option (Quat ℝ))
    (offset_truth offset_pred : Vec3 ℝ) : Prop where
  /-- every link of the truth, moved -/
  truth : ∀ n ∈ s.link_names, ∃ x, tru n = some x ∧ draw n = some (movedBy offset_truth x)
  /-- a root is where it truly is, moved, and rotated as predicted -/
  root : ∀ n, IsSegment s n → IsRoot s n → ∃ x q, tru n = some x ∧ yhat n = some q ∧
    draw ("hat_" ++ n) = some (movedBy offset_pred ⟨x.pos, q⟩)
  /-- the other links: as seen from its parent, a link is where it truly is, and rotated as predicted -/
  child : ∀ n m, IsSegment s n → IsParent s n m → ∃ x xp q h hp, tru n = some x ∧ tru m = some xp ∧
    yhat n = some q ∧ draw ("hat_" ++ n) = some h ∧ draw ("hat_" ++ m) = some hp ∧
    h.rot = quat_mul (quat_inv q) hp.rot ∧
    h.pos = hp.pos + rotate (rotate (x.pos - xp.pos) xp.rot) (quat_inv hp.rot)

/-! ## Proofs -/

theorem hat_injective {a b : String} (h : "hat_" ++ a = "hat_" ++ b) : a = b := by
  have := congrArg String.toList h
  simp only [String.toList_append, List.append_cancel_left_eq] at this
  exact String.toList_inj.1 this

theorem hatNames_nodup {l : List String} (h : l.Nodup) : (l.map fun n => "hat_" ++ n).Nodup :=
  h.map fun _ _ e => hat_injective e

theorem keepGeom_ok (s : System ℝ π) (tr : Bool) {i : Int} (h : -1 ≤ i ∧ i < s.link_parents.length)
    (hne : s.link_parents ≠ []) : ∃ b, keepGeom s tr i = .ok b ∧
      ∀ k : Nat, i = k → b = decide (tr = true → s.link_parents[k]? ≠ some (-1)) := by
  unfold keepGeom
  cases tr with
  | false => exact ⟨true, rfl, fun k _ => by simp⟩
  | true =>
    have hlen : 0 < s.link_parents.length := List.length_pos_iff.2 hne
    simp only [if_true]
    by_cases h0 : i < 0
    · obtain rfl : i = -1 := by omega
      have : ∃ p, pyGet s.link_parents (-1) = .ok p := by
        unfold pyGet
        simp only [show ((-1 : Int) < 0) from by omega, if_true]
        rw [if_neg (by omega)]
        have : (-1 + (s.link_parents.length : Int)).toNat < s.link_parents.length := by omega
        rw [List.getElem?_eq_getElem this]
        exact ⟨_, rfl⟩
      obtain ⟨p, hp⟩ := this
      rw [hp]
      exact ⟨_, rfl, fun k hk => by omega⟩
    · obtain ⟨k, rfl⟩ : ∃ k : Nat, i = k := ⟨i.toNat, by omega⟩
      have hk : k < s.link_parents.length := by omega
      rw [pyGet_nat (List.getElem?_eq_getElem hk)]
      refine ⟨_, rfl, fun k' hk' => ?_⟩
      obtain rfl : k' = k := by omega
      simp [List.getElem?_eq_getElem hk]

theorem keptGeoms_ok (s : System ℝ π) (tr : Bool) (c : String) (hne : s.link_parents ≠ []) :
    ∀ gs : List (Geometry ℝ), (∀ g ∈ gs, -1 ≤ g.link_idx ∧ g.link_idx < s.link_parents.length) →
      ∃ f : Int → Bool, (∀ k : Nat, k < s.link_parents.length →
          f k = decide (tr = true → s.link_parents[k]? ≠ some (-1))) ∧
        (∀ i : Int, -1 ≤ i → i < s.link_parents.length → keepGeom s tr i = .ok (f i)) ∧
        keptGeoms s tr c gs = .ok ((gs.filter fun g => f g.link_idx).map fun g => { g with color := some c }) := by
  intro gs hgs
  refine ⟨fun i => match keepGeom s tr i with | .ok b => b | .error _ => false, ?_, ?_, ?_⟩
  · intro k hk
    obtain ⟨b, hb, hb'⟩ := keepGeom_ok s tr (i := k) ⟨by omega, by omega⟩ hne
    simp only [hb]
    exact hb' k rfl
  · intro i h1 h2
    obtain ⟨b, hb, -⟩ := keepGeom_ok s tr ⟨h1, h2⟩ hne
    simp only [hb]
  · induction gs with
    | nil => rfl
    | cons g gs ih =>
      obtain ⟨b, hb, -⟩ := keepGeom_ok s tr (hgs g (by simp)) hne
      unfold keptGeoms
      rw [hb, ok_bind, ih (fun g hg => hgs g (by simp [hg])), ok_bind]
      simp only [List.filter_cons, hb]
      cases b <;> rfl

/-- the guest: recoloured, renamed -/
def hatSys (s : System ℝ π) (f : Int → Bool) : System ℝ π :=
  { s with
    geoms := (s.geoms.filter fun g => f g.link_idx).map fun g => { g with color := some prediction_color }
    link_names := s.link_names.map fun n => "hat_" ++ n }

theorem hatSys_consistent {E : Env ℝ π} {s : System ℝ π} (h : s.Consistent E) (f : Int → Bool) :
    (hatSys s f).Consistent E :=
  { h with
    names_len := by simp [hatSys, h.names_len]
    names_nodup := hatNames_nodup h.names_nodup
    geoms_ok := by
      intro g hg
      obtain ⟨g', hg', rfl⟩ := List.mem_map.1 hg
      exact h.geoms_ok g' (List.mem_filter.1 hg').1 }

theorem hatSys_wf {E : Env ℝ π} {s : System ℝ π} (h : s.WF E) (f : Int → Bool) :
    ((hatSys s f).normalised E).WF E :=
  normalised_wf (hatSys_consistent h.toConsistent f) h.topo h.jp_keys h.jp_len

theorem hatSys_sorted {E : Env ℝ π} {s : System ℝ π} (h : s.WF E) (f : Int → Bool) :
    ((hatSys s f).normalised E).geoms = (hatSys s f).geoms := by
  show List.mergeSort _ _ = _
  apply mergeSort_of_sorted
  show List.Pairwise _ (List.map _ _)
  rw [List.pairwise_map]
  exact h.geoms_sorted.filter _

theorem sys_eq {a b : System ℝ π} (hl : a.links = b.links) (hg : a.geoms = b.geoms)
    (h : { a with links := b.links, geoms := b.geoms } = b) : a = b := by
  rw [← h, ← hl, ← hg]

theorem injectRaw_normalised {E : Env ℝ π} {s t : System ℝ π} (hs : s.Consistent E) (ht : t.Consistent E)
    (hg : (t.normalised E).geoms = t.geoms) (w : Int) :
    (s.injectRaw E (t.normalised E) w).normalised E = (s.injectRaw E t w).normalised E := by
  have hgeo : (s.injectRaw E (t.normalised E) w).geoms = (s.injectRaw E t w).geoms := by
    simp only [injectRaw, hg]
  have hlen : ∀ u : System ℝ π, u.links.length = u.link_parents.length →
      (s.injectRaw E u w).links.length = (s.injectRaw E u w).link_parents.length := by
    intro u hu
    simp [injectRaw, hs.links_len, hu]
  have hl : ((s.injectRaw E (t.normalised E) w).normalised E).links = ((s.injectRaw E t w).normalised E).links := by
    apply List.ext_getElem?
    intro i
    rw [normalised_links_getElem? E (hlen _ (normalised_consistent ht).links_len),
      normalised_links_getElem? E (hlen _ ht.links_len), hgeo]
    show Option.map _ (s.links ++ (t.normalised E).links)[i]? = Option.map _ (s.links ++ t.links)[i]?
    by_cases h : i < s.links.length
    · rw [List.getElem?_append_left h, List.getElem?_append_left h]
    · rw [List.getElem?_append_right (by omega), List.getElem?_append_right (by omega),
        normalised_links_getElem? E ht.links_len]
      cases t.links[i - s.links.length]? <;> rfl
  apply sys_eq hl
  · show List.mergeSort _ _ = List.mergeSort _ _
    rw [hgeo]
  · rfl

/-- the inertias of the guest do not matter -/
theorem inject_normalised {E : Env ℝ π} {s t : System ℝ π} (hs : s.Consistent E) (ht : t.Consistent E)
    (hd : ∀ m ∈ s.link_names, m ∉ t.link_names) (hg : (t.normalised E).geoms = t.geoms) :
    inject_system E s t none = inject_system E s (t.normalised E) none := by
  rw [inject_none_eq, inject_none_eq, parse_ok (injectRaw_consistent hs ht hd ⟨by omega, by omega⟩),
    parse_ok (injectRaw_consistent hs (normalised_consistent ht) hd ⟨by omega, by omega⟩),
    injectRaw_normalised hs ht hg]

/-- the first link is no IMU and not below one -/
theorem segments_nonempty {E : Env ℝ π} {s s' : System ℝ π} (h : s.WF E) (hi : ImusOnLinks s) (h0 : s.link_names ≠ [])
    (hr : s.Removed E (BelowImu s) s') : s'.link_parents ≠ [] := by
  obtain ⟨n, l, hl⟩ := List.exists_cons_of_ne_nil h0
  have hn0 : s.link_names[0]? = some n := by rw [hl]; rfl
  have : n ∈ s'.link_names := by
    rw [hr.mem]
    refine ⟨List.mem_of_getElem? hn0, ?_⟩
    rintro ⟨x, hx, k, j, hk, hj, hd⟩
    obtain ⟨m, a, b, ha, hb, -⟩ := hi.parent x (List.mem_of_getElem? hk) hx
    have ej := uniqueIdx h.names_nodup hj hn0
    subst ej
    have ek := uniqueIdx h.names_nodup ha hk
    subst ek
    have := hd.le h.topo
    obtain rfl : a = 0 := by omega
    obtain ⟨hlt, e⟩ := List.getElem?_eq_some_iff.1 hb
    have := (h.topo 0 hlt).2
    omega
  intro he
  have hlen := hr.wf.names_len
  rw [he] at hlen
  have := List.length_pos_of_mem this
  simp only [List.length_nil] at hlen
  omega

theorem viewAt_hatSys {E : Env ℝ π} {s : System ℝ π} (f : Int → Bool) (i : Nat) :
    (hatSys s f).viewAt E i = (s.viewAt E i).map fun v => { v with
      parent := v.parent.map fun n => "hat_" ++ n
      geoms := if f i then v.geoms.map inHatColor else [] } := by
  unfold viewAt hatSys
  simp only
  cases h1 : s.link_parents[i]? with
  | none => rfl
  | some p =>
    cases h2 : s.link_types[i]? with
    | none => rfl
    | some ty =>
      cases h3 : s.links[i]? with
      | none => rfl
      | some r =>
        cases h4 : s.omc[i]? with
        | none => rfl
        | some o =>
          simp only [Option.bind_eq_bind, Option.bind_some, Option.pure_def, Option.map_some, Option.some.injEq,
            LinkView.mk.injEq, true_and]
          constructor
          · unfold nameAt
            split
            · rfl
            · rw [List.getElem?_map]
          · rw [List.filter_map, List.filter_filter]
            by_cases hf : f i = true
            · rw [if_pos hf, List.map_map, List.map_map]
              have : (s.geoms.filter fun g => ((fun g : Geometry ℝ => decide (g.link_idx = (i : Int))) ∘
                  fun g => { g with color := some prediction_color }) g && f g.link_idx) =
                  s.geoms.filter fun g => decide (g.link_idx = (i : Int)) := by
                apply List.filter_congr
                intro g _
                by_cases hg : g.link_idx = (i : Int)
                · simp [hg, hf]
                · simp [hg]
              rw [this]
              rfl
            · rw [if_neg hf]
              have : (s.geoms.filter fun g => ((fun g : Geometry ℝ => decide (g.link_idx = (i : Int))) ∘
                  fun g => { g with color := some prediction_color }) g && f g.link_idx) = [] := by
                rw [List.filter_eq_nil_iff]
                intro g _
                by_cases hg : g.link_idx = (i : Int)
                · simp [hg, hf]
                · simp [hg]
              rw [this]
              rfl

theorem viewAt_parent {E : Env ℝ π} {s : System ℝ π} {i : Nat} {v : LinkView ℝ π} (h : s.viewAt E i = some v) :
    ∃ p, s.link_parents[i]? = some p ∧ v.parent = s.nameAt p := by
  unfold viewAt at h
  cases h1 : s.link_parents[i]? with
  | none => rw [h1] at h; cases h
  | some p =>
    cases h2 : s.link_types[i]? with
    | none => rw [h1, h2] at h; cases h
    | some ty =>
      cases h3 : s.links[i]? with
      | none => rw [h1, h2, h3] at h; cases h
      | some r =>
        cases h4 : s.omc[i]? with
        | none => rw [h1, h2, h3, h4] at h; cases h
        | some o =>
          rw [h1, h2, h3, h4] at h
          cases h
          exact ⟨p, rfl, rfl⟩

theorem parent_none_iff {E : Env ℝ π} {s : System ℝ π} (h : s.WF E) {i : Nat} {v : LinkView ℝ π}
    (hv : s.viewAt E i = some v) : v.parent = none ↔ s.link_parents[i]? = some (-1) := by
  obtain ⟨p, hp, e⟩ := viewAt_parent hv
  obtain ⟨hi, hp'⟩ := List.getElem?_eq_some_iff.1 hp
  have := h.topo i hi
  rw [e, hp]
  unfold nameAt
  split
  · simp only [true_iff, Option.some.injEq]; omega
  · have hlt : p.toNat < s.link_names.length := by rw [h.names_len]; omega
    rw [List.getElem?_eq_getElem hlt]
    simp only [reduceCtorEq, false_iff, Option.some.injEq]
    omega

/-- what `_sys_render` does, in terms of the segments -/
theorem sys_render_ok {E : Env ℝ π} {s s' : System ℝ π} (h : s.WF E) (hi : ImusOnLinks s) (h0 : s.link_names ≠ [])
    (hf : HatsFree s) (tr : Bool) {a : List (String × String)} (hm : make_sys_noimu E s = .ok (s', a))
    (hr : s.Removed E (BelowImu s) s') :
    ∃ r, _sys_render E s tr = .ok r ∧ r.WF E ∧
      r.link_names = s.link_names ++ s'.link_names.map (fun n => "hat_" ++ n) ∧
      (∀ m ∈ s.link_names, ∃ v v', s.view E m = some v ∧ r.view E m = some v' ∧ v'.parent = v.parent ∧
        v'.geoms = v.geoms) ∧
      (∀ n ∈ s'.link_names, ∃ v v', s'.view E n = some v ∧ r.view E ("hat_" ++ n) = some v' ∧
        v'.parent = v.parent.map (fun m => "hat_" ++ m) ∧
        v'.geoms = if tr = true ∧ v.parent = none then [] else v.geoms.map inHatColor) ∧
      ∃ f : Int → Bool, keepGeom s' tr (-1) = .ok (f (-1)) ∧
        r.worldGeoms = s.worldGeoms ++ (if f (-1) then s'.worldGeoms.map inHatColor else []) := by
  have hne := segments_nonempty h hi h0 hr
  have hs0 : s.link_parents ≠ [] := by
    intro e
    have := h.names_len
    rw [e] at this
    exact h0 (List.length_eq_zero_iff.1 this)
  obtain ⟨f, hf1, hf2, hf3⟩ := keptGeoms_ok s' tr prediction_color hne s'.geoms hr.wf.geoms_ok
  have hd : ∀ m ∈ s.link_names, m ∉ (hatSys s' f).link_names := by
    intro m hm hm'
    obtain ⟨n, hn, rfl⟩ := List.mem_map.1 hm'
    exact hf n ((hr.mem n).1 hn) hm
  have hcons := hatSys_consistent hr.wf.toConsistent f
  have hwf := hatSys_wf hr.wf f
  have hgeo := hatSys_sorted hr.wf f
  have e1 : _sys_render E s tr = inject_system E s ((hatSys s' f).normalised E) none := by
    rw [← inject_normalised h.toConsistent hcons hd hgeo]
    unfold _sys_render _geoms_replace_color
    rw [hm, ok_bind]
    dsimp only
    rw [hf3]
    simp only [ok_bind, pure_ok]
    unfold add_prefix_suffix hatSys
    simp
  obtain ⟨r, e2, hrw, hnames, -, hhost, hguest, hworld⟩ := C04_inject h hwf hs0 hne hd (at_body := none) (by simp)
  refine ⟨r, by rw [e1, e2], hrw, hnames, ?_, ?_, f, hf2 _ (by omega) ?_, ?_⟩
  · intro m hm
    obtain ⟨v, it, hv, hv', -⟩ := hhost m hm
    exact ⟨v, _, hv, hv', rfl, by simp [landed]⟩
  · intro n hn
    obtain ⟨i, hil, e⟩ := List.getElem_of_mem hn
    have hin : s'.link_names[i]? = some n := by rw [List.getElem?_eq_getElem hil, e]
    have hip : i < s'.link_parents.length := hr.wf.names_len ▸ hil
    obtain ⟨v, hv⟩ := viewAt_isSome hr.wf.toConsistent hip
    obtain ⟨v1, hv1, hv1'⟩ := hguest ("hat_" ++ n) (List.mem_map.2 ⟨n, hn, rfl⟩)
    have hin' : ((hatSys s' f).normalised E).link_names[i]? = some ("hat_" ++ n) := by
      show (s'.link_names.map _)[i]? = _
      rw [List.getElem?_map, hin]; rfl
    rw [view_eq_viewAt hwf.toConsistent hin', normalised_viewAt hcons, viewAt_hatSys, hv] at hv1
    simp only [Option.map_some, Option.some.injEq] at hv1
    subst hv1
    refine ⟨v, _, by rw [view_eq_viewAt hr.wf.toConsistent hin, hv], hv1', ?_, ?_⟩
    · simp
    · simp only [hf1 i hip, parent_none_iff hr.wf hv]
      by_cases ht : tr = true <;> by_cases hp : s'.link_parents[i]? = some (-1) <;> simp [ht, hp]
  · have := List.length_pos_iff.2 hne
    omega
  · rw [hworld, if_pos rfl]
    congr 1
    unfold worldGeoms
    rw [hgeo]
    unfold hatSys
    simp only
    rw [List.filter_map, List.filter_filter]
    by_cases hf : f (-1) = true
    · rw [if_pos hf, List.map_map, List.map_map]
      have : (s'.geoms.filter fun g => ((fun g : Geometry ℝ => decide (g.link_idx = -1)) ∘
          fun g => { g with color := some prediction_color }) g && f g.link_idx) =
          s'.geoms.filter fun g => decide (g.link_idx = -1) := by
        apply List.filter_congr
        intro g _
        by_cases hg : g.link_idx = -1
        · simp [hg, hf]
        · simp [hg]
      rw [this]
      rfl
    · rw [if_neg hf]
      have : (s'.geoms.filter fun g => ((fun g : Geometry ℝ => decide (g.link_idx = -1)) ∘
          fun g => { g with color := some prediction_color }) g && f g.link_idx) = [] := by
        rw [List.filter_eq_nil_iff]
        intro g _
        by_cases hg : g.link_idx = -1
        · simp [hg, hf]
        · simp [hg]
      rw [this]
      rfl

theorem add_offset_eq (x : Transform ℝ) (o : Vec3 ℝ) : add_offset x o = movedBy o x := by
  unfold add_offset movedBy transform_mul
  obtain ⟨p, q⟩ := x
  congr 1
  · rw [quat_inv_unit, rotate_unit, add_comm]
  · exact mul_unit _

theorem offsets_ok {xs : List (Transform ℝ)} {n : Nat} (h : xs.length = n) (o : Vec3 ℝ) :
    offsets xs o n = .ok (xs.map (movedBy o)) := by
  unfold offsets
  rw [System.mapM_ok (g := fun i => movedBy o (xs.getD i .zero))]
  · congr 1
    apply List.ext_getElem (by simp [h])
    intro i h1 h2
    simp only [List.length_map] at h2
    simp [h2]
  · intro i hi
    rw [List.mem_range] at hi
    have hi' : i < xs.length := by omega
    rw [pyGet_nat (List.getElem?_eq_getElem hi'), ok_bind, add_offset_eq]
    simp [hi', pure_ok]

/-- the rotation of a predicted link relative to its parent -/
def hatRel (yhat : String → Option (Quat ℝ)) (n : String) (p : Int) : Quat ℝ :=
  if p = -1 then (yhat n).getD unitQuat else quat_inv ((yhat n).getD unitQuat)

theorem hatRots_ok {s : System ℝ π} {d : List (String × Quat ℝ)} (hd : ∀ n ∈ s.link_names, ∃ q, d.lookup n = some q) :
    (s.link_names.zip s.link_parents).mapM (hatRot d) =
      .ok ((s.link_names.zip s.link_parents).map fun x => (x.1, hatRel (fun n => d.lookup n) x.1 x.2)) := by
  apply System.mapM_ok
  intro x hx
  obtain ⟨q, hq⟩ := hd x.1 (List.of_mem_zip hx).1
  unfold hatRot pyDict hatRel
  simp only [hq, ok_bind, pure_ok, Option.getD_some]

theorem lookup_map_zip {β γ δ : Type} {names : List String} (hn : names.Nodup) {xs : List β}
    (hl : xs.length = names.length) (f : String → β → γ) {j : Nat} {n : String} {x : β} (hj : names[j]? = some n)
    (hx : xs[j]? = some x) : ((names.zip xs).map fun y => (y.1, f y.1 y.2)).lookup n = some (f n x) := by
  have e : ((names.zip xs).map fun y => (y.1, f y.1 y.2)) = names.zip (List.zipWith f names xs) := by
    apply List.ext_getElem
    · simp [hl]
    · intro i h1 h2
      simp
  rw [e, lookup_zip_names hn (by simp [hl]) hj, List.getElem?_zipWith, hj, hx]

/-- the rotations that are handed to `zip_xs` -/
def hatT2 (s : System ℝ π) (yhat : String → Option (Quat ℝ)) : List (Transform ℝ) :=
  (s.link_names.zip s.link_parents).map fun x => ⟨0, hatRel yhat x.1 x.2⟩

theorem hatTransforms_ok {E : Env ℝ π} {s : System ℝ π} (h : s.Consistent E) (yhat : String → Option (Quat ℝ))
    (t2 : List (Transform ℝ)) : s.link_names.zipIdx.mapM
      (hatTransform ((s.link_names.zip s.link_parents).map fun x => (x.1, hatRel yhat x.1 x.2)) t2) =
      .ok (hatT2 s yhat) := by
  have hnl := h.names_len
  rw [System.mapM_ok (g := fun x => ⟨0, hatRel yhat x.1 (s.link_parents.getD x.2 (-1))⟩)]
  · congr 1
    unfold hatT2
    apply List.ext_getElem (by simp [hnl])
    intro i h1 h2
    simp only [List.length_map, List.length_zip] at h2
    have : i < s.link_parents.length := by omega
    simp [this]
  · intro x hx
    obtain ⟨i, hi, e⟩ := List.getElem_of_mem hx
    simp only [List.length_zipIdx] at hi
    simp only [List.getElem_zipIdx, Nat.zero_add] at e
    subst e
    have hip : i < s.link_parents.length := by omega
    unfold hatTransform
    rw [lookup_map_zip (δ := Unit) h.names_nodup hnl.symm (hatRel yhat) (List.getElem?_eq_getElem hi)
      (List.getElem?_eq_getElem hip)]
    simp [hip, pure_ok]

theorem hatT2_getD {s : System ℝ π} {yhat : String → Option (Quat ℝ)} {i : Nat} {n : String} {p : Int}
    (hn : s.link_names[i]? = some n) (hp : s.link_parents[i]? = some p) :
    (hatT2 s yhat).getD i .zero = ⟨0, hatRel yhat n p⟩ := by
  unfold hatT2
  rw [List.getD_eq_getElem?_getD, List.getElem?_map, List.zip_eq_zipWith, List.getElem?_zipWith, hn, hp]
  rfl

/-- the poses of the predicted body, without the offset -/
noncomputable def hatPoses (s : System ℝ π) (zs : List (Transform ℝ)) (yhat : String → Option (Quat ℝ)) : List (Transform ℝ) :=
  (List.range s.link_parents.length).map (composed s.link_parents
    ((List.range s.link_parents.length).map fun i => ⟨(relPose s.link_parents zs i).pos, unitQuat⟩) (hatT2 s yhat))

theorem hatPoses_getElem? {s : System ℝ π} (ht : Topological s.link_parents) (zs : List (Transform ℝ))
    (yhat : String → Option (Quat ℝ)) {i : Nat} {n : String} {p : Int}
    (hn : s.link_names[i]? = some n) (hp : s.link_parents[i]? = some p) :
    (hatPoses s zs yhat)[i]? = some (transform_mul ⟨(relPose s.link_parents zs i).pos, hatRel yhat n p⟩
      (poseAt (hatPoses s zs yhat) p)) := by
  obtain ⟨hi, e⟩ := List.getElem?_eq_some_iff.1 hp
  have h1 : (hatPoses s zs yhat)[i]? = some (composed s.link_parents
    ((List.range s.link_parents.length).map fun i => ⟨(relPose s.link_parents zs i).pos, unitQuat⟩)
      (hatT2 s yhat) i) := by
    unfold hatPoses
    rw [List.getElem?_map, List.getElem?_range hi]; rfl
  rw [h1, composed_rec ht hi, hatT2_getD hn hp, e]
  congr 1
  have : ((List.range s.link_parents.length).map fun i =>
      (⟨(relPose s.link_parents zs i).pos, unitQuat⟩ : Transform ℝ)).getD i .zero =
      ⟨(relPose s.link_parents zs i).pos, unitQuat⟩ := by
    rw [List.getD_eq_getElem?_getD, List.getElem?_map, List.getElem?_range hi]; rfl
  rw [this, transform_split ⟨(relPose s.link_parents zs i).pos, hatRel yhat n p⟩]
  rfl

theorem internals_ok {E : JEnv ℝ π} {s s' : System ℝ π} (h : s.WF E.toEnv) (hi : ImusOnLinks s) (h0 : s.link_names ≠ [])
    (hf : HatsFree s) (tr : Bool) {a : List (String × String)} (hm : make_sys_noimu E.toEnv s = .ok (s', a))
    (hr : s.Removed E.toEnv (BelowImu s) s') {xs : List (Transform ℝ)} (hx : xs.length = s.num_links) {y : YHat ℝ}
    {d : List (String × Quat ℝ)} (hy : yhatDict s' y = .ok d) (hd : ∀ n ∈ s'.link_names, ∃ q, d.lookup n = some q)
    (ot op : Vec3 ℝ) : ∃ r zs, _sys_render E.toEnv s tr = .ok r ∧ s'.match_xs E xs s = .ok zs ∧
      zs.length = s'.num_links ∧
      (∀ (i j : Nat) n, s'.link_names[i]? = some n → s.link_names[j]? = some n → zs[i]? = xs[j]?) ∧
      _render_prediction_internals E s xs y tr ot op = .ok (r, xs.map (movedBy ot) ++
        (hatPoses s' zs fun n => d.lookup n).map (movedBy op)) := by
  have hne := segments_nonempty h hi h0 hr
  have hc' := hr.wf.toConsistent
  obtain ⟨r, er, hrw, hnames, -⟩ := sys_render_ok h hi h0 hf tr hm hr
  obtain ⟨zs, ez, hzl, hz⟩ := C24_match_xs hc' (List.length_pos_iff.2 hne) h.toConsistent hx
    (fun n hn => ((hr.mem n).1 hn).1)
  refine ⟨r, zs, er, ez, hzl, hz, ?_⟩
  have hnl := hr.wf.names_len
  have hn0 := h.names_len
  have hlen : (hatPoses s' zs fun n => d.lookup n).length = s'.link_parents.length := by simp [hatPoses]
  have ezip := zip_eq (E := E) hc' hr.wf.topo
    (t1 := (List.range s'.link_parents.length).map fun i => ⟨(relPose s'.link_parents zs i).pos, unitQuat⟩)
    (t2 := hatT2 s' fun n => d.lookup n) (by simp) (by simp [hatT2, hnl])
  unfold _render_prediction_internals
  simp only [hm, ok_bind, hy, ez, hatRots_ok hd, unzip_eq hc' hr.wf.topo hzl, hatTransforms_ok hc', ezip]
  rw [show (List.range s'.link_parents.length).map (composed s'.link_parents
    ((List.range s'.link_parents.length).map fun i => ⟨(relPose s'.link_parents zs i).pos, unitQuat⟩)
    (hatT2 s' fun n => d.lookup n)) = hatPoses s' zs fun n => d.lookup n from rfl]
  rw [offsets_ok (n := s'.num_links) hlen, ok_bind, offsets_ok hx, ok_bind, er, ok_bind, hnames]
  have : ∀ (l1 l2 : List String) (x1 x2 : List (Transform ℝ)), l1.length = x1.length → l2.length = x2.length →
      (l1 ++ l2).Nodup → (l1 ++ l2).mapM (pyDict (l1.zip x1 ++ l2.zip x2)) = .ok (x1 ++ x2) := by
    intro l1 l2 x1 x2 e1 e2 hnd
    rw [← List.zip_append e1]
    rw [System.mapM_ok (g := fun n => (((l1 ++ l2).zip (x1 ++ x2)).lookup n).getD .zero)]
    · congr 1
      apply List.ext_getElem (by simp [e1, e2])
      intro i h1 h2
      have hil : i < (l1 ++ l2).length := by simpa using h1
      rw [List.getElem_map, lookup_zip_names hnd (by simp [e1, e2]) (List.getElem?_eq_getElem hil),
        List.getElem?_eq_getElem h2]
      rfl
    · intro n hn
      obtain ⟨i, hil, e⟩ := List.getElem_of_mem hn
      have hin : (l1 ++ l2)[i]? = some n := by rw [List.getElem?_eq_getElem hil, e]
      have h2 : i < (x1 ++ x2).length := by simpa [e1, e2] using hil
      unfold pyDict
      rw [lookup_zip_names hnd (by simp [e1, e2]) hin, List.getElem?_eq_getElem h2]
      rfl
  rw [this _ _ _ _ (by rw [List.length_map, hx]; exact hn0) (by rw [List.length_map, List.length_map, hlen]; exact hnl)
    (by rw [← hnames]; exact hrw.names_nodup)]
  rfl

theorem poseNamed_eq {s : System ℝ π} (hn : s.link_names.Nodup) {xs : List (Transform ℝ)} {i : Nat} {n : String}
    (h : s.link_names[i]? = some n) : poseNamed s xs n = xs[i]? := by
  unfold poseNamed
  rw [idxOf?_eq_of_nodup hn h]
  rfl

theorem rel_root {parents : List Int} {zs : List (Transform ℝ)} {i : Nat} {x : Transform ℝ}
    (hp : parents[i]? = some (-1)) (hz : zs[i]? = some x) : relPose parents zs i = x := by
  unfold relPose
  rw [List.getD_eq_getElem?_getD, List.getD_eq_getElem?_getD, hp, hz]
  simp only [Option.getD_some]
  unfold poseAt
  rw [if_pos (by omega), transform_inv_zero, transform_mul_zero]

theorem rel_child {parents : List Int} {zs : List (Transform ℝ)} {i p : Nat} {x xp : Transform ℝ}
    (hp : parents[i]? = some (p : Int)) (hz : zs[i]? = some x) (hzp : zs[p]? = some xp) :
    (relPose parents zs i).pos = rotate (x.pos - xp.pos) xp.rot := by
  unfold relPose
  rw [List.getD_eq_getElem?_getD, List.getD_eq_getElem?_getD, hp, hz]
  simp only [Option.getD_some]
  unfold poseAt
  rw [if_neg (by omega), List.getD_eq_getElem?_getD, Int.toNat_natCast, hzp]
  simp only [Option.getD_some, transform_mul, transform_inv]
  ext <;> simp only [rotate_x, rotate_y, rotate_z, quat_inv, Vec3.sub_x, Vec3.sub_y, Vec3.sub_z, Vec3.add_x, Vec3.add_y,
    Vec3.add_z, Vec3.neg_x, Vec3.neg_y, Vec3.neg_z] <;> ring

/-- a segment has the same parent with and without the IMUs -/
theorem root_of_removed {E : Env ℝ π} {s s' : System ℝ π} (h : s.WF E) (hr : s.Removed E (BelowImu s) s') {i : Nat}
    {n : String} (hn : s'.link_names[i]? = some n) (hroot : IsRoot s n) : s'.link_parents[i]? = some (-1) := by
  obtain ⟨j, hj, hp⟩ := hroot
  have hjl : j < s.link_parents.length := (List.getElem?_eq_some_iff.1 hp).1
  have hil : i < s'.link_parents.length := by
    have := (List.getElem?_eq_some_iff.1 hn).1
    rw [hr.wf.names_len] at this; exact this
  obtain ⟨v, hv⟩ := viewAt_isSome h.toConsistent hjl
  obtain ⟨v', hv'⟩ := viewAt_isSome hr.wf.toConsistent hil
  have e := hr.view n (List.mem_of_getElem? hn)
  rw [view_eq_viewAt hr.wf.toConsistent hn, view_eq_viewAt h.toConsistent hj, hv, hv'] at e
  obtain rfl := Option.some.inj e
  exact (parent_none_iff hr.wf hv').1 ((parent_none_iff h hv).2 hp)

theorem child_of_removed {E : Env ℝ π} {s s' : System ℝ π} (h : s.WF E) (hr : s.Removed E (BelowImu s) s') {i : Nat}
    {n m : String} (hn : s'.link_names[i]? = some n) (hpar : IsParent s n m) :
    ∃ p : Nat, s'.link_parents[i]? = some (p : Int) ∧ s'.link_names[p]? = some m := by
  obtain ⟨j, q, hj, hp, hq⟩ := hpar
  have hjl : j < s.link_parents.length := (List.getElem?_eq_some_iff.1 hp).1
  have hil : i < s'.link_parents.length := by
    have := (List.getElem?_eq_some_iff.1 hn).1
    rw [hr.wf.names_len] at this; exact this
  obtain ⟨v, hv⟩ := viewAt_isSome h.toConsistent hjl
  obtain ⟨v', hv'⟩ := viewAt_isSome hr.wf.toConsistent hil
  have e := hr.view n (List.mem_of_getElem? hn)
  rw [view_eq_viewAt hr.wf.toConsistent hn, view_eq_viewAt h.toConsistent hj, hv, hv'] at e
  obtain rfl := Option.some.inj e
  obtain ⟨p, hp1, e1⟩ := viewAt_parent hv
  obtain ⟨p', hp1', e1'⟩ := viewAt_parent hv'
  rw [hp] at hp1
  obtain rfl := Option.some.inj hp1
  rw [e1'] at e1
  unfold nameAt at e1
  rw [if_neg (show ¬ ((q : Int) < 0) by omega), Int.toNat_natCast, hq] at e1
  split at e1
  · cases e1
  · rename_i hneg
    exact ⟨p'.toNat, by rw [hp1']; congr 1; omega, e1⟩

theorem segment_parent {s : System ℝ π} (hnd : s.link_names.Nodup) {n m : String} (hn : IsSegment s n)
    (hp : IsParent s n m) : IsSegment s m := by
  obtain ⟨i, p, h1, h2, h3⟩ := hp
  refine ⟨List.mem_of_getElem? h3, ?_⟩
  rintro ⟨x, hx, k, j, hk, hj, hd⟩
  obtain rfl := uniqueIdx hnd hj h3
  exact hn.2 ⟨x, hx, k, i, hk, h1, .step h2 hd⟩

theorem drawn_of {E : Env ℝ π} {s s' r : System ℝ π} (h : s.WF E) (hr : s.Removed E (BelowImu s) s')
    (hrn : r.link_names.Nodup) (hnames : r.link_names = s.link_names ++ s'.link_names.map (fun n => "hat_" ++ n))
    {xs zs : List (Transform ℝ)} (hx : xs.length = s.num_links) (hzl : zs.length = s'.num_links)
    (hz : ∀ (i j : Nat) n, s'.link_names[i]? = some n → s.link_names[j]? = some n → zs[i]? = xs[j]?)
    {yhat : String → Option (Quat ℝ)} (hy : ∀ n, IsSegment s n → ∃ q, yhat n = some q) (ot op : Vec3 ℝ) :
    Drawn s (poseNamed s xs) (poseNamed r (xs.map (movedBy ot) ++ (hatPoses s' zs yhat).map (movedBy op))) yhat ot op := by
  have hxl : xs.length = s.link_names.length := by rw [h.names_len]; exact hx
  have pose : ∀ (n : String) (j : Nat), s.link_names[j]? = some n → ∃ x, xs[j]? = some x ∧ poseNamed s xs n = some x := by
    intro n j hj
    have hjl : j < xs.length := by rw [hxl]; exact (List.getElem?_eq_some_iff.1 hj).1
    exact ⟨_, List.getElem?_eq_getElem hjl, by
      rw [poseNamed_eq h.names_nodup hj, List.getElem?_eq_getElem hjl]⟩
  have hat : ∀ (n : String) (i : Nat), s'.link_names[i]? = some n →
      poseNamed r (xs.map (movedBy ot) ++ (hatPoses s' zs yhat).map (movedBy op)) ("hat_" ++ n) =
        ((hatPoses s' zs yhat)[i]?).map (movedBy op) := by
    intro n i hi
    have : r.link_names[s.link_names.length + i]? = some ("hat_" ++ n) := by
      rw [hnames, List.getElem?_append_right (by omega), Nat.add_sub_cancel_left, List.getElem?_map, hi]; rfl
    rw [poseNamed_eq hrn this, List.getElem?_append_right (by simp [hxl]), List.length_map, hxl,
      Nat.add_sub_cancel_left, List.getElem?_map]
  have seg : ∀ n, IsSegment s n → ∃ (i j : Nat) (x : Transform ℝ) (q : Quat ℝ), s'.link_names[i]? = some n ∧ s.link_names[j]? = some n ∧
      zs[i]? = some x ∧ poseNamed s xs n = some x ∧ yhat n = some q := by
    intro n hn
    obtain ⟨i, hi, e⟩ := List.getElem_of_mem ((hr.mem n).2 hn)
    obtain ⟨j, hj, e'⟩ := List.getElem_of_mem hn.1
    have hi' : s'.link_names[i]? = some n := by rw [List.getElem?_eq_getElem hi, e]
    have hj' : s.link_names[j]? = some n := by rw [List.getElem?_eq_getElem hj, e']
    obtain ⟨x, hx1, hx2⟩ := pose n j hj'
    obtain ⟨q, hq⟩ := hy n hn
    exact ⟨i, j, x, q, hi', hj', by rw [hz i j n hi' hj', hx1], hx2, hq⟩
  refine ⟨?_, ?_, ?_⟩
  · intro n hn
    obtain ⟨j, hj, e⟩ := List.getElem_of_mem hn
    have hj' : s.link_names[j]? = some n := by rw [List.getElem?_eq_getElem hj, e]
    obtain ⟨x, hx1, hx2⟩ := pose n j hj'
    refine ⟨x, hx2, ?_⟩
    have : r.link_names[j]? = some n := by rw [hnames, List.getElem?_append_left hj, hj']
    rw [poseNamed_eq hrn this, List.getElem?_append_left (by simp; omega), List.getElem?_map, hx1]
    rfl
  · intro n hn hroot
    obtain ⟨i, j, x, q, hi, hj, hzi, hpx, hq⟩ := seg n hn
    have hp := root_of_removed h hr hi hroot
    refine ⟨x, q, hpx, hq, ?_⟩
    rw [hat n i hi, hatPoses_getElem? hr.wf.topo zs yhat hi hp, rel_root hp hzi, Option.map_some]
    unfold poseAt hatRel
    rw [if_pos rfl, if_pos (by omega), transform_mul_zero, hq]
    rfl
  · intro n m hn hpar
    obtain ⟨i, j, x, q, hi, hj, hzi, hpx, hq⟩ := seg n hn
    obtain ⟨p, hp, hpm⟩ := child_of_removed h hr hi hpar
    obtain ⟨i2, j2, xp, qp, hi2, hj2, hzp, hpxp, -⟩ := seg m (segment_parent h.names_nodup hn hpar)
    obtain rfl := uniqueIdx hr.wf.names_nodup hi2 hpm
    have hpl : i2 < (hatPoses s' zs yhat).length := by
      have := (List.getElem?_eq_some_iff.1 hpm).1
      rw [hr.wf.names_len] at this
      simpa [hatPoses] using this
    have e1 := hat n i hi
    have e2 := hat m i2 hpm
    rw [hatPoses_getElem? hr.wf.topo zs yhat hi hp, Option.map_some] at e1
    rw [List.getElem?_eq_getElem hpl, Option.map_some] at e2
    refine ⟨x, xp, q, _, _, hpx, hpxp, hq, e1, e2, ?_, ?_⟩
    all_goals
      unfold poseAt hatRel
      rw [if_neg (show ¬ ((i2 : Int) < 0) by omega), if_neg (show ¬ ((i2 : Int) = -1) by omega),
        List.getD_eq_getElem?_getD, Int.toNat_natCast, List.getElem?_eq_getElem hpl, hq]
      simp only [Option.getD_some, movedBy, transform_mul]
    rw [rel_child hp hzi hzp]
    ext <;> simp only [Vec3.add_x, Vec3.add_y, Vec3.add_z] <;> ring

/-! ## C95 -/

/-- C95: every link of the truth is drawn in its pose, moved by the offset of the truth. The links of the predicted body
hang together: a root is where it truly is (moved by the offset of the prediction) with the predicted orientation; any
other link is seen from its parent where it truly is, and rotated as predicted. The prediction must have all segments. -/
theorem C95_drawn {E : JEnv ℝ π} {s : System ℝ π} (h : s.WF E.toEnv) (hi : ImusOnLinks s) (h0 : s.link_names ≠ [])
    (hf : HatsFree s) {xs : List (Transform ℝ)} (hx : xs.length = s.num_links) {d : List (String × Quat ℝ)}
    (hd : ∀ n, IsSegment s n → ∃ q, d.lookup n = some q) (tr : Bool) (ot op : Vec3 ℝ) :
    ∃ r ys, _render_prediction_internals E s xs (.dict d) tr ot op = .ok (r, ys) ∧ _sys_render E.toEnv s tr = .ok r ∧
      ys.length = r.num_links ∧ Drawn s (poseNamed s xs) (poseNamed r ys) (fun n => d.lookup n) ot op := by
  obtain ⟨s', par, hm, -, hr⟩ := C03_make_sys_noimu h hi
  obtain ⟨r, er, hrw, hnames, -⟩ := sys_render_ok h hi h0 hf tr hm hr
  obtain ⟨r', zs, er', ez, hzl, hz, e⟩ := internals_ok h hi h0 hf tr hm hr hx (y := .dict d) (d := d) rfl
    (fun n hn => hd n ((hr.mem n).1 hn)) ot op
  rw [er] at er'
  obtain rfl := Except.ok.inj er'
  refine ⟨r, _, e, er, ?_, drawn_of h hr hrw.names_nodup hnames hx hzl hz hd ot op⟩
  show _ = r.link_parents.length
  rw [← hrw.names_len, hnames, List.length_append, List.length_append, List.length_map, List.length_map, List.length_map,
    hx, h.names_len, hr.wf.names_len]
  simp [hatPoses, num_links]

/-- the segments in their order -/
noncomputable def segments (s : System ℝ π) : List String :=
  open Classical in s.link_names.filter fun n => decide (IsSegment s n)

theorem removed_names {E : Env ℝ π} {s s' : System ℝ π} (h : s.WF E) (hr : s.Removed E (BelowImu s) s') :
    s'.link_names = segments s := by
  classical
  have h1 : s'.link_names.Sublist (segments s) := by
    have := hr.order.filter fun n => decide (IsSegment s n)
    rw [List.filter_eq_self.2 (fun n hn => decide_eq_true (show IsSegment s n from (hr.mem n).1 hn))] at this
    unfold segments
    convert this using 2
  apply h1.eq_of_length_le
  have : (segments s).Nodup := h.names_nodup.filter _
  apply (this.subperm ?_).length_le
  intro n hn
  unfold segments at hn
  rw [List.mem_filter] at hn
  have hseg : IsSegment s n := by simpa using hn.2
  exact (hr.mem n).2 hseg

/-- C95: an array is read in the order of the segments. -/
theorem C95_array {E : JEnv ℝ π} {s : System ℝ π} (h : s.WF E.toEnv) (hi : ImusOnLinks s) {a : List (Quat ℝ)}
    (ha : a.length = (segments s).length) (xs : List (Transform ℝ)) (tr : Bool) (ot op : Vec3 ℝ) :
    _render_prediction_internals E s xs (.array a) tr ot op =
      _render_prediction_internals E s xs (.dict ((segments s).zip a)) tr ot op := by
  obtain ⟨s', par, hm, -, hr⟩ := C03_make_sys_noimu h hi
  have e : yhatDict s' (.array a) = yhatDict s' (.dict ((segments s).zip a)) := by
    unfold yhatDict
    rw [removed_names h hr]
    simp only
    rw [System.mapM_ok (g := fun x : String × Nat => (x.1, a.getD x.2 unitQuat))]
    · simp only [pure_ok]
      congr 1
      apply List.ext_getElem (by simp [ha])
      intro i h1 h2
      simp only [List.length_zip] at h2
      have : i < a.length := by omega
      simp [this]
    · intro x hx
      obtain ⟨i, hi, e⟩ := List.getElem_of_mem hx
      simp only [List.length_zipIdx] at hi
      simp only [List.getElem_zipIdx, Nat.zero_add] at e
      subst e
      have hia : i < a.length := by omega
      have : min i (a.length - 1) = i := by omega
      simp only [this, List.getElem?_eq_getElem hia]
      simp [hia, pure_ok]
  unfold _render_prediction_internals
  simp only [hm, ok_bind, e]

/-- the prediction is the truth: roots as they are, the others as seen by the child (child-to-parent) -/
structure Exact (s : System ℝ π) (tru : String → Option (Transform ℝ)) (yhat : String → Option (Quat ℝ)) : Prop where
  root : ∀ n x, IsSegment s n → IsRoot s n → tru n = some x → yhat n = some x.rot
  child : ∀ n m x xp, IsSegment s n → IsParent s n m → tru n = some x → tru m = some xp →
    yhat n = some (quat_mul xp.rot (quat_inv x.rot))

theorem root_or_child {E : Env ℝ π} {s : System ℝ π} (h : s.WF E) {i : Nat} {n : String} (hi : s.link_names[i]? = some n) :
    IsRoot s n ∨ ∃ (p : Nat) (m : String), p < i ∧ s.link_names[p]? = some m ∧ IsParent s n m := by
  have hil : i < s.link_parents.length := by
    have := (List.getElem?_eq_some_iff.1 hi).1
    rw [h.names_len] at this; exact this
  obtain ⟨h1, h2⟩ := h.topo i hil
  by_cases hp : s.link_parents[i] = -1
  · exact .inl ⟨i, hi, by rw [List.getElem?_eq_getElem hil, hp]⟩
  · have hlt : s.link_parents[i].toNat < s.link_names.length := by rw [h.names_len]; omega
    refine .inr ⟨s.link_parents[i].toNat, _, by omega, List.getElem?_eq_getElem hlt, i, s.link_parents[i].toNat, hi, ?_,
      List.getElem?_eq_getElem hlt⟩
    rw [List.getElem?_eq_getElem hil]
    congr 1
    omega

theorem rotate_back {q : Quat ℝ} (hq : q.normSq = 1) (v : Vec3 ℝ) : rotate (rotate v q) (quat_inv q) = v := by
  rw [rotate_rotate]
  have : quat_mul (quat_inv q) q = unitQuat := by
    unfold Quat.normSq at hq
    ext <;> simp only [quat_mul, quat_inv, unitQuat]
    · linear_combination hq
    all_goals ring
  rw [this, rotate_unit]

theorem rel_back {p x : Quat ℝ} (hp : p.normSq = 1) : quat_mul (quat_inv (quat_mul p (quat_inv x))) p = x := by
  unfold Quat.normSq at hp
  ext <;> simp only [quat_mul, quat_inv]
  · linear_combination x.w * hp
  · linear_combination x.x * hp
  · linear_combination x.y * hp
  · linear_combination x.z * hp

/-- what is drawn of an exact prediction is the truth -/
theorem drawn_exact {E : Env ℝ π} {s : System ℝ π} (h : s.WF E) {tru draw : String → Option (Transform ℝ)}
    {yhat : String → Option (Quat ℝ)} {ot op : Vec3 ℝ} (hd : Drawn s tru draw yhat ot op)
    (hu : ∀ n x, tru n = some x → x.rot.normSq = 1) (hy : Exact s tru yhat) {n : String} (hn : IsSegment s n) :
    ∃ x, tru n = some x ∧ draw ("hat_" ++ n) = some (movedBy op x) := by
  have key : ∀ (i : Nat) n, s.link_names[i]? = some n → IsSegment s n →
      ∃ x, tru n = some x ∧ draw ("hat_" ++ n) = some (movedBy op x) := by
    intro i
    induction i using Nat.strong_induction_on with
    | _ i ih =>
      intro n hi hn
      rcases root_or_child h hi with hr | ⟨p, m, hpi, hpm, hpar⟩
      · obtain ⟨x, q, hx, hq, e⟩ := hd.root n hn hr
        rw [hy.root n x hn hr hx] at hq
        obtain rfl := Option.some.inj hq
        exact ⟨x, hx, e⟩
      · obtain ⟨x, xp, q, k, kp, hx, hxp, hq, e, ep, hrot, hpos⟩ := hd.child n m hn hpar
        obtain ⟨xp', hxp', ep'⟩ := ih p hpi m hpm (segment_parent h.names_nodup hn hpar)
        rw [hxp] at hxp'
        obtain rfl := Option.some.inj hxp'
        rw [ep] at ep'
        obtain rfl := Option.some.inj ep'
        rw [hy.child n m x xp hn hpar hx hxp] at hq
        obtain rfl := Option.some.inj hq
        refine ⟨x, hx, ?_⟩
        rw [e]
        congr 1
        obtain ⟨kp, kq⟩ := k
        simp only [movedBy] at hrot hpos ⊢
        rw [rel_back (hu m xp hxp)] at hrot
        rw [rotate_back (hu m xp hxp)] at hpos
        rw [hrot, hpos]
        congr 1
        ext <;> simp only [Vec3.add_x, Vec3.add_y, Vec3.add_z, Vec3.sub_x, Vec3.sub_y, Vec3.sub_z] <;> ring
  obtain ⟨i, hi, e⟩ := List.getElem_of_mem hn.1
  exact key i n (by rw [List.getElem?_eq_getElem hi, e]) hn

/-- C95: an exact prediction is drawn as the truth, moved by its own offset. -/
theorem C95_exact {E : JEnv ℝ π} {s : System ℝ π} (h : s.WF E.toEnv) (hi : ImusOnLinks s) (h0 : s.link_names ≠ [])
    (hf : HatsFree s) {xs : List (Transform ℝ)} (hx : xs.length = s.num_links) (hu : UnitPoses xs)
    {d : List (String × Quat ℝ)} (hd : Exact s (poseNamed s xs) fun n => d.lookup n) (tr : Bool) (ot op : Vec3 ℝ) :
    ∃ r ys, _render_prediction_internals E s xs (.dict d) tr ot op = .ok (r, ys) ∧
      ∀ n, IsSegment s n → ∃ x, poseNamed s xs n = some x ∧ poseNamed r ys ("hat_" ++ n) = some (movedBy op x) := by
  have pose : ∀ n ∈ s.link_names, ∃ x, poseNamed s xs n = some x := by
    intro n hn
    obtain ⟨i, hil, e⟩ := List.getElem_of_mem hn
    have hil' : i < xs.length := by
      rw [h.names_len] at hil
      rw [hx]; exact hil
    exact ⟨xs[i], by rw [poseNamed_eq h.names_nodup (by rw [List.getElem?_eq_getElem hil, e]),
      List.getElem?_eq_getElem hil']⟩
  have hall : ∀ n, IsSegment s n → ∃ q, d.lookup n = some q := by
    intro n hn
    obtain ⟨i, hil, e⟩ := List.getElem_of_mem hn.1
    obtain ⟨x, hxn⟩ := pose n hn.1
    rcases root_or_child h (i := i) (n := n) (by rw [List.getElem?_eq_getElem hil, e]) with hr | ⟨p, m, -, hm, hpar⟩
    · exact ⟨_, hd.root n x hn hr hxn⟩
    · obtain ⟨xp, hxp⟩ := pose m (List.mem_of_getElem? hm)
      exact ⟨_, hd.child n m x xp hn hpar hxn hxp⟩
  obtain ⟨r, ys, e, -, -, hdr⟩ := C95_drawn h hi h0 hf hx hall tr ot op
  refine ⟨r, ys, e, fun n hn => drawn_exact h hdr ?_ hd hn⟩
  intro n x hxn
  unfold poseNamed at hxn
  rw [Option.bind_eq_some_iff] at hxn
  obtain ⟨i, -, hxi⟩ := hxn
  exact hu x (List.mem_of_getElem? hxi)

/-- C95: drawn segments keep their lengths (if the predicted rotations are rotations): the distance of a link from its
parent is the true one. -/
theorem C95_lengths {E : JEnv ℝ π} {s : System ℝ π} (h : s.WF E.toEnv) (hi : ImusOnLinks s) (h0 : s.link_names ≠ [])
    (hf : HatsFree s) {xs : List (Transform ℝ)} (hx : xs.length = s.num_links) (hu : UnitPoses xs)
    {d : List (String × Quat ℝ)} (hd : ∀ n, IsSegment s n → ∃ q, d.lookup n = some q ∧ q.normSq = 1)
    (tr : Bool) (ot op : Vec3 ℝ) :
    ∃ r ys, _render_prediction_internals E s xs (.dict d) tr ot op = .ok (r, ys) ∧
      ∀ n m, IsSegment s n → IsParent s n m → ∃ x xp k kp, poseNamed s xs n = some x ∧ poseNamed s xs m = some xp ∧
        poseNamed r ys ("hat_" ++ n) = some k ∧ poseNamed r ys ("hat_" ++ m) = some kp ∧
        (k.pos - kp.pos).dot (k.pos - kp.pos) = (x.pos - xp.pos).dot (x.pos - xp.pos) := by
  obtain ⟨r, ys, e, -, -, hdr⟩ := C95_drawn h hi h0 hf hx (fun n hn => (hd n hn).imp fun _ => And.left) tr ot op
  refine ⟨r, ys, e, ?_⟩
  have unit : ∀ (i : Nat) n, s.link_names[i]? = some n → IsSegment s n → ∀ k, poseNamed r ys ("hat_" ++ n) = some k →
      k.rot.normSq = 1 := by
    intro i
    induction i using Nat.strong_induction_on with
    | _ i ih =>
      intro n hi hn k hk
      obtain ⟨q', hq', hqu⟩ := hd n hn
      rcases root_or_child h hi with hr | ⟨p, m, hpi, hpm, hpar⟩
      · obtain ⟨x, q, -, hq, e⟩ := hdr.root n hn hr
        rw [hk] at e
        obtain rfl := Option.some.inj e
        rw [hq'] at hq
        obtain rfl := Option.some.inj hq
        exact hqu
      · obtain ⟨x, xp, q, k', kp, -, -, hq, e, ep, hrot, -⟩ := hdr.child n m hn hpar
        rw [hk] at e
        obtain rfl := Option.some.inj e
        rw [hq'] at hq
        obtain rfl := Option.some.inj hq
        have := ih p hpi m hpm (segment_parent h.names_nodup hn hpar) kp ep
        rw [hrot]
        unfold Quat.normSq at *
        simp only [quat_mul, quat_inv]
        linear_combination (kp.rot.w * kp.rot.w + kp.rot.x * kp.rot.x + kp.rot.y * kp.rot.y + kp.rot.z * kp.rot.z) * hqu + this
  intro n m hn hpar
  obtain ⟨x, xp, q, k, kp, hxn, hxm, -, ek, ep, -, hpos⟩ := hdr.child n m hn hpar
  refine ⟨x, xp, k, kp, hxn, hxm, ek, ep, ?_⟩
  have hm := segment_parent h.names_nodup hn hpar
  obtain ⟨i, hil, e'⟩ := List.getElem_of_mem hm.1
  have hkp := unit i m (by rw [List.getElem?_eq_getElem hil, e']) hm kp ep
  have hxp : xp.rot.normSq = 1 := by
    unfold poseNamed at hxm
    rw [Option.bind_eq_some_iff] at hxm
    obtain ⟨i, -, hxi⟩ := hxm
    exact hu xp (List.mem_of_getElem? hxi)
  have hinv : (quat_inv kp.rot).normSq = 1 := by
    unfold Quat.normSq at *
    simp only [quat_inv]
    linear_combination hkp
  have hsub : k.pos - kp.pos = rotate (rotate (x.pos - xp.pos) xp.rot) (quat_inv kp.rot) := by
    rw [hpos]
    ext <;> simp only [Vec3.add_x, Vec3.add_y, Vec3.add_z, Vec3.sub_x, Vec3.sub_y, Vec3.sub_z] <;> ring
  rw [hsub, (C12_rotate_isometry hinv _ _).1, (C12_rotate_isometry hxp _ _).1]

/-! ## what is missing -/

theorem mapM_key {β γ : Type} {f : β → Py γ} : ∀ {l : List β}, (∀ x ∈ l, f x = .error .key ∨ ∃ y, f x = .ok y) →
    (∃ x ∈ l, f x = .error .key) → l.mapM f = .error .key := by
  intro l
  induction l with
  | nil => rintro - ⟨x, hx, -⟩; cases hx
  | cons a l ih =>
    intro h hx
    rw [List.mapM_cons]
    rcases h a (by simp) with e | ⟨y, e⟩
    · rw [e]; rfl
    · rw [e, ok_bind]
      have : l.mapM f = .error .key := by
        apply ih (fun x hx => h x (by simp [hx]))
        obtain ⟨x, hx, ex⟩ := hx
        rcases List.mem_cons.1 hx with rfl | hx
        · rw [e] at ex; cases ex
        · exact ⟨x, hx, ex⟩
      rw [this]
      rfl

/-- C95: a prediction without one of the segments is refused. The code that would draw such a link as it truly is
("we add the missing links") is never reached. -/
theorem C95_missing {E : JEnv ℝ π} {s : System ℝ π} (h : s.WF E.toEnv) (hi : ImusOnLinks s) (h0 : s.link_names ≠ [])
    {xs : List (Transform ℝ)} (hx : xs.length = s.num_links) {d : List (String × Quat ℝ)} {n : String}
    (hn : IsSegment s n) (hd : d.lookup n = none) (tr : Bool) (ot op : Vec3 ℝ) :
    _render_prediction_internals E s xs (.dict d) tr ot op = .error .key := by
  obtain ⟨s', par, hm, -, hr⟩ := C03_make_sys_noimu h hi
  obtain ⟨zs, ez, -⟩ := C24_match_xs (E := E) hr.wf.toConsistent (List.length_pos_iff.2 (segments_nonempty h hi h0 hr))
    h.toConsistent hx (fun n hn => ((hr.mem n).1 hn).1)
  have e : (s'.link_names.zip s'.link_parents).mapM (hatRot d) = .error .key := by
    apply mapM_key
    · intro x _
      unfold hatRot pyDict
      cases d.lookup x.1 with
      | none => exact .inl rfl
      | some q => exact .inr ⟨_, rfl⟩
    · obtain ⟨i, hil, e⟩ := List.getElem_of_mem ((hr.mem n).2 hn)
      have hip : i < s'.link_parents.length := hr.wf.names_len ▸ hil
      refine ⟨(n, s'.link_parents[i]), ?_, ?_⟩
      · rw [List.mem_iff_getElem]
        exact ⟨i, by simp [hil, hip], by simp [e]⟩
      · unfold hatRot pyDict
        rw [hd]
        rfl
  unfold _render_prediction_internals
  simp only [hm, ok_bind, yhatDict, pure_ok, ez, e]
  rfl

/-- C95: the relative orientations of all links (what `rel_pose` returns and what is learned) cannot be drawn: the roots
are missing. -/
theorem C95_rel_pose_fails {E : JEnv ℝ π} {s s' : System ℝ π} (h : s.WF E.toEnv) (hi : ImusOnLinks s)
    (h0 : s.link_names ≠ []) {a : List (String × String)} (hm : make_sys_noimu E.toEnv s = .ok (s', a))
    {xs : List (Transform ℝ)} (hx : xs.length = s.num_links) (tr : Bool) (ot op : Vec3 ℝ) :
    ∃ y, s'.rel_pose E xs (some s) = .ok y ∧
      _render_prediction_internals E s xs (.dict y) tr ot op = .error .key := by
  obtain ⟨s'', par, hm', -, hr⟩ := C03_make_sys_noimu h hi
  rw [hm] at hm'
  obtain ⟨rfl, -⟩ := Prod.mk.inj (Except.ok.inj hm')
  obtain ⟨y, ey, hy, -⟩ := C25_rel_pose (E := E) hr.wf.toConsistent hr.wf.topo h.toConsistent hx
    (fun n hn => ((hr.mem n).1 hn).1)
  refine ⟨y, ey, ?_⟩
  have hne := segments_nonempty h hi h0 hr
  have hpos : 0 < s'.link_parents.length := List.length_pos_iff.2 hne
  have hpn : 0 < s'.link_names.length := by rw [hr.wf.names_len]; exact hpos
  apply C95_missing h hi h0 hx (n := s'.link_names[0]) ((hr.mem _).1 (List.getElem_mem _))
  rw [List.lookup_eq_none_iff]
  intro x hxy
  rw [bne_iff_ne]
  intro e
  have : x.1 ∈ y.map (·.1) := List.mem_map.2 ⟨x, hxy, rfl⟩
  rw [hy.keys] at this
  obtain ⟨z, hz, hz'⟩ := List.mem_map.1 this
  rw [List.mem_filter] at hz
  obtain ⟨i, hil, e2⟩ := List.getElem_of_mem hz.1
  simp only [List.length_zip] at hil
  have hil1 : i < s'.link_names.length := by omega
  have hz1 : s'.link_names[i] = z.1 := by rw [← e2]; simp
  have hz2 : s'.link_parents[i]'(by omega) = z.2 := by rw [← e2]; simp
  have : i = 0 := by
    apply (List.Nodup.getElem_inj_iff hr.wf.names_nodup).1
    rw [hz1, hz', ← e]
  subst this
  have h3 := hr.wf.topo 0 hpos
  have : z.2 = -1 := by omega
  simp [this] at hz

/-! ## colours and geometries -/

/-- C95: the drawing has the links of the truth with their parents and geometries unchanged, and a second body of the
segments with the same parents among themselves, whose geometries are those of the segments in the colour of the
prediction; roots have none if they shall be transparent. -/
theorem C95_bodies {E : Env ℝ π} {s : System ℝ π} (h : s.WF E) (hi : ImusOnLinks s) (h0 : s.link_names ≠ [])
    (hf : HatsFree s) (tr : Bool) : ∃ r, _sys_render E s tr = .ok r ∧ r.WF E ∧
      r.link_names = s.link_names ++ (segments s).map (fun n => "hat_" ++ n) ∧
      (∀ m ∈ s.link_names, ∃ v v', s.view E m = some v ∧ r.view E m = some v' ∧ v'.parent = v.parent ∧
        v'.geoms = v.geoms) ∧
      ∀ n, IsSegment s n → ∃ v v', s.view E n = some v ∧ r.view E ("hat_" ++ n) = some v' ∧
        v'.parent = v.parent.map (fun m => "hat_" ++ m) ∧
        v'.geoms = if tr = true ∧ v.parent = none then [] else v.geoms.map inHatColor := by
  obtain ⟨s', par, hm, -, hr⟩ := C03_make_sys_noimu h hi
  obtain ⟨r, er, hrw, hnames, h1, h2, -⟩ := sys_render_ok h hi h0 hf tr hm hr
  refine ⟨r, er, hrw, by rw [hnames, removed_names h hr], h1, ?_⟩
  intro n hn
  have hn' := (hr.mem n).2 hn
  obtain ⟨v, v', hv, hrest⟩ := h2 n hn'
  exact ⟨v, v', by rw [← hr.view n hn', hv], hrest⟩

/-- C95: a link that is called like one of the predicted body: nothing is drawn. -/
theorem C95_names_taken {E : Env ℝ π} {s : System ℝ π} (h : s.WF E) (hi : ImusOnLinks s) (h0 : s.link_names ≠ [])
    {n : String} (hn : IsSegment s n) (ht : "hat_" ++ n ∈ s.link_names) (tr : Bool) :
    ∃ e, _sys_render E s tr = .error e := by
  obtain ⟨s', par, hm, -, hr⟩ := C03_make_sys_noimu h hi
  obtain ⟨f, -, -, hf3⟩ := keptGeoms_ok s' tr prediction_color (segments_nonempty h hi h0 hr) s'.geoms hr.wf.geoms_ok
  have e1 : _sys_render E s tr = inject_system E s (hatSys s' f) none := by
    unfold _sys_render _geoms_replace_color
    rw [hm, ok_bind]
    dsimp only
    rw [hf3]
    simp only [ok_bind, pure_ok]
    unfold add_prefix_suffix hatSys
    simp
  rw [e1]
  exact C04_duplicates_rejected ht (List.mem_map.2 ⟨n, (hr.mem n).2 hn, rfl⟩)

/-- C95: without IMUs the geometries of the world are drawn a second time, in the colour of the prediction, unless
roots are transparent and the *last* link happens to be a root. -/
theorem C95_world_fails {E : Env ℝ π} {s : System ℝ π} (h : s.WF E) (h0 : s.link_names ≠ []) (hno : s.findall_imus = [])
    (hf : HatsFree s) (tr : Bool) : ∃ r, _sys_render E s tr = .ok r ∧
      r.worldGeoms = s.worldGeoms ++
        (if tr = true ∧ s.link_parents.getLast? = some (-1) then [] else s.worldGeoms.map inHatColor) := by
  have hi : ImusOnLinks s := by
    have no : ∀ x ∈ s.link_names, ¬ generator.IsImu x := by
      intro x hx hx'
      have := mem_findall_imus.2 ⟨hx, hx'⟩
      rw [hno] at this
      cases this
    exact ⟨fun x hx hx' => absurd hx' (no x hx), fun x y hx _ hd => absurd hx (no x (isDesc_mem hd).1)⟩
  have hm : make_sys_noimu E s = .ok (s, []) := by
    unfold make_sys_noimu delete_subsystems
    simp only [Option.getD_none, hno]
    rfl
  have hr : s.Removed E (BelowImu s) s := by
    apply removed_none h
    rintro m hm ⟨x, hx, hd⟩
    have := mem_findall_imus.2 ⟨(isDesc_mem hd).1, hx⟩
    rw [hno] at this
    cases this
  obtain ⟨r, er, -, -, -, -, f, hf1, hw⟩ := sys_render_ok h hi h0 hf tr hm hr
  refine ⟨r, er, ?_⟩
  rw [hw]
  congr 1
  have hlen : 0 < s.link_parents.length := List.length_pos_iff.2 (segments_nonempty h hi h0 hr)
  unfold keepGeom at hf1
  cases tr with
  | false =>
    simp only [Bool.false_eq_true, if_false, pure_ok, Except.ok.injEq] at hf1
    rw [← hf1]
    simp
  | true =>
    simp only [if_true] at hf1
    have hlast : (-1 + (s.link_parents.length : Int)).toNat = s.link_parents.length - 1 := by omega
    have hlt : s.link_parents.length - 1 < s.link_parents.length := by omega
    have hg : pyGet s.link_parents (-1) = .ok s.link_parents[s.link_parents.length - 1] := by
      unfold pyGet
      simp only [show ((-1 : Int) < 0) from by omega, if_true]
      rw [if_neg (by omega), hlast, List.getElem?_eq_getElem hlt]
    rw [hg, ok_bind, pure_ok] at hf1
    rw [← Except.ok.inj hf1, List.getLast?_eq_getElem?, List.getElem?_eq_getElem hlt]
    by_cases hp : s.link_parents[s.link_parents.length - 1] = -1 <;> simp [hp]

/-! ## many time steps -/

/-- C95: `render_prediction` renders the system of the drawing, with the poses of every step drawn as above; offsets that
are not given are zero. -/
theorem C95_render {K Sc Img : Type} (lib : SceneLib (System ℝ π) K Sc Img)
    (eq : SceneArgs (System ℝ π) K → SceneArgs (System ℝ π) K → Py Bool) (restPose : System ℝ π → List (Transform ℝ))
    (cache : SceneCache (System ℝ π) K Sc) {E : JEnv ℝ π} {s : System ℝ π} (h : s.WF E.toEnv) (hi : ImusOnLinks s)
    (h0 : s.link_names ≠ []) (hf : HatsFree s) {steps : List (List (Transform ℝ) × List (String × Quat ℝ))}
    (hs : ∀ st ∈ steps, st.1.length = s.num_links ∧ ∀ n, IsSegment s n → ∃ q, st.2.lookup n = some q) (tr : Bool)
    (ot op : Option (Vec3 ℝ)) (backend : String) (kwargs : List (String × K)) (camera : Option String) (nth : Int) :
    ∃ r yss, _sys_render E.toEnv s tr = .ok r ∧
      List.Forall₂ (fun (st : List (Transform ℝ) × List (String × Quat ℝ)) ys => ys.length = r.num_links ∧
        Drawn s (poseNamed s st.1) (poseNamed r ys) (fun n => st.2.lookup n) (ot.getD ⟨0, 0, 0⟩) (op.getD ⟨0, 0, 0⟩)) steps yss ∧
      render_prediction lib eq restPose cache E s (steps.map fun st => (st.1, .dict st.2)) tr ot op backend kwargs camera nth =
        render lib eq num_links restPose cache ⟨r, backend, kwargs⟩ (.batched yss) camera nth := by
  obtain ⟨r, er, -⟩ := C95_bodies h hi h0 hf tr
  have : ∃ yss, stepsOf E s tr (ot.getD 0) (op.getD 0) (steps.map fun st => (st.1, .dict st.2)) = .ok yss ∧
      List.Forall₂ (fun (st : List (Transform ℝ) × List (String × Quat ℝ)) ys => ys.length = r.num_links ∧
        Drawn s (poseNamed s st.1) (poseNamed r ys) (fun n => st.2.lookup n) (ot.getD ⟨0, 0, 0⟩) (op.getD ⟨0, 0, 0⟩)) steps yss := by
    unfold stepsOf
    induction steps with
    | nil => exact ⟨[], rfl, .nil⟩
    | cons st steps ih =>
      obtain ⟨yss, e, hyss⟩ := ih (fun st hst => hs st (by simp [hst]))
      obtain ⟨h1, h2⟩ := hs st (by simp)
      obtain ⟨r', ys, e', er', hl, hd⟩ := C95_drawn h hi h0 hf h1 h2 tr (ot.getD ⟨0, 0, 0⟩) (op.getD ⟨0, 0, 0⟩)
      rw [er] at er'
      obtain rfl := Except.ok.inj er'
      refine ⟨ys :: yss, ?_, .cons ⟨hl, hd⟩ hyss⟩
      have e'' : _render_prediction_internals E s st.1 (.dict st.2) tr (ot.getD 0) (op.getD 0) = .ok (r, ys) := e'
      rw [List.map_cons, List.mapM_cons, e]
      simp only [e'', ok_bind, pure_ok]
  obtain ⟨yss, e, hyss⟩ := this
  refine ⟨r, yss, er, hyss, ?_⟩
  unfold render_prediction
  rw [e, er]

/-! ## an example -/

theorem imuSys_hats : HatsFree imuSys := by
  rintro n ⟨hn, -⟩ h
  simp [imuSys] at hn h
  rcases hn with rfl | rfl | rfl | rfl <;> simp [String.ext_iff] at h

theorem imuSys_segment {n : String} : IsSegment imuSys n ↔ n = "a" ∨ n = "b" ∨ n = "c" := by
  unfold IsSegment
  rw [imuSys_below]
  constructor
  · rintro ⟨a, b⟩
    simp [imuSys] at a
    tauto
  · rintro (rfl | rfl | rfl) <;> simp [imuSys]

/-- four links, all rotated -/
noncomputable def turned : List (Transform ℝ) := List.replicate 4 ⟨⟨1, 0, 0⟩, ⟨3/5, 4/5, 0, 0⟩⟩

/-- C95: with roots child-to-parent, as the comment says of `yhat`, the root is drawn turned the wrong way. -/
theorem C95_child_to_parent_fails : ∃ r ys x k, _render_prediction_internals stdEnv imuSys turned
      (.dict [("a", quat_inv ⟨3/5, 4/5, 0, 0⟩), ("b", ⟨1, 0, 0, 0⟩), ("c", ⟨1, 0, 0, 0⟩)]) true 0 0 = .ok (r, ys) ∧
    IsRoot imuSys "a" ∧ poseNamed imuSys turned "a" = some x ∧ x.rot = ⟨3/5, 4/5, 0, 0⟩ ∧
    poseNamed r ys "hat_a" = some k ∧ k.rot = ⟨3/5, -4/5, 0, 0⟩ ∧ k.pos = x.pos := by
  have hroot : IsRoot imuSys "a" := ⟨0, rfl, rfl⟩
  obtain ⟨r, ys, e, -, -, hd⟩ := C95_drawn (E := stdEnv) imuSys_wf imuSys_onLinks (by simp [imuSys]) imuSys_hats
    (xs := turned) rfl
    (d := [("a", quat_inv ⟨3/5, 4/5, 0, 0⟩), ("b", ⟨1, 0, 0, 0⟩), ("c", ⟨1, 0, 0, 0⟩)])
    (by intro n hn; rcases imuSys_segment.1 hn with rfl | rfl | rfl <;> exact ⟨_, rfl⟩) true 0 0
  obtain ⟨x, q, hx, hq, hk⟩ := hd.root "a" (imuSys_segment.2 (.inl rfl)) hroot
  have hx' : poseNamed imuSys turned "a" = some ⟨⟨1, 0, 0⟩, ⟨3/5, 4/5, 0, 0⟩⟩ := by
    rw [poseNamed_eq (i := 0) imuSys_wf.names_nodup rfl]; rfl
  rw [hx] at hx'
  obtain rfl := Option.some.inj hx'
  have hq' : q = quat_inv ⟨3/5, 4/5, 0, 0⟩ := (Option.some.inj hq).symm
  subst hq'
  refine ⟨r, ys, _, _, e, hroot, hx, rfl, hk, ?_, ?_⟩
  · simp [movedBy, quat_inv]; norm_num
  · ext <;> simp [movedBy]

/-- the hypotheses of `C95_exact` can be met: parallel links -/
example : ∃ r ys, _render_prediction_internals stdEnv imuSys turned
      (.dict [("a", ⟨3/5, 4/5, 0, 0⟩), ("b", ⟨1, 0, 0, 0⟩), ("c", ⟨1, 0, 0, 0⟩)]) true 0 ⟨0, 2, 0⟩ = .ok (r, ys) ∧
    ∀ n, IsSegment imuSys n → ∃ x, poseNamed imuSys turned n = some x ∧
      poseNamed r ys ("hat_" ++ n) = some (movedBy ⟨0, 2, 0⟩ x) := by
  have hpose : ∀ n x, poseNamed imuSys turned n = some x → x.rot = ⟨3/5, 4/5, 0, 0⟩ := by
    intro n x hx
    unfold poseNamed at hx
    rw [Option.bind_eq_some_iff] at hx
    obtain ⟨i, -, hxi⟩ := hx
    rw [List.eq_of_mem_replicate (List.mem_of_getElem? hxi)]
  apply C95_exact imuSys_wf imuSys_onLinks (by simp [imuSys]) imuSys_hats rfl
  · intro x hx
    rw [List.eq_of_mem_replicate hx]
    simp [Quat.normSq]; norm_num
  · constructor
    · intro n x hn hr hx
      rw [hpose n x hx]
      obtain ⟨i, h1, h2⟩ := hr
      rcases imuSys_segment.1 hn with rfl | rfl | rfl
      · rfl
      · obtain rfl := uniqueIdx imuSys_wf.names_nodup h1 (show imuSys.link_names[1]? = some "b" from rfl)
        simp [imuSys, kinSys] at h2
      · obtain rfl := uniqueIdx imuSys_wf.names_nodup h1 (show imuSys.link_names[2]? = some "c" from rfl)
        simp [imuSys, kinSys] at h2
    · intro n m x xp hn hp hx hxp
      rw [hpose n x hx, hpose m xp hxp]
      obtain ⟨i, p, h1, h2, h3⟩ := hp
      have e : quat_mul (⟨3/5, 4/5, 0, 0⟩ : Quat ℝ) (quat_inv ⟨3/5, 4/5, 0, 0⟩) = ⟨1, 0, 0, 0⟩ := by
        ext <;> simp [quat_mul, quat_inv] <;> norm_num
      rw [e]
      rcases imuSys_segment.1 hn with rfl | rfl | rfl
      · obtain rfl := uniqueIdx imuSys_wf.names_nodup h1 (show imuSys.link_names[0]? = some "a" from rfl)
        simp [imuSys, kinSys] at h2
      · rfl
      · rfl

end RingLib.rendering
