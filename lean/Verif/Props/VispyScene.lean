import Mathlib.Data.List.Nodup
import Mathlib.Data.List.Dedup
import Verif.Model.VispyScene
import Verif.Props.Render

/-!
# C97: what is on the canvas of vispy

After `init` and `update` the canvas shows every geometry in its pose, axes for links and for the root if asked for, and
nothing else, whatever was done with the scene before.
-/

namespace RingLib.rendering
open VScene

variable {Cam Img : Type}

/-! ## Specification -/

/-- what a node shows: a visual, and where -/
def Node.shown (n : Node) : Visual × Option (Matrix (Fin 4) (Fin 4) ℝ) := (n.visual, n.transform)

/-- a point with coordinates `p` is drawn where it has coordinates `p` in the frame `g` on the link `i` -/
def Placed (x : List (Transform ℝ)) (i : Int) (g : Transform ℝ) (m : Option (Matrix (Fin 4) (Fin 4) ℝ)) : Prop :=
  ∃ t M, linkFrame x i = some t ∧ m = some M ∧ ∀ p, g.point (t.point (rowPoint M p)) = p

/-- the identity of frames -/
def noTransform : Transform ℝ := ⟨0, ⟨1, 0, 0, 0⟩⟩

/-- all that can be done with a scene, with or without errors -/
inductive Reachable : VScene Cam → Prop
  | create (c a b) : Reachable (VScene.create c a b)
  | init {s} (gs) : Reachable s → Reachable (s.init gs).1
  | update {s} (x) : Reachable s → Reachable (s.update x).1
  | render {Img : Type} {s} (photo : List Node → Cam → Img) (c) : Reachable s → Reachable (s.render photo c).1
  | enable {s} (b) : Reachable s → Reachable (s.enable_xyz b)
  | disable {s} (b) : Reachable s → Reachable (s.disable_xyz b)
  | transform1 {s} (b) : Reachable s → Reachable (s.set_xyz_transform1 b)

/-- nodes that the scene does not know -/
def forgotten (s : VScene Cam) : List Node := s.canvas.filter fun n => n.id ∉ s.visuals

/-! ## Lists of nodes -/

/-- new nodes -/
def nodesFrom : Nat → List Visual → List Node
  | _, [] => []
  | k, v :: vs => ⟨k, v, none⟩ :: nodesFrom (k + 1) vs

theorem nodesFrom_ids : ∀ (vs : List Visual) k, (nodesFrom k vs).map Node.id = List.range' k vs.length
  | [], _ => rfl
  | v :: vs, k => by simp [nodesFrom, nodesFrom_ids vs, List.range'_succ]

theorem nodesFrom_visual : ∀ (vs : List Visual) k, (nodesFrom k vs).map Node.visual = vs
  | [], _ => rfl
  | v :: vs, k => by simp [nodesFrom, nodesFrom_visual vs]

theorem nodesFrom_append : ∀ (vs ws : List Visual) k, nodesFrom k (vs ++ ws) = nodesFrom k vs ++ nodesFrom (k + vs.length) ws
  | [], ws, k => rfl
  | v :: vs, ws, k => by
    simp only [List.cons_append, nodesFrom, nodesFrom_append vs, List.length_cons]
    rw [show k + 1 + vs.length = k + (vs.length + 1) by omega]

theorem nodesFrom_length (vs : List Visual) (k : Nat) : (nodesFrom k vs).length = vs.length := by
  have := congrArg List.length (nodesFrom_visual vs k); simpa using this

/-- the given transforms are set -/
def placeAll (mid : List Node) (ms : List (Matrix (Fin 4) (Fin 4) ℝ)) : List Node :=
  List.zipWith (fun (n : Node) m => { n with transform := some m }) mid ms

theorem placeAll_ids : ∀ (mid : List Node) (ms : List (Matrix (Fin 4) (Fin 4) ℝ)), mid.length = ms.length →
    (placeAll mid ms).map Node.id = mid.map Node.id
  | [], ms, _ => by simp [placeAll]
  | n :: mid, [], h => by simp at h
  | n :: mid, m :: ms, h => by
    have := placeAll_ids mid ms (by simpa using h)
    simp only [placeAll, List.zipWith_cons_cons, List.map_cons] at this ⊢
    rw [this]

theorem placeAll_some (mid : List Node) (ms : List (Matrix (Fin 4) (Fin 4) ℝ)) : ∀ n ∈ placeAll mid ms, n.transform ≠ none := by
  intro n hn
  unfold placeAll at hn
  obtain ⟨i, h, rfl⟩ := List.getElem_of_mem hn
  simp

theorem placeAll_twice : ∀ (mid : List Node) (ms ms' : List (Matrix (Fin 4) (Fin 4) ℝ)), mid.length = ms.length →
    placeAll (placeAll mid ms) ms' = placeAll mid ms'
  | [], _, _, _ => by simp [placeAll]
  | n :: mid, [], _, h => by simp at h
  | n :: mid, m :: ms, [], h => by simp [placeAll]
  | n :: mid, m :: ms, m' :: ms', h => by
    have := placeAll_twice mid ms ms' (by simpa using h)
    simp only [placeAll, List.zipWith_cons_cons] at this ⊢
    rw [this]

theorem setTransform_other {l : List Node} {id : Nat} {m} (h : id ∉ l.map Node.id) : setTransform l id m = l := by
  unfold setTransform
  conv_rhs => rw [← List.map_id l]
  apply List.map_congr_left
  intro n hn
  have hne : n.id ≠ id := fun e => h (e ▸ List.mem_map_of_mem hn)
  rw [if_neg hne]
  rfl

theorem setTransform_append (a b : List Node) (id m) : setTransform (a ++ b) id m = setTransform a id m ++ setTransform b id m := by
  simp [setTransform]

theorem updateLoop_eq (fresh : Bool) (ts : List (Matrix (Fin 4) (Fin 4) ℝ)) : ∀ (mid : List Node) (ms) (i : Nat) (old rest : List Node),
    (mid.map Node.id).Nodup → (∀ j ∈ mid.map Node.id, j ∉ old.map Node.id ∧ j ∉ rest.map Node.id) →
    (fresh = true ∨ ∀ n ∈ mid, n.transform ≠ none) → ts.drop i = ms → ms.length = mid.length →
    updateLoop fresh ts i (mid.map Node.id) (old ++ mid ++ rest) = (old ++ placeAll mid ms ++ rest, .ok ()) := by
  intro mid
  induction mid with
  | nil => intro ms i old rest _ _ _ _ _; simp [updateLoop, placeAll]
  | cons n mid ih =>
    intro ms i old rest hnd hdis hf hts hlen
    obtain ⟨m, ms, rfl⟩ : ∃ m ms', ms = m :: ms' := by
      cases ms with
      | nil => simp at hlen
      | cons m ms => exact ⟨m, ms, rfl⟩
    have hi : ts[i]? = some m := by
      have := congrArg (fun l : List (Matrix (Fin 4) (Fin 4) ℝ) => l[0]?) hts
      simpa using this
    have hts' : ts.drop (i + 1) = ms := by
      have := congrArg (List.drop 1) hts
      simpa [List.drop_drop] using this
    rw [List.map_cons, List.nodup_cons] at hnd
    have h0 := hdis n.id (by simp)
    have hany : (!fresh && (old ++ (n :: mid) ++ rest).any fun k => k.id == n.id && k.transform.isNone) = false := by
      rcases hf with rfl | hf
      · rfl
      · simp only [Bool.and_eq_false_iff]
        right
        rw [List.any_eq_false]
        intro k hk
        simp only [List.mem_append, List.mem_cons] at hk
        simp only [Bool.and_eq_true, beq_iff_eq, not_and, Bool.not_eq_true]
        intro e
        rcases hk with (hk | rfl | hk) | hk
        · exact absurd (e ▸ List.mem_map_of_mem hk) h0.1
        · have := hf k (by simp); cases hkk : k.transform <;> simp_all
        · exact absurd (e ▸ List.mem_map_of_mem hk) hnd.1
        · exact absurd (e ▸ List.mem_map_of_mem hk) h0.2
    rw [List.map_cons, updateLoop, hi]
    simp only [hany]
    have hset : setTransform (old ++ (n :: mid) ++ rest) n.id m = (old ++ [(⟨n.id, n.visual, some m⟩ : Node)]) ++ mid ++ rest := by
      rw [setTransform_append, setTransform_append, setTransform_other h0.1, setTransform_other h0.2,
        show n :: mid = [n] ++ mid from rfl, setTransform_append, setTransform_other hnd.1]
      simp [setTransform]
    rw [hset]
    rw [if_neg (by simp)]
    rw [ih ms (i + 1) (old ++ [(⟨n.id, n.visual, some m⟩ : Node)]) rest hnd.2 ?_ ?_ hts' (by simpa using hlen)]
    · simp [placeAll]
    · intro j hj
      have := hdis j (by simp only [List.map_cons, List.mem_cons]; right; exact hj)
      refine ⟨?_, this.2⟩
      simp only [List.map_append, List.map_cons, List.map_nil, List.mem_append, List.mem_singleton, not_or]
      exact ⟨this.1, fun e => hnd.1 (e ▸ hj)⟩
    · rcases hf with hf | hf
      · exact .inl hf
      · exact .inr fun k hk => hf k (by simp [hk])

/-! ## `init` -/

theorem addGeoms_eq : ∀ (geoms : List VGeom) (vs : List Visual) (s : VScene Cam),
    List.Forall₂ (fun g v => visualOf g = .ok v) geoms vs →
    addGeoms s geoms = (⟨s.xyz, s.xyz_root, s.xyz_transform1, s.canvas ++ nodesFrom s.next vs, s.next + vs.length,
      s.visuals ++ List.range' s.next vs.length, s.geoms, s.fresh_init, s.batch, s.camera⟩,
      geoms.map (fun g => (g.link_idx, s.geomTransform g)), .ok ()) := by
  intro geoms
  induction geoms with
  | nil => intro vs s h; cases h; simp [addGeoms, nodesFrom]
  | cons g gs ih =>
    intro vs s h
    cases h with
    | cons h1 h2 =>
      rename_i v vs
      rw [addGeoms, h1]
      simp only
      rw [ih vs _ h2]
      have ht : ∀ g, (s.push v).geomTransform g = s.geomTransform g := fun g => rfl
      simp [push, add, nodesFrom, List.range'_succ, geomTransform, Nat.add_comm, Nat.add_left_comm]

theorem addLinks_eq : ∀ (links : List Int) (s : VScene Cam),
    addLinks s links = ⟨s.xyz, s.xyz_root, s.xyz_transform1,
      s.canvas ++ nodesFrom s.next (List.replicate links.length .axes), s.next + links.length,
      s.visuals ++ List.range' s.next links.length, s.geoms ++ List.replicate links.length none, s.fresh_init, s.batch,
      s.camera⟩ := by
  intro links
  induction links with
  | nil => intro s; simp [addLinks, nodesFrom]
  | cons i links ih =>
    intro s
    unfold addLinks at ih ⊢
    rw [List.foldl_cons, ih]
    simp [push, add, nodesFrom, List.range'_succ, List.replicate_succ, Nat.add_comm, Nat.add_left_comm]

/-- the links that get axes -/
def axesLinks (s : VScene Cam) (geoms : List VGeom) : List Int :=
  if s.xyz then unique (geoms.map fun g => g.link_idx) else []

theorem init_eq (s : VScene Cam) {geoms : List VGeom} (hne : geoms ≠ []) {vs : List Visual}
    (h : List.Forall₂ (fun g v => visualOf g = .ok v) geoms vs) :
    s.init geoms = (⟨s.xyz, s.xyz_root, s.xyz_transform1,
      forgotten s ++ nodesFrom s.next (vs ++ List.replicate (axesLinks s geoms).length .axes) ++
        (if s.xyz_root then [⟨s.next + (vs.length + (axesLinks s geoms).length), .axes, none⟩] else []),
      s.next + (vs.length + (axesLinks s geoms).length) + (if s.xyz_root then 1 else 0),
      List.range' s.next (vs.length + (axesLinks s geoms).length),
      geoms.map some ++ List.replicate (axesLinks s geoms).length none, true,
      some (geoms.map (fun g => (g.link_idx, s.geomTransform g)) ++ (axesLinks s geoms).map fun i => (i, noTransform)),
      s.camera⟩, .ok ()) := by
  unfold init
  simp only
  rw [addGeoms_eq geoms vs _ h]
  simp only [addLinks_eq]
  have hl : (if s.remove_all_visuals.xyz = true then
      unique (List.map Prod.fst (List.map (fun g : VGeom => (g.link_idx,
        VScene.geomTransform { s.remove_all_visuals with geoms := geoms.map some, fresh_init := true, visuals := [] } g)) geoms))
      else []) = axesLinks s geoms := by
    unfold axesLinks
    rw [List.map_map]
    rfl
  simp only [hl]
  have hne' : ¬ (geoms.map (fun g : VGeom => (g.link_idx,
      VScene.geomTransform { s.remove_all_visuals with geoms := geoms.map some, fresh_init := true, visuals := [] } g)) ++
      (axesLinks s geoms).map fun i => (i, (⟨0, ⟨1, 0, 0, 0⟩⟩ : Transform ℝ))) = [] := by
    intro e
    rw [List.append_eq_nil_iff, List.map_eq_nil_iff] at e
    exact hne e.1
  rw [if_neg hne']
  have hr : List.range' s.next (vs.length + (axesLinks s geoms).length) =
      List.range' s.next vs.length ++ List.range' (s.next + vs.length) (axesLinks s geoms).length := by
    rw [List.range'_append_1]
  have hn : s.next + vs.length + (axesLinks s geoms).length = s.next + (vs.length + (axesLinks s geoms).length) := by omega
  have h1 : s.remove_all_visuals.xyz_root = s.xyz_root := rfl
  have hc : forgotten s ++ nodesFrom s.next (vs ++ List.replicate (axesLinks s geoms).length .axes) =
      s.remove_all_visuals.canvas ++ nodesFrom s.remove_all_visuals.next vs ++
        nodesFrom (s.remove_all_visuals.next + vs.length) (List.replicate (axesLinks s geoms).length .axes) := by
    rw [nodesFrom_append, List.append_assoc]; rfl
  have hv : [] ++ List.range' s.remove_all_visuals.next vs.length ++
      List.range' (s.remove_all_visuals.next + vs.length) (axesLinks s geoms).length =
      List.range' s.next (vs.length + (axesLinks s geoms).length) := by rw [hr]; rfl
  have hn' : s.remove_all_visuals.next + vs.length + (axesLinks s geoms).length =
      s.next + (vs.length + (axesLinks s geoms).length) := hn
  rw [hc, h1, hv, hn']
  cases hroot : s.xyz_root with
  | true => rfl
  | false => simp only [Bool.false_eq_true, if_false, List.append_nil, Nat.add_zero]; rfl

/-! ## An invariant of all scenes -/

/-- numbers are below the next one, and what the scene does not know is axes without a transform -/
structure SceneInv (s : VScene Cam) : Prop where
  ids : ∀ n ∈ s.canvas, n.id < s.next
  vis : ∀ i ∈ s.visuals, i < s.next
  left : ∀ n ∈ s.canvas, n.id ∉ s.visuals → n.shown = (.axes, none)

theorem SceneInv.push {s : VScene Cam} (h : SceneInv s) (v : Visual) : SceneInv (s.push v) := by
  refine ⟨?_, ?_, ?_⟩
  · intro n hn
    simp only [VScene.push, add, List.mem_append, List.mem_singleton] at hn ⊢
    rcases hn with hn | rfl
    · exact Nat.lt_succ_of_lt (h.ids n hn)
    · exact Nat.lt_succ_self _
  · intro i hi
    simp only [VScene.push, add, List.mem_append, List.mem_singleton] at hi ⊢
    rcases hi with hi | rfl
    · exact Nat.lt_succ_of_lt (h.vis i hi)
    · exact Nat.lt_succ_self _
  · intro n hn hv
    simp only [VScene.push, add, List.mem_append, List.mem_singleton, not_or] at hn hv
    rcases hn with hn | rfl
    · exact h.left n hn hv.1
    · exact absurd rfl hv.2

theorem SceneInv.addRoot {s : VScene Cam} (h : SceneInv s) : SceneInv (s.add .axes) := by
  refine ⟨?_, ?_, ?_⟩
  · intro n hn
    simp only [add, List.mem_append, List.mem_singleton] at hn ⊢
    rcases hn with hn | rfl
    · exact Nat.lt_succ_of_lt (h.ids n hn)
    · exact Nat.lt_succ_self _
  · intro i hi
    exact Nat.lt_succ_of_lt (h.vis i hi)
  · intro n hn hv
    simp only [add, List.mem_append, List.mem_singleton] at hn hv
    rcases hn with hn | rfl
    · exact h.left n hn hv
    · rfl

theorem SceneInv.addGeoms : ∀ (gs : List VGeom) {s : VScene Cam}, SceneInv s → SceneInv (s.addGeoms gs).1
  | [], _, h => h
  | g :: gs, s, h => by
    unfold VScene.addGeoms
    cases visualOf g with
    | error e => exact h
    | ok v => exact SceneInv.addGeoms gs (h.push v)

theorem SceneInv.addLinks : ∀ (links : List Int) {s : VScene Cam}, SceneInv s → SceneInv (s.addLinks links)
  | [], _, h => h
  | i :: links, s, h => by
    unfold VScene.addLinks
    rw [List.foldl_cons]
    have h' := h.push .axes
    exact SceneInv.addLinks links (s := { s.push .axes with geoms := (s.push .axes).geoms ++ [none] }) ⟨h'.ids, h'.vis, h'.left⟩

theorem SceneInv.init {s : VScene Cam} (h : SceneInv s) (gs : List VGeom) : SceneInv (s.init gs).1 := by
  have h0 : SceneInv { s.remove_all_visuals with geoms := gs.map some, fresh_init := true, visuals := [] } := by
    refine ⟨?_, by simp, ?_⟩
    · intro n hn
      exact h.ids n (List.mem_of_mem_filter hn)
    · intro n hn _
      have := List.mem_filter.1 hn
      exact h.left n this.1 (by simpa using this.2)
  have h1 := SceneInv.addGeoms gs h0
  unfold VScene.init
  simp only
  generalize VScene.addGeoms _ gs = r at h1
  obtain ⟨s1, l, e⟩ := r
  cases e with
  | error e => exact h1
  | ok u =>
    simp only at h1 ⊢
    have h2 := SceneInv.addLinks (if s1.xyz then unique (l.map Prod.fst) else []) h1
    generalize (if s1.xyz then unique (l.map Prod.fst) else []) = links at h2 ⊢
    generalize VScene.addLinks s1 links = s2 at h2 ⊢
    have h3 : SceneInv (if s2.xyz_root then s2.add .axes else s2) := by
      split
      · exact h2.addRoot
      · exact h2
    split
    · exact h3
    · exact ⟨h3.ids, h3.vis, h3.left⟩

theorem setTransform_inv {s : VScene Cam} (h : SceneInv s) {id : Nat} (hid : id ∈ s.visuals) (m) :
    SceneInv { s with canvas := setTransform s.canvas id m } := by
  refine ⟨?_, h.vis, ?_⟩
  · intro n hn
    simp only [setTransform, List.mem_map] at hn
    obtain ⟨k, hk, rfl⟩ := hn
    have := h.ids k hk
    split <;> exact this
  · intro n hn hv
    simp only [setTransform, List.mem_map] at hn
    obtain ⟨k, hk, rfl⟩ := hn
    by_cases e : k.id = id
    · rw [if_pos e] at hv
      exact absurd (e ▸ hid) hv
    · rw [if_neg e] at hv ⊢
      exact h.left k hk hv

theorem updateLoop_inv (fresh : Bool) (ts : List (Matrix (Fin 4) (Fin 4) ℝ)) : ∀ (ids : List Nat) (i : Nat) {s : VScene Cam},
    SceneInv s → (∀ j ∈ ids, j ∈ s.visuals) → SceneInv { s with canvas := (updateLoop fresh ts i ids s.canvas).1 }
  | [], _, s, h, _ => ⟨h.ids, h.vis, h.left⟩
  | id :: ids, i, s, h, hids => by
    unfold updateLoop
    split
    · exact ⟨h.ids, h.vis, h.left⟩
    · split
      · exact ⟨h.ids, h.vis, h.left⟩
      · rename_i m _ _
        exact updateLoop_inv fresh ts ids (i + 1) (setTransform_inv h (hids id (by simp)) m) fun j hj => hids j (by simp [hj])

theorem SceneInv.update {s : VScene Cam} (h : SceneInv s) (x : List (Transform ℝ)) : SceneInv (s.update x).1 := by
  unfold VScene.update
  split
  · exact h
  · split
    · exact h
    · rename_i ts _
      have := updateLoop_inv s.fresh_init ts ((s.visuals.zip s.geoms).map Prod.fst) 0 h (by
        intro j hj
        simp only [List.mem_map] at hj
        obtain ⟨⟨a, b⟩, hab, rfl⟩ := hj
        exact (List.of_mem_zip hab).1)
      split
      · rename_i e; rw [e] at this; exact this
      · rename_i e; rw [e] at this; exact ⟨this.ids, this.vis, this.left⟩

theorem renderList (photo : List Node → Cam → Img) : ∀ (l : List Cam) (r : VScene Cam × List Img),
    l.foldl (fun (r : VScene Cam × List Img) c => ({ r.1 with camera := c }, r.2 ++ [photo r.1.canvas c])) r =
      ({ r.1 with camera := l.getLastD r.1.camera }, r.2 ++ l.map (photo r.1.canvas))
  | [], r => by simp
  | c :: l, r => by
    rw [List.foldl_cons, renderList photo l]
    simp only [List.map_cons, List.getLastD_cons, List.append_assoc, List.singleton_append]

theorem reachable_inv {s : VScene Cam} (h : Reachable s) : SceneInv s := by
  induction h with
  | create c a b =>
    have : ∀ s : VScene Cam, s.canvas = [] → s.visuals = [] → SceneInv s := fun s h1 h2 =>
      ⟨by simp [h1], by simp [h2], by simp [h1]⟩
    unfold VScene.create
    cases a <;> cases b <;> exact this _ rfl rfl
  | init gs _ ih => exact ih.init gs
  | update x _ ih => exact ih.update x
  | render photo c _ ih =>
    cases c with
    | none => exact ih
    | one c => exact ⟨ih.ids, ih.vis, ih.left⟩
    | list l =>
      unfold VScene.render
      simp only [renderList]
      exact ⟨ih.ids, ih.vis, ih.left⟩
  | enable b _ ih => cases b <;> exact ⟨ih.ids, ih.vis, ih.left⟩
  | disable b _ ih => cases b <;> exact ⟨ih.ids, ih.vis, ih.left⟩
  | transform1 b _ ih => exact ⟨ih.ids, ih.vis, ih.left⟩

/-! ## `update` -/

/-- a scene between `init` and the next `init`: `mid` are the nodes that move -/
structure Laid (s : VScene Cam) (old mid rest : List Node) (batch : List (Int × Transform ℝ)) : Prop where
  canvas : s.canvas = old ++ mid ++ rest
  visuals : s.visuals = mid.map Node.id
  nodup : (mid.map Node.id).Nodup
  apart : ∀ j ∈ mid.map Node.id, j ∉ old.map Node.id ∧ j ∉ rest.map Node.id
  fresh : s.fresh_init = true ∨ ∀ n ∈ mid, n.transform ≠ none
  size : batch.length = mid.length
  stored : s.batch = some batch
  geoms : s.geoms.length = mid.length

theorem update_laid {s : VScene Cam} {old mid rest batch} (h : Laid s old mid rest batch) {x ms}
    (hx : transformPerVisual x batch = .ok ms) :
    ms.length = mid.length ∧
    s.update x = ({ s with canvas := old ++ placeAll mid ms ++ rest, fresh_init := false }, .ok ()) ∧
    Laid (s.update x).1 old (placeAll mid ms) rest batch := by
  have hlen : ms.length = batch.length := by
    unfold transformPerVisual at hx
    exact (mapM_ok hx).length_eq.symm
  have hms : ms.length = mid.length := hlen.trans h.size
  have hids : (s.visuals.zip s.geoms).map Prod.fst = mid.map Node.id := by
    rw [List.map_fst_zip (by rw [h.visuals, h.geoms]; simp), h.visuals]
  have e : s.update x = ({ s with canvas := old ++ placeAll mid ms ++ rest, fresh_init := false }, .ok ()) := by
    unfold VScene.update
    rw [h.stored]
    simp only [hx, hids, h.canvas]
    rw [updateLoop_eq s.fresh_init ms mid ms 0 old rest h.nodup h.apart h.fresh rfl hms]
  refine ⟨hms, e, ?_⟩
  rw [e]
  have hi := placeAll_ids mid ms hms.symm
  exact ⟨rfl, by rw [hi]; exact h.visuals, by rw [hi]; exact h.nodup, by rw [hi]; exact h.apart,
    .inr (placeAll_some mid ms), by simp [placeAll, h.size, hms], h.stored, by simp [placeAll, h.geoms, hms]⟩

theorem mapM_forall₂ {α β : Type} {f : α → Py β} {l : List α} {r : List β} (h : List.Forall₂ (fun a b => f a = .ok b) l r) :
    l.mapM f = .ok r := by
  induction h with
  | nil => rfl
  | cons h1 _ ih => simp [List.mapM_cons, h1, ih, bind, Except.bind, pure, Except.pure]

theorem forall₂_of_forall {α β : Type} {R : α → β → Prop} : ∀ {l : List α}, (∀ a ∈ l, ∃ b, R a b) → ∃ r, List.Forall₂ R l r
  | [], _ => ⟨[], .nil⟩
  | a :: l, h => by
    obtain ⟨b, hb⟩ := h a (by simp)
    obtain ⟨r, hr⟩ := forall₂_of_forall (l := l) fun a' ha' => h a' (by simp [ha'])
    exact ⟨b :: r, .cons hb hr⟩

theorem visuals_exist {geoms : List VGeom} (hcap : ∀ g ∈ geoms, ∀ r l, g.shape = .capsule r l → 2 * r ≤ l) :
    ∃ vs, List.Forall₂ (fun g v => visualOf g = .ok v) geoms vs := by
  apply forall₂_of_forall
  intro g hg
  have := hcap g hg
  unfold visualOf
  cases hs : g.shape with
  | capsule r l =>
    simp only [capsuleMesh, if_neg (not_lt.2 (this r l hs))]
    exact ⟨_, rfl⟩
  | xyz _ => exact ⟨_, rfl⟩
  | sphere r => exact ⟨_, rfl⟩
  | box a b c => exact ⟨_, rfl⟩
  | cylinder r l => exact ⟨_, rfl⟩

theorem init_laid {s : VScene Cam} (hs : SceneInv s) {geoms : List VGeom} (hne : geoms ≠ []) {vs : List Visual}
    (h : List.Forall₂ (fun g v => visualOf g = .ok v) geoms vs) :
    Laid (s.init geoms).1 (forgotten s) (nodesFrom s.next (vs ++ List.replicate (axesLinks s geoms).length .axes))
      (if s.xyz_root then [⟨s.next + (vs.length + (axesLinks s geoms).length), .axes, none⟩] else [])
      (geoms.map (fun g => (g.link_idx, s.geomTransform g)) ++ (axesLinks s geoms).map fun i => (i, noTransform)) := by
  rw [init_eq s hne h]
  have hl := h.length_eq
  refine ⟨rfl, ?_, ?_, ?_, .inl rfl, ?_, rfl, ?_⟩
  · simp [nodesFrom_ids]
  · simp [nodesFrom_ids, List.nodup_range']
  · intro j hj
    simp only [nodesFrom_ids, List.mem_range'_1, List.length_append, List.length_replicate] at hj
    constructor
    · intro hm
      obtain ⟨n, hn, rfl⟩ := List.mem_map.1 hm
      have := hs.ids n (List.mem_of_mem_filter hn)
      omega
    · split
      · simp; omega
      · simp
  · simp [nodesFrom_length, hl]
  · simp [nodesFrom_length, hl]

theorem unique_spec (l : List Int) : (unique l).Pairwise (· < ·) ∧ ∀ i, i ∈ unique l ↔ i ∈ l := by
  constructor
  · have h1 : (unique l).Pairwise (· ≤ ·) := by
      unfold unique
      refine List.Pairwise.sublist (List.dedup_sublist _) ?_
      have := List.pairwise_mergeSort (le := fun a b : Int => decide (a ≤ b))
        (fun a b c h1 h2 => by simp at *; omega) (fun a b => by simp; omega) l
      exact this.imp (by simp)
    have h2 : (unique l).Nodup := List.nodup_dedup _
    exact (h1.and h2).imp fun {a b} h => lt_of_le_of_ne h.1 h.2
  · intro i
    unfold unique
    rw [List.mem_dedup, List.mem_mergeSort]

theorem placed_transform {x : List (Transform ℝ)} {i : Int} {g : Transform ℝ} (hx : ∃ t, linkFrame x i = some t ∧ t.IsUnit)
    (hg : g.IsUnit) : ∃ M, _compute_transform_per_visual x g i = .ok M ∧ Placed x i g (some M) := by
  obtain ⟨t, ht, hu⟩ := hx
  obtain ⟨M, h1, h2⟩ := C93_vispy_pose ht hu hg
  exact ⟨M, h1, t, M, ht, rfl, h2⟩

theorem noTransform_unit : noTransform.IsUnit := by
  simp [noTransform, Transform.IsUnit, Quat.IsUnit, Quat.normSq]

theorem shown_placeAll : ∀ (vs : List Visual) (k : Nat) (ms : List (Matrix (Fin 4) (Fin 4) ℝ)),
    (placeAll (nodesFrom k vs) ms).map Node.shown = vs.zip (ms.map some)
  | [], _, _ => by simp [nodesFrom, placeAll]
  | v :: vs, k, [] => by simp [nodesFrom, placeAll]
  | v :: vs, k, m :: ms => by
    have := shown_placeAll vs (k + 1) ms
    simp only [placeAll, nodesFrom] at this ⊢
    simp [this, Node.shown]

/-! ## C97 -/

/-- **C97**: whatever was done with the scene before, `init` with geometries and `update` with poses succeed, and then
the canvas shows, after axes at the root left from before: every geometry in its pose (axes of the kind `XYZ` at the
origin of their link if so asked), axes on every link with a geometry if axes of links are on, and axes at the root if
those are on. A scene that had nothing on the canvas has nothing left from before. -/
theorem C97_drawn {s : VScene Cam} (hs : Reachable s) {geoms : List VGeom} (hne : geoms ≠ [])
    (hcap : ∀ g ∈ geoms, ∀ r l, g.shape = .capsule r l → 2 * r ≤ l) {x : List (Transform ℝ)}
    (hx : ∀ g ∈ geoms, ∃ t, linkFrame x g.link_idx = some t ∧ t.IsUnit) (hu : ∀ g ∈ geoms, g.transform.IsUnit) :
    ∃ s1 s2 : VScene Cam, s.init geoms = (s1, .ok ()) ∧ s1.update x = (s2, .ok ()) ∧ ∃ left bodies links idx,
      s2.canvas.map Node.shown = left ++ bodies ++ links ++ (if s.xyz_root then [(.axes, none)] else []) ∧
      (∀ n ∈ left, n = (Visual.axes, none)) ∧ (s.canvas = [] → left = []) ∧
      List.Forall₂ (fun g n => visualOf g = .ok n.1 ∧
        Placed x g.link_idx (if g.isXYZ && !s.xyz_transform1 then noTransform else g.transform) n.2) geoms bodies ∧
      List.Forall₂ (fun i n => n.1 = .axes ∧ Placed x i noTransform n.2) idx links ∧
      idx.Pairwise (· < ·) ∧ ∀ i, i ∈ idx ↔ s.xyz = true ∧ ∃ g ∈ geoms, g.link_idx = i := by
  have hinv := reachable_inv hs
  obtain ⟨vs, hvs⟩ := visuals_exist hcap
  have hlaid := init_laid hinv hne hvs
  have hidx : (axesLinks s geoms).Pairwise (· < ·) ∧ ∀ i, i ∈ axesLinks s geoms ↔ s.xyz = true ∧ ∃ g ∈ geoms, g.link_idx = i := by
    unfold axesLinks
    cases s.xyz
    · simp
    · have := unique_spec (geoms.map fun g => g.link_idx)
      simpa using this
  obtain ⟨ms1, hms1⟩ : ∃ ms, List.Forall₂ (fun (g : VGeom) M => _compute_transform_per_visual x (s.geomTransform g) g.link_idx = .ok M ∧
      Placed x g.link_idx (s.geomTransform g) (some M)) geoms ms := by
    apply forall₂_of_forall
    intro g hg
    apply placed_transform (hx g hg)
    unfold geomTransform
    split
    · exact noTransform_unit
    · exact hu g hg
  obtain ⟨ms2, hms2⟩ : ∃ ms, List.Forall₂ (fun i M => _compute_transform_per_visual x noTransform i = .ok M ∧
      Placed x i noTransform (some M)) (axesLinks s geoms) ms := by
    apply forall₂_of_forall
    intro i hi
    obtain ⟨g, hg, rfl⟩ := ((hidx.2 i).1 hi).2
    exact placed_transform (hx g hg) noTransform_unit
  have hts : transformPerVisual x (geoms.map (fun g => (g.link_idx, s.geomTransform g)) ++
      (axesLinks s geoms).map fun i => (i, noTransform)) = .ok (ms1 ++ ms2) := by
    apply mapM_forall₂
    apply List.rel_append
    · rw [List.forall₂_map_left_iff]
      exact hms1.imp fun _ _ h => h.1
    · rw [List.forall₂_map_left_iff]
      exact hms2.imp fun _ _ h => h.1
  obtain ⟨hlen, hup, -⟩ := update_laid hlaid hts
  refine ⟨_, _, by rw [init_eq s hne hvs], hup, (forgotten s).map Node.shown, vs.zip (ms1.map some),
    (List.replicate (axesLinks s geoms).length Visual.axes).zip (ms2.map some), axesLinks s geoms, ?_, ?_, ?_, ?_, ?_, hidx⟩
  · have hl : vs.length = ms1.length := hvs.length_eq.symm.trans hms1.length_eq
    simp only [List.map_append, shown_placeAll]
    rw [List.zip_append (by simpa using hl)]
    simp only [← List.append_assoc]
    congr 1
    split <;> rfl
  · intro n hn
    obtain ⟨k, hk, rfl⟩ := List.mem_map.1 hn
    have := List.mem_filter.1 hk
    exact hinv.left k this.1 (by simpa using this.2)
  · intro h
    simp [forgotten, h]
  · clear hts hlen hup hlaid hidx hms2 hx hu hcap hne
    revert ms1
    induction hvs with
    | nil => intro ms1 h; cases h; exact .nil
    | cons h1 _ ih =>
      intro ms1 h
      cases h with
      | cons h2 h3 => exact .cons ⟨h1, h2.2⟩ (ih _ h3)
  · clear hts hlen hup hlaid hidx
    generalize axesLinks s geoms = idx at hms2
    induction hms2 with
    | nil => exact .nil
    | cons h1 _ ih => exact .cons ⟨rfl, h1.2⟩ ih

/-- **C97**: a second `update` forgets the first: what comes out is what `update` with the last poses alone gives. -/
theorem C97_update_twice {s : VScene Cam} (hs : Reachable s) {geoms : List VGeom} (hne : geoms ≠ [])
    (hcap : ∀ g ∈ geoms, ∀ r l, g.shape = .capsule r l → 2 * r ≤ l) {x y : List (Transform ℝ)} {s1 s2 s3 : VScene Cam}
    (h1 : s.init geoms = (s1, .ok ())) (h2 : s1.update x = (s2, .ok ())) (h3 : s1.update y = (s3, .ok ())) :
    s2.update y = (s3, .ok ()) := by
  obtain ⟨vs, hvs⟩ := visuals_exist hcap
  have hl := init_laid (reachable_inv hs) hne hvs
  rw [h1] at hl
  have get : ∀ z s', s1.update z = (s', .ok ()) → ∃ ms, transformPerVisual z (geoms.map (fun g => (g.link_idx, s.geomTransform g)) ++
      (axesLinks s geoms).map fun i => (i, noTransform)) = .ok ms := by
    intro z s' h
    unfold VScene.update at h
    rw [hl.stored] at h
    simp only at h
    split at h
    · cases h
    · rename_i ms hms; exact ⟨ms, hms⟩
  obtain ⟨mx, hmx⟩ := get x s2 h2
  obtain ⟨my, hmy⟩ := get y s3 h3
  obtain ⟨lx, ex, hlx⟩ := update_laid hl hmx
  obtain ⟨ly, ey, -⟩ := update_laid hl hmy
  rw [h2] at hlx ex
  rw [h3] at ey
  obtain ⟨-, e, -⟩ := update_laid hlx hmy
  rw [e]
  simp only [Prod.mk.injEq, and_true] at ex ey ⊢
  rw [ex, ey, placeAll_twice _ _ _ lx.symm]

/-- **C97**: axes of links are shown if asked for; axes at the root if either is asked for. -/
theorem C97_options (c : Cam) (show_cs show_cs_root : Bool) :
    (VScene.create c show_cs show_cs_root).xyz = show_cs ∧
    (VScene.create c show_cs show_cs_root).xyz_root = (show_cs || show_cs_root) ∧
    (VScene.create c show_cs show_cs_root).xyz_transform1 = true ∧ (VScene.create c show_cs show_cs_root).canvas = [] := by
  cases show_cs <;> cases show_cs_root <;> exact ⟨rfl, rfl, rfl, rfl⟩

/-- **C97**: the switches: axes of links on or off, those at the root too if so asked; they take effect at the next
`init`. -/
theorem C97_switches (s : VScene Cam) (b : Bool) :
    ((s.enable_xyz b).xyz = true ∧ (s.enable_xyz b).xyz_root = (b || s.xyz_root)) ∧
    ((s.disable_xyz b).xyz = false ∧ (s.disable_xyz b).xyz_root = (!b && s.xyz_root)) ∧
    ((s.set_xyz_transform1 b).xyz_transform1 = b ∧ (s.set_xyz_transform1 b).xyz = s.xyz) ∧
    ((s.enable_xyz b).canvas = s.canvas ∧ (s.disable_xyz b).canvas = s.canvas ∧ (s.set_xyz_transform1 b).canvas = s.canvas) := by
  cases b <;> simp [enable_xyz, disable_xyz, set_xyz_transform1]

/-- **C97**, what fails: with axes of links, axes at the root cannot be switched off by the argument for it. -/
theorem C97_show_cs_root_fails (c : Cam) : (VScene.create c true false).xyz_root = true := rfl

/-- **C97**, what fails: every `init` leaves the axes at the root of the one before on the canvas. -/
theorem C97_roots_pile_up_fails {s : VScene Cam} (hs : Reachable s) {geoms : List VGeom} (hne : geoms ≠ [])
    (hcap : ∀ g ∈ geoms, ∀ r l, g.shape = .capsule r l → 2 * r ≤ l) :
    (forgotten (s.init geoms).1).length = (forgotten s).length + (if s.xyz_root then 1 else 0) := by
  obtain ⟨vs, hvs⟩ := visuals_exist hcap
  have hl := init_laid (reachable_inv hs) hne hvs
  generalize nodesFrom s.next _ = mid at hl
  have hout : ∀ l : List Node, (∀ j ∈ mid.map Node.id, j ∉ l.map Node.id) → l.filter (fun n => n.id ∉ mid.map Node.id) = l := by
    intro l h
    rw [List.filter_eq_self]
    intro n hn
    simp only [decide_eq_true_eq]
    exact fun hm => h _ hm (List.mem_map_of_mem hn)
  have hin : mid.filter (fun n => n.id ∉ mid.map Node.id) = [] := by
    rw [List.filter_eq_nil_iff]
    intro n hn
    simp only [decide_eq_true_eq, not_not]
    exact List.mem_map_of_mem hn
  conv_lhs => unfold forgotten
  rw [hl.canvas, hl.visuals, List.filter_append, List.filter_append, hin, hout _ fun j hj => (hl.apart j hj).1,
    hout _ fun j hj => (hl.apart j hj).2]
  split <;> simp

/-- **C97**, what fails: hence they stay when they are switched off. -/
theorem C97_root_stays_fails {s : VScene Cam} (hs : Reachable s) (hroot : s.xyz_root = true) {geoms geoms' : List VGeom}
    (hne : geoms ≠ []) (hne' : geoms' ≠ []) (hcap : ∀ g ∈ geoms, ∀ r l, g.shape = .capsule r l → 2 * r ≤ l)
    (hcap' : ∀ g ∈ geoms', ∀ r l, g.shape = .capsule r l → 2 * r ≤ l) :
    let s' := ((s.init geoms).1.disable_xyz.init geoms').1
    s'.xyz_root = false ∧ ∃ n ∈ s'.canvas, n.shown = (.axes, none) ∧ n.id ∉ s'.visuals := by
  intro s'
  have h1 : Reachable ((s.init geoms).1.disable_xyz) := .disable true (.init geoms hs)
  have e1 := C97_roots_pile_up_fails hs hne hcap
  have e2 := C97_roots_pile_up_fails h1 hne' hcap'
  obtain ⟨vs, hvs⟩ := visuals_exist hcap'
  have hr : s'.xyz_root = false := by
    show ((s.init geoms).1.disable_xyz.init geoms').1.xyz_root = false
    rw [init_eq _ hne' hvs]
    rfl
  refine ⟨hr, ?_⟩
  have e3 : (forgotten s').length ≠ 0 := by
    have : forgotten (s.init geoms).1.disable_xyz = forgotten (s.init geoms).1 := rfl
    rw [e2, this, e1, if_pos hroot]
    omega
  obtain ⟨n, hn⟩ := List.exists_mem_of_length_pos (Nat.pos_of_ne_zero e3)
  have hn' := List.mem_filter.1 hn
  have hv : n.id ∉ s'.visuals := by simpa using hn'.2
  exact ⟨n, hn'.1, (reachable_inv (.init geoms' h1)).left n hn'.1 hv, hv⟩

/-- **C97**: pictures: one from the camera that is set if none is given, one from the given camera, or one from each of the
given ones in their order; the canvas stays, and the last camera is kept. -/
theorem C97_render (photo : List Node → Cam → Img) (s : VScene Cam) :
    s.render photo .none = (s, .inl (photo s.canvas s.camera)) ∧
    (∀ c, (s.render photo (.one c)).2 = .inl (photo s.canvas c) ∧ (s.render photo (.one c)).1.camera = c) ∧
    (∀ l, (s.render photo (.list l)).2 = .inr (l.map (photo s.canvas)) ∧
      (s.render photo (.list l)).1.camera = l.getLastD s.camera) ∧
    ∀ c, (s.render photo c).1.canvas = s.canvas ∧ (s.render photo c).1.visuals = s.visuals := by
  refine ⟨rfl, fun c => ⟨rfl, rfl⟩, fun l => ?_, fun c => ?_⟩
  · unfold VScene.render
    simp only [renderList, List.nil_append]
    exact ⟨trivial, trivial⟩
  · cases c with
    | none => exact ⟨rfl, rfl⟩
    | one c => exact ⟨rfl, rfl⟩
    | list l => unfold VScene.render; simp only [renderList]; exact ⟨trivial, trivial⟩

/-- colours of faces and edges of a visual; axes have their own -/
def Visual.colors : Visual → PyColor × PyColor
  | .box _ c => c
  | .sphere _ c => c
  | .cylinder _ _ c => c
  | .capsule _ c => c
  | .axes => (.none, .none)

/-- **C97**: a geometry that is not of the kind `XYZ` has faces in its colour; edges in its colour of edges unless it is a
cylinder; a box without one has black edges, spheres and capsules have none. Without any colour it is of the default
colour. -/
theorem C97_colours {g : VGeom} {v : Visual} (h : visualOf g = .ok v) (hx : g.isXYZ = false) :
    (g.color ≠ .none → v.colors.1 = g.color) ∧
    (g.color = .none → g.edge_color = .none → v.colors.1 = .tuple [1, 0.8, 0.7, 1]) ∧
    ((∀ r l, g.shape ≠ .cylinder r l) → g.edge_color ≠ .none → v.colors.2 = g.edge_color) ∧
    (g.edge_color = .none → (v.colors.2 = .none ∨ (∃ a b c, g.shape = .box a b c) ∧ v.colors.2 = .name "black")) := by
  have key : ∀ c : PyColor, c ≠ .none → c.isNone = false := fun c hc => by cases c <;> simp_all [PyColor.isNone]
  unfold visualOf at h
  cases hs : g.shape with
  | xyz _ => simp [VGeom.isXYZ, hs] at hx
  | sphere r =>
    rw [hs] at h; injection h with h; subst h
    refine ⟨fun hc => ?_, fun hc he => ?_, fun _ _ => rfl, fun he => .inl he⟩
    · simp [Visual.colors, sphereColors, defaultedColor, key _ hc]
    · simp [Visual.colors, sphereColors, defaultedColor, hc, he, PyColor.isNone, _default_color]
  | box a b c =>
    rw [hs] at h; injection h with h; subst h
    refine ⟨fun hc => ?_, fun hc he => ?_, fun _ he => ?_, fun he => .inr ⟨⟨a, b, c, rfl⟩, ?_⟩⟩
    · simp [Visual.colors, boxColors, doubleMesh, defaultedColor, key _ hc]
    · simp [Visual.colors, boxColors, doubleMesh, defaultedColor, hc, he, PyColor.isNone, _default_color]
    · simp [Visual.colors, boxColors, doubleMesh, key _ he]
    · simp [Visual.colors, boxColors, doubleMesh, he, PyColor.isNone, _default_edge_color]
  | cylinder r l =>
    rw [hs] at h; injection h with h; subst h
    refine ⟨fun hc => ?_, fun hc he => ?_, fun hn => absurd rfl (hn r l), fun he => .inl rfl⟩
    · simp [Visual.colors, cylinderColors, defaultedColor, key _ hc]
    · simp [Visual.colors, cylinderColors, defaultedColor, hc, he, PyColor.isNone, _default_color]
  | capsule r l =>
    rw [hs] at h
    simp only [bind, Except.bind, pure, Except.pure] at h
    split at h
    · cases h
    injection h with h; subst h
    refine ⟨fun hc => ?_, fun hc he => ?_, fun _ _ => rfl, fun he => .inl he⟩
    · simp [Visual.colors, doubleMesh, defaultedColor, key _ hc]
    · simp [Visual.colors, doubleMesh, defaultedColor, hc, he, PyColor.isNone, _default_color]

/-- **C97**: the solids: corners of a box (with the sizes in y and z exchanged, C93), the radius of a sphere, radius and
length of a cylinder, points at the surface of a capsule (of the total length, C93), axes. -/
theorem C97_solids {g : VGeom} {v : Visual} (h : visualOf g = .ok v) :
    (∀ a b c, g.shape = .box a b c → ∃ vs k, v = .box vs k ∧ ∀ p, p ∈ vs ↔ IsCorner a c b p) ∧
    (∀ r, g.shape = .sphere r → ∃ k, v = .sphere r k) ∧ (∀ r l, g.shape = .cylinder r l → ∃ k, v = .cylinder r l k) ∧
    (∀ r l, g.shape = .capsule r l → 0 ≤ r → ∃ vs k, v = .capsule vs k ∧ vs ≠ [] ∧ ∀ p ∈ vs, AtDistance ((l - 2 * r) / 2) r p) ∧
    (g.isXYZ = true ↔ v = .axes) := by
  unfold visualOf at h
  cases hs : g.shape with
  | xyz _ => rw [hs] at h; injection h with h; subst h; simp [VGeom.isXYZ, hs]
  | sphere r => rw [hs] at h; injection h with h; subst h; simp [VGeom.isXYZ, hs]
  | box a b c =>
    rw [hs] at h; injection h with h; subst h
    simp [VGeom.isXYZ, hs, C93_vispy_box]
  | cylinder r l => rw [hs] at h; injection h with h; subst h; simp [VGeom.isXYZ, hs]
  | capsule r l =>
    rw [hs] at h
    simp only [bind, Except.bind, pure, Except.pure] at h
    split at h
    · cases h
    rename_i vs hvs
    injection h with h; subst h
    refine ⟨by simp, by simp, by simp, ?_, by simp [VGeom.isXYZ, hs]⟩
    intro r' l' e h0
    injection e with e1 e2
    subst e1; subst e2
    by_cases hlt : l < 2 * r
    · rw [(C93_capsule_surface h0 true).1 hlt] at hvs; cases hvs
    · obtain ⟨vs', h1, h2, h3⟩ := (C93_capsule_surface h0 true).2 (not_lt.1 hlt)
      rw [h1] at hvs
      injection hvs with hvs
      subst hvs
      exact ⟨_, _, rfl, h2, h3⟩

/-- **C97**, what fails: a cylinder has no edges in its colour of edges. -/
theorem C97_cylinder_edges_fails {g : VGeom} {v : Visual} (h : visualOf g = .ok v) {r l : ℝ} (hs : g.shape = .cylinder r l)
    (he : g.edge_color ≠ .none) : v.colors.2 ≠ g.edge_color := by
  unfold visualOf at h
  rw [hs] at h
  injection h with h
  subst h
  exact fun e => he e.symm

/-- **C97**, what fails: a link without a geometry gets no axes, so axes of links may be missing. -/
theorem C97_no_geom_fails (c : Cam) {geoms : List VGeom} (hne : geoms ≠ [])
    (hcap : ∀ g ∈ geoms, ∀ r l, g.shape = .capsule r l → 2 * r ≤ l) {x : List (Transform ℝ)}
    (hx : ∀ g ∈ geoms, ∃ t, linkFrame x g.link_idx = some t ∧ t.IsUnit) (hu : ∀ g ∈ geoms, g.transform.IsUnit)
    (hno : ∀ g ∈ geoms, g.isXYZ = false ∧ g.link_idx = 0) :
    ∃ s1 s2, (VScene.create c true).init geoms = (s1, .ok ()) ∧ s1.update x = (s2, .ok ()) ∧
      ∃ n root, s2.canvas.map Node.shown = n ++ root ∧ n.length = geoms.length + 1 ∧ root = [(.axes, none)] := by
  obtain ⟨s1, s2, h1, h2, left, bodies, links, idx, h3, -, h5, h6, h7, h8, h9⟩ := C97_drawn (.create c true true) hne hcap hx hu
  refine ⟨s1, s2, h1, h2, left ++ bodies ++ links, _, h3, ?_, rfl⟩
  have hidx : idx = [0] := by
    have hm : ∀ i, i ∈ idx ↔ i = 0 := by
      intro i
      rw [h9]
      constructor
      · rintro ⟨-, g, hg, rfl⟩; exact (hno g hg).2
      · rintro rfl
        obtain ⟨g, hg⟩ := List.exists_mem_of_ne_nil _ hne
        exact ⟨rfl, g, hg, (hno g hg).2⟩
    match idx, h8, hm with
    | [], _, hm => exact absurd ((hm 0).2 rfl) (by simp)
    | [a], _, hm => rw [(hm a).1 (by simp)]
    | a :: b :: l, h8, hm =>
      have ha := (hm a).1 (by simp)
      have hb := (hm b).1 (by simp)
      have := (List.pairwise_cons.1 h8).1 b (by simp)
      omega
  rw [h5 rfl]
  simp [← h6.length_eq, ← h7.length_eq, hidx]

/-- **C97**, what fails: an `init` that raises leaves the scene with the transforms of the `init` before; `update` then puts
new geometries where old ones belong. -/
theorem C97_after_error_fails (c : Cam) {g0 g1 bad : VGeom} {r0 r1 r l : ℝ} (h0 : g0.shape = .sphere r0)
    (h1 : g1.shape = .sphere r1) (hbad : bad.shape = .capsule r l) (hlt : l < 2 * r) {x : List (Transform ℝ)}
    (hx : ∃ t, linkFrame x g0.link_idx = some t ∧ t.IsUnit) (hu : g0.transform.IsUnit) :
    ∃ s1 s2 s3, (VScene.create c).init [g0] = (s1, .ok ()) ∧ s1.init [g1, bad] = (s2, .error .value) ∧
      s2.update x = (s3, .ok ()) ∧ ∃ n ∈ s3.canvas, visualOf g1 = .ok n.visual ∧ Placed x g0.link_idx g0.transform n.transform := by
  obtain ⟨M, hM, hP⟩ := placed_transform hx hu
  have v0 : visualOf g0 = .ok (.sphere r0 (sphereColors g0.color g0.edge_color)) := by unfold visualOf; rw [h0]
  have v1 : visualOf g1 = .ok (.sphere r1 (sphereColors g1.color g1.edge_color)) := by unfold visualOf; rw [h1]
  have vb : visualOf bad = .error .value := by
    unfold visualOf capsuleMesh; rw [hbad]; simp [hlt, bind, Except.bind]
  have hz : g0.isXYZ = false := by simp [VGeom.isXYZ, h0]
  have hax : axesLinks (VScene.create c) [g0] = [] := rfl
  have ht : (VScene.create c).geomTransform g0 = g0.transform := by simp [geomTransform, hz]
  refine ⟨⟨false, true, true, [⟨0, .sphere r0 (sphereColors g0.color g0.edge_color), none⟩, ⟨1, .axes, none⟩], 2, [0],
      [some g0], true, some [(g0.link_idx, g0.transform)], c⟩,
    ⟨false, true, true, [⟨1, .axes, none⟩, ⟨2, .sphere r1 (sphereColors g1.color g1.edge_color), none⟩], 3, [2],
      [some g1, some bad], true, some [(g0.link_idx, g0.transform)], c⟩,
    ⟨false, true, true, [⟨1, .axes, none⟩, ⟨2, .sphere r1 (sphereColors g1.color g1.edge_color), some M⟩], 3, [2],
      [some g1, some bad], false, some [(g0.link_idx, g0.transform)], c⟩, ?_, ?_, ?_, ?_⟩
  · rw [init_eq _ (by simp) (.cons v0 .nil), hax]
    simp only [List.map_cons, List.map_nil, ht]
    rfl
  · unfold VScene.init
    simp [VScene.addGeoms, v1, vb, remove_all_visuals, VScene.push, add]
  · simp [VScene.update, transformPerVisual, hM, bind, Except.bind, pure, Except.pure, updateLoop, setTransform]
  · exact ⟨⟨2, _, some M⟩, by simp, v1, hP⟩

/-- **C97**: cameras and lights for MuJoCo: a text stands for the list of it, and a dictionary that went through once is not
changed again. -/
theorem C97_to_list (dic : List (Int × OneOrMore)) :
    mujocoTexts dic = dic.map (fun e => (e.1, match e.2 with | .one s => [s] | .more l => l)) ∧
    to_list (to_list dic) = to_list dic := by
  unfold mujocoTexts to_list
  rw [List.map_map, List.map_map]
  constructor <;>
  · apply List.map_congr_left
    rintro ⟨i, o⟩ _
    cases o <;> rfl

/-! ## Examples -/

/-- a red sphere on link 0 and axes on the world -/
noncomputable def someGeoms : List VGeom :=
  [⟨⟨1, ⟨⟨0, 0, 1⟩, ⟨1, 0, 0, 0⟩⟩, 0, .sphere 2, .name "red"⟩, .none⟩,
   ⟨⟨1, ⟨⟨1, 0, 0⟩, ⟨1, 0, 0, 0⟩⟩, -1, .xyz 1, .none⟩, .none⟩]

/-- the hypotheses of `C97_drawn` are met -/
example : ∃ s1 s2, (VScene.create () true).init someGeoms = (s1, .ok ()) ∧
    s1.update [⟨⟨3, 0, 0⟩, ⟨0, 1, 0, 0⟩⟩] = (s2, .ok ()) ∧ s2.canvas.length = 5 := by
  obtain ⟨s1, s2, h1, h2, left, bodies, links, idx, h3, -, h5, h6, h7, h8, h9⟩ := C97_drawn (.create () true true)
    (geoms := someGeoms) (x := [⟨⟨3, 0, 0⟩, ⟨0, 1, 0, 0⟩⟩]) (by simp [someGeoms]) (by simp [someGeoms])
    (by simp [someGeoms, linkFrame, Transform.IsUnit, Quat.IsUnit, Quat.normSq])
    (by simp [someGeoms, Transform.IsUnit, Quat.IsUnit, Quat.normSq])
  refine ⟨s1, s2, h1, h2, ?_⟩
  have hidx : idx.length = 2 := by
    have hnd : idx.Nodup := h8.imp fun h => h.ne
    have hp : idx.Perm [-1, 0] := by
      rw [List.perm_ext_iff_of_nodup hnd (by decide)]
      intro i
      rw [h9]
      simp only [someGeoms, List.mem_cons, List.not_mem_nil, or_false, exists_eq_or_imp, exists_eq_left]
      constructor
      · rintro ⟨-, h | h⟩
        · exact .inr h.symm
        · exact .inl h.symm
      · rintro (rfl | rfl)
        · exact ⟨rfl, .inr rfl⟩
        · exact ⟨rfl, .inl rfl⟩
    simpa using hp.length_eq
  have := congrArg List.length h3
  rw [h5 rfl] at this
  simp only [List.length_map, List.length_append, ← h6.length_eq, ← h7.length_eq, hidx] at this
  rw [this]
  rfl

/-- three times `init`: three axes at the root -/
example (x : Unit) : (forgotten ((((VScene.create x).init someGeoms).1.init someGeoms).1.init someGeoms).1).length = 3 := by
  have hne : someGeoms ≠ [] := by simp [someGeoms]
  have hcap : ∀ g ∈ someGeoms, ∀ r l, g.shape = .capsule r l → 2 * r ≤ l := by simp [someGeoms]
  have h0 : Reachable (VScene.create x) := .create x false true
  have h1 := Reachable.init someGeoms h0
  have h2 := Reachable.init someGeoms h1
  rw [C97_roots_pile_up_fails h2 hne hcap, C97_roots_pile_up_fails h1 hne hcap, C97_roots_pile_up_fails h0 hne hcap]
  obtain ⟨vs, hvs⟩ := visuals_exist hcap
  simp only [init_eq _ hne hvs]
  rfl

/-- a light of MuJoCo -/
example : mujocoTexts [(-1, .one "<light/>"), (0, .more ["<camera/>", "<camera/>"])] =
    [(-1, ["<light/>"]), (0, ["<camera/>", "<camera/>"])] := (C97_to_list _).1

end RingLib.rendering
