import Mathlib.Tactic.Linarith
import Verif.Model.RenderScene
import Verif.Props.Render

/-!
# C94: which scene is drawn and which frames

`render` draws every requested frame with the geometries of the requested system, whatever was rendered before; scenes are
reused only for equal arguments.
-/

namespace RingLib.rendering

variable {S K Sc Img : Type}

/-! ## Specification -/

/-- a scene keeps nothing of its former poses -/
def Overwrites (lib : SceneLib S K Sc Img) : Prop :=
  ∀ s x s', lib.update s x = .ok s' → ∀ y, lib.update s' y = lib.update s y

/-- the picture of a scene with given poses -/
def shot (lib : SceneLib S K Sc Img) (scene : Sc) (camera : Option String) (x : List (Transform ℝ)) : Py Img := do
  let s ← lib.update scene x
  lib.picture s camera

/-- the pictures of a scene: every one of its own poses only -/
def shoot (lib : SceneLib S K Sc Img) (scene : Sc) (camera : Option String) (l : List (List (Transform ℝ))) :
    Py (List Img) :=
  l.mapM (shot lib scene camera)

/-- the poses that are asked for -/
def poses (rest : List (Transform ℝ)) : RenderXs → List (List (Transform ℝ))
  | .none => [rest]
  | .batched l => l
  | .single x => [x]
  | .list l => l

/-- one call of `render` -/
structure Call (S K : Type) where
  args : SceneArgs S K
  xs : RenderXs
  camera : Option String
  nth : Int

/-- the module variables after calls of `render` -/
noncomputable def after (lib : SceneLib S K Sc Img) (eq : SceneArgs S K → SceneArgs S K → Py Bool) (n_links : S → Nat)
    (rest : S → List (Transform ℝ)) (calls : List (Call S K)) : SceneCache S K Sc :=
  calls.foldl (fun c k => (render lib eq n_links rest c k.args k.xs k.camera k.nth).2) ⟨none, none⟩

/-! ## Frames -/

/-- C94: every n-th frame: frame `i` is number `i n`, and there are `⌈len / n⌉`; zero is a `ValueError`, negative numbers
give nothing. -/
theorem C94_every_nth (xs : List (List (Transform ℝ))) :
    (∀ n : Nat, 0 < n → ∃ l, everyNth n xs = .ok l ∧
      (∀ i, l[i]? = xs[i * n]?) ∧ l.length * n < xs.length + n ∧ xs.length ≤ l.length * n) ∧
    everyNth 0 xs = .error .value ∧ ∀ n : Int, n < 0 → everyNth n xs = .ok [] := by
  refine ⟨?_, by simp [everyNth], fun n hn => by simp [everyNth, hn, hn.ne]⟩
  intro n hn
  have h0 : ¬ ((n : Int) = 0) := by omega
  have h1 : ¬ ((n : Int) < 0) := by omega
  set k := (xs.length + n - 1) / n with hk
  have hk1 : k * n < xs.length + n := by
    have := Nat.div_mul_le_self (xs.length + n - 1) n
    rw [← hk] at this
    omega
  have hk2 : xs.length ≤ k * n := by
    have := Nat.lt_div_mul_add (a := xs.length + n - 1) hn
    rw [← hk] at this
    omega
  have hin : ∀ i, i < k → i * n < xs.length := by
    intro i hi
    have : (i + 1) * n ≤ k * n := Nat.mul_le_mul_right n hi
    rw [Nat.add_mul] at this
    omega
  have e : everyNth n xs = .ok ((List.range k).map fun i => (xs[i * n]?).getD []) := by
    simp only [everyNth, h0, h1, if_false, Int.toNat_natCast, ← hk]
    congr 1
    rw [← List.filterMap_eq_map]
    apply List.filterMap_congr
    intro i hi
    rw [List.mem_range] at hi
    have := hin i hi
    simp [List.getElem?_eq_getElem this]
  refine ⟨_, e, ?_, by simpa using hk1, by simpa using hk2⟩
  intro i
  by_cases hi : i < k
  · simp [hi, List.getElem?_eq_getElem (hin i hi)]
  · have : xs.length ≤ i * n := le_trans hk2 (Nat.mul_le_mul_right n (not_lt.mp hi))
    rw [List.getElem?_eq_none this, List.getElem?_eq_none (by simpa using not_lt.mp hi)]

theorem frames_eq {lib : SceneLib S K Sc Img} (ho : Overwrites lib) (camera : Option String) {s0 : Sc} :
    ∀ (l : List (List (Transform ℝ))) (s : Sc), (∀ y, lib.update s y = lib.update s0 y) →
      (frames lib camera s l).map Prod.fst = shoot lib s0 camera l ∧
      ∀ r, frames lib camera s l = .ok r → ∀ y, lib.update r.2 y = lib.update s0 y
  | [], s, h => by
    refine ⟨rfl, ?_⟩
    intro r hr
    simp only [frames, Except.ok.injEq] at hr
    subst hr
    exact h
  | x :: l, s, h => by
    unfold frames shoot
    rw [h x, List.mapM_cons]
    cases hu : lib.update s0 x with
    | error e =>
      have e1 : shot lib s0 camera x = .error e := by simp [shot, hu, bind, Except.bind]
      rw [e1]
      simp [bind, Except.bind, Except.map]
    | ok s1 =>
      have e1 : shot lib s0 camera x = lib.picture s1 camera := by simp [shot, hu, bind, Except.bind]
      rw [e1]
      cases hp : lib.picture s1 camera with
      | error e => simp [hp, bind, Except.bind, Except.map]
      | ok img =>
        have h1 : ∀ y, lib.update s1 y = lib.update s0 y := ho _ _ _ hu
        obtain ⟨ih1, ih2⟩ := frames_eq ho camera l s1 h1
        unfold shoot at ih1
        rw [← ih1]
        cases hf : frames lib camera s1 l with
        | error e => simp [hp, hf, bind, Except.bind, Except.map]
        | ok r =>
          obtain ⟨imgs, s2⟩ := r
          refine ⟨by simp [hp, hf, bind, Except.bind, Except.map, pure, Except.pure], ?_⟩
          simp only [hp, hf, bind, Except.bind, pure, Except.pure, Except.ok.injEq]
          rintro r rfl
          exact ih2 (imgs, s2) hf

/-! ## The scene that is kept -/

/-- the stored scene was made for the stored arguments -/
def Kept (lib : SceneLib S K Sc Img) (ok : SceneArgs S K → Prop) (c : SceneCache S K Sc) : Prop :=
  ∀ b, c.args = some b → ∃ a s0 s, ok a ∧ popped a = b ∧ newScene lib a = .ok s0 ∧ c.scene = some s ∧
    ∀ y, lib.update s y = lib.update s0 y

theorem load_kept {lib : SceneLib S K Sc Img} {eq : SceneArgs S K → SceneArgs S K → Py Bool}
    {ok : SceneArgs S K → Prop} {c : SceneCache S K Sc} (hc : Kept lib ok c) {a : SceneArgs S K} (ha : ok a)
    {sa : Sc} (hs : newScene lib a = .ok sa) :
    ((∃ e b, c.args = some b ∧ eq b a = .error e ∧ _load_scene lib eq c a = (.error e, c)) ∨
      ∃ a' s0 s c', _load_scene lib eq c a = (.ok (some s), c') ∧ ok a' ∧ newScene lib a' = .ok s0 ∧
        (a' = a ∨ eq (popped a') a = .ok true) ∧ (∀ y, lib.update s y = lib.update s0 y) ∧
        c'.args = some (popped a') ∧ Kept lib ok c') := by
  have hfresh : ∃ a' s0 s c', freshScene lib c a = (.ok (some s), c') ∧ ok a' ∧ newScene lib a' = .ok s0 ∧
        (a' = a ∨ eq (popped a') a = .ok true) ∧ (∀ y, lib.update s y = lib.update s0 y) ∧
        c'.args = some (popped a') ∧ Kept lib ok c' := by
    refine ⟨a, sa, sa, ⟨some (popped a), some sa⟩, ?_, ha, hs, .inl rfl, fun _ => rfl, ?_, ?_⟩
    · unfold freshScene; rw [hs]
    · rfl
    · intro b hb
      exact ⟨a, sa, sa, ha, Option.some.inj hb, hs, rfl, fun _ => rfl⟩
  unfold _load_scene
  cases hb : c.args with
  | none => exact .inr hfresh
  | some b =>
    simp only
    cases he : eq b a with
    | error e => exact .inl ⟨e, b, rfl, he, rfl⟩
    | ok t =>
      cases t with
      | false => exact .inr hfresh
      | true =>
        obtain ⟨a', s0, s, h1, h2, h3, h4, h5⟩ := hc b hb
        exact .inr ⟨a', s0, s, c, by rw [h4], h1, h3, .inr (h2 ▸ he), h5, h2 ▸ hb, hc⟩

theorem render_kept {lib : SceneLib S K Sc Img} {eq : SceneArgs S K → SceneArgs S K → Py Bool} {n_links : S → Nat}
    {rest : S → List (Transform ℝ)} (ho : Overwrites lib) {ok : SceneArgs S K → Prop} {c : SceneCache S K Sc}
    (hc : Kept lib ok c) {k : Call S K} (ha : ok k.args) {sa : Sc} (hs : newScene lib k.args = .ok sa) :
    Kept lib ok (render lib eq n_links rest c k.args k.xs k.camera k.nth).2 := by
  unfold render
  simp only
  generalize hl : (if k.nth ≠ 1 then everyNth k.nth _ else _) = r
  cases r with
  | error e => exact hc
  | ok l =>
    simp only
    split
    · rcases load_kept (eq := eq) hc ha hs with ⟨e, b, -, -, h⟩ | ⟨a', s0, s, c', h, h1, h2, -, h4, h5, h6⟩
      · rw [h]; exact hc
      · rw [h]
        simp only
        obtain ⟨-, hf⟩ := frames_eq ho k.camera l s h4
        cases hfr : frames lib k.camera s l with
        | error e => exact h6
        | ok r =>
          intro b hb
          simp only at hb ⊢
          rw [h5] at hb
          exact ⟨a', s0, r.2, h1, Option.some.inj hb, h2, rfl, hf r hfr⟩
    · exact hc

/-- C94: after any calls of `render` for which scenes could be made, `render` gives the pictures of the requested poses,
each of its own poses only, in a scene made for the requested arguments or for earlier arguments that compare equal. -/
theorem C94_render {lib : SceneLib S K Sc Img} {eq : SceneArgs S K → SceneArgs S K → Py Bool} {n_links : S → Nat}
    {rest : S → List (Transform ℝ)} (ho : Overwrites lib) (heq : ∀ a b, ∃ t, eq a b = .ok t)
    {calls : List (Call S K)} {k : Call S K} (hmade : ∀ c ∈ k :: calls, ∃ s, newScene lib c.args = .ok s)
    {l : List (List (Transform ℝ))}
    (hl : (if k.nth = 1 then .ok (poses (rest k.args.sys) k.xs) else everyNth k.nth (poses (rest k.args.sys) k.xs)) = .ok l)
    (hn : ∀ x ∈ l, x.length = n_links k.args.sys) :
    ∃ a' s0, (a' = k.args ∨ (∃ c ∈ calls, c.args = a') ∧ eq (popped a') k.args = .ok true) ∧
      newScene lib a' = .ok s0 ∧
      (render lib eq n_links rest (after lib eq n_links rest calls) k.args k.xs k.camera k.nth).1 =
        shoot lib s0 k.camera l := by
  have hkept : Kept lib (fun a => ∃ c ∈ calls, c.args = a) (after lib eq n_links rest calls) := by
    have gen : ∀ (done todo : List (Call S K)) (c : SceneCache S K Sc),
        Kept lib (fun a => ∃ c ∈ done, c.args = a) c → (∀ c ∈ todo, ∃ s, newScene lib c.args = .ok s) →
        Kept lib (fun a => ∃ c ∈ done ++ todo, c.args = a)
          (todo.foldl (fun c k => (render lib eq n_links rest c k.args k.xs k.camera k.nth).2) c) := by
      intro done todo
      induction todo generalizing done with
      | nil => intro c hc _; simpa using hc
      | cons t todo ih =>
        intro c hc ht
        obtain ⟨s, hs⟩ := ht t List.mem_cons_self
        have hmono : Kept lib (fun a => ∃ c ∈ done ++ [t], c.args = a) c := by
          intro b hb
          obtain ⟨a, s0, s, ⟨c', h1, h2⟩, h3⟩ := hc b hb
          exact ⟨a, s0, s, ⟨c', List.mem_append_left _ h1, h2⟩, h3⟩
        have := ih (done ++ [t]) _ (render_kept (eq := eq) (n_links := n_links) (rest := rest) ho hmono (k := t)
          ⟨t, by simp, rfl⟩ hs) (fun c hc => ht c (List.mem_cons_of_mem _ hc))
        simpa using this
    have := gen [] calls ⟨none, none⟩ (by intro b hb; cases hb) (fun c hc => hmade c (List.mem_cons_of_mem _ hc))
    simpa [after] using this
  generalize after lib eq n_links rest calls = c at hkept
  obtain ⟨sa, hs⟩ := hmade k List.mem_cons_self
  have hkept' : Kept lib (fun a => a = k.args ∨ ∃ c ∈ calls, c.args = a) c := by
    intro b hb
    obtain ⟨a, s0, s, h1, h3⟩ := hkept b hb
    exact ⟨a, s0, s, .inr h1, h3⟩
  have hl' : (if k.nth ≠ 1 then everyNth k.nth (xsList (rest k.args.sys) k.xs) else
      .ok (xsList (rest k.args.sys) k.xs)) = .ok l := by
    rw [← hl, ite_not]
    cases k.xs <;> rfl
  have hall : (l.all fun x => decide (x.length = n_links k.args.sys)) = true := by
    rw [List.all_eq_true]; intro x hx; simpa using hn x hx
  rcases load_kept (eq := eq) hkept' (.inl rfl) hs with ⟨e, b, -, h, -⟩ | ⟨a', s0, s, c', h, h1, h2, h3, h4, h5, -⟩
  · obtain ⟨t, ht⟩ := heq b k.args
    rw [ht] at h; cases h
  · refine ⟨a', s0, ?_, h2, ?_⟩
    · rcases h3 with h3 | h3
      · exact .inl h3
      · rcases h1 with h1 | h1
        · exact .inl h1
        · exact .inr ⟨h1, h3⟩
    · have hf := (frames_eq ho k.camera l s h4).1
      unfold render
      simp only
      rw [hl']
      simp only [hall, if_true, h]
      rw [← hf]
      cases frames lib k.camera s l with
      | error e => rfl
      | ok r => rfl

/-- C94: a scene is made with the geometries of the requested system (coordinate systems replaced for MuJoCo), each in
its own colour; a backend other than the two is an error. -/
theorem C94_scene {lib : SceneLib S K Sc Img} {a : SceneArgs S K} :
    (∀ s, newScene lib a = .ok s → ∃ sc gl, lib.init sc gl = .ok s ∧ (∀ e ∈ gl, _color_to_rgba e.1.color = .ok e.2) ∧
      ((a.backend = "mujoco" ∧ lib.mujoco a.kwargs = .ok sc ∧ gl.map Prod.fst = _replace_xyz_geoms (lib.geoms a.sys)) ∨
       (a.backend = "vispy" ∧ gl.map Prod.fst = lib.geoms a.sys ∧
        lib.vispy (a.kwargs.lookup "vispy_backend") (a.kwargs.filter fun e => e.1 ≠ "vispy_backend") = .ok sc))) ∧
    (a.backend ≠ "mujoco" → a.backend ≠ "vispy" → newScene lib a = .error .notImplemented) := by
  have col : ∀ (gs : List Geom) (gl : List (Geom × List ℝ)),
      (gs.mapM fun g => do
        let c ← _color_to_rgba g.color
        return (g, c) : Py (List (Geom × List ℝ))) = .ok gl →
      gl.map Prod.fst = gs ∧ ∀ e ∈ gl, _color_to_rgba e.1.color = .ok e.2 := by
    intro gs gl h
    have := mapM_ok h
    clear h
    induction this with
    | nil => simp
    | @cons g e _ _ h _ ih =>
      cases hc : _color_to_rgba g.color with
      | error _ => simp [hc, bind, Except.bind] at h
      | ok c =>
        simp [hc, bind, Except.bind, pure, Except.pure] at h
        subst h
        refine ⟨by simp [ih.1], ?_⟩
        intro e he
        rcases List.mem_cons.mp he with rfl | he
        · exact hc
        · exact ih.2 e he
  constructor
  · intro s hs
    unfold newScene at hs
    by_cases h1 : a.backend = "mujoco"
    · rw [if_pos h1] at hs
      cases hsc : lib.mujoco a.kwargs with
      | error e => simp [hsc, bind, Except.bind] at hs
      | ok sc =>
        rw [hsc] at hs
        simp only [bind, Except.bind, if_pos h1] at hs
        split at hs
        · cases hs
        · rename_i gl hgl
          obtain ⟨c1, c2⟩ := col _ _ hgl
          exact ⟨sc, gl, hs, c2, .inl ⟨h1, rfl, c1⟩⟩
    · rw [if_neg h1] at hs
      by_cases h2 : a.backend = "vispy"
      · rw [if_pos h2] at hs
        cases hsc : lib.vispy (a.kwargs.lookup "vispy_backend") (popped a).kwargs with
        | error e => simp [hsc, bind, Except.bind] at hs
        | ok sc =>
          rw [hsc] at hs
          simp only [bind, Except.bind, if_neg h1] at hs
          split at hs
          · cases hs
          · rename_i gl hgl
            obtain ⟨c1, c2⟩ := col _ _ hgl
            refine ⟨sc, gl, hs, c2, .inr ⟨h2, c1, ?_⟩⟩
            simpa [popped, h2] using hsc
      · rw [if_neg h2] at hs
        simp [bind, Except.bind] at hs
  · intro h1 h2
    simp [newScene, h1, h2, bind, Except.bind]

/-- C94: a frame with the wrong number of links is refused before anything is drawn or a scene is made. -/
theorem C94_check {lib : SceneLib S K Sc Img} {eq : SceneArgs S K → SceneArgs S K → Py Bool} {n_links : S → Nat}
    {rest : S → List (Transform ℝ)} (c : SceneCache S K Sc) (a : SceneArgs S K) (l : List (List (Transform ℝ)))
    (camera : Option String) (h : ∃ x ∈ l, x.length ≠ n_links a.sys) :
    render lib eq n_links rest c a (.list l) camera 1 = (.error .assertion, c) := by
  have hall : (l.all fun x => decide (x.length = n_links a.sys)) = false := by
    rw [List.all_eq_false]
    obtain ⟨x, hx, hne⟩ := h
    exact ⟨x, hx, by simpa using hne⟩
  simp [render, xsList, hall]

/-- C94: a second call with the same arguments makes no scene (for arguments that equal themselves, MuJoCo). -/
theorem C94_reuse {lib : SceneLib S K Sc Img} {eq : SceneArgs S K → SceneArgs S K → Py Bool} {c c' : SceneCache S K Sc}
    {a : SceneArgs S K} {s : Option Sc} (hm : a.backend = "mujoco") (hr : eq a a = .ok true)
    (h : _load_scene lib eq c a = (.ok s, c')) (lib' : SceneLib S K Sc Img) :
    _load_scene lib' eq c' a = (.ok s, c') := by
  have hp : popped a = a := by
    unfold popped
    rw [if_neg (by rw [hm]; decide)]
  have hfresh : freshScene lib c a = (.ok s, c') → _load_scene lib' eq c' a = (.ok s, c') := by
    intro h
    unfold freshScene at h
    cases hn : newScene lib a with
    | error e => rw [hn] at h; simp at h
    | ok sc =>
      rw [hn, hp] at h
      simp only [Prod.mk.injEq, Except.ok.injEq] at h
      obtain ⟨rfl, rfl⟩ := h
      simp [_load_scene, hr]
  unfold _load_scene at h
  cases hb : c.args with
  | none =>
    rw [hb] at h
    exact hfresh h
  | some b =>
    rw [hb] at h
    simp only at h
    cases he : eq b a with
    | error e => rw [he] at h; simp at h
    | ok t =>
      cases t with
      | false =>
        rw [he] at h
        exact hfresh h
      | true =>
        rw [he] at h
        simp only [Prod.mk.injEq, Except.ok.injEq] at h
        obtain ⟨rfl, rfl⟩ := h
        simp [_load_scene, hb, he]

/-- C94, what fails: when a scene cannot be made (an unknown colour, a misspelled backend, …) the call raises, but its
arguments are kept: the same call again finds them and draws, without an error, in the scene of the call before, that is
with the geometries of another system; if there was none, the scene is `None` and its use an `AttributeError`. -/
theorem C94_after_error_fails {lib : SceneLib S K Sc Img} {eq : SceneArgs S K → SceneArgs S K → Py Bool}
    {a : SceneArgs S K} {e : PyErr} (hbad : newScene lib a = .error e) (hr : eq (popped a) a = .ok true)
    (c : SceneCache S K Sc) (hmiss : ∀ b, c.args = some b → eq b a = .ok false) :
    (_load_scene lib eq c a).1 = .error e ∧
    (_load_scene lib eq (_load_scene lib eq c a).2 a).1 = .ok c.scene := by
  have h : _load_scene lib eq c a = (.error e, ⟨some (popped a), c.scene⟩) := by
    unfold _load_scene
    cases hb : c.args with
    | none => simp [freshScene, hbad]
    | some b => simp [hmiss b hb, freshScene, hbad]
  rw [h]
  exact ⟨rfl, by simp [_load_scene, hr]⟩

/-- a library whose scenes are the systems they were made for -/
noncomputable def exampleLib : SceneLib String Unit (List (Geom × List ℝ)) Unit where
  geoms := fun s => [⟨1, ⟨0, ⟨1, 0, 0, 0⟩⟩, 0, .sphere 1, .name s⟩]
  mujoco := fun _ => .ok []
  vispy := fun _ _ => .ok []
  init := fun _ g => .ok g
  update := fun s _ => .ok s
  picture := fun _ _ => .ok ()

/-- the hypotheses hold: a system whose colour is misspelled -/
example : newScene exampleLib ⟨"rde", "mujoco", []⟩ = .error .key := by
  have : _color_to_rgba (.name "rde") = .error .key := by
    apply C93_color.2.1
    simp [_rgbas]
  simp [newScene, exampleLib, _replace_xyz_geoms, this, bind, Except.bind]

example : Overwrites exampleLib := by
  intro s x s' h y
  simp [exampleLib] at h ⊢
  exact h.symm

/-- C94, what fails: the window library of vispy is taken out of the kept arguments, so a call that does not name one (and
means the default) gets the scene of the one that was named. -/
theorem C94_vispy_backend_fails {lib : SceneLib S K Sc Img} {eq : SceneArgs S K → SceneArgs S K → Py Bool}
    (sys : S) (v : K) (hr : eq ⟨sys, "vispy", []⟩ ⟨sys, "vispy", []⟩ = .ok true)
    {s : Sc} (hs : newScene lib ⟨sys, "vispy", [("vispy_backend", v)]⟩ = .ok s) :
    (_load_scene lib eq (_load_scene lib eq ⟨none, none⟩ ⟨sys, "vispy", [("vispy_backend", v)]⟩).2 ⟨sys, "vispy", []⟩).1 =
      .ok (some s) := by
  simp [_load_scene, freshScene, hs, popped, hr]

/-! ## The scene of MuJoCo -/

theorem setPoses_congr (y : List (Transform ℝ)) : ∀ (ids : List Int) (p q : List (Int × Vec3 ℝ × Quat ℝ)),
    List.Forall₂ (fun a b => a.1 = b.1 ∧ (a.1 ∉ ids ∨ a.1 = -1 → a = b)) p q → setPoses y ids p = setPoses y ids q
  | [], p, q, h => by
    have : p = q := by
      induction h with
      | nil => rfl
      | cons h _ ih => rw [h.2 (.inl (by simp)), ih]
    rw [this]
  | i :: ids, p, q, h => by
    have hn : p.map Prod.fst = q.map Prod.fst := by
      induction h with
      | nil => rfl
      | cons h _ ih => rw [List.map_cons, List.map_cons, h.1, ih]
    unfold setPoses
    split
    · rename_i hi
      apply setPoses_congr
      refine h.imp ?_
      rintro a b ⟨h1, h2⟩
      refine ⟨h1, ?_⟩
      rintro (h3 | h3)
      · by_cases ha : a.1 = -1
        · exact h2 (.inr ha)
        · exact h2 (.inl (by simp only [List.mem_cons, not_or]; exact ⟨fun e => ha (e.trans hi), h3⟩))
      · exact h2 (.inr h3)
    · rename_i hi
      rw [hn]
      split
      · rfl
      · cases bodyPose y i with
        | error e => rfl
        | ok r =>
          show setPoses y ids _ = setPoses y ids _
          apply setPoses_congr
          rw [List.forall₂_map_left_iff, List.forall₂_map_right_iff]
          refine h.imp ?_
          rintro a b ⟨h1, h2⟩
          by_cases ha : a.1 = i
          · rw [if_pos ha, if_pos (h1 ▸ ha)]
            simp [h1]
          · rw [if_neg ha, if_neg (h1 ▸ ha)]
            refine ⟨h1, ?_⟩
            rintro (h3 | h3)
            · exact h2 (.inl (by simp [ha, h3]))
            · exact h2 (.inr h3)

theorem setPoses_ok (x : List (Transform ℝ)) : ∀ (ids : List Int) (p r : List (Int × Vec3 ℝ × Quat ℝ)),
    setPoses x ids p = .ok r →
    List.Forall₂ (fun a b => a.1 = b.1 ∧ (a.1 ∉ ids ∨ a.1 = -1 → a = b) ∧
      (a.1 ∈ ids → a.1 ≠ -1 → bodyPose x a.1 = .ok b.2)) p r
  | [], p, r, h => by
    simp only [setPoses, Except.ok.injEq] at h
    subst h
    rw [List.forall₂_same]
    simp
  | i :: ids, p, r, h => by
    unfold setPoses at h
    split at h
    · rename_i hi
      refine (setPoses_ok x ids p r h).imp ?_
      rintro a b ⟨h1, h2, h3⟩
      refine ⟨h1, ?_, ?_⟩
      · rintro (h4 | h4)
        · exact h2 (.inl fun e => h4 (List.mem_cons_of_mem _ e))
        · exact h2 (.inr h4)
      · intro h4 h5
        rcases List.mem_cons.mp h4 with e | e
        · exact absurd (e.trans hi) h5
        · exact h3 e h5
    · rename_i hi
      split at h
      · cases h
      · cases hb : bodyPose x i with
        | error e => rw [hb] at h; cases h
        | ok v =>
          rw [hb] at h
          have h : setPoses x ids _ = .ok r := h
          have := setPoses_ok x ids _ r h
          rw [List.forall₂_map_left_iff] at this
          refine this.imp ?_
          intro a b hab
          by_cases ha : a.1 = i
          · rw [if_pos ha] at hab
            simp only at hab
            obtain ⟨h1, h2, h3⟩ := hab
            refine ⟨h1, ?_, ?_⟩
            · rintro (h4 | h4)
              · exact absurd (by simp [ha]) h4
              · exact absurd (ha.symm.trans h4) hi
            · intro _ h5
              by_cases hm : a.1 ∈ ids
              · exact h3 hm h5
              · have := h2 (.inl hm)
                rw [← this, ha]
                exact hb
          · rw [if_neg ha] at hab
            obtain ⟨h1, h2, h3⟩ := hab
            refine ⟨h1, ?_, ?_⟩
            · rintro (h4 | h4)
              · exact h2 (.inl fun e => h4 (List.mem_cons_of_mem _ e))
              · exact h2 (.inr h4)
            · intro h4 h5
              exact h3 ((List.mem_cons.mp h4).resolve_left ha) h5

/-- C94: a scene of MuJoCo keeps nothing of its former poses. -/
theorem C94_mujoco_overwrites {s s' : MjScene} {x : List (Transform ℝ)} (h : s.update x = .ok s')
    (y : List (Transform ℝ)) : s'.update y = s.update y := by
  unfold MjScene.update at h ⊢
  cases hp : setPoses x s.parent_ids s.poses with
  | error e => simp [hp, bind, Except.bind] at h
  | ok r =>
    simp [hp, bind, Except.bind, pure, Except.pure] at h
    subst h
    simp only
    have : setPoses y s.parent_ids r = setPoses y s.parent_ids s.poses := by
      apply setPoses_congr
      refine ((setPoses_ok x _ _ _ hp).flip).imp ?_
      rintro a b ⟨h1, h2, -⟩
      exact ⟨h1.symm, fun h => (h2 (h1 ▸ h)).symm⟩
    rw [this]

/-- C94: after an update every body of a scene of MuJoCo has the pose of its link, the body of the world rests, and
every geometry belongs to such a body. -/
theorem C94_mujoco_poses {cameras lights : List (Int × List String)} {gs : List (Geom × List ℝ)} {s s' : MjScene}
    (h0 : MjScene.init cameras lights gs = .ok s) (hg : ∀ g ∈ gs, -1 ≤ g.1.link_idx) {x : List (Transform ℝ)}
    (h : s.update x = .ok s') :
    s'.model = s.model ∧ (∀ e ∈ s'.poses, bodyPose x e.1 = .ok e.2) ∧
    ∀ g ∈ gs, ∃ p, (g.1.link_idx, p) ∈ s'.poses := by
  unfold MjScene.init at h0
  cases hm : _build_model_of_geoms gs cameras lights with
  | error e => simp [hm, bind, Except.bind] at h0
  | ok m =>
    simp [hm, bind, Except.bind, pure, Except.pure] at h0
    subst h0
    obtain ⟨-, hnames, -⟩ := C93_bodies hm hg
    unfold MjScene.update at h
    cases hp : setPoses x (gs.map fun g => g.1.link_idx).dedup (m.bodies.map fun b => (b.name, 0, ⟨1, 0, 0, 0⟩)) with
    | error e => simp [hp, bind, Except.bind] at h
    | ok r =>
      simp [hp, bind, Except.bind, pure, Except.pure] at h
      subst h
      have hf := setPoses_ok x _ _ _ hp
      rw [List.forall₂_map_left_iff] at hf
      simp only [List.mem_dedup, List.mem_map] at hf
      refine ⟨rfl, ?_, ?_⟩
      · intro e he
        obtain ⟨b, hb, h1, h2, h3⟩ : ∃ b ∈ m.bodies, b.name = e.1 ∧
            ((¬ ∃ a ∈ gs, a.1.link_idx = b.name) ∨ b.name = -1 → (b.name, (0 : Vec3 ℝ), (⟨1, 0, 0, 0⟩ : Quat ℝ)) = e) ∧
            ((∃ a ∈ gs, a.1.link_idx = b.name) → b.name ≠ -1 → bodyPose x b.name = .ok e.2) := by
          obtain ⟨i, hi, rfl⟩ := List.getElem_of_mem he
          exact ⟨m.bodies[i]'(by rw [hf.length_eq]; exact hi), List.getElem_mem _, hf.get (by rw [hf.length_eq]; exact hi) hi⟩
        have hmem := (hnames b.name).mp (List.mem_map_of_mem hb)
        by_cases hb1 : b.name = -1
        · have := h2 (.inr hb1)
          rw [← this]
          simp [bodyPose, hb1]
        · rw [← h1]
          exact h3 hmem hb1
      · intro g hgm
        obtain ⟨b, hb, e⟩ := List.mem_map.mp ((hnames g.1.link_idx).mpr ⟨g, hgm, rfl⟩)
        obtain ⟨i, hi, rfl⟩ := List.getElem_of_mem hb
        have hi' : i < r.length := by rw [← hf.length_eq]; exact hi
        obtain ⟨h1, -⟩ := hf.get hi hi'
        simp only [List.get_eq_getElem] at h1
        refine ⟨(r[i]).2, ?_⟩
        rw [← e, h1]
        exact List.getElem_mem hi'

end RingLib.rendering
