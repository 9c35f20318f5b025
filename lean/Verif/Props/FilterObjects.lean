import Verif.Model.FilterObjects
import Verif.Props.Files
import Verif.Lemmas.Scan

/-! # Filters as objects: names, attributes, saving and loading -/

namespace RingLib
namespace ml
open utils System

variable {P W V : Type}

/-- a filter in wrappers, the outermost first -/
def wrapAll (ws : List (W × Option String)) (core : FObj P W) : FObj P W :=
  ws.foldr (fun w o => .wrapper w.1 w.2 o) core

/-- what a filter in wrappers does -/
def wrapFilter (wrap : W → Filter P → Filter P) (ws : List (W × Option String)) (f : Filter P) :
    Filter P := ws.foldr (fun w f => wrap w.1 f) f

theorem wrapAll_cons (w : W × Option String) (ws : List (W × Option String)) (core : FObj P W) :
    wrapAll (w :: ws) core = .wrapper w.1 w.2 (wrapAll ws core) := rfl

theorem filter_wrapAll (wrap : W → Filter P → Filter P) (ws : List (W × Option String))
    (core : FObj P W) : (wrapAll ws core).filter wrap =
      (core.filter wrap).map (wrapFilter wrap ws) := by
  induction ws with
  | nil => cases h : core.filter wrap <;> simp [wrapAll, wrapFilter, h]
  | cons w ws ih =>
    rw [wrapAll_cons]
    have : ∀ (w : W) n (o : FObj P W), (FObj.wrapper w n o).filter wrap =
        (o.filter wrap).map (wrap w) := fun _ _ _ => rfl
    rw [this, ih]
    cases core.filter wrap <;> rfl

/-- names from the inside out, with arrows between them -/
def arrowed (n : String) : List String → String
  | [] => n
  | name :: rest => arrowed (n ++ " ->\n" ++ name) rest

theorem arrowed_snoc (n : String) (l : List String) (x : String) :
    arrowed n (l ++ [x]) = arrowed n l ++ " ->\n" ++ x := by
  induction l generalizing n with
  | nil => rfl
  | cons a l ih => exact ih _

/-- C83: the name of a wrapped filter is the name of the filter followed by those of its wrappers from
inside out; it raises if and only if one of the names is missing. -/
theorem C83_name (ws : List (W × Option String)) (core : FObj P W) :
    (∀ n (names : List String), core.name = .ok n → ws.map Prod.snd = names.map some →
      (wrapAll ws core).name = .ok (arrowed n names.reverse)) ∧
    (∀ n, core.name = .ok n → (∃ w ∈ ws, w.2 = none) → (wrapAll ws core).name = .error .runtime) ∧
    (∀ e, core.name = .error e → (wrapAll ws core).name = .error e) := by
  have hw : ∀ (w : W) m (o : FObj P W), (FObj.wrapper w m o).name = (o.name >>= fun inner =>
      FObj.ownName (some m) >>= fun own => pure (inner ++ " ->\n" ++ own)) := fun _ _ _ => rfl
  have h1 : ∀ n (ws : List (W × Option String)) (names : List String), core.name = .ok n →
      ws.map Prod.snd = names.map some →
      (wrapAll ws core).name = .ok (arrowed n names.reverse) := by
    intro n ws
    induction ws with
    | nil =>
      intro names hc hn
      have : names = [] := by simpa using hn.symm
      subst this
      exact hc
    | cons w ws ih =>
      intro names hc hn
      cases names with
      | nil => simp at hn
      | cons a names =>
        rw [List.map_cons, List.map_cons, List.cons.injEq] at hn
        rw [wrapAll_cons, hw, ih names hc hn.2, ok_bind, hn.1, List.reverse_cons, arrowed_snoc]
        rfl
  refine ⟨fun n names => h1 n ws names, ?_, ?_⟩
  · intro n hc
    induction ws with
    | nil => rintro ⟨w, hw, -⟩; simp at hw
    | cons w ws ih =>
      intro h
      rw [wrapAll_cons, hw]
      by_cases h' : ∃ w ∈ ws, w.2 = none
      · rw [ih h']
        rfl
      · have hw2 : w.2 = none := by
          obtain ⟨v, hv, hv2⟩ := h
          rcases List.mem_cons.1 hv with rfl | hv
          · exact hv2
          · exact absurd ⟨v, hv, hv2⟩ h'
        have hall : ws.map Prod.snd = (ws.map fun v => v.2.getD "").map some := by
          rw [List.map_map]
          apply List.map_congr_left
          intro v hv
          cases hv2 : v.2 with
          | none => exact absurd ⟨v, hv, hv2⟩ h'
          | some x => simp [hv2]
        rw [h1 n ws _ hc hall, ok_bind, hw2]
        rfl
  · intro e hc
    induction ws with
    | nil => exact hc
    | cons w ws ih =>
      rw [wrapAll_cons, hw, ih]
      rfl

/-- C83: `nojit` of a wrapped network is the same network in the same wrappers, not compiled. -/
theorem C83_nojit (wrap : W → Filter P → Filter P) (ws : List (W × Option String)) (r : RING P)
    (jit : Bool) (n : Option String) : ∃ res self',
      (wrapAll ws (.ring r jit n)).nojit = .ok (res, self') ∧
      res = wrapAll ws (.ring r false none) ∧
      self' = (if ws = [] then .ring r jit n else wrapAll ws (.ring r false none)) ∧
      res.filter wrap = (wrapAll ws (.ring r jit n)).filter wrap ∧
      self'.filter wrap = (wrapAll ws (.ring r jit n)).filter wrap := by
  have h : (wrapAll ws (.ring r jit n)).nojit = .ok (wrapAll ws (.ring r false none),
      if ws = [] then .ring r jit n else wrapAll ws (.ring r false none)) := by
    induction ws with
    | nil => rfl
    | cons w ws ih =>
      rw [wrapAll_cons]
      unfold FObj.nojit
      rw [ih]
      rfl
  refine ⟨_, _, h, rfl, rfl, ?_, ?_⟩
  · rw [filter_wrapAll, filter_wrapAll]
    rfl
  · split
    · rename_i hw
      subst hw
      rfl
    · rw [filter_wrapAll, filter_wrapAll]
      rfl

/-- the network with the parameters and the parent array that are given to `save` -/
def withArgs (r : RING P) (args : FObj.SaveArgs P) : RING P :=
  { r with
    params := match args.params with
      | some p => some p
      | none => r.params
    lam := match args.lam with
      | some l => some l
      | none => r.lam }

theorem pre_save_wrapAll (ws : List (W × Option String)) (r : RING P) (jit : Bool) (n : Option String)
    (args : FObj.SaveArgs P) : (wrapAll ws (.ring r jit n))._pre_save args =
      .ok (wrapAll ws (.ring (withArgs r args) jit n)) := by
  induction ws with
  | nil =>
    unfold wrapAll FObj._pre_save withArgs
    cases args.params <;> cases args.lam <;> rfl
  | cons w ws ih =>
    rw [wrapAll_cons]
    unfold FObj._pre_save
    rw [ih]
    rfl

theorem post_load_wrapAll (ws : List (W × Option String)) (r : RING P) (j jit : Bool)
    (n : Option String) : (wrapAll ws (.ring r j n))._post_load jit =
      .ok (wrapAll ws (.ring r (jit || j) n)) := by
  induction ws with
  | nil => rfl
  | cons w ws ih =>
    rw [wrapAll_cons]
    unfold FObj._post_load
    rw [ih]
    rfl

/-- the class of a wrapped network -/
def clsOf (ws : List (W × Option String)) : FObj.Cls := if ws = [] then .ring else .wrapper

/-- C83: a network in wrappers that is saved and loaded with the method of its class does what it did
before, with the parameters and the parent array that were given to `save`; it is compiled if asked
for. The object that was saved goes on doing that as well. -/
theorem C83_roundtrip (wrap : W → Filter P → Filter P) (ws : List (W × Option String)) (r : RING P)
    (jit : Bool) (n : Option String) (args : FObj.SaveArgs P) {fs fs1 : FS (FObj P W)} {path : FPath}
    (hn : path.name ≠ "") (hmk : fs.mkdir path.parent = (.ok (), fs1))
    (hdir : fs1 (pickleFile path) ≠ some .dir) (jit' : Bool) :
    ∃ fs' self' o, (wrapAll ws (.ring r jit n)).save fs path args = .ok (fs', self') ∧
      FObj.load fs' (clsOf ws) path jit' = .ok o ∧
      o = wrapAll ws (.ring (withArgs r args) jit' none) ∧
      o.filter wrap = some (wrapFilter wrap ws (withArgs r args).filter) ∧
      self'.filter wrap = some (wrapFilter wrap ws (withArgs r args).filter) := by
  obtain ⟨res, self', h1, h2, h3, h4, h5⟩ := C83_nojit wrap ws (withArgs r args) jit n
  obtain ⟨fs', e1, e2⟩ := C52_roundtrip (obj := res) (ow := true) hn (by simp) hmk hdir
  refine ⟨fs', self', wrapAll ws (.ring (withArgs r args) jit' none), ?_, ?_, rfl, ?_, ?_⟩
  · unfold FObj.save
    rw [pre_save_wrapAll, ok_bind, h1, ok_bind]
    dsimp only
    rw [e1]
    rfl
  · unfold FObj.load
    rw [e2, ok_bind, h2]
    cases ws with
    | nil => simp [clsOf, wrapAll, FObj.postLoadAs]
    | cons w ws =>
      rw [wrapAll_cons]
      unfold clsOf FObj.postLoadAs
      simp only [reduceCtorEq, if_false]
      rw [post_load_wrapAll, ok_bind, Bool.or_false]
      rfl
  · rw [filter_wrapAll]
    rfl
  · rw [h5, filter_wrapAll]
    rfl

/-- C83 fails: `nojit` forgets the name of the network. A wrapper loses it in place, so that its name
raises after it has been saved or handed to `train_fn`; and a network that is loaded has no name. -/
theorem C83_name_fails (r : RING P) (w : W) :
    let o : FObj P W := .wrapper w (some "wrapper") (.ring r true (some "net"))
    o.name = .ok "net ->\nwrapper" ∧
    (∃ res self', o.nojit = .ok (res, self') ∧ res.name = .error .runtime ∧
      self'.name = .error .runtime) ∧
    ∃ fs' self' o', o.save (fun _ => none) ⟨false, ["a"]⟩ {} = .ok (fs', self') ∧
      self'.name = .error .runtime ∧ FObj.load fs' .wrapper ⟨false, ["a"]⟩ = .ok o' ∧
      o'.name = .error .runtime := by
  refine ⟨rfl, ⟨_, _, rfl, rfl, rfl⟩, ?_⟩
  obtain ⟨fs', self', o', h1, h2, h3, -, -⟩ := C83_roundtrip (fun _ f => f)
    [(w, some "wrapper")] r true (some "net") {} (fs := fun _ => none) (fs1 := fun _ => none)
    (path := ⟨false, ["a"]⟩) (by decide) rfl (by simp) true
  refine ⟨fs', self', o', h1, ?_, h2, ?_⟩
  · have h4 : (FObj.wrapper w (some "wrapper") (.ring r true (some "net"))).save
        (fun _ => none) ⟨false, ["a"]⟩ {} = .ok (fs', self') := h1
    unfold FObj.save at h4
    rw [show (FObj.wrapper w (some "wrapper") (.ring r true (some "net")))._pre_save {} =
      .ok (.wrapper w (some "wrapper") (.ring (withArgs r {}) true (some "net"))) from
        pre_save_wrapAll [(w, some "wrapper")] r true (some "net") {}, ok_bind] at h4
    rw [show (FObj.wrapper w (some "wrapper") (.ring (withArgs r {}) true (some "net"))).nojit =
      .ok (.wrapper w (some "wrapper") (.ring (withArgs r {}) false none),
        .wrapper w (some "wrapper") (.ring (withArgs r {}) false none)) from rfl, ok_bind] at h4
    dsimp only at h4
    split at h4
    · cases h4
    · cases h4
      rfl
  · rw [h3]
    rfl

/-- C83 fails for filters that are not networks: `load` gives `None`, and a wrapper around one contains
`None` after loading. What is given to `save` is ignored. -/
theorem C83_plain_fails (f : Filter P) (n : Option (Option String)) (w : W) (m : Option String)
    (args : FObj.SaveArgs P) {fs fs1 : FS (FObj P W)} {path : FPath}
    (hn : path.name ≠ "") (hmk : fs.mkdir path.parent = (.ok (), fs1))
    (hdir : fs1 (pickleFile path) ≠ some .dir) (jit : Bool) :
    (∃ fs', (FObj.plain f n).save fs path args = .ok (fs', .plain f n) ∧
      fs' (pickleFile path) = some (.file (.plain f n)) ∧
      FObj.load fs' .plain path jit = .ok .none) ∧
    ∃ fs', (FObj.wrapper w m (.plain f n)).save fs path args = .ok (fs', .wrapper w m (.plain f n)) ∧
      FObj.load fs' .wrapper path jit = .ok (.wrapper w m .none) ∧
      ∀ wrap, (FObj.wrapper w m .none : FObj P W).filter wrap = none := by
  constructor
  · obtain ⟨fs', e1, e2⟩ := C52_roundtrip (obj := FObj.plain f n) (ow := true) hn (by simp) hmk hdir
    refine ⟨fs', ?_, ?_, ?_⟩
    · unfold FObj.save
      show (match pickle_save fs (FObj.plain f n) path true with
        | (.error e, _) => .error e
        | (.ok _, fs) => pure (fs, FObj.plain f n) : Py (FS (FObj P W) × FObj P W)) = _
      rw [e1]
      rfl
    · rw [pickle_save_eq hn (by simp) hmk hdir] at e1
      have := (Prod.mk.inj e1).2
      subst this
      simp [FS.set]
    · unfold FObj.load
      rw [e2]
      rfl
  · obtain ⟨fs', e1, e2⟩ := C52_roundtrip (obj := FObj.wrapper w m (.plain f n)) (ow := true) hn
      (by simp) hmk hdir
    refine ⟨fs', ?_, ?_, fun _ => rfl⟩
    · unfold FObj.save
      show (match pickle_save fs (FObj.wrapper w m (.plain f n)) path true with
        | (.error e, _) => .error e
        | (.ok _, fs) => pure (fs, FObj.wrapper w m (.plain f n)) :
          Py (FS (FObj P W) × FObj P W)) = _
      rw [e1]
      rfl
    · unfold FObj.load
      rw [e2]
      rfl

/-- C83 fails if `load` is called on another class: `AbstractFilter.load` gives `None` for whatever was
saved, and the `load` of a wrapper cannot load a network. -/
theorem C83_class_fails (ws : List (W × Option String)) (r : RING P) (jit jit' : Bool)
    {fs : FS (FObj P W)} {path : FPath} {o : FObj P W} (h : (pickle_load fs path).1 = .ok o) :
    FObj.load fs .plain path jit = .ok .none ∧
    (o = .ring r jit' none → FObj.load fs .wrapper path jit = .error .attribute) ∧
    (o = wrapAll ws (.ring r false none) → ws ≠ [] → FObj.load fs .ring path jit = .ok o) := by
  refine ⟨?_, ?_, ?_⟩
  · unfold FObj.load
    rw [h]
    rfl
  · rintro rfl
    unfold FObj.load
    rw [h]
    rfl
  · rintro rfl hws
    unfold FObj.load
    rw [h]
    cases ws with
    | nil => exact absurd rfl hws
    | cons w ws => rfl

/-- the objects from the outside in -/
def layers : FObj P W → List (FObj P W)
  | .wrapper w n o => .wrapper w n o :: layers o
  | o => [o]

/-- C83: an attribute is searched from the outside in: the result is that of the first object that has
it, and an `AttributeError` if none has. -/
theorem C83_search (attr : FObj P W → Option V) (o : FObj P W) :
    o.search_attr attr = match (layers o).findSome? attr with
      | some v => .ok v
      | none => .error .attribute := by
  induction o with
  | ring r j n => unfold FObj.search_attr layers; simp; cases attr (.ring r j n) <;> rfl
  | plain f n => unfold FObj.search_attr layers; simp; cases attr (.plain f n) <;> rfl
  | none => unfold FObj.search_attr layers; simp; cases attr .none <;> rfl
  | wrapper w n o ih =>
    unfold FObj.search_attr layers
    rw [List.findSome?_cons, ih]
    cases attr (.wrapper w n o) <;> rfl

/-- C83: unwrapping a filter altogether gives the filter in the innermost wrapper. -/
theorem C83_unwrapped (ws : List (W × Option String)) (core : FObj P W)
    (h : core.cls = some .ring ∨ core.cls = some .plain) :
    (wrapAll ws core).unwrapped_deep = .ok core := by
  induction ws with
  | nil =>
    cases core with
    | ring => rfl
    | plain => rfl
    | wrapper => simp [FObj.cls] at h
    | none => simp [FObj.cls] at h
  | cons w ws ih => exact ih

/-! ### examples -/

/-- a network that hands back its input -/
def exRingObj : RING Nat where
  forward := fun _ _ s X => (X, s)
  init := fun _ _ => (0, [])
  params := none
  lam := some [-1, 0]

example : (wrapAll [(1, some "b"), (0, some "a")] (.ring exRingObj true (some "net"))).name =
    .ok "net ->\na ->\nb" := rfl
example : (withArgs exRingObj { params := some 5 }).params = some 5 ∧
    (withArgs exRingObj { params := some 5 }).lam = some [-1, 0] := ⟨rfl, rfl⟩
example : (⟨false, ["a"]⟩ : FPath).name ≠ "" ∧
    ∃ fs1, FS.mkdir (fun _ => none : FS (FObj Nat Nat)) (⟨false, ["a"]⟩ : FPath).parent = (.ok (), fs1) ∧
      fs1 (pickleFile ⟨false, ["a"]⟩) ≠ some .dir := ⟨by decide, _, rfl, by simp⟩

end ml
end RingLib
