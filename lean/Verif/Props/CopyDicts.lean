import Verif.Model.CopyDicts
import Verif.Props.Dict
import Verif.Lemmas.Scan

/-!
# C110: building generators leaves the options as they are
-/

namespace RingLib
namespace generator
open System

/-! ## Specification -/

/-- an argument is the dict at `a` -/
def IsArg (kwargs : Dict PVal) (a : Nat) : Prop := ∃ k, (k, PVal.ref a) ∈ kwargs

/-- the arguments exist -/
def ArgsExist (kwargs : Dict PVal) (h : Heap) : Prop := ∀ a, IsArg kwargs a → a < h.next

/-- a function that changes no dict that exists other than its arguments (it may change these, and make new ones) -/
def WritesArgs {β : Type} (f : PyFun β) : Prop :=
  ∀ kwargs h, h.next ≤ (f kwargs h).2.next ∧ ∀ a < h.next, ¬ IsArg kwargs a → (f kwargs h).2.objs a = h.objs a

/-- no dict that existed before was changed -/
def Unchanged (h h' : Heap) : Prop := h.next ≤ h'.next ∧ ∀ a < h.next, h'.objs a = h.objs a

/-- `d'` is `d` with the names of `sys` noted, if there are motion artifacts -/
def Noted (imu : Bool) (names : PVal) (d d' : Dict PVal) : Prop :=
  ∀ k, d'.lookup k = if imu = true ∧ k = "unactuated_subsystems" then some names else d.lookup k

/-! ## Proofs -/

theorem Unchanged.trans {h1 h2 h3 : Heap} (a : Unchanged h1 h2) (b : Unchanged h2 h3) : Unchanged h1 h3 :=
  ⟨a.1.trans b.1, fun i hi => by rw [b.2 i (lt_of_lt_of_le hi a.1), a.2 i hi]⟩

theorem copy_unchanged (h : Heap) (v : PVal) : Unchanged h (_copy h v).2 := by
  cases v with
  | atom n => exact ⟨le_rfl, fun _ _ => rfl⟩
  | ref a => exact ⟨Nat.le_succ _, fun i hi => if_neg (Nat.ne_of_lt hi)⟩

theorem copyKwargs_unchanged (h : Heap) (kw : Dict PVal) : Unchanged h (copyKwargs h kw).2 := by
  induction kw generalizing h with
  | nil => exact ⟨le_rfl, fun _ _ => rfl⟩
  | cons x xs ih => exact (copy_unchanged h x.2).trans (ih _)

theorem copyKwargs_new {h : Heap} {kw : Dict PVal} {a : Nat} (ha : IsArg (copyKwargs h kw).1 a) : h.next ≤ a := by
  induction kw generalizing h with
  | nil => obtain ⟨k, hk⟩ := ha; simp [copyKwargs] at hk
  | cons x xs ih =>
    obtain ⟨k, hk⟩ := ha
    rcases List.mem_cons.1 hk with e | hk
    · cases hx : x.2 with
      | atom n => rw [hx] at e; simp [_copy] at e
      | ref b =>
        rw [hx] at e
        simp only [_copy, Heap.alloc, Prod.mk.injEq, PVal.ref.injEq] at e
        omega
    · exact (copy_unchanged h x.2).1.trans (ih ⟨k, hk⟩)

/-- A decorated function leaves every dict of its caller as it is, if the function itself changes only its arguments. -/
theorem C110_unchanged {β : Type} {f : PyFun β} (hf : WritesArgs f) (kwargs : Dict PVal) (h : Heap) :
    Unchanged h (_copy_dicts f kwargs h).2 := by
  have hu := copyKwargs_unchanged h kwargs
  refine ⟨hu.1.trans (hf _ _).1, fun a ha => ?_⟩
  unfold _copy_dicts
  dsimp only
  rw [(hf _ _).2 a (lt_of_lt_of_le ha hu.1) fun hh => absurd (copyKwargs_new hh) (by omega), hu.2 a ha]

/-- What the decorated function receives: other values as they are, and for a dict a dict with the same items. -/
theorem C110_received {h : Heap} {kw : Dict PVal} (hw : ArgsExist kw h) (k : String) :
    (∀ n, kw.lookup k = some (.atom n) → (copyKwargs h kw).1.lookup k = some (.atom n)) ∧
    (∀ a, kw.lookup k = some (.ref a) → ∃ b, (copyKwargs h kw).1.lookup k = some (.ref b) ∧ h.next ≤ b ∧
      b < (copyKwargs h kw).2.next ∧ (copyKwargs h kw).2.objs b = h.objs a) ∧
    (kw.lookup k = none → (copyKwargs h kw).1.lookup k = none) := by
  induction kw generalizing h with
  | nil => simp [copyKwargs]
  | cons x xs ih =>
    obtain ⟨kx, v⟩ := x
    have hu := copy_unchanged h v
    have hw' : ArgsExist xs (_copy h v).2 := fun a ⟨k, hk⟩ =>
      lt_of_lt_of_le (hw a ⟨k, List.mem_cons_of_mem _ hk⟩) hu.1
    by_cases e : k = kx
    · subst e
      refine ⟨fun n hn => ?_, fun a ha => ?_, fun hn => ?_⟩
      · simp only [List.lookup_cons_self, Option.some.injEq] at hn
        subst hn
        simp [copyKwargs, _copy]
      · simp only [List.lookup_cons_self, Option.some.injEq] at ha
        subst ha
        have hlt : h.next < (_copy h (.ref a)).2.next := Nat.lt_succ_self _
        have hr := copyKwargs_unchanged (_copy h (.ref a)).2 xs
        refine ⟨h.next, by simp [copyKwargs, _copy, Heap.alloc], le_rfl, lt_of_lt_of_le hlt hr.1, ?_⟩
        show (copyKwargs (_copy h (.ref a)).2 xs).2.objs h.next = _
        rw [hr.2 _ hlt]
        exact if_pos rfl
      · simp at hn
    · have hb : (k == kx) = false := by simpa using e
      obtain ⟨i1, i2, i3⟩ := ih hw'
      refine ⟨fun n hn => ?_, fun a ha => ?_, fun hn => ?_⟩
      · rw [List.lookup_cons, hb] at hn
        show List.lookup k ((kx, _) :: _) = _
        rw [List.lookup_cons, hb]
        exact i1 n hn
      · rw [List.lookup_cons, hb] at ha
        obtain ⟨b, h1, h2, h3, h4⟩ := i2 a ha
        refine ⟨b, ?_, hu.1.trans h2, h3, ?_⟩
        · show List.lookup k ((kx, _) :: _) = _
          rw [List.lookup_cons, hb]
          exact h1
        · have hm : a < h.next := by
            have : (k, PVal.ref a) ∈ xs := by
              have := List.lookup_eq_some_iff.1 ha
              obtain ⟨l1, l2, e, -⟩ := this
              rw [e]; simp
            exact hw a ⟨k, List.mem_cons_of_mem _ this⟩
          show (copyKwargs (_copy h v).2 xs).2.objs b = _
          rw [h4, hu.2 a hm]
      · rw [List.lookup_cons, hb] at hn
        show List.lookup k ((kx, _) :: _) = _
        rw [List.lookup_cons, hb]
        exact i3 hn

theorem mem_of_lookup {kw : Dict PVal} {k : String} {v : PVal} (h : kw.lookup k = some v) : (k, v) ∈ kw := by
  obtain ⟨l1, l2, e, -⟩ := List.lookup_eq_some_iff.1 h
  rw [e]
  simp

/-- The builder changes no dict but the one it is given. -/
theorem C110_writes (imu dyn : Bool) (un : PVal → PVal) : WritesArgs (buildOptions imu dyn un) := by
  intro kw h
  unfold buildOptions
  split
  · rename_i s a _ ha
    have hm : IsArg kw a := by
      unfold dictArg at ha
      split at ha
      · rename_i b hb
        cases ha
        exact ⟨_, mem_of_lookup hb⟩
      · cases ha
    split_ifs
    · exact ⟨le_rfl, fun _ _ _ => rfl⟩
    · exact ⟨le_rfl, fun _ _ _ => rfl⟩
    · refine ⟨le_rfl, fun b _ hb => if_neg ?_⟩
      rintro rfl
      exact hb hm
    · exact ⟨le_rfl, fun _ _ _ => rfl⟩
  · exact ⟨le_rfl, fun _ _ _ => rfl⟩

/-- the options fit: there is a dict for the simulation, and with motion artifacts there is a simulation and the names are
not yet noted -/
structure OptionsFit (imu dyn : Bool) (options : Dict PVal) (h : Heap) (a : Nat) : Prop where
  exist : ArgsExist options h
  dict : options.lookup "dynamic_simulation_kwargs" = some (.ref a)
  dyn : imu = true → dyn = true
  free : imu = true → "unactuated_subsystems" ∉ (h.objs a).keys

theorem OptionsFit.later {imu dyn : Bool} {options : Dict PVal} {h h' : Heap} {a : Nat}
    (ho : OptionsFit imu dyn options h a) (hu : Unchanged h h') : OptionsFit imu dyn options h' a where
  exist b hb := lt_of_lt_of_le (ho.exist b hb) hu.1
  dict := ho.dict
  dyn := ho.dyn
  free := by
    rw [hu.2 a (ho.exist a ⟨_, mem_of_lookup ho.dict⟩)]
    exact ho.free

theorem args_sys {options : Dict PVal} {h : Heap} (hw : ArgsExist options h) (s : Int) :
    ArgsExist (("sys", .atom s) :: options) h := by
  rintro b ⟨k, hk⟩
  rcases List.mem_cons.1 hk with e | hk
  · simp at e
  · exact hw b ⟨k, hk⟩

/-- One system. -/
theorem build_one {imu dyn : Bool} {un : PVal → PVal} {options : Dict PVal} {h : Heap} {a : Nat}
    (ho : OptionsFit imu dyn options h a) (s : Int) :
    ∃ b h', _copy_dicts (buildOptions imu dyn un) (("sys", .atom s) :: options) h = (.ok b, h') ∧ h.next ≤ b ∧
      b < h'.next ∧ Noted imu (un (.atom s)) (h.objs a) (h'.objs b) := by
  have hw := args_sys ho.exist s
  have r1 := (C110_received hw "sys").1 s (by simp)
  obtain ⟨b, r2, hb1, hb2, hb3⟩ := (C110_received hw "dynamic_simulation_kwargs").2.1 a (by
    rw [List.lookup_cons, show ("dynamic_simulation_kwargs" == "sys") = false by decide]
    exact ho.dict)
  have hd : dictArg (copyKwargs h (("sys", .atom s) :: options)).1 "dynamic_simulation_kwargs" = .ok b := by
    unfold dictArg
    rw [r2]
  unfold _copy_dicts buildOptions
  dsimp only
  rw [r1, hd]
  dsimp only
  cases imu with
  | false => exact ⟨b, _, rfl, hb1, hb2, fun k => by simp [hb3]⟩
  | true =>
    rw [if_pos rfl, if_neg (by rw [ho.dyn rfl]; simp), if_neg (by rw [hb3]; exact ho.free rfl)]
    refine ⟨b, _, rfl, hb1, hb2, fun k => ?_⟩
    simp only [Heap.setitem, if_pos, hb3, true_and]
    exact Dict.lookup_set _ _ _ _

/-- For any number of systems every generator is built; each has its own dict of options, made for it, in which the names of
its own system are noted and all else is as given; no dict of the caller is changed. -/
theorem C110_all {imu dyn : Bool} {un : PVal → PVal} {options : Dict PVal} {h : Heap} {a : Nat}
    (ho : OptionsFit imu dyn options h a) (ss : List Int) :
    ∃ bs h', buildAll (_copy_dicts (buildOptions imu dyn un)) options (ss.map .atom) h = (.ok bs, h') ∧
      Unchanged h h' ∧ bs.Nodup ∧
      List.Forall₂ (fun s b => h.next ≤ b ∧ b < h'.next ∧ Noted imu (un (.atom s)) (h.objs a) (h'.objs b)) ss bs := by
  induction ss generalizing h with
  | nil => exact ⟨[], h, rfl, ⟨le_rfl, fun _ _ => rfl⟩, .nil, .nil⟩
  | cons s ss ih =>
    obtain ⟨b, h1, e1, hb1, hb2, hb3⟩ := build_one (un := un) ho s
    have u1 : Unchanged h h1 := by
      have := C110_unchanged (C110_writes imu dyn un) (("sys", .atom s) :: options) h
      rwa [e1] at this
    obtain ⟨bs, h2, e2, u2, hn, hf⟩ := ih (ho.later u1)
    have ea : h1.objs a = h.objs a := u1.2 a (ho.exist a ⟨_, mem_of_lookup ho.dict⟩)
    have hge : ∀ {l : List Int} {m : List Nat}, List.Forall₂ (fun s b => h1.next ≤ b ∧ b < h2.next ∧
        Noted imu (un (.atom s)) (h1.objs a) (h2.objs b)) l m → ∀ x ∈ m, h1.next ≤ x := by
      intro l m hh
      induction hh with
      | nil => simp
      | cons p _ ih => exact fun x hx => (List.mem_cons.1 hx).elim (fun e => e ▸ p.1) (ih x)
    refine ⟨b :: bs, h2, ?_, u1.trans u2, ?_, .cons ⟨hb1, lt_of_lt_of_le hb2 u2.1, ?_⟩ ?_⟩
    · simp only [List.map_cons, buildAll, e1, e2]
    · exact List.nodup_cons.2 ⟨fun hm => absurd (hge hf b hm) (by omega), hn⟩
    · rw [u2.2 b hb2]
      exact hb3
    · refine hf.imp fun s x hx => ⟨u1.1.trans hx.1, hx.2.1, ?_⟩
      rw [← ea]
      exact hx.2.2

/-- Generators may be built again from the same options (or from the defaults of the signature, which are dicts that live
as long as the program): this succeeds too, and changes nothing for the generators built before. -/
theorem C110_again {imu dyn : Bool} {un un' : PVal → PVal} {options : Dict PVal} {h : Heap} {a : Nat}
    (ho : OptionsFit imu dyn options h a) (ss ss' : List Int) :
    ∃ bs h' bs' h'', buildAll (_copy_dicts (buildOptions imu dyn un)) options (ss.map .atom) h = (.ok bs, h') ∧
      buildAll (_copy_dicts (buildOptions imu dyn un')) options (ss'.map .atom) h' = (.ok bs', h'') ∧
      Unchanged h h'' ∧ bs.length = ss.length ∧ bs'.length = ss'.length ∧ ∀ b ∈ bs, h''.objs b = h'.objs b := by
  obtain ⟨bs, h', e, u, -, hf⟩ := C110_all (un := un) ho ss
  obtain ⟨bs', h'', e', u', -, hf'⟩ := C110_all (un := un') (ho.later u) ss'
  have hlen : ∀ {R : Int → Nat → Prop} {l : List Int} {m : List Nat}, List.Forall₂ R l m → m.length = l.length := by
    intro R l m hh
    induction hh with
    | nil => rfl
    | cons _ _ ih => rw [List.length_cons, List.length_cons, ih]
  have hlt : ∀ {l : List Int} {m : List Nat}, List.Forall₂ (fun s b => h.next ≤ b ∧ b < h'.next ∧
      Noted imu (un (.atom s)) (h.objs a) (h'.objs b)) l m → ∀ x ∈ m, x < h'.next := by
    intro l m hh
    induction hh with
    | nil => simp
    | cons p _ ih => exact fun x hx => (List.mem_cons.1 hx).elim (fun e => e ▸ p.2.1) (ih x)
  exact ⟨bs, h', bs', h'', e, e', u.trans u', hlen hf, hlen hf', fun b hb => u'.2 b (hlt hf b hb)⟩

/-- If the caller gives the names themself, or asks for motion artifacts without a simulation, nothing is built. -/
theorem C110_refused {imu dyn : Bool} {un : PVal → PVal} {options : Dict PVal} {h : Heap} {a : Nat}
    (hw : ArgsExist options h) (hd : options.lookup "dynamic_simulation_kwargs" = some (.ref a)) (hi : imu = true)
    (hb : dyn = false ∨ "unactuated_subsystems" ∈ (h.objs a).keys) (s : Int) (ss : List Int) :
    (buildAll (_copy_dicts (buildOptions imu dyn un)) options ((s :: ss).map .atom) h).1 = .error .assertion := by
  have hw' := args_sys hw s
  have r1 := (C110_received hw' "sys").1 s (by simp)
  obtain ⟨b, r2, hb1, hb2, hb3⟩ := (C110_received hw' "dynamic_simulation_kwargs").2.1 a (by
    rw [List.lookup_cons, show ("dynamic_simulation_kwargs" == "sys") = false by decide]
    exact hd)
  have hd' : dictArg (copyKwargs h (("sys", .atom s) :: options)).1 "dynamic_simulation_kwargs" = .ok b := by
    unfold dictArg
    rw [r2]
  have e : ∃ h', _copy_dicts (buildOptions imu dyn un) (("sys", .atom s) :: options) h = (.error .assertion, h') := by
    unfold _copy_dicts buildOptions
    dsimp only
    rw [r1, hd']
    dsimp only
    rw [if_pos hi]
    cases dyn with
    | false => exact ⟨_, if_pos rfl⟩
    | true =>
      rw [if_neg (by simp), hb3, if_pos (by simpa using hb)]
      exact ⟨_, rfl⟩
  obtain ⟨h', e⟩ := e
  simp only [List.map_cons, buildAll, e]

/-- Without the decorator the first system would leave its names in the caller's dict, and the second would be refused. -/
theorem C110_uncopied_fails {un : PVal → PVal} {options : Dict PVal} {h : Heap} {a : Nat}
    (ho : OptionsFit true true options h a) (s s' : Int) (ss : List Int) :
    (buildAll (buildOptions true true un) options ((s :: s' :: ss).map .atom) h).1 = .error .assertion := by
  have hd : ∀ s : Int, dictArg (("sys", .atom s) :: options) "dynamic_simulation_kwargs" = .ok a := by
    intro s
    unfold dictArg
    rw [List.lookup_cons, show ("dynamic_simulation_kwargs" == "sys") = false by decide]
    dsimp only
    rw [ho.dict]
  have e1 : buildOptions true true un (("sys", .atom s) :: options) h =
      (.ok a, h.setitem a "unactuated_subsystems" (un (.atom s))) := by
    unfold buildOptions
    rw [hd s, List.lookup_cons_self]
    dsimp only
    rw [if_pos rfl, if_neg (by simp), if_neg (ho.free rfl)]
  have e2 : buildOptions true true un (("sys", .atom s') :: options)
      (h.setitem a "unactuated_subsystems" (un (.atom s))) =
      (.error .assertion, h.setitem a "unactuated_subsystems" (un (.atom s))) := by
    unfold buildOptions
    rw [hd s', List.lookup_cons_self]
    dsimp only
    rw [if_pos rfl, if_neg (by simp), if_pos]
    simp only [Heap.setitem, if_pos]
    rw [Dict.keys_set, if_neg (ho.free rfl)]
    simp
  simp only [List.map_cons, buildAll, e1, e2]

/-- writes into a dict that is an item of an argument -/
def writeNested : PyFun Unit := fun kwargs h =>
  match dictArg kwargs "options" with
  | .ok a =>
    match (h.objs a).lookup "inner" with
    | some (.ref b) => (.ok (), h.setitem b "x" (.atom 1))
    | _ => (.error .type, h)
  | .error e => (.error e, h)

/-- a dict at 1 with the dict at 0 as an item -/
def nestedHeap : Heap := ⟨2, fun a => if a = 1 then [("inner", .ref 0)] else []⟩

/-- The copies are shallow: a decorated function that writes into a dict within an argument changes the caller's. -/
theorem C110_nested_fails : ¬ Unchanged nestedHeap (_copy_dicts writeNested [("options", .ref 1)] nestedHeap).2 := by
  intro h
  have := h.2 0 (by decide)
  revert this
  decide

/-! ## Example -/

/-- the defaults of the signature: an empty dict -/
def defaultHeap : Heap := ⟨1, fun _ => []⟩

theorem default_fit : OptionsFit true true [("dynamic_simulation_kwargs", .ref 0), ("cor", .atom 0)] defaultHeap 0 where
  exist := by
    rintro a ⟨k, hk⟩
    simp at hk
    obtain ⟨-, rfl⟩ := hk
    decide
  dict := by decide
  dyn _ := rfl
  free _ := by decide

example : (buildAll (_copy_dicts (buildOptions true true id)) [("dynamic_simulation_kwargs", .ref 0), ("cor", .atom 0)]
    ([5, 6].map .atom) defaultHeap).1 = .ok [1, 2] := by
  rfl

example : ∃ bs h', buildAll (_copy_dicts (buildOptions true true id))
    [("dynamic_simulation_kwargs", .ref 0), ("cor", .atom 0)] ([5, 6, 7].map .atom) defaultHeap = (.ok bs, h') ∧
      Unchanged defaultHeap h' :=
  let ⟨bs, h', e, u, _⟩ := C110_all (un := id) default_fit [5, 6, 7]
  ⟨bs, h', e, u⟩

end generator
end RingLib
