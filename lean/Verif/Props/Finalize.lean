import Verif.Model.Finalize
import Verif.Props.Dict
import Verif.Props.Delete
import Verif.Props.Poses
import Verif.Props.PdControl
import Verif.Props.ImuPipeline

/-!
# C45: the targets `y`

One entry per link: relative orientation for the links that have a parent, (inclination of the)
orientation for the links that are connected to the world.
-/

namespace RingLib
namespace sensors
open System maths
variable {π K : Type}

/-! ## specification -/

/-- `ts` is the trajectory of the link called `n` -/
def IsSeries (sx : System ℝ π) (xs : List (List (Transform ℝ))) (n : String)
    (ts : List (Transform ℝ)) : Prop :=
  ∃ j : Nat, sx.link_names[j]? = some n ∧ ts.map some = xs.map (fun row => row[j]?)

/-- the link `n` is connected to the world -/
def IsRoot (s : System ℝ π) (n : String) : Prop :=
  ∃ i : Nat, s.link_names[i]? = some n ∧ s.link_parents[i]? = some (-1)

/-- the parent of the link `n` is the link `m` -/
def IsParent (s : System ℝ π) (n m : String) : Prop :=
  ∃ i p : Nat, s.link_names[i]? = some n ∧ s.link_parents[i]? = some (p : Int) ∧
    s.link_names[p]? = some m

/-- the poses of all links of `sx` at all times -/
def PosesOf (sx : System ℝ π) (xs : List (List (Transform ℝ))) : Prop :=
  ∀ row ∈ xs, row.length = sx.num_links

/-! ## proofs -/

theorem IsSeries.length {sx : System ℝ π} {xs : List (List (Transform ℝ))} {n : String}
    {ts : List (Transform ℝ)} (h : IsSeries sx xs n ts) : ts.length = xs.length := by
  obtain ⟨j, _, e⟩ := h
  simpa using congrArg List.length e

theorem IsSeries.unique {sx : System ℝ π} (hn : sx.link_names.Nodup)
    {xs : List (List (Transform ℝ))} {n : String} {ts ts' : List (Transform ℝ)}
    (h : IsSeries sx xs n ts) (h' : IsSeries sx xs n ts') : ts = ts' := by
  obtain ⟨j, h1, e⟩ := h
  obtain ⟨j', h1', e'⟩ := h'
  have : j = j' := by
    have a := idxOf?_eq_of_nodup hn h1
    rw [idxOf?_eq_of_nodup hn h1'] at a
    exact (Option.some.inj a).symm
  subst this
  rw [← e'] at e
  exact List.map_injective_iff.2 (Option.some_injective _) e

theorem takeLink_ok {j : Nat} : ∀ {xs : List (List (Transform ℝ))}, (∀ row ∈ xs, j < row.length) →
    ∃ ts, takeLink xs j = .ok ts ∧ ts.map some = xs.map (fun row => row[j]?) := by
  intro xs
  induction xs with
  | nil => intro _; exact ⟨[], rfl, rfl⟩
  | cons row xs ih =>
    intro h
    obtain ⟨ts, e1, e2⟩ := ih fun r hr => h r (List.mem_cons_of_mem _ hr)
    have hj : j < row.length := h row (List.mem_cons_self ..)
    refine ⟨row[j] :: ts, ?_, by simp [e2, hj]⟩
    unfold takeLink at e1 ⊢
    rw [List.mapM_cons, pyGet_nat (List.getElem?_eq_getElem hj), ok_bind, e1, ok_bind]
    rfl

/-- every link has a trajectory and `take` finds it -/
theorem series_at {E : JEnv ℝ π} {sx : System ℝ π} (hx : sx.Consistent E.toEnv)
    {xs : List (List (Transform ℝ))} (hl : PosesOf sx xs) {n : String} (hn : n ∈ sx.link_names) :
    ∃ (j : Nat) (ts : List (Transform ℝ)), sx.link_names[j]? = some n ∧ sx.name_to_idx n = .ok j ∧
      takeLink xs j = .ok ts ∧ IsSeries sx xs n ts := by
  obtain ⟨j, hj, e⟩ := List.getElem_of_mem hn
  have h1 : sx.link_names[j]? = some n := by rw [List.getElem?_eq_getElem hj, e]
  obtain ⟨ts, e1, e2⟩ := takeLink_ok (j := j) (xs := xs) fun row hr => by
    rw [hl row hr]
    have := hx.names_len
    unfold num_links at this ⊢
    omega
  exact ⟨j, ts, h1, name_to_idx_of_nodup hx.names_nodup h1, e1, j, h1, e2⟩

/-- A scan that adds at most one entry per link, under the name of the link. -/
theorem entries_dict {β : Type} {E : JEnv ℝ π} {s : System ℝ π} (h : s.Consistent E.toEnv)
    {g : String × Int → Py (Option (String × β))}
    (O : ∀ i, i < s.link_parents.length → Option β)
    (hO : ∀ i (hi : i < s.link_parents.length),
      g ((s.link_names[i]'(by rw [h.names_len]; exact hi)), s.link_parents[i]) =
        .ok ((O i hi).map fun v => ((s.link_names[i]'(by rw [h.names_len]; exact hi)), v))) :
    ∃ ys, s.scan E.toEnv (fun _ _ a => g a) ((argL s.link_names).and (argL s.link_parents)) = .ok ys ∧
      (Dict.update [] (ys.filterMap id)).keys.Nodup ∧
      ∀ n v, List.lookup n (Dict.update [] (ys.filterMap id)) = some v ↔
        ∃ (i : Nat) (hi : i < s.link_parents.length), s.link_names[i]? = some n ∧ O i hi = some v := by
  have hnl : s.link_names.length = s.link_parents.length := h.names_len
  let outs : List (Option (String × β)) := List.ofFn fun i : Fin s.link_parents.length =>
    (O i i.2).map fun v => ((s.link_names[i]'(by rw [hnl]; exact i.2)), v)
  have key := scan_inv (E := E.toEnv) (s := s) h.known h.types_len
    (arg := (argL s.link_names).and (argL s.link_parents)) (g := g)
    (by
      intro x hx
      simp only [ScanArg.and, argL, List.mem_append, List.mem_singleton, List.mem_cons,
        List.not_mem_nil, or_false] at hx
      rcases hx with rfl | rfl
      · exact h.names_len
      · rfl)
    (rows_and (rows_argL _ _) (rows_argL _ _)) (by simp [hnl]) outs (by simp [outs])
    (by
      intro i hi
      simp only [List.getElem_zip]
      rw [hO i hi]
      simp [outs])
  -- the keys of the assignments
  have hsub : List.Sublist ((outs.filterMap id).map Prod.fst) s.link_names := by
    have e : (outs.filterMap id).map Prod.fst = (List.ofFn fun i : Fin s.link_parents.length =>
        (O i i.2).map fun _ => (s.link_names[i]'(by rw [hnl]; exact i.2))).filterMap id := by
      rw [List.map_filterMap]
      simp only [outs, List.ofFn_eq_map, List.filterMap_map]
      congr 1
      funext i
      simp only [Function.comp, id]
      cases O i i.2 <;> rfl
    rw [e]
    have e2 : s.link_names = (List.ofFn fun i : Fin s.link_parents.length =>
        s.link_names[i]'(by rw [hnl]; exact i.2)) := by
      apply List.ext_getElem
      · simp [hnl]
      · intro i h1 h2; simp
    conv_rhs => rw [e2]
    simp only [List.ofFn_eq_map, List.filterMap_map]
    have gen : ∀ l : List (Fin s.link_parents.length), List.Sublist
        (l.filterMap (id ∘ fun i : Fin s.link_parents.length =>
          (O i i.2).map fun _ => (s.link_names[i]'(by rw [hnl]; exact i.2))))
        (l.map fun i => s.link_names[i]'(by rw [hnl]; exact i.2)) := by
      intro l
      induction l with
      | nil => simp
      | cons a l ih =>
        cases ho : O a a.2 with
        | none =>
          rw [List.filterMap_cons_none (by simp [ho]), List.map_cons]
          exact ih.cons _
        | some v =>
          rw [List.filterMap_cons_some (b := s.link_names[a]'(by rw [hnl]; exact a.2))
            (by simp [ho]), List.map_cons]
          exact ih.cons_cons _
    exact gen _
  have hnd : ((outs.filterMap id).map Prod.fst).Nodup := h.names_nodup.sublist hsub
  have hlk : ∀ n v, List.lookup n (Dict.update [] (outs.filterMap id)) = some v ↔
      ∃ (i : Nat) (hi : i < s.link_parents.length), s.link_names[i]? = some n ∧ O i hi = some v := by
    intro n v
    rw [Dict.lookup_update _ _ hnd]
    simp only [List.lookup_nil, Option.or_none]
    constructor
    · intro hv
      have hm := Dict.lookup_mem hv
      simp only [List.mem_filterMap, id] at hm
      obtain ⟨o, ho, e⟩ := hm
      obtain ⟨i, hi⟩ := List.mem_ofFn.1 ho
      subst e
      cases hoi : O i i.2 with
      | none => simp [hoi] at hi
      | some w =>
        simp [hoi] at hi
        obtain ⟨a, b⟩ := hi
        refine ⟨i, i.2, ?_, by rw [hoi, b]⟩
        rw [List.getElem?_eq_getElem (by rw [hnl]; exact i.2), ← a]
    · rintro ⟨i, hi, e1, e2⟩
      apply Dict.lookup_of_mem hnd
      simp only [List.mem_filterMap, id]
      refine ⟨_, List.mem_ofFn.2 ⟨⟨i, hi⟩, rfl⟩, ?_⟩
      rw [List.getElem?_eq_getElem (by rw [hnl]; exact hi)] at e1
      have e1 := Option.some.inj e1
      show (O i hi).map _ = _
      rw [e2]
      simp only [Option.map_some]
      exact congrArg some (Prod.ext e1 rfl)
  refine ⟨outs, key, ?_, hlk⟩
  unfold Dict.update
  have hset : ∀ (e d : Dict β), d.keys.Nodup → (e.foldl (fun d x => d.set x.1 x.2) d).keys.Nodup := by
    intro e
    induction e with
    | nil => intro d hd; exact hd
    | cons a e ih =>
      intro d hd
      apply ih
      rw [Dict.keys_set]
      split
      · exact hd
      · rename_i hk
        rw [List.nodup_append]
        refine ⟨hd, by simp, ?_⟩
        intro x hx y hy
        simp only [List.mem_singleton] at hy
        subst hy
        rintro rfl
        exact hk hx
  exact hset _ _ (by simp [Dict.keys])

/-- C45, relative poses: there is an entry for exactly the links with a parent, and it holds at every
time the orientation of the parent composed with the inverse of that of the link. -/
theorem C45_rel_pose {E : JEnv ℝ π} {s sx : System ℝ π} (h : s.Consistent E.toEnv)
    (ht : Topological s.link_parents) (hx : sx.Consistent E.toEnv)
    {xs : List (List (Transform ℝ))} (hl : PosesOf sx xs)
    (hsub : ∀ n ∈ s.link_names, n ∈ sx.link_names) :
    ∃ y, sensors.rel_pose E s xs sx = .ok y ∧ y.keys.Nodup ∧
      (∀ n, n ∈ y.keys ↔ n ∈ s.link_names ∧ ¬ IsRoot s n) ∧
      ∀ n m, IsParent s n m → ∃ tn tm, IsSeries sx xs n tn ∧ IsSeries sx xs m tm ∧
        List.lookup n y = some (List.zipWith (fun xm xn => quat_mul xm.rot (quat_inv xn.rot)) tm tn) := by
  have hnl : s.link_names.length = s.link_parents.length := h.names_len
  have row : ∀ i (hi : i < s.link_parents.length), ∃ o : Option (List (Quat ℝ)),
      sensors.pose_child_to_parent s sx xs
        ((s.link_names[i]'(by rw [hnl]; exact hi)), s.link_parents[i]) =
          .ok (o.map fun v => ((s.link_names[i]'(by rw [hnl]; exact hi)), v)) ∧
      (s.link_parents[i] = -1 → o = none) ∧
      (s.link_parents[i] ≠ -1 → ∃ (p : Nat) (m : String) (tn tm : List (Transform ℝ)),
        s.link_parents[i] = (p : Int) ∧ s.link_names[p]? = some m ∧
        IsSeries sx xs (s.link_names[i]'(by rw [hnl]; exact hi)) tn ∧ IsSeries sx xs m tm ∧
        o = some (List.zipWith (fun xm xn => quat_mul xm.rot (quat_inv xn.rot)) tm tn)) := by
    intro i hi
    unfold sensors.pose_child_to_parent
    by_cases h0 : s.link_parents[i] = -1
    · refine ⟨none, ?_, fun _ => rfl, fun hne => absurd h0 hne⟩
      simp only [h0, if_true]
      rfl
    · obtain ⟨h1, h2⟩ := ht i hi
      obtain ⟨p, hp⟩ : ∃ p : Nat, s.link_parents[i] = (p : Int) := ⟨s.link_parents[i].toNat, by omega⟩
      have hpl : p < s.link_names.length := by rw [hnl]; omega
      have hpn : s.link_names[p]? = some s.link_names[p] := List.getElem?_eq_getElem hpl
      obtain ⟨i', tn, -, a2, a3, a4⟩ := series_at hx hl (hsub _ (List.getElem_mem (l := s.link_names)
        (n := i) (by rw [hnl]; exact hi)))
      obtain ⟨p', tm, -, b2, b3, b4⟩ := series_at hx hl (hsub _ (List.getElem_mem (l := s.link_names) hpl))
      refine ⟨some _, ?_, fun h => absurd h h0, fun _ => ⟨p, _, tn, tm, hp, hpn, a4, b4, rfl⟩⟩
      simp only [if_neg h0]
      rw [hp, idx_to_name_nat hpn]
      simp only [ok_bind, a2, a3, b2, b3, pure_ok]
      rfl
  choose O hO hOn hOs using row
  obtain ⟨ys, hys, hnd, hlk⟩ := entries_dict h O hO
  refine ⟨_, ?_, hnd, ?_, ?_⟩
  · unfold sensors.rel_pose
    rw [pyAssert_true (show ∀ row ∈ xs, row.length = sx.num_links from hl), ok_bind, hys]
    rfl
  · intro n
    rw [Dict.lookup_isSome]
    simp only [hlk]
    constructor
    · rintro ⟨v, i, hi, e1, e2⟩
      refine ⟨List.mem_of_getElem? e1, ?_⟩
      rintro ⟨i', f1, f2⟩
      have : i = i' := by
        have a := idxOf?_eq_of_nodup h.names_nodup e1
        rw [idxOf?_eq_of_nodup h.names_nodup f1] at a
        exact (Option.some.inj a).symm
      subst this
      rw [List.getElem?_eq_getElem hi] at f2
      rw [hOn i hi (Option.some.inj f2)] at e2
      cases e2
    · rintro ⟨hm, hr⟩
      obtain ⟨i, hi, e⟩ := List.getElem_of_mem hm
      have e1 : s.link_names[i]? = some n := by rw [List.getElem?_eq_getElem hi, e]
      have hi' : i < s.link_parents.length := by omega
      obtain ⟨p, m, tn, tm, -, -, -, -, ho⟩ := hOs i hi' fun h0 =>
        hr ⟨i, e1, by rw [List.getElem?_eq_getElem hi', h0]⟩
      exact ⟨_, i, hi', e1, ho⟩
  · rintro n m ⟨i, p, e1, e2, e3⟩
    have hi' : i < s.link_parents.length := (List.getElem?_eq_some_iff.1 e2).1
    have e2' : s.link_parents[i] = (p : Int) := by
      rw [List.getElem?_eq_getElem hi'] at e2; exact Option.some.inj e2
    have en : s.link_names[i]'(by omega) = n := by
      rw [List.getElem?_eq_getElem (by omega)] at e1; exact Option.some.inj e1
    obtain ⟨p', m', tn, tm, g1, g2, g3, g4, ho⟩ := hOs i hi' (by omega)
    have : p' = p := by omega
    subst this
    rw [e3] at g2
    cases g2
    rw [en] at g3
    exact ⟨tn, tm, g3, g4, (hlk _ _).2 ⟨i, hi', e1, ho⟩⟩

/-- what `root_incl` and `root_full` return -/
theorem root_orientation_ok (f : Quat ℝ → Quat ℝ) (c : Bool) {E : JEnv ℝ π} {s sx : System ℝ π}
    (h : s.Consistent E.toEnv) (hx : sx.Consistent E.toEnv)
    {xs : List (List (Transform ℝ))} (hl : PosesOf sx xs)
    (hsub : ∀ n ∈ s.link_names, n ∈ sx.link_names) :
    ∃ y, sensors.root_orientation f E s xs sx c = .ok y ∧ y.keys.Nodup ∧
      (∀ n, n ∈ y.keys ↔ IsRoot s n) ∧
      ∀ n, IsRoot s n → ∃ tn, IsSeries sx xs n tn ∧
        List.lookup n y = some (tn.map fun t => if c then quat_inv (f t.rot) else f t.rot) := by
  have hnl : s.link_names.length = s.link_parents.length := h.names_len
  have hmap := (C01_sizes_and_idx_map hx.known hx.types_len hx.names_len).2.2.1
  have row : ∀ i (hi : i < s.link_parents.length), ∃ o : Option (List (Quat ℝ)),
      sensors.root_link f ((sx.link_names.zipIdx).map fun x => (x.1, Idx.at x.2)) xs c
        ((s.link_names[i]'(by rw [hnl]; exact hi)), s.link_parents[i]) =
          .ok (o.map fun v => ((s.link_names[i]'(by rw [hnl]; exact hi)), v)) ∧
      (s.link_parents[i] ≠ -1 → o = none) ∧
      (s.link_parents[i] = -1 → ∃ tn, IsSeries sx xs (s.link_names[i]'(by rw [hnl]; exact hi)) tn ∧
        o = some (tn.map fun t => if c then quat_inv (f t.rot) else f t.rot)) := by
    intro i hi
    unfold sensors.root_link
    by_cases h0 : s.link_parents[i] = -1
    · obtain ⟨j, tn, a1, -, a3, a4⟩ := series_at hx hl (hsub _ (List.getElem_mem (l := s.link_names)
        (n := i) (by rw [hnl]; exact hi)))
      refine ⟨some _, ?_, fun h => absurd h0 h, fun _ => ⟨tn, a4, rfl⟩⟩
      have hlk : List.lookup (s.link_names[i]'(by rw [hnl]; exact hi))
          ((sx.link_names.zipIdx).map fun x => (x.1, Idx.at x.2)) = some (Idx.at j) := by
        apply Dict.lookup_of_mem
        · unfold Dict.keys
          rw [List.map_map]
          have : (Prod.fst ∘ fun x : String × Nat => (x.1, Idx.at x.2)) = Prod.fst := rfl
          rw [this, List.zipIdx_map_fst]
          exact hx.names_nodup
        · rw [List.mem_map]
          exact ⟨(_, j), List.mem_zipIdx_iff_getElem?.2 a1, rfl⟩
      rw [if_neg (by simp [h0])]
      unfold pyDict
      rw [hlk]
      dsimp only [ok_bind]
      rw [a3, ok_bind]
      rfl
    · refine ⟨none, ?_, fun _ => rfl, fun h => absurd h h0⟩
      rw [if_pos h0]
      rfl
  choose O hO hOn hOs using row
  obtain ⟨ys, hys, hnd, hlk⟩ := entries_dict h O hO
  refine ⟨_, ?_, hnd, ?_, ?_⟩
  · unfold sensors.root_orientation
    rw [hmap, ok_bind, hys]
    rfl
  · intro n
    rw [Dict.lookup_isSome]
    simp only [hlk]
    constructor
    · rintro ⟨v, i, hi, e1, e2⟩
      refine ⟨i, e1, ?_⟩
      by_contra hne
      rw [hOn i hi (fun h0 => hne (by rw [List.getElem?_eq_getElem hi, h0]))] at e2
      cases e2
    · rintro ⟨i, e1, e2⟩
      obtain ⟨hi, e2⟩ := List.getElem?_eq_some_iff.1 e2
      obtain ⟨tn, -, ho⟩ := hOs i hi e2
      exact ⟨_, i, hi, e1, ho⟩
  · rintro n ⟨i, e1, e2⟩
    obtain ⟨hi, e2⟩ := List.getElem?_eq_some_iff.1 e2
    have en : s.link_names[i]'(by omega) = n := by
      rw [List.getElem?_eq_getElem (by omega)] at e1; exact Option.some.inj e1
    obtain ⟨tn, g, ho⟩ := hOs i hi e2
    rw [en] at g
    exact ⟨tn, g, (hlk _ _).2 ⟨i, hi, e1, ho⟩⟩

/-- C45, inclination: there is an entry for exactly the links connected to the world, it is the part of
the orientation that is left after the rotation about the vertical has been split off. -/
theorem C45_root_incl {E : JEnv ℝ π} {s sx : System ℝ π}
    (h : s.Consistent E.toEnv) (hx : sx.Consistent E.toEnv)
    {xs : List (List (Transform ℝ))} (hl : PosesOf sx xs)
    (hsub : ∀ n ∈ s.link_names, n ∈ sx.link_names) (c : Bool) :
    ∃ y, sensors.root_incl E s xs sx c = .ok y ∧ y.keys.Nodup ∧
      (∀ n, n ∈ y.keys ↔ IsRoot s n) ∧
      ∀ n, IsRoot s n → ∃ tn, IsSeries sx xs n tn ∧
        List.lookup n y = some (tn.map fun t =>
          if c then quat_inv (quat_project t.rot ⟨0, 0, 1⟩).2 else (quat_project t.rot ⟨0, 0, 1⟩).2) :=
  root_orientation_ok _ c h hx hl hsub

/-- C45, the whole orientation of the links connected to the world -/
theorem C45_root_full {E : JEnv ℝ π} {s sx : System ℝ π}
    (h : s.Consistent E.toEnv) (hx : sx.Consistent E.toEnv)
    {xs : List (List (Transform ℝ))} (hl : PosesOf sx xs)
    (hsub : ∀ n ∈ s.link_names, n ∈ sx.link_names) (c : Bool) :
    ∃ y, sensors.root_full E s xs sx c = .ok y ∧ y.keys.Nodup ∧
      (∀ n, n ∈ y.keys ↔ IsRoot s n) ∧
      ∀ n, IsRoot s n → ∃ tn, IsSeries sx xs n tn ∧
        List.lookup n y = some (tn.map fun t => if c then quat_inv t.rot else t.rot) :=
  root_orientation_ok _ c h hx hl hsub

end sensors
end RingLib
