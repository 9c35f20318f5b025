import Verif.Props.Queue

/-!
# Flattening, averaging and evaluating metrics (C60, C68)
-/

namespace RingLib

namespace Dict
variable {β : Type}

theorem foldl_set_fresh : ∀ (l d : Dict β), (d.keys ++ l.keys).Nodup →
    l.foldl (fun d x => d.set x.1 x.2) d = d ++ l
  | [], d, _ => by simp
  | x :: l, d, h => by
    have hx : x.1 ∉ d.keys := by
      intro hmem
      have := (List.nodup_append.1 h).2.2 _ hmem x.1 (by simp [keys])
      exact this rfl
    have hs : d.set x.1 x.2 = d ++ [x] := by rw [set, if_neg hx]
    rw [List.foldl_cons, hs, foldl_set_fresh l _ (by simpa [keys] using h)]
    simp

/-- Building a dictionary from items with distinct keys keeps the items. -/
theorem update_nil {l : Dict β} (h : l.keys.Nodup) : Dict.update [] l = l := by
  rw [update, foldl_set_fresh _ _ (by simpa [keys] using h)]
  simp

end Dict

namespace ml
open System
variable {β : Type}

/-! ## Specification of flattening -/

mutual
/-- All numbers of a nested dictionary with their path of keys, in order. -/
def leaves : List (String × Metric β) → List (List String × β)
  | [] => []
  | x :: rest => leavesOf x ++ leaves rest

/-- The numbers below one item. -/
def leavesOf : String × Metric β → List (List String × β)
  | (k, .leaf v) => [([k], v)]
  | (k, .node d) => (leaves d).map fun y => (k :: y.1, y.2)
end

/-- The name of a path: its keys with the separator between them. -/
def pathName (sep : String) : List String → String
  | [] => ""
  | [k] => k
  | k :: l => k ++ sep ++ pathName sep l

mutual
/-- No key of the nested dictionary is empty or contains the character `c`, and the keys of every
dictionary are distinct. -/
def PlainKeys (c : Char) : List (String × Metric β) → Prop
  | [] => True
  | x :: rest => x.1 ∉ rest.map Prod.fst ∧ PlainItem c x ∧ PlainKeys c rest

/-- The same for one item. -/
def PlainItem (c : Char) : String × Metric β → Prop
  | (k, .leaf _) => k ≠ "" ∧ c ∉ k.toList
  | (k, .node d) => k ≠ "" ∧ c ∉ k.toList ∧ PlainKeys c d
end

/-! ## Proofs -/

/-- How `_flatten_dict` extends a parent key. -/
def extendKey (sep parent k : String) : String :=
  if parent ≠ "" then parent ++ sep ++ k else k

/-- The keys with which the leaves are stored. -/
def stored (sep : String) (parent : String) (l : List (List String × β)) : List (String × β) :=
  l.map fun y => (y.1.foldl (extendKey sep) parent, y.2)

mutual
theorem flattenItems_eq (sep : String) : ∀ (d : List (String × Metric β)) (parent : String),
    (Dict.keys (stored sep parent (leaves d))).Nodup →
    flattenItems sep d parent = stored sep parent (leaves d)
  | [], _, _ => by rw [flattenItems, leaves, stored]; rfl
  | x :: rest, parent, h => by
    rw [leaves, stored, List.map_append] at h
    rw [Dict.keys, List.map_append, List.nodup_append] at h
    rw [flattenItems, leaves, stored, List.map_append,
      flattenItem_eq sep x parent h.1, flattenItems_eq sep rest parent h.2.1]
    rfl

theorem flattenItem_eq (sep : String) : ∀ (x : String × Metric β) (parent : String),
    (Dict.keys (stored sep parent (leavesOf x))).Nodup →
    flattenItem sep x parent = stored sep parent (leavesOf x)
  | (k, .leaf v), parent, _ => by
    rw [flattenItem, leavesOf, stored]
    rfl
  | (k, .node d), parent, h => by
    have he : stored sep parent (leavesOf (k, .node d)) =
        stored sep (extendKey sep parent k) (leaves d) := by
      rw [leavesOf, stored, stored, List.map_map]
      rfl
    rw [he] at h ⊢
    rw [flattenItem]
    have := flattenItems_eq sep d (extendKey sep parent k) h
    rw [extendKey] at this
    rw [this]
    exact Dict.update_nil h
end

theorem pathName_cons (sep k k' : String) (l : List String) :
    pathName sep (k :: k' :: l) = k ++ sep ++ pathName sep (k' :: l) := by
  rw [pathName]
  simp

theorem foldl_extendKey (sep : String) : ∀ (l : List String) (parent : String),
    (∀ k ∈ l, k ≠ "") → parent ≠ "" → l ≠ [] →
    l.foldl (extendKey sep) parent = parent ++ sep ++ pathName sep l
  | [], _, _, _, h => absurd rfl h
  | [k], parent, _, hp, _ => by
    simp [extendKey, hp, pathName]
  | k :: k' :: l, parent, hk, hp, _ => by
    rw [List.foldl_cons]
    have hkne : k ≠ "" := hk k (by simp)
    have hne : extendKey sep parent k ≠ "" := by
      rw [extendKey, if_pos hp]
      intro h
      have := congrArg String.toList h
      simp only [String.toList_append, String.toList_empty, List.append_eq_nil_iff] at this
      exact hkne (by simpa using this.2)
    rw [foldl_extendKey sep (k' :: l) _ (fun x hx => hk x (List.mem_cons_of_mem _ hx)) hne (by simp),
      extendKey, if_pos hp, pathName_cons]
    simp only [String.append_assoc]

theorem foldl_extendKey_root (sep : String) {l : List String} (hk : ∀ k ∈ l, k ≠ "")
    (hl : l ≠ []) : l.foldl (extendKey sep) "" = pathName sep l := by
  rcases l with _ | ⟨k, l⟩
  · exact absurd rfl hl
  · rw [List.foldl_cons]
    have : extendKey sep "" k = k := by simp [extendKey]
    rw [this]
    rcases l with _ | ⟨k', l⟩
    · rfl
    · rw [foldl_extendKey sep _ _ (fun x hx => hk x (List.mem_cons_of_mem _ hx)) (hk k (by simp))
        (by simp), pathName_cons]

mutual
theorem leaves_ne_nil : ∀ (d : List (String × Metric β)) (y : List String × β), y ∈ leaves d →
    y.1 ≠ []
  | [], y, h => by rw [leaves] at h; simp at h
  | x :: rest, y, h => by
    rw [leaves] at h
    rcases List.mem_append.1 h with h | h
    · exact leavesOf_ne_nil x y h
    · exact leaves_ne_nil rest y h

theorem leavesOf_ne_nil : ∀ (x : String × Metric β) (y : List String × β), y ∈ leavesOf x →
    y.1 ≠ []
  | (k, .leaf v), y, h => by
    rw [leavesOf, List.mem_singleton] at h
    subst h
    simp
  | (k, .node d), y, h => by
    rw [leavesOf] at h
    obtain ⟨z, _, rfl⟩ := List.mem_map.1 h
    simp
end

mutual
theorem leaves_plain (c : Char) : ∀ (d : List (String × Metric β)), PlainKeys c d →
    (∀ y ∈ leaves d, ∀ k ∈ y.1, k ≠ "" ∧ c ∉ k.toList) ∧
    (∀ y ∈ leaves d, ∃ k ∈ d.map Prod.fst, y.1.head? = some k) ∧
    ((leaves d).map Prod.fst).Nodup
  | [], _ => by rw [leaves]; simp
  | x :: rest, h => by
    rw [PlainKeys] at h
    obtain ⟨h1, h2, h3⟩ := leaves_plain c rest h.2.2
    obtain ⟨g1, g2, g3⟩ := leavesOf_plain c x h.2.1
    rw [leaves]
    refine ⟨?_, ?_, ?_⟩
    · intro y hy
      rcases List.mem_append.1 hy with hy | hy
      · exact g1 y hy
      · exact h1 y hy
    · intro y hy
      rcases List.mem_append.1 hy with hy | hy
      · exact ⟨x.1, by simp, g2 y hy⟩
      · obtain ⟨k, hk, hh⟩ := h2 y hy
        exact ⟨k, List.mem_cons_of_mem _ hk, hh⟩
    · rw [List.map_append, List.nodup_append]
      refine ⟨g3, h3, fun a ha b hb hab => ?_⟩
      obtain ⟨ya, hya, rfl⟩ := List.mem_map.1 ha
      obtain ⟨yb, hyb, rfl⟩ := List.mem_map.1 hb
      obtain ⟨k, hk, hh⟩ := h2 yb hyb
      have := g2 ya hya
      rw [hab, hh] at this
      exact h.1 (Option.some.inj this ▸ hk)

theorem leavesOf_plain (c : Char) : ∀ (x : String × Metric β), PlainItem c x →
    (∀ y ∈ leavesOf x, ∀ k ∈ y.1, k ≠ "" ∧ c ∉ k.toList) ∧
    (∀ y ∈ leavesOf x, y.1.head? = some x.1) ∧
    ((leavesOf x).map Prod.fst).Nodup
  | (k, .leaf v), h => by
    rw [PlainItem] at h
    rw [leavesOf]
    simpa using h
  | (k, .node d), h => by
    rw [PlainItem] at h
    obtain ⟨h1, _, h3⟩ := leaves_plain c d h.2.2
    rw [leavesOf]
    refine ⟨?_, ?_, ?_⟩
    · intro y hy
      obtain ⟨z, hz, rfl⟩ := List.mem_map.1 hy
      intro k' hk'
      rcases List.mem_cons.1 hk' with rfl | hk'
      · exact ⟨h.1, h.2.1⟩
      · exact h1 z hz k' hk'
    · intro y hy
      obtain ⟨z, hz, rfl⟩ := List.mem_map.1 hy
      rfl
    · rw [List.map_map]
      have : (Prod.fst ∘ fun y : List String × β => (k :: y.1, y.2)) = (k :: ·) ∘ Prod.fst := rfl
      rw [this, ← List.map_map]
      exact h3.map (List.cons_injective)
end

/-- Names of paths whose keys do not contain the separator determine the path. -/
theorem pathName_inj (c : Char) : ∀ (p p' : List String), p ≠ [] → p' ≠ [] →
    (∀ k ∈ p, c ∉ k.toList) → (∀ k ∈ p', c ∉ k.toList) →
    (pathName (String.ofList [c]) p).toList = (pathName (String.ofList [c]) p').toList → p = p'
  | [], _, h, _, _, _, _ => absurd rfl h
  | _ :: _, [], _, h, _, _, _ => absurd rfl h
  | [k], [k'], _, _, _, _, h => by
    rw [pathName, pathName] at h
    rw [String.toList_injective h]
  | [k], k' :: a :: l, _, _, hp, _, h => by
    exfalso
    rw [pathName, pathName_cons] at h
    refine hp k (by simp) ?_
    rw [h]
    simp
  | k :: a :: l, [k'], _, _, _, hp', h => by
    exfalso
    rw [pathName_cons, pathName] at h
    refine hp' k' (by simp) ?_
    rw [← h]
    simp
  | k :: a :: l, k' :: a' :: l', _, _, hp, hp', h => by
    rw [pathName_cons, pathName_cons] at h
    simp only [String.toList_append, String.toList_ofList, List.append_assoc,
      List.singleton_append] at h
    have hk := hp k (by simp)
    have hk' := hp' k' (by simp)
    have key : ∀ (a b x y : List Char), c ∉ a → c ∉ b → a ++ c :: x = b ++ c :: y → a = b ∧ x = y := by
      intro a
      induction a with
      | nil =>
        intro b x y _ hb heq
        rcases b with _ | ⟨b, bs⟩
        · exact ⟨rfl, (List.cons.inj heq).2⟩
        · have := (List.cons.inj heq).1
          exact absurd (by simp [this]) hb
      | cons a as ih =>
        intro b x y ha hb heq
        rcases b with _ | ⟨b, bs⟩
        · have := (List.cons.inj heq).1
          exact absurd (by simp [this]) ha
        · have h' := List.cons.inj heq
          have := ih bs x y (fun h => ha (List.mem_cons_of_mem _ h))
            (fun h => hb (List.mem_cons_of_mem _ h)) h'.2
          exact ⟨by rw [h'.1, this.1], this.2⟩
    have := key _ _ _ _ hk hk' h
    rw [String.toList_injective this.1, pathName_inj c (a :: l) (a' :: l') (by simp) (by simp)
      (fun x hx => hp x (List.mem_cons_of_mem _ hx))
      (fun x hx => hp' x (List.mem_cons_of_mem _ hx)) this.2]

/-- C60: if the joined names of all numbers are different, every number is kept under its name, in
order. -/
theorem C60_distinct_partial (d : Dict (Metric β)) (sep : String)
    (hne : ∀ y ∈ leaves d, ∀ k ∈ y.1, k ≠ "")
    (hnd : ((leaves d).map fun y => pathName sep y.1).Nodup) :
    _flatten_dict d "" sep = (leaves d).map fun y => (pathName sep y.1, y.2) := by
  have hst : stored sep "" (leaves d) = (leaves d).map fun y => (pathName sep y.1, y.2) := by
    refine List.map_congr_left fun y hy => ?_
    rw [foldl_extendKey_root sep (hne y hy) (leaves_ne_nil d y hy)]
  have hk : (Dict.keys (stored sep "" (leaves d))).Nodup := by
    rw [hst, Dict.keys, List.map_map]
    exact hnd
  rw [_flatten_dict, flattenItems_eq sep d "" hk, Dict.update_nil hk, hst]

/-- C60: a nested dictionary whose keys are not empty and do not contain the separator is flattened
without losing a number, and every number has a name of its own.
Missing: keys which contain the separator, see `C60_collision_fails`. -/
theorem C60_partial (d : Dict (Metric β)) (c : Char) (h : PlainKeys c d) :
    _flatten_dict d "" (String.ofList [c]) =
        ((leaves d).map fun y => (pathName (String.ofList [c]) y.1, y.2)) ∧
      (_flatten_dict d "" (String.ofList [c])).keys.Nodup := by
  obtain ⟨h1, _, h3⟩ := leaves_plain c d h
  have hnd : ((leaves d).map fun y => pathName (String.ofList [c]) y.1).Nodup := by
    have : (fun y : List String × β => pathName (String.ofList [c]) y.1) =
        pathName (String.ofList [c]) ∘ Prod.fst := rfl
    rw [this, ← List.map_map]
    refine List.Nodup.map_on ?_ h3
    intro x hx y hy hxy
    obtain ⟨x', hx', rfl⟩ := List.mem_map.1 hx
    obtain ⟨y', hy', rfl⟩ := List.mem_map.1 hy
    exact pathName_inj c _ _ (leaves_ne_nil d x' hx') (leaves_ne_nil d y' hy')
      (fun k hk => (h1 x' hx' k hk).2) (fun k hk => (h1 y' hy' k hk).2) (congrArg String.toList hxy)
  have heq := C60_distinct_partial d (String.ofList [c]) (fun y hy k hk => (h1 y hy k hk).1) hnd
  refine ⟨heq, ?_⟩
  rw [heq, Dict.keys, List.map_map]
  exact hnd

/-- C60 fails if a key contains the separator: of two numbers only one is kept. -/
theorem C60_collision_fails :
    _flatten_dict (β := Nat) [("mae_deg", .leaf 1), ("mae", .node [("deg", .leaf 2)])] =
      [("mae_deg", 2)] := by
  simp [_flatten_dict, flattenItems, flattenItem, Dict.update, Dict.set, Dict.keys]

/-- C60: what is logged are the flattened metrics without those that are not finite. -/
theorem C60_logged {R : Type} (d : Dict (Metric (Fl R))) (k : String) (v : Fl R) :
    (k, v) ∈ _flatten_convert_filter_nested_dict d ↔
      (k, v) ∈ _flatten_dict d ∧ ∃ x, v = .fin x := by
  rw [_flatten_convert_filter_nested_dict, if_pos rfl, List.mem_filter]
  refine and_congr_right fun _ => ?_
  cases v <;> simp [Fl.notFinite]

/-- Metrics of two links. -/
def exMetrics : Dict (Metric Nat) :=
  [("loss", .leaf 7), ("mae", .node [("a", .leaf 1), ("b", .leaf 2)])]

example : PlainKeys '_' exMetrics := by simp [exMetrics, PlainKeys, PlainItem]

example : _flatten_dict exMetrics = [("loss", 7), ("mae_a", 1), ("mae_b", 2)] := by
  simp [exMetrics, _flatten_dict, flattenItems, flattenItem, Dict.update, Dict.set, Dict.keys]

/-! ## Averages -/

/-- The number, if finite. -/
def toFin {R : Type} : Fl R → Option R
  | .fin x => some x
  | _ => none

theorem averageLoop_ok {R : Type} [Semiring R] (m : Metric (Fl R)) :
    ∀ (zs : List (List String)) (xs : List (Fl R)) (v : R) (N : Nat),
    zs.mapM (_zoom_into_metrices m) = .ok xs →
    averageLoop m zs v N =
      .ok (v + (xs.filterMap toFin).sum, N + (xs.filterMap toFin).length)
  | [], xs, v, N, h => by
    have : [] = xs := Except.ok.inj h
    subst this
    simp [averageLoop]
  | z :: zs, xs, v, N, h => by
    rw [List.mapM_cons] at h
    rcases h1 : _zoom_into_metrices m z with er | y
    · rw [h1, error_bind] at h; cases h
    · rw [h1, ok_bind] at h
      rcases h2 : zs.mapM (_zoom_into_metrices m) with er | ys
      · rw [h2, error_bind] at h; cases h
      · rw [h2, ok_bind] at h
        have : y :: ys = xs := Except.ok.inj h
        subst this
        rw [averageLoop, h1]
        cases y with
        | fin x =>
          dsimp only
          rw [averageLoop_ok m zs ys _ _ h2]
          rw [List.filterMap_cons_some (show toFin (Fl.fin x) = some x from rfl), List.sum_cons,
            List.length_cons, add_assoc, Nat.add_right_comm N 1, Nat.add_assoc N]
        | posInf =>
          dsimp only
          rw [averageLoop_ok m zs ys _ _ h2,
            List.filterMap_cons_none (show toFin (Fl.posInf : Fl R) = none from rfl)]
        | negInf =>
          dsimp only
          rw [averageLoop_ok m zs ys _ _ h2,
            List.filterMap_cons_none (show toFin (Fl.negInf : Fl R) = none from rfl)]
        | nan =>
          dsimp only
          rw [averageLoop_ok m zs ys _ _ h2,
            List.filterMap_cons_none (show toFin (Fl.nan : Fl R) = none from rfl)]

/-- C68: the averaging callback adds the mean of those named metrics that are finite, and nothing
if there is none; all other metrics are left alone. -/
theorem C68_average {R : Type} [Field R] (d : Dict (Metric (Fl R))) (zoom_ins : List (List String))
    (name : String) (xs : List (Fl R))
    (h : zoom_ins.mapM (_zoom_into_metrices (.node d)) = .ok xs) :
    ∃ d', averageMetrices zoom_ins name d = .ok d' ∧
      (xs.filterMap toFin = [] → d' = d) ∧
      (xs.filterMap toFin ≠ [] → d'.lookup name =
        some (.leaf (.fin ((xs.filterMap toFin).sum / ((xs.filterMap toFin).length : R))))) ∧
      ∀ k, k ≠ name → d'.lookup k = d.lookup k := by
  unfold averageMetrices
  rw [averageLoop_ok _ _ xs _ _ h, ok_bind, zero_add, Nat.zero_add]
  dsimp only
  by_cases hne : xs.filterMap toFin = []
  · rw [hne]
    exact ⟨d, by simp, fun _ => rfl, fun h => absurd rfl h, fun _ _ => rfl⟩
  · rw [if_pos (List.length_pos_of_ne_nil hne)]
    refine ⟨_, rfl, fun h => absurd h hne, fun _ => ?_, fun k hk => ?_⟩
    · rw [Dict.lookup_set, if_pos rfl]
    · rw [Dict.lookup_set, if_neg hk]

example : averageMetrices (R := ℚ) [["a"], ["b"], ["c"]] "m"
    [("a", .leaf (.fin 1)), ("b", .leaf .nan), ("c", .leaf (.fin 3))] =
    .ok [("a", .leaf (.fin 1)), ("b", .leaf .nan), ("c", .leaf (.fin 3)), ("m", .leaf (.fin 2))] := by
  simp [averageMetrices, averageLoop, _zoom_into_metrices, List.lookup, Dict.set, Dict.keys, ok_bind]
  norm_num

/-! ## Evaluation -/

variable {P : Type}

theorem evalXyRun_ok (eval_fn : P → Metric β) (id : String) {every : Nat} (he : 0 < every)
    (all : List (Dict (Metric β) × P)) (hid : ∀ x ∈ all, id ∉ x.1.keys) :
    ∀ (l : List (Dict (Metric β) × P)) (last : Option (Metric β)) (i : Nat),
    all.drop i = l → (∀ _ : i % every ≠ 0, ∃ x, all[i - i % every]? = some x ∧ last = some (eval_fn x.2)) →
    ∃ ds, evalXyRun eval_fn id (some every) last i l = .ok ds ∧ ds.length = l.length ∧
      ∀ (k : Nat) (x y : Dict (Metric β) × P), all[i + k]? = some x →
        all[(i + k) - (i + k) % every]? = some y → ds[k]? = some (x.1.set id (eval_fn y.2))
  | [], last, i, hl, _ => ⟨[], rfl, rfl, fun k x y hx _ => by
      have : all.length ≤ i := List.drop_eq_nil_iff.1 hl
      rw [List.getElem?_eq_none (by omega)] at hx
      cases hx⟩
  | x :: l, last, i, hl, hlast => by
    obtain ⟨e, rfl⟩ : ∃ e, every = e + 1 := ⟨every - 1, by omega⟩
    have hxi : all[i]? = some x := by
      have := congrArg (fun t : List (Dict (Metric β) × P) => t[0]?) hl
      simpa using this
    have hxm : x ∈ all := List.mem_of_getElem? hxi
    have hl' : all.drop (i + 1) = l := by
      rw [← List.drop_drop, hl]; rfl
    -- the value reported in this episode
    have hnow : ∃ y, all[i - i % (e + 1)]? = some y ∧
        (if i % (e + 1) = 0 then some (eval_fn x.2) else last) = some (eval_fn y.2) := by
      by_cases hz : i % (e + 1) = 0
      · refine ⟨x, ?_, by rw [if_pos hz]⟩
        rw [hz, Nat.sub_zero, hxi]
      · obtain ⟨y, hy, hyl⟩ := hlast hz
        exact ⟨y, hy, by rw [if_neg hz, hyl]⟩
    obtain ⟨y, hy, hyl⟩ := hnow
    obtain ⟨ds, h1, h2, h3⟩ := evalXyRun_ok eval_fn id he all hid l (some (eval_fn y.2)) (i + 1) hl'
      (fun hnz => by
        refine ⟨y, ?_, rfl⟩
        have hmod : (i + 1) % (e + 1) = i % (e + 1) + 1 := by
          have := Nat.mod_lt i (show e + 1 > 0 by omega)
          rcases Nat.lt_or_ge (i % (e + 1) + 1) (e + 1) with h | h
          · rw [Nat.add_mod, Nat.mod_eq_of_lt (a := 1) (by omega), Nat.mod_eq_of_lt h]
          · exfalso
            apply hnz
            have h' : i % (e + 1) + 1 = e + 1 := by omega
            rw [← Nat.mod_add_mod, h', Nat.mod_self]
        rw [show i + 1 - (i + 1) % (e + 1) = i - i % (e + 1) by omega, hy])
    refine ⟨x.1.set id (eval_fn y.2) :: ds, ?_, by simp [h2], ?_⟩
    · have : evalXy eval_fn id (some (e + 1)) last i x.1 x.2 =
          .ok (some (eval_fn y.2), x.1.set id (eval_fn y.2)) := by
        unfold evalXy
        dsimp only
        rw [pyAssert_true (hid x hxm), ok_bind, hyl]
      rw [evalXyRun, this, ok_bind, h1]
      rfl
    · intro k x' y' hx' hy'
      rcases k with _ | k
      · have e1 : x = x' := Option.some.inj (hxi.symm.trans hx')
        have e2 : y = y' := Option.some.inj (hy.symm.trans hy')
        subst e1; subst e2
        rfl
      · rw [List.getElem?_cons_succ]
        refine h3 k x' y' ?_ ?_
        · rw [← hx']; congr 1; omega
        · rw [← hy', show i + 1 + k = i + (k + 1) by omega]

/-- C68: in every episode the evaluation callback adds, under its identifier, the metrics of the
parameters of the last episode whose number is a multiple of `eval_every`; nothing else changes. -/
theorem C68_eval (eval_fn : P → Metric β) (id : String) {every : Nat} (he : 0 < every)
    (l : List (Dict (Metric β) × P)) (hid : ∀ x ∈ l, id ∉ x.1.keys) :
    ∃ ds, evalXyRun eval_fn id (some every) none 0 l = .ok ds ∧ ds.length = l.length ∧
      ∀ (k : Nat) (d : Dict (Metric β)) (p : P) (y : Dict (Metric β) × P), l[k]? = some (d, p) →
        l[k - k % every]? = some y →
        ds[k]? = some (d ++ [(id, eval_fn y.2)]) := by
  obtain ⟨ds, h1, h2, h3⟩ := evalXyRun_ok eval_fn id he l hid l none 0 rfl (fun h => by simp at h)
  refine ⟨ds, h1, h2, fun k d p y hk hy => ?_⟩
  rw [h3 k (d, p) y (by rw [Nat.zero_add]; exact hk) (by rw [Nat.zero_add]; exact hy)]
  rw [Dict.set, if_neg (hid (d, p) (List.mem_of_getElem? hk))]

/-- C68: an identifier that is taken is never overwritten. -/
theorem C68_taken (eval_fn : P → Metric β) (id : String) {every : Nat} (he : 0 < every)
    (last : Option (Metric β)) (i : Nat) (d : Dict (Metric β)) (params : P) (h : id ∈ d.keys) :
    evalXy eval_fn id (some every) last i d params = .error .assertion := by
  obtain ⟨e, rfl⟩ : ∃ e, every = e + 1 := ⟨every - 1, by omega⟩
  unfold evalXy
  dsimp only
  rw [pyAssert_false (not_not.2 h), error_bind]

example : evalXyRun (fun p : Nat => Metric.leaf p) "m" (some 2) none 0
    [([], 5), ([], 6), ([], 7)] =
    .ok [[("m", .leaf 5)], [("m", .leaf 5)], [("m", .leaf 7)]] := rfl

end ml
end RingLib
