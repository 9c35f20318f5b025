import Verif.Model.Flatten
import Verif.Props.Dict
import Verif.Lemmas.MassMatrix

/-!
# C76: from dictionaries of segments to one array
-/

namespace RingLib
open System generator utils Dict

theorem toString_nat_inj {i j : Nat} (h : toString i = toString j) : i = j := by
  rw [Nat.toString_eq_ofList_toDigits, Nat.toString_eq_ofList_toDigits] at h
  have h' := congrArg (fun s => Nat.ofDigitChars 10 s.toList 0) h
  simpa [Nat.ofDigitChars_ten_toDigits] using h'

theorem toString_nat_ne_dt (i : Nat) : toString i ≠ "dt" := by
  intro h
  rw [Nat.toString_eq_ofList_toDigits] at h
  have h' := congrArg String.toList h
  simp only [String.toList_ofList] at h'
  have : 'd' ∈ Nat.toDigits 10 i := by rw [h']; decide
  have := Nat.isDigit_of_mem_toDigits (by norm_num) (by norm_num) this
  exact absurd this (by decide)

/-! ## one array -/

theorem stack_ok {l : List ND} {s : List Nat} (hne : l ≠ []) (h : ∀ b ∈ l, b.shape = s) :
    ND.stack l = .ok ⟨l.length :: s, fun i => ((l[i.headD 0]?).map fun b => b.get i.tail).getD 0⟩ := by
  obtain ⟨a, l, rfl⟩ := List.exists_cons_of_ne_nil hne
  have ha : a.shape = s := h a (by simp)
  unfold ND.stack
  dsimp only
  rw [if_pos (by rw [ha]; exact h), ha]

/-- what `_flatten` makes of `N` segments with channels of widths `ws` -/
theorem flatten_ok {N B T : Nat} (hN : 0 < N) (hB : 0 < B) (hT : 0 < T) {ws : List Nat} (hw : ws ≠ [])
    (ch : Nat → List ND) (hch : ∀ i < N, (ch i).map ND.shape = ws.map fun w => [B, T, w]) :
    ∃ a, _flatten ((List.range N).map ch) = .ok a ∧ a.shape = [B, T, N, ws.sum] ∧
      ∀ b t i f, i < N → f < ws.sum → a.get [b, t, i, f] = ND.pick (ch i) [b, t] f := by
  have hlen : ∀ i < N, (ch i).length = ws.length := by
    intro i hi
    have := congrArg List.length (hch i hi)
    simpa using this
  have hsh : ∀ i < N, ∀ c, ∀ hc : c < (ch i).length, ∀ hc' : c < ws.length,
      (ch i)[c].shape = [B, T, ws[c]] := by
    intro i hi c hc hc'
    have := congrArg (fun l => l[c]?) (hch i hi)
    simpa [hc, hc'] using this
  -- the stacked channels
  have hcol : ∀ c < ws.length, ((List.range N).map ch).filterMap (fun t => t[c]?) =
      (List.range N).map fun i => (ch i).getD c ⟨[], fun _ => 0⟩ := by
    intro c hc
    rw [List.filterMap_map]
    have : ∀ l : List Nat, (∀ i ∈ l, i < N) → l.filterMap ((fun t : List ND => t[c]?) ∘ ch) =
        l.map fun i => (ch i).getD c ⟨[], fun _ => 0⟩ := by
      intro l hl
      induction l with
      | nil => rfl
      | cons i l ih =>
        have hi := hl i (by simp)
        rw [List.filterMap_cons_some (b := (ch i).getD c ⟨[], fun _ => 0⟩), List.map_cons,
          ih fun j hj => hl j (by simp [hj])]
        simp [List.getD_eq_getElem?_getD, hlen i hi, hc]
    exact this _ fun i hi => List.mem_range.1 hi
  let S : Nat → ND := fun c => ⟨[N, B, T, ws.getD c 0], fun i =>
    ((((List.range N).map fun i => (ch i).getD c ⟨[], fun _ => 0⟩)[i.headD 0]?).map
      fun b => b.get i.tail).getD 0⟩
  have hbatch : tree_batch ((List.range N).map ch) = .ok ((List.range ws.length).map S) := by
    obtain ⟨n, rfl⟩ : ∃ n, N = n + 1 := ⟨N - 1, by omega⟩
    have h0 : (List.range (n + 1)).map ch = ch 0 :: ((List.range n).map fun i => ch (i + 1)) := by
      rw [List.range_succ_eq_map]; simp [Function.comp_def]
    unfold tree_batch
    rw [h0]
    dsimp only
    rw [← h0, if_pos, hlen 0 (by omega)]
    · refine mapM_range_ok _ _ S fun c hc => ?_
      rw [hcol c hc, stack_ok (s := [B, T, ws.getD c 0])]
      · simp [S]
      · simp
      · intro b hb
        obtain ⟨i, hi, rfl⟩ := List.mem_map.1 hb
        have hi := List.mem_range.1 hi
        have hc' : c < (ch i).length := by rw [hlen i hi]; exact hc
        have := hsh i hi c hc' hc
        simpa [List.getD_eq_getElem?_getD, hc', hc] using this
    · intro t ht
      obtain ⟨i, hi, rfl⟩ := List.mem_map.1 ht
      rw [hlen i (List.mem_range.1 hi), hlen 0 (by omega)]
  -- flattening changes nothing
  let S' : Nat → ND := fun c => ⟨[N, B, T, ws.getD c 0],
    fun i => (S c).get (i.take 3 ++ [i.getD 3 0])⟩
  have hflat : ((List.range ws.length).map S).mapM (ND.flattenFrom 3) =
      .ok ((List.range ws.length).map S') := by
    rw [List.mapM_map]
    refine mapM_range_ok _ _ S' fun c _ => ?_
    show ND.flattenFrom 3 (S c) = _
    unfold ND.flattenFrom
    rw [if_neg]
    · simp [S, S', ND.unravel]
    · simp [S]
      omega
  have hconc : ND.concatLast ((List.range ws.length).map S') = .ok ⟨[N, B, T, ws.sum],
      fun i => ND.pick ((List.range ws.length).map S') i.dropLast (i.getLastD 0)⟩ := by
    obtain ⟨n, hn⟩ : ∃ n, ws.length = n + 1 := by
      obtain ⟨w, ws', rfl⟩ := List.exists_cons_of_ne_nil hw
      exact ⟨ws'.length, rfl⟩
    have hsum : ((List.range ws.length).map S').map (fun b => b.shape.getLastD 0) = ws := by
      apply List.ext_getElem
      · simp
      · intro c h1 h2
        simp [S', h2]
    have h0 : (List.range ws.length).map S' = S' 0 :: ((List.range n).map fun i => S' (i + 1)) := by
      rw [hn, List.range_succ_eq_map]; simp [Function.comp_def]
    unfold ND.concatLast
    rw [h0]
    dsimp only
    rw [← h0, if_pos, hsum]
    · rfl
    · intro b hb
      obtain ⟨i, -, rfl⟩ := List.mem_map.1 hb
      rfl
  refine ⟨⟨[B, T, N, ws.sum], fun i => ND.pick ((List.range ws.length).map S')
    [i.getD 2 0, i.getD 0 0, i.getD 1 0] (i.getD 3 0)⟩, ?_, rfl, ?_⟩
  · unfold _flatten
    rw [hbatch, ok_bind, hflat, ok_bind, hconc, ok_bind]
    rfl
  · intro b t i f hi hf
    show ND.pick ((List.range ws.length).map S') [i, b, t] f = _
    -- channel by channel
    have key : ∀ (ws' : List Nat) (off : Nat) (l : List ND), l.length = ws'.length →
        (∀ c, ∀ hc : c < l.length, ∀ hc' : c < ws'.length, l[c].shape = [B, T, ws'[c]] ∧
          (ch i)[off + c]? = some l[c] ∧ ws.getD (off + c) 0 = ws'[c]) →
        ∀ f, f < ws'.sum → ND.pick ((List.range ws'.length).map fun c => S' (off + c)) [i, b, t] f =
          ND.pick l [b, t] f := by
      intro ws'
      induction ws' with
      | nil => intro off l _ _ f hf; simp at hf
      | cons w ws' ih =>
        intro off l hl hc f hf
        obtain ⟨a, l, rfl⟩ := List.exists_cons_of_ne_nil (l := l) (by rintro rfl; simp at hl)
        obtain ⟨h1, h2, h3⟩ := hc 0 (by simp) (by simp)
        simp only [List.getElem_cons_zero, Nat.add_zero] at h1 h2 h3
        have e0 : (List.range (w :: ws').length).map (fun c => S' (off + c)) =
            S' off :: (List.range ws'.length).map fun c => S' (off + 1 + c) := by
          rw [List.length_cons, List.range_succ_eq_map]
          simp [Function.comp_def, Nat.add_assoc, Nat.add_comm 1]
        rw [e0]
        have es : (S' off).shape.getLastD 0 = w := by simp [S', ← h3]
        have ea : a.shape.getLastD 0 = w := by rw [h1]; rfl
        simp only [ND.pick, es, ea]
        by_cases hfw : f < w
        · rw [if_pos hfw, if_pos hfw]
          simp [S', S, hi, List.getD_eq_getElem?_getD, h2]
        · rw [if_neg hfw, if_neg hfw]
          refine ih (off + 1) l (by simpa using hl) ?_ _ ?_
          · intro c hc1 hc2
            have := hc (c + 1) (by simpa using hc1) (by simpa using hc2)
            simpa [Nat.add_assoc, Nat.add_comm 1] using this
          · simp only [List.sum_cons] at hf
            omega
    have := key ws 0 (ch i) (hlen i hi) (by
      intro c hc hc'
      refine ⟨hsh i hi c hc hc', by simp [hc], by simp [hc']⟩) f hf
    simpa using this

/-! ## all segments -/

/-- `X` holds `N` segments, numbered from zero, with accelerometer, gyroscope and possibly joint axes;
and possibly the time step. `lead` are the axes before the features: batch and time, or time. -/
structure Segmented (lead : List Nat) (N wa wg : Nat) (wx wd : Option Nat) (acc gyr ax : Nat → ND)
    (dt : ND) (X : Dict (Entry ND)) : Prop where
  nodup : X.keys.Nodup
  keys : ∀ k, k ∈ X.keys ↔ (k = "dt" ∧ wd.isSome = true) ∨ ∃ i < N, k = toString i
  seg : ∀ i < N, ∃ d, List.lookup (toString i) X = some (.dict d) ∧
    List.lookup "acc" d = some (acc i) ∧ List.lookup "gyr" d = some (gyr i) ∧
    List.lookup "joint_axes" d = (wx.map fun _ => ax i) ∧ List.lookup "dt" d = none
  acc : ∀ i < N, (acc i).shape = lead ++ [wa]
  gyr : ∀ i < N, (gyr i).shape = lead ++ [wg]
  ax : ∀ i < N, ∀ w, wx = some w → (ax i).shape = lead ++ [w]
  dt : ∀ w, wd = some w → List.lookup "dt" X = some (.leaf dt) ∧ dt.shape = lead.dropLast ++ [w]

/-- the features of segment `i` at batch and time `j`: accelerometer, gyroscope, joint axes, time step -/
def feature (wa wg wx : Nat) (acc gyr ax : Nat → ND) (dt : ND) (j : List Nat) (i f : Nat) : ℝ :=
  if f < wa then (acc i).get (j ++ [f])
  else if f < wa + wg then (gyr i).get (j ++ [f - wa])
  else if f < wa + wg + wx then (ax i).get (j ++ [f - wa - wg])
  else dt.get (j.dropLast ++ [f - wa - wg - wx])

theorem del_keys {β : Type} (d : Dict β) (k : String) : (d.del k).keys = d.keys.filter (· ≠ k) := by
  unfold Dict.del Dict.keys
  induction d with
  | nil => rfl
  | cons x d ih =>
    simp only [List.filter_cons, List.map_cons]
    split
    · rw [List.map_cons, ih]
    · exact ih

theorem setDt_mapM {dt : ND} : ∀ {X : Dict (Entry ND)}, (∀ k e, (k, e) ∈ X → ∃ d, e = .dict d) →
    ∃ X' : Dict (Entry ND), X.mapM (setDt dt) = .ok X' ∧ X'.keys = X.keys ∧
      ∀ k d, List.lookup k X = some (.dict d) → List.lookup k X' = some (.dict (d.set "dt" dt)) := by
  intro X
  induction X with
  | nil => intro _; exact ⟨[], rfl, rfl, by simp⟩
  | cons x X ih =>
    intro h
    obtain ⟨X', e, hk, hl⟩ := ih fun k e he => h k e (by simp [he])
    obtain ⟨k, v⟩ := x
    obtain ⟨d, rfl⟩ := h k v (by simp)
    refine ⟨(k, .dict (d.set "dt" dt)) :: X', ?_, ?_, ?_⟩
    · rw [List.mapM_cons, e]
      rfl
    · simp only [Dict.keys] at hk
      simp [Dict.keys, hk]
    · intro k' d' h'
      rw [List.lookup_cons] at h' ⊢
      split at h'
      · obtain rfl := Entry.dict.inj (Option.some.inj h')
        rfl
      · exact hl k' d' h'

theorem range_keys_length {N : Nat} {l : List String} (hn : l.Nodup)
    (h : ∀ k, k ∈ l ↔ ∃ i < N, k = toString i) : l.length = N := by
  have hp : l.Perm ((List.range N).map toString) := by
    rw [List.perm_ext_iff_of_nodup hn]
    · intro k
      rw [h, List.mem_map]
      constructor
      · rintro ⟨i, hi, rfl⟩
        exact ⟨i, List.mem_range.2 hi, rfl⟩
      · rintro ⟨i, hi, rfl⟩
        exact ⟨i, List.mem_range.1 hi, rfl⟩
    · exact List.nodup_range.map_on fun i _ j _ e => toString_nat_inj e
  simpa using hp.length_eq

variable {N B T wa wg : Nat} {wx wd : Option Nat} {acc gyr ax : Nat → ND} {dt : ND}
  {X : Dict (Entry ND)}

/-- `_expand_dt` gives every segment the time step, and nothing else is left -/
theorem expand_dt_ok (h : Segmented [B, T] N wa wg wx wd acc gyr ax dt X) :
    ∃ X', _expand_dt X T = .ok X' ∧ X'.length = N ∧ ∀ i < N, ∃ d,
      List.lookup (toString i) X' = some (.dict d) ∧
      List.lookup "acc" d = some (acc i) ∧ List.lookup "gyr" d = some (gyr i) ∧
      List.lookup "joint_axes" d = (wx.map fun _ => ax i) ∧
      List.lookup "dt" d = wd.map fun w => (⟨[B, T, w], fun i => dt.get (i.headD 0 :: i.drop 2)⟩ : ND) := by
  cases wd with
  | none =>
    have hno : List.lookup "dt" X = none := by
      rw [lookup_eq_none]
      intro hk
      rcases (h.keys _).1 hk with ⟨-, h'⟩ | ⟨i, -, h'⟩
      · cases h'
      · exact toString_nat_ne_dt i h'.symm
    refine ⟨X, by unfold _expand_dt; rw [hno], ?_, h.seg⟩
    have := range_keys_length (N := N) h.nodup (fun k => by rw [h.keys]; simp)
    simpa [Dict.keys] using this
  | some w =>
    obtain ⟨hdt, hs⟩ := h.dt w rfl
    simp only [List.dropLast_cons_cons, List.dropLast_singleton, List.cons_append, List.nil_append] at hs
    have hrep : dt.repeatTime T = .ok ⟨[B, T, w], fun i => dt.get (i.headD 0 :: i.drop 2)⟩ := by
      unfold ND.repeatTime
      rw [hs]
    have hmem : ∀ k, k ∈ (X.del "dt").keys ↔ ∃ i < N, k = toString i := by
      intro k
      rw [del_keys, List.mem_filter, h.keys]
      constructor
      · rintro ⟨⟨hk, -⟩ | hk, hne⟩
        · simp [hk] at hne
        · exact hk
      · rintro ⟨i, hi, rfl⟩
        exact ⟨Or.inr ⟨i, hi, rfl⟩, by simpa using toString_nat_ne_dt i⟩
    have hnd : (X.del "dt").keys.Nodup := by
      rw [del_keys]
      exact h.nodup.filter _
    obtain ⟨X', e, hk, hl⟩ := setDt_mapM
      (dt := (⟨[B, T, w], fun i => dt.get (i.headD 0 :: i.drop 2)⟩ : ND)) (X := X.del "dt") (by
        intro k e he
        have hk : k ∈ (X.del "dt").keys := List.mem_map.2 ⟨(k, e), he, rfl⟩
        obtain ⟨i, hi, rfl⟩ := (hmem k).1 hk
        obtain ⟨d, hd, -⟩ := h.seg i hi
        have h1 : List.lookup (toString i) (X.del "dt") = some e := lookup_of_mem hnd he
        rw [lookup_del, if_neg (toString_nat_ne_dt i), hd] at h1
        exact ⟨d, (Option.some.inj h1).symm⟩)
    refine ⟨X', ?_, ?_, ?_⟩
    · unfold _expand_dt
      rw [hdt]
      dsimp only
      rw [hrep, ok_bind, e]
    · have := range_keys_length hnd hmem
      rw [← hk] at this
      simpa [Dict.keys] using this
    · intro i hi
      obtain ⟨d, hd, h1, h2, h3, h4⟩ := h.seg i hi
      refine ⟨d.set "dt" _, hl (toString i) d (by rw [lookup_del, if_neg (toString_nat_ne_dt i)]; exact hd),
        ?_, ?_, ?_, ?_⟩
      · rw [lookup_set, if_neg (by decide)]; exact h1
      · rw [lookup_set, if_neg (by decide)]; exact h2
      · rw [lookup_set, if_neg (by decide)]; exact h3
      · rw [lookup_set, if_pos rfl]; rfl

theorem flattenBatched_ok (h : Segmented [B, T] N wa wg wx wd acc gyr ax dt X) (hN : 0 < N)
    (hB : 0 < B) (hT : 0 < T) {y : Dict ND} {ys : Nat → ND} {wy : Nat}
    (hy : ∀ i < N, List.lookup (toString i) y = some (ys i) ∧ (ys i).shape = [B, T, wy]) :
    ∃ X' y', flattenBatched X y T = .ok (X', y') ∧
      X'.shape = [B, T, N, wa + wg + wx.getD 0 + wd.getD 0] ∧ y'.shape = [B, T, N, wy] ∧
      (∀ b t i f, i < N → f < wa + wg + wx.getD 0 + wd.getD 0 →
        X'.get [b, t, i, f] = feature wa wg (wx.getD 0) acc gyr ax dt [b, t] i f) ∧
      ∀ b t i f, i < N → f < wy → y'.get [b, t, i, f] = (ys i).get [b, t, f] := by
  obtain ⟨X1, e1, hlen, hseg⟩ := expand_dt_ok h
  let dtl : List ND := (wd.map fun w =>
    (⟨[B, T, w], fun i => dt.get (i.headD 0 :: i.drop 2)⟩ : ND)).toList
  let ch : Nat → List ND := fun i => [acc i, gyr i] ++ (wx.map fun _ => ax i).toList ++ dtl
  have e2 : ((List.range N).mapM fun i => do
      let e ← pyDict X1 (toString i)
      dict_to_tuple e) = .ok ((List.range N).map ch) := by
    refine mapM_range_ok _ _ ch fun i hi => ?_
    obtain ⟨d, h0, h1, h2, h3, h4⟩ := hseg i hi
    unfold pyDict
    rw [h0, ok_bind]
    unfold dict_to_tuple pyDict
    dsimp only
    rw [h1, h2, h3, h4]
    rfl
  have e3 : ((List.range N).mapM fun i => do
      let a ← pyDict y (toString i)
      pure [a]) = .ok ((List.range N).map fun i => [ys i]) := by
    refine mapM_range_ok _ _ (fun i => [ys i]) fun i hi => ?_
    unfold pyDict
    rw [(hy i hi).1]
    rfl
  obtain ⟨aX, f1, s1, g1⟩ := flatten_ok hN hB hT (ws := [wa, wg] ++ wx.toList ++ wd.toList) (by simp) ch (by
    intro i hi
    have hx := h.ax i hi
    simp only [ch, dtl, List.map_append, List.map_cons, List.map_nil, h.acc i hi, h.gyr i hi]
    cases wx <;> cases wd <;> simp_all)
  obtain ⟨aY, f2, s2, g2⟩ := flatten_ok hN hB hT (ws := [wy]) (by simp) (fun i => [ys i]) (by
    intro i hi
    simp [(hy i hi).2])
  have hsum : ([wa, wg] ++ wx.toList ++ wd.toList).sum = wa + wg + wx.getD 0 + wd.getD 0 := by
    cases wx <;> cases wd <;> simp [Nat.add_assoc]
  rw [hsum] at s1 g1
  refine ⟨aX, aY, ?_, s1, by simpa using s2, ?_, ?_⟩
  · unfold flattenBatched
    rw [e1, ok_bind]
    dsimp only
    rw [hlen, e2, ok_bind, e3, ok_bind, f1, ok_bind, f2]
    rfl
  · intro b t i f hi hf
    rw [g1 b t i f hi hf]
    have ha := h.acc i hi
    have hg := h.gyr i hi
    have hx := h.ax i hi
    unfold feature
    cases wx with
    | none =>
      cases wd with
      | none =>
        simp only [Option.getD_none, Nat.add_zero] at hf
        simp only [ch, dtl, Option.map_none, Option.toList_none, List.append_nil, ND.pick, ha, hg,
          Option.getD_none, Nat.add_zero]
        have l1 : ([B, T] ++ [wa]).getLastD 0 = wa := rfl
        have l2 : ([B, T] ++ [wg]).getLastD 0 = wg := rfl
        rw [l1, l2]
        split
        · rfl
        · rw [if_pos (by omega)]
      | some w =>
        simp only [Option.getD_none, Option.getD_some, Nat.add_zero] at hf
        simp only [ch, dtl, Option.map_none, Option.map_some, Option.toList_none, Option.toList_some,
          List.append_nil, List.cons_append, List.nil_append, ND.pick, ha, hg, Option.getD_none,
          Nat.add_zero]
        have l1 : [B, T, wa].getLastD 0 = wa := rfl
        have l2 : [B, T, wg].getLastD 0 = wg := rfl
        have l3 : [B, T, w].getLastD 0 = w := rfl
        rw [l1, l2, l3]
        split
        · rfl
        · by_cases h2 : f < wa + wg
          · rw [if_pos (by omega), if_pos h2]
          · rw [if_neg (by omega), if_pos (by omega), if_neg h2, if_neg h2]
            simp
    | some x =>
      have hx := hx x rfl
      cases wd with
      | none =>
        simp only [Option.getD_none, Option.getD_some, Nat.add_zero] at hf
        simp only [ch, dtl, Option.map_none, Option.map_some, Option.toList_none, Option.toList_some,
          List.append_nil, List.cons_append, List.nil_append, ND.pick, ha, hg, hx, Option.getD_some]
        have l1 : [B, T, wa].getLastD 0 = wa := rfl
        have l2 : [B, T, wg].getLastD 0 = wg := rfl
        have l3 : [B, T, x].getLastD 0 = x := rfl
        rw [l1, l2, l3]
        split
        · rfl
        · by_cases h2 : f < wa + wg
          · rw [if_pos (by omega), if_pos h2]
          · rw [if_neg (by omega), if_pos (by omega), if_neg h2]
      | some w =>
        simp only [Option.getD_some] at hf
        simp only [ch, dtl, Option.map_some, Option.toList_some,
          List.append_nil, List.cons_append, List.nil_append, ND.pick, ha, hg, hx, Option.getD_some]
        have l1 : [B, T, wa].getLastD 0 = wa := rfl
        have l2 : [B, T, wg].getLastD 0 = wg := rfl
        have l3 : [B, T, x].getLastD 0 = x := rfl
        have l4 : [B, T, w].getLastD 0 = w := rfl
        rw [l1, l2, l3, l4]
        split
        · rfl
        · by_cases h2 : f < wa + wg
          · rw [if_pos (by omega), if_pos h2]
          · rw [if_neg (by omega), if_neg h2]
            by_cases h3 : f < wa + wg + x
            · rw [if_pos (by omega), if_pos h3]
            · rw [if_neg (by omega), if_pos (by omega), if_neg h3]
              simp
  · intro b t i f hi hf
    rw [g2 b t i f hi (by simpa using hf)]
    simp only [ND.pick, (hy i hi).2]
    rw [if_pos (by simpa using hf)]
    rfl

/-- **C76.** The array handed to the network has the axes batch, time, segment, feature. Segment number
`i` of the array is segment `"i"` of the dictionary; its features are accelerometer, gyroscope, joint
axes (if there are any) and, for all times the same, the time step (if there is one). The targets are
arranged in the same way. -/
theorem C76_batched (h : Segmented [B, T] N wa wg wx wd acc gyr ax dt X) (hN : 0 < N)
    (hB : 0 < B) (hT : 0 < T) {y : Dict ND} {ys : Nat → ND} {wy : Nat}
    (hy : ∀ i < N, List.lookup (toString i) y = some (ys i) ∧ (ys i).shape = [B, T, wy]) :
    ∃ X' y', _expand_then_flatten X y = .ok (X', y') ∧
      X'.shape = [B, T, N, wa + wg + wx.getD 0 + wd.getD 0] ∧ y'.shape = [B, T, N, wy] ∧
      (∀ b t i f, i < N → f < wa + wg + wx.getD 0 + wd.getD 0 →
        X'.get [b, t, i, f] = feature wa wg (wx.getD 0) acc gyr ax dt [b, t] i f) ∧
      ∀ b t i f, i < N → f < wy → y'.get [b, t, i, f] = (ys i).get [b, t, f] := by
  obtain ⟨X', y', e, rest⟩ := flattenBatched_ok h hN hB hT hy
  refine ⟨X', y', ?_, rest⟩
  obtain ⟨d, h0, -, h2, -⟩ := h.seg 0 hN
  have hg : getSub X "0" "gyr" = .ok (gyr 0) := by
    unfold getSub pyDict
    rw [show "0" = toString 0 from rfl, h0, ok_bind]
    dsimp only
    rw [h2]
  unfold _expand_then_flatten
  rw [hg, ok_bind, h.gyr 0 hN, if_neg (by simp)]
  dsimp only
  rw [if_neg (by simp)]
  exact e

theorem lookup_vals {β γ : Type} (f : β → γ) (d : Dict β) (k : String) :
    List.lookup k (d.map fun x => (x.1, f x.2)) = (List.lookup k d).map f := by
  induction d with
  | nil => rfl
  | cons x d ih =>
    rw [List.map_cons, List.lookup_cons, List.lookup_cons]
    split
    · rfl
    · exact ih

theorem segmented_expand (h : Segmented [T] N wa wg wx wd acc gyr ax dt X) :
    Segmented [1, T] N wa wg wx wd (fun i => (acc i).expand) (fun i => (gyr i).expand)
      (fun i => (ax i).expand) dt.expand (X.map fun x => (x.1, addBatchDim x.2)) := by
  have hk : Dict.keys (X.map fun x => (x.1, addBatchDim x.2)) = X.keys := by simp [Dict.keys]
  refine
    { nodup := by rw [hk]; exact h.nodup
      keys := by rw [hk]; exact h.keys
      seg := ?_
      acc := fun i hi => by show 1 :: _ = _; rw [h.acc i hi]; rfl
      gyr := fun i hi => by show 1 :: _ = _; rw [h.gyr i hi]; rfl
      ax := fun i hi w hw => by show 1 :: _ = _; rw [h.ax i hi w hw]; rfl
      dt := ?_ }
  · intro i hi
    obtain ⟨d, h0, h1, h2, h3, h4⟩ := h.seg i hi
    refine ⟨d.map fun x => (x.1, x.2.expand), ?_, ?_, ?_, ?_, ?_⟩
    · rw [lookup_vals, h0]; rfl
    · rw [lookup_vals, h1]; rfl
    · rw [lookup_vals, h2]; rfl
    · rw [lookup_vals, h3, Option.map_map]; rfl
    · rw [lookup_vals, h4]; rfl
  · intro w hw
    obtain ⟨h1, h2⟩ := h.dt w hw
    refine ⟨by rw [lookup_vals, h1]; rfl, ?_⟩
    show 1 :: _ = _
    rw [h2]
    rfl

/-- **C76.** The same without a batch axis: the result has the axes time, segment, feature. -/
theorem C76_unbatched (h : Segmented [T] N wa wg wx wd acc gyr ax dt X) (hN : 0 < N)
    (hT : 0 < T) {y : Dict ND} {ys : Nat → ND} {wy : Nat}
    (hy : ∀ i < N, List.lookup (toString i) y = some (ys i) ∧ (ys i).shape = [T, wy]) :
    ∃ X' y', _expand_then_flatten X y = .ok (X', y') ∧
      X'.shape = [T, N, wa + wg + wx.getD 0 + wd.getD 0] ∧ y'.shape = [T, N, wy] ∧
      (∀ t i f, i < N → f < wa + wg + wx.getD 0 + wd.getD 0 →
        X'.get [t, i, f] = feature wa wg (wx.getD 0) acc gyr ax dt [t] i f) ∧
      ∀ t i f, i < N → f < wy → y'.get [t, i, f] = (ys i).get [t, f] := by
  obtain ⟨X1, y1, e, s1, s2, g1, g2⟩ := flattenBatched_ok (segmented_expand h) hN one_pos hT
    (y := y.map fun x => (x.1, x.2.expand)) (ys := fun i => (ys i).expand) (wy := wy) (by
      intro i hi
      refine ⟨by rw [lookup_vals, (hy i hi).1]; rfl, ?_⟩
      show 1 :: _ = _
      rw [(hy i hi).2])
  obtain ⟨d, h0, -, h2, -⟩ := h.seg 0 hN
  have hg : getSub X "0" "gyr" = .ok (gyr 0) := by
    unfold getSub pyDict
    rw [show "0" = toString 0 from rfl, h0, ok_bind]
    dsimp only
    rw [h2]
  refine ⟨⟨[T, N, wa + wg + wx.getD 0 + wd.getD 0], fun i => X1.get (0 :: i)⟩,
    ⟨[T, N, wy], fun i => y1.get (0 :: i)⟩, ?_, rfl, rfl, ?_, ?_⟩
  · unfold _expand_then_flatten
    rw [hg, ok_bind, h.gyr 0 hN, if_neg (by simp)]
    dsimp only
    rw [if_pos (by simp)]
    have : ([T] ++ [wg]).dropLast.getLastD 0 = T := rfl
    rw [this, e, ok_bind]
    unfold ND.first
    dsimp only
    rw [s1, s2]
    rfl
  · intro t i f hi hf
    show X1.get [0, t, i, f] = _
    rw [g1 0 t i f hi hf]
    rfl
  · intro t i f hi hf
    show y1.get [0, t, i, f] = _
    rw [g2 0 t i f hi hf]
    rfl

/-! ## what is refused -/

theorem bind_ok_iff {β γ : Type} {x : Py β} {f : β → Py γ} {r : γ} :
    (x >>= f) = .ok r ↔ ∃ b, x = .ok b ∧ f b = .ok r := by
  cases x with
  | error e =>
    constructor
    · intro h; cases h
    · rintro ⟨b, h, -⟩; cases h
  | ok b =>
    constructor
    · intro h; exact ⟨b, rfl, h⟩
    · rintro ⟨b', h, h'⟩
      obtain rfl := Except.ok.inj h
      exact h'

theorem mapM_each {β γ : Type} {f : β → Py γ} : ∀ {l : List β} {r : List γ}, l.mapM f = .ok r →
    r.length = l.length ∧ ∀ a ∈ l, ∃ b ∈ r, f a = .ok b := by
  intro l
  induction l with
  | nil =>
    intro r h
    obtain rfl := Except.ok.inj h
    simp
  | cons a l ih =>
    intro r h
    rw [List.mapM_cons] at h
    obtain ⟨b, h1, h⟩ := (bind_ok_iff).1 h
    obtain ⟨bs, h2, h⟩ := (bind_ok_iff).1 h
    obtain rfl := Except.ok.inj h
    obtain ⟨i1, i2⟩ := ih h2
    refine ⟨by simp [i1], ?_⟩
    intro a' ha'
    rcases List.mem_cons.1 ha' with rfl | ha'
    · exact ⟨b, by simp, h1⟩
    · obtain ⟨b', hb', e⟩ := i2 a' ha'
      exact ⟨b', by simp [hb'], e⟩

theorem setDt_keys {dt : ND} : ∀ {X X' : Dict (Entry ND)}, X.mapM (setDt dt) = .ok X' →
    X'.keys = X.keys := by
  intro X
  induction X with
  | nil => intro X' h; obtain rfl := Except.ok.inj h; rfl
  | cons x X ih =>
    intro X' h
    rw [List.mapM_cons] at h
    obtain ⟨b, h1, h⟩ := (bind_ok_iff).1 h
    obtain ⟨bs, h2, h⟩ := (bind_ok_iff).1 h
    obtain rfl := Except.ok.inj h
    have h3 : Dict.keys bs = Dict.keys X := ih h2
    simp only [Dict.keys] at h3
    simp only [Dict.keys, List.map_cons, h3]
    congr 1
    unfold setDt at h1
    split at h1
    · cases h1
    · obtain rfl := Except.ok.inj h1
      rfl

theorem expand_dt_keys {X X' : Dict (Entry ND)} {T : Nat} (h : _expand_dt X T = .ok X') :
    X'.keys = X.keys.filter (· ≠ "dt") := by
  unfold _expand_dt at h
  split at h
  · rename_i hn
    obtain rfl := Except.ok.inj h
    rw [lookup_eq_none] at hn
    rw [eq_comm, List.filter_eq_self]
    intro k hk
    have : k ≠ "dt" := by rintro rfl; exact hn hk
    simpa using this
  · cases h
  · obtain ⟨d, -, h⟩ := (bind_ok_iff).1 h
    rw [setDt_keys h, del_keys]

theorem flattenBatched_keys {y : Dict ND} {T : Nat} {r : ND × ND} (hn : X.keys.Nodup)
    (h : flattenBatched X y T = .ok r) :
    ∃ N : Nat, (∀ k, k ∈ X.keys ∧ k ≠ "dt" ↔ ∃ i < N, k = toString i) ∧ ∀ i < N, toString i ∈ y.keys := by
  unfold flattenBatched at h
  obtain ⟨X', h1, h⟩ := (bind_ok_iff).1 h
  obtain ⟨Xs, h2, h⟩ := (bind_ok_iff).1 h
  obtain ⟨ys, h3, h⟩ := (bind_ok_iff).1 h
  have hk := expand_dt_keys h1
  have hn' : X'.keys.Nodup := by rw [hk]; exact hn.filter _
  have hsub : (List.range X'.length).map toString ⊆ X'.keys := by
    intro k hk
    obtain ⟨i, hi, rfl⟩ := List.mem_map.1 hk
    obtain ⟨b, -, e⟩ := (mapM_each h2).2 i hi
    obtain ⟨e', he, -⟩ := (bind_ok_iff).1 e
    rw [lookup_isSome]
    unfold pyDict at he
    split at he
    · rename_i v hv
      exact ⟨v, hv⟩
    · cases he
  have hnd : ((List.range X'.length).map toString).Nodup :=
    List.nodup_range.map_on fun i _ j _ e => toString_nat_inj e
  have hperm : ((List.range X'.length).map toString).Perm X'.keys := by
    refine List.Subperm.perm_of_length_le (hnd.subperm hsub) ?_
    simp [Dict.keys]
  refine ⟨X'.length, ?_, ?_⟩
  · intro k
    have : k ∈ X'.keys ↔ k ∈ X.keys ∧ k ≠ "dt" := by rw [hk]; simp
    rw [← this, ← hperm.mem_iff, List.mem_map]
    constructor
    · rintro ⟨i, hi, rfl⟩
      exact ⟨i, List.mem_range.1 hi, rfl⟩
    · rintro ⟨i, hi, rfl⟩
      exact ⟨i, List.mem_range.2 hi, rfl⟩
  · intro i hi
    obtain ⟨b, -, e⟩ := (mapM_each h3).2 i (List.mem_range.2 hi)
    obtain ⟨e', he, -⟩ := (bind_ok_iff).1 e
    rw [lookup_isSome]
    unfold pyDict at he
    split at he
    · rename_i v hv
      exact ⟨v, hv⟩
    · cases he

/-- **C76.** Nothing of `X` gets lost: if there is a result, then besides the time step `X` holds
segments only, and these are numbered from zero without gaps. (With `return_q_ref`, `X` also holds
`"q_ref"`, and there is no result.) Each of these segments has a target. -/
theorem C76_only_segments {y : Dict ND} {r : ND × ND} (hn : X.keys.Nodup)
    (h : _expand_then_flatten X y = .ok r) :
    ∃ N : Nat, (∀ k, k ∈ X.keys ∧ k ≠ "dt" ↔ ∃ i < N, k = toString i) ∧ ∀ i < N, toString i ∈ y.keys := by
  unfold _expand_then_flatten at h
  obtain ⟨g, -, h⟩ := (bind_ok_iff).1 h
  split at h
  · cases h
  · dsimp only at h
    split at h
    · obtain ⟨r', h', -⟩ := (bind_ok_iff).1 h
      have hk : Dict.keys (X.map fun x => (x.1, addBatchDim x.2)) = X.keys := by simp [Dict.keys]
      have hky : Dict.keys (y.map fun x => (x.1, x.2.expand)) = y.keys := by simp [Dict.keys]
      have := flattenBatched_keys (by rw [hk]; exact hn) h'
      rw [hk, hky] at this
      exact this
    · exact flattenBatched_keys hn h

theorem setDt_lookup {dt : ND} {k : String} {d : Dict ND} : ∀ {X X' : Dict (Entry ND)},
    X.mapM (setDt dt) = .ok X' → List.lookup k X = some (.dict d) →
    List.lookup k X' = some (.dict (d.set "dt" dt)) := by
  intro X
  induction X with
  | nil => intro X' _ h; cases h
  | cons x X ih =>
    intro X' h hl
    rw [List.mapM_cons] at h
    obtain ⟨b, h1, h⟩ := (bind_ok_iff).1 h
    obtain ⟨bs, h2, h⟩ := (bind_ok_iff).1 h
    obtain rfl := Except.ok.inj h
    unfold setDt at h1
    split at h1
    · cases h1
    · rename_i dd hdd
      obtain rfl := Except.ok.inj h1
      rw [List.lookup_cons] at hl ⊢
      split at hl
      · rw [hdd] at hl
        obtain rfl := Entry.dict.inj (Option.some.inj hl)
        rfl
      · exact ih h2 hl

theorem flattenBatched_axes {y : Dict ND} {T : Nat} {r : ND × ND} (hn : X.keys.Nodup)
    (hno : ∀ k d, List.lookup k X = some (.dict d) → List.lookup "dt" d = none)
    (h : flattenBatched X y T = .ok r) {k k' : String} {d d' : Dict ND} (hk : k ≠ "dt") (hk' : k' ≠ "dt")
    (hd : List.lookup k X = some (.dict d)) (hd' : List.lookup k' X = some (.dict d')) :
    (List.lookup "joint_axes" d).isSome = (List.lookup "joint_axes" d').isSome := by
  obtain ⟨N, hkeys, -⟩ := flattenBatched_keys hn h
  obtain ⟨i, hi, rfl⟩ := (hkeys k).1 ⟨(lookup_isSome _ _).2 ⟨_, hd⟩, hk⟩
  obtain ⟨j, hj, rfl⟩ := (hkeys k').1 ⟨(lookup_isSome _ _).2 ⟨_, hd'⟩, hk'⟩
  unfold flattenBatched at h
  obtain ⟨X', h1, h⟩ := (bind_ok_iff).1 h
  obtain ⟨Xs, h2, h⟩ := (bind_ok_iff).1 h
  obtain ⟨ys, -, h⟩ := (bind_ok_iff).1 h
  obtain ⟨aX, h3, -⟩ := (bind_ok_iff).1 h
  have hN : X'.length = N := by
    have e := expand_dt_keys h1
    have hn' : X'.keys.Nodup := by rw [e]; exact hn.filter _
    have := range_keys_length (N := N) hn' (fun k => by rw [← hkeys, e]; simp)
    simpa [Dict.keys] using this
  -- what the segments are after `_expand_dt`
  obtain ⟨c, hc⟩ : ∃ c : Nat, ∀ k d, k ≠ "dt" → List.lookup k X = some (.dict d) → ∃ d1,
      List.lookup k X' = some (.dict d1) ∧
      List.lookup "joint_axes" d1 = List.lookup "joint_axes" d ∧
      (List.lookup "dt" d1).toList.length = c := by
    unfold _expand_dt at h1
    split at h1
    · obtain rfl := Except.ok.inj h1
      exact ⟨0, fun k d _ hd => ⟨d, hd, rfl, by rw [hno k d hd]; rfl⟩⟩
    · cases h1
    · obtain ⟨dd, -, h1⟩ := (bind_ok_iff).1 h1
      refine ⟨1, fun k d hk hd => ⟨d.set "dt" dd, setDt_lookup h1 ?_, ?_, ?_⟩⟩
      · rw [lookup_del, if_neg hk]; exact hd
      · rw [lookup_set, if_neg (by decide)]
      · rw [lookup_set, if_pos rfl]; rfl
  have hlen : ∀ a ∈ Xs, ∀ b ∈ Xs, a.length = b.length := by
    unfold _flatten at h3
    obtain ⟨tr, h4, -⟩ := (bind_ok_iff).1 h3
    unfold tree_batch at h4
    split at h4
    · cases h4
    · split at h4
      · rename_i hall
        intro a ha b hb
        rw [hall a ha, hall b hb]
      · cases h4
  have tup : ∀ (m : Nat) d, m < N → List.lookup (toString m) X = some (.dict d) → ∃ b ∈ Xs,
      b.length = 2 + (List.lookup "joint_axes" d).toList.length + c := by
    intro m d hm hd
    obtain ⟨d1, e1, e2, e3⟩ := hc _ d (toString_nat_ne_dt m) hd
    obtain ⟨b, hb, e⟩ := (mapM_each h2).2 m (List.mem_range.2 (by omega))
    refine ⟨b, hb, ?_⟩
    obtain ⟨ent, he, e⟩ := (bind_ok_iff).1 e
    rw [pyDict, e1] at he
    obtain rfl := Except.ok.inj he
    unfold dict_to_tuple at e
    dsimp only at e
    obtain ⟨a, -, e⟩ := (bind_ok_iff).1 e
    obtain ⟨g, -, e⟩ := (bind_ok_iff).1 e
    obtain rfl := Except.ok.inj e
    rw [List.length_append, List.length_append, e2, e3]
    rfl
  obtain ⟨b, hb, lb⟩ := tup i d hi hd
  obtain ⟨b', hb', lb'⟩ := tup j d' hj hd'
  have := hlen b hb b' hb'
  cases e1 : List.lookup "joint_axes" d <;> cases e2 : List.lookup "joint_axes" d' <;>
    simp [e1, e2] at lb lb' ⊢ <;> omega

/-- **C76.** Joint axes cannot be given for some of the segments only. -/
theorem C76_all_or_none {y : Dict ND} {r : ND × ND} (hn : X.keys.Nodup)
    (hno : ∀ k d, List.lookup k X = some (.dict d) → List.lookup "dt" d = none)
    (h : _expand_then_flatten X y = .ok r) {k k' : String} {d d' : Dict ND} (hk : k ≠ "dt") (hk' : k' ≠ "dt")
    (hd : List.lookup k X = some (.dict d)) (hd' : List.lookup k' X = some (.dict d')) :
    (List.lookup "joint_axes" d).isSome = (List.lookup "joint_axes" d').isSome := by
  unfold _expand_then_flatten at h
  obtain ⟨g, -, h⟩ := (bind_ok_iff).1 h
  split at h
  · cases h
  · dsimp only at h
    split at h
    · obtain ⟨r', h', -⟩ := (bind_ok_iff).1 h
      have hkk : Dict.keys (X.map fun x => (x.1, addBatchDim x.2)) = X.keys := by simp [Dict.keys]
      have := flattenBatched_axes (by rw [hkk]; exact hn) (by
        intro k d hd
        rw [lookup_vals] at hd
        cases e : List.lookup k X with
        | none => rw [e] at hd; cases hd
        | some v =>
          rw [e] at hd
          cases v with
          | leaf _ => cases hd
          | dict d0 =>
            obtain rfl := Entry.dict.inj (Option.some.inj hd)
            rw [lookup_vals, hno k d0 e]
            rfl) h' hk hk' (by rw [lookup_vals, hd]; rfl) (by rw [lookup_vals, hd']; rfl)
      rw [lookup_vals, lookup_vals] at this
      simpa using this
    · exact flattenBatched_axes hn hno h hk hk' hd hd'

/-- **C76, violated by the code.** The time step that `RCMG(…, randomize_hz=True)` puts into `X` is one
number per sequence, an array with the batch axis only. It cannot be flattened: `dt[:, None, :]`
raises. -/
theorem C76_dt_fails {y : Dict ND} {g d : ND} (hg : getSub X "0" "gyr" = .ok g)
    (hr : g.shape.length = 3) (hd : List.lookup "dt" X = some (.leaf d)) (hs : d.shape.length = 1) :
    _expand_then_flatten X y = .error .index := by
  unfold _expand_then_flatten
  rw [hg, ok_bind, if_neg (by omega)]
  dsimp only
  rw [if_neg (by omega)]
  unfold flattenBatched _expand_dt
  rw [hd]
  dsimp only
  unfold ND.repeatTime
  match hsh : d.shape, hs with
  | [b], _ => rfl

/-- The same for a single sequence: the number has no axis at all. -/
theorem C76_dt_single_fails {y : Dict ND} {g d : ND} (hg : getSub X "0" "gyr" = .ok g)
    (hr : g.shape.length = 2) (hd : List.lookup "dt" X = some (.leaf d)) (hs : d.shape = []) :
    _expand_then_flatten X y = .error .index := by
  unfold _expand_then_flatten
  rw [hg, ok_bind, if_neg (by omega)]
  dsimp only
  rw [if_pos hr]
  unfold flattenBatched _expand_dt
  rw [lookup_vals, hd]
  dsimp only [Option.map_some, addBatchDim]
  unfold ND.repeatTime ND.expand
  dsimp only
  rw [hs]
  rfl

/-- **C76.** The time step that `randomize_hz_finalize_fn_factory` adds has the right shape: after
flattening it is the last feature of all segments at all times. -/
theorem C76_factory {y : Dict ND} (h : Segmented [T] N wa wg wx none acc gyr ax dt X) (d : ℝ) :
    ∃ X', randomize_hz_finalize_fn (some (.ok (X, y))) d = .ok (X', y) ∧
      Segmented [T] N wa wg wx (some 1) acc gyr ax ⟨[1], fun _ => d⟩ X' := by
  have hno : "dt" ∉ X.keys := by
    intro hk
    rcases (h.keys _).1 hk with ⟨-, h'⟩ | ⟨i, -, h'⟩
    · cases h'
    · exact toString_nat_ne_dt i h'.symm
  refine ⟨X ++ [("dt", .leaf ⟨[1], fun _ => d⟩)], ?_, ?_⟩
  · unfold randomize_hz_finalize_fn
    rw [Option.getD_some, ok_bind, pyAssert_true hno]
    rfl
  · have hk : Dict.keys (X ++ [("dt", Entry.leaf (⟨[1], fun _ => d⟩ : ND))]) = X.keys ++ ["dt"] := by
      simp [Dict.keys]
    refine
      { nodup := by
          rw [hk, List.nodup_append]
          refine ⟨h.nodup, by simp, ?_⟩
          rintro a ha b hb rfl
          rw [List.mem_singleton] at hb
          exact hno (hb ▸ ha)
        keys := by
          intro k
          rw [hk, List.mem_append, h.keys]
          simp [or_comm]
        seg := ?_
        acc := h.acc
        gyr := h.gyr
        ax := h.ax
        dt := ?_ }
    · intro i hi
      obtain ⟨d', h0, rest⟩ := h.seg i hi
      exact ⟨d', by rw [lookup_append, h0]; rfl, rest⟩
    · intro w hw
      obtain rfl := Option.some.inj hw
      refine ⟨?_, rfl⟩
      rw [lookup_append, (lookup_eq_none _ _).2 hno]
      rfl

/-- **C76.** The function of the user must not return a time step itself. -/
theorem C76_factory_twice {X : Dict (Entry ND)} {y : Dict ND} (h : "dt" ∈ X.keys) (d : ℝ) :
    randomize_hz_finalize_fn (some (.ok (X, y))) d = .error .assertion := by
  unfold randomize_hz_finalize_fn
  rw [Option.getD_some, ok_bind, pyAssert_false (by simpa using h)]
  rfl

/-- **C76.** Batched dictionaries are changed in place: the time step moves from the top into the
segments. Flattening the changed dictionary gives the same array as before. -/
theorem C76_again {X X' : Dict (Entry ND)} {y : Dict ND} {g : ND}
    (hg : getSub X "0" "gyr" = .ok g) (hr : 3 ≤ g.shape.length)
    (h : _expand_dt X (g.shape.dropLast.getLastD 0) = .ok X') :
    _expand_then_flatten X' y = _expand_then_flatten X y := by
  have hno : List.lookup "dt" X' = none := by
    rw [lookup_eq_none, expand_dt_keys h]
    simp
  have h' : _expand_dt X' (g.shape.dropLast.getLastD 0) = .ok X' := by
    unfold _expand_dt
    rw [hno]
  have hg' : getSub X' "0" "gyr" = .ok g := by
    unfold _expand_dt at h
    split at h
    · obtain rfl := Except.ok.inj h
      exact hg
    · cases h
    · obtain ⟨d, -, h⟩ := (bind_ok_iff).1 h
      unfold getSub at hg ⊢
      obtain ⟨e, he, hg⟩ := (bind_ok_iff).1 hg
      unfold pyDict at he
      split at he
      · rename_i v hv
        obtain rfl := Except.ok.inj he
        cases v with
        | leaf _ => cases hg
        | dict d0 =>
          have hv' : List.lookup "0" (X.del "dt") = some (.dict d0) := by
            rw [lookup_del, if_neg (by decide)]
            exact hv
          rw [pyDict, setDt_lookup h hv', ok_bind]
          dsimp only at hg ⊢
          unfold pyDict at hg ⊢
          rw [lookup_set, if_neg (by decide)]
          exact hg
      · cases he
  unfold _expand_then_flatten
  rw [hg, hg', ok_bind, ok_bind, if_neg (by omega), if_neg (by omega)]
  dsimp only
  rw [if_neg (by omega), if_neg (by omega)]
  unfold flattenBatched
  rw [h, h']

/-! ## examples -/

section Examples

/-- an array whose entries are told apart by `c` and the index -/
def exArr (c : Nat) (shape : List Nat) : ND := ⟨shape, fun i => c + Nat.ofDigits 10 i.reverse⟩

/-- two sequences, two segments, five times, with joint axes; segment `"1"` comes first -/
def exX (dt : List Nat) : Dict (Entry ND) :=
  [("1", .dict [("acc", exArr 10000 [2, 5, 3]), ("gyr", exArr 20000 [2, 5, 3]),
      ("joint_axes", exArr 30000 [2, 5, 3])]),
   ("dt", .leaf (exArr 70000 dt)),
   ("0", .dict [("joint_axes", exArr 60000 [2, 5, 3]), ("gyr", exArr 50000 [2, 5, 3]),
      ("acc", exArr 40000 [2, 5, 3])])]

def exY : Dict ND := [("0", exArr 80000 [2, 5, 4]), ("1", exArr 90000 [2, 5, 4])]

theorem exX_ok : Segmented [2, 5] 2 3 3 (some 3) (some 1)
    (fun i => exArr (if i = 0 then 40000 else 10000) [2, 5, 3])
    (fun i => exArr (if i = 0 then 50000 else 20000) [2, 5, 3])
    (fun i => exArr (if i = 0 then 60000 else 30000) [2, 5, 3])
    (exArr 70000 [2, 1]) (exX [2, 1]) where
  nodup := by simp [exX, Dict.keys]
  keys := by
    intro k
    simp only [exX, Dict.keys, List.map_cons, List.map_nil, List.mem_cons, List.not_mem_nil, or_false,
      Option.isSome_some, and_true]
    constructor
    · rintro (rfl | rfl | rfl)
      · exact Or.inr ⟨1, by norm_num, rfl⟩
      · exact Or.inl rfl
      · exact Or.inr ⟨0, by norm_num, rfl⟩
    · rintro (rfl | ⟨i, hi, rfl⟩)
      · simp
      · match i, hi with
        | 0, _ => exact Or.inr (Or.inr rfl)
        | 1, _ => exact Or.inl rfl
  seg := by
    intro i hi
    match i, hi with
    | 0, _ => exact ⟨_, rfl, rfl, rfl, rfl, rfl⟩
    | 1, _ => exact ⟨_, rfl, rfl, rfl, rfl, rfl⟩
  acc := fun _ _ => rfl
  gyr := fun _ _ => rfl
  ax := fun _ _ w hw => by obtain rfl := Option.some.inj hw; rfl
  dt := fun w hw => by obtain rfl := Option.some.inj hw; exact ⟨rfl, rfl⟩

/-- feature 4 of segment 1 is an entry of its gyroscope, feature 9 is the time step -/
example : ∃ X' y', _expand_then_flatten (exX [2, 1]) exY = .ok (X', y') ∧ X'.shape = [2, 5, 2, 10] ∧
    y'.shape = [2, 5, 2, 4] ∧ X'.get [1, 3, 1, 4] = 20131 ∧ X'.get [1, 3, 0, 9] = 70010 ∧
    y'.get [1, 3, 1, 2] = 90132 := by
  obtain ⟨X', y', e, s1, s2, g1, g2⟩ := C76_batched exX_ok (by norm_num) (by norm_num) (by norm_num)
    (y := exY) (ys := fun i => exArr (if i = 0 then 80000 else 90000) [2, 5, 4]) (wy := 4) (by
      intro i hi
      match i, hi with
      | 0, _ => exact ⟨rfl, rfl⟩
      | 1, _ => exact ⟨rfl, rfl⟩)
  refine ⟨X', y', e, s1, s2, ?_, ?_, ?_⟩
  · rw [g1 1 3 1 4 (by norm_num) (by simp)]
    simp [feature, exArr, Nat.ofDigits]
    norm_num
  · rw [g1 1 3 0 9 (by norm_num) (by simp)]
    simp [feature, exArr, Nat.ofDigits]
    norm_num
  · rw [g2 1 3 1 2 (by norm_num) (by norm_num)]
    simp [exArr, Nat.ofDigits]
    norm_num

example : _expand_then_flatten (exX [2]) exY = .error .index :=
  C76_dt_fails (g := exArr 50000 [2, 5, 3]) (d := exArr 70000 [2]) rfl rfl rfl rfl

/-- one sequence of a user's function with the time step of the factory -/
example : ∃ X1 X' y', randomize_hz_finalize_fn (some (.ok
      ([("0", .dict [("acc", exArr 10000 [5, 3]), ("gyr", exArr 20000 [5, 3])])],
        [("0", exArr 80000 [5, 4])]))) (1 / 40) = .ok (X1, [("0", exArr 80000 [5, 4])]) ∧
    _expand_then_flatten X1 [("0", exArr 80000 [5, 4])] = .ok (X', y') ∧ X'.shape = [5, 1, 7] ∧
    X'.get [3, 0, 5] = 20032 ∧ X'.get [3, 0, 6] = 1 / 40 := by
  obtain ⟨X1, e1, h1⟩ := C76_factory (T := 5) (N := 1) (wa := 3) (wg := 3) (wx := none)
    (acc := fun _ => exArr 10000 [5, 3]) (gyr := fun _ => exArr 20000 [5, 3])
    (ax := fun _ => exArr 0 []) (dt := exArr 0 [])
    (X := [("0", .dict [("acc", exArr 10000 [5, 3]), ("gyr", exArr 20000 [5, 3])])])
    (y := [("0", exArr 80000 [5, 4])])
    { nodup := by simp [Dict.keys]
      keys := by
        intro k
        simp only [Dict.keys, List.map_cons, List.map_nil, List.mem_singleton]
        constructor
        · rintro rfl
          exact Or.inr ⟨0, by norm_num, rfl⟩
        · rintro (⟨-, h⟩ | ⟨i, hi, rfl⟩)
          · cases h
          · obtain rfl : i = 0 := by omega
            rfl
      seg := by
        intro i hi
        obtain rfl : i = 0 := by omega
        exact ⟨_, rfl, rfl, rfl, rfl, rfl⟩
      acc := fun _ _ => rfl
      gyr := fun _ _ => rfl
      ax := fun _ _ w hw => by cases hw
      dt := fun w hw => by cases hw } (1 / 40)
  obtain ⟨X', y', e, s1, -, g1, -⟩ := C76_unbatched h1 one_pos (by norm_num)
    (y := [("0", exArr 80000 [5, 4])]) (ys := fun _ => exArr 80000 [5, 4]) (wy := 4) (by
      intro i hi
      obtain rfl : i = 0 := by omega
      exact ⟨rfl, rfl⟩)
  refine ⟨X1, X', y', e1, e, s1, ?_, ?_⟩
  · rw [g1 3 0 5 (by norm_num) (by simp)]
    simp [feature, exArr, Nat.ofDigits]
    norm_num
  · rw [g1 3 0 6 (by norm_num) (by simp)]
    simp [feature]

/-- the references of the controller among the segments -/
example (y : Dict ND) (r : ND × ND) :
    _expand_then_flatten (("q_ref", .leaf (exArr 0 [2, 5, 9])) :: exX [2, 1]) y ≠ .ok r := by
  intro h
  obtain ⟨N, hk, -⟩ := C76_only_segments (by simp [exX, Dict.keys]) h
  obtain ⟨i, -, hi⟩ := (hk "q_ref").1 ⟨by simp [Dict.keys], by decide⟩
  rw [Nat.toString_eq_ofList_toDigits] at hi
  have h' := congrArg String.toList hi
  simp only [String.toList_ofList] at h'
  have : 'q' ∈ Nat.toDigits 10 i := by rw [← h']; decide
  exact absurd (Nat.isDigit_of_mem_toDigits (by norm_num) (by norm_num) this) (by decide)

end Examples

end RingLib
