import Verif.Lemmas.List

/-! Lemmas about `System.scan` and `System.parse`. -/

namespace RingLib
namespace System
variable {α π O P Y : Type}

universe u v
theorem ok_bind {ε : Type u} {a b : Type v} (x : a) (f : a → Except ε b) :
    (Except.ok x >>= f) = f x := rfl
theorem error_bind {ε : Type u} {a b : Type v} (e : ε) (f : a → Except ε b) :
    ((Except.error e : Except ε a) >>= f) = .error e := rfl
theorem pure_ok {ε : Type*} {a : Type*} (x : a) : (pure x : Except ε a) = .ok x := rfl

theorem pyAssert_true {p : Prop} [Decidable p] (h : p) : pyAssert p = .ok () := if_pos h
theorem pyAssert_false {p : Prop} [Decidable p] (h : ¬ p) : pyAssert p = .error .assertion :=
  if_neg h

theorem width_known {w : String → Option Nat} {t : String} (h : (w t).isSome = true) :
    width w t = .ok (wOf w t) := by
  unfold width wOf
  obtain ⟨n, hn⟩ := Option.isSome_iff_exists.1 h
  simp [hn]

theorem sumWidths_known {w : String → Option Nat} {ts : List String}
    (h : ∀ t ∈ ts, (w t).isSome = true) : sumWidths w ts = .ok (ts.map (wOf w)).sum := by
  induction ts with
  | nil => rfl
  | cons t ts ih =>
    simp only [sumWidths, width_known (h t (by simp)), ih (fun t ht => h t (by simp [ht])),
      ok_bind, pure_ok, List.map_cons, List.sum_cons]

/-- the slices of consecutive widths, starting at `a` -/
def idxsFrom : Nat → List Nat → List (Nat × Nat)
  | _, [] => []
  | a, w :: ws => (a, a + w) :: idxsFrom (a + w) ws

theorem buildIdxs_known {E : Env α π} {ts : List String} (h : E.Known ts) (a b : Nat) :
    buildIdxs E a b ts =
      .ok ⟨idxsFrom a (ts.map (wOf E.qw)), idxsFrom b (ts.map (wOf E.dw))⟩ := by
  induction ts generalizing a b with
  | nil => rfl
  | cons t ts ih =>
    simp only [buildIdxs, width_known (h t (by simp)).1, width_known (h t (by simp)).2,
      ih (fun t ht => h t (by simp [ht])), ok_bind, pure_ok, List.map_cons, idxsFrom]

theorem idxsFrom_getElem? (a : Nat) (ws : List Nat) (i : Nat) :
    (idxsFrom a ws)[i]? =
      if i < ws.length then some (a + (ws.take i).sum, a + (ws.take i).sum + ws.getD i 0)
      else none := by
  induction ws generalizing a i with
  | nil => simp [idxsFrom]
  | cons w ws ih =>
    cases i with
    | zero => simp [idxsFrom]
    | succ i =>
      simp only [idxsFrom, List.getElem?_cons_succ, ih, List.take_succ_cons, List.sum_cons,
        List.length_cons, Nat.add_lt_add_iff_right, List.getD_cons_succ, Nat.add_assoc]

/-- `rows` are the values which the callback of a scan receives for the links `0, 1, ...`. -/
def Rows (m : IdxMap) (arg : ScanArg O) (rows : List O) : Prop :=
  ∀ i (h : i < rows.length), arg.get m i = .ok rows[i]

theorem rows_argL (m : IdxMap) (xs : List O) : Rows m (argL xs) xs := by
  intro i h
  have : ¬ ((i : Int) < 0) := by omega
  simp [argL, pyGet, h, this]

theorem pySlice_eq {β : Type*} (xs : List β) (a w : Nat) :
    pySlice xs (a, a + w) = (xs.drop a).take w := by
  simp only [pySlice]
  rw [List.drop_take]
  congr 1; omega

theorem rows_argQ {m : IdxMap} {ws : List Nat} (hm : m.q_idxs = idxsFrom 0 ws) (xs : List O) :
    Rows m (argQ xs) (chunks ws xs) := by
  intro i h
  have h' : i < ws.length := by simpa using h
  simp only [argQ, IdxMap.q, hm, idxsFrom_getElem?, h', if_true, ok_bind, pure_ok, pySlice_eq]
  have := chunks_getElem? ws xs i
  rw [List.getElem?_eq_getElem h, if_pos h'] at this
  rw [Option.some.inj this, Nat.zero_add]

theorem rows_argD {m : IdxMap} {ws : List Nat} (hm : m.qd_idxs = idxsFrom 0 ws) (xs : List O) :
    Rows m (argD xs) (chunks ws xs) := by
  intro i h
  have h' : i < ws.length := by simpa using h
  simp only [argD, IdxMap.d, hm, idxsFrom_getElem?, h', if_true, ok_bind, pure_ok, pySlice_eq]
  have := chunks_getElem? ws xs i
  rw [List.getElem?_eq_getElem h, if_pos h'] at this
  rw [Option.some.inj this, Nat.zero_add]

theorem rows_and {m : IdxMap} {a : ScanArg O} {b : ScanArg P} {r : List O} {t : List P}
    (ha : Rows m a r) (hb : Rows m b t) : Rows m (a.and b) (r.zip t) := by
  intro i h
  simp only [List.length_zip] at h
  simp only [ScanArg.and, ha i (by omega), hb i (by omega), ok_bind, pure_ok, List.getElem_zip]

/-- The specification of the scan loop: left fold over the rows. -/
def foldSpec (f : Option Y → IdxMap → O → Py Y) (m : IdxMap) : Option Y → List O → Py (List Y)
  | _, [] => .ok []
  | y, o :: os => do
    let y' ← f y m o
    let ys ← foldSpec f m (some y') os
    pure (y' :: ys)

theorem scanLoop_eq (f : Option Y → IdxMap → O → Py Y) (m : IdxMap) (arg : ScanArg O)
    (order : List Nat) (os : List O) (h : order.map (arg.get m) = os.map .ok) (y : Option Y) :
    scanLoop f m arg y order = foldSpec f m y os := by
  induction order generalizing os y with
  | nil => cases os <;> simp_all [scanLoop, foldSpec]
  | cons i order ih =>
    cases os with
    | nil => simp at h
    | cons o os =>
      simp only [List.map_cons, List.cons.injEq] at h
      simp only [scanLoop, foldSpec, h.1, ok_bind]
      congr 1
      funext y'
      rw [ih os h.2]

theorem rows_map {m : IdxMap} {arg : ScanArg O} {rows : List O} (h : Rows m arg rows) :
    (List.range rows.length).map (arg.get m) = rows.map .ok := by
  apply List.ext_getElem
  · simp
  · intro i h1 h2
    simp at h1
    simp [h i h1]

/-- The index map of a system with known joint types. -/
def theMap (E : Env α π) (ts : List String) : IdxMap :=
  ⟨idxsFrom 0 (ts.map (wOf E.qw)), idxsFrom 0 (ts.map (wOf E.dw))⟩

/-- All length checks of an argument pass. -/
def PiecesOk (E : Env α π) (s : System α π) (ps : List (InType × Nat)) : Prop :=
  ∀ x ∈ ps, x.2 = match x.1 with
    | .l => s.link_parents.length
    | .q => (s.link_types.map (wOf E.qw)).sum
    | .d => (s.link_types.map (wOf E.dw)).sum

theorem checkPieces_ok {E : Env α π} {s : System α π} (hk : E.Known s.link_types)
    {ps : List (InType × Nat)} (h : PiecesOk E s ps) : checkPieces E s ps = .ok () := by
  induction ps with
  | nil => rfl
  | cons x ps ih =>
    obtain ⟨t, B⟩ := x
    have h0 := h (t, B) (by simp)
    have ih := ih (fun y hy => h y (by simp [hy]))
    cases t
    · simp only [checkPieces, pure_ok, ok_bind, ih]
      rw [pyAssert_true (show B = s.num_links from h0)]; rfl
    · simp only [checkPieces, q_size, sumWidths_known (fun t ht => (hk t ht).1), ok_bind, ih]
      rw [pyAssert_true h0]; rfl
    · simp only [checkPieces, qd_size, sumWidths_known (fun t ht => (hk t ht).2), ok_bind, ih]
      rw [pyAssert_true h0]; rfl

theorem checkPieces_ok_iff {E : Env α π} {s : System α π} (hk : E.Known s.link_types)
    {ps : List (InType × Nat)} :
    checkPieces E s ps = .ok () ↔ PiecesOk E s ps := by
  refine ⟨?_, checkPieces_ok hk⟩
  induction ps with
  | nil => intro _ x hx; simp at hx
  | cons x ps ih =>
    obtain ⟨t, B⟩ := x
    intro h
    have key : ∀ r : Nat, (pyAssert (B = r) >>= fun _ => checkPieces E s ps) = .ok () →
        B = r ∧ PiecesOk E s ps := by
      intro r hr
      by_cases hB : B = r
      · rw [pyAssert_true hB] at hr
        exact ⟨hB, ih hr⟩
      · rw [pyAssert_false hB] at hr
        cases hr
    cases t
    · simp only [checkPieces, pure_ok, ok_bind] at h
      obtain ⟨h1, h2⟩ := key _ h
      intro x hx
      rcases List.mem_cons.1 hx with rfl | hx
      · exact h1
      · exact h2 x hx
    · simp only [checkPieces, q_size, sumWidths_known (fun t ht => (hk t ht).1), ok_bind] at h
      obtain ⟨h1, h2⟩ := key _ h
      intro x hx
      rcases List.mem_cons.1 hx with rfl | hx
      · exact h1
      · exact h2 x hx
    · simp only [checkPieces, qd_size, sumWidths_known (fun t ht => (hk t ht).2), ok_bind] at h
      obtain ⟨h1, h2⟩ := key _ h
      intro x hx
      rcases List.mem_cons.1 hx with rfl | hx
      · exact h1
      · exact h2 x hx

theorem scan_forward {E : Env α π} {s : System α π} (hk : E.Known s.link_types)
    (hl : s.link_types.length = s.link_parents.length)
    (f : Option Y → IdxMap → O → Py Y) {arg : ScanArg O} (hp : PiecesOk E s arg.pieces)
    {rows : List O} (hr : Rows (theMap E s.link_types) arg rows)
    (hn : rows.length = s.link_parents.length) :
    s.scan E f arg = foldSpec f (theMap E s.link_types) none rows := by
  unfold scan num_links
  rw [checkPieces_ok hk hp, List.take_of_length_le (by omega), buildIdxs_known hk]
  simp only [ok_bind, Bool.false_eq_true, if_false]
  rw [scanLoop_eq f _ arg _ rows (by rw [← hn]; exact rows_map hr)]
  show _ >>= _ = _
  cases h : foldSpec f (theMap E s.link_types) none rows <;> simp only [theMap] at h <;>
    simp only [h, ok_bind, error_bind, pure_ok]

theorem scan_reverse {E : Env α π} {s : System α π} (hk : E.Known s.link_types)
    (hl : s.link_types.length = s.link_parents.length)
    (f : Option Y → IdxMap → O → Py Y) {arg : ScanArg O} (hp : PiecesOk E s arg.pieces)
    {rows : List O} (hr : Rows (theMap E s.link_types) arg rows)
    (hn : rows.length = s.link_parents.length) :
    s.scan E f arg true =
      List.reverse <$> foldSpec f (theMap E s.link_types) none rows.reverse := by
  unfold scan num_links
  rw [checkPieces_ok hk hp, List.take_of_length_le (by omega), buildIdxs_known hk]
  simp only [ok_bind, if_true]
  rw [scanLoop_eq f _ arg _ rows.reverse
    (by rw [← hn, List.map_reverse, List.map_reverse]; exact congrArg _ (rows_map hr))]
  show _ >>= _ = _
  cases h : foldSpec f (theMap E s.link_types) none rows.reverse <;> simp only [theMap] at h <;>
    simp only [h, ok_bind, error_bind, pure_ok] <;> rfl

theorem foldSpec_pure (g : O → Y) (m : IdxMap) (y : Option Y) (os : List O) :
    foldSpec (fun _ _ o => pure (g o)) m y os = .ok (os.map g) := by
  induction os generalizing y with
  | nil => rfl
  | cons o os ih => simp only [foldSpec, pure_ok, ok_bind] at *; simp only [ih, ok_bind, List.map_cons]

/-- A scan whose callback does not look at the previous result. -/
theorem scan_pure {E : Env α π} {s : System α π} (hk : E.Known s.link_types)
    (hl : s.link_types.length = s.link_parents.length)
    (g : O → Y) {arg : ScanArg O} (hp : PiecesOk E s arg.pieces)
    {rows : List O} (hr : Rows (theMap E s.link_types) arg rows)
    (hn : rows.length = s.link_parents.length) :
    s.scan E (fun _ _ o => pure (g o)) arg = .ok (rows.map g) := by
  rw [scan_forward hk hl _ hp hr hn, foldSpec_pure]

/-- A scan used for its checks only. -/
theorem foldSpec_unit_ok (g : O → Py Unit) (m : IdxMap) (y : Option Unit) (os : List O) :
    (∃ r, foldSpec (fun _ _ o => g o) m y os = .ok r) ↔ ∀ o ∈ os, g o = .ok () := by
  induction os generalizing y with
  | nil => simp [foldSpec]
  | cons o os ih =>
    simp only [foldSpec, List.mem_cons, forall_eq_or_imp]
    cases hg : g o with
    | error e => simp [error_bind]
    | ok u =>
      cases u
      simp only [ok_bind, pure_ok, true_and, ← ih (some ())]
      cases foldSpec (fun _ _ o => g o) m (some ()) os <;> simp [ok_bind, error_bind]

end System
end RingLib
