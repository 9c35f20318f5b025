import Verif.Model.Kinematics
import Verif.Lemmas.Scan
import Verif.Lemmas.Desc
import Verif.Lemmas.Algebra
import Verif.Props.System

namespace RingLib
open System

variable {α π : Type} {O Y σ : Type}

/-- specification of a stateful scan: a left fold -/
def foldState (f : σ → IdxMap → O → Py (Y × σ)) (m : IdxMap) : σ → List O → Py (List Y × σ)
  | st, [] => .ok ([], st)
  | st, o :: os => do
    let (y, st') ← f st m o
    let (ys, st'') ← foldState f m st' os
    pure (y :: ys, st'')

theorem foldSpec_state (f : σ → IdxMap → O → Py (Y × σ)) (m : IdxMap) (init : σ)
    (y : Option (Y × σ)) (os : List O) :
    (foldSpec (fun y m o => f (match y with
      | none => init
      | some y => y.2) m o) m y os) >>= (fun ys => .ok (ys.map (·.1), match ys.getLast? with
        | none => (match y with
          | none => init
          | some y => y.2)
        | some y => y.2)) =
    foldState f m (match y with
      | none => init
      | some y => y.2) os := by
  induction os generalizing y with
  | nil => rfl
  | cons o os ih =>
    simp only [foldSpec, foldState]
    generalize (match y with
      | none => init
      | some y => y.2) = st
    cases hf : f st m o with
    | error e => rfl
    | ok r =>
      obtain ⟨y1, st1⟩ := r
      have := ih (some (y1, st1))
      simp only [ok_bind] at this ⊢
      rw [← this]
      cases hfs : foldSpec (fun y m o => f (match y with
          | none => init
          | some y => y.2) m o) m (some (y1, st1)) os with
      | error e => rfl
      | ok ys =>
        simp only [ok_bind, pure_ok, List.map_cons, List.getLast?_cons]
        cases ys.getLast? <;> rfl

theorem scanState_forward {E : Env α π} {s : System α π} (hk : E.Known s.link_types)
    (hl : s.link_types.length = s.link_parents.length)
    (f : σ → IdxMap → O → Py (Y × σ)) (init : σ) {arg : ScanArg O}
    (hp : PiecesOk E s arg.pieces) {rows : List O}
    (hr : Rows (theMap E s.link_types) arg rows) (hn : rows.length = s.link_parents.length) :
    s.scanState E f init arg = foldState f (theMap E s.link_types) init rows := by
  unfold scanState
  rw [scan_forward hk hl _ hp hr hn]
  exact foldSpec_state f _ init none rows

theorem scanState_reverse {E : Env α π} {s : System α π} (hk : E.Known s.link_types)
    (hl : s.link_types.length = s.link_parents.length)
    (f : σ → IdxMap → O → Py (Y × σ)) (init : σ) {arg : ScanArg O}
    (hp : PiecesOk E s arg.pieces) {rows : List O}
    (hr : Rows (theMap E s.link_types) arg rows) (hn : rows.length = s.link_parents.length) :
    s.scanState E f init arg true =
      foldState f (theMap E s.link_types) init rows.reverse >>= fun r =>
        .ok (r.1.reverse, r.2) := by
  unfold scanState
  rw [scan_reverse hk hl _ hp hr hn]
  have := foldSpec_state f (theMap E s.link_types) init none rows.reverse
  simp only at this
  rw [← this]
  cases foldSpec (fun y m o => f (match y with
      | none => init
      | some y => y.2) m o) (theMap E s.link_types) none rows.reverse with
  | error e => rfl
  | ok ys =>
    show Except.ok (List.map (·.1) ys.reverse, match ys.reverse.head? with
      | none => init
      | some y => y.2) = _
    rw [List.head?_reverse, List.map_reverse]
    rfl

/-- a stateful fold that follows a known sequence of states -/
theorem foldState_inv {f : σ → IdxMap → O → Py (Y × σ)} {m : IdxMap} {rows : List O}
    (D : Nat → σ) (outs : List Y) (hlen : outs.length = rows.length)
    (h : ∀ i (hi : i < rows.length), f (D i) m rows[i] = .ok (outs[i], D (i + 1))) :
    foldState f m (D 0) rows = .ok (outs, D rows.length) := by
  induction rows generalizing D outs with
  | nil =>
    obtain rfl : outs = [] := by simpa using hlen
    rfl
  | cons o os ih =>
    cases outs with
    | nil => simp at hlen
    | cons y ys =>
      simp only [foldState]
      rw [show f (D 0) m o = .ok (y, D 1) from h 0 (by simp)]
      simp only [ok_bind]
      rw [ih (fun i => D (i + 1)) ys (by simpa using hlen)
        (fun i hi => h (i + 1) (by simpa using hi))]
      rfl

theorem scanState_forward_inv {E : Env α π} {s : System α π} (hk : E.Known s.link_types)
    (hl : s.link_types.length = s.link_parents.length)
    (f : σ → IdxMap → O → Py (Y × σ)) {arg : ScanArg O}
    (hp : PiecesOk E s arg.pieces) {rows : List O}
    (hr : Rows (theMap E s.link_types) arg rows) (hn : rows.length = s.link_parents.length)
    (D : Nat → σ) (outs : List Y) (hlen : outs.length = s.link_parents.length)
    (h : ∀ i (hi : i < s.link_parents.length),
      f (D i) (theMap E s.link_types) (rows[i]'(hn ▸ hi)) =
      .ok (outs[i]'(hlen ▸ hi), D (i + 1))) :
    s.scanState E f (D 0) arg = .ok (outs, D s.link_parents.length) := by
  rw [scanState_forward hk hl f _ hp hr hn,
    foldState_inv D outs (hlen.trans hn.symm) (fun i hi => h i (hn ▸ hi)), hn]

theorem scanState_reverse_inv {E : Env α π} {s : System α π} (hk : E.Known s.link_types)
    (hl : s.link_types.length = s.link_parents.length)
    (f : σ → IdxMap → O → Py (Y × σ)) {arg : ScanArg O}
    (hp : PiecesOk E s arg.pieces) {rows : List O}
    (hr : Rows (theMap E s.link_types) arg rows) (hn : rows.length = s.link_parents.length)
    (D : Nat → σ) (outs : List Y) (hlen : outs.length = s.link_parents.length)
    (h : ∀ i (hi : i < s.link_parents.length),
      f (D (i + 1)) (theMap E s.link_types) (rows[i]'(hn ▸ hi)) =
      .ok (outs[i]'(hlen ▸ hi), D i)) :
    s.scanState E f (D s.link_parents.length) arg true = .ok (outs, D 0) := by
  rw [scanState_reverse hk hl f _ hp hr hn]
  have := foldState_inv (f := f) (m := theMap E s.link_types) (rows := rows.reverse)
    (fun j => D (rows.length - j)) outs.reverse (by simp [hlen, hn]) (by
      intro i hi
      simp only [List.length_reverse] at hi
      rw [List.getElem_reverse, List.getElem_reverse]
      have := h (rows.length - 1 - i) (by omega)
      rw [show rows.length - 1 - i + 1 = rows.length - i by omega] at this
      rw [this]
      congr 3
      · congr 1; omega
      · omega)
  simp only [Nat.sub_zero, List.length_reverse, Nat.sub_self] at this
  rw [← hn, this]
  simp only [ok_bind, List.reverse_reverse]

/-- value of the parent -/
def parentVal {T : Type} (root : T) (X : Nat → T) (p : Int) : T :=
  if 0 ≤ p then X p.toNat else root

/-- A value per link, computed from the value of the parent (with fuel). -/
def treeValAux {T : Type} (parents : List Int) (root : T) (g : Nat → T → T) : Nat → Nat → T
  | 0, i => g i root
  | k + 1, i => g i (parentVal root (treeValAux parents root g k) (parents.getD i (-1)))

/-- A value per link, computed from the value of the parent. -/
def treeVal {T : Type} (parents : List Int) (root : T) (g : Nat → T → T) (i : Nat) : T :=
  treeValAux parents root g i i

theorem treeValAux_fuel {T : Type} {parents : List Int} (ht : Topological parents) (root : T)
    (g : Nat → T → T) (k : Nat) : ∀ i, i < parents.length → i ≤ k →
      treeValAux parents root g k i = treeVal parents root g i := by
  induction k using Nat.strong_induction_on with
  | _ k ih =>
    intro i hi hk
    unfold treeVal
    have h2 := (ht i hi).2
    have hd : parents.getD i (-1) = parents[i] := by
      simp [List.getD_eq_getElem?_getD, List.getElem?_eq_getElem hi]
    cases k with
    | zero => obtain rfl : i = 0 := by omega
              rfl
    | succ k =>
      cases i with
      | zero =>
        simp only [treeValAux]
        rw [hd]
        unfold parentVal
        rw [if_neg (by omega)]
      | succ i =>
        simp only [treeValAux]
        rw [hd]
        unfold parentVal
        by_cases h0 : 0 ≤ parents[i + 1]
        · rw [if_pos h0, if_pos h0, ih k (by omega) _ (by omega) (by omega)]
          rw [ih i (by omega) _ (by omega) (by omega)]
        · rw [if_neg h0, if_neg h0]

theorem treeVal_eq {T : Type} {parents : List Int} (ht : Topological parents) (root : T)
    (g : Nat → T → T) (i : Nat) (hi : i < parents.length) :
    treeVal parents root g i = g i (parentVal root (treeVal parents root g) parents[i]) := by
  have h2 := (ht i hi).2
  have hd : parents.getD i (-1) = parents[i] := by
    simp [List.getD_eq_getElem?_getD, List.getElem?_eq_getElem hi]
  rw [← treeValAux_fuel ht root g (i + 1) i hi (by omega)]
  simp only [treeValAux]
  rw [hd]
  unfold parentVal
  by_cases h0 : 0 ≤ parents[i]
  · rw [if_pos h0, if_pos h0, treeValAux_fuel ht root g i _ (by omega) (by omega)]
  · rw [if_neg h0, if_neg h0]

/-- the dictionary of the values of the first `i` links and of the world -/
def dictUpTo {T : Type} (root : T) (X : Nat → T) (i : Nat) : Int → Option T :=
  fun k => if k = -1 then some root else if 0 ≤ k ∧ k < i then some (X k.toNat) else none

theorem dictUpTo_zero {T : Type} (root : T) (X : Nat → T) :
    dictUpTo root X 0 = dictSet (fun _ => none) (-1) root := by
  funext k
  unfold dictUpTo dictSet
  split
  · rfl
  · rw [if_neg (by omega)]

theorem dictUpTo_succ {T : Type} (root : T) (X : Nat → T) (i : Nat) :
    dictSet (dictUpTo root X i) i (X i) = dictUpTo root X (i + 1) := by
  funext k
  unfold dictUpTo dictSet
  by_cases h : k = i
  · subst h
    rw [if_pos rfl, if_neg (by omega), if_pos (by omega), Int.toNat_natCast]
  · rw [if_neg h]
    dsimp only
    split
    · rfl
    · by_cases h2 : 0 ≤ k ∧ k < i
      · rw [if_pos h2, if_pos (by omega)]
      · rw [if_neg h2, if_neg (by omega)]

theorem dictUpTo_get {T : Type} {parents : List Int} (ht : Topological parents) (root : T)
    (X : Nat → T) (i : Nat) (hi : i < parents.length) :
    dictGet (dictUpTo root X i) parents[i] = .ok (parentVal root X parents[i]) := by
  obtain ⟨h1, h2⟩ := ht i hi
  unfold dictGet dictUpTo parentVal
  by_cases h : parents[i] = -1
  · rw [if_pos h, if_neg (by omega)]
  · rw [if_neg h, if_pos (by omega), if_pos (by omega)]

/-- a scan which does not look at the previous result -/
theorem foldSpec_inv {g : O → Py Y} {m : IdxMap} {rows : List O} (y : Option Y) (outs : List Y)
    (hlen : outs.length = rows.length)
    (h : ∀ i (hi : i < rows.length), g rows[i] = .ok outs[i]) :
    foldSpec (fun _ _ o => g o) m y rows = .ok outs := by
  induction rows generalizing y outs with
  | nil =>
    obtain rfl : outs = [] := by simpa using hlen
    rfl
  | cons o os ih =>
    cases outs with
    | nil => simp at hlen
    | cons y ys =>
      simp only [foldSpec]
      rw [show g o = .ok y from h 0 (by simp)]
      simp only [ok_bind]
      rw [ih _ ys (by simpa using hlen) (fun i hi => h (i + 1) (by simpa using hi))]
      rfl

theorem scan_inv {E : Env α π} {s : System α π} (hk : E.Known s.link_types)
    (hl : s.link_types.length = s.link_parents.length)
    {g : O → Py Y} {arg : ScanArg O} (hp : PiecesOk E s arg.pieces)
    {rows : List O} (hr : Rows (theMap E s.link_types) arg rows)
    (hn : rows.length = s.link_parents.length) (outs : List Y)
    (hlen : outs.length = s.link_parents.length)
    (h : ∀ i (hi : i < s.link_parents.length), g (rows[i]'(hn ▸ hi)) = .ok (outs[i]'(hlen ▸ hi))) :
    s.scan E (fun _ _ o => g o) arg = .ok outs := by
  rw [scan_forward hk hl _ hp hr hn,
    foldSpec_inv none outs (hlen.trans hn.symm) (fun i hi => h i (hn ▸ hi))]

theorem foldSpec_error {g : O → Py Y} {m : IdxMap} {rows : List O} (y : Option Y) (e : PyErr)
    (hok : ∀ o ∈ rows, ∀ e', g o = .error e' → e' = e)
    (h : ∃ o ∈ rows, g o = .error e) :
    foldSpec (fun _ _ o => g o) m y rows = .error e := by
  induction rows generalizing y with
  | nil => obtain ⟨o, ho, _⟩ := h; simp at ho
  | cons o os ih =>
    simp only [foldSpec]
    cases hg : g o with
    | error e' => rw [hok o (by simp) e' hg]; rfl
    | ok r =>
      simp only [ok_bind]
      rw [ih _ (fun o ho => hok o (by simp [ho])) (by
        obtain ⟨o', ho', h'⟩ := h
        rcases List.mem_cons.1 ho' with rfl | ho'
        · rw [hg] at h'; cases h'
        · exact ⟨o', ho', h'⟩)]
      rfl

/-! parameters of links -/

theorem linkRows_length (s : System α π) : s.linkRows.length = s.links.length := by
  simp [linkRows]

theorem linkRows_getElem (s : System α π) (i : Nat) (h : i < s.linkRows.length) :
    s.linkRows[i] = (s.links[i]'(by simpa [linkRows] using h), s.paramsAt i) := by
  simp [linkRows]

end RingLib
