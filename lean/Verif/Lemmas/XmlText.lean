import Verif.Model.Xml
import Verif.Props.Pipeline
import Verif.Props.InvKin

/-! Reading back the texts of numbers and attributes. -/

namespace RingLib
namespace io
open System
variable {α π K V W : Type}

/-! ## specification: what can be written and read back -/

/-- the text of the number contains no space and is read as that number -/
def Printable (T : Txt α) (x : α) : Prop := T.num (T.fmt x) = some x ∧ ' ' ∉ (T.fmt x).toList

/-- a text that is not a list of numbers -/
def IsText (T : Txt α) (s : String) : Prop := (pySplit s).mapM T.num = none

theorem splitSp_word {w : List Char} (h : ' ' ∉ w) : splitSp w = [w] := by
  induction w with
  | nil => rfl
  | cons c cs ih =>
    simp only [List.mem_cons, not_or] at h
    rw [splitSp, if_neg (fun e => h.1 e.symm), ih h.2]

theorem splitSp_append {w : List Char} (h : ' ' ∉ w) (rest : List Char) :
    splitSp (w ++ ' ' :: rest) = w :: splitSp rest := by
  induction w with
  | nil => simp [splitSp]
  | cons c cs ih =>
    simp only [List.mem_cons, not_or] at h
    rw [List.cons_append, splitSp, if_neg (fun e => h.1 e.symm), ih h.2]

theorem splitSp_joinSp : ∀ {ws : List (List Char)}, ws ≠ [] → (∀ w ∈ ws, ' ' ∉ w) →
    splitSp (joinSp ws) = ws
  | [], h, _ => absurd rfl h
  | [w], _, h => splitSp_word (h w (by simp))
  | w :: w' :: ws, _, h => by
    rw [joinSp, splitSp_append (h w (by simp)), splitSp_joinSp (by simp)
      (fun v hv => h v (List.mem_cons_of_mem _ hv))]
    simp

/-- an array as attribute -/
def AVal.ofList : List α → AVal α
  | [x] => .scalar x
  | l => .arr l

theorem toAVal_strOfArr {T : Txt α} {l : List α} (hl : l ≠ []) (h : ∀ x ∈ l, Printable T x) :
    toAVal T (strOfArr T l) = AVal.ofList l := by
  have hs : pySplit (strOfArr T l) = l.map T.fmt := by
    unfold pySplit strOfArr
    rw [String.toList_ofList, splitSp_joinSp (by simpa using hl)]
    · rw [List.map_map]
      apply List.map_congr_left
      intro x _
      simp
    · intro w hw
      obtain ⟨x, hx, rfl⟩ := List.mem_map.1 hw
      exact (h x hx).2
  have hm : (l.map T.fmt).mapM T.num = some l := by
    clear hs hl
    induction l with
    | nil => rfl
    | cons x xs ih =>
      rw [List.map_cons, List.mapM_cons, (h x (by simp)).1, ih fun y hy => h y (by simp [hy])]
      rfl
  unfold toAVal
  rw [hs, hm]
  match l, hl with
  | [x], _ => rfl
  | x :: y :: zs, _ => rfl

theorem toAVal_fmt {T : Txt α} {x : α} (h : Printable T x) : toAVal T (T.fmt x) = .scalar x := by
  have := toAVal_strOfArr (T := T) (l := [x]) (by simp) (by simpa using h)
  simpa [strOfArr, joinSp, AVal.ofList] using this

theorem toAVal_text {T : Txt α} {s : String} (h : IsText T s) : toAVal T s = .str s := by
  unfold toAVal
  rw [show (pySplit s).mapM T.num = none from h]

theorem toAVal_single {T : Txt α} {s : String} {x : α} (hs : ' ' ∉ s.toList) (h : T.num s = some x) :
    toAVal T s = .scalar x := by
  unfold toAVal pySplit
  rw [splitSp_word hs]
  simp [h]

/-! ## attributes -/

section
variable [Field α] [DecidableEq α]

/-- converted attributes -/
def conv (T : Txt α) (d : Dict String) : Dict (AVal α) := d.map fun x => (x.1, toAVal T x.2)

theorem lookup_conv (T : Txt α) (d : Dict String) (k : String) :
    List.lookup k (conv T d) = (List.lookup k d).map (toAVal T) := Dict.lookup_mapVals (toAVal T) d k

theorem keys_conv (T : Txt α) (d : Dict String) : Dict.keys (conv T d) = Dict.keys d :=
  Dict.keys_mapVals (toAVal T) d

theorem lookup_setUnless {β : Type} [DecidableEq β] (d : Dict String) (key : String) (x default : β)
    (text : String) (k : String) :
    List.lookup k (setUnless d key x default text) =
      if k = key ∧ x ≠ default then some text else List.lookup k d := by
  unfold setUnless
  by_cases h : x = default
  · simp [h]
  · rw [if_neg h, Dict.lookup_set]
    simp [h]

theorem lookup_setSome (d : Dict String) (key : String) (o : Option String) (k : String) :
    List.lookup k (setSome d key o) = if k = key ∧ o.isSome then o else List.lookup k d := by
  cases o with
  | none => simp [setSome]
  | some s => simp [setSome, Dict.lookup_set]

theorem mem_keys_set {β : Type} {d : Dict β} {k x : String} {v : β} :
    x ∈ Dict.keys (d.set k v) ↔ x = k ∨ x ∈ d.keys := by
  rw [Dict.lookup_isSome, Dict.lookup_isSome, Dict.lookup_set]
  by_cases h : x = k <;> simp [h]

end
end io
end RingLib
