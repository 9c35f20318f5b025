import Verif.Model.PdControl
import Verif.Props.Simulation
import Verif.Props.InvKin
import Verif.Props.Dict
import Verif.Props.Delete

/-! # C62: P-control references reach the right joints -/

namespace RingLib
namespace System
variable {π : Type} {E : JEnv ℝ π} {s sref : System ℝ π}

/-! ### writing one piece of a flat array -/

theorem setSlice_flatten (L : List (List ℝ)) (i : Nat) (hi : i < L.length) (v : List ℝ)
    (hv : v.length = L[i].length) :
    setSlice L.flatten (((L.take i).map List.length).sum,
      ((L.take i).map List.length).sum + L[i].length) v = .ok (L.set i v).flatten := by
  unfold setSlice
  rw [if_pos (by simp [hv])]
  have e : L = L.take i ++ L[i] :: L.drop (i + 1) := by simp
  have hs : (L.set i v) = L.take i ++ v :: L.drop (i + 1) := by
    rw [List.set_eq_take_append_cons_drop, if_pos hi]
  have hl : (L.take i).flatten.length = ((L.take i).map List.length).sum := List.length_flatten ..
  have ef : L.flatten = (L.take i).flatten ++ (L[i] ++ (L.drop (i + 1)).flatten) :=
    (congrArg List.flatten e).trans (by rw [List.flatten_append, List.flatten_cons])
  have h1 : L.flatten.take ((L.take i).map List.length).sum = (L.take i).flatten := by
    rw [ef, ← hl, List.take_left]
  have h2 : L.flatten.drop (((L.take i).map List.length).sum + L[i].length) =
      (L.drop (i + 1)).flatten := by
    rw [ef, ← List.append_assoc, ← hl, ← List.length_append, List.drop_left]
  rw [h1, h2, hs]
  simp

theorem ownSlice_flatten {w : String → Option Nat} {types : List String} {L : List (List ℝ)}
    (hL : L.map List.length = types.map (wOf w)) {i : Nat} (hi : i < L.length) :
    ownSlice w types L.flatten i = L[i] := by
  have hi' : i < types.length := by
    have := congrArg List.length hL
    simp at this; omega
  have e := ownSlice_eq w types L.flatten i hi'
  rw [← hL, chunks_of_flatten, List.getElem?_eq_getElem hi] at e
  exact (Option.some.inj e).symm

theorem map_d (ts : List String) (E : JEnv ℝ π) {i : Nat} (hi : i < ts.length) :
    (theMap E.toEnv ts).d i = .ok (((ts.map (wOf E.dw)).take i).sum,
      ((ts.map (wOf E.dw)).take i).sum + wOf E.dw ts[i]) := by
  simp only [IdxMap.d, theMap, idxsFrom_getElem?, List.length_map, hi, if_true, Nat.zero_add]
  simp [hi]

/-- writing the piece of link `i` through the slice of the scan -/
theorem setSlice_own {w : String → Option Nat} {types : List String} {L : List (List ℝ)}
    (hL : L.map List.length = types.map (wOf w)) {i : Nat} (hi : i < types.length) (v : List ℝ)
    (hv : v.length = wOf w types[i]) :
    setSlice L.flatten (((types.map (wOf w)).take i).sum,
      ((types.map (wOf w)).take i).sum + wOf w types[i]) v = .ok (L.set i v).flatten := by
  have hlen : L.length = types.length := by simpa using congrArg List.length hL
  have hw : L[i].length = wOf w types[i] := by
    have := congrArg (fun l : List Nat => l[i]?) hL
    simpa [hi, hlen] using this
  have := setSlice_flatten L i (by omega) v (hv.trans hw.symm)
  rw [List.map_take, hL, hw] at this
  exact this

/-! ### the controller -/

/-- What the P(D)-controller needs: reference system `sref`, simulated system `s`. -/
structure PdOk (E : JEnv ℝ π) (qd_from_q : String → Option (List (List ℝ) → ℝ → List (List ℝ)))
    (s sref : System ℝ π) (q_ref : List (List ℝ)) (P : List ℝ) (D : Option (List ℝ)) : Prop where
  sys : s.Consistent E.toEnv
  ref : sref.Consistent E.toEnv
  nonempty : q_ref ≠ []
  rows : ∀ row ∈ q_ref, row.length = (sref.link_types.map (wOf E.qw)).sum
  P_len : P.length = (sref.link_types.map (wOf E.dw)).sum
  D_len : ∀ Dg ∈ D, Dg.length = (sref.link_types.map (wOf E.dw)).sum
  /-- links of the same name have the same joint type -/
  same : ∀ (i j : Nat) (n : String), s.link_names[i]? = some n → sref.link_names[j]? = some n →
    s.link_types[i]? = sref.link_types[j]?
  term : ∀ t ∈ sref.link_types, ∃ jm f, E.joints t = some jm ∧ jm.p_control_term = some f ∧
    ∀ q r : List ℝ, q.length = wOf E.qw t → r.length = wOf E.qw t → (f q r).length = wOf E.dw t
  vel : D ≠ none → ∀ t ∈ sref.link_types, ∃ g, qd_from_q t = some g ∧
    ∀ qs : List (List ℝ), qs ≠ [] → (∀ q ∈ qs, q.length = wOf E.qw t) →
      g qs sref.dt ≠ [] ∧ ∀ v ∈ g qs sref.dt, v.length = wOf E.dw t

/-- The columns of the reference trajectory which belong to link `j`. -/
def refOf (E : JEnv ℝ π) (sref : System ℝ π) (q_ref : List (List ℝ)) (j : Nat) : List (List ℝ) :=
  q_ref.map fun row => ownSlice E.qw sref.link_types row j

/-- The entry of a time series at time `k`; the last entry is held. -/
def held (rows : List (List ℝ)) (k : Nat) : List ℝ := rows.getD (min k (rows.length - 1)) []

/-- The torque at link `i` of the simulated system at time `k`: zero if there is no reference link of
that name, otherwise gain times the control error towards the columns of the reference trajectory
that belong to the link of that name, plus the derivative term if there are derivative gains. -/
structure DrivenBy (E : JEnv ℝ π) (qd_from_q : String → Option (List (List ℝ) → ℝ → List (List ℝ)))
    (s sref : System ℝ π) (q_ref : List (List ℝ)) (P : List ℝ) (D : Option (List ℝ)) (k : Nat)
    (q qd taus : List ℝ) : Prop where
  length : taus.length = (s.link_types.map (wOf E.dw)).sum
  unreferenced : ∀ (i : Nat) (n t : String), s.link_names[i]? = some n → s.link_types[i]? = some t →
    n ∉ sref.link_names → ownSlice E.dw s.link_types taus i = List.replicate (wOf E.dw t) 0
  p_control : D = none → ∀ (i j : Nat) (n t : String) jm f, s.link_names[i]? = some n →
    s.link_types[i]? = some t → sref.link_names[j]? = some n →
    E.joints t = some jm → jm.p_control_term = some f →
    ownSlice E.dw s.link_types taus i = List.zipWith (· * ·)
      (f (ownSlice E.qw s.link_types q i) (held (refOf E sref q_ref j) k))
      (ownSlice E.dw sref.link_types P j)
  pd_control : ∀ Dg, D = some Dg → ∀ (i j : Nat) (n t : String) jm f g, s.link_names[i]? = some n →
    s.link_types[i]? = some t → sref.link_names[j]? = some n →
    E.joints t = some jm → jm.p_control_term = some f → qd_from_q t = some g →
    ownSlice E.dw s.link_types taus i = List.zipWith (· + ·)
      (List.zipWith (· * ·)
        (f (ownSlice E.qw s.link_types q i) (held (refOf E sref q_ref j) k))
        (ownSlice E.dw sref.link_types P j))
      (List.zipWith (· * ·)
        (List.zipWith (· - ·) (held (g (refOf E sref q_ref j) sref.dt) k)
          (ownSlice E.dw s.link_types qd i))
        (ownSlice E.dw sref.link_types Dg j))

/-- the dictionary from the first `n` names to the given values -/
def nameDict {β : Type} (names : List String) (F : Nat → β) (n : Nat) : Dict β :=
  (List.range n).map fun j => (names.getD j "", F j)

theorem nameDict_keys {β : Type} (names : List String) (F : Nat → β) {n : Nat}
    (h : n ≤ names.length) : (nameDict names F n).keys = names.take n := by
  unfold nameDict Dict.keys
  rw [List.map_map]
  apply List.ext_getElem
  · simp [h]
  · intro i h1 h2
    simp at h1
    simp [show i < names.length by omega]

theorem nameDict_succ {β : Type} {names : List String} (hn : names.Nodup) (F : Nat → β) {n : Nat}
    (h : n < names.length) : (nameDict names F n).set names[n] (F n) = nameDict names F (n + 1) := by
  unfold Dict.set
  rw [if_neg]
  · simp [nameDict, List.range_succ, h]
  · rw [nameDict_keys _ _ (by omega)]
    intro hm
    obtain ⟨i, hi, e⟩ := List.getElem_of_mem hm
    simp only [List.length_take] at hi
    rw [List.getElem_take] at e
    have := (hn.getElem_inj_iff).1 e
    omega

theorem nameDict_lookup {β : Type} {names : List String} (hn : names.Nodup) (F : Nat → β)
    {j : Nat} {x : String} (h : names[j]? = some x) :
    List.lookup x (nameDict names F names.length) = some (F j) := by
  obtain ⟨hj, rfl⟩ := List.getElem?_eq_some_iff.1 h
  apply Dict.lookup_of_mem
  · rw [nameDict_keys _ _ le_rfl]; simpa using hn
  · unfold nameDict
    rw [List.mem_map]
    exact ⟨j, by simpa using hj, by simp [hj]⟩

theorem mapDict_ok {β γ : Type} {f : β → Py γ} {g : Nat → γ} {names : List String} {F : Nat → β}
    {n : Nat} (h : ∀ j < n, f (F j) = .ok (g j)) :
    mapDict f (nameDict names F n) = .ok (nameDict names g n) := by
  induction n with
  | zero => rfl
  | succ n ih =>
    have ih := ih fun j hj => h j (by omega)
    unfold mapDict nameDict at *
    rw [List.range_succ, List.map_append, List.map_append, List.mapM_append, ih]
    simp only [ok_bind, List.map_cons, List.map_nil, List.mapM_cons, List.mapM_nil, h n (by omega),
      pure_ok]

theorem dynIndex_held {rows : List (List ℝ)} (h : rows ≠ []) (k : Nat) :
    dynIndex rows k = .ok (held rows k) := by
  cases rows with
  | nil => exact absurd rfl h
  | cons a l => rfl

theorem held_mem {rows : List (List ℝ)} (h : rows ≠ []) (k : Nat) : held rows k ∈ rows := by
  unfold held
  have : min k (rows.length - 1) < rows.length := by
    have := List.length_pos_iff.2 h
    omega
  rw [List.getD, List.getElem?_eq_getElem this, Option.getD_some]
  exact List.getElem_mem _

theorem rows_argQT {ws : List Nat} {m : IdxMap} (hm : m.q_idxs = idxsFrom 0 ws)
    (rows : List (List ℝ)) :
    Rows m (argQT rows) ((List.range ws.length).map fun j =>
      rows.map fun row => (chunks ws row).getD j []) := by
  intro i h
  simp only [List.length_map, List.length_range] at h
  simp only [argQT, IdxMap.q, hm, idxsFrom_getElem?, h, if_true, ok_bind, pure_ok, pySlice_eq,
    List.getElem_map, List.getElem_range]
  congr 2
  funext row
  have := chunks_getElem? ws row i
  rw [if_pos h] at this
  rw [show (chunks ws row).getD i [] = ((chunks ws row)[i]?).getD [] by simp [List.getD], this,
    Option.getD_some, Nat.zero_add]

/-- the controller state after `n` links of the scan in `init` -/
def initAfter (E : JEnv ℝ π) (qd_from_q : String → Option (List (List ℝ) → ℝ → List (List ℝ)))
    (sref : System ℝ π) (q_ref : List (List ℝ)) (P : List ℝ) (D : Option (List ℝ)) (k n : Nat) :
    PDControllerState where
  i := k
  q_ref_as_dict := nameDict sref.link_names (refOf E sref q_ref) n
  qd_ref_as_dict := match D with
    | none => []
    | some _ => nameDict sref.link_names (fun j =>
        match qd_from_q (sref.link_types.getD j "") with
        | some g => g (refOf E sref q_ref j) sref.dt
        | none => []) n
  P_gains := nameDict sref.link_names (fun j => ownSlice E.dw sref.link_types P j) n
  D_gains := match D with
    | none => []
    | some Dg => nameDict sref.link_names (fun j => ownSlice E.dw sref.link_types Dg j) n

theorem init_ok {qd_from_q : String → Option (List (List ℝ) → ℝ → List (List ℝ))}
    {q_ref : List (List ℝ)} {P : List ℝ} {D : Option (List ℝ)}
    (h : PdOk E qd_from_q s sref q_ref P D) :
    pd_control_init E qd_from_q P D sref q_ref =
      .ok (initAfter E qd_from_q sref q_ref P D 0 sref.link_names.length) := by
  have hc := h.ref
  have hk := hc.known
  have hn : ncols q_ref = (sref.link_types.map (wOf E.qw)).sum := by
    unfold ncols
    obtain ⟨a, l, e⟩ := List.exists_cons_of_ne_nil h.nonempty
    rw [e]
    exact h.rows a (by simp [e])
  have hcol : ∀ j < sref.link_types.length,
      (q_ref.map fun row => (chunks (sref.link_types.map (wOf E.qw)) row).getD j []) =
        refOf E sref q_ref j := by
    intro j hj
    apply List.map_congr_left
    intro row _
    rw [List.getD, ownSlice_eq E.qw sref.link_types row j hj]
    rfl
  unfold pd_control_init
  simp only [q_size, qd_size, sumWidths_known (fun t ht => (hk t ht).1),
    sumWidths_known (fun t ht => (hk t ht).2), ok_bind]
  rw [pyAssert_true (p := _) hn.symm]
  simp only [ok_bind]
  rw [pyAssert_true (p := _) h.P_len.symm]
  simp only [ok_bind]
  have hDl : (D.getD (List.replicate (sref.link_types.map (wOf E.dw)).sum 0)).length =
      (sref.link_types.map (wOf E.dw)).sum := by
    cases D with
    | none => simp
    | some Dg => exact h.D_len Dg rfl
  have key := scanState_forward_inv (E := E.toEnv) (s := sref) hk hc.types_len
    (f := fun cs _ a => pdInitLink E qd_from_q D.isSome sref.dt cs a)
    (arg := (argQT q_ref).and <| (argL sref.link_names).and <| (argL sref.link_types).and <|
      (argD P).and (argD (D.getD (List.replicate (sref.link_types.map (wOf E.dw)).sum 0))))
    (by
      intro x hx
      simp only [ScanArg.and, argL, argQT, argD, List.mem_append, List.mem_cons, List.not_mem_nil,
        or_false] at hx
      rcases hx with rfl | rfl | rfl | rfl | rfl
      · exact hn
      · exact hc.names_len
      · exact hc.types_len
      · exact h.P_len
      · exact hDl)
    (rows_and (rows_argQT rfl q_ref) (rows_and (rows_argL _ _) (rows_and (rows_argL _ _)
      (rows_and (rows_argD rfl _) (rows_argD rfl _)))))
    (by simp [hc.types_len, hc.names_len])
    (fun n => initAfter E qd_from_q sref q_ref P D 0 n)
    (List.replicate sref.link_parents.length ()) (by simp)
    (by
      intro i hi
      have hi1 : i < sref.link_names.length := by rw [hc.names_len]; exact hi
      have hi2 : i < sref.link_types.length := by rw [hc.types_len]; exact hi
      simp only [List.getElem_zip, List.getElem_map, List.getElem_range, chunks_row,
        List.getElem_replicate, hcol i hi2]
      unfold pdInitLink
      cases D with
      | none =>
        simp only [Option.isSome_none, Bool.false_eq_true, if_false, pure_ok, initAfter]
        rw [nameDict_succ hc.names_nodup (refOf E sref q_ref) hi1,
          nameDict_succ hc.names_nodup (fun j => ownSlice E.dw sref.link_types P j) hi1]
      | some Dg =>
        obtain ⟨jm, f, hj, _⟩ := h.term _ (List.getElem_mem hi2)
        obtain ⟨g, hg, _⟩ := h.vel (by simp) _ (List.getElem_mem hi2)
        simp only [Option.isSome_some, if_true, jcalc.get_joint_model, hj, hg, ok_bind, pure_ok,
          initAfter, Option.getD_some]
        have e := nameDict_succ hc.names_nodup (fun j =>
          match qd_from_q (sref.link_types.getD j "") with
          | some g => g (refOf E sref q_ref j) sref.dt
          | none => []) hi1
        have ht : sref.link_types.getD i "" = sref.link_types[i] := by simp [hi2]
        simp only [ht, hg] at e
        rw [nameDict_succ hc.names_nodup (refOf E sref q_ref) hi1,
          nameDict_succ hc.names_nodup (fun j => ownSlice E.dw sref.link_types P j) hi1,
          nameDict_succ hc.names_nodup (fun j => ownSlice E.dw sref.link_types Dg j) hi1, e])
  have h0 : initAfter E qd_from_q sref q_ref P D 0 0 = ⟨0, [], [], [], []⟩ := by
    cases D <;> rfl
  rw [h0] at key
  cases D with
  | none =>
    simp only [pure_ok]
    rw [key, hc.names_len]
    rfl
  | some Dg =>
    simp only
    rw [pyAssert_true (p := _) (h.D_len Dg rfl).symm]
    simp only [ok_bind]
    rw [key, hc.names_len]
    rfl

/-- C62: the controller stores, under the name of each reference link, exactly the columns of the
reference trajectory, and exactly the entries of the gains, that belong to this link. -/
theorem C62_init {qd_from_q : String → Option (List (List ℝ) → ℝ → List (List ℝ))}
    {q_ref : List (List ℝ)} {P : List ℝ} {D : Option (List ℝ)}
    (h : PdOk E qd_from_q s sref q_ref P D) :
    ∃ cs, pd_control_init E qd_from_q P D sref q_ref = .ok cs ∧ cs.i = 0 ∧
      cs.q_ref_as_dict.keys = sref.link_names ∧ cs.P_gains.keys = sref.link_names ∧
      ∀ (j : Nat) (n t : String), sref.link_names[j]? = some n → sref.link_types[j]? = some t →
        List.lookup n cs.q_ref_as_dict =
          some (q_ref.map fun row => ownSlice E.qw sref.link_types row j) ∧
        List.lookup n cs.P_gains = some (ownSlice E.dw sref.link_types P j) ∧
        (D = none → cs.qd_ref_as_dict = [] ∧ cs.D_gains = []) ∧
        (∀ Dg g, D = some Dg → qd_from_q t = some g →
          List.lookup n cs.qd_ref_as_dict =
            some (g (q_ref.map fun row => ownSlice E.qw sref.link_types row j) sref.dt) ∧
          List.lookup n cs.D_gains = some (ownSlice E.dw sref.link_types Dg j)) := by
  refine ⟨_, init_ok h, rfl, ?_, ?_, ?_⟩
  · simp only [initAfter]
    rw [nameDict_keys _ _ le_rfl, List.take_length]
  · simp only [initAfter]
    rw [nameDict_keys _ _ le_rfl, List.take_length]
  · intro j n t hj ht
    have hn := h.ref.names_nodup
    refine ⟨nameDict_lookup hn _ hj, nameDict_lookup hn _ hj, ?_, ?_⟩
    · rintro rfl
      exact ⟨rfl, rfl⟩
    · rintro Dg g rfl hg
      refine ⟨?_, nameDict_lookup hn _ hj⟩
      simp only [initAfter]
      rw [nameDict_lookup hn _ hj]
      have : sref.link_types.getD j "" = t := by simp [ht]
      simp only [this, hg]
      rfl

/-! ### the torques -/

theorem bmul_eq {a b : List ℝ} (h : a.length = b.length) : bmul a b = .ok (lmul a b) := if_pos h
theorem badd_eq {a b : List ℝ} (h : a.length = b.length) : badd a b = .ok (ladd a b) := if_pos h
theorem bsub_eq {a b : List ℝ} (h : a.length = b.length) : bsub a b = .ok (lsub a b) := by
  unfold bsub
  rw [badd_eq (by simpa using h)]
  simp [ladd, lsub, List.zipWith_map_right, sub_eq_add_neg]

/-- the torque at link `i` -/
noncomputable def tauAt (E : JEnv ℝ π)
    (qd_from_q : String → Option (List (List ℝ) → ℝ → List (List ℝ))) (s sref : System ℝ π)
    (q_ref : List (List ℝ)) (P : List ℝ) (D : Option (List ℝ)) (k : Nat) (q qd : List ℝ) (i : Nat) :
    List ℝ :=
  let n := s.link_names.getD i ""
  let t := s.link_types.getD i ""
  let j := sref.link_names.idxOf n
  if n ∉ sref.link_names then List.replicate (wOf E.dw t) 0
  else
    let f := ((E.joints t).bind (·.p_control_term)).getD fun _ _ => []
    let p := lmul (f (ownSlice E.qw s.link_types q i) (held (refOf E sref q_ref j) k))
      (ownSlice E.dw sref.link_types P j)
    match D with
    | none => p
    | some Dg =>
      let g := (qd_from_q t).getD fun _ _ => []
      ladd p (lmul (lsub (held (g (refOf E sref q_ref j) sref.dt) k) (ownSlice E.dw s.link_types qd i))
        (ownSlice E.dw sref.link_types Dg j))

theorem PdOk.sameType {qd_from_q : String → Option (List (List ℝ) → ℝ → List (List ℝ))}
    {q_ref : List (List ℝ)} {P : List ℝ} {D : Option (List ℝ)}
    (h : PdOk E qd_from_q s sref q_ref P D) {i j : Nat} {n t : String}
    (hn : s.link_names[i]? = some n) (ht : s.link_types[i]? = some t)
    (hj : sref.link_names[j]? = some n) : sref.link_types[j]? = some t := by
  rw [← ht]; exact (h.same i j n hn hj).symm

/-- everything about a controlled link -/
theorem PdOk.link {qd_from_q : String → Option (List (List ℝ) → ℝ → List (List ℝ))}
    {q_ref : List (List ℝ)} {P : List ℝ} {D : Option (List ℝ)}
    (h : PdOk E qd_from_q s sref q_ref P D) {i j : Nat} {n t : String} (k : Nat) {q qd : List ℝ}
    (hq : q.length = (s.link_types.map (wOf E.qw)).sum)
    (hqd : qd.length = (s.link_types.map (wOf E.dw)).sum)
    (hn : s.link_names[i]? = some n) (ht : s.link_types[i]? = some t)
    (hj : sref.link_names[j]? = some n) :
    (held (refOf E sref q_ref j) k).length = wOf E.qw t ∧
    (ownSlice E.qw s.link_types q i).length = wOf E.qw t ∧
    (ownSlice E.dw s.link_types qd i).length = wOf E.dw t ∧
    (ownSlice E.dw sref.link_types P j).length = wOf E.dw t ∧
    (∀ Dg, D = some Dg → (ownSlice E.dw sref.link_types Dg j).length = wOf E.dw t ∧
      ∃ g, qd_from_q t = some g ∧ g (refOf E sref q_ref j) sref.dt ≠ [] ∧
        (held (g (refOf E sref q_ref j) sref.dt) k).length = wOf E.dw t) := by
  have hjt := h.sameType hn ht hj
  obtain ⟨hj2, ejt⟩ := List.getElem?_eq_some_iff.1 hjt
  obtain ⟨hi2, eit⟩ := List.getElem?_eq_some_iff.1 ht
  have d1 : s.link_types.getD i "" = t := by simp [ht]
  have d2 : sref.link_types.getD j "" = t := by simp [hjt]
  have hne : refOf E sref q_ref j ≠ [] := by
    unfold refOf
    simpa using h.nonempty
  have hlen : ∀ r ∈ refOf E sref q_ref j, r.length = wOf E.qw t := by
    intro r hr
    obtain ⟨row, hrow, rfl⟩ := List.mem_map.1 hr
    rw [ownSlice_length (h.rows row hrow) hj2, d2]
  refine ⟨hlen _ (held_mem hne k), ?_, ?_, ?_, ?_⟩
  · rw [ownSlice_length hq hi2, d1]
  · rw [ownSlice_length hqd hi2, d1]
  · rw [ownSlice_length h.P_len hj2, d2]
  · rintro Dg rfl
    refine ⟨by rw [ownSlice_length (h.D_len Dg rfl) hj2, d2], ?_⟩
    obtain ⟨g, hg, hg2⟩ := h.vel (by simp) t (ejt ▸ List.getElem_mem hj2)
    obtain ⟨g1, g2⟩ := hg2 _ hne hlen
    exact ⟨g, hg, g1, g2 _ (held_mem g1 k)⟩

theorem tauAt_length {qd_from_q : String → Option (List (List ℝ) → ℝ → List (List ℝ))}
    {q_ref : List (List ℝ)} {P : List ℝ} {D : Option (List ℝ)}
    (h : PdOk E qd_from_q s sref q_ref P D) (k : Nat) {q qd : List ℝ}
    (hq : q.length = (s.link_types.map (wOf E.qw)).sum)
    (hqd : qd.length = (s.link_types.map (wOf E.dw)).sum) {i : Nat} {n t : String}
    (hn : s.link_names[i]? = some n) (ht : s.link_types[i]? = some t) :
    (tauAt E qd_from_q s sref q_ref P D k q qd i).length = wOf E.dw t := by
  have d1 : s.link_types.getD i "" = t := by simp [ht]
  have d2 : s.link_names.getD i "" = n := by simp [hn]
  unfold tauAt
  simp only [d1, d2]
  split
  · simp
  · rename_i hm
    have hm : n ∈ sref.link_names := by simpa using hm
    have hj : sref.link_names[sref.link_names.idxOf n]? = some n := by
      rw [List.getElem?_eq_getElem (List.idxOf_lt_length_of_mem hm)]
      simp
    have hjt := h.sameType hn ht hj
    obtain ⟨hj2, ejt⟩ := List.getElem?_eq_some_iff.1 hjt
    obtain ⟨jm, f, hjm, hf, hl⟩ := h.term t (ejt ▸ List.getElem_mem hj2)
    obtain ⟨l1, l2, l3, l4, l5⟩ := h.link k hq hqd hn ht hj
    have lp : (lmul (f (ownSlice E.qw s.link_types q i)
        (held (refOf E sref q_ref (sref.link_names.idxOf n)) k))
      (ownSlice E.dw sref.link_types P (sref.link_names.idxOf n))).length = wOf E.dw t := by
      simp [lmul, hl _ _ l2 l1, l4]
    simp only [hjm, Option.bind_some, hf, Option.getD_some]
    cases D with
    | none => exact lp
    | some Dg =>
      obtain ⟨l6, g, hg, _, l7⟩ := l5 Dg rfl
      simp only [hg, Option.getD_some]
      rw [show ∀ a b : List ℝ, (ladd a b).length = min a.length b.length by
        intro a b; simp [ladd], lp]
      simp [lmul, lsub, l3, l6, l7]

/-- the torques once `n` links are done -/
noncomputable def tausAfter (E : JEnv ℝ π)
    (qd_from_q : String → Option (List (List ℝ) → ℝ → List (List ℝ))) (s sref : System ℝ π)
    (q_ref : List (List ℝ)) (P : List ℝ) (D : Option (List ℝ)) (k : Nat) (q qd : List ℝ) (n : Nat) :
    List (List ℝ) :=
  s.link_types.mapIdx fun i t =>
    if i < n then tauAt E qd_from_q s sref q_ref P D k q qd i else List.replicate (wOf E.dw t) 0

theorem apply_ok {qd_from_q : String → Option (List (List ℝ) → ℝ → List (List ℝ))}
    {q_ref : List (List ℝ)} {P : List ℝ} {D : Option (List ℝ)}
    (h : PdOk E qd_from_q s sref q_ref P D) (k : Nat) {st : State ℝ}
    (hq : st.q.length = (s.link_types.map (wOf E.qw)).sum)
    (hqd : st.qd.length = (s.link_types.map (wOf E.dw)).sum) :
    pd_control_apply E (initAfter E qd_from_q sref q_ref P D k sref.link_names.length) s st =
      .ok (initAfter E qd_from_q sref q_ref P D (k + 1) sref.link_names.length,
        (tausAfter E qd_from_q s sref q_ref P D k st.q st.qd s.link_parents.length).flatten) := by
  have hc := h.sys
  have hk := hc.known
  have href : ∀ j, refOf E sref q_ref j ≠ [] := by
    intro j
    unfold refOf
    simpa using h.nonempty
  have hm1 : mapDict (fun arr => dynIndex arr k)
      (nameDict sref.link_names (refOf E sref q_ref) sref.link_names.length) =
      .ok (nameDict sref.link_names (fun j => held (refOf E sref q_ref j) k)
        sref.link_names.length) := mapDict_ok fun j _ => dynIndex_held (href j) k
  have hm2 : ∃ qd_ref, mapDict (fun arr => dynIndex arr k)
      (initAfter E qd_from_q sref q_ref P D k sref.link_names.length).qd_ref_as_dict = .ok qd_ref ∧
      ∀ Dg, D = some Dg → ∀ (j : Nat) (n t : String) g, sref.link_names[j]? = some n →
        sref.link_types[j]? = some t → qd_from_q t = some g →
        List.lookup n qd_ref = some (held (g (refOf E sref q_ref j) sref.dt) k) := by
    cases D with
    | none => exact ⟨[], rfl, by simp⟩
    | some Dg =>
      refine ⟨nameDict sref.link_names (fun j => held (match qd_from_q (sref.link_types.getD j "") with
        | some g => g (refOf E sref q_ref j) sref.dt
        | none => []) k) sref.link_names.length, ?_, ?_⟩
      · apply mapDict_ok
        intro j hj
        apply dynIndex_held
        have hj2 : j < sref.link_types.length := by
          rw [h.ref.types_len, ← h.ref.names_len]; exact hj
        obtain ⟨g, hg, hg2⟩ := h.vel (by simp) _ (List.getElem_mem hj2)
        have : sref.link_types.getD j "" = sref.link_types[j] := by simp [hj2]
        simp only [this, hg]
        apply (hg2 _ (href j) _).1
        intro r hr
        obtain ⟨row, hrow, rfl⟩ := List.mem_map.1 hr
        rw [ownSlice_length (h.rows row hrow) hj2, this]
      · rintro Dg' e j n t g hj ht hg
        rw [nameDict_lookup h.ref.names_nodup _ hj]
        have : sref.link_types.getD j "" = t := by simp [ht]
        simp only [this, hg]
  obtain ⟨qd_ref, hm2, hm3⟩ := hm2
  have hlens : ∀ n, (tausAfter E qd_from_q s sref q_ref P D k st.q st.qd n).map List.length =
      s.link_types.map (wOf E.dw) := by
    intro n
    apply List.ext_getElem
    · simp [tausAfter]
    · intro i h1 h2
      have hi2 : i < s.link_types.length := by simpa using h2
      have hi1 : i < s.link_names.length := by rw [hc.names_len, ← hc.types_len]; exact hi2
      simp only [tausAfter, List.getElem_map, List.getElem_mapIdx]
      split
      · exact tauAt_length h k hq hqd (List.getElem?_eq_getElem hi1) (List.getElem?_eq_getElem hi2)
      · simp
  have key := scanState_forward_inv (E := E.toEnv) (s := s) hk hc.types_len
    (f := fun taus m a => pdApplyLink E
      (initAfter E qd_from_q sref q_ref P D k sref.link_names.length)
      (nameDict sref.link_names (fun j => held (refOf E sref q_ref j) k) sref.link_names.length)
      qd_ref taus m a)
    (arg := (argL (List.range s.num_links)).and <| (argL s.link_names).and <|
      (argL s.link_types).and <| (argQ st.q).and (argD st.qd))
    (by
      intro x hx
      simp only [ScanArg.and, argL, argQ, argD, List.mem_append, List.mem_cons, List.not_mem_nil,
        or_false] at hx
      rcases hx with rfl | rfl | rfl | rfl | rfl
      · simp [num_links]
      · exact hc.names_len
      · exact hc.types_len
      · exact hq
      · exact hqd)
    (rows_and (rows_argL _ _) (rows_and (rows_argL _ _) (rows_and (rows_argL _ _)
      (rows_and (rows_argQ rfl _) (rows_argD rfl _)))))
    (by simp [hc.types_len, hc.names_len, num_links])
    (fun n => (tausAfter E qd_from_q s sref q_ref P D k st.q st.qd n).flatten)
    (List.replicate s.link_parents.length ()) (by simp)
    (by
      intro i hi
      have hi1 : i < s.link_names.length := by rw [hc.names_len]; exact hi
      have hi2 : i < s.link_types.length := by rw [hc.types_len]; exact hi
      have gn : s.link_names[i]? = some s.link_names[i] := List.getElem?_eq_getElem hi1
      have gt : s.link_types[i]? = some s.link_types[i] := List.getElem?_eq_getElem hi2
      have dn : s.link_names.getD i "" = s.link_names[i] := by simp [hi1]
      have dt : s.link_types.getD i "" = s.link_types[i] := by simp [hi2]
      simp only [List.getElem_zip, List.getElem_range, List.getElem_replicate, chunks_row]
      have hset : tausAfter E qd_from_q s sref q_ref P D k st.q st.qd (i + 1) =
          (tausAfter E qd_from_q s sref q_ref P D k st.q st.qd i).set i
            (tauAt E qd_from_q s sref q_ref P D k st.q st.qd i) := by
        apply List.ext_getElem
        · simp [tausAfter]
        · intro j h1 h2
          simp only [tausAfter, List.getElem_set, List.getElem_mapIdx]
          by_cases hji : i = j
          · subst hji
            rw [if_pos rfl, if_pos (by omega)]
          · rw [if_neg hji]
            have : (j < i + 1) ↔ j < i := by omega
            simp only [this]
      unfold pdApplyLink
      have hkeys : (initAfter E qd_from_q sref q_ref P D k sref.link_names.length).q_ref_as_dict.keys =
          sref.link_names := by
        simp only [initAfter]
        rw [nameDict_keys _ _ le_rfl, List.take_length]
      simp only [hkeys]
      by_cases hm : s.link_names[i] ∈ sref.link_names
      · rw [if_neg (by simpa using hm)]
        have hj : sref.link_names[sref.link_names.idxOf s.link_names[i]]? = some s.link_names[i] := by
          rw [List.getElem?_eq_getElem (List.idxOf_lt_length_of_mem hm)]
          simp
        have hjt := h.sameType gn gt hj
        obtain ⟨hj2, ejt⟩ := List.getElem?_eq_some_iff.1 hjt
        obtain ⟨jm, f, hjm, hf, hl⟩ := h.term s.link_types[i] (ejt ▸ List.getElem_mem hj2)
        obtain ⟨l1, l2, l3, l4, l5⟩ := h.link k hq hqd gn gt hj
        have hlt := tauAt_length h k hq hqd gn gt
        have hw := setSlice_own (hlens i) hi2
          (tauAt E qd_from_q s sref q_ref P D k st.q st.qd i) hlt
        simp only [jcalc.get_joint_model, hjm, ok_bind, hf, pyDict]
        rw [nameDict_lookup h.ref.names_nodup _ hj]
        have hP : List.lookup s.link_names[i]
            (initAfter E qd_from_q sref q_ref P D k sref.link_names.length).P_gains = some
              (ownSlice E.dw sref.link_types P (sref.link_names.idxOf s.link_names[i])) :=
          nameDict_lookup h.ref.names_nodup _ hj
        rw [hP]
        simp only [ok_bind]
        have e1 : (f (ownSlice E.qw s.link_types st.q i)
            (held (refOf E sref q_ref (sref.link_names.idxOf s.link_names[i])) k)).length =
            (ownSlice E.dw sref.link_types P (sref.link_names.idxOf s.link_names[i])).length := by
          rw [hl _ _ l2 l1, l4]
        rw [bmul_eq e1]
        simp only [ok_bind, map_d s.link_types E hi2]
        rw [hset]
        cases D with
        | none =>
          simp only [initAfter, Dict.keys, List.map_nil, List.not_mem_nil, if_false, pure_ok, ok_bind]
          have ht : tauAt E qd_from_q s sref q_ref P none k st.q st.qd i = lmul (f (ownSlice E.qw
              s.link_types st.q i) (held (refOf E sref q_ref (sref.link_names.idxOf s.link_names[i])) k))
              (ownSlice E.dw sref.link_types P (sref.link_names.idxOf s.link_names[i])) := by
            unfold tauAt
            simp only [dn, dt]
            rw [if_neg (by simpa using hm)]
            simp only [hjm, Option.bind_some, hf, Option.getD_some]
          rw [ht] at hw ⊢
          rw [hw]
          rfl
        | some Dg =>
          obtain ⟨l6, g, hg, _, l7⟩ := l5 Dg rfl
          have hk2 : s.link_names[i] ∈ (initAfter E qd_from_q sref q_ref P (some Dg) k
              sref.link_names.length).qd_ref_as_dict.keys := by
            simp only [initAfter]
            rw [nameDict_keys _ _ le_rfl, List.take_length]
            exact hm
          rw [if_pos hk2, hm3 Dg rfl _ _ _ g hj hjt hg]
          have hDg : List.lookup s.link_names[i]
              (initAfter E qd_from_q sref q_ref P (some Dg) k sref.link_names.length).D_gains = some
                (ownSlice E.dw sref.link_types Dg (sref.link_names.idxOf s.link_names[i])) :=
            nameDict_lookup h.ref.names_nodup _ hj
          rw [hDg]
          simp only [ok_bind]
          rw [bsub_eq (l7.trans l3.symm)]
          simp only [ok_bind]
          rw [bmul_eq (by simp [lsub, l3, l6, l7])]
          simp only [ok_bind]
          rw [badd_eq (by simp [lmul, lsub, l3, l4, l6, l7, hl _ _ l2 l1])]
          simp only [ok_bind]
          have ht : tauAt E qd_from_q s sref q_ref P (some Dg) k st.q st.qd i =
              ladd (lmul (f (ownSlice E.qw s.link_types st.q i)
                (held (refOf E sref q_ref (sref.link_names.idxOf s.link_names[i])) k))
                (ownSlice E.dw sref.link_types P (sref.link_names.idxOf s.link_names[i])))
              (lmul (lsub (held (g (refOf E sref q_ref
                (sref.link_names.idxOf s.link_names[i])) sref.dt) k)
                (ownSlice E.dw s.link_types st.qd i))
                (ownSlice E.dw sref.link_types Dg (sref.link_names.idxOf s.link_names[i]))) := by
            unfold tauAt
            simp only [dn, dt]
            rw [if_neg (by simpa using hm)]
            simp only [hjm, Option.bind_some, hf, Option.getD_some, hg]
          rw [ht] at hw ⊢
          rw [hw]
          rfl
      · rw [if_pos hm, pure_ok, hset]
        have : tauAt E qd_from_q s sref q_ref P D k st.q st.qd i =
            (tausAfter E qd_from_q s sref q_ref P D k st.q st.qd i)[i]'(by simp [tausAfter, hi2]) := by
          unfold tauAt
          simp only [dn, dt]
          rw [if_pos hm]
          simp [tausAfter]
        rw [this, List.set_getElem_self])
  have h0 : (tausAfter E qd_from_q s sref q_ref P D k st.q st.qd 0).flatten =
      List.replicate (s.link_types.map (wOf E.dw)).sum (0 : ℝ) := by
    rw [List.eq_replicate_iff]
    refine ⟨by rw [List.length_flatten, hlens], ?_⟩
    intro b hb
    obtain ⟨l, hl, hbl⟩ := List.mem_flatten.1 hb
    obtain ⟨j, hj, rfl⟩ := List.getElem_of_mem hl
    simp only [tausAfter, List.getElem_mapIdx, Nat.not_lt_zero, if_false] at hbl
    exact (List.mem_replicate.1 hbl).2
  rw [h0] at key
  unfold pd_control_apply
  simp only [qd_size, sumWidths_known (fun t ht => (hk t ht).2), ok_bind]
  rw [show (initAfter E qd_from_q sref q_ref P D k sref.link_names.length).i = k from rfl]
  rw [show (initAfter E qd_from_q sref q_ref P D k sref.link_names.length).q_ref_as_dict =
    nameDict sref.link_names (refOf E sref q_ref) sref.link_names.length from rfl, hm1]
  simp only [ok_bind]
  rw [hm2]
  simp only [ok_bind]
  rw [key]
  rfl

/-- C62: at every time the controller produces torques which drive each link by its own columns of
the reference trajectory, and nothing else; the clock advances by one. -/
theorem C62_apply {qd_from_q : String → Option (List (List ℝ) → ℝ → List (List ℝ))}
    {q_ref : List (List ℝ)} {P : List ℝ} {D : Option (List ℝ)}
    (h : PdOk E qd_from_q s sref q_ref P D) {cs : PDControllerState}
    (hcs : pd_control_init E qd_from_q P D sref q_ref = .ok cs) (k : Nat) {st : State ℝ}
    (hq : st.q.length = (s.link_types.map (wOf E.qw)).sum)
    (hqd : st.qd.length = (s.link_types.map (wOf E.dw)).sum) :
    ∃ taus, pd_control_apply E { cs with i := k } s st = .ok ({ cs with i := k + 1 }, taus) ∧
      DrivenBy E qd_from_q s sref q_ref P D k st.q st.qd taus := by
  rw [init_ok h] at hcs
  obtain rfl := Except.ok.inj hcs
  have hc := h.sys
  refine ⟨_, apply_ok h k hq hqd, ?_⟩
  have hlens : (tausAfter E qd_from_q s sref q_ref P D k st.q st.qd
      s.link_parents.length).map List.length = s.link_types.map (wOf E.dw) := by
    apply List.ext_getElem
    · simp [tausAfter]
    · intro i h1 h2
      have hi2 : i < s.link_types.length := by simpa using h2
      have hi1 : i < s.link_names.length := by rw [hc.names_len, ← hc.types_len]; exact hi2
      simp only [tausAfter, List.getElem_map, List.getElem_mapIdx]
      split
      · exact tauAt_length h k hq hqd (List.getElem?_eq_getElem hi1) (List.getElem?_eq_getElem hi2)
      · simp
  have hown : ∀ (i : Nat) (t : String), s.link_types[i]? = some t → ownSlice E.dw s.link_types
      (tausAfter E qd_from_q s sref q_ref P D k st.q st.qd s.link_parents.length).flatten i =
      tauAt E qd_from_q s sref q_ref P D k st.q st.qd i := by
    intro i t ht
    obtain ⟨hi2, _⟩ := List.getElem?_eq_some_iff.1 ht
    rw [ownSlice_flatten hlens (by simpa [tausAfter] using hi2)]
    simp only [tausAfter, List.getElem_mapIdx]
    rw [if_pos (by rw [← hc.types_len]; exact hi2)]
  have hidx : ∀ (j : Nat) (n : String), sref.link_names[j]? = some n →
      n ∈ sref.link_names ∧ sref.link_names.idxOf n = j := by
    intro j n hj
    obtain ⟨hj1, rfl⟩ := List.getElem?_eq_some_iff.1 hj
    exact ⟨List.getElem_mem _, h.ref.names_nodup.idxOf_getElem _ _⟩
  refine ⟨by rw [List.length_flatten, hlens], ?_, ?_, ?_⟩
  · intro i n t hn ht hm
    rw [hown i t ht]
    unfold tauAt
    simp only [show s.link_names.getD i "" = n by simp [hn], show s.link_types.getD i "" = t by simp [ht]]
    rw [if_pos hm]
  · rintro rfl i j n t jm f hn ht hj hjm hf
    obtain ⟨hm, hidx⟩ := hidx j n hj
    rw [hown i t ht]
    unfold tauAt
    simp only [show s.link_names.getD i "" = n by simp [hn], show s.link_types.getD i "" = t by simp [ht]]
    rw [if_neg (by simpa using hm)]
    simp only [hjm, Option.bind_some, hf, Option.getD_some, hidx]
    rfl
  · rintro Dg rfl i j n t jm f g hn ht hj hjm hf hg
    obtain ⟨hm, hidx⟩ := hidx j n hj
    rw [hown i t ht]
    unfold tauAt
    simp only [show s.link_names.getD i "" = n by simp [hn], show s.link_types.getD i "" = t by simp [ht]]
    rw [if_neg (by simpa using hm)]
    simp only [hjm, Option.bind_some, hf, Option.getD_some, hidx, hg]
    rfl

/-! ### the initial state -/

theorem idx_map_q_lookup (hc : s.Consistent E.toEnv) {i : Nat} {n : String}
    (hn : s.link_names[i]? = some n) (hi2 : i < s.link_types.length) :
    ∃ m, s.idx_map E.toEnv .q = .ok m ∧ List.lookup n m = some (Idx.slice
      ((s.link_types.map (wOf E.qw)).take i).sum
      (((s.link_types.map (wOf E.qw)).take i).sum + wOf E.qw s.link_types[i])) := by
  refine ⟨_, (C01_sizes_and_idx_map hc.known hc.types_len hc.names_len).2.2.2.1, ?_⟩
  apply Dict.lookup_of_mem
  · unfold Dict.keys
    rw [List.map_map]
    have : s.link_names.zipIdx.map ((fun x => x.1) ∘ fun x : String × Nat =>
        (x.1, Idx.slice ((s.link_types.take x.2).map (wOf E.qw)).sum
          ((s.link_types.take (x.2 + 1)).map (wOf E.qw)).sum)) = s.link_names := by
      rw [show ((fun x => x.1) ∘ fun x : String × Nat =>
        (x.1, Idx.slice ((s.link_types.take x.2).map (wOf E.qw)).sum
          ((s.link_types.take (x.2 + 1)).map (wOf E.qw)).sum)) = Prod.fst from rfl]
      simp
    rw [this]
    exact hc.names_nodup
  · rw [List.mem_map]
    refine ⟨(n, i), ?_, ?_⟩
    · rw [List.mem_zipIdx_iff_getElem?]
      exact hn
    · simp only [Prod.mk.injEq, true_and, Idx.slice.injEq]
      refine ⟨by rw [List.map_take], ?_⟩
      rw [List.take_add_one, List.map_append, List.sum_append, List.map_take]
      simp [hi2]

/-- C62: the simulation starts with every referenced link at the first row of its own columns of the
reference, and every other link at its rest position. -/
theorem C62_initial (hs : s.Consistent E.toEnv) (hr : sref.Consistent E.toEnv)
    (hw : ∀ t ∈ s.link_types, joint_type_is_free_or_cor_or_spherical t = true → 0 < wOf E.qw t)
    (hsub : ∀ n ∈ sref.link_names, n ∈ s.link_names)
    (hsame : ∀ (i j : Nat) (n : String), s.link_names[i]? = some n → sref.link_names[j]? = some n →
      s.link_types[i]? = sref.link_types[j]?)
    {q0 : List ℝ} (hq0 : q0.length = (sref.link_types.map (wOf E.qw)).sum) :
    ∃ st, _initial_q_is_q_ref E s sref q0 = .ok st ∧
      st.q.length = (s.link_types.map (wOf E.qw)).sum ∧
      st.qd = List.replicate (s.link_types.map (wOf E.dw)).sum 0 ∧
      st.x = List.replicate s.link_parents.length Transform.zero ∧
      ∀ (i : Nat) (n t : String), s.link_names[i]? = some n → s.link_types[i]? = some t →
        (∀ j : Nat, sref.link_names[j]? = some n →
          ownSlice E.qw s.link_types st.q i = ownSlice E.qw sref.link_types q0 j) ∧
        (n ∉ sref.link_names → joint_type_is_free_or_cor_or_spherical t = true →
          ∃ k, ownSlice E.qw s.link_types st.q i = 1 :: List.replicate k 0) ∧
        (n ∉ sref.link_names → joint_type_is_free_or_cor_or_spherical t = false →
          ∃ k, ownSlice E.qw s.link_types st.q i = List.replicate k 0) := by
  obtain ⟨st0, hst0, hlq, hlqd, hlx, hdef⟩ := C11_create hs hw
  set blk : Nat → List (List ℝ) := fun n => s.link_types.mapIdx fun i _ =>
    if s.link_names.getD i "" ∈ sref.link_names.take n then
      ownSlice E.qw sref.link_types q0 (sref.link_names.idxOf (s.link_names.getD i ""))
    else ownSlice E.qw s.link_types st0.q i with hblk
  have names : ∀ i, i < s.link_types.length → i < s.link_names.length := by
    intro i hi
    rw [hs.names_len, ← hs.types_len]; exact hi
  have hlens : ∀ n, (blk n).map List.length = s.link_types.map (wOf E.qw) := by
    intro n
    apply List.ext_getElem
    · simp [hblk]
    · intro i h1 h2
      have hi2 : i < s.link_types.length := by simpa using h2
      have hi1 := names i hi2
      simp only [hblk, List.getElem_map, List.getElem_mapIdx]
      split
      · rename_i hm
        have hm := List.mem_of_mem_take hm
        have dn : s.link_names.getD i "" = s.link_names[i] := by simp [hi1]
        rw [dn] at hm ⊢
        have hj : sref.link_names[sref.link_names.idxOf s.link_names[i]]? = some s.link_names[i] := by
          rw [List.getElem?_eq_getElem (List.idxOf_lt_length_of_mem hm)]
          simp
        have ht := hsame i _ _ (List.getElem?_eq_getElem hi1) hj
        rw [List.getElem?_eq_getElem hi2] at ht
        obtain ⟨hj2, e⟩ := List.getElem?_eq_some_iff.1 ht.symm
        rw [ownSlice_length hq0 hj2]
        simp [hj2, e]
      · rw [ownSlice_length hlq hi2]
        simp [hi2]
  obtain ⟨m, hm, hlook⟩ : ∃ m, s.idx_map E.toEnv .q = .ok m ∧ ∀ (i : Nat) (n : String),
      s.link_names[i]? = some n → ∀ hi2 : i < s.link_types.length,
      List.lookup n m = some (Idx.slice
        ((s.link_types.map (wOf E.qw)).take i).sum
        (((s.link_types.map (wOf E.qw)).take i).sum + wOf E.qw s.link_types[i])) := by
    refine ⟨_, (C01_sizes_and_idx_map hs.known hs.types_len hs.names_len).2.2.2.1, ?_⟩
    intro i n hn hi2
    obtain ⟨m', h1, h2⟩ := idx_map_q_lookup hs hn hi2
    rw [(C01_sizes_and_idx_map hs.known hs.types_len hs.names_len).2.2.2.1] at h1
    rw [Except.ok.inj h1]
    exact h2
  have key := scanState_forward_inv (E := E.toEnv) (s := sref) hr.known hr.types_len
    (f := fun q _ a => initialLink m q a)
    (arg := (argL sref.link_names).and (argQ q0))
    (by
      intro x hx
      simp only [ScanArg.and, argL, argQ, List.mem_append, List.mem_cons, List.not_mem_nil,
        or_false] at hx
      rcases hx with rfl | rfl
      · exact hr.names_len
      · exact hq0)
    (rows_and (rows_argL _ _) (rows_argQ rfl _))
    (by simp [hr.types_len, hr.names_len])
    (fun n => (blk n).flatten)
    (List.replicate sref.link_parents.length ()) (by simp)
    (by
      intro j hj
      have hj1 : j < sref.link_names.length := by rw [hr.names_len]; exact hj
      have hj2 : j < sref.link_types.length := by rw [hr.types_len]; exact hj
      simp only [List.getElem_zip, List.getElem_replicate, chunks_row]
      obtain ⟨i, hi1, hin⟩ := List.getElem_of_mem (hsub _ (List.getElem_mem hj1))
      have hi2 : i < s.link_types.length := by rw [hs.types_len, ← hs.names_len]; exact hi1
      have gn : s.link_names[i]? = some sref.link_names[j] := by
        rw [List.getElem?_eq_getElem hi1, hin]
      unfold initialLink
      rw [show pyDict m sref.link_names[j] = .ok (Idx.slice
        ((s.link_types.map (wOf E.qw)).take i).sum
        (((s.link_types.map (wOf E.qw)).take i).sum + wOf E.qw s.link_types[i])) by
        simp only [pyDict, hlook i _ gn hi2]]
      simp only [ok_bind]
      have ht := hsame i j _ gn (List.getElem?_eq_getElem hj1)
      rw [List.getElem?_eq_getElem hi2, List.getElem?_eq_getElem hj2] at ht
      have ht := Option.some.inj ht
      rw [setSlice_own (hlens j) hi2 _ (by
        rw [ownSlice_length hq0 hj2, ht]; simp [hj2])]
      simp only [ok_bind, pure_ok]
      congr 3
      apply List.ext_getElem
      · simp [hblk]
      · intro i' h1 h2
        have hi' : i' < s.link_types.length := by simpa [hblk] using h2
        have hi1' := names i' hi'
        have dn : s.link_names.getD i' "" = s.link_names[i'] := by simp [hi1']
        simp only [hblk, List.getElem_set, List.getElem_mapIdx, dn]
        have htake : s.link_names[i'] ∈ sref.link_names.take (j + 1) ↔
            s.link_names[i'] ∈ sref.link_names.take j ∨ s.link_names[i'] = sref.link_names[j] := by
          rw [List.take_add_one, List.mem_append, List.getElem?_eq_getElem hj1]
          simp
        by_cases hii : i = i'
        · subst hii
          rw [if_pos rfl, if_pos (htake.2 (Or.inr hin)), hin,
            hr.names_nodup.idxOf_getElem]
        · rw [if_neg hii]
          have hne : s.link_names[i'] ≠ sref.link_names[j] := by
            rw [← hin]
            intro hc
            exact hii ((hs.names_nodup.getElem_inj_iff).1 hc).symm
          have : s.link_names[i'] ∈ sref.link_names.take (j + 1) ↔
              s.link_names[i'] ∈ sref.link_names.take j := by
            rw [htake]; simp [hne]
          simp only [this])
  have h0 : (blk 0).flatten = st0.q := by
    have : blk 0 = chunks (s.link_types.map (wOf E.qw)) st0.q := by
      apply List.ext_getElem
      · simp [hblk]
      · intro i h1 h2
        rw [chunks_row]
        simp [hblk]
    rw [this, chunks_flatten _ _ hlq]
  rw [h0] at key
  refine ⟨⟨(blk sref.link_parents.length).flatten,
    List.replicate (s.link_types.map (wOf E.dw)).sum 0,
    List.replicate s.link_parents.length Transform.zero⟩, ?_, ?_, rfl, rfl, ?_⟩
  · unfold _initial_q_is_q_ref
    rw [hst0]
    simp only [ok_bind]
    rw [hm]
    simp only [ok_bind]
    rw [key]
    simp only [ok_bind]
    unfold State.create
    simp only [pure_ok, ok_bind, qd_size, sumWidths_known (fun t ht => (hs.known t ht).2), num_links,
      Option.getD_none]
  · rw [List.length_flatten, hlens]
  · intro i n t hn ht
    obtain ⟨hi2, _⟩ := List.getElem?_eq_some_iff.1 ht
    have hown : ownSlice E.qw s.link_types (blk sref.link_parents.length).flatten i =
        (blk sref.link_parents.length)[i]'(by simpa [hblk] using hi2) :=
      ownSlice_flatten (hlens _) (by simpa [hblk] using hi2)
    have htk : sref.link_names.take sref.link_parents.length = sref.link_names := by
      rw [← hr.names_len, List.take_length]
    rw [hown]
    simp only [hblk, List.getElem_mapIdx, show s.link_names.getD i "" = n by simp [hn], htk]
    refine ⟨?_, ?_, ?_⟩
    · intro j hj
      obtain ⟨hj1, rfl⟩ := List.getElem?_eq_some_iff.1 hj
      rw [if_pos (List.getElem_mem hj1), hr.names_nodup.idxOf_getElem]
    · intro hm hq
      rw [if_neg hm]
      exact (hdef i t ht).1 hq
    · intro hm hq
      rw [if_neg hm]
      exact (hdef i t ht).2 hq

end System
end RingLib
