import Verif.Model.SpringXml
import Verif.Props.SpringBody
import Verif.Props.Xml

/-! # C107: reading the description of the IMU on a spring gives the simulated system -/

namespace RingLib
namespace sensors
open io RingLib.System

/-- `float` of the words of the description -/
structure ReadsWords (T : Txt ℝ) : Prop where
  zero : T.num "0" = some 0
  damping : T.num "0.1" = some (1 / 10)
  stiffness : T.num "3" = some 3
  mass : T.num "0.002" = some (2 / 1000)
  dim : T.num "0.01" = some (1 / 100)
  name : T.num "IMU" = none
  joint : T.num "p3d" = none
  type : T.num "box" = none

variable {K : Type}

/-- the description after the conversion of its attributes -/
noncomputable def qpTree : Xml (AVal ℝ) :=
  .node "x_xy" [] [
    .node "options" [("gravity", .arr [0, 0, 0])] [],
    .node "worldbody" [] [
      .node "body" [("name", .str "IMU"), ("joint", .str "p3d"), ("damping", .arr [1 / 10, 1 / 10, 1 / 10]),
          ("spring_stiff", .arr [3, 3, 3])] [
        .node "geom" [("type", .str "box"), ("mass", .scalar (2 / 1000)),
          ("dim", .arr [1 / 100, 1 / 100, 1 / 100])] []]]]

theorem qp_converted {T : Txt ℝ} (h : ReadsWords T) : _convert_attrs_to_arrays T qpXml = qpTree := by
  have s1 : pySplit "0 0 0" = ["0", "0", "0"] := by decide
  have s2 : pySplit "IMU" = ["IMU"] := by decide
  have s3 : pySplit "p3d" = ["p3d"] := by decide
  have s4 : pySplit "0.1 0.1 0.1" = ["0.1", "0.1", "0.1"] := by decide
  have s5 : pySplit "3 3 3" = ["3", "3", "3"] := by decide
  have s6 : pySplit "box" = ["box"] := by decide
  have s7 : pySplit "0.002" = ["0.002"] := by decide
  have s8 : pySplit "0.01 0.01 0.01" = ["0.01", "0.01", "0.01"] := by decide
  simp [_convert_attrs_to_arrays, qpXml, qpTree, Xml.mapAttrib, Xml.mapAttribList, toAVal, s1, s2, s3, s4, s5, s6, s7, s8,
    h.zero, h.damping, h.stiffness, h.mass, h.dim, h.name, h.joint, h.type]

theorem qp_valid : _assert_all_tags_attrs_valid qpXml = .ok () := by
  rfl

theorem qp_setup {T : Txt ℝ} (h : ReadsWords T) : ∃ wb, _initial_setup T qpXml = .ok (qpTree, wb) ∧
    wb.children = [.node "body" [("name", .str "IMU"), ("joint", .str "p3d"), ("damping", .arr [1 / 10, 1 / 10, 1 / 10]),
          ("spring_stiff", .arr [3, 3, 3])] [
        .node "geom" [("type", .str "box"), ("mass", .scalar (2 / 1000)),
          ("dim", .arr [1 / 100, 1 / 100, 1 / 100])] []]] := by
  unfold _initial_setup
  rw [qp_valid, qp_converted h]
  exact ⟨_, rfl, rfl⟩

theorem qp_geom_read (T : Txt ℝ) : geomFromXml stdEnv.toEnv T 0 [("type", .str "box"), ("mass", .scalar (2 / 1000)),
          ("dim", .arr [1 / 100, 1 / 100, 1 / 100])] =
    .ok ⟨2 / 1000, .zero, 0, .box (1 / 100) (1 / 100) (1 / 100), none, none⟩ := by
  have hd : getDims stdEnv.toEnv [("type", AVal.str "box"), ("mass", .scalar (2 / 1000)),
      ("dim", .arr [(1 / 100 : ℝ), 1 / 100, 1 / 100])] 3 = .ok [1 / 100, 1 / 100, 1 / 100] := by
    have e : (List.range 3).mapM (AVal.index (.arr [(1 / 100 : ℝ), 1 / 100, 1 / 100])) = .ok [1 / 100, 1 / 100, 1 / 100] := rfl
    show (do
      let dims ← (List.range 3).mapM (AVal.index (.arr [(1 / 100 : ℝ), 1 / 100, 1 / 100]))
      pyAssert (∀ x ∈ dims, stdEnv.toEnv.ge 0 x = false)
      pure dims) = _
    rw [e]
    simp only [ok_bind]
    rw [pyAssert_true (by intro x hx; simp at hx; subst hx; simp [stdEnv])]
    rfl
  have ht : pyDict [("type", AVal.str "box"), ("mass", .scalar (2 / 1000)),
      ("dim", .arr [(1 / 100 : ℝ), 1 / 100, 1 / 100])] "type" = .ok (.str "box") := rfl
  unfold geomFromXml
  rw [ht]
  simp only [ok_bind]
  unfold boxFromXml
  rw [hd]
  rfl

/-- what is read of the body -/
noncomputable def qpRec : LinkRec ℝ :=
  ⟨-1, "IMU", "p3d", .zero, 0, 0, none, [1 / 10, 1 / 10, 1 / 10], [0, 0, 0], [3, 3, 3], [0, 0, 0], qpGeoms⟩

theorem qp_body_read (T : Txt ℝ) : readBody stdEnv.toEnv T [("name", .str "IMU"), ("joint", .str "p3d"),
      ("damping", .arr [1 / 10, 1 / 10, 1 / 10]), ("spring_stiff", .arr [3, 3, 3])]
      [.node "geom" [("type", .str "box"), ("mass", .scalar (2 / 1000)),
          ("dim", .arr [1 / 100, 1 / 100, 1 / 100])] []] (-1) 0 = .ok qpRec := by
  have hj : getJoint [("name", AVal.str "IMU"), ("joint", .str "p3d"),
      ("damping", .arr [(1 / 10 : ℝ), 1 / 10, 1 / 10]), ("spring_stiff", .arr [3, 3, 3])] = .ok "p3d" := by
    have ht : pyDict [("name", AVal.str "IMU"), ("joint", .str "p3d"),
      ("damping", .arr [(1 / 10 : ℝ), 1 / 10, 1 / 10]), ("spring_stiff", .arr [3, 3, 3])] "joint" = .ok (.str "p3d") := rfl
    unfold getJoint
    rw [ht]
    rfl
  have hq : width stdEnv.toEnv.qw "p3d" = .ok 3 := by
    have := stdEnv_std.qw .p3d
    unfold width
    rw [show "p3d" = jcalc.BuiltIn.p3d.name from rfl, this]
    rfl
  have hd : width stdEnv.toEnv.dw "p3d" = .ok 3 := by
    have := stdEnv_std.dw .p3d
    unfold width
    rw [show "p3d" = jcalc.BuiltIn.p3d.name from rfl, this]
    rfl
  have hz : default_zeropoint 3 "p3d" = [(0 : ℝ), 0, 0] := by
    have : joint_type_is_free_or_cor_or_spherical "p3d" = false := by decide
    unfold default_zeropoint
    rw [this]
    rfl
  have hdof : dofFromXml [("name", AVal.str "IMU"), ("joint", .str "p3d"),
      ("damping", .arr [(1 / 10 : ℝ), 1 / 10, 1 / 10]), ("spring_stiff", .arr [3, 3, 3])] 3 3 "p3d" =
      .ok ([1 / 10, 1 / 10, 1 / 10], [0, 0, 0], [3, 3, 3], [0, 0, 0]) := by
    unfold dofFromXml
    rw [hz]
    rfl
  have hg : _extract_geoms_from_body_xml stdEnv.toEnv T [.node "geom" [("type", .str "box"), ("mass", .scalar (2 / 1000)),
          ("dim", .arr [1 / 100, 1 / 100, 1 / 100])] []] 0 = .ok qpGeoms := by
    show (List.mapM (fun c : Xml (AVal ℝ) => geomFromXml stdEnv.toEnv T 0 c.attrib) [.node "geom" [("type", .str "box"), ("mass", .scalar (2 / 1000)),
          ("dim", .arr [1 / 100, 1 / 100, 1 / 100])] []]) = _
    rw [List.mapM_cons, List.mapM_nil]
    show (do
      let a ← geomFromXml stdEnv.toEnv T 0 [("type", .str "box"), ("mass", .scalar (2 / 1000)),
          ("dim", .arr [1 / 100, 1 / 100, 1 / 100])]
      let b ← pure []
      pure (a :: b)) = _
    rw [qp_geom_read]
    rfl
  unfold readBody
  rw [hj]
  simp only [ok_bind]
  rw [hq, hd]
  simp only [ok_bind]
  rw [hdof, hg]
  rfl

theorem qp_bodies_read (T : Txt ℝ) : process_bodies stdEnv.toEnv T [.node "body" [("name", .str "IMU"), ("joint", .str "p3d"),
      ("damping", .arr [1 / 10, 1 / 10, 1 / 10]), ("spring_stiff", .arr [3, 3, 3])] [
        .node "geom" [("type", .str "box"), ("mass", .scalar (2 / 1000)),
          ("dim", .arr [1 / 100, 1 / 100, 1 / 100])] []]] (-1) (-1, []) = .ok (0, [(0, qpRec)]) := by
  rw [process_bodies, if_pos (show Xml.tag _ = "body" from rfl), process_body]
  simp only [Int.reduceNeg, Int.reduceAdd]
  rw [qp_body_read]
  rfl

/-- **C107**: `load_sys_from_str(_quasi_physical_sys_str).replace(dt=dt)` is the system that is simulated, up to the
parameters of its joint (`p3d` has none); the words are read as the numbers they denote. -/
theorem C107_loaded {T : Txt ℝ} (h : ReadsWords T) {J : JointInit Unit K} (hJ : J.init "p3d" = some none) (key : K)
    (dt : ℝ) : ∃ s, load_sys_from_str stdEnv.toEnv T J key qpXml = .ok s ∧ { s with dt := dt } = qpSys dt := by
  obtain ⟨wb, h1, h2⟩ := qp_setup h
  set s0 : System ℝ Unit := { qpSys (1 / 100) with
    links := [⟨.zero, 0, 0, Inertia.zero, .zero, .zero⟩] } with hs0
  have hc : s0.Consistent stdEnv.toEnv := {
    types_len := rfl
    links_len := rfl
    omc_len := rfl
    names_len := rfl
    names_nodup := (qpSys_wf (1 / 100) 0).names_nodup
    pos_ok := by
      intro l hl
      simp [hs0] at hl
      subst hl
      simp [stdEnv]
    geoms_ok := (qpSys_wf (1 / 100) 0).geoms_ok
    known := (qpSys_wf (1 / 100) 0).known
    damping_len := (qpSys_wf (1 / 100) 0).damping_len
    armature_len := (qpSys_wf (1 / 100) 0).armature_len
    stiffness_len := (qpSys_wf (1 / 100) 0).stiffness_len
    zeropoint_len := (qpSys_wf (1 / 100) 0).zeropoint_len
    unit_zero := (qpSys_wf (1 / 100) 0).unit_zero }
  refine ⟨s0.normalised stdEnv.toEnv, ?_, ?_⟩
  · unfold load_sys_from_str
    rw [h1]
    simp only [ok_bind]
    rw [pyAssert_true (show qpXml.tag = "x_xy" from rfl), h2, qp_bodies_read]
    simp only [ok_bind]
    have hi : ∀ s : System ℝ Unit, s.link_types = ["p3d"] → s.link_parents = [-1] →
        _init_joint_params J key s = .ok { s with joint_params := [("default", [()])] } := by
      intro s ht hp
      have hf : initFns J ["p3d"] = .ok [] := by
        unfold initFns
        simp [List.foldlM, Dict.keys, hJ]
      unfold _init_joint_params
      rw [ht, hf]
      simp only [ok_bind, num_links, hp]
      rfl
    have ho : getOptions qpTree = .ok (1 / 100, 0) := rfl
    have hm : getModel qpTree.attrib = .ok none := rfl
    rw [ho, hm]
    simp only [ok_bind]
    rw [pyAssert_true (show List.map Prod.fst [((0 : Int), qpRec)] = List.map Int.ofNat (List.range _) from rfl)]
    simp only [ok_bind]
    show (do
      let s ← _init_joint_params J key { qpSys (1 / 100) with
        links := [⟨.zero, 0, 0, Inertia.zero, .zero, .zero⟩], joint_params := [] }
      parse stdEnv.toEnv s) = _
    rw [hi _ rfl rfl]
    exact parse_ok hc
  · have e : qpGeoms.mergeSort (fun g h => decide (g.link_idx ≤ h.link_idx)) = qpGeoms := by
      unfold qpGeoms
      rw [List.mergeSort_singleton]
    unfold normalised
    simp only [hs0, qpSys, e]
    rfl

/-! ## an example -/

/-- reads the words of the description -/
noncomputable def wordsTxt : Txt ℝ where
  fmt _ := ""
  num w := if w = "0" then some 0 else if w = "0.1" then some (1 / 10) else if w = "3" then some 3
    else if w = "0.002" then some (2 / 1000) else if w = "0.01" then some (1 / 100) else none
  fmtInt _ := ""
  toInt _ := none
  euler _ := ⟨1, 0, 0, 0⟩

theorem wordsTxt_reads : ReadsWords wordsTxt where
  zero := by simp [wordsTxt]
  damping := by simp [wordsTxt]
  stiffness := by simp [wordsTxt]
  mass := by simp [wordsTxt]
  dim := by simp [wordsTxt]
  name := by simp [wordsTxt]
  joint := by simp [wordsTxt]
  type := by simp [wordsTxt]

example : ∃ s, load_sys_from_str stdEnv.toEnv wordsTxt
    { init := fun _ => some none, split := fun k n => List.replicate n k, default := () } (0 : Nat) qpXml = .ok s ∧
    { s with dt := 1 / 100 } = qpSys (1 / 100) :=
  C107_loaded wordsTxt_reads rfl 0 (1 / 100)

end sensors
end RingLib
