import Verif.Spec.Morph

/-!
# Specification vocabulary for holding systems at other links

Everything is said in terms of the names of links.
-/

namespace RingLib
open System algebra
variable {α π : Type}

/-- the links that are attached to the world -/
def System.worldNames (E : Env α π) (s : System α π) : List String :=
  s.link_names.filter fun m => (s.view E m).map LinkView.parent = some none

/-- one of the two links is the parent of the other -/
def System.Linked (E : Env α π) (s : System α π) (m n : String) : Prop :=
  (∃ v, s.view E m = some v ∧ v.parent = some n) ∨ (∃ v, s.view E n = some v ∧ v.parent = some m)

/-- the poses of all links when no joint is deflected -/
def System.AtRest [Ring α] (E : Env α π) (s : System α π) (X : String → Transform α) : Prop :=
  ∀ m v, s.view E m = some v → X m = transform_mul v.row.transform1 (v.parent.elim .zero X)

/-- a joint: type, damping, armature, stiffness, zero point and parameters -/
abbrev Joint (α π : Type) :=
  String × List α × List α × List α × List α × (String → Option π)

def LinkView.joint (v : LinkView α π) : Joint α π :=
  (v.type, v.damping, v.armature, v.stiffness, v.zeropoint, v.joint_params)

/-- the joints of the links with the given names -/
def System.jointsOf (E : Env α π) (s : System α π) (names : List String) : List (Option (Joint α π)) :=
  names.map fun m => (s.view E m).map LinkView.joint

/-- `s'` consists of those links of `s` that are in `part`, and is held at the links `anchors`. -/
structure System.HeldAt [Field α] (E : JEnv α π) (s : System α π) (part : String → Prop)
    (anchors : List String) (s' : System α π) : Prop where
  wf : s'.WF E.toEnv
  /-- the links -/
  mem : ∀ m, m ∈ s'.link_names ↔ m ∈ s.link_names ∧ part m
  anchors_mem : ∀ a ∈ anchors, a ∈ s'.link_names
  /-- the anchors, and only they, are attached to the world -/
  world : ∀ m v, s'.view E.toEnv m = some v → (v.parent = none ↔ m ∈ anchors)
  /-- the connections between the links -/
  linked : ∀ m n, part m → part n → (s'.Linked E.toEnv m n ↔ s.Linked E.toEnv m n)
  /-- the joints are the same, each of them is used once -/
  joints : ∃ names : List String, names.Nodup ∧ (∀ m, m ∈ names ↔ m ∈ s.link_names ∧ part m) ∧
    (s'.jointsOf E.toEnv s'.link_names).Perm (s.jointsOf E.toEnv names)
  /-- every link keeps its marker -/
  omc : ∀ m v v', s.view E.toEnv m = some v → s'.view E.toEnv m = some v' → v'.omc = v.omc
  /-- when no joint is deflected, every geometry is where it was -/
  scene : ∀ X, s.AtRest E.toEnv X → ∃ X', s'.AtRest E.toEnv X' ∧
    ∀ m v v', s.view E.toEnv m = some v → s'.view E.toEnv m = some v' →
      v'.geoms.map (morph.GeomData.shifted (X' m)) = v.geoms.map (morph.GeomData.shifted (X m))
  globals : s'.globals = s.globals
  /-- the kinds of joint parameters -/
  keys : ∀ t, t ∈ s'.joint_params.map (·.1) ↔ t ∈ s.joint_params.map (·.1)

/-- For every tree of `s` one of its links that are in `anchors`, or the root of the tree when there are
none. -/
def System.IsChoice (E : Env α π) (s : System α π) (anchors choice : List String) : Prop :=
  List.Forall₂ (fun root a => s.IsDesc root a ∧
    (a ∈ anchors ∨ (a = root ∧ ∀ x ∈ anchors, ¬ s.IsDesc root x))) (s.worldNames E) choice

end RingLib
