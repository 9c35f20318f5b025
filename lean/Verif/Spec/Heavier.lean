import Verif.Model.System
import Mathlib.Data.Real.Basic

/-!
# Specification: the same system made of another material
-/

namespace RingLib

/-- the same body of `c` times the mass -/
def Geometry.heavier {α : Type} [Mul α] (c : α) (g : Geometry α) : Geometry α := { g with mass := c * g.mass }

/-- the system with `c` times the mass in every body and `c` times the armature; the inertias of the links are computed
anew from the bodies -/
def System.heavier {α π' : Type} [Field α] (pi c : α) (s : System α π') : System α π' :=
  { s with
    geoms := s.geoms.map (Geometry.heavier c)
    link_armature := s.link_armature.map (c * ·)
    links := s.links.mapIdx fun i l =>
      { l with inertia := compute_inertia_per_link pi (s.geoms.map (Geometry.heavier c)) i } }

/-- the heavier system with proportionally stronger springs and dampers. Forward dynamics adds a millionth to the
diagonal of the mass matrix; the armature makes up for that. -/
noncomputable def System.scaled {π' : Type} (pi c : ℝ) (s : System ℝ π') : System ℝ π' :=
  { s.heavier pi c with
    link_armature := s.link_armature.map fun a => c * (a + 1e-6) - 1e-6
    link_damping := s.link_damping.map (c * ·)
    link_spring_stiffness := s.link_spring_stiffness.map (c * ·) }

/-- only masses, armatures, springs and dampers `c` times as strong -/
noncomputable def System.plain {π' : Type} (pi c : ℝ) (s : System ℝ π') : System ℝ π' :=
  { s.heavier pi c with
    link_damping := s.link_damping.map (c * ·)
    link_spring_stiffness := s.link_spring_stiffness.map (c * ·) }

end RingLib
