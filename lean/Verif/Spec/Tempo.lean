import Verif.Model.System

/-!
# Specification: the same system under another gravity
-/

namespace RingLib

/-- the system under another gravity -/
def System.under {α π' : Type} (s : System α π') (g : Vec3 α) : System α π' := { s with gravity := g }

end RingLib
