import Verif.Spec.Renaming
import Verif.Model.Variables

/-!
# Specification: variable objects with another id
-/

namespace Factorama

/-- The object of any class of the library with another id. -/
def RVar.withId : RVar → Int → RVar
  | .generic v, i => .generic { v with id := i }
  | .landmark v, i => .landmark { v with id := i }
  | .pose v, i => .pose { v with id := i }
  | .rotation v, i => .rotation { v with id := i }
  | .invRange v, i => .invRange { v with id := i }
  | .plane v, i => .plane { v with id := i }
  | .pose2d v, i => .pose2d { v with id := i }

namespace Spec

/-- The same object, up to its id. -/
def SameUpToId (v v' : RVar) : Prop := ∃ i, v' = v.withId i

end Spec
end Factorama
