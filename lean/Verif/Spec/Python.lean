import Verif.Model.Python

/-!
# Specification vocabulary: Python programs
-/

namespace Factorama.Spec
open Py
variable {F V : Type}

/-- The action only asks for variables. -/
def looksUp : Py.Action F V → Bool
  | .getVariable _ | .getAllVariables | .factorVariables _ => true
  | _ => false

/-- The same program without asking for variables. -/
def withoutLooks (prog : List (Py.Action F V)) : List (Py.Action F V) := prog.filter fun a => !looksUp a

end Factorama.Spec
