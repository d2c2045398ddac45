import Verif.Model.Views

/-!
# Specification vocabulary: arrays handed out
-/

namespace Factorama.Spec
open Opt
variable {F V : Type}

/-- Calls that evaluate the residuals into the graph's own vector, or copy or restructure the graph. -/
def renews : Call F V → Bool
  | .user .residual | .user .denseAndResidual | .user .copy | .optimize => true
  | _ => false

/-- Calls that may write the variable `r`. -/
def writes (r : VRef) : Call F V → Bool
  | .user (.setValue q _) | .user (.incrOne q _) | .user (.setConstant q _) => q == r
  | .user (.setVector _) | .user (.applyIncrement _) | .optimize => true
  | _ => false

end Factorama.Spec
