import Verif.Spec.Report

/-!
# Specification of the times of a run
-/

namespace Factorama
variable {F : Type}

/-- The message says that a trial of Levenberg-Marquardt was refused, or that the damping has reached its limit. -/
def Message.isTrouble : Message F → Bool
  | .lmFactorizationFailed _ => true
  | .lmBadHessian _ _ _ _ => true
  | .lmSolveFailed _ => true
  | .lmLambdaTooLarge _ _ => true
  | _ => false

end Factorama
