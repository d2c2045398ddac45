import Verif.Spec.Optimizer

/-!
# Specification vocabulary: the iteration limit
-/

namespace Factorama.Spec
variable {F V Fact : Type}

/-- The same situation with another `max_num_iterations`. -/
def withLimit (m : Nat) (s : OptWorld F V Fact) : OptWorld F V Fact :=
  { s with opt := { s.opt with settings := { s.opt.settings with maxIterations := m } } }

end Factorama.Spec
