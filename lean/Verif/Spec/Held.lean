import Verif.Spec.Informative

/-!
# Specification: holding variables constant
-/

namespace Factorama.Spec
variable {V : Type} [VarLike ℝ V]

/-- `x'` has the values of `x`; some variables of `x'` have been set constant. -/
def Held (x x' : Heap V) : Prop := ∀ r, x' r = x r ∨ x' r = VarLike.setConst (F := ℝ) (x r) true

/-- The Jacobian blocks of a factor for the variables that stay free are the same when others are held constant. -/
def SameFreeBlocks (f : Factor ℝ V) (x x' : Heap V) : Prop :=
  ∀ js js', f.computeJacobians x [] = .ok js → f.computeJacobians x' [] = .ok js' → ∀ (p : Nat) (q : VRef) (B B' : Mat ℝ),
    f.variables[p]? = some (some q) → VarLike.isConst (F := ℝ) (x' q) = false → js[p]? = some B → js'[p]? = some B' → B' = B

end Factorama.Spec
