import Verif.Spec.LinearAlgebra

/-!
# Specification vocabulary: conditioning
-/

namespace Factorama.Spec
open Matrix

/-- The squared length of `J x` lies between `low` and `high` times that of `x`: with the tightest such numbers, the smallest
and largest eigenvalue of `JᵀJ`. -/
def Between (J : SpMat ℝ) (low high : ℝ) : Prop :=
  ∀ x : Fin J.columns.length → ℝ, low * (x ⬝ᵥ x) ≤ (jacobianMatrix J *ᵥ x) ⬝ᵥ (jacobianMatrix J *ᵥ x) ∧
    (jacobianMatrix J *ᵥ x) ⬝ᵥ (jacobianMatrix J *ᵥ x) ≤ high * (x ⬝ᵥ x)

/-- The eigenvalues of `JᵀJ` are at least `10⁻¹⁴` and differ by a factor of at most `10¹²`. -/
def WellConditioned (J : SpMat ℝ) : Prop := ∃ low high, Between J low high ∧ 1 / 10 ^ 14 ≤ low ∧ high ≤ 10 ^ 12 * low

end Factorama.Spec
