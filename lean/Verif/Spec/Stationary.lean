import Verif.Spec.Affine
import Verif.Spec.LinearAlgebra
import Mathlib.Analysis.Real.Sqrt

/-!
# Specification of stationary points and of distances between values
-/

namespace Factorama.Spec
open Matrix

/-- The Euclidean length of a vector. -/
noncomputable def euclidean {n : Nat} (x : Fin n → ℝ) : ℝ := √(x ⬝ᵥ x)

/-- The root of the sum of the squares of all entries of a matrix. -/
noncomputable def entrywise {m n : Nat} (M : Matrix (Fin m) (Fin n) ℝ) : ℝ := √(∑ i, ∑ j, M i j ^ 2)

end Factorama.Spec

namespace Factorama.Spec
open Matrix
variable {V : Type} [VarLike ℝ V]

/-- The sum of the squares of the differences of all components of the free variables: the square of the distance between
the values in `h` and in `h'`. The variables and their sizes are those of `h0`. -/
noncomputable def apart (h0 : Heap V) (vars : List VRef) (h h' : Heap V) : ℝ :=
  ((vars.filter fun r => !VarLike.isConst (h0 r)).map fun r =>
    ∑ j ∈ Finset.range (VarLike.size (h0 r)), (component (h r) j - component (h' r) j) ^ 2).sum

/-- The values in `h` solve the problem: the gradient of the cost vanishes there. -/
def Solution (h : Heap V) (vars : List VRef) (facs : List (Factor ℝ V)) : Prop :=
  ∃ r J, Linearised h vars facs r J ∧ gradient J r = 0

/-- A change of the variables changes the linearised residual: the squared length of the change of the residual is at least
`μ` times that of the change of the variables. -/
def Determines (μ : ℝ) (J : SpMat ℝ) : Prop :=
  ∀ v : Fin J.columns.length → ℝ, μ * (v ⬝ᵥ v) ≤ (jacobianMatrix J *ᵥ v) ⬝ᵥ (jacobianMatrix J *ᵥ v)

/-- The dampings of the iterations of a run in which the first trial of every iteration is accepted. -/
noncomputable def fallingDamping (settings : Settings ℝ) : Nat → ℝ
  | 0 => settings.initialLambda
  | k + 1 => max (fallingDamping settings k * settings.lambdaDown) (1 / 10 ^ 12)

end Factorama.Spec
