import Verif.Spec.Affine
import Verif.Spec.LinearAlgebra

/-!
# Specification of convergence near an exact fit

How far the variables are from a solution is given by a function `D`: `D r v j` is the `j`-th component of the increment that
takes the value `v` of variable `r` to its value in the solution. For variables whose increments are additions it is the
difference of the components.
-/

namespace Factorama.Spec
open Matrix
variable {V : Type} [VarLike ℝ V]

/-- No component of any free variable is farther than `δ` from the solution. -/
def OffBy (D : VRef → V → Nat → ℝ) (h : Heap V) (vars : List VRef) (δ : ℝ) : Prop :=
  ∀ r ∈ vars, VarLike.isConst (h r) = false → ∀ j, j < VarLike.size (h r) → |D r (h r) j| ≤ δ

/-- Residual and Jacobian of the factor at a point near the solution predict a residual of zero for the solution, with an
error of at most `K` times the square of the distance. -/
def FitsNear (D : VRef → V → Nat → ℝ) (h0 : Heap V) (vars : List VRef) (ρ K : ℝ) (f : Factor ℝ V) : Prop :=
  ∀ h, SameButFree h0 h vars → ∀ δ, δ ≤ ρ → OffBy D h vars δ → ∀ s js, f.computeResidual h = .ok s →
    f.computeJacobians h [] = .ok js → ∀ i, i < f.residualSize →
      |s.getD i 0 + ∑ p ∈ Finset.range f.variables.length, contribution h f js (fun r => D r (h r)) i p| ≤ K * δ ^ 2

/-- An increment `x` of a variable that is off by at most `δ` leaves it off by what is missing, with an error of at most `κ`
times the product of the two lengths. -/
def MovesBy (D : VRef → V → Nat → ℝ) (h0 : Heap V) (vars : List VRef) (ρ κ : ℝ) : Prop :=
  ∀ h, SameButFree h0 h vars → ∀ r ∈ vars, VarLike.isConst (h0 r) = false → ∀ (x : List ℝ) (v' : V),
    VarLike.applyIncr (h r) x = .ok v' → ∀ δ, δ ≤ ρ → (∀ j, j < VarLike.size (h0 r) → |D r (h r) j| ≤ δ) →
    ∀ η, (∀ j, j < VarLike.size (h0 r) → |x.getD j 0| ≤ η) →
    ∀ j, j < VarLike.size (h0 r) → |D r v' j - (D r (h r) j - x.getD j 0)| ≤ κ * δ * η

/-- Every direction shows in the residual: no component of a change of the variables is larger than `1/σ` times the change
of the linearised residual. -/
def Measured (σ : ℝ) (J : SpMat ℝ) : Prop :=
  ∀ (v : Fin J.columns.length → ℝ) (c : Fin J.columns.length), (σ * v c) ^ 2 ≤ (jacobianMatrix J *ᵥ v) ⬝ᵥ (jacobianMatrix J *ᵥ v)

/-- The distance from a solution `hs` for variables whose increments are additions. -/
noncomputable def gap (hs : Heap V) : VRef → V → Nat → ℝ := fun r v j => component (hs r) j - component v j

end Factorama.Spec
