import Verif.Model.Generic
import Verif.Spec.Affine

/-!
# Specification: a variable that is measured directly
-/

namespace Factorama.Spec
variable {V : Type} [VarLike ℝ V]

/-- The only factors of the list that mention `v` are the priors at the places `K`; the one at place `k` says that the value is
`p k`, with standard deviation `σ k`. -/
structure OnlyPriors (facs : List (Factor ℝ V)) (v : VRef) (n : Nat) (K : Finset Nat) (p : Nat → List ℝ) (σ : Nat → ℝ) : Prop where
  mention : ∀ (k : Nat) (f : Factor ℝ V), facs[k]? = some f → some v ∈ f.variables → k ∈ K
  prior : ∀ k ∈ K, (p k).length = n ∧ σ k ≠ 0 ∧ ∃ id, facs[k]? = some (genericPrior id v (p k) (1 / σ k))

/-- The sum of the inverse variances. -/
noncomputable def precision (K : Finset Nat) (σ : Nat → ℝ) : ℝ := ∑ k ∈ K, 1 / σ k ^ 2

/-- The mean of component `j` of the measured values, weighted with the inverse variances. -/
noncomputable def weightedMean (K : Finset Nat) (p : Nat → List ℝ) (σ : Nat → ℝ) (j : Nat) : ℝ :=
  (∑ k ∈ K, (p k).getD j 0 / σ k ^ 2) / precision K σ

end Factorama.Spec
