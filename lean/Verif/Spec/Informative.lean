import Verif.Spec.Units

/-!
# Specification: more or better measurements
-/

namespace Factorama.Spec

/-- Every factor of `facs` is found in `facs'`, each in a place of its own, with the same or a higher precision; `facs'` may
have further factors. -/
def MoreInformative {V : Type} (facs facs' : List (Factor ℝ V)) : Prop :=
  ∃ (at_ : Fin facs.length → Fin facs'.length) (c : Fin facs.length → ℝ), Function.Injective at_ ∧
    ∀ k, 1 ≤ c k ∧ Rescaled (c k) facs[k] facs'[at_ k]

/-- The variance of the combination of the components of a variable with coefficients `z`, according to a reported covariance. -/
noncomputable def varianceOf (P : Mat ℝ) (z : Nat → ℝ) : ℝ :=
  ∑ i ∈ Finset.range P.rows, ∑ j ∈ Finset.range P.cols, z i * P.entry i j * z j

end Factorama.Spec
