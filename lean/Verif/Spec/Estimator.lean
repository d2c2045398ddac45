import Verif.Spec.Affine
import Verif.Spec.Correspond

/-!
# Specification: other ways to estimate from the same measurements
-/

namespace Factorama.Spec
variable {V Fact : Type} [VarLike ℝ V]

/-- A weighted sum of the first `m` residuals. -/
def weighted (k : Nat → ℝ) (m : Nat) (r : List ℝ) : ℝ := ∑ a ∈ Finset.range m, k a * r.getD a 0

/-- A weighted sum of the components of the value of a variable with `n` entries. -/
noncomputable def combined (c : Nat → ℝ) (n : Nat) (v : V) : ℝ := ∑ j ∈ Finset.range n, c j * component v j

/-- The weights `k` recover `combined c` of the variable `v` from exact measurements: whenever the free variables change, the
weighted sum of the residuals changes as much as the combination does. (Measured values and constants enter both residuals in the
same way.) This is what makes an estimate with these weights right on average, whatever the true values are. -/
def Recovers (s : OptWorld ℝ V Fact) (v : VRef) (c k : Nat → ℝ) : Prop :=
  ∀ h h' r r', SameButFree s.heap h s.graph.getAllVariables → SameButFree s.heap h' s.graph.getAllVariables →
    IsResidual h s.graph.getAllFactors r → IsResidual h' s.graph.getAllFactors r' →
    weighted k (rowTotal s.graph.getAllFactors) r - weighted k (rowTotal s.graph.getAllFactors) r' =
      combined c (VarLike.size (s.heap v)) (h v) - combined c (VarLike.size (s.heap v)) (h' v)

/-- The estimate with the weights `k`: the start value, corrected by the weighted sum of the residuals `r` there. -/
noncomputable def estimateWith (s : OptWorld ℝ V Fact) (v : VRef) (c k : Nat → ℝ) (r : List ℝ) : ℝ :=
  combined c (VarLike.size (s.heap v)) (s.heap v) - weighted k (rowTotal s.graph.getAllFactors) r

end Factorama.Spec
