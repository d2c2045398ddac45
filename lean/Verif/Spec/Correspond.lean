import Verif.Spec.Steps
import Verif.Spec.LinearAlgebra

/-!
# Specification: problems that correspond to each other
-/

namespace Factorama.Spec
open Matrix
variable {V : Type} [VarLike ℝ V]

/-- Statistics of a run whose residuals are `c` times as large. -/
noncomputable def scaledStats (c : ℝ) (x : Stats ℝ) : Stats ℝ :=
  { x with chi2 := c ^ 2 * x.chi2, residualNorm := c * x.residualNorm }

/-- Settings for residuals that are `c` times as large: the tolerance for residuals is adapted. -/
noncomputable def scaledSettings (c : ℝ) (x : Settings ℝ) : Settings ℝ := { x with residualTolerance := c * x.residualTolerance }

/-- `H` relates the values of one problem to the values of another such that costs, linear systems and steps correspond: the
cost is `c²` times as large, the matrix and the gradient are those of the first problem times `c²` in other orthonormal
coordinates `B`, and steps that are equal in these coordinates lead to related values. -/
structure Correspond (c : ℝ) (H : Heap V → Heap V → Prop) (vars : List VRef) (facs : List (Factor ℝ V)) (vars' : List VRef)
    (facs' : List (Factor ℝ V)) : Prop where
  cost : ∀ h h' r r', H h h' → IsResidual h facs r → IsResidual h' facs' r' →
    realArith.sqNorm r' = c ^ 2 * realArith.sqNorm r
  step : ∀ h h' r r' J J', H h h' → Linearised h vars facs r J → Linearised h' vars' facs' r' J' →
    ∃ B : Matrix (Fin J'.columns.length) (Fin J.columns.length) ℝ, Bᵀ * B = 1 ∧ B * Bᵀ = 1 ∧
      ((jacobianMatrix J')ᵀ * jacobianMatrix J') * B = c ^ 2 • (B * ((jacobianMatrix J)ᵀ * jacobianMatrix J)) ∧
      gradient J' r' = c ^ 2 • (B *ᵥ gradient J r) ∧
      ∀ rate d d' g g', d.length = J.columns.length → d'.length = J'.columns.length →
        asVec J'.columns.length d' = B *ᵥ asVec J.columns.length d → Stepped h g vars (realArith.scale rate d) →
        Stepped h' g' vars' (realArith.scale rate d') → H g g'

/-- An optimizer with a graph it can work on: the graph is finalized, no Jacobian was evaluated before that, different
variables have different ids, and factors name their variables once and return blocks of the right sizes. -/
structure Prepared {Fact : Type} (s : OptWorld ℝ V Fact) : Prop where
  history : ∃ h0 pre post, FinalizedAfter h0 pre post ⟨s.heap, s.graph⟩ ∧ NoJacobianYet pre
  ids : IdsIdentify s.heap s.graph.getAllVariables s.graph.getAllFactors
  noRepeats : NoRepeats s.graph.getAllFactors
  safe : ∀ f ∈ s.graph.getAllFactors, ReuseSafe f
  proper : ∀ h, SameShape s.heap h → ∀ f ∈ s.graph.getAllFactors, ∀ js, f.computeJacobians h [] = .ok js → ProperBlocks h f js
  graph : s.opt.hasGraph = true

end Factorama.Spec
