import Verif.Spec.Optimizer

/-!
# Specification: graphs that are ready for an optimizer
-/

namespace Factorama.Spec
variable {F V : Type} [Zero F] [VarLike F V]

/-- A graph an optimizer can work on and on which no Jacobian was evaluated yet: it is finalized, different variables have
different ids, and factors name their variables once and return blocks of the right sizes. -/
structure Unused (w : World F V) : Prop where
  history : ∃ h0 pre post, FinalizedAfter h0 pre post w ∧ NoJacobianYet (pre ++ post)
  ids : IdsIdentify w.heap w.graph.getAllVariables w.graph.getAllFactors
  noRepeats : NoRepeats w.graph.getAllFactors
  safe : ∀ f ∈ w.graph.getAllFactors, ReuseSafe f
  proper : ∀ h, SameShape w.heap h → ∀ f ∈ w.graph.getAllFactors, ∀ js, f.computeJacobians h [] = .ok js → ProperBlocks h f js

end Factorama.Spec
