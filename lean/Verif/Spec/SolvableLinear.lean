import Verif.Model.Generic
import Verif.Spec.Affine
import Verif.Spec.Conditioning
import Verif.Spec.Correspond

/-! # Linear problems that can be solved -/

namespace Factorama.Spec
open Graph Opt
variable {V Fact : Type} [VarLike ℝ V]

/-- Whatever the values of the graph's free variables, every factor can be evaluated and the variables take every increment of the
right length. -/
structure AlwaysEvaluates (h0 : Heap V) (vars : List VRef) (facs : List (Factor ℝ V)) : Prop where
  residual : ∀ h, SameButFree h0 h vars → ∀ f ∈ facs, ∃ r, f.computeResidual h = .ok r ∧ r.length = f.residualSize
  jacobians : ∀ h, SameButFree h0 h vars → ∀ f ∈ facs, ∃ js, f.computeJacobians h [] = .ok js
  increments : ∀ h, SameButFree h0 h vars → ∀ q ∈ vars, VarLike.isConst (h0 q) = false → ∀ x : List ℝ,
    x.length = VarLike.size (h0 q) → ∃ v', VarLike.applyIncr (h q) x = .ok v'

/-- A prepared problem with at least one free value whose residuals are affine functions of the values, which can always be
evaluated, and whose Jacobian is well conditioned. -/
structure SolvableLinear (s : OptWorld ℝ V Fact) : Prop where
  prepared : Prepared s
  affine : ∀ f ∈ s.graph.getAllFactors, ∃ B, AffineFactor s.heap f B
  additive : AdditiveIncrements s.heap s.graph.getAllVariables
  evaluates : AlwaysEvaluates s.heap s.graph.getAllVariables s.graph.getAllFactors
  free : 0 < freeTotal s.heap s.graph.getAllVariables
  conditioned : ∃ r J, Linearised s.heap s.graph.getAllVariables s.graph.getAllFactors r J ∧ WellConditioned J

/-- A prior or a difference of generic variables whose sizes match. -/
inductive SizedGeneric (h : Heap (GenVar ℝ)) : Factor ℝ (GenVar ℝ) → Prop where
  | prior (id : Int) (r : VRef) (prior : List ℝ) (w : ℝ) : (h r).value.length = prior.length →
      SizedGeneric h (genericPrior id r prior w)
  | between (id : Int) (a b m : VRef) (n : Nat) (w : ℝ) : (h a).value.length = n → (h b).value.length = n →
      (h m).value.length = n → SizedGeneric h (genericBetween id a b m n w)

end Factorama.Spec
