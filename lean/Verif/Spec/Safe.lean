import Verif.Spec.Construct
import Verif.Spec.Optimizer
import Verif.Model.Names

/-!
# Specification: variables and factors that have not been misused
-/

namespace Factorama.Spec

/-- A variable that has not been misused: its vector has the size that belongs to its class, a generic one is not empty, and an
inverse range is within bounds that exclude zero. -/
def Sound : RVar → Prop
  | .generic v => v.value ≠ []
  | .landmark v => v.value.length = 3
  | .pose v => v.value.length = 6
  | .rotation _ | .plane _ | .pose2d _ => True
  | .invRange v => v.value.length = 1 ∧ 1e-9 ≤ v.lo ∧ v.lo ≤ v.hi ∧ v.lo ≤ v.inv

/-- The factor comes from a constructor of the library in a debug build, called with pointers to variables of the declared classes,
whose sizes have not changed since. The conditions on the arguments are those that the constructors of `LinearVelocityFactor` and
`PlaneFactor` should check but do not. -/
def FromConstructor (h : Heap RVar) (f : Factor ℝ RVar) : Prop :=
  ∃ (h0 : Heap RVar) (id : Int) (a : FactorArgs), construct .debug h0 id a = .made f ∧ Declared h a ∧
    (∀ r, some r ∈ pointers a → VarLike.size (F := ℝ) (h r) = VarLike.size (F := ℝ) (h0 r)) ∧ IndexFits h0 a ∧
    (∀ p l s r0 p0, a = .plane p l s (some (r0, p0)) → 0 < r0) ∧ classOf a ≠ .bearingProjection

/-- The variable is in the graph, or used by one of its factors. -/
def Used (vars : List VRef) (facs : List (Factor ℝ RVar)) (r : VRef) : Prop := r ∈ vars ∨ ∃ f ∈ facs, some r ∈ f.variables

/-- The library is used as intended: the graph is finalized (and no Jacobian was computed before that), identifiers identify, no factor
uses a variable twice, the optimizer has been given the graph, variables and factors have not been misused, no plane is free, and
something is. -/
structure Intended {Fact : Type} (s : OptWorld ℝ RVar Fact) : Prop where
  history : ∃ h0 pre post, FinalizedAfter h0 pre post ⟨s.heap, s.graph⟩ ∧ NoJacobianYet pre
  ids : IdsIdentify s.heap s.graph.getAllVariables s.graph.getAllFactors
  noRepeats : NoRepeats s.graph.getAllFactors
  graph : s.opt.hasGraph = true
  sound : ∀ r, Used s.graph.getAllVariables s.graph.getAllFactors r → Sound (s.heap r)
  made : ∀ f ∈ s.graph.getAllFactors, FromConstructor s.heap f
  planes : ∀ r ∈ s.graph.getAllVariables, VarLike.isConst (F := ℝ) (s.heap r) = false → (s.heap r).cls ≠ .plane
  free : 0 < freeTotal (F := ℝ) s.heap s.graph.getAllVariables

/-- The calls that may be made then: all except those that change the structure, where vectors are of the size of the variable, or of the
graph, for which they are meant. -/
def GoodCall {Fact : Type} (s : OptWorld ℝ RVar Fact) : Opt.Call ℝ RVar → Prop
  | .user (.setValue r x) => Used s.graph.getAllVariables s.graph.getAllFactors r ∧ x.length = VarLike.size (F := ℝ) (s.heap r)
  | .user (.incrOne r x) => Used s.graph.getAllVariables s.graph.getAllFactors r ∧ x.length = VarLike.size (F := ℝ) (s.heap r) ∧
      (s.heap r).cls ≠ .plane
  | .user (.setVector x) => x.length = freeTotal (F := ℝ) s.heap s.graph.getAllVariables
  | .user (.addVariable _) | .user (.addFactor _) | .user .finalize | .user (.setConstant _ _) => False
  | .setup hasGraph _ => hasGraph = true
  | .user (.applyIncrement _) | .user .residual | .user (.residualInto _) | .user .dense | .user .denseAndResidual | .user .sparse
  | .user .copy | .optimize | .prepare => True

/-- The outcomes of calls made one after the other, whatever the undetermined choices. -/
noncomputable def outcomes {Fact : Type} (A : Arith ℝ) (L : LinAlg ℝ Fact) :
    OptWorld ℝ RVar Fact → List (Env ℝ RVar × Opt.Call ℝ RVar) → List (Opt.Call ℝ RVar × Res Unit)
  | _, [] => []
  | s, (env, c) :: cs => (c, (Opt.step A L env c s).2) :: outcomes A L (Opt.step A L env c s).1 cs

end Factorama.Spec
