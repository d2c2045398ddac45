import Verif.Model.Optimizer

/-!
# Specification: the same program with other identifiers
-/

namespace Factorama.Spec
open Opt

/-- Both calls return related objects, both throw, or both are undefined. -/
def SameOutcome {V : Type} (E : V → V → Prop) : Res V → Res V → Prop
  | .ok v, .ok v' => E v v'
  | .threw, .threw => True
  | .ub, .ub => True
  | _, _ => False

variable {F V Fact : Type} [VarLike F V]

/-- `E` relates variable objects that differ at most in their ids: they show the same, and stay related under every change. -/
structure DifferInId (E : V → V → Prop) : Prop where
  isConst : ∀ v v', E v v' → VarLike.isConst v' = VarLike.isConst v
  size : ∀ v v', E v v' → VarLike.size v' = VarLike.size v
  value : ∀ v v', E v v' → VarLike.value v' = VarLike.value v
  setConst : ∀ v v' b, E v v' → E (VarLike.setConst v b) (VarLike.setConst v' b)
  setValue : ∀ v v' x, E v v' → SameOutcome E (VarLike.setValue v x) (VarLike.setValue v' x)
  applyIncr : ∀ v v' x, E v v' → SameOutcome E (VarLike.applyIncr v x) (VarLike.applyIncr v' x)

/-- The objects `h'` are the objects `h` with other ids: two objects share an id exactly if they did before. -/
def OtherIds (E : V → V → Prop) (h h' : Heap V) : Prop :=
  (∀ r, E (h r) (h' r)) ∧ ∀ r r', VarLike.id (h' r) = VarLike.id (h' r') ↔ VarLike.id (h r) = VarLike.id (h r')

/-- Different ids stay different. -/
def Distinct (τ : Int → Int) : Prop := ∀ i j, τ i = τ j → i = j

omit [VarLike F V]

/-- The factor ignores the ids of its variables. -/
def IgnoresIds (E : V → V → Prop) (f : Factor F V) : Prop :=
  ∀ h h' : Heap V, (∀ r, E (h r) (h' r)) →
    f.computeResidual h' = f.computeResidual h ∧ ∀ buf, f.computeJacobians h' buf = f.computeJacobians h buf

/-- The factor with another id. -/
def renamed (τ : Int → Int) (f : Factor F V) : Factor F V := { f with id := τ f.id }

/-- The call, with another id for the factor it offers. -/
def renamedCall (τ : Int → Int) : Call F V → Call F V
  | .user (.addFactor (some f)) => .user (.addFactor (some (renamed τ f)))
  | c => c

/-- The history, with other ids for the factors offered. -/
def renamedCalls (τ : Int → Int) (evs : List (Call F V × Res Unit)) : List (Call F V × Res Unit) :=
  evs.map fun ev => (renamedCall τ ev.1, ev.2)

/-- Every factor offered in the history ignores ids. -/
def OffersIgnoring (E : V → V → Prop) (evs : List (Call F V × Res Unit)) : Prop :=
  ∀ f r, (.user (.addFactor (some f)), r) ∈ evs → IgnoresIds E f

/-- The placement of a renamed factor. -/
def renamedPlace (τ : Int → Int) (p : FacPlacement F V) : FacPlacement F V := { p with factor := renamed τ p.factor }

/-- Nothing but ids tells the two states apart: the same variables with the same values, the same factors, the same matrices
and vectors, the same placement of every variable and factor, the same answer to every question about covariances, and the
same settings and statistics. -/
structure SameExceptIds [Zero F] [VarLike F V] (A : Arith F) (L : LinAlg F Fact) (E : V → V → Prop) (τ : Int → Int)
    (s s' : OptWorld F V Fact) : Prop where
  objects : ∀ r, E (s.heap r) (s'.heap r)
  values : ∀ r, VarLike.value (s'.heap r) = VarLike.value (s.heap r)
  opt : s'.opt = s.opt
  variables : s'.graph.getAllVariables = s.graph.getAllVariables
  factors : s'.graph.getAllFactors = s.graph.getAllFactors.map (renamed τ)
  byId : ∀ r, s'.graph.getVariable (VarLike.id (s'.heap r)) = s.graph.getVariable (VarLike.id (s.heap r))
  vector : ∀ env env' : Env F V, env'.junk = env.junk →
    s'.graph.getVariableVector env' s'.heap = s.graph.getVariableVector env s.heap
  residual : s'.graph.residual = s.graph.residual
  jacobian : s'.graph.jacobian = s.graph.jacobian
  sparseJacobian : s'.graph.sparseJacobian = s.graph.sparseJacobian
  placement : ∀ r, s'.graph.variablePlacement (VarLike.id (s'.heap r)) = s.graph.variablePlacement (VarLike.id (s.heap r))
  factorPlacement : ∀ i, s'.graph.factorPlacement i = (s.graph.factorPlacement i).map (renamedPlace τ)
  covariance : ∀ v, estimateCovariance A L s' v = estimateCovariance A L s v

end Factorama.Spec
