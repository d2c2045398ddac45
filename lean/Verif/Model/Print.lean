import Verif.Model.Optimizer

/-!
# Model of the printing functions (`FactorGraph::print_*`, `SparseOptimizer::print_all_covariances`)

A printing function is modelled by what it reports, its outcome and its effect on the state. The format of the text is
not modelled.
-/

namespace Factorama
variable {F V Fact : Type} [Zero F] [VarLike F V]

/-- The numbers printed by `print_structure`. -/
structure StructureReport where
  «variables» : Nat
  factors : Nat
  residuals : Nat
  values : Nat
  deriving Repr, DecidableEq

/-- What `print_jacobian_and_residual` prints: the shape of the dense Jacobian, the columns with the warning
"Near-zero column in Jacobian", and the norm of the residual. Rank and condition number come from Eigen's SVD and are not
modelled. -/
structure JacobianReport (F : Type) where
  rows : Nat
  cols : Nat
  nearZero : List Nat
  residualNorm : F
  deriving DecidableEq

/-- What `print_all_covariances` prints for a variable. -/
inductive CovarianceLine (F : Type) where
  /-- "constant" -/
  | constant
  /-- "invalid" -/
  | invalid
  /-- the matrix -/
  | matrix (P : Mat F)

/-- Column `j` of a dense matrix. -/
def Mat.column (m : Mat F) (j : Nat) : List F := (List.range m.rows).map fun i => m.entry i j

namespace Graph

/-- `print_structure`, factor_graph.cpp:485-496. -/
def printStructure (g : Graph F V) : Res StructureReport :=
  if !g.finalized then .threw else .ok ⟨g.varsVec.length, g.facs.length, g.numResiduals, g.numValues⟩

/-- `print_variables`, factor_graph.cpp:498-505: the objects whose `print()` is called, in order. -/
def printVariables (h : Heap V) (g : Graph F V) : List V := g.varsVec.map h

/-- `print_jacobian_and_residual`, factor_graph.cpp:507-533. The singular values of an empty matrix are read out of
range. -/
def printJacobian (A : Arith F) (env : Env F V) (h : Heap V) : SE (Graph F V) (JacobianReport F) :=
  SE.bind (computeDenseAndResidual env h) fun _ =>
  SE.bind SE.get fun g =>
  if !g.jacValid then SE.throw
  else if g.cachedJac.isEmpty then SE.undefined
  else SE.ret {
    rows := g.cachedJac.rows
    cols := g.cachedJac.cols
    nearZero := (List.range g.cachedJac.cols).filter fun j =>
      A.lt (A.norm (g.cachedJac.column j)) (A.lit (1 / 10 ^ 12))
    residualNorm := A.norm g.cachedRes }

end Graph

namespace Opt

/-- Loop of `print_all_covariances`, sparse_optimizer.cpp:673-687. -/
def covarianceLines (A : Arith F) (L : LinAlg F Fact) (s : OptWorld F V Fact) :
    List VRef → Res (List (VRef × CovarianceLine F))
  | [] => .ok []
  | r :: rs =>
    if VarLike.isConst (s.heap r) then
      match covarianceLines A L s rs with
      | .ok ls => .ok ((r, .constant) :: ls)
      | .threw => .threw
      | .ub => .ub
    else match estimateCovariance A L s (some r) with
      | .ok P =>
        match covarianceLines A L s rs with
        | .ok ls => .ok ((r, match P with | some P => .matrix P | none => .invalid) :: ls)
        | .threw => .threw
        | .ub => .ub
      | .threw => .threw
      | .ub => .ub

/-- `print_all_covariances`, sparse_optimizer.cpp:665-688. Without a graph the null pointer is dereferenced. -/
def printAllCovariances (A : Arith F) (L : LinAlg F Fact) : SE (OptWorld F V Fact) (List (VRef × CovarianceLine F)) :=
  SE.bind SE.get fun s0 =>
  SE.bind (if s0.opt.hessianValid then SE.ret () else prepare A L) fun _ =>
  SE.bind SE.get fun s =>
  if !s.opt.hasGraph then SE.undefined else SE.lift (covarianceLines A L s s.graph.getAllVariables)

end Opt

end Factorama
