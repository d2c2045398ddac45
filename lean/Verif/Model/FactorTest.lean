import Verif.Model.Optimizer

/-!
# Numerical Jacobians and `FactorGraph::detailed_factor_test`

src/factorama/numerical_jacobian.hpp and src/factorama/factor_graph.cpp:535-669. As in the model of the optimizer the
scalar arithmetic is a parameter. Not modelled: the printed output.
-/

namespace Factorama
namespace FactorTest
variable {F V : Type} [Zero F] [Neg F] [VarLike F V]

/-- `dx = Zero(n); dx[k] = e`, numerical_jacobian.hpp:58-59. -/
def unitStep (n k : Nat) (e : F) : List F := (List.replicate n 0).set k e

/-- `(res_plus - res_minus) / (2.0 * epsilon)` assigned to a column of `m` entries, numerical_jacobian.hpp:76; another
size is an `eigen_assert`. -/
def centralDifference (A : Arith F) (m : Nat) (eps : F) (plus minus : List F) : Res (List F) :=
  if plus.length = m ∧ minus.length = m then
    .ok (List.zipWith (fun a b => A.div (A.sub a b) (A.mul (A.lit 2) eps)) plus minus)
  else .ub

/-- One column: the body of the inner loop, numerical_jacobian.hpp:53-77. -/
def numericalColumn (A : Arith F) (f : Factor F V) (r : VRef) (n : Nat) (eps : F) (k : Nat) : SE (Heap V) (List F) :=
  SE.bind SE.get fun h =>
  let x0 := VarLike.value (h r)
  let dx := unitStep n k eps
  SE.bind (Graph.mutate r fun v => VarLike.applyIncr v dx) fun _ => SE.bind SE.get fun h₁ =>
  SE.bind (SE.lift (f.computeResidual h₁)) fun plus =>
  SE.bind (Graph.mutate r fun v => VarLike.setValue v x0) fun _ =>
  SE.bind (Graph.mutate r fun v => VarLike.applyIncr v (dx.map (- ·))) fun _ => SE.bind SE.get fun h₂ =>
  SE.bind (SE.lift (f.computeResidual h₂)) fun minus =>
  SE.bind (Graph.mutate r fun v => VarLike.setValue v x0) fun _ =>
  SE.lift (centralDifference A f.residualSize eps plus minus)

/-- The inner loop over the columns `ks`, numerical_jacobian.hpp:53-78. -/
def numericalColumns (A : Arith F) (f : Factor F V) (r : VRef) (n : Nat) (eps : F) : List Nat → SE (Heap V) (List (List F))
  | [] => SE.ret []
  | k :: ks => SE.bind (numericalColumn A f r n eps k) fun c =>
    SE.bind (numericalColumns A f r n eps ks) fun cs => SE.ret (c :: cs)

/-- The block with the given columns. -/
def blockOfColumns (m n : Nat) (cols : List (List F)) : Mat F := ⟨m, n, fun i k => (cols.getD k []).getD i 0⟩

/-- The block of one variable: the body of the outer loop, numerical_jacobian.hpp:43-79. A null pointer is undefined
behaviour. -/
def numericalBlock (A : Arith F) (f : Factor F V) (eps : F) : Option VRef → SE (Heap V) (Mat F)
  | none => SE.undefined
  | some r => SE.bind SE.get fun h =>
    if VarLike.isConst (h r) then SE.ret Mat.empty
    else
      let n := VarLike.size (h r)
      SE.bind (numericalColumns A f r n eps (List.range n)) fun cols =>
      SE.ret (blockOfColumns f.residualSize n cols)

/-- The outer loop, numerical_jacobian.hpp:43-80. -/
def numericalBlocks (A : Arith F) (f : Factor F V) (eps : F) : List (Option VRef) → SE (Heap V) (List (Mat F))
  | [] => SE.ret []
  | v :: vs => SE.bind (numericalBlock A f eps v) fun J => SE.bind (numericalBlocks A f eps vs) fun Js => SE.ret (J :: Js)

/-- `ComputeNumericalJacobians(factor, out, epsilon)`, numerical_jacobian.hpp:31-81: the new contents of `out`. -/
def numericalJacobians (A : Arith F) (f : Factor F V) (eps : F) : SE (Heap V) (List (Mat F)) :=
  SE.bind SE.get fun h =>
  SE.bind (SE.lift (f.computeResidual h)) fun r0 =>
  if r0.length = f.residualSize then numericalBlocks A f eps f.variables else SE.undefined

/-- All entries of a matrix (column by column). -/
def entries (J : Mat F) : List F := (List.range J.cols).flatMap fun j => (List.range J.rows).map fun i => J.entry i j

/-- `J_n - J_a`, factor_graph.cpp:615. -/
def diffMat (A : Arith F) (Jn Ja : Mat F) : Mat F := ⟨Jn.rows, Jn.cols, fun i j => A.sub (Jn.entry i j) (Ja.entry i j)⟩

/-- Comparison of the two blocks of one variable, factor_graph.cpp:576-646; `maxCoeff()` of an empty matrix is an
`eigen_assert`. The result tells whether the block passes. -/
def checkBlock (A : Arith F) (tol : F) (v : V) (Ja Jn : Mat F) : Res Bool :=
  if VarLike.isConst v then .ok (Ja.rows * Ja.cols == 0 && Jn.rows * Jn.cols == 0)
  else if Ja.rows ≠ Jn.rows ∨ Ja.cols ≠ Jn.cols then .ok false
  else if Jn.rows * Jn.cols = 0 then .ub
  else
    let maxVal := A.maxCoeff ((entries Jn).map A.abs)
    let maxErr := A.maxCoeff ((entries (diffMat A Jn Ja)).map A.abs)
    let scaled := A.stdMax (A.lit (1 / 100)) (A.mul maxVal tol)
    .ok (!A.le scaled maxErr)

/-- The loop over the blocks, factor_graph.cpp:575-647: it goes on after a failed block. -/
def checkBlocks (A : Arith F) (tol : F) (h : Heap V) : List (Option VRef) → List (Mat F) → List (Mat F) → Res Bool
  | some r :: vs, Ja :: Jas, Jn :: Jns =>
    match checkBlock A tol (h r) Ja Jn with
    | .ok b => match checkBlocks A tol h vs Jas Jns with
      | .ok b' => .ok (b && b')
      | .threw => .threw
      | .ub => .ub
    | .threw => .threw
    | .ub => .ub
  | _, [], _ => .ok true
  | _, _, _ => .ub

/-- One factor, factor_graph.cpp:550-653. -/
def testFactor (A : Arith F) (tol : F) (f : Factor F V) : SE (Heap V) Bool :=
  SE.bind SE.get fun h =>
  SE.bind (SE.lift (f.computeJacobians h [])) fun Ja =>
  SE.bind (numericalJacobians A f (A.lit (1 / 1000000))) fun Jn =>
  if Ja.length ≠ Jn.length then SE.ret false
  else SE.bind SE.get fun h' => SE.lift (checkBlocks A tol h' f.variables Ja Jn)

/-- The loop over the factors, factor_graph.cpp:549-654; the result tells whether all of them pass. -/
def testFactors (A : Arith F) (tol : F) : List (Factor F V) → SE (Heap V) Bool
  | [] => SE.ret true
  | f :: fs => SE.bind (testFactor A tol f) fun b => SE.bind (testFactors A tol fs) fun b' => SE.ret (b && b')

/-- `FactorGraph::detailed_factor_test(jacobian_tol)`, factor_graph.cpp:535-669. -/
def detailedFactorTest (A : Arith F) (g : Graph F V) (tol : F) : SE (Heap V) Bool :=
  if !g.finalized then SE.throw else testFactors A tol g.facs

end FactorTest
end Factorama
