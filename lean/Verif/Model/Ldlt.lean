import Verif.Model.Optimizer

/-!
# A reference linear algebra back end

The optimizer calls `Eigen::SimplicialLDLT` (sparse_optimizer.hpp:173), which is outside the repository; in the model it is
the parameter `LinAlg`. This file gives one concrete instance: the textbook `L D Lᵀ` factorisation without row exchanges,
in the arithmetic of the scalar type. It is used for concrete runs and to show that the hypotheses on the solver made by
some theorems can be met. It differs from Eigen's in that no fill-reducing permutation is applied.
-/

namespace Factorama.Ldlt
variable {F : Type} [Zero F] [Add F] [Sub F] [Mul F] [Div F] [Neg F] [DecidableEq F]

/-- `∑ i < n, f i`. -/
def sumTo (n : Nat) (f : Nat → F) : F := ((List.range n).map f).foldr (· + ·) 0

/-- Scalar product of two lists. -/
def dot : List F → List F → F
  | a :: as, b :: bs => a * b + dot as bs
  | _, _ => 0

/-- `a - c * b` for lists. -/
def axpy (a : List F) (c : F) (b : List F) : List F := List.zipWith (fun x y => x - c * y) a b

/-- The state of the solver: for each column the pivot and the column of `L` below the diagonal. -/
abbrev Fact (F : Type) := List (F × List F)

/-- Factorisation of the matrix with the given rows: eliminate the first column, go on with the Schur complement. A zero
pivot is a failure, as in Eigen. The first argument is the number of columns. -/
def factorRows : Nat → List (List F) → Option (Fact F)
  | 0, _ => some []
  | n + 1, rows =>
    match rows with
    | (d :: row) :: rest =>
      if d = 0 then none
      else
        let l := rest.map fun r => (r.headD 0) / d
        match factorRows n (List.zipWith (fun r c => axpy r.tail c row) rest l) with
        | none => none
        | some f => some ((d, l) :: f)
    | _ => none

/-- Forward substitution, division by the pivots and back substitution. -/
def solveFact : Fact F → List F → Option (List F)
  | [], _ => some []
  | _ :: _, [] => none
  | (d, l) :: f, b :: bs =>
    match solveFact f (axpy bs b l) with
    | none => none
    | some xs => some ((b / d - dot l xs) :: xs)

/-- The rows of a matrix. -/
def rowsOf (H : Mat F) : List (List F) := (List.range H.rows).map fun i => (List.range H.cols).map fun j => H.entry i j

/-- `J.transpose() * J`. -/
def gram (J : SpMat F) : Mat F :=
  ⟨J.columns.length, J.columns.length, fun i j => sumTo J.rows fun k => J.coeff k i * J.coeff k j⟩

/-- `-(J.transpose() * r)`. -/
def rhs (J : SpMat F) (r : List F) : List F :=
  (List.range J.columns.length).map fun i => -(sumTo J.rows fun k => J.coeff k i * (r[k]?.getD 0))

/-- The back end. -/
def linAlg : LinAlg F (Fact F) where
  gram := gram
  rhs := rhs
  factorize H := factorRows H.rows (rowsOf H)
  vectorD f := f.map (·.1)
  solve := solveFact

end Factorama.Ldlt
