import Verif.Model.RealArith
import Mathlib.LinearAlgebra.Matrix.PosDef
import Mathlib.Data.Real.Star
import Mathlib.Logic.Equiv.Defs

/-!
# Specification vocabulary for the linear systems of the optimizer

The lists, matrices and sparse matrices of the model read as vectors and matrices of Mathlib, and the meaning of "the
linear system is solved exactly".
-/

namespace Factorama.Spec
open Matrix

/-- A list of at least `n` numbers as a vector. -/
def asVec (n : Nat) (x : List ℝ) : Fin n → ℝ := fun i => x.getD i 0

/-- The leading entries of a square matrix. -/
def square (n : Nat) (M : Mat ℝ) : Matrix (Fin n) (Fin n) ℝ := Matrix.of fun i j => M.entry i j

/-- A sparse matrix as a matrix. -/
def jacobianMatrix (J : SpMat ℝ) : Matrix (Fin J.rows) (Fin J.columns.length) ℝ := Matrix.of fun i j => J.coeff i j

/-- The gradient of half the squared norm of the residual: `Jᵀ r`. -/
def gradient (J : SpMat ℝ) (r : List ℝ) : Fin J.columns.length → ℝ := (jacobianMatrix J)ᵀ *ᵥ asVec J.rows r

/-- Linear algebra without rounding: the products are the products, `solve` after a successful factorisation of a
symmetric matrix returns a solution, a factorisation succeeds only for an invertible matrix, and it does succeed for
positive definite matrices. -/
structure ExactLinAlg {Fact : Type} (L : LinAlg ℝ Fact) : Prop where
  gram_size : ∀ J, (L.gram J).rows = J.columns.length ∧ (L.gram J).cols = J.columns.length
  gram : ∀ J, square J.columns.length (L.gram J) = (jacobianMatrix J)ᵀ * jacobianMatrix J
  rhs_size : ∀ J r, (L.rhs J r).length = J.columns.length
  rhs : ∀ J r, asVec J.columns.length (L.rhs J r) = -((jacobianMatrix J)ᵀ *ᵥ asVec J.rows r)
  diagonal : ∀ H f, L.factorize H = some f → (L.vectorD f).length = H.rows
  solve : ∀ H f b, H.cols = H.rows → (square H.rows H).IsSymm → L.factorize H = some f → b.length = H.rows →
    ∃ d, L.solve f b = some d ∧ d.length = H.rows ∧ square H.rows H *ᵥ asVec H.rows d = asVec H.rows b
  invertible : ∀ H f, H.cols = H.rows → (square H.rows H).IsSymm → L.factorize H = some f → IsUnit (square H.rows H)
  succeeds : ∀ H, H.cols = H.rows → (square H.rows H).PosDef → ∃ f, L.factorize H = some f

/-- `D` lists the pivots of an `L D Lᵀ` factorisation of `M`: after renumbering rows and columns alike, `M` is
`T · diag(D) · Tᵀ` with `T` lower triangular and ones on its diagonal. -/
def IsLDLT {n : Nat} (M : Matrix (Fin n) (Fin n) ℝ) (D : List ℝ) : Prop :=
  D.length = n ∧ ∃ (σ : Equiv.Perm (Fin n)) (T : Matrix (Fin n) (Fin n) ℝ), (∀ i, T i i = 1) ∧ (∀ i j, i < j → T i j = 0) ∧
    M.submatrix σ σ = T * diagonal (asVec n D) * Tᵀ

/-- The diagonal the solver reports is that of the factorisation it computed. -/
def ExactPivots {Fact : Type} (L : LinAlg ℝ Fact) : Prop :=
  ∀ H f, H.cols = H.rows → (square H.rows H).IsSymm → L.factorize H = some f → IsLDLT (square H.rows H) (L.vectorD f)

end Factorama.Spec
