import Verif.Spec.Optimizer
import Mathlib.Data.Real.Basic
import Mathlib.Algebra.BigOperators.Group.List.Basic

/-!
# Specification: sums of squares in floating-point arithmetic

The standard model of rounding: each operation returns the exact result times `1 + δ` with `|δ| ≤ ε`; a product may in addition be
off by `η`, because it can underflow. (For IEEE doubles `ε = 2⁻⁵³` and `η = 2⁻¹⁰⁷⁵`.) It does not say in which order
the terms are added: `Eigen` adds them in packets, in an order that depends on the processor.
-/

namespace Factorama.Spec

/-- The exact sum of the squares. -/
def sumOfSquares (r : List ℝ) : ℝ := (r.map fun x => x ^ 2).sum

/-- The number `x` can result from computing the sum of the squares of the entries of `r`, in some order. -/
inductive RoundedSquares (ε η : ℝ) : List ℝ → ℝ → Prop
  /-- nothing to add -/
  | none : RoundedSquares ε η [] 0
  /-- one product -/
  | square (a δ e : ℝ) (hδ : |δ| ≤ ε) (he : |e| ≤ η) : RoundedSquares ε η [a] (a ^ 2 * (1 + δ) + e)
  /-- two partial sums are added -/
  | add {l l' l'' : List ℝ} {x y : ℝ} (δ : ℝ) (hx : RoundedSquares ε η l x) (hy : RoundedSquares ε η l' y) (hl : l ≠ [])
      (hl' : l' ≠ []) (hp : l''.Perm (l ++ l')) (hδ : |δ| ≤ ε) : RoundedSquares ε η l'' ((x + y) * (1 + δ))
  /-- a product is added to a partial sum with a single rounding (fused multiplication and addition) -/
  | fused {l l' : List ℝ} {x : ℝ} (a δ e : ℝ) (hx : RoundedSquares ε η l x) (hl : l ≠ []) (hp : l'.Perm (a :: l))
      (hδ : |δ| ≤ ε) (he : |e| ≤ η) : RoundedSquares ε η l' ((a ^ 2 + x) * (1 + δ) + e)

variable {F : Type}

/-- The arithmetic `A` computes with rounded numbers. `val` is the number that a finite `F` stands for; nothing is said about infinite
values and NaN. -/
structure Rounded (A : Arith F) (val : F → ℝ) (ε η : ℝ) : Prop where
  /-- comparisons are exact -/
  lt : ∀ a b, A.isFinite a = true → A.isFinite b = true → A.lt a b = true → val a < val b
  /-- squared norms are rounded sums of squares, unless they overflow -/
  sqNorm : ∀ r, A.isFinite (A.sqNorm r) = true → RoundedSquares ε η (r.map val) (val (A.sqNorm r))

end Factorama.Spec
