import Verif.Model.Optimizer
import Mathlib.Analysis.Real.Sqrt

/-!
# Exact real arithmetic

The arithmetic of the optimizer and of the factor test without rounding: an instance of the parameter `Arith`.
-/

namespace Factorama
open Classical in
/-- Real numbers in place of `double`. Every real number is finite. -/
noncomputable def realArith : Arith ℝ where
  lit q := (q : ℝ)
  add := (· + ·)
  sub := (· - ·)
  mul := (· * ·)
  div := (· / ·)
  abs x := |x|
  sqrt x := √x
  lt a b := decide (a < b)
  le a b := decide (a ≤ b)
  isFinite _ := true
  sqNorm v := (v.map fun x => x * x).sum
  minCoeff v := v.tail.foldr min (v.headD 0)
  maxCoeff v := v.tail.foldr max (v.headD 0)

end Factorama
