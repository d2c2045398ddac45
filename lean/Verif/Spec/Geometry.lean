import Verif.Model.Geometry
import Mathlib.LinearAlgebra.Matrix.NonsingularInverse
import Mathlib.LinearAlgebra.Matrix.ToLin
import Mathlib.Topology.Algebra.Module.FiniteDimension

/-!
# Specification vocabulary for the geometry
-/

namespace Factorama.Spec
open Matrix

/-- `R` is a rotation matrix: orthogonal with determinant 1. -/
def IsRotation (R : M3) : Prop := R * Rᵀ = 1 ∧ R.det = 1

/-- The rotation by the angle `theta` about the unit vector `a` (Rodrigues). -/
noncomputable def rodrigues (a : V3) (theta : ℝ) : M3 :=
  1 + Real.sin theta • Geo.skew a + (1 - Real.cos theta) • (Geo.skew a * Geo.skew a)

/-- The rotation angle of a rotation matrix, in `[0, π]`. -/
noncomputable def angle (R : M3) : ℝ := Real.arccos ((R.trace - 1) / 2)

/-- The rotation angle is neither tiny nor close to a half turn. -/
def Regular (R : M3) : Prop := 1e-5 < angle R ∧ angle R < Geo.PI - 1e-3

/-- Euclidean length. -/
noncomputable def length {n : Nat} (v : Fin n → ℝ) : ℝ := √(∑ i, v i ^ 2)

/-- The linear map of a matrix, as a derivative. -/
noncomputable def jac {m n : Nat} (A : Matrix (Fin m) (Fin n) ℝ) : (Fin n → ℝ) →L[ℝ] (Fin m → ℝ) :=
  LinearMap.toContinuousLinearMap A.mulVecLin

end Factorama.Spec
