import Verif.Spec.Factors

/-!
# Angles between directions, and rotation vectors
-/

namespace Factorama.Spec
open Matrix Geo

/-- The angle between two directions, in `[0, π]`. -/
noncomputable def angleBetween (a b : V3) : ℝ := Real.arccos (a ⬝ᵥ b / (length a * length b))

/-- `e` is the rotation vector of `E`: it turns by the angle of `E` about the axis of `E`. For angles below `1e-5` the
library uses the antisymmetric part of `E`, whose length is the sine of the angle. -/
structure RotationVector (e : V3) (E : M3) : Prop where
  turns : 1e-5 ≤ angle E → length e = angle E ∧ rotationOf e = E
  tiny : angle E < 1e-5 → length e = Real.sin (angle E) ∧ skew e = (1 / 2 : ℝ) • (E - Eᵀ)

/-- The point `x` is seen from the planar position `p` in the direction `φ`, at a positive distance. -/
def SeenAt (p x : V2) (φ : ℝ) : Prop := ∃ s : ℝ, 0 < s ∧ x = p + s • ![Real.cos φ, Real.sin φ]

end Factorama.Spec
