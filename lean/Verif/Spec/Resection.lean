import Verif.Model.Factors
import Verif.Spec.Factors

/-!
# Specification: a planar pose that sees known landmarks
-/

namespace Factorama.Spec
open Geo

/-- The factor says in which direction the pose at `p`, which is at `c`, sees a landmark that is known to be at `x`. -/
inductive SeesDirection (h : Heap RVar) : Factor ℝ RVar → VRef → V2 → V2 → Prop where
  | mk {id : Int} {p l : VRef} {obs sigma : ℝ} {v : Pose2DVar} {x : V2} (hs : sigma ≠ 0) (hp : h p = .pose2d v) (hl : IsVector (h l) x)
      (hc : VarLike.isConst (F := ℝ) (h l) = true) : SeesDirection h (Fac.bearing2D id p l obs sigma) p v.pos x

/-- The factor says in which direction and how far away the pose at `p`, which is at `c`, sees a landmark that is known to be
at `x`. -/
inductive SeesPlace (h : Heap RVar) : Factor ℝ RVar → VRef → V2 → V2 → Prop where
  | mk {id : Int} {p l : VRef} {range obs rangeSigma bearingSigma : ℝ} {v : Pose2DVar} {x : V2} (hr : rangeSigma ≠ 0) (hb : bearingSigma ≠ 0)
      (hp : h p = .pose2d v) (hl : IsVector (h l) x) (hc : VarLike.isConst (F := ℝ) (h l) = true) :
      SeesPlace h (Fac.rangeBearing2D id p l range obs rangeSigma bearingSigma) p v.pos x

/-- The points of a circle through `c` (`a ≠ 0`), or of a straight line through `c` (`a = 0`). -/
def OnCurve (a : ℝ) (n c x : V2) : Prop := a * ((x 0 - c 0) ^ 2 + (x 1 - c 1) ^ 2) + n 0 * (x 0 - c 0) + n 1 * (x 1 - c 1) = 0

/-- The point of such a circle that is opposite to `c`. -/
def Opposite (a : ℝ) (n c x : V2) : Prop := a * (x 0 - c 0) + n 0 = 0 ∧ a * (x 1 - c 1) + n 1 = 0

end Factorama.Spec
