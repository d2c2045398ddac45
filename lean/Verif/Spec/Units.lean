import Verif.Spec.Correspond
import Verif.Spec.Factors

/-!
# Specification: the unit of the standard deviations
-/

namespace Factorama.Spec

/-- A matrix times a number. -/
noncomputable def scaledMat (c : ℝ) (M : Mat ℝ) : Mat ℝ := ⟨M.rows, M.cols, fun i j => c * M.entry i j⟩

/-- `f'` is `f` with residual and Jacobians multiplied by `c`. -/
structure Rescaled {V : Type} (c : ℝ) (f f' : Factor ℝ V) : Prop where
  «variables» : f'.variables = f.variables
  size : f'.residualSize = f.residualSize
  residual : ∀ h, f'.computeResidual h = (f.computeResidual h).map (List.map (c * ·))
  jacobians : ∀ h, f'.computeJacobians h [] = (f.computeJacobians h []).map (List.map (scaledMat c))

/-- Two factors of the library built from the same arguments, except that the standard deviations of the second are those
of the first divided by `c`. -/
inductive SigmasDividedBy (c : ℝ) : Factor ℝ RVar → Factor ℝ RVar → Prop
  | genericPrior (id r prior sigma) :
      SigmasDividedBy c (Factorama.genericPrior id r prior (1 / sigma)) (Factorama.genericPrior id r prior (1 / (sigma / c)))
  | genericBetween (id a b m n sigma) : SigmasDividedBy c (Factorama.genericBetween id a b m n (1 / sigma))
      (Factorama.genericBetween id a b m n (1 / (sigma / c)))
  | posePositionPrior (id p prior sigma) :
      SigmasDividedBy c (Fac.posePositionPrior id p prior sigma) (Fac.posePositionPrior id p prior (sigma / c))
  | poseOrientationPrior (id p prior sigma) :
      SigmasDividedBy c (Fac.poseOrientationPrior id p prior sigma) (Fac.poseOrientationPrior id p prior (sigma / c))
  | rotationPrior (id r prior sigma) :
      SigmasDividedBy c (Fac.rotationPrior id r prior sigma) (Fac.rotationPrior id r prior (sigma / c))
  | posePositionBetween (id a b m sigma localFrame) : SigmasDividedBy c (Fac.posePositionBetween id a b m sigma localFrame)
      (Fac.posePositionBetween id a b m (sigma / c) localFrame)
  | poseOrientationBetween (id p1 p2 k sigma) : SigmasDividedBy c (Fac.poseOrientationBetween id p1 p2 k sigma)
      (Fac.poseOrientationBetween id p1 p2 k (sigma / c))
  | bearingObservation (id p l bearing sigma) : SigmasDividedBy c (Fac.bearingObservation id p l bearing sigma)
      (Fac.bearingObservation id p l bearing (sigma / c))
  | inverseRangeBearing (id p r bearing sigma) : SigmasDividedBy c (Fac.inverseRangeBearing id p r bearing sigma)
      (Fac.inverseRangeBearing id p r bearing (sigma / c))
  | bearingProjection (id p l bearing sigma tol) : SigmasDividedBy c (Fac.bearingProjection id p l bearing sigma tol)
      (Fac.bearingProjection id p l bearing (sigma / c) tol)
  | bearing2D (id p l obs sigma) : SigmasDividedBy c (Fac.bearing2D id p l obs sigma) (Fac.bearing2D id p l obs (sigma / c))
  | rangeBearing2D (id p l range obs rs bs) : SigmasDividedBy c (Fac.rangeBearing2D id p l range obs rs bs)
      (Fac.rangeBearing2D id p l range obs (rs / c) (bs / c))
  | pose2DPrior (id p prior ps as) :
      SigmasDividedBy c (Fac.pose2DPrior id p prior ps as) (Fac.pose2DPrior id p prior (ps / c) (as / c))
  | pose2DBetween (id a b m ps as localFrame) : SigmasDividedBy c (Fac.pose2DBetween id a b m ps as localFrame)
      (Fac.pose2DBetween id a b m (ps / c) (as / c) localFrame)
  | plane (id p l sigma scaling) :
      SigmasDividedBy c (Fac.planeFactor id p l sigma scaling) (Fac.planeFactor id p l (sigma / c) scaling)
  | planePrior (id l n0 d0 ns ds) :
      SigmasDividedBy c (Fac.planePrior id l n0 d0 ns ds) (Fac.planePrior id l n0 d0 (ns / c) (ds / c))
  | linearVelocity (id v1 v2 vel n dt sigma i) : SigmasDividedBy c (Fac.linearVelocity id v1 v2 vel n dt sigma i)
      (Fac.linearVelocity id v1 v2 vel n dt (sigma / c) i)
  | coordinateTransform (id rot org sc la lb sigma) : SigmasDividedBy c (Fac.coordinateTransform id rot org sc la lb sigma)
      (Fac.coordinateTransform id rot org sc la lb (sigma / c))

end Factorama.Spec
