import Verif.Props.GraphDerivative
import Verif.Props.Lifetime

/-!
# C86: factors of the library look at their own variables only
-/

namespace Factorama.Props
open Spec Geo Matrix

/-- **C86, the assumption on factors**: residual and Jacobian of every factor class of the library depend on the
factor's own variables only, so `C86_partial` applies to programs that use them. -/
theorem C86_library (h : Heap RVar) (c : FactorClass) (f : Factor ℝ RVar) (hf : Built h c f) : LooksAtOwn f := by
  intro h1 h2 hr
  cases hf with
  | genericPrior id r prior sigma _ =>
    have e1 := hr r (by simp [genericPrior])
    exact ⟨by simp only [genericPrior, e1], fun buf => by simp only [genericPrior, e1]⟩
  | genericBetween id a b m n sigma =>
    have e1 := hr a (by simp [genericBetween])
    have e2 := hr b (by simp [genericBetween])
    have e3 := hr m (by simp [genericBetween])
    exact ⟨by simp only [genericBetween, e1, e2, e3], fun buf => by simp only [genericBetween, e1, e2, e3]⟩
  | posePositionPrior id p prior sigma =>
    have e1 := hr p (by simp [Fac.posePositionPrior])
    exact ⟨by simp only [Fac.posePositionPrior, e1], fun buf => by simp only [Fac.posePositionPrior, e1]⟩
  | poseOrientationPrior id p prior sigma =>
    have e1 := hr p (by simp [Fac.poseOrientationPrior])
    exact ⟨by simp only [Fac.poseOrientationPrior, e1], fun buf => by simp only [Fac.poseOrientationPrior, e1]⟩
  | rotationPrior id r prior sigma =>
    have e1 := hr r (by simp [Fac.rotationPrior])
    exact ⟨by simp only [Fac.rotationPrior, e1], fun buf => by simp only [Fac.rotationPrior, e1]⟩
  | posePositionBetween id a b m sigma localFrame =>
    have e1 := hr a (by simp [Fac.posePositionBetween])
    have e2 := hr b (by simp [Fac.posePositionBetween])
    have e3 := hr m (by simp [Fac.posePositionBetween])
    exact ⟨by simp only [Fac.posePositionBetween, e1, e2, e3], fun buf => by simp only [Fac.posePositionBetween, e1, e2, e3]⟩
  | poseOrientationBetween id a b m sigma =>
    have e1 := hr a (by simp [Fac.poseOrientationBetween])
    have e2 := hr b (by simp [Fac.poseOrientationBetween])
    have e3 := hr m (by simp [Fac.poseOrientationBetween])
    exact ⟨by simp only [Fac.poseOrientationBetween, e1, e2, e3], fun buf => by simp only [Fac.poseOrientationBetween, e1, e2, e3]⟩
  | bearingObservation id p l bearing sigma =>
    have e1 := hr p (by simp [Fac.bearingObservation])
    have e2 := hr l (by simp [Fac.bearingObservation])
    exact ⟨by simp only [Fac.bearingObservation, e1, e2], fun buf => by simp only [Fac.bearingObservation, e1, e2]⟩
  | inverseRangeBearing id p l bearing sigma =>
    have e1 := hr p (by simp [Fac.inverseRangeBearing])
    have e2 := hr l (by simp [Fac.inverseRangeBearing])
    exact ⟨by simp only [Fac.inverseRangeBearing, e1, e2], fun buf => by simp only [Fac.inverseRangeBearing, e1, e2]⟩
  | bearingProjection id p l bearing sigma tol =>
    have e1 := hr p (by simp [Fac.bearingProjection])
    have e2 := hr l (by simp [Fac.bearingProjection])
    exact ⟨by simp only [Fac.bearingProjection, e1, e2], fun buf => by simp only [Fac.bearingProjection, e1, e2]⟩
  | bearing2D id p l obs sigma =>
    have e1 := hr p (by simp [Fac.bearing2D])
    have e2 := hr l (by simp [Fac.bearing2D])
    exact ⟨by simp only [Fac.bearing2D, e1, e2], fun buf => by simp only [Fac.bearing2D, e1, e2]⟩
  | rangeBearing2D id p l range obs rs bs =>
    have e1 := hr p (by simp [Fac.rangeBearing2D])
    have e2 := hr l (by simp [Fac.rangeBearing2D])
    exact ⟨by simp only [Fac.rangeBearing2D, e1, e2], fun buf => by simp only [Fac.rangeBearing2D, e1, e2]⟩
  | pose2DPrior id p prior ps as =>
    have e1 := hr p (by simp [Fac.pose2DPrior])
    exact ⟨by simp only [Fac.pose2DPrior, e1], fun buf => by simp only [Fac.pose2DPrior, e1]⟩
  | pose2DBetween id a b m ps as localFrame =>
    have e1 := hr a (by simp [Fac.pose2DBetween])
    have e2 := hr b (by simp [Fac.pose2DBetween])
    have e3 := hr m (by simp [Fac.pose2DBetween])
    exact ⟨by simp only [Fac.pose2DBetween, e1, e2, e3], fun buf => by simp only [Fac.pose2DBetween, e1, e2, e3]⟩
  | plane id p l sigma scaling =>
    have e1 := hr p (by simp [Fac.planeFactor])
    have e2 := hr l (by simp [Fac.planeFactor])
    exact ⟨by simp only [Fac.planeFactor, e1, e2], fun buf => by simp only [Fac.planeFactor, e1, e2]⟩
  | planePrior id l n0 d0 ns ds =>
    have e1 := hr l (by simp [Fac.planePrior])
    exact ⟨by simp only [Fac.planePrior, e1], fun buf => by simp only [Fac.planePrior, e1]⟩
  | linearVelocity id v1 v2 vel n dt sigma i =>
    have e1 := hr v1 (by simp [Fac.linearVelocity])
    have e2 := hr v2 (by simp [Fac.linearVelocity])
    have e3 := hr vel (by simp [Fac.linearVelocity])
    exact ⟨by simp only [Fac.linearVelocity, e1, e2, e3], fun buf => by simp only [Fac.linearVelocity, e1, e2, e3]⟩
  | coordinateTransform id rot org sc la lb sigma =>
    have e1 := hr rot (by simp [Fac.coordinateTransform])
    have e2 := hr org (by simp [Fac.coordinateTransform])
    have e3 := hr sc (by simp [Fac.coordinateTransform])
    have e4 := hr la (by simp [Fac.coordinateTransform])
    have e5 := hr lb (by simp [Fac.coordinateTransform])
    exact ⟨by simp only [Fac.coordinateTransform, e1, e2, e3, e4, e5], fun buf => by simp only [Fac.coordinateTransform, e1, e2, e3, e4, e5]⟩

/-- A position prior on a pose, for instance. -/
example (v : PoseVar) : LooksAtOwn (Fac.posePositionPrior 5 0 ![1, 2, 3] (1 / 10)) :=
  C86_library (fun _ => .pose v) _ _ (.posePositionPrior _ _ _ _ rfl)

end Factorama.Props
