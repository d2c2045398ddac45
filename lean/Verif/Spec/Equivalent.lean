import Verif.Model.Construct

/-!
# Specification: measurements that are the same, written differently
-/

namespace Factorama.Spec
open Geo

/-- The angles differ by whole turns. -/
def SameAngle (a b : ℝ) : Prop := ∃ n : ℤ, b = a + n * (2 * Real.pi)

/-- The vectors point in the same direction. -/
def SameDirection (u v : V3) : Prop := ∃ k : ℝ, 0 < k ∧ v = k • u

/-- The arguments of two constructors describe the same measurement: they agree, but for whole turns of measured angles and for the
lengths of measured directions. -/
inductive EquivalentArgs : FactorArgs → FactorArgs → Prop where
  | bearing2D (p l : Option VRef) {obs obs' : ℝ} (sigma : ℝ) (h : SameAngle obs obs') :
      EquivalentArgs (.bearing2D p l obs sigma) (.bearing2D p l obs' sigma)
  | rangeBearing2D (p l : Option VRef) (range : ℝ) {obs obs' : ℝ} (rangeSigma bearingSigma : ℝ) (h : SameAngle obs obs') :
      EquivalentArgs (.rangeBearing2D p l range obs rangeSigma bearingSigma) (.rangeBearing2D p l range obs' rangeSigma bearingSigma)
  | pose2DPrior (p : Option VRef) (x y : ℝ) {θ θ' : ℝ} (posSigma angleSigma : ℝ) (h : SameAngle θ θ') :
      EquivalentArgs (.pose2DPrior p ![x, y, θ] posSigma angleSigma) (.pose2DPrior p ![x, y, θ'] posSigma angleSigma)
  | bearingObservation (p l : Option VRef) {b b' : V3} (sigma : ℝ) (h : SameDirection b b') :
      EquivalentArgs (.bearingObservation p l b sigma) (.bearingObservation p l b' sigma)
  | inverseRangeBearing (p r : Option VRef) {b b' : V3} (sigma : ℝ) (h : SameDirection b b') :
      EquivalentArgs (.inverseRangeBearing p r b sigma) (.inverseRangeBearing p r b' sigma)
  | bearingProjection (p l : Option VRef) {b b' : V3} (sigma tol : ℝ) (h : SameDirection b b') :
      EquivalentArgs (.bearingProjection p l b sigma tol) (.bearingProjection p l b' sigma tol)
  | planePrior (l : Option VRef) {n n' : V3} (dist normalSigma distSigma : ℝ) (h : SameDirection n n') :
      EquivalentArgs (.planePrior l n dist normalSigma distSigma) (.planePrior l n' dist normalSigma distSigma)

end Factorama.Spec
