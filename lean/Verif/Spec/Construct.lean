import Verif.Model.Construct
import Verif.Spec.Library

/-!
# What a constructor of a factor should accept
-/

namespace Factorama.Spec
open Matrix

/-- The pointers to variables among the arguments, in the order of `variables()`. -/
def pointers : FactorArgs → List (Option VRef)
  | .genericPrior v _ _ => [v]
  | .genericBetween a b m _ => [a, b, m]
  | .posePositionPrior p _ _ => [p]
  | .poseOrientationPrior p _ _ => [p]
  | .rotationPrior r _ _ => [r]
  | .posePositionBetween a b m _ _ => [a, b, m]
  | .poseOrientationBetween p1 p2 c _ => [p1, p2, c]
  | .bearingObservation p l _ _ => [p, l]
  | .inverseRangeBearing p r _ _ => [p, r]
  | .bearingProjection p l _ _ _ => [p, l]
  | .bearing2D p l _ _ => [p, l]
  | .rangeBearing2D p l _ _ _ _ => [p, l]
  | .pose2DPrior p _ _ _ => [p]
  | .pose2DBetween a b m _ _ _ => [a, b, m]
  | .plane p l _ _ => [p, l]
  | .planePrior l _ _ _ _ => [l]
  | .linearVelocity v1 v2 vel _ _ _ => [v1, v2, vel]
  | .coordinateTransform rot org sc la lb _ => [rot, org, sc, la, lb]

/-- The standard deviations among the arguments. -/
def deviations : FactorArgs → List ℝ
  | .genericPrior _ _ s | .genericBetween _ _ _ s | .posePositionPrior _ _ s | .poseOrientationPrior _ _ s
  | .rotationPrior _ _ s | .posePositionBetween _ _ _ s _ | .poseOrientationBetween _ _ _ s | .bearingObservation _ _ _ s
  | .inverseRangeBearing _ _ _ s | .bearingProjection _ _ _ s _ | .bearing2D _ _ _ s | .plane _ _ s _
  | .linearVelocity _ _ _ _ s _ | .coordinateTransform _ _ _ _ _ s => [s]
  | .rangeBearing2D _ _ _ _ s s' | .pose2DPrior _ _ s s' | .pose2DBetween _ _ _ s s' _ | .planePrior _ _ _ s s' => [s, s']

/-- The class whose constructor has these arguments. -/
def classOf : FactorArgs → FactorClass
  | .genericPrior .. => .genericPrior
  | .genericBetween .. => .genericBetween
  | .posePositionPrior .. => .posePositionPrior
  | .poseOrientationPrior .. => .poseOrientationPrior
  | .rotationPrior .. => .rotationPrior
  | .posePositionBetween .. => .posePositionBetween
  | .poseOrientationBetween .. => .poseOrientationBetween
  | .bearingObservation .. => .bearingObservation
  | .inverseRangeBearing .. => .inverseRangeBearing
  | .bearingProjection .. => .bearingProjection
  | .bearing2D .. => .bearing2D
  | .rangeBearing2D .. => .rangeBearing2D
  | .pose2DPrior .. => .pose2DPrior
  | .pose2DBetween .. => .pose2DBetween
  | .plane .. => .plane
  | .planePrior .. => .planePrior
  | .linearVelocity .. => .linearVelocity
  | .coordinateTransform .. => .coordinateTransform

/-- The variables of a general class have the sizes that the factor needs. -/
def SizesAgree (h : Heap RVar) : FactorArgs → Prop
  | .genericPrior (some v) prior _ => prior.length = VarLike.size (h v)
  | .genericBetween (some a) (some b) (some m) _ => VarLike.size (h a) = VarLike.size (h b) ∧ VarLike.size (h a) = VarLike.size (h m)
  | .posePositionBetween _ _ (some m) _ _ => VarLike.size (h m) = 3
  | .bearing2D _ (some l) _ _ => VarLike.size (h l) = 2
  | .rangeBearing2D _ (some l) _ _ _ _ => VarLike.size (h l) = 2
  | .pose2DBetween _ _ (some m) _ _ _ => VarLike.size (h m) = 3
  | .plane (some p) _ _ _ => VarLike.size (h p) = 3
  | .linearVelocity (some a) (some b) (some v) _ _ _ =>
    VarLike.size (h a) = VarLike.size (h b) ∧ VarLike.size (h v) ≤ VarLike.size (h a)
  | .coordinateTransform _ (some o) (some s) _ _ _ => VarLike.size (h o) = 3 ∧ VarLike.size (h s) = 1
  | _ => True

/-- No pointer is null, the standard deviations are positive, the sizes agree, a measured range is not negative, and the
direction of a prior for a plane is not zero. -/
structure Acceptable (h : Heap RVar) (a : FactorArgs) : Prop where
  notNull : none ∉ pointers a
  positive : ∀ s ∈ deviations a, 0 < s
  sizes : SizesAgree h a
  range : ∀ p l r o s s', a = .rangeBearing2D p l r o s s' → 0 ≤ r
  normal : ∀ l n d s s', a = .planePrior l n d s s' → n ≠ 0

/-- The pointers refer to objects of the classes that the constructor declares. The compiler sees to this. -/
def Declared (h : Heap RVar) (a : FactorArgs) : Prop :=
  let pose := fun p : Option VRef => ∀ r, p = some r → ∃ v, h r = .pose v
  let rotation := fun p : Option VRef => ∀ r, p = some r → ∃ v, h r = .rotation v
  let landmark := fun p : Option VRef => ∀ r, p = some r → ∃ v, h r = .landmark v
  let generic := fun p : Option VRef => ∀ r, p = some r → ∃ v, h r = .generic v
  let pose2d := fun p : Option VRef => ∀ r, p = some r → ∃ v, h r = .pose2d v
  let plane := fun p : Option VRef => ∀ r, p = some r → ∃ v, h r = .plane v
  match a with
  | .genericPrior _ _ _ | .genericBetween _ _ _ _ | .linearVelocity _ _ _ _ _ _ => True
  | .posePositionPrior p _ _ | .poseOrientationPrior p _ _ => pose p
  | .rotationPrior r _ _ => rotation r
  | .posePositionBetween a b _ _ _ => pose a ∧ pose b
  | .poseOrientationBetween a b c _ => pose a ∧ pose b ∧ rotation c
  | .bearingObservation p l _ _ | .bearingProjection p l _ _ _ => pose p ∧ landmark l
  | .inverseRangeBearing p r _ _ => pose p ∧ ∀ r', r = some r' → ∃ v, h r' = .invRange v
  | .bearing2D p _ _ _ | .rangeBearing2D p _ _ _ _ _ | .pose2DPrior p _ _ _ => pose2d p
  | .pose2DBetween a b _ _ _ _ => pose2d a ∧ pose2d b
  | .plane _ l _ _ | .planePrior l _ _ _ _ => plane l
  | .coordinateTransform rot org sc la lb _ => rotation rot ∧ generic org ∧ generic sc ∧ landmark la ∧ landmark lb

/-- `value()` has `size()` entries. -/
def Full (v : RVar) : Prop := (VarLike.value v).length = VarLike.size v

/-- The part of the two outer variables that a velocity relates begins at `initial_index` and ends within them. -/
def IndexFits (h : Heap RVar) : FactorArgs → Prop
  | .linearVelocity (some a) _ (some v) _ _ i => 0 ≤ i ∧ i + VarLike.size (h v) ≤ VarLike.size (h a)
  | _ => True

end Factorama.Spec
