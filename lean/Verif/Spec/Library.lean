import Verif.Spec.Factors

/-!
# The factors a user of the library can construct
-/

namespace Factorama.Spec
open Matrix Geo

/-- The factor classes of the library. -/
inductive FactorClass where
  | genericPrior | genericBetween | posePositionPrior | poseOrientationPrior | rotationPrior | posePositionBetween
  | poseOrientationBetween | bearingObservation | inverseRangeBearing | bearingProjection | bearing2D | rangeBearing2D
  | pose2DPrior | pose2DBetween | plane | planePrior | linearVelocity | coordinateTransform
  deriving DecidableEq

/-- `f` is a factor of the given class whose variable pointers refer to objects of the declared classes and whose
constructor arguments satisfy the size assertions of the constructor. -/
inductive Built (h : Heap RVar) : FactorClass → Factor ℝ RVar → Prop
  | genericPrior (id r prior sigma) : prior.length = VarLike.size (h r) →
      Built h .genericPrior (Factorama.genericPrior id r prior (1 / sigma))
  | genericBetween (id a b m n sigma) : VarLike.size (h a) = n → VarLike.size (h b) = n → VarLike.size (h m) = n →
      Built h .genericBetween (Factorama.genericBetween id a b m n (1 / sigma))
  | posePositionPrior {v} (id p prior sigma) : h p = .pose v →
      Built h .posePositionPrior (Fac.posePositionPrior id p prior sigma)
  | poseOrientationPrior {v} (id p prior sigma) : h p = .pose v →
      Built h .poseOrientationPrior (Fac.poseOrientationPrior id p prior sigma)
  | rotationPrior {v} (id r prior sigma) : h r = .rotation v →
      Built h .rotationPrior (Fac.rotationPrior id r prior sigma)
  | posePositionBetween {va vb} (id a b m sigma localFrame) : h a = .pose va → h b = .pose vb → VarLike.size (h m) = 3 →
      Built h .posePositionBetween (Fac.posePositionBetween id a b m sigma localFrame)
  | poseOrientationBetween {v1 v2 vc} (id p1 p2 c sigma) : h p1 = .pose v1 → h p2 = .pose v2 → h c = .rotation vc →
      Built h .poseOrientationBetween (Fac.poseOrientationBetween id p1 p2 c sigma)
  | bearingObservation {v x} (id p l bearing sigma) : h p = .pose v → h l = .landmark x →
      Built h .bearingObservation (Fac.bearingObservation id p l bearing sigma)
  | inverseRangeBearing {v x} (id p r bearing sigma) : h p = .pose v → h r = .invRange x →
      Built h .inverseRangeBearing (Fac.inverseRangeBearing id p r bearing sigma)
  | bearingProjection {v x} (id p l bearing sigma tol) : h p = .pose v → h l = .landmark x →
      Built h .bearingProjection (Fac.bearingProjection id p l bearing sigma tol)
  | bearing2D {v} (id p l obs sigma) : h p = .pose2d v → VarLike.size (h l) = 2 →
      Built h .bearing2D (Fac.bearing2D id p l obs sigma)
  | rangeBearing2D {v} (id p l range obs rs bs) : h p = .pose2d v → VarLike.size (h l) = 2 →
      Built h .rangeBearing2D (Fac.rangeBearing2D id p l range obs rs bs)
  | pose2DPrior {v} (id p prior ps as) : h p = .pose2d v → Built h .pose2DPrior (Fac.pose2DPrior id p prior ps as)
  | pose2DBetween {va vb} (id a b m ps as localFrame) : h a = .pose2d va → h b = .pose2d vb → VarLike.size (h m) = 3 →
      Built h .pose2DBetween (Fac.pose2DBetween id a b m ps as localFrame)
  | plane {v} (id p l sigma scaling) : VarLike.size (h p) = 3 → h l = .plane v →
      Built h .plane (Fac.planeFactor id p l sigma scaling)
  | planePrior {v} (id l n0 d0 ns ds) : h l = .plane v → Built h .planePrior (Fac.planePrior id l n0 d0 ns ds)
  | linearVelocity (id v1 v2 vel n dt sigma i) : VarLike.size (h vel) = n →
      Built h .linearVelocity (Fac.linearVelocity id v1 v2 vel n dt sigma i)
  | coordinateTransform {v o s a b} (id rot org sc la lb sigma) : h rot = .rotation v → h org = .generic o →
      h sc = .generic s → h la = .landmark a → h lb = .landmark b → o.value.length = 3 → s.value.length = 1 →
      Built h .coordinateTransform (Fac.coordinateTransform id rot org sc la lb sigma)

/-- The classes whose `name()` mentions the id of the factor. -/
def NamesItsId : FactorClass → Prop
  | .rotationPrior | .poseOrientationBetween | .bearingObservation | .inverseRangeBearing | .bearingProjection
  | .linearVelocity | .coordinateTransform => True
  | _ => False

/-- One block per variable, in the order of `variables()`: empty for a constant variable, otherwise with one row per
residual entry and one column per entry of the variable. -/
def OneBlockPerVariable (f : Factor ℝ RVar) (h : Heap RVar) (Js : List (Mat ℝ)) : Prop :=
  List.Forall₂ (fun p J => ∃ r, p = some r ∧ if VarLike.isConst (h r) then J = Mat.empty
    else J.rows = f.residualSize ∧ J.cols = VarLike.size (h r)) f.variables Js

/-- The residual depends on the variables of the factor only. -/
def ReadsOwn (f : Factor ℝ RVar) : Prop :=
  ∀ h h' : Heap RVar, (∀ r, some r ∈ f.variables → h' r = h r) → f.computeResidual h' = f.computeResidual h

/-- The vector of all free values that is `d` at the columns of one variable, which start at `c`, and zero elsewhere. -/
noncomputable def spread {n : Nat} (total c : Nat) (d : Fin n → ℝ) : List ℝ :=
  (List.range total).map fun k => if hk : c ≤ k ∧ k < c + n then d ⟨k - c, by omega⟩ else 0

end Factorama.Spec
