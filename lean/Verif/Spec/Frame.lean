import Verif.Spec.Motion

/-!
# Specification: the same problem described in another world frame
-/

namespace Factorama.Spec
open Matrix Geo

/-- What the variables of a problem in space stand for: poses, landmarks, planes, rays with an origin, other points of the
world, and quantities that are not tied to the origin of the world frame. -/
inductive SpaceRole
  | pose | landmark | plane | ray | point | still

/-- `v'` describes the same object as `v` in a world frame whose origin lies at `-a`. Planes are constants. -/
inductive ShiftedVar (a : V3) : SpaceRole → RVar → RVar → Prop
  | pose (v) : ShiftedVar a .pose (.pose v) (.pose { v with pos := v.pos + a })
  | landmark (id c) (x : V3) : ShiftedVar a .landmark (.landmark ⟨id, c, toList x⟩) (.landmark ⟨id, c, toList (x + a)⟩)
  | plane (v) : v.isConst = true → ShiftedVar a .plane (.plane v) (.plane { v with dist := v.dist - v.normal ⬝ᵥ a })
  | ray (v) : ShiftedVar a .ray (.invRange v) (.invRange { v with origin := v.origin + a })
  | point (id c) (x : V3) : ShiftedVar a .point (.generic ⟨id, c, toList x⟩) (.generic ⟨id, c, toList (x + a)⟩)
  | generic (v) : ShiftedVar a .still (.generic v) (.generic v)
  | rotation (v) : ShiftedVar a .still (.rotation v) (.rotation v)

/-- `f'` is the same measurement as `f`, described in the other frame: what is known about the place of an object is known
about the shifted place, and everything else is unchanged. Left out are plane priors, distance scaling of plane factors and
coordinate transforms. -/
inductive ShiftedFactor (a : V3) (role : VRef → SpaceRole) : Factor ℝ RVar → Factor ℝ RVar → Prop
  | placePrior (id r) (x : V3) (w) : role r = .landmark ∨ role r = .point →
      ShiftedFactor a role (Factorama.genericPrior id r (toList x) w) (Factorama.genericPrior id r (toList (x + a)) w)
  | stillPrior (id r prior w) : role r = .still →
      ShiftedFactor a role (Factorama.genericPrior id r prior w) (Factorama.genericPrior id r prior w)
  | placesBetween (id p q m n w) : role p = .landmark ∨ role p = .point → role q = .landmark ∨ role q = .point →
      role m = .still → ShiftedFactor a role (Factorama.genericBetween id p q m n w) (Factorama.genericBetween id p q m n w)
  | posePositionPrior (id p prior sigma) :
      ShiftedFactor a role (Fac.posePositionPrior id p prior sigma) (Fac.posePositionPrior id p (prior + a) sigma)
  | poseOrientationPrior (id p prior sigma) :
      ShiftedFactor a role (Fac.poseOrientationPrior id p prior sigma) (Fac.poseOrientationPrior id p prior sigma)
  | rotationPrior (id r prior sigma) :
      ShiftedFactor a role (Fac.rotationPrior id r prior sigma) (Fac.rotationPrior id r prior sigma)
  | posePositionBetween (id p q m sigma localFrame) : role m = .still →
      ShiftedFactor a role (Fac.posePositionBetween id p q m sigma localFrame) (Fac.posePositionBetween id p q m sigma localFrame)
  | poseOrientationBetween (id p q c sigma) :
      ShiftedFactor a role (Fac.poseOrientationBetween id p q c sigma) (Fac.poseOrientationBetween id p q c sigma)
  | bearingObservation (id p l bearing sigma) :
      ShiftedFactor a role (Fac.bearingObservation id p l bearing sigma) (Fac.bearingObservation id p l bearing sigma)
  | bearingProjection (id p l bearing sigma tol) :
      ShiftedFactor a role (Fac.bearingProjection id p l bearing sigma tol) (Fac.bearingProjection id p l bearing sigma tol)
  | inverseRangeBearing (id p r bearing sigma) :
      ShiftedFactor a role (Fac.inverseRangeBearing id p r bearing sigma) (Fac.inverseRangeBearing id p r bearing sigma)
  | plane (id p l sigma) : role p = .landmark ∨ role p = .point →
      ShiftedFactor a role (Fac.planeFactor id p l sigma none) (Fac.planeFactor id p l sigma none)
  | posesVelocity (id p q vel dt sigma) : role p = .pose → role q = .pose → role vel = .still →
      ShiftedFactor a role (Fac.linearVelocity id p q vel 3 dt sigma 0) (Fac.linearVelocity id p q vel 3 dt sigma 0)
  | placesVelocity (id p q vel dt sigma) : role p = .landmark ∨ role p = .point → role q = .landmark ∨ role q = .point →
      role vel = .still →
      ShiftedFactor a role (Fac.linearVelocity id p q vel 3 dt sigma 0) (Fac.linearVelocity id p q vel 3 dt sigma 0)

/-- What the variables of a problem in the plane stand for: poses, points, arrows (differences of points), displacements
(differences of poses along the axes of the world), and quantities that are not tied to the world frame. -/
inductive PlaneRole
  | pose | point | arrow | displacement | still

/-- `v'` describes the same object as `v` after the world has been turned by `phi` and then shifted by `a`. -/
inductive MovedVar (phi : ℝ) (a : V2) : PlaneRole → RVar → RVar → Prop
  | pose (v) : MovedVar phi a .pose (.pose2d v)
      (.pose2d { v with pos := turn phi *ᵥ v.pos + a, theta := wrapAngle (v.theta + phi) })
  | point (id c) (x : V2) : MovedVar phi a .point (.generic ⟨id, c, [x 0, x 1]⟩)
      (.generic ⟨id, c, [(turn phi *ᵥ x + a) 0, (turn phi *ᵥ x + a) 1]⟩)
  | arrow (id c) (x : V2) : MovedVar phi a .arrow (.generic ⟨id, c, [x 0, x 1]⟩)
      (.generic ⟨id, c, [(turn phi *ᵥ x) 0, (turn phi *ᵥ x) 1]⟩)
  | displacement (id c) (x : V2) (t) : MovedVar phi a .displacement (.generic ⟨id, c, [x 0, x 1, t]⟩)
      (.generic ⟨id, c, [(turn phi *ᵥ x) 0, (turn phi *ᵥ x) 1, t]⟩)
  | still (v) : MovedVar phi a .still (.generic v) (.generic v)

/-- `f'` is the same measurement as `f` in the moved world. Relative poses in the local frame are left out unless the world is
only shifted. -/
inductive MovedFactor (phi : ℝ) (a : V2) (role : VRef → PlaneRole) : Factor ℝ RVar → Factor ℝ RVar → Prop
  | pointPrior (id r) (x : V2) (w) : role r = .point → MovedFactor phi a role (Factorama.genericPrior id r [x 0, x 1] w)
      (Factorama.genericPrior id r [(turn phi *ᵥ x + a) 0, (turn phi *ᵥ x + a) 1] w)
  | arrowPrior (id r) (x : V2) (w) : role r = .arrow → MovedFactor phi a role (Factorama.genericPrior id r [x 0, x 1] w)
      (Factorama.genericPrior id r [(turn phi *ᵥ x) 0, (turn phi *ᵥ x) 1] w)
  | displacementPrior (id r) (x : V2) (t w) : role r = .displacement →
      MovedFactor phi a role (Factorama.genericPrior id r [x 0, x 1, t] w)
        (Factorama.genericPrior id r [(turn phi *ᵥ x) 0, (turn phi *ᵥ x) 1, t] w)
  | stillPrior (id r prior w) : role r = .still →
      MovedFactor phi a role (Factorama.genericPrior id r prior w) (Factorama.genericPrior id r prior w)
  | pointsBetween (id p q m w) : role p = .point → role q = .point → role m = .arrow →
      MovedFactor phi a role (Factorama.genericBetween id p q m 2 w) (Factorama.genericBetween id p q m 2 w)
  | bearing (id p l obs sigma) : role p = .pose → role l = .point →
      MovedFactor phi a role (Fac.bearing2D id p l obs sigma) (Fac.bearing2D id p l obs sigma)
  | rangeBearing (id p l range obs rs bs) : role p = .pose → role l = .point →
      MovedFactor phi a role (Fac.rangeBearing2D id p l range obs rs bs) (Fac.rangeBearing2D id p l range obs rs bs)
  | posePrior (id p) (x : V2) (t ps as) : role p = .pose → MovedFactor phi a role (Fac.pose2DPrior id p ![x 0, x 1, t] ps as)
      (Fac.pose2DPrior id p ![(turn phi *ᵥ x + a) 0, (turn phi *ᵥ x + a) 1, t + phi] ps as)
  | posesBetween (id p q m ps as) : role p = .pose → role q = .pose → role m = .displacement →
      MovedFactor phi a role (Fac.pose2DBetween id p q m ps as false) (Fac.pose2DBetween id p q m ps as false)
  | posesBetweenLocal (id p q m ps as) : phi = 0 → role p = .pose → role q = .pose → role m = .still →
      MovedFactor phi a role (Fac.pose2DBetween id p q m ps as true) (Fac.pose2DBetween id p q m ps as true)
  | posesVelocity (id p q vel dt sigma) : role p = .pose → role q = .pose → role vel = .arrow →
      MovedFactor phi a role (Fac.linearVelocity id p q vel 2 dt sigma 0) (Fac.linearVelocity id p q vel 2 dt sigma 0)
  | pointsVelocity (id p q vel dt sigma) : role p = .point → role q = .point → role vel = .arrow →
      MovedFactor phi a role (Fac.linearVelocity id p q vel 2 dt sigma 0) (Fac.linearVelocity id p q vel 2 dt sigma 0)

end Factorama.Spec
