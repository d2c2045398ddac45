import Verif.Spec.Motion

/-!
# Specification: the same problem in space, described in a turned and shifted world frame
-/

namespace Factorama.Spec
open Matrix Geo

/-- What the variables of a problem in space stand for: poses, landmarks, planes, rays with an origin, other points of the
world, arrows (differences of points, along the axes of the world), the rotation that takes another frame to the world, the
origin of the world seen from another frame (which is what a coordinate transform estimates, C56), and quantities that are not
tied to the world frame, among them the landmarks of another frame. -/
inductive TurnRole
  | pose | landmark | plane | ray | point | arrow | attitude | origin | still

/-- `v'` describes the same object as `v` after the world has been turned by the rotation `W` and then shifted by `a`. The
matrix of a pose takes directions of the world to directions of the camera. Planes are constants. -/
inductive RotatedVar (W : M3) (a : V3) : TurnRole → RVar → RVar → Prop
  | pose (v v') : v'.id = v.id → v'.isConst = v.isConst → v'.pos = W *ᵥ v.pos + a → v'.dcm = v.dcm * Wᵀ →
      RotatedVar W a .pose (.pose v) (.pose v')
  | landmark (id c) (x : V3) : RotatedVar W a .landmark (.landmark ⟨id, c, toList x⟩) (.landmark ⟨id, c, toList (W *ᵥ x + a)⟩)
  | plane (v) : v.isConst = true →
      RotatedVar W a .plane (.plane v) (.plane { v with normal := W *ᵥ v.normal, dist := v.dist - (W *ᵥ v.normal) ⬝ᵥ a })
  | ray (v) : RotatedVar W a .ray (.invRange v) (.invRange { v with origin := W *ᵥ v.origin + a, bearing := W *ᵥ v.bearing })
  | point (id c) (x : V3) : RotatedVar W a .point (.generic ⟨id, c, toList x⟩) (.generic ⟨id, c, toList (W *ᵥ x + a)⟩)
  | arrow (id c) (x : V3) : RotatedVar W a .arrow (.generic ⟨id, c, toList x⟩) (.generic ⟨id, c, toList (W *ᵥ x)⟩)
  | attitude (v v') : v'.id = v.id → v'.isConst = v.isConst → v'.dcm = W * v.dcm →
      RotatedVar W a .attitude (.rotation v) (.rotation v')
  | origin (id c) (x : V3) : RotatedVar W a .origin (.generic ⟨id, c, toList x⟩) (.generic ⟨id, c, toList (W *ᵥ x - a)⟩)
  | elsewhere (v) : RotatedVar W a .still (.landmark v) (.landmark v)
  | generic (v) : RotatedVar W a .still (.generic v) (.generic v)
  | rotation (v) : RotatedVar W a .still (.rotation v) (.rotation v)

/-- A landmark or a point. -/
def TurnRole.IsPlace (r : TurnRole) : Prop := r = .landmark ∨ r = .point

/-- `f'` is the same measurement as `f` in the turned and shifted world: what is known about the place of an object is known
about the new place, known differences along the axes of the world are turned, and everything measured by a camera is
unchanged. A prior on an orientation is stored as a rotation vector, which is exact only for rotations by at least `1e-5`. Left
out are plane priors, distance scaling of plane factors and priors on the rotation of a coordinate transform. -/
inductive RotatedFactor (W : M3) (a : V3) (role : VRef → TurnRole) : Factor ℝ RVar → Factor ℝ RVar → Prop
  | placePrior (id r) (x : V3) (w) : (role r).IsPlace →
      RotatedFactor W a role (Factorama.genericPrior id r (toList x) w) (Factorama.genericPrior id r (toList (W *ᵥ x + a)) w)
  | arrowPrior (id r) (x : V3) (w) : role r = .arrow →
      RotatedFactor W a role (Factorama.genericPrior id r (toList x) w) (Factorama.genericPrior id r (toList (W *ᵥ x)) w)
  | stillPrior (id r prior w) : role r = .still →
      RotatedFactor W a role (Factorama.genericPrior id r prior w) (Factorama.genericPrior id r prior w)
  | placesBetween (id p q m w) : (role p).IsPlace → (role q).IsPlace → role m = .arrow →
      RotatedFactor W a role (Factorama.genericBetween id p q m 3 w) (Factorama.genericBetween id p q m 3 w)
  | posePositionPrior (id p) (prior : V3) (sigma) : role p = .pose →
      RotatedFactor W a role (Fac.posePositionPrior id p prior sigma) (Fac.posePositionPrior id p (W *ᵥ prior + a) sigma)
  | poseOrientationPrior (id p) (R : M3) (sigma) : role p = .pose → IsRotation R → 1e-5 ≤ angle R → 1e-5 ≤ angle (R * Wᵀ) →
      RotatedFactor W a role (Fac.poseOrientationPrior id p R sigma) (Fac.poseOrientationPrior id p (R * Wᵀ) sigma)
  | rotationPrior (id r prior sigma) : role r = .still →
      RotatedFactor W a role (Fac.rotationPrior id r prior sigma) (Fac.rotationPrior id r prior sigma)
  | posePositionBetween (id p q m sigma) : role p = .pose → role q = .pose → role m = .arrow →
      RotatedFactor W a role (Fac.posePositionBetween id p q m sigma false) (Fac.posePositionBetween id p q m sigma false)
  | posePositionBetweenLocal (id p q m sigma) : role p = .pose → role q = .pose → role m = .still →
      RotatedFactor W a role (Fac.posePositionBetween id p q m sigma true) (Fac.posePositionBetween id p q m sigma true)
  | poseOrientationBetween (id p q c sigma) : role p = .pose → role q = .pose → role c = .still →
      RotatedFactor W a role (Fac.poseOrientationBetween id p q c sigma) (Fac.poseOrientationBetween id p q c sigma)
  | bearingObservation (id p l bearing sigma) : role p = .pose → role l = .landmark →
      RotatedFactor W a role (Fac.bearingObservation id p l bearing sigma) (Fac.bearingObservation id p l bearing sigma)
  | bearingProjection (id p l bearing sigma tol) : role p = .pose → role l = .landmark →
      RotatedFactor W a role (Fac.bearingProjection id p l bearing sigma tol) (Fac.bearingProjection id p l bearing sigma tol)
  | inverseRangeBearing (id p r bearing sigma) : role p = .pose → role r = .ray →
      RotatedFactor W a role (Fac.inverseRangeBearing id p r bearing sigma) (Fac.inverseRangeBearing id p r bearing sigma)
  | plane (id p l sigma) : (role p).IsPlace → role l = .plane →
      RotatedFactor W a role (Fac.planeFactor id p l sigma none) (Fac.planeFactor id p l sigma none)
  | posesVelocity (id p q vel dt sigma) : role p = .pose → role q = .pose → role vel = .arrow →
      RotatedFactor W a role (Fac.linearVelocity id p q vel 3 dt sigma 0) (Fac.linearVelocity id p q vel 3 dt sigma 0)
  | placesVelocity (id p q vel dt sigma) : (role p).IsPlace → (role q).IsPlace → role vel = .arrow →
      RotatedFactor W a role (Fac.linearVelocity id p q vel 3 dt sigma 0) (Fac.linearVelocity id p q vel 3 dt sigma 0)
  | originPrior (id r) (x : V3) (w) : role r = .origin →
      RotatedFactor W a role (Factorama.genericPrior id r (toList x) w) (Factorama.genericPrior id r (toList (W *ᵥ x - a)) w)
  | coordinateTransform (id rot org sc la lb sigma) : role rot = .attitude → role org = .origin → role sc = .still →
      role la = .landmark → role lb = .still →
      RotatedFactor W a role (Fac.coordinateTransform id rot org sc la lb sigma) (Fac.coordinateTransform id rot org sc la lb sigma)

/-- The increment `d` takes the variable `v` to `w`; if it is a pose, its rotation is multiplied by the exponential of the
increment exactly, as it is unless the new rotation is almost the identity or the increment is tiny but not zero (C37). -/
def TurnsExactly : RVar → List ℝ → RVar → Prop
  | .pose v, d, .pose w => w.dcm = expSO3 (read3 d 3) * v.dcm
  | _, _, _ => True

end Factorama.Spec
