import Verif.Model.Factors
import Verif.Spec.Geometry
import Verif.Spec.Factors

/-!
# Specification: moving a whole world
-/

namespace Factorama.Spec
open Matrix Geo

/-- `v'` is the variable `v` after the world has been turned by `R` and then shifted by `a`. Positions of poses and
landmarks are points. The matrix of a pose turns world directions into body directions. A plane is the set of points `x`
with `normal · x + distance = 0`; an inverse-range variable is a ray with an origin. Rotation variables and generic variables
hold measurements or calibrations, which are not tied to the world frame. -/
inductive InSpace (R : M3) (a : V3) : RVar → RVar → Prop
  | pose {v v'} : v'.pos = R *ᵥ v.pos + a → v'.dcm = v.dcm * Rᵀ → InSpace R a (.pose v) (.pose v')
  | landmark {v v'} (x : V3) : v.value = toList x → v'.value = toList (R *ᵥ x + a) → InSpace R a (.landmark v) (.landmark v')
  | plane {v v'} : v'.normal = R *ᵥ v.normal → v'.dist = v.dist - (R *ᵥ v.normal) ⬝ᵥ a → InSpace R a (.plane v) (.plane v')
  | invRange {v v'} : v'.origin = R *ᵥ v.origin + a → v'.bearing = R *ᵥ v.bearing → v'.inv = v.inv →
      InSpace R a (.invRange v) (.invRange v')
  | rotation (v) : InSpace R a (.rotation v) (.rotation v)
  | generic (v) : InSpace R a (.generic v) (.generic v)

/-- Factors that measure relations between objects in space, not their place in the world frame. -/
inductive RelativeInSpace (h : Heap RVar) : Factor ℝ RVar → Prop
  | bearingObservation (id p l bearing sigma) : RelativeInSpace h (Fac.bearingObservation id p l bearing sigma)
  | bearingProjection (id p l bearing sigma tol) : RelativeInSpace h (Fac.bearingProjection id p l bearing sigma tol)
  | inverseRangeBearing (id p r bearing sigma) : RelativeInSpace h (Fac.inverseRangeBearing id p r bearing sigma)
  | poseOrientationBetween (id p1 p2 c sigma) : RelativeInSpace h (Fac.poseOrientationBetween id p1 p2 c sigma)
  | posePositionBetween (id p1 p2 m sigma v) : h m = .generic v →
      RelativeInSpace h (Fac.posePositionBetween id p1 p2 m sigma true)
  | plane (id p l sigma v) : h p = .landmark v → RelativeInSpace h (Fac.planeFactor id p l sigma none)

/-- The rotation of the plane by an angle. -/
noncomputable def turn (phi : ℝ) : Matrix (Fin 2) (Fin 2) ℝ := !![Real.cos phi, -Real.sin phi; Real.sin phi, Real.cos phi]

/-- `v'` is the planar variable `v` after the world has been turned by `phi` and then shifted by `a`; `point` tells whether a
generic variable holds a point of the plane or a measurement. -/
inductive InPlane (phi : ℝ) (a : V2) : Bool → RVar → RVar → Prop
  | pose {v v'} (b) : v'.pos = turn phi *ᵥ v.pos + a → v'.theta = wrapAngle (v.theta + phi) → InPlane phi a b (.pose2d v) (.pose2d v')
  | point {v v'} (x : V2) : v.value = toList x → v'.value = toList (turn phi *ᵥ x + a) →
      InPlane phi a true (.generic v) (.generic v')
  | measurement (v) : InPlane phi a false (.generic v) (.generic v)

/-- Factors that measure relations between objects in the plane. -/
inductive RelativeInPlane (point : VRef → Bool) : Factor ℝ RVar → Prop
  | bearing2D (id p l obs sigma) : point l = true → RelativeInPlane point (Fac.bearing2D id p l obs sigma)
  | rangeBearing2D (id p l range obs rs bs) : point l = true → RelativeInPlane point (Fac.rangeBearing2D id p l range obs rs bs)

/-- Objects with a place in the world: poses, landmarks, planes, planar poses, and those generic variables that hold a point
(`point`) instead of a measurement. -/
def HasPlace (point : Bool) : RVar → Prop
  | .pose _ | .landmark _ | .plane _ | .pose2d _ => True
  | .generic _ => point = true
  | .rotation _ | .invRange _ => False

/-- The place of an object other than a plane; a planar object has its place in the plane of the first two axes. -/
noncomputable def place (point : Bool) : RVar → V3
  | .pose v => v.pos
  | .landmark v => ![v.value.getD 0 0, v.value.getD 1 0, v.value.getD 2 0]
  | .pose2d v => ![v.pos 0, v.pos 1, 0]
  | .generic v => if point = true then ![v.value.getD 0 0, v.value.getD 1 0, v.value.getD 2 0] else 0
  | .plane _ | .rotation _ | .invRange _ => 0

/-- `v'` is `v` after everything that has a place in the world was shifted by `a`; planar objects are shifted by the first
two entries of `a`. -/
inductive Shifted (a : V3) : Bool → RVar → RVar → Prop
  | pose {v v'} (b) : v'.pos = v.pos + a → v'.dcm = v.dcm → v'.rot = v.rot → v'.extra = v.extra → Shifted a b (.pose v) (.pose v')
  | landmark {v v'} (b) (x : V3) : v.value = toList x → v'.value = toList (x + a) → Shifted a b (.landmark v) (.landmark v')
  | plane {v v'} (b) : v'.normal = v.normal → v'.dist = v.dist - v.normal ⬝ᵥ a → Shifted a b (.plane v) (.plane v')
  | pose2d {v v'} (b) : v'.pos = v.pos + ![a 0, a 1] → v'.theta = v.theta → Shifted a b (.pose2d v) (.pose2d v')
  | point2 {v v'} (x : V2) : v.value = toList x → v'.value = toList (x + ![a 0, a 1]) → Shifted a true (.generic v) (.generic v')
  | point3 {v v'} (x : V3) : v.value = toList x → v'.value = toList (x + a) → Shifted a true (.generic v) (.generic v')
  | still {b v} : ¬ HasPlace b v → Shifted a b v v

/-- Two objects of the same kind that have a place in the world. -/
inductive SameKind (point : VRef → Bool) (h : Heap RVar) (r r' : VRef) : Prop
  | poses {v v'} : h r = .pose v → h r' = .pose v' → SameKind point h r r'
  | landmarks {v v'} : h r = .landmark v → h r' = .landmark v' → SameKind point h r r'
  | planarPoses {v v'} : h r = .pose2d v → h r' = .pose2d v' → SameKind point h r r'
  | points {v v'} : h r = .generic v → h r' = .generic v' → v.value.length = v'.value.length → point r = true →
      point r' = true → SameKind point h r r'

/-- Factors that do not measure where in the world things are: all of the library except position, planar pose and plane
priors, plane factors with distance scaling, inverse ranges (whose origin is fixed) and coordinate transforms. -/
inductive Floating (point : VRef → Bool) (h : Heap RVar) : Factor ℝ RVar → Prop
  | genericPrior (id r prior w) : ¬ HasPlace (point r) (h r) → Floating point h (Factorama.genericPrior id r prior w)
  | genericBetween (id a b m n w) : SameKind point h a b → ¬ HasPlace (point m) (h m) →
      Floating point h (Factorama.genericBetween id a b m n w)
  | poseOrientationPrior (id p prior sigma) : Floating point h (Fac.poseOrientationPrior id p prior sigma)
  | rotationPrior (id r prior sigma) : Floating point h (Fac.rotationPrior id r prior sigma)
  | posePositionBetween (id a b m sigma localFrame) : ¬ HasPlace (point m) (h m) →
      Floating point h (Fac.posePositionBetween id a b m sigma localFrame)
  | poseOrientationBetween (id p1 p2 c sigma) : Floating point h (Fac.poseOrientationBetween id p1 p2 c sigma)
  | bearingObservation (id p l bearing sigma) : Floating point h (Fac.bearingObservation id p l bearing sigma)
  | bearingProjection (id p l bearing sigma tol) : Floating point h (Fac.bearingProjection id p l bearing sigma tol)
  | bearing2D {v} (id p l obs sigma) : h l = .generic v → point l = true → Floating point h (Fac.bearing2D id p l obs sigma)
  | rangeBearing2D {v} (id p l range obs rs bs) : h l = .generic v → point l = true →
      Floating point h (Fac.rangeBearing2D id p l range obs rs bs)
  | pose2DBetween (id a b m ps as localFrame) : ¬ HasPlace (point m) (h m) →
      Floating point h (Fac.pose2DBetween id a b m ps as localFrame)
  | plane {v} (id p l sigma) : h p = .landmark v → Floating point h (Fac.planeFactor id p l sigma none)
  | linearVelocity (id v1 v2 vel n dt sigma i) : SameKind point h v1 v2 → ¬ HasPlace (point vel) (h vel) →
      Floating point h (Fac.linearVelocity id v1 v2 vel n dt sigma i)

end Factorama.Spec
