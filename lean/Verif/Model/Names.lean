import Verif.Spec.Library

/-!
# Types and names

`type()`, `name()` and `get_variables_of_type`. The class of a variable object is its constructor in `RVar`; the class
of a factor object is the index of `Spec.Built`.
-/

namespace Factorama
open Spec

/-- `VariableType::VariableTypeEnum`, base_types.hpp:12-25. -/
inductive VariableType where
  | none | pose | landmark | inverseRangeLandmark | extrinsicRotation | generic | plane | pose2d | custom | other
  deriving DecidableEq

/-- `variable_names`, base_types.hpp:28-44. -/
def VariableType.name : VariableType → String
  | .none => "none"
  | .pose => "pose"
  | .landmark => "landmark"
  | .inverseRangeLandmark => "inverse_range_landmark"
  | .extrinsicRotation => "extrinsic_rotation"
  | .generic => "generic"
  | .plane => "plane"
  | .pose2d => "pose_2d"
  | .custom => "custom"
  | .other => "other"

/-- `type()` of the variable classes: generic_variable.hpp:56, landmark_variable.hpp:46, pose_variable.hpp:43,
rotation_variable.hpp:39, inverse_range_variable.hpp:48, plane_variable.hpp:45, pose_2d_variable.cpp:41-44. -/
def RVar.type : RVar → VariableType
  | .generic _ => .generic
  | .landmark _ => .landmark
  | .pose _ => .pose
  | .rotation _ => .extrinsicRotation
  | .invRange _ => .inverseRangeLandmark
  | .plane _ => .plane
  | .pose2d _ => .pose2d

/-- `Variable::name()`, base_types.hpp:164; no variable class overrides it. `std::to_string` of an `int` is its decimal
notation. -/
noncomputable def RVar.name (v : RVar) : String := v.type.name ++ toString (VarLike.id v)

/-- The variable classes of the library. -/
inductive VarClass where
  | generic | landmark | pose | rotation | invRange | plane | pose2d
  deriving DecidableEq

/-- The class of an object: the constructor with which it was made. -/
def RVar.cls : RVar → VarClass
  | .generic _ => .generic
  | .landmark _ => .landmark
  | .pose _ => .pose
  | .rotation _ => .rotation
  | .invRange _ => .invRange
  | .plane _ => .plane
  | .pose2d _ => .pose2d

/-- `get_variables_of_type<T>()`, factor_graph.hpp:161-171: the variables for which `dynamic_pointer_cast<T>` succeeds.
The classes of the library are not derived from one another. -/
def Graph.getVariablesOfType {F : Type} (h : Heap RVar) (g : Graph F RVar) (c : VarClass) : List VRef :=
  g.varsVec.foldl (fun result r => if (h r).cls = c then result ++ [r] else result) []

/-- `FactorType::FactorTypeEnum`, base_types.hpp:60-80. -/
inductive FactorType where
  | none | bearingObservation | inverseRangeBearing | genericPrior | genericBetween | posePositionPrior
  | poseOrientationPrior | posePositionBetween | poseOrientationBetween | planeFactor | planePrior
  | bearingObservation2d | rangeBearing2d | pose2dPrior | pose2dBetween | custom | other
  deriving DecidableEq

/-- `factor_names`, base_types.hpp:83-104. -/
def FactorType.name : FactorType → String
  | .none => "none"
  | .bearingObservation => "bearing_observation"
  | .inverseRangeBearing => "inverse_range_bearing"
  | .genericPrior => "generic_prior"
  | .genericBetween => "generic_between"
  | .posePositionPrior => "pose_position_prior"
  | .poseOrientationPrior => "pose_orientation_prior"
  | .posePositionBetween => "pose_position_between"
  | .poseOrientationBetween => "pose_orientation_between"
  | .planeFactor => "plane_factor"
  | .planePrior => "plane_prior"
  | .bearingObservation2d => "bearing_observation_2d"
  | .rangeBearing2d => "range_bearing_2d"
  | .pose2dPrior => "pose_2d_prior"
  | .pose2dBetween => "pose_2d_between"
  | .custom => "custom"
  | .other => "other"

/-- `type()` of the factor classes: generic_prior_factor.hpp:82, generic_between_factor.hpp:35,
pose_prior_factors.hpp:36, 77, rotation_prior_factor.hpp:111, pose_between_factors.hpp:183, 277,
bearing_observation_factor.hpp:86, inverse_range_bearing_factor.hpp:103, bearing_projection_factor_2d.hpp:61-64,
bearing_observation_factor_2d.hpp:53, range_bearing_factor_2d.hpp:61, pose_2d_prior_factor.hpp:47,
pose_2d_between_factor.hpp:58, plane_factor.hpp:38, plane_prior_factor.hpp:38, linear_velocity_factor.hpp:39,
coordinate_transform_factor.hpp:160. -/
def factorType : FactorClass → FactorType
  | .genericPrior => .genericPrior
  | .genericBetween => .genericBetween
  | .posePositionPrior => .posePositionPrior
  | .poseOrientationPrior => .poseOrientationPrior
  | .rotationPrior => .poseOrientationPrior
  | .posePositionBetween => .posePositionBetween
  | .poseOrientationBetween => .poseOrientationBetween
  | .bearingObservation => .bearingObservation
  | .inverseRangeBearing => .inverseRangeBearing
  | .bearingProjection => .bearingObservation
  | .bearing2D => .bearingObservation2d
  | .rangeBearing2D => .rangeBearing2d
  | .pose2DPrior => .pose2dPrior
  | .pose2DBetween => .pose2dBetween
  | .plane => .planeFactor
  | .planePrior => .planePrior
  | .linearVelocity => .genericBetween
  | .coordinateTransform => .custom

/-- `Factor::name()`, base_types.hpp:225. -/
def baseName (c : FactorClass) (id : Int) : String := (factorType c).name ++ toString id

/-- Names joined with a separator. -/
def joined (sep : String) : List String → String
  | [] => ""
  | [a] => a
  | a :: b :: l => a ++ sep ++ joined sep (b :: l)

/-- The names of the variables of a factor, in the order of `variables()`, which in every class is also the order in
which `name()` lists them. -/
noncomputable def variableNames (h : Heap RVar) (f : Factor ℝ RVar) : List String :=
  f.variables.filterMap fun p => p.map fun r => (h r).name

/-- `name()` of the factor classes: generic_prior_factor.hpp:80, generic_between_factor.cpp:86-89,
pose_prior_factors.cpp:56-59, 136-139, rotation_prior_factor.hpp:106-109, pose_between_factors.hpp:177-181,
bearing_projection_factor_2d.hpp:56-59, bearing_observation_factor_2d.hpp:55-58, range_bearing_factor_2d.hpp:63-66,
pose_2d_prior_factor.hpp:49, pose_2d_between_factor.hpp:60-64, plane_factor.cpp:220-223, plane_prior_factor.cpp:110-113,
coordinate_transform_factor.hpp:162. `PoseOrientationBetweenFactor`, `BearingObservationFactor`,
`InverseRangeBearingFactor` and `LinearVelocityFactor` keep the name of the base class. -/
noncomputable def factorName (c : FactorClass) (h : Heap RVar) (f : Factor ℝ RVar) : String :=
  let names := variableNames h f
  match c with
  | .genericPrior => "GenericPriorFactor(" ++ joined ", " names ++ ")"
  | .genericBetween => "GenericBetweenFactor(" ++ joined ", " names ++ ")"
  | .posePositionPrior => "PosePositionPriorFactor(" ++ joined ", " names ++ ")"
  | .poseOrientationPrior => "PoseOrientationPriorFactor(" ++ joined ", " names ++ ")"
  | .rotationPrior => "RotationPriorFactor" ++ toString f.id ++ "(" ++ joined ", " names ++ ")"
  | .posePositionBetween => "PosePositionBetweenFactor(" ++ joined ", " names ++ ")"
  | .poseOrientationBetween => baseName c f.id
  | .bearingObservation => baseName c f.id
  | .inverseRangeBearing => baseName c f.id
  | .bearingProjection => "BearingProjection2D_" ++ toString f.id ++ "(" ++ joined "," names ++ ")"
  | .bearing2D => "BearingObservationFactor2D(" ++ joined ", " names ++ ")"
  | .rangeBearing2D => "RangeBearingFactor2D(" ++ joined ", " names ++ ")"
  | .pose2DPrior => "Pose2DPriorFactor(" ++ joined ", " names ++ ")"
  | .pose2DBetween => "Pose2DBetweenFactor(" ++ joined ", " names ++ ")"
  | .plane => "PlaneFactor(" ++ joined ", " names ++ ")"
  | .planePrior => "PlanePriorFactor(" ++ joined ", " names ++ ")"
  | .linearVelocity => baseName c f.id
  | .coordinateTransform => "CoordinateTransformFactor" ++ toString f.id

end Factorama
