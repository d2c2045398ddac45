/-!
# Constructors in Python

The parameters of the constructors, as the headers declare them and as the Python module registers them, and how the arguments of
a Python call reach the C++ constructor. pybind11, which is not part of /repo, is modelled from its documentation: positional
arguments first, then keywords, then defaults; an argument given twice, missing or unknown means that the overload is not taken. The
conversion of the arguments is not modelled.
-/

namespace Factorama.Py

/-- A default value in the source: a number or a truth value, _factorama.cpp:102-276. -/
inductive Default where
  | number (x : Rat)
  | truth (b : Bool)
deriving DecidableEq, Repr

/-- A declared parameter, `py::arg("…")` or `py::arg("…") = …` (_factorama.cpp:102-276), or a parameter in a header. -/
structure Param where
  name : String
  dflt : Option Default := none
deriving DecidableEq, Repr

/-- A constructor: its class, its parameters in the header and its parameters in Python, _factorama.cpp:102-276. -/
structure Ctor where
  cls : String
  cpp : List Param
  py : List Param
deriving DecidableEq, Repr

/-- What a constructor gets for a parameter: an argument of the caller or a default value,
_factorama.cpp:102-276. -/
inductive Arg (α : Type) where
  | given (a : α)
  | dflt (d : Default)
deriving DecidableEq, Repr

/-- A parameter without a default, as at _factorama.cpp:105. -/
def req (n : String) : Param := ⟨n, none⟩

/-- A parameter with a number as its default, as at _factorama.cpp:166. -/
def num (n : String) (x : Rat) : Param := ⟨n, some (.number x)⟩

/-- A parameter with a truth value as its default, as at _factorama.cpp:208. -/
def flag (n : String) (b : Bool) : Param := ⟨n, some (.truth b)⟩

/-- The constructors, in the order in which they are registered, _factorama.cpp:102-276. The first list of each is the header's. -/
def constructors : List Ctor := [
  -- pose_variable.hpp:31, _factorama.cpp:103-105
  ⟨"PoseVariable", [req "id", req "pose_CW_init"], [req "id", req "pose_CW_init"]⟩,
  -- pose_variable.hpp:39, _factorama.cpp:106-108
  ⟨"PoseVariable", [req "id", req "pos_W", req "dcm_CW"], [req "id", req "pos_W", req "dcm_CW"]⟩,
  -- landmark_variable.hpp:26, _factorama.cpp:114-116
  ⟨"LandmarkVariable", [req "id", req "pos_W_init"], [req "id", req "pos_W_init"]⟩,
  -- generic_variable.hpp:27, _factorama.cpp:120-122
  ⟨"GenericVariable", [req "id", req "initial_value"], [req "id", req "initial_value"]⟩,
  -- rotation_variable.hpp:30, _factorama.cpp:125-127
  ⟨"RotationVariable", [req "id", req "dcm_AB"], [req "id", req "dcm_AB"]⟩,
  -- inverse_range_variable.hpp:36-37, _factorama.cpp:132-134
  ⟨"InverseRangeVariable", [req "variable_id", req "origin_pos_W", req "bearing_W", req "initial_range"],
    [req "id", req "origin_pos_W", req "bearing_W", req "initial_range"]⟩,
  -- plane_variable.hpp:33, _factorama.cpp:143-145
  ⟨"PlaneVariable", [req "id", req "normal_vector", req "distance"], [req "id", req "normal_vector", req "distance"]⟩,
  -- pose_2d_variable.hpp:29, _factorama.cpp:151-153
  ⟨"Pose2DVariable", [req "id", req "pose_2d"], [req "id", req "pose_2d"]⟩,
  -- bearing_observation_factor.hpp:37-38, _factorama.cpp:162-166
  ⟨"BearingObservationFactor", [req "id", req "pose_var", req "landmark_var", req "bearing_C_observed", num "angle_sigma" 1],
    [req "id", req "pose_var", req "landmark_var", req "bearing_C_observed", num "angle_sigma" 1]⟩,
  -- generic_prior_factor.hpp:30, _factorama.cpp:172-174
  ⟨"GenericPriorFactor", [req "id", req "variable", req "prior_value", num "sigma" 1],
    [req "id", req "variable", req "prior_value", num "sigma" 1]⟩,
  -- inverse_range_bearing_factor.hpp:40-41, _factorama.cpp:177-181
  ⟨"InverseRangeBearingFactor", [req "id", req "pose_var", req "inverse_range_variable", req "bearing_C_observed", num "angle_sigma" 1],
    [req "id", req "pose_var", req "inverse_range_var", req "bearing_C_observed", num "angle_sigma" 1]⟩,
  -- generic_between_factor.hpp:31, _factorama.cpp:185-187
  ⟨"GenericBetweenFactor", [req "id", req "var_a", req "var_b", req "measured_diff", num "sigma" 1],
    [req "id", req "var_a", req "var_b", req "measured_diff", num "sigma" 1]⟩,
  -- linear_velocity_factor.hpp:34-35, _factorama.cpp:190-192
  ⟨"LinearVelocityFactor",
    [req "id", req "var_1", req "var_2", req "velocity_variable", req "dt", num "sigma" 1, num "initial_index" 0],
    [req "id", req "var_1", req "var_2", req "velocity_variable", req "dt", num "sigma" 1]⟩,
  -- pose_prior_factors.hpp:32, _factorama.cpp:195-197
  ⟨"PosePositionPriorFactor", [req "id", req "pose", req "pos_prior", num "sigma" 1],
    [req "id", req "pose", req "pos_prior", num "sigma" 1]⟩,
  -- pose_prior_factors.hpp:73, _factorama.cpp:200-202
  ⟨"PoseOrientationPriorFactor", [req "id", req "pose", req "dcm_CW_prior", num "sigma" 1],
    [req "id", req "pose", req "rotvec_prior", num "sigma" 1]⟩,
  -- pose_between_factors.hpp:36-37, _factorama.cpp:205-208
  ⟨"PosePositionBetweenFactor",
    [req "id", req "pose_a", req "pose_b", req "measured_diff", num "sigma" 1, flag "local_frame" false],
    [req "id", req "pose_a", req "pose_b", req "measured_diff", num "sigma" 1, flag "local_frame" false]⟩,
  -- pose_between_factors.hpp:218-219, _factorama.cpp:211-213
  ⟨"PoseOrientationBetweenFactor", [req "id", req "pose1", req "pose2", req "calibration_rotation_12", num "angle_sigma" 1],
    [req "id", req "pose1", req "pose2", req "calibration_rotation_12", num "angle_sigma" 1]⟩,
  -- rotation_prior_factor.hpp:31, _factorama.cpp:216-218
  ⟨"RotationPriorFactor", [req "id", req "rotation", req "dcm_AB_prior", num "sigma" 1],
    [req "id", req "rotation", req "dcm_AB_prior", num "sigma" 1]⟩,
  -- bearing_projection_factor_2d.hpp:35-37, _factorama.cpp:221-224
  ⟨"BearingProjectionFactor2D",
    [req "id", req "pose", req "landmark", req "bearing_C_observed", num "sigma" 1, num "along_tolerance_epsilon" (1 / 10 ^ 6)],
    [req "id", req "pose", req "landmark", req "bearing_C_observed", num "sigma" 1, num "along_tolerance_epsilon" (1 / 10 ^ 6)]⟩,
  -- plane_factor.hpp:31, _factorama.cpp:227-229
  ⟨"PlaneFactor", [req "id", req "point_var", req "plane_var", num "sigma" 1],
    [req "id", req "point_var", req "plane_var", num "sigma" 1]⟩,
  -- plane_factor.hpp:33-34, _factorama.cpp:230-233
  ⟨"PlaneFactor",
    [req "id", req "point_var", req "plane_var", req "sigma", req "do_distance_scaling", req "dist_scaling_r0", req "dist_scaling_p0"],
    [req "id", req "point_var", req "plane_var", req "sigma", req "do_distance_scaling", req "dist_scaling_r0", req "dist_scaling_p0"]⟩,
  -- plane_prior_factor.hpp:34-35, _factorama.cpp:236-239
  ⟨"PlanePriorFactor",
    [req "id", req "plane", req "normal_prior", req "distance_prior", num "normal_sigma" 1, num "distance_sigma" 1],
    [req "id", req "plane", req "normal_prior", req "distance_prior", num "normal_sigma" 1, num "distance_sigma" 1]⟩,
  -- bearing_observation_factor_2d.hpp:37-38, _factorama.cpp:242-245
  ⟨"BearingObservationFactor2D", [req "id", req "pose_var", req "landmark_var", req "bearing_angle_obs", num "angle_sigma" 1],
    [req "id", req "pose_var", req "landmark_var", req "bearing_angle_obs", num "angle_sigma" 1]⟩,
  -- range_bearing_factor_2d.hpp:43-44, _factorama.cpp:249-253
  ⟨"RangeBearingFactor2D",
    [req "id", req "pose_var", req "landmark_var", req "range_obs", req "bearing_angle_obs", num "range_sigma" 1, num "bearing_sigma" 1],
    [req "id", req "pose_var", req "landmark_var", req "range_obs", req "bearing_angle_obs", num "range_sigma" 1, num "bearing_sigma" 1]⟩,
  -- pose_2d_prior_factor.hpp:35-36, _factorama.cpp:258-261
  ⟨"Pose2DPriorFactor", [req "id", req "pose_var", req "pose_prior", req "position_sigma", req "angle_sigma"],
    [req "id", req "pose_var", req "pose_prior", req "position_sigma", req "angle_sigma"]⟩,
  -- pose_2d_between_factor.hpp:46-47, _factorama.cpp:264-267
  ⟨"Pose2DBetweenFactor",
    [req "id", req "pose_a", req "pose_b", req "measured_between_variable", req "position_sigma", req "angle_sigma",
      flag "local_frame" false],
    [req "id", req "pose_a", req "pose_b", req "measured_between_variable", req "position_sigma", req "angle_sigma",
      flag "local_frame" false]⟩,
  -- coordinate_transform_factor.hpp:40-42, _factorama.cpp:270-276
  ⟨"CoordinateTransformFactor",
    [req "id", req "rot_AB", req "B_origin_A", req "scale_AB", req "lm_A", req "lm_B", num "sigma" 1],
    [req "id", req "rot_AB", req "B_origin_A", req "scale_AB", req "lm_A", req "lm_B", num "sigma" 1]⟩]

variable {α : Type}

/-- The keyword argument with the name `n`, the name given in `py::arg` (_factorama.cpp:102-276). -/
def keyword (kw : List (String × α)) (n : String) : Option α := (kw.find? fun p => decide (p.1 = n)).map (·.2)

/-- How pybind11 matches the arguments of a call with the parameters registered for a constructor, _factorama.cpp:102-276; `none`: the
constructor is not taken. Used keywords are removed, and none may be left at the end. -/
def bindArgs : List Param → List α → List (String × α) → Option (List (Arg α))
  | [], [], [] => some []
  | [], _, _ => none
  | p :: ps, a :: pos, kw =>
    match keyword kw p.name with
    | some _ => none
    | none => (bindArgs ps pos kw).map (.given a :: ·)
  | p :: ps, [], kw =>
    match keyword kw p.name with
    | some a => (bindArgs ps [] (kw.filter fun q => decide (q.1 ≠ p.name))).map (.given a :: ·)
    | none =>
      match p.dflt with
      | some d => (bindArgs ps [] kw).map (.dflt d :: ·)
      | none => none

/-- A C++ call: the arguments in their order, and the defaults of the header for the rest; `none`: the call does not compile.
For the declarations cited in `constructors`, as at linear_velocity_factor.hpp:34-35. -/
def cppArgs : List Param → List (Arg α) → Option (List (Arg α))
  | [], [] => some []
  | [], _ :: _ => none
  | _ :: ps, a :: as => (cppArgs ps as).map (a :: ·)
  | p :: ps, [] =>
    match p.dflt with
    | some d => (cppArgs ps []).map (.dflt d :: ·)
    | none => none

/-- What the constructor gets if it is called from C++ with these arguments, as at
linear_velocity_factor.hpp:34-35. -/
def Ctor.fromCpp (c : Ctor) (pos : List α) : Option (List (Arg α)) := cppArgs c.cpp (pos.map .given)

/-- What the constructor gets if it is called from Python: pybind11 calls the C++ constructor with the arguments it has bound, as
`py::init<…>` lists them, _factorama.cpp:102-276. -/
def Ctor.fromPython (c : Ctor) (pos : List α) (kw : List (String × α)) : Option (List (Arg α)) :=
  (bindArgs c.py pos kw).bind (cppArgs c.cpp)

/-- A call of a class from Python: the first registered constructor whose parameters match, _factorama.cpp:102-276; `none` stands for a
`TypeError`. -/
def construct (cls : String) (pos : List α) (kw : List (String × α)) : Option (List (Arg α)) :=
  (constructors.filter fun c => decide (c.cls = cls)).findSome? fun c => c.fromPython pos kw

end Factorama.Py
