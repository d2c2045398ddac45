import Verif.Model.Names
import Verif.Model.Optimizer

/-!
# Enumerations in Python

The values of the C++ enumerations that the Python module registers. pybind11, which is not part of /repo, is modelled from its
documentation: an enumeration is a list of registered names with values; a value is shown under the first name registered with
it, or as "???" if there is none; an attribute of the enumeration is looked up by name.
-/

namespace Factorama.Py

/-- A registered enumeration, `py::enum_<…>(m, "…").value("…", …)…`, _factorama.cpp:52-78, 280-290. -/
abbrev PyEnum (α : Type) := List (String × α)

/-- The name under which Python shows a value (`.name`), _factorama.cpp:52-78, 280-290. -/
def PyEnum.nameOf {α : Type} [DecidableEq α] (e : PyEnum α) (x : α) : String :=
  match e.find? fun p => decide (p.2 = x) with
  | some p => p.1
  | none => "???"

/-- The value of an attribute, as in `factorama.VariableType.pose`; `none` stands for an `AttributeError`.
_factorama.cpp:52-78, 280-290. -/
def PyEnum.value {α : Type} (e : PyEnum α) (n : String) : Option α := (e.find? fun p => decide (p.1 = n)).map (·.2)

/-- `VariableType`, _factorama.cpp:52-60. -/
def variableTypes : PyEnum VariableType :=
  [("none", .none), ("pose", .pose), ("landmark", .landmark), ("inverse_range_landmark", .inverseRangeLandmark),
    ("extrinsic_rotation", .extrinsicRotation), ("generic", .generic), ("plane", .plane), ("pose_2d", .pose2d)]

/-- `FactorType`, _factorama.cpp:62-78. -/
def factorTypes : PyEnum FactorType :=
  [("none", .none), ("bearing_observation", .bearingObservation), ("inverse_range_bearing", .inverseRangeBearing),
    ("generic_prior", .genericPrior), ("generic_between", .genericBetween), ("pose_position_prior", .posePositionPrior),
    ("pose_orientation_prior", .poseOrientationPrior), ("pose_position_between", .posePositionBetween),
    ("pose_orientation_between", .poseOrientationBetween), ("plane_factor", .planeFactor), ("plane_prior", .planePrior),
    ("bearing_observation_2d", .bearingObservation2d), ("range_bearing_2d", .rangeBearing2d), ("pose_2d_prior", .pose2dPrior),
    ("pose_2d_between", .pose2dBetween), ("custom", .custom)]

/-- `OptimizerMethod`, _factorama.cpp:280-282. -/
def methods : PyEnum Method := [("GaussNewton", .gaussNewton), ("LevenbergMarquardt", .levenbergMarquardt)]

/-- `OptimizerStatus`, _factorama.cpp:284-290. -/
def statuses : PyEnum Status :=
  [("SUCCESS", .success), ("RUNNING", .running), ("SINGULAR_HESSIAN", .singularHessian), ("ILL_CONDITIONED", .illConditioned),
    ("DIVERGED", .diverged), ("FAILED", .failed)]

end Factorama.Py
