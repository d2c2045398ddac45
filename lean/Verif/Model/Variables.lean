import Verif.Model.Geometry
import Verif.Model.Generic

/-!
# The variable classes over the real numbers

`GenericVariable` is in `Verif/Model/Generic.lean`; `name` and `type` are in `Verif/Model/Names.lean`.
`clone` is in `Verif/Model/Clone.lean`; `print` is not modelled. Fixed-size reads of a vector of another size are an `eigen_assert`
and count as undefined behaviour.
-/

namespace Factorama
open Matrix Geo

/-- The entries of a fixed-size vector, as a dynamic vector. -/
def toList {n : Nat} (v : Fin n → ℝ) : List ℝ := List.ofFn v

/-- Read three entries from a dynamic vector known to be long enough. -/
def read3 (l : List ℝ) (k : Nat) : V3 := fun i => l.getD (k + i) 0

/-- `class LandmarkVariable`, landmark_variable.hpp:18-70. `pos_W_` is a `VectorXd`. -/
structure LandmarkVar where
  id : Int
  isConst : Bool
  value : List ℝ

namespace LandmarkVar
/-- The constructor, landmark_variable.hpp:26-30. -/
def make (id : Int) (pos : V3) : LandmarkVar := ⟨id, false, toList pos⟩

/-- `pos_W()`, landmark_variable.hpp:52: a `Vector3d` made from a `VectorXd`. -/
def posW (v : LandmarkVar) : Res V3 := if v.value.length = 3 then .ok (read3 v.value 0) else .ub

/-- `set_pos_W`, landmark_variable.hpp:58. -/
def setPosW (v : LandmarkVar) (p : V3) : LandmarkVar := { v with value := toList p }

/-- `set_value_from_vector`, landmark_variable.hpp:36: no size check. -/
def setValue (v : LandmarkVar) (x : List ℝ) : Res LandmarkVar := .ok { v with value := x }

/-- `apply_increment`, landmark_variable.hpp:38-44; `size()` is always 3. Adding vectors of different sizes is an
`eigen_assert`. -/
def applyIncr (v : LandmarkVar) (dx : List ℝ) : Res LandmarkVar :=
  if dx.length ≠ 3 then .threw
  else if v.value.length ≠ 3 then .ub
  else .ok { v with value := List.zipWith (· + ·) v.value dx }
end LandmarkVar

/-- `class PoseVariable`, pose_variable.hpp:23-91. The `VectorXd` `pose_CW_` has at least six entries in every state
(shorter ones are undefined behaviour in `recompute_dcm_CW`); `extra` holds the entries beyond the six. -/
structure PoseVar where
  id : Int
  isConst : Bool
  pos : V3
  rot : V3
  extra : List ℝ
  dcm : M3

namespace PoseVar
/-- `recompute_dcm_CW`, pose_variable.cpp:63-75: the matrix for the stored rotation vector. -/
noncomputable def dcmOf (rot : V3) : M3 :=
  let angle := vnorm rot
  if angle < 1e-8 then 1 else (AngleAxis.mk angle (vdiv rot angle)).toMatrix

/-- `recompute_dcm_CW`, pose_variable.cpp:63-75. -/
noncomputable def recompute (v : PoseVar) : PoseVar := { v with dcm := dcmOf v.rot }

/-- `PoseVariable(id, vector)`, pose_variable.cpp:8-13. -/
noncomputable def make (id : Int) (pos rot : V3) : PoseVar := recompute ⟨id, false, pos, rot, [], 1⟩

/-- `aa.axis() * aa.angle()` with `Eigen::AngleAxisd aa(dcm_CW)`, pose_variable.cpp:21-22, 90-91. -/
noncomputable def rotOfDcm (dcm : M3) : V3 := (angleAxisOfMatrix dcm).angle • (angleAxisOfMatrix dcm).axis

/-- `PoseVariable(id, pos, dcm)`, pose_variable.cpp:15-24. -/
noncomputable def makeDcm (id : Int) (pos : V3) (dcm : M3) : PoseVar := recompute ⟨id, false, pos, rotOfDcm dcm, [], 1⟩

/-- `value()`, pose_variable.hpp:42. -/
def value (v : PoseVar) : List ℝ := toList v.pos ++ toList v.rot ++ v.extra

/-- `set_value_from_vector`, pose_variable.cpp:26-30: no size check. -/
noncomputable def setValue (v : PoseVar) (x : List ℝ) : Res PoseVar :=
  if x.length < 6 then .ub
  else .ok (recompute { v with pos := read3 x 0, rot := read3 x 3, extra := x.drop 6 })

/-- `apply_increment`, pose_variable.cpp:32-56. -/
noncomputable def applyIncr (v : PoseVar) (dx : List ℝ) : Res PoseVar :=
  if dx.length ≠ 6 then .threw
  else .ok (recompute { v with pos := v.pos + read3 dx 0, rot := logSO3 (expSO3 (read3 dx 3) * v.dcm) })

/-- `set_pose_vector`, pose_variable.cpp:77-81: the vector becomes one of six entries. -/
noncomputable def setPoseVector (v : PoseVar) (pos rot : V3) : PoseVar :=
  recompute { v with pos := pos, rot := rot, extra := [] }

/-- `set_pos_W`, pose_variable.cpp:83-86. -/
def setPosW (v : PoseVar) (p : V3) : PoseVar := { v with pos := p }

/-- `set_dcm_CW`, pose_variable.cpp:88-93. -/
noncomputable def setDcm (v : PoseVar) (dcm : M3) : PoseVar := recompute { v with rot := rotOfDcm dcm }
end PoseVar

/-- `class RotationVariable`, rotation_variable.hpp:22-70. `value_` has three entries in every state, because
`ExpMapSO3(x)` (a `const Vector3d&` parameter) asserts it. -/
structure RotationVar where
  id : Int
  isConst : Bool
  vec : V3
  dcm : M3

namespace RotationVar
/-- The constructor, rotation_variable.hpp:30-35. -/
noncomputable def make (id : Int) (dcm : M3) : RotationVar := ⟨id, false, logSO3 dcm, dcm⟩

/-- `set_value_from_vector`, rotation_variable.hpp:43-47. -/
noncomputable def setValue (v : RotationVar) (x : List ℝ) : Res RotationVar :=
  if x.length ≠ 3 then .ub else .ok { v with vec := read3 x 0, dcm := expSO3 (read3 x 0) }

/-- `apply_increment`, rotation_variable.hpp:49-53: no size check. -/
noncomputable def applyIncr (v : RotationVar) (dx : List ℝ) : Res RotationVar :=
  if dx.length ≠ 3 then .ub
  else .ok { v with dcm := expSO3 (read3 dx 0) * v.dcm, vec := logSO3 (expSO3 (read3 dx 0) * v.dcm) }

/-- An assignment `v.dcm_AB() = dcm`, rotation_variable.hpp:55: the accessor returns a reference to the stored matrix, and
nothing else is written. -/
def writeDcm (v : RotationVar) (dcm : M3) : RotationVar := { v with dcm := dcm }
end RotationVar

/-- `class InverseRangeVariable`, inverse_range_variable.hpp:26-61. `lo` and `hi` are the public members
`minimum_inverse_range_` and `maximum_inverse_range_`; `extra` holds the entries of `inverse_range_value_` beyond the
first. -/
structure InvRangeVar where
  id : Int
  isConst : Bool
  origin : V3
  bearing : V3
  lo : ℝ
  hi : ℝ
  inv : ℝ
  extra : List ℝ

namespace InvRangeVar
/-- `clip_inverse_range`, inverse_range_variable.cpp:22-27. -/
noncomputable def clip (lo hi x : ℝ) : ℝ := min (max x lo) hi

/-- `1.0 / initial_range` followed by the clipping; a zero range gives `+inf` in C++, which is clipped to the upper
bound (`-0.0` would give the lower bound; the sign of zero is not modelled). -/
noncomputable def initialInv (range : ℝ) : ℝ := if range = 0 then 1e3 else clip 1e-6 1e3 (1 / range)

/-- The constructor, inverse_range_variable.cpp:9-20, with the default bounds of inverse_range_variable.hpp:40-42. -/
noncomputable def make (id : Int) (origin bearing : V3) (range : ℝ) : InvRangeVar :=
  ⟨id, false, origin, normalized bearing, 1e-6, 1e3, initialInv range, []⟩

/-- `value()`, inverse_range_variable.hpp:45. -/
def value (v : InvRangeVar) : List ℝ := v.inv :: v.extra

/-- `set_value_from_vector`, inverse_range_variable.cpp:29-33: no size check. -/
noncomputable def setValue (v : InvRangeVar) (x : List ℝ) : Res InvRangeVar :=
  match x with
  | [] => .ub
  | a :: rest => .ok { v with inv := clip v.lo v.hi a, extra := rest }

/-- `apply_increment`, inverse_range_variable.cpp:35-42. -/
noncomputable def applyIncr (v : InvRangeVar) (dx : List ℝ) : Res InvRangeVar :=
  if dx.length ≠ 1 then .threw
  else if v.extra ≠ [] then .ub
  else .ok { v with inv := clip v.lo v.hi (v.inv + dx.getD 0 0) }

/-- `pos_W()`, inverse_range_variable.cpp:44-52; `none` is the NaN vector. -/
noncomputable def posW (v : InvRangeVar) : Option V3 :=
  if |v.inv| < 1e-9 then none else some (v.origin + (1 / v.inv) • v.bearing)
end InvRangeVar

/-- `class PlaneVariable`, plane_variable.hpp:24-109. `value_` is always `unit_vector_, distance_from_origin_`. -/
structure PlaneVar where
  id : Int
  isConst : Bool
  normal : V3
  dist : ℝ

namespace PlaneVar
/-- The constructor, plane_variable.hpp:33-41. -/
noncomputable def make (id : Int) (normal : V3) (d : ℝ) : Res PlaneVar :=
  if 0 < normal ⬝ᵥ normal then .ok ⟨id, false, normalized normal, d⟩ else .ub

/-- `value()`, plane_variable.hpp:47. -/
def value (v : PlaneVar) : List ℝ := toList v.normal ++ [v.dist]

/-- `set_value_from_vector`, plane_variable.hpp:49-57. -/
noncomputable def setValue (v : PlaneVar) (x : List ℝ) : Res PlaneVar :=
  if x.length ≠ 4 then .threw else .ok { v with normal := normalized (read3 x 0), dist := x.getD 3 0 }

/-- `apply_increment`, plane_variable.hpp:59-70. -/
noncomputable def applyIncr (v : PlaneVar) (dx : List ℝ) : Res PlaneVar :=
  if dx.length ≠ 4 then .threw
  else if 0 < (v.normal + read3 dx 0) ⬝ᵥ (v.normal + read3 dx 0) then
    .ok { v with normal := normalized (v.normal + read3 dx 0), dist := v.dist + dx.getD 3 0 }
  else .ub

/-- `distance_from_point`, plane_variable.hpp:89-94. -/
def distanceFromPoint (v : PlaneVar) (p : V3) : ℝ := v.normal ⬝ᵥ p + v.dist
end PlaneVar

/-- `class Pose2DVariable`, pose_2d_variable.hpp:21-84. -/
structure Pose2DVar where
  id : Int
  isConst : Bool
  pos : V2
  theta : ℝ

namespace Pose2DVar
/-- The constructor, pose_2d_variable.cpp:8-14. -/
noncomputable def make (id : Int) (pos : V2) (theta : ℝ) : Pose2DVar := ⟨id, false, pos, wrapAngle theta⟩

/-- `value()`, pose_2d_variable.hpp:33. -/
def value (v : Pose2DVar) : List ℝ := [v.pos 0, v.pos 1, v.theta]

/-- `set_value_from_vector`, pose_2d_variable.cpp:16-24. -/
noncomputable def setValue (v : Pose2DVar) (x : List ℝ) : Res Pose2DVar :=
  if x.length ≠ 3 then .threw
  else .ok { v with pos := ![x.getD 0 0, x.getD 1 0], theta := wrapAngle (x.getD 2 0) }

/-- `apply_increment`, pose_2d_variable.cpp:26-39. -/
noncomputable def applyIncr (v : Pose2DVar) (dx : List ℝ) : Res Pose2DVar :=
  if dx.length ≠ 3 then .threw
  else .ok { v with pos := ![v.pos 0 + dx.getD 0 0, v.pos 1 + dx.getD 1 0],
                    theta := wrapAngle (v.theta + dx.getD 2 0) }

/-- `set_pos_2d`, pose_2d_variable.cpp:55-58. -/
def setPos (v : Pose2DVar) (p : V2) : Pose2DVar := { v with pos := p }

/-- `set_theta`, pose_2d_variable.cpp:60-63. -/
noncomputable def setTheta (v : Pose2DVar) (theta : ℝ) : Pose2DVar := { v with theta := wrapAngle theta }

/-- `dcm_2d`, pose_2d_variable.cpp:46-53. -/
noncomputable def dcm (v : Pose2DVar) : Matrix (Fin 2) (Fin 2) ℝ :=
  !![Real.cos v.theta, -Real.sin v.theta; Real.sin v.theta, Real.cos v.theta]
end Pose2DVar

/-- A variable object of any of the library's classes. -/
inductive RVar where
  | generic (v : GenVar ℝ)
  | landmark (v : LandmarkVar)
  | pose (v : PoseVar)
  | rotation (v : RotationVar)
  | invRange (v : InvRangeVar)
  | plane (v : PlaneVar)
  | pose2d (v : Pose2DVar)

/-- Apply a constructor to a normal outcome. -/
def Res.map {α β : Type} (f : α → β) : Res α → Res β
  | .ok a => .ok (f a)
  | .threw => .threw
  | .ub => .ub

/-- Sequence two outcomes. -/
def Res.andThen {α β : Type} (r : Res α) (f : α → Res β) : Res β :=
  match r with
  | .ok a => f a
  | .threw => .threw
  | .ub => .ub

/-- Virtual dispatch (base_types.hpp:132-173). -/
noncomputable instance : VarLike ℝ RVar where
  id
    | .generic v => v.id | .landmark v => v.id | .pose v => v.id | .rotation v => v.id | .invRange v => v.id
    | .plane v => v.id | .pose2d v => v.id
  isConst
    | .generic v => v.isConst | .landmark v => v.isConst | .pose v => v.isConst | .rotation v => v.isConst
    | .invRange v => v.isConst | .plane v => v.isConst | .pose2d v => v.isConst
  setConst
    | .generic v, b => .generic { v with isConst := b }
    | .landmark v, b => .landmark { v with isConst := b }
    | .pose v, b => .pose { v with isConst := b }
    | .rotation v, b => .rotation { v with isConst := b }
    | .invRange v, b => .invRange { v with isConst := b }
    | .plane v, b => .plane { v with isConst := b }
    | .pose2d v, b => .pose2d { v with isConst := b }
  size
    | .generic v => v.value.length | .landmark _ => 3 | .pose _ => 6 | .rotation _ => 3 | .invRange _ => 1
    | .plane _ => 4 | .pose2d _ => 3
  value
    | .generic v => v.value | .landmark v => v.value | .pose v => v.value | .rotation v => toList v.vec
    | .invRange v => v.value | .plane v => v.value | .pose2d v => v.value
  setValue
    | .generic v, x => (v.setValue x).map .generic
    | .landmark v, x => (v.setValue x).map .landmark
    | .pose v, x => (v.setValue x).map .pose
    | .rotation v, x => (v.setValue x).map .rotation
    | .invRange v, x => (v.setValue x).map .invRange
    | .plane v, x => (v.setValue x).map .plane
    | .pose2d v, x => (v.setValue x).map .pose2d
  applyIncr
    | .generic v, x => (v.applyIncr x).map .generic
    | .landmark v, x => (v.applyIncr x).map .landmark
    | .pose v, x => (v.applyIncr x).map .pose
    | .rotation v, x => (v.applyIncr x).map .rotation
    | .invRange v, x => (v.applyIncr x).map .invRange
    | .plane v, x => (v.applyIncr x).map .plane
    | .pose2d v, x => (v.applyIncr x).map .pose2d

end Factorama
