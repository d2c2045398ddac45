import Mathlib.Analysis.SpecialFunctions.Complex.Arg
import Mathlib.Analysis.SpecialFunctions.Trigonometric.Inverse
import Mathlib.LinearAlgebra.Matrix.Notation
import Mathlib.LinearAlgebra.CrossProduct
import Verif.Model.Base

/-!
# Model of `random_utils.cpp` and of the Eigen geometry it uses

`double` is modelled by the real numbers: rounding, infinities, NaN and signed zeros are not modelled in this file and
in the files built on it. Decimal literals stand for themselves.
-/

namespace Factorama
open Matrix

/-- `Eigen::Vector3d`. -/
abbrev V3 := Fin 3 → ℝ
/-- `Eigen::Vector2d`. -/
abbrev V2 := Fin 2 → ℝ
/-- `Eigen::Matrix3d`. -/
abbrev M3 := Matrix (Fin 3) (Fin 3) ℝ

namespace Geo

/-- `v.norm()`. -/
noncomputable def vnorm {n : Nat} (v : Fin n → ℝ) : ℝ := √(v ⬝ᵥ v)

/-- `v / c`. -/
noncomputable def vdiv {n : Nat} (v : Fin n → ℝ) (c : ℝ) : Fin n → ℝ := fun i => v i / c

/-- `v.normalized()` (Eigen): divides by the norm unless the squared norm is zero. -/
noncomputable def normalized {n : Nat} (v : Fin n → ℝ) : Fin n → ℝ :=
  if 0 < v ⬝ᵥ v then vdiv v (√(v ⬝ᵥ v)) else v

/-- `std::atan2(y, x)`; the value at `(0, 0)` is 0. -/
noncomputable def atan2 (y x : ℝ) : ℝ := Complex.arg ⟨x, y⟩

/-- `PI`, random_utils.hpp:8. -/
noncomputable def PI : ℝ := 3.14159265358979323846

/-- `skew_symmetric`, random_utils.cpp:8-13. -/
def skew (v : V3) : M3 := !![0, -v 2, v 1; v 2, 0, -v 0; -v 1, v 0, 0]

/-- `unskew`, random_utils.cpp:15-18. -/
noncomputable def unskew (m : M3) : V3 := (0.5 : ℝ) • ![m 2 1 - m 1 2, m 0 2 - m 2 0, m 1 0 - m 0 1]

/-- `ExpMapSO3`, random_utils.cpp:20-33. -/
noncomputable def expSO3 (omega : V3) : M3 :=
  let theta := vnorm omega
  if theta < 1e-10 then 1 + skew omega
  else
    let K := skew (vdiv omega theta)
    1 + Real.sin theta • K + (1 - Real.cos theta) • (K * K)

/-- `Eigen::Quaterniond`. -/
structure Quat where
  w : ℝ
  vec : V3

/-- `Eigen::Quaterniond(const Matrix3d&)` (Eigen/src/Geometry/Quaternion.h, `quaternionbase_assign_impl`). -/
noncomputable def quatOfMatrix (m : M3) : Quat :=
  let t := m 0 0 + m 1 1 + m 2 2
  if 0 < t then
    let t1 := √(t + 1)
    let t2 := 0.5 / t1
    ⟨0.5 * t1, ![(m 2 1 - m 1 2) * t2, (m 0 2 - m 2 0) * t2, (m 1 0 - m 0 1) * t2]⟩
  else
    let i0 : Fin 3 := if m 0 0 < m 1 1 then 1 else 0
    let i : Fin 3 := if m i0 i0 < m 2 2 then 2 else i0
    let j := i + 1
    let k := j + 1
    let t1 := √(m i i - m j j - m k k + 1)
    let t2 := 0.5 / t1
    ⟨(m k j - m j k) * t2,
      fun a => if a = i then 0.5 * t1 else if a = j then (m j i + m i j) * t2 else (m k i + m i k) * t2⟩

/-- `Eigen::AngleAxisd`. -/
structure AngleAxis where
  angle : ℝ
  axis : V3

/-- `Eigen::AngleAxisd(const Quaterniond&)` (Eigen/src/Geometry/AngleAxis.h); `stableNorm` is the norm in exact
arithmetic. -/
noncomputable def angleAxisOfQuat (q : Quat) : AngleAxis :=
  let n := vnorm q.vec
  if n = 0 then ⟨0, ![1, 0, 0]⟩
  else ⟨2 * atan2 n |q.w|, vdiv q.vec (if q.w < 0 then -n else n)⟩

/-- `Eigen::AngleAxisd(const Matrix3d&)`: through the quaternion. -/
noncomputable def angleAxisOfMatrix (m : M3) : AngleAxis := angleAxisOfQuat (quatOfMatrix m)

/-- `AngleAxisd::toRotationMatrix()` (Eigen/src/Geometry/AngleAxis.h). -/
noncomputable def AngleAxis.toMatrix (aa : AngleAxis) : M3 :=
  let s := Real.sin aa.angle • aa.axis
  let c := Real.cos aa.angle
  let d := (1 - c) • aa.axis
  !![d 0 * aa.axis 0 + c, d 0 * aa.axis 1 - s 2, d 0 * aa.axis 2 + s 1;
     d 0 * aa.axis 1 + s 2, d 1 * aa.axis 1 + c, d 1 * aa.axis 2 - s 0;
     d 0 * aa.axis 2 - s 1, d 1 * aa.axis 2 + s 0, d 2 * aa.axis 2 + c]

/-- `std::min(std::max(x, -1.0), 1.0)`, random_utils.cpp:38. -/
noncomputable def clampUnit (x : ℝ) : ℝ := min (max x (-1)) 1

/-- `LogMapSO3`, random_utils.cpp:35-57. -/
noncomputable def logSO3 (R : M3) : V3 :=
  let theta := Real.arccos (clampUnit ((R 0 0 + R 1 1 + R 2 2 - 1) * 0.5))
  if theta < 1e-5 then unskew ((0.5 : ℝ) • (R - Rᵀ))
  else if |theta - PI| < 1e-3 then
    let aa := angleAxisOfMatrix R
    aa.angle • aa.axis
  else unskew ((theta / (2 * Real.sin theta)) • (R - Rᵀ))

/-- `LogMapS2`, random_utils.cpp:61-79. -/
noncomputable def logS2 (base unit : V3) : V3 :=
  let theta := Real.arccos (clampUnit (base ⬝ᵥ unit))
  if theta < 1e-10 then 0
  else
    let axis := base ⨯₃ unit
    if vnorm axis < 1e-10 then 0 else theta • normalized axis

/-- `compute_inverse_right_jacobian_so3`, random_utils.cpp:81-104. -/
noncomputable def invJacSO3 (omega : V3) : Res M3 :=
  let theta := vnorm omega
  if theta < 1e-8 then .ok (1 - (0.5 : ℝ) • skew omega)
  else
    let axis := vdiv omega theta
    let K := skew axis
    let half := 0.5 * theta
    let t := Real.tan half
    if |t| < 1e-12 then .threw
    else
      let cot := 1 / t
      .ok ((half * cot) • (1 : M3) + (1 - half * cot) • vecMulVec axis axis - half • K)

/-- `wrap_angle`, pose_2d_variable.cpp:77-81 and the identical copies in the planar factors. -/
noncomputable def wrapAngle (a : ℝ) : ℝ := atan2 (Real.sin a) (Real.cos a)

end Geo
end Factorama
