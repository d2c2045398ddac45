import Verif.Model.Variables

/-!
# The factor classes over the real numbers

`GenericPriorFactor` and `GenericBetweenFactor` are in `Verif/Model/Generic.lean`. `name`, `type`, `weight()` and the
other getters are not modelled. Each class has two overloads of `compute_residual` with the same computation; they are
one function here. A pointer of class `C*` that refers to an object of another class, and a fixed-size vector made from
a dynamic one of another size, are undefined behaviour. NaN does not exist among the reals: where the code would return
NaN the outcome is `.ub`, and the definition says so.
-/

namespace Factorama
open Matrix Geo

/-- A fixed-size matrix as an `Eigen::MatrixXd`. -/
noncomputable def Mat.ofMatrix {m n : Nat} (A : Matrix (Fin m) (Fin n) ℝ) : Mat ℝ :=
  ⟨m, n, fun i j => if h : i < m ∧ j < n then A ⟨i, h.1⟩ ⟨j, h.2⟩ else 0⟩

namespace Fac

/-- The block of one variable: `if (var->is_constant()) jacobians[k] = Eigen::MatrixXd(); else …`, as in
pose_prior_factors.cpp:40-48. The matrix is resized and completely overwritten. -/
noncomputable def block {m n : Nat} (v : RVar) (A : Matrix (Fin m) (Fin n) ℝ) : Mat ℝ :=
  if VarLike.isConst v then Mat.empty else Mat.ofMatrix A

/-- `block<m,3>(0,0) = A; block<m,3>(0,3) = B` of an `m × 6` matrix. -/
def beside {m : Nat} (A B : Matrix (Fin m) (Fin 3) ℝ) : Matrix (Fin m) (Fin 6) ℝ :=
  fun i j => if h : (j : Nat) < 3 then A i ⟨j, h⟩ else B i ⟨j - 3, by omega⟩

/-- Writing the blocks `bs` to a buffer of `n` elements; writing beyond its end is undefined behaviour. -/
def writeBlocks (n : Nat) (buf bs : List (Mat ℝ)) : Res (List (Mat ℝ)) :=
  if bs.length ≤ n then .ok (bs ++ buf.drop bs.length) else .ub

/-- The start of every `compute_jacobians`, for instance pose_prior_factors.cpp:33-38: the output vector gets `n`
elements unless it has `n` already. Then the blocks `bs` are written. -/
def fillBlocks (n : Nat) (old bs : List (Mat ℝ)) : Res (List (Mat ℝ)) :=
  writeBlocks n (if old.length = n then old else List.replicate n Mat.empty) bs

/-- `Eigen::Vector3d v = x` for a dynamic `x`. -/
def vec3 (x : List ℝ) : Res V3 := if x.length = 3 then .ok (read3 x 0) else .ub

/-- `x.head<2>()`. -/
def head2 (x : List ℝ) : Res V2 := if 2 ≤ x.length then .ok ![x.getD 0 0, x.getD 1 0] else .ub

/-- `PosePositionPriorFactor`, pose_prior_factors.cpp:8-54. -/
noncomputable def posePositionPrior (id : Int) (p : VRef) (prior : V3) (sigma : ℝ) : Factor ℝ RVar where
  id := id
  residualSize := 3
  «variables» := [some p]
  computeResidual h :=
    match h p with
    | .pose v => .ok (toList ((1 / sigma) • (v.pos - prior)))
    | _ => .ub
  computeJacobians h old :=
    match h p with
    | .pose v => fillBlocks 1 old [block (.pose v) (beside ((1 / sigma) • (1 : M3)) 0)]
    | _ => .ub

/-- `PoseOrientationPriorFactor`, pose_prior_factors.cpp:62-134. The constructor stores the logarithm of the prior. -/
noncomputable def poseOrientationPrior (id : Int) (p : VRef) (dcmPrior : M3) (sigma : ℝ) : Factor ℝ RVar where
  id := id
  residualSize := 3
  «variables» := [some p]
  computeResidual h :=
    match h p with
    | .pose v => .ok (toList ((1 / sigma) • logSO3 (v.dcm * (expSO3 (logSO3 dcmPrior))ᵀ)))
    | _ => .ub
  computeJacobians h old :=
    match h p with
    | .pose v =>
      if v.isConst then fillBlocks 1 old [Mat.empty]
      else (invJacSO3 (logSO3 (v.dcm * (expSO3 (logSO3 dcmPrior))ᵀ))).andThen fun J =>
        fillBlocks 1 old [Mat.ofMatrix (beside 0 ((1 / sigma) • J))]
    | _ => .ub

/-- `RotationPriorFactor`, rotation_prior_factor.hpp:31-102. -/
noncomputable def rotationPrior (id : Int) (r : VRef) (dcmPrior : M3) (sigma : ℝ) : Factor ℝ RVar where
  id := id
  residualSize := 3
  «variables» := [some r]
  computeResidual h :=
    match h r with
    | .rotation v => .ok (toList ((1 / sigma) • logSO3 (v.dcm * dcmPriorᵀ)))
    | _ => .ub
  computeJacobians h old :=
    match h r with
    | .rotation v =>
      if v.isConst then fillBlocks 1 old [Mat.empty]
      else (invJacSO3 (logSO3 (v.dcm * dcmPriorᵀ))).andThen fun J => fillBlocks 1 old [Mat.ofMatrix ((1 / sigma) • J)]
    | _ => .ub

/-- `PosePositionBetweenFactor`, pose_between_factors.hpp:36-173. -/
noncomputable def posePositionBetween (id : Int) (a b m : VRef) (sigma : ℝ) (localFrame : Bool) : Factor ℝ RVar where
  id := id
  residualSize := 3
  «variables» := [some a, some b, some m]
  computeResidual h :=
    match h a, h b with
    | .pose va, .pose vb => (vec3 (VarLike.value (h m))).map fun d =>
        toList ((1 / sigma) • ((if localFrame then va.dcm *ᵥ (vb.pos - va.pos) else vb.pos - va.pos) - d))
    | _, _ => .ub
  computeJacobians h old :=
    match h a, h b with
    | .pose va, .pose vb =>
      let w := 1 / sigma
      let diffA := va.dcm *ᵥ (vb.pos - va.pos)
      fillBlocks 3 old
        [block (h a) (if localFrame then beside (-w • va.dcm) (-w • skew diffA) else beside (-w • (1 : M3)) 0),
         block (h b) (if localFrame then beside (w • va.dcm) 0 else beside (w • (1 : M3)) 0),
         block (h m) (-w • (1 : M3))]
    | _, _ => .ub

/-- `PoseOrientationBetweenFactor`, pose_between_factors.hpp:218-273 and pose_between_factors.cpp:6-58; `rotation()` of
the calibration variable is its matrix (rotation_variable.hpp). -/
noncomputable def poseOrientationBetween (id : Int) (p1 p2 c : VRef) (sigma : ℝ) : Factor ℝ RVar where
  id := id
  residualSize := 3
  «variables» := [some p1, some p2, some c]
  computeResidual h :=
    match h p1, h p2, h c with
    | .pose v1, .pose v2, .rotation vc => .ok (toList ((1 / sigma) • logSO3 (v2.dcm * v1.dcmᵀ * vc.dcm)))
    | _, _, _ => .ub
  computeJacobians h old :=
    match h p1, h p2, h c with
    | .pose v1, .pose v2, .rotation vc =>
      let error := v2.dcm * v1.dcmᵀ * vc.dcm
      let w := 1 / sigma
      (invJacSO3 (logSO3 error)).andThen fun J =>
        fillBlocks 3 old
          [block (h p1) (beside 0 (-w • Jᵀ * vc.dcmᵀ)),
           block (h p2) (beside 0 (w • (Jᵀ * errorᵀ))),
           block (h c) (w • Jᵀ * vc.dcmᵀ)]
    | _, _, _ => .ub

/-- `BearingObservationFactor`, bearing_observation_factor.hpp:24-94 and bearing_observation_factor.cpp:7-61. -/
noncomputable def bearingObservation (id : Int) (p l : VRef) (bearing : V3) (sigma : ℝ) : Factor ℝ RVar where
  id := id
  residualSize := 3
  «variables» := [some p, some l]
  computeResidual h :=
    match h p, h l with
    | .pose v, .landmark x => x.posW.map fun pw =>
        toList ((1 / sigma) • (normalized (v.dcm *ᵥ (pw - v.pos)) - normalized bearing))
    | _, _ => .ub
  computeJacobians h old :=
    match h p, h l with
    | .pose v, .landmark x => x.posW.andThen fun pw =>
        let posC := v.dcm *ᵥ (pw - v.pos)
        let n := vnorm posC
        if n < 1e-9 then .threw
        else
          let b := vdiv posC n
          let D : M3 := (1 / sigma / n) • (-vecMulVec b b + 1)
          fillBlocks 2 old
            [block (h p) (beside ((-1 : ℝ) • D * v.dcm) (D * -skew posC)), block (h l) (D * v.dcm)]
    | _, _ => .ub

/-- `InverseRangeBearingFactor`, inverse_range_bearing_factor.hpp:26-111 and inverse_range_bearing_factor.cpp:7-68.
When `pos_W()` is NaN (inverse range below 1e-9, possible only with changed bounds) the residual is NaN, here `.ub`; the
Jacobian then throws. -/
noncomputable def inverseRangeBearing (id : Int) (p r : VRef) (bearing : V3) (sigma : ℝ) : Factor ℝ RVar where
  id := id
  residualSize := 3
  «variables» := [some p, some r]
  computeResidual h :=
    match h p, h r with
    | .pose v, .invRange x =>
      match x.posW with
      | some pw => .ok (toList ((1 / sigma) • (normalized (v.dcm *ᵥ (pw - v.pos)) - normalized bearing)))
      | none => .ub
    | _, _ => .ub
  computeJacobians h old :=
    match h p, h r with
    | .pose v, .invRange x =>
      match x.posW with
      | some pw =>
        let w := 1 / sigma
        let posC := v.dcm *ᵥ (pw - v.pos)
        let n := vnorm posC
        if n < 1e-9 then .threw
        else
          let b := vdiv posC n
          let D : M3 := (1 / n) • (1 - vecMulVec b b)
          let dInv := v.dcm *ᵥ vdiv (-x.bearing) (x.inv * x.inv)
          fillBlocks 2 old
            [block (h p) (beside (-w • D * v.dcm) (w • D * -skew posC)),
             block (h r) (Matrix.of fun i (_ : Fin 1) => ((w • D) *ᵥ dInv) i)]
      | none => .threw
    | _, _ => .ub

/-- The auxiliary axis of `compute_tangent_basis`, bearing_projection_factor_2d.cpp:12-21. -/
noncomputable def tangentAxis (k : V3) : V3 :=
  if |k 0| ≤ |k 1| ∧ |k 0| ≤ |k 2| then ![1, 0, 0] else if |k 1| ≤ |k 2| then ![0, 1, 0] else ![0, 0, 1]

/-- The first column of `T_`, bearing_projection_factor_2d.cpp:24-25. -/
noncomputable def tangent1 (k : V3) : V3 := normalized (tangentAxis k - (k ⬝ᵥ tangentAxis k) • k)

/-- The second column of `T_`, bearing_projection_factor_2d.cpp:28. -/
noncomputable def tangent2 (k : V3) : V3 := k ⨯₃ tangent1 k

/-- `T_.transpose()`, bearing_projection_factor_2d.cpp:31-32. -/
noncomputable def tangentT (k : V3) : Matrix (Fin 2) (Fin 3) ℝ := Matrix.of ![tangent1 k, tangent2 k]

/-- `BearingProjectionFactor2D`, bearing_projection_factor_2d.hpp:35-66 and bearing_projection_factor_2d.cpp:6-178. With
the landmark exactly at the camera `compute_jacobians` divides by zero and returns NaN, here `.ub`. -/
noncomputable def bearingProjection (id : Int) (p l : VRef) (bearing : V3) (sigma tol : ℝ) : Factor ℝ RVar where
  id := id
  residualSize := 2
  «variables» := [some p, some l]
  computeResidual h :=
    match h p, h l with
    | .pose v, .landmark x => x.posW.map fun pw =>
        let k := normalized bearing
        let b := normalized (v.dcm *ᵥ (pw - v.pos))
        if k ⬝ᵥ b ≤ tol then toList ((1 / sigma) • ![1, 1]) else toList ((1 / sigma) • (tangentT k *ᵥ b))
    | _, _ => .ub
  computeJacobians h old :=
    match h p, h l with
    | .pose v, .landmark x => x.posW.andThen fun pw =>
        let k := normalized bearing
        let w := 1 / sigma
        let posC := v.dcm *ᵥ (pw - v.pos)
        let n := vnorm posC
        if n = 0 then .ub
        else
          let b := vdiv posC n
          if k ⬝ᵥ b ≤ tol then fillBlocks 2 old [block (h p) (0 : Matrix (Fin 2) (Fin 6) ℝ),
            block (h l) (0 : Matrix (Fin 2) (Fin 3) ℝ)]
          else
            let D : M3 := (1 / n) • (1 - vecMulVec b b)
            fillBlocks 2 old
              [block (h p) (tangentT k * beside (-w • D * v.dcm) (w • D * -skew posC)),
               block (h l) (tangentT k * (w • D * v.dcm))]
    | _, _ => .ub

/-- `delta_local` of the planar factors, bearing_observation_factor_2d.cpp:24-34, range_bearing_factor_2d.cpp:29-39. -/
noncomputable def deltaLocal (v : Pose2DVar) (l : V2) : V2 := v.dcmᵀ *ᵥ (l - v.pos)

/-- `BearingObservationFactor2D`, bearing_observation_factor_2d.cpp:7-140. -/
noncomputable def bearing2D (id : Int) (p l : VRef) (obs sigma : ℝ) : Factor ℝ RVar where
  id := id
  residualSize := 1
  «variables» := [some p, some l]
  computeResidual h :=
    match h p with
    | .pose2d v => (head2 (VarLike.value (h l))).map fun x =>
        let d := deltaLocal v x
        [(1 / sigma) * wrapAngle (atan2 (d 1) (d 0) - obs)]
    | _ => .ub
  computeJacobians h old :=
    match h p with
    | .pose2d v => (head2 (VarLike.value (h l))).andThen fun x =>
        let w := 1 / sigma
        let c := Real.cos v.theta
        let s := Real.sin v.theta
        let d := deltaLocal v x
        let rsq := d 0 * d 0 + d 1 * d 1
        if rsq < 1e-9 * 1e-9 then .threw
        else fillBlocks 2 old
          [block (h p) (!![w * (d 1 * c + d 0 * s) / rsq, w * (d 1 * s - d 0 * c) / rsq, -w] : Matrix (Fin 1) (Fin 3) ℝ),
           block (h l) (!![-w * (d 1 * c + d 0 * s) / rsq, -w * (d 1 * s - d 0 * c) / rsq] : Matrix (Fin 1) (Fin 2) ℝ)]
    | _ => .ub

/-- `RangeBearingFactor2D`, range_bearing_factor_2d.cpp:7-168. -/
noncomputable def rangeBearing2D (id : Int) (p l : VRef) (rangeObs obs rangeSigma bearingSigma : ℝ) :
    Factor ℝ RVar where
  id := id
  residualSize := 2
  «variables» := [some p, some l]
  computeResidual h :=
    match h p with
    | .pose2d v => (head2 (VarLike.value (h l))).map fun x =>
        let d := deltaLocal v x
        [(1 / rangeSigma) * (vnorm d - rangeObs), (1 / bearingSigma) * wrapAngle (atan2 (d 1) (d 0) - obs)]
    | _ => .ub
  computeJacobians h old :=
    match h p with
    | .pose2d v => (head2 (VarLike.value (h l))).andThen fun x =>
        let wr := 1 / rangeSigma
        let wb := 1 / bearingSigma
        let c := Real.cos v.theta
        let s := Real.sin v.theta
        let d := deltaLocal v x
        let rsq := d 0 * d 0 + d 1 * d 1
        let r := √rsq
        if r < 1e-9 then .threw
        else fillBlocks 2 old
          [block (h p) (!![-wr * (d 0 * c - d 1 * s) / r, -wr * (d 0 * s + d 1 * c) / r, 0;
              wb * (d 1 * c + d 0 * s) / rsq, wb * (d 1 * s - d 0 * c) / rsq, -wb] : Matrix (Fin 2) (Fin 3) ℝ),
           block (h l) (!![wr * (d 0 * c - d 1 * s) / r, wr * (d 0 * s + d 1 * c) / r;
              -wb * (d 1 * c + d 0 * s) / rsq, -wb * (d 1 * s - d 0 * c) / rsq] : Matrix (Fin 2) (Fin 2) ℝ)]
    | _ => .ub

/-- `Pose2DPriorFactor`, pose_2d_prior_factor.cpp:6-73. -/
noncomputable def pose2DPrior (id : Int) (p : VRef) (prior : V3) (posSigma angleSigma : ℝ) : Factor ℝ RVar where
  id := id
  residualSize := 3
  «variables» := [some p]
  computeResidual h :=
    match h p with
    | .pose2d v => .ok [(1 / posSigma) * (v.pos 0 - prior 0), (1 / posSigma) * (v.pos 1 - prior 1),
        (1 / angleSigma) * wrapAngle (v.theta - prior 2)]
    | _ => .ub
  computeJacobians h old :=
    match h p with
    | .pose2d v => fillBlocks 1 old
        [block (.pose2d v) (!![1 / posSigma, 0, 0; 0, 1 / posSigma, 0; 0, 0, 1 / angleSigma] : M3)]
    | _ => .ub

/-- `Pose2DBetweenFactor`, pose_2d_between_factor.cpp:6-191. -/
noncomputable def pose2DBetween (id : Int) (a b m : VRef) (posSigma angleSigma : ℝ) (localFrame : Bool) :
    Factor ℝ RVar where
  id := id
  residualSize := 3
  «variables» := [some a, some b, some m]
  computeResidual h :=
    match h a, h b with
    | .pose2d va, .pose2d vb =>
      let x := VarLike.value (h m)
      if x.length < 3 then .ub
      else
        let rel := vb.pos - va.pos
        let e := (if localFrame then va.dcm *ᵥ rel else rel) - ![x.getD 0 0, x.getD 1 0]
        .ok [(1 / posSigma) * e 0, (1 / posSigma) * e 1,
          (1 / angleSigma) * wrapAngle (vb.theta - va.theta - x.getD 2 0)]
    | _, _ => .ub
  computeJacobians h old :=
    match h a, h b with
    | .pose2d va, .pose2d vb =>
      let wp := 1 / posSigma
      let wa := 1 / angleSigma
      let R := va.dcm
      let g := (!![0, -1; 1, 0] * R) *ᵥ (vb.pos - va.pos)
      fillBlocks 3 old
        [block (h a) (if localFrame then
            (!![-wp * R 0 0, -wp * R 0 1, wp * g 0; -wp * R 1 0, -wp * R 1 1, wp * g 1; 0, 0, -wa] : M3)
            else !![-wp, 0, 0; 0, -wp, 0; 0, 0, -wa]),
         block (h b) (if localFrame then
            (!![wp * R 0 0, wp * R 0 1, 0; wp * R 1 0, wp * R 1 1, 0; 0, 0, wa] : M3)
            else !![wp, 0, 0; 0, wp, 0; 0, 0, wa]),
         block (h m) (!![-wp, 0, 0; 0, -wp, 0; 0, 0, -wa] : M3)]
    | _, _ => .ub

/-- `PlaneFactor`, plane_factor.cpp:7-218; `scaling` is `none` for `do_distance_scaling_ = false` and otherwise holds
`dist_scaling_r0_` and `dist_scaling_p0_`. -/
noncomputable def planeFactor (id : Int) (p l : VRef) (sigma : ℝ) (scaling : Option (ℝ × V3)) : Factor ℝ RVar where
  id := id
  residualSize := 1
  «variables» := [some p, some l]
  computeResidual h :=
    match h l with
    | .plane v => (vec3 (VarLike.value (h p))).map fun x =>
      match scaling with
      | none => [(1 / sigma) * v.distanceFromPoint x]
      | some (r0, p0) => [(1 / sigma) * ((v.normal ⬝ᵥ x - v.dist) / (1 + vnorm (x - p0) / r0))]
    | _ => .ub
  computeJacobians h old :=
    match h l with
    | .plane v => (vec3 (VarLike.value (h p))).andThen fun x =>
      let w := 1 / sigma
      let n := v.normal
      let t := x - (x ⬝ᵥ n) • n
      match scaling with
      | none => fillBlocks 2 old
          [block (h p) (Matrix.of fun (_ : Fin 1) j => w * n j),
           block (h l) (!![w * t 0, w * t 1, w * t 2, w] : Matrix (Fin 1) (Fin 4) ℝ)]
      | some (r0, p0) =>
        let diff := x - p0
        let r := vnorm diff
        let scale := 1 + r / r0
        let dist := n ⬝ᵥ x - v.dist
        let dscale := if 1e-12 < r then (1 / r0) • vdiv diff r else 0
        let g := vdiv (scale • n - dist • dscale) (scale * scale)
        fillBlocks 2 old
          [block (h p) (Matrix.of fun (_ : Fin 1) j => w * g j),
           block (h l) (!![w * (t 0 / scale), w * (t 1 / scale), w * (t 2 / scale), w * (-1 / scale)] :
             Matrix (Fin 1) (Fin 4) ℝ)]
    | _ => .ub

/-- `PlanePriorFactor`, plane_prior_factor.cpp:7-108. -/
noncomputable def planePrior (id : Int) (l : VRef) (normalPrior : V3) (distPrior normalSigma distSigma : ℝ) :
    Factor ℝ RVar where
  id := id
  residualSize := 4
  «variables» := [some l]
  computeResidual h :=
    match h l with
    | .plane v =>
      let n := v.normal
      let res := ((1 / normalSigma) • (1 - vecMulVec n n : M3)) *ᵥ (n - normalized normalPrior)
      .ok (toList res ++ [(1 / distSigma) * (v.dist - distPrior)])
    | _ => .ub
  computeJacobians h old :=
    match h l with
    | .plane v =>
      let n := v.normal
      let n0 := normalized normalPrior
      let B : M3 := (1 / normalSigma) • ((n ⬝ᵥ n0) • (1 : M3) + vecMulVec n n0 - (2 * (n ⬝ᵥ n0)) • vecMulVec n n)
      fillBlocks 1 old
        [block (.plane v) (!![B 0 0, B 0 1, B 0 2, 0; B 1 0, B 1 1, B 1 2, 0; B 2 0, B 2 1, B 2 2, 0;
          0, 0, 0, 1 / distSigma] : Matrix (Fin 4) (Fin 4) ℝ)]
    | _ => .ub

/-- `value().segment(i, n)`. -/
def segmentOf (x : List ℝ) (i n : Nat) : Res (List ℝ) :=
  if i + n ≤ x.length then .ok ((x.drop i).take n) else .ub

/-- A matrix that is zero except for the value `w` on the diagonal of the block of `n` columns starting at column `i`
(`setZero(); block(0, i, n, n).diagonal().setConstant(w)`); the block must fit. -/
def offsetDiag (n cols i : Nat) (w : ℝ) : Res (Mat ℝ) :=
  if i + n ≤ cols then .ok ⟨n, cols, fun a b => if b = i + a then w else 0⟩ else .ub

/-- `LinearVelocityFactor`, linear_velocity_factor.cpp:6-92; `n` is `size_`, the size of the velocity variable at
construction, which never changes. A negative `initial_index` fails an assertion in `segment` and is left out. -/
noncomputable def linearVelocity (id : Int) (v1 v2 vel : VRef) (n : Nat) (dt sigma : ℝ) (i : Nat) : Factor ℝ RVar where
  id := id
  residualSize := n
  «variables» := [some v1, some v2, some vel]
  computeResidual h :=
    (segmentOf (VarLike.value (h v2)) i n).andThen fun x2 =>
    (segmentOf (VarLike.value (h v1)) i n).andThen fun x1 =>
    (vecSub x2 x1).andThen fun d =>
    (vecSub d ((VarLike.value (h vel)).map (· * dt))).map fun e => e.map ((1 / sigma) * ·)
  computeJacobians h old :=
    let w := 1 / sigma
    let seg (r : VRef) (c : ℝ) : Res (Mat ℝ) :=
      if VarLike.isConst (h r) then .ok Mat.empty else offsetDiag n (VarLike.size (h r)) i c
    (seg v1 (-w)).andThen fun b1 =>
    (seg v2 w).andThen fun b2 =>
    fillBlocks 3 old [b1, b2, if VarLike.isConst (h vel) then Mat.empty else Mat.diag n (-w * dt)]

/-- The start of `compute_analytical_jacobians`, coordinate_transform_factor.hpp:115-120: an empty output vector gets 5
elements, one of any size other than 5 gets only 2. -/
def coordBuffer (old : List (Mat ℝ)) : List (Mat ℝ) :=
  if old.length = 0 then List.replicate 5 Mat.empty
  else if old.length ≠ 5 then List.replicate 2 Mat.empty
  else old

/-- `CoordinateTransformFactor`, coordinate_transform_factor.hpp:27-158 (`compute_numerical_jacobians`, lines 100-103, is
not called by `compute_jacobians`). -/
noncomputable def coordinateTransform (id : Int) (rot org sc la lb : VRef) (sigma : ℝ) : Factor ℝ RVar where
  id := id
  residualSize := 3
  «variables» := [some rot, some org, some sc, some la, some lb]
  computeResidual h :=
    match h rot, h org, h sc, h la, h lb with
    | .rotation r, .generic o, .generic s, .landmark a, .landmark b =>
      if s.value.length = 0 then .ub
      else
        (vec3 b.value).andThen fun xb =>
        (vec3 o.value).andThen fun xo =>
        (vec3 a.value).map fun xa =>
          toList ((1 / sigma) • (xa - ((s.value.getD 0 0 • r.dcm) *ᵥ xb - xo)))
    | _, _, _, _, _ => .ub
  computeJacobians h old :=
    match h rot, h org, h sc, h la, h lb with
    | .rotation r, .generic _, .generic s, .landmark _, .landmark b =>
      if s.value.length = 0 then .ub
      else (vec3 b.value).andThen fun xb =>
        let w := 1 / sigma
        let scale := s.value.getD 0 0
        writeBlocks (coordBuffer old).length (coordBuffer old)
          [block (h rot) ((w * scale) • skew (r.dcm *ᵥ xb)),
           block (h org) (w • (1 : M3)),
           block (h sc) (Matrix.of fun i (_ : Fin 1) => ((-w • r.dcm) *ᵥ xb) i),
           block (h la) (w • (1 : M3)),
           block (h lb) ((-w * scale) • r.dcm)]
    | _, _, _, _, _ => .ub

end Fac
end Factorama
