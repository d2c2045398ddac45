import Verif.Model.Factors

/-!
# The constructors of the factor classes

Every constructor checks its arguments with `assert`. In a debug build a failing assertion stops the program; in a release build,
which is the default (CMakeLists.txt:15-17), the checks are compiled out. The static types of the pointers are checked by the
compiler and are not part of the model: an argument of class `C*` is any reference, and the factor's functions are undefined
if it refers to an object of another class (`Verif/Model/Factors.lean`).
-/

namespace Factorama
open Matrix Geo

/-- Whether `assert` is compiled in. CMakeLists.txt:15-27. -/
inductive BuildType where
  | debug | release
  deriving DecidableEq

/-- The arguments of a constructor, apart from the id. Pointers may be null. -/
inductive FactorArgs where
  /-- generic_prior_factor.hpp:30 -/
  | genericPrior (v : Option VRef) (prior : List ℝ) (sigma : ℝ)
  /-- generic_between_factor.cpp:7 -/
  | genericBetween (a b m : Option VRef) (sigma : ℝ)
  /-- pose_prior_factors.cpp:8 -/
  | posePositionPrior (p : Option VRef) (prior : V3) (sigma : ℝ)
  /-- pose_prior_factors.cpp:62 -/
  | poseOrientationPrior (p : Option VRef) (prior : M3) (sigma : ℝ)
  /-- rotation_prior_factor.hpp:31 -/
  | rotationPrior (r : Option VRef) (prior : M3) (sigma : ℝ)
  /-- pose_between_factors.hpp:36 -/
  | posePositionBetween (a b m : Option VRef) (sigma : ℝ) (localFrame : Bool)
  /-- pose_between_factors.hpp:218 -/
  | poseOrientationBetween (p1 p2 c : Option VRef) (sigma : ℝ)
  /-- bearing_observation_factor.hpp:37 -/
  | bearingObservation (p l : Option VRef) (bearing : V3) (sigma : ℝ)
  /-- inverse_range_bearing_factor.hpp:40 -/
  | inverseRangeBearing (p r : Option VRef) (bearing : V3) (sigma : ℝ)
  /-- bearing_projection_factor_2d.hpp:35 -/
  | bearingProjection (p l : Option VRef) (bearing : V3) (sigma tol : ℝ)
  /-- bearing_observation_factor_2d.cpp:7 -/
  | bearing2D (p l : Option VRef) (obs sigma : ℝ)
  /-- range_bearing_factor_2d.cpp:7 -/
  | rangeBearing2D (p l : Option VRef) (range obs rangeSigma bearingSigma : ℝ)
  /-- pose_2d_prior_factor.cpp:6 -/
  | pose2DPrior (p : Option VRef) (prior : V3) (posSigma angleSigma : ℝ)
  /-- pose_2d_between_factor.cpp:6 -/
  | pose2DBetween (a b m : Option VRef) (posSigma angleSigma : ℝ) (localFrame : Bool)
  /-- plane_factor.cpp:7 (`scaling` is `none`) and plane_factor.cpp:24, where `none` stands for `do_distance_scaling = false` -/
  | plane (p l : Option VRef) (sigma : ℝ) (scaling : Option (ℝ × V3))
  /-- plane_prior_factor.cpp:7 -/
  | planePrior (l : Option VRef) (normalPrior : V3) (distPrior normalSigma distSigma : ℝ)
  /-- linear_velocity_factor.cpp:6 -/
  | linearVelocity (v1 v2 vel : Option VRef) (dt sigma : ℝ) (initialIndex : Int)
  /-- coordinate_transform_factor.hpp:40 -/
  | coordinateTransform (rot org sc la lb : Option VRef) (sigma : ℝ)

/-- How the evaluation of a constructor ends. -/
inductive Made where
  /-- a failing assertion in a debug build -/
  | aborted
  /-- a null pointer is dereferenced -/
  | ub
  | made (f : Factor ℝ RVar)

namespace Construct

/-- `assert(c)`. -/
noncomputable def check (t : BuildType) (c : Prop) (k : Made) : Made :=
  open Classical in if t = .debug ∧ ¬ c then .aborted else k

/-- `p->size()` for a pointer that is not null. -/
noncomputable def sizeAt (h : Heap RVar) (p : Option VRef) : Nat := match p with
  | some r => VarLike.size (h r)
  | none => 0

/-- `assert(c)` where the condition dereferences the pointers `ps`; a release build does not evaluate it. -/
noncomputable def checkAt (t : BuildType) (ps : List (Option VRef)) (c : Prop) (k : Made) : Made :=
  if t = .debug ∧ none ∈ ps then .ub else check t c k

/-- A factor with a null pointer or with the weight `1 / 0`, which only a release build lets pass, or with 0 as the distance
`dist_scaling_r0`, which is not checked. Its functions dereference the pointer, or divide by zero. The program then goes on with
an infinity or a NaN, which the real numbers do not have; the model calls both outcomes undefined. -/
def broken (id : Int) (size : Nat) (ptrs : List (Option VRef)) : Factor ℝ RVar where
  id := id
  residualSize := size
  «variables» := ptrs
  computeResidual _ := .ub
  computeJacobians _ _ := .ub

/-- The factor with these pointers and divisors: `k` if the pointers are not null and the divisors are not zero. -/
noncomputable def finish (id : Int) (size : Nat) (ptrs : List (Option VRef)) (divisors : List ℝ) (k : (Nat → VRef) → Factor ℝ RVar) : Made :=
  open Classical in
  .made (if none ∈ ptrs ∨ (0 : ℝ) ∈ divisors then broken id size ptrs else k fun i => (ptrs.getD i none).getD 0)

end Construct

open Construct in
/-- The constructors, one line per assertion, in the order of the code. -/
noncomputable def construct (t : BuildType) (h : Heap RVar) (id : Int) : FactorArgs → Made
  -- generic_prior_factor.hpp:30-40
  | .genericPrior v prior sigma =>
    check t (v ≠ none) <| checkAt t [v] (prior.length = sizeAt h v) <| check t (0 < sigma) <|
    finish id prior.length [v] [sigma] fun p => Factorama.genericPrior id (p 0) prior (1 / sigma)
  -- generic_between_factor.cpp:7-25; `size_ = measured_diff_->size()` is evaluated in every build
  | .genericBetween a b m sigma =>
    check t (a ≠ none) <| check t (b ≠ none) <| check t (m ≠ none) <| checkAt t [a, b] (sizeAt h a = sizeAt h b) <|
    checkAt t [a, m] (sizeAt h a = sizeAt h m) <| check t (0 < sigma) <|
    match m with
    | none => .ub
    | some r => finish id (VarLike.size (h r)) [a, b, m] [sigma] fun p =>
        Factorama.genericBetween id (p 0) (p 1) (p 2) (VarLike.size (h r)) (1 / sigma)
  -- pose_prior_factors.cpp:8-17
  | .posePositionPrior p prior sigma =>
    check t (p ≠ none) <| check t (0 < sigma) <|
    finish id 3 [p] [sigma] fun p => Fac.posePositionPrior id (p 0) prior sigma
  -- pose_prior_factors.cpp:62-72
  | .poseOrientationPrior p prior sigma =>
    check t (p ≠ none) <| check t (0 < sigma) <|
    finish id 3 [p] [sigma] fun p => Fac.poseOrientationPrior id (p 0) prior sigma
  -- rotation_prior_factor.hpp:31-40
  | .rotationPrior r prior sigma =>
    check t (r ≠ none) <| check t (0 < sigma) <|
    finish id 3 [r] [sigma] fun p => Fac.rotationPrior id (p 0) prior sigma
  -- pose_between_factors.hpp:36-51
  | .posePositionBetween a b m sigma localFrame =>
    check t (a ≠ none) <| check t (b ≠ none) <| check t (m ≠ none) <| checkAt t [m] (sizeAt h m = 3) <| check t (0 < sigma) <|
    finish id 3 [a, b, m] [sigma] fun p => Fac.posePositionBetween id (p 0) (p 1) (p 2) sigma localFrame
  -- pose_between_factors.hpp:218-231
  | .poseOrientationBetween p1 p2 c sigma =>
    check t (p1 ≠ none) <| check t (p2 ≠ none) <| check t (c ≠ none) <| check t (0 < sigma) <|
    finish id 3 [p1, p2, c] [sigma] fun p => Fac.poseOrientationBetween id (p 0) (p 1) (p 2) sigma
  -- bearing_observation_factor.hpp:37-49
  | .bearingObservation p l bearing sigma =>
    check t (p ≠ none) <| check t (l ≠ none) <| check t (0 < sigma) <|
    finish id 3 [p, l] [sigma] fun p => Fac.bearingObservation id (p 0) (p 1) bearing sigma
  -- inverse_range_bearing_factor.hpp:40-52
  | .inverseRangeBearing p r bearing sigma =>
    check t (p ≠ none) <| check t (r ≠ none) <| check t (0 < sigma) <|
    finish id 3 [p, r] [sigma] fun p => Fac.inverseRangeBearing id (p 0) (p 1) bearing sigma
  -- bearing_projection_factor_2d.hpp:35-50
  | .bearingProjection p l bearing sigma tol =>
    check t (p ≠ none) <| check t (l ≠ none) <| check t (0 < sigma) <|
    finish id 2 [p, l] [sigma] fun p => Fac.bearingProjection id (p 0) (p 1) bearing sigma tol
  -- bearing_observation_factor_2d.cpp:7-19
  | .bearing2D p l obs sigma =>
    check t (p ≠ none) <| check t (l ≠ none) <| checkAt t [l] (sizeAt h l = 2) <| check t (0 < sigma) <|
    finish id 1 [p, l] [sigma] fun p => Fac.bearing2D id (p 0) (p 1) obs sigma
  -- range_bearing_factor_2d.cpp:7-24
  | .rangeBearing2D p l range obs rangeSigma bearingSigma =>
    check t (p ≠ none) <| check t (l ≠ none) <| checkAt t [l] (sizeAt h l = 2) <| check t (0 ≤ range) <| check t (0 < rangeSigma) <|
    check t (0 < bearingSigma) <|
    finish id 2 [p, l] [rangeSigma, bearingSigma] fun p => Fac.rangeBearing2D id (p 0) (p 1) range obs rangeSigma bearingSigma
  -- pose_2d_prior_factor.cpp:6-17
  | .pose2DPrior p prior posSigma angleSigma =>
    check t (p ≠ none) <| check t (0 < posSigma) <| check t (0 < angleSigma) <|
    finish id 3 [p] [posSigma, angleSigma] fun p => Fac.pose2DPrior id (p 0) prior posSigma angleSigma
  -- pose_2d_between_factor.cpp:6-24
  | .pose2DBetween a b m posSigma angleSigma localFrame =>
    check t (a ≠ none) <| check t (b ≠ none) <| check t (m ≠ none) <| checkAt t [m] (sizeAt h m = 3) <| check t (0 < posSigma) <|
    check t (0 < angleSigma) <|
    finish id 3 [a, b, m] [posSigma, angleSigma] fun p => Fac.pose2DBetween id (p 0) (p 1) (p 2) posSigma angleSigma localFrame
  -- plane_factor.cpp:7-22 and 24-38
  | .plane p l sigma scaling =>
    check t (p ≠ none) <| check t (l ≠ none) <| checkAt t [p] (sizeAt h p = 3) <| check t (0 < sigma) <|
    finish id 1 [p, l] (sigma :: (scaling.map Prod.fst).toList) fun p => Fac.planeFactor id (p 0) (p 1) sigma scaling
  -- plane_prior_factor.cpp:7-20
  | .planePrior l normalPrior distPrior normalSigma distSigma =>
    check t (l ≠ none) <| check t (0 < normalSigma) <| check t (0 < distSigma) <| check t (0 < normalPrior ⬝ᵥ normalPrior) <|
    finish id 4 [l] [normalSigma, distSigma] fun p => Fac.planePrior id (p 0) normalPrior distPrior normalSigma distSigma
  -- linear_velocity_factor.cpp:6-26; the initialiser of `size_` dereferences the pointer to the velocity before it is checked. A
  -- negative index makes every later `segment` fail its own assertion
  | .linearVelocity v1 v2 vel dt sigma initialIndex =>
    match vel with
    | none => .ub
    | some r =>
      check t (v1 ≠ none) <| check t (v2 ≠ none) <| checkAt t [v1, v2] (sizeAt h v1 = sizeAt h v2) <|
      checkAt t [v1] (VarLike.size (h r) ≤ sizeAt h v1) <| check t (0 < sigma) <|
      if initialIndex < 0 then .made (broken id (VarLike.size (h r)) [v1, v2, vel])
      else finish id (VarLike.size (h r)) [v1, v2, vel] [sigma] fun p =>
        Fac.linearVelocity id (p 0) (p 1) (p 2) (VarLike.size (h r)) dt sigma initialIndex.toNat
  -- coordinate_transform_factor.hpp:40-60
  | .coordinateTransform rot org sc la lb sigma =>
    check t (rot ≠ none) <| check t (org ≠ none) <| check t (sc ≠ none) <| check t (la ≠ none) <| check t (lb ≠ none) <|
    checkAt t [org] (sizeAt h org = 3) <| checkAt t [sc] (sizeAt h sc = 1) <| check t (0 < sigma) <|
    finish id 3 [rot, org, sc, la, lb] [sigma] fun p => Fac.coordinateTransform id (p 0) (p 1) (p 2) (p 3) (p 4) sigma

end Factorama
