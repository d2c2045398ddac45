import Verif.Model.Variables
import Verif.Spec.Geometry

/-!
# Histories of calls on one variable object

For each class, the states an object can be in after construction and any sequence of the listed calls that returned
normally.
-/

namespace Factorama.Spec
open Matrix Geo

/-- States of a `Pose2DVariable`. -/
inductive Pose2DReachable : Pose2DVar → Prop
  | make (id pos theta) : Pose2DReachable (Pose2DVar.make id pos theta)
  | setValue {v v'} (x) : Pose2DReachable v → v.setValue x = .ok v' → Pose2DReachable v'
  | applyIncr {v v'} (dx) : Pose2DReachable v → v.applyIncr dx = .ok v' → Pose2DReachable v'
  | setPos {v} (p) : Pose2DReachable v → Pose2DReachable (v.setPos p)
  | setTheta {v} (t) : Pose2DReachable v → Pose2DReachable (v.setTheta t)
  | setConst {v} (b) : Pose2DReachable v → Pose2DReachable { v with isConst := b }

/-- States of a `PoseVariable`. -/
inductive PoseReachable : PoseVar → Prop
  | make (id pos rot) : PoseReachable (PoseVar.make id pos rot)
  | makeDcm (id pos dcm) : IsRotation dcm → PoseReachable (PoseVar.makeDcm id pos dcm)
  | setValue {v v'} (x) : PoseReachable v → v.setValue x = .ok v' → PoseReachable v'
  | applyIncr {v v'} (dx) : PoseReachable v → v.applyIncr dx = .ok v' → PoseReachable v'
  | setPoseVector {v} (p r) : PoseReachable v → PoseReachable (v.setPoseVector p r)
  | setPosW {v} (p) : PoseReachable v → PoseReachable (v.setPosW p)
  | setDcm {v} (dcm) : PoseReachable v → IsRotation dcm → PoseReachable (v.setDcm dcm)
  | setConst {v} (b) : PoseReachable v → PoseReachable { v with isConst := b }

/-- States of a `PlaneVariable`, never set to a zero normal. -/
inductive PlaneReachable : PlaneVar → Prop
  | make {v} (id normal d) : PlaneVar.make id normal d = .ok v → PlaneReachable v
  | setValue {v v'} (x) : PlaneReachable v → read3 x 0 ≠ 0 → v.setValue x = .ok v' → PlaneReachable v'
  | applyIncr {v v'} (dx) : PlaneReachable v → v.applyIncr dx = .ok v' → PlaneReachable v'
  | setConst {v} (b) : PlaneReachable v → PlaneReachable { v with isConst := b }

/-- States of an `InverseRangeVariable` made from `origin` and `bearing` whose bounds are left at their defaults. -/
inductive InvRangeReachable (origin bearing : V3) : InvRangeVar → Prop
  | make (id range) : InvRangeReachable origin bearing (InvRangeVar.make id origin bearing range)
  | setValue {v v'} (x) : InvRangeReachable origin bearing v → v.setValue x = .ok v' → InvRangeReachable origin bearing v'
  | applyIncr {v v'} (dx) : InvRangeReachable origin bearing v → v.applyIncr dx = .ok v' → InvRangeReachable origin bearing v'
  | setConst {v} (b) : InvRangeReachable origin bearing v → InvRangeReachable origin bearing { v with isConst := b }

/-- States of a `RotationVariable`. -/
inductive RotationReachable : RotationVar → Prop
  | make (id dcm) : IsRotation dcm → RotationReachable (RotationVar.make id dcm)
  | setValue {v v'} (x) : RotationReachable v → v.setValue x = .ok v' → RotationReachable v'
  | applyIncr {v v'} (dx) : RotationReachable v → v.applyIncr dx = .ok v' → RotationReachable v'
  | setConst {v} (b) : RotationReachable v → RotationReachable { v with isConst := b }

/-- A rotation vector other than zero that is so short that `ExpMapSO3` uses its first-order formula. -/
def Tiny (w : V3) : Prop := w ≠ 0 ∧ length w < 1e-10

open Classical in
/-- `RotationHistory n v`: the history of `v` gave it `n` tiny rotation vectors since its matrix was last set as a
whole (by the constructor or by `set_value_from_vector`; a tiny vector set counts). -/
inductive RotationHistory : Nat → RotationVar → Prop
  | make (id dcm) : IsRotation dcm → RotationHistory 0 (RotationVar.make id dcm)
  | setValue {n v v'} (x) : RotationHistory n v → v.setValue x = .ok v' →
      RotationHistory (if Tiny (read3 x 0) then 1 else 0) v'
  | applyIncr {n v v'} (dx) : RotationHistory n v → v.applyIncr dx = .ok v' →
      RotationHistory (n + if Tiny (read3 dx 0) then 1 else 0) v'
  | setConst {n v} (b) : RotationHistory n v → RotationHistory n { v with isConst := b }

/-- States of a variable of any class except `RotationVariable`. -/
inductive Reachable : RVar → Prop
  | generic (v) : Reachable (.generic v)
  | landmark (v) : Reachable (.landmark v)
  | pose {v} : PoseReachable v → Reachable (.pose v)
  | invRange {v} (origin bearing) : InvRangeReachable origin bearing v → Reachable (.invRange v)
  | plane {v} : PlaneReachable v → Reachable (.plane v)
  | pose2d {v} : Pose2DReachable v → Reachable (.pose2d v)

end Factorama.Spec
