import Verif.Spec.RenamingLibrary
import Verif.Spec.Library

/-!
# The classes of the library do not look at ids
-/

namespace Factorama.Ids
open Spec Geo Matrix

@[simp] theorem isConst_withId (v : RVar) (i : Int) : VarLike.isConst (v.withId i) = VarLike.isConst v := by cases v <;> rfl
@[simp] theorem size_withId (v : RVar) (i : Int) : VarLike.size (v.withId i) = VarLike.size v := by cases v <;> rfl
@[simp] theorem value_withId (v : RVar) (i : Int) : VarLike.value (v.withId i) = VarLike.value v := by cases v <;> rfl

theorem setValue_withId (v : RVar) (i : Int) (x : List ℝ) :
    VarLike.setValue (v.withId i) x = (VarLike.setValue v x).map fun w => w.withId i := by
  cases v with
  | generic v => simp only [RVar.withId, VarLike.setValue, GenVar.setValue]; split <;> rfl
  | landmark v => rfl
  | pose v => simp only [RVar.withId, VarLike.setValue, PoseVar.setValue]; split <;> rfl
  | rotation v => simp only [RVar.withId, VarLike.setValue, RotationVar.setValue]; split <;> rfl
  | invRange v => cases x <;> rfl
  | plane v => simp only [RVar.withId, VarLike.setValue, PlaneVar.setValue]; split <;> rfl
  | pose2d v => simp only [RVar.withId, VarLike.setValue, Pose2DVar.setValue]; split <;> rfl

theorem applyIncr_withId (v : RVar) (i : Int) (x : List ℝ) :
    VarLike.applyIncr (v.withId i) x = (VarLike.applyIncr v x).map fun w => w.withId i := by
  cases v with
  | generic v => simp only [RVar.withId, VarLike.applyIncr, GenVar.applyIncr]; split <;> rfl
  | landmark v => simp only [RVar.withId, VarLike.applyIncr, LandmarkVar.applyIncr]; split <;> [rfl; (split <;> rfl)]
  | pose v => simp only [RVar.withId, VarLike.applyIncr, PoseVar.applyIncr]; split <;> rfl
  | rotation v => simp only [RVar.withId, VarLike.applyIncr, RotationVar.applyIncr]; split <;> rfl
  | invRange v => simp only [RVar.withId, VarLike.applyIncr, InvRangeVar.applyIncr]; split <;> [rfl; (split <;> rfl)]
  | plane v => simp only [RVar.withId, VarLike.applyIncr, PlaneVar.applyIncr]; split <;> [rfl; (split <;> rfl)]
  | pose2d v => simp only [RVar.withId, VarLike.applyIncr, Pose2DVar.applyIncr]; split <;> rfl

theorem same_map (r : Res RVar) (i : Int) : SameOutcome SameUpToId r (r.map fun w => w.withId i) := by
  cases r with
  | ok w => exact ⟨i, rfl⟩
  | threw => trivial
  | ub => trivial

/-- Objects of the library that are the same up to their ids cannot be told apart. -/
theorem library_differ : DifferInId (F := ℝ) SameUpToId where
  isConst := by rintro v _ ⟨i, rfl⟩; exact isConst_withId v i
  size := by rintro v _ ⟨i, rfl⟩; exact size_withId v i
  value := by rintro v _ ⟨i, rfl⟩; exact value_withId v i
  setConst := by rintro v _ b ⟨i, rfl⟩; exact ⟨i, by cases v <;> rfl⟩
  setValue := by rintro v _ x ⟨i, rfl⟩; rw [setValue_withId]; exact same_map _ _
  applyIncr := by rintro v _ x ⟨i, rfl⟩; rw [applyIncr_withId]; exact same_map _ _

@[simp] theorem block_withId {m k : Nat} (v : RVar) (i : Int) (M : Matrix (Fin m) (Fin k) ℝ) :
    Fac.block (v.withId i) M = Fac.block v M := by
  simp only [Fac.block, isConst_withId]

@[simp] theorem betweenBlock_withId (v : RVar) (i : Int) (k : Nat) (w : ℝ) :
    betweenBlock k (v.withId i) w = betweenBlock k v w := by
  simp only [betweenBlock, isConst_withId]

/-- No factor class of the library looks at the ids of its variables. -/
theorem library_ignores (h0 : Heap RVar) (c : FactorClass) (f : Factor ℝ RVar) (hf : Built h0 c f) : IgnoresIds SameUpToId f := by
  intro h h' hh
  cases hf with
  | genericPrior id r prior sigma _ =>
    obtain ⟨i, e⟩ := hh r
    simp only [genericPrior, e, value_withId, isConst_withId, implies_true, and_self]
  | genericBetween id a b m k sigma =>
    obtain ⟨i, e1⟩ := hh a
    obtain ⟨j, e2⟩ := hh b
    obtain ⟨k, e3⟩ := hh m
    simp only [genericBetween, e1, e2, e3, value_withId, betweenBlock_withId, implies_true, and_self]
  | posePositionPrior id p prior sigma =>
    obtain ⟨i, e⟩ := hh p
    simp only [Fac.posePositionPrior, e, block_withId]
    cases h p <;> exact ⟨rfl, fun _ => rfl⟩
  | poseOrientationPrior id p prior sigma =>
    obtain ⟨i, e⟩ := hh p
    simp only [Fac.poseOrientationPrior, e, block_withId]
    cases h p <;> exact ⟨rfl, fun _ => rfl⟩
  | rotationPrior id r prior sigma =>
    obtain ⟨i, e⟩ := hh r
    simp only [Fac.rotationPrior, e, block_withId]
    cases h r <;> exact ⟨rfl, fun _ => rfl⟩
  | posePositionBetween id a b m sigma localFrame =>
    obtain ⟨i, e1⟩ := hh a
    obtain ⟨j, e2⟩ := hh b
    obtain ⟨k, e3⟩ := hh m
    simp only [Fac.posePositionBetween, e1, e2, e3, value_withId, block_withId]
    cases h a <;> first | exact ⟨rfl, fun _ => rfl⟩ | (cases h b <;> exact ⟨rfl, fun _ => rfl⟩)
  | poseOrientationBetween id a b m sigma =>
    obtain ⟨i, e1⟩ := hh a
    obtain ⟨j, e2⟩ := hh b
    obtain ⟨k, e3⟩ := hh m
    simp only [Fac.poseOrientationBetween, e1, e2, e3, value_withId, block_withId]
    cases h a <;> first | exact ⟨rfl, fun _ => rfl⟩ | (cases h b <;> first | exact ⟨rfl, fun _ => rfl⟩ | (cases h m <;> exact ⟨rfl, fun _ => rfl⟩))
  | bearingObservation id p l bearing sigma =>
    obtain ⟨i, e1⟩ := hh p
    obtain ⟨j, e2⟩ := hh l
    simp only [Fac.bearingObservation, e1, e2, value_withId, block_withId]
    cases h p <;> first | exact ⟨rfl, fun _ => rfl⟩ | (cases h l <;> exact ⟨rfl, fun _ => rfl⟩)
  | inverseRangeBearing id p l bearing sigma =>
    obtain ⟨i, e1⟩ := hh p
    obtain ⟨j, e2⟩ := hh l
    simp only [Fac.inverseRangeBearing, e1, e2, value_withId, block_withId]
    cases h p <;> first | exact ⟨rfl, fun _ => rfl⟩ | (cases h l <;> exact ⟨rfl, fun _ => rfl⟩)
  | bearingProjection id p l bearing sigma tol =>
    obtain ⟨i, e1⟩ := hh p
    obtain ⟨j, e2⟩ := hh l
    simp only [Fac.bearingProjection, e1, e2, value_withId, block_withId]
    cases h p <;> first | exact ⟨rfl, fun _ => rfl⟩ | (cases h l <;> exact ⟨rfl, fun _ => rfl⟩)
  | bearing2D id p l obs sigma =>
    obtain ⟨i, e1⟩ := hh p
    obtain ⟨j, e2⟩ := hh l
    simp only [Fac.bearing2D, e1, e2, value_withId, block_withId]
    cases h p <;> exact ⟨rfl, fun _ => rfl⟩
  | rangeBearing2D id p l range obs rs bs =>
    obtain ⟨i, e1⟩ := hh p
    obtain ⟨j, e2⟩ := hh l
    simp only [Fac.rangeBearing2D, e1, e2, value_withId, block_withId]
    cases h p <;> exact ⟨rfl, fun _ => rfl⟩
  | pose2DPrior id p prior ps as =>
    obtain ⟨i, e⟩ := hh p
    simp only [Fac.pose2DPrior, e, block_withId]
    cases h p <;> exact ⟨rfl, fun _ => rfl⟩
  | pose2DBetween id a b m ps as localFrame =>
    obtain ⟨i, e1⟩ := hh a
    obtain ⟨j, e2⟩ := hh b
    obtain ⟨k, e3⟩ := hh m
    simp only [Fac.pose2DBetween, e1, e2, e3, value_withId, block_withId]
    cases h a <;> first | exact ⟨rfl, fun _ => rfl⟩ | (cases h b <;> exact ⟨rfl, fun _ => rfl⟩)
  | plane id p l sigma scaling =>
    obtain ⟨i, e1⟩ := hh p
    obtain ⟨j, e2⟩ := hh l
    simp only [Fac.planeFactor, e1, e2, value_withId, block_withId]
    cases h l <;> exact ⟨rfl, fun _ => rfl⟩
  | planePrior id l n0 d0 ns ds =>
    obtain ⟨i, e⟩ := hh l
    simp only [Fac.planePrior, e, block_withId]
    cases h l <;> exact ⟨rfl, fun _ => rfl⟩
  | linearVelocity id v1 v2 vel n dt sigma i =>
    obtain ⟨i1, e1⟩ := hh v1
    obtain ⟨i2, e2⟩ := hh v2
    obtain ⟨i3, e3⟩ := hh vel
    simp only [Fac.linearVelocity, e1, e2, e3, value_withId, isConst_withId, size_withId, implies_true, and_self]
  | coordinateTransform id rot org sc la lb sigma =>
    obtain ⟨i1, e1⟩ := hh rot
    obtain ⟨i2, e2⟩ := hh org
    obtain ⟨i3, e3⟩ := hh sc
    obtain ⟨i4, e4⟩ := hh la
    obtain ⟨i5, e5⟩ := hh lb
    simp only [Fac.coordinateTransform, e1, e2, e3, e4, e5, value_withId, block_withId]
    cases h rot <;> first | exact ⟨rfl, fun _ => rfl⟩ | (cases h org <;> first | exact ⟨rfl, fun _ => rfl⟩ |
      (cases h sc <;> first | exact ⟨rfl, fun _ => rfl⟩ | (cases h la <;> first | exact ⟨rfl, fun _ => rfl⟩ |
        (cases h lb <;> exact ⟨rfl, fun _ => rfl⟩))))

end Factorama.Ids
