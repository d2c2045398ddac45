import Verif.Model.Factors
import Verif.Spec.Factors

/-!
# Specification: what can be located step by step on a map in space
-/

namespace Factorama.Spec
open Geo

/-- The factor gives the position of the pose at `p`. -/
inductive GivesPosition (h : Heap RVar) : Factor ℝ RVar → VRef → Prop where
  | mk {id : Int} {p : VRef} {prior : V3} {sigma : ℝ} {v : PoseVar} (hs : sigma ≠ 0) (hv : h p = .pose v) :
      GivesPosition h (Fac.posePositionPrior id p prior sigma) p

/-- The factor gives the orientation of the pose at `p`. -/
inductive GivesOrientation (h : Heap RVar) : Factor ℝ RVar → VRef → Prop where
  | mk {id : Int} {p : VRef} {prior : M3} {sigma : ℝ} {v : PoseVar} (hs : sigma ≠ 0) (hv : h p = .pose v) :
      GivesOrientation h (Fac.poseOrientationPrior id p prior sigma) p

/-- The factor gives the way from the pose at `a` to the pose at `b`, in the frame of the pose at `a` or of the world. What is measured
is not itself estimated. -/
inductive GivesShift (h : Heap RVar) : Factor ℝ RVar → Bool → VRef → VRef → Prop where
  | mk {id : Int} {a b m : VRef} {sigma : ℝ} {localFrame : Bool} {va vb : PoseVar} (hs : sigma ≠ 0) (hab : a ≠ b)
      (hm : VarLike.isConst (F := ℝ) (h m) = true) (hva : h a = .pose va) (hvb : h b = .pose vb) (hR : IsRotation va.dcm) :
      GivesShift h (Fac.posePositionBetween id a b m sigma localFrame) localFrame a b

/-- The factor gives the rotation between the poses at `a` and `b`. What is measured is not itself estimated. -/
inductive GivesTurn (h : Heap RVar) : Factor ℝ RVar → VRef → VRef → Prop where
  | mk {id : Int} {a b c : VRef} {sigma : ℝ} {va vb : PoseVar} {vc : RotationVar} (hs : sigma ≠ 0) (hab : a ≠ b)
      (hc : VarLike.isConst (F := ℝ) (h c) = true) (hva : h a = .pose va) (hvb : h b = .pose vb) (hvc : h c = .rotation vc)
      (hRa : IsRotation va.dcm) (hRb : IsRotation vb.dcm) (hRc : IsRotation vc.dcm) :
      GivesTurn h (Fac.poseOrientationBetween id a b c sigma) a b

/-- The factor gives the direction from the pose at `p`, which is at `c`, to the landmark at `l`, which is at `x`. -/
inductive GivesBearing (h : Heap RVar) : Factor ℝ RVar → VRef → VRef → V3 → V3 → Prop where
  | mk {id : Int} {p l : VRef} {bearing : V3} {sigma : ℝ} {v : PoseVar} {y : LandmarkVar} {x : V3} (hs : sigma ≠ 0)
      (hp : h p = .pose v) (hR : IsRotation v.dcm) (hl : h l = .landmark y) (hx : y.value = toList x) :
      GivesBearing h (Fac.bearingObservation id p l bearing sigma) p l v.pos x

/-- The orientation of the pose is known, or given, or given relative to such a pose, and so on. -/
inductive Oriented (h : Heap RVar) (facs : List (Factor ℝ RVar)) : VRef → Prop where
  | known {r : VRef} : VarLike.isConst (F := ℝ) (h r) = true → Oriented h facs r
  | given {f : Factor ℝ RVar} {p : VRef} : f ∈ facs → GivesOrientation h f p → Oriented h facs p
  | ahead {f : Factor ℝ RVar} {a b : VRef} : f ∈ facs → GivesTurn h f a b → Oriented h facs a → Oriented h facs b
  | back {f : Factor ℝ RVar} {a b : VRef} : f ∈ facs → GivesTurn h f a b → Oriented h facs b → Oriented h facs a

/-- The position of the pose or landmark is known, or given, or given relative to such a pose and so on; if it is given in the
frame of a pose, the orientation of that pose is needed. A landmark is positioned by bearings along two different lines. -/
inductive Positioned (h : Heap RVar) (facs : List (Factor ℝ RVar)) : VRef → Prop where
  | known {r : VRef} : VarLike.isConst (F := ℝ) (h r) = true → Positioned h facs r
  | given {f : Factor ℝ RVar} {p : VRef} : f ∈ facs → GivesPosition h f p → Positioned h facs p
  | ahead {f : Factor ℝ RVar} {localFrame : Bool} {a b : VRef} : f ∈ facs → GivesShift h f localFrame a b →
      (localFrame = true → Oriented h facs a) → Positioned h facs a → Positioned h facs b
  | back {f : Factor ℝ RVar} {localFrame : Bool} {a b : VRef} : f ∈ facs → GivesShift h f localFrame a b →
      (localFrame = true → Oriented h facs a) → Positioned h facs b → Positioned h facs a
  | crossing {f g : Factor ℝ RVar} {p q l : VRef} {c d x : V3} : f ∈ facs → GivesBearing h f p l c x → Oriented h facs p →
      Positioned h facs p → g ∈ facs → GivesBearing h g q l d x → Oriented h facs q → Positioned h facs q →
      (¬ ∃ k : ℝ, x - c = k • (x - d)) → Positioned h facs l

end Factorama.Spec
