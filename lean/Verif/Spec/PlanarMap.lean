import Verif.Model.Factors
import Verif.Spec.Factors
import Verif.Spec.Resection

/-!
# Specification: what can be located step by step on a map of the plane
-/

namespace Factorama.Spec
open Geo

/-- The factor gives position and heading of the planar pose at `p`. -/
inductive GivesPose (h : Heap RVar) : Factor ℝ RVar → VRef → Prop where
  | mk {id : Int} {p : VRef} {prior : V3} {ps as : ℝ} {v : Pose2DVar} (hp : ps ≠ 0) (ha : as ≠ 0) (hv : h p = .pose2d v) :
      GivesPose h (Fac.pose2DPrior id p prior ps as) p

/-- The factor gives the planar pose at `b` relative to the planar pose at `a`, in either frame. The measured relative pose is not
itself estimated. -/
inductive GivesMotion (h : Heap RVar) : Factor ℝ RVar → VRef → VRef → Prop where
  | mk {id : Int} {a b m : VRef} {ps as : ℝ} {localFrame : Bool} {va vb : Pose2DVar} (hp : ps ≠ 0) (ha : as ≠ 0) (hab : a ≠ b)
      (hm : VarLike.isConst (F := ℝ) (h m) = true) (hva : h a = .pose2d va) (hvb : h b = .pose2d vb) :
      GivesMotion h (Fac.pose2DBetween id a b m ps as localFrame) a b

/-- The factor gives the direction from the pose at `p`, which is at `c`, to the landmark at `l`, which is at `x`. -/
inductive GivesDirection (h : Heap RVar) : Factor ℝ RVar → VRef → VRef → V2 → V2 → Prop where
  | mk {id : Int} {p l : VRef} {obs sigma : ℝ} {v : Pose2DVar} {x : V2} (hs : sigma ≠ 0) (hp : h p = .pose2d v) (hl : IsVector (h l) x) :
      GivesDirection h (Fac.bearing2D id p l obs sigma) p l v.pos x

/-- The factor gives distance and direction from the pose at `p`, which is at `c`, to the landmark at `l`, which is at `x`. -/
inductive GivesPlace (h : Heap RVar) : Factor ℝ RVar → VRef → VRef → V2 → V2 → Prop where
  | mk {id : Int} {p l : VRef} {range obs rangeSigma bearingSigma : ℝ} {v : Pose2DVar} {x : V2} (hr : rangeSigma ≠ 0) (hb : bearingSigma ≠ 0)
      (hp : h p = .pose2d v) (hl : IsVector (h l) x) : GivesPlace h (Fac.rangeBearing2D id p l range obs rangeSigma bearingSigma) p l v.pos x

/-- The poses that are known, or given, or given relative to such a pose, and so on. -/
inductive Reached (h : Heap RVar) (facs : List (Factor ℝ RVar)) : VRef → Prop where
  | known {r : VRef} : VarLike.isConst (F := ℝ) (h r) = true → Reached h facs r
  | given {f : Factor ℝ RVar} {p : VRef} : f ∈ facs → GivesPose h f p → Reached h facs p
  | ahead {f : Factor ℝ RVar} {a b : VRef} : f ∈ facs → GivesMotion h f a b → Reached h facs a → Reached h facs b
  | back {f : Factor ℝ RVar} {a b : VRef} : f ∈ facs → GivesMotion h f a b → Reached h facs b → Reached h facs a

/-- What can be located step by step. Besides the steps of `Reached`:
* a landmark whose distance and direction from a located pose are given;
* a landmark whose directions from located poses are given, not all along one line;
* a pose from which located landmarks are seen, not all on one circle or straight line through the pose, or, if their distances
  are given, opposite to the pose. -/
inductive Located (h : Heap RVar) (facs : List (Factor ℝ RVar)) : VRef → Prop where
  | known {r : VRef} : VarLike.isConst (F := ℝ) (h r) = true → Located h facs r
  | given {f : Factor ℝ RVar} {p : VRef} : f ∈ facs → GivesPose h f p → Located h facs p
  | ahead {f : Factor ℝ RVar} {a b : VRef} : f ∈ facs → GivesMotion h f a b → Located h facs a → Located h facs b
  | back {f : Factor ℝ RVar} {a b : VRef} : f ∈ facs → GivesMotion h f a b → Located h facs b → Located h facs a
  | place {f : Factor ℝ RVar} {p l : VRef} {c x : V2} : f ∈ facs → GivesPlace h f p l c x → Located h facs p → Located h facs l
  | crossing {f g : Factor ℝ RVar} {p q l : VRef} {c d x : V2} : f ∈ facs → GivesDirection h f p l c x → Located h facs p →
      g ∈ facs → GivesDirection h g q l d x → Located h facs q →
      (x 0 - c 0) * (x 1 - d 1) ≠ (x 1 - c 1) * (x 0 - d 0) → Located h facs l
  | resection {p : VRef} (K : VRef → Prop) : (∀ l, K l → Located h facs l) → (∃ v, h p = .pose2d v) →
      (∀ (a : ℝ) (n : V2), (a ≠ 0 ∨ n ≠ 0) → ∃ f ∈ facs, ∃ l c x, K l ∧
        ((GivesDirection h f p l c x ∧ ¬ OnCurve a n c x) ∨ (GivesPlace h f p l c x ∧ ¬ Opposite a n c x))) → Located h facs p

end Factorama.Spec
