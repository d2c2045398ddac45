import Verif.Model.Generic

/-!
# Specification: networks of direct and relative measurements
-/

namespace Factorama.Spec
variable {F V : Type} [Zero F] [Add F] [Sub F] [Mul F] [Neg F] [VarLike F V]

/-- The factor measures the variable at `r` directly. -/
inductive ValueOf (h : Heap V) : Factor F V → VRef → Prop where
  | mk (id : Int) (r : VRef) (p : List F) {w : F} (hw : w ≠ 0) (hp : p.length = VarLike.size (F := F) (h r)) :
      ValueOf h (genericPrior id r p w) r

/-- The factor measures the difference of the variables at `a` and `b`; the measured value is not itself estimated. -/
inductive DifferenceOf (h : Heap V) : Factor F V → VRef → VRef → Prop where
  | mk (id : Int) {a b m : VRef} {n : Nat} {w : F} (hw : w ≠ 0) (hab : a ≠ b) (hm : VarLike.isConst (F := F) (h m) = true)
      (ha : VarLike.size (F := F) (h a) = n) (hb : VarLike.size (F := F) (h b) = n) : DifferenceOf h (genericBetween id a b m n w) a b

/-- The variable is known, or measured directly, or its difference from such a variable is measured, and so on. -/
inductive Anchored (h : Heap V) (facs : List (Factor F V)) : VRef → Prop where
  | known {r : VRef} : VarLike.isConst (F := F) (h r) = true → Anchored h facs r
  | measured {f : Factor F V} {r : VRef} : f ∈ facs → ValueOf h f r → Anchored h facs r
  | ahead {f : Factor F V} {a b : VRef} : f ∈ facs → DifferenceOf h f a b → Anchored h facs a → Anchored h facs b
  | back {f : Factor F V} {a b : VRef} : f ∈ facs → DifferenceOf h f a b → Anchored h facs b → Anchored h facs a

end Factorama.Spec
