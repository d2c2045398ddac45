import Verif.Spec.Optimizer

/-!
# Specification vocabulary: linear algebra that does not depend on the order of the rows
-/

namespace Factorama.Spec
variable {F Fact : Type} [Zero F]

/-- The rows of a matrix, each with the entry of the vector `r` in that row. -/
def rowsWith (J : SpMat F) (r : List F) : List (List F × F) :=
  (List.range J.rows).map fun i => ((List.range J.columns.length).map fun c => J.coeff i c, r[i]?.getD 0)

/-- The rows of a matrix. -/
def rowsOfMat (J : SpMat F) : List (List F) :=
  (List.range J.rows).map fun i => (List.range J.columns.length).map fun c => J.coeff i c

/-- Sums over the rows do not depend on the order of the rows. This holds for exact arithmetic, not for rounded sums. -/
structure RowOrderFree (A : Arith F) (L : LinAlg F Fact) : Prop where
  sqNorm : ∀ r r' : List F, r.Perm r' → A.sqNorm r = A.sqNorm r'
  gram : ∀ J J' : SpMat F, J.columns.length = J'.columns.length → (rowsOfMat J).Perm (rowsOfMat J') → L.gram J = L.gram J'
  rhs : ∀ (J J' : SpMat F) (r r' : List F), J.columns.length = J'.columns.length →
    (rowsWith J r).Perm (rowsWith J' r') → L.rhs J r = L.rhs J' r'

end Factorama.Spec
