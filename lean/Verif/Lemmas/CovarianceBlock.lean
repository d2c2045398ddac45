import Verif.Lemmas.OptCovariance
import Verif.Lemmas.NormalEq

/-!
# Blocks of an inverse, column by column
-/

namespace Factorama
open Opt Spec Matrix

theorem asVec_unitVector {n : Nat} (k : Fin n) : asVec n (unitVector realArith n k) = Pi.single k 1 := by
  funext i
  have h : (unitVector realArith n k).getD i 0 = if (i : Nat) = k then 1 else 0 := by
    simp [unitVector, List.getD_eq_getElem?_getD, realArith]
  rw [asVec, h, Pi.single_apply]
  simp only [Fin.ext_iff]

theorem blockOf_inverse {n c m : Nat} {M : Matrix (Fin n) (Fin n) ℝ} (hu : IsUnit M) {X : List (List ℝ)} (hle : c + m ≤ n)
    (hX : ∀ j, j < m → ∃ x, X[j]? = some x ∧ M *ᵥ asVec n x = asVec n (unitVector realArith n (c + j)))
    {i j : Nat} (hi : i < m) (hj : j < m) :
    (blockOf X c m).entry i j = M⁻¹ ⟨c + i, by omega⟩ ⟨c + j, by omega⟩ := by
  obtain ⟨x, h1, h2⟩ := hX j hj
  have hd : IsUnit M.det := (isUnit_iff_isUnit_det M).1 hu
  have h3 : asVec n x = M⁻¹ *ᵥ Pi.single ⟨c + j, by omega⟩ 1 := by
    rw [← asVec_unitVector, ← h2, mulVec_mulVec, nonsing_inv_mul _ hd, one_mulVec]
  have h4 := congrFun h3 ⟨c + i, by omega⟩
  rw [mulVec_single_one] at h4
  simp only [blockOf, h1]
  rw [← List.getD_eq_getElem?_getD]
  exact h4

theorem averageInPlace_symm {P : Mat ℝ} {i j : Nat} (h : P.entry i j = P.entry j i) :
    (averageInPlace realArith P).entry i j = P.entry i j := by
  simp only [averageInPlace, realArith]
  push_cast
  split
  · rw [h]; ring
  · rw [h]; ring

end Factorama
