import Verif.Lemmas.NormalEq
import Mathlib.LinearAlgebra.Matrix.Block

/-!
# The pivots of a positive definite matrix
-/

namespace Factorama
open Spec Matrix

/-- The pivots lie between the smallest value of the quadratic form on unit vectors and the largest diagonal entry. -/
theorem pivot_bounds {n : Nat} {M : Matrix (Fin n) (Fin n) ℝ} {D : List ℝ} {low high : ℝ} (h : IsLDLT M D) (hlow : 0 < low)
    (hpos : ∀ x, low * (x ⬝ᵥ x) ≤ x ⬝ᵥ (M *ᵥ x)) (hdiag : ∀ i, M i i ≤ high) : ∀ p ∈ D, low ≤ p ∧ p ≤ high := by
  obtain ⟨hl, σ, T, h1, h2, h3⟩ := h
  have hT : T.BlockTriangular OrderDual.toDual := fun i j hij => h2 i j hij
  have hdet : T.det = 1 := by rw [det_of_lowerTriangular T hT]; simp [h1]
  have hu : IsUnit T.det := by rw [hdet]; exact isUnit_one
  letI : Invertible T := invertibleOfIsUnitDet T hu
  have hS : T⁻¹.BlockTriangular OrderDual.toDual := blockTriangular_inv_of_blockTriangular hT
  set S := T⁻¹ with hSd
  have hST : S * T = 1 := nonsing_inv_mul T hu
  have hSk : ∀ k, S k k = 1 := by
    intro k
    have e : (S * T) k k = 1 := by rw [hST]; simp
    rw [mul_apply, Finset.sum_eq_single k] at e
    · rwa [h1, mul_one] at e
    · intro j _ hj
      rcases lt_or_gt_of_ne hj with hlt | hgt
      · rw [h2 j k hlt, mul_zero]
      · rw [hS (show OrderDual.toDual j < OrderDual.toDual k from hgt), zero_mul]
    · simp
  have hD : S * M.submatrix σ σ * Sᵀ = diagonal (asVec n D) := by
    rw [h3]
    calc S * (T * diagonal (asVec n D) * Tᵀ) * Sᵀ = (S * T) * diagonal (asVec n D) * (S * T)ᵀ := by
          rw [transpose_mul]; simp only [Matrix.mul_assoc]
      _ = _ := by rw [hST]; simp
  have hsub : ∀ x : Fin n → ℝ, low * (x ⬝ᵥ x) ≤ x ⬝ᵥ (M.submatrix σ σ *ᵥ x) := by
    intro x
    have e1 : (x ∘ σ.symm) ⬝ᵥ (x ∘ σ.symm) = x ⬝ᵥ x := by
      simp only [dotProduct, Function.comp]
      exact Equiv.sum_comp σ.symm fun i => x i * x i
    have e2 : (x ∘ σ.symm) ⬝ᵥ (M *ᵥ (x ∘ σ.symm)) = x ⬝ᵥ (M.submatrix σ σ *ᵥ x) := by
      simp only [dotProduct, mulVec, Function.comp, submatrix_apply]
      rw [← Equiv.sum_comp σ]
      refine Finset.sum_congr rfl fun i _ => ?_
      rw [← Equiv.sum_comp σ]
      simp
    rw [← e1, ← e2]
    exact hpos _
  have hge : ∀ k : Fin n, low ≤ asVec n D k := by
    intro k
    have e : asVec n D k = S k ⬝ᵥ (M.submatrix σ σ *ᵥ S k) := by
      have e1 : (S * M.submatrix σ σ * Sᵀ) k k = asVec n D k := by rw [hD]; simp
      rw [← e1, Matrix.mul_assoc, mul_apply]
      simp only [dotProduct, mulVec, mul_apply, transpose_apply]
    rw [e]
    refine le_trans ?_ (hsub (S k))
    have : (1 : ℝ) ≤ S k ⬝ᵥ S k := by
      have := Finset.single_le_sum (f := fun i => S k i * S k i) (fun i _ => mul_self_nonneg _) (Finset.mem_univ k)
      simpa [hSk, dotProduct] using this
    nlinarith
  have hle : ∀ k : Fin n, asVec n D k ≤ high := by
    intro k
    refine le_trans ?_ (hdiag (σ k))
    have e : M (σ k) (σ k) = ∑ j, T k j * T k j * asVec n D j := by
      have e1 : M.submatrix σ σ k k = (T * diagonal (asVec n D) * Tᵀ) k k := by rw [h3]
      rw [submatrix_apply, mul_apply] at e1
      rw [e1]
      exact Finset.sum_congr rfl fun j _ => by rw [mul_diagonal, transpose_apply]; ring
    rw [e]
    have := Finset.single_le_sum (f := fun j => T k j * T k j * asVec n D j)
      (fun j _ => mul_nonneg (mul_self_nonneg _) (hlow.le.trans (hge j))) (Finset.mem_univ k)
    simpa [h1] using this
  intro p hp
  obtain ⟨k, hk, rfl⟩ := List.mem_iff_getElem.1 hp
  have e : asVec n D ⟨k, hl ▸ hk⟩ = D[k] := by simp [asVec, List.getD_eq_getElem?_getD, List.getElem?_eq_getElem hk]
  exact ⟨e ▸ hge ⟨k, hl ▸ hk⟩, e ▸ hle ⟨k, hl ▸ hk⟩⟩

theorem min_mem {D : List ℝ} (hne : D ≠ []) : realArith.minCoeff D ∈ D := by
  obtain ⟨a, l, rfl⟩ := List.exists_cons_of_ne_nil hne
  show l.foldr min a ∈ a :: l
  induction l with
  | nil => simp
  | cons b l ih =>
    rw [List.foldr_cons]
    rcases min_choice b (l.foldr min a) with e | e
    · rw [e]; simp
    · rw [e]
      have := ih (by simp)
      simp only [List.mem_cons] at this ⊢
      tauto

theorem max_mem {D : List ℝ} (hne : D ≠ []) : realArith.maxCoeff D ∈ D := by
  obtain ⟨a, l, rfl⟩ := List.exists_cons_of_ne_nil hne
  show l.foldr max a ∈ a :: l
  induction l with
  | nil => simp
  | cons b l ih =>
    rw [List.foldr_cons]
    rcases max_choice b (l.foldr max a) with e | e
    · rw [e]; simp
    · rw [e]
      have := ih (by simp)
      simp only [List.mem_cons] at this ⊢
      tauto

/-- Pivots between `low` and `2 low` are accepted. -/
theorem pivots_accepted {D : List ℝ} {low : ℝ} (hne : D ≠ []) (hlow : 1 ≤ low) (h : ∀ p ∈ D, low ≤ p ∧ p ≤ 2 * low) :
    PivotsLarge realArith D ∧ PivotsBalanced realArith D := by
  have e : D.map realArith.abs = D := by
    refine (List.map_congr_left fun p hp => ?_).trans (List.map_id D)
    exact abs_of_pos (by have := (h p hp).1; linarith)
  have h1 := h _ (min_mem hne)
  have h2 := h _ (max_mem hne)
  rw [PivotsLarge, PivotsBalanced, e]
  constructor
  · show decide (realArith.minCoeff D < ((1 / 10 ^ 14 : ℚ) : ℝ)) = false
    rw [decide_eq_false_iff_not]
    push_cast
    norm_num
    linarith
  · show decide (((10 ^ 12 : ℚ) : ℝ) < realArith.maxCoeff D / realArith.minCoeff D) = false
    rw [decide_eq_false_iff_not, lt_div_iff₀ (by linarith)]
    push_cast
    norm_num
    linarith

end Factorama

namespace Factorama.Ldlt
open Spec Matrix

theorem factor_pivots {n : Nat} (M : Fin n → Fin n → ℝ) (hs : ∀ i j, M i j = M j i) {f : Fact ℝ}
    (hf : factorRows n (rowLists M) = some f) :
    ∃ (D : Fin n → ℝ) (T : Matrix (Fin n) (Fin n) ℝ), f.map (·.1) = List.ofFn D ∧ (∀ i, T i i = 1) ∧
      (∀ i j, i < j → T i j = 0) ∧ ∀ i j, M i j = ∑ k, T i k * D k * T j k := by
  induction n generalizing f with
  | zero =>
    simp only [factorRows, Option.some.injEq] at hf
    subst hf
    exact ⟨Fin.elim0, 0, by simp, fun i => i.elim0, fun i => i.elim0, fun i => i.elim0⟩
  | succ n ih =>
    obtain ⟨hd, f', hf', rfl⟩ := (factorRows_succ M).1 hf
    obtain ⟨D, T, h1, h2, h3, h4⟩ := ih (schur M) (schur_symm hs) hf'
    refine ⟨Fin.cons (M 0 0) D, Matrix.of fun i j => Fin.cases (Fin.cases 1 (fun _ => 0) j)
      (fun i' => Fin.cases (M i'.succ 0 / M 0 0) (fun j' => T i' j') j) i, ?_, ?_, ?_, ?_⟩
    · rw [List.ofFn_succ, List.map_cons, h1]; simp
    · intro i
      refine Fin.cases rfl (fun i => ?_) i
      exact h2 i
    · intro i j hij
      induction j using Fin.cases with
      | zero => exact absurd hij (by simp)
      | succ j =>
        induction i using Fin.cases with
        | zero => rfl
        | succ i => exact h3 i j (by simpa using hij)
    · intro i j
      rw [Fin.sum_univ_succ]
      induction i using Fin.cases with
      | zero =>
        induction j using Fin.cases with
        | zero => simp
        | succ j =>
          simp
          rw [hs 0 j.succ]
          field_simp
      | succ i =>
        induction j using Fin.cases with
        | zero => simp; field_simp
        | succ j =>
          have := h4 i j
          simp only [schur] at this
          simp only [of_apply, Fin.cases_zero, Fin.cases_succ, Fin.cons_zero, Fin.cons_succ]
          rw [← this, hs 0 j.succ]
          field_simp
          ring

/-- **The reference back end reports the pivots of its factorisation.** -/
theorem exact_pivots : ExactPivots (linAlg : LinAlg ℝ (Fact ℝ)) := by
  intro H f hc hs hf
  have hf' : factorRows H.rows (rowLists (square H.rows H)) = some f := by rw [← rowsOf_eq H hc]; exact hf
  obtain ⟨D, T, h1, h2, h3, h4⟩ := factor_pivots _ (fun i j => hs.apply j i) hf'
  have hv : (linAlg : LinAlg ℝ (Fact ℝ)).vectorD f = List.ofFn D := h1
  refine ⟨by rw [hv]; simp, 1, T, h2, h3, ?_⟩
  rw [hv, asVec_ofFn]
  ext i j
  rw [submatrix_apply, mul_apply]
  simp only [mul_diagonal, transpose_apply]
  exact h4 i j

end Factorama.Ldlt
