import Verif.Lemmas.Path
import Verif.Lemmas.AffineStep
import Verif.Spec.Fusion

/-!
# The columns of a variable that is measured directly
-/

namespace Factorama
open Spec Opt Graph Matrix
variable {V : Type} [VarLike ℝ V]

/-- The rows of a prior. -/
theorem prior_row {h : Heap V} {vars : List VRef} (hn : vars.Nodup) {facs : List (Factor ℝ V)} {J : SpMat ℝ}
    (hJ : Stacks h vars facs J) {k : Nat} {id : Int} {v : VRef} {p : List ℝ} {w : ℝ} (hk : facs[k]? = some (genericPrior id v p w))
    (hv : v ∈ vars) (hc : VarLike.isConst (h v) = false) (hl : p.length = VarLike.size (h v)) {i : Nat} (hi : i < p.length) {c : Nat}
    (hcol : c < freeTotal h vars) :
    J.coeff (rowStart facs k + i) c = if c = colStart h vars v + i then w else 0 := by
  obtain ⟨B, hB, hS⟩ := hJ.jacobian
  obtain ⟨q, hq, hqc, j, hj, rfl⟩ := exists_column h hn hcol
  obtain ⟨e1, _⟩ := hB k _ hk
  simp only [genericPrior, hc, Bool.false_eq_true, if_false, Res.ok.injEq] at e1
  by_cases hqv : q = v
  · subst hqv
    rw [(hS k _ hk i hi).1 0 q (Mat.diag p.length w) rfl hc (by rw [← e1]; rfl) j hj]
    simp only [Mat.diag]
    exact if_congr ⟨fun e => by omega, fun e => by omega⟩ rfl rfl
  · rw [(hS k _ hk i hi).2 q hq hqc (by simpa [genericPrior] using hqv) j hj, if_neg]
    intro e
    exact colStart_disjoint h hqv hv hq (j := j) (by simp [freeSize, hqc, hj])
      ⟨by omega, by simp only [freeSize, hc]; simp; omega⟩

/-- A column of a variable measured by priors only. -/
theorem prior_column {h : Heap V} {vars : List VRef} (hn : vars.Nodup) {facs : List (Factor ℝ V)} {J : SpMat ℝ}
    (hJ : Stacks h vars facs J) {v : VRef} {n : Nat} {K : Finset Nat} {p : Nat → List ℝ} {σ : Nat → ℝ}
    (hO : OnlyPriors facs v n K p σ) (hv : v ∈ vars) (hc : VarLike.isConst (h v) = false) (hs : VarLike.size (h v) = n) {j : Nat}
    (hj : j < n) {a : Nat} (ha : a < rowTotal facs) :
    J.coeff a (colStart h vars v + j) = ∑ k ∈ K, if a = rowStart facs k + j then 1 / σ k else 0 := by
  have hcol : colStart h vars v + j < freeTotal h vars := by
    have := colStart_le h hv
    rw [freeSize, hc] at this
    simp at this
    omega
  obtain ⟨k, f, i, hk, hi, rfl⟩ := row_decomp facs a ha
  have other : ∀ k' ∈ K, k' ≠ k → rowStart facs k + i ≠ rowStart facs k' + j := by
    intro k' hk' hne e
    obtain ⟨hl, _, id, hf'⟩ := hO.prior k' hk'
    have hr : (genericPrior id v (p k') (1 / σ k') : Factor ℝ V).residualSize = n := hl
    exact hne (row_unique hf' hk (a := rowStart facs k + i) ⟨by omega, by omega⟩ ⟨by omega, by omega⟩)
  by_cases hm : k ∈ K
  · obtain ⟨hl, _, id, hf⟩ := hO.prior k hm
    obtain rfl := Option.some.inj (hk.symm.trans hf)
    rw [prior_row hn hJ hk hv hc (hl.trans hs.symm) hi hcol, Finset.sum_eq_single_of_mem k hm fun k' hk' hne =>
      if_neg (other k' hk' hne)]
    exact if_congr ⟨fun e => by omega, fun e => by omega⟩ rfl rfl
  · obtain ⟨B, _, hS⟩ := hJ.jacobian
    rw [(hS k f hk i hi).2 v hv hc (fun hmem => hm (hO.mention k f hk hmem)) j (by omega), Finset.sum_eq_zero fun k' hk' =>
      if_neg (other k' hk' (by rintro rfl; exact hm hk'))]

/-- Sums over the rows with the entries of such a column. -/
theorem prior_column_sum {h : Heap V} {vars : List VRef} (hn : vars.Nodup) {facs : List (Factor ℝ V)} {J : SpMat ℝ}
    (hJ : Stacks h vars facs J) {v : VRef} {n : Nat} {K : Finset Nat} {p : Nat → List ℝ} {σ : Nat → ℝ}
    (hO : OnlyPriors facs v n K p σ) (hv : v ∈ vars) (hc : VarLike.isConst (h v) = false) (hs : VarLike.size (h v) = n) {j : Nat}
    (hj : j < n) (g : Nat → ℝ) :
    ∑ a ∈ Finset.range (rowTotal facs), J.coeff a (colStart h vars v + j) * g a = ∑ k ∈ K, 1 / σ k * g (rowStart facs k + j) := by
  rw [Finset.sum_congr rfl fun a ha => by rw [prior_column hn hJ hO hv hc hs hj (by simpa using ha), Finset.sum_mul], Finset.sum_comm]
  refine Finset.sum_congr rfl fun k hk => ?_
  obtain ⟨hl, _, id, hf⟩ := hO.prior k hk
  have hr : (genericPrior id v (p k) (1 / σ k) : Factor ℝ V).residualSize = n := hl
  have := row_end_le hf
  rw [Finset.sum_eq_single_of_mem (rowStart facs k + j) (by simp; omega) fun a _ ha => by simp [ha]]
  simp

/-- A column of the normal matrix that is a multiple of a unit vector, and the inverse. -/
theorem inverse_column {N : Nat} {M : Matrix (Fin N) (Fin N) ℝ} (hu : IsUnit M) {c : Fin N} {W : ℝ}
    (h : ∀ b, M b c = if b = c then W else 0) : W ≠ 0 ∧ ∀ b, M⁻¹ b c = if b = c then 1 / W else 0 := by
  have hd := (Matrix.isUnit_iff_isUnit_det _).1 hu
  have e : M *ᵥ Pi.single c 1 = W • Pi.single c 1 := by
    funext b
    rw [mulVec_single_one, col_apply, h b]
    by_cases hb : b = c
    · simp [hb]
    · simp [hb]
  have e2 : (Pi.single c 1 : Fin N → ℝ) = W • (M⁻¹ *ᵥ Pi.single c 1) := by
    rw [← mulVec_smul, ← e, mulVec_mulVec, nonsing_inv_mul _ hd, one_mulVec]
  have hW : W ≠ 0 := by
    rintro rfl
    have := congrFun e2 c
    simp at this
  refine ⟨hW, fun b => ?_⟩
  have := congrFun e2 b
  rw [mulVec_single_one, Pi.smul_apply, col_apply, smul_eq_mul] at this
  by_cases hb : b = c
  · subst hb
    simp only [Pi.single_eq_same, if_true] at this ⊢
    field_simp
    linarith
  · rw [Pi.single_eq_of_ne hb] at this
    rw [if_neg hb]
    exact (mul_eq_zero.1 this.symm).resolve_left hW

end Factorama
