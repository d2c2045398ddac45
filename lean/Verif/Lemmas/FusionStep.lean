import Verif.Lemmas.Fusion
import Verif.Lemmas.Stationary
import Verif.Props.AffineProblems

/-!
# A step of a variable that is measured directly
-/

namespace Factorama
open Spec Opt Graph Matrix
variable {V : Type} [VarLike ℝ V]

/-- A step with damping `l` (or 0) and learning rate `α`, in a component of a variable that only priors mention. -/
theorem prior_step {h0 h h' : Heap V} {vars : List VRef} (hn : vars.Nodup) {facs : List (Factor ℝ V)} {r d : List ℝ} {J : SpMat ℝ}
    (hlin : Linearised h vars facs r J) {l α : ℝ}
    (hN : ((jacobianMatrix J)ᵀ * jacobianMatrix J) *ᵥ asVec J.columns.length d + l • asVec J.columns.length d = -gradient J r)
    (hst : Stepped h h' vars (realArith.scale α d)) (hs : SameShape h0 h)
    {v : VRef} (hmem : v ∈ vars) (hc : VarLike.isConst (h0 v) = false)
    (hadd : AdditiveIncrements h0 [v]) {K : Finset Nat} {p : Nat → List ℝ} {σ : Nat → ℝ}
    (hO : OnlyPriors facs v (VarLike.size (h0 v)) K p σ) {j : Nat} (hj : j < VarLike.size (h0 v)) :
    (precision K σ + l) * (component (h' v) j - component (h v) j) =
      -α * (precision K σ * component (h v) j - ∑ k ∈ K, (p k).getD j 0 / σ k ^ 2) := by
  have hstack : Stacks h vars facs J := ⟨hlin.rows, hlin.columns, hlin.jacobian⟩
  have hch : VarLike.isConst (h v) = false := (hs v).2.1.trans hc
  have hsz : VarLike.size (h v) = VarLike.size (h0 v) := (hs v).2.2
  have hcol : colStart h vars v + j < freeTotal h vars := by
    have := colStart_le h hmem
    rw [freeSize, hch] at this
    simp at this
    omega
  have hentry : ∀ k ∈ K, ∀ c, c < freeTotal h vars → J.coeff (rowStart facs k + j) c =
      if c = colStart h vars v + j then 1 / σ k else 0 := by
    intro k hk c hc'
    obtain ⟨hl, _, id, hf⟩ := hO.prior k hk
    exact prior_row hn hstack hf hmem hch (hl.trans hsz.symm) (by omega) hc'
  have hres : ∀ k ∈ K, r.getD (rowStart facs k + j) 0 = 1 / σ k * (component (h v) j - (p k).getD j 0) := by
    intro k hk
    obtain ⟨hl, _, id, hf⟩ := hO.prior k hk
    obtain ⟨sg, e1, e2, e3⟩ := isResidual_row hlin.residual hf
    have hj' : j < (genericPrior id v (p k) (1 / σ k) : Factor ℝ V).residualSize := by
      show j < (p k).length
      omega
    rw [List.getD_eq_getElem?_getD, e3 j hj', ← List.getD_eq_getElem?_getD]
    simp only [genericPrior] at e1
    cases hd : vecSub (VarLike.value (h v)) (p k) with
    | threw => rw [hd] at e1; simp at e1
    | ub => rw [hd] at e1; simp at e1
    | ok x =>
      rw [hd] at e1
      obtain rfl := Res.ok.inj e1
      obtain ⟨_, _, e⟩ := Props.C24.vecSub_ok hd
      rw [Props.C24.map_mul, e j hj']
      rfl
  -- the normal equation of the column
  have heq : ∑ k ∈ K, 1 / σ k ^ 2 * (component (h v) j + d.getD (colStart h vars v + j) 0 - (p k).getD j 0) =
      -(l * d.getD (colStart h vars v + j) 0) := by
    have hcJ : colStart h vars v + j < J.columns.length := hlin.columns ▸ hcol
    have e := congrFun hN ⟨_, hcJ⟩
    rw [Pi.add_apply, ← mulVec_mulVec, Pi.neg_apply, gradient_apply] at e
    have e1 : ((jacobianMatrix J)ᵀ *ᵥ (jacobianMatrix J *ᵥ asVec J.columns.length d)) ⟨_, hcJ⟩ =
        ∑ a ∈ Finset.range (rowTotal facs), J.coeff a (colStart h vars v + j) *
          ∑ c ∈ Finset.range (freeTotal h vars), J.coeff a c * d.getD c 0 := by
      rw [mulVec, dotProduct, ← hlin.rows, ← hlin.columns,
        ← Fin.sum_univ_eq_sum_range (fun a => J.coeff a (colStart h vars v + j) *
          ∑ c ∈ Finset.range J.columns.length, J.coeff a c * d.getD c 0)]
      refine Finset.sum_congr rfl fun a _ => ?_
      rw [mulVec, dotProduct, ← Fin.sum_univ_eq_sum_range (fun c => J.coeff a c * d.getD c 0)]
      rfl
    have e0 : (l • asVec J.columns.length d) ⟨_, hcJ⟩ = l * d.getD (colStart h vars v + j) 0 := rfl
    rw [e1, e0, prior_column_sum hn hstack hO hmem hch hsz hj] at e
    rw [hlin.rows, prior_column_sum hn hstack hO hmem hch hsz hj] at e
    have e3 : ∑ k ∈ K, 1 / σ k ^ 2 * (component (h v) j + d.getD (colStart h vars v + j) 0 - (p k).getD j 0) =
        ∑ k ∈ K, 1 / σ k * (∑ c ∈ Finset.range (freeTotal h vars), J.coeff (rowStart facs k + j) c * d.getD c 0) +
        ∑ k ∈ K, 1 / σ k * r.getD (rowStart facs k + j) 0 := by
      rw [← Finset.sum_add_distrib]
      refine Finset.sum_congr rfl fun k hk => ?_
      have e2 : ∑ c ∈ Finset.range (freeTotal h vars), J.coeff (rowStart facs k + j) c * d.getD c 0 =
          1 / σ k * d.getD (colStart h vars v + j) 0 := by
        rw [Finset.sum_eq_single_of_mem (colStart h vars v + j) (by simpa using hcol) fun c hc' hne => by
          rw [hentry k hk c (by simpa using hc'), if_neg hne, zero_mul], hentry k hk _ hcol, if_pos rfl]
      rw [e2, hres k hk]
      ring
    rw [e3]
    linarith
  -- the new value
  have hnew : component (h' v) j = component (h v) j + d.getD (colStart h vars v + j) 0 * α := by
    have e := hadd h hs v (by simp) hc _ _ ((hst v).1 ⟨hmem, hch⟩) j hj
    rw [e]
    simp only [partOf, List.getD_eq_getElem?_getD, List.getElem?_take, List.getElem?_drop]
    rw [if_pos (by omega)]
    simp only [Arith.scale, realArith, List.getElem?_map]
    cases d[colStart h vars v + j]? <;> simp
  have e : ∑ k ∈ K, 1 / σ k ^ 2 * (component (h v) j + d.getD (colStart h vars v + j) 0 - (p k).getD j 0) =
      (component (h v) j + d.getD (colStart h vars v + j) 0) * precision K σ - ∑ k ∈ K, (p k).getD j 0 / σ k ^ 2 := by
    rw [precision, Finset.mul_sum, ← Finset.sum_sub_distrib]
    exact Finset.sum_congr rfl fun k _ => by ring
  rw [hnew]
  rw [e] at heq
  linear_combination α * heq

end Factorama
