import Verif.Spec.Convergence
import Verif.Lemmas.AffineStep
import Verif.Lemmas.StepFacts
import Verif.Props.OptimizerReal

/-!
# Gauss-Newton steps near an exact fit
-/

namespace Factorama
open Spec Graph Opt Matrix
variable {V Fact : Type} [VarLike ℝ V] [LawfulVar ℝ V]

/-- The solution of the normal equations is not farther off than the prediction error. -/
theorem normal_error {m n : Nat} (A : Matrix (Fin m) (Fin n) ℝ) (r : Fin m → ℝ) (d x : Fin n → ℝ)
    (hd : (Aᵀ * A) *ᵥ d = -(Aᵀ *ᵥ r)) :
    (A *ᵥ (d - x)) ⬝ᵥ (A *ᵥ (d - x)) ≤ (r + A *ᵥ x) ⬝ᵥ (r + A *ᵥ x) := by
  have h1 : Aᵀ *ᵥ (A *ᵥ (d - x)) = -(Aᵀ *ᵥ (r + A *ᵥ x)) := by
    rw [mulVec_sub, mulVec_sub, mulVec_add, mulVec_mulVec, mulVec_mulVec, hd]
    abel
  have h2 : (A *ᵥ (d - x)) ⬝ᵥ (A *ᵥ (d - x)) = -((A *ᵥ (d - x)) ⬝ᵥ (r + A *ᵥ x)) := by
    have e : ∀ y : Fin m → ℝ, (A *ᵥ (d - x)) ⬝ᵥ y = (d - x) ⬝ᵥ (Aᵀ *ᵥ y) := by
      intro y
      rw [mulVec_transpose, ← dotProduct_comm y, dotProduct_mulVec, dotProduct_comm]
    rw [e, h1, e, dotProduct_neg]
  have h3 : 0 ≤ (A *ᵥ (d - x) + (r + A *ᵥ x)) ⬝ᵥ (A *ᵥ (d - x) + (r + A *ᵥ x)) :=
    Finset.sum_nonneg fun i _ => mul_self_nonneg _
  generalize r + A *ᵥ x = w at *
  rw [add_dotProduct, dotProduct_add, dotProduct_add, dotProduct_comm w (A *ᵥ (d - x))] at h3
  linarith

/-- Predicted residuals, row by row. -/
theorem predicted {h : Heap V} {vars : List VRef} {facs : List (Factor ℝ V)} (hn : vars.Nodup)
    (hmem : ∀ f ∈ facs, ∀ r, some r ∈ f.variables → VarLike.isConst (h r) = false → r ∈ vars)
    (hnr : NoRepeats facs) {r : List ℝ} {J : SpMat ℝ} (hlin : Linearised h vars facs r J) {D : VRef → Nat → ℝ} {b : ℝ}
    (hfit : ∀ f ∈ facs, ∀ s js, f.computeResidual h = .ok s → f.computeJacobians h [] = .ok js → ∀ i, i < f.residualSize →
      |s.getD i 0 + ∑ p ∈ Finset.range f.variables.length, contribution h f js D i p| ≤ b)
    {x : Nat → ℝ} (hx : ∀ q ∈ vars, VarLike.isConst (h q) = false → ∀ j, j < VarLike.size (h q) →
      x (colStart h vars q + j) = D q j) {a : Nat} (ha : a < rowTotal facs) :
    |r.getD a 0 + ∑ c ∈ Finset.range (freeTotal h vars), J.coeff a c * x c| ≤ b := by
  obtain ⟨blocks, hbl, hst⟩ := hlin.jacobian
  obtain ⟨k, f, i, hk, hi, rfl⟩ := exists_row ha
  have hf : f ∈ facs := List.mem_of_getElem? hk
  obtain ⟨hj, hp⟩ := hbl k f hk
  obtain ⟨s, h1, h2, h3⟩ := isResidual_row hlin.residual hk
  have hm : ∀ q, some q ∈ f.variables → VarLike.isConst (h q) = false → q ∈ vars := fun q hq hc => hmem f hf q hq hc
  rw [stacked_mulVec hn hst hk hp (hnr f hf) hm hi x]
  have e := hfit f hf s _ h1 hj i hi
  simp only [List.getD_eq_getElem?_getD] at e ⊢
  rw [h3 i hi]
  refine le_of_eq_of_le ?_ e
  congr 2
  refine Finset.sum_congr rfl fun p _ => ?_
  refine contribution_congr (fun _ => ⟨rfl, rfl, rfl⟩) (fun q hq hc j hj => ?_) i p
  exact hx q (hm q hq hc) hc j hj

/-- A full Gauss-Newton step is the missing increment up to the square of the distance. -/
theorem step_error {L : LinAlg ℝ Fact} (hL : ExactLinAlg L) {h h' : Heap V} {vars : List VRef} {facs : List (Factor ℝ V)}
    (hn : vars.Nodup) (hmem : ∀ f ∈ facs, ∀ r, some r ∈ f.variables → VarLike.isConst (h r) = false → r ∈ vars)
    (hnr : NoRepeats facs) {r d : List ℝ} {J : SpMat ℝ} (hlin : Linearised h vars facs r J)
    (hsol : SystemSolved realArith L (L.gram J) (L.rhs J r) d) (hst : Stepped h h' vars (realArith.scale 1 d))
    {D : VRef → Nat → ℝ} {b σ : ℝ} (hb : 0 ≤ b) (hσ : 0 < σ)
    (hfit : ∀ f ∈ facs, ∀ s js, f.computeResidual h = .ok s → f.computeJacobians h [] = .ok js → ∀ i, i < f.residualSize →
      |s.getD i 0 + ∑ p ∈ Finset.range f.variables.length, contribution h f js D i p| ≤ b)
    (hmeas : Measured σ J) :
    ∀ q ∈ vars, VarLike.isConst (h q) = false → ∃ dq : List ℝ, VarLike.applyIncr (h q) dq = .ok (h' q) ∧
      ∀ j, j < VarLike.size (h q) → |dq.getD j 0 - D q j| ≤ Real.sqrt (rowTotal facs) * b / σ := by
  obtain ⟨f, hf, _, _, hd⟩ := hsol
  obtain ⟨d', h1, h2, h3, _⟩ := Props.C25_gauss_newton hL J r f hf
  rw [hd] at h1
  obtain rfl := Option.some.inj h1
  have hd1 : realArith.scale 1 d = d := by simp [Arith.scale, realArith]
  rw [hd1] at hst
  obtain ⟨x, hx⟩ := exists_stacked h vars hn D
  have hx' : ∀ q ∈ vars, VarLike.isConst (h q) = false → ∀ j, j < VarLike.size (h q) →
      x (colStart h vars q + j) = D q j := fun q hq hc j hj => hx q hq j (by rw [freeSize, hc]; simpa using hj)
  have hrow : ∀ a : Fin J.rows, |(asVec J.rows r + jacobianMatrix J *ᵥ fun c : Fin J.columns.length => x c) a| ≤ b := by
    intro a
    have := predicted hn hmem hnr hlin hfit hx' (a := a) (hlin.rows ▸ a.2)
    rw [Pi.add_apply, asVec, mulVec, dotProduct]
    rw [← hlin.columns, Finset.sum_range] at this
    exact this
  have hle := normal_error (jacobianMatrix J) (asVec J.rows r) (asVec J.columns.length d) (fun c : Fin J.columns.length => x c)
    ((h3 _).2 rfl)
  have hsum : (asVec J.rows r + jacobianMatrix J *ᵥ fun c : Fin J.columns.length => x c) ⬝ᵥ
      (asVec J.rows r + jacobianMatrix J *ᵥ fun c : Fin J.columns.length => x c) ≤ rowTotal facs * b ^ 2 := by
    rw [dotProduct]
    refine (Finset.sum_le_sum fun a _ => (?_ : _ ≤ b ^ 2)).trans ?_
    · rw [← sq]
      exact sq_le_sq' (by linarith [(abs_le.1 (hrow a)).1]) (abs_le.1 (hrow a)).2
    · simp [hlin.rows]
  intro q hq hc
  refine ⟨_, (hst q).1 ⟨hq, hc⟩, fun j hj => ?_⟩
  have hcol : colStart h vars q + j < J.columns.length := by
    rw [hlin.columns]
    have := colStart_le h hq
    rw [freeSize, hc] at this
    simp only [Bool.false_eq_true, if_false] at this
    omega
  have e : (partOf h vars d q).getD j 0 = d.getD (colStart h vars q + j) 0 := by
    simp only [partOf, List.getD_eq_getElem?_getD, List.getElem?_take, List.getElem?_drop]
    rw [if_pos hj]
  have hm := (hmeas (asVec J.columns.length d - fun c : Fin J.columns.length => x c) ⟨_, hcol⟩).trans (hle.trans hsum)
  simp only [Pi.sub_apply, asVec] at hm
  rw [hx' q hq hc j hj] at hm
  rw [e]
  rw [le_div_iff₀ hσ]
  rw [← abs_of_pos hσ, ← abs_mul]
  refine abs_le_of_sq_le_sq ?_ (by positivity)
  rw [mul_pow √_ b, Real.sq_sqrt (by positivity), mul_comm _ σ]
  exact hm

end Factorama
