import Verif.Lemmas.NormalEq
import Verif.Lemmas.Calculus
import Mathlib.Analysis.Calculus.FDeriv.Mul
import Mathlib.Analysis.Calculus.FDeriv.Add
import Mathlib.LinearAlgebra.Matrix.Block
import Mathlib.Analysis.Normed.Operator.Basic

/-!
# Small steps against the gradient lower the cost
-/

namespace Factorama
open Spec Geo Matrix Topology Filter

/-- Half the squared norm of a differentiable residual. -/
theorem cost_fderiv {m n : Nat} (A : Matrix (Fin m) (Fin n) ℝ) (Φ : (Fin n → ℝ) → Fin m → ℝ) (h : HasFDerivAt Φ (jac A) 0) :
    ∃ c' : (Fin n → ℝ) →L[ℝ] ℝ, (∀ u, c' u = (Aᵀ *ᵥ Φ 0) ⬝ᵥ u) ∧ HasFDerivAt (fun x => 1 / 2 * (Φ x ⬝ᵥ Φ x)) c' 0 := by
  have h1 : ∀ i, HasFDerivAt (fun x => Φ x i) ((ContinuousLinearMap.proj i).comp (jac A)) 0 := hasFDerivAt_pi'.1 h
  have h2 : HasFDerivAt (fun x => ∑ i, Φ x i * Φ x i) _ 0 := HasFDerivAt.fun_sum fun i _ => (h1 i).mul (h1 i)
  refine ⟨_, fun u => ?_, h2.const_mul (1 / 2)⟩
  simp only [ContinuousLinearMap.smul_apply, ContinuousLinearMap.sum_apply, ContinuousLinearMap.add_apply,
    ContinuousLinearMap.comp_apply, ContinuousLinearMap.proj_apply, jac_apply, smul_eq_mul]
  rw [mulVec_transpose, ← dotProduct_mulVec, dotProduct, Finset.mul_sum]
  exact Finset.sum_congr rfl fun i _ => by ring

/-- Every small enough step that makes a fixed minimal angle with the level set of the linearised cost lowers the cost. -/
theorem cost_falls {m n : Nat} (A : Matrix (Fin m) (Fin n) ℝ) (Φ : (Fin n → ℝ) → Fin m → ℝ) (h : HasFDerivAt Φ (jac A) 0)
    {κ : ℝ} (hκ : 0 < κ) :
    ∀ᶠ x in 𝓝 0, x ≠ 0 → (Aᵀ *ᵥ Φ 0) ⬝ᵥ x ≤ -(κ * ‖x‖) → Φ x ⬝ᵥ Φ x < Φ 0 ⬝ᵥ Φ 0 := by
  obtain ⟨c', h1, h2⟩ := cost_fderiv A Φ h
  filter_upwards [h2.isLittleO.def (half_pos hκ)] with x hx hne hle
  have hpos : 0 < ‖x‖ := norm_pos_iff.2 hne
  simp only [sub_zero, h1, Real.norm_eq_abs] at hx
  have := (abs_le.1 hx).2
  nlinarith [mul_pos hκ hpos]

theorem dot_le_card {n : Nat} (x y : Fin n → ℝ) : x ⬝ᵥ y ≤ n * (‖x‖ * ‖y‖) := by
  rw [dotProduct]
  calc ∑ i, x i * y i ≤ ∑ _i : Fin n, ‖x‖ * ‖y‖ := by
        refine Finset.sum_le_sum fun i _ => ?_
        have h1 := norm_le_pi_norm x i
        have h2 := norm_le_pi_norm y i
        rw [Real.norm_eq_abs] at h1 h2
        calc x i * y i ≤ |x i * y i| := le_abs_self _
          _ = |x i| * |y i| := abs_mul _ _
          _ ≤ ‖x‖ * ‖y‖ := mul_le_mul h1 h2 (abs_nonneg _) (norm_nonneg _)
    _ = n * (‖x‖ * ‖y‖) := by simp

theorem norm_sq_le_dot {n : Nat} (x : Fin n → ℝ) : ‖x‖ * ‖x‖ ≤ x ⬝ᵥ x := by
  have hd := sq_nonneg_dot x
  have : ‖x‖ ≤ √(x ⬝ᵥ x) := by
    refine (pi_norm_le_iff_of_nonneg (Real.sqrt_nonneg _)).2 fun i => Real.le_sqrt_of_sq_le ?_
    rw [Real.norm_eq_abs, sq_abs, dotProduct, sq]
    exact Finset.single_le_sum (f := fun i => x i * x i) (fun i _ => mul_self_nonneg _) (Finset.mem_univ i)
  calc ‖x‖ * ‖x‖ ≤ √(x ⬝ᵥ x) * √(x ⬝ᵥ x) := mul_le_mul this this (norm_nonneg _) (Real.sqrt_nonneg _)
    _ = x ⬝ᵥ x := Real.mul_self_sqrt hd

/-- The solution of the damped normal equations is short for large damping and points against the gradient. -/
theorem damped_step {m n : Nat} (A : Matrix (Fin m) (Fin n) ℝ) {g : Fin n → ℝ} (hg : g ≠ 0) :
    ∃ Λ > 0, ∀ lambda ≥ Λ, ∀ d : Fin n → ℝ, (Aᵀ * A + lambda • 1) *ᵥ d = -g →
      d ≠ 0 ∧ ‖d‖ ≤ n * ‖g‖ / lambda ∧ g ⬝ᵥ d ≤ -(‖g‖ / 2 * ‖d‖) := by
  have hgp : 0 < ‖g‖ := norm_pos_iff.2 hg
  refine ⟨‖jac (Aᵀ * A)‖ + 1, by positivity, fun lambda hl d hd => ?_⟩
  have hC := norm_nonneg (jac (Aᵀ * A))
  have hlp : 0 < lambda := by linarith
  have hne : d ≠ 0 := by
    rintro rfl
    rw [mulVec_zero, eq_comm, neg_eq_zero] at hd
    exact hg hd
  have hdp : 0 < ‖d‖ := norm_pos_iff.2 hne
  rw [add_mulVec, smul_mulVec, one_mulVec] at hd
  -- the quadratic form
  have hq : lambda * (d ⬝ᵥ d) ≤ -(g ⬝ᵥ d) := by
    have e : d ⬝ᵥ ((Aᵀ * A) *ᵥ d + lambda • d) = -(g ⬝ᵥ d) := by rw [hd, dotProduct_neg, dotProduct_comm]
    rw [dotProduct_add, dotProduct_smul, smul_eq_mul, quad_gram] at e
    have := sq_nonneg_dot (A *ᵥ d)
    linarith
  have hs := norm_sq_le_dot d
  have h1 : lambda * (‖d‖ * ‖d‖) ≤ -(g ⬝ᵥ d) := (mul_le_mul_of_nonneg_left hs hlp.le).trans hq
  refine ⟨hne, ?_, ?_⟩
  · have h2 : -(g ⬝ᵥ d) ≤ n * (‖g‖ * ‖d‖) := by
      have := dot_le_card (-g) d
      rwa [neg_dotProduct, norm_neg] at this
    rw [le_div_iff₀ hlp]
    have h3 : (‖d‖ * lambda) * ‖d‖ ≤ (n * ‖g‖) * ‖d‖ := by nlinarith
    exact le_of_mul_le_mul_right h3 hdp
  · have h2 : ‖g‖ ≤ 2 * lambda * ‖d‖ := by
      calc ‖g‖ = ‖(Aᵀ * A) *ᵥ d + lambda • d‖ := by rw [hd, norm_neg]
        _ ≤ ‖(Aᵀ * A) *ᵥ d‖ + ‖lambda • d‖ := norm_add_le _ _
        _ ≤ ‖jac (Aᵀ * A)‖ * ‖d‖ + lambda * ‖d‖ := by
          refine add_le_add ?_ ?_
          · rw [← jac_apply]; exact ContinuousLinearMap.le_opNorm _ _
          · rw [norm_smul, Real.norm_eq_abs, abs_of_pos hlp]
        _ ≤ 2 * lambda * ‖d‖ := by nlinarith
    nlinarith

end Factorama
