import Verif.Spec.Errors
import Verif.Spec.LinearAlgebra
import Mathlib.LinearAlgebra.Matrix.NonsingularInverse
import Mathlib.LinearAlgebra.Matrix.Trace

/-! Helper lemmas: linear functions of uncorrelated noise. -/

namespace Factorama
open Spec MeasureTheory Matrix
variable {Ω : Type} [MeasurableSpace Ω] {μ : Measure Ω} {m : Nat} {ε : Ω → List ℝ}

theorem noise_mean (hint : ∀ a, a < m → Integrable (fun ω => (ε ω).getD a 0) μ) (hmean : ∀ a, a < m → ∫ ω, (ε ω).getD a 0 ∂μ = 0)
    (w : Fin m → ℝ) :
    Integrable (fun ω => w ⬝ᵥ asVec m (ε ω)) μ ∧ ∫ ω, w ⬝ᵥ asVec m (ε ω) ∂μ = 0 := by
  have hi : ∀ a ∈ (Finset.univ : Finset (Fin m)), Integrable (fun ω => w a * (ε ω).getD a 0) μ :=
    fun a _ => (hint a a.2).const_mul _
  have e : (fun ω => w ⬝ᵥ asVec m (ε ω)) = fun ω => ∑ a : Fin m, w a * (ε ω).getD a 0 := rfl
  rw [e]
  refine ⟨integrable_finsetSum _ hi, ?_⟩
  rw [integral_finsetSum _ hi]
  refine Finset.sum_eq_zero fun a _ => ?_
  rw [integral_const_mul, hmean a a.2, mul_zero]

theorem noise_covariance (hε : UnitNoise μ m ε) (w z : Fin m → ℝ) :
    Integrable (fun ω => (w ⬝ᵥ asVec m (ε ω)) * (z ⬝ᵥ asVec m (ε ω))) μ ∧
    ∫ ω, (w ⬝ᵥ asVec m (ε ω)) * (z ⬝ᵥ asVec m (ε ω)) ∂μ = w ⬝ᵥ z := by
  have e : (fun ω => (w ⬝ᵥ asVec m (ε ω)) * (z ⬝ᵥ asVec m (ε ω))) =
      fun ω => ∑ a : Fin m, ∑ b : Fin m, w a * z b * ((ε ω).getD a 0 * (ε ω).getD b 0) := by
    funext ω
    rw [dotProduct, dotProduct, Finset.sum_mul_sum]
    refine Finset.sum_congr rfl fun a _ => Finset.sum_congr rfl fun b _ => ?_
    simp only [asVec]
    ring
  have hi : ∀ a ∈ (Finset.univ : Finset (Fin m)), ∀ b ∈ (Finset.univ : Finset (Fin m)),
      Integrable (fun ω => w a * z b * ((ε ω).getD a 0 * (ε ω).getD b 0)) μ :=
    fun a _ b _ => (hε.integrable_mul a b a.2 b.2).const_mul _
  have hj : ∀ a ∈ (Finset.univ : Finset (Fin m)),
      Integrable (fun ω => ∑ b : Fin m, w a * z b * ((ε ω).getD a 0 * (ε ω).getD b 0)) μ :=
    fun a ha => integrable_finsetSum _ (hi a ha)
  rw [e]
  refine ⟨integrable_finsetSum _ hj, ?_⟩
  rw [integral_finsetSum _ hj]
  refine Finset.sum_congr rfl fun a ha => ?_
  rw [integral_finsetSum _ (hi a ha), Finset.sum_eq_single a]
  · rw [integral_const_mul, hε.covariance a a a.2 a.2, if_pos rfl, mul_one]
  · intro b _ hb
    rw [integral_const_mul, hε.covariance a b a.2 b.2, if_neg (fun h => hb (Fin.ext h.symm)), mul_zero]
  · simp

/-- The rows of the matrix that maps the errors of the measurements to those of the estimate. -/
theorem gain_rows {R N : Nat} (A : Matrix (Fin R) (Fin N) ℝ) (hu : IsUnit (Aᵀ * A)) (i j : Fin N) :
    ((Aᵀ * A)⁻¹ * Aᵀ) i ⬝ᵥ ((Aᵀ * A)⁻¹ * Aᵀ) j = (Aᵀ * A)⁻¹ i j := by
  have hd := (Matrix.isUnit_iff_isUnit_det _).1 hu
  have e : ((Aᵀ * A)⁻¹ * Aᵀ) * ((Aᵀ * A)⁻¹ * Aᵀ)ᵀ = (Aᵀ * A)⁻¹ := by
    rw [transpose_mul, transpose_transpose, transpose_nonsing_inv, transpose_mul, transpose_transpose, Matrix.mul_assoc,
      ← Matrix.mul_assoc Aᵀ A, mul_nonsing_inv _ hd, Matrix.mul_one]
  have := congrFun (congrFun e i) j
  rwa [Matrix.mul_apply] at this

/-- The squares of the entries of the projection on what the estimate cannot explain add up to the redundancy. -/
theorem projection_rows {R N : Nat} (A : Matrix (Fin R) (Fin N) ℝ) (hu : IsUnit (Aᵀ * A)) :
    ∑ a, (1 - A * ((Aᵀ * A)⁻¹ * Aᵀ) : Matrix (Fin R) (Fin R) ℝ) a ⬝ᵥ (1 - A * ((Aᵀ * A)⁻¹ * Aᵀ) : Matrix (Fin R) (Fin R) ℝ) a =
      (R : ℝ) - N := by
  have hd := (Matrix.isUnit_iff_isUnit_det _).1 hu
  obtain ⟨G, hG⟩ : ∃ G, G = (Aᵀ * A)⁻¹ * Aᵀ := ⟨_, rfl⟩
  have hGA : G * A = 1 := by rw [hG, Matrix.mul_assoc, nonsing_inv_mul _ hd]
  have hT : (A * G)ᵀ = A * G := by
    rw [hG, transpose_mul, transpose_mul, transpose_transpose, transpose_nonsing_inv, transpose_mul, transpose_transpose,
      Matrix.mul_assoc]
  have e : (1 - A * G) * (1 - A * G)ᵀ = 1 - A * G := by
    rw [transpose_sub, transpose_one, hT, Matrix.mul_sub, Matrix.mul_one, Matrix.sub_mul, Matrix.one_mul, Matrix.mul_assoc,
      ← Matrix.mul_assoc G A G, hGA, Matrix.one_mul, sub_self, sub_zero]
  rw [← hG]
  have e2 : ∑ a, (1 - A * G : Matrix (Fin R) (Fin R) ℝ) a ⬝ᵥ (1 - A * G : Matrix (Fin R) (Fin R) ℝ) a = trace ((1 - A * G) * (1 - A * G)ᵀ) := by
    rw [trace]
    refine Finset.sum_congr rfl fun a _ => ?_
    rw [diag_apply, Matrix.mul_apply]
    rfl
  rw [e2, e, trace_sub, trace_mul_comm, hGA, trace_one, trace_one, Fintype.card_fin, Fintype.card_fin]

theorem noise_squares (hε : UnitNoise μ m ε) (Q : Matrix (Fin m) (Fin m) ℝ) :
    ∫ ω, (Q *ᵥ asVec m (ε ω)) ⬝ᵥ (Q *ᵥ asVec m (ε ω)) ∂μ = ∑ a, Q a ⬝ᵥ Q a := by
  have e : (fun ω => (Q *ᵥ asVec m (ε ω)) ⬝ᵥ (Q *ᵥ asVec m (ε ω))) =
      fun ω => ∑ a : Fin m, (Q a ⬝ᵥ asVec m (ε ω)) * (Q a ⬝ᵥ asVec m (ε ω)) := rfl
  rw [e, integral_finsetSum _ fun a _ => (noise_covariance hε (Q a) (Q a)).1]
  exact Finset.sum_congr rfl fun a _ => (noise_covariance hε (Q a) (Q a)).2

/-- Equal matrices give equal residuals. -/
theorem projection_congr {R N R' N' : Nat} {A : Matrix (Fin R) (Fin N) ℝ} {A' : Matrix (Fin R') (Fin N') ℝ} (hR : R' = R)
    (hN : N' = N) (h : ∀ (a : Fin R) (c : Fin N) (a' : Fin R') (c' : Fin N'), (a : Nat) = a' → (c : Nat) = c' → A' a' c' = A a c)
    (e : Nat → ℝ) (r ε : List ℝ) (he : (fun c : Fin N' => e c) = -((A'ᵀ * A')⁻¹ *ᵥ (A'ᵀ *ᵥ asVec R' ε)))
    (hr : asVec R' r = asVec R' ε + A' *ᵥ fun c : Fin N' => e c) :
    asVec R r = (1 - A * ((Aᵀ * A)⁻¹ * Aᵀ)) *ᵥ asVec R ε := by
  subst hR hN
  obtain rfl : A' = A := Matrix.ext fun a c => h a c a c rfl rfl
  rw [hr, he, mulVec_neg, mulVec_mulVec, mulVec_mulVec, sub_mulVec, one_mulVec, sub_eq_add_neg, Matrix.mul_assoc]

/-- Equal matrices give equal errors. -/
theorem gain_congr {R N R' N' : Nat} {A : Matrix (Fin R) (Fin N) ℝ} {A' : Matrix (Fin R') (Fin N') ℝ} (hR : R' = R) (hN : N' = N)
    (h : ∀ (a : Fin R) (c : Fin N) (a' : Fin R') (c' : Fin N'), (a : Nat) = a' → (c : Nat) = c' → A' a' c' = A a c) (e : Nat → ℝ)
    (ε : List ℝ) (he : (fun c : Fin N' => e c) = -((A'ᵀ * A')⁻¹ *ᵥ (A'ᵀ *ᵥ asVec R' ε))) :
    (fun c : Fin N => e c) = -((Aᵀ * A)⁻¹ *ᵥ (Aᵀ *ᵥ asVec R ε)) := by
  subst hR hN
  obtain rfl : A' = A := Matrix.ext fun a c => h a c a c rfl rfl
  exact he

end Factorama
