import Verif.Lemmas.Ldlt
import Verif.Spec.Steps
import Mathlib.Algebra.Order.Star.Real
import Mathlib.Analysis.Calculus.Deriv.Slope
import Mathlib.Analysis.Calculus.Deriv.Add
import Mathlib.Analysis.Calculus.Deriv.Mul
import Mathlib.Analysis.Calculus.Deriv.Prod

/-!
# Facts about normal equations
-/

namespace Factorama
open Matrix Spec

/-- `xᵀAᵀAx = |Ax|²`. -/
theorem quad_gram {m n : Nat} (A : Matrix (Fin m) (Fin n) ℝ) (x : Fin n → ℝ) :
    x ⬝ᵥ ((Aᵀ * A) *ᵥ x) = (A *ᵥ x) ⬝ᵥ (A *ᵥ x) := by
  rw [← mulVec_mulVec, dotProduct_mulVec, vecMul_transpose]

theorem sq_nonneg_dot {n : Nat} (x : Fin n → ℝ) : 0 ≤ x ⬝ᵥ x := by
  simpa using dotProduct_star_self_nonneg x

theorem sq_pos_dot {n : Nat} {x : Fin n → ℝ} (hx : x ≠ 0) : 0 < x ⬝ᵥ x := by
  rcases (sq_nonneg_dot x).lt_or_eq with h | h
  · exact h
  · exact absurd (by simpa using h.symm) hx

theorem gram_symm {m n : Nat} (A : Matrix (Fin m) (Fin n) ℝ) : (Aᵀ * A).IsSymm := by
  rw [IsSymm, transpose_mul, transpose_transpose]

theorem gram_posSemidef {m n : Nat} (A : Matrix (Fin m) (Fin n) ℝ) : (Aᵀ * A).PosSemidef := by
  have := posSemidef_conjTranspose_mul_self A
  rwa [conjTranspose_eq_transpose_of_trivial] at this

theorem damped_posDef {m n : Nat} (A : Matrix (Fin m) (Fin n) ℝ) {lambda : ℝ} (hl : 0 < lambda) :
    (Aᵀ * A + lambda • (1 : Matrix (Fin n) (Fin n) ℝ)).PosDef :=
  Matrix.PosDef.posSemidef_add (gram_posSemidef A) (PosDef.one.smul hl)

theorem gram_posDef {m n : Nat} (A : Matrix (Fin m) (Fin n) ℝ) (hu : IsUnit (Aᵀ * A)) : (Aᵀ * A).PosDef := by
  refine .of_dotProduct_mulVec_pos (gram_posSemidef A).isHermitian fun x hx => ?_
  rw [star_trivial, quad_gram]
  refine sq_pos_dot fun h0 => hx ?_
  refine mulVec_injective_of_isUnit hu ?_
  rw [← mulVec_mulVec, h0, mulVec_zero, mulVec_zero]

/-- The unique solution of `M y = -g` for a positive definite `M` points downhill. -/
theorem posDef_descent {n : Nat} {M : Matrix (Fin n) (Fin n) ℝ} (hM : M.PosDef) {g d : Fin n → ℝ} (hd : M *ᵥ d = -g) :
    (∀ y, M *ᵥ y = -g ↔ y = d) ∧ (g ≠ 0 → g ⬝ᵥ d < 0) ∧ (d = 0 ↔ g = 0) := by
  have hinj := mulVec_injective_of_isUnit hM.isUnit
  have h0 : d = 0 ↔ g = 0 := by
    constructor
    · rintro rfl
      rw [mulVec_zero] at hd
      exact neg_eq_zero.1 hd.symm
    · rintro rfl
      exact hinj (by rw [hd, neg_zero, mulVec_zero])
  refine ⟨fun y => ⟨fun h => hinj (h.trans hd.symm), fun h => h ▸ hd⟩, fun hg => ?_, h0⟩
  have := hM.dotProduct_mulVec_pos (x := d) (fun h => hg (h0.1 h))
  rw [star_trivial, hd, dotProduct_neg] at this
  rw [dotProduct_comm]
  linarith

/-- Half the squared norm changes along a curve at the rate given by the gradient. -/
theorem cost_deriv {m n : Nat} (A : Matrix (Fin m) (Fin n) ℝ) (d : Fin n → ℝ) (rho : ℝ → Fin m → ℝ)
    (h : HasDerivAt rho (A *ᵥ d) 0) :
    HasDerivAt (fun t => 1 / 2 * (rho t ⬝ᵥ rho t)) ((Aᵀ *ᵥ rho 0) ⬝ᵥ d) 0 := by
  have h1 : HasDerivAt (fun t => ∑ i, rho t i * rho t i) (∑ i, ((A *ᵥ d) i * rho 0 i + rho 0 i * (A *ᵥ d) i)) 0 :=
    HasDerivAt.fun_sum fun i _ => (hasDerivAt_pi.1 h i).mul (hasDerivAt_pi.1 h i)
  have h2 := h1.const_mul (1 / 2)
  have e : (Aᵀ *ᵥ rho 0) ⬝ᵥ d = 1 / 2 * ∑ i, ((A *ᵥ d) i * rho 0 i + rho 0 i * (A *ᵥ d) i) := by
    rw [mulVec_transpose, ← dotProduct_mulVec, dotProduct, Finset.mul_sum]
    exact Finset.sum_congr rfl fun i _ => by ring
  rw [e]
  exact h2

/-- A function with negative derivative decreases at first. -/
theorem decreases_of_deriv_neg {f : ℝ → ℝ} {c : ℝ} (h : HasDerivAt f c 0) (hc : c < 0) :
    ∃ b > 0, ∀ t, 0 < t → t < b → f t < f 0 := by
  have := (hasDerivAt_iff_tendsto_slope.1 h).eventually (gt_mem_nhds hc)
  rw [eventually_nhdsWithin_iff, Metric.eventually_nhds_iff] at this
  obtain ⟨b, hb, hh⟩ := this
  refine ⟨b, hb, fun t h0 hlt => ?_⟩
  have h1 := hh (y := t) (by simpa [abs_of_pos h0] using hlt) (by simpa using h0.ne')
  rw [slope_def_field, sub_zero, div_neg_iff] at h1
  rcases h1 with ⟨_, h2⟩ | ⟨h2, _⟩ <;> linarith

/-- The damped matrix of the model. -/
theorem square_damped {Fact : Type} {L : LinAlg ℝ Fact} (hL : ExactLinAlg L) (J : SpMat ℝ) (lambda : ℝ) :
    square J.columns.length (damped realArith (L.gram J) lambda) =
      (jacobianMatrix J)ᵀ * jacobianMatrix J + lambda • (1 : Matrix (Fin J.columns.length) (Fin J.columns.length) ℝ) := by
  rw [← hL.gram J]
  ext i j
  by_cases h : i = j
  · subst h
    simp [square, damped, realArith]
  · have h' : (i : Nat) ≠ j := fun e => h (Fin.ext e)
    simp [square, damped, h, h']

end Factorama
