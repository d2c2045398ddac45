import Verif.Lemmas.NormalEq

/-!
# Property C25: steps exist, are unique and descend

`ExactLinAlg L` (Spec/LinearAlgebra.lean) says that the linear algebra makes no rounding errors; `Ldlt.exact` shows that
elimination in the model is such an algebra. C67 says that the steps of the optimizer are the solutions `d` here.
-/

namespace Factorama.Props
open Spec Matrix
variable {Fact : Type} {L : LinAlg ℝ Fact}

/-- A Jacobian with two rows and two columns: `[[1, 0], [2, 3]]`. -/
noncomputable def C25.jac : SpMat ℝ := ⟨2, [⟨2, [(0, 1), (1, 2)]⟩, ⟨1, [(1, 3)]⟩], 3⟩

/-- The same as a matrix. -/
noncomputable def C25.mat : Matrix (Fin 2) (Fin 2) ℝ := jacobianMatrix C25.jac

theorem C25.mat_eq : C25.mat = !![1, 0; 2, 3] := by
  ext i j
  match i, j with
  | ⟨0, _⟩, ⟨0, _⟩ => rfl
  | ⟨0, _⟩, ⟨1, _⟩ => rfl
  | ⟨1, _⟩, ⟨0, _⟩ => rfl
  | ⟨1, _⟩, ⟨1, _⟩ => rfl

/-- Its gradient for the residual `(4, 5)` is `(14, 15)`. -/
theorem C25.gradient_jac : gradient C25.jac [4, 5] ≠ 0 := by
  intro h
  have h' : (C25.matᵀ *ᵥ asVec 2 [4, 5]) 0 = 0 := congrFun h (0 : Fin 2)
  rw [C25.mat_eq] at h'
  norm_num [asVec, mulVec, dotProduct, Fin.sum_univ_two] at h'

/-- **C25**, Levenberg-Marquardt. For every Jacobian, residual and positive damping the damped matrix is factorised, the
system is solved, the solution is the only one, it is a direction in which the cost falls unless the gradient is zero, and
it is zero exactly if the gradient is. -/
theorem C25_damped (hL : ExactLinAlg L) (J : SpMat ℝ) (r : List ℝ) (lambda : ℝ) (hl : 0 < lambda) :
    ∃ f d, L.factorize (damped realArith (L.gram J) lambda) = some f ∧ L.solve f (L.rhs J r) = some d ∧
      d.length = J.columns.length ∧
      (∀ y : Fin J.columns.length → ℝ, ((jacobianMatrix J)ᵀ * jacobianMatrix J + lambda • 1) *ᵥ y = -gradient J r ↔
        y = asVec J.columns.length d) ∧
      (gradient J r ≠ 0 → gradient J r ⬝ᵥ asVec J.columns.length d < 0) ∧
      (asVec J.columns.length d = 0 ↔ gradient J r = 0) := by
  have hsz := hL.gram_size J
  have hrows : (damped realArith (L.gram J) lambda).rows = J.columns.length := hsz.1
  have hcols : (damped realArith (L.gram J) lambda).cols = (damped realArith (L.gram J) lambda).rows := hsz.2.trans hsz.1.symm
  have hpd : (square J.columns.length (damped realArith (L.gram J) lambda)).PosDef := by
    rw [square_damped hL]; exact damped_posDef _ hl
  obtain ⟨f, hf⟩ := hL.succeeds _ hcols (by rw [hrows]; exact hpd)
  have hsym : (square J.columns.length (damped realArith (L.gram J) lambda)).IsSymm := by
    have := hpd.isHermitian
    rwa [IsHermitian, conjTranspose_eq_transpose_of_trivial] at this
  obtain ⟨d, h1, h2, h3⟩ := hL.solve _ f (L.rhs J r) hcols (by rw [hrows]; exact hsym) hf
    ((hL.rhs_size J r).trans hrows.symm)
  rw [hrows] at h2 h3
  rw [square_damped hL] at h3 hpd
  rw [hL.rhs] at h3
  exact ⟨f, d, hf, h1, h2, posDef_descent hpd h3⟩

/-- The example Jacobian has a step with damping 1, downhill. -/
example : ∃ d : List ℝ, gradient C25.jac [4, 5] ⬝ᵥ asVec 2 d < 0 := by
  obtain ⟨f, d, _, _, _, _, h, _⟩ := C25_damped Ldlt.exact C25.jac [4, 5] 1 one_pos
  exact ⟨d, h C25.gradient_jac⟩

/-- **C25**, Gauss-Newton: the same whenever the factorisation succeeds. -/
theorem C25_gauss_newton (hL : ExactLinAlg L) (J : SpMat ℝ) (r : List ℝ) (f : Fact) (hf : L.factorize (L.gram J) = some f) :
    ∃ d, L.solve f (L.rhs J r) = some d ∧ d.length = J.columns.length ∧
      (∀ y : Fin J.columns.length → ℝ, ((jacobianMatrix J)ᵀ * jacobianMatrix J) *ᵥ y = -gradient J r ↔
        y = asVec J.columns.length d) ∧
      (gradient J r ≠ 0 → gradient J r ⬝ᵥ asVec J.columns.length d < 0) ∧
      (asVec J.columns.length d = 0 ↔ gradient J r = 0) := by
  have hsz := hL.gram_size J
  have hcols : (L.gram J).cols = (L.gram J).rows := hsz.2.trans hsz.1.symm
  have hsym : (square J.columns.length (L.gram J)).IsSymm := by rw [hL.gram]; exact gram_symm _
  have hu := hL.invertible _ f hcols (by rw [hsz.1]; exact hsym) hf
  obtain ⟨d, h1, h2, h3⟩ := hL.solve _ f (L.rhs J r) hcols (by rw [hsz.1]; exact hsym) hf
    ((hL.rhs_size J r).trans hsz.1.symm)
  rw [hsz.1] at h2 h3 hu
  rw [hL.gram] at h3 hu
  rw [hL.rhs] at h3
  exact ⟨d, h1, h2, posDef_descent (gram_posDef _ hu) h3⟩

/-- **C25**: the factorisation of `JᵀJ` succeeds exactly if `J` has full column rank. -/
theorem C25_full_rank (hL : ExactLinAlg L) (J : SpMat ℝ) :
    (∃ f, L.factorize (L.gram J) = some f) ↔ ∀ x, jacobianMatrix J *ᵥ x = 0 → x = 0 := by
  have hsz := hL.gram_size J
  have hcols : (L.gram J).cols = (L.gram J).rows := hsz.2.trans hsz.1.symm
  constructor
  · rintro ⟨f, hf⟩ x hx
    have hsym : (square J.columns.length (L.gram J)).IsSymm := by rw [hL.gram]; exact gram_symm _
    have hu := hL.invertible _ f hcols (by rw [hsz.1]; exact hsym) hf
    rw [hsz.1, hL.gram] at hu
    refine mulVec_injective_of_isUnit hu ?_
    rw [← mulVec_mulVec, hx, mulVec_zero, mulVec_zero]
  · intro h
    refine hL.succeeds _ hcols ?_
    rw [hsz.1, hL.gram]
    refine .of_dotProduct_mulVec_pos (gram_posSemidef _).isHermitian fun x hx => ?_
    rw [star_trivial, quad_gram]
    exact sq_pos_dot fun h0 => hx (h x h0)

/-- The example Jacobian has full rank, so there is a Gauss-Newton step. -/
theorem C25.full_rank_jac : ∃ f, (Ldlt.linAlg : LinAlg ℝ (Ldlt.Fact ℝ)).factorize (Ldlt.linAlg.gram C25.jac) = some f := by
  refine (C25_full_rank Ldlt.exact _).2 fun x hx => ?_
  have h0 : (C25.mat *ᵥ (x : Fin 2 → ℝ)) 0 = 0 := congrFun hx (0 : Fin 2)
  have h1 : (C25.mat *ᵥ (x : Fin 2 → ℝ)) 1 = 0 := congrFun hx (1 : Fin 2)
  rw [C25.mat_eq] at h0 h1
  simp [mulVec, dotProduct, Fin.sum_univ_two] at h0 h1
  rw [h0, mul_zero, zero_add] at h1
  funext i
  match i with
  | ⟨0, _⟩ => exact h0
  | ⟨1, _⟩ => exact (mul_eq_zero.1 h1).resolve_left three_ne_zero

example : ∃ d : List ℝ, d.length = 2 ∧ gradient C25.jac [4, 5] ⬝ᵥ asVec 2 d < 0 := by
  obtain ⟨f, hf⟩ := C25.full_rank_jac
  obtain ⟨d, _, hl, _, h, _⟩ := C25_gauss_newton Ldlt.exact C25.jac [4, 5] f hf
  exact ⟨d, hl, h C25.gradient_jac⟩

/-- **C25**: in a direction `d` with `gradient · d < 0` the cost really falls. If along some curve the residual starts at
`r` with derivative `J d`, then half its squared norm has derivative `gradient · d`, and is smaller than at the start for
all small positive parameters, that is for every small enough learning rate. -/
theorem C25_cost_falls (J : SpMat ℝ) (r : List ℝ) (d : Fin J.columns.length → ℝ) (rho : ℝ → Fin J.rows → ℝ)
    (h0 : rho 0 = asVec J.rows r) (hd : HasDerivAt rho (jacobianMatrix J *ᵥ d) 0) (hneg : gradient J r ⬝ᵥ d < 0) :
    HasDerivAt (fun t => 1 / 2 * (rho t ⬝ᵥ rho t)) (gradient J r ⬝ᵥ d) 0 ∧
    ∃ b > 0, ∀ t, 0 < t → t < b → 1 / 2 * (rho t ⬝ᵥ rho t) < 1 / 2 * (rho 0 ⬝ᵥ rho 0) := by
  have h := cost_deriv (jacobianMatrix J) d rho hd
  rw [h0] at h
  exact ⟨h, decreases_of_deriv_neg h hneg⟩

/-- Along the damped step of the example, the residual of the linear model `r + t J d` falls. -/
example : ∃ d : Fin 2 → ℝ, ∃ b > 0, ∀ t : ℝ, 0 < t → t < b →
    1 / 2 * ((asVec 2 [4, 5] + t • (C25.mat *ᵥ d)) ⬝ᵥ (asVec 2 [4, 5] + t • (C25.mat *ᵥ d))) <
      1 / 2 * ((asVec 2 [4, 5] + (0 : ℝ) • (C25.mat *ᵥ d)) ⬝ᵥ
        (asVec 2 [4, 5] + (0 : ℝ) • (C25.mat *ᵥ d))) := by
  obtain ⟨f, d, _, _, _, _, h, _⟩ := C25_damped Ldlt.exact C25.jac [4, 5] 1 one_pos
  refine ⟨asVec 2 d, (C25_cost_falls C25.jac [4, 5] (asVec 2 d)
    (fun t => asVec 2 [4, 5] + t • (C25.mat *ᵥ asVec 2 d)) (by rw [zero_smul, add_zero]; rfl) ?_
    (h C25.gradient_jac)).2⟩
  have := ((hasDerivAt_id (0 : ℝ)).smul_const (C25.mat *ᵥ asVec 2 d)).const_add (asVec 2 [4, 5])
  rw [one_smul] at this
  exact this

end Factorama.Props
