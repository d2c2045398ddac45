import Verif.Spec.Conditioning
import Verif.Spec.Steps
import Verif.Lemmas.Pivots
import Verif.Props.NormalEquations

/-!
# C85: which linear systems are refused

The optimizer looks at the pivots of the factorisation: the smallest must not be below `10⁻¹⁴`, and the largest must not be
more than `10¹²` times the smallest (SINGULAR_HESSIAN and ILL_CONDITIONED otherwise).
-/

namespace Factorama.Props
open Spec Matrix
variable {Fact : Type} {L : LinAlg ℝ Fact}

/-- Pivots within the limits are accepted. -/
theorem C85.accepted {D : List ℝ} {low high : ℝ} (hne : D ≠ []) (hlow : 1 / 10 ^ 14 ≤ low) (hhigh : high ≤ 10 ^ 12 * low)
    (h : ∀ p ∈ D, low ≤ p ∧ p ≤ high) : PivotsLarge realArith D ∧ PivotsBalanced realArith D := by
  have h0 : (0 : ℝ) < 1 / 10 ^ 14 := by positivity
  have e : D.map realArith.abs = D := by
    refine (List.map_congr_left fun p hp => ?_).trans (List.map_id D)
    exact abs_of_pos (by have := (h p hp).1; linarith)
  have h1 := h _ (min_mem hne)
  have h2 := h _ (max_mem hne)
  rw [PivotsLarge, PivotsBalanced, e]
  constructor
  · show decide (realArith.minCoeff D < ((1 / 10 ^ 14 : ℚ) : ℝ)) = false
    rw [decide_eq_false_iff_not]
    push_cast
    linarith
  · show decide (((10 ^ 12 : ℚ) : ℝ) < realArith.maxCoeff D / realArith.minCoeff D) = false
    rw [decide_eq_false_iff_not, lt_div_iff₀ (by linarith)]
    push_cast
    linarith

/-- A system with matrix `JᵀJ + λ 1` whose eigenvalues are within the limits is accepted. -/
theorem C85.solved (hL : ExactLinAlg L) (hP : ExactPivots L) {J : SpMat ℝ} (hne : 0 < J.columns.length) {low high lambda : ℝ}
    (hb : Between J low high) (h1 : 1 / 10 ^ 14 ≤ low + lambda) (h2 : high + lambda ≤ 10 ^ 12 * (low + lambda)) (H : Mat ℝ)
    (hrows : H.rows = J.columns.length) (hcols : H.cols = J.columns.length)
    (hH : square J.columns.length H = (jacobianMatrix J)ᵀ * jacobianMatrix J + lambda • 1) (r : List ℝ) :
    ∃ d, SystemSolved realArith L H (L.rhs J r) d := by
  have h0 : (0 : ℝ) < 1 / 10 ^ 14 := by positivity
  have hform : ∀ x : Fin J.columns.length → ℝ, x ⬝ᵥ (square J.columns.length H *ᵥ x) =
      (jacobianMatrix J *ᵥ x) ⬝ᵥ (jacobianMatrix J *ᵥ x) + lambda * (x ⬝ᵥ x) := fun x => by
    rw [hH, add_mulVec, smul_mulVec, one_mulVec, dotProduct_add, dotProduct_smul, smul_eq_mul, quad_gram]
  have hsym : (square J.columns.length H).IsSymm := by
    rw [hH, IsSymm, transpose_add, gram_symm, transpose_smul, transpose_one]
  have hherm : (square J.columns.length H).IsHermitian := by
    rwa [IsHermitian, conjTranspose_eq_transpose_of_trivial]
  have hpd : (square J.columns.length H).PosDef := .of_dotProduct_mulVec_pos hherm fun x hx => by
    rw [star_trivial, hform]
    have := (hb x).1
    have := sq_pos_dot hx
    nlinarith
  obtain ⟨f, hf⟩ := hL.succeeds _ (hcols.trans hrows.symm) (by rw [hrows]; exact hpd)
  obtain ⟨d, hd, _⟩ := hL.solve _ f (L.rhs J r) (hcols.trans hrows.symm) (by rw [hrows]; exact hsym) hf
    ((hL.rhs_size J r).trans hrows.symm)
  have hldl := hP _ f (hcols.trans hrows.symm) (by rw [hrows]; exact hsym) hf
  rw [hrows] at hldl
  have hbounds := pivot_bounds (low := low + lambda) (high := high + lambda) hldl (by linarith) (fun x => by
      rw [hform]
      have := (hb x).1
      linarith) (fun i => by
      have e := hform (Pi.single i 1)
      have := (hb (Pi.single i 1)).2
      rw [mulVec_single_one, single_dotProduct, one_mul, col_apply, single_dotProduct, Pi.single_eq_same, mul_one, mul_one] at e
      rw [single_dotProduct, Pi.single_eq_same, mul_one, mul_one] at this
      linarith)
  have hDne : L.vectorD f ≠ [] := by
    intro e
    have := hldl.1
    rw [e] at this
    simp at this
    omega
  have hacc := C85.accepted hDne h1 h2 hbounds
  exact ⟨d, f, hf, hacc.1, hacc.2, hd⟩

/-- **C85, the part that holds**: a well-conditioned Gauss-Newton system is accepted, and with any positive damping the
damped system is accepted as well. -/
theorem C85_accepted_partial (hL : ExactLinAlg L) (hP : ExactPivots L) {J : SpMat ℝ} (hne : 0 < J.columns.length)
    (hw : WellConditioned J) (r : List ℝ) :
    (∃ d, SystemSolved realArith L (L.gram J) (L.rhs J r) d) ∧
    ∀ lambda > 0, ∃ d, SystemSolved realArith L (damped realArith (L.gram J) lambda) (L.rhs J r) d := by
  obtain ⟨low, high, hb, h1, h2⟩ := hw
  have hsz := hL.gram_size J
  refine ⟨C85.solved hL hP hne (lambda := 0) hb (by linarith) (by linarith) _ hsz.1 hsz.2 (by rw [hL.gram]; simp) r,
    fun lambda hl => C85.solved hL hP hne (lambda := lambda) hb (by linarith) (by linarith)
      (damped realArith (L.gram J) lambda) hsz.1 hsz.2 (square_damped hL J lambda) r⟩

/-- **C85, the part that holds**, the same read the other way: when a system is refused, some eigenvalue of `JᵀJ` is below
`10⁻¹⁴` or two differ by a factor of more than `10¹²`. -/
theorem C85_refused_partial (hL : ExactLinAlg L) (hP : ExactPivots L) {J : SpMat ℝ} (hne : 0 < J.columns.length) (r : List ℝ)
    (status : Status) (h : SystemRefused realArith L (L.gram J) (L.rhs J r) status) : ¬ WellConditioned J := by
  intro hw
  obtain ⟨d, f, hf, h1, h2, h3⟩ := (C85_accepted_partial hL hP hne hw r).1
  cases h with
  | noFactorisation e => rw [hf] at e; cases e
  | singular e h => obtain rfl := Option.some.inj (hf.symm.trans e); exact h h1
  | unbalanced e _ h => obtain rfl := Option.some.inj (hf.symm.trans e); exact h h2
  | noSolution e _ _ h =>
    obtain rfl := Option.some.inj (hf.symm.trans e)
    rw [h3] at h; cases h

/-- Two equal columns: the system is refused, and so it is not well conditioned. -/
example (r : List ℝ) : ¬ WellConditioned (⟨1, [⟨1, [(0, 1)]⟩, ⟨1, [(0, 1)]⟩], 2⟩ : SpMat ℝ) := by
  refine C85_refused_partial Ldlt.exact Ldlt.exact_pivots (by simp) r .failed (.noFactorisation ?_)
  cases h : (Ldlt.linAlg (F := ℝ)).factorize _ with
  | none => rfl
  | some f =>
    have := congrFun ((C25_full_rank Ldlt.exact _).1 ⟨f, h⟩ (fun c => if c.1 = 0 then 1 else -1) (by
      funext a
      match a with
      | ⟨0, _⟩ => simp [mulVec, dotProduct, jacobianMatrix, SpMat.coeff, Fin.sum_univ_succ])) ⟨0, by simp⟩
    simp at this

/-! ### Where it fails -/

namespace C85
/-- `[[1, 1], [0, a]]`: for small `a`, two almost dependent columns. -/
noncomputable def jac (a : ℝ) : SpMat ℝ := ⟨2, [⟨1, [(0, 1)]⟩, ⟨2, [(0, 1), (1, a)]⟩], 3⟩

/-- The same as a matrix. -/
noncomputable def mat (a : ℝ) : Matrix (Fin 2) (Fin 2) ℝ := jacobianMatrix (jac a)

theorem mat_eq (a : ℝ) : mat a = !![1, 1; 0, a] := by
  ext i j
  match i, j with
  | ⟨0, _⟩, ⟨0, _⟩ => rfl
  | ⟨0, _⟩, ⟨1, _⟩ => rfl
  | ⟨1, _⟩, ⟨0, _⟩ => rfl
  | ⟨1, _⟩, ⟨1, _⟩ => rfl

theorem mat_mulVec (a : ℝ) (x : Fin 2 → ℝ) : mat a *ᵥ x = ![x 0 + x 1, a * x 1] := by
  rw [mat_eq]
  ext i
  fin_cases i <;> simp [mulVec, dotProduct, Fin.sum_univ_two]

theorem injective {a : ℝ} (ha : a ≠ 0) (x : Fin 2 → ℝ) (h0 : mat a *ᵥ x = 0) : x = 0 := by
  rw [mat_mulVec] at h0
  have h1 := congrFun h0 0
  have h2 := congrFun h0 1
  simp only [cons_val_zero, cons_val_one, Pi.zero_apply] at h1 h2
  have h3 := (mul_eq_zero.1 h2).resolve_left ha
  rw [h3, add_zero] at h1
  funext i
  match i with
  | 0 => exact h1
  | 1 => exact h3

theorem between (a low high : ℝ) (h : Between (jac a) low high) (x : Fin 2 → ℝ) :
    low * (x ⬝ᵥ x) ≤ (mat a *ᵥ x) ⬝ᵥ (mat a *ᵥ x) ∧ (mat a *ᵥ x) ⬝ᵥ (mat a *ᵥ x) ≤ high * (x ⬝ᵥ x) := h x

theorem between' (a low high : ℝ) (h : ∀ x : Fin 2 → ℝ,
    low * (x ⬝ᵥ x) ≤ (mat a *ᵥ x) ⬝ᵥ (mat a *ᵥ x) ∧ (mat a *ᵥ x) ⬝ᵥ (mat a *ᵥ x) ≤ high * (x ⬝ᵥ x)) :
    Between (jac a) low high := h

theorem gram_mat (a : ℝ) : ((!![1, 1; 0, a] : Matrix (Fin 2) (Fin 2) ℝ)ᵀ * !![1, 1; 0, a]) = !![1, 1; 1, 1 + a * a] := by
  ext i j
  fin_cases i <;> fin_cases j <;> simp [Matrix.mul_apply, Fin.sum_univ_two]

/-- The pivots of a matrix of size 2, in either order. -/
theorem pivots_two {p q r : ℝ} {D : List ℝ} (hp : p ≠ 0) (hr : r ≠ 0)
    (h : IsLDLT (!![p, q; q, r] : Matrix (Fin 2) (Fin 2) ℝ) D) :
    D = [p, r - q * q / p] ∨ D = [r, p - q * q / r] := by
  obtain ⟨hl, σ, T, h1, h2, h3⟩ := h
  match D, hl with
  | [x, y], _ =>
    have e : ∀ i j, (!![p, q; q, r] : Matrix (Fin 2) (Fin 2) ℝ) (σ i) (σ j) = T i 0 * x * T j 0 + T i 1 * y * T j 1 := by
      intro i j
      have := congrFun (congrFun h3 i) j
      rw [submatrix_apply, mul_apply, Fin.sum_univ_two] at this
      simpa [mul_diagonal, asVec] using this
    have e00 := e 0 0
    have e01 := e 0 1
    have e11 := e 1 1
    rw [h1, h2 0 1 (by decide)] at e00 e01
    rw [h1] at e11
    have hs : (σ 0 = 0 ∧ σ 1 = 1) ∨ (σ 0 = 1 ∧ σ 1 = 0) := by
      have : σ 0 ≠ σ 1 := fun h => by have := σ.injective h; simp at this
      have a := Fin.exists_fin_two.1 ⟨σ 0, rfl⟩
      have b := Fin.exists_fin_two.1 ⟨σ 1, rfl⟩
      omega
    rcases hs with ⟨s0, s1⟩ | ⟨s0, s1⟩
    · left
      simp only [s0, s1, of_apply, cons_val_zero, cons_val_one, one_mul, mul_one, zero_mul, mul_zero, add_zero] at e00 e01 e11
      subst e00
      have ht : T 1 0 = q / p := by field_simp; linarith
      rw [ht] at e11
      have : y = r - q * q / p := by rw [e11]; field_simp; ring
      rw [this]
    · right
      simp only [s0, s1, of_apply, cons_val_zero, cons_val_one, one_mul, mul_one, zero_mul, mul_zero, add_zero] at e00 e01 e11
      subst e00
      have ht : T 1 0 = q / r := by field_simp; linarith
      rw [ht] at e11
      have : y = p - q * q / r := by rw [e11]; field_simp; ring
      rw [this]
end C85

/-- **C85 is false** the other way: whatever exact solver is used, there is a system whose eigenvalues differ by a factor of
more than `10¹²` and that is accepted, because the pivots are not the eigenvalues. -/
theorem C85_false (hL : ExactLinAlg L) (hP : ExactPivots L) :
    ¬ ∀ (J : SpMat ℝ) (r d : List ℝ), SystemSolved realArith L (L.gram J) (L.rhs J r) d → WellConditioned J := by
  intro H
  set a : ℝ := 12 / 10 ^ 7
  have hw : ¬ WellConditioned (C85.jac a) := by
    rintro ⟨low, high, hb, h1, h2⟩
    have hv : ∀ x y : ℝ, low * (x * x + y * y) ≤ (x + y) * (x + y) + a * y * (a * y) ∧
        (x + y) * (x + y) + a * y * (a * y) ≤ high * (x * x + y * y) := by
      intro x y
      have h := C85.between a low high hb ![x, y]
      rw [C85.mat_mulVec] at h
      simpa [dotProduct, Fin.sum_univ_two] using h
    have g1 := (hv (-1) 1).1
    have g2 := (hv 1 1).2
    have ha : a * a = 144 / 10 ^ 14 := by simp only [a]; norm_num
    norm_num [ha] at g1 g2
    linarith
  have hsz := hL.gram_size (C85.jac a)
  have hg : square 2 (L.gram (C85.jac a)) = !![1, 1; 1, 1 + a * a] := by
    have e : square 2 (L.gram (C85.jac a)) = (C85.mat a)ᵀ * C85.mat a := hL.gram (C85.jac a)
    rw [e, C85.mat_eq, C85.gram_mat]
  obtain ⟨f, hf⟩ : ∃ f, L.factorize (L.gram (C85.jac a)) = some f := by
    refine (C25_full_rank hL _).2 fun x hx => ?_
    exact C85.injective (by simp only [a]; norm_num) x hx
  obtain ⟨d, hd, _⟩ := C25_gauss_newton hL (C85.jac a) [] f hf
  have hsym : (square (L.gram (C85.jac a)).rows (L.gram (C85.jac a))).IsSymm := by
    rw [hsz.1, hL.gram]; exact gram_symm _
  have hldl := hP _ f (hsz.2.trans hsz.1.symm) hsym hf
  rw [hsz.1] at hldl
  have hldl' : IsLDLT (square 2 (L.gram (C85.jac a))) (L.vectorD f) := hldl
  rw [hg] at hldl'
  have hacc : PivotsLarge realArith (L.vectorD f) ∧ PivotsBalanced realArith (L.vectorD f) := by
    have ha : a * a = 144 / 10 ^ 14 := by simp only [a]; norm_num
    rw [ha] at hldl'
    rcases C85.pivots_two one_ne_zero (by norm_num) hldl' with e | e
    · rw [e]
      refine C85.accepted (low := 144 / 10 ^ 14) (high := 1) (by simp) (by norm_num) (by norm_num) ?_
      intro p hp
      simp only [List.mem_cons, List.not_mem_nil, or_false] at hp
      rcases hp with rfl | rfl <;> norm_num
    · rw [e]
      refine C85.accepted (low := 14 / 10 ^ 13) (high := 11 / 10) (by simp) (by norm_num) (by norm_num) ?_
      intro p hp
      simp only [List.mem_cons, List.not_mem_nil, or_false] at hp
      rcases hp with rfl | rfl <;> norm_num
  exact hw (H _ [] d ⟨f, hf, hacc.1, hacc.2, hd⟩)

/-- Elimination is such a solver. -/
example : ¬ ∀ (J : SpMat ℝ) (r d : List ℝ),
    SystemSolved realArith Ldlt.linAlg (Ldlt.linAlg.gram J) (Ldlt.linAlg.rhs J r) d → WellConditioned J :=
  C85_false Ldlt.exact Ldlt.exact_pivots

/-- A well-conditioned Jacobian. -/
theorem C85.well : WellConditioned (C85.jac 1) := by
  refine ⟨1 / 4, 4, C85.between' _ _ _ fun y => ?_, by norm_num, by norm_num⟩
  rw [C85.mat_mulVec]
  simp only [dotProduct, Fin.sum_univ_two, cons_val_zero, cons_val_one]
  constructor
  · nlinarith [sq_nonneg (3 * y 0 + 4 * y 1), sq_nonneg (y 0 + 2 * y 1), sq_nonneg (y 1)]
  · nlinarith [sq_nonneg (y 0 - y 1), sq_nonneg (y 1), sq_nonneg (y 0)]

example : ∃ d, SystemSolved realArith Ldlt.linAlg (Ldlt.linAlg.gram (C85.jac 1)) (Ldlt.linAlg.rhs (C85.jac 1) [4, 5]) d :=
  (C85_accepted_partial Ldlt.exact Ldlt.exact_pivots (by decide) C85.well [4, 5]).1

/-- The system of a Jacobian whose second column is zero is refused. -/
example : ∃ status, SystemRefused realArith Ldlt.linAlg (Ldlt.linAlg.gram (⟨1, [⟨1, [(0, 1)]⟩, ⟨0, []⟩], 1⟩ : SpMat ℝ))
    (Ldlt.linAlg.rhs (⟨1, [⟨1, [(0, 1)]⟩, ⟨0, []⟩], 1⟩ : SpMat ℝ) [4]) status := by
  refine ⟨.failed, .noFactorisation ?_⟩
  cases h : (Ldlt.linAlg : LinAlg ℝ (Ldlt.Fact ℝ)).factorize (Ldlt.linAlg.gram (⟨1, [⟨1, [(0, 1)]⟩, ⟨0, []⟩], 1⟩ : SpMat ℝ)) with
  | none => rfl
  | some f =>
    have := (C25_full_rank Ldlt.exact _).1 ⟨f, h⟩ (![0, 1] : Fin 2 → ℝ) (by
      funext i
      match i with
      | ⟨0, _⟩ => simp [mulVec, dotProduct, jacobianMatrix, SpMat.coeff])
    have := congrFun this (1 : Fin 2)
    simp at this

end Factorama.Props
