import Verif.Lemmas.LogDeriv
import Verif.Lemmas.Wrap

/-!
# Rotation maps: C32 – C36

The statements use Mathlib's matrices, `Real.sin`, `Real.cos`, `HasFDerivAt` and the vocabulary of
`Verif/Spec/Geometry.lean` (`IsRotation`, `rodrigues`, `angle`, `length`).
-/

namespace Factorama.Props
open Matrix Spec Geo Topology

/-- **C32** (rotation vectors that are not tiny). `ExpMapSO3` returns a rotation matrix: the rotation about the
direction of the argument by its length. -/
theorem C32_rotation (w : V3) (h : 1e-10 ≤ length w) :
    IsRotation (expSO3 w) ∧ ∃ a : V3, length a = 1 ∧ w = length w • a ∧ expSO3 w = rodrigues a (length w) := by
  rw [length_eq] at *
  have hn : vnorm w ≠ 0 := (lt_of_lt_of_le (by norm_num) h).ne'
  obtain ⟨ha, hw⟩ := axis_of hn
  refine ⟨by rw [exp_eq_rodrigues h]; exact rodrigues_rotation ha _, vdiv w (vnorm w), ?_, hw.symm, exp_eq_rodrigues h⟩
  rw [length_eq]; exact vnorm_unit ha

/-- **C32** (all vectors). The result differs from an orthogonal matrix by at most the square of the length in every
entry of `R Rᵀ - I`, and only below `1e-10`; there it is `I + skew w`. -/
theorem C32_small (w : V3) (h : length w < 1e-10) :
    expSO3 w = 1 + skew w ∧ ∀ i j, |(expSO3 w * (expSO3 w)ᵀ - 1) i j| ≤ length w ^ 2 := by
  rw [length_eq] at *
  have he : expSO3 w = 1 + skew w := by unfold expSO3; simp only [h, if_true]
  refine ⟨he, fun i j => ?_⟩
  rw [he, vnorm_sq, dot3]
  have h0 := sq_nonneg (w 0 + w 1); have h1 := sq_nonneg (w 0 - w 1)
  have h2 := sq_nonneg (w 0 + w 2); have h3 := sq_nonneg (w 0 - w 2)
  have h4 := sq_nonneg (w 1 + w 2); have h5 := sq_nonneg (w 1 - w 2)
  have k0 := sq_nonneg (w 0); have k1 := sq_nonneg (w 1); have k2 := sq_nonneg (w 2)
  rw [abs_le]
  fin_cases i <;> fin_cases j <;> simp [skew, Matrix.mul_apply, Fin.sum_univ_three] <;> constructor <;> nlinarith

/-- The rotation by π/2 about the x-axis, as a rotation vector; a case that meets the hypotheses. -/
example : IsRotation (expSO3 ![Real.pi / 2, 0, 0]) :=
  (C32_rotation ![Real.pi / 2, 0, 0] (by
    rw [length_eq]; unfold vnorm
    have : (![Real.pi / 2, 0, 0] : V3) ⬝ᵥ ![Real.pi / 2, 0, 0] = (Real.pi / 2) ^ 2 := by
      rw [dot3]; simp; ring
    rw [this, Real.sqrt_sq (by positivity)]
    linarith [Real.pi_gt_three])).1

/-- A vector below the threshold. -/
example : length (![1e-11, 0, 0] : V3) < 1e-10 := by
  rw [length_eq]; unfold vnorm
  have : (![1e-11, 0, 0] : V3) ⬝ᵥ ![1e-11, 0, 0] = 1e-11 ^ 2 := by rw [dot3]; simp; norm_num
  rw [this, Real.sqrt_sq (by norm_num)]
  norm_num

/-- **C32** (limit of the claim): below the threshold the result is in general not a rotation. -/
theorem C32_small_not_rotation : ¬ IsRotation (expSO3 ![1e-11, 0, 0]) := by
  have hl : length (![1e-11, 0, 0] : V3) < 1e-10 := by
    rw [length_eq]; unfold vnorm
    have : (![1e-11, 0, 0] : V3) ⬝ᵥ ![1e-11, 0, 0] = 1e-11 ^ 2 := by rw [dot3]; simp; norm_num
    rw [this, Real.sqrt_sq (by norm_num)]
    norm_num
  rw [(C32_small _ hl).1]
  intro h
  have := congrFun (congrFun h.1 1) 1
  simp [skew, Matrix.mul_apply, Fin.sum_univ_three] at this
  norm_num at this

/-- **C33** (logarithm, then exponential). For a rotation by at least `1e-5` — up to and including half turns —
`ExpMapSO3(LogMapSO3(R))` is `R`, and the rotation vector is as long as the angle, so at most π. -/
theorem C33_exp_log (R : M3) (hR : IsRotation R) (h : 1e-5 ≤ angle R) :
    expSO3 (logSO3 R) = R ∧ length (logSO3 R) = angle R ∧ length (logSO3 R) ≤ Real.pi := by
  have he := IsRotation.eqs hR
  refine ⟨exp_log he h, ?_, ?_⟩
  · rw [length_eq]; exact vnorm_log he h
  · rw [length_eq, vnorm_log he h]; exact angle_le_pi R

/-- **C33** (exponential, then logarithm). For rotation vectors of length at least `1e-5` and less than π,
`LogMapSO3(ExpMapSO3(w))` is `w`. -/
theorem C33_log_exp (w : V3) (h0 : 1e-5 ≤ length w) (h1 : length w < Real.pi) : logSO3 (expSO3 w) = w := by
  rw [length_eq] at *; exact log_exp h0 h1

/-- **C33** (short vectors): between `1e-10` and `1e-5` the round trip keeps the direction and shortens the length
`θ` to `sin θ`. -/
theorem C33_short (w : V3) (h0 : 1e-10 ≤ length w) (h1 : length w < 1e-5) :
    logSO3 (expSO3 w) = (Real.sin (length w) / length w) • w := by
  rw [length_eq] at *; exact log_exp_small h0 h1

/-- A half turn about the x-axis and a rotation vector meet the hypotheses. -/
example : IsRotation (rodrigues ![1, 0, 0] Real.pi) ∧ 1e-5 ≤ angle (rodrigues ![1, 0, 0] Real.pi) := by
  have ha : (![1, 0, 0] : V3) ⬝ᵥ ![1, 0, 0] = 1 := by simp
  refine ⟨rodrigues_rotation ha _, ?_⟩
  rw [angle_rodrigues ha Real.pi_pos.le le_rfl]
  linarith [Real.pi_gt_three]

theorem length_e0 {c : ℝ} (h : 0 ≤ c) : length (![c, 0, 0] : V3) = c := by
  rw [length_eq]; unfold vnorm
  have : (![c, 0, 0] : V3) ⬝ᵥ ![c, 0, 0] = c ^ 2 := by rw [dot3]; simp; ring
  rw [this, Real.sqrt_sq h]

example : logSO3 (expSO3 ![3, 0, 0]) = ![3, 0, 0] :=
  C33_log_exp _ (by rw [length_e0 (by norm_num)]; norm_num)
    (by rw [length_e0 (by norm_num)]; exact Real.pi_gt_three)

example : logSO3 (expSO3 ![1e-6, 0, 0]) = (Real.sin 1e-6 / 1e-6) • ![1e-6, 0, 0] := by
  have := C33_short ![1e-6, 0, 0] (by rw [length_e0 (by norm_num)]; norm_num)
    (by rw [length_e0 (by norm_num)]; norm_num)
  rwa [length_e0 (by norm_num)] at this

/-- **C34** `skew_symmetric(v)` is linear and antisymmetric and multiplies like the cross product, and `unskew` inverts
it; on an arbitrary matrix `unskew` reads the antisymmetric part. -/
theorem C34_skew (v w : V3) (m : M3) :
    (∀ c d : ℝ, skew (c • v + d • w) = c • skew v + d • skew w) ∧ (skew v)ᵀ = -skew v ∧ skew v *ᵥ w = v ⨯₃ w ∧ unskew (skew v) = v ∧ skew (unskew m) = (1 / 2 : ℝ) • (m - mᵀ) := by
  refine ⟨fun c d => by rw [skew_add, skew_smul, skew_smul], skew_transpose v, skew_mulVec v w, unskew_skew v, ?_⟩
  ext i j
  fin_cases i <;> fin_cases j <;> simp [skew, unskew] <;> norm_num <;> ring

example : skew ![1, 2, 3] *ᵥ ![4, 5, 6] = ![-3, 6, -3] := by
  rw [(C34_skew _ ![4, 5, 6] 0).2.2.1]
  funext i; fin_cases i <;> simp [cross_apply] <;> norm_num

/-- **C35** `compute_inverse_right_jacobian_so3` at the rotation vector of `R` is the derivative of
`d ↦ LogMapSO3(ExpMapSO3(d) R)` at zero, for every rotation by an angle strictly between `1e-5` and `PI - 1e-3`. -/
theorem C35_derivative (R : M3) (hR : IsRotation R) (hreg : Regular R) :
    ∃ J : M3, invJacSO3 (logSO3 R) = .ok J ∧
      HasFDerivAt (fun d : V3 => logSO3 (expSO3 d * R)) (jac J) 0 := by
  have h0 : expSO3 0 * R = R := by rw [exp_zero, one_mul]
  have hM := exp_mul_deriv R
  have := log_deriv (M := fun d => expSO3 d * R) (A := fun u => u) (x := 0)
    (by rw [h0]; exact hM) (by rw [h0]; exact hR) (by rw [h0]; exact hreg)
  obtain ⟨J, hJ1, hJ2⟩ := this
  rw [h0] at hJ1
  exact ⟨J, hJ1, hJ2.hasFDerivAt⟩

/-- A quarter turn meets the hypotheses. -/
example : Regular (rodrigues ![1, 0, 0] (Real.pi / 2)) := by
  have ha : (![1, 0, 0] : V3) ⬝ᵥ ![1, 0, 0] = 1 := by simp
  rw [Regular, angle_rodrigues ha (by positivity) (by linarith [Real.pi_pos])]
  have := PI_bounds
  have := Real.pi_gt_three
  constructor <;> linarith

/-- **C36** `wrap_angle` returns an angle in `(-π, π]` that differs from its argument by a multiple of `2π`. -/
theorem C36_wrap (a : ℝ) :
    -Real.pi < wrapAngle a ∧ wrapAngle a ≤ Real.pi ∧ (∃ n : ℤ, wrapAngle a = a + n * (2 * Real.pi)) ∧
    wrapAngle (wrapAngle a) = wrapAngle a := by
  exact ⟨(wrap_range a).1, (wrap_range a).2, wrap_mod a, wrap_wrap a⟩

example : wrapAngle (Real.pi + 1) = 1 - Real.pi :=
  wrap_unique (n := -1) (by linarith) (by linarith [Real.pi_gt_three]) (by push_cast; ring)

end Factorama.Props
