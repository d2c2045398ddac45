import Verif.Lemmas.Rotation

/-!
# Exponential and logarithm are inverse to each other
-/

namespace Factorama.Geo
open Matrix Spec

theorem PI_bounds : 3.1415 < PI ∧ PI < Real.pi ∧ Real.pi < PI + 1e-15 := by
  unfold PI
  refine ⟨by norm_num, ?_, ?_⟩
  · exact lt_of_le_of_lt (by norm_num) Real.pi_gt_d20
  · exact lt_trans Real.pi_lt_d20 (by norm_num)

/-- Both trigonometric functions of `atan2` on the unit circle. -/
theorem atan2_unit {x y : ℝ} (h : x ^ 2 + y ^ 2 = 1) :
    Real.cos (atan2 y x) = x ∧ Real.sin (atan2 y x) = y := by
  have hn : ‖(⟨x, y⟩ : ℂ)‖ = 1 := by
    rw [Complex.norm_def, Complex.normSq_mk, show x * x + y * y = 1 by linarith [h, sq x, sq y], Real.sqrt_one]
  have h0 : (⟨x, y⟩ : ℂ) ≠ 0 := by intro h0; rw [h0] at hn; simp at hn
  constructor
  · unfold atan2; rw [Complex.cos_arg h0, hn]; simp
  · unfold atan2; rw [Complex.sin_arg, hn]; simp

theorem toMatrix_eq_rodrigues {aa : AngleAxis} (h : aa.axis ⬝ᵥ aa.axis = 1) :
    aa.toMatrix = rodrigues aa.axis aa.angle := by
  rw [rodrigues_eq _ h]
  unfold AngleAxis.toMatrix
  ext i j
  fin_cases i <;> fin_cases j <;> simp <;> ring

theorem trace_rodrigues {a : V3} (ha : a ⬝ᵥ a = 1) (θ : ℝ) : (rodrigues a θ).trace = 1 + 2 * Real.cos θ := by
  rw [rodrigues_eq a ha, trace3]
  rw [dot3] at ha
  simp
  linear_combination (1 - Real.cos θ) * ha

theorem anti_rodrigues {a : V3} (ha : a ⬝ᵥ a = 1) (θ : ℝ) : anti (rodrigues a θ) = (2 * Real.sin θ) • a := by
  rw [rodrigues_eq a ha]
  funext i
  fin_cases i <;> simp [anti] <;> ring

theorem angle_rodrigues {a : V3} (ha : a ⬝ᵥ a = 1) {θ : ℝ} (h0 : 0 ≤ θ) (h1 : θ ≤ Real.pi) :
    angle (rodrigues a θ) = θ := by
  rw [angle, trace_rodrigues ha, show (1 + 2 * Real.cos θ - 1) / 2 = Real.cos θ by ring, Real.arccos_cos h0 h1]

/-- The angle-axis conversion returns a unit axis, the rotation angle in `[0, π]`, and represents the matrix. -/
theorem angleAxis_spec {R : M3} (h : RotEqs R) :
    (angleAxisOfMatrix R).axis ⬝ᵥ (angleAxisOfMatrix R).axis = 1 ∧ (angleAxisOfMatrix R).angle = angle R ∧
    rodrigues (angleAxisOfMatrix R).axis (angleAxisOfMatrix R).angle = R := by
  obtain ⟨hq1, hq2⟩ := quatOfMatrix_spec h
  suffices hs : (angleAxisOfMatrix R).axis ⬝ᵥ (angleAxisOfMatrix R).axis = 1 ∧
      (0 ≤ (angleAxisOfMatrix R).angle ∧ (angleAxisOfMatrix R).angle ≤ Real.pi) ∧
      rodrigues (angleAxisOfMatrix R).axis (angleAxisOfMatrix R).angle = R by
    obtain ⟨h1, ⟨h2, h3⟩, h4⟩ := hs
    refine ⟨h1, ?_, h4⟩
    conv_rhs => rw [← h4]
    exact (angle_rodrigues h1 h2 h3).symm
  unfold angleAxisOfMatrix
  generalize quatOfMatrix R = q at *
  by_cases hn : vnorm q.vec = 0
  · have hv : q.vec = 0 := vnorm_eq_zero.mp hn
    have he : angleAxisOfQuat q = ⟨0, ![1, 0, 0]⟩ := by unfold angleAxisOfQuat; simp only [hn, if_true]
    rw [he]
    refine ⟨by simp, ⟨le_refl _, Real.pi_pos.le⟩, ?_⟩
    rw [← hq2, Quat.matrix, hv]
    ext i j
    fin_cases i <;> fin_cases j <;> simp [rodrigues, skew]
  · have he : angleAxisOfQuat q = ⟨2 * atan2 (vnorm q.vec) |q.w|,
        vdiv q.vec (if q.w < 0 then -vnorm q.vec else vnorm q.vec)⟩ := by
      unfold angleAxisOfQuat; simp only [hn, if_false]
    obtain ⟨σ, hσ, hσw, hσn⟩ : ∃ σ : ℝ, σ * σ = 1 ∧ |q.w| = σ * q.w ∧
        (if q.w < 0 then -vnorm q.vec else vnorm q.vec) = σ * vnorm q.vec := by
      by_cases hw : q.w < 0
      · exact ⟨-1, by ring, by rw [abs_of_neg hw]; ring, by rw [if_pos hw]; ring⟩
      · exact ⟨1, by ring, by rw [abs_of_nonneg (not_lt.mp hw)]; ring, by rw [if_neg hw]; ring⟩
    rw [he]
    have hσ0 : σ ≠ 0 := by intro h0; rw [h0] at hσ; norm_num at hσ
    have hnv := vnorm_sq q.vec
    have hn0 := vnorm_nonneg q.vec
    have hcirc : |q.w| ^ 2 + vnorm q.vec ^ 2 = 1 := by rw [sq_abs, hnv]; exact hq1
    obtain ⟨hcos, hsin⟩ := atan2_unit hcirc
    have hrange : 0 ≤ atan2 (vnorm q.vec) |q.w| ∧ atan2 (vnorm q.vec) |q.w| ≤ Real.pi / 2 := by
      constructor
      · exact Complex.arg_nonneg_iff.mpr hn0
      · exact Complex.arg_le_pi_div_two_iff.mpr (Or.inl (abs_nonneg _))
    rw [hσn]
    have hunit : vdiv q.vec (σ * vnorm q.vec) ⬝ᵥ vdiv q.vec (σ * vnorm q.vec) = 1 := by
      rw [vdiv_eq_smul, smul_dotProduct, dotProduct_smul, smul_eq_mul, smul_eq_mul, ← hnv]
      field_simp; rw [sq, hσ]
    refine ⟨hunit, ⟨by dsimp only; linarith, by dsimp only; linarith⟩, ?_⟩
    dsimp only
    rw [← hq2, Quat.matrix, rodrigues, Real.sin_two_mul, Real.cos_two_mul, hcos, hsin, vdiv_eq_smul, skew_smul, hσw]
    have e1 : (2 * vnorm q.vec * (σ * q.w)) • (σ * vnorm q.vec)⁻¹ • skew q.vec = (2 * q.w) • skew q.vec := by
      rw [smul_smul]; congr 1; field_simp
    have e2 : (1 - (2 * (σ * q.w) ^ 2 - 1)) • ((σ * vnorm q.vec)⁻¹ • skew q.vec * (σ * vnorm q.vec)⁻¹ • skew q.vec)
        = (2 : ℝ) • (skew q.vec * skew q.vec) := by
      rw [Matrix.smul_mul, Matrix.mul_smul, smul_smul, smul_smul]
      congr 1
      have h1 : (1 - (2 * (σ * q.w) ^ 2 - 1)) = 2 * vnorm q.vec ^ 2 := by
        rw [hσw] at hcirc; linear_combination -2 * hcirc
      have h2 : ((σ * vnorm q.vec)⁻¹ * (σ * vnorm q.vec)⁻¹) = (vnorm q.vec ^ 2)⁻¹ := by
        rw [← mul_inv]; congr 1; linear_combination vnorm q.vec ^ 2 * hσ
      rw [mul_assoc, h2, h1]; field_simp
    rw [e1, e2]

/-- `LogMapSO3` returns the rotation vector: the angle times a unit axis that generates `R`. -/
theorem log_spec {R : M3} (h : RotEqs R) (hθ : 1e-5 ≤ angle R) :
    ∃ a : V3, a ⬝ᵥ a = 1 ∧ logSO3 R = angle R • a ∧ rodrigues a (angle R) = R := by
  have hang := log_angle h
  unfold logSO3
  simp only [hang]
  rw [if_neg (not_lt.mpr hθ)]
  by_cases hpi : |angle R - PI| < 1e-3
  · rw [if_pos hpi]
    obtain ⟨h1, h2, h3⟩ := angleAxis_spec h
    exact ⟨(angleAxisOfMatrix R).axis, h1, by rw [h2], by rw [h2] at h3; exact h3⟩
  · rw [if_neg hpi]
    have hlt : angle R < Real.pi := by
      rcases lt_or_eq_of_le (angle_le_pi R) with hl | hl
      · exact hl
      · exfalso; apply hpi; rw [hl, abs_lt]
        have := PI_bounds
        constructor <;> linarith
    have hs : 0 < Real.sin (angle R) := Real.sin_pos_of_pos_of_lt_pi (lt_of_lt_of_le (by norm_num) hθ) hlt
    obtain ⟨h1, h2⟩ := rodrigues_anti h hs.ne'
    refine ⟨_, h1, ?_, h2⟩
    rw [unskew_smul, unskew_anti, smul_smul]
    congr 1

/-- Below the threshold the logarithm is the antisymmetric part: the axis times the sine. -/
theorem log_small {R : M3} (h : RotEqs R) (hθ : angle R < 1e-5) : logSO3 R = (0.5 : ℝ) • anti R := by
  have hang := log_angle h
  unfold logSO3
  simp only [hang]
  rw [if_pos hθ, unskew_smul, unskew_anti]

theorem vnorm_log {R : M3} (h : RotEqs R) (hθ : 1e-5 ≤ angle R) : vnorm (logSO3 R) = angle R := by
  obtain ⟨a, h1, h2, _⟩ := log_spec h hθ
  rw [h2, vnorm_smul, vnorm_unit h1, mul_one, abs_of_nonneg (angle_nonneg R)]

theorem exp_log {R : M3} (h : RotEqs R) (hθ : 1e-5 ≤ angle R) : expSO3 (logSO3 R) = R := by
  obtain ⟨a, h1, h2, h3⟩ := log_spec h hθ
  rw [h2, exp_of_axis h1 (le_trans (by norm_num) hθ), h3]

theorem log_rodrigues {a : V3} (ha : a ⬝ᵥ a = 1) {θ : ℝ} (h0 : 1e-5 ≤ θ) (h1 : θ < Real.pi) :
    logSO3 (rodrigues a θ) = θ • a := by
  have hpos : 0 < θ := lt_of_lt_of_le (by norm_num) h0
  have hR := IsRotation.eqs (rodrigues_rotation ha θ)
  have hang := angle_rodrigues ha hpos.le h1.le
  obtain ⟨b, hb1, hb2, hb3⟩ := log_spec hR (by rw [hang]; exact h0)
  rw [hang] at hb2 hb3
  rw [hb2]
  have e : anti (rodrigues b θ) = anti (rodrigues a θ) := by rw [hb3]
  rw [anti_rodrigues hb1, anti_rodrigues ha] at e
  have hs : Real.sin θ ≠ 0 := (Real.sin_pos_of_pos_of_lt_pi hpos h1).ne'
  have : b = a := smul_right_injective _ (show (2 * Real.sin θ) ≠ 0 by positivity) e
  rw [this]

theorem log_exp {w : V3} (h0 : 1e-5 ≤ vnorm w) (h1 : vnorm w < Real.pi) : logSO3 (expSO3 w) = w := by
  have hn : vnorm w ≠ 0 := (lt_of_lt_of_le (by norm_num) h0).ne'
  rw [exp_eq_rodrigues (le_trans (by norm_num) h0), log_rodrigues (axis_of hn).1 h0 h1, (axis_of hn).2]

/-- For short vectors the round trip shortens: `θ` becomes `sin θ`. -/
theorem log_exp_small {w : V3} (h0 : 1e-10 ≤ vnorm w) (h1 : vnorm w < 1e-5) :
    logSO3 (expSO3 w) = (Real.sin (vnorm w) / vnorm w) • w := by
  have hn : vnorm w ≠ 0 := (lt_of_lt_of_le (by norm_num) h0).ne'
  obtain ⟨ha, hw⟩ := axis_of hn
  rw [exp_eq_rodrigues h0]
  have hR := IsRotation.eqs (rodrigues_rotation ha (vnorm w))
  have hang := angle_rodrigues ha (vnorm_nonneg w) (by linarith [Real.pi_gt_three] : vnorm w ≤ Real.pi)
  rw [log_small hR (by rw [hang]; exact h1), anti_rodrigues ha, vdiv_eq_smul, smul_smul, smul_smul]
  congr 1; field_simp; norm_num

end Factorama.Geo
