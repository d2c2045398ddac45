import Verif.Lemmas.Calculus

/-!
# The derivative of the logarithm
-/

namespace Factorama.Geo
open Matrix Spec Topology Filter

variable {E : Type*} [NormedAddCommGroup E] [NormedSpace ℝ E]

/-- The matrix `compute_inverse_right_jacobian_so3` returns for the rotation vector `θ a`. -/
noncomputable def invJacAxis (a : V3) (θ : ℝ) : M3 :=
  (θ / 2 * (Real.tan (θ / 2))⁻¹) • (1 : M3) + (1 - θ / 2 * (Real.tan (θ / 2))⁻¹) • vecMulVec a a - (θ / 2) • skew a

theorem tan_ge_self {x : ℝ} (h0 : 0 ≤ x) (h1 : x < Real.pi / 2) : x ≤ Real.tan x := by
  rcases eq_or_lt_of_le h0 with rfl | h0
  · simp
  · exact (Real.lt_tan h0 h1).le

theorem invJac_axis {a : V3} (ha : a ⬝ᵥ a = 1) {θ : ℝ} (h0 : 1e-8 ≤ θ) (h1 : θ < Real.pi) :
    invJacSO3 (θ • a) = .ok (invJacAxis a θ) := by
  have hpos : 0 < θ := lt_of_lt_of_le (by norm_num) h0
  have hn : vnorm (θ • a) = θ := by rw [vnorm_smul, vnorm_unit ha, abs_of_pos hpos, mul_one]
  unfold invJacSO3
  simp only [hn]
  rw [if_neg (not_lt.mpr h0)]
  have hv : vdiv (θ • a) θ = a := by rw [vdiv_eq_smul, smul_smul, inv_mul_cancel₀ hpos.ne', one_smul]
  have ht : θ / 2 ≤ Real.tan (θ / 2) := tan_ge_self (by linarith) (by linarith)
  have hh : (0.5 : ℝ) * θ = θ / 2 := by ring
  rw [hh, hv]
  rw [if_neg]
  · unfold invJacAxis
    simp only [one_div]
  · rw [abs_of_nonneg (by linarith)]
    push Not
    refine le_trans ?_ ht
    linarith

theorem half_tan {θ : ℝ} (h0 : 0 < θ) (h1 : θ < Real.pi) :
    θ / 2 * (Real.tan (θ / 2))⁻¹ = θ * (1 + Real.cos θ) / (2 * Real.sin θ) := by
  have hs : 0 < Real.sin (θ / 2) := Real.sin_pos_of_pos_of_lt_pi (by linarith) (by linarith)
  have hc : 0 < Real.cos (θ / 2) := Real.cos_pos_of_mem_Ioo ⟨by linarith, by linarith⟩
  have e1 : Real.sin θ = 2 * Real.sin (θ / 2) * Real.cos (θ / 2) := by
    rw [← Real.sin_two_mul]; congr 1; ring
  have e2 : Real.cos θ = 2 * Real.cos (θ / 2) ^ 2 - 1 := by
    rw [← Real.cos_two_mul]; congr 1; ring
  rw [Real.tan_eq_sin_div_cos, e1, e2]
  field_simp
  ring

/-- The coefficient of the antisymmetric part in the logarithm, as a function of the cosine. -/
noncomputable def logCoef (c : ℝ) : ℝ := Real.arccos c / (2 * Real.sin (Real.arccos c))

theorem logCoef_deriv {θ : ℝ} (h0 : 0 < θ) (h1 : θ < Real.pi) :
    HasDerivAt logCoef (-(Real.sin θ - θ * Real.cos θ) / (2 * Real.sin θ ^ 3)) (Real.cos θ) := by
  have hs : 0 < Real.sin θ := Real.sin_pos_of_pos_of_lt_pi h0 h1
  have hcs := Real.sin_sq_add_cos_sq θ
  have hc1 : Real.cos θ ≠ -1 := by intro h; rw [h] at hcs; nlinarith
  have hc2 : Real.cos θ ≠ 1 := by intro h; rw [h] at hcs; nlinarith
  have ha : Real.arccos (Real.cos θ) = θ := Real.arccos_cos h0.le h1.le
  have hd := Real.hasDerivAt_arccos hc1 hc2
  have hr : √(1 - Real.cos θ ^ 2) = Real.sin θ := by
    rw [show 1 - Real.cos θ ^ 2 = Real.sin θ ^ 2 by linarith, Real.sqrt_sq hs.le]
  rw [hr] at hd
  have hsin : HasDerivAt (fun c => 2 * Real.sin (Real.arccos c)) (2 * (Real.cos θ * -(1 / Real.sin θ))) (Real.cos θ) := by
    have := (Real.hasDerivAt_sin (Real.arccos (Real.cos θ))).comp (Real.cos θ) hd
    rw [ha] at this
    exact this.const_mul 2
  have hdiv := hd.div hsin (by rw [ha]; positivity)
  rw [ha] at hdiv
  refine hdiv.congr_deriv ?_
  field_simp
  ring

/-- Where the general branch of `LogMapSO3` applies. -/
theorem log_branch {M : M3} (hc : -1 ≤ (M.trace - 1) / 2 ∧ (M.trace - 1) / 2 ≤ 1)
    (h1 : 1e-5 ≤ Real.arccos ((M.trace - 1) / 2)) (h2 : Real.arccos ((M.trace - 1) / 2) ≤ PI - 1e-3) :
    logSO3 M = logCoef ((M.trace - 1) / 2) • anti M := by
  have e : (M 0 0 + M 1 1 + M 2 2 - 1) * 0.5 = (M.trace - 1) / 2 := by rw [trace3]; ring
  unfold logSO3
  simp only [e, clamp_eq hc.1 hc.2]
  rw [if_neg (not_lt.mpr h1), if_neg, unskew_smul, unskew_anti]
  · rfl
  · rw [abs_of_nonpos (by linarith)]; push Not; linarith

theorem HasMatDeriv.trace {M M' : E → M3} {x : E} (h : HasMatDeriv M M' x) :
    HasScalDeriv (fun y => (M y).trace) (fun u => (M' u).trace) x := by
  simp only [trace3]
  exact HasScalDeriv.add (HasScalDeriv.add (h 0 0) (h 1 1)) (h 2 2)

theorem HasMatDeriv.anti {M M' : E → M3} {x : E} (h : HasMatDeriv M M' x) :
    HasVecDeriv (fun y => anti (M y)) (fun u => anti (M' u)) x := by
  intro i
  fin_cases i
  · exact HasScalDeriv.sub (h 2 1) (h 1 2)
  · exact HasScalDeriv.sub (h 0 2) (h 2 0)
  · exact HasScalDeriv.sub (h 1 0) (h 0 1)

theorem trace_skew_mul (v : V3) (R : M3) : (skew v * R).trace = -(v ⬝ᵥ anti R) := by
  rw [trace3, dot3]
  simp [skew, anti, Matrix.mul_apply, Fin.sum_univ_three]
  ring

theorem anti_skew_mul (v : V3) (R : M3) : anti (skew v * R) = R.trace • v - R *ᵥ v := by
  rw [trace3]
  funext i
  fin_cases i <;> simp [skew, anti, Matrix.mul_apply, Fin.sum_univ_three, Matrix.mulVec, dotProduct] <;> ring

/-- The algebra behind the derivative: how the logarithm changes when the rotation changes by `skew v * R`. -/
theorem log_deriv_algebra {a : V3} (ha : a ⬝ᵥ a = 1) {θ : ℝ} (h0 : 0 < θ) (h1 : θ < Real.pi) (v : V3) :
    (-(Real.sin θ - θ * Real.cos θ) / (2 * Real.sin θ ^ 3) * ((skew v * rodrigues a θ).trace / 2)) • anti (rodrigues a θ)
      + (θ / (2 * Real.sin θ)) • anti (skew v * rodrigues a θ) = invJacAxis a θ *ᵥ v := by
  have hs : 0 < Real.sin θ := Real.sin_pos_of_pos_of_lt_pi h0 h1
  have hcs := Real.sin_sq_add_cos_sq θ
  rw [trace_skew_mul, anti_skew_mul, anti_rodrigues ha, trace_rodrigues ha, invJacAxis, half_tan h0 h1,
    rodrigues_eq a ha]
  rw [dot3] at ha
  generalize Real.cos θ = c at *
  generalize Real.sin θ = s at *
  funext i
  fin_cases i <;>
    simp [skew, dot3, Matrix.mulVec, Matrix.add_apply, Matrix.sub_apply, vecMulVec_apply, Matrix.one_apply,
      vecHead, vecTail] <;>
    field_simp <;> ring

/-- The derivative of the logarithm along a motion of a rotation, away from the angles 0 and π. -/
theorem log_deriv {M : E → M3} {A : E → V3} {x : E} (hM : HasMatDeriv M (fun u => skew (A u) * M x) x)
    (hR : IsRotation (M x)) (hreg : Regular (M x)) :
    ∃ J, invJacSO3 (logSO3 (M x)) = .ok J ∧ HasVecDeriv (fun y => logSO3 (M y)) (fun u => J *ᵥ A u) x := by
  obtain ⟨h1, h2⟩ := hreg
  have hpi := PI_bounds
  have he := IsRotation.eqs hR
  obtain ⟨a, ha, hlog, hrod⟩ := log_spec he h1.le
  have hlt : angle (M x) < Real.pi := by linarith
  have hpos : 0 < angle (M x) := lt_trans (by norm_num) h1
  refine ⟨invJacAxis a (angle (M x)), ?_, ?_⟩
  · rw [hlog]
    exact invJac_axis ha (le_trans (by norm_num) h1.le) hlt
  · have hcos := cos_angle he
    have htr : HasScalDeriv (fun y => ((M y).trace - 1) / 2) (fun u => (skew (A u) * M x).trace / 2) x := by
      have := HasScalDeriv.mul (HasScalDeriv.sub hM.trace (HasScalDeriv.const 1 x)) (HasScalDeriv.const (1/2) x)
      refine HasScalDeriv.congr (f := fun y => ((M y).trace - 1) / 2) ?_ (fun u => ?_) (f' := fun u => ((skew (A u) * M x).trace - 0) * (1/2) + ((M x).trace - 1) * 0)
      · simpa only [div_eq_mul_inv, one_mul] using this
      · ring
    have hdef := HasVecDeriv.smul (HasScalDeriv.comp (φ := logCoef) (by
      rw [← hcos]; exact logCoef_deriv hpos hlt) htr) hM.anti
    have hev : (fun y => logSO3 (M y)) =ᶠ[𝓝 x] fun y => logCoef (((M y).trace - 1) / 2) • anti (M y) := by
      have hcont : ContinuousAt (fun y => ((M y).trace - 1) / 2) x := htr.continuousAt
      have harc : ContinuousAt (fun y => Real.arccos (((M y).trace - 1) / 2)) x :=
        Real.continuous_arccos.continuousAt.comp hcont
      have hs : 0 < Real.sin (angle (M x)) := Real.sin_pos_of_pos_of_lt_pi hpos hlt
      have hcs := Real.sin_sq_add_cos_sq (angle (M x))
      have hc1 : -1 < ((M x).trace - 1) / 2 := by rw [← hcos]; nlinarith
      have hc2 : ((M x).trace - 1) / 2 < 1 := by rw [← hcos]; nlinarith
      filter_upwards [hcont.eventually_const_lt hc1, hcont.eventually_lt_const hc2, harc.eventually_const_lt h1,
        harc.eventually_lt_const h2] with y k1 k2 k3 k4
      exact log_branch ⟨k1.le, k2.le⟩ k3.le k4.le
    refine HasVecDeriv.congr (HasVecDeriv.congr_of_eventuallyEq hdef hev) fun u => ?_
    have halg := log_deriv_algebra ha hpos hlt (A u)
    rw [hrod] at halg
    rw [← halg]
    have hcoef : logCoef (((M x).trace - 1) / 2) = angle (M x) / (2 * Real.sin (angle (M x))) := rfl
    rw [hcoef]

/-- Near zero the exponential is affine. -/
theorem exp_eventually : expSO3 =ᶠ[𝓝 0] fun d => 1 + skew d := by
  have hc : Continuous (fun d : V3 => vnorm d) := by
    unfold vnorm dotProduct
    fun_prop
  have h0 : vnorm (0 : V3) < 1e-10 := by
    rw [vnorm_eq_zero.mpr rfl]; norm_num
  filter_upwards [hc.continuousAt.eventually_lt_const h0] with d hd
  unfold expSO3
  simp only [hd, if_true]

/-- The motion `d ↦ Exp(d) R` of a rotation. -/
theorem exp_mul_deriv (R : M3) : HasMatDeriv (fun d => expSO3 d * R) (fun u => skew u * R) 0 := by
  have h1 : HasMatDeriv (fun d : V3 => 1 + skew d) (fun u => skew u) (0 : V3) := by
    intro i j
    exact HasScalDeriv.congr (HasScalDeriv.add (HasScalDeriv.const ((1 : M3) i j) 0) (HasMatDeriv.skew (HasVecDeriv.id 0) i j))
      fun u => by ring
  have h2 := HasMatDeriv.congr_of_eventuallyEq h1 exp_eventually
  refine HasMatDeriv.congr (HasMatDeriv.mul h2 (HasMatDeriv.const R 0)) fun u => ?_
  rw [mul_zero, add_zero]

theorem exp_zero : expSO3 0 = 1 := by
  have := exp_eventually.eq_of_nhds
  rw [this]
  ext i j; fin_cases i <;> fin_cases j <;> simp [skew]

end Factorama.Geo
