import Verif.Lemmas.LogExp

/-!
# C93: the logarithm on the sphere

`LogMapS2(a, b)` is meant to be the rotation vector of the shortest rotation that takes the unit vector `a` to the unit
vector `b`.
-/

namespace Factorama.Props
open Matrix Spec Geo

/-- Lagrange's identity for unit vectors. -/
theorem C93.cross_sq {a b : V3} (ha : a ⬝ᵥ a = 1) (hb : b ⬝ᵥ b = 1) :
    (a ⨯₃ b) ⬝ᵥ (a ⨯₃ b) = 1 - (a ⬝ᵥ b) ^ 2 := by
  have : (a ⨯₃ b) ⬝ᵥ (a ⨯₃ b) = (a ⬝ᵥ a) * (b ⬝ᵥ b) - (a ⬝ᵥ b) ^ 2 := by
    simp only [dot3, cross_apply, cons_val_zero, cons_val_one, cons_val_two, head_cons, tail_cons, cons_val]
    ring
  rw [this, ha, hb, one_mul]

theorem C93.dot_bounds {a b : V3} (ha : a ⬝ᵥ a = 1) (hb : b ⬝ᵥ b = 1) : -1 ≤ a ⬝ᵥ b ∧ a ⬝ᵥ b ≤ 1 := by
  have h := dot_self_nonneg (a ⨯₃ b)
  rw [C93.cross_sq ha hb] at h
  constructor <;> nlinarith

/-- Length of the cross product and angle. -/
theorem C93.sine {a b : V3} (ha : a ⬝ᵥ a = 1) (hb : b ⬝ᵥ b = 1) :
    vnorm (a ⨯₃ b) = Real.sin (Real.arccos (a ⬝ᵥ b)) := by
  rw [Real.sin_arccos, vnorm, C93.cross_sq ha hb]

theorem C93.angle_ge {a b : V3} (ha : a ⬝ᵥ a = 1) (hb : b ⬝ᵥ b = 1) : vnorm (a ⨯₃ b) ≤ Real.arccos (a ⬝ᵥ b) := by
  rw [C93.sine ha hb]
  exact Real.sin_le (Real.arccos_nonneg _)

/-- The rotation about the normal of the plane of `a` and `b` by the angle between them takes `a` to `b`. -/
theorem C93.turn {a b u : V3} {s : ℝ} (ha : a ⬝ᵥ a = 1) (hb : b ⬝ᵥ b = 1) (hs : s ≠ 0) (hu : u = s⁻¹ • (a ⨯₃ b))
    (hsin : Real.sin (Real.arccos (a ⬝ᵥ b)) = s) : rodrigues u (Real.arccos (a ⬝ᵥ b)) *ᵥ a = b := by
  obtain ⟨h1, h2⟩ := C93.dot_bounds ha hb
  have hcos := Real.cos_arccos h1 h2
  have hsq : s ^ 2 = 1 - (a ⬝ᵥ b) ^ 2 := by
    rw [← hsin, Real.sin_sq, hcos]
  unfold rodrigues
  rw [hsin, hcos, hu, skew_smul]
  have e1 : skew (a ⨯₃ b) *ᵥ a = b - (a ⬝ᵥ b) • a := by
    rw [skew_mulVec]
    rw [dot3] at ha
    funext i
    fin_cases i <;> simp [cross_apply, dot3]
    · linear_combination b 0 * ha
    · linear_combination b 1 * ha
    · linear_combination b 2 * ha
  have e2 : skew (a ⨯₃ b) *ᵥ b = (a ⬝ᵥ b) • b - a := by
    rw [skew_mulVec]
    rw [dot3] at hb
    funext i
    fin_cases i <;> simp [cross_apply, dot3]
    · linear_combination -a 0 * hb
    · linear_combination -a 1 * hb
    · linear_combination -a 2 * hb
  have e3 : (skew (a ⨯₃ b) * skew (a ⨯₃ b)) *ᵥ a = -(s ^ 2) • a := by
    rw [← mulVec_mulVec, e1, mulVec_sub, mulVec_smul, e1, e2, hsq]
    funext i
    simp
    ring
  have e4 : (s • s⁻¹ • skew (a ⨯₃ b)) *ᵥ a = b - (a ⬝ᵥ b) • a := by
    rw [smul_smul, mul_inv_cancel₀ hs, one_smul, e1]
  have e5 : ((1 - a ⬝ᵥ b) • (s⁻¹ • skew (a ⨯₃ b) * s⁻¹ • skew (a ⨯₃ b))) *ᵥ a = -(1 - a ⬝ᵥ b) • a := by
    rw [smul_mulVec, smul_mul_smul_comm, smul_mulVec, e3, smul_smul, smul_smul]
    congr 1
    field_simp
  rw [add_mulVec, add_mulVec, one_mulVec, e4, e5]
  funext i
  simp
  ring

/-- **C93** is false of the code: for opposite vectors the result is zero, so it does not take one to the other. -/
theorem C93_false : ¬ ∀ a b : V3, length a = 1 → length b = 1 → length (expSO3 (logS2 a b) *ᵥ a - b) < 1 := by
  intro h
  have hu : ∀ x : ℝ, x ^ 2 = 1 → length (![x, 0, 0] : V3) = 1 := by
    intro x hx
    simp [length, Fin.sum_univ_three, hx]
  have h1 := h ![1, 0, 0] ![-1, 0, 0] (hu 1 (by norm_num)) (hu (-1) (by norm_num))
  have hc : (![1, 0, 0] : V3) ⨯₃ ![-1, 0, 0] = 0 := by
    funext i; fin_cases i <;> simp [cross_apply]
  have hl : logS2 ![1, 0, 0] ![-1, 0, 0] = 0 := by
    unfold logS2
    simp only [hc]
    have hz : vnorm (0 : V3) = 0 := vnorm_eq_zero.2 rfl
    rw [hz]
    split
    · rfl
    · norm_num
  have he : expSO3 (0 : V3) = 1 := by
    have hz : vnorm (0 : V3) = 0 := vnorm_eq_zero.2 rfl
    unfold expSO3
    simp only [hz]
    norm_num
    ext i j; fin_cases i <;> fin_cases j <;> simp [skew]
  rw [hl, he, one_mulVec] at h1
  have : length ((![1, 0, 0] : V3) - ![-1, 0, 0]) = 2 := by
    simp [length, Fin.sum_univ_three]
    norm_num
  rw [this] at h1
  norm_num at h1

/-- **C93**, the part that holds: unless the vectors are almost parallel or almost opposite (the sine of their angle is below
`1e-10`), the result is the rotation vector that takes `a` to `b`; it is as long as the angle between them and perpendicular
to both. -/
theorem C93_partial (a b : V3) (ha : length a = 1) (hb : length b = 1) (h : 1e-10 ≤ length (a ⨯₃ b)) :
    expSO3 (logS2 a b) *ᵥ a = b ∧ length (logS2 a b) = Real.arccos (a ⬝ᵥ b) ∧ logS2 a b ⬝ᵥ a = 0 ∧ logS2 a b ⬝ᵥ b = 0 := by
  rw [length_eq] at *
  have ha' : a ⬝ᵥ a = 1 := by rw [← vnorm_sq, ha]; norm_num
  have hb' : b ⬝ᵥ b = 1 := by rw [← vnorm_sq, hb]; norm_num
  obtain ⟨h1, h2⟩ := C93.dot_bounds ha' hb'
  have hθ : 1e-10 ≤ Real.arccos (a ⬝ᵥ b) := h.trans (C93.angle_ge ha' hb')
  have hs : vnorm (a ⨯₃ b) ≠ 0 := (lt_of_lt_of_le (by norm_num) h).ne'
  have hpos : 0 < (a ⨯₃ b) ⬝ᵥ (a ⨯₃ b) := by rw [← vnorm_sq]; positivity
  have hlog : logS2 a b = Real.arccos (a ⬝ᵥ b) • ((vnorm (a ⨯₃ b))⁻¹ • (a ⨯₃ b)) := by
    unfold logS2
    simp only [clamp_eq h1 h2]
    rw [if_neg (not_lt.mpr hθ), if_neg (not_lt.mpr h), normalized, if_pos hpos, vdiv_eq_smul]
    rfl
  have hunit : ((vnorm (a ⨯₃ b))⁻¹ • (a ⨯₃ b)) ⬝ᵥ ((vnorm (a ⨯₃ b))⁻¹ • (a ⨯₃ b)) = 1 := by
    rw [smul_dotProduct, dotProduct_smul, ← vnorm_sq]
    simp only [smul_eq_mul]
    field_simp
  refine ⟨?_, ?_, ?_, ?_⟩
  · rw [hlog, exp_of_axis hunit hθ]
    exact C93.turn ha' hb' hs rfl (C93.sine ha' hb').symm
  · rw [hlog, vnorm_smul, vnorm_unit hunit, mul_one, abs_of_nonneg (Real.arccos_nonneg _)]
  · rw [hlog, smul_dotProduct, smul_dotProduct]
    have : (a ⨯₃ b) ⬝ᵥ a = 0 := by simp only [dot3, cross_apply, cons_val]; ring
    rw [this]; simp
  · rw [hlog, smul_dotProduct, smul_dotProduct]
    have : (a ⨯₃ b) ⬝ᵥ b = 0 := by simp only [dot3, cross_apply, cons_val]; ring
    rw [this]; simp

/-- **C93**, almost parallel vectors: the result is zero, and `b` differs from `a` by less than `1.5e-10`. -/
theorem C93_parallel_partial (a b : V3) (ha : length a = 1) (hb : length b = 1) (h : length (a ⨯₃ b) < 1e-10)
    (hdir : 0 ≤ a ⬝ᵥ b) : logS2 a b = 0 ∧ length (expSO3 (logS2 a b) *ᵥ a - b) < 1.5e-10 := by
  rw [length_eq] at *
  have ha' : a ⬝ᵥ a = 1 := by rw [← vnorm_sq, ha]; norm_num
  have hb' : b ⬝ᵥ b = 1 := by rw [← vnorm_sq, hb]; norm_num
  obtain ⟨h1, h2⟩ := C93.dot_bounds ha' hb'
  have hlog : logS2 a b = 0 := by
    unfold logS2
    simp only [h, if_true]
    split
    · rfl
    · rfl
  have he : expSO3 (0 : V3) = 1 := by
    have hz : vnorm (0 : V3) = 0 := vnorm_eq_zero.2 rfl
    unfold expSO3
    simp only [hz]
    norm_num
    ext i j; fin_cases i <;> fin_cases j <;> simp [skew]
  refine ⟨hlog, ?_⟩
  rw [hlog, he, one_mulVec, vnorm]
  have hd : (a - b) ⬝ᵥ (a - b) = 2 - 2 * (a ⬝ᵥ b) := by
    rw [sub_dotProduct, dotProduct_sub, dotProduct_sub, ha', hb', dotProduct_comm b a]; ring
  have hsq : vnorm (a ⨯₃ b) ^ 2 = 1 - (a ⬝ᵥ b) ^ 2 := by rw [vnorm_sq, C93.cross_sq ha' hb']
  have hlt : vnorm (a ⨯₃ b) ^ 2 < 1e-20 := by
    have := vnorm_nonneg (a ⨯₃ b)
    nlinarith
  rw [hd]
  refine (Real.sqrt_lt' (by norm_num)).2 ?_
  nlinarith

/-- A quarter turn. -/
example : expSO3 (logS2 ![1, 0, 0] ![0, 1, 0]) *ᵥ ![1, 0, 0] = ![0, 1, 0] :=
  (C93_partial ![1, 0, 0] ![0, 1, 0] (by simp [length, Fin.sum_univ_three]) (by simp [length, Fin.sum_univ_three])
    (by simp [length, Fin.sum_univ_three, cross_apply]; norm_num)).1

/-- Equal vectors. -/
example : logS2 ![1, 0, 0] ![1, 0, 0] = 0 :=
  (C93_parallel_partial ![1, 0, 0] ![1, 0, 0] (by simp [length, Fin.sum_univ_three]) (by simp [length, Fin.sum_univ_three])
    (by simp [length, cross_apply]; norm_num) (by simp)).1

end Factorama.Props
