import Verif.Spec.Geometry
import Mathlib.LinearAlgebra.Matrix.DotProduct
import Mathlib.Tactic.LinearCombination
import Mathlib.Tactic.FieldSimp
import Mathlib.Tactic.FinCases
import Mathlib.Analysis.SpecialFunctions.Complex.Arg
import Mathlib.Analysis.Real.Pi.Bounds

/-!
# Rotations, exponential and logarithm
-/

namespace Factorama.Geo
open Matrix Spec

theorem dot3 (v w : V3) : v ⬝ᵥ w = v 0 * w 0 + v 1 * w 1 + v 2 * w 2 := by
  simp [dotProduct, Fin.sum_univ_three]

theorem dot_self_nonneg {n : Nat} (v : Fin n → ℝ) : 0 ≤ v ⬝ᵥ v :=
  Finset.sum_nonneg fun i _ => mul_self_nonneg (v i)

theorem vnorm_nonneg {n : Nat} (v : Fin n → ℝ) : 0 ≤ vnorm v := Real.sqrt_nonneg _

theorem vnorm_sq {n : Nat} (v : Fin n → ℝ) : vnorm v ^ 2 = v ⬝ᵥ v := Real.sq_sqrt (dot_self_nonneg v)

theorem vnorm_smul {n : Nat} (c : ℝ) (v : Fin n → ℝ) : vnorm (c • v) = |c| * vnorm v := by
  unfold vnorm
  rw [smul_dotProduct, dotProduct_smul, smul_eq_mul, smul_eq_mul, ← mul_assoc, Real.sqrt_mul (mul_self_nonneg c),
    Real.sqrt_mul_self_eq_abs]

theorem vnorm_unit {n : Nat} {a : Fin n → ℝ} (h : a ⬝ᵥ a = 1) : vnorm a = 1 := by
  unfold vnorm; rw [h]; exact Real.sqrt_one

theorem vnorm_eq_zero {n : Nat} {v : Fin n → ℝ} : vnorm v = 0 ↔ v = 0 := by
  unfold vnorm
  rw [Real.sqrt_eq_zero (dot_self_nonneg v), dotProduct_self_eq_zero]

theorem vdiv_eq_smul {n : Nat} (v : Fin n → ℝ) (c : ℝ) : vdiv v c = c⁻¹ • v := by
  funext i; simp [vdiv, div_eq_inv_mul]

theorem length_eq {n : Nat} (v : Fin n → ℝ) : Spec.length v = vnorm v := by
  unfold Spec.length vnorm dotProduct
  congr 1; apply Finset.sum_congr rfl; intro i _; ring

/-- Every non-zero vector is its length times a unit vector. -/
theorem axis_of {n : Nat} {v : Fin n → ℝ} (h : vnorm v ≠ 0) :
    vdiv v (vnorm v) ⬝ᵥ vdiv v (vnorm v) = 1 ∧ vnorm v • vdiv v (vnorm v) = v := by
  constructor
  · rw [vdiv_eq_smul, smul_dotProduct, dotProduct_smul, ← vnorm_sq, smul_eq_mul, smul_eq_mul]
    field_simp
  · funext i; simp [vdiv]; field_simp

theorem skew_smul (c : ℝ) (v : V3) : skew (c • v) = c • skew v := by
  ext i j; fin_cases i <;> fin_cases j <;> simp [skew]

theorem skew_add (v w : V3) : skew (v + w) = skew v + skew w := by
  ext i j; fin_cases i <;> fin_cases j <;> simp [skew] <;> ring

theorem skew_transpose (v : V3) : (skew v)ᵀ = -skew v := by
  ext i j; fin_cases i <;> fin_cases j <;> simp [skew]

theorem unskew_skew (v : V3) : unskew (skew v) = v := by
  funext i; fin_cases i <;> simp [unskew, skew] <;> ring

theorem unskew_smul (c : ℝ) (m : M3) : unskew (c • m) = c • unskew m := by
  funext i; fin_cases i <;> simp [unskew] <;> ring

theorem skew_mulVec (v w : V3) : skew v *ᵥ w = v ⨯₃ w := by
  funext i
  fin_cases i <;> simp [skew, mulVec, dotProduct, Fin.sum_univ_three, cross_apply] <;> ring

/-- The entries of `rodrigues`. -/
theorem rodrigues_eq (a : V3) (ha : a ⬝ᵥ a = 1) (θ : ℝ) : rodrigues a θ =
    !![Real.cos θ + (1 - Real.cos θ) * (a 0 * a 0), (1 - Real.cos θ) * (a 0 * a 1) - Real.sin θ * a 2,
        (1 - Real.cos θ) * (a 0 * a 2) + Real.sin θ * a 1;
       (1 - Real.cos θ) * (a 0 * a 1) + Real.sin θ * a 2, Real.cos θ + (1 - Real.cos θ) * (a 1 * a 1),
        (1 - Real.cos θ) * (a 1 * a 2) - Real.sin θ * a 0;
       (1 - Real.cos θ) * (a 0 * a 2) - Real.sin θ * a 1, (1 - Real.cos θ) * (a 1 * a 2) + Real.sin θ * a 0,
        Real.cos θ + (1 - Real.cos θ) * (a 2 * a 2)] := by
  rw [dot3] at ha
  ext i j
  fin_cases i <;> fin_cases j <;>
    simp [rodrigues, skew] <;>
    first
    | ring1
    | linear_combination (Real.cos θ - 1) * ha

theorem rodrigues_rotation {a : V3} (ha : a ⬝ᵥ a = 1) (θ : ℝ) : IsRotation (rodrigues a θ) := by
  have hcs := Real.sin_sq_add_cos_sq θ
  rw [rodrigues_eq a ha]
  rw [dot3] at ha
  generalize Real.cos θ = c at *
  generalize Real.sin θ = s at *
  generalize a 0 = x at *
  generalize a 1 = y at *
  generalize a 2 = z at *
  constructor
  · ext i j
    fin_cases i <;> fin_cases j <;>
      simp [Matrix.mul_apply, Fin.sum_univ_three] <;> grind
  · simp [Matrix.det_fin_three]; grind

theorem exp_of_axis {a : V3} (ha : a ⬝ᵥ a = 1) {θ : ℝ} (hθ : 1e-10 ≤ θ) : expSO3 (θ • a) = rodrigues a θ := by
  have hpos : 0 < θ := lt_of_lt_of_le (by norm_num) hθ
  have hn : vnorm (θ • a) = θ := by rw [vnorm_smul, vnorm_unit ha, abs_of_pos hpos, mul_one]
  unfold expSO3
  simp only [hn]
  rw [if_neg (not_lt.mpr hθ)]
  have : vdiv (θ • a) θ = a := by rw [vdiv_eq_smul, smul_smul, inv_mul_cancel₀ hpos.ne', one_smul]
  rw [this]; rfl

theorem exp_eq_rodrigues {w : V3} (h : 1e-10 ≤ vnorm w) : expSO3 w = rodrigues (vdiv w (vnorm w)) (vnorm w) := by
  have h0 : vnorm w ≠ 0 := (lt_of_lt_of_le (by norm_num) h).ne'
  conv_lhs => rw [← (axis_of h0).2]
  exact exp_of_axis (axis_of h0).1 h

theorem trace3 (R : M3) : R.trace = R 0 0 + R 1 1 + R 2 2 := by
  simp [Matrix.trace, Fin.sum_univ_three]

/-- The polynomial equations of a rotation matrix that are used below. -/
structure RotEqs (R : M3) : Prop where
  row : ∀ i j, R i 0 * R j 0 + R i 1 * R j 1 + R i 2 * R j 2 = if i = j then 1 else 0
  col : ∀ i j, R 0 i * R 0 j + R 1 i * R 1 j + R 2 i * R 2 j = if i = j then 1 else 0
  c00 : R 0 0 = R 1 1 * R 2 2 - R 1 2 * R 2 1
  c01 : R 0 1 = R 1 2 * R 2 0 - R 1 0 * R 2 2
  c02 : R 0 2 = R 1 0 * R 2 1 - R 1 1 * R 2 0
  c10 : R 1 0 = R 0 2 * R 2 1 - R 0 1 * R 2 2
  c11 : R 1 1 = R 0 0 * R 2 2 - R 0 2 * R 2 0
  c12 : R 1 2 = R 0 1 * R 2 0 - R 0 0 * R 2 1
  c20 : R 2 0 = R 0 1 * R 1 2 - R 0 2 * R 1 1
  c21 : R 2 1 = R 0 2 * R 1 0 - R 0 0 * R 1 2
  c22 : R 2 2 = R 0 0 * R 1 1 - R 0 1 * R 1 0

theorem IsRotation.transpose_mul {R : M3} (h : IsRotation R) : Rᵀ * R = 1 := mul_eq_one_comm.mp h.1

theorem rotation_mul {R S : M3} (h1 : IsRotation R) (h2 : IsRotation S) : IsRotation (R * S) := by
  refine ⟨?_, by rw [det_mul, h1.2, h2.2, one_mul]⟩
  rw [transpose_mul, Matrix.mul_assoc, ← Matrix.mul_assoc S, h2.1, Matrix.one_mul, h1.1]

theorem IsRotation.eqs {R : M3} (h : IsRotation R) : RotEqs R := by
  have hadj : R.adjugate = Rᵀ := by
    have h1 : R * R.adjugate = 1 := by rw [Matrix.mul_adjugate, h.2, one_smul]
    calc R.adjugate = (Rᵀ * R) * R.adjugate := by rw [IsRotation.transpose_mul h, one_mul]
      _ = Rᵀ := by rw [mul_assoc, h1, mul_one]
  have ha : ∀ i j, R.adjugate i j = R j i := fun i j => by rw [hadj]; rfl
  rw [Matrix.adjugate_fin_three] at ha
  refine ⟨fun i j => ?_, fun i j => ?_, ?_, ?_, ?_, ?_, ?_, ?_, ?_, ?_, ?_⟩
  · have := congrFun (congrFun h.1 i) j
    simpa [Matrix.mul_apply, Fin.sum_univ_three, Matrix.one_apply] using this
  · have := congrFun (congrFun (IsRotation.transpose_mul h) i) j
    simpa [Matrix.mul_apply, Fin.sum_univ_three, Matrix.one_apply] using this
  · have := ha 0 0; simp at this; linarith
  · have := ha 1 0; simp at this; linarith
  · have := ha 2 0; simp at this; linarith
  · have := ha 0 1; simp at this; linarith
  · have := ha 1 1; simp at this; linarith
  · have := ha 2 1; simp at this; linarith
  · have := ha 0 2; simp at this; linarith
  · have := ha 1 2; simp at this; linarith
  · have := ha 2 2; simp at this; linarith

/-- The axis vector of the antisymmetric part (`unskew (R - Rᵀ)`, up to the factor). -/
def anti (R : M3) : V3 := ![R 2 1 - R 1 2, R 0 2 - R 2 0, R 1 0 - R 0 1]

theorem unskew_anti (R : M3) : unskew (R - Rᵀ) = anti R := by
  funext i; fin_cases i <;> simp [unskew, anti] <;> ring

/-- `rᵢ rⱼ = (1 + tr R)(Rᵢⱼ + Rⱼᵢ - δᵢⱼ (tr R - 1))`. -/
theorem anti_mul {R : M3} (h : RotEqs R) (i j : Fin 3) : anti R i * anti R j =
    (1 + R.trace) * (R i j + R j i - if i = j then R.trace - 1 else 0) := by
  obtain ⟨hr, hc, c00, c01, c02, c10, c11, c12, c20, c21, c22⟩ := h
  have r00 := hr 0 0; have r11 := hr 1 1; have r22 := hr 2 2
  have r01 := hr 0 1; have r02 := hr 0 2; have r12 := hr 1 2
  have k00 := hc 0 0; have k11 := hc 1 1; have k22 := hc 2 2
  have k01 := hc 0 1; have k02 := hc 0 2; have k12 := hc 1 2
  simp at r00 r11 r22 r01 r02 r12 k00 k11 k22 k01 k02 k12
  rw [trace3]
  fin_cases i <;> fin_cases j <;> simp [anti] <;> grind

theorem anti_sq {R : M3} (h : RotEqs R) : anti R ⬝ᵥ anti R = (1 + R.trace) * (3 - R.trace) := by
  have h0 := anti_mul h 0 0; have h1 := anti_mul h 1 1; have h2 := anti_mul h 2 2
  simp at h0 h1 h2
  rw [dot3, h0, h1, h2, trace3]; ring

theorem trace_bounds {R : M3} (h : RotEqs R) : -1 ≤ R.trace ∧ R.trace ≤ 3 := by
  have h1 : 0 ≤ (1 + R.trace) * (3 - R.trace) := by rw [← anti_sq h]; exact dot_self_nonneg _
  constructor <;> nlinarith

theorem clamp_eq {x : ℝ} (h1 : -1 ≤ x) (h2 : x ≤ 1) : clampUnit x = x := by
  unfold clampUnit; rw [max_eq_left h1, min_eq_left h2]

/-- The angle computed by `LogMapSO3` is the rotation angle. -/
theorem log_angle {R : M3} (h : RotEqs R) :
    Real.arccos (clampUnit ((R 0 0 + R 1 1 + R 2 2 - 1) * 0.5)) = angle R := by
  obtain ⟨h1, h2⟩ := trace_bounds h
  rw [trace3] at h1 h2
  rw [clamp_eq (by linarith) (by linarith), angle, trace3]
  congr 1; ring

theorem cos_angle {R : M3} (h : RotEqs R) : Real.cos (angle R) = (R.trace - 1) / 2 := by
  obtain ⟨h1, h2⟩ := trace_bounds h
  exact Real.cos_arccos (by linarith) (by linarith)

theorem angle_nonneg (R : M3) : 0 ≤ angle R := Real.arccos_nonneg _
theorem angle_le_pi (R : M3) : angle R ≤ Real.pi := Real.arccos_le_pi _

theorem sin_angle_sq {R : M3} (h : RotEqs R) : (2 * Real.sin (angle R)) ^ 2 = (1 + R.trace) * (3 - R.trace) := by
  have h1 := cos_angle h
  have h2 := Real.sin_sq_add_cos_sq (angle R)
  rw [h1] at h2
  linear_combination 4 * h2

/-- Away from 0 and π a rotation is determined by its antisymmetric part. -/
theorem rodrigues_anti {R : M3} (h : RotEqs R) (hs : Real.sin (angle R) ≠ 0) :
    ((2 * Real.sin (angle R))⁻¹ • anti R) ⬝ᵥ ((2 * Real.sin (angle R))⁻¹ • anti R) = 1 ∧
    rodrigues ((2 * Real.sin (angle R))⁻¹ • anti R) (angle R) = R := by
  have hunit : ((2 * Real.sin (angle R))⁻¹ • anti R) ⬝ᵥ ((2 * Real.sin (angle R))⁻¹ • anti R) = 1 := by
    rw [smul_dotProduct, dotProduct_smul, anti_sq h, ← sin_angle_sq h, smul_eq_mul, smul_eq_mul]
    field_simp
  refine ⟨hunit, ?_⟩
  have hprod : ∀ i j, (1 - Real.cos (angle R)) * (((2 * Real.sin (angle R))⁻¹ • anti R) i *
      ((2 * Real.sin (angle R))⁻¹ • anti R) j) = (R i j + R j i - if i = j then R.trace - 1 else 0) / 2 := by
    intro i j
    have h1 := anti_mul h i j
    have h2 := sin_angle_sq h
    have h3 := cos_angle h
    have hne : (2 * Real.sin (angle R)) ≠ 0 := by positivity
    have hne2 : (1 + R.trace) * (3 - R.trace) ≠ 0 := by rw [← h2]; positivity
    simp only [Pi.smul_apply, smul_eq_mul]
    have : (2 * Real.sin (angle R))⁻¹ * anti R i * ((2 * Real.sin (angle R))⁻¹ * anti R j) =
        (anti R i * anti R j) / (2 * Real.sin (angle R)) ^ 2 := by field_simp
    rw [this, h1, h2, h3]
    have hA : 1 + R.trace ≠ 0 := left_ne_zero_of_mul hne2
    have hB : 3 - R.trace ≠ 0 := right_ne_zero_of_mul hne2
    field_simp; ring
  have hsin : ∀ i, Real.sin (angle R) * ((2 * Real.sin (angle R))⁻¹ • anti R) i = anti R i / 2 := by
    intro i; simp only [Pi.smul_apply, smul_eq_mul]; field_simp
  rw [rodrigues_eq _ hunit]
  have hc := cos_angle h
  simp only [hprod, hsin]
  rw [hc]
  ext i j
  fin_cases i <;> fin_cases j <;> simp [anti, trace3] <;> ring

/-! ## The quaternion route -/

/-- The rotation matrix of a quaternion. -/
noncomputable def Quat.matrix (q : Quat) : M3 := 1 + (2 * q.w) • skew q.vec + (2 : ℝ) • (skew q.vec * skew q.vec)

theorem Quat.matrix_eq (q : Quat) : q.matrix =
    !![1 - 2 * (q.vec 1 ^ 2 + q.vec 2 ^ 2), 2 * (q.vec 0 * q.vec 1) - 2 * q.w * q.vec 2,
        2 * (q.vec 0 * q.vec 2) + 2 * q.w * q.vec 1;
       2 * (q.vec 0 * q.vec 1) + 2 * q.w * q.vec 2, 1 - 2 * (q.vec 0 ^ 2 + q.vec 2 ^ 2),
        2 * (q.vec 1 * q.vec 2) - 2 * q.w * q.vec 0;
       2 * (q.vec 0 * q.vec 2) - 2 * q.w * q.vec 1, 2 * (q.vec 1 * q.vec 2) + 2 * q.w * q.vec 0,
        1 - 2 * (q.vec 0 ^ 2 + q.vec 1 ^ 2)] := by
  ext i j
  fin_cases i <;> fin_cases j <;> simp [Quat.matrix, skew] <;> ring

/-- A quaternion with `4 q qᵀ` equal to the matrix determined by `R` represents `R`. -/
theorem quat_of_products {R : M3} {q : Quat}
    (hww : 4 * (q.w * q.w) = 1 + R.trace)
    (hwv : ∀ i, 4 * (q.w * q.vec i) = anti R i)
    (hvv : ∀ i j, 4 * (q.vec i * q.vec j) = R i j + R j i - if i = j then R.trace - 1 else 0) :
    q.w ^ 2 + q.vec ⬝ᵥ q.vec = 1 ∧ q.matrix = R := by
  have v00 := hvv 0 0; have v11 := hvv 1 1; have v22 := hvv 2 2
  have v01 := hvv 0 1; have v02 := hvv 0 2; have v12 := hvv 1 2
  have w0 := hwv 0; have w1 := hwv 1; have w2 := hwv 2
  rw [trace3] at *
  simp [anti] at v00 v11 v22 v01 v02 v12 w0 w1 w2
  constructor
  · rw [dot3]; linear_combination (hww + v00 + v11 + v22) / 4
  · rw [Quat.matrix_eq]
    ext i j
    fin_cases i <;> fin_cases j <;> simp
    · linear_combination -(v11 + v22) / 2
    · linear_combination (v01 - w2) / 2
    · linear_combination (v02 + w1) / 2
    · linear_combination (v01 + w2) / 2
    · linear_combination -(v00 + v22) / 2
    · linear_combination (v12 - w0) / 2
    · linear_combination (v02 - w1) / 2
    · linear_combination (v12 + w0) / 2
    · linear_combination -(v00 + v11) / 2

theorem quatOfMatrix_spec {R : M3} (h : RotEqs R) :
    (quatOfMatrix R).w ^ 2 + (quatOfMatrix R).vec ⬝ᵥ (quatOfMatrix R).vec = 1 ∧ (quatOfMatrix R).matrix = R := by
  have ham := anti_mul h
  by_cases ht : 0 < R 0 0 + R 1 1 + R 2 2
  · have hq : quatOfMatrix R = ⟨0.5 * √(R.trace + 1), (0.5 / √(R.trace + 1)) • anti R⟩ := by
      unfold quatOfMatrix
      simp only [if_pos ht, trace3]
      congr 1
      funext i; fin_cases i <;> simp [anti] <;> ring
    rw [← trace3] at ht
    have hp : 0 < R.trace + 1 := by linarith
    have hsq : √(R.trace + 1) * √(R.trace + 1) = R.trace + 1 := Real.mul_self_sqrt hp.le
    have hs : √(R.trace + 1) ≠ 0 := (Real.sqrt_pos.mpr hp).ne'
    rw [hq]
    apply quat_of_products
    · dsimp only; linear_combination hsq
    · intro i; dsimp only; simp only [Pi.smul_apply, smul_eq_mul]; field_simp; norm_num
    · intro i j; dsimp only; simp only [Pi.smul_apply, smul_eq_mul]
      have := ham i j
      generalize √(R.trace + 1) = s at *
      have e : 4 * (0.5 / s * anti R i * (0.5 / s * anti R j)) = (anti R i * anti R j) / (s * s) := by
        field_simp; norm_num
      rw [e, this, hsq, add_comm 1]; field_simp
  · obtain ⟨i, hi, hmax⟩ : ∃ i : Fin 3, (if R (if R 0 0 < R 1 1 then 1 else 0) (if R 0 0 < R 1 1 then 1 else 0) < R 2 2
        then 2 else if R 0 0 < R 1 1 then 1 else 0) = i ∧ ∀ j, R j j ≤ R i i := by
      refine ⟨_, rfl, fun j => ?_⟩
      by_cases h1 : R 0 0 < R 1 1
      · simp only [h1, if_true]
        by_cases h2 : R 1 1 < R 2 2
        · simp only [h2, if_true]; fin_cases j <;> simp <;> linarith
        · simp only [h2, if_false]; fin_cases j <;> simp <;> linarith
      · simp only [h1, if_false]
        by_cases h2 : R 0 0 < R 2 2
        · simp only [h2, if_true]; fin_cases j <;> simp <;> linarith
        · simp only [h2, if_false]; fin_cases j <;> simp <;> linarith
    have m0 := hmax 0; have m1 := hmax 1; have m2 := hmax 2
    have hq : quatOfMatrix R = ⟨(R (i+1+1) (i+1) - R (i+1) (i+1+1)) * (0.5 / √(R i i - R (i+1) (i+1) - R (i+1+1) (i+1+1) + 1)),
        fun a => if a = i then 0.5 * √(R i i - R (i+1) (i+1) - R (i+1+1) (i+1+1) + 1)
          else if a = i + 1 then (R (i+1) i + R i (i+1)) * (0.5 / √(R i i - R (i+1) (i+1) - R (i+1+1) (i+1+1) + 1))
          else (R (i+1+1) i + R i (i+1+1)) * (0.5 / √(R i i - R (i+1) (i+1) - R (i+1+1) (i+1+1) + 1))⟩ := by
      unfold quatOfMatrix
      simp only [if_neg ht, hi]
    have htr : R i i - R (i+1) (i+1) - R (i+1+1) (i+1+1) + 1 = 2 * R i i - R.trace + 1 := by
      rw [trace3]; fin_cases i <;> simp <;> ring
    rw [← trace3] at ht
    have hp : 0 < 2 * R i i - R.trace + 1 := by
      have := trace3 R
      linarith
    rw [hq, htr]
    have hsq : √(2 * R i i - R.trace + 1) * √(2 * R i i - R.trace + 1) = 2 * R i i - R.trace + 1 :=
      Real.mul_self_sqrt hp.le
    have hs : √(2 * R i i - R.trace + 1) ≠ 0 := (Real.sqrt_pos.mpr hp).ne'
    generalize √(2 * R i i - R.trace + 1) = s at *
    obtain ⟨hr, hc, c00, c01, c02, c10, c11, c12, c20, c21, c22⟩ := h
    have r00 := hr 0 0; have r11 := hr 1 1; have r22 := hr 2 2
    have r01 := hr 0 1; have r02 := hr 0 2; have r12 := hr 1 2
    have k00 := hc 0 0; have k11 := hc 1 1; have k22 := hc 2 2
    have k01 := hc 0 1; have k02 := hc 0 2; have k12 := hc 1 2
    simp at r00 r11 r22 r01 r02 r12 k00 k11 k22 k01 k02 k12
    rw [trace3] at hsq
    have hpoly : ∀ x y z : ℝ, x * y = z * (s * s) → 4 * (x * (0.5 / s) * (y * (0.5 / s))) = z := by
      intro x y z hxyz
      have e : 4 * (x * (0.5 / s) * (y * (0.5 / s))) = (x * y) / (s * s) := by field_simp; ring
      rw [e, hxyz]; field_simp
    have hlin : ∀ x : ℝ, 4 * (0.5 * s * (x * (0.5 / s))) = x := by intro x; field_simp; ring
    have hlin' : ∀ x : ℝ, 4 * (x * (0.5 / s) * (0.5 * s)) = x := by intro x; field_simp; ring
    apply quat_of_products
    · dsimp only
      apply hpoly
      rw [trace3, hsq]
      clear hi hmax m0 m1 m2 hq htr hp hr hc
      fin_cases i <;> simp at * <;> grind
    · intro a; dsimp only
      clear hi hmax m0 m1 m2 hq htr hp hr hc
      fin_cases i <;> fin_cases a <;> simp at * <;>
        first
        | (rw [hlin']; simp [anti])
        | (apply hpoly; rw [hsq]; simp [anti]; grind)
    · intro a b; dsimp only
      rw [trace3]
      clear hi hmax m0 m1 m2 hq htr hp hr hc
      fin_cases i <;> fin_cases a <;> fin_cases b <;> simp at * <;>
        first
        | exact (hlin _).trans (by ring1)
        | exact (hlin' _).trans (by ring1)
        | linear_combination hsq
        | (apply hpoly; rw [hsq]; grind)

end Factorama.Geo
