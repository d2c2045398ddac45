import Verif.Props.Variables
import Verif.Props.Geometry
import Verif.Lemmas.Factors
import Verif.Model.Factors

/-!
# The matrix of a rotation variable: C125
-/

namespace Factorama.Props
open Matrix Spec Geo

namespace C125

/-- Turning by a tiny vector stretches: the square of the length grows by that of the cross product. -/
theorem stretch (w y : V3) : length ((1 + skew w) *ᵥ y) ^ 2 = length y ^ 2 + length (w ⨯₃ y) ^ 2 := by
  simp only [length_eq, vnorm_sq, add_mulVec, one_mulVec, skew_mulVec]
  simp only [dot3, cross_apply]
  simp
  ring

theorem cross_le (w y : V3) : length (w ⨯₃ y) ^ 2 ≤ length w ^ 2 * length y ^ 2 := by
  simp only [length_eq, vnorm_sq, dot3, cross_apply]
  simp
  nlinarith [sq_nonneg (w 0 * y 0 + w 1 * y 1 + w 2 * y 2)]

theorem length_nonneg (w : V3) : 0 ≤ length w := by rw [length_eq]; exact vnorm_nonneg w

theorem rotation_length {R : M3} (h : IsRotation R) (x : V3) : length (R *ᵥ x) ^ 2 = length x ^ 2 := by
  simp only [length_eq, vnorm_sq]
  rw [dotProduct_mulVec, vecMul_mulVec, IsRotation.transpose_mul h, vecMul_one]

theorem exp_zero : expSO3 0 = 1 := by
  have : length (0 : V3) < 1e-10 := by rw [length_eq]; simp [vnorm]; norm_num
  rw [(C32_small 0 this).1]
  ext i j; fin_cases i <;> fin_cases j <;> simp [skew]

/-- `ExpMapSO3` of a vector that is not tiny is a rotation. -/
theorem exp_rotation {w : V3} (h : ¬ Tiny w) : IsRotation (expSO3 w) := by
  by_cases h0 : w = 0
  · subst h0; rw [exp_zero]; exact ⟨by simp, by simp⟩
  · have : ¬ length w < 1e-10 := fun hl => h ⟨h0, hl⟩
    exact (C32_rotation w (not_lt.1 this)).1

open Classical in
/-- One call of `ExpMapSO3` never shrinks, and stretches by at most one part in `10^20`. -/
theorem exp_length (w y : V3) : length y ^ 2 ≤ length (expSO3 w *ᵥ y) ^ 2 ∧
    length (expSO3 w *ᵥ y) ^ 2 ≤ (1 + 1e-20) ^ (if Tiny w then 1 else 0) * length y ^ 2 := by
  by_cases h : Tiny w
  · rw [(C32_small w h.2).1, stretch, if_pos h, pow_one]
    have h1 := cross_le w y
    have h2 := sq_nonneg (length (w ⨯₃ y))
    have h3 : length w ^ 2 ≤ 1e-20 := by
      have := h.2; have := length_nonneg w
      calc length w ^ 2 ≤ (1e-10) ^ 2 := by gcongr
        _ = 1e-20 := by norm_num
    constructor
    · linarith
    · nlinarith [mul_le_mul_of_nonneg_right h3 (sq_nonneg (length y))]
  · rw [rotation_length (exp_rotation h), if_neg h, pow_zero, one_mul]
    exact ⟨le_rfl, le_rfl⟩

theorem prod_le {x y z : ℝ} (h : x ^ 2 + y ^ 2 + z ^ 2 = 1) : -1 ≤ x ∧ x ≤ 1 ∧ -1 ≤ x * y ∧ x * y ≤ 1 ∧ -1 ≤ -(x * x) - y * y ∧ -(x * x) - y * y ≤ 1 := by
  have h1 := sq_nonneg (x + y); have h2 := sq_nonneg (x - y)
  have := sq_nonneg x; have := sq_nonneg y; have := sq_nonneg z
  refine ⟨?_, ?_, ?_, ?_, ?_, ?_⟩ <;> nlinarith

theorem skew_le {a : V3} (hu : a ⬝ᵥ a = 1) (i j : Fin 3) : |skew a i j| ≤ 1 := by
  have a3 : a 0 ^ 2 + a 1 ^ 2 + a 2 ^ 2 = 1 := by rw [dot3] at hu; linarith
  have h0 := prod_le a3
  have h1 := prod_le (x := a 1) (y := a 2) (z := a 0) (by linarith)
  have h2 := prod_le (x := a 2) (y := a 0) (z := a 1) (by linarith)
  rw [abs_le]
  fin_cases i <;> fin_cases j <;> simp [skew] <;> constructor <;> linarith

theorem skew_sq_le {a : V3} (hu : a ⬝ᵥ a = 1) (i j : Fin 3) : |(skew a * skew a) i j| ≤ 1 := by
  have a3 : a 0 ^ 2 + a 1 ^ 2 + a 2 ^ 2 = 1 := by rw [dot3] at hu; linarith
  have h0 := prod_le a3
  have h1 := prod_le (x := a 1) (y := a 2) (z := a 0) (by linarith)
  have h2 := prod_le (x := a 2) (y := a 0) (z := a 1) (by linarith)
  rw [abs_le]
  fin_cases i <;> fin_cases j <;> simp [skew, Matrix.mul_apply, Fin.sum_univ_three] <;> constructor <;> linarith

/-- The entries of the logarithm's exponential at small angles. -/
theorem small_agrees {R : M3} (hR : IsRotation R) (ha : angle R < 1e-5) (i j : Fin 3) :
    |(expSO3 (logSO3 R)) i j - R i j| ≤ 1e-15 := by
  have he := IsRotation.eqs hR
  by_cases hs : Real.sin (angle R) = 0
  · have h0 := angle_nonneg R
    have hz : angle R = 0 := by
      rcases h0.eq_or_lt with h | h
      · exact h.symm
      · exact absurd hs (Real.sin_pos_of_pos_of_lt_pi h (by linarith [Real.pi_gt_three])).ne'
    have hc := cos_angle he
    rw [hz, Real.cos_zero] at hc
    have : R = 1 := one_of_trace he (by linarith)
    have hl : logSO3 R = 0 := by
      rw [log_small he ha, this]
      funext k; fin_cases k <;> simp [anti]
    rw [hl, exp_zero, this]
    simp
    norm_num
  · obtain ⟨hu, hr⟩ := rodrigues_anti he hs
    generalize hax : (2 * Real.sin (angle R))⁻¹ • anti R = a at hu hr
    generalize hθ : angle R = θ at *
    have h0 : 0 < θ := by
      rcases (hθ ▸ angle_nonneg R : 0 ≤ θ).eq_or_lt with h | h
      · rw [← h, Real.sin_zero] at hs; exact absurd rfl hs
      · exact h
    have hspos : 0 < Real.sin θ := Real.sin_pos_of_pos_of_lt_pi h0 (by linarith [Real.pi_gt_three])
    have hslt : Real.sin θ < θ := Real.sin_lt h0
    have hcube := Real.sin_gt_sub_cube h0
    have hl : logSO3 R = Real.sin θ • a := by
      rw [log_small he (by rw [hθ]; exact ha), ← hr, anti_rodrigues hu, smul_smul]
      congr 1; ring
    have h3 : θ ^ 3 ≤ (1e-5) ^ 3 := by gcongr
    have h2 : θ ^ 2 ≤ (1e-5) ^ 2 := by gcongr
    have hcos := Real.one_sub_sq_div_two_le_cos (x := θ)
    have hcos1 := Real.cos_le_one θ
    have hsk := skew_le hu
    have hsq := skew_sq_le hu
    rw [hl, ← hr]
    by_cases hb : 1e-10 ≤ Real.sin θ
    · rw [exp_of_axis hu hb]
      unfold rodrigues
      have e : ((1 + Real.sin (Real.sin θ) • skew a + (1 - Real.cos (Real.sin θ)) • (skew a * skew a) : M3) i j) -
          (1 + Real.sin θ • skew a + (1 - Real.cos θ) • (skew a * skew a) : M3) i j =
          (Real.sin (Real.sin θ) - Real.sin θ) * skew a i j + (Real.cos θ - Real.cos (Real.sin θ)) * (skew a * skew a) i j := by
        simp only [Matrix.add_apply, Matrix.smul_apply, smul_eq_mul]; ring
      rw [e]
      have d1 : |Real.sin (Real.sin θ) - Real.sin θ| ≤ θ - Real.sin θ := by
        refine (Real.abs_sin_sub_sin_le _ _).trans ?_
        rw [abs_sub_comm, abs_of_pos (by linarith)]
      have d2 : |Real.cos θ - Real.cos (Real.sin θ)| ≤ θ - Real.sin θ := by
        refine (Real.abs_cos_sub_cos_le _ _).trans ?_
        rw [abs_of_pos (by linarith)]
      calc _ ≤ |(Real.sin (Real.sin θ) - Real.sin θ) * skew a i j| + |(Real.cos θ - Real.cos (Real.sin θ)) * (skew a * skew a) i j| := abs_add_le _ _
        _ ≤ (θ - Real.sin θ) * 1 + (θ - Real.sin θ) * 1 := by
            rw [abs_mul, abs_mul]
            exact add_le_add (mul_le_mul d1 (hsk i j) (abs_nonneg _) (by linarith)) (mul_le_mul d2 (hsq i j) (abs_nonneg _) (by linarith))
        _ ≤ 1e-15 := by norm_num at h3 ⊢; linarith
    · have hlen : length (Real.sin θ • a) < 1e-10 := by
        rw [length_eq, vnorm_smul, vnorm_unit hu, mul_one, abs_of_pos hspos]; exact not_le.1 hb
      rw [(C32_small _ hlen).1, skew_smul]
      unfold rodrigues
      have e : ((1 + Real.sin θ • skew a : M3) i j) -
          (1 + Real.sin θ • skew a + (1 - Real.cos θ) • (skew a * skew a) : M3) i j =
          -((1 - Real.cos θ) * (skew a * skew a) i j) := by
        simp only [Matrix.add_apply, Matrix.smul_apply, smul_eq_mul]; ring
      have hθs : θ < 1.1e-10 := by
        have hb' := not_le.1 hb
        have : θ ^ 3 ≤ 1e-10 * θ := by
          have : θ ^ 2 ≤ 1e-10 := by norm_num at h2 ⊢; exact h2
          calc θ ^ 3 = θ ^ 2 * θ := by ring
            _ ≤ 1e-10 * θ := by gcongr
        norm_num at hb' this ⊢
        linarith
      have h2' : θ ^ 2 ≤ (1.1e-10) ^ 2 := by gcongr
      rw [e, abs_neg, abs_mul, abs_of_nonneg (by linarith)]
      calc _ ≤ (1 - Real.cos θ) * 1 := mul_le_mul_of_nonneg_left (hsq i j) (by linarith)
        _ ≤ 1e-15 := by norm_num at h2' ⊢; linarith

end C125

namespace C125

/-- The increment used below, of length `1e-11`. -/
noncomputable def nudge : List ℝ := [1e-11, 0, 0]

theorem nudge_tiny : length (![1e-11, 0, 0] : V3) < 1e-10 := by
  rw [length_eq]; unfold vnorm
  have : (![1e-11, 0, 0] : V3) ⬝ᵥ ![1e-11, 0, 0] = 1e-11 ^ 2 := by rw [dot3]; simp; norm_num
  rw [this, Real.sqrt_sq (by norm_num)]
  norm_num

theorem nudge_read : read3 nudge 0 = ![1e-11, 0, 0] := by funext i; fin_cases i <;> simp [read3, nudge]

theorem nudge_det : (expSO3 ![1e-11, 0, 0]).det = 1 + 1e-22 := by
  rw [(C32_small _ nudge_tiny).1, det_fin_three]
  simp [skew]
  norm_num

theorem nudge_is : Tiny (read3 nudge 0) := by
  rw [nudge_read]
  exact ⟨fun h => by have := congrFun h 0; norm_num at this, nudge_tiny⟩

/-- After `n` nudges of the identity. -/
theorem nudged (n : Nat) : ∃ v, RotationReachable v ∧ RotationHistory n v ∧ v.dcm.det = (1 + 1e-22) ^ n := by
  induction n with
  | zero => exact ⟨_, .make 1 1 ⟨by simp, by simp⟩, .make 1 1 ⟨by simp, by simp⟩, by simp [RotationVar.make]⟩
  | succ n ih =>
    obtain ⟨v, hv, hh, hd⟩ := ih
    have := RotationHistory.applyIncr nudge hh rfl
    rw [if_pos nudge_is] at this
    refine ⟨_, .applyIncr nudge hv rfl, this, ?_⟩
    show (expSO3 (read3 nudge 0) * v.dcm).det = _
    rw [det_mul, nudge_read, nudge_det, hd, pow_succ, mul_comm]

end C125

/-- **C125** (drift). Through every history of calls, the matrix of a rotation variable never shrinks a vector, and
stretches it by at most one part in `10^20` (in the square of the length) for each tiny vector since the matrix was last
set. -/
theorem C125_stretch (n : Nat) (v : RotationVar) (h : RotationHistory n v) (x : V3) :
    length x ^ 2 ≤ length (v.dcm *ᵥ x) ^ 2 ∧ length (v.dcm *ᵥ x) ^ 2 ≤ (1 + 1e-20) ^ n * length x ^ 2 := by
  induction h with
  | make id dcm hR => rw [RotationVar.make, C125.rotation_length hR]; simp
  | setValue y _ hs =>
    simp only [RotationVar.setValue] at hs; split at hs <;> simp at hs; subst hs
    exact C125.exp_length _ _
  | @applyIncr n v v' dx _ hs ih =>
    simp only [RotationVar.applyIncr] at hs; split at hs <;> simp at hs; subst hs
    show _ ≤ length ((expSO3 (read3 dx 0) * v.dcm) *ᵥ x) ^ 2 ∧ length ((expSO3 (read3 dx 0) * v.dcm) *ᵥ x) ^ 2 ≤ _
    rw [← mulVec_mulVec]
    obtain ⟨h1, h2⟩ := C125.exp_length (read3 dx 0) (v.dcm *ᵥ x)
    refine ⟨ih.1.trans h1, h2.trans ?_⟩
    rw [pow_add, mul_comm ((1 + 1e-20 : ℝ) ^ n), mul_assoc]
    exact mul_le_mul_of_nonneg_left ih.2 (by positivity)
  | setConst b _ ih => exact ih

/-- A thousand tiny turns of the identity. -/
example : ∃ v, RotationHistory 1000 v := (C125.nudged 1000).imp fun _ h => h.2.1

/-- **C125** (part). Through every history without tiny vectors and without writes through `dcm_AB()`, the matrix is a
rotation. -/
theorem C125_rotation_partial (v : RotationVar) (h : RotationHistory 0 v) : IsRotation v.dcm := by
  generalize hn : 0 = n at h
  induction h with
  | make id dcm hR => exact hR
  | setValue y _ hs =>
    simp only [RotationVar.setValue] at hs; split at hs <;> simp at hs; subst hs
    exact C125.exp_rotation fun ht => by rw [if_pos ht] at hn; omega
  | @applyIncr n v v' dx _ hs ih =>
    simp only [RotationVar.applyIncr] at hs; split at hs <;> simp at hs; subst hs
    exact rotation_mul (C125.exp_rotation fun ht => by rw [if_pos ht] at hn; omega) (ih (by omega))
  | setConst b _ ih => exact ih hn

/-- **C125** (part). Then the stored vector and the stored matrix describe the same rotation, exactly if its angle is at
least `1e-5`, and up to `1e-15` in every entry otherwise. -/
theorem C125_agree_partial (v : RotationVar) (h : RotationHistory 0 v) :
    (1e-5 ≤ angle v.dcm → expSO3 v.vec = v.dcm) ∧ ∀ i j, |expSO3 v.vec i j - v.dcm i j| ≤ 1e-15 := by
  have hR := C125_rotation_partial v h
  have hinv : v.vec = logSO3 v.dcm ∨ v.dcm = expSO3 v.vec := by
    clear hR
    generalize 0 = n at h
    induction h with
    | make id dcm _ => exact .inl rfl
    | setValue x _ hs =>
      simp only [RotationVar.setValue] at hs; split at hs <;> simp at hs; subst hs; exact .inr rfl
    | applyIncr dx _ hs =>
      simp only [RotationVar.applyIncr] at hs; split at hs <;> simp at hs; subst hs; exact .inl rfl
    | setConst b _ ih => exact ih
  rcases hinv with h | h
  · rw [h]
    by_cases ha : 1e-5 ≤ angle v.dcm
    · rw [exp_log (IsRotation.eqs hR) ha]
      exact ⟨fun _ => rfl, fun i j => by simp; norm_num⟩
    · exact ⟨fun h => absurd h ha, C125.small_agrees hR (not_le.1 ha)⟩
  · rw [← h]
    exact ⟨fun _ => rfl, fun i j => by simp; norm_num⟩

/-- A variable made from a rotation, turned by a quarter of a radian about the y-axis. -/
example : ∃ v, RotationHistory 0 v ∧ v.dcm = expSO3 ![0, 0.25, 0] * rodrigues ![1, 0, 0] 1 := by
  have hu : (![1, 0, 0] : V3) ⬝ᵥ ![1, 0, 0] = 1 := by simp
  have ht : ¬ Tiny (read3 [0, 0.25, 0] 0) := by
    intro h
    have := h.2
    rw [length_eq, show read3 [0, 0.25, 0] 0 = (0.25 : ℝ) • ![0, 1, 0] by funext i; fin_cases i <;> simp [read3],
      vnorm_smul, vnorm_unit (by simp)] at this
    norm_num at this
  have h := RotationHistory.applyIncr [0, 0.25, 0] (.make 1 _ (rodrigues_rotation hu 1)) rfl
  rw [if_neg ht] at h
  refine ⟨_, h, ?_⟩
  show expSO3 (read3 [0, 0.25, 0] 0) * _ = _
  congr 2
  funext i; fin_cases i <;> simp [read3]

/-- **C125** is false for tiny vectors: the matrix does not stay a rotation, and there is no bound on its determinant. -/
theorem C125_rotation_false : (∃ v, RotationReachable v ∧ ¬ IsRotation v.dcm) ∧
    ∀ bound : ℝ, ∃ v, RotationReachable v ∧ bound < v.dcm.det := by
  constructor
  · obtain ⟨v, hv, -, hd⟩ := C125.nudged 1
    exact ⟨v, hv, fun hR => by rw [hR.2] at hd; norm_num at hd⟩
  · intro b
    obtain ⟨n, hn⟩ := pow_unbounded_of_one_lt b (show (1 : ℝ) < 1 + 1e-22 by norm_num)
    obtain ⟨v, hv, -, hd⟩ := C125.nudged n
    exact ⟨v, hv, by rw [hd]; exact hn⟩

/-- **C125** (writes through `dcm_AB()`). A matrix assigned through the reference is the one returned and the one a
`RotationPriorFactor` uses, and the next increment turns it; but the value stays the old one, and writing the value back
(as a rejected step and a numerical derivative do) loses the assigned matrix. -/
theorem C125_write (v : RotationVar) (R : M3) :
    (v.writeDcm R).dcm = R ∧ VarLike.value (F := ℝ) (RVar.rotation (v.writeDcm R)) = VarLike.value (F := ℝ) (RVar.rotation v) ∧
    (∀ (h : Heap RVar) (id : Int) (r : VRef) (prior : M3) (sigma : ℝ), h r = .rotation (v.writeDcm R) →
      (Fac.rotationPrior id r prior sigma).computeResidual h = .ok (toList ((1 / sigma) • logSO3 (R * priorᵀ)))) ∧
    (∀ dx v', (v.writeDcm R).applyIncr dx = .ok v' → v'.dcm = expSO3 (read3 dx 0) * R ∧ v'.vec = logSO3 v'.dcm) ∧
    (v.writeDcm R).setValue (toList v.vec) = v.setValue (toList v.vec) := by
  refine ⟨rfl, rfl, fun h id r prior sigma hr => ?_, fun dx v' h => ?_, rfl⟩
  · simp only [Fac.rotationPrior, hr]; rfl
  simp only [RotationVar.applyIncr] at h; split at h <;> simp at h; subst h
  exact ⟨rfl, rfl⟩

/-- **C125** is false after a write through `dcm_AB()`: the value can be the zero vector while the matrix turns by one
radian, and writing back the value then resets the matrix. -/
theorem C125_write_false : ∃ (v v' : RotationVar), RotationReachable v ∧ ∃ R, IsRotation R ∧ angle R = 1 ∧
    (v.writeDcm R).vec = 0 ∧ (v.writeDcm R).dcm = R ∧ (v.writeDcm R).setValue (toList (v.writeDcm R).vec) = .ok v' ∧ v'.dcm = 1 := by
  have hu : (![1, 0, 0] : V3) ⬝ᵥ ![1, 0, 0] = 1 := by simp
  have h1 : IsRotation (1 : M3) := ⟨by simp, by simp⟩
  have hl : logSO3 (1 : M3) = 0 := by
    rw [log_small (IsRotation.eqs h1) (by rw [angle_one]; norm_num)]
    funext k; fin_cases k <;> simp [anti]
  refine ⟨RotationVar.make 1 1, ⟨1, false, 0, 1⟩, .make 1 1 h1, rodrigues ![1, 0, 0] 1, rodrigues_rotation hu 1, ?_, hl, rfl, ?_, rfl⟩
  · exact angle_rodrigues hu (by norm_num) (by linarith [Real.pi_gt_three])
  · rw [RotationVar.setValue, if_neg (by simp [length_toList]), read3_toList]
    show Res.ok (⟨1, false, logSO3 1, expSO3 (logSO3 1)⟩ : RotationVar) = _
    rw [hl, C125.exp_zero]

end Factorama.Props
