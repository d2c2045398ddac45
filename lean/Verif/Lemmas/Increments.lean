import Verif.Spec.Factors
import Verif.Lemmas.LogDeriv
import Verif.Lemmas.Variables
import Verif.Lemmas.Wrap

/-!
# How the variables move under increments
-/

namespace Factorama.Geo
open Matrix Spec Topology Asymptotics

/-! ### Increment vectors -/

/-- The first three entries of a pose increment. -/
def incPos (d : Fin 6 → ℝ) : V3 := ![d 0, d 1, d 2]
/-- The last three entries of a pose increment. -/
def incRot (d : Fin 6 → ℝ) : V3 := ![d 3, d 4, d 5]

theorem read3_ofFn6 (d : Fin 6 → ℝ) : read3 (List.ofFn d) 0 = incPos d ∧ read3 (List.ofFn d) 3 = incRot d := by
  constructor <;> funext i <;> fin_cases i <;> simp [read3, List.ofFn_succ, incPos, incRot]

theorem read3_ofFn3 (d : Fin 3 → ℝ) : read3 (List.ofFn d) 0 = d := read3_toList d

theorem beside_mulVec {m : Nat} (A B : Matrix (Fin m) (Fin 3) ℝ) (u : Fin 6 → ℝ) :
    Fac.beside A B *ᵥ u = A *ᵥ incPos u + B *ᵥ incRot u := by
  funext i
  simp [Matrix.mulVec, dotProduct, Fin.sum_univ_six, Fin.sum_univ_three, Fac.beside, incPos, incRot]
  ring

theorem incPos_deriv (x : Fin 6 → ℝ) : HasVecDeriv incPos incPos x := by
  intro i
  fin_cases i
  · exact HasScalDeriv.coord 0 x
  · exact HasScalDeriv.coord 1 x
  · exact HasScalDeriv.coord 2 x

theorem incRot_deriv (x : Fin 6 → ℝ) : HasVecDeriv incRot incRot x := by
  intro i
  fin_cases i
  · exact HasScalDeriv.coord 3 x
  · exact HasScalDeriv.coord 4 x
  · exact HasScalDeriv.coord 5 x

theorem incRot_zero : incRot 0 = 0 := by funext i; fin_cases i <;> simp [incRot]
theorem incPos_zero : incPos 0 = 0 := by funext i; fin_cases i <;> simp [incPos]

/-! ### Composition with a map into vectors -/

variable {E : Type*} [NormedAddCommGroup E] [NormedSpace ℝ E]

theorem HasScalDeriv.comp_vec {n : Nat} {f f' : E → Fin n → ℝ} {x : E} {φ φ' : (Fin n → ℝ) → ℝ}
    (hφ : HasScalDeriv φ φ' (f x)) (hf : HasVecDeriv f f' x) :
    HasScalDeriv (fun y => φ (f y)) (fun u => φ' (f' u)) x := by
  obtain ⟨L, h1, h2⟩ := hφ
  choose K hK1 hK2 using hf
  have hK : HasFDerivAt f (ContinuousLinearMap.pi K) x := hasFDerivAt_pi.mpr hK2
  refine ⟨L.comp (ContinuousLinearMap.pi K), fun u => ?_, h2.comp x hK⟩
  rw [ContinuousLinearMap.comp_apply, h1]
  congr 1
  funext i
  simp [hK1]

theorem HasMatDeriv.comp_vec {n k l : Nat} {f f' : E → Fin n → ℝ} {x : E} {φ φ' : (Fin n → ℝ) → Matrix (Fin k) (Fin l) ℝ}
    (hφ : HasMatDeriv φ φ' (f x)) (hf : HasVecDeriv f f' x) :
    HasMatDeriv (fun y => φ (f y)) (fun u => φ' (f' u)) x :=
  fun i j => HasScalDeriv.comp_vec (hφ i j) hf

theorem HasVecDeriv.comp_vec {n k : Nat} {f f' : E → Fin n → ℝ} {x : E} {φ φ' : (Fin n → ℝ) → Fin k → ℝ}
    (hφ : HasVecDeriv φ φ' (f x)) (hf : HasVecDeriv f f' x) :
    HasVecDeriv (fun y => φ (f y)) (fun u => φ' (f' u)) x :=
  fun i => HasScalDeriv.comp_vec (hφ i) hf

/-- Derivatives in the sense of this file are unique. -/
theorem HasScalDeriv.unique {f f' g' : E → ℝ} {x : E} (h : HasScalDeriv f f' x) (h' : HasScalDeriv f g' x) (u : E) :
    f' u = g' u := by
  obtain ⟨L, h1, h2⟩ := h
  obtain ⟨K, h3, h4⟩ := h'
  rw [← h1, ← h3, h2.unique h4]

theorem HasMatDeriv.unique {m n : Nat} {f f' g' : E → Matrix (Fin m) (Fin n) ℝ} {x : E} (h : HasMatDeriv f f' x)
    (h' : HasMatDeriv f g' x) (u : E) : f' u = g' u := by
  ext i j; exact HasScalDeriv.unique (h i j) (h' i j) u

/-! ### The exact rotation of a small vector -/

theorem vnorm_continuous {n : Nat} : Continuous (fun d : Fin n → ℝ => vnorm d) := by
  unfold vnorm dotProduct
  fun_prop

/-- A vector of entries is bounded by its length. -/
theorem abs_le_vnorm {n : Nat} (v : Fin n → ℝ) (i : Fin n) : |v i| ≤ vnorm v := by
  rw [vnorm, ← Real.sqrt_sq_eq_abs]
  apply Real.sqrt_le_sqrt
  rw [sq]
  exact Finset.single_le_sum (f := fun j => v j * v j) (fun j _ => mul_self_nonneg (v j)) (Finset.mem_univ i)

theorem vnorm_bigO : (fun d : V3 => vnorm d) =O[𝓝 0] fun d => d := by
  apply IsBigO.of_bound 2
  refine Filter.Eventually.of_forall fun d => ?_
  rw [Real.norm_of_nonneg (vnorm_nonneg d)]
  have hb : ∀ i, |d i| ≤ ‖d‖ := fun i => norm_le_pi_norm d i
  have : vnorm d ^ 2 ≤ (2 * ‖d‖) ^ 2 := by
    rw [vnorm_sq, dot3]
    have h0 := sq_le_sq' (by linarith [abs_le.mp (hb 0)]) (le_of_abs_le (hb 0))
    have h1 := sq_le_sq' (by linarith [abs_le.mp (hb 1)]) (le_of_abs_le (hb 1))
    have h2 := sq_le_sq' (by linarith [abs_le.mp (hb 2)]) (le_of_abs_le (hb 2))
    nlinarith [sq_nonneg ‖d‖]
  nlinarith [vnorm_nonneg d, norm_nonneg d]

/-- A function that vanishes to second order has derivative zero. -/
theorem deriv_zero_of_sq {f : V3 → ℝ} {C : ℝ} (h : ∀ d, |f d| ≤ C * vnorm d ^ 2) : HasScalDeriv f (fun _ => 0) 0 := by
  refine ⟨0, fun _ => rfl, ?_⟩
  have h0 : f 0 = 0 := by
    have := h 0
    rw [vnorm_eq_zero.mpr rfl] at this
    simpa using this
  rw [hasFDerivAt_iff_isLittleO_nhds_zero]
  simp only [zero_add, h0, _root_.zero_apply, sub_zero]
  have hb : f =O[𝓝 0] fun d => vnorm d * vnorm d := by
    apply IsBigO.of_bound |C|
    refine Filter.Eventually.of_forall fun d => ?_
    rw [Real.norm_eq_abs, Real.norm_of_nonneg (mul_nonneg (vnorm_nonneg d) (vnorm_nonneg d))]
    refine (h d).trans ?_
    rw [sq]
    exact mul_le_mul_of_nonneg_right (le_abs_self C) (mul_nonneg (vnorm_nonneg d) (vnorm_nonneg d))
  have hs : (fun d : V3 => vnorm d) =o[𝓝 0] fun _ => (1 : ℝ) := by
    rw [isLittleO_one_iff]
    have := (vnorm_continuous (n := 3)).tendsto 0
    rwa [vnorm_eq_zero.mpr rfl] at this
  have := hs.mul_isBigO vnorm_bigO.norm_right
  exact (hb.trans_isLittleO this).trans_isBigO (by
    apply IsBigO.of_bound 1
    refine Filter.Eventually.of_forall fun d => ?_
    simp)

theorem rotationOf_zero : rotationOf 0 = 1 := by
  have hl : length (0 : V3) = 0 := by rw [length_eq]; exact vnorm_eq_zero.mpr rfl
  rw [rotationOf, hl, rodrigues]
  simp

theorem rotationOf_eq (w : V3) : rotationOf w = rodrigues ((vnorm w)⁻¹ • w) (vnorm w) := by
  rw [rotationOf, length_eq]

theorem rotationOf_rotation (w : V3) : IsRotation (rotationOf w) := by
  by_cases h : vnorm w = 0
  · rw [vnorm_eq_zero.mp h, rotationOf_zero]; exact isRotation_one
  · rw [rotationOf_eq, ← vdiv_eq_smul]; exact rodrigues_rotation (axis_of h).1 _

/-- The exact rotation differs from `1 + skew w` by at most a multiple of the squared length. -/
theorem rotationOf_near (w : V3) (i j : Fin 3) : |rotationOf w i j - (1 + skew w) i j| ≤ 3 * vnorm w ^ 2 := by
  by_cases h : vnorm w = 0
  · have hw := vnorm_eq_zero.mp h
    rw [hw, rotationOf_zero]
    fin_cases i <;> fin_cases j <;> simp [skew] <;> positivity
  · obtain ⟨ha, hw⟩ := axis_of h
    have hpos : 0 < vnorm w := lt_of_le_of_ne (vnorm_nonneg w) (Ne.symm h)
    rw [rotationOf_eq, ← vdiv_eq_smul]
    set a := vdiv w (vnorm w) with ha'
    set t := vnorm w with ht
    have e : (rodrigues a t - (1 + skew w)) i j = (Real.sin t - t) * skew a i j + (1 - Real.cos t) * (skew a * skew a) i j := by
      rw [← hw, skew_smul, rodrigues]
      simp
      ring
    have e' : rodrigues a t i j - (1 + skew w) i j = (rodrigues a t - (1 + skew w)) i j := rfl
    rw [e', e]
    have hai : ∀ k, |a k| ≤ 1 := fun k => (abs_le_vnorm a k).trans (vnorm_unit ha).le
    have hK : |skew a i j| ≤ 1 := by
      have h0 := hai 0; have h1 := hai 1; have h2 := hai 2
      fin_cases i <;> fin_cases j <;> simp [skew] <;> assumption
    have hKK : |(skew a * skew a) i j| ≤ 3 := by
      have hb : ∀ k l, |skew a k l| ≤ 1 := by
        have h0 := hai 0; have h1 := hai 1; have h2 := hai 2
        intro k l
        fin_cases k <;> fin_cases l <;> simp [skew] <;> assumption
      rw [Matrix.mul_apply, Fin.sum_univ_three]
      have hm : ∀ k, |skew a i k * skew a k j| ≤ 1 := fun k => by
        rw [abs_mul]; exact mul_le_one₀ (hb i k) (abs_nonneg _) (hb k j)
      calc _ ≤ |skew a i 0 * skew a 0 j + skew a i 1 * skew a 1 j| + |skew a i 2 * skew a 2 j| := abs_add_le _ _
        _ ≤ |skew a i 0 * skew a 0 j| + |skew a i 1 * skew a 1 j| + |skew a i 2 * skew a 2 j| := by
          gcongr; exact abs_add_le _ _
        _ ≤ 3 := by linarith [hm 0, hm 1, hm 2]
    have hcos : |1 - Real.cos t| ≤ t ^ 2 / 2 := by
      rw [abs_of_nonneg (by linarith [Real.cos_le_one t])]
      linarith [Real.one_sub_sq_div_two_le_cos (x := t)]
    have hsin : |Real.sin t - t| ≤ t ^ 2 := by
      rw [abs_sub_comm, abs_of_nonneg (by linarith [Real.sin_le hpos.le])]
      by_cases h1 : t ≤ 1
      · have := Real.sin_gt_sub_cube hpos
        nlinarith [sq_nonneg t, mul_le_mul_of_nonneg_left h1 (sq_nonneg t)]
      · have := Real.neg_one_le_sin t
        push Not at h1
        by_cases h2 : 2 ≤ t
        · nlinarith
        · have h3 : 0 ≤ Real.sin t := Real.sin_nonneg_of_nonneg_of_le_pi hpos.le (by linarith [Real.pi_gt_three])
          nlinarith
    calc _ ≤ |(Real.sin t - t) * skew a i j| + |(1 - Real.cos t) * (skew a * skew a) i j| := abs_add_le _ _
      _ ≤ t ^ 2 * 1 + t ^ 2 / 2 * 3 := by
        rw [abs_mul, abs_mul]
        gcongr
      _ ≤ 3 * t ^ 2 := by nlinarith [sq_nonneg t]

theorem rotationOf_deriv : HasMatDeriv rotationOf (fun u => skew u) 0 := by
  intro i j
  have h1 := deriv_zero_of_sq (f := fun d => rotationOf d i j - (1 + skew d) i j) (C := 3) (fun d => rotationOf_near d i j)
  have h2 : HasScalDeriv (fun d : V3 => (1 + skew d) i j) (fun u => skew u i j) (0 : V3) :=
    HasScalDeriv.congr (HasScalDeriv.add (HasScalDeriv.const ((1 : M3) i j) 0) (HasMatDeriv.skew (HasVecDeriv.id 0) i j))
      fun u => by ring
  have h3 := HasScalDeriv.congr (HasScalDeriv.add h1 h2) (g' := fun u => skew u i j) fun u => by ring
  refine HasScalDeriv.congr_of_eventuallyEq h3 (Filter.Eventually.of_forall fun d => ?_)
  simp

theorem rotationOf_mul_deriv (R : M3) : HasMatDeriv (fun d => rotationOf d * R) (fun u => skew u * R) 0 := by
  refine HasMatDeriv.congr (HasMatDeriv.mul rotationOf_deriv (HasMatDeriv.const R 0)) fun u => ?_
  simp

/-! ### The exponential is differentiable away from zero -/

theorem vnorm_differentiableAt {n : Nat} {w : Fin n → ℝ} (h : vnorm w ≠ 0) : DifferentiableAt ℝ (fun d : Fin n → ℝ => vnorm d) w := by
  unfold vnorm
  have h0 : w ⬝ᵥ w ≠ 0 := by
    intro h0; apply h; unfold vnorm; rw [h0]; exact Real.sqrt_zero
  have hd : DifferentiableAt ℝ (fun d : Fin n → ℝ => d ⬝ᵥ d) w := by
    unfold dotProduct
    fun_prop
  exact hd.sqrt h0

theorem rodrigues_differentiableAt {w : V3} (h : vnorm w ≠ 0) (i j : Fin 3) :
    DifferentiableAt ℝ (fun d : V3 => rodrigues ((vnorm d)⁻¹ • d) (vnorm d) i j) w := by
  have hn := vnorm_differentiableAt h
  have hK : ∀ k l, DifferentiableAt ℝ (fun d : V3 => skew ((vnorm d)⁻¹ • d) k l) w := by
    have hc : ∀ k : Fin 3, DifferentiableAt ℝ (fun d : V3 => (vnorm d)⁻¹ * d k) w := by
      intro k; fun_prop (disch := assumption)
    intro k l
    fin_cases k <;> fin_cases l <;> simp only [skew] <;> first
      | exact differentiableAt_const 0
      | exact hc 0
      | exact hc 1
      | exact hc 2
      | exact (hc 0).neg
      | exact (hc 1).neg
      | exact (hc 2).neg
  have e : (fun d : V3 => rodrigues ((vnorm d)⁻¹ • d) (vnorm d) i j) = fun d : V3 =>
      (1 : M3) i j + Real.sin (vnorm d) * skew ((vnorm d)⁻¹ • d) i j +
        (1 - Real.cos (vnorm d)) * ∑ k, skew ((vnorm d)⁻¹ • d) i k * skew ((vnorm d)⁻¹ • d) k j := by
    funext d
    simp [rodrigues, Matrix.mul_apply]
  rw [e]
  have h1 := hK i j
  have hs : DifferentiableAt ℝ (fun d : V3 => ∑ k, skew ((vnorm d)⁻¹ • d) i k * skew ((vnorm d)⁻¹ • d) k j) w :=
    DifferentiableAt.fun_sum fun k _ => (hK i k).mul (hK k j)
  exact ((differentiableAt_const _).add (hn.sin.mul h1)).add (((differentiableAt_const _).sub hn.cos).mul hs)

theorem dcmOf_deriv_exists {w : V3} (h : 1e-8 < vnorm w) : ∃ D : V3 → M3, HasMatDeriv PoseVar.dcmOf D w := by
  have hne : vnorm w ≠ 0 := (lt_trans (by norm_num) h).ne'
  have hev : ∀ᶠ d in 𝓝 w, PoseVar.dcmOf d = rodrigues ((vnorm d)⁻¹ • d) (vnorm d) := by
    have := (vnorm_continuous (n := 3)).continuousAt.eventually_const_lt h
    filter_upwards [this] with d hd
    rw [dcmOf_big hd.le, vdiv_eq_smul]
  refine ⟨fun u => Matrix.of fun i j => fderiv ℝ (fun d : V3 => rodrigues ((vnorm d)⁻¹ • d) (vnorm d) i j) w u,
    fun i j => ⟨fderiv ℝ (fun d : V3 => rodrigues ((vnorm d)⁻¹ • d) (vnorm d) i j) w, fun u => rfl, ?_⟩⟩
  exact (rodrigues_differentiableAt hne i j).hasFDerivAt.congr_of_eventuallyEq (hev.mono fun d hd => congrFun (congrFun hd i) j)

theorem angle_eq_of_trace {A B : M3} (h : A.trace = B.trace) : angle A = angle B := by unfold angle; rw [h]

/-- Storing the orientation as a rotation vector and computing the matrix back does not change how the matrix moves. -/
theorem stored_motion {M : E → M3} {A : E → V3} {x : E} (hM : HasMatDeriv M (fun u => skew (A u) * M x) x)
    (hR : IsRotation (M x)) (hreg : Regular (M x)) :
    PoseVar.dcmOf (logSO3 (M x)) = M x ∧
    HasMatDeriv (fun y => PoseVar.dcmOf (logSO3 (M y))) (fun u => skew (A u) * M x) x := by
  have he := IsRotation.eqs hR
  have h1 := hreg.1
  have hv := vnorm_log he h1.le
  have hbig : 1e-8 < vnorm (logSO3 (M x)) := by rw [hv]; exact lt_trans (by norm_num) h1
  have hid : ∀ R, IsRotation R → 1e-5 < angle R → PoseVar.dcmOf (logSO3 R) = R := by
    intro R hR' ha
    have hv' := vnorm_log (IsRotation.eqs hR') ha.le
    rw [dcmOf_exp (by rw [hv']; exact (lt_trans (by norm_num) ha).le), exp_log (IsRotation.eqs hR') ha.le]
  refine ⟨hid _ hR h1, ?_⟩
  obtain ⟨D, hD⟩ := dcmOf_deriv_exists hbig
  obtain ⟨J, hJok, hJ⟩ := log_deriv hM hR hreg
  have hcomp := HasMatDeriv.comp_vec (f := fun y => logSO3 (M y)) (x := x) hD hJ
  refine HasMatDeriv.congr hcomp fun u => ?_
  -- the same composition along exact rotations is the identity
  have hM' : HasMatDeriv (fun d : V3 => rotationOf d * M x) (fun v => skew v * (rotationOf 0 * M x)) 0 := by
    rw [rotationOf_zero, one_mul]; exact rotationOf_mul_deriv (M x)
  have e0 : rotationOf 0 * M x = M x := by rw [rotationOf_zero, one_mul]
  obtain ⟨J', hJ1, hJ2⟩ := log_deriv (A := fun v => v) hM' (by rw [e0]; exact hR) (by rw [e0]; exact hreg)
  have hcomp' := HasMatDeriv.comp_vec (φ := PoseVar.dcmOf) (φ' := D) (f := fun d : V3 => logSO3 (rotationOf d * M x))
    (by simp only [e0]; exact hD) hJ2
  have hev : (fun d : V3 => rotationOf d * M x) =ᶠ[𝓝 0] fun d => PoseVar.dcmOf (logSO3 (rotationOf d * M x)) := by
    have hc : ContinuousAt (fun d : V3 => angle (rotationOf d * M x)) 0 := by
      have ht := HasScalDeriv.continuousAt (HasMatDeriv.trace (rotationOf_mul_deriv (M x)))
      unfold angle
      exact Real.continuous_arccos.continuousAt.comp ((ht.sub continuousAt_const).div_const 2)
    have h1' : 1e-5 < angle (rotationOf 0 * M x) := by rw [e0]; exact h1
    have := hc.eventually_const_lt h1'
    filter_upwards [this] with d hd
    exact (hid _ (rotation_mul (rotationOf_rotation d) hR) hd).symm
  have huniq := HasMatDeriv.unique (HasMatDeriv.congr_of_eventuallyEq hcomp' hev) (rotationOf_mul_deriv (M x)) (A u)
  have hJJ : J' = J := by
    have a1 := hJ1
    rw [e0] at a1
    rw [hJok] at a1
    exact (Res.ok.inj a1).symm
  rw [← hJJ]
  exact huniq

end Factorama.Geo
