import Verif.Lemmas.Factors

/-!
# Orientation factors: C45
-/

namespace Factorama.Props
open Matrix Geo Spec Topology Filter

/-- The rotation matrix and the stored rotation vector of a prior agree. -/
theorem prior_stored {R : M3} (hR : IsRotation R) (h : R = 1 ∨ 1e-5 ≤ angle R) : expSO3 (logSO3 R) = R := by
  rcases h with rfl | h
  · rw [log_one, exp_zero]
  · exact exp_log (IsRotation.eqs hR) h

/-- **C45** `PoseOrientationPriorFactor`: the residual is zero exactly when the orientation is the prior. -/
theorem C45_pose_prior_zero (h : Heap RVar) (id : Int) (p : VRef) (v : PoseVar) (prior : M3) (sigma : ℝ)
    (hp : h p = .pose v) (hR : IsRotation v.dcm) (hP : IsRotation prior) (hs : prior = 1 ∨ 1e-5 ≤ angle prior)
    (hsig : sigma ≠ 0) :
    ZeroResidual (Fac.poseOrientationPrior id p prior sigma) h ↔ v.dcm = prior := by
  simp only [ZeroResidual, Fac.poseOrientationPrior, hp, prior_stored hP hs, Res.ok.injEq]
  rw [toList_eq_zero, smul_weight_eq_zero hsig, log_eq_zero (rotation_mul hR (isRotation_transpose hP)),
    mul_transpose_eq_one hP]

/-- A pose turned by one radian, as the prior. -/
example : ZeroResidual (Fac.poseOrientationPrior 1 0 (PoseVar.dcmOf ![1, 0, 0]) 0.1)
    (fun _ => .pose (PoseVar.make 0 ![1, 2, 3] ![1, 0, 0])) :=
  (C45_pose_prior_zero _ 1 0 _ _ 0.1 rfl (example_pose _ _).1 example_regular.2 (.inr example_regular.1.1.le)
    (by norm_num)).mpr rfl

/-- **C45** `PoseOrientationPriorFactor`: the block is the derivative of the residual, when the orientation equals the
prior or differs from it by a moderate angle. -/
theorem C45_pose_prior_jacobian (h : Heap RVar) (id : Int) (p : VRef) (v : PoseVar) (prior : M3) (sigma : ℝ)
    (hp : h p = .pose v) (hR : IsRotation v.dcm) (hP : IsRotation prior) (hs : prior = 1 ∨ 1e-5 ≤ angle prior)
    (hE : v.dcm = prior ∨ Regular (v.dcm * priorᵀ)) (incr : Increment) (hi : PoseIncrement v incr) :
    JacobiansCorrect incr (Fac.poseOrientationPrior id p prior sigma) h := by
  intro old
  obtain ⟨γ, hγ, hmot⟩ := pose_motion hi hR
  have hE' : v.dcm * priorᵀ = 1 ∨ Regular (v.dcm * priorᵀ) := hE.imp_left (mul_transpose_eq_one hP).mpr
  have hM : HasMatDeriv (fun d => (γ d).dcm * priorᵀ) (fun u => skew (incRot u) * ((γ 0).dcm * priorᵀ)) 0 := by
    refine HasMatDeriv.congr (HasMatDeriv.mul hmot.deriv (HasMatDeriv.const priorᵀ 0)) fun u => ?_
    rw [hmot.start, Matrix.mul_assoc, mul_zero, add_zero]
  obtain ⟨J, hJ, _, hd⟩ := log_deriv' hM (by rw [hmot.start]; exact rotation_mul hR (isRotation_transpose hP))
    (by rw [hmot.start]; exact hE')
  rw [hmot.start] at hJ
  refine ⟨[Fac.block (h p) (Fac.beside 0 ((1 / sigma) • J))], ?_, .cons (block_ok ?_) .nil⟩
  · simp only [Fac.poseOrientationPrior, hp, prior_stored hP hs, hJ, Res.andThen, Fac.block, VarLike.isConst]
    split <;> exact fillBlocks_ok rfl
  · refine isDerivative_of (fun d => (1 / sigma) • logSO3 ((γ d).dcm * priorᵀ)) rfl (by rw [hp]; rfl) ?_
      (Eventually.of_forall fun d => ?_) ?_
    · simp only [Fac.poseOrientationPrior, hp, prior_stored hP hs, hmot.start]
    · simp only [residualAfter, hp, hγ d, Fac.poseOrientationPrior, set_same, prior_stored hP hs]
    · refine HasVecDeriv.congr (HasVecDeriv.const_smul _ hd) fun u => ?_
      simp [beside_mulVec, Matrix.smul_mulVec]

/-- The prior is the identity, the pose is turned by one radian. -/
example : JacobiansCorrect codeIncr (Fac.poseOrientationPrior 1 0 1 0.1)
    (fun _ => .pose (PoseVar.make 0 ![1, 2, 3] ![1, 0, 0])) :=
  C45_pose_prior_jacobian _ 1 0 _ 1 0.1 rfl (example_pose _ _).1 isRotation_one (.inl rfl)
    (.inr (by rw [transpose_one, Matrix.mul_one]; exact (example_pose _ _).2.1)) _ (example_pose _ _).2.2

/-- **C45** `RotationPriorFactor`: the residual is zero exactly when the rotation is the prior. -/
theorem C45_rotation_prior_zero (h : Heap RVar) (id : Int) (r : VRef) (v : RotationVar) (prior : M3) (sigma : ℝ)
    (hr : h r = .rotation v) (hR : IsRotation v.dcm) (hP : IsRotation prior) (hsig : sigma ≠ 0) :
    ZeroResidual (Fac.rotationPrior id r prior sigma) h ↔ v.dcm = prior := by
  simp only [ZeroResidual, Fac.rotationPrior, hr, Res.ok.injEq]
  rw [toList_eq_zero, smul_weight_eq_zero hsig, log_eq_zero (rotation_mul hR (isRotation_transpose hP)),
    mul_transpose_eq_one hP]

/-- A rotation by one radian, as the prior. -/
example : ZeroResidual (Fac.rotationPrior 1 0 (PoseVar.dcmOf ![1, 0, 0]) 0.1)
    (fun _ => .rotation (RotationVar.make 0 (PoseVar.dcmOf ![1, 0, 0]))) :=
  (C45_rotation_prior_zero _ 1 0 _ _ 0.1 rfl example_regular.2 example_regular.2 (by norm_num)).mpr rfl

/-- **C45** `RotationPriorFactor`: the block is the derivative of the residual. -/
theorem C45_rotation_prior_jacobian (h : Heap RVar) (id : Int) (r : VRef) (v : RotationVar) (prior : M3) (sigma : ℝ)
    (hr : h r = .rotation v) (hR : IsRotation v.dcm) (hP : IsRotation prior)
    (hE : v.dcm = prior ∨ Regular (v.dcm * priorᵀ)) (incr : Increment) (hi : AnyIncrement incr) :
    JacobiansCorrect incr (Fac.rotationPrior id r prior sigma) h := by
  intro old
  obtain ⟨γ, hγ, hmot⟩ := rotation_motion v hi
  have hE' : v.dcm * priorᵀ = 1 ∨ Regular (v.dcm * priorᵀ) := hE.imp_left (mul_transpose_eq_one hP).mpr
  have hM : HasMatDeriv (fun d => (γ d).dcm * priorᵀ) (fun u => skew u * ((γ 0).dcm * priorᵀ)) 0 := by
    refine HasMatDeriv.congr (HasMatDeriv.mul hmot.deriv (HasMatDeriv.const priorᵀ 0)) fun u => ?_
    rw [hmot.start, Matrix.mul_assoc, mul_zero, add_zero]
  obtain ⟨J, hJ, _, hd⟩ := log_deriv' (A := fun u => u) hM
    (by rw [hmot.start]; exact rotation_mul hR (isRotation_transpose hP)) (by rw [hmot.start]; exact hE')
  rw [hmot.start] at hJ
  refine ⟨[Fac.block (h r) ((1 / sigma) • J)], ?_, .cons (block_ok ?_) .nil⟩
  · simp only [Fac.rotationPrior, hr, hJ, Res.andThen, Fac.block, VarLike.isConst]
    split <;> exact fillBlocks_ok rfl
  · refine isDerivative_of (fun d => (1 / sigma) • logSO3 ((γ d).dcm * priorᵀ)) rfl (by rw [hr]; rfl) ?_
      (Eventually.of_forall fun d => ?_) ?_
    · simp only [Fac.rotationPrior, hr, hmot.start]
    · simp only [residualAfter, hr, hγ d, Fac.rotationPrior, set_same]
    · refine HasVecDeriv.congr (HasVecDeriv.const_smul _ hd) fun u => ?_
      simp [Matrix.smul_mulVec]

/-- The prior is the identity, the rotation is a turn by one radian. -/
example : JacobiansCorrect codeIncr (Fac.rotationPrior 1 0 1 0.1)
    (fun _ => .rotation (RotationVar.make 0 (PoseVar.dcmOf ![1, 0, 0]))) :=
  C45_rotation_prior_jacobian _ 1 0 _ 1 0.1 rfl example_regular.2 isRotation_one
    (.inr (by simpa [RotationVar.make] using example_regular.1)) _ .code

theorem orientation_between_residual {h : Heap RVar} {p1 p2 c : VRef} {v1 v2 : PoseVar} {vc : RotationVar}
    (h1 : h p1 = .pose v1) (h2 : h p2 = .pose v2) (hc : h c = .rotation vc) (id : Int) (sigma : ℝ) :
    (Fac.poseOrientationBetween id p1 p2 c sigma).computeResidual h =
      .ok (toList ((1 / sigma) • logSO3 (v2.dcm * v1.dcmᵀ * vc.dcm))) := by
  simp only [Fac.poseOrientationBetween, h1, h2, hc]

/-- **C45** `PoseOrientationBetweenFactor`: the residual is zero exactly when the calibration rotation takes the second
orientation to the first. -/
theorem C45_orientation_between_zero (h : Heap RVar) (id : Int) (p1 p2 c : VRef) (v1 v2 : PoseVar) (vc : RotationVar)
    (sigma : ℝ) (h1 : h p1 = .pose v1) (h2 : h p2 = .pose v2) (hc : h c = .rotation vc) (hR1 : IsRotation v1.dcm)
    (hR2 : IsRotation v2.dcm) (hRc : IsRotation vc.dcm) (hsig : sigma ≠ 0) :
    ZeroResidual (Fac.poseOrientationBetween id p1 p2 c sigma) h ↔ vc.dcm = v1.dcm * v2.dcmᵀ := by
  rw [ZeroResidual, orientation_between_residual h1 h2 hc, Res.ok.injEq]
  have hR := rotation_mul (rotation_mul hR2 (isRotation_transpose hR1)) hRc
  refine toList_eq_zero.trans ((smul_weight_eq_zero hsig).trans ((log_eq_zero hR).trans ?_))
  have e1 := IsRotation.transpose_mul hR1
  have e2 := IsRotation.transpose_mul hR2
  constructor
  · intro hE
    have := congrArg (fun M => v1.dcm * v2.dcmᵀ * M) hE
    simp only [Matrix.mul_one] at this
    rw [← this]
    calc vc.dcm = v1.dcm * v1.dcmᵀ * vc.dcm := by rw [hR1.1, Matrix.one_mul]
      _ = v1.dcm * (v2.dcmᵀ * v2.dcm) * v1.dcmᵀ * vc.dcm := by rw [e2, Matrix.mul_one]
      _ = _ := by simp only [Matrix.mul_assoc]
  · intro hE
    rw [hE]
    calc v2.dcm * v1.dcmᵀ * (v1.dcm * v2.dcmᵀ) = v2.dcm * (v1.dcmᵀ * v1.dcm) * v2.dcmᵀ := by simp only [Matrix.mul_assoc]
      _ = 1 := by rw [e1, Matrix.mul_one, hR2.1]

/-- The first pose is turned by one radian, the second is not, and the calibration is this turn. -/
example : ZeroResidual (Fac.poseOrientationBetween 9 0 1 2 0.1)
    (fun r => if r = 2 then .rotation (RotationVar.make 2 (PoseVar.dcmOf ![1, 0, 0]))
      else if r = 1 then .pose (PoseVar.make 1 0 0) else .pose (PoseVar.make 0 0 ![1, 0, 0])) := by
  have e : (PoseVar.make 1 0 0).dcm = 1 := dcmOf_small (by rw [vnorm_eq_zero.mpr rfl]; norm_num)
  refine (C45_orientation_between_zero _ 9 0 1 2 (PoseVar.make 0 0 ![1, 0, 0]) (PoseVar.make 1 0 0)
    (RotationVar.make 2 (PoseVar.dcmOf ![1, 0, 0])) 0.1 rfl rfl rfl (example_pose _ _).1 (by rw [e]; exact isRotation_one)
    example_regular.2 (by norm_num)).mpr ?_
  rw [e, transpose_one, Matrix.mul_one]
  rfl

/-- `R skew(w) Rᵀ = skew(R w)`. -/
theorem rotation_skew {R : M3} (hR : IsRotation R) (w : V3) : R * skew w = skew (R *ᵥ w) * R := by
  obtain ⟨hr, hc, c00, c01, c02, c10, c11, c12, c20, c21, c22⟩ := IsRotation.eqs hR
  ext i j
  fin_cases i <;> fin_cases j <;>
    simp [skew, Matrix.mul_apply, Fin.sum_univ_three, Matrix.mulVec, dotProduct] <;> grind

/-- **C45** `PoseOrientationBetweenFactor`: the three blocks are the derivatives of the residual. -/
theorem C45_orientation_between_jacobian (h : Heap RVar) (id : Int) (p1 p2 c : VRef) (v1 v2 : PoseVar) (vc : RotationVar)
    (sigma : ℝ) (h1 : h p1 = .pose v1) (h2 : h p2 = .pose v2) (hc : h c = .rotation vc) (h12 : p1 ≠ p2)
    (hR1 : IsRotation v1.dcm) (hR2 : IsRotation v2.dcm) (hRc : IsRotation vc.dcm)
    (hE : v2.dcm * v1.dcmᵀ * vc.dcm = 1 ∨ Regular (v2.dcm * v1.dcmᵀ * vc.dcm)) (incr : Increment)
    (hi1 : PoseIncrement v1 incr) (hi2 : PoseIncrement v2 incr) :
    JacobiansCorrect incr (Fac.poseOrientationBetween id p1 p2 c sigma) h := by
  intro old
  have h1c : p1 ≠ c := by rintro rfl; rw [h1] at hc; simp at hc
  have h2c : p2 ≠ c := by rintro rfl; rw [h2] at hc; simp at hc
  have hR := rotation_mul (rotation_mul hR2 (isRotation_transpose hR1)) hRc
  obtain ⟨γ1, hγ1, hm1⟩ := pose_motion hi1 hR1
  obtain ⟨γ2, hγ2, hm2⟩ := pose_motion hi2 hR2
  obtain ⟨γc, hγc, hmc⟩ := rotation_motion vc (PoseIncrement.any hi1)
  set E := v2.dcm * v1.dcmᵀ * vc.dcm with hEdef
  -- motion of the error for each variable
  have hM1 : HasMatDeriv (fun d => v2.dcm * (γ1 d).dcmᵀ * vc.dcm)
      (fun u => skew (-(v2.dcm * v1.dcmᵀ) *ᵥ incRot u) * (v2.dcm * (γ1 0).dcmᵀ * vc.dcm)) 0 := by
    refine HasMatDeriv.congr (HasMatDeriv.mul (HasMatDeriv.mul (HasMatDeriv.const v2.dcm 0)
      (HasMatDeriv.transpose hm1.deriv)) (HasMatDeriv.const vc.dcm 0)) fun u => ?_
    have := rotation_skew (rotation_mul hR2 (isRotation_transpose hR1)) (incRot u)
    rw [hm1.start, Matrix.neg_mulVec, show skew (-((v2.dcm * v1.dcmᵀ) *ᵥ incRot u)) = -skew ((v2.dcm * v1.dcmᵀ) *ᵥ incRot u) by
      rw [← neg_one_smul ℝ, skew_smul, neg_one_smul], Matrix.neg_mul, ← Matrix.mul_assoc (skew _), ← this]
    simp [Matrix.transpose_mul, skew_transpose, Matrix.mul_assoc]
  have hM2 : HasMatDeriv (fun d => (γ2 d).dcm * v1.dcmᵀ * vc.dcm)
      (fun u => skew (incRot u) * ((γ2 0).dcm * v1.dcmᵀ * vc.dcm)) 0 := by
    refine HasMatDeriv.congr (HasMatDeriv.mul (HasMatDeriv.mul hm2.deriv (HasMatDeriv.const v1.dcmᵀ 0))
      (HasMatDeriv.const vc.dcm 0)) fun u => ?_
    rw [hm2.start]
    simp [Matrix.mul_assoc]
  have hMc : HasMatDeriv (fun d => v2.dcm * v1.dcmᵀ * (γc d).dcm)
      (fun u => skew ((v2.dcm * v1.dcmᵀ) *ᵥ u) * (v2.dcm * v1.dcmᵀ * (γc 0).dcm)) 0 := by
    refine HasMatDeriv.congr (HasMatDeriv.mul (HasMatDeriv.const (v2.dcm * v1.dcmᵀ) 0) hmc.deriv) fun u => ?_
    have := rotation_skew (rotation_mul hR2 (isRotation_transpose hR1)) u
    rw [hmc.start, ← Matrix.mul_assoc (skew _), ← this, zero_mul, zero_add, Matrix.mul_assoc (v2.dcm * v1.dcmᵀ)]
  obtain ⟨J, hJ, hJE, hd1⟩ := log_deriv' hM1 (by rw [hm1.start]; exact hR) (by rw [hm1.start]; exact hE)
  obtain ⟨J2, hJ2, _, hd2⟩ := log_deriv' hM2 (by rw [hm2.start]; exact hR) (by rw [hm2.start]; exact hE)
  obtain ⟨J3, hJ3, _, hd3⟩ := log_deriv' hMc (by rw [hmc.start]; exact hR) (by rw [hmc.start]; exact hE)
  rw [hm1.start] at hJ hJE
  rw [hm2.start] at hJ2
  rw [hmc.start] at hJ3
  have e2 : J2 = J := by rw [hJ] at hJ2; exact (Res.ok.inj hJ2).symm
  have e3 : J3 = J := by rw [hJ] at hJ3; exact (Res.ok.inj hJ3).symm
  subst e2 e3
  rw [← hEdef] at hJE hJ
  have hJEt : J3ᵀ * Eᵀ = J3 := by rw [hJE, Matrix.mul_assoc, hR.1, Matrix.mul_one]
  have hJc : J3ᵀ * vc.dcmᵀ = J3 * (v2.dcm * v1.dcmᵀ) := by
    rw [hJE, hEdef, Matrix.mul_assoc, Matrix.mul_assoc, hRc.1, Matrix.mul_one]
  refine ⟨_, by simp only [Fac.poseOrientationBetween, h1, h2, hc, ← hEdef, hJ, Res.andThen]; exact fillBlocks_ok rfl, ?_⟩
  rw [← h1, ← h2, ← hc]
  refine .cons (block_ok ?_) (.cons (block_ok ?_) (.cons (block_ok ?_) .nil))
  · refine isDerivative_of (fun d => (1 / sigma) • logSO3 (v2.dcm * (γ1 d).dcmᵀ * vc.dcm)) rfl (by rw [h1]; rfl) ?_
      (Eventually.of_forall fun d => ?_) ?_
    · rw [orientation_between_residual h1 h2 hc, hm1.start]
    · simp only [residualAfter, h1, hγ1 d]
      exact orientation_between_residual (set_same _ _ _) (by rw [set_other _ _ h12.symm]; exact h2)
        (by rw [set_other _ _ h1c.symm]; exact hc) id _
    · refine HasVecDeriv.congr (HasVecDeriv.const_smul _ hd1) fun u => ?_
      simp [beside_mulVec, Matrix.smul_mulVec, hJc, Matrix.neg_mulVec, Matrix.mulVec_neg]
  · refine isDerivative_of (fun d => (1 / sigma) • logSO3 ((γ2 d).dcm * v1.dcmᵀ * vc.dcm)) rfl (by rw [h2]; rfl) ?_
      (Eventually.of_forall fun d => ?_) ?_
    · rw [orientation_between_residual h1 h2 hc, hm2.start]
    · simp only [residualAfter, h2, hγ2 d]
      exact orientation_between_residual (by rw [set_other _ _ h12]; exact h1) (set_same _ _ _)
        (by rw [set_other _ _ h2c.symm]; exact hc) id _
    · refine HasVecDeriv.congr (HasVecDeriv.const_smul _ hd2) fun u => ?_
      simp [beside_mulVec, Matrix.smul_mulVec, hJEt]
  · refine isDerivative_of (fun d => (1 / sigma) • logSO3 (v2.dcm * v1.dcmᵀ * (γc d).dcm)) rfl (by rw [hc]; rfl) ?_
      (Eventually.of_forall fun d => ?_) ?_
    · rw [orientation_between_residual h1 h2 hc, hmc.start]
    · simp only [residualAfter, hc, hγc d]
      exact orientation_between_residual (by rw [set_other _ _ h1c]; exact h1) (by rw [set_other _ _ h2c]; exact h2)
        (set_same _ _ _) id _
    · refine HasVecDeriv.congr (HasVecDeriv.const_smul _ hd3) fun u => ?_
      simp [Matrix.smul_mulVec, hJc]

/-- Two equal orientations, with a calibration of one radian. -/
example : JacobiansCorrect codeIncr (Fac.poseOrientationBetween 9 0 1 2 0.1)
    (fun r => if r = 2 then .rotation (RotationVar.make 2 (PoseVar.dcmOf ![1, 0, 0]))
      else .pose (PoseVar.make r ![1, 2, r] ![1, 0, 0])) := by
  refine C45_orientation_between_jacobian _ 9 0 1 2 (PoseVar.make 0 ![1, 2, (0 : VRef)] ![1, 0, 0])
    (PoseVar.make 1 ![1, 2, (1 : VRef)] ![1, 0, 0]) _ 0.1 rfl rfl rfl (by decide) (example_pose _ _).1 (example_pose _ _).1
    example_regular.2 (.inr ?_) _ (example_pose _ _).2.2 (example_pose _ _).2.2
  have : ∀ i j p q, (PoseVar.make i p ![1, 0, 0]).dcm * (PoseVar.make j q ![1, 0, 0]).dcmᵀ = 1 :=
    fun _ _ _ _ => example_regular.2.1
  rw [this, Matrix.one_mul]
  exact example_regular.1

end Factorama.Props
