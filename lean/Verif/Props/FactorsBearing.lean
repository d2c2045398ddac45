import Verif.Lemmas.Factors
import Verif.Props.Variables

/-!
# Bearing factors: C46, C47, C48
-/

namespace Factorama.Props
open Matrix Geo Spec Topology Filter

/-! ### Directions -/

theorem vnorm_ne {n : Nat} {v : Fin n → ℝ} (h : v ≠ 0) : vnorm v ≠ 0 := fun h0 => h (vnorm_eq_zero.mp h0)

theorem normalized_zero {n : Nat} : normalized (0 : Fin n → ℝ) = 0 := by simp [normalized]

/-- Two directions agree exactly when one vector is a positive multiple of the other. -/
theorem normalized_eq_iff {n : Nat} {u b : Fin n → ℝ} (hb : b ≠ 0) : normalized u = normalized b ↔ ∃ s : ℝ, 0 < s ∧ u = s • b := by
  have hnb : 0 < vnorm b := lt_of_le_of_ne (vnorm_nonneg b) (vnorm_ne hb).symm
  constructor
  · intro h
    have hu : u ≠ 0 := by
      rintro rfl
      rw [normalized_zero] at h
      have := normalized_unit hb
      rw [← h] at this
      simp at this
    have hnu : 0 < vnorm u := lt_of_le_of_ne (vnorm_nonneg u) (vnorm_ne hu).symm
    rw [normalized_eq hnu.ne', normalized_eq hnb.ne'] at h
    refine ⟨vnorm u * (vnorm b)⁻¹, by positivity, ?_⟩
    have := congrArg (vnorm u • ·) h
    simpa [smul_smul, hnu.ne'] using this
  · rintro ⟨s, hs, rfl⟩
    have : vnorm (s • b) = s * vnorm b := by rw [vnorm_smul, abs_of_pos hs]
    rw [normalized_eq (by rw [this]; positivity), normalized_eq hnb.ne', this, smul_smul]
    congr 1
    field_simp

/-! ### C46 BearingObservationFactor -/

theorem make_zero_dcm (id : Int) (pos : V3) : (PoseVar.make id pos 0).dcm = 1 :=
  dcmOf_small (by rw [vnorm_eq_zero.mpr rfl]; norm_num)

theorem bearing_residual {h : Heap RVar} {p l : VRef} {v : PoseVar} {x : LandmarkVar} {pw : V3} (hp : h p = .pose v)
    (hl : h l = .landmark x) (hx : x.value = toList pw) (id : Int) (bearing : V3) (sigma : ℝ) :
    (Fac.bearingObservation id p l bearing sigma).computeResidual h =
      .ok (toList ((1 / sigma) • (normalized (v.dcm *ᵥ (pw - v.pos)) - normalized bearing))) := by
  simp only [Fac.bearingObservation, hp, hl, posW_of hx, Res.map]

/-- **C46** The residual is zero exactly when the landmark lies on the observed ray, in front of the camera. -/
theorem C46_zero (h : Heap RVar) (id : Int) (p l : VRef) (v : PoseVar) (x : LandmarkVar) (pw bearing : V3) (sigma : ℝ)
    (hp : h p = .pose v) (hl : h l = .landmark x) (hx : x.value = toList pw) (hb : bearing ≠ 0) (hs : sigma ≠ 0) :
    ZeroResidual (Fac.bearingObservation id p l bearing sigma) h ↔ ∃ s : ℝ, 0 < s ∧ v.dcm *ᵥ (pw - v.pos) = s • bearing := by
  rw [ZeroResidual, bearing_residual hp hl hx, Res.ok.injEq]
  exact toList_eq_zero.trans ((smul_weight_eq_zero hs).trans (sub_eq_zero.trans (normalized_eq_iff hb)))

/-- A landmark three units along the observed ray. -/
example : ZeroResidual (Fac.bearingObservation 9 0 1 ![0, 0, 2] 0.1)
    (fun r => if r = 1 then .landmark (LandmarkVar.make 1 ![1, 0, 3]) else .pose (PoseVar.make 0 ![1, 0, 0] 0)) := by
  refine (C46_zero _ 9 0 1 (PoseVar.make 0 ![1, 0, 0] 0) _ ![1, 0, 3] _ 0.1 rfl rfl rfl (fun h => ?_) (by norm_num)).mpr
    ⟨3 / 2, by norm_num, ?_⟩
  · simpa using congrFun h 2
  · rw [make_zero_dcm, Matrix.one_mulVec]
    show (![1, 0, 3] - ![1, 0, 0] : V3) = _
    funext i; fin_cases i <;> norm_num

/-- **C46** The residual does not change when pose and landmark are moved together by the rigid motion `y ↦ Q y + t`. -/
theorem C46_invariant (h h' : Heap RVar) (id : Int) (p l : VRef) (v v' : PoseVar) (x x' : LandmarkVar) (pw : V3)
    (bearing : V3) (sigma : ℝ) (Q : M3) (t : V3) (hQ : IsRotation Q)
    (hp : h p = .pose v) (hl : h l = .landmark x) (hx : x.value = toList pw)
    (hp' : h' p = .pose v') (hl' : h' l = .landmark x') (hx' : x'.value = toList (Q *ᵥ pw + t))
    (hpos : v'.pos = Q *ᵥ v.pos + t) (hdcm : v'.dcm = v.dcm * Qᵀ) :
    (Fac.bearingObservation id p l bearing sigma).computeResidual h' =
      (Fac.bearingObservation id p l bearing sigma).computeResidual h := by
  rw [bearing_residual hp hl hx, bearing_residual hp' hl' hx', hpos, hdcm]
  have : (v.dcm * Qᵀ) *ᵥ (Q *ᵥ pw + t - (Q *ᵥ v.pos + t)) = v.dcm *ᵥ (pw - v.pos) := by
    rw [add_sub_add_right_eq_sub, ← Matrix.mulVec_sub, Matrix.mulVec_mulVec, Matrix.mul_assoc, IsRotation.transpose_mul hQ,
      Matrix.mul_one]
  rw [this]

/-- Pose and landmark turned by one radian and shifted. -/
example : ∃ h h' : Heap RVar, h 1 ≠ h' 1 ∧ (Fac.bearingObservation 9 0 1 ![0, 0, 2] 0.1).computeResidual h' =
    (Fac.bearingObservation 9 0 1 ![0, 0, 2] 0.1).computeResidual h := by
  let v : PoseVar := { PoseVar.make 0 0 0 with dcm := 1 }
  let Q : M3 := PoseVar.dcmOf ![1, 0, 0]
  refine ⟨fun r => if r = 1 then .landmark (LandmarkVar.make 1 0) else .pose v,
    fun r => if r = 1 then .landmark (LandmarkVar.make 1 (Q *ᵥ 0 + ![1, 2, 3]))
      else .pose { v with pos := Q *ᵥ v.pos + ![1, 2, 3], dcm := v.dcm * Qᵀ }, ?_, ?_⟩
  · simp [LandmarkVar.make, toList3]
  · exact C46_invariant _ _ 9 0 1 v _ _ _ 0 ![0, 0, 2] 0.1 Q ![1, 2, 3] example_regular.2 rfl rfl rfl rfl rfl rfl rfl rfl

theorem pose_ne_landmark {h : Heap RVar} {p l : VRef} {v : PoseVar} {x : LandmarkVar} (hp : h p = .pose v)
    (hl : h l = .landmark x) : p ≠ l := by
  rintro rfl; rw [hp] at hl; simp at hl

/-- The landmark in the camera frame under a pose increment. -/
theorem camera_motion {v : PoseVar} {γ : (Fin 6 → ℝ) → PoseVar} (hm : PoseMotion v γ) (pw : V3) :
    HasVecDeriv (fun d => (γ d).dcm *ᵥ (pw - (γ d).pos))
      (fun u => -(skew (v.dcm *ᵥ (pw - v.pos)) *ᵥ incRot u) - v.dcm *ᵥ incPos u) 0 := by
  refine HasVecDeriv.congr (HasMatDeriv.mulVec hm.deriv (HasVecDeriv.const_sub pw hm.pos_deriv)) fun u => ?_
  rw [hm.start, hm.pos_zero, skew_mulVec, cross_anticomm, ← skew_mulVec, Matrix.mulVec_mulVec, Matrix.mulVec_neg,
    ← sub_eq_add_neg]

/-- The predicted bearing under a pose increment. -/
theorem predicted_pose {v : PoseVar} {γ : (Fin 6 → ℝ) → PoseVar} (hm : PoseMotion v γ) (pw : V3)
    (h0 : vnorm (v.dcm *ᵥ (pw - v.pos)) ≠ 0) :
    HasVecDeriv (fun d => normalized ((γ d).dcm *ᵥ (pw - (γ d).pos)))
      (fun u => Fac.beside (-(((1 / vnorm (v.dcm *ᵥ (pw - v.pos))) •
          (1 - vecMulVec (vdiv (v.dcm *ᵥ (pw - v.pos)) (vnorm (v.dcm *ᵥ (pw - v.pos))))
            (vdiv (v.dcm *ᵥ (pw - v.pos)) (vnorm (v.dcm *ᵥ (pw - v.pos)))))) * v.dcm))
        (((1 / vnorm (v.dcm *ᵥ (pw - v.pos))) •
          (1 - vecMulVec (vdiv (v.dcm *ᵥ (pw - v.pos)) (vnorm (v.dcm *ᵥ (pw - v.pos))))
            (vdiv (v.dcm *ᵥ (pw - v.pos)) (vnorm (v.dcm *ᵥ (pw - v.pos)))))) * -skew (v.dcm *ᵥ (pw - v.pos))) *ᵥ u) 0 := by
  have e0 : (γ 0).dcm *ᵥ (pw - (γ 0).pos) = v.dcm *ᵥ (pw - v.pos) := by rw [hm.start, hm.pos_zero]
  refine HasVecDeriv.congr (HasVecDeriv.normalized (camera_motion hm pw) (by rw [e0]; exact h0)) fun u => ?_
  rw [e0, beside_mulVec]
  simp only [Matrix.neg_mulVec, Matrix.mulVec_sub, Matrix.mulVec_neg, ← Matrix.mulVec_mulVec]
  abel

/-- **C46** The Jacobian blocks are the derivatives of the residual, for every landmark at least `1e-9` away from the
camera. -/
theorem C46_jacobian (h : Heap RVar) (id : Int) (p l : VRef) (v : PoseVar) (x : LandmarkVar) (pw bearing : V3) (sigma : ℝ)
    (hp : h p = .pose v) (hl : h l = .landmark x) (hx : x.value = toList pw) (hR : IsRotation v.dcm)
    (hfar : 1e-9 ≤ length (v.dcm *ᵥ (pw - v.pos))) (incr : Increment) (hi : PoseIncrement v incr) :
    JacobiansCorrect incr (Fac.bearingObservation id p l bearing sigma) h := by
  rw [length_eq] at hfar
  have hpl := pose_ne_landmark hp hl
  have h0 : vnorm (v.dcm *ᵥ (pw - v.pos)) ≠ 0 := (lt_of_lt_of_le (by norm_num) hfar).ne'
  intro old
  refine ⟨_, by
    simp only [Fac.bearingObservation, hp, hl, posW_of hx, Res.andThen]
    rw [if_neg (not_lt.mpr hfar)]
    exact fillBlocks_ok rfl, ?_⟩
  rw [← hp, ← hl]
  refine .cons (block_ok ?_) (.cons (block_ok ?_) .nil)
  · obtain ⟨γ, hγ, hm⟩ := pose_motion hi hR
    refine isDerivative_of (fun d => (1 / sigma) • (normalized ((γ d).dcm *ᵥ (pw - (γ d).pos)) - normalized bearing))
      rfl (by rw [hp]; rfl) ?_ (Eventually.of_forall fun d => ?_) ?_
    · rw [bearing_residual hp hl hx, hm.start, hm.pos_zero]
    · simp only [residualAfter, hp, hγ d]
      exact bearing_residual (set_same _ _ _) (by rw [set_other _ _ hpl.symm]; exact hl) hx id _ _
    · refine HasVecDeriv.congr (HasVecDeriv.const_smul _ (HasVecDeriv.sub_const (predicted_pose hm pw h0) _)) fun u => ?_
      generalize v.dcm *ᵥ (pw - v.pos) = c
      simp only [beside_mulVec, ← Matrix.mulVec_mulVec, Matrix.smul_mulVec, Matrix.neg_mulVec, Matrix.sub_mulVec,
        Matrix.add_mulVec, Matrix.one_mulVec]
      module
  · have hlm := fun d => landmark_motion hx (PoseIncrement.any hi) d
    refine isDerivative_of (fun d => (1 / sigma) • (normalized (v.dcm *ᵥ (pw + d - v.pos)) - normalized bearing))
      rfl (by rw [hl]; rfl) ?_ (Eventually.of_forall fun d => ?_) ?_
    · rw [bearing_residual hp hl hx, add_zero]
    · simp only [residualAfter, hl, hlm d]
      exact bearing_residual (by rw [set_other _ _ hpl]; exact hp) (set_same _ _ _) rfl id _ _
    · have hd : HasVecDeriv (fun d : V3 => v.dcm *ᵥ (pw + d - v.pos)) (fun u => v.dcm *ᵥ u) 0 :=
        HasVecDeriv.const_mulVec v.dcm (HasVecDeriv.sub_const (HasVecDeriv.const_add pw (HasVecDeriv.id 0)) v.pos)
      refine HasVecDeriv.congr (HasVecDeriv.const_smul _ (HasVecDeriv.sub_const (HasVecDeriv.normalized hd
        (by rw [add_zero]; exact h0)) _)) fun u => ?_
      rw [add_zero]
      generalize v.dcm *ᵥ (pw - v.pos) = c
      simp only [← Matrix.mulVec_mulVec, Matrix.smul_mulVec, Matrix.neg_mulVec, Matrix.sub_mulVec,
        Matrix.add_mulVec, Matrix.one_mulVec]
      module

/-- A pose turned by one radian about the first axis that looks at a landmark on this axis. -/
example : JacobiansCorrect codeIncr (Fac.bearingObservation 9 0 1 ![1, 0, 0] 0.1)
    (fun r => if r = 1 then .landmark (LandmarkVar.make 1 ![5, 0, 0]) else .pose (PoseVar.make 0 ![0, 0, 0] ![1, 0, 0])) := by
  refine C46_jacobian _ 9 0 1 (PoseVar.make 0 ![0, 0, 0] ![1, 0, 0]) _ ![5, 0, 0] _ 0.1 rfl rfl rfl (example_pose _ _).1
    ?_ _ (example_pose _ _).2.2
  have hR := (example_pose 0 ![0, 0, 0]).1
  have e : (PoseVar.make 0 ![0, 0, 0] ![1, 0, 0]).pos = 0 := by
    show (![0, 0, 0] : V3) = 0
    funext i; fin_cases i <;> rfl
  rw [e, sub_zero, length_eq]
  generalize (PoseVar.make 0 ![0, 0, 0] ![1, 0, 0]).dcm = R at *
  have : vnorm (R *ᵥ ![5, 0, 0]) = 5 := by
    have hd : R *ᵥ ![5, 0, 0] ⬝ᵥ R *ᵥ ![5, 0, 0] = 25 := by
      rw [Matrix.dotProduct_mulVec, Matrix.vecMul_mulVec, IsRotation.transpose_mul hR, Matrix.vecMul_one]
      simp; norm_num
    rw [vnorm, hd]
    rw [show (25 : ℝ) = 5 ^ 2 by norm_num, Real.sqrt_sq (by norm_num)]
  rw [this]; norm_num

namespace C46
/-- A pose at the identity and a landmark in front of it. -/
noncomputable def atIdentity : Heap RVar := fun r =>
  if r = 1 then .landmark (LandmarkVar.make 1 ![1, 0, 0]) else .pose (PoseVar.make 0 0 0)
end C46

/-- **C46** with the library's own `apply_increment` is false at the identity pose: a small rotation increment does not
turn the pose, while the Jacobian says that the residual changes. -/
theorem C46_identity_false :
    ¬ JacobiansCorrect codeIncr (Fac.bearingObservation 9 0 1 ![1, 0, 0] 1) C46.atIdentity := by
  intro hall
  obtain ⟨Js, hJs, hf⟩ := hall []
  have hp : C46.atIdentity 0 = .pose (PoseVar.make 0 0 0) := rfl
  have hl : C46.atIdentity 1 = .landmark (LandmarkVar.make 1 ![1, 0, 0]) := rfl
  have hx : (LandmarkVar.make 1 ![1, 0, 0]).posW = .ok ![1, 0, 0] := posW_of rfl
  have hd := make_zero_dcm 0 0
  have hpos : (PoseVar.make 0 0 0).pos = 0 := rfl
  have hn : vnorm (![1, 0, 0] : V3) = 1 := vnorm_unit (by simp)
  simp only [Fac.bearingObservation, hp, hl, hx, Res.andThen, hd, hpos, sub_zero, Matrix.one_mulVec, hn] at hJs
  rw [if_neg (by norm_num)] at hJs
  have hJs' := Res.ok.inj ((fillBlocks_ok rfl).symm.trans hJs)
  subst hJs'
  cases hf with | cons h1 _ =>
  obtain ⟨r, hr, h2⟩ := h1
  cases hr
  have hblock : Fac.block (RVar.pose (PoseVar.make 0 0 0)) (Fac.beside ((-1 : ℝ) • ((1 / 1 / 1 : ℝ) •
      (-vecMulVec (vdiv ![1, 0, 0] 1) (vdiv ![1, 0, 0] 1) + 1 : M3)) * 1) (((1 / 1 / 1 : ℝ) •
      (-vecMulVec (vdiv ![1, 0, 0] 1) (vdiv ![1, 0, 0] 1) + 1 : M3)) * -skew ![1, 0, 0])) = Mat.ofMatrix _ := rfl
  rw [hp, if_neg (by simp [VarLike.isConst, PoseVar.make, PoseVar.recompute]), hblock] at h2
  have := IsDerivative.unchanged h2 ![0, 0, 0, 0, 1, 0] ?_
  · have h3 := congrFun this 2
    rw [beside_mulVec] at h3
    have e1 : incPos ![0, 0, 0, 0, 1, 0] = 0 := by funext i; fin_cases i <;> rfl
    have e2 : incRot ![0, 0, 0, 0, 1, 0] = ![0, 1, 0] := by funext i; fin_cases i <;> rfl
    rw [e1, e2] at h3
    simp [vdiv_eq_smul, Matrix.mulVec, dotProduct, Fin.sum_univ_three, Matrix.mul_apply, skew] at h3
  · have hsmall : ∀ᶠ t : ℝ in 𝓝[>] 0, t < 1e-8 :=
      nhdsWithin_le_nhds (Iio_mem_nhds (by norm_num))
    filter_upwards [hsmall, self_mem_nhdsWithin] with t ht ht0
    have e1 : incPos (t • ![0, 0, 0, 0, 1, 0]) = 0 := by funext i; fin_cases i <;> simp [incPos]
    have e2 : incRot (t • ![0, 0, 0, 0, 1, 0]) = t • ![0, 1, 0] := by funext i; fin_cases i <;> simp [incRot]
    obtain ⟨r1, r2⟩ := read3_ofFn6 (t • ![0, 0, 0, 0, 1, 0])
    rw [e1] at r1
    rw [e2] at r2
    have hw : vnorm (t • ![0, 1, 0] : V3) = t := by
      rw [vnorm_smul, vnorm_unit (by simp), mul_one, abs_of_pos ht0]
    have hmove : codeIncr (.pose (PoseVar.make 0 0 0)) (List.ofFn (t • ![0, 0, 0, 0, 1, 0])) =
        .ok (.pose (PoseVar.recompute { PoseVar.make 0 0 0 with
          pos := 0
          rot := logSO3 (expSO3 (t • ![0, 1, 0])) })) := by
      simp only [codeIncr, VarLike.applyIncr, PoseVar.applyIncr, r1, r2, hd, Matrix.mul_one, hpos, add_zero, List.length_ofFn]
      rfl
    simp only [residualAfter, hp, hmove]
    rw [bearing_residual (set_same _ _ _) (by rw [set_other _ _ (by decide)]; exact hl) rfl, bearing_residual hp hl rfl, hd]
    have hstay : PoseVar.dcmOf (logSO3 (expSO3 (t • ![0, 1, 0]))) = 1 := dcmOf_small (log_exp_tiny (by rw [hw]; exact ht))
    simp only [PoseVar.recompute, hstay, hpos]

/-! ### C47 InverseRangeBearingFactor -/

theorem inverse_range_residual {h : Heap RVar} {p r : VRef} {v : PoseVar} {x : InvRangeVar} (hp : h p = .pose v)
    (hr : h r = .invRange x) (hx : 1e-9 ≤ |x.inv|) (id : Int) (bearing : V3) (sigma : ℝ) :
    (Fac.inverseRangeBearing id p r bearing sigma).computeResidual h =
      .ok (toList ((1 / sigma) • (normalized (v.dcm *ᵥ (x.origin + (1 / x.inv) • x.bearing - v.pos)) - normalized bearing))) := by
  simp only [Fac.inverseRangeBearing, hp, hr, InvRangeVar.posW, if_neg (not_lt.mpr hx)]

/-- **C47** The residual is zero exactly when the point at the stored range lies on the observed ray, in front of the
camera. -/
theorem C47_zero (h : Heap RVar) (id : Int) (p r : VRef) (v : PoseVar) (x : InvRangeVar) (bearing : V3) (sigma : ℝ)
    (hp : h p = .pose v) (hr : h r = .invRange x) (hx : 1e-9 ≤ |x.inv|) (hb : bearing ≠ 0) (hs : sigma ≠ 0) :
    ZeroResidual (Fac.inverseRangeBearing id p r bearing sigma) h ↔
      ∃ s : ℝ, 0 < s ∧ v.dcm *ᵥ (x.origin + (1 / x.inv) • x.bearing - v.pos) = s • bearing := by
  rw [ZeroResidual, inverse_range_residual hp hr hx, Res.ok.injEq]
  exact toList_eq_zero.trans ((smul_weight_eq_zero hs).trans (sub_eq_zero.trans (normalized_eq_iff hb)))

/-- A point at range one half along the observed ray. -/
example : ∃ h : Heap RVar, ZeroResidual (Fac.inverseRangeBearing 9 0 1 ![1, 0, 0] 0.1) h ∧
    h 1 = .invRange (InvRangeVar.make 1 0 ![1, 0, 0] 0.5) := by
  refine ⟨fun r => if r = 1 then .invRange (InvRangeVar.make 1 0 ![1, 0, 0] 0.5) else .pose (PoseVar.make 0 0 0), ?_, rfl⟩
  have hinv : (InvRangeVar.make 1 0 ![1, 0, 0] 0.5).inv = 2 := by
    simp only [InvRangeVar.make, InvRangeVar.initialInv]
    rw [if_neg (by norm_num), clip_id (by norm_num) (by norm_num)]
    norm_num
  have hb : (InvRangeVar.make 1 0 ![1, 0, 0] 0.5).bearing = ![1, 0, 0] := normalized_of_unit (by simp)
  refine (C47_zero _ 9 0 1 (PoseVar.make 0 0 0) _ _ 0.1 rfl rfl (by rw [hinv]; norm_num) (fun h => ?_) (by norm_num)).mpr
    ⟨1 / 2, by norm_num, ?_⟩
  · simpa using congrFun h 0
  · rw [make_zero_dcm, Matrix.one_mulVec, hinv, hb]
    show (0 + _ - 0 : V3) = _
    rw [zero_add, sub_zero]

theorem invRange_motion {x : InvRangeVar} (hext : x.extra = []) {incr : Increment} (hi : AnyIncrement incr) (d : Fin 1 → ℝ) :
    incr (.invRange x) (List.ofFn d) = .ok (.invRange { x with inv := InvRangeVar.clip x.lo x.hi (x.inv + d 0) }) := by
  rw [incr_invRange x _ hi, InvRangeVar.applyIncr]
  simp [hext, Res.map]

/-- **C47** The Jacobian blocks are the derivatives of the residual, when the inverse range is strictly between its
bounds and the point at least `1e-9` away from the camera. -/
theorem C47_jacobian_partial (h : Heap RVar) (id : Int) (p r : VRef) (v : PoseVar) (x : InvRangeVar) (bearing : V3)
    (sigma : ℝ) (hp : h p = .pose v) (hr : h r = .invRange x) (hext : x.extra = []) (hx : 1e-9 < |x.inv|)
    (hlo : x.lo < x.inv) (hhi : x.inv < x.hi) (hR : IsRotation v.dcm)
    (hfar : 1e-9 ≤ length (v.dcm *ᵥ (x.origin + (1 / x.inv) • x.bearing - v.pos))) (incr : Increment)
    (hi : PoseIncrement v incr) :
    JacobiansCorrect incr (Fac.inverseRangeBearing id p r bearing sigma) h := by
  rw [length_eq] at hfar
  have hpr : p ≠ r := by rintro rfl; rw [hp] at hr; simp at hr
  have h0 : vnorm (v.dcm *ᵥ (x.origin + (1 / x.inv) • x.bearing - v.pos)) ≠ 0 := (lt_of_lt_of_le (by norm_num) hfar).ne'
  have hne : x.inv ≠ 0 := by intro h; rw [h, abs_zero] at hx; norm_num at hx
  intro old
  refine ⟨_, by
    simp only [Fac.inverseRangeBearing, hp, hr, InvRangeVar.posW, if_neg (not_lt.mpr hx.le)]
    rw [if_neg (not_lt.mpr hfar)]
    exact fillBlocks_ok rfl, ?_⟩
  rw [← hp, ← hr]
  refine .cons (block_ok ?_) (.cons (block_ok ?_) .nil)
  · obtain ⟨γ, hγ, hm⟩ := pose_motion hi hR
    refine isDerivative_of (fun d => (1 / sigma) • (normalized ((γ d).dcm *ᵥ (x.origin + (1 / x.inv) • x.bearing
      - (γ d).pos)) - normalized bearing)) rfl (by rw [hp]; rfl) ?_ (Eventually.of_forall fun d => ?_) ?_
    · rw [inverse_range_residual hp hr hx.le, hm.start, hm.pos_zero]
    · simp only [residualAfter, hp, hγ d]
      exact inverse_range_residual (set_same _ _ _) (by rw [set_other _ _ hpr.symm]; exact hr) hx.le id _ _
    · refine HasVecDeriv.congr (HasVecDeriv.const_smul _ (HasVecDeriv.sub_const (predicted_pose hm _ h0) _)) fun u => ?_
      generalize v.dcm *ᵥ (x.origin + (1 / x.inv) • x.bearing - v.pos) = c
      simp only [beside_mulVec, ← Matrix.mulVec_mulVec, Matrix.smul_mulVec, Matrix.neg_mulVec, Matrix.sub_mulVec,
        Matrix.one_mulVec]
      module
  · refine isDerivative_of (fun d => (1 / sigma) • (normalized (v.dcm *ᵥ (x.origin + (1 / (x.inv + d 0)) • x.bearing
      - v.pos)) - normalized bearing)) rfl (by rw [hr]; rfl) ?_ ?_ ?_
    · rw [inverse_range_residual hp hr hx.le]
      simp
    · have hc : Continuous fun d : Fin 1 → ℝ => x.inv + d 0 := by fun_prop
      have e1 : x.lo < x.inv + (0 : Fin 1 → ℝ) 0 := by simpa using hlo
      have e2 : x.inv + (0 : Fin 1 → ℝ) 0 < x.hi := by simpa using hhi
      have e3 : 1e-9 < |x.inv + (0 : Fin 1 → ℝ) 0| := by simpa using hx
      filter_upwards [hc.continuousAt.eventually_const_lt e1, hc.continuousAt.eventually_lt_const e2,
        hc.abs.continuousAt.eventually_const_lt e3] with d k1 k2 k3
      simp only [residualAfter, hr, invRange_motion hext (PoseIncrement.any hi) d, clip_id k1.le k2.le]
      exact inverse_range_residual (by rw [set_other _ _ hpr]; exact hp) (set_same _ _ _) k3.le id _ _
    · have hinv : HasScalDeriv (fun d : Fin 1 → ℝ => 1 / (x.inv + d 0)) (fun u => -(x.inv ^ 2)⁻¹ * u 0) 0 := by
        have h1 : HasScalDeriv (fun d : Fin 1 → ℝ => x.inv + d 0) (fun u => u 0) 0 :=
          HasScalDeriv.congr (HasScalDeriv.add (HasScalDeriv.const x.inv 0) (HasVecDeriv.id (0 : Fin 1 → ℝ) 0)) fun u => by simp
        have h2 := hasDerivAt_inv (𝕜 := ℝ) (x := x.inv + (0 : Fin 1 → ℝ) 0) (by simpa using hne)
        have := HasScalDeriv.comp (f := fun d : Fin 1 → ℝ => x.inv + d 0) (φ := fun t => t⁻¹) h2 h1
        simpa only [one_div, Pi.zero_apply, add_zero] using this
      have hd : HasVecDeriv (fun d : Fin 1 → ℝ => v.dcm *ᵥ (x.origin + (1 / (x.inv + d 0)) • x.bearing - v.pos))
          (fun u => v.dcm *ᵥ ((-(x.inv ^ 2)⁻¹ * u 0) • x.bearing)) 0 := by
        refine HasVecDeriv.const_mulVec v.dcm (HasVecDeriv.sub_const (HasVecDeriv.const_add x.origin ?_) v.pos)
        exact HasVecDeriv.congr (HasVecDeriv.smul hinv (HasVecDeriv.const x.bearing 0)) fun u => by simp
      refine HasVecDeriv.congr (HasVecDeriv.const_smul _ (HasVecDeriv.sub_const (HasVecDeriv.normalized hd
        (by simpa using h0)) _)) fun u => ?_
      simp only [Pi.zero_apply, add_zero]
      generalize v.dcm *ᵥ (x.origin + (1 / x.inv) • x.bearing - v.pos) = c
      have hv : vdiv (-x.bearing) (x.inv * x.inv) = -(x.inv ^ 2)⁻¹ • x.bearing := by
        rw [vdiv_eq_smul, ← sq]; module
      rw [hv]
      funext i
      simp only [Matrix.mulVec_smul, Matrix.smul_mulVec, Pi.smul_apply, smul_eq_mul]
      simp only [Matrix.mulVec, dotProduct, Fin.sum_univ_one, Matrix.of_apply]
      ring

/-- A pose turned by one radian about the first axis, an inverse-range point half a metre ahead. -/
example : ∃ h : Heap RVar, JacobiansCorrect codeIncr (Fac.inverseRangeBearing 9 0 1 ![1, 0, 0] 0.1) h ∧
    h 1 = .invRange (InvRangeVar.make 1 ![0, 0, 0] ![1, 0, 0] 0.5) := by
  refine ⟨fun r => if r = 1 then .invRange (InvRangeVar.make 1 ![0, 0, 0] ![1, 0, 0] 0.5)
    else .pose (PoseVar.make 0 ![0, 0, 0] ![1, 0, 0]), ?_, rfl⟩
  have hinv : (InvRangeVar.make 1 ![0, 0, 0] ![1, 0, 0] 0.5).inv = 2 := by
    simp only [InvRangeVar.make, InvRangeVar.initialInv]
    rw [if_neg (by norm_num), clip_id (by norm_num) (by norm_num)]
    norm_num
  have hb : (InvRangeVar.make 1 ![0, 0, 0] ![1, 0, 0] 0.5).bearing = ![1, 0, 0] := normalized_of_unit (by simp)
  refine C47_jacobian_partial _ 9 0 1 (PoseVar.make 0 ![0, 0, 0] ![1, 0, 0]) _ _ 0.1 rfl rfl rfl (by rw [hinv]; norm_num)
    (by rw [hinv]; show (1e-6 : ℝ) < 2; norm_num) (by rw [hinv]; show (2 : ℝ) < 1e3; norm_num) (example_pose _ _).1
    ?_ _ (example_pose _ _).2.2
  have hR := (example_pose 0 ![0, 0, 0]).1
  have e : (PoseVar.make 0 ![0, 0, 0] ![1, 0, 0]).pos = 0 := by
    show (![0, 0, 0] : V3) = 0
    funext i; fin_cases i <;> rfl
  have e' : (InvRangeVar.make 1 ![0, 0, 0] ![1, 0, 0] 0.5).origin = 0 := by
    show (![0, 0, 0] : V3) = 0
    funext i; fin_cases i <;> rfl
  rw [e, e', hinv, hb, sub_zero, zero_add, length_eq]
  generalize (PoseVar.make 0 ![0, 0, 0] ![1, 0, 0]).dcm = R at *
  rw [Matrix.mulVec_smul, vnorm_smul]
  have : vnorm (R *ᵥ ![1, 0, 0]) = 1 := by
    refine vnorm_unit ?_
    rw [Matrix.dotProduct_mulVec, Matrix.vecMul_mulVec, IsRotation.transpose_mul hR, Matrix.vecMul_one]
    simp
  rw [this]; norm_num

namespace C47
/-- An inverse-range point at the largest allowed range. -/
noncomputable def atBound : Heap RVar := fun r =>
  if r = 1 then .invRange (InvRangeVar.make 1 0 ![1, 0, 0] 1e6) else .pose (PoseVar.make 0 ![0, 0, 1] 0)
end C47

/-- **C47** is false at the bounds of the inverse range: there the increment is cut off, so the residual does not change
for increments beyond the bound, while the Jacobian is not zero. -/
theorem C47_bound_false :
    ¬ JacobiansCorrect exactIncr (Fac.inverseRangeBearing 9 0 1 ![1, 0, 0] 1) C47.atBound := by
  intro hall
  obtain ⟨Js, hJs, hf⟩ := hall []
  have hp : C47.atBound 0 = .pose (PoseVar.make 0 ![0, 0, 1] 0) := rfl
  have hr : C47.atBound 1 = .invRange (InvRangeVar.make 1 0 ![1, 0, 0] 1e6) := rfl
  have hinv : (InvRangeVar.make 1 0 ![1, 0, 0] 1e6).inv = 1e-6 := by
    simp only [InvRangeVar.make, InvRangeVar.initialInv]
    rw [if_neg (by norm_num), clip_id (by norm_num) (by norm_num)]
    norm_num
  have hb : (InvRangeVar.make 1 0 ![1, 0, 0] 1e6).bearing = ![1, 0, 0] := normalized_of_unit (by simp)
  have ho : (InvRangeVar.make 1 0 ![1, 0, 0] 1e6).origin = 0 := rfl
  have hd := make_zero_dcm 0 ![0, 0, 1]
  have hpos : (PoseVar.make 0 ![0, 0, 1] 0).pos = ![0, 0, 1] := rfl
  have hpw : (InvRangeVar.make 1 0 ![1, 0, 0] 1e6).posW = some ![1e6, 0, 0] := by
    rw [InvRangeVar.posW, hinv, hb, ho, if_neg (by norm_num)]
    congr 1
    funext i; fin_cases i <;> norm_num
  simp only [Fac.inverseRangeBearing, hp, hr, hpw, hd, hpos, Matrix.one_mulVec, hinv, hb] at hJs
  have hc : (![1e6, 0, 0] : V3) - ![0, 0, 1] = ![1e6, 0, -1] := by funext i; fin_cases i <;> simp
  rw [hc] at hJs
  have hn1 : 1 ≤ vnorm (![1e6, 0, -1] : V3) := by
    rw [vnorm]
    refine Real.one_le_sqrt.mpr ?_
    simp
    norm_num
  generalize hn : vnorm (![1e6, 0, -1] : V3) = n at *
  rw [if_neg (by push Not; exact le_trans (by norm_num) hn1)] at hJs
  have hJs' := Res.ok.inj ((fillBlocks_ok rfl).symm.trans hJs)
  subst hJs'
  cases hf with | cons _ hf =>
  cases hf with | cons h1 _ =>
  obtain ⟨r, hr', h2⟩ := h1
  cases hr'
  rw [hr, if_neg (by simp [VarLike.isConst, InvRangeVar.make])] at h2
  have h2' := IsDerivative.unchanged (n := 1) (m := 3) (A := Matrix.of fun i _ => _) h2 ![-1] ?_
  · have h3 := congrFun h2' 2
    have hn0 : n ≠ 0 := by linarith
    simp [vdiv_eq_smul, Matrix.mulVec, dotProduct, Fin.sum_univ_three, hn0] at h3
    norm_num at h3
  · filter_upwards [self_mem_nhdsWithin] with t ht
    have ht0 : (0 : ℝ) < t := ht
    have hmove := invRange_motion (x := InvRangeVar.make 1 0 ![1, 0, 0] 1e6) rfl .exact (t • ![-1])
    have hclip : InvRangeVar.clip (InvRangeVar.make 1 0 ![1, 0, 0] 1e6).lo (InvRangeVar.make 1 0 ![1, 0, 0] 1e6).hi
        ((InvRangeVar.make 1 0 ![1, 0, 0] 1e6).inv + (t • ![(-1 : ℝ)]) 0) = 1e-6 := by
      rw [hinv]
      show InvRangeVar.clip 1e-6 1e3 _ = _
      unfold InvRangeVar.clip
      rw [max_eq_right (by simp; linarith), min_eq_left (by norm_num)]
    simp only [residualAfter, hr, hmove, hclip]
    rw [← hinv]
    have hheap : C47.atBound.set 1 (.invRange { InvRangeVar.make 1 0 ![1, 0, 0] 1e6 with
        inv := (InvRangeVar.make 1 0 ![1, 0, 0] 1e6).inv }) = C47.atBound := by
      funext k
      by_cases hk : k = 1
      · subst hk; rw [set_same]; rfl
      · rw [set_other _ _ hk]
    rw [hheap]

/-! ### C48 BearingProjectionFactor2D -/

theorem axis_bound {k : V3} (hk : k ⬝ᵥ k = 1) : (k ⬝ᵥ Fac.tangentAxis k) ^ 2 < 1 ∧ Fac.tangentAxis k ⬝ᵥ Fac.tangentAxis k = 1 := by
  rw [dot3] at hk
  unfold Fac.tangentAxis
  split
  · rename_i h
    have h1 := sq_le_sq.mpr h.1
    have h2 := sq_le_sq.mpr h.2
    constructor
    · rw [dot3]; simp only [cons_val]; nlinarith
    · simp
  · rename_i h
    split
    · rename_i h'
      have h1 := sq_le_sq.mpr h'
      constructor
      · rw [dot3]; simp only [cons_val]; nlinarith [sq_nonneg (k 0)]
      · simp
    · rename_i h'
      have h1 := sq_lt_sq.mpr (not_le.mp h')
      constructor
      · rw [dot3]; simp only [cons_val]; nlinarith [sq_nonneg (k 0)]
      · simp

theorem tangent1_unit {k : V3} (hk : k ⬝ᵥ k = 1) : Fac.tangent1 k ⬝ᵥ Fac.tangent1 k = 1 ∧ k ⬝ᵥ Fac.tangent1 k = 0 := by
  obtain ⟨h1, h2⟩ := axis_bound hk
  have hne : Fac.tangentAxis k - (k ⬝ᵥ Fac.tangentAxis k) • k ≠ 0 := by
    intro h
    have := congrArg (fun v => v ⬝ᵥ v) h
    simp only [sub_dotProduct, dotProduct_sub, smul_dotProduct, dotProduct_smul, hk, h2, smul_eq_mul, dotProduct_comm _ k,
      dotProduct_zero] at this
    nlinarith
  refine ⟨normalized_unit hne, ?_⟩
  unfold Fac.tangent1
  rw [normalized_eq (vnorm_ne hne), dotProduct_smul, dotProduct_sub, dotProduct_smul, hk]
  simp

/-- **C48** For every non-zero observed bearing the two tangent directions have length 1 and are orthogonal to each other
and to the bearing. -/
theorem C48_tangents (bearing : V3) (hb : bearing ≠ 0) :
    let k := normalized bearing
    length (Fac.tangent1 k) = 1 ∧ length (Fac.tangent2 k) = 1 ∧ Fac.tangent1 k ⬝ᵥ Fac.tangent2 k = 0 ∧
      Fac.tangent1 k ⬝ᵥ bearing = 0 ∧ Fac.tangent2 k ⬝ᵥ bearing = 0 := by
  intro k
  have hk : k ⬝ᵥ k = 1 := normalized_unit hb
  obtain ⟨h1, h2⟩ := tangent1_unit hk
  have hbk : bearing = vnorm bearing • k := by
    show bearing = vnorm bearing • normalized bearing
    rw [normalized_eq (vnorm_ne hb), smul_smul, mul_inv_cancel₀ (vnorm_ne hb), one_smul]
  have hcross : Fac.tangent2 k ⬝ᵥ Fac.tangent2 k = 1 := by
    unfold Fac.tangent2
    rw [cross_dot_cross, hk, h1, h2, dotProduct_comm, h2]
    norm_num
  refine ⟨by rw [length_eq, vnorm_unit h1], by rw [length_eq, vnorm_unit hcross], ?_, ?_, ?_⟩
  · unfold Fac.tangent2; rw [dot_cross_self]
  · rw [hbk, dotProduct_smul, dotProduct_comm, h2, smul_zero]
  · rw [hbk, dotProduct_smul, dotProduct_comm]
    unfold Fac.tangent2
    rw [dot_self_cross, smul_zero]

/-- The bearing `(1, 2, 2)`, which is not a coordinate axis. -/
example : length (Fac.tangent1 (normalized ![1, 2, 2])) = 1 :=
  (C48_tangents ![1, 2, 2] fun h => by simpa using congrFun h 0).1

/-- A vector without tangential components is parallel to the bearing. -/
theorem tangentT_eq_zero {k : V3} (hk : k ⬝ᵥ k = 1) {b : V3} : Fac.tangentT k *ᵥ b = 0 ↔ b = (k ⬝ᵥ b) • k := by
  obtain ⟨h1, h2⟩ := tangent1_unit hk
  have hcross : Fac.tangent2 k ⬝ᵥ Fac.tangent2 k = 1 := by
    unfold Fac.tangent2
    rw [cross_dot_cross, hk, h1, h2, dotProduct_comm, h2]
    norm_num
  have h12 : Fac.tangent1 k ⬝ᵥ Fac.tangent2 k = 0 := by unfold Fac.tangent2; rw [dot_cross_self]
  have hk2 : k ⬝ᵥ Fac.tangent2 k = 0 := by unfold Fac.tangent2; rw [dot_self_cross]
  have hT : ∀ b, Fac.tangentT k *ᵥ b = ![Fac.tangent1 k ⬝ᵥ b, Fac.tangent2 k ⬝ᵥ b] := by
    intro b
    funext i; fin_cases i <;> simp [Fac.tangentT, Matrix.mulVec]
  rw [hT]
  constructor
  · intro h
    have e1 : Fac.tangent1 k ⬝ᵥ b = 0 := congrFun h 0
    have e2 : Fac.tangent2 k ⬝ᵥ b = 0 := congrFun h 1
    have hQ : (Matrix.of ![k, Fac.tangent1 k, Fac.tangent2 k] : M3) * (Matrix.of ![k, Fac.tangent1 k, Fac.tangent2 k] : M3)ᵀ = 1 := by
      ext i j
      have e10 : Fac.tangent1 k ⬝ᵥ k = 0 := by rw [dotProduct_comm, h2]
      have e20 : Fac.tangent2 k ⬝ᵥ k = 0 := by rw [dotProduct_comm, hk2]
      have e21 : Fac.tangent2 k ⬝ᵥ Fac.tangent1 k = 0 := by rw [dotProduct_comm, h12]
      simp only [dot3] at hk h1 h2 h12 hk2 hcross e10 e20 e21
      fin_cases i <;> fin_cases j <;> simp [Matrix.mul_apply, Fin.sum_univ_three] <;> assumption
    have hQ' := mul_eq_one_comm.mp hQ
    have hv : (Matrix.of ![k, Fac.tangent1 k, Fac.tangent2 k] : M3) *ᵥ (b - (k ⬝ᵥ b) • k) = 0 := by
      funext i
      fin_cases i <;>
        simp [Matrix.mulVec, dotProduct_sub, dotProduct_smul, hk, e1, e2, dotProduct_comm _ k, h2, hk2]
    have := congrArg ((Matrix.of ![k, Fac.tangent1 k, Fac.tangent2 k] : M3)ᵀ *ᵥ ·) hv
    simp only [Matrix.mulVec_mulVec, hQ', Matrix.one_mulVec, Matrix.mulVec_zero] at this
    exact sub_eq_zero.mp this
  · intro h
    rw [h]
    funext i
    fin_cases i <;> simp [dotProduct_smul, dotProduct_comm _ k, h2, hk2]

theorem projection_residual {h : Heap RVar} {p l : VRef} {v : PoseVar} {x : LandmarkVar} {pw : V3} (hp : h p = .pose v)
    (hl : h l = .landmark x) (hx : x.value = toList pw) (id : Int) (bearing : V3) (sigma tol : ℝ) :
    (Fac.bearingProjection id p l bearing sigma tol).computeResidual h =
      .ok (toList ((1 / sigma) • if normalized bearing ⬝ᵥ normalized (v.dcm *ᵥ (pw - v.pos)) ≤ tol then ![1, 1]
        else Fac.tangentT (normalized bearing) *ᵥ normalized (v.dcm *ᵥ (pw - v.pos)))) := by
  simp only [Fac.bearingProjection, hp, hl, posW_of hx, Res.map]
  split <;> rfl

/-- **C48** The residual is zero exactly when the landmark lies on the observed ray, in front of the camera, for every
tolerance in `[0, 1)`, and for tolerances in `[-1, 0)` when the landmark is not at the camera. -/
theorem C48_zero_partial (h : Heap RVar) (id : Int) (p l : VRef) (v : PoseVar) (x : LandmarkVar) (pw bearing : V3)
    (sigma tol : ℝ) (hp : h p = .pose v) (hl : h l = .landmark x) (hx : x.value = toList pw) (hb : bearing ≠ 0)
    (hs : sigma ≠ 0) (ht1 : -1 ≤ tol) (ht2 : tol < 1) (ht0 : 0 ≤ tol ∨ v.dcm *ᵥ (pw - v.pos) ≠ 0) :
    ZeroResidual (Fac.bearingProjection id p l bearing sigma tol) h ↔
      ∃ s : ℝ, 0 < s ∧ v.dcm *ᵥ (pw - v.pos) = s • bearing := by
  rw [ZeroResidual, projection_residual hp hl hx, Res.ok.injEq]
  refine toList_eq_zero.trans ((smul_weight_eq_zero hs).trans ?_)
  rw [← normalized_eq_iff hb]
  have hk : normalized bearing ⬝ᵥ normalized bearing = 1 := normalized_unit hb
  generalize normalized bearing = k at *
  generalize hc : v.dcm *ᵥ (pw - v.pos) = c at *
  constructor
  · intro h0
    split at h0
    · have := congrFun h0 0
      simp at this
    · rename_i hdep
      rw [tangentT_eq_zero hk] at h0
      have hc0 : c ≠ 0 := by
        rcases ht0 with ht | ht
        · rintro rfl
          rw [normalized_zero, dotProduct_zero] at hdep
          exact hdep ht
        · exact ht
      have hb1 : normalized c ⬝ᵥ normalized c = 1 := normalized_unit hc0
      have hsq : (k ⬝ᵥ normalized c) ^ 2 = 1 := by
        have := congrArg (fun b => b ⬝ᵥ normalized c) h0
        simp only [smul_dotProduct, hb1, smul_eq_mul] at this
        linarith [sq (k ⬝ᵥ normalized c)]
      have hone : k ⬝ᵥ normalized c = 1 := by
        rcases sq_eq_one_iff.mp hsq with h | h
        · exact h
        · rw [h] at hdep
          exact absurd ht1 (by simpa using hdep)
      rw [h0, hone, one_smul]
  · intro h0
    rw [h0, hk, if_neg (not_le.mpr ht2), tangentT_eq_zero hk, hk, one_smul]

/-- Landmark on the observed ray, three units in front of a pose that looks along the axes; default tolerance. -/
example : ZeroResidual (Fac.bearingProjection 9 0 1 ![0, 0, 2] 0.1 1e-6)
    (fun r => if r = 1 then .landmark (LandmarkVar.make 1 ![0, 0, 3]) else .pose (PoseVar.make 0 0 0)) := by
  refine (C48_zero_partial _ 9 0 1 (PoseVar.make 0 0 0) _ ![0, 0, 3] _ 0.1 1e-6 rfl rfl rfl (fun h => ?_) (by norm_num)
    (by norm_num) (by norm_num) (.inl (by norm_num))).mpr ⟨3 / 2, by norm_num, ?_⟩
  · simpa using congrFun h 2
  · rw [make_zero_dcm, Matrix.one_mulVec]
    show (![0, 0, 3] - 0 : V3) = _
    rw [sub_zero]
    funext i; fin_cases i <;> norm_num

/-- **C48** is false for negative tolerances with the landmark at the camera: the residual is then zero although the
landmark is not in front of the camera. -/
theorem C48_at_camera_false (tol : ℝ) (ht : tol < 0) (h : Heap RVar) (id : Int) (p l : VRef) (v : PoseVar) (x : LandmarkVar)
    (bearing : V3) (sigma : ℝ) (hp : h p = .pose v) (hl : h l = .landmark x) (hx : x.value = toList v.pos) :
    ZeroResidual (Fac.bearingProjection id p l bearing sigma tol) h := by
  rw [ZeroResidual, projection_residual hp hl hx, Res.ok.injEq]
  refine toList_eq_zero.mpr ?_
  rw [sub_self, Matrix.mulVec_zero, normalized_zero, dotProduct_zero, if_neg (not_le.mpr ht), Matrix.mulVec_zero, smul_zero]

/-- A pose and a landmark at the same place. -/
example : ZeroResidual (Fac.bearingProjection 9 0 1 ![0, 0, 1] 0.1 (-1e-6))
    (fun r => if r = 1 then .landmark (LandmarkVar.make 1 ![1, 2, 3]) else .pose (PoseVar.make 0 ![1, 2, 3] 0)) :=
  C48_at_camera_false (-1e-6) (by norm_num) _ 9 0 1 (PoseVar.make 0 ![1, 2, 3] 0) _ _ _ rfl rfl rfl

/-- **C48** The Jacobian blocks are the derivatives of the residual, for every landmark that is not at the camera and whose
depth is not exactly the tolerance. -/
theorem C48_jacobian (h : Heap RVar) (id : Int) (p l : VRef) (v : PoseVar) (x : LandmarkVar) (pw bearing : V3) (sigma tol : ℝ)
    (hp : h p = .pose v) (hl : h l = .landmark x) (hx : x.value = toList pw) (hR : IsRotation v.dcm)
    (hne : v.dcm *ᵥ (pw - v.pos) ≠ 0) (hdep : normalized bearing ⬝ᵥ normalized (v.dcm *ᵥ (pw - v.pos)) ≠ tol)
    (incr : Increment) (hi : PoseIncrement v incr) :
    JacobiansCorrect incr (Fac.bearingProjection id p l bearing sigma tol) h := by
  have hpl := pose_ne_landmark hp hl
  have h0 := vnorm_ne hne
  have hnorm := normalized_eq h0
  rw [← vdiv_eq_smul] at hnorm
  obtain ⟨γ, hγ, hm⟩ := pose_motion hi hR
  have hlm := fun d => landmark_motion hx (PoseIncrement.any hi) d
  have dP := predicted_pose hm pw h0
  have dL : HasVecDeriv (fun d : V3 => normalized (v.dcm *ᵥ (pw + d - v.pos))) _ 0 :=
    HasVecDeriv.normalized (HasVecDeriv.const_mulVec v.dcm (HasVecDeriv.sub_const (HasVecDeriv.const_add pw (HasVecDeriv.id 0)) v.pos))
      (by rw [add_zero]; exact h0)
  have cP : ContinuousAt (fun d => normalized bearing ⬝ᵥ normalized ((γ d).dcm *ᵥ (pw - (γ d).pos))) 0 :=
    HasScalDeriv.continuousAt (HasVecDeriv.dot (HasVecDeriv.const (normalized bearing) 0) dP)
  have cL : ContinuousAt (fun d : V3 => normalized bearing ⬝ᵥ normalized (v.dcm *ᵥ (pw + d - v.pos))) 0 :=
    HasScalDeriv.continuousAt (HasVecDeriv.dot (HasVecDeriv.const (normalized bearing) 0) dL)
  have rP : ∀ d, residualAfter incr (Fac.bearingProjection id p l bearing sigma tol) h p (List.ofFn d) =
      .ok (toList ((1 / sigma) • if normalized bearing ⬝ᵥ normalized ((γ d).dcm *ᵥ (pw - (γ d).pos)) ≤ tol then ![1, 1]
        else Fac.tangentT (normalized bearing) *ᵥ normalized ((γ d).dcm *ᵥ (pw - (γ d).pos)))) := fun d => by
    simp only [residualAfter, hp, hγ d]
    exact projection_residual (set_same _ _ _) (by rw [set_other _ _ hpl.symm]; exact hl) hx id _ _ _
  have rL : ∀ d : V3, residualAfter incr (Fac.bearingProjection id p l bearing sigma tol) h l (List.ofFn d) =
      .ok (toList ((1 / sigma) • if normalized bearing ⬝ᵥ normalized (v.dcm *ᵥ (pw + d - v.pos)) ≤ tol then ![1, 1]
        else Fac.tangentT (normalized bearing) *ᵥ normalized (v.dcm *ᵥ (pw + d - v.pos)))) := fun d => by
    simp only [residualAfter, hl, hlm d]
    exact projection_residual (by rw [set_other _ _ hpl]; exact hp) (set_same _ _ _) rfl id _ _ _
  have e0 : (γ 0).dcm *ᵥ (pw - (γ 0).pos) = v.dcm *ᵥ (pw - v.pos) := by rw [hm.start, hm.pos_zero]
  have kP : (fun d => normalized bearing ⬝ᵥ normalized ((γ d).dcm *ᵥ (pw - (γ d).pos))) 0 =
      normalized bearing ⬝ᵥ normalized (v.dcm *ᵥ (pw - v.pos)) := by simp only [e0]
  have kL : (fun d : V3 => normalized bearing ⬝ᵥ normalized (v.dcm *ᵥ (pw + d - v.pos))) 0 =
      normalized bearing ⬝ᵥ normalized (v.dcm *ᵥ (pw - v.pos)) := by simp only [add_zero]
  intro old
  rcases lt_or_gt_of_ne hdep with hlt | hgt
  · refine ⟨_, by
      simp only [Fac.bearingProjection, hp, hl, posW_of hx, Res.andThen]
      rw [if_neg h0, ← hnorm, if_pos hlt.le]
      exact fillBlocks_ok rfl, ?_⟩
    rw [← hp, ← hl]
    refine .cons (block_ok ?_) (.cons (block_ok ?_) .nil)
    · refine isDerivative_of (fun d => (1 / sigma) • ![1, 1]) rfl (by rw [hp]; rfl) ?_ ?_ ?_
      · rw [projection_residual hp hl hx, if_pos hlt.le]
      · filter_upwards [cP.eventually_lt_const (kP.trans_lt hlt)] with d hd
        rw [rP, if_pos hd.le]
      · exact HasVecDeriv.congr (HasVecDeriv.const _ 0) fun u => by simp
    · refine isDerivative_of (fun d => (1 / sigma) • ![1, 1]) rfl (by rw [hl]; rfl) ?_ ?_ ?_
      · rw [projection_residual hp hl hx, if_pos hlt.le]
      · filter_upwards [cL.eventually_lt_const (kL.trans_lt hlt)] with d hd
        rw [rL, if_pos hd.le]
      · exact HasVecDeriv.congr (HasVecDeriv.const _ 0) fun u => by simp
  · refine ⟨_, by
      simp only [Fac.bearingProjection, hp, hl, posW_of hx, Res.andThen]
      rw [if_neg h0, ← hnorm, if_neg (not_le.mpr hgt)]
      exact fillBlocks_ok rfl, ?_⟩
    rw [← hp, ← hl]
    refine .cons (block_ok ?_) (.cons (block_ok ?_) .nil)
    · refine isDerivative_of (fun d => (1 / sigma) • (Fac.tangentT (normalized bearing) *ᵥ
        normalized ((γ d).dcm *ᵥ (pw - (γ d).pos)))) rfl (by rw [hp]; rfl) ?_ ?_ ?_
      · rw [projection_residual hp hl hx, if_neg (not_le.mpr hgt), e0]
      · filter_upwards [cP.eventually_const_lt (hgt.trans_eq kP.symm)] with d hd
        rw [rP, if_neg (not_le.mpr hd)]
      · refine HasVecDeriv.congr (HasVecDeriv.const_smul _ (HasVecDeriv.const_mulVec _ dP)) fun u => ?_
        rw [hnorm, ← Matrix.mulVec_mulVec, ← Matrix.mulVec_smul]
        congr 1
        generalize v.dcm *ᵥ (pw - v.pos) = c
        simp only [beside_mulVec, ← Matrix.mulVec_mulVec, Matrix.smul_mulVec, Matrix.neg_mulVec, Matrix.sub_mulVec,
          Matrix.one_mulVec]
        module
    · refine isDerivative_of (fun d => (1 / sigma) • (Fac.tangentT (normalized bearing) *ᵥ
        normalized (v.dcm *ᵥ (pw + d - v.pos)))) rfl (by rw [hl]; rfl) ?_ ?_ ?_
      · rw [projection_residual hp hl hx, if_neg (not_le.mpr hgt), add_zero]
      · filter_upwards [cL.eventually_const_lt (hgt.trans_eq kL.symm)] with d hd
        rw [rL, if_neg (not_le.mpr hd)]
      · refine HasVecDeriv.congr (HasVecDeriv.const_smul _ (HasVecDeriv.const_mulVec _ dL)) fun u => ?_
        rw [hnorm, add_zero, ← Matrix.mulVec_mulVec, ← Matrix.mulVec_smul]
        congr 1
        generalize v.dcm *ᵥ (pw - v.pos) = c
        simp only [← Matrix.mulVec_mulVec, Matrix.smul_mulVec, Matrix.neg_mulVec, Matrix.sub_mulVec,
          Matrix.one_mulVec]

/-- A pose at the identity and a landmark in front of it; default tolerance. -/
example : JacobiansCorrect exactIncr (Fac.bearingProjection 9 0 1 ![1, 0, 0] 0.1 1e-6)
    (fun r => if r = 1 then .landmark (LandmarkVar.make 1 ![1, 0, 0]) else .pose (PoseVar.make 0 0 0)) := by
  have e : (PoseVar.make 0 0 0).dcm *ᵥ (![1, 0, 0] - (PoseVar.make 0 0 0).pos) = ![1, 0, 0] := by
    rw [make_zero_dcm, Matrix.one_mulVec]
    exact sub_zero _
  refine C48_jacobian _ 9 0 1 (PoseVar.make 0 0 0) _ ![1, 0, 0] _ 0.1 1e-6 rfl rfl rfl (by rw [make_zero_dcm]; exact isRotation_one)
    ?_ ?_ _ .exact
  · rw [e]; intro h; simpa using congrFun h 0
  · rw [e, normalized_of_unit (by simp)]
    simp
    norm_num

/-- **C48** With the landmark exactly at the camera the Jacobian is not defined (the code divides zero by zero). -/
theorem C48_camera_undefined (h : Heap RVar) (id : Int) (p l : VRef) (v : PoseVar) (x : LandmarkVar) (bearing : V3)
    (sigma tol : ℝ) (hp : h p = .pose v) (hl : h l = .landmark x) (hx : x.value = toList v.pos) (old : List (Mat ℝ)) :
    (Fac.bearingProjection id p l bearing sigma tol).computeJacobians h old = .ub := by
  simp only [Fac.bearingProjection, hp, hl, posW_of hx, Res.andThen, sub_self, Matrix.mulVec_zero]
  rw [if_pos (vnorm_eq_zero.mpr rfl)]

/-- A camera and a landmark at `(1, 2, 3)`. -/
example : (Fac.bearingProjection 7 0 1 ![0, 0, 1] 0.1 1e-6).computeJacobians
    (fun r => if r = 0 then .pose (PoseVar.make 1 ![1, 2, 3] 0) else .landmark (LandmarkVar.make 2 ![1, 2, 3])) [] = .ub :=
  C48_camera_undefined _ 7 0 1 (PoseVar.make 1 ![1, 2, 3] 0) (LandmarkVar.make 2 ![1, 2, 3]) _ _ _ rfl rfl rfl _

end Factorama.Props
