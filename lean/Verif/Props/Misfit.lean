import Verif.Props.FactorsLinear
import Verif.Props.FactorsRotation
import Verif.Props.FactorsBearing
import Verif.Props.FactorsPlanar
import Verif.Props.FactorsPlane
import Verif.Props.FactorsMotion

/-!
# The residual is the misfit in units of its standard deviation: C80

The theorems on the zeros of the residuals and on the Jacobians hold for residuals of any scale. Here the scale is
fixed: one standard deviation of misfit gives a residual of length 1. (The corresponding statements for the generic
prior, the generic difference, the planar bearing and the velocity factor are `C42_residual`, `C43_residual`,
`C49_wrapped` and `C55_zero`.)
-/

namespace Factorama.Props
open Matrix Geo Spec

/-! ### Positions -/

/-- **C80** `PosePositionPriorFactor`. -/
theorem C80_position_prior (h : Heap RVar) (id : Int) (p : VRef) (v : PoseVar) (prior : V3) (sigma : ℝ)
    (hp : h p = .pose v) : ResidualIs (Fac.posePositionPrior id p prior sigma) h ((1 / sigma) • (v.pos - prior)) := by
  simp [ResidualIs, Fac.posePositionPrior, hp, toList]

/-- Two metres from the prior, with a standard deviation of half a metre. -/
example : ResidualIs (Fac.posePositionPrior 1 0 ![1, 1, 1] 0.5) (fun _ => .pose (PoseVar.make 0 ![1, 3, 1] ![1, 0, 0]))
    ![0, 4, 0] := by
  have := C80_position_prior (fun _ => .pose (PoseVar.make 0 ![1, 3, 1] ![1, 0, 0])) 1 0 _ ![1, 1, 1] 0.5 rfl
  convert this using 1
  show _ = (1 / 0.5 : ℝ) • (![1, 3, 1] - ![1, 1, 1] : V3)
  funext i
  fin_cases i <;> norm_num

/-- **C80** `PosePositionBetweenFactor`. -/
theorem C80_position_between (h : Heap RVar) (id : Int) (a b m : VRef) (va vb : PoseVar) (x : V3) (sigma : ℝ)
    (ha : h a = .pose va) (hb : h b = .pose vb) (hm : IsVector (h m) x) :
    ResidualIs (Fac.posePositionBetween id a b m sigma false) h ((1 / sigma) • (vb.pos - va.pos - x)) ∧
    ResidualIs (Fac.posePositionBetween id a b m sigma true) h ((1 / sigma) • (va.dcm *ᵥ (vb.pos - va.pos) - x)) := by
  constructor
  · exact position_between_residual ha hb hm id sigma false
  · exact position_between_residual ha hb hm id sigma true

/-- The second pose is one metre further along the first axis than measured. -/
example : ResidualIs (Fac.posePositionBetween 3 0 1 2 0.5 false)
    (fun r => if r = 2 then .landmark (LandmarkVar.make 2 ![1, 0, 0]) else
      .pose (PoseVar.make 0 (if r = 0 then ![0, 0, 0] else ![2, 0, 0]) ![1, 0, 0])) ![2, 0, 0] := by
  have := (C80_position_between (fun r => if r = 2 then .landmark (LandmarkVar.make 2 ![1, 0, 0]) else
      .pose (PoseVar.make 0 (if r = 0 then ![0, 0, 0] else ![2, 0, 0]) ![1, 0, 0])) 3 0 1 2 _ _ ![1, 0, 0] 0.5 rfl rfl
      (.inr ⟨rfl, _, rfl, rfl⟩)).1
  convert this using 1
  show _ = (1 / 0.5 : ℝ) • (![2, 0, 0] - ![0, 0, 0] - ![1, 0, 0] : V3)
  funext i
  fin_cases i <;> norm_num

/-! ### Orientations -/

theorem log_rotationVector {E : M3} (hE : IsRotation E) : RotationVector (logSO3 E) E := by
  have he := IsRotation.eqs hE
  refine ⟨fun h => ?_, fun h => ?_⟩
  · have hl : length (logSO3 E) = angle E := by rw [length_eq, vnorm_log he h]
    refine ⟨hl, ?_⟩
    have hx := exp_log he h
    have hb : 1e-10 ≤ vnorm (logSO3 E) := by rw [vnorm_log he h]; linarith
    rw [exp_eq_rodrigues hb, vdiv_eq_smul] at hx
    rw [rotationOf, length_eq]
    exact hx
  · rw [log_small he h]
    constructor
    · have hs : 0 ≤ Real.sin (angle E) := Real.sin_nonneg_of_nonneg_of_le_pi (angle_nonneg E) (angle_le_pi E)
      have h1 : vnorm (anti E) = 2 * Real.sin (angle E) := by
        rw [vnorm, anti_sq he, ← sin_angle_sq he, Real.sqrt_sq (by linarith)]
      rw [length_eq, vnorm_smul, h1, abs_of_pos (by norm_num)]
      ring
    · rw [skew_smul, ← unskew_anti]
      ext i j
      fin_cases i <;> fin_cases j <;> simp [skew, unskew] <;> ring

/-- **C80** `PoseOrientationPriorFactor`: the misfit is the rotation from the prior to the orientation. -/
theorem C80_orientation_prior (h : Heap RVar) (id : Int) (p : VRef) (v : PoseVar) (prior : M3) (sigma : ℝ)
    (hp : h p = .pose v) (hR : IsRotation v.dcm) (hP : IsRotation prior) (hs : prior = 1 ∨ 1e-5 ≤ angle prior) :
    ∃ e, ResidualIs (Fac.poseOrientationPrior id p prior sigma) h ((1 / sigma) • e) ∧
      RotationVector e (v.dcm * priorᵀ) := by
  refine ⟨_, ?_, log_rotationVector (rotation_mul hR (isRotation_transpose hP))⟩
  simp only [ResidualIs, Fac.poseOrientationPrior, hp, prior_stored hP hs]
  rfl

/-- One radian from the identity, with a standard deviation of a tenth: the residual has length ten. -/
example : ∃ e : V3, ResidualIs (Fac.poseOrientationPrior 1 0 1 0.1) (fun _ => .pose (PoseVar.make 0 ![1, 2, 3] ![1, 0, 0]))
    ((1 / 0.1 : ℝ) • e) ∧ length e = 1 := by
  obtain ⟨e, h1, h2⟩ := C80_orientation_prior (fun _ => .pose (PoseVar.make 0 ![1, 2, 3] ![1, 0, 0])) 1 0 _ 1 0.1 rfl
    (example_pose _ _).1 ⟨by simp, by simp⟩ (.inl rfl)
  refine ⟨e, h1, ?_⟩
  have hE : (PoseVar.make 0 ![1, 2, 3] ![1, 0, 0]).dcm * (1 : M3)ᵀ = PoseVar.dcmOf ![1, 0, 0] := by
    rw [Matrix.transpose_one, mul_one]; rfl
  rw [hE] at h2
  rw [(h2.turns example_regular.1.1.le).1]
  have hv : vnorm (![1, 0, 0] : V3) = 1 := vnorm_unit (by simp)
  have ha : (vdiv ![1, 0, 0] 1 : V3) ⬝ᵥ vdiv ![1, 0, 0] 1 = 1 := by simp [vdiv_eq_smul]
  rw [dcmOf_big (by rw [hv]; norm_num), hv, angle_rodrigues ha (by norm_num) (by linarith [Real.pi_gt_three])]

/-- **C80** `RotationPriorFactor`. -/
theorem C80_rotation_prior (h : Heap RVar) (id : Int) (r : VRef) (v : RotationVar) (prior : M3) (sigma : ℝ)
    (hr : h r = .rotation v) (hR : IsRotation v.dcm) (hP : IsRotation prior) :
    ∃ e, ResidualIs (Fac.rotationPrior id r prior sigma) h ((1 / sigma) • e) ∧ RotationVector e (v.dcm * priorᵀ) := by
  refine ⟨_, ?_, log_rotationVector (rotation_mul hR (isRotation_transpose hP))⟩
  simp only [ResidualIs, Fac.rotationPrior, hr]
  rfl

/-- A rotation variable one radian from the identity. -/
example : ∃ e : V3, ResidualIs (Fac.rotationPrior 1 0 1 0.1) (fun _ => .rotation (RotationVar.make 0 (PoseVar.dcmOf ![1, 0, 0])))
    ((1 / 0.1 : ℝ) • e) ∧ RotationVector e (PoseVar.dcmOf ![1, 0, 0]) := by
  have := C80_rotation_prior (fun _ => .rotation (RotationVar.make 0 (PoseVar.dcmOf ![1, 0, 0]))) 1 0 _ 1 0.1 rfl
    example_regular.2 ⟨by simp, by simp⟩
  rw [Matrix.transpose_one, mul_one] at this
  exact this

/-- **C80** `PoseOrientationBetweenFactor`. -/
theorem C80_orientation_between (h : Heap RVar) (id : Int) (p1 p2 c : VRef) (v1 v2 : PoseVar) (vc : RotationVar)
    (sigma : ℝ) (h1 : h p1 = .pose v1) (h2 : h p2 = .pose v2) (hc : h c = .rotation vc) (hR1 : IsRotation v1.dcm)
    (hR2 : IsRotation v2.dcm) (hRc : IsRotation vc.dcm) :
    ∃ e, ResidualIs (Fac.poseOrientationBetween id p1 p2 c sigma) h ((1 / sigma) • e) ∧
      RotationVector e (v2.dcm * v1.dcmᵀ * vc.dcm) :=
  ⟨_, orientation_between_residual h1 h2 hc id sigma,
    log_rotationVector (rotation_mul (rotation_mul hR2 (isRotation_transpose hR1)) hRc)⟩

/-- Two equal poses, and a calibration of one radian. -/
example : ∃ e : V3, ResidualIs (Fac.poseOrientationBetween 3 0 1 2 0.1)
    (fun r => if r = 2 then .rotation (RotationVar.make 0 (PoseVar.dcmOf ![1, 0, 0])) else
      .pose (PoseVar.make 0 ![1, 2, 3] ![1, 0, 0])) ((1 / 0.1 : ℝ) • e) ∧ RotationVector e (PoseVar.dcmOf ![1, 0, 0]) := by
  have := C80_orientation_between (fun r => if r = 2 then .rotation (RotationVar.make 0 (PoseVar.dcmOf ![1, 0, 0])) else
      .pose (PoseVar.make 0 ![1, 2, 3] ![1, 0, 0])) 3 0 1 2 _ _ _ 0.1 rfl rfl rfl (example_pose _ _).1 (example_pose _ _).1
      example_regular.2
  rw [(example_pose 0 ![1, 2, 3]).1.1, one_mul] at this
  exact this

/-! ### Directions -/

theorem angleBetween_eq {a b : V3} (ha : a ≠ 0) (hb : b ≠ 0) :
    angleBetween a b = Real.arccos (normalized a ⬝ᵥ normalized b) := by
  rw [angleBetween, length_eq, length_eq, normalized_eq (vnorm_ne ha), normalized_eq (vnorm_ne hb), smul_dotProduct,
    dotProduct_smul]
  congr 1
  have := vnorm_ne ha
  have := vnorm_ne hb
  simp only [smul_eq_mul]
  field_simp

/-- The Cauchy-Schwarz inequality for unit vectors. -/
theorem unit_dot_bounds {u w : V3} (hu : u ⬝ᵥ u = 1) (hw : w ⬝ᵥ w = 1) : -1 ≤ u ⬝ᵥ w ∧ u ⬝ᵥ w ≤ 1 := by
  have h1 := dot_self_nonneg (u - w)
  have h2 := dot_self_nonneg (u + w)
  simp only [sub_dotProduct, dotProduct_sub, add_dotProduct, dotProduct_add, hu, hw, dotProduct_comm w u] at h1 h2
  constructor <;> linarith

theorem cos_angleBetween {a b : V3} (ha : a ≠ 0) (hb : b ≠ 0) :
    Real.cos (angleBetween a b) = normalized a ⬝ᵥ normalized b := by
  obtain ⟨h1, h2⟩ := unit_dot_bounds (normalized_unit ha) (normalized_unit hb)
  rw [angleBetween_eq ha hb, Real.cos_arccos h1 h2]

/-- The chord between two unit vectors. -/
theorem chord {a b : V3} (ha : a ≠ 0) (hb : b ≠ 0) :
    length (normalized a - normalized b) = 2 * Real.sin (angleBetween a b / 2) := by
  have h0 : 0 ≤ angleBetween a b := Real.arccos_nonneg _
  have h1 : angleBetween a b ≤ Real.pi := Real.arccos_le_pi _
  have hs : 0 ≤ Real.sin (angleBetween a b / 2) :=
    Real.sin_nonneg_of_nonneg_of_le_pi (by linarith) (by linarith [Real.pi_pos])
  rw [length_eq, vnorm]
  have hc := cos_angleBetween ha hb
  have hd : (normalized a - normalized b) ⬝ᵥ (normalized a - normalized b) = (2 * Real.sin (angleBetween a b / 2)) ^ 2 := by
    have h2 : Real.cos (angleBetween a b) = 1 - 2 * Real.sin (angleBetween a b / 2) ^ 2 := by
      have h3 := Real.cos_sq (angleBetween a b / 2)
      have h4 := Real.sin_sq_add_cos_sq (angleBetween a b / 2)
      rw [mul_div_cancel₀ _ (two_ne_zero)] at h3
      linarith
    simp only [sub_dotProduct, dotProduct_sub, normalized_unit ha, normalized_unit hb,
      dotProduct_comm (normalized b) (normalized a)]
    rw [← hc, h2]
    ring
  rw [hd, Real.sqrt_sq (by linarith)]

theorem unit_direction {a : V3} (ha : a ≠ 0) : normalized a = (length a)⁻¹ • a := by
  rw [normalized_eq (vnorm_ne ha), length_eq]

/-- **C80** `BearingObservationFactor`: the misfit is the difference of the unit directions to the landmark and along the
observation, so its length is the chord of the angle between them, which is the angle to third order. -/
theorem C80_bearing (h : Heap RVar) (id : Int) (p l : VRef) (v : PoseVar) (x : LandmarkVar) (pw bearing : V3)
    (sigma : ℝ) (hp : h p = .pose v) (hl : h l = .landmark x) (hx : x.value = toList pw) (hb : bearing ≠ 0)
    (hd : v.dcm *ᵥ (pw - v.pos) ≠ 0) :
    let c := v.dcm *ᵥ (pw - v.pos)
    let e := (length c)⁻¹ • c - (length bearing)⁻¹ • bearing
    ResidualIs (Fac.bearingObservation id p l bearing sigma) h ((1 / sigma) • e) ∧
      length e = 2 * Real.sin (angleBetween c bearing / 2) := by
  intro c e
  have he : e = normalized c - normalized bearing := by
    rw [unit_direction hd, unit_direction hb]
  rw [he]
  exact ⟨bearing_residual hp hl hx id bearing sigma, chord hd hb⟩

/-- **C80** `InverseRangeBearingFactor`, for inverse ranges that are not tiny. -/
theorem C80_inverse_range (h : Heap RVar) (id : Int) (p r : VRef) (v : PoseVar) (x : InvRangeVar) (bearing : V3)
    (sigma : ℝ) (hp : h p = .pose v) (hr : h r = .invRange x) (hx : 1e-9 ≤ |x.inv|) (hb : bearing ≠ 0)
    (hd : v.dcm *ᵥ (x.origin + (1 / x.inv) • x.bearing - v.pos) ≠ 0) :
    let c := v.dcm *ᵥ (x.origin + (1 / x.inv) • x.bearing - v.pos)
    let e := (length c)⁻¹ • c - (length bearing)⁻¹ • bearing
    ResidualIs (Fac.inverseRangeBearing id p r bearing sigma) h ((1 / sigma) • e) ∧
      length e = 2 * Real.sin (angleBetween c bearing / 2) := by
  intro c e
  have he : e = normalized c - normalized bearing := by
    rw [unit_direction hd, unit_direction hb]
  rw [he]
  exact ⟨inverse_range_residual hp hr hx id bearing sigma, chord hd hb⟩

theorem tangentT_sq {k : V3} (hk : k ⬝ᵥ k = 1) (b : V3) :
    (Fac.tangentT k *ᵥ b) ⬝ᵥ (Fac.tangentT k *ᵥ b) = b ⬝ᵥ b - (k ⬝ᵥ b) ^ 2 := by
  obtain ⟨h1, h2⟩ := tangent1_unit hk
  have hcross : Fac.tangent2 k ⬝ᵥ Fac.tangent2 k = 1 := by
    unfold Fac.tangent2
    rw [cross_dot_cross, hk, h1, h2, dotProduct_comm, h2]
    norm_num
  have h12 : Fac.tangent1 k ⬝ᵥ Fac.tangent2 k = 0 := by unfold Fac.tangent2; rw [dot_cross_self]
  have hk2 : k ⬝ᵥ Fac.tangent2 k = 0 := by unfold Fac.tangent2; rw [dot_self_cross]
  have hT : Fac.tangentT k *ᵥ b = ![Fac.tangent1 k ⬝ᵥ b, Fac.tangent2 k ⬝ᵥ b] := by
    funext i; fin_cases i <;> simp [Fac.tangentT, Matrix.mulVec]
  have hQ : (Matrix.of ![k, Fac.tangent1 k, Fac.tangent2 k] : M3) * (Matrix.of ![k, Fac.tangent1 k, Fac.tangent2 k] : M3)ᵀ = 1 := by
    ext i j
    have e10 : Fac.tangent1 k ⬝ᵥ k = 0 := by rw [dotProduct_comm, h2]
    have e20 : Fac.tangent2 k ⬝ᵥ k = 0 := by rw [dotProduct_comm, hk2]
    have e21 : Fac.tangent2 k ⬝ᵥ Fac.tangent1 k = 0 := by rw [dotProduct_comm, h12]
    simp only [dot3] at hk h1 h2 h12 hk2 hcross e10 e20 e21
    fin_cases i <;> fin_cases j <;> simp [Matrix.mul_apply, Fin.sum_univ_three] <;> assumption
  have hQ' := mul_eq_one_comm.mp hQ
  have hn : (Matrix.of ![k, Fac.tangent1 k, Fac.tangent2 k] : M3) *ᵥ b ⬝ᵥ (Matrix.of ![k, Fac.tangent1 k, Fac.tangent2 k] : M3) *ᵥ b =
      b ⬝ᵥ b := by
    rw [Matrix.dotProduct_mulVec, Matrix.vecMul_mulVec, hQ', Matrix.vecMul_one]
  have he : (Matrix.of ![k, Fac.tangent1 k, Fac.tangent2 k] : M3) *ᵥ b =
      ![k ⬝ᵥ b, Fac.tangent1 k ⬝ᵥ b, Fac.tangent2 k ⬝ᵥ b] := by
    funext i; fin_cases i <;> simp [Matrix.mulVec]
  rw [he, dot3] at hn
  rw [hT, ← hn]
  simp [dotProduct, Fin.sum_univ_two]
  ring

/-- **C80** `BearingProjectionFactor2D`: the misfit is the projection of the unit direction to the landmark onto the
tangent plane, of length the sine of the angle to the observation, while the cosine of that angle is above the
tolerance, and the constant `(1, 1)` otherwise. -/
theorem C80_projection (h : Heap RVar) (id : Int) (p l : VRef) (v : PoseVar) (x : LandmarkVar) (pw bearing : V3)
    (sigma tol : ℝ) (hp : h p = .pose v) (hl : h l = .landmark x) (hx : x.value = toList pw) (hb : bearing ≠ 0)
    (hd : v.dcm *ᵥ (pw - v.pos) ≠ 0) :
    ∃ e : V2, ResidualIs (Fac.bearingProjection id p l bearing sigma tol) h ((1 / sigma) • e) ∧
      (tol < Real.cos (angleBetween (v.dcm *ᵥ (pw - v.pos)) bearing) →
        length e = Real.sin (angleBetween (v.dcm *ᵥ (pw - v.pos)) bearing)) ∧
      (Real.cos (angleBetween (v.dcm *ᵥ (pw - v.pos)) bearing) ≤ tol → e = ![1, 1]) := by
  refine ⟨_, projection_residual hp hl hx id bearing sigma tol, fun h0 => ?_, fun h0 => ?_⟩
  · rw [cos_angleBetween hd hb, dotProduct_comm] at h0
    rw [if_neg (not_le.mpr h0), length_eq, vnorm, tangentT_sq (normalized_unit hb), normalized_unit hd,
      dotProduct_comm, ← cos_angleBetween hd hb, ← Real.sin_sq, Real.sqrt_sq]
    exact Real.sin_nonneg_of_nonneg_of_le_pi (Real.arccos_nonneg _) (Real.arccos_le_pi _)
  · rw [cos_angleBetween hd hb, dotProduct_comm] at h0
    rw [if_pos h0]

namespace C80
/-- A camera at the origin that looks along the axes, and a landmark ahead. -/
noncomputable def camera : Heap RVar := fun r =>
  if r = 1 then .landmark (LandmarkVar.make 1 ![0, 0, 3]) else
  if r = 2 then .invRange (InvRangeVar.make 2 0 ![0, 0, 1] 3) else .pose (PoseVar.make 0 0 0)

theorem ahead {c b : V3} (hc : c = ![0, 0, 3]) (hb : b = ![0, 1, 0]) : angleBetween c b = Real.pi / 2 := by
  rw [hc, hb, angleBetween, dot3]
  simp [Real.arccos_zero]

theorem seen : (PoseVar.make 0 0 0).dcm *ᵥ ((![0, 0, 3] : V3) - (PoseVar.make 0 0 0).pos) = ![0, 0, 3] := by
  rw [make_zero_dcm, Matrix.one_mulVec]
  show (![0, 0, 3] - 0 : V3) = _
  rw [sub_zero]

theorem ne3 : (![0, 0, 3] : V3) ≠ 0 := fun h => by simpa using congrFun h 2
theorem ne1 : (![0, 1, 0] : V3) ≠ 0 := fun h => by simpa using congrFun h 1
end C80

/-- The landmark is seen at a right angle to the observation. -/
example : ∃ e : V3, ResidualIs (Fac.bearingObservation 9 0 1 ![0, 1, 0] 0.1) C80.camera ((1 / 0.1 : ℝ) • e) ∧
    length e = 2 * Real.sin (Real.pi / 2 / 2) := by
  have := C80_bearing C80.camera 9 0 1 (PoseVar.make 0 0 0) _ ![0, 0, 3] ![0, 1, 0] 0.1 rfl rfl rfl C80.ne1
    (by rw [C80.seen]; exact C80.ne3)
  rw [← C80.ahead C80.seen rfl]
  exact ⟨_, this⟩

/-- The same point as an inverse range variable. -/
example : ∃ e : V3, ResidualIs (Fac.inverseRangeBearing 9 0 2 ![0, 1, 0] 0.1) C80.camera ((1 / 0.1 : ℝ) • e) ∧
    length e = 2 * Real.sin (Real.pi / 2 / 2) := by
  have hinv : (InvRangeVar.make 2 0 ![0, 0, 1] 3).inv = 1 / 3 := by
    show InvRangeVar.initialInv 3 = _
    rw [InvRangeVar.initialInv, if_neg (by norm_num), InvRangeVar.clip]
    norm_num
  have hbear : (InvRangeVar.make 2 0 ![0, 0, 1] 3).bearing = ![0, 0, 1] := by
    show normalized _ = _
    exact normalized_of_unit (by rw [dot3]; simp)
  have hc : (PoseVar.make 0 0 0).dcm *ᵥ ((InvRangeVar.make 2 0 ![0, 0, 1] 3).origin +
      (1 / (InvRangeVar.make 2 0 ![0, 0, 1] 3).inv) • (InvRangeVar.make 2 0 ![0, 0, 1] 3).bearing - (PoseVar.make 0 0 0).pos) =
      ![0, 0, 3] := by
    rw [hinv, hbear, make_zero_dcm, Matrix.one_mulVec]
    show ((0 : V3) + _ - 0) = _
    funext i; fin_cases i <;> norm_num
  have := C80_inverse_range C80.camera 9 0 2 (PoseVar.make 0 0 0) _ ![0, 1, 0] 0.1 rfl rfl
    (by rw [hinv, abs_of_pos (by norm_num)]; norm_num) C80.ne1 (by rw [hc]; exact C80.ne3)
  rw [← C80.ahead hc rfl]
  exact ⟨_, this⟩

/-- The same observation with the projection factor: the cosine is below the tolerance. -/
example : ResidualIs (Fac.bearingProjection 9 0 1 ![0, 1, 0] 0.1 1e-6) C80.camera ((1 / 0.1 : ℝ) • (![1, 1] : V2)) := by
  obtain ⟨e, h1, _, h2⟩ := C80_projection C80.camera 9 0 1 (PoseVar.make 0 0 0) _ ![0, 0, 3] ![0, 1, 0] 0.1 1e-6 rfl rfl rfl
    C80.ne1 (by rw [C80.seen]; exact C80.ne3)
  rw [C80.ahead C80.seen rfl, Real.cos_pi_div_two] at h2
  rw [← h2 (by norm_num)]
  exact h1

/-! ### Planar factors -/

theorem vnorm_deltaLocal (v : Pose2DVar) (x : V2) : vnorm (Fac.deltaLocal v x) = length (x - v.pos) := by
  rw [length_eq, vnorm2, vnorm2, deltaLocal_eq]
  congr 1
  have := Real.sin_sq_add_cos_sq v.theta
  simp only [cons_val_zero, cons_val_one, Pi.sub_apply]
  linear_combination ((x 0 - v.pos 0) ^ 2 + (x 1 - v.pos 1) ^ 2) * this

/-- **C80** `RangeBearingFactor2D`: the misfits are the difference of the distance and the measured range, and the
angle `a` in `(-π, π]` by which the landmark is seen to the left of the observed direction. -/
theorem C80_range_bearing (h : Heap RVar) (id : Int) (p l : VRef) (v : Pose2DVar) (x : V2) (range obs rs bs : ℝ)
    (hp : h p = .pose2d v) (hl : IsVector (h l) x) (hx : x ≠ v.pos) :
    ∃ a : ℝ, ResidualIs (Fac.rangeBearing2D id p l range obs rs bs) h
        ![(1 / rs) * (length (x - v.pos) - range), (1 / bs) * a] ∧ -Real.pi < a ∧ a ≤ Real.pi ∧
      SeenAt v.pos x (v.theta + (obs + a)) := by
  refine ⟨_, ?_, (wrap_range _).1, (wrap_range _).2, wrap_seen v x obs hx⟩
  rw [ResidualIs, range_bearing_residual hp hl, vnorm_deltaLocal]
  rfl

/-- **C80** `Pose2DPriorFactor`: the misfits are the differences of the position and the angle in `(-π, π]` between the
headings. -/
theorem C80_prior_2d (h : Heap RVar) (id : Int) (p : VRef) (v : Pose2DVar) (prior : V3) (ps as : ℝ)
    (hp : h p = .pose2d v) :
    ∃ a : ℝ, ResidualIs (Fac.pose2DPrior id p prior ps as) h
        ![(1 / ps) * (v.pos 0 - prior 0), (1 / ps) * (v.pos 1 - prior 1), (1 / as) * a] ∧ -Real.pi < a ∧ a ≤ Real.pi ∧
      ∃ n : ℤ, a = v.theta - prior 2 + n * (2 * Real.pi) :=
  ⟨_, prior2d_residual hp id prior ps as, (wrap_range _).1, (wrap_range _).2, wrap_mod _⟩

/-- **C80** `Pose2DBetweenFactor`. (With `local_frame` the code turns the difference of the positions by the heading of
the first pose, not back by it, see `C52_local_false`.) -/
theorem C80_between_2d (h : Heap RVar) (id : Int) (i j m : VRef) (va vb : Pose2DVar) (x : V3) (ps as : ℝ)
    (hi : h i = .pose2d va) (hj : h j = .pose2d vb) (hm : MeasuredPose (h m) x) :
    ∃ a : ℝ, ResidualIs (Fac.pose2DBetween id i j m ps as false) h
        ![(1 / ps) * (vb.pos 0 - va.pos 0 - x 0), (1 / ps) * (vb.pos 1 - va.pos 1 - x 1), (1 / as) * a] ∧
      -Real.pi < a ∧ a ≤ Real.pi ∧ ∃ n : ℤ, a = vb.theta - va.theta - x 2 + n * (2 * Real.pi) :=
  ⟨_, between2d_residual hi hj (measured_value hm).1 id ps as false, (wrap_range _).1, (wrap_range _).2, wrap_mod _⟩

/-- **C80** `Pose2DBetweenFactor` with `local_frame`: the weights are the same, for the difference of the positions as the
code turns it. -/
theorem C80_between_2d_local (h : Heap RVar) (id : Int) (i j m : VRef) (va vb : Pose2DVar) (x : V3) (ps as : ℝ)
    (hi : h i = .pose2d va) (hj : h j = .pose2d vb) (hm : MeasuredPose (h m) x) :
    let dx := vb.pos 0 - va.pos 0
    let dy := vb.pos 1 - va.pos 1
    ∃ a : ℝ, ResidualIs (Fac.pose2DBetween id i j m ps as true) h
        ![(1 / ps) * (Real.cos va.theta * dx - Real.sin va.theta * dy - x 0),
          (1 / ps) * (Real.sin va.theta * dx + Real.cos va.theta * dy - x 1), (1 / as) * a] ∧
      -Real.pi < a ∧ a ≤ Real.pi ∧ ∃ n : ℤ, a = vb.theta - va.theta - x 2 + n * (2 * Real.pi) := by
  intro dx dy
  refine ⟨wrapAngle (vb.theta - va.theta - x 2), ?_, (wrap_range _).1, (wrap_range _).2, wrap_mod _⟩
  rw [ResidualIs, between2d_residual hi hj (measured_value hm).1]
  congr 2
  simp [Pose2DVar.dcm, Matrix.mulVec, dotProduct, Fin.sum_univ_two, dx, dy]
  ring_nf
  simp

namespace C80
/-- Two planar poses, a landmark and a measured relative pose. -/
noncomputable def plan : Heap RVar := fun r =>
  if r = 0 then .pose2d ⟨0, false, 0, 0⟩ else if r = 1 then .pose2d ⟨1, false, ![3, 4], 1⟩ else
  if r = 2 then .generic ⟨2, false, [3, 4]⟩ else .generic ⟨3, false, [1, 2, 3]⟩
end C80

/-- The landmark `(3, 4)` is five units away from the origin; the measured range was four. -/
example : ∃ a : ℝ, ResidualIs (Fac.rangeBearing2D 9 0 2 4 1 0.5 0.1) C80.plan ![2, (1 / 0.1) * a] := by
  obtain ⟨a, h, _⟩ := C80_range_bearing C80.plan 9 0 2 ⟨0, false, 0, 0⟩ ![3, 4] 4 1 0.5 0.1 rfl
    (.inl ⟨_, rfl, by simp [toList]⟩) fun h => by simpa using congrFun h 0
  have : length ((![3, 4] : V2) - 0) = 5 := by
    rw [length]
    simp [Fin.sum_univ_two]
    rw [show (3 ^ 2 + 4 ^ 2 : ℝ) = 5 ^ 2 by norm_num, Real.sqrt_sq (by norm_num)]
  rw [this] at h
  refine ⟨a, ?_⟩
  convert h using 3
  norm_num

/-- A full turn and a bit from the prior heading. -/
example : ∃ a : ℝ, ResidualIs (Fac.pose2DPrior 9 1 ![1, 0, 1 - 2 * Real.pi] 0.5 0.1) C80.plan ![4, 8, (1 / 0.1) * a] ∧
    ∃ n : ℤ, a = n * (2 * Real.pi) := by
  obtain ⟨a, h, _, _, n, hn⟩ := C80_prior_2d C80.plan 9 1 ⟨1, false, ![3, 4], 1⟩ ![1, 0, 1 - 2 * Real.pi] 0.5 0.1 rfl
  refine ⟨a, ?_, n + 1, ?_⟩
  · convert h using 2
    · norm_num
    · congr 1
      norm_num
  · rw [hn]
    simp
    ring

/-- The second pose is two units further along each axis than measured. -/
example : ∃ a : ℝ, ResidualIs (Fac.pose2DBetween 9 0 1 3 0.5 0.1 false) C80.plan ![4, 4, (1 / 0.1) * a] := by
  obtain ⟨a, h, _⟩ := C80_between_2d C80.plan 9 0 1 3 ⟨0, false, 0, 0⟩ ⟨1, false, ![3, 4], 1⟩ ![1, 2, 3] 0.5 0.1 rfl rfl
    (.inl (.inl ⟨_, rfl, by simp [toList]⟩))
  refine ⟨a, ?_⟩
  convert h using 2
  · norm_num
  · congr 1
    norm_num

example : ∃ a : ℝ, ResidualIs (Fac.pose2DBetween 9 0 1 3 0.5 0.1 true) C80.plan ![4, 4, (1 / 0.1) * a] := by
  obtain ⟨a, h, _⟩ := C80_between_2d_local C80.plan 9 0 1 3 ⟨0, false, 0, 0⟩ ⟨1, false, ![3, 4], 1⟩ ![1, 2, 3] 0.5 0.1 rfl rfl
    (.inl (.inl ⟨_, rfl, by simp [toList]⟩))
  refine ⟨a, ?_⟩
  convert h using 2
  · norm_num
  · congr 1
    norm_num

/-! ### Planes and coordinate transforms -/

/-- **C80** `PlaneFactor` without distance scaling: the misfit is the signed distance of the point from the plane. -/
theorem C80_plane (h : Heap RVar) (id : Int) (p l : VRef) (v : PlaneVar) (x : V3) (sigma : ℝ) (hl : h l = .plane v)
    (hp : IsVector (h p) x) (hn : v.normal ⬝ᵥ v.normal = 1) :
    ∃ s : ℝ, ResidualIs (Fac.planeFactor id p l sigma none) h ![(1 / sigma) * s] ∧
      v.normal ⬝ᵥ (x - s • v.normal) + v.dist = 0 ∧ ∀ y, v.normal ⬝ᵥ y + v.dist = 0 → |s| ≤ length (x - y) := by
  refine ⟨_, plane_residual hl hp id sigma, ?_, fun y hy => ?_⟩
  · rw [dotProduct_sub, dotProduct_smul, hn, smul_eq_mul]
    ring
  · have hs : v.normal ⬝ᵥ x + v.dist = v.normal ⬝ᵥ (x - y) := by
      rw [dotProduct_sub]
      linarith
    rw [hs, length_eq, vnorm]
    refine Real.abs_le_sqrt ?_
    generalize x - y = d
    have h1 := dot_self_nonneg (d - (v.normal ⬝ᵥ d) • v.normal)
    simp only [sub_dotProduct, dotProduct_sub, smul_dotProduct, dotProduct_smul, hn, smul_eq_mul,
      dotProduct_comm d v.normal] at h1
    linarith [sq (v.normal ⬝ᵥ d)]

/-- A point two units above the plane `z = 1`. -/
example : ResidualIs (Fac.planeFactor 9 0 1 0.5 none)
    (fun r => if r = 1 then .plane ⟨1, false, ![0, 0, 1], -1⟩ else .landmark (LandmarkVar.make 0 ![5, 6, 3])) ![4] := by
  obtain ⟨s, h, e, _⟩ := C80_plane (fun r => if r = 1 then .plane ⟨1, false, ![0, 0, 1], -1⟩ else
    .landmark (LandmarkVar.make 0 ![5, 6, 3])) 9 0 1 ⟨1, false, ![0, 0, 1], -1⟩ ![5, 6, 3] 0.5 rfl (.inr ⟨rfl, _, rfl, rfl⟩)
    (by rw [dot3]; simp)
  rw [dot3] at e
  simp at e
  rw [show s = 2 by linarith] at h
  convert h using 2
  norm_num

/-- **C80** `PlaneFactor` with distance scaling: the standard deviation grows linearly with the distance of the point from
the reference point, and doubles at `r0`. (The sign of the plane's offset is wrong here, see `C53_scaled_false`.) -/
theorem C80_plane_scaled (h : Heap RVar) (id : Int) (p l : VRef) (v : PlaneVar) (x : V3) (sigma r0 : ℝ) (p0 : V3)
    (hl : h l = .plane v) (hp : IsVector (h p) x) :
    ResidualIs (Fac.planeFactor id p l sigma (some (r0, p0))) h
      ![(v.normal ⬝ᵥ x - v.dist) / (sigma * (1 + length (x - p0) / r0))] := by
  rw [ResidualIs, plane_scaled_residual hl hp, length_eq]
  congr 2
  funext i
  fin_cases i
  show 1 / sigma * (_ / _) = _ / (sigma * _)
  rw [div_mul_div_comm, one_mul]

/-- A point two units above the plane `z = 0`, at twice the reference distance. -/
example : ResidualIs (Fac.planeFactor 9 0 1 0.1 (some (1, 0)))
    (fun r => if r = 1 then .plane ⟨1, false, ![0, 0, 1], 0⟩ else .landmark (LandmarkVar.make 0 ![0, 0, 2])) ![20 / 3] := by
  have := C80_plane_scaled (fun r => if r = 1 then .plane ⟨1, false, ![0, 0, 1], 0⟩ else .landmark (LandmarkVar.make 0 ![0, 0, 2]))
    9 0 1 ⟨1, false, ![0, 0, 1], 0⟩ ![0, 0, 2] 0.1 1 0 rfl (.inr ⟨rfl, _, rfl, rfl⟩)
  convert this using 2
  have hl : length ((![0, 0, 2] : V3) - 0) = 2 := by
    rw [length]
    simp [Fin.sum_univ_three]
  rw [hl, dot3]
  simp
  norm_num

/-- **C80** `PlanePriorFactor`: the misfit of the normal has the sine of the angle between the normals as length, and the
misfit of the offset is the difference. -/
theorem C80_plane_prior (h : Heap RVar) (id : Int) (l : VRef) (v : PlaneVar) (n0 : V3) (d0 ns ds : ℝ)
    (hl : h l = .plane v) (hn : v.normal ⬝ᵥ v.normal = 1) (h0 : n0 ≠ 0) :
    ∃ e : V3, ResidualIs (Fac.planePrior id l n0 d0 ns ds) h
        ![(1 / ns) * e 0, (1 / ns) * e 1, (1 / ns) * e 2, (1 / ds) * (v.dist - d0)] ∧
      length e = Real.sin (angleBetween v.normal n0) := by
  refine ⟨(v.normal ⬝ᵥ normalized n0) • v.normal - normalized n0, plane_prior_residual hl hn id n0 d0 ns ds, ?_⟩
  have hv : v.normal ≠ 0 := fun h => by rw [h, zero_dotProduct] at hn; exact zero_ne_one hn
  have hc := cos_angleBetween hv h0
  rw [normalized_of_unit hn] at hc
  rw [length_eq, vnorm, ← hc]
  have hsq : (Real.cos (angleBetween v.normal n0) • v.normal - normalized n0) ⬝ᵥ
      (Real.cos (angleBetween v.normal n0) • v.normal - normalized n0) = Real.sin (angleBetween v.normal n0) ^ 2 := by
    simp only [sub_dotProduct, dotProduct_sub, smul_dotProduct, dotProduct_smul, hn, normalized_unit h0,
      dotProduct_comm (normalized n0) v.normal, ← hc, smul_eq_mul, Real.sin_sq]
    ring
  rw [hsq, Real.sqrt_sq]
  exact Real.sin_nonneg_of_nonneg_of_le_pi (Real.arccos_nonneg _) (Real.arccos_le_pi _)

/-- A horizontal plane against a vertical prior. -/
example : ∃ e : V3, ResidualIs (Fac.planePrior 9 0 ![0, 1, 0] 1 0.5 0.1) (fun _ => .plane ⟨0, false, ![0, 0, 1], 2⟩)
    ![(1 / 0.5) * e 0, (1 / 0.5) * e 1, (1 / 0.5) * e 2, 10] ∧ length e = 1 := by
  obtain ⟨e, h1, h2⟩ := C80_plane_prior (fun _ => .plane ⟨0, false, ![0, 0, 1], 2⟩) 9 0 ⟨0, false, ![0, 0, 1], 2⟩ ![0, 1, 0] 1
    0.5 0.1 rfl (by rw [dot3]; simp) C80.ne1
  have ha : angleBetween (![0, 0, 1] : V3) ![0, 1, 0] = Real.pi / 2 := by
    rw [angleBetween, dot3]
    simp [Real.arccos_zero]
  refine ⟨e, ?_, ?_⟩
  · convert h1 using 5
    norm_num
  · rw [h2, ha, Real.sin_pi_div_two]

/-- **C80** `CoordinateTransformFactor`. -/
theorem C80_transform (h : Heap RVar) (id : Int) (rot org sc la lb : VRef) (v : RotationVar) (o a b : V3) (s sigma : ℝ)
    (hv : TransformVars h rot org sc la lb v o s a b) :
    ResidualIs (Fac.coordinateTransform id rot org sc la lb sigma) h ((1 / sigma) • (a - (s • (v.dcm *ᵥ b) - o))) :=
  transform_residual hv id sigma

/-- A landmark with the coordinates `(4, 4, 4)` in one frame and `(1, 2, 3)` in the other, at scale two. -/
example : ResidualIs (Fac.coordinateTransform 9 0 1 2 3 4 0.5) (C56.heap 0 ![4, 4, 4] ![1, 2, 3] 2) ![4, 0, -4] := by
  have := C80_transform _ 9 0 1 2 3 4 _ _ _ _ _ 0.5 (C56.vars 0 ![4, 4, 4] ![1, 2, 3] 2)
  convert this using 1
  show _ = (1 / 0.5 : ℝ) • (![4, 4, 4] - ((2 : ℝ) • ((1 : M3) *ᵥ ![1, 2, 3]) - 0) : V3)
  rw [Matrix.one_mulVec]
  funext i
  fin_cases i <;> norm_num

end Factorama.Props
