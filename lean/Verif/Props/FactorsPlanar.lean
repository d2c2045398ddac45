import Verif.Lemmas.Planar
import Verif.Spec.Misfit

/-!
# Planar factors: C49, C50, C51, C52
-/

namespace Factorama.Props
open Matrix Geo Spec Topology Filter

/-! ### The landmark in the frame of the pose -/

theorem deltaLocal_eq (v : Pose2DVar) (x : V2) : Fac.deltaLocal v x =
    ![Real.cos v.theta * (x 0 - v.pos 0) + Real.sin v.theta * (x 1 - v.pos 1),
      -(Real.sin v.theta * (x 0 - v.pos 0)) + Real.cos v.theta * (x 1 - v.pos 1)] := by
  funext i
  fin_cases i <;> simp [Fac.deltaLocal, Pose2DVar.dcm, Matrix.mulVec, dotProduct, Fin.sum_univ_two]

theorem deltaLocal_ne {v : Pose2DVar} {x : V2} (h : x ≠ v.pos) :
    ¬ (Fac.deltaLocal v x 0 = 0 ∧ Fac.deltaLocal v x 1 = 0) := by
  rintro ⟨h0, h1⟩
  rw [deltaLocal_eq] at h0 h1
  simp at h0 h1
  have hcs := Real.sin_sq_add_cos_sq v.theta
  refine h (funext fun i => ?_)
  fin_cases i
  · show x 0 = v.pos 0
    linear_combination Real.cos v.theta * h0 - Real.sin v.theta * h1 - (x 0 - v.pos 0) * hcs
  · show x 1 = v.pos 1
    linear_combination Real.sin v.theta * h0 + Real.cos v.theta * h1 - (x 1 - v.pos 1) * hcs

/-- The landmark lies in a given direction, at a given range. -/
theorem deltaLocal_polar (v : Pose2DVar) (x : V2) (s o : ℝ) : x = v.pos + s • ![Real.cos (v.theta + o), Real.sin (v.theta + o)] ↔
    Fac.deltaLocal v x 0 * Real.cos o + Fac.deltaLocal v x 1 * Real.sin o = s ∧
      Fac.deltaLocal v x 1 * Real.cos o - Fac.deltaLocal v x 0 * Real.sin o = 0 := by
  rw [deltaLocal_eq]
  have hcs := Real.sin_sq_add_cos_sq v.theta
  have hos := Real.sin_sq_add_cos_sq o
  simp only [cons_val_zero, cons_val_one]
  constructor
  · intro h
    have h0 : x 0 = v.pos 0 + s * Real.cos (v.theta + o) := congrFun h 0
    have h1 : x 1 = v.pos 1 + s * Real.sin (v.theta + o) := congrFun h 1
    rw [Real.cos_add] at h0
    rw [Real.sin_add] at h1
    rw [h0, h1]
    constructor <;> grind
  · rintro ⟨h0, h1⟩
    funext i
    fin_cases i
    · show x 0 = v.pos 0 + s * Real.cos (v.theta + o)
      rw [Real.cos_add]
      grind
    · show x 1 = v.pos 1 + s * Real.sin (v.theta + o)
      rw [Real.sin_add]
      grind

theorem deltaLocal_pose_deriv (v : Pose2DVar) (x : V2) :
    HasVecDeriv (fun d => Fac.deltaLocal (moved2 v d) x)
      (fun u => ![-(Real.cos v.theta * u 0) - Real.sin v.theta * u 1 + Fac.deltaLocal v x 1 * u 2,
        Real.sin v.theta * u 0 - Real.cos v.theta * u 1 - Fac.deltaLocal v x 0 * u 2]) 0 := by
  refine HasVecDeriv.congr (HasMatDeriv.mulVec (moved2_dcm_deriv v).transpose
    (HasVecDeriv.const_sub x (moved2_pos_deriv v))) fun u => ?_
  rw [(moved2_zero v).1, (moved2_zero v).2, deltaLocal_eq]
  funext i
  fin_cases i <;>
    simp [Pose2DVar.dcm, incPlane, Matrix.mulVec, dotProduct, Fin.sum_univ_two] <;> ring

theorem deltaLocal_landmark_deriv (v : Pose2DVar) (x : V2) :
    HasVecDeriv (fun d => Fac.deltaLocal v (x + d))
      (fun u => ![Real.cos v.theta * u 0 + Real.sin v.theta * u 1, -(Real.sin v.theta * u 0) + Real.cos v.theta * u 1]) 0 := by
  refine HasVecDeriv.congr (HasVecDeriv.const_mulVec v.dcmᵀ (HasVecDeriv.sub_const (HasVecDeriv.const_add x (HasVecDeriv.id 0)) v.pos))
    fun u => ?_
  funext i
  fin_cases i <;>
    simp [Pose2DVar.dcm, Matrix.mulVec, dotProduct, Fin.sum_univ_two]

theorem deltaLocal_moved (v v' : Pose2DVar) (x x' t : V2) (φ : ℝ)
    (hpos : v'.pos = !![Real.cos φ, -Real.sin φ; Real.sin φ, Real.cos φ] *ᵥ v.pos + t)
    (htheta : v'.theta = wrapAngle (v.theta + φ))
    (hx : x' = !![Real.cos φ, -Real.sin φ; Real.sin φ, Real.cos φ] *ᵥ x + t) :
    Fac.deltaLocal v' x' = Fac.deltaLocal v x := by
  obtain ⟨h1, h2⟩ := wrap_trig (v.theta + φ)
  have hcs := Real.sin_sq_add_cos_sq φ
  rw [deltaLocal_eq, deltaLocal_eq, hpos, hx, htheta, h1, h2, Real.cos_add, Real.sin_add]
  funext i
  fin_cases i <;> simp [Matrix.mulVec, Matrix.vecHead, Matrix.vecTail] <;> grind

theorem pose2d_ne_vector {n : Nat} {h : Heap RVar} {a m : VRef} {va : Pose2DVar} {x : Fin n → ℝ} (ha : h a = .pose2d va)
    (hm : IsVector (h m) x) : a ≠ m := by
  rintro rfl
  rw [ha] at hm
  rcases hm with ⟨_, h1, _⟩ | ⟨_, _, h1, _⟩ <;> simp at h1

/-! ### C49 BearingObservationFactor2D -/

theorem bearing2d_residual {h : Heap RVar} {p l : VRef} {v : Pose2DVar} {x : V2} (hp : h p = .pose2d v)
    (hl : IsVector (h l) x) (id : Int) (obs sigma : ℝ) :
    (Fac.bearing2D id p l obs sigma).computeResidual h =
      .ok (toList ![(1 / sigma) * wrapAngle (atan2 (Fac.deltaLocal v x 1) (Fac.deltaLocal v x 0) - obs)]) := by
  simp only [Fac.bearing2D, hp, (vector_value hl).1, head2_toList, Res.map]
  simp [toList]

theorem vnorm2 (d : V2) : vnorm d = √(d 0 * d 0 + d 1 * d 1) := by
  simp [vnorm, dotProduct, Fin.sum_univ_two]

theorem vnorm_polar (d : V2) : d 0 = vnorm d * Real.cos (atan2 (d 1) (d 0)) ∧
    d 1 = vnorm d * Real.sin (atan2 (d 1) (d 0)) := by
  have hn : vnorm d = ‖(⟨d 0, d 1⟩ : ℂ)‖ := by
    rw [vnorm2, Complex.norm_def, Complex.normSq_mk]
  rw [hn]
  exact ⟨(Complex.norm_mul_cos_arg ⟨d 0, d 1⟩).symm, (Complex.norm_mul_sin_arg ⟨d 0, d 1⟩).symm⟩

/-- The wrapped difference of the predicted and the observed bearing. -/
theorem wrap_seen (v : Pose2DVar) (x : V2) (obs : ℝ) (hx : x ≠ v.pos) :
    SeenAt v.pos x (v.theta + (obs + wrapAngle (atan2 (Fac.deltaLocal v x 1) (Fac.deltaLocal v x 0) - obs))) := by
  obtain ⟨e0, e1⟩ := vnorm_polar (Fac.deltaLocal v x)
  have hne := deltaLocal_ne hx
  obtain ⟨n, hn⟩ := wrap_mod (atan2 (Fac.deltaLocal v x 1) (Fac.deltaLocal v x 0) - obs)
  have hc : Real.cos (obs + wrapAngle (atan2 (Fac.deltaLocal v x 1) (Fac.deltaLocal v x 0) - obs)) =
      Real.cos (atan2 (Fac.deltaLocal v x 1) (Fac.deltaLocal v x 0)) := by
    rw [hn, show ∀ a : ℝ, obs + (a - obs + n * (2 * Real.pi)) = a + n * (2 * Real.pi) from fun a => by ring,
      Real.cos_add_int_mul_two_pi]
  have hs : Real.sin (obs + wrapAngle (atan2 (Fac.deltaLocal v x 1) (Fac.deltaLocal v x 0) - obs)) =
      Real.sin (atan2 (Fac.deltaLocal v x 1) (Fac.deltaLocal v x 0)) := by
    rw [hn, show ∀ a : ℝ, obs + (a - obs + n * (2 * Real.pi)) = a + n * (2 * Real.pi) from fun a => by ring,
      Real.sin_add_int_mul_two_pi]
  refine ⟨vnorm (Fac.deltaLocal v x), lt_of_le_of_ne (vnorm_nonneg _) fun h0 => ?_, (deltaLocal_polar v x _ _).mpr ?_⟩
  · rw [← h0, zero_mul] at e0 e1
    exact hne ⟨e0, e1⟩
  · rw [hc, hs]
    generalize atan2 (Fac.deltaLocal v x 1) (Fac.deltaLocal v x 0) = φ at e0 e1
    have := Real.sin_sq_add_cos_sq φ
    rw [e0, e1]
    constructor
    · linear_combination vnorm (Fac.deltaLocal v x) * this
    · ring

/-- **C49** The residual times sigma is the angle `a` in `(-π, π]` by which the landmark is seen to the left of the
observed direction. -/
theorem C49_wrapped (h : Heap RVar) (id : Int) (p l : VRef) (v : Pose2DVar) (x : V2) (obs sigma : ℝ)
    (hp : h p = .pose2d v) (hl : IsVector (h l) x) :
    ∃ a : ℝ, ResidualIs (Fac.bearing2D id p l obs sigma) h ![(1 / sigma) * a] ∧ -Real.pi < a ∧ a ≤ Real.pi ∧
      (x ≠ v.pos → SeenAt v.pos x (v.theta + (obs + a))) :=
  ⟨_, bearing2d_residual hp hl id obs sigma, (wrap_range _).1, (wrap_range _).2, wrap_seen v x obs⟩

/-- The landmark `(3, 4)` seen from the origin. -/
example : ∃ a : ℝ, ResidualIs (Fac.bearing2D 9 0 1 1 0.1)
    (fun r => if r = 0 then .pose2d ⟨0, false, 0, 0⟩ else .generic ⟨1, false, [3, 4]⟩) ![(1 / 0.1) * a] ∧ -Real.pi < a ∧
    a ≤ Real.pi ∧ SeenAt 0 ![3, 4] (0 + (1 + a)) := by
  obtain ⟨a, h1, h2, h3, h4⟩ := C49_wrapped (fun r => if r = 0 then .pose2d ⟨0, false, 0, 0⟩ else .generic ⟨1, false, [3, 4]⟩)
    9 0 1 ⟨0, false, 0, 0⟩ ![3, 4] 1 0.1 rfl (.inl ⟨_, rfl, by simp [toList]⟩)
  exact ⟨a, h1, h2, h3, h4 fun h => by simpa using congrFun h 0⟩

/-- **C49** The residual is zero exactly when the landmark lies in the observed direction, for every landmark that is not
at the pose. -/
theorem C49_zero (h : Heap RVar) (id : Int) (p l : VRef) (v : Pose2DVar) (x : V2) (obs sigma : ℝ)
    (hp : h p = .pose2d v) (hl : IsVector (h l) x) (hs : sigma ≠ 0) (hx : x ≠ v.pos) :
    ZeroResidual (Fac.bearing2D id p l obs sigma) h ↔
      ∃ s : ℝ, 0 < s ∧ x = v.pos + s • ![Real.cos (v.theta + obs), Real.sin (v.theta + obs)] := by
  have hne := deltaLocal_ne hx
  have hne' : ¬ (Fac.deltaLocal v x 0 * Real.cos obs + Fac.deltaLocal v x 1 * Real.sin obs = 0 ∧
      Fac.deltaLocal v x 1 * Real.cos obs - Fac.deltaLocal v x 0 * Real.sin obs = 0) := by
    rintro ⟨h1, h2⟩
    have hos := Real.sin_sq_add_cos_sq obs
    exact hne ⟨by linear_combination Real.cos obs * h1 - Real.sin obs * h2 - Fac.deltaLocal v x 0 * hos,
      by linear_combination Real.sin obs * h1 + Real.cos obs * h2 - Fac.deltaLocal v x 1 * hos⟩
  rw [ZeroResidual, bearing2d_residual hp hl, Res.ok.injEq]
  refine toList_eq_zero.trans ?_
  have : (![(1 / sigma) * wrapAngle (atan2 (Fac.deltaLocal v x 1) (Fac.deltaLocal v x 0) - obs)] : Fin 1 → ℝ) = 0 ↔
      wrapAngle (atan2 (Fac.deltaLocal v x 1) (Fac.deltaLocal v x 0) - obs) = 0 := by
    constructor
    · intro h0
      have := congrFun h0 0
      simpa [hs] using this
    · intro h0; rw [h0]; funext i; fin_cases i; simp
  rw [this, wrap_atan2 hne, atan2_eq_zero hne']
  constructor
  · rintro ⟨h1, h2⟩
    exact ⟨_, h1, (deltaLocal_polar v x _ obs).mpr ⟨rfl, h2⟩⟩
  · rintro ⟨s, hs, hx⟩
    obtain ⟨h1, h2⟩ := (deltaLocal_polar v x s obs).mp hx
    exact ⟨by rw [h1]; exact hs, h2⟩

/-- A landmark straight ahead of a pose that looks along the second axis. -/
example : ZeroResidual (Fac.bearing2D 9 0 1 (Real.pi / 2) 0.1)
    (fun r => if r = 1 then .generic ⟨1, false, toList ![1, 5]⟩ else .pose2d (Pose2DVar.make 0 ![1, 2] 0)) := by
  have ht : (Pose2DVar.make 0 ![1, 2] 0).theta = 0 := wrap_of_mem (by linarith [Real.pi_pos]) Real.pi_pos.le
  refine (C49_zero _ 9 0 1 (Pose2DVar.make 0 ![1, 2] 0) ![1, 5] _ 0.1 rfl (.inl ⟨_, rfl, rfl⟩) (by norm_num) ?_).mpr
    ⟨3, by norm_num, ?_⟩
  · intro h
    have : (5 : ℝ) = 2 := congrFun h 1
    norm_num at this
  · rw [ht]
    show (![1, 5] : V2) = ![1, 2] + _
    funext i; fin_cases i <;> simp
    norm_num

/-- **C49** The Jacobian blocks are the derivatives of the residual, for every landmark at least `1e-9` away from the pose
and not exactly opposite to the observed direction. -/
theorem C49_jacobian (h : Heap RVar) (id : Int) (p l : VRef) (v : Pose2DVar) (x : V2) (obs sigma : ℝ)
    (hp : h p = .pose2d v) (hl : IsVector (h l) x)
    (hfar : 1e-9 * 1e-9 ≤ Fac.deltaLocal v x 0 * Fac.deltaLocal v x 0 + Fac.deltaLocal v x 1 * Fac.deltaLocal v x 1)
    (hopp : wrapAngle (atan2 (Fac.deltaLocal v x 1) (Fac.deltaLocal v x 0) - obs) < Real.pi)
    (incr : Increment) (hi : AnyIncrement incr) :
    JacobiansCorrect incr (Fac.bearing2D id p l obs sigma) h := by
  have hpl := pose2d_ne_vector hp hl
  have hne : ¬ (Fac.deltaLocal v x 0 = 0 ∧ Fac.deltaLocal v x 1 = 0) := by
    rintro ⟨h0, h1⟩
    rw [h0, h1] at hfar
    norm_num at hfar
  have hrsq : Fac.deltaLocal v x 0 * Fac.deltaLocal v x 0 + Fac.deltaLocal v x 1 * Fac.deltaLocal v x 1 ≠ 0 :=
    (lt_of_lt_of_le (by norm_num) hfar).ne'
  intro old
  refine ⟨_, by
    simp only [Fac.bearing2D, hp, (vector_value hl).1, head2_toList, Res.andThen]
    rw [if_neg (not_lt.mpr hfar)]
    exact fillBlocks_ok rfl, ?_⟩
  rw [← hp]
  refine .cons (block_ok ?_) (.cons (block_ok ?_) .nil)
  · have e0 : Fac.deltaLocal (moved2 v 0) x = Fac.deltaLocal v x := by
      simp only [Fac.deltaLocal, (moved2_zero v).1, (moved2_zero v).2]
    refine isDerivative_of (fun d => ![(1 / sigma) * wrapAngle (atan2 (Fac.deltaLocal (moved2 v d) x 1)
      (Fac.deltaLocal (moved2 v d) x 0) - obs)]) rfl (by rw [hp]; rfl) ?_ (Eventually.of_forall fun d => ?_) ?_
    · rw [bearing2d_residual hp hl, e0]
    · simp only [residualAfter, hp, pose2d_motion v hi d]
      exact bearing2d_residual (set_same _ _ _) (by rw [set_other _ _ hpl.symm]; exact hl) id _ _
    · have hd := bearing_deriv (deltaLocal_pose_deriv v x) obs (by rw [e0]; exact hne) (by rw [e0]; exact hopp)
      intro i
      fin_cases i
      refine HasScalDeriv.congr (HasScalDeriv.mul (HasScalDeriv.const (1 / sigma) 0) hd) fun u => ?_
      rw [e0]
      simp [Matrix.mulVec, dotProduct, Fin.sum_univ_three]
      generalize Fac.deltaLocal v x 0 = a at *
      generalize Fac.deltaLocal v x 1 = b at *
      generalize sigma⁻¹ = w at *
      have hrsq' : a ^ 2 + b ^ 2 ≠ 0 := by rw [pow_two, pow_two]; exact hrsq
      field_simp
      ring
  · obtain ⟨γ, hγ⟩ := vector_motion hl hi
    refine isDerivative_of (fun d => ![(1 / sigma) * wrapAngle (atan2 (Fac.deltaLocal v (x + d) 1)
      (Fac.deltaLocal v (x + d) 0) - obs)]) rfl (vector_value hl).2 ?_ (Eventually.of_forall fun d => ?_) ?_
    · rw [bearing2d_residual hp hl, add_zero]
    · simp only [residualAfter, (hγ d).1]
      exact bearing2d_residual (by rw [set_other _ _ hpl]; exact hp) (by rw [set_same]; exact (hγ d).2) id _ _
    · have hd := bearing_deriv (deltaLocal_landmark_deriv v x) obs (by rw [add_zero]; exact hne) (by rw [add_zero]; exact hopp)
      intro i
      fin_cases i
      refine HasScalDeriv.congr (HasScalDeriv.mul (HasScalDeriv.const (1 / sigma) 0) hd) fun u => ?_
      rw [add_zero]
      simp [Matrix.mulVec, dotProduct, Fin.sum_univ_two]
      field_simp
      ring

/-- A pose at the origin and a landmark straight ahead, observed there. -/
example : JacobiansCorrect codeIncr (Fac.bearing2D 9 0 1 0 0.1)
    (fun r => if r = 1 then .generic ⟨1, false, toList ![1, 0]⟩ else .pose2d (Pose2DVar.make 0 0 0)) := by
  have ht : (Pose2DVar.make 0 0 0).theta = 0 := wrap_of_mem (by linarith [Real.pi_pos]) Real.pi_pos.le
  have hp : (Pose2DVar.make 0 0 0).pos = 0 := rfl
  have e : Fac.deltaLocal (Pose2DVar.make 0 0 0) ![1, 0] = ![1, 0] := by rw [deltaLocal_eq, ht, hp]; simp
  refine C49_jacobian _ 9 0 1 (Pose2DVar.make 0 0 0) ![1, 0] 0 0.1 rfl (.inl ⟨_, rfl, rfl⟩) (by rw [e]; norm_num) ?_ _ .code
  rw [e, wrap_atan2 (by simp)]
  have : atan2 0 1 = 0 := (atan2_eq_zero (by simp)).mpr ⟨one_pos, rfl⟩
  simp [this, Real.pi_pos]

/-- **C49** The residual does not change when pose and landmark are moved together by the planar rigid motion
`y ↦ Q y + t`, where `Q` turns by the angle `φ`. -/
theorem C49_invariant (h h' : Heap RVar) (id : Int) (p l : VRef) (v v' : Pose2DVar) (x x' t : V2) (φ obs sigma : ℝ)
    (hp : h p = .pose2d v) (hl : IsVector (h l) x) (hp' : h' p = .pose2d v') (hl' : IsVector (h' l) x')
    (hpos : v'.pos = !![Real.cos φ, -Real.sin φ; Real.sin φ, Real.cos φ] *ᵥ v.pos + t)
    (htheta : v'.theta = wrapAngle (v.theta + φ))
    (hx : x' = !![Real.cos φ, -Real.sin φ; Real.sin φ, Real.cos φ] *ᵥ x + t) :
    (Fac.bearing2D id p l obs sigma).computeResidual h' = (Fac.bearing2D id p l obs sigma).computeResidual h := by
  rw [bearing2d_residual hp hl, bearing2d_residual hp' hl', deltaLocal_moved v v' x x' t φ hpos htheta hx]

/-- Pose and landmark turned by one radian and shifted. -/
example : (Fac.bearing2D 9 0 1 0.3 0.1).computeResidual
      (fun r => if r = 1 then .generic ⟨1, false, toList (!![Real.cos 1, -Real.sin 1; Real.sin 1, Real.cos 1] *ᵥ ![4, 5] + ![7, 8])⟩
        else .pose2d ⟨0, false, !![Real.cos 1, -Real.sin 1; Real.sin 1, Real.cos 1] *ᵥ ![1, 2] + ![7, 8], wrapAngle (2 + 1)⟩) =
    (Fac.bearing2D 9 0 1 0.3 0.1).computeResidual
      (fun r => if r = 1 then .generic ⟨1, false, toList ![4, 5]⟩ else .pose2d ⟨0, false, ![1, 2], 2⟩) :=
  C49_invariant _ _ 9 0 1 ⟨0, false, ![1, 2], 2⟩ _ ![4, 5] _ ![7, 8] 1 _ _ rfl (.inl ⟨_, rfl, rfl⟩) rfl (.inl ⟨_, rfl, rfl⟩)
    rfl rfl rfl

/-! ### C50 RangeBearingFactor2D -/

theorem range_bearing_residual {h : Heap RVar} {p l : VRef} {v : Pose2DVar} {x : V2} (hp : h p = .pose2d v)
    (hl : IsVector (h l) x) (id : Int) (range obs rs bs : ℝ) :
    (Fac.rangeBearing2D id p l range obs rs bs).computeResidual h =
      .ok (toList ![(1 / rs) * (vnorm (Fac.deltaLocal v x) - range),
        (1 / bs) * wrapAngle (atan2 (Fac.deltaLocal v x 1) (Fac.deltaLocal v x 0) - obs)]) := by
  simp only [Fac.rangeBearing2D, hp, (vector_value hl).1, head2_toList, Res.map]
  simp [toList]

/-- **C50** The residual is zero exactly when the landmark lies in the observed direction at the observed (positive)
range. -/
theorem C50_zero (h : Heap RVar) (id : Int) (p l : VRef) (v : Pose2DVar) (x : V2) (range obs rs bs : ℝ)
    (hp : h p = .pose2d v) (hl : IsVector (h l) x) (hrs : rs ≠ 0) (hbs : bs ≠ 0) (hr : 0 < range) :
    ZeroResidual (Fac.rangeBearing2D id p l range obs rs bs) h ↔
      x = v.pos + range • ![Real.cos (v.theta + obs), Real.sin (v.theta + obs)] := by
  rw [ZeroResidual, range_bearing_residual hp hl, Res.ok.injEq]
  refine toList_eq_zero.trans ?_
  have e : (![(1 / rs) * (vnorm (Fac.deltaLocal v x) - range),
      (1 / bs) * wrapAngle (atan2 (Fac.deltaLocal v x 1) (Fac.deltaLocal v x 0) - obs)] : V2) = 0 ↔
      vnorm (Fac.deltaLocal v x) = range ∧ wrapAngle (atan2 (Fac.deltaLocal v x 1) (Fac.deltaLocal v x 0) - obs) = 0 := by
    constructor
    · intro h0
      have h1 := congrFun h0 0
      have h2 := congrFun h0 1
      simp [hrs, hbs] at h1 h2
      exact ⟨by linarith, h2⟩
    · rintro ⟨h1, h2⟩
      rw [h1, h2]; funext i; fin_cases i <;> simp
  rw [e, deltaLocal_polar, vnorm2]
  generalize Fac.deltaLocal v x 0 = a
  generalize Fac.deltaLocal v x 1 = b
  have hos := Real.sin_sq_add_cos_sq obs
  have hsum : (a * Real.cos obs + b * Real.sin obs) ^ 2 + (b * Real.cos obs - a * Real.sin obs) ^ 2 = a * a + b * b := by
    linear_combination (a ^ 2 + b ^ 2) * hos
  rw [← hsum]
  constructor
  · rintro ⟨h1, h2⟩
    have hne : ¬ (a = 0 ∧ b = 0) := by
      rintro ⟨rfl, rfl⟩
      simp at h1
      exact hr.ne h1
    have hne' : ¬ (a * Real.cos obs + b * Real.sin obs = 0 ∧ b * Real.cos obs - a * Real.sin obs = 0) := by
      rintro ⟨h3, h4⟩
      rw [h3, h4] at h1
      simp at h1
      exact hr.ne h1
    rw [wrap_atan2 hne, atan2_eq_zero hne'] at h2
    refine ⟨?_, h2.2⟩
    rw [h2.2] at h1
    rw [← h1]
    simp [Real.sqrt_sq h2.1.le]
  · rintro ⟨h1, h2⟩
    have hne : ¬ (a = 0 ∧ b = 0) := by
      rintro ⟨rfl, rfl⟩
      simp at h1
      exact hr.ne h1
    rw [wrap_atan2 hne, h1, h2]
    refine ⟨?_, (atan2_eq_zero (by simp [hr.ne'])).mpr ⟨hr, rfl⟩⟩
    simp [Real.sqrt_sq hr.le]

/-- A landmark three units away, to the left of a pose that looks along the first axis. -/
example : ZeroResidual (Fac.rangeBearing2D 9 0 1 3 (Real.pi / 2) 0.1 0.2)
    (fun r => if r = 1 then .generic ⟨1, false, toList ![1, 5]⟩ else .pose2d (Pose2DVar.make 0 ![1, 2] 0)) := by
  have ht : (Pose2DVar.make 0 ![1, 2] 0).theta = 0 := wrap_of_mem (by linarith [Real.pi_pos]) Real.pi_pos.le
  refine (C50_zero _ 9 0 1 (Pose2DVar.make 0 ![1, 2] 0) ![1, 5] _ _ 0.1 0.2 rfl (.inl ⟨_, rfl, rfl⟩) (by norm_num)
    (by norm_num) (by norm_num)).mpr ?_
  rw [ht]
  show (![1, 5] : V2) = ![1, 2] + _
  funext i; fin_cases i <;> simp
  norm_num

/-- **C50** The Jacobian blocks are the derivatives of the residual, for every landmark at least `1e-9` away from the pose
and not exactly opposite to the observed direction. -/
theorem C50_jacobian (h : Heap RVar) (id : Int) (p l : VRef) (v : Pose2DVar) (x : V2) (range obs rs bs : ℝ)
    (hp : h p = .pose2d v) (hl : IsVector (h l) x) (hfar : 1e-9 ≤ length (Fac.deltaLocal v x))
    (hopp : wrapAngle (atan2 (Fac.deltaLocal v x 1) (Fac.deltaLocal v x 0) - obs) < Real.pi)
    (incr : Increment) (hi : AnyIncrement incr) :
    JacobiansCorrect incr (Fac.rangeBearing2D id p l range obs rs bs) h := by
  rw [length_eq] at hfar
  have hpl := pose2d_ne_vector hp hl
  have hn : vnorm (Fac.deltaLocal v x) ≠ 0 := (lt_of_lt_of_le (by norm_num) hfar).ne'
  have hne : ¬ (Fac.deltaLocal v x 0 = 0 ∧ Fac.deltaLocal v x 1 = 0) := by
    rintro ⟨h0, h1⟩
    rw [vnorm2, h0, h1] at hn
    simp at hn
  intro old
  refine ⟨_, by
    simp only [Fac.rangeBearing2D, hp, (vector_value hl).1, head2_toList, Res.andThen]
    rw [← vnorm2, if_neg (not_lt.mpr hfar)]
    exact fillBlocks_ok rfl, ?_⟩
  rw [← hp]
  have hrsq : Fac.deltaLocal v x 0 * Fac.deltaLocal v x 0 + Fac.deltaLocal v x 1 * Fac.deltaLocal v x 1 ≠ 0 := by
    intro h0
    rw [vnorm2, h0] at hn
    simp at hn
  refine .cons (block_ok ?_) (.cons (block_ok ?_) .nil)
  · have e0 : Fac.deltaLocal (moved2 v 0) x = Fac.deltaLocal v x := by
      simp only [Fac.deltaLocal, (moved2_zero v).1, (moved2_zero v).2]
    refine isDerivative_of (fun d => ![(1 / rs) * (vnorm (Fac.deltaLocal (moved2 v d) x) - range),
      (1 / bs) * wrapAngle (atan2 (Fac.deltaLocal (moved2 v d) x 1)
      (Fac.deltaLocal (moved2 v d) x 0) - obs)]) rfl (by rw [hp]; rfl) ?_ (Eventually.of_forall fun d => ?_) ?_
    · rw [range_bearing_residual hp hl, e0]
    · simp only [residualAfter, hp, pose2d_motion v hi d]
      exact range_bearing_residual (set_same _ _ _) (by rw [set_other _ _ hpl.symm]; exact hl) id _ _ _ _
    · have hd := bearing_deriv (deltaLocal_pose_deriv v x) obs (by rw [e0]; exact hne) (by rw [e0]; exact hopp)
      have hr := HasVecDeriv.vnorm (deltaLocal_pose_deriv v x) (by rw [e0]; exact hn)
      intro i
      fin_cases i
      · refine HasScalDeriv.congr (HasScalDeriv.mul (HasScalDeriv.const (1 / rs) 0)
          (HasScalDeriv.sub hr (HasScalDeriv.const range 0))) fun u => ?_
        rw [e0]
        simp [Matrix.mulVec, dotProduct, Fin.sum_univ_three, Fin.sum_univ_two]
        generalize Fac.deltaLocal v x 0 = a at *
        generalize Fac.deltaLocal v x 1 = b at *
        generalize vnorm (Fac.deltaLocal v x) = n at *
        generalize rs⁻¹ = w at *
        field_simp
        ring
      · refine HasScalDeriv.congr (HasScalDeriv.mul (HasScalDeriv.const (1 / bs) 0) hd) fun u => ?_
        rw [e0]
        simp [Matrix.mulVec, dotProduct, Fin.sum_univ_three]
        generalize Fac.deltaLocal v x 0 = a at *
        generalize Fac.deltaLocal v x 1 = b at *
        generalize bs⁻¹ = w at *
        have hrsq' : a ^ 2 + b ^ 2 ≠ 0 := by rw [pow_two, pow_two]; exact hrsq
        field_simp
        ring
  · obtain ⟨γ, hγ⟩ := vector_motion hl hi
    refine isDerivative_of (fun d => ![(1 / rs) * (vnorm (Fac.deltaLocal v (x + d)) - range),
      (1 / bs) * wrapAngle (atan2 (Fac.deltaLocal v (x + d) 1)
      (Fac.deltaLocal v (x + d) 0) - obs)]) rfl (vector_value hl).2 ?_ (Eventually.of_forall fun d => ?_) ?_
    · rw [range_bearing_residual hp hl, add_zero]
    · simp only [residualAfter, (hγ d).1]
      exact range_bearing_residual (by rw [set_other _ _ hpl]; exact hp) (by rw [set_same]; exact (hγ d).2) id _ _ _ _
    · have hd := bearing_deriv (deltaLocal_landmark_deriv v x) obs (by rw [add_zero]; exact hne) (by rw [add_zero]; exact hopp)
      have hr := HasVecDeriv.vnorm (deltaLocal_landmark_deriv v x) (by rw [add_zero]; exact hn)
      intro i
      fin_cases i
      · refine HasScalDeriv.congr (HasScalDeriv.mul (HasScalDeriv.const (1 / rs) 0)
          (HasScalDeriv.sub hr (HasScalDeriv.const range 0))) fun u => ?_
        rw [add_zero]
        simp [Matrix.mulVec, dotProduct, Fin.sum_univ_two]
        generalize Fac.deltaLocal v x 0 = a at *
        generalize Fac.deltaLocal v x 1 = b at *
        generalize vnorm (Fac.deltaLocal v x) = n at *
        generalize rs⁻¹ = w at *
        field_simp
        ring
      · refine HasScalDeriv.congr (HasScalDeriv.mul (HasScalDeriv.const (1 / bs) 0) hd) fun u => ?_
        rw [add_zero]
        simp [Matrix.mulVec, dotProduct, Fin.sum_univ_two]
        generalize Fac.deltaLocal v x 0 = a at *
        generalize Fac.deltaLocal v x 1 = b at *
        generalize bs⁻¹ = w at *
        have hrsq' : a ^ 2 + b ^ 2 ≠ 0 := by rw [pow_two, pow_two]; exact hrsq
        field_simp
        ring

/-- A pose at the origin and a landmark straight ahead, observed there at another range. -/
example : JacobiansCorrect codeIncr (Fac.rangeBearing2D 9 0 1 3 0 0.1 0.2)
    (fun r => if r = 1 then .generic ⟨1, false, toList ![1, 0]⟩ else .pose2d (Pose2DVar.make 0 0 0)) := by
  have ht : (Pose2DVar.make 0 0 0).theta = 0 := wrap_of_mem (by linarith [Real.pi_pos]) Real.pi_pos.le
  have hp : (Pose2DVar.make 0 0 0).pos = 0 := rfl
  have e : Fac.deltaLocal (Pose2DVar.make 0 0 0) ![1, 0] = ![1, 0] := by rw [deltaLocal_eq, ht, hp]; simp
  refine C50_jacobian _ 9 0 1 (Pose2DVar.make 0 0 0) ![1, 0] 3 0 0.1 0.2 rfl (.inl ⟨_, rfl, rfl⟩)
    (by rw [e, length_eq, vnorm_unit (by simp)]; norm_num) ?_ _ .code
  rw [e, wrap_atan2 (by simp)]
  have : atan2 0 1 = 0 := (atan2_eq_zero (by simp)).mpr ⟨one_pos, rfl⟩
  simp [this, Real.pi_pos]

/-- **C50** The residual does not change when pose and landmark are moved together by the planar rigid motion
`y ↦ Q y + t`, where `Q` turns by the angle `φ`. -/
theorem C50_invariant (h h' : Heap RVar) (id : Int) (p l : VRef) (v v' : Pose2DVar) (x x' t : V2) (φ range obs rs bs : ℝ)
    (hp : h p = .pose2d v) (hl : IsVector (h l) x) (hp' : h' p = .pose2d v') (hl' : IsVector (h' l) x')
    (hpos : v'.pos = !![Real.cos φ, -Real.sin φ; Real.sin φ, Real.cos φ] *ᵥ v.pos + t)
    (htheta : v'.theta = wrapAngle (v.theta + φ))
    (hx : x' = !![Real.cos φ, -Real.sin φ; Real.sin φ, Real.cos φ] *ᵥ x + t) :
    (Fac.rangeBearing2D id p l range obs rs bs).computeResidual h' =
      (Fac.rangeBearing2D id p l range obs rs bs).computeResidual h := by
  rw [range_bearing_residual hp hl, range_bearing_residual hp' hl', deltaLocal_moved v v' x x' t φ hpos htheta hx]

/-- A pose at the origin that sees the point (3, 4), and the same seen from a map moved by (1, 0). -/
example (range obs rs bs : ℝ) :
    (Fac.rangeBearing2D 9 0 1 range obs rs bs).computeResidual
      (fun r => if r = 0 then .pose2d ⟨0, false, ![1, 0], 0⟩ else .generic ⟨1, false, toList ![4, 4]⟩) =
    (Fac.rangeBearing2D 9 0 1 range obs rs bs).computeResidual
      (fun r => if r = 0 then .pose2d ⟨0, false, ![0, 0], 0⟩ else .generic ⟨1, false, toList ![3, 4]⟩) := by
  refine C50_invariant _ _ 9 0 1 ⟨0, false, ![0, 0], 0⟩ ⟨0, false, ![1, 0], 0⟩ ![3, 4] ![4, 4] ![1, 0] 0 range obs rs bs rfl
    (.inl ⟨_, rfl, rfl⟩) rfl (.inl ⟨_, rfl, rfl⟩) ?_ ?_ ?_
  · funext i; fin_cases i <;> simp [Matrix.mulVec, dotProduct]
  · rw [add_zero, wrap_of_mem (by linarith [Real.pi_pos]) Real.pi_pos.le]
  · funext i; fin_cases i <;> simp [Matrix.mulVec, dotProduct] <;> norm_num

/-! ### C51 Pose2DPriorFactor -/

theorem prior2d_residual {h : Heap RVar} {p : VRef} {v : Pose2DVar} (hp : h p = .pose2d v) (id : Int) (prior : V3)
    (ps as : ℝ) : (Fac.pose2DPrior id p prior ps as).computeResidual h =
      .ok (toList ![(1 / ps) * (v.pos 0 - prior 0), (1 / ps) * (v.pos 1 - prior 1),
        (1 / as) * wrapAngle (v.theta - prior 2)]) := by
  simp only [Fac.pose2DPrior, hp]
  simp [toList]

/-- **C51** The residual is zero exactly when the position is the prior position and the headings agree up to full turns. -/
theorem C51_zero (h : Heap RVar) (id : Int) (p : VRef) (v : Pose2DVar) (prior : V3) (ps as : ℝ) (hp : h p = .pose2d v)
    (hps : ps ≠ 0) (has : as ≠ 0) :
    ZeroResidual (Fac.pose2DPrior id p prior ps as) h ↔
      v.pos = ![prior 0, prior 1] ∧ ∃ n : ℤ, v.theta = prior 2 + n * (2 * Real.pi) := by
  rw [ZeroResidual, prior2d_residual hp, Res.ok.injEq]
  refine toList_eq_zero.trans ?_
  constructor
  · intro h0
    have h1 := congrFun h0 0
    have h2 := congrFun h0 1
    have h3 := congrFun h0 2
    simp [hps, has] at h1 h2 h3
    refine ⟨?_, ?_⟩
    · funext i; fin_cases i
      · exact sub_eq_zero.mp h1
      · exact sub_eq_zero.mp h2
    · obtain ⟨n, hn⟩ := wrap_eq_zero.mp h3
      exact ⟨n, by linarith⟩
  · rintro ⟨h1, n, hn⟩
    rw [h1, hn, add_sub_cancel_left, wrap_eq_zero.mpr ⟨n, rfl⟩]
    funext i; fin_cases i <;> simp

/-- A pose whose heading was given as `4` and wrapped, with the prior heading `4`. -/
example : ZeroResidual (Fac.pose2DPrior 9 0 ![1, 2, 4] 0.1 0.2) (fun _ => .pose2d (Pose2DVar.make 0 ![1, 2] 4)) := by
  refine (C51_zero _ 9 0 (Pose2DVar.make 0 ![1, 2] 4) _ 0.1 0.2 rfl (by norm_num) (by norm_num)).mpr ⟨?_, wrap_mod 4⟩
  funext i; fin_cases i <;> rfl

/-- **C51** Full turns of the prior heading and of the heading of the pose do not change the residual. -/
theorem C51_full_turns (h h' : Heap RVar) (id : Int) (p : VRef) (v : Pose2DVar) (prior : V3) (ps as : ℝ) (m n : ℤ)
    (hp : h p = .pose2d v) (hp' : h' p = .pose2d { v with theta := v.theta + m * (2 * Real.pi) }) :
    (Fac.pose2DPrior id p ![prior 0, prior 1, prior 2 + n * (2 * Real.pi)] ps as).computeResidual h' =
      (Fac.pose2DPrior id p prior ps as).computeResidual h := by
  rw [prior2d_residual hp, prior2d_residual hp']
  simp only [cons_val]
  rw [show v.theta + m * (2 * Real.pi) - (prior 2 + n * (2 * Real.pi)) =
    (v.theta - prior 2) + ((m - n : ℤ) : ℝ) * (2 * Real.pi) by push_cast; ring, wrap_add_int]

example (ps as : ℝ) :
    (Fac.pose2DPrior 9 0 ![1, 2, 3 + (1 : ℤ) * (2 * Real.pi)] ps as).computeResidual
      (fun _ => .pose2d ⟨0, false, ![5, 6], 3 + (-1 : ℤ) * (2 * Real.pi)⟩) =
    (Fac.pose2DPrior 9 0 ![1, 2, 3] ps as).computeResidual (fun _ => .pose2d ⟨0, false, ![5, 6], 3⟩) :=
  C51_full_turns _ _ 9 0 ⟨0, false, ![5, 6], 3⟩ ![1, 2, 3] ps as (-1) 1 rfl rfl

/-- **C51** The Jacobian is the derivative of the residual, unless the heading is exactly opposite to the prior. -/
theorem C51_jacobian (h : Heap RVar) (id : Int) (p : VRef) (v : Pose2DVar) (prior : V3) (ps as : ℝ) (hp : h p = .pose2d v)
    (hopp : wrapAngle (v.theta - prior 2) < Real.pi) (incr : Increment) (hi : AnyIncrement incr) :
    JacobiansCorrect incr (Fac.pose2DPrior id p prior ps as) h := by
  intro old
  refine ⟨_, by
    simp only [Fac.pose2DPrior, hp]
    exact fillBlocks_ok rfl, ?_⟩
  rw [← hp]
  refine .cons (block_ok ?_) .nil
  have hw : ∀ d : V3, wrapAngle ((moved2 v d).theta - prior 2) = wrapAngle (v.theta - prior 2 + d 2) := fun d => by
    show wrapAngle (wrapAngle (v.theta + d 2) - prior 2) = _
    rw [sub_eq_add_neg, wrap_wrap_add]
    congr 1; ring
  refine isDerivative_of (fun d => ![(1 / ps) * ((moved2 v d).pos 0 - prior 0), (1 / ps) * ((moved2 v d).pos 1 - prior 1),
    (1 / as) * wrapAngle (v.theta - prior 2 + d 2)]) rfl (by rw [hp]; rfl) ?_ (Eventually.of_forall fun d => ?_) ?_
  · rw [prior2d_residual hp, (moved2_zero v).1]
    simp
  · simp only [residualAfter, hp, pose2d_motion v hi d]
    rw [prior2d_residual (set_same _ _ _), hw]
  · have hd : HasScalDeriv (fun d : V3 => v.theta - prior 2 + d 2) (fun u => u 2) 0 :=
      HasScalDeriv.congr (HasScalDeriv.add (HasScalDeriv.const _ 0) (HasScalDeriv.coord 2 0)) fun u => by simp
    have hwd := HasScalDeriv.comp (f := fun d : V3 => v.theta - prior 2 + d 2) (φ := wrapAngle) (d := 1)
      (wrap_deriv (by simpa using hopp)) hd
    intro i
    fin_cases i
    · refine HasScalDeriv.congr (HasScalDeriv.mul (HasScalDeriv.const (1 / ps) 0)
        (HasScalDeriv.sub (moved2_pos_deriv v 0) (HasScalDeriv.const (prior 0) 0))) fun u => ?_
      simp [Matrix.mulVec, dotProduct, Fin.sum_univ_three, incPlane]
    · refine HasScalDeriv.congr (HasScalDeriv.mul (HasScalDeriv.const (1 / ps) 0)
        (HasScalDeriv.sub (moved2_pos_deriv v 1) (HasScalDeriv.const (prior 1) 0))) fun u => ?_
      simp [Matrix.mulVec, dotProduct, Fin.sum_univ_three, incPlane]
    · refine HasScalDeriv.congr (HasScalDeriv.mul (HasScalDeriv.const (1 / as) 0) hwd) fun u => ?_
      simp [Matrix.mulVec, dotProduct, Fin.sum_univ_three]

/-- A pose with heading 1 and a prior with heading 2. -/
example : JacobiansCorrect codeIncr (Fac.pose2DPrior 9 0 ![1, 2, 2] 0.1 0.2) (fun _ => .pose2d (Pose2DVar.make 0 ![5, 6] 1)) := by
  have hpi := Real.pi_gt_three
  have ht : (Pose2DVar.make 0 ![5, 6] 1).theta = 1 := wrap_of_mem (by linarith) (by linarith)
  refine C51_jacobian _ 9 0 (Pose2DVar.make 0 ![5, 6] 1) _ _ _ rfl ?_ _ .code
  rw [ht, wrap_of_mem (by simp; linarith) (by simp; linarith)]
  simp; linarith

/-! ### C52 Pose2DBetweenFactor -/

theorem measured_value {v : RVar} {x : V3} (h : MeasuredPose v x) : VarLike.value v = toList x ∧ VarLike.size v = 3 := by
  rcases h with h | ⟨q, rfl, h1, h2⟩
  · exact vector_value h
  · refine ⟨?_, rfl⟩
    show [q.pos 0, q.pos 1, q.theta] = _
    rw [h1, h2]
    simp [toList3]

theorem between2d_residual {h : Heap RVar} {a b m : VRef} {va vb : Pose2DVar} {x : V3} (ha : h a = .pose2d va)
    (hb : h b = .pose2d vb) (hm : VarLike.value (h m) = toList x) (id : Int) (ps as : ℝ) (localFrame : Bool) :
    (Fac.pose2DBetween id a b m ps as localFrame).computeResidual h =
      .ok (toList ![(1 / ps) * ((if localFrame then va.dcm *ᵥ (vb.pos - va.pos) else vb.pos - va.pos) 0 - x 0),
        (1 / ps) * ((if localFrame then va.dcm *ᵥ (vb.pos - va.pos) else vb.pos - va.pos) 1 - x 1),
        (1 / as) * wrapAngle (vb.theta - va.theta - x 2)]) := by
  simp only [Fac.pose2DBetween, ha, hb, hm, length_toList]
  rw [if_neg (by norm_num)]
  simp [toList3]

theorem between2d_zero {h : Heap RVar} {a b m : VRef} {va vb : Pose2DVar} {x : V3} {id : Int} {ps as : ℝ} {localFrame : Bool}
    (ha : h a = .pose2d va) (hb : h b = .pose2d vb) (hm : MeasuredPose (h m) x) (hps : ps ≠ 0) (has : as ≠ 0) :
    ZeroResidual (Fac.pose2DBetween id a b m ps as localFrame) h ↔
      (if localFrame then va.dcm *ᵥ (vb.pos - va.pos) else vb.pos - va.pos) = ![x 0, x 1] ∧
        ∃ n : ℤ, vb.theta - va.theta = x 2 + n * (2 * Real.pi) := by
  rw [ZeroResidual, between2d_residual ha hb (measured_value hm).1, Res.ok.injEq]
  refine toList_eq_zero.trans ?_
  generalize (if localFrame then va.dcm *ᵥ (vb.pos - va.pos) else vb.pos - va.pos) = e
  constructor
  · intro h0
    have h1 := congrFun h0 0
    have h2 := congrFun h0 1
    have h3 := congrFun h0 2
    simp [hps, has] at h1 h2 h3
    refine ⟨?_, ?_⟩
    · funext i; fin_cases i
      · exact sub_eq_zero.mp h1
      · exact sub_eq_zero.mp h2
    · obtain ⟨n, hn⟩ := wrap_eq_zero.mp h3
      exact ⟨n, by linarith⟩
  · rintro ⟨h1, n, hn⟩
    rw [h1, hn, add_sub_cancel_left, wrap_eq_zero.mpr ⟨n, rfl⟩]
    funext i; fin_cases i <;> simp

/-- **C52** World-frame mode: the residual is zero exactly when the positions differ by the measured vector and the
headings by the measured angle, up to full turns. Missing from the full property: `local_frame` mode, see
`C52_local_false`. -/
theorem C52_zero_partial (h : Heap RVar) (id : Int) (a b m : VRef) (va vb : Pose2DVar) (x : V3) (ps as : ℝ)
    (ha : h a = .pose2d va) (hb : h b = .pose2d vb) (hm : MeasuredPose (h m) x) (hps : ps ≠ 0) (has : as ≠ 0) :
    ZeroResidual (Fac.pose2DBetween id a b m ps as false) h ↔
      vb.pos = va.pos + ![x 0, x 1] ∧ ∃ n : ℤ, vb.theta = va.theta + x 2 + n * (2 * Real.pi) := by
  rw [between2d_zero ha hb hm hps has]
  refine and_congr ?_ (exists_congr fun n => ?_)
  · rw [if_neg (by simp), sub_eq_iff_eq_add']
  · constructor <;> intro h <;> linarith

/-- Two poses with the measured difference. -/
example : ZeroResidual (Fac.pose2DBetween 9 0 1 2 0.1 0.2 false) (fun r =>
    if r = 2 then .generic ⟨2, false, toList ![1, 2, 0.5]⟩ else if r = 1 then .pose2d ⟨1, false, ![4, 6], 1.5⟩
    else .pose2d ⟨0, false, ![3, 4], 1⟩) := by
  refine (C52_zero_partial _ 9 0 1 2 ⟨0, false, ![3, 4], 1⟩ ⟨1, false, ![4, 6], 1.5⟩ ![1, 2, 0.5] 0.1 0.2 rfl rfl
    (.inl (.inl ⟨_, rfl, rfl⟩)) (by norm_num) (by norm_num)).mpr ⟨?_, 0, by simp only [cons_val]; norm_num⟩
  funext i; fin_cases i <;> norm_num

namespace C52
/-- The poses `(0, 0)` with heading 90° and `(0, 1)` with the same heading, and the measurement "one unit ahead, no turn". -/
noncomputable def ahead : Heap RVar := fun r =>
  if r = 2 then .generic ⟨2, false, toList ![1, 0, 0]⟩
  else if r = 1 then .pose2d ⟨1, false, ![0, 1], Real.pi / 2⟩
  else .pose2d ⟨0, false, ![0, 0], Real.pi / 2⟩
end C52

/-- **C52** `local_frame` mode is wrong: the second pose is exactly one unit ahead of the first, this is what was measured
in the frame of the first pose, and the residual is not zero. (The code multiplies with the rotation from the pose frame to
the world instead of its transpose.) -/
theorem C52_local_false :
    (∃ va vb : Pose2DVar, C52.ahead 0 = .pose2d va ∧ C52.ahead 1 = .pose2d vb ∧ MeasuredPose (C52.ahead 2) ![1, 0, 0] ∧
      va.dcmᵀ *ᵥ (vb.pos - va.pos) = ![1, 0] ∧ vb.theta - va.theta = 0) ∧
    ¬ ZeroResidual (Fac.pose2DBetween 9 0 1 2 1 1 true) C52.ahead := by
  refine ⟨⟨⟨0, false, ![0, 0], Real.pi / 2⟩, ⟨1, false, ![0, 1], Real.pi / 2⟩, rfl, rfl, .inl (.inl ⟨_, rfl, rfl⟩), ?_, ?_⟩, ?_⟩
  · funext i
    fin_cases i <;> simp [Pose2DVar.dcm, Matrix.mulVec, dotProduct, Fin.sum_univ_two]
  · simp
  · rw [between2d_zero (va := ⟨0, false, ![0, 0], Real.pi / 2⟩) (vb := ⟨1, false, ![0, 1], Real.pi / 2⟩) (x := ![1, 0, 0])
      rfl rfl (.inl (.inl ⟨_, rfl, rfl⟩)) one_ne_zero one_ne_zero]
    rintro ⟨h1, _⟩
    have := congrFun h1 0
    simp [Pose2DVar.dcm, Matrix.mulVec, dotProduct, Fin.sum_univ_two] at this
    norm_num at this

/-- **C52** What `local_frame` mode computes: the residual is zero exactly when the position difference, turned *forward* by
the heading of the first pose, is the measured vector. -/
theorem C52_local_zero (h : Heap RVar) (id : Int) (a b m : VRef) (va vb : Pose2DVar) (x : V3) (ps as : ℝ)
    (ha : h a = .pose2d va) (hb : h b = .pose2d vb) (hm : MeasuredPose (h m) x) (hps : ps ≠ 0) (has : as ≠ 0) :
    ZeroResidual (Fac.pose2DBetween id a b m ps as true) h ↔
      va.dcm *ᵥ (vb.pos - va.pos) = ![x 0, x 1] ∧ ∃ n : ℤ, vb.theta - va.theta = x 2 + n * (2 * Real.pi) := by
  rw [between2d_zero ha hb hm hps has, if_pos rfl]

/-- With heading zero the two conventions agree: the second pose is one unit ahead. -/
example : ZeroResidual (Fac.pose2DBetween 9 0 1 2 0.1 0.2 true) (fun r =>
    if r = 2 then .generic ⟨2, false, toList ![1, 0, 0]⟩ else if r = 1 then .pose2d ⟨1, false, ![1, 0], 0⟩
    else .pose2d ⟨0, false, ![0, 0], 0⟩) := by
  refine (C52_local_zero _ 9 0 1 2 ⟨0, false, ![0, 0], 0⟩ ⟨1, false, ![1, 0], 0⟩ ![1, 0, 0] 0.1 0.2 rfl rfl
    (.inl (.inl ⟨_, rfl, rfl⟩)) (by norm_num) (by norm_num)).mpr ⟨?_, 0, by simp only [cons_val]; norm_num⟩
  funext i; fin_cases i <;> simp [Pose2DVar.dcm, Matrix.mulVec, dotProduct, Fin.sum_univ_two]

theorem measured_motion {v : RVar} {x : V3} (hv : MeasuredPose v x) {incr : Increment} (hi : AnyIncrement incr) :
    ∃ γ : V3 → RVar, ∃ t : V3 → ℝ, ∀ d, incr v (List.ofFn d) = .ok (γ d) ∧
      VarLike.value (γ d) = toList ![x 0 + d 0, x 1 + d 1, t d] ∧ ∀ c, wrapAngle (c - t d) = wrapAngle (c - x 2 - d 2) := by
  rcases hv with hv | ⟨q, rfl, h1, h2⟩
  · obtain ⟨γ, hγ⟩ := vector_motion hv hi
    refine ⟨γ, fun d => x 2 + d 2, fun d => ⟨(hγ d).1, ?_, fun c => by rw [sub_sub]⟩⟩
    rw [(vector_value (hγ d).2).1]
    congr 1
    funext i; fin_cases i <;> simp
  · refine ⟨fun d => .pose2d (moved2 q d), fun d => wrapAngle (x 2 + d 2), fun d => ⟨pose2d_motion q hi d, ?_, fun c => ?_⟩⟩
    · show [(moved2 q d).pos 0, (moved2 q d).pos 1, (moved2 q d).theta] = _
      simp [moved2, incPlane, h1, h2, toList3]
    · rw [wrap_sub_wrap, sub_sub]

theorem shifted_wrap_deriv {c : ℝ} (h : wrapAngle c < Real.pi) {g g' : V3 → ℝ} (hg : HasScalDeriv g g' 0) (g0 : g 0 = 0) :
    HasScalDeriv (fun d => wrapAngle (c + g d)) g' 0 := by
  have h1 : HasScalDeriv (fun d => c + g d) g' 0 :=
    HasScalDeriv.congr (HasScalDeriv.add (HasScalDeriv.const c 0) hg) fun u => by simp
  refine HasScalDeriv.congr (HasScalDeriv.comp (f := fun d => c + g d) (φ := wrapAngle) (d := 1)
    (wrap_deriv (by rw [g0, add_zero]; exact h)) h1) fun u => by simp

/-- **C52** The three Jacobian blocks are the derivatives of the residual, in both modes, unless the heading error is
exactly half a turn. -/
theorem C52_jacobian (h : Heap RVar) (id : Int) (a b m : VRef) (va vb : Pose2DVar) (x : V3) (ps as : ℝ) (localFrame : Bool)
    (ha : h a = .pose2d va) (hb : h b = .pose2d vb) (hm : MeasuredPose (h m) x) (hab : a ≠ b) (ham : a ≠ m) (hbm : b ≠ m)
    (hopp : wrapAngle (vb.theta - va.theta - x 2) < Real.pi) (incr : Increment) (hi : AnyIncrement incr) :
    JacobiansCorrect incr (Fac.pose2DBetween id a b m ps as localFrame) h := by
  intro old
  refine ⟨_, by
    simp only [Fac.pose2DBetween, ha, hb]
    exact fillBlocks_ok rfl, ?_⟩
  rw [← ha, ← hb]
  have hmv := (measured_value hm).1
  refine .cons (block_ok ?_) (.cons (block_ok ?_) (.cons (block_ok ?_) .nil))
  · have hw : ∀ d : V3, wrapAngle (vb.theta - (moved2 va d).theta - x 2) = wrapAngle (vb.theta - va.theta - x 2 + -d 2) :=
      fun d => by
        show wrapAngle (vb.theta - wrapAngle (va.theta + d 2) - x 2) = _
        rw [sub_right_comm, wrap_sub_wrap]
        congr 1; ring
    refine isDerivative_of (fun d => ![(1 / ps) * ((if localFrame then (moved2 va d).dcm *ᵥ (vb.pos - (moved2 va d).pos)
        else vb.pos - (moved2 va d).pos) 0 - x 0),
      (1 / ps) * ((if localFrame then (moved2 va d).dcm *ᵥ (vb.pos - (moved2 va d).pos)
        else vb.pos - (moved2 va d).pos) 1 - x 1),
      (1 / as) * wrapAngle (vb.theta - va.theta - x 2 + -d 2)]) rfl (by rw [ha]; rfl) ?_ (Eventually.of_forall fun d => ?_) ?_
    · rw [between2d_residual ha hb hmv, (moved2_zero va).1, (moved2_zero va).2]
      simp
    · simp only [residualAfter, ha, pose2d_motion va hi d]
      rw [between2d_residual (set_same _ _ _) (by rw [set_other _ _ hab.symm]; exact hb)
        (by rw [set_other _ _ ham.symm]; exact hmv), hw]
    · have hrel := HasVecDeriv.const_sub vb.pos (moved2_pos_deriv va)
      have hrot := HasMatDeriv.mulVec (moved2_dcm_deriv va) hrel
      rw [(moved2_zero va).1, (moved2_zero va).2] at hrot
      have hang := shifted_wrap_deriv hopp (HasScalDeriv.neg (HasScalDeriv.coord 2 (0 : V3))) (by simp)
      intro i
      fin_cases i
      · cases localFrame
        · refine HasScalDeriv.congr (HasScalDeriv.mul (HasScalDeriv.const (1 / ps) 0)
            (HasScalDeriv.sub (hrel 0) (HasScalDeriv.const (x 0) 0))) fun u => ?_
          simp [Matrix.mulVec, dotProduct, Fin.sum_univ_three, incPlane]
        · refine HasScalDeriv.congr (HasScalDeriv.mul (HasScalDeriv.const (1 / ps) 0)
            (HasScalDeriv.sub (hrot 0) (HasScalDeriv.const (x 0) 0))) fun u => ?_
          simp [Matrix.mulVec, dotProduct, Fin.sum_univ_three, Fin.sum_univ_two, incPlane, Pose2DVar.dcm, Matrix.mul_apply]
          ring
      · cases localFrame
        · refine HasScalDeriv.congr (HasScalDeriv.mul (HasScalDeriv.const (1 / ps) 0)
            (HasScalDeriv.sub (hrel 1) (HasScalDeriv.const (x 1) 0))) fun u => ?_
          simp [Matrix.mulVec, dotProduct, Fin.sum_univ_three, incPlane]
        · refine HasScalDeriv.congr (HasScalDeriv.mul (HasScalDeriv.const (1 / ps) 0)
            (HasScalDeriv.sub (hrot 1) (HasScalDeriv.const (x 1) 0))) fun u => ?_
          simp [Matrix.mulVec, dotProduct, Fin.sum_univ_three, Fin.sum_univ_two, incPlane, Pose2DVar.dcm, Matrix.mul_apply]
          ring
      · refine HasScalDeriv.congr (HasScalDeriv.mul (HasScalDeriv.const (1 / as) 0) hang) fun u => ?_
        cases localFrame <;> simp [Matrix.mulVec, dotProduct, Fin.sum_univ_three]
  · have hw : ∀ d : V3, wrapAngle ((moved2 vb d).theta - va.theta - x 2) = wrapAngle (vb.theta - va.theta - x 2 + d 2) :=
      fun d => by
        show wrapAngle (wrapAngle (vb.theta + d 2) - va.theta - x 2) = _
        rw [sub_sub, sub_eq_add_neg, wrap_wrap_add]
        congr 1; ring
    refine isDerivative_of (fun d => ![(1 / ps) * ((if localFrame then va.dcm *ᵥ ((moved2 vb d).pos - va.pos)
        else (moved2 vb d).pos - va.pos) 0 - x 0),
      (1 / ps) * ((if localFrame then va.dcm *ᵥ ((moved2 vb d).pos - va.pos)
        else (moved2 vb d).pos - va.pos) 1 - x 1),
      (1 / as) * wrapAngle (vb.theta - va.theta - x 2 + d 2)]) rfl (by rw [hb]; rfl) ?_ (Eventually.of_forall fun d => ?_) ?_
    · rw [between2d_residual ha hb hmv, (moved2_zero vb).1]
      simp
    · simp only [residualAfter, hb, pose2d_motion vb hi d]
      rw [between2d_residual (by rw [set_other _ _ hab]; exact ha) (set_same _ _ _)
        (by rw [set_other _ _ hbm.symm]; exact hmv), hw]
    · have hrel := HasVecDeriv.sub_const (moved2_pos_deriv vb) va.pos
      have hrot := HasVecDeriv.const_mulVec va.dcm hrel
      have hang := shifted_wrap_deriv hopp (HasScalDeriv.coord 2 (0 : V3)) (by simp)
      intro i
      fin_cases i
      · cases localFrame
        · refine HasScalDeriv.congr (HasScalDeriv.mul (HasScalDeriv.const (1 / ps) 0)
            (HasScalDeriv.sub (hrel 0) (HasScalDeriv.const (x 0) 0))) fun u => ?_
          simp [Matrix.mulVec, dotProduct, Fin.sum_univ_three, incPlane]
        · refine HasScalDeriv.congr (HasScalDeriv.mul (HasScalDeriv.const (1 / ps) 0)
            (HasScalDeriv.sub (hrot 0) (HasScalDeriv.const (x 0) 0))) fun u => ?_
          simp [Matrix.mulVec, dotProduct, Fin.sum_univ_three, Fin.sum_univ_two, incPlane, Pose2DVar.dcm]
          ring
      · cases localFrame
        · refine HasScalDeriv.congr (HasScalDeriv.mul (HasScalDeriv.const (1 / ps) 0)
            (HasScalDeriv.sub (hrel 1) (HasScalDeriv.const (x 1) 0))) fun u => ?_
          simp [Matrix.mulVec, dotProduct, Fin.sum_univ_three, incPlane]
        · refine HasScalDeriv.congr (HasScalDeriv.mul (HasScalDeriv.const (1 / ps) 0)
            (HasScalDeriv.sub (hrot 1) (HasScalDeriv.const (x 1) 0))) fun u => ?_
          simp [Matrix.mulVec, dotProduct, Fin.sum_univ_three, Fin.sum_univ_two, incPlane, Pose2DVar.dcm]
          ring
      · refine HasScalDeriv.congr (HasScalDeriv.mul (HasScalDeriv.const (1 / as) 0) hang) fun u => ?_
        cases localFrame <;> simp [Matrix.mulVec, dotProduct, Fin.sum_univ_three]
  · obtain ⟨γ, t, hγ⟩ := measured_motion hm hi
    generalize hE : (if localFrame then va.dcm *ᵥ (vb.pos - va.pos) else vb.pos - va.pos) = e
    refine isDerivative_of (fun d => ![(1 / ps) * (e 0 - (x 0 + d 0)), (1 / ps) * (e 1 - (x 1 + d 1)),
      (1 / as) * wrapAngle (vb.theta - va.theta - x 2 + -d 2)]) rfl (measured_value hm).2 ?_ (Eventually.of_forall fun d => ?_) ?_
    · rw [between2d_residual ha hb hmv, hE]
      simp
    · simp only [residualAfter, (hγ d).1]
      rw [between2d_residual (by rw [set_other _ _ ham]; exact ha) (by rw [set_other _ _ hbm]; exact hb)
        (by rw [set_same]; exact (hγ d).2.1), hE]
      simp only [cons_val]
      rw [(hγ d).2.2, ← sub_eq_add_neg]
    · have hang := shifted_wrap_deriv hopp (HasScalDeriv.neg (HasScalDeriv.coord 2 (0 : V3))) (by simp)
      have hc : ∀ i, HasScalDeriv (fun d : V3 => x i + d i) (fun u => u i) 0 := fun i =>
        HasScalDeriv.congr (HasScalDeriv.add (HasScalDeriv.const _ 0) (HasScalDeriv.coord i 0)) fun u => by simp
      intro i
      fin_cases i
      · refine HasScalDeriv.congr (HasScalDeriv.mul (HasScalDeriv.const (1 / ps) 0)
          (HasScalDeriv.sub (HasScalDeriv.const (e 0) 0) (hc 0))) fun u => ?_
        simp [Matrix.mulVec, dotProduct, Fin.sum_univ_three]
      · refine HasScalDeriv.congr (HasScalDeriv.mul (HasScalDeriv.const (1 / ps) 0)
          (HasScalDeriv.sub (HasScalDeriv.const (e 1) 0) (hc 1))) fun u => ?_
        simp [Matrix.mulVec, dotProduct, Fin.sum_univ_three]
      · refine HasScalDeriv.congr (HasScalDeriv.mul (HasScalDeriv.const (1 / as) 0) hang) fun u => ?_
        simp [Matrix.mulVec, dotProduct, Fin.sum_univ_three]

/-- Two poses with heading 90° in `local_frame` mode. -/
example : JacobiansCorrect codeIncr (Fac.pose2DBetween 9 0 1 2 1 1 true) C52.ahead := by
  refine C52_jacobian _ 9 0 1 2 ⟨0, false, ![0, 0], Real.pi / 2⟩ ⟨1, false, ![0, 1], Real.pi / 2⟩ ![1, 0, 0] 1 1 true rfl rfl
    (.inl (.inl ⟨_, rfl, rfl⟩)) (by decide) (by decide) (by decide) ?_ _ .code
  have := Real.pi_pos
  rw [wrap_of_mem (by simp; linarith) (by simp; linarith)]
  simp; linarith

end Factorama.Props
