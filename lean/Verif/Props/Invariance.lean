import Verif.Spec.Motion
import Verif.Lemmas.Planar

/-!
# Property C77: relative measurements do not depend on the place of the world frame
-/

namespace Factorama.Props
open Spec Geo Matrix

theorem C77.diff {R : M3} (hR : R * Rᵀ = 1) (D : M3) (x y a : V3) :
    (D * Rᵀ) *ᵥ (R *ᵥ x + a - (R *ᵥ y + a)) = D *ᵥ (x - y) := by
  have hR' : Rᵀ * R = 1 := mul_eq_one_comm.1 hR
  rw [add_sub_add_right_eq_sub, ← mulVec_sub, mulVec_mulVec, Matrix.mul_assoc, hR', Matrix.mul_one]

theorem C77.dot {R : M3} (hR : R * Rᵀ = 1) (x y : V3) : (R *ᵥ x) ⬝ᵥ (R *ᵥ y) = x ⬝ᵥ y := by
  have hR' : Rᵀ * R = 1 := mul_eq_one_comm.1 hR
  rw [dotProduct_mulVec, vecMul_mulVec, hR', vecMul_one]

theorem C77.posW {v : LandmarkVar} {x : V3} (h : v.value = toList x) : v.posW = .ok x := by
  rw [LandmarkVar.posW, h, if_pos (by simp [toList])]
  congr 1
  funext i
  simp [toList, read3, -List.ofFn_succ]

theorem C77.vec3 (x : V3) : Fac.vec3 (toList x) = .ok x := by
  rw [Fac.vec3, if_pos (by simp [toList])]
  congr 1
  funext i
  simp [toList, read3, -List.ofFn_succ]

/-- **C77** in space. The residual of a bearing observation, of an orientation difference, of a position difference in the
body frame, or of a point on a plane is the same wherever the world frame is. -/
theorem C77_space {R : M3} (hR : R * Rᵀ = 1) (a : V3) {h h' : Heap RVar} {f : Factor ℝ RVar} (hf : RelativeInSpace h f)
    (hmove : ∀ r, some r ∈ f.variables → InSpace R a (h r) (h' r)) : f.computeResidual h' = f.computeResidual h := by
  cases hf with
  | bearingObservation id p l bearing sigma =>
    have h1 := hmove p (by simp [Fac.bearingObservation])
    have h2 := hmove l (by simp [Fac.bearingObservation])
    simp only [Fac.bearingObservation]
    generalize h p = vp, h l = vl, h' p = vp', h' l = vl' at h1 h2
    cases h1 <;> cases h2 <;> try rfl
    rename_i v v' e1 e2 x x' y e3 e4
    dsimp only
    rw [C77.posW e3, C77.posW e4, e1, e2]
    simp only [Res.map, C77.diff hR]
  | bearingProjection id p l bearing sigma tol =>
    have h1 := hmove p (by simp [Fac.bearingProjection])
    have h2 := hmove l (by simp [Fac.bearingProjection])
    simp only [Fac.bearingProjection]
    generalize h p = vp, h l = vl, h' p = vp', h' l = vl' at h1 h2
    cases h1 <;> cases h2 <;> try rfl
    rename_i v v' e1 e2 x x' y e3 e4
    dsimp only
    rw [C77.posW e3, C77.posW e4, e1, e2]
    simp only [Res.map, C77.diff hR]
  | inverseRangeBearing id p r bearing sigma =>
    have h1 := hmove p (by simp [Fac.inverseRangeBearing])
    have h2 := hmove r (by simp [Fac.inverseRangeBearing])
    simp only [Fac.inverseRangeBearing]
    generalize h p = vp, h r = vl, h' p = vp', h' r = vl' at h1 h2
    cases h1 <;> cases h2 <;> try rfl
    rename_i v v' e1 e2 x x' e3 e4 e5
    dsimp only [InvRangeVar.posW]
    rw [e1, e2, e3, e4, e5]
    by_cases hx : |x.inv| < 1e-9
    · rw [if_pos hx, if_pos hx]
    · rw [if_neg hx, if_neg hx]
      have : R *ᵥ x.origin + a + (1 / x.inv) • R *ᵥ x.bearing = R *ᵥ (x.origin + (1 / x.inv) • x.bearing) + a := by
        rw [mulVec_add, mulVec_smul]; abel
      dsimp only
      rw [this, C77.diff hR]
  | poseOrientationBetween id p1 p2 c sigma =>
    have h1 := hmove p1 (by simp [Fac.poseOrientationBetween])
    have h2 := hmove p2 (by simp [Fac.poseOrientationBetween])
    have h3 := hmove c (by simp [Fac.poseOrientationBetween])
    simp only [Fac.poseOrientationBetween]
    generalize h p1 = vp, h p2 = vl, h c = vc, h' p1 = vp', h' p2 = vl', h' c = vc' at h1 h2 h3
    cases h1 <;> cases h2 <;> cases h3 <;> try rfl
    rename_i v1 v1' e1 e2 v2 v2' e3 e4 c
    have hR' : Rᵀ * R = 1 := mul_eq_one_comm.1 hR
    have : v2'.dcm * v1'.dcmᵀ = v2.dcm * v1.dcmᵀ := by
      rw [e2, e4, transpose_mul, transpose_transpose, Matrix.mul_assoc, ← Matrix.mul_assoc Rᵀ, hR', Matrix.one_mul]
    dsimp only
    rw [this]
  | posePositionBetween id p1 p2 m sigma v hm =>
    have h1 := hmove p1 (by simp [Fac.posePositionBetween])
    have h2 := hmove p2 (by simp [Fac.posePositionBetween])
    have h3 := hmove m (by simp [Fac.posePositionBetween])
    simp only [Fac.posePositionBetween]
    rw [hm] at h3 ⊢
    generalize h p1 = vp, h p2 = vl, h' p1 = vp', h' p2 = vl', h' m = vc' at h1 h2 h3
    cases h1 <;> cases h2 <;> try rfl
    cases h3
    rename_i v1 v1' e1 e2 v2 v2' e3 e4
    dsimp only
    simp only [if_true]
    rw [e1, e2, e3, C77.diff hR]
  | plane id p l sigma v hp =>
    have h1 := hmove p (by simp [Fac.planeFactor])
    have h2 := hmove l (by simp [Fac.planeFactor])
    simp only [Fac.planeFactor]
    rw [hp] at h1 ⊢
    generalize h l = vl, h' p = vp', h' l = vl' at h1 h2
    cases h1 <;> cases h2 <;> try rfl
    rename_i x x' e1 e2 n n' e3 e4
    dsimp only [VarLike.value]
    rw [e1, e2, C77.vec3, C77.vec3]
    simp only [Res.map, PlaneVar.distanceFromPoint, e3, e4]
    rw [dotProduct_add, C77.dot hR]
    congr 3
    ring

/-- A camera at (1,2,0) that looks along the axes and a landmark at (3,2,5), turned by a quarter turn about the z axis and
shifted by (10,0,0): the bearing residual is unchanged. -/
example (id : Int) (bearing : V3) (sigma : ℝ) :
    (Fac.bearingObservation id 0 1 bearing sigma).computeResidual
      (fun r => if r = 0 then .pose ⟨0, false, ![8, 1, 0], ![0, 0, -(Real.pi / 2)], [], !![0, 1, 0; -1, 0, 0; 0, 0, 1]⟩
        else .landmark ⟨1, false, [8, 3, 5]⟩) =
    (Fac.bearingObservation id 0 1 bearing sigma).computeResidual
      (fun r => if r = 0 then .pose ⟨0, false, ![1, 2, 0], 0, [], 1⟩ else .landmark ⟨1, false, [3, 2, 5]⟩) := by
  have hR : (!![0, -1, 0; 1, 0, 0; 0, 0, 1] : M3) * !![0, -1, 0; 1, 0, 0; 0, 0, 1]ᵀ = 1 := by
    ext i j; fin_cases i <;> fin_cases j <;> simp [Matrix.mul_apply, Fin.sum_univ_three]
  refine C77_space hR ![10, 0, 0] (.bearingObservation id 0 1 bearing sigma) fun r hr => ?_
  obtain rfl | rfl : r = 0 ∨ r = 1 := by simpa [Fac.bearingObservation] using hr
  · refine .pose ?_ ?_
    · funext i; fin_cases i <;> norm_num [mulVec, dotProduct, Fin.sum_univ_three]
    · ext i j; fin_cases i <;> fin_cases j <;> simp
  · refine .landmark ![3, 2, 5] ?_ ?_
    · simp [toList]
    · rw [show (!![0, -1, 0; 1, 0, 0; 0, 0, 1] : M3) *ᵥ ![3, 2, 5] + ![10, 0, 0] = ![8, 3, 5] by
        funext i; fin_cases i <;> norm_num [mulVec, dotProduct, Fin.sum_univ_three]]
      simp [toList]

theorem C77.local {phi : ℝ} {a : V2} {v v' : Pose2DVar} (hp : v'.pos = turn phi *ᵥ v.pos + a)
    (ht : v'.theta = wrapAngle (v.theta + phi)) (x : V2) : Fac.deltaLocal v' (turn phi *ᵥ x + a) = Fac.deltaLocal v x := by
  obtain ⟨h1, h2⟩ := wrap_trig (v.theta + phi)
  have h3 := Real.sin_sq_add_cos_sq phi
  simp only [Fac.deltaLocal, Pose2DVar.dcm, hp, ht, h1, h2, turn, Real.cos_add, Real.sin_add, add_sub_add_right_eq_sub]
  funext i
  fin_cases i
  · simp [mulVec, dotProduct, Fin.sum_univ_two]
    linear_combination (Real.cos v.theta * (x 0 - v.pos 0) + Real.sin v.theta * (x 1 - v.pos 1)) * h3
  · simp [mulVec, dotProduct, Fin.sum_univ_two]
    linear_combination (-Real.sin v.theta * (x 0 - v.pos 0) + Real.cos v.theta * (x 1 - v.pos 1)) * h3

theorem C77.head2 {phi : ℝ} {a : V2} {v v' : RVar} (h : InPlane phi a true v v') :
    ∃ x, Fac.head2 (VarLike.value v) = .ok x ∧ Fac.head2 (VarLike.value v') = .ok (turn phi *ᵥ x + a) := by
  cases h with
  | @pose v v' _ h1 _ =>
    refine ⟨v.pos, ?_, ?_⟩
    · show Fac.head2 [v.pos 0, v.pos 1, v.theta] = _
      rw [Fac.head2, if_pos (by simp)]
      congr 1; funext i; fin_cases i <;> simp
    · show Fac.head2 [v'.pos 0, v'.pos 1, v'.theta] = _
      rw [Fac.head2, if_pos (by simp), ← h1]
      congr 1; funext i; fin_cases i <;> simp
  | @point v v' x h1 h2 =>
    refine ⟨x, ?_, ?_⟩
    · simp only [VarLike.value, h1, Fac.head2]
      rw [if_pos (by simp [toList])]
      congr 1; funext i; fin_cases i <;> simp [toList]
    · simp only [VarLike.value, h2, Fac.head2]
      rw [if_pos (by simp [toList])]
      congr 1; funext i; fin_cases i <;> simp [toList]

/-- **C77** in the plane. The residual of a bearing or of a range and a bearing from a planar pose to a point is the same
wherever the world frame is. -/
theorem C77_plane (phi : ℝ) (a : V2) {point : VRef → Bool} {h h' : Heap RVar} {f : Factor ℝ RVar}
    (hf : RelativeInPlane point f) (hmove : ∀ r, some r ∈ f.variables → InPlane phi a (point r) (h r) (h' r)) :
    f.computeResidual h' = f.computeResidual h := by
  cases hf with
  | bearing2D id p l obs sigma hl =>
    have h1 := hmove p (by simp [Fac.bearing2D])
    have h2 := hmove l (by simp [Fac.bearing2D])
    rw [hl] at h2
    obtain ⟨x, e3, e4⟩ := C77.head2 h2
    simp only [Fac.bearing2D, e3, e4]
    generalize h p = vp, h' p = vp', point p = b at h1
    cases h1 <;> try rfl
    rename_i v v' e1 e2
    simp only [Res.map, C77.local e1 e2]
  | rangeBearing2D id p l range obs rs bs hl =>
    have h1 := hmove p (by simp [Fac.rangeBearing2D])
    have h2 := hmove l (by simp [Fac.rangeBearing2D])
    rw [hl] at h2
    obtain ⟨x, e3, e4⟩ := C77.head2 h2
    simp only [Fac.rangeBearing2D, e3, e4]
    generalize h p = vp, h' p = vp', point p = b at h1
    cases h1 <;> try rfl
    rename_i v v' e1 e2
    simp only [Res.map, C77.local e1 e2]

/-- A planar pose at the origin and a point at (2,0), turned by half a turn and shifted by (1,1). -/
example (id : Int) (range obs rs bs : ℝ) :
    (Fac.rangeBearing2D id 0 1 range obs rs bs).computeResidual
      (fun r => if r = 0 then .pose2d ⟨0, false, ![1, 1], wrapAngle (0 + Real.pi)⟩ else .generic ⟨1, false, [-1, 1]⟩) =
    (Fac.rangeBearing2D id 0 1 range obs rs bs).computeResidual
      (fun r => if r = 0 then .pose2d ⟨0, false, ![0, 0], 0⟩ else .generic ⟨1, false, [2, 0]⟩) := by
  refine C77_plane Real.pi ![1, 1] (point := fun r => r == 1) (.rangeBearing2D id 0 1 range obs rs bs rfl) fun r hr => ?_
  obtain rfl | rfl : r = 0 ∨ r = 1 := by simpa [Fac.rangeBearing2D] using hr
  · refine .pose _ ?_ rfl
    funext i; fin_cases i <;> simp [turn]
  · refine .point ![2, 0] ?_ ?_
    · simp [toList]
    · rw [show turn Real.pi *ᵥ ![2, 0] + ![1, 1] = ![-1, 1] by
        funext i; fin_cases i <;> norm_num [turn, mulVec, dotProduct, Fin.sum_univ_two]]
      simp [toList]

end Factorama.Props
