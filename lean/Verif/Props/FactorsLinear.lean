import Verif.Lemmas.Factors

/-!
# Factors on plain vectors and on pose positions: C42, C43, C44
-/

namespace Factorama.Props
open Matrix Geo Spec Topology Filter

/-! ### C42 GenericPriorFactor -/

theorem generic_residual {n : Nat} {h : Heap RVar} {r : VRef} {x : Fin n → ℝ} (hv : IsVector (h r) x) (id : Int)
    (p : Fin n → ℝ) (w : ℝ) : (genericPrior id r (toList p) w).computeResidual h = .ok (toList (w • (x - p))) := by
  simp only [genericPrior]
  rw [(vector_value hv).1]
  have : vecSub (toList x) (toList p) = .ok (toList (x - p)) := by
    rw [vecSub, if_pos (by rw [length_toList, length_toList])]
    congr 1
    apply List.ext_getElem
    · simp [toList]
    · intro i h1 h2; simp [toList]
  rw [this]
  simp only [Res.ok.injEq]
  apply List.ext_getElem
  · simp [toList]
  · intro i h1 h2; simp [toList]

/-- **C42** The residual of `GenericPriorFactor` on a variable with a plain vector value is `(value - prior) / sigma`;
it is zero exactly at the prior. -/
theorem C42_residual {n : Nat} (h : Heap RVar) (id : Int) (r : VRef) (x p : Fin n → ℝ) (sigma : ℝ)
    (hr : IsVector (h r) x) :
    ResidualIs (genericPrior id r (toList p) (1 / sigma)) h ((1 / sigma) • (x - p)) ∧
    (sigma ≠ 0 → (ZeroResidual (genericPrior (V := RVar) id r (toList p) (1 / sigma)) h ↔ x = p)) := by
  have h1 : ResidualIs (genericPrior id r (toList p) (1 / sigma)) h ((1 / sigma) • (x - p)) := generic_residual hr id p _
  refine ⟨h1, fun hs => ?_⟩
  rw [ZeroResidual, h1, Res.ok.injEq]
  have : (genericPrior (V := RVar) id r (toList p) (1 / sigma)).residualSize = n := length_toList p
  rw [this]
  exact toList_eq_zero.trans ((smul_weight_eq_zero hs).trans sub_eq_zero)

/-- A landmark at `(1, 2, 3)`, with the prior `(1, 2, 5)` and a standard deviation of a half. -/
example : ResidualIs (genericPrior 7 0 (toList ![1, 2, 5]) (1 / 0.5)) (fun _ => .landmark (LandmarkVar.make 3 ![1, 2, 3]))
      ((1 / 0.5 : ℝ) • (![1, 2, 3] - ![1, 2, 5])) ∧
    ¬ ZeroResidual (genericPrior (V := RVar) 7 0 (toList ![1, 2, 5]) (1 / 0.5)) (fun _ => .landmark (LandmarkVar.make 3 ![1, 2, 3])) := by
  obtain ⟨h1, h2⟩ := C42_residual (fun _ => .landmark (LandmarkVar.make 3 ![1, 2, 3])) 7 0 ![1, 2, 3] ![1, 2, 5] 0.5 (.inr ⟨rfl, _, rfl, rfl⟩)
  refine ⟨h1, fun hz => ?_⟩
  have : (3 : ℝ) = 5 := congrFun ((h2 (by norm_num)).1 hz) 2
  norm_num at this

/-- **C42** For a variable that is not constant the Jacobian block is the derivative of the residual. (For a constant
one see `C57_generic_prior_false`.) -/
theorem C42_jacobian_partial {n : Nat} (h : Heap RVar) (id : Int) (r : VRef) (x p : Fin n → ℝ) (sigma : ℝ)
    (hr : IsVector (h r) x) (hc : VarLike.isConst (h r) = false) (incr : Increment) (hi : AnyIncrement incr) :
    JacobiansCorrect incr (genericPrior id r (toList p) (1 / sigma)) h := by
  intro old
  refine ⟨[Mat.diag (toList p).length (1 / sigma)], by simp [genericPrior, hc], ?_⟩
  refine .cons ⟨r, rfl, ?_⟩ .nil
  rw [hc]
  obtain ⟨γ, hγ⟩ := vector_motion hr hi
  refine isDerivative_mat (A := (1 / sigma) • (1 : Matrix (Fin n) (Fin n) ℝ)) (length_toList p) (length_toList p) ?_
    (fun d => (1 / sigma) • (x + d - p)) (length_toList p) (vector_value hr).2 ?_ (Eventually.of_forall fun d => ?_) ?_
  · intro i j
    simp [Mat.diag, Matrix.one_apply, Fin.ext_iff]
  · simpa using generic_residual hr id p (1 / sigma)
  · simp only [residualAfter, (hγ d).1]
    exact generic_residual (by rw [set_same]; exact (hγ d).2) id p _
  · refine HasVecDeriv.congr (HasVecDeriv.const_smul _ (HasVecDeriv.sub_const (HasVecDeriv.const_add x (HasVecDeriv.id 0)) p)) fun u => ?_
    simp [Matrix.smul_mulVec]

/-- A two-dimensional variable at `(1, 2)` meets the hypotheses, and so does a landmark. -/
example : IsVector (.generic ⟨0, false, toList ![1, 2]⟩) ![1, 2] ∧
    IsVector (.landmark (LandmarkVar.make 3 ![1, 2, 3])) ![1, 2, 3] ∧ AnyIncrement codeIncr :=
  ⟨.inl ⟨_, rfl, rfl⟩, .inr ⟨rfl, _, rfl, rfl⟩, .code⟩

/-! ### C43 GenericBetweenFactor -/

theorem between_residual {n : Nat} {h : Heap RVar} {a b m : VRef} {xa xb xm : Fin n → ℝ} (ha : IsVector (h a) xa)
    (hb : IsVector (h b) xb) (hm : IsVector (h m) xm) (id : Int) (w : ℝ) :
    (genericBetween id a b m n w).computeResidual h = .ok (toList (w • (xb - xa - xm))) := by
  have hsub : ∀ x y : Fin n → ℝ, vecSub (toList x) (toList y) = .ok (toList (x - y)) := by
    intro x y
    rw [vecSub, if_pos (by rw [length_toList, length_toList])]
    congr 1
    apply List.ext_getElem
    · simp [toList]
    · intro i h1 h2; simp [toList]
  simp only [genericBetween, (vector_value ha).1, (vector_value hb).1, (vector_value hm).1, hsub, Res.ok.injEq]
  apply List.ext_getElem
  · simp [toList]
  · intro i h1 h2; simp [toList]

/-- **C43** The residual of `GenericBetweenFactor` is `(b - a - measured) / sigma`; it is zero exactly when the
difference is the measured one. -/
theorem C43_residual {n : Nat} (h : Heap RVar) (id : Int) (a b m : VRef) (xa xb xm : Fin n → ℝ) (sigma : ℝ)
    (ha : IsVector (h a) xa) (hb : IsVector (h b) xb) (hm : IsVector (h m) xm) :
    ResidualIs (genericBetween id a b m n (1 / sigma)) h ((1 / sigma) • (xb - xa - xm)) ∧
    (sigma ≠ 0 → (ZeroResidual (genericBetween (V := RVar) id a b m n (1 / sigma)) h ↔ xb - xa = xm)) := by
  have h1 := between_residual ha hb hm id (1 / sigma)
  refine ⟨h1, fun hs => ?_⟩
  rw [ZeroResidual, h1, Res.ok.injEq]
  exact toList_eq_zero.trans ((smul_weight_eq_zero hs).trans sub_eq_zero)

/-- Three one-dimensional variables: `1 - 0` is not the measured difference 2. -/
example : ¬ ZeroResidual (genericBetween (V := RVar) 7 0 1 2 1 (1 / 0.5)) (fun r => .generic ⟨r, r == 2, toList ![(r : ℝ)]⟩) := by
  intro hz
  have := congrFun (((C43_residual (n := 1) _ 7 0 1 2 ![0] ![1] ![2] 0.5 (.inl ⟨_, rfl, by simp⟩) (.inl ⟨_, rfl, by simp⟩)
    (.inl ⟨_, rfl, by simp⟩)).2 (by norm_num)).1 hz) 0
  norm_num at this

theorem betweenBlock_ok {n : Nat} {incr : Increment} {f : Factor ℝ RVar} {h : Heap RVar} {r : VRef} {w : ℝ}
    (hA : IsDerivative incr f h r (Mat.diag n w)) :
    ∃ r', some r = some r' ∧ if VarLike.isConst (h r') then betweenBlock n (h r) w = Mat.empty
      else IsDerivative incr f h r' (betweenBlock n (h r) w) := by
  refine ⟨r, rfl, ?_⟩
  unfold betweenBlock
  split
  · rfl
  · exact hA

/-- **C43** The three blocks are the derivatives of the residual, for three different variables. -/
theorem C43_jacobian {n : Nat} (h : Heap RVar) (id : Int) (a b m : VRef) (xa xb xm : Fin n → ℝ) (sigma : ℝ)
    (ha : IsVector (h a) xa) (hb : IsVector (h b) xb) (hm : IsVector (h m) xm) (hab : a ≠ b) (ham : a ≠ m) (hbm : b ≠ m)
    (incr : Increment) (hi : AnyIncrement incr) :
    JacobiansCorrect incr (genericBetween id a b m n (1 / sigma)) h := by
  intro old
  refine ⟨_, rfl, ?_⟩
  have hdiag : ∀ (w : ℝ) (i j : Fin n), (Mat.diag n w).entry i j = (w • (1 : Matrix (Fin n) (Fin n) ℝ)) i j := by
    intro w i j
    simp [Mat.diag, Matrix.one_apply, Fin.ext_iff]
  refine .cons (betweenBlock_ok ?_) (.cons (betweenBlock_ok ?_) (.cons (betweenBlock_ok ?_) .nil))
  · obtain ⟨γ, hγ⟩ := vector_motion ha hi
    refine isDerivative_mat (A := -(1 / sigma) • (1 : Matrix (Fin n) (Fin n) ℝ)) rfl rfl (hdiag _)
      (fun d => (1 / sigma) • (xb - (xa + d) - xm)) rfl (vector_value ha).2 ?_ (Eventually.of_forall fun d => ?_) ?_
    · simpa using between_residual ha hb hm id (1 / sigma)
    · simp only [residualAfter, (hγ d).1]
      exact between_residual (by rw [set_same]; exact (hγ d).2) (by rw [set_other _ _ hab.symm]; exact hb)
        (by rw [set_other _ _ ham.symm]; exact hm) id _
    · refine HasVecDeriv.congr (HasVecDeriv.const_smul _ (HasVecDeriv.sub_const (HasVecDeriv.const_sub xb
        (HasVecDeriv.const_add xa (HasVecDeriv.id 0))) xm)) fun u => ?_
      simp [Matrix.smul_mulVec, Matrix.neg_mulVec]
  · obtain ⟨γ, hγ⟩ := vector_motion hb hi
    refine isDerivative_mat (A := (1 / sigma) • (1 : Matrix (Fin n) (Fin n) ℝ)) rfl rfl (hdiag _)
      (fun d => (1 / sigma) • (xb + d - xa - xm)) rfl (vector_value hb).2 ?_ (Eventually.of_forall fun d => ?_) ?_
    · simpa using between_residual ha hb hm id (1 / sigma)
    · simp only [residualAfter, (hγ d).1]
      exact between_residual (by rw [set_other _ _ hab]; exact ha) (by rw [set_same]; exact (hγ d).2)
        (by rw [set_other _ _ hbm.symm]; exact hm) id _
    · refine HasVecDeriv.congr (HasVecDeriv.const_smul _ (HasVecDeriv.sub_const (HasVecDeriv.sub_const
        (HasVecDeriv.const_add xb (HasVecDeriv.id 0)) xa) xm)) fun u => ?_
      simp [Matrix.smul_mulVec]
  · obtain ⟨γ, hγ⟩ := vector_motion hm hi
    refine isDerivative_mat (A := -(1 / sigma) • (1 : Matrix (Fin n) (Fin n) ℝ)) rfl rfl (hdiag _)
      (fun d => (1 / sigma) • (xb - xa - (xm + d))) rfl (vector_value hm).2 ?_ (Eventually.of_forall fun d => ?_) ?_
    · simpa using between_residual ha hb hm id (1 / sigma)
    · simp only [residualAfter, (hγ d).1]
      exact between_residual (by rw [set_other _ _ ham]; exact ha) (by rw [set_other _ _ hbm]; exact hb)
        (by rw [set_same]; exact (hγ d).2) id _
    · refine HasVecDeriv.congr (HasVecDeriv.const_smul _ (HasVecDeriv.const_sub (xb - xa)
        (HasVecDeriv.const_add xm (HasVecDeriv.id 0)))) fun u => ?_
      simp [Matrix.smul_mulVec, Matrix.neg_mulVec]

/-- Three one-dimensional variables with a constant measurement. -/
example : JacobiansCorrect codeIncr (genericBetween 7 0 1 2 1 (1 / 0.5))
    (fun r => .generic ⟨r, r == 2, toList ![(r : ℝ)]⟩) :=
  C43_jacobian (n := 1) _ 7 0 1 2 ![0] ![1] ![2] 0.5 (.inl ⟨_, rfl, by simp⟩) (.inl ⟨_, rfl, by simp⟩)
    (.inl ⟨_, rfl, by simp⟩) (by decide) (by decide) (by decide) _ .code

/-! ### C44 positions of poses -/

/-- **C44** `PosePositionPriorFactor`: the residual is zero exactly when the position is the prior, and the block is
the derivative of the residual, under the documented increment and under `apply_increment`, at every pose. -/
theorem C44_position_prior (h : Heap RVar) (id : Int) (p : VRef) (v : PoseVar) (prior : V3) (sigma : ℝ)
    (hp : h p = .pose v) :
    (sigma ≠ 0 → (ZeroResidual (Fac.posePositionPrior id p prior sigma) h ↔ v.pos = prior)) ∧
    ∀ incr, AnyIncrement incr → JacobiansCorrect incr (Fac.posePositionPrior id p prior sigma) h := by
  have h1 : (Fac.posePositionPrior id p prior sigma).computeResidual h = .ok (toList ((1 / sigma) • (v.pos - prior))) := by
    simp [Fac.posePositionPrior, hp]
  refine ⟨fun hs => ?_, fun incr hi old => ?_⟩
  · rw [ZeroResidual, h1, Res.ok.injEq]
    exact toList_eq_zero.trans ((smul_weight_eq_zero hs).trans sub_eq_zero)
  · refine ⟨[Fac.block (h p) (Fac.beside ((1 / sigma) • (1 : M3)) 0)], ?_, .cons (block_ok ?_) .nil⟩
    · simp only [Fac.posePositionPrior, hp]
      exact fillBlocks_ok rfl
    · obtain ⟨γ, hγ⟩ := pose_pos_motion v hi
      refine isDerivative_of (fun d => (1 / sigma) • (v.pos + incPos d - prior)) rfl (by rw [hp]; rfl) ?_
        (Eventually.of_forall fun d => ?_) ?_
      · rw [h1, incPos_zero, add_zero]
      · simp only [residualAfter, hp, (hγ d).1, Fac.posePositionPrior, set_same, (hγ d).2]
      · refine HasVecDeriv.congr (HasVecDeriv.const_smul _ (HasVecDeriv.sub_const (HasVecDeriv.const_add v.pos
          (incPos_deriv 0)) prior)) fun u => ?_
        simp [beside_mulVec, Matrix.smul_mulVec]

/-- A pose turned by one radian meets the hypothesis. -/
example : JacobiansCorrect codeIncr (Fac.posePositionPrior 1 0 ![1, 1, 1] 0.1)
    (fun _ => .pose (PoseVar.make 0 ![1, 2, 3] ![1, 0, 0])) :=
  (C44_position_prior _ 1 0 _ _ _ rfl).2 _ .code

theorem position_between_residual {h : Heap RVar} {a b m : VRef} {va vb : PoseVar} {x : V3} (ha : h a = .pose va)
    (hb : h b = .pose vb) (hm : IsVector (h m) x) (id : Int) (sigma : ℝ) (localFrame : Bool) :
    (Fac.posePositionBetween id a b m sigma localFrame).computeResidual h =
      .ok (toList ((1 / sigma) • ((if localFrame then va.dcm *ᵥ (vb.pos - va.pos) else vb.pos - va.pos) - x))) := by
  simp only [Fac.posePositionBetween, ha, hb, (vector_value hm).1, vec3_toList, Res.map]

/-- **C44** `PosePositionBetweenFactor`: the residual is zero exactly when the difference of the positions (in the
frame of the first pose, for `local_frame`) is the measured one. -/
theorem C44_position_between_zero (h : Heap RVar) (id : Int) (a b m : VRef) (va vb : PoseVar) (x : V3) (sigma : ℝ)
    (localFrame : Bool) (ha : h a = .pose va) (hb : h b = .pose vb) (hm : IsVector (h m) x) (hs : sigma ≠ 0) :
    ZeroResidual (Fac.posePositionBetween id a b m sigma localFrame) h ↔
      (if localFrame then va.dcm *ᵥ (vb.pos - va.pos) else vb.pos - va.pos) = x := by
  rw [ZeroResidual, position_between_residual ha hb hm, Res.ok.injEq]
  exact toList_eq_zero.trans ((smul_weight_eq_zero hs).trans sub_eq_zero)

/-- Two positions that differ by the measured offset. -/
example : ZeroResidual (Fac.posePositionBetween 9 0 1 2 0.1 false)
    (fun r => if r = 2 then .generic ⟨2, false, toList ![0, 0, 1]⟩ else .pose (PoseVar.make r ![1, 2, r] 0)) := by
  refine (C44_position_between_zero _ 9 0 1 2 _ _ ![0, 0, 1] 0.1 false rfl rfl (.inl ⟨_, rfl, rfl⟩) (by norm_num)).mpr ?_
  rw [if_neg (by simp)]
  show (![1, 2, ((1 : VRef) : ℝ)] - ![1, 2, ((0 : VRef) : ℝ)] : V3) = _
  funext i; fin_cases i <;> simp

theorem pose_ne_vector {n : Nat} {h : Heap RVar} {a m : VRef} {va : PoseVar} {x : Fin n → ℝ} (ha : h a = .pose va)
    (hm : IsVector (h m) x) : a ≠ m := by
  rintro rfl
  rw [ha] at hm
  rcases hm with ⟨_, h1, _⟩ | ⟨_, _, h1, _⟩ <;> simp at h1

/-- **C44** `PosePositionBetweenFactor`: the three blocks are the derivatives of the residual. -/
theorem C44_position_between_jacobian (h : Heap RVar) (id : Int) (a b m : VRef) (va vb : PoseVar) (x : V3) (sigma : ℝ)
    (localFrame : Bool) (ha : h a = .pose va) (hb : h b = .pose vb) (hm : IsVector (h m) x) (hab : a ≠ b)
    (hR : IsRotation va.dcm) (incr : Increment) (hi : PoseIncrement va incr) :
    JacobiansCorrect incr (Fac.posePositionBetween id a b m sigma localFrame) h := by
  have ham := pose_ne_vector ha hm
  have hbm := pose_ne_vector hb hm
  intro old
  refine ⟨_, by simp only [Fac.posePositionBetween, ha, hb]; exact fillBlocks_ok rfl, ?_⟩
  rw [← ha, ← hb]
  refine .cons (block_ok ?_) (.cons (block_ok ?_) (.cons (block_ok ?_) .nil))
  · obtain ⟨γ, hγ, hmot⟩ := pose_motion hi hR
    refine isDerivative_of (fun d => (1 / sigma) • ((if localFrame then (γ d).dcm *ᵥ (vb.pos - (γ d).pos)
      else vb.pos - (γ d).pos) - x)) rfl (by rw [ha]; rfl) ?_ (Eventually.of_forall fun d => ?_) ?_
    · rw [position_between_residual ha hb hm, hmot.start, hmot.pos_zero]
    · simp only [residualAfter, ha, hγ d]
      exact position_between_residual (set_same _ _ _) (by rw [set_other _ _ hab.symm]; exact hb)
        (by rw [set_other _ _ ham.symm]; exact hm) id _ _
    · cases localFrame
      · refine HasVecDeriv.congr (HasVecDeriv.const_smul _ (HasVecDeriv.sub_const (HasVecDeriv.const_sub _
          hmot.pos_deriv) x)) fun u => ?_
        simp [beside_mulVec, Matrix.smul_mulVec, Matrix.neg_mulVec]
      · refine HasVecDeriv.congr (HasVecDeriv.const_smul _ (HasVecDeriv.sub_const (HasMatDeriv.mulVec hmot.deriv
          (HasVecDeriv.const_sub vb.pos hmot.pos_deriv)) x)) fun u => ?_
        rw [hmot.start, hmot.pos_zero]
        have hx := cross_anticomm (va.dcm *ᵥ (vb.pos - va.pos)) (incRot u)
        simp only [beside_mulVec, Matrix.smul_mulVec, Matrix.mulVec_neg, ← Matrix.mulVec_mulVec, skew_mulVec, if_true, ← hx]
        module
  · obtain ⟨γ, hγ⟩ := pose_pos_motion vb (PoseIncrement.any hi)
    refine isDerivative_of (fun d => (1 / sigma) • ((if localFrame then va.dcm *ᵥ (vb.pos + incPos d - va.pos)
      else vb.pos + incPos d - va.pos) - x)) rfl (by rw [hb]; rfl) ?_ (Eventually.of_forall fun d => ?_) ?_
    · rw [position_between_residual ha hb hm, incPos_zero, add_zero]
    · simp only [residualAfter, hb, (hγ d).1]
      rw [← (hγ d).2]
      exact position_between_residual (by rw [set_other _ _ hab]; exact ha) (set_same _ _ _)
        (by rw [set_other _ _ hbm.symm]; exact hm) id _ _
    · have hp := HasVecDeriv.sub_const (HasVecDeriv.const_add vb.pos (incPos_deriv 0)) va.pos
      cases localFrame
      · refine HasVecDeriv.congr (HasVecDeriv.const_smul _ (HasVecDeriv.sub_const hp x)) fun u => ?_
        simp [beside_mulVec, Matrix.smul_mulVec]
      · refine HasVecDeriv.congr (HasVecDeriv.const_smul _ (HasVecDeriv.sub_const (HasVecDeriv.const_mulVec va.dcm hp) x))
          fun u => ?_
        simp [beside_mulVec, Matrix.smul_mulVec]
  · obtain ⟨γ, hγ⟩ := vector_motion hm (PoseIncrement.any hi)
    refine isDerivative_of (fun d => (1 / sigma) • ((if localFrame then va.dcm *ᵥ (vb.pos - va.pos)
      else vb.pos - va.pos) - (x + d))) rfl (vector_value hm).2 ?_ (Eventually.of_forall fun d => ?_) ?_
    · rw [position_between_residual ha hb hm, add_zero]
    · simp only [residualAfter, (hγ d).1]
      exact position_between_residual (by rw [set_other _ _ ham]; exact ha) (by rw [set_other _ _ hbm]; exact hb)
        (by rw [set_same]; exact (hγ d).2) id _ _
    · refine HasVecDeriv.congr (HasVecDeriv.const_smul _ (HasVecDeriv.const_sub _ (HasVecDeriv.const_add x
        (HasVecDeriv.id 0)))) fun u => ?_
      simp [Matrix.smul_mulVec, Matrix.neg_mulVec]

/-- Two poses turned by one radian and a measured offset, in the local frame. -/
example : JacobiansCorrect codeIncr (Fac.posePositionBetween 9 0 1 2 0.1 true)
    (fun r => if r = 2 then .generic ⟨2, false, toList ![1, 0, 0]⟩ else .pose (PoseVar.make r ![1, 2, r] ![1, 0, 0])) :=
  C44_position_between_jacobian _ 9 0 1 2 _ _ ![1, 0, 0] 0.1 true rfl rfl (.inl ⟨_, rfl, rfl⟩) (by decide)
    (example_pose _ _).1 _ (example_pose _ _).2.2

end Factorama.Props
