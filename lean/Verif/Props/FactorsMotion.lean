import Verif.Props.FactorsLinear
import Verif.Lemmas.Planar

/-!
# Linear velocity and coordinate transform factors: C55, C56
-/

namespace Factorama.Props
open Matrix Geo Spec Topology Filter

/-! ### C55 LinearVelocityFactor -/

theorem segment_of {n i : Nat} {l : List ℝ} {x : Fin n → ℝ} (hl : i + n ≤ l.length)
    (h : ∀ k : Fin n, l[i + (k : Nat)]? = some (x k)) : Fac.segmentOf l i n = .ok (toList x) := by
  rw [Fac.segmentOf, if_pos hl]
  congr 1
  apply List.ext_getElem?
  intro k
  by_cases hk : k < n
  · have := h ⟨k, hk⟩
    rw [List.getElem?_take_of_lt hk, List.getElem?_drop, this]
    simp [toList, hk]
  · rw [List.getElem?_eq_none (by simp; omega), List.getElem?_eq_none (by simp [toList]; omega)]

theorem toList_getElem? {n : Nat} (x : Fin n → ℝ) (k : Nat) (hk : k < n) : (toList x)[k]? = some (x ⟨k, hk⟩) := by
  simp [toList, hk]

theorem part_segment {n i : Nat} {v : RVar} {x : Fin n → ℝ} (h : HasPart v i x) :
    Fac.segmentOf (VarLike.value v) i n = .ok (toList x) := by
  cases h with
  | vector hv hi hx =>
    rw [(vector_value hv).1]
    exact segment_of (by simpa [toList] using hi) fun k => by
      rw [toList_getElem? _ _ (by omega), hx]
  | @pose v _ _ hi hx =>
    refine segment_of (l := toList v.pos ++ toList v.rot ++ v.extra) ?_ fun k => ?_
    · simp [toList]; omega
    · rw [List.append_assoc, List.getElem?_append_left (by simp [toList]; omega), toList_getElem? _ _ (by omega), hx]
  | @pose2d v _ _ hi hx =>
    have e : [v.pos 0, v.pos 1, v.theta] = toList v.pos ++ [v.theta] := by simp [toList, List.ofFn_succ]
    refine segment_of (l := [v.pos 0, v.pos 1, v.theta]) (by simp; omega) fun k => ?_
    rw [e, List.getElem?_append_left (by simp [toList]; omega), toList_getElem? _ _ (by omega), hx]

theorem part_fits {n i : Nat} {v : RVar} {x : Fin n → ℝ} (h : HasPart v i x) : i + n ≤ VarLike.size v := by
  cases h with
  | vector hv hi _ => rw [(vector_value hv).2]; exact hi
  | pose hi _ => exact le_trans hi (by show 3 ≤ 6; decide)
  | pose2d hi _ => exact le_trans hi (by show 2 ≤ 3; decide)

theorem part_motion {n i : Nat} {v : RVar} {x : Fin n → ℝ} (h : HasPart v i x) {incr : Increment} (hi : AnyIncrement incr) :
    ∃ γ : (Fin (VarLike.size v) → ℝ) → RVar, ∀ d, incr v (List.ofFn d) = .ok (γ d) ∧
      HasPart (γ d) i fun k : Fin n => x k + d ⟨i + k, by have := part_fits h; omega⟩ := by
  have hfit := part_fits h
  cases h with
  | @vector m v y _ _ hv him hx =>
    obtain ⟨γ, hγ⟩ := vector_motion hv hi
    have hm := (vector_value hv).2
    subst hm
    exact ⟨γ, fun d => ⟨(hγ d).1, .vector (hγ d).2 him fun k => by simp [hx]⟩⟩
  | @pose v _ _ hi3 hx =>
    obtain ⟨γ, hγ⟩ := pose_pos_motion v hi
    refine ⟨fun d => .pose (γ d), fun d => ⟨(hγ d).1, .pose hi3 fun k => ?_⟩⟩
    rw [(hγ d).2, Pi.add_apply, hx]
    have hk : i + (k : Nat) < 3 := by omega
    congr 1
    have : ∀ j : Fin 3, incPos d j = d ⟨j, by show (j : Nat) < 6; omega⟩ := by
      intro j; fin_cases j <;> rfl
    exact this ⟨i + k, hk⟩
  | @pose2d v _ _ hi2 hx =>
    refine ⟨fun d => .pose2d (moved2 v d), fun d => ⟨pose2d_motion v hi d, .pose2d hi2 fun k => ?_⟩⟩
    have hk : i + (k : Nat) < 2 := by omega
    have : ∀ j : Fin 2, (moved2 v d).pos j = v.pos j + d ⟨j, by show (j : Nat) < 3; omega⟩ := by
      intro j; fin_cases j <;> simp [moved2, incPlane] <;> rfl
    rw [this ⟨i + k, hk⟩, hx]

theorem vecSub_toList {n : Nat} (x y : Fin n → ℝ) : vecSub (toList x) (toList y) = .ok (toList (x - y)) := by
  rw [vecSub, if_pos (by rw [length_toList, length_toList])]
  congr 1
  apply List.ext_getElem
  · simp [toList]
  · intro i h1 h2; simp [toList]

theorem map_toList {n : Nat} (x : Fin n → ℝ) (f : ℝ → ℝ) : (toList x).map f = toList fun k => f (x k) := by
  apply List.ext_getElem
  · simp [toList]
  · intro i h1 h2; simp [toList]

theorem velocity_residual {n i : Nat} {h : Heap RVar} {v1 v2 vel : VRef} {x1 x2 u : Fin n → ℝ} (h1 : HasPart (h v1) i x1)
    (h2 : HasPart (h v2) i x2) (hu : IsVector (h vel) u) (id : Int) (dt sigma : ℝ) :
    (Fac.linearVelocity id v1 v2 vel n dt sigma i).computeResidual h =
      .ok (toList ((1 / sigma) • (x2 - x1 - dt • u))) := by
  simp only [Fac.linearVelocity, part_segment h1, part_segment h2, (vector_value hu).1, Res.andThen, vecSub_toList,
    map_toList, Res.map]
  congr 2
  funext k
  simp [mul_comm dt]

/-- **C55** The residual is `(x₂ - x₁ - dt · velocity) / sigma`, so it is zero exactly when the position difference equals
the velocity times `dt`. -/
theorem C55_zero {n i : Nat} (h : Heap RVar) (id : Int) (v1 v2 vel : VRef) (x1 x2 u : Fin n → ℝ) (dt sigma : ℝ)
    (h1 : HasPart (h v1) i x1) (h2 : HasPart (h v2) i x2) (hu : IsVector (h vel) u) (hs : sigma ≠ 0) :
    ResidualIs (Fac.linearVelocity id v1 v2 vel n dt sigma i) h ((1 / sigma) • (x2 - x1 - dt • u)) ∧
    (ZeroResidual (Fac.linearVelocity id v1 v2 vel n dt sigma i) h ↔ x2 - x1 = dt • u) := by
  have hr := velocity_residual h1 h2 hu id dt sigma
  refine ⟨hr, ?_⟩
  rw [ZeroResidual, hr, Res.ok.injEq]
  exact toList_eq_zero.trans ((smul_weight_eq_zero hs).trans sub_eq_zero)

/-- Two poses and a velocity of their positions. -/
example : ZeroResidual (Fac.linearVelocity 9 0 1 2 3 2 0.1 0) (fun r =>
    if r = 2 then .generic ⟨2, false, toList ![1, 2, 3]⟩ else if r = 1 then .pose (PoseVar.make 1 ![2, 4, 6] 0)
    else .pose (PoseVar.make 0 0 ![1, 0, 0])) := by
  refine (C55_zero (i := 0) _ 9 0 1 2 (0 : V3) ![2, 4, 6] ![1, 2, 3] 2 0.1 (.pose (by norm_num) fun k => ?_)
    (.pose (by norm_num) fun k => ?_) (.inl ⟨_, rfl, rfl⟩) (by norm_num)).2.mpr ?_
  · fin_cases k <;> rfl
  · fin_cases k <;> rfl
  · funext k; fin_cases k <;> norm_num

/-- A square matrix placed at column `i`. -/
def placed (n cols i : Nat) (w : ℝ) : Matrix (Fin n) (Fin cols) ℝ := Matrix.of fun a b => if (b : Nat) = i + a then w else 0

theorem placed_mulVec {n cols i : Nat} (hfit : i + n ≤ cols) (w : ℝ) (u : Fin cols → ℝ) (k : Fin n) :
    (placed n cols i w *ᵥ u) k = w * u ⟨i + k, by omega⟩ := by
  simp only [Matrix.mulVec, dotProduct, placed, Matrix.of_apply]
  rw [Finset.sum_eq_single ⟨i + k, by omega⟩]
  · simp
  · intro b _ hb
    rw [if_neg fun h => hb (Fin.ext h), zero_mul]
  · intro h; exact absurd (Finset.mem_univ _) h

theorem part_deriv {n cols i : Nat} (hfit : i + n ≤ cols) (w : ℝ) (c x : Fin n → ℝ) :
    HasVecDeriv (fun d : Fin cols → ℝ => c + w • (fun k : Fin n => x k + d ⟨i + k, by omega⟩))
      (fun u => placed n cols i w *ᵥ u) 0 := by
  intro k
  refine HasScalDeriv.congr (HasScalDeriv.add (HasScalDeriv.const (c k) 0) (HasScalDeriv.mul (HasScalDeriv.const w 0)
    (HasScalDeriv.add (HasScalDeriv.const (x k) 0) (HasScalDeriv.coord ⟨i + k, by omega⟩ 0)))) fun u => ?_
  show _ = (placed n cols i w *ᵥ u) k
  rw [placed_mulVec hfit]
  simp

/-- **C55** The Jacobian blocks are the derivatives of the residual. -/
theorem C55_jacobian {n i : Nat} (h : Heap RVar) (id : Int) (v1 v2 vel : VRef) (x1 x2 u : Fin n → ℝ) (dt sigma : ℝ)
    (h1 : HasPart (h v1) i x1) (h2 : HasPart (h v2) i x2) (hu : IsVector (h vel) u) (h12 : v1 ≠ v2) (h1u : v1 ≠ vel)
    (h2u : v2 ≠ vel) (incr : Increment) (hi : AnyIncrement incr) :
    JacobiansCorrect incr (Fac.linearVelocity id v1 v2 vel n dt sigma i) h := by
  intro old
  have seg : ∀ r c, i + n ≤ VarLike.size (h r) →
      (if VarLike.isConst (h r) then Res.ok Mat.empty else Fac.offsetDiag n (VarLike.size (h r)) i c) =
        .ok (if VarLike.isConst (h r) then Mat.empty else ⟨n, VarLike.size (h r), fun a b => if b = i + a then c else 0⟩) := by
    intro r c hf
    split
    · rfl
    · rw [Fac.offsetDiag, if_pos hf]
  have f1 := part_fits h1
  have f2 := part_fits h2
  refine ⟨_, by
    simp only [Fac.linearVelocity, seg v1 _ f1, seg v2 _ f2, Res.andThen]
    exact fillBlocks_ok rfl, ?_⟩
  have wrap : ∀ (r : VRef) (J : Mat ℝ), IsDerivative incr (Fac.linearVelocity id v1 v2 vel n dt sigma i) h r J →
      ∃ r', some r = some r' ∧ if VarLike.isConst (h r') then (if VarLike.isConst (h r) then Mat.empty else J) = Mat.empty
        else IsDerivative incr (Fac.linearVelocity id v1 v2 vel n dt sigma i) h r' (if VarLike.isConst (h r) then Mat.empty else J) := by
    intro r J hJ
    refine ⟨r, rfl, ?_⟩
    split
    · rfl
    · exact hJ
  refine .cons (wrap _ _ ?_) (.cons (wrap _ _ ?_) (.cons (wrap _ _ ?_) .nil))
  · obtain ⟨γ, hγ⟩ := part_motion h1 hi
    refine isDerivative_mat (A := placed n (VarLike.size (h v1)) i (-(1 / sigma))) rfl rfl (fun a b => rfl)
      (fun d => (1 / sigma) • (x2 - dt • u) + (-(1 / sigma)) • fun k : Fin n => x1 k + d ⟨i + k, by omega⟩)
      rfl rfl ?_ (Eventually.of_forall fun d => ?_) (part_deriv f1 _ _ _)
    · rw [velocity_residual h1 h2 hu]
      congr 2
      funext k
      simp
      ring
    · simp only [residualAfter, (hγ d).1]
      rw [velocity_residual (by rw [set_same]; exact (hγ d).2) (by rw [set_other _ _ h12.symm]; exact h2)
        (by rw [set_other _ _ h1u.symm]; exact hu)]
      congr 2
      funext k
      simp
      ring
  · obtain ⟨γ, hγ⟩ := part_motion h2 hi
    refine isDerivative_mat (A := placed n (VarLike.size (h v2)) i (1 / sigma)) rfl rfl (fun a b => rfl)
      (fun d => (1 / sigma) • (-x1 - dt • u) + (1 / sigma) • fun k : Fin n => x2 k + d ⟨i + k, by omega⟩)
      rfl rfl ?_ (Eventually.of_forall fun d => ?_) (part_deriv f2 _ _ _)
    · rw [velocity_residual h1 h2 hu]
      congr 2
      funext k
      simp
      ring
    · simp only [residualAfter, (hγ d).1]
      rw [velocity_residual (by rw [set_other _ _ h12]; exact h1) (by rw [set_same]; exact (hγ d).2)
        (by rw [set_other _ _ h2u.symm]; exact hu)]
      congr 2
      funext k
      simp
      ring
  · obtain ⟨γ, hγ⟩ := vector_motion hu hi
    refine isDerivative_mat (A := (-(1 / sigma) * dt) • (1 : Matrix (Fin n) (Fin n) ℝ)) rfl rfl
      (fun a b => by simp [Mat.diag, Matrix.one_apply, Fin.ext_iff])
      (fun d => (1 / sigma) • (x2 - x1 - dt • (u + d))) rfl (vector_value hu).2 ?_ (Eventually.of_forall fun d => ?_) ?_
    · rw [velocity_residual h1 h2 hu, add_zero]
    · simp only [residualAfter, (hγ d).1]
      exact velocity_residual (by rw [set_other _ _ h1u]; exact h1) (by rw [set_other _ _ h2u]; exact h2)
        (by rw [set_same]; exact (hγ d).2) _ _ _
    · refine HasVecDeriv.congr (HasVecDeriv.const_smul _ (HasVecDeriv.const_sub _ (HasVecDeriv.const_smul dt
        (HasVecDeriv.const_add u (HasVecDeriv.id 0))))) fun w => ?_
      rw [Matrix.smul_mulVec, Matrix.one_mulVec]
      module

/-- The second and third position coordinates of two poses. -/
example : JacobiansCorrect codeIncr (Fac.linearVelocity 9 0 1 2 2 0.5 0.1 1) (fun r =>
    if r = 2 then .generic ⟨2, false, toList ![1, 2]⟩ else if r = 1 then .pose (PoseVar.make 1 ![2, 4, 6] 0)
    else .pose (PoseVar.make 0 ![7, 8, 9] ![1, 0, 0])) := by
  refine C55_jacobian (i := 1) _ 9 0 1 2 ![8, 9] ![4, 6] ![1, 2] 0.5 0.1 (.pose (by norm_num) fun k => ?_)
    (.pose (by norm_num) fun k => ?_) (.inl ⟨_, rfl, rfl⟩) (by decide) (by decide) (by decide) _ .code
  · fin_cases k <;> rfl
  · fin_cases k <;> rfl

/-! ### C56 CoordinateTransformFactor -/

theorem transform_residual {h : Heap RVar} {rot org sc la lb : VRef} {v : RotationVar} {o a b : V3} {s : ℝ}
    (hv : TransformVars h rot org sc la lb v o s a b) (id : Int) (sigma : ℝ) :
    (Fac.coordinateTransform id rot org sc la lb sigma).computeResidual h =
      .ok (toList ((1 / sigma) • (a - (s • (v.dcm *ᵥ b) - o)))) := by
  obtain ⟨h1, ⟨g1, h2, e2⟩, ⟨g2, h3, e3⟩, ⟨l1, h4, e4⟩, ⟨l2, h5, e5⟩⟩ := hv
  simp only [Fac.coordinateTransform, h1, h2, h3, h4, h5, e2, e3, e4, e5, vec3_toList, Res.andThen, Res.map]
  simp [Matrix.smul_mulVec]

/-- **C56** The residual vanishes exactly when the landmarks satisfy the documented relation
`vec_A = scale_AB * dcm_AB * vec_B - B_origin_A`. -/
theorem C56_zero (h : Heap RVar) (id : Int) (rot org sc la lb : VRef) (v : RotationVar) (o a b : V3) (s sigma : ℝ)
    (hv : TransformVars h rot org sc la lb v o s a b) (hs : sigma ≠ 0) :
    ZeroResidual (Fac.coordinateTransform id rot org sc la lb sigma) h ↔ a = s • (v.dcm *ᵥ b) - o := by
  rw [ZeroResidual, transform_residual hv, Res.ok.injEq]
  exact toList_eq_zero.trans ((smul_weight_eq_zero hs).trans sub_eq_zero)

namespace C56
/-- Frames with the same axes, the second one starting at `o` and scaled by `s`; a landmark at `a` and `b`. -/
noncomputable def heap (o a b : V3) (s : ℝ) : Heap RVar := fun r =>
  match r with
  | 0 => .rotation (RotationVar.make 0 1)
  | 1 => .generic ⟨1, false, toList o⟩
  | 2 => .generic ⟨2, false, [s]⟩
  | 3 => .landmark (LandmarkVar.make 3 a)
  | _ => .landmark (LandmarkVar.make 4 b)

theorem vars (o a b : V3) (s : ℝ) : TransformVars (heap o a b s) 0 1 2 3 4 (RotationVar.make 0 1) o s a b :=
  ⟨rfl, ⟨_, rfl, rfl⟩, ⟨_, rfl, rfl⟩, ⟨_, rfl, rfl⟩, ⟨_, rfl, rfl⟩⟩
end C56

example : ZeroResidual (Fac.coordinateTransform 9 0 1 2 3 4 0.1) (C56.heap ![1, 2, 3] ![1, 2, 3] ![1, 2, 3] 2) := by
  rw [C56_zero _ 9 0 1 2 3 4 _ _ _ _ _ _ (C56.vars _ _ _ _) (by norm_num)]
  show _ = (2 : ℝ) • ((1 : M3) *ᵥ _) - _
  rw [Matrix.one_mulVec]
  module

/-- **C56** The documented relation contradicts the documentation of the parameter `B_origin_A`, "the origin of frame B in
A's coordinate frame": the point that is the origin of frame B, with the position `B_origin_A` in frame A, has a residual of
`2 * B_origin_A / sigma`. -/
theorem C56_origin_sign (id : Int) (o : V3) (s sigma : ℝ) :
    ResidualIs (Fac.coordinateTransform id 0 1 2 3 4 sigma) (C56.heap o o 0 s) ((2 / sigma) • o) := by
  rw [ResidualIs, transform_residual (C56.vars _ _ _ _)]
  show _ = Res.ok (toList _)
  congr 2
  rw [Matrix.mulVec_zero, smul_zero, zero_sub, sub_neg_eq_add]
  module

/-- **C56** The five Jacobian blocks are the derivatives of the residual, if the output vector is empty or has five elements.
(For other sizes see `C57_coordinate_transform_false`.) -/
theorem C56_jacobian_partial (h : Heap RVar) (id : Int) (rot org sc la lb : VRef) (v : RotationVar) (o a b : V3) (s sigma : ℝ)
    (hv : TransformVars h rot org sc la lb v o s a b) (hos : org ≠ sc) (hab : la ≠ lb) (incr : Increment) (hi : AnyIncrement incr)
    (old : List (Mat ℝ)) (hold : old.length = 0 ∨ old.length = 5) :
    ∃ Js, (Fac.coordinateTransform id rot org sc la lb sigma).computeJacobians h old = .ok Js ∧
      List.Forall₂ (fun v J => ∃ r, v = some r ∧ if VarLike.isConst (h r) then J = Mat.empty
        else IsDerivative incr (Fac.coordinateTransform id rot org sc la lb sigma) h r J)
      (Fac.coordinateTransform id rot org sc la lb sigma).variables Js := by
  have hv0 := hv
  have hres := fun {h' : Heap RVar} {v' o' a' b' s'} (hv' : TransformVars h' rot org sc la lb v' o' s' a' b') =>
    transform_residual hv' id sigma
  obtain ⟨h1, ⟨g1, h2, e2⟩, ⟨g2, h3, e3⟩, ⟨l1, h4, e4⟩, ⟨l2, h5, e5⟩⟩ := hv
  have n1 : rot ≠ org := by rintro rfl; rw [h1] at h2; cases h2
  have n2 : rot ≠ sc := by rintro rfl; rw [h1] at h3; cases h3
  have n3 : rot ≠ la := by rintro rfl; rw [h1] at h4; cases h4
  have n4 : rot ≠ lb := by rintro rfl; rw [h1] at h5; cases h5
  have n5 : org ≠ la := by rintro rfl; rw [h2] at h4; cases h4
  have n6 : org ≠ lb := by rintro rfl; rw [h2] at h5; cases h5
  have n7 : sc ≠ la := by rintro rfl; rw [h3] at h4; cases h4
  have n8 : sc ≠ lb := by rintro rfl; rw [h3] at h5; cases h5
  have hbuf : (Fac.coordBuffer old).length = 5 := by
    rcases hold with h | h <;> simp [Fac.coordBuffer, h]
  have hwrite : ∀ bs : List (Mat ℝ), bs.length = 5 →
      Fac.writeBlocks (Fac.coordBuffer old).length (Fac.coordBuffer old) bs = .ok bs := by
    intro bs hbs
    rw [Fac.writeBlocks, hbuf, if_pos hbs.le, hbs, ← hbuf, List.drop_length, List.append_nil]
  refine ⟨_, by
    simp only [Fac.coordinateTransform, h1, h2, h3, h4, h5, e3, e5, vec3_toList, Res.andThen]
    rw [if_neg (by simp)]
    exact hwrite _ rfl, ?_⟩
  rw [← h1, ← h2, ← h3, ← h4, ← h5]
  refine .cons (block_ok ?_) (.cons (block_ok ?_) (.cons (block_ok ?_) (.cons (block_ok ?_) (.cons (block_ok ?_) .nil))))
  · obtain ⟨γ, hγ, hm⟩ := rotation_motion v hi
    refine isDerivative_of (fun d => (1 / sigma) • (a - (s • ((γ d).dcm *ᵥ b) - o))) rfl (by rw [h1]; rfl) ?_
      (Eventually.of_forall fun d => ?_) ?_
    · rw [hres hv0, hm.start]
    · simp only [residualAfter, h1, hγ d]
      exact hres ⟨set_same _ _ _, ⟨g1, by rw [set_other _ _ n1.symm]; exact h2, e2⟩,
        ⟨g2, by rw [set_other _ _ n2.symm]; exact h3, e3⟩, ⟨l1, by rw [set_other _ _ n3.symm]; exact h4, e4⟩,
        ⟨l2, by rw [set_other _ _ n4.symm]; exact h5, e5⟩⟩
    · refine HasVecDeriv.congr (HasVecDeriv.const_smul _ (HasVecDeriv.const_sub _ (HasVecDeriv.sub_const
        (HasVecDeriv.const_smul s (HasMatDeriv.mulVec hm.deriv (HasVecDeriv.const b 0))) o))) fun u => ?_
      rw [Matrix.smul_mulVec, ← Matrix.mulVec_mulVec]
      simp only [Matrix.mulVec_zero, add_zero]
      generalize v.dcm *ᵥ b = c
      funext i
      fin_cases i <;> simp [skew, Matrix.mulVec, dotProduct, Fin.sum_univ_three] <;> ring
  · refine isDerivative_of (fun d => (1 / sigma) • (a - (s • (v.dcm *ᵥ b) - (o + d)))) rfl
      (by rw [h2]; show g1.value.length = 3; rw [e2, length_toList]) ?_ (Eventually.of_forall fun d => ?_) ?_
    · rw [hres hv0, add_zero]
    · simp only [residualAfter, h2, generic_motion e2 hi d]
      exact hres ⟨by rw [set_other _ _ n1]; exact h1, ⟨_, set_same _ _ _, rfl⟩,
        ⟨g2, by rw [set_other _ _ hos.symm]; exact h3, e3⟩, ⟨l1, by rw [set_other _ _ n5.symm]; exact h4, e4⟩,
        ⟨l2, by rw [set_other _ _ n6.symm]; exact h5, e5⟩⟩
    · refine HasVecDeriv.congr (HasVecDeriv.const_smul _ (HasVecDeriv.const_sub _ (HasVecDeriv.const_sub _
        (HasVecDeriv.const_add o (HasVecDeriv.id 0))))) fun u => ?_
      rw [Matrix.smul_mulVec, Matrix.one_mulVec, neg_neg]
  · have e3' : g2.value = toList ![s] := by rw [e3]; simp [toList]
    refine isDerivative_of (fun d => (1 / sigma) • (a - ((s + d 0) • (v.dcm *ᵥ b) - o))) rfl
      (by rw [h3]; show g2.value.length = 1; rw [e3]; rfl) ?_ (Eventually.of_forall fun d => ?_) ?_
    · rw [hres hv0, Pi.zero_apply, add_zero]
    · simp only [residualAfter, h3, generic_motion e3' hi d]
      exact hres ⟨by rw [set_other _ _ n2]; exact h1, ⟨g1, by rw [set_other _ _ hos]; exact h2, e2⟩,
        ⟨_, set_same _ _ _, by simp [toList]⟩, ⟨l1, by rw [set_other _ _ n7.symm]; exact h4, e4⟩,
        ⟨l2, by rw [set_other _ _ n8.symm]; exact h5, e5⟩⟩
    · refine HasVecDeriv.congr (HasVecDeriv.const_smul _ (HasVecDeriv.const_sub _ (HasVecDeriv.sub_const
        (HasVecDeriv.smul (HasScalDeriv.add (HasScalDeriv.const s 0) (HasScalDeriv.coord 0 0))
          (HasVecDeriv.const (v.dcm *ᵥ b) 0)) o))) fun u => ?_
      rw [Matrix.smul_mulVec]
      generalize v.dcm *ᵥ b = c
      funext i
      simp [Matrix.mulVec, dotProduct]
      ring
  · refine isDerivative_of (fun d => (1 / sigma) • ((a + d) - (s • (v.dcm *ᵥ b) - o))) rfl (by rw [h4]; rfl) ?_
      (Eventually.of_forall fun d => ?_) ?_
    · rw [hres hv0, add_zero]
    · simp only [residualAfter, h4, landmark_motion e4 hi d]
      exact hres ⟨by rw [set_other _ _ n3]; exact h1, ⟨g1, by rw [set_other _ _ n5]; exact h2, e2⟩,
        ⟨g2, by rw [set_other _ _ n7]; exact h3, e3⟩, ⟨_, set_same _ _ _, rfl⟩,
        ⟨l2, by rw [set_other _ _ hab.symm]; exact h5, e5⟩⟩
    · refine HasVecDeriv.congr (HasVecDeriv.const_smul _ (HasVecDeriv.sub_const
        (HasVecDeriv.const_add a (HasVecDeriv.id 0)) _)) fun u => ?_
      rw [Matrix.smul_mulVec, Matrix.one_mulVec]
  · refine isDerivative_of (fun d => (1 / sigma) • (a - (s • (v.dcm *ᵥ (b + d)) - o))) rfl (by rw [h5]; rfl) ?_
      (Eventually.of_forall fun d => ?_) ?_
    · rw [hres hv0, add_zero]
    · simp only [residualAfter, h5, landmark_motion e5 hi d]
      exact hres ⟨by rw [set_other _ _ n4]; exact h1, ⟨g1, by rw [set_other _ _ n6]; exact h2, e2⟩,
        ⟨g2, by rw [set_other _ _ n8]; exact h3, e3⟩, ⟨l1, by rw [set_other _ _ hab]; exact h4, e4⟩,
        ⟨_, set_same _ _ _, rfl⟩⟩
    · refine HasVecDeriv.congr (HasVecDeriv.const_smul _ (HasVecDeriv.const_sub _ (HasVecDeriv.sub_const
        (HasVecDeriv.const_smul s (HasVecDeriv.const_mulVec v.dcm (HasVecDeriv.const_add b (HasVecDeriv.id 0)))) o))) fun u => ?_
      show _ = ((-(1 / sigma) * s) • v.dcm) *ᵥ u
      rw [Matrix.smul_mulVec]
      module

example : ∃ Js, (Fac.coordinateTransform 9 0 1 2 3 4 0.1).computeJacobians (C56.heap ![1, 2, 3] ![4, 5, 6] ![7, 8, 9] 2) [] = .ok Js ∧
    List.Forall₂ (fun v J => ∃ r, v = some r ∧ if VarLike.isConst (C56.heap ![1, 2, 3] ![4, 5, 6] ![7, 8, 9] 2 r) then J = Mat.empty
      else IsDerivative codeIncr (Fac.coordinateTransform 9 0 1 2 3 4 0.1) (C56.heap ![1, 2, 3] ![4, 5, 6] ![7, 8, 9] 2) r J)
    (Fac.coordinateTransform 9 0 1 2 3 4 0.1).variables Js :=
  C56_jacobian_partial _ 9 0 1 2 3 4 _ _ _ _ _ _ (C56.vars _ _ _ _) (by decide) (by decide) _ .code [] (.inl rfl)

end Factorama.Props
