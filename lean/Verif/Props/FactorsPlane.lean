import Verif.Lemmas.Factors

/-!
# Plane factors: C53, C54
-/

namespace Factorama.Geo
open Matrix Spec Topology Filter

/-! ### Moving planes -/

/-- The part of a plane increment that concerns the normal. -/
def incNormal (d : Fin 4 → ℝ) : V3 := ![d 0, d 1, d 2]

theorem incNormal_zero : incNormal 0 = 0 := by funext i; fin_cases i <;> rfl

theorem incNormal_deriv (x : Fin 4 → ℝ) : HasVecDeriv incNormal incNormal x := by
  intro i
  fin_cases i
  · exact HasScalDeriv.coord 0 x
  · exact HasScalDeriv.coord 1 x
  · exact HasScalDeriv.coord 2 x

/-- The plane after an increment that does not cancel its normal. -/
noncomputable def movedPlane (v : PlaneVar) (d : Fin 4 → ℝ) : PlaneVar :=
  { v with normal := normalized (v.normal + incNormal d), dist := v.dist + d 3 }

theorem movedPlane_zero {v : PlaneVar} (hn : v.normal ⬝ᵥ v.normal = 1) :
    (movedPlane v 0).normal = v.normal ∧ (movedPlane v 0).dist = v.dist := by
  simp [movedPlane, incNormal_zero, normalized_of_unit hn]

theorem plane_motion {v : PlaneVar} (hn : v.normal ⬝ᵥ v.normal = 1) {incr : Increment} (hi : AnyIncrement incr) :
    ∀ᶠ d : Fin 4 → ℝ in 𝓝 0, incr (.plane v) (List.ofFn d) = .ok (.plane (movedPlane v d)) := by
  have hd := HasVecDeriv.const_add v.normal (incNormal_deriv 0)
  have hc : ContinuousAt (fun d : Fin 4 → ℝ => (v.normal + incNormal d) ⬝ᵥ (v.normal + incNormal d)) 0 :=
    HasScalDeriv.continuousAt (HasVecDeriv.dot hd hd)
  have h0 : (0 : ℝ) < (fun d : Fin 4 → ℝ => (v.normal + incNormal d) ⬝ᵥ (v.normal + incNormal d)) 0 := by
    simp only [incNormal_zero, add_zero, hn]; norm_num
  filter_upwards [hc.eventually_const_lt h0] with d hd
  have e1 : read3 (List.ofFn d) 0 = incNormal d := by
    funext i; fin_cases i <;> simp [read3, incNormal, List.ofFn_succ] <;> rfl
  have e2 : (List.ofFn d).getD 3 0 = d 3 := by simp [List.ofFn_succ]
  rw [incr_plane v _ hi, PlaneVar.applyIncr, if_neg (by simp), e1, if_pos hd, e2]
  rfl

theorem movedPlane_normal_deriv {v : PlaneVar} (hn : v.normal ⬝ᵥ v.normal = 1) :
    HasVecDeriv (fun d => (movedPlane v d).normal)
      (fun u => (1 - vecMulVec v.normal v.normal : M3) *ᵥ incNormal u) 0 := by
  have h1 : vnorm (v.normal + incNormal 0) = 1 := by rw [incNormal_zero, add_zero]; exact vnorm_unit hn
  refine HasVecDeriv.congr (HasVecDeriv.normalized (HasVecDeriv.const_add v.normal (incNormal_deriv 0))
    (by rw [h1]; exact one_ne_zero)) fun u => ?_
  rw [h1, incNormal_zero, add_zero]
  have : vdiv v.normal 1 = v.normal := by funext i; simp [vdiv]
  rw [this]
  simp

theorem movedPlane_dist_deriv (v : PlaneVar) : HasScalDeriv (fun d => (movedPlane v d).dist) (fun u => u 3) 0 :=
  HasScalDeriv.congr (HasScalDeriv.add (HasScalDeriv.const v.dist 0) (HasScalDeriv.coord 3 0)) fun u => by simp

end Factorama.Geo

namespace Factorama.Props
open Matrix Geo Spec Topology Filter

/-! ### C53 PlaneFactor -/


theorem plane_residual {h : Heap RVar} {p l : VRef} {v : PlaneVar} {x : V3} (hl : h l = .plane v)
    (hp : IsVector (h p) x) (id : Int) (sigma : ℝ) :
    (Fac.planeFactor id p l sigma none).computeResidual h = .ok (toList ![(1 / sigma) * (v.normal ⬝ᵥ x + v.dist)]) := by
  simp only [Fac.planeFactor, hl, (vector_value hp).1, vec3_toList, Res.map, PlaneVar.distanceFromPoint]
  simp [toList]

theorem plane_scaled_residual {h : Heap RVar} {p l : VRef} {v : PlaneVar} {x : V3} (hl : h l = .plane v)
    (hp : IsVector (h p) x) (id : Int) (sigma r0 : ℝ) (p0 : V3) :
    (Fac.planeFactor id p l sigma (some (r0, p0))).computeResidual h =
      .ok (toList ![(1 / sigma) * ((v.normal ⬝ᵥ x - v.dist) / (1 + vnorm (x - p0) / r0))]) := by
  simp only [Fac.planeFactor, hl, (vector_value hp).1, vec3_toList, Res.map]
  simp [toList]

theorem plane_ne_vector {n : Nat} {h : Heap RVar} {p l : VRef} {v : PlaneVar} {x : Fin n → ℝ} (hl : h l = .plane v)
    (hp : IsVector (h p) x) : p ≠ l := by
  rintro rfl
  rw [hl] at hp
  rcases hp with ⟨_, h1, _⟩ | ⟨_, _, h1, _⟩ <;> cases h1

/-- **C53** Without distance scaling the residual is the signed distance of the point from the plane over sigma, and is
zero exactly when the point lies on the plane. Missing from the full property: distance scaling, see `C53_scaled_false`. -/
theorem C53_zero_partial (h : Heap RVar) (id : Int) (p l : VRef) (v : PlaneVar) (x : V3) (sigma : ℝ)
    (hl : h l = .plane v) (hp : IsVector (h p) x) (hs : sigma ≠ 0) :
    ResidualIs (Fac.planeFactor id p l sigma none) h ![(1 / sigma) * v.distanceFromPoint x] ∧
    (ZeroResidual (Fac.planeFactor id p l sigma none) h ↔ v.distanceFromPoint x = 0) := by
  have h1 := plane_residual hl hp id sigma
  refine ⟨h1, ?_⟩
  rw [ZeroResidual, h1, Res.ok.injEq]
  refine toList_eq_zero.trans ⟨fun h => ?_, fun h => ?_⟩
  · have := congrFun h 0
    simpa [hs, PlaneVar.distanceFromPoint] using this
  · funext i
    fin_cases i
    simp only [PlaneVar.distanceFromPoint] at h
    simp [h]

/-- A point of the plane `z = 2`. -/
example : ZeroResidual (Fac.planeFactor 9 0 1 0.1 none)
    (fun r => if r = 1 then .plane ⟨1, false, ![0, 0, 1], -2⟩ else .landmark (LandmarkVar.make 0 ![5, 6, 2])) :=
  (C53_zero_partial _ 9 0 1 ⟨1, false, ![0, 0, 1], -2⟩ ![5, 6, 2] 0.1 rfl (.inr ⟨rfl, _, rfl, rfl⟩) (by norm_num)).2.mpr
    (by rw [PlaneVar.distanceFromPoint, dot3]; simp)

/-- **C53** With distance scaling the residual is zero exactly on the plane mirrored at the origin: the code subtracts the
offset that `distance_from_point` adds. -/
theorem C53_scaled_zero (h : Heap RVar) (id : Int) (p l : VRef) (v : PlaneVar) (x : V3) (sigma r0 : ℝ) (p0 : V3)
    (hl : h l = .plane v) (hp : IsVector (h p) x) (hs : sigma ≠ 0) (hr0 : 0 < r0) :
    ZeroResidual (Fac.planeFactor id p l sigma (some (r0, p0))) h ↔ v.distanceFromPoint (-x) = 0 := by
  rw [ZeroResidual, plane_scaled_residual hl hp, Res.ok.injEq]
  have hsc : 1 + vnorm (x - p0) / r0 ≠ 0 := by
    have : 0 ≤ vnorm (x - p0) := Real.sqrt_nonneg _
    positivity
  have e : v.distanceFromPoint (-x) = 0 ↔ v.normal ⬝ᵥ x - v.dist = 0 := by
    rw [PlaneVar.distanceFromPoint, dotProduct_neg]
    constructor <;> intro h <;> linarith
  rw [e]
  refine toList_eq_zero.trans ⟨fun h => ?_, fun h => ?_⟩
  · have := congrFun h 0
    simpa [hs, hsc] using this
  · funext i
    fin_cases i
    simp [h]

/-- A point of the plane `z = 2` mirrored at the origin. -/
example : ZeroResidual (Fac.planeFactor 9 0 1 0.1 (some (1, 0)))
    (fun r => if r = 1 then .plane ⟨1, false, ![0, 0, 1], -2⟩ else .landmark (LandmarkVar.make 0 ![5, 6, -2])) :=
  (C53_scaled_zero _ 9 0 1 ⟨1, false, ![0, 0, 1], -2⟩ ![5, 6, -2] 0.1 1 0 rfl (.inr ⟨rfl, _, rfl, rfl⟩) (by norm_num)
    one_pos).mpr (by rw [PlaneVar.distanceFromPoint, dot3]; simp)

namespace C53
/-- The plane `z = 2` and a point on it. -/
noncomputable def onPlane : Heap RVar := fun r =>
  if r = 1 then .plane ⟨1, false, ![0, 0, 1], -2⟩ else .landmark (LandmarkVar.make 0 ![0, 0, 2])
end C53

/-- **C53** is false of the code with distance scaling: a point on the plane, at distance zero from it according to the
plane variable and to the unscaled factor, has residual `4 / sigma` at the scaling centre. -/
theorem C53_scaled_false :
    (∃ v, C53.onPlane 1 = .plane v ∧ PlaneReachable v ∧ v.distanceFromPoint ![0, 0, 2] = 0) ∧
    IsVector (C53.onPlane 0) (![0, 0, 2] : V3) ∧
    ZeroResidual (Fac.planeFactor 9 0 1 1 none) C53.onPlane ∧
    ¬ ZeroResidual (Fac.planeFactor 9 0 1 1 (some (1, 0))) C53.onPlane := by
  have hu : (![0, 0, 1] : V3) ⬝ᵥ ![0, 0, 1] = 1 := by rw [dot3]; simp
  have hd : (⟨1, false, ![0, 0, 1], -2⟩ : PlaneVar).distanceFromPoint ![0, 0, 2] = 0 := by
    rw [PlaneVar.distanceFromPoint, dot3]; simp
  have hv : IsVector (C53.onPlane 0) (![0, 0, 2] : V3) := .inr ⟨rfl, _, rfl, rfl⟩
  refine ⟨⟨_, rfl, ?_, hd⟩, hv, ?_, ?_⟩
  · refine .make 1 ![0, 0, 1] (-2) ?_
    rw [PlaneVar.make, if_pos (by rw [hu]; exact one_pos), normalized_of_unit hu]
  · exact (C53_zero_partial C53.onPlane 9 0 1 ⟨1, false, ![0, 0, 1], -2⟩ ![0, 0, 2] 1 rfl hv one_ne_zero).2.mpr hd
  · rw [C53_scaled_zero C53.onPlane 9 0 1 ⟨1, false, ![0, 0, 1], -2⟩ ![0, 0, 2] 1 1 0 rfl hv one_ne_zero one_pos,
      PlaneVar.distanceFromPoint, dot3]
    simp

/-- **C53** Without distance scaling the Jacobian blocks are the derivatives of the residual. -/
theorem C53_jacobian (h : Heap RVar) (id : Int) (p l : VRef) (v : PlaneVar) (x : V3) (sigma : ℝ)
    (hl : h l = .plane v) (hn : v.normal ⬝ᵥ v.normal = 1) (hp : IsVector (h p) x)
    (incr : Increment) (hi : AnyIncrement incr) :
    JacobiansCorrect incr (Fac.planeFactor id p l sigma none) h := by
  have hne := plane_ne_vector hl hp
  intro old
  refine ⟨_, by
    simp only [Fac.planeFactor, hl, (vector_value hp).1, vec3_toList, Res.andThen]
    exact fillBlocks_ok rfl, ?_⟩
  rw [← hl]
  refine .cons (block_ok ?_) (.cons (block_ok ?_) .nil)
  · obtain ⟨γ, hγ⟩ := vector_motion hp hi
    refine isDerivative_of (fun d => ![(1 / sigma) * (v.normal ⬝ᵥ (x + d) + v.dist)]) rfl (vector_value hp).2 ?_
      (Eventually.of_forall fun d => ?_) ?_
    · rw [plane_residual hl hp]; simp
    · simp only [residualAfter, (hγ d).1]
      exact plane_residual (by rw [set_other _ _ hne.symm]; exact hl) (by rw [set_same]; exact (hγ d).2) _ _
    · intro i
      fin_cases i
      have hd := HasVecDeriv.dot (HasVecDeriv.const v.normal (0 : V3)) (HasVecDeriv.const_add x (HasVecDeriv.id 0))
      refine HasScalDeriv.congr (HasScalDeriv.mul (HasScalDeriv.const (1 / sigma) 0)
        (HasScalDeriv.add hd (HasScalDeriv.const v.dist 0))) fun u => ?_
      simp [Matrix.mulVec, dotProduct, Fin.sum_univ_three]
      ring
  · refine isDerivative_of (fun d => ![(1 / sigma) * ((movedPlane v d).normal ⬝ᵥ x + (movedPlane v d).dist)]) rfl
      (by rw [hl]; rfl) ?_ ?_ ?_
    · rw [plane_residual hl hp, (movedPlane_zero hn).1, (movedPlane_zero hn).2]
    · filter_upwards [plane_motion hn hi] with d hd
      simp only [residualAfter, hl, hd]
      exact plane_residual (set_same _ _ _) (by rw [set_other _ _ hne]; exact hp) _ _
    · intro i
      fin_cases i
      have hd := HasVecDeriv.dot (movedPlane_normal_deriv hn) (HasVecDeriv.const x (0 : Fin 4 → ℝ))
      refine HasScalDeriv.congr (HasScalDeriv.mul (HasScalDeriv.const (1 / sigma) 0)
        (HasScalDeriv.add hd (movedPlane_dist_deriv v))) fun u => ?_
      simp [Matrix.mulVec, dotProduct, Fin.sum_univ_three, Fin.sum_univ_four, incNormal, Matrix.sub_apply, vecMulVec_apply,
        Matrix.one_apply]
      ring

/-- The plane `z = 2` and a point off it. -/
example : JacobiansCorrect codeIncr (Fac.planeFactor 9 0 1 0.1 none)
    (fun r => if r = 1 then .plane ⟨1, false, ![0, 0, 1], -2⟩ else .landmark (LandmarkVar.make 0 ![5, 6, 7])) :=
  C53_jacobian _ 9 0 1 ⟨1, false, ![0, 0, 1], -2⟩ ![5, 6, 7] 0.1 rfl (by rw [dot3]; simp) (.inr ⟨rfl, _, rfl, rfl⟩) _ .code

/-- **C53** With distance scaling too the Jacobian blocks are the derivatives of the residual, for points more than 1e-12
from the scaling centre. -/
theorem C53_scaled_jacobian (h : Heap RVar) (id : Int) (p l : VRef) (v : PlaneVar) (x : V3) (sigma r0 : ℝ) (p0 : V3)
    (hl : h l = .plane v) (hn : v.normal ⬝ᵥ v.normal = 1) (hp : IsVector (h p) x) (hr0 : 0 < r0)
    (hr : 1e-12 < length (x - p0)) (incr : Increment) (hi : AnyIncrement incr) :
    JacobiansCorrect incr (Fac.planeFactor id p l sigma (some (r0, p0))) h := by
  have hne := plane_ne_vector hl hp
  rw [length_eq] at hr
  have hrne : vnorm (x - p0) ≠ 0 := by
    have : (0 : ℝ) < 1e-12 := by norm_num
    linarith
  have hrpos : 0 < vnorm (x - p0) := lt_trans (by norm_num) hr
  have hsc : 1 + vnorm (x - p0) / r0 ≠ 0 := by positivity
  intro old
  refine ⟨_, by
    simp only [Fac.planeFactor, hl, (vector_value hp).1, vec3_toList, Res.andThen]
    exact fillBlocks_ok rfl, ?_⟩
  rw [← hl]
  refine .cons (block_ok ?_) (.cons (block_ok ?_) .nil)
  · obtain ⟨γ, hγ⟩ := vector_motion hp hi
    refine isDerivative_of (fun d => ![(1 / sigma) * ((v.normal ⬝ᵥ (x + d) - v.dist) * (1 + (1 / r0) * vnorm (x + d - p0))⁻¹)])
      rfl (vector_value hp).2 ?_ (Eventually.of_forall fun d => ?_) ?_
    · rw [plane_scaled_residual hl hp]; simp [div_eq_mul_inv, mul_comm]
    · simp only [residualAfter, (hγ d).1]
      rw [plane_scaled_residual (by rw [set_other _ _ hne.symm]; exact hl) (by rw [set_same]; exact (hγ d).2)]
      simp [div_eq_mul_inv, mul_comm]
    · intro i
      fin_cases i
      have hx := HasVecDeriv.const_add x (HasVecDeriv.id (0 : V3))
      have hd := HasVecDeriv.dot (HasVecDeriv.const v.normal (0 : V3)) hx
      have hnorm := HasVecDeriv.vnorm (HasVecDeriv.sub_const hx p0) (by simpa using hrne)
      have hscale := HasScalDeriv.add (HasScalDeriv.const (1 : ℝ) (0 : V3))
        (HasScalDeriv.mul (HasScalDeriv.const (1 / r0) 0) hnorm)
      have hinv := HasScalDeriv.comp (f := fun d : V3 => 1 + (1 / r0) * vnorm (x + d - p0)) (φ := fun t => t⁻¹)
        (hasDerivAt_inv (by simpa [div_eq_mul_inv, mul_comm] using hsc)) hscale
      refine HasScalDeriv.congr (HasScalDeriv.mul (HasScalDeriv.const (1 / sigma) 0)
        (HasScalDeriv.mul (HasScalDeriv.sub hd (HasScalDeriv.const v.dist 0)) hinv)) fun u => ?_
      have hsc' : r0 + vnorm (x - p0) ≠ 0 := by positivity
      have e : 1 + 1 / r0 * vnorm (x - p0) = 1 + vnorm (x - p0) / r0 := by ring
      rw [if_pos hr]
      simp only [add_zero, e]
      generalize vnorm (x - p0) = r at *
      simp [Matrix.mulVec, dotProduct, Fin.sum_univ_three, vdiv]
      have hr0' : r0 ≠ 0 := hr0.ne'
      generalize sigma⁻¹ = w
      field_simp
      ring
  · refine isDerivative_of (fun d => ![(1 / sigma) * (((movedPlane v d).normal ⬝ᵥ x - (movedPlane v d).dist) *
        (1 + vnorm (x - p0) / r0)⁻¹)]) rfl (by rw [hl]; rfl) ?_ ?_ ?_
    · rw [plane_scaled_residual hl hp, (movedPlane_zero hn).1, (movedPlane_zero hn).2, ← div_eq_mul_inv]
    · filter_upwards [plane_motion hn hi] with d hd
      simp only [residualAfter, hl, hd, ← div_eq_mul_inv]
      exact plane_scaled_residual (set_same _ _ _) (by rw [set_other _ _ hne]; exact hp) _ _ _ _
    · intro i
      fin_cases i
      have hd := HasVecDeriv.dot (movedPlane_normal_deriv hn) (HasVecDeriv.const x (0 : Fin 4 → ℝ))
      refine HasScalDeriv.congr (HasScalDeriv.mul (HasScalDeriv.const (1 / sigma) 0)
        (HasScalDeriv.mul (HasScalDeriv.sub hd (movedPlane_dist_deriv v)) (HasScalDeriv.const _ 0))) fun u => ?_
      generalize 1 + vnorm (x - p0) / r0 = s at *
      simp [Matrix.mulVec, dotProduct, Fin.sum_univ_three, Fin.sum_univ_four, incNormal, Matrix.sub_apply, vecMulVec_apply,
        Matrix.one_apply]
      generalize sigma⁻¹ = w
      field_simp
      ring

/-- The plane `z = 2` and a point off it, scaled around the origin. -/
example : JacobiansCorrect codeIncr (Fac.planeFactor 9 0 1 0.1 (some (2, 0)))
    (fun r => if r = 1 then .plane ⟨1, false, ![0, 0, 1], -2⟩ else .landmark (LandmarkVar.make 0 ![1, 0, 0])) :=
  C53_scaled_jacobian _ 9 0 1 ⟨1, false, ![0, 0, 1], -2⟩ ![1, 0, 0] 0.1 2 0 rfl (by rw [dot3]; simp) (.inr ⟨rfl, _, rfl, rfl⟩)
    two_pos (by rw [length_eq, sub_zero, vnorm_unit (by simp)]; norm_num) _ .code

/-! ### C54 PlanePriorFactor -/

theorem toList_four (a : V3) (b : ℝ) : toList a ++ [b] = toList ![a 0, a 1, a 2, b] := by
  simp [toList, List.ofFn_succ]

theorem plane_prior_residual {h : Heap RVar} {l : VRef} {v : PlaneVar} (hl : h l = .plane v) (hn : v.normal ⬝ᵥ v.normal = 1)
    (id : Int) (n0 : V3) (d0 ns ds : ℝ) :
    (Fac.planePrior id l n0 d0 ns ds).computeResidual h =
      .ok (toList ![(1 / ns) * ((v.normal ⬝ᵥ normalized n0) * v.normal 0 - normalized n0 0),
        (1 / ns) * ((v.normal ⬝ᵥ normalized n0) * v.normal 1 - normalized n0 1),
        (1 / ns) * ((v.normal ⬝ᵥ normalized n0) * v.normal 2 - normalized n0 2),
        (1 / ds) * (v.dist - d0)]) := by
  simp only [Fac.planePrior, hl, toList_four]
  generalize normalized n0 = m at *
  rw [dot3] at *
  congr 2
  funext i
  fin_cases i <;>
    simp [Matrix.mulVec, dotProduct, Fin.sum_univ_three, Matrix.sub_apply, vecMulVec_apply, Matrix.one_apply] <;>
    generalize ns⁻¹ = w <;> grind

/-- The normal part of the residual of a plane prior vanishes exactly at the prior normal and at its opposite. -/
theorem plane_prior_zero {h : Heap RVar} {l : VRef} {v : PlaneVar} {id : Int} {n0 : V3} {d0 ns ds : ℝ}
    (hl : h l = .plane v) (hn : v.normal ⬝ᵥ v.normal = 1) (h0 : n0 ≠ 0) (hns : ns ≠ 0) (hds : ds ≠ 0) :
    ZeroResidual (Fac.planePrior id l n0 d0 ns ds) h ↔
      (v.normal = normalized n0 ∨ v.normal = -normalized n0) ∧ v.dist = d0 := by
  rw [ZeroResidual, plane_prior_residual hl hn, Res.ok.injEq]
  have hm := normalized_unit h0
  generalize normalized n0 = m at *
  refine toList_eq_zero.trans ⟨fun h => ?_, ?_⟩
  · have e0 := congrFun h 0
    have e1 := congrFun h 1
    have e2 := congrFun h 2
    have e3 := congrFun h 3
    simp [hns, hds] at e0 e1 e2 e3
    refine ⟨?_, sub_eq_zero.mp e3⟩
    have hc : (v.normal ⬝ᵥ m) • v.normal = m := by
      funext i; fin_cases i
      · exact sub_eq_zero.mp e0
      · exact sub_eq_zero.mp e1
      · exact sub_eq_zero.mp e2
    have hsq : (v.normal ⬝ᵥ m) ^ 2 = 1 := by
      rw [← hm]
      conv_rhs => rw [← hc]
      simp [hn]
      ring
    rcases sq_eq_one_iff.mp hsq with h1 | h1
    · left; rw [h1, one_smul] at hc; exact hc
    · right; rw [h1] at hc; rw [← hc]; simp
  · rintro ⟨h1 | h1, h2⟩
    · rw [h2, h1, hm]
      funext i; fin_cases i <;> simp
    · rw [h2, h1]
      simp only [neg_dotProduct, hm]
      funext i; fin_cases i <;> simp

/-- **C54** At the prior plane the residual is zero, and a zero residual means that the plane is the prior plane or has the
opposite unit normal. Missing from the full property: the opposite normal should not give zero, see `C54_false`. -/
theorem C54_zero_partial (h : Heap RVar) (id : Int) (l : VRef) (v : PlaneVar) (n0 : V3) (d0 ns ds : ℝ)
    (hl : h l = .plane v) (hn : v.normal ⬝ᵥ v.normal = 1) (h0 : n0 ≠ 0) (hns : ns ≠ 0) (hds : ds ≠ 0)
    (hside : 0 ≤ v.normal ⬝ᵥ n0) :
    ZeroResidual (Fac.planePrior id l n0 d0 ns ds) h ↔ v.normal = normalized n0 ∧ v.dist = d0 := by
  rw [plane_prior_zero hl hn h0 hns hds]
  refine and_congr_left fun _ => ⟨fun h => h.resolve_right fun h1 => ?_, .inl⟩
  have hpos : 0 < n0 ⬝ᵥ n0 := by
    have : vnorm n0 ≠ 0 := fun h => h0 (vnorm_eq_zero.mp h)
    rw [← vnorm_sq]; positivity
  rw [h1, normalized, if_pos hpos, vdiv_eq_smul, neg_dotProduct, smul_dotProduct, smul_eq_mul] at hside
  have : 0 < (√(n0 ⬝ᵥ n0))⁻¹ * (n0 ⬝ᵥ n0) := by positivity
  linarith

/-- The plane `z = 2`, with an unnormalised prior. -/
example : ZeroResidual (Fac.planePrior 9 0 ![0, 0, 1] (-2) 0.1 0.2) (fun _ => .plane ⟨0, false, ![0, 0, 1], -2⟩) := by
  have hu : (![0, 0, 1] : V3) ⬝ᵥ ![0, 0, 1] = 1 := by rw [dot3]; simp
  exact (C54_zero_partial _ 9 0 ⟨0, false, ![0, 0, 1], -2⟩ ![0, 0, 1] (-2) 0.1 0.2 rfl hu
    (by intro h; have := congrFun h 2; simp at this) (by norm_num) (by norm_num) (by rw [hu]; norm_num)).mpr
    ⟨by rw [normalized_of_unit hu], rfl⟩

/-- **C54** is false of the code: for every prior, the plane with the opposite normal and the prior distance (a different
plane unless the distance is zero) has zero residual. -/
theorem C54_false (id : Int) (n0 : V3) (d0 ns ds : ℝ) (h0 : n0 ≠ 0) (hns : ns ≠ 0) (hds : ds ≠ 0) :
    ∃ v, PlaneReachable v ∧ v.normal ≠ normalized n0 ∧ ZeroResidual (Fac.planePrior id 0 n0 d0 ns ds) (fun _ => .plane v) := by
  have hm := normalized_unit h0
  have hu : (-normalized n0) ⬝ᵥ (-normalized n0) = 1 := by rw [neg_dotProduct_neg, hm]
  refine ⟨⟨0, false, -normalized n0, d0⟩, ?_, ?_, ?_⟩
  · refine .make 0 (-normalized n0) d0 ?_
    rw [PlaneVar.make, if_pos (by rw [hu]; exact one_pos), normalized_of_unit hu]
  · intro h
    have : normalized n0 = 0 := by
      have h2 : (2 : ℝ) • normalized n0 = 0 := by
        rw [two_smul]; nth_rewrite 1 [← h]; simp
      exact (smul_eq_zero.mp h2).resolve_left two_ne_zero
    rw [this] at hm
    simp at hm
  · exact (plane_prior_zero rfl hu h0 hns hds).mpr ⟨.inr rfl, rfl⟩

/-- The witness for the prior plane `z = 2` is not that plane. -/
example : ∃ v, PlaneReachable v ∧ v.normal ≠ normalized ![0, 0, 2] ∧
    ZeroResidual (Fac.planePrior 9 0 ![0, 0, 2] (-2) 0.1 0.2) (fun _ => .plane v) :=
  C54_false 9 ![0, 0, 2] (-2) 0.1 0.2 (by intro h; have := congrFun h 2; simp at this) (by norm_num) (by norm_num)

/-- **C54** The Jacobian is the derivative of the residual under the plane increment. -/
theorem C54_jacobian (h : Heap RVar) (id : Int) (l : VRef) (v : PlaneVar) (n0 : V3) (d0 ns ds : ℝ)
    (hl : h l = .plane v) (hn : v.normal ⬝ᵥ v.normal = 1) (incr : Increment) (hi : AnyIncrement incr) :
    JacobiansCorrect incr (Fac.planePrior id l n0 d0 ns ds) h := by
  have hunit : ∀ᶠ d : Fin 4 → ℝ in 𝓝 0, (movedPlane v d).normal ⬝ᵥ (movedPlane v d).normal = 1 := by
    have hd := HasVecDeriv.const_add v.normal (incNormal_deriv 0)
    have hc : ContinuousAt (fun d : Fin 4 → ℝ => (v.normal + incNormal d) ⬝ᵥ (v.normal + incNormal d)) 0 :=
      HasScalDeriv.continuousAt (HasVecDeriv.dot hd hd)
    have h0 : (0 : ℝ) < (fun d : Fin 4 → ℝ => (v.normal + incNormal d) ⬝ᵥ (v.normal + incNormal d)) 0 := by
      simp only [incNormal_zero, add_zero, hn]; norm_num
    filter_upwards [hc.eventually_const_lt h0] with d hd
    exact normalized_unit (ne_zero_of_pos hd)
  intro old
  refine ⟨_, by
    simp only [Fac.planePrior, hl]
    exact fillBlocks_ok rfl, ?_⟩
  rw [← hl]
  refine .cons (block_ok ?_) .nil
  generalize hm : normalized n0 = m
  refine isDerivative_of (fun d => ![(1 / ns) * (((movedPlane v d).normal ⬝ᵥ m) * (movedPlane v d).normal 0 - m 0),
        (1 / ns) * (((movedPlane v d).normal ⬝ᵥ m) * (movedPlane v d).normal 1 - m 1),
        (1 / ns) * (((movedPlane v d).normal ⬝ᵥ m) * (movedPlane v d).normal 2 - m 2),
        (1 / ds) * ((movedPlane v d).dist - d0)]) rfl (by rw [hl]; rfl) ?_ ?_ ?_
  · rw [plane_prior_residual hl hn, (movedPlane_zero hn).1, (movedPlane_zero hn).2, hm]
  · filter_upwards [plane_motion hn hi, hunit] with d hd hu
    simp only [residualAfter, hl, hd]
    rw [plane_prior_residual (set_same _ _ _) hu, hm]
  · have hN := movedPlane_normal_deriv hn
    have hdot := HasVecDeriv.dot hN (HasVecDeriv.const m (0 : Fin 4 → ℝ))
    have key : ∀ i : Fin 3, HasScalDeriv
        (fun d => (1 / ns) * (((movedPlane v d).normal ⬝ᵥ m) * (movedPlane v d).normal i - m i)) _ 0 := fun i =>
      HasScalDeriv.mul (HasScalDeriv.const (1 / ns) 0) (HasScalDeriv.sub (HasScalDeriv.mul hdot (hN i))
        (HasScalDeriv.const (m i) 0))
    rw [(movedPlane_zero hn).1] at key
    rw [dot3] at hn
    intro i
    fin_cases i
    · refine HasScalDeriv.congr (key 0) fun u => ?_
      simp [Matrix.mulVec, dotProduct, Fin.sum_univ_three, Fin.sum_univ_four, incNormal, Matrix.sub_apply, vecMulVec_apply,
        Matrix.one_apply]
      grind
    · refine HasScalDeriv.congr (key 1) fun u => ?_
      simp [Matrix.mulVec, dotProduct, Fin.sum_univ_three, Fin.sum_univ_four, incNormal, Matrix.sub_apply, vecMulVec_apply,
        Matrix.one_apply]
      grind
    · refine HasScalDeriv.congr (key 2) fun u => ?_
      simp [Matrix.mulVec, dotProduct, Fin.sum_univ_three, Fin.sum_univ_four, incNormal, Matrix.sub_apply, vecMulVec_apply,
        Matrix.one_apply]
      grind
    · refine HasScalDeriv.congr (HasScalDeriv.mul (HasScalDeriv.const (1 / ds) 0) (HasScalDeriv.sub (movedPlane_dist_deriv v)
        (HasScalDeriv.const d0 0))) fun u => ?_
      simp [Matrix.mulVec, dotProduct, Fin.sum_univ_four]

/-- The plane `z = 2` with another prior. -/
example : JacobiansCorrect codeIncr (Fac.planePrior 9 0 ![1, 2, 2] 4 0.1 0.2) (fun _ => .plane ⟨0, false, ![0, 0, 1], -2⟩) :=
  C54_jacobian _ 9 0 ⟨0, false, ![0, 0, 1], -2⟩ ![1, 2, 2] 4 0.1 0.2 rfl (by rw [dot3]; simp) _ .code

end Factorama.Props
