import Verif.Model.Kernels
import Verif.Model.History
import Verif.Lemmas.Factors

/-!
# Robust kernels: C58, C59, C65
-/

namespace Factorama.Props
open Matrix Geo Spec Topology Filter

/-! ### C58 The Huber kernel -/

/-- C58: residuals with norm at most `delta` are not changed. -/
theorem C58_small {n : Nat} (delta : ℝ) (r : Fin n → ℝ) (h : length r ≤ delta) : (huberKernel delta).onResidual r = r :=
  if_pos (length_eq r ▸ h)

/-- C58: a larger residual keeps its direction and gets the norm `√(delta * norm)`. -/
theorem C58_large {n : Nat} (delta : ℝ) (r : Fin n → ℝ) (h0 : 0 < delta) (h : delta < length r) :
    (∃ c : ℝ, 0 < c ∧ c < 1 ∧ (huberKernel delta).onResidual r = c • r) ∧
      length ((huberKernel delta).onResidual r) = √(delta * length r) := by
  have hn : 0 < length r := h0.trans h
  have e : (huberKernel delta).onResidual r = √(delta / length r) • r := by
    rw [length_eq]; exact if_neg (not_le.2 (length_eq r ▸ h))
  refine ⟨⟨√(delta / length r), Real.sqrt_pos.2 (by positivity), ?_, e⟩, ?_⟩
  · rw [Real.sqrt_lt' one_pos, one_pow, div_lt_one hn]
    exact h
  · rw [e, show length (√(delta / length r) • r) = |√(delta / length r)| * length r by
        rw [length_eq, length_eq, vnorm_smul], abs_of_nonneg (Real.sqrt_nonneg _), Real.sqrt_div h0.le, Real.sqrt_mul h0.le]
    nth_rewrite 2 [← Real.mul_self_sqrt hn.le]
    have : √(length r) ≠ 0 := (Real.sqrt_pos.2 hn).ne'
    field_simp

/-- C58: the kernel never makes a residual larger. -/
theorem C58_not_larger {n : Nat} (delta : ℝ) (r : Fin n → ℝ) (h0 : 0 < delta) :
    length ((huberKernel delta).onResidual r) ≤ length r := by
  rcases le_or_gt (length r) delta with h | h
  · rw [C58_small delta r h]
  · rw [(C58_large delta r h0 h).2]
    refine Real.sqrt_le_iff.2 ⟨h0.le.trans h.le, ?_⟩
    nlinarith

/-- C58: the kernelised residual is a continuous function of the residual. -/
theorem C58_continuous {n : Nat} (delta : ℝ) (h0 : 0 < delta) :
    Continuous fun r : Fin n → ℝ => (huberKernel delta).onResidual r := by
  have e : (fun r : Fin n → ℝ => (huberKernel delta).onResidual r) = fun r => √(min 1 (delta / max delta (vnorm r))) • r := by
    funext r
    show Huber.residual delta r = _
    unfold Huber.residual
    split
    · rename_i h
      rw [max_eq_left h, div_self h0.ne', min_self, Real.sqrt_one, one_smul]
    · rename_i h
      have h := (not_le.1 h)
      rw [max_eq_right h.le, min_eq_right ((div_le_one (h0.trans h)).2 h.le)]
  rw [e]
  have hm : Continuous fun r : Fin n → ℝ => max delta (vnorm r) := continuous_const.max vnorm_continuous
  refine Continuous.smul (Real.continuous_sqrt.comp (continuous_const.min (continuous_const.div hm fun r => ?_))) continuous_id
  exact (lt_max_of_lt_left h0).ne'

/-- A residual of norm 5, and the thresholds 1 and 10. -/
theorem C58.norm : length (![3, 4] : V2) = 5 := by
  rw [length, show ∑ i, (![3, 4] : V2) i ^ 2 = 5 ^ 2 by simp [Fin.sum_univ_two]; norm_num]
  exact Real.sqrt_sq (by norm_num)

example : (huberKernel 10).onResidual (![3, 4] : V2) = ![3, 4] := C58_small _ _ (by rw [C58.norm]; norm_num)
example : length ((huberKernel 1).onResidual (![3, 4] : V2)) = √(1 * 5) := by
  rw [(C58_large 1 _ one_pos (by rw [C58.norm]; norm_num)).2, C58.norm]
example : length ((huberKernel 1).onResidual (![3, 4] : V2)) ≤ 5 := C58.norm ▸ C58_not_larger 1 _ one_pos
example : Continuous fun r : V3 => (huberKernel (1 / 2)).onResidual r := C58_continuous _ (by norm_num)

/-- The derivative of the kernelised residual. -/
theorem huber_deriv {m n : Nat} {delta : ℝ} (h0 : 0 < delta) {F : (Fin m → ℝ) → Fin n → ℝ} {A : Matrix (Fin n) (Fin m) ℝ}
    {x : Fin m → ℝ} (hF : HasVecDeriv F (fun u => A *ᵥ u) x) (h : delta < vnorm (F x)) :
    HasVecDeriv (fun y => Huber.residual delta (F y)) (fun u => √(delta / vnorm (F x)) • A *ᵥ u
      - (√(delta / vnorm (F x)) / (2 * vnorm (F x) ^ 2) * (F x ⬝ᵥ A *ᵥ u)) • F x) x := by
  have hn : 0 < vnorm (F x) := h0.trans h
  have hN := HasVecDeriv.vnorm hF hn.ne'
  have hev : (fun y => Huber.residual delta (F y)) =ᶠ[𝓝 x] fun y => √(delta / vnorm (F y)) • F y := by
    filter_upwards [(HasScalDeriv.continuousAt hN).eventually (lt_mem_nhds h)] with y hy using if_neg (not_le.2 hy)
  have hq : delta / vnorm (F x) ≠ 0 := by positivity
  have h1 : HasDerivAt (fun t => √(delta / t)) (1 / (2 * √(delta / vnorm (F x))) * (-delta / vnorm (F x) ^ 2)) (vnorm (F x)) := by
    have hi : HasDerivAt (fun t => delta / t) (-delta / vnorm (F x) ^ 2) (vnorm (F x)) := by
      have := (hasDerivAt_inv hn.ne').const_mul delta
      refine (this.congr_deriv ?_)
      field_simp
    exact (Real.hasDerivAt_sqrt hq).comp (vnorm (F x)) hi
  have hs := HasVecDeriv.smul (HasScalDeriv.comp (f := fun y => vnorm (F y)) h1 hN) hF
  refine HasVecDeriv.congr (HasVecDeriv.congr_of_eventuallyEq hs hev) fun u => ?_
  have hw : √(delta / vnorm (F x)) ^ 2 = delta / vnorm (F x) := Real.sq_sqrt (by positivity)
  have hwp : 0 < √(delta / vnorm (F x)) := Real.sqrt_pos.2 (by positivity)
  have hd : delta = √(delta / vnorm (F x)) ^ 2 * vnorm (F x) := by rw [hw]; field_simp
  generalize √(delta / vnorm (F x)) = w at *
  generalize vnorm (F x) = k at *
  subst hd
  have : (1 / (2 * w) * (-(w ^ 2 * k) / k ^ 2) * (F x ⬝ᵥ A *ᵥ u / k)) = -(w / (2 * k ^ 2) * (F x ⬝ᵥ A *ᵥ u)) := by
    field_simp
  rw [this]
  module

/-- C58 is false for the Jacobians: the block `apply_to_jacobians` computes for a residual larger than `delta` is the
derivative of the kernelised residual only if the residual is orthogonal to all columns of the block (`-0.5 * delta /
norm³` should be `-0.5 * sqrt(delta / norm) / norm²`). -/
theorem C58_jacobian_false {m n : Nat} {delta : ℝ} (h0 : 0 < delta) {F : (Fin m → ℝ) → Fin n → ℝ}
    {A : Matrix (Fin n) (Fin m) ℝ} {x : Fin m → ℝ} (hF : HasFDerivAt F (jac A) x) (h : delta < length (F x))
    (h12 : 1e-12 ≤ length (F x)) :
    ∃ J, (huberKernel delta).onJacobians (F x) [Mat.ofMatrix A] = .ok [J] ∧ J.rows = n ∧ J.cols = m ∧
      (HasFDerivAt (fun y => (huberKernel delta).onResidual (F y)) (jac (Matrix.of fun (i : Fin n) (j : Fin m) => J.entry i j)) x ↔
        F x ᵥ* A = 0) := by
  rw [length_eq] at h h12
  have hn : 0 < vnorm (F x) := h0.trans h
  have hw : √(delta / vnorm (F x)) ^ 2 = delta / vnorm (F x) := Real.sq_sqrt (by positivity)
  have hwp : 0 < √(delta / vnorm (F x)) := Real.sqrt_pos.2 (by positivity)
  have hw1 : √(delta / vnorm (F x)) < 1 := by
    rw [Real.sqrt_lt' one_pos, one_pow, div_lt_one hn]
    exact h
  have hd : delta = √(delta / vnorm (F x)) ^ 2 * vnorm (F x) := by rw [hw]; field_simp
  have hD := huber_deriv h0 (hasVecDeriv_iff.2 hF) h
  obtain ⟨J, hJ, hr, hc, hJe⟩ : ∃ J, Huber.jacobian delta (F x) (Mat.ofMatrix A) = .ok J ∧ J.rows = n ∧ J.cols = m ∧
      ∀ (i : Fin n) (j : Fin m), J.entry i j = √(delta / vnorm (F x)) * A i j
        + -0.5 * delta / (vnorm (F x) * vnorm (F x) * vnorm (F x)) * F x i * (F x ᵥ* A) j := by
    refine ⟨_, if_pos rfl, rfl, rfl, fun i j => ?_⟩
    simp [Mat.ofMatrix, vecMul, dotProduct]
  refine ⟨J, ?_, hr, hc, ?_⟩
  · show Huber.jacobians _ _ _ = _
    rw [Huber.jacobians, if_neg (by push Not; exact ⟨h, h12⟩)]
    simp only [Huber.jacobianLoop, hJ, Res.andThen]
  · have hB : (Matrix.of fun (i : Fin n) (j : Fin m) => J.entry i j) =
        (√(delta / vnorm (F x)) • A - (√(delta / vnorm (F x)) / (2 * vnorm (F x) ^ 2)) • vecMulVec (F x) (F x ᵥ* A))
        + (√(delta / vnorm (F x)) / (2 * vnorm (F x) ^ 2) * (1 - √(delta / vnorm (F x)))) • vecMulVec (F x) (F x ᵥ* A) := by
      ext i j
      simp only [of_apply, hJe, Matrix.add_apply, Matrix.sub_apply, Matrix.smul_apply, vecMulVec_apply, smul_eq_mul]
      generalize √(delta / vnorm (F x)) = w at *
      generalize vnorm (F x) = k at *
      subst hd
      field_simp
      ring
    have hC : HasFDerivAt (fun y => (huberKernel delta).onResidual (F y))
        (jac (√(delta / vnorm (F x)) • A - (√(delta / vnorm (F x)) / (2 * vnorm (F x) ^ 2)) • vecMulVec (F x) (F x ᵥ* A))) x := by
      refine HasVecDeriv.hasFDerivAt (HasVecDeriv.congr hD fun u => ?_)
      rw [sub_mulVec, smul_mulVec, smul_mulVec, vecMulVec_mulVec, ← dotProduct_mulVec]
      simp [smul_smul]
    have hcoef : √(delta / vnorm (F x)) / (2 * vnorm (F x) ^ 2) * (1 - √(delta / vnorm (F x))) ≠ 0 := by
      have : 0 < 1 - √(delta / vnorm (F x)) := by linarith
      positivity
    rw [hB]
    constructor
    · intro hE
      have huniq := hC.unique hE
      have hmul : ∀ u, (vecMulVec (F x) (F x ᵥ* A)) *ᵥ u = 0 := by
        intro u
        have := DFunLike.congr_fun huniq u
        simp only [jac, LinearMap.coe_toContinuousLinearMap', mulVecLin_apply, add_mulVec, smul_mulVec] at this
        simpa [hcoef] using this
      have hz : F x ≠ 0 := fun hz => hn.ne' (vnorm_eq_zero.2 hz)
      obtain ⟨i, hi⟩ := Function.ne_iff.1 hz
      funext j
      have := congrFun (hmul (Pi.single j 1)) i
      rw [vecMulVec_mulVec] at this
      simp only [Pi.zero_apply] at hi
      simpa [hi] using this
    · intro hz
      have hv : vecMulVec (F x) (0 : Fin m → ℝ) = 0 := by ext i j; simp [vecMulVec_apply]
      rw [hz, hv, smul_zero, sub_zero] at hC
      rw [hz, hv, smul_zero, smul_zero, sub_zero, add_zero]
      exact hC

/-- C58, proved part for the Jacobians: the blocks are correct where the residual is smaller than `delta`. -/
theorem C58_jacobian_partial {m n : Nat} {delta : ℝ} {F : (Fin m → ℝ) → Fin n → ℝ} {A : Matrix (Fin n) (Fin m) ℝ}
    {x : Fin m → ℝ} (hF : HasFDerivAt F (jac A) x) (h : length (F x) < delta) :
    (huberKernel delta).onJacobians (F x) [Mat.ofMatrix A] = .ok [Mat.ofMatrix A] ∧
      HasFDerivAt (fun y => (huberKernel delta).onResidual (F y)) (jac A) x := by
  rw [length_eq] at h
  refine ⟨if_pos (.inl h.le), hF.congr_of_eventuallyEq ?_⟩
  have hc : ContinuousAt (fun y => vnorm (F y)) x := vnorm_continuous.continuousAt.comp hF.continuousAt
  filter_upwards [hc.eventually (gt_mem_nhds h)] with y hy using if_pos hy.le

theorem C58.id (x : V2) : HasFDerivAt (fun y : V2 => y) (jac (1 : Matrix (Fin 2) (Fin 2) ℝ)) x :=
  HasVecDeriv.hasFDerivAt (HasVecDeriv.congr (HasVecDeriv.id x) fun u => (one_mulVec u).symm)

example : ∃ J, (huberKernel 1).onJacobians (![3, 4] : V2) [Mat.ofMatrix (1 : Matrix (Fin 2) (Fin 2) ℝ)] = .ok [J] ∧
    ¬ HasFDerivAt (fun y : V2 => (huberKernel 1).onResidual y) (jac (Matrix.of fun (i j : Fin 2) => J.entry i j)) ![3, 4] := by
  obtain ⟨J, hJ, -, -, hiff⟩ := C58_jacobian_false one_pos (C58.id ![3, 4]) (by rw [C58.norm]; norm_num) (by rw [C58.norm]; norm_num)
  refine ⟨J, hJ, fun hh => ?_⟩
  have := congrFun (hiff.1 hh) 0
  rw [vecMul_one] at this
  norm_num at this

example : HasFDerivAt (fun y : V2 => (huberKernel 6).onResidual y) (jac (1 : Matrix (Fin 2) (Fin 2) ℝ)) ![3, 4] :=
  (C58_jacobian_partial (C58.id ![3, 4]) (by rw [C58.norm]; norm_num)).2

/-- C58, proved part for several Jacobians: every block is changed as if it were the only one. -/
theorem C58_blocks_partial {n : Nat} (delta : ℝ) (r : Fin n → ℝ) (Js : List (Mat ℝ)) :
    (∀ Js', (huberKernel delta).onJacobians r Js = .ok Js' ↔ Js'.length = Js.length ∧
      ∀ (k : Nat) J J', Js[k]? = some J → Js'[k]? = some J' → (huberKernel delta).onJacobians r [J] = .ok [J']) ∧
    (huberKernel delta).onJacobians r Js ≠ .threw := by
  show (∀ Js', Huber.jacobians delta r Js = .ok Js' ↔ Js'.length = Js.length ∧
    ∀ (k : Nat) J J', Js[k]? = some J → Js'[k]? = some J' → Huber.jacobians delta r [J] = .ok [J']) ∧ Huber.jacobians delta r Js ≠ .threw
  unfold Huber.jacobians
  split
  · refine ⟨fun Js' => ⟨?_, ?_⟩, nofun⟩
    · rintro ⟨⟩
      refine ⟨rfl, fun k J J' h1 h2 => ?_⟩
      rw [h1] at h2
      cases h2
      rfl
    · rintro ⟨hl, h⟩
      refine congrArg _ (List.ext_getElem hl.symm fun k h1 h2 => ?_)
      have := h k _ _ (List.getElem?_eq_getElem h1) (List.getElem?_eq_getElem h2)
      simpa using this
  · have one : ∀ J J', Huber.jacobianLoop delta r [J] = .ok [J'] ↔ Huber.jacobian delta r J = .ok J' := by
      intro J J'
      simp only [Huber.jacobianLoop]
      cases Huber.jacobian delta r J <;> simp [Res.andThen]
    simp only [one]
    have nt : ∀ J, Huber.jacobian delta r J ≠ .threw := by
      intro J
      unfold Huber.jacobian
      split <;> nofun
    induction Js with
    | nil => exact ⟨fun Js' => ⟨by rintro ⟨⟩; exact ⟨rfl, nofun⟩, fun h => by rw [List.length_eq_zero_iff.1 h.1]; rfl⟩, nofun⟩
    | cons J Js ih =>
      simp only [Huber.jacobianLoop]
      cases hJ : Huber.jacobian delta r J with
      | threw => exact absurd hJ (nt J)
      | ub =>
        refine ⟨fun Js' => ⟨nofun, fun h => ?_⟩, nofun⟩
        match Js' with
        | J' :: _ => have := h.2 0 J J' rfl rfl; rw [hJ] at this; cases this
      | ok K =>
        simp only [Res.andThen]
        cases hL : Huber.jacobianLoop delta r Js with
        | threw => exact absurd hL ih.2
        | ub =>
          refine ⟨fun Js' => ⟨nofun, fun h => ?_⟩, nofun⟩
          match Js' with
          | J' :: Js' =>
            have := (ih.1 Js').2 ⟨Nat.succ.inj h.1, fun k A B h1 h2 => h.2 (k + 1) A B h1 h2⟩
            rw [hL] at this
            cases this
        | ok Ks =>
          refine ⟨fun Js' => ⟨?_, fun h => ?_⟩, nofun⟩
          · rintro ⟨⟩
            obtain ⟨g1, g2⟩ := (ih.1 Ks).1 hL
            refine ⟨congrArg Nat.succ g1, fun k A B h1 h2 => ?_⟩
            match k with
            | 0 => cases h1; cases h2; exact hJ
            | k + 1 => exact g2 k A B h1 h2
          · match Js' with
            | J' :: Js' =>
              have e1 := h.2 0 J J' rfl rfl
              have e2 := (ih.1 Js').2 ⟨Nat.succ.inj h.1, fun k A B h1 h2 => h.2 (k + 1) A B h1 h2⟩
              rw [hJ] at e1
              rw [hL] at e2
              cases e1; cases e2; rfl

/-- A kernelised factor on two variables: the second block is not left out. -/
example {J K : Mat ℝ} (h : (huberKernel 1).onJacobians (![3, 4] : V2) [Mat.ofMatrix (1 : Matrix (Fin 2) (Fin 2) ℝ), Mat.ofMatrix (1 : Matrix (Fin 2) (Fin 2) ℝ)] =
    .ok [J, K]) : (huberKernel 1).onJacobians (![3, 4] : V2) [Mat.ofMatrix (1 : Matrix (Fin 2) (Fin 2) ℝ)] = .ok [K] :=
  (((C58_blocks_partial 1 _ _).1 _).1 h).2 1 _ _ rfl rfl

/-- C58 is false for factors with a constant variable: the empty block of such a variable is undefined behaviour in
`apply_to_jacobians` (a failing assertion of the matrix product) whenever the residual is larger than `delta`. -/
theorem C58_empty_block_false {n : Nat} (delta : ℝ) (r : Fin n → ℝ) (h0 : 0 ≤ delta) (h : delta < length r)
    (h12 : 1e-12 ≤ length r) (Js : List (Mat ℝ)) : (huberKernel delta).onJacobians r (Mat.empty :: Js) = .ub := by
  rw [length_eq] at h h12
  have hn : n ≠ 0 := by
    rintro rfl
    have : vnorm r = 0 := vnorm_eq_zero.2 (Subsingleton.elim _ _)
    linarith
  show Huber.jacobians _ _ _ = _
  rw [Huber.jacobians, if_neg (by push Not; exact ⟨h, h12⟩), Huber.jacobianLoop, Huber.jacobian,
    if_neg (fun h => hn h.symm)]
  rfl

example : (huberKernel 1).onJacobians (![3, 4] : V2) [Mat.empty] = .ub :=
  C58_empty_block_false 1 _ zero_le_one (by rw [C58.norm]; norm_num) (by rw [C58.norm]; norm_num) []

/-! ### C65 The documented loss -/

/-- The Huber loss as documented (kernels.hpp:26-29). -/
noncomputable def huberLoss (delta : ℝ) {n : Nat} (r : Fin n → ℝ) : ℝ :=
  if length r ≤ delta then length r ^ 2 / 2 else delta * length r - delta ^ 2 / 2

/-- C65 is false: for every residual larger than `delta`, half the squared norm of the kernelised residual is smaller
than the documented loss. -/
theorem C65_false {n : Nat} (delta : ℝ) (r : Fin n → ℝ) (h0 : 0 < delta) (h : delta < length r) :
    length ((huberKernel delta).onResidual r) ^ 2 / 2 < huberLoss delta r := by
  rw [(C58_large delta r h0 h).2, huberLoss, if_neg (not_le.2 h), Real.sq_sqrt (by nlinarith)]
  nlinarith

example : length ((huberKernel 1).onResidual (![3, 4] : V2)) ^ 2 / 2 < huberLoss 1 (![3, 4] : V2) :=
  C65_false 1 _ one_pos (by rw [C58.norm]; norm_num)

/-- C65, proved part: the loss is as documented for residuals that are not larger than `delta`. -/
theorem C65_partial {n : Nat} (delta : ℝ) (r : Fin n → ℝ) (h : length r ≤ delta) :
    length ((huberKernel delta).onResidual r) ^ 2 / 2 = huberLoss delta r := by
  rw [C58_small delta r h, huberLoss, if_pos h]

example : length ((huberKernel 6).onResidual (![3, 4] : V2)) ^ 2 / 2 = huberLoss 6 (![3, 4] : V2) :=
  C65_partial 6 _ (by rw [C58.norm]; norm_num)

/-! ### C59 `SetKernel` -/

/-- C59 is false: `SetKernel` has no effect on anything a graph can observe of the factor. -/
theorem C59_no_effect (o : FactorObject) (k : Option Kernel) : (o.setKernel k).interface = o.interface := rfl

example : ((FactorObject.new (Fac.posePositionPrior 1 0 0 2)).setKernel (some (huberKernel 1))).interface.residualSize = 3 := by
  rw [C59_no_effect]; rfl

/-- C59 is false: a prior factor with a Huber kernel of threshold 1 and a residual of norm 4 evaluates to the residual
without the kernel, which is not the kernelised one. -/
theorem C59_false : ∃ (f : Factor ℝ RVar) (h : Heap RVar) (r : Fin 1 → ℝ),
    ((FactorObject.new f).setKernel (some (huberKernel 1))).interface.computeResidual h = .ok (toList r) ∧
    ((FactorObject.new f).setKernel (some (huberKernel 1))).interface.computeResidual h ≠
      .ok (toList ((huberKernel 1).onResidual r)) := by
  have h4 : length (![4] : Fin 1 → ℝ) = 4 := by
    rw [length]; simp
  have e : (genericPrior (V := RVar) 1 0 (toList ![0]) 1).computeResidual (fun _ => .generic ⟨1, false, toList ![4]⟩) =
      .ok (toList ![4]) := by
    simp [genericPrior, toList, VarLike.value, vecSub]
  refine ⟨genericPrior 1 0 (toList ![0]) 1, fun _ => .generic ⟨1, false, toList ![4]⟩, ![4], e, ?_⟩
  rw [C59_no_effect]
  show Factor.computeResidual _ _ ≠ _
  erw [e]
  intro hc
  have hc := List.ofFn_injective (Res.ok.inj hc)
  have h2 := (C58_large 1 ![4] one_pos (by rw [h4]; norm_num)).2
  rw [← hc, h4] at h2
  have := congrArg (· ^ 2) h2
  simp only [Real.sq_sqrt (show (0:ℝ) ≤ 1 * 4 by norm_num)] at this
  norm_num at this

end Factorama.Props
