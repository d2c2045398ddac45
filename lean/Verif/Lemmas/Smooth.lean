import Verif.Spec.Joint
import Verif.Lemmas.Factors
import Verif.Lemmas.Planar
import Mathlib.Analysis.Calculus.FDeriv.Pi

/-!
# Differentiability of functions of several increments
-/

namespace Factorama.Geo
open Matrix Topology Filter Spec

section rules
variable {E : Type*} [NormedAddCommGroup E] [NormedSpace ℝ E]

/-- Differentiable at zero, for scalars, vectors and matrices. -/
def ScalSm (f : E → ℝ) : Prop := ∃ f', HasScalDeriv f f' 0
def VecSm {m : Nat} (f : E → Fin m → ℝ) : Prop := ∀ i, ScalSm fun x => f x i
def MatSm {m n : Nat} (M : E → Matrix (Fin m) (Fin n) ℝ) : Prop := ∀ i j, ScalSm fun x => M x i j

theorem VecSm.exists {m : Nat} {f : E → Fin m → ℝ} (h : VecSm f) : ∃ f', HasVecDeriv f f' 0 :=
  ⟨fun u i => (h i).choose u, fun i => (h i).choose_spec⟩
theorem MatSm.exists {m n : Nat} {M : E → Matrix (Fin m) (Fin n) ℝ} (h : MatSm M) : ∃ M', HasMatDeriv M M' 0 :=
  ⟨fun u => Matrix.of fun i j => (h i j).choose u, fun i j => (h i j).choose_spec⟩
theorem HasVecDeriv.sm {m : Nat} {f f' : E → Fin m → ℝ} (h : HasVecDeriv f f' 0) : VecSm f := fun i => ⟨_, h i⟩
theorem HasMatDeriv.sm {m n : Nat} {M M' : E → Matrix (Fin m) (Fin n) ℝ} (h : HasMatDeriv M M' 0) : MatSm M :=
  fun i j => ⟨_, h i j⟩

theorem ScalSm.const (c : ℝ) : ScalSm fun _ : E => c := ⟨_, HasScalDeriv.const c 0⟩
theorem VecSm.const {m : Nat} (c : Fin m → ℝ) : VecSm fun _ : E => c := fun i => .const (c i)
theorem MatSm.const {m n : Nat} (c : Matrix (Fin m) (Fin n) ℝ) : MatSm fun _ : E => c := fun i j => .const (c i j)

theorem ScalSm.add {f g : E → ℝ} (hf : ScalSm f) (hg : ScalSm g) : ScalSm fun x => f x + g x :=
  ⟨_, HasScalDeriv.add hf.choose_spec hg.choose_spec⟩
theorem ScalSm.sub {f g : E → ℝ} (hf : ScalSm f) (hg : ScalSm g) : ScalSm fun x => f x - g x :=
  ⟨_, HasScalDeriv.sub hf.choose_spec hg.choose_spec⟩
theorem ScalSm.mul {f g : E → ℝ} (hf : ScalSm f) (hg : ScalSm g) : ScalSm fun x => f x * g x :=
  ⟨_, HasScalDeriv.mul hf.choose_spec hg.choose_spec⟩
theorem ScalSm.comp {f : E → ℝ} {φ : ℝ → ℝ} {d : ℝ} (hφ : HasDerivAt φ d (f 0)) (hf : ScalSm f) : ScalSm fun x => φ (f x) :=
  ⟨_, HasScalDeriv.comp hφ hf.choose_spec⟩
theorem ScalSm.inv {f : E → ℝ} (hf : ScalSm f) (h0 : f 0 ≠ 0) : ScalSm fun x => (f x)⁻¹ :=
  ScalSm.comp (φ := fun t => t⁻¹) (hasDerivAt_inv h0) hf
theorem ScalSm.continuousAt {f : E → ℝ} (h : ScalSm f) : ContinuousAt f 0 := HasScalDeriv.continuousAt h.choose_spec
theorem ScalSm.congr {f g : E → ℝ} (h : ScalSm f) (he : g =ᶠ[𝓝 0] f) : ScalSm g :=
  ⟨_, HasScalDeriv.congr_of_eventuallyEq h.choose_spec he⟩

theorem VecSm.add {m : Nat} {f g : E → Fin m → ℝ} (hf : VecSm f) (hg : VecSm g) : VecSm fun x => f x + g x :=
  fun i => (hf i).add (hg i)
theorem VecSm.sub {m : Nat} {f g : E → Fin m → ℝ} (hf : VecSm f) (hg : VecSm g) : VecSm fun x => f x - g x :=
  fun i => (hf i).sub (hg i)
theorem VecSm.smul {m : Nat} {c : E → ℝ} {f : E → Fin m → ℝ} (hc : ScalSm c) (hf : VecSm f) : VecSm fun x => c x • f x :=
  fun i => hc.mul (hf i)
theorem VecSm.csmul {m : Nat} (c : ℝ) {f : E → Fin m → ℝ} (hf : VecSm f) : VecSm fun x => c • f x := .smul (.const c) hf
theorem VecSm.congr {m : Nat} {f g : E → Fin m → ℝ} (h : VecSm f) (he : g =ᶠ[𝓝 0] f) : VecSm g :=
  fun i => (h i).congr (he.mono fun x hx => congrFun hx i)
theorem VecSm.dot {m : Nat} {f g : E → Fin m → ℝ} (hf : VecSm f) (hg : VecSm g) : ScalSm fun x => f x ⬝ᵥ g x :=
  let ⟨_, h1⟩ := hf.exists; let ⟨_, h2⟩ := hg.exists; ⟨_, HasVecDeriv.dot h1 h2⟩
theorem VecSm.vnorm {m : Nat} {f : E → Fin m → ℝ} (hf : VecSm f) (h0 : vnorm (f 0) ≠ 0) : ScalSm fun x => Geo.vnorm (f x) :=
  let ⟨_, h1⟩ := hf.exists; ⟨_, HasVecDeriv.vnorm h1 h0⟩
theorem VecSm.normalized {m : Nat} {f : E → Fin m → ℝ} (hf : VecSm f) (h0 : Geo.vnorm (f 0) ≠ 0) :
    VecSm fun x => Geo.normalized (f x) :=
  let ⟨_, h1⟩ := hf.exists; (HasVecDeriv.normalized h1 h0).sm

theorem MatSm.transpose {m n : Nat} {M : E → Matrix (Fin m) (Fin n) ℝ} (h : MatSm M) : MatSm fun x => (M x)ᵀ :=
  fun i j => h j i
theorem MatSm.mul {l m n : Nat} {M : E → Matrix (Fin l) (Fin m) ℝ} {N : E → Matrix (Fin m) (Fin n) ℝ} (hM : MatSm M)
    (hN : MatSm N) : MatSm fun x => M x * N x :=
  let ⟨_, h1⟩ := hM.exists; let ⟨_, h2⟩ := hN.exists; (HasMatDeriv.mul h1 h2).sm
theorem MatSm.mulVec {m n : Nat} {M : E → Matrix (Fin m) (Fin n) ℝ} {f : E → Fin n → ℝ} (hM : MatSm M) (hf : VecSm f) :
    VecSm fun x => M x *ᵥ f x :=
  let ⟨_, h1⟩ := hM.exists; let ⟨_, h2⟩ := hf.exists; (HasMatDeriv.mulVec h1 h2).sm

theorem VecSm.differentiableAt {m : Nat} {f : E → Fin m → ℝ} (h : VecSm f) : DifferentiableAt ℝ f 0 :=
  differentiableAt_pi.2 fun i => let ⟨_, _, _, h⟩ := h i; h.differentiableAt

theorem VecSm.clm {n : Nat} (L : E →L[ℝ] (Fin n → ℝ)) : VecSm fun x => L x := fun i =>
  ⟨fun u => L u i, (ContinuousLinearMap.proj (R := ℝ) (φ := fun _ : Fin n => ℝ) i).comp L, fun _ => rfl,
    ((ContinuousLinearMap.proj (R := ℝ) (φ := fun _ : Fin n => ℝ) i).comp L).hasFDerivAt⟩

/-- Composition with a linear map. -/
theorem ScalSm.comp_clm {n : Nat} {φ : (Fin n → ℝ) → ℝ} (hφ : ScalSm φ) (L : E →L[ℝ] (Fin n → ℝ)) : ScalSm fun x => φ (L x) := by
  obtain ⟨φ', hφ⟩ := hφ
  obtain ⟨f', hf⟩ := (VecSm.clm L).exists
  exact ⟨_, HasScalDeriv.comp_vec (f := fun x => L x) (by rw [map_zero]; exact hφ) hf⟩
theorem VecSm.comp_clm {n m : Nat} {φ : (Fin n → ℝ) → Fin m → ℝ} (hφ : VecSm φ) (L : E →L[ℝ] (Fin n → ℝ)) :
    VecSm fun x => φ (L x) := fun i => (hφ i).comp_clm L
theorem MatSm.comp_clm {n k m : Nat} {φ : (Fin n → ℝ) → Matrix (Fin k) (Fin m) ℝ} (hφ : MatSm φ) (L : E →L[ℝ] (Fin n → ℝ)) :
    MatSm fun x => φ (L x) := fun i j => (hφ i j).comp_clm L

/-- The logarithm along a differentiable motion, at the identity and at rotations by a moderate angle. -/
theorem VecSm.log {M : E → M3} (hM : MatSm M) (hR : IsRotation (M 0)) (hreg : M 0 = 1 ∨ Regular (M 0)) :
    VecSm fun x => logSO3 (M x) := by
  obtain ⟨M', hM⟩ := hM.exists
  have htr := hM.trace
  rcases hreg with h1 | ⟨h1, h2⟩
  · refine VecSm.congr (HasVecDeriv.const_smul (0.5 : ℝ) hM.anti).sm ?_
    have hc : ContinuousAt (fun y => Real.arccos (clampUnit ((M y 0 0 + M y 1 1 + M y 2 2 - 1) * 0.5))) 0 := by
      have ht := HasScalDeriv.continuousAt htr
      simp only [trace3] at ht
      unfold clampUnit
      exact Real.continuous_arccos.continuousAt.comp
        ((((ht.sub continuousAt_const).mul continuousAt_const).max continuousAt_const).min continuousAt_const)
    have h0 : Real.arccos (clampUnit ((M 0 0 0 + M 0 1 1 + M 0 2 2 - 1) * 0.5)) < 1e-5 := by
      rw [h1, log_angle (IsRotation.eqs isRotation_one), angle_one]
      norm_num
    filter_upwards [hc.eventually_lt_const h0] with y hy
    unfold logSO3
    simp only [hy, if_true, unskew_smul, unskew_anti]
  · have hpi := PI_bounds
    have he := IsRotation.eqs hR
    have hlt : angle (M 0) < Real.pi := by linarith
    have hpos : 0 < angle (M 0) := lt_trans (by norm_num) h1
    have hcos := cos_angle he
    have hsc : ScalSm fun y => ((M y).trace - 1) / 2 := by
      simp only [div_eq_mul_inv]
      exact ScalSm.mul (ScalSm.sub ⟨_, htr⟩ (.const 1)) (.const _)
    have hcont := hsc.continuousAt
    refine VecSm.congr (VecSm.smul (ScalSm.comp (φ := logCoef) (by rw [← hcos]; exact logCoef_deriv hpos hlt) hsc)
      hM.anti.sm) ?_
    have harc : ContinuousAt (fun y => Real.arccos (((M y).trace - 1) / 2)) 0 :=
      Real.continuous_arccos.continuousAt.comp hcont
    have hs : 0 < Real.sin (angle (M 0)) := Real.sin_pos_of_pos_of_lt_pi hpos hlt
    have hcs := Real.sin_sq_add_cos_sq (angle (M 0))
    have hc1 : -1 < ((M 0).trace - 1) / 2 := by rw [← hcos]; nlinarith
    have hc2 : ((M 0).trace - 1) / 2 < 1 := by rw [← hcos]; nlinarith
    filter_upwards [hcont.eventually_const_lt hc1, hcont.eventually_lt_const hc2, harc.eventually_const_lt h1,
      harc.eventually_lt_const h2] with y k1 k2 k3 k4
    exact log_branch ⟨k1.le, k2.le⟩ k3.le k4.le

theorem ScalSm.wrap {f : E → ℝ} (hf : ScalSm f) (h : wrapAngle (f 0) < Real.pi) : ScalSm fun x => wrapAngle (f x) :=
  ScalSm.comp (wrap_deriv h) hf

theorem ScalSm.bearing {f : E → V2} (hf : VecSm f) (o : ℝ) (h0 : ¬ (f 0 0 = 0 ∧ f 0 1 = 0))
    (hpi : wrapAngle (atan2 (f 0 1) (f 0 0) - o) < Real.pi) : ScalSm fun x => wrapAngle (atan2 (f x 1) (f x 0) - o) :=
  let ⟨_, h1⟩ := hf.exists; ⟨_, bearing_deriv h1 o h0 hpi⟩

/-! ### Motions of the variables -/

theorem pose_joint {v : RVar} {q : PoseVar} (hv : v = .pose q) (hR : IsRotation q.dcm) (hreg : Regular q.dcm)
    (L : E →L[ℝ] (Fin (VarLike.size v) → ℝ)) :
    ∃ γ : E → PoseVar, (∀ x v', Moved v (L x) v' → v' = .pose (γ x)) ∧ (γ 0).pos = q.pos ∧ (γ 0).dcm = q.dcm ∧
      VecSm (fun x => (γ x).pos) ∧ MatSm fun x => (γ x).dcm := by
  subst hv
  by_cases hc : VarLike.isConst (RVar.pose q)
  · exact ⟨fun _ => q, fun x v' hm => by simpa [Moved, hc] using hm, rfl, rfl, .const _, .const _⟩
  · obtain ⟨γ, hγ, hm⟩ := pose_motion (PoseIncrement.code hreg) hR
    refine ⟨fun x => γ (L x), fun x v' hmv => ?_, ?_, ?_, VecSm.comp_clm (hm.pos_deriv.sm) L, MatSm.comp_clm hm.deriv.sm L⟩
    · rw [Moved, if_neg hc] at hmv
      have := hγ (L x)
      rw [codeIncr, hmv] at this
      exact Res.ok.inj this
    · show (γ (L 0)).pos = _; rw [map_zero]; exact hm.pos_zero
    · show (γ (L 0)).dcm = _; rw [map_zero]; exact hm.start

/-- The position alone, at every pose. -/
theorem pose_pos_joint {v : RVar} {q : PoseVar} (hv : v = .pose q) (L : E →L[ℝ] (Fin (VarLike.size v) → ℝ)) :
    ∃ γ : E → PoseVar, (∀ x v', Moved v (L x) v' → v' = .pose (γ x)) ∧ (γ 0).pos = q.pos ∧
      VecSm (fun x => (γ x).pos) := by
  subst hv
  by_cases hc : VarLike.isConst (RVar.pose q)
  · exact ⟨fun _ => q, fun x v' hm => by simpa [Moved, hc] using hm, rfl, .const _⟩
  · obtain ⟨γ, hγ⟩ := pose_pos_motion q .code
    refine ⟨fun x => γ (L x), fun x v' hmv => ?_, ?_, ?_⟩
    · rw [Moved, if_neg hc] at hmv
      have := (hγ (L x)).1
      rw [codeIncr, hmv] at this
      exact Res.ok.inj this
    · rw [(hγ _).2, map_zero, incPos_zero, add_zero]
    · simp only [(hγ _).2]
      exact .add (.const _) (VecSm.comp_clm (incPos_deriv 0).sm L)

theorem rotation_joint {v : RVar} {q : RotationVar} (hv : v = .rotation q) (L : E →L[ℝ] (Fin (VarLike.size v) → ℝ)) :
    ∃ γ : E → RotationVar, (∀ x v', Moved v (L x) v' → v' = .rotation (γ x)) ∧ (γ 0).dcm = q.dcm ∧
      MatSm fun x => (γ x).dcm := by
  subst hv
  by_cases hc : VarLike.isConst (RVar.rotation q)
  · exact ⟨fun _ => q, fun x v' hm => by simpa [Moved, hc] using hm, rfl, .const _⟩
  · obtain ⟨γ, hγ, hm⟩ := rotation_motion q .code
    refine ⟨fun x => γ (L x), fun x v' hmv => ?_, ?_, MatSm.comp_clm hm.deriv.sm L⟩
    · rw [Moved, if_neg hc] at hmv
      have := hγ (L x)
      rw [codeIncr, hmv] at this
      exact Res.ok.inj this
    · show (γ (L 0)).dcm = _; rw [map_zero]; exact hm.start

theorem vector_joint {n : Nat} {v : RVar} {y : Fin n → ℝ} (hv : IsVector v y) (L : E →L[ℝ] (Fin (VarLike.size v) → ℝ)) :
    ∃ γ : E → Fin n → ℝ, (∀ x v', Moved v (L x) v' → IsVector v' (γ x)) ∧ γ 0 = y ∧ VecSm γ := by
  by_cases hc : VarLike.isConst v
  · exact ⟨fun _ => y, fun x v' hm => by rw [Moved, if_pos hc] at hm; rw [hm]; exact hv, rfl, .const _⟩
  · obtain ⟨γ, hγ⟩ := vector_motion hv .code
    have hn := (vector_value hv).2
    subst hn
    refine ⟨fun x => y + L x, fun x v' hmv => ?_, by simp, .add (.const _) (.clm L)⟩
    rw [Moved, if_neg hc] at hmv
    have := (hγ (L x)).1
    rw [codeIncr, hmv] at this
    rw [Res.ok.inj this]
    exact (hγ (L x)).2

theorem landmark_joint {v : RVar} {l : LandmarkVar} {y : V3} (hv : v = .landmark l) (hy : l.value = toList y)
    (L : E →L[ℝ] (Fin (VarLike.size v) → ℝ)) :
    ∃ γ : E → V3, (∀ x v', Moved v (L x) v' → ∃ l', v' = .landmark l' ∧ l'.value = toList (γ x)) ∧ γ 0 = y ∧ VecSm γ := by
  subst hv
  by_cases hc : VarLike.isConst (RVar.landmark l)
  · exact ⟨fun _ => y, fun x v' hm => by rw [Moved, if_pos hc] at hm; exact ⟨l, hm, hy⟩, rfl, .const _⟩
  · refine ⟨fun x => y + L x, fun x v' hmv => ?_, by simp, .add (.const _) (.clm L)⟩
    rw [Moved, if_neg hc] at hmv
    have := landmark_motion hy .code (L x)
    rw [codeIncr, hmv] at this
    exact ⟨_, Res.ok.inj this, rfl⟩

theorem generic_joint {n : Nat} {v : RVar} {l : GenVar ℝ} {y : Fin n → ℝ} (hv : v = .generic l) (hy : l.value = toList y)
    (L : E →L[ℝ] (Fin (VarLike.size v) → ℝ)) :
    ∃ γ : E → Fin n → ℝ, (∀ x v', Moved v (L x) v' → ∃ l', v' = .generic l' ∧ l'.value = toList (γ x)) ∧ γ 0 = y ∧
      VecSm γ := by
  have hn : VarLike.size v = n := (vector_value (.inl ⟨l, hv, hy⟩)).2
  subst hn
  by_cases hc : VarLike.isConst v
  · exact ⟨fun _ => y, fun x v' hm => by rw [Moved, if_pos hc] at hm; exact ⟨l, hm.trans hv, hy⟩, rfl, .const _⟩
  · refine ⟨fun x => y + L x, fun x v' hmv => ?_, by simp, .add (.const _) (.clm L)⟩
    rw [Moved, if_neg hc] at hmv
    have := generic_motion hy .code (L x)
    rw [codeIncr, ← hv, hmv] at this
    exact ⟨_, Res.ok.inj this, rfl⟩

/-- The heading moves differentiably up to full turns. -/
theorem pose2d_joint {v : RVar} {q : Pose2DVar} (hv : v = .pose2d q) (L : E →L[ℝ] (Fin (VarLike.size v) → ℝ)) :
    ∃ (γ : E → Pose2DVar) (t : E → ℝ), (∀ x v', Moved v (L x) v' → v' = .pose2d (γ x)) ∧ (γ 0).pos = q.pos ∧ (γ 0).dcm = q.dcm ∧
      t 0 = q.theta ∧ VecSm (fun x => (γ x).pos) ∧ MatSm (fun x => (γ x).dcm) ∧ ScalSm t ∧
      ∀ x, ∃ n : ℤ, (γ x).theta = t x + n * (2 * Real.pi) := by
  subst hv
  by_cases hc : VarLike.isConst (RVar.pose2d q)
  · exact ⟨fun _ => q, fun _ => q.theta, fun x v' hm => by simpa [Moved, hc] using hm, rfl, rfl, rfl, .const _, .const _,
      .const _, fun x => ⟨0, by simp⟩⟩
  · refine ⟨fun x => moved2 q (L x), fun x => q.theta + L x 2, fun x v' hmv => ?_, ?_, ?_, ?_,
      VecSm.comp_clm (moved2_pos_deriv q).sm L, MatSm.comp_clm (moved2_dcm_deriv q).sm L, .add (.const _) (VecSm.clm L 2),
      fun x => wrap_mod _⟩
    · rw [Moved, if_neg hc] at hmv
      have := pose2d_motion q .code (L x)
      rw [codeIncr, hmv] at this
      exact Res.ok.inj this
    · show (moved2 q (L 0)).pos = _; rw [map_zero]; exact (moved2_zero q).1
    · show (moved2 q (L 0)).dcm = _; rw [map_zero]; exact (moved2_zero q).2
    · simp

end rules

/-- What has to be shown for a factor. -/
theorem joint_of {f : Factor ℝ RVar} {h : Heap RVar} {m : Nat} (hm : f.residualSize = m)
    (H : ∀ (N : Nat) (L : ∀ r, (Fin N → ℝ) →L[ℝ] (Fin (VarLike.size (h r)) → ℝ)),
      ∃ F : (Fin N → ℝ) → (Fin m → ℝ), VecSm F ∧
        ∀ᶠ x in 𝓝 0, ∀ h' : Heap RVar, (∀ r, some r ∈ f.variables → Moved (h r) (L r x) (h' r)) →
          f.computeResidual h' = .ok (toList (F x))) : JointlyDifferentiable f h := by
  subst hm
  intro N L
  obtain ⟨F, h1, h2⟩ := H N L
  exact ⟨F, h1.differentiableAt, h2⟩

end Factorama.Geo
