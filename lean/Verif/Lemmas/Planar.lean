import Verif.Lemmas.Wrap
import Verif.Lemmas.Factors
import Mathlib.Analysis.SpecialFunctions.Complex.LogDeriv
import Mathlib.Analysis.Calculus.FDeriv.RestrictScalars

/-!
# Planar directions: derivative of `atan2`, motions of planar poses
-/

namespace Factorama.Geo
open Matrix Spec Topology Filter

variable {E : Type*} [NormedAddCommGroup E] [NormedSpace ℝ E]

/-! ### Wrapping -/

theorem wrap_wrap_add (a b : ℝ) : wrapAngle (wrapAngle a + b) = wrapAngle (a + b) := by
  obtain ⟨n, hn⟩ := wrap_mod a
  rw [hn, show a + n * (2 * Real.pi) + b = (a + b) + n * (2 * Real.pi) by ring, wrap_add_int]

theorem wrap_sub_wrap (a b : ℝ) : wrapAngle (b - wrapAngle a) = wrapAngle (b - a) := by
  obtain ⟨n, hn⟩ := wrap_mod a
  rw [hn, show b - (a + n * (2 * Real.pi)) = (b - a) + ((-n : ℤ) : ℝ) * (2 * Real.pi) by push_cast; ring, wrap_add_int]

theorem wrap_eq_zero {a : ℝ} : wrapAngle a = 0 ↔ ∃ n : ℤ, a = n * (2 * Real.pi) := by
  constructor
  · intro h
    obtain ⟨n, hn⟩ := wrap_mod a
    exact ⟨-n, by rw [h] at hn; push_cast; linarith⟩
  · rintro ⟨n, rfl⟩
    have := wrap_add_int 0 n
    rw [zero_add] at this
    rw [this, wrap_of_mem (by linarith [Real.pi_pos]) Real.pi_pos.le]

/-! ### Directions -/

/-- The wrapped difference of the direction of `d` and an angle is the direction of `d` turned back by the angle. -/
theorem wrap_atan2 {x y : ℝ} (h : ¬ (x = 0 ∧ y = 0)) (o : ℝ) :
    wrapAngle (atan2 y x - o) = atan2 (y * Real.cos o - x * Real.sin o) (x * Real.cos o + y * Real.sin o) := by
  have hz : (⟨x, y⟩ : ℂ) ≠ 0 := by
    intro hz
    exact h ⟨congrArg Complex.re hz, congrArg Complex.im hz⟩
  have hr : 0 < ‖(⟨x, y⟩ : ℂ)‖ := norm_pos_iff.mpr hz
  have hc : Real.cos (atan2 y x) = x / ‖(⟨x, y⟩ : ℂ)‖ := by unfold atan2; rw [Complex.cos_arg hz]
  have hs : Real.sin (atan2 y x) = y / ‖(⟨x, y⟩ : ℂ)‖ := by unfold atan2; rw [Complex.sin_arg]
  unfold wrapAngle
  rw [Real.sin_sub, Real.cos_sub, hc, hs]
  generalize ‖(⟨x, y⟩ : ℂ)‖ = r at *
  unfold atan2
  rw [← Complex.arg_real_mul _ hr]
  congr 1
  apply Complex.ext <;> simp <;> field_simp

theorem atan2_eq_zero {x y : ℝ} (h : ¬ (x = 0 ∧ y = 0)) : atan2 y x = 0 ↔ 0 < x ∧ y = 0 := by
  unfold atan2
  rw [Complex.arg_eq_zero_iff]
  constructor
  · rintro ⟨h1, h2⟩
    simp only at h1 h2
    exact ⟨lt_of_le_of_ne h1 fun hx => h ⟨hx.symm, h2⟩, h2⟩
  · rintro ⟨h1, h2⟩
    exact ⟨h1.le, h2⟩

theorem atan2_deriv {f g f' g' : E → ℝ} {x : E} (hf : HasScalDeriv f f' x) (hg : HasScalDeriv g g' x)
    (hs : 0 < f x ∨ g x ≠ 0) :
    HasScalDeriv (fun y => atan2 (g y) (f y)) (fun u => (f x * g' u - g x * f' u) / (f x ^ 2 + g x ^ 2)) x := by
  obtain ⟨L, l1, l2⟩ := hf
  obtain ⟨K, k1, k2⟩ := hg
  have hz : HasFDerivAt (fun y => (⟨f y, g y⟩ : ℂ))
      ((Complex.equivRealProdCLM.symm : ℝ × ℝ →L[ℝ] ℂ).comp (L.prod K)) x :=
    (Complex.equivRealProdCLM.symm : ℝ × ℝ →L[ℝ] ℂ).hasFDerivAt.comp x (l2.prodMk k2)
  have hlog : HasFDerivAt Complex.log _ (⟨f x, g x⟩ : ℂ) :=
    ((Complex.hasStrictDerivAt_log (x := ⟨f x, g x⟩) hs).hasDerivAt.hasFDerivAt).restrictScalars ℝ
  have him := Complex.imCLM.hasFDerivAt.comp x (hlog.comp x hz)
  have hne : f x ^ 2 + g x ^ 2 ≠ 0 := by
    rcases hs with h | h <;> positivity
  refine ⟨_, fun u => ?_, him.congr_of_eventuallyEq (Eventually.of_forall fun y => ?_)⟩
  · simp [l1, k1, Complex.inv_im, Complex.inv_re, Complex.normSq_apply]
    field_simp
    ring
  · simp [atan2, Complex.log_im]

/-- The derivative of the wrapped bearing residual. -/
theorem bearing_deriv {f f' : E → V2} {x : E} (hf : HasVecDeriv f f' x) (o : ℝ) (h0 : ¬ (f x 0 = 0 ∧ f x 1 = 0))
    (hpi : wrapAngle (atan2 (f x 1) (f x 0) - o) < Real.pi) :
    HasScalDeriv (fun y => wrapAngle (atan2 (f y 1) (f y 0) - o))
      (fun u => (f x 0 * f' u 1 - f x 1 * f' u 0) / (f x 0 * f x 0 + f x 1 * f x 1)) x := by
  have hX := HasScalDeriv.add (HasScalDeriv.mul (hf 0) (HasScalDeriv.const (Real.cos o) x))
    (HasScalDeriv.mul (hf 1) (HasScalDeriv.const (Real.sin o) x))
  have hY := HasScalDeriv.sub (HasScalDeriv.mul (hf 1) (HasScalDeriv.const (Real.cos o) x))
    (HasScalDeriv.mul (hf 0) (HasScalDeriv.const (Real.sin o) x))
  rw [wrap_atan2 h0] at hpi
  have hcs := Real.sin_sq_add_cos_sq o
  have hsum : (f x 0 * Real.cos o + f x 1 * Real.sin o) ^ 2 + (f x 1 * Real.cos o - f x 0 * Real.sin o) ^ 2 =
      f x 0 * f x 0 + f x 1 * f x 1 := by
    linear_combination (f x 0 ^ 2 + f x 1 ^ 2) * hcs
  have hpos : 0 < f x 0 * f x 0 + f x 1 * f x 1 := by
    by_contra hc
    push Not at hc
    have h1 := mul_self_nonneg (f x 0)
    have h2 := mul_self_nonneg (f x 1)
    exact h0 ⟨mul_self_eq_zero.mp (by linarith), mul_self_eq_zero.mp (by linarith)⟩
  have hslit : 0 < f x 0 * Real.cos o + f x 1 * Real.sin o ∨ f x 1 * Real.cos o - f x 0 * Real.sin o ≠ 0 := by
    refine Complex.mem_slitPlane_iff.mp (Complex.mem_slitPlane_iff_arg.mpr ⟨hpi.ne, fun hz => ?_⟩)
    have h1 : f x 0 * Real.cos o + f x 1 * Real.sin o = 0 := congrArg Complex.re hz
    have h2 : f x 1 * Real.cos o - f x 0 * Real.sin o = 0 := congrArg Complex.im hz
    rw [h1, h2] at hsum
    simp at hsum
    linarith
  have hev : (fun y => wrapAngle (atan2 (f y 1) (f y 0) - o)) =ᶠ[𝓝 x] fun y =>
      atan2 (f y 1 * Real.cos o - f y 0 * Real.sin o) (f y 0 * Real.cos o + f y 1 * Real.sin o) := by
    have hc : ContinuousAt (fun y => f y 0 * f y 0 + f y 1 * f y 1) x :=
      ((HasScalDeriv.continuousAt (hf 0)).mul (HasScalDeriv.continuousAt (hf 0))).add
        ((HasScalDeriv.continuousAt (hf 1)).mul (HasScalDeriv.continuousAt (hf 1)))
    filter_upwards [hc.eventually_const_lt hpos] with y hy
    refine wrap_atan2 (fun h => ?_) o
    rw [h.1, h.2] at hy
    simp at hy
  refine HasScalDeriv.congr (HasScalDeriv.congr_of_eventuallyEq (atan2_deriv hX hY hslit) hev) fun u => ?_
  rw [hsum]
  congr 1
  linear_combination (f x 0 * f' u 1 - f x 1 * f' u 0) * hcs

/-! ### Motions of planar poses -/

/-- The planar position part of an increment. -/
def incPlane (d : V3) : V2 := ![d 0, d 1]

/-- A planar pose under an increment. -/
noncomputable def moved2 (v : Pose2DVar) (d : V3) : Pose2DVar :=
  { v with
    pos := v.pos + incPlane d
    theta := wrapAngle (v.theta + d 2) }

theorem pose2d_motion (v : Pose2DVar) {incr : Increment} (hi : AnyIncrement incr) (d : V3) :
    incr (.pose2d v) (List.ofFn d) = .ok (.pose2d (moved2 v d)) := by
  rw [incr_pose2d v _ hi, Pose2DVar.applyIncr]
  have e : (![v.pos 0 + d 0, v.pos 1 + d 1] : V2) = v.pos + incPlane d := by
    funext i; fin_cases i <;> simp [incPlane]
  simp [Res.map, moved2, ← e]

theorem moved2_dcm (v : Pose2DVar) (d : V3) : (moved2 v d).dcm =
    !![Real.cos (v.theta + d 2), -Real.sin (v.theta + d 2); Real.sin (v.theta + d 2), Real.cos (v.theta + d 2)] := by
  obtain ⟨h1, h2⟩ := wrap_trig (v.theta + d 2)
  simp only [Pose2DVar.dcm, moved2, h1, h2]

theorem moved2_zero (v : Pose2DVar) : (moved2 v 0).pos = v.pos ∧ (moved2 v 0).dcm = v.dcm := by
  constructor
  · simp only [moved2]
    funext i; fin_cases i <;> simp [incPlane]
  · rw [moved2_dcm]
    simp [Pose2DVar.dcm]

theorem moved2_pos_deriv (v : Pose2DVar) : HasVecDeriv (fun d => (moved2 v d).pos) incPlane 0 := by
  intro i
  fin_cases i
  · exact HasScalDeriv.congr (HasScalDeriv.add (HasScalDeriv.const (v.pos 0) 0) (HasScalDeriv.coord 0 0)) fun u => by
      simp [incPlane]
  · exact HasScalDeriv.congr (HasScalDeriv.add (HasScalDeriv.const (v.pos 1) 0) (HasScalDeriv.coord 1 0)) fun u => by
      simp [incPlane]

theorem moved2_dcm_deriv (v : Pose2DVar) :
    HasMatDeriv (fun d => (moved2 v d).dcm) (fun u => u 2 • !![-Real.sin v.theta, -Real.cos v.theta; Real.cos v.theta, -Real.sin v.theta]) 0 := by
  have ha : HasScalDeriv (fun d : V3 => v.theta + d 2) (fun u => u 2) 0 :=
    HasScalDeriv.congr (HasScalDeriv.add (HasScalDeriv.const v.theta 0) (HasScalDeriv.coord 2 0)) fun u => by simp
  have hc := HasScalDeriv.comp (f := fun d : V3 => v.theta + d 2) (φ := Real.cos) (Real.hasDerivAt_cos _) ha
  have hs := HasScalDeriv.comp (f := fun d : V3 => v.theta + d 2) (φ := Real.sin) (Real.hasDerivAt_sin _) ha
  simp only [moved2_dcm]
  intro i j
  fin_cases i <;> fin_cases j
  · exact HasScalDeriv.congr hc fun u => by simp; ring
  · exact HasScalDeriv.congr (HasScalDeriv.neg hs) fun u => by simp; ring
  · exact HasScalDeriv.congr hs fun u => by simp; ring
  · exact HasScalDeriv.congr hc fun u => by simp; ring

end Factorama.Geo
