import Verif.Lemmas.Calculus
import Mathlib.Analysis.SpecialFunctions.Trigonometric.Deriv

/-!
# Wrapping of planar angles
-/

namespace Factorama.Geo
open Topology Filter

theorem wrap_range (a : ℝ) : -Real.pi < wrapAngle a ∧ wrapAngle a ≤ Real.pi :=
  ⟨Complex.neg_pi_lt_arg _, Complex.arg_le_pi _⟩

theorem wrap_of_mem {a : ℝ} (h1 : -Real.pi < a) (h2 : a ≤ Real.pi) : wrapAngle a = a := by
  have := Complex.arg_cos_add_sin_mul_I (θ := a) ⟨h1, h2⟩
  have e : (⟨Real.cos a, Real.sin a⟩ : ℂ) = Complex.cos a + Complex.sin a * Complex.I := by
    apply Complex.ext <;> simp [← Complex.ofReal_cos, ← Complex.ofReal_sin]
  unfold wrapAngle atan2
  rw [e, this]

theorem wrap_trig (a : ℝ) : Real.cos (wrapAngle a) = Real.cos a ∧ Real.sin (wrapAngle a) = Real.sin a :=
  atan2_unit (by have := Real.sin_sq_add_cos_sq a; linarith)

theorem wrap_mod (a : ℝ) : ∃ n : ℤ, wrapAngle a = a + n * (2 * Real.pi) := by
  obtain ⟨h1, h2⟩ := wrap_trig a
  have h3 : Real.cos (wrapAngle a - a) = 1 := by
    rw [Real.cos_sub, h1, h2]
    have := Real.sin_sq_add_cos_sq a
    linarith [sq (Real.cos a), sq (Real.sin a)]
  obtain ⟨n, hn⟩ := (Real.cos_eq_one_iff _).mp h3
  exact ⟨n, by linarith⟩

theorem wrap_add_int (a : ℝ) (n : ℤ) : wrapAngle (a + n * (2 * Real.pi)) = wrapAngle a := by
  unfold wrapAngle
  rw [Real.sin_add_int_mul_two_pi, Real.cos_add_int_mul_two_pi]

theorem wrap_wrap (a : ℝ) : wrapAngle (wrapAngle a) = wrapAngle a :=
  wrap_of_mem (wrap_range a).1 (wrap_range a).2

/-- The wrapped angle is the only representative in `(-π, π]`. -/
theorem wrap_unique {a b : ℝ} (h1 : -Real.pi < b) (h2 : b ≤ Real.pi) {n : ℤ} (h : b = a + n * (2 * Real.pi)) :
    wrapAngle a = b := by
  rw [← wrap_add_int a n, ← h, wrap_of_mem h1 h2]

theorem wrap_eventually {a : ℝ} (h : wrapAngle a < Real.pi) : ∀ᶠ b in 𝓝 a, wrapAngle b = b + (wrapAngle a - a) := by
  obtain ⟨n, hn⟩ := wrap_mod a
  have hr := (wrap_range a).1
  have hc : Continuous fun b : ℝ => b + (wrapAngle a - a) := by fun_prop
  have e : a + (wrapAngle a - a) = wrapAngle a := by ring
  filter_upwards [hc.continuousAt.eventually_lt_const (show (fun b : ℝ => b + (wrapAngle a - a)) a < Real.pi from lt_of_eq_of_lt e h),
    hc.continuousAt.eventually_const_lt (show -Real.pi < (fun b : ℝ => b + (wrapAngle a - a)) a from lt_of_lt_of_eq hr e.symm)] with b hb1 hb2
  exact wrap_unique hb2 hb1.le (n := n) (by rw [hn]; ring)

theorem wrap_deriv {a : ℝ} (h : wrapAngle a < Real.pi) : HasDerivAt wrapAngle 1 a := by
  have h1 : HasDerivAt (fun b : ℝ => b + (wrapAngle a - a)) 1 a := (hasDerivAt_id a).add_const _
  exact h1.congr_of_eventuallyEq (wrap_eventually h)

theorem wrap_pi : wrapAngle Real.pi = Real.pi := wrap_of_mem (by linarith [Real.pi_pos]) le_rfl

end Factorama.Geo
