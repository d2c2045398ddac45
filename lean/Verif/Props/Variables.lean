import Verif.Lemmas.Variables
import Verif.Spec.Optimizer
import Mathlib.Analysis.SpecialFunctions.Trigonometric.Bounds

/-!
# Variables: C36 – C41

The laws the graph theorems assume of a variable class (`LawfulVar`) hold for the library's classes: see the instance
`LawfulVar ℝ RVar` in `Verif/Lemmas/Variables.lean`.
-/

namespace Factorama.Props
open Matrix Spec Geo

/-! ## C36: planar headings -/

/-- **C36** After every history of construction, `set_value_from_vector`, `apply_increment`, `set_pos_2d`, `set_theta`
and `set_constant` calls the heading of a `Pose2DVariable` is in `(-π, π]`, and wrapping it again does nothing. -/
theorem C36_heading (v : Pose2DVar) (h : Pose2DReachable v) :
    -Real.pi < v.theta ∧ v.theta ≤ Real.pi ∧ wrapAngle v.theta = v.theta := by
  obtain ⟨h1, h2⟩ := pose2d_wrapped h
  exact ⟨h1, h2, wrap_of_mem h1 h2⟩

/-- **C36** The heading differs from the requested one by a multiple of `2π`, for each call that sets it, and the
position is exactly the requested one. -/
theorem C36_requested (v : Pose2DVar) (id : Int) (p : V2) (t : ℝ) (x y : ℝ) :
    (∃ n : ℤ, (Pose2DVar.make id p t).theta = t + n * (2 * Real.pi)) ∧
    (∃ n : ℤ, (v.setTheta t).theta = t + n * (2 * Real.pi)) ∧
    (∃ v', v.setValue [x, y, t] = .ok v' ∧ v'.pos = ![x, y] ∧ ∃ n : ℤ, v'.theta = t + n * (2 * Real.pi)) ∧
    (∃ v', v.applyIncr [x, y, t] = .ok v' ∧ v'.pos = ![v.pos 0 + x, v.pos 1 + y] ∧
      ∃ n : ℤ, v'.theta = v.theta + t + n * (2 * Real.pi)) :=
  ⟨wrap_mod t, wrap_mod t, ⟨_, rfl, rfl, wrap_mod t⟩, ⟨_, rfl, rfl, wrap_mod (v.theta + t)⟩⟩

/-- A history: a pose at heading 3, turned by 1, ends at `4 - 2π`. -/
example : ∃ v, Pose2DReachable v ∧ v.theta = 4 - 2 * Real.pi := by
  refine ⟨_, .applyIncr [0, 0, 1] (.make 7 ![0, 0] 3) rfl, ?_⟩
  have h3 : (Pose2DVar.make 7 ![0, 0] 3).theta = 3 :=
    wrap_of_mem (by linarith [Real.pi_gt_three]) Real.pi_gt_three.le
  show wrapAngle ((Pose2DVar.make 7 ![0, 0] 3).theta + 1) = 4 - 2 * Real.pi
  rw [h3]
  have h4 : Real.pi < 3.15 := Real.pi_lt_d2
  have h5 := Real.pi_gt_three
  exact wrap_unique (n := -1) (by linarith) (by linarith) (by push_cast; ring)

/-! ## C37: poses -/

/-- **C37** (state). After every history the rotation matrix of a `PoseVariable` is a rotation, and it is the one of the
stored rotation vector: the rotation about its direction by its length, the identity below `1e-8`. -/
theorem C37_state (v : PoseVar) (h : PoseReachable v) :
    IsRotation v.dcm ∧ (1e-8 ≤ length v.rot → v.dcm = expSO3 v.rot) ∧ (length v.rot < 1e-8 → v.dcm = 1) := by
  rw [length_eq, pose_dcm h]
  exact ⟨dcmOf_rotation _, dcmOf_exp, dcmOf_small⟩

/-- The increment `[dp, dw]`. -/
def incr6 (dp dw : V3) : List ℝ := toList dp ++ toList dw

theorem incr6_eq (v : PoseVar) (dp dw : V3) : v.applyIncr (incr6 dp dw) =
    .ok (PoseVar.recompute { v with pos := v.pos + dp, rot := logSO3 (expSO3 dw * v.dcm) }) := by
  have hl : ¬ (incr6 dp dw).length ≠ 6 := by simp [incr6, length_toList]
  have e1 : read3 (incr6 dp dw) 0 = dp := read3_toList_append _ _
  have e2 : read3 (incr6 dp dw) 3 = dw := by
    have := read3_second dp dw []; rwa [List.append_nil] at this
  rw [PoseVar.applyIncr, if_neg hl, e1, e2]

theorem exp_rotation {dw : V3} (h : dw = 0 ∨ 1e-10 ≤ length dw) : IsRotation (expSO3 dw) := by
  rcases h with rfl | h
  · have : expSO3 (0 : V3) = 1 := by
      unfold expSO3
      simp only [vnorm_eq_zero.mpr (rfl : (0 : V3) = 0)]
      rw [if_pos (by norm_num)]
      ext i j; fin_cases i <;> fin_cases j <;> simp [skew]
    rw [this]; exact isRotation_one
  · rw [length_eq] at h
    have hn : vnorm dw ≠ 0 := (lt_of_lt_of_le (by norm_num) h).ne'
    rw [exp_eq_rodrigues h]; exact rodrigues_rotation (axis_of hn).1 _

/-- **C37** (part). `apply_increment([dp, dw])` adds `dp` to the position and replaces the rotation `R` by
`ExpMapSO3(dw) R`, if the new rotation turns by at least `1e-5` and the increment `dw` is zero or at least `1e-10` long.
The claim without these conditions is false (`C37_false`); `C37_close` covers the rotations below `1e-5`. -/
theorem C37_increment_partial (v : PoseVar) (h : PoseReachable v) (dp dw : V3) (hw : dw = 0 ∨ 1e-10 ≤ length dw)
    (ha : 1e-5 ≤ angle (expSO3 dw * v.dcm)) :
    ∃ v', v.applyIncr (incr6 dp dw) = .ok v' ∧ v'.pos = v.pos + dp ∧ v'.dcm = expSO3 dw * v.dcm := by
  refine ⟨_, incr6_eq v dp dw, rfl, ?_⟩
  have hR : IsRotation (expSO3 dw * v.dcm) := rotation_mul (exp_rotation hw) (C37_state v h).1
  have he := IsRotation.eqs hR
  show PoseVar.dcmOf (logSO3 (expSO3 dw * v.dcm)) = _
  rw [dcmOf_exp (by rw [vnorm_log he ha]; exact le_trans (by norm_num) ha), exp_log he ha]

/-- **C37** (all rotations). Whatever the resulting angle, the new matrix is a rotation about the same axis as
`ExpMapSO3(dw) R`, and its angle is off by at most `2e-8`. -/
theorem C37_close (v : PoseVar) (h : PoseReachable v) (dp dw : V3) (hw : dw = 0 ∨ 1e-10 ≤ length dw) :
    ∃ v' a θ θ', v.applyIncr (incr6 dp dw) = .ok v' ∧ v'.pos = v.pos + dp ∧ length a = 1 ∧
      expSO3 dw * v.dcm = rodrigues a θ ∧ v'.dcm = rodrigues a θ' ∧ |θ - θ'| ≤ 2e-8 := by
  have hR : IsRotation (expSO3 dw * v.dcm) := rotation_mul (exp_rotation hw) (C37_state v h).1
  have he := IsRotation.eqs hR
  by_cases ha : 1e-5 ≤ angle (expSO3 dw * v.dcm)
  · obtain ⟨v', h1, h2, h3⟩ := C37_increment_partial v h dp dw hw ha
    obtain ⟨a, h4, _, h6⟩ := log_spec he ha
    exact ⟨v', a, _, _, h1, h2, by rw [length_eq]; exact vnorm_unit h4, h6.symm, h3.trans h6.symm, by norm_num⟩
  · push Not at ha
    obtain ⟨h1, h2, h3⟩ := angleAxis_spec he
    have hlog := log_small he ha
    generalize hRdef : expSO3 dw * v.dcm = R at *
    generalize hadef : (angleAxisOfMatrix R).axis = a at *
    rw [h2] at h3
    have hpos := angle_nonneg R
    generalize hθ : angle R = θ at *
    have hanti : logSO3 R = Real.sin θ • a := by
      rw [hlog, ← h3, anti_rodrigues h1, smul_smul]; congr 1; ring
    have hs0 : 0 ≤ Real.sin θ := Real.sin_nonneg_of_nonneg_of_le_pi hpos (by linarith [Real.pi_gt_three])
    have hs1 : Real.sin θ ≤ θ := Real.sin_le hpos
    have hn : vnorm (logSO3 R) = Real.sin θ := by rw [hanti, vnorm_smul, vnorm_unit h1, mul_one, abs_of_nonneg hs0]
    have hdcm : ∀ θ', PoseVar.dcmOf (logSO3 R) = rodrigues a θ' → |θ - θ'| ≤ 2e-8 →
        ∃ v' a θ θ', v.applyIncr (incr6 dp dw) = .ok v' ∧ v'.pos = v.pos + dp ∧ length a = 1 ∧
          R = rodrigues a θ ∧ v'.dcm = rodrigues a θ' ∧ |θ - θ'| ≤ 2e-8 := by
      intro θ' h5 h6
      refine ⟨_, a, θ, θ', incr6_eq v dp dw, rfl, by rw [length_eq]; exact vnorm_unit h1, h3.symm, ?_, h6⟩
      show PoseVar.dcmOf (logSO3 (expSO3 dw * v.dcm)) = _
      rw [hRdef, h5]
    have hgap : θ - Real.sin θ ≤ 1e-8 := by
      rcases eq_or_lt_of_le hpos with h0 | h0
      · rw [← h0]; simp; norm_num
      · have := Real.sin_gt_sub_cube h0
        have h6 : θ ^ 3 ≤ (1e-5) ^ 3 := pow_le_pow_left₀ hpos ha.le 3
        norm_num at h6 ⊢
        linarith
    by_cases hs : Real.sin θ < 1e-8
    · refine hdcm 0 ?_ ?_
      · rw [dcmOf_small (by rw [hn]; exact hs)]
        ext i j; fin_cases i <;> fin_cases j <;> simp [rodrigues]
      · rw [abs_of_nonneg (by linarith)]
        norm_num at hs hgap ⊢
        linarith
    · push Not at hs
      refine hdcm (Real.sin θ) ?_ ?_
      · rw [dcmOf_big (by rw [hn]; exact hs), hn, hanti]
        congr 1
        have : Real.sin θ ≠ 0 := (lt_of_lt_of_le (by norm_num) hs).ne'
        rw [vdiv_eq_smul, smul_smul, inv_mul_cancel₀ this, one_smul]
      · rw [abs_of_nonneg (by linarith)]
        norm_num at hgap ⊢
        linarith

/-- A pose rotated by a quarter turn and turned further by 1 about the same axis meets the hypotheses. -/
example : ∃ v, PoseReachable v ∧ v.dcm = rodrigues ![1, 0, 0] 1 ∧
    1e-5 ≤ angle (expSO3 ![1, 0, 0] * v.dcm) ∧ 1e-10 ≤ length (![1, 0, 0] : V3) := by
  have hu : (![1, 0, 0] : V3) ⬝ᵥ ![1, 0, 0] = 1 := by simp
  have hd : (PoseVar.make 1 0 ![1, 0, 0]).dcm = rodrigues ![1, 0, 0] 1 := by
    show PoseVar.dcmOf ![1, 0, 0] = _
    rw [dcmOf_big (by rw [vnorm_unit hu]; norm_num), vnorm_unit hu]
    congr 1
    funext i; simp [vdiv]
  have he : expSO3 ![1, 0, 0] = rodrigues ![1, 0, 0] 1 := by
    have := exp_of_axis hu (θ := 1) (by norm_num)
    rwa [one_smul] at this
  refine ⟨_, .make 1 0 ![1, 0, 0], hd, ?_, by rw [length_eq, vnorm_unit hu]; norm_num⟩
  rw [hd, he]
  have hmul : rodrigues ![1, 0, 0] 1 * rodrigues ![1, 0, 0] 1 = rodrigues ![1, 0, 0] 2 := by
    rw [rodrigues_eq _ hu, rodrigues_eq _ hu]
    have h1 : Real.cos 2 = Real.cos 1 * Real.cos 1 - Real.sin 1 * Real.sin 1 := by
      rw [← Real.cos_add]; norm_num
    have h2 : Real.sin 2 = Real.sin 1 * Real.cos 1 + Real.cos 1 * Real.sin 1 := by
      rw [← Real.sin_add]; norm_num
    ext i j
    fin_cases i <;> fin_cases j <;> simp [Matrix.mul_apply, Fin.sum_univ_three, h1, h2] <;> ring
  rw [hmul, angle_rodrigues hu (by norm_num) (by linarith [Real.pi_gt_three])]
  norm_num

theorem log_exp_tiny {w : V3} (h : vnorm w < 1e-8) : vnorm (logSO3 (expSO3 w)) < 1e-8 := by
  by_cases h0 : vnorm w < 1e-10
  · have he : expSO3 w = 1 + skew w := by unfold expSO3; simp only [h0, if_true]
    have ht : (expSO3 w) 0 0 + (expSO3 w) 1 1 + (expSO3 w) 2 2 = 3 := by
      rw [he]; simp [skew]; norm_num
    have hl : logSO3 (expSO3 w) = w := by
      unfold logSO3
      simp only [ht]
      have : Real.arccos (clampUnit ((3 - 1) * 0.5)) = 0 := by
        rw [show ((3 : ℝ) - 1) * 0.5 = 1 by norm_num, clamp_eq (by norm_num) le_rfl, Real.arccos_one]
      rw [this, if_pos (by norm_num), unskew_smul, unskew_anti, he]
      funext i; fin_cases i <;> simp [anti, skew] <;> ring
    rw [hl]; exact h
  · push Not at h0
    rw [log_exp_small h0 (lt_of_lt_of_le h (by norm_num)), vnorm_smul]
    have hp : 0 < vnorm w := lt_of_lt_of_le (by norm_num) h0
    have hs0 : 0 ≤ Real.sin (vnorm w) := Real.sin_nonneg_of_nonneg_of_le_pi hp.le (by linarith [Real.pi_gt_three])
    rw [abs_of_nonneg (div_nonneg hs0 hp.le), div_mul_cancel₀ _ hp.ne']
    exact lt_of_le_of_lt (Real.sin_le hp.le) h

/-- **C37** is false for small rotations: a pose at the identity does not turn, however often an increment with a rotation
shorter than `1e-8` is applied. -/
theorem C37_stuck (v : PoseVar) (hv : v.dcm = 1) (dp dw : V3) (hw : length dw < 1e-8) :
    ∃ v', v.applyIncr (incr6 dp dw) = .ok v' ∧ v'.pos = v.pos + dp ∧ v'.dcm = 1 := by
  refine ⟨_, incr6_eq v dp dw, rfl, ?_⟩
  rw [length_eq] at hw
  show PoseVar.dcmOf (logSO3 (expSO3 dw * v.dcm)) = 1
  rw [hv, mul_one]
  exact dcmOf_small (log_exp_tiny hw)

/-- **C37** is false as stated: the increment `[0, 0, 0, 1e-9, 0, 0]` at the identity pose does not replace the rotation
by `ExpMapSO3(dw) R`. -/
theorem C37_false : ¬ ∀ (v : PoseVar) (_ : PoseReachable v) (dp dw : V3),
    ∃ v', v.applyIncr (incr6 dp dw) = .ok v' ∧ v'.pos = v.pos + dp ∧ v'.dcm = expSO3 dw * v.dcm := by
  intro hall
  have hu : (![1, 0, 0] : V3) ⬝ᵥ ![1, 0, 0] = 1 := by simp
  have hd : (PoseVar.make 1 0 0).dcm = 1 := dcmOf_small (by rw [vnorm_eq_zero.mpr rfl]; norm_num)
  obtain ⟨v', h1, _, h3⟩ := hall (PoseVar.make 1 0 0) (.make 1 0 0) 0 ((1e-9 : ℝ) • ![1, 0, 0])
  obtain ⟨v'', g1, _, g3⟩ := C37_stuck (PoseVar.make 1 0 0) hd 0 ((1e-9 : ℝ) • ![1, 0, 0]) (by
    rw [length_eq, vnorm_smul, vnorm_unit hu, abs_of_pos (by norm_num)]; norm_num)
  rw [h1] at g1
  cases g1
  rw [g3, hd, mul_one, exp_of_axis hu (by norm_num)] at h3
  have := congrArg (fun M => anti M 0) h3
  simp only [anti_rodrigues hu] at this
  simp [anti] at this
  have hs : 0 < Real.sin 1e-9 := Real.sin_pos_of_pos_of_lt_pi (by norm_num) (by linarith [Real.pi_gt_three])
  norm_num at this hs
  linarith

/-! ## C38: planes -/

/-- **C38** After every history of construction, increments and sets to a non-zero normal, the normal has length 1. -/
theorem C38_unit (v : PlaneVar) (h : PlaneReachable v) : length v.normal = 1 := by
  rw [length_eq]; exact vnorm_unit (plane_unit h)

/-- **C38** `distance_from_point` is the signed distance: its absolute value is the smallest distance from the point to a
point of the plane `{q | n·q + d = 0}`, and moving along the normal increases it at unit rate. -/
theorem C38_distance (v : PlaneVar) (h : PlaneReachable v) (p : V3) :
    IsLeast {r | ∃ q : V3, v.normal ⬝ᵥ q + v.dist = 0 ∧ r = length (p - q)} |v.distanceFromPoint p| ∧
    ∀ t : ℝ, v.distanceFromPoint (p + t • v.normal) = v.distanceFromPoint p + t := by
  have hu := plane_unit h
  refine ⟨⟨⟨p - v.distanceFromPoint p • v.normal, ?_, ?_⟩, ?_⟩, fun t => ?_⟩
  · rw [dotProduct_sub, dotProduct_smul, hu]; unfold PlaneVar.distanceFromPoint; simp
  · rw [length_eq, sub_sub_cancel, vnorm_smul, vnorm_unit hu, mul_one]
  · rintro r ⟨q, hq, rfl⟩
    have e : v.distanceFromPoint p = v.normal ⬝ᵥ (p - q) := by
      rw [dotProduct_sub]; unfold PlaneVar.distanceFromPoint; linarith
    rw [e, length_eq]
    have := dot_le v.normal (p - q)
    rwa [vnorm_unit hu, one_mul] at this
  · unfold PlaneVar.distanceFromPoint
    rw [dotProduct_add, dotProduct_smul, hu, smul_eq_mul]; ring

/-- A plane made from a normal of length 5, then incremented. -/
example : ∃ v, PlaneReachable v ∧ v.dist = 3 := by
  have hp : 0 < (![3, 4, 0] : V3) ⬝ᵥ ![3, 4, 0] := by rw [dot3]; simp; norm_num
  have h1 : PlaneVar.make 1 ![3, 4, 0] 2 = .ok ⟨1, false, normalized ![3, 4, 0], 2⟩ := by
    unfold PlaneVar.make; rw [if_pos hp]
  have hr := PlaneReachable.make 1 ![3, 4, 0] 2 h1
  have hu := plane_unit hr
  have h2 : (⟨1, false, normalized ![3, 4, 0], 2⟩ : PlaneVar).applyIncr [0, 0, 0, 1] =
      .ok ⟨1, false, normalized (normalized ![3, 4, 0] + read3 [0, 0, 0, 1] 0), 3⟩ := by
    have e : read3 [0, 0, 0, 1] 0 = 0 := by funext i; fin_cases i <;> simp [read3]
    unfold PlaneVar.applyIncr
    simp only [e, add_zero]
    rw [if_neg (by simp), if_pos (by rw [hu]; norm_num)]
    norm_num
  exact ⟨_, .applyIncr _ hr h2, rfl⟩

/-- **C38**: without the condition on sets the claim is false; setting the value `[0, 0, 0, d]` is accepted and leaves a
zero normal. -/
theorem C38_zero_normal (v : PlaneVar) (d : ℝ) :
    v.setValue [0, 0, 0, d] = .ok { v with normal := 0, dist := d } := by
  have e : read3 [0, 0, 0, d] 0 = 0 := by funext i; fin_cases i <;> simp [read3]
  unfold PlaneVar.setValue
  rw [if_neg (by simp), e]
  simp [normalized]

/-! ## C39: inverse range -/

/-- **C39** With the default bounds the inverse range stays in `[1e-6, 1e3]`, `pos_W()` is defined and lies on the ray
from the origin along the bearing, at the distance `1 / inverse_range`. -/
theorem C39_bounds (origin bearing : V3) (hb : bearing ≠ 0) (v : InvRangeVar) (h : InvRangeReachable origin bearing v) :
    1e-6 ≤ v.inv ∧ v.inv ≤ 1e3 ∧
    ∃ p, v.posW = some p ∧ (∃ t : ℝ, 0 < t ∧ p - origin = t • bearing) ∧ length (p - origin) = 1 / v.inv := by
  obtain ⟨_, _, ho, hbe, h1, h2⟩ := invRange_inv h
  have hpos : 0 < v.inv := lt_of_lt_of_le (by norm_num) h1
  refine ⟨h1, h2, v.origin + (1 / v.inv) • v.bearing, ?_, ?_, ?_⟩
  · unfold InvRangeVar.posW
    rw [if_neg]
    rw [abs_of_pos hpos]
    push Not
    exact le_trans (by norm_num) h1
  · have hp : 0 < bearing ⬝ᵥ bearing :=
      lt_of_le_of_ne (dot_self_nonneg _) fun h0 => hb (dotProduct_self_eq_zero.mp h0.symm)
    refine ⟨1 / v.inv * (√(bearing ⬝ᵥ bearing))⁻¹, by positivity, ?_⟩
    rw [ho, hbe, add_sub_cancel_left]
    unfold normalized
    rw [if_pos hp, vdiv_eq_smul, smul_smul]
  · rw [ho, add_sub_cancel_left, length_eq, vnorm_smul, hbe, vnorm_unit (normalized_unit hb), mul_one,
      abs_of_pos (by positivity)]

/-- A point at range 5, pushed far beyond the upper bound. -/
example : ∃ v, InvRangeReachable 0 ![0, 0, 2] v ∧ v.inv = 1e3 := by
  refine ⟨_, .applyIncr [1e9] (.make 1 5) (by
    show InvRangeVar.applyIncr _ [1e9] = _
    unfold InvRangeVar.applyIncr
    rw [if_neg (by simp), if_neg (by simp [InvRangeVar.make])]), ?_⟩
  have h5 := invRange_inv (.make 1 5 : InvRangeReachable 0 ![0, 0, 2] (InvRangeVar.make 1 0 ![0, 0, 2] 5))
  show InvRangeVar.clip 1e-6 1e3 ((InvRangeVar.make 1 0 ![0, 0, 2] 5).inv + [(1e9 : ℝ)].getD 0 0) = 1e3
  unfold InvRangeVar.clip
  apply min_eq_right
  apply le_max_of_le_left
  have := h5.2.2.2.2.1
  simp
  norm_num at this ⊢
  linarith

/-! ## C40: linear variables -/

theorem zip_add_getD (a b : List ℝ) (h : b.length = a.length) (i : Nat) :
    (List.zipWith (· + ·) a b).getD i 0 = a.getD i 0 + b.getD i 0 := by
  by_cases hi : i < a.length
  · have hi' : i < b.length := by omega
    simp [List.getD_eq_getElem?_getD, hi, hi']
  · have hi' : ¬ i < b.length := by omega
    simp [List.getD_eq_getElem?_getD, hi, hi']

theorem zip_add_assoc : ∀ a b c : List ℝ, List.zipWith (· + ·) (List.zipWith (· + ·) a b) c =
    List.zipWith (· + ·) a (List.zipWith (· + ·) b c)
  | [], _, _ => by simp
  | _ :: _, [], _ => by simp
  | _ :: _, _ :: _, [] => by simp
  | a :: as, b :: bs, c :: cs => by simp [add_assoc, zip_add_assoc as bs cs]

theorem zip_add_neg : ∀ a b : List ℝ, b.length = a.length →
    List.zipWith (· + ·) (List.zipWith (· + ·) a b) (b.map (- ·)) = a
  | [], b, _ => by simp
  | a :: as, [], h => by simp at h
  | a :: as, b :: bs, h => by
    simp only [List.zipWith_cons_cons, List.map_cons]
    rw [zip_add_neg as bs (by simpa using h)]
    congr 1; ring

/-- **C40** `GenericVariable`: an increment of the right size adds componentwise and keeps the size; two increments act
like their sum; the negative increment restores the object; a wrong size throws. -/
theorem C40_generic (v : GenVar ℝ) (dx dy : List ℝ) (hx : dx.length = v.value.length) (hy : dy.length = v.value.length) :
    ∃ v', v.applyIncr dx = .ok v' ∧ v'.value.length = v.value.length ∧
      (∀ i, v'.value.getD i 0 = v.value.getD i 0 + dx.getD i 0) ∧
      v'.applyIncr dy = v.applyIncr (List.zipWith (· + ·) dx dy) ∧
      v'.applyIncr (dx.map (- ·)) = .ok v ∧
      ∀ x, x.length ≠ v.value.length → v.applyIncr x = .threw ∧ v.setValue x = .threw := by
  have hl : (List.zipWith (· + ·) v.value dx).length = v.value.length := by simp [hx]
  refine ⟨{ v with value := List.zipWith (· + ·) v.value dx }, ?_, hl, zip_add_getD _ _ hx, ?_, ?_, fun x hx' => ?_⟩
  · rw [GenVar.applyIncr, if_neg (by simp [hx])]
  · rw [GenVar.applyIncr, GenVar.applyIncr, if_neg (by simp [hx, hy]), if_neg (by simp [hx, hy])]
    simp only [zip_add_assoc]
  · rw [GenVar.applyIncr, if_neg (by simp [hx])]
    simp only [zip_add_neg _ _ hx]
  · rw [GenVar.applyIncr, GenVar.setValue, if_pos hx', if_pos hx']; exact ⟨rfl, rfl⟩

example : ∃ v', (⟨4, false, [1, 2]⟩ : GenVar ℝ).applyIncr [10, 20] = .ok v' ∧ v'.value.length = 2 ∧
    v'.applyIncr [-10, -20] = .ok ⟨4, false, [1, 2]⟩ := by
  obtain ⟨v', h1, h2, _, _, h5, _⟩ := C40_generic ⟨4, false, [1, 2]⟩ [10, 20] [1, 1] rfl rfl
  exact ⟨v', h1, h2, h5⟩

/-- **C40** `LandmarkVariable` with a value of three entries (every construction and every set of three entries). -/
theorem C40_landmark (v : LandmarkVar) (hv : v.value.length = 3) (dx dy : List ℝ) (hx : dx.length = 3)
    (hy : dy.length = 3) :
    ∃ v', v.applyIncr dx = .ok v' ∧ v'.value.length = 3 ∧
      (∀ i, v'.value.getD i 0 = v.value.getD i 0 + dx.getD i 0) ∧
      v'.applyIncr dy = v.applyIncr (List.zipWith (· + ·) dx dy) ∧
      v'.applyIncr (dx.map (- ·)) = .ok v ∧
      ∀ x, x.length ≠ 3 → v.applyIncr x = .threw := by
  have hxv : dx.length = v.value.length := by omega
  have hl : (List.zipWith (· + ·) v.value dx).length = 3 := by simp [hx, hv]
  refine ⟨{ v with value := List.zipWith (· + ·) v.value dx }, ?_, hl, zip_add_getD _ _ hxv, ?_, ?_, fun x hx' => ?_⟩
  · rw [LandmarkVar.applyIncr, if_neg (by simp [hx]), if_neg (by simp [hv])]
  · rw [LandmarkVar.applyIncr, LandmarkVar.applyIncr, if_neg (by simp [hy]), if_neg (by simp [hx, hv]),
      if_neg (by simp [hx, hy]), if_neg (by simp [hv])]
    simp only [zip_add_assoc]
  · rw [LandmarkVar.applyIncr, if_neg (by simp [hx]), if_neg (by simp [hx, hv])]
    simp only [zip_add_neg _ _ hxv]
  · rw [LandmarkVar.applyIncr, if_pos hx']

example : ∃ v', (LandmarkVar.make 4 ![1, 2, 3]).applyIncr [10, 20, 30] = .ok v' ∧
    v'.applyIncr [-10, -20, -30] = .ok (LandmarkVar.make 4 ![1, 2, 3]) := by
  obtain ⟨v', h1, _, _, _, h5, _⟩ := C40_landmark (LandmarkVar.make 4 ![1, 2, 3]) (length_toList _) [10, 20, 30] [1, 1, 1] rfl rfl
  exact ⟨v', h1, h5⟩

/-- **C40** is false for sets of a landmark: `set_value_from_vector` accepts a vector of any size, after which the
position cannot be read and increments are undefined. -/
theorem C40_landmark_set_false :
    ∃ v', (LandmarkVar.make 1 0).setValue [1, 2] = .ok v' ∧ v'.posW = .ub ∧ v'.applyIncr [0, 0, 0] = .ub :=
  ⟨_, rfl, by simp [LandmarkVar.posW], by simp [LandmarkVar.applyIncr]⟩

example : ∃ v', (⟨1, false, [1, 2]⟩ : GenVar ℝ).applyIncr [3, 4] = .ok v' ∧ v'.value = [4, 6] := by
  refine ⟨⟨1, false, [4, 6]⟩, ?_, rfl⟩
  simp [GenVar.applyIncr]; norm_num

example : (LandmarkVar.make 1 ![1, 2, 3]).value.length = 3 := by simp [LandmarkVar.make, length_toList]

/-! ## C41: writing back the value -/

/-- **C41** (all classes except `RotationVariable`; inverse-range variables with default bounds). In every reachable state,
writing back the value that was read succeeds and leaves the variable unchanged — also after increments in between:
`RestoresExactly` is what rollback needs. -/
theorem C41_partial : RestoresExactly (F := ℝ) (V := RVar) Reachable := by
  intro v hv
  cases hv with
  | generic v =>
    refine ⟨?_, fun x v' h => ?_⟩
    · show (v.setValue v.value).map RVar.generic = _
      rw [GenVar.setValue, if_neg (by simp)]; rfl
    · obtain ⟨a, ha, rfl⟩ := Res.map_ok h
      refine ⟨.generic a, ?_⟩
      simp only [GenVar.applyIncr] at ha
      split at ha
      · simp at ha
      · rename_i hx; simp at ha hx; subst ha
        show (GenVar.setValue _ v.value).map RVar.generic = _
        rw [GenVar.setValue, if_neg (by simp [hx])]; rfl
  | landmark v =>
    refine ⟨rfl, fun x v' h => ?_⟩
    obtain ⟨a, ha, rfl⟩ := Res.map_ok h
    refine ⟨.landmark a, ?_⟩
    simp only [LandmarkVar.applyIncr] at ha
    repeat' split at ha
    all_goals simp at ha
    subst ha; rfl
  | pose hr =>
    rename_i v
    have hd := pose_dcm hr
    refine ⟨?_, fun x v' h => ?_⟩
    · show (v.setValue v.value).map RVar.pose = _
      rw [pose_setValue_value v hd rfl rfl]; rfl
    · obtain ⟨a, ha, rfl⟩ := Res.map_ok h
      refine ⟨.pose (.applyIncr x hr ha), ?_⟩
      show (a.setValue v.value).map RVar.pose = _
      have : a.id = v.id ∧ a.isConst = v.isConst := by
        simp only [PoseVar.applyIncr] at ha; split at ha <;> simp at ha; subst ha; exact ⟨rfl, rfl⟩
      rw [pose_setValue_value a hd this.1 this.2]; rfl
  | invRange origin bearing hr =>
    rename_i v
    obtain ⟨h1, h2, _, _, h5, h6⟩ := invRange_inv hr
    refine ⟨?_, fun x v' h => ?_⟩
    · show (v.setValue v.value).map RVar.invRange = _
      rw [invRange_setValue_value v (by rw [h1]; exact h5) (by rw [h2]; exact h6) rfl]; rfl
    · obtain ⟨a, ha, rfl⟩ := Res.map_ok h
      refine ⟨.invRange origin bearing (.applyIncr x hr ha), ?_⟩
      show (a.setValue v.value).map RVar.invRange = _
      have : a = { v with inv := a.inv, extra := a.extra } := by
        simp only [InvRangeVar.applyIncr] at ha
        repeat' split at ha
        all_goals simp at ha
        subst ha; rfl
      rw [invRange_setValue_value a (by rw [h1]; exact h5) (by rw [h2]; exact h6) this]; rfl
  | plane hr =>
    rename_i v
    have hd := plane_unit hr
    refine ⟨?_, fun x v' h => ?_⟩
    · show (v.setValue v.value).map RVar.plane = _
      rw [plane_setValue_value v hd rfl rfl]; rfl
    · obtain ⟨a, ha, rfl⟩ := Res.map_ok h
      refine ⟨.plane (.applyIncr x hr ha), ?_⟩
      show (a.setValue v.value).map RVar.plane = _
      have : a.id = v.id ∧ a.isConst = v.isConst := by
        simp only [PlaneVar.applyIncr] at ha
        repeat' split at ha
        all_goals simp at ha
        subst ha; exact ⟨rfl, rfl⟩
      rw [plane_setValue_value a hd this.1 this.2]; rfl
  | pose2d hr =>
    rename_i v
    have hd := pose2d_wrapped hr
    refine ⟨?_, fun x v' h => ?_⟩
    · show (v.setValue v.value).map RVar.pose2d = _
      rw [pose2d_setValue_value v hd rfl rfl]; rfl
    · obtain ⟨a, ha, rfl⟩ := Res.map_ok h
      refine ⟨.pose2d (.applyIncr x hr ha), ?_⟩
      show (a.setValue v.value).map RVar.pose2d = _
      have : a.id = v.id ∧ a.isConst = v.isConst := by
        simp only [Pose2DVar.applyIncr] at ha; split at ha <;> simp at ha; subst ha; exact ⟨rfl, rfl⟩
      rw [pose2d_setValue_value a hd this.1 this.2]; rfl

/-- A reachable pose, as a variable of the sum type. -/
example : Reachable (.pose (PoseVar.make 1 ![1, 2, 3] ![0, 0, 1])) := .pose (.make _ _ _)

/-- **C41** (`RotationVariable`, part). In every reachable state whose matrix is a rotation by at least `1e-5`, writing
back the value leaves the variable unchanged. For smaller angles this is false: `C41_rotation_false`. -/
theorem C41_rotation_partial (v : RotationVar) (h : RotationReachable v) (hR : IsRotation v.dcm)
    (ha : 1e-5 ≤ angle v.dcm) : v.setValue (toList v.vec) = .ok v := by
  have hinv : v.vec = logSO3 v.dcm ∨ v.dcm = expSO3 v.vec := by
    clear hR ha
    induction h with
    | make id dcm _ => exact .inl rfl
    | setValue x _ hs =>
      simp only [RotationVar.setValue] at hs; split at hs <;> simp at hs; subst hs; exact .inr rfl
    | applyIncr dx _ hs =>
      simp only [RotationVar.applyIncr] at hs; split at hs <;> simp at hs; subst hs; exact .inl rfl
    | setConst b _ ih => exact ih
  have hd : expSO3 v.vec = v.dcm := by
    rcases hinv with h | h
    · rw [h]; exact exp_log (IsRotation.eqs hR) ha
    · exact h.symm
  rw [RotationVar.setValue, if_neg (by simp [length_toList]), read3_toList, hd]

example : RotationReachable (RotationVar.make 1 (rodrigues ![1, 0, 0] 1)) ∧ 1e-5 ≤ angle (rodrigues ![1, 0, 0] 1) := by
  have hu : (![1, 0, 0] : V3) ⬝ᵥ ![1, 0, 0] = 1 := by simp
  refine ⟨.make _ _ (rodrigues_rotation hu 1), ?_⟩
  rw [angle_rodrigues hu (by norm_num) (by linarith [Real.pi_gt_three])]
  norm_num

/-- **C41** is false for `RotationVariable`: one constructed from a rotation by `1e-6` changes when its own value is
written back, because the stored vector is `sin(1e-6)` long. -/
theorem C41_rotation_false : ¬ ∀ v, RotationReachable v → v.setValue (toList v.vec) = .ok v := by
  intro hall
  have hu : (![1, 0, 0] : V3) ⬝ᵥ ![1, 0, 0] = 1 := by simp
  have hR := rodrigues_rotation hu 1e-6
  have h := hall _ (.make 1 _ hR)
  have hang := angle_rodrigues hu (θ := 1e-6) (by norm_num) (by linarith [Real.pi_gt_three])
  have hlog : logSO3 (rodrigues ![1, 0, 0] 1e-6) = Real.sin 1e-6 • ![1, 0, 0] := by
    rw [log_small (IsRotation.eqs hR) (by rw [hang]; norm_num), anti_rodrigues hu, smul_smul]
    congr 1; ring
  have hs0 : 0 < Real.sin 1e-6 := Real.sin_pos_of_pos_of_lt_pi (by norm_num) (by linarith [Real.pi_gt_three])
  have hs1 : Real.sin 1e-6 < 1e-6 := Real.sin_lt (by norm_num)
  have hs2 : 1e-10 ≤ Real.sin 1e-6 := by
    have := Real.sin_gt_sub_cube (x := 1e-6) (by norm_num)
    norm_num at this ⊢
    linarith
  rw [RotationVar.setValue, if_neg (by simp [length_toList]), read3_toList] at h
  simp only [Res.ok.injEq, RotationVar.mk.injEq, RotationVar.make] at h
  have hd := h.2.2.2
  rw [hlog, exp_of_axis hu hs2] at hd
  have e : angle (rodrigues ![1, 0, 0] (Real.sin 1e-6)) = 1e-6 := by rw [hd]; exact hang
  rw [angle_rodrigues hu hs0.le (by linarith [Real.pi_gt_three])] at e
  linarith

/-- **C41** is false for an `InverseRangeVariable` whose public bounds are changed: the stored value is then outside, and
writing it back clips it. -/
theorem C41_invRange_bounds_false :
    ∃ v : InvRangeVar, v = { InvRangeVar.make 1 0 ![0, 0, 1] 1 with hi := 0.5 } ∧ v.inv = 1 ∧
      v.setValue v.value = .ok { v with inv := 0.5 } := by
  have h1 : InvRangeVar.initialInv 1 = 1 := by
    unfold InvRangeVar.initialInv InvRangeVar.clip; norm_num
  refine ⟨_, rfl, h1, ?_⟩
  simp only [InvRangeVar.setValue, InvRangeVar.value, InvRangeVar.make, h1]
  congr 2
  unfold InvRangeVar.clip; norm_num

end Factorama.Props
