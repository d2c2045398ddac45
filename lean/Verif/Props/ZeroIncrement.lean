import Verif.Props.Variables
import Verif.Props.Geometry
import Verif.Lemmas.Factors

/-!
# Property C69: zero increments
-/

namespace Factorama.Props
open Spec Geo Matrix

/-- States in which the stored numbers are the ones `apply_increment` itself would store: landmarks and inverse ranges have
as many entries as `size()` says, the rotation vector of a pose is zero or has a length in `[1e-5, π)`, and the vector of a
rotation variable is the logarithm of its matrix. -/
def Canonical : RVar → Prop
  | .generic _ => True
  | .landmark v => v.value.length = 3
  | .pose v => v.rot = 0 ∨ (1e-5 ≤ length v.rot ∧ length v.rot < Real.pi)
  | .rotation v => v.vec = logSO3 v.dcm
  | .invRange v => v.extra = []
  | .plane _ => True
  | .pose2d _ => True

theorem zipWith_zeros (x : List ℝ) (n : Nat) (h : x.length = n) : List.zipWith (· + ·) x (List.replicate n 0) = x := by
  subst h
  induction x with
  | nil => rfl
  | cons y x ih => simp [List.replicate_succ, ih]

theorem read3_zeros (n k : Nat) : read3 (List.replicate n 0) k = 0 := by
  funext i
  simp only [read3, List.getD_eq_getElem?_getD, List.getElem?_replicate, Pi.zero_apply]
  split <;> rfl

theorem pose_zero (v : PoseVar) : v.applyIncr (List.replicate 6 0) = .ok (PoseVar.recompute { v with rot := logSO3 v.dcm }) := by
  rw [PoseVar.applyIncr, if_neg (by simp), read3_zeros, read3_zeros, exp_zero, one_mul, add_zero]

/-- **C69**, as far as it holds: `apply_increment` with a vector of zeros leaves a variable in a canonical state exactly
as it is. -/
theorem C69_partial (v : RVar) (h : Reachable v ∨ ∃ w, v = .rotation w) (hc : Canonical v) :
    VarLike.applyIncr v (List.replicate (VarLike.size v) (0 : ℝ)) = .ok v := by
  cases v with
  | generic v =>
    show (v.applyIncr (List.replicate v.value.length 0)).map RVar.generic = _
    rw [GenVar.applyIncr, if_neg (by simp), zipWith_zeros _ _ rfl]; rfl
  | landmark v =>
    show (v.applyIncr (List.replicate 3 0)).map RVar.landmark = _
    have hc : v.value.length = 3 := hc
    rw [LandmarkVar.applyIncr, if_neg (by simp), if_neg (by simp [hc]), zipWith_zeros _ _ hc]; rfl
  | pose v =>
    show (v.applyIncr (List.replicate 6 0)).map RVar.pose = _
    obtain h | ⟨_, h⟩ := h
    · cases h with | pose h =>
      have hd := pose_dcm h
      rw [pose_zero]
      have hlog : logSO3 v.dcm = v.rot := by
        rcases hc with hc | ⟨h1, h2⟩
        · rw [hd, hc, dcmOf_small (by rw [vnorm_eq_zero.mpr rfl]; norm_num), log_one]
        · rw [length_eq] at h1 h2
          rw [hd, dcmOf_exp (le_trans (by norm_num) h1), log_exp h1 h2]
      rw [hlog]
      obtain ⟨i, c, p, r, e, d⟩ := v
      simp only [PoseVar.recompute, Res.map] at hd ⊢
      rw [← hd]
    · simp at h
  | rotation v =>
    show (v.applyIncr (List.replicate 3 0)).map RVar.rotation = _
    have hc : v.vec = logSO3 v.dcm := hc
    rw [RotationVar.applyIncr, if_neg (by simp), read3_zeros, exp_zero, one_mul, ← hc]; rfl
  | invRange v =>
    show (v.applyIncr (List.replicate 1 0)).map RVar.invRange = _
    obtain h | ⟨_, h⟩ := h
    · cases h with | invRange _ _ h =>
      obtain ⟨h1, h2, _, _, h3, h4⟩ := invRange_inv h
      have hc : v.extra = [] := hc
      rw [InvRangeVar.applyIncr, if_neg (by simp), if_neg (by simp [hc])]
      simp [clip_id (h1 ▸ h3) (h2 ▸ h4), Res.map]
    · simp at h
  | plane v =>
    show (v.applyIncr (List.replicate 4 0)).map RVar.plane = _
    obtain h | ⟨_, h⟩ := h
    · cases h with | plane h =>
      have hu := plane_unit h
      rw [PlaneVar.applyIncr, if_neg (by simp), read3_zeros, add_zero, if_pos (by rw [hu]; norm_num), normalized_of_unit hu]
      simp [Res.map, List.replicate_succ]
    · simp at h
  | pose2d v =>
    show (v.applyIncr (List.replicate 3 0)).map RVar.pose2d = _
    obtain h | ⟨_, h⟩ := h
    · cases h with | pose2d h =>
      have hw := pose2d_wrapped h
      rw [Pose2DVar.applyIncr, if_neg (by simp)]
      have hp : ![v.pos 0, v.pos 1] = v.pos := by funext i; fin_cases i <;> rfl
      simp [Res.map, List.replicate_succ, wrap_of_mem hw.1 hw.2, hp]
    · simp at h

/-- A canonical variable of each class. -/
example : (Reachable (.pose (PoseVar.make 1 0 ![1, 0, 0])) ∧ Canonical (.pose (PoseVar.make 1 0 ![1, 0, 0]))) ∧
    Canonical (.rotation (RotationVar.make 1 1)) ∧ Canonical (.invRange (InvRangeVar.make 1 0 ![0, 0, 1] 2)) ∧
    Canonical (.landmark (LandmarkVar.make 1 ![1, 2, 3])) := by
  refine ⟨⟨.pose (.make _ _ _), .inr ?_⟩, rfl, rfl, ?_⟩
  · show 1e-5 ≤ length ![1, 0, 0] ∧ length ![1, 0, 0] < Real.pi
    rw [length_e0 (by norm_num)]
    exact ⟨by norm_num, by linarith [Real.pi_gt_three]⟩
  · simp [Canonical, LandmarkVar.make, length_toList]

/-- **C69**, for every state of a pose whose rotation angle is at least `1e-5`, or whose matrix is the identity: position and
matrix stay (the rotation vector may be replaced by the shortest one for the same rotation). -/
theorem C69_pose_partial (v : PoseVar) (h : PoseReachable v) (ha : 1e-5 ≤ angle v.dcm ∨ v.dcm = 1) :
    ∃ v', v.applyIncr (List.replicate 6 0) = .ok v' ∧ v'.pos = v.pos ∧ v'.dcm = v.dcm := by
  have hz : (List.replicate 6 0 : List ℝ) = incr6 0 0 := by simp [incr6, toList, List.ofFn_succ, List.replicate_succ]
  have he : expSO3 0 * v.dcm = v.dcm := by rw [exp_zero, one_mul]
  rcases ha with ha | ha
  · obtain ⟨v', h1, h2, h3⟩ := C37_increment_partial v h 0 0 (.inl rfl) (by rw [he]; exact ha)
    exact ⟨v', by rw [hz, h1], by rw [h2, add_zero], by rw [h3, he]⟩
  · obtain ⟨v', h1, h2, h3⟩ := C37_stuck v ha 0 0 (by rw [length_eq, vnorm_eq_zero.mpr rfl]; norm_num)
    exact ⟨v', by rw [hz, h1], by rw [h2, add_zero], by rw [h3, ha]⟩

/-- A pose whose stored rotation vector is longer than π. -/
example : PoseReachable (PoseVar.make 1 0 ![4, 0, 0]) ∧ 1e-5 ≤ angle (PoseVar.make 1 0 ![4, 0, 0]).dcm := by
  refine ⟨.make _ _ _, ?_⟩
  have hn : vnorm (![4, 0, 0] : V3) = 4 := by rw [← length_eq]; exact length_e0 (by norm_num)
  have hu : (![1, 0, 0] : V3) ⬝ᵥ ![1, 0, 0] = 1 := by simp
  have hv : vdiv (![4, 0, 0] : V3) 4 = ![1, 0, 0] := by funext i; fin_cases i <;> simp [vdiv]
  show 1e-5 ≤ angle (PoseVar.dcmOf ![4, 0, 0])
  rw [dcmOf_big (by rw [hn]; norm_num), hn, hv, angle, trace_rodrigues hu,
    show (1 + 2 * Real.cos 4 - 1) / 2 = Real.cos 4 by ring]
  have hc : Real.cos 4 < 0 := Real.cos_neg_of_pi_div_two_lt_of_lt (by linarith [Real.pi_lt_four]) (by linarith [Real.pi_gt_three])
  have := (Real.arccos_le_pi_div_two (x := Real.cos 4)).not.mpr (not_le.mpr hc)
  linarith [Real.pi_gt_three]

/-- **C69**, for every state of a rotation variable: the matrix stays. -/
theorem C69_rotation (v : RotationVar) :
    ∃ v', v.applyIncr (List.replicate 3 0) = .ok v' ∧ v'.dcm = v.dcm := by
  refine ⟨{ v with vec := logSO3 v.dcm }, ?_, rfl⟩
  rw [RotationVar.applyIncr, if_neg (by simp), read3_zeros, exp_zero, one_mul]

/-- **C69** is false as stated: a zero increment turns a pose whose rotation is `1e-6` about the first axis into one whose
rotation is `sin 1e-6`. -/
theorem C69_false : ¬ ∀ v : PoseVar, PoseReachable v →
    ∃ v', v.applyIncr (List.replicate 6 0) = .ok v' ∧ v'.pos = v.pos ∧ v'.dcm = v.dcm := by
  intro hall
  obtain ⟨v', h1, _, h3⟩ := hall (PoseVar.make 1 0 ![1e-6, 0, 0]) (.make _ _ _)
  have hu : (![1, 0, 0] : V3) ⬝ᵥ ![1, 0, 0] = 1 := by simp
  have key : ∀ c : ℝ, 1e-8 ≤ c → PoseVar.dcmOf ![c, 0, 0] = rodrigues ![1, 0, 0] c := by
    intro c hc
    have hc0 : c ≠ 0 := (lt_of_lt_of_le (by norm_num) hc).ne'
    have hn : vnorm (![c, 0, 0] : V3) = c := by rw [← length_eq]; exact length_e0 (le_trans (by norm_num) hc)
    rw [dcmOf_big (by rw [hn]; exact hc), hn]
    congr 1
    funext i; fin_cases i <;> simp [vdiv, hc0]
  have hn : vnorm (![1e-6, 0, 0] : V3) = 1e-6 := by rw [← length_eq]; exact length_e0 (by norm_num)
  have hlt : Real.sin 1e-6 < 1e-6 := Real.sin_lt (by norm_num)
  have hgt : 1e-8 ≤ Real.sin 1e-6 := by
    have := Real.sin_gt_sub_cube (x := 1e-6) (by norm_num)
    norm_num at this ⊢
    linarith
  have hlog : logSO3 (PoseVar.dcmOf ![1e-6, 0, 0]) = ![Real.sin 1e-6, 0, 0] := by
    rw [dcmOf_exp (by rw [hn]; norm_num), log_exp_small (by rw [hn]; norm_num) (by rw [hn]; norm_num), hn]
    funext i; fin_cases i <;> simp
    norm_num
  rw [pose_zero] at h1
  obtain rfl := Res.ok.inj h1
  have h3 : PoseVar.dcmOf (logSO3 (PoseVar.dcmOf ![1e-6, 0, 0])) = PoseVar.dcmOf ![1e-6, 0, 0] := h3
  rw [hlog, key _ hgt, key _ (by norm_num)] at h3
  have h4 := angle_rodrigues hu (θ := Real.sin 1e-6) (le_trans (by norm_num) hgt) (by linarith [Real.pi_gt_three])
  have h5 := angle_rodrigues hu (θ := 1e-6) (by norm_num) (by linarith [Real.pi_gt_three])
  rw [h3, h5] at h4
  linarith

end Factorama.Props
