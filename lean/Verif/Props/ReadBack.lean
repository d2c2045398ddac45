import Verif.Props.Variables

/-!
# C87: what is set is what is read back
-/

namespace Factorama.Props
open Spec Geo Matrix

/-! ### Poses -/

theorem rotOfDcm_spec {R : M3} (hR : IsRotation R) :
    vnorm (PoseVar.rotOfDcm R) = angle R ∧ (1e-8 ≤ angle R → PoseVar.dcmOf (PoseVar.rotOfDcm R) = R) := by
  obtain ⟨h1, h2, h3⟩ := angleAxis_spec (IsRotation.eqs hR)
  have h0 : 0 ≤ angle R := Real.arccos_nonneg _
  have hn : vnorm (PoseVar.rotOfDcm R) = angle R := by
    rw [PoseVar.rotOfDcm, vnorm_smul, vnorm_unit h1, mul_one, h2, abs_of_nonneg h0]
  refine ⟨hn, fun ha => ?_⟩
  have hpos : angle R ≠ 0 := (lt_of_lt_of_le (by norm_num) ha).ne'
  rw [dcmOf_big (by rw [hn]; exact ha), hn, vdiv_eq_smul, PoseVar.rotOfDcm, smul_smul, h2, inv_mul_cancel₀ hpos, one_smul,
    ← h2]
  exact h3

/-- **C87** (orientation of a pose, part). A pose constructed from a position and a rotation matrix `R`, or given `R` by
`set_dcm_CW`, has the orientation `R` if `R` turns by at least `1e-8`; the position is the given one, or unchanged. -/
theorem C87_pose_partial (id : Int) (p : V3) (R : M3) (hR : IsRotation R) (ha : 1e-8 ≤ angle R) :
    ((PoseVar.makeDcm id p R).pos = p ∧ (PoseVar.makeDcm id p R).dcm = R) ∧
    ∀ v : PoseVar, (v.setDcm R).pos = v.pos ∧ (v.setDcm R).dcm = R :=
  ⟨⟨rfl, (rotOfDcm_spec hR).2 ha⟩, fun _ => ⟨rfl, (rotOfDcm_spec hR).2 ha⟩⟩

theorem C87.unit : (![1, 0, 0] : V3) ⬝ᵥ ![1, 0, 0] = 1 := by simp

theorem C87.turn {θ : ℝ} (h0 : 0 ≤ θ) (h1 : θ ≤ 1) : IsRotation (rodrigues ![1, 0, 0] θ) ∧ angle (rodrigues ![1, 0, 0] θ) = θ :=
  ⟨rodrigues_rotation C87.unit θ, angle_rodrigues C87.unit h0 (by linarith [Real.pi_gt_three])⟩

/-- A rotation by 1 rad. -/
example (v : PoseVar) : (v.setDcm (rodrigues ![1, 0, 0] 1)).dcm = rodrigues ![1, 0, 0] 1 := by
  have h := C87.turn (θ := 1) (by norm_num) (by norm_num)
  exact ((C87_pose_partial 1 0 _ h.1 (by rw [h.2]; norm_num)).2 v).2

/-- **C87** (orientation of a pose, small rotations). A rotation by less than `1e-8` is replaced by none. -/
theorem C87_pose_small (id : Int) (p : V3) (R : M3) (hR : IsRotation R) (ha : angle R < 1e-8) :
    (PoseVar.makeDcm id p R).dcm = 1 ∧ ∀ v : PoseVar, (v.setDcm R).dcm = 1 := by
  have : PoseVar.dcmOf (PoseVar.rotOfDcm R) = 1 := dcmOf_small (by rw [(rotOfDcm_spec hR).1]; exact ha)
  exact ⟨this, fun _ => this⟩

/-- A rotation by `1e-9` rad. -/
example : (PoseVar.makeDcm 1 0 (rodrigues ![1, 0, 0] 1e-9)).dcm = 1 := by
  have h := C87.turn (θ := 1e-9) (by norm_num) (by norm_num)
  exact (C87_pose_small 1 0 _ h.1 (by rw [h.2]; norm_num)).1

/-- **C87** is false for orientations of poses: `set_dcm_CW(R)` with a rotation by `1e-9` leaves the identity. -/
theorem C87_pose_false : ¬ ∀ (v : PoseVar) (R : M3), IsRotation R → (v.setDcm R).dcm = R := by
  intro H
  have h := C87.turn (θ := 1e-9) (by norm_num) (by norm_num)
  have h1 := H (PoseVar.make 1 0 0) _ h.1
  rw [(C87_pose_small 1 0 _ h.1 (by rw [h.2]; norm_num)).2] at h1
  have h2 := h.2
  rw [← h1] at h2
  have h3 : angle (1 : M3) = 0 := by
    unfold angle
    rw [Matrix.trace_one]
    norm_num
  rw [h3] at h2
  norm_num at h2

/-- **C87** (vector of a pose). Construction from a vector, `set_pose_vector` and `set_value_from_vector` with six entries:
`value()` returns the given vector. `set_pos_W` sets the position and leaves the orientation alone. -/
theorem C87_pose_vector (id : Int) (p r : V3) :
    (PoseVar.make id p r).value = toList p ++ toList r ∧
    (∀ v : PoseVar, (v.setPoseVector p r).value = toList p ++ toList r) ∧
    (∀ v : PoseVar, ∃ v', v.setValue (toList p ++ toList r) = .ok v' ∧ v'.value = toList p ++ toList r) ∧
    ∀ v : PoseVar, (v.setPosW p).pos = p ∧ (v.setPosW p).rot = v.rot ∧ (v.setPosW p).dcm = v.dcm := by
  refine ⟨by simp [PoseVar.value, PoseVar.make, PoseVar.recompute],
    fun v => by simp [PoseVar.value, PoseVar.setPoseVector, PoseVar.recompute], fun v => ?_, fun v => ⟨rfl, rfl, rfl⟩⟩
  have hl : ¬ (toList p ++ toList r).length < 6 := by simp [length_toList]
  have e2 : read3 (toList p ++ toList r) 3 = r := by have := read3_second p r []; rwa [List.append_nil] at this
  have e3 : (toList p ++ toList r).drop 6 = [] := List.drop_of_length_le (by simp [length_toList])
  rw [PoseVar.setValue, if_neg hl, read3_toList_append, e2, e3]
  exact ⟨_, rfl, by simp [PoseVar.value, PoseVar.recompute]⟩

/-- A pose set to a position and a rotation vector. -/
example : ((PoseVar.make 1 0 0).setPoseVector ![1, 2, 3] ![0, 0, 1]).value = [1, 2, 3, 0, 0, 1] := by
  rw [(C87_pose_vector 1 ![1, 2, 3] ![0, 0, 1]).2.1]
  simp [toList3]

/-! ### The other classes -/

/-- **C87** (`RotationVariable`): the matrix of a new variable is the given one; after setting a vector, `value()` is this
vector and the matrix its exponential. -/
theorem C87_rotation (id : Int) (R : M3) (x : V3) :
    (RotationVar.make id R).dcm = R ∧
    ∀ v : RotationVar, ∃ v', v.setValue (toList x) = .ok v' ∧ v'.vec = x ∧ v'.dcm = expSO3 x := by
  refine ⟨rfl, fun v => ?_⟩
  rw [RotationVar.setValue, if_neg (by simp [length_toList]), read3_toList]
  exact ⟨_, rfl, rfl, rfl⟩

/-- A rotation variable set to a rotation by 1 rad. -/
example := C87_rotation 1 (rodrigues ![1, 0, 0] 1) ![0, 0, 1]

/-- **C87** (planes): construction and sets keep the direction of a non-zero normal, make it a unit vector, and keep the
distance. -/
theorem C87_plane (id : Int) (n : V3) (d : ℝ) (hn : n ≠ 0) :
    (∃ v, PlaneVar.make id n d = .ok v ∧ v.dist = d ∧ length v.normal = 1 ∧ ∃ t : ℝ, 0 < t ∧ v.normal = t • n) ∧
    ∀ v : PlaneVar, ∃ v', v.setValue (toList n ++ [d]) = .ok v' ∧ v'.dist = d ∧ length v'.normal = 1 ∧
      ∃ t : ℝ, 0 < t ∧ v'.normal = t • n := by
  have hp : 0 < n ⬝ᵥ n := lt_of_le_of_ne (dot_self_nonneg _) fun h0 => hn (dotProduct_self_eq_zero.mp h0.symm)
  have hu : length (normalized n) = 1 := by rw [length_eq]; exact vnorm_unit (normalized_unit hn)
  have ht : ∃ t : ℝ, 0 < t ∧ normalized n = t • n := by
    refine ⟨(√(n ⬝ᵥ n))⁻¹, by positivity, ?_⟩
    unfold normalized
    rw [if_pos hp, vdiv_eq_smul]
  refine ⟨⟨_, by rw [PlaneVar.make, if_pos hp], rfl, hu, ht⟩, fun v => ?_⟩
  have hd : (toList n ++ [d]).getD 3 0 = d := by rw [toList3]; rfl
  rw [PlaneVar.setValue, if_neg (by simp [length_toList]), read3_toList_append, hd]
  exact ⟨_, rfl, rfl, hu, ht⟩

/-- The normal `[0, 0, 2]`. -/
example : ∃ v, PlaneVar.make 1 ![0, 0, 2] 5 = .ok v ∧ v.dist = 5 ∧ length v.normal = 1 ∧ ∃ t : ℝ, 0 < t ∧ v.normal = t • ![0, 0, 2] :=
  (C87_plane 1 ![0, 0, 2] 5 fun h => by simpa using congrFun h 2).1

/-- **C87** (planar poses): the position is kept exactly; the angle is kept up to full turns, and exactly if it lies in
`(-π, π]`. `set_theta` and `set_pos_2d` leave the other part alone. -/
theorem C87_pose2d (id : Int) (p : V2) (a : ℝ) :
    let kept (b : ℝ) := (∃ n : ℤ, b = a + n * (2 * Real.pi)) ∧ (-Real.pi < a → a ≤ Real.pi → b = a)
    ((Pose2DVar.make id p a).pos = p ∧ kept (Pose2DVar.make id p a).theta) ∧
    (∀ v : Pose2DVar, ∃ v', v.setValue [p 0, p 1, a] = .ok v' ∧ v'.pos = p ∧ kept v'.theta) ∧
    (∀ v : Pose2DVar, (v.setTheta a).pos = v.pos ∧ kept (v.setTheta a).theta) ∧
    ∀ v : Pose2DVar, (v.setPos p).pos = p ∧ (v.setPos p).theta = v.theta := by
  intro kept
  have hk : kept (wrapAngle a) := ⟨wrap_mod a, fun h1 h2 => wrap_of_mem h1 h2⟩
  refine ⟨⟨rfl, hk⟩, fun v => ⟨_, rfl, ?_, hk⟩, fun v => ⟨rfl, hk⟩, fun v => ⟨rfl, rfl⟩⟩
  funext i
  fin_cases i <;> rfl

/-- An angle in the range, and one beyond it. -/
example : (Pose2DVar.make 1 ![1, 2] 3).theta = 3 ∧ ∃ n : ℤ, (Pose2DVar.make 1 ![1, 2] 30).theta = 30 + n * (2 * Real.pi) :=
  ⟨(C87_pose2d 1 ![1, 2] 3).1.2.2 (by linarith [Real.pi_gt_three]) Real.pi_gt_three.le, (C87_pose2d 1 ![1, 2] 30).1.2.1⟩

/-- **C87** (inverse ranges): a variable made for a range between 1 mm and 1000 km is at this range, in the direction of the
given bearing; a set inverse range within the bounds is kept. -/
theorem C87_inverse_range (id : Int) (origin bearing : V3) (hb : bearing ≠ 0) (range : ℝ) (h1 : 1e-3 ≤ range) (h2 : range ≤ 1e6) :
    (∃ q, (InvRangeVar.make id origin bearing range).posW = some q ∧ length (q - origin) = range ∧
      ∃ t : ℝ, 0 < t ∧ q - origin = t • bearing) ∧
    ∀ (v : InvRangeVar) (x : ℝ), v.lo ≤ x → x ≤ v.hi → ∃ v', v.setValue [x] = .ok v' ∧ v'.value = [x] := by
  have hr : 0 < range := lt_of_lt_of_le (by norm_num) h1
  have hinv : (InvRangeVar.make id origin bearing range).inv = 1 / range := by
    show InvRangeVar.initialInv range = _
    have a1 : (1e-6 : ℝ) ≤ 1 / range := by
      rw [le_div_iff₀ hr]; nlinarith
    have a2 : 1 / range ≤ 1e3 := by
      rw [div_le_iff₀ hr]; nlinarith
    rw [InvRangeVar.initialInv, if_neg hr.ne', InvRangeVar.clip, max_eq_left a1, min_eq_left a2]
  refine ⟨?_, fun v x hlo hhi => ⟨_, rfl, ?_⟩⟩
  · obtain ⟨_, _, q, hq, ⟨t, ht, he⟩, hlen⟩ := C39_bounds origin bearing hb _ (.make id range)
    exact ⟨q, hq, by rw [hlen, hinv, one_div_one_div], t, ht, he⟩
  · simp only [InvRangeVar.value, InvRangeVar.clip, max_eq_left hlo, min_eq_left hhi]

/-- A point 5 m ahead. -/
example := C87_inverse_range 1 0 ![0, 0, 2] (fun h => by simpa using congrFun h 2) 5 (by norm_num) (by norm_num)

/-- **C87** (landmarks): construction, `set_pos_W` and `set_value_from_vector` with three entries keep the position. -/
theorem C87_landmark (id : Int) (p : V3) :
    (LandmarkVar.make id p).posW = .ok p ∧ ∀ v : LandmarkVar, (v.setPosW p).posW = .ok p ∧
      ∃ v', v.setValue (toList p) = .ok v' ∧ v'.posW = .ok p := by
  have h : (if (toList p).length = 3 then Res.ok (read3 (toList p) 0) else .ub) = .ok p := by
    rw [if_pos (length_toList p), read3_toList]
  exact ⟨h, fun v => ⟨h, _, rfl, h⟩⟩

example := C87_landmark 1 ![1, 2, 3]

/-- **C87** (generic variables): a non-empty vector is accepted and kept; later sets keep vectors of the same size and
refuse others. -/
theorem C87_generic (id : Int) (x : List ℝ) (hx : x ≠ []) :
    (∃ v, GenVar.make id x = .ok v ∧ v.value = x) ∧
    ∀ v : GenVar ℝ, (x.length = v.value.length → ∃ v', v.setValue x = .ok v' ∧ v'.value = x) ∧
      (x.length ≠ v.value.length → v.setValue x = .threw) := by
  refine ⟨⟨_, by rw [GenVar.make, if_neg (by simpa using hx)], rfl⟩, fun v => ⟨fun h => ⟨_, by rw [GenVar.setValue, if_neg (by simpa using h)], rfl⟩, fun h => ?_⟩⟩
  rw [GenVar.setValue, if_pos h]

example := C87_generic 1 [1, 2] (by simp)

end Factorama.Props
