import Verif.Spec.Variables
import Verif.Lemmas.LogExp
import Verif.Lemmas.Wrap

/-!
# The variable classes: laws and invariants
-/

namespace Factorama
open Matrix Geo Spec

theorem Res.map_ok {α β : Type} {f : α → β} {r : Res α} {b : β} (h : r.map f = .ok b) : ∃ a, r = .ok a ∧ b = f a := by
  cases r <;> simp_all [Res.map]

theorem toList3 (v : V3) : toList v = [v 0, v 1, v 2] := by
  simp [toList, List.ofFn_succ]

theorem read3_toList_append (v : V3) (l : List ℝ) : read3 (toList v ++ l) 0 = v := by
  rw [toList3]; funext i; fin_cases i <;> simp [read3]

theorem read3_toList (v : V3) : read3 (toList v) 0 = v := by
  have := read3_toList_append v []; rwa [List.append_nil] at this

theorem read3_second (v w : V3) (l : List ℝ) : read3 (toList v ++ toList w ++ l) 3 = w := by
  rw [toList3, toList3]; funext i; fin_cases i <;> simp [read3]

theorem length_toList {n : Nat} (v : Fin n → ℝ) : (toList v).length = n := by simp [toList]

noncomputable instance : LawfulVar ℝ RVar where
  id_setConst v b := by cases v <;> rfl
  isConst_setConst v b := by cases v <;> rfl
  size_setConst v b := by cases v <;> rfl
  id_setValue v v' x h := by
    cases v <;> obtain ⟨a, ha, rfl⟩ := Res.map_ok h
    · exact LawfulVar.id_setValue (V := GenVar ℝ) _ _ _ ha
    · cases ha; rfl
    · simp only [PoseVar.setValue] at ha; split at ha <;> simp at ha; subst ha; rfl
    · simp only [RotationVar.setValue] at ha; split at ha <;> simp at ha; subst ha; rfl
    · simp only [InvRangeVar.setValue] at ha; split at ha <;> simp at ha; subst ha; rfl
    · simp only [PlaneVar.setValue] at ha; split at ha <;> simp at ha; subst ha; rfl
    · simp only [Pose2DVar.setValue] at ha; split at ha <;> simp at ha; subst ha; rfl
  isConst_setValue v v' x h := by
    cases v <;> obtain ⟨a, ha, rfl⟩ := Res.map_ok h
    · exact LawfulVar.isConst_setValue (V := GenVar ℝ) _ _ _ ha
    · cases ha; rfl
    · simp only [PoseVar.setValue] at ha; split at ha <;> simp at ha; subst ha; rfl
    · simp only [RotationVar.setValue] at ha; split at ha <;> simp at ha; subst ha; rfl
    · simp only [InvRangeVar.setValue] at ha; split at ha <;> simp at ha; subst ha; rfl
    · simp only [PlaneVar.setValue] at ha; split at ha <;> simp at ha; subst ha; rfl
    · simp only [Pose2DVar.setValue] at ha; split at ha <;> simp at ha; subst ha; rfl
  size_setValue v v' x h := by
    cases v <;> obtain ⟨a, ha, rfl⟩ := Res.map_ok h
    · exact LawfulVar.size_setValue (V := GenVar ℝ) _ _ _ ha
    all_goals rfl
  id_applyIncr v v' x h := by
    cases v <;> obtain ⟨a, ha, rfl⟩ := Res.map_ok h
    · exact LawfulVar.id_applyIncr (V := GenVar ℝ) _ _ _ ha
    · simp only [LandmarkVar.applyIncr] at ha; repeat' split at ha
      all_goals simp at ha
      subst ha; rfl
    · simp only [PoseVar.applyIncr] at ha; split at ha <;> simp at ha; subst ha; rfl
    · simp only [RotationVar.applyIncr] at ha; split at ha <;> simp at ha; subst ha; rfl
    · simp only [InvRangeVar.applyIncr] at ha; repeat' split at ha
      all_goals simp at ha
      subst ha; rfl
    · simp only [PlaneVar.applyIncr] at ha; repeat' split at ha
      all_goals simp at ha
      subst ha; rfl
    · simp only [Pose2DVar.applyIncr] at ha; split at ha <;> simp at ha; subst ha; rfl
  isConst_applyIncr v v' x h := by
    cases v <;> obtain ⟨a, ha, rfl⟩ := Res.map_ok h
    · exact LawfulVar.isConst_applyIncr (V := GenVar ℝ) _ _ _ ha
    · simp only [LandmarkVar.applyIncr] at ha; repeat' split at ha
      all_goals simp at ha
      subst ha; rfl
    · simp only [PoseVar.applyIncr] at ha; split at ha <;> simp at ha; subst ha; rfl
    · simp only [RotationVar.applyIncr] at ha; split at ha <;> simp at ha; subst ha; rfl
    · simp only [InvRangeVar.applyIncr] at ha; repeat' split at ha
      all_goals simp at ha
      subst ha; rfl
    · simp only [PlaneVar.applyIncr] at ha; repeat' split at ha
      all_goals simp at ha
      subst ha; rfl
    · simp only [Pose2DVar.applyIncr] at ha; split at ha <;> simp at ha; subst ha; rfl
  size_applyIncr v v' x h := by
    cases v <;> obtain ⟨a, ha, rfl⟩ := Res.map_ok h
    · exact LawfulVar.size_applyIncr (V := GenVar ℝ) _ _ _ ha
    all_goals rfl

/-! ## Planar poses -/

theorem pose2d_wrapped {v : Pose2DVar} (h : Pose2DReachable v) : -Real.pi < v.theta ∧ v.theta ≤ Real.pi := by
  induction h with
  | make id pos theta => exact wrap_range theta
  | setValue x _ hs =>
    simp only [Pose2DVar.setValue] at hs; split at hs <;> simp at hs; subst hs; exact wrap_range _
  | applyIncr dx _ hs =>
    simp only [Pose2DVar.applyIncr] at hs; split at hs <;> simp at hs; subst hs; exact wrap_range _
  | setPos p _ ih => exact ih
  | setTheta t _ _ => exact wrap_range t
  | setConst b _ ih => exact ih

/-! ## Poses -/

theorem dcmOf_big {rot : V3} (h : 1e-8 ≤ vnorm rot) : PoseVar.dcmOf rot = rodrigues (vdiv rot (vnorm rot)) (vnorm rot) := by
  have hn : vnorm rot ≠ 0 := (lt_of_lt_of_le (by norm_num) h).ne'
  unfold PoseVar.dcmOf
  simp only [not_lt.mpr h, if_false]
  exact toMatrix_eq_rodrigues (axis_of hn).1

theorem dcmOf_small {rot : V3} (h : vnorm rot < 1e-8) : PoseVar.dcmOf rot = 1 := by
  unfold PoseVar.dcmOf; simp only [h, if_true]

theorem isRotation_one : IsRotation (1 : M3) := ⟨by simp, by simp⟩

theorem dcmOf_rotation (rot : V3) : IsRotation (PoseVar.dcmOf rot) := by
  by_cases h : vnorm rot < 1e-8
  · rw [dcmOf_small h]; exact isRotation_one
  · push Not at h
    have hn : vnorm rot ≠ 0 := (lt_of_lt_of_le (by norm_num) h).ne'
    rw [dcmOf_big h]; exact rodrigues_rotation (axis_of hn).1 _

theorem dcmOf_exp {rot : V3} (h : 1e-8 ≤ vnorm rot) : PoseVar.dcmOf rot = expSO3 rot := by
  rw [dcmOf_big h, exp_eq_rodrigues (le_trans (by norm_num) h)]

theorem pose_dcm {v : PoseVar} (h : PoseReachable v) : v.dcm = PoseVar.dcmOf v.rot := by
  induction h with
  | make id pos rot => rfl
  | makeDcm id pos dcm _ => rfl
  | setValue x _ hs =>
    simp only [PoseVar.setValue] at hs; split at hs <;> simp at hs; subst hs; rfl
  | applyIncr dx _ hs =>
    simp only [PoseVar.applyIncr] at hs; split at hs <;> simp at hs; subst hs; rfl
  | setPoseVector p r _ _ => rfl
  | setPosW p _ ih => exact ih
  | setDcm dcm _ _ _ => rfl
  | setConst b _ ih => exact ih

theorem pose_setValue_value {v : PoseVar} (w : PoseVar) (h : v.dcm = PoseVar.dcmOf v.rot) (h1 : w.id = v.id)
    (h2 : w.isConst = v.isConst) : w.setValue v.value = .ok v := by
  have hl : ¬ v.value.length < 6 := by simp [PoseVar.value, length_toList]; omega
  rw [PoseVar.setValue, if_neg hl]
  have e1 : read3 v.value 0 = v.pos := by
    unfold PoseVar.value; rw [List.append_assoc]; exact read3_toList_append _ _
  have e2 : read3 v.value 3 = v.rot := read3_second _ _ _
  have e3 : v.value.drop 6 = v.extra := by
    unfold PoseVar.value
    rw [List.drop_append_of_le_length (by simp [length_toList])]
    simp [toList3]
  rw [e1, e2, e3]
  obtain ⟨i, c, p, r, e, d⟩ := v
  obtain ⟨i', c', p', r', e', d'⟩ := w
  simp only at h h1 h2
  subst h1 h2 h
  rfl

/-! ## Planes -/

theorem normalized_unit {n : Nat} {v : Fin n → ℝ} (h : v ≠ 0) : normalized v ⬝ᵥ normalized v = 1 := by
  have hp : 0 < v ⬝ᵥ v := lt_of_le_of_ne (dot_self_nonneg v) fun h0 => h (dotProduct_self_eq_zero.mp h0.symm)
  unfold normalized
  rw [if_pos hp]
  exact (axis_of (v := v) (fun h0 => h (vnorm_eq_zero.mp h0))).1

theorem normalized_of_unit {n : Nat} {v : Fin n → ℝ} (h : v ⬝ᵥ v = 1) : normalized v = v := by
  unfold normalized
  rw [if_pos (by rw [h]; norm_num), h, Real.sqrt_one]
  funext i; simp [vdiv]

theorem ne_zero_of_pos {n : Nat} {v : Fin n → ℝ} (h : 0 < v ⬝ᵥ v) : v ≠ 0 := by
  rintro rfl; simp at h

theorem plane_unit {v : PlaneVar} (h : PlaneReachable v) : v.normal ⬝ᵥ v.normal = 1 := by
  induction h with
  | make id normal d hs =>
    simp only [PlaneVar.make] at hs
    split at hs
    · rename_i hp; simp at hs; subst hs; exact normalized_unit (ne_zero_of_pos hp)
    · simp at hs
  | setValue x _ hx hs =>
    simp only [PlaneVar.setValue] at hs; split at hs <;> simp at hs; subst hs; exact normalized_unit hx
  | applyIncr dx _ hs =>
    simp only [PlaneVar.applyIncr] at hs
    split at hs
    · simp at hs
    · split at hs
      · rename_i hp; simp at hs; subst hs; exact normalized_unit (ne_zero_of_pos hp)
      · simp at hs
  | setConst b _ ih => exact ih

theorem plane_setValue_value {v : PlaneVar} (w : PlaneVar) (h : v.normal ⬝ᵥ v.normal = 1) (h1 : w.id = v.id)
    (h2 : w.isConst = v.isConst) : w.setValue v.value = .ok v := by
  have hl : ¬ v.value.length ≠ 4 := by simp [PlaneVar.value, length_toList]
  rw [PlaneVar.setValue, if_neg hl]
  have e1 : read3 v.value 0 = v.normal := read3_toList_append _ _
  have e2 : v.value.getD 3 0 = v.dist := by simp [PlaneVar.value, toList3]
  rw [e1, e2, normalized_of_unit h]
  obtain ⟨i, c, n, d⟩ := v
  obtain ⟨i', c', n', d'⟩ := w
  simp only at h1 h2
  subst h1 h2
  rfl

theorem dot_le {n : Nat} (a b : Fin n → ℝ) : |a ⬝ᵥ b| ≤ vnorm a * vnorm b := by
  have h : (a ⬝ᵥ b) ^ 2 ≤ (a ⬝ᵥ a) * (b ⬝ᵥ b) := by
    have := Finset.sum_mul_sq_le_sq_mul_sq Finset.univ a b
    simpa [dotProduct, sq] using this
  rw [← Real.sqrt_sq_eq_abs, vnorm, vnorm, ← Real.sqrt_mul (dot_self_nonneg a)]
  exact Real.sqrt_le_sqrt h

/-! ## Inverse range -/

theorem clip_bounds {lo hi x : ℝ} (h : lo ≤ hi) : lo ≤ InvRangeVar.clip lo hi x ∧ InvRangeVar.clip lo hi x ≤ hi :=
  ⟨le_min (le_max_right _ _) h, min_le_right _ _⟩

theorem clip_id {lo hi x : ℝ} (h1 : lo ≤ x) (h2 : x ≤ hi) : InvRangeVar.clip lo hi x = x := by
  unfold InvRangeVar.clip; rw [max_eq_left h1, min_eq_left h2]

theorem invRange_inv {origin bearing : V3} {v : InvRangeVar} (h : InvRangeReachable origin bearing v) :
    v.lo = 1e-6 ∧ v.hi = 1e3 ∧ v.origin = origin ∧ v.bearing = normalized bearing ∧ 1e-6 ≤ v.inv ∧ v.inv ≤ 1e3 := by
  have hb : (1e-6 : ℝ) ≤ 1e3 := by norm_num
  induction h with
  | make id range =>
    refine ⟨rfl, rfl, rfl, rfl, ?_⟩
    show 1e-6 ≤ InvRangeVar.initialInv range ∧ InvRangeVar.initialInv range ≤ 1e3
    unfold InvRangeVar.initialInv
    split
    · exact ⟨hb, le_rfl⟩
    · exact clip_bounds hb
  | setValue x _ hs ih =>
    obtain ⟨h1, h2, h3, h4, _⟩ := ih
    simp only [InvRangeVar.setValue] at hs; split at hs <;> simp at hs; subst hs
    exact ⟨h1, h2, h3, h4, by dsimp only; rw [h1, h2]; exact clip_bounds hb⟩
  | applyIncr dx _ hs ih =>
    obtain ⟨h1, h2, h3, h4, _⟩ := ih
    simp only [InvRangeVar.applyIncr] at hs
    split at hs
    · simp at hs
    · split at hs
      · simp at hs
      · simp at hs; subst hs
        exact ⟨h1, h2, h3, h4, by dsimp only; rw [h1, h2]; exact clip_bounds hb⟩
  | setConst b _ ih => exact ih

theorem invRange_setValue_value {v : InvRangeVar} (w : InvRangeVar) (h1 : v.lo ≤ v.inv) (h2 : v.inv ≤ v.hi)
    (hw : w = { v with inv := w.inv, extra := w.extra }) : w.setValue v.value = .ok v := by
  rw [hw]
  simp only [InvRangeVar.setValue, InvRangeVar.value, clip_id h1 h2]

/-! ## Planar poses: write-back -/

theorem pose2d_setValue_value {v : Pose2DVar} (w : Pose2DVar) (h : -Real.pi < v.theta ∧ v.theta ≤ Real.pi)
    (h1 : w.id = v.id) (h2 : w.isConst = v.isConst) : w.setValue v.value = .ok v := by
  obtain ⟨i, c, p, t⟩ := v
  obtain ⟨i', c', p', t'⟩ := w
  simp only at h1 h2
  subst h1 h2
  have hp : ![p 0, p 1] = p := by funext k; fin_cases k <;> rfl
  simp only [Pose2DVar.setValue, Pose2DVar.value]
  simp [wrap_of_mem h.1 h.2, hp]

end Factorama
