import Verif.Spec.Equivalent
import Verif.Lemmas.Wrap
import Verif.Lemmas.Rotation
import Verif.Lemmas.Variables
import Verif.Props.FactorsBearing

/-!
# C139: the same measurement, written differently

Whole turns of an angle and the length of a direction do not matter.
-/

namespace Factorama
open Spec Matrix Geo

theorem Spec.SameAngle.wrap {a b : ℝ} (h : SameAngle a b) : wrapAngle b = wrapAngle a := by
  obtain ⟨n, rfl⟩ := h
  exact wrap_add_int a n

theorem Spec.SameAngle.sub {a b : ℝ} (h : SameAngle a b) (c : ℝ) : wrapAngle (c - b) = wrapAngle (c - a) := by
  obtain ⟨n, rfl⟩ := h
  have := wrap_add_int (c - (a + n * (2 * Real.pi))) n
  rw [← this]
  congr 1
  ring

theorem Spec.SameAngle.add {a b : ℝ} (h : SameAngle a b) (c : ℝ) : wrapAngle (c + b) = wrapAngle (c + a) := by
  obtain ⟨n, rfl⟩ := h
  rw [← add_assoc]
  exact wrap_add_int (c + a) n

theorem Spec.SameDirection.normalized {u v : V3} (h : SameDirection u v) : normalized v = normalized u := by
  obtain ⟨k, hk, rfl⟩ := h
  by_cases hu : u = 0
  · rw [hu, smul_zero]
  · exact (Props.normalized_eq_iff hu).2 ⟨k, hk, rfl⟩

theorem Spec.SameDirection.length {u v : V3} (h : SameDirection u v) : 0 < v ⬝ᵥ v ↔ 0 < u ⬝ᵥ u := by
  obtain ⟨k, hk, rfl⟩ := h
  rw [smul_dotProduct, dotProduct_smul, smul_eq_mul, smul_eq_mul, mul_pos_iff_of_pos_left hk, mul_pos_iff_of_pos_left hk]

end Factorama

namespace Factorama.Props
open Spec Matrix Geo

/-- **C139.** The constructors make the same factor of the same measurement, in every build, and refuse it alike. -/
theorem C139 (t : BuildType) (h : Heap RVar) (id : Int) {a a' : FactorArgs} (hs : EquivalentArgs a a') :
    construct t h id a' = construct t h id a := by
  cases hs with
  | bearing2D p l sigma hs => simp only [construct, Fac.bearing2D, hs.sub]
  | rangeBearing2D p l range rs bs hs => simp only [construct, Fac.rangeBearing2D, hs.sub]
  | pose2DPrior p x y ps as hs =>
    have e := hs.sub
    simp only [construct, Fac.pose2DPrior, cons_val_zero, cons_val_one, cons_val]
    simp only [e]
  | bearingObservation p l sigma hs => simp only [construct, Fac.bearingObservation, hs.normalized]
  | inverseRangeBearing p r sigma hs => simp only [construct, Fac.inverseRangeBearing, hs.normalized]
  | bearingProjection p l sigma tol hs => simp only [construct, Fac.bearingProjection, hs.normalized]
  | planePrior l dist ns ds hs => simp only [construct, Fac.planePrior, hs.normalized, hs.length]

/-- A bearing of 350° is one of -10°. -/
example (t : BuildType) (h : Heap RVar) (id : Int) (p l : Option VRef) (σ : ℝ) :
    construct t h id (.bearing2D p l (35 * Real.pi / 18) σ) = construct t h id (.bearing2D p l (-(Real.pi / 18)) σ) :=
  C139 t h id (.bearing2D p l σ ⟨1, by push_cast; ring⟩)

example (t : BuildType) (h : Heap RVar) (id : Int) (p l : Option VRef) (σ : ℝ) :
    construct t h id (.bearingObservation p l ![3, 0, 6] σ) = construct t h id (.bearingObservation p l ![1, 0, 2] σ) :=
  C139 t h id (.bearingObservation p l σ ⟨3, by norm_num, by norm_num⟩)

/-- **C139, directions.** Nothing less than the direction matters: two bearing factors whose bearings do not point in the same
direction differ in their residuals wherever both can be evaluated. -/
theorem C139_directions (id : Int) (p l : VRef) {b b' : V3} {σ : ℝ} (hσ : σ ≠ 0) (hb : b ≠ 0) (h : Heap RVar) {r : List ℝ}
    (hr : (Fac.bearingObservation id p l b σ).computeResidual h = .ok r) :
    (Fac.bearingObservation id p l b' σ).computeResidual h = .ok r ↔ SameDirection b b' := by
  constructor
  · intro hr'
    simp only [Fac.bearingObservation] at hr hr'
    split at hr
    · rename_i v x e1 e2
      rw [e1, e2] at hr'
      simp only at hr'
      cases hx : x.posW with
      | ok pw =>
        rw [hx] at hr hr'
        simp only [Res.map, Res.ok.injEq] at hr hr'
        have e := List.ofFn_injective (hr'.trans hr.symm)
        have e := smul_right_injective _ (one_div_ne_zero hσ) e
        obtain ⟨k, hk, e⟩ := (normalized_eq_iff hb).1 (sub_right_injective e)
        exact ⟨k, hk, e⟩
      | threw => rw [hx] at hr; cases hr
      | ub => rw [hx] at hr; cases hr
    · cases hr
  · intro hs
    rw [← hr]
    simp only [Fac.bearingObservation, hs.normalized]

/-- Opposite bearings have different residuals. -/
example {h : Heap RVar} {r : List ℝ} (hr : (Fac.bearingObservation 5 0 1 ![1, 0, 0] 2).computeResidual h = .ok r) :
    (Fac.bearingObservation 5 0 1 ![-1, 0, 0] 2).computeResidual h ≠ .ok r := by
  intro hr'
  obtain ⟨k, hk, e⟩ := (C139_directions 5 0 1 two_ne_zero (fun e => by simpa using congrFun e 0) h hr).1 hr'
  have := congrFun e 0
  simp at this
  linarith

/-- **C139, planar poses.** Whole turns do not matter where an angle is given to a planar pose: when it is made or set, or when it is
moved. -/
theorem C139_planar {θ θ' : ℝ} (hs : SameAngle θ θ') :
    (∀ id pos, Pose2DVar.make id pos θ' = Pose2DVar.make id pos θ) ∧ ∀ v : Pose2DVar, v.setTheta θ' = v.setTheta θ ∧
      (∀ x y, v.setValue [x, y, θ'] = v.setValue [x, y, θ]) ∧ ∀ x y, v.applyIncr [x, y, θ'] = v.applyIncr [x, y, θ] := by
  refine ⟨fun id pos => ?_, fun v => ⟨?_, fun x y => ?_, fun x y => ?_⟩⟩
  · simp only [Pose2DVar.make, hs.wrap]
  · simp only [Pose2DVar.setTheta, hs.wrap]
  · simp [Pose2DVar.setValue, hs.wrap]
  · simp [Pose2DVar.applyIncr, hs.add]

example (v : Pose2DVar) : v.setTheta (3 * Real.pi) = v.setTheta Real.pi :=
  ((C139_planar ⟨1, by push_cast; ring⟩).2 v).1

/-- **C139, relative planar poses.** A measured relative pose may be given with whole turns: residual and Jacobians are the same. -/
theorem C139_between (id : Int) {a b m : VRef} (ha : m ≠ a) (hb : m ≠ b) (ps as : ℝ) (localFrame : Bool) {h h' : Heap RVar}
    (hh : ∀ r, r ≠ m → h' r = h r) {i : Int} {c : Bool} {x y θ θ' : ℝ} (hm : h m = .generic ⟨i, c, [x, y, θ]⟩)
    (hm' : h' m = .generic ⟨i, c, [x, y, θ']⟩) (hs : SameAngle θ θ') :
    (Fac.pose2DBetween id a b m ps as localFrame).computeResidual h' = (Fac.pose2DBetween id a b m ps as localFrame).computeResidual h ∧
    ∀ old, (Fac.pose2DBetween id a b m ps as localFrame).computeJacobians h' old =
      (Fac.pose2DBetween id a b m ps as localFrame).computeJacobians h old := by
  have ea := hh a ha.symm
  have eb := hh b hb.symm
  constructor
  · simp only [Fac.pose2DBetween, ea, eb, hm, hm']
    have e1 : VarLike.value (F := ℝ) (RVar.generic ⟨i, c, [x, y, θ']⟩) = [x, y, θ'] := rfl
    have e2 : VarLike.value (F := ℝ) (RVar.generic ⟨i, c, [x, y, θ]⟩) = [x, y, θ] := rfl
    split
    · simp only [e1, e2]
      simp [hs.sub]
    · rfl
  · intro old
    simp only [Fac.pose2DBetween, ea, eb, hm, hm']
    rfl

/-- Two poses and their measured relative pose. -/
def C139.heap (p q : V2) (θ φ t : ℝ) : Heap RVar
  | 0 => .pose2d ⟨0, false, p, θ⟩
  | 1 => .pose2d ⟨1, false, q, φ⟩
  | 2 => .generic ⟨2, true, [1, 2, t]⟩
  | _ => .generic ⟨3, true, []⟩

example (σ : ℝ) (localFrame : Bool) (p q : V2) (θ φ : ℝ) :
    (Fac.pose2DBetween 5 0 1 2 σ σ localFrame).computeResidual (C139.heap p q θ φ (2 * Real.pi)) =
      (Fac.pose2DBetween 5 0 1 2 σ σ localFrame).computeResidual (C139.heap p q θ φ 0) :=
  (C139_between (h := C139.heap p q θ φ 0) (h' := C139.heap p q θ φ (2 * Real.pi)) 5 (by decide) (by decide) σ σ localFrame (fun r hr => by
    match r with
    | 0 => rfl
    | 1 => rfl
    | 2 => exact absurd rfl hr
    | _ + 3 => rfl) rfl rfl ⟨1, by push_cast; ring⟩).1

/-- **C139, planes and inverse ranges.** Only the direction of the normal of a plane and of the bearing of an inverse range matter. -/
theorem C139_normals {n n' : V3} (hs : SameDirection n n') :
    (∀ id d, PlaneVar.make id n' d = PlaneVar.make id n d) ∧
    (∀ (v : PlaneVar) d, v.setValue (toList n' ++ [d]) = v.setValue (toList n ++ [d])) ∧
    ∀ id origin range, InvRangeVar.make id origin n' range = InvRangeVar.make id origin n range := by
  refine ⟨fun id d => ?_, fun v d => ?_, fun id o r => ?_⟩
  · simp only [PlaneVar.make, hs.normalized, hs.length]
  · have e : ∀ u : V3, v.setValue (toList u ++ [d]) = .ok { v with normal := normalized u, dist := d } := fun u => by
      have hr := read3_toList_append u [d]
      simp only [toList, List.ofFn_succ, List.ofFn_zero, List.cons_append, List.nil_append] at hr ⊢
      simp [PlaneVar.setValue]
      exact congrArg normalized hr
    rw [e, e, hs.normalized]
  · simp only [InvRangeVar.make, hs.normalized]

example (id : Int) (d : ℝ) : PlaneVar.make id ![0, 0, 5] d = PlaneVar.make id ![0, 0, 1] d :=
  (C139_normals ⟨5, by norm_num, by norm_num⟩).1 id d

/-- **C139, rotation vectors.** Poses made from rotation vectors about the same axis whose lengths differ by whole turns have the same
position and rotation matrix, if neither vector is shorter than 1e-8. -/
theorem C139_rotation (id : Int) (pos rot : V3) (n : ℤ) (h : 1e-8 ≤ vnorm rot)
    (h' : 1e-8 ≤ vnorm (rot + (n * (2 * Real.pi) / vnorm rot) • rot)) :
    (PoseVar.make id pos (rot + (n * (2 * Real.pi) / vnorm rot) • rot)).pos = (PoseVar.make id pos rot).pos ∧
    (PoseVar.make id pos (rot + (n * (2 * Real.pi) / vnorm rot) • rot)).dcm = (PoseVar.make id pos rot).dcm := by
  refine ⟨rfl, ?_⟩
  show PoseVar.dcmOf _ = PoseVar.dcmOf _
  rw [dcmOf_exp h, dcmOf_exp h']
  have hpos : 0 < vnorm rot := lt_of_lt_of_le (by norm_num) h
  obtain ⟨ha, e⟩ := axis_of hpos.ne'
  generalize vdiv rot (vnorm rot) = a at ha e
  generalize vnorm rot = θ at *
  subst e
  have e' : θ • a + (n * (2 * Real.pi) / θ) • θ • a = (θ + n * (2 * Real.pi)) • a := by
    rw [smul_smul, div_mul_cancel₀ _ hpos.ne', ← add_smul]
  rw [e'] at h' ⊢
  rw [vnorm_smul, vnorm_unit ha, mul_one] at h'
  have hper : rodrigues a (θ + n * (2 * Real.pi)) = rodrigues a θ := by
    rw [rodrigues, rodrigues, Real.sin_add_int_mul_two_pi, Real.cos_add_int_mul_two_pi]
  rw [exp_of_axis ha (le_trans (by norm_num) h), ← hper]
  rcases le_or_gt 0 (θ + n * (2 * Real.pi)) with h0 | h0
  · rw [abs_of_nonneg h0] at h'
    exact exp_of_axis ha (le_trans (by norm_num) h')
  · rw [abs_of_neg h0] at h'
    have hna : -a ⬝ᵥ -a = 1 := by rw [neg_dotProduct_neg, ha]
    have := exp_of_axis hna (le_trans (by norm_num) h')
    rw [neg_smul_neg] at this
    rw [this]
    simp only [rodrigues, Real.sin_neg, Real.cos_neg]
    have hk : skew (-a) = -skew a := by
      ext i j
      fin_cases i <;> fin_cases j <;> simp [skew]
    rw [hk, neg_smul_neg, neg_mul_neg]

/-- A rotation by one radian, and by 2π less. -/
example (id : Int) (pos : V3) : (PoseVar.make id pos (![1, 0, 0] + ((-1 : ℤ) * (2 * Real.pi) / vnorm ![1, 0, 0]) • ![1, 0, 0])).dcm =
    (PoseVar.make id pos ![1, 0, 0]).dcm := by
  have h1 : vnorm (![1, 0, 0] : V3) = 1 := vnorm_unit (by simp [dotProduct, Fin.sum_univ_three])
  refine (C139_rotation id pos ![1, 0, 0] (-1) (by rw [h1]; norm_num) ?_).2
  have e : (![1, 0, 0] : V3) + (((-1 : ℤ) : ℝ) * (2 * Real.pi) / vnorm ![1, 0, 0]) • ![1, 0, 0] = (1 - 2 * Real.pi) • ![1, 0, 0] := by
    rw [h1]
    push_cast
    module
  rw [e, vnorm_smul, h1, mul_one]
  have := Real.pi_gt_three
  rw [abs_of_neg (by linarith)]
  norm_num
  linarith

end Factorama.Props
