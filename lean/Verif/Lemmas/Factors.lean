import Verif.Lemmas.Increments

/-!
# Tools for the derivatives of factor residuals
-/

namespace Factorama.Geo
open Matrix Spec Topology Filter

/-! ### Blocks and buffers -/

theorem fillBlocks_ok {n : Nat} {old bs : List (Mat ℝ)} (h : bs.length = n) : Fac.fillBlocks n old bs = .ok bs := by
  subst h
  unfold Fac.fillBlocks Fac.writeBlocks
  rw [if_pos le_rfl]
  split
  · rename_i h; rw [← h, List.drop_length, List.append_nil]
  · simp

theorem isDerivative_mat {incr : Increment} {f : Factor ℝ RVar} {h : Heap RVar} {r : VRef} {m n : Nat} {J : Mat ℝ}
    {A : Matrix (Fin m) (Fin n) ℝ} (hJr : J.rows = m) (hJc : J.cols = n) (hJ : ∀ (i : Fin m) (j : Fin n), J.entry i j = A i j)
    (F : (Fin n → ℝ) → Fin m → ℝ) (hr : f.residualSize = m)
    (hs : VarLike.size (h r) = n) (h0 : f.computeResidual h = .ok (toList (F 0)))
    (hF : ∀ᶠ d in 𝓝 0, residualAfter incr f h r (List.ofFn d) = .ok (toList (F d)))
    (hd : HasVecDeriv F (fun u => A *ᵥ u) 0) : IsDerivative incr f h r J := by
  subst hJr hJc
  refine ⟨hr.symm, hs.symm, F, h0, hF, ?_⟩
  have := hd.hasFDerivAt
  rw [show A = Matrix.of fun (i : Fin J.rows) (j : Fin J.cols) => J.entry i j from by ext i j; exact (hJ i j).symm] at this
  exact this

theorem isDerivative_of {incr : Increment} {f : Factor ℝ RVar} {h : Heap RVar} {r : VRef} {m n : Nat}
    {A : Matrix (Fin m) (Fin n) ℝ} (F : (Fin n → ℝ) → Fin m → ℝ) (hr : f.residualSize = m)
    (hs : VarLike.size (h r) = n) (h0 : f.computeResidual h = .ok (toList (F 0)))
    (hF : ∀ᶠ d in 𝓝 0, residualAfter incr f h r (List.ofFn d) = .ok (toList (F d)))
    (hd : HasVecDeriv F (fun u => A *ᵥ u) 0) : IsDerivative incr f h r (Mat.ofMatrix A) :=
  isDerivative_mat (A := A) rfl rfl (fun i j => by simp [Mat.ofMatrix]) F hr hs h0 hF hd

theorem block_ok {incr : Increment} {f : Factor ℝ RVar} {h : Heap RVar} {r : VRef} {m n : Nat}
    {A : Matrix (Fin m) (Fin n) ℝ} (hA : IsDerivative incr f h r (Mat.ofMatrix A)) :
    ∃ r', some r = some r' ∧
      if VarLike.isConst (h r') then Fac.block (h r) A = Mat.empty else IsDerivative incr f h r' (Fac.block (h r) A) := by
  refine ⟨r, rfl, ?_⟩
  unfold Fac.block
  split
  · rfl
  · exact hA

theorem set_same {V : Type} (h : Heap V) (r : VRef) (v : V) : h.set r v r = v := by simp [Heap.set]
theorem set_other {V : Type} (h : Heap V) {r r' : VRef} (v : V) (hne : r' ≠ r) : h.set r v r' = h r' := by
  simp [Heap.set, hne]

theorem IsDerivative.get {incr : Increment} {f : Factor ℝ RVar} {h : Heap RVar} {r : VRef} {m n : Nat}
    {A : Matrix (Fin m) (Fin n) ℝ} (hA : IsDerivative incr f h r (Mat.ofMatrix A)) :
    ∃ F : (Fin n → ℝ) → Fin m → ℝ, f.computeResidual h = .ok (List.ofFn (F 0)) ∧
      (∀ᶠ d in 𝓝 0, residualAfter incr f h r (List.ofFn d) = .ok (List.ofFn (F d))) ∧ HasFDerivAt F (jac A) 0 := by
  obtain ⟨_, _, F, h0, hF, hd⟩ := hA
  have hAe : (Matrix.of fun (i : Fin m) (j : Fin n) => (Mat.ofMatrix A).entry i j) = A := by
    ext i j; simp [Mat.ofMatrix]
  refine ⟨F, h0, hF, ?_⟩
  rw [← hAe]
  exact hd

/-- A direction in which the residual does not change lies in the kernel of the derivative. -/
theorem IsDerivative.unchanged {incr : Increment} {f : Factor ℝ RVar} {h : Heap RVar} {r : VRef} {m n : Nat}
    {A : Matrix (Fin m) (Fin n) ℝ} (hA : IsDerivative incr f h r (Mat.ofMatrix A)) (e : Fin n → ℝ)
    (he : ∀ᶠ t : ℝ in 𝓝[>] 0, residualAfter incr f h r (List.ofFn (t • e)) = f.computeResidual h) : A *ᵥ e = 0 := by
  obtain ⟨F, h0, hF, hd⟩ := IsDerivative.get hA
  have hline : HasDerivAt (fun t : ℝ => t • e) e 0 := by simpa using (hasDerivAt_id (0 : ℝ)).smul_const e
  have hz : (0 : ℝ) • e = 0 := zero_smul ℝ e
  have hg : HasDerivAt (fun t : ℝ => F (t • e)) (A *ᵥ e) 0 :=
    HasFDerivAt.comp_hasDerivAt (l := F) (l' := jac A) (x := (0 : ℝ)) (f := fun t : ℝ => t • e) (by rw [hz]; exact hd) hline
  have hev : (fun t : ℝ => F (t • e)) =ᶠ[𝓝[>] 0] fun _ => F 0 := by
    have hc : Tendsto (fun t : ℝ => t • e) (𝓝[>] 0) (𝓝 0) := by
      have := hline.continuousAt.tendsto
      rw [hz] at this
      exact this.mono_left nhdsWithin_le_nhds
    filter_upwards [he, hc.eventually hF] with t h1 h2
    rw [h2, h0, Res.ok.injEq, List.ofFn_inj] at h1
    exact h1
  have hw := (hg.hasDerivWithinAt (s := Set.Ioi 0)).congr_of_eventuallyEq hev.symm (by rw [hz])
  exact (uniqueDiffWithinAt_Ioi (0 : ℝ)).eq_deriv _ hw (hasDerivWithinAt_const _ _ _)

/-! ### Motions of the variables -/

theorem PoseIncrement.any {v : PoseVar} {incr : Increment} (h : PoseIncrement v incr) : AnyIncrement incr := by
  cases h
  · exact .exact
  · exact .code

/-- A pose moves as documented. -/
structure PoseMotion (v : PoseVar) (γ : (Fin 6 → ℝ) → PoseVar) : Prop where
  pos : ∀ d, (γ d).pos = v.pos + incPos d
  start : (γ 0).dcm = v.dcm
  deriv : HasMatDeriv (fun d => (γ d).dcm) (fun u => skew (incRot u) * v.dcm) 0

theorem pose_motion {v : PoseVar} {incr : Increment} (hi : PoseIncrement v incr) (hR : IsRotation v.dcm) :
    ∃ γ : (Fin 6 → ℝ) → PoseVar, (∀ d, incr (.pose v) (List.ofFn d) = .ok (.pose (γ d))) ∧ PoseMotion v γ := by
  have hrot : HasVecDeriv incRot incRot 0 := incRot_deriv 0
  rcases hi with _ | hreg
  · refine ⟨fun d => { v with
        pos := v.pos + incPos d
        dcm := rotationOf (incRot d) * v.dcm
        rot := logSO3 (rotationOf (incRot d) * v.dcm) }, fun d => ?_, fun d => rfl, ?_, ?_⟩
    · obtain ⟨e1, e2⟩ := read3_ofFn6 d
      simp [exactIncr, -List.ofFn_succ, e1, e2]
    · simp [incRot_zero, rotationOf_zero]
    · refine HasMatDeriv.comp_vec (φ := fun w => rotationOf w * v.dcm) (φ' := fun w => skew w * v.dcm) ?_ hrot
      rw [incRot_zero]
      exact rotationOf_mul_deriv v.dcm
  · have e0 : expSO3 (incRot 0) * v.dcm = v.dcm := by rw [incRot_zero, exp_zero, one_mul]
    have hM : HasMatDeriv (fun d : Fin 6 → ℝ => expSO3 (incRot d) * v.dcm)
        (fun u => skew (incRot u) * (expSO3 (incRot 0) * v.dcm)) 0 := by
      rw [e0]
      refine HasMatDeriv.comp_vec (φ := fun w => expSO3 w * v.dcm) (φ' := fun w => skew w * v.dcm) ?_ hrot
      rw [incRot_zero]
      exact exp_mul_deriv v.dcm
    obtain ⟨s1, s2⟩ := stored_motion hM (by rw [e0]; exact hR) (by rw [e0]; exact hreg)
    refine ⟨fun d => PoseVar.recompute { v with pos := v.pos + incPos d, rot := logSO3 (expSO3 (incRot d) * v.dcm) },
      fun d => ?_, fun d => rfl, ?_, ?_⟩
    · obtain ⟨e1, e2⟩ := read3_ofFn6 d
      simp [codeIncr, VarLike.applyIncr, PoseVar.applyIncr, -List.ofFn_succ, e1, e2, Res.map]
    · have : PoseVar.dcmOf (logSO3 (expSO3 (incRot 0) * v.dcm)) = v.dcm := by rw [s1, e0]
      exact this
    · rw [e0] at s2
      exact s2

theorem pose_pos_motion (v : PoseVar) {incr : Increment} (hi : AnyIncrement incr) :
    ∃ γ : (Fin 6 → ℝ) → PoseVar, ∀ d, incr (.pose v) (List.ofFn d) = .ok (.pose (γ d)) ∧ (γ d).pos = v.pos + incPos d := by
  cases hi with
  | exact =>
    refine ⟨fun d => { v with
        pos := v.pos + incPos d
        dcm := rotationOf (incRot d) * v.dcm
        rot := logSO3 (rotationOf (incRot d) * v.dcm) }, fun d => ⟨?_, rfl⟩⟩
    obtain ⟨e1, e2⟩ := read3_ofFn6 d
    simp [exactIncr, -List.ofFn_succ, e1, e2]
  | code =>
    refine ⟨fun d => PoseVar.recompute { v with pos := v.pos + incPos d, rot := logSO3 (expSO3 (incRot d) * v.dcm) },
      fun d => ⟨?_, rfl⟩⟩
    obtain ⟨e1, e2⟩ := read3_ofFn6 d
    simp [codeIncr, VarLike.applyIncr, PoseVar.applyIncr, -List.ofFn_succ, e1, e2, Res.map]

theorem PoseMotion.pos_deriv {v : PoseVar} {γ : (Fin 6 → ℝ) → PoseVar} (h : PoseMotion v γ) :
    HasVecDeriv (fun d => (γ d).pos) incPos 0 := by
  simp only [h.pos]
  exact HasVecDeriv.congr (HasVecDeriv.add (HasVecDeriv.const v.pos 0) (incPos_deriv 0)) fun u => by simp

theorem PoseMotion.pos_zero {v : PoseVar} {γ : (Fin 6 → ℝ) → PoseVar} (h : PoseMotion v γ) : (γ 0).pos = v.pos := by
  rw [h.pos, incPos_zero, add_zero]

/-- A rotation moves as documented. -/
structure RotationMotion (v : RotationVar) (γ : V3 → RotationVar) : Prop where
  start : (γ 0).dcm = v.dcm
  deriv : HasMatDeriv (fun d => (γ d).dcm) (fun u => skew u * v.dcm) 0

theorem rotation_motion (v : RotationVar) {incr : Increment} (hi : AnyIncrement incr) :
    ∃ γ : V3 → RotationVar, (∀ d, incr (.rotation v) (List.ofFn d) = .ok (.rotation (γ d))) ∧ RotationMotion v γ := by
  cases hi with
  | exact =>
    refine ⟨fun d => { v with dcm := rotationOf d * v.dcm, vec := logSO3 (rotationOf d * v.dcm) }, fun d => ?_, ?_, ?_⟩
    · have e := read3_ofFn3 d
      simp [exactIncr, -List.ofFn_succ, e]
    · simp [rotationOf_zero]
    · exact rotationOf_mul_deriv v.dcm
  | code =>
    refine ⟨fun d => { v with dcm := expSO3 d * v.dcm, vec := logSO3 (expSO3 d * v.dcm) }, fun d => ?_, ?_, ?_⟩
    · have e := read3_ofFn3 d
      simp [codeIncr, VarLike.applyIncr, RotationVar.applyIncr, -List.ofFn_succ, e, Res.map]
    · simp [exp_zero]
    · exact exp_mul_deriv v.dcm

theorem incr_landmark (l : LandmarkVar) (dx : List ℝ) {incr : Increment} (hi : AnyIncrement incr) :
    incr (.landmark l) dx = (l.applyIncr dx).map .landmark := by cases hi <;> rfl
theorem incr_generic (l : GenVar ℝ) (dx : List ℝ) {incr : Increment} (hi : AnyIncrement incr) :
    incr (.generic l) dx = (l.applyIncr dx).map .generic := by cases hi <;> rfl
theorem incr_plane (l : PlaneVar) (dx : List ℝ) {incr : Increment} (hi : AnyIncrement incr) :
    incr (.plane l) dx = (l.applyIncr dx).map .plane := by cases hi <;> rfl
theorem incr_invRange (l : InvRangeVar) (dx : List ℝ) {incr : Increment} (hi : AnyIncrement incr) :
    incr (.invRange l) dx = (l.applyIncr dx).map .invRange := by cases hi <;> rfl
theorem incr_pose2d (l : Pose2DVar) (dx : List ℝ) {incr : Increment} (hi : AnyIncrement incr) :
    incr (.pose2d l) dx = (l.applyIncr dx).map .pose2d := by cases hi <;> rfl

theorem zip_add {n : Nat} (x d : Fin n → ℝ) : List.zipWith (· + ·) (toList x) (List.ofFn d) = toList (x + d) := by
  apply List.ext_getElem
  · simp [toList]
  · intro i h1 h2; simp [toList]

theorem landmark_motion {l : LandmarkVar} {x : V3} (hx : l.value = toList x) {incr : Increment} (hi : AnyIncrement incr)
    (d : V3) : incr (.landmark l) (List.ofFn d) = .ok (.landmark { l with value := toList (x + d) }) := by
  rw [incr_landmark l _ hi, LandmarkVar.applyIncr, hx]
  simp [toList, Res.map]

theorem generic_motion {n : Nat} {l : GenVar ℝ} {x : Fin n → ℝ} (hx : l.value = toList x) {incr : Increment}
    (hi : AnyIncrement incr) (d : Fin n → ℝ) :
    incr (.generic l) (List.ofFn d) = .ok (.generic { l with value := toList (x + d) }) := by
  rw [incr_generic l _ hi, GenVar.applyIncr, hx]
  have := zip_add x d
  simp only [toList] at this
  simp [toList, Res.map, this]

theorem vector_motion {n : Nat} {v : RVar} {x : Fin n → ℝ} (hv : IsVector v x) {incr : Increment} (hi : AnyIncrement incr) :
    ∃ γ : (Fin n → ℝ) → RVar, ∀ d, incr v (List.ofFn d) = .ok (γ d) ∧ IsVector (γ d) (x + d) := by
  rcases hv with ⟨g, rfl, hg⟩ | ⟨rfl, l, rfl, hl⟩
  · exact ⟨fun d => .generic { g with value := toList (x + d) }, fun d =>
      ⟨generic_motion hg hi d, .inl ⟨_, rfl, rfl⟩⟩⟩
  · exact ⟨fun d => .landmark { l with value := toList (x + d) }, fun d =>
      ⟨landmark_motion hl hi d, .inr ⟨rfl, _, rfl, rfl⟩⟩⟩

theorem vector_value {n : Nat} {v : RVar} {x : Fin n → ℝ} (hv : IsVector v x) :
    VarLike.value v = toList x ∧ VarLike.size v = n := by
  rcases hv with ⟨g, rfl, hg⟩ | ⟨rfl, l, rfl, hl⟩
  · exact ⟨hg, by simp [VarLike.size, hg, toList]⟩
  · exact ⟨hl, rfl⟩

theorem vec3_toList (x : V3) : Fac.vec3 (toList x) = .ok x := by
  unfold Fac.vec3
  rw [if_pos (length_toList x), read3_toList]

theorem head2_toList (x : V2) : Fac.head2 (toList x) = .ok x := by
  unfold Fac.head2
  rw [if_pos (by simp [toList])]
  congr 1
  funext i; fin_cases i <;> simp [toList, List.ofFn_succ]

theorem posW_of {l : LandmarkVar} {x : V3} (hx : l.value = toList x) : l.posW = .ok x := by
  unfold LandmarkVar.posW
  rw [hx, if_pos (length_toList x), read3_toList]

theorem value_of_posW {l : LandmarkVar} {x : V3} (h : l.posW = .ok x) : l.value = toList x := by
  unfold LandmarkVar.posW at h
  split at h
  · rename_i hl
    injection h with h
    subst h
    obtain ⟨_, _, v⟩ := l
    simp only at hl ⊢
    match v, hl with
    | [a, b, c], _ => simp [toList3, read3]
  · simp at h

theorem toList_eq_zero {n : Nat} {x : Fin n → ℝ} : toList x = List.replicate n 0 ↔ x = 0 := by
  unfold toList
  rw [← List.ofFn_const, List.ofFn_inj]
  rfl

theorem smul_weight_eq_zero {n : Nat} {sigma : ℝ} (hs : sigma ≠ 0) {x : Fin n → ℝ} : (1 / sigma) • x = 0 ↔ x = 0 := by
  rw [smul_eq_zero]
  simp [hs]

/-- A turn by one radian, for examples. -/
theorem example_regular : Regular (PoseVar.dcmOf ![1, 0, 0]) ∧ IsRotation (PoseVar.dcmOf ![1, 0, 0]) := by
  refine ⟨?_, dcmOf_rotation _⟩
  have hv : vnorm (![1, 0, 0] : V3) = 1 := vnorm_unit (by simp)
  have ha : (vdiv ![1, 0, 0] 1 : V3) ⬝ᵥ vdiv ![1, 0, 0] 1 = 1 := by simp [vdiv_eq_smul]
  have hpi := PI_bounds
  rw [Regular, dcmOf_big (by rw [hv]; norm_num), hv, angle_rodrigues ha (by norm_num) (by linarith [Real.pi_gt_three])]
  constructor
  · norm_num
  · linarith

theorem example_pose (id : Int) (pos : V3) : IsRotation (PoseVar.make id pos ![1, 0, 0]).dcm ∧
    Regular (PoseVar.make id pos ![1, 0, 0]).dcm ∧ PoseIncrement (PoseVar.make id pos ![1, 0, 0]) codeIncr := by
  have e : (PoseVar.make id pos ![1, 0, 0]).dcm = PoseVar.dcmOf ![1, 0, 0] := rfl
  have hreg : Regular (PoseVar.make id pos ![1, 0, 0]).dcm := by rw [e]; exact example_regular.1
  exact ⟨by rw [e]; exact example_regular.2, hreg, .code hreg⟩

/-! ### Derivative rules -/

variable {E : Type*} [NormedAddCommGroup E] [NormedSpace ℝ E]

theorem HasVecDeriv.const_smul {m : Nat} {f f' : E → Fin m → ℝ} {x : E} (c : ℝ) (hf : HasVecDeriv f f' x) :
    HasVecDeriv (fun y => c • f y) (fun u => c • f' u) x :=
  HasVecDeriv.congr (HasVecDeriv.smul (HasScalDeriv.const c x) hf) fun u => by simp

theorem HasVecDeriv.const_mulVec {m n : Nat} {f f' : E → Fin n → ℝ} {x : E} (A : Matrix (Fin m) (Fin n) ℝ)
    (hf : HasVecDeriv f f' x) : HasVecDeriv (fun y => A *ᵥ f y) (fun u => A *ᵥ f' u) x :=
  HasVecDeriv.congr (HasMatDeriv.mulVec (HasMatDeriv.const A x) hf) fun u => by simp

theorem HasVecDeriv.sub_const {m : Nat} {f f' : E → Fin m → ℝ} {x : E} (hf : HasVecDeriv f f' x) (c : Fin m → ℝ) :
    HasVecDeriv (fun y => f y - c) f' x :=
  HasVecDeriv.congr (HasVecDeriv.sub hf (HasVecDeriv.const c x)) fun u => by simp

theorem HasVecDeriv.const_add {m : Nat} {f f' : E → Fin m → ℝ} {x : E} (c : Fin m → ℝ) (hf : HasVecDeriv f f' x) :
    HasVecDeriv (fun y => c + f y) f' x :=
  HasVecDeriv.congr (HasVecDeriv.add (HasVecDeriv.const c x) hf) fun u => by simp

theorem HasVecDeriv.const_sub {m : Nat} {f f' : E → Fin m → ℝ} {x : E} (c : Fin m → ℝ) (hf : HasVecDeriv f f' x) :
    HasVecDeriv (fun y => c - f y) (fun u => -f' u) x :=
  HasVecDeriv.congr (HasVecDeriv.sub (HasVecDeriv.const c x) hf) fun u => by simp

/-- The length of a moving non-zero vector. -/
theorem HasVecDeriv.vnorm {m : Nat} {f f' : E → Fin m → ℝ} {x : E} (hf : HasVecDeriv f f' x) (h0 : vnorm (f x) ≠ 0) :
    HasScalDeriv (fun y => vnorm (f y)) (fun u => (f x ⬝ᵥ f' u) / vnorm (f x)) x := by
  have hd := HasVecDeriv.dot hf hf
  have hne : f x ⬝ᵥ f x ≠ 0 := by rw [← vnorm_sq]; exact pow_ne_zero 2 h0
  refine HasScalDeriv.congr (HasScalDeriv.comp (φ := fun t => √t) (Real.hasDerivAt_sqrt hne) hd) fun u => ?_
  show 1 / (2 * √(f x ⬝ᵥ f x)) * (f' u ⬝ᵥ f x + f x ⬝ᵥ f' u) = _
  rw [dotProduct_comm (f' u) (f x)]
  unfold Geo.vnorm
  field_simp
  ring

theorem normalized_eq {m : Nat} {v : Fin m → ℝ} (h : vnorm v ≠ 0) : normalized v = (vnorm v)⁻¹ • v := by
  have hp : 0 < v ⬝ᵥ v := by rw [← vnorm_sq]; positivity
  unfold normalized
  rw [if_pos hp, vdiv_eq_smul]
  rfl

/-- The direction of a moving non-zero vector. -/
theorem HasVecDeriv.normalized {m : Nat} {f f' : E → Fin m → ℝ} {x : E} (hf : HasVecDeriv f f' x) (h0 : Geo.vnorm (f x) ≠ 0) :
    HasVecDeriv (fun y => Geo.normalized (f y)) (fun u => ((1 / Geo.vnorm (f x)) •
      (1 - vecMulVec (vdiv (f x) (Geo.vnorm (f x))) (vdiv (f x) (Geo.vnorm (f x))))) *ᵥ f' u) x := by
  have hn := HasVecDeriv.vnorm hf h0
  have hinv := HasScalDeriv.comp (f := fun y => Geo.vnorm (f y)) (φ := fun t => t⁻¹) (hasDerivAt_inv h0) hn
  have hs := HasVecDeriv.smul hinv hf
  have hev : (fun y => Geo.normalized (f y)) =ᶠ[𝓝 x] fun y => (Geo.vnorm (f y))⁻¹ • f y := by
    have := (HasScalDeriv.continuousAt hn).eventually_ne h0
    filter_upwards [this] with y hy using normalized_eq hy
  refine HasVecDeriv.congr (HasVecDeriv.congr_of_eventuallyEq hs hev) fun u => ?_
  generalize Geo.vnorm (f x) = n at *
  funext i
  simp [Matrix.sub_mulVec, Matrix.smul_mulVec, vecMulVec_mulVec, vdiv_eq_smul]
  field_simp
  ring

/-! ### The logarithm -/

theorem one_of_trace {R : M3} (h : RotEqs R) (ht : R.trace = 3) : R = 1 := by
  obtain ⟨hr, hc, _⟩ := h
  have r00 := hr 0 0; have r11 := hr 1 1; have r22 := hr 2 2
  rw [trace3] at ht
  simp at r00 r11 r22
  have hle : ∀ x y z : ℝ, x * x + y * y + z * z = 1 → x ≤ 1 := by
    intro x y z h
    nlinarith [sq_nonneg y, sq_nonneg z]
  have b0 : R 0 0 ≤ 1 := hle _ (R 0 1) (R 0 2) (by linarith)
  have b1 : R 1 1 ≤ 1 := hle _ (R 1 0) (R 1 2) (by linarith)
  have b2 : R 2 2 ≤ 1 := hle _ (R 2 0) (R 2 1) (by linarith)
  have d0 : R 0 0 = 1 := by linarith
  have d1 : R 1 1 = 1 := by linarith
  have d2 : R 2 2 = 1 := by linarith
  rw [d0] at r00; rw [d1] at r11; rw [d2] at r22
  have hz : ∀ y z : ℝ, y * y + z * z = 0 → y = 0 ∧ z = 0 := by
    intro y z h
    have h1 : y * y = 0 := by nlinarith [mul_self_nonneg y, mul_self_nonneg z]
    have h2 : z * z = 0 := by linarith
    exact ⟨mul_self_eq_zero.mp h1, mul_self_eq_zero.mp h2⟩
  obtain ⟨z01, z02⟩ := hz (R 0 1) (R 0 2) (by linarith)
  obtain ⟨z10, z12⟩ := hz (R 1 0) (R 1 2) (by linarith)
  obtain ⟨z20, z21⟩ := hz (R 2 0) (R 2 1) (by linarith)
  ext i j
  fin_cases i <;> fin_cases j <;> simp [d0, d1, d2, z01, z02, z10, z12, z20, z21]

theorem angle_one : angle 1 = 0 := by
  rw [angle, trace3]
  norm_num

theorem log_one : logSO3 1 = 0 := by
  rw [log_small (IsRotation.eqs isRotation_one) (by rw [angle_one]; norm_num)]
  funext i; fin_cases i <;> simp [anti]

/-- The logarithm of a rotation is zero only for the identity. -/
theorem log_eq_zero {R : M3} (hR : IsRotation R) : logSO3 R = 0 ↔ R = 1 := by
  refine ⟨fun h => ?_, fun h => by rw [h, log_one]⟩
  have he := IsRotation.eqs hR
  by_cases hθ : 1e-5 ≤ angle R
  · have := vnorm_log he hθ
    rw [h, vnorm_eq_zero.mpr rfl] at this
    rw [← this] at hθ
    norm_num at hθ
  · push Not at hθ
    rw [log_small he hθ] at h
    have ha : anti R = 0 := by
      rcases smul_eq_zero.mp h with h | h
      · norm_num at h
      · exact h
    have hsq := anti_sq he
    rw [ha] at hsq
    have hcos := cos_angle he
    have hpos : 0 < Real.cos (angle R) :=
      Real.cos_pos_of_mem_Ioo ⟨by linarith [angle_nonneg R, Real.pi_pos], by linarith [Real.pi_gt_three]⟩
    refine one_of_trace he ?_
    simp at hsq
    rcases hsq with h1 | h1 <;> linarith

theorem isRotation_transpose {R : M3} (h : IsRotation R) : IsRotation Rᵀ :=
  ⟨by rw [transpose_transpose]; exact IsRotation.transpose_mul h, by rw [det_transpose]; exact h.2⟩

theorem mul_transpose_eq_one {R S : M3} (hS : IsRotation S) : R * Sᵀ = 1 ↔ R = S := by
  constructor
  · intro h
    have := congrArg (· * S) h
    simpa [Matrix.mul_assoc, IsRotation.transpose_mul hS] using this
  · rintro rfl; exact hS.1

theorem invJac_zero : invJacSO3 0 = .ok 1 := by
  unfold invJacSO3
  simp only [vnorm_eq_zero.mpr rfl]
  rw [if_pos (by norm_num)]
  congr 1
  ext i j; fin_cases i <;> fin_cases j <;> simp [skew]

/-- The derivative of the logarithm along a motion through the identity. -/
theorem log_deriv_one {M : E → M3} {A : E → V3} {x : E} (hM : HasMatDeriv M (fun u => skew (A u) * M x) x)
    (h1 : M x = 1) : HasVecDeriv (fun y => logSO3 (M y)) A x := by
  have hd : HasVecDeriv (fun y => (0.5 : ℝ) • anti (M y)) A x := by
    refine HasVecDeriv.congr (HasVecDeriv.const_smul _ hM.anti) fun u => ?_
    rw [anti_skew_mul, h1]
    funext i
    simp
    ring
  refine HasVecDeriv.congr_of_eventuallyEq hd ?_
  have hc : ContinuousAt (fun y => Real.arccos (clampUnit ((M y 0 0 + M y 1 1 + M y 2 2 - 1) * 0.5))) x := by
    have ht := HasScalDeriv.continuousAt hM.trace
    simp only [trace3] at ht
    unfold clampUnit
    exact Real.continuous_arccos.continuousAt.comp
      ((((ht.sub continuousAt_const).mul continuousAt_const).max continuousAt_const).min continuousAt_const)
  have h0 : Real.arccos (clampUnit ((M x 0 0 + M x 1 1 + M x 2 2 - 1) * 0.5)) < 1e-5 := by
    rw [h1, log_angle (IsRotation.eqs isRotation_one), angle_one]
    norm_num
  filter_upwards [hc.eventually_lt_const h0] with y hy
  unfold logSO3
  simp only [hy, if_true, unskew_smul, unskew_anti]

/-- The derivative of the logarithm at the identity and at rotations by a moderate angle. -/
theorem log_deriv' {M : E → M3} {A : E → V3} {x : E} (hM : HasMatDeriv M (fun u => skew (A u) * M x) x)
    (hR : IsRotation (M x)) (hreg : M x = 1 ∨ Regular (M x)) :
    ∃ J, invJacSO3 (logSO3 (M x)) = .ok J ∧ Jᵀ = J * M x ∧ HasVecDeriv (fun y => logSO3 (M y)) (fun u => J *ᵥ A u) x := by
  rcases hreg with h1 | hreg
  · refine ⟨1, by rw [h1, log_one, invJac_zero], by rw [h1]; simp, ?_⟩
    simpa using log_deriv_one hM h1
  · obtain ⟨J, hJ, hd⟩ := log_deriv hM hR hreg
    refine ⟨J, hJ, ?_, hd⟩
    have he := IsRotation.eqs hR
    obtain ⟨a, ha, hlog, hrod⟩ := log_spec he hreg.1.le
    have hpi := PI_bounds
    have hlt : angle (M x) < Real.pi := by have := hreg.2; linarith
    have hpos : 0 < angle (M x) := lt_trans (by norm_num) hreg.1
    rw [hlog, invJac_axis ha (le_trans (by norm_num) hreg.1.le) hlt] at hJ
    injection hJ with hJ
    rw [← hJ]
    have hE : M x = rodrigues a (angle (M x)) := hrod.symm
    generalize angle (M x) = θ at *
    rw [hE]
    have hs : 0 < Real.sin θ := Real.sin_pos_of_pos_of_lt_pi hpos hlt
    have hcs := Real.sin_sq_add_cos_sq θ
    rw [invJacAxis, half_tan hpos hlt, rodrigues_eq a ha]
    rw [dot3] at ha
    generalize Real.cos θ = c at *
    generalize Real.sin θ = s at *
    ext i j
    fin_cases i <;> fin_cases j <;>
      simp [skew, Matrix.mul_apply, Fin.sum_univ_three, Matrix.transpose_apply, vecMulVec_apply, Matrix.one_apply] <;>
      field_simp <;> grind

end Factorama.Geo
