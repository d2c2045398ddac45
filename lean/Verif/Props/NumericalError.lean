import Verif.Props.FactorTest
import Verif.Props.FactorsPlanar
import Mathlib.Analysis.Calculus.MeanValue

/-!
# How exact numerical Jacobians are: C60, and what this means for the factor test: C61
-/

namespace Factorama.Spec

/-- While one entry of the increment of `r` moves within `eps`, every entry of the residual of `f` is three times
differentiable, and the third derivative is at most `M`. -/
def SmoothIn (M eps : ℝ) (f : Factor ℝ RVar) (h : Heap RVar) (r : VRef) : Prop :=
  ∀ k < VarLike.size (h r), ∃ g g1 g2 g3 : Fin f.residualSize → ℝ → ℝ, ∀ t, |t| ≤ eps →
    residualAfterIncr f h r (FactorTest.unitStep (VarLike.size (h r)) k t) = .ok (List.ofFn fun i => g i t) ∧
    ∀ i, HasDerivAt (g i) (g1 i t) t ∧ HasDerivAt (g1 i) (g2 i t) t ∧ HasDerivAt (g2 i) (g3 i t) t ∧ |g3 i t| ≤ M

end Factorama.Spec

namespace Factorama.Props
open Matrix Geo Spec FactorTest Topology Filter Set

/-- Growth from zero is bounded by the integral of the bound of the derivative. -/
theorem C60.grow {f f' B B' : ℝ → ℝ} {e : ℝ} (hf : ∀ t ∈ Icc 0 e, HasDerivAt f (f' t) t) (h0 : f 0 = 0) (hB0 : B 0 = 0)
    (hB : ∀ t, HasDerivAt B (B' t) t) (hb : ∀ t ∈ Icc 0 e, |f' t| ≤ B' t) : ∀ t ∈ Icc 0 e, |f t| ≤ B t := by
  intro t ht
  have := image_norm_le_of_norm_deriv_right_le_deriv_boundary (f := f) (f' := f') (a := 0) (b := e) (B := B) (B' := B')
    (fun x hx => (hf x hx).continuousAt.continuousWithinAt)
    (fun x hx => (hf x (Ico_subset_Icc_self hx)).hasDerivWithinAt) (by simp [h0, hB0]) hB
    (fun x hx => hb x (Ico_subset_Icc_self hx)) ht
  simpa using this

/-- The error of a central difference. -/
theorem C60.central {g g1 g2 g3 : ℝ → ℝ} {M e : ℝ} (he : 0 < e)
    (hd : ∀ t, |t| ≤ e → HasDerivAt g (g1 t) t ∧ HasDerivAt g1 (g2 t) t ∧ HasDerivAt g2 (g3 t) t ∧ |g3 t| ≤ M) :
    |(g e - g (-e)) / (2 * e) - g1 0| ≤ M * e ^ 2 / 6 := by
  have habs : ∀ t ∈ Icc 0 e, |t| ≤ e ∧ |(-t)| ≤ e := fun t ht => by
    rw [abs_neg, abs_of_nonneg ht.1]; exact ⟨ht.2, ht.2⟩
  have s2 : ∀ t ∈ Icc 0 e, |g2 t - g2 (-t)| ≤ 2 * M * t :=
    C60.grow (f' := fun t => g3 t + g3 (-t)) (B' := fun _ => 2 * M)
      (fun t ht => by
        have h1 := (hd t (habs t ht).1).2.2.1
        have h2 := (hd (-t) (habs t ht).2).2.2.1
        have := h1.sub (h2.comp t (hasDerivAt_neg t))
        exact this.congr_deriv (by ring))
      (by simp) (by simp) (fun t => by simpa using (hasDerivAt_id t).const_mul (2 * M))
      (fun t ht => by
        have h1 := (hd t (habs t ht).1).2.2.2
        have h2 := (hd (-t) (habs t ht).2).2.2.2
        exact (abs_add_le _ _).trans (by linarith))
  have s1 : ∀ t ∈ Icc 0 e, |g1 t + g1 (-t) - 2 * g1 0| ≤ M * t ^ 2 :=
    C60.grow (f' := fun t => g2 t - g2 (-t)) (B' := fun t => 2 * M * t)
      (fun t ht => by
        have h1 := (hd t (habs t ht).1).2.1
        have h2 := (hd (-t) (habs t ht).2).2.1
        have := (h1.add (h2.comp t (hasDerivAt_neg t))).sub_const (2 * g1 0)
        exact this.congr_deriv (by ring))
      (by simp; ring) (by simp) (fun t => by
        have := (hasDerivAt_pow 2 t).const_mul M
        exact this.congr_deriv (by simp; ring)) s2
  have s0 : ∀ t ∈ Icc 0 e, |g t - g (-t) - 2 * t * g1 0| ≤ M * t ^ 3 / 3 :=
    C60.grow (f' := fun t => g1 t + g1 (-t) - 2 * g1 0) (B' := fun t => M * t ^ 2)
      (fun t ht => by
        have h1 := (hd t (habs t ht).1).1
        have h2 := (hd (-t) (habs t ht).2).1
        have h3 : HasDerivAt (fun t => 2 * t * g1 0) (2 * g1 0) t := by
          simpa using ((hasDerivAt_id t).const_mul 2).mul_const (g1 0)
        have := (h1.sub (h2.comp t (hasDerivAt_neg t))).sub h3
        exact this.congr_deriv (by ring))
      (by simp) (by simp) (fun t => by
        have := ((hasDerivAt_pow 3 t).const_mul M).div_const 3
        exact this.congr_deriv (by simp; ring)) s1
  have h := s0 e ⟨he.le, le_rfl⟩
  rw [show (g e - g (-e)) / (2 * e) - g1 0 = (g e - g (-e) - 2 * e * g1 0) / (2 * e) by field_simp, abs_div,
    abs_of_pos (by linarith : 0 < 2 * e), div_le_iff₀ (by linarith)]
  calc _ ≤ M * e ^ 3 / 3 := h
    _ = _ := by ring

/-- **C60, how exact**. If the residual is three times differentiable along the axes of the variables that are not constant, with
third derivatives of at most `M` within the step size, then the call returns, and each entry differs from the derivative of the
residual entry with respect to the entry of the increment by at most a sixth of `M` times the square of the step size. -/
theorem C60_error (f : Factor ℝ RVar) (M eps : ℝ) (he : 0 < eps) {h : Heap RVar} (hw : AllWriteBack f h)
    (hnull : none ∉ f.variables) {r0 : List ℝ} (h0 : f.computeResidual h = .ok r0) (hl : r0.length = f.residualSize)
    (hq : ∀ r, some r ∈ f.variables → VarLike.isConst (h r) = false → SmoothIn M eps f h r) :
    ∃ Js, numericalJacobians realArith f eps h = (h, .ok Js) ∧
      List.Forall₂ (fun v J => ∃ r, v = some r ∧
        if VarLike.isConst (h r) then J = Mat.empty else
          J.rows = f.residualSize ∧ J.cols = VarLike.size (h r) ∧
          ∀ i < J.rows, ∀ k < J.cols, ∃ d, HasDerivAt (residualEntry f h r k i) d 0 ∧ |J.entry i k - d| ≤ M * eps ^ 2 / 6)
        f.variables Js := by
  have key : ∀ v ∈ f.variables, ∃ J, numericalBlock realArith f eps v h = (h, .ok J) ∧ ∃ r, v = some r ∧
      if VarLike.isConst (h r) then J = Mat.empty else
          J.rows = f.residualSize ∧ J.cols = VarLike.size (h r) ∧
          ∀ i < J.rows, ∀ k < J.cols, ∃ d, HasDerivAt (residualEntry f h r k i) d 0 ∧ |J.entry i k - d| ≤ M * eps ^ 2 / 6 := by
    intro v hv
    cases v with
    | none => exact absurd hv hnull
    | some r =>
      by_cases hc : VarLike.isConst (h r) = true
      · refine ⟨Mat.empty, (numericalBlock_iff _ f eps (hw r hv) h _).2 ⟨rfl, by rw [if_pos hc]⟩, r, rfl, by rw [if_pos hc]⟩
      · have hc' : VarLike.isConst (h r) = false := by simpa using hc
        choose g g1 g2 g3 hg using hq r hv hc'
        have hcol : ∀ k (hk : k < VarLike.size (h r)), numericalColumn realArith f r (VarLike.size (h r)) eps k h =
            (h, .ok (List.ofFn fun i => (g k hk i eps - g k hk i (-eps)) / (2 * eps))) := by
          intro k hk
          refine (numericalColumn_iff _ f _ eps k (hw r hv hc') _).2 ⟨rfl, List.ofFn fun i => g k hk i eps,
            List.ofFn fun i => g k hk i (-eps), (hg k hk eps (by rw [abs_of_pos he])).1, ?_, ?_⟩
          · rw [unitStep_neg]; exact (hg k hk (-eps) (by rw [abs_neg, abs_of_pos he])).1
          · rw [centralDifference, if_pos (by simp)]
            congr 1
            apply List.ext_getElem (by simp)
            intro i h1 h2
            simp [realArith]
        refine ⟨blockOfColumns f.residualSize (VarLike.size (h r))
          (List.ofFn fun k : Fin (VarLike.size (h r)) => List.ofFn fun i => (g k k.2 i eps - g k k.2 i (-eps)) / (2 * eps)),
          (numericalBlock_iff _ f eps (hw r hv) h _).2 ⟨rfl, ?_⟩, r, rfl, ?_⟩
        · rw [if_neg hc]
          refine ⟨_, by simp, rfl, fun k col hk => ?_⟩
          obtain ⟨hk', e⟩ := List.getElem?_eq_some_iff.1 hk
          have hk'' : k < VarLike.size (h r) := by simpa using hk'
          rw [hcol k hk'', ← e]
          simp
        · rw [if_neg hc]
          refine ⟨rfl, rfl, fun i hi k hk => ?_⟩
          have hi : i < f.residualSize := hi
          have hk : k < VarLike.size (h r) := hk
          have e1 : (blockOfColumns f.residualSize (VarLike.size (h r))
            (List.ofFn fun k : Fin (VarLike.size (h r)) => List.ofFn fun i => (g k k.2 i eps - g k k.2 i (-eps)) / (2 * eps))).entry
              i k = (g k hk ⟨i, hi⟩ eps - g k hk ⟨i, hi⟩ (-eps)) / (2 * eps) := by
            simp [blockOfColumns, hi, hk, List.getD_eq_getElem?_getD]
          refine ⟨g1 k hk ⟨i, hi⟩ 0, ?_, ?_⟩
          · refine ((hg k hk 0 (by simpa using he.le)).2 ⟨i, hi⟩).1.congr_of_eventuallyEq ?_
            filter_upwards [Metric.closedBall_mem_nhds (0 : ℝ) he] with t ht
            have ht : |t| ≤ eps := by simpa [Metric.mem_closedBall, Real.dist_eq] using ht
            simp [residualEntry, (hg k hk t ht).1, hi, List.getD_eq_getElem?_getD]
          · rw [e1]
            exact C60.central he fun t ht => (hg k hk t ht).2 ⟨i, hi⟩
  have : Nonempty (Mat ℝ) := ⟨Mat.empty⟩
  choose! J hJ using key
  refine ⟨f.variables.map J, (numericalJacobians_iff _ f eps hw h _).2 ⟨rfl, ⟨r0, h0, hl⟩, ?_⟩, ?_⟩
  · rw [List.forall₂_map_right_iff, List.forall₂_same]
    exact fun v hv => (hJ v hv).1
  · rw [List.forall₂_map_right_iff, List.forall₂_same]
    exact fun v hv => (hJ v hv).2

theorem checkBlock_close {tol : ℝ} {v : RVar} {Ja Jn : Mat ℝ} (hc : VarLike.isConst v = false) (hr : Ja.rows = Jn.rows)
    (hl : Ja.cols = Jn.cols) (h0 : 0 < Jn.rows) (h1 : 0 < Jn.cols)
    (he : ∀ i < Jn.rows, ∀ j < Jn.cols, |Jn.entry i j - Ja.entry i j| < 0.01) : checkBlock realArith tol v Ja Jn = .ok true := by
  obtain ⟨b, hb⟩ : ∃ b, checkBlock realArith tol v Ja Jn = .ok b := by
    unfold checkBlock
    rw [if_neg (by simp [hc]), if_neg (by simp [hr, hl]), if_neg (Nat.mul_pos h0 h1).ne']
    exact ⟨_, rfl⟩
  have : b = true := by
    rw [checkBlock_iff hb, BlocksAgree, if_neg (by simp [hc])]
    have hne : (entries Jn).map (fun x => |x|) ≠ [] := by
      intro e
      have : Jn.entry 0 0 ∈ entries Jn := mem_entries.2 ⟨0, h0, 0, h1, rfl⟩
      rw [List.map_eq_nil_iff.1 e] at this
      simp at this
    obtain ⟨m1, m2⟩ := maxCoeff_real hne
    refine ⟨hr, hl, _, fun i hi j hj => m2 _ (List.mem_map.2 ⟨_, mem_entries.2 ⟨i, hi, j, hj, rfl⟩, rfl⟩), ?_, fun i hi j hj => ?_⟩
    · obtain ⟨x, hx, e⟩ := List.mem_map.1 m1
      obtain ⟨i, hi, j, hj, rfl⟩ := mem_entries.1 hx
      exact ⟨i, hi, j, hj, e⟩
    · exact lt_max_of_lt_left (he i hi j hj)
  rw [hb, this]

/-- **C61**, the other direction for residuals that are not quadratic: a finalized graph passes for every tolerance if each of its
factors has correct Jacobians, a residual whose third derivatives along the axes of its variables are below `6 · 10¹⁰` within
the step size, and no block without entries. -/
theorem C61_smooth_passes (g : Graph ℝ RVar) (tol : ℝ) {h : Heap RVar} (hfin : g.finalized = true)
    (hf : ∀ f ∈ g.facs, AllWriteBack f h ∧ JacobiansCorrect codeIncr f h ∧ 0 < f.residualSize ∧
      (∃ r0, f.computeResidual h = .ok r0 ∧ r0.length = f.residualSize) ∧
      ∃ M < 6e10, ∀ r, some r ∈ f.variables → VarLike.isConst (h r) = false → 0 < VarLike.size (h r) ∧ SmoothIn M 1e-6 f h r) :
    detailedFactorTest realArith g tol h = (h, .ok true) := by
  have heps : realArith.lit (1 / 1000000) = 1e-6 := by simp [realArith]; norm_num
  unfold detailedFactorTest
  rw [if_neg (by simp [hfin])]
  clear hfin
  generalize g.facs = fs at hf
  induction fs with
  | nil => rfl
  | cons f fs ih =>
    refine bind_ok.2 ⟨h, true, ?_, bind_ok.2 ⟨h, true, ih fun f hf' => hf f (List.mem_cons_of_mem _ hf'), rfl⟩⟩
    obtain ⟨hw, hJ, hm, ⟨r0, h0, hl⟩, M, hM, hv⟩ := hf f (by simp)
    obtain ⟨Ja, hJa, hA⟩ := hJ []
    have hnull : none ∉ f.variables := by
      intro hn
      obtain ⟨k, hk, e⟩ := List.getElem_of_mem hn
      obtain ⟨r, hr, -⟩ := (List.forall₂_iff_get.1 hA).2 k hk (by rw [← hA.length_eq]; exact hk)
      rw [List.get_eq_getElem, e] at hr
      simp at hr
    obtain ⟨Jn, hJn, hN⟩ := C60_error f M 1e-6 (by norm_num) hw hnull h0 hl fun r hr hc => (hv r hr hc).2
    simp only [testFactor, bind_ok, SE.get, SE.lift, Prod.mk.injEq, Res.ok.injEq, heps]
    refine ⟨_, _, ⟨rfl, rfl⟩, _, Ja, ⟨rfl, hJa⟩, h, Jn, hJn, ?_⟩
    rw [if_neg (by rw [← hA.length_eq, ← hN.length_eq]; simp)]
    refine bind_ok.2 ⟨_, _, rfl, ?_⟩
    show (h, _) = (h, _)
    congr 1
    clear hJa hJn hnull
    have hv' : ∀ r, some r ∈ f.variables → VarLike.isConst (h r) = false → 0 < VarLike.size (h r) := fun r hr hc => (hv r hr hc).1
    clear hv hw hJ
    generalize f.variables = vs at hA hN hv'
    induction hA generalizing Jn with
    | nil => rfl
    | @cons v J vs Js h1 h2 ih2 =>
      obtain ⟨r, rfl, hJr⟩ := h1
      cases hN with
      | @cons _ N _ Ns g1 g2 =>
        obtain ⟨r', e, hNr⟩ := g1
        cases e
        have hb : checkBlock realArith tol (h r) J N = .ok true := by
          by_cases hc : VarLike.isConst (h r) = true
          · rw [if_pos hc] at hJr hNr
            subst hJr hNr
            unfold checkBlock
            rw [if_pos hc]; rfl
          · rw [if_neg hc] at hJr hNr
            have hc' : VarLike.isConst (h r) = false := by simpa using hc
            refine checkBlock_close hc' (hJr.1.trans hNr.1.symm) (hJr.2.1.trans hNr.2.1.symm) (hNr.1 ▸ hm)
              (hNr.2.1 ▸ hv' r (by simp) hc') fun i hi j hj => ?_
            obtain ⟨d, hd, hle⟩ := hNr.2.2 i hi j hj
            rw [hd.unique (isDerivative_axis hJr i (by rw [hJr.1, ← hNr.1]; exact hi) j (by rw [hJr.2.1, ← hNr.2.1]; exact hj))] at hle
            refine hle.trans_lt ?_
            norm_num at hM ⊢
            linarith
        simp only [checkBlocks, hb, ih2 _ g2 fun r hr hc => hv' r (List.mem_cons_of_mem _ hr) hc, Bool.and_self]

/-- A pose at the origin that is estimated, a known pose one unit ahead, and the measured difference. -/
def C61.ahead : Heap RVar := fun r =>
  if r = 2 then .generic ⟨2, true, toList ![1, 0, 0]⟩ else if r = 1 then .pose2d ⟨1, true, ![1, 0], 0⟩
  else .pose2d ⟨0, false, ![0, 0], 0⟩
noncomputable def C61.relative : Factor ℝ RVar := Fac.pose2DBetween 9 0 1 2 1 1 true

theorem C61.small {t : ℝ} (ht : |t| ≤ 1e-6) : wrapAngle t = t := by
  have := abs_le.1 ht
  have := Real.pi_gt_three
  norm_num at *
  exact wrap_of_mem (by linarith) (by linarith)

/-- The residual is not quadratic: it contains the sine and the cosine of the angle. -/
theorem C61.curved : SmoothIn 1 1e-6 C61.relative C61.ahead 0 := by
  intro k hk
  have hk : k < 3 := hk
  have hofn : ∀ g : Nat → ℝ, (List.ofFn fun i : Fin C61.relative.residualSize => g i) = [g 0, g 1, g 2] := fun g => by
    show (List.ofFn fun i : Fin 3 => g i) = _
    simp [List.ofFn_succ]
  have hres : ∀ t : ℝ, |t| ≤ 1e-6 → residualAfterIncr C61.relative C61.ahead 0 (unitStep 3 k t) =
      .ok (if k = 0 then [-t, 0, 0] else if k = 1 then [0, -t, 0] else [Real.cos t - 1, Real.sin t, -t]) := by
    intro t ht
    have h1 := C61.small ht
    have h2 := C61.small (t := -t) (by simpa using ht)
    have h0 := C61.small (t := 0) (by norm_num)
    interval_cases k <;>
      simp [residualAfterIncr, unitStep, VarLike.applyIncr, Pose2DVar.applyIncr, Res.map, C61.relative, C61.ahead, Fac.pose2DBetween,
        VarLike.value, toList, Heap.set, Pose2DVar.dcm, Matrix.mulVec, dotProduct, Fin.sum_univ_two, h0, h1, h2]
  let lin (j n : Nat) (t : ℝ) : ℝ := if n = j then -t else 0
  let lin1 (j n : Nat) (_ : ℝ) : ℝ := if n = j then -1 else 0
  have hlin : ∀ j n t, HasDerivAt (lin j n) (lin1 j n t) t ∧ HasDerivAt (lin1 j n) 0 t := by
    intro j n t
    by_cases e : n = j
    · simpa [lin, lin1, e] using And.intro (hasDerivAt_neg t) (hasDerivAt_const t (-1 : ℝ))
    · simpa [lin, lin1, e] using hasDerivAt_const t (0 : ℝ)
  by_cases h2 : k = 2
  · subst h2
    let g (n : Nat) (t : ℝ) : ℝ := if n = 0 then Real.cos t - 1 else if n = 1 then Real.sin t else -t
    let g1 (n : Nat) (t : ℝ) : ℝ := if n = 0 then -Real.sin t else if n = 1 then Real.cos t else -1
    let g2 (n : Nat) (t : ℝ) : ℝ := if n = 0 then -Real.cos t else if n = 1 then -Real.sin t else 0
    let g3 (n : Nat) (t : ℝ) : ℝ := if n = 0 then Real.sin t else if n = 1 then -Real.cos t else 0
    refine ⟨fun i => g i, fun i => g1 i, fun i => g2 i, fun i => g3 i, fun t ht => ⟨?_, ?_⟩⟩
    · rw [hofn fun n => g n t]
      exact hres t ht
    · rintro ⟨i, hi⟩
      have hi : i < 3 := hi
      interval_cases i
      · exact ⟨(Real.hasDerivAt_cos t).sub_const 1, (Real.hasDerivAt_sin t).neg, (Real.hasDerivAt_cos t).neg.congr_deriv (by simp [g3]),
          Real.abs_sin_le_one t⟩
      · exact ⟨Real.hasDerivAt_sin t, Real.hasDerivAt_cos t, (Real.hasDerivAt_sin t).neg,
          by simpa [g3] using Real.abs_cos_le_one t⟩
      · exact ⟨hasDerivAt_neg t, hasDerivAt_const t (-1 : ℝ), hasDerivAt_const t (0 : ℝ), by simp [g3]⟩
  · refine ⟨fun i => lin k i, fun i => lin1 k i, fun _ _ => 0, fun _ _ => 0, fun t ht => ⟨?_, fun i => ?_⟩⟩
    · rw [hofn fun n => lin k n t]
      refine (hres t ht).trans ?_
      interval_cases k
      · simp [lin]
      · simp [lin]
      · exact absurd rfl h2
    · exact ⟨(hlin k i t).1, (hlin k i t).2, hasDerivAt_const t (0 : ℝ), by simp⟩

theorem C61.relative_writes : AllWriteBack C61.relative C61.ahead := by
  refine fun r _ hc dx v' hi => ?_
  have h0 := C61.small (t := 0) (by norm_num)
  have hr : C61.ahead r = .pose2d ⟨0, false, ![0, 0], 0⟩ := by
    unfold C61.ahead at hc ⊢
    split
    · simp_all [VarLike.isConst]
    · split
      · simp_all [VarLike.isConst]
      · rfl
  have hreach : Reachable (C61.ahead r) := by
    rw [hr]
    have := Pose2DReachable.make 0 ![0, 0] 0
    rw [Pose2DVar.make, h0] at this
    exact .pose2d this
  exact ((C41_partial _ hreach).2 dx v' hi).2

theorem C61.relative_residual : C61.relative.computeResidual C61.ahead = .ok [0, 0, 0] := by
  have h0 := C61.small (t := 0) (by norm_num)
  simp [C61.relative, C61.ahead, Fac.pose2DBetween, VarLike.value, toList, Pose2DVar.dcm, Matrix.mulVec, dotProduct, Fin.sum_univ_two, h0]

theorem C61.relative_free {r : VRef} (hr : some r ∈ C61.relative.variables) (hc : VarLike.isConst (C61.ahead r) = false) : r = 0 := by
  simp [C61.relative, Fac.pose2DBetween] at hr
  rcases hr with rfl | rfl | rfl
  · rfl
  · simp [C61.ahead, VarLike.isConst] at hc
  · simp [C61.ahead, VarLike.isConst] at hc

/-- The numerical Jacobian of the measured difference is exact up to `10⁻¹²`. -/
example : ∃ Js, numericalJacobians realArith C61.relative 1e-6 C61.ahead = (C61.ahead, .ok Js) := by
  obtain ⟨Js, h, -⟩ := C60_error C61.relative 1 1e-6 (by norm_num) C61.relative_writes (by simp [C61.relative, Fac.pose2DBetween])
    C61.relative_residual rfl fun r hr hc => by rw [C61.relative_free hr hc]; exact C61.curved
  exact ⟨Js, h⟩

/-- A graph with this factor passes the test. -/
example : detailedFactorTest realArith
    { (Graph.init : Graph ℝ RVar) with finalized := true, facs := [C61.relative] } 1e-3 C61.ahead = (C61.ahead, .ok true) := by
  refine C61_smooth_passes _ _ rfl fun f hf => ?_
  obtain rfl : f = C61.relative := by simpa using hf
  have h0 := C61.small (t := 0) (by norm_num)
  refine ⟨C61.relative_writes, C52_jacobian C61.ahead 9 0 1 2 ⟨0, false, ![0, 0], 0⟩ ⟨1, true, ![1, 0], 0⟩ ![1, 0, 0] 1 1 true rfl rfl
    (.inl (.inl ⟨_, rfl, rfl⟩)) (by decide) (by decide) (by decide) ?_ _ .code, ?_, ⟨_, C61.relative_residual, rfl⟩, 1, by norm_num,
    fun r hr hc => ?_⟩
  · simp [h0, Real.pi_pos]
  · exact Nat.succ_pos 2
  · rw [C61.relative_free hr hc]
    exact ⟨Nat.succ_pos 2, C61.curved⟩

end Factorama.Props
