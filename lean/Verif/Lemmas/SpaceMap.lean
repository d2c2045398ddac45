import Verif.Spec.SpaceMap
import Verif.Lemmas.PlanarMap
import Verif.Lemmas.Increments
import Verif.Lemmas.Rotation

/-!
# Kernel vectors of maps in space
-/

namespace Factorama
open Spec Opt Graph Matrix Geo Props

theorem skew_dot (v w : V3) : w ⬝ᵥ (skew v *ᵥ w) = 0 := by
  rw [skew_mulVec, dot_cross_self]

/-- The matrices of the logarithm's derivative are regular. -/
theorem axis_regular {a v : V3} {α β : ℝ} (ha : a ⬝ᵥ a = 1) (hα : α ≠ 0)
    (h0 : (α • (1 : M3) + (1 - α) • vecMulVec a a + β • skew a) *ᵥ v = 0) : v = 0 := by
  have e : (α • (1 : M3) + (1 - α) • vecMulVec a a + β • skew a) *ᵥ v = α • v + (1 - α) • ((a ⬝ᵥ v) • a) + β • (skew a *ᵥ v) := by
    rw [add_mulVec, add_mulVec, smul_mulVec, smul_mulVec, smul_mulVec, one_mulVec, vecMulVec_mulVec]
    simp [dotProduct_comm]
  rw [e] at h0
  have hav : a ⬝ᵥ v = 0 := by
    have h1 := congrArg (a ⬝ᵥ ·) h0
    simp only [dotProduct_add, dotProduct_smul, ha, smul_eq_mul, mul_one, dotProduct_zero] at h1
    rw [skew_mulVec, dot_self_cross] at h1
    linear_combination h1
  rw [hav, zero_smul, smul_zero, add_zero] at h0
  have h2 := congrArg (v ⬝ᵥ ·) h0
  simp only [dotProduct_add, dotProduct_smul, skew_dot, smul_eq_mul, mul_zero, add_zero, dotProduct_zero] at h2
  exact dotProduct_self_eq_zero.1 ((mul_eq_zero.1 h2).resolve_left hα)

theorem invJac_regular {w : V3} {J : M3} (hJ : invJacSO3 w = .ok J) (v : V3) : (J *ᵥ v = 0 → v = 0) ∧ (Jᵀ *ᵥ v = 0 → v = 0) := by
  unfold invJacSO3 at hJ
  simp only at hJ
  split at hJ
  · obtain rfl := Res.ok.inj hJ
    have small : ∀ β : ℝ, (1 + β • skew w : M3) *ᵥ v = 0 → v = 0 := by
      intro β h0
      have h1 := congrArg (v ⬝ᵥ ·) h0
      simp only [add_mulVec, one_mulVec, smul_mulVec, dotProduct_add, dotProduct_smul, skew_dot, smul_zero, add_zero, dotProduct_zero] at h1
      exact dotProduct_self_eq_zero.1 h1
    constructor
    · intro h
      refine small (-0.5) ?_
      rw [neg_smul, ← sub_eq_add_neg]
      exact h
    · intro h
      refine small 0.5 ?_
      rw [transpose_sub, transpose_one, transpose_smul, skew_transpose, smul_neg, sub_neg_eq_add] at h
      exact h
  · rename_i hth
    split at hJ
    · cases hJ
    · rename_i ht
      have hJ := Res.ok.inj hJ
      have hpos : 0 < vnorm w := lt_of_lt_of_le (by norm_num) (not_lt.1 hth)
      have ha : vdiv w (vnorm w) ⬝ᵥ vdiv w (vnorm w) = 1 := by
        have hv : vdiv w (vnorm w) = (vnorm w)⁻¹ • w := by
          funext i
          simp [vdiv, div_eq_inv_mul]
        have hsq : vnorm w ^ 2 = w ⬝ᵥ w := Real.sq_sqrt (sq_nonneg_dot _)
        rw [hv, smul_dotProduct, dotProduct_smul, ← hsq, smul_eq_mul, smul_eq_mul]
        field_simp
      have ht0 : Real.tan (0.5 * vnorm w) ≠ 0 := fun e => by
        rw [e, abs_zero] at ht
        norm_num at ht
      have hα : 0.5 * vnorm w * (1 / Real.tan (0.5 * vnorm w)) ≠ 0 :=
        mul_ne_zero (mul_ne_zero (by norm_num) hpos.ne') (one_div_ne_zero ht0)
      subst hJ
      generalize 0.5 * vnorm w * (1 / Real.tan (0.5 * vnorm w)) = α at *
      generalize vdiv w (vnorm w) = a at *
      constructor
      · intro h
        refine axis_regular (β := -(0.5 * vnorm w)) ha hα ?_
        rw [neg_smul, ← sub_eq_add_neg]
        exact h
      · intro h
        refine axis_regular (β := 0.5 * vnorm w) ha hα ?_
        rw [transpose_sub, transpose_add, transpose_smul, transpose_smul, transpose_smul, transpose_one, transpose_vecMulVec,
          skew_transpose, smul_neg, sub_neg_eq_add] at h
        exact h

/-- The part of a vector that belongs to the position of a pose. -/
noncomputable def posPart (h : Heap RVar) (vars : List VRef) (x : Nat → ℝ) (p : VRef) : V3 := incPos fun j => columnPart h vars x p j

/-- The part of a vector that belongs to the orientation of a pose. -/
noncomputable def rotPart (h : Heap RVar) (vars : List VRef) (x : Nat → ℝ) (p : VRef) : V3 := incRot fun j => columnPart h vars x p j

theorem const_parts {h : Heap RVar} {vars : List VRef} {x : Nat → ℝ} {p : VRef} (hc : VarLike.isConst (F := ℝ) (h p) = true) :
    (∀ j, columnPart h vars x p j = 0) ∧ posPart h vars x p = 0 ∧ rotPart h vars x p = 0 := by
  have e : ∀ j, columnPart h vars x p j = 0 := fun j => if_pos hc
  refine ⟨e, ?_, ?_⟩
  · funext i
    fin_cases i <;> exact e _
  · funext i
    fin_cases i <;> exact e _

section
variable {h : Heap RVar} {vars : List VRef} {facs : List (Factor ℝ RVar)} (hn : vars.Nodup) {r : List ℝ} {J : SpMat ℝ}
  (hlin : Linearised h vars facs r J)
  (hclosed : ∀ f ∈ facs, ∀ q, some q ∈ f.variables → VarLike.isConst (F := ℝ) (h q) = false → q ∈ vars)
  {x : Nat → ℝ} (hk : NullVector J x)
include hn hlin hclosed hk

theorem one_kernel {f : Factor ℝ RVar} (hf : f ∈ facs) {p : VRef} (hvr : f.variables = [some p])
    (hc : VarLike.isConst (F := ℝ) (h p) = false) {m n : Nat} {A : Matrix (Fin m) (Fin n) ℝ} (hm : f.residualSize = m)
    (hs : VarLike.size (F := ℝ) (h p) = n) (hbs : f.computeJacobians h [] = .ok [Mat.ofMatrix A]) :
    (A *ᵥ fun j => columnPart h vars x p j) = 0 := by
  obtain ⟨k, hkf⟩ := List.getElem?_of_mem hf
  funext i
  have := single_row hn hlin hkf (slot := 0) (l := p) (by rw [hvr]; rfl) (hclosed _ hf p (by simp [hvr]) hc) hc
    (fun q _ _ hm => by simpa [hvr] using hm) hbs rfl (i := i) (hm ▸ i.2) x
  rw [hk _ (by rw [hlin.rows]; exact row_lt hkf (hm ▸ i.2)), hs, ofMatrix_entry] at this
  simp only [columnPart, hc, Bool.false_eq_true, if_false]
  exact this.symm

theorem position_kernel {f : Factor ℝ RVar} (hf : f ∈ facs) {p : VRef} (hs : GivesPosition h f p) : posPart h vars x p = 0 := by
  cases hc : VarLike.isConst (F := ℝ) (h p) with
  | true => exact (const_parts hc).2.1
  | false =>
    cases hs with
    | @mk id _ prior sigma v hs hv =>
      have hcv : VarLike.isConst (F := ℝ) (RVar.pose v) = false := by rw [← hv]; exact hc
      have key := one_kernel hn hlin hclosed hk hf rfl hc (m := 3) (n := 6) (A := Fac.beside ((1 / sigma) • (1 : M3)) 0) rfl
        (by rw [hv]; rfl) (by
          simp only [Fac.posePositionPrior, hv, Fac.block, hcv, Bool.false_eq_true, if_false]
          exact fillBlocks_ok rfl)
      rw [beside_mulVec, zero_mulVec, add_zero, smul_mulVec, one_mulVec] at key
      exact (smul_eq_zero.1 key).resolve_left (one_div_ne_zero hs)

theorem orientation_kernel {f : Factor ℝ RVar} (hf : f ∈ facs) {p : VRef} (hs : GivesOrientation h f p) : rotPart h vars x p = 0 := by
  cases hc : VarLike.isConst (F := ℝ) (h p) with
  | true => exact (const_parts hc).2.2
  | false =>
    obtain ⟨B, hB, _⟩ := hlin.jacobian
    obtain ⟨k, hkf⟩ := List.getElem?_of_mem hf
    obtain ⟨hbs, _⟩ := hB k f hkf
    cases hs with
    | @mk id _ prior sigma v hs hv =>
      have hcv : v.isConst = false := by rw [hv] at hc; exact hc
      simp only [Fac.poseOrientationPrior, hv, hcv, Bool.false_eq_true, if_false] at hbs
      cases hJ : invJacSO3 (logSO3 (v.dcm * (expSO3 (logSO3 prior))ᵀ)) with
      | ok K =>
        rw [hJ] at hbs
        simp only [Res.andThen] at hbs
        have hbs := Res.ok.inj ((fillBlocks_ok rfl).symm.trans hbs)
        have key := one_kernel hn hlin hclosed hk hf rfl hc (m := 3) (n := 6) (A := Fac.beside 0 ((1 / sigma) • K)) rfl
          (by rw [hv]; rfl) (by rw [(hB k _ hkf).1, ← hbs])
        rw [beside_mulVec, zero_mulVec, zero_add, smul_mulVec] at key
        exact (invJac_regular hJ _).1 ((smul_eq_zero.1 key).resolve_left (one_div_ne_zero hs))
      | threw => rw [hJ] at hbs; cases hbs
      | ub => rw [hJ] at hbs; cases hbs

theorem shift_kernel {f : Factor ℝ RVar} (hf : f ∈ facs) {localFrame : Bool} {a b : VRef} (hs : GivesShift h f localFrame a b)
    (hrot : localFrame = true → rotPart h vars x a = 0) : posPart h vars x a = posPart h vars x b := by
  obtain ⟨B, hB, _⟩ := hlin.jacobian
  obtain ⟨k, hkf⟩ := List.getElem?_of_mem hf
  obtain ⟨hbs, _⟩ := hB k f hkf
  cases hs with
  | @mk id _ _ m sigma _ va vb hs hab hm hva hvb hR =>
    simp only [Fac.posePositionBetween, hva, hvb] at hbs
    have hbs := Res.ok.inj ((fillBlocks_ok rfl).symm.trans hbs)
    have key := two_kernel hn hlin hclosed hk hf (a := a) (b := b) (others := [some m]) rfl (by simp [hm]) (by simp) hab (m := 3)
      (n1 := 6) (n2 := 6) rfl (by rw [hva]; rfl) (by rw [hvb]; rfl) (by rw [hva, hvb, (hB k _ hkf).1, ← hbs])
    have hw : (1 : ℝ) / sigma ≠ 0 := one_div_ne_zero hs
    cases localFrame with
    | false =>
      simp only [Bool.false_eq_true, if_false, beside_mulVec, zero_mulVec, add_zero, smul_mulVec, one_mulVec] at key
      rw [neg_smul, neg_add_eq_zero] at key
      exact smul_right_injective _ hw key
    | true =>
      have h0 := hrot rfl
      simp only [if_true, beside_mulVec, zero_mulVec, add_zero] at key
      change _ + _ *ᵥ rotPart h vars x a + _ = 0 at key
      rw [h0, mulVec_zero, add_zero, smul_mulVec, smul_mulVec, neg_smul, neg_add_eq_zero] at key
      have e := smul_right_injective _ hw key
      have e := congrArg (va.dcmᵀ *ᵥ ·) e
      simp only [mulVec_mulVec, mul_eq_one_comm.1 hR.1, one_mulVec] at e
      exact e

theorem turn_kernel {f : Factor ℝ RVar} (hf : f ∈ facs) {a b : VRef} (hs : GivesTurn h f a b) :
    rotPart h vars x a = 0 ↔ rotPart h vars x b = 0 := by
  obtain ⟨B, hB, _⟩ := hlin.jacobian
  obtain ⟨k, hkf⟩ := List.getElem?_of_mem hf
  obtain ⟨hbs, _⟩ := hB k f hkf
  cases hs with
  | @mk id _ _ c sigma va vb vc hs hab hc hva hvb hvc hRa hRb hRc =>
    simp only [Fac.poseOrientationBetween, hva, hvb, hvc] at hbs
    cases hJ : invJacSO3 (logSO3 (vb.dcm * va.dcmᵀ * vc.dcm)) with
    | ok K =>
      rw [hJ] at hbs
      simp only [Res.andThen] at hbs
      have hbs := Res.ok.inj ((fillBlocks_ok rfl).symm.trans hbs)
      have key := two_kernel hn hlin hclosed hk hf (a := a) (b := b) (others := [some c]) rfl (by simp [hc]) (by simp) hab (m := 3)
        (n1 := 6) (n2 := 6) rfl (by rw [hva]; rfl) (by rw [hvb]; rfl) (by rw [hva, hvb, (hB k _ hkf).1, ← hbs])
      have hw : (1 : ℝ) / sigma ≠ 0 := one_div_ne_zero hs
      simp only [beside_mulVec, zero_mulVec, zero_add] at key
      change _ *ᵥ rotPart h vars x a + _ *ᵥ rotPart h vars x b = 0 at key
      generalize rotPart h vars x a = u at *
      generalize rotPart h vars x b = w at *
      rw [smul_mul_assoc, smul_mulVec, smul_mulVec, neg_smul, neg_add_eq_zero] at key
      have e := smul_right_injective _ hw key
      rw [← mulVec_mulVec, ← mulVec_mulVec, ← sub_eq_zero, ← mulVec_sub] at e
      have e := sub_eq_zero.1 ((invJac_regular hJ _).2 e)
      rw [transpose_mul, ← mulVec_mulVec, transpose_mul, transpose_transpose] at e
      have e := congrArg (vc.dcm *ᵥ ·) e
      simp only [mulVec_mulVec, hRc.1, one_mulVec] at e
      rw [← mul_assoc, hRc.1, one_mul] at e
      rw [e]
      constructor
      · intro h0
        have h0 := congrArg (fun y => vb.dcm *ᵥ (va.dcmᵀ *ᵥ y)) h0
        simp only [mulVec_mulVec, mulVec_zero] at h0
        rw [← mul_assoc va.dcmᵀ, mul_eq_one_comm.1 hRa.1, one_mul, hRb.1, one_mulVec] at h0
        exact h0
      · rintro rfl
        exact mulVec_zero _
    | threw => rw [hJ] at hbs; cases hbs
    | ub => rw [hJ] at hbs; cases hbs

theorem bearing_kernel {f : Factor ℝ RVar} (hf : f ∈ facs) {p l : VRef} {c t : V3} (hs : GivesBearing h f p l c t)
    (hpos : posPart h vars x p = 0) (hrot : rotPart h vars x p = 0) : ∃ a : ℝ, (fun j : Fin 3 => columnPart h vars x l j) = a • (t - c) := by
  obtain ⟨B, hB, _⟩ := hlin.jacobian
  obtain ⟨k, hkf⟩ := List.getElem?_of_mem hf
  obtain ⟨hbs, _⟩ := hB k f hkf
  cases hs with
  | @mk id _ _ bearing sigma v y _ hs hp hR hl hx =>
    have hpl : p ≠ l := by
      rintro rfl
      rw [hp] at hl
      cases hl
    simp only [Fac.bearingObservation, hp, hl, posW_of hx, Res.andThen] at hbs
    split at hbs
    · cases hbs
    · rename_i hfar
      have hbs := Res.ok.inj ((fillBlocks_ok rfl).symm.trans hbs)
      have h0 : vnorm (v.dcm *ᵥ (t - v.pos)) ≠ 0 := fun e => by rw [e] at hfar; norm_num at hfar
      have key := two_kernel hn hlin hclosed hk hf (a := p) (b := l) rfl (by simp) (by simp) hpl (m := 3) (n1 := 6) (n2 := 3) rfl
        (by rw [hp]; rfl) (by rw [hl]; rfl) (by rw [hp, hl, (hB k _ hkf).1, ← hbs])
      rw [beside_mulVec] at key
      change _ *ᵥ posPart h vars x p + _ *ᵥ rotPart h vars x p + _ = 0 at key
      rw [hpos, hrot, mulVec_zero, mulVec_zero, zero_add, zero_add] at key
      exact (direction_kernel hR (div_ne_zero (one_div_ne_zero hs) h0) h0).1 key

theorem Spec.Oriented.part {p : VRef} (hp : Oriented h facs p) : rotPart h vars x p = 0 := by
  induction hp with
  | known hc => exact (const_parts hc).2.2
  | given hf hs => exact orientation_kernel hn hlin hclosed hk hf hs
  | ahead hf hs _ ih => exact (turn_kernel hn hlin hclosed hk hf hs).1 ih
  | back hf hs _ ih => exact (turn_kernel hn hlin hclosed hk hf hs).2 ih

/-- A kernel vector vanishes on every position that can be located. -/
theorem Spec.Positioned.part {p : VRef} (hp : Positioned h facs p) : ∀ j, j < 3 → columnPart h vars x p j = 0 := by
  have of_pos : ∀ {q}, posPart h vars x q = 0 → ∀ j, j < 3 → columnPart h vars x q j = 0 := by
    intro q hq j hj
    match j, hj with
    | 0, _ => exact congrFun hq 0
    | 1, _ => exact congrFun hq 1
    | 2, _ => exact congrFun hq 2
  have to_pos : ∀ {q}, (∀ j, j < 3 → columnPart h vars x q j = 0) → posPart h vars x q = 0 := by
    intro q hq
    funext i
    fin_cases i
    · exact hq 0 (by omega)
    · exact hq 1 (by omega)
    · exact hq 2 (by omega)
  induction hp with
  | known hc => exact fun j _ => (const_parts hc).1 j
  | given hf hs => exact of_pos (position_kernel hn hlin hclosed hk hf hs)
  | ahead hf hs ho _ ih =>
    exact of_pos ((shift_kernel hn hlin hclosed hk hf hs fun e => (ho e).part hn hlin hclosed hk).symm.trans (to_pos ih))
  | back hf hs ho _ ih =>
    exact of_pos ((shift_kernel hn hlin hclosed hk hf hs fun e => (ho e).part hn hlin hclosed hk).trans (to_pos ih))
  | @crossing f g p q l c d t hf hs hop _ hg hs' hoq _ hne ihp ihq =>
    obtain ⟨a, ha⟩ := bearing_kernel hn hlin hclosed hk hf hs (to_pos ihp) (hop.part hn hlin hclosed hk)
    obtain ⟨b, hb⟩ := bearing_kernel hn hlin hclosed hk hg hs' (to_pos ihq) (hoq.part hn hlin hclosed hk)
    have ha0 : a = 0 := by
      refine Classical.byContradiction fun h0 => hne ⟨b / a, ?_⟩
      rw [div_eq_inv_mul, mul_smul, ← hb, ha, inv_smul_smul₀ h0]
    rw [ha0, zero_smul] at ha
    intro j hj
    exact congrFun ha ⟨j, hj⟩

end

/-- The matrices of the rows of a factor on one variable, times a vector. -/
theorem one_rows {h : Heap RVar} {vars : List VRef} {facs : List (Factor ℝ RVar)} (hn : vars.Nodup) {r : List ℝ} {J : SpMat ℝ}
    (hlin : Linearised h vars facs r J) {k : Nat} {f : Factor ℝ RVar} (hk : facs[k]? = some f) {p : VRef}
    (hvr : f.variables = [some p]) (hclosed : ∀ q, some q ∈ f.variables → VarLike.isConst (F := ℝ) (h q) = false → q ∈ vars) {m n : Nat}
    {A : Matrix (Fin m) (Fin n) ℝ} (hm : f.residualSize = m) (hs : VarLike.size (F := ℝ) (h p) = n) {bs : List (Mat ℝ)}
    (hbs : f.computeJacobians h [] = .ok bs) (hA : VarLike.isConst (F := ℝ) (h p) = false → bs[0]? = some (Mat.ofMatrix A))
    (x : Nat → ℝ) (i : Fin m) :
    ∑ c ∈ Finset.range J.columns.length, J.coeff (rowStart facs k + i) c * x c = (A *ᵥ fun j => columnPart h vars x p j) i := by
  rw [factor_row hn hlin hk (n := 1) (vr := fun _ => p) (M := fun _ => Mat.ofMatrix A) (by rw [hvr]; rfl) (fun s hs t ht _ _ => by omega)
    (fun s _ => hclosed p (by simp [hvr])) hbs (fun s hs hc => by
      obtain rfl : s = 0 := by omega
      exact hA hc) (hm ▸ i.2) x]
  rw [Finset.sum_range_one, hs]
  exact ofMatrix_entry A i _

/-- Any choice of values for the free variables is a vector over the columns. -/
theorem exists_parts {V : Type} [VarLike ℝ V] (h : Heap V) (vars : List VRef) (u : VRef → Nat → ℝ) :
    ∃ x : Nat → ℝ, ∀ q ∈ vars, VarLike.isConst (F := ℝ) (h q) = false → ∀ j, j < VarLike.size (F := ℝ) (h q) →
      x (colStart h vars q + j) = u q j := by
  classical
  refine ⟨fun c => if hc : ∃ q j, q ∈ vars ∧ VarLike.isConst (F := ℝ) (h q) = false ∧ j < VarLike.size (F := ℝ) (h q) ∧ c = colStart h vars q + j
    then u hc.choose hc.choose_spec.choose else 0, fun q hq hqc j hj => ?_⟩
  have hc : ∃ q' j', q' ∈ vars ∧ VarLike.isConst (F := ℝ) (h q') = false ∧ j' < VarLike.size (F := ℝ) (h q') ∧
      colStart h vars q + j = colStart h vars q' + j' := ⟨q, j, hq, hqc, hj, rfl⟩
  simp only [dif_pos hc]
  obtain ⟨h1, h2, h3, h4⟩ := hc.choose_spec.choose_spec
  obtain ⟨e1, e2⟩ := column_inj hq h1 hqc h2 hj h3 h4
  exact congrArg₂ u e1.symm e2.symm

/-- Any choice of shifts and turns of the free poses is a vector over the columns. -/
theorem exists_pose_parts {h : Heap RVar} {vars : List VRef}
    (hposes : ∀ q ∈ vars, VarLike.isConst (F := ℝ) (h q) = false → VarLike.size (F := ℝ) (h q) = 6) (P O : VRef → V3)
    (hP : ∀ q, VarLike.isConst (F := ℝ) (h q) = true → P q = 0) (hO : ∀ q, VarLike.isConst (F := ℝ) (h q) = true → O q = 0) :
    ∃ x : Nat → ℝ, ∀ q, (VarLike.isConst (F := ℝ) (h q) = false → q ∈ vars) → posPart h vars x q = P q ∧ rotPart h vars x q = O q := by
  let U : VRef → Nat → ℝ := fun q j => match j with
    | 0 => P q 0 | 1 => P q 1 | 2 => P q 2 | 3 => O q 0 | 4 => O q 1 | _ => O q 2
  obtain ⟨x, hx⟩ := exists_parts h vars U
  refine ⟨x, fun q hq => ?_⟩
  cases hc : VarLike.isConst (F := ℝ) (h q) with
  | true => rw [hP q hc, hO q hc]; exact (const_parts hc).2
  | false =>
    have e : ∀ j, j < 6 → columnPart h vars x q j = U q j := fun j hj => by
      rw [columnPart, hc, if_neg Bool.false_ne_true]
      exact hx q (hq hc) hc j (by rw [hposes q (hq hc) hc]; exact hj)
    constructor
    · funext i
      match i with
      | 0 => exact e 0 (by omega)
      | 1 => exact e 1 (by omega)
      | 2 => exact e 2 (by omega)
    · funext i
      match i with
      | 0 => exact e 3 (by omega)
      | 1 => exact e 4 (by omega)
      | 2 => exact e 5 (by omega)

/-- Shifts and turns of the poses that no factor sees to first order. -/
theorem null_of_parts {h : Heap RVar} {vars : List VRef} {facs : List (Factor ℝ RVar)} (hn : vars.Nodup) {r : List ℝ} {J : SpMat ℝ}
    (hlin : Linearised h vars facs r J)
    (hclosed : ∀ f ∈ facs, ∀ q, some q ∈ f.variables → VarLike.isConst (F := ℝ) (h q) = false → q ∈ vars) {x : Nat → ℝ}
    (hall : ∀ f ∈ facs, (∃ p, GivesPosition h f p ∧ posPart h vars x p = 0) ∨ (∃ p, GivesOrientation h f p ∧ rotPart h vars x p = 0) ∨
      (∃ l a b, GivesShift h f l a b ∧ posPart h vars x a = posPart h vars x b ∧ (l = true → rotPart h vars x a = 0)) ∨
      ∃ a b, GivesTurn h f a b ∧ ∀ va vb, h a = .pose va → h b = .pose vb →
        ∃ e, rotPart h vars x a = va.dcm *ᵥ e ∧ rotPart h vars x b = vb.dcm *ᵥ e) : NullVector J x := by
  intro a ha
  obtain ⟨k, f, i, hk, hi, rfl⟩ := exists_row (a := a) (by rw [← hlin.rows]; exact ha)
  have hf := List.mem_of_getElem? hk
  obtain ⟨B, hB, hS⟩ := hlin.jacobian
  have hbs := (hB k f hk).1
  rcases hall f hf with ⟨p, hs, h0⟩ | ⟨p, hs, h0⟩ | ⟨l, a, b, hs, h0, h1⟩ | ⟨a, b, hs, h0⟩
  · cases hs with
    | @mk id _ prior sigma v hs hv =>
      have e := hbs
      simp only [Fac.posePositionPrior, hv] at e
      obtain e := Res.ok.inj ((fillBlocks_ok rfl).symm.trans e)
      refine (one_rows hn hlin hk rfl (hclosed _ hf) (m := 3) (n := 6) (A := Fac.beside ((1 / sigma) • (1 : M3)) 0) rfl (by rw [hv]; rfl) hbs
        (fun hc => by
          have hc : VarLike.isConst (F := ℝ) (RVar.pose v) = false := by rw [← hv]; exact hc
          simp [← e, Fac.block, hc]) x ⟨i, hi⟩).trans ?_
      rw [beside_mulVec]
      change ((_ *ᵥ posPart h vars x p) + _) _ = 0
      rw [h0, mulVec_zero, zero_mulVec, add_zero]; rfl
  · cases hs with
    | @mk id _ prior sigma v hs hv =>
      cases hcv : v.isConst with
      | true =>
        refine (one_rows hn hlin hk rfl (hclosed _ hf) (m := 3) (n := 6) (A := 0) rfl (by rw [hv]; rfl) hbs
          (fun hc => by rw [hv] at hc; exact absurd (hcv.symm.trans hc) (by decide)) x ⟨i, hi⟩).trans ?_
        rw [zero_mulVec]; rfl
      | false =>
        have e := hbs
        simp only [Fac.poseOrientationPrior, hv, hcv, Bool.false_eq_true, if_false] at e
        cases hJ : invJacSO3 (logSO3 (v.dcm * (expSO3 (logSO3 prior))ᵀ)) with
        | ok K =>
          rw [hJ] at e
          simp only [Res.andThen] at e
          have e := Res.ok.inj ((fillBlocks_ok rfl).symm.trans e)
          refine (one_rows hn hlin hk rfl (hclosed _ hf) (m := 3) (n := 6) (A := Fac.beside 0 ((1 / sigma) • K)) rfl (by rw [hv]; rfl) hbs
            (fun hc => by simp [← e]) x ⟨i, hi⟩).trans ?_
          rw [beside_mulVec]
          change (_ + (_ *ᵥ rotPart h vars x p)) _ = 0
          rw [h0, mulVec_zero, zero_mulVec, add_zero]; rfl
        | threw => rw [hJ] at e; cases e
        | ub => rw [hJ] at e; cases e
  · cases hs with
    | @mk id _ _ m sigma _ va vb hs hab hm hva hvb hR =>
      have e := hbs
      simp only [Fac.posePositionBetween, hva, hvb] at e
      have e := Res.ok.inj ((fillBlocks_ok rfl).symm.trans e)
      have key := two_rows hn hlin hk (a := a) (b := b) (others := [some m]) rfl (by simp [hm]) (by simp) hab (hclosed _ hf) (m := 3)
        (n1 := 6) (n2 := 6) rfl (by rw [hva]; rfl) (by rw [hvb]; rfl) (by rw [hva, hvb, hbs, ← e]) x ⟨i, hi⟩
      refine key.trans ?_
      rw [← Pi.add_apply]
      refine congrFun (g := (0 : V3)) ?_ _
      cases l with
      | false =>
        simp only [Bool.false_eq_true, if_false, beside_mulVec, zero_mulVec, add_zero, smul_mulVec, one_mulVec]
        rw [neg_smul, neg_add_eq_zero]
        exact congrArg _ h0
      | true =>
        simp only [if_true, beside_mulVec, zero_mulVec, add_zero]
        change _ + _ *ᵥ rotPart h vars x a + _ = 0
        rw [h1 rfl, mulVec_zero, add_zero, smul_mulVec, smul_mulVec, neg_smul, neg_add_eq_zero]
        exact congrArg (fun y => _ • (va.dcm *ᵥ y)) h0
  · cases hs with
    | @mk id _ _ c sigma va vb vc hs hab hc hva hvb hvc hRa hRb hRc =>
      have e := hbs
      simp only [Fac.poseOrientationBetween, hva, hvb, hvc] at e
      cases hJ : invJacSO3 (logSO3 (vb.dcm * va.dcmᵀ * vc.dcm)) with
      | ok K =>
        rw [hJ] at e
        simp only [Res.andThen] at e
        have e := Res.ok.inj ((fillBlocks_ok rfl).symm.trans e)
        have key := two_rows hn hlin hk (a := a) (b := b) (others := [some c]) rfl (by simp [hc]) (by simp) hab (hclosed _ hf) (m := 3)
          (n1 := 6) (n2 := 6) rfl (by rw [hva]; rfl) (by rw [hvb]; rfl) (by rw [hva, hvb, hbs, ← e]) x ⟨i, hi⟩
        refine key.trans ?_
        rw [← Pi.add_apply]
        refine congrFun (g := (0 : V3)) ?_ _
        simp only [beside_mulVec, zero_mulVec, zero_add]
        change _ *ᵥ rotPart h vars x a + _ *ᵥ rotPart h vars x b = 0
        obtain ⟨d, h1, h2⟩ := h0 va vb hva hvb
        rw [h1, h2, smul_mul_assoc, smul_mulVec, smul_mulVec, neg_smul, neg_add_eq_zero]
        refine congrArg _ ?_
        simp only [mulVec_mulVec, transpose_mul, transpose_transpose, mul_assoc]
        rw [mul_eq_one_comm.1 hRb.1, mul_one]
      | threw => rw [hJ] at e; cases e
      | ub => rw [hJ] at e; cases e

end Factorama
