import Verif.Spec.Errors
import Verif.Lemmas.AffineStep
import Mathlib.LinearAlgebra.Matrix.NonsingularInverse

/-! Helper lemmas: the error of a least-squares estimate as a function of the errors of the measurements. -/

namespace Factorama
open Spec Graph Matrix
variable {V : Type} [VarLike ℝ V]

/-- After a full step from any values, the difference to the values `y` depends on the residual at `y` only. -/
theorem full_step_error {h0 h t y : Heap V} {vars : List VRef} {facs : List (Factor ℝ V)} (hn : vars.Nodup)
    (hmem : ∀ f ∈ facs, ∀ r, some r ∈ f.variables → VarLike.isConst (h0 r) = false → r ∈ vars)
    (hnr : NoRepeats facs) (haff : ∀ f ∈ facs, ∃ B, AffineFactor h0 f B) (hadd : AdditiveIncrements h0 vars)
    (hs : SameShape h0 h) {r r' d ε : List ℝ} {J : SpMat ℝ} (hlin : Linearised h vars facs r J)
    (hu : IsUnit ((jacobianMatrix J)ᵀ * jacobianMatrix J))
    (hN : ((jacobianMatrix J)ᵀ * jacobianMatrix J) *ᵥ asVec J.columns.length d = -gradient J r)
    (hst : Stepped h t vars d) (hbt : SameButFree h t vars) (hr' : IsResidual t facs r') (hb : SameButFree h y vars)
    (hε : IsResidual y facs ε) :
    ∃ e : Nat → ℝ, (∀ q ∈ vars, VarLike.isConst (h0 q) = false → ∀ j, j < VarLike.size (h0 q) →
        e (colStart h vars q + j) = component (t q) j - component (y q) j) ∧
      (fun c : Fin J.columns.length => e c) =
        -(((jacobianMatrix J)ᵀ * jacobianMatrix J)⁻¹ *ᵥ ((jacobianMatrix J)ᵀ *ᵥ asVec J.rows ε)) ∧
      asVec J.rows r' = asVec J.rows ε + jacobianMatrix J *ᵥ fun c : Fin J.columns.length => e c := by
  obtain ⟨x, hx⟩ := exists_stacked h vars hn (fun q j => component (y q) j - component (h q) j)
  have hx' : ∀ q ∈ vars, VarLike.isConst (h q) = false → ∀ j, j < VarLike.size (h q) →
      x (colStart h vars q + j) = component (y q) j - component (h q) j := fun q hq hc j hj => hx q hq j (by
    rw [freeSize, hc]
    simpa using hj)
  have e1 : asVec J.rows ε = asVec J.rows r + jacobianMatrix J *ᵥ fun c : Fin J.columns.length => x c := by
    funext a
    rw [Pi.add_apply, asVec, affine_residual hn hmem hnr haff hs hb hlin hε hx' (hlin.rows ▸ a.2), asVec, mulVec, dotProduct,
      ← hlin.columns, Finset.sum_range]
    rfl
  have hx2 : ∀ q ∈ vars, VarLike.isConst (h q) = false → ∀ j, j < VarLike.size (h q) →
      d.getD (colStart h vars q + j) 0 = component (t q) j - component (h q) j := by
    intro q hq hc' j hj'
    have e := hadd h hs q hq ((hs q).2.1.symm.trans hc') _ _ ((hst q).1 ⟨hq, hc'⟩) j (by rw [← (hs q).2.2]; exact hj')
    have : (partOf h vars d q).getD j 0 = d.getD (colStart h vars q + j) 0 := by
      simp only [partOf, List.getD_eq_getElem?_getD, List.getElem?_take, List.getElem?_drop]
      rw [if_pos hj']
    rw [e, this]
    ring
  have e1' : asVec J.rows r' = asVec J.rows r + jacobianMatrix J *ᵥ asVec J.columns.length d := by
    funext a
    rw [Pi.add_apply, asVec, affine_residual hn hmem hnr haff hs hbt hlin hr' (x := fun c => d.getD c 0) hx2 (hlin.rows ▸ a.2), asVec,
      mulVec, dotProduct, ← hlin.columns, Finset.sum_range]
    rfl
  refine ⟨fun c => d.getD c 0 - x c, fun q hq hc j hj => ?_, ?_, ?_⟩
  · have hc' := (hs q).2.1.trans hc
    have hj' : j < VarLike.size (h q) := by rw [(hs q).2.2]; exact hj
    have e' := hx' q hq hc' j hj'
    show d.getD (colStart h vars q + j) 0 - x (colStart h vars q + j) = _
    rw [hx2 q hq hc' j hj', e']
    ring
  · have e2 : (fun c : Fin J.columns.length => d.getD c 0 - x c) =
        asVec J.columns.length d - fun c : Fin J.columns.length => x c := rfl
    have e3 : ((jacobianMatrix J)ᵀ * jacobianMatrix J) *ᵥ (asVec J.columns.length d - fun c : Fin J.columns.length => x c) =
        -((jacobianMatrix J)ᵀ *ᵥ asVec J.rows ε) := by
      rw [mulVec_sub, hN, e1, mulVec_add, mulVec_mulVec]
      rw [gradient]
      abel
    rw [e2, ← mulVec_neg, ← e3, mulVec_mulVec, nonsing_inv_mul _ ((isUnit_iff_isUnit_det _).1 hu), one_mulVec]
  · have e2 : (fun c : Fin J.columns.length => d.getD c 0 - x c) =
        asVec J.columns.length d - fun c : Fin J.columns.length => x c := rfl
    rw [e2, mulVec_sub, e1', e1]
    abel

/-- The residual depends on the components only. -/
theorem affine_congr {h0 h t y : Heap V} {vars : List VRef} {facs : List (Factor ℝ V)} (hn : vars.Nodup)
    (hmem : ∀ f ∈ facs, ∀ r, some r ∈ f.variables → VarLike.isConst (h0 r) = false → r ∈ vars)
    (hnr : NoRepeats facs) (haff : ∀ f ∈ facs, ∃ B, AffineFactor h0 f B)
    (hs : SameShape h0 h) {r r' ε : List ℝ} {J : SpMat ℝ} (hlin : Linearised h vars facs r J)
    (hb : SameButFree h y vars) (hε : IsResidual y facs ε) (hb' : SameButFree h t vars) (hr' : IsResidual t facs r')
    (he : ∀ q ∈ vars, VarLike.isConst (h0 q) = false → ∀ j, j < VarLike.size (h0 q) → component (t q) j = component (y q) j)
    {a : Nat} (ha : a < rowTotal facs) : r'.getD a 0 = ε.getD a 0 := by
  obtain ⟨x, hx⟩ := exists_stacked h vars hn (fun q j => component (y q) j - component (h q) j)
  have hx' : ∀ q ∈ vars, VarLike.isConst (h q) = false → ∀ j, j < VarLike.size (h q) →
      x (colStart h vars q + j) = component (y q) j - component (h q) j := fun q hq hc j hj => hx q hq j (by
    rw [freeSize, hc]
    simpa using hj)
  rw [affine_residual hn hmem hnr haff hs hb hlin hε hx' ha, affine_residual hn hmem hnr haff hs hb' hlin hr' (x := x) (fun q hq hc j hj => by
    rw [hx' q hq hc j hj, he q hq ((hs q).2.1.symm.trans hc) j (by rw [← (hs q).2.2]; exact hj)]) ha]

/-- A square matrix with invertible `AᵀA` has no left kernel. -/
theorem transpose_zero {R N : Nat} (A : Matrix (Fin R) (Fin N) ℝ) (hRN : R = N) (hu : IsUnit (Aᵀ * A)) (x : Fin R → ℝ)
    (hx : Aᵀ *ᵥ x = 0) : x = 0 := by
  subst hRN
  have hd := (Matrix.isUnit_iff_isUnit_det _).1 hu
  have hdT : IsUnit (Aᵀ).det := by
    rw [det_mul] at hd
    exact isUnit_of_mul_isUnit_left hd
  have h4 := congrArg (fun y => (Aᵀ)⁻¹ *ᵥ y) hx
  simpa [mulVec_mulVec, nonsing_inv_mul _ hdT] using h4

/-- Equally many measurements of the same sizes. -/
theorem sizes_eq {facs facs' : List (Factor ℝ V)} (hlen : facs'.length = facs.length)
    (hf : ∀ (k : Nat) (f f' : Factor ℝ V), facs[k]? = some f → facs'[k]? = some f' → f'.residualSize = f.residualSize) :
    (facs'.map fun f => f.residualSize) = facs.map fun f => f.residualSize := by
  refine List.ext_getElem (by simp [hlen]) fun k h1 h2 => ?_
  simp only [List.length_map] at h1 h2
  simp only [List.getElem_map]
  exact hf k _ _ (List.getElem?_eq_getElem h2) (List.getElem?_eq_getElem h1)

theorem contribution_variables {h : Heap V} {f f' : Factor ℝ V} {B : List (Mat ℝ)} {d : VRef → Nat → ℝ}
    (e : f'.variables = f.variables) (i p : Nat) : contribution h f' B d i p = contribution h f B d i p := by
  simp only [contribution, e]

/-- Problems that differ in the measured values only have the same Jacobian. -/
theorem design_coeff {h0 h0' h h' : Heap V} {vars : List VRef} {facs facs' : List (Factor ℝ V)} (hn : vars.Nodup)
    (hmem : ∀ f ∈ facs, ∀ r, some r ∈ f.variables → VarLike.isConst (h0 r) = false → r ∈ vars)
    (hmem' : ∀ f ∈ facs', ∀ r, some r ∈ f.variables → VarLike.isConst (h0' r) = false → r ∈ vars)
    (hnr : NoRepeats facs) (hnr' : NoRepeats facs') (h00 : SameShape h0 h0') (hlen : facs'.length = facs.length)
    (hfac : ∀ (k : Nat) (f f' : Factor ℝ V), facs[k]? = some f → facs'[k]? = some f' → SameMeasurement h0 h0' f f')
    (hs : SameShape h0 h) (hs' : SameShape h0' h') {r r' : List ℝ} {J J' : SpMat ℝ} (hlin : Linearised h vars facs r J)
    (hlin' : Linearised h' vars facs' r' J') {a c : Nat} (ha : a < rowTotal facs) (hc : c < freeTotal h vars) :
    J'.coeff a c = J.coeff a c := by
  have hsizes := sizes_eq hlen fun k f f' h1 h2 => (hfac k f f' h1 h2).2.1
  have hstart : ∀ k, rowStart facs' k = rowStart facs k := fun k => by
    unfold rowStart rowTotal
    rw [List.map_take, List.map_take, hsizes]
  obtain ⟨blocks, hbl, hst⟩ := hlin.jacobian
  obtain ⟨blocks', hbl', hst'⟩ := hlin'.jacobian
  obtain ⟨k, f, i, hk, hi, rfl⟩ := exists_row ha
  obtain ⟨hk0, _⟩ := List.getElem?_eq_some_iff.1 hk
  obtain ⟨f', hk'⟩ : ∃ f', facs'[k]? = some f' := ⟨_, List.getElem?_eq_getElem (by omega)⟩
  obtain ⟨ev, esz, B, hB, hB'⟩ := hfac k f f' hk hk'
  have hf : f ∈ facs := List.mem_of_getElem? hk
  have hf' : f' ∈ facs' := List.mem_of_getElem? hk'
  have eB := hB.jacobian h hs _ (hbl k f hk).1
  have eB' := hB'.jacobian h' hs' _ (hbl' k f' hk').1
  have hss : SameShape h h' := fun q => ⟨(hs' q).1.trans ((h00 q).1.trans (hs q).1.symm),
    (hs' q).2.1.trans ((h00 q).2.1.trans (hs q).2.1.symm), (hs' q).2.2.trans ((h00 q).2.2.trans (hs q).2.2.symm)⟩
  have hm : ∀ q, some q ∈ f.variables → VarLike.isConst (h q) = false → q ∈ vars :=
    fun q hq hc => hmem f hf q hq ((hs q).2.1.symm.trans hc)
  have hm' : ∀ q, some q ∈ f'.variables → VarLike.isConst (h' q) = false → q ∈ vars :=
    fun q hq hc => hmem' f' hf' q hq ((hs' q).2.1.symm.trans hc)
  have e1 := stacked_mulVec hn hst hk (hbl k f hk).2 (hnr f hf) hm hi (fun c' => if c' = c then 1 else 0)
  have e2 := stacked_mulVec hn hst' hk' (hbl' k f' hk').2 (hnr' f' hf') hm' (esz ▸ hi) (fun c' => if c' = c then 1 else 0)
  have ht : freeTotal h' vars = freeTotal h vars := hss.freeTotal_eq vars
  have hcs : ∀ q, colStart h' vars q = colStart h vars q := fun q => hss.freeTotal_eq _
  simp only [mul_ite, mul_one, mul_zero, Finset.sum_ite_eq', Finset.mem_range, ht, hc, if_true] at e1 e2
  rw [hstart] at e2
  rw [e1, e2, eB, eB', ev]
  refine Finset.sum_congr rfl fun p _ => ?_
  rw [contribution_variables ev]
  refine (contribution_congr hss (fun q _ _ j _ => ?_) i p).symm
  rw [hcs]

end Factorama
