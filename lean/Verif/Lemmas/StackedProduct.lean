import Verif.Lemmas.StepFacts
import Verif.Lemmas.NormalEq
import Verif.Spec.Affine
import Mathlib.Algebra.BigOperators.Fin
import Mathlib.Algebra.BigOperators.Group.Finset.Piecewise

/-!
# The stacked Jacobian times a stacked vector
-/

namespace Factorama
open Spec
variable {V : Type} [VarLike ℝ V]

/-- A sum over all columns is a sum over variables of sums over their columns. -/
theorem sum_columns (h : Heap V) (vars : List VRef) (hn : vars.Nodup) (g : Nat → ℝ) :
    ∑ c ∈ Finset.range (freeTotal h vars), g c =
      ∑ r ∈ vars.toFinset, ∑ j ∈ Finset.range (freeSize (h r)), g (colStart h vars r + j) := by
  induction vars generalizing g with
  | nil => simp [freeTotal]
  | cons x vars ih =>
    have hx : x ∉ vars := (List.nodup_cons.1 hn).1
    have e : freeTotal h (x :: vars) = freeSize (h x) + freeTotal h vars := by simp [freeTotal]
    rw [e, Finset.sum_range_add, List.toFinset_cons, Finset.sum_insert (by simpa using hx),
      ih (List.nodup_cons.1 hn).2]
    congr 1
    · simp [colStart, freeTotal]
    · refine Finset.sum_congr rfl fun r hr => Finset.sum_congr rfl fun j _ => ?_
      have hne : x ≠ r := by
        rintro rfl
        exact hx (by simpa using hr)
      have : colStart h (x :: vars) r = freeSize (h x) + colStart h vars r := by
        simp [colStart, freeTotal, hne]
      rw [this, add_assoc]

theorem stacked_mulVec {h : Heap V} {vars : List VRef} (hn : vars.Nodup) {facs : List (Factor ℝ V)}
    {blocks : Nat → List (Mat ℝ)} {M : Nat → Nat → ℝ} (hst : IsStackedJacobian h vars facs blocks M)
    {k : Nat} {f : Factor ℝ V} (hk : facs[k]? = some f) (hp : ProperBlocks h f (blocks k))
    (hnr : ∀ (p q : Nat) (r : VRef), f.variables[p]? = some (some r) → f.variables[q]? = some (some r) → p = q)
    (hmem : ∀ r, some r ∈ f.variables → VarLike.isConst (h r) = false → r ∈ vars)
    {i : Nat} (hi : i < f.residualSize) (x : Nat → ℝ) :
    ∑ c ∈ Finset.range (freeTotal h vars), M (rowStart facs k + i) c * x c =
      ∑ p ∈ Finset.range f.variables.length,
        contribution h f (blocks k) (fun r j => x (colStart h vars r + j)) i p := by
  obtain ⟨h1, h2⟩ := hst k f hk i hi
  rw [sum_columns h vars hn]
  have hT : ∀ r ∈ vars.toFinset, ∑ j ∈ Finset.range (freeSize (h r)),
      M (rowStart facs k + i) (colStart h vars r + j) * x (colStart h vars r + j) =
      ∑ p ∈ Finset.range f.variables.length, if f.variables[p]? = some (some r) then
        contribution h f (blocks k) (fun r j => x (colStart h vars r + j)) i p else 0 := by
    intro r hr
    have hr' : r ∈ vars := by simpa using hr
    cases hc : VarLike.isConst (h r) with
    | true =>
      rw [freeSize, hc]
      simp only [if_true, Finset.range_zero, Finset.sum_empty]
      refine (Finset.sum_eq_zero fun p _ => ?_).symm
      split
      · rename_i e
        simp [contribution, e, hc]
      · rfl
    | false =>
      rw [freeSize, hc]
      simp only [Bool.false_eq_true, if_false]
      by_cases hm : some r ∈ f.variables
      · obtain ⟨p, hpl, hpe⟩ := List.getElem_of_mem hm
        have hp' : f.variables[p]? = some (some r) := by rw [List.getElem?_eq_getElem hpl, hpe]
        rw [Finset.sum_eq_single (s := Finset.range f.variables.length) p]
        · rw [if_pos hp']
          obtain ⟨J, hJ, _⟩ := hp p r hp'
          simp only [contribution, hp', hc, Bool.false_eq_true, if_false]
          refine Finset.sum_congr rfl fun j hj => ?_
          rw [h1 p r J hp' hc hJ j (by simpa using hj)]
          simp [List.getD_eq_getElem?_getD, hJ]
        · intro q _ hq
          rw [if_neg]
          intro e
          exact hq (hnr q p r e hp')
        · intro hq
          exact absurd (Finset.mem_range.2 hpl) hq
      · have hz : ∀ p ∈ Finset.range f.variables.length, (if f.variables[p]? = some (some r) then
            contribution h f (blocks k) (fun r j => x (colStart h vars r + j)) i p else 0) = 0 := by
          intro p _
          rw [if_neg]
          intro e
          exact hm (List.mem_of_getElem? e)
        rw [Finset.sum_eq_zero hz]
        refine Finset.sum_eq_zero fun j hj => ?_
        rw [h2 r hr' hc hm j (by simpa using hj), zero_mul]
  rw [Finset.sum_congr rfl hT, Finset.sum_comm]
  refine Finset.sum_congr rfl fun p hpr => ?_
  have hpl : p < f.variables.length := by simpa using hpr
  cases hv : f.variables[p] with
  | none =>
    have e : f.variables[p]? = some none := by rw [List.getElem?_eq_getElem hpl, hv]
    simp [e, contribution]
  | some r =>
    have e : f.variables[p]? = some (some r) := by rw [List.getElem?_eq_getElem hpl, hv]
    cases hc : VarLike.isConst (h r) with
    | true => simp [e, contribution, hc]
    | false =>
      have hr := hmem r (List.mem_of_getElem? e) hc
      rw [Finset.sum_eq_single r]
      · rw [if_pos e]
      · intro r' _ hne
        rw [if_neg]
        rw [e]
        simpa using hne.symm
      · intro hq
        exact absurd (by simpa using hr) hq

end Factorama
