import Verif.Lemmas.OptLoop

/-!
# The rows of a stacked residual
-/

namespace Factorama
open Spec Graph
variable {F V : Type}

theorem flatten_row {α : Type} {segs : List (List α)} {k : Nat} {s : List α} (hk : segs[k]? = some s) {i : Nat}
    (hi : i < s.length) : segs.flatten[((segs.take k).map List.length).sum + i]? = s[i]? := by
  induction segs generalizing k with
  | nil => simp at hk
  | cons t segs ih =>
    cases k with
    | zero =>
      obtain rfl : t = s := by simpa using hk
      simp only [List.take_zero, List.map_nil, List.sum_nil, Nat.zero_add, List.flatten_cons]
      rw [List.getElem?_append_left hi]
    | succ k =>
      simp only [List.getElem?_cons_succ] at hk
      simp only [List.flatten_cons, List.take_succ_cons, List.map_cons, List.sum_cons]
      rw [List.getElem?_append_right (by omega), ← ih hk]
      congr 1
      omega

/-- Every row belongs to a factor. -/
theorem exists_row {facs : List (Factor F V)} {a : Nat} (ha : a < rowTotal facs) :
    ∃ k f i, facs[k]? = some f ∧ i < f.residualSize ∧ a = rowStart facs k + i := by
  induction facs generalizing a with
  | nil => simp [rowTotal] at ha
  | cons f facs ih =>
    by_cases h : a < f.residualSize
    · exact ⟨0, f, a, rfl, h, by simp [rowStart, rowTotal]⟩
    · have : a - f.residualSize < rowTotal facs := by
        simp only [rowTotal, List.map_cons, List.sum_cons] at ha ⊢
        omega
      obtain ⟨k, f', i, h1, h2, h3⟩ := ih this
      refine ⟨k + 1, f', i, by simpa using h1, h2, ?_⟩
      simp only [rowStart, rowTotal, List.take_succ_cons, List.map_cons, List.sum_cons] at h3 ⊢
      omega

theorem row_lt {facs : List (Factor F V)} {k i : Nat} {f : Factor F V} (hk : facs[k]? = some f) (hi : i < f.residualSize) :
    rowStart facs k + i < rowTotal facs := by
  induction facs generalizing k with
  | nil => simp at hk
  | cons g facs ih =>
    cases k with
    | zero =>
      obtain rfl : g = f := by simpa using hk
      simp only [rowStart, rowTotal, List.take_zero, List.map_nil, List.sum_nil, List.map_cons, List.sum_cons]
      omega
    | succ k =>
      have := ih (by simpa using hk)
      simp only [rowStart, rowTotal, List.take_succ_cons, List.map_cons, List.sum_cons] at this ⊢
      omega

theorem isResidual_row {h : Heap V} {facs : List (Factor F V)} {r : List F} (hr : IsResidual h facs r) {k : Nat}
    {f : Factor F V} (hk : facs[k]? = some f) :
    ∃ s, f.computeResidual h = .ok s ∧ s.length = f.residualSize ∧ ∀ i, i < f.residualSize → r[rowStart facs k + i]? = s[i]? := by
  obtain ⟨segs, hl, hs, rfl⟩ := hr
  obtain ⟨s, h1, h2, h3⟩ := hs k f hk
  refine ⟨s, h2, h3, fun i hi => ?_⟩
  rw [← flatten_row h1 (h3 ▸ hi)]
  congr 2
  have : (segs.take k).map List.length = (facs.take k).map fun f => f.residualSize := by
    apply List.ext_getElem?
    intro n
    simp only [List.getElem?_map, List.getElem?_take]
    by_cases hn : n < k
    · rw [if_pos hn, if_pos hn]
      cases hf : facs[n]? with
      | none =>
        rw [List.getElem?_eq_none (by have := List.getElem?_eq_none_iff.1 hf; omega)]
        rfl
      | some f' =>
        obtain ⟨s', e1, _, e3⟩ := hs n f' hf
        rw [e1]
        simp [e3]
    · rw [if_neg hn, if_neg hn]
      rfl
  simp only [rowStart, rowTotal]
  rw [this]

theorem isResidual_length {h : Heap V} {facs : List (Factor F V)} {r : List F} (hr : IsResidual h facs r) :
    r.length = rowTotal facs := by
  obtain ⟨segs, hl, hs, rfl⟩ := hr
  have : segs.map List.length = facs.map fun f => f.residualSize := by
    apply List.ext_getElem?
    intro n
    simp only [List.getElem?_map]
    cases hf : facs[n]? with
    | none =>
      rw [List.getElem?_eq_none (by have := List.getElem?_eq_none_iff.1 hf; omega)]
      rfl
    | some f' =>
      obtain ⟨s', e1, _, e3⟩ := hs n f' hf
      rw [e1]
      simp [e3]
  rw [List.length_flatten, this, rowTotal]

end Factorama
