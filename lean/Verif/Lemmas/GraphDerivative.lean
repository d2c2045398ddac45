import Verif.Spec.Library
import Verif.Spec.Joint
import Verif.Lemmas.Factors
import Verif.Lemmas.StepFacts
import Verif.Lemmas.ResidualRows
import Mathlib.Analysis.Calculus.FDeriv.Pi

/-!
# One variable of a graph moves
-/

namespace Factorama
open Spec Matrix Geo Topology Filter

section columns
variable {F V : Type} [VarLike F V]

/-- The columns of two free variables do not overlap. -/
theorem colStart_disjoint (h : Heap V) {vars : List VRef} {r r' : VRef} (hne : r' ≠ r) (hr : r ∈ vars) (hr' : r' ∈ vars)
    {j : Nat} (hj : j < freeSize (h r')) :
    ¬ (colStart h vars r ≤ colStart h vars r' + j ∧ colStart h vars r' + j < colStart h vars r + freeSize (h r)) := by
  induction vars with
  | nil => simp at hr
  | cons x vars ih =>
    have key : ∀ y, y ≠ x → colStart h (x :: vars) y = freeSize (h x) + colStart h vars y := by
      intro y hy
      have : x ≠ y := fun e => hy e.symm
      simp [colStart, freeTotal, this]
    have key0 : colStart h (x :: vars) x = 0 := by simp [colStart, freeTotal]
    by_cases h1 : r = x
    · subst h1
      rw [key0, key r' hne]
      omega
    · by_cases h2 : r' = x
      · subst h2
        rw [key0, key r h1]
        omega
      · rw [key r h1, key r' h2]
        have := ih ((List.mem_cons.1 hr).resolve_left h1) ((List.mem_cons.1 hr').resolve_left h2)
        omega

/-- Every column belongs to a free variable. -/
theorem exists_column (h : Heap V) {vars : List VRef} (hn : vars.Nodup) {c : Nat} (hc : c < freeTotal h vars) :
    ∃ r ∈ vars, VarLike.isConst (h r) = false ∧ ∃ j, j < VarLike.size (h r) ∧ c = colStart h vars r + j := by
  induction vars generalizing c with
  | nil => simp [freeTotal] at hc
  | cons x vars ih =>
    have e : freeTotal h (x :: vars) = freeSize (h x) + freeTotal h vars := by simp [freeTotal]
    rw [e] at hc
    by_cases hx : c < freeSize (h x)
    · refine ⟨x, List.mem_cons_self, ?_, c, ?_, by simp [colStart, freeTotal]⟩
      · cases hcx : VarLike.isConst (h x) with
        | false => rfl
        | true => simp [freeSize, hcx] at hx
      · unfold freeSize at hx; split at hx <;> omega
    · obtain ⟨r, hr, h1, j, hj, h2⟩ := ih (List.nodup_cons.1 hn).2 (c := c - freeSize (h x)) (by omega)
      refine ⟨r, List.mem_cons_of_mem _ hr, h1, j, hj, ?_⟩
      have : x ≠ r := by rintro rfl; exact (List.nodup_cons.1 hn).1 hr
      have e2 : colStart h (x :: vars) r = freeSize (h x) + colStart h vars r := by simp [colStart, freeTotal, this]
      rw [e2]
      omega

end columns

section parts
variable {V : Type} [VarLike ℝ V]

theorem spread_own (h : Heap V) {vars : List VRef} {r : VRef} (hr : r ∈ vars) (hc : VarLike.isConst (h r) = false)
    {n : Nat} (hn : VarLike.size (h r) = n) (d : Fin n → ℝ) :
    partOf h vars (spread (freeTotal h vars) (colStart h vars r) d) r = List.ofFn d := by
  subst hn
  have hle := colStart_le h hr
  simp only [freeSize, hc, Bool.false_eq_true, ↓reduceIte] at hle
  apply List.ext_getElem
  · simp [partOf, spread]; omega
  · intro i h1 h2
    simp only [List.length_ofFn] at h2
    have : colStart h vars r + i < colStart h vars r + VarLike.size (h r) := by omega
    simp [partOf, spread, h2]

theorem spread_other (h : Heap V) {vars : List VRef} {r r' : VRef} (hne : r' ≠ r) (hr : r ∈ vars) (hr' : r' ∈ vars)
    (hc : VarLike.isConst (h r) = false) (hc' : VarLike.isConst (h r') = false)
    {n : Nat} (hn : VarLike.size (h r) = n) (d : Fin n → ℝ) :
    partOf h vars (spread (freeTotal h vars) (colStart h vars r) d) r' = List.replicate (VarLike.size (h r')) 0 := by
  subst hn
  have hle := colStart_le h hr'
  simp only [freeSize, hc', Bool.false_eq_true, ↓reduceIte] at hle
  apply List.ext_getElem
  · simp [partOf, spread]; omega
  · intro i h1 h2
    simp only [List.length_replicate] at h2
    have := colStart_disjoint h hne hr hr' (j := i) (by simpa [freeSize, hc'] using h2)
    simp only [freeSize, hc, Bool.false_eq_true, ↓reduceIte] at this
    simp [partOf, spread, this]

end parts

/-- What one factor's residual does when one free variable moves. -/
theorem factor_moves {f : Factor ℝ RVar} {h : Heap RVar} {r : VRef} {n : Nat} (hn : VarLike.size (h r) = n)
    (hc : VarLike.isConst (h r) = false) (hcorrect : FreshJacobiansCorrect codeIncr f h)
    {js : List (Mat ℝ)} (hjs : f.computeJacobians h [] = .ok js)
    (hread : ∀ h', (∀ r', some r' ∈ f.variables → h' r' = h r') → f.computeResidual h' = f.computeResidual h)
    {s : List ℝ} (hs : f.computeResidual h = .ok s) (hl : s.length = f.residualSize)
    (M : Nat → Fin n → ℝ)
    (hM : ∀ (p : Nat) (J : Mat ℝ), f.variables[p]? = some (some r) → js[p]? = some J → ∀ i, i < f.residualSize →
      ∀ j : Fin n, M i j = J.entry i j)
    (hM0 : some r ∉ f.variables → ∀ i, i < f.residualSize → ∀ j, M i j = 0) :
    ∃ φ : (Fin n → ℝ) → List ℝ, φ 0 = s ∧ (∀ d, (φ d).length = f.residualSize) ∧
      (∀ᶠ d in 𝓝 0, ∀ v', VarLike.applyIncr (h r) (List.ofFn d) = .ok v' → f.computeResidual (h.set r v') = .ok (φ d)) ∧
      ∀ i, i < f.residualSize → HasFDerivAt (fun d => (φ d).getD i 0)
        ((ContinuousLinearMap.proj (R := ℝ) (φ := fun _ : Fin 1 => ℝ) 0).comp (jac (Matrix.of fun (_ : Fin 1) j => M i j))) 0 := by
  by_cases hm : some r ∈ f.variables
  · obtain ⟨p, hpl, hpe⟩ := List.getElem_of_mem hm
    have hp : f.variables[p]? = some (some r) := by rw [List.getElem?_eq_getElem hpl, hpe]
    obtain ⟨Js, hJs, hall⟩ := hcorrect
    rw [hjs] at hJs
    obtain rfl := Res.ok.inj hJs
    have hlen := hall.length_eq
    have hpj : p < js.length := hlen ▸ hpl
    obtain ⟨r', hr', hJ⟩ := (List.forall₂_iff_get.1 hall).2 p hpl hpj
    simp only [List.get_eq_getElem, hpe, Option.some.injEq] at hr'
    subst hr'
    rw [if_neg (by simp [hc])] at hJ
    simp only [List.get_eq_getElem] at hJ
    have hgj : js[p]? = some js[p] := List.getElem?_eq_getElem hpj
    generalize js[p] = J at hJ hgj
    obtain ⟨hrows, hcols, Φ, h0, hev, hder⟩ := hJ
    rw [hn] at hcols
    have hMJ := hM p J hp hgj
    obtain ⟨rows, cols, entry⟩ := J
    simp only at hrows hcols
    subst hrows hcols
    refine ⟨fun d => List.ofFn (Φ d), ?_, fun d => List.length_ofFn, ?_, fun i hi => ?_⟩
    · rw [hs] at h0
      exact (Res.ok.inj h0).symm
    · filter_upwards [hev] with d hd v' hv'
      have hv' : codeIncr (h r) (List.ofFn d) = .ok v' := hv'
      simp only [residualAfter, hv'] at hd
      exact hd
    · have h1 := hasFDerivAt_pi'.1 hder ⟨i, hi⟩
      have e1 : (fun d => (List.ofFn (Φ d)).getD i 0) = fun d => Φ d ⟨i, hi⟩ := by
        funext d
        simp [List.getD_eq_getElem?_getD, hi]
      rw [e1]
      refine h1.congr_fderiv ?_
      ext u
      simp only [ContinuousLinearMap.comp_apply, ContinuousLinearMap.proj_apply, jac, LinearMap.coe_toContinuousLinearMap',
        Matrix.mulVecLin_apply, Matrix.mulVec, dotProduct, Matrix.of_apply]
      refine Finset.sum_congr rfl fun j _ => ?_
      rw [hMJ i hi j]
  · refine ⟨fun _ => s, rfl, fun _ => hl, Eventually.of_forall fun d v' _ => ?_, fun i hi => ?_⟩
    · rw [hread _ fun r' hr' => set_other h v' (by rintro rfl; exact hm hr'), hs]
    · refine (hasFDerivAt_const (s.getD i 0) (0 : Fin n → ℝ)).congr_fderiv ?_
      ext u
      simp [jac, Matrix.mulVec, dotProduct, hM0 hm i hi]

end Factorama
