import Verif.Lemmas.Alike
import Verif.Lemmas.Ldlt
import Verif.Lemmas.Moved
import Verif.Spec.Repeats

/-!
# Graphs in which measurements are repeated
-/

namespace Factorama
open Spec Opt Graph

section rows
variable {V : Type} [VarLike ℝ V]

/-- Sums over the rows, factor by factor. -/
theorem sum_rows (facs : List (Factor ℝ V)) (g : Nat → ℝ) :
    ∑ i ∈ Finset.range (rowTotal facs), g i = ∑ k : Fin facs.length, ∑ i ∈ Finset.range facs[k].residualSize, g (rowStart facs k + i) := by
  obtain ⟨e, he⟩ := exists_rows facs
  rw [← Fin.sum_univ_eq_sum_range, ← e.sum_comp, Fintype.sum_sigma]
  refine Finset.sum_congr rfl fun k _ => ?_
  rw [← Fin.sum_univ_eq_sum_range (fun i => g (rowStart facs k + i))]
  exact Finset.sum_congr rfl fun i _ => by rw [he]

/-- A row of a rescaled factor in the stacked residual. -/
theorem rescaled_row_residual {c : ℝ} {h : Heap V} {facs facs' : List (Factor ℝ V)} {r r' : List ℝ} (h1 : IsResidual h facs r)
    (h2 : IsResidual h facs' r') {k k' : Nat} {f f' : Factor ℝ V} (hk : facs[k]? = some f) (hk' : facs'[k']? = some f')
    (hR : Rescaled c f f') {i : Nat} (hi : i < f.residualSize) :
    r'.getD (rowStart facs' k' + i) 0 = c * r.getD (rowStart facs k + i) 0 := by
  obtain ⟨s, e1, e2, e3⟩ := isResidual_row h1 hk
  obtain ⟨s', e1', _, e3'⟩ := isResidual_row h2 hk'
  rw [hR.residual, e1] at e1'
  obtain rfl := Res.ok.inj e1'
  rw [List.getD_eq_getElem?_getD, List.getD_eq_getElem?_getD, e3 i hi, e3' i (by rw [hR.size]; exact hi), List.getElem?_map]
  simp [e2, hi]

/-- A row of a rescaled factor in the stacked Jacobian. -/
theorem rescaled_row_coeff {c : ℝ} {h : Heap V} {vars : List VRef} (hnd : vars.Nodup) {facs facs' : List (Factor ℝ V)}
    {J J' : SpMat ℝ} (h1 : Stacks h vars facs J) (h2 : Stacks h vars facs' J') {k k' : Nat} {f f' : Factor ℝ V}
    (hk : facs[k]? = some f) (hk' : facs'[k']? = some f') (hR : Rescaled c f f') {i : Nat} (hi : i < f.residualSize) {j : Nat}
    (hj : j < freeTotal h vars) : J'.coeff (rowStart facs' k' + i) j = c * J.coeff (rowStart facs k + i) j := by
  obtain ⟨q, hq, hc, j', hj', rfl⟩ := exists_column h hnd hj
  obtain ⟨B, hB, hS⟩ := h1.jacobian
  obtain ⟨B', hB', hS'⟩ := h2.jacobian
  have hS' := hS' k' f' hk' i (by rw [hR.size]; exact hi)
  rw [hR.variables] at hS'
  by_cases hm : some q ∈ f.variables
  · obtain ⟨p, hp⟩ := List.mem_iff_getElem?.1 hm
    obtain ⟨M, hM, _⟩ := (hB k f hk).2 p q hp
    have e : B' k' = (B k).map (scaledMat c) := by
      have := (hB' k' f' hk').1
      rw [hR.jacobians, (hB k f hk).1] at this
      exact (Res.ok.inj this).symm
    rw [(hS k f hk i hi).1 p q M hp hc hM j' hj', hS'.1 p q (scaledMat c M) hp hc (by rw [e]; simp [hM]) j' hj']
    rfl
  · rw [(hS k f hk i hi).2 q hq hc hm j' hj', hS'.2 q hq hc hm j' hj', mul_zero]

/-- Sums over the rows of the repeated factors. -/
theorem repeats_sum {facs facs' : List (Factor ℝ V)} {of : Fin facs'.length → Fin facs.length} {c : Fin facs'.length → ℝ}
    (hR : ∀ k, Rescaled (c k) facs[of k] facs'[k]) (hc : ∀ k, ∑ k' with of k' = k, c k' ^ 2 = 1) (g g' : Nat → ℝ)
    (hg : ∀ k i, i < facs[of k].residualSize → g' (rowStart facs' k + i) = c k ^ 2 * g (rowStart facs (of k) + i)) :
    ∑ i ∈ Finset.range (rowTotal facs), g i = ∑ i ∈ Finset.range (rowTotal facs'), g' i := by
  rw [sum_rows, sum_rows]
  have e : ∀ k : Fin facs'.length, ∑ i ∈ Finset.range facs'[k].residualSize, g' (rowStart facs' k + i) =
      c k ^ 2 * ∑ i ∈ Finset.range facs[of k].residualSize, g (rowStart facs (of k) + i) := by
    intro k
    rw [(hR k).size, Finset.mul_sum]
    exact Finset.sum_congr rfl fun i hi => hg k i (by simpa using hi)
  simp only [e]
  rw [← Finset.sum_fiberwise (s := Finset.univ) (g := of)]
  refine Finset.sum_congr rfl fun k _ => ?_
  rw [show (∑ i ∈ Finset.range facs[k].residualSize, g (rowStart facs k + i)) = (∑ k' with of k' = k, c k' ^ 2) *
    ∑ i ∈ Finset.range facs[k].residualSize, g (rowStart facs k + i) by rw [hc, one_mul], Finset.sum_mul]
  refine Finset.sum_congr rfl fun k' hk' => ?_
  obtain rfl : of k' = k := by simpa using hk'
  rfl

theorem sqNorm_range (l : List ℝ) {n : Nat} (hl : l.length = n) :
    realArith.sqNorm l = ∑ i ∈ Finset.range n, l.getD i 0 * l.getD i 0 := by
  rw [sum_squares_list l hl, Fin.sum_univ_eq_sum_range (fun i => l.getD i 0 * l.getD i 0)]

theorem exists_isResidual {h : Heap V} {facs : List (Factor ℝ V)}
    (hall : ∀ f ∈ facs, ∃ s, f.computeResidual h = .ok s ∧ s.length = f.residualSize) : ∃ r, IsResidual h facs r := by
  refine ⟨_, facs.map (fun f => match f.computeResidual h with | .ok s => s | _ => []), by simp, fun k f hk => ?_, rfl⟩
  obtain ⟨s, e1, e2⟩ := hall f (List.mem_of_getElem? hk)
  exact ⟨s, by simp [hk, e1], e1, e2⟩

theorem isResidual_mem {h : Heap V} {facs : List (Factor ℝ V)} {r : List ℝ} (hr : IsResidual h facs r) {f : Factor ℝ V}
    (hf : f ∈ facs) : ∃ s, f.computeResidual h = .ok s ∧ s.length = f.residualSize := by
  obtain ⟨k, hk⟩ := List.mem_iff_getElem?.1 hf
  obtain ⟨s, e1, e2, _⟩ := isResidual_row hr hk
  exact ⟨s, e1, e2⟩

/-- The partners of a repeated factor. -/
theorem Spec.Repeats.partners {facs facs' : List (Factor ℝ V)} (h : Repeats facs facs') :
    (∀ f' ∈ facs', ∃ f ∈ facs, ∃ c, Rescaled c f f') ∧ ∀ f ∈ facs, ∃ f' ∈ facs', ∃ c, Rescaled c f f' := by
  obtain ⟨of, c, hR, hc⟩ := h
  refine ⟨fun f' hf' => ?_, fun f hf => ?_⟩
  · obtain ⟨k, hk, rfl⟩ := List.mem_iff_getElem.1 hf'
    exact ⟨_, List.getElem_mem (of ⟨k, hk⟩).2, _, hR ⟨k, hk⟩⟩
  · obtain ⟨k, hk, rfl⟩ := List.mem_iff_getElem.1 hf
    have : ∃ k', of k' = ⟨k, hk⟩ := by
      refine Classical.byContradiction fun hn => ?_
      have h1 := hc ⟨k, hk⟩
      rw [Finset.sum_filter, Finset.sum_eq_zero] at h1
      · exact zero_ne_one h1
      · intro k' _
        rw [if_neg fun e => hn ⟨k', e⟩]
    obtain ⟨k', hk'⟩ := this
    have e : facs[of k'] = facs[k] := by simp [hk']
    exact ⟨_, List.getElem_mem k'.2, c k', e ▸ hR k'⟩

theorem Spec.Rescaled.residual_ok {c : ℝ} {f f' : Factor ℝ V} (h : Rescaled c f f') (x : Heap V) :
    (∃ s, f.computeResidual x = .ok s ∧ s.length = f.residualSize) ↔ ∃ s, f'.computeResidual x = .ok s ∧ s.length = f'.residualSize := by
  rw [h.residual, h.size]
  cases f.computeResidual x <;> simp [Res.map]

theorem Spec.Rescaled.jacobians_ok {c : ℝ} {f f' : Factor ℝ V} (h : Rescaled c f f') (x : Heap V) :
    (∃ js, f.computeJacobians x [] = .ok js) ↔ ∃ js, f'.computeJacobians x [] = .ok js := by
  rw [h.jacobians]
  cases f.computeJacobians x [] <;> simp [Res.map]

theorem Spec.Repeats.sqNorm {facs facs' : List (Factor ℝ V)} (h : Repeats facs facs') {x : Heap V} {r r' : List ℝ}
    (h1 : IsResidual x facs r) (h2 : IsResidual x facs' r') : realArith.sqNorm r = realArith.sqNorm r' := by
  obtain ⟨of, c, hR, hc⟩ := h
  rw [sqNorm_range r (isResidual_length h1), sqNorm_range r' (isResidual_length h2)]
  refine repeats_sum hR hc _ _ fun k i hi => ?_
  rw [rescaled_row_residual h1 h2 (List.getElem?_eq_getElem (of k).2) (List.getElem?_eq_getElem k.2) (hR k) hi]
  ring

theorem Spec.Repeats.gram {facs facs' : List (Factor ℝ V)} (h : Repeats facs facs') {x : Heap V} {vars : List VRef}
    (hnd : vars.Nodup) {J J' : SpMat ℝ} (h1 : Stacks x vars facs J) (h2 : Stacks x vars facs' J') (a b : Nat)
    (ha : a < J.columns.length) (hb : b < J.columns.length) :
    ∑ i ∈ Finset.range J.rows, J.coeff i a * J.coeff i b = ∑ i ∈ Finset.range J'.rows, J'.coeff i a * J'.coeff i b := by
  obtain ⟨of, c, hR, hc⟩ := h
  rw [h1.rows, h2.rows]
  rw [h1.columns] at ha hb
  refine repeats_sum hR hc _ _ fun k i hi => ?_
  rw [rescaled_row_coeff hnd h1 h2 (List.getElem?_eq_getElem (of k).2) (List.getElem?_eq_getElem k.2) (hR k) hi ha,
    rescaled_row_coeff hnd h1 h2 (List.getElem?_eq_getElem (of k).2) (List.getElem?_eq_getElem k.2) (hR k) hi hb]
  ring

theorem Spec.Repeats.rhs {facs facs' : List (Factor ℝ V)} (h : Repeats facs facs') {x : Heap V} {vars : List VRef}
    (hnd : vars.Nodup) {J J' : SpMat ℝ} {r r' : List ℝ} (h1 : Stacks x vars facs J) (h2 : Stacks x vars facs' J')
    (h3 : IsResidual x facs r) (h4 : IsResidual x facs' r') (a : Nat) (ha : a < J.columns.length) :
    ∑ i ∈ Finset.range J.rows, J.coeff i a * r.getD i 0 = ∑ i ∈ Finset.range J'.rows, J'.coeff i a * r'.getD i 0 := by
  obtain ⟨of, c, hR, hc⟩ := h
  rw [h1.rows, h2.rows]
  rw [h1.columns] at ha
  refine repeats_sum hR hc _ _ fun k i hi => ?_
  rw [rescaled_row_coeff hnd h1 h2 (List.getElem?_eq_getElem (of k).2) (List.getElem?_eq_getElem k.2) (hR k) hi ha,
    rescaled_row_residual h3 h4 (List.getElem?_eq_getElem (of k).2) (List.getElem?_eq_getElem k.2) (hR k) hi]
  ring

/-- Repeating measurements leads to the same systems. -/
theorem Spec.Repeats.systems {Fact : Type} {L : LinAlg ℝ Fact} (hL : ExactProducts L) {facs facs' : List (Factor ℝ V)}
    (h : Repeats facs facs') {vars : List VRef} (hnd : vars.Nodup) :
    SameSystems realArith L vars facs facs' ∧ SameSystems realArith L vars facs' facs := by
  obtain ⟨p1, p2⟩ := h.partners
  refine ⟨⟨fun x r hr => ?_, fun x hx f' hf' => ?_, fun x hx => ?_, fun x J J' h1 h2 => ?_, fun x J J' r r' h1 h2 h3 h4 => ?_⟩,
    ⟨fun x r' hr' => ?_, fun x hx f hf => ?_, fun x hx => ?_, fun x J' J h2 h1 => ?_, fun x J' J r' r h2 h1 h4 h3 => ?_⟩⟩
  · obtain ⟨r', hr'⟩ := exists_isResidual (h := x) (facs := facs') fun f' hf' => by
      obtain ⟨f, hf, c, hR⟩ := p1 f' hf'
      exact (hR.residual_ok x).1 (isResidual_mem hr hf)
    exact ⟨r', hr', h.sqNorm hr hr'⟩
  · obtain ⟨f, hf, c, hR⟩ := p1 f' hf'
    exact (hR.jacobians_ok x).1 (hx f hf)
  · obtain ⟨f, hf, r, hr⟩ := hx
    obtain ⟨f', hf', c, hR⟩ := p2 f hf
    exact ⟨f', hf', r, by rw [hR.variables]; exact hr⟩
  · exact hL.gram J J' (h1.columns.trans h2.columns.symm) (h.gram hnd h1 h2)
  · exact hL.rhs J J' r r' (h1.columns.trans h2.columns.symm) (h.rhs hnd h1 h2 h3 h4)
  · obtain ⟨r, hr⟩ := exists_isResidual (h := x) (facs := facs) fun f hf => by
      obtain ⟨f', hf', c, hR⟩ := p2 f hf
      exact (hR.residual_ok x).2 (isResidual_mem hr' hf')
    exact ⟨r, hr, (h.sqNorm hr hr').symm⟩
  · obtain ⟨f', hf', c, hR⟩ := p2 f hf
    exact (hR.jacobians_ok x).2 (hx f' hf')
  · obtain ⟨f', hf', r, hr⟩ := hx
    obtain ⟨f, hf, c, hR⟩ := p1 f' hf'
    exact ⟨f, hf, r, by rw [← hR.variables]; exact hr⟩
  · exact (hL.gram J J' (h1.columns.trans h2.columns.symm) (h.gram hnd h1 h2)).symm
  · exact (hL.rhs J J' r r' (h1.columns.trans h2.columns.symm) (h.rhs hnd h1 h2 h3 h4)).symm

end rows

/-- The textbook factorisation computes products exactly over the reals. -/
theorem Ldlt.exact_products : ExactProducts (Ldlt.linAlg : LinAlg ℝ (Ldlt.Fact ℝ)) := by
  have hs : ∀ n (f : Nat → ℝ), Ldlt.sumTo n f = ∑ i ∈ Finset.range n, f i := by
    intro n f
    rw [Ldlt.sumTo_eq, Fin.sum_univ_eq_sum_range]
  have hout : ∀ (J : SpMat ℝ) i j, J.columns.length ≤ j → J.coeff i j = 0 := by
    intro J i j hj
    simp only [SpMat.coeff]
    rw [List.getElem?_eq_none hj]
  refine ⟨fun J J' hl h => ?_, fun J J' r r' hl h => ?_⟩
  · show Ldlt.gram J = Ldlt.gram J'
    simp only [Ldlt.gram, hs, Mat.mk.injEq, hl, true_and]
    funext a b
    by_cases ha : a < J.columns.length
    · by_cases hb : b < J.columns.length
      · exact h a b ha hb
      · simp [hout J _ b (by omega), hout J' _ b (by omega)]
    · simp [hout J _ a (by omega), hout J' _ a (by omega)]
  · show Ldlt.rhs J r = Ldlt.rhs J' r'
    simp only [Ldlt.rhs, hs, hl]
    refine List.map_congr_left fun a ha => ?_
    have := h a (by rw [hl]; simpa using ha)
    simpa [List.getD_eq_getElem?_getD] using this

end Factorama
