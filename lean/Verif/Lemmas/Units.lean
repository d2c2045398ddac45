import Verif.Lemmas.Correspond
import Verif.Spec.Units
import Mathlib.Data.List.Forall2

/-!
# Graphs whose factors are those of another, rescaled
-/

namespace Factorama
open Spec Opt Matrix Graph Props

section same
variable {V : Type} [VarLike ℝ V]

/-- Two systems of the same size whose entries are proportional. -/
theorem same_system (c : ℝ) {N N' R R' : Nat} (hN : N' = N) (hR : R' = R) (q q' : Nat → Nat → ℝ) (r r' : Nat → ℝ)
    (hq : ∀ i, i < R → ∀ j, j < N → q' i j = c * q i j) (hr : ∀ i, i < R → r' i = c * r i) :
    ∃ B : Matrix (Fin N') (Fin N) ℝ, Bᵀ * B = 1 ∧ B * Bᵀ = 1 ∧
      ((Matrix.of fun (i : Fin R') (j : Fin N') => q' i j)ᵀ * (Matrix.of fun (i : Fin R') (j : Fin N') => q' i j)) * B =
        c ^ 2 • (B * ((Matrix.of fun (i : Fin R) (j : Fin N) => q i j)ᵀ * (Matrix.of fun (i : Fin R) (j : Fin N) => q i j))) ∧
      (Matrix.of fun (i : Fin R') (j : Fin N') => q' i j)ᵀ *ᵥ (fun i => r' i) =
        c ^ 2 • (B *ᵥ ((Matrix.of fun (i : Fin R) (j : Fin N) => q i j)ᵀ *ᵥ fun i => r i)) ∧
      ∀ d d' : Nat → ℝ, ((fun j => d' j) : Fin N' → ℝ) = B *ᵥ (fun j => d j) → ∀ j, j < N → d' j = d j := by
  subst hN hR
  have e : (Matrix.of fun (i : Fin R') (j : Fin N') => q' i j) = c • Matrix.of fun (i : Fin R') (j : Fin N') => q i j := by
    ext i j; exact hq i i.2 j j.2
  have e2 : (fun i : Fin R' => r' i) = c • fun i : Fin R' => r i := by
    funext i; exact hr i i.2
  refine ⟨1, by simp, by simp, ?_, ?_, ?_⟩
  · rw [e, Matrix.mul_one, Matrix.one_mul, Matrix.transpose_smul, Matrix.smul_mul, Matrix.mul_smul, smul_smul, sq]
  · rw [e, e2, Matrix.one_mulVec, Matrix.transpose_smul, Matrix.smul_mulVec, Matrix.mulVec_smul, smul_smul, sq]
  · intro d d' h j hj
    rw [Matrix.one_mulVec] at h
    exact congrFun h ⟨j, hj⟩

/-- The same for linearisations. -/
theorem same_linearisation (c : ℝ) {J J' : SpMat ℝ} {r r' : List ℝ} (hN : J'.columns.length = J.columns.length)
    (hR : J'.rows = J.rows) (hq : ∀ i, i < J.rows → ∀ j, j < J.columns.length → J'.coeff i j = c * J.coeff i j)
    (hr : ∀ i, r'.getD i 0 = c * r.getD i 0) :
    ∃ B : Matrix (Fin J'.columns.length) (Fin J.columns.length) ℝ, Bᵀ * B = 1 ∧ B * Bᵀ = 1 ∧
      ((jacobianMatrix J')ᵀ * jacobianMatrix J') * B = c ^ 2 • (B * ((jacobianMatrix J)ᵀ * jacobianMatrix J)) ∧
      gradient J' r' = c ^ 2 • (B *ᵥ gradient J r) ∧
      ∀ d d' : List ℝ, d.length = J.columns.length → d'.length = J'.columns.length →
        asVec J'.columns.length d' = B *ᵥ asVec J.columns.length d → d' = d := by
  obtain ⟨B, b1, b2, b3, b4, b5⟩ := same_system c hN hR J.coeff J'.coeff (fun i => r.getD i 0) (fun i => r'.getD i 0) hq
    fun i _ => hr i
  refine ⟨B, b1, b2, b3, b4, fun d d' hd hd' he => ?_⟩
  apply List.ext_getElem (by omega)
  intro i h1 h2
  have := b5 (fun i => d.getD i 0) (fun i => d'.getD i 0) he i (by omega)
  simpa [List.getD_eq_getElem?_getD, h1, h2] using this

end same

variable {V : Type} [VarLike ℝ V]

theorem rescaled_get {c : ℝ} {facs facs' : List (Factor ℝ V)} (h : List.Forall₂ (Rescaled c) facs facs') (k : Nat) :
    (∀ f, facs[k]? = some f → ∃ f', facs'[k]? = some f' ∧ Rescaled c f f') ∧
    (∀ f', facs'[k]? = some f' → ∃ f, facs[k]? = some f ∧ Rescaled c f f') := by
  induction h generalizing k with
  | nil => simp
  | cons h1 _ ih =>
    cases k with
    | zero => simp [h1]
    | succ k => simpa using ih k

theorem rescaled_sizes {c : ℝ} {facs facs' : List (Factor ℝ V)} (h : List.Forall₂ (Rescaled c) facs facs') (k : Nat) :
    rowStart facs' k = rowStart facs k ∧ rowTotal facs' = rowTotal facs := by
  have : facs'.map (·.residualSize) = facs.map (·.residualSize) := by
    induction h with
    | nil => rfl
    | cons h1 _ ih => simp [h1.size, ih]
  simp only [rowStart, rowTotal, List.map_take, this, and_self]

theorem rescaled_residual {c : ℝ} {facs facs' : List (Factor ℝ V)} (h : List.Forall₂ (Rescaled c) facs facs') {x : Heap V}
    {r r' : List ℝ} (hr : IsResidual x facs r) (hr' : IsResidual x facs' r') : r' = r.map (c * ·) := by
  refine isResidual_unique hr' ?_
  obtain ⟨segs, hl, hs, rfl⟩ := hr
  refine ⟨segs.map (List.map (c * ·)), by rw [List.length_map, hl, h.length_eq], fun k f' hk => ?_, by rw [List.map_flatten]⟩
  obtain ⟨f, hf, hR⟩ := (rescaled_get h k).2 f' hk
  obtain ⟨s, h1, h2, h3⟩ := hs k f hf
  exact ⟨s.map (c * ·), by simp [h1], by rw [hR.residual, h2]; rfl, by rw [List.length_map, h3, hR.size]⟩

theorem rescaled_coeff {c : ℝ} {facs facs' : List (Factor ℝ V)} (h : List.Forall₂ (Rescaled c) facs facs') {x : Heap V}
    {vars : List VRef} (hnd : vars.Nodup) {r r' : List ℝ} {J J' : SpMat ℝ} (h1 : Linearised x vars facs r J)
    (h2 : Linearised x vars facs' r' J') : ∀ i, i < rowTotal facs → ∀ j, j < freeTotal x vars → J'.coeff i j = c * J.coeff i j := by
  intro i hi j hj
  obtain ⟨k, f, i', hk, hi', rfl⟩ := exists_row hi
  obtain ⟨q, hq, hc, j', hj', rfl⟩ := exists_column x hnd hj
  obtain ⟨B, hB, hS⟩ := h1.jacobian
  obtain ⟨B', hB', hS'⟩ := h2.jacobian
  obtain ⟨f', hk', hR⟩ := (rescaled_get h k).1 f hk
  have hS' := hS' k f' hk' i' (by rw [hR.size]; exact hi')
  rw [(rescaled_sizes h k).1, hR.variables] at hS'
  by_cases hm : some q ∈ f.variables
  · obtain ⟨p, hp⟩ := List.mem_iff_getElem?.1 hm
    obtain ⟨M, hM, _⟩ := (hB k f hk).2 p q hp
    have e : B' k = (B k).map (scaledMat c) := by
      have := (hB' k f' hk').1
      rw [hR.jacobians, (hB k f hk).1] at this
      exact (Res.ok.inj this).symm
    rw [(hS k f hk i' hi').1 p q M hp hc hM j' hj', hS'.1 p q (scaledMat c M) hp hc (by rw [e]; simp [hM]) j' hj']
    rfl
  · rw [(hS k f hk i' hi').2 q hq hc hm j' hj', hS'.2 q hq hc hm j' hj', mul_zero]

/-- Rescaling all factors alike gives a corresponding problem. -/
theorem rescaled_correspond {c : ℝ} {facs facs' : List (Factor ℝ V)} (h : List.Forall₂ (Rescaled c) facs facs') {vars : List VRef}
    (hnd : vars.Nodup) : Correspond c (fun x x' => x' = x) vars facs vars facs' := by
  constructor
  · rintro x _ r r' rfl hr hr'
    rw [rescaled_residual h hr hr']
    clear hr hr'
    show ((r.map (c * ·)).map fun x => x * x).sum = c ^ 2 * (r.map fun x => x * x).sum
    induction r with
    | nil => simp
    | cons a r ih => simp only [List.map_cons, List.sum_cons, ih]; ring
  · rintro x _ r r' J J' rfl h1 h2
    obtain ⟨B, b1, b2, b3, b4, b5⟩ := same_linearisation c (r := r) (r' := r') (h2.columns.trans h1.columns.symm)
      (by rw [h1.rows, h2.rows, (rescaled_sizes h 0).2])
      (fun i hi j hj => rescaled_coeff h hnd h1 h2 i (h1.rows ▸ hi) j (h1.columns ▸ hj)) (fun i => by
        rw [rescaled_residual h h1.residual h2.residual]
        simp only [List.getD_eq_getElem?_getD, List.getElem?_map]
        cases r[i]? <;> simp)
    refine ⟨B, b1, b2, b3, b4, fun rate d d' g g' e1 e2 e3 e4 e5 => ?_⟩
    rw [b5 d d' e1 e2 e3] at e5
    exact stepped_unique e5 e4

end Factorama
