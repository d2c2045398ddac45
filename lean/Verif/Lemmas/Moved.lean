import Verif.Spec.CorrespondWhile
import Verif.Lemmas.Units
import Mathlib.Data.Matrix.Block
import Mathlib.Data.Fintype.BigOperators
import Mathlib.Data.Fintype.Sigma

/-!
# Problems that are equal up to turning the parts of each variable and of each residual
-/

namespace Factorama
open Spec Opt Matrix Graph Props

section blocks
variable {K K' : Type} [Fintype K] [DecidableEq K] [Fintype K'] [DecidableEq K'] {n : K → Nat} {m : K' → Nat}

omit [DecidableEq K] in
theorem sum_blocks (f : (Σ k, Fin (n k)) → ℝ) : ∑ x, f x = ∑ k, ∑ a, f ⟨k, a⟩ := Fintype.sum_sigma f

theorem mul_blockDiagonal {X : Type} (P : Matrix X (Σ k, Fin (n k)) ℝ) (T : ∀ k, Matrix (Fin (n k)) (Fin (n k)) ℝ) (x : X) (k : K)
    (j : Fin (n k)) : (P * blockDiagonal' T) x ⟨k, j⟩ = ∑ a, P x ⟨k, a⟩ * T k a j := by
  rw [Matrix.mul_apply, sum_blocks, Finset.sum_eq_single k]
  · simp
  · intro k' _ hk
    exact Finset.sum_eq_zero fun a _ => by rw [blockDiagonal'_apply_ne _ _ _ hk, mul_zero]
  · simp

theorem blockDiagonal_mul {X : Type} (P : Matrix (Σ k, Fin (n k)) X ℝ) (T : ∀ k, Matrix (Fin (n k)) (Fin (n k)) ℝ) (x : X) (k : K)
    (j : Fin (n k)) : (blockDiagonal' T * P) ⟨k, j⟩ x = ∑ a, T k j a * P ⟨k, a⟩ x := by
  rw [Matrix.mul_apply, sum_blocks, Finset.sum_eq_single k]
  · simp
  · intro k' _ hk
    exact Finset.sum_eq_zero fun a _ => by rw [blockDiagonal'_apply_ne _ _ _ hk.symm, zero_mul]
  · simp

theorem blockDiagonal_mulVec (T : ∀ k, Matrix (Fin (n k)) (Fin (n k)) ℝ) (x : (Σ k, Fin (n k)) → ℝ) (k : K) (j : Fin (n k)) :
    (blockDiagonal' T *ᵥ x) ⟨k, j⟩ = ∑ a, T k j a * x ⟨k, a⟩ := by
  rw [mulVec, dotProduct, sum_blocks, Finset.sum_eq_single k]
  · simp
  · intro k' _ hk
    exact Finset.sum_eq_zero fun a _ => by rw [blockDiagonal'_apply_ne _ _ _ hk.symm, zero_mul]
  · simp

theorem blockDiagonal_orthogonal {T : ∀ k, Matrix (Fin (n k)) (Fin (n k)) ℝ} (hT : ∀ k, (T k)ᵀ * T k = 1) :
    (blockDiagonal' T)ᵀ * blockDiagonal' T = 1 := by
  rw [blockDiagonal'_transpose, ← blockDiagonal'_mul]
  simp only [hT]
  exact blockDiagonal'_one

/-- Systems that are equal up to turning the blocks of rows and the blocks of columns. -/
theorem turned_blocks {T : ∀ k, Matrix (Fin (n k)) (Fin (n k)) ℝ} (hT : ∀ k, (T k)ᵀ * T k = 1)
    {Q : ∀ k, Matrix (Fin (m k)) (Fin (m k)) ℝ} (hQ : ∀ k, (Q k)ᵀ * Q k = 1)
    {P P' : Matrix (Σ k, Fin (m k)) (Σ k, Fin (n k)) ℝ} {r r' : (Σ k, Fin (m k)) → ℝ}
    (hP : ∀ l i k j, ∑ a, P' ⟨l, i⟩ ⟨k, a⟩ * T k a j = ∑ b, Q l i b * P ⟨l, b⟩ ⟨k, j⟩)
    (hr : ∀ l i, r' ⟨l, i⟩ = ∑ b, Q l i b * r ⟨l, b⟩) :
    (P'ᵀ * P') * blockDiagonal' T = blockDiagonal' T * (Pᵀ * P) ∧ P'ᵀ *ᵥ r' = blockDiagonal' T *ᵥ (Pᵀ *ᵥ r) := by
  have hB := blockDiagonal_orthogonal hT
  have hB' := mul_eq_one_comm.1 hB
  have hq := blockDiagonal_orthogonal hQ
  have e : P' * blockDiagonal' T = blockDiagonal' Q * P := by
    ext ⟨l, i⟩ ⟨k, j⟩
    rw [mul_blockDiagonal, blockDiagonal_mul]
    exact hP l i k j
  have e2 : r' = blockDiagonal' Q *ᵥ r := by
    funext ⟨l, i⟩
    rw [blockDiagonal_mulVec]
    exact hr l i
  have e3 : P'ᵀ * blockDiagonal' Q = blockDiagonal' T * Pᵀ := by
    have h1 : P' = blockDiagonal' Q * P * (blockDiagonal' T)ᵀ := by
      rw [← e, Matrix.mul_assoc, hB', Matrix.mul_one]
    rw [h1, Matrix.transpose_mul, Matrix.transpose_mul, Matrix.transpose_transpose]
    simp only [Matrix.mul_assoc]
    rw [hq, Matrix.mul_one]
  constructor
  · rw [Matrix.mul_assoc, e, ← Matrix.mul_assoc, e3, Matrix.mul_assoc]
  · rw [e2, mulVec_mulVec, e3, mulVec_mulVec]

/-- The same for numbered rows and columns. -/
theorem turned_system {N N' R R' : Nat} (hN : N' = N) (hR : R' = R) (q q' : Nat → Nat → ℝ) (r r' : Nat → ℝ)
    (eN : (Σ k, Fin (n k)) ≃ Fin N) (eR : (Σ k, Fin (m k)) ≃ Fin R)
    {T : ∀ k, Matrix (Fin (n k)) (Fin (n k)) ℝ} (hT : ∀ k, (T k)ᵀ * T k = 1)
    {Q : ∀ k, Matrix (Fin (m k)) (Fin (m k)) ℝ} (hQ : ∀ k, (Q k)ᵀ * Q k = 1)
    (hP : ∀ l i k j, ∑ a, q' (eR ⟨l, i⟩) (eN ⟨k, a⟩) * T k a j = ∑ b, Q l i b * q (eR ⟨l, b⟩) (eN ⟨k, j⟩))
    (hr : ∀ l i, r' (eR ⟨l, i⟩) = ∑ b, Q l i b * r (eR ⟨l, b⟩)) :
    ∃ B : Matrix (Fin N') (Fin N) ℝ, Bᵀ * B = 1 ∧ B * Bᵀ = 1 ∧
      ((Matrix.of fun (i : Fin R') (j : Fin N') => q' i j)ᵀ * (Matrix.of fun (i : Fin R') (j : Fin N') => q' i j)) * B =
        B * ((Matrix.of fun (i : Fin R) (j : Fin N) => q i j)ᵀ * (Matrix.of fun (i : Fin R) (j : Fin N) => q i j)) ∧
      (Matrix.of fun (i : Fin R') (j : Fin N') => q' i j)ᵀ *ᵥ (fun i => r' i) =
        B *ᵥ ((Matrix.of fun (i : Fin R) (j : Fin N) => q i j)ᵀ *ᵥ fun i => r i) ∧
      ∀ d d' : Nat → ℝ, ((fun j => d' j) : Fin N' → ℝ) = B *ᵥ (fun j => d j) →
        ∀ k i, d' (eN ⟨k, i⟩) = ∑ a, T k i a * d (eN ⟨k, a⟩) := by
  subst hN hR
  have hB := blockDiagonal_orthogonal hT
  have hB' := mul_eq_one_comm.1 hB
  obtain ⟨g1, g2⟩ := turned_blocks (P := Matrix.of fun x y => q (eR x) (eN y)) (P' := Matrix.of fun x y => q' (eR x) (eN y))
    (r := fun x => r (eR x)) (r' := fun x => r' (eR x)) hT hQ hP hr
  have p1 : ∀ q : Nat → Nat → ℝ, (Matrix.of fun (i : Fin R') (j : Fin N') => q i j) =
      (Matrix.of fun x y => q (eR x) (eN y)).submatrix eR.symm eN.symm := by
    intro q; ext i j; simp
  have p2 : ∀ r : Nat → ℝ, (fun i : Fin R' => r i) = (fun x => r (eR x)) ∘ eR.symm := by
    intro r; funext i; simp
  have p3 : ∀ r : Nat → ℝ, (fun i : Fin N' => r i) = (fun x => r (eN x)) ∘ eN.symm := by
    intro r; funext i; simp
  refine ⟨(blockDiagonal' T).submatrix eN.symm eN.symm, ?_, ?_, ?_, ?_, ?_⟩
  · rw [transpose_submatrix, submatrix_mul_equiv, hB, submatrix_one_equiv]
  · rw [transpose_submatrix, submatrix_mul_equiv, hB', submatrix_one_equiv]
  · rw [p1 q, p1 q', transpose_submatrix, transpose_submatrix, submatrix_mul_equiv, submatrix_mul_equiv, submatrix_mul_equiv,
      submatrix_mul_equiv, g1]
  · rw [p1 q, p1 q', p2 r, p2 r', transpose_submatrix, transpose_submatrix]
    have e1 : ∀ (M : Matrix (Σ k, Fin (n k)) (Σ k, Fin (m k)) ℝ) x, M.submatrix eN.symm eR.symm *ᵥ (x ∘ eR.symm) = (M *ᵥ x) ∘ eN.symm := by
      intro M x
      rw [submatrix_mulVec_equiv]
      simp [Function.comp_assoc]
    have e2 : ∀ (M : Matrix (Σ k, Fin (n k)) (Σ k, Fin (n k)) ℝ) x, M.submatrix eN.symm eN.symm *ᵥ (x ∘ eN.symm) = (M *ᵥ x) ∘ eN.symm := by
      intro M x
      rw [submatrix_mulVec_equiv]
      simp [Function.comp_assoc]
    rw [e1, e1, e2, g2]
  · intro d d' h k i
    rw [p3 d, submatrix_mulVec_equiv] at h
    have := congrFun h (eN ⟨k, i⟩)
    simp only [Function.comp_assoc, Equiv.self_comp_symm, Function.comp_id, Function.comp_apply, Equiv.symm_apply_apply] at this
    rw [this, blockDiagonal_mulVec]

end blocks

section numbers
variable {V : Type} [VarLike ℝ V]

/-- The columns of the free variables of a graph, numbered through. -/
theorem exists_columns (h : Heap V) {vars : List VRef} (hn : vars.Nodup) :
    ∃ e : (Σ k : {r // r ∈ vars.filter fun r => !VarLike.isConst (h r)}, Fin (VarLike.size (h k.1))) ≃ Fin (freeTotal h vars),
      ∀ k j, (e ⟨k, j⟩ : Nat) = colStart h vars k.1 + j := by
  have mem : ∀ k : {r // r ∈ vars.filter fun r => !VarLike.isConst (h r)}, k.1 ∈ vars ∧ VarLike.isConst (h k.1) = false := by
    rintro ⟨r, hr⟩
    simpa using hr
  have lt : ∀ (k : {r // r ∈ vars.filter fun r => !VarLike.isConst (h r)}) (j : Fin (VarLike.size (h k.1))),
      colStart h vars k.1 + j < freeTotal h vars := by
    intro k j
    have := colStart_le h (mem k).1
    have := freeSize_of_nonconst (mem k).2
    omega
  refine ⟨Equiv.ofBijective (fun x => ⟨colStart h vars x.1.1 + x.2, lt x.1 x.2⟩) ⟨?_, ?_⟩, fun k j => rfl⟩
  · rintro ⟨k, j⟩ ⟨k', j'⟩ he
    have he : colStart h vars k.1 + j = colStart h vars k'.1 + j' := congrArg Fin.val he
    have hk : k = k' := by
      refine Classical.byContradiction fun hne => ?_
      have h1 := colStart_disjoint h (fun e => hne (Subtype.ext e)) (mem k').1 (mem k).1 (j := j)
        (by rw [freeSize_of_nonconst (mem k).2]; exact j.2)
      rw [freeSize_of_nonconst (mem k').2] at h1
      omega
    subst hk
    have : j = j' := Fin.ext (by omega)
    rw [this]
  · intro c
    obtain ⟨r, hr, h1, j, hj, h2⟩ := exists_column h hn c.2
    exact ⟨⟨⟨r, by simp [hr, h1]⟩, ⟨j, hj⟩⟩, Fin.ext h2.symm⟩

/-- The rows of the factors of a graph, numbered through. -/
theorem exists_rows (facs : List (Factor ℝ V)) :
    ∃ e : (Σ k : Fin facs.length, Fin (facs[k].residualSize)) ≃ Fin (rowTotal facs), ∀ k i, (e ⟨k, i⟩ : Nat) = rowStart facs k + i := by
  have lt : ∀ (k : Fin facs.length) (i : Fin (facs[k].residualSize)), rowStart facs k + i < rowTotal facs :=
    fun k i => row_lt (List.getElem?_eq_getElem k.2) i.2
  refine ⟨Equiv.ofBijective (fun x => ⟨rowStart facs x.1 + x.2, lt x.1 x.2⟩) ⟨?_, ?_⟩, fun k j => rfl⟩
  · rintro ⟨k, j⟩ ⟨k', j'⟩ he
    have he : rowStart facs k + j = rowStart facs k' + j' := congrArg Fin.val he
    have hk : k = k' := by
      have := row_unique (List.getElem?_eq_getElem k.2) (List.getElem?_eq_getElem k'.2) (a := rowStart facs k + j)
      have h1 := j.2
      have h2 := j'.2
      simp only [Fin.getElem_fin] at h1 h2
      apply Fin.ext
      apply this <;> omega
    subst hk
    have : j = j' := Fin.ext (by omega)
    rw [this]
  · intro c
    obtain ⟨k, f, i, hk, hi, h2⟩ := exists_row c.2
    obtain ⟨hlt, rfl⟩ := List.getElem?_eq_some_iff.1 hk
    exact ⟨⟨⟨k, hlt⟩, ⟨i, hi⟩⟩, Fin.ext h2.symm⟩

/-- The residual of `f'` is that of `f` turned by a fixed orthogonal matrix, and so are the blocks of its Jacobian when the
increments of each variable are turned by `τ`. -/
structure TurnedFactor (τ : VRef → V → Nat → Nat → ℝ) (M : VRef → V → V → Prop) (f f' : Factor ℝ V) : Prop where
  «variables» : f'.variables = f.variables
  size : f'.residualSize = f.residualSize
  turned : ∃ Q : Matrix (Fin f.residualSize) (Fin f.residualSize) ℝ, Qᵀ * Q = 1 ∧
    ∀ h h', (∀ r, M r (h r) (h' r)) →
      (∀ s s', f.computeResidual h = .ok s → f'.computeResidual h' = .ok s' →
        ∀ i : Fin f.residualSize, s'.getD i 0 = ∑ b, Q i b * s.getD b 0) ∧
      ∀ s s' js js', f.computeResidual h = .ok s → f'.computeResidual h' = .ok s' → f.computeJacobians h [] = .ok js →
        f'.computeJacobians h' [] = .ok js' → ∀ (p : Nat) q (B B' : Mat ℝ),
        f.variables[p]? = some (some q) → VarLike.isConst (h q) = false → js[p]? = some B → js'[p]? = some B' →
        ∀ (i : Fin f.residualSize) (j : Fin (VarLike.size (h q))),
          ∑ a : Fin (VarLike.size (h q)), B'.entry i a * τ q (h q) a j = ∑ b, Q i b * B.entry b j

theorem turned_get {τ : VRef → V → Nat → Nat → ℝ} {M : VRef → V → V → Prop} {facs facs' : List (Factor ℝ V)}
    (h : List.Forall₂ (TurnedFactor τ M) facs facs') (k : Nat) :
    (∀ f, facs[k]? = some f → ∃ f', facs'[k]? = some f' ∧ TurnedFactor τ M f f') ∧
    (∀ f', facs'[k]? = some f' → ∃ f, facs[k]? = some f ∧ TurnedFactor τ M f f') := by
  induction h generalizing k with
  | nil => simp
  | cons h1 _ ih =>
    cases k with
    | zero => simp [h1]
    | succ k => simpa using ih k

theorem turned_sizes {τ : VRef → V → Nat → Nat → ℝ} {M : VRef → V → V → Prop} {facs facs' : List (Factor ℝ V)}
    (h : List.Forall₂ (TurnedFactor τ M) facs facs') (k : Nat) :
    rowStart facs' k = rowStart facs k ∧ rowTotal facs' = rowTotal facs := by
  have : facs'.map (·.residualSize) = facs.map (·.residualSize) := by
    induction h with
    | nil => rfl
    | cons h1 _ ih => simp [h1.size, ih]
  simp only [rowStart, rowTotal, List.map_take, this, and_self]

theorem sum_squares_list (l : List ℝ) {n : Nat} (hl : l.length = n) :
    realArith.sqNorm l = ∑ i : Fin n, l.getD i 0 * l.getD i 0 := by
  subst hl
  show (l.map fun x => x * x).sum = _
  induction l with
  | nil => simp
  | cons a l ih => simp [Fin.sum_univ_succ, ih]

theorem orthogonal_sum {n : Nat} {Q : Matrix (Fin n) (Fin n) ℝ} (hQ : Qᵀ * Q = 1) (x : Fin n → ℝ) :
    ∑ i, (∑ b, Q i b * x b) * (∑ b, Q i b * x b) = ∑ i, x i * x i := by
  have : (Q *ᵥ x) ⬝ᵥ (Q *ᵥ x) = x ⬝ᵥ x := by
    rw [dotProduct_mulVec, vecMul_mulVec, hQ, vecMul_one]
  simpa [dotProduct, mulVec] using this

theorem exists_of_hyps {a b c d : Prop} (h : a → b → c) (ha : a) (hb : b) (hd : c → d) : d := hd (h ha hb)

/-- The residuals and blocks of turned factors. -/
theorem turned_rows {τ : VRef → V → Nat → Nat → ℝ} {M : VRef → V → V → Prop} {facs facs' : List (Factor ℝ V)}
    (hf : List.Forall₂ (TurnedFactor τ M) facs facs') : ∀ h h' r r', (∀ q, M q (h q) (h' q)) → IsResidual h facs r → IsResidual h' facs' r' →
      ∃ Q : ∀ k : Fin facs.length, Matrix (Fin (facs[k].residualSize)) (Fin (facs[k].residualSize)) ℝ, (∀ k, (Q k)ᵀ * Q k = 1) ∧
        (∀ (k : Fin facs.length) (i : Fin (facs[k].residualSize)), r'.getD (rowStart facs k + i) 0 = ∑ b, Q k i b * r.getD (rowStart facs k + b) 0) ∧
        ∀ (k : Fin facs.length) f', facs'[k.1]? = some f' → ∀ js js', facs[k].computeJacobians h [] = .ok js →
          f'.computeJacobians h' [] = .ok js' → ∀ (p : Nat) q (B B' : Mat ℝ), facs[k].variables[p]? = some (some q) →
          VarLike.isConst (h q) = false → js[p]? = some B → js'[p]? = some B' →
          ∀ (i : Fin (facs[k].residualSize)) (j : Fin (VarLike.size (h q))),
            ∑ a : Fin (VarLike.size (h q)), B'.entry i a * τ q (h q) a j = ∑ b, Q k i b * B.entry b j := by
  intro h h' r r' hM hr hr'
  have : ∀ k : Fin facs.length, ∃ f', facs'[k.1]? = some f' ∧ TurnedFactor τ M facs[k] f' := fun k =>
    (turned_get hf k).1 _ (List.getElem?_eq_getElem k.2)
  choose F hF hT using this
  choose Q hQ hQ' using fun k => (hT k).turned
  refine ⟨Q, hQ, fun k i => ?_, fun k f' hk js js' hj hj' => ?_⟩
  · obtain ⟨s, h1, h2, h3⟩ := isResidual_row hr (List.getElem?_eq_getElem k.2)
    obtain ⟨s', h1', h2', h3'⟩ := isResidual_row hr' (hF k)
    simp only [List.getD_eq_getElem?_getD]
    rw [← (turned_sizes hf k).1, h3' i (by rw [(hT k).size]; exact i.2)]
    have := (hQ' k h h' hM).1 s s' h1 h1' i
    simp only [List.getD_eq_getElem?_getD] at this
    rw [this]
    refine Finset.sum_congr rfl fun b _ => ?_
    rw [(turned_sizes hf k).1, h3 b b.2]
  · obtain ⟨s, h1, h2, h3⟩ := isResidual_row hr (List.getElem?_eq_getElem k.2)
    obtain ⟨s', h1', h2', h3'⟩ := isResidual_row hr' (hF k)
    obtain rfl : F k = f' := Option.some.inj ((hF k).symm.trans hk)
    exact (hQ' k h h' hM).2 s s' js js' h1 h1' hj hj'

/-- The linear systems of turned problems. -/
theorem turned_linear {τ : VRef → V → Nat → Nat → ℝ} {M : VRef → V → V → Prop} {facs facs' : List (Factor ℝ V)}
    (hf : List.Forall₂ (TurnedFactor τ M) facs facs') {vars : List VRef} (hnd : vars.Nodup)
    (hshape : ∀ r v v', M r v v' → VarLike.isConst v' = VarLike.isConst v ∧ VarLike.size v' = VarLike.size v)
    (horth : ∀ r v v', M r v v' → VarLike.isConst v = false →
      (Matrix.of fun i j : Fin (VarLike.size v) => τ r v i j)ᵀ * (Matrix.of fun i j : Fin (VarLike.size v) => τ r v i j) = 1)
    {h h' : Heap V} {r r' : List ℝ} {J J' : SpMat ℝ} (hM : ∀ q, M q (h q) (h' q)) (h1 : Linearised h vars facs r J)
    (h2 : Linearised h' vars facs' r' J') :
    ∃ B : Matrix (Fin J'.columns.length) (Fin J.columns.length) ℝ, Bᵀ * B = 1 ∧ B * Bᵀ = 1 ∧
      ((jacobianMatrix J')ᵀ * jacobianMatrix J') * B = B * ((jacobianMatrix J)ᵀ * jacobianMatrix J) ∧
      gradient J' r' = B *ᵥ gradient J r ∧
      ∀ d d' : Nat → ℝ, ((fun j => d' j) : Fin J'.columns.length → ℝ) = B *ᵥ (fun j => d j) →
        ∀ q, q ∈ vars → VarLike.isConst (h q) = false → ∀ i : Fin (VarLike.size (h q)),
          d' (colStart h vars q + i) = ∑ a : Fin (VarLike.size (h q)), τ q (h q) i a * d (colStart h vars q + a) := by
  obtain ⟨eR, hR⟩ := exists_rows facs
  obtain ⟨Q, hQ, hres, hjac⟩ := turned_rows hf h h' r r' hM h1.residual h2.residual
  obtain ⟨eN, hN⟩ := exists_columns h hnd
  have free : ∀ k : {r // r ∈ vars.filter fun r => !VarLike.isConst (h r)}, k.1 ∈ vars ∧ VarLike.isConst (h k.1) = false := by
    rintro ⟨r, hr⟩
    simpa using hr
  have hsz : ∀ vs, freeTotal h' vs = freeTotal h vs := by
    intro vs
    simp only [freeTotal, freeSize, fun r => (hshape r _ _ (hM r)).1, fun r => (hshape r _ _ (hM r)).2]
  have hcol : ∀ q, colStart h' vars q = colStart h vars q := fun q => hsz _
  have c1 : J.columns.length = freeTotal h vars := h1.columns
  have c2 : J'.columns.length = J.columns.length := by rw [h2.columns, h1.columns, hsz]
  have c3 : J'.rows = J.rows := by rw [h1.rows, h2.rows, (turned_sizes hf 0).2]
  obtain ⟨bl, hB, hS⟩ := h1.jacobian
  obtain ⟨bl', hB', hS'⟩ := h2.jacobian
  have sys := turned_system c2 c3 J.coeff J'.coeff (fun i => r.getD i 0) (fun i => r'.getD i 0)
    (eN.trans (finCongr c1.symm)) (eR.trans (finCongr h1.rows.symm))
    (T := fun k => Matrix.of fun i j : Fin (VarLike.size (h k.1)) => τ k.1 (h k.1) i j)
    (fun k => horth k.1 _ _ (hM k.1) (free k).2) hQ
  refine exists_of_hyps sys ?_ ?_ ?_
  · intro l i k j
    simp only [Equiv.trans_apply, finCongr_apply, Fin.val_cast, hN, hR]
    obtain ⟨f', hf', hT⟩ := (turned_get hf l).1 _ (List.getElem?_eq_getElem l.2)
    have hk := List.getElem?_eq_getElem l.2
    have hconst : VarLike.isConst (h' k.1) = false := by rw [(hshape _ _ _ (hM k.1)).1]; exact (free k).2
    have hsize : VarLike.size (h' k.1) = VarLike.size (h k.1) := (hshape _ _ _ (hM k.1)).2
    have key := fun i (hi : i < f'.residualSize) => hS' l f' hf' i hi
    simp only [(turned_sizes hf l).1, hT.variables, hT.size] at key
    by_cases hm : some k.1 ∈ facs[l].variables
    · obtain ⟨p, hp⟩ := List.mem_iff_getElem?.1 hm
      obtain ⟨A, hA, _⟩ := (hB l _ hk).2 p k.1 hp
      obtain ⟨A', hA', _⟩ := (hB' l _ hf').2 p k.1 (by rw [hT.variables]; exact hp)
      have e1 : ∀ b : Fin (facs[l].residualSize), J.coeff (rowStart facs l + b) (colStart h vars k.1 + j) = A.entry b j :=
        fun b => (hS l _ hk b b.2).1 p k.1 A hp (free k).2 hA j j.2
      have e2 : ∀ a : Fin (VarLike.size (h k.1)), J'.coeff (rowStart facs l + i) (colStart h vars k.1 + a) = A'.entry i a := by
        intro a
        rw [← hcol]
        exact (key i i.2).1 p k.1 A' hp hconst hA' a (by rw [hsize]; exact a.2)
      simp only [e1, e2]
      exact hjac l f' hf' _ _ (hB l _ hk).1 (hB' l _ hf').1 p k.1 A A' hp (free k).2 hA hA' i j
    · have e1 : ∀ b : Fin (facs[l].residualSize), J.coeff (rowStart facs l + b) (colStart h vars k.1 + j) = 0 :=
        fun b => (hS l _ hk b b.2).2 k.1 (free k).1 (free k).2 hm j j.2
      have e2 : ∀ a : Fin (VarLike.size (h k.1)), J'.coeff (rowStart facs l + i) (colStart h vars k.1 + a) = 0 := by
        intro a
        rw [← hcol]
        exact (key i i.2).2 k.1 (free k).1 hconst hm a (by rw [hsize]; exact a.2)
      simp only [e1, e2]
      simp
  · intro l i
    simp only [Equiv.trans_apply, finCongr_apply, Fin.val_cast, hR]
    exact hres l i
  · rintro ⟨B, b1, b2, b3, b4, b5⟩
    refine ⟨B, b1, b2, b3, b4, fun d d' e q hq hc i => ?_⟩
    have e6 := b5 d d' e
    simp only [Equiv.trans_apply, finCongr_apply, Fin.val_cast, hN] at e6
    exact e6 ⟨q, by simp [hq, hc]⟩ i

/-- Turned problems have the same cost. -/
theorem turned_cost {τ : VRef → V → Nat → Nat → ℝ} {M : VRef → V → V → Prop} {facs facs' : List (Factor ℝ V)}
    (hf : List.Forall₂ (TurnedFactor τ M) facs facs') {h h' : Heap V} {r r' : List ℝ} (hM : ∀ q, M q (h q) (h' q))
    (hr : IsResidual h facs r) (hr' : IsResidual h' facs' r') : realArith.sqNorm r' = realArith.sqNorm r := by
  obtain ⟨eR, hR⟩ := exists_rows facs
  obtain ⟨Q, hQ, hres, _⟩ := turned_rows hf h h' r r' hM hr hr'
  rw [sum_squares_list r (isResidual_length hr), sum_squares_list r' ((isResidual_length hr').trans (turned_sizes hf 0).2),
    ← Equiv.sum_comp eR, ← Equiv.sum_comp eR, Fintype.sum_sigma, Fintype.sum_sigma]
  refine Finset.sum_congr rfl fun k _ => ?_
  simp only [hR]
  rw [← orthogonal_sum (hQ k) fun i => r.getD (rowStart facs k + i) 0]
  exact Finset.sum_congr rfl fun i _ => by rw [hres k i]

/-- Turning variables and factors gives a corresponding problem, while the steps are of the kind `G`. -/
theorem turned_correspond_while {G : V → List ℝ → V → Prop} {τ : VRef → V → Nat → Nat → ℝ} {M : VRef → V → V → Prop} {facs facs' : List (Factor ℝ V)}
    (hf : List.Forall₂ (TurnedFactor τ M) facs facs') {vars : List VRef} (hnd : vars.Nodup)
    (hshape : ∀ r v v', M r v v' → VarLike.isConst v' = VarLike.isConst v ∧ VarLike.size v' = VarLike.size v)
    (horth : ∀ r v v', M r v v' → VarLike.isConst v = false →
      (Matrix.of fun i j : Fin (VarLike.size v) => τ r v i j)ᵀ * (Matrix.of fun i j : Fin (VarLike.size v) => τ r v i j) = 1)
    (hstep : ∀ r v v' d d' w w', M r v v' → VarLike.isConst v = false → d.length = VarLike.size v → d'.length = VarLike.size v →
      (∀ i : Fin (VarLike.size v), d'.getD i 0 = ∑ a : Fin (VarLike.size v), τ r v i a * d.getD a 0) →
      VarLike.applyIncr v d = .ok w → VarLike.applyIncr v' d' = .ok w' → G v d w → G v' d' w' → M r w w') :
    CorrespondWhile G 1 (fun h h' => ∀ r, M r (h r) (h' r)) vars facs vars facs' := by
  constructor
  · intro h h' r r' hM hr hr'
    rw [one_pow, one_mul]
    exact turned_cost hf hM hr hr'
  · intro h h' r r' J J' hM h1 h2
    obtain ⟨B, b1, b2, b3, b4, b5⟩ := turned_linear hf hnd hshape horth hM h1 h2
    have hsz : ∀ vs, freeTotal h' vs = freeTotal h vs := by
      intro vs
      simp only [freeTotal, freeSize, fun r => (hshape r _ _ (hM r)).1, fun r => (hshape r _ _ (hM r)).2]
    have hcol : ∀ q, colStart h' vars q = colStart h vars q := fun q => hsz _
    have c1 : J.columns.length = freeTotal h vars := h1.columns
    have c2 : J'.columns.length = J.columns.length := by rw [h2.columns, h1.columns, hsz]
    refine ⟨B, b1, b2, by rw [one_pow, one_smul]; exact b3, by rw [one_pow, one_smul]; exact b4, ?_⟩
    intro rate d d' g g' e1 e2 e3 e4 e5 a1 a2 q
    by_cases hq : q ∈ vars ∧ VarLike.isConst (h q) = false
    · have e7 := b5 (fun i => d.getD i 0) (fun i => d'.getD i 0) e3 q hq.1 hq.2
      have hq' : q ∈ vars ∧ VarLike.isConst (h' q) = false := ⟨hq.1, by rw [(hshape q _ _ (hM q)).1]; exact hq.2⟩
      have l1 : (realArith.scale rate d).length = freeTotal h vars := by rw [← c1, ← e1]; simp [Arith.scale]
      have l2 : (realArith.scale rate d').length = freeTotal h' vars := by rw [hsz, ← c1, ← c2, ← e2]; simp [Arith.scale]
      have sc : ∀ (d : List ℝ) i, (realArith.scale rate d).getD i 0 = rate * d.getD i 0 := by
        intro d i
        simp only [Arith.scale, List.getD_eq_getElem?_getD, List.getElem?_map]
        cases d[i]? <;> simp [realArith, mul_comm]
      refine hstep q _ _ _ _ _ _ (hM q) hq.2 (partOf_length l1 hq.1 hq.2) ?_ ?_ ((e4 q).1 hq) ((e5 q).1 hq') (a1 q hq.1 hq.2) (a2 q hq'.1 hq'.2)
      · rw [partOf_length l2 hq'.1 hq'.2, (hshape q _ _ (hM q)).2]
      · intro i
        rw [partOf_getD h' vars _ q (by rw [(hshape q _ _ (hM q)).2]; exact i.2), hcol, sc, e7 i, Finset.mul_sum]
        refine Finset.sum_congr rfl fun a _ => ?_
        rw [partOf_getD h vars _ q a.2, sc]
        ring
    · rw [(e4 q).2 hq, (e5 q).2 (by rw [(hshape q _ _ (hM q)).1]; exact hq)]
      exact hM q

/-- Turning variables and factors gives a corresponding problem. -/
theorem turned_correspond {τ : VRef → V → Nat → Nat → ℝ} {M : VRef → V → V → Prop} {facs facs' : List (Factor ℝ V)}
    (hf : List.Forall₂ (TurnedFactor τ M) facs facs') {vars : List VRef} (hnd : vars.Nodup)
    (hshape : ∀ r v v', M r v v' → VarLike.isConst v' = VarLike.isConst v ∧ VarLike.size v' = VarLike.size v)
    (horth : ∀ r v v', M r v v' → VarLike.isConst v = false →
      (Matrix.of fun i j : Fin (VarLike.size v) => τ r v i j)ᵀ * (Matrix.of fun i j : Fin (VarLike.size v) => τ r v i j) = 1)
    (hstep : ∀ r v v' d d' w w', M r v v' → VarLike.isConst v = false → d.length = VarLike.size v → d'.length = VarLike.size v →
      (∀ i : Fin (VarLike.size v), d'.getD i 0 = ∑ a : Fin (VarLike.size v), τ r v i a * d.getD a 0) →
      VarLike.applyIncr v d = .ok w → VarLike.applyIncr v' d' = .ok w' → M r w w') :
    Correspond 1 (fun h h' => ∀ r, M r (h r) (h' r)) vars facs vars facs' := by
  have h := turned_correspond_while (G := fun _ _ _ => True) hf hnd hshape horth
    fun r v v' d d' w w' h1 h2 h3 h4 h5 h6 h7 _ _ => hstep r v v' d d' w w' h1 h2 h3 h4 h5 h6 h7
  refine ⟨h.cost, fun g g' r r' J J' h1 h2 h3 => ?_⟩
  obtain ⟨B, b1, b2, b3, b4, b5⟩ := h.step g g' r r' J J' h1 h2 h3
  exact ⟨B, b1, b2, b3, b4, fun rate d d' g g' e1 e2 e3 e4 e5 => b5 rate d d' g g' e1 e2 e3 e4 e5 (fun _ _ _ => trivial) fun _ _ _ => trivial⟩

end numbers
end Factorama
