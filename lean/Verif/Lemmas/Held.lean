import Verif.Lemmas.Informative
import Verif.Spec.Held

/-!
# Leaving out columns and the inverse of the normal matrix
-/

namespace Factorama
open Spec Opt Graph Matrix

/-- The inverse of a principal submatrix of a positive definite matrix is below the part of the inverse. -/
theorem inverse_restrict {n n' : Nat} {A : Matrix (Fin n) (Fin n) ℝ} {B : Matrix (Fin n') (Fin n') ℝ} (σ : Fin n' → Fin n)
    (hB : ∀ i j, B i j = A (σ i) (σ j)) (hA : A.IsSymm) (hu : IsUnit A) (hv : IsUnit B) (h0 : ∀ y, 0 ≤ y ⬝ᵥ A *ᵥ y)
    (w : Fin n → ℝ) (z : Fin n' → ℝ) (hz : ∀ j, z j = w (σ j)) : z ⬝ᵥ B⁻¹ *ᵥ z ≤ w ⬝ᵥ A⁻¹ *ᵥ w := by
  have hd := (Matrix.isUnit_iff_isUnit_det _).1 hu
  have hd' := (Matrix.isUnit_iff_isUnit_det _).1 hv
  obtain ⟨u, hu1⟩ : ∃ u, u = B⁻¹ *ᵥ z := ⟨_, rfl⟩
  obtain ⟨v, hv1⟩ : ∃ v, v = A⁻¹ *ᵥ w := ⟨_, rfl⟩
  have eB : B *ᵥ u = z := by rw [hu1, mulVec_mulVec, mul_nonsing_inv _ hd', one_mulVec]
  have eA : A *ᵥ v = w := by rw [hv1, mulVec_mulVec, mul_nonsing_inv _ hd, one_mulVec]
  obtain ⟨E, hE⟩ : ∃ E : Matrix (Fin n) (Fin n') ℝ, E = Matrix.of fun i j => if i = σ j then 1 else 0 := ⟨_, rfl⟩
  have hBE : B = Eᵀ * A * E := by
    ext i j
    simp [hE, Matrix.mul_apply, hB]
  have hzE : z = Eᵀ *ᵥ w := by
    funext j
    simp [hE, Matrix.mulVec, dotProduct, hz]
  obtain ⟨y, hy⟩ : ∃ y, y = E *ᵥ u := ⟨_, rfl⟩
  have k1 : z ⬝ᵥ u = w ⬝ᵥ y := by
    rw [hzE, hy, mulVec_transpose, ← dotProduct_mulVec]
  have k2 : y ⬝ᵥ A *ᵥ y = w ⬝ᵥ y := by
    have e : u ⬝ᵥ B *ᵥ u = y ⬝ᵥ A *ᵥ y := by
      rw [hBE, hy, ← mulVec_mulVec, ← mulVec_mulVec, dotProduct_mulVec, vecMul_transpose]
    rw [← e, eB, dotProduct_comm, k1]
  rw [← hu1, ← hv1, k1]
  have h2 := h0 (y - v)
  have h3 : v ⬝ᵥ A *ᵥ y = w ⬝ᵥ y := by
    rw [dotProduct_mulVec, ← mulVec_transpose, hA.eq, eA]
  rw [mulVec_sub, sub_dotProduct, dotProduct_sub, dotProduct_sub, eA, h3, k2] at h2
  rw [dotProduct_comm y w] at h2
  rw [dotProduct_comm v w] at h2
  linarith

/-- The quadratic form of a block, as a quadratic form of the whole matrix. -/
theorem block_form {N : Nat} (M : Matrix (Fin N) (Fin N) ℝ) (a n : Nat) (z : Nat → ℝ) (Q : Nat → Nat → ℝ)
    (hQ : ∀ i j, i < n → j < n → ∃ hi hj, Q i j = M ⟨a + i, hi⟩ ⟨a + j, hj⟩) :
    ∑ i ∈ Finset.range n, ∑ j ∈ Finset.range n, z i * Q i j * z j =
      (fun k : Fin N => if a ≤ (k : Nat) ∧ (k : Nat) < a + n then z (k - a) else 0) ⬝ᵥ M *ᵥ
        (fun k : Fin N => if a ≤ (k : Nat) ∧ (k : Nat) < a + n then z (k - a) else 0) := by
  have vec : (fun k : Fin N => if a ≤ (k : Nat) ∧ (k : Nat) < a + n then z (k - a) else 0) =
      ∑ i : Fin n, z i • (fun k : Fin N => if (k : Nat) = a + i then (1 : ℝ) else 0) := by
    funext k
    rw [Finset.sum_apply]
    by_cases hk : a ≤ (k : Nat) ∧ (k : Nat) < a + n
    · rw [if_pos hk, Finset.sum_eq_single_of_mem (⟨k - a, by omega⟩ : Fin n) (Finset.mem_univ _)]
      · simp; omega
      · intro i _ hi
        have : (k : Nat) ≠ a + i := fun e => hi (Fin.ext (by simp; omega))
        simp [this]
    · rw [if_neg hk]
      refine (Finset.sum_eq_zero fun i _ => ?_).symm
      have : (k : Nat) ≠ a + i := by have := i.2; omega
      simp [this]
  rw [vec, mulVec_sum, sum_dotProduct, ← Fin.sum_univ_eq_sum_range (fun i => ∑ j ∈ Finset.range n, z i * Q i j * z j)]
  refine Finset.sum_congr rfl fun i _ => ?_
  rw [dotProduct_sum, ← Fin.sum_univ_eq_sum_range (fun j => z i * Q i j * z j)]
  refine Finset.sum_congr rfl fun j _ => ?_
  obtain ⟨hi, hj, e⟩ := hQ i j i.2 j.2
  have unit : ∀ (m : Nat) (hm : m < N), (fun k : Fin N => if (k : Nat) = m then (1 : ℝ) else 0) = Pi.single ⟨m, hm⟩ 1 := by
    intro m hm
    funext k
    simp [Pi.single_apply, Fin.ext_iff]
  rw [unit _ hi, unit _ hj, mulVec_smul, smul_dotProduct, dotProduct_smul, mulVec_single_one, single_one_dotProduct, e]
  simp only [col_apply, smul_eq_mul]
  ring

/-- Leaving out columns makes the variances smaller, entries given as functions. -/
theorem variance_restrict {N N' R R' : Nat} (hR : R' = R) (q q' : Nat → Nat → ℝ) (σ : Nat → Nat) (hσ : ∀ j, j < N' → σ j < N)
    (hq : ∀ i j, i < R → j < N' → q' i j = q i (σ j))
    (hu : IsUnit ((Matrix.of fun (i : Fin R) (j : Fin N) => q i j)ᵀ * (Matrix.of fun (i : Fin R) (j : Fin N) => q i j)))
    (hu' : IsUnit ((Matrix.of fun (i : Fin R') (j : Fin N') => q' i j)ᵀ * (Matrix.of fun (i : Fin R') (j : Fin N') => q' i j)))
    (a a' n : Nat) (ha : ∀ j, j < N' → ∀ i, i < n → (σ j = a + i ↔ j = a' + i)) (P P' : Nat → Nat → ℝ)
    (hP : ∀ i j, i < n → j < n → ∃ hi hj, P i j =
      ((Matrix.of fun (i : Fin R) (j : Fin N) => q i j)ᵀ * (Matrix.of fun (i : Fin R) (j : Fin N) => q i j))⁻¹ ⟨a + i, hi⟩ ⟨a + j, hj⟩)
    (hP' : ∀ i j, i < n → j < n → ∃ hi hj, P' i j =
      ((Matrix.of fun (i : Fin R') (j : Fin N') => q' i j)ᵀ * (Matrix.of fun (i : Fin R') (j : Fin N') => q' i j))⁻¹ ⟨a' + i, hi⟩ ⟨a' + j, hj⟩)
    (z : Nat → ℝ) : ∑ i ∈ Finset.range n, ∑ j ∈ Finset.range n, z i * P' i j * z j ≤
      ∑ i ∈ Finset.range n, ∑ j ∈ Finset.range n, z i * P i j * z j := by
  subst hR
  rw [block_form _ a' n z P' hP', block_form _ a n z P hP]
  have ext : ∀ y : Fin N → ℝ, ∃ y' : Nat → ℝ, y = fun j : Fin N => y' j := fun y =>
    ⟨fun j => if h : j < N then y ⟨j, h⟩ else 0, by funext j; simp⟩
  refine inverse_restrict (fun j => ⟨σ j, hσ j j.2⟩) (fun i j => ?_) ?_ hu hu' (fun y => ?_) _ _ fun j => ?_
  · simp only [Matrix.mul_apply, transpose_apply, of_apply]
    exact Finset.sum_congr rfl fun k _ => by rw [hq k i k.2 i.2, hq k j k.2 j.2]
  · rw [Matrix.IsSymm, transpose_mul, transpose_transpose]
  · obtain ⟨y, rfl⟩ := ext y
    rw [gram_form]
    exact Finset.sum_nonneg fun i _ => sq_nonneg _
  · show _ = if a ≤ σ j ∧ σ j < a + n then z (σ j - a) else 0
    by_cases h : a' ≤ (j : Nat) ∧ (j : Nat) < a' + n
    · have e := (ha j j.2 (j - a') (by omega)).2 (by omega)
      rw [if_pos h, if_pos (by omega)]
      congr 1
      omega
    · rw [if_neg h, if_neg]
      intro hs
      have e := (ha j j.2 (σ j - a) (by omega)).1 (by omega)
      omega

variable {V : Type} [VarLike ℝ V] [LawfulVar ℝ V]

theorem Spec.Held.same {x x' : Heap V} (h : Held x x') {r : VRef} (hc : VarLike.isConst (F := ℝ) (x' r) = false) : x' r = x r := by
  rcases h r with e | e
  · exact e
  · rw [e, LawfulVar.isConst_setConst] at hc
    cases hc

/-- The columns that stay: a map of column numbers. -/
theorem held_columns {x x' : Heap V} (hH : Held x x') {vars : List VRef} (hn : vars.Nodup) {facs : List (Factor ℝ V)}
    (hf : ∀ f ∈ facs, SameFreeBlocks f x x') {J J' : SpMat ℝ} (h1 : Stacks x vars facs J) (h2 : Stacks x' vars facs J') :
    ∃ σ : Nat → Nat, (∀ j, j < freeTotal x' vars → σ j < freeTotal x vars) ∧
      (∀ i j, i < rowTotal facs → j < freeTotal x' vars → J'.coeff i j = J.coeff i (σ j)) ∧
      ∀ q ∈ vars, VarLike.isConst (x' q) = false → ∀ j, j < freeTotal x' vars → ∀ i, i < VarLike.size (x q) →
        (σ j = colStart x vars q + i ↔ j = colStart x' vars q + i) := by
  have key : ∀ j, ∃ m, j < freeTotal x' vars → ∃ q ∈ vars, VarLike.isConst (x' q) = false ∧ ∃ i, i < VarLike.size (x q) ∧
      j = colStart x' vars q + i ∧ m = colStart x vars q + i := by
    intro j
    by_cases hj : j < freeTotal x' vars
    · obtain ⟨q, hq, hc, i, hi, e⟩ := exists_column x' hn hj
      exact ⟨colStart x vars q + i, fun _ => ⟨q, hq, hc, i, by rwa [hH.same hc] at hi, e, rfl⟩⟩
    · exact ⟨0, fun h => absurd h hj⟩
  obtain ⟨σ, hσ⟩ := Classical.axiomOfChoice key
  refine ⟨σ, fun j hj => ?_, fun i j hi hj => ?_, fun q hq hc j hj i hi => ?_⟩
  · obtain ⟨q, hq, hc, i, hi, _, e⟩ := hσ j hj
    have := colStart_le x hq
    rw [hH.same hc] at hc
    rw [freeSize_of_nonconst hc] at this
    omega
  · obtain ⟨q, hq, hc, l, hl, e1, e2⟩ := hσ j hj
    obtain ⟨k, f, i, hk, hi', rfl⟩ := exists_row hi
    obtain ⟨B, hB, hS⟩ := h1.jacobian
    obtain ⟨B', hB', hS'⟩ := h2.jacobian
    have hc0 : VarLike.isConst (x q) = false := by rwa [hH.same hc] at hc
    rw [e2, e1]
    have hl' : l < VarLike.size (x' q) := by rwa [hH.same hc]
    by_cases hm : some q ∈ f.variables
    · obtain ⟨p, hp⟩ := List.mem_iff_getElem?.1 hm
      obtain ⟨M, hM, _⟩ := (hB k f hk).2 p q hp
      obtain ⟨M', hM', _⟩ := (hB' k f hk).2 p q hp
      rw [(hS k f hk i hi').1 p q M hp hc0 hM l hl, (hS' k f hk i hi').1 p q M' hp hc hM' l hl',
        hf f (List.mem_of_getElem? hk) _ _ (hB k f hk).1 (hB' k f hk).1 p q M M' hp hc hM hM']
    · rw [(hS k f hk i hi').2 q hq hc0 hm l hl, (hS' k f hk i hi').2 q hq hc hm l hl']
  · obtain ⟨q', hq', hc', l, hl, e1, e2⟩ := hσ j hj
    by_cases hqq : q' = q
    · subst hqq
      omega
    · have c0 : VarLike.isConst (x q) = false := by rwa [hH.same hc] at hc
      have c0' : VarLike.isConst (x q') = false := by rwa [hH.same hc'] at hc'
      have d1 := colStart_disjoint x hqq hq hq' (j := l) (by rwa [freeSize_of_nonconst c0'])
      have d2 := colStart_disjoint x' hqq hq hq' (j := l) (by rwa [freeSize_of_nonconst hc', hH.same hc'])
      rw [freeSize_of_nonconst c0] at d1
      rw [freeSize_of_nonconst hc, hH.same hc] at d2
      constructor <;> intro <;> omega

end Factorama
