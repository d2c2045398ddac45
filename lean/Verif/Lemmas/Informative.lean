import Verif.Lemmas.Repeats
import Verif.Spec.Informative

/-!
# More measurements and the inverse of the normal matrix
-/

namespace Factorama
open Spec Opt Graph Matrix

/-- Inversion reverses the order of positive definite matrices. -/
theorem inverse_antitone {n : Nat} {A B : Matrix (Fin n) (Fin n) ℝ} (hA : A.IsSymm) (hu : IsUnit A) (hv : IsUnit B)
    (h0 : ∀ y, 0 ≤ y ⬝ᵥ A *ᵥ y) (h : ∀ y, y ⬝ᵥ A *ᵥ y ≤ y ⬝ᵥ B *ᵥ y) (y : Fin n → ℝ) :
    y ⬝ᵥ B⁻¹ *ᵥ y ≤ y ⬝ᵥ A⁻¹ *ᵥ y := by
  have hd := (Matrix.isUnit_iff_isUnit_det _).1 hu
  have hd' := (Matrix.isUnit_iff_isUnit_det _).1 hv
  obtain ⟨u, hu1⟩ : ∃ u, u = B⁻¹ *ᵥ y := ⟨_, rfl⟩
  obtain ⟨v, hv1⟩ : ∃ v, v = A⁻¹ *ᵥ y := ⟨_, rfl⟩
  have eB : B *ᵥ u = y := by rw [hu1, mulVec_mulVec, mul_nonsing_inv _ hd', one_mulVec]
  have eA : A *ᵥ v = y := by rw [hv1, mulVec_mulVec, mul_nonsing_inv _ hd, one_mulVec]
  rw [← hu1, ← hv1]
  have h1 := h u
  rw [eB] at h1
  have h2 := h0 (u - v)
  have h3 : v ⬝ᵥ A *ᵥ u = y ⬝ᵥ u := by
    rw [dotProduct_mulVec, ← mulVec_transpose, hA.eq, eA]
  rw [mulVec_sub, sub_dotProduct, dotProduct_sub, dotProduct_sub, eA, h3] at h2
  rw [dotProduct_comm u y] at h1 h2
  rw [dotProduct_comm v y] at h2
  linarith

variable {V : Type} [VarLike ℝ V]

/-- Sums of non-negative contributions only grow. -/
theorem informative_sum {facs facs' : List (Factor ℝ V)} (h : MoreInformative facs facs') (g g' : Nat → ℝ)
    (h0 : ∀ i, 0 ≤ g i) (h0' : ∀ i, 0 ≤ g' i)
    (hg : ∀ (k : Nat) (k' : Nat) f f' c, facs[k]? = some f → facs'[k']? = some f' → Rescaled c f f' → ∀ i, i < f.residualSize →
      g' (rowStart facs' k' + i) = c ^ 2 * g (rowStart facs k + i)) :
    ∑ i ∈ Finset.range (rowTotal facs), g i ≤ ∑ i ∈ Finset.range (rowTotal facs'), g' i := by
  obtain ⟨at_, c, hinj, hR⟩ := h
  rw [sum_rows, sum_rows]
  calc ∑ k : Fin facs.length, ∑ i ∈ Finset.range facs[k].residualSize, g (rowStart facs k + i)
      ≤ ∑ k : Fin facs.length, ∑ i ∈ Finset.range facs'[at_ k].residualSize, g' (rowStart facs' (at_ k) + i) := by
        refine Finset.sum_le_sum fun k _ => ?_
        rw [(hR k).2.size]
        refine Finset.sum_le_sum fun i hi => ?_
        rw [hg k (at_ k) facs[k] facs'[at_ k] (c k) (List.getElem?_eq_getElem k.2) (List.getElem?_eq_getElem (at_ k).2) (hR k).2 i
          (by simpa using hi)]
        have := (hR k).1
        exact le_mul_of_one_le_left (h0 _) (by nlinarith)
    _ = ∑ k' ∈ Finset.univ.image at_, ∑ i ∈ Finset.range facs'[k'].residualSize, g' (rowStart facs' k' + i) := by
        rw [Finset.sum_image fun a _ b _ e => hinj e]
    _ ≤ _ := Finset.sum_le_sum_of_subset_of_nonneg (Finset.subset_univ _) fun k _ _ => Finset.sum_nonneg fun i _ => h0' _

/-- The quadratic form of `Jᵀ J`. -/
theorem gram_form {N R : Nat} (q : Nat → Nat → ℝ) (y : Nat → ℝ) :
    (fun j : Fin N => y j) ⬝ᵥ ((Matrix.of fun (i : Fin R) (j : Fin N) => q i j)ᵀ * (Matrix.of fun (i : Fin R) (j : Fin N) => q i j)) *ᵥ
      (fun j => y j) = ∑ i ∈ Finset.range R, (∑ j ∈ Finset.range N, q i j * y j) ^ 2 := by
  rw [← mulVec_mulVec, dotProduct_mulVec, vecMul_transpose, dotProduct, ← Fin.sum_univ_eq_sum_range]
  refine Finset.sum_congr rfl fun i _ => ?_
  rw [sq, ← Fin.sum_univ_eq_sum_range (fun j => q i j * y j)]
  rfl

/-- More measurements make the variances smaller, entries given as functions. -/
theorem variance_antitone {N N' R R' : Nat} (hN : N' = N) (q q' : Nat → Nat → ℝ)
    (hq : ∀ y : Nat → ℝ, ∑ i ∈ Finset.range R, (∑ j ∈ Finset.range N, q i j * y j) ^ 2 ≤
      ∑ i ∈ Finset.range R', (∑ j ∈ Finset.range N, q' i j * y j) ^ 2)
    (hu : IsUnit ((Matrix.of fun (i : Fin R) (j : Fin N) => q i j)ᵀ * (Matrix.of fun (i : Fin R) (j : Fin N) => q i j)))
    (hu' : IsUnit ((Matrix.of fun (i : Fin R') (j : Fin N') => q' i j)ᵀ * (Matrix.of fun (i : Fin R') (j : Fin N') => q' i j)))
    (a n : Nat) (P P' : Nat → Nat → ℝ)
    (hP : ∀ i j, i < n → j < n → ∃ hi hj, P i j =
      ((Matrix.of fun (i : Fin R) (j : Fin N) => q i j)ᵀ * (Matrix.of fun (i : Fin R) (j : Fin N) => q i j))⁻¹ ⟨a + i, hi⟩ ⟨a + j, hj⟩)
    (hP' : ∀ i j, i < n → j < n → ∃ hi hj, P' i j =
      ((Matrix.of fun (i : Fin R') (j : Fin N') => q' i j)ᵀ * (Matrix.of fun (i : Fin R') (j : Fin N') => q' i j))⁻¹ ⟨a + i, hi⟩ ⟨a + j, hj⟩)
    (z : Nat → ℝ) : ∑ i ∈ Finset.range n, ∑ j ∈ Finset.range n, z i * P' i j * z j ≤
      ∑ i ∈ Finset.range n, ∑ j ∈ Finset.range n, z i * P i j * z j := by
  subst hN
  generalize hA : (Matrix.of fun (i : Fin R) (j : Fin N') => q i j)ᵀ * (Matrix.of fun (i : Fin R) (j : Fin N') => q i j) = A at *
  generalize hB : (Matrix.of fun (i : Fin R') (j : Fin N') => q' i j)ᵀ * (Matrix.of fun (i : Fin R') (j : Fin N') => q' i j) = B at *
  have ext : ∀ y : Fin N' → ℝ, ∃ y' : Nat → ℝ, y = fun j : Fin N' => y' j := fun y =>
    ⟨fun j => if h : j < N' then y ⟨j, h⟩ else 0, by funext j; simp⟩
  have hsymm : A.IsSymm := by
    rw [← hA, Matrix.IsSymm, transpose_mul, transpose_transpose]
  have key := fun y => inverse_antitone (A := A) (B := B) hsymm hu hu'
    (fun y => by
      obtain ⟨y, rfl⟩ := ext y
      rw [← hA, gram_form]
      exact Finset.sum_nonneg fun i _ => sq_nonneg _)
    (fun y => by
      obtain ⟨y, rfl⟩ := ext y
      rw [← hA, ← hB, gram_form, gram_form]
      exact hq y) y
  have form : ∀ (M : Matrix (Fin N') (Fin N') ℝ) (Q : Nat → Nat → ℝ),
      (∀ i j, i < n → j < n → ∃ hi hj, Q i j = M ⟨a + i, hi⟩ ⟨a + j, hj⟩) →
      ∑ i ∈ Finset.range n, ∑ j ∈ Finset.range n, z i * Q i j * z j =
        (∑ i : Fin n, z i • (fun k : Fin N' => if (k : Nat) = a + i then (1 : ℝ) else 0)) ⬝ᵥ M *ᵥ
          ∑ j : Fin n, z j • (fun k : Fin N' => if (k : Nat) = a + j then (1 : ℝ) else 0) := by
    intro M Q hQ
    rw [mulVec_sum, sum_dotProduct, ← Fin.sum_univ_eq_sum_range (fun i => ∑ j ∈ Finset.range n, z i * Q i j * z j)]
    refine Finset.sum_congr rfl fun i _ => ?_
    rw [dotProduct_sum, ← Fin.sum_univ_eq_sum_range (fun j => z i * Q i j * z j)]
    refine Finset.sum_congr rfl fun j _ => ?_
    obtain ⟨hi, hj, e⟩ := hQ i j i.2 j.2
    have unit : ∀ (m : Nat) (hm : m < N'), (fun k : Fin N' => if (k : Nat) = m then (1 : ℝ) else 0) = Pi.single ⟨m, hm⟩ 1 := by
      intro m hm
      funext k
      simp [Pi.single_apply, Fin.ext_iff]
    rw [unit _ hi, unit _ hj, mulVec_smul, smul_dotProduct, dotProduct_smul, mulVec_single_one, single_one_dotProduct, e]
    simp only [col_apply, smul_eq_mul]
    ring
  rw [form _ P' hP', form _ P hP]
  exact key _

end Factorama
