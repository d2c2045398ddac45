import Verif.Lemmas.Informative
import Verif.Spec.Path

/-!
# Paths of measurements and the inverse of the normal matrix
-/

namespace Factorama
open Spec Opt Graph Matrix

section
variable {V : Type} [VarLike ℝ V]

/-- A vector with the entries `x i` at the places `lo + i`. -/
noncomputable def setAt (C : Finset Nat) (lo : Nat) (x : Nat → ℝ) (a : Nat) : ℝ := ∑ i ∈ C, if a = lo + i then x i else 0

theorem setAt_sum (C : Finset Nat) (lo R : Nat) (x g : Nat → ℝ) (h : ∀ i ∈ C, lo + i < R) :
    ∑ a ∈ Finset.range R, setAt C lo x a * g a = ∑ i ∈ C, x i * g (lo + i) := by
  simp only [setAt, Finset.sum_mul]
  rw [Finset.sum_comm]
  refine Finset.sum_congr rfl fun i hi => ?_
  rw [Finset.sum_eq_single_of_mem (lo + i) (by simpa using h i hi) fun a _ ha => by simp [ha]]
  simp

theorem setAt_at (C : Finset Nat) (lo : Nat) (x : Nat → ℝ) {i : Nat} (hi : i ∈ C) : setAt C lo x (lo + i) = x i := by
  rw [setAt, Finset.sum_eq_single_of_mem i hi fun j _ hj => if_neg (by omega)]
  simp

theorem setAt_ne {C : Finset Nat} {lo : Nat} {x : Nat → ℝ} {a : Nat} (h : setAt C lo x a ≠ 0) : ∃ i ∈ C, a = lo + i := by
  obtain ⟨i, hi, hne⟩ := Finset.exists_ne_zero_of_sum_ne_zero h
  exact ⟨i, hi, by by_contra hn; simp [hn] at hne⟩

/-- What a row combination of one factor gives at the columns of a variable. -/
theorem unitRows_sum {M : Mat ℝ} {C : Finset Nat} {n : Nat} {w σ : ℝ} (h : ∀ i ∈ C, UnitRow M n i w) (z : Nat → ℝ) {j : Nat}
    (hj : j < n) : ∑ i ∈ C, σ * z i * M.entry i j = if j ∈ C then σ * w * z j else 0 := by
  by_cases hm : j ∈ C
  · rw [if_pos hm, Finset.sum_eq_single_of_mem j hm fun i hi hne => by rw [h i hi j hj, if_neg (Ne.symm hne), mul_zero],
      h j hm j hj, if_pos rfl]
    ring
  · rw [if_neg hm]
    exact Finset.sum_eq_zero fun i hi => by rw [h i hi j hj, if_neg (by rintro rfl; exact hm hi), mul_zero]

/-- The combination of measurements along a path that gives the components of its end. -/
theorem path_combination {h : Heap V} {C : Finset Nat} {vars : List VRef} {facs : List (Factor ℝ V)} {J : SpMat ℝ}
    (hJ : Stacks h vars facs J) (hnr : NoRepeats facs) (z : Nat → ℝ) {v : VRef} {ks : List Nat} {s : ℝ}
    (hp : Path h C facs v ks s) :
    ∃ u : Nat → ℝ, (∀ a, u a ≠ 0 → ∃ k ∈ ks, ∃ f, facs[k]? = some f ∧ ∃ i, i < f.residualSize ∧ a = rowStart facs k + i) ∧
      ∑ a ∈ Finset.range (rowTotal facs), u a * u a = s * ∑ i ∈ C, z i * z i ∧
      ∀ r ∈ vars, VarLike.isConst (h r) = false → ∀ j, j < VarLike.size (h r) →
        ∑ a ∈ Finset.range (rowTotal facs), u a * J.coeff a (colStart h vars r + j) = if r = v ∧ j ∈ C then z j else 0 := by
  obtain ⟨B, hB, hS⟩ := hJ.jacobian
  -- one more relative measurement
  have step : ∀ {v w : VRef} {ks : List Nat} {s : ℝ} {k : Nat} {f : Factor ℝ V} {σ : ℝ} (c : ℝ), c * c = 1 →
      (∃ u : Nat → ℝ, (∀ a, u a ≠ 0 → ∃ k ∈ ks, ∃ f, facs[k]? = some f ∧ ∃ i, i < f.residualSize ∧ a = rowStart facs k + i) ∧
        ∑ a ∈ Finset.range (rowTotal facs), u a * u a = s * ∑ i ∈ C, z i * z i ∧
        ∀ r ∈ vars, VarLike.isConst (h r) = false → ∀ j, j < VarLike.size (h r) →
          ∑ a ∈ Finset.range (rowTotal facs), u a * J.coeff a (colStart h vars r + j) = if r = v ∧ j ∈ C then z j else 0) →
      facs[k]? = some f → k ∉ ks → (∀ i ∈ C, i < f.residualSize) →
      (∀ r ∈ vars, VarLike.isConst (h r) = false → ∀ j, j < VarLike.size (h r) →
        ∑ i ∈ C, σ * z i * J.coeff (rowStart facs k + i) (colStart h vars r + j) =
          c * ((if r = w ∧ j ∈ C then z j else 0) - if r = v ∧ j ∈ C then z j else 0)) →
      ∃ u : Nat → ℝ, (∀ a, u a ≠ 0 → ∃ k' ∈ k :: ks, ∃ f, facs[k']? = some f ∧ ∃ i,
          i < f.residualSize ∧ a = rowStart facs k' + i) ∧
        ∑ a ∈ Finset.range (rowTotal facs), u a * u a = (s + σ ^ 2) * ∑ i ∈ C, z i * z i ∧
        ∀ r ∈ vars, VarLike.isConst (h r) = false → ∀ j, j < VarLike.size (h r) →
          ∑ a ∈ Finset.range (rowTotal facs), u a * J.coeff a (colStart h vars r + j) = if r = w ∧ j ∈ C then z j else 0 := by
    rintro v w ks s k f σ c hc ⟨u, h1, h2, h3⟩ hk hnew hrow hsum
    have hin : ∀ i ∈ C, rowStart facs k + i < rowTotal facs := fun i hi => by
      have := row_end_le hk
      have := hrow i hi
      omega
    obtain ⟨p, hpd⟩ : ∃ p, p = setAt C (rowStart facs k) (fun i => c * σ * z i) := ⟨_, rfl⟩
    have hp0 : ∀ a, p a ≠ 0 → ∃ i ∈ C, a = rowStart facs k + i := fun a ha => setAt_ne (hpd ▸ ha)
    have hdis : ∀ a, u a * p a = 0 := by
      intro a
      by_contra hne
      obtain ⟨k', hk', f', hf', i, hi, e⟩ := h1 a (left_ne_zero_of_mul hne)
      obtain ⟨i', hi', e'⟩ := hp0 a (right_ne_zero_of_mul hne)
      have := row_unique hk hf' (a := a) ⟨by omega, by have := hrow i' hi'; omega⟩ ⟨by omega, by omega⟩
      exact hnew (this ▸ hk')
    have hps : ∀ g : Nat → ℝ, ∑ a ∈ Finset.range (rowTotal facs), p a * g a = ∑ i ∈ C, c * σ * z i * g (rowStart facs k + i) :=
      fun g => hpd ▸ setAt_sum C _ _ _ g hin
    refine ⟨fun a => u a + p a, fun a ha => ?_, ?_, fun r hr hcr j hj => ?_⟩
    · by_cases hu : u a = 0
      · obtain ⟨i, hi, e⟩ := hp0 a (by simpa [hu] using ha)
        exact ⟨k, List.mem_cons_self, f, hk, i, hrow i hi, e⟩
      · obtain ⟨k', hk', rest⟩ := h1 a hu
        exact ⟨k', List.mem_cons_of_mem _ hk', rest⟩
    · have e : ∀ a, (u a + p a) * (u a + p a) = u a * u a + p a * p a := fun a => by
        linear_combination 2 * hdis a
      simp only [e, Finset.sum_add_distrib]
      rw [h2, hps, add_mul]
      congr 1
      rw [Finset.mul_sum]
      refine Finset.sum_congr rfl fun i hi => ?_
      rw [hpd, setAt_at _ _ _ hi]
      linear_combination σ ^ 2 * z i ^ 2 * hc
    · simp only [add_mul, Finset.sum_add_distrib]
      rw [h3 r hr hcr j hj, hps]
      have : ∑ i ∈ C, c * σ * z i * J.coeff (rowStart facs k + i) (colStart h vars r + j) =
          c * ∑ i ∈ C, σ * z i * J.coeff (rowStart facs k + i) (colStart h vars r + j) := by
        rw [Finset.mul_sum]
        exact Finset.sum_congr rfl fun i _ => by ring
      rw [this, hsum r hr hcr j hj]
      linear_combination ((if r = w ∧ j ∈ C then z j else 0) - if r = v ∧ j ∈ C then z j else 0) * hc
  -- the columns of a relative measurement
  have relative : ∀ {a b m : VRef} {k : Nat} {f : Factor ℝ V} {σ : ℝ}, facs[k]? = some f → Relative h C f a b m σ → σ ≠ 0 →
      VarLike.isConst (h m) = true → ∀ r ∈ vars, VarLike.isConst (h r) = false → ∀ j, j < VarLike.size (h r) →
        ∑ i ∈ C, σ * z i * J.coeff (rowStart facs k + i) (colStart h vars r + j) =
          (if r = b ∧ j ∈ C then z j else 0) - if r = a ∧ j ∈ C then z j else 0 := by
    intro a b m k f σ hk hR hσ hm r hr hc j hj
    have hab : a ≠ b := by
      rintro rfl
      have := hnr f (List.mem_of_getElem? hk) 0 1 a (by simp [hR.variables]) (by simp [hR.variables])
      omega
    obtain ⟨e1, e2⟩ := hB k f hk
    by_cases hra : r = a
    · subst hra
      obtain ⟨M, hM, _⟩ := e2 0 r (by simp [hR.variables])
      have hu := hR.blockA _ e1 hc
      have e : (B k).getD 0 Mat.empty = M := by simp [List.getD_eq_getElem?_getD, hM]
      rw [e] at hu
      have := unitRows_sum (σ := σ) hu z hj
      rw [Finset.sum_congr rfl fun i hi => by
        rw [(hS k f hk i (hR.row i hi)).1 0 r M (by simp [hR.variables]) hc hM j hj], this]
      by_cases hjC : j ∈ C
      · simp only [hjC, and_true, if_true, if_neg hab]
        field_simp
        ring
      · simp [hjC]
    · by_cases hrb : r = b
      · subst hrb
        obtain ⟨M, hM, _⟩ := e2 1 r (by simp [hR.variables])
        have hu := hR.blockB _ e1 hc
        have e : (B k).getD 1 Mat.empty = M := by simp [List.getD_eq_getElem?_getD, hM]
        rw [e] at hu
        have := unitRows_sum (σ := σ) hu z hj
        rw [Finset.sum_congr rfl fun i hi => by
          rw [(hS k f hk i (hR.row i hi)).1 1 r M (by simp [hR.variables]) hc hM j hj], this]
        by_cases hjC : j ∈ C
        · simp only [hjC, and_true, if_true, if_neg hra]
          field_simp
          ring
        · simp [hjC]
      · simp only [hra, hrb, false_and, if_false, sub_zero]
        refine Finset.sum_eq_zero fun i hi => ?_
        rw [(hS k f hk i (hR.row i hi)).2 r hr hc ?_ j hj, mul_zero]
        rw [hR.variables]
        have : r ≠ m := by rintro rfl; rw [hm] at hc; exact Bool.noConfusion hc
        simp [hra, hrb, this]
  induction hp with
  | @fixed v hv =>
    refine ⟨fun _ => 0, fun a ha => absurd rfl ha, by simp, fun r hr hc j hj => ?_⟩
    have : r ≠ v := by rintro rfl; rw [hv] at hc; exact Bool.noConfusion hc
    simp [this]
  | @direct v k f σ hk hD hσ hv =>
    -- as a relative measurement to nothing
    have hin : ∀ i ∈ C, rowStart facs k + i < rowTotal facs := fun i hi => by
      have := row_end_le hk
      have := hD.row i hi
      omega
    obtain ⟨e1, e2⟩ := hB k f hk
    refine ⟨setAt C (rowStart facs k) (fun i => σ * z i), fun a ha => ?_, ?_, fun r hr hc j hj => ?_⟩
    · obtain ⟨i, hi, e⟩ := setAt_ne ha
      exact ⟨k, by simp, f, hk, i, hD.row i hi, e⟩
    · rw [setAt_sum _ _ _ _ _ hin, Finset.mul_sum]
      refine Finset.sum_congr rfl fun i hi => ?_
      rw [setAt_at _ _ _ hi]
      ring
    · rw [setAt_sum _ _ _ _ _ hin]
      by_cases hrv : r = v
      · subst hrv
        obtain ⟨M, hM, _⟩ := e2 0 r (by simp [hD.variables])
        have hu := hD.block _ e1 hc
        have e : (B k).getD 0 Mat.empty = M := by simp [List.getD_eq_getElem?_getD, hM]
        rw [e] at hu
        have := unitRows_sum (σ := σ) hu z hj
        rw [Finset.sum_congr rfl fun i hi => by
          rw [(hS k f hk i (hD.row i hi)).1 0 r M (by simp [hD.variables]) hc hM j hj], this]
        by_cases hjC : j ∈ C
        · simp only [hjC, and_true, if_true]
          field_simp
        · simp [hjC]
      · simp only [hrv, false_and, if_false]
        refine Finset.sum_eq_zero fun i hi => ?_
        rw [(hS k f hk i (hD.row i hi)).2 r hr hc (by simp [hD.variables, hrv]) j hj, mul_zero]
  | @forward a b _ _ _ _ _ _ _ hk hR hσ hm _ hnew ih =>
    exact step (w := b) 1 (by ring) ih hk hnew hR.row fun r hr hc j hj => by rw [relative hk hR hσ hm r hr hc j hj, one_mul]
  | @backward a b _ _ _ _ _ _ _ hk hR hσ hm _ hnew ih =>
    exact step (w := a) (-1) (by ring) ih hk hnew hR.row fun r hr hc j hj => by rw [relative hk hR hσ hm r hr hc j hj]; ring

end

/-- The variance of a combination of unknowns that can be told from measurements, compared with the variance of these. -/
theorem variance_bound {R N : Nat} (A : Matrix (Fin R) (Fin N) ℝ) (hu : IsUnit (Aᵀ * A)) (u : Fin R → ℝ) (e : Fin N → ℝ)
    (he : Aᵀ *ᵥ u = e) : e ⬝ᵥ (Aᵀ * A)⁻¹ *ᵥ e ≤ u ⬝ᵥ u ∧ (R = N → e ⬝ᵥ (Aᵀ * A)⁻¹ *ᵥ e = u ⬝ᵥ u) := by
  have hd := (Matrix.isUnit_iff_isUnit_det _).1 hu
  obtain ⟨x, hx⟩ : ∃ x, x = (Aᵀ * A)⁻¹ *ᵥ e := ⟨_, rfl⟩
  have hM : Aᵀ *ᵥ (A *ᵥ x) = e := by rw [mulVec_mulVec, hx, mulVec_mulVec, mul_nonsing_inv _ hd, one_mulVec]
  rw [← hx]
  have h1 : e ⬝ᵥ x = u ⬝ᵥ A *ᵥ x := by rw [← he, mulVec_transpose, dotProduct_mulVec]
  have h2 : (A *ᵥ x) ⬝ᵥ (A *ᵥ x) = e ⬝ᵥ x := by
    conv_rhs => rw [← hM]
    rw [mulVec_transpose, ← dotProduct_mulVec]
  refine ⟨?_, fun hRN => ?_⟩
  · have h3 : 0 ≤ (u - A *ᵥ x) ⬝ᵥ (u - A *ᵥ x) := Finset.sum_nonneg fun i _ => mul_self_nonneg _
    rw [sub_dotProduct, dotProduct_sub, dotProduct_sub, h2, ← h1, dotProduct_comm (A *ᵥ x) u, ← h1] at h3
    linarith
  · subst hRN
    have hdA : IsUnit A.det := by
      rw [det_mul, det_transpose] at hd
      exact isUnit_of_mul_isUnit_left hd
    have hdT : IsUnit (Aᵀ).det := by rwa [det_transpose]
    have : A *ᵥ x = u := by
      have h3 : Aᵀ *ᵥ (A *ᵥ x) = Aᵀ *ᵥ u := hM.trans he.symm
      have h4 := congrArg (fun y => (Aᵀ)⁻¹ *ᵥ y) h3
      simpa [mulVec_mulVec, ← Matrix.mul_assoc, nonsing_inv_mul _ hdT] using h4
    rw [h1, this]

/-- The variance of a combination of components of one variable, as a quadratic form of the inverse of the normal matrix. -/
theorem variance_form {N a n : Nat} (M : Matrix (Fin N) (Fin N) ℝ) (Q : Nat → Nat → ℝ)
    (hQ : ∀ i j, i < n → j < n → ∃ hi hj, Q i j = M ⟨a + i, hi⟩ ⟨a + j, hj⟩) (z : Nat → ℝ) :
    ∑ i ∈ Finset.range n, ∑ j ∈ Finset.range n, z i * Q i j * z j =
      (fun c : Fin N => setAt (Finset.range n) a z c) ⬝ᵥ M *ᵥ fun c : Fin N => setAt (Finset.range n) a z c := by
  have e : (fun c : Fin N => setAt (Finset.range n) a z c) =
      ∑ i : Fin n, z i • (fun k : Fin N => if (k : Nat) = a + i then (1 : ℝ) else 0) := by
    funext c
    rw [setAt, Finset.sum_apply, ← Fin.sum_univ_eq_sum_range (fun i => if (c : Nat) = a + i then z i else 0)]
    exact Finset.sum_congr rfl fun i _ => by simp
  rw [e, mulVec_sum, sum_dotProduct, ← Fin.sum_univ_eq_sum_range (fun i => ∑ j ∈ Finset.range n, z i * Q i j * z j)]
  refine Finset.sum_congr rfl fun i _ => ?_
  rw [dotProduct_sum, ← Fin.sum_univ_eq_sum_range (fun j => z i * Q i j * z j)]
  refine Finset.sum_congr rfl fun j _ => ?_
  obtain ⟨hi, hj, e⟩ := hQ i j i.2 j.2
  have unit : ∀ (m : Nat) (hm : m < N), (fun k : Fin N => if (k : Nat) = m then (1 : ℝ) else 0) = Pi.single ⟨m, hm⟩ 1 := by
    intro m hm
    funext k
    simp [Pi.single_apply, Fin.ext_iff]
  rw [unit _ hi, unit _ hj, mulVec_smul, smul_dotProduct, dotProduct_smul, mulVec_single_one, single_one_dotProduct, e]
  simp only [col_apply, smul_eq_mul]
  ring

end Factorama
