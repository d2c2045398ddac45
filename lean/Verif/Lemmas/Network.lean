import Verif.Spec.Network
import Verif.Lemmas.Fusion
import Verif.Lemmas.GraphDerivative
import Verif.Props.Undetermined
import Mathlib.LinearAlgebra.Matrix.PosDef

/-!
# Rows of relative measurements
-/

namespace Factorama
open Spec Opt Graph Matrix
variable {V : Type} [VarLike ℝ V]

/-- The part of a vector over the columns that belongs to a component of a variable; 0 for constants. -/
def columnPart (h : Heap V) (vars : List VRef) (x : Nat → ℝ) (q : VRef) (j : Nat) : ℝ :=
  if VarLike.isConst (F := ℝ) (h q) = true then 0 else x (colStart h vars q + j)

theorem column_lt {h : Heap V} {vars : List VRef} {q : VRef} (hq : q ∈ vars) (hc : VarLike.isConst (F := ℝ) (h q) = false) {j : Nat}
    (hj : j < VarLike.size (F := ℝ) (h q)) : colStart h vars q + j < freeTotal h vars := by
  have := colStart_le h hq
  rw [freeSize, hc] at this
  simp at this
  omega

theorem column_inj {h : Heap V} {vars : List VRef} {p q : VRef} (hp : p ∈ vars) (hq : q ∈ vars)
    (hcp : VarLike.isConst (F := ℝ) (h p) = false) (hcq : VarLike.isConst (F := ℝ) (h q) = false) {i j : Nat}
    (hi : i < VarLike.size (F := ℝ) (h p)) (hj : j < VarLike.size (F := ℝ) (h q)) (e : colStart h vars p + i = colStart h vars q + j) :
    p = q ∧ i = j := by
  by_cases hpq : p = q
  · subst hpq
    exact ⟨rfl, by omega⟩
  · exact absurd ⟨by omega, by simp only [freeSize, hcp]; simp; omega⟩
      (colStart_disjoint h (Ne.symm hpq) hp hq (j := j) (by simp [freeSize, hcq, hj]))

/-- The row of a direct measurement times a vector. -/
theorem direct_row {h : Heap V} {vars : List VRef} (hn : vars.Nodup) {facs : List (Factor ℝ V)} {J : SpMat ℝ}
    (hJ : Stacks h vars facs J) {k : Nat} {id : Int} {v : VRef} {p : List ℝ} {w : ℝ} (hk : facs[k]? = some (genericPrior id v p w))
    (hv : v ∈ vars) (hc : VarLike.isConst (F := ℝ) (h v) = false) (hl : p.length = VarLike.size (F := ℝ) (h v)) {i : Nat}
    (hi : i < p.length) (x : Nat → ℝ) :
    ∑ c ∈ Finset.range (freeTotal h vars), J.coeff (rowStart facs k + i) c * x c = w * columnPart h vars x v i := by
  rw [columnPart, hc, if_neg Bool.false_ne_true]
  have hlt := column_lt hv hc (hl ▸ hi)
  rw [Finset.sum_eq_single_of_mem (colStart h vars v + i) (by simpa using hlt) fun c hc' hne => ?_,
    prior_row hn hJ hk hv hc hl hi hlt, if_pos rfl]
  rw [prior_row hn hJ hk hv hc hl hi (by simpa using hc'), if_neg hne, zero_mul]

/-- The row of a relative measurement times a vector. -/
theorem relative_row {h : Heap V} {vars : List VRef} (hn : vars.Nodup) {facs : List (Factor ℝ V)} {J : SpMat ℝ}
    (hJ : Stacks h vars facs J) {k : Nat} {id : Int} {a b m : VRef} {n : Nat} {w : ℝ} (hk : facs[k]? = some (genericBetween id a b m n w))
    (hab : a ≠ b) (hm : VarLike.isConst (F := ℝ) (h m) = true) (ha : VarLike.size (F := ℝ) (h a) = n) (hb : VarLike.size (F := ℝ) (h b) = n)
    (hva : VarLike.isConst (F := ℝ) (h a) = false → a ∈ vars) (hvb : VarLike.isConst (F := ℝ) (h b) = false → b ∈ vars) {i : Nat}
    (hi : i < n) (x : Nat → ℝ) :
    ∑ c ∈ Finset.range (freeTotal h vars), J.coeff (rowStart facs k + i) c * x c =
      w * (columnPart h vars x b i - columnPart h vars x a i) := by
  obtain ⟨B, hB, hS⟩ := hJ.jacobian
  obtain ⟨e1, _⟩ := hB k _ hk
  simp only [genericBetween, Res.ok.injEq] at e1
  have hentry : ∀ c, c < freeTotal h vars → J.coeff (rowStart facs k + i) c =
      (if VarLike.isConst (F := ℝ) (h b) = false ∧ c = colStart h vars b + i then w else 0) -
      (if VarLike.isConst (F := ℝ) (h a) = false ∧ c = colStart h vars a + i then w else 0) := by
    intro c hc
    obtain ⟨q, hq, hqc, j, hj, rfl⟩ := exists_column h hn hc
    have hother : ∀ {p}, VarLike.size (F := ℝ) (h p) = n → (VarLike.isConst (F := ℝ) (h p) = false → p ∈ vars) → q ≠ p →
        (if VarLike.isConst (F := ℝ) (h p) = false ∧ colStart h vars q + j = colStart h vars p + i then w else 0) = 0 :=
      fun hs hv hne => if_neg fun ⟨h1, h2⟩ => hne (column_inj hq (hv h1) hqc h1 hj (hs ▸ hi) h2).1
    by_cases hqa : q = a
    · subst hqa
      rw [hother hb hvb hab, (hS k _ hk i hi).1 0 q (betweenBlock n (h q) (-w)) rfl hqc (by rw [← e1]; rfl) j hj]
      simp only [betweenBlock, hqc, Bool.false_eq_true, if_false, Mat.diag, zero_sub, true_and]
      by_cases hij : i = j
      · subst hij; simp
      · rw [if_neg hij, if_neg (by omega), neg_zero]
    · rw [hother ha hva hqa]
      by_cases hqb : q = b
      · subst hqb
        rw [(hS k _ hk i hi).1 1 q (betweenBlock n (h q) w) rfl hqc (by rw [← e1]; rfl) j hj]
        simp only [betweenBlock, hqc, Bool.false_eq_true, if_false, Mat.diag, sub_zero, true_and]
        exact if_congr ⟨fun e => by omega, fun e => by omega⟩ rfl rfl
      · have hqm : q ≠ m := fun e => by rw [e, hm] at hqc; cases hqc
        rw [hother hb hvb hqb, (hS k _ hk i hi).2 q hq hqc (by simp [genericBetween, hqa, hqb, hqm]) j hj, sub_zero]
  have hsum : ∀ p, VarLike.size (F := ℝ) (h p) = n → (VarLike.isConst (F := ℝ) (h p) = false → p ∈ vars) →
      ∑ c ∈ Finset.range (freeTotal h vars),
        (if VarLike.isConst (F := ℝ) (h p) = false ∧ c = colStart h vars p + i then w else 0) * x c = w * columnPart h vars x p i := by
    intro p hs hv
    cases hc : VarLike.isConst (F := ℝ) (h p) with
    | true => simp [columnPart, hc]
    | false =>
      have hlt := column_lt (hv hc) hc (hs ▸ hi)
      simp only [true_and, columnPart, hc, Bool.false_eq_true, if_false]
      rw [Finset.sum_eq_single_of_mem (colStart h vars p + i) (by simpa using hlt) fun c _ hne => by rw [if_neg hne, zero_mul], if_pos rfl]
  rw [mul_sub, ← hsum b hb hvb, ← hsum a ha hva, ← Finset.sum_sub_distrib]
  refine Finset.sum_congr rfl fun c hc => ?_
  rw [hentry c (by simpa using hc), sub_mul]

/-- Without rounding, the matrix of a Gauss-Newton step can be factorised exactly if the problem is determined. -/
theorem factorizes_iff {Fact : Type} {L : LinAlg ℝ Fact} (hL : ExactLinAlg L) (J : SpMat ℝ) :
    (∃ F, L.factorize (L.gram J) = some F) ↔ ¬ Props.Undetermined J := by
  constructor
  · rintro ⟨F, hF⟩ hu
    rw [hu.refused hL] at hF
    cases hF
  · intro hu
    have e := hL.gram_size J
    refine hL.succeeds _ (e.2.trans e.1.symm) ?_
    rw [e.1, hL.gram]
    refine PosDef.conjTranspose_mul_self (jacobianMatrix J) fun a b hab => ?_
    refine Classical.byContradiction fun hne => hu ⟨a - b, sub_ne_zero.2 hne, ?_⟩
    rw [mulVec_sub, sub_eq_zero]
    exact hab

end Factorama
