import Verif.Model.Ldlt
import Verif.Spec.LinearAlgebra
import Mathlib.Algebra.BigOperators.Field
import Mathlib.Tactic.FieldSimp
import Mathlib.Tactic.Ring
import Mathlib.Tactic.LinearCombination
import Mathlib.LinearAlgebra.Matrix.NonsingularInverse
import Mathlib.LinearAlgebra.Matrix.ToLin
import Mathlib.LinearAlgebra.FiniteDimensional.Basic

/-!
# The reference `L D Lᵀ` back end is exact over the real numbers
-/

namespace Factorama.Ldlt
open Spec Matrix

/-- The rows of a matrix, as lists. -/
def rowLists {n : Nat} (M : Fin n → Fin n → ℝ) : List (List ℝ) := List.ofFn fun i => List.ofFn (M i)

theorem zipWith_ofFn {α β γ : Type} {n : Nat} (g : α → β → γ) (a : Fin n → α) (b : Fin n → β) :
    List.zipWith g (List.ofFn a) (List.ofFn b) = List.ofFn fun i => g (a i) (b i) := by
  apply List.ext_getElem <;> simp

theorem dot_ofFn {n : Nat} (a b : Fin n → ℝ) : dot (List.ofFn a) (List.ofFn b) = ∑ i, a i * b i := by
  induction n with
  | zero => simp [dot]
  | succ n ih => rw [List.ofFn_succ, List.ofFn_succ, dot, ih, Fin.sum_univ_succ]

theorem axpy_ofFn {n : Nat} (a b : Fin n → ℝ) (c : ℝ) : axpy (List.ofFn a) c (List.ofFn b) = List.ofFn fun i => a i - c * b i :=
  zipWith_ofFn _ _ _

/-- The Schur complement of the first entry. -/
noncomputable def schur {n : Nat} (M : Fin (n + 1) → Fin (n + 1) → ℝ) : Fin n → Fin n → ℝ :=
  fun i j => M i.succ j.succ - M i.succ 0 / M 0 0 * M 0 j.succ

theorem factorRows_succ {n : Nat} (M : Fin (n + 1) → Fin (n + 1) → ℝ) {f : Fact ℝ} :
    factorRows (n + 1) (rowLists M) = some f ↔ M 0 0 ≠ 0 ∧ ∃ f', factorRows n (rowLists (schur M)) = some f' ∧
      f = (M 0 0, List.ofFn fun i : Fin n => M i.succ 0 / M 0 0) :: f' := by
  have e : List.zipWith (fun r c => axpy r.tail c (List.ofFn fun j : Fin n => M 0 j.succ)) (List.ofFn fun i : Fin n => List.ofFn (M i.succ))
      ((List.ofFn fun i : Fin n => List.ofFn (M i.succ)).map fun r => r.headD 0 / M 0 0) = rowLists (schur M) := by
    rw [List.map_ofFn, zipWith_ofFn]
    unfold rowLists
    congr 1
    funext i
    simp only [Function.comp, List.ofFn_succ (f := M i.succ), List.tail_cons, List.headD_cons, axpy_ofFn]
    rfl
  have e2 : ((List.ofFn fun i : Fin n => List.ofFn (M i.succ)).map fun r => r.headD 0 / M 0 0) =
      List.ofFn fun i : Fin n => M i.succ 0 / M 0 0 := by
    rw [List.map_ofFn]
    congr 1
    funext i
    simp only [Function.comp, List.ofFn_succ (f := M i.succ), List.headD_cons]
  rw [rowLists, List.ofFn_succ, List.ofFn_succ, factorRows]
  split
  · rename_i h; simp [h]
  · rename_i h
    rw [e2] at e
    simp only [e2, e]
    constructor
    · intro hf
      split at hf
      · simp at hf
      · rename_i f' hf'
        exact ⟨h, f', hf', (Option.some.inj hf).symm⟩
    · rintro ⟨-, f', hf', rfl⟩
      rw [hf']

theorem schur_symm {n : Nat} {M : Fin (n + 1) → Fin (n + 1) → ℝ} (hs : ∀ i j, M i j = M j i) (i j : Fin n) :
    schur M i j = schur M j i := by
  simp only [schur]
  rw [hs i.succ j.succ, hs i.succ 0, hs j.succ 0]
  ring

/-- The solver solves. -/
theorem solve_correct {n : Nat} (M : Fin n → Fin n → ℝ) (hs : ∀ i j, M i j = M j i) {f : Fact ℝ}
    (hf : factorRows n (rowLists M) = some f) (b : Fin n → ℝ) :
    ∃ x : Fin n → ℝ, solveFact f (List.ofFn b) = some (List.ofFn x) ∧ ∀ i, ∑ j, M i j * x j = b i := by
  induction n generalizing f with
  | zero =>
    simp only [factorRows, Option.some.injEq] at hf
    subst hf
    exact ⟨Fin.elim0, by simp [solveFact], fun i => i.elim0⟩
  | succ n ih =>
    obtain ⟨hd, f', hf', rfl⟩ := (factorRows_succ M).1 hf
    set d := M 0 0
    obtain ⟨x, hx, hsol⟩ := ih (schur M) (schur_symm hs) hf' fun i => b i.succ - b 0 * (M i.succ 0 / d)
    refine ⟨Fin.cons (b 0 / d - ∑ i, M i.succ 0 / d * x i) x, ?_, ?_⟩
    · rw [List.ofFn_succ, solveFact, axpy_ofFn, hx]
      simp only [dot_ofFn]
      rw [List.ofFn_succ]
      simp
    · have hrow : ∑ i : Fin n, M i.succ 0 / d * x i = (∑ i : Fin n, M 0 i.succ * x i) / d := by
        rw [Finset.sum_div]
        exact Finset.sum_congr rfl fun i _ => by rw [hs i.succ 0]; ring
      intro i
      refine Fin.cases ?_ (fun i => ?_) i
      · rw [Fin.sum_univ_succ]
        simp only [Fin.cons_zero, Fin.cons_succ]
        rw [hrow]
        field_simp
        ring
      · rw [Fin.sum_univ_succ]
        simp only [Fin.cons_zero, Fin.cons_succ]
        have h := hsol i
        have e : ∑ j, schur M i j * x j = ∑ j : Fin n, M i.succ j.succ * x j - M i.succ 0 / d * ∑ j : Fin n, M 0 j.succ * x j := by
          rw [Finset.mul_sum, ← Finset.sum_sub_distrib]
          exact Finset.sum_congr rfl fun j _ => by simp only [schur]; ring
        rw [e] at h
        rw [hrow]
        linear_combination h

/-- A matrix that has been factorised is injective. -/
theorem factor_injective {n : Nat} (M : Fin n → Fin n → ℝ) {f : Fact ℝ} (hf : factorRows n (rowLists M) = some f)
    (x : Fin n → ℝ) (hx : ∀ i, ∑ j, M i j * x j = 0) : x = 0 := by
  induction n generalizing f with
  | zero => funext i; exact i.elim0
  | succ n ih =>
    obtain ⟨hd, f', hf', rfl⟩ := (factorRows_succ M).1 hf
    have h0 := hx 0
    rw [Fin.sum_univ_succ] at h0
    have htail : (fun i : Fin n => x i.succ) = 0 := by
      refine ih (schur M) hf' _ fun i => ?_
      have h := hx i.succ
      rw [Fin.sum_univ_succ] at h
      have e : ∑ j, schur M i j * x j.succ = ∑ j : Fin n, M i.succ j.succ * x j.succ - M i.succ 0 / M 0 0 * ∑ j : Fin n, M 0 j.succ * x j.succ := by
        rw [Finset.mul_sum, ← Finset.sum_sub_distrib]
        exact Finset.sum_congr rfl fun j _ => by simp only [schur]; ring
      rw [e]
      have h1 : ∑ j : Fin n, M 0 j.succ * x j.succ = -(M 0 0 * x 0) := by linarith
      rw [h1]
      field_simp
      linarith
    have h1 : ∀ i : Fin n, x i.succ = 0 := fun i => congrFun htail i
    simp only [h1, mul_zero, Finset.sum_const_zero, add_zero] at h0
    funext i
    refine Fin.cases ?_ (fun i => h1 i) i
    exact (mul_eq_zero.1 h0).resolve_left hd

/-- Positive definite matrices are factorised. -/
theorem factor_posDef {n : Nat} (M : Fin n → Fin n → ℝ) (hs : ∀ i j, M i j = M j i)
    (hpos : ∀ x : Fin n → ℝ, x ≠ 0 → 0 < ∑ i, x i * ∑ j, M i j * x j) : ∃ f, factorRows n (rowLists M) = some f := by
  induction n with
  | zero => exact ⟨[], rfl⟩
  | succ n ih =>
    have hd : 0 < M 0 0 := by
      have := hpos (Pi.single 0 1) (by simp)
      simpa [Pi.single_apply, Finset.sum_ite_eq'] using this
    obtain ⟨f', hf'⟩ := ih (schur M) (schur_symm hs) (fun x hx => by
      have hne : (Fin.cons (-(∑ j : Fin n, M 0 j.succ * x j) / M 0 0) x : Fin (n + 1) → ℝ) ≠ 0 := by
        intro e
        apply hx
        funext i
        have := congrFun e i.succ
        simpa using this
      have := hpos _ hne
      rw [Fin.sum_univ_succ] at this
      simp only [Fin.cons_zero, Fin.cons_succ, Fin.sum_univ_succ (n := n)] at this
      refine lt_of_lt_of_eq this ?_
      set s := ∑ j : Fin n, M 0 j.succ * x j with hsdef
      have h0 : M 0 0 * (-s / M 0 0) + s = 0 := by field_simp; ring
      rw [h0, mul_zero, zero_add]
      refine Finset.sum_congr rfl fun i _ => ?_
      have e : ∑ j, schur M i j * x j = ∑ j : Fin n, M i.succ j.succ * x j - M i.succ 0 / M 0 0 * s := by
        rw [hsdef, Finset.mul_sum, ← Finset.sum_sub_distrib]
        exact Finset.sum_congr rfl fun j _ => by simp only [schur]; ring
      rw [e]
      ring)
    exact ⟨_, (factorRows_succ M).2 ⟨hd.ne', f', hf', rfl⟩⟩

theorem factor_length {n : Nat} {rows : List (List ℝ)} {f : Fact ℝ} (hf : factorRows n rows = some f) : f.length = n := by
  induction n generalizing rows f with
  | zero => simp only [factorRows, Option.some.injEq] at hf; subst hf; rfl
  | succ n ih =>
    unfold factorRows at hf
    split at hf
    · split at hf
      · simp at hf
      · simp only at hf
        split at hf
        · simp at hf
        · rename_i f' h'
          obtain rfl := Option.some.inj hf
          simp [ih h']
    · simp at hf

theorem sumTo_eq (n : Nat) (g : Nat → ℝ) : sumTo n g = ∑ i : Fin n, g i := by
  rw [Fin.sum_univ_eq_sum_range g n]
  unfold sumTo
  induction n with
  | zero => simp
  | succ n ih =>
    rw [Finset.sum_range_succ, ← ih, List.range_succ, List.map_append, List.foldr_append]
    have : ∀ (l : List ℝ) (a : ℝ), l.foldr (· + ·) a = l.foldr (· + ·) 0 + a := by
      intro l a
      induction l with
      | nil => simp
      | cons b l ih => simp [ih, add_assoc]
    rw [this]
    simp

theorem rowsOf_eq (H : Mat ℝ) (hc : H.cols = H.rows) : rowsOf H = rowLists (square H.rows H) := by
  unfold rowsOf rowLists
  rw [hc]
  apply List.ext_getElem (by simp)
  intro i h1 h2
  simp only [List.getElem_map, List.getElem_range, List.getElem_ofFn]
  apply List.ext_getElem (by simp)
  intro j h3 h4
  simp [square]

theorem ofFn_asVec {n : Nat} {x : List ℝ} (h : x.length = n) : List.ofFn (asVec n x) = x := by
  subst h
  apply List.ext_getElem (by simp)
  intro i h1 h2
  simp [asVec, List.getD_eq_getElem?_getD, List.getElem?_eq_getElem h2]

theorem asVec_ofFn {n : Nat} (x : Fin n → ℝ) : asVec n (List.ofFn x) = x := by
  funext i
  simp [asVec, List.getD_eq_getElem?_getD]

/-- **The reference back end is exact over the reals.** -/
theorem exact : ExactLinAlg (linAlg : LinAlg ℝ (Fact ℝ)) where
  gram_size _ := ⟨rfl, rfl⟩
  gram J := by
    ext i j
    simp [square, linAlg, gram, sumTo_eq, jacobianMatrix, Matrix.mul_apply]
  rhs_size J r := by simp [linAlg, rhs]
  rhs J r := by
    funext i
    simp [asVec, linAlg, rhs, sumTo_eq, jacobianMatrix, Matrix.mulVec, dotProduct, List.getD_eq_getElem?_getD]
  diagonal H f hf := by simpa [linAlg] using factor_length hf
  solve H f b hc hs hf hb := by
    have hf' : factorRows H.rows (rowLists (square H.rows H)) = some f := by rw [← rowsOf_eq H hc]; exact hf
    obtain ⟨x, h1, h2⟩ := solve_correct _ (fun i j => hs.apply j i) hf' (asVec H.rows b)
    rw [ofFn_asVec hb] at h1
    refine ⟨List.ofFn x, h1, by simp, ?_⟩
    rw [asVec_ofFn]
    funext i
    exact h2 i
  invertible H f hc hs hf := by
    have hf' : factorRows H.rows (rowLists (square H.rows H)) = some f := by rw [← rowsOf_eq H hc]; exact hf
    rw [← Matrix.mulVec_injective_iff_isUnit]
    intro x y hxy
    have : x - y = 0 := factor_injective _ hf' _ fun i => by
      have := congrFun hxy i
      have h2 : (square H.rows H *ᵥ (x - y)) i = 0 := by
        rw [Matrix.mulVec_sub, Pi.sub_apply, this, sub_self]
      exact h2
    exact sub_eq_zero.1 this
  succeeds H hc hp := by
    have hs : (square H.rows H).IsSymm := by
      have := hp.isHermitian
      rwa [Matrix.IsHermitian, Matrix.conjTranspose_eq_transpose_of_trivial] at this
    obtain ⟨f, hf⟩ := factor_posDef (square H.rows H) (fun i j => hs.apply j i) (fun x hx => by
      have := hp.dotProduct_mulVec_pos hx
      simpa [dotProduct, Matrix.mulVec] using this)
    exact ⟨f, by show factorRows H.rows (rowsOf H) = some f; rw [rowsOf_eq H hc]; exact hf⟩

end Factorama.Ldlt
