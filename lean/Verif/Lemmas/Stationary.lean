import Verif.Spec.Stationary
import Verif.Lemmas.NormalEq
import Verif.Props.NoDrift
import Mathlib.Algebra.Order.BigOperators.Ring.Finset

/-!
# Lengths of vectors, and damped steps
-/

namespace Factorama
open Spec Graph Opt Matrix Props

section vectors
variable {m n : Nat}

theorem euclidean_nonneg (x : Fin n → ℝ) : 0 ≤ euclidean x := Real.sqrt_nonneg _

theorem euclidean_sq (x : Fin n → ℝ) : euclidean x ^ 2 = x ⬝ᵥ x := Real.sq_sqrt (sq_nonneg_dot x)

theorem dot_sq (x : Fin n → ℝ) : x ⬝ᵥ x = ∑ i, x i ^ 2 := by
  simp only [dotProduct, sq]

theorem dot_le_euclidean (x y : Fin n → ℝ) : x ⬝ᵥ y ≤ euclidean x * euclidean y := by
  rw [euclidean, euclidean, ← Real.sqrt_mul (sq_nonneg_dot x), dot_sq, dot_sq]
  exact Real.le_sqrt_of_sq_le (Finset.sum_mul_sq_le_sq_mul_sq _ _ _)

theorem euclidean_add (x y : Fin n → ℝ) : euclidean (x + y) ≤ euclidean x + euclidean y := by
  refine abs_le_of_sq_le_sq' ?_ (add_nonneg (euclidean_nonneg x) (euclidean_nonneg y)) |>.2
  rw [euclidean_sq, add_dotProduct, dotProduct_add, dotProduct_add, dotProduct_comm y x]
  have := dot_le_euclidean x y
  have h1 := euclidean_sq x
  have h2 := euclidean_sq y
  nlinarith

theorem euclidean_smul (c : ℝ) (x : Fin n → ℝ) : euclidean (c • x) = |c| * euclidean x := by
  rw [euclidean, euclidean, smul_dotProduct, dotProduct_smul, smul_eq_mul, smul_eq_mul, ← mul_assoc, ← sq,
    Real.sqrt_mul (sq_nonneg c), Real.sqrt_sq_eq_abs]

theorem euclidean_neg (x : Fin n → ℝ) : euclidean (-x) = euclidean x := by
  rw [euclidean, euclidean, neg_dotProduct, dotProduct_neg, neg_neg]

theorem euclidean_mulVec (M : Matrix (Fin m) (Fin n) ℝ) (x : Fin n → ℝ) : euclidean (M *ᵥ x) ≤ entrywise M * euclidean x := by
  have h0 : 0 ≤ ∑ i, ∑ j, M i j ^ 2 := Finset.sum_nonneg fun i _ => Finset.sum_nonneg fun j _ => sq_nonneg _
  have h : (M *ᵥ x) ⬝ᵥ (M *ᵥ x) ≤ (∑ i, ∑ j, M i j ^ 2) * (x ⬝ᵥ x) := by
    rw [dot_sq, dot_sq, Finset.sum_mul]
    exact Finset.sum_le_sum fun i _ => Finset.sum_mul_sq_le_sq_mul_sq Finset.univ (fun j => M i j) x
  exact (Real.sqrt_le_sqrt h).trans_eq (Real.sqrt_mul h0 _)

/-- The length of a multiple of a list. -/
theorem norm_scale (a : ℝ) (ha : 0 ≤ a) {d : List ℝ} (hl : d.length = n) :
    realArith.norm (realArith.scale a d) = a * euclidean (asVec n d) := by
  have h1 : (realArith.scale a d).length = n := by simp [Arith.scale, hl]
  show √(realArith.sqNorm _) = _
  rw [sqNorm_eq h1]
  have : asVec n (realArith.scale a d) = a • asVec n d := by
    funext i
    rw [show realArith.scale a d = d.map (fun x : ℝ => x * a) from rfl]
    simp only [asVec, List.getD_eq_getElem?_getD, List.getElem?_map, Pi.smul_apply, smul_eq_mul]
    cases d[(i : Nat)]? <;> simp [mul_comm]
  rw [this, ← euclidean, euclidean_smul, abs_of_nonneg ha]

end vectors

variable {V Fact : Type} [VarLike ℝ V] {L : LinAlg ℝ Fact}

/-- The damped step that was accepted, and the damping it leaves. -/
theorem trials_accepted {h : Heap V} {vars : List VRef} {facs : List (Factor ℝ V)} {r : List ℝ} {J : SpMat ℝ}
    {settings : Settings ℝ} (hup : 0 < settings.lambdaUp) (hmax : 0 < settings.maxLambda) {n : Nat} {lambda lambda' : ℝ}
    (hl : 0 < lambda) {o : Option (List ℝ × Heap V × List ℝ)}
    (ht : Trials realArith L settings h vars facs r J n lambda o lambda') {dx : List ℝ} {h' : Heap V} {r' : List ℝ}
    (ho : o = some (dx, h', r')) : ∃ l > 0, ∃ d,
      SystemSolved realArith L (damped realArith (L.gram J) l) (L.rhs J r) d ∧
      dx = realArith.scale settings.learningRate d ∧ Stepped h h' vars dx ∧ IsResidual h' facs r' ∧
      realArith.sqNorm r' < realArith.sqNorm r ∧ lambda' = max (l * settings.lambdaDown) (1 / 10 ^ 12) := by
  induction ht with
  | exhausted => cases ho
  | @accepted n lambda d r' h' e1 e2 e3 e4 =>
    cases ho
    refine ⟨lambda, hl, d, e1, rfl, e2, e3, ?_, ?_⟩
    · simp only [realArith, decide_eq_true_eq] at e4
      push_cast at e4
      simp only [realArith]
      linarith
    · unfold Arith.stdMax
      simp only [realArith]
      push_cast
      split
      · rename_i hn
        rw [max_eq_right (of_decide_eq_true hn).le]
      · rename_i hn
        rw [max_eq_left (not_lt.1 fun h => hn (decide_eq_true h))]
  | retry hf _ ih => exact ih (failed_positive hup hmax hl hf) ho
  | limit hf => cases ho

/-- A solved damped system. -/
theorem damped_solution (hL : ExactLinAlg L) {J : SpMat ℝ} {r : List ℝ} {l : ℝ} (hl : 0 < l) {d : List ℝ}
    (hd : SystemSolved realArith L (damped realArith (L.gram J) l) (L.rhs J r) d) : d.length = J.columns.length ∧
    ((jacobianMatrix J)ᵀ * jacobianMatrix J) *ᵥ asVec J.columns.length d + l • asVec J.columns.length d = -gradient J r := by
  obtain ⟨f, d', h1, h2, hlen, h3, _⟩ := C25_damped hL J r l hl
  obtain ⟨f', hf', _, _, hs⟩ := hd
  obtain rfl : f = f' := Option.some.inj (h1.symm.trans hf')
  obtain rfl : d' = d := Option.some.inj (h2.symm.trans hs)
  have := (h3 _).2 rfl
  rw [add_mulVec, smul_mulVec, one_mulVec] at this
  exact ⟨hlen, this⟩

end Factorama
