import Verif.Spec.Rounding
import Verif.Props.Optimizer
import Verif.Examples.ToyRounded
import Mathlib.Tactic.Linarith
import Mathlib.Tactic.Ring
import Mathlib.Tactic.Positivity

/-!
# C131: costs in floating-point arithmetic
-/

namespace Factorama.Props
open Opt Graph Spec

namespace C131

theorem sumOfSquares_nonneg (r : List ℝ) : 0 ≤ sumOfSquares r := by
  induction r with
  | nil => simp [sumOfSquares]
  | cons a r ih =>
    have : sumOfSquares (a :: r) = a ^ 2 + sumOfSquares r := by simp [sumOfSquares]
    rw [this]; positivity

theorem sumOfSquares_append (l l' : List ℝ) : sumOfSquares (l ++ l') = sumOfSquares l + sumOfSquares l' := by
  simp [sumOfSquares]

theorem sumOfSquares_perm {l l' : List ℝ} (h : l.Perm l') : sumOfSquares l = sumOfSquares l' :=
  (h.map _).sum_eq

/-- One more rounding of a number below a bound. -/
theorem up {ε δ x b : ℝ} {m n : ℕ} (h0 : 0 ≤ ε) (hδ : |δ| ≤ ε) (h1 : ε ≤ 1) (hb : 0 ≤ b) (hx : x ≤ (1 + ε) ^ m * b) (hmn : m + 1 ≤ n) :
    x * (1 + δ) ≤ (1 + ε) ^ n * b := by
  have hd := abs_le.1 hδ
  have h2 : x * (1 + δ) ≤ (1 + ε) ^ m * b * (1 + δ) := mul_le_mul_of_nonneg_right hx (by linarith)
  have hp : (0 : ℝ) ≤ (1 + ε) ^ m * b := by positivity
  have h3 : (1 + ε) ^ m * b * (1 + δ) ≤ (1 + ε) ^ m * b * (1 + ε) := mul_le_mul_of_nonneg_left (by linarith) hp
  have h4 : (1 + ε) ^ (m + 1) ≤ (1 + ε) ^ n := pow_le_pow_right₀ (by linarith) hmn
  calc x * (1 + δ) ≤ (1 + ε) ^ (m + 1) * b := by rw [pow_succ]; nlinarith
    _ ≤ _ := mul_le_mul_of_nonneg_right h4 hb

/-- One more rounding of a number above a bound. -/
theorem down {ε δ x b c : ℝ} {m n : ℕ} (h0 : 0 ≤ ε) (hδ : |δ| ≤ ε) (h1 : ε ≤ 1) (hb : 0 ≤ b) (hc : 0 ≤ c)
    (hx : (1 - ε) ^ m * b - (1 + ε) ^ m * c ≤ x) (hmn : m + 1 ≤ n) :
    (1 - ε) ^ n * b - (1 + ε) ^ n * c ≤ x * (1 + δ) := by
  have hd := abs_le.1 hδ
  have h2 : ((1 - ε) ^ m * b - (1 + ε) ^ m * c) * (1 + δ) ≤ x * (1 + δ) := mul_le_mul_of_nonneg_right hx (by linarith)
  have hp : (0 : ℝ) ≤ (1 - ε) ^ m * b := mul_nonneg (pow_nonneg (by linarith) _) hb
  have hq : (0 : ℝ) ≤ (1 + ε) ^ m * c := by positivity
  have h3 : (1 - ε) ^ m * b * (1 - ε) ≤ (1 - ε) ^ m * b * (1 + δ) := mul_le_mul_of_nonneg_left (by linarith) hp
  have h4 : (1 + ε) ^ m * c * (1 + δ) ≤ (1 + ε) ^ m * c * (1 + ε) := mul_le_mul_of_nonneg_left (by linarith) hq
  have h5 : (1 + ε) ^ (m + 1) * c ≤ (1 + ε) ^ n * c :=
    mul_le_mul_of_nonneg_right (pow_le_pow_right₀ (by linarith) hmn) hc
  have h6 : (1 - ε) ^ n * b ≤ (1 - ε) ^ (m + 1) * b :=
    mul_le_mul_of_nonneg_right (pow_le_pow_of_le_one (by linarith) (by linarith) hmn) hb
  rw [pow_succ] at h5 h6
  nlinarith

theorem grow_up {ε b : ℝ} {m n : ℕ} (h0 : 0 ≤ ε) (hb : 0 ≤ b) (hmn : m ≤ n) : (1 + ε) ^ m * b ≤ (1 + ε) ^ n * b :=
  mul_le_mul_of_nonneg_right (pow_le_pow_right₀ (by linarith) hmn) hb

theorem grow_down {ε b : ℝ} {m n : ℕ} (h0 : 0 ≤ ε) (h1 : ε ≤ 1) (hb : 0 ≤ b) (hmn : m ≤ n) :
    (1 - ε) ^ n * b ≤ (1 - ε) ^ m * b :=
  mul_le_mul_of_nonneg_right (pow_le_pow_of_le_one (by linarith) (by linarith) hmn) hb

end C131

/-- **C131**, sums: in whatever order the squares of `n` numbers are added, the result is the exact sum up to `n` roundings of the sum and
the underflows of the `n` products. -/
theorem C131_sum {ε η : ℝ} (hε : 0 ≤ ε) (hε1 : ε ≤ 1) (hη : 0 ≤ η) {r : List ℝ} {x : ℝ} (h : RoundedSquares ε η r x) :
    (1 - ε) ^ r.length * sumOfSquares r - (1 + ε) ^ r.length * (r.length * η) ≤ x ∧
      x ≤ (1 + ε) ^ r.length * (sumOfSquares r + r.length * η) := by
  induction h with
  | none => simp [sumOfSquares]
  | square a δ e hδ he =>
    have hd := abs_le.1 hδ
    have he' := abs_le.1 he
    have ha := sq_nonneg a
    simp only [sumOfSquares, List.map_cons, List.map_nil, List.sum_cons, List.sum_nil, List.length_cons, List.length_nil]
    norm_num
    constructor <;> nlinarith [mul_nonneg hε hη]
  | @add l l' l'' x y δ hx hy hl hl' hp hδ ihx ihy =>
    have h1 : 1 ≤ l.length := List.length_pos_iff.2 hl
    have h2 : 1 ≤ l'.length := List.length_pos_iff.2 hl'
    have hlen : l''.length = l.length + l'.length := by rw [hp.length_eq, List.length_append]
    have hsum : sumOfSquares l'' = sumOfSquares l + sumOfSquares l' := by
      rw [C131.sumOfSquares_perm hp, C131.sumOfSquares_append]
    have s1 := C131.sumOfSquares_nonneg l
    have s2 := C131.sumOfSquares_nonneg l'
    have hn1 : (0 : ℝ) ≤ l.length * η := by positivity
    have hn2 : (0 : ℝ) ≤ l'.length * η := by positivity
    have hm1 : l.length ≤ max l.length l'.length := le_max_left _ _
    have hm2 : l'.length ≤ max l.length l'.length := le_max_right _ _
    have hm : max l.length l'.length + 1 ≤ l''.length := by omega
    rw [hsum]
    have hc : ((l''.length : ℕ) : ℝ) * η = l.length * η + l'.length * η := by rw [hlen]; push_cast; ring
    rw [hc]
    constructor
    · refine C131.down hε hδ hε1 (add_nonneg s1 s2) (add_nonneg hn1 hn2) ?_ hm
      have g1 := C131.grow_down hε hε1 s1 hm1
      have g2 := C131.grow_down hε hε1 s2 hm2
      have g3 := C131.grow_up hε hn1 hm1
      have g4 := C131.grow_up hε hn2 hm2
      rw [mul_add, mul_add]
      linarith [ihx.1, ihy.1]
    · refine C131.up hε hδ hε1 (by linarith) ?_ hm
      have g1 := C131.grow_up hε (add_nonneg s1 hn1) hm1
      have g2 := C131.grow_up hε (add_nonneg s2 hn2) hm2
      calc x + y ≤ (1 + ε) ^ max l.length l'.length * (sumOfSquares l + l.length * η) +
            (1 + ε) ^ max l.length l'.length * (sumOfSquares l' + l'.length * η) := by linarith [ihx.2, ihy.2]
        _ = _ := by ring
  | @fused l l' x a δ e hx hl hp hδ he ih =>
    have he' := abs_le.1 he
    have hlen : l'.length = l.length + 1 := by rw [hp.length_eq, List.length_cons]
    have hsum : sumOfSquares l' = a ^ 2 + sumOfSquares l := by
      rw [C131.sumOfSquares_perm hp]; simp [sumOfSquares]
    have s1 := C131.sumOfSquares_nonneg l
    have ha := sq_nonneg a
    have hn : (0 : ℝ) ≤ l.length * η := by positivity
    have hc : ((l'.length : ℕ) : ℝ) * η = l.length * η + η := by rw [hlen]; push_cast; ring
    have hone : (1 : ℝ) ≤ (1 + ε) ^ l'.length := one_le_pow₀ (by linarith)
    have heη : η ≤ (1 + ε) ^ l'.length * η := le_mul_of_one_le_left hη hone
    rw [hsum, hc]
    constructor
    · have := C131.down (x := a ^ 2 + x) (b := a ^ 2 + sumOfSquares l) (c := l.length * η) (m := l.length) (n := l'.length) hε hδ hε1
        (add_nonneg ha s1) hn (by
          have : (1 - ε) ^ l.length * a ^ 2 ≤ a ^ 2 := mul_le_of_le_one_left ha (pow_le_one₀ (by linarith) (by linarith))
          rw [mul_add]; linarith [ih.1]) (by omega)
      rw [mul_add (_ ^ _) (_ * _) η]
      linarith
    · have := C131.up (x := a ^ 2 + x) (b := a ^ 2 + sumOfSquares l + l.length * η) (m := l.length) (n := l'.length) hε hδ hε1
        (by linarith) (by
          have : a ^ 2 ≤ (1 + ε) ^ l.length * a ^ 2 := le_mul_of_one_le_left ha (one_le_pow₀ (by linarith))
          rw [add_assoc, mul_add]; linarith [ih.2]) (by omega)
      rw [← add_assoc, mul_add (_ ^ _) (_ + _) η]
      linarith

/-- Two squares, the sum rounded up by one part in a thousand. -/
example : (1 - 1 / 1000) ^ 2 * sumOfSquares [3, 4] - (1 + 1 / 1000) ^ 2 * ((2 : ℕ) * 0) ≤ (25.025 : ℝ) ∧
    (25.025 : ℝ) ≤ (1 + 1 / 1000) ^ 2 * (sumOfSquares [3, 4] + (2 : ℕ) * 0) := by
  have h := RoundedSquares.add (ε := 1 / 1000) (η := 0) (1 / 1000) (.square 3 0 0 (by norm_num) (by norm_num))
    (.square 4 0 0 (by norm_num) (by norm_num)) (by simp) (by simp) (.refl _) (by norm_num)
  have := C131_sum (by norm_num) (by norm_num) le_rfl h
  norm_num at this ⊢
  exact this

variable {F V Fact : Type} [Zero F] [VarLike F V] [LawfulVar F V]

namespace C131

theorem exact {ε η : ℝ} (hε : 0 ≤ ε) (hη : 0 ≤ η) (r : List ℝ) : RoundedSquares ε η r (sumOfSquares r) := by
  induction r with
  | nil => exact .none
  | cons a r ih =>
    rcases r with _ | ⟨b, r⟩
    · have := RoundedSquares.square (ε := ε) (η := η) a 0 0 (by simpa) (by simpa)
      simpa [sumOfSquares] using this
    · have := RoundedSquares.fused a 0 0 ih (by simp) (.refl _) (by simpa) (by simpa)
      simpa [sumOfSquares] using this

theorem rough (r : List ℝ) : RoundedSquares (1 / 1000) 0 r (sumOfSquares r * (1001 / 1000)) := by
  rcases r with _ | ⟨a, _ | ⟨b, r⟩⟩
  · simpa [sumOfSquares] using RoundedSquares.none (ε := 1 / 1000) (η := 0)
  · have := RoundedSquares.square (ε := 1 / 1000) (η := 0) a (1 / 1000) 0 (by norm_num) (by norm_num)
    convert this using 1
    simp only [sumOfSquares, List.map_cons, List.map_nil, List.sum_cons, List.sum_nil]; ring
  · have := RoundedSquares.fused (ε := 1 / 1000) (η := 0) a (1 / 1000) 0 (exact (by norm_num) le_rfl (b :: r)) (by simp) (.refl _)
      (by norm_num) (by norm_num)
    convert this using 1
    simp only [sumOfSquares, List.map_cons, List.map_nil, List.sum_cons, List.sum_nil]; ring

theorem rat_sqNorm (r : List ℚ) : ((ToyOpt.rat.sqNorm r : ℚ) : ℝ) = sumOfSquares (r.map fun q : ℚ => (q : ℝ)) := by
  induction r with
  | nil => simp [ToyOpt.rat, sumOfSquares]
  | cons a r ih =>
    have : ToyOpt.rat.sqNorm (a :: r) = a * a + ToyOpt.rat.sqNorm r := rfl
    rw [this]
    push_cast
    rw [ih]
    simp [sumOfSquares]; ring

theorem rough_rounded : Rounded ToyOpt.rough (fun q : ℚ => (q : ℝ)) (1 / 1000) 0 where
  lt a b _ _ h := by
    have : a < b := of_decide_eq_true h
    exact_mod_cast this
  sqNorm r _ := by
    have : ToyOpt.rough.sqNorm r = ToyOpt.rat.sqNorm r * (1001 / 1000) := rfl
    rw [this]
    push_cast
    rw [rat_sqNorm]
    exact rough _

end C131

/-- **C131**, the reported cost: it is the sum of the squares of the residuals of the final values, up to one rounding for each
residual, unless it overflowed or a step threw. -/
theorem C131_reported_partial (A : Arith F) {val : F → ℝ} {ε η : ℝ} (hA : Rounded A val ε η) (hε : 0 ≤ ε) (hε1 : ε ≤ 1) (hη : 0 ≤ η)
    (L : LinAlg F Fact) (env : Env F V) (s : OptWorld F V Fact) {h0 : Heap V} {pre post : List (Op F V × Res Unit)}
    (hw : FinalizedAfter h0 pre post ⟨s.heap, s.graph⟩) (hg : s.opt.hasGraph = true) (hrest : Restorable s) (r0 : List F)
    (hr : (computeResidual env s.heap s.graph).2 = .ok r0) (hret : (optimize A L env s).2 = .ok ())
    (hst : (optimize A L env s).1.opt.stats.status ≠ .failed)
    (hfin : A.isFinite (optimize A L env s).1.opt.stats.chi2 = true) :
    ∃ r, IsResidual (optimize A L env s).1.heap s.graph.getAllFactors r ∧
      (1 - ε) ^ r.length * sumOfSquares (r.map val) - (1 + ε) ^ r.length * (r.length * η) ≤
        val (optimize A L env s).1.opt.stats.chi2 ∧
      val (optimize A L env s).1.opt.stats.chi2 ≤ (1 + ε) ^ r.length * (sumOfSquares (r.map val) + r.length * η) := by
  rcases C27_statistics_partial A L env s hw hg hrest r0 hr hret with ⟨r, h1, h2, _⟩ | h
  · refine ⟨r, h1, ?_⟩
    rw [h2] at hfin ⊢
    have := C131_sum hε hε1 hη (hA.sqNorm r hfin)
    rwa [List.length_map] at this
  · exact absurd h.1 hst

/-- A run in an arithmetic whose squared norms are too large by one part in a thousand: its cost is within `(1 ± 1/1000)⁴` of the
exact sum of the squares of the four residuals. -/
example : ∃ r, IsResidual ToyOpt.roughRun.1.heap ToyOpt.world.graph.getAllFactors r ∧
    (1 - 1 / 1000) ^ r.length * sumOfSquares (r.map fun q : ℚ => (q : ℝ)) - (1 + 1 / 1000) ^ r.length * (r.length * 0) ≤
      (ToyOpt.roughRun.1.opt.stats.chi2 : ℝ) ∧
    (ToyOpt.roughRun.1.opt.stats.chi2 : ℝ) ≤
      (1 + 1 / 1000) ^ r.length * (sumOfSquares (r.map fun q : ℚ => (q : ℝ)) + r.length * 0) :=
  C131_reported_partial ToyOpt.rough C131.rough_rounded (by norm_num) (by norm_num) le_rfl Ldlt.linAlg ToyOpt.env
    (ToyOpt.start ToyOpt.world ToyOpt.lm) ToyOpt.finalizedAfter rfl (toy_restorable _ _) _ ToyOpt.residual0 ToyOpt.roughRun_ok
    ToyOpt.roughRun_status rfl

/-- **C131**, never worse: a Levenberg-Marquardt run does not increase the exact sum of squares of the computed residuals by more than
the rounding errors of two costs, however many iterations it takes. -/
theorem C131_never_worse_partial (A : Arith F) (hO : CostOrder A) {val : F → ℝ} {ε η : ℝ} (hA : Rounded A val ε η) (hε : 0 ≤ ε) (hε1 : ε ≤ 1)
    (hη : 0 ≤ η) (L : LinAlg F Fact) (env : Env F V) (s : OptWorld F V Fact) {h0 : Heap V} {pre post : List (Op F V × Res Unit)}
    (hw : FinalizedAfter h0 pre post ⟨s.heap, s.graph⟩) (hg : s.opt.hasGraph = true)
    (hm : s.opt.settings.method = .levenbergMarquardt) (hrest : Restorable s) (r0 : List F)
    (hr : (computeResidual env s.heap s.graph).2 = .ok r0) (hret : (optimize A L env s).2 = .ok ())
    (hst : (optimize A L env s).1.opt.stats.status ≠ .failed) (hfin0 : A.isFinite (A.sqNorm r0) = true)
    (hfin : A.isFinite (optimize A L env s).1.opt.stats.chi2 = true) :
    ∃ r, IsResidual (optimize A L env s).1.heap s.graph.getAllFactors r ∧
      (1 - ε) ^ r.length * sumOfSquares (r.map val) - (1 + ε) ^ r.length * (r.length * η) ≤
        (1 + ε) ^ r0.length * (sumOfSquares (r0.map val) + r0.length * η) := by
  obtain ⟨r, h1, h2, _⟩ := C131_reported_partial A hA hε hε1 hη L env s hw hg hrest r0 hr hret hst hfin
  refine ⟨r, h1, h2.trans ?_⟩
  have h3 := (C131_sum hε hε1 hη (hA.sqNorm r0 hfin0)).2
  rw [List.length_map] at h3
  rcases (C18_never_worse_partial A hO L env s hw hg hm hrest r0 hr hret).1 with h4 | h4
  · rw [h4]; exact h3
  · exact (hA.lt _ _ hfin hfin0 h4).le.trans h3

example : ∃ r, IsResidual ToyOpt.roughRun.1.heap ToyOpt.world.graph.getAllFactors r ∧
    (1 - 1 / 1000) ^ r.length * sumOfSquares (r.map fun q : ℚ => (q : ℝ)) - (1 + 1 / 1000) ^ r.length * (r.length * 0) ≤
      (1 + 1 / 1000) ^ 4 * (sumOfSquares ([2, 6, -12, -21].map fun q : ℚ => (q : ℝ)) + (4 : ℕ) * 0) :=
  C131_never_worse_partial ToyOpt.rough ToyOpt.rough_costOrder C131.rough_rounded (by norm_num) (by norm_num) le_rfl Ldlt.linAlg ToyOpt.env
    (ToyOpt.start ToyOpt.world ToyOpt.lm) ToyOpt.finalizedAfter rfl rfl (toy_restorable _ _) _ ToyOpt.residual0 ToyOpt.roughRun_ok
    ToyOpt.roughRun_status rfl rfl

end Factorama.Props
