import Verif.Spec.Units

/-!
# Specification: measurements that are given several times
-/

namespace Factorama.Spec

/-- Every factor of `facs'` repeats one of `facs` with another precision, such that for each factor of `facs` the squares of
the relative precisions add up to one. For instance one factor with standard deviation `σ` and `n` factors with standard
deviation `σ √n`; in general, standard deviations `σ₁, σ₂, …` in place of `σ` where `1/σ² = 1/σ₁² + 1/σ₂² + …`. The order of
the factors does not matter. -/
def Repeats {V : Type} (facs facs' : List (Factor ℝ V)) : Prop :=
  ∃ (of : Fin facs'.length → Fin facs.length) (c : Fin facs'.length → ℝ),
    (∀ k, Rescaled (c k) facs[of k] facs'[k]) ∧ ∀ k, ∑ k' with of k' = k, c k' ^ 2 = 1

/-- The products `Jᵀ J` and `Jᵀ r` are computed exactly: they are the same whenever the sums over the rows are. -/
structure ExactProducts {Fact : Type} (L : LinAlg ℝ Fact) : Prop where
  gram : ∀ J J', J.columns.length = J'.columns.length → (∀ a b, a < J.columns.length → b < J.columns.length →
    ∑ i ∈ Finset.range J.rows, J.coeff i a * J.coeff i b = ∑ i ∈ Finset.range J'.rows, J'.coeff i a * J'.coeff i b) →
    L.gram J = L.gram J'
  rhs : ∀ J J' r r', J.columns.length = J'.columns.length → (∀ a, a < J.columns.length →
    ∑ i ∈ Finset.range J.rows, J.coeff i a * r.getD i 0 = ∑ i ∈ Finset.range J'.rows, J'.coeff i a * r'.getD i 0) →
    L.rhs J r = L.rhs J' r'

end Factorama.Spec
