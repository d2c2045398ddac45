import Verif.Spec.Affine
import Verif.Spec.Correspond
import Mathlib.MeasureTheory.Integral.Bochner.Basic

/-!
# Specification: the same measurements with other measured values
-/

namespace Factorama.Spec
variable {V Fact : Type} [VarLike ℝ V]

/-- A factor on the same variables with the same constant Jacobian blocks: the measured values may differ. -/
def SameMeasurement (h h' : Heap V) (f f' : Factor ℝ V) : Prop :=
  f'.variables = f.variables ∧ f'.residualSize = f.residualSize ∧ ∃ B, AffineFactor h f B ∧ AffineFactor h' f' B

/-- Two linear problems that differ only in the values measured and in the start values: the same variables, and one by one the
same measurements. -/
structure SameDesign (s s' : OptWorld ℝ V Fact) : Prop where
  «variables» : s'.graph.getAllVariables = s.graph.getAllVariables
  shape : SameShape s.heap s'.heap
  count : s'.graph.getAllFactors.length = s.graph.getAllFactors.length
  factors : ∀ (k : Nat) (f f' : Factor ℝ V), s.graph.getAllFactors[k]? = some f → s'.graph.getAllFactors[k]? = some f' →
    SameMeasurement s.heap s'.heap f f'

open MeasureTheory in
/-- The first `m` entries of a random list are uncorrelated, with mean 0 and variance 1. -/
structure UnitNoise {Ω : Type} [MeasurableSpace Ω] (μ : Measure Ω) (m : Nat) (ε : Ω → List ℝ) : Prop where
  integrable : ∀ a, a < m → Integrable (fun ω => (ε ω).getD a 0) μ
  integrable_mul : ∀ a b, a < m → b < m → Integrable (fun ω => (ε ω).getD a 0 * (ε ω).getD b 0) μ
  mean : ∀ a, a < m → ∫ ω, (ε ω).getD a 0 ∂μ = 0
  covariance : ∀ a b, a < m → b < m → ∫ ω, (ε ω).getD a 0 * (ε ω).getD b 0 ∂μ = if a = b then 1 else 0

end Factorama.Spec
