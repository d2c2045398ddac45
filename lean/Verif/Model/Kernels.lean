import Verif.Model.Factors

/-!
# Robust kernels (src/factorama/kernels.hpp) and `Factor::SetKernel`
-/

namespace Factorama
open Matrix Geo

/-- The virtual interface `ResidualKernel`, kernels.hpp:10-24. Kernel objects have no state that changes. -/
structure Kernel where
  /-- `apply_to_residual` -/
  onResidual : {n : Nat} → (Fin n → ℝ) → Fin n → ℝ
  /-- `apply_to_jacobians` -/
  onJacobians : {n : Nat} → (Fin n → ℝ) → List (Mat ℝ) → Res (List (Mat ℝ))

namespace Huber

/-- `HuberKernel::apply_to_residual`, kernels.hpp:41-48. For a negative `delta` the code computes NaN; the real square
root gives 0 there. -/
noncomputable def residual (delta : ℝ) {n : Nat} (r : Fin n → ℝ) : Fin n → ℝ :=
  if vnorm r ≤ delta then r else √(delta / vnorm r) • r

/-- The new value of one block, kernels.hpp:61-63; a block whose number of rows is not the size of the residual fails
an `eigen_assert` in `residual.transpose() * jac`. -/
noncomputable def jacobian (delta : ℝ) {n : Nat} (r : Fin n → ℝ) (J : Mat ℝ) : Res (Mat ℝ) :=
  if J.rows = n then
    .ok ⟨J.rows, J.cols, fun i j =>
      √(delta / vnorm r) * J.entry i j
        + -0.5 * delta / (vnorm r * vnorm r * vnorm r) * (if h : i < n then r ⟨i, h⟩ else 0) *
          ∑ k : Fin n, r k * J.entry k j⟩
  else .ub

/-- The loop `for (auto& jac : jacobians)`, kernels.hpp:61-63. -/
noncomputable def jacobianLoop (delta : ℝ) {n : Nat} (r : Fin n → ℝ) : List (Mat ℝ) → Res (List (Mat ℝ))
  | [] => .ok []
  | J :: Js => (jacobian delta r J).andThen fun J' => (jacobianLoop delta r Js).andThen fun Js' => .ok (J' :: Js')

/-- `HuberKernel::apply_to_jacobians`, kernels.hpp:50-64. -/
noncomputable def jacobians (delta : ℝ) {n : Nat} (r : Fin n → ℝ) (Js : List (Mat ℝ)) : Res (List (Mat ℝ)) :=
  if vnorm r ≤ delta ∨ vnorm r < 1e-12 then .ok Js else jacobianLoop delta r Js

end Huber

/-- `class HuberKernel`, kernels.hpp:30-67. -/
noncomputable def huberKernel (delta : ℝ) : Kernel where
  onResidual r := Huber.residual delta r
  onJacobians r Js := Huber.jacobians delta r Js

/-- A factor object together with the member `kernel_` (base_types.hpp:231) of its base class. -/
structure FactorObject where
  factor : Factor ℝ RVar
  kernel : Option Kernel

namespace FactorObject

/-- A newly constructed object, base_types.hpp:231. -/
def new (f : Factor ℝ RVar) : FactorObject := ⟨f, none⟩

/-- `SetKernel`, base_types.hpp:195. -/
def setKernel (o : FactorObject) (k : Option Kernel) : FactorObject := { o with kernel := k }

/-- What the graph sees of the object: its virtual functions. No implementation of `compute_residual` or
`compute_jacobians` and no other code reads `kernel_`; the functions that would are only sketched in a comment
(kernels.hpp:69-91). -/
def interface (o : FactorObject) : Factor ℝ RVar := o.factor

end FactorObject

end Factorama
