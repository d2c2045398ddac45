import Verif.Spec.Steps
import Mathlib.Data.Real.Basic
import Mathlib.Algebra.BigOperators.Group.Finset.Basic

/-!
# Specification of affine problems
-/

namespace Factorama.Spec
variable {V : Type} [VarLike ℝ V]

/-- Component `j` of the value of a variable. -/
noncomputable def component (v : V) (j : Nat) : ℝ := (VarLike.value (F := ℝ) v).getD j 0

/-- What the `p`-th variable of a factor contributes to row `i` of `J δ`: row `i` of its block times its part `δ r`, and
nothing for a constant variable. -/
noncomputable def contribution (h : Heap V) (f : Factor ℝ V) (B : List (Mat ℝ)) (delta : VRef → Nat → ℝ) (i p : Nat) : ℝ :=
  match f.variables[p]? with
  | some (some r) => if VarLike.isConst (h r) then 0 else
      ∑ j ∈ Finset.range (VarLike.size (h r)), (B.getD p Mat.empty).entry i j * delta r j
  | _ => 0

/-- The residual of the factor is an affine function of the values of its free variables, with the blocks `B`, which the
factor reports everywhere, as coefficients. -/
structure AffineFactor (h0 : Heap V) (f : Factor ℝ V) (B : List (Mat ℝ)) : Prop where
  jacobian : ∀ h, SameShape h0 h → ∀ js, f.computeJacobians h [] = .ok js → js = B
  residual : ∀ h h' s s', SameShape h0 h → SameShape h0 h' →
    (∀ r, some r ∈ f.variables → VarLike.isConst (h0 r) = true → h' r = h r) →
    f.computeResidual h = .ok s → f.computeResidual h' = .ok s' → ∀ i, i < f.residualSize →
      s'.getD i 0 = s.getD i 0 + ∑ p ∈ Finset.range f.variables.length,
        contribution h0 f B (fun r j => component (h' r) j - component (h r) j) i p

/-- Increments of the free variables of the graph are additions to the components of the value. -/
def AdditiveIncrements (h0 : Heap V) (vars : List VRef) : Prop :=
  ∀ h, SameShape h0 h → ∀ r ∈ vars, VarLike.isConst (h0 r) = false → ∀ (x : List ℝ) (v' : V),
    VarLike.applyIncr (h r) x = .ok v' → ∀ j, j < VarLike.size (h0 r) → component v' j = component (h r) j + x.getD j 0

/-- `h'` is reachable from `h` by changing the values of free variables of the graph. -/
def SameButFree (h h' : Heap V) (vars : List VRef) : Prop :=
  SameShape h h' ∧ ∀ r, ¬ (r ∈ vars ∧ VarLike.isConst (h r) = false) → h' r = h r

end Factorama.Spec
