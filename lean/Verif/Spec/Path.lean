import Verif.Spec.Steps
import Mathlib.Data.Real.Basic
import Mathlib.Algebra.BigOperators.Group.Finset.Basic

/-!
# Specification: paths of direct and relative measurements

A direct measurement tells the components in `C` of one variable, a relative measurement the difference of these components of two
variables, both with the standard deviation `σ`. A path leads from a direct measurement or from a constant variable over relative
measurements to a variable.
-/

namespace Factorama.Spec
variable {V : Type} [VarLike ℝ V]

/-- Row `i` of the block is `w` times the unit row vector `i`. -/
def UnitRow (M : Mat ℝ) (n i : Nat) (w : ℝ) : Prop := ∀ j, j < n → M.entry i j = if j = i then w else 0

/-- A factor that measures the components in `C` of variable `v` with standard deviation `σ`. -/
structure Direct (h : Heap V) (C : Finset Nat) (f : Factor ℝ V) (v : VRef) (σ : ℝ) : Prop where
  «variables» : f.variables = [some v]
  row : ∀ i ∈ C, i < f.residualSize
  block : ∀ js, f.computeJacobians h [] = .ok js → VarLike.isConst (h v) = false → ∀ i ∈ C,
    UnitRow (js.getD 0 Mat.empty) (VarLike.size (h v)) i (1 / σ)

/-- A factor that measures the difference of the components in `C` of the variables `b` and `a` with standard deviation `σ`; the
measured value is in the variable `m`. -/
structure Relative (h : Heap V) (C : Finset Nat) (f : Factor ℝ V) (a b m : VRef) (σ : ℝ) : Prop where
  «variables» : f.variables = [some a, some b, some m]
  row : ∀ i ∈ C, i < f.residualSize
  blockA : ∀ js, f.computeJacobians h [] = .ok js → VarLike.isConst (h a) = false → ∀ i ∈ C,
    UnitRow (js.getD 0 Mat.empty) (VarLike.size (h a)) i (-(1 / σ))
  blockB : ∀ js, f.computeJacobians h [] = .ok js → VarLike.isConst (h b) = false → ∀ i ∈ C,
    UnitRow (js.getD 1 Mat.empty) (VarLike.size (h b)) i (1 / σ)

/-- `Path h C facs v ks s`: a path to `v` that uses the factors at the places `ks` of the list, each once, and on which the squares
of the standard deviations add up to `s`. -/
inductive Path (h : Heap V) (C : Finset Nat) (facs : List (Factor ℝ V)) : VRef → List Nat → ℝ → Prop where
  /-- A constant variable is known exactly. -/
  | fixed {v : VRef} : VarLike.isConst (h v) = true → Path h C facs v [] 0
  /-- A direct measurement. -/
  | direct {v : VRef} {k : Nat} {f : Factor ℝ V} {σ : ℝ} : facs[k]? = some f → Direct h C f v σ → σ ≠ 0 →
      VarLike.isConst (h v) = false → Path h C facs v [k] (σ ^ 2)
  /-- A relative measurement from `a` to `b`, in the direction of the path. -/
  | forward {a b m : VRef} {ks : List Nat} {s : ℝ} {k : Nat} {f : Factor ℝ V} {σ : ℝ} : Path h C facs a ks s → facs[k]? = some f →
      Relative h C f a b m σ → σ ≠ 0 → VarLike.isConst (h m) = true → VarLike.isConst (h b) = false → k ∉ ks →
      Path h C facs b (k :: ks) (s + σ ^ 2)
  /-- A relative measurement from `a` to `b`, against the direction of the path. -/
  | backward {a b m : VRef} {ks : List Nat} {s : ℝ} {k : Nat} {f : Factor ℝ V} {σ : ℝ} : Path h C facs b ks s → facs[k]? = some f →
      Relative h C f a b m σ → σ ≠ 0 → VarLike.isConst (h m) = true → VarLike.isConst (h a) = false → k ∉ ks →
      Path h C facs a (k :: ks) (s + σ ^ 2)

end Factorama.Spec
