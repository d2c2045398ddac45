import Verif.Model.Factors
import Verif.Spec.Variables
import Mathlib.Analysis.Calculus.FDeriv.Basic

/-!
# What it means for a factor's Jacobian blocks to be correct
-/

namespace Factorama.Spec
open Matrix Geo Topology

/-- How a variable object reacts to an increment vector. -/
abbrev Increment := RVar → List ℝ → Res RVar

/-- The library's own `apply_increment`. -/
noncomputable def codeIncr : Increment := VarLike.applyIncr

/-- The rotation matrix of a rotation vector: rotation by its length about its direction. -/
noncomputable def rotationOf (w : V3) : M3 := rodrigues ((length w)⁻¹ • w) (length w)

/-- The documented increments, with exact rotations: positions are added, orientations are multiplied from the left by
the rotation of the increment. The other classes use `apply_increment`. -/
noncomputable def exactIncr : Increment
  | .pose v, dx =>
    if dx.length = 6 then
      .ok (.pose { v with
        pos := v.pos + read3 dx 0
        dcm := rotationOf (read3 dx 3) * v.dcm
        rot := logSO3 (rotationOf (read3 dx 3) * v.dcm) })
    else .threw
  | .rotation v, dx =>
    if dx.length = 3 then
      .ok (.rotation { v with
        dcm := rotationOf (read3 dx 0) * v.dcm
        vec := logSO3 (rotationOf (read3 dx 0) * v.dcm) })
    else .threw
  | v, dx => VarLike.applyIncr v dx

/-- The increments considered for a pose: the documented one at every pose, and `apply_increment` itself at poses whose
rotation angle is not extreme. (Near the identity `apply_increment` differs from the documented increment, see
`C37_false`.) -/
inductive PoseIncrement (v : PoseVar) : Increment → Prop
  | exact : PoseIncrement v exactIncr
  | code : Regular v.dcm → PoseIncrement v codeIncr

/-- The increments considered for every other variable: both. -/
inductive AnyIncrement : Increment → Prop
  | exact : AnyIncrement exactIncr
  | code : AnyIncrement codeIncr

/-- The residual of `f` after the variable `r` has received the increment `dx`. -/
def residualAfter (incr : Increment) (f : Factor ℝ RVar) (h : Heap RVar) (r : VRef) (dx : List ℝ) : Res (List ℝ) :=
  match incr (h r) dx with
  | .ok v => f.computeResidual (h.set r v)
  | .threw => .threw
  | .ub => .ub

/-- `J` has one row per residual entry and one column per entry of the variable's increment, and is the derivative of
the residual with respect to the increment of the variable `r`, at the current values of all variables. -/
def IsDerivative (incr : Increment) (f : Factor ℝ RVar) (h : Heap RVar) (r : VRef) (J : Mat ℝ) : Prop :=
  J.rows = f.residualSize ∧ J.cols = VarLike.size (h r) ∧
  ∃ F : (Fin J.cols → ℝ) → (Fin J.rows → ℝ),
    f.computeResidual h = .ok (List.ofFn (F 0)) ∧
    (∀ᶠ d in 𝓝 0, residualAfter incr f h r (List.ofFn d) = .ok (List.ofFn (F d))) ∧
    HasFDerivAt F (jac (Matrix.of fun i j => J.entry i j)) 0

/-- Whatever the output vector contained before, `compute_jacobians` returns one block per variable, in the order of
`variables()`: an empty one for a constant variable and otherwise the derivative of the residual. -/
def JacobiansCorrect (incr : Increment) (f : Factor ℝ RVar) (h : Heap RVar) : Prop :=
  ∀ old, ∃ Js, f.computeJacobians h old = .ok Js ∧
    List.Forall₂ (fun v J => ∃ r, v = some r ∧
      if VarLike.isConst (h r) then J = Mat.empty else IsDerivative incr f h r J) f.variables Js

/-- A variable whose value is a plain vector to which increments are added. -/
def IsVector {n : Nat} (v : RVar) (x : Fin n → ℝ) : Prop :=
  (∃ g, v = .generic g ∧ g.value = toList x) ∨ (n = 3 ∧ ∃ l, v = .landmark l ∧ l.value = toList x)

/-- The entries `i, …, i + n - 1` of the variable's value are `x`, and increments are added to them: any part of a plain
vector, part of the position of a pose, part of the position of a planar pose. -/
inductive HasPart {n : Nat} : RVar → Nat → (Fin n → ℝ) → Prop
  | vector {m v} {y : Fin m → ℝ} {i x} : IsVector v y → (hi : i + n ≤ m) → (∀ k : Fin n, y ⟨i + k, by omega⟩ = x k) →
      HasPart v i x
  | pose {v i x} : (hi : i + n ≤ 3) → (∀ k : Fin n, v.pos ⟨i + k, by omega⟩ = x k) → HasPart (.pose v) i x
  | pose2d {v i x} : (hi : i + n ≤ 2) → (∀ k : Fin n, v.pos ⟨i + k, by omega⟩ = x k) → HasPart (.pose2d v) i x

/-- The measured relative pose may be a plain 3-vector variable or a planar pose variable. -/
def MeasuredPose (v : RVar) (x : V3) : Prop :=
  IsVector v x ∨ ∃ q, v = .pose2d q ∧ q.pos = ![x 0, x 1] ∧ q.theta = x 2

/-- The variables of a coordinate transform factor: rotation `R`, origin `o`, scale `s` and the landmark in both frames. -/
structure TransformVars (h : Heap RVar) (rot org sc la lb : VRef) (v : RotationVar) (o : V3) (s : ℝ) (a b : V3) : Prop where
  rot : h rot = .rotation v
  org : ∃ g, h org = .generic g ∧ g.value = toList o
  sc : ∃ g, h sc = .generic g ∧ g.value = [s]
  la : ∃ l, h la = .landmark l ∧ l.value = toList a
  lb : ∃ l, h lb = .landmark l ∧ l.value = toList b

/-- The residual of `f` is the vector `x`. -/
def ResidualIs {n : Nat} (f : Factor ℝ RVar) (h : Heap RVar) (x : Fin n → ℝ) : Prop :=
  f.computeResidual h = .ok (List.ofFn x)

/-- The residual of `f` has the documented size and is zero. -/
def ZeroResidual (f : Factor ℝ RVar) (h : Heap RVar) : Prop :=
  f.computeResidual h = .ok (List.replicate f.residualSize 0)

end Factorama.Spec
