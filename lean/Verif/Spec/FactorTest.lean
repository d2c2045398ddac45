import Verif.Model.Base

/-!
# Notions used to specify numerical Jacobians
-/

namespace Factorama.Spec
variable {F V : Type} [VarLike F V]

/-- The residual of `f` after `apply_increment(dx)` on the variable `r`. -/
def residualAfterIncr (f : Factor F V) (h : Heap V) (r : VRef) (dx : List F) : Res (List F) :=
  match VarLike.applyIncr (h r) dx with
  | .ok v => f.computeResidual (h.set r v)
  | .threw => .threw
  | .ub => .ub

/-- After any increment, writing back the earlier value restores the variable completely. -/
def WritesBack (v : V) : Prop :=
  ∀ dx v', VarLike.applyIncr v dx = .ok v' → VarLike.setValue v' (VarLike.value v) = .ok v

/-- All variables of the factor that are not constant write back exactly. -/
def AllWriteBack (f : Factor F V) (h : Heap V) : Prop :=
  ∀ r, some r ∈ f.variables → VarLike.isConst (h r) = false → WritesBack (h r)

end Factorama.Spec
