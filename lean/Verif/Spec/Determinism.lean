import Verif.Spec.Optimizer

/-!
# Specification vocabulary: programs and their undetermined choices
-/

namespace Factorama.Spec
variable {F V : Type}

/-- Calls that evaluate factors: the residual and Jacobian computations, and `optimize()`. -/
def evaluates : Opt.Call F V → Prop
  | .user .residual => True
  | .user (.residualInto _) => True
  | .user .dense => True
  | .user .denseAndResidual => True
  | .user .sparse => True
  | .optimize => True
  | _ => False

/-- Calls that change the structure of the problem: variables, factors, which variables are constant; and
`finalize_structure()`. -/
def changesStructure : Opt.Call F V → Prop
  | .user (.addVariable _) => True
  | .user (.addFactor _) => True
  | .user (.setConstant _ _) => True
  | .user .finalize => True
  | _ => False

/-- No `finalize_structure()` has returned in this history. -/
def NeverFinalized (evs : List (Opt.Call F V × Res Unit)) : Prop := (.user .finalize, .ok ()) ∉ evs

/-- A `finalize_structure()` has returned in this history and the structure was not changed after it. -/
def StructureCurrent (evs : List (Opt.Call F V × Res Unit)) : Prop :=
  ∃ pre post, evs = pre ++ (.user .finalize, .ok ()) :: post ∧ ∀ ev ∈ post, ¬ changesStructure ev.1

/-- Factors are evaluated only when the finalized structure is the current one, or before the first finalization (when
evaluations are refused). -/
def EvaluatesCurrent (evs : List (Opt.Call F V × Res Unit)) : Prop :=
  ∀ pre c r post, evs = pre ++ (c, r) :: post → evaluates c → NeverFinalized pre ∨ StructureCurrent pre

end Factorama.Spec
