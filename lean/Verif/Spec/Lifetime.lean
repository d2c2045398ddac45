import Verif.Model.Lifetime

/-!
# Specification vocabulary: lifetimes
-/

namespace Factorama.Spec
open Opt Life
variable {F V : Type}

/-- The same program without giving up any handle. -/
def withoutDrops : List (Action F V) → List (Action F V)
  | [] => []
  | .call env c :: as => .call env c :: withoutDrops as
  | .drop _ :: as => withoutDrops as

/-- The call is made on, or with, the variable at this address. -/
def names (r : VRef) : Call F V → Prop
  | .user (.addVariable p) => p = some r
  | .user (.setConstant r' _) => r' = r
  | .user (.setValue r' _) => r' = r
  | .user (.incrOne r' _) => r' = r
  | _ => False

/-- A variable is not named after the program has given up its handle. -/
def NotNamedLater (prog : List (Action F V)) : Prop :=
  ∀ pre r post env c, prog = pre ++ .drop r :: post → .call env c ∈ post → ¬ names r c

/-- The program offers a factor that uses the variable at this address to the graph. -/
def FactorUses (prog : List (Action F V)) (r : VRef) : Prop :=
  ∃ env f, .call env (.user (.addFactor (some f))) ∈ prog ∧ some r ∈ f.variables

/-- A factor looks at its own variables only. -/
def LooksAtOwn (f : Factor F V) : Prop :=
  ∀ h h' : Heap V, (∀ r, some r ∈ f.variables → h' r = h r) →
    f.computeResidual h' = f.computeResidual h ∧ ∀ buf, f.computeJacobians h' buf = f.computeJacobians h buf

variable {Fact : Type} [Zero F] [VarLike F V]

/-- Each time a handle is given up, the variable is in the graph, or it is used by no factor of the program and not named
later. -/
def SafeDrops (A : Arith F) (L : LinAlg F Fact) (junk : VRef → V) (s : OptWorld F V Fact) (prog : List (Action F V)) : Prop :=
  ∀ pre r post, prog = pre ++ .drop r :: post →
    r ∈ (run A L junk pre s).1.graph.getAllVariables ∨
    (¬ FactorUses prog r ∧ ∀ env c, .call env c ∈ post → ¬ names r c)

end Factorama.Spec
