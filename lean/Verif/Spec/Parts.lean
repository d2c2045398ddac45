import Verif.Spec.Steps
import Verif.Spec.Lifetime

/-!
# Specification: independent parts of a graph
-/

namespace Factorama.Spec
variable {F V : Type} [VarLike F V]

/-- The factors `facs'` over the variables `vars'` are an independent part of a graph: the variables and factors are among
those of the graph, and the remaining factors mention no free variable of the part. -/
structure IndependentPart (x : Heap V) (vars : List VRef) (facs : List (Factor F V)) (vars' : List VRef)
    (facs' : List (Factor F V)) : Prop where
  variables : ∀ q ∈ vars', q ∈ vars
  factors : ∃ at_ : Fin facs'.length → Fin facs.length, Function.Injective at_ ∧ (∀ k, facs[at_ k] = facs'[k]) ∧
    ∀ k, (∀ k', at_ k' ≠ k) → ∀ q ∈ vars', VarLike.isConst (x q) = false → some q ∉ facs[k].variables

/-- The values of the variables of a part are the same, and of the constants its factors use. -/
def SamePart (vars : List VRef) (facs : List (Factor F V)) (x x' : Heap V) : Prop :=
  ∀ q, (q ∈ vars ∨ ∃ f ∈ facs, some q ∈ f.variables) → x' q = x q

end Factorama.Spec
