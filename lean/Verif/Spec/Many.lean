import Verif.Model.Many
import Verif.Spec.Lifetime
import Verif.Spec.Determinism

/-!
# Specification vocabulary: several graphs and optimizers
-/

namespace Factorama.Spec
open Many
variable {F V Fact : Type}

/-- Some of the graphs, optimizers and variables of a program. -/
structure Side where
  graphs : GRef → Bool
  opts : ORef → Bool
  objects : VRef → Bool

/-- The others. -/
def Side.rest (S : Side) : Side := ⟨fun g => !S.graphs g, fun o => !S.opts o, fun r => !S.objects r⟩

/-- The graph or optimizer on which the call is made is on this side. (The graph given for a call on a variable is irrelevant
for what the call does, so it can be chosen to be on the side of the variable.) -/
def Side.has (S : Side) : Many.Action F V → Bool
  | .graph _ g _ => S.graphs g
  | .setup o _ _ => S.opts o
  | .optimize _ o => S.opts o
  | .prepare _ o => S.opts o

/-- The call is made on this side and with arguments on this side: variables, factors that look at their own variables only,
graphs for an optimizer. -/
def Side.Within (S : Side) : Many.Action F V → Prop
  | .graph _ g op => S.graphs g = true ∧ (∀ r, names r (.user op : Opt.Call F V) → S.objects r = true) ∧
      ∀ f, op = .addFactor (some f) → (∀ r, some r ∈ f.variables → S.objects r = true) ∧ LooksAtOwn f
  | .setup o g _ => S.opts o = true ∧ ∀ k, g = some k → S.graphs k = true
  | .optimize _ o => S.opts o = true
  | .prepare _ o => S.opts o = true

/-- Two states have the same graphs, optimizers and variables on this side. -/
structure Side.Same (S : Side) (s t : State F V Fact) : Prop where
  heap : ∀ r, S.objects r = true → t.heap r = s.heap r
  graphs : ∀ g, S.graphs g = true → t.graphs g = s.graphs g
  opts : ∀ o, S.opts o = true → t.opts o = s.opts o
  target : ∀ o, S.opts o = true → t.target o = s.target o

/-- The call is not made on the optimizer at `o`, and it neither changes the structure of the graph at `g` nor which variables
are constant. Other optimizers may work on that graph. -/
def Elsewhere (o : ORef) (g : GRef) : Many.Action F V → Prop
  | .graph _ k op => (∀ r b, op ≠ .setConstant r b) ∧ (k = g → ¬ changesStructure (.user op : Opt.Call F V))
  | .setup o' _ _ => o' ≠ o
  | .optimize _ o' => o' ≠ o
  | .prepare _ o' => o' ≠ o

end Factorama.Spec
