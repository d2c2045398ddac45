import Verif.Model.Clone
import Verif.Spec.Lifetime

/-!
# Specification vocabulary: copies of variables
-/

namespace Factorama.Spec
open Opt Cloning
variable {F V : Type}

/-- A call made on the variable at this address itself. -/
def aboutObject (c : VRef) : Cloning.Action F V → Bool
  | .call _ (.user (.setConstant r _)) => r == c
  | .call _ (.user (.setValue r _)) => r == c
  | .call _ (.user (.incrOne r _)) => r == c
  | _ => false

/-- The action has nothing to do with the object at this address; factors that are offered look at their own variables only,
and it is not one of them. -/
def LeavesAlone (c : VRef) : Cloning.Action F V → Prop
  | .call _ call => ¬ names c call ∧
      ∀ f : Factor F V, call = .user (.addFactor (some f)) → some c ∉ f.variables ∧ LooksAtOwn f
  | .clone source copy => source ≠ c ∧ copy ≠ c

/-- What the actions of a program on the object at `c` make of it, if it is looked at alone. -/
def alone [VarLike F V] (c : VRef) : List (Cloning.Action F V) → V → V
  | [], v => v
  | .call _ (.user (.setConstant r b)) :: as, v => alone c as (if r = c then VarLike.setConst v b else v)
  | .call _ (.user (.setValue r x)) :: as, v =>
    alone c as (if r = c then (match VarLike.setValue v x with | .ok v' => v' | _ => v) else v)
  | .call _ (.user (.incrOne r x)) :: as, v =>
    alone c as (if r = c then (match VarLike.applyIncr v x with | .ok v' => v' | _ => v) else v)
  | _ :: as, v => alone c as v

/-- The rest of a program: without the calls on the object at `c`. -/
def others (c : VRef) (prog : List (Cloning.Action F V)) : List (Cloning.Action F V) := prog.filter fun a => !aboutObject c a

end Factorama.Spec
