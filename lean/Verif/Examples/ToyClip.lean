import Verif.Examples.ToyOpt

/-!
# A constant inverse-range variable in a graph, in rational arithmetic
-/

namespace Factorama.ToyClip
open Spec Graph Opt Toy

/-- The part of `InverseRangeVariable` that counts for the optimizer, in rational arithmetic (inverse_range_variable.cpp:9-42;
`Model/Variables.lean` has the whole class over the reals). -/
structure InvRange where
  id : Int
  isConst : Bool
  lo : Rat
  hi : Rat
  inv : Rat
  deriving DecidableEq

/-- A generic or an inverse-range variable. -/
inductive Var where
  | gen (v : GenVar Rat)
  | inv (v : InvRange)
  deriving DecidableEq

def clip (lo hi x : Rat) : Rat := min (max x lo) hi

instance : VarLike Rat Var where
  id | .gen v => v.id | .inv v => v.id
  isConst | .gen v => v.isConst | .inv v => v.isConst
  setConst | .gen v, b => .gen { v with isConst := b } | .inv v, b => .inv { v with isConst := b }
  size | .gen v => v.value.length | .inv _ => 1
  value | .gen v => v.value | .inv v => [v.inv]
  setValue
    | .gen v, x => match v.setValue x with | .ok v' => .ok (.gen v') | .threw => .threw | .ub => .ub
    | .inv v, x => match x with
      | [] => .ub
      | a :: _ => .ok (.inv { v with inv := clip v.lo v.hi a })
  applyIncr
    | .gen v, x => match v.applyIncr x with | .ok v' => .ok (.gen v') | .threw => .threw | .ub => .ub
    | .inv v, x => if x.length ≠ 1 then .threw else .ok (.inv { v with inv := clip v.lo v.hi (v.inv + x.getD 0 0) })

def env : Env Rat Var := ⟨id, fun _ => .refl _, fun _ => 77⟩

/-- A free variable at the prior's value, and a constant inverse range of 1 whose upper bound was lowered to 1/2 after
construction. -/
def heap : Heap Var
  | 0 => .gen ⟨1, false, [4]⟩
  | _ => .inv ⟨2, true, 1 / 10 ^ 6, 1 / 2, 1⟩

def build : List (Op Rat Var) :=
  [.addVariable (some 0), .addVariable (some 1), .addFactor (some (genericPrior 10 0 [4] 2))]

def world : World Rat Var := exec env (build ++ .finalize :: []) (World.init heap)

/-- Levenberg-Marquardt set up on it. -/
def start : OptWorld Rat Var (Ldlt.Fact Rat) :=
  ⟨world.heap, world.graph, { Optimizer.init ToyOpt.rat with hasGraph := true, settings := ToyOpt.lm }⟩

end Factorama.ToyClip
