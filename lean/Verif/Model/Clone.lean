import Verif.Model.Optimizer

/-!
# Copies of variables

`Variable::clone` (base_types.hpp:154-156) returns a new object made by the copy constructor of the class, which copies every
member, also the identifier and the constant flag: generic_variable.hpp:58, landmark_variable.hpp:66, rotation_variable.hpp:65,
plane_variable.hpp:103, pose_variable.cpp:102-105, pose_2d_variable.cpp:72-75, inverse_range_variable.cpp:63-66.
-/

namespace Factorama.Cloning
open Opt
variable {F V Fact : Type} [Zero F] [VarLike F V]

/-- One action of a program. -/
inductive Action (F V : Type) where
  /-- a call on the graph, a variable or the optimizer, with the undetermined choices made in it -/
  | call (env : Env F V) (c : Call F V)
  /-- `auto copy = source->clone();` where the new object is placed at address `copy` -/
  | clone (source copy : VRef)

/-- The effect of an action and its outcome. `clone`, base_types.hpp:154-156 and the classes listed above. That the address of
the new object is unused is a condition of the theorems; running out of memory is not modelled. -/
def act (A : Arith F) (L : LinAlg F Fact) : Action F V → OptWorld F V Fact → OptWorld F V Fact × Res Unit
  | .call env c, s => step A L env c s
  | .clone source copy, s => ({ s with heap := s.heap.set copy (s.heap source) }, .ok ())

/-- A program: the final state, and the actions with their outcomes. Actions as above, base_types.hpp:154-156. -/
def run (A : Arith F) (L : LinAlg F Fact) :
    List (Action F V) → OptWorld F V Fact → OptWorld F V Fact × List (Action F V × Res Unit)
  | [], s => (s, [])
  | a :: as, s => ((run A L as (act A L a s).1).1, (a, (act A L a s).2) :: (run A L as (act A L a s).1).2)

end Factorama.Cloning
