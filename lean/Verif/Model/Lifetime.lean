import Verif.Model.Optimizer

/-!
# Lifetimes of variables

Elsewhere every address holds an object for ever. Here a program can also give up its handles (`std::shared_ptr`, or
references of a Python program) to variables. The graph holds handles to the variables added to it (`variables_vector_`,
factor_graph.hpp:217-223); a factor holds a plain pointer to each of its variables (for instance generic_prior_factor.hpp:85).
Handles to factors, the graph and the optimizer are not given up.
-/

namespace Factorama.Life
open Opt
variable {F V Fact : Type} [Zero F] [VarLike F V]

/-- One action of a program; `drop` models the end of the last `std::shared_ptr` outside the graph. -/
inductive Action (F V : Type) where
  /-- a call on the graph, a variable or the optimizer, with the undetermined choices made in it -/
  | call (env : Env F V) (c : Call F V)
  /-- the last handle of the program to the variable at this address goes out of scope -/
  | drop (r : VRef)

/-- The effect of an action, with the outcome of a call. A variable without handles is destroyed: its memory then holds
anything (`junk`; factor_graph.hpp:217-223 for who holds handles). Simplification: reading a destroyed object is not a
distinct outcome, it yields `junk`. -/
def act (A : Arith F) (L : LinAlg F Fact) (junk : VRef → V) : Action F V → OptWorld F V Fact → OptWorld F V Fact × List (Res Unit)
  | .call env c, s => ((step A L env c s).1, [(step A L env c s).2])
  | .drop r, s => if r ∈ s.graph.varsVec then (s, []) else ({ s with heap := s.heap.set r (junk r) }, [])

/-- A program, a sequence of the actions above: the final state and the outcomes of its calls. -/
def run (A : Arith F) (L : LinAlg F Fact) (junk : VRef → V) :
    List (Action F V) → OptWorld F V Fact → OptWorld F V Fact × List (Res Unit)
  | [], s => (s, [])
  | a :: as, s => ((run A L junk as (act A L junk a s).1).1, (act A L junk a s).2 ++ (run A L junk as (act A L junk a s).1).2)

end Factorama.Life
