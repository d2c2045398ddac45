import Verif.Model.Lifetime

/-!
# Variables as Python objects

The Python module wraps each C++ object in a Python object. Here: which wrappers of variables exist, and when a C++ object is
destroyed. pybind11, which is not part of /repo, is modelled from its documentation (return value policies, smart pointers).

* Variables are bound with `std::shared_ptr` as holder (python_bindings/python/factorama/_factorama.cpp:81-91, 104-159). An
  object created from Python, or returned as a `shared_ptr`, has a wrapper that shares ownership.
* A function that returns a plain pointer, bound without a policy, takes ownership (`return_value_policy::automatic`): if
  the object has a living wrapper, that one is returned; otherwise a new wrapper is made, with a `shared_ptr` of its own that
  knows nothing of the others (the class has no `enable_shared_from_this`, base_types.hpp:129-180). This concerns
  `FactorGraph.get_variable` (_factorama.cpp:331) and `Factor.variables` (_factorama.cpp:97).
-/

namespace Factorama.Py
open Opt
variable {F V Fact : Type} [Zero F] [VarLike F V]

/-- The wrapper of a variable, if there is a living one. _factorama.cpp:81 for the holder. -/
inductive Wrapper where
  | none
  /-- its `shared_ptr` shares ownership with the handles of the graph -/
  | shared
  /-- its `shared_ptr` was made from a plain pointer -/
  | adopted
  deriving DecidableEq

/-- The state of a Python program: the C++ objects, and the wrappers of variables (_factorama.cpp:81-159). -/
structure State (F V Fact : Type) where
  world : OptWorld F V Fact
  wrap : VRef → Wrapper

/-- One action of a Python program, _factorama.cpp:81-376. -/
inductive Action (F V : Type) where
  /-- a method of the graph, a variable or the optimizer -/
  | call (env : Env F V) (c : Call F V)
  /-- `graph.get_variable(id)`, _factorama.cpp:331 -/
  | getVariable (id : Int)
  /-- `graph.get_all_variables()`, _factorama.cpp:332 -/
  | getAllVariables
  /-- `factor.variables()`, _factorama.cpp:97 -/
  | factorVariables (f : Factor F V)
  /-- the last reference to the Python object of this variable goes away -/
  | letGo (r : VRef)

/-- The wrapper that a function returning a plain pointer yields (_factorama.cpp:97, 331: no policy given). -/
def adopt (w : Wrapper) : Wrapper := match w with
  | .none => .adopted
  | w => w

/-- The wrapper that a function returning a `shared_ptr` yields (_factorama.cpp:332). -/
def share (w : Wrapper) : Wrapper := match w with
  | .none => .shared
  | w => w

/-- Change the wrappers of the given variables, as the functions of _factorama.cpp:97, 331 and 332 do. -/
def touch (f : Wrapper → Wrapper) (rs : List VRef) (s : State F V Fact) : State F V Fact :=
  { s with wrap := fun r => if r ∈ rs then f (s.wrap r) else s.wrap r }

/-- The addresses an action asks for, _factorama.cpp:97, 331, 332. `None` is returned for an id that is not in the graph, and
for a null pointer. -/
def looked (s : State F V Fact) : Action F V → List VRef
  | .getVariable id => (s.world.graph.getVariable id).toList
  | .getAllVariables => s.world.graph.getAllVariables
  | .factorVariables f => f.variables.filterMap id
  | _ => []

/-- Free the memory of a variable: it then holds anything (base_types.hpp:132, the destructor). As in `Life.act`, reading it
is not a distinct outcome. -/
def destroy (junk : VRef → V) (r : VRef) (s : State F V Fact) : State F V Fact :=
  { s with world := { s.world with heap := s.world.heap.set r (junk r) } }

/-- The effect of an action, with the outcome of a call, _factorama.cpp:81-376. A wrapper that shares ownership destroys the
variable only if the graph has no handle to it (factor_graph.hpp:217-223); one that has adopted it always does. -/
def act (A : Arith F) (L : LinAlg F Fact) (junk : VRef → V) (a : Action F V) (s : State F V Fact) :
    State F V Fact × List (Res Unit) :=
  match a with
  | .call env c => ({ s with world := (step A L env c s.world).1 }, [(step A L env c s.world).2])
  | .getVariable _ => (touch adopt (looked s a) s, [])
  | .getAllVariables => (touch share (looked s a) s, [])
  | .factorVariables _ => (touch adopt (looked s a) s, [])
  | .letGo r =>
    let t := match s.wrap r with
      | .none => s
      | .shared => if r ∈ s.world.graph.varsVec then s else destroy junk r s
      | .adopted => destroy junk r s
    ({ t with wrap := fun q => if q = r then .none else t.wrap q }, [])

/-- A program, a sequence of the actions of _factorama.cpp:81-376: the final state and the outcomes of its calls. -/
def run (A : Arith F) (L : LinAlg F Fact) (junk : VRef → V) :
    List (Action F V) → State F V Fact → State F V Fact × List (Res Unit)
  | [], s => (s, [])
  | a :: as, s => ((run A L junk as (act A L junk a s).1).1, (act A L junk a s).2 ++ (run A L junk as (act A L junk a s).1).2)

/-- Start: the program has created its variables (_factorama.cpp:104-159), an empty graph and an optimizer. -/
def start (A : Arith F) (h : Heap V) : State F V Fact := ⟨Opt.init A h, fun _ => .shared⟩

end Factorama.Py
