import Verif.Model.Optimizer

/-!
# Several graphs and several optimizers

`OptWorld` has one graph and one optimizer. Here a program has any number of both, over the same variable objects; an optimizer
may be set up for one graph after another, several optimizers may work on the same graph, and a variable may be in several
graphs. Each call is the call of `Verif/Model/Optimizer.lean` on the objects it is made on.
-/

namespace Factorama.Many
open Opt
variable {F V Fact : Type} [Zero F] [VarLike F V]

/-- Address of a `FactorGraph`. -/
abbrev GRef := Nat
/-- Address of a `SparseOptimizer`. -/
abbrev ORef := Nat

/-- All objects. `target` is the member `graph_` of the optimizers, sparse_optimizer.hpp:152, which is shared with other
optimizers and with the program. -/
structure State (F V Fact : Type) where
  heap : Heap V
  graphs : GRef → Graph F V
  opts : ORef → Optimizer F Fact
  target : ORef → Option GRef

/-- Start: the given variables, default constructed graphs and optimizers, factor_graph.hpp:51 and sparse_optimizer.hpp:107. -/
def init (A : Arith F) (h : Heap V) : State F V Fact where
  heap := h
  graphs := fun _ => Graph.init
  opts := fun _ => Optimizer.init A
  target := fun _ => none

/-- One call. -/
inductive Action (F V : Type) where
  /-- a call on the graph at `g`; for the calls of `Op` on a variable the graph does not matter -/
  | graph (env : Env F V) (g : GRef) (op : Op F V)
  /-- `optimizer.setup(graph, settings)`; `none` is a null pointer -/
  | setup (o : ORef) (g : Option GRef) (settings : Settings F)
  /-- `optimizer.optimize()` -/
  | optimize (env : Env F V) (o : ORef)
  /-- `optimizer.prepare_to_estimate_covariances()` -/
  | prepare (env : Env F V) (o : ORef)

/-- What the optimizer at `o` sees: the variables, its graph, itself. An optimizer without a graph sees an empty one, which it
does not use: sparse_optimizer.cpp:12-14, 143-145, 312-314, and before `optimize()` has returned, 535-538. -/
def view (s : State F V Fact) (o : ORef) : OptWorld F V Fact where
  heap := s.heap
  graph := match s.target o with
    | some g => s.graphs g
    | none => Graph.init
  opt := s.opts o

/-- Replace one object. -/
def put {α : Type} (f : Nat → α) (k : Nat) (a : α) : Nat → α := fun k' => if k' = k then a else f k'

/-- Write back what the optimizer at `o` has changed. -/
def back (s : State F V Fact) (o : ORef) (t : OptWorld F V Fact) : State F V Fact where
  heap := t.heap
  graphs := match s.target o with
    | some g => put s.graphs g t.graph
    | none => s.graphs
  opts := put s.opts o t.opt
  target := s.target

/-- The effect of a call and its outcome: the functions of `FactorGraph` and `Variable` by `World.step`, `setup`
(sparse_optimizer.cpp:133-139), `optimize` (sparse_optimizer.cpp:141-308) and `prepare_to_estimate_covariances`
(sparse_optimizer.cpp:526-583). -/
def act (A : Arith F) (L : LinAlg F Fact) : Action F V → State F V Fact → State F V Fact × Res Unit
  | .graph env g op, s =>
    let p := World.step env op ⟨s.heap, s.graphs g⟩
    ({ s with heap := p.1.heap, graphs := put s.graphs g p.1.graph }, p.2)
  | .setup o g st, s =>
    ({ s with
        opts := put s.opts o (Opt.setup g.isSome st (view s o)).1.opt
        target := put s.target o g }, .ok ())
  | .optimize env o, s =>
    let p := Opt.optimize A L env (view s o)
    (back s o p.1, p.2)
  | .prepare _ o, s =>
    let p := Opt.prepare A L (view s o)
    (back s o p.1, p.2)

/-- `optimizer.estimate_covariance(v)`, sparse_optimizer.cpp:585-663, which changes nothing. -/
def covariance (A : Arith F) (L : LinAlg F Fact) (s : State F V Fact) (o : ORef) (v : Option VRef) : Res (Option (Mat F)) :=
  estimateCovariance A L (view s o) v

/-- A program: the final state, and the calls with their outcomes (calls as above, sparse_optimizer.hpp:92-173). -/
def run (A : Arith F) (L : LinAlg F Fact) :
    List (Action F V) → State F V Fact → State F V Fact × List (Action F V × Res Unit)
  | [], s => (s, [])
  | a :: as, s => ((run A L as (act A L a s).1).1, (a, (act A L a s).2) :: (run A L as (act A L a s).1).2)

end Factorama.Many
