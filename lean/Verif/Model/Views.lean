import Verif.Model.Optimizer

/-!
# Arrays handed out

`variable.value()` and `graph.compute_full_residual_vector()` return references (base_types.hpp:140, factor_graph.cpp:117-132);
Python sees them as arrays that show the memory of the member (`return_value_policy::reference`,
python_bindings/python/factorama/_factorama.cpp:84, 322-324). Eigen writes an assigned vector into the same memory if the
number of entries is the same, and takes new memory otherwise.
-/

namespace Factorama.Views
open Opt
variable {F V Fact : Type} [Zero F] [VarLike F V]

/-- Where an array comes from: `_factorama.cpp:84` or `_factorama.cpp:322-324` (also `residual()`, `_factorama.cpp:339`). -/
inductive Source where
  | value (r : VRef)
  | residual

/-- The member a reference leads to: base_types.hpp:140, factor_graph.hpp:237. -/
def member (w : OptWorld F V Fact) : Source → List F
  | .value r => VarLike.value (w.heap r)
  | .residual => w.graph.cachedRes

/-- An array: its source, and whether the memory it shows still belongs to the member (_factorama.cpp:84, 322-324). -/
structure Arr where
  src : Source
  live : Bool

/-- Reading an array, _factorama.cpp:84, 322-324; memory that has been given back is undefined behaviour. -/
def Arr.read (a : Arr) (w : OptWorld F V Fact) : Res (List F) :=
  if a.live then .ok (member w a.src) else .ub

/-- What a call does to an array: the memory is replaced if the number of entries changes (factor_graph.cpp:124, 140-142 and
the assignments to the values of variables, e.g. landmark_variable.hpp:36). -/
def Arr.after (a : Arr) (w w' : OptWorld F V Fact) : Arr :=
  { a with live := a.live && (member w a.src).length == (member w' a.src).length }

/-- A program with an array in hand; calls of sparse_optimizer.hpp and factor_graph.hpp (factor_graph.hpp:62-215). -/
inductive Runs (A : Arith F) (L : LinAlg F Fact) :
    OptWorld F V Fact × Arr → List (Call F V × Res Unit) → OptWorld F V Fact × Arr → Prop where
  | nil (s : OptWorld F V Fact × Arr) : Runs A L s [] s
  | cons {s s' : OptWorld F V Fact} {a : Arr} {t : OptWorld F V Fact × Arr} {c : Call F V}
      {evs : List (Call F V × Res Unit)} {r : Res Unit} (env : Env F V) : step A L env c s = (s', r) → r ≠ .ub →
      Runs A L (s', a.after s s') evs t → Runs A L (s, a) ((c, r) :: evs) t

end Factorama.Views
