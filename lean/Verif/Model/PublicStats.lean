import Verif.Model.Optimizer

/-!
# The public statistics and the settings

`initial_stats_` and `current_stats_` are public members of the optimizer (sparse_optimizer.hpp:146-147), in Python attributes that
can be assigned (_factorama.cpp:366-367). A program may write anything into them, at any time between calls. In Python, `settings()`
hands out the optimizer's own settings, not a copy (_factorama.cpp:365), and their fields can be assigned (_factorama.cpp:292-304).
-/

namespace Factorama.Opt
variable {F V Fact : Type} [Zero F] [VarLike F V]

/-- What a program does with a graph and an optimizer that are at its disposal. -/
inductive Move (F V : Type) where
  /-- a call of the graph, of a variable or of the optimizer -/
  | call (env : Env F V) (c : Call F V)
  /-- `optimizer.estimate_covariance(variable, valid)`, sparse_optimizer.cpp:585-663 -/
  | covariance (v : Option VRef)
  /-- `optimizer.initial_stats_ = …`, sparse_optimizer.hpp:146 -/
  | writeInitial (st : Stats F)
  /-- `optimizer.current_stats_ = …`, sparse_optimizer.hpp:147. Writing a single field is a special case. -/
  | writeCurrent (st : Stats F)
  /-- assignments to fields of `optimizer.settings()` in Python, _factorama.cpp:292-304, 365, after which the settings are `st` -/
  | writeSettings (st : Settings F)

/-- What the program sees of it. -/
inductive Seen (F : Type) where
  | outcome (r : Res Unit)
  | covariance (r : Res (Option (Mat F)))

/-- Effect of a move (sparse_optimizer.hpp:146-147 and _factorama.cpp:292-304, 365 for the writes, the cited functions for the calls). -/
def move (A : Arith F) (L : LinAlg F Fact) (m : Move F V) (s : OptWorld F V Fact) : OptWorld F V Fact × List (Seen F) :=
  match m with
  | .call env c => ((step A L env c s).1, [.outcome (step A L env c s).2])
  | .covariance v => (s, [.covariance (estimateCovariance A L s v)])
  | .writeInitial st => ({ s with opt := { s.opt with initialStats := st } }, [])
  | .writeCurrent st => ({ s with opt := { s.opt with stats := st } }, [])
  | .writeSettings st => ({ s with opt := { s.opt with settings := st } }, [.outcome (.ok ())])

/-- A program: the final state and all that was seen. -/
def moves (A : Arith F) (L : LinAlg F Fact) : List (Move F V) → OptWorld F V Fact → OptWorld F V Fact × List (Seen F)
  | [], s => (s, [])
  | m :: ms, s => ((moves A L ms (move A L m s).1).1, (move A L m s).2 ++ (moves A L ms (move A L m s).1).2)

end Factorama.Opt
