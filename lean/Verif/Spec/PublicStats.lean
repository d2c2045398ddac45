import Verif.Model.PublicStats

/-! Specification for C143: programs that write into the statistics, and the same programs without these writes. -/

namespace Factorama.Spec
open Opt
variable {F V Fact : Type}

/-- The program without its writes into the statistics. -/
def withoutWrites : List (Move F V) → List (Move F V)
  | [] => []
  | .call env c :: ms => .call env c :: withoutWrites ms
  | .covariance v :: ms => .covariance v :: withoutWrites ms
  | .writeSettings st :: ms => .writeSettings st :: withoutWrites ms
  | .writeInitial _ :: ms => withoutWrites ms
  | .writeCurrent _ :: ms => withoutWrites ms

/-- The state with other contents of the public statistics. -/
def restat (current initial : Stats F) (s : OptWorld F V Fact) : OptWorld F V Fact :=
  { s with opt := { s.opt with stats := current, initialStats := initial } }

/-- Two states that differ in the public statistics at most. -/
def SameButStatistics (s s' : OptWorld F V Fact) : Prop := ∃ current initial, s' = restat current initial s

end Factorama.Spec
