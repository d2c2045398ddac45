import Verif.Model.PublicStats

/-! Specification for C146: settings changed in place, and the same settings given to `setup`. -/

namespace Factorama.Spec
open Opt
variable {F V Fact : Type}

/-- The program in which every change of the settings in place is replaced by setting the optimizer up again, with the graph it
has. `g` tells whether it has one at the beginning (`setup` does not use `e`). -/
def asSetup (e : Env F V) : Bool → List (Move F V) → List (Move F V)
  | _, [] => []
  | _, .call env (.setup g st) :: ms => .call env (.setup g st) :: asSetup e g ms
  | g, .writeSettings st :: ms => .call e (.setup g st) :: asSetup e g ms
  | g, m :: ms => m :: asSetup e g ms

/-- The program has nothing to do with covariances. -/
def NoCovariances (prog : List (Move F V)) : Prop := ∀ m ∈ prog, (∀ v, m ≠ .covariance v) ∧ ∀ env, m ≠ .call env .prepare

/-- The state with other values of the two flags that tell whether covariances can be had. -/
def reflag (m : Bool × Bool) (s : OptWorld F V Fact) : OptWorld F V Fact :=
  { s with opt := { s.opt with complete := m.1, hessianValid := m.2 } }

end Factorama.Spec
