import Verif.Props.OptimizerLimits
import Verif.Examples.ToyCurved

/-!
# Property C71: Levenberg-Marquardt gives up before the damping reaches its limit
-/

namespace Factorama.Props
open Spec Graph Opt

/-- The settings with another initial damping. -/
def C71.damped (s : OptWorld Rat (GenVar Rat) (Ldlt.Fact Rat)) (lambda : Rat) : OptWorld Rat (GenVar Rat) (Ldlt.Fact Rat) :=
  { s with opt := { s.opt with settings := { s.opt.settings with initialLambda := lambda } } }

/-- **C71** is false of the code: a run that reports failure has not shown that no damping up to `max_lambda` helps. With the
default settings and a factor with residual `1 - x + 20 x²` at `x = 0` the five trials use the dampings `10⁻³` to `10`, and all
the steps are too long; a run that begins with the damping 100, far below `max_lambda = 10⁵`, lowers the cost at once. -/
theorem C71_false : ¬ ∀ (s : OptWorld Rat (GenVar Rat) (Ldlt.Fact Rat)) (lambda : Rat), s.opt.hasGraph = true →
    s.opt.settings.method = .levenbergMarquardt → (optimize ToyOpt.rat Ldlt.linAlg ToyOpt.env s).2 = .ok () →
    (optimize ToyOpt.rat Ldlt.linAlg ToyOpt.env s).1.opt.stats.valid = false →
    (∀ r ∈ s.graph.getAllVariables, (optimize ToyOpt.rat Ldlt.linAlg ToyOpt.env s).1.heap r = s.heap r) →
    s.opt.settings.initialLambda ≤ lambda → lambda ≤ s.opt.settings.maxLambda →
    (optimize ToyOpt.rat Ldlt.linAlg ToyOpt.env (C71.damped s lambda)).1.opt.stats.chi2 ≥
      (optimize ToyOpt.rat Ldlt.linAlg ToyOpt.env s).1.opt.stats.chi2 := by
  intro h
  have h1 := h (ToyOpt.start ToyCurved.world ToyCurved.lm) 100 rfl rfl (by decide +kernel) (by decide +kernel) (by decide +kernel)
    (by decide +kernel) (by decide +kernel)
  revert h1
  decide +kernel

/-- The two runs: the first fails at `x = 0` and leaves the cost at 1, and calling `optimize()` again fails the same way; the
second succeeds. -/
example :
    let s := ToyOpt.start ToyCurved.world ToyCurved.lm
    let run := (optimize ToyOpt.rat Ldlt.linAlg ToyOpt.env s).1
    let again := (optimize ToyOpt.rat Ldlt.linAlg ToyOpt.env run).1
    let other := (optimize ToyOpt.rat Ldlt.linAlg ToyOpt.env (C71.damped s 100)).1
    run.opt.stats.status = .failed ∧ run.opt.stats.chi2 = 1 ∧ (run.heap 0).value = [0] ∧
    again.opt.stats.status = .failed ∧ again.opt.stats.chi2 = 1 ∧ (again.heap 0).value = [0] ∧
    other.opt.stats.status = .success ∧ other.opt.stats.valid = true ∧ other.opt.stats.chi2 < 99 / 100 := by
  decide +kernel

end Factorama.Props
