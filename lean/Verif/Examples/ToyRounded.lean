import Verif.Examples.ToyOpt
import Verif.Props.Optimizer

/-!
# A run in an arithmetic with inexact costs
-/

namespace Factorama.ToyOpt
open Spec Graph Opt Toy

/-- Rational arithmetic whose squared norms come out too large by one part in a thousand. -/
def rough : Arith Rat := { rat with sqNorm := fun v => rat.sqNorm v * (1001 / 1000) }

def roughRun := optimize rough Ldlt.linAlg env (start world lm)

theorem rough_costOrder : CostOrder rough := ⟨costOrder.half, costOrder.trans, costOrder.irrefl, costOrder.sqrt⟩

theorem roughRun_ok : roughRun.2 = .ok () := by decide +kernel
theorem roughRun_status : roughRun.1.opt.stats.status ≠ .failed := by decide +kernel

end Factorama.ToyOpt
