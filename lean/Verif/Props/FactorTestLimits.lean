import Verif.Model.FactorTest
import Verif.Examples.ToyOpt
import Verif.Examples.ToyNaN
import Verif.Lemmas.History

/-!
# `detailed_factor_test`: what it misses (C61) and when it may be called (C11)
-/

namespace Factorama.Props
open Spec Graph FactorTest

section
variable {F V : Type} [Zero F] [Neg F] [VarLike F V] [LawfulVar F V]

/-- **C11** for `detailed_factor_test`: in every history without a successful `finalize_structure()` it throws and
changes nothing. -/
theorem C11_factor_test {h0 : Heap V} {evs : List (Op F V × Res Unit)} {w : World F V}
    (hrun : World.Runs (World.init h0) evs w) (hno : (.finalize, .ok ()) ∉ evs) (A : Arith F) (tol : F) :
    detailedFactorTest A w.graph tol w.heap = (w.heap, .threw) := by
  simp [detailedFactorTest, not_finalized hrun hno, SE.throw]

end

/-- A history that adds variables and factors but does not finalize. -/
example : detailedFactorTest ToyOpt.rat (Toy.exec ToyOpt.env ToyOpt.build (World.init ToyOpt.heap)).graph 0
      (Toy.exec ToyOpt.env ToyOpt.build (World.init ToyOpt.heap)).heap =
    ((Toy.exec ToyOpt.env ToyOpt.build (World.init ToyOpt.heap)).heap, .threw) := by
  have ho : Toy.outcomes ToyOpt.env ToyOpt.build (World.init ToyOpt.heap) = [.ok (), .ok (), .ok (), .ok (), .ok ()] := by
    decide +kernel
  have hr := Toy.exec_runs ToyOpt.env ToyOpt.build (World.init ToyOpt.heap) (by rw [ho]; decide)
  rw [ho] at hr
  exact C11_factor_test hr (by simp [ToyOpt.build, ToyOpt.facs]) ToyOpt.rat 0

namespace C61

/-- The residual is `x / 200`, the Jacobian claims that it does not depend on `x`. -/
def weakFactor : Factor Rat (GenVar Rat) where
  id := 10
  residualSize := 1
  «variables» := [some 0]
  computeResidual h := .ok ((VarLike.value (h 0)).map (· / 200))
  computeJacobians h _ := .ok [if VarLike.isConst (h 0) then Mat.empty else ⟨1, 1, fun _ _ => 0⟩]

/-- The entries of all blocks. -/
def derivatives : Res (List (Mat Rat)) → Option (List (List Rat))
  | .ok Js => some (Js.map entries)
  | _ => none

def weakHeap : Heap (GenVar Rat) := fun _ => ⟨1, false, [5]⟩

def weakGraph : World Rat (GenVar Rat) :=
  Toy.exec ToyOpt.env [.addVariable (some 0), .addFactor (some weakFactor), .finalize] (World.init weakHeap)

/-- The residual `x²` with a Jacobian that is NaN. -/
def nanFactor : Factor ToyNaN.Num (GenVar ToyNaN.Num) where
  id := 10
  residualSize := 1
  «variables» := [some 0]
  computeResidual h := .ok ((VarLike.value (h 0)).map fun x => x * x)
  computeJacobians h _ := .ok [if VarLike.isConst (h 0) then Mat.empty else ⟨1, 1, fun _ _ => .nan⟩]

def nanHeap : Heap (GenVar ToyNaN.Num) := fun _ => ⟨1, false, [.fin 5]⟩

def nanGraph : World ToyNaN.Num (GenVar ToyNaN.Num) :=
  Toy.exec ToyNaN.env [.addVariable (some 0), .addFactor (some nanFactor), .finalize] (World.init nanHeap)

/-- A prior and a between factor; the variable with the prior is constant. -/
def constHeap : Heap (GenVar Rat)
  | 0 => ⟨1, true, [5, 7]⟩
  | 1 => ⟨2, false, [1, 1]⟩
  | _ => ⟨3, true, [0, 1]⟩

def constGraph : World Rat (GenVar Rat) := Toy.exec ToyOpt.env (ToyOpt.build ++ [.finalize]) (World.init constHeap)

end C61

/-- **C61 is false of the code**: the scaled tolerance is never below 0.01 (factor_graph.cpp:623), whatever tolerance
the caller asks for. The residual `x / 200` has derivative 0.005; a factor that claims the derivative is 0 passes with a
requested tolerance of `10⁻⁶`, and with the tolerance 0. -/
theorem C61_floor_false :
    C61.weakGraph.graph.finalized = true ∧
    C61.derivatives (numericalJacobians ToyOpt.rat C61.weakFactor (1 / 1000000) C61.weakHeap).2 = some [[1 / 200]] ∧
    (detailedFactorTest ToyOpt.rat C61.weakGraph.graph (1 / 1000000) C61.weakGraph.heap).2 = .ok true ∧
    (detailedFactorTest ToyOpt.rat C61.weakGraph.graph 0 C61.weakGraph.heap).2 = .ok true := by decide +kernel

/-- **C61 is false of the code**: a Jacobian of NaNs passes, since the comparison `max_error >= tolerance`
(factor_graph.cpp:625) is false for NaN. The residual here is `x²` at `x = 5`. -/
theorem C61_nan_false :
    C61.nanGraph.graph.finalized = true ∧
    (detailedFactorTest ToyNaN.arith C61.nanGraph.graph (.fin (1 / 1000000)) C61.nanGraph.heap).2 = .ok true := by
  decide +kernel

/-- The test also raises false alarms: it fails for the library's own `GenericPriorFactor` on a constant variable, which
returns two blocks for its one variable (C57). With the same factors and no constant variable it passes. -/
theorem C61_false_alarm :
    (detailedFactorTest ToyOpt.rat C61.constGraph.graph (1 / 1000000) C61.constGraph.heap).2 = .ok false ∧
    (detailedFactorTest ToyOpt.rat (Toy.exec ToyOpt.env (ToyOpt.build ++ [.finalize]) (World.init ToyOpt.heap)).graph
      (1 / 1000000) ToyOpt.heap).2 = .ok true := by decide +kernel

end Factorama.Props
