import Verif.Examples.ToyOpt

/-!
# A curved residual in one variable, in rational arithmetic
-/

namespace Factorama.ToyCurved
open Spec Graph Opt Toy

/-- A user-defined factor: the residual `1 - x + 20 x²` with its exact derivative. -/
def curved (id : Int) (r : VRef) : Factor Rat (GenVar Rat) where
  id := id
  residualSize := 1
  «variables» := [some r]
  computeResidual h := let x := (h r).value.getD 0 0; .ok [1 - x + 20 * x * x]
  computeJacobians h _ := .ok [⟨1, 1, fun _ _ => -1 + 40 * (h r).value.getD 0 0⟩]

def heap : Heap (GenVar Rat) := fun _ => ⟨1, false, [0]⟩

def build : List (Op Rat (GenVar Rat)) := [.addVariable (some 0), .addFactor (some (curved 10 0))]

def world : World Rat (GenVar Rat) := exec ToyOpt.env (build ++ .finalize :: []) (World.init heap)

/-- The default settings with Levenberg-Marquardt. -/
def lm : Settings Rat := { Settings.default ToyOpt.rat with method := .levenbergMarquardt }

end Factorama.ToyCurved

namespace Factorama.ToyCurved
open Spec Graph Opt Toy

/-- The same graph with the variable at 1. -/
def farHeap : Heap (GenVar Rat) := fun _ => ⟨1, false, [1]⟩

def farWorld : World Rat (GenVar Rat) := exec ToyOpt.env (build ++ .finalize :: []) (World.init farHeap)

end Factorama.ToyCurved
