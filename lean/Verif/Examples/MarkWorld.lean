import Verif.Examples.Toy
import Verif.Model.Factors
import Verif.Spec.Optimizer
import Verif.Lemmas.Variables

/-!
# One point of the plane with a prior, after computing a Jacobian
-/

namespace Factorama.MarkWorld
open Spec Graph Toy Geo
variable (x y w : ℝ)

noncomputable def env : Env ℝ RVar := ⟨id, fun _ => .refl _, fun _ => x⟩

def heap : Heap RVar := fun _ => .generic ⟨1, false, [x, y]⟩

noncomputable def build : List (Op ℝ RVar) := [.addVariable (some 0), .addFactor (some (genericPrior 10 0 [0, 0] w))]

/-- The world after building, finalizing and computing the Jacobian. -/
noncomputable def world : World ℝ RVar := exec (env x) (build w ++ .finalize :: [.sparse]) (World.init (heap x y))

theorem outcomes_eq : outcomes (env x) (build w ++ .finalize :: [.sparse]) (World.init (heap x y)) =
      [.ok (), .ok (), .ok (), .ok ()] := by cbv
theorem finalizedAfter : FinalizedAfter (heap x y) ((build w).zip (outcomes (env x) (build w) (World.init (heap x y))))
    ([.sparse].zip (outcomes (env x) [.sparse] (exec (env x) (build w ++ [.finalize]) (World.init (heap x y))))) (world x y w) :=
  exec_finalizedAfter (env x) (heap x y) (build w) [.sparse] (by rw [outcomes_eq]; decide) (by cbv) (by simp [Op.isValueOp])
theorem vars_eq : (world x y w).graph.getAllVariables = [0] := by cbv
theorem heap_eq : (world x y w).heap = heap x y := by
  funext r
  cbv
theorem sparse_eq : (world x y w).graph.sparseJacobian = .ok ⟨2, [⟨2, [(0, w), (1, 0)]⟩, ⟨2, [(0, 0), (1, w)]⟩], 4⟩ := by cbv
theorem placement_eq : (world x y w).graph.variablePlacement 1 = some ⟨0, 0, 2⟩ := by cbv

attribute [irreducible] world
end Factorama.MarkWorld
