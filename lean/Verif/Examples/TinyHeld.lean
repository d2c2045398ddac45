import Verif.Examples.TinyWorld

/-!
# The small graph with the second variable held constant
-/

namespace Factorama.TinyHeld
open Spec Graph Toy TinyWorld
variable {F : Type} [Zero F] [Add F] [Sub F] [Mul F] [Neg F] (a c m p q u v w : F)

def heap : Heap (GenVar F)
  | 0 => ⟨1, false, [a]⟩
  | 1 => ⟨2, true, [c]⟩
  | _ => ⟨3, true, [m]⟩

/-- The world after building, finalizing and evaluating the sparse Jacobian. -/
def world : World F (GenVar F) := exec (env a) (build p q u v w ++ .finalize :: [.sparse]) (World.init (heap a c m))

theorem finalizedAfter : FinalizedAfter (heap a c m)
    ((build p q u v w).zip (outcomes (env a) (build p q u v w) (World.init (heap a c m))))
    ([.sparse].zip (outcomes (env a) [.sparse] (exec (env a) (build p q u v w ++ [.finalize]) (World.init (heap a c m)))))
    (world a c m p q u v w) := by
  have : outcomes (env a) (build p q u v w ++ .finalize :: [.sparse]) (World.init (heap a c m)) =
      [.ok (), .ok (), .ok (), .ok (), .ok (), .ok (), .ok (), .ok ()] := by cbv
  exact exec_finalizedAfter (env a) (heap a c m) (build p q u v w) [.sparse] (by rw [this]; decide) (by cbv) (by simp [Op.isValueOp])

/-- The sparse Jacobian of the graph. -/
def jac : SpMat F := ⟨3, [⟨2, [(0, u), (1, -v)]⟩], 2⟩

theorem sparse_eq : (world a c m p q u v w).graph.sparseJacobian = .ok (jac u v) := by cbv

theorem vars_eq : (world a c m p q u v w).graph.getAllVariables = [0, 1, 2] := by cbv

theorem heap_eq : (world a c m p q u v w).heap = heap a c m := by
  funext r
  match r with
  | 0 => cbv
  | 1 => cbv
  | _ + 2 => cbv

theorem facs_eq : (world a c m p q u v w).graph.getAllFactors = facs p q u v w := by cbv

attribute [irreducible] world

end Factorama.TinyHeld
