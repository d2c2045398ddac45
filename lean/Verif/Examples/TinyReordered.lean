import Verif.Examples.TinyWorld

/-!
# The graph of Examples/TinyWorld.lean with variables and factors added in another order
-/

namespace Factorama.TinyReordered
open Spec Graph Toy TinyWorld
variable {F : Type} [Zero F] [Add F] [Sub F] [Mul F] [Neg F] (a c m p q u v w : F)

def build : List (Op F (GenVar F)) :=
  [.addVariable (some 1), .addVariable (some 2), .addVariable (some 0), .addFactor (some (genericPrior 12 1 [q] w)),
    .addFactor (some (genericBetween 11 0 1 2 1 v)), .addFactor (some (genericPrior 10 0 [p] u))]

/-- The world after building, finalizing and evaluating the sparse Jacobian. -/
def world : World F (GenVar F) := exec (env a) (build p q u v w ++ .finalize :: [.sparse]) (World.init (heap a c m))

theorem outcomes_eq : outcomes (env a) (build p q u v w ++ .finalize :: [.sparse]) (World.init (heap a c m)) =
      [.ok (), .ok (), .ok (), .ok (), .ok (), .ok (), .ok (), .ok ()] := by cbv

theorem finalizedAfter : FinalizedAfter (heap a c m)
    ((build p q u v w).zip (outcomes (env a) (build p q u v w) (World.init (heap a c m))))
    ([.sparse].zip (outcomes (env a) [.sparse] (exec (env a) (build p q u v w ++ [.finalize]) (World.init (heap a c m)))))
    (world a c m p q u v w) :=
  exec_finalizedAfter (env a) (heap a c m) (build p q u v w) [.sparse] (by rw [outcomes_eq]; decide) (by cbv) (by simp [Op.isValueOp])

theorem vars_eq : (world a c m p q u v w).graph.getAllVariables = [1, 2, 0] := by cbv

theorem heap_eq : (world a c m p q u v w).heap = heap a c m := by
  funext r
  match r with
  | 0 => cbv
  | 1 => cbv
  | _ + 2 => cbv

theorem facs_eq : (world a c m p q u v w).graph.getAllFactors = (facs p q u v w).reverse := by cbv

attribute [irreducible] world

theorem noJacobianYet : NoJacobianYet ((build p q u v w).zip (outcomes (env a) (build p q u v w) (World.init (heap a c m)))) := by
  have hb : ∀ op ∈ build p q u v w, op ≠ .dense ∧ op ≠ .denseAndResidual ∧ op ≠ .sparse := by
    intro op hop
    simp only [build, List.mem_cons, List.not_mem_nil, or_false] at hop
    rcases hop with h | h | h | h | h | h <;> subst h <;> simp
  refine ⟨fun h => ?_, fun h => ?_, fun h => ?_, fun h => ?_⟩
  · exact (hb _ (List.of_mem_zip h).1).1 rfl
  · exact (hb _ (List.of_mem_zip h).1).2.1 rfl
  · exact (hb _ (List.of_mem_zip h).1).2.1 rfl
  · exact (hb _ (List.of_mem_zip h).1).2.2 rfl

theorem vars_perm : (TinyWorld.world a c m p q u v w).graph.getAllVariables.Perm (world a c m p q u v w).graph.getAllVariables := by
  rw [TinyWorld.vars_eq, vars_eq]; decide

theorem facs_perm : (TinyWorld.world a c m p q u v w).graph.getAllFactors.Perm (world a c m p q u v w).graph.getAllFactors := by
  rw [TinyWorld.facs_eq, facs_eq]; exact (List.reverse_perm _).symm

end Factorama.TinyReordered
