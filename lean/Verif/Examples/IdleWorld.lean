import Verif.Examples.Toy
import Verif.Model.Factors
import Verif.Spec.Optimizer
import Verif.Lemmas.Variables

/-!
# Two numbers, one of which no factor uses
-/

namespace Factorama.IdleWorld
open Spec Graph Toy Geo
variable (x y : ℝ)

noncomputable def env : Env ℝ RVar := ⟨id, fun _ => .refl _, fun _ => x⟩

def heap : Heap RVar
  | 0 => .generic ⟨1, false, [x]⟩
  | _ => .generic ⟨2, false, [y]⟩

noncomputable def prior (k : Nat) : Factor ℝ RVar := genericPrior (10 + k) 0 [(k : ℝ)] (1 / 1)

noncomputable def facs : List (Factor ℝ RVar) := [prior 0, prior 1]

noncomputable def build : List (Op ℝ RVar) :=
  [.addVariable (some 0), .addVariable (some 1), .addFactor (some (prior 0)), .addFactor (some (prior 1))]

/-- The world after building and finalizing. -/
noncomputable def world : World ℝ RVar := exec (env x) (build ++ .finalize :: []) (World.init (heap x y))

theorem outcomes_eq : outcomes (env x) (build ++ .finalize :: []) (World.init (heap x y)) =
      [.ok (), .ok (), .ok (), .ok (), .ok ()] := by cbv
theorem finalizedAfter : FinalizedAfter (heap x y) ((build).zip (outcomes (env x) (build) (World.init (heap x y))))
    ([].zip (outcomes (env x) [] (exec (env x) (build ++ [.finalize]) (World.init (heap x y))))) (world x y) :=
  exec_finalizedAfter (env x) (heap x y) (build) [] (by rw [outcomes_eq]; decide) (by cbv) (by simp)
theorem vars_eq : (world x y).graph.getAllVariables = [0, 1] := by cbv
theorem facs_eq : (world x y).graph.getAllFactors = facs := by cbv
theorem heap_eq : (world x y).heap = heap x y := by
  funext r
  match r with
  | 0 => cbv
  | _ + 1 => cbv

attribute [irreducible] world

theorem noJacobianYet : NoJacobianYet ((build).zip
    (outcomes (env x) (build) (World.init (heap x y)))) := by
  have hb : ∀ op ∈ build, op ≠ .dense ∧ op ≠ .denseAndResidual ∧ op ≠ .sparse := by
    intro op hop
    simp only [build, List.mem_cons, List.not_mem_nil, or_false] at hop
    rcases hop with h | h | h | h <;> subst h <;> simp
  refine ⟨fun h => ?_, fun h => ?_, fun h => ?_, fun h => ?_⟩
  · exact (hb _ (List.of_mem_zip h).1).1 rfl
  · exact (hb _ (List.of_mem_zip h).1).2.1 rfl
  · exact (hb _ (List.of_mem_zip h).1).2.1 rfl
  · exact (hb _ (List.of_mem_zip h).1).2.2 rfl

theorem identify : IdsIdentify (world x y).heap (world x y).graph.getAllVariables
    (world x y).graph.getAllFactors := by
  rw [facs_eq, vars_eq, heap_eq]
  have key : ∀ u ∈ [0, 1], ∀ r ∈ [0, 1], VarLike.id (F := ℝ) (heap x y r) = VarLike.id (F := ℝ) (heap x y u) → r = u := by
    intro u hu r hr e
    simp only [List.mem_cons, List.not_mem_nil, or_false] at hu hr
    rcases hu with rfl | rfl <;> rcases hr with rfl | rfl <;> simp [heap, VarLike.id] at e ⊢
  intro f hf u hu r hr e
  refine key u ?_ r hr e
  simp only [facs, List.mem_cons, List.not_mem_nil, or_false] at hf
  rcases hf with rfl | rfl <;>
  · simp [prior, genericPrior] at hu
    simp [hu]

theorem noRepeats : NoRepeats (world x y).graph.getAllFactors := by
  rw [facs_eq]
  intro f hf k l r hp hq
  simp only [facs, List.mem_cons, List.not_mem_nil, or_false] at hf
  rcases hf with rfl | rfl <;>
  · match k, l with
    | 0, 0 => rfl
    | k + 1, _ => simp [prior, genericPrior] at hp
    | _, l + 1 => simp [prior, genericPrior] at hq

end Factorama.IdleWorld
