import Verif.Examples.Toy
import Verif.Model.Factors
import Verif.Spec.Optimizer
import Verif.Lemmas.Variables

/-!
# A planar pose that sees three known landmarks, with or without their distances
-/

namespace Factorama.ResectWorld
open Spec Graph Toy Geo
variable (ranged : Bool) (x y z : V2) (s : ℝ)

noncomputable def env : Env ℝ RVar := ⟨id, fun _ => .refl _, fun _ => 0⟩

noncomputable def heap : Heap RVar
  | 0 => .pose2d ⟨1, false, 0, 0⟩
  | 1 => .generic ⟨2, true, toList x⟩
  | 2 => .generic ⟨3, true, toList y⟩
  | _ => .generic ⟨4, true, toList z⟩

/-- The direction to the landmark, or the distance and the direction. -/
noncomputable def look (id : Int) (l : VRef) : Factor ℝ RVar := if ranged then Fac.rangeBearing2D id 0 l 1 0 s s else Fac.bearing2D id 0 l 0 s

noncomputable def facs : List (Factor ℝ RVar) := [look ranged s 11 1, look ranged s 12 2, look ranged s 13 3]

noncomputable def build : List (Op ℝ RVar) :=
  [.addVariable (some 0), .addVariable (some 1), .addVariable (some 2), .addVariable (some 3), .addFactor (some (look ranged s 11 1)),
    .addFactor (some (look ranged s 12 2)), .addFactor (some (look ranged s 13 3))]

/-- The world after building and finalizing. -/
noncomputable def world : World ℝ RVar := exec env (build ranged s ++ .finalize :: []) (World.init (heap x y z))

theorem outcomes_eq : outcomes env (build ranged s ++ .finalize :: []) (World.init (heap x y z)) =
      [.ok (), .ok (), .ok (), .ok (), .ok (), .ok (), .ok (), .ok ()] := by cases ranged <;> cbv
theorem finalizedAfter : FinalizedAfter (heap x y z) ((build ranged s).zip (outcomes env (build ranged s) (World.init (heap x y z))))
    ([].zip (outcomes env [] (exec env (build ranged s ++ [.finalize]) (World.init (heap x y z))))) (world ranged x y z s) :=
  exec_finalizedAfter env (heap x y z) (build ranged s) [] (by rw [outcomes_eq]; decide) (by cases ranged <;> cbv) (by simp)
theorem vars_eq : (world ranged x y z s).graph.getAllVariables = [0, 1, 2, 3] := by cases ranged <;> cbv
theorem facs_eq : (world ranged x y z s).graph.getAllFactors = facs ranged s := by cases ranged <;> cbv
theorem heap_eq : (world ranged x y z s).heap = heap x y z := by
  funext r
  match r with
  | 0 => cases ranged <;> cbv
  | 1 => cases ranged <;> cbv
  | 2 => cases ranged <;> cbv
  | _ + 3 => cases ranged <;> cbv

attribute [irreducible] world

theorem look_variables (id : Int) (l : VRef) : (look ranged s id l).variables = [some 0, some l] := by cases ranged <;> rfl

theorem noJacobianYet : NoJacobianYet ((build ranged s).zip (outcomes env (build ranged s) (World.init (heap x y z)))) := by
  have hb : ∀ op ∈ build ranged s, op ≠ .dense ∧ op ≠ .denseAndResidual ∧ op ≠ .sparse := by
    intro op hop
    simp only [build, List.mem_cons, List.not_mem_nil, or_false] at hop
    rcases hop with h | h | h | h | h | h | h <;> subst h <;> simp
  refine ⟨fun h => ?_, fun h => ?_, fun h => ?_, fun h => ?_⟩
  · exact (hb _ (List.of_mem_zip h).1).1 rfl
  · exact (hb _ (List.of_mem_zip h).1).2.1 rfl
  · exact (hb _ (List.of_mem_zip h).1).2.1 rfl
  · exact (hb _ (List.of_mem_zip h).1).2.2 rfl

theorem identify : IdsIdentify (world ranged x y z s).heap (world ranged x y z s).graph.getAllVariables
    (world ranged x y z s).graph.getAllFactors := by
  rw [facs_eq, vars_eq, heap_eq]
  have key : ∀ u ∈ [0, 1, 2, 3], ∀ r ∈ [0, 1, 2, 3], VarLike.id (F := ℝ) (heap x y z r) = VarLike.id (F := ℝ) (heap x y z u) → r = u := by
    intro u hu r hr e
    simp only [List.mem_cons, List.not_mem_nil, or_false] at hu hr
    rcases hu with rfl | rfl | rfl | rfl <;> rcases hr with rfl | rfl | rfl | rfl <;> simp [heap, VarLike.id] at e ⊢
  intro f hf u hu r hr e
  refine key u ?_ r hr e
  simp only [facs, List.mem_cons, List.not_mem_nil, or_false] at hf
  rcases hf with rfl | rfl | rfl <;> simp [look_variables] at hu <;> rcases hu with rfl | rfl <;> simp

theorem noRepeats : NoRepeats (world ranged x y z s).graph.getAllFactors := by
  rw [facs_eq]
  intro f hf k l r hp hq
  simp only [facs, List.mem_cons, List.not_mem_nil, or_false] at hf
  rcases hf with rfl | rfl | rfl <;>
  · match k, l with
    | 0, 0 => rfl
    | 1, 1 => rfl
    | 0, 1 | 1, 0 => simp [look_variables] at hp hq; subst hp; exact absurd hq (by decide)
    | k + 2, _ => simp [look_variables] at hp
    | _, l + 2 => simp [look_variables] at hq

end Factorama.ResectWorld
