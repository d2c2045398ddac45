import Verif.Examples.Toy
import Verif.Model.Factors
import Verif.Spec.Optimizer
import Verif.Lemmas.Variables

/-!
# A landmark seen from two known poses
-/

namespace Factorama.ViewWorld
open Spec Graph Toy Geo
variable (v v' : PoseVar) (x b d : V3) (s : ℝ)

noncomputable def env : Env ℝ RVar := ⟨id, fun _ => .refl _, fun _ => 0⟩

def heap : Heap RVar
  | 0 => .pose { v with id := 1, isConst := true }
  | 1 => .pose { v' with id := 2, isConst := true }
  | _ => .landmark ⟨3, false, toList x⟩

noncomputable def facs : List (Factor ℝ RVar) := [Fac.bearingObservation 12 0 2 b s, Fac.bearingObservation 13 1 2 d s]

noncomputable def build : List (Op ℝ RVar) :=
  [.addVariable (some 0), .addVariable (some 1), .addVariable (some 2), .addFactor (some (Fac.bearingObservation 12 0 2 b s)),
    .addFactor (some (Fac.bearingObservation 13 1 2 d s))]

/-- The world after building and finalizing. -/
noncomputable def world : World ℝ RVar := exec env (build b d s ++ .finalize :: []) (World.init (heap v v' x))

theorem outcomes_eq : outcomes env (build b d s ++ .finalize :: []) (World.init (heap v v' x)) =
      [.ok (), .ok (), .ok (), .ok (), .ok (), .ok ()] := by cbv
theorem finalizedAfter : FinalizedAfter (heap v v' x) ((build b d s).zip (outcomes env (build b d s) (World.init (heap v v' x))))
    ([].zip (outcomes env [] (exec env (build b d s ++ [.finalize]) (World.init (heap v v' x))))) (world v v' x b d s) :=
  exec_finalizedAfter env (heap v v' x) (build b d s) [] (by rw [outcomes_eq]; decide) (by cbv) (by simp)
theorem vars_eq : (world v v' x b d s).graph.getAllVariables = [0, 1, 2] := by cbv
theorem facs_eq : (world v v' x b d s).graph.getAllFactors = facs b d s := by cbv
theorem heap_eq : (world v v' x b d s).heap = heap v v' x := by
  funext r
  match r with
  | 0 => cbv
  | 1 => cbv
  | _ + 2 => cbv

attribute [irreducible] world

theorem noJacobianYet : NoJacobianYet ((build b d s).zip (outcomes env (build b d s) (World.init (heap v v' x)))) := by
  have hb : ∀ op ∈ build b d s, op ≠ .dense ∧ op ≠ .denseAndResidual ∧ op ≠ .sparse := by
    intro op hop
    simp only [build, List.mem_cons, List.not_mem_nil, or_false] at hop
    rcases hop with h | h | h | h | h <;> subst h <;> simp
  refine ⟨fun h => ?_, fun h => ?_, fun h => ?_, fun h => ?_⟩
  · exact (hb _ (List.of_mem_zip h).1).1 rfl
  · exact (hb _ (List.of_mem_zip h).1).2.1 rfl
  · exact (hb _ (List.of_mem_zip h).1).2.1 rfl
  · exact (hb _ (List.of_mem_zip h).1).2.2 rfl

theorem identify : IdsIdentify (world v v' x b d s).heap (world v v' x b d s).graph.getAllVariables
    (world v v' x b d s).graph.getAllFactors := by
  rw [facs_eq, vars_eq, heap_eq]
  have key : ∀ u ∈ [0, 1, 2], ∀ r ∈ [0, 1, 2], VarLike.id (F := ℝ) (heap v v' x r) = VarLike.id (F := ℝ) (heap v v' x u) → r = u := by
    intro u hu r hr e
    simp only [List.mem_cons, List.not_mem_nil, or_false] at hu hr
    rcases hu with rfl | rfl | rfl <;> rcases hr with rfl | rfl | rfl <;> simp [heap, VarLike.id] at e ⊢
  intro f hf u hu r hr e
  refine key u ?_ r hr e
  simp only [facs, List.mem_cons, List.not_mem_nil, or_false] at hf
  rcases hf with rfl | rfl <;> simp [Fac.bearingObservation] at hu <;> rcases hu with rfl | rfl <;> simp

theorem noRepeats : NoRepeats (world v v' x b d s).graph.getAllFactors := by
  rw [facs_eq]
  intro f hf k l r hp hq
  simp only [facs, List.mem_cons, List.not_mem_nil, or_false] at hf
  rcases hf with rfl | rfl <;>
  · match k, l with
    | 0, 0 => rfl
    | 1, 1 => rfl
    | 0, 1 | 1, 0 => simp [Fac.bearingObservation] at hp hq; subst hp; exact absurd hq (by decide)
    | k + 2, _ => simp [Fac.bearingObservation] at hp
    | _, l + 2 => simp [Fac.bearingObservation] at hq

end Factorama.ViewWorld
