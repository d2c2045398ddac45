import Verif.Examples.Toy
import Verif.Model.Factors
import Verif.Spec.Optimizer
import Verif.Lemmas.Variables

/-!
# A pose in space with priors, and a landmark it sees
-/

namespace Factorama.SpaceWorld
open Spec Graph Toy Geo
variable (v : PoseVar) (x m : V3) (R : M3) (b : V3) (s : ℝ)

noncomputable def env : Env ℝ RVar := ⟨id, fun _ => .refl _, fun _ => 0⟩

def heap : Heap RVar
  | 0 => .pose { v with id := 1, isConst := false }
  | _ => .landmark ⟨2, false, toList x⟩

noncomputable def facs : List (Factor ℝ RVar) :=
  [Fac.posePositionPrior 10 0 m s, Fac.poseOrientationPrior 11 0 R s, Fac.bearingObservation 12 0 1 b s]

noncomputable def build : List (Op ℝ RVar) :=
  [.addVariable (some 0), .addVariable (some 1), .addFactor (some (Fac.posePositionPrior 10 0 m s)),
    .addFactor (some (Fac.poseOrientationPrior 11 0 R s)), .addFactor (some (Fac.bearingObservation 12 0 1 b s))]

/-- The world after building and finalizing. -/
noncomputable def world : World ℝ RVar := exec env (build m R b s ++ .finalize :: []) (World.init (heap v x))

theorem outcomes_eq : outcomes env (build m R b s ++ .finalize :: []) (World.init (heap v x)) =
      [.ok (), .ok (), .ok (), .ok (), .ok (), .ok ()] := by cbv
theorem finalizedAfter : FinalizedAfter (heap v x) ((build m R b s).zip (outcomes env (build m R b s) (World.init (heap v x))))
    ([].zip (outcomes env [] (exec env (build m R b s ++ [.finalize]) (World.init (heap v x))))) (world v x m R b s) :=
  exec_finalizedAfter env (heap v x) (build m R b s) [] (by rw [outcomes_eq]; decide) (by cbv) (by simp)
theorem vars_eq : (world v x m R b s).graph.getAllVariables = [0, 1] := by cbv
theorem facs_eq : (world v x m R b s).graph.getAllFactors = facs m R b s := by cbv
theorem heap_eq : (world v x m R b s).heap = heap v x := by
  funext r
  match r with
  | 0 => cbv
  | _ + 1 => cbv

attribute [irreducible] world

theorem noJacobianYet : NoJacobianYet ((build m R b s).zip (outcomes env (build m R b s) (World.init (heap v x)))) := by
  have hb : ∀ op ∈ build m R b s, op ≠ .dense ∧ op ≠ .denseAndResidual ∧ op ≠ .sparse := by
    intro op hop
    simp only [build, List.mem_cons, List.not_mem_nil, or_false] at hop
    rcases hop with h | h | h | h | h <;> subst h <;> simp
  refine ⟨fun h => ?_, fun h => ?_, fun h => ?_, fun h => ?_⟩
  · exact (hb _ (List.of_mem_zip h).1).1 rfl
  · exact (hb _ (List.of_mem_zip h).1).2.1 rfl
  · exact (hb _ (List.of_mem_zip h).1).2.1 rfl
  · exact (hb _ (List.of_mem_zip h).1).2.2 rfl

theorem identify : IdsIdentify (world v x m R b s).heap (world v x m R b s).graph.getAllVariables
    (world v x m R b s).graph.getAllFactors := by
  rw [facs_eq, vars_eq, heap_eq]
  have key : ∀ u ∈ [0, 1], ∀ r ∈ [0, 1], VarLike.id (F := ℝ) (heap v x r) = VarLike.id (F := ℝ) (heap v x u) → r = u := by
    intro u hu r hr e
    simp only [List.mem_cons, List.not_mem_nil, or_false] at hu hr
    rcases hu with rfl | rfl <;> rcases hr with rfl | rfl <;> simp [heap, VarLike.id] at e ⊢
  intro f hf u hu r hr e
  refine key u ?_ r hr e
  simp only [facs, List.mem_cons, List.not_mem_nil, or_false] at hf
  rcases hf with rfl | rfl | rfl
  · simp [Fac.posePositionPrior] at hu; simp [hu]
  · simp [Fac.poseOrientationPrior] at hu; simp [hu]
  · simp [Fac.bearingObservation] at hu
    simpa using hu

theorem noRepeats : NoRepeats (world v x m R b s).graph.getAllFactors := by
  rw [facs_eq]
  intro f hf k l r hp hq
  simp only [facs, List.mem_cons, List.not_mem_nil, or_false] at hf
  rcases hf with rfl | rfl | rfl
  · match k, l with
    | 0, 0 => rfl
    | k + 1, _ => simp [Fac.posePositionPrior] at hp
    | _, l + 1 => simp [Fac.posePositionPrior] at hq
  · match k, l with
    | 0, 0 => rfl
    | k + 1, _ => simp [Fac.poseOrientationPrior] at hp
    | _, l + 1 => simp [Fac.poseOrientationPrior] at hq
  · match k, l with
    | 0, 0 => rfl
    | 1, 1 => rfl
    | 0, 1 | 1, 0 => simp [Fac.bearingObservation] at hp hq; subst hp; exact absurd hq (by decide)
    | k + 2, _ => simp [Fac.bearingObservation] at hp
    | _, l + 2 => simp [Fac.bearingObservation] at hq

end Factorama.SpaceWorld
