import Verif.Examples.Toy
import Verif.Model.Factors
import Verif.Spec.Optimizer
import Verif.Lemmas.Variables

/-!
# Two poses in space: the way and the rotation between them are measured, and the position and orientation of the first or these again
-/

namespace Factorama.RouteWorld
open Spec Graph Toy Geo
variable (gp go : Bool) (p q z m : V3) (s : ℝ) (l : Bool)

noncomputable def env : Env ℝ RVar := ⟨id, fun _ => .refl _, fun _ => 0⟩

noncomputable def heap : Heap RVar
  | 0 => .pose ⟨1, false, p, 0, [], 1⟩
  | 1 => .pose ⟨2, false, q, 0, [], 1⟩
  | 2 => .generic ⟨3, true, toList z⟩
  | _ => .rotation ⟨4, true, 0, 1⟩

/-- The first factor: the position of the first pose, or the way. -/
noncomputable def leadP : Factor ℝ RVar := if gp then Fac.posePositionPrior 11 0 m s else Fac.posePositionBetween 11 0 1 2 s l

/-- The second factor: the orientation of the first pose, or the rotation. -/
noncomputable def leadO : Factor ℝ RVar := if go then Fac.poseOrientationPrior 12 0 1 s else Fac.poseOrientationBetween 12 0 1 3 s

noncomputable def facs : List (Factor ℝ RVar) :=
  [leadP gp m s l, leadO go s, Fac.posePositionBetween 13 0 1 2 s l, Fac.poseOrientationBetween 14 0 1 3 s]

noncomputable def build : List (Op ℝ RVar) :=
  [.addVariable (some 0), .addVariable (some 1), .addVariable (some 2), .addVariable (some 3), .addFactor (some (leadP gp m s l)),
    .addFactor (some (leadO go s)), .addFactor (some (Fac.posePositionBetween 13 0 1 2 s l)),
    .addFactor (some (Fac.poseOrientationBetween 14 0 1 3 s))]

/-- The world after building and finalizing. -/
noncomputable def world : World ℝ RVar := exec env (build gp go m s l ++ .finalize :: []) (World.init (heap p q z))

theorem outcomes_eq : outcomes env (build gp go m s l ++ .finalize :: []) (World.init (heap p q z)) =
      [.ok (), .ok (), .ok (), .ok (), .ok (), .ok (), .ok (), .ok (), .ok ()] := by cases gp <;> cases go <;> cbv
theorem finalizedAfter : FinalizedAfter (heap p q z) ((build gp go m s l).zip (outcomes env (build gp go m s l) (World.init (heap p q z))))
    ([].zip (outcomes env [] (exec env (build gp go m s l ++ [.finalize]) (World.init (heap p q z))))) (world gp go p q z m s l) :=
  exec_finalizedAfter env (heap p q z) (build gp go m s l) [] (by rw [outcomes_eq]; decide) (by cases gp <;> cases go <;> cbv) (by simp)
theorem vars_eq : (world gp go p q z m s l).graph.getAllVariables = [0, 1, 2, 3] := by cases gp <;> cases go <;> cbv
theorem facs_eq : (world gp go p q z m s l).graph.getAllFactors = facs gp go m s l := by cases gp <;> cases go <;> cbv
set_option maxRecDepth 8000 in
theorem heap_eq : (world gp go p q z m s l).heap = heap p q z := by
  funext r
  match r with
  | 0 => cases gp <;> cases go <;> cbv
  | 1 => cases gp <;> cases go <;> cbv
  | 2 => cases gp <;> cases go <;> cbv
  | _ + 3 => cases gp <;> cases go <;> cbv

attribute [irreducible] world

theorem mem_variables {f : Factor ℝ RVar} (hf : f ∈ facs gp go m s l) :
    f.variables = [some 0] ∨ f.variables = [some 0, some 1, some 2] ∨ f.variables = [some 0, some 1, some 3] := by
  simp only [facs, List.mem_cons, List.not_mem_nil, or_false] at hf
  rcases hf with rfl | rfl | rfl | rfl
  · cases gp
    · exact .inr (.inl rfl)
    · exact .inl rfl
  · cases go
    · exact .inr (.inr rfl)
    · exact .inl rfl
  · exact .inr (.inl rfl)
  · exact .inr (.inr rfl)

theorem noJacobianYet : NoJacobianYet ((build gp go m s l).zip (outcomes env (build gp go m s l) (World.init (heap p q z)))) := by
  have hb : ∀ op ∈ build gp go m s l, op ≠ .dense ∧ op ≠ .denseAndResidual ∧ op ≠ .sparse := by
    intro op hop
    simp only [build, List.mem_cons, List.not_mem_nil, or_false] at hop
    rcases hop with h | h | h | h | h | h | h | h <;> subst h <;> simp
  refine ⟨fun h => ?_, fun h => ?_, fun h => ?_, fun h => ?_⟩
  · exact (hb _ (List.of_mem_zip h).1).1 rfl
  · exact (hb _ (List.of_mem_zip h).1).2.1 rfl
  · exact (hb _ (List.of_mem_zip h).1).2.1 rfl
  · exact (hb _ (List.of_mem_zip h).1).2.2 rfl

theorem identify : IdsIdentify (world gp go p q z m s l).heap (world gp go p q z m s l).graph.getAllVariables
    (world gp go p q z m s l).graph.getAllFactors := by
  rw [facs_eq, vars_eq, heap_eq]
  have key : ∀ u ∈ [0, 1, 2, 3], ∀ r ∈ [0, 1, 2, 3], VarLike.id (F := ℝ) (heap p q z r) = VarLike.id (F := ℝ) (heap p q z u) → r = u := by
    intro u hu r hr e
    simp only [List.mem_cons, List.not_mem_nil, or_false] at hu hr
    rcases hu with rfl | rfl | rfl | rfl <;> rcases hr with rfl | rfl | rfl | rfl <;> simp [heap, VarLike.id] at e ⊢
  intro f hf u hu r hr e
  refine key u ?_ r hr e
  rcases mem_variables _ _ _ _ _ hf with e | e | e <;> rw [e] at hu <;> simp at hu
  · simp [hu]
  · rcases hu with rfl | rfl | rfl <;> simp
  · rcases hu with rfl | rfl | rfl <;> simp

theorem noRepeats : NoRepeats (world gp go p q z m s l).graph.getAllFactors := by
  rw [facs_eq]
  intro f hf k l r hp hq
  rcases mem_variables _ _ _ _ _ hf with e | e | e <;> rw [e] at hp hq
  · match k, l with
    | 0, 0 => rfl
    | k + 1, _ => simp at hp
    | _, l + 1 => simp at hq
  all_goals
    match k, l with
    | 0, 0 => rfl
    | 1, 1 => rfl
    | 2, 2 => rfl
    | 0, 1 | 0, 2 | 1, 0 | 1, 2 | 2, 0 | 2, 1 => simp at hp hq; subst hp; exact absurd hq (by decide)
    | k + 3, _ => simp at hp
    | _, l + 3 => simp at hq

end Factorama.RouteWorld
