import Verif.Examples.Toy
import Verif.Model.Factors
import Verif.Spec.Optimizer
import Verif.Lemmas.Variables

/-!
# Two planar poses: their relative pose is measured, and the first pose or the relative pose again
-/

namespace Factorama.TrackWorld
open Spec Graph Toy Geo
variable (given : Bool) (p q : V2) (θ φ : ℝ) (z m : V3) (s : ℝ) (localFrame : Bool)

noncomputable def env : Env ℝ RVar := ⟨id, fun _ => .refl _, fun _ => 0⟩

noncomputable def heap : Heap RVar
  | 0 => .pose2d ⟨1, false, p, θ⟩
  | 1 => .pose2d ⟨2, false, q, φ⟩
  | _ => .generic ⟨3, true, toList z⟩

/-- The first factor. -/
noncomputable def lead : Factor ℝ RVar := if given then Fac.pose2DPrior 11 0 m s s else Fac.pose2DBetween 11 0 1 2 s s localFrame

noncomputable def facs : List (Factor ℝ RVar) := [lead given m s localFrame, Fac.pose2DBetween 12 0 1 2 s s localFrame]

noncomputable def build : List (Op ℝ RVar) :=
  [.addVariable (some 0), .addVariable (some 1), .addVariable (some 2), .addFactor (some (lead given m s localFrame)),
    .addFactor (some (Fac.pose2DBetween 12 0 1 2 s s localFrame))]

/-- The world after building and finalizing. -/
noncomputable def world : World ℝ RVar := exec env (build given m s localFrame ++ .finalize :: []) (World.init (heap p q θ φ z))

theorem outcomes_eq : outcomes env (build given m s localFrame ++ .finalize :: []) (World.init (heap p q θ φ z)) =
      [.ok (), .ok (), .ok (), .ok (), .ok (), .ok ()] := by cases given <;> cbv
theorem finalizedAfter : FinalizedAfter (heap p q θ φ z) ((build given m s localFrame).zip (outcomes env (build given m s localFrame) (World.init (heap p q θ φ z))))
    ([].zip (outcomes env [] (exec env (build given m s localFrame ++ [.finalize]) (World.init (heap p q θ φ z))))) (world given p q θ φ z m s localFrame) :=
  exec_finalizedAfter env (heap p q θ φ z) (build given m s localFrame) [] (by rw [outcomes_eq]; decide) (by cases given <;> cbv) (by simp)
theorem vars_eq : (world given p q θ φ z m s localFrame).graph.getAllVariables = [0, 1, 2] := by cases given <;> cbv
theorem facs_eq : (world given p q θ φ z m s localFrame).graph.getAllFactors = facs given m s localFrame := by cases given <;> cbv
theorem heap_eq : (world given p q θ φ z m s localFrame).heap = heap p q θ φ z := by
  funext r
  match r with
  | 0 => cases given <;> cbv
  | 1 => cases given <;> cbv
  | _ + 2 => cases given <;> cbv

attribute [irreducible] world

theorem mem_variables {f : Factor ℝ RVar} (hf : f ∈ facs given m s localFrame) :
    f.variables = [some 0] ∨ f.variables = [some 0, some 1, some 2] := by
  simp only [facs, List.mem_cons, List.not_mem_nil, or_false] at hf
  rcases hf with rfl | rfl
  · cases given
    · exact .inr rfl
    · exact .inl rfl
  · exact .inr rfl

theorem noJacobianYet : NoJacobianYet ((build given m s localFrame).zip (outcomes env (build given m s localFrame) (World.init (heap p q θ φ z)))) := by
  have hb : ∀ op ∈ build given m s localFrame, op ≠ .dense ∧ op ≠ .denseAndResidual ∧ op ≠ .sparse := by
    intro op hop
    simp only [build, List.mem_cons, List.not_mem_nil, or_false] at hop
    rcases hop with h | h | h | h | h <;> subst h <;> simp
  refine ⟨fun h => ?_, fun h => ?_, fun h => ?_, fun h => ?_⟩
  · exact (hb _ (List.of_mem_zip h).1).1 rfl
  · exact (hb _ (List.of_mem_zip h).1).2.1 rfl
  · exact (hb _ (List.of_mem_zip h).1).2.1 rfl
  · exact (hb _ (List.of_mem_zip h).1).2.2 rfl

theorem identify : IdsIdentify (world given p q θ φ z m s localFrame).heap (world given p q θ φ z m s localFrame).graph.getAllVariables
    (world given p q θ φ z m s localFrame).graph.getAllFactors := by
  rw [facs_eq, vars_eq, heap_eq]
  have key : ∀ u ∈ [0, 1, 2], ∀ r ∈ [0, 1, 2], VarLike.id (F := ℝ) (heap p q θ φ z r) = VarLike.id (F := ℝ) (heap p q θ φ z u) → r = u := by
    intro u hu r hr e
    simp only [List.mem_cons, List.not_mem_nil, or_false] at hu hr
    rcases hu with rfl | rfl | rfl <;> rcases hr with rfl | rfl | rfl <;> simp [heap, VarLike.id] at e ⊢
  intro f hf u hu r hr e
  refine key u ?_ r hr e
  rcases mem_variables _ _ _ _ hf with e | e <;> rw [e] at hu <;> simp at hu <;> simp [hu]

theorem noRepeats : NoRepeats (world given p q θ φ z m s localFrame).graph.getAllFactors := by
  rw [facs_eq]
  intro f hf k l r hp hq
  rcases mem_variables _ _ _ _ hf with e | e <;> rw [e] at hp hq
  · match k, l with
    | 0, 0 => rfl
    | k + 1, _ => simp at hp
    | _, l + 1 => simp at hq
  · match k, l with
    | 0, 0 => rfl
    | 1, 1 => rfl
    | 2, 2 => rfl
    | 0, 1 | 0, 2 | 1, 0 | 1, 2 | 2, 0 | 2, 1 => simp at hp hq; subst hp; exact absurd hq (by decide)
    | k + 3, _ => simp at hp
    | _, l + 3 => simp at hq

end Factorama.TrackWorld
