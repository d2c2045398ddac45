import Verif.Examples.Toy
import Verif.Model.Factors
import Verif.Spec.Optimizer
import Verif.Lemmas.Variables

/-!
# A planar pose that sees a point three times, and nothing else
-/

namespace Factorama.AdriftWorld
open Spec Graph Toy Geo
variable (p : V2) (θ x y : ℝ) (bearing : ℝ)

noncomputable def env : Env ℝ RVar := ⟨id, fun _ => .refl _, fun _ => x⟩

def heap : Heap RVar
  | 0 => .pose2d ⟨1, false, p, θ⟩
  | _ => .generic ⟨2, false, [x, y]⟩

noncomputable def seen (k : Nat) : Factor ℝ RVar := Fac.rangeBearing2D (10 + k) 0 1 (5 + k) bearing 1 1

noncomputable def facs : List (Factor ℝ RVar) := [seen bearing 0, seen bearing 1, seen bearing 2]

noncomputable def build : List (Op ℝ RVar) :=
  [.addVariable (some 0), .addVariable (some 1), .addFactor (some (seen bearing 0)), .addFactor (some (seen bearing 1)),
    .addFactor (some (seen bearing 2))]

/-- The world after building and finalizing. -/
noncomputable def world : World ℝ RVar := exec (env x) (build bearing ++ .finalize :: []) (World.init (heap p θ x y))

theorem outcomes_eq : outcomes (env x) (build bearing ++ .finalize :: []) (World.init (heap p θ x y)) =
      [.ok (), .ok (), .ok (), .ok (), .ok (), .ok ()] := by cbv
theorem finalizedAfter : FinalizedAfter (heap p θ x y) ((build bearing).zip (outcomes (env x) (build bearing) (World.init (heap p θ x y))))
    ([].zip (outcomes (env x) [] (exec (env x) (build bearing ++ [.finalize]) (World.init (heap p θ x y))))) (world p θ x y bearing) :=
  exec_finalizedAfter (env x) (heap p θ x y) (build bearing) [] (by rw [outcomes_eq]; decide) (by cbv) (by simp)
theorem vars_eq : (world p θ x y bearing).graph.getAllVariables = [0, 1] := by cbv
theorem facs_eq : (world p θ x y bearing).graph.getAllFactors = facs bearing := by cbv
theorem heap_eq : (world p θ x y bearing).heap = heap p θ x y := by
  funext r
  match r with
  | 0 => cbv
  | _ + 1 => cbv

attribute [irreducible] world

theorem noJacobianYet : NoJacobianYet ((build bearing).zip
    (outcomes (env x) (build bearing) (World.init (heap p θ x y)))) := by
  have hb : ∀ op ∈ build bearing, op ≠ .dense ∧ op ≠ .denseAndResidual ∧ op ≠ .sparse := by
    intro op hop
    simp only [build, List.mem_cons, List.not_mem_nil, or_false] at hop
    rcases hop with h | h | h | h | h <;> subst h <;> simp
  refine ⟨fun h => ?_, fun h => ?_, fun h => ?_, fun h => ?_⟩
  · exact (hb _ (List.of_mem_zip h).1).1 rfl
  · exact (hb _ (List.of_mem_zip h).1).2.1 rfl
  · exact (hb _ (List.of_mem_zip h).1).2.1 rfl
  · exact (hb _ (List.of_mem_zip h).1).2.2 rfl

theorem identify : IdsIdentify (world p θ x y bearing).heap (world p θ x y bearing).graph.getAllVariables
    (world p θ x y bearing).graph.getAllFactors := by
  rw [facs_eq, vars_eq, heap_eq]
  have key : ∀ u ∈ [0, 1], ∀ r ∈ [0, 1], VarLike.id (F := ℝ) (heap p θ x y r) = VarLike.id (F := ℝ) (heap p θ x y u) → r = u := by
    intro u hu r hr e
    simp only [List.mem_cons, List.not_mem_nil, or_false] at hu hr
    rcases hu with rfl | rfl <;> rcases hr with rfl | rfl <;> simp [heap, VarLike.id] at e ⊢
  intro f hf u hu r hr e
  refine key u ?_ r hr e
  simp only [facs, List.mem_cons, List.not_mem_nil, or_false] at hf
  rcases hf with rfl | rfl | rfl <;>
  · simp [seen, Fac.rangeBearing2D] at hu
    simpa using hu

theorem noRepeats : NoRepeats (world p θ x y bearing).graph.getAllFactors := by
  rw [facs_eq]
  intro f hf k l r hp hq
  simp only [facs, List.mem_cons, List.not_mem_nil, or_false] at hf
  rcases hf with rfl | rfl | rfl <;>
  · match k, l with
    | 0, 0 => rfl
    | 1, 1 => rfl
    | 0, 1 | 1, 0 => simp [seen, Fac.rangeBearing2D] at hp hq; subst hp; exact absurd hq (by decide)
    | k + 2, _ => simp [seen, Fac.rangeBearing2D] at hp
    | _, l + 2 => simp [seen, Fac.rangeBearing2D] at hq

end Factorama.AdriftWorld
