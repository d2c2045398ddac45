import Verif.Examples.TinyWorld

/-!
# The small graph with a variable beside it that has nothing to do with the others

The free variable `e` comes first; it has a prior.
-/

namespace Factorama.TinyParts
open Spec Graph Toy TinyWorld
variable {F : Type} [Zero F] [Add F] [Sub F] [Mul F] [Neg F] (a c m p q u v w e y z : F)

def heap : Heap (GenVar F)
  | 0 => ⟨1, false, [a]⟩
  | 1 => ⟨2, false, [c]⟩
  | 2 => ⟨3, true, [m]⟩
  | _ => ⟨4, false, [e]⟩

def facs : List (Factor F (GenVar F)) := genericPrior 13 3 [y] z :: TinyWorld.facs p q u v w

def build : List (Op F (GenVar F)) :=
  [.addVariable (some 3), .addVariable (some 0), .addVariable (some 1), .addVariable (some 2),
    .addFactor (some (genericPrior 13 3 [y] z)), .addFactor (some (genericPrior 10 0 [p] u)),
    .addFactor (some (genericBetween 11 0 1 2 1 v)), .addFactor (some (genericPrior 12 1 [q] w))]

/-- The world after building, finalizing and evaluating the sparse Jacobian. -/
def world : World F (GenVar F) := exec (env a) (build p q u v w y z ++ .finalize :: [.sparse]) (World.init (heap a c m e))

theorem finalizedAfter : FinalizedAfter (heap a c m e)
    ((build p q u v w y z).zip (outcomes (env a) (build p q u v w y z) (World.init (heap a c m e))))
    ([.sparse].zip (outcomes (env a) [.sparse] (exec (env a) (build p q u v w y z ++ [.finalize]) (World.init (heap a c m e)))))
    (world a c m p q u v w e y z) := by
  have : outcomes (env a) (build p q u v w y z ++ .finalize :: [.sparse]) (World.init (heap a c m e)) =
      [.ok (), .ok (), .ok (), .ok (), .ok (), .ok (), .ok (), .ok (), .ok (), .ok ()] := by cbv
  exact exec_finalizedAfter (env a) (heap a c m e) (build p q u v w y z) [.sparse] (by rw [this]; decide) (by cbv) (by simp [Op.isValueOp])

/-- The sparse Jacobian of the graph. -/
def jac : SpMat F := ⟨4, [⟨1, [(0, z)]⟩, ⟨2, [(1, u), (2, -v)]⟩, ⟨2, [(2, v), (3, w)]⟩], 5⟩

theorem sparse_eq : (world a c m p q u v w e y z).graph.sparseJacobian = .ok (jac u v w z) := by cbv

theorem vars_eq : (world a c m p q u v w e y z).graph.getAllVariables = [3, 0, 1, 2] := by cbv

theorem heap_eq : (world a c m p q u v w e y z).heap = heap a c m e := by
  funext r
  match r with
  | 0 => cbv
  | 1 => cbv
  | 2 => cbv
  | _ + 3 => cbv

theorem facs_eq : (world a c m p q u v w e y z).graph.getAllFactors = facs p q u v w y z := by cbv

attribute [irreducible] world

theorem noJacobianYet : NoJacobianYet ((build p q u v w y z).zip (outcomes (env a) (build p q u v w y z) (World.init (heap a c m e)))) := by
  have hb : ∀ op ∈ build p q u v w y z, op ≠ .dense ∧ op ≠ .denseAndResidual ∧ op ≠ .sparse := by
    intro op hop
    simp only [build, List.mem_cons, List.not_mem_nil, or_false] at hop
    rcases hop with h | h | h | h | h | h | h | h <;> subst h <;> simp
  refine ⟨fun h => ?_, fun h => ?_, fun h => ?_, fun h => ?_⟩
  · exact (hb _ (List.of_mem_zip h).1).1 rfl
  · exact (hb _ (List.of_mem_zip h).1).2.1 rfl
  · exact (hb _ (List.of_mem_zip h).1).2.1 rfl
  · exact (hb _ (List.of_mem_zip h).1).2.2 rfl

theorem inv_heap : Inv (heap a c m e) := by
  refine ⟨rfl, rfl, rfl, fun r hr => ?_⟩
  match r, hr with
  | 0, _ => rfl
  | 1, _ => rfl
  | 2, _ => rfl

theorem proper : ∀ h, SameShape (world a c m p q u v w e y z).heap h → ∀ f ∈ (world a c m p q u v w e y z).graph.getAllFactors, ∀ js,
    f.computeJacobians h [] = .ok js → ProperBlocks h f js := by
  rw [facs_eq, heap_eq]
  intro h hs f hf js hjs
  have hi : Inv h := by
    obtain ⟨c0, c1, c2, hl⟩ := inv_heap a c m e
    exact ⟨((hs 0).2.1).trans c0, ((hs 1).2.1).trans c1, ((hs 2).2.1).trans c2, fun r hr => ((hs r).2.2).trans (hl r hr)⟩
  rcases List.mem_cons.1 hf with rfl | hf
  · have c3 : (h 3).isConst = false := (hs 3).2.1
    have l3 : (h 3).value.length = 1 := (hs 3).2.2
    have : (genericPrior 13 3 [y] z : Factor F (GenVar F)).computeJacobians h [] = .ok [Mat.diag 1 z] := by
      simp [genericPrior, VarLike.isConst, c3]
    rw [this] at hjs
    obtain rfl := Res.ok.inj hjs
    exact proper_prior c3 l3
  · obtain ⟨js', h1, h2⟩ := jacobians p q u v w hi hf []
    rw [h1] at hjs
    obtain rfl := Res.ok.inj hjs
    exact h2

theorem identify : IdsIdentify (world a c m p q u v w e y z).heap (world a c m p q u v w e y z).graph.getAllVariables
    (world a c m p q u v w e y z).graph.getAllFactors := by
  rw [facs_eq, vars_eq, heap_eq]
  have key : ∀ x ∈ [0, 1, 2, 3], ∀ r ∈ [3, 0, 1, 2], VarLike.id (F := F) (heap a c m e r) = VarLike.id (F := F) (heap a c m e x) → r = x := by
    intro x hx r hr e
    simp only [List.mem_cons, List.not_mem_nil, or_false] at hx hr
    rcases hx with rfl | rfl | rfl | rfl <;> rcases hr with rfl | rfl | rfl | rfl <;> simp [heap, VarLike.id] at e ⊢
  intro f hf x hx r hr e
  refine key x ?_ r hr e
  simp only [facs, TinyWorld.facs, List.mem_cons, List.not_mem_nil, or_false] at hf
  rcases hf with rfl | rfl | rfl | rfl
  · simp [genericPrior] at hx; simp [hx]
  · simp [genericPrior] at hx; simp [hx]
  · simp [genericBetween] at hx
    rcases hx with rfl | rfl | rfl <;> simp
  · simp [genericPrior] at hx; simp [hx]

theorem noRepeats : NoRepeats (world a c m p q u v w e y z).graph.getAllFactors := by
  rw [facs_eq]
  intro f hf k l r hp hq
  rcases List.mem_cons.1 hf with rfl | hf
  · match k, l with
    | 0, 0 => rfl
    | k + 1, _ => simp [genericPrior] at hp
    | _, l + 1 => simp [genericPrior] at hq
  · have := TinyWorld.noRepeats a c m p q u v w
    rw [TinyWorld.facs_eq] at this
    exact this f hf k l r hp hq

theorem reuseSafe : ∀ f ∈ (world a c m p q u v w e y z).graph.getAllFactors, ReuseSafe f := by
  rw [facs_eq]
  intro f hf h buf _
  simp only [facs, TinyWorld.facs, List.mem_cons, List.not_mem_nil, or_false] at hf
  rcases hf with rfl | rfl | rfl | rfl <;> rfl

end Factorama.TinyParts
