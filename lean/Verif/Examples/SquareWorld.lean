import Verif.Examples.Toy
import Verif.Spec.Optimizer

/-!
# A curved problem with an exact fit, over any scalar type

One free variable `x` of size 1, one user-defined factor with residual `x² − y`.
-/

namespace Factorama.SquareWorld
open Spec Graph Toy
variable {F : Type} [Zero F] [Add F] [Sub F] [Mul F] [Neg F] (a y : F)

def square : Factor F (GenVar F) where
  id := 10
  residualSize := 1
  «variables» := [some 0]
  computeResidual h := let x := (h 0).value.getD 0 0; .ok [x * x - y]
  computeJacobians h _ := .ok [⟨1, 1, fun _ _ => (h 0).value.getD 0 0 + (h 0).value.getD 0 0⟩]

def env (x : F) : Env F (GenVar F) := ⟨id, fun _ => .refl _, fun _ => x⟩

def heap : Heap (GenVar F) := fun _ => ⟨1, false, [a]⟩

def build : List (Op F (GenVar F)) := [.addVariable (some 0), .addFactor (some (square y))]

def world : World F (GenVar F) := exec (env a) (build y ++ .finalize :: []) (World.init (heap a))

theorem outcomes_eq : outcomes (env a) (build y ++ .finalize :: []) (World.init (heap a)) = [.ok (), .ok (), .ok ()] := by cbv

theorem finalizedAfter : FinalizedAfter (heap a) ((build y).zip (outcomes (env a) (build y) (World.init (heap a))))
    ([].zip (outcomes (env a) [] (exec (env a) (build y ++ [.finalize]) (World.init (heap a))))) (world a y) :=
  exec_finalizedAfter (env a) (heap a) (build y) [] (by rw [outcomes_eq]; decide) (by cbv) (by simp)

theorem vars_eq : (world a y).graph.getAllVariables = [0] := by cbv

theorem heap_eq : (world a y).heap = heap a := by
  funext r
  cbv

theorem facs_eq : (world a y).graph.getAllFactors = [square y] := by cbv

attribute [irreducible] world

theorem noJacobianYet : NoJacobianYet ((build y).zip (outcomes (env a) (build y) (World.init (heap a)))) := by
  have hb : ∀ op ∈ build y, op ≠ .dense ∧ op ≠ .denseAndResidual ∧ op ≠ .sparse := by
    intro op hop
    simp only [build, List.mem_cons, List.not_mem_nil, or_false] at hop
    rcases hop with h | h <;> subst h <;> simp
  refine ⟨fun h => ?_, fun h => ?_, fun h => ?_, fun h => ?_⟩
  · exact (hb _ (List.of_mem_zip h).1).1 rfl
  · exact (hb _ (List.of_mem_zip h).1).2.1 rfl
  · exact (hb _ (List.of_mem_zip h).1).2.1 rfl
  · exact (hb _ (List.of_mem_zip h).1).2.2 rfl

theorem shape {h : Heap (GenVar F)} (hs : SameShape (world a y).heap h) (r : VRef) :
    (h r).isConst = false ∧ (h r).value.length = 1 := by
  rw [heap_eq] at hs
  exact ⟨(hs r).2.1, (hs r).2.2⟩

theorem proper : ∀ h, SameShape (world a y).heap h → ∀ f ∈ (world a y).graph.getAllFactors, ∀ js,
    f.computeJacobians h [] = .ok js → ProperBlocks h f js := by
  rw [facs_eq]
  intro h hs f hf js hjs
  obtain rfl := List.mem_singleton.1 hf
  obtain ⟨hc, hl⟩ := shape a y hs 0
  simp only [square] at hjs
  obtain rfl := Res.ok.inj hjs
  intro k r hp
  match k with
  | 0 =>
    obtain rfl : 0 = r := by simpa [square] using hp
    refine ⟨_, rfl, fun hc' => ?_, fun _ => ⟨rfl, rfl, hl.symm⟩⟩
    simp only [VarLike.isConst] at hc'
    rw [hc] at hc'
    exact absurd hc' (by simp)
  | k + 1 => simp [square] at hp

theorem identify : IdsIdentify (world a y).heap (world a y).graph.getAllVariables (world a y).graph.getAllFactors := by
  rw [facs_eq, vars_eq, heap_eq]
  intro f hf x hx r hr e
  obtain rfl := List.mem_singleton.1 hf
  obtain rfl := List.mem_singleton.1 hr
  simpa [square, eq_comm] using hx

theorem noRepeats : NoRepeats (world a y).graph.getAllFactors := by
  rw [facs_eq]
  intro f hf k l r hp hq
  obtain rfl := List.mem_singleton.1 hf
  match k, l with
  | 0, 0 => rfl
  | k + 1, _ => simp [square] at hp
  | _, l + 1 => simp [square] at hq

theorem reuseSafe : ∀ f ∈ (world a y).graph.getAllFactors, ReuseSafe f := by
  rw [facs_eq]
  intro f hf h buf _
  obtain rfl := List.mem_singleton.1 hf
  rfl

end Factorama.SquareWorld
