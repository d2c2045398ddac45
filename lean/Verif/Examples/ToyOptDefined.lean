import Verif.Examples.ToyOpt
import Verif.Lemmas.OptTotal

/-!
# The example graph meets the conditions for defined behaviour
-/

namespace Factorama
open Spec Graph Opt

namespace Ldlt
variable {F : Type} [Zero F] [Add F] [Sub F] [Mul F] [Div F] [Neg F] [DecidableEq F]

theorem factorRows_length (n : Nat) (rows : List (List F)) (f : Fact F) (h : factorRows n rows = some f) :
    f.length = n := by
  induction n generalizing rows f with
  | zero => simp [factorRows] at h; subst h; rfl
  | succ n ih =>
    unfold factorRows at h
    split at h
    · split at h
      · simp at h
      · dsimp only at h
        split at h
        · simp at h
        · rename_i g hg
          obtain rfl := Option.some.inj h
          simp [ih _ _ hg]
    · simp at h

theorem solveFact_length (f : Fact F) (b x : List F) (h : solveFact f b = some x) : x.length = f.length := by
  induction f generalizing b x with
  | nil => simp [solveFact] at h; subst h; rfl
  | cons p f ih =>
    cases b with
    | nil => simp [solveFact] at h
    | cons b bs =>
      unfold solveFact at h
      split at h
      · simp at h
      · rename_i xs hxs
        obtain rfl := Option.some.inj h
        simp [ih _ _ hxs]

theorem sizesRight : SizesRight (linAlg : LinAlg F (Fact F)) where
  gram _ := rfl
  rhs J r := by simp [linAlg, rhs]
  diagonal H f h := by simp only [linAlg, List.length_map]; exact factorRows_length _ _ _ h
  solution H f b d h hs _ := (solveFact_length f b d hs).trans (factorRows_length _ _ _ h)

end Ldlt

namespace ToyOpt
open Toy

theorem vars_eq : world.graph.getAllVariables = [0, 1, 2] := by decide +kernel

/-- The class invariant of the run: the constness pattern, and every variable has two values. -/
def Inv (h : Heap (GenVar Rat)) : Prop :=
  (h 0).isConst = false ∧ (h 1).isConst = false ∧ (h 2).isConst = true ∧ ∀ r, r < 3 → (h r).value.length = 2

theorem inv_set {h : Heap (GenVar Rat)} (hi : Inv h) (r : VRef) (v : GenVar Rat) (hc : v.isConst = (h r).isConst)
    (hv : r < 3 → v.value.length = 2) : Inv (h.set r v) := by
  obtain ⟨c0, c1, c2, hl⟩ := hi
  refine ⟨?_, ?_, ?_, fun r' hr' => ?_⟩
  all_goals simp only [Heap.set]; split
  · rename_i e; rw [hc, ← e]; exact c0
  · exact c0
  · rename_i e; rw [hc, ← e]; exact c1
  · exact c1
  · rename_i e; rw [hc, ← e]; exact c2
  · exact c2
  · rename_i e; exact hv (e ▸ hr')
  · exact hl r' hr'

theorem proper_prior {h : Heap (GenVar Rat)} (hi : Inv h) :
    ProperBlocks h (genericPrior 10 0 [4, 4] 2) [Mat.diag 2 2] := by
  intro p r hp
  match p with
  | 0 =>
    obtain rfl : 0 = r := by simpa [genericPrior] using hp
    refine ⟨Mat.diag 2 2, rfl, fun hc => ?_, fun _ => ⟨rfl, rfl, (hi.2.2.2 0 (by decide)).symm⟩⟩
    have := hi.1
    simp only [VarLike.isConst] at hc
    rw [hc] at this
    exact absurd this (by simp)
  | p + 1 => simp [genericPrior] at hp

theorem proper_between {h : Heap (GenVar Rat)} (hi : Inv h) : ProperBlocks h (genericBetween 11 0 1 2 2 3)
    [Mat.diag 2 (-3), Mat.diag 2 3, Mat.empty] := by
  obtain ⟨c0, c1, c2, hl⟩ := hi
  intro p r hp
  match p with
  | 0 =>
    obtain rfl : 0 = r := by simpa [genericBetween] using hp
    refine ⟨_, rfl, fun hc => ?_, fun _ => ⟨rfl, rfl, (hl 0 (by decide)).symm⟩⟩
    simp only [VarLike.isConst] at hc
    rw [hc] at c0
    exact absurd c0 (by simp)
  | 1 =>
    obtain rfl : 1 = r := by simpa [genericBetween] using hp
    refine ⟨_, rfl, fun hc => ?_, fun _ => ⟨rfl, rfl, (hl 1 (by decide)).symm⟩⟩
    simp only [VarLike.isConst] at hc
    rw [hc] at c1
    exact absurd c1 (by simp)
  | 2 =>
    obtain rfl : 2 = r := by simpa [genericBetween] using hp
    refine ⟨_, rfl, fun _ => rfl, fun hc => ?_⟩
    simp only [VarLike.isConst] at hc
    rw [hc] at c2
    exact absurd c2 (by simp)
  | p + 3 => simp [genericBetween] at hp

theorem methodsDefined : MethodsDefined Inv world.graph.getAllVariables world.graph.getAllFactors := by
  rw [facs_eq, vars_eq]
  constructor
  · intro h hi r hr _ x hx
    right
    have hr3 : r < 3 := by
      simp only [List.mem_cons, List.not_mem_nil, or_false] at hr
      rcases hr with rfl | rfl | rfl <;> decide
    have hv := hi.2.2.2 r hr3
    have hx' : x.length = (h r).value.length := hx
    exact ⟨{ h r with value := List.zipWith (· + ·) (h r).value x },
      by simp [VarLike.applyIncr, GenVar.applyIncr, hx'], inv_set hi r _ rfl (fun _ => by simp only [List.length_zipWith]; omega)⟩
  · intro h h' hi hi' r hr
    right
    have hr3 : r < 3 := by
      simp only [List.mem_cons, List.not_mem_nil, or_false] at hr
      rcases hr with rfl | rfl | rfl <;> decide
    have hv := hi.2.2.2 r hr3
    have hv' := hi'.2.2.2 r hr3
    exact ⟨{ h r with value := (h' r).value }, by simp [VarLike.setValue, GenVar.setValue, VarLike.value, hv, hv'],
      inv_set hi r _ rfl (fun _ => hv')⟩
  · intro h hi f hf
    right
    have h0 := hi.2.2.2 0 (by decide)
    have h1 := hi.2.2.2 1 (by decide)
    have h2 := hi.2.2.2 2 (by decide)
    simp only [facs, List.mem_cons, List.not_mem_nil, or_false] at hf
    rcases hf with rfl | rfl
    · refine ⟨_, by simp only [genericPrior, vecSub, VarLike.value]; rw [if_pos (by simpa using h0)], ?_⟩
      simp [genericPrior, h0]
    · refine ⟨_, by
        simp only [genericBetween, vecSub, VarLike.value]
        rw [if_pos (by omega)]
        dsimp only
        rw [if_pos (by simp; omega)], ?_⟩
      simp [genericBetween, h0, h1, h2]
  · intro h hi f hf buf _
    right
    simp only [facs, List.mem_cons, List.not_mem_nil, or_false] at hf
    rcases hf with rfl | rfl
    · refine ⟨_, ?_, proper_prior hi⟩
      simp [genericPrior, VarLike.isConst, hi.1]
    · refine ⟨_, ?_, proper_between hi⟩
      simp [genericBetween, betweenBlock, VarLike.isConst, hi.1, hi.2.1, hi.2.2.1]

theorem inv_start : Inv world.heap := by
  refine ⟨by decide +kernel, by decide +kernel, by decide +kernel, ?_⟩
  decide +kernel

theorem noJacobianYet : NoJacobianYet (build.zip (outcomes env build (World.init heap))) := by
  have hb : ∀ op ∈ build, op ≠ .dense ∧ op ≠ .denseAndResidual ∧ op ≠ .sparse := by
    intro op hop
    simp only [build, List.mem_cons, List.not_mem_nil, or_false] at hop
    rcases hop with h | h | h | h | h <;> subst h <;> simp
  refine ⟨fun h => ?_, fun h => ?_, fun h => ?_, fun h => ?_⟩
  · exact (hb _ (List.of_mem_zip h).1).1 rfl
  · exact (hb _ (List.of_mem_zip h).1).2.1 rfl
  · exact (hb _ (List.of_mem_zip h).1).2.1 rfl
  · exact (hb _ (List.of_mem_zip h).1).2.2 rfl

theorem identify : IdsIdentify world.heap world.graph.getAllVariables world.graph.getAllFactors := by
  rw [facs_eq, vars_eq]
  have key : ∀ v ∈ [0, 1, 2], ∀ r ∈ [0, 1, 2], VarLike.id (world.heap r) = VarLike.id (world.heap v) → r = v := by
    decide +kernel
  intro f hf v hv r hr e
  refine key v ?_ r hr e
  simp only [facs, List.mem_cons, List.not_mem_nil, or_false] at hf
  rcases hf with rfl | rfl
  · simp [genericPrior] at hv; simp [hv]
  · simp [genericBetween] at hv
    simpa using hv

theorem noRepeats : NoRepeats world.graph.getAllFactors := by
  rw [facs_eq]
  intro f hf p q r hp hq
  simp only [facs, List.mem_cons, List.not_mem_nil, or_false] at hf
  rcases hf with rfl | rfl
  · match p, q with
    | 0, 0 => rfl
    | p + 1, _ => simp [genericPrior] at hp
    | _, q + 1 => simp [genericPrior] at hq
  · match p, q with
    | 0, 0 => rfl
    | 1, 1 => rfl
    | 2, 2 => rfl
    | 0, 1 | 0, 2 | 1, 0 | 1, 2 | 2, 0 | 2, 1 => simp [genericBetween] at hp hq; subst hp; exact absurd hq (by decide)
    | p + 3, _ => simp [genericBetween] at hp
    | _, q + 3 => simp [genericBetween] at hq

theorem reuseSafe : ∀ f ∈ world.graph.getAllFactors, ReuseSafe f := by
  rw [facs_eq]
  intro f hf h buf _
  simp only [facs, List.mem_cons, List.not_mem_nil, or_false] at hf
  rcases hf with rfl | rfl <;> rfl

theorem inv_shape {h : Heap (GenVar Rat)} (hs : SameShape world.heap h) : Inv h := by
  obtain ⟨c0, c1, c2, hl⟩ := inv_start
  refine ⟨((hs 0).2.1).trans c0, ((hs 1).2.1).trans c1, ((hs 2).2.1).trans c2, fun r hr => ?_⟩
  exact ((hs r).2.2).trans (hl r hr)

theorem proper : ∀ h, SameShape world.heap h → ∀ f ∈ world.graph.getAllFactors, ∀ js, f.computeJacobians h [] = .ok js →
    ProperBlocks h f js := by
  rw [facs_eq]
  intro h hs f hf js hjs
  have hi := inv_shape hs
  simp only [facs, List.mem_cons, List.not_mem_nil, or_false] at hf
  rcases hf with rfl | rfl
  · simp only [genericPrior, VarLike.isConst, hi.1] at hjs
    obtain rfl := Res.ok.inj hjs
    exact proper_prior hi
  · simp only [genericBetween, betweenBlock, VarLike.isConst, hi.1, hi.2.1, hi.2.2.1] at hjs
    obtain rfl := Res.ok.inj hjs
    exact proper_between hi

/-- All variables constant. -/
def frozenHeap : Heap (GenVar Rat) := fun r => { heap r with isConst := true }

def frozenWorld : World Rat (GenVar Rat) := exec env (build ++ .finalize :: []) (World.init frozenHeap)

theorem frozenFinalized : FinalizedAfter frozenHeap (build.zip (outcomes env build (World.init frozenHeap))) []
    ⟨frozenWorld.heap, frozenWorld.graph⟩ := by
  apply finalizedAfter_of
  have := exec_finalizedAfter env frozenHeap build [] (by decide +kernel) (by decide +kernel) (by simp)
  rw [List.zip_nil_left] at this
  exact this

attribute [irreducible] frozenWorld

end ToyOpt
end Factorama
