import Verif.Examples.ToyClip
import Verif.Props.Optimizer

/-!
# C18, C19, C27, C67, C79, C131: variables that cannot be restored

An inverse-range variable whose bound was moved past its value cannot be given its value back (C147): every call clips it. A
Levenberg-Marquardt run on such a variable ends at other values than those it reports on.
-/

namespace Factorama.ToyClip
open Spec Graph Opt Toy

/-- Two free inverse ranges of 1 whose upper bounds were lowered to 1/2 after construction. -/
def heapFree : Heap Var
  | 0 => .inv ⟨1, false, 1 / 10 ^ 6, 1 / 2, 1⟩
  | _ => .inv ⟨2, false, 1 / 10 ^ 6, 1 / 2, 1⟩

/-- The first is measured, the second is not. -/
def buildFree : List (Op Rat Var) :=
  [.addVariable (some 0), .addVariable (some 1), .addFactor (some (genericPrior 10 0 [1] 2)), .addFactor (some (genericPrior 11 0 [1] 3))]

def worldFree : World Rat Var := exec env (buildFree ++ .finalize :: []) (World.init heapFree)

/-- Levenberg-Marquardt set up on it. -/
def startFree : OptWorld Rat Var (Ldlt.Fact Rat) :=
  ⟨worldFree.heap, worldFree.graph, { Optimizer.init ToyOpt.rat with hasGraph := true, settings := ToyOpt.lm }⟩

/-- The run from there. -/
def runFree := optimize ToyOpt.rat Ldlt.linAlg env startFree

theorem finalizedFree : FinalizedAfter heapFree (buildFree.zip (outcomes env buildFree (World.init heapFree))) []
    ⟨startFree.heap, startFree.graph⟩ := by
  have := exec_finalizedAfter env heapFree buildFree [] (by decide +kernel) (by decide +kernel) (by simp)
  rw [List.zip_nil_left] at this
  exact this

theorem facsFree : startFree.graph.getAllFactors = [genericPrior 10 0 [1] 2, genericPrior 11 0 [1] 3] := rfl

/-- The residual of the two factors, at any variables. -/
theorem residualFree (h : Heap Var) (x : Rat) (hx : VarLike.value (F := Rat) (h 0) = [x]) :
    IsResidual h startFree.graph.getAllFactors [2 * (x - 1), 3 * (x - 1)] := by
  rw [facsFree]
  have hc : ∀ i w, (genericPrior (F := Rat) (V := Var) i 0 [1] w).computeResidual h = .ok [w * (x - 1)] := by
    intro i w
    simp [genericPrior, hx, vecSub]
  refine ⟨[[2 * (x - 1)], [3 * (x - 1)]], rfl, ?_, rfl⟩
  intro k f hf
  match k with
  | 0 => obtain rfl := Option.some.inj hf; exact ⟨_, rfl, hc _ _, rfl⟩
  | 1 => obtain rfl := Option.some.inj hf; exact ⟨_, rfl, hc _ _, rfl⟩
  | k + 2 => cases hf

/-- A free variable at 9 that is measured to equal a constant inverse range of 10, whose upper bound was lowered to 1/2 after
construction. -/
def heapTied : Heap Var
  | 0 => .gen ⟨1, false, [9]⟩
  | 1 => .inv ⟨2, true, 1 / 10 ^ 6, 1 / 2, 10⟩
  | _ => .gen ⟨3, true, [0]⟩

def buildTied : List (Op Rat Var) :=
  [.addVariable (some 0), .addVariable (some 1), .addVariable (some 2), .addFactor (some (genericBetween 10 0 1 2 1 1))]

def worldTied : World Rat Var := exec env (buildTied ++ .finalize :: []) (World.init heapTied)

/-- Levenberg-Marquardt with steps that are too long, a small limit for the damping and tolerances of zero. -/
def tiedSettings : Settings Rat :=
  { ToyOpt.lm with learningRate := 3, initialLambda := 1, lambdaUp := 8, maxLambda := 4 / 5, stepTolerance := 0, residualTolerance := 0 }

def startTied : OptWorld Rat Var (Ldlt.Fact Rat) :=
  ⟨worldTied.heap, worldTied.graph, { Optimizer.init ToyOpt.rat with hasGraph := true, settings := tiedSettings }⟩

theorem finalizedTied : FinalizedAfter heapTied (buildTied.zip (outcomes env buildTied (World.init heapTied))) []
    ⟨startTied.heap, startTied.graph⟩ := by
  have := exec_finalizedAfter env heapTied buildTied [] (by decide +kernel) (by decide +kernel) (by simp)
  rw [List.zip_nil_left] at this
  exact this

attribute [irreducible] startFree startTied

end Factorama.ToyClip

namespace Factorama.Props
open Spec Graph Opt

/-- **C19** is false of the code for variables that cannot be restored: without an accepted trial the iteration changes the values
all the same. `C19_rejected_restores_partial` is the same statement for variables that can be restored. -/
theorem C19_false : ¬ ∀ (s : OptWorld Rat ToyClip.Var (Ldlt.Fact Rat)) (h0 : Heap ToyClip.Var)
    (pre post : List (Op Rat ToyClip.Var × Res Unit)), FinalizedAfter h0 pre post ⟨s.heap, s.graph⟩ → s.opt.hasGraph = true →
    s.opt.settings.method = .levenbergMarquardt → (oneStep ToyOpt.rat Ldlt.linAlg ToyClip.env s).2 = .ok () →
    (∃ r0 r, IsResidual s.heap s.graph.getAllFactors r0 ∧
      IsResidual (oneStep ToyOpt.rat Ldlt.linAlg ToyClip.env s).1.heap s.graph.getAllFactors r ∧
      ToyOpt.rat.lt (ToyOpt.rat.mul (ToyOpt.rat.lit (1 / 2)) (ToyOpt.rat.sqNorm r))
        (ToyOpt.rat.mul (ToyOpt.rat.lit (1 / 2)) (ToyOpt.rat.sqNorm r0)) = true) ∨
    (oneStep ToyOpt.rat Ldlt.linAlg ToyClip.env s).1.heap = s.heap := by
  intro h
  have e0 : VarLike.value (F := Rat) (ToyClip.startFree.heap 0) = [1] := by decide +kernel
  have e1 : VarLike.value (F := Rat) ((oneStep ToyOpt.rat Ldlt.linAlg ToyClip.env ToyClip.startFree).1.heap 0) = [1 / 2] := by
    decide +kernel
  rcases h ToyClip.startFree _ _ _ ToyClip.finalizedFree (by decide +kernel) (by decide +kernel) (by decide +kernel) with
    ⟨r0, r, h1, h2, h3⟩ | h1
  · rw [isResidual_unique h1 (ToyClip.residualFree _ _ e0), isResidual_unique h2 (ToyClip.residualFree _ _ e1)] at h3
    exact absurd h3 (by decide +kernel)
  · rw [h1, e0] at e1
    exact absurd e1 (by decide +kernel)

/-- **C18** is false of the code for variables that cannot be restored, here a constant one: a valid Levenberg-Marquardt run that starts
with the cost 1 reports the cost 400/9 at its end. The first iteration lowers the cost, the second is rejected and clips the
constant, and the third starts from the cost that this gives. -/
theorem C18_false : ∃ s : OptWorld Rat ToyClip.Var (Ldlt.Fact Rat), s.opt.hasGraph = true ∧
    s.opt.settings.method = .levenbergMarquardt ∧ (∃ h0 pre post, FinalizedAfter h0 pre post ⟨s.heap, s.graph⟩) ∧
    (optimize ToyOpt.rat Ldlt.linAlg ToyClip.env s).2 = .ok () ∧
    (optimize ToyOpt.rat Ldlt.linAlg ToyClip.env s).1.opt.stats.valid = true ∧
    (optimize ToyOpt.rat Ldlt.linAlg ToyClip.env s).1.opt.stats.iteration = 3 ∧
    (optimize ToyOpt.rat Ldlt.linAlg ToyClip.env s).1.opt.initialStats.chi2 = 1 ∧
    (optimize ToyOpt.rat Ldlt.linAlg ToyClip.env s).1.opt.stats.chi2 = 400 / 9 :=
  ⟨ToyClip.startTied, by decide +kernel, by decide +kernel, ⟨_, _, _, ToyClip.finalizedTied⟩, by decide +kernel, by decide +kernel,
    by decide +kernel, by decide +kernel, by decide +kernel⟩

/-- **C27** is false of the code for variables that cannot be restored: no step throws, the reported cost is 0, and the values at the
end have the residual `(-1, -3/2)`. `C27_statistics_partial` is the statement for variables that can be restored. -/
theorem C27_false : ∃ s : OptWorld Rat ToyClip.Var (Ldlt.Fact Rat), s.opt.hasGraph = true ∧
    (∃ h0 pre post, FinalizedAfter h0 pre post ⟨s.heap, s.graph⟩) ∧
    (optimize ToyOpt.rat Ldlt.linAlg ToyClip.env s).2 = .ok () ∧
    (optimize ToyOpt.rat Ldlt.linAlg ToyClip.env s).1.opt.stats.iteration = 1 ∧
    (∃ r0, (computeResidual ToyClip.env s.heap s.graph).2 = .ok r0 ∧
      (oneStep ToyOpt.rat Ldlt.linAlg ToyClip.env (loopStart ToyOpt.rat ToyClip.env s r0)).2 = .ok ()) ∧
    (optimize ToyOpt.rat Ldlt.linAlg ToyClip.env s).1.opt.stats.chi2 = 0 ∧
    ∀ r, IsResidual (optimize ToyOpt.rat Ldlt.linAlg ToyClip.env s).1.heap s.graph.getAllFactors r → r = [-1, -3 / 2] := by
  have e1 : VarLike.value (F := Rat) ((optimize ToyOpt.rat Ldlt.linAlg ToyClip.env ToyClip.startFree).1.heap 0) = [1 / 2] := by
    decide +kernel
  refine ⟨ToyClip.startFree, by decide +kernel, ⟨_, _, _, ToyClip.finalizedFree⟩, by decide +kernel, by decide +kernel,
    ⟨[0, 0], by decide +kernel, by decide +kernel⟩, by decide +kernel, fun r hr => ?_⟩
  rw [isResidual_unique hr (ToyClip.residualFree _ _ e1)]
  decide +kernel

/-- **C67** is false of the code for variables that cannot be restored, in its last part: the iteration that finds no step and reports
an unchanged cost leaves the measured and the other variable elsewhere. -/
theorem C67_false : ∃ s s2 : OptWorld Rat ToyClip.Var (Ldlt.Fact Rat), oneStep ToyOpt.rat Ldlt.linAlg ToyClip.env s = (s2, .ok ()) ∧
    s.opt.settings.method = .levenbergMarquardt ∧ (∃ h0 pre post, FinalizedAfter h0 pre post ⟨s.heap, s.graph⟩) ∧
    s2.opt.stats.valid = false ∧ s2.opt.stats.status = .failed ∧ s2.heap ≠ s.heap := by
  refine ⟨ToyClip.startFree, (oneStep ToyOpt.rat Ldlt.linAlg ToyClip.env ToyClip.startFree).1, ?_, by decide +kernel,
    ⟨_, _, _, ToyClip.finalizedFree⟩, by decide +kernel, by decide +kernel, fun h => ?_⟩
  · exact Prod.ext rfl (by decide +kernel)
  · have := congrArg (VarLike.value (F := Rat)) (congrFun h 0)
    exact absurd this (by decide +kernel)

/-- **C79** is false of the code for variables that cannot be restored: a free variable that no factor uses is moved. -/
theorem C79_false : ∃ s : OptWorld Rat ToyClip.Var (Ldlt.Fact Rat), s.opt.settings.method = .levenbergMarquardt ∧
    (∃ h0 pre post, FinalizedAfter h0 pre post ⟨s.heap, s.graph⟩) ∧ (optimize ToyOpt.rat Ldlt.linAlg ToyClip.env s).2 = .ok () ∧
    VarLike.isConst (F := Rat) (s.heap 1) = false ∧ 1 ∈ s.graph.getAllVariables ∧ (∀ f ∈ s.graph.getAllFactors, some 1 ∉ f.variables) ∧
    VarLike.value (F := Rat) (s.heap 1) = [1] ∧
    VarLike.value (F := Rat) ((optimize ToyOpt.rat Ldlt.linAlg ToyClip.env s).1.heap 1) = [1 / 2] :=
  ⟨ToyClip.startFree, by decide +kernel, ⟨_, _, _, ToyClip.finalizedFree⟩, by decide +kernel, by decide +kernel, by decide +kernel, by
    rw [ToyClip.facsFree]
    simp [genericPrior], by decide +kernel, by decide +kernel⟩

/-- **C131** is false of the code for variables that cannot be restored: the arithmetic is exact, no step throws, the reported cost is 0
before and after, and the sum of the squares of the residuals of the final values is 13/4. -/
theorem C131_false : ∃ s : OptWorld Rat ToyClip.Var (Ldlt.Fact Rat), s.opt.settings.method = .levenbergMarquardt ∧
    (∃ h0 pre post, FinalizedAfter h0 pre post ⟨s.heap, s.graph⟩) ∧
    (optimize ToyOpt.rat Ldlt.linAlg ToyClip.env s).2 = .ok () ∧
    (optimize ToyOpt.rat Ldlt.linAlg ToyClip.env s).1.opt.stats.chi2 = 0 ∧
    (∃ r0, IsResidual s.heap s.graph.getAllFactors r0 ∧ ToyOpt.rat.sqNorm r0 = 0) ∧
    ∀ r, IsResidual (optimize ToyOpt.rat Ldlt.linAlg ToyClip.env s).1.heap s.graph.getAllFactors r → ToyOpt.rat.sqNorm r = 13 / 4 := by
  have e0 : VarLike.value (F := Rat) (ToyClip.startFree.heap 0) = [1] := by decide +kernel
  have e1 : VarLike.value (F := Rat) ((optimize ToyOpt.rat Ldlt.linAlg ToyClip.env ToyClip.startFree).1.heap 0) = [1 / 2] := by
    decide +kernel
  refine ⟨ToyClip.startFree, by decide +kernel, ⟨_, _, _, ToyClip.finalizedFree⟩, by decide +kernel, by decide +kernel,
    ⟨_, ToyClip.residualFree _ _ e0, by decide +kernel⟩, fun r hr => ?_⟩
  rw [isResidual_unique hr (ToyClip.residualFree _ _ e1)]
  decide +kernel

end Factorama.Props
