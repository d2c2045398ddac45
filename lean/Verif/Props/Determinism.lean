import Verif.Lemmas.Determined
import Verif.Examples.ToyOpt

/-!
# C83: the same program has the same results
-/

namespace Factorama.Props
open Spec Graph Opt
variable {F V Fact : Type} [Zero F] [VarLike F V] [LawfulVar F V]

/-! ### Where it fails -/

namespace C83
/-- The measurement of the between factor is a constant that was not added to the graph. After finalization it is made
free; the next finalization is refused. -/
def ops : List (Op Int (GenVar Int)) :=
  [.addVariable (some 0), .addVariable (some 2), .addFactor Toy.facs[0]?, .addFactor Toy.facs[1]?, .finalize,
   .setConstant 3 false, .finalize]
def world : World Int (GenVar Int) := Toy.exec Toy.env ops (World.init Toy.heap)

/-- Reverse hash order. -/
def envRev : Env Rat (GenVar Rat) := ⟨List.reverse, fun l => List.reverse_perm l, fun _ => -99⟩

/-- A residual evaluation that returns, then a change of values after which one factor throws. -/
def interrupted : List (Op Rat (GenVar Rat)) := ToyOpt.touchyBuild ++ [.finalize, .residual, .setValue 0 [6, 7], .residual]
end C83

/-- **C83 is false** (structure out of date): after a refused `finalize_structure()` the evaluation of the residual into a
new vector returns, but part of what it returns is uninitialised memory. -/
theorem C83_outdated_false : ¬ ∀ (h0 : Heap (GenVar Int)) (evs : List (Op Int (GenVar Int) × Res Unit))
    (w : World Int (GenVar Int)) env env' r r', World.Runs (World.init h0) evs w →
    computeResidualInto env w.graph w.heap [] = (r, .ok ()) → computeResidualInto env' w.graph w.heap [] = (r', .ok ()) →
    r = r' := by
  intro H
  have hr := Toy.exec_runs Toy.env C83.ops (World.init Toy.heap) (by decide +kernel)
  have e1 : computeResidualInto Toy.env C83.world.graph C83.world.heap [] = ([2, 6, 77, 77], .ok ()) := by decide +kernel
  have e2 : computeResidualInto Toy.envRev C83.world.graph C83.world.heap [] = ([2, 6, -99, -99], .ok ()) := by
    decide +kernel
  have := H _ _ _ _ _ _ _ hr e1 e2
  exact absurd this (by decide)

/-- **C83 is false** (interrupted evaluation): when a factor throws during the evaluation of the residual, what
`residual()` returns afterwards depends on the order in which a hash table is traversed. -/
theorem C83_interrupted_false : ¬ ∀ (h0 : Heap (GenVar Rat)) (evs : List (Op Rat (GenVar Rat) × Res Unit))
    (w w' : World Rat (GenVar Rat)), World.Runs (World.init h0) evs w → World.Runs (World.init h0) evs w' →
    w'.graph.residual = w.graph.residual := by
  intro H
  have hr := Toy.exec_runs ToyOpt.env C83.interrupted (World.init ToyOpt.heap) (by decide +kernel)
  have hr' := Toy.exec_runs C83.envRev C83.interrupted (World.init ToyOpt.heap) (by decide +kernel)
  rw [show Toy.outcomes C83.envRev C83.interrupted (World.init ToyOpt.heap) =
    Toy.outcomes ToyOpt.env C83.interrupted (World.init ToyOpt.heap) by decide +kernel] at hr'
  have := H _ _ _ _ hr hr'
  exact absurd this (by decide +kernel)

/-! ### Where it holds -/

/-- **C83, the part that holds**: let two executions of the same program — any calls on the graph, on variables and on the
optimizer — make different undetermined choices (hash order, contents of uninitialised memory). If factors are evaluated
only while the finalized structure is current, every call has the same outcome in both, and at the end all variables, the
statistics of the optimizer, its other results and the sparse Jacobian are the same. Nothing is assumed about the
arithmetic, so this includes rounding. -/
theorem C83_partial {A : Arith F} {L : LinAlg F Fact} {h0 : Heap V} {evs evs' : List (Call F V × Res Unit)}
    {s s' : OptWorld F V Fact} (hrun : Runs A L (init A h0) evs s) (hrun' : Runs A L (init A h0) evs' s')
    (hsame : evs'.map (·.1) = evs.map (·.1)) (hcur : EvaluatesCurrent evs) :
    evs' = evs ∧ s'.heap = s.heap ∧ s'.opt.stats = s.opt.stats ∧ s'.opt.initialStats = s.opt.initialStats ∧
    (∀ v, estimateCovariance A L s' v = estimateCovariance A L s v) ∧
    s'.graph.sparseJacobian = s.graph.sparseJacobian ∧ s'.graph.getAllVariables = s.graph.getAllVariables ∧
    s'.graph.getAllFactors = s.graph.getAllFactors := by
  obtain ⟨h1, h2⟩ := Parallel.runs hrun (before := []) hrun' hsame (Parallel.init A h0) (by simpa using hcur)
  have hcov : ∀ v, estimateCovariance A L s' v = estimateCovariance A L s v := fun v =>
    h2.twin.covariance (by rintro _ g _ ⟨b, M, _, _, rfl⟩; rfl) v
  obtain ⟨g', a, b, rfl, ⟨c, M, _, _, rfl⟩, _⟩ := h2.twin
  exact ⟨h1, rfl, rfl, rfl, hcov, rfl, rfl, rfl⟩

/-- **C83, the part that holds**: in the same situation, with a current structure, an evaluation of the residual that
returns in one execution returns the same vector in the other. -/
theorem C83_residual_partial {A : Arith F} {L : LinAlg F Fact} {h0 : Heap V} {evs evs' : List (Call F V × Res Unit)}
    {s s' : OptWorld F V Fact} (hrun : Runs A L (init A h0) evs s) (hrun' : Runs A L (init A h0) evs' s')
    (hsame : evs'.map (·.1) = evs.map (·.1)) (hcur : EvaluatesCurrent evs) (hnow : StructureCurrent evs)
    {env env' : Env F V} {r buf : List F} (hr : computeResidualInto env s.graph s.heap buf = (r, .ok ())) (buf' : List F) :
    computeResidualInto env' s'.graph s'.heap buf' = (r, .ok ()) ∧
    (computeResidual env' s'.heap s'.graph).2 = .ok r := by
  obtain ⟨h1, h2⟩ := Parallel.runs hrun (before := []) hrun' hsame (Parallel.init A h0) (by simpa using hcur)
  have hl := h2.current (by simpa using hnow)
  obtain ⟨g', a, b, rfl, ⟨c, M, _, _, rfl⟩, _⟩ := h2.twin
  have hres := evaluated_isResidual hl ⟨buf, hr⟩
  refine ⟨isResidual_evaluates (hl.dress c M) hres buf', ?_⟩
  obtain ⟨segs, e1, e2, e3⟩ := hres
  rw [residual_layout (env := env') (hl.dress c M) segs e1 e2, e3]

namespace C83
/-- Run a list of calls. -/
def execWith (env : Env Rat (GenVar Rat)) : List (Call Rat (GenVar Rat)) → OptWorld Rat (GenVar Rat) (Ldlt.Fact Rat) →
    OptWorld Rat (GenVar Rat) (Ldlt.Fact Rat)
  | [], s => s
  | c :: cs, s => execWith env cs (Opt.step ToyOpt.rat Ldlt.linAlg env c s).1

/-- Outcomes of a list of calls. -/
def outcomesWith (env : Env Rat (GenVar Rat)) : List (Call Rat (GenVar Rat)) →
    OptWorld Rat (GenVar Rat) (Ldlt.Fact Rat) → List (Res Unit)
  | [], _ => []
  | c :: cs, s => (Opt.step ToyOpt.rat Ldlt.linAlg env c s).2 ::
      outcomesWith env cs (Opt.step ToyOpt.rat Ldlt.linAlg env c s).1

theorem execWith_runs (env : Env Rat (GenVar Rat)) (cs : List (Call Rat (GenVar Rat)))
    (s : OptWorld Rat (GenVar Rat) (Ldlt.Fact Rat)) (h : Res.ub ∉ outcomesWith env cs s) :
    Runs ToyOpt.rat Ldlt.linAlg s (cs.zip (outcomesWith env cs s)) (execWith env cs s) := by
  induction cs generalizing s with
  | nil => exact .nil s
  | cons c cs ih =>
    simp only [outcomesWith, List.mem_cons, not_or] at h
    exact .cons env rfl (fun e => h.1 e.symm) (ih _ h.2)

/-- Build a graph, finalize it, move a variable, optimize, prepare covariances. -/
def before : List (Call Rat (GenVar Rat)) := ToyOpt.build.map .user
def after : List (Call Rat (GenVar Rat)) :=
  [.user (.setValue 0 [6, 6]), .setup true ToyOpt.lm, .optimize, .prepare, .user .dense, .user .residual]
def start : OptWorld Rat (GenVar Rat) (Ldlt.Fact Rat) := init ToyOpt.rat ToyOpt.heap

theorem outcomes_eq : outcomesWith ToyOpt.env (before ++ .user .finalize :: after) start = List.replicate 12 (.ok ()) := by
  decide +kernel
theorem outcomesRev_eq : outcomesWith envRev (before ++ .user .finalize :: after) start = List.replicate 12 (.ok ()) := by
  decide +kernel

theorem run : Runs ToyOpt.rat Ldlt.linAlg start ((before ++ .user .finalize :: after).zip (List.replicate 12 (.ok ())))
    (execWith ToyOpt.env (before ++ .user .finalize :: after) start) := by
  have := execWith_runs ToyOpt.env (before ++ .user .finalize :: after) start (by rw [outcomes_eq]; decide)
  rwa [outcomes_eq] at this

theorem runRev : Runs ToyOpt.rat Ldlt.linAlg start ((before ++ .user .finalize :: after).zip (List.replicate 12 (.ok ())))
    (execWith envRev (before ++ .user .finalize :: after) start) := by
  have := execWith_runs envRev (before ++ .user .finalize :: after) start (by rw [outcomesRev_eq]; decide)
  rwa [outcomesRev_eq] at this

theorem split : (before ++ .user .finalize :: after).zip (List.replicate 12 (.ok () : Res Unit)) =
    before.zip (List.replicate 5 (.ok ())) ++ (.user .finalize, .ok ()) :: after.zip (List.replicate 6 (.ok ())) := rfl

theorem quietAfter : ∀ ev ∈ after.zip (List.replicate 6 (.ok () : Res Unit)), ¬ changesStructure ev.1 := by
  rintro ⟨c, r⟩ h
  have := (List.of_mem_zip h).1
  simp only [after, List.mem_cons, List.not_mem_nil, or_false] at this
  rcases this with rfl | rfl | rfl | rfl | rfl | rfl <;> exact id

theorem current : EvaluatesCurrent ((before ++ .user .finalize :: after).zip (List.replicate 12 (.ok ()))) := by
  rw [split]
  refine evaluatesCurrent_of ?_ quietAfter
  rintro ⟨c, r⟩ h
  have := (List.of_mem_zip h).1
  simp only [before, ToyOpt.build, List.map_cons, List.map_nil, List.mem_cons, List.not_mem_nil, or_false] at this
  rcases this with rfl | rfl | rfl | rfl | rfl <;> exact id

attribute [irreducible] execWith
end C83

/-- The hypotheses are met by a program that builds a graph, moves a variable, runs Levenberg-Marquardt, prepares covariances
and evaluates, executed with two different hash orders and two different contents of memory. -/
example := C83_partial C83.run C83.runRev rfl C83.current

/-- In that program the variable has been moved to its prior by the optimizer. -/
example : ((C83.execWith ToyOpt.env (C83.before ++ .user .finalize :: C83.after) C83.start).heap 0).value ≠ [6, 6] ∧
    (computeResidualInto ToyOpt.env
      (C83.execWith ToyOpt.env (C83.before ++ .user .finalize :: C83.after) C83.start).graph
      (C83.execWith ToyOpt.env (C83.before ++ .user .finalize :: C83.after) C83.start).heap []).2 = .ok () := by
  decide +kernel

/-- The hypotheses of the statement on residuals are met there. -/
example {r : List Rat} (hr : computeResidualInto ToyOpt.env
    (C83.execWith ToyOpt.env (C83.before ++ .user .finalize :: C83.after) C83.start).graph
    (C83.execWith ToyOpt.env (C83.before ++ .user .finalize :: C83.after) C83.start).heap [] = (r, .ok ())) :=
  C83_residual_partial C83.run C83.runRev rfl C83.current ⟨_, _, C83.split, C83.quietAfter⟩ hr (env' := C83.envRev) [1]

end Factorama.Props
