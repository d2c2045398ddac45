import Verif.Model.Optimizer
import Verif.Model.Stopwatch

/-!
# Model of `SparseOptimizer` with its output and its stopwatches (src/factorama/sparse_optimizer.cpp)

The functions of `Verif/Model/Optimizer.lean` once more, statement by statement, with what they print and the calls on
their stopwatches. A message is modelled by its kind and the numbers in it, not by its text; `density` and the times in
the messages about single steps are left out. The diagnostic "Skipping variable" (lines 97-101 and 415-419) is left out.
-/

namespace Factorama
variable {F V Fact : Type}

/-- The stopwatches of the optimizer, sparse_optimizer.hpp:186-190. -/
inductive Watch where
  | residual
  | jacobian
  | hessian
  | solve
  | updateVars
  deriving DecidableEq, Repr

/-- The numbers common to the messages about one step: sparse_optimizer.cpp:122-127 and 512-521. -/
structure StepSummary (F : Type) where
  iteration : Nat
  /-- "Initial residual norm" -/
  initialNorm : F
  /-- "Final residual norm" -/
  finalNorm : F
  /-- "Step norm (||dx||)" -/
  stepNorm : F
  chi2 : F
  /-- "J: rows x cols" -/
  rows : Nat
  cols : Nat
  /-- "nnz" -/
  nonZeros : Nat
  deriving DecidableEq

/-- The numbers of the summary at the end, sparse_optimizer.cpp:276-304, without the times. -/
structure RunSummary (F : Type) where
  /-- "Total iterations" -/
  iterations : Nat
  /-- "Final residual norm" -/
  residualNorm : F
  /-- "Final chi²" -/
  chi2 : F
  /-- "Final step norm" -/
  stepNorm : F
  /-- "Residual improvement" -/
  improvement : F
  /-- "Relative improvement" (in percent) -/
  relative : F
  /-- "Optimization SUCCESS" (else "Optimization FAILED") -/
  success : Bool
  /-- "Status" -/
  status : Status
  deriving DecidableEq

/-- What the optimizer prints. -/
inductive Message (F : Type) where
  /-- "SparseOptimizer Starting", lines 171-180 -/
  | starting (method : Method) (maxIterations : Nat) (residualNorm chi2 stepTolerance residualTolerance learningRate : F)
  /-- "#### Iteration i ####", line 191 -/
  | iteration (i : Nat)
  /-- "Sparse Cholesky factorization failed", line 43 -/
  | factorizationFailed
  /-- "Hessian is singular", line 59 -/
  | singularHessian (minDiag : F)
  /-- "Hessian is ill-conditioned", line 70 -/
  | illConditionedHessian (condition : F)
  /-- "Failed to solve linear system", line 81 -/
  | solveFailed
  /-- "[SparseGN] Iteration ... Summary", lines 122-129 -/
  | gaussNewtonSummary (s : StepSummary F)
  /-- "[LM] Factorization failed", line 362 -/
  | lmFactorizationFailed (lambda : F)
  /-- "[LM] Hessian is ...", line 378 -/
  | lmBadHessian (singular : Bool) (minDiag condition lambda : F)
  /-- "[LM] Solve failed", line 390 -/
  | lmSolveFailed (lambda : F)
  /-- "[LM] Step accepted, cost: ... -> ...", line 440 -/
  | lmAccepted (old new lambda : F)
  /-- "[LM] Step rejected, cost: ... -> ...", line 455 -/
  | lmRejected (old new lambda : F)
  /-- "[LM] Lambda too large", line 462 -/
  | lmLambdaTooLarge (lambda max : F)
  /-- "[LM] No acceptable step found after ... attempts", line 488 -/
  | lmNoStep (attempts : Nat)
  /-- "[LM] Iteration ... Summary", lines 512-523: also "Damping", "LM attempts", "Step accepted" -/
  | lmSummary (s : StepSummary F) (damping : F) (attempts : Nat) (accepted : Bool)
  /-- "Error in iteration", line 205 -/
  | errorInIteration (i : Nat)
  /-- "Stopping optimization due to error status", line 216 -/
  | stopping
  /-- "Converged: Step norm below tolerance", line 224 -/
  | convergedStep (stepNorm tolerance : F)
  /-- "Aborted: residual went up", line 237 -/
  | wentUp (improvement : F)
  /-- "Converged: Residual improvement below tolerance", line 249 -/
  | convergedResidual (improvement tolerance : F)
  /-- "Diverged: Residual norm too large", line 259 -/
  | diverged (residualNorm initialNorm : F)
  /-- "SparseOptimizer Summary", lines 283-304 -/
  | summary (s : RunSummary F)
  deriving DecidableEq

/-- A message, or a call on a stopwatch. -/
inductive Act (F : Type) where
  | print (m : Message F)
  | press (w : Watch) (p : Stopwatch.Press)
  deriving DecidableEq

/-- A state of the program and what has been printed and pressed so far. -/
structure Talk (F V Fact : Type) where
  world : OptWorld F V Fact
  acts : List (Act F)

namespace Opt
variable [Zero F] [VarLike F V]

/-- Code without output and stopwatches. -/
def silently {α : Type} (m : SE (OptWorld F V Fact) α) : SE (Talk F V Fact) α := fun t =>
  let p := m t.world
  ({ t with world := p.1 }, p.2)

/-- A statement that only acts on the outside. -/
def act (a : Act F) : SE (Talk F V Fact) Unit := SE.modify fun t => { t with acts := t.acts ++ [a] }

/-- `if (settings_.verbose) std::cout << ...`. -/
def say (m : Message F) : SE (Talk F V Fact) Unit := fun t =>
  if t.world.opt.settings.verbose then act (.print m) t else (t, .ok ())

/-- `watch.start()`. -/
def startWatch (w : Watch) : SE (Talk F V Fact) Unit := act (.press w .start)
/-- `watch.stop()`. -/
def stopWatch (w : Watch) : SE (Talk F V Fact) Unit := act (.press w .stop)
/-- `watch.reset()`. -/
def resetWatch (w : Watch) : SE (Talk F V Fact) Unit := act (.press w .reset)

/-- The state of the optimizer. -/
def look : SE (Talk F V Fact) (OptWorld F V Fact) := silently SE.get

/-- The numbers printed about a step; `initial` is the vector whose norm is printed as "Initial residual norm". -/
def stepSummary (A : Arith F) (J : SpMat F) (st : Stats F) (initial : List F) : StepSummary F where
  iteration := st.iteration
  initialNorm := A.norm initial
  finalNorm := st.residualNorm
  stepNorm := st.deltaNorm
  chi2 := st.chi2
  rows := J.rows
  cols := J.columns.length
  nonZeros := J.nonZeros

/-- `single_step_gauss_newton`, sparse_optimizer.cpp:10-131. -/
def gaussNewtonStepV (A : Arith F) (L : LinAlg F Fact) (env : Env F V) : SE (Talk F V Fact) Unit :=
  SE.bind look fun s0 =>
  if !s0.opt.hasGraph then SE.throw
  else
    SE.bind (startWatch .residual) fun _ =>
    SE.bind (silently (evalResidual1 env)) fun _ =>
    SE.bind (stopWatch .residual) fun _ =>
    SE.bind (startWatch .jacobian) fun _ =>
    SE.bind (silently evalSparse) fun J =>
    SE.bind (stopWatch .jacobian) fun _ =>
    SE.bind look fun s =>
    SE.bind (startWatch .hessian) fun _ =>
    let b := L.rhs J s.opt.residual1
    SE.bind (stopWatch .hessian) fun _ =>
    SE.bind (startWatch .solve) fun _ =>
    match L.factorize (L.gram J) with
    | none =>
      SE.bind (silently (modOpt fun o => { o with solver := none })) fun _ =>
      SE.bind (silently (giveUp .failed)) fun _ => say .factorizationFailed
    | some f =>
      SE.bind (silently (modOpt fun o => { o with solver := some f })) fun _ =>
      let D := (L.vectorD f).map A.abs
      SE.bind (stopWatch .solve) fun _ =>
      if D.isEmpty then SE.undefined
      else if A.lt (A.minCoeff D) (A.lit (1 / 10 ^ 14)) then
        SE.bind (silently (giveUp .singularHessian)) fun _ => say (.singularHessian (A.minCoeff D))
      else if A.lt (A.lit (10 ^ 12)) (A.div (A.maxCoeff D) (A.minCoeff D)) then
        SE.bind (silently (giveUp .illConditioned)) fun _ =>
        say (.illConditionedHessian (A.div (A.maxCoeff D) (A.minCoeff D)))
      else match L.solve f b with
        | none => SE.bind (silently (giveUp .failed)) fun _ => say .solveFailed
        | some d =>
          let dx := A.scale s.opt.settings.learningRate d
          SE.bind (startWatch .updateVars) fun _ =>
          SE.bind (silently (stepVariables dx)) fun _ =>
          SE.bind (stopWatch .updateVars) fun _ =>
          SE.bind (silently (evalResidual2 env)) fun _ =>
          SE.bind (silently (SE.bind SE.get fun s' => recordStats A dx s'.opt.residual2)) fun _ =>
          SE.bind look fun s' =>
          say (.gaussNewtonSummary (stepSummary A J s'.opt.stats s'.opt.residual2))

/-- The trial loop of `single_step_levenberg_marquardt`, sparse_optimizer.cpp:341-469, see `lmTrials`. The first argument
is the number of attempts left, the result contains also the final value of `lm_attempts`. -/
def lmTrialsV (A : Arith F) (L : LinAlg F Fact) (env : Env F V) (J : SpMat F) (cost : F) :
    Nat → List F → SE (Talk F V Fact) ((Bool × List F) × Nat)
  | 0, dx => SE.ret ((false, dx), 5)
  | k + 1, dx =>
    SE.bind look fun s =>
    SE.bind (startWatch .hessian) fun _ =>
    let H := addDiagonal A (L.gram J) s.opt.stats.damping
    let b := L.rhs J s.opt.residual1
    SE.bind (stopWatch .hessian) fun _ =>
    SE.bind (startWatch .solve) fun _ =>
    match L.factorize H with
    | none =>
      SE.bind (silently (modOpt fun o => { o with solver := none })) fun _ =>
      SE.bind (silently (raiseLambda A)) fun _ =>
      SE.bind look fun s' =>
      SE.bind (say (.lmFactorizationFailed s'.opt.stats.damping)) fun _ => lmTrialsV A L env J cost k dx
    | some f =>
      SE.bind (silently (modOpt fun o => { o with solver := some f })) fun _ =>
      let D := (L.vectorD f).map A.abs
      if D.isEmpty then SE.undefined
      else if A.lt (A.minCoeff D) (A.lit (1 / 10 ^ 14)) ||
          A.lt (A.lit (10 ^ 12)) (A.div (A.maxCoeff D) (A.minCoeff D)) then
        SE.bind (silently (raiseLambda A)) fun _ =>
        SE.bind look fun s' =>
        SE.bind (say (.lmBadHessian (A.lt (A.minCoeff D) (A.lit (1 / 10 ^ 14))) (A.minCoeff D)
          (A.div (A.maxCoeff D) (A.minCoeff D)) s'.opt.stats.damping)) fun _ => lmTrialsV A L env J cost k dx
      else match L.solve f b with
        | none =>
          SE.bind (silently (raiseLambda A)) fun _ =>
          SE.bind look fun s' =>
          SE.bind (say (.lmSolveFailed s'.opt.stats.damping)) fun _ => lmTrialsV A L env J cost k b
        | some d =>
          SE.bind (stopWatch .solve) fun _ =>
          let dx := A.scale s.opt.settings.learningRate d
          SE.bind (startWatch .updateVars) fun _ =>
          let saved := saveValues s
          SE.bind (silently (stepVariables dx)) fun _ =>
          SE.bind (stopWatch .updateVars) fun _ =>
          SE.bind (startWatch .residual) fun _ =>
          SE.bind (silently (evalResidual2 env)) fun _ =>
          SE.bind (stopWatch .residual) fun _ =>
          SE.bind look fun s' =>
          let new := A.mul (A.lit (1 / 2)) (A.sqNorm s'.opt.residual2)
          if A.lt new cost then
            SE.bind (silently (modStats fun st => { st with
              damping := A.stdMax (A.mul st.damping s.opt.settings.lambdaDown) (A.lit (1 / 10 ^ 12)) })) fun _ =>
            SE.bind look fun s'' =>
            SE.bind (say (.lmAccepted cost new s''.opt.stats.damping)) fun _ =>
            SE.ret ((true, dx), 5 - (k + 1))
          else
            SE.bind (startWatch .updateVars) fun _ =>
            SE.bind (silently (restoreValues saved)) fun _ =>
            SE.bind (silently (modStats fun st => { st with
              damping := A.stdMin (A.mul st.damping s.opt.settings.lambdaUp) s.opt.settings.maxLambda })) fun _ =>
            SE.bind look fun s'' =>
            SE.bind (say (.lmRejected cost new s''.opt.stats.damping)) fun _ =>
            if A.le s.opt.settings.maxLambda s''.opt.stats.damping then
              SE.bind (say (.lmLambdaTooLarge s''.opt.stats.damping s.opt.settings.maxLambda)) fun _ =>
              SE.ret ((false, dx), 5 - k)
            else
              SE.bind (stopWatch .updateVars) fun _ => lmTrialsV A L env J cost k dx

/-- `single_step_levenberg_marquardt`, sparse_optimizer.cpp:310-524. -/
def levenbergMarquardtStepV (A : Arith F) (L : LinAlg F Fact) (env : Env F V) : SE (Talk F V Fact) Unit :=
  SE.bind look fun s0 =>
  if !s0.opt.hasGraph then SE.throw
  else
    SE.bind (startWatch .residual) fun _ =>
    SE.bind (silently (evalResidual1 env)) fun _ =>
    SE.bind (stopWatch .residual) fun _ =>
    SE.bind (startWatch .jacobian) fun _ =>
    SE.bind (silently evalSparse) fun J =>
    SE.bind (stopWatch .jacobian) fun _ =>
    SE.bind look fun s =>
    let cost := A.mul (A.lit (1 / 2)) (A.sqNorm s.opt.residual1)
    SE.bind (silently (modStats fun st =>
      if st.iteration = 0 then { st with damping := s.opt.settings.initialLambda } else st)) fun _ =>
    SE.bind (lmTrialsV A L env J cost 5 []) fun res =>
    SE.bind (if res.1.1 then
        silently (SE.bind SE.get fun s' => recordStats A res.1.2 s'.opt.residual2)
      else
        SE.bind (silently (lmRejected A cost)) fun _ =>
        SE.bind (say (.lmNoStep 5)) fun _ =>
        SE.bind (silently (modOpt fun o => { o with residual2 := o.residual1 })) fun _ =>
        silently (SE.bind SE.get fun s' =>
          recordStats A (List.replicate res.1.2.length (A.lit 0)) s'.opt.residual2)) fun _ =>
    SE.bind look fun s' =>
    say (.lmSummary (stepSummary A J s'.opt.stats s'.opt.residual1) s'.opt.stats.damping (res.2 + 1) res.1.1)

/-- One step of the chosen method, sparse_optimizer.cpp:199-203. -/
def oneStepV (A : Arith F) (L : LinAlg F Fact) (env : Env F V) : SE (Talk F V Fact) Unit :=
  SE.bind look fun s => match s.opt.settings.method with
    | .gaussNewton => gaussNewtonStepV A L env
    | .levenbergMarquardt => levenbergMarquardtStepV A L env

/-- The messages of the checks after a step, sparse_optimizer.cpp:212-265, see `afterStep`. -/
def afterStepSays (A : Arith F) (settings : Settings F) (init prev st : Stats F) : Option (Message F) :=
  if st.status = .singularHessian ∨ st.status = .illConditioned ∨ st.status = .failed then some .stopping
  else if A.lt st.deltaNorm settings.stepTolerance then some (.convergedStep st.deltaNorm settings.stepTolerance)
  else
    let improvement := A.sub prev.residualNorm st.residualNorm
    if A.lt improvement (A.lit 0) then some (.wentUp improvement)
    else if A.lt improvement settings.residualTolerance then
      some (.convergedResidual improvement settings.residualTolerance)
    else if A.lt (A.mul (A.lit 10) init.residualNorm) st.residualNorm then
      some (.diverged st.residualNorm init.residualNorm)
    else none

/-- The header of iteration `i`, printed for the first two and the last one, sparse_optimizer.cpp:188-192. -/
def sayHeader (last : Bool) (i : Nat) : SE (Talk F V Fact) Unit :=
  if decide (i < 2) || last then say (.iteration i) else SE.ret ()

/-- The message of the checks after a step, if there is one. -/
def sayIfAny (m : Option (Message F)) : SE (Talk F V Fact) Unit :=
  match m with
  | some m => say m
  | none => SE.ret ()

/-- The main loop, sparse_optimizer.cpp:187-266, with the number of iterations left; `i` counts the iterations. -/
def iterateV (A : Arith F) (L : LinAlg F Fact) (env : Env F V) : Nat → Nat → SE (Talk F V Fact) Unit
  | 0, _ => SE.ret ()
  | n + 1, i =>
    SE.bind look fun s =>
    SE.bind (sayHeader (n == 0) i) fun _ => fun t0 =>
    match oneStepV A L env t0 with
    | (t', .ub) => (t', .ub)
    | (t', .threw) => SE.bind (act (.print (.errorInIteration i))) (fun _ => silently (giveUp .failed)) t'
    | (t', .ok ()) =>
      let s' := t'.world
      let r := afterStep A s'.opt.settings s'.opt.initialStats s.opt.stats s'.opt.stats
      SE.bind (sayIfAny (afterStepSays A s'.opt.settings s'.opt.initialStats s.opt.stats s'.opt.stats)) (fun _ =>
      SE.bind (silently (modStats fun _ => r.1)) fun _ =>
      if r.2 then SE.ret () else iterateV A L env n (i + 1)) t'

/-- The summary at the end, sparse_optimizer.cpp:284-304. -/
def runSummary (A : Arith F) (o : Optimizer F Fact) : RunSummary F where
  iterations := o.stats.iteration
  residualNorm := o.stats.residualNorm
  chi2 := o.stats.chi2
  stepNorm := o.stats.deltaNorm
  improvement := A.sub o.initialStats.residualNorm o.stats.residualNorm
  relative :=
    if A.lt (A.lit 0) o.initialStats.residualNorm then
      A.mul (A.div (A.sub o.initialStats.residualNorm o.stats.residualNorm) o.initialStats.residualNorm) (A.lit 100)
    else A.lit 0
  success := o.stats.valid
  status := o.stats.status

/-- `optimize`, sparse_optimizer.cpp:141-308. -/
def optimizeV (A : Arith F) (L : LinAlg F Fact) (env : Env F V) : SE (Talk F V Fact) Unit :=
  SE.bind look fun s0 =>
  if !s0.opt.hasGraph then SE.throw
  else
    SE.bind (silently (modStats fun _ => { Stats.default A with valid := true })) fun _ =>
    SE.bind (resetWatch .residual) fun _ =>
    SE.bind (resetWatch .residual) fun _ =>
    SE.bind (resetWatch .hessian) fun _ =>
    SE.bind (resetWatch .solve) fun _ =>
    SE.bind (resetWatch .updateVars) fun _ =>
    SE.bind (silently (evalInitial env)) fun r =>
    SE.bind (silently (modStats fun st => { st with residualNorm := A.norm r, chi2 := A.sqNorm r })) fun _ =>
    SE.bind (silently (modOpt fun o => { o with initialStats := o.stats })) fun _ =>
    SE.bind look fun s1 =>
    SE.bind (say (.starting s1.opt.settings.method s1.opt.settings.maxIterations s1.opt.initialStats.residualNorm
      s1.opt.initialStats.chi2 s1.opt.settings.stepTolerance s1.opt.settings.residualTolerance
      s1.opt.settings.learningRate)) fun _ =>
    SE.bind (iterateV A L env s0.opt.settings.maxIterations 0) fun _ =>
    SE.bind (silently (modStats fun st => if st.status = .running then { st with status := .success } else st)) fun _ =>
    SE.bind look fun s2 =>
    SE.bind (say (.summary (runSummary A s2.opt))) fun _ =>
    silently (modOpt fun o => { o with complete := true })

end Opt
end Factorama
