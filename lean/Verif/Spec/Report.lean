import Verif.Model.Verbose
import Verif.Spec.Steps

/-!
# Specification vocabulary: what the optimizer reports
-/

namespace Factorama.Spec
variable {F V Fact : Type} [Zero F] [VarLike F V]

/-- The messages among a list of actions, in order. -/
def messages : List (Act F) → List (Message F)
  | [] => []
  | .print m :: as => m :: messages as
  | .press _ _ :: as => messages as

/-- The reports about single steps. -/
def Message.reportsStep : Message F → Prop
  | .gaussNewtonSummary _ => True
  | .lmSummary _ _ _ _ => True
  | _ => False

/-- The messages about one attempt of Levenberg-Marquardt. -/
def Message.reportsAttempt : Message F → Bool
  | .lmFactorizationFailed _ | .lmBadHessian _ _ _ _ | .lmSolveFailed _ | .lmAccepted _ _ _ | .lmRejected _ _ _ => true
  | _ => false

/-- The messages that say why a run ends. -/
def Message.endsRun : Message F → Prop
  | .errorInIteration _ | .stopping | .convergedStep .. | .wentUp _ | .convergedResidual .. | .diverged .. => True
  | _ => False

/-- The number of attempts reported one by one. -/
def attempts (as : List (Act F)) : Nat := (messages as).countP Message.reportsAttempt

/-- The "Initial residual norm" of a report is the norm of the residual before the step. -/
def InitialNormTrue (A : Arith F) (s : OptWorld F V Fact) (q : StepSummary F) : Prop :=
  ∃ r, IsResidual s.heap s.graph.getAllFactors r ∧ q.initialNorm = A.norm r

/-- The other numbers of a report describe the step from `s` to `s'`: the number of the iteration, norm and square of
the residual after the step, the length of the step, and the shape of the sparse Jacobian evaluated before the step. -/
def NumbersTrue (A : Arith F) (s s' : OptWorld F V Fact) (q : StepSummary F) : Prop :=
  q.iteration = s.opt.stats.iteration + 1 ∧
  (∃ r, IsResidual s'.heap s.graph.getAllFactors r ∧ q.finalNorm = A.norm r ∧ q.chi2 = A.sqNorm r) ∧
  q.stepNorm = s'.opt.stats.deltaNorm ∧
  ∃ J, (Graph.computeSparse s.heap s.graph).2 = .ok J ∧ q.rows = J.rows ∧ q.cols = J.columns.length ∧
    q.nonZeros = J.nonZeros

/-- What holds for a report about a step: it is the report of a step of this run, and its numbers are true. A report of
Levenberg-Marquardt also tells the norm before the step, the damping after it, and whether a step was accepted: if so the
cost fell, if not no variable was changed. -/
def ReportTrue (A : Arith F) (L : LinAlg F Fact) (env : Env F V) (s1 : OptWorld F V Fact) : Message F → Prop
  | .gaussNewtonSummary q => ∃ k s s', Iterations A L env k s1 s ∧ Opt.oneStep A L env s = (s', .ok ()) ∧
      q.iteration = k + 1 ∧ NumbersTrue A s s' q
  | .lmSummary q damping _ accepted => ∃ k s s', Iterations A L env k s1 s ∧ Opt.oneStep A L env s = (s', .ok ()) ∧
      q.iteration = k + 1 ∧ NumbersTrue A s s' q ∧ InitialNormTrue A s q ∧ damping = s'.opt.stats.damping ∧
      (accepted = true → ∃ r r', IsResidual s.heap s.graph.getAllFactors r ∧ IsResidual s'.heap s.graph.getAllFactors r' ∧
        A.lt (A.mul (A.lit (1 / 2)) (A.sqNorm r')) (A.mul (A.lit (1 / 2)) (A.sqNorm r)) = true) ∧
      (accepted = false → s'.heap = s.heap)
  | _ => True

/-- What holds for the other messages of a run, whose main loop starts in state `s1`: the settings and the starting point at
the top, the header of an iteration, the notice of an exception, and the reasons for stopping. -/
def LoopMessageTrue (A : Arith F) (L : LinAlg F Fact) (env : Env F V) (s1 : OptWorld F V Fact) : Message F → Prop
  | .starting method maxIterations norm chi2 stepTol resTol rate =>
      method = s1.opt.settings.method ∧ maxIterations = s1.opt.settings.maxIterations ∧ norm = s1.opt.stats.residualNorm ∧
      chi2 = s1.opt.stats.chi2 ∧ stepTol = s1.opt.settings.stepTolerance ∧ resTol = s1.opt.settings.residualTolerance ∧
      rate = s1.opt.settings.learningRate
  | .iteration i => ∃ s, Iterations A L env i s1 s
  | .errorInIteration i => ∃ s, Iterations A L env i s1 s ∧ (Opt.oneStep A L env s).2 = .threw
  | .stopping => ∃ k s s', Iterations A L env k s1 s ∧ Opt.oneStep A L env s = (s', .ok ()) ∧
      (s'.opt.stats.status = .singularHessian ∨ s'.opt.stats.status = .illConditioned ∨ s'.opt.stats.status = .failed)
  | .convergedStep d tol => ∃ k s s', Iterations A L env k s1 s ∧ Opt.oneStep A L env s = (s', .ok ()) ∧
      d = s'.opt.stats.deltaNorm ∧ tol = s'.opt.settings.stepTolerance ∧ A.lt d tol = true
  | .wentUp x => ∃ k s s', Iterations A L env k s1 s ∧ Opt.oneStep A L env s = (s', .ok ()) ∧
      x = A.sub s.opt.stats.residualNorm s'.opt.stats.residualNorm ∧ A.lt x (A.lit 0) = true
  | .convergedResidual x tol => ∃ k s s', Iterations A L env k s1 s ∧ Opt.oneStep A L env s = (s', .ok ()) ∧
      x = A.sub s.opt.stats.residualNorm s'.opt.stats.residualNorm ∧ tol = s'.opt.settings.residualTolerance ∧
      A.lt x tol = true
  | .diverged norm initial => ∃ k s s', Iterations A L env k s1 s ∧ Opt.oneStep A L env s = (s', .ok ()) ∧
      norm = s'.opt.stats.residualNorm ∧ initial = s'.opt.initialStats.residualNorm ∧
      A.lt (A.mul (A.lit 10) initial) norm = true
  | _ => True

/-- The message about a refused linear system, and the status it comes with; see `SystemRefused`. -/
inductive RefusalSaid (A : Arith F) (L : LinAlg F Fact) (H : Mat F) (b : List F) : Status → Message F → Prop where
  | noFactorisation : L.factorize H = none → RefusalSaid A L H b .failed .factorizationFailed
  | singular {f : Fact} : L.factorize H = some f → ¬ PivotsLarge A (L.vectorD f) →
      RefusalSaid A L H b .singularHessian (.singularHessian (A.minCoeff ((L.vectorD f).map A.abs)))
  | unbalanced {f : Fact} : L.factorize H = some f → PivotsLarge A (L.vectorD f) → ¬ PivotsBalanced A (L.vectorD f) →
      RefusalSaid A L H b .illConditioned (.illConditionedHessian
        (A.div (A.maxCoeff ((L.vectorD f).map A.abs)) (A.minCoeff ((L.vectorD f).map A.abs))))
  | noSolution {f : Fact} : L.factorize H = some f → PivotsLarge A (L.vectorD f) → PivotsBalanced A (L.vectorD f) →
      L.solve f b = none → RefusalSaid A L H b .failed .solveFailed

/-- The message about an unsuccessful trial with damping `lambda`, with the new damping and whether it has reached
`max_lambda`; see `FailedTrial`. -/
inductive FailedSaid (A : Arith F) (L : LinAlg F Fact) (settings : Settings F) (h : Heap V) (vars : List VRef)
    (facs : List (Factor F V)) (r : List F) (J : SpMat F) (lambda : F) : Message F → F → Bool → Prop where
  | factorisation : L.factorize (damped A (L.gram J) lambda) = none →
      FailedSaid A L settings h vars facs r J lambda (.lmFactorizationFailed (A.mul lambda settings.lambdaUp))
        (A.mul lambda settings.lambdaUp) false
  | pivots {f : Fact} {singular : Bool} : L.factorize (damped A (L.gram J) lambda) = some f →
      ¬ (PivotsLarge A (L.vectorD f) ∧ PivotsBalanced A (L.vectorD f)) →
      (singular = true ↔ ¬ PivotsLarge A (L.vectorD f)) →
      FailedSaid A L settings h vars facs r J lambda (.lmBadHessian singular (A.minCoeff ((L.vectorD f).map A.abs))
          (A.div (A.maxCoeff ((L.vectorD f).map A.abs)) (A.minCoeff ((L.vectorD f).map A.abs)))
          (A.mul lambda settings.lambdaUp))
        (A.mul lambda settings.lambdaUp) false
  | solution {f : Fact} : L.factorize (damped A (L.gram J) lambda) = some f → PivotsLarge A (L.vectorD f) →
      PivotsBalanced A (L.vectorD f) → L.solve f (L.rhs J r) = none →
      FailedSaid A L settings h vars facs r J lambda (.lmSolveFailed (A.mul lambda settings.lambdaUp))
        (A.mul lambda settings.lambdaUp) false
  | worse {d r' : List F} {h' : Heap V} {lambda' : F} : SystemSolved A L (damped A (L.gram J) lambda) (L.rhs J r) d →
      Stepped h h' vars (A.scale settings.learningRate d) → IsResidual h' facs r' →
      A.lt (A.mul (A.lit (1 / 2)) (A.sqNorm r')) (A.mul (A.lit (1 / 2)) (A.sqNorm r)) = false →
      lambda' = A.stdMin (A.mul lambda settings.lambdaUp) settings.maxLambda →
      FailedSaid A L settings h vars facs r J lambda
        (.lmRejected (A.mul (A.lit (1 / 2)) (A.sqNorm r)) (A.mul (A.lit (1 / 2)) (A.sqNorm r')) lambda') lambda'
        (A.le settings.maxLambda lambda')

/-- The messages about at most `n` trials, the first with damping `lambda`; the last two arguments are the heap of an
accepted step and the damping at the end. See `Trials`. -/
inductive TrialsSaid (A : Arith F) (L : LinAlg F Fact) (settings : Settings F) (h : Heap V) (vars : List VRef)
    (facs : List (Factor F V)) (r : List F) (J : SpMat F) : Nat → F → List (Message F) → Option (Heap V) → F → Prop where
  | exhausted {lambda : F} : TrialsSaid A L settings h vars facs r J 0 lambda [] none lambda
  | accepted {n : Nat} {lambda lambda' : F} {d r' : List F} {h' : Heap V} :
      SystemSolved A L (damped A (L.gram J) lambda) (L.rhs J r) d →
      Stepped h h' vars (A.scale settings.learningRate d) → IsResidual h' facs r' →
      A.lt (A.mul (A.lit (1 / 2)) (A.sqNorm r')) (A.mul (A.lit (1 / 2)) (A.sqNorm r)) = true →
      lambda' = A.stdMax (A.mul lambda settings.lambdaDown) (A.lit (1 / 10 ^ 12)) →
      TrialsSaid A L settings h vars facs r J (n + 1) lambda
        [.lmAccepted (A.mul (A.lit (1 / 2)) (A.sqNorm r)) (A.mul (A.lit (1 / 2)) (A.sqNorm r')) lambda'] (some h') lambda'
  | retry {n : Nat} {lambda lambda' lambda'' : F} {m : Message F} {ms : List (Message F)} {o : Option (Heap V)} :
      FailedSaid A L settings h vars facs r J lambda m lambda' false →
      TrialsSaid A L settings h vars facs r J n lambda' ms o lambda'' →
      TrialsSaid A L settings h vars facs r J (n + 1) lambda (m :: ms) o lambda''
  | limit {n : Nat} {lambda lambda' : F} {m : Message F} : FailedSaid A L settings h vars facs r J lambda m lambda' true →
      TrialsSaid A L settings h vars facs r J (n + 1) lambda [m, .lmLambdaTooLarge lambda' settings.maxLambda] none lambda'

/-- Settings with `verbose` and `check_rank_deficiency` off. -/
def settingsOff (st : Settings F) : Settings F := { st with verbose := false, checkRankDeficiency := false }

/-- A call with these settings off. -/
def callOff : Opt.Call F V → Opt.Call F V
  | .setup g st => .setup g (settingsOff st)
  | c => c

/-- A state with these settings off. -/
def worldOff (s : OptWorld F V Fact) : OptWorld F V Fact :=
  { s with opt := { s.opt with settings := settingsOff s.opt.settings } }

/-- The calls on one stopwatch among actions at given times. -/
def pressesOf (w : Watch) : List (Nat × Act F) → List (Nat × Stopwatch.Press)
  | [] => []
  | (time, .press w' p) :: as => if w' = w then (time, p) :: pressesOf w as else pressesOf w as
  | (_, .print _) :: as => pressesOf w as

/-- The time a stopwatch shows at time `now` after these actions. -/
def shownTime (w : Watch) (acts : List (Nat × Act F)) (now : Nat) : Int :=
  (Stopwatch.after (pressesOf w acts)).elapsed now

end Factorama.Spec
