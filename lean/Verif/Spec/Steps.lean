import Verif.Spec.Optimizer

/-!
# Specification of one optimizer iteration
-/

namespace Factorama.Spec
variable {F V Fact : Type} [Zero F] [VarLike F V]

/-- `r` and `J` are the stacked residual and the stacked Jacobian of the factors for the variables in `h`, every one
evaluated at `h`. -/
structure Linearised (h : Heap V) (vars : List VRef) (facs : List (Factor F V)) (r : List F) (J : SpMat F) : Prop where
  residual : IsResidual h facs r
  rows : J.rows = rowTotal facs
  columns : J.columns.length = freeTotal h vars
  jacobian : ∃ blocks : Nat → List (Mat F),
    (∀ (k : Nat) f, facs[k]? = some f → f.computeJacobians h [] = .ok (blocks k) ∧ ProperBlocks h f (blocks k)) ∧
    IsStackedJacobian h vars facs blocks J.coeff

/-- `h'` is `h` with every free variable of the graph incremented by its part of `dx`, and nothing else changed. -/
def Stepped (h h' : Heap V) (vars : List VRef) (dx : List F) : Prop :=
  ∀ r, (r ∈ vars ∧ VarLike.isConst (h r) = false → VarLike.applyIncr (h r) (partOf h vars dx r) = .ok (h' r)) ∧
    (¬ (r ∈ vars ∧ VarLike.isConst (h r) = false) → h' r = h r)

/-- The smallest pivot is large enough: it is not below `10⁻¹⁴` in absolute value. -/
def PivotsLarge (A : Arith F) (D : List F) : Prop := A.lt (A.minCoeff (D.map A.abs)) (A.lit (1 / 10 ^ 14)) = false

/-- The ratio of the largest and the smallest pivot is not above `10¹²`. -/
def PivotsBalanced (A : Arith F) (D : List F) : Prop :=
  A.lt (A.lit (10 ^ 12)) (A.div (A.maxCoeff (D.map A.abs)) (A.minCoeff (D.map A.abs))) = false

/-- The linear system with matrix `H` and right-hand side `b` was found usable and was solved with solution `d`. -/
def SystemSolved (A : Arith F) (L : LinAlg F Fact) (H : Mat F) (b d : List F) : Prop :=
  ∃ f, L.factorize H = some f ∧ PivotsLarge A (L.vectorD f) ∧ PivotsBalanced A (L.vectorD f) ∧ L.solve f b = some d

/-- Why a linear system is refused, as reported by the status. -/
inductive SystemRefused (A : Arith F) (L : LinAlg F Fact) (H : Mat F) (b : List F) : Status → Prop where
  | noFactorisation : L.factorize H = none → SystemRefused A L H b .failed
  | singular {f : Fact} : L.factorize H = some f → ¬ PivotsLarge A (L.vectorD f) → SystemRefused A L H b .singularHessian
  | unbalanced {f : Fact} : L.factorize H = some f → PivotsLarge A (L.vectorD f) → ¬ PivotsBalanced A (L.vectorD f) →
      SystemRefused A L H b .illConditioned
  | noSolution {f : Fact} : L.factorize H = some f → PivotsLarge A (L.vectorD f) → PivotsBalanced A (L.vectorD f) →
      L.solve f b = none → SystemRefused A L H b .failed

/-- The damping of the first trial of an iteration: `initial_lambda` in the first iteration, later what the previous
iteration left. -/
def firstDamping (settings : Settings F) (st : Stats F) : F := if st.iteration = 0 then settings.initialLambda else st.damping

/-- The matrix `H` with `lambda` added on the diagonal. -/
def damped (A : Arith F) (H : Mat F) (lambda : F) : Mat F :=
  ⟨H.rows, H.cols, fun i j => if i = j then A.add (H.entry i j) lambda else H.entry i j⟩

/-- An unsuccessful Levenberg-Marquardt trial with damping `lambda` from the point `h`, where the residual is `r` and the
Jacobian `J`: either the damped system is not solved, and the damping is multiplied by `lambda_up_factor`; or the step does
not lower the cost, and the damping is also limited to `max_lambda`. The last two arguments are the new damping and whether
it has reached `max_lambda`, which ends the trials. -/
inductive FailedTrial (A : Arith F) (L : LinAlg F Fact) (settings : Settings F) (h : Heap V) (vars : List VRef)
    (facs : List (Factor F V)) (r : List F) (J : SpMat F) (lambda : F) : F → Bool → Prop where
  | unsolved : (∀ d, ¬ SystemSolved A L (damped A (L.gram J) lambda) (L.rhs J r) d) →
      FailedTrial A L settings h vars facs r J lambda (A.mul lambda settings.lambdaUp) false
  | worse {d r' : List F} {h' : Heap V} : SystemSolved A L (damped A (L.gram J) lambda) (L.rhs J r) d →
      Stepped h h' vars (A.scale settings.learningRate d) → IsResidual h' facs r' →
      A.lt (A.mul (A.lit (1 / 2)) (A.sqNorm r')) (A.mul (A.lit (1 / 2)) (A.sqNorm r)) = false →
      FailedTrial A L settings h vars facs r J lambda (A.stdMin (A.mul lambda settings.lambdaUp) settings.maxLambda)
        (A.le settings.maxLambda (A.stdMin (A.mul lambda settings.lambdaUp) settings.maxLambda))

/-- At most `n` trials, the first with damping `lambda`. The last two arguments are the accepted step, if there is one
(increment, new variables, new residual), and the damping at the end. -/
inductive Trials (A : Arith F) (L : LinAlg F Fact) (settings : Settings F) (h : Heap V) (vars : List VRef)
    (facs : List (Factor F V)) (r : List F) (J : SpMat F) : Nat → F → Option (List F × Heap V × List F) → F → Prop where
  | exhausted {lambda : F} : Trials A L settings h vars facs r J 0 lambda none lambda
  | accepted {n : Nat} {lambda : F} {d r' : List F} {h' : Heap V} :
      SystemSolved A L (damped A (L.gram J) lambda) (L.rhs J r) d →
      Stepped h h' vars (A.scale settings.learningRate d) → IsResidual h' facs r' →
      A.lt (A.mul (A.lit (1 / 2)) (A.sqNorm r')) (A.mul (A.lit (1 / 2)) (A.sqNorm r)) = true →
      Trials A L settings h vars facs r J (n + 1) lambda (some (A.scale settings.learningRate d, h', r'))
        (A.stdMax (A.mul lambda settings.lambdaDown) (A.lit (1 / 10 ^ 12)))
  | retry {n : Nat} {lambda lambda' lambda'' : F} {o : Option (List F × Heap V × List F)} :
      FailedTrial A L settings h vars facs r J lambda lambda' false →
      Trials A L settings h vars facs r J n lambda' o lambda'' → Trials A L settings h vars facs r J (n + 1) lambda o lambda''
  | limit {n : Nat} {lambda lambda' : F} : FailedTrial A L settings h vars facs r J lambda lambda' true →
      Trials A L settings h vars facs r J (n + 1) lambda none lambda'

/-- Why a run is ended after an iteration, with the status and the validity flag this gives: `start`, `before` and `now`
are the norms of the residual at the start of the run, before and after the iteration, `delta` is the norm of the step. The
rules are tried in this order. -/
inductive Stops (A : Arith F) (settings : Settings F) (start before now delta : F) : Status → Bool → Prop where
  | smallStep : A.lt delta settings.stepTolerance = true → Stops A settings start before now delta .success true
  | worseThanStart : A.lt delta settings.stepTolerance = false → A.lt (A.sub before now) (A.lit 0) = true →
      A.le start now = true → Stops A settings start before now delta .diverged true
  | worseThanBefore : A.lt delta settings.stepTolerance = false → A.lt (A.sub before now) (A.lit 0) = true →
      A.le start now = false → Stops A settings start before now delta .success true
  | smallGain : A.lt delta settings.stepTolerance = false → A.lt (A.sub before now) (A.lit 0) = false →
      A.lt (A.sub before now) settings.residualTolerance = true → Stops A settings start before now delta .success true
  | tenfold : A.lt delta settings.stepTolerance = false → A.lt (A.sub before now) (A.lit 0) = false →
      A.lt (A.sub before now) settings.residualTolerance = false → A.lt (A.mul (A.lit 10) start) now = true →
      Stops A settings start before now delta .diverged false

/-- No rule ends the run. -/
structure Continues (A : Arith F) (settings : Settings F) (start before now delta : F) : Prop where
  step : A.lt delta settings.stepTolerance = false
  notWorse : A.lt (A.sub before now) (A.lit 0) = false
  gain : A.lt (A.sub before now) settings.residualTolerance = false
  tenfold : A.lt (A.mul (A.lit 10) start) now = false

end Factorama.Spec
