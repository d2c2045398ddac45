import Verif.Model.Optimizer
import Verif.Spec.Graph

/-!
# Specification vocabulary for the optimizer
-/

namespace Factorama.Spec
variable {F V Fact : Type} [Zero F] [VarLike F V]

/-- `r` is the concatenation, in insertion order, of what the factors' `compute_residual()` return for the variables
in `h`, each of the announced size. -/
def IsResidual (h : Heap V) (facs : List (Factor F V)) (r : List F) : Prop :=
  ∃ segs : List (List F), segs.length = facs.length ∧
    (∀ (k : Nat) f, facs[k]? = some f → ∃ s, segs[k]? = some s ∧ f.computeResidual h = .ok s ∧ s.length = f.residualSize) ∧
    r = segs.flatten

/-- Setting a variable to its own value keeps it, and a variable that has received an increment is set back exactly
by writing the earlier value. `good` is the class invariant of the variable; increments keep it. -/
def RestoresExactly (good : V → Prop) : Prop :=
  ∀ v : V, good v → VarLike.setValue v (VarLike.value v) = .ok v ∧
    ∀ x v', VarLike.applyIncr v x = .ok v' → good v' ∧ VarLike.setValue v' (VarLike.value v) = .ok v

/-- The statistics of a run before its first step, from a start with residual `r`. -/
def startStats (A : Arith F) (r : List F) : Stats F where
  valid := true
  status := .running
  chi2 := A.sqNorm r
  deltaNorm := A.lit (-1)
  residualNorm := A.norm r
  iteration := 0
  damping := A.lit (1 / 1000)

/-- Statuses that tell the user the run went wrong. -/
def isErrorStatus (st : Status) : Prop :=
  st = .singularHessian ∨ st = .illConditioned ∨ st = .diverged ∨ st = .failed

/-- `s` is a state at the head of the main loop: it is reached from `s1` by `k` steps, each of which returned normally and
did not end the run. -/
inductive Iterations (A : Arith F) (L : LinAlg F Fact) (env : Env F V) :
    Nat → OptWorld F V Fact → OptWorld F V Fact → Prop where
  | zero (s1 : OptWorld F V Fact) : Iterations A L env 0 s1 s1
  | succ {k : Nat} {s1 s s' : OptWorld F V Fact} : Iterations A L env k s1 s → Opt.oneStep A L env s = (s', .ok ()) →
      (Opt.afterStep A s'.opt.settings s'.opt.initialStats s.opt.stats s'.opt.stats).2 = false →
      Iterations A L env (k + 1) s1 s'

/-- The state in which `optimize()` enters its main loop, when it is called in state `s` and the initial residual
evaluates to `r`. -/
def loopStart (A : Arith F) (env : Env F V) (s : OptWorld F V Fact) (r : List F) : OptWorld F V Fact where
  heap := s.heap
  graph := (Graph.computeResidual env s.heap s.graph).1
  opt := { s.opt with stats := startStats A r, initialStats := startStats A r }

/-- Order laws used for C18; they hold for real numbers and for IEEE doubles. -/
structure CostOrder (A : Arith F) : Prop where
  half : ∀ a b, A.lt (A.mul (A.lit (1 / 2)) a) (A.mul (A.lit (1 / 2)) b) = true → A.lt a b = true
  trans : ∀ a b c, A.lt a b = true → A.lt b c = true → A.lt a c = true
  irrefl : ∀ a, A.lt a a = false
  sqrt : ∀ a b, A.lt a b = true → A.lt (A.sqrt b) (A.sqrt a) = false

/-- A linear solver that factorises every matrix, finds it well conditioned and solves every system. -/
def SolverNeverFails (A : Arith F) (L : LinAlg F Fact) : Prop :=
  ∀ H, ∃ f, L.factorize H = some f ∧
    A.lt (A.minCoeff ((L.vectorD f).map A.abs)) (A.lit (1 / 10 ^ 14)) = false ∧
    A.lt (A.lit (10 ^ 12)) (A.div (A.maxCoeff ((L.vectorD f).map A.abs)) (A.minCoeff ((L.vectorD f).map A.abs))) = false ∧
    ∀ b, ∃ d, L.solve f b = some d

/-- In this history an `optimize()` call returned and no `setup` followed it. -/
def OptimizedSinceSetup (evs : List (Opt.Call F V × Res Unit)) : Prop :=
  ∃ pre post, evs = pre ++ (.optimize, .ok ()) :: post ∧ ∀ ev ∈ post, ∀ g st, ev.1 ≠ .setup g st

/-- In this history a `prepare_to_estimate_covariances()` call returned, after an `optimize()` call that returned, and no
`setup` came between or followed. -/
def PreparedSinceSetup (evs : List (Opt.Call F V × Res Unit)) : Prop :=
  ∃ pre post, evs = pre ++ (.prepare, .ok ()) :: post ∧ (∀ ev ∈ post, ∀ g st, ev.1 ≠ .setup g st) ∧
    OptimizedSinceSetup pre

/-- Variables and factors whose methods have defined behaviour on all values satisfying `I`, a condition that the
variables' updates keep: increments of the right size and writing back earlier values may throw but otherwise stay in
`I`, and each factor either throws or returns a residual of the announced size and one block of the right shape per
variable. -/
structure MethodsDefined (I : Heap V → Prop) (vars : List VRef) (facs : List (Factor F V)) : Prop where
  incr : ∀ h, I h → ∀ r ∈ vars, VarLike.isConst (h r) = false → ∀ x, x.length = VarLike.size (h r) →
    VarLike.applyIncr (h r) x = .threw ∨ ∃ v, VarLike.applyIncr (h r) x = .ok v ∧ I (h.set r v)
  restore : ∀ h h', I h → I h' → ∀ r ∈ vars, VarLike.setValue (h r) (VarLike.value (h' r)) = .threw ∨
    ∃ v, VarLike.setValue (h r) (VarLike.value (h' r)) = .ok v ∧ I (h.set r v)
  residual : ∀ h, I h → ∀ f ∈ facs, f.computeResidual h = .threw ∨
    ∃ s, f.computeResidual h = .ok s ∧ s.length = f.residualSize
  jacobians : ∀ h, I h → ∀ f ∈ facs, ∀ buf, OwnBuffer f buf → f.computeJacobians h buf = .threw ∨
    ∃ js, f.computeJacobians h buf = .ok js ∧ ProperBlocks h f js

/-- The linear algebra returns matrices and vectors of the right sizes. -/
structure SizesRight (L : LinAlg F Fact) : Prop where
  gram : ∀ J, (L.gram J).rows = J.columns.length
  rhs : ∀ J r, (L.rhs J r).length = J.columns.length
  diagonal : ∀ H f, L.factorize H = some f → (L.vectorD f).length = H.rows
  solution : ∀ H f b d, L.factorize H = some f → L.solve f b = some d → b.length = H.rows → d.length = H.rows

end Factorama.Spec
