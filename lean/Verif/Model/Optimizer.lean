import Verif.Model.History

/-!
# Model of `SparseOptimizer` (src/factorama/sparse_optimizer.hpp, src/factorama/sparse_optimizer.cpp)

The scalar arithmetic (`Arith`) and the linear algebra back end (`LinAlg`) are parameters without any laws, so the
model covers IEEE arithmetic with NaN and infinities and a solver that may fail or return anything; theorems that need
laws state them as hypotheses. Not modelled: verbose output, stopwatch readings (`Verif/Model/Stopwatch.lean` models the
class). Several graphs and optimizers are in `Verif/Model/Many.lean`.
-/

namespace Factorama

/-- `enum class OptimizerMethod`, sparse_optimizer.hpp:13-17. -/
inductive Method where
  | gaussNewton
  | levenbergMarquardt
  deriving Repr, DecidableEq

/-- `enum class OptimizerStatus`, sparse_optimizer.hpp:22-30. -/
inductive Status where
  | success
  | running
  | singularHessian
  | illConditioned
  | diverged
  | failed
  deriving Repr, DecidableEq

/-- The operations on `double` (and reductions of vectors of `double`) the optimizer uses. -/
structure Arith (F : Type) where
  /-- decimal literals -/
  lit : Rat → F
  add : F → F → F
  sub : F → F → F
  mul : F → F → F
  div : F → F → F
  abs : F → F
  sqrt : F → F
  /-- `a < b` -/
  lt : F → F → Bool
  /-- `a <= b` -/
  le : F → F → Bool
  /-- `std::isfinite` -/
  isFinite : F → Bool
  /-- `v.squaredNorm()` -/
  sqNorm : List F → F
  /-- `v.minCoeff()` of a non-empty vector -/
  minCoeff : List F → F
  /-- `v.maxCoeff()` of a non-empty vector -/
  maxCoeff : List F → F

namespace Arith
variable {F : Type} (A : Arith F)
/-- `v.norm()`. -/
def norm (v : List F) : F := A.sqrt (A.sqNorm v)
/-- `v *= a` (for vectors). -/
def scale (a : F) (v : List F) : List F := v.map fun x => A.mul x a
/-- `std::max(a, b)`. -/
def stdMax (a b : F) : F := if A.lt a b then b else a
/-- `std::min(a, b)`. -/
def stdMin (a b : F) : F := if A.lt b a then b else a
end Arith

/-- The linear algebra the optimizer uses: products of the sparse Jacobian and `Eigen::SimplicialLDLT`. `Fact` is the
state of the solver object after a successful `compute`. -/
structure LinAlg (F Fact : Type) where
  /-- `J.transpose() * J` -/
  gram : SpMat F → Mat F
  /-- `-(J.transpose() * r)` -/
  rhs : SpMat F → List F → List F
  /-- `solver.compute(H)`; `none` if `info() != Eigen::Success` -/
  factorize : Mat F → Option Fact
  /-- `solver.vectorD()` -/
  vectorD : Fact → List F
  /-- `solver.solve(b)`; `none` if `info() != Eigen::Success` -/
  solve : Fact → List F → Option (List F)

/-- `struct OptimizerSettings`, sparse_optimizer.hpp:38-70. `sparse_optimizer.cpp` reads `verbose` only to print and
`check_rank_deficiency` nowhere. -/
structure Settings (F : Type) where
  method : Method
  maxIterations : Nat
  stepTolerance : F
  residualTolerance : F
  initialLambda : F
  maxLambda : F
  lambdaUp : F
  lambdaDown : F
  learningRate : F
  /-- `verbose`: only guards the printing of progress, which is not modelled -/
  verbose : Bool := false
  /-- `check_rank_deficiency`: no statement reads it -/
  checkRankDeficiency : Bool := false

/-- Default settings, sparse_optimizer.hpp:41-69. -/
def Settings.default {F : Type} (A : Arith F) : Settings F where
  method := .gaussNewton
  maxIterations := 100
  stepTolerance := A.lit (1 / 1000000)
  residualTolerance := A.lit (1 / 1000000)
  initialLambda := A.lit (1 / 1000)
  maxLambda := A.lit 100000
  lambdaUp := A.lit 10
  lambdaDown := A.lit (1 / 10)
  learningRate := A.lit 1
  verbose := false
  checkRankDeficiency := false

/-- `struct OptimizerStats`, sparse_optimizer.hpp:77-88. -/
structure Stats (F : Type) where
  valid : Bool
  status : Status
  chi2 : F
  deltaNorm : F
  residualNorm : F
  iteration : Nat
  damping : F
  /-- `rank`, "Matrix rank (if computed)" -/
  rank : Int := -1
  deriving DecidableEq

/-- Default member initialisers, sparse_optimizer.hpp:79-87. -/
def Stats.default {F : Type} (A : Arith F) : Stats F :=
  ⟨false, .running, A.lit (-1), A.lit (-1), A.lit (-1), 0, A.lit (1 / 1000), -1⟩

/-- The data members of `SparseOptimizer`, sparse_optimizer.hpp:146-173 (without the unused Jacobian pattern, the
temporaries `H_`, `b_`, `D_`, which are overwritten before every use, and the stopwatches). `graph_` is the graph of
the surrounding world or null. -/
structure Optimizer (F Fact : Type) where
  /-- `initial_stats_` -/
  initialStats : Stats F
  /-- `current_stats_` -/
  stats : Stats F
  /-- `settings_` -/
  settings : Settings F
  /-- `graph_` is not null -/
  hasGraph : Bool := false
  /-- `optimization_complete_` -/
  complete : Bool := false
  /-- `cached_hessian_valid_for_covariance_est_` -/
  hessianValid : Bool := false
  /-- `cached_hessian_` -/
  hessian : Mat F
  /-- `residual1_` -/
  residual1 : List F := []
  /-- `residual2_` -/
  residual2 : List F := []
  /-- `sparse_solver_`: its factorisation, `none` if there is none or the last `compute` failed -/
  solver : Option Fact := none

/-- A default constructed optimizer, sparse_optimizer.hpp:107. -/
def Optimizer.init {F Fact : Type} [Zero F] (A : Arith F) : Optimizer F Fact where
  initialStats := Stats.default A
  stats := Stats.default A
  settings := Settings.default A
  hessian := Mat.empty

/-- Variable objects, one graph and one optimizer. -/
structure OptWorld (F V Fact : Type) where
  heap : Heap V
  graph : Graph F V
  opt : Optimizer F Fact

namespace Opt
variable {F V Fact : Type} [Zero F] [VarLike F V]

/-- Change `current_stats_`. -/
def modStats (f : Stats F → Stats F) : SE (OptWorld F V Fact) Unit :=
  SE.modify fun s => { s with opt := { s.opt with stats := f s.opt.stats } }

/-- Change the other members of the optimizer. -/
def modOpt (f : Optimizer F Fact → Optimizer F Fact) : SE (OptWorld F V Fact) Unit :=
  SE.modify fun s => { s with opt := f s.opt }

/-- `graph_->compute_full_residual_vector(residual1_)`, sparse_optimizer.cpp:21 and 320. -/
def evalResidual1 (env : Env F V) : SE (OptWorld F V Fact) Unit := fun s =>
  let p := Graph.computeResidualInto env s.graph s.heap s.opt.residual1
  ({ s with opt := { s.opt with residual1 := p.1 } }, p.2)

/-- `graph_->compute_full_residual_vector(residual2_)`, sparse_optimizer.cpp:109 and 428. -/
def evalResidual2 (env : Env F V) : SE (OptWorld F V Fact) Unit := fun s =>
  let p := Graph.computeResidualInto env s.graph s.heap s.opt.residual2
  ({ s with opt := { s.opt with residual2 := p.1 } }, p.2)

/-- `graph_->compute_sparse_jacobian_matrix()`, sparse_optimizer.cpp:24 and 324. -/
def evalSparse : SE (OptWorld F V Fact) (SpMat F) := fun s =>
  let p := Graph.computeSparse s.heap s.graph
  ({ s with graph := p.1 }, p.2)

/-- Run code that changes only variable objects. -/
def onHeap {α : Type} (m : Graph F V → SE (Heap V) α) : SE (OptWorld F V Fact) α := fun s =>
  let p := m s.graph s.heap
  ({ s with heap := p.1 }, p.2)

/-- Body of the update loop for one variable, sparse_optimizer.cpp:91-105 and 409-423. -/
def stepVariable (g : Graph F V) (dx : List F) (r : VRef) : SE (Heap V) Unit :=
  SE.bind SE.get fun h =>
  if VarLike.isConst (h r) then SE.ret ()
  else match g.variablePlacement (VarLike.id (h r)) with
    | none => SE.ret ()
    | some p => SE.bind (SE.lift (Graph.segment dx p.index p.dim)) fun localDx =>
        Graph.mutate r fun v => VarLike.applyIncr v localDx

/-- Apply a step to all variables, sparse_optimizer.cpp:90-105 and 401-423. -/
def stepVariables (dx : List F) : SE (OptWorld F V Fact) Unit :=
  onHeap fun g => SE.forEach g.varsVec (stepVariable g dx)

/-- Final part of both step functions, sparse_optimizer.cpp:110-113 and 500-503. -/
def recordStats (A : Arith F) (dx r : List F) : SE (OptWorld F V Fact) Unit :=
  modStats fun st => { st with
    deltaNorm := A.norm dx
    chi2 := A.sqNorm r
    residualNorm := A.norm r
    iteration := st.iteration + 1 }

/-- Report an unusable linear system: sparse_optimizer.cpp:40-41, 56-57, 67-68, 78-79. -/
def giveUp (status : Status) : SE (OptWorld F V Fact) Unit :=
  modStats fun st => { st with valid := false, status := status }

/-- `single_step_gauss_newton`, sparse_optimizer.cpp:10-131. -/
def gaussNewtonStep (A : Arith F) (L : LinAlg F Fact) (env : Env F V) : SE (OptWorld F V Fact) Unit :=
  SE.bind SE.get fun s0 =>
  if !s0.opt.hasGraph then SE.throw
  else
    SE.bind (evalResidual1 env) fun _ =>
    SE.bind evalSparse fun J =>
    SE.bind SE.get fun s =>
    let b := L.rhs J s.opt.residual1
    match L.factorize (L.gram J) with
    | none => SE.bind (modOpt fun o => { o with solver := none }) fun _ => giveUp .failed
    | some f =>
      SE.bind (modOpt fun o => { o with solver := some f }) fun _ =>
      let D := (L.vectorD f).map A.abs
      if D.isEmpty then SE.undefined
      else if A.lt (A.minCoeff D) (A.lit (1 / 10 ^ 14)) then giveUp .singularHessian
      else if A.lt (A.lit (10 ^ 12)) (A.div (A.maxCoeff D) (A.minCoeff D)) then giveUp .illConditioned
      else match L.solve f b with
        | none => giveUp .failed
        | some d =>
          let dx := A.scale s.opt.settings.learningRate d
          SE.bind (stepVariables dx) fun _ =>
          SE.bind (evalResidual2 env) fun _ =>
          SE.bind SE.get fun s' => recordStats A dx s'.opt.residual2

/-- `H.coeffRef(i, i) += lambda` for every `i`, sparse_optimizer.cpp:347-349. -/
def addDiagonal (A : Arith F) (H : Mat F) (lambda : F) : Mat F :=
  { H with entry := fun i j => if i = j then A.add (H.entry i j) lambda else H.entry i j }

/-- `current_stats_.damping_parameter *= settings_.lambda_up_factor`, sparse_optimizer.cpp:359, 375, 387. -/
def raiseLambda (A : Arith F) : SE (OptWorld F V Fact) Unit :=
  SE.bind SE.get fun s => modStats fun st => { st with damping := A.mul st.damping s.opt.settings.lambdaUp }

/-- Lines 404-406: the values of all variables of the graph. -/
def saveValues (s : OptWorld F V Fact) : List (VRef × List F) :=
  s.graph.varsVec.map fun r => (r, VarLike.value (s.heap r))

/-- Lines 446-448: write the saved values back. -/
def restoreValues (saved : List (VRef × List F)) : SE (OptWorld F V Fact) Unit :=
  onHeap fun _ => SE.forEach saved fun p => Graph.mutate p.1 fun v => VarLike.setValue v p.2

/-- The trial loop of `single_step_levenberg_marquardt`, sparse_optimizer.cpp:341-469. The first argument is the number
of attempts left (`max_lm_attempts - lm_attempts`), `dx` the current contents of that variable; the result is
`step_accepted` and the final `dx`. If `solve` fails, `dx` holds an unspecified vector of the size of `b`, of which only
the size is used later; `b` itself stands for it. -/
def lmTrials (A : Arith F) (L : LinAlg F Fact) (env : Env F V) (J : SpMat F) (cost : F) :
    Nat → List F → SE (OptWorld F V Fact) (Bool × List F)
  | 0, dx => SE.ret (false, dx)
  | k + 1, dx =>
    SE.bind SE.get fun s =>
    let H := addDiagonal A (L.gram J) s.opt.stats.damping
    let b := L.rhs J s.opt.residual1
    match L.factorize H with
    | none =>
      SE.bind (modOpt fun o => { o with solver := none }) fun _ =>
      SE.bind (raiseLambda A) fun _ => lmTrials A L env J cost k dx
    | some f =>
      SE.bind (modOpt fun o => { o with solver := some f }) fun _ =>
      let D := (L.vectorD f).map A.abs
      if D.isEmpty then SE.undefined
      else if A.lt (A.minCoeff D) (A.lit (1 / 10 ^ 14)) ||
          A.lt (A.lit (10 ^ 12)) (A.div (A.maxCoeff D) (A.minCoeff D)) then
        SE.bind (raiseLambda A) fun _ => lmTrials A L env J cost k dx
      else match L.solve f b with
        | none => SE.bind (raiseLambda A) fun _ => lmTrials A L env J cost k b
        | some d =>
          let dx := A.scale s.opt.settings.learningRate d
          let saved := saveValues s
          SE.bind (stepVariables dx) fun _ =>
          SE.bind (evalResidual2 env) fun _ =>
          SE.bind SE.get fun s' =>
          if A.lt (A.mul (A.lit (1 / 2)) (A.sqNorm s'.opt.residual2)) cost then
            SE.bind (modStats fun st => { st with
              damping := A.stdMax (A.mul st.damping s.opt.settings.lambdaDown) (A.lit (1 / 10 ^ 12)) }) fun _ =>
            SE.ret (true, dx)
          else
            SE.bind (restoreValues saved) fun _ =>
            SE.bind (modStats fun st => { st with
              damping := A.stdMin (A.mul st.damping s.opt.settings.lambdaUp) s.opt.settings.maxLambda }) fun _ =>
            SE.bind SE.get fun s'' =>
            if A.le s.opt.settings.maxLambda s''.opt.stats.damping then SE.ret (false, dx)
            else lmTrials A L env J cost k dx

/-- Lines 472-493 for a step that was not accepted: the verdict. -/
def lmRejected (A : Arith F) (cost : F) : SE (OptWorld F V Fact) Unit :=
  SE.bind SE.get fun s =>
  if A.lt cost (A.mul s.opt.initialStats.chi2 (A.lit (1 / 2))) then
    modStats fun st => { st with valid := true, status := .success }
  else
    modStats fun st => { st with
      valid := false
      status := if A.le s.opt.settings.maxLambda st.damping then .illConditioned else .failed }

/-- `single_step_levenberg_marquardt`, sparse_optimizer.cpp:310-524. -/
def levenbergMarquardtStep (A : Arith F) (L : LinAlg F Fact) (env : Env F V) : SE (OptWorld F V Fact) Unit :=
  SE.bind SE.get fun s0 =>
  if !s0.opt.hasGraph then SE.throw
  else
    SE.bind (evalResidual1 env) fun _ =>
    SE.bind evalSparse fun J =>
    SE.bind SE.get fun s =>
    let cost := A.mul (A.lit (1 / 2)) (A.sqNorm s.opt.residual1)
    SE.bind (modStats fun st =>
      if st.iteration = 0 then { st with damping := s.opt.settings.initialLambda } else st) fun _ =>
    SE.bind (lmTrials A L env J cost 5 []) fun res =>
    if res.1 then
      SE.bind SE.get fun s' => recordStats A res.2 s'.opt.residual2
    else
      SE.bind (lmRejected A cost) fun _ =>
      SE.bind (modOpt fun o => { o with residual2 := o.residual1 }) fun _ =>
      SE.bind SE.get fun s' => recordStats A (List.replicate res.2.length (A.lit 0)) s'.opt.residual2

/-- One step of the chosen method, sparse_optimizer.cpp:199-203. -/
def oneStep (A : Arith F) (L : LinAlg F Fact) (env : Env F V) : SE (OptWorld F V Fact) Unit :=
  SE.bind SE.get fun s => match s.opt.settings.method with
    | .gaussNewton => gaussNewtonStep A L env
    | .levenbergMarquardt => levenbergMarquardtStep A L env

/-- The checks after a step that did not throw, sparse_optimizer.cpp:212-265: the updated statistics, and whether the
loop is left. -/
def afterStep (A : Arith F) (settings : Settings F) (init prev st : Stats F) : Stats F × Bool :=
  if st.status = .singularHessian ∨ st.status = .illConditioned ∨ st.status = .failed then (st, true)
  else if A.lt st.deltaNorm settings.stepTolerance then ({ st with status := .success }, true)
  else
    let improvement := A.sub prev.residualNorm st.residualNorm
    if A.lt improvement (A.lit 0) then
      if A.le init.residualNorm st.residualNorm then ({ st with status := .diverged }, true)
      else ({ st with status := .success }, true)
    else if A.lt improvement settings.residualTolerance then ({ st with status := .success }, true)
    else if A.lt (A.mul (A.lit 10) init.residualNorm) st.residualNorm then
      ({ st with valid := false, status := .diverged }, true)
    else (st, false)

/-- The main loop, sparse_optimizer.cpp:187-266, with the number of iterations left. -/
def iterate (A : Arith F) (L : LinAlg F Fact) (env : Env F V) : Nat → SE (OptWorld F V Fact) Unit
  | 0 => SE.ret ()
  | n + 1 => fun s =>
    match oneStep A L env s with
    | (s', .ub) => (s', .ub)
    | (s', .threw) => giveUp .failed s'
    | (s', .ok ()) =>
      let r := afterStep A s'.opt.settings s'.opt.initialStats s.opt.stats s'.opt.stats
      let s'' := { s' with opt := { s'.opt with stats := r.1 } }
      if r.2 then (s'', .ok ()) else iterate A L env n s''

/-- `graph_->compute_full_residual_vector()`, sparse_optimizer.cpp:164. -/
def evalInitial (env : Env F V) : SE (OptWorld F V Fact) (List F) := fun s =>
  let p := Graph.computeResidual env s.heap s.graph
  ({ s with graph := p.1 }, p.2)

/-- `optimize`, sparse_optimizer.cpp:141-308. The undetermined choices `env` are the same for all evaluations of one
call. -/
def optimize (A : Arith F) (L : LinAlg F Fact) (env : Env F V) : SE (OptWorld F V Fact) Unit :=
  SE.bind SE.get fun s0 =>
  if !s0.opt.hasGraph then SE.throw
  else
    SE.bind (modStats fun _ => { Stats.default A with valid := true }) fun _ =>
    SE.bind (evalInitial env) fun r =>
    SE.bind (modStats fun st => { st with residualNorm := A.norm r, chi2 := A.sqNorm r }) fun _ =>
    SE.bind (modOpt fun o => { o with initialStats := o.stats }) fun _ =>
    SE.bind (iterate A L env s0.opt.settings.maxIterations) fun _ =>
    SE.bind (modStats fun st => if st.status = .running then { st with status := .success } else st) fun _ =>
    modOpt fun o => { o with complete := true }

/-- `setup`, sparse_optimizer.cpp:133-139; `hasGraph` tells whether the pointer is non-null. -/
def setup (hasGraph : Bool) (settings : Settings F) : SE (OptWorld F V Fact) Unit :=
  modOpt fun o => { o with settings := settings, hasGraph := hasGraph, complete := false, hessianValid := false }

/-- `prepare_to_estimate_covariances`, sparse_optimizer.cpp:526-583. -/
def prepare (A : Arith F) (L : LinAlg F Fact) : SE (OptWorld F V Fact) Unit :=
  SE.bind SE.get fun s =>
  if s.opt.hessianValid then SE.ret ()
  else if !s.opt.complete then SE.ret ()
  else
    SE.bind (SE.lift s.graph.sparseJacobian) fun J =>
    let H := L.gram J
    match L.factorize H with
    | none => modOpt fun o => { o with hessian := H, solver := none }
    | some f =>
      if ((L.vectorD f).map A.abs).isEmpty then
        SE.bind (modOpt fun o => { o with hessian := H, solver := some f }) fun _ => SE.undefined
      else modOpt fun o => { o with hessian := H, solver := some f, hessianValid := true }

/-- Column `i` of `B`, sparse_optimizer.cpp:631-635. -/
def unitVector (A : Arith F) (n i : Nat) : List F := (List.range n).map fun k => if k = i then A.lit 1 else A.lit 0

/-- `solver.solve(B)` column by column; `none` if one fails. -/
def solveColumns (L : LinAlg F Fact) (f : Fact) : List (List F) → Option (List (List F))
  | [] => some []
  | b :: bs => match L.solve f b, solveColumns L f bs with
    | some x, some xs => some (x :: xs)
    | _, _ => none

/-- `X.block(index, 0, dim, dim)` of a matrix given by columns. -/
def blockOf (X : List (List F)) (index dim : Nat) : Mat F :=
  ⟨dim, dim, fun i j => match X[j]? with
    | some col => col[index + i]?.getD 0
    | none => 0⟩

/-- All entries of a matrix, column by column. -/
def allEntries (P : Mat F) : List F := (List.range P.cols).flatMap fun j => (List.range P.rows).map fun i => P.entry i j

/-- `P = 0.5 * (P + P.transpose())`, sparse_optimizer.cpp:661. Eigen evaluates this coefficient by coefficient into `P`
itself, column by column (no temporary is made because the expression contains no matrix product), so an entry above
the diagonal reads the entry below the diagonal after that one has been overwritten. -/
def averageInPlace (A : Arith F) (P : Mat F) : Mat F :=
  let half (x : F) := A.mul (A.lit (1 / 2)) x
  { P with entry := fun i j =>
      if j ≤ i then half (A.add (P.entry i j) (P.entry j i))
      else half (A.add (P.entry i j) (half (A.add (P.entry j i) (P.entry i j)))) }

/-- `estimate_covariance`, sparse_optimizer.cpp:585-663; `none` stands for `valid_out = false` and an empty matrix. -/
def estimateCovariance (A : Arith F) (L : LinAlg F Fact) (s : OptWorld F V Fact) (v : Option VRef) : Res (Option (Mat F)) :=
  match v with
  | none => .ok none
  | some r =>
    if VarLike.isConst (s.heap r) ∨ VarLike.size (s.heap r) = 0 then .ok none
    else if !s.opt.complete then .ok none
    else if !s.opt.hessianValid ∨ s.opt.hessian.rows = 0 ∨ s.opt.hessian.cols = 0 then .ok none
    else match s.graph.variablePlacement (VarLike.id (s.heap r)) with
      | none => .ok none
      | some p =>
        if p.index + p.dim > s.opt.hessian.rows ∧ p.dim ≠ 0 then .ub   -- B(placement.index + i, i) out of range
        else match s.opt.solver with
          | none => .ub                                                -- solve() without a factorisation
          | some f =>
            match solveColumns L f ((List.range p.dim).map fun i => unitVector A s.opt.hessian.rows (p.index + i)) with
            | none => .ok none
            | some X =>
              if X.any fun col => decide (col.length < p.index + p.dim) then .ub  -- block out of range
              else
                let P := blockOf X p.index p.dim
                if (allEntries P).any fun x => !A.isFinite x then .ok none
                else if p.dim = 0 then .ub                             -- maxCoeff of an empty vector
                else if A.lt (A.lit (10 ^ 12)) (A.maxCoeff ((List.range p.dim).map fun i => P.entry i i)) then .ok none
                else .ok (some (averageInPlace A P))

/-! ### Programs using a graph and an optimizer -/

/-- One call by the user. -/
inductive Call (F V : Type) where
  /-- a call on the graph or on a variable -/
  | user (op : Op F V)
  /-- `optimizer.setup(...)` -/
  | setup (hasGraph : Bool) (settings : Settings F)
  /-- `optimizer.optimize()` -/
  | optimize
  /-- `optimizer.prepare_to_estimate_covariances()` -/
  | prepare

/-- Effect of a call, with its outcome (`estimate_covariance` does not change the state and is not listed). -/
def step (A : Arith F) (L : LinAlg F Fact) (env : Env F V) : Call F V → SE (OptWorld F V Fact) Unit
  | .user op => fun s =>
    let p := World.step env op ⟨s.heap, s.graph⟩
    ({ s with heap := p.1.heap, graph := p.1.graph }, p.2)
  | .setup g st => setup g st
  | .optimize => optimize A L env
  | .prepare => prepare A L

/-- Start: the given objects, an empty graph, a default constructed optimizer. -/
def init (A : Arith F) (h : Heap V) : OptWorld F V Fact := ⟨h, Graph.init, Optimizer.init A⟩

/-- A history of calls with outcomes; no call runs into undefined behaviour. -/
inductive Runs (A : Arith F) (L : LinAlg F Fact) :
    OptWorld F V Fact → List (Call F V × Res Unit) → OptWorld F V Fact → Prop where
  | nil (s : OptWorld F V Fact) : Runs A L s [] s
  | cons {s s' s'' : OptWorld F V Fact} {c : Call F V} {evs : List (Call F V × Res Unit)} {r : Res Unit}
      (env : Env F V) : step A L env c s = (s', r) → r ≠ .ub → Runs A L s' evs s'' → Runs A L s ((c, r) :: evs) s''

end Opt
end Factorama
