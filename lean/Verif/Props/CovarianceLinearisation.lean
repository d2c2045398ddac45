import Verif.Lemmas.OptSystem
import Verif.Props.Covariance
import Verif.Props.OptimizerSteps

/-!
# Property C31: the point at which covariances are evaluated
-/

namespace Factorama.Props
open Spec Graph Opt
variable {F V Fact : Type} [Zero F] [VarLike F V]

/-- A computed sparse Jacobian is the one `sparse_jacobian()` returns afterwards. -/
theorem C31.stored {h : Heap V} {g g' : Graph F V} {J : SpMat F} (he : computeSparse h g = (g', .ok J)) :
    g'.sparseJacobian = .ok J := by
  unfold computeSparse at he
  split at he
  · simp at he
  split at he
  · simp at he
  split at he
  · simp at he
  · simp at he
  · dsimp only at he
    split at he <;> simp at he
    obtain ⟨rfl, rfl⟩ := he
    rfl

variable [LawfulVar F V]

/-- An iteration leaves the Jacobian at the variables before it. -/
theorem C31.step (A : Arith F) (L : LinAlg F Fact) (env : Env F V) (s : OptWorld F V Fact)
    {h0 : Heap V} {pre post : List (Op F V × Res Unit)} (hw : FinalizedAfter h0 pre post ⟨s.heap, s.graph⟩)
    (hpre : NoJacobianYet pre) (hid : IdsIdentify s.heap s.graph.getAllVariables s.graph.getAllFactors)
    (hnr : NoRepeats s.graph.getAllFactors) (hsafe : ∀ f ∈ s.graph.getAllFactors, ReuseSafe f)
    (hproper : ∀ h, SameShape s.heap h → ∀ f ∈ s.graph.getAllFactors, ∀ js, f.computeJacobians h [] = .ok js →
      ProperBlocks h f js)
    (hg : s.opt.hasGraph = true) (hrest : Restorable s) (r0 : List F)
    (hr : (computeResidual env s.heap s.graph).2 = .ok r0) (k : Nat) (s1 s2 : OptWorld F V Fact)
    (hit : Iterations A L env k (loopStart A env s r0) s1) (hstep : oneStep A L env s1 = (s2, .ok ())) :
    ∃ r J, Linearised s1.heap s.graph.getAllVariables s.graph.getAllFactors r J ∧ s2.graph.sparseJacobian = .ok J := by
  obtain ⟨hready, hl, hshape, hv, hf⟩ := iterations_ready hw hpre hid hnr hit
  have hh := iterations_head hit hg rfl rfl rfl
  have hset : s1.opt.settings = s.opt.settings := hh.run.settings
  have key : ∀ r J, (∃ buf, computeResidualInto env s1.graph s1.heap buf = (r, .ok ())) →
      computeSparse s1.heap s1.graph = (s2.graph, .ok J) →
      ∃ r J, Linearised s1.heap s.graph.getAllVariables s.graph.getAllFactors r J ∧ s2.graph.sparseJacobian = .ok J := by
    intro r J hres hJ
    have hlin := computeSparse_linearised (env := env) (hf ▸ hready) hl (hf ▸ hsafe) (hf ▸ hproper s1.heap hshape) hJ hres
    rw [hv, hf] at hlin
    exact ⟨r, J, hlin, C31.stored hJ⟩
  unfold oneStep at hstep
  simp only [SE.bind_get, hset] at hstep
  cases hm : s.opt.settings.method with
  | gaussNewton =>
    simp only [hm] at hstep
    obtain ⟨r, J, hres, hJ, _⟩ := gaussNewtonStep_ok hstep
    exact key r J hres hJ
  | levenbergMarquardt =>
    simp only [hm] at hstep
    obtain ⟨hl0, hkf, hd, hgood⟩ := loopStart_ready A env s hw hrest hr
    obtain ⟨_, _, _, _, i5⟩ := iterations_describes hit hg hl0 hd hgood
    obtain ⟨good, hgood, hgs⟩ := i5 (by rw [hset]; exact hm)
    obtain ⟨r, J, o, lambda, hres, hJ, _⟩ := levenbergMarquardtStep_ok hgood hgs hl hstep
    exact key r J hres hJ

/-- **C31**, what is prepared. After a run of at least one iteration that no exception interrupted, the matrix that
`prepare_to_estimate_covariances()` uses is the Jacobian at the variables *before* the last iteration `s1 → s2`; the final
variables are those after it. If the last iteration did not move the variables the two agree. -/
theorem C31_last_linearisation_partial (A : Arith F) (L : LinAlg F Fact) (env : Env F V) (s : OptWorld F V Fact)
    {h0 : Heap V} {pre post : List (Op F V × Res Unit)} (hw : FinalizedAfter h0 pre post ⟨s.heap, s.graph⟩)
    (hpre : NoJacobianYet pre) (hid : IdsIdentify s.heap s.graph.getAllVariables s.graph.getAllFactors)
    (hnr : NoRepeats s.graph.getAllFactors) (hsafe : ∀ f ∈ s.graph.getAllFactors, ReuseSafe f)
    (hproper : ∀ h, SameShape s.heap h → ∀ f ∈ s.graph.getAllFactors, ∀ js, f.computeJacobians h [] = .ok js →
      ProperBlocks h f js)
    (hg : s.opt.hasGraph = true) (hrest : Restorable s) (r0 : List F)
    (hr : (computeResidual env s.heap s.graph).2 = .ok r0) (hpos : 0 < s.opt.settings.maxIterations)
    (s' : OptWorld F V Fact) (hret : optimize A L env s = (s', .ok ())) :
    ∃ k s1 s2, k < s.opt.settings.maxIterations ∧ Iterations A L env k (loopStart A env s r0) s1 ∧ s'.heap = s2.heap ∧
      (oneStep A L env s1 = (s2, .threw) ∨
        oneStep A L env s1 = (s2, .ok ()) ∧ ∃ r J,
          Linearised s1.heap s.graph.getAllVariables s.graph.getAllFactors r J ∧ s'.graph.sparseJacobian = .ok J) := by
  obtain ⟨o, hend, hor⟩ := optimize_ends A L env s hg hr
  obtain ⟨ho, e⟩ : o.2 = .ok () ∧ optimize A L env s = (finish o.1, .ok ()) := by
    rcases hor with h | ⟨_, e⟩
    · exact h
    · rw [e] at hret; simp at hret
  rw [e] at hret
  obtain rfl := (Prod.mk.inj hret).1
  have hstep := C31.step A L env s hw hpre hid hnr hsafe hproper hg hrest r0 hr
  cases hend with
  | @budget s1 hit =>
    obtain ⟨n, hn⟩ : ∃ n, s.opt.settings.maxIterations = n + 1 := ⟨s.opt.settings.maxIterations - 1, by omega⟩
    rw [hn] at hit
    obtain ⟨s2, hit2, ho2, _⟩ := C66_continues A L env s hg r0 n s1 hit
    obtain ⟨r, J, h1, h2⟩ := hstep n s2 s1 hit2 ho2
    exact ⟨n, s2, s1, by omega, hit2, rfl, .inr ⟨ho2, r, J, h1, h2⟩⟩
  | @threw k s1 s2 hk hit ho2 => exact ⟨k, s1, s2, hk, hit, rfl, .inl ho2⟩
  | ub => simp at ho
  | @check k s1 s2 st hk hit ho2 ha =>
    obtain ⟨r, J, h1, h2⟩ := hstep k s1 s2 hit ho2
    exact ⟨k, s1, s2, hk, hit, rfl, .inr ⟨ho2, r, J, h1, h2⟩⟩

/-- The hypotheses hold for the example run. -/
example : ∃ s', optimize ToyOpt.rat Ldlt.linAlg ToyOpt.env (ToyOpt.start ToyOpt.world ToyOpt.lm) = (s', .ok ()) ∧
    ∃ s1 s2 : OptWorld Rat (GenVar Rat) (Ldlt.Fact Rat), s'.heap = s2.heap ∧
      (oneStep ToyOpt.rat Ldlt.linAlg ToyOpt.env s1 = (s2, .threw) ∨ ∃ r J,
        Linearised s1.heap ToyOpt.world.graph.getAllVariables ToyOpt.world.graph.getAllFactors r J ∧
        s'.graph.sparseJacobian = .ok J) := by
  refine ⟨_, Prod.ext rfl (by decide +kernel), ?_⟩
  obtain ⟨k, s1, s2, _, _, h1, h2⟩ := C31_last_linearisation_partial ToyOpt.rat Ldlt.linAlg ToyOpt.env
    (ToyOpt.start ToyOpt.world ToyOpt.lm) ToyOpt.finalizedAfter ToyOpt.noJacobianYet ToyOpt.identify ToyOpt.noRepeats
    ToyOpt.reuseSafe ToyOpt.proper rfl (toy_restorable _ _) [2, 6, -12, -21] ToyOpt.residual0 (by decide) _
    (Prod.ext rfl (by decide +kernel))
  refine ⟨s1, s2, h1, ?_⟩
  rcases h2 with h | ⟨_, h⟩
  · exact .inl h
  · exact .inr h

/-! ### A case where the two points differ -/

/-- A factor with residual `x² − 4` and Jacobian `2x`. -/
def C31.square : Factor Rat (GenVar Rat) where
  id := 10
  residualSize := 1
  «variables» := [some 0]
  computeResidual h := match (h 0).value with
    | [x] => .ok [x * x - 4]
    | _ => .ub
  computeJacobians h _ := match (h 0).value with
    | [x] => .ok [⟨1, 1, fun _ _ => 2 * x⟩]
    | _ => .ub

/-- One free variable at 1 and this factor; Gauss-Newton with a budget of one iteration. -/
def C31.calls : List (Call Rat (GenVar Rat)) :=
  [.user (.addVariable (some 0)), .user (.addFactor (some C31.square)), .user .finalize,
    .setup true { ToyOpt.gn with maxIterations := 1 }, .optimize, .prepare]
def C31.state : OptWorld Rat (GenVar Rat) (Ldlt.Fact Rat) :=
  ToyOpt.execCalls C31.calls (Opt.init ToyOpt.rat fun _ => ⟨1, false, [1]⟩)

/-- The derivative the factor reports. -/
def C31.slope (h : Heap (GenVar Rat)) : Option Rat :=
  match C31.square.computeJacobians h [] with
  | .ok [J] => some (J.entry 0 0)
  | _ => none

/-- **C31** is false of the code even for the first run: the run ends with SUCCESS at `x = 5/2`, where the Jacobian is 5 and
the covariance `1/25`; what is reported is `1/4`, the covariance at the point `x = 1` before the last step. -/
theorem C31_stale_linearisation_false : C31.state.opt.stats.status = .success ∧ C31.state.opt.stats.valid = true ∧
    (C31.state.heap 0).value = [5 / 2] ∧ C31.square.computeResidual C31.state.heap = .ok [9 / 4] ∧
    C31.slope C31.state.heap = some 5 ∧ C29.report C31.state (some 0) = .ok (some [1 / 4]) := by
  refine ⟨?_, ?_, ?_, ?_, ?_, ?_⟩ <;> decide +kernel

/-- A run with an iteration budget of zero reports SUCCESS and counts as completed, but without an earlier Jacobian there is
nothing to prepare: `prepare_to_estimate_covariances()` throws. -/
theorem C31_no_iteration_throws (A : Arith F) (L : LinAlg F Fact) (env : Env F V) (s : OptWorld F V Fact)
    (hg : s.opt.hasGraph = true) (r0 : List F) (hr : (computeResidual env s.heap s.graph).2 = .ok r0)
    (hzero : s.opt.settings.maxIterations = 0) (hv : s.opt.hessianValid = false)
    (hJ : s.graph.sparseJacobian = .threw) :
    ∃ s', optimize A L env s = (s', .ok ()) ∧ s'.opt.stats.status = .success ∧ s'.opt.stats.valid = true ∧
      s'.opt.complete = true ∧ (prepare A L s').2 = .threw := by
  obtain ⟨o, hend, hor⟩ := optimize_ends A L env s hg hr
  rw [hzero] at hend
  cases hend with
  | threw hk => omega
  | ub hk => omega
  | check hk => omega
  | @budget s1 hit =>
    cases hit
    rcases hor with ⟨_, e⟩ | ⟨h, _⟩
    · refine ⟨_, e, rfl, rfl, rfl, ?_⟩
      have h1 : (finish (loopStart A env s r0)).graph.sparseJacobian = .threw := by
        have : (loopStart A env s r0).graph.sparseValid = s.graph.sparseValid := by
          show (computeResidual env s.heap s.graph).1.sparseValid = s.graph.sparseValid
          unfold computeResidual
          split
          · rfl
          · dsimp only
            split <;> rfl
        show (loopStart A env s r0).graph.sparseJacobian = .threw
        unfold sparseJacobian at hJ ⊢
        rw [this]
        split at hJ
        · simp at hJ
        · rename_i h; rw [if_neg h]
      have h2 : (finish (loopStart A env s r0)).opt.hessianValid = false := hv
      have h3 : (finish (loopStart A env s r0)).opt.complete = true := rfl
      unfold prepare
      simp [SE.bind, SE.get, h1, h2, h3, SE.lift]
    · simp at h

example : (prepare ToyOpt.rat Ldlt.linAlg (optimize ToyOpt.rat Ldlt.linAlg ToyOpt.env
    (ToyOpt.start ToyOpt.world { ToyOpt.gn with maxIterations := 0 })).1).2 = .threw := by
  obtain ⟨s', h1, _, _, _, h2⟩ := C31_no_iteration_throws ToyOpt.rat Ldlt.linAlg ToyOpt.env
    (ToyOpt.start ToyOpt.world { ToyOpt.gn with maxIterations := 0 }) rfl [2, 6, -12, -21] ToyOpt.residual0 rfl rfl
    (by
      have : ToyOpt.world.graph.sparseValid = false := by decide +kernel
      simp [sparseJacobian, this])
  rw [h1]
  exact h2

end Factorama.Props
