import Verif.Lemmas.OptForward
import Verif.Props.Optimizer
import Verif.Examples.ToyOptDefined

/-!
# Properties C66, C67: what one iteration does, and when a run ends

`Iterations A L env k (loopStart A env s r0) s'` says that `s'` is the state after the first `k` iterations of the
`optimize()` call made in state `s`; `oneStep` is the next iteration.
-/

namespace Factorama.Props
open Spec Graph Opt
variable {F V Fact : Type} [Zero F] [VarLike F V]

/-! ### C66: when a run ends -/

/-- **C66**, going on. Another iteration follows only if the last one was free of errors and none of the stop rules
applies to the norms it reported. -/
theorem C66_continues (A : Arith F) (L : LinAlg F Fact) (env : Env F V) (s : OptWorld F V Fact)
    (hg : s.opt.hasGraph = true) (r0 : List F) (k : Nat) (s2 : OptWorld F V Fact)
    (hit : Iterations A L env (k + 1) (loopStart A env s r0) s2) :
    ∃ s1, Iterations A L env k (loopStart A env s r0) s1 ∧ oneStep A L env s1 = (s2, .ok ()) ∧
      s2.opt.stats.valid = true ∧ ¬ isErrorStatus s2.opt.stats.status ∧
      Continues A s.opt.settings (A.norm r0) s1.opt.stats.residualNorm s2.opt.stats.residualNorm s2.opt.stats.deltaNorm := by
  have hh := iterations_head hit hg rfl rfl rfl
  generalize hs : loopStart A env s r0 = s0 at hit hh
  cases hit with
  | @succ k s0 s1 s2 hit ho ha =>
    refine ⟨s1, hit, ho, hh.valid, ?_, ?_⟩
    · rcases hh.status with h | h <;> rw [h] <;> simp [isErrorStatus]
    · have h := afterStep_continues ha
      rw [hh.run.settings, hh.run.init] at h
      subst hs
      exact h

/-- The example run makes two iterations. -/
example : ∃ s1 s2, Iterations ToyOpt.rat Ldlt.linAlg ToyOpt.env 1
      (loopStart ToyOpt.rat ToyOpt.env (ToyOpt.start ToyOpt.world ToyOpt.gn) [2, 6, -12, -21]) s1 ∧
    oneStep ToyOpt.rat Ldlt.linAlg ToyOpt.env s1 = (s2, .ok ()) := by
  refine ⟨_, _, .succ (.zero _) (Prod.ext rfl (by decide +kernel)) (by decide +kernel), Prod.ext rfl (by decide +kernel)⟩

/-- **C66**, the end. A run that returns has ended in one of four ways: an iteration threw, and the status is FAILED; an
iteration reported that it could not solve its linear system or find a step, and its status is kept; one of the stop
rules applied to the norms the last iteration reported, and gives the status; or the iterations were used up, and the
status is SUCCESS. The variables and the other statistics are those after the last iteration. -/
theorem C66_ends (A : Arith F) (L : LinAlg F Fact) (env : Env F V) (s : OptWorld F V Fact)
    (hg : s.opt.hasGraph = true) (r0 : List F) (hr : (computeResidual env s.heap s.graph).2 = .ok r0)
    (s' : OptWorld F V Fact) (hret : optimize A L env s = (s', .ok ())) :
    (∃ k s1 s2, k < s.opt.settings.maxIterations ∧ Iterations A L env k (loopStart A env s r0) s1 ∧
      ((oneStep A L env s1 = (s2, .threw) ∧ s'.heap = s2.heap ∧
          s'.opt.stats = { s2.opt.stats with status := .failed, valid := false }) ∨
        (oneStep A L env s1 = (s2, .ok ()) ∧ s'.heap = s2.heap ∧ isErrorStatus s2.opt.stats.status ∧
          s2.opt.stats.valid = false ∧ s'.opt.stats = s2.opt.stats) ∨
        (oneStep A L env s1 = (s2, .ok ()) ∧ s'.heap = s2.heap ∧ ¬ isErrorStatus s2.opt.stats.status ∧
          ∃ status valid, Stops A s.opt.settings (A.norm r0) s1.opt.stats.residualNorm s2.opt.stats.residualNorm
            s2.opt.stats.deltaNorm status valid ∧
          s'.opt.stats = { s2.opt.stats with status := status, valid := valid }))) ∨
    ∃ s1, Iterations A L env s.opt.settings.maxIterations (loopStart A env s r0) s1 ∧ s'.heap = s1.heap ∧
      s1.opt.stats.valid = true ∧ s'.opt.stats = { s1.opt.stats with status := .success } := by
  obtain ⟨o, hend, hor⟩ := optimize_ends A L env s hg hr
  obtain ⟨ho, e⟩ : o.2 = .ok () ∧ optimize A L env s = (finish o.1, .ok ()) := by
    rcases hor with h | ⟨_, e⟩
    · exact h
    · rw [e] at hret; simp at hret
  rw [e] at hret
  obtain rfl := (Prod.mk.inj hret).1
  have hfin : ∀ o : OptWorld F V Fact, o.opt.stats.status ≠ .running → (finish o).opt.stats = o.opt.stats := by
    intro o hne
    unfold finish
    dsimp only
    rw [if_neg hne]
  cases hend with
  | @budget s1 hit =>
    have hh := iterations_head hit hg rfl rfl rfl
    refine .inr ⟨s1, hit, rfl, hh.valid, ?_⟩
    unfold finish
    dsimp only
    rcases hh.status with h | h
    · rw [if_pos h]
    · rw [if_neg (by rw [h]; simp), ← h]
  | @threw k s1 s2 hk hit hstep =>
    refine .inl ⟨k, s1, s2, hk, hit, .inl ⟨hstep, rfl, ?_⟩⟩
    exact hfin _ (by simp [giveUp, modStats, SE.modify])
  | ub => simp at ho
  | @check k s1 s2 st hk hit hstep ha =>
    have hh := iterations_head hit hg rfl rfl rfl
    have hp := oneStep_post A L env s1 (hh.run.hasGraph.trans hg)
    rw [hstep] at hp
    refine .inl ⟨k, s1, s2, hk, hit, .inr ?_⟩
    rcases ended_counts (hp.ended rfl) hh.valid hh.status with ⟨h1, h2, _⟩ | ⟨h1, h2, _⟩
    · refine .inl ⟨hstep, rfl, ?_, h2, ?_⟩
      · rcases h1 with h | h | h <;> dsimp only at h <;> rw [h] <;> simp [isErrorStatus]
      · have : st = s2.opt.stats := by
          unfold afterStep at ha
          rw [if_pos (by simpa [Status.isSystemError] using h1)] at ha
          exact (Prod.mk.inj ha).1.symm
        subst this
        exact hfin _ (by rcases h1 with h | h | h <;> dsimp only at h ⊢ <;> rw [h] <;> simp)
    · have hne : ¬ Status.isSystemError s2.opt.stats.status := by
        rcases h2 with h | h <;> dsimp only at h <;> rw [h] <;> simp [Status.isSystemError]
      obtain ⟨status, valid, hs, rfl⟩ := afterStep_stops hne h1 ha
      refine .inr ⟨hstep, rfl, ?_, status, valid, ?_, ?_⟩
      · rcases h2 with h | h <;> dsimp only at h <;> rw [h] <;> simp [isErrorStatus]
      · rw [hp.run.settings, hh.run.settings, hp.run.init, hh.run.init] at hs
        exact hs
      · refine hfin _ ?_
        dsimp only
        cases hs <;> simp

/-- The example run ends by a rule. -/
example : ∃ s', optimize ToyOpt.rat Ldlt.linAlg ToyOpt.env (ToyOpt.start ToyOpt.world ToyOpt.gn) = (s', .ok ()) ∧
    s'.opt.stats.iteration = 2 ∧ s'.opt.stats.status = .success :=
  ⟨_, Prod.ext rfl (by decide +kernel), by decide +kernel, by decide +kernel⟩

/-! ### C67: what an iteration does -/

variable [LawfulVar F V]

/-- **C67**, Gauss-Newton. An iteration that returns evaluates residual and Jacobian at the current variables and solves
`JᵀJ d = −Jᵀr` as the linear algebra does. If the system is refused the variables stay as they are, and the status says
why. Otherwise each free variable receives its part of `learning_rate · d`, nothing else changes, and the statistics are
those of the new residual. -/
theorem C67_gauss_newton (A : Arith F) (L : LinAlg F Fact) (env : Env F V) (s : OptWorld F V Fact)
    {h0 : Heap V} {pre post : List (Op F V × Res Unit)} (hw : FinalizedAfter h0 pre post ⟨s.heap, s.graph⟩)
    (hpre : NoJacobianYet pre) (hid : IdsIdentify s.heap s.graph.getAllVariables s.graph.getAllFactors)
    (hnr : NoRepeats s.graph.getAllFactors) (hsafe : ∀ f ∈ s.graph.getAllFactors, ReuseSafe f)
    (hproper : ∀ h, SameShape s.heap h → ∀ f ∈ s.graph.getAllFactors, ∀ js, f.computeJacobians h [] = .ok js →
      ProperBlocks h f js)
    (hg : s.opt.hasGraph = true) (hm : s.opt.settings.method = .gaussNewton) (r0 : List F) (k : Nat)
    (s1 s2 : OptWorld F V Fact) (hit : Iterations A L env k (loopStart A env s r0) s1)
    (hstep : oneStep A L env s1 = (s2, .ok ())) :
    ∃ r J, Linearised s1.heap s.graph.getAllVariables s.graph.getAllFactors r J ∧
      ((∃ status, SystemRefused A L (L.gram J) (L.rhs J r) status ∧ s2.heap = s1.heap ∧
          s2.opt.stats = { s1.opt.stats with valid := false, status := status }) ∨
        ∃ d r', SystemSolved A L (L.gram J) (L.rhs J r) d ∧
          Stepped s1.heap s2.heap s.graph.getAllVariables (A.scale s.opt.settings.learningRate d) ∧
          IsResidual s2.heap s.graph.getAllFactors r' ∧
          s2.opt.stats = { s1.opt.stats with
            deltaNorm := A.norm (A.scale s.opt.settings.learningRate d)
            chi2 := A.sqNorm r'
            residualNorm := A.norm r'
            iteration := s1.opt.stats.iteration + 1 }) := by
  obtain ⟨hready, hl, hshape, hv, hf⟩ := iterations_ready hw hpre hid hnr hit
  have hh := iterations_head hit hg rfl rfl rfl
  have hset : s1.opt.settings = s.opt.settings := hh.run.settings
  have hstep' : gaussNewtonStep A L env s1 = (s2, .ok ()) := by
    unfold oneStep at hstep
    simp only [SE.bind_get, hset, hm] at hstep
    exact hstep
  obtain ⟨r, J, hres, hJ, hcase⟩ := gaussNewtonStep_ok hstep'
  have hlin := computeSparse_linearised (env := env) (hf ▸ hready) hl (hf ▸ hsafe) (hf ▸ hproper s1.heap hshape) hJ hres
  rw [hv, hf] at hlin
  refine ⟨r, J, hlin, ?_⟩
  rcases hcase with ⟨h1, status, h2, h3⟩ | ⟨d, r', h1, h2, h3⟩
  · exact .inl ⟨status, h2, h1, h3⟩
  · have hk : Kept s1.graph s2.graph := by
      have := computeSparse_kept s1.heap s1.graph
      rw [hJ] at this
      exact this
    have hl2 := hl.kept hk (SameShape.refl _)
    have hst := h2.stepped hl2
    have hres' := evaluated_isResidual (hl2.kept (.refl _) (stepped_shape hst)) h2.residual
    rw [hk.varsVec, hv, hset] at hst
    rw [hk.facs, hf] at hres'
    rw [hset] at h3
    exact .inr ⟨d, r', h1, hst, hres', h3⟩

/-- The example run takes its first step: the second alternative. -/
example : ∃ s2, oneStep ToyOpt.rat Ldlt.linAlg ToyOpt.env (loopStart ToyOpt.rat ToyOpt.env
      (ToyOpt.start ToyOpt.world ToyOpt.gn) [2, 6, -12, -21]) = (s2, .ok ()) ∧ s2.opt.stats.valid = true ∧
    ∃ r J d r', Linearised ToyOpt.world.heap ToyOpt.world.graph.getAllVariables ToyOpt.world.graph.getAllFactors r J ∧
      SystemSolved ToyOpt.rat Ldlt.linAlg (Ldlt.linAlg.gram J) (Ldlt.linAlg.rhs J r) d ∧
      Stepped ToyOpt.world.heap s2.heap ToyOpt.world.graph.getAllVariables (ToyOpt.rat.scale 1 d) ∧
      IsResidual s2.heap ToyOpt.world.graph.getAllFactors r' := by
  refine ⟨_, Prod.ext rfl (by decide +kernel), by decide +kernel, ?_⟩
  obtain ⟨r, J, h1, h⟩ := C67_gauss_newton ToyOpt.rat Ldlt.linAlg ToyOpt.env (ToyOpt.start ToyOpt.world ToyOpt.gn)
    ToyOpt.finalizedAfter ToyOpt.noJacobianYet ToyOpt.identify ToyOpt.noRepeats ToyOpt.reuseSafe ToyOpt.proper rfl rfl
    [2, 6, -12, -21] 0 _ _ (.zero _) (Prod.ext rfl (by decide +kernel))
  rcases h with ⟨_, _, _, e⟩ | ⟨d, r', h2, h3, h4, _⟩
  · have e' : (oneStep ToyOpt.rat Ldlt.linAlg ToyOpt.env (loopStart ToyOpt.rat ToyOpt.env
      (ToyOpt.start ToyOpt.world ToyOpt.gn) [2, 6, -12, -21])).1.opt.stats.valid = false := congrArg Stats.valid e
    exact absurd e' (by decide +kernel)
  · exact ⟨r, J, d, r', h1, h2, h3, h4⟩

/-- The Jacobian is evaluated where its factors can be evaluated. -/
theorem C67.evaluates {A : Arith F} {L : LinAlg F Fact} {env : Env F V} {s : OptWorld F V Fact}
    {h0 : Heap V} {pre post : List (Op F V × Res Unit)} (hw : FinalizedAfter h0 pre post ⟨s.heap, s.graph⟩)
    (hpre : NoJacobianYet pre) (hid : IdsIdentify s.heap s.graph.getAllVariables s.graph.getAllFactors)
    (hnr : NoRepeats s.graph.getAllFactors) (hsafe : ∀ f ∈ s.graph.getAllFactors, ReuseSafe f)
    {r0 : List F} {k : Nat}
    {s1 : OptWorld F V Fact} (hit : Iterations A L env k (loopStart A env s r0) s1) {r : List F} {J0 : SpMat F}
    (hlin : Linearised s1.heap s.graph.getAllVariables s.graph.getAllFactors r J0)
    (hfree : ∃ f ∈ s.graph.getAllFactors, ∃ q, some q ∈ f.variables ∧ VarLike.isConst (s1.heap q) = false) :
    ∃ g' J, computeSparse s1.heap s1.graph = (g', .ok J) ∧
      Linearised s1.heap s.graph.getAllVariables s.graph.getAllFactors r J := by
  obtain ⟨hready, hl, hshape, hv, hf⟩ := iterations_ready hw hpre hid hnr hit
  obtain ⟨blocks, hb, _⟩ := hlin.jacobian
  have hfk : ∀ {k : Nat} {f : Factor F V}, s1.graph.facs[k]? = some f → s.graph.getAllFactors[k]? = some f := by
    intro k f hk
    rw [hf] at hk
    exact hk
  have hres : IsResidual s1.heap s1.graph.facs r := by rw [hf]; exact hlin.residual
  have hfv : ∃ f ∈ s1.graph.facs, ∃ q, some q ∈ f.variables ∧ VarLike.isConst (s1.heap q) = false := by rw [hf]; exact hfree
  obtain ⟨g', J, hJ, _, _⟩ := computeSparse_ok hready blocks (fun k f hk => hb k f (hfk hk))
    (fun k f hk h buf hbuf => hsafe f (List.mem_of_getElem? (hfk hk)) h buf (hbuf f (hfk hk)))
    (fun hc => alloc_pos hready blocks (fun k f hk => (hb k f (hfk hk)).2) hfv hc.2)
  refine ⟨g', J, hJ, ?_⟩
  have := computeSparse_linearised (env := env) (hf ▸ hready) hl (hf ▸ hsafe) (fun f hfm js hjs => by
      obtain ⟨k, hk⟩ := List.mem_iff_getElem?.1 hfm
      have := hb k f (hfk hk)
      rw [this.1] at hjs
      obtain rfl := Res.ok.inj hjs
      exact this.2) hJ ⟨[], residual_forward (env := env) hl hres []⟩
  rw [hv, hf] at this
  exact this

/-- **C67**, Gauss-Newton, returning. If the residual and the Jacobian can be evaluated at the current variables, some factor
involves a free variable, and every step the linear algebra may propose has the right length, can be applied and leads to
variables where the residual can be evaluated, then the iteration returns. (`C70_gauss_newton` in Props/Descent.lean meets these
hypotheses, with an example.) -/
theorem C67_gauss_newton_returns (A : Arith F) (L : LinAlg F Fact) (env : Env F V) (s : OptWorld F V Fact)
    {h0 : Heap V} {pre post : List (Op F V × Res Unit)} (hw : FinalizedAfter h0 pre post ⟨s.heap, s.graph⟩)
    (hpre : NoJacobianYet pre) (hid : IdsIdentify s.heap s.graph.getAllVariables s.graph.getAllFactors)
    (hnr : NoRepeats s.graph.getAllFactors) (hsafe : ∀ f ∈ s.graph.getAllFactors, ReuseSafe f)
    (hg : s.opt.hasGraph = true) (hm : s.opt.settings.method = .gaussNewton) (r0 : List F) (k : Nat)
    (s1 : OptWorld F V Fact) (hit : Iterations A L env k (loopStart A env s r0) s1) (r : List F) (J0 : SpMat F)
    (hlin : Linearised s1.heap s.graph.getAllVariables s.graph.getAllFactors r J0)
    (hfree : ∃ f ∈ s.graph.getAllFactors, ∃ q, some q ∈ f.variables ∧ VarLike.isConst (s1.heap q) = false)
    (hdiag : ∀ J f, Linearised s1.heap s.graph.getAllVariables s.graph.getAllFactors r J → L.factorize (L.gram J) = some f →
      L.vectorD f ≠ [])
    (hstep : ∀ J d, Linearised s1.heap s.graph.getAllVariables s.graph.getAllFactors r J →
      SystemSolved A L (L.gram J) (L.rhs J r) d → d.length = J.columns.length ∧
        ∃ h' r', Stepped s1.heap h' s.graph.getAllVariables (A.scale s.opt.settings.learningRate d) ∧
          IsResidual h' s.graph.getAllFactors r') :
    ∃ s2, oneStep A L env s1 = (s2, .ok ()) := by
  obtain ⟨hready, hl, hshape, hv, hf⟩ := iterations_ready hw hpre hid hnr hit
  have hh := iterations_head hit hg rfl rfl rfl
  have hset : s1.opt.settings = s.opt.settings := hh.run.settings
  obtain ⟨g', J, hJ, hlin'⟩ := C67.evaluates hw hpre hid hnr hsafe hit hlin hfree
  have hres : IsResidual s1.heap s1.graph.facs r := by rw [hf]; exact hlin.residual
  obtain ⟨s2, e⟩ := gaussNewton_forward (env := env) (A := A) (L := L) (s := s1) (hh.run.hasGraph.trans hg) hl
    hres hJ (fun f => hdiag J f hlin') (fun d hd => by
      obtain ⟨h1, h', r', h2, h3⟩ := hstep J d hlin' hd
      exact ⟨by rw [h1, hlin'.columns, hl.nv, hv]; rfl, h', r', by rw [hset, hv]; exact h2, by rw [hf]; exact h3⟩)
  refine ⟨s2, ?_⟩
  unfold oneStep
  simp only [SE.bind_get, hset, hm]
  exact e

/-- **C67**, Levenberg-Marquardt. An iteration that returns evaluates residual `r` and Jacobian `J` at the current variables
and makes at most five trials, each from these variables with `(JᵀJ + λI) d = −Jᵀr`, the first with `initial_lambda` or
the damping left by the previous iteration. The first step that lowers the cost is kept: each free variable receives its
part of it. If there is none the variables stay as they are, and the status says whether progress had been made before or
the damping has reached its limit. -/
theorem C67_levenberg_marquardt_partial (A : Arith F) (L : LinAlg F Fact) (env : Env F V) (s : OptWorld F V Fact)
    {h0 : Heap V} {pre post : List (Op F V × Res Unit)} (hw : FinalizedAfter h0 pre post ⟨s.heap, s.graph⟩)
    (hpre : NoJacobianYet pre) (hid : IdsIdentify s.heap s.graph.getAllVariables s.graph.getAllFactors)
    (hnr : NoRepeats s.graph.getAllFactors) (hsafe : ∀ f ∈ s.graph.getAllFactors, ReuseSafe f)
    (hproper : ∀ h, SameShape s.heap h → ∀ f ∈ s.graph.getAllFactors, ∀ js, f.computeJacobians h [] = .ok js →
      ProperBlocks h f js)
    (hg : s.opt.hasGraph = true) (hm : s.opt.settings.method = .levenbergMarquardt) (hrest : Restorable s) (r0 : List F)
    (hr : (computeResidual env s.heap s.graph).2 = .ok r0) (k : Nat) (s1 s2 : OptWorld F V Fact)
    (hit : Iterations A L env k (loopStart A env s r0) s1) (hstep : oneStep A L env s1 = (s2, .ok ())) :
    ∃ r J outcome lambda, Linearised s1.heap s.graph.getAllVariables s.graph.getAllFactors r J ∧
      Trials A L s.opt.settings s1.heap s.graph.getAllVariables s.graph.getAllFactors r J 5
        (firstDamping s.opt.settings s1.opt.stats) outcome lambda ∧
      ((∃ dx r', outcome = some (dx, s2.heap, r') ∧
          s2.opt.stats = { s1.opt.stats with
            deltaNorm := A.norm dx
            chi2 := A.sqNorm r'
            residualNorm := A.norm r'
            damping := lambda
            iteration := s1.opt.stats.iteration + 1 }) ∨
        (outcome = none ∧ s2.heap = s1.heap ∧ ∃ n : Nat,
          s2.opt.stats = { s1.opt.stats with
            valid := A.lt (A.mul (A.lit (1 / 2)) (A.sqNorm r)) (A.mul (A.sqNorm r0) (A.lit (1 / 2)))
            status := if A.lt (A.mul (A.lit (1 / 2)) (A.sqNorm r)) (A.mul (A.sqNorm r0) (A.lit (1 / 2))) = true then .success
              else if A.le s.opt.settings.maxLambda lambda = true then .illConditioned else .failed
            deltaNorm := A.norm (List.replicate n (A.lit 0))
            chi2 := A.sqNorm r
            residualNorm := A.norm r
            damping := lambda
            iteration := s1.opt.stats.iteration + 1 })) := by
  obtain ⟨hready, hl, hshape, hv, hf⟩ := iterations_ready hw hpre hid hnr hit
  obtain ⟨hl0, hkf, hd, hgood⟩ := loopStart_ready A env s hw hrest hr
  obtain ⟨i1, i2, i3, _, i5⟩ := iterations_describes hit hg hl0 hd hgood
  have hh := iterations_head hit hg rfl rfl rfl
  have hset : s1.opt.settings = s.opt.settings := hh.run.settings
  have hinit : s1.opt.initialStats = startStats A r0 := hh.run.init
  obtain ⟨good, hgood, hgs⟩ := i5 (by rw [hset]; exact hm)
  have hstep' : levenbergMarquardtStep A L env s1 = (s2, .ok ()) := by
    unfold oneStep at hstep
    simp only [SE.bind_get, hset, hm] at hstep
    exact hstep
  obtain ⟨r, J, o, lambda, hres, hJ, ht, hcase⟩ := levenbergMarquardtStep_ok hgood hgs hl hstep'
  have hlin := computeSparse_linearised (env := env) (hf ▸ hready) hl (hf ▸ hsafe) (hf ▸ hproper s1.heap hshape) hJ hres
  rw [hv, hf] at hlin ht
  rw [hset] at ht
  refine ⟨r, J, o, lambda, hlin, ht, ?_⟩
  cases o with
  | some p =>
    obtain ⟨dx, h', r'⟩ := p
    obtain ⟨rfl, e⟩ := hcase
    exact .inl ⟨dx, r', rfl, e⟩
  | none =>
    obtain ⟨hh', n, e⟩ := hcase
    rw [hinit, hset] at e
    exact .inr ⟨rfl, hh', n, e⟩

/-- The example run accepts a step in its first iteration. -/
example : ∃ s2, oneStep ToyOpt.rat Ldlt.linAlg ToyOpt.env (loopStart ToyOpt.rat ToyOpt.env
      (ToyOpt.start ToyOpt.world ToyOpt.lm) [2, 6, -12, -21]) = (s2, .ok ()) ∧
    ∃ r J dx r' lambda, Linearised ToyOpt.world.heap ToyOpt.world.graph.getAllVariables ToyOpt.world.graph.getAllFactors r J ∧
      Trials ToyOpt.rat Ldlt.linAlg ToyOpt.lm ToyOpt.world.heap ToyOpt.world.graph.getAllVariables
        ToyOpt.world.graph.getAllFactors r J 5 (1 / 1000) (some (dx, s2.heap, r')) lambda := by
  refine ⟨_, Prod.ext rfl (by decide +kernel), ?_⟩
  obtain ⟨r, J, o, lambda, h1, h2, h⟩ := C67_levenberg_marquardt_partial ToyOpt.rat Ldlt.linAlg ToyOpt.env
    (ToyOpt.start ToyOpt.world ToyOpt.lm) ToyOpt.finalizedAfter ToyOpt.noJacobianYet ToyOpt.identify ToyOpt.noRepeats
    ToyOpt.reuseSafe ToyOpt.proper rfl rfl (toy_restorable _ _) [2, 6, -12, -21] ToyOpt.residual0 0 _ _ (.zero _)
    (Prod.ext rfl (by decide +kernel))
  rcases h with ⟨dx, r', rfl, _⟩ | ⟨_, hh, _⟩
  · exact ⟨r, J, dx, r', lambda, h1, h2⟩
  · have e' : (oneStep ToyOpt.rat Ldlt.linAlg ToyOpt.env (loopStart ToyOpt.rat ToyOpt.env
      (ToyOpt.start ToyOpt.world ToyOpt.lm) [2, 6, -12, -21])).1.heap 0 = ToyOpt.world.heap 0 := congrFun hh 0
    exact absurd (congrArg GenVar.value e') (by decide +kernel)

/-- **C67**, Levenberg-Marquardt, returning. `P` describes dampings that include the first one and all that can follow it. If
the residual and the Jacobian can be evaluated at the current variables, some factor involves a free variable, and every step
the linear algebra may propose with a damping in `P` has the right length, can be applied and leads to variables where the
residual can be evaluated, then the iteration returns. (`C70_levenberg_marquardt` in Props/Descent.lean meets these
hypotheses, with an example.) -/
theorem C67_levenberg_marquardt_returns_partial (A : Arith F) (L : LinAlg F Fact) (env : Env F V) (s : OptWorld F V Fact)
    {h0 : Heap V} {pre post : List (Op F V × Res Unit)} (hw : FinalizedAfter h0 pre post ⟨s.heap, s.graph⟩)
    (hpre : NoJacobianYet pre) (hid : IdsIdentify s.heap s.graph.getAllVariables s.graph.getAllFactors)
    (hnr : NoRepeats s.graph.getAllFactors) (hsafe : ∀ f ∈ s.graph.getAllFactors, ReuseSafe f)
    (hg : s.opt.hasGraph = true) (hm : s.opt.settings.method = .levenbergMarquardt) (hrest : Restorable s) (r0 : List F)
    (hr : (computeResidual env s.heap s.graph).2 = .ok r0) (k : Nat)
    (s1 : OptWorld F V Fact) (hit : Iterations A L env k (loopStart A env s r0) s1) (r : List F) (J0 : SpMat F)
    (hlin : Linearised s1.heap s.graph.getAllVariables s.graph.getAllFactors r J0)
    (hfree : ∃ f ∈ s.graph.getAllFactors, ∃ q, some q ∈ f.variables ∧ VarLike.isConst (s1.heap q) = false)
    (P : F → Prop) (hP : P (firstDamping s.opt.settings s1.opt.stats))
    (hup : ∀ l, P l → P (A.mul l s.opt.settings.lambdaUp) ∧ P (A.stdMin (A.mul l s.opt.settings.lambdaUp) s.opt.settings.maxLambda))
    (hdiag : ∀ l J f, P l → Linearised s1.heap s.graph.getAllVariables s.graph.getAllFactors r J →
      L.factorize (damped A (L.gram J) l) = some f → L.vectorD f ≠ [])
    (hstep : ∀ l J d, P l → Linearised s1.heap s.graph.getAllVariables s.graph.getAllFactors r J →
      SystemSolved A L (damped A (L.gram J) l) (L.rhs J r) d → d.length = J.columns.length ∧
        ∃ h' r', Stepped s1.heap h' s.graph.getAllVariables (A.scale s.opt.settings.learningRate d) ∧
          IsResidual h' s.graph.getAllFactors r') :
    ∃ s2, oneStep A L env s1 = (s2, .ok ()) := by
  obtain ⟨hready, hl, hshape, hv, hf⟩ := iterations_ready hw hpre hid hnr hit
  obtain ⟨hl0, hkf, hd, hgood⟩ := loopStart_ready A env s hw hrest hr
  obtain ⟨i1, i2, i3, _, i5⟩ := iterations_describes hit hg hl0 hd hgood
  have hh := iterations_head hit hg rfl rfl rfl
  have hset : s1.opt.settings = s.opt.settings := hh.run.settings
  obtain ⟨good, hgood, hgs⟩ := i5 (by rw [hset]; exact hm)
  obtain ⟨g', J, hJ, hlin'⟩ := C67.evaluates hw hpre hid hnr hsafe hit hlin hfree
  obtain ⟨s2, e⟩ := levenbergMarquardt_forward (env := env) (A := A) (L := L) (s := s1) hgood hgs (hh.run.hasGraph.trans hg) hl
    (by rw [hf]; exact hlin.residual) hJ (P := P) (by rw [hset]; exact hP) (by rw [hset]; exact hup)
    (fun l f hl => hdiag l J f hl hlin') (fun l d hPl hd => by
      obtain ⟨h1, h', r', h2, h3⟩ := hstep l J d hPl hlin' hd
      exact ⟨by rw [h1, hlin'.columns, hl.nv, hv]; rfl, h', r', by rw [hset, hv]; exact h2, by rw [hf]; exact h3⟩)
  refine ⟨s2, ?_⟩
  unfold oneStep
  simp only [SE.bind_get, hset, hm]
  exact e

end Factorama.Props
