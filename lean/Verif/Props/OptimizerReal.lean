import Verif.Lemmas.StepFacts
import Verif.Lemmas.NormalEq
import Verif.Props.OptimizerSteps
import Verif.Props.NormalEquations
import Verif.Examples.TinyWorld

/-!
# Properties C22, C26 and C66 in exact arithmetic
-/

namespace Factorama.Props
open Spec Graph Opt Matrix
variable {V Fact : Type} [VarLike ℝ V]

/-- **C66** in exact arithmetic: while a run goes on the residual norm does not grow. -/
theorem C66_norm_falls (L : LinAlg ℝ Fact) (env : Env ℝ V) (s : OptWorld ℝ V Fact) (hg : s.opt.hasGraph = true)
    (r0 : List ℝ) (k : Nat) (s1 : OptWorld ℝ V Fact)
    (hit : Iterations realArith L env k (loopStart realArith env s r0) s1) :
    s1.opt.stats.residualNorm ≤ realArith.norm r0 := by
  induction k generalizing s1 with
  | zero => cases hit; exact le_refl _
  | succ k ih =>
    obtain ⟨s2, hit2, _, _, _, hc⟩ := C66_continues realArith L env s hg r0 k s1 hit
    have := hc.notWorse
    simp only [realArith, decide_eq_false_iff_not, not_lt] at this
    push_cast at this
    linarith [ih s2 hit2]

/-- **C22**, in exact arithmetic: every run that ends with DIVERGED is reported as valid. The rule that would clear the flag
(growth of the residual norm to more than ten times its initial value) is never reached, because any growth ends the run
first. -/
theorem C22_diverged_is_valid (L : LinAlg ℝ Fact) (env : Env ℝ V) (s s' : OptWorld ℝ V Fact) (hg : s.opt.hasGraph = true)
    (hret : optimize realArith L env s = (s', .ok ())) (hst : s'.opt.stats.status = .diverged) :
    s'.opt.stats.valid = true := by
  cases hr : (computeResidual env s.heap s.graph).2 with
  | threw =>
    have := (C28_throws_iff realArith L env s).2 (.inr hr)
    rw [hret] at this
    simp at this
  | ub =>
    have := (optimize_ubResidual realArith L env s hg hr).1
    rw [hret] at this
    simp at this
  | ok r0 =>
    rcases C66_ends realArith L env s hg r0 hr s' hret with ⟨k, s1, s2, hk, hit, h⟩ | ⟨s1, _, _, _, h⟩
    · rcases h with ⟨_, _, h⟩ | ⟨ho, _, he, _, h⟩ | ⟨ho, _, he, status, valid, hs, h⟩
      · rw [h] at hst; simp at hst
      · exfalso
        have hh := iterations_head hit hg rfl rfl rfl
        have hp := oneStep_post realArith L env s1 (hh.run.hasGraph.trans hg)
        rw [ho] at hp
        rcases ended_counts (hp.ended rfl) hh.valid hh.status with ⟨h1, _⟩ | ⟨_, h2, _⟩
        · rw [h] at hst
          rcases h1 with h1 | h1 | h1 <;> dsimp only at h1 <;> rw [h1] at hst <;> simp at hst
        · rw [h] at hst
          rcases h2 with h1 | h1 <;> dsimp only at h1 <;> rw [h1] at hst <;> simp at hst
      · rw [h] at hst ⊢
        dsimp only at hst ⊢
        subst hst
        cases hs with
        | worseThanStart => rfl
        | tenfold h1 h2 h3 h4 =>
          exfalso
          have hle := C66_norm_falls L env s hg r0 k s1 hit
          simp only [realArith, decide_eq_false_iff_not, not_lt, decide_eq_true_eq] at h2 h4
          push_cast at h2 h4
          have h0 : (0 : ℝ) ≤ realArith.norm r0 := Real.sqrt_nonneg _
          simp only [realArith] at hle h0 h4
          linarith
    · rw [h] at hst; simp at hst

/-- A run ending with DIVERGED and `valid = true`, in rational arithmetic (the one of `C22_false`). -/
example : (optimize ToyOpt.rat Ldlt.linAlg ToyOpt.env
      (ToyOpt.start ToyOpt.world { ToyOpt.gn with learningRate := 3 })).1.opt.stats.status = .diverged ∧
    (optimize ToyOpt.rat Ldlt.linAlg ToyOpt.env
      (ToyOpt.start ToyOpt.world { ToyOpt.gn with learningRate := 3 })).1.opt.stats.valid = true := by
  constructor <;> decide +kernel

/-! ### C26: starting at a stationary point -/

/-- A solution of a system with zero right-hand side is a list of zeros. -/
theorem C26.zero_step {L : LinAlg ℝ Fact} (hL : ExactLinAlg L) (J : SpMat ℝ) (r d : List ℝ) (hg : gradient J r = 0)
    (hs : SystemSolved realArith L (L.gram J) (L.rhs J r) d) (c : ℝ) :
    realArith.scale c d = List.replicate J.columns.length 0 := by
  obtain ⟨f, hf, _, _, hd⟩ := hs
  obtain ⟨d', h1, h2, _, _, h5⟩ := C25_gauss_newton hL J r f hf
  rw [hd] at h1
  obtain rfl := Option.some.inj h1
  have h0 := h5.2 hg
  rw [← h2] at h0 ⊢
  refine List.ext_getElem (by simp [Arith.scale]) fun i h1 h2 => ?_
  have := congrFun h0 ⟨i, by simpa using h2⟩
  simp only [asVec, List.getD_eq_getElem?_getD, Pi.zero_apply] at this
  rw [List.getElem?_eq_getElem (by simpa using h2), Option.getD_some] at this
  simp [Arith.scale, realArith, this]

theorem C26.norm_zeros (n : Nat) : realArith.norm (List.replicate n (0 : ℝ)) = 0 := by
  simp [Arith.norm, realArith]

variable [LawfulVar ℝ V]

/-- **C26** (Gauss-Newton). A run that starts at a stationary point (`Jᵀr = 0`; every minimiser of a differentiable cost is
one, in particular every zero of the residual), with an exact linear solver and a positive step tolerance, ends with SUCCESS
and `valid = true` after one iteration and leaves the variables as they were, unless an exception is thrown in this
iteration or the matrix `JᵀJ` is refused. The variables are those on which zero increments do nothing. Levenberg-Marquardt
behaves differently, see `C26_lm_at_optimum_false`. -/
theorem C26_gauss_newton_partial {L : LinAlg ℝ Fact} (hL : ExactLinAlg L) (env : Env ℝ V) (s : OptWorld ℝ V Fact)
    {h0 : Heap V} {pre post : List (Op ℝ V × Res Unit)} (hw : FinalizedAfter h0 pre post ⟨s.heap, s.graph⟩)
    (hpre : NoJacobianYet pre) (hid : IdsIdentify s.heap s.graph.getAllVariables s.graph.getAllFactors)
    (hnr : NoRepeats s.graph.getAllFactors) (hsafe : ∀ f ∈ s.graph.getAllFactors, ReuseSafe f)
    (hproper : ∀ h, SameShape s.heap h → ∀ f ∈ s.graph.getAllFactors, ∀ js, f.computeJacobians h [] = .ok js →
      ProperBlocks h f js)
    (hzero : ∀ r ∈ s.graph.getAllVariables, VarLike.isConst (s.heap r) = false →
      VarLike.applyIncr (s.heap r) (List.replicate (VarLike.size (s.heap r)) (0 : ℝ)) = .ok (s.heap r))
    (hg : s.opt.hasGraph = true) (hm : s.opt.settings.method = .gaussNewton)
    (hpos : 0 < s.opt.settings.maxIterations) (htol : 0 < s.opt.settings.stepTolerance)
    (hstat : ∀ r J, Linearised s.heap s.graph.getAllVariables s.graph.getAllFactors r J → gradient J r = 0)
    (r0 : List ℝ) (hr : (computeResidual env s.heap s.graph).2 = .ok r0)
    (s' : OptWorld ℝ V Fact) (hret : optimize realArith L env s = (s', .ok ())) :
    (s'.opt.stats.status = .success ∧ s'.opt.stats.valid = true ∧ s'.heap = s.heap ∧ s'.opt.stats.iteration = 1 ∧
      s'.opt.stats.residualNorm = realArith.norm r0) ∨
    (s'.opt.stats.valid = false ∧ ((oneStep realArith L env (loopStart realArith env s r0)).2 = .threw ∨
      ∃ r J, Linearised s.heap s.graph.getAllVariables s.graph.getAllFactors r J ∧
        SystemRefused realArith L (L.gram J) (L.rhs J r) s'.opt.stats.status)) := by
  -- what the first iteration does
  have hfirst : ∀ s2, oneStep realArith L env (loopStart realArith env s r0) = (s2, .ok ()) →
      (∃ r J, Linearised s.heap s.graph.getAllVariables s.graph.getAllFactors r J ∧
        SystemRefused realArith L (L.gram J) (L.rhs J r) s2.opt.stats.status ∧ s2.opt.stats.valid = false) ∨
      (s2.heap = s.heap ∧ s2.opt.stats.deltaNorm = 0 ∧ s2.opt.stats.valid = true ∧ s2.opt.stats.iteration = 1 ∧
        s2.opt.stats.residualNorm = realArith.norm r0) := by
    intro s2 hs2
    obtain ⟨r, J, hlin, ⟨status, href, _, hst⟩ | ⟨d, r', hsol, hstep, hres, hst⟩⟩ :=
      C67_gauss_newton realArith L env s hw hpre hid hnr hsafe hproper hg hm r0 0 _ s2 (.zero _) hs2
    · refine .inl ⟨r, J, hlin, ?_, by rw [hst]⟩
      rw [hst]
      exact href
    · have hz := C26.zero_step hL J r d (hstat r J hlin) hsol s.opt.settings.learningRate
      rw [hlin.columns] at hz
      rw [hz] at hstep hst
      have hh : s2.heap = s.heap := Stepped.zeros hstep hzero
      refine .inr ⟨hh, by rw [hst]; exact C26.norm_zeros _, by rw [hst]; rfl, by rw [hst]; rfl, ?_⟩
      rw [hst]
      have hres0 := evaluated_isResidual (finalizedAfter_layout hw) (computeResidual_evaluated hr)
      rw [hh] at hres
      exact congrArg realArith.norm (isResidual_unique hres hres0)
  have hcont : ∀ k s1, Iterations realArith L env k (loopStart realArith env s r0) s1 →
      k = 0 ∧ s1 = loopStart realArith env s r0 := by
    intro k s1 hit
    cases k with
    | zero => cases hit; exact ⟨rfl, rfl⟩
    | succ k =>
      exfalso
      obtain ⟨s2, h1⟩ := iterations_first hit
      obtain ⟨s3, h3, ho, hv, _, hc⟩ := C66_continues realArith L env s hg r0 0 s2 h1
      cases h3
      rcases hfirst s2 ho with ⟨_, _, _, _, hv'⟩ | ⟨_, hd, _⟩
      · rw [hv] at hv'; simp at hv'
      · have := hc.step
        rw [hd] at this
        simp only [realArith, decide_eq_false_iff_not, not_lt] at this
        linarith
  rcases C66_ends realArith L env s hg r0 hr s' hret with ⟨k, s1, s2, hk, hit, h⟩ | ⟨s1, hit, _⟩
  · obtain ⟨rfl, rfl⟩ := hcont k s1 hit
    rcases h with ⟨ho, _, h⟩ | ⟨ho, _, he, hv, h⟩ | ⟨ho, hheap, he, status, valid, hs, h⟩
    · exact .inr ⟨by rw [h], .inl (by rw [ho])⟩
    · rcases hfirst s2 ho with ⟨r, J, h1, h2, _⟩ | ⟨_, _, hv', _⟩
      · exact .inr ⟨by rw [h]; exact hv, .inr ⟨r, J, h1, by rw [h]; exact h2⟩⟩
      · rw [hv] at hv'; simp at hv'
    · rcases hfirst s2 ho with ⟨r, J, h1, h2, _⟩ | ⟨h1, h2, _, h3, h4⟩
      · exfalso
        apply he
        generalize s2.opt.stats.status = st at h2
        cases h2 <;> simp [isErrorStatus]
      · left
        rw [h2] at hs
        have hlt : realArith.lt 0 s.opt.settings.stepTolerance = true := by simpa [realArith] using htol
        cases hs with
        | smallStep _ => exact ⟨by rw [h], by rw [h], hheap.trans h1, by rw [h]; exact h3, by rw [h]; exact h4⟩
        | worseThanStart h5 => rw [hlt] at h5; simp at h5
        | worseThanBefore h5 => rw [hlt] at h5; simp at h5
        | smallGain h5 => rw [hlt] at h5; simp at h5
        | tenfold h5 => rw [hlt] at h5; simp at h5
  · obtain ⟨h1, _⟩ := hcont _ s1 hit
    omega

/-- An optimizer set up on the small graph with the variables at a zero of the residual. -/
noncomputable def C26.start : OptWorld ℝ (GenVar ℝ) (Ldlt.Fact ℝ) :=
  ⟨(TinyWorld.world 4 5 1 4 5 2 3 1).heap, (TinyWorld.world 4 5 1 4 5 2 3 1).graph,
    { Optimizer.init realArith with hasGraph := true }⟩

/-- The hypotheses hold for it. -/
example (s' : OptWorld ℝ (GenVar ℝ) (Ldlt.Fact ℝ)) (r0 : List ℝ)
    (hr : (computeResidual (TinyWorld.env 0) C26.start.heap C26.start.graph).2 = .ok r0)
    (hret : optimize realArith Ldlt.linAlg (TinyWorld.env 0) C26.start = (s', .ok ())) :
    (s'.opt.stats.status = .success ∧ s'.heap = C26.start.heap) ∨ s'.opt.stats.valid = false := by
  have hh : C26.start.heap = TinyWorld.heap 4 5 1 := TinyWorld.heap_eq 4 5 1 4 5 2 3 1
  have := C26_gauss_newton_partial Ldlt.exact (TinyWorld.env 0) C26.start (TinyWorld.finalizedAfter 4 5 1 4 5 2 3 1)
    (TinyWorld.noJacobianYet 4 5 1 4 5 2 3 1) (TinyWorld.identify 4 5 1 4 5 2 3 1) (TinyWorld.noRepeats 4 5 1 4 5 2 3 1)
    (TinyWorld.reuseSafe 4 5 1 4 5 2 3 1) (TinyWorld.proper 4 5 1 4 5 2 3 1)
    (fun r _ _ => by
      have h1 : ∀ x : List ℝ, List.zipWith (· + ·) x (List.replicate x.length 0) = x := by
        intro x
        induction x with
        | nil => rfl
        | cons y x ih => simp [List.replicate_succ, ih]
      simp [VarLike.applyIncr, GenVar.applyIncr, VarLike.size, h1])
    rfl rfl (by show 0 < (Settings.default realArith).maxIterations; decide)
    (by
      show 0 < (Settings.default realArith).stepTolerance
      simp [Settings.default, realArith])
    (fun r J hlin => by
      have h1 := hlin.residual
      rw [show C26.start.graph.getAllFactors = TinyWorld.facs 4 5 2 3 1 from TinyWorld.facs_eq 4 5 1 4 5 2 3 1, hh] at h1
      have h2 := (TinyWorld.residual_eq 4 5 2 3 1 (TinyWorld.heap 4 5 1) (a := 4) (c := 5) (m := 1) rfl rfl rfl r).1 h1
      have h3 : asVec J.rows r = 0 := by
        funext i
        rw [h2, asVec, Pi.zero_apply]
        match (i : Nat) with
        | 0 => norm_num
        | 1 => norm_num
        | 2 => norm_num
        | k + 3 => simp
      rw [gradient, h3, mulVec_zero])
    r0 hr s' hret
  rcases this with ⟨h1, _, h3, _⟩ | ⟨h, _⟩
  · exact .inl ⟨h1, h3⟩
  · exact .inr h

/-- A run in rational arithmetic from a minimiser ends as described. -/
example : (optimize ToyOpt.rat Ldlt.linAlg (TinyWorld.env 0) (ToyOpt.start (TinyWorld.world 4 5 1 4 5 2 3 1) ToyOpt.gn)).1.opt.stats.status =
    .success ∧
    (optimize ToyOpt.rat Ldlt.linAlg (TinyWorld.env 0) (ToyOpt.start (TinyWorld.world 4 5 1 4 5 2 3 1) ToyOpt.gn)).1.opt.stats.iteration =
      1 := by
  constructor <;> decide +kernel

end Factorama.Props
