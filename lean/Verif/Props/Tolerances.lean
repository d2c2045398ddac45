import Verif.Props.Solvable
import Verif.Props.SolvableDamped
import Verif.Props.Undetermined

/-!
# C141: with tolerances of zero all iterations are made
-/

namespace Factorama.Props
open Spec Graph Opt

section
variable {V Fact : Type} [VarLike ℝ V] [LawfulVar ℝ V] {L : LinAlg ℝ Fact}

theorem C141.norm_nonneg (x : List ℝ) : 0 ≤ realArith.norm x := Real.sqrt_nonneg _

omit [LawfulVar ℝ V] in
/-- An accepted trial has lowered the squared norm. -/
theorem C141.accepted {h : Heap V} {vars : List VRef} {facs : List (Factor ℝ V)} {r : List ℝ} {J : SpMat ℝ} {settings : Settings ℝ}
    {n : Nat} {lambda lambda' : ℝ} {o : Option (List ℝ × Heap V × List ℝ)}
    (ht : Trials realArith L settings h vars facs r J n lambda o lambda') {dx : List ℝ} {h' : Heap V} {r' : List ℝ}
    (ho : o = some (dx, h', r')) : realArith.sqNorm r' < realArith.sqNorm r := by
  induction ht with
  | exhausted => cases ho
  | accepted _ _ _ e4 =>
    cases ho
    simp only [realArith, decide_eq_true_eq] at e4
    push_cast at e4
    simp only [realArith]
    linarith
  | retry _ _ ih => exact ih ho
  | limit => cases ho

/-- After an iteration that is not refused: the reported step is not negative, and Levenberg-Marquardt has not raised the norm. -/
theorem C141.step (env : Env ℝ V) {s : OptWorld ℝ V Fact} (hp : Prepared s) (hrest : Restorable s) (r0 : List ℝ)
    (hr : (computeResidual env s.heap s.graph).2 = .ok r0) {k : Nat} {s1 s2 : OptWorld ℝ V Fact}
    (hit : Iterations realArith L env k (loopStart realArith env s r0) s1) (ho : oneStep realArith L env s1 = (s2, .ok ()))
    (he : ¬ isErrorStatus s2.opt.stats.status) :
    0 ≤ s2.opt.stats.deltaNorm ∧ s2.opt.stats.iteration = k + 1 ∧
    (s.opt.settings.method = .levenbergMarquardt → s2.opt.stats.residualNorm ≤ s1.opt.stats.residualNorm) := by
  obtain ⟨h0, pre, post, hw, hpre⟩ := hp.history
  have hk := (iterations_head hit hp.graph rfl rfl rfl).iteration
  have hk' : s1.opt.stats.iteration = k := hk
  cases hm : s.opt.settings.method with
  | gaussNewton =>
    obtain ⟨r, J, hlin, ⟨st, href, _, e⟩ | ⟨d, r', _, _, _, e⟩⟩ := C67_gauss_newton realArith L env s hw hpre hp.ids hp.noRepeats hp.safe
      hp.proper hp.graph hm r0 k s1 s2 hit ho
    · exfalso
      apply he
      rw [e]
      cases href <;> simp [isErrorStatus]
    · refine ⟨by rw [e]; exact C141.norm_nonneg _, by rw [e, ← hk'], fun h => ?_⟩
      cases h
  | levenbergMarquardt =>
    obtain ⟨hl0, hkf, hd, hgood⟩ := loopStart_ready realArith env s hw hrest hr
    obtain ⟨_, _, _, ⟨r1, hr1, _, e1⟩, _⟩ := iterations_describes hit hp.graph hl0 hd hgood
    have hfac : s1.graph.facs = s.graph.facs := (iterations_ready hw hpre hp.ids hp.noRepeats hit).2.2.2.2
    rw [hfac] at hr1
    obtain ⟨r, J, o, lambda, hlin, htr, hcase⟩ := C67_levenberg_marquardt_partial realArith L env s hw hpre hp.ids hp.noRepeats hp.safe
      hp.proper hp.graph hm hrest r0 hr k s1 s2 hit ho
    obtain rfl := isResidual_unique hr1 hlin.residual
    rcases hcase with ⟨dx, r', rfl, e⟩ | ⟨_, _, n, e⟩
    · refine ⟨by rw [e]; exact C141.norm_nonneg _, by rw [e, ← hk'], fun _ => ?_⟩
      have hlt : realArith.sqNorm r' < realArith.sqNorm r1 := C141.accepted htr rfl
      rw [e, e1]
      exact Real.sqrt_le_sqrt hlt.le
    · refine ⟨by rw [e]; exact C141.norm_nonneg _, by rw [e, ← hk'], fun _ => ?_⟩
      rw [e, e1]

/-- **C141**. A run whose tolerances are zero (or negative) and that is valid at its end has made all the iterations it was allowed,
unless, with Gauss-Newton, its last iteration raised the norm of the residual. -/
theorem C141 (env : Env ℝ V) {s t : OptWorld ℝ V Fact} (hp : Prepared s) (hrest : Restorable s)
    (hstep : s.opt.settings.stepTolerance ≤ 0) (hres : s.opt.settings.residualTolerance ≤ 0)
    (hret : optimize realArith L env s = (t, .ok ())) (hvalid : t.opt.stats.valid = true) :
    t.opt.stats.iteration = s.opt.settings.maxIterations ∨
    (s.opt.settings.method = .gaussNewton ∧ t.opt.stats.iteration ≤ s.opt.settings.maxIterations ∧
      ∃ r0 k s1 s2, (computeResidual env s.heap s.graph).2 = .ok r0 ∧ Iterations realArith L env k (loopStart realArith env s r0) s1 ∧
        oneStep realArith L env s1 = (s2, .ok ()) ∧ t.opt.stats.iteration = k + 1 ∧
        t.opt.stats.residualNorm = s2.opt.stats.residualNorm ∧ s1.opt.stats.residualNorm < s2.opt.stats.residualNorm) := by
  obtain ⟨h0, pre, post, hw, hpre⟩ := hp.history
  obtain ⟨r0, hr⟩ : ∃ r0, (computeResidual env s.heap s.graph).2 = .ok r0 := by
    cases hr : (computeResidual env s.heap s.graph).2 with
    | ok r0 => exact ⟨r0, rfl⟩
    | threw =>
      have := (C28_throws_iff realArith L env s).2 (.inr hr)
      rw [hret] at this
      cases this
    | ub =>
      have := (optimize_ubResidual realArith L env s hp.graph hr).1
      rw [hret] at this
      cases this
  rcases C66_ends realArith L env s hp.graph r0 hr t hret with ⟨k, s1, s2, hk, hit, h⟩ | ⟨s1, hit, _, _, e⟩
  · right
    rcases h with ⟨_, _, e⟩ | ⟨_, _, _, hv, e⟩ | ⟨ho, _, he, status, valid, hs, e⟩
    · rw [e] at hvalid; cases hvalid
    · rw [e, hv] at hvalid; cases hvalid
    · obtain ⟨h1, h2, h3⟩ := C141.step env hp hrest r0 hr hit ho he
      have hns : realArith.lt s2.opt.stats.deltaNorm s.opt.settings.stepTolerance = false := by
        simp only [realArith, decide_eq_false_iff_not, not_lt]; linarith
      have hworse : realArith.lt (realArith.sub s1.opt.stats.residualNorm s2.opt.stats.residualNorm) (realArith.lit 0) = true → 
          s1.opt.stats.residualNorm < s2.opt.stats.residualNorm := by
        intro h
        simp only [realArith, decide_eq_true_eq] at h
        push_cast at h
        linarith
      have hit2 : t.opt.stats.iteration = k + 1 := by rw [e]; exact h2
      have key : s1.opt.stats.residualNorm < s2.opt.stats.residualNorm := by
        cases hs with
        | smallStep h => rw [hns] at h; cases h
        | worseThanStart _ h => exact hworse h
        | worseThanBefore _ h => exact hworse h
        | smallGain _ h h' =>
          simp only [realArith, decide_eq_false_iff_not, not_lt, decide_eq_true_eq] at h h'
          push_cast at h
          linarith
        | tenfold => rw [e] at hvalid; cases hvalid
      have hm : s.opt.settings.method = .gaussNewton := by
        cases hm : s.opt.settings.method with
        | gaussNewton => rfl
        | levenbergMarquardt => exact absurd (h3 hm) (not_le.2 key)
      exact ⟨hm, by omega, r0, k, s1, s2, hr, hit, ho, hit2, by rw [e], key⟩
  · left
    rw [e]
    exact (iterations_head hit hp.graph rfl rfl rfl).iteration

/-- **C141, linear problems.** On a well-conditioned linear problem, with a learning rate from 0 to 2 and tolerances of zero, every
number of Gauss-Newton iterations is reached, and a run makes exactly as many as it is allowed. -/
theorem C141_linear (hL : ExactLinAlg L) (hP : ExactPivots L) (env : Env ℝ V) {s : OptWorld ℝ V Fact} (hs : SolvableLinear s)
    (hm : s.opt.settings.method = .gaussNewton) (h0 : 0 ≤ s.opt.settings.learningRate) (h2 : s.opt.settings.learningRate ≤ 2)
    (hstep : s.opt.settings.stepTolerance ≤ 0) (hres : s.opt.settings.residualTolerance ≤ 0) :
    (∃ r0, (computeResidual env s.heap s.graph).2 = .ok r0 ∧
      ∀ k, ∃ s1, Iterations realArith L env k (loopStart realArith env s r0) s1) ∧
    ∃ t, optimize realArith L env s = (t, .ok ()) ∧ t.opt.stats.valid = true ∧ t.opt.stats.status = .success ∧
      t.opt.stats.iteration = s.opt.settings.maxIterations := by
  have hp := hs.prepared
  obtain ⟨t, ht, hv, hst⟩ := C121_returns hL hP env hs hm h0 h2
  have hrest : Restorable s := by
    intro h
    rw [hm] at h
    cases h
  obtain ⟨g0, pre, post, hw, hpre⟩ := hp.history
  have hb0 : SameButFree s.heap s.heap s.graph.getAllVariables := ⟨fun _ => ⟨rfl, rfl, rfl⟩, fun _ _ => rfl⟩
  obtain ⟨r0, hr0⟩ := exists_isResidual (hs.evaluates.residual s.heap hb0)
  have hr : (computeResidual env s.heap s.graph).2 = .ok r0 := by
    obtain ⟨segs, h1, h2, rfl⟩ := hr0
    exact congrArg Prod.snd (residual_layout (env := env) (finalizedAfter_layout hw) segs h1 h2)
  have hone := C121.step hL hP env hs hm h0 h2 r0 hr
  refine ⟨⟨r0, hr, fun k => ?_⟩, t, ht, hv, hst, ?_⟩
  · induction k with
    | zero => exact ⟨_, .zero _⟩
    | succ k ih =>
      obtain ⟨s1, hit⟩ := ih
      obtain ⟨s2, ho, hv2, he, hnorm⟩ := hone k s1 hit
      refine ⟨s2, .succ hit ho ?_⟩
      have hh := iterations_head hit hp.graph rfl rfl rfl
      have hpost := oneStep_post realArith L env s1 (hh.run.hasGraph.trans hp.graph)
      rw [ho] at hpost
      have hset : s2.opt.settings = s.opt.settings := hpost.run.settings.trans hh.run.settings
      have hinit : s2.opt.initialStats = startStats realArith r0 := hpost.run.init.trans hh.run.init
      obtain ⟨hd, _, _⟩ := C141.step env hp hrest r0 hr hit ho he
      have h5 := C66_norm_falls L env s hp.graph r0 k s1 hit
      have h6 := C141.norm_nonneg r0
      unfold afterStep
      rw [hset, hinit]
      rw [if_neg (fun h => he (by rcases h with h | h | h <;> simp [h, isErrorStatus])), if_neg (by simp only [realArith, decide_eq_true_eq, not_lt]; linarith)]
      dsimp only
      rw [if_neg (by simp only [realArith, decide_eq_true_eq, not_lt]; push_cast; linarith),
        if_neg (by simp only [realArith, decide_eq_true_eq, not_lt]; linarith),
        if_neg]
      have e0 : (startStats realArith r0).residualNorm = realArith.norm r0 := rfl
      rw [e0]
      generalize realArith.norm r0 = n0 at h5 h6
      simp only [realArith, decide_eq_true_eq, not_lt]
      push_cast
      linarith
  · rcases C141 env hp hrest hstep hres ht hv with h | ⟨_, _, r1, k, s1, s2, hr1, hit, ho, _, _, hlt⟩
    · exact h
    · obtain rfl := Res.ok.inj (hr.symm.trans hr1)
      obtain ⟨s3, ho3, _, _, hle⟩ := hone k s1 hit
      obtain rfl := (Prod.mk.inj (ho.symm.trans ho3)).1
      exact absurd hle (not_le.2 hlt)

/-- **C141, accuracy.** On a well-conditioned linear problem, with tolerances of zero and a learning rate `η` from 0 to 2, the values
left after a run that may make `n` iterations are at `(1 - η)ⁿ` times their initial distance from the solution. -/
theorem C141_accuracy (hL : ExactLinAlg L) (hP : ExactPivots L) (env : Env ℝ V) {s : OptWorld ℝ V Fact} (hs : SolvableLinear s)
    (hm : s.opt.settings.method = .gaussNewton) (h0 : 0 ≤ s.opt.settings.learningRate) (h2 : s.opt.settings.learningRate ≤ 2)
    (hpos : 0 < s.opt.settings.maxIterations) (hstep : s.opt.settings.stepTolerance ≤ 0) (hres : s.opt.settings.residualTolerance ≤ 0)
    {best : Heap V} (hbest : SameButFree s.heap best s.graph.getAllVariables)
    (hsol : Solution best s.graph.getAllVariables s.graph.getAllFactors) :
    ∃ t, optimize realArith L env s = (t, .ok ()) ∧
      ∀ q ∈ s.graph.getAllVariables, VarLike.isConst (s.heap q) = false → ∀ j, j < VarLike.size (s.heap q) →
        component (t.heap q) j - component (best q) j =
          (1 - s.opt.settings.learningRate) ^ s.opt.settings.maxIterations * (component (s.heap q) j - component (best q) j) := by
  obtain ⟨t, ht, _, _, h⟩ := C122 hL hP env hs hm h0 h2 hpos hbest hsol
  obtain ⟨_, t', ht', _, _, hn⟩ := C141_linear hL hP env hs hm h0 h2 hstep hres
  obtain rfl := (Prod.mk.inj (ht.symm.trans ht')).1
  rw [hn] at h
  exact ⟨t, ht, h⟩

/-- **C141, Levenberg-Marquardt.** On a well-conditioned linear problem whose start values are not a solution already, with learning
rate 1 and tolerances of zero, Levenberg-Marquardt makes exactly as many iterations as it is allowed. -/
theorem C141_damped (hL : ExactLinAlg L) (hP : ExactPivots L) (env : Env ℝ V) {s : OptWorld ℝ V Fact} (hs : SolvableLinear s)
    (hf : FullDamped s.opt.settings) (hrest : Restorable s)
    (hstep : s.opt.settings.stepTolerance ≤ 0) (hres : s.opt.settings.residualTolerance ≤ 0)
    (hns : ¬ Solution s.heap s.graph.getAllVariables s.graph.getAllFactors) :
    ∃ t, optimize realArith L env s = (t, .ok ()) ∧ t.opt.stats.valid = true ∧ t.opt.stats.status = .success ∧
      t.opt.stats.iteration = s.opt.settings.maxIterations := by
  obtain ⟨t, ht, h, _⟩ := C129 hL hP env hs hf hrest
  obtain ⟨hv, hst⟩ := h hns
  refine ⟨t, ht, hv, hst, ?_⟩
  rcases C141 env hs.prepared hrest hstep hres ht hv with h | ⟨hm, _⟩
  · exact h
  · rw [hf.method] at hm
    cases hm
end

/-- Gauss-Newton with learning rate 1/2, tolerances of zero and a given number of iterations. -/
noncomputable def C141.gn (n : Nat) : Settings ℝ :=
  { C121.gn with learningRate := 1 / 2, stepTolerance := 0, residualTolerance := 0, maxIterations := n }

/-- Levenberg-Marquardt with tolerances of zero and a given number of iterations. -/
noncomputable def C141.lm (n : Nat) : Settings ℝ :=
  { C110.lm with stepTolerance := 0, residualTolerance := 0, maxIterations := n }

theorem C141.half : (0 : ℝ) ≤ 1 / 2 ∧ (1 / 2 : ℝ) ≤ 2 := by norm_num

/-- However many iterations are allowed, all are made. -/
example (m p q : ℝ) (n : Nat) :
    ∃ t, optimize realArith Ldlt.linAlg (TinyWorld.env 0) (C118.start m p q (C141.gn n)) = (t, .ok ()) ∧
      t.opt.stats.valid = true ∧ t.opt.stats.iteration = n := by
  obtain ⟨_, t, ht, hv, _, h⟩ := C141_linear Ldlt.exact Ldlt.exact_pivots (TinyWorld.env 0) (C121.solvable m p q (C141.gn n))
    C121.gn_facts.1 C141.half.1 C141.half.2 (le_refl (0 : ℝ)) (le_refl (0 : ℝ))
  exact ⟨t, ht, hv, h⟩

/-- There are iterations to speak of: after any number `k` of them the residual is not larger than at the start (C66), and the first
value is at `1 / 2ᵏ` of its initial distance from the solution (C122). -/
example (k : Nat) : ∃ r0 s1, Iterations realArith Ldlt.linAlg (TinyWorld.env 0) k
      (loopStart realArith (TinyWorld.env 0) (C118.start 1 4 7 (C141.gn 10)) r0) s1 ∧
    s1.opt.stats.residualNorm ≤ realArith.norm r0 ∧ component (s1.heap 0) 0 - 214 / 49 = (1 / 2) ^ k * (0 - 214 / 49) := by
  obtain ⟨⟨r0, _, h⟩, _⟩ := C141_linear Ldlt.exact Ldlt.exact_pivots (TinyWorld.env 0) (C121.solvable 1 4 7 (C141.gn 10))
    C121.gn_facts.1 C141.half.1 C141.half.2 (le_refl (0 : ℝ)) (le_refl (0 : ℝ))
  obtain ⟨s1, hit⟩ := h k
  refine ⟨r0, s1, hit, C66_norm_falls _ _ _ (C121.solvable 1 4 7 (C141.gn 10)).prepared.graph _ _ _ hit, ?_⟩
  have hs := C121.solvable 1 4 7 (C141.gn 10)
  have h := C122_iterations Ldlt.exact (TinyWorld.env 0) hs.prepared C121.gn_facts.1 hs.affine hs.additive
    (C118.reachable 1 4 7 _ (214 / 49) (271 / 49)) (by rw [C118.vars, C118.facs]; exact C111.solution) r0 k s1 hit
  rw [C118.vars, C118.heap] at h
  have h0 : component (s1.heap 0) 0 - 214 / 49 = (1 - (1 / 2 : ℝ)) ^ k * (0 - 214 / 49) := h 0 (by simp) rfl 0 Nat.one_pos
  rwa [show (1 - (1 / 2 : ℝ)) = 1 / 2 by norm_num] at h0

/-- The accuracy is chosen by the number of iterations. -/
example (n : Nat) : ∃ t,
    optimize realArith Ldlt.linAlg (TinyWorld.env 0) (C118.start 1 4 7 (C141.gn (n + 1))) = (t, .ok ()) ∧
    component (t.heap 0) 0 - 214 / 49 = (1 / 2) ^ (n + 1) * (0 - 214 / 49) := by
  obtain ⟨t, ht, h⟩ := C141_accuracy Ldlt.exact Ldlt.exact_pivots (TinyWorld.env 0) (C121.solvable 1 4 7 (C141.gn (n + 1)))
    C121.gn_facts.1 C141.half.1 C141.half.2 (Nat.succ_pos n) (le_refl (0 : ℝ)) (le_refl (0 : ℝ))
    (C118.reachable 1 4 7 _ (214 / 49) (271 / 49)) (by rw [C118.vars, C118.facs]; exact C111.solution)
  refine ⟨t, ht, ?_⟩
  rw [C118.vars, C118.heap] at h
  have h0 : component (t.heap 0) 0 - 214 / 49 = (1 - (1 / 2 : ℝ)) ^ (n + 1) * (0 - 214 / 49) := h 0 (by simp) rfl 0 Nat.one_pos
  rwa [show (1 - (1 / 2 : ℝ)) = 1 / 2 by norm_num] at h0

example (n : Nat) : ∃ t, optimize realArith Ldlt.linAlg (TinyWorld.env 0) (C118.start 1 4 7 (C141.lm n)) = (t, .ok ()) ∧
    t.opt.stats.valid = true ∧ t.opt.stats.iteration = n := by
  obtain ⟨t, ht, hv, _, h⟩ := C141_damped Ldlt.exact Ldlt.exact_pivots (TinyWorld.env 0) (C121.solvable 1 4 7 (C141.lm n))
    (show FullDamped (C141.lm n) from ⟨C129.full.1, C129.full.2, C129.full.3, C129.full.4, C129.full.5⟩) (C110.restorable _) (le_refl (0 : ℝ)) (le_refl (0 : ℝ))
    (by rw [C118.vars, C118.facs, C118.heap]; exact C129.not_solution)
  exact ⟨t, ht, hv, h⟩

/-- In rational arithmetic: with learning rate 3 Gauss-Newton raises the norm in its first iteration and stops there, although 100
iterations are allowed; with learning rate 1/2 it makes them all, here 5. -/
example :
    let run := fun (rate : Rat) n => (optimize ToyOpt.rat Ldlt.linAlg (TinyWorld.env 0) (ToyOpt.start (TinyWorld.world 0 0 1 4 7 2 3 1)
      { ToyOpt.gn with learningRate := rate, stepTolerance := 0, residualTolerance := 0, maxIterations := n })).1.opt.stats
    (run 3 100).iteration = 1 ∧ (run 3 100).valid = true ∧ (run 3 100).status = .diverged ∧
      (run (1 / 2) 5).iteration = 5 ∧ (run (1 / 2) 5).status = .success := by decide +kernel

end Factorama.Props
