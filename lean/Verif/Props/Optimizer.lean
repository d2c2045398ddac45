import Verif.Lemmas.OptLoop
import Verif.Examples.ToyOptOrder

/-!
# Properties of the optimizer that hold for every arithmetic and every linear solver

`A : Arith F` and `L : LinAlg F Fact` are arbitrary (no laws), so these theorems cover NaN, infinities, rounding and
solvers that fail or return nonsense. Where an order law is needed it is a hypothesis.
-/

namespace Factorama.Props
open Spec Graph Opt
variable {F V Fact : Type} [Zero F] [VarLike F V]

/-- **C17**. If a graph is set and its residual can be evaluated, `optimize()` does not throw; when it returns, the
status is not RUNNING, at most `max_num_iterations` iterations were made, and the initial statistics are those of the
starting point. (That the call comes back at all is the totality of the model's `optimize`: its loops are bounded by
`max_num_iterations` and by five trials.) -/
theorem C17_returns (A : Arith F) (L : LinAlg F Fact) (env : Env F V) (s : OptWorld F V Fact)
    (hg : s.opt.hasGraph = true) (r0 : List F) (hr : (computeResidual env s.heap s.graph).2 = .ok r0) :
    (optimize A L env s).2 ≠ .threw ∧
    ((optimize A L env s).2 = .ok () →
      (optimize A L env s).1.opt.stats.status ≠ .running ∧
      (optimize A L env s).1.opt.stats.iteration ≤ s.opt.settings.maxIterations ∧
      (optimize A L env s).1.opt.initialStats = startStats A r0 ∧
      (optimize A L env s).1.opt.complete = true ∧
      (optimize A L env s).1.opt.settings = s.opt.settings) := by
  obtain ⟨o, hend, ⟨ho, e⟩ | ⟨ho, e⟩⟩ := optimize_ends A L env s hg hr
  · rw [e]
    refine ⟨by simp, fun _ => ?_⟩
    have key : SameRun (loopStart A env s r0) o.1 ∧ o.1.opt.stats.iteration ≤ s.opt.settings.maxIterations := by
      cases hend with
      | @budget s' hit =>
        have := iterations_head hit hg rfl rfl rfl
        exact ⟨this.run, by rw [this.iteration]; exact Nat.le_refl _⟩
      | @threw k s' s'' hk hit hstep =>
        have := iterations_head hit hg rfl rfl rfl
        have hp := oneStep_post A L env s' (this.run.hasGraph.trans hg)
        rw [hstep] at hp
        refine ⟨(this.run.trans hp.run).trans ⟨rfl, rfl, rfl, rfl, rfl, rfl, .refl _⟩, ?_⟩
        obtain ⟨l, hl⟩ := hp.interrupted (by simp)
        dsimp only at hl
        have h1 : (giveUp .failed s'').1.opt.stats.iteration = s''.opt.stats.iteration := rfl
        rw [h1, hl]
        dsimp only
        rw [this.iteration]
        omega
      | ub => simp at ho
      | @check k s' s'' st hk hit hstep ha =>
        have := iterations_head hit hg rfl rfl rfl
        have hp := oneStep_post A L env s' (this.run.hasGraph.trans hg)
        rw [hstep] at hp
        refine ⟨(this.run.trans hp.run).trans ⟨rfl, rfl, rfl, rfl, rfl, rfl, .refl _⟩, ?_⟩
        obtain ⟨v, status, e', _⟩ := afterStep_fields A s''.opt.settings s''.opt.initialStats s'.opt.stats s''.opt.stats
        rw [ha] at e'
        dsimp only at e' ⊢
        rw [e']
        have hc := ended_counts (hp.ended rfl) this.valid this.status
        rw [this.iteration] at hc
        dsimp only at hc ⊢
        rcases hc with hc | hc <;> omega
    refine ⟨?_, ?_, key.1.init, rfl, key.1.settings⟩
    · unfold finish
      dsimp only
      split
      · simp
      · assumption
    · unfold finish
      dsimp only
      split <;> exact key.2
  · rw [e]
    exact ⟨by simp, by simp⟩

/-- Two free variables and a constant, two factors, Gauss-Newton: the run returns after two iterations. -/
example : ToyOpt.gnRun.1.opt.stats.status ≠ .running ∧ ToyOpt.gnRun.1.opt.stats.iteration ≤ 100 ∧
    ToyOpt.gnRun.1.opt.initialStats = startStats ToyOpt.rat [2, 6, -12, -21] := by
  have h := (C17_returns ToyOpt.rat Ldlt.linAlg ToyOpt.env (ToyOpt.start ToyOpt.world ToyOpt.gn) rfl _
    ToyOpt.residual0).2 ToyOpt.gnRun_ok
  exact ⟨h.1, h.2.1, h.2.2.1⟩
example : ToyOpt.gnRun.1.opt.stats.iteration = 2 := by decide +kernel

/-- **C22** (the part that holds). After a completed `optimize()`: SUCCESS comes with `valid = true`, and each of
SINGULAR_HESSIAN, ILL_CONDITIONED and FAILED with `valid = false`. Missing: DIVERGED comes with `valid = true` as well,
see `C22_false`. -/
theorem C22_partial (A : Arith F) (L : LinAlg F Fact) (env : Env F V) (s : OptWorld F V Fact)
    (hg : s.opt.hasGraph = true) (hret : (optimize A L env s).2 = .ok ()) :
    ((optimize A L env s).1.opt.stats.status = .success → (optimize A L env s).1.opt.stats.valid = true) ∧
    ((optimize A L env s).1.opt.stats.status = .singularHessian ∨
      (optimize A L env s).1.opt.stats.status = .illConditioned ∨
      (optimize A L env s).1.opt.stats.status = .failed → (optimize A L env s).1.opt.stats.valid = false) := by
  cases hr : (computeResidual env s.heap s.graph).2 with
  | threw => rw [(optimize_noResidual A L env s hg hr).1] at hret; simp at hret
  | ub => rw [(optimize_ubResidual A L env s hg hr).1] at hret; simp at hret
  | ok r0 =>
    obtain ⟨o, hend, ⟨ho, e⟩ | ⟨ho, e⟩⟩ := optimize_ends A L env s hg hr
    · rw [e]
      have key : (o.1.opt.stats.valid = true ∧ (o.1.opt.stats.status = .running ∨ o.1.opt.stats.status = .success)) ∨
          (o.1.opt.stats.valid = false ∧ Status.isSystemError o.1.opt.stats.status) ∨
          o.1.opt.stats.status = .diverged := by
        cases hend with
        | @budget s' hit =>
          have := iterations_head hit hg rfl rfl rfl
          exact .inl ⟨this.valid, this.status⟩
        | threw => exact .inr (.inl ⟨rfl, .inr (.inr rfl)⟩)
        | ub => simp at ho
        | @check k s' s'' st hk hit hstep ha =>
          have := iterations_head hit hg rfl rfl rfl
          have hp := oneStep_post A L env s' (this.run.hasGraph.trans hg)
          rw [hstep] at hp
          obtain ⟨v, status, e', hcase⟩ :=
            afterStep_fields A s''.opt.settings s''.opt.initialStats s'.opt.stats s''.opt.stats
          rw [ha] at e'
          dsimp only at e' ⊢
          rw [e']
          dsimp only
          have hc := ended_counts (hp.ended rfl) this.valid this.status
          dsimp only at hc
          rcases hcase with ⟨h1, rfl, rfl⟩ | ⟨h1, rfl, h3⟩ | ⟨h1, rfl, rfl⟩
          · rcases hc with hc | hc
            · exact .inr (.inl ⟨hc.2.1, hc.1⟩)
            · rcases hc.2.1 with h | h <;> rw [h] at h1 <;> simp [Status.isSystemError] at h1
          · rcases hc with hc | hc
            · exact absurd hc.1 h1
            · rcases h3 with rfl | rfl | rfl
              · exact .inl ⟨hc.1, .inr rfl⟩
              · exact .inl ⟨hc.1, hc.2.1⟩
              · exact .inr (.inr rfl)
          · exact .inr (.inr rfl)
      unfold finish
      dsimp only
      rcases key with ⟨h1, h2 | h2⟩ | ⟨h1, h2⟩ | h1
      · rw [if_pos h2]; dsimp only; exact ⟨fun _ => h1, by simp⟩
      · rw [if_neg (by simp [h2])]; exact ⟨fun _ => h1, by simp [h2]⟩
      · rw [if_neg (by intro h; rw [h] at h2; simp [Status.isSystemError] at h2)]
        refine ⟨fun h => ?_, fun _ => h1⟩
        rw [h] at h2; simp [Status.isSystemError] at h2
      · rw [if_neg (by simp [h1])]
        simp [h1]
    · rw [e] at hret; simp at hret

/-- Both sides occur: a run that succeeds, and a run that fails because a factor throws. -/
example : ToyOpt.gnRun.1.opt.stats.valid = true :=
  (C22_partial ToyOpt.rat Ldlt.linAlg ToyOpt.env (ToyOpt.start ToyOpt.world ToyOpt.gn) rfl ToyOpt.gnRun_ok).1
    (by decide +kernel)
example : (optimize ToyOpt.rat Ldlt.linAlg ToyOpt.env (ToyOpt.start ToyOpt.touchyWorld ToyOpt.gn)).1.opt.stats.valid =
    false :=
  (C22_partial ToyOpt.rat Ldlt.linAlg ToyOpt.env (ToyOpt.start ToyOpt.touchyWorld ToyOpt.gn) rfl (by decide +kernel)).2
    (.inr (.inr (by decide +kernel)))

/-- **C28**, which exceptions escape. `optimize()` throws exactly if no graph is set or the evaluation of the initial
residual throws. -/
theorem C28_throws_iff (A : Arith F) (L : LinAlg F Fact) (env : Env F V) (s : OptWorld F V Fact) :
    (optimize A L env s).2 = .threw ↔
      s.opt.hasGraph = false ∨ (computeResidual env s.heap s.graph).2 = .threw := by
  cases hg : s.opt.hasGraph with
  | false => rw [optimize_noGraph A L env s hg]; simp
  | true =>
    simp only [Bool.true_eq_false, false_or]
    cases hr : (computeResidual env s.heap s.graph).2 with
    | threw => rw [(optimize_noResidual A L env s hg hr).1]; simp
    | ub => rw [(optimize_ubResidual A L env s hg hr).1]; simp
    | ok r0 => simpa using (C17_returns A L env s hg r0 hr).1

/-- An optimizer without a graph, one on a graph that was never finalized, and one that does not throw. -/
example : (optimize ToyOpt.rat Ldlt.linAlg ToyOpt.env
    (Opt.init ToyOpt.rat ToyOpt.heap : OptWorld Rat (GenVar Rat) (Ldlt.Fact Rat))).2 = .threw :=
  (C28_throws_iff ..).2 (.inl rfl)
example : (optimize ToyOpt.rat Ldlt.linAlg ToyOpt.env (ToyOpt.start (World.init ToyOpt.heap) ToyOpt.gn)).2 = .threw :=
  (C28_throws_iff ..).2 (.inr (by decide +kernel))
example : ToyOpt.gnRun.2 ≠ .threw := by
  intro h
  rcases (C28_throws_iff ..).1 h with h | h
  · exact absurd h (by decide +kernel)
  · rw [show (computeResidual ToyOpt.env (ToyOpt.start ToyOpt.world ToyOpt.gn).heap
      (ToyOpt.start ToyOpt.world ToyOpt.gn).graph).2 = _ from ToyOpt.residual0] at h
    simp at h

/-- **C28**, exceptions during an iteration. If some iteration within the budget throws (a factor, a variable or the
graph throws), `optimize()` returns with status FAILED and `valid = false`. -/
theorem C28_exception_contained (A : Arith F) (L : LinAlg F Fact) (env : Env F V) (s : OptWorld F V Fact)
    (hg : s.opt.hasGraph = true) (r0 : List F) (hr : (computeResidual env s.heap s.graph).2 = .ok r0)
    (k : Nat) (hk : k < s.opt.settings.maxIterations) (s' : OptWorld F V Fact)
    (hit : Iterations A L env k (loopStart A env s r0) s') (hthrow : (oneStep A L env s').2 = .threw) :
    (optimize A L env s).2 = .ok () ∧ (optimize A L env s).1.opt.stats.status = .failed ∧
      (optimize A L env s).1.opt.stats.valid = false := by
  rw [optimize_start A L env s hg hr]
  have h1 := iterations_iterate hit (s.opt.settings.maxIterations - k - 1 + 1)
  rw [show k + (s.opt.settings.maxIterations - k - 1 + 1) = s.opt.settings.maxIterations by omega] at h1
  have h2 : iterate A L env (s.opt.settings.maxIterations - k - 1 + 1) s' =
      giveUp .failed (oneStep A L env s').1 := by
    unfold iterate
    rcases ho : oneStep A L env s' with ⟨s'', r⟩
    rw [ho] at hthrow
    dsimp only at hthrow
    subst hthrow
    rfl
  rw [h2] at h1
  have h3 : SE.bind (iterate A L env s.opt.settings.maxIterations) (fun _ => fun s => (finish s, .ok ()))
      (loopStart A env s r0) = (finish (giveUp .failed (oneStep A L env s').1 : OptWorld F V Fact × Res Unit).1, .ok ()) :=
    SE.bind_ok (a := ()) h1
  have h4 := h3
  refine ⟨congrArg Prod.snd h4, ?_, ?_⟩
  · exact (congrArg (fun p => p.1.opt.stats.status) h4).trans rfl
  · exact (congrArg (fun p => p.1.opt.stats.valid) h4).trans rfl

/-- The first iteration throws because the first variable has moved. -/
example : (optimize ToyOpt.rat Ldlt.linAlg ToyOpt.env (ToyOpt.start ToyOpt.touchyWorld ToyOpt.lm)).1.opt.stats.status =
    .failed :=
  (C28_exception_contained ToyOpt.rat Ldlt.linAlg ToyOpt.env (ToyOpt.start ToyOpt.touchyWorld ToyOpt.lm) rfl _
    ToyOpt.touchyResidual 0 (by decide) _ (.zero _) (by decide +kernel)).2.1

/-- **C20**. `optimize()` leaves every object that is not a variable of the graph as it was, and every constant variable
of the graph too: with Gauss-Newton always, with Levenberg-Marquardt if setting that variable to its own value does not
change it (`C20_constant_rewritten` shows what happens otherwise). This holds for every outcome, including exceptions. -/
theorem C20_constants_partial (A : Arith F) (L : LinAlg F Fact) (env : Env F V) (s : OptWorld F V Fact) (r : VRef)
    (hr : r ∈ s.graph.getAllVariables → VarLike.isConst (s.heap r) = true ∧
      (s.opt.settings.method = .levenbergMarquardt →
        ∀ v, VarLike.setValue (s.heap r) (VarLike.value (s.heap r)) = .ok v → v = s.heap r)) :
    (optimize A L env s).1.heap r = s.heap r := by
  cases hg : s.opt.hasGraph with
  | false => rw [optimize_noGraph A L env s hg]
  | true =>
    cases hres : (computeResidual env s.heap s.graph).2 with
    | threw => rw [(optimize_noResidual A L env s hg hres).2]
    | ub => rw [(optimize_ubResidual A L env s hg hres).2]
    | ok r0 =>
      have hstep : ∀ s' : OptWorld F V Fact, SameRun (loopStart A env s r0) s' → s'.heap r = s.heap r →
          (oneStep A L env s').1.heap r = s.heap r ∧ SameRun (loopStart A env s r0) (oneStep A L env s').1 := by
        intro s' hrun hh
        have hp := oneStep_post A L env s' (hrun.hasGraph.trans hg)
        refine ⟨(hp.frame r ?_).trans hh, hrun.trans hp.run⟩
        have hv : s'.graph.varsVec = s.graph.varsVec :=
          hrun.kept.varsVec.trans (computeResidual_kept env s.heap s.graph).varsVec
        cases hm : s.opt.settings.method with
        | gaussNewton =>
          by_cases hmem : r ∈ s.graph.varsVec
          · exact .inl ⟨by rw [hrun.settings]; exact hm, by rw [hh]; exact (hr hmem).1⟩
          · exact .inr fun h => absurd (hv ▸ h) hmem
        | levenbergMarquardt =>
          refine .inr fun h => ?_
          rw [hh]
          have h' : r ∈ s.graph.varsVec := hv ▸ h
          exact ⟨(hr h').1, (hr h').2 hm⟩
      have hits : ∀ k s', Iterations A L env k (loopStart A env s r0) s' →
          SameRun (loopStart A env s r0) s' ∧ s'.heap r = s.heap r := by
        intro k s' hit
        generalize h1 : loopStart A env s r0 = s1 at *
        induction hit with
        | zero s1 => subst h1; exact ⟨.refl _, rfl⟩
        | @succ k s1 s2 s3 _ ho _ ih =>
          subst h1
          obtain ⟨i1, i2⟩ := ih rfl hstep
          have := hstep s2 i1 i2
          rw [ho] at this
          exact ⟨this.2, this.1⟩
      obtain ⟨o, hend, ho⟩ := optimize_ends A L env s hg hres
      have key : o.1.heap r = s.heap r := by
        cases hend with
        | budget hit => exact (hits _ _ hit).2
        | threw _ hit e =>
          obtain ⟨i1, i2⟩ := hits _ _ hit
          have := hstep _ i1 i2
          rw [e] at this
          exact this.1
        | ub _ hit e =>
          obtain ⟨i1, i2⟩ := hits _ _ hit
          have := hstep _ i1 i2
          rw [e] at this
          exact this.1
        | check _ hit e _ =>
          obtain ⟨i1, i2⟩ := hits _ _ hit
          have := hstep _ i1 i2
          rw [e] at this
          exact this.1
      rcases ho with ⟨_, e⟩ | ⟨_, e⟩ <;> rw [e] <;> exact key

/-- The constant third variable of the example keeps its value in the Levenberg-Marquardt run, in which the other two
move. -/
example : ToyOpt.lmRun.1.heap 2 = ToyOpt.world.heap 2 :=
  C20_constants_partial ToyOpt.rat Ldlt.linAlg ToyOpt.env (ToyOpt.start ToyOpt.world ToyOpt.lm) 2
    (fun _ => ⟨by decide +kernel, fun _ _ h => ((GenVar.restoresExactly _ trivial).1.symm.trans h |> Res.ok.inj).symm⟩)
example : ToyOpt.lmRun.1.heap 0 ≠ ToyOpt.world.heap 0 := by decide +kernel

/-! ### Statements about a finalized graph -/

variable [LawfulVar F V]

/-- **C63**. What `optimize()` does to variables and graph is a sequence of evaluations and value changes the user could
have made through the public interface; in particular a finalized graph stays usable, with the same placements. -/
theorem C63_only_value_calls (A : Arith F) (L : LinAlg F Fact) (env : Env F V) (s : OptWorld F V Fact)
    {h0 : Heap V} {pre post : List (Op F V × Res Unit)} (hw : FinalizedAfter h0 pre post ⟨s.heap, s.graph⟩)
    (hne : (optimize A L env s).2 ≠ .ub) :
    (∃ post', FinalizedAfter h0 pre (post ++ post') ⟨(optimize A L env s).1.heap, (optimize A L env s).1.graph⟩) ∧
    (optimize A L env s).1.graph.getAllVariables = s.graph.getAllVariables ∧
    (optimize A L env s).1.graph.getAllFactors = s.graph.getAllFactors ∧
    (∀ i, (optimize A L env s).1.graph.variablePlacement i = s.graph.variablePlacement i) ∧
    SameShape s.heap (optimize A L env s).1.heap := by
  obtain ⟨evs, hv, hrun⟩ := Traced.optimize A L env s hne
  obtain ⟨hk, hs⟩ := kept_runs hrun hv
  refine ⟨⟨evs, ?_, ?_⟩, hk.varsVec, hk.facs, fun i => congrFun hk.varPl i, hs⟩
  · have := runs_trans hw.1 hrun
    simpa [OptWorld.world] using this
  · intro ev hev
    rcases List.mem_append.1 hev with h | h
    · exact hw.2 ev h
    · exact hv ev h

example : ToyOpt.lmRun.1.graph.getAllVariables = ToyOpt.world.graph.getAllVariables :=
  (C63_only_value_calls ToyOpt.rat Ldlt.linAlg ToyOpt.env (ToyOpt.start ToyOpt.world ToyOpt.lm) ToyOpt.finalizedAfter
    (by decide +kernel)).2.1

/-- The variables of a run can be restored exactly: needed for Levenberg-Marquardt only. -/
def Restorable (s : OptWorld F V Fact) : Prop :=
  s.opt.settings.method = .levenbergMarquardt →
    ∃ good, RestoresExactly good ∧ ∀ r ∈ s.graph.getAllVariables, good (s.heap r)

theorem toy_restorable (w : World Rat (GenVar Rat)) (st : Settings Rat) : Restorable (ToyOpt.start w st) :=
  fun _ => ⟨_, GenVar.restoresExactly, fun _ _ => trivial⟩

theorem loopStart_ready (A : Arith F) (env : Env F V) (s : OptWorld F V Fact)
    {h0 : Heap V} {pre post : List (Op F V × Res Unit)} (hw : FinalizedAfter h0 pre post ⟨s.heap, s.graph⟩)
    (hrest : Restorable s) {r0 : List F} (hr : (computeResidual env s.heap s.graph).2 = .ok r0) :
    Layout (loopStart A env s r0).heap (loopStart A env s r0).graph ∧
    (loopStart A env s r0).graph.facs = s.graph.facs ∧ Describes A (loopStart A env s r0) ∧
    ((loopStart A env s r0).opt.settings.method = .levenbergMarquardt →
      ∃ good, RestoresExactly good ∧ GoodVars good (loopStart A env s r0)) := by
  have hl : Layout (loopStart A env s r0).heap (loopStart A env s r0).graph :=
    (finalizedAfter_layout hw).kept (computeResidual_kept env s.heap s.graph) (SameShape.refl _)
  have hkf : (loopStart A env s r0).graph.facs = s.graph.facs := (computeResidual_kept env s.heap s.graph).facs
  have hkv : (loopStart A env s r0).graph.varsVec = s.graph.varsVec := (computeResidual_kept env s.heap s.graph).varsVec
  refine ⟨hl, hkf, ⟨r0, ?_, rfl, rfl⟩, fun hm => ?_⟩
  · rw [hkf]; exact evaluated_isResidual (finalizedAfter_layout hw) (computeResidual_evaluated hr)
  · obtain ⟨good, h1, h2⟩ := hrest hm
    refine ⟨good, h1, hl.nodup, ?_⟩
    intro r hr
    rw [hkv] at hr
    exact h2 r hr

/-- **C27**. When `optimize()` returns, `chi2` and `residual_norm` are the squared norm and the norm of the residual of
the variables' final values, unless a step threw. -/
theorem C27_statistics_partial (A : Arith F) (L : LinAlg F Fact) (env : Env F V) (s : OptWorld F V Fact)
    {h0 : Heap V} {pre post : List (Op F V × Res Unit)} (hw : FinalizedAfter h0 pre post ⟨s.heap, s.graph⟩)
    (hg : s.opt.hasGraph = true) (hrest : Restorable s) (r0 : List F)
    (hr : (computeResidual env s.heap s.graph).2 = .ok r0) (hret : (optimize A L env s).2 = .ok ()) :
    (∃ r, IsResidual (optimize A L env s).1.heap s.graph.getAllFactors r ∧
      (optimize A L env s).1.opt.stats.chi2 = A.sqNorm r ∧ (optimize A L env s).1.opt.stats.residualNorm = A.norm r) ∨
    ((optimize A L env s).1.opt.stats.status = .failed ∧ (optimize A L env s).1.opt.stats.valid = false ∧
      ∃ k s', k < s.opt.settings.maxIterations ∧ Iterations A L env k (loopStart A env s r0) s' ∧
        (oneStep A L env s').2 = .threw) := by
  obtain ⟨hl, hkf, hd, hgood⟩ := loopStart_ready A env s hw hrest hr
  obtain ⟨o, hend, ⟨ho, e⟩ | ⟨ho, e⟩⟩ := optimize_ends A L env s hg hr
  · rw [e]
    have key : (Describes A o.1 ∧ o.1.graph.facs = s.graph.facs) ∨
        (o.1.opt.stats.status = .failed ∧ o.1.opt.stats.valid = false ∧
      ∃ k s', k < s.opt.settings.maxIterations ∧ Iterations A L env k (loopStart A env s r0) s' ∧
        (oneStep A L env s').2 = .threw) := by
      cases hend with
      | budget hit =>
        have := iterations_describes hit hg hl hd hgood
        exact .inl ⟨this.2.2.2.1, (iterations_shape hit).1.facs.trans hkf⟩
      | threw hk hit hstep => exact .inr ⟨rfl, rfl, _, _, hk, hit, by rw [hstep]⟩
      | ub => simp at ho
      | @check k s' s'' st hk hit hstep ha =>
        obtain ⟨i1, i2, i3, i4, i5⟩ := iterations_describes hit hg hl hd hgood
        have hp := oneStep_post A L env s' i1
        rw [hstep] at hp
        obtain ⟨hkk, hss⟩ := oneStep_shape hstep (by simp)
        obtain ⟨r, d1, d2, d3⟩ := ended_describes (hp.ended rfl) hkk i3 (i3.kept hkk hss) i4 i5
        obtain ⟨v, status, e', _⟩ := afterStep_fields A s''.opt.settings s''.opt.initialStats s'.opt.stats s''.opt.stats
        rw [ha] at e'
        dsimp only at e'
        refine .inl ⟨⟨r, d1, ?_, ?_⟩, (hkk.facs.trans (iterations_shape hit).1.facs).trans hkf⟩
        · dsimp only; rw [e']; exact d2
        · dsimp only; rw [e']; exact d3
    rcases key with ⟨⟨r, d1, d2, d3⟩, d4⟩ | ⟨h1, h2, h3⟩
    · refine .inl ⟨r, by rw [d4] at d1; exact d1, ?_, ?_⟩
      · unfold finish; dsimp only; split <;> exact d2
      · unfold finish; dsimp only; split <;> exact d3
    · refine .inr ⟨?_, ?_, h3⟩
      · unfold finish; dsimp only; rw [if_neg (by simp [h1])]; exact h1
      · unfold finish; dsimp only; rw [if_neg (by simp [h1])]; exact h2
  · rw [e] at hret; simp at hret

/-- In the example run the first alternative holds. -/
example : ∃ r, IsResidual ToyOpt.lmRun.1.heap ToyOpt.world.graph.getAllFactors r ∧
    ToyOpt.lmRun.1.opt.stats.chi2 = ToyOpt.rat.sqNorm r ∧ ToyOpt.lmRun.1.opt.stats.residualNorm = ToyOpt.rat.norm r := by
  rcases C27_statistics_partial ToyOpt.rat Ldlt.linAlg ToyOpt.env (ToyOpt.start ToyOpt.world ToyOpt.lm) ToyOpt.finalizedAfter rfl
    (toy_restorable _ _) _ ToyOpt.residual0 ToyOpt.lmRun_ok with h | h
  · exact h
  · exact absurd h.1 (by decide +kernel)

/-- **C19**. When no trial of a Levenberg-Marquardt iteration is accepted, the iteration leaves all variables as they
were. An iteration with an accepted trial is recognised by a smaller cost. -/
theorem C19_rejected_restores_partial (A : Arith F) (L : LinAlg F Fact) (env : Env F V) (s : OptWorld F V Fact)
    {h0 : Heap V} {pre post : List (Op F V × Res Unit)} (hw : FinalizedAfter h0 pre post ⟨s.heap, s.graph⟩)
    (hg : s.opt.hasGraph = true) (hm : s.opt.settings.method = .levenbergMarquardt) (hrest : Restorable s)
    (hret : (oneStep A L env s).2 = .ok ()) :
    (∃ r0 r, IsResidual s.heap s.graph.getAllFactors r0 ∧
      IsResidual (oneStep A L env s).1.heap s.graph.getAllFactors r ∧
      A.lt (A.mul (A.lit (1 / 2)) (A.sqNorm r)) (A.mul (A.lit (1 / 2)) (A.sqNorm r0)) = true) ∨
    (oneStep A L env s).1.heap = s.heap := by
  have hl := finalizedAfter_layout hw
  rcases ho : oneStep A L env s with ⟨s', res⟩
  rw [ho] at hret
  dsimp only at hret
  subst hret
  have hp := oneStep_post A L env s hg
  rw [ho] at hp
  obtain ⟨hk, hs⟩ := oneStep_shape ho (by simp)
  have hl' := hl.kept hk hs
  cases hp.ended rfl with
  | unsolved st h => rw [hm] at h; simp at h
  | moved dx r h => rw [hm] at h; simp at h
  | accepted dx r0 r l _ h1 h2 h3 _ =>
    have hl2 : Layout s.heap s'.graph := hl.kept hk (SameShape.refl _)
    have e1 := evaluated_isResidual hl2 h1
    have e2 := evaluated_isResidual hl' h2
    rw [hk.facs] at e1 e2
    exact .inl ⟨r0, r, e1, e2, h3⟩
  | rejected m r0 l v st _ _ h1 _ _ =>
    obtain ⟨good, g1, g2⟩ := hrest hm
    exact .inr (h1 good g1 ⟨hl.nodup, g2⟩)

/-- One iteration of the example (accepted), and one from the optimum (rejected; `C26_lm_at_optimum_false`). -/
example : (∃ r0 r, IsResidual ToyOpt.world.heap ToyOpt.world.graph.getAllFactors r0 ∧
      IsResidual (oneStep ToyOpt.rat Ldlt.linAlg ToyOpt.env (ToyOpt.start ToyOpt.world ToyOpt.lm)).1.heap
        ToyOpt.world.graph.getAllFactors r ∧
      ToyOpt.rat.lt (1 / 2 * ToyOpt.rat.sqNorm r) (1 / 2 * ToyOpt.rat.sqNorm r0) = true) ∨
    (oneStep ToyOpt.rat Ldlt.linAlg ToyOpt.env (ToyOpt.start ToyOpt.world ToyOpt.lm)).1.heap = ToyOpt.world.heap :=
  C19_rejected_restores_partial ToyOpt.rat Ldlt.linAlg ToyOpt.env (ToyOpt.start ToyOpt.world ToyOpt.lm) ToyOpt.finalizedAfter rfl
    rfl (toy_restorable _ _) (by decide +kernel)

/-- **C18**, one iteration: in every iteration of a Levenberg-Marquardt run that returns, the reported cost stays the same
or decreases. -/
theorem C18_iteration_partial (A : Arith F) (hA : CostOrder A) (L : LinAlg F Fact) (env : Env F V) (s : OptWorld F V Fact)
    {h0 : Heap V} {pre post : List (Op F V × Res Unit)} (hw : FinalizedAfter h0 pre post ⟨s.heap, s.graph⟩)
    (hg : s.opt.hasGraph = true) (hm : s.opt.settings.method = .levenbergMarquardt) (hrest : Restorable s) (r0 : List F)
    (hr : (computeResidual env s.heap s.graph).2 = .ok r0) (k : Nat) (s1 s2 : OptWorld F V Fact)
    (hit : Iterations A L env k (loopStart A env s r0) s1) (hstep : oneStep A L env s1 = (s2, .ok ())) :
    s2.opt.stats.chi2 = s1.opt.stats.chi2 ∨ A.lt s2.opt.stats.chi2 s1.opt.stats.chi2 = true := by
  obtain ⟨hl, hkf, hd, hgood⟩ := loopStart_ready A env s hw hrest hr
  obtain ⟨i1, i2, i3, ⟨r, d1, d2, d3⟩, i5⟩ := iterations_describes hit hg hl hd hgood
  have hm1 : s1.opt.settings.method = .levenbergMarquardt := by rw [i2]; exact hm
  have hp := oneStep_post A L env s1 i1
  rw [hstep] at hp
  obtain ⟨hkk, hss⟩ := oneStep_shape hstep (by simp)
  have hl2 : Layout s1.heap s2.graph := i3.kept hkk (SameShape.refl _)
  cases hp.ended rfl with
  | unsolved st h => rw [hm1] at h; simp at h
  | moved dx r h => rw [hm1] at h; simp at h
  | accepted dx r1 r' l _ h1 h2 h3 e =>
    have he : r1 = r := isResidual_unique (hkk.facs ▸ evaluated_isResidual hl2 h1) d1
    subst he
    refine .inr ?_
    dsimp only at e
    rw [e, d2]
    exact hA.half _ _ h3
  | rejected m r1 l v st _ h1 _ e _ =>
    have he : r1 = r := isResidual_unique (hkk.facs ▸ evaluated_isResidual hl2 h1) d1
    subst he
    refine .inl ?_
    dsimp only at e
    rw [e, d2]
    rfl

example : (oneStep ToyOpt.rat Ldlt.linAlg ToyOpt.env
      (loopStart ToyOpt.rat ToyOpt.env (ToyOpt.start ToyOpt.world ToyOpt.lm) [2, 6, -12, -21])).1.opt.stats.chi2 = 625 ∨
    ToyOpt.rat.lt (oneStep ToyOpt.rat Ldlt.linAlg ToyOpt.env
      (loopStart ToyOpt.rat ToyOpt.env (ToyOpt.start ToyOpt.world ToyOpt.lm) [2, 6, -12, -21])).1.opt.stats.chi2 625 =
      true := by
  have h625 : ToyOpt.rat.sqNorm [2, 6, -12, -21] = 625 := by decide +kernel
  rw [← h625]
  refine C18_iteration_partial ToyOpt.rat ToyOpt.costOrder Ldlt.linAlg ToyOpt.env (ToyOpt.start ToyOpt.world ToyOpt.lm)
    ToyOpt.finalizedAfter rfl rfl (toy_restorable _ _) _ ToyOpt.residual0 0 _ _ (.zero _) (Prod.ext rfl ?_)
  decide +kernel

/-- **C18**. After a completed Levenberg-Marquardt run the cost is the initial cost or smaller, and the final residual
norm is not larger than the initial one, whatever the linear solver returned and whether or not steps threw. -/
theorem C18_never_worse_partial (A : Arith F) (hA : CostOrder A) (L : LinAlg F Fact) (env : Env F V) (s : OptWorld F V Fact)
    {h0 : Heap V} {pre post : List (Op F V × Res Unit)} (hw : FinalizedAfter h0 pre post ⟨s.heap, s.graph⟩)
    (hg : s.opt.hasGraph = true) (hm : s.opt.settings.method = .levenbergMarquardt) (hrest : Restorable s) (r0 : List F)
    (hr : (computeResidual env s.heap s.graph).2 = .ok r0) (hret : (optimize A L env s).2 = .ok ()) :
    ((optimize A L env s).1.opt.stats.chi2 = A.sqNorm r0 ∨
      A.lt (optimize A L env s).1.opt.stats.chi2 (A.sqNorm r0) = true) ∧
    A.lt (A.norm r0) (optimize A L env s).1.opt.stats.residualNorm = false := by
  have hstep := fun k s1 s2 => C18_iteration_partial A hA L env s hw hg hm hrest r0 hr k s1 s2
  have hits : ∀ k s1, Iterations A L env k (loopStart A env s r0) s1 →
      (s1.opt.stats.chi2 = A.sqNorm r0 ∨ A.lt s1.opt.stats.chi2 (A.sqNorm r0) = true) := by
    intro k s1 hit
    generalize h1 : loopStart A env s r0 = s0 at *
    induction hit with
    | zero s1 => subst h1; exact .inl rfl
    | @succ k s0 s2 s3 hit' ho _ ih =>
      subst h1
      have h2 := ih rfl hstep
      rcases hstep k s2 s3 hit' ho with h3 | h3
      · rw [h3]; exact h2
      · rcases h2 with h2 | h2
        · rw [h2] at h3; exact .inr h3
        · exact .inr (hA.trans _ _ _ h3 h2)
  have hstats : ∃ r, (optimize A L env s).1.opt.stats.chi2 = A.sqNorm r ∧
      (optimize A L env s).1.opt.stats.residualNorm = A.norm r ∧
      (A.sqNorm r = A.sqNorm r0 ∨ A.lt (A.sqNorm r) (A.sqNorm r0) = true) := by
    obtain ⟨hl, hkf, hd, hgood⟩ := loopStart_ready A env s hw hrest hr
    obtain ⟨o, hend, ⟨ho, e⟩ | ⟨ho, e⟩⟩ := optimize_ends A L env s hg hr
    · rw [e]
      have key : ∃ r, o.1.opt.stats.chi2 = A.sqNorm r ∧ o.1.opt.stats.residualNorm = A.norm r ∧
          (A.sqNorm r = A.sqNorm r0 ∨ A.lt (A.sqNorm r) (A.sqNorm r0) = true) := by
        cases hend with
        | budget hit =>
          obtain ⟨_, _, _, ⟨r, _, d2, d3⟩, _⟩ := iterations_describes hit hg hl hd hgood
          exact ⟨r, d2, d3, by rw [← d2]; exact hits _ _ hit⟩
        | @threw k s' s'' hk hit hs' =>
          obtain ⟨i1, _, _, ⟨r, _, d2, d3⟩, _⟩ := iterations_describes hit hg hl hd hgood
          have hp := oneStep_post A L env s' i1
          rw [hs'] at hp
          obtain ⟨l, hl⟩ := hp.interrupted (by simp)
          dsimp only at hl
          refine ⟨r, ?_, ?_, by rw [← d2]; exact hits _ _ hit⟩
          · have : (giveUp .failed s'' : OptWorld F V Fact × Res Unit).1.opt.stats.chi2 = s''.opt.stats.chi2 := rfl
            rw [this, hl]; exact d2
          · have : (giveUp .failed s'' : OptWorld F V Fact × Res Unit).1.opt.stats.residualNorm = s''.opt.stats.residualNorm := rfl
            rw [this, hl]; exact d3
        | ub => simp at ho
        | @check k s' s'' st hk hit hs' ha =>
          obtain ⟨i1, i2, i3, i4, i5⟩ := iterations_describes hit hg hl hd hgood
          have hp := oneStep_post A L env s' i1
          rw [hs'] at hp
          obtain ⟨hkk, hss⟩ := oneStep_shape hs' (by simp)
          obtain ⟨r, d1, d2, d3⟩ := ended_describes (hp.ended rfl) hkk i3 (i3.kept hkk hss) i4 i5
          obtain ⟨v, status, e', _⟩ := afterStep_fields A s''.opt.settings s''.opt.initialStats s'.opt.stats s''.opt.stats
          rw [ha] at e'
          dsimp only at e' d2 d3
          refine ⟨r, by dsimp only; rw [e']; exact d2, by dsimp only; rw [e']; exact d3, ?_⟩
          have h2 := hits _ _ hit
          rw [← d2]
          rcases hstep k s' s'' hit hs' with h3 | h3
          · rw [h3]; exact h2
          · rcases h2 with h2 | h2
            · rw [h2] at h3; exact .inr h3
            · exact .inr (hA.trans _ _ _ h3 h2)
      obtain ⟨r, k1, k2, k3⟩ := key
      refine ⟨r, ?_, ?_, k3⟩
      · unfold finish; dsimp only; split <;> exact k1
      · unfold finish; dsimp only; split <;> exact k2
    · rw [e] at hret; simp at hret
  obtain ⟨r, k1, k2, k3⟩ := hstats
  rw [k1, k2]
  refine ⟨k3, ?_⟩
  unfold Arith.norm
  rcases k3 with k3 | k3
  · rw [k3]; exact hA.irrefl _
  · exact hA.sqrt _ _ k3

/-- The Levenberg-Marquardt run of the example reduces the cost from 625. -/
example : ToyOpt.rat.lt (ToyOpt.rat.norm [2, 6, -12, -21]) ToyOpt.lmRun.1.opt.stats.residualNorm = false :=
  (C18_never_worse_partial ToyOpt.rat ToyOpt.costOrder Ldlt.linAlg ToyOpt.env (ToyOpt.start ToyOpt.world ToyOpt.lm)
    ToyOpt.finalizedAfter rfl rfl (toy_restorable _ _) _ ToyOpt.residual0 ToyOpt.lmRun_ok).2
example : ToyOpt.lmRun.1.opt.stats.chi2 < 1 / 1000 := by decide +kernel

end Factorama.Props
