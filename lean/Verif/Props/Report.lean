import Verif.Lemmas.Attempts
import Verif.Lemmas.SaidTrials
import Verif.Props.OptimizerSteps
import Verif.Props.OptimizerLimits
import Verif.Props.Printing
import Verif.Props.Stopwatch
import Verif.Examples.ToyOpt

/-!
# C89-C92: the flags `verbose` and `check_rank_deficiency`, what a verbose run reports, the times it shows
-/

set_option linter.unusedSectionVars false

namespace Factorama.Props
open Spec Graph Opt
variable {F V Fact : Type} [Zero F] [VarLike F V]

/-! ### C89: the rank -/

/-- **C89**, what the code does instead: after any calls, with whatever settings, `rank` is -1 in the current and in the
initial statistics. -/
theorem C89_never_computed (A : Arith F) (L : LinAlg F Fact) (h0 : Heap V) (evs : List (Call F V × Res Unit))
    (s : OptWorld F V Fact) (hrun : Runs A L (Opt.init A h0) evs s) :
    s.opt.stats.rank = -1 ∧ s.opt.initialStats.rank = -1 := by
  have key : ∀ s0 : OptWorld F V Fact, NoRank s0 → Runs A L s0 evs s → NoRank s := by
    intro s0 h hrun'
    clear hrun
    induction hrun' with
    | nil s => exact h
    | @cons s s' s'' c evs r env hs _ _ ih =>
      refine ih ?_
      have e : s' = (Opt.step A L env c s).1 := by rw [hs]
      rw [e]
      cases c with
      | user op => exact h
      | setup g st => exact h
      | optimize => exact Rankless.optimize A L env s h
      | prepare => exact Rankless.prepare A L s h
  exact key _ ⟨rfl, rfl⟩ hrun

/-- A program that asks for the rank check. -/
def C89.calls : List (Call Rat (GenVar Rat)) :=
  (ToyOpt.build ++ [Op.finalize]).map Call.user ++
    [.setup true { ToyOpt.gn with checkRankDeficiency := true }, .optimize]

theorem C89.outcomes : ToyOpt.callOutcomes C89.calls (Opt.init ToyOpt.rat ToyOpt.heap) = List.replicate 8 (.ok ()) := by
  decide +kernel

theorem C89.run : Runs ToyOpt.rat Ldlt.linAlg (Opt.init ToyOpt.rat ToyOpt.heap)
    (C89.calls.zip (List.replicate 8 (.ok ()))) (ToyOpt.execCalls C89.calls (Opt.init ToyOpt.rat ToyOpt.heap)) := by
  have := ToyOpt.execCalls_runs C89.calls (Opt.init ToyOpt.rat ToyOpt.heap) (by rw [C89.outcomes]; simp)
  rw [C89.outcomes] at this
  exact this

example : (ToyOpt.execCalls C89.calls (Opt.init ToyOpt.rat ToyOpt.heap)).opt.stats.rank = -1 :=
  (C89_never_computed _ _ _ _ _ C89.run).1

/-- **C89** is false of the code: the check is enabled, the run succeeds, and no rank is reported. -/
theorem C89_false : ¬ ∀ (evs : List (Call Rat (GenVar Rat) × Res Unit)) (s : OptWorld Rat (GenVar Rat) (Ldlt.Fact Rat)),
    Runs ToyOpt.rat Ldlt.linAlg (Opt.init ToyOpt.rat ToyOpt.heap) evs s → OptimizedSinceSetup evs →
    s.opt.settings.checkRankDeficiency = true → s.opt.stats.valid = true → 0 ≤ s.opt.stats.rank := by
  intro h
  have h1 := h _ _ C89.run ⟨(C89.calls.zip (List.replicate 8 (.ok ()))).dropLast, [], rfl, by simp⟩ (by decide +kernel)
    (by decide +kernel)
  rw [(C89_never_computed _ _ _ _ _ C89.run).1] at h1
  exact absurd h1 (by decide)

/-! ### C90: the flags influence nothing -/

/-- **C90**, output. The optimizer with its messages and stopwatches ends in the same state and with the same outcome as
the computation without them, whether or not it is verbose. -/
theorem C90_output (A : Arith F) (L : LinAlg F Fact) (env : Env F V) (t : Talk F V Fact) :
    (optimizeV A L env t).1.world = (optimize A L env t.world).1 ∧ (optimizeV A L env t).2 = (optimize A L env t.world).2 := by
  have h := Erases.optimize A L env t
  rw [mapRes_id] at h
  rw [h]
  exact ⟨rfl, rfl⟩

/-- A verbose Gauss-Newton run and a verbose Levenberg-Marquardt run. -/
def C90.gn : Talk Rat (GenVar Rat) (Ldlt.Fact Rat) :=
  ⟨ToyOpt.start ToyOpt.world { ToyOpt.gn with verbose := true }, []⟩
def C90.lm : Talk Rat (GenVar Rat) (Ldlt.Fact Rat) :=
  ⟨ToyOpt.start ToyOpt.world { ToyOpt.lm with verbose := true }, []⟩

example : (optimizeV ToyOpt.rat Ldlt.linAlg ToyOpt.env C90.lm).2 = .ok () ∧
    2 < (messages (optimizeV ToyOpt.rat Ldlt.linAlg ToyOpt.env C90.lm).1.acts).length := by decide +kernel

theorem worldOff_eq_withFlags (s : OptWorld F V Fact) : worldOff s = withFlags false false s := rfl

theorem stepOff (A : Arith F) (L : LinAlg F Fact) (env : Env F V) (c : Call F V) (s : OptWorld F V Fact) :
    Opt.step A L env (callOff c) (worldOff s) = (worldOff (Opt.step A L env c s).1, (Opt.step A L env c s).2) := by
  cases c with
  | user op => rfl
  | setup g st => rfl
  | optimize => exact FlagBlind.optimize A L env false false s
  | prepare => exact FlagBlind.prepare A L false false s

/-- **C90**, flags. Two programs that differ only in the values of `verbose` and `check_rank_deficiency` in the settings
they pass make the same calls succeed and fail, and end in states that differ at most in these two settings. -/
theorem C90_flags (A : Arith F) (L : LinAlg F Fact) (h0 : Heap V) (evs : List (Call F V × Res Unit))
    (s : OptWorld F V Fact) (hrun : Runs A L (Opt.init A h0) evs s) (calls : List (Call F V))
    (hsame : calls.map callOff = evs.map fun ev => callOff ev.1) :
    ∃ s', Runs A L (Opt.init A h0) (calls.zip (evs.map (·.2))) s' ∧ worldOff s' = worldOff s := by
  have key : ∀ (s0 s : OptWorld F V Fact) evs, Runs A L s0 evs s → ∀ (t0 : OptWorld F V Fact) (calls : List (Call F V)),
      worldOff t0 = worldOff s0 → (calls.map callOff = evs.map fun ev => callOff ev.1) →
      ∃ s', Runs A L t0 (calls.zip (evs.map (·.2))) s' ∧ worldOff s' = worldOff s := by
    intro s0 s evs hrun
    induction hrun with
    | nil s =>
      intro t0 calls ht hc
      cases calls with
      | nil => exact ⟨t0, .nil t0, ht⟩
      | cons _ _ => simp at hc
    | @cons s s1 s2 c evs r env hs hne hrun ih =>
      intro t0 calls ht hc
      cases calls with
      | nil => simp at hc
      | cons c' calls =>
        simp only [List.map_cons, List.cons.injEq] at hc
        have h1 := stepOff A L env c s
        have h2 := stepOff A L env c' t0
        rw [hc.1, ht, h1, hs] at h2
        simp only [Prod.mk.injEq] at h2
        obtain ⟨s', h3, h4⟩ := ih (Opt.step A L env c' t0).1 calls h2.1.symm hc.2
        refine ⟨s', ?_, h4⟩
        simp only [List.map_cons, List.zip_cons_cons]
        exact .cons env (Prod.ext rfl h2.2.symm) hne h3
  exact key _ _ _ hrun _ _ rfl hsame

/-- The same program with the check off and verbose. -/
example : ∃ s', Runs ToyOpt.rat Ldlt.linAlg (Opt.init ToyOpt.rat ToyOpt.heap)
    (((ToyOpt.build ++ [Op.finalize]).map Call.user ++ [.setup true { ToyOpt.gn with verbose := true }, .optimize]).zip
      (List.replicate 8 (.ok ()))) s' ∧
    worldOff s' = worldOff (ToyOpt.execCalls C89.calls (Opt.init ToyOpt.rat ToyOpt.heap)) :=
  C90_flags _ _ _ _ _ C89.run _ rfl

/-- **C90**, silence. With `verbose` off `optimize()` prints nothing but the notice that an exception ended an iteration. -/
theorem C90_silent (A : Arith F) (L : LinAlg F Fact) (env : Env F V) (t : Talk F V Fact)
    (hv : t.world.opt.settings.verbose = false) :
    ∃ new, (optimizeV A L env t).1.acts = t.acts ++ new ∧ ∀ m ∈ messages new, ∃ i, m = .errorInIteration i := by
  have hmem : ∀ (l : List (Act F)) m, m ∈ messages l → .print m ∈ l := by
    intro l m
    induction l with
    | nil => simp [messages]
    | cons a l ih =>
      cases a with
      | print m' =>
        simp only [messages, List.mem_cons, Act.print.injEq]
        exact Or.imp_right ih
      | press w p =>
        simp only [messages, List.mem_cons, reduceCtorEq, false_or]
        exact ih
  cases hg : t.world.opt.hasGraph with
  | false => rw [optimizeV_refused A L env t hg]; exact ⟨[], by simp, by simp [messages]⟩
  | true =>
    obtain ⟨l, h1, h2⟩ := optimizeV_adds (allows_silence (V := V) (Fact := Fact)) A L env t hv hg
    refine ⟨resets ++ l, h1, fun m hm => ?_⟩
    rcases List.mem_append.1 (hmem _ _ hm) with h | h
    · simp [resets] at h
    · exact h2 _ h m rfl

/-- A quiet run in which a factor throws. -/
example : messages (optimizeV ToyOpt.rat Ldlt.linAlg ToyOpt.env
    ⟨ToyOpt.start ToyOpt.touchyWorld ToyOpt.gn, []⟩).1.acts = [.errorInIteration 0] := by decide +kernel

/-! ### C91: what a verbose run reports -/

theorem mem_messages {l : List (Act F)} {m : Message F} : m ∈ messages l ↔ .print m ∈ l := by
  induction l with
  | nil => simp [messages]
  | cons a l ih => cases a <;> simp [messages, ih]

/-- **C91** is false of the code for the "Initial residual norm" of Gauss-Newton: the report of a step shows the norm of
the residual after the step. -/
theorem C91_initial_norm_false : ¬ ∀ (t : Talk Rat (GenVar Rat) (Ldlt.Fact Rat)) h0 pre post,
    FinalizedAfter h0 pre post ⟨t.world.heap, t.world.graph⟩ → t.acts = [] →
    (oneStepV ToyOpt.rat Ldlt.linAlg ToyOpt.env t).2 = .ok () →
    ∀ q, .gaussNewtonSummary q ∈ messages (oneStepV ToyOpt.rat Ldlt.linAlg ToyOpt.env t).1.acts →
      InitialNormTrue ToyOpt.rat t.world q := by
  intro h
  have hm : messages (oneStepV ToyOpt.rat Ldlt.linAlg ToyOpt.env C90.gn).1.acts =
      [.gaussNewtonSummary ⟨1, 0, 0, 5916079783099 / 1000000000000, 0, 4, 4, 12⟩] := by decide +kernel
  obtain ⟨r, h1, h2⟩ := h C90.gn _ _ _ ToyOpt.finalizedAfter rfl (by decide +kernel) _
    (by rw [hm]; exact List.mem_singleton.2 rfl)
  have h3 : IsResidual ToyOpt.world.heap ToyOpt.world.graph.facs [2, 6, -12, -21] :=
    evaluated_isResidual (finalizedAfter_layout ToyOpt.finalizedAfter)
      (computeResidual_evaluated ToyOpt.residual0)
  have h4 := isResidual_unique h1 h3
  subst h4
  exact absurd h2 (by decide +kernel)

/-- **C91** is false of the code for the last line of the summary: "Optimization SUCCESS" is printed for a run that
diverged. -/
theorem C91_success_false : ¬ ∀ (t : Talk Rat (GenVar Rat) (Ldlt.Fact Rat)) h0 pre post,
    FinalizedAfter h0 pre post ⟨t.world.heap, t.world.graph⟩ → t.acts = [] →
    (optimizeV ToyOpt.rat Ldlt.linAlg ToyOpt.env t).2 = .ok () →
    ∀ q, .summary q ∈ messages (optimizeV ToyOpt.rat Ldlt.linAlg ToyOpt.env t).1.acts → q.success = true →
      ¬ isErrorStatus q.status := by
  intro h
  have hm : ((messages (optimizeV ToyOpt.rat Ldlt.linAlg ToyOpt.env
      ⟨ToyOpt.start ToyOpt.world { C22.settings with verbose := true }, []⟩).1.acts).any fun m => match m with
        | .summary q => q.success && decide (q.status = .diverged)
        | _ => false) = true := by decide +kernel
  obtain ⟨m, h1, h2⟩ := List.any_eq_true.1 hm
  split at h2
  · rename_i q
    simp only [Bool.and_eq_true, decide_eq_true_eq] at h2
    refine h _ _ _ _ ToyOpt.finalizedAfter rfl (by decide +kernel) q h1 h2.1 ?_
    rw [h2.2]
    exact .inr (.inr (.inl rfl))
  · simp at h2

/-- Start at the optimum, with verbose output: no step is accepted. -/
def C91.still (maxLambda : Rat) : Talk Rat (GenVar Rat) (Ldlt.Fact Rat) :=
  ⟨ToyOpt.start ToyOpt.optWorld { ToyOpt.lm with verbose := true, maxLambda := maxLambda }, []⟩

/-- **C91** is false of the code for the number of attempts: the report of a Levenberg-Marquardt step that was not
accepted counts one attempt too many, and "No acceptable step found after 5 attempts" is printed also after one attempt. -/
theorem C91_attempts_false :
    (¬ ∀ (t : Talk Rat (GenVar Rat) (Ldlt.Fact Rat)) h0 pre post,
      FinalizedAfter h0 pre post ⟨t.world.heap, t.world.graph⟩ → t.acts = [] →
      (oneStepV ToyOpt.rat Ldlt.linAlg ToyOpt.env t).2 = .ok () →
      ∀ q damping n acc, .lmSummary q damping n acc ∈ messages (oneStepV ToyOpt.rat Ldlt.linAlg ToyOpt.env t).1.acts →
        n = attempts (oneStepV ToyOpt.rat Ldlt.linAlg ToyOpt.env t).1.acts) ∧
    ¬ ∀ (t : Talk Rat (GenVar Rat) (Ldlt.Fact Rat)) h0 pre post,
      FinalizedAfter h0 pre post ⟨t.world.heap, t.world.graph⟩ → t.acts = [] →
      (oneStepV ToyOpt.rat Ldlt.linAlg ToyOpt.env t).2 = .ok () →
      ∀ n, .lmNoStep n ∈ messages (oneStepV ToyOpt.rat Ldlt.linAlg ToyOpt.env t).1.acts →
        n = attempts (oneStepV ToyOpt.rat Ldlt.linAlg ToyOpt.env t).1.acts := by
  constructor
  · intro h
    have hm : .lmSummary ⟨1, 0, 0, 0, 0, 4, 4, 12⟩ 100 6 false ∈
        messages (oneStepV ToyOpt.rat Ldlt.linAlg ToyOpt.env (C91.still (10 ^ 9))).1.acts := by decide +kernel
    have hc : attempts (oneStepV ToyOpt.rat Ldlt.linAlg ToyOpt.env (C91.still (10 ^ 9))).1.acts = 5 := by decide +kernel
    have h1 := h _ _ _ _ ToyOpt.optFinalized rfl (by decide +kernel) _ _ _ _ hm
    have h2 := h1.trans hc
    omega
  · intro h
    have hm : .lmNoStep 5 ∈
        messages (oneStepV ToyOpt.rat Ldlt.linAlg ToyOpt.env (C91.still (1 / 2000))).1.acts := by decide +kernel
    have hc : attempts (oneStepV ToyOpt.rat Ldlt.linAlg ToyOpt.env (C91.still (1 / 2000))).1.acts = 1 := by decide +kernel
    have h1 := h _ _ _ _ ToyOpt.optFinalized rfl (by decide +kernel) _ hm
    have h2 := h1.trans hc
    omega

/-- **C91**, the part that holds for the number of attempts: the report of a Levenberg-Marquardt step tells the number of
attempts when a step was accepted, and otherwise this number plus one. -/
theorem C91_attempts_partial (A : Arith F) (L : LinAlg F Fact) (env : Env F V) (t t' : Talk F V Fact)
    (hv : t.world.opt.settings.verbose = true) (hm : t.world.opt.settings.method = .levenbergMarquardt)
    (hret : oneStepV A L env t = (t', .ok ())) :
    ∃ new, t'.acts = t.acts ++ new ∧ ∀ q damping n accepted, .lmSummary q damping n accepted ∈ messages new →
      n = attempts new + if accepted then 0 else 1 := by
  obtain ⟨l, h1, h2⟩ := CountsAt.step A L env t hv hm t' () hret
  refine ⟨l, h1, fun q d n acc hn => ?_⟩
  have := h2 q d n acc (mem_messages.1 hn)
  rwa [Nat.zero_add] at this

/-- The first step of a run: accepted at the first attempt. -/
example : attempts (oneStepV ToyOpt.rat Ldlt.linAlg ToyOpt.env C90.lm).1.acts = 1 := by
  obtain ⟨new, h1, h2⟩ := C91_attempts_partial ToyOpt.rat Ldlt.linAlg ToyOpt.env C90.lm _ rfl rfl (ok_pair (by decide +kernel))
  have hm : ((messages (oneStepV ToyOpt.rat Ldlt.linAlg ToyOpt.env C90.lm).1.acts).any fun m => match m with
      | .lmSummary _ _ n acc => acc && n == 1
      | _ => false) = true := by decide +kernel
  have h3 : (oneStepV ToyOpt.rat Ldlt.linAlg ToyOpt.env C90.lm).1.acts = new := h1
  rw [h3] at hm ⊢
  obtain ⟨m, h4, h5⟩ := List.any_eq_true.1 hm
  split at h5
  · rename_i n acc
    simp only [Bool.and_eq_true, beq_iff_eq] at h5
    have := h2 _ _ _ _ h4
    rw [h5.1, h5.2] at this
    exact this.symm
  · simp at h5

/-- **C91**, the part that holds for the reports about single steps, for both methods (see `ReportTrue`): every report
belongs to a step of the run, and its numbers are those of that step, but for the initial norm of Gauss-Newton and the
number of attempts. -/
theorem C91_steps_partial [LawfulVar F V] (A : Arith F) (L : LinAlg F Fact) (env : Env F V) (t : Talk F V Fact)
    {h0 : Heap V} {pre post : List (Op F V × Res Unit)} (hw : FinalizedAfter h0 pre post ⟨t.world.heap, t.world.graph⟩)
    (hg : t.world.opt.hasGraph = true) (hrest : Restorable t.world) (r0 : List F)
    (hr : (computeResidual env t.world.heap t.world.graph).2 = .ok r0) :
    ∃ new, (optimizeV A L env t).1.acts = t.acts ++ new ∧
      ∀ m ∈ messages new, ReportTrue A L env (loopStart A env t.world r0) m := by
  obtain ⟨hl, hkf, hd, hgood⟩ := loopStart_ready A env t.world hw hrest hr
  obtain ⟨new, h1, h2⟩ := optimizeV_reports A L env t hr
  refine ⟨new, h1, fun m hm => ?_⟩
  have hm' := h2 m (mem_messages.1 hm)
  have main : ∀ q J k s s', Iterations A L env k (loopStart A env t.world r0) s → oneStep A L env s = (s', .ok ()) →
      (computeSparse s.heap s.graph).2 = .ok J → s'.opt.stats.iteration = s.opt.stats.iteration + 1 →
      (∃ i, q = stepSummary A J s'.opt.stats i) → q.iteration = k + 1 ∧ NumbersTrue A s s' q := by
    intro q J k s s' hit hstep hJ hi hq
    obtain ⟨i, rfl⟩ := hq
    obtain ⟨i1, i2, i3, i4, i5⟩ := iterations_describes hit hg hl hd hgood
    have hh := iterations_head hit hg rfl rfl rfl
    have hp := oneStep_post A L env s i1
    rw [hstep] at hp
    obtain ⟨hkk, hss⟩ := oneStep_shape hstep (by simp)
    obtain ⟨r, d1, d2, d3⟩ := ended_describes (hp.ended rfl) hkk i3 (i3.kept hkk hss) i4 i5
    refine ⟨hi.trans (by rw [hh.iteration]), hi, ⟨r, ?_, d3, d2⟩, rfl, J, hJ, rfl, rfl, rfl⟩
    rw [hkk.facs] at d1
    exact d1
  cases m with
  | gaussNewtonSummary q =>
    obtain ⟨k, s, s', hit, hstep, hsaid⟩ := hm' trivial
    unfold Said at hsaid
    split at hsaid
    · obtain ⟨J, hJ, hq, hi, -⟩ := hsaid
      have := main q J k s s' hit hstep hJ hi ⟨_, Message.gaussNewtonSummary.inj hq⟩
      exact ⟨k, s, s', hit, hstep, this.1, this.2⟩
    · obtain ⟨_, _, _, _, _, e, _⟩ := hsaid
      simp at e
  | lmSummary q damping n acc =>
    obtain ⟨k, s, s', hit, hstep, hsaid⟩ := hm' trivial
    unfold Said at hsaid
    split at hsaid
    · obtain ⟨_, _, e, _⟩ := hsaid
      simp at e
    · rename_i hmeth
      obtain ⟨J, n', acc', hJ, hev, hq, hacc, hrej⟩ := hsaid
      obtain ⟨rfl, rfl, rfl, rfl⟩ := Message.lmSummary.inj hq
      obtain ⟨i1, i2, i3, i4, i5⟩ := iterations_describes hit hg hl hd hgood
      have hp := oneStep_post A L env s i1
      rw [hstep] at hp
      obtain ⟨hkk, hss⟩ := oneStep_shape hstep (by simp)
      have hi : s'.opt.stats.iteration = s.opt.stats.iteration + 1 := by
        cases hp.ended rfl with
        | unsolved _ h => rw [hmeth] at h; simp at h
        | moved _ _ h => rw [hmeth] at h; simp at h
        | accepted _ _ _ _ _ _ _ _ e => rw [e]; rfl
        | rejected _ _ _ _ _ _ _ _ e _ => rw [e]; rfl
      have hm1 := main (stepSummary A J s'.opt.stats s'.opt.residual1) J k s s' hit hstep hJ hi ⟨_, rfl⟩
      have hres : IsResidual s.heap s.graph.facs s'.opt.residual1 := by
        have := evaluated_isResidual (env := env) (i3.kept hkk (SameShape.refl _)) hev
        rwa [hkk.facs] at this
      refine ⟨k, s, s', hit, hstep, hm1.1, hm1.2, ⟨_, hres, rfl⟩, rfl, fun ha => ?_, fun ha => ?_⟩
      · obtain ⟨r, d1, d2, d3⟩ := ended_describes (hp.ended rfl) hkk i3 (i3.kept hkk hss) i4 i5
        rw [hkk.facs] at d1
        refine ⟨_, r, hres, d1, ?_⟩
        rw [← d2]
        exact hacc ha
      · obtain ⟨good, hgo, hgs⟩ := i5 hmeth
        exact (hrej ha).1 good hgo hgs
  | _ => trivial

/-- A verbose Levenberg-Marquardt run: it prints reports, and they are true. -/
example : (∃ new, (optimizeV ToyOpt.rat Ldlt.linAlg ToyOpt.env C90.lm).1.acts = new ∧ ∀ m ∈ messages new,
    ReportTrue ToyOpt.rat Ldlt.linAlg ToyOpt.env (loopStart ToyOpt.rat ToyOpt.env C90.lm.world [2, 6, -12, -21]) m) ∧
    ((messages (optimizeV ToyOpt.rat Ldlt.linAlg ToyOpt.env C90.lm).1.acts).any fun m => match m with
      | .lmSummary _ _ _ acc => acc
      | _ => false) = true := by
  refine ⟨?_, by decide +kernel⟩
  obtain ⟨new, h1, h2⟩ := C91_steps_partial ToyOpt.rat Ldlt.linAlg ToyOpt.env C90.lm ToyOpt.finalizedAfter rfl
    (toy_restorable _ _) _ ToyOpt.residual0
  exact ⟨new, h1, h2⟩

/-- **C91**, the part that holds for the summary: it is the last thing a verbose run prints; unless a step threw (then the
status is FAILED and "Optimization FAILED" is printed), norm and square are those of the residual of the final values, and
the improvement is the difference of the norms before and after, in percent of the norm before; the number of iterations,
the last step, the status and the validity are those of the statistics. -/
theorem C91_summary_partial [LawfulVar F V] (A : Arith F) (L : LinAlg F Fact) (env : Env F V) (t t' : Talk F V Fact)
    {h0 : Heap V} {pre post : List (Op F V × Res Unit)} (hw : FinalizedAfter h0 pre post ⟨t.world.heap, t.world.graph⟩)
    (hg : t.world.opt.hasGraph = true) (hrest : Restorable t.world) (hv : t.world.opt.settings.verbose = true) (r0 : List F)
    (hr : (computeResidual env t.world.heap t.world.graph).2 = .ok r0) (hret : optimizeV A L env t = (t', .ok ())) :
    ∃ q, (messages t'.acts).getLast? = some (.summary q) ∧
      (q.iterations = t'.world.opt.stats.iteration ∧ q.stepNorm = t'.world.opt.stats.deltaNorm ∧
        q.status = t'.world.opt.stats.status ∧ q.success = t'.world.opt.stats.valid) ∧
      ((q.status = .failed ∧ q.success = false) ∨
        ∃ r, IsResidual t'.world.heap t.world.graph.getAllFactors r ∧ q.residualNorm = A.norm r ∧ q.chi2 = A.sqNorm r ∧
          q.improvement = A.sub (A.norm r0) (A.norm r) ∧
          (A.lt (A.lit 0) (A.norm r0) = true →
            q.relative = A.mul (A.div (A.sub (A.norm r0) (A.norm r)) (A.norm r0)) (A.lit 100))) := by
  have hE := C90_output A L env t
  rw [hret] at hE
  have hok := hE.2.symm
  have h17 := (C17_returns A L env t.world hg r0 hr).2 hok
  have h27 := C27_statistics_partial A L env t.world hw hg hrest r0 hr hok
  rw [← hE.1] at h17 h27
  obtain ⟨-, -, hinit, -, hset⟩ := h17
  obtain ⟨l, hlast⟩ := optimizeV_last hret (by rw [hset]; exact hv)
  have happ : ∀ (l : List (Act F)) m, (messages (l ++ [.print m])).getLast? = some m := by
    intro l m
    induction l with
    | nil => rfl
    | cons a l ih =>
      cases a with
      | print m' => simp only [List.cons_append, messages, List.getLast?_cons, ih]; rfl
      | press w p => exact ih
  refine ⟨_, by rw [hlast, happ], ⟨rfl, rfl, rfl, rfl⟩, ?_⟩
  rcases h27 with ⟨r, h1, h2, h3⟩ | ⟨h1, h2, -⟩
  · refine .inr ⟨r, h1, h3, h2, ?_, fun hpos => ?_⟩
    · show A.sub t'.world.opt.initialStats.residualNorm t'.world.opt.stats.residualNorm = _
      rw [hinit, h3]; rfl
    · show (if A.lt (A.lit 0) t'.world.opt.initialStats.residualNorm = true then _ else _) = _
      rw [hinit, h3]
      exact if_pos hpos
  · exact .inl ⟨h1, h2⟩

example : ∃ q, (messages (optimizeV ToyOpt.rat Ldlt.linAlg ToyOpt.env C90.gn).1.acts).getLast? = some (.summary q) := by
  obtain ⟨q, h, -⟩ := C91_summary_partial ToyOpt.rat Ldlt.linAlg ToyOpt.env C90.gn _ ToyOpt.finalizedAfter rfl
    (toy_restorable _ _) rfl _ ToyOpt.residual0 (ok_pair (by decide +kernel))
  exact ⟨q, h⟩

/-- **C91**, the part that holds for the other messages of the main loop: the settings and the starting point shown at the
top are those of the call, the header of an iteration has its number, an error is reported for an iteration whose step threw,
and each reason for stopping is given with the numbers that meet it. -/
theorem C91_stops_partial (A : Arith F) (L : LinAlg F Fact) (env : Env F V) (t : Talk F V Fact) (r0 : List F)
    (hr : (computeResidual env t.world.heap t.world.graph).2 = .ok r0) :
    ∃ new, (optimizeV A L env t).1.acts = t.acts ++ new ∧
      ∀ m ∈ messages new, LoopMessageTrue A L env (loopStart A env t.world r0) m := by
  obtain ⟨l, h1, h2⟩ := optimizeV_says A L env t hr
  exact ⟨l, h1, fun m hm => h2 m (mem_messages.1 hm)⟩

example : (∃ new, (optimizeV ToyOpt.rat Ldlt.linAlg ToyOpt.env C90.gn).1.acts = C90.gn.acts ++ new ∧
      ∀ m ∈ messages new, LoopMessageTrue ToyOpt.rat Ldlt.linAlg ToyOpt.env
        (loopStart ToyOpt.rat ToyOpt.env C90.gn.world [2, 6, -12, -21]) m) ∧
    ((messages (optimizeV ToyOpt.rat Ldlt.linAlg ToyOpt.env C90.gn).1.acts).any fun m => match m with
      | .convergedStep .. => true
      | .convergedResidual .. => true
      | _ => false) = true :=
  ⟨C91_stops_partial ToyOpt.rat Ldlt.linAlg ToyOpt.env C90.gn _ ToyOpt.residual0, by decide +kernel⟩

/-- **C91**, completeness: a verbose run that returns gives a reason for ending, unless it has made all its iterations. -/
theorem C91_reason_partial (A : Arith F) (L : LinAlg F Fact) (env : Env F V) (t t' : Talk F V Fact) (r0 : List F)
    (hr : (computeResidual env t.world.heap t.world.graph).2 = .ok r0) (hv : t.world.opt.settings.verbose = true)
    (hret : optimizeV A L env t = (t', .ok ())) :
    ∃ new, t'.acts = t.acts ++ new ∧ ((∃ m ∈ messages new, Message.endsRun m) ∨
      ∃ s, Iterations A L env t.world.opt.settings.maxIterations (loopStart A env t.world r0) s) := by
  obtain ⟨l, h1, h2⟩ := optimizeV_reason hr hv hret
  exact ⟨l, h1, h2.imp_left fun ⟨m, hm, he⟩ => ⟨m, mem_messages.2 hm, he⟩⟩

example : ∃ new, (optimizeV ToyOpt.rat Ldlt.linAlg ToyOpt.env C90.gn).1.acts = C90.gn.acts ++ new ∧
    ((∃ m ∈ messages new, Message.endsRun m) ∨ ∃ s, Iterations ToyOpt.rat Ldlt.linAlg ToyOpt.env
      C90.gn.world.opt.settings.maxIterations (loopStart ToyOpt.rat ToyOpt.env C90.gn.world [2, 6, -12, -21]) s) :=
  C91_reason_partial ToyOpt.rat Ldlt.linAlg ToyOpt.env C90.gn _ _ ToyOpt.residual0 rfl (ok_pair (by decide +kernel))

/-- **C91**, the part that holds for the messages within a step of Gauss-Newton: a verbose step that returns prints exactly
one message; it says why the system was refused, with the smallest pivot or the ratio of the pivots of that system, or it is
the report about the step. -/
theorem C91_refusals_partial [LawfulVar F V] (A : Arith F) (L : LinAlg F Fact) (env : Env F V) (s : OptWorld F V Fact)
    {h0 : Heap V} {pre post : List (Op F V × Res Unit)} (hw : FinalizedAfter h0 pre post ⟨s.heap, s.graph⟩)
    (hpre : NoJacobianYet pre) (hid : IdsIdentify s.heap s.graph.getAllVariables s.graph.getAllFactors)
    (hnr : NoRepeats s.graph.getAllFactors) (hsafe : ∀ f ∈ s.graph.getAllFactors, ReuseSafe f)
    (hproper : ∀ h, SameShape s.heap h → ∀ f ∈ s.graph.getAllFactors, ∀ js, f.computeJacobians h [] = .ok js →
      ProperBlocks h f js)
    (hg : s.opt.hasGraph = true) (hm : s.opt.settings.method = .gaussNewton) (hv : s.opt.settings.verbose = true)
    (r0 : List F) (k : Nat) (s1 : OptWorld F V Fact) (acts : List (Act F)) (t' : Talk F V Fact)
    (hit : Iterations A L env k (loopStart A env s r0) s1) (hstep : oneStepV A L env ⟨s1, acts⟩ = (t', .ok ())) :
    ∃ r J new m, Linearised s1.heap s.graph.getAllVariables s.graph.getAllFactors r J ∧ t'.acts = acts ++ new ∧
      messages new = [m] ∧ (RefusalSaid A L (L.gram J) (L.rhs J r) t'.world.opt.stats.status m ∨
        ((∃ d, SystemSolved A L (L.gram J) (L.rhs J r) d) ∧ ∃ q, m = .gaussNewtonSummary q)) := by
  obtain ⟨hready, hl, hshape, hvs, hf⟩ := iterations_ready hw hpre hid hnr hit
  have hh := iterations_head hit hg rfl rfl rfl
  have hset : s1.opt.settings = s.opt.settings := hh.run.settings
  have hstep' : gaussNewtonStepV A L env ⟨s1, acts⟩ = (t', .ok ()) := by
    unfold oneStepV at hstep
    rw [bind_look, hset, hm] at hstep
    exact hstep
  obtain ⟨r, J, ⟨buf, hres⟩, hJ, hcase⟩ := gaussNewtonStepV_said (by rw [hset]; exact hv) hstep'
  have hlin := computeSparse_linearised (env := env) (hf ▸ hready) hl (hf ▸ hsafe) (hf ▸ hproper s1.heap hshape) hJ ⟨buf, hres⟩
  rw [hvs, hf] at hlin
  rcases hcase with ⟨m, h1, l, h2, h3⟩ | ⟨h1, q, l, h2, h3⟩
  · exact ⟨r, J, l, m, hlin, h2, h3, .inl h1⟩
  · exact ⟨r, J, l, _, hlin, h2, h3, .inr ⟨h1, q, rfl⟩⟩

/-- **C91**, the part that holds for the messages within a step of Levenberg-Marquardt: a verbose step that returns prints
one message for each attempt, with the costs before and after it, the pivots and the new damping, a notice if the damping has
reached its limit, the message about giving up if no attempt was accepted, and the report. The report and the variables agree
with these messages. -/
theorem C91_trials_partial [LawfulVar F V] (A : Arith F) (L : LinAlg F Fact) (env : Env F V) (s : OptWorld F V Fact)
    {h0 : Heap V} {pre post : List (Op F V × Res Unit)} (hw : FinalizedAfter h0 pre post ⟨s.heap, s.graph⟩)
    (hpre : NoJacobianYet pre) (hid : IdsIdentify s.heap s.graph.getAllVariables s.graph.getAllFactors)
    (hnr : NoRepeats s.graph.getAllFactors) (hsafe : ∀ f ∈ s.graph.getAllFactors, ReuseSafe f)
    (hproper : ∀ h, SameShape s.heap h → ∀ f ∈ s.graph.getAllFactors, ∀ js, f.computeJacobians h [] = .ok js →
      ProperBlocks h f js)
    (hg : s.opt.hasGraph = true) (hm : s.opt.settings.method = .levenbergMarquardt) (hv : s.opt.settings.verbose = true)
    (hrest : Restorable s) (r0 : List F) (hr : (computeResidual env s.heap s.graph).2 = .ok r0) (k : Nat)
    (s1 : OptWorld F V Fact) (acts : List (Act F)) (t' : Talk F V Fact)
    (hit : Iterations A L env k (loopStart A env s r0) s1) (hstep : oneStepV A L env ⟨s1, acts⟩ = (t', .ok ())) :
    ∃ r J new ms outcome q n, Linearised s1.heap s.graph.getAllVariables s.graph.getAllFactors r J ∧
      TrialsSaid A L s.opt.settings s1.heap s.graph.getAllVariables s.graph.getAllFactors r J 5
        (firstDamping s.opt.settings s1.opt.stats) ms outcome t'.world.opt.stats.damping ∧
      t'.acts = acts ++ new ∧
      messages new = ms ++ (if outcome.isSome then [] else [.lmNoStep 5]) ++
        [.lmSummary q t'.world.opt.stats.damping n outcome.isSome] ∧
      t'.world.heap = outcome.getD s1.heap := by
  obtain ⟨hready, hl, hshape, hvs, hf⟩ := iterations_ready hw hpre hid hnr hit
  obtain ⟨hl0, hkf, hd, hgood⟩ := loopStart_ready A env s hw hrest hr
  obtain ⟨i1, i2, i3, _, i5⟩ := iterations_describes hit hg hl0 hd hgood
  have hh := iterations_head hit hg rfl rfl rfl
  have hset : s1.opt.settings = s.opt.settings := hh.run.settings
  obtain ⟨good, hgood, hgs⟩ := i5 (by rw [hset]; exact hm)
  have hstep' : levenbergMarquardtStepV A L env ⟨s1, acts⟩ = (t', .ok ()) := by
    unfold oneStepV at hstep
    rw [bind_look, hset, hm] at hstep
    exact hstep
  obtain ⟨r, J, ms, o, q, n, hres, hJ, ht, ⟨l, hc1, hc2⟩, hheap⟩ :=
    levenbergMarquardtStepV_said hgood hgs hl (by rw [hset]; exact hv) hstep'
  have hlin := computeSparse_linearised (env := env) (hf ▸ hready) hl (hf ▸ hsafe) (hf ▸ hproper s1.heap hshape) hJ hres
  rw [hvs, hf] at hlin ht
  rw [hset] at ht
  exact ⟨r, J, l, ms, o, q, n, hlin, ht, hc1, hc2, hheap⟩

/-- The first steps of the example runs print reports. -/
example : (∃ new q, (oneStepV ToyOpt.rat Ldlt.linAlg ToyOpt.env ⟨loopStart ToyOpt.rat ToyOpt.env
      C90.gn.world [2, 6, -12, -21], []⟩).1.acts = new ∧ messages new = [.gaussNewtonSummary q]) ∧
    (∃ ms q d n, messages (oneStepV ToyOpt.rat Ldlt.linAlg ToyOpt.env ⟨loopStart ToyOpt.rat ToyOpt.env
      C90.lm.world [2, 6, -12, -21], []⟩).1.acts = ms ++ [.lmSummary q d n true]) := by
  constructor
  · obtain ⟨r, J, new, m, -, h1, h2, h3⟩ := C91_refusals_partial ToyOpt.rat Ldlt.linAlg ToyOpt.env C90.gn.world
      ToyOpt.finalizedAfter ToyOpt.noJacobianYet ToyOpt.identify ToyOpt.noRepeats ToyOpt.reuseSafe ToyOpt.proper rfl rfl rfl
      [2, 6, -12, -21] 0 _ [] _ (.zero _) (ok_pair (by decide +kernel))
    rcases h3 with h3 | ⟨-, q, rfl⟩
    · exfalso
      have hst : (oneStepV ToyOpt.rat Ldlt.linAlg ToyOpt.env ⟨loopStart ToyOpt.rat ToyOpt.env
        C90.gn.world [2, 6, -12, -21], []⟩).1.world.opt.stats.status = .running := by decide +kernel
      rw [hst] at h3
      cases h3
    · exact ⟨new, q, h1, h2⟩
  · obtain ⟨r, J, new, ms, o, q, n, -, -, h1, h2, -⟩ := C91_trials_partial ToyOpt.rat Ldlt.linAlg ToyOpt.env C90.lm.world
      ToyOpt.finalizedAfter ToyOpt.noJacobianYet ToyOpt.identify ToyOpt.noRepeats ToyOpt.reuseSafe ToyOpt.proper rfl rfl rfl
      (toy_restorable _ _) [2, 6, -12, -21] ToyOpt.residual0 0 _ [] _ (.zero _) (ok_pair (by decide +kernel))
    cases o with
    | some h' => exact ⟨ms, q, _, n, by rw [h1]; simpa using h2⟩
    | none =>
      exfalso
      have hno : (.lmNoStep 5 : Message Rat) ∈ messages (oneStepV ToyOpt.rat Ldlt.linAlg ToyOpt.env
          ⟨loopStart ToyOpt.rat ToyOpt.env C90.lm.world [2, 6, -12, -21], []⟩).1.acts := by
        rw [h1, List.nil_append, h2]; simp
      exact absurd hno (by decide +kernel)

/-! ### C92: the times shown -/

theorem pressesOf_append (w : Watch) (as bs : List (Nat × Act F)) :
    pressesOf w (as ++ bs) = pressesOf w as ++ pressesOf w bs := by
  induction as with
  | nil => rfl
  | cons a as ih =>
    obtain ⟨n, a⟩ := a
    cases a with
    | print m => exact ih
    | press w' p =>
      simp only [List.cons_append, pressesOf]
      split
      · rw [ih]; rfl
      · exact ih

/-- An action as a call on the watch `w`. -/
def timedPress (w : Watch) (e : Nat × Act F) : Option (Nat × Stopwatch.Press) :=
  match e.2 with
  | .press w' p => if w' = w then some (e.1, p) else none
  | .print _ => none

theorem timedPress_fst {w : Watch} {e : Nat × Act F} {p : Nat × Stopwatch.Press} (h : timedPress w e = some p) :
    p.1 = e.1 := by
  unfold timedPress at h
  split at h
  · split at h
    · simp only [Option.some.injEq] at h; rw [← h]
    · simp at h
  · simp at h

theorem pressesOf_eq (w : Watch) (as : List (Nat × Act F)) : pressesOf w as = as.filterMap (timedPress w) := by
  induction as with
  | nil => rfl
  | cons a as ih =>
    obtain ⟨n, a⟩ := a
    cases a with
    | print m => simp only [pressesOf, timedPress, List.filterMap_cons, ih]
    | press w' p =>
      simp only [pressesOf, timedPress, List.filterMap_cons, ih]
      split <;> rfl

/-- Two watches that differ only in the start time of a watch that is not running. -/
def Alike (a b : Stopwatch) : Prop :=
  a.isRunning = b.isRunning ∧ a.accumulated = b.accumulated ∧ (a.isRunning = true → a.startTime = b.startTime)

theorem Alike.press {a b : Stopwatch} (h : Alike a b) (e : Nat × Stopwatch.Press) :
    Alike (Stopwatch.press a e) (Stopwatch.press b e) := by
  obtain ⟨ra, ca, sa⟩ := a
  obtain ⟨rb, cb, sb⟩ := b
  obtain ⟨n, p⟩ := e
  simp only [Alike] at h
  obtain ⟨rfl, rfl, h3⟩ := h
  cases p <;> cases ra <;> simp_all [Stopwatch.press, Stopwatch.start, Stopwatch.stop, Stopwatch.reset, Alike]

theorem Alike.foldl {es : List (Nat × Stopwatch.Press)} {a b : Stopwatch} (h : Alike a b) :
    Alike (es.foldl Stopwatch.press a) (es.foldl Stopwatch.press b) := by
  induction es generalizing a b with
  | nil => exact h
  | cons e es ih => exact ih (h.press e)

theorem Alike.elapsed {a b : Stopwatch} (h : Alike a b) (now : Nat) : a.elapsed now = b.elapsed now := by
  obtain ⟨h1, h2, h3⟩ := h
  unfold Stopwatch.elapsed
  rw [← h1, ← h2]
  split
  · rw [h3 (by assumption)]
  · rfl

theorem alike_reset (a b : Stopwatch) : Alike a.reset b.reset := ⟨rfl, rfl, by simp [Stopwatch.reset]⟩

/-- **C92**, the part that holds: for the watches of residual evaluation, normal equations, solving and updating, the time
shown at the end of `optimize()` is the number of ticks of this call during which the watch ran, whatever was measured
before. (`before` and `during` are the actions before and during the call with the clock readings.) -/
theorem C92_partial (A : Arith F) (L : LinAlg F Fact) (env : Env F V) (t : Talk F V Fact)
    (hg : t.world.opt.hasGraph = true) (before during : List (Nat × Act F)) (hb : before.map (·.2) = t.acts)
    (hd : (before ++ during).map (·.2) = (optimizeV A L env t).1.acts)
    (hmono : during.Pairwise fun a b => a.1 ≤ b.1) (now : Nat) (hnow : ∀ e ∈ during, e.1 ≤ now) (w : Watch)
    (hw : w ≠ .jacobian) :
    shownTime w (before ++ during) now = runningTicks (pressesOf w during) now := by
  obtain ⟨l, h1, -⟩ := optimizeV_adds (allows_everything (V := V) (Fact := Fact)) A L env t trivial hg
  rw [h1, List.map_append, hb] at hd
  have hd' := List.append_cancel_left hd
  have hfirst : ∃ n rest, pressesOf w during = (n, .reset) :: rest := by
    simp only [resets, List.cons_append, List.nil_append] at hd'
    obtain ⟨⟨n1, a1⟩, r1, rfl, e1, hd'⟩ := List.map_eq_cons_iff.1 hd'
    obtain ⟨⟨n2, a2⟩, r2, rfl, e2, hd'⟩ := List.map_eq_cons_iff.1 hd'
    obtain ⟨⟨n3, a3⟩, r3, rfl, e3, hd'⟩ := List.map_eq_cons_iff.1 hd'
    obtain ⟨⟨n4, a4⟩, r4, rfl, e4, hd'⟩ := List.map_eq_cons_iff.1 hd'
    obtain ⟨⟨n5, a5⟩, r5, rfl, e5, hd'⟩ := List.map_eq_cons_iff.1 hd'
    dsimp only at e1 e2 e3 e4 e5
    subst e1 e2 e3 e4 e5
    cases w with
    | jacobian => exact absurd rfl hw
    | _ => simp [pressesOf]
  obtain ⟨n, rest, hf⟩ := hfirst
  have hmono' : (pressesOf w during).Pairwise fun a b => a.1 ≤ b.1 := by
    rw [pressesOf_eq, List.pairwise_filterMap]
    refine hmono.imp fun {a b} hab p hp q hq => ?_
    rw [timedPress_fst hp, timedPress_fst hq]
    exact hab
  have hnow' : ∀ e ∈ pressesOf w during, e.1 ≤ now := by
    intro e he
    rw [pressesOf_eq, List.mem_filterMap] at he
    obtain ⟨a, ha, he⟩ := he
    rw [timedPress_fst he]
    exact hnow a ha
  rw [← C62_elapsed _ hmono' now hnow']
  unfold shownTime
  rw [pressesOf_append]
  unfold Stopwatch.after
  rw [List.foldl_append, hf, List.foldl_cons, List.foldl_cons]
  exact (Alike.foldl (alike_reset _ _)).elapsed now

/-- Actions with the clock readings `start`, `start + 1`, ... -/
def C92.clocked : Nat → List (Act Rat) → List (Nat × Act Rat)
  | _, [] => []
  | time, a :: as => (time, a) :: C92.clocked (time + 1) as

/-- Two calls of `optimize()` one after the other. -/
def C92.first := optimizeV ToyOpt.rat Ldlt.linAlg ToyOpt.env C90.gn
def C92.second := optimizeV ToyOpt.rat Ldlt.linAlg ToyOpt.env C92.first.1

/-- The clock readings of the first call and of the second. -/
def C92.before := C92.clocked 0 C92.first.1.acts
def C92.during := C92.clocked 1000 (C92.second.1.acts.drop C92.first.1.acts.length)

/-- The second call alone took 1 tick for the residuals. -/
example : shownTime .residual (C92.before ++ C92.during) 2000 = 1 := by
  rw [C92_partial ToyOpt.rat Ldlt.linAlg ToyOpt.env C92.first.1 (by decide +kernel) C92.before C92.during (by decide +kernel)
    (by decide +kernel) (by decide +kernel) 2000 (by decide +kernel) .residual (by decide)]
  decide +kernel

/-- **C92** is false of the code for the time of the Jacobians: that watch is not reset (the watch of the residuals is
reset twice), so a second call shows the time of both calls. -/
theorem C92_jacobian_false : ¬ ∀ (t : Talk Rat (GenVar Rat) (Ldlt.Fact Rat)) (before during : List (Nat × Act Rat)),
    t.world.opt.hasGraph = true → before.map (·.2) = t.acts →
    (before ++ during).map (·.2) = (optimizeV ToyOpt.rat Ldlt.linAlg ToyOpt.env t).1.acts →
    (before ++ during).Pairwise (fun a b => a.1 ≤ b.1) → ∀ now, (∀ e ∈ before ++ during, e.1 ≤ now) →
    shownTime .jacobian (before ++ during) now = runningTicks (pressesOf .jacobian during) now := by
  intro h
  have := h C92.first.1 C92.before C92.during (by decide +kernel) (by decide +kernel) (by decide +kernel) (by decide +kernel)
    2000 (by decide +kernel)
  exact absurd this (by decide +kernel)

end Factorama.Props
