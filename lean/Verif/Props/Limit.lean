import Verif.Lemmas.Limit
import Verif.Props.Optimizer
import Verif.Examples.ToyCurved
import Verif.Examples.ToyOptOrder
import Verif.Props.Printing

/-!
# C113: the iteration limit
-/

namespace Factorama.Props
open Spec Graph Opt
variable {F V Fact : Type} [Zero F] [VarLike F V]

/-! ### Where it fails -/

/-- **C113** is false of the code for Gauss-Newton: with one iteration more the cost that is left is larger. Both runs report
SUCCESS. -/
theorem C113_gauss_newton_false : ¬ ∀ (s : OptWorld Rat (GenVar Rat) (Ldlt.Fact Rat)) (m : Nat),
    s.opt.hasGraph = true → s.opt.settings.method = .gaussNewton → s.opt.settings.maxIterations ≤ m →
    (optimize ToyOpt.rat Ldlt.linAlg ToyOpt.env s).1.opt.stats.status = .success →
    (optimize ToyOpt.rat Ldlt.linAlg ToyOpt.env (withLimit m s)).1.opt.stats.status = .success →
    (optimize ToyOpt.rat Ldlt.linAlg ToyOpt.env (withLimit m s)).1.opt.stats.chi2 ≤
      (optimize ToyOpt.rat Ldlt.linAlg ToyOpt.env s).1.opt.stats.chi2 := by
  intro h
  have h1 := h (withLimit 3 (ToyOpt.start ToyCurved.farWorld ToyOpt.gn)) 4 rfl rfl (by decide) (by decide +kernel) (by decide +kernel)
  revert h1
  decide +kernel

/-! ### Where it holds -/

/-- **C113**, the path (both methods). Let a run return, and consider the run that differs from it by a larger iteration limit
only. Either it ends with the same outcome and in the same state, with all variables and statistics; or the first run was ended
by its limit, reporting SUCCESS and as many iterations as allowed, and the second one comes through the values and statistics at
which the first one ended, and goes on from there. -/
theorem C113_path_partial (A : Arith F) (L : LinAlg F Fact) (env : Env F V) (s t : OptWorld F V Fact) (m : Nat)
    (hg : s.opt.hasGraph = true) (hm : s.opt.settings.maxIterations ≤ m) (r0 : List F)
    (hr : (computeResidual env s.heap s.graph).2 = .ok r0) (hret : optimize A L env s = (t, .ok ())) :
    optimize A L env (withLimit m s) = (withLimit m t, .ok ()) ∨
    (t.opt.stats.iteration = s.opt.settings.maxIterations ∧ t.opt.stats.status = .success ∧ t.opt.stats.valid = true ∧
      ∃ s1, Iterations A L env s.opt.settings.maxIterations (loopStart A env (withLimit m s) r0) s1 ∧ s1.heap = t.heap ∧
        t.opt.stats = { s1.opt.stats with status := .success } ∧
        optimize A L env (withLimit m s) =
          SE.bind (iterate A L env (m - s.opt.settings.maxIterations)) (fun _ => fun s => (finish s, .ok ())) s1) := by
  have e1 := optimize_start A L env s hg hr
  have e2 := optimize_start A L env (withLimit m s) hg hr
  have e0 : loopStart A env (withLimit m s) r0 = withLimit m (loopStart A env s r0) := rfl
  have em : (withLimit m s).opt.settings.maxIterations = s.opt.settings.maxIterations + (m - s.opt.settings.maxIterations) := by
    show m = _
    omega
  rw [hret] at e1
  rw [em, e0] at e2
  rw [e0]
  generalize s.opt.settings.maxIterations = n at *
  generalize m - n = d at *
  have hb := LBlind.iterate (m := m) A L env n (loopStart A env s r0) trivial
  rcases iterate_more A L env n d (withLimit m (loopStart A env s r0)) with h | ⟨s1, hit, h1, h2⟩
  · left
    rw [e2]
    unfold SE.bind at e1 ⊢
    rw [h, hb.1]
    rcases hi : iterate A L env n (loopStart A env s r0) with ⟨o, res⟩
    rw [hi] at e1
    cases res with
    | ok _ =>
      obtain rfl := (Prod.mk.inj e1).1
      rfl
    | threw => exact absurd (congrArg Prod.snd e1) (by simp)
    | ub => exact absurd (congrArg Prod.snd e1) (by simp)
  · right
    rw [hb.1] at h1
    rcases hi : iterate A L env n (loopStart A env s r0) with ⟨o, res⟩
    rw [hi] at h1
    obtain ⟨rfl, rfl⟩ := Prod.mk.inj h1
    unfold SE.bind at e1
    rw [hi] at e1
    obtain rfl := (Prod.mk.inj e1).1
    have hh := iterations_head hit hg rfl rfl rfl
    refine ⟨?_, ?_, ?_, _, hit, rfl, ?_, ?_⟩
    · have := hh.iteration
      unfold finish
      dsimp only
      split
      · exact this
      · exact this
    · unfold finish
      dsimp only
      split
      · rfl
      · rename_i hne
        exact hh.status.resolve_left hne
    · have := hh.valid
      unfold finish
      dsimp only
      split
      · exact this
      · exact this
    · unfold finish
      dsimp only
      split
      · rfl
      · rename_i hne
        have : o.opt.stats.status = .success := hh.status.resolve_left hne
        show o.opt.stats = { o.opt.stats with status := .success }
        rw [← this]
    · rw [e2]
      unfold SE.bind
      rw [h2]

/-- In the example run of the small graph the limit of one iteration is what ends the run; with the limit of six it goes on. -/
example : (optimize ToyOpt.rat Ldlt.linAlg ToyOpt.env (withLimit 1 (ToyOpt.start ToyOpt.world ToyOpt.lm))).1.opt.stats.iteration = 1 ∧
    ∃ s1, Iterations ToyOpt.rat Ldlt.linAlg ToyOpt.env 1
      (loopStart ToyOpt.rat ToyOpt.env (withLimit 6 (withLimit 1 (ToyOpt.start ToyOpt.world ToyOpt.lm))) [2, 6, -12, -21]) s1 ∧
      s1.heap = (optimize ToyOpt.rat Ldlt.linAlg ToyOpt.env (withLimit 1 (ToyOpt.start ToyOpt.world ToyOpt.lm))).1.heap := by
  refine ⟨by decide +kernel, ?_⟩
  have hok := ok_pair (a := ()) (p := optimize ToyOpt.rat Ldlt.linAlg ToyOpt.env (withLimit 1 (ToyOpt.start ToyOpt.world ToyOpt.lm)))
    (by decide +kernel)
  have hdiff : (optimize ToyOpt.rat Ldlt.linAlg ToyOpt.env
        (withLimit 6 (withLimit 1 (ToyOpt.start ToyOpt.world ToyOpt.lm)))).1.opt.stats.iteration ≠
      (optimize ToyOpt.rat Ldlt.linAlg ToyOpt.env (withLimit 1 (ToyOpt.start ToyOpt.world ToyOpt.lm))).1.opt.stats.iteration := by
    decide +kernel
  rcases C113_path_partial ToyOpt.rat Ldlt.linAlg ToyOpt.env (withLimit 1 (ToyOpt.start ToyOpt.world ToyOpt.lm)) _ 6 rfl (by decide) _
    ToyOpt.residual0 hok with h | ⟨_, _, _, s1, h1, h2, _⟩
  · rw [h] at hdiff
    exact absurd rfl hdiff
  · exact ⟨s1, h1, h2⟩

/-- **C113**, the same (both methods). If a run did not use up its iterations, or did not report SUCCESS, a larger limit makes
no difference. -/
theorem C113_same_partial (A : Arith F) (L : LinAlg F Fact) (env : Env F V) (s t : OptWorld F V Fact) (m : Nat)
    (hg : s.opt.hasGraph = true) (hm : s.opt.settings.maxIterations ≤ m) (r0 : List F)
    (hr : (computeResidual env s.heap s.graph).2 = .ok r0) (hret : optimize A L env s = (t, .ok ()))
    (hend : t.opt.stats.iteration < s.opt.settings.maxIterations ∨ t.opt.stats.status ≠ .success) :
    optimize A L env (withLimit m s) = (withLimit m t, .ok ()) := by
  rcases C113_path_partial A L env s t m hg hm r0 hr hret with h | ⟨h1, h2, _⟩
  · exact h
  · rcases hend with h | h
    · omega
    · exact absurd h2 h

/-- The run with a limit of six ends earlier; so do all runs with a larger limit. -/
example (m : Nat) (hm : 6 ≤ m) :
    (optimize ToyOpt.rat Ldlt.linAlg ToyOpt.env (withLimit m (ToyOpt.start ToyOpt.world ToyOpt.lm))).1.heap =
      (optimize ToyOpt.rat Ldlt.linAlg ToyOpt.env (ToyOpt.start ToyOpt.world ToyOpt.lm)).1.heap := by
  have hok := ok_pair (a := ()) (p := optimize ToyOpt.rat Ldlt.linAlg ToyOpt.env (ToyOpt.start ToyOpt.world ToyOpt.lm)) (by decide +kernel)
  have := C113_same_partial ToyOpt.rat Ldlt.linAlg ToyOpt.env (ToyOpt.start ToyOpt.world ToyOpt.lm) _ m rfl hm _ ToyOpt.residual0 hok
    (.inl (by decide +kernel))
  rw [this]
  rfl

/-- **C113**, the cost (Levenberg-Marquardt). With a larger iteration limit the cost that is reported at the end is the same or
smaller. -/
theorem C113_cost_partial [LawfulVar F V] (A : Arith F) (hA : CostOrder A) (L : LinAlg F Fact) (env : Env F V)
    (s t t' : OptWorld F V Fact) (m : Nat) {h0 : Heap V} {pre post : List (Op F V × Res Unit)}
    (hw : FinalizedAfter h0 pre post ⟨s.heap, s.graph⟩) (hg : s.opt.hasGraph = true)
    (hlm : s.opt.settings.method = .levenbergMarquardt) (hrest : Restorable s) (hm : s.opt.settings.maxIterations ≤ m)
    (r0 : List F) (hr : (computeResidual env s.heap s.graph).2 = .ok r0) (hret : optimize A L env s = (t, .ok ()))
    (hret' : optimize A L env (withLimit m s) = (t', .ok ())) :
    t'.opt.stats.chi2 = t.opt.stats.chi2 ∨ A.lt t'.opt.stats.chi2 t.opt.stats.chi2 = true := by
  rcases C113_path_partial A L env s t m hg hm r0 hr hret with h | ⟨_, _, _, s1, hit, hheap, hst, e⟩
  · rw [hret'] at h
    obtain ⟨rfl, _⟩ := Prod.mk.inj h
    exact .inl rfl
  have hc : t.opt.stats.chi2 = s1.opt.stats.chi2 := by rw [hst]
  rw [hc]
  rw [hret'] at e
  have hstep := C18_iteration_partial A hA L env (withLimit m s) hw hg hlm hrest r0 hr
  have hits : ∀ k s2, Iterations A L env k s1 s2 →
      s2.opt.stats.chi2 = s1.opt.stats.chi2 ∨ A.lt s2.opt.stats.chi2 s1.opt.stats.chi2 = true := by
    intro k s2 h2
    clear e hc hst hheap
    induction h2 with
    | zero => exact .inl rfl
    | @succ k s1 s2 s3 h2 ho _ ih =>
      rcases hstep _ s2 s3 (iterations_append hit h2) ho with h3 | h3
      · rw [h3]; exact ih hit
      · rcases ih hit with h4 | h4
        · rw [h4] at h3; exact .inr h3
        · exact .inr (hA.trans _ _ _ h3 h4)
  have hfin : ∀ o : OptWorld F V Fact, (finish o).opt.stats.chi2 = o.opt.stats.chi2 := by
    intro o
    unfold finish
    dsimp only
    split <;> rfl
  have hl := iterate_ends A L env s1 (m - s.opt.settings.maxIterations) 0 s1 (.zero _)
  rw [Nat.zero_add] at hl
  rcases hi : iterate A L env (m - s.opt.settings.maxIterations) s1 with ⟨o, res⟩
  unfold SE.bind at e
  rw [hi] at e hl
  cases res with
  | threw => exact absurd (congrArg Prod.snd e) (by simp)
  | ub => exact absurd (congrArg Prod.snd e) (by simp)
  | ok _ =>
    obtain rfl := (Prod.mk.inj e).1
    rw [hfin]
    generalize hp : (o, Res.ok ()) = p at hl
    cases hl with
    | budget h2 => obtain ⟨rfl, _⟩ := Prod.mk.inj hp; exact hits _ _ h2
    | ub => simp at hp
    | @threw k s2 s3 _ h2 ho =>
      obtain ⟨rfl, _⟩ := Prod.mk.inj hp
      obtain ⟨hl, hkf, hd, hgood⟩ := loopStart_ready A env (withLimit m s) hw hrest hr
      obtain ⟨i1, _, _, _, _⟩ := iterations_describes (iterations_append hit h2) hg hl hd hgood
      have hpo := oneStep_post A L env s2 i1
      rw [ho] at hpo
      obtain ⟨l, hl⟩ := hpo.interrupted (by simp)
      show s3.opt.stats.chi2 = _ ∨ A.lt s3.opt.stats.chi2 _ = true
      have : s3.opt.stats.chi2 = s2.opt.stats.chi2 := by
        dsimp only at hl
        rw [hl]
      rw [this]
      exact hits _ _ h2
    | @check k s2 s3 st _ h2 ho ha =>
      obtain ⟨rfl, _⟩ := Prod.mk.inj hp
      have hst : st.chi2 = s3.opt.stats.chi2 := by
        have := congrArg (fun q => q.1.chi2) ha
        dsimp only at this
        rw [← this]
        unfold afterStep
        dsimp only
        repeat' split
        all_goals rfl
      show st.chi2 = _ ∨ A.lt st.chi2 _ = true
      rw [hst]
      rcases hstep _ s2 s3 (iterations_append hit h2) ho with h3 | h3
      · rw [h3]; exact hits _ _ h2
      · rcases hits _ _ h2 with h4 | h4
        · rw [h4] at h3; exact .inr h3
        · exact .inr (hA.trans _ _ _ h3 h4)

/-- In the small graph the cost with a limit of six is below that with a limit of one. -/
example : ToyOpt.rat.lt
    (optimize ToyOpt.rat Ldlt.linAlg ToyOpt.env (withLimit 6 (withLimit 1 (ToyOpt.start ToyOpt.world ToyOpt.lm)))).1.opt.stats.chi2
    (optimize ToyOpt.rat Ldlt.linAlg ToyOpt.env (withLimit 1 (ToyOpt.start ToyOpt.world ToyOpt.lm))).1.opt.stats.chi2 = true := by
  refine (C113_cost_partial ToyOpt.rat ToyOpt.costOrder Ldlt.linAlg ToyOpt.env (withLimit 1 (ToyOpt.start ToyOpt.world ToyOpt.lm))
    _ _ 6 ToyOpt.finalizedAfter rfl rfl (toy_restorable _ _) (by decide) _ ToyOpt.residual0
    (ok_pair (by decide +kernel)) (ok_pair (by decide +kernel))).resolve_left ?_
  decide +kernel

end Factorama.Props
