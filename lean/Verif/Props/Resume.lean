import Verif.Lemmas.Limit
import Verif.Lemmas.Resume
import Verif.Props.Optimizer
import Verif.Examples.ToyCurved
import Verif.Examples.ToyOptOrder
import Verif.Props.Printing

/-!
# C142: interrupting and resuming an optimization
-/

namespace Factorama.Props
open Spec Graph Opt
variable {F V Fact : Type} [Zero F] [VarLike F V]

/-- The optimizer is set up again, with the settings of `s` and the iteration limit `m`, on the graph and the variables that the
run which ended in `t` left. -/
def C142.resumed (m : Nat) (s t : OptWorld F V Fact) : OptWorld F V Fact :=
  (setup true { s.opt.settings with maxIterations := m } t).1

omit [Zero F] [VarLike F V] in
theorem C142.finish_keeps (s : OptWorld F V Fact) : (finish s).heap = s.heap ∧ (finish s).graph = s.graph ∧
    (finish s).opt.stats.valid = s.opt.stats.valid ∧ (finish s).opt.stats.residualNorm = s.opt.stats.residualNorm ∧
    (finish s).opt.stats.deltaNorm = s.opt.stats.deltaNorm ∧ (finish s).opt.stats.chi2 = s.opt.stats.chi2 ∧
    (finish s).opt.stats.iteration = s.opt.stats.iteration := by
  unfold finish
  dsimp only
  split <;> simp

theorem C142.graph {env : Env F V} {h : Heap V} {g : Graph F V} {r : List F} (hr : (computeResidual env h g).2 = .ok r) :
    (computeResidual env h g).1 = { g with cachedRes := r, resValid := true } := by
  unfold computeResidual at hr ⊢
  by_cases hf : (!g.finalized) = true
  · rw [if_pos hf] at hr
    cases hr
  · rw [if_neg hf] at hr ⊢
    dsimp only at hr ⊢
    generalize computeResidualInto env g h (if g.resValid = true then g.cachedRes else List.replicate g.numResiduals 0) = p at hr ⊢
    obtain ⟨b, q⟩ := p
    cases q with
    | ok u => obtain rfl : b = r := Res.ok.inj hr; rfl
    | threw => cases hr
    | ub => cases hr

theorem C142.started {A : Arith F} {L : LinAlg F Fact} {env : Env F V} {s t : OptWorld F V Fact} (hg : s.opt.hasGraph = true)
    (h : optimize A L env s = (t, .ok ())) : ∃ r o, (computeResidual env s.heap s.graph).2 = .ok r ∧
      iterate A L env s.opt.settings.maxIterations (loopStart A env s r) = (o, .ok ()) ∧ t = finish o := by
  cases hr : (computeResidual env s.heap s.graph).2 with
  | threw => have := (optimize_noResidual A L env s hg hr).1; rw [h] at this; cases this
  | ub => have := (optimize_ubResidual A L env s hg hr).1; rw [h] at this; cases this
  | ok r =>
    rw [optimize_start A L env s hg hr] at h
    unfold SE.bind at h
    rcases hi : iterate A L env s.opt.settings.maxIterations (loopStart A env s r) with ⟨o, res⟩
    rw [hi] at h
    cases res with
    | ok u => exact ⟨r, o, rfl, hi, (Prod.mk.inj h).1.symm⟩
    | threw => cases (Prod.mk.inj h).2
    | ub => cases (Prod.mk.inj h).2

/-- **C142**, Gauss-Newton. A run with a limit of `n` iterations leaves the graph in state `t`; the optimizer is set up again with
a limit of `m` iterations and run. Consider the run from the same initial values with a limit of `n + m` iterations. If it needs
more than `n` of them, and both runs report valid results, then the interrupted and resumed run ends with the same values in all
variables, the same cost, the same residual norm and the same length of the last step, and the two runs together count as many
iterations. This holds for every arithmetic and every linear solver. -/
theorem C142_gauss_newton_partial [LawfulVar F V] (A : Arith F) (L : LinAlg F Fact) (env : Env F V) (s t u w : OptWorld F V Fact)
    (n m : Nat) {h0 : Heap V} {pre post : List (Op F V × Res Unit)} (hw : FinalizedAfter h0 pre post ⟨s.heap, s.graph⟩)
    (hg : s.opt.hasGraph = true) (hm : s.opt.settings.method = .gaussNewton)
    (hshort : optimize A L env (withLimit n s) = (t, .ok ()))
    (hlong : optimize A L env (withLimit (n + m) s) = (w, .ok ())) (hwv : w.opt.stats.valid = true)
    (hmore : n < w.opt.stats.iteration)
    (hres : optimize A L env (C142.resumed m s t) = (u, .ok ())) (huv : u.opt.stats.valid = true) :
    t.opt.stats.iteration = n ∧ u.heap = w.heap ∧ u.opt.stats.chi2 = w.opt.stats.chi2 ∧
    u.opt.stats.residualNorm = w.opt.stats.residualNorm ∧ u.opt.stats.deltaNorm = w.opt.stats.deltaNorm ∧
    w.opt.stats.iteration = n + u.opt.stats.iteration := by
  obtain ⟨r0, o, hr, hi, rfl⟩ := C142.started (s := withLimit n s) hg hshort
  obtain ⟨r0', o2, hr', hi2, rfl⟩ := C142.started (s := withLimit (n + m) s) hg hlong
  obtain rfl : r0' = r0 := Res.ok.inj (hr'.symm.trans hr)
  have hle : (finish o).opt.stats.iteration ≤ n := by
    have h := (C17_returns A L env (withLimit n s) hg r0' hr).2 (by rw [hshort])
    rw [hshort] at h
    exact h.2.1
  obtain ⟨r1, o3, hr1, hi3, rfl⟩ := C142.started (s := C142.resumed m s (finish o)) rfl hres
  have hb := (LBlind.iterate (m := n + m) A L env n (loopStart A env (withLimit n s) r0') trivial).1
  have hb' : iterate A L env n (loopStart A env (withLimit (n + m) s) r0') = (withLimit (n + m) o, .ok ()) := by
    have := hb
    rw [show iterate A L env n (loopStart A env (withLimit n s) r0') = (o, .ok ()) from hi] at this
    exact this
  obtain ⟨f1, f2, f3, f4, f5, f6, f7⟩ := C142.finish_keeps o
  obtain ⟨g1, g2, g3, g4, g5, g6, g7⟩ := C142.finish_keeps o2
  obtain ⟨i1, i2, i3, i4, i5, i6, i7⟩ := C142.finish_keeps o3
  have hi2' : iterate A L env (n + m) (loopStart A env (withLimit (n + m) s) r0') = (o2, .ok ()) := hi2
  rcases iterate_more A L env n m (loopStart A env (withLimit (n + m) s) r0') with h | ⟨s1, hit, h1, h2⟩
  · rw [h, hb'] at hi2'
    obtain rfl := (Prod.mk.inj hi2').1
    rw [g7] at hmore
    rw [f7] at hle
    exact absurd hle (Nat.not_le.2 hmore)
  · rw [hb'] at h1
    obtain rfl := (Prod.mk.inj h1).1
    rw [h2] at hi2'
    have hrest : Restorable (withLimit (n + m) s) := fun h => by cases hm.symm.trans h
    obtain ⟨hl, hkf, hd, hgood⟩ := loopStart_ready A env (withLimit (n + m) s) hw hrest hr'
    have hh := iterations_head hit hg rfl rfl rfl
    obtain ⟨d1, d2, d3, d4, d5⟩ := iterations_describes hit hg hl hd hgood
    have hrv : (loopStart A env (withLimit (n + m) s) r0').graph.resValid = true := by
      show (computeResidual env s.heap s.graph).1.resValid = true
      rw [C142.graph (show (computeResidual env s.heap s.graph).2 = .ok r0' from hr')]
    have hinv := iterations_again hit ⟨rfl, ⟨_, _, rfl⟩, covered_of_layout hl, hrv, rfl, hm, hm, rfl, rfl, rfl, .inl rfl, .inl rfl,
      rfl, rfl, rfl, rfl, False.elim, False.elim⟩
    obtain ⟨rd, hrd, _, hnorm⟩ := d4
    have hr1' : (computeResidual env o.heap o.graph).2 = .ok r1 := by
      have := hr1
      rw [show (C142.resumed m s (finish o)).heap = o.heap from f1, show (C142.resumed m s (finish o)).graph = o.graph from f2] at this
      exact this
    obtain rfl : rd = r1 := isResidual_unique hrd (evaluated_isResidual d3 (computeResidual_evaluated hr1'))
    have hagain : Again n False False (withLimit (n + m) o) (loopStart A env (C142.resumed m s (finish o)) rd) := by
      refine ⟨f1, ?_, hinv.cov, hinv.rv, d1.symm, hinv.method, hm, ?_, ?_, ?_, hinv.status, .inl rfl, hinv.valid, rfl, hnorm.symm, ?_,
        False.elim, False.elim⟩
      · refine ⟨rd, o.graph.cachedJac, ?_⟩
        show (computeResidual env (finish o).heap (finish o).graph).1 = _
        rw [f1, f2, C142.graph hr1']
        have : o.graph.resValid = true := hinv.rv
        show _ = dress rd o.graph.cachedJac o.graph
        unfold dress
        rw [← this]
      · exact (congrArg Settings.learningRate d2).symm
      · exact (congrArg Settings.stepTolerance d2).symm
      · exact (congrArg Settings.residualTolerance d2).symm
      · exact hh.iteration.trans (Nat.zero_add n).symm
    have hdone := again_iterate A L env m hagain hi2' hi3 (by rw [← g3]; exact hwv) (by rw [← i3]; exact huv)
    have hm0 : 0 < m := by
      rcases Nat.eq_zero_or_pos m with rfl | h
      · obtain rfl := (Prod.mk.inj hi2').1
        rw [g7] at hmore
        exact absurd hh.iteration (Nat.ne_of_gt hmore)
      · exact h
    obtain ⟨k1, k2⟩ := hdone.rest hm0
    refine ⟨f7.trans hh.iteration, ?_, ?_, ?_, ?_, ?_⟩
    · rw [i1, g1]; exact hdone.heap
    · rw [i6, g6]; exact k2
    · rw [i4, g4]; exact hdone.norm
    · rw [i5, g5]; exact k1
    · rw [i7, g7, hdone.iteration, Nat.add_comm]
theorem C142.finalized : FinalizedAfter ToyCurved.farHeap
    (ToyCurved.build.zip (Toy.outcomes ToyOpt.env ToyCurved.build (World.init ToyCurved.farHeap))) []
    ⟨ToyCurved.farWorld.heap, ToyCurved.farWorld.graph⟩ := by
  apply ToyOpt.finalizedAfter_of
  have := Toy.exec_finalizedAfter ToyOpt.env ToyCurved.farHeap ToyCurved.build [] (by decide +kernel) (by decide +kernel) (by simp)
  rw [List.zip_nil_left] at this
  exact this

def C142.gn : OptWorld Rat (GenVar Rat) (Ldlt.Fact Rat) := ToyOpt.start ToyCurved.farWorld ToyOpt.gn
def C142.lm : OptWorld Rat (GenVar Rat) (Ldlt.Fact Rat) := ToyOpt.start ToyCurved.farWorld ToyOpt.lm

/-- The short run, the long run and the resumed run of the example. -/
def C142.short := optimize ToyOpt.rat Ldlt.linAlg ToyOpt.env (withLimit 1 C142.gn)
def C142.long := optimize ToyOpt.rat Ldlt.linAlg ToyOpt.env (withLimit (1 + 2) C142.gn)
def C142.rest := optimize ToyOpt.rat Ldlt.linAlg ToyOpt.env (C142.resumed 2 C142.gn C142.short.1)

theorem C142.short_ok : C142.short.2.isOk = true := by decide +kernel
theorem C142.long_ok : C142.long.2.isOk = true ∧ C142.long.1.opt.stats.valid = true ∧ C142.long.1.opt.stats.iteration = 3 := by
  decide +kernel
theorem C142.rest_ok : C142.rest.2.isOk = true ∧ C142.rest.1.opt.stats.valid = true := by decide +kernel

attribute [irreducible] C142.gn

/-- With the residual `1 - x + 20 x²`, one iteration and then two more: the three steps of the longer run. The variable has
moved. -/
example : C142.rest.1.heap = C142.long.1.heap ∧ C142.long.1.opt.stats.iteration = 1 + C142.rest.1.opt.stats.iteration := by
  obtain ⟨_, h1⟩ := ok_of_isOk C142.short_ok
  obtain ⟨_, h2⟩ := ok_of_isOk C142.long_ok.1
  obtain ⟨_, h3⟩ := ok_of_isOk C142.rest_ok.1
  have h := C142_gauss_newton_partial ToyOpt.rat Ldlt.linAlg ToyOpt.env C142.gn C142.short.1 C142.rest.1 C142.long.1 1 2
    (by unfold C142.gn; exact C142.finalized) (by unfold C142.gn; rfl) (by unfold C142.gn; rfl) (ok_pair h1) (ok_pair h2) C142.long_ok.2.1
    (by rw [C142.long_ok.2.2]; decide) (ok_pair h3) C142.rest_ok.2
  exact ⟨h.2.1, h.2.2.2.2.2⟩

example : (C142.rest.1.heap 0).value ≠ (C142.short.1.heap 0).value := by decide +kernel

/-! ### Where it fails -/

/-- **C142** is false of the code for Levenberg-Marquardt: a run that is resumed begins with the initial damping again, and its
steps differ from those of the run that was not interrupted. -/
theorem C142_levenberg_marquardt_false : ¬ ∀ (s : OptWorld Rat (GenVar Rat) (Ldlt.Fact Rat)) (n m : Nat),
    s.opt.hasGraph = true → s.opt.settings.method = .levenbergMarquardt →
    n < (optimize ToyOpt.rat Ldlt.linAlg ToyOpt.env (withLimit (n + m) s)).1.opt.stats.iteration →
    (optimize ToyOpt.rat Ldlt.linAlg ToyOpt.env (withLimit (n + m) s)).1.opt.stats.status = .success →
    (optimize ToyOpt.rat Ldlt.linAlg ToyOpt.env
      (C142.resumed m s (optimize ToyOpt.rat Ldlt.linAlg ToyOpt.env (withLimit n s)).1)).1.opt.stats.status = .success →
    (optimize ToyOpt.rat Ldlt.linAlg ToyOpt.env
      (C142.resumed m s (optimize ToyOpt.rat Ldlt.linAlg ToyOpt.env (withLimit n s)).1)).1.opt.stats.chi2 =
    (optimize ToyOpt.rat Ldlt.linAlg ToyOpt.env (withLimit (n + m) s)).1.opt.stats.chi2 := by
  intro h
  have h1 := h C142.lm 1 1 rfl rfl (by decide +kernel) (by decide +kernel) (by decide +kernel)
  revert h1
  decide +kernel

end Factorama.Props
