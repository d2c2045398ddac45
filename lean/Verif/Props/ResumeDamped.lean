import Verif.Lemmas.ResumeDamped
import Verif.Props.Resume

/-!
# C142: interrupting and resuming an optimization with Levenberg-Marquardt
-/

namespace Factorama.Props
open Spec Graph Opt
variable {F V Fact : Type} [Zero F] [VarLike F V]

/-- The optimizer is set up again on what the run which ended in `t` left, with the settings of `s`, the iteration limit `m` and
the damping that the run reported as its initial damping. -/
def C142.resumedDamped (m : Nat) (s t : OptWorld F V Fact) : OptWorld F V Fact :=
  (setup true { s.opt.settings with maxIterations := m, initialLambda := t.opt.stats.damping } t).1

omit [Zero F] [VarLike F V] in
theorem C142.finish_damping (s : OptWorld F V Fact) : (finish s).opt.stats.damping = s.opt.stats.damping := by
  unfold finish
  dsimp only
  split <;> simp

/-- **C142**, Levenberg-Marquardt. As for Gauss-Newton, if at least one iteration is made before the interruption and the run is
resumed with the damping that the interrupted run reported as its initial damping: then the resumed run makes the remaining steps
of the longer run. -/
theorem C142_levenberg_marquardt_partial [LawfulVar F V] (A : Arith F) (L : LinAlg F Fact) (env : Env F V) (s t u w : OptWorld F V Fact)
    (n m : Nat) {h0 : Heap V} {pre post : List (Op F V × Res Unit)} (hw : FinalizedAfter h0 pre post ⟨s.heap, s.graph⟩)
    (hg : s.opt.hasGraph = true) (hm : s.opt.settings.method = .levenbergMarquardt) (hrest : Restorable s) (hn : 0 < n)
    (hshort : optimize A L env (withLimit n s) = (t, .ok ()))
    (hlong : optimize A L env (withLimit (n + m) s) = (w, .ok ())) (hwv : w.opt.stats.valid = true)
    (hmore : n < w.opt.stats.iteration)
    (hres : optimize A L env (C142.resumedDamped m s t) = (u, .ok ())) (huv : u.opt.stats.valid = true) :
    t.opt.stats.iteration = n ∧ u.heap = w.heap ∧ u.opt.stats.chi2 = w.opt.stats.chi2 ∧
    u.opt.stats.residualNorm = w.opt.stats.residualNorm ∧ u.opt.stats.deltaNorm = w.opt.stats.deltaNorm ∧
    w.opt.stats.iteration = n + u.opt.stats.iteration := by
  obtain ⟨r0, o, hr, hi, rfl⟩ := C142.started (s := withLimit n s) hg hshort
  obtain ⟨r0', o2, hr', hi2, rfl⟩ := C142.started (s := withLimit (n + m) s) hg hlong
  obtain rfl : r0' = r0 := Res.ok.inj (hr'.symm.trans hr)
  have hle : (finish o).opt.stats.iteration ≤ n := by
    have h := (C17_returns A L env (withLimit n s) hg r0' hr).2 (by rw [hshort])
    rw [hshort] at h
    exact h.2.1
  obtain ⟨r1, o3, hr1, hi3, rfl⟩ := C142.started (s := C142.resumedDamped m s (finish o)) rfl hres
  have hb := (LBlind.iterate (m := n + m) A L env n (loopStart A env (withLimit n s) r0') trivial).1
  have hb' : iterate A L env n (loopStart A env (withLimit (n + m) s) r0') = (withLimit (n + m) o, .ok ()) := by
    have := hb
    rw [show iterate A L env n (loopStart A env (withLimit n s) r0') = (o, .ok ()) from hi] at this
    exact this
  obtain ⟨f1, f2, f3, f4, f5, f6, f7⟩ := C142.finish_keeps o
  obtain ⟨g1, g2, g3, g4, g5, g6, g7⟩ := C142.finish_keeps o2
  obtain ⟨i1, i2, i3, i4, i5, i6, i7⟩ := C142.finish_keeps o3
  have hi2' : iterate A L env (n + m) (loopStart A env (withLimit (n + m) s) r0') = (o2, .ok ()) := hi2
  rcases iterate_more A L env n m (loopStart A env (withLimit (n + m) s) r0') with h | ⟨s1, hit, h1, h2⟩
  · rw [h, hb'] at hi2'
    obtain rfl := (Prod.mk.inj hi2').1
    rw [g7] at hmore
    rw [f7] at hle
    exact absurd hle (Nat.not_le.2 hmore)
  · rw [hb'] at h1
    obtain rfl := (Prod.mk.inj h1).1
    rw [h2] at hi2'
    have hrest : Restorable (withLimit (n + m) s) := hrest
    obtain ⟨hl, hkf, hd, hgood⟩ := loopStart_ready A env (withLimit (n + m) s) hw hrest hr'
    have hh := iterations_head hit hg rfl rfl rfl
    obtain ⟨d1, d2, d3, d4, d5⟩ := iterations_describes hit hg hl hd hgood
    have hrv : (loopStart A env (withLimit (n + m) s) r0').graph.resValid = true := by
      show (computeResidual env s.heap s.graph).1.resValid = true
      rw [C142.graph (show (computeResidual env s.heap s.graph).2 = .ok r0' from hr')]
    have hinv := iterations_againD hit ⟨rfl, ⟨_, _, rfl⟩, covered_of_layout hl, hrv, rfl, hm, hm, rfl, rfl, rfl, rfl, rfl, rfl, .inl rfl,
      .inl rfl, rfl, rfl, rfl, rfl, False.elim, fun _ => rfl, False.elim, False.elim⟩
    obtain ⟨rd, hrd, _, hnorm⟩ := d4
    have hr1' : (computeResidual env o.heap o.graph).2 = .ok r1 := by
      have := hr1
      rw [show (C142.resumedDamped m s (finish o)).heap = o.heap from f1, show (C142.resumedDamped m s (finish o)).graph = o.graph from f2] at this
      exact this
    obtain rfl : rd = r1 := isResidual_unique hrd (evaluated_isResidual d3 (computeResidual_evaluated hr1'))
    have hagain : AgainD n False False False (withLimit (n + m) o) (loopStart A env (C142.resumedDamped m s (finish o)) rd) := by
      refine ⟨f1, ?_, hinv.cov, hinv.rv, d1.symm, hinv.method, hm, ?_, ?_, ?_, ?_, ?_, ?_, hinv.status, .inl rfl,
        hinv.valid, rfl, hnorm.symm, ?_, False.elim, fun _ => ?_, False.elim, False.elim⟩
      · refine ⟨rd, o.graph.cachedJac, ?_⟩
        show (computeResidual env (finish o).heap (finish o).graph).1 = _
        rw [f1, f2, C142.graph hr1']
        have : o.graph.resValid = true := hinv.rv
        show _ = dress rd o.graph.cachedJac o.graph
        unfold dress
        rw [← this]
      · exact (congrArg Settings.learningRate d2).symm
      · exact (congrArg Settings.stepTolerance d2).symm
      · exact (congrArg Settings.residualTolerance d2).symm
      · exact (congrArg Settings.lambdaUp d2).symm
      · exact (congrArg Settings.lambdaDown d2).symm
      · exact (congrArg Settings.maxLambda d2).symm
      · exact hh.iteration.trans (Nat.zero_add n).symm
      · unfold beginsWith
        rw [if_pos (show (loopStart A env (C142.resumedDamped m s (finish o)) rd).opt.stats.iteration = 0 from rfl),
          if_neg (by rw [hh.iteration]; exact Nat.ne_of_gt hn)]
        exact C142.finish_damping o
    have hdone := againD_iterate A L env m hagain hi2' hi3 (by rw [← g3]; exact hwv) (by rw [← i3]; exact huv)
    have hm0 : 0 < m := by
      rcases Nat.eq_zero_or_pos m with rfl | h
      · obtain rfl := (Prod.mk.inj hi2').1
        rw [g7] at hmore
        exact absurd hh.iteration (Nat.ne_of_gt hmore)
      · exact h
    obtain ⟨k1, k2⟩ := hdone.rest hm0
    refine ⟨f7.trans hh.iteration, ?_, ?_, ?_, ?_, ?_⟩
    · rw [i1, g1]; exact hdone.heap
    · rw [i6, g6]; exact k2
    · rw [i4, g4]; exact hdone.norm
    · rw [i5, g5]; exact k1
    · rw [i7, g7, hdone.iteration, Nat.add_comm]

/-- The short run, the long run and the resumed run of the example. -/
def C142.dShort := optimize ToyOpt.rat Ldlt.linAlg ToyOpt.env (withLimit 1 C142.lm)
def C142.dLong := optimize ToyOpt.rat Ldlt.linAlg ToyOpt.env (withLimit (1 + 1) C142.lm)
def C142.dRest := optimize ToyOpt.rat Ldlt.linAlg ToyOpt.env (C142.resumedDamped 1 C142.lm C142.dShort.1)

theorem C142.dShort_ok : C142.dShort.2.isOk = true := by decide +kernel
theorem C142.dLong_ok : C142.dLong.2.isOk = true ∧ C142.dLong.1.opt.stats.valid = true ∧ C142.dLong.1.opt.stats.iteration = 2 := by
  decide +kernel
theorem C142.dRest_ok : C142.dRest.2.isOk = true ∧ C142.dRest.1.opt.stats.valid = true := by decide +kernel
theorem C142.lm_restorable : Restorable C142.lm := toy_restorable _ _

attribute [local irreducible] C142.lm

/-- The run with which `C142_levenberg_marquardt_false` shows that the damping is lost, resumed with the damping it had. -/
example : C142.dRest.1.heap = C142.dLong.1.heap ∧ C142.dRest.1.opt.stats.chi2 = C142.dLong.1.opt.stats.chi2 := by
  obtain ⟨_, h1⟩ := ok_of_isOk C142.dShort_ok
  obtain ⟨_, h2⟩ := ok_of_isOk C142.dLong_ok.1
  obtain ⟨_, h3⟩ := ok_of_isOk C142.dRest_ok.1
  have h := C142_levenberg_marquardt_partial ToyOpt.rat Ldlt.linAlg ToyOpt.env C142.lm C142.dShort.1 C142.dRest.1 C142.dLong.1 1 1
    (by unfold C142.lm; exact C142.finalized) (by unfold C142.lm; rfl) (by unfold C142.lm; rfl) C142.lm_restorable (by decide)
    (ok_pair h1) (ok_pair h2) C142.dLong_ok.2.1 (by rw [C142.dLong_ok.2.2]; decide) (ok_pair h3) C142.dRest_ok.2
  exact ⟨h.2.1, h.2.2.1⟩

example : (C142.dRest.1.heap 0).value ≠ (C142.dShort.1.heap 0).value := by decide +kernel

end Factorama.Props
