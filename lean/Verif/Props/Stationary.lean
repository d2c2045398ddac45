import Verif.Lemmas.Stationary
import Verif.Lemmas.Correspond
import Verif.Props.AffineProblems
import Verif.Examples.ToyCurved

/-!
# C110: what success says about the gradient
-/

namespace Factorama.Props
open Spec Graph Opt Matrix

/-- What a user finds who evaluates residual and Jacobian after a run and multiplies them: minus the gradient `Jᵀr`. -/
def C110.descent (s : OptWorld Rat (GenVar Rat) (Ldlt.Fact Rat)) : List Rat :=
  match (computeResidual ToyOpt.env s.heap s.graph).2, (computeSparse s.heap s.graph).2 with
  | .ok r, .ok J => Ldlt.linAlg.rhs J r
  | _, _ => []

/-- **C110** is false of the code, Gauss-Newton. With the default settings and the residual `1 - x + 20 x²` a run from `x = 1`
reports SUCCESS because its last iteration made the cost larger, though not as large as it was at the start; the gradient at
the values it leaves behind is larger than 100. -/
theorem C110_gauss_newton_false : ¬ ∀ s : OptWorld Rat (GenVar Rat) (Ldlt.Fact Rat),
    s.opt.hasGraph = true → s.opt.settings = ToyOpt.gn → (optimize ToyOpt.rat Ldlt.linAlg ToyOpt.env s).2 = .ok () →
    (optimize ToyOpt.rat Ldlt.linAlg ToyOpt.env s).1.opt.stats.status = .success →
    (optimize ToyOpt.rat Ldlt.linAlg ToyOpt.env s).1.opt.stats.valid = true →
    ∀ g ∈ C110.descent (optimize ToyOpt.rat Ldlt.linAlg ToyOpt.env s).1, -100 ≤ g ∧ g ≤ 100 := by
  intro h
  have h1 := h (ToyOpt.start ToyCurved.farWorld ToyOpt.gn) rfl rfl (by decide +kernel) (by decide +kernel) (by decide +kernel)
  revert h1
  decide +kernel

/-- **C110** is false of the code, Levenberg-Marquardt. With the default settings the run from the same values reports SUCCESS
because no step of the fourth iteration lowered the cost, but earlier ones had; the gradient is larger than 2. A run that
begins where this one ended, with a larger damping, does lower the cost. -/
theorem C110_levenberg_marquardt_false : ¬ ∀ s : OptWorld Rat (GenVar Rat) (Ldlt.Fact Rat),
    s.opt.hasGraph = true → s.opt.settings = ToyCurved.lm → (optimize ToyOpt.rat Ldlt.linAlg ToyOpt.env s).2 = .ok () →
    (optimize ToyOpt.rat Ldlt.linAlg ToyOpt.env s).1.opt.stats.status = .success →
    (optimize ToyOpt.rat Ldlt.linAlg ToyOpt.env s).1.opt.stats.valid = true →
    ∀ g ∈ C110.descent (optimize ToyOpt.rat Ldlt.linAlg ToyOpt.env s).1, -2 ≤ g ∧ g ≤ 2 := by
  intro h
  have h1 := h (ToyOpt.start ToyCurved.farWorld ToyCurved.lm) rfl rfl (by decide +kernel) (by decide +kernel) (by decide +kernel)
  revert h1
  decide +kernel

/-- The two runs. The residual is 20 at the start and never below 0.98; Gauss-Newton has seen a residual of less than 1.04
after three iterations and returns one of more than 5. -/
example :
    let s := ToyOpt.start ToyCurved.farWorld ToyOpt.gn
    let run := (optimize ToyOpt.rat Ldlt.linAlg ToyOpt.env s).1
    let three := (optimize ToyOpt.rat Ldlt.linAlg ToyOpt.env (ToyOpt.start ToyCurved.farWorld { ToyOpt.gn with maxIterations := 3 })).1
    run.opt.stats.iteration = 4 ∧ 5 < run.opt.stats.residualNorm ∧ three.opt.stats.residualNorm < 104 / 100 := by
  decide +kernel

variable {V Fact : Type} [VarLike ℝ V] [LawfulVar ℝ V] {L : LinAlg ℝ Fact}

/-- The last iteration of a valid run. -/
theorem C110.last (env : Env ℝ V) {s t : OptWorld ℝ V Fact} (hg : s.opt.hasGraph = true)
    (hpos : 0 < s.opt.settings.maxIterations)
    (hret : optimize realArith L env s = (t, .ok ())) (hv : t.opt.stats.valid = true) :
    ∃ r0 k s1 s2, (computeResidual env s.heap s.graph).2 = .ok r0 ∧
      Iterations realArith L env k (loopStart realArith env s r0) s1 ∧ oneStep realArith L env s1 = (s2, .ok ()) ∧
      (isErrorStatus s2.opt.stats.status → s2.opt.stats.valid = true) ∧ t.heap = s2.heap ∧
      t.opt.stats = { s2.opt.stats with status := t.opt.stats.status, valid := true } := by
  obtain ⟨r0, hr⟩ : ∃ r0, (computeResidual env s.heap s.graph).2 = .ok r0 := by
    cases hr : (computeResidual env s.heap s.graph).2 with
    | ok r0 => exact ⟨r0, rfl⟩
    | threw =>
      have := (C28_throws_iff realArith L env s).2 (.inr hr)
      rw [hret] at this
      simp at this
    | ub =>
      have := (optimize_ubResidual realArith L env s hg hr).1
      rw [hret] at this
      simp at this
  rcases C66_ends realArith L env s hg r0 hr t hret with ⟨k, s1, s2, hk, hit, h⟩ | ⟨s1, hit, hh, hv1, he⟩
  · rcases h with ⟨_, _, h⟩ | ⟨_, _, _, h1, h⟩ | ⟨ho, hheap, herr, status, valid, _, h⟩
    · rw [h] at hv; simp at hv
    · rw [h, h1] at hv; simp at hv
    · refine ⟨r0, k, s1, s2, hr, hit, ho, fun h => absurd h herr, hheap, ?_⟩
      rw [h] at hv ⊢
      dsimp only at hv ⊢
      rw [hv]
  · obtain ⟨k, hk⟩ : ∃ k, s.opt.settings.maxIterations = k + 1 := ⟨s.opt.settings.maxIterations - 1, by omega⟩
    rw [hk] at hit
    obtain ⟨s2, hit2, ho, hv2, _⟩ := C66_continues realArith L env s hg r0 k s1 hit
    refine ⟨r0, k, s2, s1, hr, hit2, ho, fun _ => hv2, hh, ?_⟩
    rw [he]
    dsimp only
    rw [hv1]

/-- **C110, the part that holds**, Gauss-Newton: `Jᵀr` at the values before the last step is at most `|JᵀJ|` times the reported
length of that step, divided by the learning rate. So a run that stops because a step is shorter than `step_tolerance` was near
a stationary point. Missing: runs that stop for another reason are reported in the same way, and then the step is not short. -/
theorem C110_gauss_newton_partial (hL : ExactLinAlg L) (env : Env ℝ V) {s t : OptWorld ℝ V Fact} (hp : Prepared s)
    (hm : s.opt.settings.method = .gaussNewton) (hlr : 0 < s.opt.settings.learningRate)
    (hpos : 0 < s.opt.settings.maxIterations) (hret : optimize realArith L env s = (t, .ok ()))
    (hv : t.opt.stats.valid = true) :
    ∃ h r J dx, SameButFree s.heap h s.graph.getAllVariables ∧
      Linearised h s.graph.getAllVariables s.graph.getAllFactors r J ∧ Stepped h t.heap s.graph.getAllVariables dx ∧
      t.opt.stats.deltaNorm = realArith.norm dx ∧
      s.opt.settings.learningRate * euclidean (gradient J r) ≤
        entrywise ((jacobianMatrix J)ᵀ * jacobianMatrix J) * t.opt.stats.deltaNorm := by
  obtain ⟨h0, pre, post, hw, hpre⟩ := hp.history
  obtain ⟨r0, k, s1, s2, hr, hit, ho, herr, hheap, hstat⟩ := C110.last env hp.graph hpos hret hv
  have hb := C24.sameButFree L env s hw hpre hp.ids hp.noRepeats hp.safe hp.proper hp.graph hm r0 k s1 hit
  obtain ⟨r, J, hlin, ⟨_, href, _, e⟩ | ⟨d, r', hsol, hst, hres, e⟩⟩ :=
    C67_gauss_newton realArith L env s hw hpre hp.ids hp.noRepeats hp.safe hp.proper hp.graph hm r0 k s1 s2 hit ho
  · exfalso
    have := herr (by rw [e]; cases href <;> simp [isErrorStatus])
    rw [e] at this
    simp at this
  have hd : t.opt.stats.deltaNorm = realArith.norm (realArith.scale s.opt.settings.learningRate d) := by rw [hstat, e]
  refine ⟨s1.heap, r, J, _, hb, hlin, by rw [hheap]; exact hst, hd, ?_⟩
  obtain ⟨f, hf, _, _, hs⟩ := hsol
  obtain ⟨d', h1, h2, h3, _⟩ := C25_gauss_newton hL J r f hf
  rw [hs] at h1
  obtain rfl := Option.some.inj h1
  rw [hd, norm_scale _ hlr.le h2, ← euclidean_neg, ← (h3 _).2 rfl, mul_left_comm]
  exact mul_le_mul_of_nonneg_left (euclidean_mulVec _ _) hlr.le

/-- Iterations change values of free variables only. -/
theorem C110.sameButFree (env : Env ℝ V) (s : OptWorld ℝ V Fact) (hp : Prepared s)
    (hm : s.opt.settings.method = .levenbergMarquardt) (hrest : Restorable s) (r0 : List ℝ)
    (hr : (computeResidual env s.heap s.graph).2 = .ok r0) (k : Nat) (s1 : OptWorld ℝ V Fact)
    (hini : 0 < s.opt.settings.initialLambda) (hup : 0 < s.opt.settings.lambdaUp) (hmax : 0 < s.opt.settings.maxLambda)
    (hit : Iterations realArith L env k (loopStart realArith env s r0) s1) :
    SameButFree s.heap s1.heap s.graph.getAllVariables := by
  obtain ⟨h0, pre, post, hw, hpre⟩ := hp.history
  induction k generalizing s1 with
  | zero => cases hit; exact ⟨fun _ => ⟨rfl, rfl, rfl⟩, fun _ _ => rfl⟩
  | succ k ih =>
    obtain ⟨s2, hit2, ho, _⟩ := C66_continues realArith L env s hp.graph r0 k s1 hit
    obtain ⟨h1, h2⟩ := ih s2 hit2
    obtain ⟨r, J, _, e | ⟨l, _, d, _, hst⟩⟩ := (C79.iteration env s hw hpre hp.ids hp.noRepeats hp.safe hp.proper hp.graph hm
      hrest hini hup hmax r0 hr hit2).2 s1 ho
    · rw [e]; exact ⟨h1, h2⟩
    · have h3 := stepped_shape hst
      refine ⟨fun q => ⟨(h3 q).1.trans (h1 q).1, (h3 q).2.1.trans (h1 q).2.1, (h3 q).2.2.trans (h1 q).2.2⟩, fun q hq => ?_⟩
      rw [(hst q).2 (by rw [(h1 q).2.1]; exact hq), h2 q hq]

/-- **C110, the part that holds**, Levenberg-Marquardt: if the last iteration took a step, `Jᵀr` at the values before this step
is at most `|JᵀJ|` plus the damping it used times the reported length of the step, divided by the learning rate; the reported
damping divided by `lambda_down_factor` is at least the damping that was used. Missing: a run whose last iteration found no
step reports SUCCESS as well if an earlier iteration did, and a step can be short because the damping is large. -/
theorem C110_levenberg_marquardt_partial (hL : ExactLinAlg L) (env : Env ℝ V) {s t : OptWorld ℝ V Fact} (hp : Prepared s)
    (hm : s.opt.settings.method = .levenbergMarquardt) (hrest : Restorable s) (hlr : 0 < s.opt.settings.learningRate)
    (hini : 0 < s.opt.settings.initialLambda) (hup : 0 < s.opt.settings.lambdaUp) (hmax : 0 < s.opt.settings.maxLambda)
    (hdown : 0 < s.opt.settings.lambdaDown)
    (hpos : 0 < s.opt.settings.maxIterations) (hret : optimize realArith L env s = (t, .ok ()))
    (hv : t.opt.stats.valid = true) (hmoved : 0 < t.opt.stats.deltaNorm) :
    ∃ h r J dx, SameButFree s.heap h s.graph.getAllVariables ∧
      Linearised h s.graph.getAllVariables s.graph.getAllFactors r J ∧ Stepped h t.heap s.graph.getAllVariables dx ∧
      t.opt.stats.deltaNorm = realArith.norm dx ∧
      s.opt.settings.learningRate * euclidean (gradient J r) ≤
        (entrywise ((jacobianMatrix J)ᵀ * jacobianMatrix J) + t.opt.stats.damping / s.opt.settings.lambdaDown) *
          t.opt.stats.deltaNorm := by
  obtain ⟨h0, pre, post, hw, hpre⟩ := hp.history
  obtain ⟨r0, k, s1, s2, hr, hit, ho, herr, hheap, hstat⟩ := C110.last env hp.graph hpos hret hv
  have hb := C110.sameButFree env s hp hm hrest r0 hr k s1 hini hup hmax hit
  have hfirst := (C79.iteration env s hw hpre hp.ids hp.noRepeats hp.safe hp.proper hp.graph hm hrest hini hup hmax r0 hr hit).1
  obtain ⟨r, J, o, lambda, hlin, htr, hcase⟩ := C67_levenberg_marquardt_partial realArith L env s hw hpre hp.ids hp.noRepeats hp.safe
    hp.proper hp.graph hm hrest r0 hr k s1 s2 hit ho
  rcases hcase with ⟨dx, r', rfl, e⟩ | ⟨_, _, n, e⟩
  · obtain ⟨l, hl, d, hsol, rfl, hst, hres, hlt, hlam⟩ := trials_accepted hup hmax hfirst htr rfl
    obtain ⟨hlen, heq⟩ := damped_solution hL hl hsol
    have hd : t.opt.stats.deltaNorm = realArith.norm (realArith.scale s.opt.settings.learningRate d) := by rw [hstat, e]
    have hda : t.opt.stats.damping = lambda := by rw [hstat, e]
    refine ⟨s1.heap, r, J, _, hb, hlin, by rw [hheap]; exact hst, hd, ?_⟩
    have hle : l ≤ t.opt.stats.damping / s.opt.settings.lambdaDown := by
      rw [le_div_iff₀ hdown, hda, hlam]
      exact le_max_left _ _
    rw [hd, norm_scale _ hlr.le hlen, ← euclidean_neg, ← heq, mul_left_comm]
    refine mul_le_mul_of_nonneg_left ((euclidean_add _ _).trans ?_) hlr.le
    rw [add_mul, euclidean_smul, abs_of_pos hl]
    exact add_le_add (euclidean_mulVec _ _) (mul_le_mul_of_nonneg_right hle (euclidean_nonneg _))
  · exfalso
    have : t.opt.stats.deltaNorm = 0 := by
      rw [hstat, e]
      have := C26.norm_zeros n
      simpa [realArith] using this
    linarith

/-! ### The small graph -/

namespace C110

/-- An optimizer on the small graph, not at a minimiser. -/
noncomputable def start (st : Settings ℝ) : OptWorld ℝ (GenVar ℝ) (Ldlt.Fact ℝ) :=
  ⟨(TinyWorld.world 0 0 1 4 7 2 3 1).heap, (TinyWorld.world 0 0 1 4 7 2 3 1).graph,
    { Optimizer.init realArith with hasGraph := true, settings := st }⟩

theorem prepared (st : Settings ℝ) : Prepared (start st) where
  history := ⟨_, _, _, TinyWorld.finalizedAfter 0 0 1 4 7 2 3 1, TinyWorld.noJacobianYet 0 0 1 4 7 2 3 1⟩
  ids := TinyWorld.identify 0 0 1 4 7 2 3 1
  noRepeats := TinyWorld.noRepeats 0 0 1 4 7 2 3 1
  safe := TinyWorld.reuseSafe 0 0 1 4 7 2 3 1
  proper := TinyWorld.proper 0 0 1 4 7 2 3 1
  graph := rfl

theorem restorable (st : Settings ℝ) : Restorable (start st) := fun _ => ⟨_, GenVar.restoresExactly, fun _ _ => trivial⟩

/-- The default settings with Levenberg-Marquardt. -/
noncomputable def lm : Settings ℝ := { Settings.default realArith with method := .levenbergMarquardt }

theorem lm_positive : 0 < lm.learningRate ∧ 0 < lm.initialLambda ∧ 0 < lm.lambdaUp ∧ 0 < lm.maxLambda ∧ 0 < lm.lambdaDown ∧
    0 < lm.maxIterations := by
  simp [lm, Settings.default, realArith]

end C110

example (t : OptWorld ℝ (GenVar ℝ) (Ldlt.Fact ℝ))
    (hret : optimize realArith Ldlt.linAlg (TinyWorld.env 0) (C110.start (Settings.default realArith)) = (t, .ok ()))
    (hv : t.opt.stats.valid = true) : ∃ h dx, Stepped h t.heap [0, 1, 2] dx ∧ t.opt.stats.deltaNorm = realArith.norm dx := by
  obtain ⟨h, r, J, dx, _, _, h1, h2, _⟩ := C110_gauss_newton_partial Ldlt.exact (TinyWorld.env 0)
    (C110.prepared (Settings.default realArith)) rfl
    (by show 0 < (Settings.default realArith).learningRate; simp [Settings.default, realArith])
    (by show 0 < (Settings.default realArith).maxIterations; decide) hret hv
  rw [show (C110.start (Settings.default realArith)).graph.getAllVariables = [0, 1, 2] from
    TinyWorld.vars_eq 0 0 1 4 7 2 3 1] at h1
  exact ⟨h, dx, h1, h2⟩

example (t : OptWorld ℝ (GenVar ℝ) (Ldlt.Fact ℝ))
    (hret : optimize realArith Ldlt.linAlg (TinyWorld.env 0) (C110.start C110.lm) = (t, .ok ()))
    (hv : t.opt.stats.valid = true) (hmoved : 0 < t.opt.stats.deltaNorm) :
    ∃ h dx, Stepped h t.heap [0, 1, 2] dx ∧ t.opt.stats.deltaNorm = realArith.norm dx := by
  obtain ⟨p1, p2, p3, p4, p5, p6⟩ := C110.lm_positive
  obtain ⟨h, r, J, dx, _, _, h1, h2, _⟩ := C110_levenberg_marquardt_partial Ldlt.exact (TinyWorld.env 0)
    (C110.prepared C110.lm) rfl (C110.restorable _) p1 p2 p3 p4 p5 p6 hret hv hmoved
  rw [show (C110.start C110.lm).graph.getAllVariables = [0, 1, 2] from TinyWorld.vars_eq 0 0 1 4 7 2 3 1] at h1
  exact ⟨h, dx, h1, h2⟩

/-- In rational arithmetic both runs are valid, and the last step of the second one is not zero. -/
example :
    let gn := (optimize ToyOpt.rat Ldlt.linAlg (TinyWorld.env 0) (ToyOpt.start (TinyWorld.world 0 0 1 4 7 2 3 1) ToyOpt.gn)).1
    let lm := (optimize ToyOpt.rat Ldlt.linAlg (TinyWorld.env 0) (ToyOpt.start (TinyWorld.world 0 0 1 4 7 2 3 1) ToyCurved.lm)).1
    gn.opt.stats.valid = true ∧ gn.opt.stats.status = .success ∧ lm.opt.stats.valid = true ∧ lm.opt.stats.status = .success ∧
      0 < lm.opt.stats.deltaNorm := by
  decide +kernel

end Factorama.Props
