import Verif.Lemmas.OptDamping
import Verif.Props.Optimizer
import Verif.Examples.ToyNaN
import Verif.Examples.ToyClip

/-!
# Damping bounds, and optimizer properties that the code does not have
-/

namespace Factorama.Props
open Spec Graph Opt
variable {F V Fact : Type} [Zero F] [VarLike F V]

/-- **C21**, lower bound. After a Levenberg-Marquardt run the damping parameter is not below `1e-12`, if the initial
damping and `max_lambda` are not, and multiplying by `lambda_up_factor` does not go below. -/
theorem C21_lower (A : Arith F) (L : LinAlg F Fact) (env : Env F V) (s : OptWorld F V Fact)
    (hg : s.opt.hasGraph = true) (hm : s.opt.settings.method = .levenbergMarquardt) (r0 : List F)
    (hr : (computeResidual env s.heap s.graph).2 = .ok r0)
    (hinit : A.lt s.opt.settings.initialLambda (A.lit (1 / 10 ^ 12)) = false)
    (hmax : A.lt s.opt.settings.maxLambda (A.lit (1 / 10 ^ 12)) = false)
    (hup : ∀ x, A.lt x (A.lit (1 / 10 ^ 12)) = false →
      A.lt (A.mul x s.opt.settings.lambdaUp) (A.lit (1 / 10 ^ 12)) = false)
    (hirr : A.lt (A.lit (1 / 10 ^ 12)) (A.lit (1 / 10 ^ 12)) = false)
    (hdef : A.lt (A.lit (1 / 1000)) (A.lit (1 / 10 ^ 12)) = false) :
    A.lt (optimize A L env s).1.opt.stats.damping (A.lit (1 / 10 ^ 12)) = false := by
  have hc : DampingClosed A L s.opt.settings fun x => A.lt x (A.lit (1 / 10 ^ 12)) = false := by
    refine ⟨hinit, .inl hup, fun x hx => ?_, fun x hx => ?_⟩
    · unfold Arith.stdMin; split
      · exact hmax
      · exact hup x hx
    · unfold Arith.stdMax; split
      · exact hirr
      · rename_i h; simpa using h
  rcases optimize_damping hg hr hm hc with h | h
  · rw [h]; exact hdef
  · exact h

example : ToyOpt.rat.lt ToyOpt.lmRun.1.opt.stats.damping (1 / 10 ^ 12) = false :=
  C21_lower ToyOpt.rat Ldlt.linAlg ToyOpt.env (ToyOpt.start ToyOpt.world ToyOpt.lm) rfl rfl _ ToyOpt.residual0
    (by decide +kernel) (by decide +kernel)
    (fun x hx => by
      have hl : ToyOpt.lm.lambdaUp = 10 := by decide +kernel
      show decide (x * ToyOpt.lm.lambdaUp < 1 / 10 ^ 12) = false
      rw [hl]
      have : decide (x < 1 / 10 ^ 12) = false := hx
      simp only [decide_eq_false_iff_not] at *
      grind)
    (by decide +kernel) (by decide +kernel)

/-- **C21**, upper bound (the part that holds). If the linear solver never fails, the damping parameter is not above
`max_lambda` after a run, when it starts not above. Missing: solver failures raise it without a bound, see
`C21_upper_false`. -/
theorem C21_upper_partial (A : Arith F) (L : LinAlg F Fact) (env : Env F V) (s : OptWorld F V Fact)
    (hg : s.opt.hasGraph = true) (hm : s.opt.settings.method = .levenbergMarquardt) (r0 : List F)
    (hr : (computeResidual env s.heap s.graph).2 = .ok r0) (hL : SolverNeverFails A L)
    (hinit : A.lt s.opt.settings.maxLambda s.opt.settings.initialLambda = false)
    (heps : A.lt s.opt.settings.maxLambda (A.lit (1 / 10 ^ 12)) = false)
    (hdown : ∀ x, A.lt s.opt.settings.maxLambda x = false →
      A.lt s.opt.settings.maxLambda (A.mul x s.opt.settings.lambdaDown) = false)
    (hirr : A.lt s.opt.settings.maxLambda s.opt.settings.maxLambda = false)
    (hdef : A.lt s.opt.settings.maxLambda (A.lit (1 / 1000)) = false) :
    A.lt s.opt.settings.maxLambda (optimize A L env s).1.opt.stats.damping = false := by
  have hc : DampingClosed A L s.opt.settings fun x => A.lt s.opt.settings.maxLambda x = false := by
    refine ⟨hinit, .inr hL, fun x _ => ?_, fun x hx => ?_⟩
    · unfold Arith.stdMin; split
      · exact hirr
      · rename_i h; simpa using h
    · unfold Arith.stdMax; split
      · exact heps
      · exact hdown x hx
  rcases optimize_damping hg hr hm hc with h | h
  · rw [h]; exact hdef
  · exact h

/-- A solver that never fails: steepest descent. -/
def descent : LinAlg Rat Unit where
  gram J := ⟨J.columns.length, J.columns.length, fun _ _ => 0⟩
  rhs J r := (Ldlt.rhs J r).map (· / 100)
  factorize _ := some ()
  vectorD _ := [1]
  solve _ b := some b

example : ToyOpt.rat.lt 100000 (optimize ToyOpt.rat descent ToyOpt.env
    ⟨ToyOpt.world.heap, ToyOpt.world.graph, { Optimizer.init ToyOpt.rat with hasGraph := true, settings := ToyOpt.lm }⟩).1.opt.stats.damping = false :=
  C21_upper_partial ToyOpt.rat descent ToyOpt.env
    ⟨ToyOpt.world.heap, ToyOpt.world.graph, { Optimizer.init ToyOpt.rat with hasGraph := true, settings := ToyOpt.lm }⟩
    rfl rfl _ ToyOpt.residual0
    (fun _ => ⟨(), rfl, by decide +kernel, by decide +kernel, fun b => ⟨b, rfl⟩⟩)
    (by decide +kernel) (by decide +kernel)
    (fun x hx => by
      have hl : ToyOpt.lm.lambdaDown = 1 / 10 := by decide +kernel
      have h2 : ToyOpt.lm.maxLambda = 100000 := by decide +kernel
      show decide (ToyOpt.lm.maxLambda < x * ToyOpt.lm.lambdaDown) = false
      have : decide (ToyOpt.lm.maxLambda < x) = false := hx
      rw [hl, h2] at *
      simp only [decide_eq_false_iff_not] at *
      grind)
    (by decide +kernel) (by decide +kernel)

/-- Settings in which the damping starts at `max_lambda`. -/
def C21.settings : Settings Rat := { ToyOpt.lm with initialLambda := 100000, maxIterations := 1 }

/-- **C21** is false of the code: the damping parameter starts at `max_lambda = 1e5`; four trials are refused as ill
conditioned, each multiplying it by ten without looking at `max_lambda`; the fifth is accepted. The run ends with `1e8`. -/
theorem C21_upper_false : ¬ ∀ s : OptWorld Rat (GenVar Rat) (Ldlt.Fact Rat), s.opt.hasGraph = true →
    s.opt.settings.method = .levenbergMarquardt → s.opt.settings.initialLambda ≤ s.opt.settings.maxLambda →
    s.opt.settings.lambdaDown ≤ 1 → 1 ≤ s.opt.settings.maxLambda →
    (optimize ToyOpt.rat Ldlt.linAlg ToyOpt.env s).2 = .ok () →
    (optimize ToyOpt.rat Ldlt.linAlg ToyOpt.env s).1.opt.stats.damping ≤ s.opt.settings.maxLambda := by
  intro h
  have h1 := h (ToyOpt.start ToyOpt.stiffWorld C21.settings) rfl rfl (by decide +kernel) (by decide +kernel)
    (by decide +kernel) (by decide +kernel)
  revert h1
  decide +kernel

example : (optimize ToyOpt.rat Ldlt.linAlg ToyOpt.env (ToyOpt.start ToyOpt.stiffWorld C21.settings)).1.opt.stats.damping =
    10 ^ 8 := by decide +kernel

/-- Gauss-Newton with a learning rate of three. -/
def C22.settings : Settings Rat := { ToyOpt.gn with learningRate := 3 }

/-- **C22** is false of the code: a run whose first step increases the residual ends with DIVERGED and `valid = true`. -/
theorem C22_false : ¬ ∀ s : OptWorld Rat (GenVar Rat) (Ldlt.Fact Rat), s.opt.hasGraph = true →
    (optimize ToyOpt.rat Ldlt.linAlg ToyOpt.env s).2 = .ok () →
    ((optimize ToyOpt.rat Ldlt.linAlg ToyOpt.env s).1.opt.stats.valid = false ↔
      isErrorStatus (optimize ToyOpt.rat Ldlt.linAlg ToyOpt.env s).1.opt.stats.status) := by
  intro h
  have h1 := h (ToyOpt.start ToyOpt.world C22.settings) rfl (by decide +kernel)
  have h2 : (optimize ToyOpt.rat Ldlt.linAlg ToyOpt.env (ToyOpt.start ToyOpt.world C22.settings)).1.opt.stats.status =
    .diverged := by decide +kernel
  have h3 : (optimize ToyOpt.rat Ldlt.linAlg ToyOpt.env (ToyOpt.start ToyOpt.world C22.settings)).1.opt.stats.valid =
    true := by decide +kernel
  rw [h2, h3] at h1
  exact absurd (h1.2 (.inr (.inr (.inl rfl)))) (by simp)

/-- The default settings. -/
def C23.settings : Settings ToyNaN.Num := { Settings.default ToyNaN.arith with maxIterations := 20 }

/-- **C23** is false of the code: all comparisons with a NaN are false, so no check stops the run, and at the end RUNNING is
turned into SUCCESS. -/
theorem C23_false : ¬ ∀ s : OptWorld ToyNaN.Num (GenVar ToyNaN.Num) (Ldlt.Fact ToyNaN.Num), s.opt.hasGraph = true →
    (optimize ToyNaN.arith Ldlt.linAlg ToyNaN.env s).2 = .ok () →
    (optimize ToyNaN.arith Ldlt.linAlg ToyNaN.env s).1.opt.stats.residualNorm = .nan →
    ¬ ((optimize ToyNaN.arith Ldlt.linAlg ToyNaN.env s).1.opt.stats.status = .success ∧
      (optimize ToyNaN.arith Ldlt.linAlg ToyNaN.env s).1.opt.stats.valid = true) := by
  intro h
  exact h (ToyNaN.start C23.settings) rfl (by decide +kernel) (by decide +kernel) ⟨by decide +kernel, by decide +kernel⟩

/-- **C64** is false of the code: an exception thrown while a trial is evaluated leaves the trial increments applied. -/
theorem C64_false : ¬ ∀ s : OptWorld Rat (GenVar Rat) (Ldlt.Fact Rat), s.opt.hasGraph = true →
    (oneStep ToyOpt.rat Ldlt.linAlg ToyOpt.env s).2 = .threw →
    (oneStep ToyOpt.rat Ldlt.linAlg ToyOpt.env s).1.heap = s.heap := by
  intro h
  have h1 := congrFun (h (ToyOpt.start ToyOpt.touchyWorld ToyOpt.lm) rfl (by decide +kernel)) 0
  revert h1
  decide +kernel

/-- **C20** is false of the code. Undoing a rejected Levenberg-Marquardt trial writes the values of all variables of the
graph back, constant ones included. A constant inverse-range variable outside its (public, changeable) bounds is clipped by
this: its value 1 becomes 1/2, although the run has nothing to optimise. `C41_rotation_false` gives another class for which
writing back is not the identity. -/
theorem C20_constant_rewritten : ∃ s : OptWorld Rat ToyClip.Var (Ldlt.Fact Rat),
    s = ToyClip.start ∧ 1 ∈ s.graph.getAllVariables ∧ VarLike.isConst (F := Rat) (s.heap 1) = true ∧
    VarLike.value (F := Rat) (s.heap 1) = [1] ∧
    VarLike.value (F := Rat) ((optimize ToyOpt.rat Ldlt.linAlg ToyClip.env s).1.heap 1) = [1 / 2] :=
  ⟨_, rfl, by decide +kernel, by decide +kernel, by decide +kernel, by decide +kernel⟩

/-- Hence the property does not hold for every graph and every run. -/
theorem C20_false : ¬ ∀ (s : OptWorld Rat ToyClip.Var (Ldlt.Fact Rat)) (r : VRef), VarLike.isConst (F := Rat) (s.heap r) = true →
    (optimize ToyOpt.rat Ldlt.linAlg ToyClip.env s).1.heap r = s.heap r := by
  intro h
  obtain ⟨s, _, _, hc, h1, h2⟩ := C20_constant_rewritten
  rw [h s 1 hc, h1] at h2
  exact absurd h2 (by decide +kernel)

variable [LawfulVar F V]

/-- **C26** is false of the code for Levenberg-Marquardt, for every graph and solver: if the start is a minimiser of the
cost, no trial can be better, so the first step is rejected five times (or until the damping reaches its maximum) and the
run ends with `valid = false` and status ILL_CONDITIONED or FAILED. -/
theorem C26_lm_at_optimum_false (A : Arith F) (L : LinAlg F Fact) (env : Env F V) (s : OptWorld F V Fact)
    {h0 : Heap V} {pre post : List (Op F V × Res Unit)} (hw : FinalizedAfter h0 pre post ⟨s.heap, s.graph⟩)
    (hg : s.opt.hasGraph = true) (hm : s.opt.settings.method = .levenbergMarquardt) (r0 : List F)
    (hr : (computeResidual env s.heap s.graph).2 = .ok r0)
    (hmin : ∀ h r, IsResidual h s.graph.getAllFactors r →
      A.lt (A.mul (A.lit (1 / 2)) (A.sqNorm r)) (A.mul (A.lit (1 / 2)) (A.sqNorm r0)) = false)
    (hhalf : A.lt (A.mul (A.lit (1 / 2)) (A.sqNorm r0)) (A.mul (A.sqNorm r0) (A.lit (1 / 2))) = false)
    (hpos : 0 < s.opt.settings.maxIterations) (hret : (optimize A L env s).2 = .ok ()) :
    (optimize A L env s).1.opt.stats.valid = false ∧
    ((optimize A L env s).1.opt.stats.status = .illConditioned ∨ (optimize A L env s).1.opt.stats.status = .failed) := by
  have hl : Layout (loopStart A env s r0).heap (loopStart A env s r0).graph :=
    (finalizedAfter_layout hw).kept (computeResidual_kept env s.heap s.graph) (SameShape.refl _)
  have hkf : (loopStart A env s r0).graph.facs = s.graph.facs := (computeResidual_kept env s.heap s.graph).facs
  have hres0 := evaluated_isResidual (finalizedAfter_layout hw) (computeResidual_evaluated hr)
  -- the first step ends in an error if it does not throw
  have hfirst : ∀ s', oneStep A L env (loopStart A env s r0) = (s', .ok ()) →
      s'.opt.stats.valid = false ∧ (s'.opt.stats.status = .illConditioned ∨ s'.opt.stats.status = .failed) := by
    intro s' hs'
    have hp := oneStep_post A L env (loopStart A env s r0) hg
    rw [hs'] at hp
    obtain ⟨hk, hss⟩ := oneStep_shape hs' (by simp)
    have hl2 : Layout (loopStart A env s r0).heap s'.graph := hl.kept hk (SameShape.refl _)
    have hm1 : (loopStart A env s r0).opt.settings.method = .levenbergMarquardt := hm
    cases hp.ended rfl with
    | unsolved st h => rw [hm1] at h; simp at h
    | moved dx r h => rw [hm1] at h; simp at h
    | accepted dx r1 r l _ h1 h2 h3 _ =>
      have e1 := evaluated_isResidual hl2 h1
      have e2 := evaluated_isResidual (hl.kept hk hss) h2
      rw [hk.facs, hkf] at e1 e2
      have : r1 = r0 := isResidual_unique e1 hres0
      subst this
      rw [hmin _ _ e2] at h3
      exact absurd h3 (by simp)
    | rejected m r1 l v st _ h1 _ e hv =>
      have e1 := evaluated_isResidual hl2 h1
      rw [hk.facs, hkf] at e1
      have : r1 = r0 := isResidual_unique e1 hres0
      subst this
      have hh : A.lt (A.mul (A.lit (1 / 2)) (A.sqNorm r1))
          (A.mul (loopStart A env s r1).opt.initialStats.chi2 (A.lit (1 / 2))) = false := hhalf
      rw [if_neg (by rw [hh]; simp)] at hv
      dsimp only at e
      rw [e]
      exact hv
  have hzero : ∀ k s', Iterations A L env k (loopStart A env s r0) s' → k = 0 ∧ s' = loopStart A env s r0 := by
    intro k s' hit
    generalize hs1 : loopStart A env s r0 = s1 at *
    induction hit with
    | zero => exact ⟨rfl, rfl⟩
    | @succ k s1 s2 s3 hit ho ha ih =>
      obtain ⟨rfl, rfl⟩ := ih hs1 hl hkf hfirst
      have := hfirst _ ho
      unfold afterStep at ha
      rw [if_pos (by rcases this.2 with h | h <;> simp [h])] at ha
      simp at ha
  obtain ⟨o, hend, ⟨ho, e⟩ | ⟨ho, e⟩⟩ := optimize_ends A L env s hg hr
  · rw [e]
    have key : o.1.opt.stats.valid = false ∧ (o.1.opt.stats.status = .illConditioned ∨ o.1.opt.stats.status = .failed) := by
      cases hend with
      | budget hit => exact absurd (hzero _ _ hit).1 (by omega)
      | threw => exact ⟨rfl, .inr rfl⟩
      | ub => simp at ho
      | @check k s' s'' st hk hit hstep ha =>
        obtain ⟨rfl, rfl⟩ := hzero _ _ hit
        have := hfirst _ hstep
        unfold afterStep at ha
        rw [if_pos (by rcases this.2 with h | h <;> simp [h])] at ha
        simp only [Prod.mk.injEq, and_true] at ha
        subst ha
        exact this
    unfold finish
    dsimp only
    rw [if_neg (by rcases key.2 with h | h <;> simp [h])]
    exact key
  · rw [e] at hret; simp at hret

theorem ToyOpt.sqNorm_nonneg (r : List Rat) : 0 ≤ ToyOpt.rat.sqNorm r := by
  show 0 ≤ (r.map fun x => x * x).foldr (· + ·) 0
  induction r with
  | nil => simp
  | cons a r ih =>
    simp only [List.map_cons, List.foldr_cons]
    have : 0 ≤ a * a := by
      rcases Rat.le_total (a := 0) (b := a) with h | h
      · exact Rat.mul_nonneg h h
      · have := Rat.mul_nonneg (a := -a) (b := -a) (by grind) (by grind)
        grind
    grind

/-- Levenberg-Marquardt started at zero residual. -/
example : (optimize ToyOpt.rat Ldlt.linAlg ToyOpt.env (ToyOpt.start ToyOpt.optWorld ToyOpt.lm)).1.opt.stats.valid = false :=
  (C26_lm_at_optimum_false ToyOpt.rat Ldlt.linAlg ToyOpt.env (ToyOpt.start ToyOpt.optWorld ToyOpt.lm) ToyOpt.optFinalized
    rfl rfl _ ToyOpt.optResidual (fun h r _ => by
      have h1 := ToyOpt.sqNorm_nonneg r
      have h2 : ToyOpt.rat.sqNorm [0, 0, 0, 0] = 0 := by decide +kernel
      rw [h2]
      show decide ((1 / 2 : Rat) * ToyOpt.rat.sqNorm r < 1 / 2 * 0) = false
      simp only [decide_eq_false_iff_not]
      grind)
    (by decide +kernel) (by decide) (by decide +kernel)).1

end Factorama.Props
