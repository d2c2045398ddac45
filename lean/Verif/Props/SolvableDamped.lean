import Verif.Props.Solvable

/-!
# Property C129: Levenberg-Marquardt on well-conditioned linear problems
-/

namespace Factorama.Props
open Spec Graph Opt Matrix

section
variable {V Fact : Type} [VarLike ℝ V] [LawfulVar ℝ V] {L : LinAlg ℝ Fact}

/-- Levenberg-Marquardt with full steps and positive dampings. -/
structure FullDamped (o : Settings ℝ) : Prop where
  method : o.method = .levenbergMarquardt
  rate : o.learningRate = 1
  initial : 0 < o.initialLambda
  up : 0 < o.lambdaUp
  max : 0 < o.maxLambda

omit [LawfulVar ℝ V] in
/-- All linearisations at the same values have the same gradient. -/
theorem C129.gradient_zero {h : Heap V} {vars : List VRef} {facs : List (Factor ℝ V)} (hn : vars.Nodup) {r r' : List ℝ} {J J' : SpMat ℝ}
    (h1 : Linearised h vars facs r J) (h2 : Linearised h vars facs r' J') (hg : gradient J' r' = 0) : gradient J r = 0 := by
  obtain ⟨e, key⟩ := linearised_unique hn h1 h2
  subst e
  exact key (fun N R M => Mᵀ *ᵥ asVec R r' = 0) hg

/-- The reported norm is that of the residual at the current values. -/
theorem C129.reported (env : Env ℝ V) {s : OptWorld ℝ V Fact} (hp : Prepared s) (hf : FullDamped s.opt.settings) (hrest : Restorable s)
    (r0 : List ℝ) (hr : (computeResidual env s.heap s.graph).2 = .ok r0) (k : Nat) (s1 : OptWorld ℝ V Fact)
    (hit : Iterations realArith L env k (loopStart realArith env s r0) s1) :
    ∃ r, IsResidual s1.heap s.graph.getAllFactors r ∧ s1.opt.stats.residualNorm = realArith.norm r := by
  obtain ⟨h0, pre, post, hw, hpre⟩ := hp.history
  cases k with
  | zero => cases hit; exact ⟨r0, evaluated_isResidual (finalizedAfter_layout hw) (computeResidual_evaluated hr), rfl⟩
  | succ k =>
    obtain ⟨s2, hit2, ho, hv, _⟩ := C66_continues realArith L env s hp.graph r0 k s1 hit
    have hfirst := (C79.iteration env s hw hpre hp.ids hp.noRepeats hp.safe hp.proper hp.graph hf.method hrest hf.initial hf.up hf.max
      r0 hr hit2).1
    obtain ⟨r, J, o, lambda, hlin, htr, ⟨dx, r', rfl, e⟩ | ⟨_, e1, n, e⟩⟩ := C67_levenberg_marquardt_partial realArith L env s hw hpre hp.ids
      hp.noRepeats hp.safe hp.proper hp.graph hf.method hrest r0 hr k s2 s1 hit2 ho
    · obtain ⟨_, _, _, _, _, _, hres, _⟩ := trials_accepted hf.up hf.max hfirst htr rfl
      exact ⟨r', hres, by rw [e]⟩
    · exact ⟨r, by rw [e1]; exact hlin.residual, by rw [e]⟩

/-- What an iteration does: away from the solution the first trial is accepted and the sum of squares falls; at the solution nothing
changes. -/
theorem C129.iteration (hL : ExactLinAlg L) (hP : ExactPivots L) (env : Env ℝ V) {s : OptWorld ℝ V Fact} (hs : SolvableLinear s)
    (hf : FullDamped s.opt.settings) (hrest : Restorable s) (r0 : List ℝ) (hr : (computeResidual env s.heap s.graph).2 = .ok r0) (k : Nat)
    (s1 : OptWorld ℝ V Fact) (hit : Iterations realArith L env k (loopStart realArith env s r0) s1) :
    ∃ s2 r, oneStep realArith L env s1 = (s2, .ok ()) ∧ IsResidual s1.heap s.graph.getAllFactors r ∧
      ((¬ Solution s1.heap s.graph.getAllVariables s.graph.getAllFactors ∧ s2.opt.stats.valid = true ∧
          ¬ isErrorStatus s2.opt.stats.status ∧ s2.opt.stats.residualNorm < realArith.norm r) ∨
        (Solution s1.heap s.graph.getAllVariables s.graph.getAllFactors ∧ s2.heap = s1.heap ∧
          s2.opt.stats.residualNorm = realArith.norm r ∧
          (realArith.sqNorm r < realArith.sqNorm r0 → s2.opt.stats.valid = true ∧ ¬ isErrorStatus s2.opt.stats.status) ∧
          (realArith.sqNorm r0 ≤ realArith.sqNorm r → s2.opt.stats.valid = false ∧ isErrorStatus s2.opt.stats.status))) := by
  have hp := hs.prepared
  obtain ⟨h0, pre, post, hw, hpre⟩ := hp.history
  obtain ⟨hn, hmem⟩ := C111.closed hp
  have hsame := C110.sameButFree env s hp hf.method hrest r0 hr k s1 hf.initial hf.up hf.max hit
  obtain ⟨r00, J0, hlin0, low, high, hb0, hlow, hhigh⟩ := hs.conditioned
  have hlow' : 0 < low := lt_of_lt_of_le (by positivity) hlow
  obtain ⟨rr, hlin'⟩ := affine_linearised hp.proper hs.affine hs.evaluates hsame hlin0
  have hfree : 0 < freeTotal s1.heap s.graph.getAllVariables := by rw [hsame.1.freeTotal_eq]; exact hs.free
  have hcol : ∀ {r J}, Linearised s1.heap s.graph.getAllVariables s.graph.getAllFactors r J → 0 < J.columns.length :=
    fun h => by rw [h.columns]; exact hfree
  have hfirst := (C79.iteration env s hw hpre hp.ids hp.noRepeats hp.safe hp.proper hp.graph hf.method hrest hf.initial hf.up hf.max
    r0 hr hit).1
  obtain ⟨s2, ho⟩ := C67_levenberg_marquardt_returns_partial realArith L env s hw hpre hp.ids hp.noRepeats hp.safe hp.graph hf.method hrest r0
    hr k s1 hit rr J0 hlin' (free_of_between hn hlin' hlow' hb0 hfree) (fun l => 0 < l) hfirst
    (fun l hl => by
      have h1 : 0 < l * s.opt.settings.lambdaUp := mul_pos hl hf.up
      refine ⟨h1, ?_⟩
      show 0 < realArith.stdMin _ _
      unfold Arith.stdMin
      split
      · exact hf.max
      · exact h1)
    (fun l J f _ hJ hf' e => by
      have := hL.diagonal _ f hf'
      rw [e] at this
      have h1 : (damped realArith (L.gram J) l).rows = J.columns.length := (hL.gram_size J).1
      rw [h1] at this
      have := hcol hJ
      simp at *
      omega)
    (fun l J d hl hJ hd => by
      obtain ⟨hlen, _⟩ := damped_solution hL hl hd
      obtain ⟨h', hst⟩ := exists_stepped hs.evaluates hsame (d := realArith.scale s.opt.settings.learningRate d)
        (by rw [← hJ.columns, ← hlen]; simp [Arith.scale])
      obtain ⟨r', hr'⟩ := exists_isResidual (hs.evaluates.residual h'
        (SameButFree.trans hsame ⟨stepped_shape hst, fun q hq => (hst q).2 hq⟩))
      exact ⟨hlen, h', r', hst, hr'⟩)
  obtain ⟨r, J, o, lambda, hlin, htr, hcase⟩ := C67_levenberg_marquardt_partial realArith L env s hw hpre hp.ids hp.noRepeats hp.safe
    hp.proper hp.graph hf.method hrest r0 hr k s1 s2 hit ho
  have hh := iterations_head hit hp.graph rfl rfl rfl
  have hbJ := C111.between hn hmem hp.noRepeats hs.affine hsame.1 hlin0 hlin hb0
  refine ⟨s2, r, ho, hlin.residual, ?_⟩
  by_cases hg : gradient J r = 0
  · right
    refine ⟨⟨r, J, hlin, hg⟩, ?_⟩
    rcases hcase with ⟨dx, r', rfl, e⟩ | ⟨_, e1, n, e⟩
    · exfalso
      obtain ⟨l, hlp, d, hsolv, rfl, hst, hres, hlt, _⟩ := trials_accepted hf.up hf.max hfirst htr rfl
      rw [hf.rate] at hst
      exact (affine_gain hL hn hmem hp.noRepeats hs.affine hs.additive hsame.1 hlin hlp hsolv hst hres).1 hlt hg
    · refine ⟨e1, by rw [e], fun hlt => ?_, fun hle => ?_⟩
      · have hd : realArith.lt (realArith.mul (realArith.lit (1 / 2)) (realArith.sqNorm r))
            (realArith.mul (realArith.sqNorm r0) (realArith.lit (1 / 2))) = true := by
          simp only [realArith, decide_eq_true_eq] at hlt ⊢
          push_cast
          linarith
        rw [e, hd]
        exact ⟨rfl, by simp [isErrorStatus]⟩
      · have hd : realArith.lt (realArith.mul (realArith.lit (1 / 2)) (realArith.sqNorm r))
            (realArith.mul (realArith.sqNorm r0) (realArith.lit (1 / 2))) = false := by
          simp only [realArith, decide_eq_false_iff_not, not_lt] at hle ⊢
          push_cast
          linarith
        rw [e, hd]
        refine ⟨rfl, ?_⟩
        show isErrorStatus (if false = true then Status.success else
          if realArith.le s.opt.settings.maxLambda lambda = true then .illConditioned else .failed)
        rw [if_neg (by simp)]
        split <;> simp [isErrorStatus]
  · left
    have hsz := hL.gram_size J
    obtain ⟨d0, hd0⟩ := C85.solved hL hP (hcol hlin) (lambda := firstDamping s.opt.settings s1.opt.stats) hbJ (by linarith) (by linarith)
      (damped realArith (L.gram J) (firstDamping s.opt.settings s1.opt.stats)) hsz.1 hsz.2 (square_damped hL J _) r
    have hfail : ∀ l' b, ¬ FailedTrial realArith L s.opt.settings s1.heap s.graph.getAllVariables s.graph.getAllFactors r J
        (firstDamping s.opt.settings s1.opt.stats) l' b := by
      intro l' b hf'
      cases hf' with
      | unsolved h => exact h d0 hd0
      | worse h1 h2 h3 h4 =>
        rw [hf.rate] at h2
        have := (affine_gain hL hn hmem hp.noRepeats hs.affine hs.additive hsame.1 hlin hfirst h1 h2 h3).2 hg
        simp only [realArith, decide_eq_false_iff_not, not_lt] at h4 this
        push_cast at h4
        linarith
    cases htr with
    | retry h _ => exact absurd h (hfail _ _)
    | limit h => exact absurd h (hfail _ _)
    | @accepted _ _ d r' h' h1 h2 h3 h4 =>
      rcases hcase with ⟨dx, r'', ho', e⟩ | ⟨ho', _⟩
      · cases ho'
        rw [hf.rate] at h2
        have hlt := (affine_gain hL hn hmem hp.noRepeats hs.affine hs.additive hsame.1 hlin hfirst h1 h2 h3).2 hg
        refine ⟨fun ⟨_, _, hl2, hg2⟩ => hg (C129.gradient_zero hn hlin hl2 hg2), by rw [e]; exact hh.valid, ?_, ?_⟩
        · rw [e]
          rcases hh.status with h | h <;> simp [h, isErrorStatus]
        · rw [e]
          refine Real.sqrt_lt_sqrt ?_ hlt
          show 0 ≤ realArith.sqNorm r'
          rw [sqNorm_eq ((isResidual_length h3).trans hlin.rows.symm)]
          exact sq_nonneg_dot _
      · cases ho'

/-- After the first iteration of a run that does not start at the solution, the norm is below that at the start. -/
theorem C129.lower (hL : ExactLinAlg L) (hP : ExactPivots L) (env : Env ℝ V) {s : OptWorld ℝ V Fact} (hs : SolvableLinear s)
    (hf : FullDamped s.opt.settings) (hrest : Restorable s) (r0 : List ℝ) (hr : (computeResidual env s.heap s.graph).2 = .ok r0)
    (hne : ¬ Solution s.heap s.graph.getAllVariables s.graph.getAllFactors) (k : Nat) (s1 : OptWorld ℝ V Fact)
    (hit : Iterations realArith L env (k + 1) (loopStart realArith env s r0) s1) : s1.opt.stats.residualNorm < realArith.norm r0 := by
  have hp := hs.prepared
  induction k generalizing s1 with
  | zero =>
    obtain ⟨s2, hit2, ho, _⟩ := C66_continues realArith L env s hp.graph r0 0 s1 hit
    obtain ⟨ra, hra, hna⟩ := C129.reported env hp hf hrest r0 hr 0 s2 hit2
    obtain ⟨s3, r, ho3, hres, h⟩ := C129.iteration hL hP env hs hf hrest r0 hr 0 s2 hit2
    rw [ho] at ho3
    obtain rfl := (Prod.mk.inj ho3).1
    obtain rfl := isResidual_unique hra hres
    cases hit2
    rcases h with ⟨_, _, _, h⟩ | ⟨h, _⟩
    · rw [← hna] at h; exact h
    · exact absurd h hne
  | succ k ih =>
    obtain ⟨s2, hit2, ho, _⟩ := C66_continues realArith L env s hp.graph r0 (k + 1) s1 hit
    obtain ⟨ra, hra, hna⟩ := C129.reported env hp hf hrest r0 hr (k + 1) s2 hit2
    obtain ⟨s3, r, ho3, hres, h⟩ := C129.iteration hL hP env hs hf hrest r0 hr (k + 1) s2 hit2
    rw [ho] at ho3
    obtain rfl := (Prod.mk.inj ho3).1
    obtain rfl := isResidual_unique hra hres
    have h2 := ih s2 hit2
    rcases h with ⟨_, _, _, h⟩ | ⟨_, _, h, _⟩
    · rw [← hna] at h; exact h.trans h2
    · rw [h, ← hna]; exact h2

/-- **C129**. Levenberg-Marquardt with full steps on a well-conditioned linear problem that can be evaluated for all values always
returns. If the start values are not the solution, it reports SUCCESS and is valid, whatever the tolerances, the dampings and the
number of iterations. If they are the solution and an iteration is allowed, the run is reported as invalid, although the variables
have the best values. -/
theorem C129 (hL : ExactLinAlg L) (hP : ExactPivots L) (env : Env ℝ V) {s : OptWorld ℝ V Fact} (hs : SolvableLinear s)
    (hf : FullDamped s.opt.settings) (hrest : Restorable s) :
    ∃ t, optimize realArith L env s = (t, .ok ()) ∧
      (¬ Solution s.heap s.graph.getAllVariables s.graph.getAllFactors → t.opt.stats.valid = true ∧ t.opt.stats.status = .success) ∧
      (Solution s.heap s.graph.getAllVariables s.graph.getAllFactors → 0 < s.opt.settings.maxIterations →
        t.opt.stats.valid = false ∧ t.opt.stats.status ≠ .success ∧ t.heap = s.heap) := by
  have hp := hs.prepared
  obtain ⟨h0, pre, post, hw, hpre⟩ := hp.history
  have hlay := finalizedAfter_layout hw
  have hb0 : SameButFree s.heap s.heap s.graph.getAllVariables := ⟨fun _ => ⟨rfl, rfl, rfl⟩, fun _ _ => rfl⟩
  obtain ⟨r0, hr0⟩ := exists_isResidual (hs.evaluates.residual s.heap hb0)
  have hr : (computeResidual env s.heap s.graph).2 = .ok r0 := by
    obtain ⟨segs, h1, h2, rfl⟩ := hr0
    exact congrArg Prod.snd (residual_layout (env := env) hlay segs h1 h2)
  have hone := C129.iteration hL hP env hs hf hrest r0 hr
  obtain ⟨t, ht⟩ : ∃ t, optimize realArith L env s = (t, .ok ()) := by
    obtain ⟨o, hend, ⟨_, e⟩ | ⟨hu, _⟩⟩ := optimize_ends realArith L env s hp.graph hr
    · exact ⟨_, e⟩
    · cases hend with
      | budget => cases hu
      | @threw k s1 s2 _ hit ho => obtain ⟨s3, _, e, _⟩ := hone k s1 hit; rw [e] at ho; cases ho
      | @ub k s1 s2 _ hit ho => obtain ⟨s3, _, e, _⟩ := hone k s1 hit; rw [e] at ho; cases ho
      | check => cases hu
  refine ⟨t, ht, fun hne => ?_, fun hsol hpos => ?_⟩
  · rcases C66_ends realArith L env s hp.graph r0 hr t ht with ⟨k, s1, s2, _, hit, h⟩ | ⟨s1, hit, _, hv, he⟩
    · obtain ⟨ra, hra, hna⟩ := C129.reported env hp hf hrest r0 hr k s1 hit
      obtain ⟨s3, r, e, hres, hc⟩ := hone k s1 hit
      obtain rfl := isResidual_unique hra hres
      obtain ⟨hv, hst, hnorm⟩ : s3.opt.stats.valid = true ∧ ¬ isErrorStatus s3.opt.stats.status ∧
          s3.opt.stats.residualNorm ≤ s1.opt.stats.residualNorm := by
        rcases hc with ⟨_, h1, h2, h3⟩ | ⟨h1, _, h2, h3, _⟩
        · exact ⟨h1, h2, by rw [hna]; exact h3.le⟩
        · cases k with
          | zero => cases hit; exact absurd h1 hne
          | succ k =>
            have h4 := C129.lower hL hP env hs hf hrest r0 hr hne k s1 hit
            rw [hna] at h4
            obtain ⟨h5, h6⟩ := h3 (lt_of_not_ge fun hle => absurd h4 (not_lt.2 (Real.sqrt_le_sqrt hle)))
            exact ⟨h5, h6, by rw [hna, h2]⟩
      rcases h with ⟨ho, _⟩ | ⟨ho, _, herr, _⟩ | ⟨ho, _, _, status, valid, hs, h⟩
      · rw [e] at ho; cases ho
      · rw [e] at ho
        obtain rfl := (Prod.mk.inj ho).1
        exact absurd herr hst
      · rw [e] at ho
        obtain rfl := (Prod.mk.inj ho).1
        rw [h]
        have hnw : realArith.lt (realArith.sub s1.opt.stats.residualNorm s3.opt.stats.residualNorm) (realArith.lit 0) = false := by
          simp only [realArith, decide_eq_false_iff_not, not_lt]
          push_cast
          linarith
        cases hs with
        | smallStep => exact ⟨rfl, rfl⟩
        | worseThanStart _ h2 => rw [hnw] at h2; cases h2
        | worseThanBefore => exact ⟨rfl, rfl⟩
        | smallGain => exact ⟨rfl, rfl⟩
        | tenfold _ _ _ h4 =>
          have h5 := C66_norm_falls L env s hp.graph r0 k s1 hit
          have h6 : 0 ≤ realArith.norm r0 := Real.sqrt_nonneg _
          simp only [realArith, decide_eq_true_eq] at h4 h5 h6
          push_cast at h4
          linarith
    · rw [he]
      exact ⟨hv, rfl⟩
  · -- the first iteration ends the run
    obtain ⟨s3, r, e, hres, hc⟩ := hone 0 _ (.zero _)
    obtain rfl := isResidual_unique hr0 hres
    obtain ⟨hv, hst, hheap⟩ : s3.opt.stats.valid = false ∧ isErrorStatus s3.opt.stats.status ∧ s3.heap = s.heap := by
      rcases hc with ⟨h1, _⟩ | ⟨_, h1, _, _, h2⟩
      · exact absurd hsol h1
      · exact ⟨(h2 le_rfl).1, (h2 le_rfl).2, h1⟩
    have hno : ∀ k s1, ¬ Iterations realArith L env (k + 1) (loopStart realArith env s r0) s1 := by
      intro k
      induction k with
      | zero =>
        intro s1 hit
        obtain ⟨s2, hit2, ho, hv2, _⟩ := C66_continues realArith L env s hp.graph r0 0 s1 hit
        cases hit2
        rw [e] at ho
        obtain rfl := (Prod.mk.inj ho).1
        rw [hv] at hv2; cases hv2
      | succ k ih =>
        intro s1 hit
        obtain ⟨s2, hit2, _⟩ := C66_continues realArith L env s hp.graph r0 (k + 1) s1 hit
        exact ih s2 hit2
    have herr : ∀ st, isErrorStatus st → st ≠ .success := by
      intro st h he
      rw [he] at h
      simp [isErrorStatus] at h
    rcases C66_ends realArith L env s hp.graph r0 hr t ht with ⟨k, s1, s2, _, hit, h⟩ | ⟨s1, hit, _⟩
    · cases k with
      | succ k => exact absurd hit (hno k s1)
      | zero =>
        cases hit
        rcases h with ⟨ho, _⟩ | ⟨ho, h1, h2, h3, h4⟩ | ⟨ho, _, h1, _⟩
        · rw [e] at ho; cases ho
        · rw [e] at ho
          obtain rfl := (Prod.mk.inj ho).1
          exact ⟨by rw [h4]; exact hv, by rw [h4]; exact herr _ hst, by rw [h1, hheap]⟩
        · rw [e] at ho
          obtain rfl := (Prod.mk.inj ho).1
          exact absurd hst h1
    · obtain ⟨n, hn⟩ := Nat.exists_eq_succ_of_ne_zero (Nat.pos_iff_ne_zero.1 hpos)
      rw [hn] at hit
      exact absurd hit (hno n s1)

/-- **C129, how close the returned values are**: nothing is assumed about the run. With `μ` below the eigenvalues of `JᵀJ`, after
`n` reported iterations the distance to the solution is at most the product of the first `n` of the factors `λᵢ / (λᵢ + μ)` times
the distance at the start, where `λᵢ` is the damping if it falls in every iteration (C111). -/
theorem C129_close (hL : ExactLinAlg L) (hP : ExactPivots L) (env : Env ℝ V) {s : OptWorld ℝ V Fact} (hs : SolvableLinear s)
    {best : Heap V} {μ high : ℝ} (hl : C111.Linear s best μ high) (hpos : 0 < s.opt.settings.maxIterations)
    (hne : ¬ Solution s.heap s.graph.getAllVariables s.graph.getAllFactors) :
    ∃ t, optimize realArith L env s = (t, .ok ()) ∧ t.opt.stats.valid = true ∧ t.opt.stats.status = .success ∧
      apart s.heap s.graph.getAllVariables t.heap best ≤
        (∏ i ∈ Finset.range t.opt.stats.iteration,
          fallingDamping s.opt.settings i / (fallingDamping s.opt.settings i + μ)) ^ 2 *
          apart s.heap s.graph.getAllVariables s.heap best := by
  obtain ⟨t, ht, h, _⟩ := C129 hL hP env hs ⟨hl.method, hl.rate, hl.initial, hl.up, hl.max⟩ hl.restorable
  obtain ⟨hv, hst⟩ := h hne
  exact ⟨t, ht, hv, hst, C111_run hL hP env hl hpos ht hv⟩

end

theorem C129.full : FullDamped C110.lm := by
  obtain ⟨_, h2, h3, h4, _⟩ := C110.lm_positive
  exact ⟨rfl, by simp [C110.lm, Settings.default, realArith], h2, h3, h4⟩

/-- At the start values, both 0, the measurements 4, 7 and 1 are not fitted as well as possible. -/
theorem C129.not_solution : ¬ Solution (TinyWorld.heap (0 : ℝ) 0 1) [0, 1, 2] (TinyWorld.facs 4 7 2 3 1) := by
  intro h
  obtain ⟨r, J, hlin, hg⟩ := h
  have h := C129.gradient_zero (by decide) (C104.linearisedAt (0 : ℝ) 0 1 4 7 2 3 1) hlin hg
  obtain ⟨h1, h2, h3, h4, h5, h6⟩ := C111.coeffs
  have h := congrFun h ⟨0, Nat.two_pos⟩
  rw [gradient_apply] at h
  have h : ∑ a ∈ Finset.range 3, _ = (0 : ℝ) := h
  simp only [Finset.sum_range_succ, Finset.sum_range_zero] at h
  rw [h1, h2, h3] at h
  norm_num at h

/-- With the measurements 0, 0 and 0 they are. -/
theorem C129.at_solution : Solution (TinyWorld.heap (0 : ℝ) 0 0) [0, 1, 2] (TinyWorld.facs 0 0 2 3 1) := by
  refine ⟨_, _, C104.linearisedAt _ _ _ _ _ _ _ _, ?_⟩
  funext c
  rw [gradient_apply]
  show ∑ a ∈ Finset.range 3, _ = (0 : ℝ)
  simp [Finset.sum_range_succ]

example : ∃ t, optimize realArith Ldlt.linAlg (TinyWorld.env 0) (C118.start 1 4 7 C110.lm) = (t, .ok ()) ∧
    t.opt.stats.valid = true ∧ t.opt.stats.status = .success := by
  obtain ⟨t, ht, h, _⟩ := C129 Ldlt.exact Ldlt.exact_pivots (TinyWorld.env 0) (C121.solvable 1 4 7 C110.lm) C129.full (C110.restorable _)
  exact ⟨t, ht, h (by rw [C118.vars, C118.facs, C118.heap]; exact C129.not_solution)⟩

example : ∃ t, optimize realArith Ldlt.linAlg (TinyWorld.env 0) (C118.start 0 0 0 C110.lm) = (t, .ok ()) ∧
    t.opt.stats.valid = false ∧ t.opt.stats.status ≠ .success ∧ t.heap = TinyWorld.heap 0 0 0 := by
  obtain ⟨t, ht, _, h⟩ := C129 Ldlt.exact Ldlt.exact_pivots (TinyWorld.env 0) (C121.solvable 0 0 0 C110.lm) C129.full
    (fun _ => ⟨_, GenVar.restoresExactly, fun _ _ => trivial⟩)
  obtain ⟨h1, h2, h3⟩ := h (by rw [C118.vars, C118.facs, C118.heap]; exact C129.at_solution) C110.lm_positive.2.2.2.2.2
  exact ⟨t, ht, h1, h2, h3.trans (C118.heap ..)⟩

example : ∃ t, optimize realArith Ldlt.linAlg (TinyWorld.env 0) (C118.start 1 4 7 C110.lm) = (t, .ok ()) ∧
    t.opt.stats.valid = true ∧
    apart (C118.start 1 4 7 C110.lm).heap (C118.start 1 4 7 C110.lm).graph.getAllVariables t.heap
        (TinyWorld.heap (214 / 49 : ℝ) (271 / 49) 1) ≤
      (∏ i ∈ Finset.range t.opt.stats.iteration, fallingDamping C110.lm i / (fallingDamping C110.lm i + 2)) ^ 2 *
        apart (C118.start 1 4 7 C110.lm).heap (C118.start 1 4 7 C110.lm).graph.getAllVariables (C118.start 1 4 7 C110.lm).heap
          (TinyWorld.heap (214 / 49 : ℝ) (271 / 49) 1) := by
  obtain ⟨t, ht, hv, _, h⟩ := C129_close Ldlt.exact Ldlt.exact_pivots (TinyWorld.env 0) (C121.solvable 1 4 7 C110.lm)
    (show C111.Linear (C118.start 1 4 7 C110.lm) _ _ _ from C111.linear) C110.lm_positive.2.2.2.2.2
    (by rw [C118.vars, C118.facs, C118.heap]; exact C129.not_solution)
  exact ⟨t, ht, hv, h⟩

/-- In rational arithmetic: the run from 0, 0 succeeds, the run from the values which it would return in the end does not. -/
example :
    let run := fun a c => (optimize ToyOpt.rat Ldlt.linAlg (TinyWorld.env 0)
      (ToyOpt.start (TinyWorld.world a c 1 4 7 2 3 1) ToyCurved.lm)).1
    (run 0 0).opt.stats.valid = true ∧ (run 0 0).opt.stats.status = .success ∧
      (run (214 / 49) (271 / 49)).opt.stats.valid = false ∧ (run (214 / 49) (271 / 49)).opt.stats.status ≠ .success ∧
      ((run (214 / 49) (271 / 49)).heap 0).value = [214 / 49] := by decide +kernel

end Factorama.Props
