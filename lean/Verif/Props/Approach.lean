import Verif.Lemmas.FusionStep
import Verif.Props.Fusion
import Verif.Props.SolvableDamped

/-!
# Property C133: a variable that is measured directly goes straight to the weighted mean
-/

namespace Factorama.Props
open Spec Graph Opt Matrix

section
variable {V Fact : Type} [VarLike ℝ V] [LawfulVar ℝ V] {L : LinAlg ℝ Fact}

/-- Levenberg-Marquardt with positive dampings and a learning rate between 0 and 1. -/
structure Cautious (o : Settings ℝ) : Prop where
  method : o.method = .levenbergMarquardt
  positive : 0 < o.learningRate
  full : o.learningRate ≤ 1
  initial : 0 < o.initialLambda
  up : 0 < o.lambdaUp
  max : 0 < o.maxLambda

omit [LawfulVar ℝ V] in
theorem C133.precision_pos {facs : List (Factor ℝ V)} {v : VRef} {n : Nat} {K : Finset Nat} {p : Nat → List ℝ} {σ : Nat → ℝ}
    (hO : OnlyPriors facs v n K p σ) (hK : K.Nonempty) : 0 < precision K σ :=
  Finset.sum_pos (fun k hk => by
    have := (hO.prior k hk).2.1
    positivity) hK

/-- A step shrinks the distance from the mean by a factor. -/
theorem C133.factor {K : Finset Nat} {p : Nat → List ℝ} {σ : Nat → ℝ} {j : Nat} (hW : 0 < precision K σ) {l α x y : ℝ} (hl : 0 ≤ l)
    (h : (precision K σ + l) * (y - x) = -α * (precision K σ * x - ∑ k ∈ K, (p k).getD j 0 / σ k ^ 2)) :
    y - weightedMean K p σ j = (1 - α * (precision K σ / (precision K σ + l))) * (x - weightedMean K p σ j) := by
  have e : ∑ k ∈ K, (p k).getD j 0 / σ k ^ 2 = precision K σ * weightedMean K p σ j := by
    rw [weightedMean, mul_div_cancel₀ _ hW.ne']
  rw [e] at h
  generalize weightedMean K p σ j = m at *
  generalize precision K σ = W at *
  have h1 : W + l ≠ 0 := by positivity
  have h2 : y - x = -α * (W * x - W * m) / (W + l) := by rw [eq_div_iff h1, ← h]; ring
  have h3 : y = x + -α * (W * x - W * m) / (W + l) := by linarith
  rw [h3]
  field_simp
  ring

/-- One iteration of Levenberg-Marquardt: nothing changes, or the distance from the mean shrinks by a factor. -/
theorem C133.iteration (hL : ExactLinAlg L) (env : Env ℝ V) {s : OptWorld ℝ V Fact} (hp : Prepared s) (hf : Cautious s.opt.settings)
    (hrest : Restorable s) (r0 : List ℝ) (hr : (computeResidual env s.heap s.graph).2 = .ok r0) (k : Nat) (s1 s2 : OptWorld ℝ V Fact)
    (hit : Iterations realArith L env k (loopStart realArith env s r0) s1) (hstep : oneStep realArith L env s1 = (s2, .ok ()))
    {v : VRef} (hmem : v ∈ s.graph.getAllVariables) (hc : VarLike.isConst (s.heap v) = false)
    (hadd : AdditiveIncrements s.heap [v]) {K : Finset Nat} {p : Nat → List ℝ} {σ : Nat → ℝ}
    (hO : OnlyPriors s.graph.getAllFactors v (VarLike.size (s.heap v)) K p σ) (hK : K.Nonempty) :
    (s2.heap = s1.heap ∧ (s1.heap = s.heap → s2.opt.stats.valid = false ∧ isErrorStatus s2.opt.stats.status)) ∨
      ∃ θ, 0 < θ ∧ θ < 1 ∧ ∀ j, j < VarLike.size (s.heap v) →
        component (s2.heap v) j - weightedMean K p σ j = θ * (component (s1.heap v) j - weightedMean K p σ j) := by
  obtain ⟨h0, pre, post, hw, hpre⟩ := hp.history
  have hn : s.graph.getAllVariables.Nodup := (C111.closed hp).1
  have hb := C110.sameButFree env s hp hf.method hrest r0 hr k s1 hf.initial hf.up hf.max hit
  have hfirst := (C79.iteration env s hw hpre hp.ids hp.noRepeats hp.safe hp.proper hp.graph hf.method hrest hf.initial hf.up hf.max
    r0 hr hit).1
  have hW := C133.precision_pos hO hK
  obtain ⟨r, J, o, lambda, hlin, htr, ⟨dx, r', rfl, e⟩ | ⟨_, e1, n, e⟩⟩ := C67_levenberg_marquardt_partial realArith L env s hw hpre hp.ids
    hp.noRepeats hp.safe hp.proper hp.graph hf.method hrest r0 hr k s1 s2 hit hstep
  · right
    obtain ⟨l, hl, d, hsolv, rfl, hst, _⟩ := trials_accepted hf.up hf.max hfirst htr rfl
    obtain ⟨_, heq⟩ := damped_solution hL hl hsolv
    have hq : 0 < precision K σ / (precision K σ + l) := by positivity
    have hq1 : precision K σ / (precision K σ + l) < 1 := (div_lt_one (by positivity)).2 (by linarith)
    refine ⟨1 - s.opt.settings.learningRate * (precision K σ / (precision K σ + l)), ?_, ?_, fun j hj => ?_⟩
    · have := mul_lt_mul' hf.full hq1 hq.le one_pos
      linarith
    · have := mul_pos hf.positive hq
      linarith
    · exact C133.factor hW hl.le (prior_step hn hlin heq hst hb.1 hmem hc hadd hO hj)
  · left
    refine ⟨e1, fun hsame => ?_⟩
    have hr0 := evaluated_isResidual (finalizedAfter_layout hw) (computeResidual_evaluated hr)
    have hr1 := hlin.residual
    rw [hsame] at hr1
    obtain rfl := isResidual_unique hr0 hr1
    have hlt : realArith.lt (realArith.mul (realArith.lit (1 / 2)) (realArith.sqNorm r0))
        (realArith.mul (realArith.sqNorm r0) (realArith.lit (1 / 2))) = false := by
      simp only [realArith, decide_eq_false_iff_not, not_lt]
      rw [mul_comm]
    rw [e]
    refine ⟨hlt, ?_⟩
    show isErrorStatus (if _ = true then _ else _)
    rw [hlt, if_neg Bool.false_ne_true]
    split <;> simp [isErrorStatus]

/-- Where the variable is after some iterations. -/
theorem C133.along (hL : ExactLinAlg L) (env : Env ℝ V) {s : OptWorld ℝ V Fact} (hp : Prepared s) (hf : Cautious s.opt.settings)
    (hrest : Restorable s) (r0 : List ℝ) (hr : (computeResidual env s.heap s.graph).2 = .ok r0) {v : VRef}
    (hmem : v ∈ s.graph.getAllVariables) (hc : VarLike.isConst (s.heap v) = false)
    (hadd : AdditiveIncrements s.heap [v]) {K : Finset Nat} {p : Nat → List ℝ} {σ : Nat → ℝ}
    (hO : OnlyPriors s.graph.getAllFactors v (VarLike.size (s.heap v)) K p σ) (hK : K.Nonempty) (k : Nat) (s1 : OptWorld ℝ V Fact)
    (hit : Iterations realArith L env k (loopStart realArith env s r0) s1) :
    (k = 0 ∧ s1.heap = s.heap) ∨ ∃ θ, 0 < θ ∧ θ < 1 ∧ ∀ j, j < VarLike.size (s.heap v) →
      component (s1.heap v) j - weightedMean K p σ j = θ * (component (s.heap v) j - weightedMean K p σ j) := by
  induction k generalizing s1 with
  | zero => cases hit; exact .inl ⟨rfl, rfl⟩
  | succ k ih =>
    right
    obtain ⟨s2, hit2, ho, hv, _⟩ := C66_continues realArith L env s hp.graph r0 k s1 hit
    rcases C133.iteration hL env hp hf hrest r0 hr k s2 s1 hit2 ho hmem hc hadd hO hK with ⟨h1, h2⟩ | ⟨θ, h1, h2, h3⟩
    · rcases ih s2 hit2 with ⟨_, h4⟩ | h4
      · rw [(h2 h4).1] at hv; cases hv
      · rw [h1]; exact h4
    · rcases ih s2 hit2 with ⟨_, h4⟩ | ⟨θ', g1, g2, g3⟩
      · rw [h4] at h3
        exact ⟨θ, h1, h2, h3⟩
      · refine ⟨θ * θ', by positivity, ?_, fun j hj => by rw [h3 j hj, g3 j hj, mul_assoc]⟩
        have := mul_lt_mul' h2.le g2 g1.le one_pos
        linarith

/-- **C133**, Levenberg-Marquardt. In any graph, whatever it says about other variables: a valid run moves a variable that only priors
mention on the straight line towards the weighted mean of their values. It comes closer to it and neither reaches nor passes it (unless
it was there). -/
theorem C133 (hL : ExactLinAlg L) (env : Env ℝ V) {s t : OptWorld ℝ V Fact} (hp : Prepared s) (hf : Cautious s.opt.settings)
    (hrest : Restorable s) (hpos : 0 < s.opt.settings.maxIterations)
    (hret : optimize realArith L env s = (t, .ok ())) (hvalid : t.opt.stats.valid = true)
    {v : VRef} (hmem : v ∈ s.graph.getAllVariables) (hc : VarLike.isConst (s.heap v) = false)
    (hadd : AdditiveIncrements s.heap [v]) {K : Finset Nat} {p : Nat → List ℝ} {σ : Nat → ℝ}
    (hO : OnlyPriors s.graph.getAllFactors v (VarLike.size (s.heap v)) K p σ) (hK : K.Nonempty) :
    ∃ θ, 0 < θ ∧ θ < 1 ∧ ∀ j, j < VarLike.size (s.heap v) →
      component (t.heap v) j - weightedMean K p σ j = θ * (component (s.heap v) j - weightedMean K p σ j) := by
  obtain ⟨r0, k, s1, s2, hr, hit, ho, herr, hheap, hstat⟩ := C110.last env hp.graph hpos hret hvalid
  rcases C133.iteration hL env hp hf hrest r0 hr k s1 s2 hit ho hmem hc hadd hO hK with ⟨h1, h2⟩ | ⟨θ, h1, h2, h3⟩
  · rcases C133.along hL env hp hf hrest r0 hr hmem hc hadd hO hK k s1 hit with ⟨_, h4⟩ | h4
    · exfalso
      have h5 := herr (h2 h4).2
      rw [(h2 h4).1] at h5
      cases h5
    · rw [hheap, h1]; exact h4
  · rw [hheap]
    rcases C133.along hL env hp hf hrest r0 hr hmem hc hadd hO hK k s1 hit with ⟨_, h4⟩ | ⟨θ', g1, g2, g3⟩
    · rw [h4] at h3
      exact ⟨θ, h1, h2, h3⟩
    · refine ⟨θ * θ', by positivity, ?_, fun j hj => by rw [h3 j hj, g3 j hj, mul_assoc]⟩
      have := mul_lt_mul' h2.le g2 g1.le one_pos
      linarith

/-- **C133**, Gauss-Newton with any learning rate `α`: a valid run that reports `n` iterations multiplies the distance from the weighted
mean by `(1 - α) ^ n`. -/
theorem C133_gauss_newton (hL : ExactLinAlg L) (env : Env ℝ V) {s t : OptWorld ℝ V Fact} (hp : Prepared s)
    (hm : s.opt.settings.method = .gaussNewton) (hpos : 0 < s.opt.settings.maxIterations)
    (hret : optimize realArith L env s = (t, .ok ())) (hvalid : t.opt.stats.valid = true)
    {v : VRef} (hmem : v ∈ s.graph.getAllVariables) (hc : VarLike.isConst (s.heap v) = false)
    (hadd : AdditiveIncrements s.heap [v]) {K : Finset Nat} {p : Nat → List ℝ} {σ : Nat → ℝ}
    (hO : OnlyPriors s.graph.getAllFactors v (VarLike.size (s.heap v)) K p σ) (hK : K.Nonempty) :
    ∀ j, j < VarLike.size (s.heap v) → component (t.heap v) j - weightedMean K p σ j =
      (1 - s.opt.settings.learningRate) ^ t.opt.stats.iteration * (component (s.heap v) j - weightedMean K p σ j) := by
  obtain ⟨h0, pre, post, hw, hpre⟩ := hp.history
  have hn : s.graph.getAllVariables.Nodup := (C111.closed hp).1
  have hW := C133.precision_pos hO hK
  obtain ⟨r0, k, s1, s2, hr, hit, ho, herr, hheap, hstat⟩ := C110.last env hp.graph hpos hret hvalid
  -- one iteration
  have hone : ∀ k s1 s2, Iterations realArith L env k (loopStart realArith env s r0) s1 → oneStep realArith L env s1 = (s2, .ok ()) →
      (isErrorStatus s2.opt.stats.status → s2.opt.stats.valid = true) → s2.opt.stats.iteration = s1.opt.stats.iteration + 1 ∧
      ∀ j, j < VarLike.size (s.heap v) → component (s2.heap v) j - weightedMean K p σ j =
        (1 - s.opt.settings.learningRate) * (component (s1.heap v) j - weightedMean K p σ j) := by
    intro k s1 s2 hit ho herr
    have hb := C24.sameButFree L env s hw hpre hp.ids hp.noRepeats hp.safe hp.proper hp.graph hm r0 k s1 hit
    obtain ⟨r, J, hlin, ⟨_, href, _, e⟩ | ⟨d, r', hsol, hst, hres, e⟩⟩ :=
      C67_gauss_newton realArith L env s hw hpre hp.ids hp.noRepeats hp.safe hp.proper hp.graph hm r0 k s1 s2 hit ho
    · exfalso
      have := herr (by rw [e]; cases href <;> simp [isErrorStatus])
      rw [e] at this
      simp at this
    obtain ⟨f, hf, _, _, hs⟩ := hsol
    obtain ⟨d', h1, h2, h3, _⟩ := C25_gauss_newton hL J r f hf
    rw [hs] at h1
    obtain rfl := Option.some.inj h1
    have hN : ((jacobianMatrix J)ᵀ * jacobianMatrix J) *ᵥ asVec J.columns.length d + (0 : ℝ) • asVec J.columns.length d =
        -gradient J r := by rw [zero_smul, add_zero]; exact (h3 _).2 rfl
    refine ⟨by rw [e], fun j hj => ?_⟩
    have := C133.factor hW le_rfl (prior_step hn hlin hN hst hb.1 hmem hc hadd hO hj)
    rwa [add_zero, div_self hW.ne', mul_one] at this
  have hall : ∀ k s1, Iterations realArith L env k (loopStart realArith env s r0) s1 → s1.opt.stats.iteration = k ∧
      ∀ j, j < VarLike.size (s.heap v) → component (s1.heap v) j - weightedMean K p σ j =
        (1 - s.opt.settings.learningRate) ^ k * (component (s.heap v) j - weightedMean K p σ j) := by
    intro k
    induction k with
    | zero => intro s1 hit; cases hit; exact ⟨rfl, fun j _ => by rw [pow_zero, one_mul]; rfl⟩
    | succ k ih =>
      intro s1 hit
      obtain ⟨s2, hit2, ho, hv, _⟩ := C66_continues realArith L env s hp.graph r0 k s1 hit
      obtain ⟨a1, a2⟩ := ih s2 hit2
      obtain ⟨b1, b2⟩ := hone k s2 s1 hit2 ho fun _ => hv
      exact ⟨by rw [b1, a1], fun j hj => by rw [b2 j hj, a2 j hj, pow_succ']; ring⟩
  obtain ⟨a1, a2⟩ := hall k s1 hit
  obtain ⟨b1, b2⟩ := hone k s1 s2 hit ho herr
  intro j hj
  rw [hheap, hstat]
  show _ = _ ^ s2.opt.stats.iteration * _
  rw [b2 j hj, a2 j hj, b1, a1, pow_succ']
  ring

end

/-- The variable with the priors 4 (standard deviation 1/2) and 7 (standard deviation 1), started at 0, whatever the other variable is
told: a valid run with the default dampings ends between 0 and the mean 23/5. -/
example (q w : ℝ) (o : Settings ℝ) (hf : Cautious o) (hpos : 0 < o.maxIterations) (t : OptWorld ℝ (GenVar ℝ) (Ldlt.Fact ℝ))
    (hret : optimize realArith Ldlt.linAlg (TinyWorld.env 0) (C117.start q w o) = (t, .ok ())) (hvalid : t.opt.stats.valid = true) :
    0 < component (t.heap 0) 0 ∧ component (t.heap 0) 0 < 23 / 5 := by
  have hb := TinyGroups.built_direct (0 : ℝ) 0 1 4 7 q 2 1 w
  have hh : (C117.start q w o).heap = TinyWorld.heap 0 0 1 := hb.heap
  have hs : VarLike.size (F := ℝ) ((C117.start q w o).heap 0) = 1 := by rw [hh]; rfl
  have hO : OnlyPriors (C117.start q w o).graph.getAllFactors 0 (VarLike.size (F := ℝ) ((C117.start q w o).heap 0)) {0, 1}
      C117.values C117.deviations := by
    rw [hs, show (C117.start q w o).graph.getAllFactors = _ from hb.facs]
    exact C117.onlyPriors q w
  obtain ⟨θ, h1, h2, h3⟩ := C133 Ldlt.exact _ (C117.prepared q w o) hf (fun _ => ⟨_, GenVar.restoresExactly, fun _ _ => trivial⟩) hpos hret
    hvalid (by rw [show (C117.start q w o).graph.getAllVariables = _ from hb.vars]; simp) (by rw [hh]; rfl)
    (C24_generic_increments _ _) hO ⟨0, by simp⟩
  have h := h3 0 (by rw [hs]; omega)
  have e : weightedMean {0, 1} C117.values C117.deviations 0 = 23 / 5 := by
    norm_num [weightedMean, precision, C117.values, C117.deviations]
  have e0 : component ((C117.start q w o).heap 0) 0 = (0 : ℝ) := by rw [hh]; simp [component, TinyWorld.heap, VarLike.value]
  rw [e, e0] at h
  constructor <;> nlinarith

/-- In rational arithmetic, with Levenberg-Marquardt from 0: valid, and close to 23/5 but below it. -/
example :
    let run := (optimize ToyOpt.rat Ldlt.linAlg (TinyWorld.env 0)
      (ToyOpt.start (TinyGroups.world 0 0 1 (TinyGroups.direct 4 7 9 2 1 3)) { ToyOpt.gn with method := .levenbergMarquardt })).1
    run.opt.stats.valid = true ∧ (run.heap 0).value.all (fun x => 22 / 5 < x && x < 23 / 5) = true := by decide +kernel

/-- And with Gauss-Newton and learning rate 1/2, stopped after three iterations: 7/8 of the way. -/
example :
    let run := (optimize ToyOpt.rat Ldlt.linAlg (TinyWorld.env 0)
      (ToyOpt.start (TinyGroups.world 0 0 1 (TinyGroups.direct 4 7 9 2 1 3)) { ToyOpt.gn with learningRate := 1 / 2, maxIterations := 3 })).1
    run.opt.stats.valid = true ∧ (run.heap 0).value = [23 / 5 * (7 / 8)] := by decide +kernel

end Factorama.Props
