import Verif.Lemmas.SolvableLinear
import Verif.Props.Unbiased
import Verif.Props.LinearConvergence

/-!
# Property C121: well-conditioned linear problems are always solved
-/

namespace Factorama.Props
open Spec Graph Opt Matrix

section
variable {V Fact : Type} [VarLike ℝ V] [LawfulVar ℝ V] {L : LinAlg ℝ Fact}

/-- Every iteration returns, keeps the run valid and does not raise the norm of the residual. -/
theorem C121.step (hL : ExactLinAlg L) (hP : ExactPivots L) (env : Env ℝ V) {s : OptWorld ℝ V Fact} (hs : SolvableLinear s)
    (hm : s.opt.settings.method = .gaussNewton) (hpos : 0 ≤ s.opt.settings.learningRate) (hlr : s.opt.settings.learningRate ≤ 2)
    (r0 : List ℝ) (hr0 : (computeResidual env s.heap s.graph).2 = .ok r0) (k : Nat) (s1 : OptWorld ℝ V Fact)
    (hit : Iterations realArith L env k (loopStart realArith env s r0) s1) :
    ∃ s2, oneStep realArith L env s1 = (s2, .ok ()) ∧ s2.opt.stats.valid = true ∧ ¬ isErrorStatus s2.opt.stats.status ∧
      s2.opt.stats.residualNorm ≤ s1.opt.stats.residualNorm := by
  have hp := hs.prepared
  obtain ⟨h0, pre, post, hw, hpre⟩ := hp.history
  obtain ⟨hn, hmem⟩ := C111.closed hp
  have hsame := C24.sameButFree L env s hw hpre hp.ids hp.noRepeats hp.safe hp.proper hp.graph hm r0 k s1 hit
  obtain ⟨r00, J0, hlin0, low, high, hb0, hlow, hhigh⟩ := hs.conditioned
  have hlow' : 0 < low := lt_of_lt_of_le (by positivity) hlow
  obtain ⟨r, hlin⟩ := affine_linearised hp.proper hs.affine hs.evaluates hsame hlin0
  have hfree : 0 < freeTotal s1.heap s.graph.getAllVariables := by rw [hsame.1.freeTotal_eq]; exact hs.free
  have hcol : ∀ {r J}, Linearised s1.heap s.graph.getAllVariables s.graph.getAllFactors r J → 0 < J.columns.length :=
    fun h => by rw [h.columns]; exact hfree
  have hbet : ∀ {r J}, Linearised s1.heap s.graph.getAllVariables s.graph.getAllFactors r J → WellConditioned J :=
    fun h => ⟨low, high, C111.between hn hmem hp.noRepeats hs.affine hsame.1 hlin0 h hb0, hlow, hhigh⟩
  obtain ⟨s2, ho⟩ := C67_gauss_newton_returns realArith L env s hw hpre hp.ids hp.noRepeats hp.safe hp.graph hm r0 k s1 hit r J0 hlin
    (free_of_between hn hlin hlow' hb0 hfree)
    (fun J f hJ hf e => by
      have := hL.diagonal _ f hf
      rw [e, (hL.gram_size J).1] at this
      have := hcol hJ
      simp at *
      omega)
    (fun J d hJ hd => by
      obtain ⟨f, hf, _, _, hd⟩ := hd
      obtain ⟨d', h1, h2, _⟩ := C25_gauss_newton hL J r f hf
      rw [hd] at h1
      obtain rfl := Option.some.inj h1
      obtain ⟨h', hst⟩ := exists_stepped hs.evaluates hsame (d := realArith.scale s.opt.settings.learningRate d)
        (by rw [← hJ.columns, ← h2]; simp [Arith.scale])
      obtain ⟨r', hr'⟩ := exists_isResidual (hs.evaluates.residual h'
        (SameButFree.trans hsame ⟨stepped_shape hst, fun q hq => (hst q).2 hq⟩))
      exact ⟨h2, h', r', hst, hr'⟩)
  refine ⟨s2, ho, ?_⟩
  have hh := iterations_head hit hp.graph rfl rfl rfl
  obtain ⟨rb, hrb, hbn⟩ := C24.reported L env s hw hpre hp.ids hp.noRepeats hp.safe hp.proper hp.graph hm r0 hr0 k s1 hit
  obtain ⟨r1, J, hJ, ⟨status, href, _⟩ | ⟨d, r', hd, hst, hr', e⟩⟩ :=
    C67_gauss_newton realArith L env s hw hpre hp.ids hp.noRepeats hp.safe hp.proper hp.graph hm r0 k s1 s2 hit ho
  · exact absurd (hbet hJ) (C85_refused_partial hL hP (hcol hJ) r1 status href)
  · obtain rfl := isResidual_unique hrb hJ.residual
    refine ⟨by rw [e]; exact hh.valid, ?_, ?_⟩
    · rw [e]
      rcases hh.status with h | h <;> simp [h, isErrorStatus]
    · obtain ⟨f, hf, _, _, hd⟩ := hd
      obtain ⟨d', h1, h2, h3, _⟩ := C25_gauss_newton hL J rb f hf
      rw [hd] at h1
      obtain rfl := Option.some.inj h1
      rw [e, hbn]
      refine Real.sqrt_le_sqrt ?_
      show realArith.sqNorm r' ≤ realArith.sqNorm rb
      have hbt : SameButFree s1.heap s2.heap s.graph.getAllVariables := ⟨stepped_shape hst, fun q hq => (hst q).2 hq⟩
      rw [sqNorm_eq ((isResidual_length hr').trans hJ.rows.symm), sqNorm_eq ((isResidual_length hrb).trans hJ.rows.symm)]
      refine partial_step_cost (jacobianMatrix J) _ _ (asVec J.columns.length d) hpos hlr ((h3 _).2 rfl) ?_
      have hsc : ∀ c, (realArith.scale s.opt.settings.learningRate d).getD c 0 = s.opt.settings.learningRate * d.getD c 0 := by
        intro c
        simp only [Arith.scale, realArith, List.getD_eq_getElem?_getD, List.getElem?_map]
        cases d[c]? <;> simp [mul_comm]
      funext a
      rw [Pi.add_apply, asVec, affine_residual hn hmem hp.noRepeats hs.affine hsame.1 hbt hJ hr'
        (x := fun c => (realArith.scale s.opt.settings.learningRate d).getD c 0) ?_ (hJ.rows ▸ a.2), asVec, mulVec, dotProduct,
        ← hJ.columns, Finset.sum_range]
      · congr 1
        refine Finset.sum_congr rfl fun c _ => ?_
        rw [hsc]
        rfl
      · intro q hq hc j hj
        have e := hs.additive s1.heap hsame.1 q hq ((hsame.1 q).2.1.symm.trans hc) _ _ ((hst q).1 ⟨hq, hc⟩) j
          (by rw [← (hsame.1 q).2.2]; exact hj)
        rw [e, add_sub_cancel_left, partOf_getD _ _ _ _ hj]

/-- **C121**, for any learning rate from 0 to 2. Gauss-Newton on a well-conditioned linear problem that can be evaluated for all
values always returns, reports SUCCESS and is valid, whatever the start values, the tolerances and the number of iterations. -/
theorem C121_returns (hL : ExactLinAlg L) (hP : ExactPivots L) (env : Env ℝ V) {s : OptWorld ℝ V Fact} (hs : SolvableLinear s)
    (hm : s.opt.settings.method = .gaussNewton) (hpos : 0 ≤ s.opt.settings.learningRate) (hlr : s.opt.settings.learningRate ≤ 2) :
    ∃ t, optimize realArith L env s = (t, .ok ()) ∧ t.opt.stats.valid = true ∧ t.opt.stats.status = .success := by
  have hp := hs.prepared
  obtain ⟨h0, pre, post, hw, hpre⟩ := hp.history
  have hlay := finalizedAfter_layout hw
  have hb0 : SameButFree s.heap s.heap s.graph.getAllVariables := ⟨fun _ => ⟨rfl, rfl, rfl⟩, fun _ _ => rfl⟩
  obtain ⟨r0, hr0⟩ := exists_isResidual (hs.evaluates.residual s.heap hb0)
  have hr : (computeResidual env s.heap s.graph).2 = .ok r0 := by
    obtain ⟨segs, h1, h2, rfl⟩ := hr0
    exact congrArg Prod.snd (residual_layout (env := env) hlay segs h1 h2)
  have hone := C121.step hL hP env hs hm hpos hlr r0 hr
  obtain ⟨t, ht⟩ : ∃ t, optimize realArith L env s = (t, .ok ()) := by
    obtain ⟨o, hend, ⟨_, e⟩ | ⟨hu, _⟩⟩ := optimize_ends realArith L env s hp.graph hr
    · exact ⟨_, e⟩
    · cases hend with
      | budget => cases hu
      | @threw k s1 s2 _ hit ho => obtain ⟨s3, e, _⟩ := hone k s1 hit; rw [e] at ho; cases ho
      | @ub k s1 s2 _ hit ho => obtain ⟨s3, e, _⟩ := hone k s1 hit; rw [e] at ho; cases ho
      | check => cases hu
  refine ⟨t, ht, ?_⟩
  rcases C66_ends realArith L env s hp.graph r0 hr t ht with ⟨k, s1, s2, _, hit, h⟩ | ⟨s1, hit, _, hv, he⟩
  · obtain ⟨s3, e, hv, hst, hnorm⟩ := hone k s1 hit
    rcases h with ⟨ho, _⟩ | ⟨ho, _, herr, _⟩ | ⟨ho, _, _, status, valid, hs, h⟩
    · rw [e] at ho; cases ho
    · rw [e] at ho
      obtain rfl := (Prod.mk.inj ho).1
      exact absurd herr hst
    · rw [e] at ho
      obtain rfl := (Prod.mk.inj ho).1
      rw [h]
      have hnw : realArith.lt (realArith.sub s1.opt.stats.residualNorm s3.opt.stats.residualNorm) (realArith.lit 0) = false := by
        simp only [realArith, decide_eq_false_iff_not, not_lt]
        push_cast
        linarith
      cases hs with
      | smallStep => exact ⟨rfl, rfl⟩
      | worseThanStart _ h2 => rw [hnw] at h2; cases h2
      | worseThanBefore => exact ⟨rfl, rfl⟩
      | smallGain => exact ⟨rfl, rfl⟩
      | tenfold _ _ _ h4 =>
        have h5 := C66_norm_falls L env s hp.graph r0 k s1 hit
        have h6 : 0 ≤ realArith.norm r0 := Real.sqrt_nonneg _
        simp only [realArith, decide_eq_true_eq] at h4 h5 h6
        push_cast at h4
        linarith
  · rw [he]
    exact ⟨hv, rfl⟩

/-- **C121**. With learning rate 1, at least one iteration allowed and a positive step tolerance, Gauss-Newton on a well-conditioned
linear problem that can be evaluated for all values always returns, reports SUCCESS and is valid after at most two iterations, and
ends at the only values of the free variables with the smallest sum of squares: at all others it is larger. -/
theorem C121 (hL : ExactLinAlg L) (hP : ExactPivots L) (env : Env ℝ V) {s : OptWorld ℝ V Fact} (hs : SolvableLinear s)
    (hm : s.opt.settings.method = .gaussNewton) (hlr : s.opt.settings.learningRate = 1) (hpos : 0 < s.opt.settings.maxIterations)
    (htol : 0 < s.opt.settings.stepTolerance) :
    ∃ t, optimize realArith L env s = (t, .ok ()) ∧ t.opt.stats.valid = true ∧ t.opt.stats.status = .success ∧
      t.opt.stats.iteration ≤ 2 ∧ SameButFree s.heap t.heap s.graph.getAllVariables ∧
      ∃ r', IsResidual t.heap s.graph.getAllFactors r' ∧
        ∀ y r, SameButFree s.heap y s.graph.getAllVariables → IsResidual y s.graph.getAllFactors r →
          realArith.sqNorm r' ≤ realArith.sqNorm r ∧
          (realArith.sqNorm r ≤ realArith.sqNorm r' → ∀ q ∈ s.graph.getAllVariables, VarLike.isConst (s.heap q) = false →
            ∀ j, j < VarLike.size (s.heap q) → component (y q) j = component (t.heap q) j) := by
  have hp := hs.prepared
  obtain ⟨h0, pre, post, hw, hpre⟩ := hp.history
  obtain ⟨t, ht, hv, hst⟩ := C121_returns hL hP env hs hm (by rw [hlr]; norm_num) (by rw [hlr]; norm_num)
  obtain ⟨_, hit, r', hr', hmin⟩ := C24_run hL env s hw hpre hp.ids hp.noRepeats hp.safe hp.proper hp.graph hm hlr hpos htol
    hs.affine hs.additive t ht hv
  obtain ⟨h, r1, J, r2, hb, hlin, hu, hbt, hr2, hgrad, key⟩ := C118_error hL env hp hm hlr hpos ht hv hs.affine hs.additive
  obtain rfl := isResidual_unique hr' hr2
  refine ⟨t, ht, hv, hst, hit, hbt, r', hr', fun y r hy hr => ⟨hmin y r hy hr, fun hle q hq hc j hj => ?_⟩⟩
  obtain ⟨e, h1, _, h3⟩ := key y r hy hr
  have hz : (fun c : Fin J.columns.length => e c) = 0 := by
    rw [sqNorm_eq ((isResidual_length hr').trans hlin.rows.symm), sqNorm_eq ((isResidual_length hr).trans hlin.rows.symm)] at hle
    have h4 : asVec J.rows r = asVec J.rows r' - jacobianMatrix J *ᵥ fun c : Fin J.columns.length => e c := by
      rw [h3, add_sub_cancel_right]
    have h5 : (jacobianMatrix J *ᵥ fun c : Fin J.columns.length => e c) ⬝ᵥ asVec J.rows r' = 0 := by
      rw [dotProduct_comm, dotProduct_mulVec, ← mulVec_transpose, hgrad, zero_dotProduct]
    rw [h4, sub_dotProduct, dotProduct_sub, dotProduct_sub, h5, dotProduct_comm (asVec J.rows r') (jacobianMatrix J *ᵥ _), h5] at hle
    have h6 : (jacobianMatrix J *ᵥ fun c : Fin J.columns.length => e c) = 0 := by
      refine dotProduct_self_eq_zero.1 (le_antisymm (by linarith) (Finset.sum_nonneg fun i _ => mul_self_nonneg _))
    have h7 := congrArg (fun x => ((jacobianMatrix J)ᵀ * jacobianMatrix J)⁻¹ *ᵥ ((jacobianMatrix J)ᵀ *ᵥ x)) h6
    rwa [mulVec_mulVec, mulVec_mulVec, Matrix.mul_assoc, nonsing_inv_mul _ ((isUnit_iff_isUnit_det _).1 hu), one_mulVec, mulVec_zero, mulVec_zero] at h7
  have hcol : colStart s.heap s.graph.getAllVariables q + j < J.columns.length := by
    rw [hlin.columns, hb.1.freeTotal_eq]
    exact C119.column hq hc hj
  have h8 := h1 q hq hc j hj
  have h9 : e (colStart s.heap s.graph.getAllVariables q + j) = 0 := congrFun hz ⟨_, hcol⟩
  linarith

/-! ### The course of a run -/

/-- One iteration leads a part `learning_rate` of the way to the solution. -/
theorem C122.step (hL : ExactLinAlg L) (env : Env ℝ V) {s : OptWorld ℝ V Fact} (hp : Prepared s)
    (hm : s.opt.settings.method = .gaussNewton) (haff : ∀ f ∈ s.graph.getAllFactors, ∃ B, AffineFactor s.heap f B)
    (hadd : AdditiveIncrements s.heap s.graph.getAllVariables) {best : Heap V}
    (hbest : SameButFree s.heap best s.graph.getAllVariables)
    (hsol : Solution best s.graph.getAllVariables s.graph.getAllFactors) (r0 : List ℝ) (k : Nat) (s1 s2 : OptWorld ℝ V Fact)
    (hit : Iterations realArith L env k (loopStart realArith env s r0) s1) (ho : oneStep realArith L env s1 = (s2, .ok ()))
    (hv : s2.opt.stats.valid = true) :
    s2.opt.stats.iteration = k + 1 ∧
    ∀ q ∈ s.graph.getAllVariables, VarLike.isConst (s.heap q) = false → ∀ j, j < VarLike.size (s.heap q) →
      component (s2.heap q) j - component (best q) j =
        (1 - s.opt.settings.learningRate) * (component (s1.heap q) j - component (best q) j) := by
  obtain ⟨h0, pre, post, hw, hpre⟩ := hp.history
  obtain ⟨hn, hmem⟩ := C111.closed hp
  have hb := C24.sameButFree L env s hw hpre hp.ids hp.noRepeats hp.safe hp.proper hp.graph hm r0 k s1 hit
  obtain ⟨r, J, hlin, ⟨_, _, _, e⟩ | ⟨d, r', ⟨f, hf, _, _, hd⟩, hst, _, e⟩⟩ :=
    C67_gauss_newton realArith L env s hw hpre hp.ids hp.noRepeats hp.safe hp.proper hp.graph hm r0 k s1 s2 hit ho
  · rw [e] at hv; cases hv
  refine ⟨by rw [e, ← (iterations_head hit hp.graph rfl rfl rfl).iteration], ?_⟩
  obtain ⟨d', h1, h2, h3, _⟩ := C25_gauss_newton hL J r f hf
  rw [hd] at h1
  obtain rfl := Option.some.inj h1
  have hsz := hL.gram_size J
  have hu := hL.invertible _ f (hsz.2.trans hsz.1.symm) (by rw [hsz.1, hL.gram]; exact gram_symm _) hf
  rw [hsz.1, hL.gram] at hu
  -- the full step ends at the solution
  have hbb := C118.back hb hbest
  obtain ⟨x, hx⟩ := exists_stacked s1.heap s.graph.getAllVariables hn (fun q j => component (best q) j - component (s1.heap q) j)
  have hx' : ∀ q ∈ s.graph.getAllVariables, VarLike.isConst (s1.heap q) = false → ∀ j, j < VarLike.size (s1.heap q) →
      x (colStart s1.heap s.graph.getAllVariables q + j) = component (best q) j - component (s1.heap q) j :=
    fun q hq hc j hj => hx q hq j (by rw [freeSize_of_nonconst hc]; exact hj)
  obtain ⟨rs, Js, hlins, hgs⟩ := hsol
  have hres : asVec J.rows rs = asVec J.rows r + jacobianMatrix J *ᵥ fun c : Fin J.columns.length => x c := by
    funext a
    rw [Pi.add_apply, asVec, affine_residual hn hmem hp.noRepeats haff hb.1 hbb hlin hlins.residual hx' (hlin.rows ▸ a.2), asVec,
      mulVec, dotProduct, ← hlin.columns, Finset.sum_range]
    rfl
  have hg0 : (jacobianMatrix J)ᵀ *ᵥ asVec J.rows rs = 0 := by
    funext c
    have hc2 : (c : Nat) < Js.columns.length := by
      have := c.2
      have e : Js.columns.length = J.columns.length := by rw [hlins.columns, hbb.1.freeTotal_eq, ← hlin.columns]
      omega
    have e := congrFun hgs ⟨c, hc2⟩
    rw [gradient_apply, Pi.zero_apply] at e
    show gradient J rs c = 0
    rw [gradient_apply, hlin.rows, ← hlins.rows]
    refine Eq.trans (Finset.sum_congr rfl fun a ha => ?_) e
    rw [affine_coeff hn hmem hp.noRepeats haff hb.1 hbest.1 hlin hlins (by rw [← hlins.rows]; simpa using ha)
      (hlin.columns ▸ c.2)]
  have hdx : asVec J.columns.length d = fun c : Fin J.columns.length => x c := by
    have h4 := (h3 _).2 rfl
    rw [hres, mulVec_add, mulVec_mulVec] at hg0
    have h5 : ((jacobianMatrix J)ᵀ * jacobianMatrix J) *ᵥ asVec J.columns.length d =
        ((jacobianMatrix J)ᵀ * jacobianMatrix J) *ᵥ fun c : Fin J.columns.length => x c := by
      rw [h4]
      exact (eq_neg_of_add_eq_zero_right hg0).symm
    have h6 := congrArg (((jacobianMatrix J)ᵀ * jacobianMatrix J)⁻¹ *ᵥ ·) h5
    rwa [mulVec_mulVec, mulVec_mulVec, nonsing_inv_mul _ ((isUnit_iff_isUnit_det _).1 hu), one_mulVec, one_mulVec] at h6
  intro q hq hc j hj
  have hc1 := (hb.1 q).2.1.trans hc
  have hj1 : j < VarLike.size (s1.heap q) := by rw [(hb.1 q).2.2]; exact hj
  have e1 := hadd s1.heap hb.1 q hq hc _ _ ((hst q).1 ⟨hq, hc1⟩) j hj
  have hcol : colStart s1.heap s.graph.getAllVariables q + j < J.columns.length := by
    rw [hlin.columns]
    exact C119.column hq hc1 hj1
  have e2 := congrFun hdx ⟨_, hcol⟩
  dsimp only [asVec] at e2
  rw [hx' q hq hc1 j hj1] at e2
  have hsc : (realArith.scale s.opt.settings.learningRate d).getD (colStart s1.heap s.graph.getAllVariables q + j) 0 =
      s.opt.settings.learningRate * d.getD (colStart s1.heap s.graph.getAllVariables q + j) 0 := by
    simp only [Arith.scale, realArith, List.getD_eq_getElem?_getD, List.getElem?_map]
    cases d[colStart s1.heap s.graph.getAllVariables q + j]? <;> simp [mul_comm]
  rw [e1, partOf_getD _ _ _ _ hj1, hsc, e2]
  ring

/-- **C122**, iterations. In a linear problem, after `k` iterations of Gauss-Newton with any learning rate `η` every component of
every free variable is at `(1 - η)ᵏ` times its initial distance from the solution, on the same side. -/
theorem C122_iterations (hL : ExactLinAlg L) (env : Env ℝ V) {s : OptWorld ℝ V Fact} (hp : Prepared s)
    (hm : s.opt.settings.method = .gaussNewton) (haff : ∀ f ∈ s.graph.getAllFactors, ∃ B, AffineFactor s.heap f B)
    (hadd : AdditiveIncrements s.heap s.graph.getAllVariables) {best : Heap V}
    (hbest : SameButFree s.heap best s.graph.getAllVariables)
    (hsol : Solution best s.graph.getAllVariables s.graph.getAllFactors) (r0 : List ℝ) (k : Nat) (s1 : OptWorld ℝ V Fact)
    (hit : Iterations realArith L env k (loopStart realArith env s r0) s1) :
    ∀ q ∈ s.graph.getAllVariables, VarLike.isConst (s.heap q) = false → ∀ j, j < VarLike.size (s.heap q) →
      component (s1.heap q) j - component (best q) j =
        (1 - s.opt.settings.learningRate) ^ k * (component (s.heap q) j - component (best q) j) := by
  induction k generalizing s1 with
  | zero => cases hit; intro q _ _ j _; rw [pow_zero, one_mul]; rfl
  | succ k ih =>
    obtain ⟨s2, hit2, ho, hv, _⟩ := C66_continues realArith L env s hp.graph r0 k s1 hit
    intro q hq hc j hj
    rw [(C122.step hL env hp hm haff hadd hbest hsol r0 k s2 s1 hit2 ho hv).2 q hq hc j hj, ih s2 hit2 q hq hc j hj, pow_succ]
    ring

/-- **C122**. A Gauss-Newton run with a learning rate `η` from 0 to 2 on a well-conditioned linear problem returns, is valid,
reports SUCCESS, and ends with every component of every free variable at `(1 - η)ⁿ` times its initial distance from the solution,
where `n` is the reported number of iterations. -/
theorem C122 (hL : ExactLinAlg L) (hP : ExactPivots L) (env : Env ℝ V) {s : OptWorld ℝ V Fact} (hs : SolvableLinear s)
    (hm : s.opt.settings.method = .gaussNewton) (h0 : 0 ≤ s.opt.settings.learningRate) (h2 : s.opt.settings.learningRate ≤ 2)
    (hpos : 0 < s.opt.settings.maxIterations) {best : Heap V} (hbest : SameButFree s.heap best s.graph.getAllVariables)
    (hsol : Solution best s.graph.getAllVariables s.graph.getAllFactors) :
    ∃ t, optimize realArith L env s = (t, .ok ()) ∧ t.opt.stats.valid = true ∧ t.opt.stats.status = .success ∧
      ∀ q ∈ s.graph.getAllVariables, VarLike.isConst (s.heap q) = false → ∀ j, j < VarLike.size (s.heap q) →
        component (t.heap q) j - component (best q) j =
          (1 - s.opt.settings.learningRate) ^ t.opt.stats.iteration * (component (s.heap q) j - component (best q) j) := by
  have hp := hs.prepared
  obtain ⟨t, ht, hv, hst⟩ := C121_returns hL hP env hs hm h0 h2
  obtain ⟨r0, k, s1, s2, hr, hit, ho, herr, hheap, hstat⟩ := C110.last env hp.graph hpos ht hv
  refine ⟨t, ht, hv, hst, fun q hq hc j hj => ?_⟩
  have hv2 : s2.opt.stats.valid = true := by
    obtain ⟨s3, e, hv3, _⟩ := C121.step hL hP env hs hm h0 h2 r0 hr k s1 hit
    rw [ho] at e
    obtain rfl := (Prod.mk.inj e).1
    exact hv3
  obtain ⟨hi, hc2⟩ := C122.step hL env hp hm hs.affine hs.additive hbest hsol r0 k s1 s2 hit ho hv2
  have hi2 : t.opt.stats.iteration = k + 1 := by rw [hstat, hi]
  rw [hheap, hi2, hc2 q hq hc j hj,
    C122_iterations hL env hp hm hs.affine hs.additive hbest hsol r0 k s1 hit q hq hc j hj, pow_succ]
  ring
end

/-! ### Problems made of generic variables -/

/-- **C121**, generic variables, priors and differences of matching sizes: any graph made of them is a linear problem that can be
evaluated for all values. What remains to be assumed is that it is well conditioned. -/
theorem C121_generic {Fact : Type} {s : OptWorld ℝ (GenVar ℝ) Fact} (hp : Prepared s)
    (hf : ∀ f ∈ s.graph.getAllFactors, SizedGeneric s.heap f) (hfree : 0 < freeTotal s.heap s.graph.getAllVariables)
    (hc : ∃ r J, Linearised s.heap s.graph.getAllVariables s.graph.getAllFactors r J ∧ WellConditioned J) : SolvableLinear s where
  prepared := hp
  affine f hf' := by
    cases hf f hf' with
    | prior id r prior w _ => exact C24_generic_prior ..
    | between id a b m n w _ _ hm => exact C24_generic_between _ _ _ _ _ _ _ hm
  additive := C24_generic_increments _ _
  free := hfree
  conditioned := hc
  evaluates := by
    have hlen : ∀ {h : Heap (GenVar ℝ)}, SameButFree s.heap h s.graph.getAllVariables → ∀ q, (h q).value.length = (s.heap q).value.length :=
      fun hb q => (hb.1 q).2.2
    refine ⟨fun h hb f hf' => ?_, fun h hb f hf' => ?_, fun h hb q _ _ x hx => ?_⟩
    · cases hf f hf' with
      | prior id r prior w hr =>
        have e : (VarLike.value (h r) : List ℝ).length = prior.length := (hlen hb r).trans hr
        simp only [genericPrior, vecSub, if_pos e]
        exact ⟨_, rfl, by simp [e]⟩
      | between id a b m n w ha hb' hm =>
        have e1 : (VarLike.value (h b) : List ℝ).length = (VarLike.value (h a) : List ℝ).length :=
          ((hlen hb b).trans hb').trans ((hlen hb a).trans ha).symm
        have e2 : (VarLike.value (h b) : List ℝ).length = n := (hlen hb b).trans hb'
        have e3 : (VarLike.value (h m) : List ℝ).length = n := (hlen hb m).trans hm
        have e4 : (List.zipWith (· - ·) (VarLike.value (h b) : List ℝ) (VarLike.value (h a))).length =
            (VarLike.value (h m) : List ℝ).length := by
          rw [List.length_zipWith, ← e1, e2, e3, Nat.min_self]
        simp only [genericBetween, vecSub, if_pos e1, if_pos e4]
        exact ⟨_, rfl, by rw [List.length_map, List.length_zipWith, e4, e3, Nat.min_self]⟩
    · cases hf f hf' with
      | prior id r prior w _ =>
        simp only [genericPrior]
        split <;> exact ⟨_, rfl⟩
      | between id a b m n w _ _ _ => exact ⟨_, rfl⟩
    · have e : x.length = (h q).value.length := hx.trans (hlen hb q).symm
      exact ⟨_, by simp only [VarLike.applyIncr, GenVar.applyIncr]; rw [if_neg (by omega)]⟩

/-! ### The small graph -/

namespace C121

theorem solvable (m p q : ℝ) (o : Settings ℝ) : SolvableLinear (C118.start m p q o) := by
  refine C121_generic (C118.prepared m p q o) ?_ ?_ ?_
  · rw [C118.facs, C118.heap]
    intro f hf
    simp only [TinyWorld.facs, List.mem_cons, List.not_mem_nil, or_false] at hf
    rcases hf with rfl | rfl | rfl
    · exact .prior _ _ _ _ rfl
    · exact .between _ _ _ _ _ _ rfl rfl rfl
    · exact .prior _ _ _ _ rfl
  · rw [C118.vars, C118.heap]
    exact Nat.two_pos
  · rw [C118.vars, C118.heap, C118.facs]
    exact ⟨_, _, C104.linearisedAt _ _ _ _ _ _ _ _, 2, 21, C111.tiny_between, by norm_num, by norm_num⟩

/-- The settings of a new optimizer. -/
noncomputable def gn : Settings ℝ := Settings.default realArith

theorem gn_facts : gn.method = .gaussNewton ∧ gn.learningRate = 1 ∧ 0 < gn.maxIterations ∧ 0 < gn.stepTolerance := by
  refine ⟨rfl, ?_, by decide, ?_⟩ <;> simp [gn, Settings.default, realArith]

end C121

/-- With the settings of a new optimizer the small graph is always solved, whatever has been measured. -/
example (m p q : ℝ) : ∃ t, optimize realArith Ldlt.linAlg (TinyWorld.env 0) (C118.start m p q C121.gn) = (t, .ok ()) ∧
    t.opt.stats.valid = true ∧ t.opt.stats.status = .success ∧ t.opt.stats.iteration ≤ 2 := by
  obtain ⟨h1, h2, h3, h4⟩ := C121.gn_facts
  obtain ⟨t, e, e1, e2, e3, _⟩ := C121 Ldlt.exact Ldlt.exact_pivots (TinyWorld.env 0) (C121.solvable m p q C121.gn) h1 h2 h3 h4
  exact ⟨t, e, e1, e2, e3⟩

example (m p q : ℝ) : ∃ t, optimize realArith Ldlt.linAlg (TinyWorld.env 0) (C118.start m p q { C121.gn with learningRate := 2 }) = (t, .ok ()) ∧
    t.opt.stats.valid = true ∧ t.opt.stats.status = .success :=
  C121_returns Ldlt.exact Ldlt.exact_pivots (TinyWorld.env 0) (C121.solvable ..) C121.gn_facts.1
    (show (0 : ℝ) ≤ 2 by norm_num) (le_refl (2 : ℝ))

/-- Measurements that agree are met exactly: nothing is assumed about the run (C118). -/
example : ∃ t, optimize realArith Ldlt.linAlg (TinyWorld.env 0) (C118.start 1 4 5 C121.gn) = (t, .ok ()) ∧
    component (t.heap 0) 0 = 4 ∧ component (t.heap 1) 0 = 5 := by
  obtain ⟨h1, h2, h3, h4⟩ := C121.gn_facts
  obtain ⟨t, ht, hv, _⟩ := C121_returns Ldlt.exact Ldlt.exact_pivots (TinyWorld.env 0) (C121.solvable 1 4 5 C121.gn) h1
    (by rw [show (C118.start 1 4 5 C121.gn).opt.settings.learningRate = 1 from h2]; norm_num)
    (by rw [show (C118.start 1 4 5 C121.gn).opt.settings.learningRate = 1 from h2]; norm_num)
  obtain ⟨h, _⟩ := C118 Ldlt.exact (TinyWorld.env 0) (C118.prepared 1 4 5 C121.gn) h1 h2 h3 ht hv
    (C24.affine 0 0 1 4 5 2 3 1) (C24_generic_increments _ _) (C118.reachable 1 4 5 C121.gn 4 5) (C118.residual 1 4 5 C121.gn 4 5)
    (fun a ha => by
      rw [C118.facs] at ha
      have : a < 3 := ha
      interval_cases a <;> norm_num)
  rw [C118.vars, C118.heap] at h
  exact ⟨t, ht, h 0 (by simp) rfl 0 Nat.one_pos, h 1 (by simp) rfl 0 Nat.one_pos⟩

/-- The four runs of the experiment with two coins all return and are valid, and the mean of the estimates is the true value 5, that
of chi² is 1 (C119, C120). -/
example : ∃ t : Bool × Bool → OptWorld ℝ (GenVar ℝ) (Ldlt.Fact ℝ),
    (∀ ω, optimize realArith Ldlt.linAlg (TinyWorld.env 0) (C119.start C121.gn ω) = (t ω, .ok ())) ∧
    ∫ ω, component ((t ω).heap 0) 0 ∂C119.coins = 5 ∧ ∫ ω, (t ω).opt.stats.chi2 ∂C119.coins = 1 := by
  obtain ⟨h1, h2, h3, h4⟩ := C121.gn_facts
  have hrun : ∀ ω, ∃ t, optimize realArith Ldlt.linAlg (TinyWorld.env 0) (C119.start C121.gn ω) = (t, .ok ()) ∧ t.opt.stats.valid = true :=
    fun ω => by
      obtain ⟨t, e, e1, _⟩ := C121 Ldlt.exact Ldlt.exact_pivots (TinyWorld.env 0) (C121.solvable _ _ _ C121.gn) h1 h2 h3 h4
      exact ⟨t, e, e1⟩
  choose t ht hv using hrun
  have hE := C119.experiment C121.gn h1 h2 h3 (TinyWorld.env 0) t ht hv
  refine ⟨t, ht, ?_, ?_⟩
  · refine (C119_unbiased Ldlt.exact hE (true, true) (fun a ha => ?_) (fun a ha => ?_) (v := 0) ?_ ?_ (j := 0) ?_).trans (if_pos rfl)
    · rw [C119.start, C118.facs] at ha; exact C119.noise.integrable a ha
    · rw [C119.start, C118.facs] at ha; exact C119.noise.mean a ha
    · rw [C119.start, C118.vars]; simp
    · rw [C119.start, C118.heap]; rfl
    · rw [C119.start, C118.heap]; exact Nat.one_pos
  · rw [C120 Ldlt.exact hE (true, true) (by rw [C119.start, C118.facs]; exact C119.noise), C119.start, C118.facs, C118.heap, C118.vars]
    have e1 : rowTotal (TinyWorld.facs (5 - C119.sign true / 2) (7 - C119.sign true * C119.sign true) 2 3 1) = 3 := rfl
    have e2 : freeTotal (F := ℝ) (TinyWorld.heap 0 0 (2 - C119.sign true / 3)) [0, 1, 2] = 2 := rfl
    rw [e1, e2]
    norm_num

/-- With learning rate 1/2 the distance from the solution is halved in every iteration. -/
example : ∃ t, optimize realArith Ldlt.linAlg (TinyWorld.env 0) (C118.start 1 4 7 { C121.gn with learningRate := 1 / 2 }) = (t, .ok ()) ∧
    t.opt.stats.valid = true ∧ component (t.heap 0) 0 - 214 / 49 = (1 / 2) ^ t.opt.stats.iteration * (0 - 214 / 49) := by
  obtain ⟨t, ht, hv, _, h⟩ := C122 Ldlt.exact Ldlt.exact_pivots (TinyWorld.env 0)
    (C121.solvable 1 4 7 { C121.gn with learningRate := 1 / 2 }) C121.gn_facts.1
    (show (0 : ℝ) ≤ 1 / 2 by norm_num) (show (1 / 2 : ℝ) ≤ 2 by norm_num) C121.gn_facts.2.2.1
    (C118.reachable 1 4 7 _ (214 / 49) (271 / 49)) (by rw [C118.vars, C118.facs]; exact C111.solution)
  refine ⟨t, ht, hv, ?_⟩
  rw [C118.vars, C118.heap] at h
  have h0 : component (t.heap 0) 0 - 214 / 49 = (1 - (1 / 2 : ℝ)) ^ t.opt.stats.iteration * (0 - 214 / 49) :=
    h 0 (by simp) rfl 0 Nat.one_pos
  rwa [show (1 - (1 / 2 : ℝ)) = 1 / 2 by norm_num] at h0

end Factorama.Props
