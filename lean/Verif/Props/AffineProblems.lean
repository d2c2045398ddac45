import Verif.Lemmas.AffineStep
import Verif.Props.OptimizerReal

/-!
# Property C24: affine problems
-/

namespace Factorama.Props
open Spec Graph Opt Matrix
variable {V Fact : Type} [VarLike ℝ V] [LawfulVar ℝ V]

/-- One full Gauss-Newton step of an affine problem. -/
theorem C24.step {L : LinAlg ℝ Fact} (hL : ExactLinAlg L) {h0 h h' : Heap V} {vars : List VRef} {facs : List (Factor ℝ V)}
    (hn : vars.Nodup) (hmem : ∀ f ∈ facs, ∀ r, some r ∈ f.variables → VarLike.isConst (h0 r) = false → r ∈ vars)
    (hnr : NoRepeats facs) (haff : ∀ f ∈ facs, ∃ B, AffineFactor h0 f B) (hadd : AdditiveIncrements h0 vars)
    (hs : SameShape h0 h) {r r' d : List ℝ} {J : SpMat ℝ} (hlin : Linearised h vars facs r J)
    (hsol : SystemSolved realArith L (L.gram J) (L.rhs J r) d) (hst : Stepped h h' vars (realArith.scale 1 d))
    (hr' : IsResidual h' facs r') :
    (∀ h'' r'', SameButFree h h'' vars → IsResidual h'' facs r'' → realArith.sqNorm r' ≤ realArith.sqNorm r'') ∧
    ∀ r2 J2, Linearised h' vars facs r2 J2 → gradient J2 r2 = 0 := by
  obtain ⟨f, hf, _, _, hd⟩ := hsol
  obtain ⟨d', h1, h2, h3, _⟩ := C25_gauss_newton hL J r f hf
  rw [hd] at h1
  obtain rfl := Option.some.inj h1
  have hd1 : realArith.scale 1 d = d := by simp [Arith.scale, realArith]
  rw [hd1] at hst
  have hb' : SameButFree h h' vars := ⟨stepped_shape hst, fun q hq => (hst q).2 hq⟩
  have hrows := hlin.rows
  have hcols := hlin.columns
  have key : ∀ h'' r'', SameButFree h h'' vars → IsResidual h'' facs r'' → ∀ x : Nat → ℝ,
      (∀ q ∈ vars, VarLike.isConst (h q) = false → ∀ j, j < VarLike.size (h q) →
        x (colStart h vars q + j) = component (h'' q) j - component (h q) j) →
      asVec J.rows r'' = asVec J.rows r + jacobianMatrix J *ᵥ fun c : Fin J.columns.length => x c := by
    intro h'' r'' hb hr'' x hx
    funext a
    rw [Pi.add_apply, asVec, affine_residual hn hmem hnr haff hs hb hlin hr'' hx (hrows ▸ a.2), asVec, mulVec, dotProduct,
      ← hcols, Finset.sum_range]
    rfl
  have hstep : asVec J.rows r' = asVec J.rows r + jacobianMatrix J *ᵥ asVec J.columns.length d := by
    refine key h' r' hb' hr' (fun c => d.getD c 0) fun q hq hc j hj => ?_
    have hc0 := (hs q).2.1.symm.trans hc
    have e := hadd h hs q hq hc0 _ _ ((hst q).1 ⟨hq, hc⟩) j (by rw [← (hs q).2.2]; exact hj)
    rw [e, add_sub_cancel_left]
    simp only [partOf, List.getD_eq_getElem?_getD, List.getElem?_take, List.getElem?_drop]
    rw [if_pos hj]
  obtain ⟨hgrad, hmin⟩ := affine_minimum (jacobianMatrix J) (asVec J.rows r) (asVec J.rows r') (asVec J.columns.length d)
    ((h3 _).2 rfl) hstep
  refine ⟨fun h'' r'' hb hr'' => ?_, fun r2 J2 hlin2 => ?_⟩
  · obtain ⟨x, hx⟩ := exists_stacked h vars hn (fun q j => component (h'' q) j - component (h q) j)
    have e := key h'' r'' hb hr'' x fun q hq hc j hj => hx q hq j (by
      rw [freeSize, hc]
      simpa using hj)
    rw [sqNorm_eq ((isResidual_length hr').trans hrows.symm), sqNorm_eq ((isResidual_length hr'').trans hrows.symm), e]
    exact hmin _
  · obtain rfl := isResidual_unique hr' hlin2.residual
    funext c
    have hss : SameShape h0 h' := fun q => ⟨(hb'.1 q).1.trans (hs q).1, (hb'.1 q).2.1.trans (hs q).2.1,
      (hb'.1 q).2.2.trans (hs q).2.2⟩
    have hc2 : (c : Nat) < J.columns.length := by
      have := c.2
      have e : J2.columns.length = J.columns.length := by rw [hlin2.columns, hb'.1.freeTotal_eq, ← hcols]
      omega
    have e := congrFun hgrad ⟨c, hc2⟩
    rw [← gradient, gradient_apply] at e
    rw [gradient_apply, hlin2.rows, ← hrows, Pi.zero_apply]
    rw [Pi.zero_apply] at e
    refine Eq.trans (Finset.sum_congr rfl fun a ha => ?_) e
    rw [affine_coeff hn hmem hnr haff hs hss hlin hlin2 (by rw [← hrows]; simpa using ha) (hcols ▸ hc2)]

/-- Iterations change values of free variables only. -/
theorem C24.sameButFree (L : LinAlg ℝ Fact) (env : Env ℝ V) (s : OptWorld ℝ V Fact)
    {h0 : Heap V} {pre post : List (Op ℝ V × Res Unit)} (hw : FinalizedAfter h0 pre post ⟨s.heap, s.graph⟩)
    (hpre : NoJacobianYet pre) (hid : IdsIdentify s.heap s.graph.getAllVariables s.graph.getAllFactors)
    (hnr : NoRepeats s.graph.getAllFactors) (hsafe : ∀ f ∈ s.graph.getAllFactors, ReuseSafe f)
    (hproper : ∀ h, SameShape s.heap h → ∀ f ∈ s.graph.getAllFactors, ∀ js, f.computeJacobians h [] = .ok js →
      ProperBlocks h f js)
    (hg : s.opt.hasGraph = true) (hm : s.opt.settings.method = .gaussNewton) (r0 : List ℝ) (k : Nat) (s1 : OptWorld ℝ V Fact)
    (hit : Iterations realArith L env k (loopStart realArith env s r0) s1) :
    SameButFree s.heap s1.heap s.graph.getAllVariables := by
  induction k generalizing s1 with
  | zero => cases hit; exact ⟨fun _ => ⟨rfl, rfl, rfl⟩, fun _ _ => rfl⟩
  | succ k ih =>
    obtain ⟨s2, hit2, ho, _⟩ := C66_continues realArith L env s hg r0 k s1 hit
    obtain ⟨h1, h2⟩ := ih s2 hit2
    obtain ⟨r, J, _, ⟨_, _, e, _⟩ | ⟨d, r', _, hst, _⟩⟩ :=
      C67_gauss_newton realArith L env s hw hpre hid hnr hsafe hproper hg hm r0 k s2 s1 hit2 ho
    · rw [e]; exact ⟨h1, h2⟩
    · have h3 := stepped_shape hst
      refine ⟨fun q => ⟨(h3 q).1.trans (h1 q).1, (h3 q).2.1.trans (h1 q).2.1, (h3 q).2.2.trans (h1 q).2.2⟩, fun q hq => ?_⟩
      rw [(hst q).2 (by rw [(h1 q).2.1]; exact hq), h2 q hq]

/-- **C24.** In an affine problem with additive increments, with learning rate 1 and an exact linear solver, each
Gauss-Newton iteration that is not refused ends at a global minimiser: no other values of the free variables give a residual
of smaller norm. And the next iteration, if it is not refused, changes no component of any variable and reports a step of
norm zero. -/
theorem C24_one_step {L : LinAlg ℝ Fact} (hL : ExactLinAlg L) (env : Env ℝ V) (s : OptWorld ℝ V Fact)
    {h0 : Heap V} {pre post : List (Op ℝ V × Res Unit)} (hw : FinalizedAfter h0 pre post ⟨s.heap, s.graph⟩)
    (hpre : NoJacobianYet pre) (hid : IdsIdentify s.heap s.graph.getAllVariables s.graph.getAllFactors)
    (hnr : NoRepeats s.graph.getAllFactors) (hsafe : ∀ f ∈ s.graph.getAllFactors, ReuseSafe f)
    (hproper : ∀ h, SameShape s.heap h → ∀ f ∈ s.graph.getAllFactors, ∀ js, f.computeJacobians h [] = .ok js →
      ProperBlocks h f js)
    (hg : s.opt.hasGraph = true) (hm : s.opt.settings.method = .gaussNewton) (hlr : s.opt.settings.learningRate = 1)
    (haff : ∀ f ∈ s.graph.getAllFactors, ∃ B, AffineFactor s.heap f B)
    (hadd : AdditiveIncrements s.heap s.graph.getAllVariables) (r0 : List ℝ) (k : Nat) (s1 s2 : OptWorld ℝ V Fact)
    (hit : Iterations realArith L env k (loopStart realArith env s r0) s1)
    (hstep : oneStep realArith L env s1 = (s2, .ok ())) (hvalid : s2.opt.stats.valid = true) :
    ∃ r', IsResidual s2.heap s.graph.getAllFactors r' ∧
      (∀ h'' r'', SameButFree s.heap h'' s.graph.getAllVariables → IsResidual h'' s.graph.getAllFactors r'' →
        realArith.sqNorm r' ≤ realArith.sqNorm r'') ∧
      ∀ s3, Iterations realArith L env (k + 1) (loopStart realArith env s r0) s2 →
        oneStep realArith L env s2 = (s3, .ok ()) → s3.opt.stats.valid = true →
        s3.opt.stats.deltaNorm = 0 ∧
        ∀ v j, j < VarLike.size (s.heap v) → component (s3.heap v) j = component (s2.heap v) j := by
  obtain ⟨_, _, _, hvv, hff⟩ := iterations_ready hw hpre hid hnr hit
  have hlay := finalizedAfter_layout hw
  have hn : s.graph.getAllVariables.Nodup := List.Nodup.of_map _ hlay.ids
  have hmem : ∀ f ∈ s.graph.getAllFactors, ∀ r, some r ∈ f.variables → VarLike.isConst (s.heap r) = false →
      r ∈ s.graph.getAllVariables := by
    intro f hf r hr hc
    obtain ⟨r1, e, h⟩ := hlay.wp.1 f hf (some r) hr
    obtain rfl := Option.some.inj e
    obtain ⟨r2, hr2, e2⟩ := h hc
    exact hid f hf r hr r2 hr2 e2 ▸ hr2
  have hb1 := C24.sameButFree L env s hw hpre hid hnr hsafe hproper hg hm r0 k s1 hit
  have hv1 := (iterations_head hit hg rfl rfl rfl).valid
  obtain ⟨r, J, hlin, ⟨_, _, _, e⟩ | ⟨d, r', hsol, hst, hres, _⟩⟩ :=
    C67_gauss_newton realArith L env s hw hpre hid hnr hsafe hproper hg hm r0 k s1 s2 hit hstep
  · rw [e] at hvalid; simp at hvalid
  rw [hlr] at hst
  obtain ⟨hmin, hgrad⟩ := C24.step hL hn hmem hnr haff hadd hb1.1 hlin hsol hst hres
  refine ⟨r', hres, fun h'' r'' hb hr'' => hmin h'' r'' ⟨fun q => ?_, fun q hq => ?_⟩ hr'', fun s3 hit2 hs3 hv3 => ?_⟩
  · exact ⟨(hb.1 q).1.trans (hb1.1 q).1.symm, (hb.1 q).2.1.trans (hb1.1 q).2.1.symm, (hb.1 q).2.2.trans (hb1.1 q).2.2.symm⟩
  · rw [(hb1.1 q).2.1] at hq
    rw [hb.2 q hq, hb1.2 q hq]
  · have hb2 := C24.sameButFree L env s hw hpre hid hnr hsafe hproper hg hm r0 (k + 1) s2 hit2
    obtain ⟨r2, J2, hlin2, ⟨_, _, _, e⟩ | ⟨d2, r2', hsol2, hst2, _, hstat⟩⟩ :=
      C67_gauss_newton realArith L env s hw hpre hid hnr hsafe hproper hg hm r0 (k + 1) s2 s3 hit2 hs3
    · rw [e] at hv3; simp at hv3
    have hz := C26.zero_step hL J2 r2 d2 (hgrad r2 J2 hlin2) hsol2 s.opt.settings.learningRate
    rw [hz] at hst2 hstat
    refine ⟨by rw [hstat]; exact C26.norm_zeros _, fun v j hj => ?_⟩
    by_cases hq : v ∈ s.graph.getAllVariables ∧ VarLike.isConst (s2.heap v) = false
    · have e := hadd s2.heap hb2.1 v hq.1 ((hb2.1 v).2.1.symm.trans hq.2) _ _ ((hst2 v).1 hq) j hj
      rw [e, hlin2.columns, partOf_zeros s2.heap hq.1 hq.2]
      simp [List.getD_eq_getElem?_getD, List.getElem?_replicate]
      split <;> simp
    · rw [(hst2 v).2 hq]

/-- The residual norm in the statistics is the one of the current residual. -/
theorem C24.reported (L : LinAlg ℝ Fact) (env : Env ℝ V) (s : OptWorld ℝ V Fact)
    {h0 : Heap V} {pre post : List (Op ℝ V × Res Unit)} (hw : FinalizedAfter h0 pre post ⟨s.heap, s.graph⟩)
    (hpre : NoJacobianYet pre) (hid : IdsIdentify s.heap s.graph.getAllVariables s.graph.getAllFactors)
    (hnr : NoRepeats s.graph.getAllFactors) (hsafe : ∀ f ∈ s.graph.getAllFactors, ReuseSafe f)
    (hproper : ∀ h, SameShape s.heap h → ∀ f ∈ s.graph.getAllFactors, ∀ js, f.computeJacobians h [] = .ok js →
      ProperBlocks h f js)
    (hg : s.opt.hasGraph = true) (hm : s.opt.settings.method = .gaussNewton) (r0 : List ℝ)
    (hr : (computeResidual env s.heap s.graph).2 = .ok r0) (k : Nat) (s1 : OptWorld ℝ V Fact)
    (hit : Iterations realArith L env k (loopStart realArith env s r0) s1) :
    ∃ r, IsResidual s1.heap s.graph.getAllFactors r ∧ s1.opt.stats.residualNorm = realArith.norm r := by
  cases k with
  | zero => cases hit; exact ⟨r0, evaluated_isResidual (finalizedAfter_layout hw) (computeResidual_evaluated hr), rfl⟩
  | succ k =>
    obtain ⟨s2, hit2, ho, hv, _⟩ := C66_continues realArith L env s hg r0 k s1 hit
    obtain ⟨r, J, _, ⟨_, _, _, e⟩ | ⟨d, r', _, hst, hres, e⟩⟩ :=
      C67_gauss_newton realArith L env s hw hpre hid hnr hsafe hproper hg hm r0 k s2 s1 hit2 ho
    · rw [e] at hv; simp at hv
    · exact ⟨r', hres, by rw [e]⟩

/-- **C24**, for whole runs: with at least one iteration allowed and a positive step tolerance, a valid run ends at a global
minimiser after at most two iterations and reports SUCCESS. -/
theorem C24_run {L : LinAlg ℝ Fact} (hL : ExactLinAlg L) (env : Env ℝ V) (s : OptWorld ℝ V Fact)
    {h0 : Heap V} {pre post : List (Op ℝ V × Res Unit)} (hw : FinalizedAfter h0 pre post ⟨s.heap, s.graph⟩)
    (hpre : NoJacobianYet pre) (hid : IdsIdentify s.heap s.graph.getAllVariables s.graph.getAllFactors)
    (hnr : NoRepeats s.graph.getAllFactors) (hsafe : ∀ f ∈ s.graph.getAllFactors, ReuseSafe f)
    (hproper : ∀ h, SameShape s.heap h → ∀ f ∈ s.graph.getAllFactors, ∀ js, f.computeJacobians h [] = .ok js →
      ProperBlocks h f js)
    (hg : s.opt.hasGraph = true) (hm : s.opt.settings.method = .gaussNewton) (hlr : s.opt.settings.learningRate = 1)
    (hpos : 0 < s.opt.settings.maxIterations) (htol : 0 < s.opt.settings.stepTolerance)
    (haff : ∀ f ∈ s.graph.getAllFactors, ∃ B, AffineFactor s.heap f B)
    (hadd : AdditiveIncrements s.heap s.graph.getAllVariables) (s' : OptWorld ℝ V Fact)
    (hret : optimize realArith L env s = (s', .ok ())) (hvalid : s'.opt.stats.valid = true) :
    s'.opt.stats.status = .success ∧ s'.opt.stats.iteration ≤ 2 ∧
    ∃ r', IsResidual s'.heap s.graph.getAllFactors r' ∧
      ∀ h'' r'', SameButFree s.heap h'' s.graph.getAllVariables → IsResidual h'' s.graph.getAllFactors r'' →
        realArith.sqNorm r' ≤ realArith.sqNorm r'' := by
  obtain ⟨r0, hr⟩ : ∃ r0, (computeResidual env s.heap s.graph).2 = .ok r0 := by
    cases hr : (computeResidual env s.heap s.graph).2 with
    | ok r0 => exact ⟨r0, rfl⟩
    | threw =>
      have := (C28_throws_iff realArith L env s).2 (.inr hr)
      rw [hret] at this
      simp at this
    | ub =>
      have := (optimize_ubResidual realArith L env s hg hr).1
      rw [hret] at this
      simp at this
  have hone := C24_one_step hL env s hw hpre hid hnr hsafe hproper hg hm hlr haff hadd r0
  have hsame := C24.sameButFree L env s hw hpre hid hnr hsafe hproper hg hm r0
  have hrep := C24.reported L env s hw hpre hid hnr hsafe hproper hg hm r0 hr
  -- a third iteration is never started
  have hle : ∀ k s1, Iterations realArith L env k (loopStart realArith env s r0) s1 → k ≤ 1 := by
    intro k s1 hit
    match k, hit with
    | 0, _ => omega
    | 1, _ => omega
    | k + 2, hit =>
      exfalso
      obtain ⟨s2, hit2, ho2, hv2, _, hc⟩ := C66_continues realArith L env s hg r0 (k + 1) s1 hit
      obtain ⟨s3, hit3, ho3, hv3, _⟩ := C66_continues realArith L env s hg r0 k s2 hit2
      obtain ⟨_, _, _, h⟩ := hone k s3 s2 hit3 ho3 hv3
      have hd := (h s1 hit2 ho2 hv2).1
      have := hc.step
      rw [hd] at this
      simp only [realArith, decide_eq_false_iff_not, not_lt] at this
      linarith
  have hnorm : ∀ {x y : List ℝ}, realArith.sqNorm x ≤ realArith.sqNorm y → realArith.norm x ≤ realArith.norm y :=
    fun h => Real.sqrt_le_sqrt h
  rcases C66_ends realArith L env s hg r0 hr s' hret with ⟨k, s1, s2, hk, hit, h⟩ | ⟨s1, hit, hh, hv, he⟩
  · have hk1 := hle k s1 hit
    rcases h with ⟨_, _, h⟩ | ⟨_, _, _, hv, h⟩ | ⟨ho, hheap, herr, status, valid, hs, h⟩
    · rw [h] at hvalid; simp at hvalid
    · rw [h, hv] at hvalid; simp at hvalid
    · rw [h] at hvalid
      dsimp only at hvalid
      subst hvalid
      have hh1 := iterations_head hit hg rfl rfl rfl
      have hi1 : s1.opt.stats.iteration = k := hh1.iteration
      have hv2 : s2.opt.stats.valid = true ∧ s2.opt.stats.iteration ≤ k + 1 ∧
          ∀ r, IsResidual s2.heap s.graph.getAllFactors r → s2.opt.stats.residualNorm = realArith.norm r := by
        obtain ⟨r, J, _, ⟨_, href, _, e⟩ | ⟨d, r', _, hst, hres, e⟩⟩ :=
          C67_gauss_newton realArith L env s hw hpre hid hnr hsafe hproper hg hm r0 k s1 s2 hit ho
        · exfalso
          apply herr
          rw [e]
          cases href <;> simp [isErrorStatus]
        · refine ⟨by rw [e]; exact hh1.valid, by rw [e]; dsimp only; omega, fun r'' hr'' => ?_⟩
          rw [e, isResidual_unique hr'' hres]
      obtain ⟨r', hres, hmin, _⟩ := hone k s1 s2 hit ho hv2.1
      obtain ⟨rb, hrb, hbn⟩ := hrep k s1 hit
      have hle2 := hnorm (hmin s1.heap rb (hsame k s1 hit) hrb)
      have hnw : realArith.lt (realArith.sub s1.opt.stats.residualNorm s2.opt.stats.residualNorm) (realArith.lit 0) = false := by
        rw [hbn, hv2.2.2 r' hres]
        simp only [realArith, decide_eq_false_iff_not, not_lt]
        simp only [realArith] at hle2
        push_cast
        linarith
      refine ⟨?_, by rw [h]; dsimp only; omega, r', by rw [hheap]; exact hres, hmin⟩
      rw [h]
      dsimp only
      cases hs with
      | smallStep => rfl
      | worseThanStart _ h2 => rw [hnw] at h2; simp at h2
      | worseThanBefore => rfl
      | smallGain => rfl
  · have hk1 := hle _ s1 hit
    have hi1 : s1.opt.stats.iteration = s.opt.settings.maxIterations := (iterations_head hit hg rfl rfl rfl).iteration
    refine ⟨by rw [he], by rw [he]; dsimp only; omega, ?_⟩
    obtain ⟨n, hn⟩ : ∃ n, s.opt.settings.maxIterations = n + 1 := ⟨s.opt.settings.maxIterations - 1, by omega⟩
    rw [hn] at hit
    obtain ⟨s2, hit2, ho2, hv2, _⟩ := C66_continues realArith L env s hg r0 n s1 hit
    obtain ⟨r', hres, hmin, _⟩ := hone n s2 s1 hit2 ho2 hv2
    exact ⟨r', by rw [hh]; exact hres, hmin⟩

/-! ### The generic factors and variables are affine -/

theorem C24.diag_sum (n : Nat) (w : ℝ) (d : Nat → ℝ) {i : Nat} (hi : i < n) :
    ∑ j ∈ Finset.range n, (Mat.diag n w).entry i j * d j = w * d i := by
  rw [Finset.sum_eq_single i]
  · simp [Mat.diag]
  · intro j _ hj
    simp [Mat.diag, hj.symm]
  · intro h
    exact absurd (Finset.mem_range.2 hi) h

theorem C24.vecSub_ok {x y z : List ℝ} (h : vecSub x y = .ok z) : x.length = y.length ∧ z.length = y.length ∧
    ∀ i, i < y.length → z.getD i 0 = x.getD i 0 - y.getD i 0 := by
  unfold vecSub at h
  split at h
  · rename_i hl
    obtain rfl := Res.ok.inj h
    refine ⟨hl, by simp [hl], fun i hi => ?_⟩
    simp [List.getD_eq_getElem?_getD, List.getElem?_zipWith, hi, hl]
  · simp at h

theorem C24.map_mul (w : ℝ) (x : List ℝ) (i : Nat) : (x.map (w * ·)).getD i 0 = w * x.getD i 0 := by
  rw [List.getD_eq_getElem?_getD, List.getElem?_map, List.getD_eq_getElem?_getD]
  cases x[i]? <;> simp

/-- **C24** applies to prior factors on generic variables of any size. -/
theorem C24_generic_prior (h0 : Heap (GenVar ℝ)) (id : Int) (r : VRef) (prior : List ℝ) (w : ℝ) :
    ∃ B, AffineFactor h0 (genericPrior id r prior w) B := by
  cases hc : (h0 r).isConst with
  | true =>
    refine ⟨[Mat.empty, Mat.empty], fun h hs js hj => ?_, fun h h' s s' _ _ hag hr hr' i _ => ?_⟩
    · have : (h r).isConst = true := (hs r).2.1.trans hc
      simpa [genericPrior, VarLike.isConst, this] using hj.symm
    · have e := hag r (by simp [genericPrior]) hc
      have : (genericPrior id r prior w : Factor ℝ (GenVar ℝ)).computeResidual h' =
          (genericPrior id r prior w : Factor ℝ (GenVar ℝ)).computeResidual h := by
        simp only [genericPrior, e]
      rw [this, hr] at hr'
      obtain rfl := Res.ok.inj hr'
      simp [genericPrior, contribution, VarLike.isConst, hc]
  | false =>
    refine ⟨[Mat.diag prior.length w], fun h hs js hj => ?_, fun h h' s s' hs _ hag hr hr' i hi => ?_⟩
    · have : (h r).isConst = false := (hs r).2.1.trans hc
      simpa [genericPrior, VarLike.isConst, this] using hj.symm
    · simp only [genericPrior] at hr hr' hi
      cases hd : vecSub (VarLike.value (h r)) prior with
      | threw => rw [hd] at hr; simp at hr
      | ub => rw [hd] at hr; simp at hr
      | ok d =>
        cases hd' : vecSub (VarLike.value (h' r)) prior with
        | threw => rw [hd'] at hr'; simp at hr'
        | ub => rw [hd'] at hr'; simp at hr'
        | ok d' =>
          rw [hd] at hr
          rw [hd'] at hr'
          obtain rfl := Res.ok.inj hr
          obtain rfl := Res.ok.inj hr'
          obtain ⟨l1, _, e⟩ := C24.vecSub_ok hd
          obtain ⟨_, _, e'⟩ := C24.vecSub_ok hd'
          have hsz : (h0 r).value.length = prior.length := (hs r).2.2.symm.trans l1
          rw [C24.map_mul, C24.map_mul, e i hi, e' i hi]
          simp only [genericPrior, List.length_singleton, Finset.sum_range_one, contribution, List.getElem?_cons_zero,
            VarLike.isConst, hc, Bool.false_eq_true, if_false, VarLike.size, hsz, List.getD_cons_zero]
          rw [C24.diag_sum _ _ _ hi]
          simp only [component]
          ring

/-- **C24** applies to between factors on generic variables of any size. -/
theorem C24_generic_between (h0 : Heap (GenVar ℝ)) (id : Int) (a b m : VRef) (n : Nat) (w : ℝ) :
    (h0 m).value.length = n → ∃ B, AffineFactor h0 (genericBetween id a b m n w) B := by
  intro hn
  refine ⟨[betweenBlock n (h0 a) (-w), betweenBlock n (h0 b) w, betweenBlock n (h0 m) (-w)],
    fun h hs js hj => ?_, fun h h' s s' hs hs' hag hr hr' i hi => ?_⟩
  · have ha : (h a).isConst = (h0 a).isConst := (hs a).2.1
    have hb : (h b).isConst = (h0 b).isConst := (hs b).2.1
    have hm : (h m).isConst = (h0 m).isConst := (hs m).2.1
    simpa [genericBetween, betweenBlock, VarLike.isConst, ha, hb, hm] using hj.symm
  · simp only [genericBetween] at hr hr' hi
    cases hd : vecSub (VarLike.value (h b)) (VarLike.value (h a)) with
    | threw => rw [hd] at hr; simp at hr
    | ub => rw [hd] at hr; simp at hr
    | ok d =>
    cases hd' : vecSub (VarLike.value (h' b)) (VarLike.value (h' a)) with
    | threw => rw [hd'] at hr'; simp at hr'
    | ub => rw [hd'] at hr'; simp at hr'
    | ok d' =>
    cases he : vecSub d (VarLike.value (h m)) with
    | threw => rw [hd] at hr; simp only [he] at hr; simp at hr
    | ub => rw [hd] at hr; simp only [he] at hr; simp at hr
    | ok e =>
    cases he' : vecSub d' (VarLike.value (h' m)) with
    | threw => rw [hd'] at hr'; simp only [he'] at hr'; simp at hr'
    | ub => rw [hd'] at hr'; simp only [he'] at hr'; simp at hr'
    | ok e' =>
    rw [hd] at hr
    rw [hd'] at hr'
    simp only [he] at hr
    simp only [he'] at hr'
    obtain rfl := Res.ok.inj hr
    obtain rfl := Res.ok.inj hr'
    obtain ⟨l1, l2, x1⟩ := C24.vecSub_ok hd
    obtain ⟨l3, l4, x2⟩ := C24.vecSub_ok he
    obtain ⟨l1', l2', x1'⟩ := C24.vecSub_ok hd'
    obtain ⟨l3', l4', x2'⟩ := C24.vecSub_ok he'
    have hm : (VarLike.value (F := ℝ) (h m)).length = n := (hs m).2.2.trans hn
    have hm' : (VarLike.value (F := ℝ) (h' m)).length = n := (hs' m).2.2.trans hn
    have ha : (VarLike.value (F := ℝ) (h a)).length = n := by omega
    have ha' : (VarLike.value (F := ℝ) (h' a)).length = n := by omega
    have sa : VarLike.size (F := ℝ) (h0 a) = n := (hs a).2.2.symm.trans ha
    have sb : VarLike.size (F := ℝ) (h0 b) = n := (hs b).2.2.symm.trans (l1.trans ha)
    have sm : VarLike.size (F := ℝ) (h0 m) = n := hn
    rw [C24.map_mul, C24.map_mul, x2 i (by omega), x2' i (by omega), x1 i (by omega), x1' i (by omega)]
    -- the contribution of one variable
    have key : ∀ (r : VRef) (c : ℝ), VarLike.size (F := ℝ) (h0 r) = n → some r ∈ [some a, some b, some m] →
        (if VarLike.isConst (F := ℝ) (h0 r) = true then 0 else ∑ j ∈ Finset.range (VarLike.size (F := ℝ) (h0 r)),
          (betweenBlock n (h0 r) c).entry i j * (component (h' r) j - component (h r) j)) =
        c * (component (h' r) i - component (h r) i) := by
      intro r c hsz hr
      cases hc : VarLike.isConst (F := ℝ) (h0 r) with
      | true => rw [hag r hr hc]; simp
      | false =>
        simp only [Bool.false_eq_true, if_false, betweenBlock, hc, hsz]
        rw [C24.diag_sum _ _ _ hi]
    simp only [genericBetween, List.length_cons, List.length_nil, Finset.sum_range_succ, Finset.sum_range_zero, contribution,
      List.getElem?_cons_zero, List.getElem?_cons_succ, List.getD_cons_zero, List.getD_cons_succ]
    rw [key a (-w) sa (by simp), key b w sb (by simp), key m (-w) sm (by simp)]
    simp only [component]
    ring

/-- **C24** applies to generic variables. -/
theorem C24_generic_increments (h0 : Heap (GenVar ℝ)) (vars : List VRef) : AdditiveIncrements h0 vars := by
  intro h hs r _ _ x v' hv j hj
  simp only [VarLike.applyIncr, GenVar.applyIncr] at hv
  split at hv
  · simp at hv
  · rename_i hl
    obtain rfl := Res.ok.inj hv
    have hj' : j < (h r).value.length := by
      have : (h r).value.length = VarLike.size (F := ℝ) (h0 r) := (hs r).2.2
      omega
    have hj2 : j < x.length := by omega
    simp [component, VarLike.value, List.getD_eq_getElem?_getD, List.getElem?_zipWith, hj', hj2]

/-! The hypotheses hold for the small graph. -/

theorem C24.affine (a c m p q u v w : ℝ) : ∀ f ∈ (TinyWorld.world a c m p q u v w).graph.getAllFactors,
    ∃ B, AffineFactor (TinyWorld.world a c m p q u v w).heap f B := by
  rw [TinyWorld.facs_eq, TinyWorld.heap_eq]
  intro f hf
  simp only [TinyWorld.facs, List.mem_cons, List.not_mem_nil, or_false] at hf
  rcases hf with rfl | rfl | rfl
  · exact C24_generic_prior _ _ _ _ _
  · exact C24_generic_between _ _ _ _ _ _ _ rfl
  · exact C24_generic_prior _ _ _ _ _

/-- An optimizer set up on the small graph, not at a minimiser. -/
noncomputable def C24.start : OptWorld ℝ (GenVar ℝ) (Ldlt.Fact ℝ) :=
  ⟨(TinyWorld.world 0 0 1 4 7 2 3 1).heap, (TinyWorld.world 0 0 1 4 7 2 3 1).graph,
    { Optimizer.init realArith with hasGraph := true }⟩

example (s' : OptWorld ℝ (GenVar ℝ) (Ldlt.Fact ℝ))
    (hret : optimize realArith Ldlt.linAlg (TinyWorld.env 0) C24.start = (s', .ok ())) (hvalid : s'.opt.stats.valid = true) :
    s'.opt.stats.status = .success ∧ s'.opt.stats.iteration ≤ 2 := by
  have := C24_run Ldlt.exact (TinyWorld.env 0) C24.start (TinyWorld.finalizedAfter 0 0 1 4 7 2 3 1)
    (TinyWorld.noJacobianYet 0 0 1 4 7 2 3 1) (TinyWorld.identify 0 0 1 4 7 2 3 1) (TinyWorld.noRepeats 0 0 1 4 7 2 3 1)
    (TinyWorld.reuseSafe 0 0 1 4 7 2 3 1) (TinyWorld.proper 0 0 1 4 7 2 3 1) rfl rfl
    (by show (Settings.default realArith).learningRate = 1; simp [Settings.default, realArith])
    (by show 0 < (Settings.default realArith).maxIterations; decide)
    (by
      show 0 < (Settings.default realArith).stepTolerance
      simp [Settings.default, realArith])
    (C24.affine 0 0 1 4 7 2 3 1) (C24_generic_increments _ _) s' hret hvalid
  exact ⟨this.1, this.2.1⟩

example (s2 : OptWorld ℝ (GenVar ℝ) (Ldlt.Fact ℝ)) (r0 : List ℝ)
    (hstep : oneStep realArith Ldlt.linAlg (TinyWorld.env 0) (loopStart realArith (TinyWorld.env 0) C24.start r0) = (s2, .ok ()))
    (hvalid : s2.opt.stats.valid = true) : ∃ r', IsResidual s2.heap C24.start.graph.getAllFactors r' := by
  obtain ⟨r', h, _⟩ := C24_one_step Ldlt.exact (TinyWorld.env 0) C24.start (TinyWorld.finalizedAfter 0 0 1 4 7 2 3 1)
    (TinyWorld.noJacobianYet 0 0 1 4 7 2 3 1) (TinyWorld.identify 0 0 1 4 7 2 3 1) (TinyWorld.noRepeats 0 0 1 4 7 2 3 1)
    (TinyWorld.reuseSafe 0 0 1 4 7 2 3 1) (TinyWorld.proper 0 0 1 4 7 2 3 1) rfl rfl
    (by show (Settings.default realArith).learningRate = 1; simp [Settings.default, realArith])
    (C24.affine 0 0 1 4 7 2 3 1) (C24_generic_increments _ _) r0 0 _ s2 (.zero _) hstep hvalid
  exact ⟨r', h⟩

/-- In rational arithmetic this run is valid and takes two iterations, the second with a zero step. -/
example : (optimize ToyOpt.rat Ldlt.linAlg (TinyWorld.env 0) (ToyOpt.start (TinyWorld.world 0 0 1 4 7 2 3 1) ToyOpt.gn)).2 = .ok () ∧
    (optimize ToyOpt.rat Ldlt.linAlg (TinyWorld.env 0) (ToyOpt.start (TinyWorld.world 0 0 1 4 7 2 3 1) ToyOpt.gn)).1.opt.stats.valid =
      true ∧
    (optimize ToyOpt.rat Ldlt.linAlg (TinyWorld.env 0) (ToyOpt.start (TinyWorld.world 0 0 1 4 7 2 3 1) ToyOpt.gn)).1.opt.stats.iteration =
      2 ∧
    (optimize ToyOpt.rat Ldlt.linAlg (TinyWorld.env 0) (ToyOpt.start (TinyWorld.world 0 0 1 4 7 2 3 1) ToyOpt.gn)).1.opt.stats.deltaNorm =
      0 := by
  refine ⟨?_, ?_, ?_, ?_⟩ <;> decide +kernel

end Factorama.Props
