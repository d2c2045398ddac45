import Verif.Lemmas.Errors
import Verif.Props.Fusion
import Mathlib.Tactic.IntervalCases

/-!
# Property C118: measurements that agree with each other are met exactly
-/

namespace Factorama.Props
open Spec Graph Opt Matrix

section
variable {V Fact : Type} [VarLike ℝ V] [LawfulVar ℝ V] {L : LinAlg ℝ Fact}

/-- The free variables a factor uses are variables of the graph. -/
theorem C118.mem {s : OptWorld ℝ V Fact} (hp : Prepared s) : ∀ f ∈ s.graph.getAllFactors, ∀ r, some r ∈ f.variables →
    VarLike.isConst (s.heap r) = false → r ∈ s.graph.getAllVariables := by
  obtain ⟨h0, pre, post, hw, _⟩ := hp.history
  have hlay := finalizedAfter_layout hw
  intro f hf r hr hc
  obtain ⟨r1, e, h⟩ := hlay.wp.1 f hf (some r) hr
  obtain rfl := Option.some.inj e
  obtain ⟨r2, hr2, e2⟩ := h hc
  exact hp.ids f hf r hr r2 hr2 e2 ▸ hr2

theorem C118.nodup {s : OptWorld ℝ V Fact} (hp : Prepared s) : s.graph.getAllVariables.Nodup := by
  obtain ⟨h0, pre, post, hw, _⟩ := hp.history
  exact List.Nodup.of_map _ (finalizedAfter_layout hw).ids

theorem C118.back {h y t : Heap V} {vars : List VRef} (h1 : SameButFree h y vars) (h2 : SameButFree h t vars) :
    SameButFree y t vars := by
  refine ⟨fun q => ⟨(h2.1 q).1.trans (h1.1 q).1.symm, (h2.1 q).2.1.trans (h1.1 q).2.1.symm, (h2.1 q).2.2.trans (h1.1 q).2.2.symm⟩,
    fun q hq => ?_⟩
  rw [(h1.1 q).2.1] at hq
  rw [h1.2 q hq, h2.2 q hq]

/-- **C118**, in general. In a linear problem, the estimate after a valid Gauss-Newton run with learning rate 1 differs from any
values `y`, say the true ones, by `-(JᵀJ)⁻¹Jᵀε`, where `ε` are the residuals at these values: the errors of the measurements in
units of their standard deviations. It does not depend on the start values. The final residuals `r'` are `ε - J(JᵀJ)⁻¹Jᵀε`. -/
theorem C118_error (hL : ExactLinAlg L) (env : Env ℝ V) {s t : OptWorld ℝ V Fact} (hp : Prepared s)
    (hm : s.opt.settings.method = .gaussNewton) (hlr : s.opt.settings.learningRate = 1) (hpos : 0 < s.opt.settings.maxIterations)
    (hret : optimize realArith L env s = (t, .ok ())) (hvalid : t.opt.stats.valid = true)
    (haff : ∀ f ∈ s.graph.getAllFactors, ∃ B, AffineFactor s.heap f B)
    (hadd : AdditiveIncrements s.heap s.graph.getAllVariables) :
    ∃ h r J r', SameButFree s.heap h s.graph.getAllVariables ∧ Linearised h s.graph.getAllVariables s.graph.getAllFactors r J ∧
      IsUnit ((jacobianMatrix J)ᵀ * jacobianMatrix J) ∧ SameButFree s.heap t.heap s.graph.getAllVariables ∧
      IsResidual t.heap s.graph.getAllFactors r' ∧ (jacobianMatrix J)ᵀ *ᵥ asVec J.rows r' = 0 ∧
      ∀ y ε, SameButFree s.heap y s.graph.getAllVariables → IsResidual y s.graph.getAllFactors ε →
        ∃ e : Nat → ℝ, (∀ q ∈ s.graph.getAllVariables, VarLike.isConst (s.heap q) = false → ∀ j, j < VarLike.size (s.heap q) →
          e (colStart s.heap s.graph.getAllVariables q + j) = component (t.heap q) j - component (y q) j) ∧
        (fun c : Fin J.columns.length => e c) =
          -(((jacobianMatrix J)ᵀ * jacobianMatrix J)⁻¹ *ᵥ ((jacobianMatrix J)ᵀ *ᵥ asVec J.rows ε)) ∧
        asVec J.rows r' = asVec J.rows ε + jacobianMatrix J *ᵥ fun c : Fin J.columns.length => e c := by
  obtain ⟨h, r, J, d, r', hb, hlin, hu, hd, hN, hst, hr'⟩ := C117.last hL env hp hm hpos hret hvalid
  have hd1 : realArith.scale s.opt.settings.learningRate d = d := by rw [hlr]; simp [Arith.scale, realArith]
  rw [hd1] at hst
  have hbt : SameButFree h t.heap s.graph.getAllVariables := ⟨stepped_shape hst, fun q hq => (hst q).2 hq⟩
  have key : ∀ y ε, SameButFree s.heap y s.graph.getAllVariables → IsResidual y s.graph.getAllFactors ε →
        ∃ e : Nat → ℝ, (∀ q ∈ s.graph.getAllVariables, VarLike.isConst (s.heap q) = false → ∀ j, j < VarLike.size (s.heap q) →
          e (colStart s.heap s.graph.getAllVariables q + j) = component (t.heap q) j - component (y q) j) ∧
        (fun c : Fin J.columns.length => e c) =
          -(((jacobianMatrix J)ᵀ * jacobianMatrix J)⁻¹ *ᵥ ((jacobianMatrix J)ᵀ *ᵥ asVec J.rows ε)) ∧
        asVec J.rows r' = asVec J.rows ε + jacobianMatrix J *ᵥ fun c : Fin J.columns.length => e c := by
    intro y ε hy hε
    obtain ⟨e, h1, h2, h3⟩ := full_step_error (C118.nodup hp) (C118.mem hp) hp.noRepeats haff hadd hb.1 hlin hu hN hst hbt hr'
      (C118.back hb hy) hε
    exact ⟨e, fun q hq hc j hj => by rw [← hb.1.colStart_eq]; exact h1 q hq hc j hj, h2, h3⟩
  have hst' : SameButFree s.heap t.heap s.graph.getAllVariables := by
    refine ⟨fun q => ⟨(hbt.1 q).1.trans (hb.1 q).1, (hbt.1 q).2.1.trans (hb.1 q).2.1, (hbt.1 q).2.2.trans (hb.1 q).2.2⟩, fun q hq => ?_⟩
    rw [← hb.2 q hq]
    exact hbt.2 q (by rw [(hb.1 q).2.1]; exact hq)
  refine ⟨h, r, J, r', hb, hlin, hu, hst', hr', ?_, key⟩
  obtain ⟨e, h1, h2, _⟩ := key t.heap r' hst' hr'
  have h3 : (fun c : Fin J.columns.length => e c) = 0 := by
    funext c
    have hc : (c : Nat) < freeTotal s.heap s.graph.getAllVariables := by
      rw [← hb.1.freeTotal_eq, ← hlin.columns]; exact c.2
    obtain ⟨q, hq, hqc, j, hj, e'⟩ := exists_column s.heap (C118.nodup hp) hc
    have := h1 q hq hqc j hj
    rw [sub_self] at this
    show e c = 0
    rw [e']
    exact this
  rw [h3] at h2
  have h4 := congrArg (((jacobianMatrix J)ᵀ * jacobianMatrix J) *ᵥ ·) h2
  simp only [mulVec_zero, mulVec_neg] at h4
  rw [mulVec_mulVec, mul_nonsing_inv _ ((isUnit_iff_isUnit_det _).1 hu), one_mulVec] at h4
  exact neg_eq_zero.1 h4.symm

/-- **C118**. If some values `y` of the free variables of a linear problem meet all measurements exactly, a valid Gauss-Newton run
with learning rate 1 ends at these values, wherever it started, and the residuals are zero. -/
theorem C118 (hL : ExactLinAlg L) (env : Env ℝ V) {s t : OptWorld ℝ V Fact} (hp : Prepared s)
    (hm : s.opt.settings.method = .gaussNewton) (hlr : s.opt.settings.learningRate = 1) (hpos : 0 < s.opt.settings.maxIterations)
    (hret : optimize realArith L env s = (t, .ok ())) (hvalid : t.opt.stats.valid = true)
    (haff : ∀ f ∈ s.graph.getAllFactors, ∃ B, AffineFactor s.heap f B)
    (hadd : AdditiveIncrements s.heap s.graph.getAllVariables) {y : Heap V} {ε : List ℝ}
    (hy : SameButFree s.heap y s.graph.getAllVariables) (hε : IsResidual y s.graph.getAllFactors ε)
    (hz : ∀ a, a < rowTotal s.graph.getAllFactors → ε.getD a 0 = 0) :
    (∀ v ∈ s.graph.getAllVariables, VarLike.isConst (s.heap v) = false → ∀ j, j < VarLike.size (s.heap v) →
      component (t.heap v) j = component (y v) j) ∧
    ∃ r', IsResidual t.heap s.graph.getAllFactors r' ∧ ∀ a, a < rowTotal s.graph.getAllFactors → r'.getD a 0 = 0 := by
  obtain ⟨h, r, J, r', hs, hlin, hu, hst, hr', hg, key⟩ := C118_error hL env hp hm hlr hpos hret hvalid haff hadd
  have hε0 : asVec J.rows ε = 0 := by
    funext a
    exact hz a (hlin.rows ▸ a.2)
  have hv : ∀ v ∈ s.graph.getAllVariables, VarLike.isConst (s.heap v) = false → ∀ j, j < VarLike.size (s.heap v) →
      component (t.heap v) j = component (y v) j := by
    intro v hv hc j hj
    obtain ⟨e, h1, h2, _⟩ := key y ε hy hε
    rw [hε0, mulVec_zero, mulVec_zero, neg_zero] at h2
    have h3 := h1 v hv hc j hj
    have hcol : colStart s.heap s.graph.getAllVariables v + j < J.columns.length := by
      have := colStart_le s.heap hv
      rw [freeSize, hc] at this
      simp at this
      rw [hlin.columns, hs.1.freeTotal_eq]
      omega
    have h4 := congrFun h2 ⟨_, hcol⟩
    simp only [Pi.zero_apply] at h4
    rw [h4] at h3
    linarith
  refine ⟨hv, r', hr', fun a ha => ?_⟩
  rw [affine_congr (C118.nodup hp) (C118.mem hp) hp.noRepeats haff hs.1 hlin (C118.back hs hy) hε (C118.back hs hst) hr' hv ha, hz a ha]

/-- **C118**, without redundancy. If a linear problem has just as many residuals as free values, a valid Gauss-Newton run with
learning rate 1 meets all measurements exactly. -/
theorem C118_square (hL : ExactLinAlg L) (env : Env ℝ V) {s t : OptWorld ℝ V Fact} (hp : Prepared s)
    (hm : s.opt.settings.method = .gaussNewton) (hlr : s.opt.settings.learningRate = 1) (hpos : 0 < s.opt.settings.maxIterations)
    (hret : optimize realArith L env s = (t, .ok ())) (hvalid : t.opt.stats.valid = true)
    (haff : ∀ f ∈ s.graph.getAllFactors, ∃ B, AffineFactor s.heap f B)
    (hadd : AdditiveIncrements s.heap s.graph.getAllVariables)
    (heq : rowTotal s.graph.getAllFactors = freeTotal s.heap s.graph.getAllVariables) :
    ∃ r', IsResidual t.heap s.graph.getAllFactors r' ∧ ∀ a, a < rowTotal s.graph.getAllFactors → r'.getD a 0 = 0 := by
  obtain ⟨h, r, J, r', hs, hlin, hu, hst, hr', hg, key⟩ := C118_error hL env hp hm hlr hpos hret hvalid haff hadd
  refine ⟨r', hr', fun a ha => ?_⟩
  have hsq : J.rows = J.columns.length := by rw [hlin.rows, hlin.columns, hs.1.freeTotal_eq, heq]
  have := transpose_zero (jacobianMatrix J) hsq hu _ hg
  exact congrFun this ⟨a, hlin.rows ▸ ha⟩

end

/-! ### Example: the small graph with measurements that agree -/

namespace C118

/-- An optimizer with the settings `o` on the small graph with start values 0. -/
noncomputable def start (m p q : ℝ) (o : Settings ℝ) : OptWorld ℝ (GenVar ℝ) (Ldlt.Fact ℝ) :=
  ⟨(TinyWorld.world 0 0 m p q 2 3 1).heap, (TinyWorld.world 0 0 m p q 2 3 1).graph,
    { Optimizer.init realArith with hasGraph := true, settings := o }⟩

theorem prepared (m p q : ℝ) (o : Settings ℝ) : Prepared (start m p q o) :=
  ⟨⟨_, _, _, TinyWorld.finalizedAfter 0 0 m p q 2 3 1, TinyWorld.noJacobianYet 0 0 m p q 2 3 1⟩,
    TinyWorld.identify 0 0 m p q 2 3 1, TinyWorld.noRepeats 0 0 m p q 2 3 1, TinyWorld.reuseSafe 0 0 m p q 2 3 1,
    TinyWorld.proper 0 0 m p q 2 3 1, rfl⟩

theorem vars (m p q : ℝ) (o : Settings ℝ) : (start m p q o).graph.getAllVariables = [0, 1, 2] := TinyWorld.vars_eq ..
theorem facs (m p q : ℝ) (o : Settings ℝ) : (start m p q o).graph.getAllFactors = TinyWorld.facs p q 2 3 1 := TinyWorld.facs_eq ..
theorem heap (m p q : ℝ) (o : Settings ℝ) : (start m p q o).heap = TinyWorld.heap 0 0 m := TinyWorld.heap_eq ..

/-- Other values of the two free variables. -/
theorem reachable (m p q : ℝ) (o : Settings ℝ) (a c : ℝ) :
    SameButFree (start m p q o).heap (TinyWorld.heap a c m) (start m p q o).graph.getAllVariables := by
  rw [heap, vars]
  refine ⟨fun r => ?_, fun r hr => ?_⟩
  · match r with
    | 0 => exact ⟨rfl, rfl, rfl⟩
    | 1 => exact ⟨rfl, rfl, rfl⟩
    | r + 2 => exact ⟨rfl, rfl, rfl⟩
  · match r with
    | 0 => exact absurd ⟨by simp, rfl⟩ hr
    | 1 => exact absurd ⟨by simp, rfl⟩ hr
    | r + 2 => rfl

theorem residual (m p q : ℝ) (o : Settings ℝ) (a c : ℝ) : IsResidual (TinyWorld.heap a c m) (start m p q o).graph.getAllFactors
    [2 * (a - p), 3 * (c - a - m), 1 * (c - q)] := by
  rw [facs]
  exact (TinyWorld.residual_eq p q 2 3 1 (TinyWorld.heap a c m) rfl rfl rfl _).2 rfl

end C118

/-- The first variable is 4, the second one greater by 1, and 5: after a valid run the variables have these values. -/
example (o : Settings ℝ) (hm : o.method = .gaussNewton) (hlr : o.learningRate = 1) (hpos : 0 < o.maxIterations) (env : Env ℝ (GenVar ℝ))
    (t : OptWorld ℝ (GenVar ℝ) (Ldlt.Fact ℝ)) (hret : optimize realArith Ldlt.linAlg env (C118.start 1 4 5 o) = (t, .ok ()))
    (hvalid : t.opt.stats.valid = true) : component (t.heap 0) 0 = 4 ∧ component (t.heap 1) 0 = 5 := by
  obtain ⟨h, _⟩ := C118 Ldlt.exact env (C118.prepared 1 4 5 o) hm hlr hpos hret hvalid
    (C24.affine 0 0 1 4 5 2 3 1) (C24_generic_increments _ _) (C118.reachable 1 4 5 o 4 5) (C118.residual 1 4 5 o 4 5)
    (fun a ha => by
      rw [C118.facs] at ha
      have : a < 3 := ha
      interval_cases a <;> norm_num)
  rw [C118.vars, C118.heap] at h
  exact ⟨h 0 (by simp) rfl 0 Nat.one_pos, h 1 (by simp) rfl 0 Nat.one_pos⟩

/-- Without the last measurement, an optimizer with the settings `o`. -/
noncomputable def C118.chain (m p : ℝ) (o : Settings ℝ) : OptWorld ℝ (GenVar ℝ) (Ldlt.Fact ℝ) :=
  ⟨(TinyGroups.world 0 0 m (TinyGroups.chain p 2 3)).heap, (TinyGroups.world 0 0 m (TinyGroups.chain p 2 3)).graph,
    { Optimizer.init realArith with hasGraph := true, settings := o }⟩

theorem C118.prepared_chain (m p : ℝ) (o : Settings ℝ) : Prepared (C118.chain m p o) := by
  have hu := TinyGroups.unused (TinyGroups.built_chain 0 0 m p 2 3) (TinyGroups.good_chain p 2 3)
  obtain ⟨h0, pre, post, h1, h2⟩ := hu.history
  refine ⟨⟨h0, pre, post, h1, ?_⟩, hu.ids, hu.noRepeats, hu.safe, hu.proper, rfl⟩
  unfold NoJacobianYet at h2 ⊢
  simp only [List.mem_append, not_or] at h2
  exact ⟨h2.1.1, h2.2.1.1, h2.2.2.1.1, h2.2.2.2.1⟩

/-- Any such chain is met exactly, whatever is measured: both residuals are zero. -/
example (m p : ℝ) (o : Settings ℝ) (hm : o.method = .gaussNewton) (hlr : o.learningRate = 1) (hpos : 0 < o.maxIterations)
    (env : Env ℝ (GenVar ℝ)) (t : OptWorld ℝ (GenVar ℝ) (Ldlt.Fact ℝ))
    (hret : optimize realArith Ldlt.linAlg env (C118.chain m p o) = (t, .ok ())) (hvalid : t.opt.stats.valid = true) :
    ∃ r', IsResidual t.heap (TinyGroups.chain p 2 3) r' ∧ r'.getD 0 0 = 0 ∧ r'.getD 1 0 = 0 := by
  have hb := TinyGroups.built_chain (0 : ℝ) 0 m p 2 3
  have hh : (C118.chain m p o).heap = TinyWorld.heap 0 0 m := hb.heap
  have hf : (C118.chain m p o).graph.getAllFactors = TinyGroups.chain p 2 3 := hb.facs
  have hv : (C118.chain m p o).graph.getAllVariables = [0, 1, 2] := hb.vars
  have haff : ∀ f ∈ (C118.chain m p o).graph.getAllFactors, ∃ B, AffineFactor (C118.chain m p o).heap f B := by
    rw [hf, hh]
    intro f hf
    simp only [TinyGroups.chain, List.mem_cons, List.not_mem_nil, or_false] at hf
    rcases hf with rfl | rfl
    · exact C24_generic_prior _ _ _ _ _
    · exact C24_generic_between _ _ _ _ _ _ _ rfl
  obtain ⟨r', h1, h2⟩ := C118_square Ldlt.exact env (C118.prepared_chain m p o) hm hlr hpos hret hvalid haff
    (C24_generic_increments _ _) (by rw [hf, hh, hv]; rfl)
  rw [hf] at h1 h2
  exact ⟨r', h1, h2 0 (show 0 < 2 by omega), h2 1 (show 1 < 2 by omega)⟩

/-- In rational arithmetic, also without the last measurement: as many residuals as free values. -/
example :
    let run := fun fs : List (Factor Rat (GenVar Rat)) =>
      (optimize ToyOpt.rat Ldlt.linAlg (TinyWorld.env 0) (ToyOpt.start (TinyGroups.world 0 0 1 fs) ToyOpt.gn)).1
    (run (TinyGroups.once 4 5 2 3 1)).opt.stats.valid = true ∧ ((run (TinyGroups.once 4 5 2 3 1)).heap 1).value = [5] ∧
    (run [genericPrior 10 0 [4] 2, genericBetween 11 0 1 2 1 3]).opt.stats.valid = true ∧
    ((run [genericPrior 10 0 [4] 2, genericBetween 11 0 1 2 1 3]).heap 1).value = [5] ∧
    (run [genericPrior 10 0 [4] 2, genericBetween 11 0 1 2 1 3]).opt.stats.chi2 = 0 := by decide +kernel

end Factorama.Props
