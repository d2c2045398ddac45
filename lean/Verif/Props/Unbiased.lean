import Verif.Lemmas.Noise
import Verif.Props.Errors
import Mathlib.Probability.UniformOn
import Mathlib.MeasureTheory.Integral.Bochner.SumMeasure

/-!
# Property C119: the reported covariance is the covariance of the error of the estimate
# Property C120: the expected chi² is the redundancy
-/

namespace Factorama.Props
open Spec Graph Opt Matrix MeasureTheory

section
variable {V Fact : Type} [VarLike ℝ V] [LawfulVar ℝ V] {L : LinAlg ℝ Fact}

/-- A linear problem with random measured values: for each outcome `ω` the optimizer `s ω` is set up, and `optimize()` returns with
`t ω`. The problems differ in the values measured and in the start values only. `truth ω` are the values of `s ω` with the free
variables at their true values `x`, and `ε ω` the residuals there. -/
structure C119.Experiment (L : LinAlg ℝ Fact) {Ω : Type} (s t : Ω → OptWorld ℝ V Fact) (truth : Ω → Heap V) (ε : Ω → List ℝ)
    (x : VRef → Nat → ℝ) : Prop where
  prepared : ∀ ω, Prepared (s ω)
  method : ∀ ω, (s ω).opt.settings.method = .gaussNewton
  learningRate : ∀ ω, (s ω).opt.settings.learningRate = 1
  iterations : ∀ ω, 0 < (s ω).opt.settings.maxIterations
  returns : ∀ ω, ∃ env, optimize realArith L env (s ω) = (t ω, .ok ())
  valid : ∀ ω, (t ω).opt.stats.valid = true
  design : ∀ ω ω', SameDesign (s ω) (s ω')
  increments : ∀ ω, AdditiveIncrements (s ω).heap (s ω).graph.getAllVariables
  reachable : ∀ ω, SameButFree (s ω).heap (truth ω) (s ω).graph.getAllVariables
  values : ∀ ω, ∀ v ∈ (s ω).graph.getAllVariables, VarLike.isConst ((s ω).heap v) = false → ∀ j, j < VarLike.size ((s ω).heap v) →
    component (truth ω v) j = x v j
  residual : ∀ ω, IsResidual (truth ω) (s ω).graph.getAllFactors (ε ω)

variable {Ω : Type} {s t : Ω → OptWorld ℝ V Fact} {truth : Ω → Heap V} {ε : Ω → List ℝ} {x : VRef → Nat → ℝ}

theorem C119.affine (hE : C119.Experiment L s t truth ε x) (ω : Ω) :
    ∀ f ∈ (s ω).graph.getAllFactors, ∃ B, AffineFactor (s ω).heap f B := by
  intro f hf
  obtain ⟨k, hk⟩ := List.mem_iff_getElem?.1 hf
  obtain ⟨_, _, B, hB, _⟩ := (hE.design ω ω).factors k f f hk hk
  exact ⟨B, hB⟩

/-- The errors for all outcomes are one linear function of the residuals at the true values. -/
theorem C119.errorsOf (hL : ExactLinAlg L) (hE : C119.Experiment L s t truth ε x) (ω0 : Ω) {h0 : Heap V} {r0 : List ℝ} {J0 : SpMat ℝ}
    (hs0 : SameShape (s ω0).heap h0) (hlin0 : Linearised h0 (s ω0).graph.getAllVariables (s ω0).graph.getAllFactors r0 J0)
    {v : VRef} (hv : v ∈ (s ω0).graph.getAllVariables) (hc : VarLike.isConst ((s ω0).heap v) = false) {j : Nat}
    (hj : j < VarLike.size ((s ω0).heap v)) (hcol : colStart (s ω0).heap (s ω0).graph.getAllVariables v + j < J0.columns.length)
    (ω : Ω) : component ((t ω).heap v) j - x v j =
      -((((jacobianMatrix J0)ᵀ * jacobianMatrix J0)⁻¹ * (jacobianMatrix J0)ᵀ) ⟨_, hcol⟩ ⬝ᵥ asVec J0.rows (ε ω)) := by
  obtain ⟨env, hret⟩ := hE.returns ω
  obtain ⟨h, r, J, r', hb, hlin, hu, _, _, _, key⟩ := C118_error hL env (hE.prepared ω) (hE.method ω) (hE.learningRate ω)
    (hE.iterations ω) hret (hE.valid ω) (C119.affine hE ω) (hE.increments ω)
  have hd := hE.design ω0 ω
  have hsh := hd.shape
  obtain ⟨e, h1, h2, _⟩ := key (truth ω) (ε ω) (hE.reachable ω) (hE.residual ω)
  rw [hd.variables] at hlin h1
  have hrows : J.rows = J0.rows := by
    rw [hlin.rows, hlin0.rows]
    unfold rowTotal
    rw [sizes_eq hd.count fun k f f' h1 h2 => (hd.factors k f f' h1 h2).2.1]
  have hcols : J.columns.length = J0.columns.length := by
    rw [hlin.columns, hlin0.columns, hb.1.freeTotal_eq, hsh.freeTotal_eq, hs0.freeTotal_eq]
  have hco : ∀ a c, a < J0.rows → c < J0.columns.length → J.coeff a c = J0.coeff a c := fun a c ha hc' =>
    design_coeff (C118.nodup (hE.prepared ω0)) (C118.mem (hE.prepared ω0)) (by rw [← hd.variables]; exact C118.mem (hE.prepared ω))
      (hE.prepared ω0).noRepeats (hE.prepared ω).noRepeats hsh hd.count hd.factors hs0 hb.1 hlin0 hlin (hlin0.rows ▸ ha)
      (hlin0.columns ▸ hc')
  have h3 := gain_congr (A := jacobianMatrix J0) (A' := jacobianMatrix J) hrows hcols (fun a c a' c' ea ec => by
    show J.coeff a' c' = J0.coeff a c
    rw [← ea, ← ec]
    exact hco a c a.2 c.2) e (ε ω) h2
  have h4 := congrFun h3 ⟨_, hcol⟩
  have h5 := h1 v hv ((hsh v).2.1.trans hc) j (by rw [(hsh v).2.2]; exact hj)
  rw [hsh.colStart_eq, hE.values ω v (by rw [hd.variables]; exact hv) ((hsh v).2.1.trans hc) j (by rw [(hsh v).2.2]; exact hj)] at h5
  rw [← h5]
  refine h4.trans ?_
  rw [mulVec_mulVec]
  rfl

theorem C119.column {h : Heap V} {vars : List VRef} {v : VRef} (hv : v ∈ vars) (hc : VarLike.isConst (h v) = false) {j : Nat}
    (hj : j < VarLike.size (h v)) : colStart h vars v + j < freeTotal h vars := by
  have := colStart_le h hv
  rw [freeSize, hc] at this
  simp at this
  omega

variable [MeasurableSpace Ω] {μ : Measure Ω}

/-- **C119**, no bias. If the errors of the measurements, in units of their standard deviations, have mean zero, the mean of the
estimate is the true value. -/
theorem C119_unbiased [IsProbabilityMeasure μ] (hL : ExactLinAlg L) (hE : C119.Experiment L s t truth ε x) (ω0 : Ω)
    (hint : ∀ a, a < rowTotal (s ω0).graph.getAllFactors → Integrable (fun ω => (ε ω).getD a 0) μ)
    (hmean : ∀ a, a < rowTotal (s ω0).graph.getAllFactors → ∫ ω, (ε ω).getD a 0 ∂μ = 0)
    {v : VRef} (hv : v ∈ (s ω0).graph.getAllVariables) (hc : VarLike.isConst ((s ω0).heap v) = false) {j : Nat} (hj : j < VarLike.size ((s ω0).heap v)) :
    ∫ ω, component ((t ω).heap v) j ∂μ = x v j := by
  obtain ⟨env, hret⟩ := hE.returns ω0
  obtain ⟨h, r, J, r', hb, hlin, hu, _⟩ := C118_error hL env (hE.prepared ω0) (hE.method ω0) (hE.learningRate ω0)
    (hE.iterations ω0) hret (hE.valid ω0) (C119.affine hE ω0) (hE.increments ω0)
  have hcol : colStart (s ω0).heap (s ω0).graph.getAllVariables v + j < J.columns.length := by
    rw [hlin.columns, hb.1.freeTotal_eq]
    exact C119.column hv hc hj
  rw [← hlin.rows] at hint hmean
  have key := C119.errorsOf hL hE ω0 hb.1 hlin hv hc hj hcol
  obtain ⟨i1, i2⟩ := noise_mean hint hmean ((((jacobianMatrix J)ᵀ * jacobianMatrix J)⁻¹ * (jacobianMatrix J)ᵀ) ⟨_, hcol⟩)
  have e : (fun ω => component ((t ω).heap v) j) = fun ω => x v j -
      ((((jacobianMatrix J)ᵀ * jacobianMatrix J)⁻¹ * (jacobianMatrix J)ᵀ) ⟨_, hcol⟩ ⬝ᵥ asVec J.rows (ε ω)) := by
    funext ω
    have := key ω
    linarith
  rw [e, integral_sub (integrable_const _) i1, i2]
  simp

/-- **C119**, the covariance. If moreover the errors of the measurements, in units of their standard deviations, have variance 1
and are not correlated, the matrix that `estimate_covariance` reports for a variable, whatever the values measured, is the covariance
matrix of the error of the estimate. -/
theorem C119_covariance (hL : ExactLinAlg L) (hE : C119.Experiment L s t truth ε x) (ω0 : Ω)
    (hε : UnitNoise μ (rowTotal (s ω0).graph.getAllFactors) ε) (hh : (s ω0).opt.hessianValid = false)
    {u : OptWorld ℝ V Fact} (hprep : prepare realArith L (t ω0) = (u, .ok ())) {v : VRef} (hv : v ∈ (s ω0).graph.getAllVariables)
    {P : Mat ℝ} (hP : estimateCovariance realArith L u (some v) = .ok (some P)) {i j : Nat}
    (hi : i < VarLike.size ((s ω0).heap v)) (hj : j < VarLike.size ((s ω0).heap v)) :
    ∫ ω, (component ((t ω).heap v) i - x v i) * (component ((t ω).heap v) j - x v j) ∂μ = P.entry i j := by
  obtain ⟨env, hret⟩ := hE.returns ω0
  obtain ⟨hpt, hvt, evars, efacs, hs, h, r, J, hx, hlin, hJ⟩ := afterRun env (hE.prepared ω0)
    (fun hm => by rw [hE.method ω0] at hm; simp at hm) (hE.iterations ω0) hret (hE.valid ω0)
  obtain ⟨h0, pre, post, hw, _⟩ := hpt.history
  obtain ⟨J1, e1, hu, z1, z2, hent, _⟩ := C30_block hL hw (hvt.trans hh) hprep v (by rw [evars]; exact hv) P hP
  rw [hJ] at e1
  obtain rfl := Res.ok.inj e1
  obtain ⟨ci, cj, e⟩ := hent i j (by rw [(hs v).2.2]; exact hi) (by rw [(hs v).2.2]; exact hj)
  have hc : VarLike.isConst ((s ω0).heap v) = false := by
    obtain ⟨r, p, f, X, hr, hc, hv', _⟩ := estimateCovariance_some hP
    obtain rfl := Option.some.inj hr
    obtain ⟨_, _, _, _, _, _, _, hheap, _⟩ := C31_partial realArith L (t ω0) u (hvt.trans hh) hprep hv'
    rw [hheap, (hs v).2.1] at hc
    exact hc
  rw [e]
  simp only [evars, hs.colStart_eq] at ci cj ⊢
  rw [← hlin.rows] at hε
  have key := fun ω => C119.errorsOf hL hE ω0 hx hlin hv hc hi ci ω
  have key' := fun ω => C119.errorsOf hL hE ω0 hx hlin hv hc hj cj ω
  simp only [key, key', neg_mul_neg]
  rw [(noise_covariance hε _ _).2, gain_rows _ hu]

/-- **C120**. For such errors the mean of the chi² that `optimize()` reports is the number of residuals less the number of free
values. -/
theorem C120 (hL : ExactLinAlg L) (hE : C119.Experiment L s t truth ε x) (ω0 : Ω)
    (hε : UnitNoise μ (rowTotal (s ω0).graph.getAllFactors) ε) :
    ∫ ω, (t ω).opt.stats.chi2 ∂μ =
      (rowTotal (s ω0).graph.getAllFactors : ℝ) - freeTotal (s ω0).heap (s ω0).graph.getAllVariables := by
  obtain ⟨env0, hret0⟩ := hE.returns ω0
  obtain ⟨h0, r0, J0, _, hb0, hlin0, hu0, _⟩ := C118_error hL env0 (hE.prepared ω0) (hE.method ω0) (hE.learningRate ω0)
    (hE.iterations ω0) hret0 (hE.valid ω0) (C119.affine hE ω0) (hE.increments ω0)
  have key : ∀ ω, (t ω).opt.stats.chi2 =
      ((1 - jacobianMatrix J0 * (((jacobianMatrix J0)ᵀ * jacobianMatrix J0)⁻¹ * (jacobianMatrix J0)ᵀ)) *ᵥ asVec J0.rows (ε ω)) ⬝ᵥ
      ((1 - jacobianMatrix J0 * (((jacobianMatrix J0)ᵀ * jacobianMatrix J0)⁻¹ * (jacobianMatrix J0)ᵀ)) *ᵥ asVec J0.rows (ε ω)) := by
    intro ω
    obtain ⟨env, hret⟩ := hE.returns ω
    have hp := hE.prepared ω
    obtain ⟨h, r, J, r', hb, hlin, hu, _, hr', _, key⟩ := C118_error hL env hp (hE.method ω) (hE.learningRate ω)
      (hE.iterations ω) hret (hE.valid ω) (C119.affine hE ω) (hE.increments ω)
    have hd := hE.design ω0 ω
    obtain ⟨e, _, h2, h3⟩ := key (truth ω) (ε ω) (hE.reachable ω) (hE.residual ω)
    rw [hd.variables] at hlin
    have htotal : rowTotal (s ω).graph.getAllFactors = rowTotal (s ω0).graph.getAllFactors := by
      unfold rowTotal
      rw [sizes_eq hd.count fun k f f' h1 h2 => (hd.factors k f f' h1 h2).2.1]
    have hrows : J.rows = J0.rows := by rw [hlin.rows, hlin0.rows, htotal]
    have hcols : J.columns.length = J0.columns.length := by
      rw [hlin.columns, hlin0.columns, hb.1.freeTotal_eq, hd.shape.freeTotal_eq, hb0.1.freeTotal_eq]
    have h4 := projection_congr (A := jacobianMatrix J0) (A' := jacobianMatrix J) hrows hcols (fun a c a' c' ea ec => by
      show J.coeff a' c' = J0.coeff a c
      rw [← ea, ← ec]
      exact design_coeff (C118.nodup (hE.prepared ω0)) (C118.mem (hE.prepared ω0)) (by rw [← hd.variables]; exact C118.mem hp)
        (hE.prepared ω0).noRepeats hp.noRepeats hd.shape hd.count hd.factors hb0.1 hb.1 hlin0 hlin (hlin0.rows ▸ a.2)
        (hlin0.columns ▸ c.2)) e r' (ε ω) h2 h3
    have hchi : (t ω).opt.stats.chi2 = realArith.sqNorm r' := by
      obtain ⟨ha, pre, post, hw, _⟩ := hp.history
      obtain ⟨ri, _, _, _, hr, _⟩ := C110.last env hp.graph (hE.iterations ω) hret (hE.valid ω)
      rcases C27_statistics_partial realArith L env (s ω) hw hp.graph (fun hm => by rw [hE.method ω] at hm; simp at hm) ri hr
        (by rw [hret]) with ⟨r2, h5, h6, _⟩ | ⟨_, h5, _⟩
      · rw [hret] at h5 h6
        rw [h6, isResidual_unique h5 hr']
      · rw [hret, hE.valid ω] at h5
        simp at h5
    rw [hchi, sqNorm_eq ((isResidual_length hr').trans (htotal.trans hlin0.rows.symm)), h4]
  simp only [key]
  rw [← hlin0.rows] at hε ⊢
  rw [noise_squares hε, projection_rows _ hu0, hlin0.columns, hb0.1.freeTotal_eq]

end

/-! ### Example: the small graph with random measurements

The true values are 5 and 7. Each of three measurements is wrong by one standard deviation, 1/2, 1/3 and 1; the signs are those of
two independent coins and of their product. -/

namespace C119

/-- The three errors, in standard deviations. -/
def sign (b : Bool) : ℝ := if b then 1 else -1
def errors (ω : Bool × Bool) : List ℝ := [sign ω.1, sign ω.2, sign ω.1 * sign ω.2]

/-- The optimizer for the values measured. -/
noncomputable def start (o : Settings ℝ) (ω : Bool × Bool) : OptWorld ℝ (GenVar ℝ) (Ldlt.Fact ℝ) :=
  C118.start (2 - sign ω.2 / 3) (5 - sign ω.1 / 2) (7 - sign ω.1 * sign ω.2) o

/-- Factors with the same Jacobian. -/
theorem same {h h' : Heap (GenVar ℝ)} {f f' : Factor ℝ (GenVar ℝ)} {js : List (Mat ℝ)} (hv : f'.variables = f.variables)
    (hs : f'.residualSize = f.residualSize) (h1 : ∃ B, AffineFactor h f B) (h2 : ∃ B, AffineFactor h' f' B)
    (e1 : f.computeJacobians h [] = .ok js) (e2 : f'.computeJacobians h' [] = .ok js) : SameMeasurement h h' f f' := by
  obtain ⟨B, hB⟩ := h1
  obtain ⟨B', hB'⟩ := h2
  obtain rfl := hB.jacobian h (fun _ => ⟨rfl, rfl, rfl⟩) js e1
  obtain rfl := hB'.jacobian h' (fun _ => ⟨rfl, rfl, rfl⟩) js e2
  exact ⟨hv, hs, _, hB, hB'⟩

theorem design (m p q m' p' q' : ℝ) (o : Settings ℝ) : SameDesign (C118.start m p q o) (C118.start m' p' q' o) where
  «variables» := by rw [C118.vars, C118.vars]
  shape := by
    rw [C118.heap, C118.heap]
    intro r
    match r with
    | 0 => exact ⟨rfl, rfl, rfl⟩
    | 1 => exact ⟨rfl, rfl, rfl⟩
    | r + 2 => exact ⟨rfl, rfl, rfl⟩
  count := by rw [C118.facs, C118.facs]; rfl
  factors := by
    rw [C118.facs, C118.facs, C118.heap, C118.heap]
    intro k f f' h1 h2
    match k with
    | 0 =>
      obtain rfl := Option.some.inj h1
      obtain rfl := Option.some.inj h2
      exact same rfl rfl (C24_generic_prior ..) (C24_generic_prior ..) rfl rfl
    | 1 =>
      obtain rfl := Option.some.inj h1
      obtain rfl := Option.some.inj h2
      exact same rfl rfl (C24_generic_between _ _ _ _ _ _ _ rfl) (C24_generic_between _ _ _ _ _ _ _ rfl) rfl rfl
    | 2 =>
      obtain rfl := Option.some.inj h1
      obtain rfl := Option.some.inj h2
      exact same rfl rfl (C24_generic_prior ..) (C24_generic_prior ..) rfl rfl
    | k + 3 => simp [TinyWorld.facs] at h1

/-- The true values. -/
def truth (v : VRef) (_ : Nat) : ℝ := if v = 0 then 5 else 7

theorem experiment (o : Settings ℝ) (hm : o.method = .gaussNewton) (hlr : o.learningRate = 1) (hpos : 0 < o.maxIterations)
    (env : Env ℝ (GenVar ℝ)) (t : Bool × Bool → OptWorld ℝ (GenVar ℝ) (Ldlt.Fact ℝ))
    (hret : ∀ ω, optimize realArith Ldlt.linAlg env (start o ω) = (t ω, .ok ())) (hvalid : ∀ ω, (t ω).opt.stats.valid = true) :
    Experiment Ldlt.linAlg (start o) t (fun ω => TinyWorld.heap 5 7 (2 - sign ω.2 / 3)) errors truth where
  prepared ω := C118.prepared ..
  method _ := hm
  learningRate _ := hlr
  iterations _ := hpos
  returns ω := ⟨env, hret ω⟩
  valid := hvalid
  design ω ω' := design ..
  increments ω := C24_generic_increments _ _
  reachable ω := C118.reachable _ _ _ o 5 7
  values ω := by
    rw [start, C118.heap, C118.vars]
    intro v hv hc j hj
    match v with
    | 0 =>
      obtain rfl : j = 0 := Nat.lt_one_iff.1 hj
      simp [component, VarLike.value, TinyWorld.heap, truth]
    | 1 =>
      obtain rfl : j = 0 := Nat.lt_one_iff.1 hj
      simp [component, VarLike.value, TinyWorld.heap, truth]
    | v + 2 => simp [VarLike.isConst, TinyWorld.heap] at hc
  residual ω := by
    have := C118.residual (2 - sign ω.2 / 3) (5 - sign ω.1 / 2) (7 - sign ω.1 * sign ω.2) o 5 7
    have e : errors ω = [2 * (5 - (5 - sign ω.1 / 2)), 3 * (7 - 5 - (2 - sign ω.2 / 3)), 1 * (7 - (7 - sign ω.1 * sign ω.2))] := by
      simp only [errors, List.cons.injEq, and_true]
      refine ⟨?_, ?_, ?_⟩ <;> ring
    rw [e]
    exact this

/-- Two fair coins. -/
noncomputable def coins : Measure (Bool × Bool) := ProbabilityTheory.uniformOn Set.univ

instance : IsProbabilityMeasure coins := ProbabilityTheory.uniformOn_isProbabilityMeasure Set.finite_univ Set.univ_nonempty

theorem integral_coins (f : Bool × Bool → ℝ) :
    ∫ ω, f ω ∂coins = (f (true, true) + f (true, false) + f (false, true) + f (false, false)) / 4 := by
  rw [integral_fintype .of_finite]
  have : ∀ ω : Bool × Bool, coins.real {ω} = 1 / 4 := by
    intro ω
    rw [Measure.real, coins, ProbabilityTheory.uniformOn_univ]
    simp
  simp only [this, smul_eq_mul, Fintype.sum_prod_type, Fintype.sum_bool]
  ring

theorem noise : UnitNoise coins 3 errors where
  integrable _ _ := .of_finite
  integrable_mul _ _ _ _ := .of_finite
  mean a ha := by
    rw [integral_coins]
    interval_cases a <;> norm_num [errors, sign]
  covariance a b ha hb := by
    rw [integral_coins]
    interval_cases a <;> interval_cases b <;> norm_num [errors, sign]

end C119

/-- The mean of the four estimates of the first variable is its true value 5. -/
example (o : Settings ℝ) (hm : o.method = .gaussNewton) (hlr : o.learningRate = 1) (hpos : 0 < o.maxIterations)
    (env : Env ℝ (GenVar ℝ)) (t : Bool × Bool → OptWorld ℝ (GenVar ℝ) (Ldlt.Fact ℝ))
    (hret : ∀ ω, optimize realArith Ldlt.linAlg env (C119.start o ω) = (t ω, .ok ())) (hvalid : ∀ ω, (t ω).opt.stats.valid = true) :
    ∫ ω, component ((t ω).heap 0) 0 ∂C119.coins = 5 := by
  have hE := C119.experiment o hm hlr hpos env t hret hvalid
  refine (C119_unbiased Ldlt.exact hE (true, true) (fun a ha => ?_) (fun a ha => ?_) (v := 0) ?_ ?_ (j := 0) ?_).trans (if_pos rfl)
  · rw [C119.start, C118.facs] at ha; exact C119.noise.integrable a ha
  · rw [C119.start, C118.facs] at ha; exact C119.noise.mean a ha
  · rw [C119.start, C118.vars]; simp
  · rw [C119.start, C118.heap]; rfl
  · rw [C119.start, C118.heap]; exact Nat.one_pos

/-- The mean of the squares of their errors is the variance reported by any of the four optimizers. -/
example (o : Settings ℝ) (hm : o.method = .gaussNewton) (hlr : o.learningRate = 1) (hpos : 0 < o.maxIterations)
    (env : Env ℝ (GenVar ℝ)) (t : Bool × Bool → OptWorld ℝ (GenVar ℝ) (Ldlt.Fact ℝ))
    (hret : ∀ ω, optimize realArith Ldlt.linAlg env (C119.start o ω) = (t ω, .ok ())) (hvalid : ∀ ω, (t ω).opt.stats.valid = true)
    (ω0 : Bool × Bool) (u : OptWorld ℝ (GenVar ℝ) (Ldlt.Fact ℝ)) (hprep : prepare realArith Ldlt.linAlg (t ω0) = (u, .ok ()))
    (P : Mat ℝ) (hP : estimateCovariance realArith Ldlt.linAlg u (some 0) = .ok (some P)) :
    ∫ ω, (component ((t ω).heap 0) 0 - 5) * (component ((t ω).heap 0) 0 - 5) ∂C119.coins = P.entry 0 0 := by
  have hE := C119.experiment o hm hlr hpos env t hret hvalid
  have hs : VarLike.size (F := ℝ) ((C119.start o ω0).heap 0) = 1 := by rw [C119.start, C118.heap]; rfl
  exact C119_covariance Ldlt.exact hE ω0 (by rw [C119.start, C118.facs]; exact C119.noise) rfl hprep (v := 0)
    (by rw [C119.start, C118.vars]; simp) hP (by rw [hs]; omega) (by rw [hs]; omega)

/-- The mean of the four chi² is 3 - 2. -/
example (o : Settings ℝ) (hm : o.method = .gaussNewton) (hlr : o.learningRate = 1) (hpos : 0 < o.maxIterations)
    (env : Env ℝ (GenVar ℝ)) (t : Bool × Bool → OptWorld ℝ (GenVar ℝ) (Ldlt.Fact ℝ))
    (hret : ∀ ω, optimize realArith Ldlt.linAlg env (C119.start o ω) = (t ω, .ok ())) (hvalid : ∀ ω, (t ω).opt.stats.valid = true) :
    ∫ ω, (t ω).opt.stats.chi2 ∂C119.coins = 1 := by
  have hE := C119.experiment o hm hlr hpos env t hret hvalid
  rw [C120 Ldlt.exact hE (true, true) (by rw [C119.start, C118.facs]; exact C119.noise), C119.start, C118.facs, C118.heap, C118.vars]
  have h1 : rowTotal (TinyWorld.facs (5 - C119.sign true / 2) (7 - C119.sign true * C119.sign true) 2 3 1) = 3 := rfl
  have h2 : freeTotal (F := ℝ) (TinyWorld.heap 0 0 (2 - C119.sign true / 3)) [0, 1, 2] = 2 := rfl
  rw [h1, h2]
  norm_num

/-- In rational arithmetic: the mean of the four estimates is 5, that of the squared errors 10/49, which is what each of the four
optimizers reports, and that of chi² 1. -/
example :
    let run := fun e0 e1 e2 : Rat => (optimize ToyOpt.rat Ldlt.linAlg (TinyWorld.env 0)
      (ToyOpt.start (TinyGroups.world 0 0 (2 - e1 / 3) (TinyGroups.once (5 - e0 / 2) (7 - e2) 2 3 1)) ToyOpt.gn)).1
    let runs := [run 1 1 1, run 1 (-1) (-1), run (-1) 1 (-1), run (-1) (-1) 1]
    let values := runs.map fun r => (r.heap 0).value.getD 0 0
    values.sum / 4 = 5 ∧ (runs.map fun r => r.opt.stats.chi2).sum / 4 = 1 ∧ (values.map fun x => (x - 5) * (x - 5)).sum / 4 = 10 / 49 ∧
    runs.map (fun r => C29.report (prepare ToyOpt.rat Ldlt.linAlg r).1 (some 0)) = List.replicate 4 (.ok (some [10 / 49])) := by
  decide +kernel

end Factorama.Props
