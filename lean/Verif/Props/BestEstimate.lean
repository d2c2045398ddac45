import Verif.Props.Solvable
import Verif.Props.Reported
import Verif.Spec.Estimator

/-!
# Property C126: no other way to add up the measurements is more precise
-/

namespace Factorama.Props
open Spec Graph Opt Matrix MeasureTheory

namespace C126

/-- A weighted sum as a product of vectors. -/
theorem weighted_eq (k : Nat → ℝ) (m : Nat) (r : List ℝ) : weighted k m r = (fun a : Fin m => k a) ⬝ᵥ asVec m r := by
  rw [weighted, dotProduct, ← Fin.sum_univ_eq_sum_range (fun a => k a * r.getD a 0)]
  rfl

/-- The projection on what the free values can explain makes no vector longer. -/
theorem projection_le {R N : Nat} (A : Matrix (Fin R) (Fin N) ℝ) (hu : IsUnit (Aᵀ * A)) (k : Fin R → ℝ) :
    (k ᵥ* (A * ((Aᵀ * A)⁻¹ * Aᵀ))) ⬝ᵥ (k ᵥ* (A * ((Aᵀ * A)⁻¹ * Aᵀ))) ≤ k ⬝ᵥ k := by
  have hd := (Matrix.isUnit_iff_isUnit_det _).1 hu
  obtain ⟨G, hG⟩ : ∃ G, G = (Aᵀ * A)⁻¹ * Aᵀ := ⟨_, rfl⟩
  have hGA : G * A = 1 := by rw [hG, Matrix.mul_assoc, nonsing_inv_mul _ hd]
  have hT : (A * G)ᵀ = A * G := by
    rw [hG, transpose_mul, transpose_mul, transpose_transpose, transpose_nonsing_inv, transpose_mul, transpose_transpose,
      Matrix.mul_assoc]
  rw [← hG]
  have hPP : (A * G) * (A * G) = A * G := by
    rw [Matrix.mul_assoc, ← Matrix.mul_assoc G A G, hGA, Matrix.one_mul]
  have hk : (A * G) *ᵥ k = k ᵥ* (A * G) := by rw [← vecMul_transpose, hT]
  have h1 : (k ᵥ* (A * G)) ⬝ᵥ (k ᵥ* (A * G)) = (k ᵥ* (A * G)) ⬝ᵥ k := by
    have e : (k ᵥ* (A * G)) ⬝ᵥ ((A * G) *ᵥ k) = (k ᵥ* (A * G)) ⬝ᵥ k := by rw [dotProduct_mulVec, vecMul_vecMul, hPP]
    rwa [hk] at e
  have h2 : 0 ≤ (k - k ᵥ* (A * G)) ⬝ᵥ (k - k ᵥ* (A * G)) := Finset.sum_nonneg fun i _ => mul_self_nonneg _
  rw [sub_dotProduct, dotProduct_sub, dotProduct_sub, dotProduct_comm k (k ᵥ* (A * G)), h1] at h2
  linarith

end C126

section
variable {V Fact : Type} [VarLike ℝ V] [LawfulVar ℝ V] {L : LinAlg ℝ Fact}
variable {Ω : Type} {s t : Ω → OptWorld ℝ V Fact} {truth : Ω → Heap V} {ε : Ω → List ℝ} {x : VRef → Nat → ℝ}

omit [LawfulVar ℝ V] in
theorem C126.rows (hE : C119.Experiment L s t truth ε x) (ω0 ω : Ω) :
    rowTotal (s ω).graph.getAllFactors = rowTotal (s ω0).graph.getAllFactors := by
  have hd := hE.design ω0 ω
  unfold rowTotal
  rw [sizes_eq hd.count fun k f f' h1 h2 => (hd.factors k f f' h1 h2).2.1]

/-- The final residuals are one linear function of the errors of the measurements. -/
theorem C126.residuals (hL : ExactLinAlg L) (hE : C119.Experiment L s t truth ε x) (ω0 : Ω) {h0 : Heap V} {r0 : List ℝ} {J0 : SpMat ℝ}
    (hs0 : SameShape (s ω0).heap h0) (hlin0 : Linearised h0 (s ω0).graph.getAllVariables (s ω0).graph.getAllFactors r0 J0) (ω : Ω) :
    ∃ r', SameButFree (s ω).heap (t ω).heap (s ω).graph.getAllVariables ∧ IsResidual (t ω).heap (s ω).graph.getAllFactors r' ∧
      asVec J0.rows r' =
        (1 - jacobianMatrix J0 * (((jacobianMatrix J0)ᵀ * jacobianMatrix J0)⁻¹ * (jacobianMatrix J0)ᵀ)) *ᵥ asVec J0.rows (ε ω) := by
  obtain ⟨env, hret⟩ := hE.returns ω
  have hp := hE.prepared ω
  obtain ⟨h, r, J, r', hb, hlin, hu, hbt, hr', _, key⟩ := C118_error hL env hp (hE.method ω) (hE.learningRate ω)
    (hE.iterations ω) hret (hE.valid ω) (C119.affine hE ω) (hE.increments ω)
  have hd := hE.design ω0 ω
  obtain ⟨e, _, h2, h3⟩ := key (truth ω) (ε ω) (hE.reachable ω) (hE.residual ω)
  rw [hd.variables] at hlin
  have hrows : J.rows = J0.rows := by rw [hlin.rows, hlin0.rows, C126.rows hE ω0 ω]
  have hcols : J.columns.length = J0.columns.length := by
    rw [hlin.columns, hlin0.columns, hb.1.freeTotal_eq, hd.shape.freeTotal_eq, hs0.freeTotal_eq]
  refine ⟨r', hbt, hr', projection_congr (A := jacobianMatrix J0) (A' := jacobianMatrix J) hrows hcols (fun a c a' c' ea ec => ?_)
    e r' (ε ω) h2 h3⟩
  show J.coeff a' c' = J0.coeff a c
  rw [← ea, ← ec]
  exact design_coeff (C118.nodup (hE.prepared ω0)) (C118.mem (hE.prepared ω0)) (by rw [← hd.variables]; exact C118.mem hp)
    (hE.prepared ω0).noRepeats hp.noRepeats hd.shape hd.count hd.factors hs0 hb.1 hlin0 hlin (hlin0.rows ▸ a.2)
    (hlin0.columns ▸ c.2)

variable [MeasurableSpace Ω] {μ : Measure Ω}

/-- **C126**. The errors of the measurements of a linear problem, in units of their standard deviations, are uncorrelated with mean 0
and variance 1. Take any combination `c` of the components of a free variable, and any weights `k` that recover it from exact
measurements, and estimate with these weights. The mean square of the error is then at least that of the estimate by `optimize()`,
which is `cᵗ P c` with the reported covariance `P`. -/
theorem C126 (hL : ExactLinAlg L) (hE : C119.Experiment L s t truth ε x) (ω0 : Ω)
    (hε : UnitNoise μ (rowTotal (s ω0).graph.getAllFactors) ε) (hh : (s ω0).opt.hessianValid = false)
    {u : OptWorld ℝ V Fact} (hprep : prepare realArith L (t ω0) = (u, .ok ())) {v : VRef} (hv : v ∈ (s ω0).graph.getAllVariables)
    {P : Mat ℝ} (hP : estimateCovariance realArith L u (some v) = .ok (some P)) {n : Nat} (hn : n = VarLike.size ((s ω0).heap v))
    (c k : Nat → ℝ) (hk : ∀ ω, Recovers (s ω) v c k) (r : Ω → List ℝ)
    (hr : ∀ ω, IsResidual (s ω).heap (s ω).graph.getAllFactors (r ω)) :
    (∑ i ∈ Finset.range n, ∑ j ∈ Finset.range n, c i * P.entry i j * c j) =
      ∫ ω, (combined c n ((t ω).heap v) - ∑ j ∈ Finset.range n, c j * x v j) ^ 2 ∂μ ∧
    ∫ ω, (combined c n ((t ω).heap v) - ∑ j ∈ Finset.range n, c j * x v j) ^ 2 ∂μ ≤
      ∫ ω, (estimateWith (s ω) v c k (r ω) - ∑ j ∈ Finset.range n, c j * x v j) ^ 2 ∂μ := by
  obtain ⟨env, hret⟩ := hE.returns ω0
  obtain ⟨h, r1, J, r', hb, hlin, hu, _⟩ := C118_error hL env (hE.prepared ω0) (hE.method ω0) (hE.learningRate ω0)
    (hE.iterations ω0) hret (hE.valid ω0) (C119.affine hE ω0) (hE.increments ω0)
  have hc : VarLike.isConst ((s ω0).heap v) = false := by
    obtain ⟨hpt, hvt, evars, efacs, hs, _⟩ := afterRun env (hE.prepared ω0)
      (fun hm => by rw [hE.method ω0] at hm; simp at hm) (hE.iterations ω0) hret (hE.valid ω0)
    obtain ⟨q, p, f, X, hr, hc, hv', _⟩ := estimateCovariance_some hP
    obtain rfl := Option.some.inj hr
    obtain ⟨_, _, _, _, _, _, _, hheap, _⟩ := C31_partial realArith L (t ω0) u (hvt.trans hh) hprep hv'
    rw [hheap, (hs v).2.1] at hc
    exact hc
  have hsize : ∀ ω, VarLike.size ((s ω).heap v) = n := fun ω => by rw [hn, ((hE.design ω0 ω).shape v).2.2]
  have hcω : ∀ ω, VarLike.isConst ((s ω).heap v) = false := fun ω => ((hE.design ω0 ω).shape v).2.1.trans hc
  have hvω : ∀ ω, v ∈ (s ω).graph.getAllVariables := fun ω => by rw [(hE.design ω0 ω).variables]; exact hv
  have htruth : ∀ ω, combined c n (truth ω v) = ∑ j ∈ Finset.range n, c j * x v j := fun ω =>
    Finset.sum_congr rfl fun j hj => by
      rw [hE.values ω v (hvω ω) (hcω ω) j (by rw [hsize]; exact Finset.mem_range.1 hj)]
  have hcov := fun i j (hi : i < n) (hj : j < n) => C119_covariance hL hE ω0 hε hh hprep hv hP (hn ▸ hi) (hn ▸ hj)
  rw [← hlin.rows] at hε
  have hrowsω : ∀ ω, rowTotal (s ω).graph.getAllFactors = J.rows := fun ω => (C126.rows hE ω0 ω).trans hlin.rows.symm
  obtain ⟨Q, hQ⟩ : ∃ Q, Q = jacobianMatrix J * (((jacobianMatrix J)ᵀ * jacobianMatrix J)⁻¹ * (jacobianMatrix J)ᵀ) := ⟨_, rfl⟩
  have hfit : ∀ ω, combined c n ((t ω).heap v) - ∑ j ∈ Finset.range n, c j * x v j =
      -(((fun a : Fin J.rows => k a) ᵥ* Q) ⬝ᵥ asVec J.rows (ε ω)) := by
    intro ω
    obtain ⟨r2, hbt, hr2, e⟩ := C126.residuals hL hE ω0 hb.1 hlin ω
    have := hk ω (t ω).heap (truth ω) r2 (ε ω) hbt (hE.reachable ω) hr2 (hE.residual ω)
    rw [hsize, htruth, hrowsω, C126.weighted_eq, C126.weighted_eq, e, ← hQ, sub_mulVec, one_mulVec, dotProduct_sub,
      dotProduct_mulVec] at this
    linarith
  have hother : ∀ ω, estimateWith (s ω) v c k (r ω) - ∑ j ∈ Finset.range n, c j * x v j =
      -((fun a : Fin J.rows => k a) ⬝ᵥ asVec J.rows (ε ω)) := by
    intro ω
    have := hk ω (s ω).heap (truth ω) (r ω) (ε ω) ⟨fun _ => ⟨rfl, rfl, rfl⟩, fun _ _ => rfl⟩ (hE.reachable ω) (hr ω) (hE.residual ω)
    rw [hsize, htruth] at this
    rw [estimateWith, hsize, ← C126.weighted_eq, ← hrowsω ω]
    linarith
  refine ⟨?_, ?_⟩
  · have hint : ∀ i j, i < n → j < n → Integrable (fun ω =>
        (component ((t ω).heap v) i - x v i) * (component ((t ω).heap v) j - x v j)) μ := by
      intro i j hi hj
      have ci : colStart (s ω0).heap (s ω0).graph.getAllVariables v + i < J.columns.length := by
        rw [hlin.columns, hb.1.freeTotal_eq]; exact C119.column hv hc (hn ▸ hi)
      have cj : colStart (s ω0).heap (s ω0).graph.getAllVariables v + j < J.columns.length := by
        rw [hlin.columns, hb.1.freeTotal_eq]; exact C119.column hv hc (hn ▸ hj)
      simp only [C119.errorsOf hL hE ω0 hb.1 hlin hv hc (hn ▸ hi) ci, C119.errorsOf hL hE ω0 hb.1 hlin hv hc (hn ▸ hj) cj, neg_mul_neg]
      exact (noise_covariance hε _ _).1
    have e : (fun ω => (combined c n ((t ω).heap v) - ∑ j ∈ Finset.range n, c j * x v j) ^ 2) = fun ω =>
        ∑ i ∈ Finset.range n, ∑ j ∈ Finset.range n,
          c i * c j * ((component ((t ω).heap v) i - x v i) * (component ((t ω).heap v) j - x v j)) := by
      funext ω
      rw [combined, ← Finset.sum_sub_distrib, pow_two, Finset.sum_mul_sum]
      exact Finset.sum_congr rfl fun i _ => Finset.sum_congr rfl fun j _ => by ring
    have hi2 : ∀ i ∈ Finset.range n, ∀ j ∈ Finset.range n, Integrable (fun ω =>
        c i * c j * ((component ((t ω).heap v) i - x v i) * (component ((t ω).heap v) j - x v j))) μ := fun i hi j hj =>
      (hint i j (Finset.mem_range.1 hi) (Finset.mem_range.1 hj)).const_mul _
    rw [e, integral_finsetSum _ fun i hi => integrable_finsetSum _ (hi2 i hi)]
    refine Finset.sum_congr rfl fun i hi => ?_
    rw [integral_finsetSum _ (hi2 i hi)]
    refine Finset.sum_congr rfl fun j hj => ?_
    rw [integral_const_mul, hcov i j (Finset.mem_range.1 hi) (Finset.mem_range.1 hj)]
    ring
  · simp only [hfit, hother, pow_two, neg_mul_neg]
    rw [(noise_covariance hε _ _).2, (noise_covariance hε _ _).2, hQ]
    exact C126.projection_le _ hu _

end

/-- Half of the first residual, which has weight 2, recovers the first variable. -/
theorem C126.recovers (m p q : ℝ) (o : Settings ℝ) :
    Recovers (C118.start m p q o) 0 (fun _ => 1) (fun a => if a = 0 then 1 / 2 else 0) := by
  have one : ∀ (g : GenVar ℝ), VarLike.size (F := ℝ) g = 1 → ∃ a, g.value = [a] := fun g hg => List.length_eq_one_iff.1 hg
  intro h h' r r' hb hb' hr hr'
  rw [C118.vars, C118.heap] at hb hb'
  rw [C118.facs] at hr hr' ⊢
  rw [C118.heap]
  obtain ⟨a, ha⟩ := one (h 0) (hb.1 0).2.2
  obtain ⟨c, hc⟩ := one (h 1) (hb.1 1).2.2
  obtain ⟨d, hd⟩ := one (h 2) (hb.1 2).2.2
  obtain ⟨a', ha'⟩ := one (h' 0) (hb'.1 0).2.2
  obtain ⟨c', hc'⟩ := one (h' 1) (hb'.1 1).2.2
  obtain ⟨d', hd'⟩ := one (h' 2) (hb'.1 2).2.2
  obtain rfl := (TinyWorld.residual_eq p q 2 3 1 h ha hc hd r).1 hr
  obtain rfl := (TinyWorld.residual_eq p q 2 3 1 h' ha' hc' hd' r').1 hr'
  have e1 : rowTotal (TinyWorld.facs p q (2 : ℝ) 3 1) = 3 := rfl
  have e2 : VarLike.size (F := ℝ) (TinyWorld.heap (0 : ℝ) 0 m 0) = 1 := rfl
  rw [e1, e2]
  simp [weighted, combined, component, VarLike.value, ha, ha']

/-- The experiment with two coins: the estimates of the first variable are at least as precise as the values measured directly for it.
(The mean squares of the errors are 10/49 and 1/4.) -/
example : ∃ t : Bool × Bool → OptWorld ℝ (GenVar ℝ) (Ldlt.Fact ℝ),
    (∀ ω, optimize realArith Ldlt.linAlg (TinyWorld.env 0) (C119.start C121.gn ω) = (t ω, .ok ())) ∧
    ∃ u P, prepare realArith Ldlt.linAlg (t (true, true)) = (u, .ok ()) ∧
      estimateCovariance realArith Ldlt.linAlg u (some 0) = .ok (some P) ∧
      P.entry 0 0 = ∫ ω, (component ((t ω).heap 0) 0 - 5) ^ 2 ∂C119.coins ∧
      ∫ ω, (component ((t ω).heap 0) 0 - 5) ^ 2 ∂C119.coins ≤ ∫ ω, ((5 - C119.sign ω.1 / 2) - 5) ^ 2 ∂C119.coins := by
  obtain ⟨h1, h2, h3, h4⟩ := C121.gn_facts
  have l0 : (0 : ℝ) ≤ C121.gn.learningRate := by rw [h2]; norm_num
  have l2 : C121.gn.learningRate ≤ (2 : ℝ) := by rw [h2]; norm_num
  have hrun : ∀ ω, ∃ t, optimize realArith Ldlt.linAlg (TinyWorld.env 0) (C119.start C121.gn ω) = (t, .ok ()) ∧ t.opt.stats.valid = true :=
    fun ω => by
      obtain ⟨t, e, e1, _⟩ := C121 Ldlt.exact Ldlt.exact_pivots (TinyWorld.env 0) (C121.solvable _ _ _ C121.gn) h1 h2 h3 h4
      exact ⟨t, e, e1⟩
  choose t ht hv using hrun
  have hE := C119.experiment C121.gn h1 h2 h3 (TinyWorld.env 0) t ht hv
  obtain ⟨r0, hlin⟩ := C123.linearised (2 - C119.sign true / 3) (5 - C119.sign true / 2) (7 - C119.sign true * C119.sign true) C121.gn
  obtain ⟨t0, u, e1, _, e2, e3⟩ := C123_linear Ldlt.exact Ldlt.exact_pivots (TinyWorld.env 0)
    (C121.solvable (2 - C119.sign true / 3) (5 - C119.sign true / 2) (7 - C119.sign true * C119.sign true) C121.gn)
    h1 l0 l2 h3 rfl hlin C123.determines
  have et : t0 = t (true, true) := congrArg Prod.fst (e1.symm.trans (ht (true, true)))
  rw [et] at e2
  obtain ⟨P, hP, _⟩ := e3 0 (by rw [C118.vars]; simp) (by rw [C118.heap]; rfl) (by rw [C118.heap]; exact Nat.one_pos)
  have hres : ∀ ω, IsResidual (C119.start C121.gn ω).heap (C119.start C121.gn ω).graph.getAllFactors
      [2 * (0 - (5 - C119.sign ω.1 / 2)), 3 * (0 - 0 - (2 - C119.sign ω.2 / 3)), 1 * (0 - (7 - C119.sign ω.1 * C119.sign ω.2))] := fun ω => by
    rw [C119.start, C118.facs, C118.heap]
    exact (TinyWorld.residual_eq _ _ 2 3 1 _ rfl rfl rfl _).2 rfl
  obtain ⟨k1, k2⟩ := C126 Ldlt.exact hE (true, true) (by rw [C119.start, C118.facs]; exact C119.noise) rfl e2 (v := 0)
    (by rw [C119.start, C118.vars]; simp) hP (n := 1) (by rw [C119.start, C118.heap]; rfl) _ _
    (fun ω => C126.recovers _ _ _ _) _ hres
  have e4 : ∀ ω, estimateWith (C119.start C121.gn ω) 0 (fun _ => 1) (fun a => if a = 0 then 1 / 2 else 0)
      [2 * (0 - (5 - C119.sign ω.1 / 2)), 3 * (0 - 0 - (2 - C119.sign ω.2 / 3)), 1 * (0 - (7 - C119.sign ω.1 * C119.sign ω.2))] =
      5 - C119.sign ω.1 / 2 := fun ω => by
    rw [estimateWith, C119.start, C118.facs, C118.heap]
    have e1 : ∀ p q, rowTotal (TinyWorld.facs p q (2 : ℝ) 3 1) = 3 := fun _ _ => rfl
    have e2 : ∀ m, VarLike.size (F := ℝ) (TinyWorld.heap (0 : ℝ) 0 m 0) = 1 := fun _ => rfl
    have e3 : ∀ m, component (TinyWorld.heap (0 : ℝ) 0 m 0) 0 = 0 := fun _ => rfl
    rw [e1, e2]
    simp [weighted, combined, e3, Finset.sum_range_succ]
  have e5 : ∀ ω, combined (fun _ => 1) 1 ((t ω).heap 0) = component ((t ω).heap 0) 0 := fun ω => by simp [combined]
  have e6 : C119.truth 0 0 = 5 := if_pos rfl
  simp only [e4] at k2
  simp only [e5, e6, Finset.sum_range_one, one_mul, mul_one] at k1 k2
  exact ⟨t, ht, u, P, e2, hP, k1, k2⟩

end Factorama.Props
