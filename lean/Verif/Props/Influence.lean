import Verif.Props.BestEstimate

/-!
# Property C127: how far a measured value can move an estimate
# Property C128: the residuals that remain
-/

namespace Factorama.Props
open Spec Graph Opt Matrix MeasureTheory

section
variable {V Fact : Type} [VarLike ℝ V] [LawfulVar ℝ V] {L : LinAlg ℝ Fact}

omit [LawfulVar ℝ V] in
theorem C127.symm {s s' : OptWorld ℝ V Fact} (hd : SameDesign s s') : SameDesign s' s where
  «variables» := hd.variables.symm
  shape := fun r => ⟨(hd.shape r).1.symm, (hd.shape r).2.1.symm, (hd.shape r).2.2.symm⟩
  count := hd.count.symm
  factors := fun k f f' h1 h2 => by
    obtain ⟨e1, e2, B, b1, b2⟩ := hd.factors k f' f h2 h1
    exact ⟨e1.symm, e2.symm, B, b2, b1⟩

omit [LawfulVar ℝ V] in
theorem C127.refl {s s' : OptWorld ℝ V Fact} (hd : SameDesign s s') : SameDesign s s where
  «variables» := rfl
  shape := fun _ => ⟨rfl, rfl, rfl⟩
  count := rfl
  factors := fun k f f' h1 h2 => by
    obtain rfl := Option.some.inj (h1.symm.trans h2)
    have hk : k < s'.graph.getAllFactors.length := by rw [hd.count]; exact (List.getElem?_eq_some_iff.1 h1).1
    obtain ⟨_, _, B, b1, _⟩ := hd.factors k f _ h1 (List.getElem?_eq_getElem hk)
    exact ⟨rfl, rfl, B, b1, b1⟩

/-- **C127**. Two linear problems that differ only in the values measured and in the start values are optimized. Let `d` be the
differences between the residuals of the two at the same values of the free variables, that is the changes of the measured values in
units of their standard deviations. A combination of the components of a variable moves by at most its reported standard deviation
times the length of `d`. -/
theorem C127 (hL : ExactLinAlg L) (env env' : Env ℝ V) {s s' t t' : OptWorld ℝ V Fact} (hp : Prepared s) (hp' : Prepared s')
    (hm : s.opt.settings.method = .gaussNewton) (hlr : s.opt.settings.learningRate = 1) (hpos : 0 < s.opt.settings.maxIterations)
    (hm' : s'.opt.settings.method = .gaussNewton) (hlr' : s'.opt.settings.learningRate = 1)
    (hpos' : 0 < s'.opt.settings.maxIterations) (hd : SameDesign s s') (hadd : AdditiveIncrements s.heap s.graph.getAllVariables)
    (hadd' : AdditiveIncrements s'.heap s'.graph.getAllVariables)
    (hret : optimize realArith L env s = (t, .ok ())) (hvalid : t.opt.stats.valid = true)
    (hret' : optimize realArith L env' s' = (t', .ok ())) (hvalid' : t'.opt.stats.valid = true)
    {y y' : Heap V} (hy : SameButFree s.heap y s.graph.getAllVariables) (hy' : SameButFree s'.heap y' s'.graph.getAllVariables)
    (hyy : ∀ v ∈ s.graph.getAllVariables, VarLike.isConst (s.heap v) = false → ∀ j, j < VarLike.size (s.heap v) →
      component (y' v) j = component (y v) j)
    {r r' : List ℝ} (hr : IsResidual y s.graph.getAllFactors r) (hr' : IsResidual y' s'.graph.getAllFactors r')
    (hh : s.opt.hessianValid = false) {u : OptWorld ℝ V Fact} (hprep : prepare realArith L t = (u, .ok ())) {v : VRef}
    (hv : v ∈ s.graph.getAllVariables) {P : Mat ℝ} (hP : estimateCovariance realArith L u (some v) = .ok (some P)) {n : Nat}
    (hn : n = VarLike.size (s.heap v)) (c : Nat → ℝ) :
    (combined c n (t'.heap v) - combined c n (t.heap v)) ^ 2 ≤
      (∑ i ∈ Finset.range n, ∑ j ∈ Finset.range n, c i * P.entry i j * c j) *
        ∑ a ∈ Finset.range (rowTotal s.graph.getAllFactors), (r'.getD a 0 - r.getD a 0) ^ 2 := by
  have hd' := C127.symm hd
  have hE : C119.Experiment L (fun b : Bool => if b then s' else s) (fun b => if b then t' else t) (fun b => if b then y' else y)
      (fun b => if b then r' else r) (fun v j => component (y v) j) := by
    refine ⟨?_, ?_, ?_, ?_, ?_, ?_, ?_, ?_, ?_, ?_, ?_⟩
    · rintro (_ | _); exacts [hp, hp']
    · rintro (_ | _); exacts [hm, hm']
    · rintro (_ | _); exacts [hlr, hlr']
    · rintro (_ | _); exacts [hpos, hpos']
    · rintro (_ | _); exacts [⟨env, hret⟩, ⟨env', hret'⟩]
    · rintro (_ | _); exacts [hvalid, hvalid']
    · rintro (_ | _) (_ | _); exacts [C127.refl hd, hd, hd', C127.refl hd']
    · rintro (_ | _); exacts [hadd, hadd']
    · rintro (_ | _); exacts [hy, hy']
    · rintro (_ | _)
      · exact fun _ _ _ _ _ => rfl
      · intro v hv hc j hj
        exact hyy v (hd.variables ▸ hv) ((hd.shape v).2.1.symm.trans hc) j ((hd.shape v).2.2 ▸ hj)
    · rintro (_ | _); exacts [hr, hr']
  obtain ⟨hpt, hvt, evars, efacs, hs, h, r1, J, hx, hlin, hJ⟩ := afterRun env hp
    (fun hm' => by rw [hm] at hm'; simp at hm') hpos hret hvalid
  obtain ⟨h0, pre, post, hw, _⟩ := hpt.history
  obtain ⟨J1, e1, hu, z1, z2, hent, _⟩ := C30_block hL hw (hvt.trans hh) hprep v (by rw [evars]; exact hv) P hP
  rw [hJ] at e1
  obtain rfl := Res.ok.inj e1
  have hc : VarLike.isConst (s.heap v) = false := by
    obtain ⟨q, p, f, X, hr, hc, hv', _⟩ := estimateCovariance_some hP
    obtain rfl := Option.some.inj hr
    obtain ⟨_, _, _, _, _, _, _, hheap, _⟩ := C31_partial realArith L t u (hvt.trans hh) hprep hv'
    rw [hheap, (hs v).2.1] at hc
    exact hc
  obtain ⟨G, hG⟩ : ∃ G, G = ((jacobianMatrix J)ᵀ * jacobianMatrix J)⁻¹ * (jacobianMatrix J)ᵀ := ⟨_, rfl⟩
  have hcol : ∀ j, j < n → colStart s.heap s.graph.getAllVariables v + j < J.columns.length := fun j hj => by
    rw [hlin.columns, hx.freeTotal_eq]; exact C119.column hv hc (hn ▸ hj)
  let g : Nat → Fin J.rows → ℝ := fun j => if hj : j < n then G ⟨_, hcol j hj⟩ else 0
  have hg : ∀ j (hj : j < n), g j = G ⟨_, hcol j hj⟩ := fun j hj => dif_pos hj
  have hdiff : ∀ j, j < n → component (t'.heap v) j - component (t.heap v) j = g j ⬝ᵥ (asVec J.rows r - asVec J.rows r') := by
    intro j hj
    have k0 := C119.errorsOf hL hE false (h0 := h) (r0 := r1) (J0 := J) hx hlin hv hc (hn ▸ hj) (hcol j hj) false
    have k1 := C119.errorsOf hL hE false (h0 := h) (r0 := r1) (J0 := J) hx hlin hv hc (hn ▸ hj) (hcol j hj) true
    rw [← hG] at k0 k1
    rw [hg j hj, dotProduct_sub]
    have k0' : component (t.heap v) j - component (y v) j = -(G ⟨_, hcol j hj⟩ ⬝ᵥ asVec J.rows r) := k0
    have k1' : component (t'.heap v) j - component (y v) j = -(G ⟨_, hcol j hj⟩ ⬝ᵥ asVec J.rows r') := k1
    linarith
  have hgg : ∀ i j, i < n → j < n → g i ⬝ᵥ g j = P.entry i j := by
    intro i j hi hj
    have key := hent i j (by rw [(hs v).2.2]; exact hn ▸ hi) (by rw [(hs v).2.2]; exact hn ▸ hj)
    rw [evars, hs.colStart_eq] at key
    obtain ⟨ci, cj, e⟩ := key
    rw [hg i hi, hg j hj, hG, gain_rows _ hu, e]
  obtain ⟨w, hw⟩ : ∃ w : Fin J.rows → ℝ, w = ∑ j ∈ Finset.range n, c j • g j := ⟨_, rfl⟩
  have h1 : combined c n (t'.heap v) - combined c n (t.heap v) = w ⬝ᵥ (asVec J.rows r - asVec J.rows r') := by
    rw [combined, combined, ← Finset.sum_sub_distrib, hw, sum_dotProduct]
    refine Finset.sum_congr rfl fun j hj => ?_
    rw [← mul_sub, hdiff j (Finset.mem_range.1 hj), smul_dotProduct, smul_eq_mul]
  have h2 : w ⬝ᵥ w = ∑ i ∈ Finset.range n, ∑ j ∈ Finset.range n, c i * P.entry i j * c j := by
    rw [hw, sum_dotProduct]
    refine Finset.sum_congr rfl fun i hi => ?_
    rw [dotProduct_sum]
    refine Finset.sum_congr rfl fun j hj => ?_
    rw [smul_dotProduct, dotProduct_smul, hgg i j (Finset.mem_range.1 hi) (Finset.mem_range.1 hj), smul_eq_mul, smul_eq_mul]
    ring
  have h3 : (asVec J.rows r - asVec J.rows r') ⬝ᵥ (asVec J.rows r - asVec J.rows r') =
      ∑ a ∈ Finset.range (rowTotal s.graph.getAllFactors), (r'.getD a 0 - r.getD a 0) ^ 2 := by
    rw [← hlin.rows, Finset.sum_range]
    refine Finset.sum_congr rfl fun a _ => ?_
    show (r.getD a 0 - r'.getD a 0) * (r.getD a 0 - r'.getD a 0) = _
    ring
  rw [h1, ← h2, ← h3, dotProduct, dotProduct, dotProduct, pow_two]
  have := Finset.sum_mul_sq_le_sq_mul_sq Finset.univ w (asVec J.rows r - asVec J.rows r')
  simp only [pow_two] at this
  exact this

variable {Ω : Type} {s t : Ω → OptWorld ℝ V Fact} {truth : Ω → Heap V} {ε : Ω → List ℝ} {x : VRef → Nat → ℝ}
variable [MeasurableSpace Ω] {μ : Measure Ω}

/-- **C128**. The errors of the measurements of a linear problem, in units of their standard deviations, are uncorrelated with mean 0
and variance 1. Every residual that is left after `optimize()` has mean 0 and a mean square of at most 1, and is not correlated with
the error of any estimate. -/
theorem C128 (hL : ExactLinAlg L) (hE : C119.Experiment L s t truth ε x) (ω0 : Ω)
    (hε : UnitNoise μ (rowTotal (s ω0).graph.getAllFactors) ε) (r : Ω → List ℝ)
    (hr : ∀ ω, IsResidual (t ω).heap (s ω).graph.getAllFactors (r ω)) {a : Nat} (ha : a < rowTotal (s ω0).graph.getAllFactors) :
    ∫ ω, (r ω).getD a 0 ∂μ = 0 ∧ ∫ ω, (r ω).getD a 0 ^ 2 ∂μ ≤ 1 ∧
    ∀ v ∈ (s ω0).graph.getAllVariables, VarLike.isConst ((s ω0).heap v) = false → ∀ j, j < VarLike.size ((s ω0).heap v) →
      ∫ ω, (r ω).getD a 0 * (component ((t ω).heap v) j - x v j) ∂μ = 0 := by
  obtain ⟨env, hret⟩ := hE.returns ω0
  obtain ⟨h, r1, J, r', hb, hlin, hu, _⟩ := C118_error hL env (hE.prepared ω0) (hE.method ω0) (hE.learningRate ω0)
    (hE.iterations ω0) hret (hE.valid ω0) (C119.affine hE ω0) (hE.increments ω0)
  rw [← hlin.rows] at hε ha
  obtain ⟨G, hG⟩ : ∃ G, G = ((jacobianMatrix J)ᵀ * jacobianMatrix J)⁻¹ * (jacobianMatrix J)ᵀ := ⟨_, rfl⟩
  have hd := (Matrix.isUnit_iff_isUnit_det _).1 hu
  have hGA : G * jacobianMatrix J = 1 := by rw [hG, Matrix.mul_assoc, nonsing_inv_mul _ hd]
  have hT : (jacobianMatrix J * G)ᵀ = jacobianMatrix J * G := by
    rw [hG, transpose_mul, transpose_mul, transpose_transpose, transpose_nonsing_inv, transpose_mul, transpose_transpose,
      Matrix.mul_assoc]
  obtain ⟨Q, hQ⟩ : ∃ Q : Matrix (Fin J.rows) (Fin J.rows) ℝ, Q = 1 - jacobianMatrix J * G := ⟨_, rfl⟩
  have hQT : Qᵀ = Q := by rw [hQ, transpose_sub, transpose_one, hT]
  have hGQ : G * Q = 0 := by rw [hQ, Matrix.mul_sub, Matrix.mul_one, ← Matrix.mul_assoc, hGA, Matrix.one_mul, sub_self]
  have hQQ : Q * Q = Q := by
    have e : (1 - jacobianMatrix J * G) * Q = Q := by
      rw [Matrix.sub_mul, Matrix.one_mul, Matrix.mul_assoc, hGQ, Matrix.mul_zero, sub_zero]
    rwa [← hQ] at e
  have hres : ∀ ω, (r ω).getD a 0 = Q ⟨a, ha⟩ ⬝ᵥ asVec J.rows (ε ω) := by
    intro ω
    obtain ⟨r2, _, hr2, e⟩ := C126.residuals hL hE ω0 hb.1 hlin ω
    rw [isResidual_unique (hr ω) hr2]
    have := congrFun e ⟨a, ha⟩
    rw [← hG, ← hQ] at this
    exact this
  refine ⟨?_, ?_, ?_⟩
  · simp only [hres]
    exact (noise_mean hε.integrable hε.mean _).2
  · simp only [hres, pow_two]
    rw [(noise_covariance hε _ _).2]
    have e : Q ⟨a, ha⟩ ⬝ᵥ Q ⟨a, ha⟩ = Q ⟨a, ha⟩ ⟨a, ha⟩ := by
      have := congrFun (congrFun hQQ ⟨a, ha⟩) ⟨a, ha⟩
      rw [Matrix.mul_apply] at this
      rw [← this]
      exact Finset.sum_congr rfl fun b _ => by rw [← congrFun (congrFun hQT b) ⟨a, ha⟩, transpose_apply]
    have h1 : Q ⟨a, ha⟩ ⟨a, ha⟩ ^ 2 ≤ Q ⟨a, ha⟩ ⬝ᵥ Q ⟨a, ha⟩ := by
      rw [dotProduct, pow_two]
      exact Finset.single_le_sum (f := fun b => Q ⟨a, ha⟩ b * Q ⟨a, ha⟩ b) (fun b _ => mul_self_nonneg _) (Finset.mem_univ _)
    rw [e] at h1 ⊢
    nlinarith
  · intro v hv hc j hj
    have hcol : colStart (s ω0).heap (s ω0).graph.getAllVariables v + j < J.columns.length := by
      rw [hlin.columns, hb.1.freeTotal_eq]; exact C119.column hv hc hj
    have k := fun ω => C119.errorsOf hL hE ω0 hb.1 hlin hv hc hj hcol ω
    rw [← hG] at k
    simp only [hres, k, mul_neg]
    rw [integral_neg, (noise_covariance hε _ _).2, neg_eq_zero, dotProduct_comm]
    have := congrFun (congrFun hGQ ⟨_, hcol⟩) ⟨a, ha⟩
    rw [Matrix.mul_apply] at this
    rw [dotProduct]
    refine Eq.trans (Finset.sum_congr rfl fun b _ => ?_) this
    rw [← congrFun (congrFun hQT b) ⟨a, ha⟩, transpose_apply]

end

/-- In the small graph the value measured for the first variable changes by `δ`, which is 2 `δ` standard deviations. The estimate of
that variable moves by at most as many of its own standard deviations. (It moves by 40/49 `δ`, the bound is `δ` times √(40/49).) -/
example (m p q δ : ℝ) : ∃ t t' u P, optimize realArith Ldlt.linAlg (TinyWorld.env 0) (C118.start m p q C121.gn) = (t, .ok ()) ∧
    optimize realArith Ldlt.linAlg (TinyWorld.env 0) (C118.start m (p + δ) q C121.gn) = (t', .ok ()) ∧
    prepare realArith Ldlt.linAlg t = (u, .ok ()) ∧ estimateCovariance realArith Ldlt.linAlg u (some 0) = .ok (some P) ∧
    (component (t'.heap 0) 0 - component (t.heap 0) 0) ^ 2 ≤ P.entry 0 0 * (2 * δ) ^ 2 := by
  obtain ⟨h1, h2, h3, h4⟩ := C121.gn_facts
  have l0 : (0 : ℝ) ≤ C121.gn.learningRate := by rw [h2]; norm_num
  have l2 : C121.gn.learningRate ≤ (2 : ℝ) := by rw [h2]; norm_num
  obtain ⟨t', ht', hv', _⟩ := C121 Ldlt.exact Ldlt.exact_pivots (TinyWorld.env 0) (C121.solvable m (p + δ) q C121.gn) h1 h2 h3 h4
  obtain ⟨r0, hlin⟩ := C123.linearised m p q C121.gn
  obtain ⟨t, u, ht, hv, hu, hc⟩ := C123_linear Ldlt.exact Ldlt.exact_pivots (TinyWorld.env 0) (C121.solvable m p q C121.gn)
    h1 l0 l2 h3 rfl hlin C123.determines
  obtain ⟨P, hP, _⟩ := hc 0 (by rw [C118.vars]; simp) (by rw [C118.heap]; rfl) (by rw [C118.heap]; exact Nat.one_pos)
  have k := C127 Ldlt.exact (TinyWorld.env 0) (TinyWorld.env 0) (C118.prepared m p q C121.gn) (C118.prepared m (p + δ) q C121.gn)
    h1 h2 h3 h1 h2 h3 (C119.design m p q m (p + δ) q C121.gn) (C121.solvable m p q C121.gn).additive
    (C121.solvable m (p + δ) q C121.gn).additive ht hv ht' hv' (C118.reachable m p q C121.gn 0 0)
    (C118.reachable m (p + δ) q C121.gn 0 0) (fun _ _ _ _ _ => rfl) (C118.residual m p q C121.gn 0 0)
    (C118.residual m (p + δ) q C121.gn 0 0) rfl hu (v := 0) (by rw [C118.vars]; simp) hP (n := 1) (by rw [C118.heap]; rfl) fun _ => 1
  refine ⟨t, t', u, P, ht, ht', hu, hP, ?_⟩
  rw [C118.facs] at k
  have e1 : rowTotal (TinyWorld.facs p q (2 : ℝ) 3 1) = 3 := rfl
  rw [e1] at k
  simp only [combined, Finset.sum_range_succ, Finset.sum_range_zero, List.getD_cons_zero, List.getD_cons_succ, sub_self] at k
  have e2 : (2 * (0 - (p + δ)) - 2 * (0 - p)) ^ 2 = (2 * δ) ^ 2 := by ring
  rw [e2] at k
  simpa using k

/-- In rational arithmetic, with exactly these numbers. -/
example :
    let run := fun p : Rat => (optimize ToyOpt.rat Ldlt.linAlg (TinyWorld.env 0)
      (ToyOpt.start (TinyGroups.world 0 0 1 (TinyGroups.once p 7 2 3 1)) ToyOpt.gn)).1
    ((run 5).heap 0).value.getD 0 0 - ((run 4).heap 0).value.getD 0 0 = 40 / 49 ∧
    C29.report (prepare ToyOpt.rat Ldlt.linAlg (run 4)).1 (some 0) = .ok (some [10 / 49]) := by decide +kernel

/-- The experiment with two coins: the mean square of each of the three residuals that are left is at most 1 (they are 9/49, 4/49 and
36/49), and the first is not correlated with the error of the estimate of the second variable. -/
example : ∃ t : Bool × Bool → OptWorld ℝ (GenVar ℝ) (Ldlt.Fact ℝ),
    (∀ ω, optimize realArith Ldlt.linAlg (TinyWorld.env 0) (C119.start C121.gn ω) = (t ω, .ok ())) ∧
    ∀ r : Bool × Bool → List ℝ, (∀ ω, IsResidual (t ω).heap (C119.start C121.gn ω).graph.getAllFactors (r ω)) →
      (∀ a, a < 3 → ∫ ω, (r ω).getD a 0 ^ 2 ∂C119.coins ≤ 1) ∧
      ∫ ω, (r ω).getD 0 0 * (component ((t ω).heap 1) 0 - 7) ∂C119.coins = 0 := by
  obtain ⟨h1, h2, h3, h4⟩ := C121.gn_facts
  have hrun : ∀ ω, ∃ t, optimize realArith Ldlt.linAlg (TinyWorld.env 0) (C119.start C121.gn ω) = (t, .ok ()) ∧ t.opt.stats.valid = true :=
    fun ω => by
      obtain ⟨t, e, e1, _⟩ := C121 Ldlt.exact Ldlt.exact_pivots (TinyWorld.env 0) (C121.solvable _ _ _ C121.gn) h1 h2 h3 h4
      exact ⟨t, e, e1⟩
  choose t ht hv using hrun
  have hE := C119.experiment C121.gn h1 h2 h3 (TinyWorld.env 0) t ht hv
  have hε : UnitNoise C119.coins (rowTotal (C119.start C121.gn (true, true)).graph.getAllFactors) C119.errors := by
    rw [C119.start, C118.facs]; exact C119.noise
  have hrows : rowTotal (C119.start C121.gn (true, true)).graph.getAllFactors = 3 := by rw [C119.start, C118.facs]; rfl
  refine ⟨t, ht, fun r hr => ⟨fun a ha => (C128 Ldlt.exact hE (true, true) hε r hr (hrows ▸ ha)).2.1, ?_⟩⟩
  have k := (C128 Ldlt.exact hE (true, true) hε r hr (a := 0) (by rw [hrows]; omega)).2.2 1
    (by rw [C119.start, C118.vars]; simp) (by rw [C119.start, C118.heap]; rfl) 0 (by rw [C119.start, C118.heap]; exact Nat.one_pos)
  have e : C119.truth 1 0 = 7 := if_neg (by decide)
  rwa [e] at k

end Factorama.Props
