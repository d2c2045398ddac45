import Verif.Lemmas.Fusion
import Verif.Props.Path
import Verif.Props.Stationary

/-!
# Property C117: direct measurements of a variable are averaged with their inverse variances as weights
-/

namespace Factorama.Props
open Spec Graph Opt Matrix

section
variable {V Fact : Type} [VarLike ℝ V] [LawfulVar ℝ V] {L : LinAlg ℝ Fact}

/-- The last Gauss-Newton step of a valid run. -/
theorem C117.last (hL : ExactLinAlg L) (env : Env ℝ V) {s t : OptWorld ℝ V Fact} (hp : Prepared s)
    (hm : s.opt.settings.method = .gaussNewton) (hpos : 0 < s.opt.settings.maxIterations)
    (hret : optimize realArith L env s = (t, .ok ())) (hvalid : t.opt.stats.valid = true) :
    ∃ h r J d r', SameButFree s.heap h s.graph.getAllVariables ∧ Linearised h s.graph.getAllVariables s.graph.getAllFactors r J ∧
      IsUnit ((jacobianMatrix J)ᵀ * jacobianMatrix J) ∧ d.length = J.columns.length ∧
      ((jacobianMatrix J)ᵀ * jacobianMatrix J) *ᵥ asVec J.columns.length d = -gradient J r ∧
      Stepped h t.heap s.graph.getAllVariables (realArith.scale s.opt.settings.learningRate d) ∧
      IsResidual t.heap s.graph.getAllFactors r' := by
  obtain ⟨h0, pre, post, hw, hpre⟩ := hp.history
  obtain ⟨r0, k, s1, s2, hr, hit, ho, herr, hheap, hstat⟩ := C110.last env hp.graph hpos hret hvalid
  have hb := C24.sameButFree L env s hw hpre hp.ids hp.noRepeats hp.safe hp.proper hp.graph hm r0 k s1 hit
  obtain ⟨r, J, hlin, ⟨_, href, _, e⟩ | ⟨d, r', hsol, hst, hres, e⟩⟩ :=
    C67_gauss_newton realArith L env s hw hpre hp.ids hp.noRepeats hp.safe hp.proper hp.graph hm r0 k s1 s2 hit ho
  · exfalso
    have := herr (by rw [e]; cases href <;> simp [isErrorStatus])
    rw [e] at this
    simp at this
  obtain ⟨f, hf, _, _, hs⟩ := hsol
  obtain ⟨d', h1, h2, h3, _⟩ := C25_gauss_newton hL J r f hf
  rw [hs] at h1
  obtain rfl := Option.some.inj h1
  have hsz := hL.gram_size J
  have hu := hL.invertible _ f (hsz.2.trans hsz.1.symm) (by rw [hsz.1, hL.gram]; exact gram_symm _) hf
  rw [hsz.1, hL.gram] at hu
  exact ⟨s1.heap, r, J, d, r', hb, hlin, hu, h2, (h3 _).2 rfl, by rw [hheap]; exact hst, by rw [hheap]; exact hres⟩

/-- **C117**, the value. In any graph, whatever it says about other variables: a variable that only priors mention, in any number,
has after a valid Gauss-Newton run with learning rate 1 the mean of the values in the priors, weighted with their inverse
variances. -/
theorem C117_value (hL : ExactLinAlg L) (env : Env ℝ V) {s t : OptWorld ℝ V Fact} (hp : Prepared s)
    (hm : s.opt.settings.method = .gaussNewton) (hlr : s.opt.settings.learningRate = 1) (hpos : 0 < s.opt.settings.maxIterations)
    (hret : optimize realArith L env s = (t, .ok ())) (hvalid : t.opt.stats.valid = true)
    {v : VRef} (hmem : v ∈ s.graph.getAllVariables) (hc : VarLike.isConst (s.heap v) = false)
    (hadd : AdditiveIncrements s.heap [v]) {K : Finset Nat} {p : Nat → List ℝ} {σ : Nat → ℝ}
    (hO : OnlyPriors s.graph.getAllFactors v (VarLike.size (s.heap v)) K p σ) :
    ∀ j, j < VarLike.size (s.heap v) → component (t.heap v) j = weightedMean K p σ j := by
  obtain ⟨h, r, J, d, r', hb, hlin, hu, hd, hN, hst, _⟩ := C117.last hL env hp hm hpos hret hvalid
  obtain ⟨h0, pre, post, hw, _⟩ := hp.history
  have hn : s.graph.getAllVariables.Nodup := List.Nodup.of_map _ (finalizedAfter_layout hw).ids
  have hstack : Stacks h s.graph.getAllVariables s.graph.getAllFactors J := ⟨hlin.rows, hlin.columns, hlin.jacobian⟩
  have hch : VarLike.isConst (h v) = false := (hb.1 v).2.1.trans hc
  have hsz : VarLike.size (h v) = VarLike.size (s.heap v) := (hb.1 v).2.2
  intro j hj
  have hcol : colStart h s.graph.getAllVariables v + j < freeTotal h s.graph.getAllVariables := by
    have := colStart_le h hmem
    rw [freeSize, hch] at this
    simp at this
    omega
  -- the rows of the priors
  have hrowlt : ∀ k ∈ K, rowStart s.graph.getAllFactors k + j < rowTotal s.graph.getAllFactors := by
    intro k hk
    obtain ⟨hl, _, id, hf⟩ := hO.prior k hk
    have hr : (genericPrior id v (p k) (1 / σ k) : Factor ℝ V).residualSize = VarLike.size (s.heap v) := hl
    have := row_end_le hf
    omega
  have hentry : ∀ k ∈ K, ∀ c, c < freeTotal h s.graph.getAllVariables → J.coeff (rowStart s.graph.getAllFactors k + j) c =
      if c = colStart h s.graph.getAllVariables v + j then 1 / σ k else 0 := by
    intro k hk c hc'
    obtain ⟨hl, _, id, hf⟩ := hO.prior k hk
    exact prior_row hn hstack hf hmem hch (hl.trans hsz.symm) (by omega) hc'
  have hres : ∀ k ∈ K, r.getD (rowStart s.graph.getAllFactors k + j) 0 = 1 / σ k * (component (h v) j - (p k).getD j 0) := by
    intro k hk
    obtain ⟨hl, _, id, hf⟩ := hO.prior k hk
    obtain ⟨sg, e1, e2, e3⟩ := isResidual_row hlin.residual hf
    have hj' : j < (genericPrior id v (p k) (1 / σ k) : Factor ℝ V).residualSize := by
      show j < (p k).length
      omega
    rw [List.getD_eq_getElem?_getD, e3 j hj', ← List.getD_eq_getElem?_getD]
    simp only [genericPrior] at e1
    cases hd : vecSub (VarLike.value (h v)) (p k) with
    | threw => rw [hd] at e1; simp at e1
    | ub => rw [hd] at e1; simp at e1
    | ok x =>
      rw [hd] at e1
      obtain rfl := Res.ok.inj e1
      obtain ⟨_, _, e⟩ := C24.vecSub_ok hd
      rw [C24.map_mul, e j hj']
      rfl
  -- the normal equation of the column
  have heq : ∑ k ∈ K, 1 / σ k ^ 2 * (component (h v) j + d.getD (colStart h s.graph.getAllVariables v + j) 0 - (p k).getD j 0) = 0 := by
    have hcJ : colStart h s.graph.getAllVariables v + j < J.columns.length := hlin.columns ▸ hcol
    have e := congrFun hN ⟨_, hcJ⟩
    rw [← mulVec_mulVec, Pi.neg_apply, gradient_apply] at e
    have e1 : ((jacobianMatrix J)ᵀ *ᵥ (jacobianMatrix J *ᵥ asVec J.columns.length d)) ⟨_, hcJ⟩ =
        ∑ a ∈ Finset.range (rowTotal s.graph.getAllFactors), J.coeff a (colStart h s.graph.getAllVariables v + j) *
          ∑ c ∈ Finset.range (freeTotal h s.graph.getAllVariables), J.coeff a c * d.getD c 0 := by
      rw [mulVec, dotProduct, ← hlin.rows, ← hlin.columns,
        ← Fin.sum_univ_eq_sum_range (fun a => J.coeff a (colStart h s.graph.getAllVariables v + j) *
          ∑ c ∈ Finset.range J.columns.length, J.coeff a c * d.getD c 0)]
      refine Finset.sum_congr rfl fun a _ => ?_
      rw [mulVec, dotProduct, ← Fin.sum_univ_eq_sum_range (fun c => J.coeff a c * d.getD c 0)]
      rfl
    rw [e1, prior_column_sum hn hstack hO hmem hch hsz hj] at e
    rw [hlin.rows, prior_column_sum hn hstack hO hmem hch hsz hj, eq_neg_iff_add_eq_zero, ← Finset.sum_add_distrib] at e
    refine Eq.trans (Finset.sum_congr rfl fun k hk => ?_) e
    have e2 : ∑ c ∈ Finset.range (freeTotal h s.graph.getAllVariables), J.coeff (rowStart s.graph.getAllFactors k + j) c * d.getD c 0 =
        1 / σ k * d.getD (colStart h s.graph.getAllVariables v + j) 0 := by
      rw [Finset.sum_eq_single_of_mem (colStart h s.graph.getAllVariables v + j) (by simpa using hcol) fun c hc' hne => by
        rw [hentry k hk c (by simpa using hc'), if_neg hne, zero_mul], hentry k hk _ hcol, if_pos rfl]
    rw [e2, hres k hk]
    ring
  -- the new value
  have hnew : component (t.heap v) j = component (h v) j + d.getD (colStart h s.graph.getAllVariables v + j) 0 := by
    have e := hadd h hb.1 v (by simp) hc _ _ ((hst v).1 ⟨hmem, hch⟩) j hj
    have hd1 : realArith.scale s.opt.settings.learningRate d = d := by rw [hlr]; simp [Arith.scale, realArith]
    rw [e, hd1]
    simp only [partOf, List.getD_eq_getElem?_getD, List.getElem?_take, List.getElem?_drop]
    rw [if_pos (by omega)]
  -- the weights are not all zero
  have hW : precision K σ ≠ 0 := by
    intro h0
    have hK : K = ∅ := by
      by_contra hne
      obtain ⟨k, hk⟩ := Finset.nonempty_iff_ne_empty.2 hne
      have : 0 < precision K σ := Finset.sum_pos (fun k hk => by
        have := (hO.prior k hk).2.1
        positivity) ⟨k, hk⟩
      linarith
    have hcJ : colStart h s.graph.getAllVariables v + j < J.columns.length := hlin.columns ▸ hcol
    refine (inverse_column hu (c := ⟨_, hcJ⟩) (W := 0) fun b => ?_).1 rfl
    simp only [ite_self]
    rw [Matrix.mul_apply]
    refine Finset.sum_eq_zero fun a _ => ?_
    have : jacobianMatrix J a ⟨_, hcJ⟩ = J.coeff a (colStart h s.graph.getAllVariables v + j) := rfl
    rw [this, prior_column hn hstack hO hmem hch hsz hj (hlin.rows ▸ a.2), hK]
    simp
  rw [hnew, weightedMean, eq_div_iff hW, precision]
  have e : ∑ k ∈ K, 1 / σ k ^ 2 * (component (h v) j + d.getD (colStart h s.graph.getAllVariables v + j) 0 - (p k).getD j 0) =
      (component (h v) j + d.getD (colStart h s.graph.getAllVariables v + j) 0) * ∑ k ∈ K, 1 / σ k ^ 2 -
        ∑ k ∈ K, (p k).getD j 0 / σ k ^ 2 := by
    rw [Finset.mul_sum, ← Finset.sum_sub_distrib]
    exact Finset.sum_congr rfl fun k _ => by ring
  linarith

/-- **C117**, the covariance: the inverse of the sum of the inverse variances for each component, and no correlation. -/
theorem C117_covariance (hL : ExactLinAlg L) {s t : OptWorld ℝ V Fact} (hp : Prepared s) (hv : s.opt.hessianValid = false)
    {x : Heap V} (hx : SameShape s.heap x) {r : List ℝ} {J : SpMat ℝ} (hJ : s.graph.sparseJacobian = .ok J)
    (hlin : Linearised x s.graph.getAllVariables s.graph.getAllFactors r J)
    (hprep : prepare realArith L s = (t, .ok ())) {v : VRef} (hmem : v ∈ s.graph.getAllVariables) {P : Mat ℝ}
    (hP : estimateCovariance realArith L t (some v) = .ok (some P)) {K : Finset Nat} {p : Nat → List ℝ} {σ : Nat → ℝ}
    (hO : OnlyPriors s.graph.getAllFactors v (VarLike.size (s.heap v)) K p σ) :
    ∀ i j, i < VarLike.size (s.heap v) → j < VarLike.size (s.heap v) → P.entry i j = if i = j then 1 / precision K σ else 0 := by
  obtain ⟨h0, pre, post, hw, _⟩ := hp.history
  have hn : s.graph.getAllVariables.Nodup := List.Nodup.of_map _ (finalizedAfter_layout hw).ids
  obtain ⟨J1, e1, hu, z1, z2, hent, _⟩ := C30_block hL hw hv hprep v hmem P hP
  rw [hJ] at e1
  obtain rfl := Res.ok.inj e1
  have hstack : Stacks x s.graph.getAllVariables s.graph.getAllFactors J := ⟨hlin.rows, hlin.columns, hlin.jacobian⟩
  have hcv : VarLike.isConst (s.heap v) = false := by
    obtain ⟨r, p, f, X, hr, hc, hv', _⟩ := estimateCovariance_some hP
    obtain rfl := Option.some.inj hr
    obtain ⟨_, _, _, _, _, _, _, hheap, _⟩ := C31_partial realArith L s t hv hprep hv'
    rwa [hheap] at hc
  have hch : VarLike.isConst (x v) = false := (hx v).2.1.trans hcv
  have hsz : VarLike.size (x v) = VarLike.size (s.heap v) := (hx v).2.2
  intro i j hi hj
  obtain ⟨hi', hj', e⟩ := hent i j hi hj
  have hcolumn : ∀ b : Fin J.columns.length, ((jacobianMatrix J)ᵀ * jacobianMatrix J) b ⟨_, hj'⟩ =
      if b = ⟨colStart s.heap s.graph.getAllVariables v + j, hj'⟩ then precision K σ else 0 := by
    intro b
    rw [Matrix.mul_apply]
    have e2 : ∑ a : Fin J.rows, (jacobianMatrix J)ᵀ b a * jacobianMatrix J a ⟨_, hj'⟩ =
        ∑ a ∈ Finset.range (rowTotal s.graph.getAllFactors), J.coeff a (colStart x s.graph.getAllVariables v + j) * J.coeff a b := by
      rw [← hlin.rows, ← Fin.sum_univ_eq_sum_range (fun a => J.coeff a (colStart x s.graph.getAllVariables v + j) * J.coeff a b)]
      refine Finset.sum_congr rfl fun a _ => ?_
      rw [mul_comm, hx.colStart_eq]
      rfl
    rw [e2, prior_column_sum hn hstack hO hmem hch hsz hj]
    have hb : (b : Nat) < freeTotal x s.graph.getAllVariables := hlin.columns ▸ b.2
    rw [Finset.sum_congr rfl fun k hk => by
      obtain ⟨hl, _, id, hf⟩ := hO.prior k hk
      rw [prior_row hn hstack hf hmem hch (hl.trans hsz.symm) (show j < (p k).length by omega) hb]]
    by_cases hbc : b = ⟨colStart s.heap s.graph.getAllVariables v + j, hj'⟩
    · have : (b : Nat) = colStart x s.graph.getAllVariables v + j := by rw [hbc, hx.colStart_eq]
      simp only [this, if_true, if_pos hbc, precision]
      exact Finset.sum_congr rfl fun k _ => by ring
    · have : (b : Nat) ≠ colStart x s.graph.getAllVariables v + j := by
        rw [hx.colStart_eq]
        exact fun e => hbc (Fin.ext e)
      simp [this, hbc]
  rw [e, (inverse_column hu hcolumn).2]
  by_cases hij : i = j
  · subst hij
    simp
  · rw [if_neg hij, if_neg]
    intro e
    have := congrArg Fin.val e
    simp at this
    exact hij this

/-- **C117**, the covariance, from the calls: after a valid run, by either method, and `prepare_to_estimate_covariances()`. -/
theorem C117_covariance_run (hL : ExactLinAlg L) (env : Env ℝ V) {s t u : OptWorld ℝ V Fact} (hp : Prepared s) (hrest : Restorable s)
    (hv : s.opt.hessianValid = false) (hpos : 0 < s.opt.settings.maxIterations)
    (hret : optimize realArith L env s = (t, .ok ())) (hvalid : t.opt.stats.valid = true)
    (hprep : prepare realArith L t = (u, .ok ())) {v : VRef} (hmem : v ∈ s.graph.getAllVariables) {P : Mat ℝ}
    (hP : estimateCovariance realArith L u (some v) = .ok (some P)) {K : Finset Nat} {p : Nat → List ℝ} {σ : Nat → ℝ}
    (hO : OnlyPriors s.graph.getAllFactors v (VarLike.size (s.heap v)) K p σ) :
    ∀ i j, i < VarLike.size (s.heap v) → j < VarLike.size (s.heap v) → P.entry i j = if i = j then 1 / precision K σ else 0 := by
  obtain ⟨hpt, hvt, evars, efacs, hs, x, r, J, hx, hlin, hJ⟩ := afterRun env hp hrest hpos hret hvalid
  have hx' : SameShape t.heap x := fun q =>
    ⟨(hx q).1.trans (hs q).1.symm, (hx q).2.1.trans (hs q).2.1.symm, (hx q).2.2.trans (hs q).2.2.symm⟩
  have := C117_covariance hL hpt (hvt.trans hv) hx' hJ (by rw [evars, efacs]; exact hlin) hprep (by rw [evars]; exact hmem) hP
    (K := K) (p := p) (σ := σ) (by rw [efacs, (hs v).2.2]; exact hO)
  rwa [(hs v).2.2] at this

end

/-! ### Example: a variable with two priors, 4 with standard deviation 1/2 and 7 with standard deviation 1 -/

namespace C117

/-- An optimizer with the settings `o` on the graph. -/
noncomputable def start (q w : ℝ) (o : Settings ℝ) : OptWorld ℝ (GenVar ℝ) (Ldlt.Fact ℝ) :=
  ⟨(TinyGroups.world 0 0 1 (TinyGroups.direct 4 7 q 2 1 w)).heap, (TinyGroups.world 0 0 1 (TinyGroups.direct 4 7 q 2 1 w)).graph,
    { Optimizer.init realArith with hasGraph := true, complete := true, settings := o }⟩

theorem prepared (q w : ℝ) (o : Settings ℝ) : Prepared (start q w o) := by
  have hu := TinyGroups.unused (TinyGroups.built_direct 0 0 1 4 7 q 2 1 w) (TinyGroups.good_direct 4 7 q 2 1 w)
  obtain ⟨h0, pre, post, h1, h2⟩ := hu.history
  refine ⟨⟨h0, pre, post, h1, ?_⟩, hu.ids, hu.noRepeats, hu.safe, hu.proper, rfl⟩
  unfold NoJacobianYet at h2 ⊢
  simp only [List.mem_append, not_or] at h2
  exact ⟨h2.1.1, h2.2.1.1, h2.2.2.1.1, h2.2.2.2.1⟩

/-- The values and the standard deviations of the two priors. -/
def values (k : Nat) : List ℝ := if k = 0 then [4] else [7]
noncomputable def deviations (k : Nat) : ℝ := if k = 0 then 1 / 2 else 1

theorem onlyPriors (q w : ℝ) : OnlyPriors (TinyGroups.direct 4 7 q 2 1 w) 0 1 {0, 1} values deviations where
  mention k f hk hm := by
    match k with
    | 0 => simp
    | 1 => simp
    | 2 =>
      obtain rfl := Option.some.inj hk
      simp [genericPrior] at hm
    | k + 3 => simp [TinyGroups.direct] at hk
  prior k hk := by
    simp only [Finset.mem_insert, Finset.mem_singleton] at hk
    rcases hk with rfl | rfl
    · refine ⟨rfl, by norm_num [deviations], 10, ?_⟩
      have e : (1 : ℝ) / deviations 0 = 2 := by norm_num [deviations]
      rw [e]
      rfl
    · refine ⟨rfl, by norm_num [deviations], 13, ?_⟩
      have e : (1 : ℝ) / deviations 1 = 1 := by norm_num [deviations]
      rw [e]
      rfl

end C117

/-- After a valid run the variable is (4 · 4 + 1 · 7) / 5, whatever the other variable is told. -/
example (q w : ℝ) (o : Settings ℝ) (hm : o.method = .gaussNewton) (hlr : o.learningRate = 1) (hpos : 0 < o.maxIterations)
    (t : OptWorld ℝ (GenVar ℝ) (Ldlt.Fact ℝ))
    (hret : optimize realArith Ldlt.linAlg (TinyWorld.env 0) (C117.start q w o) = (t, .ok ())) (hvalid : t.opt.stats.valid = true) :
    component (t.heap 0) 0 = 23 / 5 := by
  have hb := TinyGroups.built_direct (0 : ℝ) 0 1 4 7 q 2 1 w
  have hh : (C117.start q w o).heap = TinyWorld.heap 0 0 1 := hb.heap
  have hs : VarLike.size (F := ℝ) ((C117.start q w o).heap 0) = 1 := by rw [hh]; rfl
  have hO : OnlyPriors (C117.start q w o).graph.getAllFactors 0 (VarLike.size (F := ℝ) ((C117.start q w o).heap 0)) {0, 1}
      C117.values C117.deviations := by
    rw [hs, show (C117.start q w o).graph.getAllFactors = _ from hb.facs]
    exact C117.onlyPriors q w
  rw [C117_value Ldlt.exact _ (C117.prepared q w o) hm hlr hpos hret hvalid
    (by rw [show (C117.start q w o).graph.getAllVariables = _ from hb.vars]; simp) (by rw [hh]; rfl)
    (C24_generic_increments _ _) hO 0 (by rw [hs]; omega)]
  norm_num [weightedMean, precision, C117.values, C117.deviations]

/-- And its variance is 1/5, after a run by either method. -/
example (q w : ℝ) (o : Settings ℝ) (hpos : 0 < o.maxIterations) (t u : OptWorld ℝ (GenVar ℝ) (Ldlt.Fact ℝ))
    (hret : optimize realArith Ldlt.linAlg (TinyWorld.env 0) (C117.start q w o) = (t, .ok ())) (hvalid : t.opt.stats.valid = true)
    (hprep : prepare realArith Ldlt.linAlg t = (u, .ok ())) (P : Mat ℝ)
    (hP : estimateCovariance realArith Ldlt.linAlg u (some 0) = .ok (some P)) : P.entry 0 0 = 1 / 5 := by
  have hb := TinyGroups.built_direct (0 : ℝ) 0 1 4 7 q 2 1 w
  have hh : (C117.start q w o).heap = TinyWorld.heap 0 0 1 := hb.heap
  have hs : VarLike.size (F := ℝ) ((C117.start q w o).heap 0) = 1 := by rw [hh]; rfl
  have hO : OnlyPriors (C117.start q w o).graph.getAllFactors 0 (VarLike.size (F := ℝ) ((C117.start q w o).heap 0)) {0, 1}
      C117.values C117.deviations := by
    rw [hs, show (C117.start q w o).graph.getAllFactors = _ from hb.facs]
    exact C117.onlyPriors q w
  rw [C117_covariance_run Ldlt.exact _ (C117.prepared q w o) (fun _ => ⟨_, GenVar.restoresExactly, fun _ _ => trivial⟩) rfl hpos hret
    hvalid hprep (by rw [show (C117.start q w o).graph.getAllVariables = _ from hb.vars]; simp) hP hO 0 0 (by rw [hs]; omega)
    (by rw [hs]; omega)]
  norm_num [precision, C117.deviations]

/-- In rational arithmetic: the value 23/5 and the variance 1/5. -/
example :
    let run := (optimize ToyOpt.rat Ldlt.linAlg (TinyWorld.env 0)
      (ToyOpt.start (TinyGroups.world 0 0 1 (TinyGroups.direct 4 7 9 2 1 3)) ToyOpt.gn)).1
    run.opt.stats.valid = true ∧ (run.heap 0).value = [23 / 5] ∧
    C29.report (prepare ToyOpt.rat Ldlt.linAlg run).1 (some 0) = .ok (some [1 / 5]) := by decide +kernel

end Factorama.Props
