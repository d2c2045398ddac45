import Verif.Props.Solvable

/-!
# Property C123: when covariances are reported
-/

namespace Factorama.Props
open Spec Graph Opt Matrix

section
variable {V Fact : Type} [VarLike ℝ V] [LawfulVar ℝ V] {L : LinAlg ℝ Fact}

theorem C123.columns {L : LinAlg ℝ Fact} {f : Fact} {n : Nat} (hsolve : ∀ b : List ℝ, b.length = n → ∃ d, L.solve f b = some d ∧ d.length = n)
    (bs : List (List ℝ)) (hbs : ∀ b ∈ bs, b.length = n) : ∃ X, solveColumns L f bs = some X ∧ ∀ x ∈ X, x.length = n := by
  induction bs with
  | nil => exact ⟨[], rfl, by simp⟩
  | cons b bs ih =>
    obtain ⟨d, h1, h2⟩ := hsolve b (hbs b (by simp))
    obtain ⟨X, h3, h4⟩ := ih fun b' hb' => hbs b' (by simp [hb'])
    refine ⟨d :: X, by simp [solveColumns, h1, h3], fun x hx => ?_⟩
    rcases List.mem_cons.1 hx with rfl | hx
    · exact h2
    · exact h4 x hx

theorem C123.maxCoeff_le {D : List ℝ} (hne : D ≠ []) (c : ℝ) : realArith.maxCoeff D ≤ c ↔ ∀ x ∈ D, x ≤ c := by
  refine ⟨fun h x hx => ?_, fun h => h _ (max_mem hne)⟩
  obtain ⟨a, l, rfl⟩ := List.exists_cons_of_ne_nil hne
  have key : ∀ (l : List ℝ), a ≤ l.foldr max a ∧ ∀ x ∈ l, x ≤ l.foldr max a := by
    intro l
    induction l with
    | nil => exact ⟨le_rfl, by simp⟩
    | cons b l ih =>
      refine ⟨ih.1.trans (le_max_right _ _), fun x hx => ?_⟩
      rcases List.mem_cons.1 hx with rfl | hx
      · exact le_max_left _ _
      · exact (ih.2 x hx).trans (le_max_right _ _)
  have h' : l.foldr max a ≤ c := h
  rcases List.mem_cons.1 hx with rfl | hx
  · exact (key l).1.trans h'
  · exact ((key l).2 x hx).trans h'

/-- **C123**. When a run has been completed and the normal matrix of the graph's last Jacobian is invertible, the first
`prepare_to_estimate_covariances()` succeeds, and then a covariance is reported for a free variable of the graph if and only if none
of its variances, the diagonal entries of its block of `(JᵀJ)⁻¹`, exceeds `10¹²`. Otherwise none is reported. -/
theorem C123 (hL : ExactLinAlg L) {s : OptWorld ℝ V Fact} (hp : Prepared s) (hc : s.opt.complete = true)
    (hv : s.opt.hessianValid = false) {J : SpMat ℝ} (hJ : s.graph.sparseJacobian = .ok J)
    (hcols : J.columns.length = freeTotal s.heap s.graph.getAllVariables) (hu : IsUnit ((jacobianMatrix J)ᵀ * jacobianMatrix J))
    (hfree : 0 < freeTotal s.heap s.graph.getAllVariables) :
    ∃ u, prepare realArith L s = (u, .ok ()) ∧ u.heap = s.heap ∧
      ∀ v ∈ s.graph.getAllVariables, VarLike.isConst (s.heap v) = false → 0 < VarLike.size (s.heap v) →
        ((∃ P, estimateCovariance realArith L u (some v) = .ok (some P)) ↔
          ∀ c : Fin J.columns.length, colStart s.heap s.graph.getAllVariables v ≤ c →
            c < colStart s.heap s.graph.getAllVariables v + VarLike.size (s.heap v) →
            ((jacobianMatrix J)ᵀ * jacobianMatrix J)⁻¹ c c ≤ 10 ^ 12) ∧
        (estimateCovariance realArith L u (some v) = .ok none ∨ ∃ P, estimateCovariance realArith L u (some v) = .ok (some P)) := by
  obtain ⟨h0, pre, post, hw, hpre⟩ := hp.history
  have hl := finalizedAfter_layout hw
  have hsz := hL.gram_size J
  have hsq : (L.gram J).cols = (L.gram J).rows := hsz.2.trans hsz.1.symm
  have hsym : (square J.columns.length (L.gram J)).IsSymm := by rw [hL.gram]; exact gram_symm _
  obtain ⟨f, hf⟩ := hL.succeeds (L.gram J) hsq (by rw [hsz.1, hL.gram]; exact gram_posDef _ hu)
  have hne : ((L.vectorD f).map realArith.abs).isEmpty = false := by
    have := hL.diagonal _ f hf
    rw [hsz.1] at this
    cases h : L.vectorD f with
    | nil => rw [h] at this; simp at this; omega
    | cons a l => rfl
  have hprep : prepare realArith L s = ({ s with opt := { s.opt with hessian := L.gram J, solver := some f, hessianValid := true } },
      .ok ()) := by
    unfold prepare
    simp [SE.bind, SE.get, hJ, hv, hc, hne, SE.lift, hf, modOpt, SE.modify]
  refine ⟨_, hprep, rfl, fun v hmem hcv hsv => ?_⟩
  have hpl := hl.placement hmem
  have hfs : freeSize (s.heap v) = VarLike.size (s.heap v) := freeSize_of_nonconst hcv
  rw [hfs] at hpl
  have hle : colStart s.heap s.graph.varsVec v + VarLike.size (s.heap v) ≤ J.columns.length := by
    rw [hcols]
    have := col_end_le (h := s.heap) hmem
    rw [hfs] at this
    exact this
  obtain ⟨X, hX, hXl⟩ := C123.columns (L := L) (f := f) (n := J.columns.length) (fun b hb => by
      obtain ⟨d, h1, h2, _⟩ := hL.solve _ f b hsq (by rw [hsz.1]; exact hsym) hf (hb.trans hsz.1.symm)
      exact ⟨d, h1, h2.trans hsz.1⟩)
    ((List.range (VarLike.size (s.heap v))).map fun i =>
      unitVector realArith J.columns.length (colStart s.heap s.graph.varsVec v + i)) (by
      intro b hb
      obtain ⟨i, _, rfl⟩ := List.mem_map.1 hb
      simp [unitVector])
  have hcol : ∀ j, j < VarLike.size (s.heap v) → ∃ x, X[j]? = some x ∧
      ((jacobianMatrix J)ᵀ * jacobianMatrix J) *ᵥ asVec J.columns.length x =
        asVec J.columns.length (unitVector realArith J.columns.length (colStart s.heap s.graph.varsVec v + j)) := by
    intro j hj
    obtain ⟨x, hx, hsol⟩ := solveColumns_some hX (j := j)
      (b := unitVector realArith J.columns.length (colStart s.heap s.graph.varsVec v + j)) (by simp [hj])
    obtain ⟨d, hd1, _, hd3⟩ := hL.solve (L.gram J) f
      (unitVector realArith J.columns.length (colStart s.heap s.graph.varsVec v + j)) hsq
      (by rw [hsz.1]; exact hsym) hf (by simp [unitVector, hsz.1])
    rw [hsol] at hd1
    obtain rfl := Option.some.inj hd1
    rw [hsz.1, hL.gram] at hd3
    exact ⟨x, hx, hd3⟩
  have hent : ∀ i (hi : i < VarLike.size (s.heap v)), (blockOf X (colStart s.heap s.graph.varsVec v) (VarLike.size (s.heap v))).entry i i =
      ((jacobianMatrix J)ᵀ * jacobianMatrix J)⁻¹ ⟨colStart s.heap s.graph.varsVec v + i, by omega⟩
        ⟨colStart s.heap s.graph.varsVec v + i, by omega⟩ := fun i hi => blockOf_inverse hu hle hcol hi hi
  have hrows : (L.gram J).rows ≠ 0 := by rw [hsz.1]; omega
  have hcols' : (L.gram J).cols ≠ 0 := by rw [hsz.2]; omega
  have hlt : (X.any fun col => decide (col.length < colStart s.heap s.graph.varsVec v + VarLike.size (s.heap v))) = false := by
    rw [List.any_eq_false]
    intro x hx
    rw [decide_eq_true_eq, hXl x hx]
    omega
  have hval : estimateCovariance realArith L
      { s with opt := { s.opt with hessian := L.gram J, solver := some f, hessianValid := true } } (some v) =
      if realArith.lt (realArith.lit (10 ^ 12)) (realArith.maxCoeff ((List.range (VarLike.size (s.heap v))).map fun i =>
          (blockOf X (colStart s.heap s.graph.varsVec v) (VarLike.size (s.heap v))).entry i i)) then .ok none
      else .ok (some (averageInPlace realArith (blockOf X (colStart s.heap s.graph.varsVec v) (VarLike.size (s.heap v))))) := by
    unfold estimateCovariance
    dsimp only
    rw [if_neg (by rw [hcv]; simp; omega), if_neg (by simp [hc]), if_neg (by simp [hrows, hcols']), hpl]
    dsimp only
    rw [if_neg (by rw [hsz.1]; omega), hsz.1, hX]
    dsimp only
    rw [hlt, if_neg (by simp), if_neg (by simp [realArith]), if_neg (by omega)]
  rw [hval]
  have hdne : ((List.range (VarLike.size (s.heap v))).map fun i =>
      (blockOf X (colStart s.heap s.graph.varsVec v) (VarLike.size (s.heap v))).entry i i) ≠ [] := by
    intro e
    have := congrArg List.length e
    simp at this
    omega
  have hiff : realArith.lt (realArith.lit (10 ^ 12)) (realArith.maxCoeff ((List.range (VarLike.size (s.heap v))).map fun i =>
      (blockOf X (colStart s.heap s.graph.varsVec v) (VarLike.size (s.heap v))).entry i i)) = false ↔
      ∀ c : Fin J.columns.length, colStart s.heap s.graph.getAllVariables v ≤ c →
            c < colStart s.heap s.graph.getAllVariables v + VarLike.size (s.heap v) →
            ((jacobianMatrix J)ᵀ * jacobianMatrix J)⁻¹ c c ≤ 10 ^ 12 := by
    have e : realArith.lt (realArith.lit (10 ^ 12)) (realArith.maxCoeff ((List.range (VarLike.size (s.heap v))).map fun i =>
        (blockOf X (colStart s.heap s.graph.varsVec v) (VarLike.size (s.heap v))).entry i i)) = false ↔
        realArith.maxCoeff ((List.range (VarLike.size (s.heap v))).map fun i =>
        (blockOf X (colStart s.heap s.graph.varsVec v) (VarLike.size (s.heap v))).entry i i) ≤ 10 ^ 12 := by
      show decide ((((10 ^ 12 : ℚ)) : ℝ) < _) = false ↔ _
      rw [decide_eq_false_iff_not, not_lt]
      push_cast
      rfl
    rw [e, C123.maxCoeff_le hdne]
    refine ⟨fun h c h1 h2 => ?_, fun h x hx => ?_⟩
    · have hi : (c : Nat) - colStart s.heap s.graph.varsVec v < VarLike.size (s.heap v) := by
        change colStart s.heap s.graph.varsVec v ≤ c at h1
        change c < colStart s.heap s.graph.varsVec v + _ at h2
        omega
      have h3 := h _ (List.mem_map.2 ⟨_, List.mem_range.2 hi, rfl⟩)
      rw [hent _ hi] at h3
      have ec : (⟨colStart s.heap s.graph.varsVec v + ((c : Nat) - colStart s.heap s.graph.varsVec v), by omega⟩ :
          Fin J.columns.length) = c := by
        change colStart s.heap s.graph.varsVec v ≤ c at h1
        exact Fin.ext (by simp; omega)
      rwa [ec] at h3
    · obtain ⟨i, hi, rfl⟩ := List.mem_map.1 hx
      rw [hent i (List.mem_range.1 hi)]
      exact h _ (Nat.le_add_right _ _) (Nat.add_lt_add_left (List.mem_range.1 hi) _)
  rw [← hiff]
  cases realArith.lt (realArith.lit (10 ^ 12)) (realArith.maxCoeff ((List.range (VarLike.size (s.heap v))).map fun i =>
      (blockOf X (colStart s.heap s.graph.varsVec v) (VarLike.size (s.heap v))).entry i i)) <;> simp

/-- The normal matrix of a Jacobian that determines the variables is invertible, and the variances are bounded. -/
theorem C123.variance {m n : Nat} (A : Matrix (Fin m) (Fin n) ℝ) {μ : ℝ} (hμ : 0 < μ)
    (h : ∀ v : Fin n → ℝ, μ * (v ⬝ᵥ v) ≤ (A *ᵥ v) ⬝ᵥ (A *ᵥ v)) : IsUnit (Aᵀ * A) ∧ ∀ c, (Aᵀ * A)⁻¹ c c ≤ 1 / μ := by
  have hform : ∀ v : Fin n → ℝ, v ⬝ᵥ ((Aᵀ * A) *ᵥ v) = (A *ᵥ v) ⬝ᵥ (A *ᵥ v) := quad_gram A
  have hpd : (Aᵀ * A).PosDef := .of_dotProduct_mulVec_pos (gram_posSemidef A).isHermitian fun x hx => by
    rw [star_trivial, hform]
    have := h x
    have := sq_pos_dot hx
    nlinarith
  have hu := hpd.isUnit
  refine ⟨hu, fun c => ?_⟩
  set y := (Aᵀ * A)⁻¹ *ᵥ Pi.single c 1 with hy
  have e1 : (Aᵀ * A) *ᵥ y = Pi.single c 1 := by
    rw [hy, mulVec_mulVec, mul_nonsing_inv _ ((isUnit_iff_isUnit_det _).1 hu), one_mulVec]
  have e2 : y c = (Aᵀ * A)⁻¹ c c := by rw [hy, mulVec_single_one]; rfl
  have e3 := h y
  rw [← hform, e1, dotProduct_single, mul_one] at e3
  have e4 : y c ^ 2 ≤ y ⬝ᵥ y := by
    rw [dotProduct, sq]
    exact Finset.single_le_sum (f := fun i => y i * y i) (fun i _ => mul_self_nonneg _) (Finset.mem_univ c)
  rw [← e2, le_div_iff₀ hμ]
  by_contra hn
  push Not at hn
  have h0 : 0 < y c := by
    by_contra h0
    push Not at h0
    nlinarith
  nlinarith

/-- **C123**, after a run by either method. If the linearised residual changes by at least `10⁻⁶` times the change of the variables,
at whatever values, then after a valid run `prepare_to_estimate_covariances()` succeeds and a covariance is reported for every free
variable. -/
theorem C123_run (hL : ExactLinAlg L) (env : Env ℝ V) {s t : OptWorld ℝ V Fact} (hp : Prepared s) (hrest : Restorable s)
    (hpos : 0 < s.opt.settings.maxIterations) (hret : optimize realArith L env s = (t, .ok ())) (hvalid : t.opt.stats.valid = true)
    (hv : s.opt.hessianValid = false) (hfree : 0 < freeTotal s.heap s.graph.getAllVariables)
    (hdet : ∀ h r J, SameShape s.heap h → Linearised h s.graph.getAllVariables s.graph.getAllFactors r J → Determines (1 / 10 ^ 12) J) :
    ∃ u, prepare realArith L t = (u, .ok ()) ∧ ∀ v ∈ s.graph.getAllVariables, VarLike.isConst (s.heap v) = false →
      0 < VarLike.size (s.heap v) → ∃ P, estimateCovariance realArith L u (some v) = .ok (some P) := by
  obtain ⟨hpt, hvt, evars, efacs, hs, h, r, J, hx, hlin, hJ⟩ := afterRun env hp hrest hpos hret hvalid
  obtain ⟨r0, _, _, _, hr, _⟩ := C110.last env hp.graph hpos hret hvalid
  have hc : t.opt.complete = true := by
    have := ((C17_returns realArith L env s hp.graph r0 hr).2 (by rw [hret])).2.2.2.1
    rwa [hret] at this
  obtain ⟨hu, hvar⟩ := C123.variance (jacobianMatrix J) (by positivity) (hdet h r J hx hlin)
  obtain ⟨u, h1, h2, h3⟩ := C123 hL hpt hc (hvt.trans hv) hJ (by rw [hlin.columns, hx.freeTotal_eq, evars, hs.freeTotal_eq]) hu
    (by rw [evars, hs.freeTotal_eq]; exact hfree)
  refine ⟨u, h1, fun v hm hcv hsv => ((h3 v (by rw [evars]; exact hm) ((hs v).2.1.trans hcv) (by rw [(hs v).2.2]; exact hsv)).1).2
    fun c _ _ => (hvar c).trans (by norm_num)⟩

/-- **C123**, linear problems, from the calls alone. Gauss-Newton on a linear problem that can be evaluated for all values and whose
normal matrix has eigenvalues of at least `10⁻¹²` which differ by a factor of at most `10¹²` returns and is valid, the covariances can
be prepared, and the one reported for a free variable is its block of `(JᵀJ)⁻¹`, for the Jacobian at the start values: it does not
depend on the course of the run. -/
theorem C123_linear (hL : ExactLinAlg L) (hP : ExactPivots L) (env : Env ℝ V) {s : OptWorld ℝ V Fact} (hs : SolvableLinear s)
    (hm : s.opt.settings.method = .gaussNewton) (h0 : 0 ≤ s.opt.settings.learningRate) (h2 : s.opt.settings.learningRate ≤ 2)
    (hpos : 0 < s.opt.settings.maxIterations) (hv : s.opt.hessianValid = false) {r : List ℝ} {J : SpMat ℝ}
    (hlin : Linearised s.heap s.graph.getAllVariables s.graph.getAllFactors r J) (hdet : Determines (1 / 10 ^ 12) J) :
    ∃ t u, optimize realArith L env s = (t, .ok ()) ∧ t.opt.stats.valid = true ∧ prepare realArith L t = (u, .ok ()) ∧
      ∀ v ∈ s.graph.getAllVariables, VarLike.isConst (s.heap v) = false → 0 < VarLike.size (s.heap v) →
        ∃ P, estimateCovariance realArith L u (some v) = .ok (some P) ∧ P.rows = VarLike.size (s.heap v) ∧
          P.cols = VarLike.size (s.heap v) ∧ ∀ i j, i < VarLike.size (s.heap v) → j < VarLike.size (s.heap v) → ∃ hi hj,
            P.entry i j = ((jacobianMatrix J)ᵀ * jacobianMatrix J)⁻¹
              ⟨colStart s.heap s.graph.getAllVariables v + i, hi⟩ ⟨colStart s.heap s.graph.getAllVariables v + j, hj⟩ := by
  have hp := hs.prepared
  obtain ⟨hn, hmem⟩ := C111.closed hp
  have hs0 : SameShape s.heap s.heap := fun _ => ⟨rfl, rfl, rfl⟩
  obtain ⟨t, ht, hvalid, _⟩ := C121_returns hL hP env hs hm h0 h2
  have hrest : Restorable s := fun hm' => by rw [hm] at hm'; simp at hm'
  -- the same matrix everywhere
  have hsame : ∀ h r' J', SameShape s.heap h → Linearised h s.graph.getAllVariables s.graph.getAllFactors r' J' →
      ∀ Q : ∀ N R : Nat, Matrix (Fin R) (Fin N) ℝ → Prop, Q _ _ (jacobianMatrix J) → Q _ _ (jacobianMatrix J') := by
    intro h r' J' hsh hlin' Q hQ
    have eN : J'.columns.length = J.columns.length := by rw [hlin'.columns, hlin.columns, hsh.freeTotal_eq]
    have eR : J'.rows = J.rows := by rw [hlin'.rows, hlin.rows]
    have key : ∀ (N R : Nat) (hN : J'.columns.length = N) (hR : J'.rows = R) (M : Matrix (Fin R) (Fin N) ℝ),
        (∀ a c, M a c = J'.coeff a c) → Q N R M → Q _ _ (jacobianMatrix J') := by
      intro N R hN hR M hM hQ
      subst hN hR
      rwa [show jacobianMatrix J' = M from funext fun a => funext fun c => (hM a c).symm]
    refine key _ _ eN eR (jacobianMatrix J) (fun a c => ?_) hQ
    exact (affine_coeff hn hmem hp.noRepeats hs.affine hs0 hsh hlin hlin' (by rw [← hlin.rows]; exact a.2) (by
      rw [← hlin.columns]; exact c.2)).symm
  obtain ⟨u, h3, h4⟩ := C123_run hL env hp hrest hpos ht hvalid hv hs.free fun h r' J' hsh hlin' => by
    have := hsame h r' J' hsh hlin' (fun N R M => ∀ v : Fin N → ℝ, 1 / 10 ^ 12 * (v ⬝ᵥ v) ≤ (M *ᵥ v) ⬝ᵥ (M *ᵥ v)) hdet
    exact this
  refine ⟨t, u, ht, hvalid, h3, fun v hmv hcv hsv => ?_⟩
  obtain ⟨P, hPv⟩ := h4 v hmv hcv hsv
  obtain ⟨hpt, hvt, evars, efacs, hst, h, r', J', hx, hlin', hJ⟩ := afterRun env hp hrest hpos ht hvalid
  obtain ⟨h0, pre, post, hw, _⟩ := hpt.history
  obtain ⟨J1, e1, hu, z1, z2, hent, _⟩ := C30_block hL hw (hvt.trans hv) h3 v (by rw [evars]; exact hmv) P hPv
  rw [hJ] at e1
  obtain rfl := Res.ok.inj e1
  rw [(hst v).2.2] at z1 z2
  refine ⟨P, hPv, z1, z2, fun i j hi hj => ?_⟩
  have key := hent i j (by rw [(hst v).2.2]; exact hi) (by rw [(hst v).2.2]; exact hj)
  rw [evars, hst.colStart_eq] at key
  by_contra hne
  have := hsame h r' J' hx hlin' (fun N R M => ¬ ∃ hi hj, P.entry i j =
    (Mᵀ * M)⁻¹ ⟨colStart s.heap s.graph.getAllVariables v + i, hi⟩ ⟨colStart s.heap s.graph.getAllVariables v + j, hj⟩) hne
  exact this key

/-- **C123**, measured values. The covariances of two linear problems that differ only in the values measured and in the start values
are the same. -/
theorem C123_design (hL : ExactLinAlg L) (hP : ExactPivots L) (env env' : Env ℝ V) {s s' : OptWorld ℝ V Fact} (hs : SolvableLinear s)
    (hs' : SolvableLinear s') (hd : SameDesign s s')
    (hm : s.opt.settings.method = .gaussNewton) (h0 : 0 ≤ s.opt.settings.learningRate) (h2 : s.opt.settings.learningRate ≤ 2)
    (hpos : 0 < s.opt.settings.maxIterations) (hv : s.opt.hessianValid = false)
    (hm' : s'.opt.settings.method = .gaussNewton) (h0' : 0 ≤ s'.opt.settings.learningRate) (h2' : s'.opt.settings.learningRate ≤ 2)
    (hpos' : 0 < s'.opt.settings.maxIterations) (hv' : s'.opt.hessianValid = false) {r : List ℝ} {J : SpMat ℝ}
    (hlin : Linearised s.heap s.graph.getAllVariables s.graph.getAllFactors r J) (hdet : Determines (1 / 10 ^ 12) J) :
    ∃ t u t' u', optimize realArith L env s = (t, .ok ()) ∧ prepare realArith L t = (u, .ok ()) ∧
      optimize realArith L env' s' = (t', .ok ()) ∧ prepare realArith L t' = (u', .ok ()) ∧
      ∀ v ∈ s.graph.getAllVariables, VarLike.isConst (s.heap v) = false → 0 < VarLike.size (s.heap v) →
        ∃ P P', estimateCovariance realArith L u (some v) = .ok (some P) ∧ estimateCovariance realArith L u' (some v) = .ok (some P') ∧
          P.rows = VarLike.size (s.heap v) ∧ P.cols = VarLike.size (s.heap v) ∧ P'.rows = VarLike.size (s.heap v) ∧
          P'.cols = VarLike.size (s.heap v) ∧
          ∀ i j, i < VarLike.size (s.heap v) → j < VarLike.size (s.heap v) → P.entry i j = P'.entry i j := by
  obtain ⟨r', J', hlin', _⟩ := hs'.conditioned
  obtain ⟨hn, hmem⟩ := C111.closed hs.prepared
  obtain ⟨_, hmem'⟩ := C111.closed hs'.prepared
  rw [hd.variables] at hlin' hmem'
  have eT : rowTotal s'.graph.getAllFactors = rowTotal s.graph.getAllFactors := by
    unfold rowTotal
    rw [sizes_eq hd.count fun k f f' h1 h2 => (hd.factors k f f' h1 h2).2.1]
  have hsame : ∀ Q : ∀ N R : Nat, Matrix (Fin R) (Fin N) ℝ → Prop, Q _ _ (jacobianMatrix J) → Q _ _ (jacobianMatrix J') := by
    intro Q hQ
    have eN : J'.columns.length = J.columns.length := by rw [hlin'.columns, hlin.columns, hd.shape.freeTotal_eq]
    have eR : J'.rows = J.rows := by rw [hlin'.rows, hlin.rows, eT]
    have key : ∀ (N R : Nat) (hN : J'.columns.length = N) (hR : J'.rows = R) (M : Matrix (Fin R) (Fin N) ℝ),
        (∀ a c, M a c = J'.coeff a c) → Q N R M → Q _ _ (jacobianMatrix J') := by
      intro N R hN hR M hM hQ
      subst hN hR
      rwa [show jacobianMatrix J' = M from funext fun a => funext fun c => (hM a c).symm]
    refine key _ _ eN eR (jacobianMatrix J) (fun a c => ?_) hQ
    exact (design_coeff hn hmem hmem' hs.prepared.noRepeats hs'.prepared.noRepeats hd.shape hd.count hd.factors
      (fun _ => ⟨rfl, rfl, rfl⟩) (fun _ => ⟨rfl, rfl, rfl⟩) hlin hlin' (by rw [← hlin.rows]; exact a.2) (by
      rw [← hlin.columns]; exact c.2)).symm
  obtain ⟨t, u, h3, _, h4, h5⟩ := C123_linear hL hP env hs hm h0 h2 hpos hv hlin hdet
  obtain ⟨t', u', h3', _, h4', h5'⟩ := C123_linear hL hP env' hs' hm' h0' h2' hpos' hv' (by rw [hd.variables]; exact hlin')
    (hsame (fun N R M => ∀ v : Fin N → ℝ, 1 / 10 ^ 12 * (v ⬝ᵥ v) ≤ (M *ᵥ v) ⬝ᵥ (M *ᵥ v)) hdet)
  refine ⟨t, u, t', u', h3, h4, h3', h4', fun v hmv hcv hsv => ?_⟩
  obtain ⟨P, e1, e2, e3, e4⟩ := h5 v hmv hcv hsv
  obtain ⟨P', e1', e2', e3', e4'⟩ := h5' v (by rw [hd.variables]; exact hmv) ((hd.shape v).2.1.trans hcv) (by
    rw [(hd.shape v).2.2]; exact hsv)
  rw [(hd.shape v).2.2] at e2' e3' e4'
  rw [hd.variables, hd.shape.colStart_eq] at e4'
  refine ⟨P, P', e1, e1', e2, e3, e2', e3', fun i j hi hj => ?_⟩
  have k1 := e4 i j hi hj
  have k2 := e4' i j hi hj
  have := hsame (fun N R M => ∃ hi hj, P.entry i j =
    (Mᵀ * M)⁻¹ ⟨colStart s.heap s.graph.getAllVariables v + i, hi⟩ ⟨colStart s.heap s.graph.getAllVariables v + j, hj⟩) k1
  obtain ⟨_, _, k3⟩ := this
  obtain ⟨_, _, k4⟩ := k2
  rw [k3, k4]

end

theorem C123.determines : Determines (1 / 10 ^ 12) (TinyWorld.jac (2 : ℝ) 3 1) := fun v => by
  have h := (C111.tiny_between v).1
  have : 0 ≤ v ⬝ᵥ v := by
    rw [dotProduct]
    exact Finset.sum_nonneg fun i _ => mul_self_nonneg _
  refine le_trans ?_ h
  norm_num
  nlinarith

theorem C123.linearised (m p q : ℝ) (o : Settings ℝ) : ∃ r, Linearised (C118.start m p q o).heap
    (C118.start m p q o).graph.getAllVariables (C118.start m p q o).graph.getAllFactors r (TinyWorld.jac 2 3 1) := by
  rw [C118.vars, C118.heap, C118.facs]
  exact ⟨_, C104.linearisedAt ..⟩

/-- On the small graph, whatever is measured: both free variables get covariances, and they do not depend on the measured values. -/
example (m p q m' p' q' : ℝ) : ∃ t u t' u',
    optimize realArith Ldlt.linAlg (TinyWorld.env 0) (C118.start m p q C121.gn) = (t, .ok ()) ∧ prepare realArith Ldlt.linAlg t = (u, .ok ()) ∧
    optimize realArith Ldlt.linAlg (TinyWorld.env 0) (C118.start m' p' q' C121.gn) = (t', .ok ()) ∧
    prepare realArith Ldlt.linAlg t' = (u', .ok ()) ∧
    ∃ P P', estimateCovariance realArith Ldlt.linAlg u (some 1) = .ok (some P) ∧
      estimateCovariance realArith Ldlt.linAlg u' (some 1) = .ok (some P') ∧ P.entry 0 0 = P'.entry 0 0 := by
  obtain ⟨h1, h2, h3, h4⟩ := C121.gn_facts
  have l0 : (0 : ℝ) ≤ C121.gn.learningRate := by rw [h2]; norm_num
  have l2 : C121.gn.learningRate ≤ (2 : ℝ) := by rw [h2]; norm_num
  obtain ⟨r, hlin⟩ := C123.linearised m p q C121.gn
  obtain ⟨t, u, t', u', e1, e2, e3, e4, e5⟩ := C123_design Ldlt.exact Ldlt.exact_pivots (TinyWorld.env 0) (TinyWorld.env 0)
    (C121.solvable m p q C121.gn) (C121.solvable m' p' q' C121.gn) (C119.design m p q m' p' q' C121.gn) h1 l0 l2 h3 rfl h1 l0 l2 h3 rfl
    hlin C123.determines
  refine ⟨t, u, t', u', e1, e2, e3, e4, ?_⟩
  obtain ⟨P, P', k1, k2, _, _, _, _, k5⟩ := e5 1 (by rw [C118.vars]; simp) (by rw [C118.heap]; rfl)
    (by rw [C118.heap]; exact Nat.one_pos)
  rw [C118.heap] at k5
  exact ⟨P, P', k1, k2, k5 0 0 Nat.one_pos Nat.one_pos⟩

/-- In rational arithmetic: the same measurements with weights ten million times smaller leave variances above `10¹²`, and none is
reported although the run is valid and the preparation succeeds. -/
example :
    let run := fun c : Rat =>
      (optimize ToyOpt.rat Ldlt.linAlg (TinyWorld.env 0)
        (ToyOpt.start (TinyGroups.world 0 0 1 (TinyGroups.once 4 5 (2 * c) (3 * c) (1 * c))) ToyOpt.gn)).1
    let report := fun c => C29.report (prepare ToyOpt.rat Ldlt.linAlg (run c)).1 (some 1)
    (run (1 / 10000000)).opt.stats.valid = true ∧ (prepare ToyOpt.rat Ldlt.linAlg (run (1 / 10000000))).2 = .ok () ∧
    report (1 / 10000000) = .ok none ∧ report 1 = .ok (some [13 / 49]) := by decide +kernel

end Factorama.Props
