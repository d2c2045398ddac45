import Verif.Lemmas.Path
import Verif.Props.Informative
import Verif.Props.AfterRun
import Mathlib.Tactic.IntervalCases

/-!
# Property C116: a variable is at most as uncertain as dead reckoning along any path
-/

namespace Factorama.Props
open Spec Graph Opt Matrix Geo

section
variable {V Fact : Type} [VarLike ℝ V] [LawfulVar ℝ V] {L : LinAlg ℝ Fact}

/-- **C116**. In any finalized graph, whatever other factors it has: if a path of relative measurements leads from a direct
measurement or a constant variable to the variable `v`, the variance reported for `v` is at most the sum of the variances along the
path, in each of the components measured and in every combination of them. If the graph has just as many residuals as free values
it is this sum. -/
theorem C116 (hL : ExactLinAlg L) {s t : OptWorld ℝ V Fact} (hp : Prepared s) (hv : s.opt.hessianValid = false)
    {x : Heap V} (hx : SameShape s.heap x) {r : List ℝ} {J : SpMat ℝ} (hJ : s.graph.sparseJacobian = .ok J)
    (hlin : Linearised x s.graph.getAllVariables s.graph.getAllFactors r J)
    (hprep : prepare realArith L s = (t, .ok ())) {v : VRef} (hmem : v ∈ s.graph.getAllVariables) {P : Mat ℝ}
    (hP : estimateCovariance realArith L t (some v) = .ok (some P)) {C : Finset Nat} (hC : ∀ i ∈ C, i < VarLike.size (s.heap v))
    {ks : List Nat} {S : ℝ} (hpath : Path x C s.graph.getAllFactors v ks S) :
    (∀ z : Nat → ℝ, (∀ i, i ∉ C → z i = 0) → varianceOf P z ≤ S * ∑ i ∈ C, z i ^ 2) ∧
    (∀ i ∈ C, P.entry i i ≤ S) ∧
    (rowTotal s.graph.getAllFactors = freeTotal s.heap s.graph.getAllVariables →
      ∀ z : Nat → ℝ, (∀ i, i ∉ C → z i = 0) → varianceOf P z = S * ∑ i ∈ C, z i ^ 2) := by
  obtain ⟨h0, pre, post, hw, _⟩ := hp.history
  have hn : s.graph.getAllVariables.Nodup := List.Nodup.of_map _ (finalizedAfter_layout hw).ids
  obtain ⟨J1, e1, hu, z1, z2, hent, _⟩ := C30_block hL hw hv hprep v hmem P hP
  rw [hJ] at e1
  obtain rfl := Res.ok.inj e1
  have hstack : Stacks x s.graph.getAllVariables s.graph.getAllFactors J := ⟨hlin.rows, hlin.columns, hlin.jacobian⟩
  have hcol : colStart s.heap s.graph.getAllVariables v = colStart x s.graph.getAllVariables v := (hx.colStart_eq _ _).symm
  have hft : freeTotal x s.graph.getAllVariables = freeTotal s.heap s.graph.getAllVariables := hx.freeTotal_eq _
  have hcv : VarLike.isConst (s.heap v) = false := by
    obtain ⟨r, p, f, X, hr, hc, hv', _⟩ := estimateCovariance_some hP
    obtain rfl := Option.some.inj hr
    obtain ⟨_, _, _, _, _, _, _, hheap, _⟩ := C31_partial realArith L s t hv hprep hv'
    rwa [hheap] at hc
  have key : ∀ z : Nat → ℝ, (∀ i, i ∉ C → z i = 0) → ∃ u : Fin J.rows → ℝ, u ⬝ᵥ u = S * ∑ i ∈ C, z i ^ 2 ∧
      (jacobianMatrix J)ᵀ *ᵥ u = fun c : Fin J.columns.length =>
        setAt (Finset.range (VarLike.size (s.heap v))) (colStart s.heap s.graph.getAllVariables v) z c := by
    intro z hz
    obtain ⟨u, _, h2, h3⟩ := path_combination hstack hp.noRepeats z hpath
    refine ⟨fun a => u a, ?_, ?_⟩
    · rw [dotProduct, Fin.sum_univ_eq_sum_range (fun a => u a * u a), hlin.rows, h2]
      simp only [sq]
    · funext c
      have hc : (c : Nat) < freeTotal x s.graph.getAllVariables := hlin.columns ▸ c.2
      obtain ⟨q, hq, hqc, j, hj, e⟩ := exists_column x hn hc
      rw [mulVec, dotProduct]
      have e2 : ∑ a : Fin J.rows, (jacobianMatrix J)ᵀ c a * u a =
          ∑ a ∈ Finset.range (rowTotal s.graph.getAllFactors), u a * J.coeff a (colStart x s.graph.getAllVariables q + j) := by
        rw [← hlin.rows, ← Fin.sum_univ_eq_sum_range (fun a => u a * J.coeff a (colStart x s.graph.getAllVariables q + j))]
        refine Finset.sum_congr rfl fun a _ => ?_
        rw [mul_comm, ← e]
        rfl
      rw [e2, h3 q hq hqc j hj]
      by_cases hqv : q = v
      · subst hqv
        rw [e, hcol]
        have hj' : j ∈ Finset.range (VarLike.size (s.heap q)) := by simpa [(hx q).2.2] using hj
        rw [setAt_at _ _ _ hj']
        by_cases hjC : j ∈ C
        · simp [hjC]
        · simp [hjC, hz j hjC]
      · simp only [hqv, false_and, if_false]
        by_contra hne
        obtain ⟨i, hi, e3⟩ := setAt_ne (Ne.symm hne)
        refine colStart_disjoint x (r := v) hqv hmem hq (j := j) (by simp [freeSize, hqc, hj]) ⟨?_, ?_⟩
        · omega
        · have : VarLike.isConst (x v) = false := (hx v).2.1.trans hcv
          simp only [freeSize, this, (hx v).2.2]
          simp at hi
          simp
          omega
  have hform : ∀ z, varianceOf P z = ∑ i ∈ Finset.range (VarLike.size (s.heap v)), ∑ j ∈ Finset.range (VarLike.size (s.heap v)),
      z i * P.entry i j * z j := fun z => by
    unfold varianceOf
    rw [z1, z2]
  have hle : ∀ z : Nat → ℝ, (∀ i, i ∉ C → z i = 0) → varianceOf P z ≤ S * ∑ i ∈ C, z i ^ 2 := by
    intro z hz
    obtain ⟨u, h1, h2⟩ := key z hz
    rw [hform, variance_form _ P.entry hent z, ← h1]
    exact (variance_bound (jacobianMatrix J) hu u _ h2).1
  refine ⟨hle, fun i hi => ?_, fun heq z hz => ?_⟩
  · have := hle (fun k => if k = i then 1 else 0) fun k hk => if_neg (by rintro rfl; exact hk hi)
    have hi' : i < VarLike.size (s.heap v) := hC i hi
    have e : varianceOf P (fun k => if k = i then 1 else 0) = P.entry i i := by
      unfold varianceOf
      rw [Finset.sum_eq_single_of_mem i (by simpa [z1] using hi') fun k _ hk => by simp [hk],
        Finset.sum_eq_single_of_mem i (by simpa [z2] using hi') fun k _ hk => by simp [hk]]
      simp
    rw [e, Finset.sum_eq_single_of_mem i hi fun k _ hk => by simp [hk]] at this
    simpa using this
  · obtain ⟨u, h1, h2⟩ := key z hz
    rw [hform, variance_form _ P.entry hent z, ← h1]
    exact (variance_bound (jacobianMatrix J) hu u _ h2).2 (by rw [hlin.rows, hlin.columns, hft, heq])

/-- **C116** from the calls: after a valid run, by either method, and `prepare_to_estimate_covariances()`. Since the covariances
belong to values before the last step, the path has to be one for all values, as it is for the factors below. -/
theorem C116_run (hL : ExactLinAlg L) (env : Env ℝ V) {s t u : OptWorld ℝ V Fact} (hp : Prepared s) (hrest : Restorable s)
    (hv : s.opt.hessianValid = false) (hpos : 0 < s.opt.settings.maxIterations)
    (hret : optimize realArith L env s = (t, .ok ())) (hvalid : t.opt.stats.valid = true)
    (hprep : prepare realArith L t = (u, .ok ())) {v : VRef} (hmem : v ∈ s.graph.getAllVariables) {P : Mat ℝ}
    (hP : estimateCovariance realArith L u (some v) = .ok (some P)) {C : Finset Nat} (hC : ∀ i ∈ C, i < VarLike.size (s.heap v))
    {ks : List Nat} {S : ℝ} (hpath : ∀ x, SameShape s.heap x → Path x C s.graph.getAllFactors v ks S) :
    (∀ z : Nat → ℝ, (∀ i, i ∉ C → z i = 0) → varianceOf P z ≤ S * ∑ i ∈ C, z i ^ 2) ∧
    (∀ i ∈ C, P.entry i i ≤ S) ∧
    (rowTotal s.graph.getAllFactors = freeTotal s.heap s.graph.getAllVariables →
      ∀ z : Nat → ℝ, (∀ i, i ∉ C → z i = 0) → varianceOf P z = S * ∑ i ∈ C, z i ^ 2) := by
  obtain ⟨hpt, hvt, evars, efacs, hs, x, r, J, hx, hlin, hJ⟩ := afterRun env hp hrest hpos hret hvalid
  have hx' : SameShape t.heap x := fun q =>
    ⟨(hx q).1.trans (hs q).1.symm, (hx q).2.1.trans (hs q).2.1.symm, (hx q).2.2.trans (hs q).2.2.symm⟩
  have := C116 hL hpt (hvt.trans hv) hx' hJ (by rw [evars, efacs]; exact hlin) hprep (by rw [evars]; exact hmem) hP (C := C)
    (fun i hi => by rw [(hs v).2.2]; exact hC i hi) (by rw [efacs]; exact hpath x hx)
  rwa [evars, efacs, hs.freeTotal_eq] at this

/-! ### The direct and relative measurements of the library -/

omit [LawfulVar ℝ V] in
/-- A generic prior measures all components. -/
theorem C116_generic_prior (h : Heap V) (id : Int) (v : VRef) (prior : List ℝ) (σ : ℝ) :
    Direct h (Finset.range prior.length) (genericPrior id v prior (1 / σ)) v σ where
  «variables» := rfl
  row i hi := Finset.mem_range.1 hi
  block js hj hc i _ j _ := by
    simp only [genericPrior, hc, Bool.false_eq_true, if_false, Res.ok.injEq] at hj
    subst hj
    simp only [List.getD_cons_zero, Mat.diag]
    exact if_congr eq_comm rfl rfl

omit [LawfulVar ℝ V] in
/-- A generic between factor measures the difference of all components. -/
theorem C116_generic_between (h : Heap V) (id : Int) (a b m : VRef) (n : Nat) (σ : ℝ) :
    Relative h (Finset.range n) (genericBetween id a b m n (1 / σ)) a b m σ where
  «variables» := rfl
  row i hi := Finset.mem_range.1 hi
  blockA js hj hc i _ j _ := by
    simp only [genericBetween, Res.ok.injEq] at hj
    subst hj
    simp only [List.getD_cons_zero, betweenBlock, hc, Bool.false_eq_true, if_false, Mat.diag]
    exact if_congr eq_comm rfl rfl
  blockB js hj hc i _ j _ := by
    simp only [genericBetween, Res.ok.injEq] at hj
    subst hj
    simp only [List.getD_cons_succ, List.getD_cons_zero, betweenBlock, hc, Bool.false_eq_true, if_false, Mat.diag]
    exact if_congr eq_comm rfl rfl

end

/-- A prior on the position of a pose measures its first three components. -/
theorem C116_pose_prior (h : Heap RVar) (id : Int) (v : VRef) (prior : V3) (σ : ℝ) :
    Direct h (Finset.range 3) (Fac.posePositionPrior id v prior σ) v σ where
  «variables» := rfl
  row i hi := Finset.mem_range.1 hi
  block js hj hc i hi j hj' := by
    simp only [Fac.posePositionPrior] at hj
    cases hv : h v with
    | pose p =>
      rw [hv] at hj hc hj'
      obtain rfl := Res.ok.inj hj
      have hi : i < 3 := by simpa using hi
      have hj' : j < 6 := hj'
      interval_cases i <;> interval_cases j <;> simp [Fac.block, hc, Mat.ofMatrix, Fac.beside]
    | _ => rw [hv] at hj; simp at hj

/-- A measurement in world coordinates of the difference of the positions of two poses. -/
theorem C116_pose_between (h : Heap RVar) (id : Int) (a b m : VRef) (σ : ℝ) :
    Relative h (Finset.range 3) (Fac.posePositionBetween id a b m σ false) a b m σ := by
  have key : ∀ js, (Fac.posePositionBetween id a b m σ false).computeJacobians h [] = .ok js → ∃ pa pb, h a = .pose pa ∧ h b = .pose pb ∧
      js.getD 0 Mat.empty = Fac.block (h a) (Fac.beside (-(1 / σ) • (1 : M3)) 0) ∧
      js.getD 1 Mat.empty = Fac.block (h b) (Fac.beside ((1 / σ) • (1 : M3)) 0) := by
    intro js hj
    simp only [Fac.posePositionBetween] at hj
    cases ha : h a <;> cases hb : h b <;> rw [ha, hb] at hj <;> try (simp at hj; done)
    obtain rfl := Res.ok.inj hj
    exact ⟨_, _, rfl, rfl, by simp, by simp⟩
  refine ⟨rfl, fun i hi => Finset.mem_range.1 hi, fun js hj hc i hi j hj' => ?_, fun js hj hc i hi j hj' => ?_⟩
  · obtain ⟨pa, pb, ha, hb, e1, e2⟩ := key js hj
    have hi : i < 3 := by simpa using hi
    have hj' : j < 6 := by rw [ha] at hj'; exact hj'
    rw [e1]
    interval_cases i <;> interval_cases j <;> simp [Fac.block, hc, Mat.ofMatrix, Fac.beside]
  · obtain ⟨pa, pb, ha, hb, e1, e2⟩ := key js hj
    have hi : i < 3 := by simpa using hi
    have hj' : j < 6 := by rw [hb] at hj'; exact hj'
    rw [e2]
    interval_cases i <;> interval_cases j <;> simp [Fac.block, hc, Mat.ofMatrix, Fac.beside]

/-- A prior on a planar pose measures its position and its heading. -/
theorem C116_planar_prior (h : Heap RVar) (id : Int) (v : VRef) (prior : V3) (σ τ : ℝ) :
    Direct h {0, 1} (Fac.pose2DPrior id v prior σ τ) v σ ∧ Direct h {2} (Fac.pose2DPrior id v prior σ τ) v τ := by
  have key : ∀ js, (Fac.pose2DPrior id v prior σ τ).computeJacobians h [] = .ok js → ∃ p, h v = .pose2d p ∧
      js.getD 0 Mat.empty = Fac.block (h v) (!![1 / σ, 0, 0; 0, 1 / σ, 0; 0, 0, 1 / τ] : M3) := by
    intro js hj
    simp only [Fac.pose2DPrior] at hj
    cases hv : h v with
    | pose2d p => rw [hv] at hj; obtain rfl := Res.ok.inj hj; exact ⟨p, rfl, rfl⟩
    | _ => rw [hv] at hj; simp at hj
  refine ⟨⟨rfl, fun i hi => ?_, fun js hj hc i hi j hj' => ?_⟩, ⟨rfl, fun i hi => ?_, fun js hj hc i hi j hj' => ?_⟩⟩
  · simp at hi; simp [Fac.pose2DPrior]; omega
  · obtain ⟨p, hv, e⟩ := key js hj
    have hj' : j < 3 := by rw [hv] at hj'; exact hj'
    rw [e]
    simp only [Finset.mem_insert, Finset.mem_singleton] at hi
    rcases hi with rfl | rfl <;> interval_cases j <;> simp [Fac.block, hc, Mat.ofMatrix]
  · simp at hi; simp [Fac.pose2DPrior]; omega
  · obtain ⟨p, hv, e⟩ := key js hj
    have hj' : j < 3 := by rw [hv] at hj'; exact hj'
    rw [e]
    simp only [Finset.mem_singleton] at hi
    subst hi
    interval_cases j <;> simp [Fac.block, hc, Mat.ofMatrix]

/-- The headings measured by a between factor of planar poses, in world coordinates or in those of the first pose. -/
theorem C116_planar_heading (h : Heap RVar) (id : Int) (a b m : VRef) (σ τ : ℝ) (loc : Bool) :
    Relative h {2} (Fac.pose2DBetween id a b m σ τ loc) a b m τ := by
  have key : ∀ js, (Fac.pose2DBetween id a b m σ τ loc).computeJacobians h [] = .ok js → ∃ pa pb, h a = .pose2d pa ∧ h b = .pose2d pb ∧
      ∃ A B : M3, js.getD 0 Mat.empty = Fac.block (h a) A ∧ js.getD 1 Mat.empty = Fac.block (h b) B ∧
        A 2 = ![0, 0, -(1 / τ)] ∧ B 2 = ![0, 0, 1 / τ] := by
    intro js hj
    simp only [Fac.pose2DBetween] at hj
    cases ha : h a <;> cases hb : h b <;> rw [ha, hb] at hj <;> try (simp at hj; done)
    obtain rfl := Res.ok.inj hj
    refine ⟨_, _, rfl, rfl, _, _, rfl, rfl, ?_, ?_⟩ <;> cases loc <;> rfl
  refine ⟨rfl, fun i hi => by simp at hi; simp [Fac.pose2DBetween]; omega, fun js hj hc i hi j hj' => ?_, fun js hj hc i hi j hj' => ?_⟩
  · obtain ⟨pa, pb, ha, hb, A, B, e1, e2, e3, e4⟩ := key js hj
    have hj' : j < 3 := by rw [ha] at hj'; exact hj'
    simp only [Finset.mem_singleton] at hi
    subst hi
    have e3' : ∀ k, A 2 k = ![0, 0, -(1 / τ)] k := fun k => congrFun e3 k
    rw [e1]
    interval_cases j <;> simp [Fac.block, hc, Mat.ofMatrix, e3']
  · obtain ⟨pa, pb, ha, hb, A, B, e1, e2, e3, e4⟩ := key js hj
    have hj' : j < 3 := by rw [hb] at hj'; exact hj'
    simp only [Finset.mem_singleton] at hi
    subst hi
    have e4' : ∀ k, B 2 k = ![0, 0, 1 / τ] k := fun k => congrFun e4 k
    rw [e2]
    interval_cases j <;> simp [Fac.block, hc, Mat.ofMatrix, e4']

/-- The positions measured by a between factor of planar poses in world coordinates. -/
theorem C116_planar_between (h : Heap RVar) (id : Int) (a b m : VRef) (σ τ : ℝ) :
    Relative h {0, 1} (Fac.pose2DBetween id a b m σ τ false) a b m σ := by
  have key : ∀ js, (Fac.pose2DBetween id a b m σ τ false).computeJacobians h [] = .ok js → ∃ pa pb, h a = .pose2d pa ∧ h b = .pose2d pb ∧
      js.getD 0 Mat.empty = Fac.block (h a) (!![-(1 / σ), 0, 0; 0, -(1 / σ), 0; 0, 0, -(1 / τ)] : M3) ∧
      js.getD 1 Mat.empty = Fac.block (h b) (!![1 / σ, 0, 0; 0, 1 / σ, 0; 0, 0, 1 / τ] : M3) := by
    intro js hj
    simp only [Fac.pose2DBetween] at hj
    cases ha : h a <;> cases hb : h b <;> rw [ha, hb] at hj <;> try (simp at hj; done)
    obtain rfl := Res.ok.inj hj
    exact ⟨_, _, rfl, rfl, rfl, rfl⟩
  refine ⟨rfl, fun i hi => by simp at hi; simp [Fac.pose2DBetween]; omega, fun js hj hc i hi j hj' => ?_, fun js hj hc i hi j hj' => ?_⟩
  · obtain ⟨pa, pb, ha, hb, e1, e2⟩ := key js hj
    have hj' : j < 3 := by rw [ha] at hj'; exact hj'
    simp only [Finset.mem_insert, Finset.mem_singleton] at hi
    rw [e1]
    rcases hi with rfl | rfl <;> interval_cases j <;> simp [Fac.block, hc, Mat.ofMatrix]
  · obtain ⟨pa, pb, ha, hb, e1, e2⟩ := key js hj
    have hj' : j < 3 := by rw [hb] at hj'; exact hj'
    simp only [Finset.mem_insert, Finset.mem_singleton] at hi
    rw [e2]
    rcases hi with rfl | rfl <;> interval_cases j <;> simp [Fac.block, hc, Mat.ofMatrix]

/-! ### Examples -/

/-- The path in the small graph: the prior on the first variable, standard deviation 1/2, and the difference, 1/3. -/
theorem C116.path (w : ℝ) {x : Heap (GenVar ℝ)} (hx : SameShape (TinyWorld.heap 0 0 1) x) : Path x (Finset.range 1) (TinyWorld.facs 4 7 2 3 w) 1 [1, 0]
    ((1 / 2) ^ 2 + (1 / 3) ^ 2) := by
  have e1 : (2 : ℝ) = 1 / (1 / 2) := by norm_num
  have e2 : (3 : ℝ) = 1 / (1 / 3) := by norm_num
  refine .forward (a := 0) (m := 2) (k := 1) (f := genericBetween 11 0 1 2 1 3) (σ := 1 / 3)
    (.direct (k := 0) (f := genericPrior 10 0 [4] 2) (σ := 1 / 2) rfl ?_ (by norm_num) ((hx 0).2.1)) rfl ?_
    (by norm_num) ((hx 2).2.1) ((hx 1).2.1) (by simp)
  · have := C116_generic_prior x 10 0 [4] (1 / 2)
    rwa [← e1] at this
  · have := C116_generic_between x 11 0 1 2 1 (1 / 3)
    rwa [← e2] at this

/-- In the small graph, which has one more measurement of the second variable, its variance is at most 1/4 + 1/9. -/
example (w : ℝ) (t : OptWorld ℝ (GenVar ℝ) (Ldlt.Fact ℝ)) (hprep : prepare realArith Ldlt.linAlg (C107.start w) = (t, .ok ()))
    (P : Mat ℝ) (hP : estimateCovariance realArith Ldlt.linAlg t (some 1) = .ok (some P)) : P.entry 0 0 ≤ 1 / 4 + 1 / 9 := by
  have hh : (C107.start w).heap = TinyWorld.heap 0 0 1 := TinyWorld.heap_eq ..
  have := (C116 Ldlt.exact (C107.prepared w) rfl (x := TinyWorld.heap 0 0 1) (by rw [hh]; exact fun _ => ⟨rfl, rfl, rfl⟩)
    (TinyWorld.sparse_eq ..) (C107.linearised w) hprep (v := 1) (by rw [C107.vars]; simp) hP (C := Finset.range 1)
    (by rw [hh]; intro i hi; exact Finset.mem_range.1 hi) (by rw [C107.facs]; exact C116.path w fun _ => ⟨rfl, rfl, rfl⟩)).2.1 0 (by simp)
  norm_num at this ⊢
  exact this

/-- The same from the calls: after any valid run. -/
example (w : ℝ) (env : Env ℝ (GenVar ℝ)) (t u : OptWorld ℝ (GenVar ℝ) (Ldlt.Fact ℝ))
    (hret : optimize realArith Ldlt.linAlg env (C107.start w) = (t, .ok ())) (hvalid : t.opt.stats.valid = true)
    (hprep : prepare realArith Ldlt.linAlg t = (u, .ok ())) (P : Mat ℝ)
    (hP : estimateCovariance realArith Ldlt.linAlg u (some 1) = .ok (some P)) : P.entry 0 0 ≤ 1 / 4 + 1 / 9 := by
  have hh : (C107.start w).heap = TinyWorld.heap 0 0 1 := TinyWorld.heap_eq ..
  have := (C116_run Ldlt.exact env (C107.prepared w) (fun _ => ⟨_, GenVar.restoresExactly, fun _ _ => trivial⟩) rfl (Nat.succ_pos _) hret
    hvalid hprep (v := 1) (by rw [C107.vars]; simp) hP (C := Finset.range 1)
    (by rw [hh]; intro i hi; exact Finset.mem_range.1 hi)
    (fun x hx => by rw [C107.facs]; exact C116.path w (hh ▸ hx))).2.1 0 (by simp)
  norm_num at this ⊢
  exact this

/-- A path of headings: a prior on a planar pose, standard deviation 1/10, odometry in its coordinates, 1/20, and the difference to
a third pose, measured from that one, 1/50. -/
example (h : Heap RVar) (hm : VarLike.isConst (h 3) = true) (h0 : VarLike.isConst (h 0) = false) (h1 : VarLike.isConst (h 1) = false)
    (h2 : VarLike.isConst (h 2) = false) (prior : V3) :
    Path h {2} [Fac.pose2DPrior 10 0 prior 1 (1 / 10), Fac.pose2DBetween 11 0 1 3 1 (1 / 20) true,
      Fac.pose2DBetween 12 2 1 3 1 (1 / 50) false] 2 [2, 1, 0] ((1 / 10) ^ 2 + (1 / 20) ^ 2 + (1 / 50) ^ 2) :=
  .backward (.forward (.direct (k := 0) rfl (C116_planar_prior h 10 0 prior 1 (1 / 10)).2 (by norm_num) h0)
    (k := 1) rfl (C116_planar_heading h 11 0 1 3 1 (1 / 20) true) (by norm_num) hm h1 (by simp))
    (k := 2) rfl (C116_planar_heading h 12 2 1 3 1 (1 / 50) false) (by norm_num) hm h2 (by simp)

/-- In rational arithmetic: the chain alone gives the sum of the variances 1/4 + 1/9 = 13/36, another measurement less. -/
example :
    let report := fun w : World Rat (GenVar Rat) => C29.report (prepare ToyOpt.rat Ldlt.linAlg (optimize ToyOpt.rat Ldlt.linAlg
      (TinyWorld.env 0) (ToyOpt.start w ToyOpt.gn)).1).1 (some 1)
    report (TinyGroups.world 0 0 1 [genericPrior 10 0 [4] 2, genericBetween 11 0 1 2 1 3]) = .ok (some [1 / 4 + 1 / 9]) ∧
    report (TinyGroups.world 0 0 1 (TinyGroups.once 4 7 2 3 1)) = .ok (some [13 / 49]) ∧
    (13 / 49 : Rat) < 1 / 4 + 1 / 9 := by decide +kernel

end Factorama.Props
