import Verif.Lemmas.Units
import Verif.Lemmas.Rescaled
import Verif.Props.CovarianceValue
import Verif.Props.VariableOrder

/-!
# Property C104: only the ratios of the standard deviations matter
-/

namespace Factorama.Props
open Spec Graph Opt Matrix

/-! ### Where it fails -/

/-- **C104 is false** because the threshold for pivots is absolute: a problem that is solved is reported as singular, with
nothing moved, when all standard deviations are multiplied by `10⁸`. Exact arithmetic. -/
theorem C104_refused_false : ¬ ∀ k : Rat, 0 < k → ∀ a c m p q u v w : Rat, 0 < u → 0 < v → 0 < w →
    (optimize ToyOpt.rat Ldlt.linAlg (TinyWorld.env 0)
      (ToyOpt.start (TinyWorld.world a c m p q (k * u) (k * v) (k * w)) ToyOpt.gn)).1.opt.stats.status =
    (optimize ToyOpt.rat Ldlt.linAlg (TinyWorld.env 0)
      (ToyOpt.start (TinyWorld.world a c m p q u v w) ToyOpt.gn)).1.opt.stats.status := by
  intro H
  have := H (1 / 10 ^ 8) (by decide +kernel) 0 0 1 4 7 2 3 1 (by decide +kernel) (by decide +kernel) (by decide +kernel)
  revert this
  decide +kernel

/-- **C104 is false** of Levenberg-Marquardt because the damping is absolute: after one iteration the values differ when all
standard deviations are halved. -/
theorem C104_damping_false : ¬ ∀ k : Rat, 0 < k → ∀ a c m p q u v w : Rat, 0 < u → 0 < v → 0 < w →
    ((optimize ToyOpt.rat Ldlt.linAlg (TinyWorld.env 0)
      (ToyOpt.start (TinyWorld.world a c m p q (k * u) (k * v) (k * w)) { ToyOpt.lm with maxIterations := 1 })).1.heap 0).value =
    ((optimize ToyOpt.rat Ldlt.linAlg (TinyWorld.env 0)
      (ToyOpt.start (TinyWorld.world a c m p q u v w) { ToyOpt.lm with maxIterations := 1 })).1.heap 0).value := by
  intro H
  have := H 2 (by decide +kernel) 0 0 1 4 7 2 3 1 (by decide +kernel) (by decide +kernel) (by decide +kernel)
  revert this
  decide +kernel

/-! ### What the factors do -/

/-- **C104**, factors. For every class of the library: dividing all standard deviations a factor is built with by `c`
multiplies its residual and its Jacobians by `c`, at all values of the variables, and changes nothing else. -/
theorem C104_factor {c : ℝ} {f f' : Factor ℝ RVar} (hf : SigmasDividedBy c f f') : Rescaled c f f' := rescaled_library hf

/-- A range and bearing with standard deviations 1/2 and 1/10, and with 1/4 and 1/20. -/
example : ∃ h : Heap RVar, ∃ r, (Fac.rangeBearing2D 10 0 1 2 0 (1 / 2) (1 / 10)).computeResidual h = .ok r ∧ r.length = 2 ∧
    (Fac.rangeBearing2D 10 0 1 2 0 (1 / 2 / 2) (1 / 10 / 2)).computeResidual h = .ok (r.map (2 * ·)) := by
  refine ⟨fun r => if r = 0 then .pose2d ⟨1, false, ![0, 0], 0⟩ else .generic ⟨2, false, [3, 4]⟩, _, rfl, rfl, ?_⟩
  rw [(C104_factor (.rangeBearing2D 10 0 1 2 0 (1 / 2) (1 / 10) (c := 2))).residual]
  rfl

/-! ### Gauss-Newton -/

section
variable {V Fact : Type} [VarLike ℝ V] [LawfulVar ℝ V] {L : LinAlg ℝ Fact}

/-- Two optimizers with graphs over the same variables whose factors are those of the first, rescaled by `c`. -/
structure C104.Related (c : ℝ) (s s' : OptWorld ℝ V Fact) : Prop where
  heap : s'.heap = s.heap
  vars : s'.graph.getAllVariables = s.graph.getAllVariables
  facs : List.Forall₂ (Rescaled c) s.graph.getAllFactors s'.graph.getAllFactors

/-- **C104, the part that holds**, Gauss-Newton. Two graphs over the same variables, where the factors of the second are those
of the first with all standard deviations divided by `c`, the tolerance for residuals adapted to the unit, and an exact
solver. If neither `optimize()` call reports a singular or ill-conditioned system or a failure, both end with the same
variables after the same number of iterations; the reported norm of the residual is `c` times and the cost `c²` times as
large. Missing: whether a system is refused does depend on `c`, and so do the steps of Levenberg-Marquardt. -/
theorem C104_gauss_newton_partial {c : ℝ} (hc : 0 < c) (hL : ExactLinAlg L) (env env' : Env ℝ V) (s s' : OptWorld ℝ V Fact)
    (hp : Prepared s) (hp' : Prepared s') (hre : C104.Related c s s')
    (hset : s'.opt.settings = scaledSettings c s.opt.settings) (hm : s.opt.settings.method = .gaussNewton) (r0 r0' : List ℝ)
    (hr : (Graph.computeResidual env s.heap s.graph).2 = .ok r0)
    (hr' : (Graph.computeResidual env' s'.heap s'.graph).2 = .ok r0') (t t' : OptWorld ℝ V Fact)
    (hret : optimize realArith L env s = (t, .ok ())) (hret' : optimize realArith L env' s' = (t', .ok ()))
    (hst : t.opt.stats.status = .success ∨ t.opt.stats.status = .diverged)
    (hst' : t'.opt.stats.status = .success ∨ t'.opt.stats.status = .diverged) :
    t'.heap = t.heap ∧ t'.opt.stats = scaledStats c t.opt.stats := by
  obtain ⟨h0, pre, post, hw, _⟩ := hp.history
  have hn : s.graph.getAllVariables.Nodup := List.Nodup.of_map _ (finalizedAfter_layout hw).ids
  refine Spec.Correspond.gaussNewton hc (H := fun x x' => x' = x) hL env env' s s' hp hp' ?_ hre.heap hset hm r0 r0' hr hr' t t'
    hret hret' hst hst'
  rw [hre.vars]
  exact rescaled_correspond hre.facs hn

/-! ### Covariances -/

omit [LawfulVar ℝ V] in
theorem C104.inverse (c : ℝ) {N N' R R' : Nat} (hN : N' = N) (hR : R' = R) (q q' : Nat → Nat → ℝ)
    (hq : ∀ i, i < R → ∀ j, j < N → q' i j = c * q i j) (a b : Nat) (ha : a < N) (hb : b < N) (ha' : a < N') (hb' : b < N')
    (hu : IsUnit ((Matrix.of fun (i : Fin R) (j : Fin N) => q i j)ᵀ * (Matrix.of fun (i : Fin R) (j : Fin N) => q i j))) :
    ((Matrix.of fun (i : Fin R') (j : Fin N') => q' i j)ᵀ * (Matrix.of fun (i : Fin R') (j : Fin N') => q' i j))⁻¹ ⟨a, ha'⟩ ⟨b, hb'⟩ =
    ((Matrix.of fun (i : Fin R) (j : Fin N) => q i j)ᵀ * (Matrix.of fun (i : Fin R) (j : Fin N) => q i j))⁻¹ ⟨a, ha⟩ ⟨b, hb⟩ / c ^ 2 := by
  subst hN hR
  by_cases hc : c = 0
  · subst hc
    have e : (Matrix.of fun (i : Fin R') (j : Fin N') => q' i j) = 0 := by
      ext i j; simpa using hq i i.2 j j.2
    rw [e]
    simp
  have e : (Matrix.of fun (i : Fin R') (j : Fin N') => q' i j) = c • Matrix.of fun (i : Fin R') (j : Fin N') => q i j := by
    ext i j; exact hq i i.2 j j.2
  rw [e, Matrix.transpose_smul, Matrix.smul_mul, Matrix.mul_smul, smul_smul]
  generalize hG : (Matrix.of fun (i : Fin R') (j : Fin N') => q i j)ᵀ * (Matrix.of fun (i : Fin R') (j : Fin N') => q i j) = G at *
  have : (c * c) • G = (Units.mk0 (c * c) (mul_ne_zero hc hc)) • G := rfl
  rw [this, Matrix.inv_smul' _ _ ((Matrix.isUnit_iff_isUnit_det _).1 hu)]
  rw [Matrix.smul_apply, Units.smul_def, smul_eq_mul, sq]
  simp [div_eq_inv_mul]

/-- **C104**, covariances. When both graphs have been linearised at the same values, a covariance reported for a variable by
both is `c²` times smaller for the second. -/
theorem C104_covariance {c : ℝ} (hL : ExactLinAlg L) {s s' t t' : OptWorld ℝ V Fact} (hp : Prepared s) (hp' : Prepared s')
    (hre : C104.Related c s s') (hv : s.opt.hessianValid = false) (hv' : s'.opt.hessianValid = false)
    {x : Heap V} {r r' : List ℝ} {J J' : SpMat ℝ} (hJ : s.graph.sparseJacobian = .ok J) (hJ' : s'.graph.sparseJacobian = .ok J')
    (hlin : Linearised x s.graph.getAllVariables s.graph.getAllFactors r J)
    (hlin' : Linearised x s'.graph.getAllVariables s'.graph.getAllFactors r' J')
    (hprep : prepare realArith L s = (t, .ok ())) (hprep' : prepare realArith L s' = (t', .ok ())) (v : VRef)
    (hmem : v ∈ s.graph.getAllVariables) (P P' : Mat ℝ) (hP : estimateCovariance realArith L t (some v) = .ok (some P))
    (hP' : estimateCovariance realArith L t' (some v) = .ok (some P')) :
    P'.rows = P.rows ∧ P'.cols = P.cols ∧ ∀ i j, i < P.rows → j < P.cols → P'.entry i j = P.entry i j / c ^ 2 := by
  obtain ⟨h0, pre, post, hw, _⟩ := hp.history
  obtain ⟨h0', pre', post', hw', _⟩ := hp'.history
  have hn : s.graph.getAllVariables.Nodup := List.Nodup.of_map _ (finalizedAfter_layout hw).ids
  obtain ⟨J1, e1, hu, z1, z2, hent, _⟩ := C30_block hL hw hv hprep v hmem P hP
  obtain ⟨J2, e2, hu', z1', z2', hent', _⟩ := C30_block hL hw' hv' hprep' v (by rw [hre.vars]; exact hmem) P' hP'
  rw [hJ] at e1
  rw [hJ'] at e2
  obtain rfl := Res.ok.inj e1
  obtain rfl := Res.ok.inj e2
  rw [hre.heap] at z1' z2' hent'
  rw [hre.vars] at hent' hlin'
  refine ⟨z1'.trans z1.symm, z2'.trans z2.symm, fun i j hi hj => ?_⟩
  obtain ⟨a, b, e⟩ := hent i j (z1 ▸ hi) (z2 ▸ hj)
  obtain ⟨a', b', e'⟩ := hent' i j (z1 ▸ hi) (z2 ▸ hj)
  rw [e, e']
  exact C104.inverse c (hlin'.columns.trans hlin.columns.symm) (by rw [hlin.rows, hlin'.rows, (rescaled_sizes hre.facs 0).2])
    J.coeff J'.coeff (fun i hi j hj => rescaled_coeff hre.facs hn hlin hlin' i (hlin.rows ▸ hi) j (hlin.columns ▸ hj)) _ _ _ _ _ _ hu

end

/-! ### The hypotheses are met by the small graph -/

namespace C104

/-- An optimizer on the small graph with the weights of the measurements multiplied by `k`. -/
noncomputable def start (k : ℝ) : OptWorld ℝ (GenVar ℝ) (Ldlt.Fact ℝ) :=
  ⟨(TinyWorld.world 0 0 1 4 7 (k * 2) (k * 3) (k * 1)).heap, (TinyWorld.world 0 0 1 4 7 (k * 2) (k * 3) (k * 1)).graph,
    { Optimizer.init realArith with
      hasGraph := true, complete := true, settings := scaledSettings k (Settings.default realArith) }⟩

theorem prepared (k : ℝ) : Prepared (start k) :=
  ⟨⟨_, _, _, TinyWorld.finalizedAfter 0 0 1 4 7 (k * 2) (k * 3) (k * 1), TinyWorld.noJacobianYet 0 0 1 4 7 (k * 2) (k * 3) (k * 1)⟩,
    TinyWorld.identify 0 0 1 4 7 (k * 2) (k * 3) (k * 1), TinyWorld.noRepeats 0 0 1 4 7 (k * 2) (k * 3) (k * 1),
    TinyWorld.reuseSafe 0 0 1 4 7 (k * 2) (k * 3) (k * 1), TinyWorld.proper 0 0 1 4 7 (k * 2) (k * 3) (k * 1), rfl⟩

theorem prior (k : ℝ) (id : Int) (r : VRef) (p : List ℝ) (w : ℝ) :
    Rescaled k (genericPrior id r p (1 * w) : Factor ℝ (GenVar ℝ)) (genericPrior id r p (k * w)) := by
  refine ⟨rfl, rfl, fun h => ?_, fun h => ?_⟩ <;> simp only [genericPrior, one_mul]
  · cases vecSub (VarLike.value (h r)) p <;> simp [Res.map, mul_assoc]
  · split
    · simp [Res.map, scaledMat_empty]
    · simp [Res.map, scaledMat_diag]

theorem between (k : ℝ) (id : Int) (a b m : VRef) (n : Nat) (w : ℝ) :
    Rescaled k (genericBetween id a b m n (1 * w) : Factor ℝ (GenVar ℝ)) (genericBetween id a b m n (k * w)) := by
  have key : ∀ (v : GenVar ℝ) (w : ℝ), betweenBlock n v (k * w) = scaledMat k (betweenBlock n v w) := by
    intro v w
    unfold betweenBlock
    split
    · rw [scaledMat_empty]
    · rw [scaledMat_diag]
  refine ⟨rfl, rfl, fun h => ?_, fun h => ?_⟩ <;> simp only [genericBetween, one_mul]
  · cases vecSub (VarLike.value (h b)) (VarLike.value (h a)) <;> try rfl
    next d =>
      dsimp only
      cases vecSub d (VarLike.value (h m)) <;> simp [Res.map, mul_assoc]
  · simp [Res.map, ← key]

theorem related (k : ℝ) : Related k (start 1) (start k) := by
  refine ⟨?_, ?_, ?_⟩
  · show (TinyWorld.world 0 0 1 4 7 (k * 2) (k * 3) (k * 1)).heap = (TinyWorld.world 0 0 1 4 7 (1 * 2) (1 * 3) (1 * 1)).heap
    rw [TinyWorld.heap_eq, TinyWorld.heap_eq]
  · show (TinyWorld.world 0 0 1 4 7 (k * 2) (k * 3) (k * 1)).graph.getAllVariables =
      (TinyWorld.world 0 0 1 4 7 (1 * 2) (1 * 3) (1 * 1)).graph.getAllVariables
    rw [TinyWorld.vars_eq, TinyWorld.vars_eq]
  · show List.Forall₂ _ (TinyWorld.world 0 0 1 4 7 (1 * 2) (1 * 3) (1 * 1)).graph.getAllFactors
      (TinyWorld.world 0 0 1 4 7 (k * 2) (k * 3) (k * 1)).graph.getAllFactors
    rw [TinyWorld.facs_eq, TinyWorld.facs_eq]
    exact .cons (prior k _ _ _ _) (.cons (between k _ _ _ _ _ _) (.cons (prior k _ _ _ _) .nil))

theorem linearisedAt (a c m p q u v w : ℝ) : Linearised (TinyWorld.heap a c m) [0, 1, 2] (TinyWorld.facs p q u v w)
    [u * (a - p), v * (c - a - m), w * (c - q)] (TinyWorld.jac u v w) := by
  refine ⟨(TinyWorld.residual_eq p q u v w (TinyWorld.heap a c m) (a := a) (c := c) (m := m) rfl rfl rfl _).2 rfl, rfl, by cbv,
    fun k => if k = 0 then [Mat.diag 1 u] else if k = 1 then [Mat.diag 1 (-v), Mat.diag 1 v, Mat.empty] else [Mat.diag 1 w], ?_, ?_⟩
  · intro k f hk
    have hi := TinyWorld.inv_heap a c m
    match k with
    | 0 => obtain rfl := Option.some.inj hk; exact ⟨rfl, TinyWorld.proper_prior hi.1 rfl⟩
    | 1 => obtain rfl := Option.some.inj hk; exact ⟨rfl, TinyWorld.proper_between hi 11 v⟩
    | 2 => obtain rfl := Option.some.inj hk; exact ⟨rfl, TinyWorld.proper_prior hi.2.1 rfl⟩
    | k + 3 => simp [TinyWorld.facs] at hk
  · have c0 : colStart (F := ℝ) (TinyWorld.heap a c m) [0, 1, 2] 0 = 0 := by cbv
    have c1 : colStart (F := ℝ) (TinyWorld.heap a c m) [0, 1, 2] 1 = 1 := by cbv
    have sz : ∀ r, r < 2 → VarLike.size (F := ℝ) (TinyWorld.heap a c m r) = 1 := by
      intro r hr
      match r, hr with
      | 0, _ => rfl
      | 1, _ => rfl
    intro k f hk i hi
    match k with
    | 0 =>
      obtain rfl := Option.some.inj hk
      obtain rfl : i = 0 := by simpa [genericPrior] using hi
      refine ⟨fun p r J hp hc hJ j hj => ?_, fun r hr hc hm j hj => ?_⟩
      · match p with
        | 0 =>
          obtain rfl : 0 = r := by simpa [genericPrior] using hp
          rw [sz 0 (by decide)] at hj
          obtain rfl : j = 0 := by omega
          obtain rfl := Option.some.inj hJ
          rw [c0]; cbv
        | p + 1 => simp [genericPrior] at hp
      · match r, hr with
        | 0, _ => simp [genericPrior] at hm
        | 1, _ =>
          rw [sz 1 (by decide)] at hj
          obtain rfl : j = 0 := by omega
          rw [c1]; cbv
        | 2, _ => simp [TinyWorld.heap, VarLike.isConst] at hc
    | 1 =>
      obtain rfl := Option.some.inj hk
      obtain rfl : i = 0 := by simpa [genericBetween] using hi
      refine ⟨fun p r J hp hc hJ j hj => ?_, fun r hr hc hm j hj => ?_⟩
      · match p with
        | 0 =>
          obtain rfl : 0 = r := by simpa [genericBetween] using hp
          rw [sz 0 (by decide)] at hj
          obtain rfl : j = 0 := by omega
          obtain rfl := Option.some.inj hJ
          rw [c0]; cbv
        | 1 =>
          obtain rfl : 1 = r := by simpa [genericBetween] using hp
          rw [sz 1 (by decide)] at hj
          obtain rfl : j = 0 := by omega
          obtain rfl := Option.some.inj hJ
          rw [c1]; cbv
        | 2 =>
          obtain rfl : 2 = r := by simpa [genericBetween] using hp
          simp [TinyWorld.heap, VarLike.isConst] at hc
        | p + 3 => simp [genericBetween] at hp
      · match r, hr with
        | 0, _ => simp [genericBetween] at hm
        | 1, _ => simp [genericBetween] at hm
        | 2, _ => simp [genericBetween] at hm
    | 2 =>
      obtain rfl := Option.some.inj hk
      obtain rfl : i = 0 := by simpa [genericPrior] using hi
      refine ⟨fun p r J hp hc hJ j hj => ?_, fun r hr hc hm j hj => ?_⟩
      · match p with
        | 0 =>
          obtain rfl : 1 = r := by simpa [genericPrior] using hp
          rw [sz 1 (by decide)] at hj
          obtain rfl : j = 0 := by omega
          obtain rfl := Option.some.inj hJ
          rw [c1]; cbv
        | p + 1 => simp [genericPrior] at hp
      · match r, hr with
        | 0, _ =>
          rw [sz 0 (by decide)] at hj
          obtain rfl : j = 0 := by omega
          rw [c0]; cbv
        | 1, _ => simp [genericPrior] at hm
        | 2, _ => simp [TinyWorld.heap, VarLike.isConst] at hc
    | k + 3 => simp [TinyWorld.facs] at hk

theorem linearised (u v w : ℝ) : Linearised (TinyWorld.heap 0 0 1) [0, 1, 2] (TinyWorld.facs 4 7 u v w)
    [u * (0 - 4), v * (0 - 0 - 1), w * (0 - 7)] (TinyWorld.jac u v w) := linearisedAt 0 0 1 4 7 u v w

end C104

/-- The covariances of the small graph, with the original standard deviations and with half of them. -/
example (t t' : OptWorld ℝ (GenVar ℝ) (Ldlt.Fact ℝ)) (hprep : prepare realArith Ldlt.linAlg (C104.start 1) = (t, .ok ()))
    (hprep' : prepare realArith Ldlt.linAlg (C104.start 2) = (t', .ok ())) (P P' : Mat ℝ)
    (hP : estimateCovariance realArith Ldlt.linAlg t (some 0) = .ok (some P))
    (hP' : estimateCovariance realArith Ldlt.linAlg t' (some 0) = .ok (some P')) :
    P'.rows = P.rows ∧ P'.cols = P.cols ∧ ∀ i j, i < P.rows → j < P.cols → P'.entry i j = P.entry i j / 2 ^ 2 := by
  have hl : ∀ k : ℝ, Linearised (TinyWorld.heap 0 0 1) (C104.start k).graph.getAllVariables (C104.start k).graph.getAllFactors
      [k * 2 * (0 - 4), k * 3 * (0 - 0 - 1), k * 1 * (0 - 7)] (TinyWorld.jac (k * 2) (k * 3) (k * 1)) := by
    intro k
    have e1 : (C104.start k).graph.getAllVariables = [0, 1, 2] := TinyWorld.vars_eq ..
    have e2 : (C104.start k).graph.getAllFactors = TinyWorld.facs 4 7 (k * 2) (k * 3) (k * 1) := TinyWorld.facs_eq ..
    rw [e1, e2]
    exact C104.linearised _ _ _
  refine C104_covariance Ldlt.exact (C104.prepared 1) (C104.prepared 2) (C104.related 2) rfl rfl
    (TinyWorld.sparse_eq ..) (TinyWorld.sparse_eq ..) (hl 1) (hl 2) hprep hprep' 0 ?_ P P' hP hP'
  have e1 : (C104.start 1).graph.getAllVariables = [0, 1, 2] := TinyWorld.vars_eq ..
  rw [e1]
  simp

/-- In rational arithmetic these covariances are reported. -/
example : ∀ k ∈ [(1 : Rat), 2],
    C29.report (prepare ToyOpt.rat Ldlt.linAlg (optimize ToyOpt.rat Ldlt.linAlg (TinyWorld.env 0)
      (ToyOpt.start (TinyWorld.world 0 0 1 4 7 (k * 2) (k * 3) (k * 1)) ToyOpt.gn)).1).1 (some 0) =
    .ok (some [10 / 49 / k ^ 2]) := by decide +kernel

/-- Gauss-Newton on the small graph, with the original standard deviations and with half of them. -/
example (r0 r0' : List ℝ) (hr : (computeResidual (TinyWorld.env 0) (C104.start 1).heap (C104.start 1).graph).2 = .ok r0)
    (hr' : (computeResidual (TinyWorld.env 0) (C104.start 2).heap (C104.start 2).graph).2 = .ok r0')
    (t t' : OptWorld ℝ (GenVar ℝ) (Ldlt.Fact ℝ))
    (hret : optimize realArith Ldlt.linAlg (TinyWorld.env 0) (C104.start 1) = (t, .ok ()))
    (hret' : optimize realArith Ldlt.linAlg (TinyWorld.env 0) (C104.start 2) = (t', .ok ()))
    (hst : t.opt.stats.status = .success) (hst' : t'.opt.stats.status = .success) :
    t'.heap = t.heap ∧ t'.opt.stats = scaledStats 2 t.opt.stats :=
  C104_gauss_newton_partial two_pos Ldlt.exact (TinyWorld.env 0) (TinyWorld.env 0) (C104.start 1) (C104.start 2)
    (C104.prepared 1) (C104.prepared 2) (C104.related 2) (by simp [C104.start, scaledSettings]) rfl r0 r0' hr hr' t t' hret hret'
    (.inl hst) (.inl hst')

/-- In rational arithmetic these runs return and succeed, and the values are the same. -/
example : ∀ k ∈ [(1 : Rat), 2],
    (optimize ToyOpt.rat Ldlt.linAlg (TinyWorld.env 0) (ToyOpt.start (TinyWorld.world 0 0 1 4 7 (k * 2) (k * 3) (k * 1)) ToyOpt.gn)).2 =
      .ok () ∧
    (optimize ToyOpt.rat Ldlt.linAlg (TinyWorld.env 0)
      (ToyOpt.start (TinyWorld.world 0 0 1 4 7 (k * 2) (k * 3) (k * 1)) ToyOpt.gn)).1.opt.stats.status = .success ∧
    ((optimize ToyOpt.rat Ldlt.linAlg (TinyWorld.env 0)
      (ToyOpt.start (TinyWorld.world 0 0 1 4 7 (k * 2) (k * 3) (k * 1)) ToyOpt.gn)).1.heap 0).value = [214 / 49] := by
  decide +kernel

end Factorama.Props
