import Verif.Props.Descent
import Verif.Props.CovarianceLinearisation
import Verif.Examples.IdleWorld
import Verif.Examples.AdriftWorld

/-!
# Property C76: undetermined problems are reported
-/

namespace Factorama.Props
open Spec Graph Opt Geo Matrix
variable {Fact : Type} {L : LinAlg ℝ Fact}

/-- To first order, the residual does not notice a step along some direction. -/
def Undetermined (J : SpMat ℝ) : Prop := ∃ u : Fin J.columns.length → ℝ, u ≠ 0 ∧ jacobianMatrix J *ᵥ u = 0

theorem Undetermined.refused (hL : ExactLinAlg L) {J : SpMat ℝ} (hu : Undetermined J) : L.factorize (L.gram J) = none := by
  obtain ⟨u, h0, hu⟩ := hu
  cases h : L.factorize (L.gram J) with
  | none => rfl
  | some f => exact absurd ((C25_full_rank hL J).1 ⟨f, h⟩ u hu) h0

section
variable {V : Type} [VarLike ℝ V]

theorem Undetermined.unique {h : Heap V} {vars : List VRef} {facs : List (Factor ℝ V)} (hnd : vars.Nodup) {r r' : List ℝ}
    {J J' : SpMat ℝ} (h1 : Linearised h vars facs r J) (h2 : Linearised h vars facs r' J') (hu : Undetermined J) :
    Undetermined J' :=
  (linearised_unique hnd h2 h1).2 (fun N _ M => ∃ u : Fin N → ℝ, u ≠ 0 ∧ M *ᵥ u = 0) hu

variable [LawfulVar ℝ V]

/-- **C76**, one iteration. Where the problem is undetermined a Gauss-Newton iteration returns, moves nothing and reports
FAILED. -/
theorem C76_iteration (hL : ExactLinAlg L) (env : Env ℝ V) (s : OptWorld ℝ V Fact)
    {h0 : Heap V} {pre post : List (Op ℝ V × Res Unit)} (hw : FinalizedAfter h0 pre post ⟨s.heap, s.graph⟩)
    (hpre : NoJacobianYet pre) (hid : IdsIdentify s.heap s.graph.getAllVariables s.graph.getAllFactors)
    (hnr : NoRepeats s.graph.getAllFactors) (hsafe : ∀ f ∈ s.graph.getAllFactors, ReuseSafe f)
    (hproper : ∀ h, SameShape s.heap h → ∀ f ∈ s.graph.getAllFactors, ∀ js, f.computeJacobians h [] = .ok js →
      ProperBlocks h f js)
    (hg : s.opt.hasGraph = true) (hm : s.opt.settings.method = .gaussNewton) (r0 : List ℝ) (k : Nat)
    (s1 : OptWorld ℝ V Fact) (hit : Iterations realArith L env k (loopStart realArith env s r0) s1)
    (r : List ℝ) (J : SpMat ℝ) (hlin : Linearised s1.heap s.graph.getAllVariables s.graph.getAllFactors r J)
    (hfree : ∃ f ∈ s.graph.getAllFactors, ∃ q, some q ∈ f.variables ∧ VarLike.isConst (s1.heap q) = false)
    (hu : Undetermined J) :
    ∃ s2, oneStep realArith L env s1 = (s2, .ok ()) ∧ s2.heap = s1.heap ∧
      s2.opt.stats = { s1.opt.stats with valid := false, status := .failed } := by
  have hnd : s.graph.getAllVariables.Nodup := List.Nodup.of_map _ (finalizedAfter_layout hw).ids
  have hnone : ∀ J', Linearised s1.heap s.graph.getAllVariables s.graph.getAllFactors r J' →
      L.factorize (L.gram J') = none := fun J' h' => (hu.unique hnd hlin h').refused hL
  obtain ⟨s2, hstep⟩ := C67_gauss_newton_returns realArith L env s hw hpre hid hnr hsafe hg hm r0 k s1 hit r J hlin hfree
    (fun J' f h' hf => by rw [hnone J' h'] at hf; cases hf)
    (fun J' d h' ⟨f, hf, _⟩ => by rw [hnone J' h'] at hf; cases hf)
  obtain ⟨r', J', h', hcase⟩ := C67_gauss_newton realArith L env s hw hpre hid hnr hsafe hproper hg hm r0 k s1 s2 hit hstep
  have hn := (hu.unique hnd hlin h').refused hL
  rcases hcase with ⟨status, href, hh, hst⟩ | ⟨d, _, ⟨f, hf, _⟩, _⟩
  · refine ⟨s2, hstep, hh, ?_⟩
    cases href with
    | noFactorisation _ => exact hst
    | singular hf _ | unbalanced hf _ _ | noSolution hf _ _ _ => rw [hn] at hf; cases hf
  · rw [hn] at hf; cases hf

/-- **C76.** If the problem is undetermined at the start, a Gauss-Newton run of at least one iteration returns, leaves all
variables as they were, counts no iteration and reports FAILED; after it no covariance is reported for any variable. -/
theorem C76_undetermined (hL : ExactLinAlg L) (env : Env ℝ V) (s : OptWorld ℝ V Fact)
    {h0 : Heap V} {pre post : List (Op ℝ V × Res Unit)} (hw : FinalizedAfter h0 pre post ⟨s.heap, s.graph⟩)
    (hpre : NoJacobianYet pre) (hid : IdsIdentify s.heap s.graph.getAllVariables s.graph.getAllFactors)
    (hnr : NoRepeats s.graph.getAllFactors) (hsafe : ∀ f ∈ s.graph.getAllFactors, ReuseSafe f)
    (hproper : ∀ h, SameShape s.heap h → ∀ f ∈ s.graph.getAllFactors, ∀ js, f.computeJacobians h [] = .ok js →
      ProperBlocks h f js)
    (hg : s.opt.hasGraph = true) (hm : s.opt.settings.method = .gaussNewton) (hpos : 0 < s.opt.settings.maxIterations)
    (r : List ℝ) (hr : (computeResidual env s.heap s.graph).2 = .ok r)
    (J : SpMat ℝ) (hlin : Linearised s.heap s.graph.getAllVariables s.graph.getAllFactors r J)
    (hfree : ∃ f ∈ s.graph.getAllFactors, ∃ q, some q ∈ f.variables ∧ VarLike.isConst (s.heap q) = false)
    (hu : Undetermined J) :
    ∃ s', optimize realArith L env s = (s', .ok ()) ∧ s'.heap = s.heap ∧ s'.opt.stats.status = .failed ∧
      s'.opt.stats.valid = false ∧ s'.opt.stats.iteration = 0 ∧
      (s.opt.hessianValid = false → ∃ s'', prepare realArith L s' = (s'', .ok ()) ∧
        ∀ v, estimateCovariance realArith L s'' v = .ok none) := by
  have hit : Iterations realArith L env 0 (loopStart realArith env s r) (loopStart realArith env s r) := .zero _
  obtain ⟨s2, hstep, hh, hst⟩ := C76_iteration hL env s hw hpre hid hnr hsafe hproper hg hm r 0 _ hit r J hlin hfree hu
  have hnd : s.graph.getAllVariables.Nodup := List.Nodup.of_map _ (finalizedAfter_layout hw).ids
  have hopt : optimize realArith L env s = (finish s2, .ok ()) := by
    obtain ⟨n, hn⟩ := Nat.exists_eq_succ_of_ne_zero (Nat.pos_iff_ne_zero.1 hpos)
    have hstat : s2.opt.stats.status = .failed := by rw [hst]
    have hi : iterate realArith L env (n + 1) (loopStart realArith env s r) = (s2, .ok ()) := by
      simp only [iterate, hstep, afterStep, hstat]
      simp
    rw [optimize_start realArith L env s hg hr, hn]
    exact SE.bind_ok hi
  have hflags := optimize_flags realArith L env s (by rw [hopt]; simp)
  rw [hopt] at hflags
  refine ⟨finish s2, hopt, hh, ?_, ?_, ?_, fun hv => ?_⟩
  · simp [finish, hst]
  · simp [finish, hst]
  · simp [finish, hst, loopStart, startStats]
  · obtain ⟨hready, hl, hshape, hv', hf'⟩ := iterations_ready hw hpre hid hnr hit
    have hstep' : gaussNewtonStep realArith L env (loopStart realArith env s r) = (s2, .ok ()) := by
      have := hstep
      unfold oneStep at this
      simp only [SE.bind_get] at this
      have hs : (loopStart realArith env s r).opt.settings.method = .gaussNewton := hm
      simp only [hs] at this
      exact this
    obtain ⟨r', J', hres, hJ, _⟩ := gaussNewtonStep_ok hstep'
    have hlin' := computeSparse_linearised (env := env) (hf' ▸ hready) hl (hf' ▸ hsafe) (hf' ▸ hproper _ hshape) hJ hres
    rw [hv', hf'] at hlin'
    have hn := (hu.unique hnd hlin hlin').refused hL
    have hst' : s2.graph.sparseJacobian = .ok J' := C31.stored hJ
    have hvf : (finish s2).opt.hessianValid = false := hflags.1.trans hv
    have hp : prepare realArith L (finish s2) =
        ({ finish s2 with opt := { (finish s2).opt with hessian := L.gram J', solver := none } }, .ok ()) := by
      unfold prepare
      simp only [SE.bind_get]
      have e : SE.lift (finish s2).graph.sparseJacobian (finish s2) = (finish s2, .ok J') := by
        show (_, s2.graph.sparseJacobian) = _
        rw [hst']
      rw [if_neg (by simp [hvf]), if_neg (by simp [finish]), SE.bind_ok e]
      simp only [hn]
      rfl
    refine ⟨_, hp, fun v => ?_⟩
    unfold estimateCovariance
    cases v with
    | none => rfl
    | some q => simp [hvf]

/-- **C76**, unused variables. A free variable that no factor uses makes the problem undetermined, whatever the rest of
the graph looks like. -/
theorem C76_unused_variable {h : Heap V} {vars : List VRef} {facs : List (Factor ℝ V)} {r : List ℝ}
    {J : SpMat ℝ} (hlin : Linearised h vars facs r J) (q : VRef) (hq : q ∈ vars) (hc : VarLike.isConst (h q) = false)
    (hpos : 0 < VarLike.size (h q)) (hun : ∀ f ∈ facs, some q ∉ f.variables) : Undetermined J := by
  obtain ⟨blocks, _, hM⟩ := hlin.jacobian
  have hcol : colStart h vars q < J.columns.length := by
    have := colStart_le h hq
    rw [freeSize, hc] at this
    rw [hlin.columns]
    simp only [Bool.false_eq_true, if_false] at this
    omega
  refine ⟨Pi.single ⟨colStart h vars q, hcol⟩ 1, fun e => by simpa using congrFun e ⟨colStart h vars q, hcol⟩, ?_⟩
  rw [mulVec_single_one]
  funext i
  obtain ⟨k, f, i', hk, hi', e⟩ := exists_row (a := i) (by rw [← hlin.rows]; exact i.2)
  have := (hM k f hk i' hi').2 q hq hc (hun f (List.mem_of_getElem? hk)) 0 hpos
  show J.coeff i (colStart h vars q) = 0
  rw [← e] at this
  simpa using this

end
section

/-! Two numbers at 3 and 4; the first has two priors and the second is not used by any factor. -/
namespace C76
noncomputable abbrev idle : World ℝ RVar := IdleWorld.world 3 4
theorem idle_heap : idle.heap = IdleWorld.heap 3 4 := IdleWorld.heap_eq 3 4
theorem idle_vars : idle.graph.getAllVariables = [0, 1] := IdleWorld.vars_eq 3 4
theorem idle_facs : idle.graph.getAllFactors = IdleWorld.facs := IdleWorld.facs_eq 3 4

theorem idle_smooth : SmoothGraph idle.heap idle.graph.getAllVariables idle.graph.getAllFactors := by
  rw [idle_heap, idle_vars, idle_facs]
  constructor
  · intro f hf
    simp only [IdleWorld.facs, List.mem_cons, List.not_mem_nil, or_false] at hf
    rcases hf with rfl | rfl
    all_goals exact .genericPrior (n := 1) (x := ![3]) (p := ![_]) _ _ _ Nat.one_pos (.inl ⟨_, rfl, rfl⟩) rfl
  · intro r hr _
    simp only [List.mem_cons, List.not_mem_nil, or_false] at hr
    rcases hr with rfl | rfl
    all_goals exact ⟨.inl (.generic _), trivial⟩

theorem idle_residual : IsResidual idle.heap idle.graph.getAllFactors [3, 2] := by
  rw [idle_heap, idle_facs]
  refine ⟨[[3], [2]], rfl, fun k f hk => ?_, rfl⟩
  match k with
  | 0 =>
    obtain rfl : IdleWorld.prior 0 = f := by simpa [IdleWorld.facs] using hk
    refine ⟨_, rfl, ?_, rfl⟩
    show Res.ok [(1 / 1) * ((3 : ℝ) - (0 : Nat))] = _
    norm_num
  | 1 =>
    obtain rfl : IdleWorld.prior 1 = f := by simpa [IdleWorld.facs] using hk
    refine ⟨_, rfl, ?_, rfl⟩
    show Res.ok [(1 / 1) * ((3 : ℝ) - (1 : Nat))] = _
    norm_num
  | k + 2 => simp [IdleWorld.facs] at hk

theorem idle_free : ∃ f ∈ idle.graph.getAllFactors, ∃ r, some r ∈ f.variables ∧ VarLike.isConst (F := ℝ) (idle.heap r) = false := by
  rw [idle_heap, idle_facs]
  exact ⟨_, List.mem_cons_self, 0, List.mem_cons_self, rfl⟩

theorem idle_linearised : ∃ J, Linearised idle.heap idle.graph.getAllVariables idle.graph.getAllFactors [3, 2] J :=
  smooth_linearised (IdleWorld.finalizedAfter 3 4) (IdleWorld.noJacobianYet 3 4) (IdleWorld.identify 3 4)
    (IdleWorld.noRepeats 3 4) idle_smooth idle_free idle_residual
end C76

/-- The problem is undetermined. -/
theorem C76.idle_undetermined {J : SpMat ℝ} {r : List ℝ}
    (hlin : Linearised C76.idle.heap C76.idle.graph.getAllVariables C76.idle.graph.getAllFactors r J) : Undetermined J := by
  refine C76_unused_variable hlin 1 ?_ ?_ ?_ ?_
  · rw [C76.idle_vars]; simp
  · rw [C76.idle_heap]; rfl
  · rw [C76.idle_heap]; exact Nat.one_pos
  · rw [C76.idle_facs]
    simp [IdleWorld.facs, IdleWorld.prior, genericPrior]

example : ∃ J, Linearised C76.idle.heap C76.idle.graph.getAllVariables C76.idle.graph.getAllFactors [3, 2] J ∧ Undetermined J :=
  C76.idle_linearised.imp fun _ h => ⟨h, C76.idle_undetermined h⟩

noncomputable def C76.start : OptWorld ℝ RVar (Ldlt.Fact ℝ) :=
  ⟨C76.idle.heap, C76.idle.graph, { Optimizer.init realArith with hasGraph := true }⟩

/-- A new optimizer with its default settings on this graph: the run fails. -/
example (env : Env ℝ RVar) : ∃ s', optimize realArith Ldlt.linAlg env C76.start = (s', .ok ()) ∧ s'.heap = C76.start.heap ∧
    s'.opt.stats.status = .failed ∧ s'.opt.stats.valid = false ∧ ∃ s'', prepare realArith Ldlt.linAlg s' = (s'', .ok ()) ∧
      ∀ v, estimateCovariance realArith Ldlt.linAlg s'' v = .ok none := by
  obtain ⟨J, hlin⟩ := C76.idle_linearised
  obtain ⟨segs, h1, h2, h3⟩ := C76.idle_residual
  have hw : FinalizedAfter _ _ _ ⟨C76.start.heap, C76.start.graph⟩ := IdleWorld.finalizedAfter 3 4
  obtain ⟨⟨g', hres, _⟩, _⟩ := C05_residual hw segs h1 h2 env
  have hreach : Reaches Ldlt.linAlg env C76.start segs.flatten 0 (loopStart realArith env C76.start segs.flatten) :=
    ⟨⟨_, _, _, hw, IdleWorld.noJacobianYet 3 4⟩, IdleWorld.identify 3 4, IdleWorld.noRepeats 3 4, rfl, by rw [hres], .zero _⟩
  obtain ⟨s', e1, e2, e3, e4, _, e5⟩ := C76_undetermined Ldlt.exact env C76.start hw (IdleWorld.noJacobianYet 3 4)
    (IdleWorld.identify 3 4) (IdleWorld.noRepeats 3 4)
    (fun f hf => (smooth_built (C76.idle_smooth.factors f hf)).elim fun _ hb => C57_reuse _ _ _ hb)
    (hreach.proper C76.idle_smooth.factors) rfl rfl (by decide) [3, 2] (by rw [hres, h3]) J hlin C76.idle_free
    (C76.idle_undetermined hlin)
  exact ⟨s', e1, e2, e3, e4, e5 rfl⟩

end

/-- If no residual changes along a curve, the residual does not notice its velocity to first order. -/
theorem flat_kernel {h : Heap RVar} {vars : List VRef} {facs : List (Factor ℝ RVar)} (hc : Closed h vars facs)
    (hs : SmoothGraph h vars facs) {r : List ℝ} {J : SpMat ℝ} (hlin : Linearised h vars facs r J)
    (γ : ℝ → Fin J.columns.length → ℝ) (u : Fin J.columns.length → ℝ) (h0 : γ 0 = 0) (hγ : HasDerivAt γ u 0)
    (hflat : ∀ᶠ t in nhds (0 : ℝ), ∀ h', Stepped h h' vars (List.ofFn (γ t)) → IsResidual h' facs r) :
    jacobianMatrix J *ᵥ u = 0 := by
  obtain ⟨Φ, hr, hΦ, hd⟩ := linearised_derivative hc hs hlin
  have hcont : Filter.Tendsto γ (nhds 0) (nhds 0) := by simpa [h0] using hγ.continuousAt.tendsto
  have hconst : ∀ᶠ t in nhds (0 : ℝ), Φ (γ t) = Φ 0 := by
    filter_upwards [hflat, hcont.eventually hΦ] with t h1 ⟨h', h2, h3⟩
    have := isResidual_unique (h1 h' h2) h3
    exact List.ofFn_injective (this.symm.trans hr)
  have h1 : HasDerivAt (fun t => Φ (γ t)) (jac (jacobianMatrix J) u) 0 := by
    rw [← h0] at hd
    exact hd.comp_hasDerivAt 0 hγ
  have h2 : HasDerivAt (fun t => Φ (γ t)) 0 0 := (hasDerivAt_const (0 : ℝ) (Φ 0)).congr_of_eventuallyEq hconst
  exact h1.unique h2

/-- **C76**, flat directions. If the variables can be moved along a curve that starts with a non-zero velocity and on which
no residual changes, the problem is undetermined. -/
theorem C76_flat_direction {h : Heap RVar} {vars : List VRef} {facs : List (Factor ℝ RVar)} (hc : Closed h vars facs)
    (hs : SmoothGraph h vars facs) {r : List ℝ} {J : SpMat ℝ} (hlin : Linearised h vars facs r J)
    (γ : ℝ → Fin J.columns.length → ℝ) (u : Fin J.columns.length → ℝ) (h0 : γ 0 = 0) (hγ : HasDerivAt γ u 0) (hu : u ≠ 0)
    (hflat : ∀ᶠ t in nhds (0 : ℝ), ∀ h', Stepped h h' vars (List.ofFn (γ t)) → IsResidual h' facs r) : Undetermined J :=
  ⟨u, hu, flat_kernel hc hs hlin γ u h0 hγ hflat⟩

/-! A planar pose at the origin that sees a point at `(3, 4)` three times, with ranges 5, 6 and 7. -/
namespace C76
noncomputable abbrev adrift : World ℝ RVar := AdriftWorld.world ![0, 0] 0 3 4 C70.bearing
theorem adrift_heap : adrift.heap = AdriftWorld.heap ![0, 0] 0 3 4 := AdriftWorld.heap_eq _ _ _ _ _
theorem adrift_vars : adrift.graph.getAllVariables = [0, 1] := AdriftWorld.vars_eq _ _ _ _ _
theorem adrift_facs : adrift.graph.getAllFactors = AdriftWorld.facs C70.bearing := AdriftWorld.facs_eq _ _ _ _ _

theorem adrift_smooth : SmoothGraph adrift.heap adrift.graph.getAllVariables adrift.graph.getAllFactors := by
  rw [adrift_heap, adrift_vars, adrift_facs]
  have hpi := Real.pi_gt_three
  constructor
  · intro f hf
    simp only [AdriftWorld.facs, List.mem_cons, List.not_mem_nil, or_false] at hf
    rcases hf with rfl | rfl | rfl
    all_goals
      exact .rangeBearing2D (x := ![3, 4]) _ _ _ _ _ _ _ C70.pose C70.mark (by rw [C70.seen, length_eq, C70.five]; norm_num) (by
        rw [C70.seen]
        show wrapAngle (atan2 4 3 - atan2 4 3) < Real.pi
        rw [sub_self, C70.wrap_zero]; linarith)
  · intro r hr hc
    have e : AdriftWorld.heap ![0, 0] 0 3 4 r = C70.heap r := by
      simp only [List.mem_cons, List.not_mem_nil, or_false] at hr
      rcases hr with rfl | rfl <;> rfl
    rw [e] at hc ⊢
    exact C70.smooth.states r hr hc

/-- The same residual wherever the pose and the point are, as long as the point is at `(3, 4)` seen from the pose. -/
theorem adrift_residual (t : ℝ) {h : Heap RVar} (h0 : h 0 = .pose2d ⟨1, false, ![t, 0], 0⟩)
    (h1 : h 1 = .generic ⟨2, false, [3 + t, 4]⟩) : IsResidual h (AdriftWorld.facs C70.bearing) [0, 0, -1, 0, -2, 0] := by
  have hd : Fac.deltaLocal ⟨1, false, ![t, 0], 0⟩ ![3 + t, 4] = ![3, 4] := by
    funext i; fin_cases i <;> simp [Fac.deltaLocal, Pose2DVar.dcm, Matrix.mulVec, dotProduct, Fin.sum_univ_two]
  have key : ∀ k : Nat, (AdriftWorld.seen C70.bearing k).computeResidual h = .ok [-(k : ℝ), 0] := fun k => by
    simp only [AdriftWorld.seen, Fac.rangeBearing2D, h0, h1]
    show Res.ok [(1 / 1) * (vnorm (Fac.deltaLocal ⟨1, false, ![t, 0], 0⟩ ![3 + t, 4]) - (5 + (k : ℝ))),
      (1 / 1) * wrapAngle (atan2 (Fac.deltaLocal ⟨1, false, ![t, 0], 0⟩ ![3 + t, 4] 1)
        (Fac.deltaLocal ⟨1, false, ![t, 0], 0⟩ ![3 + t, 4] 0) - C70.bearing)] = _
    rw [hd, C70.five]
    show Res.ok [(1 / 1) * ((5 : ℝ) - (5 + k)), (1 / 1) * wrapAngle (atan2 4 3 - atan2 4 3)] = _
    rw [sub_self, C70.wrap_zero]
    norm_num
  refine ⟨[[-((0 : Nat) : ℝ), 0], [-((1 : Nat) : ℝ), 0], [-((2 : Nat) : ℝ), 0]], rfl, fun k f hk => ?_, by simp⟩
  match k with
  | 0 =>
    obtain rfl : AdriftWorld.seen C70.bearing 0 = f := by simpa [AdriftWorld.facs] using hk
    exact ⟨_, rfl, key 0, rfl⟩
  | 1 =>
    obtain rfl : AdriftWorld.seen C70.bearing 1 = f := by simpa [AdriftWorld.facs] using hk
    exact ⟨_, rfl, key 1, rfl⟩
  | 2 =>
    obtain rfl : AdriftWorld.seen C70.bearing 2 = f := by simpa [AdriftWorld.facs] using hk
    exact ⟨_, rfl, key 2, rfl⟩
  | k + 3 => simp [AdriftWorld.facs] at hk

theorem adrift_start : IsResidual adrift.heap adrift.graph.getAllFactors [0, 0, -1, 0, -2, 0] := by
  rw [adrift_heap, adrift_facs]
  exact adrift_residual 0 rfl (by simp [AdriftWorld.heap])

theorem adrift_linearised : ∃ J, Linearised adrift.heap adrift.graph.getAllVariables adrift.graph.getAllFactors
    [0, 0, -1, 0, -2, 0] J :=
  smooth_linearised (AdriftWorld.finalizedAfter _ _ _ _ _) (AdriftWorld.noJacobianYet _ _ _ _ _) (AdriftWorld.identify _ _ _ _ _)
    (AdriftWorld.noRepeats _ _ _ _ _) adrift_smooth
    (by rw [adrift_facs, adrift_heap]; exact ⟨_, List.mem_cons_self, 0, List.mem_cons_self, rfl⟩) adrift_start
end C76

/-- Pose and point can move along the first axis together. -/
example (J : SpMat ℝ)
    (hlin : Linearised C76.adrift.heap C76.adrift.graph.getAllVariables C76.adrift.graph.getAllFactors [0, 0, -1, 0, -2, 0] J) :
    Undetermined J := by
  have hc := closed_of_finalized (AdriftWorld.finalizedAfter ![0, 0] 0 3 4 C70.bearing) (AdriftWorld.identify _ _ _ _ _)
  have h5 : J.columns.length = 5 := by
    rw [hlin.columns, C76.adrift_heap, C76.adrift_vars]; rfl
  have hofn : ∀ t : ℝ, List.ofFn (fun i : Fin J.columns.length => t * [1, 0, 0, 1, 0].getD i 0) = [t, 0, 0, t, 0] := fun t => by
    apply List.ext_getElem (by simp [h5])
    intro k h1 h2
    simp only [List.getElem_ofFn]
    match k with
    | 0 | 1 | 2 | 3 | 4 => simp
    | k + 5 => simp at h2
  refine C76_flat_direction hc C76.adrift_smooth hlin (fun t i => t * [1, 0, 0, 1, 0].getD i 0) (fun i => [1, 0, 0, 1, 0].getD i 0)
    (by funext i; simp) ?_ (fun e => by simpa using congrFun e ⟨0, by omega⟩) (.of_forall fun t h' hst => ?_)
  · refine hasDerivAt_pi.2 fun i => ?_
    simpa using (hasDerivAt_id (0 : ℝ)).mul_const ([1, 0, 0, 1, 0].getD (i : Nat) (0 : ℝ))
  · rw [hofn, C76.adrift_heap, C76.adrift_vars] at hst
    rw [C76.adrift_facs]
    refine C76.adrift_residual t ?_ ?_
    · have := (hst 0).1 ⟨by simp, rfl⟩
      replace this : Res.ok (RVar.pose2d ⟨1, false, ![0 + t, 0 + 0], wrapAngle (0 + 0)⟩) = .ok (h' 0) := this
      rw [← Res.ok.inj this]
      simp [C70.wrap_zero]
    · have := (hst 1).1 ⟨by simp, rfl⟩
      replace this : Res.ok (RVar.generic ⟨2, false, [3 + t, 4 + 0]⟩) = .ok (h' 1) := this
      rw [← Res.ok.inj this]
      simp

end Factorama.Props
