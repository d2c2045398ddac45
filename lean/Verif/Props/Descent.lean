import Verif.Lemmas.GraphDescent
import Verif.Props.GraphJoint
import Verif.Props.NormalEquations
import Verif.Props.OptimizerSteps
import Verif.Props.FactorsBlocks
import Verif.Examples.PlanarWorld

/-!
# Properties C70 and C71: steps that are short enough lower the cost

`ExactLinAlg L` and `ExactPivots L` (Spec/LinearAlgebra.lean) say that the linear algebra makes no rounding errors and reports
the pivots of its factorisation; elimination in the model has both properties (`Ldlt.exact`, `Ldlt.exact_pivots`).
-/

namespace Factorama.Props
open Spec Graph Opt Geo Matrix Topology Filter
variable {Fact : Type} {L : LinAlg ℝ Fact}

/-- Every factor is at a point of differentiability and every free variable in a canonical state. -/
structure SmoothGraph (h : Heap RVar) (vars : List VRef) (facs : List (Factor ℝ RVar)) : Prop where
  factors : ∀ f ∈ facs, SmoothPoint h f
  states : ∀ r ∈ vars, VarLike.isConst (h r) = false → (Reachable (h r) ∨ ∃ v, h r = .rotation v) ∧ Canonical (h r)

/-- The factors use no free variable outside the graph, and the graph lists no variable twice. -/
structure Closed (h : Heap RVar) (vars : List VRef) (facs : List (Factor ℝ RVar)) : Prop where
  nodup : vars.Nodup
  mem : ∀ f ∈ facs, ∀ r, some r ∈ f.variables → VarLike.isConst (h r) = false → r ∈ vars

/-- Finalized graphs are closed. -/
theorem closed_of_finalized {h0 : Heap RVar} {pre post : List (Op ℝ RVar × Res Unit)} {w : World ℝ RVar}
    (hw : FinalizedAfter h0 pre post w) (hid : IdsIdentify w.heap w.graph.getAllVariables w.graph.getAllFactors) :
    Closed w.heap w.graph.getAllVariables w.graph.getAllFactors :=
  ⟨List.Nodup.of_map _ (finalizedAfter_layout hw).ids, layout_mem (finalizedAfter_layout hw) hid⟩

theorem linearised_derivative {h : Heap RVar} {vars : List VRef} {facs : List (Factor ℝ RVar)} (hc : Closed h vars facs)
    (hs : SmoothGraph h vars facs) {r : List ℝ} {J : SpMat ℝ} (hlin : Linearised h vars facs r J) :
    ∃ Φ : (Fin J.columns.length → ℝ) → (Fin J.rows → ℝ), r = List.ofFn (Φ 0) ∧
      (∀ᶠ dx in 𝓝 0, ∃ h', Stepped h h' vars (List.ofFn dx) ∧ IsResidual h' facs (List.ofFn (Φ dx))) ∧
      HasFDerivAt Φ (jac (jacobianMatrix J)) 0 := by
  obtain ⟨blocks, hb, hM⟩ := hlin.jacobian
  obtain ⟨Φ, h1, h2, h3⟩ := graph_derivative hc.nodup hc.mem (fun f hf => jacobians_correct (hs.factors f hf))
    (fun f hf => jointly_differentiable (hs.factors f hf))
    (fun f hf => (smooth_built (hs.factors f hf)).elim fun _ hb => C68_reads _ _ _ hb)
    (fun r hr hc => C69_partial _ (hs.states r hr hc).1 (hs.states r hr hc).2)
    (fun r hr hc => C68.accepts _ (hs.states r hr hc).1 (hs.states r hr hc).2 rfl) blocks (fun k f hf => (hb k f hf).1) J.coeff hM
    hlin.columns hlin.rows
  exact ⟨Φ, isResidual_unique hlin.residual h1, h2, h3⟩

/-- In a finalized graph at a smooth point, with some factor on a free variable, the residual and the Jacobian exist. -/
theorem smooth_linearised {h0 : Heap RVar} {pre post : List (Op ℝ RVar × Res Unit)} {w : World ℝ RVar}
    (hw : FinalizedAfter h0 pre post w) (hpre : NoJacobianYet pre)
    (hid : IdsIdentify w.heap w.graph.getAllVariables w.graph.getAllFactors) (hnr : NoRepeats w.graph.getAllFactors)
    (hs : SmoothGraph w.heap w.graph.getAllVariables w.graph.getAllFactors)
    (hfree : ∃ f ∈ w.graph.getAllFactors, ∃ r, some r ∈ f.variables ∧ VarLike.isConst (w.heap r) = false)
    {r : List ℝ} (hr : IsResidual w.heap w.graph.getAllFactors r) :
    ∃ J, Linearised w.heap w.graph.getAllVariables w.graph.getAllFactors r J := by
  obtain ⟨blocks, hblocks⟩ := fresh_blocks (fun f hf => jacobians_correct (hs.factors f hf)) (fun f hf => smooth_sizes (hs.factors f hf))
  obtain ⟨g', J, _, _, h3, h4, h5, _⟩ := C07_sparse hw hpre hid hnr
    (fun f hf => (smooth_built (hs.factors f hf)).elim fun _ hb => C57_reuse _ _ _ hb) blocks hblocks hfree
  have hl := finalizedAfter_layout hw
  exact ⟨J, hr, h3.trans hl.nr, h4.trans hl.nv, blocks, hblocks, h5⟩

/-- `s1` is the state after `k` iterations of the `optimize()` call made in state `s`, for a graph that was finalized
before. -/
structure Reaches (L : LinAlg ℝ Fact) (env : Env ℝ RVar) (s : OptWorld ℝ RVar Fact) (r0 : List ℝ) (k : Nat)
    (s1 : OptWorld ℝ RVar Fact) : Prop where
  history : ∃ h0 pre post, FinalizedAfter h0 pre post ⟨s.heap, s.graph⟩ ∧ NoJacobianYet pre
  identify : IdsIdentify s.heap s.graph.getAllVariables s.graph.getAllFactors
  noRepeats : NoRepeats s.graph.getAllFactors
  hasGraph : s.opt.hasGraph = true
  start : (computeResidual env s.heap s.graph).2 = .ok r0
  iterations : Iterations realArith L env k (loopStart realArith env s r0) s1

/-! A planar pose at the origin with a prior at `(1, 1)` and heading 1, and a landmark that it sees where it is. -/
namespace C70
noncomputable abbrev bearing : ℝ := atan2 4 3
noncomputable abbrev heap : Heap RVar := PlanarWorld.heap ![0, 0] 0 3 4
noncomputable abbrev facs : List (Factor ℝ RVar) := PlanarWorld.facs ![1, 1, 1] 5 bearing 1
noncomputable abbrev world : World ℝ RVar := PlanarWorld.world ![0, 0] 0 3 4 ![1, 1, 1] 5 bearing 1
noncomputable abbrev env : Env ℝ RVar := PlanarWorld.env 3

theorem pose : heap 0 = .pose2d ⟨1, false, ![0, 0], 0⟩ := rfl
theorem mark : IsVector (heap 1) ![3, 4] := .inl ⟨_, rfl, by simp [toList, List.ofFn_succ]⟩
theorem seen : Fac.deltaLocal ⟨1, false, ![0, 0], 0⟩ ![3, 4] = ![3, 4] := by
  funext i; fin_cases i <;> simp [Fac.deltaLocal, Pose2DVar.dcm, Matrix.mulVec, dotProduct, Fin.sum_univ_two]
theorem five : vnorm (![3, 4] : V2) = 5 := by
  rw [vnorm2]
  have : ((![3, 4] : V2) 0) ^ 2 + ((![3, 4] : V2) 1) ^ 2 = 5 ^ 2 := by simp; norm_num
  first
    | rw [this, Real.sqrt_sq (by norm_num)]
    | (rw [← Real.sqrt_sq (show (0 : ℝ) ≤ 5 by norm_num)]; congr 1; simp; norm_num)
theorem wrap_zero : wrapAngle 0 = 0 := wrap_of_mem (by linarith [Real.pi_pos]) (by linarith [Real.pi_pos])
theorem wrap_one : wrapAngle (0 - 1) = -1 := by
  have := Real.pi_gt_three
  rw [wrap_of_mem (by linarith) (by linarith)]; norm_num

theorem smooth : SmoothGraph heap [0, 1] facs := by
  have hpi := Real.pi_gt_three
  constructor
  · intro f hf
    simp only [facs, PlanarWorld.facs, List.mem_cons, List.not_mem_nil, or_false] at hf
    rcases hf with rfl | rfl
    · exact .pose2DPrior _ _ _ _ _ pose (by show wrapAngle (0 - 1) < Real.pi; rw [wrap_one]; linarith)
    · exact .rangeBearing2D _ _ _ _ _ _ _ pose mark (by rw [seen, length_eq, five]; norm_num) (by
        rw [seen]
        show wrapAngle (atan2 4 3 - atan2 4 3) < Real.pi
        rw [sub_self, wrap_zero]; linarith)
  · intro r hr _
    simp only [List.mem_cons, List.not_mem_nil, or_false] at hr
    rcases hr with rfl | rfl
    · refine ⟨.inl ?_, trivial⟩
      rw [pose]
      have : Pose2DVar.make 1 ![0, 0] 0 = ⟨1, false, ![0, 0], 0⟩ := by
        rw [Pose2DVar.make, wrap_zero]
      rw [← this]
      exact .pose2d (.make _ _ _)
    · exact ⟨.inl (.generic _), trivial⟩

theorem residual : IsResidual heap facs [-1, -1, -1, 0, 0] := by
  refine ⟨[[-1, -1, -1], [0, 0]], rfl, fun k f hk => ?_, rfl⟩
  match k with
  | 0 =>
    obtain rfl : Fac.pose2DPrior 10 0 ![1, 1, 1] 1 1 = f := by simpa [facs, PlanarWorld.facs] using hk
    refine ⟨_, rfl, ?_, rfl⟩
    show Res.ok [(1 / 1) * ((![0, 0] : V2) 0 - (![1, 1, 1] : V3) 0), (1 / 1) * ((![0, 0] : V2) 1 - (![1, 1, 1] : V3) 1),
      (1 / 1) * wrapAngle (0 - (![1, 1, 1] : V3) 2)] = _
    have : wrapAngle (0 - (![1, 1, 1] : V3) 2) = -1 := wrap_one
    rw [this]
    simp
  | 1 =>
    obtain rfl : Fac.rangeBearing2D 11 0 1 5 bearing 1 1 = f := by simpa [facs, PlanarWorld.facs] using hk
    refine ⟨_, rfl, ?_, rfl⟩
    show Res.ok [(1 / 1) * (vnorm (Fac.deltaLocal ⟨1, false, ![0, 0], 0⟩ ![3, 4]) - 5),
      (1 / 1) * wrapAngle (atan2 (Fac.deltaLocal ⟨1, false, ![0, 0], 0⟩ ![3, 4] 1)
        (Fac.deltaLocal ⟨1, false, ![0, 0], 0⟩ ![3, 4] 0) - bearing)] = _
    rw [seen, five]
    show Res.ok [(1 / 1) * ((5 : ℝ) - 5), (1 / 1) * wrapAngle (atan2 4 3 - atan2 4 3)] = _
    rw [sub_self, sub_self, wrap_zero]
    simp
  | k + 2 => simp [facs, PlanarWorld.facs] at hk

theorem linearised : ∃ J, Linearised heap [0, 1] facs [-1, -1, -1, 0, 0] J := by
  have h := smooth_linearised (PlanarWorld.finalizedAfter ![0, 0] 0 3 4 ![1, 1, 1] 5 bearing 1)
    (PlanarWorld.noJacobianYet _ _ _ _ _ _ _ _) (PlanarWorld.identify _ _ _ _ _ _ _ _) (PlanarWorld.noRepeats _ _ _ _ _ _ _ _)
    (by rw [PlanarWorld.facs_eq, PlanarWorld.vars_eq, PlanarWorld.heap_eq]; exact smooth)
    (by
      rw [PlanarWorld.facs_eq, PlanarWorld.heap_eq]
      exact ⟨_, List.mem_cons_self, 0, List.mem_cons_self, rfl⟩)
    (by rw [PlanarWorld.facs_eq, PlanarWorld.heap_eq]; exact residual)
  rwa [PlanarWorld.facs_eq, PlanarWorld.vars_eq, PlanarWorld.heap_eq] at h

theorem closed : Closed heap [0, 1] facs := by
  have h := closed_of_finalized (PlanarWorld.finalizedAfter ![0, 0] 0 3 4 ![1, 1, 1] 5 bearing 1) (PlanarWorld.identify _ _ _ _ _ _ _ _)
  rwa [PlanarWorld.facs_eq, PlanarWorld.vars_eq, PlanarWorld.heap_eq] at h

/-- The cost has a slope in the first coordinate of the pose. -/
theorem slope {J : SpMat ℝ} (hJ : Linearised heap [0, 1] facs [-1, -1, -1, 0, 0] J) (h0 : 0 < J.columns.length) :
    gradient J [-1, -1, -1, 0, 0] ⟨0, h0⟩ = -1 := by
  obtain ⟨blocks, hb, hS⟩ := hJ.jacobian
  have h1 := (hb 0 _ rfl).1
  have h2 : blocks 0 = [Fac.block (heap 0) (!![1 / 1, 0, 0; 0, 1 / 1, 0; 0, 0, 1 / 1] : M3)] := (Res.ok.inj h1).symm
  have hc : ∀ i : Fin 3, J.coeff i 0 = (!![1 / 1, 0, 0; 0, 1 / 1, 0; 0, 0, 1 / 1] : M3) i 0 := by
    intro i
    have := (hS 0 _ rfl i i.2).1 0 0 (Fac.block (heap 0) (!![1 / 1, 0, 0; 0, 1 / 1, 0; 0, 0, 1 / 1] : M3)) rfl rfl (by rw [h2]; rfl) 0
      (by exact Nat.succ_pos _)
    have e : rowStart facs 0 + i.1 = i.1 := by simp [rowStart, rowTotal]
    have e' : colStart heap [0, 1] 0 + 0 = 0 := by simp [colStart, freeTotal]
    rw [e, e'] at this
    rw [this]
    fin_cases i <;> rfl
  have hr : J.rows = 5 := hJ.rows
  rw [gradient_apply, hr]
  have a0 := hc 0
  have a1 := hc 1
  have a2 := hc 2
  simp at a0 a1 a2
  simp [Finset.sum_range_succ, a0, a1, a2]

theorem columns {J : SpMat ℝ} (hJ : Linearised heap [0, 1] facs [-1, -1, -1, 0, 0] J) : J.columns.length = 5 := by
  rw [hJ.columns]; rfl

theorem gradient_ne {J : SpMat ℝ} (hJ : Linearised heap [0, 1] facs [-1, -1, -1, 0, 0] J) : gradient J [-1, -1, -1, 0, 0] ≠ 0 := by
  intro h
  have h0 : 0 < J.columns.length := by rw [columns hJ]; norm_num
  have := congrFun h ⟨0, h0⟩
  rw [slope hJ h0] at this
  simp at this
noncomputable abbrev linAlg : LinAlg ℝ (Ldlt.Fact ℝ) := Ldlt.linAlg

/-- An optimizer set up on this world. -/
noncomputable abbrev start (st : Settings ℝ) : OptWorld ℝ RVar (Ldlt.Fact ℝ) :=
  ⟨world.heap, world.graph, { Optimizer.init realArith with hasGraph := true, settings := st }⟩

/-- `optimize()` reaches its first iteration. -/
theorem reaches (st : Settings ℝ) : ∃ r0, Reaches C70.linAlg env (start st) r0 0 (loopStart realArith env (start st) r0) := by
  have hfin := PlanarWorld.finalizedAfter ![0, 0] 0 3 4 ![1, 1, 1] 5 bearing 1
  refine ⟨[-1, -1, -1, 0, 0], ⟨_, _, _, hfin, PlanarWorld.noJacobianYet _ _ _ _ _ _ _ _⟩, PlanarWorld.identify _ _ _ _ _ _ _ _,
    PlanarWorld.noRepeats _ _ _ _ _ _ _ _, rfl, layout_residual (finalizedAfter_layout hfin) ?_ _, .zero _⟩
  show IsResidual world.heap world.graph.getAllFactors _
  rw [PlanarWorld.facs_eq, PlanarWorld.heap_eq]
  exact residual

theorem restorable (st : Settings ℝ) : Restorable (start st) := by
  refine fun _ => ⟨_, C41_partial, ?_⟩
  show ∀ r ∈ world.graph.getAllVariables, Reachable (world.heap r)
  rw [PlanarWorld.vars_eq, PlanarWorld.heap_eq]
  intro r hr
  simp only [List.mem_cons, List.not_mem_nil, or_false] at hr
  rcases hr with rfl | rfl
  · exact ((smooth.states 0 (by simp) rfl).1).resolve_right (by rintro ⟨v, hv⟩; cases hv)
  · exact .generic _
end C70

theorem sqNorm_ofFn {n : Nat} (x : Fin n → ℝ) : realArith.sqNorm (List.ofFn x) = x ⬝ᵥ x := by
  rw [sqNorm_eq (n := n) (by simp), Ldlt.asVec_ofFn]

/-- Steps near zero that point down the linearised cost lower the cost. -/
theorem steps_descend {h : Heap RVar} {vars : List VRef} {facs : List (Factor ℝ RVar)} (hc : Closed h vars facs)
    (hs : SmoothGraph h vars facs) {r : List ℝ} {J : SpMat ℝ} (hlin : Linearised h vars facs r J) {κ : ℝ} (hκ : 0 < κ) :
    ∃ ε > 0, ∀ x : Fin J.columns.length → ℝ, x ≠ 0 → ‖x‖ < ε → gradient J r ⬝ᵥ x ≤ -(κ * ‖x‖) →
      ∃ h' r', Stepped h h' vars (List.ofFn x) ∧ IsResidual h' facs r' ∧ realArith.sqNorm r' < realArith.sqNorm r := by
  obtain ⟨Φ, rfl, h2, h3⟩ := linearised_derivative hc hs hlin
  obtain ⟨ε, hε, hball⟩ := Metric.eventually_nhds_iff.1 (h2.and (cost_falls _ Φ h3 hκ))
  refine ⟨ε, hε, fun x hx hn hg => ?_⟩
  obtain ⟨⟨h', a1, a2⟩, a3⟩ := hball (y := x) (by rwa [dist_zero_right])
  refine ⟨h', _, a1, a2, ?_⟩
  rw [sqNorm_ofFn, sqNorm_ofFn]
  rw [gradient, Ldlt.asVec_ofFn] at hg
  exact a3 hx hg

/-! ### C70 -/

/-- **C70**. Let `J` and `r` be the Jacobian and the residual at the current variables, and `d` any direction with
`gradient · d < 0`. Then every short enough step in this direction can be applied, and the residual evaluates and is strictly
smaller after it. -/
theorem C70_small_step {h : Heap RVar} {vars : List VRef} {facs : List (Factor ℝ RVar)} (hc : Closed h vars facs)
    (hs : SmoothGraph h vars facs) {r : List ℝ} {J : SpMat ℝ} (hlin : Linearised h vars facs r J)
    (d : Fin J.columns.length → ℝ) (hd : gradient J r ⬝ᵥ d < 0) :
    ∃ τ > 0, ∀ t : ℝ, 0 < t → t < τ → ∃ h' r', Stepped h h' vars (List.ofFn (t • d)) ∧ IsResidual h' facs r' ∧
      realArith.sqNorm r' < realArith.sqNorm r := by
  have hne : d ≠ 0 := by rintro rfl; simp at hd
  have hdp : 0 < ‖d‖ := norm_pos_iff.2 hne
  obtain ⟨ε, hε, h1⟩ := steps_descend hc hs hlin (κ := -(gradient J r ⬝ᵥ d) / ‖d‖) (div_pos (by linarith) hdp)
  refine ⟨ε / ‖d‖, div_pos hε hdp, fun t h0 ht => h1 (t • d) (smul_ne_zero h0.ne' hne) ?_ ?_⟩
  · rw [norm_smul, Real.norm_eq_abs, abs_of_pos h0]
    exact (lt_div_iff₀ hdp).1 ht
  · rw [dotProduct_smul, norm_smul, Real.norm_eq_abs, abs_of_pos h0, smul_eq_mul]
    have : -(gradient J r ⬝ᵥ d) / ‖d‖ * (t * ‖d‖) = -(t * (gradient J r ⬝ᵥ d)) := by field_simp
    rw [this]
    linarith

/-- Moving the pose towards its prior lowers the cost of the planar example. -/
example : ∃ J, ∃ h0 : 0 < J.columns.length, Linearised C70.heap [0, 1] C70.facs [-1, -1, -1, 0, 0] J ∧
    ∃ τ > 0, ∀ t : ℝ, 0 < t → t < τ → ∃ h' r', Stepped C70.heap h' [0, 1] (List.ofFn (t • Pi.single ⟨0, h0⟩ (1 : ℝ))) ∧
      IsResidual h' C70.facs r' ∧ realArith.sqNorm r' < realArith.sqNorm [-1, -1, -1, 0, 0] := by
  obtain ⟨J, hJ⟩ := C70.linearised
  have h0 : 0 < J.columns.length := by rw [C70.columns hJ]; norm_num
  refine ⟨J, h0, hJ, C70_small_step C70.closed C70.smooth hJ _ ?_⟩
  rw [dotProduct_single, C70.slope hJ h0]
  norm_num

/-- **C70**, Levenberg-Marquardt. Away from stationary points every large enough damping gives a system that is found usable
and a step that can be applied and lowers the cost, whatever the (positive) learning rate. -/
theorem C70_large_damping (hL : ExactLinAlg L) (hP : ExactPivots L) {h : Heap RVar} {vars : List VRef}
    {facs : List (Factor ℝ RVar)} (hc : Closed h vars facs) (hs : SmoothGraph h vars facs) {r : List ℝ} {J : SpMat ℝ}
    (hlin : Linearised h vars facs r J) (hgrad : gradient J r ≠ 0) (rate : ℝ) (hrate : 0 < rate) :
    ∃ Λ > 0, ∀ lambda ≥ Λ, ∀ J', Linearised h vars facs r J' → ∃ d h' r',
      SystemSolved realArith L (damped realArith (L.gram J') lambda) (L.rhs J' r) d ∧
      Stepped h h' vars (realArith.scale rate d) ∧ IsResidual h' facs r' ∧ realArith.sqNorm r' < realArith.sqNorm r := by
  set g := gradient J r
  have hgp : 0 < ‖g‖ := norm_pos_iff.2 hgrad
  have hN : 0 < J.columns.length := by
    rcases Nat.eq_zero_or_pos J.columns.length with e | e
    · exact absurd (funext fun i => absurd i.2 (by omega)) hgrad
    · exact e
  obtain ⟨ε, hε, h1⟩ := steps_descend hc hs hlin (half_pos hgp)
  obtain ⟨Λ1, hΛ1, h2⟩ := damped_step (jacobianMatrix J) hgrad
  set Λ2 := ∑ i, ((jacobianMatrix J)ᵀ * jacobianMatrix J) i i + 1
  set Λ3 := rate * (J.columns.length * ‖g‖) / ε + 1
  refine ⟨max Λ1 (max Λ2 Λ3), lt_max_of_lt_left hΛ1, fun lambda hl J' hlin' => ?_⟩
  have hl1 : Λ1 ≤ lambda := le_trans (le_max_left _ _) hl
  have hl2 : Λ2 ≤ lambda := le_trans ((le_max_left _ _).trans (le_max_right _ _)) hl
  have hl3 : Λ3 ≤ lambda := le_trans ((le_max_right _ _).trans (le_max_right _ _)) hl
  have hl0 : 0 < lambda := hΛ1.trans_le hl1
  have hcol : J'.columns.length = J.columns.length := hlin'.columns.trans hlin.columns.symm
  obtain ⟨d, e1, e2, e3⟩ := damped_solved hL hP J' (hcol ▸ hN) lambda
    ((linearised_unique hc.nodup hlin' hlin).2 (fun N R M => ∑ i, (Mᵀ * M) i i + 1 ≤ lambda) hl2) r
  have e4 := (linearised_unique hc.nodup hlin hlin').2
    (fun N R M => (Mᵀ * M + lambda • (1 : Matrix (Fin N) (Fin N) ℝ)) *ᵥ asVec N d = -(Mᵀ *ᵥ asVec R r)) e3
  obtain ⟨a1, a2, a3⟩ := h2 lambda hl1 _ e4
  rw [hcol] at e2
  obtain ⟨h', r', b1, b2, b3⟩ := h1 (rate • asVec J.columns.length d) (smul_ne_zero hrate.ne' a1) (by
      rw [norm_smul, Real.norm_eq_abs, abs_of_pos hrate]
      calc rate * ‖asVec J.columns.length d‖ ≤ rate * (J.columns.length * ‖g‖ / lambda) := mul_le_mul_of_nonneg_left a2 hrate.le
        _ = rate * (J.columns.length * ‖g‖) / lambda := by ring
        _ < ε := by
          rw [div_lt_iff₀ hl0, mul_comm ε, ← div_lt_iff₀ hε]
          linarith) (by
      rw [dotProduct_smul, norm_smul, Real.norm_eq_abs, abs_of_pos hrate, smul_eq_mul]
      have := mul_le_mul_of_nonneg_left a3 hrate.le
      linarith)
  exact ⟨d, h', r', e1, by rw [scale_ofFn e2]; exact b1, b2, b3⟩

example : ∃ Λ > 0, ∀ lambda ≥ Λ, ∀ J', Linearised C70.heap [0, 1] C70.facs [-1, -1, -1, 0, 0] J' → ∃ d h' r',
    SystemSolved realArith C70.linAlg (damped realArith (C70.linAlg.gram J') lambda)
      (C70.linAlg.rhs J' [-1, -1, -1, 0, 0]) d ∧
    Stepped C70.heap h' [0, 1] (realArith.scale 1 d) ∧ IsResidual h' C70.facs r' ∧
    realArith.sqNorm r' < realArith.sqNorm [-1, -1, -1, 0, 0] := by
  obtain ⟨J, hJ⟩ := C70.linearised
  exact C70_large_damping Ldlt.exact Ldlt.exact_pivots C70.closed C70.smooth hJ (C70.gradient_ne hJ) 1 one_pos

theorem Reaches.closed {env : Env ℝ RVar} {s s1 : OptWorld ℝ RVar Fact} {r0 : List ℝ} {k : Nat} (h : Reaches L env s r0 k s1) :
    Closed s1.heap s.graph.getAllVariables s.graph.getAllFactors := by
  obtain ⟨h0, pre, post, hw, hpre⟩ := h.history
  obtain ⟨_, hl, hshape, hv, hf⟩ := iterations_ready hw hpre h.identify h.noRepeats h.iterations
  obtain ⟨c1, c2⟩ := closed_of_finalized hw h.identify
  exact ⟨c1, fun f hf r hr hc => c2 f hf r hr ((hshape r).2.1 ▸ hc)⟩

/-- The blocks of the factors are proper in every state of the variables. -/
theorem Reaches.proper {env : Env ℝ RVar} {s s1 : OptWorld ℝ RVar Fact} {r0 : List ℝ} {k : Nat} (h : Reaches L env s r0 k s1)
    (hs : ∀ f ∈ s.graph.getAllFactors, SmoothPoint s1.heap f) : ∀ h, SameShape s.heap h → ∀ f ∈ s.graph.getAllFactors,
      ∀ js, f.computeJacobians h [] = .ok js → ProperBlocks h f js := by
  intro h' hsh f hf js hj
  obtain ⟨h0, pre, post, hw, hpre⟩ := h.history
  obtain ⟨_, _, hsh1, _, _⟩ := iterations_ready hw hpre h.identify h.noRepeats h.iterations
  obtain ⟨c, hb⟩ := smooth_built (hs f hf)
  exact C57_proper hb (fun r => ⟨(hsh r).1.trans (hsh1 r).1.symm, (hsh r).2.1.trans (hsh1 r).2.1.symm,
    (hsh r).2.2.trans (hsh1 r).2.2.symm⟩) (smooth_sizes (hs f hf)) hj

/-- Where the gradient is not zero some factor involves a free variable. -/
theorem free_of_gradient {h : Heap RVar} {vars : List VRef} {facs : List (Factor ℝ RVar)} (hc : Closed h vars facs)
    {r : List ℝ} {J : SpMat ℝ} (hlin : Linearised h vars facs r J) (hgrad : gradient J r ≠ 0) :
    ∃ f ∈ facs, ∃ q, some q ∈ f.variables ∧ VarLike.isConst (h q) = false := by
  by_contra hn
  push Not at hn
  refine hgrad (funext fun c => ?_)
  rw [gradient_apply]
  refine Finset.sum_eq_zero fun a ha => ?_
  have ha : a < rowTotal facs := by rw [← hlin.rows]; simpa using ha
  have hcl : c.1 < freeTotal h vars := by rw [← hlin.columns]; exact c.2
  obtain ⟨k, f, i, hk, hi, rfl⟩ := exists_row ha
  obtain ⟨q, hq, hcq, j, hj, e⟩ := exists_column h hc.nodup hcl
  obtain ⟨B, _, hS⟩ := hlin.jacobian
  rw [e, (hS k f hk i hi).2 q hq hcq (fun hm => hn f (List.mem_of_getElem? hk) q hm hcq) j hj, zero_mul]

/-- **C70**, Gauss-Newton. Away from stationary points there is a bound such that every iteration from these variables with a
positive learning rate below it returns, and either refuses the linear system and says so, or lowers the cost. -/
theorem C70_gauss_newton (hL : ExactLinAlg L) {h : Heap RVar} {vars : List VRef} {facs : List (Factor ℝ RVar)}
    (hc : Closed h vars facs) (hs : SmoothGraph h vars facs) {r : List ℝ} {J : SpMat ℝ} (hlin : Linearised h vars facs r J)
    (hgrad : gradient J r ≠ 0) :
    ∃ τ > 0, ∀ (env : Env ℝ RVar) (s s1 : OptWorld ℝ RVar Fact) (r0 : List ℝ) (k : Nat), Reaches L env s r0 k s1 →
      s.graph.getAllVariables = vars → s.graph.getAllFactors = facs → s1.heap = h →
      s.opt.settings.method = .gaussNewton → 0 < s.opt.settings.learningRate → s.opt.settings.learningRate < τ →
      ∃ s2, oneStep realArith L env s1 = (s2, .ok ()) ∧
      ((s2.opt.stats.valid = false ∧ s2.heap = h ∧ ∃ J' status, Linearised h vars facs r J' ∧
        SystemRefused realArith L (L.gram J') (L.rhs J' r) status ∧ s2.opt.stats.status = status) ∨
      ∃ r', IsResidual s2.heap facs r' ∧ realArith.sqNorm r' < realArith.sqNorm r ∧
        s2.opt.stats.residualNorm = realArith.norm r') := by
  set A := jacobianMatrix J with hA
  have hN : 0 < J.columns.length := by
    rcases Nat.eq_zero_or_pos J.columns.length with e | e
    · exact absurd (funext fun i => absurd i.2 (by omega)) hgrad
    · exact e
  have hcol : ∀ {J'}, Linearised h vars facs r J' → J'.columns.length = J.columns.length :=
    fun hlin' => hlin'.columns.trans hlin.columns.symm
  -- what a solved system means
  have hsolved : ∀ J', Linearised h vars facs r J' → ∀ d, SystemSolved realArith L (L.gram J') (L.rhs J' r) d →
      IsUnit (Aᵀ * A) ∧ d.length = J.columns.length ∧ (Aᵀ * A) *ᵥ asVec J.columns.length d = -gradient J r := by
    rintro J' hlin' d ⟨f, hf, _, _, hd⟩
    have hsz := hL.gram_size J'
    have hcols : (L.gram J').cols = (L.gram J').rows := hsz.2.trans hsz.1.symm
    have hsym : (square J'.columns.length (L.gram J')).IsSymm := by rw [hL.gram]; exact gram_symm _
    have hu := hL.invertible _ f hcols (by rw [hsz.1]; exact hsym) hf
    rw [hsz.1, hL.gram] at hu
    obtain ⟨d', g1, g2, g3, _⟩ := C25_gauss_newton hL J' r f hf
    obtain rfl : d' = d := Option.some.inj (g1.symm.trans hd)
    have heq := (g3 (asVec _ d')).2 rfl
    have ht := (linearised_unique hc.nodup hlin hlin').2
    exact ⟨ht (fun N R M => IsUnit (Mᵀ * M)) hu, g2.trans (hcol hlin'),
      ht (fun N R M => (Mᵀ * M) *ᵥ asVec N d' = -(Mᵀ *ᵥ asVec R r)) heq⟩
  -- the run
  have hrun : ∀ τ, (IsUnit (Aᵀ * A) → ∀ d0, (Aᵀ * A) *ᵥ d0 = -gradient J r → ∀ t : ℝ, 0 < t → t < τ →
      ∃ h' r', Stepped h h' vars (List.ofFn (t • d0)) ∧ IsResidual h' facs r' ∧ realArith.sqNorm r' < realArith.sqNorm r) →
      ∀ (env : Env ℝ RVar) (s s1 : OptWorld ℝ RVar Fact) (r0 : List ℝ) (k : Nat), Reaches L env s r0 k s1 →
      s.graph.getAllVariables = vars → s.graph.getAllFactors = facs → s1.heap = h →
      s.opt.settings.method = .gaussNewton → 0 < s.opt.settings.learningRate → s.opt.settings.learningRate < τ →
      ∃ s2, oneStep realArith L env s1 = (s2, .ok ()) ∧
      ((s2.opt.stats.valid = false ∧ s2.heap = h ∧ ∃ J' status, Linearised h vars facs r J' ∧
        SystemRefused realArith L (L.gram J') (L.rhs J' r) status ∧ s2.opt.stats.status = status) ∨
      ∃ r', IsResidual s2.heap facs r' ∧ realArith.sqNorm r' < realArith.sqNorm r ∧
        s2.opt.stats.residualNorm = realArith.norm r') := by
    intro τ hτ env s s1 r0 k hr hv hf hh hm h0 ht
    subst hv hf hh
    obtain ⟨h0', pre, post, hw, hpre⟩ := hr.history
    have hsafe : ∀ f ∈ s.graph.getAllFactors, ReuseSafe f :=
      fun f hf => (smooth_built (hs.factors f hf)).elim fun _ hb => C57_reuse _ _ _ hb
    obtain ⟨s2, hstep⟩ := C67_gauss_newton_returns realArith L env s hw hpre hr.identify hr.noRepeats hsafe hr.hasGraph hm r0 k
      s1 hr.iterations r J hlin (free_of_gradient hc hlin hgrad)
      (fun J' f hlin' hf e => by
        have := hL.diagonal _ f hf
        rw [e, (hL.gram_size J').1, hcol hlin'] at this
        simp at this
        omega)
      (fun J' d hlin' hd => by
        obtain ⟨hu, hdl, heq⟩ := hsolved J' hlin' d hd
        obtain ⟨h', r'', s1', s2', s3'⟩ := hτ hu _ heq _ h0 ht
        exact ⟨hdl.trans (hcol hlin').symm, h', r'', by rw [scale_ofFn hdl]; exact s1', s2'⟩)
    refine ⟨s2, hstep, ?_⟩
    obtain ⟨r1, J', hlin', hcase⟩ := C67_gauss_newton realArith L env s hw hpre hr.identify hr.noRepeats hsafe (hr.proper hs.factors) hr.hasGraph
      hm r0 k s1 s2 hr.iterations hstep
    obtain rfl := (linearised_unique hc.nodup hlin hlin').1
    rcases hcase with ⟨status, c1, c2, c3⟩ | ⟨d, r', c1, c2, c3, c4⟩
    · exact .inl ⟨by rw [c3], c2, J', status, hlin', c1, by rw [c3]⟩
    · obtain ⟨hu, hdl, heq⟩ := hsolved J' hlin' d c1
      obtain ⟨h', r'', s1', s2', s3'⟩ := hτ hu _ heq _ h0 ht
      rw [scale_ofFn hdl] at c2
      obtain rfl := stepped_unique c2 s1'
      obtain rfl := isResidual_unique c3 s2'
      exact .inr ⟨r', c3, s3', by rw [c4]⟩
  by_cases hu : IsUnit (Aᵀ * A)
  · have hpd := gram_posDef A hu
    have hd0 : (Aᵀ * A) *ᵥ ((Aᵀ * A)⁻¹ *ᵥ (-gradient J r)) = -gradient J r := by
      rw [mulVec_mulVec, mul_nonsing_inv _ ((isUnit_iff_isUnit_det _).1 hu), one_mulVec]
    obtain ⟨u1, u2, _⟩ := posDef_descent hpd hd0
    obtain ⟨τ, hτ, h1⟩ := C70_small_step hc hs hlin _ (u2 hgrad)
    exact ⟨τ, hτ, hrun τ fun _ d0 hd t h0 ht => by rw [(u1 d0).1 hd]; exact h1 t h0 ht⟩
  · exact ⟨1, one_pos, hrun 1 fun hu' => absurd hu' hu⟩

/-- With a learning rate that is small enough the first iteration for the planar example returns and does one of the two. -/
example : ∃ τ > 0, ∀ rate : ℝ, 0 < rate → rate < τ → ∃ r0 s2,
    oneStep realArith C70.linAlg C70.env
      (loopStart realArith C70.env (C70.start { Settings.default realArith with learningRate := rate }) r0) = (s2, .ok ()) ∧
    (s2.opt.stats.valid = false ∨ ∃ r', IsResidual s2.heap C70.facs r' ∧
      realArith.sqNorm r' < realArith.sqNorm [-1, -1, -1, 0, 0]) := by
  obtain ⟨J, hJ⟩ := C70.linearised
  obtain ⟨τ, hτ, h⟩ := C70_gauss_newton Ldlt.exact C70.closed C70.smooth hJ (C70.gradient_ne hJ)
  refine ⟨τ, hτ, fun rate h0 ht => ?_⟩
  obtain ⟨r0, hr⟩ := C70.reaches { Settings.default realArith with learningRate := rate }
  obtain ⟨s2, h1, h2⟩ := h _ _ _ r0 0 hr (PlanarWorld.vars_eq _ _ _ _ _ _ _ _) (PlanarWorld.facs_eq _ _ _ _ _ _ _ _)
    (PlanarWorld.heap_eq _ _ _ _ _ _ _ _) rfl h0 ht
  exact ⟨r0, s2, h1, h2.imp (fun h => h.1) (fun ⟨r', e1, e2, _⟩ => ⟨r', e1, e2⟩)⟩

/-! ### C71 -/

/-- Trials that get as far as a damping that succeeds end with an accepted step. -/
theorem trials_accept {h : Heap RVar} {vars : List VRef} {facs : List (Factor ℝ RVar)} {r : List ℝ} {J : SpMat ℝ}
    {settings : Settings ℝ} {Λ : ℝ}
    (hgood : ∀ lambda ≥ Λ, ∃ d h' r', SystemSolved realArith L (damped realArith (L.gram J) lambda) (L.rhs J r) d ∧
      Stepped h h' vars (realArith.scale settings.learningRate d) ∧ IsResidual h' facs r' ∧
      realArith.sqNorm r' < realArith.sqNorm r) (hup : 1 ≤ settings.lambdaUp) {n i : Nat} {lambda lambda' : ℝ}
    {o : Option (List ℝ × Heap RVar × List ℝ)} (ht : Trials realArith L settings h vars facs r J n lambda o lambda')
    (hi : i < n) (hl : 0 ≤ lambda) (hΛ : Λ ≤ lambda * settings.lambdaUp ^ i) (hmax : lambda * settings.lambdaUp ^ i < settings.maxLambda) :
    ∃ dx h' r', o = some (dx, h', r') ∧ IsResidual h' facs r' ∧ realArith.sqNorm r' < realArith.sqNorm r := by
  have hlt : ∀ a b : ℝ, realArith.lt (realArith.mul (realArith.lit (1 / 2)) a) (realArith.mul (realArith.lit (1 / 2)) b) = true ↔
      a < b := by
    intro a b
    show decide (((1 / 2 : ℚ) : ℝ) * a < ((1 / 2 : ℚ) : ℝ) * b) = true ↔ _
    rw [decide_eq_true_iff]
    push_cast
    constructor <;> intro h <;> linarith
  have hnext : ∀ {i : Nat} {lambda : ℝ}, 0 ≤ lambda → lambda * settings.lambdaUp ^ (i + 1) < settings.maxLambda →
      realArith.stdMin (realArith.mul lambda settings.lambdaUp) settings.maxLambda = lambda * settings.lambdaUp ∧
      lambda * settings.lambdaUp < settings.maxLambda := by
    intro i lambda hl hm
    have h1 : lambda * settings.lambdaUp < settings.maxLambda := by
      refine lt_of_le_of_lt (mul_le_mul_of_nonneg_left ?_ hl) hm
      exact le_self_pow₀ hup (Nat.succ_ne_zero i)
    refine ⟨?_, h1⟩
    show (if decide (settings.maxLambda < lambda * settings.lambdaUp) = true then settings.maxLambda
      else lambda * settings.lambdaUp) = _
    rw [if_neg (by simpa using h1.le)]
  have hnofail : ∀ {lambda lambda' : ℝ} {b : Bool}, Λ ≤ lambda →
      ¬ FailedTrial realArith L settings h vars facs r J lambda lambda' b := by
    intro lambda lambda' b hge hf
    obtain ⟨d, h', r', e1, e2, e3, e4⟩ := hgood lambda hge
    cases hf with
    | unsolved hu => exact hu d e1
    | @worse d1 r1 h1 f1 f2 f3 f4 =>
      obtain rfl := solved_unique e1 f1
      obtain rfl := stepped_unique e2 f2
      obtain rfl := isResidual_unique e3 f3
      rw [(hlt _ _).2 e4] at f4
      simp at f4
  induction ht generalizing i with
  | exhausted => omega
  | accepted e1 e2 e3 e4 => exact ⟨_, _, _, rfl, e3, (hlt _ _).1 e4⟩
  | @retry n lambda lambda1 lambda2 o hf ht ih =>
    match i with
    | 0 => exact absurd hf (hnofail (by simpa using hΛ))
    | i + 1 =>
      obtain ⟨h1, h2⟩ := hnext hl hmax
      have e : lambda1 = lambda * settings.lambdaUp := by
        generalize false = b at hf
        cases hf with
        | unsolved => rfl
        | worse => exact h1
      subst e
      exact ih (i := i) (by omega) (mul_nonneg hl (by linarith)) (by rw [mul_assoc, ← pow_succ']; exact hΛ)
        (by rw [mul_assoc, ← pow_succ']; exact hmax)
  | @limit n lambda lambda1 hf =>
    match i with
    | 0 => exact absurd hf (hnofail (by simpa using hΛ))
    | i + 1 =>
      obtain ⟨h1, h2⟩ := hnext hl hmax
      generalize hb : true = b at hf
      cases hf with
      | unsolved => simp at hb
      | worse _ _ _ _ =>
        rw [h1] at hb
        have : decide (settings.maxLambda ≤ lambda * settings.lambdaUp) = true := hb.symm
        rw [decide_eq_true_iff] at this
        linarith

/-- **C71**, as far as it holds. Away from stationary points there is a damping such that every iteration from these variables
one of whose five trials would use at least this damping, below `max_lambda`, makes progress: it accepts a step, the cost is
strictly lower, and neither status nor validity change. Missing from the full property: the trials end after five, however
far the damping still is from `max_lambda` (`C71_false`). -/
theorem C71_partial (hL : ExactLinAlg L) (hP : ExactPivots L) {h : Heap RVar} {vars : List VRef} {facs : List (Factor ℝ RVar)}
    (hc : Closed h vars facs) (hs : SmoothGraph h vars facs) {r : List ℝ} {J : SpMat ℝ} (hlin : Linearised h vars facs r J)
    (hgrad : gradient J r ≠ 0) (rate : ℝ) (hrate : 0 < rate) :
    ∃ Λ > 0, ∀ (env : Env ℝ RVar) (s s1 s2 : OptWorld ℝ RVar Fact) (r0 : List ℝ) (k : Nat), Reaches L env s r0 k s1 → Restorable s →
      s.graph.getAllVariables = vars → s.graph.getAllFactors = facs → s1.heap = h →
      s.opt.settings.method = .levenbergMarquardt → s.opt.settings.learningRate = rate →
      1 ≤ s.opt.settings.lambdaUp → 0 ≤ firstDamping s.opt.settings s1.opt.stats →
      (∃ i ≤ 4, Λ ≤ firstDamping s.opt.settings s1.opt.stats * s.opt.settings.lambdaUp ^ i ∧
        firstDamping s.opt.settings s1.opt.stats * s.opt.settings.lambdaUp ^ i < s.opt.settings.maxLambda) →
      oneStep realArith L env s1 = (s2, .ok ()) →
      ∃ r', IsResidual s2.heap facs r' ∧ realArith.sqNorm r' < realArith.sqNorm r ∧
        s2.opt.stats.residualNorm = realArith.norm r' ∧ s2.opt.stats.valid = s1.opt.stats.valid ∧
        s2.opt.stats.status = s1.opt.stats.status := by
  obtain ⟨Λ, hΛ, hgood⟩ := C70_large_damping hL hP hc hs hlin hgrad rate hrate
  refine ⟨Λ, hΛ, fun env s s1 s2 r0 k hr hrest hv hf hh hm hrt hup hnn ⟨i, hi, hi1, hi2⟩ hstep => ?_⟩
  subst hv hf hh hrt
  obtain ⟨h0', pre, post, hw, hpre⟩ := hr.history
  obtain ⟨r1, J', o, lam, hlin', htr, hcase⟩ := C67_levenberg_marquardt_partial realArith L env s hw hpre hr.identify hr.noRepeats
    (fun f hf => (smooth_built (hs.factors f hf)).elim fun _ hb => C57_reuse _ _ _ hb) (hr.proper hs.factors) hr.hasGraph hm hrest r0 hr.start
    k s1 s2 hr.iterations hstep
  obtain rfl := (linearised_unique hc.nodup hlin hlin').1
  obtain ⟨dx, h', r', e1, e2, e3⟩ := trials_accept (fun lambda hl => hgood lambda hl J' hlin') hup htr (i := i) (by omega) hnn hi1 hi2
  rcases hcase with ⟨dx', r'', c1, c2⟩ | ⟨c1, _⟩
  · rw [e1] at c1
    simp only [Option.some.injEq, Prod.mk.injEq] at c1
    obtain ⟨rfl, rfl, rfl⟩ := c1
    exact ⟨r', e2, e3, by rw [c2], by rw [c2], by rw [c2]⟩
  · rw [e1] at c1; simp at c1

/-- In the planar example every first iteration with a large enough initial damping, below a larger limit, that returns lowers the
cost. -/
example : ∃ Λ > 0, ∀ lambda : ℝ, Λ ≤ lambda → ∃ r0, ∀ s2,
    oneStep realArith C70.linAlg C70.env (loopStart realArith C70.env (C70.start
      { Settings.default realArith with method := .levenbergMarquardt, initialLambda := lambda, maxLambda := lambda + 1 }) r0) = (s2, .ok ()) →
    ∃ r', IsResidual s2.heap C70.facs r' ∧ realArith.sqNorm r' < realArith.sqNorm [-1, -1, -1, 0, 0] := by
  obtain ⟨J, hJ⟩ := C70.linearised
  obtain ⟨Λ, hΛ, h⟩ := C71_partial Ldlt.exact Ldlt.exact_pivots C70.closed C70.smooth hJ (C70.gradient_ne hJ) 1 one_pos
  refine ⟨Λ, hΛ, fun lambda h0 => ?_⟩
  obtain ⟨r0, hr⟩ := C70.reaches { Settings.default realArith with method := .levenbergMarquardt, initialLambda := lambda, maxLambda := lambda + 1 }
  refine ⟨r0, fun s2 hs => ?_⟩
  have hfd : firstDamping { Settings.default realArith with method := .levenbergMarquardt, initialLambda := lambda, maxLambda := lambda + 1 }
      (loopStart realArith C70.env (C70.start { Settings.default realArith with method := .levenbergMarquardt, initialLambda := lambda, maxLambda := lambda + 1 })
        r0).opt.stats = lambda := rfl
  obtain ⟨r', e1, e2, _⟩ := h _ _ _ s2 r0 0 hr (C70.restorable _) (PlanarWorld.vars_eq _ _ _ _ _ _ _ _)
    (PlanarWorld.facs_eq _ _ _ _ _ _ _ _) (PlanarWorld.heap_eq _ _ _ _ _ _ _ _) rfl (by show ((1 : ℚ) : ℝ) = 1; norm_num)
    (by show (1 : ℝ) ≤ ((10 : ℚ) : ℝ); norm_num) (by rw [hfd]; exact hΛ.le.trans h0)
    ⟨0, by norm_num, by rw [hfd]; simpa using h0, by
      rw [hfd, pow_zero, mul_one]
      exact lt_add_one lambda⟩ hs
  exact ⟨r', e1, e2⟩

/-- **C70**, Levenberg-Marquardt. Away from stationary points there is a damping such that every iteration that starts with at
least this damping, below `max_lambda`, returns and lowers the cost. -/
theorem C70_levenberg_marquardt (hL : ExactLinAlg L) (hP : ExactPivots L) {h : Heap RVar} {vars : List VRef}
    {facs : List (Factor ℝ RVar)} (hc : Closed h vars facs) (hs : SmoothGraph h vars facs) {r : List ℝ} {J : SpMat ℝ}
    (hlin : Linearised h vars facs r J) (hgrad : gradient J r ≠ 0) (rate : ℝ) (hrate : 0 < rate) :
    ∃ Λ > 0, ∀ (env : Env ℝ RVar) (s s1 : OptWorld ℝ RVar Fact) (r0 : List ℝ) (k : Nat), Reaches L env s r0 k s1 → Restorable s →
      s.graph.getAllVariables = vars → s.graph.getAllFactors = facs → s1.heap = h →
      s.opt.settings.method = .levenbergMarquardt → s.opt.settings.learningRate = rate →
      1 ≤ s.opt.settings.lambdaUp → Λ ≤ firstDamping s.opt.settings s1.opt.stats →
      firstDamping s.opt.settings s1.opt.stats < s.opt.settings.maxLambda →
      ∃ s2, oneStep realArith L env s1 = (s2, .ok ()) ∧
        ∃ r', IsResidual s2.heap facs r' ∧ realArith.sqNorm r' < realArith.sqNorm r ∧
          s2.opt.stats.residualNorm = realArith.norm r' ∧ s2.opt.stats.valid = s1.opt.stats.valid ∧
          s2.opt.stats.status = s1.opt.stats.status := by
  obtain ⟨Λ, hΛ, hgood⟩ := C70_large_damping hL hP hc hs hlin hgrad rate hrate
  obtain ⟨Λ', hΛ', hprog⟩ := C71_partial hL hP hc hs hlin hgrad rate hrate
  refine ⟨max Λ Λ', lt_max_of_lt_left hΛ, fun env s s1 r0 k hr hrest hv hf hh hm hrt hup hge hlt => ?_⟩
  have hge1 : Λ ≤ firstDamping s.opt.settings s1.opt.stats := (le_max_left _ _).trans hge
  have hge2 : Λ' ≤ firstDamping s.opt.settings s1.opt.stats := (le_max_right _ _).trans hge
  obtain ⟨s2, hstep⟩ : ∃ s2, oneStep realArith L env s1 = (s2, .ok ()) := by
    subst hv hf hh hrt
    obtain ⟨h0', pre, post, hw, hpre⟩ := hr.history
    refine C67_levenberg_marquardt_returns_partial realArith L env s hw hpre hr.identify hr.noRepeats
      (fun f hf => (smooth_built (hs.factors f hf)).elim fun _ hb => C57_reuse _ _ _ hb) hr.hasGraph hm hrest r0 hr.start
      k s1 hr.iterations r J hlin (free_of_gradient hc hlin hgrad) (Λ ≤ ·) hge1 (fun l hl => ?_) (fun l J' f hl hlin' hf => ?_)
      (fun l J' d hl hlin' hd => ?_)
    · have h1 : Λ ≤ realArith.mul l s.opt.settings.lambdaUp :=
        hl.trans (le_mul_of_one_le_right (hΛ.le.trans hl) hup)
      refine ⟨h1, ?_⟩
      unfold Arith.stdMin
      split
      · exact hge1.trans hlt.le
      · exact h1
    · intro e
      have := hL.diagonal _ _ hf
      rw [e] at this
      have h1 : (damped realArith (L.gram J') l).rows = J'.columns.length := (hL.gram_size J').1
      have h2 : J'.columns.length = J.columns.length := hlin'.columns.trans hlin.columns.symm
      rw [h1, h2] at this
      exact hgrad (funext fun i => absurd i.2 (by simp only [List.length_nil] at this; omega))
    · obtain ⟨d', h', r', e1, e2, e3, _⟩ := hgood l hl J' hlin'
      obtain rfl := solved_unique e1 hd
      refine ⟨?_, h', r', e2, e3⟩
      obtain ⟨f, d2, g1, g2, g3, _⟩ := C25_damped hL J' r l (hΛ.trans_le hl)
      obtain ⟨f', f1, _, _, f2⟩ := e1
      obtain rfl : f = f' := Option.some.inj (g1.symm.trans f1)
      obtain rfl : d2 = d' := Option.some.inj (g2.symm.trans f2)
      exact g3
  exact ⟨s2, hstep, hprog env s s1 s2 r0 k hr hrest hv hf hh hm hrt hup (hΛ'.le.trans hge2)
    ⟨0, by norm_num, by simpa using hge2, by simpa using hlt⟩ hstep⟩

/-- In the planar example every first iteration with a large enough initial damping, below a larger limit, returns and lowers the
cost. -/
example : ∃ Λ > 0, ∀ lambda : ℝ, Λ ≤ lambda → ∃ r0 s2,
    oneStep realArith C70.linAlg C70.env (loopStart realArith C70.env (C70.start
      { Settings.default realArith with method := .levenbergMarquardt, initialLambda := lambda, maxLambda := lambda + 1 }) r0) = (s2, .ok ()) ∧
    ∃ r', IsResidual s2.heap C70.facs r' ∧ realArith.sqNorm r' < realArith.sqNorm [-1, -1, -1, 0, 0] := by
  obtain ⟨J, hJ⟩ := C70.linearised
  obtain ⟨Λ, hΛ, h⟩ := C70_levenberg_marquardt Ldlt.exact Ldlt.exact_pivots C70.closed C70.smooth hJ (C70.gradient_ne hJ) 1 one_pos
  refine ⟨Λ, hΛ, fun lambda h0 => ?_⟩
  obtain ⟨r0, hr⟩ := C70.reaches { Settings.default realArith with method := .levenbergMarquardt, initialLambda := lambda, maxLambda := lambda + 1 }
  have hfd : firstDamping { Settings.default realArith with method := .levenbergMarquardt, initialLambda := lambda, maxLambda := lambda + 1 }
      (loopStart realArith C70.env (C70.start { Settings.default realArith with method := .levenbergMarquardt, initialLambda := lambda, maxLambda := lambda + 1 })
        r0).opt.stats = lambda := rfl
  obtain ⟨s2, hs, r', e1, e2, _⟩ := h _ _ _ r0 0 hr (C70.restorable _) (PlanarWorld.vars_eq _ _ _ _ _ _ _ _)
    (PlanarWorld.facs_eq _ _ _ _ _ _ _ _) (PlanarWorld.heap_eq _ _ _ _ _ _ _ _) rfl (by show ((1 : ℚ) : ℝ) = 1; norm_num)
    (by show (1 : ℝ) ≤ ((10 : ℚ) : ℝ); norm_num) (by rw [hfd]; exact h0)
    (by
      rw [hfd]
      exact lt_add_one lambda)
  exact ⟨r0, s2, hs, r', e1, e2⟩

end Factorama.Props
