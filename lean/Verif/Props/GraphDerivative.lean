import Verif.Lemmas.GraphJoint
import Verif.Props.GraphEval
import Verif.Props.ZeroIncrement
import Verif.Props.FactorsPlanar
import Verif.Examples.PlanarWorld

/-!
# Property C68: the Jacobian of the graph is the derivative of its residual
-/

namespace Factorama.Props
open Spec Graph Opt Geo Matrix Topology Filter

/-- Variables in a canonical state accept all small increments. -/
theorem C68.accepts (v : RVar) (h : Reachable v ∨ ∃ w, v = .rotation w) (hc : Canonical v) {n : Nat} (hn : VarLike.size v = n) :
    ∀ᶠ d : Fin n → ℝ in 𝓝 0, ∃ v', VarLike.applyIncr v (List.ofFn d) = .ok v' := by
  subst hn
  cases v with
  | generic v =>
    refine Eventually.of_forall fun d => ?_
    show ∃ v', (v.applyIncr _).map RVar.generic = .ok v'
    rw [GenVar.applyIncr, if_neg (by simp [VarLike.size])]; exact ⟨_, rfl⟩
  | landmark v =>
    refine Eventually.of_forall fun d => ?_
    show ∃ v', (v.applyIncr _).map RVar.landmark = .ok v'
    have hc : v.value.length = 3 := hc
    rw [LandmarkVar.applyIncr, if_neg (by simp [VarLike.size]), if_neg (by simp [hc])]; exact ⟨_, rfl⟩
  | pose v =>
    refine Eventually.of_forall fun d => ?_
    show ∃ v', (v.applyIncr _).map RVar.pose = .ok v'
    rw [PoseVar.applyIncr, if_neg (by simp [VarLike.size])]; exact ⟨_, rfl⟩
  | rotation v =>
    refine Eventually.of_forall fun d => ?_
    show ∃ v', (v.applyIncr _).map RVar.rotation = .ok v'
    rw [RotationVar.applyIncr, if_neg (by simp [VarLike.size])]; exact ⟨_, rfl⟩
  | invRange v =>
    refine Eventually.of_forall fun d => ?_
    show ∃ v', (v.applyIncr _).map RVar.invRange = .ok v'
    have hc : v.extra = [] := hc
    rw [InvRangeVar.applyIncr, if_neg (by simp [VarLike.size]), if_neg (by simp [hc])]; exact ⟨_, rfl⟩
  | plane v =>
    obtain h | ⟨_, h⟩ := h
    · cases h with | plane h =>
      have hu := plane_unit h
      have hcont : Continuous fun d : Fin 4 → ℝ =>
          (v.normal + read3 (List.ofFn d) 0) ⬝ᵥ (v.normal + read3 (List.ofFn d) 0) := by
        have : (fun d : Fin 4 → ℝ => (v.normal + read3 (List.ofFn d) 0) ⬝ᵥ (v.normal + read3 (List.ofFn d) 0)) =
            fun d => (v.normal 0 + d 0) * (v.normal 0 + d 0) + (v.normal 1 + d 1) * (v.normal 1 + d 1) +
              (v.normal 2 + d 2) * (v.normal 2 + d 2) := by
          funext d
          rw [dot3]
          simp [read3, List.ofFn_succ]
        rw [this]
        fun_prop
      have h0 : 0 < (v.normal + read3 (List.ofFn (0 : Fin 4 → ℝ)) 0) ⬝ᵥ (v.normal + read3 (List.ofFn (0 : Fin 4 → ℝ)) 0) := by
        have : read3 (List.ofFn (0 : Fin 4 → ℝ)) 0 = 0 := by funext i; fin_cases i <;> simp [read3, List.ofFn_succ]
        rw [this, add_zero, hu]
        norm_num
      filter_upwards [hcont.continuousAt.eventually (lt_mem_nhds h0)] with d hd
      have hd : 0 < (v.normal + read3 (List.ofFn d) 0) ⬝ᵥ (v.normal + read3 (List.ofFn d) 0) := hd
      show ∃ v', (v.applyIncr _).map RVar.plane = .ok v'
      rw [PlaneVar.applyIncr, if_neg (by simp [VarLike.size]), if_pos hd]; exact ⟨_, rfl⟩
    · simp at h
  | pose2d v =>
    refine Eventually.of_forall fun d => ?_
    show ∃ v', (v.applyIncr _).map RVar.pose2d = .ok v'
    rw [Pose2DVar.applyIncr, if_neg (by simp [VarLike.size])]; exact ⟨_, rfl⟩

/-- **C68** (one variable at a time). In a finalized graph of library variables in canonical states, if at the current
values the residual evaluates and the blocks of every factor are the derivatives of its residual (C42–C56 say when), then the
dense Jacobian evaluates, and for every free variable its columns are the derivative of the full residual vector, as a
function of the part `d` of the vector passed to `apply_increment` that belongs to this variable. Increments of several
variables at once: `C68_joint`, `C68_derivative`. -/
theorem C68_columns {h0 : Heap RVar} {pre post : List (Op ℝ RVar × Res Unit)} {w : World ℝ RVar}
    (hw : FinalizedAfter h0 pre post w) (hpre : NoJacobianYet pre)
    (hid : IdsIdentify w.heap w.graph.getAllVariables w.graph.getAllFactors) (hnr : NoRepeats w.graph.getAllFactors)
    (hcorrect : ∀ f ∈ w.graph.getAllFactors, FreshJacobiansCorrect codeIncr f w.heap)
    (hsize : ∀ f ∈ w.graph.getAllFactors, 0 < f.residualSize ∧ ∀ r, some r ∈ f.variables → 0 < VarLike.size (w.heap r))
    (hread : ∀ f ∈ w.graph.getAllFactors, ReadsOwn f)
    (hvars : ∀ r ∈ w.graph.getAllVariables, VarLike.isConst (w.heap r) = false →
      (Reachable (w.heap r) ∨ ∃ v, w.heap r = .rotation v) ∧ Canonical (w.heap r))
    (env : Env ℝ RVar) (r0 : List ℝ) (hres : (computeResidual env w.heap w.graph).2 = .ok r0) :
    ∃ g' J, computeDense env w.heap w.graph = (g', .ok J) ∧ J.rows = w.graph.numResiduals ∧ J.cols = w.graph.numValues ∧
      ∀ r ∈ w.graph.getAllVariables, VarLike.isConst (w.heap r) = false →
        ∃ Φ : (Fin (VarLike.size (w.heap r)) → ℝ) → (Fin J.rows → ℝ), r0 = List.ofFn (Φ 0) ∧
          (∀ᶠ d in 𝓝 0, ∃ w', World.step env (.applyIncrement (spread w.graph.numValues
              (colStart w.heap w.graph.getAllVariables r) d)) w = (w', .ok ()) ∧
            (computeResidual env w'.heap w'.graph).2 = .ok (List.ofFn (Φ d))) ∧
          HasFDerivAt Φ (jac (Matrix.of fun i j => J.entry i (colStart w.heap w.graph.getAllVariables r + j))) 0 := by
  have hl := finalizedAfter_layout hw
  have hir := evaluated_isResidual hl (computeResidual_evaluated hres)
  -- the blocks
  obtain ⟨blocks, hblocks⟩ := fresh_blocks hcorrect hsize
  obtain ⟨g', J, hJ, _, hrows, hcols, hst⟩ := C06_dense hw hpre hid hnr blocks hblocks env
  refine ⟨g', J, hJ, hrows, hcols, fun r hr hc => ?_⟩
  -- every factor
  have hmove : ∀ k : Nat, ∃ φ : (Fin (VarLike.size (w.heap r)) → ℝ) → List ℝ, ∀ f, w.graph.getAllFactors[k]? = some f →
      f.computeResidual w.heap = .ok (φ 0) ∧ (∀ d, (φ d).length = f.residualSize) ∧
      (∀ᶠ d in 𝓝 0, ∀ v', VarLike.applyIncr (w.heap r) (List.ofFn d) = .ok v' →
        f.computeResidual (w.heap.set r v') = .ok (φ d)) ∧
      ∀ i, i < f.residualSize → HasFDerivAt (fun d => (φ d).getD i 0)
        ((ContinuousLinearMap.proj (R := ℝ) (φ := fun _ : Fin 1 => ℝ) 0).comp (jac (Matrix.of fun (_ : Fin 1) j =>
          J.entry (rowStart w.graph.getAllFactors k + i) (colStart w.heap w.graph.getAllVariables r + j)))) 0 := by
    intro k
    cases hk : w.graph.getAllFactors[k]? with
    | none => exact ⟨fun _ => [], fun f hf => by simp at hf⟩
    | some f =>
      have hf := List.mem_of_getElem? hk
      obtain ⟨s, hs, hsl, _⟩ := isResidual_row hir hk
      obtain ⟨φ, h1, h2, h3, h4⟩ := factor_moves (f := f) (h := w.heap) (r := r) rfl hc (hcorrect f hf) (hblocks k f hk).1
        (fun h' => hread f hf w.heap h') hs hsl
        (fun i j => J.entry (rowStart w.graph.getAllFactors k + i) (colStart w.heap w.graph.getAllVariables r + j))
        (fun p B hp hB i hi j => (hst k f hk i hi).1 p r B hp hc hB j j.2)
        (fun hm i hi j => (hst k f hk i hi).2 r hr hc hm j j.2)
      refine ⟨φ, fun f' hf' => ?_⟩
      obtain rfl := Option.some.inj hf'
      exact ⟨by rw [hs, h1], h2, h3, h4⟩
  choose φ hφ using hmove
  let segs : (Fin (VarLike.size (w.heap r)) → ℝ) → List (List ℝ) := fun d =>
    (List.range w.graph.getAllFactors.length).map fun k => φ k d
  have hsegs : ∀ d (k : Nat) f, w.graph.getAllFactors[k]? = some f → (segs d)[k]? = some (φ k d) := by
    intro d k f hk
    have := (List.getElem?_eq_some_iff.1 hk).1
    simp [segs, this]
  have hsum : ∀ d (k : Nat), (((segs d).take k).map List.length).sum = rowStart w.graph.getAllFactors k := by
    intro d k
    rw [rowStart, rowTotal]
    congr 1
    apply List.ext_getElem?
    intro m
    simp only [List.getElem?_map, List.getElem?_take]
    by_cases hm : m < k
    · rw [if_pos hm, if_pos hm]
      cases hf : w.graph.getAllFactors[m]? with
      | none =>
        have := List.getElem?_eq_none_iff.1 hf
        rw [List.getElem?_eq_none (by simp [segs]; omega)]; rfl
      | some f => rw [hsegs d m f hf]; simp [(hφ m f hf).2.1 d]
    · rw [if_neg hm, if_neg hm]; rfl
  have hnum : w.graph.numResiduals = rowTotal w.graph.getAllFactors := hl.nr
  have htot : ∀ d, (segs d).flatten.length = J.rows := by
    intro d
    have := hsum d w.graph.getAllFactors.length
    rw [hrows, hnum, List.length_flatten]
    rwa [List.take_of_length_le (by simp [segs]), rowStart, List.take_length] at this
  have hof : ∀ d, List.ofFn (fun a : Fin J.rows => (segs d).flatten.getD a 0) = (segs d).flatten := by
    intro d
    apply List.ext_getElem
    · simp [htot d]
    · intro i h1 h2
      rw [List.getElem_ofFn, List.getD_eq_getElem?_getD]
      simp only
      rw [List.getElem?_eq_getElem h2, Option.getD_some]
  refine ⟨fun d a => (segs d).flatten.getD a 0, ?_, ?_, ?_⟩
  · rw [hof]
    exact isResidual_unique hir ⟨segs 0, by simp [segs]; rfl, fun k f hk =>
      ⟨_, hsegs 0 k f hk, (hφ k f hk).1, (hφ k f hk).2.1 0⟩, rfl⟩
  · have hall : ∀ᶠ d in 𝓝 0, ∀ k ∈ Finset.range w.graph.getAllFactors.length, ∀ f, w.graph.getAllFactors[k]? = some f →
        ∀ v', VarLike.applyIncr (w.heap r) (List.ofFn d) = .ok v' → f.computeResidual (w.heap.set r v') = .ok (φ k d) := by
      rw [Filter.eventually_all_finset]
      intro k hk
      cases hf : w.graph.getAllFactors[k]? with
      | none => exact Eventually.of_forall fun d f hf' => by simp at hf'
      | some f =>
        filter_upwards [(hφ k f hf).2.2.1] with d hd f' hf'
        obtain rfl := Option.some.inj hf'
        exact hd
    filter_upwards [hall, C68.accepts _ (hvars r hr hc).1 (hvars r hr hc).2 rfl] with d hd ⟨v', hv'⟩
    have hnv : w.graph.numValues = freeTotal w.heap w.graph.getAllVariables := hl.nv
    have happ := C09_apply hw (spread w.graph.numValues (colStart w.heap w.graph.getAllVariables r) d)
      (by simp [spread]) (w.heap.set r v') (fun r' hr' hc' => by
        rw [hnv]
        by_cases e : r' = r
        · subst e
          rw [spread_own w.heap hr hc rfl, hv', set_same]
        · rw [spread_other w.heap e hr hr' hc hc' rfl, set_other w.heap v' e]
          exact C69_partial _ (hvars r' hr' hc').1 (hvars r' hr' hc').2) env
    have hheap : (fun r' => if r' ∈ w.graph.getAllVariables ∧ VarLike.isConst (w.heap r') = false then w.heap.set r v' r'
        else w.heap r') = w.heap.set r v' := by
      funext r'
      by_cases e : r' = r
      · subst e; rw [if_pos ⟨hr, hc⟩]
      · rw [set_other w.heap v' e, ite_self]
    rw [hheap] at happ
    refine ⟨_, happ, ?_⟩
    have hk := kept_step (env := env) (w := w) (op := .applyIncrement
      (spread w.graph.numValues (colStart w.heap w.graph.getAllVariables r) d)) trivial
    rw [happ] at hk
    rw [residual_layout (hl.kept hk.1 hk.2) (segs d) (by simp [segs]; rfl) (fun k f hf =>
      ⟨_, hsegs d k f hf, hd k (Finset.mem_range.2 (List.getElem?_eq_some_iff.1 hf).1) f hf v' hv', (hφ k f hf).2.1 d⟩), hof]
  · refine hasFDerivAt_pi'.2 fun a => ?_
    obtain ⟨k, f, i, hk, hi, ha⟩ := exists_row (facs := w.graph.getAllFactors) (a := (a : Nat)) (by rw [← hnum, ← hrows]; exact a.2)
    have e : (fun d => (segs d).flatten.getD (a : Nat) 0) = fun d => (φ k d).getD i 0 := by
      funext d
      rw [List.getD_eq_getElem?_getD, List.getD_eq_getElem?_getD, ha, ← hsum d k,
        flatten_row (hsegs d k f hk) (by rw [(hφ k f hk).2.1 d]; exact hi)]
    rw [e]
    refine ((hφ k f hk).2.2.2 i hi).congr_fderiv ?_
    ext u
    simp [jac, Matrix.mulVec, dotProduct, ha]

/-- The residual of every factor class depends on its own variables only. -/
theorem C68_reads (h : Heap RVar) (c : FactorClass) (f : Factor ℝ RVar) (hf : Built h c f) : ReadsOwn f := by
  intro h1 h2 hr
  cases hf with
  | genericPrior id r prior sigma _ =>
    have e1 := hr r (by simp [genericPrior])
    simp only [genericPrior, e1]
  | genericBetween id a b m n sigma =>
    have e1 := hr a (by simp [genericBetween])
    have e2 := hr b (by simp [genericBetween])
    have e3 := hr m (by simp [genericBetween])
    simp only [genericBetween, e1, e2, e3]
  | posePositionPrior id p prior sigma =>
    have e1 := hr p (by simp [Fac.posePositionPrior])
    simp only [Fac.posePositionPrior, e1]
  | poseOrientationPrior id p prior sigma =>
    have e1 := hr p (by simp [Fac.poseOrientationPrior])
    simp only [Fac.poseOrientationPrior, e1]
  | rotationPrior id r prior sigma =>
    have e1 := hr r (by simp [Fac.rotationPrior])
    simp only [Fac.rotationPrior, e1]
  | posePositionBetween id a b m sigma localFrame =>
    have e1 := hr a (by simp [Fac.posePositionBetween])
    have e2 := hr b (by simp [Fac.posePositionBetween])
    have e3 := hr m (by simp [Fac.posePositionBetween])
    simp only [Fac.posePositionBetween, e1, e2, e3]
  | poseOrientationBetween id a b m sigma =>
    have e1 := hr a (by simp [Fac.poseOrientationBetween])
    have e2 := hr b (by simp [Fac.poseOrientationBetween])
    have e3 := hr m (by simp [Fac.poseOrientationBetween])
    simp only [Fac.poseOrientationBetween, e1, e2, e3]
  | bearingObservation id p l bearing sigma =>
    have e1 := hr p (by simp [Fac.bearingObservation])
    have e2 := hr l (by simp [Fac.bearingObservation])
    simp only [Fac.bearingObservation, e1, e2]
  | inverseRangeBearing id p l bearing sigma =>
    have e1 := hr p (by simp [Fac.inverseRangeBearing])
    have e2 := hr l (by simp [Fac.inverseRangeBearing])
    simp only [Fac.inverseRangeBearing, e1, e2]
  | bearingProjection id p l bearing sigma tol =>
    have e1 := hr p (by simp [Fac.bearingProjection])
    have e2 := hr l (by simp [Fac.bearingProjection])
    simp only [Fac.bearingProjection, e1, e2]
  | bearing2D id p l obs sigma =>
    have e1 := hr p (by simp [Fac.bearing2D])
    have e2 := hr l (by simp [Fac.bearing2D])
    simp only [Fac.bearing2D, e1, e2]
  | rangeBearing2D id p l range obs rs bs =>
    have e1 := hr p (by simp [Fac.rangeBearing2D])
    have e2 := hr l (by simp [Fac.rangeBearing2D])
    simp only [Fac.rangeBearing2D, e1, e2]
  | pose2DPrior id p prior ps as =>
    have e1 := hr p (by simp [Fac.pose2DPrior])
    simp only [Fac.pose2DPrior, e1]
  | pose2DBetween id a b m ps as localFrame =>
    have e1 := hr a (by simp [Fac.pose2DBetween])
    have e2 := hr b (by simp [Fac.pose2DBetween])
    have e3 := hr m (by simp [Fac.pose2DBetween])
    simp only [Fac.pose2DBetween, e1, e2, e3]
  | plane id p l sigma scaling =>
    have e1 := hr p (by simp [Fac.planeFactor])
    have e2 := hr l (by simp [Fac.planeFactor])
    simp only [Fac.planeFactor, e1, e2]
  | planePrior id l n0 d0 ns ds =>
    have e1 := hr l (by simp [Fac.planePrior])
    simp only [Fac.planePrior, e1]
  | linearVelocity id v1 v2 vel n dt sigma i =>
    have e1 := hr v1 (by simp [Fac.linearVelocity])
    have e2 := hr v2 (by simp [Fac.linearVelocity])
    have e3 := hr vel (by simp [Fac.linearVelocity])
    simp only [Fac.linearVelocity, e1, e2, e3]
  | coordinateTransform id rot org sc la lb sigma =>
    have e1 := hr rot (by simp [Fac.coordinateTransform])
    have e2 := hr org (by simp [Fac.coordinateTransform])
    have e3 := hr sc (by simp [Fac.coordinateTransform])
    have e4 := hr la (by simp [Fac.coordinateTransform])
    have e5 := hr lb (by simp [Fac.coordinateTransform])
    simp only [Fac.coordinateTransform, e1, e2, e3, e4, e5]

example : Built (PlanarWorld.heap ![0, 0] 0 3 4) .rangeBearing2D (Fac.rangeBearing2D 11 0 1 4 0 1 1) :=
  .rangeBearing2D _ _ _ _ _ _ _ rfl rfl

/-- All hypotheses hold for a planar pose at the origin that observes a landmark at `(3, 4)`. -/
example : ∃ g' J, computeDense (PlanarWorld.env 3) (PlanarWorld.world ![0, 0] 0 3 4 ![1, 1, 1] 4 0 1).heap
      (PlanarWorld.world ![0, 0] 0 3 4 ![1, 1, 1] 4 0 1).graph = (g', .ok J) := by
  have hp : PlanarWorld.heap ![0, 0] 0 3 4 0 = .pose2d ⟨1, false, ![0, 0], 0⟩ := rfl
  have hl : IsVector (PlanarWorld.heap ![0, 0] 0 3 4 1) ![3, 4] := .inl ⟨_, rfl, by simp [toList, List.ofFn_succ]⟩
  have hdl : Fac.deltaLocal ⟨1, false, ![0, 0], 0⟩ ![3, 4] = ![3, 4] := by
    funext i; fin_cases i <;> simp [Fac.deltaLocal, Pose2DVar.dcm, Matrix.mulVec, dotProduct, Fin.sum_univ_two]
  have hb : Built (PlanarWorld.heap ![0, 0] 0 3 4) .pose2DPrior (Fac.pose2DPrior 10 0 ![1, 1, 1] 1 1) := .pose2DPrior _ _ _ _ _ hp
  have hb' : Built (PlanarWorld.heap ![0, 0] 0 3 4) .rangeBearing2D (Fac.rangeBearing2D 11 0 1 4 0 1 1) :=
    .rangeBearing2D _ _ _ _ _ _ _ hp rfl
  have hpi := Real.pi_gt_three
  have hthree : wrapAngle (atan2 4 3 - 0) < Real.pi := by
    have h1 : |Complex.arg ⟨3, 4⟩| < Real.pi / 2 := Complex.abs_arg_lt_pi_div_two_iff.2 (.inl (by norm_num))
    have h2 := abs_lt.1 h1
    rw [sub_zero, atan2, wrap_of_mem (by linarith) (by linarith)]
    linarith
  obtain ⟨⟨g1, hres, _⟩, _⟩ := C05_residual (PlanarWorld.finalizedAfter ![0, 0] 0 3 4 ![1, 1, 1] 4 0 1)
    [_, _] (by rw [PlanarWorld.facs_eq]; rfl) (by
      rw [PlanarWorld.facs_eq, PlanarWorld.heap_eq]
      intro k f hk
      match k with
      | 0 => obtain rfl := Option.some.inj hk; exact ⟨_, rfl, prior2d_residual hp _ _ _ _, length_toList _⟩
      | 1 => obtain rfl := Option.some.inj hk; exact ⟨_, rfl, range_bearing_residual hp hl _ _ _ _ _, length_toList _⟩
      | k + 2 => simp [PlanarWorld.facs] at hk) (PlanarWorld.env 3)
  obtain ⟨g', J, h1, _⟩ := C68_columns (PlanarWorld.finalizedAfter ![0, 0] 0 3 4 ![1, 1, 1] 4 0 1)
    (PlanarWorld.noJacobianYet _ _ _ _ _ _ _ _) (PlanarWorld.identify _ _ _ _ _ _ _ _) (PlanarWorld.noRepeats _ _ _ _ _ _ _ _)
    (by
      rw [PlanarWorld.facs_eq, PlanarWorld.heap_eq]
      intro f hf
      simp only [PlanarWorld.facs, List.mem_cons, List.not_mem_nil, or_false] at hf
      rcases hf with rfl | rfl
      · exact C51_jacobian _ _ _ _ _ _ _ hp (by
          show wrapAngle (0 - 1) < Real.pi
          rw [wrap_of_mem (by linarith) (by linarith)]; linarith) _ .code []
      · exact C50_jacobian _ _ _ _ _ _ _ _ _ _ hp hl (by
          rw [hdl, length_eq, vnorm2]
          have : (1e-9 : ℝ) ≤ √(25 : ℝ) := Real.le_sqrt_of_sq_le (by norm_num)
          refine this.trans (le_of_eq ?_)
          congr 1
          simp
          norm_num) (by rw [hdl]; exact hthree) _ .code [])
    (by
      rw [PlanarWorld.facs_eq, PlanarWorld.heap_eq]
      intro f hf
      simp only [PlanarWorld.facs, List.mem_cons, List.not_mem_nil, or_false] at hf
      rcases hf with rfl | rfl
      · refine ⟨by decide, fun r hr => ?_⟩
        obtain rfl : r = 0 := by simpa [Fac.pose2DPrior] using hr
        decide
      · refine ⟨by decide, fun r hr => ?_⟩
        have : r = 0 ∨ r = 1 := by simpa [Fac.rangeBearing2D] using hr
        rcases this with rfl | rfl <;> decide)
    (by
      rw [PlanarWorld.facs_eq]
      intro f hf
      simp only [PlanarWorld.facs, List.mem_cons, List.not_mem_nil, or_false] at hf
      rcases hf with rfl | rfl
      · exact C68_reads _ _ _ hb
      · exact C68_reads _ _ _ hb')
    (by
      rw [PlanarWorld.vars_eq, PlanarWorld.heap_eq]
      intro r hr _
      simp only [List.mem_cons, List.not_mem_nil, or_false] at hr
      rcases hr with rfl | rfl
      · refine ⟨.inl ?_, trivial⟩
        rw [hp]
        have : Pose2DVar.make 1 ![0, 0] 0 = ⟨1, false, ![0, 0], 0⟩ := by
          rw [Pose2DVar.make, wrap_of_mem (by linarith) (by linarith)]
        rw [← this]
        exact .pose2d (.make _ _ _)
      · exact ⟨.inl (.generic _), trivial⟩)
    (PlanarWorld.env 3) _ (by rw [hres])
  exact ⟨g', J, h1⟩

end Factorama.Props
