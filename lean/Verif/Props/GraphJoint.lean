import Verif.Props.GraphDerivative
import Verif.Props.FactorsJoint

/-!
# Property C68 in full: all variables move at once
-/

namespace Factorama.Props
open Spec Graph Opt Geo Matrix Topology Filter

/-- The free variables of the factors of a finalized graph are variables of the graph. -/
theorem layout_mem {h : Heap RVar} {g : Graph ℝ RVar} (hl : Layout h g) (hid : IdsIdentify h g.getAllVariables g.getAllFactors) :
    ∀ f ∈ g.getAllFactors, ∀ r, some r ∈ f.variables → VarLike.isConst (h r) = false → r ∈ g.getAllVariables := by
  intro f hf r hr hc
  obtain ⟨r', hr', h2⟩ := hl.wp.1 f hf (some r) hr
  obtain rfl := Option.some.inj hr'
  obtain ⟨r', h3, h4⟩ := h2 hc
  rw [← hid f hf r hr r' h3 h4]
  exact h3

/-- Evaluating a finalized graph gives the stacked residual. -/
theorem layout_residual {h : Heap RVar} {g : Graph ℝ RVar} (hl : Layout h g) {r : List ℝ} (hr : IsResidual h g.getAllFactors r)
    (env : Env ℝ RVar) : (computeResidual env h g).2 = .ok r := by
  obtain ⟨segs, h1, h2, rfl⟩ := hr
  exact congrArg Prod.snd (residual_layout (env := env) hl segs h1 h2)

/-- **C68**, for any factors whose blocks are derivatives and whose residuals are jointly differentiable. -/
theorem C68_joint {h0 : Heap RVar} {pre post : List (Op ℝ RVar × Res Unit)} {w : World ℝ RVar}
    (hw : FinalizedAfter h0 pre post w) (hpre : NoJacobianYet pre)
    (hid : IdsIdentify w.heap w.graph.getAllVariables w.graph.getAllFactors) (hnr : NoRepeats w.graph.getAllFactors)
    (hcorrect : ∀ f ∈ w.graph.getAllFactors, FreshJacobiansCorrect codeIncr f w.heap)
    (hjoint : ∀ f ∈ w.graph.getAllFactors, JointlyDifferentiable f w.heap)
    (hsize : ∀ f ∈ w.graph.getAllFactors, 0 < f.residualSize ∧ ∀ r, some r ∈ f.variables → 0 < VarLike.size (w.heap r))
    (hread : ∀ f ∈ w.graph.getAllFactors, ReadsOwn f)
    (hvars : ∀ r ∈ w.graph.getAllVariables, VarLike.isConst (w.heap r) = false →
      (Reachable (w.heap r) ∨ ∃ v, w.heap r = .rotation v) ∧ Canonical (w.heap r))
    (env : Env ℝ RVar) :
    ∃ g' J, computeDense env w.heap w.graph = (g', .ok J) ∧
      ∃ Φ : (Fin J.cols → ℝ) → (Fin J.rows → ℝ),
        (computeResidual env w.heap w.graph).2 = .ok (List.ofFn (Φ 0)) ∧
        (∀ᶠ dx in 𝓝 0, ∃ w', World.step env (.applyIncrement (List.ofFn dx)) w = (w', .ok ()) ∧
          (computeResidual env w'.heap w'.graph).2 = .ok (List.ofFn (Φ dx))) ∧
        HasFDerivAt Φ (jac (Matrix.of fun i j => J.entry i j)) 0 := by
  have hl := finalizedAfter_layout hw
  obtain ⟨blocks, hblocks⟩ := fresh_blocks hcorrect hsize
  obtain ⟨g', J, hJ, _, hrows, hcols, hst⟩ := C06_dense hw hpre hid hnr blocks hblocks env
  refine ⟨g', J, hJ, ?_⟩
  obtain ⟨Φ, h1, h2, h3⟩ := graph_derivative (List.Nodup.of_map _ hl.ids) (layout_mem hl hid) hcorrect hjoint hread
    (fun r hr hc => C69_partial _ (hvars r hr hc).1 (hvars r hr hc).2)
    (fun r hr hc => C68.accepts _ (hvars r hr hc).1 (hvars r hr hc).2 rfl) blocks (fun k f hf => (hblocks k f hf).1) J.entry hst
    (hcols.trans hl.nv) (hrows.trans hl.nr)
  refine ⟨Φ, layout_residual hl h1 env, ?_, h3⟩
  filter_upwards [h2] with dx ⟨h', hs, hr⟩
  have happ := C09_apply hw (List.ofFn dx) (by simp [hcols]) h' (fun r hr hc => (hs r).1 ⟨hr, hc⟩) env
  have hheap : (fun r => if r ∈ w.graph.getAllVariables ∧ VarLike.isConst (w.heap r) = false then h' r else w.heap r) = h' := by
    funext r
    by_cases hr : r ∈ w.graph.getAllVariables ∧ VarLike.isConst (w.heap r) = false
    · rw [if_pos hr]
    · rw [if_neg hr, (hs r).2 hr]
  rw [hheap] at happ
  refine ⟨_, happ, ?_⟩
  have hk := kept_step (env := env) (w := w) (op := .applyIncrement (List.ofFn dx)) trivial
  rw [happ] at hk
  exact layout_residual (hl.kept hk.1 hk.2) hr env

theorem part_pos {n i : Nat} {v : RVar} {y : Fin n → ℝ} (hn : 0 < n) (hv : HasPart v i y) : 0 < VarLike.size v := by
  have := part_fits hv
  omega

theorem isVector_pos {n : Nat} {v : RVar} {y : Fin n → ℝ} (hn : 0 < n) (hv : IsVector v y) : 0 < VarLike.size v := by
  rw [(vector_value hv).2]
  exact hn

theorem measured_pos {v : RVar} {y : V3} (hv : MeasuredPose v y) : 0 < VarLike.size v := by
  rcases hv with hv | ⟨q, rfl, _⟩
  · exact isVector_pos (by norm_num) hv
  · exact Nat.succ_pos _

/-- At such points the factor and its variables have positive sizes. -/
theorem smooth_sizes {h : Heap RVar} {f : Factor ℝ RVar} (hf : SmoothPoint h f) :
    0 < f.residualSize ∧ ∀ r, some r ∈ f.variables → 0 < VarLike.size (h r) := by
  cases hf with
  | @genericPrior n y p id r sigma hn hv hc =>
    refine ⟨by simpa [genericPrior, length_toList] using hn, fun s hs => ?_⟩
    obtain rfl : s = r := by simpa [genericPrior] using hs
    exact isVector_pos hn hv
  | @genericBetween n xa xb xm id a b m sigma hn ha hb hm _ _ _ =>
    refine ⟨by simpa [genericBetween] using hn, fun s hs => ?_⟩
    have : s = a ∨ s = b ∨ s = m := by simpa [genericBetween] using hs
    rcases this with rfl | rfl | rfl
    · exact isVector_pos hn ha
    · exact isVector_pos hn hb
    · exact isVector_pos hn hm
  | @posePositionPrior v id p prior sigma hp =>
    refine ⟨Nat.succ_pos _, fun s hs => ?_⟩
    obtain rfl : s = p := by simpa [Fac.posePositionPrior] using hs
    rw [hp]; exact Nat.succ_pos _
  | @poseOrientationPrior v id p prior sigma hp =>
    refine ⟨Nat.succ_pos _, fun s hs => ?_⟩
    obtain rfl : s = p := by simpa [Fac.poseOrientationPrior] using hs
    rw [hp]; exact Nat.succ_pos _
  | @rotationPrior v id p prior sigma hp =>
    refine ⟨Nat.succ_pos _, fun s hs => ?_⟩
    obtain rfl : s = p := by simpa [Fac.rotationPrior] using hs
    rw [hp]; exact Nat.succ_pos _
  | @posePositionBetween va vb y id a b m sigma localFrame ha hb hm =>
    refine ⟨Nat.succ_pos _, fun s hs => ?_⟩
    have : s = a ∨ s = b ∨ s = m := by simpa [Fac.posePositionBetween] using hs
    rcases this with rfl | rfl | rfl
    · rw [ha]; exact Nat.succ_pos _
    · rw [hb]; exact Nat.succ_pos _
    · exact isVector_pos (by norm_num) hm
  | @poseOrientationBetween va vb y id a b m sigma ha hb hm =>
    refine ⟨Nat.succ_pos _, fun s hs => ?_⟩
    have : s = a ∨ s = b ∨ s = m := by simpa [Fac.poseOrientationBetween] using hs
    rcases this with rfl | rfl | rfl
    · rw [ha]; exact Nat.succ_pos _
    · rw [hb]; exact Nat.succ_pos _
    · rw [hm]; exact Nat.succ_pos _
  | @bearingObservation v q pw id p l bearing sigma hp hl =>
    refine ⟨Nat.succ_pos _, fun s hs => ?_⟩
    have : s = p ∨ s = l := by simpa [Fac.bearingObservation] using hs
    rcases this with rfl | rfl
    · rw [hp]; exact Nat.succ_pos _
    · rw [hl]; exact Nat.succ_pos _
  | @inverseRangeBearing v q id p l bearing sigma hp hl =>
    refine ⟨Nat.succ_pos _, fun s hs => ?_⟩
    have : s = p ∨ s = l := by simpa [Fac.inverseRangeBearing] using hs
    rcases this with rfl | rfl
    · rw [hp]; exact Nat.succ_pos _
    · rw [hl]; exact Nat.succ_pos _
  | @bearingProjection v q pw id p l bearing sigma tol hp hl =>
    refine ⟨Nat.succ_pos _, fun s hs => ?_⟩
    have : s = p ∨ s = l := by simpa [Fac.bearingProjection] using hs
    rcases this with rfl | rfl
    · rw [hp]; exact Nat.succ_pos _
    · rw [hl]; exact Nat.succ_pos _
  | @bearing2D v y id p l obs sigma hp hl =>
    refine ⟨Nat.succ_pos _, fun s hs => ?_⟩
    have : s = p ∨ s = l := by simpa [Fac.bearing2D] using hs
    rcases this with rfl | rfl
    · rw [hp]; exact Nat.succ_pos _
    · exact isVector_pos (by norm_num) hl
  | @rangeBearing2D v y id p l range obs rs bs hp hl =>
    refine ⟨Nat.succ_pos _, fun s hs => ?_⟩
    have : s = p ∨ s = l := by simpa [Fac.rangeBearing2D] using hs
    rcases this with rfl | rfl
    · rw [hp]; exact Nat.succ_pos _
    · exact isVector_pos (by norm_num) hl
  | @pose2DPrior v id p prior ps as hp =>
    refine ⟨Nat.succ_pos _, fun s hs => ?_⟩
    obtain rfl : s = p := by simpa [Fac.pose2DPrior] using hs
    rw [hp]; exact Nat.succ_pos _
  | @pose2DBetween va vb y id a b m ps as localFrame ha hb hm =>
    refine ⟨Nat.succ_pos _, fun s hs => ?_⟩
    have : s = a ∨ s = b ∨ s = m := by simpa [Fac.pose2DBetween] using hs
    rcases this with rfl | rfl | rfl
    · rw [ha]; exact Nat.succ_pos _
    · rw [hb]; exact Nat.succ_pos _
    · exact measured_pos hm
  | @plane v y id p l sigma hl hn hp =>
    refine ⟨Nat.succ_pos _, fun s hs => ?_⟩
    have : s = p ∨ s = l := by simpa [Fac.planeFactor] using hs
    rcases this with rfl | rfl
    · exact isVector_pos (by norm_num) hp
    · rw [hl]; exact Nat.succ_pos _
  | @planeScaled v y id p l sigma r0 p0 hl hn hp =>
    refine ⟨Nat.one_pos, fun s hs => ?_⟩
    have : s = p ∨ s = l := by simpa [Fac.planeFactor] using hs
    rcases this with rfl | rfl
    · exact isVector_pos (by norm_num) hp
    · rw [hl]; exact Nat.succ_pos _
  | @planePrior v id l n0 d0 ns ds hl =>
    refine ⟨Nat.succ_pos _, fun s hs => ?_⟩
    obtain rfl : s = l := by simpa [Fac.planePrior] using hs
    rw [hl]; exact Nat.succ_pos _
  | @linearVelocity n x1 x2 u id v1 v2 vel dt sigma i hn h1 h2 hu =>
    refine ⟨by simpa [Fac.linearVelocity] using hn, fun s hs => ?_⟩
    have : s = v1 ∨ s = v2 ∨ s = vel := by simpa [Fac.linearVelocity] using hs
    rcases this with rfl | rfl | rfl
    · exact part_pos hn h1
    · exact part_pos hn h2
    · exact isVector_pos hn hu
  | @coordinateTransform v o s a b id rot org sc la lb sigma hv =>
    obtain ⟨h1, ⟨g1, h2, e2⟩, ⟨g2, h3, e3⟩, ⟨l1, h4, e4⟩, ⟨l2, h5, e5⟩⟩ := hv
    refine ⟨Nat.succ_pos _, fun s hs => ?_⟩
    have : s = rot ∨ s = org ∨ s = sc ∨ s = la ∨ s = lb := by simpa [Fac.coordinateTransform] using hs
    rcases this with rfl | rfl | rfl | rfl | rfl
    · rw [h1]; exact Nat.succ_pos _
    · rw [h2]; show 0 < g1.value.length; rw [e2, length_toList]; norm_num
    · rw [h3]; show 0 < g2.value.length; rw [e3]; norm_num
    · rw [h4]; exact Nat.succ_pos _
    · rw [h5]; exact Nat.succ_pos _

/-- Such a factor is a factor of the library with variables of the declared classes. -/
theorem smooth_built {h : Heap RVar} {f : Factor ℝ RVar} (hf : SmoothPoint h f) : ∃ c, Built h c f := by
  cases hf with
  | @genericPrior n y p id r sigma hn hv hc =>
    exact ⟨_, .genericPrior _ _ _ _ (by rw [length_toList, (vector_value hv).2])⟩
  | genericBetween id a b m sigma hn ha hb hm =>
    exact ⟨_, .genericBetween _ _ _ _ _ _ (vector_value ha).2 (vector_value hb).2 (vector_value hm).2⟩
  | posePositionPrior id p prior sigma hp => exact ⟨_, .posePositionPrior _ _ _ _ hp⟩
  | poseOrientationPrior id p prior sigma hp => exact ⟨_, .poseOrientationPrior _ _ _ _ hp⟩
  | rotationPrior id r prior sigma hr => exact ⟨_, .rotationPrior _ _ _ _ hr⟩
  | posePositionBetween id a b m sigma localFrame ha hb hm =>
    exact ⟨_, .posePositionBetween _ _ _ _ _ _ ha hb (vector_value hm).2⟩
  | poseOrientationBetween id p1 p2 c sigma h1 h2 hc => exact ⟨_, .poseOrientationBetween _ _ _ _ _ h1 h2 hc⟩
  | bearingObservation id p l bearing sigma hp hl => exact ⟨_, .bearingObservation _ _ _ _ _ hp hl⟩
  | inverseRangeBearing id p r bearing sigma hp hr => exact ⟨_, .inverseRangeBearing _ _ _ _ _ hp hr⟩
  | bearingProjection id p l bearing sigma tol hp hl => exact ⟨_, .bearingProjection _ _ _ _ _ _ hp hl⟩
  | bearing2D id p l obs sigma hp hl => exact ⟨_, .bearing2D _ _ _ _ _ hp (vector_value hl).2⟩
  | rangeBearing2D id p l range obs rs bs hp hl => exact ⟨_, .rangeBearing2D _ _ _ _ _ _ _ hp (vector_value hl).2⟩
  | pose2DPrior id p prior ps as hp => exact ⟨_, .pose2DPrior _ _ _ _ _ hp⟩
  | pose2DBetween id a b m ps as localFrame ha hb hm =>
    refine ⟨_, .pose2DBetween _ _ _ _ _ _ _ ha hb ?_⟩
    rcases hm with hm | ⟨q, hq, _⟩
    · exact (vector_value hm).2
    · rw [hq]; rfl
  | plane id p l sigma hl hn hp => exact ⟨_, .plane _ _ _ _ _ (vector_value hp).2 hl⟩
  | planeScaled id p l sigma r0 p0 hl hn hp => exact ⟨_, .plane _ _ _ _ _ (vector_value hp).2 hl⟩
  | planePrior id l n0 d0 ns ds hl => exact ⟨_, .planePrior _ _ _ _ _ _ hl⟩
  | linearVelocity id v1 v2 vel dt sigma i hn h1 h2 hu => exact ⟨_, .linearVelocity _ _ _ _ _ _ _ _ (vector_value hu).2⟩
  | coordinateTransform id rot org sc la lb sigma hv =>
    obtain ⟨h1, ⟨g1, h2, e2⟩, ⟨g2, h3, e3⟩, ⟨l1, h4, e4⟩, ⟨l2, h5, e5⟩⟩ := hv
    exact ⟨_, .coordinateTransform _ _ _ _ _ _ _ h1 h2 h3 h4 h5 (by rw [e2, length_toList]) (by rw [e3]; rfl)⟩

/-- **C68**. In a finalized graph of library variables in canonical states whose factors are at points of
differentiability, the residual and the dense Jacobian evaluate, and the Jacobian is the derivative at zero of the full
residual vector as a function of the vector `dx` passed to `apply_increment`. -/
theorem C68_derivative {h0 : Heap RVar} {pre post : List (Op ℝ RVar × Res Unit)} {w : World ℝ RVar}
    (hw : FinalizedAfter h0 pre post w) (hpre : NoJacobianYet pre)
    (hid : IdsIdentify w.heap w.graph.getAllVariables w.graph.getAllFactors) (hnr : NoRepeats w.graph.getAllFactors)
    (hsmooth : ∀ f ∈ w.graph.getAllFactors, SmoothPoint w.heap f)
    (hvars : ∀ r ∈ w.graph.getAllVariables, VarLike.isConst (w.heap r) = false →
      (Reachable (w.heap r) ∨ ∃ v, w.heap r = .rotation v) ∧ Canonical (w.heap r))
    (env : Env ℝ RVar) :
    ∃ g' J, computeDense env w.heap w.graph = (g', .ok J) ∧
      ∃ Φ : (Fin J.cols → ℝ) → (Fin J.rows → ℝ),
        (computeResidual env w.heap w.graph).2 = .ok (List.ofFn (Φ 0)) ∧
        (∀ᶠ dx in 𝓝 0, ∃ w', World.step env (.applyIncrement (List.ofFn dx)) w = (w', .ok ()) ∧
          (computeResidual env w'.heap w'.graph).2 = .ok (List.ofFn (Φ dx))) ∧
        HasFDerivAt Φ (jac (Matrix.of fun i j => J.entry i j)) 0 :=
  C68_joint hw hpre hid hnr (fun f hf => jacobians_correct (hsmooth f hf)) (fun f hf => jointly_differentiable (hsmooth f hf))
    (fun f hf => smooth_sizes (hsmooth f hf)) (fun f hf => (smooth_built (hsmooth f hf)).elim fun _ hb => C68_reads _ _ _ hb)
    hvars env

/-- All hypotheses hold for a planar pose at the origin that observes a landmark at `(3, 4)`. -/
example : ∃ g' J, computeDense (PlanarWorld.env 3) (PlanarWorld.world ![0, 0] 0 3 4 ![1, 1, 1] 4 0 1).heap
      (PlanarWorld.world ![0, 0] 0 3 4 ![1, 1, 1] 4 0 1).graph = (g', .ok J) := by
  have hp : PlanarWorld.heap ![0, 0] 0 3 4 0 = .pose2d ⟨1, false, ![0, 0], 0⟩ := rfl
  have hl : IsVector (PlanarWorld.heap ![0, 0] 0 3 4 1) ![3, 4] := .inl ⟨_, rfl, by simp [toList, List.ofFn_succ]⟩
  have hdl : Fac.deltaLocal ⟨1, false, ![0, 0], 0⟩ ![3, 4] = ![3, 4] := by
    funext i; fin_cases i <;> simp [Fac.deltaLocal, Pose2DVar.dcm, Matrix.mulVec, dotProduct, Fin.sum_univ_two]
  have hpi := Real.pi_gt_three
  have hthree : wrapAngle (atan2 4 3 - 0) < Real.pi := by
    have h1 : |Complex.arg ⟨3, 4⟩| < Real.pi / 2 := Complex.abs_arg_lt_pi_div_two_iff.2 (.inl (by norm_num))
    have h2 := abs_lt.1 h1
    rw [sub_zero, atan2, wrap_of_mem (by linarith) (by linarith)]
    linarith
  obtain ⟨g', J, h1, _⟩ := C68_derivative (PlanarWorld.finalizedAfter ![0, 0] 0 3 4 ![1, 1, 1] 4 0 1)
    (PlanarWorld.noJacobianYet _ _ _ _ _ _ _ _) (PlanarWorld.identify _ _ _ _ _ _ _ _) (PlanarWorld.noRepeats _ _ _ _ _ _ _ _)
    (by
      rw [PlanarWorld.facs_eq, PlanarWorld.heap_eq]
      intro f hf
      simp only [PlanarWorld.facs, List.mem_cons, List.not_mem_nil, or_false] at hf
      rcases hf with rfl | rfl
      · exact .pose2DPrior _ _ _ _ _ hp (by
          show wrapAngle (0 - 1) < Real.pi
          rw [wrap_of_mem (by linarith) (by linarith)]; linarith)
      · exact .rangeBearing2D _ _ _ _ _ _ _ hp hl (by
          rw [hdl, length_eq, vnorm2]
          have : (1e-9 : ℝ) ≤ √(25 : ℝ) := Real.le_sqrt_of_sq_le (by norm_num)
          refine this.trans (le_of_eq ?_)
          congr 1
          simp
          norm_num) (by rw [hdl]; exact hthree))
    (by
      rw [PlanarWorld.vars_eq, PlanarWorld.heap_eq]
      intro r hr _
      simp only [List.mem_cons, List.not_mem_nil, or_false] at hr
      rcases hr with rfl | rfl
      · refine ⟨.inl ?_, trivial⟩
        rw [hp]
        have : Pose2DVar.make 1 ![0, 0] 0 = ⟨1, false, ![0, 0], 0⟩ := by
          rw [Pose2DVar.make, wrap_of_mem (by linarith) (by linarith)]
        rw [← this]
        exact .pose2d (.make _ _ _)
      · exact ⟨.inl (.generic _), trivial⟩)
    (PlanarWorld.env 3)
  exact ⟨g', J, h1⟩

end Factorama.Props
