import Verif.Lemmas.FrameTurn
import Verif.Lemmas.CorrespondWhileDamped
import Verif.Props.Frame
import Verif.Examples.SightWorld

/-!
# Property C105: the choice of the world frame does not matter for the estimates, rotations in space
-/

namespace Factorama.Props
open Spec Graph Opt Matrix Geo

/-! ### Where it fails -/

/-- **C105 is false** of rotations in space whose changes are tiny. A pose with the identity as its rotation does not turn when
`apply_increment` is given a rotation by `1e-9`; described in another world frame the same pose, given the same increment,
does turn. -/
theorem C105_turn_false : ¬ ∀ (W : M3) (v v' w w' : PoseVar) (dp dw : V3), IsRotation W → PoseReachable v → PoseReachable v' →
    RotatedVar W 0 .pose (.pose v) (.pose v') → v.applyIncr (incr6 dp dw) = .ok w → v'.applyIncr (incr6 (W *ᵥ dp) dw) = .ok w' →
    RotatedVar W 0 .pose (.pose w) (.pose w') := by
  intro H
  have hx : (![1, 0, 0] : V3) ⬝ᵥ ![1, 0, 0] = 1 := by simp
  have hz : (![0, 0, 1] : V3) ⬝ᵥ ![0, 0, 1] = 1 := by simp
  have hd : (PoseVar.make 1 0 0).dcm = 1 := dcmOf_small (by rw [vnorm_eq_zero.mpr rfl]; norm_num)
  have hd' : (PoseVar.make 1 0 ((1 : ℝ) • ![0, 0, 1])).dcm = rodrigues ![0, 0, 1] 1 := by
    show PoseVar.dcmOf _ = _
    rw [dcmOf_exp (by rw [vnorm_smul, vnorm_unit hz]; norm_num), exp_of_axis hz (by norm_num)]
  have hE : expSO3 ((1e-9 : ℝ) • ![1, 0, 0]) = rodrigues ![1, 0, 0] 1e-9 := exp_of_axis hx (by norm_num)
  have hE0 : ‖(1e-9 : ℝ)‖ = 1e-9 := by norm_num
  have hlen : length ((1e-9 : ℝ) • ![1, 0, 0]) = 1e-9 := by
    rw [length_eq, vnorm_smul, vnorm_unit hx, abs_of_pos (by norm_num), mul_one]
  have hr' := rodrigues_rotation hz 1
  have hprod := rotation_mul (rodrigues_rotation hx 1e-9) hr'
  have hang : 1e-5 ≤ angle (rodrigues ![1, 0, 0] 1e-9 * rodrigues ![0, 0, 1] 1) := by
    have hcos := cos_angle (IsRotation.eqs hprod)
    have htr : Real.cos (angle (rodrigues ![1, 0, 0] 1e-9 * rodrigues ![0, 0, 1] 1)) ≤ Real.cos 1 := by
      rw [hcos]
      have c1 := Real.cos_le_one (1e-9)
      have c2 := Real.neg_one_le_cos 1
      simp [Matrix.trace, rodrigues, skew, Matrix.mul_apply, Fin.sum_univ_three, Matrix.one_apply]
      norm_num at c1 ⊢
      nlinarith
    by_contra hlt
    push Not at hlt
    have := Real.cos_lt_cos_of_nonneg_of_le_pi (angle_nonneg _) (by linarith [Real.pi_gt_three] : (1 : ℝ) ≤ Real.pi)
      (lt_trans hlt (by norm_num))
    linarith
  obtain ⟨w, h1, _, h3⟩ := C37_stuck (PoseVar.make 1 0 0) hd 0 ((1e-9 : ℝ) • ![1, 0, 0]) (by rw [hlen]; norm_num)
  obtain ⟨w', g1, _, g3⟩ := C37_increment_partial (PoseVar.make 1 0 ((1 : ℝ) • ![0, 0, 1])) (.make 1 0 _) 0 ((1e-9 : ℝ) • ![1, 0, 0])
    (.inr (by rw [hlen]; norm_num)) (by rw [hd', hE]; exact hang)
  have hW := transpose_rotation hr'
  have h := H (rodrigues ![0, 0, 1] 1)ᵀ _ _ w w' 0 ((1e-9 : ℝ) • ![1, 0, 0]) hW (.make 1 0 0) (.make 1 0 ((1 : ℝ) • ![0, 0, 1]))
    (.pose _ _ rfl rfl (by show (0 : V3) = _; rw [show (PoseVar.make 1 0 0).pos = 0 from rfl, mulVec_zero, add_zero])
      (by rw [hd, hd', Matrix.one_mul, Matrix.transpose_transpose])) h1 (by rw [mulVec_zero]; exact g1)
  have e : w'.dcm = w.dcm * (rodrigues ![0, 0, 1] 1)ᵀᵀ := by
    cases h with
    | pose _ _ _ _ _ h4 => exact h4
  rw [h3, g3, hd', hE, Matrix.one_mul, Matrix.transpose_transpose] at e
  have e : rodrigues ![1, 0, 0] 1e-9 = 1 := by
    have := congrArg (· * (rodrigues ![0, 0, 1] 1)ᵀ) e
    simpa only [Matrix.mul_assoc, hr'.1, Matrix.mul_one] using this
  have := congrArg (fun M => anti M 0) e
  simp only [anti_rodrigues hx] at this
  simp [anti] at this
  have hs : 0 < Real.sin 1e-9 := Real.sin_pos_of_pos_of_lt_pi (by norm_num) (by linarith [Real.pi_gt_three])
  norm_num at this hs
  linarith

/-! ### What holds -/

section
variable {Fact : Type} {L : LinAlg ℝ Fact}

/-- Two optimizers whose graphs describe the same problem in space, the second one in a world frame turned by `W` and then
shifted by `a`. -/
structure C105.Turned (W : M3) (a : V3) (role : VRef → TurnRole) (s s' : OptWorld ℝ RVar Fact) : Prop where
  heap : ∀ r, RotatedVar W a (role r) (s.heap r) (s'.heap r)
  vars : s'.graph.getAllVariables = s.graph.getAllVariables
  facs : List.Forall₂ (RotatedFactor W a role) s.graph.getAllFactors s'.graph.getAllFactors

/-- **C105, the part that holds**, rotations in space: cost and linear system. For any values of the variables, described in
two world frames, the cost is the same, and the matrix and the gradient of the normal equations are the same in other
orthonormal coordinates. No condition on the rotations is needed. Missing: planes that are estimated, and the factors not in
`RotatedFactor`. -/
theorem C105_turn_system_partial {W : M3} (hW : IsRotation W) {a : V3} {role : VRef → TurnRole} {facs facs' : List (Factor ℝ RVar)}
    (hf : List.Forall₂ (RotatedFactor W a role) facs facs') {vars : List VRef} (hnd : vars.Nodup) (h h' : Heap RVar)
    (hh : ∀ r, RotatedVar W a (role r) (h r) (h' r)) (r r' : List ℝ) (J J' : SpMat ℝ) (hlin : Linearised h vars facs r J)
    (hlin' : Linearised h' vars facs' r' J') :
    realArith.sqNorm r' = realArith.sqNorm r ∧
    ∃ B : Matrix (Fin J'.columns.length) (Fin J.columns.length) ℝ, Bᵀ * B = 1 ∧ B * Bᵀ = 1 ∧
      ((jacobianMatrix J')ᵀ * jacobianMatrix J') * B = B * ((jacobianMatrix J)ᵀ * jacobianMatrix J) ∧
      gradient J' r' = B *ᵥ gradient J r := by
  have hc := rotated_correspond hW hf hnd
  obtain ⟨B, b1, b2, b3, b4, _⟩ := hc.step h h' r r' J J' hh hlin hlin'
  rw [one_pow, one_smul] at b3 b4
  exact ⟨by simpa using hc.cost h h' r r' hh hlin.residual hlin'.residual, B, b1, b2, b3, b4⟩

/-- **C105, the part that holds**, rotations in space, Gauss-Newton. Two graphs describe the same problem, the second one in a
world frame turned by `W` and shifted by `a`. With an exact solver, when neither `optimize()` call reports a refused system or
a failure and in both runs the rotations of poses are updated exactly, the estimates of the second are those of the first
turned and shifted, and all statistics are the same. Without that condition the claim is false (`C105_turn_false`);
`C105_turns_exactly` says when it holds. Missing: planes that are estimated, and the factors not in `RotatedFactor`. -/
theorem C105_turn_gauss_newton_partial {W : M3} (hW : IsRotation W) {a : V3} {role : VRef → TurnRole} (hL : ExactLinAlg L)
    (env env' : Env ℝ RVar) (s s' : OptWorld ℝ RVar Fact) (hp : Prepared s) (hp' : Prepared s') (hre : C105.Turned W a role s s')
    (hset : s'.opt.settings = s.opt.settings) (hm : s.opt.settings.method = .gaussNewton) (r0 r0' : List ℝ)
    (hr : (Graph.computeResidual env s.heap s.graph).2 = .ok r0)
    (hr' : (Graph.computeResidual env' s'.heap s'.graph).2 = .ok r0')
    (hG : ∀ k s1 s2 d, Iterations realArith L env k (loopStart realArith env s r0) s1 → oneStep realArith L env s1 = (s2, .ok ()) →
      Stepped s1.heap s2.heap s.graph.getAllVariables d → StepsAre TurnsExactly s1.heap s2.heap s.graph.getAllVariables d)
    (hG' : ∀ k s1 s2 d, Iterations realArith L env' k (loopStart realArith env' s' r0') s1 → oneStep realArith L env' s1 = (s2, .ok ()) →
      Stepped s1.heap s2.heap s'.graph.getAllVariables d → StepsAre TurnsExactly s1.heap s2.heap s'.graph.getAllVariables d)
    (t t' : OptWorld ℝ RVar Fact)
    (hret : optimize realArith L env s = (t, .ok ())) (hret' : optimize realArith L env' s' = (t', .ok ()))
    (hst : t.opt.stats.status = .success ∨ t.opt.stats.status = .diverged)
    (hst' : t'.opt.stats.status = .success ∨ t'.opt.stats.status = .diverged) :
    (∀ r, RotatedVar W a (role r) (t.heap r) (t'.heap r)) ∧ t'.opt.stats = t.opt.stats := by
  rw [← C105.scaled_one t.opt.stats]
  refine Spec.CorrespondWhile.gaussNewton one_pos (G := TurnsExactly) (H := fun x x' => ∀ r, RotatedVar W a (role r) (x r) (x' r)) hL
    env env' s s' hp hp' ?_ hre.heap (by rw [hset]; simp [scaledSettings]) hm r0 r0' hr hr' hG hG' t t' hret hret' hst hst'
  rw [hre.vars]
  exact rotated_correspond hW hre.facs (C105.nodup hp)

/-- **C105, the part that holds**, rotations in space, Levenberg-Marquardt, for problems that stay well conditioned: as
`C105_turn_gauss_newton_partial`, with the condition on rotations for all steps that are tried, also for those that are taken
back. -/
theorem C105_turn_levenberg_marquardt_partial {W : M3} (hW : IsRotation W) {a : V3} {role : VRef → TurnRole}
    (hL : ExactLinAlg L) (hP : ExactPivots L)
    (env env' : Env ℝ RVar) (s s' : OptWorld ℝ RVar Fact) (hp : Prepared s) (hp' : Prepared s') (hre : C105.Turned W a role s s')
    (hset : s'.opt.settings = s.opt.settings) (hm : s.opt.settings.method = .levenbergMarquardt)
    (hgood : ∀ r ∈ s.graph.getAllVariables, Reachable (s.heap r)) (hgood' : ∀ r ∈ s'.graph.getAllVariables, Reachable (s'.heap r))
    (hini : 0 < s.opt.settings.initialLambda) (hup : 0 < s.opt.settings.lambdaUp)
    (hmax : 0 < s.opt.settings.maxLambda) (hfree : 0 < freeTotal s.heap s.graph.getAllVariables) (r0 r0' : List ℝ)
    (hr : (Graph.computeResidual env s.heap s.graph).2 = .ok r0)
    (hr' : (Graph.computeResidual env' s'.heap s'.graph).2 = .ok r0')
    (hwell : ∀ k s1 r J, Iterations realArith L env k (loopStart realArith env s r0) s1 →
      Linearised s1.heap s.graph.getAllVariables s.graph.getAllFactors r J → WellConditioned J)
    (hG : TriesAre L env s r0 TurnsExactly) (hG' : TriesAre L env' s' r0' TurnsExactly) (t t' : OptWorld ℝ RVar Fact)
    (hret : optimize realArith L env s = (t, .ok ())) (hret' : optimize realArith L env' s' = (t', .ok ()))
    (hst : t.opt.stats.status = .success ∨ t.opt.stats.status = .diverged)
    (hst' : t'.opt.stats.status = .success ∨ t'.opt.stats.status = .diverged) :
    (∀ r, RotatedVar W a (role r) (t.heap r) (t'.heap r)) ∧ t'.opt.stats = t.opt.stats := by
  have hfree' : 0 < freeTotal s'.heap s'.graph.getAllVariables := by
    have e : freeTotal s'.heap s.graph.getAllVariables = freeTotal s.heap s.graph.getAllVariables := by
      unfold freeTotal freeSize
      congr 2
      funext r
      rw [(rotatedVar_shape (hre.heap r)).1, (rotatedVar_shape (hre.heap r)).2]
    rw [hre.vars, e]; exact hfree
  refine Spec.CorrespondWhile.levenbergMarquardt (G := TurnsExactly)
    (H := fun h h' => ∀ r, RotatedVar W a (role r) (h r) (h' r)) hL hP env env' s s' hp hp' ?_ hre.heap hset hm
    (fun _ => ⟨_, C41_partial, hgood⟩) (fun _ => ⟨_, C41_partial, hgood'⟩) hini hup hmax hfree hfree' r0 r0' hr hr' hwell hG hG'
    t t' hret hret' hst hst'
  rw [hre.vars]
  exact rotated_correspond hW hre.facs (C105.nodup hp)

/-- **C105, the part that holds**, rotations in space with known poses, Gauss-Newton. As `C105_turn_gauss_newton_partial` for
graphs in which the poses are constant, without a condition on the course of the runs: known cameras and what they see. -/
theorem C105_turn_known_gauss_newton_partial {W : M3} (hW : IsRotation W) {a : V3} {role : VRef → TurnRole} (hL : ExactLinAlg L)
    (env env' : Env ℝ RVar) (s s' : OptWorld ℝ RVar Fact) (hp : Prepared s) (hp' : Prepared s') (hre : C105.Turned W a role s s')
    (hknown : ∀ r, role r = .pose → VarLike.isConst (s.heap r) = true)
    (hset : s'.opt.settings = s.opt.settings) (hm : s.opt.settings.method = .gaussNewton) (r0 r0' : List ℝ)
    (hr : (Graph.computeResidual env s.heap s.graph).2 = .ok r0)
    (hr' : (Graph.computeResidual env' s'.heap s'.graph).2 = .ok r0') (t t' : OptWorld ℝ RVar Fact)
    (hret : optimize realArith L env s = (t, .ok ())) (hret' : optimize realArith L env' s' = (t', .ok ()))
    (hst : t.opt.stats.status = .success ∨ t.opt.stats.status = .diverged)
    (hst' : t'.opt.stats.status = .success ∨ t'.opt.stats.status = .diverged) :
    (∀ r, RotatedVar W a (role r) (t.heap r) (t'.heap r)) ∧ t'.opt.stats = t.opt.stats := by
  rw [← C105.scaled_one t.opt.stats]
  have := Spec.Correspond.gaussNewton one_pos
    (H := fun h h' => ∀ r, RotatedVar W a (role r) (h r) (h' r) ∧ (role r = .pose → VarLike.isConst (h r) = true)) hL env env' s s' hp hp'
    (by rw [hre.vars]; exact rotated_known_correspond hW hre.facs (C105.nodup hp)) (fun r => ⟨hre.heap r, hknown r⟩)
    (by rw [hset]; simp [scaledSettings]) hm r0 r0' hr hr' t t' hret hret' hst hst'
  exact ⟨fun r => (this.1 r).1, this.2⟩

/-- **C105, the part that holds**, rotations in space with known poses, Levenberg-Marquardt, for problems that stay well
conditioned. -/
theorem C105_turn_known_levenberg_marquardt_partial {W : M3} (hW : IsRotation W) {a : V3} {role : VRef → TurnRole}
    (hL : ExactLinAlg L) (hP : ExactPivots L)
    (env env' : Env ℝ RVar) (s s' : OptWorld ℝ RVar Fact) (hp : Prepared s) (hp' : Prepared s') (hre : C105.Turned W a role s s')
    (hknown : ∀ r, role r = .pose → VarLike.isConst (s.heap r) = true)
    (hset : s'.opt.settings = s.opt.settings) (hm : s.opt.settings.method = .levenbergMarquardt)
    (hgood : ∀ r ∈ s.graph.getAllVariables, Reachable (s.heap r)) (hgood' : ∀ r ∈ s'.graph.getAllVariables, Reachable (s'.heap r))
    (hini : 0 < s.opt.settings.initialLambda) (hup : 0 < s.opt.settings.lambdaUp)
    (hmax : 0 < s.opt.settings.maxLambda) (hfree : 0 < freeTotal s.heap s.graph.getAllVariables) (r0 r0' : List ℝ)
    (hr : (Graph.computeResidual env s.heap s.graph).2 = .ok r0)
    (hr' : (Graph.computeResidual env' s'.heap s'.graph).2 = .ok r0')
    (hwell : ∀ k s1 r J, Iterations realArith L env k (loopStart realArith env s r0) s1 →
      Linearised s1.heap s.graph.getAllVariables s.graph.getAllFactors r J → WellConditioned J) (t t' : OptWorld ℝ RVar Fact)
    (hret : optimize realArith L env s = (t, .ok ())) (hret' : optimize realArith L env' s' = (t', .ok ()))
    (hst : t.opt.stats.status = .success ∨ t.opt.stats.status = .diverged)
    (hst' : t'.opt.stats.status = .success ∨ t'.opt.stats.status = .diverged) :
    (∀ r, RotatedVar W a (role r) (t.heap r) (t'.heap r)) ∧ t'.opt.stats = t.opt.stats := by
  have hfree' : 0 < freeTotal s'.heap s'.graph.getAllVariables := by
    have e : freeTotal s'.heap s.graph.getAllVariables = freeTotal s.heap s.graph.getAllVariables := by
      unfold freeTotal freeSize
      congr 2
      funext r
      rw [(rotatedVar_shape (hre.heap r)).1, (rotatedVar_shape (hre.heap r)).2]
    rw [hre.vars, e]; exact hfree
  have := Spec.Correspond.levenbergMarquardt
    (H := fun h h' => ∀ r, RotatedVar W a (role r) (h r) (h' r) ∧ (role r = .pose → VarLike.isConst (h r) = true)) hL hP env env' s s' hp hp'
    (by rw [hre.vars]; exact rotated_known_correspond hW hre.facs (C105.nodup hp)) (fun r => ⟨hre.heap r, hknown r⟩) hset hm
    (fun _ => ⟨_, C41_partial, hgood⟩) (fun _ => ⟨_, C41_partial, hgood'⟩) hini hup hmax hfree hfree' r0 r0' hr hr' hwell
    t t' hret hret' hst hst'
  exact ⟨fun r => (this.1 r).1, this.2⟩

/-- **C105**: when rotations are updated exactly. An increment whose rotation is zero or at least `1e-10` long, applied to a pose
that is turned by at least `1e-5` afterwards. -/
theorem C105_turns_exactly (v : PoseVar) (hv : PoseReachable v) (dp dw : V3) (hw : dw = 0 ∨ 1e-10 ≤ length dw)
    (ha : 1e-5 ≤ angle (expSO3 dw * v.dcm)) (w : RVar) (h : VarLike.applyIncr (RVar.pose v) (incr6 dp dw) = .ok w) :
    TurnsExactly (.pose v) (incr6 dp dw) w := by
  obtain ⟨v', h1, _, h3⟩ := C37_increment_partial v hv dp dw hw ha
  have e2 : read3 (incr6 dp dw) 3 = dw := by
    have := read3_second dp dw []; rwa [List.append_nil] at this
  simp only [VarLike.applyIncr, h1, Res.map] at h
  obtain rfl := Res.ok.inj h
  show v'.dcm = _
  rw [h3, e2]

end

/-! ### The hypotheses are met -/

namespace C105

/-- What the variables of the graph `space` stand for. -/
def turnRole : VRef → TurnRole
  | 0 => .pose
  | _ => .landmark

theorem space_turned (W : M3) (a : V3) (v v' : PoseVar) (hpos : v'.pos = W *ᵥ v.pos + a) (hdcm : v'.dcm = v.dcm * Wᵀ) (x m : V3) (R : M3)
    (hR : IsRotation R) (h1 : 1e-5 ≤ angle R) (h2 : 1e-5 ≤ angle (R * Wᵀ)) (b : V3) (σ : ℝ) (st : Settings ℝ) :
    Turned W a turnRole (space v x m R b σ st) (space v' (W *ᵥ x + a) (W *ᵥ m + a) (R * Wᵀ) b σ st) := by
  refine ⟨?_, ?_, ?_⟩
  · show ∀ r, RotatedVar W a (turnRole r) ((SpaceWorld.world v x m R b σ).heap r) ((SpaceWorld.world ..).heap r)
    rw [SpaceWorld.heap_eq, SpaceWorld.heap_eq]
    intro r
    match r with
    | 0 => exact .pose { v with id := 1, isConst := false } { v' with id := 1, isConst := false } rfl rfl hpos hdcm
    | _ + 1 => exact .landmark 2 false x
  · show (SpaceWorld.world ..).graph.getAllVariables = (SpaceWorld.world v x m R b σ).graph.getAllVariables
    rw [SpaceWorld.vars_eq, SpaceWorld.vars_eq]
  · show List.Forall₂ _ (SpaceWorld.world v x m R b σ).graph.getAllFactors (SpaceWorld.world ..).graph.getAllFactors
    rw [SpaceWorld.facs_eq, SpaceWorld.facs_eq]
    exact .cons (.posePositionPrior _ _ _ _ rfl) (.cons (.poseOrientationPrior _ _ _ _ rfl hR h1 h2)
      (.cons (.bearingObservation _ _ _ _ _ rfl rfl) .nil))

/-- An optimizer on the graph with a known pose and a landmark. -/
noncomputable def sight (v : PoseVar) (x m b : V3) (σ w : ℝ) (st : Settings ℝ) : OptWorld ℝ RVar (Ldlt.Fact ℝ) :=
  ⟨(SightWorld.world v x m b σ w).heap, (SightWorld.world v x m b σ w).graph,
    { Optimizer.init realArith with hasGraph := true, complete := true, settings := st }⟩

theorem sight_prepared (v : PoseVar) (x m b : V3) (σ w : ℝ) (st : Settings ℝ) : Prepared (sight v x m b σ w st) := by
  have hb : ∀ f ∈ SightWorld.facs m b σ w, (∃ c, Built (SightWorld.heap v x) c f) ∧ 0 < f.residualSize ∧
      ∀ r, some r ∈ f.variables → 0 < VarLike.size (SightWorld.heap v x r) := by
    intro f hf
    have hsz : ∀ r, 0 < VarLike.size (SightWorld.heap v x r) := by
      intro r
      match r with
      | 0 => exact Nat.succ_pos 5
      | _ + 1 => exact Nat.succ_pos 2
    simp only [SightWorld.facs, List.mem_cons, List.not_mem_nil, or_false] at hf
    rcases hf with rfl | rfl
    · exact ⟨⟨_, .bearingObservation _ _ _ _ _ rfl rfl⟩, Nat.succ_pos 2, fun r _ => hsz r⟩
    · exact ⟨⟨_, .genericPrior 13 1 (toList m) w (show (toList m).length = 3 by simp [toList])⟩, by simp [Factorama.genericPrior, toList], fun r _ => hsz r⟩
  refine ⟨⟨_, _, _, SightWorld.finalizedAfter v x m b σ w, SightWorld.noJacobianYet v x m b σ w⟩, SightWorld.identify v x m b σ w,
    SightWorld.noRepeats v x m b σ w, ?_, ?_, rfl⟩
  · show ∀ f ∈ (SightWorld.world v x m b σ w).graph.getAllFactors, ReuseSafe f
    rw [SightWorld.facs_eq]
    intro f hf
    obtain ⟨⟨c, hc⟩, _⟩ := hb f hf
    exact C57_reuse _ c f hc
  · show ∀ h, SameShape (SightWorld.world v x m b σ w).heap h → ∀ f ∈ (SightWorld.world v x m b σ w).graph.getAllFactors, _
    rw [SightWorld.facs_eq, SightWorld.heap_eq]
    intro h hs f hf js hj
    obtain ⟨⟨c, hc⟩, hz⟩ := hb f hf
    exact C57_proper hc hs hz hj

theorem sight_turned (W : M3) (a : V3) (v v' : PoseVar) (hpos : v'.pos = W *ᵥ v.pos + a) (hdcm : v'.dcm = v.dcm * Wᵀ) (x m b : V3)
    (σ w : ℝ) (st : Settings ℝ) :
    Turned W a turnRole (sight v x m b σ w st) (sight v' (W *ᵥ x + a) (W *ᵥ m + a) b σ w st) := by
  refine ⟨?_, ?_, ?_⟩
  · show ∀ r, RotatedVar W a (turnRole r) ((SightWorld.world v x m b σ w).heap r) ((SightWorld.world ..).heap r)
    rw [SightWorld.heap_eq, SightWorld.heap_eq]
    intro r
    match r with
    | 0 => exact .pose { v with id := 1, isConst := true } { v' with id := 1, isConst := true } rfl rfl hpos hdcm
    | _ + 1 => exact .landmark 2 false x
  · show (SightWorld.world ..).graph.getAllVariables = (SightWorld.world v x m b σ w).graph.getAllVariables
    rw [SightWorld.vars_eq, SightWorld.vars_eq]
  · show List.Forall₂ _ (SightWorld.world v x m b σ w).graph.getAllFactors (SightWorld.world ..).graph.getAllFactors
    rw [SightWorld.facs_eq, SightWorld.facs_eq]
    exact .cons (.bearingObservation _ _ _ _ _ rfl rfl) (.cons (.placePrior _ _ _ _ (.inl rfl)) .nil)

theorem sight_known (v : PoseVar) (x m b : V3) (σ w : ℝ) (st : Settings ℝ) :
    ∀ r, turnRole r = .pose → VarLike.isConst ((sight v x m b σ w st).heap r) = true := by
  show ∀ r, turnRole r = .pose → VarLike.isConst ((SightWorld.world v x m b σ w).heap r) = true
  rw [SightWorld.heap_eq]
  intro r hr
  match r with
  | 0 => rfl
  | _ + 1 => cases hr

end C105

/-- A landmark seen from a known pose, described in two frames, Gauss-Newton. -/
example (W : M3) (hW : IsRotation W) (a : V3) (v v' : PoseVar) (hpos : v'.pos = W *ᵥ v.pos + a) (hdcm : v'.dcm = v.dcm * Wᵀ)
    (x m b : V3) (σ w : ℝ) (env env' : Env ℝ RVar)
    (r0 r0' : List ℝ) (s s') (hs : s = C105.sight v x m b σ w (Settings.default realArith))
    (hs' : s' = C105.sight v' (W *ᵥ x + a) (W *ᵥ m + a) b σ w (Settings.default realArith))
    (hr : (Graph.computeResidual env s.heap s.graph).2 = .ok r0) (hr' : (Graph.computeResidual env' s'.heap s'.graph).2 = .ok r0')
    (t t' : OptWorld ℝ RVar (Ldlt.Fact ℝ)) (hret : optimize realArith Ldlt.linAlg env s = (t, .ok ()))
    (hret' : optimize realArith Ldlt.linAlg env' s' = (t', .ok ())) (hst : t.opt.stats.status = .success)
    (hst' : t'.opt.stats.status = .success) :
    (∃ id c, ∃ y : V3, t.heap 1 = .landmark ⟨id, c, toList y⟩ ∧ t'.heap 1 = .landmark ⟨id, c, toList (W *ᵥ y + a)⟩) ∧
      t'.opt.stats.chi2 = t.opt.stats.chi2 := by
  subst hs hs'
  obtain ⟨g1, g2⟩ := C105_turn_known_gauss_newton_partial hW Ldlt.exact env env' _ _ (C105.sight_prepared ..) (C105.sight_prepared ..)
    (C105.sight_turned W a v v' hpos hdcm x m b σ w _) (C105.sight_known _ _ _ _ _ _ _) rfl rfl r0 r0' hr hr' t t' hret hret' (.inl hst) (.inl hst')
  exact ⟨Rotated.landmark g1 (r := 1) rfl, by rw [g2]⟩

/-- The same with Levenberg-Marquardt. -/
example (W : M3) (hW : IsRotation W) (a : V3) (v v' : PoseVar) (hv : PoseReachable { v with id := 1, isConst := true })
    (hv' : PoseReachable { v' with id := 1, isConst := true }) (hpos : v'.pos = W *ᵥ v.pos + a) (hdcm : v'.dcm = v.dcm * Wᵀ)
    (x m b : V3) (σ w : ℝ) (env env' : Env ℝ RVar)
    (r0 r0' : List ℝ) (s s') (hs : s = C105.sight v x m b σ w { Settings.default realArith with method := .levenbergMarquardt })
    (hs' : s' = C105.sight v' (W *ᵥ x + a) (W *ᵥ m + a) b σ w { Settings.default realArith with method := .levenbergMarquardt })
    (hr : (Graph.computeResidual env s.heap s.graph).2 = .ok r0) (hr' : (Graph.computeResidual env' s'.heap s'.graph).2 = .ok r0')
    (hwell : ∀ k s1 r J, Iterations realArith Ldlt.linAlg env k (loopStart realArith env s r0) s1 →
      Linearised s1.heap s.graph.getAllVariables s.graph.getAllFactors r J → WellConditioned J)
    (t t' : OptWorld ℝ RVar (Ldlt.Fact ℝ)) (hret : optimize realArith Ldlt.linAlg env s = (t, .ok ()))
    (hret' : optimize realArith Ldlt.linAlg env' s' = (t', .ok ())) (hst : t.opt.stats.status = .success)
    (hst' : t'.opt.stats.status = .success) : ∀ r, RotatedVar W a (C105.turnRole r) (t.heap r) (t'.heap r) := by
  have good : ∀ (v : PoseVar) (x : V3), PoseReachable { v with id := 1, isConst := true } → ∀ r, Reachable (SightWorld.heap v x r) := by
    intro v x hv r
    match r with
    | 0 => exact .pose hv
    | _ + 1 => exact .landmark _
  subst hs hs'
  refine (C105_turn_known_levenberg_marquardt_partial hW Ldlt.exact Ldlt.exact_pivots env env' _ _ (C105.sight_prepared ..)
    (C105.sight_prepared ..) (C105.sight_turned W a v v' hpos hdcm x m b σ w _) (C105.sight_known _ _ _ _ _ _ _) rfl rfl ?_ ?_
    ?_ ?_ ?_ ?_ r0 r0' hr hr' hwell t t' hret hret' (.inl hst) (.inl hst')).1
  · show ∀ r ∈ _, Reachable ((SightWorld.world ..).heap r)
    rw [SightWorld.heap_eq]
    exact fun r _ => good _ _ hv r
  · show ∀ r ∈ _, Reachable ((SightWorld.world ..).heap r)
    rw [SightWorld.heap_eq]
    exact fun r _ => good _ _ hv' r
  · simp [C105.sight, Settings.default, realArith]
  · simp [C105.sight, Settings.default, realArith]
  · simp [C105.sight, Settings.default, realArith]
  · show 0 < freeTotal (SightWorld.world ..).heap (SightWorld.world ..).graph.getAllVariables
    rw [SightWorld.heap_eq, SightWorld.vars_eq]
    exact Nat.succ_pos 2

/-- The map of another survey, with unknown rotation, origin and scale: cost and linear system in two frames. -/
example (W : M3) (hW : IsRotation W) (a xo xa xb m : V3) (R : M3) (c w : ℝ) (h h' : Heap RVar)
    (hh : h = fun r => if r = 0 then .rotation (RotationVar.make 0 R) else if r = 1 then .generic ⟨1, false, toList xo⟩
      else if r = 2 then .generic ⟨2, false, [c]⟩ else if r = 3 then .landmark ⟨3, false, toList xa⟩ else .landmark ⟨4, false, toList xb⟩)
    (hh' : h' = fun r => if r = 0 then .rotation (RotationVar.make 0 (W * R)) else if r = 1 then .generic ⟨1, false, toList (W *ᵥ xo - a)⟩
      else if r = 2 then .generic ⟨2, false, [c]⟩ else if r = 3 then .landmark ⟨3, false, toList (W *ᵥ xa + a)⟩
      else .landmark ⟨4, false, toList xb⟩)
    (r r' : List ℝ) (J J' : SpMat ℝ)
    (hlin : Linearised h [0, 1, 2, 3, 4] [genericPrior 9 3 (toList m) 1, Fac.coordinateTransform 10 0 1 2 3 4 w] r J)
    (hlin' : Linearised h' [0, 1, 2, 3, 4] [genericPrior 9 3 (toList (W *ᵥ m + a)) 1, Fac.coordinateTransform 10 0 1 2 3 4 w] r' J') :
    realArith.sqNorm r' = realArith.sqNorm r := by
  refine (C105_turn_system_partial hW (a := a)
    (role := fun r => if r = 0 then .attitude else if r = 1 then .origin else if r = 3 then .landmark else .still)
    (.cons (.placePrior _ _ _ _ (.inl rfl)) (.cons (.coordinateTransform _ _ _ _ _ _ _ rfl rfl rfl rfl rfl) .nil))
    (by decide) h h' ?_ r r' J J' hlin hlin').1
  subst hh hh'
  intro r
  match r with
  | 0 => exact .attitude _ _ rfl rfl rfl
  | 1 => exact .origin _ _ _
  | 2 => exact .generic _
  | 3 => exact .landmark _ _ _
  | _ + 4 => exact .elsewhere _

/-- A pose with priors that sees a landmark, described in two frames: cost and gradient. -/
example (W : M3) (hW : IsRotation W) (a : V3) (v v' : PoseVar) (hpos : v'.pos = W *ᵥ v.pos + a) (hdcm : v'.dcm = v.dcm * Wᵀ) (x m : V3)
    (R : M3) (hR : IsRotation R) (h1 : 1e-5 ≤ angle R) (h2 : 1e-5 ≤ angle (R * Wᵀ)) (b : V3) (σ : ℝ) (r r' : List ℝ) (J J' : SpMat ℝ)
    (hlin : Linearised (SpaceWorld.heap v x) [0, 1] (SpaceWorld.facs m R b σ) r J)
    (hlin' : Linearised (SpaceWorld.heap v' (W *ᵥ x + a)) [0, 1] (SpaceWorld.facs (W *ᵥ m + a) (R * Wᵀ) b σ) r' J') :
    realArith.sqNorm r' = realArith.sqNorm r ∧ ∃ B : Matrix (Fin J'.columns.length) (Fin J.columns.length) ℝ, Bᵀ * B = 1 ∧
      gradient J' r' = B *ᵥ gradient J r := by
  have ht := C105.space_turned W a v v' hpos hdcm x m R hR h1 h2 b σ (Settings.default realArith)
  have e1 := ht.heap
  have e2 := ht.facs
  simp only [C105.space, SpaceWorld.heap_eq, SpaceWorld.facs_eq] at e1 e2
  obtain ⟨g1, B, g2, _, _, g3⟩ := C105_turn_system_partial hW e2 (by decide : [0, 1].Nodup) _ _ e1 r r' J J' hlin hlin'
  exact ⟨g1, B, g2, g3⟩

/-- The same problem, the estimates of Gauss-Newton. -/
example (W : M3) (hW : IsRotation W) (a : V3) (v v' : PoseVar) (hpos : v'.pos = W *ᵥ v.pos + a) (hdcm : v'.dcm = v.dcm * Wᵀ) (x m : V3)
    (R : M3) (hR : IsRotation R) (h1 : 1e-5 ≤ angle R) (h2 : 1e-5 ≤ angle (R * Wᵀ)) (b : V3) (σ : ℝ) (env env' : Env ℝ RVar)
    (r0 r0' : List ℝ) (s s') (hs : s = C105.space v x m R b σ (Settings.default realArith))
    (hs' : s' = C105.space v' (W *ᵥ x + a) (W *ᵥ m + a) (R * Wᵀ) b σ (Settings.default realArith))
    (hr : (Graph.computeResidual env s.heap s.graph).2 = .ok r0) (hr' : (Graph.computeResidual env' s'.heap s'.graph).2 = .ok r0')
    (hG : ∀ k s1 s2 d, Iterations realArith Ldlt.linAlg env k (loopStart realArith env s r0) s1 →
      oneStep realArith Ldlt.linAlg env s1 = (s2, .ok ()) → Stepped s1.heap s2.heap s.graph.getAllVariables d →
      StepsAre TurnsExactly s1.heap s2.heap s.graph.getAllVariables d)
    (hG' : ∀ k s1 s2 d, Iterations realArith Ldlt.linAlg env' k (loopStart realArith env' s' r0') s1 →
      oneStep realArith Ldlt.linAlg env' s1 = (s2, .ok ()) → Stepped s1.heap s2.heap s'.graph.getAllVariables d →
      StepsAre TurnsExactly s1.heap s2.heap s'.graph.getAllVariables d)
    (t t' : OptWorld ℝ RVar (Ldlt.Fact ℝ)) (hret : optimize realArith Ldlt.linAlg env s = (t, .ok ()))
    (hret' : optimize realArith Ldlt.linAlg env' s' = (t', .ok ())) (hst : t.opt.stats.status = .success)
    (hst' : t'.opt.stats.status = .success) :
    (∃ w w' : PoseVar, t.heap 0 = .pose w ∧ t'.heap 0 = .pose w' ∧ w'.pos = W *ᵥ w.pos + a ∧ w'.dcm = w.dcm * Wᵀ) ∧
      t'.opt.stats.chi2 = t.opt.stats.chi2 := by
  subst hs hs'
  obtain ⟨g1, g2⟩ := C105_turn_gauss_newton_partial hW Ldlt.exact env env' _ _ (C105.space_prepared ..) (C105.space_prepared ..)
    (C105.space_turned W a v v' hpos hdcm x m R hR h1 h2 b σ _) rfl rfl r0 r0' hr hr' hG hG' t t' hret hret' (.inl hst) (.inl hst')
  refine ⟨?_, by rw [g2]⟩
  obtain ⟨w, w', e1, e2, _, e3, e4⟩ := Rotated.pose g1 (r := 0) rfl
  exact ⟨w, w', e1, e2, e3, e4⟩

/-- And those of Levenberg-Marquardt. -/
example (W : M3) (hW : IsRotation W) (a : V3) (v v' : PoseVar) (hv : PoseReachable { v with id := 1, isConst := false })
    (hv' : PoseReachable { v' with id := 1, isConst := false }) (hpos : v'.pos = W *ᵥ v.pos + a) (hdcm : v'.dcm = v.dcm * Wᵀ) (x m : V3)
    (R : M3) (hR : IsRotation R) (h1 : 1e-5 ≤ angle R) (h2 : 1e-5 ≤ angle (R * Wᵀ)) (b : V3) (σ : ℝ) (env env' : Env ℝ RVar)
    (r0 r0' : List ℝ) (s s') (hs : s = C105.space v x m R b σ { Settings.default realArith with method := .levenbergMarquardt })
    (hs' : s' = C105.space v' (W *ᵥ x + a) (W *ᵥ m + a) (R * Wᵀ) b σ { Settings.default realArith with method := .levenbergMarquardt })
    (hr : (Graph.computeResidual env s.heap s.graph).2 = .ok r0) (hr' : (Graph.computeResidual env' s'.heap s'.graph).2 = .ok r0')
    (hwell : ∀ k s1 r J, Iterations realArith Ldlt.linAlg env k (loopStart realArith env s r0) s1 →
      Linearised s1.heap s.graph.getAllVariables s.graph.getAllFactors r J → WellConditioned J)
    (hG : TriesAre Ldlt.linAlg env s r0 TurnsExactly) (hG' : TriesAre Ldlt.linAlg env' s' r0' TurnsExactly)
    (t t' : OptWorld ℝ RVar (Ldlt.Fact ℝ)) (hret : optimize realArith Ldlt.linAlg env s = (t, .ok ()))
    (hret' : optimize realArith Ldlt.linAlg env' s' = (t', .ok ())) (hst : t.opt.stats.status = .success)
    (hst' : t'.opt.stats.status = .success) : ∀ r, RotatedVar W a (C105.turnRole r) (t.heap r) (t'.heap r) := by
  have good : ∀ (v : PoseVar) (x : V3), PoseReachable { v with id := 1, isConst := false } → ∀ r, Reachable (SpaceWorld.heap v x r) := by
    intro v x hv r
    match r with
    | 0 => exact .pose hv
    | _ + 1 => exact .landmark _
  subst hs hs'
  refine (C105_turn_levenberg_marquardt_partial hW Ldlt.exact Ldlt.exact_pivots env env' _ _ (C105.space_prepared ..)
    (C105.space_prepared ..) (C105.space_turned W a v v' hpos hdcm x m R hR h1 h2 b σ _) rfl rfl ?_ ?_ ?_ ?_ ?_ ?_ r0 r0' hr hr'
    hwell hG hG' t t' hret hret' (.inl hst) (.inl hst')).1
  · show ∀ r ∈ _, Reachable ((SpaceWorld.world ..).heap r)
    rw [SpaceWorld.heap_eq]
    exact fun r _ => good _ _ hv r
  · show ∀ r ∈ _, Reachable ((SpaceWorld.world ..).heap r)
    rw [SpaceWorld.heap_eq]
    exact fun r _ => good _ _ hv' r
  · simp [C105.space, Settings.default, realArith]
  · simp [C105.space, Settings.default, realArith]
  · simp [C105.space, Settings.default, realArith]
  · show 0 < freeTotal (SpaceWorld.world ..).heap (SpaceWorld.world ..).graph.getAllVariables
    rw [SpaceWorld.heap_eq, SpaceWorld.vars_eq]
    exact Nat.succ_pos 8

/-- A pose turned by a radian is updated exactly by an increment of a position. -/
example (w : RVar) (h : VarLike.applyIncr (RVar.pose (PoseVar.make 1 0 ((1 : ℝ) • ![0, 0, 1]))) (incr6 ![1, 0, 0] 0) = .ok w) :
    TurnsExactly (.pose (PoseVar.make 1 0 ((1 : ℝ) • ![0, 0, 1]))) (incr6 ![1, 0, 0] 0) w := by
  have hz : (![0, 0, 1] : V3) ⬝ᵥ ![0, 0, 1] = 1 := by simp
  have hd' : (PoseVar.make 1 0 ((1 : ℝ) • ![0, 0, 1])).dcm = rodrigues ![0, 0, 1] 1 := by
    show PoseVar.dcmOf _ = _
    rw [dcmOf_exp (by rw [vnorm_smul, vnorm_unit hz]; norm_num), exp_of_axis hz (by norm_num)]
  refine C105_turns_exactly _ (.make 1 0 _) _ _ (.inl rfl) ?_ w h
  have e : expSO3 (0 : V3) = 1 := by
    unfold expSO3
    simp only [vnorm_eq_zero.mpr (rfl : (0 : V3) = 0)]
    rw [if_pos (by norm_num)]
    ext i j; fin_cases i <;> fin_cases j <;> simp [skew]
  rw [e, Matrix.one_mul, hd', angle_rodrigues hz (by norm_num) (by linarith [Real.pi_gt_three])]
  norm_num

end Factorama.Props
