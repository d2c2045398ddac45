import Verif.Lemmas.FramePlane
import Verif.Lemmas.Correspond
import Verif.Props.FactorsBlocks
import Verif.Props.FactorsPlanar
import Verif.Props.Variables
import Verif.Lemmas.Ldlt
import Verif.Examples.PlanarWorld
import Verif.Examples.SpaceWorld

/-!
# Property C105: the choice of the world frame does not matter for the estimates
-/

namespace Factorama.Props
open Spec Graph Opt Matrix Geo

/-! ### Where it fails -/

namespace C105

/-- The same object after the world has been shifted by `a`, landmarks and planes. -/
inductive Described (a : V3) : RVar → RVar → Prop
  | landmark (id c) (x : V3) : Described a (.landmark ⟨id, c, toList x⟩) (.landmark ⟨id, c, toList (x + a)⟩)
  | plane (v : PlaneVar) : Described a (.plane v) (.plane { v with dist := v.dist - v.normal ⬝ᵥ a })

/-- A known point at `(s, 0, 1)` and the plane `z = 0`. -/
noncomputable def above (s : ℝ) : Heap RVar := fun r =>
  if r = 0 then .landmark ⟨1, true, toList ![s, 0, 1]⟩ else .plane ⟨2, false, ![0, 0, 1], 0⟩

/-- The Jacobian of the signed distance. -/
noncomputable def distanceJacobian (s : ℝ) : SpMat ℝ := ⟨1, [⟨1, [(0, s)]⟩, ⟨1, [(0, 0)]⟩, ⟨1, [(0, 0)]⟩, ⟨1, [(0, 1)]⟩], 4⟩

theorem above_residual (s : ℝ) : (Fac.planeFactor 9 0 1 1 none).computeResidual (above s) = .ok [1] := by
  have e0 : above s 0 = .landmark ⟨1, true, toList ![s, 0, 1]⟩ := rfl
  have e1 : above s 1 = .plane ⟨2, false, ![0, 0, 1], 0⟩ := rfl
  simp only [Fac.planeFactor, e0, e1, VarLike.value, vec3_toList, Res.map, PlaneVar.distanceFromPoint]
  simp [dotProduct, Fin.sum_univ_three]

theorem above_jacobians (s : ℝ) : (Fac.planeFactor 9 0 1 1 none).computeJacobians (above s) [] =
    .ok [Mat.empty, Mat.ofMatrix (!![s, 0, 0, 1] : Matrix (Fin 1) (Fin 4) ℝ)] := by
  have e0 : above s 0 = .landmark ⟨1, true, toList ![s, 0, 1]⟩ := rfl
  have e1 : above s 1 = .plane ⟨2, false, ![0, 0, 1], 0⟩ := rfl
  simp only [Fac.planeFactor, e0, e1, VarLike.value, vec3_toList, Res.andThen]
  rw [fillBlocks_ok (by rfl)]
  simp [Fac.block, VarLike.isConst, dotProduct, Fin.sum_univ_three]

theorem above_linearised (s : ℝ) : Linearised (above s) [0, 1] [Fac.planeFactor 9 0 1 1 none] [1] (distanceJacobian s) := by
  refine ⟨⟨[[1]], rfl, ?_, rfl⟩, rfl, rfl, fun _ => [Mat.empty, Mat.ofMatrix (!![s, 0, 0, 1] : Matrix (Fin 1) (Fin 4) ℝ)], ?_, ?_⟩
  · intro k f hk
    obtain ⟨rfl, rfl⟩ : k = 0 ∧ Fac.planeFactor 9 0 1 1 none = f := by rcases k with _ | k <;> simp_all
    exact ⟨[1], rfl, above_residual s, rfl⟩
  · intro k f hk
    obtain ⟨rfl, rfl⟩ : k = 0 ∧ Fac.planeFactor 9 0 1 1 none = f := by rcases k with _ | k <;> simp_all
    refine ⟨above_jacobians s, fun p r hp => ?_⟩
    match p with
    | 0 =>
      obtain rfl : 0 = r := by simpa [Fac.planeFactor] using hp
      exact ⟨_, rfl, fun _ => rfl, fun h => by simp [above, VarLike.isConst] at h⟩
    | 1 =>
      obtain rfl : 1 = r := by simpa [Fac.planeFactor] using hp
      exact ⟨_, rfl, fun h => by simp [above, VarLike.isConst] at h, fun _ => ⟨rfl, rfl, rfl⟩⟩
    | p + 2 => simp [Fac.planeFactor] at hp
  · intro k f hk i hi
    obtain ⟨rfl, rfl⟩ : k = 0 ∧ Fac.planeFactor 9 0 1 1 none = f := by rcases k with _ | k <;> simp_all
    obtain rfl : i = 0 := by simpa [Fac.planeFactor] using hi
    have c1 : colStart (F := ℝ) (above s) [0, 1] 1 = 0 := rfl
    refine ⟨fun p r J hp hc hJ j hj => ?_, fun r hr hc hm j hj => ?_⟩
    · match p with
      | 0 =>
        obtain rfl : 0 = r := by simpa [Fac.planeFactor] using hp
        simp [above, VarLike.isConst] at hc
      | 1 =>
        obtain rfl : 1 = r := by simpa [Fac.planeFactor] using hp
        obtain rfl := Option.some.inj hJ
        have hj : j < 4 := hj
        rw [c1]
        interval_cases j <;> rfl
      | p + 2 => simp [Fac.planeFactor] at hp
    · match r, hr with
      | 0, _ => simp [above, VarLike.isConst] at hc
      | 1, _ => simp [Fac.planeFactor] at hm

/-- The values after the step `d` of the plane. -/
noncomputable def tilted (s : ℝ) (n : V3) (d : ℝ) : Heap RVar := fun r =>
  if r = 0 then .landmark ⟨1, true, toList ![s, 0, 1]⟩ else if r = 1 then .plane ⟨2, false, n, d⟩ else .plane ⟨2, false, ![0, 0, 1], 0⟩

theorem damped (s : ℝ) (d : List ℝ)
    (h : ∀ i : Fin 4, ![s, 0, 0, 1] i * (s * asVec 4 d 0 + asVec 4 d 3) + asVec 4 d i = -![s, 0, 0, 1] i) :
    ((jacobianMatrix (distanceJacobian s))ᵀ * jacobianMatrix (distanceJacobian s) + (1 : ℝ) • 1) *ᵥ
      asVec (distanceJacobian s).columns.length d = -gradient (distanceJacobian s) [1] := by
  have hJ : jacobianMatrix (distanceJacobian s) = (!![s, 0, 0, 1] : Matrix (Fin 1) (Fin 4) ℝ) := by
    funext i j
    change Fin 1 at i
    change Fin 4 at j
    fin_cases i
    fin_cases j <;> rfl
  have hr : asVec (distanceJacobian s).rows [1] = (![1] : Fin 1 → ℝ) := by
    funext i
    change Fin 1 at i
    fin_cases i
    rfl
  rw [gradient, hJ, hr]
  funext i
  change Fin 4 at i
  have e : ∀ x : Fin 4 → ℝ, ((!![s, 0, 0, 1] : Matrix (Fin 1) (Fin 4) ℝ)ᵀ * (!![s, 0, 0, 1] : Matrix (Fin 1) (Fin 4) ℝ) +
      (1 : ℝ) • 1) *ᵥ x = fun i => ![s, 0, 0, 1] i * (s * x 0 + x 3) + x i := by
    intro x
    rw [add_mulVec, ← mulVec_mulVec, one_smul, one_mulVec]
    funext i
    fin_cases i <;> simp [mulVec, dotProduct, Fin.sum_univ_four]
  have e2 : (!![s, 0, 0, 1] : Matrix (Fin 1) (Fin 4) ℝ)ᵀ *ᵥ (![1] : Fin 1 → ℝ) = ![s, 0, 0, 1] := by
    funext i
    fin_cases i <;> simp [mulVec, dotProduct]
  exact (congrFun (e (asVec 4 d)) i).trans ((h i).trans (congrArg Neg.neg (congrFun e2 i)).symm)

end C105

/-- **C105 is false** of planes that are estimated with Levenberg-Marquardt. A known point lies one unit above the plane; in
a frame whose origin is below the point the damped step only shifts the plane, in another frame it tilts the plane as well.
Both graphs consist of the same distance measurement. -/
theorem C105_plane_false : ¬ ∀ (a : V3) (f : Factor ℝ RVar) (vars : List VRef) (h h' g g' : Heap RVar) (r r' : List ℝ) (J J' : SpMat ℝ)
    (lam : ℝ) (d d' : List ℝ), 0 < lam → f = Fac.planeFactor 9 0 1 1 none → (∀ v, C105.Described a (h v) (h' v)) →
    Linearised h vars [f] r J → Linearised h' vars [f] r' J' → d.length = J.columns.length → d'.length = J'.columns.length →
    ((jacobianMatrix J)ᵀ * jacobianMatrix J + lam • 1) *ᵥ asVec J.columns.length d = -gradient J r →
    ((jacobianMatrix J')ᵀ * jacobianMatrix J' + lam • 1) *ᵥ asVec J'.columns.length d' = -gradient J' r' →
    Stepped h g vars d → Stepped h' g' vars d' → ∀ v, C105.Described a (g v) (g' v) := by
  intro H
  have hstep : ∀ (s : ℝ) (d : List ℝ), d.length = 4 → (0 : ℝ) < (![0, 0, 1] + read3 d 0) ⬝ᵥ (![0, 0, 1] + read3 d 0) →
      Stepped (C105.above s) (C105.tilted s (normalized (![0, 0, 1] + read3 d 0)) (0 + d.getD 3 0)) [0, 1] d := by
    intro s d hd hpos r
    by_cases h1 : r = 1
    · subst h1
      refine ⟨fun _ => ?_, fun h => absurd ⟨by simp, rfl⟩ h⟩
      have e : partOf (F := ℝ) (C105.above s) [0, 1] d 1 = d := by
        show (d.drop 0).take 4 = d
        rw [List.drop_zero, List.take_of_length_le hd.le]
      rw [e]
      show (PlaneVar.applyIncr ⟨2, false, ![0, 0, 1], 0⟩ d).map RVar.plane = _
      rw [PlaneVar.applyIncr, if_neg (by simpa using hd), if_pos hpos]
      rfl
    · refine ⟨fun ⟨hr, hc⟩ => ?_, fun _ => ?_⟩
      · obtain rfl : r = 0 := by simpa [h1] using hr
        simp [C105.above, VarLike.isConst] at hc
      · simp only [C105.tilted, C105.above, h1, if_false]
  have h2 := H ![1, 0, 0] _ [0, 1] (C105.above 0) (C105.above 1) _ _ [1] [1] (C105.distanceJacobian 0) (C105.distanceJacobian 1) 1
    [0, 0, 0, -1 / 2] [-1 / 3, 0, 0, -1 / 3] one_pos rfl ?_ (C105.above_linearised 0) (C105.above_linearised 1) rfl rfl ?_ ?_
    (hstep 0 _ rfl ?_) (hstep 1 _ rfl ?_) 1
  · simp only [C105.tilted, if_true, one_ne_zero, if_false] at h2
    generalize hn : normalized (![0, 0, 1] + read3 [0, 0, 0, -1 / 2] 0) = n at h2
    generalize hn' : normalized (![0, 0, 1] + read3 [-1 / 3, 0, 0, -1 / 3] 0) = n' at h2
    have e : n' = n := by
      generalize hv : RVar.plane _ = v, hv' : RVar.plane ⟨2, false, n', _⟩ = v' at h2
      cases h2 with
      | landmark => cases hv
      | plane w =>
        cases hv
        injection hv' with hv'
        injection hv'
    have e0 := congrFun e 0
    rw [← hn, ← hn'] at e0
    have pos : (0 : ℝ) < (![0, 0, 1] + read3 [-1 / 3, 0, 0, -1 / 3] 0) ⬝ᵥ (![0, 0, 1] + read3 [-1 / 3, 0, 0, -1 / 3] 0) := by
      simp [dotProduct, Fin.sum_univ_three, read3]; norm_num
    have pos' : (0 : ℝ) < (![0, 0, 1] + read3 [0, 0, 0, -1 / 2] 0) ⬝ᵥ (![0, 0, 1] + read3 [0, 0, 0, -1 / 2] 0) := by
      simp [dotProduct, Fin.sum_univ_three, read3]
    rw [normalized, normalized, if_pos pos, if_pos pos'] at e0
    have ps := Real.sqrt_pos.2 pos
    simp only [vdiv] at e0
    have z : ((![0, 0, 1] : V3) + read3 [0, 0, 0, -1 / 2] 0) 0 = 0 := by simp [read3]
    have z' : ((![0, 0, 1] : V3) + read3 [-1 / 3, 0, 0, -1 / 3] 0) 0 = -1 / 3 := by simp [read3]
    rw [z, z', zero_div, div_eq_zero_iff] at e0
    rcases e0 with e0 | e0
    · norm_num at e0
    · exact ps.ne' e0
  · intro v
    by_cases hv : v = 0
    · subst hv
      have := C105.Described.landmark (a := ![1, 0, 0]) 1 true ![0, 0, 1]
      have e : (![0, 0, 1] : V3) + ![1, 0, 0] = ![1, 0, 1] := by ext i; fin_cases i <;> simp
      rw [e] at this
      exact this
    · have := C105.Described.plane (a := ![1, 0, 0]) ⟨2, false, ![0, 0, 1], 0⟩
      simp only [C105.above, hv, if_false]
      convert this using 2
      simp [dotProduct, Fin.sum_univ_three]
  · exact C105.damped 0 _ (fun i => by fin_cases i <;> simp [asVec] <;> norm_num)
  · exact C105.damped 1 _ (fun i => by fin_cases i <;> simp [asVec] <;> norm_num)
  · simp [dotProduct, Fin.sum_univ_three, read3]
  · simp [dotProduct, Fin.sum_univ_three, read3]; norm_num

/-- **C105 is false** of relative poses in the local frame. Two poses fit a measurement in the frame of the first exactly;
described in a world frame turned by a right angle the same two poses do not fit the same measurement. -/
theorem C105_local_false : ¬ ∀ (phi : ℝ) (role : VRef → PlaneRole) (h h' : Heap RVar), role 0 = .pose → role 1 = .pose →
    role 2 = .still → (∀ r, MovedVar phi 0 (role r) (h r) (h' r)) → ZeroResidual (Fac.pose2DBetween 9 0 1 2 1 1 true) h →
    ZeroResidual (Fac.pose2DBetween 9 0 1 2 1 1 true) h' := by
  intro H
  have hpi := Real.pi_pos
  have w : wrapAngle (0 + Real.pi / 2) = Real.pi / 2 := by
    rw [zero_add]; exact wrap_of_mem (by linarith) (by linarith)
  have h2 := H (Real.pi / 2) (fun r => if r = 2 then .still else .pose)
    (fun r => if r = 2 then .generic ⟨2, false, toList ![1, 0, 0]⟩ else if r = 1 then .pose2d ⟨1, false, ![1, 0], 0⟩
      else .pose2d ⟨0, false, ![0, 0], 0⟩)
    C52.ahead rfl rfl rfl ?_ ?_
  · exact C52_local_false.2 h2
  · intro r
    by_cases h2 : r = 2
    · subst h2; exact .still _
    · by_cases h1 : r = 1
      · subst h1
        have := MovedVar.pose (phi := Real.pi / 2) (a := 0) ⟨1, false, ![1, 0], 0⟩
        have e : turn (Real.pi / 2) *ᵥ (![1, 0] : V2) + 0 = ![0, 1] := by
          funext i; fin_cases i <;> simp [turn_zero, turn_one]
        simp only [e, w] at this
        exact this
      · have := MovedVar.pose (phi := Real.pi / 2) (a := 0) ⟨0, false, ![0, 0], 0⟩
        have e : turn (Real.pi / 2) *ᵥ (![0, 0] : V2) + 0 = ![0, 0] := by
          funext i; fin_cases i <;> simp [turn_zero, turn_one]
        simp only [e, w] at this
        simpa only [h1, h2, if_false, C52.ahead] using this
  · refine (C52_local_zero _ 9 0 1 2 ⟨0, false, ![0, 0], 0⟩ ⟨1, false, ![1, 0], 0⟩ ![1, 0, 0] 1 1 rfl rfl
      (.inl (.inl ⟨_, rfl, rfl⟩)) one_ne_zero one_ne_zero).mpr ⟨?_, 0, by simp only [cons_val]; norm_num⟩
    funext i; fin_cases i <;> simp [Pose2DVar.dcm, Matrix.mulVec, dotProduct, Fin.sum_univ_two]

/-! ### What holds -/

section
variable {Fact : Type} {L : LinAlg ℝ Fact}

/-- Two optimizers whose graphs describe the same problem in space, the second one in a world frame shifted by `a`. -/
structure C105.Shifted (a : V3) (role : VRef → SpaceRole) (s s' : OptWorld ℝ RVar Fact) : Prop where
  heap : ∀ r, ShiftedVar a (role r) (s.heap r) (s'.heap r)
  vars : s'.graph.getAllVariables = s.graph.getAllVariables
  facs : List.Forall₂ (ShiftedFactor a role) s.graph.getAllFactors s'.graph.getAllFactors

/-- Two optimizers whose graphs describe the same problem in the plane, the second one in a world frame turned by `phi` and
shifted by `a`. -/
structure C105.Moved (phi : ℝ) (a : V2) (role : VRef → PlaneRole) (s s' : OptWorld ℝ RVar Fact) : Prop where
  heap : ∀ r, MovedVar phi a (role r) (s.heap r) (s'.heap r)
  vars : s'.graph.getAllVariables = s.graph.getAllVariables
  facs : List.Forall₂ (MovedFactor phi a role) s.graph.getAllFactors s'.graph.getAllFactors

theorem C105.nodup {s : OptWorld ℝ RVar Fact} (hp : Prepared s) : s.graph.getAllVariables.Nodup := by
  obtain ⟨h0, pre, post, hw, _⟩ := hp.history
  exact List.Nodup.of_map _ (finalizedAfter_layout hw).ids

theorem C105.scaled_one (x : Stats ℝ) : scaledStats 1 x = x := by simp [scaledStats]

/-- **C105, the part that holds**, problems in space, Gauss-Newton. Two graphs describe the same problem, the second one with
all positions shifted by `a`: poses, landmarks, points, origins of rays, known planes, and priors on positions. With an exact
solver, when neither `optimize()` call reports a refused system or a failure, the estimates of the second are those of the
first shifted by `a`, and all statistics are the same. Missing: planes that are estimated, rotations of the frame, and graphs
with coordinate transforms. -/
theorem C105_shift_gauss_newton_partial {a : V3} {role : VRef → SpaceRole} (hL : ExactLinAlg L) (env env' : Env ℝ RVar)
    (s s' : OptWorld ℝ RVar Fact) (hp : Prepared s) (hp' : Prepared s') (hre : C105.Shifted a role s s')
    (hset : s'.opt.settings = s.opt.settings) (hm : s.opt.settings.method = .gaussNewton) (r0 r0' : List ℝ)
    (hr : (Graph.computeResidual env s.heap s.graph).2 = .ok r0)
    (hr' : (Graph.computeResidual env' s'.heap s'.graph).2 = .ok r0') (t t' : OptWorld ℝ RVar Fact)
    (hret : optimize realArith L env s = (t, .ok ())) (hret' : optimize realArith L env' s' = (t', .ok ()))
    (hst : t.opt.stats.status = .success ∨ t.opt.stats.status = .diverged)
    (hst' : t'.opt.stats.status = .success ∨ t'.opt.stats.status = .diverged) :
    (∀ r, ShiftedVar a (role r) (t.heap r) (t'.heap r)) ∧ t'.opt.stats = t.opt.stats := by
  rw [← C105.scaled_one t.opt.stats]
  refine Spec.Correspond.gaussNewton one_pos (H := fun x x' => ∀ r, ShiftedVar a (role r) (x r) (x' r)) hL env env' s s' hp hp' ?_
    hre.heap (by rw [hset]; simp [scaledSettings]) hm r0 r0' hr hr' t t' hret hret' hst hst'
  rw [hre.vars]
  exact shifted_correspond hre.facs (C105.nodup hp)

/-- **C105, the part that holds**, problems in space, Levenberg-Marquardt. As `C105_shift_gauss_newton_partial`, for problems
that stay well conditioned. -/
theorem C105_shift_levenberg_marquardt_partial {a : V3} {role : VRef → SpaceRole} (hL : ExactLinAlg L) (hP : ExactPivots L)
    (env env' : Env ℝ RVar) (s s' : OptWorld ℝ RVar Fact) (hp : Prepared s) (hp' : Prepared s') (hre : C105.Shifted a role s s')
    (hset : s'.opt.settings = s.opt.settings) (hm : s.opt.settings.method = .levenbergMarquardt)
    (hgood : ∀ r ∈ s.graph.getAllVariables, Reachable (s.heap r)) (hgood' : ∀ r ∈ s'.graph.getAllVariables, Reachable (s'.heap r))
    (hini : 0 < s.opt.settings.initialLambda) (hup : 0 < s.opt.settings.lambdaUp)
    (hmax : 0 < s.opt.settings.maxLambda) (hfree : 0 < freeTotal s.heap s.graph.getAllVariables) (r0 r0' : List ℝ)
    (hr : (Graph.computeResidual env s.heap s.graph).2 = .ok r0)
    (hr' : (Graph.computeResidual env' s'.heap s'.graph).2 = .ok r0')
    (hwell : ∀ k s1 r J, Iterations realArith L env k (loopStart realArith env s r0) s1 →
      Linearised s1.heap s.graph.getAllVariables s.graph.getAllFactors r J → WellConditioned J) (t t' : OptWorld ℝ RVar Fact)
    (hret : optimize realArith L env s = (t, .ok ())) (hret' : optimize realArith L env' s' = (t', .ok ()))
    (hst : t.opt.stats.status = .success ∨ t.opt.stats.status = .diverged)
    (hst' : t'.opt.stats.status = .success ∨ t'.opt.stats.status = .diverged) :
    (∀ r, ShiftedVar a (role r) (t.heap r) (t'.heap r)) ∧ t'.opt.stats = t.opt.stats := by
  have hfree' : 0 < freeTotal s'.heap s'.graph.getAllVariables := by
    have e : freeTotal s'.heap s.graph.getAllVariables = freeTotal s.heap s.graph.getAllVariables := by
      unfold freeTotal freeSize
      congr 2
      funext r
      rw [(shiftedVar_shape (hre.heap r)).1, (shiftedVar_shape (hre.heap r)).2]
    rw [hre.vars, e]; exact hfree
  refine Spec.Correspond.levenbergMarquardt (H := fun x x' => ∀ r, ShiftedVar a (role r) (x r) (x' r)) hL hP env env' s s' hp hp' ?_
    hre.heap hset hm (fun _ => ⟨_, C41_partial, hgood⟩) (fun _ => ⟨_, C41_partial, hgood'⟩) hini hup hmax hfree hfree' r0 r0' hr hr'
    hwell t t' hret hret' hst hst'
  rw [hre.vars]
  exact shifted_correspond hre.facs (C105.nodup hp)

/-- **C105, the part that holds**, problems in the plane, Gauss-Newton. Two graphs describe the same problem, the second one in
a world frame turned by `phi` and shifted by `a`. With an exact solver, when neither `optimize()` call reports a refused system
or a failure, the estimates of the second are those of the first turned and shifted, and all statistics are the same. Missing:
relative poses in the local frame when the world is turned. -/
theorem C105_move_gauss_newton_partial {phi : ℝ} {a : V2} {role : VRef → PlaneRole} (hL : ExactLinAlg L) (env env' : Env ℝ RVar)
    (s s' : OptWorld ℝ RVar Fact) (hp : Prepared s) (hp' : Prepared s') (hre : C105.Moved phi a role s s')
    (hset : s'.opt.settings = s.opt.settings) (hm : s.opt.settings.method = .gaussNewton) (r0 r0' : List ℝ)
    (hr : (Graph.computeResidual env s.heap s.graph).2 = .ok r0)
    (hr' : (Graph.computeResidual env' s'.heap s'.graph).2 = .ok r0') (t t' : OptWorld ℝ RVar Fact)
    (hret : optimize realArith L env s = (t, .ok ())) (hret' : optimize realArith L env' s' = (t', .ok ()))
    (hst : t.opt.stats.status = .success ∨ t.opt.stats.status = .diverged)
    (hst' : t'.opt.stats.status = .success ∨ t'.opt.stats.status = .diverged) :
    (∀ r, MovedVar phi a (role r) (t.heap r) (t'.heap r)) ∧ t'.opt.stats = t.opt.stats := by
  rw [← C105.scaled_one t.opt.stats]
  refine Spec.Correspond.gaussNewton one_pos (H := fun x x' => ∀ r, MovedVar phi a (role r) (x r) (x' r)) hL env env' s s' hp hp' ?_
    hre.heap (by rw [hset]; simp [scaledSettings]) hm r0 r0' hr hr' t t' hret hret' hst hst'
  rw [hre.vars]
  exact moved_correspond hre.facs (C105.nodup hp)

/-- **C105, the part that holds**, problems in the plane, Levenberg-Marquardt. As `C105_move_gauss_newton_partial`, for problems
that stay well conditioned. -/
theorem C105_move_levenberg_marquardt_partial {phi : ℝ} {a : V2} {role : VRef → PlaneRole} (hL : ExactLinAlg L) (hP : ExactPivots L)
    (env env' : Env ℝ RVar) (s s' : OptWorld ℝ RVar Fact) (hp : Prepared s) (hp' : Prepared s') (hre : C105.Moved phi a role s s')
    (hset : s'.opt.settings = s.opt.settings) (hm : s.opt.settings.method = .levenbergMarquardt)
    (hgood : ∀ r ∈ s.graph.getAllVariables, Reachable (s.heap r)) (hgood' : ∀ r ∈ s'.graph.getAllVariables, Reachable (s'.heap r))
    (hini : 0 < s.opt.settings.initialLambda) (hup : 0 < s.opt.settings.lambdaUp)
    (hmax : 0 < s.opt.settings.maxLambda) (hfree : 0 < freeTotal s.heap s.graph.getAllVariables) (r0 r0' : List ℝ)
    (hr : (Graph.computeResidual env s.heap s.graph).2 = .ok r0)
    (hr' : (Graph.computeResidual env' s'.heap s'.graph).2 = .ok r0')
    (hwell : ∀ k s1 r J, Iterations realArith L env k (loopStart realArith env s r0) s1 →
      Linearised s1.heap s.graph.getAllVariables s.graph.getAllFactors r J → WellConditioned J) (t t' : OptWorld ℝ RVar Fact)
    (hret : optimize realArith L env s = (t, .ok ())) (hret' : optimize realArith L env' s' = (t', .ok ()))
    (hst : t.opt.stats.status = .success ∨ t.opt.stats.status = .diverged)
    (hst' : t'.opt.stats.status = .success ∨ t'.opt.stats.status = .diverged) :
    (∀ r, MovedVar phi a (role r) (t.heap r) (t'.heap r)) ∧ t'.opt.stats = t.opt.stats := by
  have hfree' : 0 < freeTotal s'.heap s'.graph.getAllVariables := by
    have e : freeTotal s'.heap s.graph.getAllVariables = freeTotal s.heap s.graph.getAllVariables := by
      unfold freeTotal freeSize
      congr 2
      funext r
      rw [(movedVar_shape (hre.heap r)).1, (movedVar_shape (hre.heap r)).2]
    rw [hre.vars, e]; exact hfree
  refine Spec.Correspond.levenbergMarquardt (H := fun x x' => ∀ r, MovedVar phi a (role r) (x r) (x' r)) hL hP env env' s s' hp hp' ?_
    hre.heap hset hm (fun _ => ⟨_, C41_partial, hgood⟩) (fun _ => ⟨_, C41_partial, hgood'⟩) hini hup hmax hfree hfree' r0 r0' hr hr'
    hwell t t' hret hret' hst hst'
  rw [hre.vars]
  exact moved_correspond hre.facs (C105.nodup hp)

end

/-! ### The hypotheses are met -/

namespace C105

/-- An optimizer on the graph with a pose in space and a landmark. -/
noncomputable def space (v : PoseVar) (x m : V3) (R : M3) (b : V3) (σ : ℝ) (st : Settings ℝ) : OptWorld ℝ RVar (Ldlt.Fact ℝ) :=
  ⟨(SpaceWorld.world v x m R b σ).heap, (SpaceWorld.world v x m R b σ).graph,
    { Optimizer.init realArith with hasGraph := true, complete := true, settings := st }⟩

theorem space_prepared (v : PoseVar) (x m : V3) (R : M3) (b : V3) (σ : ℝ) (st : Settings ℝ) : Prepared (space v x m R b σ st) := by
  have hb : ∀ f ∈ SpaceWorld.facs m R b σ, (∃ c, Built (SpaceWorld.heap v x) c f) ∧ 0 < f.residualSize ∧
      ∀ r, some r ∈ f.variables → 0 < VarLike.size (SpaceWorld.heap v x r) := by
    intro f hf
    have hsz : ∀ r, 0 < VarLike.size (SpaceWorld.heap v x r) := by
      intro r
      match r with
      | 0 => exact Nat.succ_pos 5
      | _ + 1 => exact Nat.succ_pos 2
    simp only [SpaceWorld.facs, List.mem_cons, List.not_mem_nil, or_false] at hf
    rcases hf with rfl | rfl | rfl
    · exact ⟨⟨_, .posePositionPrior _ _ _ _ rfl⟩, Nat.succ_pos 2, fun r _ => hsz r⟩
    · exact ⟨⟨_, .poseOrientationPrior _ _ _ _ rfl⟩, Nat.succ_pos 2, fun r _ => hsz r⟩
    · exact ⟨⟨_, .bearingObservation _ _ _ _ _ rfl rfl⟩, Nat.succ_pos 2, fun r _ => hsz r⟩
  refine ⟨⟨_, _, _, SpaceWorld.finalizedAfter v x m R b σ, SpaceWorld.noJacobianYet v x m R b σ⟩, SpaceWorld.identify v x m R b σ,
    SpaceWorld.noRepeats v x m R b σ, ?_, ?_, rfl⟩
  · show ∀ f ∈ (SpaceWorld.world v x m R b σ).graph.getAllFactors, ReuseSafe f
    rw [SpaceWorld.facs_eq]
    intro f hf
    obtain ⟨⟨c, hc⟩, _⟩ := hb f hf
    exact C57_reuse _ c f hc
  · show ∀ h, SameShape (SpaceWorld.world v x m R b σ).heap h → ∀ f ∈ (SpaceWorld.world v x m R b σ).graph.getAllFactors, _
    rw [SpaceWorld.facs_eq, SpaceWorld.heap_eq]
    intro h hs f hf js hj
    obtain ⟨⟨c, hc⟩, hz⟩ := hb f hf
    exact C57_proper hc hs hz hj

/-- What the variables of that graph stand for. -/
def spaceRole : VRef → SpaceRole
  | 0 => .pose
  | _ => .landmark

theorem space_shifted (a : V3) (v : PoseVar) (x m : V3) (R : M3) (b : V3) (σ : ℝ) (st : Settings ℝ) :
    Shifted a spaceRole (space v x m R b σ st) (space { v with pos := v.pos + a } (x + a) (m + a) R b σ st) := by
  refine ⟨?_, ?_, ?_⟩
  · show ∀ r, ShiftedVar a (spaceRole r) ((SpaceWorld.world v x m R b σ).heap r) ((SpaceWorld.world _ (x + a) (m + a) R b σ).heap r)
    rw [SpaceWorld.heap_eq, SpaceWorld.heap_eq]
    intro r
    match r with
    | 0 => exact .pose { v with id := 1, isConst := false }
    | _ + 1 => exact .landmark 2 false x
  · show (SpaceWorld.world _ (x + a) (m + a) R b σ).graph.getAllVariables = (SpaceWorld.world v x m R b σ).graph.getAllVariables
    rw [SpaceWorld.vars_eq, SpaceWorld.vars_eq]
  · show List.Forall₂ _ (SpaceWorld.world v x m R b σ).graph.getAllFactors (SpaceWorld.world _ (x + a) (m + a) R b σ).graph.getAllFactors
    rw [SpaceWorld.facs_eq, SpaceWorld.facs_eq]
    exact .cons (.posePositionPrior ..) (.cons (.poseOrientationPrior ..) (.cons (.bearingObservation ..) .nil))

/-- An optimizer on the planar graph. -/
noncomputable def planar (p : V2) (θ : ℝ) (l : V2) (x : V2) (t range bearing σ : ℝ) (st : Settings ℝ) : OptWorld ℝ RVar (Ldlt.Fact ℝ) :=
  ⟨(PlanarWorld.world p θ (l 0) (l 1) ![x 0, x 1, t] range bearing σ).heap,
    (PlanarWorld.world p θ (l 0) (l 1) ![x 0, x 1, t] range bearing σ).graph,
    { Optimizer.init realArith with hasGraph := true, complete := true, settings := st }⟩

theorem planar_prepared (p : V2) (θ : ℝ) (l : V2) (x : V2) (t range bearing σ : ℝ) (st : Settings ℝ) :
    Prepared (planar p θ l x t range bearing σ st) := by
  have hb : ∀ f ∈ PlanarWorld.facs ![x 0, x 1, t] range bearing σ, (∃ c, Built (PlanarWorld.heap p θ (l 0) (l 1)) c f) ∧
      0 < f.residualSize ∧ ∀ r, some r ∈ f.variables → 0 < VarLike.size (PlanarWorld.heap p θ (l 0) (l 1) r) := by
    intro f hf
    have hsz : ∀ r, 0 < VarLike.size (PlanarWorld.heap p θ (l 0) (l 1) r) := by
      intro r
      match r with
      | 0 => exact Nat.succ_pos 2
      | _ + 1 => exact Nat.succ_pos 1
    simp only [PlanarWorld.facs, List.mem_cons, List.not_mem_nil, or_false] at hf
    rcases hf with rfl | rfl
    · exact ⟨⟨_, .pose2DPrior _ _ _ _ _ rfl⟩, Nat.succ_pos 2, fun r _ => hsz r⟩
    · exact ⟨⟨_, .rangeBearing2D _ _ _ _ _ _ _ rfl rfl⟩, Nat.succ_pos 1, fun r _ => hsz r⟩
  refine ⟨⟨_, _, _, PlanarWorld.finalizedAfter .., PlanarWorld.noJacobianYet ..⟩, PlanarWorld.identify _ _ _ _ _ _ _ _,
    PlanarWorld.noRepeats _ _ _ _ _ _ _ _, ?_, ?_, rfl⟩
  · show ∀ f ∈ (PlanarWorld.world p θ (l 0) (l 1) ![x 0, x 1, t] range bearing σ).graph.getAllFactors, ReuseSafe f
    rw [PlanarWorld.facs_eq]
    intro f hf
    obtain ⟨⟨c, hc⟩, _⟩ := hb f hf
    exact C57_reuse _ c f hc
  · show ∀ h, SameShape (PlanarWorld.world p θ (l 0) (l 1) ![x 0, x 1, t] range bearing σ).heap h →
      ∀ f ∈ (PlanarWorld.world p θ (l 0) (l 1) ![x 0, x 1, t] range bearing σ).graph.getAllFactors, _
    rw [PlanarWorld.facs_eq, PlanarWorld.heap_eq]
    intro h hs f hf js hj
    obtain ⟨⟨c, hc⟩, hz⟩ := hb f hf
    exact C57_proper hc hs hz hj

/-- What the variables of that graph stand for. -/
def planarRole : VRef → PlaneRole
  | 0 => .pose
  | _ => .point

theorem planar_moved (phi : ℝ) (a p : V2) (θ : ℝ) (l : V2) (x : V2) (t range bearing σ : ℝ) (st : Settings ℝ) :
    Moved phi a planarRole (planar p θ l x t range bearing σ st)
      (planar (turn phi *ᵥ p + a) (wrapAngle (θ + phi)) (turn phi *ᵥ l + a) (turn phi *ᵥ x + a) (t + phi) range bearing σ st) := by
  refine ⟨?_, ?_, ?_⟩
  · show ∀ r, MovedVar phi a (planarRole r) ((PlanarWorld.world ..).heap r) ((PlanarWorld.world ..).heap r)
    rw [PlanarWorld.heap_eq, PlanarWorld.heap_eq]
    intro r
    match r with
    | 0 => exact .pose ⟨1, false, p, θ⟩
    | _ + 1 => exact .point 2 false l
  · show (PlanarWorld.world ..).graph.getAllVariables = (PlanarWorld.world ..).graph.getAllVariables
    rw [PlanarWorld.vars_eq, PlanarWorld.vars_eq]
  · show List.Forall₂ _ (PlanarWorld.world ..).graph.getAllFactors (PlanarWorld.world ..).graph.getAllFactors
    rw [PlanarWorld.facs_eq, PlanarWorld.facs_eq]
    exact .cons (.posePrior 10 0 x t σ σ rfl) (.cons (.rangeBearing 11 0 1 range bearing σ σ rfl rfl) .nil)

end C105

/-- A pose with priors that sees a landmark, described in two frames. -/
example (a : V3) (v : PoseVar) (x m : V3) (R : M3) (b : V3) (σ : ℝ) (env env' : Env ℝ RVar) (r0 r0' : List ℝ) (s s')
    (hs : s = C105.space v x m R b σ (Settings.default realArith))
    (hs' : s' = C105.space { v with pos := v.pos + a } (x + a) (m + a) R b σ (Settings.default realArith))
    (hr : (Graph.computeResidual env s.heap s.graph).2 = .ok r0) (hr' : (Graph.computeResidual env' s'.heap s'.graph).2 = .ok r0')
    (t t' : OptWorld ℝ RVar (Ldlt.Fact ℝ)) (hret : optimize realArith Ldlt.linAlg env s = (t, .ok ()))
    (hret' : optimize realArith Ldlt.linAlg env' s' = (t', .ok ())) (hst : t.opt.stats.status = .success)
    (hst' : t'.opt.stats.status = .success) (y : V3) (hy : t.heap 1 = .landmark ⟨2, false, toList y⟩) :
    t'.heap 1 = .landmark ⟨2, false, toList (y + a)⟩ := by
  subst hs hs'
  have h := (C105_shift_gauss_newton_partial Ldlt.exact env env' _ _ (C105.space_prepared ..) (C105.space_prepared ..)
    (C105.space_shifted a v x m R b σ _) rfl rfl r0 r0' hr hr' t t' hret hret' (.inl hst) (.inl hst')).1 1
  rw [hy] at h
  generalize hz : t'.heap 1 = z at h
  generalize hu : RVar.landmark ⟨2, false, toList y⟩ = u at h
  have h : ShiftedVar a .landmark u z := h
  cases h
  injection hu with hu
  injection hu with _ _ hu
  subst_vars
  simp_all [toList_value _ _ hu]

/-- A planar pose with a prior and a landmark, described in two frames. -/
example (phi : ℝ) (a p : V2) (θ : ℝ) (l x : V2) (t range bearing σ : ℝ) (env env' : Env ℝ RVar) (r0 r0' : List ℝ) (s s')
    (hs : s = C105.planar p θ l x t range bearing σ (Settings.default realArith))
    (hs' : s' = C105.planar (turn phi *ᵥ p + a) (wrapAngle (θ + phi)) (turn phi *ᵥ l + a) (turn phi *ᵥ x + a) (t + phi) range bearing σ
      (Settings.default realArith))
    (hr : (Graph.computeResidual env s.heap s.graph).2 = .ok r0) (hr' : (Graph.computeResidual env' s'.heap s'.graph).2 = .ok r0')
    (u u' : OptWorld ℝ RVar (Ldlt.Fact ℝ)) (hret : optimize realArith Ldlt.linAlg env s = (u, .ok ()))
    (hret' : optimize realArith Ldlt.linAlg env' s' = (u', .ok ())) (hst : u.opt.stats.status = .success)
    (hst' : u'.opt.stats.status = .success) (v : Pose2DVar) (hv : u.heap 0 = .pose2d v) :
    u'.heap 0 = .pose2d { v with pos := turn phi *ᵥ v.pos + a, theta := wrapAngle (v.theta + phi) } ∧
      u'.opt.stats.chi2 = u.opt.stats.chi2 := by
  subst hs hs'
  obtain ⟨h1, h2⟩ := C105_move_gauss_newton_partial Ldlt.exact env env' _ _ (C105.planar_prepared ..) (C105.planar_prepared ..)
    (C105.planar_moved phi a p θ l x t range bearing σ _) rfl rfl r0 r0' hr hr' u u' hret hret' (.inl hst) (.inl hst')
  refine ⟨?_, by rw [h2]⟩
  have h := h1 0
  rw [hv] at h
  generalize u'.heap 0 = z at h
  have h : MovedVar phi a .pose (.pose2d v) z := h
  cases h
  rfl

/-- The same problem with Levenberg-Marquardt. -/
example (phi : ℝ) (a p : V2) (θ : ℝ) (l x : V2) (t range bearing σ : ℝ) (env env' : Env ℝ RVar) (r0 r0' : List ℝ) (s s')
    (hs : s = C105.planar p (wrapAngle θ) l x t range bearing σ { Settings.default realArith with method := .levenbergMarquardt })
    (hs' : s' = C105.planar (turn phi *ᵥ p + a) (wrapAngle (wrapAngle θ + phi)) (turn phi *ᵥ l + a) (turn phi *ᵥ x + a) (t + phi) range
      bearing σ { Settings.default realArith with method := .levenbergMarquardt })
    (hr : (Graph.computeResidual env s.heap s.graph).2 = .ok r0) (hr' : (Graph.computeResidual env' s'.heap s'.graph).2 = .ok r0')
    (hwell : ∀ k s1 r J, Iterations realArith Ldlt.linAlg env k (loopStart realArith env s r0) s1 →
      Linearised s1.heap s.graph.getAllVariables s.graph.getAllFactors r J → WellConditioned J)
    (u u' : OptWorld ℝ RVar (Ldlt.Fact ℝ)) (hret : optimize realArith Ldlt.linAlg env s = (u, .ok ()))
    (hret' : optimize realArith Ldlt.linAlg env' s' = (u', .ok ())) (hst : u.opt.stats.status = .success)
    (hst' : u'.opt.stats.status = .success) : ∀ r, MovedVar phi a (C105.planarRole r) (u.heap r) (u'.heap r) := by
  have good : ∀ (p : V2) (θ x y : ℝ) r, Reachable (PlanarWorld.heap p (wrapAngle θ) x y r) := by
    intro p θ x y r
    match r with
    | 0 => exact .pose2d (.make 1 p θ)
    | _ + 1 => exact .generic _
  subst hs hs'
  refine (C105_move_levenberg_marquardt_partial Ldlt.exact Ldlt.exact_pivots env env' _ _ (C105.planar_prepared ..)
    (C105.planar_prepared ..) (C105.planar_moved phi a p (wrapAngle θ) l x t range bearing σ _) rfl rfl ?_ ?_ ?_ ?_ ?_ ?_ r0 r0' hr hr'
    hwell u u' hret hret' (.inl hst) (.inl hst')).1
  · intro r _
    show Reachable ((PlanarWorld.world ..).heap r)
    rw [PlanarWorld.heap_eq]
    exact good ..
  · intro r _
    show Reachable ((PlanarWorld.world ..).heap r)
    rw [PlanarWorld.heap_eq]
    exact good ..
  · simp [C105.planar, Settings.default, realArith]
  · simp [C105.planar, Settings.default, realArith]
  · simp [C105.planar, Settings.default, realArith]
  · show 0 < freeTotal (F := ℝ) (PlanarWorld.world ..).heap (PlanarWorld.world ..).graph.getAllVariables
    rw [PlanarWorld.heap_eq, PlanarWorld.vars_eq]
    exact Nat.succ_pos 4

/-- The problem in space with Levenberg-Marquardt. -/
example (a : V3) (v : PoseVar) (hv : Reachable (.pose { v with id := 1, isConst := false }))
    (hv' : Reachable (.pose { v with id := 1, isConst := false, pos := v.pos + a })) (x m : V3) (R : M3) (b : V3) (σ : ℝ)
    (env env' : Env ℝ RVar) (r0 r0' : List ℝ) (s s')
    (hs : s = C105.space v x m R b σ { Settings.default realArith with method := .levenbergMarquardt })
    (hs' : s' = C105.space { v with pos := v.pos + a } (x + a) (m + a) R b σ
      { Settings.default realArith with method := .levenbergMarquardt })
    (hr : (Graph.computeResidual env s.heap s.graph).2 = .ok r0) (hr' : (Graph.computeResidual env' s'.heap s'.graph).2 = .ok r0')
    (hwell : ∀ k s1 r J, Iterations realArith Ldlt.linAlg env k (loopStart realArith env s r0) s1 →
      Linearised s1.heap s.graph.getAllVariables s.graph.getAllFactors r J → WellConditioned J)
    (u u' : OptWorld ℝ RVar (Ldlt.Fact ℝ)) (hret : optimize realArith Ldlt.linAlg env s = (u, .ok ()))
    (hret' : optimize realArith Ldlt.linAlg env' s' = (u', .ok ())) (hst : u.opt.stats.status = .success)
    (hst' : u'.opt.stats.status = .success) : ∀ r, ShiftedVar a (C105.spaceRole r) (u.heap r) (u'.heap r) := by
  subst hs hs'
  refine (C105_shift_levenberg_marquardt_partial Ldlt.exact Ldlt.exact_pivots env env' _ _ (C105.space_prepared ..)
    (C105.space_prepared ..) (C105.space_shifted a v x m R b σ _) rfl rfl ?_ ?_ ?_ ?_ ?_ ?_ r0 r0' hr hr'
    hwell u u' hret hret' (.inl hst) (.inl hst')).1
  · intro r _
    show Reachable ((SpaceWorld.world ..).heap r)
    rw [SpaceWorld.heap_eq]
    match r with
    | 0 => exact hv
    | _ + 1 => exact .landmark _
  · intro r _
    show Reachable ((SpaceWorld.world ..).heap r)
    rw [SpaceWorld.heap_eq]
    match r with
    | 0 => exact hv'
    | _ + 1 => exact .landmark _
  · simp [C105.space, Settings.default, realArith]
  · simp [C105.space, Settings.default, realArith]
  · simp [C105.space, Settings.default, realArith]
  · show 0 < freeTotal (F := ℝ) (SpaceWorld.world ..).heap (SpaceWorld.world ..).graph.getAllVariables
    rw [SpaceWorld.heap_eq, SpaceWorld.vars_eq]
    exact Nat.succ_pos 8

end Factorama.Props
