import Verif.Lemmas.FrameCovariance
import Verif.Props.Turn
import Verif.Props.Optimum

/-!
# Property C124: covariances in another world frame
-/

namespace Factorama.Props
open Spec Graph Opt Matrix Geo

/-- `P` is the covariance the optimizer reports for the variable `v` when `optimize()` is called in state `s`, does not fail, and
is followed by `prepare_to_estimate_covariances()`. -/
def C124.Reported {V Fact : Type} [VarLike ℝ V] (L : LinAlg ℝ Fact) (env : Env ℝ V) (s : OptWorld ℝ V Fact) (v : VRef) (P : Mat ℝ) : Prop :=
  ∃ t u, optimize realArith L env s = (t, .ok ()) ∧ (t.opt.stats.status = .success ∨ t.opt.stats.status = .diverged) ∧
    t.opt.stats.valid = true ∧ prepare realArith L t = (u, .ok ()) ∧ estimateCovariance realArith L u (some v) = .ok (some P)

section
variable {Fact : Type} {L : LinAlg ℝ Fact}

theorem C124.residual {V : Type} [VarLike ℝ V] [LawfulVar ℝ V] {env : Env ℝ V} {s t : OptWorld ℝ V Fact} (hp : Prepared s)
    (hpos : 0 < s.opt.settings.maxIterations) (hret : optimize realArith L env s = (t, .ok ())) (hv : t.opt.stats.valid = true) :
    ∃ r0, (computeResidual env s.heap s.graph).2 = .ok r0 := by
  obtain ⟨r0, _, _, _, h, _⟩ := C110.last env hp.graph hpos hret hv
  exact ⟨r0, h⟩

theorem C124.planeMatrix (phi : ℝ) (role : VRef → PlaneRole) (r : VRef) (v : RVar) (n : Nat) :
    (Matrix.of fun i j : Fin n => planeDirections phi role r v i j) = planeErrors phi (role r) n := by
  have key : (Matrix.of fun i j : Fin n => turnEntry phi i j) = planeTurn phi n := by
    ext i j
    obtain ⟨i, hi⟩ := i
    obtain ⟨j, hj⟩ := j
    simp only [planeTurn, Matrix.of_apply, Fin.mk.injEq]
    match i, j with
    | 0, 0 | 0, 1 | 1, 0 | 1, 1 => simp [turnEntry, turn]
    | i + 2, j => rw [dif_neg (by omega)]; unfold turnEntry; split <;> simp_all
    | 0, j + 2 | 1, j + 2 => rw [dif_neg (by omega)]; simp [turnEntry]
  unfold planeDirections planeErrors
  generalize role r = b
  cases b <;> first | exact key | (ext i j; simp [sameEntry, Matrix.one_apply, Fin.ext_iff])

theorem C124.spaceMatrix (W : M3) (role : VRef → TurnRole) (r : VRef) (v : RVar) (n : Nat) :
    (Matrix.of fun i j : Fin n => spaceDirections W role r v i j) = spaceErrors W (role r) n := by
  have key : (Matrix.of fun i j : Fin n => spinEntry W i j) = spaceTurn W n := by
    ext i j
    simp [spinEntry, spaceTurn, sameEntry, Fin.ext_iff]
  unfold spaceDirections spaceErrors
  generalize role r = b
  cases b <;> first | exact key | (ext i j; simp [sameEntry, Matrix.one_apply, Fin.ext_iff])

/-- **C124**, shifts in space. Two graphs describe the same problem, the second one in a shifted world frame. With an exact
solver, covariances reported for a variable after Gauss-Newton runs on both are the same. -/
theorem C124_shift {a : V3} {role : VRef → SpaceRole} (hL : ExactLinAlg L) (env env' : Env ℝ RVar) (s s' : OptWorld ℝ RVar Fact)
    (hp : Prepared s) (hp' : Prepared s') (hre : C105.Shifted a role s s') (hset : s'.opt.settings = s.opt.settings)
    (hm : s.opt.settings.method = .gaussNewton) (hpos : 0 < s.opt.settings.maxIterations)
    (hv : s.opt.hessianValid = false) (hv' : s'.opt.hessianValid = false) (v : VRef) (hmem : v ∈ s.graph.getAllVariables)
    (P P' : Mat ℝ) (hP : C124.Reported L env s v P) (hP' : C124.Reported L env' s' v P') :
    P'.rows = P.rows ∧ P'.cols = P.cols ∧ ∀ i j, i < P.rows → j < P.cols → P'.entry i j = P.entry i j := by
  obtain ⟨t, u, hret, hst, hvalid, hprep, hcov⟩ := hP
  obtain ⟨t', u', hret', hst', hvalid', hprep', hcov'⟩ := hP'
  obtain ⟨r0, hr⟩ := C124.residual hp hpos hret hvalid
  obtain ⟨r0', hr'⟩ := C124.residual hp' (by rw [hset]; exact hpos) hret' hvalid'
  have hin := Spec.Correspond.gaussNewton_inStep one_pos (H := fun x x' => ∀ r, ShiftedVar a (role r) (x r) (x' r)) hL env env' s s'
    hp hp' (by rw [hre.vars]; exact shifted_correspond hre.facs (C105.nodup hp)) (by rw [hset]; simp [scaledSettings]) hm r0 r0'
  obtain ⟨h1, h2, h3, h4, h5⟩ := turned_run_covariance (τ := fun _ i j => sameEntry i j) hL hp hp' hre.vars
    (hre.facs.imp fun _ _ h => shifted_turnedFactor h) (fun _ _ _ h => shiftedVar_shape h) (fun r v _ _ _ => same_orthogonal r v) hin
    (fun h => by rw [hm] at h; cases h) (fun h => by rw [hset, hm] at h; cases h) hre.heap hset hpos hv hv' hr hr' hret hret' hst hst'
    hvalid hprep hprep' v hmem P P' hcov hcov'
  have e : (Matrix.of fun i j : Fin (VarLike.size (s.heap v)) => sameEntry i j) = 1 := by
    ext i j; simp [sameEntry, Matrix.one_apply, Fin.ext_iff]
  rw [e, Matrix.one_mul, Matrix.transpose_one, Matrix.mul_one] at h5
  refine ⟨h3.trans h1.symm, h4.trans h2.symm, fun i j hi hj => ?_⟩
  exact congrFun (congrFun h5 ⟨i, h1 ▸ hi⟩) ⟨j, h2 ▸ hj⟩

/-- **C124**, shifts in space, Levenberg-Marquardt, for problems that stay well conditioned. -/
theorem C124_shift_levenberg_marquardt {a : V3} {role : VRef → SpaceRole} (hL : ExactLinAlg L) (hP : ExactPivots L) (env env' : Env ℝ RVar) (s s' : OptWorld ℝ RVar Fact)
    (hp : Prepared s) (hp' : Prepared s') (hre : C105.Shifted a role s s')
    (hset : s'.opt.settings = s.opt.settings) (hm : s.opt.settings.method = .levenbergMarquardt)
    (hgood : ∀ r ∈ s.graph.getAllVariables, Reachable (s.heap r)) (hgood' : ∀ r ∈ s'.graph.getAllVariables, Reachable (s'.heap r))
    (hini : 0 < s.opt.settings.initialLambda) (hup : 0 < s.opt.settings.lambdaUp)
    (hmax : 0 < s.opt.settings.maxLambda) (hfree : 0 < freeTotal s.heap s.graph.getAllVariables)
    (hwell : ∀ r0 k s1 r J, Iterations realArith L env k (loopStart realArith env s r0) s1 →
      Linearised s1.heap s.graph.getAllVariables s.graph.getAllFactors r J → WellConditioned J)
    (hpos : 0 < s.opt.settings.maxIterations)
    (hv : s.opt.hessianValid = false) (hv' : s'.opt.hessianValid = false) (v : VRef) (hmem : v ∈ s.graph.getAllVariables)
    (P P' : Mat ℝ) (hcov : C124.Reported L env s v P) (hcov' : C124.Reported L env' s' v P') :
    P'.rows = P.rows ∧ P'.cols = P.cols ∧ ∀ i j, i < P.rows → j < P.cols → P'.entry i j = P.entry i j := by
  obtain ⟨t, u, hret, hst, hvalid, hprep, hcov⟩ := hcov
  obtain ⟨t', u', hret', hst', hvalid', hprep', hcov'⟩ := hcov'
  obtain ⟨r0, hr⟩ := C124.residual hp hpos hret hvalid
  obtain ⟨r0', hr'⟩ := C124.residual hp' (by rw [hset]; exact hpos) hret' hvalid'
  have hfree' : 0 < freeTotal s'.heap s'.graph.getAllVariables := by
    have e : freeTotal s'.heap s.graph.getAllVariables = freeTotal s.heap s.graph.getAllVariables := by
      unfold freeTotal freeSize
      congr 2
      funext r
      rw [(shiftedVar_shape (hre.heap r)).1, (shiftedVar_shape (hre.heap r)).2]
    rw [hre.vars, e]; exact hfree
  have hin := Spec.Correspond.levenbergMarquardt_inStep (H := fun x x' => ∀ r, ShiftedVar a (role r) (x r) (x' r)) hL hP env env' s s'
    hp hp' (by rw [hre.vars]; exact shifted_correspond hre.facs (C105.nodup hp)) hre.heap hset hm (fun _ => ⟨_, C41_partial, hgood⟩)
    (fun _ => ⟨_, C41_partial, hgood'⟩) hini hup hmax hfree hfree' r0 r0' hr hr' (hwell r0)
  obtain ⟨h1, h2, h3, h4, h5⟩ := turned_run_covariance (τ := fun _ i j => sameEntry i j) hL hp hp' hre.vars
    (hre.facs.imp fun _ _ h => shifted_turnedFactor h) (fun _ _ _ h => shiftedVar_shape h) (fun r v _ _ _ => same_orthogonal r v) hin
    (fun _ => ⟨_, C41_partial, hgood⟩) (fun _ => ⟨_, C41_partial, hgood'⟩) hre.heap hset hpos hv hv' hr hr' hret hret' hst hst'
    hvalid hprep hprep' v hmem P P' hcov hcov'
  have e : (Matrix.of fun i j : Fin (VarLike.size (s.heap v)) => sameEntry i j) = 1 := by
    ext i j; simp [sameEntry, Matrix.one_apply, Fin.ext_iff]
  rw [e, Matrix.one_mul, Matrix.transpose_one, Matrix.mul_one] at h5
  refine ⟨h3.trans h1.symm, h4.trans h2.symm, fun i j hi hj => ?_⟩
  exact congrFun (congrFun h5 ⟨i, h1 ▸ hi⟩) ⟨j, h2 ▸ hj⟩

/-- **C124**, motions of the plane. Two graphs describe the same problem, the second one in a world frame turned by `phi` and
shifted. With an exact solver, the covariance reported after a Gauss-Newton run on the second is that reported after a run on
the first, turned by `phi`: for a quantity tied to the axes of the world it is `T P Tᵀ`, where `T` turns a position (and leaves a
heading alone), and for other quantities it is the same. -/
theorem C124_plane {phi : ℝ} {a : V2} {role : VRef → PlaneRole} (hL : ExactLinAlg L) (env env' : Env ℝ RVar)
    (s s' : OptWorld ℝ RVar Fact) (hp : Prepared s) (hp' : Prepared s') (hre : C105.Moved phi a role s s')
    (hset : s'.opt.settings = s.opt.settings) (hm : s.opt.settings.method = .gaussNewton) (hpos : 0 < s.opt.settings.maxIterations)
    (hv : s.opt.hessianValid = false) (hv' : s'.opt.hessianValid = false) (v : VRef) (hmem : v ∈ s.graph.getAllVariables)
    (P P' : Mat ℝ) (hP : C124.Reported L env s v P) (hP' : C124.Reported L env' s' v P') (n : Nat) (hn : VarLike.size (s.heap v) = n) :
    P.rows = n ∧ P.cols = n ∧ P'.rows = n ∧ P'.cols = n ∧
      square n P' = planeErrors phi (role v) n * square n P * (planeErrors phi (role v) n)ᵀ := by
  subst hn
  obtain ⟨t, u, hret, hst, hvalid, hprep, hcov⟩ := hP
  obtain ⟨t', u', hret', hst', hvalid', hprep', hcov'⟩ := hP'
  obtain ⟨r0, hr⟩ := C124.residual hp hpos hret hvalid
  obtain ⟨r0', hr'⟩ := C124.residual hp' (by rw [hset]; exact hpos) hret' hvalid'
  have hin := Spec.Correspond.gaussNewton_inStep one_pos (H := fun x x' => ∀ r, MovedVar phi a (role r) (x r) (x' r)) hL env env' s s'
    hp hp' (by rw [hre.vars]; exact moved_correspond hre.facs (C105.nodup hp)) (by rw [hset]; simp [scaledSettings]) hm r0 r0'
  have := turned_run_covariance (τ := fun r => planeDirections phi role r (.generic ⟨0, true, []⟩)) hL hp hp' hre.vars
    (hre.facs.imp fun _ _ h => moved_factor h) (fun _ _ _ h => movedVar_shape h) (fun _ _ _ hM _ => moved_orthogonal hM) hin
    (fun h => by rw [hm] at h; cases h) (fun h => by rw [hset, hm] at h; cases h) hre.heap hset hpos hv hv' hr hr' hret hret' hst hst'
    hvalid hprep hprep' v hmem P P' hcov hcov'
  rwa [C124.planeMatrix] at this

/-- **C124**, motions of the plane, Levenberg-Marquardt, for problems that stay well conditioned. -/
theorem C124_plane_levenberg_marquardt {phi : ℝ} {a : V2} {role : VRef → PlaneRole} (hL : ExactLinAlg L) (hP : ExactPivots L) (env env' : Env ℝ RVar)
    (s s' : OptWorld ℝ RVar Fact) (hp : Prepared s) (hp' : Prepared s') (hre : C105.Moved phi a role s s')
    (hset : s'.opt.settings = s.opt.settings) (hm : s.opt.settings.method = .levenbergMarquardt)
    (hgood : ∀ r ∈ s.graph.getAllVariables, Reachable (s.heap r)) (hgood' : ∀ r ∈ s'.graph.getAllVariables, Reachable (s'.heap r))
    (hini : 0 < s.opt.settings.initialLambda) (hup : 0 < s.opt.settings.lambdaUp)
    (hmax : 0 < s.opt.settings.maxLambda) (hfree : 0 < freeTotal s.heap s.graph.getAllVariables)
    (hwell : ∀ r0 k s1 r J, Iterations realArith L env k (loopStart realArith env s r0) s1 →
      Linearised s1.heap s.graph.getAllVariables s.graph.getAllFactors r J → WellConditioned J)
    (hpos : 0 < s.opt.settings.maxIterations)
    (hv : s.opt.hessianValid = false) (hv' : s'.opt.hessianValid = false) (v : VRef) (hmem : v ∈ s.graph.getAllVariables)
    (P P' : Mat ℝ) (hcov : C124.Reported L env s v P) (hcov' : C124.Reported L env' s' v P') (n : Nat) (hn : VarLike.size (s.heap v) = n) :
    P.rows = n ∧ P.cols = n ∧ P'.rows = n ∧ P'.cols = n ∧
      square n P' = planeErrors phi (role v) n * square n P * (planeErrors phi (role v) n)ᵀ := by
  subst hn
  obtain ⟨t, u, hret, hst, hvalid, hprep, hcov⟩ := hcov
  obtain ⟨t', u', hret', hst', hvalid', hprep', hcov'⟩ := hcov'
  obtain ⟨r0, hr⟩ := C124.residual hp hpos hret hvalid
  obtain ⟨r0', hr'⟩ := C124.residual hp' (by rw [hset]; exact hpos) hret' hvalid'
  have hfree' : 0 < freeTotal s'.heap s'.graph.getAllVariables := by
    have e : freeTotal s'.heap s.graph.getAllVariables = freeTotal s.heap s.graph.getAllVariables := by
      unfold freeTotal freeSize
      congr 2
      funext r
      rw [(movedVar_shape (hre.heap r)).1, (movedVar_shape (hre.heap r)).2]
    rw [hre.vars, e]; exact hfree
  have hin := Spec.Correspond.levenbergMarquardt_inStep (H := fun x x' => ∀ r, MovedVar phi a (role r) (x r) (x' r)) hL hP env env' s s'
    hp hp' (by rw [hre.vars]; exact moved_correspond hre.facs (C105.nodup hp)) hre.heap hset hm (fun _ => ⟨_, C41_partial, hgood⟩)
    (fun _ => ⟨_, C41_partial, hgood'⟩) hini hup hmax hfree hfree' r0 r0' hr hr' (hwell r0)
  have := turned_run_covariance (τ := fun r => planeDirections phi role r (.generic ⟨0, true, []⟩)) hL hp hp' hre.vars
    (hre.facs.imp fun _ _ h => moved_factor h) (fun _ _ _ h => movedVar_shape h) (fun _ _ _ hM _ => moved_orthogonal hM) hin
    (fun _ => ⟨_, C41_partial, hgood⟩) (fun _ => ⟨_, C41_partial, hgood'⟩) hre.heap hset hpos hv hv' hr hr' hret hret' hst hst'
    hvalid hprep hprep' v hmem P P' hcov hcov'
  rwa [C124.planeMatrix] at this

/-- **C124**, rotations in space, any two linearisations. Two graphs describe the same problem, the second one in a world frame
turned by `W` and shifted. When their last Jacobians were taken at values that describe the same state, the covariance reported
for a variable by the second is that reported by the first, turned by `W`: `T P Tᵀ`, where `T` turns a position (and leaves the
local rotation of a pose alone). No condition on the rotations is needed. -/
theorem C124_space_at {W : M3} (hW : IsRotation W) {a : V3} {role : VRef → TurnRole} (hL : ExactLinAlg L)
    (s s' t t' : OptWorld ℝ RVar Fact) (hp : Prepared s) (hp' : Prepared s') (hre : C105.Turned W a role s s')
    (hv : s.opt.hessianValid = false) (hv' : s'.opt.hessianValid = false) {r r' : List ℝ} {J J' : SpMat ℝ}
    (hJ : s.graph.sparseJacobian = .ok J) (hJ' : s'.graph.sparseJacobian = .ok J')
    (x x' : Heap RVar) (hx : SameShape s.heap x) (hx' : SameShape s'.heap x') (hxx : ∀ q, RotatedVar W a (role q) (x q) (x' q))
    (hlin : Linearised x s.graph.getAllVariables s.graph.getAllFactors r J)
    (hlin' : Linearised x' s'.graph.getAllVariables s'.graph.getAllFactors r' J')
    (hprep : prepare realArith L s = (t, .ok ())) (hprep' : prepare realArith L s' = (t', .ok ())) (v : VRef)
    (hmem : v ∈ s.graph.getAllVariables) (P P' : Mat ℝ) (hP : estimateCovariance realArith L t (some v) = .ok (some P))
    (hP' : estimateCovariance realArith L t' (some v) = .ok (some P')) (n : Nat) (hn : VarLike.size (s.heap v) = n) :
    P.rows = n ∧ P.cols = n ∧ P'.rows = n ∧ P'.cols = n ∧
      square n P' = spaceErrors W (role v) n * square n P * (spaceErrors W (role v) n)ᵀ := by
  subst hn
  have := turned_covariance (τ := spaceDirections W role) hL hp hp' hre.vars (hre.facs.imp fun _ _ h => rotated_factor hW h)
    (fun _ _ _ h => rotatedVar_shape h) (fun _ _ _ hM _ => rotated_orthogonal (mul_eq_one_comm.1 hW.1) hM) hv hv' hxx hx hx' hJ hJ'
    hlin hlin' hprep hprep' v hmem P P' hP hP'
  rw [(hx v).2.2, C124.spaceMatrix] at this
  exact this

/-- **C124**, rotations in space with known poses. Two graphs in which all poses are constant describe the same problem, the
second one in a world frame turned by `W` and shifted. With an exact solver, the covariance reported after a Gauss-Newton run on
the second is that reported after a run on the first, turned by `W`. -/
theorem C124_space_known {W : M3} (hW : IsRotation W) {a : V3} {role : VRef → TurnRole} (hL : ExactLinAlg L) (env env' : Env ℝ RVar)
    (s s' : OptWorld ℝ RVar Fact) (hp : Prepared s) (hp' : Prepared s') (hre : C105.Turned W a role s s')
    (hknown : ∀ r, role r = .pose → VarLike.isConst (s.heap r) = true)
    (hset : s'.opt.settings = s.opt.settings) (hm : s.opt.settings.method = .gaussNewton) (hpos : 0 < s.opt.settings.maxIterations)
    (hv : s.opt.hessianValid = false) (hv' : s'.opt.hessianValid = false) (v : VRef) (hmem : v ∈ s.graph.getAllVariables)
    (P P' : Mat ℝ) (hP : C124.Reported L env s v P) (hP' : C124.Reported L env' s' v P') (n : Nat) (hn : VarLike.size (s.heap v) = n) :
    P.rows = n ∧ P.cols = n ∧ P'.rows = n ∧ P'.cols = n ∧
      square n P' = spaceErrors W (role v) n * square n P * (spaceErrors W (role v) n)ᵀ := by
  subst hn
  obtain ⟨t, u, hret, hst, hvalid, hprep, hcov⟩ := hP
  obtain ⟨t', u', hret', hst', hvalid', hprep', hcov'⟩ := hP'
  obtain ⟨r0, hr⟩ := C124.residual hp hpos hret hvalid
  obtain ⟨r0', hr'⟩ := C124.residual hp' (by rw [hset]; exact hpos) hret' hvalid'
  have hin := Spec.Correspond.gaussNewton_inStep one_pos
    (H := fun h h' => ∀ r, RotatedVar W a (role r) (h r) (h' r) ∧ (role r = .pose → VarLike.isConst (h r) = true)) hL env env' s s'
    hp hp' (by rw [hre.vars]; exact rotated_known_correspond hW hre.facs (C105.nodup hp)) (by rw [hset]; simp [scaledSettings]) hm r0 r0'
  have := turned_run_covariance (τ := fun r => spaceDirections W role r (.generic ⟨0, true, []⟩))
    (M := fun r v v' => RotatedVar W a (role r) v v' ∧ (role r = .pose → VarLike.isConst v = true)) hL hp hp' hre.vars
    (hre.facs.imp fun _ _ h => by
      obtain ⟨h1, h2, Q, h3, h4⟩ := rotated_factor hW h
      exact ⟨h1, h2, Q, h3, fun h h' hM => h4 h h' fun r => (hM r).1⟩)
    (fun _ _ _ h => rotatedVar_shape h.1) (fun _ _ _ hM _ => rotated_orthogonal (mul_eq_one_comm.1 hW.1) hM.1) hin
    (fun h => by rw [hm] at h; cases h) (fun h => by rw [hset, hm] at h; cases h) (fun r => ⟨hre.heap r, hknown r⟩) hset hpos hv hv'
    hr hr' hret hret' hst hst' hvalid hprep hprep' v hmem P P' hcov hcov'
  rwa [C124.spaceMatrix] at this

/-- **C124**, rotations in space. As `C124_space_known` for any poses, when in both runs the rotations of poses are updated exactly
(`C105_turns_exactly` says when). -/
theorem C124_space {W : M3} (hW : IsRotation W) {a : V3} {role : VRef → TurnRole} (hL : ExactLinAlg L) (env env' : Env ℝ RVar)
    (s s' : OptWorld ℝ RVar Fact) (hp : Prepared s) (hp' : Prepared s') (hre : C105.Turned W a role s s')
    (hset : s'.opt.settings = s.opt.settings) (hm : s.opt.settings.method = .gaussNewton) (hpos : 0 < s.opt.settings.maxIterations)
    (hG : ∀ r0 k s1 s2 d, Iterations realArith L env k (loopStart realArith env s r0) s1 → oneStep realArith L env s1 = (s2, .ok ()) →
      Stepped s1.heap s2.heap s.graph.getAllVariables d → StepsAre TurnsExactly s1.heap s2.heap s.graph.getAllVariables d)
    (hG' : ∀ r0 k s1 s2 d, Iterations realArith L env' k (loopStart realArith env' s' r0) s1 → oneStep realArith L env' s1 = (s2, .ok ()) →
      Stepped s1.heap s2.heap s'.graph.getAllVariables d → StepsAre TurnsExactly s1.heap s2.heap s'.graph.getAllVariables d)
    (hv : s.opt.hessianValid = false) (hv' : s'.opt.hessianValid = false) (v : VRef) (hmem : v ∈ s.graph.getAllVariables)
    (P P' : Mat ℝ) (hP : C124.Reported L env s v P) (hP' : C124.Reported L env' s' v P') (n : Nat) (hn : VarLike.size (s.heap v) = n) :
    P.rows = n ∧ P.cols = n ∧ P'.rows = n ∧ P'.cols = n ∧
      square n P' = spaceErrors W (role v) n * square n P * (spaceErrors W (role v) n)ᵀ := by
  subst hn
  obtain ⟨t, u, hret, hst, hvalid, hprep, hcov⟩ := hP
  obtain ⟨t', u', hret', hst', hvalid', hprep', hcov'⟩ := hP'
  obtain ⟨r0, hr⟩ := C124.residual hp hpos hret hvalid
  obtain ⟨r0', hr'⟩ := C124.residual hp' (by rw [hset]; exact hpos) hret' hvalid'
  have hin := Spec.CorrespondWhile.gaussNewton_inStep one_pos (G := TurnsExactly)
    (H := fun h h' => ∀ r, RotatedVar W a (role r) (h r) (h' r)) hL env env' s s'
    hp hp' (by rw [hre.vars]; exact rotated_correspond hW hre.facs (C105.nodup hp)) (by rw [hset]; simp [scaledSettings]) hm r0 r0'
    (hG r0) (hG' r0')
  have := turned_run_covariance (τ := fun r => spaceDirections W role r (.generic ⟨0, true, []⟩))
    (M := fun r v v' => RotatedVar W a (role r) v v') hL hp hp' hre.vars
    (hre.facs.imp fun _ _ h => rotated_factor hW h)
    (fun _ _ _ h => rotatedVar_shape h) (fun _ _ _ hM _ => rotated_orthogonal (mul_eq_one_comm.1 hW.1) hM) hin
    (fun h => by rw [hm] at h; cases h) (fun h => by rw [hset, hm] at h; cases h) hre.heap hset hpos hv hv'
    hr hr' hret hret' hst hst' hvalid hprep hprep' v hmem P P' hcov hcov'
  rwa [C124.spaceMatrix] at this

end

/-! ### Examples -/

/-- A covariance is reported for a landmark that is seen where it is. -/
theorem C124.sighted {v : PoseVar} {x : V3} (hR : IsRotation v.dcm) (hx : (x - v.pos) ⬝ᵥ (x - v.pos) = 1) (env : Env ℝ RVar) :
    ∃ P, C124.Reported Ldlt.linAlg env (C26.sighted v x) 1 P ∧ P.rows = 3 ∧ P.cols = 3 := by
  obtain ⟨r, J, hlin⟩ := C26.sighted_linearised hR hx
  have hb := C26.sighted_between hR hx hlin
  obtain ⟨h1, h2, h3, h4⟩ := C121.gn_facts
  obtain ⟨t, u, e1, e2, e3, e4, e5⟩ := C123_optimum Ldlt.exact Ldlt.exact_pivots env (C26.sighted_prepared v x) (C26.sighted_zero v x)
    h1 h3 h4 rfl (C26.sighted_free v x) hlin (C26.sighted_gradient hlin) ⟨1, 2, hb, by norm_num, by norm_num⟩ fun z => by
      have := (hb z).1
      have h0 : 0 ≤ z ⬝ᵥ z := Finset.sum_nonneg fun i _ => mul_self_nonneg _
      norm_num at this ⊢
      nlinarith
  obtain ⟨P, e6, e7, e8, _⟩ := e5 1 (by rw [C26.sighted_vars]; simp) (by rw [C26.sighted_heap]; rfl)
    (by rw [C26.sighted_heap]; exact Nat.succ_pos 2)
  rw [C26.sighted_heap] at e7 e8
  exact ⟨P, ⟨t, u, e1, .inl e2, e3, e4, e6⟩, e7, e8⟩

/-- The same landmark in a turned and shifted frame: both covariances are reported, and the second is the first one turned. -/
example (W : M3) (hW : IsRotation W) (a : V3) (v v' : PoseVar) (hR : IsRotation v.dcm) (hpos : v'.pos = W *ᵥ v.pos + a)
    (hdcm : v'.dcm = v.dcm * Wᵀ) (x : V3) (hx : (x - v.pos) ⬝ᵥ (x - v.pos) = 1) (env env' : Env ℝ RVar) :
    ∃ P P', C124.Reported Ldlt.linAlg env (C26.sighted v x) 1 P ∧ C124.Reported Ldlt.linAlg env' (C26.sighted v' (W *ᵥ x + a)) 1 P' ∧
      square 3 P' = spaceTurn W 3 * square 3 P * (spaceTurn W 3)ᵀ := by
  have hWW : Wᵀ * W = 1 := mul_eq_one_comm.1 hW.1
  have ed : W *ᵥ x + a - v'.pos = W *ᵥ (x - v.pos) := by rw [hpos, mulVec_sub, add_sub_add_right_eq_sub]
  have hR' : IsRotation v'.dcm := by
    refine ⟨?_, ?_⟩
    · rw [hdcm, transpose_mul, transpose_transpose, Matrix.mul_assoc, ← Matrix.mul_assoc Wᵀ, hWW, Matrix.one_mul, hR.1]
    · rw [hdcm, det_mul, det_transpose, hR.2, hW.2, mul_one]
  have hx' : (W *ᵥ x + a - v'.pos) ⬝ᵥ (W *ᵥ x + a - v'.pos) = 1 := by
    rw [ed, dotProduct_mulVec, ← mulVec_transpose, mulVec_mulVec, hWW, one_mulVec, hx]
  obtain ⟨P, hP, hrows⟩ := C124.sighted hR hx env
  obtain ⟨P', hP', _⟩ := C124.sighted hR' hx' env'
  have hb : v'.dcm *ᵥ (W *ᵥ x + a - v'.pos) = v.dcm *ᵥ (x - v.pos) := by
    rw [ed, hdcm, mulVec_mulVec, Matrix.mul_assoc, hWW, Matrix.mul_one]
  have ht : C105.Turned W a C105.turnRole (C26.sighted v x) (C26.sighted v' (W *ᵥ x + a)) := by
    unfold C26.sighted
    rw [hb]
    exact C105.sight_turned W a v v' hpos hdcm x x _ 1 1 _
  refine ⟨P, P', hP, hP', ?_⟩
  exact (C124_space_known hW Ldlt.exact env env' _ _ (C26.sighted_prepared ..) (C26.sighted_prepared ..) ht (C105.sight_known _ _ _ _ _ _ _)
    rfl C121.gn_facts.1 C121.gn_facts.2.2.1 rfl rfl 1 (by rw [C26.sighted_vars]; simp) P P' hP hP' 3
    (by rw [C26.sighted_heap]; rfl)).2.2.2.2

/-- In a frame that is only shifted the covariance is the same. -/
example (a : V3) (v v' : PoseVar) (hR : IsRotation v.dcm) (hv' : v' = { v with pos := v.pos + a })
    (x : V3) (hx : (x - v.pos) ⬝ᵥ (x - v.pos) = 1) (env env' : Env ℝ RVar) :
    ∃ P P', C124.Reported Ldlt.linAlg env (C26.sighted v x) 1 P ∧ C124.Reported Ldlt.linAlg env' (C26.sighted v' (x + a)) 1 P' ∧
      ∀ i j, i < 3 → j < 3 → P'.entry i j = P.entry i j := by
  subst hv'
  obtain ⟨P, hP, hrows⟩ := C124.sighted hR hx env
  obtain ⟨P', hP', _⟩ := C124.sighted (v := { v with pos := v.pos + a }) (x := x + a) hR (by simpa using hx) env'
  have ht : C105.Shifted a C105.spaceRole (C26.sighted v x) (C26.sighted { v with pos := v.pos + a } (x + a)) := by
    refine ⟨?_, ?_, ?_⟩
    · rw [C26.sighted_heap, C26.sighted_heap]
      intro r
      match r with
      | 0 => exact .pose { v with id := 1, isConst := true }
      | _ + 1 => exact .landmark 2 false x
    · rw [C26.sighted_vars, C26.sighted_vars]
    · rw [C26.sighted_facs, C26.sighted_facs, show ({ v with pos := v.pos + a } : PoseVar).dcm *ᵥ (x + a - (v.pos + a)) =
        v.dcm *ᵥ (x - v.pos) by rw [add_sub_add_right_eq_sub]]
      exact .cons (.bearingObservation _ _ _ _ _) (.cons (.placePrior _ _ _ _ (.inl rfl)) .nil)
  refine ⟨P, P', hP, hP', ?_⟩
  have := (C124_shift Ldlt.exact env env' _ _ (C26.sighted_prepared ..) (C26.sighted_prepared ..) ht
    rfl C121.gn_facts.1 C121.gn_facts.2.2.1 rfl rfl 1 (by rw [C26.sighted_vars]; simp) P P' hP hP').2.2
  rwa [hrows.1, hrows.2] at this

/-- A planar pose with a prior and a landmark, described in two frames: the covariance of the landmark is turned. -/
example (phi : ℝ) (a p : V2) (θ : ℝ) (l x : V2) (t range bearing σ : ℝ) (env env' : Env ℝ RVar) (P P' : Mat ℝ)
    (hP : C124.Reported Ldlt.linAlg env (C105.planar p θ l x t range bearing σ (Settings.default realArith)) 1 P)
    (hP' : C124.Reported Ldlt.linAlg env' (C105.planar (turn phi *ᵥ p + a) (wrapAngle (θ + phi)) (turn phi *ᵥ l + a) (turn phi *ᵥ x + a)
      (t + phi) range bearing σ (Settings.default realArith)) 1 P') :
    square 2 P' = planeTurn phi 2 * square 2 P * (planeTurn phi 2)ᵀ :=
  (C124_plane Ldlt.exact env env' _ _ (C105.planar_prepared ..) (C105.planar_prepared ..)
    (C105.planar_moved phi a p θ l x t range bearing σ _) rfl C121.gn_facts.1 C121.gn_facts.2.2.1 rfl rfl 1
    (show 1 ∈ (PlanarWorld.world ..).graph.getAllVariables by rw [PlanarWorld.vars_eq]; simp) P P' hP hP' 2
    (show VarLike.size ((PlanarWorld.world ..).heap 1) = 2 by rw [PlanarWorld.heap_eq]; rfl)).2.2.2.2

/-- The matrix is the usual rotation of the plane. -/
example (phi : ℝ) : planeTurn phi 2 0 0 = Real.cos phi ∧ planeTurn phi 2 0 1 = -Real.sin phi ∧ planeTurn phi 2 1 0 = Real.sin phi ∧
    planeTurn phi 3 2 2 = 1 ∧ planeTurn phi 3 0 2 = 0 := by
  simp [planeTurn, turn]

/-- The same with Levenberg-Marquardt. -/
example (phi : ℝ) (a p : V2) (θ : ℝ) (l x : V2) (t range bearing σ : ℝ) (env env' : Env ℝ RVar) (P P' : Mat ℝ) (s s')
    (hs : s = C105.planar p (wrapAngle θ) l x t range bearing σ { Settings.default realArith with method := .levenbergMarquardt })
    (hs' : s' = C105.planar (turn phi *ᵥ p + a) (wrapAngle (wrapAngle θ + phi)) (turn phi *ᵥ l + a) (turn phi *ᵥ x + a) (t + phi) range
      bearing σ { Settings.default realArith with method := .levenbergMarquardt })
    (hwell : ∀ r0 k s1 r J, Iterations realArith Ldlt.linAlg env k (loopStart realArith env s r0) s1 →
      Linearised s1.heap s.graph.getAllVariables s.graph.getAllFactors r J → WellConditioned J)
    (hP : C124.Reported Ldlt.linAlg env s 0 P) (hP' : C124.Reported Ldlt.linAlg env' s' 0 P') :
    square 3 P' = planeTurn phi 3 * square 3 P * (planeTurn phi 3)ᵀ := by
  have good : ∀ (p : V2) (θ x y : ℝ) r, Reachable (PlanarWorld.heap p (wrapAngle θ) x y r) := by
    intro p θ x y r
    match r with
    | 0 => exact .pose2d (.make 1 p θ)
    | _ + 1 => exact .generic _
  subst hs hs'
  refine (C124_plane_levenberg_marquardt Ldlt.exact Ldlt.exact_pivots env env' _ _ (C105.planar_prepared ..) (C105.planar_prepared ..)
    (C105.planar_moved phi a p (wrapAngle θ) l x t range bearing σ _) rfl rfl ?_ ?_ ?_ ?_ ?_ ?_ hwell C121.gn_facts.2.2.1 rfl rfl 0
    (show 0 ∈ (PlanarWorld.world ..).graph.getAllVariables by rw [PlanarWorld.vars_eq]; simp) P P' hP hP' 3
    (show VarLike.size ((PlanarWorld.world ..).heap 0) = 3 by rw [PlanarWorld.heap_eq]; rfl)).2.2.2.2
  · intro r _
    show Reachable ((PlanarWorld.world ..).heap r)
    rw [PlanarWorld.heap_eq]
    exact good ..
  · intro r _
    show Reachable ((PlanarWorld.world ..).heap r)
    rw [PlanarWorld.heap_eq]
    exact good ..
  · simp [C105.planar, Settings.default, realArith]
  · simp [C105.planar, Settings.default, realArith]
  · simp [C105.planar, Settings.default, realArith]
  · show 0 < freeTotal (F := ℝ) (PlanarWorld.world ..).heap (PlanarWorld.world ..).graph.getAllVariables
    rw [PlanarWorld.heap_eq, PlanarWorld.vars_eq]
    exact Nat.succ_pos 4

/-- A free pose with priors that sees a landmark, shifted, Levenberg-Marquardt. -/
example (a : V3) (v : PoseVar) (hv : Reachable (.pose { v with id := 1, isConst := false }))
    (hv' : Reachable (.pose { v with id := 1, isConst := false, pos := v.pos + a })) (x m : V3) (R : M3) (b : V3) (σ : ℝ)
    (env env' : Env ℝ RVar) (s s')
    (hs : s = C105.space v x m R b σ { Settings.default realArith with method := .levenbergMarquardt })
    (hs' : s' = C105.space { v with pos := v.pos + a } (x + a) (m + a) R b σ
      { Settings.default realArith with method := .levenbergMarquardt })
    (hwell : ∀ r0 k s1 r J, Iterations realArith Ldlt.linAlg env k (loopStart realArith env s r0) s1 →
      Linearised s1.heap s.graph.getAllVariables s.graph.getAllFactors r J → WellConditioned J)
    (P P' : Mat ℝ) (hP : C124.Reported Ldlt.linAlg env s 0 P) (hP' : C124.Reported Ldlt.linAlg env' s' 0 P') :
    P'.rows = P.rows ∧ P'.cols = P.cols ∧ ∀ i j, i < P.rows → j < P.cols → P'.entry i j = P.entry i j := by
  subst hs hs'
  refine C124_shift_levenberg_marquardt Ldlt.exact Ldlt.exact_pivots env env' _ _ (C105.space_prepared ..) (C105.space_prepared ..)
    (C105.space_shifted a v x m R b σ _) rfl rfl ?_ ?_ ?_ ?_ ?_ ?_ hwell C121.gn_facts.2.2.1 rfl rfl 0
    (show 0 ∈ (SpaceWorld.world ..).graph.getAllVariables by rw [SpaceWorld.vars_eq]; simp) P P' hP hP'
  · intro r _
    show Reachable ((SpaceWorld.world ..).heap r)
    rw [SpaceWorld.heap_eq]
    match r with
    | 0 => exact hv
    | _ + 1 => exact .landmark _
  · intro r _
    show Reachable ((SpaceWorld.world ..).heap r)
    rw [SpaceWorld.heap_eq]
    match r with
    | 0 => exact hv'
    | _ + 1 => exact .landmark _
  · simp [C105.space, Settings.default, realArith]
  · simp [C105.space, Settings.default, realArith]
  · simp [C105.space, Settings.default, realArith]
  · show 0 < freeTotal (F := ℝ) (SpaceWorld.world ..).heap (SpaceWorld.world ..).graph.getAllVariables
    rw [SpaceWorld.heap_eq, SpaceWorld.vars_eq]
    exact Nat.succ_pos 8

/-- A free pose with priors that sees a landmark, in a turned frame: the covariance of the pose. Its position errors are turned, the
errors of its local rotation are not. -/
example (W : M3) (hW : IsRotation W) (a : V3) (v v' : PoseVar) (hpos : v'.pos = W *ᵥ v.pos + a) (hdcm : v'.dcm = v.dcm * Wᵀ) (x m : V3)
    (R : M3) (hR : IsRotation R) (h1 : 1e-5 ≤ angle R) (h2 : 1e-5 ≤ angle (R * Wᵀ)) (b : V3) (σ : ℝ) (env env' : Env ℝ RVar)
    (s s') (hs : s = C105.space v x m R b σ (Settings.default realArith))
    (hs' : s' = C105.space v' (W *ᵥ x + a) (W *ᵥ m + a) (R * Wᵀ) b σ (Settings.default realArith))
    (hG : ∀ r0 k s1 s2 d, Iterations realArith Ldlt.linAlg env k (loopStart realArith env s r0) s1 →
      oneStep realArith Ldlt.linAlg env s1 = (s2, .ok ()) → Stepped s1.heap s2.heap s.graph.getAllVariables d →
      StepsAre TurnsExactly s1.heap s2.heap s.graph.getAllVariables d)
    (hG' : ∀ r0 k s1 s2 d, Iterations realArith Ldlt.linAlg env' k (loopStart realArith env' s' r0) s1 →
      oneStep realArith Ldlt.linAlg env' s1 = (s2, .ok ()) → Stepped s1.heap s2.heap s'.graph.getAllVariables d →
      StepsAre TurnsExactly s1.heap s2.heap s'.graph.getAllVariables d)
    (P P' : Mat ℝ) (hP : C124.Reported Ldlt.linAlg env s 0 P) (hP' : C124.Reported Ldlt.linAlg env' s' 0 P') :
    square 6 P' = spaceTurn W 6 * square 6 P * (spaceTurn W 6)ᵀ ∧ spaceTurn W 6 0 1 = W 0 1 ∧ spaceTurn W 6 3 3 = 1 ∧
      spaceTurn W 6 3 4 = 0 ∧ spaceTurn W 6 0 3 = 0 := by
  subst hs hs'
  refine ⟨(C124_space hW Ldlt.exact env env' _ _ (C105.space_prepared ..) (C105.space_prepared ..)
    (C105.space_turned W a v v' hpos hdcm x m R hR h1 h2 b σ _) rfl C121.gn_facts.1 C121.gn_facts.2.2.1 hG hG' rfl rfl 0
    (show 0 ∈ (SpaceWorld.world ..).graph.getAllVariables by rw [SpaceWorld.vars_eq]; simp) P P' hP hP' 6
    (show VarLike.size ((SpaceWorld.world ..).heap 0) = 6 by rw [SpaceWorld.heap_eq]; rfl)).2.2.2.2, ?_⟩
  simp [spaceTurn]

end Factorama.Props
