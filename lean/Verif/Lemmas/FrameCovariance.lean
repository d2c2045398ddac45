import Verif.Lemmas.FrameTurn
import Verif.Lemmas.FrameSpace
import Verif.Lemmas.FramePlane
import Verif.Spec.FrameCovariance
import Verif.Props.CovarianceValue
import Verif.Props.AfterRun
import Verif.Lemmas.CorrespondWhile

/-!
# Covariances of turned problems
-/

namespace Factorama
open Spec Opt Graph Matrix Geo Props
variable {V Fact : Type} [VarLike ℝ V] [LawfulVar ℝ V] {L : LinAlg ℝ Fact}

/-- The inverse of a turned matrix. -/
theorem inverse_turned {N N' : Nat} (hN : N' = N) {G : Matrix (Fin N) (Fin N) ℝ} {G' : Matrix (Fin N') (Fin N') ℝ}
    {B : Matrix (Fin N') (Fin N) ℝ} (h1 : Bᵀ * B = 1) (h2 : B * Bᵀ = 1) (h3 : G' * B = B * G) (hu : IsUnit G) :
    G'⁻¹ = B * G⁻¹ * Bᵀ := by
  subst hN
  apply Matrix.inv_eq_right_inv
  have : G' * (B * G⁻¹ * Bᵀ) = (G' * B) * G⁻¹ * Bᵀ := by simp only [Matrix.mul_assoc]
  rw [this, h3, Matrix.mul_assoc B, mul_nonsing_inv _ ((isUnit_iff_isUnit_det _).1 hu), Matrix.mul_one, h2]

/-- A block of a turned matrix. -/
theorem block_turned {N N' n c : Nat} (hc : c + n ≤ N) (hc' : c + n ≤ N') {B : Matrix (Fin N') (Fin N) ℝ} {T : Nat → Nat → ℝ}
    (hB : ∀ d d' : Nat → ℝ, ((fun j => d' j) : Fin N' → ℝ) = B *ᵥ (fun j => d j) →
      ∀ i : Fin n, d' (c + i) = ∑ a : Fin n, T i a * d (c + a)) (M : Matrix (Fin N) (Fin N) ℝ) (i j : Fin n) :
    (B * M * Bᵀ) ⟨c + i, by omega⟩ ⟨c + j, by omega⟩ =
      ∑ b : Fin n, (∑ a : Fin n, T i a * M ⟨c + a, by omega⟩ ⟨c + b, by omega⟩) * T j b := by
  have key : ∀ (x : Fin N → ℝ) (i : Fin n), (B *ᵥ x) ⟨c + i, by omega⟩ = ∑ a : Fin n, T i a * x ⟨c + a, by omega⟩ := by
    intro x i
    have := hB (fun j => if h : j < N then x ⟨j, h⟩ else 0) (fun j => if h : j < N' then (B *ᵥ x) ⟨j, h⟩ else 0)
      (by funext j; simp) i
    rw [dif_pos (by omega)] at this
    rw [this]
    exact Finset.sum_congr rfl fun a _ => by rw [dif_pos (by omega)]
  have e : ∀ k, (B * M * Bᵀ) k ⟨c + j, by omega⟩ = (B *ᵥ fun l => (B * M) k l) ⟨c + j, by omega⟩ := by
    intro k
    rw [Matrix.mul_apply]
    exact Finset.sum_congr rfl fun l _ => mul_comm _ _
  rw [e, key]
  refine Finset.sum_congr rfl fun b _ => ?_
  rw [mul_comm]
  congr 1
  exact key (fun l => M l ⟨c + b, by omega⟩) i

/-- Covariances of turned problems. -/
theorem turned_covariance (hL : ExactLinAlg L) {τ : VRef → V → Nat → Nat → ℝ} {M : VRef → V → V → Prop}
    {s s' t t' : OptWorld ℝ V Fact} (hp : Prepared s) (hp' : Prepared s') (hvars : s'.graph.getAllVariables = s.graph.getAllVariables)
    (hf : List.Forall₂ (TurnedFactor τ M) s.graph.getAllFactors s'.graph.getAllFactors)
    (hshape : ∀ r v v', M r v v' → VarLike.isConst v' = VarLike.isConst v ∧ VarLike.size v' = VarLike.size v)
    (horth : ∀ r v v', M r v v' → VarLike.isConst v = false →
      (Matrix.of fun i j : Fin (VarLike.size v) => τ r v i j)ᵀ * (Matrix.of fun i j : Fin (VarLike.size v) => τ r v i j) = 1)
    (hv : s.opt.hessianValid = false) (hv' : s'.opt.hessianValid = false) {x x' : Heap V} (hM : ∀ q, M q (x q) (x' q))
    (hx : SameShape s.heap x) (hx' : SameShape s'.heap x')
    {r r' : List ℝ} {J J' : SpMat ℝ} (hJ : s.graph.sparseJacobian = .ok J) (hJ' : s'.graph.sparseJacobian = .ok J')
    (hlin : Linearised x s.graph.getAllVariables s.graph.getAllFactors r J)
    (hlin' : Linearised x' s'.graph.getAllVariables s'.graph.getAllFactors r' J')
    (hprep : prepare realArith L s = (t, .ok ())) (hprep' : prepare realArith L s' = (t', .ok ())) (v : VRef)
    (hmem : v ∈ s.graph.getAllVariables) (P P' : Mat ℝ) (hP : estimateCovariance realArith L t (some v) = .ok (some P))
    (hP' : estimateCovariance realArith L t' (some v) = .ok (some P')) :
    P.rows = VarLike.size (x v) ∧ P.cols = VarLike.size (x v) ∧ P'.rows = VarLike.size (x v) ∧ P'.cols = VarLike.size (x v) ∧
      square (VarLike.size (x v)) P' = (Matrix.of fun i j : Fin (VarLike.size (x v)) => τ v (x v) i j) *
        square (VarLike.size (x v)) P * (Matrix.of fun i j : Fin (VarLike.size (x v)) => τ v (x v) i j)ᵀ := by
  obtain ⟨h0, pre, post, hw, _⟩ := hp.history
  obtain ⟨h0', pre', post', hw', _⟩ := hp'.history
  have hn : s.graph.getAllVariables.Nodup := List.Nodup.of_map _ (finalizedAfter_layout hw).ids
  obtain ⟨J1, e1, hu, z1, z2, hent, _⟩ := C30_block hL hw hv hprep v hmem P hP
  obtain ⟨J2, e2, hu', z1', z2', hent', _⟩ := C30_block hL hw' hv' hprep' v (by rw [hvars]; exact hmem) P' hP'
  rw [hJ] at e1
  rw [hJ'] at e2
  obtain rfl := Res.ok.inj e1
  obtain rfl := Res.ok.inj e2
  have hc : VarLike.isConst (x v) = false := by
    obtain ⟨r, p, f, X, hr, hc, hv1, _⟩ := estimateCovariance_some hP
    obtain rfl := Option.some.inj hr
    obtain ⟨_, _, _, _, _, _, _, hheap, _⟩ := C31_partial realArith L s t hv hprep hv1
    rw [hheap] at hc
    rw [(hx v).2.1, hc]
  rw [hvars] at hlin' hent'
  obtain ⟨B, b1, b2, b3, _, b5⟩ := turned_linear hf hn hshape horth hM hlin hlin'
  have hsz : VarLike.size (s'.heap v) = VarLike.size (x v) := by rw [← (hx' v).2.2]; exact (hshape _ _ _ (hM v)).2
  have hco : colStart s'.heap s.graph.getAllVariables v = colStart x s.graph.getAllVariables v := by
    rw [← hx'.colStart_eq]
    simp only [colStart, freeTotal, freeSize, fun r => (hshape r _ _ (hM r)).1, fun r => (hshape r _ _ (hM r)).2]
  rw [← (hx v).2.2] at z1 z2 hent
  rw [← hx.colStart_eq] at hent
  rw [hsz, hco] at hent'
  rw [hsz] at z1' z2'
  refine ⟨z1, z2, z1', z2', ?_⟩
  have hcols : J'.columns.length = J.columns.length := by
    rw [hlin.columns, hlin'.columns]
    simp only [freeTotal, freeSize, fun r => (hshape r _ _ (hM r)).1, fun r => (hshape r _ _ (hM r)).2]
  have hinv := inverse_turned hcols b1 b2 b3 hu
  ext i j
  have hle : colStart x s.graph.getAllVariables v + VarLike.size (x v) ≤ J.columns.length := by
    have hi := i.2
    obtain ⟨g, _⟩ := hent (VarLike.size (x v) - 1) (VarLike.size (x v) - 1) (by omega) (by omega)
    omega
  have hblock := block_turned (n := VarLike.size (x v)) hle (hcols ▸ hle) (T := τ v (x v)) (fun d d' h => b5 d d' h v hmem hc)
    ((jacobianMatrix J)ᵀ * jacobianMatrix J)⁻¹ i j
  obtain ⟨_, _, e'⟩ := hent' i j i.2 j.2
  rw [← hinv] at hblock
  show P'.entry i j = _
  rw [e', hblock, Matrix.mul_apply]
  refine Finset.sum_congr rfl fun b _ => ?_
  rw [Matrix.transpose_apply, Matrix.of_apply, Matrix.mul_apply]
  congr 1
  refine Finset.sum_congr rfl fun c _ => ?_
  obtain ⟨_, _, e⟩ := hent c b c.2 b.2
  rw [Matrix.of_apply]
  show _ = _ * P.entry c b
  rw [e]

/-- The last Jacobians of two runs in step are those at corresponding values. -/
theorem InStepBy.last {H : Heap V → Heap V → Prop} {env env' : Env ℝ V} {s s' t t' : OptWorld ℝ V Fact} {r0 r0' : List ℝ}
    (h : InStepBy 1 H L env env' (loopStart realArith env s r0) (loopStart realArith env' s' r0')) (hp : Prepared s) (hp' : Prepared s')
    (hrest : Restorable s) (hrest' : Restorable s') (hH : H s.heap s'.heap)
    (hstart : startStats realArith r0' = scaledStats 1 (startStats realArith r0))
    (hset : s'.opt.settings = s.opt.settings) (hpos : 0 < s.opt.settings.maxIterations)
    (hr : (Graph.computeResidual env s.heap s.graph).2 = .ok r0) (hr' : (Graph.computeResidual env' s'.heap s'.graph).2 = .ok r0')
    (hret : optimize realArith L env s = (t, .ok ())) (hret' : optimize realArith L env' s' = (t', .ok ()))
    (hst : t.opt.stats.status = .success ∨ t.opt.stats.status = .diverged)
    (hst' : t'.opt.stats.status = .success ∨ t'.opt.stats.status = .diverged) (hvalid : t.opt.stats.valid = true) :
    (Prepared t ∧ Prepared t') ∧ (t.opt.hessianValid = s.opt.hessianValid ∧ t'.opt.hessianValid = s'.opt.hessianValid) ∧
    (t.graph.getAllVariables = s.graph.getAllVariables ∧ t'.graph.getAllVariables = s'.graph.getAllVariables) ∧
    (t.graph.getAllFactors = s.graph.getAllFactors ∧ t'.graph.getAllFactors = s'.graph.getAllFactors) ∧
    (SameShape s.heap t.heap ∧ SameShape s'.heap t'.heap) ∧
    ∃ x x' r r' J J', H x x' ∧ (SameShape s.heap x ∧ SameShape s'.heap x') ∧
      Linearised x s.graph.getAllVariables s.graph.getAllFactors r J ∧
      Linearised x' s'.graph.getAllVariables s'.graph.getAllFactors r' J' ∧
      t.graph.sparseJacobian = .ok J ∧ t'.graph.sparseJacobian = .ok J' := by
  have hsys : ∀ st : Status, st = .success ∨ st = .diverged → ¬ Status.isSystemError st := by
    rintro st (rfl | rfl) <;> simp [Status.isSystemError]
  obtain ⟨_, hstats⟩ := h.ends one_pos hH hstart (by rw [hset]; simp [scaledSettings]) hp.graph hp'.graph hr hr' hret hret' (hsys _ hst)
    (hsys _ hst')
  have hvalid' : t'.opt.stats.valid = true := by rw [hstats]; exact hvalid
  obtain ⟨a1, a2, a3, a4, a5, q0, k, s1, r, J, b1, b2, b3, b4, b5, b6⟩ := afterRun_at env hp hrest hpos hret hvalid
  obtain ⟨a1', a2', a3', a4', a5', q0', k', s1', r', J', b1', b2', b3', b4', b5', b6'⟩ :=
    afterRun_at env' hp' hrest' (by rw [hset]; exact hpos) hret' hvalid'
  rw [hr] at b1
  rw [hr'] at b1'
  obtain rfl := Res.ok.inj b1
  obtain rfl := Res.ok.inj b1'
  have hk : k' = k := by
    have e : t'.opt.stats.iteration = t.opt.stats.iteration := by rw [hstats]; rfl
    omega
  subst hk
  exact ⟨⟨a1, a1'⟩, ⟨a2, a2'⟩, ⟨a3, a3'⟩, ⟨a4, a4'⟩, ⟨a5, a5'⟩, s1.heap, s1'.heap, r, r', J, J', (h.iterations hH hstart b2 b2').1,
    ⟨b4, b4'⟩, b5, b5', b6, b6'⟩

/-- Covariances after runs on turned problems. -/
theorem turned_run_covariance (hL : ExactLinAlg L) {τ : VRef → Nat → Nat → ℝ} {M : VRef → V → V → Prop}
    {env env' : Env ℝ V} {s s' t t' u u' : OptWorld ℝ V Fact} (hp : Prepared s) (hp' : Prepared s')
    (hvars : s'.graph.getAllVariables = s.graph.getAllVariables)
    (hf : List.Forall₂ (TurnedFactor (fun r _ => τ r) M) s.graph.getAllFactors s'.graph.getAllFactors)
    (hshape : ∀ r v v', M r v v' → VarLike.isConst v' = VarLike.isConst v ∧ VarLike.size v' = VarLike.size v)
    (horth : ∀ r v v', M r v v' → VarLike.isConst v = false →
      (Matrix.of fun i j : Fin (VarLike.size v) => τ r i j)ᵀ * (Matrix.of fun i j : Fin (VarLike.size v) => τ r i j) = 1)
    {r0 r0' : List ℝ}
    (hin : InStepBy 1 (fun h h' => ∀ q, M q (h q) (h' q)) L env env' (loopStart realArith env s r0) (loopStart realArith env' s' r0'))
    (hrest : Restorable s) (hrest' : Restorable s') (hH : ∀ q, M q (s.heap q) (s'.heap q))
    (hset : s'.opt.settings = s.opt.settings) (hpos : 0 < s.opt.settings.maxIterations)
    (hv : s.opt.hessianValid = false) (hv' : s'.opt.hessianValid = false)
    (hr : (Graph.computeResidual env s.heap s.graph).2 = .ok r0) (hr' : (Graph.computeResidual env' s'.heap s'.graph).2 = .ok r0')
    (hret : optimize realArith L env s = (t, .ok ())) (hret' : optimize realArith L env' s' = (t', .ok ()))
    (hst : t.opt.stats.status = .success ∨ t.opt.stats.status = .diverged)
    (hst' : t'.opt.stats.status = .success ∨ t'.opt.stats.status = .diverged) (hvalid : t.opt.stats.valid = true)
    (hprep : prepare realArith L t = (u, .ok ())) (hprep' : prepare realArith L t' = (u', .ok ())) (v : VRef)
    (hmem : v ∈ s.graph.getAllVariables) (P P' : Mat ℝ) (hP : estimateCovariance realArith L u (some v) = .ok (some P))
    (hP' : estimateCovariance realArith L u' (some v) = .ok (some P')) :
    P.rows = VarLike.size (s.heap v) ∧ P.cols = VarLike.size (s.heap v) ∧ P'.rows = VarLike.size (s.heap v) ∧
      P'.cols = VarLike.size (s.heap v) ∧
      square (VarLike.size (s.heap v)) P' = (Matrix.of fun i j : Fin (VarLike.size (s.heap v)) => τ v i j) *
        square (VarLike.size (s.heap v)) P * (Matrix.of fun i j : Fin (VarLike.size (s.heap v)) => τ v i j)ᵀ := by
  obtain ⟨h0, pre, post, hw, hpre⟩ := hp.history
  obtain ⟨h0', pre', post', hw', hpre'⟩ := hp'.history
  have hn : s.graph.getAllVariables.Nodup := List.Nodup.of_map _ (finalizedAfter_layout hw).ids
  have hres0 := evaluated_isResidual (finalizedAfter_layout hw) (computeResidual_evaluated hr)
  have hres0' := evaluated_isResidual (finalizedAfter_layout hw') (computeResidual_evaluated hr')
  have hcost := turned_cost hf hH hres0 hres0'
  obtain ⟨⟨c1, c1'⟩, ⟨c2, c2'⟩, ⟨c3, c3'⟩, ⟨c4, c4'⟩, ⟨c5, c5'⟩, x, x', r, r', J, J', hM, ⟨hx, hx'⟩, hlin, hlin', hJ, hJ'⟩ :=
    hin.last hp hp' hrest hrest' hH (startStats_scaled one_pos (by rw [one_pow, one_mul]; exact hcost)) hset hpos hr hr' hret hret'
      hst hst' hvalid
  have := turned_covariance hL c1 c1' (c3'.trans (hvars.trans c3.symm)) (by rw [c4, c4']; exact hf) hshape horth (c2.trans hv)
    (c2'.trans hv') hM (c5.symm.trans hx) (c5'.symm.trans hx') hJ hJ' (by rw [c3, c4]; exact hlin) (by rw [c3', c4']; exact hlin')
    hprep hprep' v (by rw [c3]; exact hmem) P P' hP hP'
  rw [(hx v).2.2] at this
  exact this

end Factorama
