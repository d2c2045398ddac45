import Verif.Props.Reported
import Verif.Props.ZeroIncrement
import Verif.Props.Turn

/-!
# Property C26: Gauss-Newton runs that start at an optimum
-/

namespace Factorama.Props
open Spec Graph Opt Matrix

section
variable {V Fact : Type} [VarLike ℝ V] [LawfulVar ℝ V] {L : LinAlg ℝ Fact}

/-- If all factors can be evaluated and one of them involves a free variable, the linearisation exists. -/
theorem C26.linearised {s : OptWorld ℝ V Fact} (hp : Prepared s)
    (hres : ∀ f ∈ s.graph.getAllFactors, ∃ r, f.computeResidual s.heap = .ok r ∧ r.length = f.residualSize)
    (hjac : ∀ f ∈ s.graph.getAllFactors, ∃ js, f.computeJacobians s.heap [] = .ok js)
    (hfree : ∃ f ∈ s.graph.getAllFactors, ∃ q, some q ∈ f.variables ∧ VarLike.isConst (s.heap q) = false) :
    ∃ r J, Linearised s.heap s.graph.getAllVariables s.graph.getAllFactors r J := by
  obtain ⟨h0, pre, post, hw, hpre⟩ := hp.history
  have hs0 : SameShape s.heap s.heap := fun _ => ⟨rfl, rfl, rfl⟩
  obtain ⟨r, hr⟩ := exists_isResidual hres
  have hl := finalizedAfter_layout hw
  have hready := finalizedAfter_ready (good := ownBuffers s.graph.facs) hw hpre hp.ids hp.noRepeats
    (fun _ _ _ => .nil) (fun k f hf h buf js hb hj f' hf' => by
      obtain rfl : f = f' := Option.some.inj (hf.symm.trans hf')
      exact .out (hb f hf) hj)
  have hb : ∃ blocks : Nat → List (Mat ℝ), ∀ (k : Nat) f, s.graph.facs[k]? = some f →
      f.computeJacobians s.heap [] = .ok (blocks k) ∧ ProperBlocks s.heap f (blocks k) := by
    refine ⟨fun k => match s.graph.facs[k]? with
      | some f => match f.computeJacobians s.heap [] with
        | .ok js => js
        | _ => []
      | none => [], fun k f hk => ?_⟩
    obtain ⟨js, hj⟩ := hjac f (List.mem_of_getElem? hk)
    simp only [hk, hj]
    exact ⟨trivial, hp.proper _ hs0 f (List.mem_of_getElem? hk) js hj⟩
  obtain ⟨blocks, hb⟩ := hb
  obtain ⟨g', J, hJ, _, _⟩ := computeSparse_ok hready blocks hb
    (fun k f hk h buf hbuf => hp.safe f (List.mem_of_getElem? hk) h buf (hbuf f hk))
    (fun hc => alloc_pos hready blocks (fun k f hk => (hb k f hk).2) hfree hc.2)
  exact ⟨r, J, computeSparse_linearised (env := ⟨id, fun _ => .refl _, fun _ => 0⟩) hready hl hp.safe
    (fun f hf js hj => hp.proper _ hs0 f hf js hj) hJ ⟨[], residual_forward hl hr []⟩⟩

/-- **C26** (Gauss-Newton), from the calls alone. When the linearisation at the start values is well conditioned, they are a stationary
point (`Jᵀr = 0`), and zero increments do nothing, the run returns with SUCCESS and `valid = true` after one iteration and leaves the
variables as they were. -/
theorem C26_gauss_newton (hL : ExactLinAlg L) (hP : ExactPivots L) (env : Env ℝ V) {s : OptWorld ℝ V Fact} (hp : Prepared s)
    (hzero : ∀ r ∈ s.graph.getAllVariables, VarLike.isConst (s.heap r) = false →
      VarLike.applyIncr (s.heap r) (List.replicate (VarLike.size (s.heap r)) (0 : ℝ)) = .ok (s.heap r))
    (hm : s.opt.settings.method = .gaussNewton) (hpos : 0 < s.opt.settings.maxIterations) (htol : 0 < s.opt.settings.stepTolerance)
    (hfree : 0 < freeTotal s.heap s.graph.getAllVariables) {r : List ℝ} {J : SpMat ℝ}
    (hlin : Linearised s.heap s.graph.getAllVariables s.graph.getAllFactors r J) (hstat : gradient J r = 0) (hwell : WellConditioned J) :
    ∃ t, optimize realArith L env s = (t, .ok ()) ∧ t.opt.stats.status = .success ∧ t.opt.stats.valid = true ∧ t.heap = s.heap ∧
      t.opt.stats.iteration = 1 ∧ t.opt.stats.residualNorm = realArith.norm r := by
  obtain ⟨h0, pre, post, hw, hpre⟩ := hp.history
  obtain ⟨hn, hmem⟩ := C111.closed hp
  have hlay := finalizedAfter_layout hw
  have hr : (computeResidual env s.heap s.graph).2 = .ok r := by
    obtain ⟨segs, h1, h2, rfl⟩ := hlin.residual
    exact congrArg Prod.snd (residual_layout (env := env) hlay segs h1 h2)
  -- every linearisation at the start is this one
  have hall : ∀ {r' J'}, Linearised s.heap s.graph.getAllVariables s.graph.getAllFactors r' J' → r' = r ∧ gradient J' r' = 0 ∧
      WellConditioned J' ∧ 0 < J'.columns.length := by
    intro r' J' hlin'
    obtain ⟨rfl, hQ⟩ := linearised_unique hn hlin' hlin
    refine ⟨rfl, ?_, ?_, by rw [hlin'.columns]; exact hfree⟩
    · exact hQ (fun N R M => Mᵀ *ᵥ asVec R r = 0) hstat
    · obtain ⟨low, high, hb, h1, h2⟩ := hwell
      exact ⟨low, high, hQ (fun N R M => ∀ x : Fin N → ℝ, low * (x ⬝ᵥ x) ≤ (M *ᵥ x) ⬝ᵥ (M *ᵥ x) ∧
        (M *ᵥ x) ⬝ᵥ (M *ᵥ x) ≤ high * (x ⬝ᵥ x)) hb, h1, h2⟩
  have hstep0 : ∀ {r' J' d}, Linearised s.heap s.graph.getAllVariables s.graph.getAllFactors r' J' →
      SystemSolved realArith L (L.gram J') (L.rhs J' r') d →
      d.length = J'.columns.length ∧
        realArith.scale s.opt.settings.learningRate d = List.replicate (freeTotal s.heap s.graph.getAllVariables) 0 := by
    intro r' J' d hlin' hd
    have hz := C26.zero_step hL J' r' d (hall hlin').2.1 hd s.opt.settings.learningRate
    refine ⟨?_, by rw [hz, hlin'.columns]⟩
    have := congrArg List.length hz
    simpa [Arith.scale] using this
  obtain ⟨low, high, hbt, hlow, _⟩ := hwell
  obtain ⟨s2, ho⟩ := C67_gauss_newton_returns realArith L env s hw hpre hp.ids hp.noRepeats hp.safe hp.graph hm r 0 _ (.zero _) r J hlin
    (free_of_between hn hlin (lt_of_lt_of_le (by positivity) hlow) hbt hfree)
    (fun J f hJ hf e => by
      have := hL.diagonal _ f hf
      rw [e, (hL.gram_size J).1] at this
      have := (hall hJ).2.2.2
      simp at *
      omega)
    (fun J d hJ hd => by
      obtain ⟨h1, h2⟩ := hstep0 hJ hd
      refine ⟨h1, s.heap, r, ?_, hlin.residual⟩
      show Stepped s.heap s.heap s.graph.getAllVariables _
      rw [h2]
      exact fun q => ⟨fun hq => by rw [partOf_zeros s.heap hq.1 hq.2]; exact hzero q hq.1 hq.2, fun _ => rfl⟩)
  have hok : s2.heap = s.heap ∧ s2.opt.stats.deltaNorm = 0 ∧ s2.opt.stats.valid = true ∧ s2.opt.stats.iteration = 1 ∧
      s2.opt.stats.residualNorm = realArith.norm r := by
    obtain ⟨r', J', hlin', ⟨status, href, _, hst⟩ | ⟨d, r'', hsol, hstep, hres, hst⟩⟩ :=
      C67_gauss_newton realArith L env s hw hpre hp.ids hp.noRepeats hp.safe hp.proper hp.graph hm r 0 _ s2 (.zero _) ho
    · exact absurd (hall hlin').2.2.1 (C85_refused_partial hL hP (hall hlin').2.2.2 r' status href)
    · have hz := (hstep0 hlin' hsol).2
      rw [hz] at hstep hst
      have hh : s2.heap = s.heap := Stepped.zeros hstep hzero
      refine ⟨hh, by rw [hst]; exact C26.norm_zeros _, by rw [hst]; rfl, by rw [hst]; rfl, ?_⟩
      rw [hst]
      rw [hh] at hres
      exact congrArg realArith.norm (isResidual_unique hres hlin.residual)
  have hret : (oneStep realArith L env (loopStart realArith env s r)).2 ≠ .threw := by rw [ho]; simp
  obtain ⟨t, ht⟩ : ∃ t, optimize realArith L env s = (t, .ok ()) := by
    have hcont : ∀ k s1, Iterations realArith L env k (loopStart realArith env s r) s1 → k = 0 ∧ s1 = loopStart realArith env s r := by
      intro k s1 hit
      cases k with
      | zero => cases hit; exact ⟨rfl, rfl⟩
      | succ k =>
        exfalso
        obtain ⟨s3, h1⟩ := iterations_first hit
        obtain ⟨s4, h3, ho', hv, _, hc⟩ := C66_continues realArith L env s hp.graph r 0 s3 h1
        cases h3
        rw [ho] at ho'
        obtain rfl := (Prod.mk.inj ho').1
        have := hc.step
        rw [hok.2.1] at this
        simp only [realArith, decide_eq_false_iff_not, not_lt] at this
        linarith
    obtain ⟨o, hend, ⟨_, e⟩ | ⟨hu, _⟩⟩ := optimize_ends realArith L env s hp.graph hr
    · exact ⟨_, e⟩
    · cases hend with
      | budget => cases hu
      | @threw k s1 s3 _ hit ho' => cases hu
      | @ub k s1 s3 _ hit ho' =>
        obtain ⟨rfl, rfl⟩ := hcont k s1 hit
        rw [ho] at ho'; cases ho'
      | check => cases hu
  refine ⟨t, ht, ?_⟩
  rcases C26_gauss_newton_partial hL env s hw hpre hp.ids hp.noRepeats hp.safe hp.proper hzero hp.graph hm hpos htol
    (fun r' J' h => (hall h).2.1) r hr t ht with ⟨h1, h2, h3, h4, h5⟩ | ⟨hv, h | ⟨r', J', h, href⟩⟩
  · exact ⟨h1, h2, h3, h4, h5⟩
  · exact absurd h hret
  · exact absurd (hall h).2.2.1 (C85_refused_partial hL hP (hall h).2.2.2 r' _ href)

/-- **C123**, at an optimum. After such a run, if moreover the eigenvalues of `JᵀJ` are at least `10⁻¹²`, the covariances can be
prepared, and the one reported for a free variable is its block of `(JᵀJ)⁻¹`. -/
theorem C123_optimum (hL : ExactLinAlg L) (hP : ExactPivots L) (env : Env ℝ V) {s : OptWorld ℝ V Fact} (hp : Prepared s)
    (hzero : ∀ r ∈ s.graph.getAllVariables, VarLike.isConst (s.heap r) = false →
      VarLike.applyIncr (s.heap r) (List.replicate (VarLike.size (s.heap r)) (0 : ℝ)) = .ok (s.heap r))
    (hm : s.opt.settings.method = .gaussNewton) (hpos : 0 < s.opt.settings.maxIterations) (htol : 0 < s.opt.settings.stepTolerance)
    (hv : s.opt.hessianValid = false)
    (hfree : 0 < freeTotal s.heap s.graph.getAllVariables) {r : List ℝ} {J : SpMat ℝ}
    (hlin : Linearised s.heap s.graph.getAllVariables s.graph.getAllFactors r J) (hstat : gradient J r = 0) (hwell : WellConditioned J)
    (hdet : Determines (1 / 10 ^ 12) J) :
    ∃ t u, optimize realArith L env s = (t, .ok ()) ∧ t.opt.stats.status = .success ∧ t.opt.stats.valid = true ∧
      prepare realArith L t = (u, .ok ()) ∧
      ∀ v ∈ s.graph.getAllVariables, VarLike.isConst (s.heap v) = false → 0 < VarLike.size (s.heap v) →
        ∃ P, estimateCovariance realArith L u (some v) = .ok (some P) ∧ P.rows = VarLike.size (s.heap v) ∧
          P.cols = VarLike.size (s.heap v) ∧ ∀ i j, i < VarLike.size (s.heap v) → j < VarLike.size (s.heap v) → ∃ hi hj,
            P.entry i j = ((jacobianMatrix J)ᵀ * jacobianMatrix J)⁻¹
              ⟨colStart s.heap s.graph.getAllVariables v + i, hi⟩ ⟨colStart s.heap s.graph.getAllVariables v + j, hj⟩ := by
  obtain ⟨hn, _⟩ := C111.closed hp
  obtain ⟨t, ht, hst, hvalid, hheap, hk, _⟩ := C26_gauss_newton hL hP env hp hzero hm hpos htol hfree hlin hstat hwell
  obtain ⟨hpt, hvt, evars, efacs, _, r0, k, s1, r', J', hr, hit, hk', _, hlin', hJ⟩ := afterRun_at env hp
    (fun h => by rw [hm] at h; cases h) hpos ht hvalid
  obtain rfl : k = 0 := by omega
  cases hit
  have hc : t.opt.complete = true := by
    have := ((C17_returns realArith L env s hp.graph r0 hr).2 (by rw [ht])).2.2.2.1
    rwa [ht] at this
  obtain ⟨rfl, hQ⟩ := linearised_unique hn hlin' hlin
  have hdet' : Determines (1 / 10 ^ 12) J' :=
    hQ (fun N R M => ∀ v : Fin N → ℝ, 1 / 10 ^ 12 * (v ⬝ᵥ v) ≤ (M *ᵥ v) ⬝ᵥ (M *ᵥ v)) hdet
  obtain ⟨hu, hvar⟩ := C123.variance (jacobianMatrix J') (by positivity) hdet'
  obtain ⟨u, h1, h2, h3⟩ := C123 hL hpt hc (hvt.trans hv) hJ (by rw [hlin'.columns, evars, hheap]; rfl) hu
    (by rw [evars, hheap]; exact hfree)
  refine ⟨t, u, ht, hst, hvalid, h1, fun v hmv hcv hsv => ?_⟩
  obtain ⟨P, hPv⟩ := ((h3 v (by rw [evars]; exact hmv) (by rw [hheap]; exact hcv) (by rw [hheap]; exact hsv)).1).2
    fun c _ _ => (hvar c).trans (by norm_num)
  obtain ⟨h0, pre, post, hw, _⟩ := hpt.history
  obtain ⟨J1, e1, _, z1, z2, hent, _⟩ := C30_block hL hw (hvt.trans hv) h1 v (by rw [evars]; exact hmv) P hPv
  rw [hJ] at e1
  obtain rfl := Res.ok.inj e1
  rw [hheap] at z1 z2
  refine ⟨P, hPv, z1, z2, fun i j hi hj => ?_⟩
  have key := hent i j (by rw [hheap]; exact hi) (by rw [hheap]; exact hj)
  rw [evars, hheap] at key
  obtain ⟨_, hQ'⟩ := linearised_unique hn hlin hlin'
  exact hQ' (fun N R M => ∃ hi hj, P.entry i j =
    (Mᵀ * M)⁻¹ ⟨colStart s.heap s.graph.getAllVariables v + i, hi⟩ ⟨colStart s.heap s.graph.getAllVariables v + j, hj⟩) key

end

/-- **C26** (Gauss-Newton), variables of the library: it is enough that the free ones are in a state
`apply_increment` itself would store. -/
theorem C26_library {Fact : Type} {L : LinAlg ℝ Fact} (hL : ExactLinAlg L) (hP : ExactPivots L) (env : Env ℝ RVar) {s : OptWorld ℝ RVar Fact} (hp : Prepared s)
    (hgood : ∀ r ∈ s.graph.getAllVariables, VarLike.isConst (s.heap r) = false → Reachable (s.heap r) ∧ Canonical (s.heap r))
    (hm : s.opt.settings.method = .gaussNewton) (hpos : 0 < s.opt.settings.maxIterations) (htol : 0 < s.opt.settings.stepTolerance)
    (hfree : 0 < freeTotal s.heap s.graph.getAllVariables) {r : List ℝ} {J : SpMat ℝ}
    (hlin : Linearised s.heap s.graph.getAllVariables s.graph.getAllFactors r J) (hstat : gradient J r = 0) (hwell : WellConditioned J) :
    ∃ t, optimize realArith L env s = (t, .ok ()) ∧ t.opt.stats.status = .success ∧ t.opt.stats.valid = true ∧ t.heap = s.heap ∧
      t.opt.stats.iteration = 1 ∧ t.opt.stats.residualNorm = realArith.norm r :=
  C26_gauss_newton hL hP env hp (fun r hr hc => C69_partial _ (.inl (hgood r hr hc).1) (hgood r hr hc).2) hm hpos htol hfree hlin hstat hwell

/-! ### A landmark seen where it is -/

namespace C26
open Geo

/-- A landmark at unit distance from a known pose, observed without error, with a prior that is right. -/
noncomputable def sighted (v : PoseVar) (x : V3) : OptWorld ℝ RVar (Ldlt.Fact ℝ) :=
  C105.sight v x x (v.dcm *ᵥ (x - v.pos)) 1 1 (Settings.default realArith)

theorem sighted_heap (v : PoseVar) (x : V3) : (sighted v x).heap = SightWorld.heap v x := SightWorld.heap_eq ..
theorem sighted_vars (v : PoseVar) (x : V3) : (sighted v x).graph.getAllVariables = [0, 1] := SightWorld.vars_eq ..
theorem sighted_facs (v : PoseVar) (x : V3) :
    (sighted v x).graph.getAllFactors = SightWorld.facs x (v.dcm *ᵥ (x - v.pos)) 1 1 := SightWorld.facs_eq ..

theorem seen_dot {v : PoseVar} {x : V3} (hR : IsRotation v.dcm) (hx : (x - v.pos) ⬝ᵥ (x - v.pos) = 1) :
    (v.dcm *ᵥ (x - v.pos)) ⬝ᵥ (v.dcm *ᵥ (x - v.pos)) = 1 := by
  rw [dotProduct_mulVec, ← mulVec_transpose, mulVec_mulVec, mul_eq_one_comm.1 hR.1, one_mulVec, hx]

theorem sighted_residual {v : PoseVar} {x : V3} (f : Factor ℝ RVar) (hf : f ∈ (sighted v x).graph.getAllFactors) :
    f.computeResidual (sighted v x).heap = .ok (List.replicate 3 0) ∧ f.residualSize = 3 := by
  rw [sighted_facs] at hf
  rw [sighted_heap]
  simp only [SightWorld.facs, List.mem_cons, List.not_mem_nil, or_false] at hf
  rcases hf with rfl | rfl
  · refine ⟨?_, rfl⟩
    simp only [Fac.bearingObservation, SightWorld.heap, landmark_posW_toList, Res.map, sub_self, smul_zero]
    simp [toList, List.replicate_succ]
  · refine ⟨?_, by simp [genericPrior, toList]⟩
    simp [genericPrior, SightWorld.heap, VarLike.value, vecSub, toList, List.replicate_succ]

theorem sighted_jacobians {v : PoseVar} {x : V3} (hR : IsRotation v.dcm) (hx : (x - v.pos) ⬝ᵥ (x - v.pos) = 1) :
    (Fac.bearingObservation 12 0 1 (v.dcm *ᵥ (x - v.pos)) 1).computeJacobians (SightWorld.heap v x) [] =
      .ok [Mat.empty, Mat.ofMatrix ((1 - vecMulVec (v.dcm *ᵥ (x - v.pos)) (v.dcm *ᵥ (x - v.pos))) * v.dcm)] ∧
    (genericPrior 13 1 (toList x) (1 / 1)).computeJacobians (SightWorld.heap v x) [] = .ok [Mat.diag 3 1] := by
  have hn : vnorm (v.dcm *ᵥ (x - v.pos)) = 1 := by rw [vnorm, seen_dot hR hx, Real.sqrt_one]
  constructor
  · simp only [Fac.bearingObservation, SightWorld.heap, landmark_posW_toList, Res.andThen, hn]
    rw [if_neg (by norm_num)]
    have e : vdiv (v.dcm *ᵥ (x - v.pos)) 1 = v.dcm *ᵥ (x - v.pos) := by funext i; simp [vdiv]
    rw [e]
    simp [Fac.fillBlocks, Fac.writeBlocks, Fac.block, VarLike.isConst, neg_add_eq_sub]
  · simp [genericPrior, SightWorld.heap, VarLike.isConst, toList]

theorem sighted_prepared (v : PoseVar) (x : V3) : Prepared (sighted v x) := C105.sight_prepared ..

theorem sighted_linearised {v : PoseVar} {x : V3} (hR : IsRotation v.dcm) (hx : (x - v.pos) ⬝ᵥ (x - v.pos) = 1) :
    ∃ r J, Linearised (sighted v x).heap (sighted v x).graph.getAllVariables (sighted v x).graph.getAllFactors r J := by
  refine C26.linearised (sighted_prepared v x) (fun f hf => ?_) (fun f hf => ?_) ?_
  · obtain ⟨h1, h2⟩ := sighted_residual f hf
    exact ⟨_, h1, by rw [h2]; rfl⟩
  · obtain ⟨h1, h2⟩ := sighted_jacobians hR hx
    rw [sighted_facs] at hf
    rw [sighted_heap]
    simp only [SightWorld.facs, List.mem_cons, List.not_mem_nil, or_false] at hf
    rcases hf with rfl | rfl
    · exact ⟨_, h1⟩
    · exact ⟨_, h2⟩
  · rw [sighted_facs, sighted_heap]
    exact ⟨_, List.mem_cons_self .., 1, by simp [Fac.bearingObservation], rfl⟩

theorem sighted_gradient {v : PoseVar} {x : V3} {r : List ℝ} {J : SpMat ℝ}
    (hlin : Linearised (sighted v x).heap (sighted v x).graph.getAllVariables (sighted v x).graph.getAllFactors r J) : gradient J r = 0 := by
  have h3 : asVec J.rows r = 0 := by
    obtain ⟨segs, h1, h2, rfl⟩ := hlin.residual
    have hz : ∀ y ∈ segs.flatten, y = 0 := by
      intro y hy
      obtain ⟨seg, hs, hy⟩ := List.mem_flatten.1 hy
      obtain ⟨k, hk⟩ := List.mem_iff_getElem?.1 hs
      have hlt : k < (sighted v x).graph.getAllFactors.length := by
        have := (List.getElem?_eq_some_iff.1 hk).1
        omega
      obtain ⟨seg', e1, e2, _⟩ := h2 k _ (List.getElem?_eq_getElem hlt)
      rw [(sighted_residual _ (List.getElem_mem hlt)).1] at e2
      rw [hk] at e1
      obtain rfl := Option.some.inj e1
      obtain rfl := Res.ok.inj e2
      exact List.eq_of_mem_replicate hy
    funext i
    rw [asVec, List.getD_eq_getElem?_getD, Pi.zero_apply]
    cases h : segs.flatten[(i : Nat)]? with
    | none => rfl
    | some y => exact hz y (List.mem_of_getElem? h)
  rw [gradient, h3, mulVec_zero]

theorem sighted_between {v : PoseVar} {x : V3} (hR : IsRotation v.dcm) (hx : (x - v.pos) ⬝ᵥ (x - v.pos) = 1) {r : List ℝ} {J : SpMat ℝ}
    (hlin : Linearised (sighted v x).heap (sighted v x).graph.getAllVariables (sighted v x).graph.getAllFactors r J) : Between J 1 2 := by
  rw [sighted_heap, sighted_vars, sighted_facs] at hlin
  obtain ⟨j1, j2⟩ := sighted_jacobians hR hx
  obtain ⟨blocks, hb, hst⟩ := hlin.jacobian
  have b0 := (hb 0 _ rfl).1
  rw [j1] at b0
  have b1 := (hb 1 _ rfl).1
  rw [j2] at b1
  have hr : J.rows = 6 := hlin.rows
  have hc : J.columns.length = 3 := hlin.columns
  set A : M3 := (1 - vecMulVec (v.dcm *ᵥ (x - v.pos)) (v.dcm *ᵥ (x - v.pos))) * v.dcm with hA
  have e0 : ∀ i j : Fin 3, J.coeff i j = A i j := by
    intro i j
    have := (hst 0 _ rfl i i.2).1 1 1 (Mat.ofMatrix A) rfl rfl (by rw [← Res.ok.inj b0]; rfl) j j.2
    rw [show rowStart (SightWorld.facs x (v.dcm *ᵥ (x - v.pos)) 1 1) 0 = 0 from rfl, show colStart (SightWorld.heap v x) [0, 1] 1 = 0 from rfl,
      Nat.zero_add, Nat.zero_add] at this
    rw [this]
    simp [Mat.ofMatrix]
  have e1 : ∀ i j : Fin 3, J.coeff (3 + i) j = if i = j then 1 else 0 := by
    intro i j
    have := (hst 1 _ rfl i (by simp [genericPrior, toList])).1 0 1 (Mat.diag 3 1) rfl rfl (by rw [← Res.ok.inj b1]; rfl) j j.2
    rw [show rowStart (SightWorld.facs x (v.dcm *ᵥ (x - v.pos)) 1 1) 1 = 3 from rfl, show colStart (SightWorld.heap v x) [0, 1] 1 = 0 from rfl,
      Nat.zero_add] at this
    rw [this]
    simp [Mat.diag, Fin.ext_iff]
  intro z
  obtain ⟨y, hy⟩ : ∃ y : Nat → ℝ, ∀ c : Fin J.columns.length, y c = z c :=
    ⟨fun c => if hc : c < J.columns.length then z ⟨c, hc⟩ else 0, fun c => by simp⟩
  obtain ⟨f1, f2⟩ := C111.forms J z hy
  set u : V3 := fun i => y i with hu
  have g1 : z ⬝ᵥ z = u ⬝ᵥ u := by
    rw [f1, hc, Finset.sum_range, dotProduct]
    exact Finset.sum_congr rfl fun i _ => by rw [hu]; ring
  have g2 : (jacobianMatrix J *ᵥ z) ⬝ᵥ (jacobianMatrix J *ᵥ z) = (A *ᵥ u) ⬝ᵥ (A *ᵥ u) + u ⬝ᵥ u := by
    rw [f2, hr, hc, show (6 : Nat) = 3 + 3 from rfl, Finset.sum_range_add]
    congr 1
    · rw [Finset.sum_range, dotProduct]
      refine Finset.sum_congr rfl fun i _ => ?_
      rw [Finset.sum_range, sq]
      have : ∑ j : Fin 3, J.coeff i j * y j = (A *ᵥ u) i := by
        rw [mulVec, dotProduct]
        exact Finset.sum_congr rfl fun j _ => by rw [e0]
      rw [this]
    · rw [Finset.sum_range, dotProduct]
      refine Finset.sum_congr rfl fun i _ => ?_
      rw [Finset.sum_range, sq]
      have : ∑ j : Fin 3, J.coeff (3 + i) j * y j = u i := by
        rw [Finset.sum_eq_single i (fun j _ hj => by rw [e1, if_neg (Ne.symm hj), zero_mul]) (by simp), e1, if_pos rfl, one_mul]
      rw [this]
  rw [g1, g2]
  -- the bearing does not constrain more than the prior
  set b := v.dcm *ᵥ (x - v.pos) with hb'
  have hbb : b ⬝ᵥ b = 1 := seen_dot hR hx
  set q := v.dcm *ᵥ u with hq
  have hqq : q ⬝ᵥ q = u ⬝ᵥ u := by
    rw [hq, dotProduct_mulVec, ← mulVec_transpose, mulVec_mulVec, mul_eq_one_comm.1 hR.1, one_mulVec]
  have hAu : A *ᵥ u = q - (b ⬝ᵥ q) • b := by
    rw [hA, ← mulVec_mulVec, ← hq, sub_mulVec, one_mulVec, vecMulVec_mulVec]
    congr 1
    ext i
    simp [mul_comm]
  have hAA : (A *ᵥ u) ⬝ᵥ (A *ᵥ u) = u ⬝ᵥ u - (b ⬝ᵥ q) ^ 2 := by
    rw [hAu, sub_dotProduct, dotProduct_sub, dotProduct_sub, smul_dotProduct, smul_dotProduct, dotProduct_smul, dotProduct_smul, hqq, hbb,
      dotProduct_comm q b]
    simp only [smul_eq_mul]
    ring
  have h0 : 0 ≤ (A *ᵥ u) ⬝ᵥ (A *ᵥ u) := Finset.sum_nonneg fun i _ => mul_self_nonneg _
  constructor
  · linarith
  · rw [hAA]
    linarith [sq_nonneg (b ⬝ᵥ q)]

theorem sighted_good (v : PoseVar) (x : V3) : ∀ r ∈ (sighted v x).graph.getAllVariables,
    VarLike.isConst ((sighted v x).heap r) = false → Reachable ((sighted v x).heap r) ∧ Canonical ((sighted v x).heap r) := by
  rw [sighted_vars, sighted_heap]
  intro r hr hc
  match r with
  | 0 => cases hc
  | r + 1 => exact ⟨.landmark _, by simp [Canonical, SightWorld.heap, toList]⟩

theorem sighted_zero (v : PoseVar) (x : V3) : ∀ r ∈ (sighted v x).graph.getAllVariables, VarLike.isConst ((sighted v x).heap r) = false →
    VarLike.applyIncr ((sighted v x).heap r) (List.replicate (VarLike.size ((sighted v x).heap r)) (0 : ℝ)) = .ok ((sighted v x).heap r) :=
  fun r hr hc => C69_partial _ (.inl (sighted_good v x r hr hc).1) (sighted_good v x r hr hc).2

theorem sighted_free (v : PoseVar) (x : V3) : 0 < freeTotal (sighted v x).heap (sighted v x).graph.getAllVariables := by
  rw [sighted_vars, sighted_heap]
  exact Nat.succ_pos 2

end C26

/-- The run on it is a success and changes nothing, and afterwards a covariance is reported for the landmark. -/
example (v : PoseVar) (x : Fin 3 → ℝ) (hR : IsRotation v.dcm) (hx : (x - v.pos) ⬝ᵥ (x - v.pos) = 1) (env : Env ℝ RVar) :
    (∃ t, optimize realArith Ldlt.linAlg env (C26.sighted v x) = (t, .ok ()) ∧ t.opt.stats.status = .success ∧ t.opt.stats.valid = true ∧
      t.heap = (C26.sighted v x).heap) ∧
    ∃ t u P, optimize realArith Ldlt.linAlg env (C26.sighted v x) = (t, .ok ()) ∧ prepare realArith Ldlt.linAlg t = (u, .ok ()) ∧
      estimateCovariance realArith Ldlt.linAlg u (some 1) = .ok (some P) ∧ P.rows = 3 := by
  obtain ⟨r, J, hlin⟩ := C26.sighted_linearised hR hx
  have hb := C26.sighted_between hR hx hlin
  have hw : WellConditioned J := ⟨1, 2, hb, by norm_num, by norm_num⟩
  obtain ⟨h1, h2, h3, h4⟩ := C121.gn_facts
  constructor
  · obtain ⟨t, e1, e2, e3, e4, _⟩ := C26_library Ldlt.exact Ldlt.exact_pivots env (C26.sighted_prepared v x) (C26.sighted_good v x)
      h1 h3 h4 (C26.sighted_free v x) hlin (C26.sighted_gradient hlin) hw
    exact ⟨t, e1, e2, e3, e4⟩
  · obtain ⟨t, u, e1, _, _, e2, e3⟩ := C123_optimum Ldlt.exact Ldlt.exact_pivots env (C26.sighted_prepared v x) (C26.sighted_zero v x)
      h1 h3 h4 rfl (C26.sighted_free v x) hlin (C26.sighted_gradient hlin) hw fun z => by
        have := (hb z).1
        have h0 : 0 ≤ z ⬝ᵥ z := Finset.sum_nonneg fun i _ => mul_self_nonneg _
        norm_num at this ⊢
        nlinarith
    obtain ⟨P, e4, e5, _⟩ := e3 1 (by rw [C26.sighted_vars]; simp) (by rw [C26.sighted_heap]; rfl)
      (by rw [C26.sighted_heap]; exact Nat.succ_pos 2)
    exact ⟨t, u, P, e1, e2, e4, by rw [e5, C26.sighted_heap]; rfl⟩

end Factorama.Props
