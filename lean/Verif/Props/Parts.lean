import Verif.Lemmas.Parts
import Verif.Props.Held
import Verif.Props.LifetimeLibrary
import Verif.Examples.TinyParts

/-!
# C109: parts of a graph that have nothing to do with each other
-/

namespace Factorama.Props
open Spec Graph Opt Matrix

/-! ### Where it fails -/

/-- **C109 is false** because one part can make the whole system refused: the small graph is solved alone, but with another
variable beside it whose only measurement has a standard deviation of `10⁸`, the run stops as singular and nothing is moved. -/
theorem C109_refused_false : ¬ ∀ a c m p q u v w e y z : Rat, 0 < u → 0 < v → 0 < w → 0 < z →
    ((optimize ToyOpt.rat Ldlt.linAlg (TinyWorld.env 0) (ToyOpt.start (TinyParts.world a c m p q u v w e y z) ToyOpt.gn)).1.heap
      0).value =
    ((optimize ToyOpt.rat Ldlt.linAlg (TinyWorld.env 0) (ToyOpt.start (TinyWorld.world a c m p q u v w) ToyOpt.gn)).1.heap
      0).value := by
  intro H
  have := H 0 0 1 4 7 2 3 1 5 9 (1 / 10 ^ 8) (by decide +kernel) (by decide +kernel) (by decide +kernel) (by decide +kernel)
  revert this
  decide +kernel

/-- **C109 is false** because the rules that end a run look at the whole graph: with a learning rate of 1/2 and a good first
guess, the small graph alone is left after one iteration; with another variable beside it that is far off, the run goes on and
the small graph is improved further. -/
theorem C109_stop_false : ¬ ∀ a c m p q u v w e y z : Rat, 0 < u → 0 < v → 0 < w → 1 ≤ z →
    ((optimize ToyOpt.rat Ldlt.linAlg (TinyWorld.env 0) (ToyOpt.start (TinyParts.world a c m p q u v w e y z)
      { ToyOpt.gn with learningRate := 1 / 2, maxIterations := 5 })).1.heap 0).value =
    ((optimize ToyOpt.rat Ldlt.linAlg (TinyWorld.env 0) (ToyOpt.start (TinyWorld.world a c m p q u v w)
      { ToyOpt.gn with learningRate := 1 / 2, maxIterations := 5 })).1.heap 0).value := by
  intro H
  have := H (4 + 1 / 10 ^ 9) 5 1 4 5 2 3 1 5 9 1 (by decide +kernel) (by decide +kernel) (by decide +kernel) (by decide +kernel)
  revert this
  decide +kernel

/-! ### What holds -/

section
variable {V Fact : Type} [VarLike ℝ V] [LawfulVar ℝ V] {L : LinAlg ℝ Fact}

theorem C109.nodup {s : OptWorld ℝ V Fact} (hp : Prepared s) : s.graph.getAllVariables.Nodup := by
  obtain ⟨h0, pre, post, hw, _⟩ := hp.history
  exact List.Nodup.of_map _ (finalizedAfter_layout hw).ids

theorem C109.closed {s : OptWorld ℝ V Fact} (hp : Prepared s) : ∀ f ∈ s.graph.getAllFactors, ∀ q, some q ∈ f.variables →
    VarLike.isConst (s.heap q) = false → q ∈ s.graph.getAllVariables := by
  intro f hf r hr hc
  obtain ⟨h0, pre, post, hw, _⟩ := hp.history
  obtain ⟨r1, e, h⟩ := (finalizedAfter_layout hw).wp.1 f hf (some r) hr
  obtain rfl := Option.some.inj e
  obtain ⟨r2, hr2, e2⟩ := h hc
  exact hp.ids f hf r hr r2 hr2 e2 ▸ hr2

omit [LawfulVar ℝ V] in
theorem C109.part_shape {x y : Heap V} {vars vars' : List VRef} {facs facs' : List (Factor ℝ V)}
    (hp : IndependentPart x vars facs vars' facs') (hs : SameShape x y) : IndependentPart y vars facs vars' facs' := by
  obtain ⟨at_, h1, h2, h3⟩ := hp.factors
  exact ⟨hp.variables, at_, h1, h2, fun k hk q hq hc => h3 k hk q hq (by rw [← (hs q).2.1]; exact hc)⟩

/-- The optimizer `s` has the whole graph, `s'` has a part of it that is independent of the rest, with the same values and the
same learning rate. -/
structure C109.PartOf (s s' : OptWorld ℝ V Fact) : Prop where
  part : IndependentPart s.heap s.graph.getAllVariables s.graph.getAllFactors s'.graph.getAllVariables s'.graph.getAllFactors
  own : ∀ f ∈ s'.graph.getAllFactors, LooksAtOwn f
  method : s.opt.settings.method = .gaussNewton
  method' : s'.opt.settings.method = .gaussNewton
  rate : s'.opt.settings.learningRate = s.opt.settings.learningRate

/-- One iteration. -/
theorem C109.step (hL : ExactLinAlg L) (env env' : Env ℝ V) {s s' : OptWorld ℝ V Fact} (hp : Prepared s) (hp' : Prepared s')
    (hre : C109.PartOf s s') (hx : SamePart s'.graph.getAllVariables s'.graph.getAllFactors s.heap s'.heap) (r0 r0' : List ℝ) {k : Nat}
    {s1 s2 s1' s2' : OptWorld ℝ V Fact} (hit : Iterations realArith L env k (loopStart realArith env s r0) s1)
    (hit' : Iterations realArith L env' k (loopStart realArith env' s' r0') s1')
    (hk : SamePart s'.graph.getAllVariables s'.graph.getAllFactors s1.heap s1'.heap)
    (ho : oneStep realArith L env s1 = (s2, .ok ())) (ho' : oneStep realArith L env' s1' = (s2', .ok ()))
    (hv : s2.opt.stats.valid = true) (hv' : s2'.opt.stats.valid = true) :
    SamePart s'.graph.getAllVariables s'.graph.getAllFactors s2.heap s2'.heap := by
  obtain ⟨h0, pre, post, hw, hpre⟩ := hp.history
  obtain ⟨h0', pre', post', hw', hpre'⟩ := hp'.history
  obtain ⟨r, J, hlin, ⟨_, _, _, e⟩ | ⟨d, q, h1, h2, _, _⟩⟩ := C67_gauss_newton realArith L env s hw hpre hp.ids hp.noRepeats hp.safe
    hp.proper hp.graph hre.method r0 k s1 s2 hit ho
  · rw [e] at hv; cases hv
  obtain ⟨r', J', hlin', ⟨_, _, _, e⟩ | ⟨d', q', h1', h2', _, _⟩⟩ := C67_gauss_newton realArith L env' s' hw' hpre' hp'.ids
    hp'.noRepeats hp'.safe hp'.proper hp'.graph hre.method' r0' k s1' s2' hit' ho'
  · rw [e] at hv'; cases hv'
  have hsh := (iterations_ready hw hpre hp.ids hp.noRepeats hit).2.2.1
  rw [hre.rate] at h2'
  refine part_step hL (C109.nodup hp) (C109.nodup hp') (C109.part_shape hre.part hsh) hk (fun f hf v hm hc => ?_) hre.own hlin hlin' h1
    h1' h2 h2'
  refine C109.closed hp' f hf v hm ?_
  rw [hx v (.inr ⟨f, hf, hm⟩), ← (hsh v).2.1]
  exact hc

/-- **C109**, iterations. After the same number of Gauss-Newton iterations, the variables of the part have the same values in the
whole graph and in the part alone. -/
theorem C109_iterations (hL : ExactLinAlg L) (env env' : Env ℝ V) {s s' : OptWorld ℝ V Fact} (hp : Prepared s) (hp' : Prepared s')
    (hre : C109.PartOf s s') (hx : SamePart s'.graph.getAllVariables s'.graph.getAllFactors s.heap s'.heap) (r0 r0' : List ℝ) (k : Nat)
    (s1 s1' : OptWorld ℝ V Fact) (hit : Iterations realArith L env k (loopStart realArith env s r0) s1)
    (hit' : Iterations realArith L env' k (loopStart realArith env' s' r0') s1') :
    SamePart s'.graph.getAllVariables s'.graph.getAllFactors s1.heap s1'.heap := by
  induction k generalizing s1 s1' with
  | zero => cases hit; cases hit'; exact hx
  | succ k ih =>
    obtain ⟨s2, hit2, ho, hv, _⟩ := C66_continues realArith L env s hp.graph r0 k s1 hit
    obtain ⟨s2', hit2', ho', hv', _⟩ := C66_continues realArith L env' s' hp'.graph r0' k s1' hit'
    exact C109.step hL env env' hp hp' hre hx r0 r0' hit2 hit2' (ih s2 s2' hit2 hit2') ho ho' hv hv'

/-- How a run that is not refused reached its last values. -/
theorem C109.last (env : Env ℝ V) {s t : OptWorld ℝ V Fact} (hp : Prepared s) (hm : s.opt.settings.method = .gaussNewton)
    (hret : optimize realArith L env s = (t, .ok ())) (hst : t.opt.stats.status = .success ∨ t.opt.stats.status = .diverged) :
    ∃ r0, (t.opt.stats.iteration = 0 ∧ t.heap = s.heap) ∨
      ∃ k s1 s2, t.opt.stats.iteration = k + 1 ∧ Iterations realArith L env k (loopStart realArith env s r0) s1 ∧
        oneStep realArith L env s1 = (s2, .ok ()) ∧ s2.opt.stats.valid = true ∧ t.heap = s2.heap := by
  obtain ⟨h0, pre, post, hw, hpre⟩ := hp.history
  obtain ⟨r0, hr⟩ : ∃ r0, (computeResidual env s.heap s.graph).2 = .ok r0 := by
    cases hr : (computeResidual env s.heap s.graph).2 with
    | ok r0 => exact ⟨r0, rfl⟩
    | threw =>
      have := (C28_throws_iff realArith L env s).2 (.inr hr)
      rw [hret] at this
      simp at this
    | ub =>
      have := (optimize_ubResidual realArith L env s hp.graph hr).1
      rw [hret] at this
      simp at this
  refine ⟨r0, ?_⟩
  rcases C66_ends realArith L env s hp.graph r0 hr t hret with ⟨k, s1, s2, hk, hit, h⟩ | ⟨s1, hit, hh, hv, he⟩
  · right
    rcases h with ⟨_, _, h⟩ | ⟨ho, _, herr, _, h⟩ | ⟨ho, hheap, herr, status, valid, hs, h⟩
    · rw [h] at hst; simp at hst
    · exfalso
      rw [h] at hst
      obtain ⟨r, J, _, ⟨_, href, _, e⟩ | ⟨d, r', _, _, _, e⟩⟩ :=
        C67_gauss_newton realArith L env s hw hpre hp.ids hp.noRepeats hp.safe hp.proper hp.graph hm r0 k s1 s2 hit ho
      · rw [e] at hst
        cases href <;> simp at hst
      · rw [e] at herr
        rcases (iterations_head hit hp.graph rfl rfl rfl).status with e | e <;> simp [e, isErrorStatus] at herr
    · have hh1 := iterations_head hit hp.graph rfl rfl rfl
      have hi1 : s1.opt.stats.iteration = k := hh1.iteration
      have hv2 : s2.opt.stats.valid = true ∧ s2.opt.stats.iteration = k + 1 := by
        obtain ⟨r, J, _, ⟨_, href, _, e⟩ | ⟨d, r', _, hst, hres, e⟩⟩ :=
          C67_gauss_newton realArith L env s hw hpre hp.ids hp.noRepeats hp.safe hp.proper hp.graph hm r0 k s1 s2 hit ho
        · exfalso
          apply herr
          rw [e]
          cases href <;> simp [isErrorStatus]
        · exact ⟨by rw [e]; exact hh1.valid, by rw [e]; dsimp only; omega⟩
      exact ⟨k, s1, s2, by rw [h]; exact hv2.2, hit, ho, hv2.1, hheap⟩
  · have hi1 : s1.opt.stats.iteration = s.opt.settings.maxIterations := (iterations_head hit hp.graph rfl rfl rfl).iteration
    have hi2 : t.opt.stats.iteration = s.opt.settings.maxIterations := by rw [he]; exact hi1
    rcases hmax : s.opt.settings.maxIterations with _ | k
    · left
      rw [hmax] at hit hi2
      cases hit
      exact ⟨hi2, hh⟩
    · right
      rw [hmax] at hit hi2
      obtain ⟨s2, hit2, ho, hv2, _⟩ := C66_continues realArith L env s hp.graph r0 k s1 hit
      exact ⟨k, s2, s1, hi2, hit2, ho, hv2, hh⟩

/-- **C109, the part that holds**, Gauss-Newton. The graph of `s'` is a part of the graph of `s`: its variables and factors are
among those of `s`, and the remaining factors mention none of its free variables. The values are the same at the start, the
solver is exact, and neither run is refused as singular or ill-conditioned. If both runs report the same number of iterations,
the variables of the part have the same values at the end. Missing: the other part can make the run refused, and it influences
after how many iterations the run ends. -/
theorem C109_gauss_newton_partial (hL : ExactLinAlg L) (env env' : Env ℝ V) {s s' : OptWorld ℝ V Fact} (hp : Prepared s)
    (hp' : Prepared s') (hre : C109.PartOf s s')
    (hx : SamePart s'.graph.getAllVariables s'.graph.getAllFactors s.heap s'.heap) (t t' : OptWorld ℝ V Fact)
    (hret : optimize realArith L env s = (t, .ok ())) (hret' : optimize realArith L env' s' = (t', .ok ()))
    (hst : t.opt.stats.status = .success ∨ t.opt.stats.status = .diverged)
    (hst' : t'.opt.stats.status = .success ∨ t'.opt.stats.status = .diverged)
    (hsame : t'.opt.stats.iteration = t.opt.stats.iteration) :
    ∀ q ∈ s'.graph.getAllVariables, t'.heap q = t.heap q := by
  obtain ⟨r0, h⟩ := C109.last env hp hre.method hret hst
  obtain ⟨r0', h'⟩ := C109.last env' hp' hre.method' hret' hst'
  suffices SamePart s'.graph.getAllVariables s'.graph.getAllFactors t.heap t'.heap from fun q hq => this q (.inl hq)
  rcases h with ⟨hz, hh⟩ | ⟨k, s1, s2, hz, hit, ho, hv, hh⟩ <;> rcases h' with ⟨hz', hh'⟩ | ⟨k', s1', s2', hz', hit', ho', hv', hh'⟩
  · rw [hh, hh']; exact hx
  · omega
  · omega
  · obtain rfl : k' = k := by omega
    rw [hh, hh']
    exact C109.step hL env env' hp hp' hre hx r0 r0' hit hit' (C109_iterations hL env env' hp hp' hre hx r0 r0' _ s1 s1' hit hit') ho ho'
      hv hv'

/-- **C109**, covariances. When the whole graph and the part alone have been linearised at the same values of the part, the
covariances reported for a variable of the part are the same. -/
theorem C109_covariance (hL : ExactLinAlg L) {s s' t t' : OptWorld ℝ V Fact} (hp : Prepared s) (hp' : Prepared s')
    (hpart : IndependentPart s.heap s.graph.getAllVariables s.graph.getAllFactors s'.graph.getAllVariables s'.graph.getAllFactors)
    (hown : ∀ f ∈ s'.graph.getAllFactors, LooksAtOwn f) (hv : s.opt.hessianValid = false) (hv' : s'.opt.hessianValid = false)
    {x x' : Heap V} (hs : SameShape s.heap x) (hs' : SameShape s'.heap x')
    (hx : SamePart s'.graph.getAllVariables s'.graph.getAllFactors x x')
    {r r' : List ℝ} {J J' : SpMat ℝ} (hJ : s.graph.sparseJacobian = .ok J) (hJ' : s'.graph.sparseJacobian = .ok J')
    (hlin : Linearised x s.graph.getAllVariables s.graph.getAllFactors r J)
    (hlin' : Linearised x' s'.graph.getAllVariables s'.graph.getAllFactors r' J')
    (hprep : prepare realArith L s = (t, .ok ())) (hprep' : prepare realArith L s' = (t', .ok ())) (v : VRef)
    (hmem : v ∈ s'.graph.getAllVariables) (P P' : Mat ℝ) (hP : estimateCovariance realArith L t (some v) = .ok (some P))
    (hP' : estimateCovariance realArith L t' (some v) = .ok (some P')) :
    P'.rows = P.rows ∧ P'.cols = P.cols ∧ ∀ i j, i < P.rows → j < P.cols → P'.entry i j = P.entry i j := by
  obtain ⟨h0, pre, post, hw, _⟩ := hp.history
  obtain ⟨h0', pre', post', hw', _⟩ := hp'.history
  obtain ⟨J1, e1, hu, z1, z2, hent, _⟩ := C30_block hL hw hv hprep v (hpart.variables v hmem) P hP
  obtain ⟨J2, e2, _, z1', z2', hent', _⟩ := C30_block hL hw' hv' hprep' v hmem P' hP'
  have hfree : VarLike.isConst (x v) = false := by
    obtain ⟨v1, _, _, _, ev, hc, hvt, _⟩ := estimateCovariance_some hP
    obtain rfl := Option.some.inj ev
    obtain ⟨_, _, _, _, _, _, _, hheap, _⟩ := C31_partial realArith L s t hv hprep hvt
    rw [hheap] at hc
    rw [(hs v).2.1, hc]
  rw [hJ] at e1
  rw [hJ'] at e2
  obtain rfl := Res.ok.inj e1
  obtain rfl := Res.ok.inj e2
  have hsz : VarLike.size (s'.heap v) = VarLike.size (s.heap v) := by
    rw [← (hs' v).2.2, hx v (.inl hmem), (hs v).2.2]
  rw [hsz] at z1' z2' hent'
  rw [← hs'.colStart_eq] at hent'
  rw [← hs.colStart_eq] at hent
  obtain ⟨σ, k1, k2, k3, k4, k5, _⟩ := part_systems (C109.nodup hp) (C109.nodup hp') (C109.part_shape hpart hs) hx
    (fun f hf q hm hc => C109.closed hp' f hf q hm (by rw [← (hs' q).2.1, hx q (.inr ⟨f, hf, hm⟩)]; exact hc)) hown hlin hlin'
  rw [← hlin'.columns, ← hlin.columns] at k1 k5
  rw [← hlin'.columns] at k2 k4
  rw [← hlin.rows] at k4 k5
  rw [← hlin'.rows] at k4
  refine ⟨z1'.trans z1.symm, z2'.trans z2.symm, fun i j hi hj => ?_⟩
  rw [z1] at hi
  rw [z2] at hj
  obtain ⟨a, b, e⟩ := hent i j hi hj
  obtain ⟨a', b', e'⟩ := hent' i j hi hj
  rw [e, e', inverse_block (A := (jacobianMatrix J)ᵀ * jacobianMatrix J)
    (fun j : Fin J'.columns.length => (⟨σ j, k1 j j.2⟩ : Fin J.columns.length)) (fun j l e => Fin.ext (k2 j l j.2 l.2 (congrArg Fin.val e)))
    (fun a b => by rw [normal_sum, normal_sum, k4 a b a.2 b.2])
    (fun a m hm => by rw [normal_sum]; exact k5 a m a.2 m.2 fun j hj e => hm ⟨j, hj⟩ (Fin.ext e)) hu]
  have hi' := k3 v hmem hfree i (by rwa [(hs v).2.2])
  have hj' := k3 v hmem hfree j (by rwa [(hs v).2.2])
  simp only [hi', hj']

end

/-! ### The hypotheses are met by the small graph beside another variable -/

namespace C109

/-- An optimizer on the small graph with the variable beside it. -/
noncomputable def whole : OptWorld ℝ (GenVar ℝ) (Ldlt.Fact ℝ) :=
  ⟨(TinyParts.world 0 0 1 4 7 2 3 1 5 9 8).heap, (TinyParts.world 0 0 1 4 7 2 3 1 5 9 8).graph,
    { Optimizer.init realArith with hasGraph := true, complete := true }⟩

theorem prepared : Prepared whole :=
  ⟨⟨_, _, _, TinyParts.finalizedAfter 0 0 1 4 7 2 3 1 5 9 8, TinyParts.noJacobianYet 0 0 1 4 7 2 3 1 5 9 8⟩,
    TinyParts.identify 0 0 1 4 7 2 3 1 5 9 8, TinyParts.noRepeats 0 0 1 4 7 2 3 1 5 9 8,
    TinyParts.reuseSafe 0 0 1 4 7 2 3 1 5 9 8, TinyParts.proper 0 0 1 4 7 2 3 1 5 9 8, rfl⟩

theorem heap : whole.heap = TinyParts.heap 0 0 1 5 := TinyParts.heap_eq ..
theorem vars : whole.graph.getAllVariables = [3, 0, 1, 2] := TinyParts.vars_eq ..
theorem facs : whole.graph.getAllFactors = TinyParts.facs 4 7 2 3 1 9 8 := TinyParts.facs_eq ..

theorem own : ∀ f ∈ TinyWorld.facs (4 : ℝ) 7 2 3 1, LooksAtOwn f := by
  intro f hf
  simp only [TinyWorld.facs, List.mem_cons, List.not_mem_nil, or_false] at hf
  rcases hf with rfl | rfl | rfl
  · exact C86.looksAtOwn_prior _ _ _ _
  · exact C86.looksAtOwn_between _ _ _ _ _ _
  · exact C86.looksAtOwn_prior _ _ _ _

theorem part : IndependentPart (TinyParts.heap (0 : ℝ) 0 1 5) [3, 0, 1, 2] (TinyParts.facs 4 7 2 3 1 9 8) [0, 1, 2]
    (TinyWorld.facs 4 7 2 3 1) := by
  refine ⟨fun q hq => List.mem_cons_of_mem _ hq, fun k => ⟨k + 1, Nat.succ_lt_succ k.2⟩, fun k l e => ?_, fun k => rfl, fun k hk q hq _ => ?_⟩
  · have := congrArg Fin.val e
    exact Fin.ext (Nat.succ.inj this)
  · match k with
    | ⟨0, _⟩ =>
      simp only [List.mem_cons, List.not_mem_nil, or_false] at hq
      rcases hq with rfl | rfl | rfl <;> simp [TinyParts.facs, genericPrior]
    | ⟨k + 1, h⟩ => exact absurd rfl (hk ⟨k, Nat.lt_of_succ_lt_succ h⟩)

theorem same : SamePart [0, 1, 2] (TinyWorld.facs (4 : ℝ) 7 2 3 1) (TinyParts.heap 0 0 1 5) (TinyWorld.heap 0 0 1) := by
  have key : ∀ q, q ∈ [0, 1, 2] → TinyWorld.heap (0 : ℝ) 0 1 q = TinyParts.heap 0 0 1 5 q := by
    intro q hq
    simp only [List.mem_cons, List.not_mem_nil, or_false] at hq
    rcases hq with rfl | rfl | rfl <;> rfl
  rintro q (hq | ⟨f, hf, hq⟩)
  · exact key q hq
  · simp only [TinyWorld.facs, List.mem_cons, List.not_mem_nil, or_false] at hf
    rcases hf with rfl | rfl | rfl <;> simp [genericPrior, genericBetween] at hq
    · exact key q (by simp [hq])
    · exact key q (by simpa using hq)
    · exact key q (by simp [hq])

theorem linearised : Linearised (TinyParts.heap 0 0 1 5) [3, 0, 1, 2] (TinyParts.facs (4 : ℝ) 7 2 3 1 9 8)
    [8 * (5 - 9), 2 * (0 - 4), 3 * (0 - 0 - 1), 1 * (0 - 7)] (TinyParts.jac 2 3 1 8) := by
  refine ⟨⟨[[8 * (5 - 9)], [2 * (0 - 4)], [3 * (0 - 0 - 1)], [1 * (0 - 7)]], rfl, fun k f hk => ?_, rfl⟩, rfl, by cbv,
    fun k => if k = 0 then [Mat.diag 1 8] else if k = 1 then [Mat.diag 1 2] else
      if k = 2 then [Mat.diag 1 (-3), Mat.diag 1 3, Mat.empty] else [Mat.diag 1 1], ?_, ?_⟩
  · match k with
    | 0 => obtain rfl := Option.some.inj hk; exact ⟨_, rfl, rfl, rfl⟩
    | 1 => obtain rfl := Option.some.inj hk; exact ⟨_, rfl, rfl, rfl⟩
    | 2 => obtain rfl := Option.some.inj hk; exact ⟨_, rfl, rfl, rfl⟩
    | 3 => obtain rfl := Option.some.inj hk; exact ⟨_, rfl, rfl, rfl⟩
    | k + 4 => simp [TinyParts.facs, TinyWorld.facs] at hk
  · intro k f hk
    have hi := TinyParts.inv_heap (0 : ℝ) 0 1 5
    match k with
    | 0 => obtain rfl := Option.some.inj hk; exact ⟨rfl, TinyWorld.proper_prior rfl rfl⟩
    | 1 => obtain rfl := Option.some.inj hk; exact ⟨rfl, TinyWorld.proper_prior hi.1 rfl⟩
    | 2 => obtain rfl := Option.some.inj hk; exact ⟨rfl, TinyWorld.proper_between hi 11 3⟩
    | 3 => obtain rfl := Option.some.inj hk; exact ⟨rfl, TinyWorld.proper_prior hi.2.1 rfl⟩
    | k + 4 => simp [TinyParts.facs, TinyWorld.facs] at hk
  · have c3 : colStart (F := ℝ) (TinyParts.heap (0 : ℝ) 0 1 5) [3, 0, 1, 2] 3 = 0 := by cbv
    have c0 : colStart (F := ℝ) (TinyParts.heap (0 : ℝ) 0 1 5) [3, 0, 1, 2] 0 = 1 := by cbv
    have c1 : colStart (F := ℝ) (TinyParts.heap (0 : ℝ) 0 1 5) [3, 0, 1, 2] 1 = 2 := by cbv
    have sz : ∀ r, r < 4 → VarLike.size (F := ℝ) (TinyParts.heap (0 : ℝ) 0 1 5 r) = 1 := by
      intro r hr
      match r, hr with
      | 0, _ => rfl
      | 1, _ => rfl
      | 2, _ => rfl
      | 3, _ => rfl
    intro k f hk i hi
    match k with
    | 0 =>
      obtain rfl := Option.some.inj hk
      obtain rfl : i = 0 := by simpa [genericPrior] using hi
      refine ⟨fun p r J hp hc hJ j hj => ?_, fun r hr hc hm j hj => ?_⟩
      · match p with
        | 0 =>
          obtain rfl : 3 = r := by simpa [genericPrior] using hp
          rw [sz 3 (by decide)] at hj
          obtain rfl : j = 0 := by omega
          obtain rfl := Option.some.inj hJ
          rw [c3]; cbv
        | p + 1 => simp [genericPrior] at hp
      · match r, hr with
        | 0, _ =>
          rw [sz 0 (by decide)] at hj
          obtain rfl : j = 0 := by omega
          rw [c0]; cbv
        | 1, _ =>
          rw [sz 1 (by decide)] at hj
          obtain rfl : j = 0 := by omega
          rw [c1]; cbv
        | 3, _ => simp [genericPrior] at hm
        | 2, _ => simp [TinyParts.heap, VarLike.isConst] at hc
    | 1 =>
      obtain rfl := Option.some.inj hk
      obtain rfl : i = 0 := by simpa [genericPrior] using hi
      refine ⟨fun p r J hp hc hJ j hj => ?_, fun r hr hc hm j hj => ?_⟩
      · match p with
        | 0 =>
          obtain rfl : 0 = r := by simpa [genericPrior] using hp
          rw [sz 0 (by decide)] at hj
          obtain rfl : j = 0 := by omega
          obtain rfl := Option.some.inj hJ
          rw [c0]; cbv
        | p + 1 => simp [genericPrior] at hp
      · match r, hr with
        | 0, _ => simp [genericPrior] at hm
        | 1, _ =>
          rw [sz 1 (by decide)] at hj
          obtain rfl : j = 0 := by omega
          rw [c1]; cbv
        | 3, _ =>
          rw [sz 3 (by decide)] at hj
          obtain rfl : j = 0 := by omega
          rw [c3]; cbv
        | 2, _ => simp [TinyParts.heap, VarLike.isConst] at hc
    | 2 =>
      obtain rfl := Option.some.inj hk
      obtain rfl : i = 0 := by simpa [genericBetween] using hi
      refine ⟨fun p r J hp hc hJ j hj => ?_, fun r hr hc hm j hj => ?_⟩
      · match p with
        | 0 =>
          obtain rfl : 0 = r := by simpa [genericBetween] using hp
          rw [sz 0 (by decide)] at hj
          obtain rfl : j = 0 := by omega
          obtain rfl := Option.some.inj hJ
          rw [c0]; cbv
        | 1 =>
          obtain rfl : 1 = r := by simpa [genericBetween] using hp
          rw [sz 1 (by decide)] at hj
          obtain rfl : j = 0 := by omega
          obtain rfl := Option.some.inj hJ
          rw [c1]; cbv
        | 2 =>
          obtain rfl : 2 = r := by simpa [genericBetween] using hp
          simp [TinyParts.heap, VarLike.isConst] at hc
        | p + 3 => simp [genericBetween] at hp
      · match r, hr with
        | 0, _ => simp [genericBetween] at hm
        | 1, _ => simp [genericBetween] at hm
        | 2, _ => simp [genericBetween] at hm
        | 3, _ =>
          rw [sz 3 (by decide)] at hj
          obtain rfl : j = 0 := by omega
          rw [c3]; cbv
    | 3 =>
      obtain rfl := Option.some.inj hk
      obtain rfl : i = 0 := by simpa [genericPrior] using hi
      refine ⟨fun p r J hp hc hJ j hj => ?_, fun r hr hc hm j hj => ?_⟩
      · match p with
        | 0 =>
          obtain rfl : 1 = r := by simpa [genericPrior] using hp
          rw [sz 1 (by decide)] at hj
          obtain rfl : j = 0 := by omega
          obtain rfl := Option.some.inj hJ
          rw [c1]; cbv
        | p + 1 => simp [genericPrior] at hp
      · match r, hr with
        | 0, _ =>
          rw [sz 0 (by decide)] at hj
          obtain rfl : j = 0 := by omega
          rw [c0]; cbv
        | 1, _ => simp [genericPrior] at hm
        | 3, _ =>
          rw [sz 3 (by decide)] at hj
          obtain rfl : j = 0 := by omega
          rw [c3]; cbv
        | 2, _ => simp [TinyParts.heap, VarLike.isConst] at hc
    | k + 4 => simp [TinyParts.facs, TinyWorld.facs] at hk

end C109

/-- The small graph alone and with another variable beside it. -/
example (t t' : OptWorld ℝ (GenVar ℝ) (Ldlt.Fact ℝ))
    (hret : optimize realArith Ldlt.linAlg (TinyWorld.env 0) C109.whole = (t, .ok ()))
    (hret' : optimize realArith Ldlt.linAlg (TinyWorld.env 0) (C107.start 1) = (t', .ok ()))
    (hst : t.opt.stats.status = .success ∨ t.opt.stats.status = .diverged)
    (hst' : t'.opt.stats.status = .success ∨ t'.opt.stats.status = .diverged)
    (hsame : t'.opt.stats.iteration = t.opt.stats.iteration) : t'.heap 1 = t.heap 1 := by
  refine C109_gauss_newton_partial Ldlt.exact _ _ C109.prepared (C107.prepared 1) ⟨?_, ?_, rfl, rfl, rfl⟩ ?_ t t' hret hret' hst hst'
    hsame 1 (by rw [C107.vars]; simp)
  · rw [C109.heap, C109.vars, C109.facs, C107.vars, C107.facs]
    exact C109.part
  · rw [C107.facs]
    exact C109.own
  · have e : (C107.start 1).heap = TinyWorld.heap 0 0 1 := TinyWorld.heap_eq ..
    rw [C109.heap, e, C107.vars, C107.facs]
    exact C109.same

example (t t' : OptWorld ℝ (GenVar ℝ) (Ldlt.Fact ℝ)) (hprep : prepare realArith Ldlt.linAlg C109.whole = (t, .ok ()))
    (hprep' : prepare realArith Ldlt.linAlg (C107.start 1) = (t', .ok ())) (P P' : Mat ℝ)
    (hP : estimateCovariance realArith Ldlt.linAlg t (some 0) = .ok (some P))
    (hP' : estimateCovariance realArith Ldlt.linAlg t' (some 0) = .ok (some P')) :
    ∀ i j, i < P.rows → j < P.cols → P'.entry i j = P.entry i j := by
  have e : (C107.start 1).heap = TinyWorld.heap 0 0 1 := TinyWorld.heap_eq ..
  have hlin : Linearised (TinyParts.heap 0 0 1 5) C109.whole.graph.getAllVariables C109.whole.graph.getAllFactors
      [8 * (5 - 9), 2 * (0 - 4), 3 * (0 - 0 - 1), 1 * (0 - 7)] (TinyParts.jac 2 3 1 8) := by
    rw [C109.vars, C109.facs]
    exact C109.linearised
  refine (C109_covariance Ldlt.exact C109.prepared (C107.prepared 1) ?_ ?_ rfl rfl (x := TinyParts.heap 0 0 1 5)
    (x' := TinyWorld.heap 0 0 1) (C109.heap ▸ .refl _) (e ▸ .refl _) ?_
    (TinyParts.sparse_eq ..) (TinyWorld.sparse_eq ..) hlin (C107.linearised 1) hprep hprep' 0 (by rw [C107.vars]; simp) P P' hP hP').2.2
  · rw [C109.heap, C109.vars, C109.facs, C107.vars, C107.facs]
    exact C109.part
  · rw [C107.facs]
    exact C109.own
  · rw [C107.vars, C107.facs]
    exact C109.same

/-- In rational arithmetic both runs succeed after two iterations, with the same values and covariances. -/
example :
    let run := fun w : World Rat (GenVar Rat) => (optimize ToyOpt.rat Ldlt.linAlg (TinyWorld.env 0) (ToyOpt.start w ToyOpt.gn)).1
    let alone := run (TinyWorld.world 0 0 1 4 7 2 3 1)
    let whole := run (TinyParts.world 0 0 1 4 7 2 3 1 5 9 8)
    (alone.opt.stats.status, alone.opt.stats.iteration) = (.success, 2) ∧
    (whole.opt.stats.status, whole.opt.stats.iteration) = (.success, 2) ∧
    (alone.heap 0).value ≠ [0] ∧ (alone.heap 0).value = (whole.heap 0).value ∧ (alone.heap 1).value = (whole.heap 1).value ∧
    C29.report (prepare ToyOpt.rat Ldlt.linAlg alone).1 (some 0) = .ok (some [10 / 49]) ∧
    C29.report (prepare ToyOpt.rat Ldlt.linAlg whole).1 (some 0) = .ok (some [10 / 49]) := by decide +kernel

end Factorama.Props
