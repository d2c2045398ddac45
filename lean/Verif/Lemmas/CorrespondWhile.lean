import Verif.Lemmas.Correspond
import Verif.Spec.CorrespondWhile

/-! Helper lemmas: problems that correspond to each other while a condition on the steps holds. -/

namespace Factorama
open Spec Opt Matrix Graph Props
variable {V Fact : Type} [VarLike ℝ V] [LawfulVar ℝ V] {L : LinAlg ℝ Fact}

/-- Gauss-Newton on such problems goes in step. -/
theorem Spec.CorrespondWhile.gaussNewton_inStep {G : V → List ℝ → V → Prop} {c : ℝ} (hc : 0 < c) {H : Heap V → Heap V → Prop}
    (hL : ExactLinAlg L) (env env' : Env ℝ V) (s s' : OptWorld ℝ V Fact) (hp : Prepared s) (hp' : Prepared s')
    (hcor : CorrespondWhile G c H s.graph.getAllVariables s.graph.getAllFactors s'.graph.getAllVariables s'.graph.getAllFactors)
    (hset : s'.opt.settings = scaledSettings c s.opt.settings) (hm : s.opt.settings.method = .gaussNewton) (r0 r0' : List ℝ)
    (hG : ∀ k s1 s2 d, Iterations realArith L env k (loopStart realArith env s r0) s1 → oneStep realArith L env s1 = (s2, .ok ()) →
      Stepped s1.heap s2.heap s.graph.getAllVariables d → StepsAre G s1.heap s2.heap s.graph.getAllVariables d)
    (hG' : ∀ k s1 s2 d, Iterations realArith L env' k (loopStart realArith env' s' r0') s1 → oneStep realArith L env' s1 = (s2, .ok ()) →
      Stepped s1.heap s2.heap s'.graph.getAllVariables d → StepsAre G s1.heap s2.heap s'.graph.getAllVariables d) :
    InStepBy c H L env env' (loopStart realArith env s r0) (loopStart realArith env' s' r0') := by
  obtain ⟨h0, pre, post, hw, hpre⟩ := hp.history
  obtain ⟨h0', pre', post', hw', hpre'⟩ := hp'.history
  intro k s1 s1' s2 s2' hit hit' eh es ho ho' hne hne'
  obtain ⟨r, J, hlin, hcase⟩ := Props.C67_gauss_newton realArith L env s hw hpre hp.ids hp.noRepeats hp.safe hp.proper hp.graph hm
    r0 k s1 s2 hit ho
  obtain ⟨r', J', hlin', hcase'⟩ := Props.C67_gauss_newton realArith L env' s' hw' hpre' hp'.ids hp'.noRepeats hp'.safe hp'.proper
    hp'.graph (by rw [hset]; exact hm) r0' k s1' s2' hit' ho'
  have hrefused : ∀ {H : Mat ℝ} {b : List ℝ} {status : Status}, SystemRefused realArith L H b status →
      Status.isSystemError status := by
    intro H b status h
    cases h <;> simp [Status.isSystemError]
  rcases hcase with ⟨st, h1, _, e⟩ | ⟨d, q, h1, h2, h3, h4⟩
  · rw [e] at hne; exact absurd (hrefused h1) hne
  rcases hcase' with ⟨st, h1', _, e⟩ | ⟨d', q', h1', h2', h3', h4'⟩
  · rw [e] at hne'; exact absurd (hrefused h1') hne'
  obtain ⟨B, hB, _, hM, hgr, hstep⟩ := hcor.step _ _ r r' J J' eh hlin hlin'
  have o1 := onlySolution_undamped hL h1
  have o2 := onlySolution_undamped hL h1'
  obtain ⟨e1, e2⟩ := o1.correspond hB hM hgr (by simpa using o2)
  have hrate : s'.opt.settings.learningRate = s.opt.settings.learningRate := by rw [hset]; rfl
  rw [hrate] at h2' h4'
  have hg := hstep _ d d' _ _ o1.length o2.length e1 h2 h2' (hG k s1 s2 _ hit ho h2) (hG' k s1' s2' _ hit' ho' h2')
  have hq := hcor.cost _ _ q q' hg h3 h3'
  refine ⟨hg, ?_⟩
  rw [h4, h4', es, e2, norm_eq_of_sq hc hq, hq]
  rfl

/-- Gauss-Newton on such problems. -/
theorem Spec.CorrespondWhile.gaussNewton {G : V → List ℝ → V → Prop} {c : ℝ} (hc : 0 < c) {H : Heap V → Heap V → Prop} (hL : ExactLinAlg L) (env env' : Env ℝ V)
    (s s' : OptWorld ℝ V Fact) (hp : Prepared s) (hp' : Prepared s')
    (hcor : CorrespondWhile G c H s.graph.getAllVariables s.graph.getAllFactors s'.graph.getAllVariables s'.graph.getAllFactors)
    (hH : H s.heap s'.heap) (hset : s'.opt.settings = scaledSettings c s.opt.settings)
    (hm : s.opt.settings.method = .gaussNewton) (r0 r0' : List ℝ)
    (hr : (Graph.computeResidual env s.heap s.graph).2 = .ok r0)
    (hr' : (Graph.computeResidual env' s'.heap s'.graph).2 = .ok r0')
    (hG : ∀ k s1 s2 d, Iterations realArith L env k (loopStart realArith env s r0) s1 → oneStep realArith L env s1 = (s2, .ok ()) →
      Stepped s1.heap s2.heap s.graph.getAllVariables d → StepsAre G s1.heap s2.heap s.graph.getAllVariables d)
    (hG' : ∀ k s1 s2 d, Iterations realArith L env' k (loopStart realArith env' s' r0') s1 → oneStep realArith L env' s1 = (s2, .ok ()) →
      Stepped s1.heap s2.heap s'.graph.getAllVariables d → StepsAre G s1.heap s2.heap s'.graph.getAllVariables d)
    (t t' : OptWorld ℝ V Fact)
    (hret : optimize realArith L env s = (t, .ok ())) (hret' : optimize realArith L env' s' = (t', .ok ()))
    (hst : t.opt.stats.status = .success ∨ t.opt.stats.status = .diverged)
    (hst' : t'.opt.stats.status = .success ∨ t'.opt.stats.status = .diverged) :
    H t.heap t'.heap ∧ t'.opt.stats = scaledStats c t.opt.stats := by
  obtain ⟨h0, pre, post, hw, hpre⟩ := hp.history
  obtain ⟨h0', pre', post', hw', hpre'⟩ := hp'.history
  have hres0 := evaluated_isResidual (finalizedAfter_layout hw) (computeResidual_evaluated hr)
  have hres0' := evaluated_isResidual (finalizedAfter_layout hw') (computeResidual_evaluated hr')
  have hsys : ∀ st : Status, st = .success ∨ st = .diverged → ¬ Status.isSystemError st := by
    rintro st (rfl | rfl) <;> simp [Status.isSystemError]
  exact InStepBy.ends hc (hcor.gaussNewton_inStep hc hL env env' s s' hp hp' hset hm r0 r0' hG hG') hH
    (startStats_scaled hc (hcor.cost _ _ _ _ hH hres0 hres0')) hset hp.graph hp'.graph hr hr' hret hret' (hsys _ hst) (hsys _ hst')

end Factorama
