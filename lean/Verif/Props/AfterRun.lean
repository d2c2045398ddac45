import Verif.Props.Stationary
import Verif.Props.CovarianceLinearisation

/-! # What a run leaves behind for the covariances -/

namespace Factorama.Props
open Spec Graph Opt
variable {V Fact : Type} [VarLike ℝ V] [LawfulVar ℝ V] {L : LinAlg ℝ Fact}

omit [VarLike ℝ V] [LawfulVar ℝ V] in
theorem finish_count (w : OptWorld ℝ V Fact) :
    (finish w).opt.stats.iteration = w.opt.stats.iteration ∧ (finish w).opt.stats.valid = w.opt.stats.valid := by
  unfold finish
  dsimp only
  split <;> exact ⟨rfl, rfl⟩

omit [LawfulVar ℝ V] in
theorem last_count {env : Env ℝ V} {s s1 s2 : OptWorld ℝ V Fact} {r0 : List ℝ} {k : Nat} {st : Stats ℝ} {b : Bool}
    (hg : s.opt.hasGraph = true) (hit : Iterations realArith L env k (loopStart realArith env s r0) s1)
    (ho : oneStep realArith L env s1 = (s2, .ok ()))
    (ha : afterStep realArith s2.opt.settings s2.opt.initialStats s1.opt.stats s2.opt.stats = (st, b)) (hv : st.valid = true) :
    st.iteration = k + 1 := by
  have hh := iterations_head hit hg rfl rfl rfl
  have hpost := oneStep_post realArith L env s1 (hh.run.hasGraph.trans hg)
  rw [ho] at hpost
  obtain ⟨v, status, e, hc⟩ := afterStep_fields realArith s2.opt.settings s2.opt.initialStats s1.opt.stats s2.opt.stats
  rw [ha] at e
  dsimp only at e
  subst e
  rcases ended_counts (hpost.ended rfl) hh.valid hh.status with h | ⟨_, _, h3⟩
  · rcases hc with h' | h' | h' <;> rw [h'.2.1] at hv
    · rw [h.2.1] at hv; cases hv
    · rw [h.2.1] at hv; cases hv
    · cases hv
  · exact h3.trans (by rw [hh.iteration])

/-- After a valid run the graph is as it was, but for the values of its variables, and holds the Jacobian at the values from which
the last iteration started. -/
theorem afterRun_at (env : Env ℝ V) {s t : OptWorld ℝ V Fact} (hp : Prepared s) (hrest : Restorable s)
    (hpos : 0 < s.opt.settings.maxIterations) (hret : optimize realArith L env s = (t, .ok ())) (hvalid : t.opt.stats.valid = true) :
    Prepared t ∧ t.opt.hessianValid = s.opt.hessianValid ∧ t.graph.getAllVariables = s.graph.getAllVariables ∧
    t.graph.getAllFactors = s.graph.getAllFactors ∧ SameShape s.heap t.heap ∧
    ∃ r0 k s1 r J, (computeResidual env s.heap s.graph).2 = .ok r0 ∧ Iterations realArith L env k (loopStart realArith env s r0) s1 ∧
      t.opt.stats.iteration = k + 1 ∧ SameShape s.heap s1.heap ∧
      Linearised s1.heap s.graph.getAllVariables s.graph.getAllFactors r J ∧ t.graph.sparseJacobian = .ok J := by
  obtain ⟨h0, pre, post, hw, hpre⟩ := hp.history
  have hne : (optimize realArith L env s).2 ≠ .ub := by rw [hret]; simp
  obtain ⟨⟨post', hw'⟩, hv, hf, _, hs⟩ := C63_only_value_calls realArith L env s hw hne
  obtain ⟨hf1, hf2, _⟩ := optimize_flags realArith L env s hne
  rw [hret] at hw' hv hf hs hf1 hf2
  dsimp only at hw' hv hf hs hf1 hf2
  refine ⟨⟨⟨h0, pre, _, hw', hpre⟩, ?_, ?_, ?_, ?_, ?_⟩, hf1, hv, hf, hs, ?_⟩
  · rw [hv, hf]
    intro f hf' v hv' r hr e
    exact hp.ids f hf' v hv' r hr (by rw [← (hs r).1, ← (hs v).1]; exact e)
  · rw [hf]; exact hp.noRepeats
  · rw [hf]; exact hp.safe
  · rw [hf]
    intro h hs' f hf' js hj
    exact hp.proper h (fun q => ⟨(hs' q).1.trans (hs q).1, (hs' q).2.1.trans (hs q).2.1, (hs' q).2.2.trans (hs q).2.2⟩) f hf' js hj
  · exact hf2.trans hp.graph
  obtain ⟨r0, _, _, _, hr, _⟩ := C110.last env hp.graph hpos hret hvalid
  obtain ⟨o, hend, hor⟩ := optimize_ends realArith L env s hp.graph hr
  obtain ⟨ho, e⟩ : o.2 = .ok () ∧ optimize realArith L env s = (finish o.1, .ok ()) := by
    rcases hor with h | ⟨_, e⟩
    · exact h
    · rw [e] at hret; simp at hret
  rw [e] at hret
  obtain rfl := (Prod.mk.inj hret).1
  have hstep := C31.step realArith L env s hw hpre hp.ids hp.noRepeats hp.safe hp.proper hp.graph hrest r0 hr
  cases hend with
  | @budget s1 hit =>
    obtain ⟨n, hn⟩ : ∃ n, s.opt.settings.maxIterations = n + 1 := ⟨s.opt.settings.maxIterations - 1, by omega⟩
    rw [hn] at hit
    obtain ⟨s2, hit2, ho2, _⟩ := C66_continues realArith L env s hp.graph r0 n s1 hit
    obtain ⟨r, J, h1, h2⟩ := hstep n s2 s1 hit2 ho2
    obtain ⟨_, _, hshape, _, _⟩ := iterations_ready hw hpre hp.ids hp.noRepeats hit2
    refine ⟨r0, n, s2, r, J, hr, hit2, ?_, hshape, h1, h2⟩
    rw [(finish_count _).1]
    exact (iterations_head hit hp.graph rfl rfl rfl).iteration
  | @threw k s1 s2 hk hit ho2 => simp [finish, giveUp, modStats, SE.modify] at hvalid
  | ub => simp at ho
  | @check k s1 s2 st hk hit ho2 ha =>
    obtain ⟨r, J, h1, h2⟩ := hstep k s1 s2 hit ho2
    obtain ⟨_, _, hshape, _, _⟩ := iterations_ready hw hpre hp.ids hp.noRepeats hit
    refine ⟨r0, k, s1, r, J, hr, hit, ?_, hshape, h1, h2⟩
    rw [(finish_count _).1]
    rw [(finish_count _).2] at hvalid
    exact last_count hp.graph hit ho2 ha hvalid

/-- The same, without the iterations. -/
theorem afterRun (env : Env ℝ V) {s t : OptWorld ℝ V Fact} (hp : Prepared s) (hrest : Restorable s)
    (hpos : 0 < s.opt.settings.maxIterations) (hret : optimize realArith L env s = (t, .ok ())) (hvalid : t.opt.stats.valid = true) :
    Prepared t ∧ t.opt.hessianValid = s.opt.hessianValid ∧ t.graph.getAllVariables = s.graph.getAllVariables ∧
    t.graph.getAllFactors = s.graph.getAllFactors ∧ SameShape s.heap t.heap ∧
    ∃ h r J, SameShape s.heap h ∧ Linearised h s.graph.getAllVariables s.graph.getAllFactors r J ∧ t.graph.sparseJacobian = .ok J := by
  obtain ⟨h1, h2, h3, h4, h5, _, _, s1, r, J, _, _, _, h6, h7, h8⟩ := afterRun_at env hp hrest hpos hret hvalid
  exact ⟨h1, h2, h3, h4, h5, s1.heap, r, J, h6, h7, h8⟩

end Factorama.Props
