import Verif.Props.OptimizerSteps

/-! Helper lemmas: two runs that make the same iterations. -/

namespace Factorama
open Spec Opt
variable {F V Fact : Type} [Zero F] [VarLike F V]

/-- The run of `s'` is in step with the run of `s`: from equal variables and statistics, two iterations that both succeed
lead to equal variables and statistics. -/
def InStep (A : Arith F) (L : LinAlg F Fact) (env env' : Env F V) (s s' : OptWorld F V Fact) : Prop :=
  ∀ (k : Nat) (s1 s1' s2 s2' : OptWorld F V Fact), Iterations A L env k s s1 → Iterations A L env' k s' s1' →
    s1'.heap = s1.heap → s1'.opt.stats = s1.opt.stats → oneStep A L env s1 = (s2, .ok ()) →
    oneStep A L env' s1' = (s2', .ok ()) → ¬ Status.isSystemError s2.opt.stats.status →
    ¬ Status.isSystemError s2'.opt.stats.status → s2'.heap = s2.heap ∧ s2'.opt.stats = s2.opt.stats

theorem InStep.iterations {A : Arith F} {L : LinAlg F Fact} {env env' : Env F V} {s s' : OptWorld F V Fact}
    (h : InStep A L env env' s s') (hheap : s'.heap = s.heap) (hstats : s'.opt.stats = s.opt.stats) {k : Nat}
    {t t' : OptWorld F V Fact} (hit : Iterations A L env k s t) (hit' : Iterations A L env' k s' t') :
    t'.heap = t.heap ∧ t'.opt.stats = t.opt.stats := by
  induction k generalizing t t' with
  | zero => cases hit; cases hit'; exact ⟨hheap, hstats⟩
  | succ k ih =>
    cases hit with
    | @succ _ _ t1 _ h1 h2 h3 =>
      cases hit' with
      | @succ _ _ t1' _ h1' h2' h3' =>
        obtain ⟨e1, e2⟩ := ih h1 h1'
        exact h k t1 t1' t t' h1 h1' e1 e2 h2 h2' (afterStep_cont h3).2 (afterStep_cont h3').2

theorem iterations_prefix {A : Arith F} {L : LinAlg F Fact} {env : Env F V} {s t : OptWorld F V Fact} {k : Nat}
    (hit : Iterations A L env k s t) {j : Nat} (hj : j ≤ k) : ∃ u, Iterations A L env j s u := by
  induction k generalizing t with
  | zero => obtain rfl : j = 0 := by omega
            exact ⟨t, hit⟩
  | succ k ih =>
    by_cases e : j = k + 1
    · exact ⟨t, e ▸ hit⟩
    · cases hit with
      | succ h1 _ _ => exact ih h1 (by omega)

theorem Spec.Stops.unique {A : Arith F} {settings : Settings F} {a b c d : F} {st st' : Status} {v v' : Bool}
    (h : Stops A settings a b c d st v) (h' : Stops A settings a b c d st' v') : st' = st ∧ v' = v := by
  cases h <;> cases h' <;> simp_all

theorem Spec.Stops.not_continues {A : Arith F} {settings : Settings F} {a b c d : F} {st : Status} {v : Bool}
    (h : Stops A settings a b c d st v) (h' : Continues A settings a b c d) : False := by
  obtain ⟨h1, h2, h3, h4⟩ := h'
  cases h <;> simp_all

/-- How a run without an error ends. -/
inductive EndsWell (A : Arith F) (L : LinAlg F Fact) (env : Env F V) (s : OptWorld F V Fact) (r0 : List F) :
    Nat → OptWorld F V Fact → Prop where
  | stopped {k : Nat} {s1 s2 s' : OptWorld F V Fact} {status : Status} {valid : Bool} :
      Iterations A L env k (loopStart A env s r0) s1 → oneStep A L env s1 = (s2, .ok ()) → s'.heap = s2.heap →
      ¬ isErrorStatus s2.opt.stats.status →
      Stops A s.opt.settings (A.norm r0) s1.opt.stats.residualNorm s2.opt.stats.residualNorm s2.opt.stats.deltaNorm status valid →
      s'.opt.stats = { s2.opt.stats with status := status, valid := valid } → k < s.opt.settings.maxIterations →
      EndsWell A L env s r0 k s'
  | limit {s1 s' : OptWorld F V Fact} :
      Iterations A L env s.opt.settings.maxIterations (loopStart A env s r0) s1 → s'.heap = s1.heap →
      s'.opt.stats = { s1.opt.stats with status := .success } → EndsWell A L env s r0 s.opt.settings.maxIterations s'

theorem endsWell {A : Arith F} {L : LinAlg F Fact} {env : Env F V} {s : OptWorld F V Fact}
    (hg : s.opt.hasGraph = true) {r0 : List F} (hr : (Graph.computeResidual env s.heap s.graph).2 = .ok r0)
    {s' : OptWorld F V Fact} (hret : optimize A L env s = (s', .ok ())) (hst : ¬ Status.isSystemError s'.opt.stats.status) :
    ∃ k, EndsWell A L env s r0 k s' := by
  rcases Props.C66_ends A L env s hg r0 hr s' hret with ⟨k, s1, s2, hk, hit, h⟩ | ⟨s1, h1, h2, _, h4⟩
  · rcases h with ⟨_, _, e⟩ | ⟨ho, _, he, hv, e⟩ | ⟨h1, h2, h3, status, valid, h4, h5⟩
    · exact absurd (by rw [e]; simp [Status.isSystemError]) hst
    · have hh := iterations_head hit hg rfl rfl rfl
      have hp := oneStep_post A L env s1 (hh.run.hasGraph.trans hg)
      rw [ho] at hp
      rcases ended_counts (hp.ended rfl) hh.valid hh.status with h | ⟨_, h2, _⟩
      · rw [e] at hst; exact absurd h.1 hst
      · rcases he with h | h | h | h <;> rcases h2 with h' | h' <;> rw [h] at h' <;> cases h'
    · exact ⟨k, .stopped hit h1 h2 h3 h4 h5 hk⟩
  · exact ⟨_, .limit h1 h2 h4⟩

theorem not_system_of_not_error {st : Status} (h : ¬ isErrorStatus st) : ¬ Status.isSystemError st := by
  intro h'
  apply h
  rcases h' with h' | h' | h'
  · exact .inl h'
  · exact .inr (.inl h')
  · exact .inr (.inr (.inr h'))

/-- A run that stops does not stop later when in step with it. -/
theorem InStep.not_later {A : Arith F} {L : LinAlg F Fact} {env env' : Env F V} {s s' : OptWorld F V Fact}
    {r0 r0' : List F} (h : InStep A L env env' (loopStart A env s r0) (loopStart A env' s' r0'))
    (hheap : s'.heap = s.heap) (hstart : startStats A r0' = startStats A r0) (hset : s'.opt.settings = s.opt.settings)
    (hg' : s'.opt.hasGraph = true) {k k' : Nat} {s1 s2 t : OptWorld F V Fact} {status : Status} {valid : Bool}
    (h1 : Iterations A L env k (loopStart A env s r0) s1) (h2 : oneStep A L env s1 = (s2, .ok ()))
    (h3 : ¬ isErrorStatus s2.opt.stats.status)
    (h4 : Stops A s.opt.settings (A.norm r0) s1.opt.stats.residualNorm s2.opt.stats.residualNorm s2.opt.stats.deltaNorm status valid)
    (hk : k < k') (hit : Iterations A L env' k' (loopStart A env' s' r0') t) : False := by
  obtain ⟨u, hu⟩ := iterations_prefix hit (Nat.succ_le_of_lt hk)
  obtain ⟨u1, hu1, hu2, _, hu3, hu4⟩ := Props.C66_continues A L env' s' hg' r0' k u hu
  have hnorm : A.norm r0' = A.norm r0 := congrArg Stats.residualNorm hstart
  obtain ⟨e1, e2⟩ := h.iterations hheap hstart h1 hu1
  obtain ⟨_, e4⟩ := h k s1 u1 s2 u h1 hu1 e1 e2 h2 hu2 (not_system_of_not_error h3) (not_system_of_not_error hu3)
  rw [e2, e4, hset, hnorm] at hu4
  exact h4.not_continues hu4

omit [Zero F] in
theorem InStep.symm {A : Arith F} {L : LinAlg F Fact} {env env' : Env F V} {s s' : OptWorld F V Fact}
    (h : InStep A L env env' s s') : InStep A L env' env s' s := by
  intro k s1 s1' s2 s2' h1 h2 h3 h4 h5 h6 h7 h8
  obtain ⟨e1, e2⟩ := h k s1' s1 s2' s2 h2 h1 h3.symm h4.symm h6 h5 h8 h7
  exact ⟨e1.symm, e2.symm⟩

/-- Two runs in step that end without an error end alike. -/
theorem InStep.ends {A : Arith F} {L : LinAlg F Fact} {env env' : Env F V} {s s' : OptWorld F V Fact}
    {r0 r0' : List F} (h : InStep A L env env' (loopStart A env s r0) (loopStart A env' s' r0'))
    (hheap : s'.heap = s.heap) (hstart : startStats A r0' = startStats A r0) (hopt : s'.opt = s.opt)
    (hg : s.opt.hasGraph = true) (hr : (Graph.computeResidual env s.heap s.graph).2 = .ok r0)
    (hr' : (Graph.computeResidual env' s'.heap s'.graph).2 = .ok r0') {t t' : OptWorld F V Fact}
    (hret : optimize A L env s = (t, .ok ())) (hret' : optimize A L env' s' = (t', .ok ()))
    (hst : ¬ Status.isSystemError t.opt.stats.status) (hst' : ¬ Status.isSystemError t'.opt.stats.status) :
    t'.heap = t.heap ∧ t'.opt.stats = t.opt.stats := by
  have hset : s'.opt.settings = s.opt.settings := congrArg _ hopt
  have hg' : s'.opt.hasGraph = true := by rw [hopt]; exact hg
  have hnorm : A.norm r0' = A.norm r0 := congrArg Stats.residualNorm hstart
  obtain ⟨k, hk⟩ := endsWell hg hr hret hst
  obtain ⟨k', hk'⟩ := endsWell hg' hr' hret' hst'
  cases hk with
  | stopped h1 h2 h3 h4 h5 h6 h7 =>
    cases hk' with
    | stopped h1' h2' h3' h4' h5' h6' h7' =>
      rcases Nat.lt_trichotomy k k' with hlt | rfl | hlt
      · exact (h.not_later hheap hstart hset hg' h1 h2 h4 h5 hlt h1').elim
      · obtain ⟨e1, e2⟩ := h.iterations hheap hstart h1 h1'
        obtain ⟨e3, e4⟩ := h k _ _ _ _ h1 h1' e1 e2 h2 h2' (not_system_of_not_error h4) (not_system_of_not_error h4')
        rw [e2, e4, hset, hnorm] at h5'
        obtain ⟨rfl, rfl⟩ := h5.unique h5'
        exact ⟨by rw [h3, h3', e3], by rw [h6, h6', e4]⟩
      · exact (h.symm.not_later hheap.symm hstart.symm hset.symm hg h1' h2' h4' h5' hlt h1).elim
    | limit h1' _ _ =>
      exact (h.not_later hheap hstart hset hg' h1 h2 h4 h5 (by rw [hset]; exact h7) h1').elim
  | limit h1 h2 h3 =>
    cases hk' with
    | stopped h1' h2' h3' h4' h5' h6' h7' =>
      exact (h.symm.not_later hheap.symm hstart.symm hset.symm hg h1' h2' h4' h5' (by rw [← hset]; exact h7') h1).elim
    | limit h1' h2' h3' =>
      rw [hset] at h1'
      obtain ⟨e1, e2⟩ := h.iterations hheap hstart h1 h1'
      exact ⟨by rw [h2, h2', e1], by rw [h3, h3', e2]⟩

end Factorama
