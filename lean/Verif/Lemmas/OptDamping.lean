import Verif.Lemmas.OptLoop

/-!
# How the damping parameter moves
-/

set_option linter.unusedSectionVars false

namespace Factorama.Opt
open Spec Graph
variable {F V Fact : Type} [Zero F] [VarLike F V]

/-- A set of damping values that the updates of a run stay in. -/
structure DampingClosed (A : Arith F) (L : LinAlg F Fact) (st : Settings F) (P : F → Prop) : Prop where
  init : P st.initialLambda
  fail : (∀ x, P x → P (A.mul x st.lambdaUp)) ∨ SolverNeverFails A L
  worse : ∀ x, P x → P (A.stdMin (A.mul x st.lambdaUp) st.maxLambda)
  better : ∀ x, P x → P (A.stdMax (A.mul x st.lambdaDown) (A.lit (1 / 10 ^ 12)))

theorem lmTrials_damping (A : Arith F) (L : LinAlg F Fact) (env : Env F V) (J : SpMat F) (cost : F) (P : F → Prop)
    (k : Nat) (dx : List F) (s : OptWorld F V Fact) (hc : DampingClosed A L s.opt.settings P) (hs : P s.opt.stats.damping) :
    P (lmTrials A L env J cost k dx s).1.opt.stats.damping := by
  induction k generalizing dx s with
  | zero => exact hs
  | succ k ih =>
    unfold lmTrials
    simp only [SE.bind_get]
    have hfail : ∀ (f : Option Fact) (dx' : List F), (∀ x, P x → P (A.mul x s.opt.settings.lambdaUp)) →
        P (SE.bind (raiseLambda A) (fun _ => lmTrials A L env J cost k dx')
          ({ s with opt := { s.opt with solver := f } } : OptWorld F V Fact)).1.opt.stats.damping := by
      intro f dx' hup
      exact ih dx' _ hc (hup _ hs)
    cases hf : L.factorize (addDiagonal A (L.gram J) s.opt.stats.damping) with
    | none =>
      rcases hc.fail with hup | hn
      · exact hfail none dx hup
      · obtain ⟨f, e, _⟩ := hn (addDiagonal A (L.gram J) s.opt.stats.damping)
        rw [hf] at e
        exact absurd e (by simp)
    | some f =>
      dsimp only
      simp only [modOpt, SE.bind_modify]
      split
      · exact hs
      split
      · rename_i hbad
        rcases hc.fail with hup | hn
        · exact hfail (some f) dx hup
        · obtain ⟨f', e, h1, h2, _⟩ := hn (addDiagonal A (L.gram J) s.opt.stats.damping)
          rw [hf] at e
          cases e
          rw [h1, h2] at hbad
          exact absurd hbad (by simp)
      cases hsol : L.solve f (L.rhs J s.opt.residual1) with
      | none =>
        rcases hc.fail with hup | hn
        · exact hfail (some f) _ hup
        · obtain ⟨f', e, _, _, h3⟩ := hn (addDiagonal A (L.gram J) s.opt.stats.damping)
          rw [hf] at e
          cases e
          obtain ⟨d, hd⟩ := h3 (L.rhs J s.opt.residual1)
          rw [hsol] at hd
          exact absurd hd (by simp)
      | some d =>
        dsimp only
        generalize hdx : A.scale s.opt.settings.learningRate d = dx'
        obtain ⟨b, h', hh', hcase⟩ := trial_cases env dx' (SE.bind SE.get fun s' =>
          if A.lt (A.mul (A.lit (1 / 2)) (A.sqNorm s'.opt.residual2)) cost = true then
            SE.bind (modStats fun st => { st with
              damping := A.stdMax (A.mul st.damping s.opt.settings.lambdaDown) (A.lit (1 / 10 ^ 12)) }) fun _ =>
            SE.ret (true, dx')
          else
            SE.bind (restoreValues (saveValues s)) fun _ =>
            SE.bind (modStats fun st => { st with
              damping := A.stdMin (A.mul st.damping s.opt.settings.lambdaUp) s.opt.settings.maxLambda }) fun _ =>
            SE.bind SE.get fun s'' =>
            if A.le s.opt.settings.maxLambda s''.opt.stats.damping = true then SE.ret (false, dx')
            else lmTrials A L env J cost k dx')
          ({ s with opt := { s.opt with solver := some f } } : OptWorld F V Fact)
        rcases hcase with ⟨r, hr, e⟩ | ⟨_, e⟩
        · rw [e]; exact hs
        rw [e]
        clear e
        simp only [SE.bind_get]
        split
        · exact hc.better _ hs
        · rcases hrv : restoreValues (F := F) (Fact := Fact) (saveValues s)
            ({ s with heap := h', opt := { s.opt with solver := some f, residual2 := b } } : OptWorld F V Fact) with ⟨s2, res⟩
          have hopt : s2.opt = { s.opt with solver := some f, residual2 := b } := by
            have h1 := congrArg (fun p : OptWorld F V Fact × Res Unit => p.1.opt) hrv
            exact h1.symm
          cases res with
          | threw => rw [SE.bind_threw hrv]; dsimp only; rw [hopt]; exact hs
          | ub => rw [SE.bind_ub hrv]; dsimp only; rw [hopt]; exact hs
          | ok u =>
            rw [SE.bind_ok hrv]
            simp only [modStats, SE.bind_modify, SE.bind_get]
            have hP : P (A.stdMin (A.mul s2.opt.stats.damping s.opt.settings.lambdaUp) s.opt.settings.maxLambda) := by
              rw [hopt]; exact hc.worse _ hs
            split
            · exact hP
            · refine ih dx' _ ?_ hP
              show DampingClosed A L s2.opt.settings P
              rw [hopt]; exact hc

theorem lmRejected_damping (A : Arith F) (cost : F) (s : OptWorld F V Fact) :
    (lmRejected A cost s).1.opt.stats.damping = s.opt.stats.damping := by
  unfold lmRejected
  simp only [SE.bind_get]
  split <;> rfl

theorem levenbergMarquardtStep_damping (A : Arith F) (L : LinAlg F Fact) (env : Env F V) (P : F → Prop)
    (s : OptWorld F V Fact) (hc : DampingClosed A L s.opt.settings P)
    (hs : s.opt.stats.iteration = 0 ∨ P s.opt.stats.damping) :
    ((levenbergMarquardtStep A L env s).2 ≠ .ok () ∧
        (levenbergMarquardtStep A L env s).1.opt.stats.damping = s.opt.stats.damping) ∨
      P (levenbergMarquardtStep A L env s).1.opt.stats.damping := by
  unfold levenbergMarquardtStep
  simp only [SE.bind_get]
  split
  · exact .inl ⟨by simp [SE.throw], rfl⟩
  rcases start_cases env _ s with ⟨s1, hrun, hh, hst, e⟩ | ⟨s1, J, hrun, hh, hst, hev, e⟩
  · rcases e with e | e <;> rw [e] <;> exact .inl ⟨by simp, by rw [hst]⟩
  rw [e]
  clear e
  refine .inr ?_
  simp only [SE.bind_get, modStats, SE.bind_modify]
  generalize A.mul (A.lit (1 / 2)) (A.sqNorm s1.opt.residual1) = cost
  generalize hs2 : ({ s1 with opt := { s1.opt with stats := if s1.opt.stats.iteration = 0 then
    { s1.opt.stats with damping := s1.opt.settings.initialLambda } else s1.opt.stats } } : OptWorld F V Fact) = s2
  have hset : s2.opt.settings = s.opt.settings := by subst hs2; exact hrun.settings
  have hP2 : P s2.opt.stats.damping := by
    subst hs2
    by_cases h0 : s1.opt.stats.iteration = 0
    · dsimp only; rw [if_pos h0]; dsimp only; rw [hrun.settings]; exact hc.init
    · dsimp only; rw [if_neg h0, hst]
      rcases hs with hs | hs
      · rw [hst] at h0; exact absurd hs h0
      · exact hs
  have h3 := lmTrials_damping A L env J cost P 5 [] s2 (by rw [hset]; exact hc) hP2
  rcases ht : lmTrials A L env J cost 5 [] s2 with ⟨s3, res⟩
  rw [ht] at h3
  cases res with
  | threw => rw [SE.bind_threw ht]; exact h3
  | ub => rw [SE.bind_ub ht]; exact h3
  | ok p =>
    obtain ⟨acc, dx⟩ := p
    rw [SE.bind_ok ht]
    cases acc with
    | true => exact h3
    | false =>
      have h4 := lmRejected_damping A cost s3
      obtain ⟨v, st, e, _⟩ := lmRejected_eq A cost s3
      simp only [Bool.false_eq_true, if_false]
      rw [SE.bind_ok e]
      exact h3

/-- The damping of every state at the head of the loop after the first iteration, and of every state after a step. -/
theorem iterations_damping {A : Arith F} {L : LinAlg F Fact} {env : Env F V} {k : Nat} {s1 s : OptWorld F V Fact}
    {P : F → Prop} (hit : Iterations A L env k s1 s) (hg : s1.opt.hasGraph = true) (hv : s1.opt.stats.valid = true)
    (hst : s1.opt.stats.status = .running) (h0 : s1.opt.stats.iteration = 0)
    (hm : s1.opt.settings.method = .levenbergMarquardt) (hc : DampingClosed A L s1.opt.settings P) :
    (k = 0 ∧ s = s1) ∨ P s.opt.stats.damping := by
  induction hit with
  | zero s1 => exact .inl ⟨rfl, rfl⟩
  | @succ k s1 s s' hit ho ha ih =>
    have hd := iterations_head hit hg hv hst h0
    have hset := hd.run.settings
    have := levenbergMarquardtStep_damping A L env P s (by rw [hset]; exact hc) (by
      rcases ih hg hv hst h0 hm hc with h | h
      · rw [h.2]; exact .inl h0
      · exact .inr h)
    have ho' : levenbergMarquardtStep A L env s = (s', .ok ()) := by
      rw [← ho]; unfold oneStep; simp only [SE.bind_get]; rw [hset, hm]
    rw [ho'] at this
    dsimp only at this
    rcases this with h | h
    · exact absurd rfl h.1
    · exact .inr h

/-- The damping parameter after a run: untouched if the first step did not get as far as solving, else in the set. -/
theorem optimize_damping {A : Arith F} {L : LinAlg F Fact} {env : Env F V} {s : OptWorld F V Fact} {P : F → Prop}
    (hg : s.opt.hasGraph = true) {r0 : List F} (hr : (computeResidual env s.heap s.graph).2 = .ok r0)
    (hm : s.opt.settings.method = .levenbergMarquardt) (hc : DampingClosed A L s.opt.settings P) :
    (optimize A L env s).1.opt.stats.damping = A.lit (1 / 1000) ∨ P (optimize A L env s).1.opt.stats.damping := by
  have hstep : ∀ k s', Iterations A L env k (loopStart A env s r0) s' →
      (s'.opt.stats.damping = A.lit (1 / 1000) ∨ P s'.opt.stats.damping) ∧
      ((oneStep A L env s').1.opt.stats.damping = A.lit (1 / 1000) ∨ P (oneStep A L env s').1.opt.stats.damping) := by
    intro k s' hit
    have hd := iterations_head hit hg rfl rfl rfl
    have h1 := iterations_damping hit hg rfl rfl rfl hm hc
    have h2 : s'.opt.stats.damping = A.lit (1 / 1000) ∨ P s'.opt.stats.damping := by
      rcases h1 with h | h
      · rw [h.2]; exact .inl rfl
      · exact .inr h
    refine ⟨h2, ?_⟩
    have ho : oneStep A L env s' = levenbergMarquardtStep A L env s' := by
      have hm' : (loopStart A env s r0).opt.settings.method = .levenbergMarquardt := hm
      unfold oneStep; simp only [SE.bind_get]; rw [hd.run.settings, hm']
    rw [ho]
    rcases levenbergMarquardtStep_damping A L env P s' (by rw [hd.run.settings]; exact hc) (by
      rcases h1 with h | h
      · rw [h.2]; exact .inl rfl
      · exact .inr h) with h | h
    · rw [h.2]; exact h2
    · exact .inr h
  obtain ⟨o, hend, hfin⟩ := optimize_ends A L env s hg hr
  have key : o.1.opt.stats.damping = A.lit (1 / 1000) ∨ P o.1.opt.stats.damping := by
    cases hend with
    | budget hit => exact (hstep _ _ hit).1
    | threw _ hit e => have := (hstep _ _ hit).2; rw [e] at this; exact this
    | ub _ hit e => have := (hstep _ _ hit).2; rw [e] at this; exact this
    | @check k s' s'' st _ hit e ha =>
      have := (hstep _ _ hit).2
      rw [e] at this
      obtain ⟨v, status, e', _⟩ := afterStep_fields A s''.opt.settings s''.opt.initialStats s'.opt.stats s''.opt.stats
      rw [ha] at e'
      dsimp only at e' this ⊢
      rw [e']
      exact this
  rcases hfin with ⟨_, e⟩ | ⟨_, e⟩
  · rw [e]
    unfold finish
    dsimp only
    split <;> exact key
  · rw [e]; exact key

end Factorama.Opt
