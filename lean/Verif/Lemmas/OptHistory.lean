import Verif.Lemmas.OptLoop

/-!
# Flags of the optimizer over histories of calls
-/

set_option linter.unusedSectionVars false

namespace Factorama.Opt
open Spec Graph
variable {F V Fact : Type} [Zero F] [VarLike F V]

theorem optimizedSince_snoc (evs : List (Call F V × Res Unit)) (ev : Call F V × Res Unit) :
    OptimizedSinceSetup (evs ++ [ev]) ↔
      ev = (.optimize, .ok ()) ∨ (OptimizedSinceSetup evs ∧ ∀ g st, ev.1 ≠ .setup g st) := by
  constructor
  · rintro ⟨pre, post, e, hp⟩
    rcases List.eq_nil_or_concat post with rfl | ⟨post', x, rfl⟩
    · have := List.append_inj' (t₁ := [ev]) e rfl
      exact .inl (by simpa using this.2)
    · rw [List.concat_eq_append, ← List.cons_append, ← List.append_assoc] at e
      have h2 := List.append_inj' (t₁ := [ev]) (t₂ := [x]) e rfl
      simp only [List.cons.injEq, and_true] at h2
      obtain ⟨h3, rfl⟩ := h2
      refine .inr ⟨⟨pre, post', h3, fun y hy => hp y (by simp [hy])⟩, hp ev (by simp)⟩
  · rintro (rfl | ⟨⟨pre, post, rfl, hp⟩, hne⟩)
    · exact ⟨evs, [], rfl, by simp⟩
    · refine ⟨pre, post ++ [ev], by simp, ?_⟩
      intro y hy
      rcases List.mem_append.1 hy with h | h
      · exact hp y h
      · rw [List.mem_singleton.1 h]; exact hne

theorem preparedSince_snoc {evs : List (Call F V × Res Unit)} {ev : Call F V × Res Unit}
    (h : (ev = (.prepare, .ok ()) ∧ OptimizedSinceSetup evs) ∨ (PreparedSinceSetup evs ∧ ∀ g st, ev.1 ≠ .setup g st)) :
    PreparedSinceSetup (evs ++ [ev]) := by
  rcases h with ⟨rfl, h⟩ | ⟨⟨pre, post, rfl, hp, ho⟩, hne⟩
  · exact ⟨evs, [], rfl, by simp, h⟩
  · refine ⟨pre, post ++ [ev], by simp, ?_, ho⟩
    intro y hy
    rcases List.mem_append.1 hy with h | h
    · exact hp y h
    · rw [List.mem_singleton.1 h]; exact hne

/-- What `optimize()` does to the flags. -/
theorem optimize_flags (A : Arith F) (L : LinAlg F Fact) (env : Env F V) (s : OptWorld F V Fact)
    (hub : (optimize A L env s).2 ≠ .ub) :
    (optimize A L env s).1.opt.hessianValid = s.opt.hessianValid ∧
    (optimize A L env s).1.opt.hasGraph = s.opt.hasGraph ∧
    (optimize A L env s).1.opt.settings = s.opt.settings ∧
    (optimize A L env s).1.opt.hessian = s.opt.hessian ∧
    ((optimize A L env s).2 = .ok () → (optimize A L env s).1.opt.complete = true) ∧
    ((optimize A L env s).2 = .threw → (optimize A L env s).1.opt.complete = s.opt.complete) := by
  cases hg : s.opt.hasGraph with
  | false => rw [optimize_noGraph A L env s hg]; simp [hg]
  | true =>
    cases hr : (computeResidual env s.heap s.graph).2 with
    | ub => exact absurd (optimize_ubResidual A L env s hg hr).1 hub
    | threw =>
      have h1 := (optimize_noResidual A L env s hg hr).1
      have h2 := optimize_noResidual_opt A L env s hg hr
      rw [h1, h2]
      simp [hg]
    | ok r0 =>
      obtain ⟨o, hend, ⟨ho, e⟩ | ⟨ho, e⟩⟩ := optimize_ends A L env s hg hr
      · rw [e]
        have key : SameRun (loopStart A env s r0) o.1 := by
          have hstep : ∀ k s', Iterations A L env k (loopStart A env s r0) s' →
              SameRun (loopStart A env s r0) s' ∧ SameRun (loopStart A env s r0) (oneStep A L env s').1 := by
            intro k s' hit
            have := iterations_head hit hg rfl rfl rfl
            exact ⟨this.run, this.run.trans (oneStep_post A L env s' (this.run.hasGraph.trans hg)).run⟩
          cases hend with
          | budget hit => exact (hstep _ _ hit).1
          | threw _ hit e1 =>
            have := (hstep _ _ hit).2
            rw [e1] at this
            exact this.trans ⟨rfl, rfl, rfl, rfl, rfl, rfl, .refl _⟩
          | ub _ hit e1 =>
            have := (hstep _ _ hit).2
            rw [e1] at this
            exact this
          | check _ hit e1 _ =>
            have := (hstep _ _ hit).2
            rw [e1] at this
            exact this.trans ⟨rfl, rfl, rfl, rfl, rfl, rfl, .refl _⟩
        exact ⟨key.hessianValid, key.hasGraph.trans hg, key.settings, key.hessian, fun _ => rfl, by simp⟩
      · rw [e] at hub; exact absurd rfl hub

theorem prepare_cases (A : Arith F) (L : LinAlg F Fact) (s : OptWorld F V Fact) :
    (s.opt.hessianValid = true ∧ prepare A L s = (s, .ok ())) ∨
    (s.opt.hessianValid = false ∧ s.opt.complete = false ∧ prepare A L s = (s, .ok ())) ∨
    (s.opt.hessianValid = false ∧ s.opt.complete = true ∧
      ((∃ r, r ≠ .ok () ∧ prepare A L s = (s, r)) ∨
       ∃ J, s.graph.sparseJacobian = .ok J ∧
        ((L.factorize (L.gram J) = none ∧
          prepare A L s = ({ s with opt := { s.opt with hessian := L.gram J, solver := none } }, .ok ())) ∨
         (∃ f, L.factorize (L.gram J) = some f ∧
          (prepare A L s = ({ s with opt := { s.opt with hessian := L.gram J, solver := some f } }, .ub) ∨
           prepare A L s = ({ s with opt := { s.opt with hessian := L.gram J, solver := some f, hessianValid := true } },
             .ok ())))))) := by
  unfold prepare
  simp only [SE.bind_get]
  by_cases hv : s.opt.hessianValid = true
  · exact .inl ⟨hv, by rw [if_pos hv]; rfl⟩
  have hv' : s.opt.hessianValid = false := by simpa using hv
  rw [if_neg hv]
  by_cases hc : s.opt.complete = true
  · refine .inr (.inr ⟨hv', hc, ?_⟩)
    rw [if_neg (by simp [hc])]
    cases hj : s.graph.sparseJacobian with
    | threw => exact .inl ⟨.threw, by simp, rfl⟩
    | ub => exact .inl ⟨.ub, by simp, rfl⟩
    | ok J =>
      refine .inr ⟨J, rfl, ?_⟩
      rw [SE.bind_lift_ok]
      cases hf : L.factorize (L.gram J) with
      | none => exact .inl ⟨rfl, rfl⟩
      | some f =>
        refine .inr ⟨f, rfl, ?_⟩
        dsimp only
        split
        · exact .inl rfl
        · exact .inr rfl
  · have hc' : s.opt.complete = false := by simpa using hc
    exact .inr (.inl ⟨hv', hc', by rw [if_pos (by simp [hc'])]; rfl⟩)

/-- The flags tell the truth about the history. -/
def FlagsTrue (evs : List (Call F V × Res Unit)) (s : OptWorld F V Fact) : Prop :=
  (s.opt.complete = true ↔ OptimizedSinceSetup evs) ∧ (s.opt.hessianValid = true → PreparedSinceSetup evs)

theorem flagsTrue_step {A : Arith F} {L : LinAlg F Fact} {env : Env F V} {c : Call F V} {s s' : OptWorld F V Fact}
    {r : Res Unit} {evs : List (Call F V × Res Unit)} (hs : FlagsTrue evs s) (e : step A L env c s = (s', r))
    (hr : r ≠ .ub) : FlagsTrue (evs ++ [(c, r)]) s' := by
  obtain ⟨h1, h2⟩ := hs
  cases c with
  | user op =>
    have ho : s'.opt = s.opt := (congrArg (fun p : OptWorld F V Fact × Res Unit => p.1.opt) e).symm
    refine ⟨?_, ?_⟩
    · rw [optimizedSince_snoc, ho, h1]; simp
    · rw [ho]; intro h; exact preparedSince_snoc (.inr ⟨h2 h, by simp⟩)
  | setup g st =>
    have ho : s'.opt = { s.opt with settings := st, hasGraph := g, complete := false, hessianValid := false } :=
      (congrArg (fun p : OptWorld F V Fact × Res Unit => p.1.opt) e).symm
    refine ⟨?_, ?_⟩
    · rw [optimizedSince_snoc, ho]; simp
    · rw [ho]; simp
  | optimize =>
    have e' : optimize A L env s = (s', r) := e
    have hf := optimize_flags A L env s (by rw [e']; exact hr)
    rw [e'] at hf
    dsimp only at hf
    obtain ⟨f1, _, _, _, f2, f3⟩ := hf
    refine ⟨?_, ?_⟩
    · rw [optimizedSince_snoc]
      cases r with
      | ok u => simp [f2 rfl]
      | threw => rw [f3 rfl, h1]; simp
      | ub => exact absurd rfl hr
    · rw [f1]; intro h; exact preparedSince_snoc (.inr ⟨h2 h, by simp⟩)
  | prepare =>
    have e' : prepare A L s = (s', r) := e
    have hcomp : s'.opt.complete = s.opt.complete ∧ (s'.opt.hessianValid = true →
        s.opt.hessianValid = true ∨ (r = .ok () ∧ s.opt.complete = true)) := by
      rcases prepare_cases A L s with ⟨_, h⟩ | ⟨_, _, h⟩ | ⟨hv, hc, h⟩
      · rw [h] at e'; cases e'; exact ⟨rfl, .inl⟩
      · rw [h] at e'; cases e'; exact ⟨rfl, .inl⟩
      · rcases h with ⟨r', _, h⟩ | ⟨J, _, ⟨_, h⟩ | ⟨f, _, h | h⟩⟩ <;> rw [h] at e' <;> cases e'
        · exact ⟨rfl, .inl⟩
        · exact ⟨rfl, .inl⟩
        · exact absurd rfl hr
        · exact ⟨rfl, fun _ => .inr ⟨rfl, hc⟩⟩
    refine ⟨?_, ?_⟩
    · rw [optimizedSince_snoc, hcomp.1, h1]; simp
    · intro h
      rcases hcomp.2 h with h | ⟨rfl, h⟩
      · exact preparedSince_snoc (.inr ⟨h2 h, by simp⟩)
      · exact preparedSince_snoc (.inl ⟨rfl, h1.1 h⟩)

theorem flagsTrue_runs {A : Arith F} {L : LinAlg F Fact} {evs0 evs : List (Call F V × Res Unit)}
    {s s' : OptWorld F V Fact} (hs : FlagsTrue evs0 s) (h : Runs A L s evs s') : FlagsTrue (evs0 ++ evs) s' := by
  induction h generalizing evs0 with
  | nil s => simpa using hs
  | cons env e hne _ ih =>
    have := ih (flagsTrue_step hs e hne)
    simpa using this

theorem flagsTrue_init (A : Arith F) (h0 : Heap V) : FlagsTrue [] (init A h0 : OptWorld F V Fact) :=
  ⟨by simp [init, Optimizer.init, OptimizedSinceSetup], by simp [init, Optimizer.init]⟩

end Factorama.Opt
